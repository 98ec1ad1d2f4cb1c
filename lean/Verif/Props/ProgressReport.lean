import Verif.Model.ProgressReport
import Mathlib.Tactic.Linarith
import Mathlib.Tactic.FieldSimp
import Mathlib.Tactic.NormNum
import Mathlib.Tactic.Positivity
import Mathlib.Topology.Instances.Real.Lemmas
import Mathlib.Analysis.SpecificLimits.Basic

/-!
# C110: progress reports

What the statistics printed during a run say about the run.
-/

namespace Ryujin
namespace Progress

/-- The statistics a user expects: averages over the part of the run between two samples of the
cycle number, the simulation time and the timers. -/
structure AveragesBetween (a b : Data) (r : Report) : Prop where
  step_size : r.delta_time * ((b.cycle : ℝ) - a.cycle) = b.t - a.t
  rate : r.time_per_second * (b.wall_time - a.wall_time) = b.t - a.t
  cycles : r.cycles_per_second * (b.wall_time - a.wall_time) = (b.cycle : ℝ) - a.cycle

theorem unsignedSub_eq {a b : ℕ} (h : b ≤ a) (ha : a < 2 ^ 32) : unsignedSub a b = a - b := by
  unfold unsignedSub
  have : a + 2 ^ 32 - b = (a - b) + 2 ^ 32 := by omega
  rw [this, Nat.add_mod_right, Nat.mod_eq_of_lt (by omega)]

theorem averages_aux (n e th tf : ℝ) (s : Static) (a b : Data) (final : Bool)
    (hp : (if final then ({} : Data) else s.current) = a) (hc : a.cycle < b.cycle)
    (hb : b.cycle < 2 ^ 32) (hw : a.wall_time < b.wall_time) :
    AveragesBetween a b (printThroughput n e th tf s b final).2 := by
  have hs : unsignedSub b.cycle a.cycle = b.cycle - a.cycle := unsignedSub_eq hc.le hb
  have hcast : ((b.cycle - a.cycle : ℕ) : ℝ) = (b.cycle : ℝ) - a.cycle := Nat.cast_sub hc.le
  have h1 : (0 : ℝ) < (b.cycle : ℝ) - a.cycle := by
    rw [sub_pos]; exact_mod_cast hc
  have h2 : 0 < b.wall_time - a.wall_time := by linarith
  unfold printThroughput
  rw [hp]
  refine ⟨?_, ?_, ?_⟩
  · simp only
    rw [hs, hcast, div_mul_cancel₀ _ h1.ne']
  · exact div_mul_cancel₀ _ h2.ne'
  · simp only
    rw [hs, hcast, div_mul_cancel₀ _ h2.ne']

/-- **C110.** Every report but the first and the final one gives the averages since the report
before. -/
theorem C110_since_last_report (n e th tf : ℝ) (s : Static) (a b : Data) (fa : Bool)
    (hc : a.cycle < b.cycle) (hb : b.cycle < 2 ^ 32) (hw : a.wall_time < b.wall_time) :
    AveragesBetween a b
      (printThroughput n e th tf (printThroughput n e th tf s a fa).1 b false).2 :=
  averages_aux n e th tf _ a b false rfl hc hb hw

/-- **C110.** In a run that starts at time zero the first and the final report give the averages over
the run. -/
theorem C110_whole_run (n e th tf : ℝ) (s : Static) (b : Data) (hc : 0 < b.cycle)
    (hb : b.cycle < 2 ^ 32) (hw : 0 < b.wall_time) :
    AveragesBetween {} b (printThroughput n e th tf s b true).2
      ∧ AveragesBetween {} b (printThroughput n e th tf {} b false).2 :=
  ⟨averages_aux n e th tf s {} b true rfl hc hb hw,
    averages_aux n e th tf {} {} b false rfl hc hb hw⟩

/-- **C110 (violation).** In a run that was resumed at a positive time, the first and the final
report do not give the averages over the run: the time simulated before the restart is counted, and the
reported step size and rate are too large. -/
theorem C110_resumed_run_violation (n e th tf : ℝ) (s : Static) (start b : Data)
    (hstart : start.cycle = 0) (hs0 : start.wall_time = 0) (ht : 0 < start.t) (hc : 0 < b.cycle)
    (hb : b.cycle < 2 ^ 32) (hw : 0 < b.wall_time) :
    ¬ AveragesBetween start b (printThroughput n e th tf s b true).2
      ∧ ¬ AveragesBetween start b (printThroughput n e th tf {} b false).2
      ∧ (b.t - start.t) / b.cycle < (printThroughput n e th tf s b true).2.delta_time := by
  obtain ⟨h1, h2⟩ := C110_whole_run n e th tf s b hc hb hw
  have hcr : (0 : ℝ) < b.cycle := by exact_mod_cast hc
  have e1 := h1.step_size
  have e2 := h2.step_size
  simp only [Nat.cast_zero, sub_zero] at e1 e2
  refine ⟨fun h => ?_, fun h => ?_, ?_⟩
  · have := h.step_size
    rw [hstart, Nat.cast_zero, sub_zero] at this
    linarith
  · have := h.step_size
    rw [hstart, Nat.cast_zero, sub_zero] at this
    linarith
  · rw [div_lt_iff₀ hcr]
    linarith

/-- A resumed run with three cycles. -/
example : ¬ AveragesBetween ⟨0, 1, 0, 0, 0, 0, 0⟩ ⟨3, 2, 5, 5, 5, 5, 5⟩
    (printThroughput 100 1 1 10 {} ⟨3, 2, 5, 5, 5, 5, 5⟩ true).2 :=
  (C110_resumed_run_violation 100 1 1 10 {} ⟨0, 1, 0, 0, 0, 0, 0⟩ ⟨3, 2, 5, 5, 5, 5, 5⟩ rfl rfl
    one_pos (by norm_num) (by norm_num) (by norm_num)).1

/-- Two consecutive reports of a run. -/
example : AveragesBetween ⟨3, 2, 5, 5, 5, 5, 5⟩ ⟨7, 3, 9, 9, 9, 9, 9⟩
    (printThroughput 100 1 1 10 (printThroughput 100 1 1 10 {} ⟨3, 2, 5, 5, 5, 5, 5⟩ false).1
      ⟨7, 3, 9, 9, 9, 9, 9⟩ false).2 :=
  C110_since_last_report 100 1 1 10 {} _ _ false (by norm_num) (by norm_num) (by norm_num)

/-- The static variables after a list of reports. -/
noncomputable def afterReports (n e th tf : ℝ) (l : List Data) : Static :=
  l.foldl (fun s d => (printThroughput n e th tf s d false).1) {}

/-- The reports made along a list of samples. -/
noncomputable def ratesOf (n e th tf : ℝ) : Static → List Data → List ℝ
  | _, [] => []
  | s, d :: l => (printThroughput n e th tf s d false).2.time_per_second
      :: ratesOf n e th tf (printThroughput n e th tf s d false).1 l

theorem exp_after (n e th tf r : ℝ) (l : List Data) (s : Static)
    (h : ∀ x ∈ ratesOf n e th tf s l, x = r) :
    (l.foldl (fun s d => (printThroughput n e th tf s d false).1) s).time_per_second_exp
      = r - 0.8 ^ l.length * (r - s.time_per_second_exp) := by
  induction l generalizing s with
  | nil => simp
  | cons d l ih =>
    rw [List.foldl_cons, ih _ (fun x hx => h x (List.mem_cons_of_mem _ hx))]
    have h0 := h _ (List.mem_cons_self ..)
    have e1 : (printThroughput n e th tf s d false).1.time_per_second_exp
        = 0.8 * s.time_per_second_exp
          + 0.2 * (printThroughput n e th tf s d false).2.time_per_second := rfl
    rw [e1, h0, List.length_cons, pow_succ]
    ring

/-- **C110.** If the simulation advances at a constant rate, the estimated remaining time of the
`k`-th report is the true remaining time divided by `1 - 0.8^k`. -/
theorem C110_eta_constant_rate (n e th tf r : ℝ) (l : List Data) (hr : 0 < r) (hl : l ≠ [])
    (h : ∀ x ∈ ratesOf n e th tf {} l, x = r) :
    let s := afterReports n e th tf l
    let true_remaining := max (tf - s.current.t) 0 / r
    max (tf - s.current.t) 0 / s.time_per_second_exp
        = true_remaining / (1 - 0.8 ^ l.length)
      ∧ true_remaining ≤ max (tf - s.current.t) 0 / s.time_per_second_exp := by
  intro s true_remaining
  have he : s.time_per_second_exp = r * (1 - 0.8 ^ l.length) := by
    have := exp_after n e th tf r l {} h
    simp only [sub_zero] at this
    have hs : s.time_per_second_exp = r - 0.8 ^ l.length * r := this
    rw [hs]; ring
  have hp : (0.8 : ℝ) ^ l.length < 1 :=
    pow_lt_one₀ (by norm_num) (by norm_num) (by simpa [List.length_eq_zero_iff] using hl)
  have hp0 : (0 : ℝ) ≤ 0.8 ^ l.length := by positivity
  have hnn : 0 ≤ max (tf - s.current.t) 0 := le_max_right _ _
  refine ⟨?_, ?_⟩
  · rw [he, ← div_div]
  · rw [he]
    refine div_le_div_of_nonneg_left hnn (mul_pos hr (by linarith)) ?_
    nlinarith

/-- Two reports at the constant rate one half. -/
example : ∀ x ∈ ratesOf 100 1 1 10 {} [⟨1, 1, 2, 2, 2, 2, 2⟩, ⟨2, 2, 4, 4, 4, 4, 4⟩], x = 1 / 2 := by
  intro x hx
  simp only [ratesOf, List.mem_cons, List.not_mem_nil, or_false] at hx
  rcases hx with rfl | rfl <;> norm_num [printThroughput]

/-- The factor by which the estimate is too long tends to one. -/
theorem C110_eta_converges :
    Filter.Tendsto (fun k : ℕ => 1 / (1 - (0.8 : ℝ) ^ k)) Filter.atTop (nhds 1) := by
  have h : Filter.Tendsto (fun k : ℕ => (0.8 : ℝ) ^ k) Filter.atTop (nhds 0) :=
    tendsto_pow_atTop_nhds_zero_of_lt_one (by norm_num) (by norm_num)
  have h1 : Filter.Tendsto (fun k : ℕ => 1 - (0.8 : ℝ) ^ k) Filter.atTop (nhds (1 - 0)) :=
    tendsto_const_nhds.sub h
  have h2 := (tendsto_const_nhds (x := (1 : ℝ))).div h1 (by norm_num)
  rw [sub_zero, div_one] at h2
  exact h2

/-- **C110 (violation).** The first estimate is five times too long. -/
theorem C110_first_eta_violation (n e th tf : ℝ) (b : Data) (ht : 0 < b.t) (hw : 0 < b.wall_time)
    (hf : b.t < tf) :
    let s := (printThroughput n e th tf {} b false).1
    max (tf - b.t) 0 / s.time_per_second_exp = 5 * ((tf - b.t) / (b.t / b.wall_time)) := by
  intro s
  have e1 : s.time_per_second_exp = 0.2 * (b.t / b.wall_time) := by
    change 0.8 * (0 : ℝ) + 0.2 * ((b.t - 0) / (b.wall_time - 0)) = _
    rw [sub_zero, sub_zero]; ring
  rw [e1, max_eq_left (by linarith)]
  field_simp
  norm_num
  ring

/-- **C110.** The printed days, hours and minutes are the estimate, rounded down to minutes. -/
theorem C110_eta_printed (eta : ℕ) :
    let p := printEta eta
    let d := p.1.getD 0
    let h := p.2.1.getD 0
    h < 24 ∧ p.2.2 < 60 ∧ 86400 * d + 3600 * h + 60 * p.2.2 ≤ eta
      ∧ eta < 86400 * d + 3600 * h + 60 * p.2.2 + 60 := by
  unfold printEta
  dsimp only
  split_ifs <;> simp only [Option.getD_some, Option.getD_none] <;> omega

/-- **C110.** The two padded lines of the header have the same width as the lines above and below,
which consist of 52 hash signs, unless the text is longer than 34 characters. -/
theorem C110_header_width (text : List Char) (h : text.length ≤ 34) :
    (headLine text).length = 52 := by
  unfold headLine
  simp only [List.length_append, List.length_replicate]
  omega

/-- **C110.** The conversion of the estimate to an integer is defined if the simulation advanced and
the estimate is less than `2^32` seconds. -/
theorem C110_eta_defined (n e th tf : ℝ) (s : Static) (b : Data) (final : Bool)
    (hpos : 0 < (printThroughput n e th tf s b final).1.time_per_second_exp)
    (hlt : max (tf - b.t) 0 / (printThroughput n e th tf s b final).1.time_per_second_exp < 2 ^ 32) :
    ∃ k : ℕ, (printThroughput n e th tf s b final).2.eta = some k
      ∧ (k : ℝ) ≤ max (tf - b.t) 0 / (printThroughput n e th tf s b final).1.time_per_second_exp
      ∧ max (tf - b.t) 0 / (printThroughput n e th tf s b final).1.time_per_second_exp < k + 1 := by
  set x := max (tf - b.t) 0 / (printThroughput n e th tf s b final).1.time_per_second_exp with hx
  have hx0 : 0 ≤ x := div_nonneg (le_max_right _ _) hpos.le
  have e1 : (printThroughput n e th tf s b final).2.eta
      = toUnsigned (max (tf - b.t) 0) (printThroughput n e th tf s b final).1.time_per_second_exp := rfl
  have hfl : (0 : ℤ) ≤ ⌊x⌋ := Int.floor_nonneg.2 hx0
  have hcast : ((⌊x⌋.toNat : ℕ) : ℝ) = (⌊x⌋ : ℝ) := by
    have : ((⌊x⌋.toNat : ℕ) : ℤ) = ⌊x⌋ := Int.toNat_of_nonneg hfl
    exact_mod_cast this
  refine ⟨⌊x⌋.toNat, ?_, ?_, ?_⟩
  · rw [e1]
    unfold toUnsigned
    rw [if_neg hpos.ne', if_pos ⟨by linarith, hlt⟩]
  · rw [hcast]; exact Int.floor_le x
  · rw [hcast]; exact Int.lt_floor_add_one x

/-- **C110 (violation).** If nothing was simulated (the run starts at time zero and the final time is
zero), the conversion of the estimate is undefined behaviour. -/
theorem C110_eta_undefined_violation (n e th : ℝ) (b : Data) (ht : b.t = 0) :
    (printThroughput n e th 0 {} b true).2.eta = none := by
  have e1 : (printThroughput n e th 0 {} b true).2.eta
      = toUnsigned (max (0 - b.t) 0) (0.8 * 0 + 0.2 * ((b.t - 0) / (b.wall_time - 0))) := rfl
  rw [e1, ht]
  unfold toUnsigned
  rw [if_pos (by norm_num)]

end Progress
end Ryujin
