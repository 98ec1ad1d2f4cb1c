import Verif.Props.EulerRarefaction

/-!
# LeBlanc's shock tube (C80)
-/

namespace Ryujin
namespace InitialStates

open Euler (State mkState)
open Spec (fan SolvesAt SolvesEuler gasPressure RankineHugoniot eulerFlux)
open scoped BigOperators

variable {d : ℕ}

theorem leblanc_fan (chi : ℝ) : fan (5 / 3) 1 0 (1 / 15) (1 / 3) chi =
    ⟨(0.75 - 0.75 * chi) ^ (3 : ℝ), 0.75 * (1 / 3 + chi), (1 / 15) * (0.75 - 0.75 * chi) ^ (5 : ℝ)⟩ := by
  have hb : 2 / ((5 / 3 : ℝ) + 1) + ((5 / 3 : ℝ) - 1) / (((5 / 3 : ℝ) + 1) * (1 / 3)) * (0 - chi) = 0.75 - 0.75 * chi := by
    ring
  have e1 : 2 / ((5 / 3 : ℝ) - 1) = 3 := by norm_num
  have e2 : 2 * (5 / 3 : ℝ) / ((5 / 3 : ℝ) - 1) = 5 := by norm_num
  unfold Spec.fan
  dsimp only
  rw [hb, e1, e2, one_mul]
  congr 1
  ring

/-- Left of the tail of the rarefaction the state is the fan, truncated at its head. -/
theorem leblanc_left (x : Vec (d + 1)) (t : ℝ) (ht : 0 < t) (hx : x 0 / t < 0.49578489518897934) :
    leblanc x t = (fan (5 / 3) 1 0 (1 / 15) (1 / 3) (max (-1 / 3) (x 0 / t))).conserved (5 / 3) := by
  unfold leblanc
  dsimp only
  congr 1
  split_ifs with h1 h2
  · have h3 : x 0 / t ≤ -1 / 3 := (div_le_iff₀ ht).2 h1
    rw [max_eq_left h3, leblanc_fan]
    norm_num
  · have h3 : -1 / 3 ≤ x 0 / t := (le_div_iff₀ ht).2 (not_le.1 h1).le
    rw [max_eq_right h3, leblanc_fan]
  all_goals exact absurd ((div_lt_iff₀ ht).1 hx) h2

theorem leblanc_star (x : Vec (d + 1)) (t : ℝ) (ht : 0 < t) (h1 : 0.49578489518897934 ≤ x 0 / t)
    (h2 : x 0 / t < 0.62183867139173454) :
    leblanc x t = (⟨5.4079335349316249e-02, 0.62183867139173454, 0.51557792765096996e-03⟩ : Primitive).conserved (5 / 3) := by
  rw [le_div_iff₀ ht] at h1
  rw [div_lt_iff₀ ht] at h2
  unfold leblanc
  dsimp only
  rw [if_neg (by nlinarith), if_neg h1.not_gt, if_pos h2]

theorem leblanc_post (x : Vec (d + 1)) (t : ℝ) (ht : 0 < t) (h1 : 0.62183867139173454 ≤ x 0 / t)
    (h2 : x 0 / t < 0.82911836253346982) :
    leblanc x t = (⟨3.9999980604299963e-03, 0.62183867139173454, 0.51557792765096996e-03⟩ : Primitive).conserved (5 / 3) := by
  rw [le_div_iff₀ ht] at h1
  rw [div_lt_iff₀ ht] at h2
  unfold leblanc
  dsimp only
  rw [if_neg (by nlinarith), if_neg (by nlinarith), if_neg h1.not_gt, if_pos h2]

theorem leblanc_right (x : Vec (d + 1)) (t : ℝ) (ht : 0 < t) (h1 : 0.82911836253346982 ≤ x 0 / t) :
    leblanc x t = (⟨1e-3, 0, 2 / 3 * 1e-10⟩ : Primitive).conserved (5 / 3) := by
  rw [le_div_iff₀ ht] at h1
  unfold leblanc
  dsimp only
  rw [if_neg (by nlinarith), if_neg (by nlinarith), if_neg (by nlinarith), if_neg h1.not_gt]

theorem eulerFlux_zero {gamma : ℝ} (hg : gamma ≠ 1) (s : Primitive) (hr : s.rho ≠ 0) :
    eulerFlux (gasPressure gamma) (s.conserved gamma : State (d + 1)) 0 =
      mkState (s.rho * s.u) (fun i => if i = 0 then s.rho * s.u * s.u + s.p else 0)
        ((s.p / (gamma - 1) + 0.5 * s.rho * s.u * s.u + s.p) * s.u) := by
  unfold Spec.eulerFlux
  rw [conserved_pressure hg]
  unfold Primitive.conserved
  simp only [Euler.density_mkState, Euler.momentum_mkState, Euler.totalEnergy_mkState]
  congr 1
  · funext i
    by_cases hi : i = 0
    · simp [hi]; field_simp
    · simp [hi]
  · simp; field_simp

/-- The jump condition for planar states: only the first flux enters. -/
theorem rankineHugoniot_planar {gamma s : ℝ} (hg : gamma ≠ 1) (L R : Primitive) (hL : L.rho ≠ 0) (hR : R.rho ≠ 0) :
    RankineHugoniot (eulerFlux (gasPressure gamma)) (fun k : Fin (d + 1) => if k = 0 then 1 else 0) s
      (L.conserved gamma) (R.conserved gamma) ↔
      R.rho * R.u - L.rho * L.u = s * (R.rho - L.rho) ∧
      (R.rho * R.u * R.u + R.p) - (L.rho * L.u * L.u + L.p) = s * (R.rho * R.u - L.rho * L.u) ∧
      (R.p / (gamma - 1) + 0.5 * R.rho * R.u * R.u + R.p) * R.u - (L.p / (gamma - 1) + 0.5 * L.rho * L.u * L.u + L.p) * L.u =
        s * ((R.p / (gamma - 1) + 0.5 * R.rho * R.u * R.u) - (L.p / (gamma - 1) + 0.5 * L.rho * L.u * L.u)) := by
  unfold Spec.RankineHugoniot
  have hsum : ∑ k : Fin (d + 1), (if k = 0 then (1 : ℝ) else 0) • (eulerFlux (gasPressure gamma) (R.conserved gamma) k -
      eulerFlux (gasPressure gamma) (L.conserved gamma) k) =
      eulerFlux (gasPressure gamma) (R.conserved gamma : State (d + 1)) 0 -
        eulerFlux (gasPressure gamma) (L.conserved gamma) 0 := by
    rw [Finset.sum_eq_single 0]
    · simp
    · intro k _ hk; simp [hk]
    · intro h; exact absurd (Finset.mem_univ _) h
  rw [hsum, eulerFlux_zero hg R hR, eulerFlux_zero hg L hL]
  unfold Primitive.conserved
  constructor
  · intro h
    refine ⟨?_, ?_, ?_⟩
    · have := congrArg Euler.density h
      simpa [Euler.density, mkState] using this
    · have := congrFun (congrArg Euler.momentum h) 0
      simpa [Euler.momentum, mkState] using this
    · have := congrArg Euler.totalEnergy h
      simpa [Euler.totalEnergy, mkState] using this
  · rintro ⟨h1, h2, h3⟩
    refine Euler.state_ext ?_ ?_ ?_
    · simpa [Euler.density, mkState] using h1
    · funext i
      by_cases hi : i = 0
      · simpa [Euler.momentum, mkState, hi] using h2
      · simp [Euler.momentum, mkState, hi]
    · simpa [Euler.totalEnergy, mkState] using h3

/-- **C80 (partial).**  LeBlanc's shock tube for `γ = 5/3` and positive time: density and pressure are positive; the field
solves the Euler equations away from four planes (head and tail of the rarefaction, contact, shock); it is continuous across
the head; the contact satisfies the jump conditions.

Missing for an exact solution: the six constants of the code are decimal fractions, so the field jumps at the tail by
at most `10⁻¹⁶` (density, velocity, pressure), and the jump conditions at the shock hold up to `10⁻¹⁹`. -/
theorem C80_leblanc_partial (t : ℝ) (ht : 0 < t) :
    (∀ x : Vec (d + 1), 0 < Euler.density (leblanc x t) ∧ 0 < gasPressure (5 / 3) (leblanc x t)) ∧
      (∀ x : Vec (d + 1), x 0 / t ≠ -1 / 3 → x 0 / t ≠ 0.49578489518897934 → x 0 / t ≠ 0.62183867139173454 →
        x 0 / t ≠ 0.82911836253346982 → SolvesEuler (5 / 3) leblanc x t) ∧
      ContinuousOn (fun x : Vec (d + 1) => leblanc x t) {x | x 0 / t < 0.49578489518897934} ∧
      (∀ x y : Vec (d + 1), 0.49578489518897934 ≤ x 0 / t → x 0 / t < 0.62183867139173454 →
        0.62183867139173454 ≤ y 0 / t → y 0 / t < 0.82911836253346982 →
        RankineHugoniot (eulerFlux (gasPressure (5 / 3))) (fun k => if k = 0 then 1 else 0) 0.62183867139173454
          (leblanc x t) (leblanc y t)) := by
  have h53 : (5 / 3 : ℝ) ≠ 1 := by norm_num
  have hbase : ∀ y : ℝ, y < 0.49578489518897934 → 0 < fanBase (5 / 3) 0 (1 / 3) (max (-1 / 3) y) := by
    intro y hy
    have : max (-1 / 3) y < 1 := max_lt (by norm_num) (lt_trans hy (by norm_num))
    have he : fanBase (5 / 3) 0 (1 / 3) (max (-1 / 3) y) = 3 / 4 - 3 / 4 * max (-1 / 3) y := by unfold fanBase; ring
    rw [he]; linarith
  refine ⟨fun x => ?_, fun x h1 h2 h3 h4 => ?_, ?_, fun x y h1 h2 h3 h4 => ?_⟩
  · by_cases h1 : x 0 / t < 0.49578489518897934
    · rw [leblanc_left x t ht h1, conserved_density, conserved_pressure h53]
      have := hbase _ h1
      unfold fanBase at this
      exact ⟨mul_pos one_pos (Real.rpow_pos_of_pos this _), mul_pos (by norm_num) (Real.rpow_pos_of_pos this _)⟩
    · by_cases h2 : x 0 / t < 0.62183867139173454
      · rw [leblanc_star x t ht (not_lt.1 h1) h2, conserved_density, conserved_pressure h53]
        norm_num
      · by_cases h3 : x 0 / t < 0.82911836253346982
        · rw [leblanc_post x t ht (not_lt.1 h2) h3, conserved_density, conserved_pressure h53]
          norm_num
        · rw [leblanc_right x t ht (not_lt.1 h3), conserved_density, conserved_pressure h53]
          norm_num
  · have htev : ∀ᶠ s in nhds t, 0 < s := lt_mem_nhds ht
    have hdivt : ContinuousAt (fun s => x 0 / s) t := continuousAt_const.div continuousAt_id ht.ne'
    have hdivx : ContinuousAt (fun y => y / t) (x 0) := continuousAt_id.div_const _
    have hconst : ∀ (C : Primitive) (a b : ℝ), a < x 0 / t → x 0 / t < b →
        (∀ (x : Vec (d + 1)) s, 0 < s → a < x 0 / s → x 0 / s < b → leblanc x s = C.conserved (5 / 3)) →
        SolvesEuler (5 / 3) leblanc x t := by
      intro C a b ha hb hC
      refine solves_of_eventually (fun y s => 0 < s ∧ a < y / s ∧ y / s < b) (W := fun _ _ => C.conserved (5 / 3)) ?_ ?_ ?_
        (Spec.solvesAt_const _ _ _ _)
      · intro x s hs
        exact hC x s hs.1 hs.2.1 hs.2.2
      · exact htev.and ((hdivt.eventually (lt_mem_nhds ha)).and (hdivt.eventually (gt_mem_nhds hb)))
      · exact ((hdivx.eventually (lt_mem_nhds ha)).and (hdivx.eventually (gt_mem_nhds hb))).mono fun y hy => ⟨ht, hy⟩
    rcases lt_or_gt_of_ne h1 with h1 | h1
    · refine hconst (fan (5 / 3) 1 0 (1 / 15) (1 / 3) (-1 / 3)) (x 0 / t - 1) (-1 / 3) (by linarith) h1 ?_
      intro x s hs _ hx
      rw [leblanc_left x s hs (lt_trans hx (by norm_num)), max_eq_left hx.le]
    · rcases lt_or_gt_of_ne h2 with h2 | h2
      · refine solves_of_eventually (fun y s => 0 < s ∧ -1 / 3 < y / s ∧ y / s < 0.49578489518897934)
          (W := fun x s => (fan (5 / 3) 1 0 (1 / 15) (1 / 3) (x 0 / s)).conserved (5 / 3)) ?_ ?_ ?_ ?_
        · intro x s hs
          rw [leblanc_left x s hs.1 hs.2.2, max_eq_right hs.2.1.le]
        · exact htev.and ((hdivt.eventually (lt_mem_nhds h1)).and (hdivt.eventually (gt_mem_nhds h2)))
        · exact ((hdivx.eventually (lt_mem_nhds h1)).and (hdivx.eventually (gt_mem_nhds h2))).mono fun y hy => ⟨ht, hy⟩
        · refine Spec.fan_solves (by norm_num) one_pos (by norm_num) (by norm_num) x t ht.ne' ?_
          have := hbase _ h2
          rwa [max_eq_right h1.le] at this
      · rcases lt_or_gt_of_ne h3 with h3 | h3
        · exact hconst _ _ _ h2 h3 fun x s hs ha hb => leblanc_star x s hs ha.le hb
        · rcases lt_or_gt_of_ne h4 with h4 | h4
          · exact hconst _ _ _ h3 h4 fun x s hs ha hb => leblanc_post x s hs ha.le hb
          · exact hconst _ _ (x 0 / t + 1) h4 (by linarith) fun x s hs ha _ => leblanc_right x s hs ha.le
  · have hcont : ContinuousOn (fun x : Vec (d + 1) =>
        ((fan (5 / 3) 1 0 (1 / 15) (1 / 3) (max (-1 / 3) (x 0 / t))).conserved (5 / 3) : State (d + 1)))
        {x | x 0 / t < 0.49578489518897934} := by
      refine fan_continuous ?_ fun y hy => hbase _ hy
      refine Continuous.continuousOn ?_
      fun_prop
    exact hcont.congr fun x hx => leblanc_left x t ht hx
  · rw [leblanc_star x t ht h1 h2, leblanc_post y t ht h3 h4, rankineHugoniot_planar h53 _ _ (by norm_num) (by norm_num)]
    norm_num

/-- **C80.**  Size of the defects of `leblanc`: at the tail the limit from the left differs from the state on the right by at
most `10⁻¹⁶` in every conserved quantity, and at the shock every jump condition is violated by at most `10⁻¹⁹`. -/
theorem C80_leblanc_defect (t : ℝ) (ht : 0 < t) :
    (∀ x y : Vec (d + 1), x 0 / t = 0.49578489518897934 → y 0 / t < 0.62183867139173454 →
      0.49578489518897934 ≤ y 0 / t → ∃ L : State (d + 1),
        Filter.Tendsto (fun s => leblanc (Function.update x 0 s) t) (nhdsWithin (x 0) (Set.Iio (x 0))) (nhds L) ∧
        ∀ i, |L i - leblanc y t i| ≤ 1e-16) ∧
    (∀ x y : Vec (d + 1), 0.62183867139173454 ≤ x 0 / t → x 0 / t < 0.82911836253346982 → 0.82911836253346982 ≤ y 0 / t →
      ∀ i, |eulerFlux (gasPressure (5 / 3)) (leblanc y t) 0 i - eulerFlux (gasPressure (5 / 3)) (leblanc x t) 0 i -
        0.82911836253346982 * (leblanc y t i - leblanc x t i)| ≤ 1e-19) := by
  have h53 : (5 / 3 : ℝ) ≠ 1 := by norm_num
  constructor
  · intro x y hx hy1 hy2
    refine ⟨(fan (5 / 3) 1 0 (1 / 15) (1 / 3) 0.49578489518897934).conserved (5 / 3), ?_, ?_⟩
    · have hcont : ContinuousOn (fun s : ℝ =>
          ((fan (5 / 3) 1 0 (1 / 15) (1 / 3) (max (-1 / 3) (s / t))).conserved (5 / 3) : State (d + 1)))
          {s | s / t < 1} := by
        refine fan_continuous (Continuous.continuousOn (by fun_prop)) fun s hs => ?_
        have : max (-1 / 3) (s / t) < 1 := max_lt (by norm_num) hs
        have he : fanBase (5 / 3) 0 (1 / 3) (max (-1 / 3) (s / t)) = 3 / 4 - 3 / 4 * max (-1 / 3) (s / t) := by
          unfold fanBase; ring
        rw [he]; linarith
      have hopen : {s : ℝ | s / t < 1} ∈ nhds (x 0) := by
        refine IsOpen.mem_nhds (isOpen_lt (by fun_prop) continuous_const) ?_
        show x 0 / t < 1
        rw [hx]; norm_num
      have h1 := (hcont.continuousAt hopen).tendsto
      simp only [hx] at h1
      rw [max_eq_right (by norm_num)] at h1
      refine (h1.mono_left nhdsWithin_le_nhds).congr' ?_
      filter_upwards [self_mem_nhdsWithin] with s hs
      have hs' : s / t < 0.49578489518897934 := by
        rw [← hx]
        exact div_lt_div_of_pos_right hs ht
      have := leblanc_left (Function.update x 0 s) t ht (by rw [Function.update_self]; exact hs')
      rw [Function.update_self] at this
      exact this.symm
    · rw [leblanc_star y t ht hy2 hy1, leblanc_fan]
      have e1 : ∀ z : ℝ, z ^ (3 : ℝ) = z ^ 3 := fun z => by rw [← Real.rpow_natCast]; norm_num
      have e2 : ∀ z : ℝ, z ^ (5 : ℝ) = z ^ 5 := fun z => by rw [← Real.rpow_natCast]; norm_num
      rw [e1, e2]
      intro i
      unfold Primitive.conserved
      refine Fin.cases ?_ (fun j => ?_) i
      · simp only [mkState, Fin.cons_zero]
        rw [abs_le]; constructor <;> norm_num
      · refine Fin.lastCases ?_ (fun k => ?_) j
        · simp only [mkState, Fin.cons_succ, Fin.snoc_last]
          rw [abs_le]; constructor <;> norm_num
        · simp only [mkState, Fin.cons_succ, Fin.snoc_castSucc]
          split_ifs
          · rw [abs_le]; constructor <;> norm_num
          · norm_num
  · intro x y h1 h2 h3 i
    rw [leblanc_post x t ht h1 h2, leblanc_right y t ht h3, eulerFlux_zero h53 _ (by norm_num),
      eulerFlux_zero h53 _ (by norm_num)]
    unfold Primitive.conserved
    refine Fin.cases ?_ (fun j => ?_) i
    · simp only [mkState, Fin.cons_zero]
      rw [abs_le]; constructor <;> norm_num
    · refine Fin.lastCases ?_ (fun k => ?_) j
      · simp only [mkState, Fin.cons_succ, Fin.snoc_last]
        rw [abs_le]; constructor <;> norm_num
      · simp only [mkState, Fin.cons_succ, Fin.snoc_castSucc]
        split_ifs
        · rw [abs_le]; constructor <;> norm_num
        · norm_num

/-- The hypotheses of `C80_leblanc_partial` and `C80_leblanc_defect` are met, for example by a point of the plateau between
contact and shock at time 1. -/
example : ∃ x : Vec 1, 0.62183867139173454 ≤ x 0 / 1 ∧ x 0 / 1 < (0.82911836253346982 : ℝ) :=
  ⟨fun _ => 0.7, by norm_num, by norm_num⟩

end InitialStates
end Ryujin
