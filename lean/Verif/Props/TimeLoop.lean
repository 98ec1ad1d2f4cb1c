import Verif.Proofs.TimeLoop
import Mathlib.Algebra.Order.Floor.Semiring
import Mathlib.Algebra.Order.Floor.Ring
import Mathlib.Algebra.Order.Archimedean.Real.Basic
import Mathlib.Tactic.IntervalCases
import Mathlib.Tactic.NormNum
import Mathlib.Tactic.FieldSimp

/-!
# C23, C24, C41 – the time loop

`IsRun c e st N`: the states at the beginning of the passes `0, …, N` through the loop body are
`st 0, …, st N`.  `Event.vtu name k t s full levelsets` is the graphical output number `k`, written at time
`t` for the state `s`.
-/

namespace Ryujin
namespace TimeLoop

variable {S W : Type}

/-! ### C23 -/

/-- **C23 (never early).** Output number `k` is written with the current time `t`, which is at least `k` times
the timer granularity, and only if it is due according to the multipliers. -/
theorem C23_never_early (c : Config) (e : Env S W) (σ : State S W) {name : Bool} {k : ℕ} {t : ℝ} {s : S} {f l : Bool}
    (h : Event.vtu name k t s f l ∈ (iteration c e σ).events) :
    t = σ.t ∧ k * c.granularity ≤ t ∧ (f = true ↔ c.full = true ∧ c.mFull ∣ k) ∧
      (l = true ↔ c.levelsets = true ∧ c.mLevelsets ∣ k) := by
  obtain ⟨rfl, rfl, h1, rfl, rfl, -⟩ := vtu_mem h
  refine ⟨rfl, h1, ?_, ?_⟩ <;>
    simp only [Bool.and_eq_true, decide_eq_true_eq, Nat.dvd_iff_mod_eq_zero] <;> tauto

/-- **C23 (at most once, in order).** In any run output numbers increase strictly from pass to pass, and one pass
writes at most one output under each name. -/
theorem C23_in_order (c : Config) (e : Env S W) (st : ℕ → State S W) (N : ℕ) (hr : IsRun c e st N) {i j : ℕ}
    (hj : j ≤ N) {name name' : Bool} {k k' : ℕ} {t t' : ℝ} {s s' : S} {f f' l l' : Bool}
    (hi : Event.vtu name k t s f l ∈ (iteration c e (st i)).events)
    (hj' : Event.vtu name' k' t' s' f' l' ∈ (iteration c e (st j)).events) :
    (i < j → k < k') ∧ (i = j → k = k') ∧
      ∀ n, (((iteration c e (st i)).events).filter (Event.isVtu n)).length ≤ 1 := by
  obtain ⟨rfl, -, h1, -⟩ := vtu_mem hi
  obtain ⟨rfl, -, h2, -⟩ := vtu_mem hj'
  refine ⟨fun hij => ?_, fun hij => by rw [hij], fun n => vtu_unique c e _ n⟩
  obtain ⟨ev, he⟩ := hr i (by omega)
  have hm := run_cycle_mono hr (i := i + 1) hij hj
  rcases run_succ he with ⟨-, h3⟩ | ⟨h3, -⟩
  · omega
  · exact absurd h1 (not_le.2 h3)

/-- **C23 (no gaps).** With full output enabled, when `N` passes are done every due output number between the
initial and the current timer cycle has been written, and no other. -/
theorem C23_consecutive (c : Config) (e : Env S W) (st : ℕ → State S W) (N : ℕ) (hr : IsRun c e st N)
    (hf : c.full = true) (k : ℕ) (hk : c.mFull ∣ k) :
    ((st 0).timer_cycle ≤ k ∧ k < (st N).timer_cycle) ↔
      ∃ i < N, ∃ t s l, Event.vtu false k t s true l ∈ (iteration c e (st i)).events := by
  constructor
  · induction N with
    | zero => intro h; omega
    | succ N ih =>
      rintro ⟨h0, h1⟩
      by_cases hN : k < (st N).timer_cycle
      · obtain ⟨i, hi, h⟩ := ih (hr.mono (Nat.le_succ N)) ⟨h0, hN⟩
        exact ⟨i, by omega, h⟩
      · obtain ⟨ev, he⟩ := hr N (by omega)
        rcases run_succ he with ⟨h2, h3⟩ | ⟨h2, h3⟩
        · have hkN : k = (st N).timer_cycle := by omega
          subst hkN
          obtain ⟨s, l, hm⟩ := vtu_emitted (e := e) (by rw [he]; simp) h2 hf hk
          exact ⟨N, by omega, _, s, l, hm⟩
        · omega
  · rintro ⟨i, hi, t, s, l, hm⟩
    obtain ⟨rfl, -, h1, -⟩ := vtu_mem hm
    refine ⟨run_cycle_mono hr (Nat.zero_le i) (by omega), ?_⟩
    obtain ⟨ev, he⟩ := hr i hi
    have := run_cycle_mono hr (i := i + 1) hi (le_refl N)
    rcases run_succ he with ⟨-, h3⟩ | ⟨h3, -⟩
    · omega
    · exact absurd h1 (not_le.2 h3)

/-- The time steps taken in a run are `tau i = t (i+1) - t i`; if they are non-negative and at most the
granularity, the time stays below the end of the next granule. -/
theorem run_lag {c : Config} {e : Env S W} {st : ℕ → State S W} {N : ℕ} (hr : IsRun c e st N)
    (hstep : ∀ i < N, (st (i + 1)).t ≤ (st i).t + c.granularity)
    (h0 : (st 0).t < ((st 0).timer_cycle + 1) * c.granularity) {i : ℕ} (hi : i ≤ N) :
    (st i).t < ((st i).timer_cycle + 1) * c.granularity := by
  induction i with
  | zero => exact h0
  | succ i ih =>
    have hs := hstep i (by omega)
    have hp := ih (by omega)
    obtain ⟨ev, he⟩ := hr i (by omega)
    rcases run_succ he with ⟨h1, h2⟩ | ⟨h1, h2⟩
    · rw [h2]; push_cast; nlinarith
    · rw [h2]; nlinarith

/-- **C23 (exactly when due).** If no time step is negative or exceeds the timer granularity and the run does not
start behind schedule, output number `k` is written in exactly the first pass that begins at a time `t ≥ k * g`. In
particular it is then less than one granule late. -/
theorem C23_exactly_when_due (c : Config) (e : Env S W) (st : ℕ → State S W) (N : ℕ) (hr : IsRun c e st N)
    (hg : 0 < c.granularity)
    (hstep : ∀ i < N, (st i).t ≤ (st (i + 1)).t ∧ (st (i + 1)).t ≤ (st i).t + c.granularity)
    (h0 : (st 0).t < ((st 0).timer_cycle + 1) * c.granularity)
    (hf : c.full = true) (k : ℕ) (hk : c.mFull ∣ k) (hk0 : (st 0).timer_cycle ≤ k)
    {i : ℕ} (hi : i ≤ N) (hok : iteration c e (st i) ≠ .abort) :
    (∃ t s l, Event.vtu false k t s true l ∈ (iteration c e (st i)).events) ↔
      (k * c.granularity ≤ (st i).t ∧ ∀ j < i, (st j).t < k * c.granularity) := by
  have hmono : ∀ {a b : ℕ}, a ≤ b → b ≤ N → (st a).t ≤ (st b).t := by
    intro a b hab hb
    induction b, hab using Nat.le_induction with
    | base => exact le_refl _
    | succ b hab ih => exact (ih (by omega)).trans (hstep b (by omega)).1
  have hlag : ∀ {j : ℕ}, j ≤ N → (st j).t < ((st j).timer_cycle + 1) * c.granularity :=
    fun hj => run_lag hr (fun i hi => (hstep i hi).2) h0 hj
  constructor
  · rintro ⟨t, s, l, hm⟩
    obtain ⟨rfl, -, h1, -⟩ := vtu_mem hm
    refine ⟨h1, fun j hj => ?_⟩
    -- the pass before `i`
    have hlast : (st (i - 1)).t < (st i).timer_cycle * c.granularity := by
      obtain ⟨ev, he⟩ := hr (i - 1) (by omega)
      have hii : i - 1 + 1 = i := by omega
      rw [hii] at he
      rcases run_succ he with ⟨-, h3⟩ | ⟨h3, h4⟩
      · have := hlag (j := i - 1) (by omega)
        rw [h3]; push_cast; exact this
      · rw [h4]; exact h3
    exact lt_of_le_of_lt (hmono (by omega) (by omega)) hlast
  · rintro ⟨h1, h2⟩
    have hle : k ≤ (st i).timer_cycle := by
      by_contra hlt
      push Not at hlt
      have h3 := hlag hi
      have : (((st i).timer_cycle + 1 : ℕ) : ℝ) * c.granularity ≤ k * c.granularity :=
        mul_le_mul_of_nonneg_right (by exact_mod_cast hlt) hg.le
      push_cast at this
      linarith
    have hge : ∀ j ≤ i, (st j).timer_cycle ≤ k := by
      intro j hj
      induction j with
      | zero => exact hk0
      | succ j ih =>
        have hjk := ih (by omega)
        obtain ⟨ev, he⟩ := hr j (by omega)
        rcases run_succ he with ⟨h3, h4⟩ | ⟨-, h4⟩
        · rw [h4]
          have h5 := h2 j (by omega)
          have h6 : ((st j).timer_cycle : ℝ) < k := lt_of_mul_lt_mul_right (lt_of_le_of_lt h3 h5) hg.le
          have : (st j).timer_cycle < k := by exact_mod_cast h6
          omega
        · rw [h4]; exact hjk
    have hki : k = (st i).timer_cycle := le_antisymm hle (hge i (le_refl i))
    subst hki
    obtain ⟨s, l, hm⟩ := vtu_emitted hok h1 hf hk
    exact ⟨_, s, l, hm⟩

/-- **C23 (late only after long steps).** In general, output number `k` lags at most as many passes behind the pass
`i` with `t ≥ k * g` as there are outputs outstanding at that time. -/
theorem C23_catches_up (c : Config) (e : Env S W) (st : ℕ → State S W) (N : ℕ) (hr : IsRun c e st N)
    (hmono : ∀ i < N, (st i).t ≤ (st (i + 1)).t) (hg : 0 ≤ c.granularity)
    (hf : c.full = true) (k : ℕ) (hk : c.mFull ∣ k) (hk0 : (st 0).timer_cycle ≤ k)
    {i : ℕ} (hi : i + (k - (st i).timer_cycle) < N) (h : k * c.granularity ≤ (st i).t) :
    ∃ j ≤ i + (k - (st i).timer_cycle), ∃ t s l, Event.vtu false k t s true l ∈ (iteration c e (st j)).events := by
  have key : ∀ d, i + d ≤ N → (st i).timer_cycle + d ≤ k + 1 → (st i).timer_cycle + d ≤ (st (i + d)).timer_cycle ∨
      k < (st (i + d)).timer_cycle := by
    intro d
    induction d with
    | zero => intro _ _; left; simp
    | succ d ih =>
      intro hd hkd
      have hmm : (st i).t ≤ (st (i + d)).t := by
        have : ∀ d, i + d ≤ N → (st i).t ≤ (st (i + d)).t := by
          intro d
          induction d with
          | zero => intro _; simp
          | succ d ih => intro h; exact (ih (by omega)).trans (hmono (i + d) (by omega))
        exact this d (by omega)
      have ihd := ih (by omega) (by omega)
      obtain ⟨ev, he⟩ := hr (i + d) (by omega)
      rw [show i + (d + 1) = i + d + 1 by omega]
      rcases run_succ he with ⟨-, h4⟩ | ⟨h3, h4⟩
      · rw [h4]; omega
      · rw [h4]
        right
        by_contra hc
        push Not at hc
        have : ((st (i + d)).timer_cycle : ℝ) * c.granularity ≤ k * c.granularity :=
          mul_le_mul_of_nonneg_right (by exact_mod_cast hc) hg
        linarith
  by_cases hlt : k < (st i).timer_cycle
  · obtain ⟨j, hj, h⟩ := (C23_consecutive c e st i (hr.mono (by omega)) hf k hk).1 ⟨hk0, hlt⟩
    exact ⟨j, by omega, h⟩
  · have h1 := key (k - (st i).timer_cycle + 1) (by omega) (by omega)
    have h2 : k < (st (i + (k - (st i).timer_cycle + 1))).timer_cycle := by omega
    obtain ⟨j, hj, h⟩ := (C23_consecutive c e st _ (hr.mono (by omega)) hf k hk).1 ⟨hk0, h2⟩
    exact ⟨j, by omega, h⟩

/-! ### C24 -/

/-- **C24 (termination).** If no multiplier is zero, checkpointing is not requested in 1D, no time step throws and
every time step is at least `δ` (or reaches the final time, if it is enforced), then the loop ends after at most
`⌈(t_final - t) / δ⌉` time steps, at a time `t ≥ relax * t_final`. -/
theorem C24_terminates (c : Config) (e : Env S W) (σ : State S W)
    (hm : c.mFull ≠ 0 ∧ c.mLevelsets ≠ 0 ∧ c.mCheckpoint ≠ 0 ∧ c.mQuantities ≠ 0)
    (hd : c.checkpointing = true → c.distributed = true)
    (hT : 0 ≤ c.tFinal) (heps : 0 ≤ c.eps) {δ : ℝ} (hδ : 0 < δ)
    (hok : ∀ w s t l, ∃ r, e.step w s t l = some r)
    (hstep : ∀ w s t s' tau w', e.step w s t (if c.enforce then some c.tFinal else none) = some (s', tau, w') →
      δ ≤ tau ∨ (c.enforce = true ∧ c.tFinal ≤ t + tau)) :
    ∃ N ≤ ⌈(c.tFinal - σ.t) / δ⌉₊, ∃ st, st 0 = σ ∧ IsRun c e st N ∧
      ∃ σ' ev, iteration c e (st N) = .break σ' ev ∧
        (if c.enforce then (1 - 10 * c.eps) * c.tFinal else c.tFinal) ≤ σ'.t := by
  have hth : threshold c ≤ c.tFinal := by
    unfold threshold
    split_ifs
    · nlinarith
    · linarith
  have hth' : (if c.enforce then (1 - 10 * c.eps) * c.tFinal else c.tFinal) = threshold c := by
    unfold threshold; split_ifs <;> ring
  rw [hth']
  have key : ∀ (n : ℕ) (σ : State S W), c.tFinal - σ.t ≤ n * δ →
      ∃ N ≤ n, ∃ st, st 0 = σ ∧ IsRun c e st N ∧
        ∃ σ' ev, iteration c e (st N) = .break σ' ev ∧ threshold c ≤ σ'.t := by
    intro n
    induction n with
    | zero =>
      intro σ h
      have ht : threshold c ≤ σ.t := by push_cast at h; linarith
      have := iteration_total (e := e) σ hm hd hok
      rw [if_pos ht] at this
      obtain ⟨σ', ev, hi⟩ := this
      refine ⟨0, le_refl _, fun _ => σ, rfl, fun i hi => absurd hi (by omega), σ', ev, hi, ?_⟩
      obtain ⟨ev₁, -, -, h3, -⟩ := iteration_break hi
      rw [h3]; exact ht
    | succ n ih =>
      intro σ h
      have hit := iteration_total (e := e) σ hm hd hok
      by_cases ht : threshold c ≤ σ.t
      · rw [if_pos ht] at hit
        obtain ⟨σ', ev, hi⟩ := hit
        refine ⟨0, by omega, fun _ => σ, rfl, fun i hi => absurd hi (by omega), σ', ev, hi, ?_⟩
        obtain ⟨ev₁, -, -, h3, -⟩ := iteration_break hi
        rw [h3]; exact ht
      · rw [if_neg ht] at hit
        obtain ⟨σ₁, ev, hi⟩ := hit
        obtain ⟨s, ev₁, tau, -, -, h3, h4, -⟩ := iteration_continue hi
        have hb : c.tFinal - σ₁.t ≤ n * δ := by
          rw [h4]
          push_cast at h
          rcases hstep _ _ _ _ _ _ h3 with h5 | ⟨-, h5⟩
          · linarith
          · have : (0 : ℝ) ≤ n * δ := by positivity
            linarith
        obtain ⟨N, hN, st, hst0, hrun, σ', ev', hbr, hge⟩ := ih σ₁ hb
        refine ⟨N + 1, by omega, fun i => if i = 0 then σ else st (i - 1), rfl, ?_, σ', ev', ?_, hge⟩
        · intro i hiN
          cases i with
          | zero => exact ⟨ev, by simpa [hst0] using hi⟩
          | succ i => simpa using hrun i (by omega)
        · simpa using hbr
  apply key
  have := Nat.le_ceil ((c.tFinal - σ.t) / δ)
  rwa [div_le_iff₀ hδ] at this

/-- **C24 (no overshoot).** With an enforced final time, if the time integrator respects the bound it is given
(C20), the time never exceeds the final time. -/
theorem C24_no_overshoot (c : Config) (e : Env S W) (st : ℕ → State S W) (N : ℕ) (hr : IsRun c e st N)
    (he : c.enforce = true) (h0 : (st 0).t ≤ c.tFinal)
    (hstep : ∀ w s t T s' tau w', e.step w s t (some T) = some (s', tau, w') → t + tau ≤ T) :
    ∀ i ≤ N, (st i).t ≤ c.tFinal := by
  intro i
  induction i with
  | zero => intro _; exact h0
  | succ i ih =>
    intro hi
    obtain ⟨ev, hx⟩ := hr i (by omega)
    obtain ⟨s, ev₁, tau, -, -, h3, h4, -⟩ := iteration_continue hx
    rw [if_pos he] at h3
    rw [h4]
    exact hstep _ _ _ _ _ _ _ h3

/-- **C24 (does not stop early).** No pass that begins before the final time (up to the relaxation) leaves the
loop. -/
theorem C24_not_early (c : Config) (e : Env S W) (σ : State S W) {σ' : State S W} {ev : List (Event S)}
    (h : iteration c e σ = .break σ' ev) :
    (if c.enforce then (1 - 10 * c.eps) * c.tFinal else c.tFinal) ≤ σ.t ∧ σ'.t = σ.t := by
  obtain ⟨ev₁, -, h2, h3, -⟩ := iteration_break h
  refine ⟨?_, h3⟩
  unfold threshold at h2
  split_ifs at h2 ⊢ <;> linarith

/-! ### C41 -/

/-- **C41 (scheduled adaptations).** In a fresh run with adaptivity and non-negative time steps, a pass performs a
mesh adaptation if and only if one of the configured time points (not in the past of the start) lies between the
time of the previous pass (excluded) and the time of this pass (included).  So every time point triggers exactly
one adaptation, at the first pass at or after it, and there are no others. -/
theorem C41_adaptation_schedule (c : Config) (e : Env S W) (st : ℕ → State S W) (N : ℕ) (hr : IsRun c e st N)
    (points : List ℝ) (s₀ : S) (w₀ : W) (h0 : st 0 = fresh s₀ points w₀) (ha : c.adaptivity = true)
    (hmono : ∀ i < N, (st i).t ≤ (st (i + 1)).t) {i : ℕ} (hi : i < N) :
    (∃ t, Event.adapt t ∈ (iteration c e (st i)).events) ↔
      ∃ p ∈ points, 0 ≤ p ∧ p ≤ (st i).t ∧ ∀ j < i, (st j).t < p := by
  have hmono' : ∀ {a b : ℕ}, a ≤ b → b ≤ N → (st a).t ≤ (st b).t := by
    intro a b hab hb
    induction b, hab using Nat.le_induction with
    | base => exact le_refl _
    | succ b hab ih => exact (ih (by omega)).trans (hmono b (by omega))
  -- which time points are outstanding
  have hinv : ∀ j ≤ N, (st j).adaptor.need = false ∧
      ∀ p, p ∈ (st j).adaptor.points ↔ p ∈ points ∧ 0 ≤ p ∧ ∀ j' < j, (st j').t < p := by
    intro j
    induction j with
    | zero =>
      intro _
      rw [h0]
      simp [fresh, Adaptor.prepare]
    | succ j ih =>
      intro hj
      obtain ⟨hn, hp⟩ := ih (by omega)
      obtain ⟨ev, hx⟩ := hr j (by omega)
      obtain ⟨s, ev₁, tau, -, -, -, -, h5, -⟩ := iteration_continue hx
      have hset : ∀ p, (p ∈ points ∧ 0 ≤ p ∧ ∀ j' < j + 1, (st j').t < p) ↔
          (p ∈ (st j).adaptor.points ∧ (st j).t < p) := by
        intro p
        rw [hp p]
        constructor
        · rintro ⟨h1, h2, h3⟩
          exact ⟨⟨h1, h2, fun j' hj' => h3 j' (by omega)⟩, h3 j (by omega)⟩
        · rintro ⟨⟨h1, h2, h3⟩, h4⟩
          refine ⟨h1, h2, fun j' hj' => ?_⟩
          rcases Nat.lt_succ_iff_lt_or_eq.1 hj' with h | rfl
          · exact h3 j' h
          · exact h4
      rw [h5]
      unfold adaptation
      rw [if_pos ha]
      dsimp only
      split_ifs with hneed
      · refine ⟨rfl, fun p => ?_⟩
        rw [hset p]
        simp only [Adaptor.prepare, Adaptor.analyze, List.mem_filter, decide_eq_true_eq, gt_iff_lt, not_lt]
        constructor
        · rintro ⟨⟨h1, h2⟩, -⟩; exact ⟨h1, h2⟩
        · rintro ⟨h1, h2⟩; exact ⟨⟨h1, h2⟩, h2.le⟩
      · refine ⟨by simpa using hneed, fun p => ?_⟩
        rw [hset p]
        simp only [Adaptor.analyze, List.mem_filter, decide_eq_true_eq]
  obtain ⟨hn, hp⟩ := hinv i hi.le
  obtain ⟨ev, hx⟩ := hr i hi
  obtain ⟨s, ev₁, tau, h1, -, -, -, -, h6⟩ := iteration_continue hx
  have hno : ∀ t, Event.adapt t ∉ ev₁ := by
    intro t hm
    have ho : ∀ {b s0 s' ev}, output c e b s0 (st i).t (st i).timer_cycle = some (s', ev) → Event.adapt t ∉ ev := by
      intro b s0 s' ev ho hm
      rw [(output_events ho).2.2.2.2.2] at hm
      rcases List.mem_append.1 hm with hm | hm <;> split_ifs at hm <;> simp at hm
    rcases h1 with ⟨-, h1, -⟩ | ⟨-, -, rfl, -⟩
    · obtain ⟨e1, e2, e3, h2, h3, h4, -, -, rfl⟩ := tick_events h1
      rcases List.mem_append.1 hm with hm | hm
      · rcases List.mem_append.1 hm with hm | hm
        · exact ho h2 hm
        · split_ifs at h3 with hc
          · obtain ⟨a', h3⟩ := h3
            exact ho h3 hm
          · rw [h3] at hm; simp at hm
      · rcases h4 with rfl | rfl <;> simp at hm
    · simp at hm
  have hev : (∃ t, Event.adapt t ∈ ev) ↔ ((st i).adaptor.analyze (st i).t).need = true := by
    rw [h6]
    unfold adaptation
    rw [if_pos ha]
    dsimp only
    constructor
    · rintro ⟨t, hm⟩
      by_contra hneed
      rw [if_neg hneed] at hm
      simp only [List.append_nil] at hm
      rcases List.mem_append.1 hm with hm | hm
      · split_ifs at hm <;> simp at hm
      · exact hno t hm
    · intro hneed
      rw [if_pos hneed]
      exact ⟨(st i).t, List.mem_append_right _ (by simp)⟩
  rw [hx]
  simp only [Iter.events]
  rw [hev]
  simp only [Adaptor.analyze, hn, Bool.false_or, List.any_eq_true, decide_eq_true_eq, not_lt]
  constructor
  · rintro ⟨p, h1, h2⟩
    obtain ⟨h3, h4, h5⟩ := (hp p).1 h1
    exact ⟨p, h3, h4, h2, h5⟩
  · rintro ⟨p, h3, h4, h2, h5⟩
    exact ⟨p, (hp p).2 ⟨h3, h4, h5⟩, h2⟩

/-- **C25 (violated by mesh adaptation).** `read_checkpoint` sets up the mesh adaptor before it knows the time. So a resumed
run adapts the mesh again in its first pass whenever a time point lies between 0 and the time of the checkpoint,
although the adaptation took place before the checkpoint was written. -/
theorem C25_adaptation_repeated_violation (c : Config) (e : Env S W) (points : List ℝ) (cycle : ℕ) (t : ℝ) (s : S) (w : W)
    (ha : c.adaptivity = true) {p : ℝ} (hp : p ∈ points) (hp0 : 0 ≤ p) (hpt : p ≤ t) {σ' : State S W}
    {ev : List (Event S)} (hi : iteration c e (resumed false cycle t s points w) = .continue σ' ev) :
    Event.adapt t ∈ ev := by
  obtain ⟨s', ev₁, tau, -, -, -, -, -, h6⟩ := iteration_continue hi
  rw [h6]
  refine List.mem_append_right _ ?_
  have hneed : ((resumed false cycle t s points w).adaptor.analyze t).need = true := by
    simp only [resumed, Bool.false_eq_true, if_false, Adaptor.prepare, Adaptor.analyze, Bool.false_or, List.any_eq_true,
      decide_eq_true_eq, List.mem_filter, gt_iff_lt, not_lt]
    exact ⟨p, ⟨hp, hp0⟩, hpt⟩
  have ht : (resumed false cycle t s points w).t = t := by simp [resumed]
  unfold adaptation
  rw [if_pos ha, ht]
  dsimp only
  rw [if_pos hneed]
  simp

/-- **C25 (resume at time zero).** With this option the runs of the resumed program are exactly the runs of a fresh program with the saved state
as initial state: time, output numbers and mesh adaptation start anew, whatever time and output number were saved. -/
theorem C25_at_zero (c : Config) (e : Env S W) (points : List ℝ) (cycle : ℕ) (t : ℝ) (s : S) (w : W) (st : ℕ → State S W) (N : ℕ) :
    (st 0 = resumed true cycle t s points w ∧ IsRun c e st N) ↔ (st 0 = fresh s points w ∧ IsRun c e st N) := by
  rw [show resumed true cycle t s points w = fresh s points w from rfl]

/-! ### A concrete run

Time steps of 1/4, granularity 1/2, final time 1, one adaptation time point at 3/8. -/

/-- Parameters of the example. -/
noncomputable def demoConfig : Config where
  tFinal := 1
  enforce := true
  eps := 0
  granularity := 1 / 2
  checkpointing := true
  full := true
  levelsets := false
  error := false
  quantities := false
  adaptivity := true
  mCheckpoint := 1
  mFull := 1
  mLevelsets := 1
  mQuantities := 1
  distributed := true

/-- Modules of the example: the state counts the time steps. -/
noncomputable def demoEnv : Env ℝ Unit where
  prep := fun _ s => s
  step := fun w s _ _ => some (s + 1, 1 / 4, w)
  adapt := fun s => s
  analytic := fun s _ => s

/-- The states of the run. -/
noncomputable def demoState (i : ℕ) : State ℝ Unit :=
  ⟨i / 4, (i + 1) / 2, i, ⟨if i ≤ 2 then [3 / 8] else [], false⟩, ()⟩

theorem demo_run : demoState 0 = fresh 0 [3 / 8] () ∧ IsRun demoConfig demoEnv demoState 4 := by
  constructor
  · simp [demoState, fresh, Adaptor.prepare]
    norm_num
  · intro i hi
    refine ⟨(iteration demoConfig demoEnv (demoState i)).events, ?_⟩
    interval_cases i <;>
      norm_num [iteration, demoConfig, demoState, demoEnv, tick, output, threshold, adaptation, Adaptor.analyze,
          Adaptor.prepare, Iter.events]

example : (∀ i < 4, (demoState i).t ≤ (demoState (i + 1)).t ∧
    (demoState (i + 1)).t ≤ (demoState i).t + demoConfig.granularity) ∧
    (demoState 0).t < ((demoState 0).timer_cycle + 1) * demoConfig.granularity ∧ 0 < demoConfig.granularity := by
  refine ⟨?_, ?_, ?_⟩
  · intro i hi
    simp only [demoState, demoConfig]
    push_cast
    constructor <;> linarith
  · norm_num [demoState, demoConfig]
  · norm_num [demoConfig]

/-- The run is also one that was resumed at time zero, from a checkpoint written at time 5. -/
example : demoState 0 = resumed true 7 5 0 [3 / 8] () ∧ IsRun demoConfig demoEnv demoState 4 :=
  (C25_at_zero demoConfig demoEnv [3 / 8] 7 5 0 () demoState 4).2 demo_run

/-- Output number 1 is written in pass 2, at time 1/2. -/
example : ∃ t s l, Event.vtu false 1 t s true l ∈ (iteration demoConfig demoEnv (demoState 2)).events :=
  (C23_exactly_when_due demoConfig demoEnv demoState 4 demo_run.2 (by norm_num [demoConfig])
    (by
      intro i hi
      simp only [demoState, demoConfig]
      push_cast
      constructor <;> linarith)
    (by norm_num [demoState, demoConfig]) rfl 1 (by simp [demoConfig]) (by simp [demoState]) (by omega)
    (by obtain ⟨ev, h⟩ := demo_run.2 2 (by omega); rw [h]; simp)).2
    ⟨by norm_num [demoState, demoConfig], by
      intro j hj
      interval_cases j <;> norm_num [demoState, demoConfig]⟩

/-- The mesh is adapted in pass 2 because of the time point 3/8. -/
example : ∃ t, Event.adapt t ∈ (iteration demoConfig demoEnv (demoState 2)).events :=
  (C41_adaptation_schedule demoConfig demoEnv demoState 4 demo_run.2 [3 / 8] 0 () demo_run.1 rfl
    (by intro i hi; simp only [demoState]; push_cast; linarith) (by omega)).2
    ⟨3 / 8, by simp, by norm_num, by norm_num [demoState], by
      intro j hj
      interval_cases j <;> norm_num [demoState]⟩

example : ∃ N ≤ ⌈((1 : ℝ) - 0) / (1 / 4)⌉₊, ∃ st, st 0 = demoState 0 ∧ IsRun demoConfig demoEnv st N ∧
    ∃ σ' ev, iteration demoConfig demoEnv (st N) = .break σ' ev ∧ (1 : ℝ) ≤ σ'.t := by
  have := C24_terminates demoConfig demoEnv (demoState 0) (by simp [demoConfig]) (by simp [demoConfig])
    (by norm_num [demoConfig]) (by norm_num [demoConfig]) (δ := 1 / 4) (by norm_num)
    (fun w s t l => ⟨_, rfl⟩) (by
      intro w s t s' tau w' h
      simp only [demoEnv, Option.some.injEq, Prod.mk.injEq] at h
      left; rw [← h.2.1])
  simpa [demoConfig, demoState] using this

end TimeLoop
end Ryujin
