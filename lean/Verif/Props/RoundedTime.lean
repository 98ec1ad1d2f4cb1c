import Verif.Props.Rounding
import Verif.Model.RoundedTime
import Mathlib.Tactic.Linarith
import Mathlib.Tactic.IntervalCases

/-! # C120: final time and ticks of the timer in floating point arithmetic -/

namespace Ryujin
namespace Rounded

open Rounding

/-- All schemes: the factor of the returned step size is the divisor of the cap. -/
theorem divisor_eq (s : Integrator.Scheme) : divisor (Integrator.program s) = (Integrator.program s).factor ∧ 1 ≤ (Integrator.program s).factor := by
  cases s <;> constructor <;> norm_num [divisor, Integrator.program, Integrator.ssprk22, Integrator.ssprk33, Integrator.erk11, Integrator.erk22,
    Integrator.erk33, Integrator.erk43, Integrator.erk54, Integrator.strangSsprk33, Integrator.strangErk33, Integrator.strangErk43,
    Integrator.imex11, Integrator.imex22, Integrator.imex33]

/-- The capped step covers the rest of the time. -/
theorem cap_spec (R : Rounding) (f : Bool) {d k : ℝ} (hu : R.u ≤ 1 / 100) (hd : 0 ≤ d) (hk : 1 ≤ k) :
    d * (1 - 4 * R.u) ≤ product R f k (R.fl (R.fl d / k)) ∧ product R f k (R.fl (R.fl d / k)) ≤ d * (1 + 4 * R.u) := by
  have u0 := R.u_nonneg
  have k0 : 0 < k := by linarith
  have a0 : 0 ≤ R.fl d := R.fl_nonneg hd
  have a1 := fl_le_of_nonneg R hd
  have a2 := fl_ge_of_nonneg R hd
  have b0 : 0 ≤ R.fl d / k := by positivity
  have b1 := fl_le_of_nonneg R b0
  have b2 := fl_ge_of_nonneg R b0
  have b3 : 0 ≤ R.fl (R.fl d / k) := R.fl_nonneg b0
  have e : ∀ x : ℝ, k * (R.fl d / k * x) = R.fl d * x := fun x => by field_simp
  have c1 : k * R.fl (R.fl d / k) ≤ R.fl d * (1 + R.u) := by
    rw [← e]
    exact mul_le_mul_of_nonneg_left b1 k0.le
  have c2 : R.fl d * (1 - R.u) ≤ k * R.fl (R.fl d / k) := by
    rw [← e]
    exact mul_le_mul_of_nonneg_left b2 k0.le
  have c3 : 0 ≤ k * R.fl (R.fl d / k) := by positivity
  have h := abs_le.1 (product_err R f k (R.fl (R.fl d / k)))
  rw [abs_of_nonneg c3] at h
  set x := k * R.fl (R.fl d / k)
  have d1 : R.fl d * (1 + R.u) ≤ d * (1 + R.u) * (1 + R.u) := mul_le_mul_of_nonneg_right a1 (by linarith)
  have d2 : d * (1 - R.u) * (1 - R.u) ≤ R.fl d * (1 - R.u) := mul_le_mul_of_nonneg_right a2 (by linarith)
  have e1 : x * (1 + R.u) ≤ d * (1 + R.u) * (1 + R.u) * (1 + R.u) := mul_le_mul_of_nonneg_right (c1.trans d1) (by linarith)
  have e2 : d * (1 - R.u) * (1 - R.u) * (1 - R.u) ≤ x * (1 - R.u) := mul_le_mul_of_nonneg_right (d2.trans c2) (by linarith)
  have g1 : R.u * R.u ≤ 1 / 100 * R.u := mul_le_mul_of_nonneg_right hu u0
  have g2 : R.u * (R.u * R.u) ≤ 1 / 100 * (R.u * R.u) := mul_le_mul_of_nonneg_right hu (mul_nonneg u0 u0)
  have g3 : 0 ≤ R.u * R.u := mul_nonneg u0 u0
  have f1 : d * ((1 + R.u) * (1 + R.u) * (1 + R.u)) ≤ d * (1 + 4 * R.u) := mul_le_mul_of_nonneg_left (by linarith) hd
  have f2 : d * (1 - 4 * R.u) ≤ d * ((1 - R.u) * (1 - R.u) * (1 - R.u)) := mul_le_mul_of_nonneg_left (by linarith) hd
  constructor <;> linarith [h.1, h.2]

/-- The relaxed final time. -/
theorem relaxed_spec (R : Rounding) {eps T : ℝ} (hu : R.u ≤ 1 / 100) (heps : R.u ≤ eps) (heps' : eps ≤ 1 / 100) (hT : 0 ≤ T) :
    R.fl (relaxation R true eps * T) ≤ T * (1 - 7 * R.u) ∧ T * (1 - 11 * eps - 2 * R.u) ≤ R.fl (relaxation R true eps * T) := by
  have u0 := R.u_nonneg
  have e0 : 0 ≤ 10 * eps := by linarith
  have a1 := fl_le_of_nonneg R e0
  have a2 := fl_ge_of_nonneg R e0
  have g1 : 10 * eps * R.u ≤ 10 * eps * (1 / 100) := mul_le_mul_of_nonneg_left hu e0
  have b0 : 0 ≤ 1 - R.fl (10 * eps) := by linarith
  have b1 := fl_le_of_nonneg R b0
  have b2 := fl_ge_of_nonneg R b0
  have b3 : 0 ≤ R.fl (1 - R.fl (10 * eps)) := R.fl_nonneg b0
  have hr : relaxation R true eps = R.fl (1 - R.fl (10 * eps)) := rfl
  rw [hr]
  have hx := R.fl_nonneg e0
  set x := R.fl (10 * eps)
  have g2 : (1 - x) * R.u ≤ 1 * R.u := mul_le_mul_of_nonneg_right (by linarith) u0
  set r := R.fl (1 - x)
  have c1 := fl_le_of_nonneg R (mul_nonneg b3 hT)
  have c2 := fl_ge_of_nonneg R (mul_nonneg b3 hT)
  have g3 : r * R.u ≤ (1 + R.u) * R.u := mul_le_mul_of_nonneg_right (by linarith) u0
  have g4 : R.u * R.u ≤ 1 / 100 * R.u := mul_le_mul_of_nonneg_right hu u0
  have r1 : r ≤ 1 - 99 / 10 * eps + R.u := by linarith
  have r2 : 1 - 101 / 10 * eps - R.u ≤ r := by linarith
  have r3 : r ≤ 1 := by linarith
  have g5 : r * R.u ≤ 1 * R.u := mul_le_mul_of_nonneg_right r3 u0
  constructor
  · refine c1.trans ?_
    have : r * (1 + R.u) ≤ 1 - 7 * R.u := by linarith
    have := mul_le_mul_of_nonneg_right this hT
    linarith
  · refine le_trans ?_ c2
    have : 1 - 11 * eps - 2 * R.u ≤ r * (1 - R.u) := by linarith
    have := mul_le_mul_of_nonneg_right this hT
    linarith

/-- **C120.** No overshoot: for every scheme and every step size of the hyperbolic module, a step that starts before the final time ends at most
six units of roundoff after it. -/
theorem C120_no_overshoot (R : Rounding) (fused : Bool) (s : Integrator.Scheme) {computed T t : ℝ} (hu : R.u ≤ 1 / 100) (ht0 : 0 ≤ t)
    (ht : t ≤ T) : nextTime R fused (Integrator.program s) (tauStep R (Integrator.program s) computed T t) t ≤ T * (1 + 6 * R.u) := by
  obtain ⟨hk, hk1⟩ := divisor_eq s
  have u0 := R.u_nonneg
  unfold nextTime tauStep tauMax
  rw [hk]
  have hcap := (cap_spec R fused (d := T - t) hu (by linarith) hk1).2
  set k := (Integrator.program s).factor
  set c := R.fl (R.fl (T - t) / k)
  have hmono : product R fused k (min computed c) ≤ product R fused k c := by
    have h : k * min computed c ≤ k * c := mul_le_mul_of_nonneg_left (min_le_right _ _) (by linarith)
    unfold product
    split_ifs
    · exact h
    · exact R.mono h
  have hx : t + product R fused k (min computed c) ≤ T * (1 + 4 * R.u) := by
    have := mul_le_mul_of_nonneg_right (show T - t ≤ T by linarith) u0
    linarith
  have hT : 0 ≤ T := by linarith
  have h := R.mono hx
  refine (show mulAdd R fused k (min computed c) t ≤ R.fl (T * (1 + 4 * R.u)) from h).trans ?_
  have h3 := fl_le_of_nonneg R (show 0 ≤ T * (1 + 4 * R.u) by positivity)
  have g4 : R.u * R.u ≤ 1 / 100 * R.u := mul_le_mul_of_nonneg_right hu u0
  have := mul_le_mul_of_nonneg_left (show (1 + 4 * R.u) * (1 + R.u) ≤ 1 + 6 * R.u by linarith) hT
  linarith

/-- **C120.** The step that is cut short by the final time is the last one: for every scheme the test of the time loop succeeds after it. -/
theorem C120_last_step (R : Rounding) (fused : Bool) (s : Integrator.Scheme) {computed eps T t : ℝ} (hu : R.u ≤ 1 / 100) (heps : R.u ≤ eps)
    (heps' : eps ≤ 1 / 100) (ht0 : 0 ≤ t) (ht : t ≤ T) (hcap : R.fl (tauMax R T t / divisor (Integrator.program s)) ≤ computed) :
    finished R true eps T (nextTime R fused (Integrator.program s) (tauStep R (Integrator.program s) computed T t) t) := by
  obtain ⟨hk, hk1⟩ := divisor_eq s
  have u0 := R.u_nonneg
  have hT : 0 ≤ T := by linarith
  unfold nextTime tauStep finished
  rw [min_eq_right hcap]
  unfold tauMax
  rw [hk]
  have hc := (cap_spec R fused (d := T - t) hu (by linarith) hk1).1
  refine (relaxed_spec R hu heps heps' hT).1.trans ?_
  unfold mulAdd
  set q := product R fused (Integrator.program s).factor (R.fl (R.fl (T - t) / (Integrator.program s).factor))
  have hx : T * (1 - 4 * R.u) ≤ t + q := by
    have := mul_le_mul_of_nonneg_right (show T - t ≤ T by linarith) u0
    linarith
  refine le_trans ?_ (R.mono hx)
  refine le_trans ?_ (fl_ge_of_nonneg R (mul_nonneg hT (by linarith)))
  have g4 : 0 ≤ R.u * R.u := mul_nonneg u0 u0
  have := mul_le_mul_of_nonneg_left (show 1 - 7 * R.u ≤ (1 - 4 * R.u) * (1 - R.u) by linarith) hT
  linarith

/-- **C120.** The loop does not end early: when the test succeeds the final time is reached up to `11 eps` (one unit of roundoff if the final time
is not enforced). -/
theorem C120_not_early (R : Rounding) {eps T t : ℝ} (hu : R.u ≤ 1 / 100) (heps : R.u ≤ eps) (heps' : eps ≤ 1 / 100) (hT : 0 ≤ T) (enforce : Bool)
    (h : finished R enforce eps T t) : (if enforce then T * (1 - 11 * eps - 2 * R.u) else T * (1 - R.u)) ≤ t := by
  cases enforce
  · have h : R.fl (1 * T) ≤ t := h
    rw [one_mul] at h
    simpa using (fl_ge_of_nonneg R hT).trans h
  · simpa using (relaxed_spec R hu heps heps' hT).2.trans h

/-- **C120.** The time loop ends: if every step of the CFL condition covers at least `δ`, and `δ` can be resolved at the final time (`4 u T ≤ δ`),
then the test of the time loop succeeds after at most `2 T / δ + 1` steps. -/
theorem C120_terminates (R : Rounding) (fused : ℕ → Bool) (s : Integrator.Scheme) {eps T δ : ℝ} (computed t : ℕ → ℝ) (hu : R.u ≤ 1 / 100)
    (heps : R.u ≤ eps) (heps' : eps ≤ 1 / 100) (hT : 0 ≤ T) (hδ : 4 * (R.u * T) ≤ δ)
    (hc : ∀ k, δ ≤ (Integrator.program s).factor * computed k) (h0 : 0 ≤ t 0)
    (hstep : ∀ k, ¬ finished R true eps T (t k) →
      t (k + 1) = nextTime R (fused k) (Integrator.program s) (tauStep R (Integrator.program s) (computed k) T (t k)) (t k))
    {N : ℕ} (hN : 2 * T < N * δ) : ∃ k, k ≤ N ∧ finished R true eps T (t k) := by
  by_contra hno
  push Not at hno
  have u0 := R.u_nonneg
  have huT := mul_nonneg u0 hT
  have hδ0 : 0 ≤ δ := by linarith
  obtain ⟨hk, hk1⟩ := divisor_eq s
  have hlt : ∀ k ≤ N, t k < T := fun k hkN => by
    have h1 := not_le.1 (hno k hkN)
    have h2 := (relaxed_spec R hu heps heps' hT).1
    linarith
  have hind : ∀ k ≤ N, k * (δ / 2) ≤ t k := by
    intro k
    induction k with
    | zero => intro _; simpa using h0
    | succ k ih =>
      intro hkN
      have ih := ih (by omega)
      have htk0 : 0 ≤ t k := le_trans (by positivity) ih
      have htkT := hlt k (by omega)
      have hnf := hno k (by omega)
      have hs := hstep k hnf
      rcases le_total (R.fl (tauMax R T (t k) / divisor (Integrator.program s))) (computed k) with hcap | hcap
      · exfalso
        apply hno (k + 1) hkN
        rw [hs]
        exact C120_last_step R (fused k) s hu heps heps' htk0 htkT.le hcap
      · have he : tauStep R (Integrator.program s) (computed k) T (t k) = computed k := min_eq_left hcap
        rw [he] at hs
        have hp := abs_le.1 (product_err R (fused k) (Integrator.program s).factor (computed k))
        have hpos : 0 ≤ (Integrator.program s).factor * computed k := hδ0.trans (hc k)
        rw [abs_of_nonneg hpos] at hp
        have hs' : t (k + 1) = R.fl (t k + product R (fused k) (Integrator.program s).factor (computed k)) := hs
        set q := product R (fused k) (Integrator.program s).factor (computed k)
        have hq : δ * (1 - R.u) ≤ q := by
          have := mul_le_mul_of_nonneg_right (hc k) (show 0 ≤ 1 - R.u by linarith)
          linarith [hp.1]
        have hx0 : 0 ≤ t k + q := by
          have : 0 ≤ δ * (1 - R.u) := mul_nonneg hδ0 (by linarith)
          linarith
        have h2 := fl_ge_of_nonneg R hx0
        rw [← hs'] at h2
        have g1 : δ * (1 - R.u) * (1 - R.u) ≤ q * (1 - R.u) := mul_le_mul_of_nonneg_right hq (by linarith)
        have g2 : R.u * t k ≤ R.u * T := mul_le_mul_of_nonneg_left htkT.le u0
        have g3 : R.u * δ ≤ 1 / 100 * δ := mul_le_mul_of_nonneg_right hu hδ0
        have g4 : 0 ≤ R.u * (R.u * δ) := mul_nonneg u0 (mul_nonneg u0 hδ0)
        push_cast
        linarith
  have := hind N le_rfl
  have := hlt N le_rfl
  linarith

/-! ### Violations -/

theorem double_u : Rounding.double.u = 2 ^ (-53 : ℤ) := rfl

theorem product_erk11 (f : Bool) (x : ℝ) (hx : Rounding.double.fl x = x) :
    product Rounding.double f (Integrator.program .erk_11).factor x = x := by
  have h1 : (Integrator.program .erk_11).factor = 1 := rfl
  unfold product
  rw [h1, one_mul, hx, ite_self]

/-- **C120 (violation).** Steps that cannot be resolved: from the time `1` with steps of size `2 ^ -54` the time loop never ends in double precision,
although every step is positive. -/
theorem C120_stuck_violation (f : ℕ → Bool) (t : ℕ → ℝ) (h0 : t 0 = 1)
    (hstep : ∀ k, t (k + 1) = nextTime Rounding.double (f k) (Integrator.program .erk_11)
      (tauStep Rounding.double (Integrator.program .erk_11) (2 ^ (-54 : ℤ)) 2 (t k)) (t k)) (k : ℕ) :
    t k = 1 ∧ ¬ finished Rounding.double true (2 ^ (-52 : ℤ)) 2 (t k) := by
  have ht : t k = 1 := by
    induction k with
    | zero => exact h0
    | succ k ih =>
      have hd : divisor (Integrator.program .erk_11) = 1 := (divisor_eq .erk_11).1
      have hc : Rounding.double.fl (2 ^ (-54 : ℤ)) = 2 ^ (-54 : ℤ) := by
        have := double_fl_nat (x := 2 ^ (-54 : ℤ)) (e := -54) (n := 2 ^ 52) (by norm_num) (by norm_num) (by norm_num) (by norm_num)
        norm_num at this ⊢
        exact this
      have htau : tauStep Rounding.double (Integrator.program .erk_11) (2 ^ (-54 : ℤ)) 2 1 = 2 ^ (-54 : ℤ) := by
        unfold tauStep tauMax
        rw [hd, div_one, show (2 : ℝ) - 1 = 1 by norm_num, double_one, double_one]
        exact min_eq_left (by norm_num)
      rw [hstep k, ih, htau]
      unfold nextTime mulAdd
      rw [product_erk11 _ _ hc]
      have := double_fl_nat (x := 1 + 2 ^ (-54 : ℤ)) (e := 0) (n := 2 ^ 52) (by norm_num) (by norm_num) (by norm_num) (by norm_num)
      rw [this]
      norm_num
  refine ⟨ht, ?_⟩
  rw [ht]
  have := (relaxed_spec Rounding.double (eps := 2 ^ (-52 : ℤ)) (T := 2) (by rw [double_u]; norm_num) (by rw [double_u]; norm_num) (by norm_num)
    (by norm_num)).2
  rw [double_u] at this
  have h2 : (1 : ℝ) < 2 * (1 - 11 * 2 ^ (-52 : ℤ) - 2 * 2 ^ (-53 : ℤ)) := by norm_num
  exact not_le.2 (h2.trans_le this)

/-- The double nearest to `1 / 10`. -/
theorem double_tenth : Rounding.double.fl (1 / 10) = 7205759403792794 * (2 : ℝ) ^ (-56 : ℤ) := by
  have := double_fl_nat (x := 1 / 10) (e := -4) (n := 7205759403792794) (by norm_num) (by norm_num) (by norm_num) (by norm_num)
  norm_num at this ⊢
  exact this

/-- The double nearest to `3 / 10`. -/
theorem double_three_tenths : Rounding.double.fl (3 / 10) = 5404319552844595 * (2 : ℝ) ^ (-54 : ℤ) := by
  have := double_fl_nat (x := 3 / 10) (e := -2) (n := 5404319552844595) (by norm_num) (by norm_num) (by norm_num) (by norm_num)
  norm_num at this ⊢
  exact this

/-- Three times the double nearest to `1 / 10` is not the double nearest to `3 / 10`. -/
theorem double_three_times : Rounding.double.fl (3 * Rounding.double.fl (1 / 10)) = 5404319552844596 * (2 : ℝ) ^ (-54 : ℤ) := by
  rw [double_tenth]
  have := nearest_tie (p := 53) (x := 3 * (7205759403792794 * (2 : ℝ) ^ (-56 : ℤ))) (e := -2) (n := 5404319552844595) (by norm_num) (by norm_num)
    (by decide) (by norm_num)
  norm_num at this ⊢
  exact this

/-- **C120 (violation).** Final time `0.3`, granularity of the timer `0.1` and steps of size `0.1` in double precision, final time enforced: the
ticks `0`, `1` and `2` happen, the last step ends exactly at the final time and the loop ends, but tick `3` is not due: there is no output at the
final time. -/
theorem C120_tick_violation (f : ℕ → Bool) (t : ℕ → ℝ) (h0 : t 0 = 0)
    (hstep : ∀ k, t (k + 1) = nextTime Rounding.double (f k) (Integrator.program .erk_11)
      (tauStep Rounding.double (Integrator.program .erk_11) (Rounding.double.fl (1 / 10)) (Rounding.double.fl (3 / 10)) (t k)) (t k)) :
    (∀ k ≤ 2, tickDue Rounding.double k (Rounding.double.fl (1 / 10)) (t k) ∧
      ¬ finished Rounding.double true (2 ^ (-52 : ℤ)) (Rounding.double.fl (3 / 10)) (t k)) ∧
    t 3 = Rounding.double.fl (3 / 10) ∧ finished Rounding.double true (2 ^ (-52 : ℤ)) (Rounding.double.fl (3 / 10)) (t 3) ∧
    ¬ tickDue Rounding.double 3 (Rounding.double.fl (1 / 10)) (t 3) := by
  have hd : divisor (Integrator.program .erk_11) = 1 := (divisor_eq .erk_11).1
  have hg : Rounding.double.fl (Rounding.double.fl (1 / 10)) = Rounding.double.fl (1 / 10) := Rounding.double.idem _
  have hT : Rounding.double.fl (Rounding.double.fl (3 / 10)) = Rounding.double.fl (3 / 10) := Rounding.double.idem _
  have hthree := double_three_times
  rw [double_tenth] at hg hstep hthree ⊢
  rw [double_three_tenths] at hT hstep ⊢
  have hstep' : ∀ k (x : ℝ), Rounding.double.fl x = x →
      min (7205759403792794 * (2 : ℝ) ^ (-56 : ℤ)) (Rounding.double.fl (Rounding.double.fl (5404319552844595 * (2 : ℝ) ^ (-54 : ℤ) - t k))) = x →
      t (k + 1) = Rounding.double.fl (t k + x) := by
    intro k x hx h
    rw [hstep k]
    unfold tauStep tauMax nextTime mulAdd
    rw [hd, div_one, h, product_erk11 _ _ hx]
  -- the first step
  have h1 : t 1 = 7205759403792794 * (2 : ℝ) ^ (-56 : ℤ) := by
    rw [hstep' 0 _ hg (by
      rw [h0, sub_zero, hT, hT]
      exact min_eq_left (by norm_num)), h0, zero_add, hg]
  -- the second step
  have h2g : Rounding.double.fl (7205759403792794 * (2 : ℝ) ^ (-55 : ℤ)) = 7205759403792794 * (2 : ℝ) ^ (-55 : ℤ) := by
    have := double_fl_nat (x := 7205759403792794 * (2 : ℝ) ^ (-55 : ℤ)) (e := -3) (n := 7205759403792794) (by norm_num) (by norm_num)
      (by norm_num) (by norm_num)
    norm_num at this ⊢
    exact this
  have h2 : t 2 = 7205759403792794 * (2 : ℝ) ^ (-55 : ℤ) := by
    rw [hstep' 1 _ hg (by
      rw [h1]
      apply min_eq_left
      have : Rounding.double.fl (7205759403792794 * (2 : ℝ) ^ (-56 : ℤ)) ≤
          Rounding.double.fl (5404319552844595 * (2 : ℝ) ^ (-54 : ℤ) - 7205759403792794 * (2 : ℝ) ^ (-56 : ℤ)) :=
        Rounding.double.mono (by norm_num)
      rw [Rounding.double.idem]
      rwa [hg] at this), h1]
    rw [show (7205759403792794 * (2 : ℝ) ^ (-56 : ℤ) + 7205759403792794 * (2 : ℝ) ^ (-56 : ℤ)) = 7205759403792794 * (2 : ℝ) ^ (-55 : ℤ) by norm_num, h2g]
  -- the last step
  have hrest : Rounding.double.fl (5404319552844595 * (2 : ℝ) ^ (-54 : ℤ) - 7205759403792794 * (2 : ℝ) ^ (-55 : ℤ)) =
      1801439850948198 * (2 : ℝ) ^ (-54 : ℤ) := by
    have := double_fl_nat (x := 5404319552844595 * (2 : ℝ) ^ (-54 : ℤ) - 7205759403792794 * (2 : ℝ) ^ (-55 : ℤ)) (e := -4)
      (n := 7205759403792792) (by norm_num) (by norm_num) (by norm_num) (by norm_num)
    rw [this]
    norm_num
  have hrest' : Rounding.double.fl (1801439850948198 * (2 : ℝ) ^ (-54 : ℤ)) = 1801439850948198 * (2 : ℝ) ^ (-54 : ℤ) := by
    rw [← hrest, Rounding.double.idem]
  have h3 : t 3 = 5404319552844595 * (2 : ℝ) ^ (-54 : ℤ) := by
    rw [hstep' 2 _ hrest' (by
      rw [h2, hrest, hrest']
      exact min_eq_right (by norm_num)), h2]
    rw [show (7205759403792794 * (2 : ℝ) ^ (-55 : ℤ) + 1801439850948198 * (2 : ℝ) ^ (-54 : ℤ)) = 5404319552844595 * (2 : ℝ) ^ (-54 : ℤ) by norm_num, hT]
  have hrel := relaxed_spec Rounding.double (eps := 2 ^ (-52 : ℤ)) (T := 5404319552844595 * (2 : ℝ) ^ (-54 : ℤ)) (by rw [double_u]; norm_num)
    (by rw [double_u]; norm_num) (by norm_num) (by norm_num)
  rw [double_u] at hrel
  have hnf : ∀ {x : ℝ}, x ≤ 7205759403792794 * (2 : ℝ) ^ (-55 : ℤ) →
      ¬ finished Rounding.double true (2 ^ (-52 : ℤ)) (5404319552844595 * (2 : ℝ) ^ (-54 : ℤ)) x := fun {x} hx => by
    refine not_le.2 (lt_of_lt_of_le (lt_of_le_of_lt hx ?_) hrel.2)
    norm_num
  refine ⟨?_, h3, ?_, ?_⟩
  · intro k hk
    interval_cases k
    · rw [h0]
      refine ⟨?_, hnf (by norm_num)⟩
      unfold tickDue
      simp [Rounding.double.fl_zero]
    · rw [h1]
      refine ⟨?_, hnf (by norm_num)⟩
      unfold tickDue
      rw [Nat.cast_one, one_mul, hg]
    · rw [h2]
      refine ⟨?_, hnf (by norm_num)⟩
      unfold tickDue
      rw [show ((2 : ℕ) : ℝ) * (7205759403792794 * (2 : ℝ) ^ (-56 : ℤ)) = 7205759403792794 * (2 : ℝ) ^ (-55 : ℤ) by norm_num, h2g]
  · rw [h3]
    refine hrel.1.trans ?_
    norm_num
  · rw [h3]
    unfold tickDue
    rw [show ((3 : ℕ) : ℝ) = 3 by norm_num, hthree]
    norm_num

/-- The hypotheses of the theorems hold for double precision. -/
example : Rounding.double.u ≤ 1 / 100 ∧ Rounding.double.u ≤ 2 ^ (-52 : ℤ) ∧ (2 : ℝ) ^ (-52 : ℤ) ≤ 1 / 100 := by
  rw [double_u]
  norm_num

/-- A run of `C120_terminates`: final time `5`, steps of size `1 / 1000` at least. -/
example (t : ℕ → ℝ) (h0 : t 0 = 0)
    (hstep : ∀ k, ¬ finished Rounding.double true (2 ^ (-52 : ℤ)) 5 (t k) →
      t (k + 1) = nextTime Rounding.double false (Integrator.program .erk_33) (tauStep Rounding.double (Integrator.program .erk_33) (1 / 3000) 5 (t k))
        (t k)) : ∃ k, k ≤ 10001 ∧ finished Rounding.double true (2 ^ (-52 : ℤ)) 5 (t k) := by
  refine C120_terminates Rounding.double (fun _ => false) .erk_33 (δ := 1 / 1000) (fun _ => 1 / 3000) t ?_ ?_ ?_ (by norm_num) ?_ ?_ h0.ge hstep ?_
  · rw [double_u]; norm_num
  · rw [double_u]; norm_num
  · norm_num
  · rw [double_u]; norm_num
  · intro _
    norm_num [Integrator.program, Integrator.erk33]
  · norm_num

end Rounded
end Ryujin
