import Verif.Props.Bounds
import Verif.Props.Scalar
import Verif.Props.ShallowWaterLimiter

/-!
# C60 – the success flag of `limit`; C07 – what `accumulate` computes (AEOS, scalar)

`limit` returns a flag next to the coefficient.  The flag reports whether the low-order state respects
the bounds up to a roundoff tolerance.
-/

namespace Ryujin

/-- A violation `x` is filtered iff it lies below the cutoff. -/
theorem filtered_violation {x cutoff : ℝ} (h : 0 < cutoff) :
    maskLt |max 0 x| cutoff 0 (max 0 x) = 0 ↔ x < cutoff := by
  unfold maskLt
  rw [abs_of_nonneg (le_max_left 0 x)]
  constructor
  · intro h1
    by_contra h2
    push Not at h2
    rw [if_neg (by rw [max_eq_right (h.le.trans h2)]; exact not_lt.2 h2)] at h1
    rw [max_eq_right (h.le.trans h2)] at h1
    linarith
  · intro h1
    rw [if_pos (max_lt h h1)]

/-- The flag is only touched in the first iteration. -/
theorem newtonLoop_flag_pos {L : ℕ} (eps tol : ℝ) (psi dpsi lower : Fin L → ℝ → ℝ) (fuel : ℕ) :
    ∀ (n : ℕ) (_ : n ≠ 0) (t_l t_r : Fin L → ℝ) (success : Prop),
      (newtonLoop eps tol psi dpsi lower fuel n t_l t_r success).2 ↔ success := by
  induction fuel with
  | zero => intro n _ t_l t_r s; rfl
  | succ k ih =>
    intro n hn t_l t_r s
    simp only [newtonLoop]
    split_ifs
    · rfl
    · simp [hn]
    · rw [ih (n + 1) (by omega)]; simp [hn]

/-- The flag of the loop, started at `n = 0`. -/
theorem newtonLoop_flag {L : ℕ} (eps tol : ℝ) (psi dpsi lower : Fin L → ℝ → ℝ) (fuel : ℕ)
    (t_l t_r : Fin L → ℝ) (success : Prop) :
    (newtonLoop eps tol psi dpsi lower (fuel + 1) 0 t_l t_r success).2 ↔
      success ∧ ((∀ l, t_l l = t_r l ∨ 0 < psi l (t_r l)) ∨
        ∀ l, (0 < psi l (t_r l) ∧ lower l (t_r l) ≤ psi l (t_r l)) ∨
          (psi l (t_r l) ≤ 0 ∧ lower l (t_l l) ≤ psi l (t_l l))) := by
  have e1 : ((fun l => maskGt (psi l (t_r l)) 0 (t_r l) (t_l l)) = t_r) ↔
      ∀ l, t_l l = t_r l ∨ 0 < psi l (t_r l) := by
    rw [funext_iff]
    refine forall_congr' fun l => ?_
    unfold maskGt
    split_ifs with h
    · simp [h]
    · simp [h]
  have e2 : (∀ l, min 0 (psi l (maskGt (psi l (t_r l)) 0 (t_r l) (t_l l)) -
      lower l (maskGt (psi l (t_r l)) 0 (t_r l) (t_l l))) = 0) ↔
      ∀ l, (0 < psi l (t_r l) ∧ lower l (t_r l) ≤ psi l (t_r l)) ∨
          (psi l (t_r l) ≤ 0 ∧ lower l (t_l l) ≤ psi l (t_l l)) := by
    refine forall_congr' fun l => ?_
    unfold maskGt
    rw [min_eq_left_iff, sub_nonneg]
    split_ifs with h
    · simp [h]
    · simp [h, not_lt.1 h]
  simp only [newtonLoop]
  split_ifs with h1 h2
  · simp only
    rw [e1] at h1
    exact ⟨fun h => ⟨h, Or.inl h1⟩, fun h => h.1⟩
  all_goals
    rw [e1] at h1
    simp only [true_and, not_not, newtonLoop_flag_pos _ _ _ _ _ _ 1 one_ne_zero, zero_add]
    rw [e2]
    exact ⟨fun h => ⟨h.1, Or.inr h.2⟩, fun h => ⟨h.1, h.2.resolve_left h1⟩⟩

/-- Without iterations only the first check counts. -/
theorem newtonLoop_flag_imp {L : ℕ} (eps tol : ℝ) (psi dpsi lower : Fin L → ℝ → ℝ) (fuel : ℕ)
    (t_l t_r : Fin L → ℝ) (success : Prop)
    (h : (newtonLoop eps tol psi dpsi lower fuel 0 t_l t_r success).2) : success := by
  cases fuel with
  | zero => exact h
  | succ k => exact ((newtonLoop_flag _ _ _ _ _ _ _ _ _).1 h).1

namespace Euler

variable {dim L : ℕ}

theorem densityInBounds_iff (p : Params) (a b x : ℝ)
    (hc : 0 < p.reference_density * p.vacuum_large * p.eps) :
    densityInBounds p a b x ↔
      x < (1 + p.vacuum_large * p.eps) * b + p.reference_density * p.vacuum_large * p.eps ∧
      a < (1 + p.vacuum_large * p.eps) * x + p.reference_density * p.vacuum_large * p.eps := by
  unfold densityInBounds filterVacuumDensity
  rw [filtered_violation hc, filtered_violation hc]
  constructor <;> rintro ⟨h1, h2⟩ <;> exact ⟨by linarith, by linarith⟩

/-- **C60 (Euler, a reported success is one).** If the flag is set, the low-order density respects both
bounds in every lane, up to the relative and absolute tolerance. -/
theorem C60_euler_success_density (p : Params) (lp : LimiterParams) (bounds : Fin L → Bounds)
    (U P : Fin L → State dim) (t_min t_max : Fin L → ℝ)
    (hc : 0 < p.reference_density * p.vacuum_large * p.eps)
    (h : (limit p lp bounds U P t_min t_max).2) (l : Fin L) :
    density (U l) < (1 + p.vacuum_large * p.eps) * (bounds l).rho_max
        + p.reference_density * p.vacuum_large * p.eps ∧
    (bounds l).rho_min < (1 + p.vacuum_large * p.eps) * density (U l)
        + p.reference_density * p.vacuum_large * p.eps :=
  (densityInBounds_iff p _ _ _ hc).1 (newtonLoop_flag_imp _ _ _ _ _ _ _ _ _ h l)

/-- **C60 (Euler, violations are reported).** A density violation by more than the tolerance, in any one
lane, clears the flag, whatever the other lanes do. -/
theorem C60_euler_violation_density (p : Params) (lp : LimiterParams) (bounds : Fin L → Bounds)
    (U P : Fin L → State dim) (t_min t_max : Fin L → ℝ)
    (hc : 0 < p.reference_density * p.vacuum_large * p.eps) (l : Fin L)
    (h : (1 + p.vacuum_large * p.eps) * (bounds l).rho_max
          + p.reference_density * p.vacuum_large * p.eps ≤ density (U l) ∨
        (1 + p.vacuum_large * p.eps) * density (U l)
          + p.reference_density * p.vacuum_large * p.eps ≤ (bounds l).rho_min) :
    ¬ (limit p lp bounds U P t_min t_max).2 := fun hs => by
  have := C60_euler_success_density p lp bounds U P t_min t_max hc hs l
  rcases h with h | h <;> linarith [this.1, this.2]

/-- **C60 (Euler, entropy violations are reported).** Suppose that in one lane the full update respects
the density bounds (so the density does not restrict the coefficient) but is not acceptable for the
entropy, and that the low-order state at `t_min` violates the entropy bound by more than the tolerance.
Then the flag is cleared, provided the Newton solver is allowed at least one iteration. -/
theorem C60_euler_violation_entropy (p : Params) (lp : LimiterParams) (bounds : Fin L → Bounds)
    (U P : Fin L → State dim) (t_min t_max : Fin L → ℝ) (hit : 0 < lp.newton_max_iterations) (l : Fin L)
    (ht : t_min l < t_max l)
    (h1 : (bounds l).rho_min ≤ density (U l + t_max l • P l))
    (h2 : density (U l + t_max l • P l) ≤ (bounds l).rho_max)
    (hr : (1 + p.vacuum_small * p.eps) * density (U l + t_max l • P l)
        * internalEnergy (U l + t_max l • P l)
      ≤ (bounds l).s_min * density (U l + t_max l • P l) * density (U l + t_max l • P l) ^ p.gamma)
    (hl : (1 + p.vacuum_small * p.eps) * density (U l + t_min l • P l)
        * internalEnergy (U l + t_min l • P l)
      < (1 - p.vacuum_large * p.eps) * (bounds l).s_min * density (U l + t_min l • P l)
          * density (U l + t_min l • P l) ^ p.gamma) :
    ¬ (limit p lp bounds U P t_min t_max).2 := by
  obtain ⟨k, hk⟩ : ∃ k, lp.newton_max_iterations = k + 1 := ⟨_, (Nat.succ_pred hit.ne').symm⟩
  have e : densityLimit p.eps (bounds l).rho_min (bounds l).rho_max (density (U l))
      (density (P l)) (t_min l) (t_max l) = t_max l := densityLimit_noop ht.le h1 h2
  unfold limit
  simp only [hk]
  rw [newtonLoop_flag]
  rintro ⟨-, h⟩
  have hp : psi p (bounds l).s_min (U l) (P l) (t_max l) ≤ 0 := by
    unfold psi; simp only; linarith
  have hq : psi p (bounds l).s_min (U l) (P l) (t_min l)
      < lowerBound p (bounds l).s_min (U l) (P l) (t_min l) := by
    unfold psi lowerBound; simp only; linarith
  rcases h with h | h
  · have := h l
    rw [e] at this
    rcases this with h | h <;> linarith
  · have := h l
    rw [e] at this
    rcases this with h | h <;> linarith [h.1, h.2]

/-- **C60 (Euler, no false alarm).** If in every lane the low-order state respects the density bounds and
its specific entropy is at least the nonnegative bound, the flag is set, for every antidiffusive update
and every number of iterations. -/
theorem C60_euler_no_false_alarm (p : Params) (lp : LimiterParams) (bounds : Fin L → Bounds)
    (U P : Fin L → State dim) (t_max : Fin L → ℝ) (heps : 0 ≤ p.eps)
    (hc : 0 < p.reference_density * p.vacuum_large * p.eps) (hv : 0 ≤ p.vacuum_large * p.eps)
    (hw : 0 ≤ p.vacuum_small * p.eps) (hm : ∀ l, 0 ≤ t_max l)
    (hρ : ∀ l, 0 < density (U l)) (he : ∀ l, 0 ≤ internalEnergy (U l))
    (h0 : ∀ l, 0 ≤ (bounds l).rho_min)
    (h1 : ∀ l, (bounds l).rho_min ≤ density (U l)) (h2 : ∀ l, density (U l) ≤ (bounds l).rho_max)
    (hs0 : ∀ l, 0 ≤ (bounds l).s_min)
    (hs : ∀ l, (bounds l).s_min ≤ specificEntropy p (U l)) :
    (limit p lp bounds U P 0 t_max).2 := by
  have hdens : ∀ l, densityInBounds p (bounds l).rho_min (bounds l).rho_max (density (U l)) := by
    intro l
    rw [densityInBounds_iff p _ _ _ hc]
    have a1 := mul_nonneg hv (hρ l).le
    have a2 := mul_nonneg hv ((hρ l).le.trans (h2 l))
    constructor <;> linarith [h1 l, h2 l]
  unfold limit
  simp only
  cases hk : lp.newton_max_iterations with
  | zero => exact hdens
  | succ k =>
    rw [newtonLoop_flag]
    refine ⟨hdens, Or.inr fun l => ?_⟩
    have hE : (bounds l).s_min * density (U l) ^ p.gamma ≤ internalEnergy (U l) := by
      have := hs l
      unfold specificEntropy at this
      rwa [one_div, Real.inv_rpow (hρ l).le, ← div_eq_mul_inv,
        le_div_iff₀ (Real.rpow_pos_of_pos (hρ l) _)] at this
    have hlow : ∀ t, 0 ≤ density (U l + t • P l) →
        lowerBound p (bounds l).s_min (U l) (P l) t ≤ 0 := by
      intro t hd
      unfold lowerBound
      simp only
      have := mul_nonneg hv (mul_nonneg (mul_nonneg (hs0 l) hd) (Real.rpow_nonneg hd p.gamma))
      nlinarith
    set t_r := densityLimit p.eps (bounds l).rho_min (bounds l).rho_max
      (density (U l)) (density (P l)) ((0 : Fin L → ℝ) l) (t_max l) with ht
    have hz : (0 : Fin L → ℝ) l = 0 := rfl
    rcases lt_or_ge 0 (psi p (bounds l).s_min (U l) (P l) t_r) with hp | hp
    · left
      refine ⟨hp, le_trans (hlow _ ?_) hp.le⟩
      have b1 := densityLimit_mem p.eps (bounds l).rho_min (bounds l).rho_max (density (U l))
        (density (P l)) 0 (t_max l) (hm l)
      have b2 := densityLimit_bounds (s := t_r) (rho_P := density (P l)) (t_min := 0)
        (t_max := t_max l) heps ((hρ l).le.trans (h2 l)) (h1 l) (h2 l)
        (by simpa using ⟨h1 l, h2 l⟩) b1.1 le_rfl
      exact (h0 l).trans b2.1
    · right
      refine ⟨hp, ?_⟩
      rw [hz]
      have e0 : U l + (0 : ℝ) • P l = U l := by simp
      refine (hlow 0 (by rw [e0]; exact (hρ l).le)).trans ?_
      unfold psi
      simp only [e0]
      have a1 := mul_nonneg (hρ l).le (sub_nonneg.2 hE)
      have a2 := mul_nonneg hw (mul_nonneg (hρ l).le (he l))
      nlinarith

/-- Non-vacuity of the two directions: a one-lane instance with roundoff `eps = 1/10^6`; density `1`
within `[1/2, 2]`, and density `3` above. -/
example : (limit (dim := 1) (L := 1) ⟨7 / 5, 1, 100, 10000, 1 / 10 ^ 6⟩ ⟨2, 0, 1⟩
      (fun _ => ⟨1 / 2, 2, 1⟩) (fun _ => mkState 1 (fun _ => 0) 2) (fun _ => mkState 5 (fun _ => 1) 0) 0
      (fun _ => 1)).2 ∧
    ¬ (limit (dim := 1) (L := 1) ⟨7 / 5, 1, 100, 10000, 1 / 10 ^ 6⟩ ⟨2, 0, 1⟩
      (fun _ => ⟨1 / 2, 2, 1⟩) (fun _ => mkState 3 (fun _ => 0) 2) (fun _ => mkState 5 (fun _ => 1) 0) 0
      (fun _ => 1)).2 := by
  constructor
  · apply C60_euler_no_false_alarm <;> norm_num [internalEnergy, normSq, specificEntropy]
  · exact C60_euler_violation_density _ _ _ _ _ _ _ (by norm_num) 0 (Or.inl (by norm_num))

example : ¬ (limit (dim := 1) (L := 1) ⟨7 / 5, 1, 100, 10000, 1 / 10 ^ 6⟩ ⟨2, 0, 1⟩
      (fun _ => ⟨1 / 2, 2, 3⟩) (fun _ => mkState 1 (fun _ => 0) 2) (fun _ => 0) 0 (fun _ => 1)).2 := by
  apply C60_euler_violation_entropy (l := 0) <;> norm_num [internalEnergy, normSq]

/-- **C60 violation (Euler).** The code leaves its loop before the entropy check if the density alone
already forces the coefficient to `t_min`: a low-order state with entropy `2` far below the bound `100` is
reported as a success. -/
theorem C60_euler_unreported_violation :
    ∃ (p : Params) (lp : LimiterParams) (b : Bounds) (U P : State 1),
      0 < lp.newton_max_iterations ∧ 0 < p.eps ∧ b.rho_min ≤ density U ∧ density U ≤ b.rho_max ∧
      specificEntropy p U = 2 ∧ b.s_min = 100 ∧
      (limit (L := 1) p lp (fun _ => b) (fun _ => U) (fun _ => P) (fun _ => 0) (fun _ => 1)).2 := by
  refine ⟨⟨7 / 5, 1, 100, 10000, 1 / 10 ^ 6⟩, ⟨2, 0, 1⟩, ⟨1, 1, 100⟩, mkState 1 (fun _ => 0) 2,
    mkState 1 (fun _ => 0) 0, by norm_num, by norm_num, by norm_num, by norm_num,
    by norm_num [specificEntropy, internalEnergy, normSq], rfl, ?_⟩
  unfold limit
  simp only
  rw [newtonLoop_flag]
  refine ⟨fun l => ?_, Or.inl fun l => Or.inl ?_⟩
  · rw [densityInBounds_iff _ _ _ _ (by norm_num)]; norm_num
  · norm_num [densityLimit, maskLt]

end Euler

namespace Aeos

open Euler (State density momentum totalEnergy internalEnergy internalEnergyDerivative mkState)

variable {dim L : ℕ}

/-- **C60 (AEOS, a reported success is one).** -/
theorem C60_aeos_success_density (p : Params) (lp : LimiterParams) (bounds : Fin L → Bounds)
    (U P : Fin L → State dim) (t_min t_max : Fin L → ℝ)
    (hc : 0 < p.reference_density * p.vacuum_large * p.eps)
    (h : (limit p lp bounds U P t_min t_max).2) (l : Fin L) :
    density (U l) < (1 + p.vacuum_large * p.eps) * (bounds l).rho_max
        + p.reference_density * p.vacuum_large * p.eps ∧
    (bounds l).rho_min < (1 + p.vacuum_large * p.eps) * density (U l)
        + p.reference_density * p.vacuum_large * p.eps :=
  (Euler.densityInBounds_iff ⟨0, p.reference_density, p.vacuum_small, p.vacuum_large, p.eps⟩
    _ _ _ hc).1 (newtonLoop_flag_imp _ _ _ _ _ _ _ _ _ h l)

/-- **C60 (AEOS, violations are reported).** A density violation by more than the tolerance in any lane
clears the flag. -/
theorem C60_aeos_violation_density (p : Params) (lp : LimiterParams) (bounds : Fin L → Bounds)
    (U P : Fin L → State dim) (t_min t_max : Fin L → ℝ)
    (hc : 0 < p.reference_density * p.vacuum_large * p.eps) (l : Fin L)
    (h : (1 + p.vacuum_large * p.eps) * (bounds l).rho_max
          + p.reference_density * p.vacuum_large * p.eps ≤ density (U l) ∨
        (1 + p.vacuum_large * p.eps) * density (U l)
          + p.reference_density * p.vacuum_large * p.eps ≤ (bounds l).rho_min) :
    ¬ (limit p lp bounds U P t_min t_max).2 := fun hs => by
  have := C60_aeos_success_density p lp bounds U P t_min t_max hc hs l
  rcases h with h | h <;> linarith [this.1, this.2]

/-- The shifted internal energy and the surrogate entropy. -/
theorem entropy_ineq {p : Params} {U : State dim} {g s : ℝ} (hρ : 0 < density U)
    (hx : 0 < covolume p (density U)) (h : s ≤ surrogateSpecificEntropy p U g) :
    s * density U ^ g * covolume p (density U) ^ (-(g - 1)) ≤ shift p U := by
  unfold surrogateSpecificEntropy at h
  have e : 1 / density U - p.b = covolume p (density U) / density U := by
    unfold covolume; field_simp
  rw [e, Real.div_rpow hx.le hρ.le] at h
  have hr := Real.rpow_pos_of_pos hρ g
  have hxg := Real.rpow_pos_of_pos hx g
  have e2 : covolume p (density U) ^ (-(g - 1)) = covolume p (density U) / covolume p (density U) ^ g := by
    rw [neg_sub, Real.rpow_sub hx, Real.rpow_one]
  rw [e2]
  have h2 : s * (density U ^ g * (covolume p (density U) / covolume p (density U) ^ g))
      ≤ shift p U * (covolume p (density U) ^ g / density U ^ g) / covolume p (density U)
        * (density U ^ g * (covolume p (density U) / covolume p (density U) ^ g)) :=
    mul_le_mul_of_nonneg_right h (by positivity)
  have h3 : shift p U * (covolume p (density U) ^ g / density U ^ g) / covolume p (density U)
        * (density U ^ g * (covolume p (density U) / covolume p (density U) ^ g)) = shift p U := by
    field_simp
  linarith

/-- **C60 (AEOS, entropy violations are reported).** As for Euler, with the surrogate entropy. -/
theorem C60_aeos_violation_entropy (p : Params) (lp : LimiterParams) (bounds : Fin L → Bounds)
    (U P : Fin L → State dim) (t_min t_max : Fin L → ℝ) (hit : 0 < lp.newton_max_iterations) (l : Fin L)
    (ht : t_min l < t_max l)
    (h1 : (bounds l).rho_min ≤ density (U l + t_max l • P l))
    (h2 : density (U l + t_max l • P l) ≤ (bounds l).rho_max)
    (hr : (1 + p.vacuum_small * p.eps) * density (U l + t_max l • P l) * shift p (U l + t_max l • P l)
      ≤ (bounds l).s_min * density (U l + t_max l • P l)
        * density (U l + t_max l • P l) ^ (bounds l).gamma_min
        * covolume p (density (U l + t_max l • P l)) ^ (-((bounds l).gamma_min - 1)))
    (hl : (1 + p.vacuum_small * p.eps) * density (U l + t_min l • P l) * shift p (U l + t_min l • P l)
      < (1 - p.vacuum_large * p.eps) * (bounds l).s_min * density (U l + t_min l • P l)
        * density (U l + t_min l • P l) ^ (bounds l).gamma_min
        * covolume p (density (U l + t_min l • P l)) ^ (-((bounds l).gamma_min - 1))) :
    ¬ (limit p lp bounds U P t_min t_max).2 := by
  obtain ⟨k, hk⟩ : ∃ k, lp.newton_max_iterations = k + 1 := ⟨_, (Nat.succ_pred hit.ne').symm⟩
  have e : densityLimit p.eps (bounds l).rho_min (bounds l).rho_max (density (U l))
      (density (P l)) (t_min l) (t_max l) = t_max l := densityLimit_noop ht.le h1 h2
  unfold limit
  simp only [hk]
  rw [newtonLoop_flag]
  rintro ⟨-, h⟩
  have hp : psi p (bounds l).gamma_min (bounds l).s_min (U l) (P l) (t_max l) ≤ 0 := by
    unfold psi; unfold shift at hr; simp only; linarith
  have hq : psi p (bounds l).gamma_min (bounds l).s_min (U l) (P l) (t_min l)
      < lowerBound p (bounds l).gamma_min (bounds l).s_min (U l) (P l) (t_min l) := by
    unfold psi lowerBound; unfold shift at hl; simp only; linarith
  rcases h with h | h
  · have := h l
    rw [e] at this
    rcases this with h | h <;> linarith
  · have := h l
    rw [e] at this
    rcases this with h | h <;> linarith [h.1, h.2]

/-- **C60 (AEOS, no false alarm).** If in every lane the low-order state respects the density bounds, the
upper density bound respects the covolume, and its surrogate entropy is at least the nonnegative bound,
the flag is set. -/
theorem C60_aeos_no_false_alarm (p : Params) (lp : LimiterParams) (bounds : Fin L → Bounds)
    (U P : Fin L → State dim) (t_max : Fin L → ℝ) (heps : 0 ≤ p.eps)
    (hc : 0 < p.reference_density * p.vacuum_large * p.eps) (hv : 0 ≤ p.vacuum_large * p.eps)
    (hw : 0 ≤ p.vacuum_small * p.eps) (hm : ∀ l, 0 ≤ t_max l) (hb : 0 ≤ p.b)
    (hρ : ∀ l, 0 < density (U l)) (hbM : ∀ l, p.b * (bounds l).rho_max < 1)
    (he : ∀ l, 0 ≤ shift p (U l)) (h0 : ∀ l, 0 ≤ (bounds l).rho_min)
    (h1 : ∀ l, (bounds l).rho_min ≤ density (U l)) (h2 : ∀ l, density (U l) ≤ (bounds l).rho_max)
    (hs0 : ∀ l, 0 ≤ (bounds l).s_min)
    (hs : ∀ l, (bounds l).s_min ≤ surrogateSpecificEntropy p (U l) (bounds l).gamma_min) :
    (limit p lp bounds U P 0 t_max).2 := by
  have hdens : ∀ l, densityInBounds p (bounds l).rho_min (bounds l).rho_max (density (U l)) := by
    intro l
    refine (Euler.densityInBounds_iff
      ⟨0, p.reference_density, p.vacuum_small, p.vacuum_large, p.eps⟩ _ _ _ hc).2 ?_
    have a1 := mul_nonneg hv (hρ l).le
    have a2 := mul_nonneg hv ((hρ l).le.trans (h2 l))
    simp only
    constructor <;> linarith [h1 l, h2 l]
  unfold limit
  simp only
  cases hk : lp.newton_max_iterations with
  | zero => exact hdens
  | succ k =>
    rw [newtonLoop_flag]
    refine ⟨hdens, Or.inr fun l => ?_⟩
    have hcov : ∀ r, r ≤ (bounds l).rho_max → 0 < covolume p r := by
      intro r hr
      unfold covolume
      have := mul_le_mul_of_nonneg_left hr hb
      linarith [hbM l]
    have hE := entropy_ineq (hρ l) (hcov _ (h2 l)) (hs l)
    have hlow : ∀ t, 0 ≤ density (U l + t • P l) → density (U l + t • P l) ≤ (bounds l).rho_max →
        lowerBound p (bounds l).gamma_min (bounds l).s_min (U l) (P l) t ≤ 0 := by
      intro t hd hM
      unfold lowerBound
      simp only
      have := mul_nonneg hv (mul_nonneg (mul_nonneg (mul_nonneg (hs0 l) hd)
        (Real.rpow_nonneg hd (bounds l).gamma_min))
        (Real.rpow_nonneg (hcov _ hM).le (-((bounds l).gamma_min - 1))))
      nlinarith
    set t_r := densityLimit p.eps (bounds l).rho_min (bounds l).rho_max
      (density (U l)) (density (P l)) ((0 : Fin L → ℝ) l) (t_max l) with ht
    have hz : (0 : Fin L → ℝ) l = 0 := rfl
    rcases lt_or_ge 0 (psi p (bounds l).gamma_min (bounds l).s_min (U l) (P l) t_r) with hp | hp
    · left
      have b1 := densityLimit_mem p.eps (bounds l).rho_min (bounds l).rho_max (density (U l))
        (density (P l)) 0 (t_max l) (hm l)
      have b2 := densityLimit_bounds (s := t_r) (rho_P := density (P l)) (t_min := 0)
        (t_max := t_max l) heps ((hρ l).le.trans (h2 l)) (h1 l) (h2 l)
        (by simpa using ⟨h1 l, h2 l⟩) b1.1 le_rfl
      exact ⟨hp, le_trans (hlow _ ((h0 l).trans b2.1) b2.2) hp.le⟩
    · right
      refine ⟨hp, ?_⟩
      rw [hz]
      have e0 : U l + (0 : ℝ) • P l = U l := by simp
      refine (hlow 0 (by rw [e0]; exact (hρ l).le) (by rw [e0]; exact h2 l)).trans ?_
      unfold psi
      simp only [e0]
      have a1 := mul_nonneg (hρ l).le (sub_nonneg.2 hE)
      have a2 := mul_nonneg hw (mul_nonneg (hρ l).le (he l))
      unfold shift at a1 a2
      nlinarith

/-- Non-vacuity: a van der Waals like gas with covolume `b = 1/10`. -/
example : let p : Params := ⟨1 / 10, 0, 0, 1, 100, 10000, 1 / 10 ^ 6⟩
    ¬ (limit (dim := 1) (L := 1) p ⟨2, 0, 1⟩
      (fun _ => ⟨1 / 2, 2, 1, 7 / 5⟩) (fun _ => mkState 3 (fun _ => 0) 2) (fun _ => 0) 0
      (fun _ => 1)).2 := by
  intro p
  exact C60_aeos_violation_density _ _ _ _ _ _ _ (by norm_num [p]) 0 (Or.inl (by norm_num [p]))

end Aeos

namespace ShallowWater

variable {dim L : ℕ}

theorem depthInBounds_iff (p : Params) (b : Bounds) (x : ℝ)
    (hc : 0 < p.reference_water_depth * p.dry_state_relaxation_large * p.eps) :
    depthInBounds p b x ↔
      x < (1 + p.dry_state_relaxation_large * p.eps) * b.h_max
        + p.reference_water_depth * p.dry_state_relaxation_large * p.eps ∧
      b.h_min < (1 + p.dry_state_relaxation_large * p.eps) * x
        + p.reference_water_depth * p.dry_state_relaxation_large * p.eps := by
  unfold depthInBounds filterDryWaterDepth
  simp only
  rw [filtered_violation hc, filtered_violation hc]
  constructor <;> rintro ⟨h1, h2⟩ <;> exact ⟨by linarith, by linarith⟩

theorem newtonOnce_flag {eps tol : ℝ} {psi dpsi lower : Fin L → ℝ → ℝ} {t_l t_r : Fin L → ℝ}
    {s : Prop} :
    (newtonOnce eps tol psi dpsi lower t_l t_r s).2 ↔ s ∧ ∀ l, lower l (t_l l) ≤ psi l (t_l l) := by
  have : (∀ l, min 0 (psi l (t_l l) - lower l (t_l l)) = 0) ↔ ∀ l, lower l (t_l l) ≤ psi l (t_l l) :=
    forall_congr' fun l => by rw [min_eq_left_iff, sub_nonneg]
  unfold newtonOnce
  simp only
  split_ifs <;> simp only [this]

/-- **C60 (shallow water, a reported success is one).** For every choice of the two optional stages: if
the flag is set, the low-order water depth respects both bounds up to the tolerance. -/
theorem C60_sw_success_depth (p : Params) (lp : LimiterParams) (bounds : Fin L → Bounds)
    (U P : Fin L → State dim) (t_min t_max : Fin L → ℝ)
    (hc : 0 < p.reference_water_depth * p.dry_state_relaxation_large * p.eps)
    (h : (limit p lp bounds U P t_min t_max).2) (l : Fin L) :
    waterDepth (U l) < (1 + p.dry_state_relaxation_large * p.eps) * (bounds l).h_max
        + p.reference_water_depth * p.dry_state_relaxation_large * p.eps ∧
    (bounds l).h_min < (1 + p.dry_state_relaxation_large * p.eps) * waterDepth (U l)
        + p.reference_water_depth * p.dry_state_relaxation_large * p.eps := by
  rw [← depthInBounds_iff p _ _ hc]
  have hv : ∀ (t_l t_r : Fin L → ℝ) (s : Prop),
      (velocityStage p lp bounds U P t_l t_r s).2 → s := by
    intro t_l t_r s hs
    unfold velocityStage at hs
    simp only at hs
    split_ifs at hs
    · exact hs
    · exact (newtonOnce_flag.1 hs).1
  unfold limit at h
  simp only at h
  split_ifs at h
  · exact h l
  · exact h l
  · exact (newtonOnce_flag.1 (hv _ _ _ h)).1 l
  · exact (newtonOnce_flag.1 h).1 l
  · exact hv _ _ _ h l

/-- **C60 (shallow water, violations are reported).** -/
theorem C60_sw_violation_depth (p : Params) (lp : LimiterParams) (bounds : Fin L → Bounds)
    (U P : Fin L → State dim) (t_min t_max : Fin L → ℝ)
    (hc : 0 < p.reference_water_depth * p.dry_state_relaxation_large * p.eps) (l : Fin L)
    (h : (1 + p.dry_state_relaxation_large * p.eps) * (bounds l).h_max
          + p.reference_water_depth * p.dry_state_relaxation_large * p.eps ≤ waterDepth (U l) ∨
        (1 + p.dry_state_relaxation_large * p.eps) * waterDepth (U l)
          + p.reference_water_depth * p.dry_state_relaxation_large * p.eps ≤ (bounds l).h_min) :
    ¬ (limit p lp bounds U P t_min t_max).2 := fun hs => by
  have := C60_sw_success_depth p lp bounds U P t_min t_max hc hs l
  rcases h with h | h <;> linarith [this.1, this.2]

/-- Non-vacuity: a depth of `3` with upper bound `2`. -/
example (lp : LimiterParams) : ¬ (limit (dim := 1) (L := 1)
    ⟨1, 0, 1, 100, 100, 10000, 1 / 10 ^ 6, 0⟩ lp (fun _ => ⟨1 / 2, 2, 0, 1, 1⟩) (fun _ _ => 3)
    (fun _ _ => 0) 0 1).2 :=
  C60_sw_violation_depth _ _ _ _ _ _ _ (by norm_num) 0 (Or.inl (by norm_num [waterDepth]))

end ShallowWater

namespace Scalar

variable {dim L : ℕ}

/-- **C60 (scalar, exact meaning of the flag).** For nonnegative bounds and states the flag is set iff in
every lane the low-order value respects the bounds up to the relative tolerance; in general, a violation
has to exceed the tolerance measured relative to the value *and* relative to the bound. -/
theorem C60_scalar_success_iff (eps tiny : ℝ) (b : Fin L → Bounds) (U P : Fin L → State)
    (t_min t_max : Fin L → ℝ) :
    (limit eps tiny b U P t_min t_max).2 ↔ ∀ l,
      (state (U l) ≤ (1 + 10000 * eps) * (b l).u_max ∨ (1 + 10000 * eps) * state (U l) ≤ (b l).u_max) ∧
      ((b l).u_min ≤ (1 + 10000 * eps) * state (U l) ∨
        (1 + 10000 * eps) * (b l).u_min ≤ state (U l)) := by
  refine forall_congr' fun l => ?_
  unfold inBounds
  simp only [max_eq_left_iff, min_le_iff, sub_nonpos]

/-- **C60 (scalar, no false alarm, no miss).** A low-order value within the bounds is always accepted; and
for `eps = 0` nothing else is. -/
theorem C60_scalar_no_false_alarm (eps tiny : ℝ) (heps : 0 ≤ eps) (b : Fin L → Bounds)
    (U P : Fin L → State) (t_min t_max : Fin L → ℝ) :
    ((∀ l, (b l).u_min ≤ state (U l) ∧ state (U l) ≤ (b l).u_max) →
      (limit eps tiny b U P t_min t_max).2) ∧
    (eps = 0 → (limit eps tiny b U P t_min t_max).2 →
      ∀ l, (b l).u_min ≤ state (U l) ∧ state (U l) ≤ (b l).u_max) := by
  rw [C60_scalar_success_iff]
  constructor
  · intro h l
    obtain ⟨h1, h2⟩ := h l
    constructor
    · rcases le_total 0 (b l).u_max with h0 | h0
      · left; nlinarith
      · right; nlinarith
    · rcases le_total 0 (state (U l)) with h0 | h0
      · left; nlinarith
      · right; nlinarith
  · rintro rfl h l
    have := h l
    simp only [mul_zero, add_zero, one_mul, or_self] at this
    exact ⟨this.2, this.1⟩

example : (limit (L := 1) (1 / 10 ^ 6) 0 (fun _ => ⟨1, 2⟩) (fun _ _ => 1) (fun _ _ => 3) 0 1).2 ∧
    ¬ (limit (L := 1) (1 / 10 ^ 6) 0 (fun _ => ⟨1, 2⟩) (fun _ _ => 3) (fun _ _ => 3) 0 1).2 := by
  rw [C60_scalar_success_iff, C60_scalar_success_iff]
  norm_num [state]

/-- One column of a stencil as seen by the scalar `accumulate`. -/
structure Column (dim : ℕ) where
  U_j : State
  flux_j : Fin 1 → Vec dim
  scaled_c : Vec dim
  shift : State

/-- `reset` followed by `accumulate` over all columns. -/
noncomputable def accumulateRow (big : ℝ) (U_i : State) (flux_i : Fin 1 → Vec dim)
    (row : List (Column dim)) : LimiterState :=
  row.foldl (fun st e => st.accumulate U_i flux_i e.U_j e.flux_j e.scaled_c e.shift)
    (LimiterState.reset big)

/-- The bar value of a column. -/
noncomputable def barValue (U_i : State) (flux_i : Fin 1 → Vec dim) (e : Column dim) : ℝ :=
  (U_i 0 + e.U_j 0 - ∑ d, (e.flux_j 0 d - flux_i 0 d) * e.scaled_c d) / 2 + e.shift 0

theorem barState_value (U_i : State) (flux_i : Fin 1 → Vec dim) (e : Column dim) :
    state (barState U_i e.U_j flux_i e.flux_j e.scaled_c e.shift) = barValue U_i flux_i e := by
  simp only [state, barState, barValue, contract, addFlux, dot, Pi.add_apply, Pi.sub_apply,
    Pi.smul_apply, smul_eq_mul, Pi.neg_apply]
  have : ∑ x, (e.flux_j 0 x + -flux_i 0 x) * e.scaled_c x
      = ∑ d, (e.flux_j 0 d - flux_i 0 d) * e.scaled_c d :=
    Finset.sum_congr rfl fun d _ => by ring
  rw [this]
  ring

theorem accumulate_bar (U_i : State) (flux_i : Fin 1 → Vec dim) (st : LimiterState) (e : Column dim) :
    (st.accumulate U_i flux_i e.U_j e.flux_j e.scaled_c e.shift).bounds =
      ⟨min st.bounds.u_min (barValue U_i flux_i e), max st.bounds.u_max (barValue U_i flux_i e)⟩ := by
  simp only [LimiterState.accumulate, barState_value]

/-- **C06/C07 (scalar): what `accumulate` computes.** The strict bounds of a row are the minimum and the
maximum of the bar values over the stencil. -/
theorem C07_scalar_accumulate_exact (big : ℝ) (U_i : State) (flux_i : Fin 1 → Vec dim)
    (row : List (Column dim)) :
    let b := (accumulateRow big U_i flux_i row).bounds
    (∀ e ∈ row, b.u_min ≤ barValue U_i flux_i e ∧ barValue U_i flux_i e ≤ b.u_max) ∧
    (b.u_min = big ∨ ∃ e ∈ row, b.u_min = barValue U_i flux_i e) ∧
    (b.u_max = -big ∨ ∃ e ∈ row, b.u_max = barValue U_i flux_i e) := by
  have key : ∀ (row : List (Column dim)) (st : LimiterState),
      let b := (row.foldl (fun st e => st.accumulate U_i flux_i e.U_j e.flux_j e.scaled_c e.shift)
        st).bounds
      (b.u_min ≤ st.bounds.u_min ∧ st.bounds.u_max ≤ b.u_max) ∧
      (∀ e ∈ row, b.u_min ≤ barValue U_i flux_i e ∧ barValue U_i flux_i e ≤ b.u_max) ∧
      (b.u_min = st.bounds.u_min ∨ ∃ e ∈ row, b.u_min = barValue U_i flux_i e) ∧
      (b.u_max = st.bounds.u_max ∨ ∃ e ∈ row, b.u_max = barValue U_i flux_i e) := by
    intro row
    induction row with
    | nil => intro st; simp
    | cons a l ih =>
      intro st
      simp only [List.foldl_cons]
      obtain ⟨⟨h1, h2⟩, h4, h5, h6⟩ :=
        ih (st.accumulate U_i flux_i a.U_j a.flux_j a.scaled_c a.shift)
      rw [accumulate_bar] at h1 h2 h5 h6
      refine ⟨⟨h1.trans (min_le_left _ _), (le_max_left _ _).trans h2⟩, ?_, ?_, ?_⟩
      · intro e he
        rcases List.mem_cons.1 he with rfl | he
        · exact ⟨h1.trans (min_le_right _ _), (le_max_right _ _).trans h2⟩
        · exact h4 e he
      · rcases h5 with h5 | ⟨e, he, h5⟩
        · rcases min_choice st.bounds.u_min (barValue U_i flux_i a) with h | h
          · left; rw [h5]; exact h
          · right; exact ⟨a, List.mem_cons_self, by rw [h5]; exact h⟩
        · right; exact ⟨e, List.mem_cons_of_mem _ he, h5⟩
      · rcases h6 with h6 | ⟨e, he, h6⟩
        · rcases max_choice st.bounds.u_max (barValue U_i flux_i a) with h | h
          · left; rw [h6]; exact h
          · right; exact ⟨a, List.mem_cons_self, by rw [h6]; exact h⟩
        · right; exact ⟨e, List.mem_cons_of_mem _ he, h6⟩
  exact (key row (LimiterState.reset big)).2

/-- **C07 (scalar, order independence).** -/
theorem C07_scalar_accumulate_perm (big : ℝ) (U_i : State) (flux_i : Fin 1 → Vec dim)
    {row row' : List (Column dim)} (h : row.Perm row') :
    accumulateRow big U_i flux_i row = accumulateRow big U_i flux_i row' := by
  have : RightCommutative (fun (st : LimiterState) (e : Column dim) =>
      st.accumulate U_i flux_i e.U_j e.flux_j e.scaled_c e.shift) := ⟨fun st a b => by
    simp only [LimiterState.accumulate, LimiterState.mk.injEq, Bounds.mk.injEq]
    exact ⟨⟨min_right_comm _ _ _, max_right_comm _ _ _⟩, add_right_comm _ _ _, trivial⟩⟩
  exact h.foldl_eq _

/-- Non-vacuity: a row with two columns and nonzero fluxes; the bounds are `1` and `3/2`. -/
example : (accumulateRow (dim := 1) 100 (fun _ => 1) (fun _ _ => 1)
      [⟨fun _ => 1, fun _ _ => 1, 0, 0⟩, ⟨fun _ => 3, fun _ _ => 3, fun _ => 1 / 2, 0⟩]).bounds
    = ⟨1, 3 / 2⟩ := by
  simp only [accumulateRow, List.foldl_cons, List.foldl_nil]
  rw [accumulate_bar _ _ _ ⟨fun _ => 3, fun _ _ => 3, fun _ => 1 / 2, 0⟩,
    accumulate_bar _ _ _ ⟨fun _ => 1, fun _ _ => 1, 0, 0⟩]
  norm_num [LimiterState.reset, barValue]

end Scalar

namespace Aeos

open Euler (State density momentum totalEnergy internalEnergy internalEnergyDerivative mkState)

variable {dim : ℕ}

/-- One column of a stencil as seen by the AEOS `accumulate`. -/
structure Column (dim : ℕ) where
  U_j : State dim
  s_j : ℝ
  flux_j : Fin (dim + 2) → Vec dim
  scaled_c : Vec dim
  shift : State dim

/-- `reset` followed by `accumulate` over all columns. -/
noncomputable def accumulateRow (p : Params) (strict : Bool) (big gamma_min_i : ℝ) (U_i : State dim)
    (flux_i : Fin (dim + 2) → Vec dim) (row : List (Column dim)) : LimiterState :=
  row.foldl (fun st e => st.accumulate p strict U_i flux_i e.U_j e.s_j e.flux_j e.scaled_c e.shift)
    (LimiterState.reset big gamma_min_i)

/-- The bar state of a column. -/
noncomputable def bar (U_i : State dim) (flux_i : Fin (dim + 2) → Vec dim) (e : Column dim) : State dim :=
  fun k => (U_i k + e.U_j k - ∑ d, (e.flux_j k d - flux_i k d) * e.scaled_c d) / 2 + e.shift k

/-- The entropy of column `j` used for the bound: recomputed with the row's `gamma_min` if strict bounds
are requested, otherwise the precomputed one. -/
noncomputable def columnEntropy (p : Params) (strict : Bool) (g : ℝ) (e : Column dim) : ℝ :=
  if strict then surrogateSpecificEntropy p e.U_j g else e.s_j

theorem accumulate_bar (p : Params) (strict : Bool) (U_i : State dim)
    (flux_i : Fin (dim + 2) → Vec dim) (st : LimiterState) (e : Column dim) :
    (st.accumulate p strict U_i flux_i e.U_j e.s_j e.flux_j e.scaled_c e.shift).bounds =
      ⟨min st.bounds.rho_min (density (bar U_i flux_i e)),
       max st.bounds.rho_max (density (bar U_i flux_i e)),
       min (min st.bounds.s_min (columnEntropy p strict st.bounds.gamma_min e))
         (surrogateSpecificEntropy p (bar U_i flux_i e) st.bounds.gamma_min),
       st.bounds.gamma_min⟩ := by
  have : (fun k => (1 / 2) * (U_i k + e.U_j k)
      - (1 / 2) * contract (addFlux e.flux_j (fun r => -flux_i r)) e.scaled_c k + e.shift k)
      = bar U_i flux_i e := by
    funext k
    simp only [bar, contract, addFlux, dot, Pi.add_apply, Pi.neg_apply]
    have : ∑ d, (e.flux_j k d + -flux_i k d) * e.scaled_c d
        = ∑ d, (e.flux_j k d - flux_i k d) * e.scaled_c d :=
      Finset.sum_congr rfl fun d _ => by ring
    rw [this]; ring
  simp only [LimiterState.accumulate, this, columnEntropy]

/-- **C06/C07 (AEOS): what `accumulate` computes.** With the row's `gamma_min` kept throughout, the
density bounds are the extrema of the bar densities, and the entropy bound is the minimum over the stencil
of the neighbours' entropies and of the entropies of the bar states. -/
theorem C07_aeos_accumulate_exact (p : Params) (strict : Bool) (big g : ℝ) (U_i : State dim)
    (flux_i : Fin (dim + 2) → Vec dim) (row : List (Column dim)) :
    let b := (accumulateRow p strict big g U_i flux_i row).bounds
    b.gamma_min = g ∧
    (∀ e ∈ row, b.rho_min ≤ density (bar U_i flux_i e) ∧ density (bar U_i flux_i e) ≤ b.rho_max ∧
      b.s_min ≤ columnEntropy p strict g e ∧
      b.s_min ≤ surrogateSpecificEntropy p (bar U_i flux_i e) g) ∧
    (b.rho_min = big ∨ ∃ e ∈ row, b.rho_min = density (bar U_i flux_i e)) ∧
    (b.rho_max = 0 ∨ ∃ e ∈ row, b.rho_max = density (bar U_i flux_i e)) ∧
    (b.s_min = big ∨ ∃ e ∈ row, b.s_min = columnEntropy p strict g e ∨
      b.s_min = surrogateSpecificEntropy p (bar U_i flux_i e) g) := by
  have key : ∀ (row : List (Column dim)) (st : LimiterState), st.bounds.gamma_min = g →
      let b := (row.foldl (fun st e => st.accumulate p strict U_i flux_i e.U_j e.s_j e.flux_j e.scaled_c
        e.shift) st).bounds
      b.gamma_min = g ∧
      (b.rho_min ≤ st.bounds.rho_min ∧ st.bounds.rho_max ≤ b.rho_max ∧ b.s_min ≤ st.bounds.s_min) ∧
      (∀ e ∈ row, b.rho_min ≤ density (bar U_i flux_i e) ∧ density (bar U_i flux_i e) ≤ b.rho_max ∧
        b.s_min ≤ columnEntropy p strict g e ∧
        b.s_min ≤ surrogateSpecificEntropy p (bar U_i flux_i e) g) ∧
      (b.rho_min = st.bounds.rho_min ∨ ∃ e ∈ row, b.rho_min = density (bar U_i flux_i e)) ∧
      (b.rho_max = st.bounds.rho_max ∨ ∃ e ∈ row, b.rho_max = density (bar U_i flux_i e)) ∧
      (b.s_min = st.bounds.s_min ∨ ∃ e ∈ row, b.s_min = columnEntropy p strict g e ∨
        b.s_min = surrogateSpecificEntropy p (bar U_i flux_i e) g) := by
    intro row
    induction row with
    | nil => intro st hg; simp [hg]
    | cons a l ih =>
      intro st hg
      simp only [List.foldl_cons]
      obtain ⟨h0, ⟨h1, h2, h3⟩, h4, h5, h6, h7⟩ :=
        ih (st.accumulate p strict U_i flux_i a.U_j a.s_j a.flux_j a.scaled_c a.shift)
          (by rw [accumulate_bar]; exact hg)
      rw [accumulate_bar, hg] at h1 h2 h3 h5 h6 h7
      refine ⟨h0, ⟨h1.trans (min_le_left _ _), (le_max_left _ _).trans h2,
        h3.trans ((min_le_left _ _).trans (min_le_left _ _))⟩, ?_, ?_, ?_, ?_⟩
      · intro e he
        rcases List.mem_cons.1 he with rfl | he
        · exact ⟨h1.trans (min_le_right _ _), (le_max_right _ _).trans h2,
            h3.trans ((min_le_left _ _).trans (min_le_right _ _)), h3.trans (min_le_right _ _)⟩
        · exact h4 e he
      · rcases h5 with h5 | ⟨e, he, h5⟩
        · rcases min_choice st.bounds.rho_min (density (bar U_i flux_i a)) with h | h
          · left; rw [h5]; exact h
          · right; exact ⟨a, List.mem_cons_self, by rw [h5]; exact h⟩
        · right; exact ⟨e, List.mem_cons_of_mem _ he, h5⟩
      · rcases h6 with h6 | ⟨e, he, h6⟩
        · rcases max_choice st.bounds.rho_max (density (bar U_i flux_i a)) with h | h
          · left; rw [h6]; exact h
          · right; exact ⟨a, List.mem_cons_self, by rw [h6]; exact h⟩
        · right; exact ⟨e, List.mem_cons_of_mem _ he, h6⟩
      · rcases h7 with h7 | ⟨e, he, h7⟩
        · rcases min_choice (min st.bounds.s_min (columnEntropy p strict g a))
            (surrogateSpecificEntropy p (bar U_i flux_i a) g) with h | h
          · rcases min_choice st.bounds.s_min (columnEntropy p strict g a) with h' | h'
            · left; rw [h7]; simp only; rw [h, h']
            · right; exact ⟨a, List.mem_cons_self, Or.inl (by rw [h7]; simp only; rw [h, h'])⟩
          · right; exact ⟨a, List.mem_cons_self, Or.inr (by rw [h7]; exact h)⟩
        · right; exact ⟨e, List.mem_cons_of_mem _ he, h7⟩
  have := key row (LimiterState.reset big g) rfl
  exact ⟨this.1, this.2.2⟩

/-- **C07 (AEOS, order independence).** -/
theorem C07_aeos_accumulate_perm (p : Params) (strict : Bool) (big g : ℝ) (U_i : State dim)
    (flux_i : Fin (dim + 2) → Vec dim) {row row' : List (Column dim)} (h : row.Perm row') :
    accumulateRow p strict big g U_i flux_i row = accumulateRow p strict big g U_i flux_i row' := by
  have : RightCommutative (fun (st : LimiterState) (e : Column dim) =>
      st.accumulate p strict U_i flux_i e.U_j e.s_j e.flux_j e.scaled_c e.shift) := ⟨fun st a b => by
    simp only [LimiterState.accumulate, LimiterState.mk.injEq, Bounds.mk.injEq]
    refine ⟨⟨min_right_comm _ _ _, max_right_comm _ _ _, ?_, trivial⟩, add_right_comm _ _ _,
      trivial, max_right_comm _ _ _⟩
    ac_rfl⟩
  exact h.foldl_eq _

/-- Non-vacuity: with a neighbour of small entropy the bound is the neighbour's. -/
example : (accumulateRow (dim := 1) ⟨0, 0, 0, 1, 100, 10000, 0⟩ false 100 (7 / 5) (mkState 1 (fun _ => 0) 2)
      (fun _ _ => 0) [⟨mkState 1 (fun _ => 0) 2, 1 / 4, fun _ _ => 0, 0, 0⟩]).bounds.s_min ≤ 1 / 4 :=
  ((C07_aeos_accumulate_exact _ false 100 (7 / 5) _ _ _).2.1 _ List.mem_cons_self).2.2.1

end Aeos
end Ryujin
