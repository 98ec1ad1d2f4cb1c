import Verif.Model.EulerRiemann
import Verif.Spec.EulerRiemann
import Verif.Proofs.EulerLimiter
import Verif.Proofs.ShallowWater
import Mathlib.Analysis.SpecialFunctions.Pow.Deriv
import Mathlib.Analysis.SpecialFunctions.Log.Deriv
import Mathlib.Analysis.Calculus.Deriv.MeanValue
import Mathlib.Tactic.LinearCombination

/-!
# Lemmas about the Riemann solver of the Euler equations
-/

namespace Ryujin
namespace Euler

/-! ### Shock curves lie above rarefaction curves -/

section comparison

variable (g : ℝ)

/-- Derivative of the (normalised) shock curve, up to a factor. -/
theorem shock_slope_ge {g x : ℝ} (hg1 : 1 < g) (hg2 : g ≤ 5 / 3) (hx : 1 ≤ x) :
    Real.log (4 * g) - 3 / 2 * Real.log (2 * g) ≤
      Real.log ((g + 1) * x + (3 * g - 1)) - 3 / 2 * Real.log ((g + 1) * x + (g - 1)) +
        (g + 1) / (2 * g) * Real.log x := by
  set h : ℝ → ℝ := fun x => Real.log ((g + 1) * x + (3 * g - 1)) - 3 / 2 * Real.log ((g + 1) * x + (g - 1)) +
        (g + 1) / (2 * g) * Real.log x with hh
  have hA : ∀ x : ℝ, 1 ≤ x → 0 < (g + 1) * x + (3 * g - 1) := fun x hx => by nlinarith
  have hD : ∀ x : ℝ, 1 ≤ x → 0 < (g + 1) * x + (g - 1) := fun x hx => by nlinarith
  have hder : ∀ x : ℝ, 1 ≤ x → HasDerivAt h
      ((g + 1) / ((g + 1) * x + (3 * g - 1)) - 3 / 2 * ((g + 1) / ((g + 1) * x + (g - 1))) +
        (g + 1) / (2 * g) * (1 / x)) x := by
    intro x hx
    have d1 : HasDerivAt (fun x : ℝ => (g + 1) * x + (3 * g - 1)) (g + 1) x := by
      simpa using ((hasDerivAt_id x).const_mul (g + 1)).add_const (3 * g - 1)
    have d2 : HasDerivAt (fun x : ℝ => (g + 1) * x + (g - 1)) (g + 1) x := by
      simpa using ((hasDerivAt_id x).const_mul (g + 1)).add_const (g - 1)
    have l1 := d1.log (hA x hx).ne'
    have l2 := (d2.log (hD x hx).ne').const_mul (3 / 2)
    have l3 := ((hasDerivAt_id x).log (by simp; linarith)).const_mul ((g + 1) / (2 * g))
    exact (l1.sub l2).add l3
  have hmono : MonotoneOn h (Set.Ici 1) := by
    refine monotoneOn_of_deriv_nonneg (convex_Ici 1) ?_ ?_ ?_
    · exact fun x hx => (hder x hx).continuousAt.continuousWithinAt
    · intro x hx
      rw [interior_Ici] at hx
      exact (hder x hx.le).differentiableAt.differentiableWithinAt
    · intro x hx
      rw [interior_Ici] at hx
      have hx1 : (1 : ℝ) < x := hx
      rw [(hder x hx1.le).deriv]
      have a := hA x hx1.le
      have d := hD x hx1.le
      have e : (g + 1) / ((g + 1) * x + (3 * g - 1)) - 3 / 2 * ((g + 1) / ((g + 1) * x + (g - 1))) +
          (g + 1) / (2 * g) * (1 / x) =
          (g + 1) * ((x - 1) * ((g + 1) * x - (3 * g ^ 2 - 4 * g + 1))) /
            (2 * g * x * ((g + 1) * x + (3 * g - 1)) * ((g + 1) * x + (g - 1))) := by
        have hg0 : g ≠ 0 := by linarith
        have hx0 : x ≠ 0 := by linarith
        obtain ⟨A, hAe⟩ : ∃ A, A = (g + 1) * x + (3 * g - 1) := ⟨_, rfl⟩
        obtain ⟨B, hBe⟩ : ∃ B, B = (g + 1) * x + (g - 1) := ⟨_, rfl⟩
        rw [← hAe, ← hBe]
        rw [← hAe] at a
        rw [← hBe] at d
        have ha := a.ne'
        have hd := d.ne'
        field_simp
        rw [hAe, hBe]
        ring
      rw [e]
      have hk : 0 ≤ (g + 1) * x - (3 * g ^ 2 - 4 * g + 1) := by nlinarith
      have hx2 : 0 ≤ x - 1 := by linarith
      have : 0 < 2 * g * x := by nlinarith
      positivity
  have h1 := hmono (Set.mem_Ici.2 le_rfl) (Set.mem_Ici.2 hx) hx
  have e1 : h 1 = Real.log (4 * g) - 3 / 2 * Real.log (2 * g) := by
    simp only [hh, Real.log_one, mul_one, mul_zero, add_zero]
    rw [show g + 1 + (3 * g - 1) = 4 * g by ring, show g + 1 + (g - 1) = 2 * g by ring]
  rw [e1] at h1
  exact h1

/-- The normalised shock curve lies above the normalised rarefaction curve for `1 < γ ≤ 5/3`. -/
theorem shock_ge_rarefaction {g x : ℝ} (hg1 : 1 < g) (hg2 : g ≤ 5 / 3) (hx : 1 ≤ x) :
    2 / (g - 1) * (x ^ ((g - 1) / (2 * g)) - 1) ≤ √(2 / g) * ((x - 1) * ((g + 1) * x + (g - 1)) ^ (-(1 / 2) : ℝ)) := by
  set G : ℝ → ℝ := fun x => √(2 / g) * ((x - 1) * ((g + 1) * x + (g - 1)) ^ (-(1 / 2) : ℝ)) -
    2 / (g - 1) * (x ^ ((g - 1) / (2 * g)) - 1) with hG
  have hD : ∀ x : ℝ, 1 ≤ x → 0 < (g + 1) * x + (g - 1) := fun x hx => by nlinarith
  have hA : ∀ x : ℝ, 1 ≤ x → 0 < (g + 1) * x + (3 * g - 1) := fun x hx => by nlinarith
  have hg0 : g ≠ 0 := by linarith
  have hg1' : g - 1 ≠ 0 := by linarith
  have hder : ∀ x : ℝ, 1 ≤ x → HasDerivAt G
      (√(2 / g) * (1 / 2 * ((g + 1) * x + (3 * g - 1)) * ((g + 1) * x + (g - 1)) ^ (-(3 / 2) : ℝ)) -
        1 / g * x ^ (-((g + 1) / (2 * g)))) x := by
    intro x hx
    have d2 : HasDerivAt (fun x : ℝ => (g + 1) * x + (g - 1)) (g + 1) x := by
      simpa using ((hasDerivAt_id x).const_mul (g + 1)).add_const (g - 1)
    have d3 := d2.rpow_const (p := -(1 / 2)) (Or.inl (hD x hx).ne')
    have d4 := ((hasDerivAt_id x).sub_const 1).mul d3
    have d5 := (hasDerivAt_id x).rpow_const (p := (g - 1) / (2 * g)) (Or.inl (by simp; linarith))
    have d6 := (d4.const_mul √(2 / g)).sub ((d5.sub_const 1).const_mul (2 / (g - 1)))
    refine d6.congr_deriv ?_
    simp only [id]
    have e1 : ((g + 1) * x + (g - 1)) ^ (-(1 / 2) : ℝ) =
        ((g + 1) * x + (g - 1)) * ((g + 1) * x + (g - 1)) ^ (-(3 / 2) : ℝ) := by
      rw [← Real.rpow_one_add' (hD x hx).le (by norm_num)]
      norm_num
    have e2 : (-(1 / 2) : ℝ) - 1 = -(3 / 2) := by norm_num
    have e3 : (g - 1) / (2 * g) - 1 = -((g + 1) / (2 * g)) := by field_simp; ring
    rw [e2, e1, e3]
    have e4 : 2 / (g - 1) * (1 * ((g - 1) / (2 * g)) * x ^ (-((g + 1) / (2 * g)))) =
        1 / g * x ^ (-((g + 1) / (2 * g))) := by field_simp
    rw [e4]
    ring
  have hmono : MonotoneOn G (Set.Ici 1) := by
    refine monotoneOn_of_deriv_nonneg (convex_Ici 1) ?_ ?_ ?_
    · exact fun x hx => (hder x hx).continuousAt.continuousWithinAt
    · intro x hx
      rw [interior_Ici] at hx
      exact (hder x hx.le).differentiableAt.differentiableWithinAt
    · intro x hx
      rw [interior_Ici] at hx
      have hx1 : (1 : ℝ) < x := hx
      rw [(hder x hx1.le).deriv]
      have hs := shock_slope_ge hg1 hg2 hx1.le
      have h2g : (0 : ℝ) < 2 * g := by linarith
      -- exponentiate
      have hexp := Real.exp_le_exp.2 hs
      have hx0 : 0 < x := by linarith
      have eL : Real.exp (Real.log (4 * g) - 3 / 2 * Real.log (2 * g)) = 4 * g * (2 * g) ^ (-(3 / 2) : ℝ) := by
        rw [sub_eq_add_neg, Real.exp_add, Real.exp_log (by linarith), Real.rpow_def_of_pos h2g]
        congr 2; ring
      have eR : Real.exp (Real.log ((g + 1) * x + (3 * g - 1)) - 3 / 2 * Real.log ((g + 1) * x + (g - 1)) +
          (g + 1) / (2 * g) * Real.log x) =
          ((g + 1) * x + (3 * g - 1)) * ((g + 1) * x + (g - 1)) ^ (-(3 / 2) : ℝ) * x ^ ((g + 1) / (2 * g)) := by
        rw [sub_eq_add_neg, Real.exp_add, Real.exp_add, Real.exp_log (hA x hx1.le),
          Real.rpow_def_of_pos (hD x hx1.le), Real.rpow_def_of_pos hx0]
        congr 2
        · congr 1; ring
        · ring
      rw [eL, eR] at hexp
      -- normalisation constant
      have hc : √(2 / g) * (1 / 2) * (4 * g * (2 * g) ^ (-(3 / 2) : ℝ)) = 1 / g := by
        have e1 : (2 * g) ^ (-(3 / 2) : ℝ) = 1 / (2 * g * √(2 * g)) := by
          rw [Real.rpow_neg h2g.le, show (3 / 2 : ℝ) = 1 + 1 / 2 by norm_num, Real.rpow_add h2g, Real.rpow_one,
            ← Real.sqrt_eq_rpow, one_div]
        have e2 : √(2 / g) = √(2 * g) / g := by
          rw [show 2 / g = 2 * g / g ^ 2 by field_simp, Real.sqrt_div h2g.le, Real.sqrt_sq (by linarith)]
        rw [e1, e2]
        have h3 : √(2 * g) ≠ 0 := (Real.sqrt_pos.2 h2g).ne'
        field_simp
        norm_num
      have hxinv : x ^ (-((g + 1) / (2 * g))) * x ^ ((g + 1) / (2 * g)) = 1 := by
        rw [← Real.rpow_add hx0, neg_add_cancel, Real.rpow_zero]
      have hxp : 0 < x ^ (-((g + 1) / (2 * g))) := Real.rpow_pos_of_pos hx0 _
      have hk : 0 ≤ √(2 / g) * (1 / 2) := by positivity
      have h5 := mul_le_mul_of_nonneg_left hexp hk
      rw [hc] at h5
      have h6 := mul_le_mul_of_nonneg_right h5 hxp.le
      have e7 : √(2 / g) * (1 / 2) * (((g + 1) * x + (3 * g - 1)) * ((g + 1) * x + (g - 1)) ^ (-(3 / 2) : ℝ) *
          x ^ ((g + 1) / (2 * g))) * x ^ (-((g + 1) / (2 * g))) =
          √(2 / g) * (1 / 2 * ((g + 1) * x + (3 * g - 1)) * ((g + 1) * x + (g - 1)) ^ (-(3 / 2) : ℝ)) := by
        linear_combination (√(2 / g) * (1 / 2) * (((g + 1) * x + (3 * g - 1)) *
          ((g + 1) * x + (g - 1)) ^ (-(3 / 2) : ℝ))) * hxinv
      rw [e7] at h6
      linarith
  have h1 := hmono (Set.mem_Ici.2 le_rfl) (Set.mem_Ici.2 hx) hx
  have e1 : G 1 = 0 := by simp [hG]
  rw [e1] at h1
  simp only [hG] at h1
  linarith

end comparison

/-! ### The model's functions and the textbook formulas -/

/-- The Riemann data describe a polytropic gas. -/
structure Gas (gamma : ℝ) (d : RiemannData) : Prop where
  rho_pos : 0 < d.rho
  p_pos : 0 < d.p
  a_eq : d.a = Spec.gasSound gamma d.rho d.p

variable {gamma : ℝ} {d i j : RiemannData}

theorem Gas.a_pos (hg : 1 < gamma) (h : Gas gamma d) : 0 < d.a := by
  rw [h.a_eq]
  have := h.rho_pos
  have := h.p_pos
  exact Real.sqrt_pos.2 (by positivity)

theorem Gas.a_sq (hg : 1 < gamma) (h : Gas gamma d) : d.a ^ 2 = gamma * d.p / d.rho := by
  rw [h.a_eq]
  have := h.rho_pos
  have := h.p_pos
  exact Real.sq_sqrt (by positivity)

/-- A gas with negated velocity, as seen from the other side of an interface. -/
def mirror (d : RiemannData) : RiemannData := { d with u := -d.u }

theorem Gas.mirror (h : Gas gamma d) : Gas gamma (mirror d) := ⟨h.rho_pos, h.p_pos, h.a_eq⟩

theorem riemannF_eq (h : Gas gamma d) (p : ℝ) : riemannF gamma d p = Spec.gasWave gamma d.rho d.p p := by
  unfold riemannF Spec.gasWave
  rcases lt_trichotomy p d.p with hlt | heq | hgt
  · rw [if_neg (by simpa using hlt), if_pos hlt.le, h.a_eq]
    rw [show 1 / 2 * (gamma - 1) / gamma = (gamma - 1) / (2 * gamma) by
      rw [mul_comm 2 gamma, ← div_div]; ring]
    ring
  · have := h.p_pos.ne'
    rw [if_pos (by simp [heq]), if_pos heq.le, heq]
    simp [this]
  · rw [if_pos hgt.le, if_neg (by simpa using hgt)]
    rw [mul_comm d.rho]

theorem phiOfPMax_eq (hg : 1 < gamma) (hi : Gas gamma i) (hj : Gas gamma j) :
    phiOfPMax gamma i j = Spec.gasWave gamma i.rho i.p (max i.p j.p) + Spec.gasWave gamma j.rho j.p (max i.p j.p) +
      (j.u - i.u) := by
  have key : ∀ d : RiemannData, Gas gamma d → ∀ p, d.p ≤ p →
      (p - d.p) / √((1 / 2) * d.rho * ((gamma + 1) * p + (gamma - 1) * d.p)) = Spec.gasWave gamma d.rho d.p p := by
    intro d h p hp
    rw [← riemannF_eq h]
    unfold riemannF
    dsimp only
    rw [if_pos hp, div_eq_mul_inv, ← Real.sqrt_inv]
    congr 2
    have := h.rho_pos
    have := h.p_pos
    have h1 : 0 < gamma + 1 := by linarith
    have h2 : 0 < (gamma + 1) * p + (gamma - 1) * d.p := by nlinarith
    have e : p + (gamma - 1) / (gamma + 1) * d.p = ((gamma + 1) * p + (gamma - 1) * d.p) / (gamma + 1) := by
      field_simp
    rw [e]
    generalize (gamma + 1) * p + (gamma - 1) * d.p = z at *
    field_simp
  unfold phiOfPMax
  dsimp only
  rw [key i hi _ (le_max_left _ _), key j hj _ (le_max_right _ _)]
  ring

theorem sqrtFactor_eq (hg : 1 < gamma) (h : Gas gamma d) (p : ℝ) :
    √(1 + (gamma + 1) * (1 / 2) * (1 / gamma) * positivePart ((p - d.p) * (1 / d.p))) =
      Spec.gasSpeedFactor gamma d.p p := by
  have hp := h.p_pos
  unfold Spec.gasSpeedFactor
  split_ifs with hle
  · rw [positivePart_of_nonpos, mul_zero, add_zero, Real.sqrt_one]
    have : 0 < 1 / d.p := by positivity
    nlinarith
  · push Not at hle
    rw [positivePart_of_nonneg (by have : 0 < 1 / d.p := by positivity
                                   nlinarith)]
    congr 1
    have : gamma ≠ 0 := by linarith
    field_simp
    ring

theorem lambda1Minus_eq (hg : 1 < gamma) (h : Gas gamma d) (p : ℝ) :
    lambda1Minus gamma d p = Spec.gasLeftSpeed gamma d.rho d.u d.p p := by
  unfold lambda1Minus Spec.gasLeftSpeed
  dsimp only
  rw [sqrtFactor_eq hg h, h.a_eq]

theorem lambda3Plus_eq (hg : 1 < gamma) (h : Gas gamma d) (p : ℝ) :
    lambda3Plus gamma d p = Spec.gasRightSpeed gamma d.rho d.u d.p p := by
  unfold lambda3Plus Spec.gasRightSpeed
  dsimp only
  rw [sqrtFactor_eq hg h, h.a_eq]

theorem gasSpeedFactor_mono (hg : 1 < gamma) {pK p q : ℝ} (hK : 0 < pK) (h : p ≤ q) :
    Spec.gasSpeedFactor gamma pK p ≤ Spec.gasSpeedFactor gamma pK q := by
  have hd : Gas gamma ⟨1, 0, pK, Spec.gasSound gamma 1 pK⟩ := ⟨one_pos, hK, rfl⟩
  have e1 := sqrtFactor_eq hg hd p
  have e2 := sqrtFactor_eq hg hd q
  rw [← e1, ← e2]
  apply Real.sqrt_le_sqrt
  have : positivePart ((p - pK) * (1 / pK)) ≤ positivePart ((q - pK) * (1 / pK)) :=
    positivePart_mono (mul_le_mul_of_nonneg_right (by linarith) (by positivity))
  have h1 : 0 ≤ (gamma + 1) * (1 / 2) * (1 / gamma) := by
    have : 0 < gamma := by linarith
    positivity
  dsimp only at *
  nlinarith [mul_le_mul_of_nonneg_left this h1]

theorem one_le_gasSpeedFactor (hg : 1 < gamma) {pK p : ℝ} (hK : 0 < pK) : 1 ≤ Spec.gasSpeedFactor gamma pK p := by
  have h := gasSpeedFactor_mono hg hK (min_le_left p pK)
  rwa [show Spec.gasSpeedFactor gamma pK (min p pK) = 1 from if_pos (min_le_right _ _)] at h

theorem lambda1Minus_anti (hg : 1 < gamma) (h : Gas gamma d) {p q : ℝ} (hpq : p ≤ q) :
    lambda1Minus gamma d q ≤ lambda1Minus gamma d p := by
  rw [lambda1Minus_eq hg h, lambda1Minus_eq hg h]
  unfold Spec.gasLeftSpeed
  have := mul_le_mul_of_nonneg_left (gasSpeedFactor_mono hg h.p_pos hpq) (Real.sqrt_nonneg (gamma * d.p / d.rho))
  unfold Spec.gasSound
  linarith

theorem lambda3Plus_mono (hg : 1 < gamma) (h : Gas gamma d) {p q : ℝ} (hpq : p ≤ q) :
    lambda3Plus gamma d p ≤ lambda3Plus gamma d q := by
  rw [lambda3Plus_eq hg h, lambda3Plus_eq hg h]
  unfold Spec.gasRightSpeed
  have := mul_le_mul_of_nonneg_left (gasSpeedFactor_mono hg h.p_pos hpq) (Real.sqrt_nonneg (gamma * d.p / d.rho))
  unfold Spec.gasSound
  linarith

theorem lambda1Minus_le (hg : 1 < gamma) (h : Gas gamma d) (p : ℝ) : lambda1Minus gamma d p ≤ d.u - d.a := by
  rw [lambda1Minus_eq hg h, h.a_eq]
  unfold Spec.gasLeftSpeed
  have := mul_le_mul_of_nonneg_left (one_le_gasSpeedFactor (p := p) hg h.p_pos) (Real.sqrt_nonneg (gamma * d.p / d.rho))
  unfold Spec.gasSound
  linarith

theorem le_lambda3Plus (hg : 1 < gamma) (h : Gas gamma d) (p : ℝ) : d.u + d.a ≤ lambda3Plus gamma d p := by
  rw [lambda3Plus_eq hg h, h.a_eq]
  unfold Spec.gasRightSpeed
  have := mul_le_mul_of_nonneg_left (one_le_gasSpeedFactor (p := p) hg h.p_pos) (Real.sqrt_nonneg (gamma * d.p / d.rho))
  unfold Spec.gasSound
  linarith

/-! ### `compute_lambda` is what every path returns -/

theorem computeGap_snd (gamma : ℝ) (i j : RiemannData) (p_1 p_2 : ℝ) :
    (computeGap gamma i j p_1 p_2).2 = computeLambda gamma i j p_2 := rfl

/-- Every path through the solver evaluates `compute_lambda` at some pressure; whatever holds of the start pressure and
is preserved by the Newton step holds of that pressure. -/
theorem newtonLoop_invariant {L : ℕ} (gamma : ℝ) (rp : RiemannParams) (i j : Fin L → RiemannData)
    (Q : Fin L → ℝ → ℝ → Prop)
    (hstep : ∀ l p_1 p_2, Q l p_1 p_2 →
      Q l (quadraticNewtonStep rp.eps p_1 p_2 (phi gamma (i l) (j l) p_1) (phi gamma (i l) (j l) p_2)
          (dphi gamma (i l) (j l) p_1) (dphi gamma (i l) (j l) p_2) 1).1
        (quadraticNewtonStep rp.eps p_1 p_2 (phi gamma (i l) (j l) p_1) (phi gamma (i l) (j l) p_2)
          (dphi gamma (i l) (j l) p_1) (dphi gamma (i l) (j l) p_2) 1).2) (n : ℕ) :
    ∀ st : Fin L → NewtonState,
      (∀ l, Q l (st l).p_1 (st l).p_2 ∧ (st l).lambda_max = computeLambda gamma (i l) (j l) (st l).p_2) →
      ∀ l, Q l (newtonLoop gamma rp i j n st l).p_1 (newtonLoop gamma rp i j n st l).p_2 ∧
        (newtonLoop gamma rp i j n st l).lambda_max =
          computeLambda gamma (i l) (j l) (newtonLoop gamma rp i j n st l).p_2 := by
  induction n with
  | zero => exact fun st h => h
  | succ n ih =>
    intro st h
    unfold newtonLoop
    split_ifs
    · exact h
    · exact ih _ fun l => ⟨hstep l _ _ (h l).1, rfl⟩

theorem compute_exists {L : ℕ} (gamma : ℝ) (rp : RiemannParams) (i j : Fin L → RiemannData) (l : Fin L) :
    ∃ q, compute gamma rp i j l = computeLambda gamma (i l) (j l) q := by
  unfold compute
  split_ifs
  · exact ⟨_, rfl⟩
  · dsimp only
    refine ⟨_, (newtonLoop_invariant gamma rp i j (fun _ _ _ => True) (fun _ _ _ _ => trivial) _ _ ?_ l).2⟩
    exact fun l => ⟨trivial, rfl⟩

theorem computeLambda_characteristic (hg : 1 < gamma) (hi : Gas gamma i) (hj : Gas gamma j) (q : ℝ) :
    0 ≤ computeLambda gamma i j q ∧ -(i.u - i.a) ≤ computeLambda gamma i j q ∧ j.u + j.a ≤ computeLambda gamma i j q := by
  unfold computeLambda
  dsimp only
  rw [positivePart_eq_max, negativePart_eq_max]
  have h1 := lambda1Minus_le hg hi q
  have h3 := le_lambda3Plus hg hj q
  refine ⟨(le_max_left _ _).trans (le_max_left _ _), ?_, ?_⟩
  · exact le_trans (by linarith) ((le_max_right _ _).trans (le_max_right _ _))
  · exact le_trans h3 ((le_max_right _ _).trans (le_max_left _ _))

theorem computeLambda_bounds (hg : 1 < gamma) (hi : Gas gamma i) (hj : Gas gamma j) {p q : ℝ} (h : p ≤ q) :
    -Spec.gasLeftSpeed gamma i.rho i.u i.p p ≤ computeLambda gamma i j q ∧
      Spec.gasRightSpeed gamma j.rho j.u j.p p ≤ computeLambda gamma i j q := by
  rw [← lambda1Minus_eq hg hi, ← lambda3Plus_eq hg hj]
  have h1 := lambda1Minus_anti hg hi h
  have h3 := lambda3Plus_mono hg hj h
  unfold computeLambda
  dsimp only
  rw [positivePart_eq_max, negativePart_eq_max]
  refine ⟨?_, ?_⟩
  · exact le_trans (by linarith) ((le_max_right _ _).trans (le_max_right _ _))
  · exact le_trans h3 ((le_max_right _ _).trans (le_max_left _ _))

/-! ### Symmetry -/

@[simp] theorem mirror_mirror (d : RiemannData) : mirror (mirror d) = d := by simp [mirror]

theorem riemannF_mirror (gamma : ℝ) (d : RiemannData) (p : ℝ) : riemannF gamma (mirror d) p = riemannF gamma d p := rfl
theorem riemannDF_mirror (gamma : ℝ) (d : RiemannData) (p : ℝ) : riemannDF gamma (mirror d) p = riemannDF gamma d p :=
  rfl

theorem phi_swap (gamma : ℝ) (i j : RiemannData) (p : ℝ) : phi gamma (mirror j) (mirror i) p = phi gamma i j p := by
  unfold phi
  rw [riemannF_mirror, riemannF_mirror]
  simp only [mirror]
  ring

theorem dphi_swap (gamma : ℝ) (i j : RiemannData) (p : ℝ) : dphi gamma (mirror j) (mirror i) p = dphi gamma i j p := by
  unfold dphi
  rw [riemannDF_mirror, riemannDF_mirror, add_comm]

theorem phiOfPMax_swap (gamma : ℝ) (i j : RiemannData) : phiOfPMax gamma (mirror j) (mirror i) = phiOfPMax gamma i j := by
  unfold phiOfPMax
  simp only [mirror, max_comm j.p i.p]
  ring

theorem lambda1Minus_mirror (gamma : ℝ) (d : RiemannData) (p : ℝ) :
    lambda1Minus gamma (mirror d) p = -lambda3Plus gamma d p := by
  unfold lambda1Minus lambda3Plus
  simp only [mirror]
  ring

theorem lambda3Plus_mirror (gamma : ℝ) (d : RiemannData) (p : ℝ) :
    lambda3Plus gamma (mirror d) p = -lambda1Minus gamma d p := by
  unfold lambda1Minus lambda3Plus
  simp only [mirror]
  ring

theorem computeLambda_swap (gamma : ℝ) (i j : RiemannData) (p : ℝ) :
    computeLambda gamma (mirror j) (mirror i) p = computeLambda gamma i j p := by
  unfold computeLambda
  simp only [lambda1Minus_mirror, lambda3Plus_mirror, positivePart_eq_max, negativePart_eq_max, neg_neg]
  exact max_comm _ _

theorem computeGap_swap (gamma : ℝ) (i j : RiemannData) (p q : ℝ) :
    computeGap gamma (mirror j) (mirror i) p q = computeGap gamma i j p q := by
  apply Prod.ext
  · unfold computeGap
    simp only [lambda1Minus_mirror, lambda3Plus_mirror]
    rw [max_comm]
    congr 1
    · congr 1; ring
    · congr 1; ring
  · exact computeLambda_swap gamma i j q

theorem pStarTwoRarefaction_eq (hg : 1 < gamma) (hi : Gas gamma i) (hj : Gas gamma j) :
    pStarTwoRarefaction gamma i j =
      (positivePart (i.a + j.a - (gamma - 1) / 2 * (j.u - i.u)) /
        (i.a * i.p ^ (-((gamma - 1) / (2 * gamma))) + j.a * j.p ^ (-((gamma - 1) / (2 * gamma))))) ^
          (2 * gamma / (gamma - 1)) := by
  have hai := hi.a_pos hg
  have haj := hj.a_pos hg
  have hpi := hi.p_pos
  have hpj := hj.p_pos
  have h1 : 0 < gamma - 1 := by linarith
  have h2 : 0 < gamma := by linarith
  unfold pStarTwoRarefaction
  dsimp only
  rw [show -((gamma - 1) * (1 / 2)) * (1 / gamma) = -((gamma - 1) / (2 * gamma)) by field_simp,
    show 2 * gamma * (1 / (gamma - 1)) = 2 * gamma / (gamma - 1) by ring,
    show (gamma - 1) * (1 / 2) = (gamma - 1) / 2 by ring,
    show i.p * (1 / j.p) = i.p / j.p by ring]
  set e := (gamma - 1) / (2 * gamma) with he
  set N := positivePart (i.a + j.a - (gamma - 1) / 2 * (j.u - i.u))
  have hN : 0 ≤ N := positivePart_nonneg _
  have he1 : e * (2 * gamma / (gamma - 1)) = 1 := by rw [he]; field_simp
  have e1 : j.p = (j.p ^ e) ^ (2 * gamma / (gamma - 1)) := by
    rw [← Real.rpow_mul hpj.le, he1, Real.rpow_one]
  have hq : (i.p / j.p) ^ (-e) = i.p ^ (-e) * j.p ^ e := by
    rw [Real.div_rpow hpi.le hpj.le, Real.rpow_neg hpj.le e, div_inv_eq_mul]
  have hje : 0 < j.p ^ e := Real.rpow_pos_of_pos hpj _
  have hie : 0 < i.p ^ (-e) := Real.rpow_pos_of_pos hpi _
  have hje' : j.p ^ (-e) = 1 / j.p ^ e := by rw [Real.rpow_neg hpj.le, one_div]
  rw [hq]
  conv_lhs => enter [1]; rw [e1]
  rw [← Real.mul_rpow hje.le (by positivity), hje']
  congr 1
  field_simp

theorem pStarTwoRarefaction_swap (hg : 1 < gamma) (hi : Gas gamma i) (hj : Gas gamma j) :
    pStarTwoRarefaction gamma (mirror j) (mirror i) = pStarTwoRarefaction gamma i j := by
  rw [pStarTwoRarefaction_eq hg hi hj, pStarTwoRarefaction_eq hg hj.mirror hi.mirror]
  simp only [mirror]
  congr 2
  · congr 1; ring
  · ring

theorem pStarFailsafe_swap (gamma : ℝ) (i j : RiemannData) :
    pStarFailsafe gamma (mirror j) (mirror i) = pStarFailsafe gamma i j := by
  unfold pStarFailsafe
  simp only [mirror, max_comm j.p i.p]
  rw [show -i.u - -j.u = j.u - i.u by ring, add_comm (√(2 * max i.p j.p / (j.rho * _))),
    show ∀ a b c d : ℝ, -a * b - c * d = -c * d - a * b by intros; ring]

theorem startP2_swap (hg : 1 < gamma) (hi : Gas gamma i) (hj : Gas gamma j) :
    startP2 gamma (mirror j) (mirror i) = startP2 gamma i j := by
  unfold startP2
  rw [pStarTwoRarefaction_swap hg hi hj, pStarFailsafe_swap, phiOfPMax_swap]
  simp only [mirror, max_comm j.p i.p]

theorem startP1_swap (hg : 1 < gamma) (hi : Gas gamma i) (hj : Gas gamma j) :
    startP1 gamma (mirror j) (mirror i) = startP1 gamma i j := by
  unfold startP1
  rw [startP2_swap hg hi hj, phiOfPMax_swap]
  simp only [mirror, max_comm j.p i.p, min_comm j.p i.p]

theorem newtonLoop_swap {L : ℕ} (gamma : ℝ) (rp : RiemannParams) (i j : Fin L → RiemannData) (n : ℕ) :
    ∀ st, newtonLoop gamma rp (fun l => mirror (j l)) (fun l => mirror (i l)) n st = newtonLoop gamma rp i j n st := by
  induction n with
  | zero => exact fun _ => rfl
  | succ n ih =>
    intro st
    unfold newtonLoop
    have e : ∀ l st, newtonBody gamma rp.eps (mirror (j l)) (mirror (i l)) st = newtonBody gamma rp.eps (i l) (j l) st := by
      intro l st
      unfold newtonBody
      simp only [phi_swap, dphi_swap, computeGap_swap]
    simp only [e, ih]

theorem compute_swap {L : ℕ} (hg : 1 < gamma) (rp : RiemannParams) (i j : Fin L → RiemannData)
    (hi : ∀ l, Gas gamma (i l)) (hj : ∀ l, Gas gamma (j l)) :
    compute gamma rp (fun l => mirror (j l)) (fun l => mirror (i l)) = compute gamma rp i j := by
  unfold compute
  split_ifs
  · funext l
    rw [computeLambda_swap, startP2_swap hg (hi l) (hj l)]
  · dsimp only
    simp only [newtonLoop_swap, computeGap_swap, startP2_swap hg (hi _) (hj _), startP1_swap hg (hi _) (hj _)]

/-! ### Upper bounds for the star pressure -/

theorem gasWave_shock {rho pK p : ℝ} (hp : pK ≤ p) (hK : 0 < pK) :
    Spec.gasWave gamma rho pK p = (p - pK) * √(2 / ((gamma + 1) * rho) / (p + (gamma - 1) / (gamma + 1) * pK)) := by
  unfold Spec.gasWave
  split_ifs with h
  · have : p = pK := le_antisymm h hp
    rw [this]
    simp [hK.ne']
  · rfl

/-- The shock curve is strictly increasing. -/
theorem gasWave_strictMono_shock (hg : 1 < gamma) {rho pK p q : ℝ} (hr : 0 < rho) (hK : 0 < pK) (hp : pK ≤ p)
    (hpq : p < q) : Spec.gasWave gamma rho pK p < Spec.gasWave gamma rho pK q := by
  rw [gasWave_shock hp hK, gasWave_shock (hp.trans hpq.le) hK]
  have h1 : 0 < gamma + 1 := by linarith
  set A := 2 / ((gamma + 1) * rho) with hA
  have hApos : 0 < A := by positivity
  have hB : 0 < (gamma - 1) / (gamma + 1) * pK := by
    have : 0 < gamma - 1 := by linarith
    positivity
  set B := (gamma - 1) / (gamma + 1) * pK
  clear_value A B
  have e : ∀ x, pK ≤ x → (x - pK) * √(A / (x + B)) = √((x - pK) ^ 2 * (A / (x + B))) := by
    intro x hx
    rw [Real.sqrt_mul (sq_nonneg _), Real.sqrt_sq (by linarith)]
  rw [e p hp, e q (hp.trans hpq.le)]
  apply Real.sqrt_lt_sqrt
  · have : 0 < p + B := by linarith
    positivity
  · rw [← mul_div_assoc, ← mul_div_assoc, div_lt_div_iff₀ (by linarith) (by linarith)]
    have h2 : (p - pK) ^ 2 * (q + B) < (q - pK) ^ 2 * (p + B) := by
      have hx : 0 ≤ p - pK := by linarith
      have hy : 0 < q - p := by linarith
      have hs : 0 < pK + B := by linarith
      have : (q - pK) ^ 2 * (p + B) - (p - pK) ^ 2 * (q + B) =
          (q - p) * ((p - pK) * (p - pK + (q - p)) + (pK + B) * (2 * (p - pK) + (q - p))) := by ring
      have h3 : 0 < (p - pK) * (p - pK + (q - p)) + (pK + B) * (2 * (p - pK) + (q - p)) := by
        have : 0 ≤ (p - pK) * (p - pK + (q - p)) := mul_nonneg hx (by linarith)
        have : 0 < (pK + B) * (2 * (p - pK) + (q - p)) := mul_pos hs (by linarith)
        linarith
      nlinarith [mul_pos hy h3]
    nlinarith [mul_lt_mul_of_pos_left h2 hApos]

/-- For `1 < γ ≤ 5/3` the wave curve lies above the rarefaction curve. -/
theorem gasWave_ge_rarefaction (hg : 1 < gamma) (hg2 : gamma ≤ 5 / 3) {rho pK p : ℝ} (hr : 0 < rho) (hK : 0 < pK) :
    2 * Spec.gasSound gamma rho pK / (gamma - 1) * ((p / pK) ^ ((gamma - 1) / (2 * gamma)) - 1) ≤
      Spec.gasWave gamma rho pK p := by
  unfold Spec.gasWave
  split_ifs with h
  · exact le_rfl
  · push Not at h
    have hx : 1 ≤ p / pK := by rw [le_div_iff₀ hK]; linarith
    have hs := shock_ge_rarefaction hg hg2 hx
    have ha : 0 ≤ Spec.gasSound gamma rho pK := Real.sqrt_nonneg _
    have hm := mul_le_mul_of_nonneg_left hs ha
    have h1 : 0 < gamma + 1 := by linarith
    have h0 : 0 < gamma := by linarith
    have hD : 0 < (gamma + 1) * (p / pK) + (gamma - 1) := by nlinarith
    have e : (p - pK) * √(2 / ((gamma + 1) * rho) / (p + (gamma - 1) / (gamma + 1) * pK)) =
        Spec.gasSound gamma rho pK *
          (√(2 / gamma) * ((p / pK - 1) * ((gamma + 1) * (p / pK) + (gamma - 1)) ^ (-(1 / 2) : ℝ))) := by
      rw [Real.rpow_neg hD.le, ← Real.sqrt_eq_rpow, ← Real.sqrt_inv]
      unfold Spec.gasSound
      have e1 : √(gamma * pK / rho) * (√(2 / gamma) * ((p / pK - 1) * √((gamma + 1) * (p / pK) + (gamma - 1))⁻¹)) =
          (p / pK - 1) * √(gamma * pK / rho * (2 / gamma) * ((gamma + 1) * (p / pK) + (gamma - 1))⁻¹) := by
        rw [Real.sqrt_mul (by positivity), Real.sqrt_mul (by positivity)]
        ring
      rw [e1]
      have e2 : p - pK = (p / pK - 1) * pK := by field_simp
      rw [e2, mul_assoc]
      congr 1
      nth_rewrite 1 [← Real.sqrt_sq hK.le]
      rw [← Real.sqrt_mul (sq_nonneg _)]
      congr 1
      have e3 : p + (gamma - 1) / (gamma + 1) * pK = pK / (gamma + 1) * ((gamma + 1) * (p / pK) + (gamma - 1)) := by
        field_simp
      rw [e3]
      generalize (gamma + 1) * (p / pK) + (gamma - 1) = D at hD
      field_simp
    rw [e]
    refine le_trans (le_of_eq ?_) hm
    ring

/-- The two-rarefaction pressure bounds the star pressure if `1 < γ ≤ 5/3`. -/
theorem star_le_twoRarefaction (hg : 1 < gamma) (hg2 : gamma ≤ 5 / 3) (hi : Gas gamma i) (hj : Gas gamma j) {p : ℝ}
    (h : Spec.IsStarPressure gamma i.rho i.u i.p j.rho j.u j.p p) : p ≤ pStarTwoRarefaction gamma i j := by
  obtain ⟨hp, h0⟩ := h
  rw [pStarTwoRarefaction_eq hg hi hj]
  have hai := hi.a_pos hg
  have haj := hj.a_pos hg
  have hpi := hi.p_pos
  have hpj := hj.p_pos
  have h1 : 0 < gamma - 1 := by linarith
  have h2 : 0 < gamma := by linarith
  have wi := gasWave_ge_rarefaction (p := p) hg hg2 hi.rho_pos hi.p_pos
  have wj := gasWave_ge_rarefaction (p := p) hg hg2 hj.rho_pos hj.p_pos
  rw [← hi.a_eq, Real.div_rpow hp.le hpi.le] at wi
  rw [← hj.a_eq, Real.div_rpow hp.le hpj.le] at wj
  rw [Real.rpow_neg hpi.le, Real.rpow_neg hpj.le]
  set e := (gamma - 1) / (2 * gamma) with he
  have hiE : 0 < i.p ^ e := Real.rpow_pos_of_pos hpi _
  have hjE : 0 < j.p ^ e := Real.rpow_pos_of_pos hpj _
  have hsum : p ^ e * (i.a * (i.p ^ e)⁻¹ + j.a * (j.p ^ e)⁻¹) ≤ i.a + j.a - (gamma - 1) / 2 * (j.u - i.u) := by
    have hw : 2 * i.a / (gamma - 1) * (p ^ e / i.p ^ e - 1) + 2 * j.a / (gamma - 1) * (p ^ e / j.p ^ e - 1) +
        (j.u - i.u) ≤ 0 := by linarith
    have hm := mul_le_mul_of_nonneg_left hw (by positivity : 0 ≤ (gamma - 1) / 2)
    have e1 : (gamma - 1) / 2 * (2 * i.a / (gamma - 1) * (p ^ e / i.p ^ e - 1) +
        2 * j.a / (gamma - 1) * (p ^ e / j.p ^ e - 1) + (j.u - i.u)) =
        p ^ e * (i.a * (i.p ^ e)⁻¹ + j.a * (j.p ^ e)⁻¹) - (i.a + j.a) + (gamma - 1) / 2 * (j.u - i.u) := by
      field_simp
      ring
    rw [e1] at hm
    linarith
  have hden : 0 < i.a * (i.p ^ e)⁻¹ + j.a * (j.p ^ e)⁻¹ := by positivity
  have hle : p ^ e ≤ positivePart (i.a + j.a - (gamma - 1) / 2 * (j.u - i.u)) /
      (i.a * (i.p ^ e)⁻¹ + j.a * (j.p ^ e)⁻¹) := by
    rw [le_div_iff₀ hden, positivePart_eq_max]
    exact hsum.trans (le_max_right _ _)
  have hpow := Real.rpow_le_rpow (Real.rpow_nonneg hp.le _) hle (by positivity : 0 ≤ 2 * gamma / (gamma - 1))
  refine le_trans (le_of_eq ?_) hpow
  rw [← Real.rpow_mul hp.le, show e * (2 * gamma / (gamma - 1)) = 1 by rw [he]; field_simp, Real.rpow_one]

/-- The coefficient `x_K` of the failsafe bound. -/
theorem gasWave_ge_failsafe (hg : 1 < gamma) {rho pK pm p : ℝ} (hr : 0 < rho) (hK : 0 < pK) (hKm : pK ≤ pm)
    (hm : pm ≤ p) :
    (p - pK) * √(2 * pm / (rho * ((gamma + 1) * pm + (gamma - 1) * pK))) ≤ Spec.gasWave gamma rho pK p * √p := by
  rw [gasWave_shock (hKm.trans hm) hK, mul_assoc]
  apply mul_le_mul_of_nonneg_left _ (by linarith)
  have h1 : 0 < gamma + 1 := by linarith
  have h2 : 0 < gamma - 1 := by linarith
  have hpm : 0 < pm := by linarith
  have hp : 0 < p := by linarith
  rw [← Real.sqrt_mul (by positivity)]
  apply Real.sqrt_le_sqrt
  have e : 2 / ((gamma + 1) * rho) / (p + (gamma - 1) / (gamma + 1) * pK) * p =
      2 * p / (rho * ((gamma + 1) * p + (gamma - 1) * pK)) := by
    have : p + (gamma - 1) / (gamma + 1) * pK = ((gamma + 1) * p + (gamma - 1) * pK) / (gamma + 1) := by field_simp
    rw [this]
    have : 0 < (gamma + 1) * p + (gamma - 1) * pK := by positivity
    field_simp
  rw [e, div_le_div_iff₀ (by positivity) (by positivity)]
  have : pm * ((gamma - 1) * pK) ≤ p * ((gamma - 1) * pK) := mul_le_mul_of_nonneg_right hm (by positivity)
  nlinarith [mul_le_mul_of_nonneg_left this hr.le]

/-- The failsafe pressure bounds the star pressure if the latter is at least `p_max`. -/
theorem star_le_failsafe (hg : 1 < gamma) (hi : Gas gamma i) (hj : Gas gamma j) {p : ℝ}
    (h : Spec.IsStarPressure gamma i.rho i.u i.p j.rho j.u j.p p) (hmax : max i.p j.p ≤ p) :
    p ≤ pStarFailsafe gamma i j := by
  obtain ⟨hp, h0⟩ := h
  have hpi := hi.p_pos
  have hri := hi.rho_pos
  have hpj := hj.p_pos
  have hrj := hj.rho_pos
  have wi := gasWave_ge_failsafe hg hri hpi (le_max_left i.p j.p) hmax
  have wj := gasWave_ge_failsafe hg hrj hpj (le_max_right i.p j.p) hmax
  unfold pStarFailsafe
  dsimp only
  have h1 : 0 < gamma + 1 := by linarith
  have h2 : 0 < gamma - 1 := by linarith
  have hm : 0 < max i.p j.p := lt_of_lt_of_le hpi (le_max_left _ _)
  have hxi : 0 < √(2 * max i.p j.p / (i.rho * ((gamma + 1) * max i.p j.p + (gamma - 1) * i.p))) :=
    Real.sqrt_pos.2 (by positivity)
  have hxj : 0 < √(2 * max i.p j.p / (j.rho * ((gamma + 1) * max i.p j.p + (gamma - 1) * j.p))) :=
    Real.sqrt_pos.2 (by positivity)
  set xi := √(2 * max i.p j.p / (i.rho * ((gamma + 1) * max i.p j.p + (gamma - 1) * i.p)))
  set xj := √(2 * max i.p j.p / (j.rho * ((gamma + 1) * max i.p j.p + (gamma - 1) * j.p)))
  set y := √p with hy
  have hy0 : 0 ≤ y := Real.sqrt_nonneg _
  have hyy : y * y = p := Real.mul_self_sqrt hp.le
  have hq : (xi + xj) * (y * y) + (j.u - i.u) * y + (-i.p * xi - j.p * xj) ≤ 0 := by
    have : (Spec.gasWave gamma i.rho i.p p + Spec.gasWave gamma j.rho j.p p + (j.u - i.u)) * y = 0 := by
      rw [h0, zero_mul]
    rw [hyy]
    nlinarith
  have hdisc : (2 * (xi + xj) * y + (j.u - i.u)) ^ 2 ≤
      (j.u - i.u) * (j.u - i.u) - 4 * (xi + xj) * (-i.p * xi - j.p * xj) := by
    nlinarith [mul_le_mul_of_nonneg_left hq (by positivity : 0 ≤ 4 * (xi + xj))]
  have hle : 2 * (xi + xj) * y + (j.u - i.u) ≤
      √((j.u - i.u) * (j.u - i.u) - 4 * (xi + xj) * (-i.p * xi - j.p * xj)) :=
    (le_abs_self _).trans (Real.abs_le_sqrt hdisc)
  have hb : y ≤ (-(j.u - i.u) + √((j.u - i.u) * (j.u - i.u) - 4 * (xi + xj) * (-i.p * xi - j.p * xj))) /
      (2 * (xi + xj)) := by
    rw [le_div_iff₀ (by positivity)]
    linarith
  rw [← hyy]
  exact mul_self_le_mul_self hy0 hb

/-- The start pressure `p_2` bounds the star pressure unless there are one shock and one rarefaction with a star
pressure above the failsafe pressure. -/
theorem star_le_startP2 (hg : 1 < gamma) (hg2 : gamma ≤ 5 / 3) (hi : Gas gamma i) (hj : Gas gamma j) {p : ℝ}
    (h : Spec.IsStarPressure gamma i.rho i.u i.p j.rho j.u j.p p)
    (hcase : max i.p j.p ≤ p ∨ p ≤ pStarFailsafe gamma i j) : p ≤ startP2 gamma i j := by
  have h1 := star_le_twoRarefaction hg hg2 hi hj h
  have h2 : p ≤ pStarFailsafe gamma i j := hcase.elim (star_le_failsafe hg hi hj h) id
  unfold startP2 maskLt
  dsimp only
  split_ifs with hphi
  · exact le_min h1 h2
  · refine le_min ?_ (le_min h1 h2)
    by_contra hlt
    push Not at hlt
    apply hphi
    rw [phiOfPMax_eq hg hi hj, ← h.2]
    have := gasWave_strictMono_shock hg hi.rho_pos hi.p_pos (le_max_left i.p j.p) hlt
    have := gasWave_strictMono_shock hg hj.rho_pos hj.p_pos (le_max_right i.p j.p) hlt
    linarith

/-! ### Riemann data of a state -/

variable {dim : ℕ}

theorem normSq_perp {n m : Vec dim} (hn : normSq n = 1) :
    normSq (fun k => m k - dot n m * n k) = normSq m - dot n m ^ 2 := by
  have e : (fun k => m k - dot n m * n k) = m + (-dot n m) • n := by
    funext k; simp [sub_eq_add_neg]
  rw [e, normSq_add_smul, hn, dot_comm m n]
  ring

theorem internalEnergy_oneD (U : State dim) {n : Vec dim} (hn : normSq n = 1) :
    internalEnergy (mkState (density U) (fun _ : Fin 1 => dot n (momentum U))
      (totalEnergy U - 1 / 2 * normSq (fun k => momentum U k - dot n (momentum U) * n k) * (1 / density U))) =
      internalEnergy U := by
  unfold internalEnergy
  rw [normSq_perp hn]
  simp only [density_mkState, momentum_mkState, totalEnergy_mkState]
  rw [show normSq (fun _ : Fin 1 => dot n (momentum U)) = dot n (momentum U) ^ 2 by simp [normSq, sq]]
  ring

theorem riemannDataFromState_eq (p : Params) (U : State dim) {n : Vec dim} (hn : normSq n = 1) :
    riemannDataFromState p U n =
      ⟨density U, dot n (momentum U) / density U, pressure p U, Spec.gasSound p.gamma (density U) (pressure p U)⟩ := by
  have hp : pressure p (mkState (density U) (fun _ : Fin 1 => dot n (momentum U))
      (totalEnergy U - 1 / 2 * normSq (fun k => momentum U k - dot n (momentum U) * n k) * (1 / density U))) =
      pressure p U := by
    unfold pressure
    rw [internalEnergy_oneD U hn]
  unfold riemannDataFromState
  simp only [hp, speedOfSound, density_mkState, Spec.gasSound]
  congr 1
  · ring
  · congr 1; ring

theorem riemannDataFromState_gas (p : Params) (hg : 1 < p.gamma) (U : State dim) {n : Vec dim} (hn : normSq n = 1)
    (hr : 0 < density U) (he : 0 < internalEnergy U) : Gas p.gamma (riemannDataFromState p U n) := by
  rw [riemannDataFromState_eq p U hn]
  exact ⟨hr, mul_pos (by linarith) he, rfl⟩

theorem riemannDataFromState_neg (p : Params) (U : State dim) (n : Vec dim) :
    riemannDataFromState p U (-n) = mirror (riemannDataFromState p U n) := by
  have hd : dot (-n) (momentum U) = -dot n (momentum U) := by simp [dot, Finset.sum_neg_distrib]
  have hperp : (fun k => momentum U k - dot (-n) (momentum U) * (-n) k) =
      fun k => momentum U k - dot n (momentum U) * n k := by
    funext k; rw [hd]; simp
  rw [hd] at hperp
  have hi : ∀ E, internalEnergy (mkState (density U) (fun _ : Fin 1 => -dot n (momentum U)) E) =
      internalEnergy (mkState (density U) (fun _ : Fin 1 => dot n (momentum U)) E) := by
    intro E
    unfold internalEnergy
    simp [normSq]
  have hpr : ∀ E, pressure p (mkState (density U) (fun _ : Fin 1 => -dot n (momentum U)) E) =
      pressure p (mkState (density U) (fun _ : Fin 1 => dot n (momentum U)) E) := by
    intro E
    unfold pressure
    rw [hi]
  unfold riemannDataFromState
  simp only [hd, hperp, hpr, speedOfSound, mirror, density_mkState]
  congr 1
  ring

end Euler
end Ryujin
