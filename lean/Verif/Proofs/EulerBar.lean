import Verif.Proofs.EulerEntropy
import Verif.Proofs.EulerSystem
import Verif.Spec.EulerWaves

/-!
# The bar states of the Euler equations: positivity and minimum principle for the specific entropy
-/

namespace Ryujin
namespace Euler

variable {dim : ℕ}

theorem gasSound_eq (p : Params) (U : State dim) :
    Spec.gasSound p.gamma (density U) (pressure p U) = speedOfSound p U := by
  unfold Spec.gasSound speedOfSound
  congr 1; ring

/-! ### Positivity -/

/-- Half of a bar state: the state minus its flux over the wave speed. -/
theorem half_positive (p : Params) (hg : 1 < p.gamma) (U : State dim) {n : Vec dim} (hn : normSq n = 1)
    (hr : 0 < density U) (he : 0 < internalEnergy U) {lam : ℝ} (hl : 0 < lam)
    (h : speedOfSound p U ≤ lam + velocityAlong U n) :
    0 < density (U + (1 / lam) • contract (f p U) n) ∧ 0 < internalEnergy (U + (1 / lam) • contract (f p U) n) := by
  have hg1 : 0 < p.gamma - 1 := by linarith
  have hpp : 0 < pressure p U := mul_pos hg1 he
  have ha : 0 < speedOfSound p U := Real.sqrt_pos.2 (by have : 0 < p.gamma := by linarith
                                                        positivity)
  have hasq : speedOfSound p U ^ 2 = p.gamma * pressure p U / density U := by
    unfold speedOfSound
    rw [Real.sq_sqrt (by have : 0 < p.gamma := by linarith
                         positivity)]
    ring
  set u := velocityAlong U n with hu
  have hmn : dot (momentum U) n = density U * u := by rw [hu, velocityAlong, dot_comm]; field_simp
  have hw : 0 < lam + u := ha.trans_le h
  have hE : totalEnergy U = internalEnergy U + 1 / 2 * normSq (momentum U) / density U := by
    unfold internalEnergy; ring
  rw [contract_f, hmn]
  have hden : density (U + (1 / lam) • mkState (density U * u)
      (fun i => density U * u * (momentum U i / density U) + pressure p U * n i)
      (density U * u * ((totalEnergy U + pressure p U) / density U))) = density U * (lam + u) / lam := by
    simp only [density_add, density_smul, density_mkState]; field_simp
  refine ⟨by rw [hden]; positivity, ?_⟩
  unfold internalEnergy
  rw [hden]
  simp only [momentum_add, totalEnergy_add, momentum_smul, totalEnergy_smul, momentum_mkState, totalEnergy_mkState]
  have hmom : momentum U + (1 / lam) • (fun i => density U * u * (momentum U i / density U) + pressure p U * n i)
      = ((lam + u) / lam) • momentum U + (pressure p U / lam) • n := by
    funext k
    simp only [Pi.add_apply, Pi.smul_apply, smul_eq_mul]
    field_simp; ring
  rw [hmom, normSq_add, normSq_smul, normSq_smul, dot_smul_left, dot_smul_right, hn, hmn, hE]
  have key : pressure p U ^ 2 < 2 * (lam + u) ^ 2 * density U * internalEnergy U := by
    have h1 : speedOfSound p U ^ 2 ≤ (lam + u) ^ 2 := pow_le_pow_left₀ ha.le h 2
    rw [hasq] at h1
    have h2 : 2 * (p.gamma * pressure p U / density U) * density U * internalEnergy U ≤
        2 * (lam + u) ^ 2 * density U * internalEnergy U := by
      have := mul_le_mul_of_nonneg_right h1 (mul_pos hr he).le
      nlinarith
    refine lt_of_lt_of_le ?_ h2
    have e : 2 * (p.gamma * pressure p U / density U) * density U * internalEnergy U =
        2 * p.gamma * pressure p U * internalEnergy U := by field_simp
    rw [e]
    have e2 : pressure p U = (p.gamma - 1) * internalEnergy U := rfl
    have : pressure p U * pressure p U < pressure p U * (2 * p.gamma * internalEnergy U) := by
      apply mul_lt_mul_of_pos_left _ hpp
      rw [e2]; nlinarith
    nlinarith
  have e : internalEnergy U + 1 / 2 * normSq (momentum U) / density U + 1 / lam * (density U * u *
      ((internalEnergy U + 1 / 2 * normSq (momentum U) / density U + pressure p U) / density U)) -
      1 / 2 * (((lam + u) / lam) ^ 2 * normSq (momentum U) +
        2 * ((lam + u) / lam * (pressure p U / lam * (density U * u))) + (pressure p U / lam) ^ 2 * 1) *
        (1 / (density U * (lam + u) / lam)) =
      (2 * (lam + u) ^ 2 * density U * internalEnergy U - pressure p U ^ 2) / (2 * lam * density U * (lam + u)) := by
    have := hw.ne'
    generalize hq : lam + u = q at *
    have hu' : u = q - lam := by linarith
    rw [hu']
    field_simp
    ring
  rw [e]
  exact div_pos (by linarith) (by positivity)

theorem contract_neg_normal (F : Fin (dim + 2) → Vec dim) (n : Vec dim) : contract F (-n) = -contract F n := by
  funext k
  simp [contract, dot]

theorem velocityAlong_neg (U : State dim) (n : Vec dim) : velocityAlong U (-n) = -velocityAlong U n := by
  unfold velocityAlong
  rw [show dot (-n) (momentum U) = -dot n (momentum U) by simp [dot]]
  ring

theorem normSq_neg (n : Vec dim) : normSq (-n) = normSq n := by simp [normSq]

theorem barOf_eq (p : Params) (U_i U_j : State dim) (n : Vec dim) {lam : ℝ} :
    barOf p U_i U_j n lam = (1 / 2 : ℝ) • (U_i + (1 / lam) • contract (f p U_i) n) +
      (1 / 2 : ℝ) • (U_j + (1 / lam) • contract (f p U_j) (-n)) := by
  rw [contract_neg_normal]
  funext k
  simp only [barOf, Pi.sub_apply, Pi.add_apply, Pi.smul_apply, Pi.neg_apply, smul_eq_mul]
  ring

/-- Bar states of admissible states are admissible if the wave speed dominates the characteristic speeds
`a_i - u_i` and `u_j + a_j`. -/
theorem bar_positive (p : Params) (hg : 1 < p.gamma) (U_i U_j : State dim) {n : Vec dim} (hn : normSq n = 1)
    (hri : 0 < density U_i) (hei : 0 < internalEnergy U_i) (hrj : 0 < density U_j) (hej : 0 < internalEnergy U_j)
    {lam : ℝ} (hl : 0 < lam) (h1 : -(velocityAlong U_i n - speedOfSound p U_i) ≤ lam)
    (h2 : velocityAlong U_j n + speedOfSound p U_j ≤ lam) :
    0 < density (barOf p U_i U_j n lam) ∧ 0 < internalEnergy (barOf p U_i U_j n lam) := by
  have a := half_positive p hg U_i hn hri hei hl (by linarith)
  have b := half_positive p hg U_j (n := -n) (by rw [normSq_neg, hn]) hrj hej hl (by rw [velocityAlong_neg]; linarith)
  rw [barOf_eq]
  refine ⟨?_, ?_⟩
  · rw [density_add, density_smul, density_smul]
    linarith [a.1, b.1]
  · have := internalEnergy_concave _ _ a.1 b.1 (la := 1 / 2) (lb := 1 / 2) (by norm_num) (by norm_num) (by norm_num)
    linarith [a.2, b.2]

/-! ### Minimum principle -/

/-- A supporting hyperplane of `{ρe ≥ σ ρ^γ}` as a function of the state: touching at density `r` and velocity `v`. -/
noncomputable def hyperplane (gamma sigma r : ℝ) (v : Vec dim) (U : State dim) : ℝ :=
  totalEnergy U - dot (momentum U) v + density U * (1 / 2 * normSq v - gamma * sigma * r ^ (gamma - 1))

theorem hyperplane_add (gamma sigma r : ℝ) (v : Vec dim) (U V : State dim) :
    hyperplane gamma sigma r v (U + V) = hyperplane gamma sigma r v U + hyperplane gamma sigma r v V := by
  simp only [hyperplane, totalEnergy_add, momentum_add, density_add, dot_add_left]; ring

theorem hyperplane_smul (gamma sigma r t : ℝ) (v : Vec dim) (U : State dim) :
    hyperplane gamma sigma r v (t • U) = t * hyperplane gamma sigma r v U := by
  simp only [hyperplane, totalEnergy_smul, momentum_smul, density_smul, dot_smul_left]; ring

/-- Squared velocity relative to `v` tangential to `n`. -/
noncomputable def tangential (U : State dim) (v n : Vec dim) : ℝ :=
  normSq ((1 / density U) • momentum U - v) - (velocityAlong U n - dot n v) ^ 2

theorem tangential_nonneg (U : State dim) (v : Vec dim) {n : Vec dim} (hn : normSq n = 1) : 0 ≤ tangential U v n := by
  have e : velocityAlong U n - dot n v = dot n ((1 / density U) • momentum U - v) := by
    unfold velocityAlong
    rw [sub_eq_add_neg ((1 / density U) • momentum U), dot_add_right, dot_smul_right,
      show dot n (-v) = -dot n v by simp [dot]]
    ring
  unfold tangential
  rw [e, ← normSq_perp hn]
  exact normSq_nonneg _

theorem tangential_neg (U : State dim) (v n : Vec dim) : tangential U v (-n) = tangential U v n := by
  unfold tangential
  rw [velocityAlong_neg, show dot (-n) v = -dot n v by simp [dot]]
  ring

theorem normSq_sub' {k : ℕ} (a b : Vec k) : normSq (a - b) = normSq a - 2 * dot a b + normSq b := by
  rw [sub_eq_add_neg, normSq_add, show dot a (-b) = -dot a b by simp [dot], show normSq (-b) = normSq b by simp [normSq]]
  ring

theorem supportGap_eq (p : Params) (hg : 1 < p.gamma) (sigma r : ℝ) (v n : Vec dim) (U : State dim)
    (hr : 0 < density U) :
    supportGap p.gamma sigma r (density U) (velocityAlong U n - dot n v) (tangential U v n) (pressure p U) =
      hyperplane p.gamma sigma r v U + (p.gamma - 1) * sigma * r ^ p.gamma := by
  have hg1 : p.gamma - 1 ≠ 0 := by linarith
  unfold supportGap tangential hyperplane
  rw [add_sub_cancel, normSq_sub', normSq_smul, dot_smul_left]
  have hE : totalEnergy U = internalEnergy U + 1 / 2 * normSq (momentum U) / density U := by
    unfold internalEnergy; ring
  rw [hE]
  unfold pressure
  field_simp
  ring

theorem hyperplane_flux (p : Params) (sigma r : ℝ) (v : Vec dim) (n : Vec dim) (U : State dim) (hr : 0 < density U) :
    hyperplane p.gamma sigma r v (contract (f p U) n) =
      velocityAlong U n * hyperplane p.gamma sigma r v U + pressure p U * (velocityAlong U n - dot n v) := by
  have hmn : dot (momentum U) n = density U * velocityAlong U n := by
    rw [velocityAlong, dot_comm]; field_simp
  rw [contract_f, hmn]
  unfold hyperplane
  simp only [totalEnergy_mkState, momentum_mkState, density_mkState]
  have e : (fun i => density U * velocityAlong U n * (momentum U i / density U) + pressure p U * n i) =
      velocityAlong U n • momentum U + pressure p U • n := by
    funext k
    simp only [Pi.add_apply, Pi.smul_apply, smul_eq_mul]
    field_simp
  rw [e, dot_add_left, dot_smul_left, dot_smul_left]
  field_simp
  ring

/-- One side of a bar state. -/
theorem half_hyperplane (p : Params) (hg : 1 < p.gamma) {sigma r : ℝ} (hs : 0 ≤ sigma) (hr : 0 < r) (v : Vec dim)
    (U : State dim) {n : Vec dim} (hn : normSq n = 1) (hrU : 0 < density U) (heU : 0 < internalEnergy U)
    (hent : sigma ≤ specificEntropy p U) {ps lam : ℝ} (hps : 0 ≤ ps)
    (hlam : -Spec.gasLeftSpeed p.gamma (density U) (velocityAlong U n) (pressure p U) ps ≤ lam) :
    (ps - (p.gamma - 1) * sigma * r ^ p.gamma) *
        (velocityAlong U n - dot n v - Spec.gasWave p.gamma (density U) (pressure p U) ps) ≤
      lam * (hyperplane p.gamma sigma r v U + (p.gamma - 1) * sigma * r ^ p.gamma) +
        (hyperplane p.gamma sigma r v (contract (f p U) n) + (p.gamma - 1) * sigma * r ^ p.gamma * dot n v) := by
  have hg1 : 0 < p.gamma - 1 := by linarith
  have hp : 0 < pressure p U := mul_pos hg1 heU
  have hent' : sigma * density U ^ p.gamma ≤ pressure p U / (p.gamma - 1) := by
    rw [entropy_iff p _ _ hrU] at hent
    unfold pressure
    rwa [mul_div_cancel_left₀ _ hg1.ne']
  have h := wave_inequality (w := velocityAlong U n - dot n v) (mu := lam + velocityAlong U n) hg hs hr hrU hp
    (tangential_nonneg U v hn) hent' hps (by unfold Spec.gasLeftSpeed at hlam; linarith)
  rw [supportGap_eq p hg sigma r v n U hrU] at h
  rw [hyperplane_flux p sigma r v n U hrU]
  refine h.trans (le_of_eq ?_)
  ring

/-- **Minimum principle for bar states.**  If the wave speed dominates the speeds of the exact solution (`ps = 0` is the
formation of vacuum), the specific entropy of the bar state is at least every lower bound of the entropies of both
states. -/
theorem bar_entropy (p : Params) (hg : 1 < p.gamma) (U_i U_j : State dim) {n : Vec dim} (hn : normSq n = 1)
    (hri : 0 < density U_i) (hei : 0 < internalEnergy U_i) (hrj : 0 < density U_j) (hej : 0 < internalEnergy U_j)
    {ps : ℝ} (hps : 0 ≤ ps)
    (hstar : Spec.gasWave p.gamma (density U_i) (pressure p U_i) ps + Spec.gasWave p.gamma (density U_j) (pressure p U_j) ps +
        (velocityAlong U_j n - velocityAlong U_i n) = 0 ∨
      (ps = 0 ∧ 0 ≤ Spec.gasWave p.gamma (density U_i) (pressure p U_i) ps +
        Spec.gasWave p.gamma (density U_j) (pressure p U_j) ps + (velocityAlong U_j n - velocityAlong U_i n)))
    {lam : ℝ} (hl : 0 < lam)
    (h1 : -Spec.gasLeftSpeed p.gamma (density U_i) (velocityAlong U_i n) (pressure p U_i) ps ≤ lam)
    (h2 : Spec.gasRightSpeed p.gamma (density U_j) (velocityAlong U_j n) (pressure p U_j) ps ≤ lam)
    {sigma : ℝ} (hs : 0 ≤ sigma) (hsi : sigma ≤ specificEntropy p U_i) (hsj : sigma ≤ specificEntropy p U_j) :
    sigma ≤ specificEntropy p (barOf p U_i U_j n lam) := by
  have hg1 : 0 < p.gamma - 1 := by linarith
  have hpi : 0 < pressure p U_i := mul_pos hg1 hei
  have hpj : 0 < pressure p U_j := mul_pos hg1 hej
  have hai : 0 ≤ speedOfSound p U_i := Real.sqrt_nonneg _
  have haj : 0 ≤ speedOfSound p U_j := Real.sqrt_nonneg _
  have hpos := bar_positive p hg U_i U_j hn hri hei hrj hej hl
    (by
      unfold Spec.gasLeftSpeed at h1
      rw [gasSound_eq] at h1
      have := mul_le_mul_of_nonneg_left (one_le_gasSpeedFactor (p := ps) hg hpi) hai
      linarith)
    (by
      unfold Spec.gasRightSpeed at h2
      rw [gasSound_eq] at h2
      have := mul_le_mul_of_nonneg_left (one_le_gasSpeedFactor (p := ps) hg hpj) haj
      linarith)
  set B := barOf p U_i U_j n lam with hB
  set r := density B with hrB
  set v : Vec dim := (1 / r) • momentum B with hv
  have hr : 0 < r := hpos.1
  have a := half_hyperplane p hg hs hr v U_i hn hri hei hsi hps h1
  have b := half_hyperplane p hg hs hr v U_j (n := -n) (by rw [normSq_neg, hn]) hrj hej hsj hps (lam := lam)
    (by unfold Spec.gasLeftSpeed; unfold Spec.gasRightSpeed at h2; rw [velocityAlong_neg]; linarith)
  rw [velocityAlong_neg, show dot (-n) v = -dot n v by simp [dot]] at b
  set P := (p.gamma - 1) * sigma * r ^ p.gamma with hP
  have hP0 : 0 ≤ P := by positivity
  -- the hyperplane at the bar state
  have hbar : hyperplane p.gamma sigma r v B = 1 / 2 * (hyperplane p.gamma sigma r v U_i + 1 / lam *
      hyperplane p.gamma sigma r v (contract (f p U_i) n)) + 1 / 2 * (hyperplane p.gamma sigma r v U_j + 1 / lam *
      hyperplane p.gamma sigma r v (contract (f p U_j) (-n))) := by
    rw [hB, barOf_eq]
    simp only [hyperplane_add, hyperplane_smul]
  have hself : hyperplane p.gamma sigma r v B + P = internalEnergy B - sigma * r ^ p.gamma := by
    unfold hyperplane internalEnergy
    rw [hv, normSq_smul, dot_smul_right, ← normSq_eq_dot, ← hrB, hP, Real.rpow_sub_one hr.ne']
    field_simp
    ring
  have hsum : 0 ≤ 2 * lam * (hyperplane p.gamma sigma r v B + P) := by
    rw [hbar]
    have e : 2 * lam * (1 / 2 * (hyperplane p.gamma sigma r v U_i + 1 / lam *
      hyperplane p.gamma sigma r v (contract (f p U_i) n)) + 1 / 2 * (hyperplane p.gamma sigma r v U_j + 1 / lam *
      hyperplane p.gamma sigma r v (contract (f p U_j) (-n))) + P) =
      lam * (hyperplane p.gamma sigma r v U_i + P) + hyperplane p.gamma sigma r v (contract (f p U_i) n) +
      (lam * (hyperplane p.gamma sigma r v U_j + P) + hyperplane p.gamma sigma r v (contract (f p U_j) (-n))) := by
      field_simp
      ring
    rw [e]
    have hz : 0 ≤ -(ps - P) * (Spec.gasWave p.gamma (density U_i) (pressure p U_i) ps +
        Spec.gasWave p.gamma (density U_j) (pressure p U_j) ps + (velocityAlong U_j n - velocityAlong U_i n)) := by
      rcases hstar with h | ⟨h, h'⟩
      · rw [h, mul_zero]
      · rw [h, zero_sub, neg_neg]
        rw [h] at h'
        exact mul_nonneg hP0 h'
    nlinarith [a, b, hz]
  rw [entropy_iff p _ _ hpos.1]
  have h3 : 0 ≤ hyperplane p.gamma sigma r v B + P := by
    by_contra hcon
    push Not at hcon
    have : 2 * lam * (hyperplane p.gamma sigma r v B + P) < 0 := mul_neg_of_pos_of_neg (by linarith) hcon
    linarith
  rw [hself] at h3
  linarith

end Euler
end Ryujin
