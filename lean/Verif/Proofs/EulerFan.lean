import Verif.Proofs.EulerBar
import Mathlib.Topology.Order.IntermediateValue
import Mathlib.Analysis.SpecialFunctions.Pow.Continuity

/-!
# Existence of the pressure of the exact solution
-/

namespace Ryujin
namespace Euler

variable {dim : ℕ}

theorem gasWave_split {gamma rho_K p_K p : ℝ} (hK : 0 < p_K) : Spec.gasWave gamma rho_K p_K p =
    2 * Spec.gasSound gamma rho_K p_K / (gamma - 1) * ((min p p_K / p_K) ^ ((gamma - 1) / (2 * gamma)) - 1) +
      (max p p_K - p_K) * √(2 / ((gamma + 1) * rho_K) / (max p p_K + (gamma - 1) / (gamma + 1) * p_K)) := by
  unfold Spec.gasWave
  split_ifs with h
  · rw [min_eq_left h, max_eq_right h, sub_self, zero_mul, add_zero]
  · have h' := (not_le.1 h).le
    rw [min_eq_right h', max_eq_left h', div_self hK.ne', Real.one_rpow, sub_self, mul_zero, zero_add]

theorem gasWave_continuous {gamma rho_K p_K : ℝ} (hg : 1 < gamma) (hK : 0 < p_K) :
    Continuous (Spec.gasWave gamma rho_K p_K) := by
  have h : Spec.gasWave gamma rho_K p_K = fun p =>
    2 * Spec.gasSound gamma rho_K p_K / (gamma - 1) * ((min p p_K / p_K) ^ ((gamma - 1) / (2 * gamma)) - 1) +
      (max p p_K - p_K) * √(2 / ((gamma + 1) * rho_K) / (max p p_K + (gamma - 1) / (gamma + 1) * p_K)) :=
    funext fun p => gasWave_split hK
  rw [h]
  have he : 0 < (gamma - 1) / (2 * gamma) := div_pos (by linarith) (by linarith)
  have h1 : Continuous fun p : ℝ => (min p p_K / p_K) ^ ((gamma - 1) / (2 * gamma)) :=
    (Real.continuous_rpow_const he.le).comp ((continuous_id.min continuous_const).div_const _)
  have h2 : Continuous fun p : ℝ => 2 / ((gamma + 1) * rho_K) / (max p p_K + (gamma - 1) / (gamma + 1) * p_K) := by
    refine Continuous.div continuous_const ((continuous_id.max continuous_const).add continuous_const) fun p => ?_
    have h3 : p_K ≤ max p p_K := le_max_right _ _
    have h4 : 0 ≤ (gamma - 1) / (gamma + 1) * p_K := mul_nonneg (div_nonneg (by linarith) (by linarith)) hK.le
    exact (by linarith : 0 < max p p_K + (gamma - 1) / (gamma + 1) * p_K).ne'
  exact (continuous_const.mul (h1.sub continuous_const)).add
    (((continuous_id.max continuous_const).sub continuous_const).mul h2.sqrt)

theorem gasWave_nonneg {gamma rho_K p_K p : ℝ} (hK : 0 < p_K) (h : p_K ≤ p) : 0 ≤ Spec.gasWave gamma rho_K p_K p := by
  rw [gasWave_split hK, min_eq_right h, max_eq_left h, div_self hK.ne', Real.one_rpow, sub_self, mul_zero, zero_add]
  exact mul_nonneg (by linarith) (Real.sqrt_nonneg _)

theorem gasWave_unbounded {gamma rho_K p_K : ℝ} (hg : 1 < gamma) (hr : 0 < rho_K) (hK : 0 < p_K) (m : ℝ) :
    ∃ p0, ∀ p, p0 ≤ p → m ≤ Spec.gasWave gamma rho_K p_K p := by
  set A := 2 / ((gamma + 1) * rho_K) with hA
  have hA0 : 0 < A := by have : 0 < gamma + 1 := by linarith
                         positivity
  refine ⟨max (2 * p_K) (8 * m ^ 2 / A), fun p hp => ?_⟩
  have h1 : 2 * p_K ≤ p := (le_max_left _ _).trans hp
  have h2 : 8 * m ^ 2 / A ≤ p := (le_max_right _ _).trans hp
  have hpp : p_K ≤ p := by linarith
  have hp0 : 0 < p := by linarith
  rw [gasWave_split hK, min_eq_right hpp, max_eq_left hpp, div_self hK.ne', Real.one_rpow, sub_self, mul_zero, zero_add,
    ← hA]
  have hB : (gamma - 1) / (gamma + 1) * p_K ≤ p_K := by
    have : (gamma - 1) / (gamma + 1) ≤ 1 := by rw [div_le_one (by linarith)]; linarith
    nlinarith
  have hB0 : 0 ≤ (gamma - 1) / (gamma + 1) * p_K := mul_nonneg (div_nonneg (by linarith) (by linarith)) hK.le
  have h3 : A / (2 * p) ≤ A / (p + (gamma - 1) / (gamma + 1) * p_K) :=
    div_le_div_of_nonneg_left hA0.le (by linarith) (by linarith)
  have h4 : m ≤ p / 2 * √(A / (2 * p)) := by
    have : |m| ≤ p / 2 * √(A / (2 * p)) := by
      apply abs_le_of_sq_le_sq
      · rw [mul_pow, Real.sq_sqrt (by positivity)]
        rw [div_le_iff₀ hA0] at h2
        have e : (p / 2) ^ 2 * (A / (2 * p)) = p * A / 8 := by field_simp; ring
        rw [e]; linarith
      · positivity
    exact (le_abs_self m).trans this
  refine h4.trans ?_
  exact mul_le_mul (by linarith) (Real.sqrt_le_sqrt h3) (Real.sqrt_nonneg _) (by linarith)

/-- The exact solution of the Riemann problem between two admissible states exists. -/
theorem exists_fanPressure (p : Params) (hg : 1 < p.gamma) (U_i U_j : State dim) (n : Vec dim)
    (hri : 0 < density U_i) (hei : 0 < internalEnergy U_i) (hej : 0 < internalEnergy U_j) :
    ∃ ps, IsFanPressure p U_i U_j n ps := by
  have hg1 : 0 < p.gamma - 1 := by linarith
  have hpi : 0 < pressure p U_i := mul_pos hg1 hei
  have hpj : 0 < pressure p U_j := mul_pos hg1 hej
  set phi : ℝ → ℝ := fun q => Spec.gasWave p.gamma (density U_i) (pressure p U_i) q +
    Spec.gasWave p.gamma (density U_j) (pressure p U_j) q + (velocityAlong U_j n - velocityAlong U_i n) with hphi
  have hc : Continuous phi := ((gasWave_continuous hg hpi).add (gasWave_continuous hg hpj)).add continuous_const
  by_cases h0 : 0 ≤ phi 0
  · exact ⟨0, Or.inr ⟨rfl, h0⟩⟩
  push Not at h0
  obtain ⟨p0, hp0⟩ := gasWave_unbounded hg hri hpi (-(velocityAlong U_j n - velocityAlong U_i n))
  set P := max p0 (pressure p U_j) with hP
  have hP0 : 0 ≤ P := hpj.le.trans (le_max_right _ _)
  have h1 : 0 ≤ phi P := by
    have a := hp0 P (le_max_left _ _)
    have b := gasWave_nonneg (gamma := p.gamma) (rho_K := density U_j) hpj (le_max_right p0 _ : _ ≤ P)
    show 0 ≤ _ + _ + _
    linarith
  obtain ⟨q, hq, e⟩ := intermediate_value_Icc hP0 hc.continuousOn ⟨h0.le, h1⟩
  refine ⟨q, Or.inl ⟨lt_of_le_of_ne hq.1 fun h => ?_, e⟩⟩
  rw [← h] at e
  linarith

theorem leftSpeed_neg (p : Params) (U : State dim) (n : Vec dim) (ps : ℝ) :
    leftSpeed p U (-n) ps = -rightSpeed p U n ps := by
  unfold leftSpeed rightSpeed Spec.gasLeftSpeed Spec.gasRightSpeed
  rw [velocityAlong_neg]; ring

theorem rightSpeed_neg (p : Params) (U : State dim) (n : Vec dim) (ps : ℝ) :
    rightSpeed p U (-n) ps = -leftSpeed p U n ps := by
  unfold leftSpeed rightSpeed Spec.gasLeftSpeed Spec.gasRightSpeed
  rw [velocityAlong_neg]; ring

/-- Exchanging the states and reversing the direction is the same Riemann problem. -/
theorem Dominates.swap {p : Params} {U_i U_j : State dim} {n : Vec dim} {lam : ℝ} (h : Dominates p U_i U_j n lam) :
    Dominates p U_j U_i (-n) lam := by
  obtain ⟨ps, h1, h2, h3⟩ := h
  refine ⟨ps, ?_, by rw [leftSpeed_neg]; linarith, by rw [rightSpeed_neg]; linarith⟩
  rcases h1 with ⟨a, b⟩ | ⟨a, b⟩
  · refine Or.inl ⟨a, ?_⟩
    rw [velocityAlong_neg, velocityAlong_neg]
    linarith
  · refine Or.inr ⟨a, ?_⟩
    unfold HasVacuum at b ⊢
    rw [velocityAlong_neg, velocityAlong_neg]
    linarith

theorem Dominates.mono {p : Params} {U_i U_j : State dim} {n : Vec dim} {lam mu : ℝ} (h : Dominates p U_i U_j n lam)
    (hle : lam ≤ mu) : Dominates p U_i U_j n mu := by
  obtain ⟨ps, h1, h2, h3⟩ := h
  exact ⟨ps, h1, h2.trans hle, h3.trans hle⟩

end Euler
end Ryujin
