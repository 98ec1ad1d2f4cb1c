import Verif.Proofs.ExactSolutions
import Mathlib.Analysis.SpecialFunctions.ExpDeriv
import Mathlib.Analysis.SpecialFunctions.Pow.Deriv
import Mathlib.Analysis.SpecialFunctions.Trigonometric.Basic

/-!
# Helper lemmas: derivatives of a Gaussian vortex along a curve
-/

namespace Ryujin
namespace Spec

noncomputable section

/-- `c exp((1 - a² - b²) / 2)` -/
def vortexFactor (c a b : ℝ) : ℝ := c * Real.exp (0.5 - 0.5 * (a * a + b * b))

theorem hasDerivAt_vortexFactor (c : ℝ) {a b : ℝ → ℝ} {a' b' s : ℝ} (ha : HasDerivAt a a' s) (hb : HasDerivAt b b' s) :
    HasDerivAt (fun y => vortexFactor c (a y) (b y)) (-vortexFactor c (a s) (b s) * (a s * a' + b s * b')) s := by
  have h1 := (((ha.mul ha).add (hb.mul hb)).const_mul (0.5 : ℝ)).const_sub (0.5 : ℝ)
  have h2 := (h1.exp).const_mul c
  unfold vortexFactor
  refine h2.congr_deriv ?_
  simp only [Pi.add_apply, Pi.mul_apply]
  ring

/-- Temperature of the vortex. -/
def vortexT (gamma c a b : ℝ) : ℝ := 1 - (gamma - 1) / (2 * gamma) * vortexFactor c a b * vortexFactor c a b

theorem hasDerivAt_vortexT (gamma c : ℝ) {a b : ℝ → ℝ} {a' b' s : ℝ} (ha : HasDerivAt a a' s) (hb : HasDerivAt b b' s) :
    HasDerivAt (fun y => vortexT gamma c (a y) (b y))
      ((gamma - 1) / gamma * vortexFactor c (a s) (b s) ^ 2 * (a s * a' + b s * b')) s := by
  have h1 := hasDerivAt_vortexFactor c ha hb
  have h2 := ((h1.const_mul ((gamma - 1) / (2 * gamma))).mul h1).const_sub 1
  unfold vortexT
  refine h2.congr_deriv ?_
  rcases eq_or_ne gamma 0 with rfl | hg
  · simp
  · field_simp
    ring

/-- Density of the vortex. -/
def vortexRho (gamma c a b : ℝ) : ℝ := vortexT gamma c a b ^ (1 / (gamma - 1))

/-- Pressure of the vortex. -/
def vortexP (gamma c a b : ℝ) : ℝ := vortexRho gamma c a b ^ gamma

theorem vortexRho_pos {gamma c a b : ℝ} (hT : 0 < vortexT gamma c a b) : 0 < vortexRho gamma c a b :=
  Real.rpow_pos_of_pos hT _

theorem hasDerivAt_vortexRho {gamma : ℝ} (hg : 1 < gamma) (c : ℝ) {a b : ℝ → ℝ} {a' b' s : ℝ} (ha : HasDerivAt a a' s)
    (hb : HasDerivAt b b' s) (hT : 0 < vortexT gamma c (a s) (b s)) :
    HasDerivAt (fun y => vortexRho gamma c (a y) (b y))
      (vortexRho gamma c (a s) (b s) / (gamma * vortexT gamma c (a s) (b s)) * vortexFactor c (a s) (b s) ^ 2 *
        (a s * a' + b s * b')) s := by
  have h1 := (hasDerivAt_vortexT gamma c ha hb).rpow_const (p := 1 / (gamma - 1)) (Or.inl hT.ne')
  unfold vortexRho
  refine h1.congr_deriv ?_
  rw [Real.rpow_sub_one hT.ne']
  have : gamma - 1 ≠ 0 := by linarith
  field_simp

theorem hasDerivAt_vortexP {gamma : ℝ} (hg : 1 < gamma) (c : ℝ) {a b : ℝ → ℝ} {a' b' s : ℝ} (ha : HasDerivAt a a' s)
    (hb : HasDerivAt b b' s) (hT : 0 < vortexT gamma c (a s) (b s)) :
    HasDerivAt (fun y => vortexP gamma c (a y) (b y))
      (vortexRho gamma c (a s) (b s) * vortexFactor c (a s) (b s) ^ 2 * (a s * a' + b s * b')) s := by
  have hr := vortexRho_pos hT
  have h1 := (hasDerivAt_vortexRho hg c ha hb hT).rpow_const (p := gamma) (Or.inl hr.ne')
  unfold vortexP
  refine h1.congr_deriv ?_
  have h2 : vortexRho gamma c (a s) (b s) ^ (gamma - 1) = vortexT gamma c (a s) (b s) := by
    unfold vortexRho
    rw [← Real.rpow_mul hT.le, one_div_mul_cancel (by linarith), Real.rpow_one]
  rw [h2]
  have : gamma ≠ 0 := by linarith
  field_simp

end

end Spec
end Ryujin
