import Mathlib.Analysis.SpecialFunctions.Pow.Real

/-!
# Specification: the exact solution of the Riemann problem of the Euler equations for a polytropic gas

Textbook formulas (E. F. Toro, *Riemann Solvers and Numerical Methods for Fluid Dynamics*, Chapter 4), written without
reference to the code: the pressure `p*` between the two nonlinear waves solves `f_L(p*) + f_R(p*) + u_R - u_L = 0`; a
wave is a rarefaction if `p* ≤ p_K` (with head moving at `u_K ∓ a_K`) and a shock otherwise (moving at
`u_K ∓ a_K √((γ+1)/(2γ) p*/p_K + (γ-1)/(2γ))`).
-/

namespace Ryujin
namespace Spec

/-- Speed of sound of a polytropic gas. -/
noncomputable def gasSound (gamma rho p : ℝ) : ℝ := √(gamma * p / rho)

/-- The relation between pressure and velocity across a wave next to a state `(rho_K, p_K)`. -/
noncomputable def gasWave (gamma rho_K p_K p : ℝ) : ℝ :=
  if p ≤ p_K then 2 * gasSound gamma rho_K p_K / (gamma - 1) * ((p / p_K) ^ ((gamma - 1) / (2 * gamma)) - 1)
  else (p - p_K) * √(2 / ((gamma + 1) * rho_K) / (p + (gamma - 1) / (gamma + 1) * p_K))

/-- `p` is the pressure of the star region of the Riemann problem with left state `(rho_L, u_L, p_L)` and right state
`(rho_R, u_R, p_R)`. -/
def IsStarPressure (gamma rho_L u_L p_L rho_R u_R p_R p : ℝ) : Prop :=
  0 < p ∧ gasWave gamma rho_L p_L p + gasWave gamma rho_R p_R p + (u_R - u_L) = 0

/-- The factor by which the wave moves faster than sound relative to the state ahead of it. -/
noncomputable def gasSpeedFactor (gamma p_K p : ℝ) : ℝ :=
  if p ≤ p_K then 1 else √((gamma + 1) / (2 * gamma) * (p / p_K) + (gamma - 1) / (2 * gamma))

/-- Speed of the left-most wave. -/
noncomputable def gasLeftSpeed (gamma rho_L u_L p_L p : ℝ) : ℝ :=
  u_L - gasSound gamma rho_L p_L * gasSpeedFactor gamma p_L p

/-- Speed of the right-most wave. -/
noncomputable def gasRightSpeed (gamma rho_R u_R p_R p : ℝ) : ℝ :=
  u_R + gasSound gamma rho_R p_R * gasSpeedFactor gamma p_R p

end Spec
end Ryujin
