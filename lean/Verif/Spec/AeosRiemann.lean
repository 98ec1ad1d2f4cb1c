import Mathlib.Analysis.SpecialFunctions.Pow.Real

/-!
# Specification: the extended Riemann problem of the Euler equations with interpolated equation of state

Left and right state have each their own (frozen) ratio of specific heats `γ_Z`; covolume constant `b` and reference
pressure `p_∞` are common to both (Clayton, Guermond and Popov, SIAM J. Sci. Comput. 44 (2022)).  Across the two
nonlinear waves each gas obeys the Nobel-Abel stiffened gas law
`p + p_∞ = (γ_Z - 1) (ρ e - ρ q - p_∞ (1 - b ρ)) / (1 - b ρ)`.  Written without reference to the code.
-/

namespace Ryujin
namespace Spec

/-- Speed of sound of a Nobel-Abel stiffened gas. -/
noncomputable def nasgSound (b pinf gamma rho p : ℝ) : ℝ := √(gamma * (p + pinf) / (rho * (1 - b * rho)))

/-- The relation between pressure and velocity across a wave next to a state `(rho_K, p_K)`. -/
noncomputable def nasgWave (b pinf gamma rho_K p_K p : ℝ) : ℝ :=
  if p ≤ p_K then
    2 * nasgSound b pinf gamma rho_K p_K * (1 - b * rho_K) / (gamma - 1) *
      (((p + pinf) / (p_K + pinf)) ^ ((gamma - 1) / (2 * gamma)) - 1)
  else (p - p_K) * √(2 * (1 - b * rho_K) / ((gamma + 1) * rho_K) / (p + pinf + (gamma - 1) / (gamma + 1) * (p_K + pinf)))

/-- The factor by which a wave moves faster than sound relative to the state ahead of it. -/
noncomputable def nasgSpeedFactor (pinf gamma p_K p : ℝ) : ℝ :=
  if p ≤ p_K then 1
  else √((gamma + 1) / (2 * gamma) * ((p + pinf) / (p_K + pinf)) + (gamma - 1) / (2 * gamma))

/-- One side of the extended Riemann problem: density, velocity in the direction of the problem, pressure and `γ_Z`. -/
structure Side where
  rho : ℝ
  u : ℝ
  p : ℝ
  gamma : ℝ

/-- A side is a gas: positive density, less dense than the covolume permits, pressure above `-p_∞`, `γ_Z > 1`. -/
structure Side.Valid (b pinf : ℝ) (s : Side) : Prop where
  rho_pos : 0 < s.rho
  covolume : 0 < 1 - b * s.rho
  p_pos : 0 < s.p + pinf
  gamma_gt : 1 < s.gamma

/-- `p` is the pressure of the star region of the extended Riemann problem. -/
def IsNasgStarPressure (b pinf : ℝ) (l r : Side) (p : ℝ) : Prop :=
  0 < p + pinf ∧ nasgWave b pinf l.gamma l.rho l.p p + nasgWave b pinf r.gamma r.rho r.p p + (r.u - l.u) = 0

/-- Speed of the left-most wave. -/
noncomputable def nasgLeftSpeed (b pinf : ℝ) (l : Side) (p : ℝ) : ℝ :=
  l.u - nasgSound b pinf l.gamma l.rho l.p * nasgSpeedFactor pinf l.gamma l.p p

/-- Speed of the right-most wave. -/
noncomputable def nasgRightSpeed (b pinf : ℝ) (r : Side) (p : ℝ) : ℝ :=
  r.u + nasgSound b pinf r.gamma r.rho r.p * nasgSpeedFactor pinf r.gamma r.p p

end Spec
end Ryujin
