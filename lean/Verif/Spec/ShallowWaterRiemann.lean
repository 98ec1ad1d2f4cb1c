import Mathlib.Analysis.Real.Sqrt

/-!
# Specification: the exact solution of the shallow water Riemann problem over a flat bottom

Textbook formulas (E. F. Toro, *Shock-Capturing Methods for Free-Surface Shallow Flows*, Chapter 5) for
wet states, written without reference to the code: the depth `h*` between the two nonlinear waves solves
`f_L(h*) + f_R(h*) + u_R - u_L = 0`; a wave is a rarefaction if `h* ≤ h_K` (with head moving at
`u_K ∓ a_K`) and a shock otherwise (moving at `u_K ∓ a_K √(h* (h* + h_K) / (2 h_K²))`).
-/

namespace Ryujin
namespace Spec

/-- The relation between depth and velocity across a wave next to a state of depth `h_K`. -/
noncomputable def swWave (g h_K h : ℝ) : ℝ :=
  if h ≤ h_K then 2 * (√(g * h) - √(g * h_K))
  else (h - h_K) * √(g * (h + h_K) / (2 * h * h_K))

/-- `h` is the depth of the star region of the Riemann problem with left state `(h_L, u_L)` and right
state `(h_R, u_R)`. -/
def IsStarDepth (g h_L u_L h_R u_R h : ℝ) : Prop :=
  0 < h ∧ swWave g h_L h + swWave g h_R h + (u_R - u_L) = 0

/-- The factor by which the wave moves faster than sound relative to the state ahead of it. -/
noncomputable def swSpeedFactor (h_K h : ℝ) : ℝ :=
  if h ≤ h_K then 1 else √(h * (h + h_K) / (2 * h_K ^ 2))

/-- Speed of the left-most wave. -/
noncomputable def swLeftSpeed (g h_L u_L h : ℝ) : ℝ := u_L - √(g * h_L) * swSpeedFactor h_L h

/-- Speed of the right-most wave. -/
noncomputable def swRightSpeed (g h_R u_R h : ℝ) : ℝ := u_R + √(g * h_R) * swSpeedFactor h_R h

end Spec
end Ryujin
