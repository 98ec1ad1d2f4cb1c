import Verif.Spec.EulerRiemann
import Verif.Model.EulerSystem

/-!
# Specification: the Riemann problem between two states in a direction, and its bar state
-/

namespace Ryujin
namespace Euler

variable {dim : ℕ}

/-- Velocity in direction `n`. -/
noncomputable def velocityAlong (U : State dim) (n : Vec dim) : ℝ := dot n (momentum U) / density U

/-- The star pressure of the Riemann problem between two states in direction `n`. -/
def IsStarPressure (p : Params) (U_i U_j : State dim) (n : Vec dim) (ps : ℝ) : Prop :=
  Spec.IsStarPressure p.gamma (density U_i) (velocityAlong U_i n) (pressure p U_i) (density U_j)
    (velocityAlong U_j n) (pressure p U_j) ps

/-- The Riemann problem between two states in direction `n` has a vacuum: even the full expansion to pressure zero of
both gases does not make them meet. -/
def HasVacuum (p : Params) (U_i U_j : State dim) (n : Vec dim) : Prop :=
  0 ≤ Spec.gasWave p.gamma (density U_i) (pressure p U_i) 0 + Spec.gasWave p.gamma (density U_j) (pressure p U_j) 0 +
    (velocityAlong U_j n - velocityAlong U_i n)

/-- Pressure between the two nonlinear waves of the exact solution: the star pressure, or zero if there is a vacuum. -/
def IsFanPressure (p : Params) (U_i U_j : State dim) (n : Vec dim) (ps : ℝ) : Prop :=
  IsStarPressure p U_i U_j n ps ∨ (ps = 0 ∧ HasVacuum p U_i U_j n)

/-- Speed of the left-most wave of the exact solution with star pressure `ps`. -/
noncomputable def leftSpeed (p : Params) (U_i : State dim) (n : Vec dim) (ps : ℝ) : ℝ :=
  Spec.gasLeftSpeed p.gamma (density U_i) (velocityAlong U_i n) (pressure p U_i) ps

/-- Speed of the right-most wave of the exact solution with star pressure `ps`. -/
noncomputable def rightSpeed (p : Params) (U_j : State dim) (n : Vec dim) (ps : ℝ) : ℝ :=
  Spec.gasRightSpeed p.gamma (density U_j) (velocityAlong U_j n) (pressure p U_j) ps

/-- `lam` is at least as large as the wave speeds of the exact solution of the Riemann problem. -/
def Dominates (p : Params) (U_i U_j : State dim) (n : Vec dim) (lam : ℝ) : Prop :=
  ∃ ps, IsFanPressure p U_i U_j n ps ∧ -leftSpeed p U_i n ps ≤ lam ∧ rightSpeed p U_j n ps ≤ lam

/-- The bar state of two states for the wave speed `lam` in direction `n`. -/
noncomputable def barOf (p : Params) (U_i U_j : State dim) (n : Vec dim) (lam : ℝ) : State dim :=
  (1 / 2 : ℝ) • (U_i + U_j) - (1 / (2 * lam)) • (contract (f p U_j) n - contract (f p U_i) n)

end Euler
end Ryujin
