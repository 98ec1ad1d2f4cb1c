import Verif.Spec.AeosRiemann
import Verif.Model.AeosSystem

/-!
# Specification: exact solution of the extended Riemann problem, bar states and admissible states for an arbitrary
equation of state
-/

namespace Ryujin
namespace Spec

/-- Pressure between the two nonlinear waves of the exact solution: the star pressure, or `-p_∞` if even the full
expansion of both gases does not make them meet (vacuum). -/
def IsNasgFanPressure (b pinf : ℝ) (l r : Side) (p : ℝ) : Prop :=
  IsNasgStarPressure b pinf l r p ∨ (p + pinf = 0 ∧
    0 ≤ nasgWave b pinf l.gamma l.rho l.p p + nasgWave b pinf r.gamma r.rho r.p p + (r.u - l.u))

/-- `lam` is at least as large as the wave speeds of the exact solution. -/
def NasgDominates (b pinf : ℝ) (l r : Side) (lam : ℝ) : Prop :=
  ∃ p, IsNasgFanPressure b pinf l r p ∧ -nasgLeftSpeed b pinf l p ≤ lam ∧ nasgRightSpeed b pinf r p ≤ lam

end Spec

namespace Aeos

open Euler (State density momentum totalEnergy internalEnergy)

variable {dim : ℕ}

/-- A state together with its pressure is a gas: positive density below the one the covolume permits, positive shifted
internal energy, pressure above `-p_∞`. -/
structure GasState (P : Params) (U : State dim) (pr : ℝ) : Prop where
  rho_pos : 0 < density U
  cov_pos : 0 < 1 - P.b * density U
  shift_pos : 0 < internalEnergy U - density U * P.q - P.pinf * (1 - P.b * density U)
  p_pos : 0 < pr + P.pinf

/-- Admissible states: positive density below the one the covolume permits, positive shifted internal energy. -/
structure Admissible (P : Params) (U : State dim) : Prop where
  rho_pos : 0 < density U
  cov_pos : 0 < 1 - P.b * density U
  shift_pos : 0 < internalEnergy U - density U * P.q - P.pinf * (1 - P.b * density U)

/-- A state as one side of the extended Riemann problem in direction `n`: its `γ` is the one for which the Nobel-Abel
stiffened gas law returns the pressure of the state. -/
noncomputable def stateSide (P : Params) (U : State dim) (pr : ℝ) (n : Vec dim) : Spec.Side :=
  ⟨density U, dot n (momentum U) / density U, pr, 1 + (pr + P.pinf) * (1 - P.b * density U) /
    (internalEnergy U - density U * P.q - P.pinf * (1 - P.b * density U))⟩

/-- The bar state of two states with pressures `p_i`, `p_j` for the wave speed `lam` in direction `n`. -/
noncomputable def barOf (U_i : State dim) (p_i : ℝ) (U_j : State dim) (p_j : ℝ) (n : Vec dim) (lam : ℝ) : State dim :=
  (1 / 2 : ℝ) • (U_i + U_j) - (1 / (2 * lam)) • (contract (f U_j p_j) n - contract (f U_i p_i) n)

end Aeos
end Ryujin
