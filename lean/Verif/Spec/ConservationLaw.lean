import Verif.Model.EulerSystem
import Verif.Model.ShallowWater
import Mathlib.Analysis.Calculus.Deriv.Basic
import Mathlib.Analysis.Calculus.Deriv.Pi

/-!
# Specification: solutions of systems of conservation laws

Independent of the code: the textbook form of the compressible Euler equations and of the shallow water equations, classical
solutions at a point in space and time, and the jump conditions of Rankine and Hugoniot.
-/

namespace Ryujin
namespace Spec

open scoped BigOperators

noncomputable section

variable {n d : ℕ}

/-- The field `U`, a function of position and time, solves `∂ₜU + ∑ₖ ∂ₖ Fₖ(U) = S` in the classical sense at the point
`x` and time `t`: all derivatives exist there and add up. -/
def SolvesAt (F : Vec n → Fin d → Vec n) (S : Vec n) (U : Vec d → ℝ → Vec n) (x : Vec d) (t : ℝ) : Prop :=
  ∃ (Ut : Vec n) (Fx : Fin d → Vec n), HasDerivAt (fun s => U x s) Ut t ∧
    (∀ k, HasDerivAt (fun s => F (U (Function.update x k s) t) k) (Fx k) (x k)) ∧ Ut + ∑ k, Fx k = S

/-- The jump conditions for a discontinuity with normal `nu` (from `UL` to `UR`) that moves with speed `s` in direction
`nu`. -/
def RankineHugoniot (F : Vec n → Fin d → Vec n) (nu : Vec d) (s : ℝ) (UL UR : Vec n) : Prop :=
  ∑ k, nu k • (F UR k - F UL k) = s • (UR - UL)

/-- Flux in direction `k` of the compressible Euler equations with pressure function `P`. -/
def eulerFlux (P : Euler.State d → ℝ) (U : Euler.State d) (k : Fin d) : Euler.State d :=
  let rho := Euler.density U
  let m := Euler.momentum U
  let E := Euler.totalEnergy U
  Euler.mkState (m k) (fun i => m i * m k / rho + if i = k then P U else 0) ((E + P U) * m k / rho)

/-- Pressure of a polytropic gas: `(γ - 1) (E - |m|² / (2ρ))`. -/
def gasPressure (gamma : ℝ) (U : Euler.State d) : ℝ :=
  (gamma - 1) * (Euler.totalEnergy U - normSq (Euler.momentum U) / (2 * Euler.density U))

/-- The conserved state of a polytropic gas with density `rho`, velocity `u` and pressure `p`. -/
def gasConserved (gamma rho : ℝ) (u : Vec d) (p : ℝ) : Euler.State d :=
  Euler.mkState rho (fun i => rho * u i) (p / (gamma - 1) + 1 / 2 * rho * normSq u)

/-- The field `U` solves the Euler equations of a polytropic gas at `(x, t)`. -/
def SolvesEuler (gamma : ℝ) (U : Vec d → ℝ → Euler.State d) (x : Vec d) (t : ℝ) : Prop :=
  SolvesAt (eulerFlux (gasPressure gamma)) 0 U x t

/-- Flux in direction `k` of the shallow water equations. -/
def shallowWaterFlux (g : ℝ) (U : ShallowWater.State d) (k : Fin d) : ShallowWater.State d :=
  let h := ShallowWater.waterDepth U
  let m := ShallowWater.momentum U
  ShallowWater.mkState (m k) (fun i => m i * m k / h + if i = k then 1 / 2 * g * h ^ 2 else 0)

/-- The field `U` solves the shallow water equations with gravity `g`, bottom topography `z` and Manning friction
coefficient `nm` at `(x, t)`: the source is `-g h ∇z - g nm² |v| m / h^(4/3)` in the momentum equation. -/
def SolvesShallowWater (g nm : ℝ) (z : Vec d → ℝ) (U : Vec d → ℝ → ShallowWater.State d) (x : Vec d) (t : ℝ) : Prop :=
  let h := ShallowWater.waterDepth (U x t)
  let m := ShallowWater.momentum (U x t)
  ∃ zx : Vec d, (∀ k, HasDerivAt (fun s => z (Function.update x k s)) (zx k) (x k)) ∧
    SolvesAt (shallowWaterFlux g)
      (ShallowWater.mkState 0 fun i => -(g * h * zx i) - g * nm ^ 2 * vnorm (fun j => m j / h) / h ^ ((4 : ℝ) / 3) * m i) U x t

end

end Spec
end Ryujin
