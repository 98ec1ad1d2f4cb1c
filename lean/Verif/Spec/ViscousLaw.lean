import Verif.Spec.ConservationLaw

/-!
# Specification: solutions of the compressible Navier-Stokes equations

Independent of the code: a polytropic gas with shear viscosity `mu`, bulk viscosity `lambda` and heat flux
`-kappa ∇e`, where `e` is the specific internal energy (so `kappa` is the heat conductivity divided by the specific heat
at constant volume).
-/

namespace Ryujin
namespace Spec

open scoped BigOperators

noncomputable section

variable {d : ℕ}

/-- Specific internal energy. -/
def specificEnergy (U : Euler.State d) : ℝ :=
  (Euler.totalEnergy U - normSq (Euler.momentum U) / (2 * Euler.density U)) / Euler.density U

/-- `∂ⱼ vᵢ` of the velocity `v = m / ρ` of the field `U`. -/
def velocityGradient (U : Vec d → Euler.State d) (y : Vec d) (i j : Fin d) : ℝ :=
  deriv (fun s => Euler.momentum (U (Function.update y j s)) i / Euler.density (U (Function.update y j s))) (y j)

/-- `∂ⱼ e` of the specific internal energy of the field `U`. -/
def energyGradient (U : Vec d → Euler.State d) (y : Vec d) (j : Fin d) : ℝ :=
  deriv (fun s => specificEnergy (U (Function.update y j s))) (y j)

/-- Newtonian stress tensor of a velocity gradient `G`. -/
def newtonianStress (mu lambda : ℝ) (G : Fin d → Fin d → ℝ) (i j : Fin d) : ℝ :=
  mu * (G i j + G j i) + if i = j then (lambda - 2 / 3 * mu) * ∑ l, G l l else 0

/-- Flux in direction `k` of the Navier-Stokes equations. -/
def navierStokesFlux (gamma mu lambda kappa : ℝ) (U : Vec d → Euler.State d) (y : Vec d) (k : Fin d) : Euler.State d :=
  let S := newtonianStress mu lambda (velocityGradient U y)
  eulerFlux (gasPressure gamma) (U y) k - Euler.mkState 0 (fun i => S i k)
    (∑ i, S i k * (Euler.momentum (U y) i / Euler.density (U y)) + kappa * energyGradient U y k)

/-- The field `U` solves the Navier-Stokes equations in the classical sense at `(x, t)`: it has partial derivatives near
`x`, and the derivatives of the conserved quantities and of the fluxes exist and add up to zero. -/
def SolvesNavierStokes (gamma mu lambda kappa : ℝ) (U : Vec d → ℝ → Euler.State d) (x : Vec d) (t : ℝ) : Prop :=
  (∀ k j, ∀ᶠ s in nhds (x k),
    DifferentiableAt ℝ (fun r => U (Function.update (Function.update x k s) j r) t) (Function.update x k s j)) ∧
  ∃ (Ut : Euler.State d) (Fx : Fin d → Euler.State d), HasDerivAt (fun s => U x s) Ut t ∧
    (∀ k, HasDerivAt (fun s => navierStokesFlux gamma mu lambda kappa (fun y => U y t) (Function.update x k s) k) (Fx k)
      (x k)) ∧ Ut + ∑ k, Fx k = 0

end

end Spec
end Ryujin
