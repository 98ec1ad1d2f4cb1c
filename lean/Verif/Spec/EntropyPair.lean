import Mathlib.Analysis.Calculus.Deriv.Basic
import Mathlib.Analysis.Calculus.Deriv.Pi
import Verif.Model.EulerSystem

/-!
# Entropy pairs (specification of C89)

States are vectors with `n` components in `dim` space dimensions; a flux assigns to a state one vector per component.
-/

namespace Ryujin
namespace Spec

variable {n dim : ℕ}

/-- `g` is the gradient of `eta` at `U`: the chain rule holds along every curve through `U`. -/
def IsGradient (eta : Vec n → ℝ) (U g : Vec n) : Prop :=
  ∀ (c : ℝ → Vec n) (c' : Vec n), c 0 = U → HasDerivAt c c' 0 → HasDerivAt (fun h => eta (c h)) (∑ k, g k * c' k) 0

/-- `q` is the entropy flux that belongs to an entropy with gradient `g` at `U`: `q' = ∇η f'`, i.e. along every curve
through `U` and for every direction `d` the derivative of `q · d` is the derivative of `f · d` tested with `g`. -/
def IsEntropyFlux (q : Vec n → Vec dim) (f : Vec n → Fin n → Vec dim) (U g : Vec n) : Prop :=
  ∀ (c : ℝ → Vec n) (c' : Vec n) (d : Vec dim), c 0 = U → HasDerivAt c c' 0 →
    ∃ F' : Vec n, (∀ k, HasDerivAt (fun h => dot (f (c h) k) d) (F' k) 0) ∧
      HasDerivAt (fun h => dot (q (c h)) d) (∑ k, g k * F' k) 0

/-- The entropy production of a stencil, relative to the state `U` with entropy gradient `g`: difference of the entropy
fluxes minus entropy gradient times difference of the fluxes, contracted with the vectors `c_ij` and summed up. -/
noncomputable def entropyProduction (q : Vec n → Vec dim) (f : Vec n → Fin n → Vec dim) (U g : Vec n)
    (row : List (Vec n × Vec dim)) : ℝ :=
  (row.map fun e => dot (fun d => q e.1 d - q U d) e.2 - ∑ k, g k * dot (fun d => f e.1 k d - f U k d) e.2).sum

end Spec
end Ryujin
