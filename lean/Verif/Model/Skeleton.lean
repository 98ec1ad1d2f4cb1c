import Verif.Model.Descriptions
import Verif.Model.PrepareState

/-!
# The skeleton equations

The template for new equations in `skeleton/`: one unknown and no flux.
-/

namespace Ryujin
namespace Skeleton

noncomputable section

variable {ι : Type} {dim : ℕ}

/-- `state_type` (skeleton/hyperbolic_system.h:114-119). -/
abbrev State := Fin 1 → ℝ

/-- `RiemannSolver::compute` (skeleton/riemann_solver.h:79-86). -/
def riemann : ℝ := 1

/-- `Indicator::alpha` (skeleton/indicator.h:112-115). -/
def alpha : ℝ := 0

/-- `flux_contribution` (skeleton/hyperbolic_system.h:304-320). -/
def fluxContribution : Fin 1 → Vec dim := fun _ _ => 0

/-- `flux_divergence` (skeleton/hyperbolic_system.h:326-332). -/
def fluxDivergence (_flux_i _flux_j : Fin 1 → Vec dim) (_c_ij : Vec dim) : State := fun _ => 0

/-- `Limiter::limit` with the default arguments (skeleton/limiter.h:160-167): `t_max` and success. -/
def limit : ℝ × Prop := (1, True)

/-- `Skeleton::Description` (skeleton/description.h:30-49). There are no precomputed values
(skeleton/hyperbolic_system.h:165), no high order flux and no sources (lines 337, 351), and the limiter has no bounds
(skeleton/limiter.h:87, 109-148). -/
def description : Hyp.Description ι Unit State (Fin 1 → Vec dim) Unit dim where
  riemann := fun _ _ _ _ _ _ => riemann
  indicator := fun _ _ _ _ _ => alpha
  flux := fun _ _ _ => fluxContribution
  fluxDiv := fluxDivergence
  highOrder := fluxDivergence
  source := fun _ _ _ _ => 0
  stars := fun U_i _ U_j _ => (U_i, U_j)
  affineShift := fun _ _ _ _ => 0
  limiterBounds := fun _ _ _ _ _ _ => ()
  combine := fun _ _ => ()
  limit := fun _ _ _ _ _ => limit

/-- `apply_boundary_conditions` (skeleton/hyperbolic_system.h:269-277): the state is returned for every boundary id. -/
def applyBoundaryConditions {Id : Type} (_id : Id) (U : State) (_n : Vec dim) (_data : State) : State := U

/-- The equations as seen by `prepare_state_vector` (skeleton/hyperbolic_system.h:269-277). -/
def boundary {Id : Type} (doNothing : Id) : Prepare.System State Id dim where
  doNothing := doNothing
  apply := fun id U n D => some (applyBoundaryConditions id U n D)

/-- `from_primitive_state`, `to_primitive_state`, `expand_state` (skeleton/hyperbolic_system.h:379-401). -/
def fromPrimitiveState (U : State) : State := U

/-- `Uniform::compute` (skeleton/initial_state_uniform.h:39-44). -/
def uniform (primitive : State) (_x : Vec dim) (_t : ℝ) : State := fromPrimitiveState primitive

end

end Skeleton
end Ryujin
