import Verif.Model.AeosSystem
import Verif.Model.ShallowWater
import Verif.Model.Scalar

/-!
# Model of the boundary pass of `HyperbolicModule::prepare_state_vector`
(hyperbolic_module.template.h:97-144)

The loop over the boundary map runs on one thread and in the order of the map.  An entry refers to a locally owned degree
of freedom; the vectors of all ranks are taken together.  The second half of the function, ghost exchange and
precomputation, does not change the conserved states.
-/

namespace Ryujin
namespace Prepare

noncomputable section

open Classical

variable {ι S Id : Type} {dim : ℕ}

/-- An entry of the boundary map: index, normal, id and position (offline_data.h:62-69); the masses are not used. -/
structure Entry (ι Id : Type) (dim : ℕ) where
  i : ι
  normal : Vec dim
  id : Id
  position : Vec dim

/-- What the loop needs from the equations: the id `do_nothing`, and `apply_boundary_conditions(id, U, normal, data)`;
`none` is an exception or a trap. (hyperbolic_module.template.h:123-141) -/
structure System (S Id : Type) (dim : ℕ) where
  doNothing : Id
  apply : Id → S → Vec dim → S → Option S

/-- What one entry does to the state of its degree of freedom (hyperbolic_module.template.h:128-141); `data` is
`initial_values_->initial_state`. -/
def applyEntry (A : System S Id dim) (data : Vec dim → ℝ → S) (t : ℝ) (U_i : S) (e : Entry ι Id dim) : Option S :=
  if e.id = A.doNothing then some U_i else A.apply e.id U_i e.normal (data e.position t)

/-- Body of the loop (hyperbolic_module.template.h:119-142). -/
def boundaryStep (A : System S Id dim) (data : Vec dim → ℝ → S) (t : ℝ) (U : ι → S) (e : Entry ι Id dim) :
    Option (ι → S) :=
  (applyEntry A data t (U e.i) e).map (Function.update U e.i)

/-- The loop over the boundary map (hyperbolic_module.template.h:118-142). -/
def boundaryPass (A : System S Id dim) (data : Vec dim → ℝ → S) (t : ℝ) (map : List (Entry ι Id dim)) (U : ι → S) :
    Option (ι → S) :=
  map.foldlM (boundaryStep A data t) U

/-- The Euler equations. (euler/hyperbolic_system.h:1095-1158) -/
def euler (p : Euler.Params) : System (Euler.State dim) Euler.Boundary dim where
  doNothing := .doNothing
  apply := fun id U n D => some (Euler.applyBoundaryConditions p id U n D)

/-- The Euler equations with arbitrary equation of state. (euler_aeos/hyperbolic_system.h:1304-1375) -/
def aeos : System (Euler.State dim) Euler.Boundary dim where
  doNothing := .doNothing
  apply := fun id U n D => Aeos.applyBoundaryConditions id U n D

/-- The shallow water equations. (shallow_water/hyperbolic_system.h:945-1019) -/
def shallowWater (p : ShallowWater.Params) : System (ShallowWater.State dim) ShallowWater.Boundary dim where
  doNothing := .doNothing
  apply := fun id U n D => some (ShallowWater.applyBoundaryConditions p id U n D)

/-- Scalar conservation equations. (scalar_conservation/hyperbolic_system.h:691-725) -/
def scalar : System Scalar.State Scalar.Boundary dim where
  doNothing := .do_nothing
  apply := fun id U _ D => Scalar.applyBoundaryConditions id U D

end

end Prepare
end Ryujin
