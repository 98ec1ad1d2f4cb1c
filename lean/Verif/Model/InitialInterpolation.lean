import Verif.Model.InitialValues
import Verif.Model.ShallowWater
import Verif.Model.MultiComponentVector
import Verif.Model.GeoTiff
import Mathlib.Algebra.BigOperators.Group.Finset.Basic

/-!
# Model of the choice and the interpolation of initial values (source/initial_values.template.h, the initial state libraries)

Simplifications: `Number` is `ℝ`.  The support points of the degrees of freedom and the number of times
`VectorTools::interpolate` (deal.II) evaluates the function at each of them are arguments; deal.II takes the mean of the
evaluations, one for every cell that contains the degree of freedom.  The poisoning of constrained degrees of freedom in
debug builds (initial_values.template.h:251-264) and the exchange of ghost values (249, 301) are not modelled: the vectors
are considered on the owned entries of one process.
-/

namespace Ryujin
namespace InitialValues

open GeoTiff (Outcome)

noncomputable section

/-- The equations, each with its own specialisation of `InitialStateLibrary` (euler/initial_state_library.template.h:30-36,
euler_aeos/initial_state_library.template.h:30-36, navier_stokes/initial_state_library.template.h:30-36,
scalar_conservation/initial_state_library.template.h:28-38, shallow_water/initial_state_library.template.h:30-36,
skeleton/initial_state_library.template.h:28-36). -/
inductive Equation
  | euler | eulerAeos | navierStokes | scalarConservation | shallowWater | skeleton

/-- Names of the configurations put on the list by `populate_initial_state_list`
(euler/initial_state_library_euler.h:32-58 with the constructors in euler/initial_state_*.h, used for the Euler equations,
the arbitrary equation of state and, navier_stokes/initial_state_library.template.h:30-36, the Navier-Stokes equations;
scalar_conservation/initial_state_library.template.h:36-37; shallow_water/initial_state_library_shallow_water.h:42-54;
skeleton/initial_state_library.template.h:35). -/
def libraryNames : Equation → List String
  | .euler | .eulerAeos | .navierStokes =>
    ["astro jet", "becker solution", "contrast", "four state contrast", "function", "icf like", "isentropic vortex",
      "leblanc", "noh", "radial contrast", "ramp up", "rarefaction", "shock front", "smooth wave", "three state contrast",
      "uniform"]
  | .scalarConservation => ["function", "uniform"]
  | .shallowWater =>
    ["contrast", "flow over bump", "function", "geotiff", "hou test", "paraboloid", "ritter dam break", "sloping friction",
      "smooth vortex", "three bumps dam break", "uniform", "transient experiments", "soliton"]
  | .skeleton => ["uniform"]

/-- Names of the configurations for the shallow water equations that have a class (the `: InitialState<...>("name", ...)` of
the constructors in shallow_water/initial_state_*.h, for example shallow_water/initial_state_circular_dam_break.h:33). -/
def shallowWaterClasses : List String :=
  ["circular dam break", "contrast", "flow over bump", "function", "geotiff", "hou test", "paraboloid", "ritter dam break",
    "sloping friction", "smooth vortex", "soliton", "three bumps dam break", "transient experiments", "uniform"]

/-- A member of `initial_state_list_` (initial_state_library.h:33-83): its name, the `k` components of the state and the `m`
values of `initial_precomputations`. -/
structure Configuration (d k m : ℕ) where
  name : String
  compute : Vec d → ℝ → Fin k → ℝ
  precompute : Vec d → Fin m → ℝ

/-- The loop over the list (initial_values.template.h:165-196): the first member of the given name, or an exception.  The
list is a `std::set` of pointers (initial_state_library.h:105-106), hence its order is that of the addresses. -/
def selectConfiguration {d k m : ℕ} (list : List (Configuration d k m)) (name : String) : Outcome (Configuration d k m) :=
  match list.find? fun it => it.name = name with
  | some it => .ok it
  | none => .exception

/-- The parameters of `InitialValues` (initial_values.template.h:33-55). -/
structure Parameters (d : ℕ) where
  configuration : String
  direction : Vec d
  position : Vec d
  perturbation : ℝ

/-- The part of the code that depends on the equation and the dimension: `affine_transform`, `affine_transform_vector`
(initial_values.template.h:70-149) and `apply_galilei_transform` of the hyperbolic system. -/
structure Setting (d k : ℕ) where
  transform : Vec d → Vec d → Vec d → Vec d
  transformVector : Vec d → Vec d → Vec d
  galilei : (Fin k → ℝ) → (Vec d → Vec d) → Fin k → ℝ

/-- The Euler equations in two dimensions (initial_values.template.h:70-149, euler/hyperbolic_system.h:1295-1306). -/
def euler2 : Setting 2 4 := ⟨transform2, transformVector2, fun U lam => Euler.applyGalileiTransform (dim := 2) U lam⟩

/-- The Euler equations in three dimensions (initial_values.template.h:70-149, euler/hyperbolic_system.h:1295-1306). -/
def euler3 : Setting 3 5 := ⟨transform3, transformVector3, fun U lam => Euler.applyGalileiTransform (dim := 3) U lam⟩

/-- The shallow water equations in two dimensions (initial_values.template.h:70-149,
shallow_water/hyperbolic_system.h:1316-1326). -/
def shallowWater2 : Setting 2 3 :=
  ⟨transform2, transformVector2, fun U lam => ShallowWater.applyGalileiTransform (dim := 2) U lam⟩

/-- The two function objects `initial_state_` and `initial_precomputed_` (initial_values.template.h:168-185, 200-218).  The
first one draws new random numbers in every call; they are its first argument. -/
structure Functions (d k m : ℕ) where
  state : (Fin k → ℝ) → Vec d → ℝ → Fin k → ℝ
  precomputed : Vec d → Fin m → ℝ

/-- `parse_parameters_callback` (initial_values.template.h:153-219); an exception for the zero direction and for an unknown
name. -/
def parse {d k m : ℕ} (S : Setting d k) (list : List (Configuration d k m)) (q : Parameters d) :
    Outcome (Functions d k m) :=
  match normalizeDirection q.direction with
  | none => .exception
  | some n =>
    match selectConfiguration list q.configuration with
    | .ok it =>
      .ok ⟨fun draw => perturbed q.perturbation draw
          fun x t => S.galilei (it.compute (S.transform n q.position x) t) (S.transformVector n),
        fun x => it.precompute (S.transform n q.position x)⟩
    | .exception => .exception
    | .ub => .ub

/-- `VectorTools::interpolate` (called in initial_values.template.h:243-245 and 295-297): entry `i` is the mean of the
`count i` evaluations `f i e` at its support point. -/
def interpolateScalar (count : ℕ → ℕ) (f : ℕ → ℕ → ℝ) (i : ℕ) : ℝ := (∑ e ∈ Finset.range (count i), f i e) / count i

/-- `interpolate_hyperbolic_vector` (initial_values.template.h:222-267): one interpolation per component.  `points i` is the
support point of the owned entry `i`, `draw c i e` are the numbers drawn in evaluation `e` at this point in the interpolation
of component `c`. -/
def interpolateState {d k m : ℕ} (F : Functions d k m) (n_owned : ℕ) (points : ℕ → Vec d) (count : ℕ → ℕ)
    (draw : ℕ → ℕ → ℕ → Fin k → ℝ) (t : ℝ) : ℕ → ℝ :=
  (List.finRange k).foldl (fun U (c : Fin k) =>
    Multi.insertComponent k n_owned (interpolateScalar count fun i e => F.state (draw c.1 i e) (points i) t c) c.1 U) fun _ => 0

/-- `interpolate_initial_precomputed_vector` (initial_values.template.h:270-303). -/
def interpolatePrecomputed {d k m : ℕ} (F : Functions d k m) (n_owned : ℕ) (points : ℕ → Vec d) (count : ℕ → ℕ) : ℕ → ℝ :=
  (List.finRange m).foldl (fun U (c : Fin m) =>
    Multi.insertComponent m n_owned (interpolateScalar count fun i _ => F.precomputed (points i) c) c.1 U) fun _ => 0

end

end InitialValues
end Ryujin
