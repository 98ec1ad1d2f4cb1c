import Verif.Model.EulerInitialStates
import Verif.Model.ShallowWaterInitialStates
import Verif.Model.GeoTiff

/-!
# Model of the piecewise constant and user defined initial states

Euler and arbitrary equation of state (source/euler/initial_state_{uniform,contrast,three_state_contrast,
four_state_contrast,radial_contrast,astro_jet,function}.h): `convert` is `view.from_initial_state`, which the classes call
whenever parameters were parsed; `convertFull` is `view.from_primitive_state`.  Shallow water
(source/shallow_water/initial_state_{uniform,contrast,function,hou_test,transient,circular_dam_break}.h).
Parsed functions are arbitrary functions of position and time.  `Number` is `ℝ`.
-/

namespace Ryujin

namespace InitialStates

open Euler (State mkState)
open GeoTiff (Outcome)

noncomputable section

variable {d : ℕ}

/-- `Uniform::compute` (euler/initial_state_uniform.h:44-56). -/
def uniform (convert : State 1 → State (d + 1)) (primitive : Primitive) (_point : Vec (d + 1)) (_t : ℝ) : State (d + 1) :=
  convert primitive.state

/-- `Contrast::compute` (euler/initial_state_contrast.h:54-66). -/
def contrast (convert : State 1 → State (d + 1)) (left right : Primitive) (point : Vec (d + 1)) (_t : ℝ) :
    State (d + 1) :=
  open Classical in if point 0 > 0 then convert right.state else convert left.state

/-- `ThreeStateContrast::compute` (euler/initial_state_three_state_contrast.h:77-92). -/
def threeStateContrast (convert : State 1 → State (d + 1)) (left middle right : Primitive)
    (left_length middle_length : ℝ) (point : Vec (d + 1)) (_t : ℝ) : State (d + 1) :=
  open Classical in
  if point 0 ≥ left_length + middle_length then convert right.state
  else if point 0 ≥ left_length then convert middle.state
  else convert left.state

/-- `FourStateContrast::compute` (euler/initial_state_four_state_contrast.h:79-107): the primitive states have two velocity
components; in one dimension an exception is thrown. -/
def fourStateContrast (convert : State 2 → State (d + 1)) (bottom_left bottom_right top_left top_right : State 2)
    (point : Vec (d + 1)) (_t : ℝ) : Outcome (State (d + 1)) :=
  open Classical in
  if h : d = 0 then .exception
  else
    let top := if point 0 ≥ 0 then convert top_right else convert top_left
    let bottom := if point 0 ≥ 0 then convert bottom_right else convert bottom_left
    .ok (if point ⟨1, by omega⟩ ≥ 0 then top else bottom)

/-- `RadialContrast::compute` (euler/initial_state_radial_contrast.h:62-75). -/
def radialContrast (convert : State 1 → State (d + 1)) (inner outer : Primitive) (radius : ℝ) (point : Vec (d + 1))
    (_t : ℝ) : State (d + 1) :=
  open Classical in if vnorm point > radius then convert outer.state else convert inner.state

/-- `AstroJet::compute` (euler/initial_state_astro_jet.h:66-80): in one dimension the access to `point[1]` is out of
bounds, unless the first condition is false. -/
def astroJet (convert : State 1 → State (d + 1)) (jet ambient : Primitive) (jet_width : ℝ) (point : Vec (d + 1)) (_t : ℝ) :
    Outcome (State (d + 1)) :=
  open Classical in
  if point 0 < 1 / 10 ^ 12 then
    if h : 1 < d + 1 then
      .ok (if |point ⟨1, h⟩| ≤ jet_width then convert jet.state else convert ambient.state)
    else .ub
  else .ok (convert ambient.state)

/-- `Function::compute` (euler/initial_state_function.h:92-116): one parsed function per component of the velocity. -/
def function (convertFull : State (d + 1) → State (d + 1)) (density : Vec (d + 1) → ℝ → ℝ)
    (velocity : Fin (d + 1) → Vec (d + 1) → ℝ → ℝ) (pressure : Vec (d + 1) → ℝ → ℝ) (point : Vec (d + 1)) (t : ℝ) :
    State (d + 1) :=
  convertFull (mkState (density point t) (fun k => velocity k point t) (pressure point t))

end

end InitialStates

namespace ShallowWaterStates

open ShallowWater (State mkState)

noncomputable section

variable {d : ℕ}

/-- A one-dimensional state `(h, u)` or `(h, q)`. (shallow_water/initial_state_contrast.h:25-62) -/
def pair (a b : ℝ) : State 1 := ![a, b]

/-- `Uniform::compute` (shallow_water/initial_state_uniform.h:45-50). -/
def uniform (h u : ℝ) (_point : Vec (d + 1)) (_t : ℝ) : State (d + 1) := ShallowWater.fromInitialState (pair h u)

/-- `Contrast::compute` (shallow_water/initial_state_contrast.h:49-54). -/
def contrast (left right : State 1) (point : Vec (d + 1)) (_t : ℝ) : State (d + 1) :=
  open Classical in ShallowWater.fromInitialState (if point 0 > 0 then right else left)

/-- `Function::compute` (shallow_water/initial_state_function.h:80-97); the code has functions for up to two components of
the velocity. -/
def function (depth : Vec (d + 1) → ℝ → ℝ) (velocity : Fin (d + 1) → Vec (d + 1) → ℝ → ℝ) (point : Vec (d + 1)) (t : ℝ) :
    State (d + 1) :=
  ShallowWater.fromPrimitiveState (mkState (depth point t) fun k => velocity k point t)

/-- `HouTest::compute_bathymetry` (shallow_water/initial_state_hou_test.h:74-109). -/
def houBathymetry (point : Vec 2) : ℝ :=
  open Classical in
  let x := point 0
  let y := point 1
  let base1 := (x + 250) ^ 2 / 1600 + y ^ 2 / 400
  let base2 := x ^ 2 / 225 + (y - 50) ^ 2 / 225
  let base3 := (x - 250) ^ 2 / 1225 + y ^ 2 / 225 - 10
  let base := min (min base1 base2) base3
  let bump1 := 80 - (x + 250) ^ 2 / 50 - y ^ 2 / 50
  let bump2 := if (x - 200) ^ 2 + (y + 10) ^ 2 ≤ 1000 then (10 : ℝ) else 0
  let bump3 := if |x - 380| ≤ 40 ∧ |y - 50| ≤ 40 then (20 : ℝ) else 0
  let bumps := max (max bump1 bump2) bump3
  max base bumps

/-- `HouTest::compute` (shallow_water/initial_state_hou_test.h:42-60), two-dimensional case; in one dimension an exception
is thrown. -/
def houTest (depth : ℝ) (point : Vec 2) (_t : ℝ) : State 2 :=
  open Classical in
  let bath := houBathymetry point
  let h := if point 0 < -100 then max (depth - bath) 0 else 0
  planar h 0

/-- The parameter "experimental configuration" (shallow_water/initial_state_transient.h:52-64). -/
inductive TankCase where
  | none
  | G1
  | G2
  | G3

/-- `TankExperiments::parse_parameters_callback` (shallow_water/initial_state_transient.h:58-64); `none` is the exception. -/
def parseTankCase (which_case : String) : Option TankCase :=
  if which_case = "G1" then some .G1
  else if which_case = "G2" then some .G2
  else if which_case = "G3" then some .G3
  else if which_case = "none" then some .none
  else Option.none

/-- `TankExperiments::compute` (shallow_water/initial_state_transient.h:66-77): the momentum, not the velocity, is given; in
one dimension an exception is thrown. -/
def tank (state_left state_right : State 1) (point : Vec 2) (_t : ℝ) : State 2 :=
  open Classical in
  let temp := if point 0 > 1 / 10 ^ 8 then state_right else state_left
  ShallowWater.expandState temp

/-- The base of the bathymetry (shallow_water/initial_state_transient.h:95-100). -/
def tankBase (x : ℝ) : ℝ :=
  open Classical in
  if x ≥ 0 ∧ x ≤ 326 / 100 then -0.00092 * x
  else if x > 326 / 100 then -0.0404 * (x - 326 / 100) - 0.00092 * 326 / 100
  else 0

/-- The condition for the rectangular obstacle with the center `(xc, 0)` (shallow_water/initial_state_transient.h:112-120,
134-142, 159-167). -/
def inRectangle (xc x y : ℝ) : Prop :=
  let obstacle_length := 16.3 / 100
  let obstacle_width := 8 / 100
  |(x - xc) / obstacle_length + y / obstacle_width| + |(x - xc) / obstacle_length - y / obstacle_width| ≤ 1

/-- `TankExperiments::compute_bathymetry` (shallow_water/initial_state_transient.h:90-171). -/
def tankBathymetry (which_case : TankCase) (point : Vec 2) : ℝ :=
  open Classical in
  let x := point 0
  let y := point 1
  let bath := tankBase x
  match which_case with
  | .none => bath
  | .G1 => bath + if inRectangle (205 / 100 + 16.3 / 2 / 100) x y then 7 / 100 else 0
  | .G2 =>
    let xc := 184.5 / 100 + 31 / 2 / 100
    let radicand := positivePart (1 - ((x - xc) / (31 / 2 / 100)) ^ 2)
    let semi_circle := 7.3 / 100 * Real.sqrt radicand
    let obstacle := max semi_circle 0
    bath + if inRectangle (235 / 100 + 16.3 / 2 / 100) x y then 7 / 100 else obstacle
  | .G3 =>
    let xc := 194 / 100 + 31 / 2 / 100
    let radicand := positivePart (1 - ((x - xc) / (31 / 2 / 100)) ^ 2)
    let semi_circle := 7.3 / 100 * Real.sqrt radicand
    let below := if y < semi_circle - 24 / 2 / 100 ∧ |x - xc| ≤ 31 / 2 / 100 then (21 / 100 : ℝ) else 0
    let above := if y > -semi_circle + 24 / 2 / 100 ∧ |x - xc| ≤ 31 / 2 / 100 then (21 / 100 : ℝ) else below
    bath + if inRectangle (235 / 100 + 16.3 / 2 / 100) x y then 7 / 100 else above

/-- `CircularDamBreak::compute` (shallow_water/initial_state_circular_dam_break.h:48-54); the class is not in the list of
initial states (initial_state_library_shallow_water.h:44-56). -/
def circularDamBreak (still_water_depth radius dam_amplitude : ℝ) (point : Vec (d + 1)) (_t : ℝ) : State (d + 1) :=
  open Classical in
  let r := normSq point
  let h := if r ≤ radius then dam_amplitude else still_water_depth
  planar h 0

end

end ShallowWaterStates
end Ryujin
