import Verif.Model.ShallowWater
import Mathlib.Analysis.SpecialFunctions.Trigonometric.Inverse
import Mathlib.Analysis.SpecialFunctions.Exp

/-!
# Model of the initial states of the shallow water equations (source/shallow_water/initial_state_*.h)

Each definition is the function `compute(point, t)` or `compute_bathymetry(point)` of a class with the run-time parameters
as arguments; `initial_precomputations` returns the latter.  The space dimension is written `d + 1`, so that the first
coordinate exists.  A `state_type` that is initialised with fewer than `dim + 1` values has zeros in the remaining
components.  `Number` is `ℝ`.
-/

namespace Ryujin
namespace ShallowWaterStates

open ShallowWater (State mkState)

noncomputable section

variable {d : ℕ}

/-- `state_type{{h, m}}`: water depth and the first component of the momentum.
(shallow_water/initial_state_ritter_dam_break.h:60-92) -/
def planar (h m : ℝ) : State (d + 1) := mkState h fun i => if i = 0 then m else 0

/-- Parameters of the class `Paraboloid` (initial_state_paraboloid.h:38-63). -/
structure ParaboloidParams where
  a : ℝ
  h_0 : ℝ
  eta : ℝ
  length : ℝ
  B : ℝ

/-- `Paraboloid::compute_bathymetry`, one-dimensional case (initial_state_paraboloid.h:139-140). -/
def paraboloidBathymetry1 (c : ParaboloidParams) (point : Vec 1) : ℝ :=
  c.h_0 / (c.a * c.a) * (point 0 - 0.5 * c.length) ^ 2

/-- `Paraboloid::compute_bathymetry`, otherwise (initial_state_paraboloid.h:141-142). -/
def paraboloidBathymetry2 (c : ParaboloidParams) (point : Vec 2) : ℝ :=
  -c.h_0 * (1 - normSq point / (c.a * c.a))

/-- `Paraboloid::compute`, one-dimensional case (initial_state_paraboloid.h:65-101). `g` is the gravity, `k` the Manning
friction coefficient of the hyperbolic system. -/
def paraboloid1 (g k : ℝ) (c : ParaboloidParams) (point : Vec 1) (t : ℝ) : State 1 :=
  let p := Real.sqrt (8 * g * c.h_0) / c.a
  let s := Real.sqrt (p * p - k * k) / 2
  let term1 := (c.a * c.a * c.B * c.B) / (8 * g * g * c.h_0) * Real.exp (-k * t) *
    ((1 / 4 * k * k - s * s) * Real.cos (2 * s * t) - s * k * Real.sin (2 * s * t))
  let term2 := -(c.B * c.B / (4 * g)) * Real.exp (-k * t)
  let term3 := -(c.B / g) * Real.exp (-1 / 2 * k * t) *
    ((s * Real.cos (s * t) + 1 / 2 * k * Real.sin (s * t)) * (point 0 - 1 / 2 * c.length))
  let htilde := c.h_0 - paraboloidBathymetry1 c point + (term1 + term2 + term3)
  let h := max htilde 0
  let v_x := c.B * Real.exp (-1 / 2 * k * t) * Real.sin (s * t)
  planar h (h * v_x)

/-- `Paraboloid::compute`, two-dimensional case (initial_state_paraboloid.h:65-77,102-115). -/
def paraboloid2 (g : ℝ) (c : ParaboloidParams) (point : Vec 2) (t : ℝ) : State 2 :=
  let z := paraboloidBathymetry2 c point
  let omega := Real.sqrt (2 * g * c.h_0) / c.a
  let x := point 0
  let y := point 1
  let elevation := c.eta * c.h_0 / (c.a * c.a) * (2 * x * Real.cos (omega * t) + 2 * y * Real.sin (omega * t))
  let h := max (elevation - z) 0
  let v_x := -c.eta * omega * Real.sin (omega * t)
  let v_y := c.eta * omega * Real.cos (omega * t)
  mkState h ![h * v_x, h * v_y]

/-- `RitterDamBreak::compute` (initial_state_ritter_dam_break.h:58-80); there is no bathymetry. -/
def ritter (g t_initial left_depth : ℝ) (point : Vec (d + 1)) (t : ℝ) : State (d + 1) :=
  let x := point 0
  let aL := Real.sqrt (g * left_depth)
  let xA := -(t + t_initial) * aL
  let xB := 2 * (t + t_initial) * aL
  let tmp := aL - x / (2 * (t + t_initial))
  let h_expansion := 4 / (9 * g) * tmp * tmp
  let v_expansion := 2 / 3 * (x / (t + t_initial) + aL)
  if x ≤ xA then planar left_depth 0
  else if x ≤ xB then planar h_expansion (h_expansion * v_expansion)
  else planar 0 0

/-- `SlopingFriction::compute` (initial_state_sloping_friction.h:53-70). -/
def slopingFriction (n slope q_0 : ℝ) (_point : Vec (d + 1)) (_t : ℝ) : State (d + 1) :=
  let exponent := 1 / (2 + 4 / 3)
  let profile := n * n * q_0 * q_0 / slope
  let h := profile ^ (exponent : ℝ)
  planar h q_0

/-- `SlopingFriction::compute_bathymetry` (initial_state_sloping_friction.h:83-87). -/
def slopingBathymetry (slope : ℝ) (point : Vec (d + 1)) : ℝ := -slope * point 0

/-- Parameters of the class `SmoothVortex` (initial_state_smooth_vortex.h:36-52). -/
structure VortexParams where
  with_bathymetry : Bool
  depth : ℝ
  mach_number : ℝ
  beta : ℝ

/-- `SmoothVortex::compute_bathymetry` (initial_state_smooth_vortex.h:100-115). -/
def smoothVortexBathymetry (c : VortexParams) (point : Vec 2) : ℝ :=
  let r_square := normSq point
  let factor := c.beta / (2 * Real.pi) * Real.exp (0.5 - 0.5 * r_square)
  if c.with_bathymetry then c.depth / 4 * factor else 0

/-- `SmoothVortex::compute` (initial_state_smooth_vortex.h:55-87), two-dimensional case; otherwise an exception is
thrown. -/
def smoothVortex (gravity : ℝ) (c : VortexParams) (point : Vec 2) (t : ℝ) : State 2 :=
  let x0 := point 0 - c.mach_number * t
  let x1 := point 1
  let r_square := x0 * x0 + x1 * x1
  let factor := c.beta / (2 * Real.pi) * Real.exp (0.5 - 0.5 * r_square)
  let h0 := c.depth - 1 / (2 * gravity) * factor * factor
  let h := if c.with_bathymetry then h0 - smoothVortexBathymetry c point else h0
  let u := c.mach_number - factor * x1
  let v := factor * x0
  mkState h ![h * u, h * v]

/-- `FlowOverBump::compute_bathymetry` (initial_state_flow_over_bump.h:119-131). -/
def bumpBathymetry (point : Vec (d + 1)) : ℝ :=
  let x := point 0
  let bump := 0.2 / 64 * (x - 8) ^ 3 * (12 - x) ^ 3
  if 8 ≤ x ∧ x ≤ 12 then bump else 0

/-- The constants `(q_inflow, h_inflow, cBer)` (initial_state_flow_over_bump.h:62-79). -/
def bumpConstants (g : ℝ) (subsonic : Bool) : ℝ × ℝ × ℝ :=
  if subsonic then (4.42, 2, (4.42 / 2) ^ 2 / (2 * g) + 2)
  else (0.18, 0.28205279813802181, 0.2 + 1.5 * (0.18 * 0.18 / g) ^ (1 / 3 : ℝ))

/-- `FlowOverBump::compute` (initial_state_flow_over_bump.h:55-106), for the flow types "subsonic" and (`false`)
"transcritical". -/
def flowOverBump (g : ℝ) (subsonic : Bool) (point : Vec (d + 1)) (t : ℝ) : State (d + 1) :=
  let x := point 0
  let xM : ℝ := 10
  let xS : ℝ := 11.7
  let q_inflow := (bumpConstants g subsonic).1
  let h_inflow := (bumpConstants g subsonic).2.1
  let cBer := (bumpConstants g subsonic).2.2
  let dd := q_inflow * q_inflow / (2 * g)
  let b := bumpBathymetry point - cBer
  let Q := -b ^ 2 / 9
  let R := -(27 * dd + 2 * b ^ 3) / 54
  let theta := Real.arccos ((-Q) ^ (-1.5 : ℝ) * R)
  let h_initial := h_inflow - bumpBathymetry point
  if t < 1 / 10 ^ 12 then planar h_initial q_inflow
  else
    let h_exact := 2 * Real.sqrt (-Q) * Real.cos (theta / 3) - b / 3
    if subsonic then planar h_exact q_inflow
    else if xM ≤ x ∧ x < xS then
      planar (2 * Real.sqrt (-Q) * Real.cos ((4 * Real.pi + theta) / 3) - b / 3) q_inflow
    else if xS < x then planar 0.28205279813802181 q_inflow
    else planar h_exact q_inflow

/-- `Soliton::compute` (initial_state_soliton.h:43-63); there is no bathymetry. -/
def soliton (g depth amplitude : ℝ) (point : Vec (d + 1)) (t : ℝ) : State (d + 1) :=
  let x := point 0
  let celerity := Real.sqrt (g * (amplitude + depth))
  let width := Real.sqrt (3 * amplitude / (4 * depth * depth * (amplitude + depth)))
  let sechSqd := 1 / Real.cosh (width * (x - celerity * t)) ^ 2
  let profile := depth + amplitude * sechSqd
  let h := max profile 0
  let v := celerity * (profile - depth) / profile
  planar h (h * v)

/-- `ThreeBumpsDamBreak::compute_bathymetry`, two-dimensional case (initial_state_three_bumps_dam_break.h:105-122). -/
def threeBumpsBathymetry (cone_magnitude : ℝ) (point : Vec 2) : ℝ :=
  let x := point 0
  let y := point 1
  let z1 := 1 - 1 / 8 * Real.sqrt ((x - 30) ^ 2 + (y - 6) ^ 2)
  let z2 := 1 - 1 / 8 * Real.sqrt ((x - 30) ^ 2 + (y - 24) ^ 2)
  let z3 := 3 - 3 / 10 * Real.sqrt ((x - 47.5) ^ 2 + (y - 15) ^ 2)
  cone_magnitude * max (max (max z1 z2) z3) 0

/-- `ThreeBumpsDamBreak::compute` (initial_state_three_bumps_dam_break.h:62-82), two-dimensional case. -/
def threeBumps (g : ℝ) (well_balancing_validation : Bool) (left_depth right_depth cone_magnitude : ℝ) (point : Vec 2)
    (t : ℝ) : State 2 :=
  if t ≤ 1 / 10 ^ 10 ∨ well_balancing_validation then
    planar (max ((if point 0 < 16 then left_depth else right_depth) - threeBumpsBathymetry cone_magnitude point) 0) 0
  else planar left_depth (left_depth * Real.sqrt (g * left_depth))

end

end ShallowWaterStates
end Ryujin
