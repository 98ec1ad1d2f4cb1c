import Verif.Model.EulerSystem
import Verif.Model.AeosSystem
import Mathlib.Analysis.SpecialFunctions.Trigonometric.Basic
import Mathlib.Analysis.SpecialFunctions.Exp
import Mathlib.Analysis.SpecialFunctions.Log.Basic
import Mathlib.Analysis.Complex.Trigonometric

/-!
# Model of the initial states of the Euler equations (source/euler/initial_state_*.h)

Each definition is the function `compute(point, t)` of a class, with the run-time parameters as arguments.  `gamma` is the
member `gamma_`; which value it has is said at each class.  The space dimension is written `d + 1` (or `d + 2` for the
classes that need at least two dimensions), so that the first coordinate exists.  Tensors that are not filled completely
are value initialised, that is zero.  `Number` and `double` are `ℝ`.
-/

namespace Ryujin
namespace InitialStates

open Euler (State mkState)

noncomputable section

variable {d : ℕ}

/-- The triple `(rho, u, p)`. (euler/initial_state_shock_front.h:45-48) -/
structure Primitive where
  rho : ℝ
  u : ℝ
  p : ℝ

/-- A `(rho, u, p)` tensor as one-dimensional (primitive) state. (euler/initial_state_shock_front.h:45-48) -/
def Primitive.state (s : Primitive) : State 1 := mkState s.rho (fun _ => s.u) s.p

/-- The block that converts a primitive state to a conserved state in `LeBlanc` and `Rarefaction`
(initial_state_leblanc.h:100-107, initial_state_rarefaction.h:145-152). -/
def Primitive.conserved (gamma : ℝ) (s : Primitive) : State (d + 1) :=
  mkState s.rho (fun i => if i = 0 then s.rho * s.u else 0) (s.p / (gamma - 1) + 0.5 * s.rho * s.u * s.u)

/-- `IsentropicVortex::compute` (initial_state_isentropic_vortex.h:53-91); the code has the cases `dim = 2` and `dim = 3`,
otherwise an exception is thrown. `gamma_` is that of the Euler system or, for other equations of state, a parameter. -/
def isentropicVortex (gamma mach_number beta : ℝ) (point : Vec (d + 2)) (t : ℝ) : State (d + 2) :=
  let a := point 0 - mach_number * t
  let b := point 1
  let r_square := a * a + b * b
  let factor := beta / (2 * Real.pi) * Real.exp (0.5 - 0.5 * r_square)
  let T := 1 - (gamma - 1) / (2 * gamma) * factor * factor
  let u := mach_number - factor * b
  let v := factor * a
  let rho := T ^ (1 / (gamma - 1))
  let p := rho ^ gamma
  let E := p / (gamma - 1) + 0.5 * rho * (u * u + v * v)
  mkState rho (fun i => if i = 0 then rho * u else if i = 1 then rho * v else 0) E

/-- `LeBlanc::compute` (initial_state_leblanc.h:45-110). -/
def leblanc (point : Vec (d + 1)) (t : ℝ) : State (d + 1) :=
  let rarefaction_speed := 0.49578489518897934
  let contact_velocity := 0.62183867139173454
  let right_shock_speed := 0.82911836253346982
  let pre_contact_density := 5.4079335349316249e-02
  let post_contact_density := 3.9999980604299963e-03
  let contact_pressure := 0.51557792765096996e-03
  let x := point 0
  let primitive_state : Primitive :=
    if x ≤ -1 / 3 * t then ⟨1, 0, 2 / 3 * 1e-1⟩
    else if x < rarefaction_speed * t then
      let chi := x / t
      ⟨(0.75 - 0.75 * chi) ^ (3 : ℝ), 0.75 * (1 / 3 + chi), (1 / 15) * (0.75 - 0.75 * chi) ^ (5 : ℝ)⟩
    else if x < contact_velocity * t then ⟨pre_contact_density, contact_velocity, contact_pressure⟩
    else if x < right_shock_speed * t then ⟨post_contact_density, contact_velocity, contact_pressure⟩
    else ⟨1e-3, 0, 2 / 3 * 1e-10⟩
  primitive_state.conserved (5 / 3)

/-- Parameters of the class `Noh` (initial_state_noh.h:39-67); `tiny` is `10 * std::numeric_limits<Number>::min()`. -/
structure NohParams where
  gamma : ℝ
  rho0 : ℝ
  u0 : ℝ
  p0 : ℝ
  tiny : ℝ

/-- `Noh::compute` (initial_state_noh.h:71-106) up to the conversion: density, velocity and pressure.  The condition is
`in_interior`. -/
def nohPrimitive (c : NohParams) (point : Vec (d + 1)) (t : ℝ) : ℝ × Vec (d + 1) × ℝ :=
  let norm := vnorm point
  let D := c.u0 * (c.gamma - 1) / 2
  if t ≠ 0 ∧ norm / t < D then
    (c.rho0 * ((c.gamma + 1) / (c.gamma - 1)) ^ (d + 1), fun i => 0 * point i,
      0.5 * c.rho0 * c.u0 * c.u0 * ((c.gamma + 1) ^ (d + 1) / (c.gamma - 1) ^ d))
  else
    (c.rho0 * (1 + t / (norm + c.tiny)) ^ d, fun i => -c.u0 * point i / (norm + c.tiny), c.p0)

/-- `Noh::compute` (initial_state_noh.h:71-106) for the Euler system, whose `gamma` is the one of `c`. -/
def noh (sys : Euler.Params) (c : NohParams) (point : Vec (d + 1)) (t : ℝ) : State (d + 1) :=
  let s := nohPrimitive c point t
  Euler.fromInitialState sys (mkState s.1 s.2.1 s.2.2 : State (d + 1))

/-- The constants of `Rarefaction` (initial_state_rarefaction.h:50-106): left and right state with sound speeds. -/
structure RarefactionData where
  rho_left : ℝ
  u_left : ℝ
  p_left : ℝ
  c_left : ℝ
  rho_right : ℝ
  u_right : ℝ
  p_right : ℝ
  c_right : ℝ

/-- `compute_constants` with `speed_of_sound` and `rarefaction_right_state` (initial_state_rarefaction.h:50-106). -/
def rarefactionData (gamma : ℝ) : RarefactionData :=
  let rho_left := 3
  let p_left := 1
  let c_left := Real.sqrt (gamma * p_left / rho_left)
  let u_left := c_left
  let rho_right := 0.5
  let p_right := (rho_right / rho_left) ^ gamma * p_left
  let c_right := Real.sqrt (gamma * p_right / rho_right)
  ⟨rho_left, c_left, p_left, c_left, rho_right, u_left + 2 * (c_left - c_right) / (gamma - 1), p_right, c_right⟩

/-- `Rarefaction::compute` (initial_state_rarefaction.h:112-154) with the constants `k1`, `k2`, `k3` and the exponents of
lines 101-105. -/
def rarefaction (gamma : ℝ) (point : Vec (d + 1)) (delta_t : ℝ) : State (d + 1) :=
  let c := rarefactionData gamma
  let k1 := 2 / (gamma + 1)
  let k2 := (gamma - 1) / ((gamma + 1) * c.c_left)
  let density_exponent := 2 / (gamma - 1)
  let k3 := c.c_left + (gamma - 1) / 2 * c.u_left
  let pressure_exponent := 2 * gamma / (gamma - 1)
  let x := point 0
  let t_0 := 0.2 / (c.u_right - c.u_left)
  let t := t_0 + delta_t
  let primitive : Primitive :=
    if x ≤ t * (c.u_left - c.c_left) then ⟨c.rho_left, c.u_left, c.p_left⟩
    else if x ≤ t * (c.u_right - c.c_right) then
      let chi := x / t
      ⟨c.rho_left * (k1 + k2 * (c.u_left - chi)) ^ density_exponent, k1 * (k3 + chi),
        c.p_left * (k1 + k2 * (c.u_left - chi)) ^ pressure_exponent⟩
    else ⟨c.rho_right, c.u_right, c.p_right⟩
  primitive.conserved gamma

/-- Post-shock state and shock speed `S3` computed by `ShockFront` (initial_state_shock_front.h:66-94) and, textually
identical, by `ICFLike` (initial_state_icf_like.h:101-123). -/
def shockState (gamma b : ℝ) (right : Primitive) (mach_number : ℝ) : Primitive × ℝ :=
  let a_R := Real.sqrt (gamma * right.p / right.rho / (1 - b * right.rho))
  let mach_R := right.u / a_R
  let S3 := mach_number * a_R
  let delta_mach := mach_R - mach_number
  let rho_L := right.rho * (gamma + 1) * delta_mach * delta_mach / ((gamma - 1) * delta_mach * delta_mach + 2)
  let u_L := (1 - right.rho / rho_L) * S3 + right.rho / rho_L * right.u
  let p_L := right.p * (2 * gamma * delta_mach * delta_mach - (gamma - 1)) / (gamma + 1)
  (⟨rho_L, u_L, p_L⟩, S3)

/-- `ShockFront::compute` (initial_state_shock_front.h:59-109); `convert` is `from_initial_state`, `b` is zero for the
Euler system and `eos_interpolation_b()` otherwise. -/
def shockFront (convert : State 1 → State (d + 1)) (gamma b : ℝ) (right : Primitive) (mach_number : ℝ)
    (point : Vec (d + 1)) (t : ℝ) : State (d + 1) :=
  let l := shockState gamma b right mach_number
  if point 0 - l.2 * t > 0 then convert right.state else convert l.1.state

/-- Parameters of the class `SmoothWave` (initial_state_smooth_wave.h:42-59). -/
structure SmoothWaveParams where
  density_ref : ℝ
  pressure_ref : ℝ
  mach_number : ℝ
  left : ℝ
  right : ℝ

/-- The density profile in `SmoothWave::compute` (initial_state_smooth_wave.h:70-78) as a function of `point_bar[0]`. -/
def smoothWaveDensity (c : SmoothWaveParams) (x : ℝ) : ℝ :=
  let polynomial := 64 * (x - c.left) ^ 3 * (c.right - x) ^ 3 / (c.right - c.left) ^ 6
  if c.left ≤ x ∧ x ≤ c.right then c.density_ref + polynomial else c.density_ref

/-- `SmoothWave::compute` (initial_state_smooth_wave.h:62-87); `convert` is `from_initial_state`. -/
def smoothWave (convert : State (d + 1) → State (d + 1)) (c : SmoothWaveParams) (point : Vec (d + 1)) (t : ℝ) :
    State (d + 1) :=
  convert (mkState (smoothWaveDensity c (point 0 - c.mach_number * t)) (fun i => if i = 0 then c.mach_number else 0)
    c.pressure_ref)

/-- Parameters of the class `ICFLike` (initial_state_icf_like.h:41-82). -/
structure IcfParams where
  gamma : ℝ
  inside : Primitive
  outside : Primitive
  interface_radius : ℝ
  num_modes : ℝ
  amplitude : ℝ
  mach_number : ℝ
  shock_radius : ℝ

/-- The constructor of `ICFLike` for the Euler system (initial_state_icf_like.h:41-91): the parameter `gamma` is not
declared since the system has a `gamma`, and `convert_states` does not read it either, so `gamma_` keeps the value 1.4. -/
def icfConstruct (c : IcfParams) : IcfParams := { c with gamma := 1.4 }

/-- `ICFLike::compute` (initial_state_icf_like.h:93-159); `convert1`, `convert` are `from_initial_state` for one-dimensional
and for full states.  At the origin the code divides zero by zero and returns the state of the inside, as the model does if
`interface_radius` exceeds the amplitude. -/
def icfLike (convert1 : State 1 → State (d + 1)) (convert : State (d + 1) → State (d + 1)) (c : IcfParams) (b : ℝ)
    (point : Vec (d + 1)) : State (d + 1) :=
  let norm := vnorm point
  let l := (shockState c.gamma b c.outside c.mach_number).1
  let shock := convert (mkState l.rho (fun i => if norm > 0 then -l.u * (point i / norm) else 0) l.p)
  let angle := Real.arccos (|point (Fin.last d)| / norm)
  let perturbation := c.amplitude * Real.cos (c.num_modes * angle)
  if norm > c.shock_radius then shock
  else if norm > c.interface_radius + perturbation then convert1 c.outside.state else convert1 c.inside.state

/-- `RampUp::compute` (initial_state_ramp_up.h:69-88). -/
def rampUp (state_initial state_final : State d) (t_initial t_final t : ℝ) : State d :=
  if t ≤ t_initial then state_initial
  else if t ≥ t_final then state_final
  else
    let factor := Real.cos (0.5 * Real.pi * (t - t_initial) / (t_final - t_initial))
    let alpha := factor * factor
    let beta := 1 - alpha
    alpha • state_initial + beta • state_final

/-- Parameters of the class `BeckerSolution` (initial_state_becker_solution.h:59-83). -/
structure BeckerParams where
  gamma : ℝ
  velocity : ℝ
  velocity_left : ℝ
  velocity_right : ℝ
  density_left : ℝ
  mu : ℝ

/-- `factor` (initial_state_becker_solution.h:112-114), with the Prandtl number 0.75. -/
def beckerFactor (c : BeckerParams) : ℝ :=
  2 * c.gamma / (c.gamma + 1) * c.mu / (c.density_left * c.velocity_left * 0.75)

/-- First component of `psi` (initial_state_becker_solution.h:107-132). -/
def beckerPsi (c : BeckerParams) (x v : ℝ) : ℝ :=
  let velocity_origin := Real.sqrt (c.velocity_left * c.velocity_right)
  let c_l := c.velocity_left / (c.velocity_left - c.velocity_right)
  let c_r := c.velocity_right / (c.velocity_left - c.velocity_right)
  let log_l := Real.log (c.velocity_left - v) - Real.log (c.velocity_left - velocity_origin)
  let log_r := Real.log (v - c.velocity_right) - Real.log (velocity_origin - c.velocity_right)
  beckerFactor c * (c_l * log_l - c_r * log_r) - x

/-- Second component of `psi` (initial_state_becker_solution.h:128-131). -/
def beckerPsiDerivative (c : BeckerParams) (v : ℝ) : ℝ :=
  let c_l := c.velocity_left / (c.velocity_left - c.velocity_right)
  let c_r := c.velocity_right / (c.velocity_left - c.velocity_right)
  beckerFactor c * (-c_l / (c.velocity_left - v) - c_r / (v - c.velocity_right))

/-- `tol` (initial_state_becker_solution.h:136). -/
def beckerTol : ℝ := 1 / 10 ^ 12

/-- `x_left` (initial_state_becker_solution.h:138-139). -/
def beckerXLeft (c : BeckerParams) : ℝ :=
  beckerPsi c 0 ((1 - beckerTol) * c.velocity_left + beckerTol * c.velocity_right)

/-- `x_right` (initial_state_becker_solution.h:141-142). -/
def beckerXRight (c : BeckerParams) : ℝ :=
  beckerPsi c 0 (beckerTol * c.velocity_left + (1 - beckerTol) * c.velocity_right)

/-- `norm` (initial_state_becker_solution.h:144). -/
def beckerNorm (c : BeckerParams) : ℝ := (beckerXRight c - beckerXLeft c) * beckerTol

/-- Outcome of `find_velocity` after a bounded number of iterations. (initial_state_becker_solution.h:148-187) -/
inductive BeckerResult : Type
  | running
  | nan
  | velocity (v : ℝ)

/-- The loop of `find_velocity` (initial_state_becker_solution.h:164-184), entered with the velocity `v`. The first
argument bounds the number of iterations.  At one of the two limit velocities both components of `psi` are infinite (lines
121-129), their quotient is not a number, all comparisons with it are false, and it is returned two iterations later. -/
def beckerLoop (c : BeckerParams) (x : ℝ) : ℕ → ℝ → BeckerResult
  | 0, _ => .running
  | fuel + 1, v =>
    if v = c.velocity_left ∨ v = c.velocity_right then .nan
    else
      let f := beckerPsi c x v
      let df := beckerPsiDerivative c v
      if |f| > beckerNorm c then
        let v_next := v - f / df
        if |v_next - v| < beckerTol * 0.5 * (c.velocity_right + c.velocity_left) then .velocity v_next
        else if v_next < c.velocity_right then beckerLoop c x fuel (0.5 * (c.velocity_right + v))
        else if v_next > c.velocity_left then beckerLoop c x fuel (0.5 * (c.velocity_left + v))
        else beckerLoop c x fuel v_next
      else .velocity v

/-- The starting point of the loop (initial_state_becker_solution.h:155-160). -/
def beckerGuess (c : BeckerParams) (x : ℝ) : ℝ :=
  let x_left := beckerXLeft c
  let x_right := beckerXRight c
  let nu := 0.5 * Real.tanh (10 * (x - 0.5 * (x_right + x_left)) / (x_right - x_left))
  c.velocity_left * (0.5 - nu) + c.velocity_right * (nu + 0.5)

/-- `find_velocity` (initial_state_becker_solution.h:148-187); `fuel` bounds the number of iterations. -/
def beckerFindVelocity (c : BeckerParams) (fuel : ℕ) (x : ℝ) : BeckerResult :=
  if x ≤ beckerXLeft c then .velocity c.velocity_left
  else if x ≥ beckerXRight c then .velocity c.velocity_right
  else beckerLoop c x fuel (beckerGuess c x)

/-- `BeckerSolution::compute` (initial_state_becker_solution.h:191-217); `find_velocity` is the root finder of lines
148-187. -/
def becker (c : BeckerParams) (find_velocity : ℝ → ℝ) (point : Vec (d + 1)) (t : ℝ) : State (d + 1) :=
  let R_infty := (c.gamma + 1) / (c.gamma - 1)
  let x := point 0 - c.velocity * t
  let v := find_velocity x
  let rho := c.density_left * c.velocity_left / v
  let e := 1 / (2 * c.gamma) * (R_infty * c.velocity_left * c.velocity_right - v * v)
  Euler.expandState (mkState rho (fun _ => rho * (c.velocity + v))
    (rho * (e + 0.5 * (c.velocity + v) * (c.velocity + v))) : State 1)

end

end InitialStates
end Ryujin
