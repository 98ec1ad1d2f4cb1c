import Mathlib.Analysis.Real.Sqrt
import Mathlib.Algebra.Module.Basic
import Verif.Model.HyperbolicStep

/-!
# Model of `TimeIntegrator` (source/time_integrator.template.h, source/parabolic_module.template.h)

Every `step_*` function is a straight line program over the vectors `state_vector` and `temp_[k]`.  It is
transcribed, statement by statement, into the instruction list `program`; `exec` gives the meaning of a
statement and `singleStep`, `step` model the surrounding control flow including the C++ exceptions.

The hyperbolic and parabolic modules are parameters (`Modules`): arbitrary functions of their arguments, of
the CFL number and violation strategies currently set, of the old content of the output vector, and of the
number of calls made so far (so that hidden internal state, for example `cycle_` of the parabolic module, is
covered).  `Props/TimeIntegrator.lean` also instantiates them with the model of `HyperbolicModule::step`.

Simplifications: `Number` is `ℝ`; ghost exchange is part of `prepare`; MPI ranks are not distinguished.
-/

namespace Ryujin
namespace Integrator

noncomputable section

open Hyp (Strategy)

/-- `state_vector` and `temp_[k]` (time_integrator.template.h:207-210, time_integrator.h `temp_`). -/
inductive Slot
  | old
  | temp (k : ℕ)
  deriving DecidableEq

/-- A `StateVector`: the hyperbolic state vector and the precomputed values (state_vector.h). (lines 47-51) -/
structure SV (X P : Type) where
  U : X
  prec : P

/-- The statements used by the `step_*` functions.  Times are given as the factor of `tau` added to `t`.
(time_integrator.template.h:279-700) -/
inductive Instr
  /-- `hyperbolic_module_->prepare_state_vector(v, t + c * tau)` -/
  | prepare (v : Slot) (c : ℝ)
  /-- `Number tau = hyperbolic_module_->step<0>(src, {}, {}, dst, Number(0.), tau_max / div)` -/
  | first (src dst : Slot) (div : ℝ)
  /-- `hyperbolic_module_->step<n>(src, {{stages}}, {{weights}}, dst, tau)` -/
  | hyp (src : Slot) (stages : List (Slot × ℝ)) (dst : Slot)
  /-- `parabolic_module_->step<n>(src, t + c * tau, {{stages}}, {{weights}}, dst, f * tau)` -/
  | par (src : Slot) (c : ℝ) (stages : List (Slot × ℝ)) (dst : Slot) (f : ℝ)
  /-- `sadd(dst, s, b, src)` -/
  | sadd (dst : Slot) (s b : ℝ) (src : Slot)

/-- A `step_*` function: its statements, the `k` of the final `state_vector.swap(temp_[k])`, and the factor
of the final `return factor * tau`. (time_integrator.template.h:279-700) -/
structure Program where
  code : List Instr
  result : ℕ
  factor : ℝ

/-- `TimeSteppingScheme` (time_integrator.h:60-130). -/
inductive Scheme
  | ssprk_22 | ssprk_33 | erk_11 | erk_22 | erk_33 | erk_43 | erk_54
  | strang_ssprk_33_cn | strang_erk_33_cn | strang_erk_43_cn
  | imex_11 | imex_22 | imex_33
  deriving DecidableEq

open Slot Instr

/-- `step_ssprk_22` (time_integrator.template.h:278-298). -/
def ssprk22 : Program where
  code := [
    prepare old 0, first old (temp 0) 1,
    prepare (temp 0) 1, hyp (temp 0) [] (temp 1),
    sadd (temp 1) (1 / 2) (1 / 2) old]
  result := 1
  factor := 1

/-- `step_ssprk_33` (time_integrator.template.h:301-328). -/
def ssprk33 : Program where
  code := [
    prepare old 0, first old (temp 0) 1,
    prepare (temp 0) 1, hyp (temp 0) [] (temp 1),
    sadd (temp 1) (1 / 4) (3 / 4) old,
    prepare (temp 1) (1 / 2), hyp (temp 1) [] (temp 0),
    sadd (temp 0) (2 / 3) (1 / 3) old]
  result := 0
  factor := 1

/-- `step_erk_11` (time_integrator.template.h:331-346). -/
def erk11 : Program where
  code := [prepare old 0, first old (temp 0) 1]
  result := 0
  factor := 1

/-- `step_erk_22` (time_integrator.template.h:349-369). -/
def erk22 : Program where
  code := [
    prepare old 0, first old (temp 0) 2,
    prepare (temp 0) 1, hyp (temp 0) [(old, -1)] (temp 1)]
  result := 1
  factor := 2

/-- `step_erk_33` (time_integrator.template.h:372-403). -/
def erk33 : Program where
  code := [
    prepare old 0, first old (temp 0) 3,
    prepare (temp 0) 1, hyp (temp 0) [(old, -1)] (temp 1),
    prepare (temp 1) 2, hyp (temp 1) [(old, 3 / 4), (temp 0, -2)] (temp 2)]
  result := 2
  factor := 3

/-- `step_erk_43` (time_integrator.template.h:406-442). -/
def erk43 : Program where
  code := [
    prepare old 0, first old (temp 0) 4,
    prepare (temp 0) 1, hyp (temp 0) [(old, -1)] (temp 1),
    prepare (temp 1) 2, hyp (temp 1) [(temp 0, -1)] (temp 2),
    prepare (temp 2) 3, hyp (temp 2) [(temp 0, 5 / 3), (temp 1, -10 / 3)] (temp 3)]
  result := 3
  factor := 4

/-- The constants of `step_erk_54` (time_integrator.template.h:453-467), read as exact decimals. -/
def c54 : ℝ := 0.2
/-- time_integrator.template.h:454 -/
def a21 : ℝ := 0.2
/-- time_integrator.template.h:455 -/
def a31 : ℝ := 0.26075582269554909
/-- time_integrator.template.h:456 -/
def a32 : ℝ := 0.13924417730445096
/-- time_integrator.template.h:457 -/
def a41 : ℝ := -0.25856517872570289
/-- time_integrator.template.h:458 -/
def a42 : ℝ := 0.91136274166280729
/-- time_integrator.template.h:459 -/
def a43 : ℝ := -0.05279756293710430
/-- time_integrator.template.h:460 -/
def a51 : ℝ := 0.21623276431503774
/-- time_integrator.template.h:461 -/
def a52 : ℝ := 0.51534223099602405
/-- time_integrator.template.h:462 -/
def a53 : ℝ := -0.81662794199265554
/-- time_integrator.template.h:463 -/
def a54 : ℝ := 0.88505294668159373
/-- time_integrator.template.h:464 -/
def a61 : ℝ := -0.10511678454691901
/-- time_integrator.template.h:465 -/
def a62 : ℝ := 0.87880047152100838
/-- time_integrator.template.h:466 -/
def a63 : ℝ := -0.58903404061484477
/-- time_integrator.template.h:467 -/
def a64 : ℝ := 0.46213380485434047

/-- `step_erk_54` (time_integrator.template.h:445-512). -/
def erk54 : Program where
  code := [
    prepare old 0, first old (temp 0) 5,
    prepare (temp 0) 1, hyp (temp 0) [(old, (a31 - a21) / c54)] (temp 1),
    prepare (temp 1) 2, hyp (temp 1) [(old, (a41 - a31) / c54), (temp 0, (a42 - a32) / c54)] (temp 2),
    prepare (temp 2) 3,
    hyp (temp 2) [(old, (a51 - a41) / c54), (temp 0, (a52 - a42) / c54), (temp 1, (a53 - a43) / c54)] (temp 3),
    prepare (temp 3) 4,
    hyp (temp 3) [(old, (a61 - a51) / c54), (temp 0, (a62 - a52) / c54), (temp 1, (a63 - a53) / c54),
      (temp 2, (a64 - a54) / c54)] (temp 4)]
  result := 4
  factor := 5

/-- `step_strang_ssprk_33_cn` (time_integrator.template.h:515-560). -/
def strangSsprk33 : Program where
  code := [
    prepare old 0, first old (temp 0) 2,
    prepare (temp 0) 1, hyp (temp 0) [] (temp 1), sadd (temp 1) (1 / 4) (3 / 4) old,
    prepare (temp 1) (1 / 2), hyp (temp 1) [] (temp 0), sadd (temp 0) (2 / 3) (1 / 3) old,
    par (temp 0) 0 [] (temp 2) 1, sadd (temp 2) 2 (-1) (temp 0),
    prepare (temp 2) 1, hyp (temp 2) [] (temp 0),
    prepare (temp 0) 2, hyp (temp 0) [] (temp 1), sadd (temp 1) (1 / 4) (3 / 4) (temp 2),
    prepare (temp 1) (3 / 2), hyp (temp 1) [] (temp 0), sadd (temp 0) (2 / 3) (1 / 3) (temp 2)]
  result := 0
  factor := 2

/-- `step_strang_erk_33_cn` (time_integrator.template.h:563-616). -/
def strangErk33 : Program where
  code := [
    prepare old 0, first old (temp 0) 6,
    prepare (temp 0) 1, hyp (temp 0) [(old, -1)] (temp 1),
    prepare (temp 1) 2, hyp (temp 1) [(old, 3 / 4), (temp 0, -2)] (temp 2),
    par (temp 2) 0 [] (temp 3) 3, sadd (temp 3) 2 (-1) (temp 2),
    prepare (temp 3) 3, hyp (temp 3) [] (temp 0),
    prepare (temp 0) 4, hyp (temp 0) [(temp 3, -1)] (temp 1),
    prepare (temp 1) 5, hyp (temp 1) [(temp 3, 3 / 4), (temp 0, -2)] (temp 2)]
  result := 2
  factor := 6

/-- `step_strang_erk_43_cn` (time_integrator.template.h:619-680). -/
def strangErk43 : Program where
  code := [
    prepare old 0, first old (temp 0) 8,
    prepare (temp 0) 1, hyp (temp 0) [(old, -1)] (temp 1),
    prepare (temp 1) 2, hyp (temp 1) [(temp 0, -1)] (temp 2),
    prepare (temp 2) 3, hyp (temp 2) [(temp 0, 5 / 3), (temp 1, -10 / 3)] (temp 3),
    par (temp 3) 0 [] (temp 2) 4, sadd (temp 2) 2 (-1) (temp 3),
    prepare (temp 2) 4, hyp (temp 2) [] (temp 0),
    prepare (temp 0) 5, hyp (temp 0) [(temp 2, -1)] (temp 1),
    prepare (temp 1) 6, hyp (temp 1) [(temp 0, -1)] (temp 2),
    prepare (temp 2) 7, hyp (temp 2) [(temp 0, 5 / 3), (temp 1, -10 / 3)] (temp 3)]
  result := 3
  factor := 8

/-- `step_imex_11` (time_integrator.template.h:682-701). -/
def imex11 : Program where
  code := [
    prepare old 0, first old (temp 0) 1,
    par (temp 0) 0 [] (temp 1) 1]
  result := 1
  factor := 1

/-- `step_imex_22` (time_integrator.template.h:703-734). -/
def imex22 : Program where
  code := [
    prepare old 0, first old (temp 0) 2,
    par (temp 0) 0 [] (temp 1) 1,
    prepare (temp 1) 1, hyp (temp 1) [(old, -1)] (temp 2),
    par (temp 2) 1 [(old, 1)] (temp 3) 1]
  result := 3
  factor := 2

/-- `gamma` of `step_imex_33` (time_integrator.template.h:746). -/
def gamma33 : ℝ := 1 / 2 + 1 / 2 * (1 / Real.sqrt 3)

/-- `step_imex_33` (time_integrator.template.h:736-798). -/
def imex33 : Program where
  code := [
    prepare old 0, first old (temp 0) 3,
    par (temp 0) 0 [(old, 1 - 3 * gamma33)] (temp 1) 1,
    prepare (temp 1) 1, hyp (temp 1) [(old, -1)] (temp 2),
    par (temp 2) 1 [(old, 6 * gamma33 - 1), (temp 1, 2 - 9 * gamma33)] (temp 3) 1,
    prepare (temp 3) 2, hyp (temp 3) [(old, 3 / 4), (temp 1, -2)] (temp 4),
    par (temp 4) 2 [(old, 3 / 4 - 3 * gamma33), (temp 1, 6 * gamma33 - 2), (temp 3, 9 / 4 - 3 * gamma33)]
      (temp 5) 1]
  result := 5
  factor := 3

/-- The `switch` of `step` (time_integrator.template.h:217-247). -/
def program : Scheme → Program
  | .ssprk_22 => ssprk22
  | .ssprk_33 => ssprk33
  | .erk_11 => erk11
  | .erk_22 => erk22
  | .erk_33 => erk33
  | .erk_43 => erk43
  | .erk_54 => erk54
  | .strang_ssprk_33_cn => strangSsprk33
  | .strang_erk_33_cn => strangErk33
  | .strang_erk_43_cn => strangErk43
  | .imex_11 => imex11
  | .imex_22 => imex22
  | .imex_33 => imex33

/-- `temp_.resize(n)` in `prepare` (time_integrator.template.h:83-136). -/
def tempSize : Scheme → ℕ
  | .ssprk_22 => 2
  | .ssprk_33 => 2
  | .erk_11 => 1
  | .erk_22 => 2
  | .erk_33 => 3
  | .erk_43 => 4
  | .erk_54 => 5
  | .strang_ssprk_33_cn => 3
  | .strang_erk_33_cn => 4
  | .strang_erk_43_cn => 4
  | .imex_11 => 2
  | .imex_22 => 4
  | .imex_33 => 6

/-- `efficiency_` as set in `prepare` (time_integrator.template.h:83-136). -/
def efficiency : Scheme → ℝ
  | .ssprk_22 => 1
  | .ssprk_33 => 1
  | .erk_11 => 1
  | .erk_22 => 2
  | .erk_33 => 3
  | .erk_43 => 4
  | .erk_54 => 5
  | .strang_ssprk_33_cn => 2
  | .strang_erk_33_cn => 6
  | .strang_erk_43_cn => 8
  | .imex_11 => 1
  | .imex_22 => 2
  | .imex_33 => 3

/-- `check_whether_timestepping_makes_sense` (time_integrator.template.h:156-200): does the check pass for an
equation whose parabolic subsystem is (`true`) or is not (`false`) the identity? -/
def schemeAccepted (isIdentity : Bool) : Scheme → Bool
  | .ssprk_22 | .ssprk_33 | .erk_11 | .erk_22 | .erk_33 | .erk_43 | .erk_54 => isIdentity
  | .imex_11 | .imex_22 | .imex_33 | .strang_ssprk_33_cn | .strang_erk_33_cn | .strang_erk_43_cn => !isIdentity

/-- The mutable settings of the two modules: `cfl_` and the two `id_violation_strategy_` members.
(time_integrator.template.h:207-273) -/
structure Ctx where
  cfl : ℝ
  hyp : Strategy
  par : Strategy

/-- How a call of a module ends; `restart` leaves some content in the output vector. (time_integrator.template.h:258-273) -/
inductive Res (X : Type)
  | ok (U : X) (tau : ℝ)
  | restart (garbage : X)
  | crash

/-- The two modules the integrator calls. (time_integrator.template.h:279-700) -/
structure Modules (X P : Type) where
  /-- the boundary conditions applied by `prepare_state_vector` (hyperbolic_module.template.h:96-190) -/
  bc : ℝ → X → X
  /-- the precomputed values computed by `prepare_state_vector` -/
  pre : X → P
  /-- `HyperbolicModule::step`: settings, call number, old vector, stages with weights, old content of the new
  vector, `tau`, `tau_max` (`none` is the default argument, no bound) -/
  hyp : Ctx → ℕ → SV X P → List (ℝ × SV X P) → X → ℝ → Option ℝ → Res X
  /-- `ParabolicSolver::backward_euler_step`: settings, call number, old vector (only its hyperbolic part is read),
  time, old content of the new vector, `tau` (parabolic_solver.template.h:211-847) -/
  par : Ctx → ℕ → X → ℝ → X → ℝ → Res X

/-- The memory: all vectors. (time_integrator.template.h:83-144) -/
abbrev Mem (X P : Type) := Slot → SV X P

/-- Overwrite the hyperbolic part of a vector. (time_integrator.template.h:150-205) -/
def setU {X P : Type} (m : Mem X P) (s : Slot) (u : X) : Mem X P :=
  fun s' => if s' = s then ⟨u, (m s).prec⟩ else m s'

/-- State of a running `step_*` function. (time_integrator.template.h:279-700) -/
structure Conf (X P : Type) where
  mem : Mem X P
  tau : ℝ
  calls : ℕ

/-- How a (partial) run of a `step_*` function ends. (time_integrator.template.h:258-273) -/
inductive Out (X P : Type)
  | done (s : Conf X P)
  | restart (s : Conf X P)
  | crash

variable {X P : Type} [AddCommGroup X] [Module ℝ X]

/-- The stage arguments of a hyperbolic step. (time_integrator.template.h:360-400) -/
def stageArgs (m : Mem X P) (st : List (Slot × ℝ)) : List (ℝ × SV X P) := st.map fun p => (p.2, m p.1)

/-- Store the result of a module call. (time_integrator.template.h:286-292) -/
def finish (s : Conf X P) (dst : Slot) (setTau : Bool) : Res X → Out X P
  | .ok u tau => .done ⟨setU s.mem dst u, if setTau then tau else s.tau, s.calls + 1⟩
  | .restart g => .restart ⟨setU s.mem dst g, s.tau, s.calls + 1⟩
  | .crash => .crash

/-- Meaning of one statement.  The parabolic module asserts that there are no stages
(parabolic_module.template.h:71-73); `sadd` only touches the hyperbolic part
(time_integrator.template.h:17-25). -/
def exec (Mo : Modules X P) (ctx : Ctx) (t tau_max : ℝ) (s : Conf X P) : Instr → Out X P
  | .prepare v c =>
    let u := Mo.bc (t + c * s.tau) (s.mem v).U
    .done ⟨fun v' => if v' = v then ⟨u, Mo.pre u⟩ else s.mem v', s.tau, s.calls⟩
  | .first src dst div =>
    finish s dst true (Mo.hyp ctx s.calls (s.mem src) [] (s.mem dst).U 0 (some (tau_max / div)))
  | .hyp src stages dst =>
    finish s dst false
      (Mo.hyp ctx s.calls (s.mem src) (stageArgs s.mem stages) (s.mem dst).U s.tau none)
  | .par src c stages dst f =>
    if stages ≠ [] then .crash
    else finish s dst false
      (Mo.par ctx s.calls (s.mem src).U (t + c * s.tau) (s.mem dst).U (f * s.tau))
  | .sadd dst a b src =>
    .done ⟨setU s.mem dst (a • (s.mem dst).U + b • (s.mem src).U), s.tau, s.calls⟩

/-- Run a list of statements; an exception leaves the function. (time_integrator.template.h:279-700) -/
def run (Mo : Modules X P) (ctx : Ctx) (t tau_max : ℝ) : List Instr → Conf X P → Out X P
  | [], s => .done s
  | i :: is, s =>
    match exec Mo ctx t tau_max s i with
    | .done s' => run Mo ctx t tau_max is s'
    | .restart s' => .restart s'
    | .crash => .crash

/-- How a call of a `step_*` function or of `step` ends. (time_integrator.template.h:207-273) -/
inductive Result (X P : Type)
  /-- normal return: all vectors and the returned time step size -/
  | returned (mem : Mem X P) (tau : ℝ) (calls : ℕ)
  /-- a `Restart` exception leaves the function -/
  | restart (mem : Mem X P) (calls : ℕ)
  /-- an `AssertThrow` fired -/
  | crash

/-- `state_vector.swap(temp_[k])` (state_vector.h, `std::tuple::swap`). (time_integrator.template.h:296, 326, 344) -/
def swapOld (m : Mem X P) (k : ℕ) : Mem X P
  | .old => m (.temp k)
  | .temp j => if j = k then m .old else m (.temp j)

/-- A `step_*` function.  `tau` is an uninitialised local before it is declared; no statement reads it
earlier, it is set to `0` here. (time_integrator.template.h:279-700) -/
def singleStep (Mo : Modules X P) (pr : Program) (ctx : Ctx) (t tau_max : ℝ) (m : Mem X P) (calls : ℕ) :
    Result X P :=
  match run Mo ctx t tau_max pr.code ⟨m, 0, calls⟩ with
  | .done s => .returned (swapOld s.mem pr.result) (pr.factor * s.tau) s.calls
  | .restart s => .restart s.mem s.calls
  | .crash => .crash

/-- `CFLRecoveryStrategy` (time_integrator.h:30-55). -/
inductive Recovery
  | none | bang_bang_control
  deriving DecidableEq

/-- `TimeIntegrator::step` (time_integrator.template.h:206-275): the result and the settings of the modules
afterwards. -/
def step (Mo : Modules X P) (pr : Program) (rec : Recovery) (cflMin cflMax : ℝ) (ctx : Ctx) (t tFinal : ℝ)
    (m : Mem X P) (calls : ℕ) : Result X P × Ctx :=
  let tau_max := tFinal - t
  let ctx := match rec with
    | .bang_bang_control => ⟨cflMax, .raise_exception, .raise_exception⟩
    | .none => ctx
  match singleStep Mo pr ctx t tau_max m calls with
  | .returned m' tau n => (.returned m' tau n, ctx)
  | .crash => (.crash, ctx)
  | .restart m' n =>
    match rec with
    | .none => (.crash, ctx)
    | .bang_bang_control =>
      let ctx : Ctx := ⟨cflMin, .warn, .warn⟩
      (singleStep Mo pr ctx t tau_max m' n, ctx)

/-- The modules built from the model of `HyperbolicModule::step` (hyperbolic_module.template.h:234-1214): the call
number selects the leftover values of the member matrices, constrained rows keep the old content of the output
vector, `big` is the default value `numeric_limits::max()` of `tau_max`. -/
def hyperbolicModules {ι P S F B : Type} {dim : ℕ} [Fintype ι] [AddCommGroup S] [Module ℝ S]
    (D : Hyp.Description ι P S F B dim) (M : Hyp.Mesh ι dim) (par : Hyp.Params) (big : ℝ)
    (bc : ℝ → (ι → S) → ι → S) (pre : (ι → S) → P) (lo : ℕ → Hyp.Leftover ι S)
    (garbage : ℕ → ι → S) (parabolic : Ctx → ℕ → (ι → S) → ℝ → (ι → S) → ℝ → Res (ι → S)) :
    Modules (ι → S) P where
  bc := bc
  pre := pre
  hyp := fun ctx n src st dst tau cap =>
    match (Hyp.step D M { par with cfl := ctx.cfl } ctx.hyp ⟨0, 0⟩ { lo n with newU := dst } ⟨src.U, src.prec⟩
      (st.map fun p => (p.1, ⟨p.2.U, p.2.prec⟩)) tau (cap.getD big)).1 with
    | .crashed => .crash
    | .restart => .restart (garbage n)
    | .done U tau => .ok U tau
  par := parabolic

end

end Integrator
end Ryujin
