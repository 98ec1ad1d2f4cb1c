import Mathlib.Data.Real.Basic
import Verif.Model.MultiComponentVector

/-!
# Model of `TimeLoop` (source/time_loop.template.h) and of the time point part of `MeshAdaptor`

The state vector is an element of an arbitrary type `S` (it includes the mesh, which is saved together with
it), everything else that survives from one call of the time integrator to the next (temporary vectors, module
settings, leftover matrices) an element of an arbitrary type `W`.

Simplifications: `Number` is `ℝ`; `unsigned int timer_cycle` is `ℕ` (no wrap around after 2^32 ticks);
terminal and log file output, computing timers and MPI ranks are left out; `postprocessor_.compute` and
`vtu_output_.schedule_output` are represented by the event they produce.
-/

namespace Ryujin
namespace TimeLoop

noncomputable section

/-! ### MeshAdaptor -/

/-- `adaptation_time_points_` and `need_mesh_adaptation_` (mesh_adaptor.h:160-180). -/
structure Adaptor where
  points : List ℝ
  need : Bool

/-- `MeshAdaptor::prepare` (mesh_adaptor.template.h:92-115): drop the time points with `t > t_refinement`, reset the
flag. -/
def Adaptor.prepare (a : Adaptor) (t : ℝ) : Adaptor where
  points := a.points.filter fun p => decide (¬ t > p)
  need := false

/-- `MeshAdaptor::analyze` (mesh_adaptor.template.h:119-147): drop the time points with `t >= t_refinement`; the
flag is set if there is one. -/
def Adaptor.analyze (a : Adaptor) (t : ℝ) : Adaptor where
  points := a.points.filter fun p => decide (t < p)
  need := a.need || a.points.any fun p => decide (¬ t < p)

/-! ### Run time parameters and the modules called -/

/-- Run time parameters (time_loop.template.h:80-205). -/
structure Config where
  /-- "final time" -/
  tFinal : ℝ
  /-- "enforce final time" -/
  enforce : Bool
  /-- `std::numeric_limits<Number>::epsilon()` -/
  eps : ℝ
  /-- "timer granularity" -/
  granularity : ℝ
  /-- "enable checkpointing" -/
  checkpointing : Bool
  /-- "enable output full" -/
  full : Bool
  /-- "enable output levelsets" -/
  levelsets : Bool
  /-- "enable compute error" -/
  error : Bool
  /-- "enable compute quantities" -/
  quantities : Bool
  /-- "enable mesh adaptivity" -/
  adaptivity : Bool
  /-- "timer checkpoint multiplier" -/
  mCheckpoint : ℕ
  /-- "timer output full multiplier" -/
  mFull : ℕ
  /-- "timer output levelsets multiplier" -/
  mLevelsets : ℕ
  /-- "timer compute quantities multiplier" -/
  mQuantities : ℕ
  /-- `have_distributed_triangulation<dim>`: false in 1D -/
  distributed : Bool

/-- The modules called by the time loop. (time_loop.template.h:44-78) -/
structure Env (S W : Type) where
  /-- `hyperbolic_module_.prepare_state_vector(state_vector, t)` -/
  prep : ℝ → S → S
  /-- `time_integrator_.step(state_vector, t, t_final)`, `none` is the default argument; the call may throw -/
  step : W → S → ℝ → Option ℝ → Option (S × ℝ × W)
  /-- `adapt_mesh_and_transfer_state_vector` (time_loop.template.h:616-689) without the call of
  `mesh_adaptor_.prepare` made by `prepare_compute_kernels` -/
  adapt : S → S
  /-- `initial_values_.interpolate_hyperbolic_vector(t)` on the mesh of the current state -/
  analytic : S → ℝ → S

/-- Observable effects. (time_loop.template.h:305-420, 840-885) -/
inductive Event (S : Type)
  /-- `quantities_.accumulate(state_vector, t)` -/
  | accumulate (t : ℝ) (s : S)
  /-- `vtu_output_.schedule_output(state_vector, name, t, cycle, full, levelsets)`; `analytic` selects the name -/
  | vtu (analytic : Bool) (cycle : ℕ) (t : ℝ) (s : S) (full levelsets : Bool)
  /-- `write_checkpoint(state_vector, base_name_, t, cycle)` -/
  | checkpoint (cycle : ℕ) (t : ℝ) (s : S)
  /-- `quantities_.write_out(state_vector, t, cycle)` -/
  | writeQuantities (cycle : ℕ) (t : ℝ) (s : S)
  /-- a mesh adaptation cycle at time `t` -/
  | adapt (t : ℝ)

/-- The local variables of `run` and the persistent state of the modules (time_loop.template.h:237-240). -/
structure State (S W : Type) where
  t : ℝ
  timer_cycle : ℕ
  state : S
  adaptor : Adaptor
  hidden : W

variable {S W : Type}

/-- `TimeLoop::output` (time_loop.template.h:837-884): the state vector afterwards and the effects.  The remainder
operations are evaluated first and are undefined if a multiplier is zero; checkpointing throws in 1D. Both
are `none`. -/
def output (c : Config) (e : Env S W) (analytic : Bool) (s : S) (t : ℝ) (cycle : ℕ) : Option (S × List (Event S)) :=
  if c.mFull = 0 ∨ c.mLevelsets = 0 ∨ c.mCheckpoint = 0 then none
  else
    let do_full := decide (cycle % c.mFull = 0) && c.full
    let do_levelsets := decide (cycle % c.mLevelsets = 0) && c.levelsets
    let do_checkpointing := decide (cycle % c.mCheckpoint = 0) && c.checkpointing
    if !(do_full || do_levelsets || do_checkpointing) then some (s, [])
    else if do_checkpointing && !c.distributed then none
    else
      let s := e.prep t s
      some (s,
        (if do_full || do_levelsets then [Event.vtu analytic cycle t s do_full do_levelsets] else []) ++
        (if do_checkpointing then [Event.checkpoint cycle t s] else []))

/-- The tasks performed at a timer tick (time_loop.template.h:314-344). -/
def tick (c : Config) (e : Env S W) (s : S) (t : ℝ) (cycle : ℕ) : Option (S × List (Event S)) := do
  let (s, ev) ← output c e false s t cycle
  let ev' ← if c.error then (output c e true (e.analytic s t) t cycle).map Prod.snd else some []
  let ev'' ← if c.quantities then
      if c.mQuantities = 0 then none
      else some (if cycle % c.mQuantities = 0 then [Event.writeQuantities cycle t s] else [])
    else some []
  some (s, ev ++ ev' ++ ev'')

/-- The result of one pass through the loop body. (time_loop.template.h:290-420) -/
inductive Iter (S W : Type)
  /-- the loop continues -/
  | continue (s : State S W) (ev : List (Event S))
  /-- `break` -/
  | break (s : State S W) (ev : List (Event S))
  /-- an exception, or undefined behaviour -/
  | abort

/-- `relax * t_final_` (time_loop.template.h:352-357). -/
def threshold (c : Config) : ℝ := (if c.enforce then 1 - 10 * c.eps else 1) * c.tFinal

/-- The mesh adaptation cycle of the loop body (time_loop.template.h:360-378).  `adapt_mesh_and_transfer_state_vector`
calls `prepare_compute_kernels`, which calls `mesh_adaptor_.prepare(t)` (time_loop.template.h:252). -/
def adaptation (c : Config) (e : Env S W) (s : S) (a : Adaptor) (t : ℝ) : S × Adaptor × List (Event S) :=
  if c.adaptivity then
    let a := a.analyze t
    if a.need then (e.adapt (e.prep t s), a.prepare t, [Event.adapt t]) else (s, a, [])
  else (s, a, [])

/-- One pass through the loop body (time_loop.template.h:300-408). -/
def iteration (c : Config) (e : Env S W) (σ : State S W) : Iter S W :=
  let ev₀ := if c.quantities then [Event.accumulate σ.t σ.state] else []
  let ticked := if σ.t ≥ σ.timer_cycle * c.granularity then
      (tick c e σ.state σ.t σ.timer_cycle).map fun r => (r.1, σ.timer_cycle + 1, r.2)
    else some (σ.state, σ.timer_cycle, [])
  match ticked with
  | none => .abort
  | some (s, k, ev₁) =>
    if σ.t ≥ threshold c then .break ⟨σ.t, k, s, σ.adaptor, σ.hidden⟩ (ev₀ ++ ev₁)
    else
      let r := adaptation c e s σ.adaptor σ.t
      match e.step σ.hidden r.1 σ.t (if c.enforce then some c.tFinal else none) with
      | none => .abort
      | some (s', tau, w) => .continue ⟨σ.t + tau, k, s', r.2.1, w⟩ (ev₀ ++ ev₁ ++ r.2.2)

/-- The state before the loop of a fresh run (time_loop.template.h:237-283): `prepare_compute_kernels` is called with
`t = 0`. -/
def fresh (s₀ : S) (points : List ℝ) (w : W) : State S W :=
  ⟨0, 0, s₀, (Adaptor.mk points false).prepare 0, w⟩

/-- The state before the loop of a resumed run (time_loop.template.h:262-274, 440-533).  `read_checkpoint` calls
`prepare_compute_kernels` *before* the metadata is read, so that `mesh_adaptor_.prepare(t)` sees the initial
value `t = 0`. `cycle`, `t`, `s` are the saved output cycle, time and state, `atZero` is "resume at time zero". -/
def resumed (atZero : Bool) (cycle : ℕ) (t : ℝ) (s : S) (points : List ℝ) (w : W) : State S W :=
  let a := (Adaptor.mk points false).prepare 0
  if atZero then ⟨0, 0, s, a, w⟩ else ⟨t, cycle, s, a, w⟩

/-! ### Contents of a checkpoint -/

/-- The state vector part of `write_checkpoint` (time_loop.template.h:559-578): one scalar vector per component,
obtained with `extract_component`.  Serialisation of the scalar vectors by deal.II is not modelled. -/
def saveComponents {α : Type} (n n_owned : ℕ) (zero : α) (U : ℕ → α) : List (ℕ → α) :=
  (List.range n).map fun d => Multi.extractComponent n n_owned U d (fun _ => zero)

/-- The state vector part of `read_checkpoint` (time_loop.template.h:526-531): insert the components in order. -/
def loadComponents {α : Type} (n n_owned : ℕ) (zero : α) (states : List (ℕ → α)) : ℕ → α :=
  (states.foldl (fun (p : (ℕ → α) × ℕ) it => (Multi.insertComponent n n_owned it p.2 p.1, p.2 + 1))
    (fun _ => zero, 0)).1

/-! ### The files of a checkpoint -/

/-- The four files of a checkpoint (time_loop.template.h:583-585). -/
inductive File
  | mesh | meshFixedData | meshInfo | metadata
  deriving DecidableEq

/-- What is found on disk under a name: the number of the call of `write_checkpoint` that produced it and whether
it is completely written. (time_loop.template.h:537-610) -/
structure Content where
  version : ℕ
  complete : Bool
  deriving DecidableEq

/-- The directory: `current f` is the file `name + suffix`, `backup f` the file `name + suffix + "~"`.
(time_loop.template.h:583-600) -/
structure Disk where
  current : File → Option Content
  backup : File → Option Content

/-- The file operations of `write_checkpoint`, as far as a crash can fall between them. (time_loop.template.h:559-610) -/
inductive Op
  /-- `if exists(name + suffix) rename(name + suffix, name + suffix + "~")` -/
  | rename (f : File)
  /-- open the file for writing, truncating it -/
  | create (f : File)
  /-- the last byte of the file reaches the disk -/
  | finish (f : File)
  deriving DecidableEq

/-- The effect of a file operation of call number `v`. (time_loop.template.h:559-610) -/
def Op.apply (v : ℕ) (d : Disk) : Op → Disk
  | .rename f =>
    match d.current f with
    | none => d
    | some x => ⟨Function.update d.current f none, Function.update d.backup f (some x)⟩
  | .create f => ⟨Function.update d.current f (some ⟨v, false⟩), d.backup⟩
  | .finish f => ⟨Function.update d.current f (some ⟨v, true⟩), d.backup⟩

/-- The operations of one call of `write_checkpoint` (time_loop.template.h:581-607), given the order in which
`triangulation.save` creates and finishes its three files (`save`). -/
def writeOps (save : List Op) : List Op :=
  [.rename .mesh, .rename .meshFixedData, .rename .meshInfo, .rename .metadata] ++ save ++
    [.create .metadata, .finish .metadata]

/-- A possible order of the operations of `triangulation.save` (deal.II): it finishes each of its three files, never
truncates a file again after finishing it, and touches no other file. -/
structure SaveOrder (save : List Op) : Prop where
  only : ∀ op ∈ save, ∃ f, f ≠ File.metadata ∧ (op = .create f ∨ op = .finish f)
  all : ∀ f, f ≠ File.metadata → Op.finish f ∈ save
  order : ∀ f l₁ l₂, save = l₁ ++ .finish f :: l₂ → Op.create f ∉ l₂

/-- The disk after the first `n` operations of call `v`. (time_loop.template.h:537-610) -/
def writeUntil (v : ℕ) (save : List Op) (n : ℕ) (d : Disk) : Disk :=
  ((writeOps save).take n).foldl (Op.apply v) d

/-- The disk after a complete call. (time_loop.template.h:537-610) -/
def writeAll (v : ℕ) (save : List Op) (d : Disk) : Disk := (writeOps save).foldl (Op.apply v) d

end

end TimeLoop
end Ryujin
