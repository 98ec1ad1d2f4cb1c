import Mathlib.Data.Real.Basic
import Mathlib.Data.Fintype.Basic
import Mathlib.Logic.Function.Basic

/-!
# Small-step models of the concurrent code

Every model is a transition relation between global configurations; a schedule is any finite sequence of
transitions.  Atomics are sequentially consistent (the code uses the default order except in `lazy.h`, where the
acquire/release pair and the mutex give the same guarantee for the object they publish).
-/

namespace Ryujin

/-! ### The compare-and-swap loop for `tau_max` (hyperbolic_module.template.h:555-559) -/

namespace TauReduction

/-- Where a thread is: before `tau_max.load()`; at the loop condition with its value of `current_tau_max`; behind
the loop. (hyperbolic_module.template.h:555-559) -/
inductive Pc
  | start
  | loop (current : ℝ)
  | done

/-- Shared `tau_max` and the program counters. (hyperbolic_module.template.h:555-559) -/
structure Conf (T : Type) where
  tau_max : ℝ
  pc : T → Pc

/-- The kinds of steps; `spurious` is a failure of `compare_exchange_weak` although the values agree.
(hyperbolic_module.template.h:555-559) -/
inductive Kind
  | load | exit | success | failure | spurious
  deriving DecidableEq

open Classical in
/-- One atomic action of thread `t`; `loc t` is its `local_tau_max` (hyperbolic_module.template.h:556-559). -/
inductive Step {T : Type} (loc : T → ℝ) : Conf T → Kind → Conf T → Prop
  /-- `current_tau_max = tau_max.load()` -/
  | load (s : Conf T) (t : T) (h : s.pc t = .start) :
      Step loc s .load { s with pc := Function.update s.pc t (.loop s.tau_max) }
  /-- loop condition `current_tau_max > local_tau_max` is false -/
  | exit (s : Conf T) (t : T) (c : ℝ) (h : s.pc t = .loop c) (hc : ¬ c > loc t) :
      Step loc s .exit { s with pc := Function.update s.pc t .done }
  /-- condition true and the exchange succeeds -/
  | success (s : Conf T) (t : T) (c : ℝ) (h : s.pc t = .loop c) (hc : c > loc t) (heq : s.tau_max = c) :
      Step loc s .success { tau_max := loc t, pc := Function.update s.pc t .done }
  /-- condition true and the shared value differs: `current_tau_max` is reloaded -/
  | failure (s : Conf T) (t : T) (c : ℝ) (h : s.pc t = .loop c) (hc : c > loc t) (hne : s.tau_max ≠ c) :
      Step loc s .failure { s with pc := Function.update s.pc t (.loop s.tau_max) }
  /-- condition true, values agree, but the weak exchange fails spuriously -/
  | spurious (s : Conf T) (t : T) (c : ℝ) (h : s.pc t = .loop c) (hc : c > loc t) (heq : s.tau_max = c) :
      Step loc s .spurious { s with pc := Function.update s.pc t (.loop s.tau_max) }

/-- A schedule: a finite sequence of steps with the list of its kinds. (hyperbolic_module.template.h:555-559) -/
inductive Run {T : Type} (loc : T → ℝ) : Conf T → List Kind → Conf T → Prop
  | nil (s : Conf T) : Run loc s [] s
  | snoc {s u v : Conf T} {ks : List Kind} {k : Kind} (h : Run loc s ks u) (hs : Step loc u k v) :
      Run loc s (ks ++ [k]) v

/-- All threads before the reduction. (hyperbolic_module.template.h:555-559) -/
def init (T : Type) (tau0 : ℝ) : Conf T := ⟨tau0, fun _ => .start⟩

end TauReduction

/-! ### `Lazy<T>` (lazy.h:20-56, 62-181) -/

namespace Lazy

/-- The `std::optional<T>`; `constructing` is the time between the start and the end of `emplace`. (lazy.h:119-148) -/
inductive Object (α : Type)
  | empty
  | constructing
  | full (v : α)

/-- Where a thread is inside `ensure_initialized` (lazy.h:119-148) followed by a use of `value()`. -/
inductive Pc
  /-- outside -/
  | idle
  /-- before the first (acquire) load -/
  | entry
  /-- before acquiring the mutex -/
  | wantLock
  /-- holding the mutex, before the second load -/
  | recheck
  /-- holding the mutex, running `creator()` -/
  | create
  /-- holding the mutex, inside `emplace` -/
  | emplacing
  /-- holding the mutex, before the release store -/
  | store
  /-- holding the mutex, leaving the guarded block normally -/
  | unlock
  /-- holding the mutex, leaving it by the creator's exception -/
  | unwind
  /-- behind `ensure_initialized`, about to use `value()` -/
  | ready
  deriving DecidableEq

/-- Global configuration.  The last three fields are ghost history variables, reset by `reset()`: number of
successful runs of the creator, number of its failing runs, and all values obtained through `value()`. (lazy.h:119-148) -/
structure Conf (T α : Type) where
  flag : Bool
  object : Object α
  mutex : Option T
  pc : T → Pc
  created : ℕ
  failed : ℕ
  seen : List (Option α)

open Classical in
/-- Atomic actions. (lazy.h:119-148) -/
inductive Step {T α : Type} : Conf T α → Conf T α → Prop
  /-- a thread calls `ensure_initialized` -/
  | call (s : Conf T α) (t : T) (h : s.pc t = .idle) :
      Step s { s with pc := Function.update s.pc t .entry }
  /-- `object_is_initialized.load(acquire)` is true (lazy.h:125) -/
  | fast (s : Conf T α) (t : T) (h : s.pc t = .entry) (hf : s.flag = true) :
      Step s { s with pc := Function.update s.pc t .ready }
  /-- it is false -/
  | slow (s : Conf T α) (t : T) (h : s.pc t = .entry) (hf : s.flag = false) :
      Step s { s with pc := Function.update s.pc t .wantLock }
  /-- `std::lock_guard` acquires the free mutex (lazy.h:130) -/
  | lock (s : Conf T α) (t : T) (h : s.pc t = .wantLock) (hm : s.mutex = none) :
      Step s { s with mutex := some t, pc := Function.update s.pc t .recheck }
  /-- second check finds the object initialised (lazy.h:140) -/
  | recheckTrue (s : Conf T α) (t : T) (h : s.pc t = .recheck) (hf : s.flag = true) :
      Step s { s with pc := Function.update s.pc t .unlock }
  /-- second check: not initialised, run `creator()` -/
  | recheckFalse (s : Conf T α) (t : T) (h : s.pc t = .recheck) (hf : s.flag = false) :
      Step s { s with pc := Function.update s.pc t .create }
  /-- `creator()` throws; nothing has been stored -/
  | throws (s : Conf T α) (t : T) (h : s.pc t = .create) :
      Step s { s with pc := Function.update s.pc t .unwind, failed := s.failed + 1 }
  /-- `creator()` returns, `emplace` starts (lazy.h:142) -/
  | emplaceBegin (s : Conf T α) (t : T) (h : s.pc t = .create) :
      Step s { s with object := .constructing, pc := Function.update s.pc t .emplacing }
  /-- `emplace` has constructed the value `v` -/
  | emplaceEnd (s : Conf T α) (t : T) (v : α) (h : s.pc t = .emplacing) :
      Step s { s with object := .full v, pc := Function.update s.pc t .store, created := s.created + 1 }
  /-- the constructor called by `emplace` throws; `std::optional` is left empty -/
  | emplaceThrows (s : Conf T α) (t : T) (h : s.pc t = .emplacing) :
      Step s { s with object := .empty, pc := Function.update s.pc t .unwind, failed := s.failed + 1 }
  /-- release store (lazy.h:145) -/
  | store (s : Conf T α) (t : T) (h : s.pc t = .store) :
      Step s { s with flag := true, pc := Function.update s.pc t .unlock }
  /-- the lock guard is destroyed -/
  | unlock (s : Conf T α) (t : T) (h : s.pc t = .unlock) :
      Step s { s with mutex := none, pc := Function.update s.pc t .ready }
  /-- the lock guard is destroyed during stack unwinding; the caller sees the exception -/
  | unwind (s : Conf T α) (t : T) (h : s.pc t = .unwind) :
      Step s { s with mutex := none, pc := Function.update s.pc t .idle }
  /-- `value()` (lazy.h:158-181): reads the object -/
  | value (s : Conf T α) (t : T) (h : s.pc t = .ready) :
      Step s { s with
        pc := Function.update s.pc t .idle
        seen := s.seen ++ [match s.object with | .full v => some v | _ => none] }
  /-- `reset()` (lazy.h:112-116), which is not thread safe: all threads are outside -/
  | reset (s : Conf T α) (h : ∀ t, s.pc t = .idle) :
      Step s { s with flag := false, object := .empty, created := 0, failed := 0, seen := [] }

/-- Configurations reachable from `s`. (lazy.h:119-148) -/
inductive Reach {T α : Type} (s : Conf T α) : Conf T α → Prop
  | refl : Reach s s
  | step {u v : Conf T α} (h : Reach s u) (hs : Step u v) : Reach s v

/-- A freshly constructed object (lazy.h:62-66). -/
def init (T α : Type) : Conf T α := ⟨false, .empty, none, fun _ => .idle, 0, 0, []⟩

end Lazy

/-! ### `SynchronizationDispatch` (openmp.h:141-182) and its use (hyperbolic_module.template.h:344-430) -/

namespace Dispatch

/-- Where a thread is in its share of the `omp for` loop. (openmp.h:141-182) -/
inductive Pc
  /-- at the head of the loop; the list are the remaining indices of this thread -/
  | loop (todo : List ℕ)
  /-- inside `check` for index `i`, after `++n_threads_ready_` returned `k` (openmp.h:169) -/
  | counted (k : ℕ) (i : ℕ) (todo : List ℕ)
  /-- `check` for index `i` is done, computing index `i` -/
  | work (i : ℕ) (todo : List ℕ)
  /-- behind the loop -/
  | finished

/-- Global configuration. (openmp.h:141-182) -/
structure Conf (T : Type) where
  pc : T → Pc
  /-- the thread local `thread_ready` -/
  thread_ready : T → Bool
  /-- `n_threads_ready_` -/
  n_threads_ready : ℕ
  /-- number of times the payload was launched by `std::async`; `payload_status_.valid()` iff positive -/
  launched : ℕ
  /-- number of times the payload was run by the destructor -/
  inDestructor : ℕ
  /-- indices computed so far (ghost) -/
  computed : ℕ → Prop
  /-- the indices that were computed when the payload was first started (ghost) -/
  atStart : Option (ℕ → Prop)
  /-- the destructor has returned -/
  destroyed : Bool

open Classical in
/-- Atomic actions of `n` threads; `nexp`, `nint` are `n_export_indices` and `n_internal`. (openmp.h:141-182) -/
inductive Step {T : Type} (n nexp nint : ℕ) : Conf T → Conf T → Prop
  /-- `check(thread_ready, condition)` does nothing (openmp.h:166) -/
  | checkSkip (s : Conf T) (t : T) (i : ℕ) (l : List ℕ) (h : s.pc t = .loop (i :: l))
      (hc : ¬ (s.thread_ready t = false ∧ (i ≥ nexp ∧ i < nint))) :
      Step n nexp nint s { s with pc := Function.update s.pc t (.work i l) }
  /-- `thread_ready = true; ++n_threads_ready_` (openmp.h:167-169) -/
  | checkCount (s : Conf T) (t : T) (i : ℕ) (l : List ℕ) (h : s.pc t = .loop (i :: l))
      (hc : s.thread_ready t = false ∧ (i ≥ nexp ∧ i < nint)) :
      Step n nexp nint s { s with
        thread_ready := Function.update s.thread_ready t true
        n_threads_ready := s.n_threads_ready + 1
        pc := Function.update s.pc t (.counted (s.n_threads_ready + 1) i l) }
  /-- the count equals the number of threads: `std::async` (openmp.h:169-171) -/
  | launch (s : Conf T) (t : T) (k i : ℕ) (l : List ℕ) (h : s.pc t = .counted k i l) (hk : k = n) :
      Step n nexp nint s { s with
        launched := s.launched + 1
        atStart := some (s.atStart.getD s.computed)
        pc := Function.update s.pc t (.work i l) }
  /-- it does not -/
  | noLaunch (s : Conf T) (t : T) (k i : ℕ) (l : List ℕ) (h : s.pc t = .counted k i l) (hk : k ≠ n) :
      Step n nexp nint s { s with pc := Function.update s.pc t (.work i l) }
  /-- the body of the loop for index `i` -/
  | compute (s : Conf T) (t : T) (i : ℕ) (l : List ℕ) (h : s.pc t = .work i l) :
      Step n nexp nint s { s with
        computed := fun j => j = i ∨ s.computed j
        pc := Function.update s.pc t (.loop l) }
  /-- no indices left -/
  | finish (s : Conf T) (t : T) (h : s.pc t = .loop []) :
      Step n nexp nint s { s with pc := Function.update s.pc t .finished }
  /-- the destructor, after the parallel region, waits for the asynchronous payload (openmp.h:154-155) -/
  | destroyWait (s : Conf T) (h : ∀ t, s.pc t = .finished) (hd : s.destroyed = false) (hv : 0 < s.launched) :
      Step n nexp nint s { s with destroyed := true }
  /-- or runs it (openmp.h:156-158) -/
  | destroyRun (s : Conf T) (h : ∀ t, s.pc t = .finished) (hd : s.destroyed = false) (hv : ¬ 0 < s.launched) :
      Step n nexp nint s { s with
        destroyed := true
        inDestructor := s.inDestructor + 1
        atStart := some (s.atStart.getD s.computed) }

/-- Configurations reachable from `s`. (openmp.h:141-182) -/
inductive Reach {T : Type} (n nexp nint : ℕ) (s : Conf T) : Conf T → Prop
  | refl : Reach n nexp nint s s
  | step {u v : Conf T} (h : Reach n nexp nint s u) (hs : Step n nexp nint u v) : Reach n nexp nint s v

/-- Start of the vectorised loop: thread `t` gets the indices `work t`; `done` are the indices of the scalar loop,
completed because of the implicit barrier of `omp for`. (openmp.h:141-182) -/
def init {T : Type} (work : T → List ℕ) (done : ℕ → Prop) : Conf T :=
  ⟨fun t => .loop (work t), fun _ => false, 0, 0, 0, done, none, false⟩

end Dispatch

end Ryujin
