import Verif.Proofs.TimeLoop

/-!
# Everything a simulation writes

A simulation is a program run and all program runs resumed from its checkpoints, from the checkpoints of those, and so on.
Every one of them may have its own output options and may be stopped – or fail – after any number of passes through the
time loop.
-/

namespace Ryujin
namespace TimeLoop

variable {S W : Type}

/-- The state vector that an effect lets the outside world see. -/
def Event.shows : Event S → Option S
  | .accumulate _ s => some s
  | .vtu _ _ _ s _ _ => some s
  | .checkpoint _ _ s => some s
  | .writeQuantities _ _ s => some s
  | .adapt _ => none

open Classical in
/-- The effects of a pass through the loop body up to the time step, whether or not the time step succeeds afterwards. -/
noncomputable def visible (c : Config) (e : Env S W) (σ : State S W) : List (Event S) :=
  (if c.quantities then [Event.accumulate σ.t σ.state] else []) ++
  (if σ.t ≥ σ.timer_cycle * c.granularity then
    match tick c e σ.state σ.t σ.timer_cycle with
    | some r => r.2
    | none => []
  else [])

/-- The effects of a simulation that starts with the state vector `s₀`.  The mesh is not adapted and no analytic solution
is written; `ok σ σ'` is a condition on the time steps made, from the beginning of a pass to the beginning of the next. -/
inductive Written (e : Env S W) (ok : State S W → State S W → Prop) (s₀ : S) : Event S → Prop
  /-- a program that starts from the initial state -/
  | fresh {c : Config} {points : List ℝ} {w : W} {st : ℕ → State S W} {N i : ℕ} {ev : Event S}
      (no_error : c.error = false) (no_adaptation : c.adaptivity = false)
      (run : IsRun c e st N) (first : st 0 = TimeLoop.fresh s₀ points w)
      (side : ∀ k < N, ok (st k) (st (k + 1))) (pass : i ≤ N) (mem : ev ∈ visible c e (st i)) : Written e ok s₀ ev
  /-- a program that resumes from a checkpoint of the simulation -/
  | resumed {c : Config} {points : List ℝ} {w : W} {st : ℕ → State S W} {N i : ℕ} {ev : Event S}
      {atZero : Bool} {cycle : ℕ} {t : ℝ} {s : S}
      (no_error : c.error = false) (no_adaptation : c.adaptivity = false)
      (saved : Written e ok s₀ (.checkpoint cycle t s))
      (run : IsRun c e st N) (first : st 0 = TimeLoop.resumed atZero cycle t s points w)
      (side : ∀ k < N, ok (st k) (st (k + 1))) (pass : i ≤ N) (mem : ev ∈ visible c e (st i)) : Written e ok s₀ ev

end TimeLoop
end Ryujin
