import Mathlib.Data.Real.Basic
import Mathlib.Algebra.Module.Basic
import Mathlib.Algebra.Module.Pi
import Mathlib.Algebra.BigOperators.Group.List.Basic
import Mathlib.Data.List.Range

/-!
# Model of `Quantities` (source/quantities.template.h)

Manifolds are numbered `0, 1, …` in the order of `interior_maps_` followed by `boundary_maps_`.  The vector of
point values of a manifold (primitive state and second moments for all points) is an element of an arbitrary real
vector space `V`, a spatial average an element of `A`; `internalAccumulate` computes both from a state vector.

Simplifications: `Number` is `ℝ`; the option string of a manifold is represented by the three results of
`options.find(...)`; formatting of numbers, the mesh files and the header string are left out.
-/

namespace Ryujin
namespace Quantities

noncomputable section

/-! ### Spatial averages -/

/-- The result of `internal_accumulate` on a collection of MPI ranks (quantities.template.h:369-424).  `points` is for
every rank the list of indices and masses of the points of the manifold, `prim r i` is
`view.to_primitive_state(U.get_tensor(i))` on rank `r`.  The first component is the list of `val_new` of all
ranks, the second one the pair `spatial_average`. -/
def internalAccumulate {c : ℕ} (points : List (List (ℕ × ℝ))) (prim : ℕ → ℕ → Fin c → ℝ) :
    List (List ((Fin c → ℝ) × (Fin c → ℝ))) × ((Fin c → ℝ) × (Fin c → ℝ)) :=
  let numbered := points.zipIdx
  let val_new := numbered.map fun r => r.1.map fun p => (prim r.2 p.1, prim r.2 p.1 * prim r.2 p.1)
  let local_sums := numbered.map fun r => r.1.foldl
    (fun (acc : ℝ × (Fin c → ℝ) × (Fin c → ℝ)) p =>
      (acc.1 + p.2, acc.2.1 + p.2 • prim r.2 p.1, acc.2.2 + p.2 • (prim r.2 p.1 * prim r.2 p.1))) (0, 0, 0)
  let mass_sum := (local_sums.map fun s => s.1).sum
  (val_new, (1 / mass_sum) • (local_sums.map fun s => s.2.1).sum, (1 / mass_sum) • (local_sums.map fun s => s.2.2).sum)

/-! ### Temporal statistics of one manifold -/

/-- The tuple `statistics` of a manifold (quantities.h:190-200). -/
structure Stat (V : Type) where
  val_old : V
  val_new : V
  val_sum : V
  t_old : ℝ
  t_new : ℝ
  t_sum : ℝ

variable {V A S : Type} [AddCommGroup V] [Module ℝ V]

/-- The cleared statistics (quantities.template.h:341-355): value initialised vectors and zero times. -/
def Stat.cleared : Stat V := ⟨0, 0, 0, 0, 0, 0⟩

open Classical in
/-- The update of the temporal statistics in `accumulate` (quantities.template.h:517-545); `v` is what
`internal_accumulate` stores in `val_new`. -/
def Stat.accumulate (s : Stat V) (t : ℝ) (v : V) : Stat V :=
  /- std::swap(t_old, t_new); std::swap(val_old, val_new); -/
  let t_old := s.t_new
  let t_new := s.t_old
  let val_old := s.val_new
  let val_new := v
  if t_old = 0 ∧ t_new = 0 then
    ⟨val_old, val_new, s.val_sum, t - 1, t, s.t_sum⟩
  else
    let t_new := t
    let tau := t_new - t_old
    ⟨val_old, val_new, s.val_sum + (0.5 * tau) • val_old + (0.5 * tau) • val_new, t_old, t_new, s.t_sum + tau⟩

/-! ### The class -/

/-- Results of the three searches in the option string (quantities.template.h:511-514, 600, 624, 641). -/
structure Options where
  time_averaged : Bool
  space_averaged : Bool
  instantaneous : Bool

/-- One manifold: statistics and time series (quantities.h:190-215). -/
structure Manifold (V A : Type) where
  options : Options
  stat : Stat V
  series : List (ℝ × A)

/-- The mutable members of the class. (quantities.h:125-214) -/
structure State (V A : Type) where
  manifolds : List (Manifold V A)
  /-- `time_series_cycle_` -/
  series_cycle : Option ℕ

/-- Files written.  The manifold is identified by its number. (quantities.template.h:566-660) -/
inductive Event (V A : Type)
  /-- "-instantaneous.dat": time stamp and values -/
  | instantaneous (manifold cycle : ℕ) (t : ℝ) (values : V)
  /-- "-time_averaged.dat": "averaged from ... to ..." and scaled values -/
  | timeAveraged (manifold cycle : ℕ) (t_from t_to : ℝ) (values : V)
  /-- "-space_averaged_time_series.dat": file number, opened for appending (or truncated and started with the
  header), entries -/
  | series (manifold fileCycle : ℕ) (append : Bool) (entries : List (ℝ × A))

/-- `clear_statistics` for one manifold (quantities.template.h:341-364): the maps of statistics and time series are
cleared. -/
def Manifold.clear (m : Manifold V A) : Manifold V A := ⟨m.options, Stat.cleared, []⟩

/-- `clear_statistics` (quantities.template.h:341-364). -/
def State.clear (σ : State V A) : State V A := { σ with manifolds := σ.manifolds.map Manifold.clear }

/-- `prepare` (quantities.template.h:95-245): `time_series_cycle_` is reset and the statistics are cleared. -/
def State.prepare (σ : State V A) : State V A := { σ.clear with series_cycle := none }

/-- The body of the loop in `accumulate` (quantities.template.h:505-549). -/
def Manifold.accumulate (m : Manifold V A) (t : ℝ) (v : V) (a : A) : Manifold V A :=
  if !m.options.time_averaged && !m.options.space_averaged then m
  else ⟨m.options, m.stat.accumulate t v, m.series ++ [(t, a)]⟩

/-- `accumulate` (quantities.template.h:495-562).  `obs k s` are the point values and the spatial average of manifold
`k` for the state vector `s`. -/
def State.accumulate (obs : ℕ → S → V × A) (σ : State V A) (t : ℝ) (s : S) : State V A :=
  { σ with manifolds := σ.manifolds.mapIdx fun k m => m.accumulate t (obs k s).1 (obs k s).2 }

open Classical in
/-- The first two blocks of the loop in `write_out` (quantities.template.h:596-636): instantaneous values and time
averages.  `none` is the exception raised by `AssertThrow(t_new == t)`. -/
def Manifold.writeFields (k cycle : ℕ) (m : Manifold V A) (t : ℝ) (v : V) :
    Option (Manifold V A × List (Event V A)) :=
  let first : Option (Stat V × List (Event V A)) :=
    if m.options.instantaneous then
      if !m.options.time_averaged && !m.options.space_averaged then
        some ({ m.stat with val_new := v }, [Event.instantaneous k cycle t v])
      else if m.stat.t_new = t then some (m.stat, [Event.instantaneous k cycle t m.stat.val_new])
      else none
    else some (m.stat, [])
  first.map fun r =>
    ({ m with stat := r.1 }, r.2 ++
      if m.options.time_averaged ∧ r.1.t_sum ≠ 0 then
        [Event.timeAveraged k cycle (r.1.t_new - r.1.t_sum) r.1.t_new ((1 / r.1.t_sum) • r.1.val_sum)]
      else [])

/-- The last block of the loop in `write_out` (quantities.template.h:641-660): flush the time series. -/
def Manifold.writeSeries (k cycle : ℕ) (m : Manifold V A) (series_cycle : Option ℕ) :
    Manifold V A × Option ℕ × List (Event V A) :=
  if m.options.space_averaged then
    match series_cycle with
    | none => ({ m with series := [] }, some cycle, [Event.series k cycle false m.series])
    | some c => ({ m with series := [] }, some c, [Event.series k c true m.series])
  else (m, series_cycle, [])

/-- The loop over all manifolds in `write_out` (quantities.template.h:586-662), starting with manifold number `k`. -/
def writeLoop (obs : ℕ → S → V × A) (t : ℝ) (s : S) (cycle : ℕ) :
    ℕ → List (Manifold V A) → Option ℕ → Option (List (Manifold V A) × Option ℕ × List (Event V A))
  | _, [], c => some ([], c, [])
  | k, m :: ms, c =>
    (m.writeFields k cycle t (obs k s).1).bind fun r =>
      let q := r.1.writeSeries k cycle c
      (writeLoop obs t s cycle (k + 1) ms q.2.1).map fun rest =>
        (q.1 :: rest.1, rest.2.1, r.2 ++ q.2.2 ++ rest.2.2)

/-- `write_out` (quantities.template.h:566-682); `clearing` is "clear statistics on writeout". -/
def State.writeOut (obs : ℕ → S → V × A) (clearing : Bool) (σ : State V A) (t : ℝ) (s : S) (cycle : ℕ) :
    Option (State V A × List (Event V A)) :=
  (writeLoop obs t s cycle 0 σ.manifolds σ.series_cycle).map fun r =>
    let σ' : State V A := ⟨r.1, r.2.1⟩
    (if clearing then σ'.clear else σ', r.2.2)

/-- Calls of the class. (quantities.h:55-92) -/
inductive Op (S : Type)
  | accumulate (t : ℝ) (s : S)
  | writeOut (t : ℝ) (s : S) (cycle : ℕ)
  /-- called before the first time step and again by every mesh adaptation (time_loop.template.h:250-260) -/
  | prepare

/-- One call. (quantities.template.h:91, 495, 566) -/
def State.call (obs : ℕ → S → V × A) (clearing : Bool) (σ : State V A) : Op S → Option (State V A × List (Event V A))
  | .accumulate t s => some (σ.accumulate obs t s, [])
  | .writeOut t s cycle => σ.writeOut obs clearing t s cycle
  | .prepare => some (σ.prepare, [])

/-- A sequence of calls: the state afterwards and all files written, in order. (time_loop.template.h:255, 308-340) -/
def State.calls (obs : ℕ → S → V × A) (clearing : Bool) : State V A → List (Op S) → Option (State V A × List (Event V A))
  | σ, [] => some (σ, [])
  | σ, o :: os => (σ.call obs clearing o).bind fun r =>
      (State.calls obs clearing r.1 os).map fun q => (q.1, r.2 ++ q.2)

/-- The state after the first call of `prepare`, for manifolds with the given options. (quantities.template.h:91-240) -/
def start (options : List Options) : State V A := ⟨options.map fun o => ⟨o, Stat.cleared, []⟩, none⟩

end

end Quantities
end Ryujin
