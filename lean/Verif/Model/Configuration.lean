import Verif.Model.TimeIntegrator

/-!
# Model of the run-time configuration code

`source/equation_dispatch.h`, `source/patterns_conversion.h` with the tables of `source/time_integrator.h`,
`source/mesh_adaptor.h`, `source/discretization.h`, and `source/selected_components_extractor.h`.
-/

namespace Ryujin
namespace Configuration

/-! ### Equation dispatch -/

/-- A time loop that was started: position of the driver in the order of registration, and dimension. (equation_dispatch.h:250-290) -/
structure Run where
  driver : ℕ
  dimension : ℤ
  deriving DecidableEq

/-- How `EquationDispatch::dispatch` ends: the time loops started so far, and either an exception or a normal
return (with the value of `time_loop_executed_`). (equation_dispatch.h:77-106) -/
inductive Dispatched
  | error (ran : List Run)
  | ok (ran : List Run)

/-- The time loops that were started. (equation_dispatch.h:77-106) -/
def Dispatched.runs : Dispatched → List Run
  | .error ran => ran
  | .ok ran => ran

/-- The callbacks registered by `Dispatch(name)` (equation_dispatch.h:250-287), called in the order of
registration (`boost::signals2::signal`); an exception ends the sequence.  `k` is the position of the first
remaining callback; `completes k d` says whether `TimeLoop::run` of driver `k` in dimension `d` returns normally
(it may throw).  Returns `none` after an exception, otherwise `time_loop_executed`. -/
def callbacks (completes : ℕ → ℤ → Bool) (dimension : ℤ) (equation : String) :
    ℕ → List String → List Run → Bool → List Run × Option Bool
  | _, [], ran, executed => (ran, some executed)
  | k, name :: rest, ran, executed =>
    if equation ≠ name then callbacks completes dimension equation (k + 1) rest ran executed
    else if executed then (ran, none)
    else if dimension = 1 ∨ dimension = 2 ∨ dimension = 3 then
      if completes k dimension then
        callbacks completes dimension equation (k + 1) rest (ran ++ [⟨k, dimension⟩]) true
      else (ran ++ [⟨k, dimension⟩], none)
    else callbacks completes dimension equation (k + 1) rest ran executed

/-- The `AssertThrow(time_loop_executed_ == true)` after the callbacks (equation_dispatch.h:98-102). -/
def conclude : List Run × Option Bool → Dispatched
  | (ran, some true) => .ok ran
  | (ran, some false) => .error ran
  | (ran, none) => .error ran

/-- `EquationDispatch::dispatch` (equation_dispatch.h:77-103) with the parameters read from the parameter file.
`registered` are the names of all drivers linked into the executable (`signals == nullptr` iff there are
none); `executed` is `time_loop_executed_` before the call, false for a new object. -/
def dispatch (completes : ℕ → ℤ → Bool) (registered : List String) (dimension : ℤ) (equation : String)
    (executed : Bool) : Dispatched :=
  if ¬ (dimension ≥ 1 ∧ dimension ≤ 3) then .error []
  else if registered = [] then .error []
  else
    conclude (callbacks completes dimension equation 0 registered [] executed)

/-- The drivers in the repository (`*/equation_dispatch.cc:15`); their order depends on the linker. -/
def drivers : List String :=
  ["navier stokes", "skeleton", "scalar conservation", "euler aeos", "shallow water", "euler"]

/-! ### Enumerations as strings -/

/-- `conversion_table` (patterns_conversion.h:84-92). -/
abbrev Table (T : Type) := List (T × String)

/-- `to_pattern` (patterns_conversion.h:32-39): the argument of `Patterns::Selection`. -/
def toPattern {T : Type} (table : Table T) : List Char :=
  table.foldl (fun s it => if s = [] then it.2.toList else s ++ '|' :: it.2.toList) []

/-- The alternatives of a selection string. (patterns_conversion.h:32-39) -/
def alternatives : List Char → List (List Char)
  | [] => [[]]
  | c :: cs =>
    if c = '|' then [] :: alternatives cs
    else match alternatives cs with
      | [] => [[c]]
      | w :: ws => (c :: w) :: ws

/-- `Patterns::Selection(sequence).match(s)` of deal.II: `s` is one of the alternatives separated by `|` (the
removal of blanks next to a bar is left out: the tables have none). -/
def selectionMatch (sequence s : List Char) : Bool := decide (s ∈ alternatives sequence)

/-- `to_string` (patterns_conversion.h:41-54); `none` is the exception "incomplete conversion table". -/
def toString' {T : Type} [DecidableEq T] (table : Table T) (t : T) : Option String :=
  (table.find? fun it => it.1 = t).map Prod.snd

/-- `to_value` (patterns_conversion.h:56-71); `none` is an exception. -/
def toValue {T : Type} (table : Table T) (s : String) : Option T :=
  if selectionMatch (toPattern table) s.toList then (table.find? fun it => it.2 = s).map Prod.fst
  else none

/-- `CFLRecoveryStrategy` (time_integrator.h:25-39). -/
inductive CFLRecoveryStrategy
  | none | bang_bang_control
  deriving DecidableEq

/-- time_integrator.h:210-213 -/
def cflTable : Table CFLRecoveryStrategy :=
  [(.none, "none"), (.bang_bang_control, "bang bang control")]

/-- time_integrator.h:215-229 -/
def schemeTable : Table Integrator.Scheme :=
  [(.ssprk_22, "ssprk 22"), (.ssprk_33, "ssprk 33"), (.erk_11, "erk 11"), (.erk_22, "erk 22"),
    (.erk_33, "erk 33"), (.erk_43, "erk 43"), (.erk_54, "erk 54"),
    (.strang_ssprk_33_cn, "strang ssprk 33 cn"), (.strang_erk_33_cn, "strang erk 33 cn"),
    (.strang_erk_43_cn, "strang erk 43 cn"), (.imex_11, "imex 11"), (.imex_22, "imex 22"),
    (.imex_33, "imex 33")]

/-- `AdaptationStrategy` (mesh_adaptor.h:20-34). -/
inductive AdaptationStrategy
  | global_refinement | random_adaptation
  deriving DecidableEq

/-- mesh_adaptor.h:64-68 -/
def adaptationTable : Table AdaptationStrategy :=
  [(.global_refinement, "global refinement"), (.random_adaptation, "random adaptation")]

/-- `MarkingStrategy` (mesh_adaptor.h:43-48). -/
inductive MarkingStrategy
  | fixed_number
  deriving DecidableEq

/-- mesh_adaptor.h:70-71 -/
def markingTable : Table MarkingStrategy := [(.fixed_number, "fixed number")]

/-- `TimePointSelectionStrategy` (mesh_adaptor.h:55-60). -/
inductive TimePointSelectionStrategy
  | fixed_adaptation_time_points
  deriving DecidableEq

/-- mesh_adaptor.h:73-76 -/
def timePointTable : Table TimePointSelectionStrategy :=
  [(.fixed_adaptation_time_points, "fixed adaptation time points")]

/-- `Boundary` (discretization.h:48-123). -/
inductive Boundary
  | do_nothing | periodic | slip | no_slip | dirichlet | dynamic | dirichlet_momentum
  deriving DecidableEq

/-- discretization.h:156-164 -/
def boundaryTable : Table Boundary :=
  [(.do_nothing, "do nothing"), (.periodic, "periodic"), (.slip, "slip"), (.no_slip, "no slip"),
    (.dirichlet, "dirichlet"), (.dynamic, "dynamic"), (.dirichlet_momentum, "dirichlet momentum")]

/-- `Ansatz` (discretization.h:131-152). -/
inductive Ansatz
  | cg_q1 | cg_q2 | cg_q3 | dg_q0 | dg_q1 | dg_q2 | dg_q3
  deriving DecidableEq

/-- discretization.h:166-173 -/
def ansatzTable : Table Ansatz :=
  [(.cg_q1, "cG Q1"), (.cg_q2, "cG Q2"), (.cg_q3, "cG Q3"), (.dg_q0, "dG Q0"), (.dg_q1, "dG Q1"),
    (.dg_q2, "dG Q2"), (.dg_q3, "dG Q3")]

/-! ### Selected components -/

/-- The name lists of a `HyperbolicSystemView`. (selected_components_extractor.h:33-37) -/
structure Names where
  conserved : List String
  primitive : List String
  precomputed : List String
  initial : List String

/-- The index pairs recorded by `extract` (selected_components_extractor.h:60-64) and the counter `i`. -/
structure Indices where
  conserved : List (ℕ × ℕ) := []
  primitive : List (ℕ × ℕ) := []
  precomputed : List (ℕ × ℕ) := []
  initial : List (ℕ × ℕ) := []
  alpha : List ℕ := []
  i : ℕ := 0

/-- `check` (selected_components_extractor.h:25-48): true if no exception is thrown. -/
def check (names : Names) (selected : List String) : Bool :=
  selected.all fun entry => decide (entry ∈ names.conserved) || decide (entry ∈ names.primitive) ||
    decide (entry ∈ names.precomputed) || decide (entry ∈ names.initial) || decide (entry = "alpha")

/-- One iteration of the matching loop (selected_components_extractor.h:66-89); `none` is the exception. -/
def record (names : Names) (st : Indices) (entry : String) : Option Indices :=
  if entry ∈ names.conserved then
    some { st with conserved := st.conserved ++ [(st.i, names.conserved.idxOf entry)], i := st.i + 1 }
  else if entry ∈ names.primitive then
    some { st with primitive := st.primitive ++ [(st.i, names.primitive.idxOf entry)], i := st.i + 1 }
  else if entry ∈ names.precomputed then
    some { st with precomputed := st.precomputed ++ [(st.i, names.precomputed.idxOf entry)], i := st.i + 1 }
  else if entry ∈ names.initial then
    some { st with initial := st.initial ++ [(st.i, names.initial.idxOf entry)], i := st.i + 1 }
  else if entry = "alpha" then some { st with alpha := st.alpha ++ [st.i], i := st.i + 1 }
  else none

/-- The matching loop. (selected_components_extractor.h:66-89) -/
def recordAll (names : Names) : Indices → List String → Option Indices
  | st, [] => some st
  | st, entry :: rest => (record names st entry).bind fun st' => recordAll names st' rest

/-- The data read by `extract`: component `k` at a locally owned degree of freedom.  `V` is the type of the values
of one component over all locally owned degrees of freedom.  The component-wise copies are the subject of
C27; the primitive ones are computed by `to_primitive_state` node by node. (selected_components_extractor.h:48-52) -/
structure Sources (V : Type) where
  conserved : ℕ → V
  primitive : ℕ → V
  precomputed : ℕ → V
  initial : ℕ → V
  alpha : V

/-- Assignments `extracted_components[i] = source(k)` in turn. (selected_components_extractor.h:96-123) -/
def assign {V : Type} (source : ℕ → V) (pairs : List (ℕ × ℕ)) (out : ℕ → V) : ℕ → V :=
  pairs.foldl (fun out p => Function.update out p.1 (source p.2)) out

/-- `extract` (selected_components_extractor.h:47-126): the returned vector of components as a function of the
position, `zero` where nothing is assigned. -/
def extract {V : Type} (names : Names) (src : Sources V) (zero : V) (selected : List String) : Option (ℕ → V) :=
  (recordAll names {} selected).map fun ix =>
    let out : ℕ → V := fun _ => zero
    let out := assign src.conserved ix.conserved out
    let out := assign src.primitive ix.primitive out
    let out := assign src.precomputed ix.precomputed out
    let out := assign src.initial ix.initial out
    ix.alpha.foldl (fun out i => Function.update out i src.alpha) out

end Configuration
end Ryujin
