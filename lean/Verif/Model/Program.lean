import Verif.Model.Configuration

/-!
# Model of the start of the program

`source/main.cc` and the parts of `source/equation_dispatch.h` not in `Model/Configuration`: command line, parameter files, template
parameter files, several MPI ranks with a common file system.

Not modelled: thread limits, rounding mode, output on the screen.  Of `dealii::ParameterHandler` and `dealii::ParameterAcceptor` only
declaring, setting, reading and printing entries is modelled; patterns are not, except that the dimension has to be an integer.
-/

namespace Ryujin
namespace Program

open Configuration

/-- Section and name of an entry of a parameter file. (equation_dispatch.h:36-43) -/
abbrev Key := String × String

/-- `ParameterAcceptor::prm`: the declared entries in the order of their declaration, with their values; also the content of a
parameter file. (equation_dispatch.h:176) -/
abbrev Prm := List (Key × String)

/-- `prm.set` of a declared entry. (equation_dispatch.h:200-201) -/
def assign (prm : Prm) (k : Key) (v : String) : Prm := prm.map fun e => if e.1 = k then (k, v) else e

/-- `prm.declare_entry`: declaring an entry again resets its value. (equation_dispatch.h:178, 193-199) -/
def declare (prm : Prm) (k : Key) (v : String) : Prm :=
  if k ∈ prm.map Prod.fst then assign prm k v else prm ++ [(k, v)]

/-- Constructors of classes derived from `ParameterAcceptor` declare their parameters. (equation_dispatch.h:36-43, 185-186) -/
def declareAll (prm : Prm) (entries : List (Key × String)) : Prm := entries.foldl (fun p e => declare p e.1 e.2) prm

/-- `prm.get`. (equation_dispatch.h:79-82) -/
def value (prm : Prm) (k : Key) : Option String := prm.lookup k

/-- `prm.parse_input(file, "", skip_undefined)` (equation_dispatch.h:79-82; with `skip_undefined = false` in
`ParameterAcceptor::initialize`, equation_dispatch.h:272); `none` is an exception. -/
def parse (skip : Bool) : Prm → Prm → Option Prm
  | prm, [] => some prm
  | prm, (k, v) :: rest =>
    if k ∈ prm.map Prod.fst then parse skip (assign prm k v) rest
    else if skip then parse skip prm rest
    else none

/-- The entry `dimension`. (equation_dispatch.h:37-40) -/
def dimensionKey : Key := ("B - Equation", "dimension")

/-- The entry `equation`. (equation_dispatch.h:37-41) -/
def equationKey : Key := ("B - Equation", "equation")

/-- The entries declared by the constructor of `EquationDispatch`. (equation_dispatch.h:36-44) -/
def dispatchEntries : List (Key × String) := [(dimensionKey, "0"), (equationKey, "")]

/-- The executable: names of the drivers in the order of registration, the entries with default values declared by the constructor of
`TimeLoop` of driver `k` in dimension `d`, and whether its `run` returns normally for the given parameters.
(equation_dispatch.h:235-291) -/
structure Setup where
  registered : List String
  decl : ℕ → ℤ → List (Key × String)
  completes : ℕ → ℤ → Prm → Bool

/-- The parameters a time loop sees: `TimeLoop time_loop(...); ParameterAcceptor::initialize(parameter_file);`, starting with the entries
`prm` as they are after the first reading of the file. (equation_dispatch.h:270-285) -/
def loopPrm (S : Setup) (k : ℕ) (d : ℤ) (prm file : Prm) : Option Prm := parse false (declareAll prm (S.decl k d)) file

/-- The value of `dimension_`: an integer in decimal notation; anything else violates the pattern of the entry. (equation_dispatch.h:39-40) -/
def readInt (s : String) : Option ℤ :=
  let digits (l : List Char) : Option ℕ :=
    if l ≠ [] ∧ l.all Char.isDigit then some (l.foldl (fun n c => 10 * n + (c.toNat - '0'.toNat)) 0) else none
  match s.toList with
  | '-' :: l => (digits l).map fun n => -(n : ℤ)
  | l => (digits l).map fun n => (n : ℤ)

/-- `EquationDispatch equation_dispatch; equation_dispatch.dispatch(parameter_file, ...)`. (main.cc:117-120, equation_dispatch.h:77-103).
A time loop whose parameters cannot be read counts as one that does not complete. -/
def dispatchFile (S : Setup) (file : Prm) : Dispatched :=
  match parse true (declareAll [] dispatchEntries) file with
  | none => .error []
  | some prm =>
    match (value prm dimensionKey).bind readInt, value prm equationKey with
    | some d, some equation =>
      dispatch (fun k d => match loopPrm S k d prm file with | none => false | some p => S.completes k d p) S.registered d equation false
    | _, _ => .error []

/-- `std::replace(..., ' ', '_')`. (equation_dispatch.h:204-205) -/
def baseName (name : String) : String := String.ofList (name.toList.map fun c => if c = ' ' then '_' else c)

/-- Names of the template files. (equation_dispatch.h:204-206, 209-210, 216) -/
def templateName (name : String) (dim : ℕ) (description : Bool) : String :=
  "default_parameters-" ++ (baseName name ++ "-" ++ toString dim ++ "d") ++ (if description then "-description.prm" else ".prm")

/-- `create_prm_files<Description, dim, Number>(name, write_detailed_description)` (equation_dispatch.h:167-228): the files in the order
in which they are written, and the entries declared afterwards.  `decl` are the entries of the time loop. -/
def createPrmFiles (decl : List (Key × String)) (name : String) (dim : ℕ) (write_detailed_description : Bool) (prm : Prm) :
    List (String × Prm) × Prm :=
  let prm := declare prm ("A - TimeLoop", "basename") "test"
  let prm := declareAll prm dispatchEntries
  let prm := declareAll prm decl
  let prm := declare prm dimensionKey (toString dim)
  let prm := declare prm equationKey name
  let prm := assign prm dimensionKey (toString dim)
  let prm := assign prm equationKey name
  ((if write_detailed_description then [(templateName name dim true, prm)] else []) ++ [(templateName name dim false, prm)],
    -- ParameterAcceptor::clear()
    [])

/-- The callback registered by `Dispatch(name)`. (equation_dispatch.h:244-248) -/
def createCallback (S : Setup) (k : ℕ) (name : String) (prm : Prm) : List (String × Prm) × Prm :=
  let r1 := createPrmFiles (S.decl k 1) name 1 false prm
  let r2 := createPrmFiles (S.decl k 2) name 2 true r1.2
  let r3 := createPrmFiles (S.decl k 3) name 3 false r2.2
  (r1.1 ++ r2.1 ++ r3.1, r3.2)

/-- `signals->create_parameter_files()`: the callbacks in the order of registration. (equation_dispatch.h:50-58) -/
def createFrom (S : Setup) : ℕ → List String → Prm → List (String × Prm)
  | _, [], _ => []
  | k, name :: rest, prm =>
    let r := createCallback S k name prm
    r.1 ++ createFrom S (k + 1) rest r.2

/-- `create_parameter_files()` (equation_dispatch.h:50-58), with an empty `ParameterAcceptor::prm`. -/
def templates (S : Setup) : List (String × Prm) := createFrom S 0 S.registered []

/-- The file system: names and contents. (main.cc:90, 103) -/
abbrev Files := String → Option Prm

/-- `std::filesystem::path(argv[0]).filename().string()`. (main.cc:84) -/
def fileName (path : String) : String := String.ofList (path.toList.reverse.takeWhile (· ≠ '/')).reverse

/-- `parameter_file` (main.cc:84-88); `argv` includes the name of the program. -/
def parameterFile : List String → String
  | _ :: file :: _ => file
  | [program] => fileName program ++ ".prm"
  | [] => ".prm"

/-- How `main` ends on a rank: with `return 1`, or after the dispatch (`return 0` or an exception). (main.cc:80, 99, 114, 117-124) -/
inductive Ending
  | failed
  | dispatched (d : Dispatched)

/-- Where a rank is. (main.cc:59-125) -/
inductive Phase
  | start
  /-- in front of `equation_dispatch.dispatch` (main.cc:118) -/
  | ready (file : String)
  /-- in `create_parameter_files` with these files left (main.cc:108) -/
  | writing (rest : List (String × Prm))
  /-- in `MPI_Barrier` (main.cc:111) -/
  | barrier
  | done (e : Ending)

/-- From the beginning of `main` to the first writing, waiting or returning statement (main.cc:59-118).  `create_parameter_files` throws if
nothing is registered. -/
def afterCheck (S : Setup) (argv : List String) (root : Bool) (fs : Files) : Phase :=
  if argv.length > 2 then .done .failed
  else if argv.length = 2 ∧ (fs (parameterFile argv)).isNone then .done .failed
  else if (fs (parameterFile argv)).isNone then
    if root then (if S.registered = [] then .done (.dispatched (.error [])) else .writing (templates S))
    else .barrier
  else .ready (parameterFile argv)

/-- All ranks and the common file system. (main.cc:59-125) -/
structure World (R : Type) where
  fs : Files
  phase : R → Phase

open Classical in
/-- The ranks run independently of each other except for the barrier (main.cc:59-125); `zero` is the first rank.  A rank reads the
parameter file in one step (the code reads it twice); what happens in the time loops, where the ranks communicate, is part of
`dispatchFile`. -/
inductive Step {R : Type} (S : Setup) (argv : List String) (zero : R) : World R → World R → Prop
  | check (w : World R) (r : R) (h : w.phase r = .start) :
      Step S argv zero w { w with phase := Function.update w.phase r (afterCheck S argv (decide (r = zero)) w.fs) }
  | write (w : World R) (r : R) (f : String) (c : Prm) (rest : List (String × Prm)) (h : w.phase r = .writing ((f, c) :: rest)) :
      Step S argv zero w { fs := Function.update w.fs f (some c), phase := Function.update w.phase r (.writing rest) }
  | written (w : World R) (r : R) (h : w.phase r = .writing []) :
      Step S argv zero w { w with phase := Function.update w.phase r .barrier }
  | leave (w : World R) (h : ∀ r, w.phase r = .barrier) :
      Step S argv zero w { w with phase := fun _ => .done .failed }
  | run (w : World R) (r : R) (f : String) (c : Prm) (h : w.phase r = .ready f) (hc : w.fs f = some c) :
      Step S argv zero w { w with phase := Function.update w.phase r (.done (.dispatched (dispatchFile S c))) }

end Program
end Ryujin
