import Verif.Model.EquationOfState

/-!
# Model of `source/euler_aeos/equation_of_state_sesame.h`

The tabulated equation of state.  The external library EOSPAC is represented by what it answers: whether the creation, the
option and the loading of a table succeed, the interpolated value of a loaded table, and the error code of an interpolation.
The derivatives returned by the library are never used and left out.
-/

namespace Ryujin
namespace Eos
namespace Sesame

noncomputable section

/-- `eospac::TableType` (equation_of_state_sesame.h:42-53): pressure [GPa] as a function of density [Mg/m^3] and specific
internal energy [MJ/kg]; specific internal energy [MJ/kg] as a function of density [Mg/m^3] and pressure [GPa]. -/
inductive TableType
  | p_rho_e
  | e_rho_p
  deriving DecidableEq

/-- What EOSPAC knows about a table: a material and a type (equation_of_state_sesame.h:66-77). -/
abbrev Table := ℤ × TableType

/-- The external library, as far as it is called (equation_of_state_sesame.h:84-88, 95-96, 102, 139-146): success of
`eos_CreateTables`, `eos_SetOption`, `eos_LoadTables` for a table, the value of `eos_Interpolate`, and whether its error code
is `EOS_OK`. -/
structure Library where
  createOk : Table → Bool
  optionOk : Table → Bool
  loadOk : Table → Bool
  value : Table → ℝ → ℝ → ℝ
  inTable : Table → ℝ → ℝ → Bool

/-- Ways in which a call does not return: exceptions with the text of the code, and undefined behaviour. -/
inductive Failure
  | noDirectoryFile
  | createTables (i : ℕ)
  | setOption (i : ℕ)
  | loadTables (i : ℕ)
  | notImplemented
  | undefined
  deriving DecidableEq

/-- `check_tables` and `check_error_code` (equation_of_state_sesame.h:163-181, 183-199) for the tables from index `i` on: the
first table in error throws. -/
def check (ok : Table → Bool) (failure : ℕ → Failure) : ℕ → List Table → Except Failure Unit
  | _, [] => .ok ()
  | i, t :: ts => if ok t then check ok failure (i + 1) ts else .error (failure i)

/-- Constructor of `eospac::Interface` (equation_of_state_sesame.h:64-104). -/
def interface (lib : Library) (tables : List Table) : Except Failure (List Table) := do
  check lib.createOk .createTables 0 tables
  check lib.optionOk .setOption 0 tables
  check lib.loadOk .loadTables 0 tables
  return tables

/-- `interpolate_values` (equation_of_state_sesame.h:116-147): the error code of the library is not looked at.  An index
outside of the range is only checked in debug mode. -/
def interpolateValues (lib : Library) (handles : List Table) (index : ℕ) (X Y : List ℝ) : Except Failure (List ℝ) :=
  match handles[index]? with
  | none => .error .undefined
  | some t => .ok (List.zipWith (lib.value t) X Y)

/-- Members of `Sesame`: material id, and the interface once it has been set up (equation_of_state_sesame.h:451-452,
459). -/
structure Object where
  material : ℤ
  database : Option (List Table)

/-- Constructor (equation_of_state_sesame.h:224-232). -/
def construct : Object := ⟨5030, none⟩

/-- Parsing a parameter file (equation_of_state_sesame.h:228-229). -/
def parse (s : Object) (material : ℤ) : Object := { s with material := material }

/-- `set_up_database` (equation_of_state_sesame.h:432-449).  `file` says whether `sesameFilesDir.txt` exists. -/
def setUpDatabase (lib : Library) (file : Bool) (material : ℤ) : Except Failure (List Table) :=
  if file then interface lib [(material, .p_rho_e), (material, .e_rho_p)] else .error .noDirectoryFile

/-- The guard at the beginning of every function (equation_of_state_sesame.h:237-240, 266-269, …; lazy.h:119-148): the database
is set up by the first call that reaches the end of `set_up_database`. -/
def ensure (lib : Library) (file : Bool) (s : Object) : Except Failure (Object × List Table) :=
  match s.database with
  | some d => .ok (s, d)
  | none => do
    let d ← setUpDatabase lib file s.material
    return ({ s with database := some d }, d)

/-- What a call returns together with the object behind it: an exception leaves the object as it was. -/
def finish {α : Type} (s : Object) : Except Failure (Object × α) → Object × Except Failure α
  | .ok (s', a) => (s', .ok a)
  | .error f => (s, .error f)

/-- `double pressure(rho, e)` (equation_of_state_sesame.h:235-257). -/
def pressure (lib : Library) (file : Bool) (s : Object) (rho e : ℝ) : Object × Except Failure ℝ :=
  finish s do
    let (s', d) ← ensure lib file s
    let p ← interpolateValues lib d 0 [rho / 1000] [e / 1000000]
    match p with
    | [p] => return (s', 1000000000 * p)
    | _ => .error .undefined

/-- `double specific_internal_energy(rho, p)` (equation_of_state_sesame.h:310-332). -/
def specificInternalEnergy (lib : Library) (file : Bool) (s : Object) (rho p : ℝ) : Object × Except Failure ℝ :=
  finish s do
    let (s', d) ← ensure lib file s
    let e ← interpolateValues lib d 1 [rho / 1000] [p / 1000000000]
    match e with
    | [e] => return (s', 1000000 * e)
    | _ => .error .undefined

/-- Contents of the three arrays after a call of a variant for arrays: result, first and second argument. -/
structure Arrays where
  result : List ℝ
  first : List ℝ
  second : List ℝ

/-- `void pressure(p, rho, e)` (equation_of_state_sesame.h:260-307): the arguments are converted in place. -/
def pressureArray (lib : Library) (file : Bool) (s : Object) (rho e : List ℝ) : Object × Except Failure Arrays :=
  finish s do
    let (s', d) ← ensure lib file s
    let rho' := rho.map (· / 1000)
    let e' := e.map (· / 1000000)
    let p ← interpolateValues lib d 0 rho' e'
    return (s', ⟨p.map (· * 1000000000), rho', e'⟩)

/-- `void specific_internal_energy(e, rho, p)` (equation_of_state_sesame.h:335-383). -/
def specificInternalEnergyArray (lib : Library) (file : Bool) (s : Object) (rho p : List ℝ) :
    Object × Except Failure Arrays :=
  finish s do
    let (s', d) ← ensure lib file s
    let rho' := rho.map (· / 1000)
    let p' := p.map (· / 1000000000)
    let e ← interpolateValues lib d 1 rho' p'
    return (s', ⟨e.map (· * 1000000), rho', p'⟩)

/-- `temperature` and `speed_of_sound`, all variants (equation_of_state_sesame.h:388-425): the guard, then an exception.  (The
database set up by the guard remains.) -/
def notImplemented (lib : Library) (file : Bool) (s : Object) : Object × Except Failure ℝ :=
  match ensure lib file s with
  | .ok (s', _) => (s', .error .notImplemented)
  | .error f => (s, .error f)

/-- A call of one of the functions, or a change of the surroundings: parameters are parsed, `sesameFilesDir.txt` is created
or removed (equation_of_state_sesame.h:235-425). -/
inductive Event
  | parse (material : ℤ)
  | file (present : Bool)
  | pressure (rho e : ℝ)
  | energy (rho p : ℝ)
  | pressureArray (rho e : List ℝ)
  | energyArray (rho p : List ℝ)
  | temperature (rho e : ℝ)
  | speedOfSound (rho e : ℝ)

/-- Object and file system after an event (equation_of_state_sesame.h:235-425). -/
def after (lib : Library) (st : Object × Bool) : Event → Object × Bool
  | .parse m => (parse st.1 m, st.2)
  | .file b => (st.1, b)
  | .pressure rho e => ((pressure lib st.2 st.1 rho e).1, st.2)
  | .energy rho p => ((specificInternalEnergy lib st.2 st.1 rho p).1, st.2)
  | .pressureArray rho e => ((pressureArray lib st.2 st.1 rho e).1, st.2)
  | .energyArray rho p => ((specificInternalEnergyArray lib st.2 st.1 rho p).1, st.2)
  | .temperature _ _ => ((notImplemented lib st.2 st.1).1, st.2)
  | .speedOfSound _ _ => ((notImplemented lib st.2 st.1).1, st.2)

/-- State after a history of events, starting with a new object. -/
def history (lib : Library) (file : Bool) (h : List Event) : Object × Bool := h.foldl (after lib) (construct, file)

/-- `cycle == 0` of `precomputation_loop` for an equation of state that prefers arrays, the values of density and energy of
all rows (euler_aeos/hyperbolic_system.h:882-898): the arrays are filled anew before every call. -/
def precomputedPressures (lib : Library) (file : Bool) (s : Object) (rho e : List ℝ) : Object × Except Failure (List ℝ) :=
  let r := pressureArray lib file s rho e
  (r.1, r.2.map (·.result))

end

end Sesame
end Eos
end Ryujin
