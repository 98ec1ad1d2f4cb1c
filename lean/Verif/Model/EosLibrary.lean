import Verif.Model.EquationOfState
import Verif.Model.GeoTiff
import Verif.Spec.Formula

/-!
# Model of `euler_aeos/equation_of_state_function.h`, `equation_of_state_library.cc` and of the selection of an equation of
state in `euler_aeos/hyperbolic_system.h`

muParser is the function `Formulas.muParser` of `Spec/Formula`, or any other partial function from variable names and strings
to functions.  Numbers are real numbers.  The tabulated equation of state enters as the four functions it returns
(`Model/Sesame`).
-/

namespace Ryujin
namespace Eos

open GeoTiff (Outcome)

noncomputable section

/-- What muParser makes of a list of variable names and a string; `none`: evaluation throws.
(equation_of_state_function.h:82-93) -/
abbrev MuParser2 := List (List Char) → List Char → Option (List ℝ → ℝ)

/-- The seven parameters of `Function` (equation_of_state_function.h:32-75). -/
structure FunctionParameters where
  pressure : List Char
  specificInternalEnergy : List Char
  temperature : List Char
  speedOfSound : List Char
  b : ℝ
  pinfty : ℝ
  q : ℝ

/-- Members of `Function` (equation_of_state_function.h:119-128, equation_of_state.h:195-207): parameters and parsed
functions. -/
structure UserFunction where
  parameters : FunctionParameters
  p_function : Option (List ℝ → ℝ)
  sie_function : Option (List ℝ → ℝ)
  temperature_function : Option (List ℝ → ℝ)
  sos_function : Option (List ℝ → ℝ)

/-- `"rho,e"`, split at the comma. (equation_of_state_function.h:83, 90, 93) -/
def namesRhoE : List (List Char) := [['r', 'h', 'o'], ['e']]

/-- `"rho,p"`, split at the comma. (equation_of_state_function.h:86) -/
def namesRhoP : List (List Char) := [['r', 'h', 'o'], ['p']]

namespace UserFunction

/-- `set_up_muparser` (equation_of_state_function.h:81-94). -/
def setUp (mu : MuParser2) (q : FunctionParameters) : UserFunction :=
  { parameters := q
    p_function := mu namesRhoE q.pressure
    sie_function := mu namesRhoP q.specificInternalEnergy
    temperature_function := mu namesRhoE q.temperature
    sos_function := mu namesRhoE q.speedOfSound }

/-- Default values of the parameters (equation_of_state_function.h:32, 39, 46, 53; equation_of_state.h:45-57). -/
def defaults : FunctionParameters :=
  { pressure := "(1.4 - 1.0) * rho * e".toList
    specificInternalEnergy := "p / (rho * (1.4 - 1.0))".toList
    temperature := "e / 718.".toList
    speedOfSound := "sqrt(1.4 * (1.4 - 1.0) * e)".toList
    b := 0
    pinfty := 0
    q := 0 }

/-- Constructor (equation_of_state_function.h:29-98). -/
def construct (mu : MuParser2) : UserFunction := setUp mu defaults

/-- Reading a parameter file: all parameters are overwritten, then `set_up_muparser` runs
(equation_of_state_function.h:33-75, 97). -/
def parse (mu : MuParser2) (_s : UserFunction) (q : FunctionParameters) : UserFunction := setUp mu q

/-- `FunctionParser::value` at a point of two coordinates; it throws if the string was not accepted.
(equation_of_state_function.h:102, 107, 112, 117) -/
def evaluate (f : Option (List ℝ → ℝ)) (x y : ℝ) : Outcome ℝ :=
  match f with
  | some g => .ok (g [x, y])
  | none => .exception

/-- `pressure` (equation_of_state_function.h:100-103). -/
def pressure (s : UserFunction) (rho e : ℝ) : Outcome ℝ := evaluate s.p_function rho e

/-- `specific_internal_energy` (equation_of_state_function.h:105-108). -/
def specificInternalEnergy (s : UserFunction) (rho p : ℝ) : Outcome ℝ := evaluate s.sie_function rho p

/-- `temperature` (equation_of_state_function.h:110-113). -/
def temperature (s : UserFunction) (rho e : ℝ) : Outcome ℝ := evaluate s.temperature_function rho e

/-- `speed_of_sound` (equation_of_state_function.h:115-118). -/
def speedOfSound (s : UserFunction) (rho e : ℝ) : Outcome ℝ := evaluate s.sos_function rho e

end UserFunction

/-- The objects of the list (equation_of_state_library.cc:26-41).  `sesame none`: built without EOSPAC. -/
inductive Member
  | function (s : UserFunction)
  | jonesWilkinsLee (s : JonesWilkinsLee)
  | nobleAbelStiffenedGas (s : NobleAbelStiffenedGas)
  | polytropicGas (s : PolytropicGas)
  | sesame (tables : Option Interface)
  | vanDerWaals (s : VanDerWaals)

/-- `EquationOfState::name` (equation_of_state_function.h:30, equation_of_state_jones_wilkins_lee.h:31,
equation_of_state_noble_abel_stiffened_gas.h:28, equation_of_state_polytropic_gas.h:28, equation_of_state_sesame.h:229, 478,
equation_of_state_van_der_waals.h:28). -/
def Member.name : Member → String
  | .function _ => "function"
  | .jonesWilkinsLee _ => "jones wilkins lee"
  | .nobleAbelStiffenedGas _ => "noble abel stiffened gas"
  | .polytropicGas _ => "polytropic gas"
  | .sesame (some _) => "sesame"
  | .sesame none => "Sesame"
  | .vanDerWaals _ => "van der waals"

/-- The four virtual functions and the interpolation constants of an object (equation_of_state.h:72, 101, 136, 166,
195-207).  Without EOSPAC the functions of `Sesame` throw (equation_of_state_sesame.h:487-509). -/
structure Access where
  pressure : ℝ → ℝ → Outcome ℝ
  specificInternalEnergy : ℝ → ℝ → Outcome ℝ
  temperature : ℝ → ℝ → Outcome ℝ
  speedOfSound : ℝ → ℝ → Outcome ℝ
  b : ℝ
  pinfty : ℝ
  q : ℝ

/-- Calls that always return. (equation_of_state.h:72, 101, 136, 166) -/
def Access.of (i : Interface) : Access where
  pressure rho e := .ok (i.pressure rho e)
  specificInternalEnergy rho p := .ok (i.specificInternalEnergy rho p)
  temperature rho e := .ok (i.temperature rho e)
  speedOfSound rho e := .ok (i.speedOfSound rho e)
  b := i.interpolation_b
  pinfty := i.interpolation_pinfty
  q := i.interpolation_q

/-- The object as seen through the base class (equation_of_state.h:35-210). -/
def Member.access : Member → Access
  | .function s =>
    ⟨s.pressure, s.specificInternalEnergy, s.temperature, s.speedOfSound, s.parameters.b, s.parameters.pinfty,
      s.parameters.q⟩
  | .jonesWilkinsLee s => .of s.interface
  | .nobleAbelStiffenedGas s => .of s.interface
  | .polytropicGas s => .of s.interface
  | .sesame (some i) => .of i
  | .sesame none => ⟨fun _ _ => .exception, fun _ _ => .exception, fun _ _ => .exception, fun _ _ => .exception, 0, 0, 0⟩
  | .vanDerWaals s => .of s.interface

/-- The parameters of all equations of state and the choice between them (euler_aeos/hyperbolic_system.h:769-780 and the
constructors of the classes), and the tables of EOSPAC if the program was built with it. -/
structure LibraryParameters where
  equationOfState : String
  function : FunctionParameters
  jonesWilkinsLee : JonesWilkinsLee
  nobleAbel : NobleAbelStiffenedGas
  polytropic : PolytropicGas
  tables : Option Interface
  vanDerWaals : VanDerWaals

/-- `populate_equation_of_state_list` (equation_of_state_library.cc:26-41), after all objects have read their parameters. -/
def eosList (mu : MuParser2) (q : LibraryParameters) : List Member :=
  [.function (UserFunction.setUp mu q.function), .jonesWilkinsLee q.jonesWilkinsLee, .nobleAbelStiffenedGas q.nobleAbel,
    .polytropicGas q.polytropic, .sesame q.tables, .vanDerWaals q.vanDerWaals]

/-- `populate_functions` (euler_aeos/hyperbolic_system.h:812-833): the first object of the given name.  The list is a set
ordered by addresses, hence an argument here. -/
def selectEos (list : List Member) (equationOfState : String) : Outcome Member :=
  match list.find? (fun it => it.name = equationOfState) with
  | some it => .ok it
  | none => .exception

/-- `eos_pressure`, `eos_specific_internal_energy`, `eos_temperature` and `eos_speed_of_sound` for vectorised numbers
(euler_aeos/hyperbolic_system.h:178-252): one call per lane, in this order. -/
def lanes (f : ℝ → ℝ → Outcome ℝ) : List ℝ → List ℝ → Outcome (List ℝ)
  | x :: xs, y :: ys =>
    match f x y with
    | .ok v =>
      match lanes f xs ys with
      | .ok vs => .ok (v :: vs)
      | .ub => .ub
      | .exception => .exception
    | .ub => .ub
    | .exception => .exception
  | _, _ => .ok []

end

end Eos
end Ryujin
