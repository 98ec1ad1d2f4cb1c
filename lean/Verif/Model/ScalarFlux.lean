import Verif.Model.Scalar
import Verif.Model.GeoTiff

/-!
# Model of the flux library of the scalar conservation equation and of the precomputed fluxes

`source/scalar_conservation/flux_library.cc`, `flux_burgers.h`, `flux_kpp.h`, `flux_function.h` and the selection of a flux
and the precomputation in `source/scalar_conservation/hyperbolic_system.h`.

muParser is represented by a partial function from strings to real functions; a string that it does not accept makes the
evaluation throw.  `dealii::FunctionParser::gradient` is the central difference quotient of `AutoDerivativeFunction` (formula
`Euler`, the default).  `Number` is `ℝ`.
-/

namespace Ryujin
namespace Scalar

open GeoTiff (Outcome)

noncomputable section

/-- `boost::split(split_expressions, expression_, boost::is_any_of(";"))` (scalar_conservation/flux_function.h:53): empty
components are kept. -/
def splitExpressions (expression : List Char) : List (List Char) := expression.splitOn ';'

/-- What muParser makes of a string with the variable `u`; `none`: evaluation throws.
(scalar_conservation/flux_function.h:61-63) -/
abbrev MuParser := List Char → Option (ℝ → ℝ)

/-- Run-time parameters of the flux (scalar_conservation/hyperbolic_system.h:515-519, flux_function.h:34-46). -/
structure FluxParameters where
  flux : String
  expression : List Char
  delta : ℝ

/-- The objects of the library (scalar_conservation/flux_library.cc:23-32) after their call backs: the function flux holds
its components and the step size of the difference quotient (flux_function.h:51-69). -/
inductive LibraryFlux
  | burgers
  | function (components : List (Option (ℝ → ℝ))) (delta : ℝ)
  | kpp

/-- `Flux::name` (scalar_conservation/flux_burgers.h:25, flux_function.h:32, flux_kpp.h:25). -/
def LibraryFlux.name : LibraryFlux → String
  | .burgers => "burgers"
  | .function _ _ => "function"
  | .kpp => "kpp"

/-- `set_up_muparser` (scalar_conservation/flux_function.h:51-69): one component per part of the expression.  The number of
parts is only checked in debug builds. -/
def setUpMuparser (mu : MuParser) (q : FluxParameters) : LibraryFlux :=
  .function ((splitExpressions q.expression).map mu) q.delta

/-- `populate_flux_list` (scalar_conservation/flux_library.cc:23-32). -/
def fluxList (mu : MuParser) (q : FluxParameters) : List LibraryFlux := [.burgers, setUpMuparser mu q, .kpp]

/-- `populate_functions` (scalar_conservation/hyperbolic_system.h:527-548): the first object of the given name.  The list is
a set ordered by addresses, hence an argument here. -/
def selectFlux (list : List LibraryFlux) (flux : String) : Outcome LibraryFlux :=
  match list.find? (fun it => it.name = flux) with
  | some it => .ok it
  | none => .exception

/-- `value` (scalar_conservation/flux_burgers.h:31-35, flux_kpp.h:31-44, flux_function.h:76-80): a component beyond the
number of expressions is an access out of bounds. -/
def LibraryFlux.value (fl : LibraryFlux) (u : ℝ) (direction : ℕ) : Outcome ℝ :=
  match fl with
  | .burgers => .ok ((1 / 2) * u * u)
  | .kpp =>
    match direction with
    | 0 => .ok (Real.sin u)
    | 1 => .ok (Real.cos u)
    | _ => .exception
  | .function components _ =>
    match components[direction]? with
    | some (some f) => .ok (f u)
    | some none => .exception
    | none => .ub

/-- `gradient` (scalar_conservation/flux_burgers.h:38-42, flux_kpp.h:47-60, flux_function.h:83-87): for the function flux the
central difference quotient. -/
def LibraryFlux.gradient (fl : LibraryFlux) (u : ℝ) (direction : ℕ) : Outcome ℝ :=
  match fl with
  | .burgers => .ok u
  | .kpp =>
    match direction with
    | 0 => .ok (Real.cos u)
    | 1 => .ok (-Real.sin u)
    | _ => .exception
  | .function components delta =>
    match components[direction]? with
    | some (some f) => .ok ((f (u + delta) - f (u - delta)) / (2 * delta))
    | some none => .exception
    | none => .ub

/-- `derivative_approximation_delta` (scalar_conservation/flux.h:40-44, flux_function.h:42-46); `eps` is the machine
epsilon. -/
def LibraryFlux.delta (eps : ℝ) : LibraryFlux → ℝ
  | .function _ delta => delta
  | _ => 10000 * eps

/-- The function flux as seen by the solver if every component exists: values of the components and their central
difference quotients. (scalar_conservation/flux_function.h:76-87) -/
def functionFlux {dim : ℕ} (f : Fin dim → ℝ → ℝ) (delta : ℝ) : Flux dim where
  value u k := f k u
  gradient u k := (f k (u + delta) - f k (u - delta)) / (2 * delta)
  delta := delta

/-- The loop over the directions in `flux_function` and `flux_gradient_function`: the first direction that fails decides.
(scalar_conservation/hyperbolic_system.h:560-568, 583-591) -/
def directions : (n : ℕ) → (ℕ → Outcome ℝ) → Outcome (Vec n)
  | 0, _ => .ok Fin.elim0
  | n + 1, f =>
    match directions n f with
    | .ok v =>
      match f n with
      | .ok x => .ok (Fin.snoc v x)
      | .exception => .exception
      | .ub => .ub
    | .exception => .exception
    | .ub => .ub

/-- `flux_function` (scalar_conservation/hyperbolic_system.h:551-571), one lane. -/
def evalFlux (dim : ℕ) (fl : LibraryFlux) (u : ℝ) : Outcome (Vec dim) := directions dim (fl.value u)

/-- `flux_gradient_function` (scalar_conservation/hyperbolic_system.h:574-595), one lane. -/
def evalFluxGradient (dim : ℕ) (fl : LibraryFlux) (u : ℝ) : Outcome (Vec dim) := directions dim (fl.gradient u)

/-- The values stored for a row (scalar_conservation/hyperbolic_system.h:628-638): `prec_i[k] = f_i[k]`,
`prec_i[dim + k] = df_i[k]`. -/
def packPrecomputed {dim : ℕ} (f df : Vec dim) : Vec (2 * dim) := fun k =>
  if h : k.val < dim then f ⟨k, h⟩ else df ⟨k - dim, by omega⟩

/-- `construct_flux_tensor` (scalar_conservation/hyperbolic_system.h:733-755) in one, two and three dimensions. -/
def constructFluxTensor : (dim : ℕ) → Vec (2 * dim) → Vec dim
  | 1, p => ![p 0]
  | 2, p => ![p 0, p 1]
  | 3, p => ![p 0, p 1, p 2]
  | _, _ => fun _ => 0

/-- `construct_flux_gradient_tensor` (scalar_conservation/hyperbolic_system.h:758-780) in one, two and three dimensions. -/
def constructFluxGradientTensor : (dim : ℕ) → Vec (2 * dim) → Vec dim
  | 1, p => ![p 1]
  | 2, p => ![p 2, p 3]
  | 3, p => ![p 3, p 4, p 5]
  | _, _ => fun _ => 0

/-- One row of `precomputation_loop` (scalar_conservation/hyperbolic_system.h:617-641): rows of length one are skipped. -/
def precomputeRow (dim : ℕ) (fl : LibraryFlux) (row_length : ℕ) (u : ℝ) (old : Vec (2 * dim)) : Outcome (Vec (2 * dim)) :=
  if row_length = 1 then .ok old
  else
    match evalFlux dim fl u with
    | .ok f =>
      match evalFluxGradient dim fl u with
      | .ok df => .ok (packPrecomputed f df)
      | .exception => .exception
      | .ub => .ub
    | .exception => .exception
    | .ub => .ub

/-- `precomputation_loop` (scalar_conservation/hyperbolic_system.h:598-643) over a list of rows: the vector of precomputed
values afterwards. -/
def precomputeLoop {ι : Type} [DecidableEq ι] (dim : ℕ) (fl : LibraryFlux) (row_length : ι → ℕ) (u : ι → ℝ) :
    List ι → (ι → Vec (2 * dim)) → Outcome (ι → Vec (2 * dim))
  | [], prec => .ok prec
  | i :: rows, prec =>
    match precomputeRow dim fl (row_length i) (u i) (prec i) with
    | .ok p => precomputeLoop dim fl row_length u rows (Function.update prec i p)
    | .exception => .exception
    | .ub => .ub

end

end Scalar
end Ryujin
