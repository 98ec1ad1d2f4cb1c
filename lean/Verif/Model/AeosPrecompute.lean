import Verif.Model.EquationOfState

/-!
# Model of `precomputation_loop` of the arbitrary equation of state solver
(euler_aeos/hyperbolic_system.h:843-976) and of its call in `prepare_state_vector`
(hyperbolic_module.template.h:145-184)

A loop is modelled by the list of its visible actions in program order: calls of `dispatch_check` and writes of the
precomputed values of one row.  A vectorised iteration acts on `stride` consecutive rows; `row_length` and
`dispatch_check` are called with the first of them.  One thread; iterations only write their own rows.
-/

namespace Ryujin
namespace Eos

open Euler (State density internalEnergy)

noncomputable section

variable {dim : ℕ}

/-- `precomputed_type` (euler_aeos/hyperbolic_system.h:364-369): pressure, surrogate gamma (its minimum over the
stencil after cycle 1), surrogate specific entropy, surrogate Harten entropy. -/
structure Prec where
  p : ℝ
  gamma_min : ℝ
  s : ℝ
  eta : ℝ

/-- Visible actions of the loops. (euler_aeos/hyperbolic_system.h:873-974) -/
inductive Action
  | check (i : ℕ)
  | write (row : ℕ) (v : Prec)

/-- Effect of a list of actions on the vector of precomputed values. (euler_aeos/hyperbolic_system.h:873-974) -/
def applyActions (prec : ℕ → Prec) : List Action → ℕ → Prec
  | [] => prec
  | .check _ :: l => applyActions prec l
  | .write row v :: l => applyActions (Function.update prec row v) l

/-- Number of iterations of `for (i = left; i < right; i += stride)`. (euler_aeos/hyperbolic_system.h:923, 946) -/
def iterations (stride left right : ℕ) : ℕ := (right - left + stride - 1) / stride

/-- Value computed for one row, given its pressure (euler_aeos/hyperbolic_system.h:910-911, 933-935). -/
def precOf (par : Aeos.Params) (U : State dim) (p_i : ℝ) : Prec := ⟨p_i, Aeos.surrogateGamma par U p_i, 0, 0⟩

/-- Cycle 0, variant calling the equation of state for every degree of freedom
(euler_aeos/hyperbolic_system.h:920-937). -/
def scalarVariant (eos : Interface) (par : Aeos.Params) (rowLength : ℕ → ℕ) (U : ℕ → State dim)
    (stride left right : ℕ) : List Action :=
  (List.range (iterations stride left right)).flatMap fun k =>
    let i := left + k * stride
    if rowLength i = 1 then []
    else .check i :: (List.range stride).map fun l =>
      .write (i + l) (precOf par (U (i + l)) (statePressure eos (U (i + l))))

/-- Cycle 0, variant with one call on whole vectors (euler_aeos/hyperbolic_system.h:865-914). `rho`, `e` are the
shared arrays filled by the first loop, `p` the result of the array variant of `pressure`; the second loop calls
`row_length` and `dispatch_check` with the index `i` counted from zero, everything else with `offset + i`. -/
def vectorVariant (eos : Interface) (par : Aeos.Params) (rowLength : ℕ → ℕ) (U : ℕ → State dim)
    (stride left right : ℕ) : List Action :=
  let offset := left
  let size := right - left
  let rho := (List.range size).map fun i => density (U (offset + i))
  let e := (List.range size).map fun i => internalEnergy (U (offset + i)) / density (U (offset + i))
  let p := arrayVariant eos.pressure rho e
  (List.range (iterations stride 0 size)).flatMap fun k =>
    let i := k * stride
    if rowLength i = 1 then []
    else .check i :: (List.range stride).map fun l =>
      .write (offset + i + l) (precOf par (U (offset + i + l)) (p.getD (i + l) 0))

/-- Cycle 0 as run by `prepare_state_vector`: first the scalar loop over `[n_internal, n_owned)`, then the
vectorised loop over `[0, n_internal)` (hyperbolic_module.template.h:176-179). -/
def cycle0 (variant : ℕ → ℕ → ℕ → List Action) (simd n_internal n_owned : ℕ) : List Action :=
  variant 1 n_internal n_owned ++ variant simd 0 n_internal

/-- A check that starts the exchange of ghost values: `i >= n_export_indices && i < n_internal`
(hyperbolic_module.template.h:166-169). -/
def Action.fires (n_export n_internal : ℕ) : Action → Bool
  | .check i => decide (i ≥ n_export) && decide (i < n_internal)
  | .write _ _ => false

/-- The actions performed before the (only) thread starts the exchange of ghost values; all of them if no check
fires and the exchange is left to the destructor (openmp.h:150-173). -/
def beforeExchange (n_export n_internal : ℕ) (l : List Action) : List Action :=
  l.takeWhile fun a => !a.fires n_export n_internal

/-- Cycle 1 for one row (euler_aeos/hyperbolic_system.h:940-974); `cols i` are the columns of row `i`, the diagonal
first.  The rows of a vectorised iteration have the same length (`C31_consistent_stride_range`), so each row is
treated by itself. -/
def cycle1Row (par : Aeos.Params) (cols : ℕ → List ℕ) (U : ℕ → State dim) (prec : ℕ → Prec) (i : ℕ) : ℕ → Prec :=
  if (cols i).length = 1 then prec
  else
    let gamma_min_i := (cols i).tail.foldl
      (fun g j => min g (Aeos.surrogateGamma par (U j) (prec j).p)) (prec i).gamma_min
    Function.update prec i ⟨(prec i).p, gamma_min_i, Aeos.surrogateSpecificEntropy par (U i) gamma_min_i,
      Aeos.surrogateHartenEntropy par (U i) gamma_min_i⟩

/-- Cycle 1 on the rows `order`, in the order in which the threads happen to process them. (euler_aeos/hyperbolic_system.h:940-974) -/
def cycle1 (par : Aeos.Params) (cols : ℕ → List ℕ) (U : ℕ → State dim) (prec : ℕ → Prec) (order : List ℕ) :
    ℕ → Prec :=
  order.foldl (cycle1Row par cols U) prec

end

end Eos
end Ryujin
