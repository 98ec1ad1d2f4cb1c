import Verif.Model.Tensor
import Verif.Model.GeoTiff
import Mathlib.Analysis.Real.Sqrt

/-!
# Model of the error norms (source/time_loop.template.h, `compute_error`)

A rank is represented by its locally owned degrees of freedom and its cells; the finite element on a cell by the values of
the shape functions in the quadrature points.  deal.II contributes `VectorTools::integrate_difference`, the norms of vectors
and the MPI reductions.  `Number` is `ℝ`; a division by zero yields no finite number (`none`), and neither does anything
computed from it.  Not modelled: the preparation of the state vector (`Verif/Model/PrepareState.lean`), the debug build's
signaling NaNs in constrained degrees of freedom, and the printing of the results.
-/

namespace Ryujin
namespace ErrorNorms

open scoped BigOperators
open GeoTiff (Outcome)

noncomputable section

/-- The finite element on a cell: global indices of the degrees of freedom, values of the shape functions in the points of
the quadrature formula `Q`, and the weights. (time_loop.template.h:744-796) -/
structure Cell (s : ℕ) (Q : Type) where
  dofs : Fin s → ℕ
  value : Q → Fin s → ℝ
  JxW : Q → ℝ

/-- The value of the finite element function with the coefficients `e` in a quadrature point (deal.II
`get_function_values`). -/
def Cell.eval {s : ℕ} {Q : Type} (K : Cell s Q) (e : ℕ → ℝ) (q : Q) : ℝ := ∑ j, e (K.dofs j) * K.value q j

/-- `integrate_difference` with the zero function and `L1_norm` on one cell (deal.II). -/
def Cell.l1 {s : ℕ} {Q : Type} [Fintype Q] (e : ℕ → ℝ) (K : Cell s Q) : ℝ := ∑ q, |K.eval e q| * K.JxW q

/-- `integrate_difference` with the zero function and `L2_norm` on one cell (deal.II). -/
def Cell.l2 {s : ℕ} {Q : Type} [Fintype Q] (e : ℕ → ℝ) (K : Cell s Q) : ℝ :=
  Real.sqrt (∑ q, |K.eval e q| ^ 2 * K.JxW q)

/-- One rank: its locally owned degrees of freedom, and the active cells of its part of the mesh with the information
whether they are locally owned. (time_loop.template.h:744-796) -/
structure Rank (s : ℕ) (Q : Type) where
  owned : List ℕ
  cells : List (Cell s Q × Bool)

/-- `difference_per_cell` (time_loop.template.h:704-705, 744-772): zero for cells that are not locally owned (deal.II). -/
def Rank.differencePerCell {s : ℕ} {Q : Type} (r : Rank s Q) (norm : Cell s Q → ℝ) : List ℝ :=
  r.cells.map fun c => if c.2 then norm c.1 else 0

/-- `Vector::l1_norm` (deal.II). -/
def l1Norm (v : List ℝ) : ℝ := (v.map fun x => |x|).sum

/-- `Vector::l2_norm` (deal.II). -/
def l2Norm (v : List ℝ) : ℝ := Real.sqrt ((v.map fun x => x ^ 2).sum)

/-- `linfty_norm` of a distributed vector (deal.II) and `Utilities::MPI::max` (time_loop.template.h:740-741, 774-775). -/
def linf {s : ℕ} {Q : Type} (ranks : List (Rank s Q)) (e : ℕ → ℝ) : ℝ :=
  ranks.foldl (fun a r => max a (r.owned.foldl (fun b i => max b |e i|) 0)) 0

/-- The sum of the cell norms over all ranks (time_loop.template.h:743-752, 777-785). -/
def l1 {s : ℕ} {Q : Type} [Fintype Q] (ranks : List (Rank s Q)) (e : ℕ → ℝ) : ℝ :=
  (ranks.map fun r => l1Norm (r.differencePerCell (Cell.l1 e))).sum

/-- The square root of the sum of the squares (time_loop.template.h:754-763, 787-795). -/
def l2 {s : ℕ} {Q : Type} [Fintype Q] (ranks : List (Rank s Q)) (e : ℕ → ℝ) : ℝ :=
  Real.sqrt (ranks.map fun r => l2Norm (r.differencePerCell (Cell.l2 e)) ^ 2).sum

/-- `affine_constraints().distribute` (deal.II): the constraint of a degree of freedom, if there is one, as a list of
indices and weights. -/
def distribute (constraint : ℕ → Option (List (ℕ × ℝ))) (e : ℕ → ℝ) (i : ℕ) : ℝ :=
  match constraint i with
  | none => e i
  | some l => (l.map fun c => c.2 * e c.1).sum

/-- The three accumulated norms. (time_loop.template.h:706-708) -/
structure Norms where
  linf : Option ℝ
  l1 : Option ℝ
  l2 : Option ℝ

open Classical in
/-- `norm += error / analytic` (time_loop.template.h:797-801). -/
def addQuotient (acc : Option ℝ) (error analytic : ℝ) : Option ℝ :=
  if analytic = 0 then none else acc.map (· + error / analytic)

/-- One pass of the loop over the quantities (time_loop.template.h:719-806): `U` and `analytic` are the computed and the
interpolated exact solution by component and degree of freedom. -/
def addQuantity {s : ℕ} {Q : Type} [Fintype Q] (ranks : List (Rank s Q)) (constraint : ℕ → Option (List (ℕ × ℝ)))
    (names : List String) (normalize : Bool) (U analytic : ℕ → ℕ → ℝ) (acc : Outcome Norms) (entry : String) :
    Outcome Norms :=
  match acc with
  | .ok a =>
    match names.findIdx? (· == entry) with
    | none => .exception
    | some k =>
      let error := fun i => distribute constraint (U k) i - analytic k i
      .ok (if normalize then
        { linf := addQuotient a.linf (linf ranks error) (linf ranks (analytic k))
          l1 := addQuotient a.l1 (l1 ranks error) (l1 ranks (analytic k))
          l2 := addQuotient a.l2 (l2 ranks error) (l2 ranks (analytic k)) }
      else
        { linf := a.linf.map (· + linf ranks error)
          l1 := a.l1.map (· + l1 ranks error)
          l2 := a.l2.map (· + l2 ranks error) })
  | .exception => .exception
  | .ub => .ub

/-- `compute_error` (time_loop.template.h:693-834). -/
def computeError {s : ℕ} {Q : Type} [Fintype Q] (ranks : List (Rank s Q)) (constraint : ℕ → Option (List (ℕ × ℝ)))
    (names : List String) (quantities : List String) (normalize : Bool) (U analytic : ℕ → ℕ → ℝ) : Outcome Norms :=
  quantities.foldl (addQuantity ranks constraint names normalize U analytic) (.ok ⟨some 0, some 0, some 0⟩)

/-- The nodes of `QGauss<1>(3)` on `[0, 1]` (deal.II). -/
def gaussNode : Fin 3 → ℝ := ![(1 - Real.sqrt (3 / 5)) / 2, 1 / 2, (1 + Real.sqrt (3 / 5)) / 2]

/-- The weights of `QGauss<1>(3)` on `[0, 1]` (deal.II). -/
def gaussWeight : Fin 3 → ℝ := ![5 / 18, 8 / 18, 5 / 18]

/-- The points of `QGauss<dim>(3)` (time_loop.template.h:748, 759, 781, 791): the tensor product. -/
def gaussPoint {dim : ℕ} (q : Fin dim → Fin 3) : Vec dim := fun d => gaussNode (q d)

/-- The weights of `QGauss<dim>(3)`. (time_loop.template.h:748, 759, 781, 791) -/
def gaussProduct {dim : ℕ} (q : Fin dim → Fin 3) : ℝ := ∏ d, gaussWeight (q d)

end

end ErrorNorms
end Ryujin
