import Mathlib.Data.Real.Basic
import Mathlib.Algebra.BigOperators.Pi
import Mathlib.Algebra.BigOperators.Ring.Finset
import Mathlib.Algebra.BigOperators.Module
import Mathlib.Data.Fintype.Pi
import Mathlib.Algebra.Module.Basic
import Mathlib.Data.Fintype.BigOperators

/-!
# Model of the transfer of the state vector to an adapted mesh

`TimeLoop::adapt_mesh_and_transfer_state_vector` (time_loop.template.h:616-690) with what it uses of deal.II's
`parallel::distributed::SolutionTransfer`: the values of the degrees of freedom of every cell that is kept, refined or made
by coarsening are read *from the vector as it is*, and written to the degrees of freedom of the new cells, cell by cell.

Simplifications: `Number` is `ℝ`; one process; elements of degree one on cells that are images of the unit cube (the values
at the `2^dim` corners determine the function); all components are transferred together (the code transfers them one after
the other, lines 643-648 and 682-684, each with the same linear operation).
-/

namespace Ryujin
namespace Adaptation

noncomputable section

variable {d : ℕ} {ι ι' E : Type} [AddCommGroup E] [Module ℝ E]

/-- Corners of the unit cube. (time_loop.template.h:651-660) -/
abbrev Corner (d : ℕ) := Fin d → Bool

/-- Value of the shape function of a corner at a point of the unit cube. (time_loop.template.h:651-680) -/
def shapeValue (p : Fin d → ℝ) (w : Corner d) : ℝ := ∏ k, if w k then p k else 1 - p k

/-- Value of the finite element function with the given values at the corners. (time_loop.template.h:651-680) -/
def cellFunction (V : Corner d → E) (p : Fin d → ℝ) : E := ∑ w, shapeValue p w • V w

/-- The point `p` of child `c` in the coordinates of the parent. (time_loop.template.h:670) -/
def inParent (c : Corner d) (p : Fin d → ℝ) : Fin d → ℝ := fun k => ((if c k then 1 else 0) + p k) / 2

/-- Coordinates of a corner. (time_loop.template.h:670) -/
def cornerPoint (v : Corner d) : Fin d → ℝ := fun k => if v k then 1 else 0

/-- A cell: its measure and the degrees of freedom at its corners. (time_loop.template.h:638, 651-652) -/
structure Cell (d : ℕ) (ι : Type) where
  measure : ℝ
  dof : Corner d → ι

/-- What happens to a cell of the old mesh: it is kept, refined, or replaced, with its siblings, by their parent.
(time_loop.template.h:629-632, 670) -/
inductive Patch (d : ℕ) (ι ι' : Type)
  | keep (old : Cell d ι) (new : Cell d ι')
  | refine (old : Cell d ι) (new : Corner d → Cell d ι')
  | coarsen (old : Corner d → Cell d ι) (new : Cell d ι')

/-- Values `SolutionTransfer` writes for a patch: those of the cell, the interpolated ones at the corners of all children,
or the ones the children have at the corners of the parent. (time_loop.template.h:662, 680) -/
def Patch.written (U : ι → E) : Patch d ι ι' → List (ι' × E)
  | .keep old new => Finset.univ.toList.map fun v => (new.dof v, U (old.dof v))
  | .refine old new => Finset.univ.toList.flatMap fun c => Finset.univ.toList.map fun v =>
      ((new c).dof v, cellFunction (fun w => U (old.dof w)) (inParent c (cornerPoint v)))
  | .coarsen old new => Finset.univ.toList.map fun v => (new.dof v, U ((old v).dof v))

open Classical in
/-- Writing the values one after the other. (time_loop.template.h:672-684) -/
def writeAll (start : ι' → E) (l : List (ι' × E)) : ι' → E :=
  l.foldl (fun W p => Function.update W p.1 p.2) start

/-- `adapt_mesh_and_transfer_state_vector` (time_loop.template.h:616-690); `start` is the content of the new vector, zero
after `reinit`. -/
def transfer (patches : List (Patch d ι ι')) (U : ι → E) (start : ι' → E) : ι' → E :=
  writeAll start (patches.flatMap (Patch.written U))

/-- Cells of the old mesh. (time_loop.template.h:628-632) -/
def Patch.oldCells : Patch d ι ι' → List (Cell d ι)
  | .keep old _ => [old]
  | .refine old _ => [old]
  | .coarsen old _ => Finset.univ.toList.map old

/-- Cells of the new mesh. (time_loop.template.h:670) -/
def Patch.newCells : Patch d ι ι' → List (Cell d ι')
  | .keep _ new => [new]
  | .refine _ new => Finset.univ.toList.map new
  | .coarsen _ new => [new]

/-- Children have the `2^-dim`-th part of the measure of their parent. (time_loop.template.h:670) -/
def Patch.Regular : Patch d ι ι' → Prop
  | .keep old new => new.measure = old.measure
  | .refine old new => ∀ c, (new c).measure = old.measure / 2 ^ d
  | .coarsen old new => ∀ c, (old c).measure = new.measure / 2 ^ d

/-- The finite element function of degree two in one direction, with the values `a`, `b`, `c` at `0`, `1/2` and `1`
(discretization.template.h:122-160: "finite element ansatz" `cg q2`).  Refinement evaluates it at `1/4` and `3/4`.
(time_loop.template.h:680) -/
def quadraticFunction (a b c x : ℝ) : ℝ := a * (1 - x) * (1 - 2 * x) + b * (4 * x * (1 - x)) + c * x * (2 * x - 1)

end

end Adaptation
end Ryujin
