import Verif.Model.Adaptation

/-!
# Specification of the transfer to an adapted mesh
-/

namespace Ryujin
namespace Adaptation

noncomputable section

variable {d : ℕ} {ι ι' E : Type} [AddCommGroup E] [Module ℝ E]

/-- Integral of the finite element function over the domain: on a cell it is the measure times the mean of the corner
values. -/
def integral (cells : List (Cell d ι)) (U : ι → E) : E :=
  (cells.map fun K => (K.measure / 2 ^ d) • ∑ v, U (K.dof v)).sum

open Classical in
/-- Lumped mass of a degree of freedom, all cells being images of the unit cube under affine maps. -/
def lumped (cells : List (Cell d ι)) (i : ι) : ℝ :=
  (cells.map fun K => ∑ v, if K.dof v = i then K.measure / 2 ^ d else 0).sum

/-- The values to be written fit together: `u` is a function on the new nodes with the values of the old finite element
function in all cells.  This is the case if the old function is continuous, that is if hanging nodes and nodes on periodic
boundaries have the values prescribed by the constraints. -/
def Fits (patches : List (Patch d ι ι')) (U : ι → E) (u : ι' → E) : Prop :=
  ∀ p ∈ patches, ∀ x ∈ p.written U, x.2 = u x.1

/-- Nodes of the new mesh. -/
def IsNode (patches : List (Patch d ι ι')) (x : ι') : Prop :=
  ∃ p ∈ patches, ∃ K ∈ p.newCells, ∃ v, K.dof v = x

end

end Adaptation
end Ryujin
