import Verif.Model.BoundaryMap
import Verif.Model.Assembly

/-!
# Model of the loop over boundary faces in `OfflineData::construct_boundary_map`
(offline_data.template.h:1211-1282)

The rest of the function is `Verif/Model/BoundaryMap.lean`.  All ranks are taken together: every index is local.
-/

namespace Ryujin
namespace BoundaryMap

noncomputable section

open Classical
open scoped BigOperators

variable {κ : Type} {n s nq nf nfq nn dim : ℕ}

/-- The data inserted for shape function `j` of cell `K` on face `f` (offline_data.template.h:1246-1279); `id` is
`face->boundary_id()` and `position` is the support point. -/
def faceData (F : Assembly.FeData κ n s nq nf nfq nn dim) (id : κ → Fin nf → ℕ) (position : κ → Fin s → Vec dim)
    (K : κ) (f : Fin nf) (j : Fin s) : Data dim :=
  let boundary_mass := ∑ q, F.faceValue K f q j * F.faceJxW K f q
  { normal := fun d => ∑ q, F.faceValue K f q j * F.normal K f q d * F.faceJxW K f q
    normal_mass := boundary_mass
    boundary_mass := boundary_mass
    id := id K f
    position := position K j }

/-- The contributions of one face (offline_data.template.h:1226-1281): nothing if the face has a (periodic) neighbour;
shape functions without support on the face and constrained degrees of freedom are skipped. -/
def faceContributions (F : Assembly.FeData κ n s nq nf nfq nn dim) (id : κ → Fin nf → ℕ)
    (position : κ → Fin s → Vec dim) (K : κ) (f : Fin nf) : List (ℕ × Data dim) :=
  if (F.neighbor K f).isSome then []
  else ((List.finRange s).filter fun j => F.supportOnFace j f ∧ ¬ F.constrained (F.dofs K j)).map fun j =>
    ((F.dofs K j).val, faceData F id position K f j)

/-- The contributions of all cells in the order of the cell loop (offline_data.template.h:1211-1282). -/
def contributions (F : Assembly.FeData κ n s nq nf nfq nn dim) (id : κ → Fin nf → ℕ) (position : κ → Fin s → Vec dim)
    (cells : List κ) : List (ℕ × Data dim) :=
  cells.flatMap fun K => (List.finRange nf).flatMap fun f => faceContributions F id position K f

end

end BoundaryMap
end Ryujin
