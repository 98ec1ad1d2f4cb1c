import Verif.Model.Tensor
import Mathlib.Data.Nat.Digits.Defs

/-!
# Model of the selection of cells and of the file names in the VTU output (source/vtu_output.template.h)

A cell is represented by what the selection reads from it.  deal.II's `DataOut` writes one patch for every cell that is
selected.  The parsed level set functions are arbitrary functions.  Not modelled: the data vectors (their extraction is
`Verif/Model/Quantities.lean`), the mapping and the contents of the files.
-/

namespace Ryujin
namespace VtuOutput

noncomputable section

open Classical

/-- What a rank knows about a cell: in its copy of the mesh a cell is owned, a ghost cell or artificial.
(vtu_output.template.h:168) -/
inductive Status
  | owned
  | ghost
  | artificial
  deriving DecidableEq

/-- What the selection reads from a cell. (vtu_output.template.h:168-178) -/
structure Cell (dim : ℕ) where
  active : Bool
  status : Status
  vertices : List (Vec dim)

/-- The loop over the vertices for one level set function (vtu_output.template.h:173-186) with the counters `above` and
`below`; `delta` is `100. * eps`. -/
def straddles {dim : ℕ} (delta : ℝ) (f : Vec dim → ℝ) : List (Vec dim) → ℕ → ℕ → Bool
  | [], _, _ => false
  | v :: vs, above, below =>
    let above := if f v ≥ 0 - delta then above + 1 else above
    let below := if f v ≤ 0 + delta then below + 1 else below
    if above > 0 ∧ below > 0 then true else straddles delta f vs above below

/-- The filter passed to `set_cell_selection` (vtu_output.template.h:165-190). -/
def selected {dim : ℕ} (delta : ℝ) (functions : List (Vec dim → ℝ)) (c : Cell dim) : Bool :=
  if c.active = false ∨ c.status = .artificial then false
  else functions.any fun f => straddles delta f c.vertices 0 0

/-- The cells one rank writes to the level set file: `cells` is what the rank knows about the cells of the mesh, by
index. (vtu_output.template.h:165-200) -/
def writtenBy {dim : ℕ} (delta : ℝ) (functions : List (Vec dim → ℝ)) {N : ℕ} (cells : Fin N → Cell dim) : List (Fin N) :=
  (List.finRange N).filter fun k => selected delta functions (cells k)

/-- The level set file: one patch for every cell selected by one of the ranks (vtu_output.template.h:192-200). -/
def levelsetFile {dim : ℕ} (delta : ℝ) (functions : List (Vec dim → ℝ)) {N : ℕ} (ranks : List (Fin N → Cell dim)) :
    List (Fin N) :=
  ranks.flatMap fun cells => writtenBy delta functions cells

/-- `Utilities::to_string(cycle, 6)` (deal.II): at least six decimal digits. -/
def sixDigits (cycle : ℕ) : List Char :=
  ((Nat.digits 10 cycle ++ List.replicate (6 - (Nat.digits 10 cycle).length) 0).reverse).map Nat.digitChar

/-- The name of the file with all cells (vtu_output.template.h:146-152). -/
def fullName (name : List Char) (cycle : ℕ) : List Char := name ++ ['_'] ++ sixDigits cycle ++ ".vtu".toList

/-- The name of the file with the level sets (vtu_output.template.h:193-199). -/
def levelsetName (name : List Char) (cycle : ℕ) : List Char :=
  name ++ "-levelsets_".toList ++ sixDigits cycle ++ ".vtu".toList

end

end VtuOutput
end Ryujin
