import Mathlib.Data.List.Basic
import Mathlib.Logic.Function.Basic

/-!
# Model of the renumberings of `source/local_index_handling.h` and their use in `OfflineData::setup`

`offset` is the first owned global index, `nOwned` the number of owned indices, `g` the group size.  The
vector `new_order` is a function from local indices to new global indices; `none` is
`numbers::invalid_dof_index`.  The loops `for (i = 0; i < n; i += g)` run over `i = b * g`, `b < ⌈n / g⌉`.
-/

namespace Ryujin
namespace Renumbering

/-- A numbering being built: `new_order` and the running index. (local_index_handling.h:132, 233, 333) -/
structure Order where
  order : ℕ → Option ℕ
  next : ℕ

/-- `new_order[index] = offset + next++`. (local_index_handling.h:156, 185, 193, 258, 277, 285) -/
def Order.assign (offset : ℕ) (st : Order) (index : ℕ) : Order :=
  ⟨Function.update st.order index (some (offset + st.next)), st.next + 1⟩

/-- Number of iterations of `for (i = 0; i < n; i += g)`. (local_index_handling.h:140-170) -/
def groups (n g : ℕ) : ℕ := (n + g - 1) / g

/-- First pass (local_index_handling.h:146-166 and 241-261): groups satisfying `keep` are numbered
consecutively, all others are marked invalid. -/
def firstPass (offset g : ℕ) (keep : ℕ → Bool) (st : Order) (b : ℕ) : Order :=
  if keep (b * g) then
    (List.range g).foldl (fun st j => st.assign offset (b * g + j)) st
  else
    ⟨(List.range g).foldl (fun order j => Function.update order (b * g + j) none) st.order, st.next⟩

/-- Second pass (local_index_handling.h:184-192 and 269-277): append the groups marked invalid. -/
def secondPass (offset g : ℕ) (st : Order) (b : ℕ) : Order :=
  if st.order (b * g) = none then
    (List.range g).foldl (fun st j => st.assign offset (b * g + j)) st
  else st

/-- The common skeleton of `export_indices_first` (local_index_handling.h:136-203) and
`inconsistent_strides_last` (local_index_handling.h:230-295): the new order and the returned counter.
`std::vector` initialises `new_order` with zeros. -/
def reorderGroups (offset nOwned nInternal g : ℕ) (keep : ℕ → Bool) : (ℕ → Option ℕ) × ℕ :=
  let st := (List.range (groups nInternal g)).foldl (firstPass offset g keep) ⟨fun _ => some 0, 0⟩
  let n := st.next
  let st := (List.range (groups nInternal g)).foldl (secondPass offset g) st
  let st := (List.range' nInternal (nOwned - nInternal)).foldl (Order.assign offset) st
  (st.order, n)

/-- `export_indices_first` (local_index_handling.h:100-204) for the set `exported` of local export
indices. -/
def exportIndicesFirst (offset nOwned nInternal g : ℕ) (exported : ℕ → Bool) :
    (ℕ → Option ℕ) × ℕ :=
  reorderGroups offset nOwned nInternal g fun i => (List.range g).any fun j => exported (i + j)

/-- `inconsistent_strides_last` (local_index_handling.h:213-296); `rowLength` is the row length of a local
row. -/
def inconsistentStridesLast (offset nOwned nInternal g : ℕ) (rowLength : ℕ → ℕ) :
    (ℕ → Option ℕ) × ℕ :=
  reorderGroups offset nOwned nInternal g fun i =>
    (List.range g).all fun j => decide (rowLength i = rowLength (i + j))

/-- State of `internal_range`. (local_index_handling.h:333-365) -/
structure Bins where
  bins : ℕ → List ℕ
  st : Order

/-- Loop body of `internal_range` (local_index_handling.h:343-353).  The bins are `std::set`s; as the
indices are inserted in ascending order, appending keeps them sorted. -/
def binStep (offset g : ℕ) (rowLength : ℕ → ℕ) (s : Bins) (i : ℕ) : Bins :=
  let bin := s.bins (rowLength i) ++ [i]
  if bin.length = g then
    ⟨Function.update s.bins (rowLength i) [], bin.foldl (Order.assign offset) s.st⟩
  else ⟨Function.update s.bins (rowLength i) bin, s.st⟩

/-- `internal_range` (local_index_handling.h:313-371): the new order and `n_locally_internal`.  The remaining
bins are written out in ascending order of the row length (the `std::map` contains exactly the non-empty
bins; the bound `bound` on all row lengths only makes the loop over the keys explicit). -/
def internalRange (offset nOwned g : ℕ) (rowLength : ℕ → ℕ) (bound : ℕ) : (ℕ → Option ℕ) × ℕ :=
  let s := (List.range nOwned).foldl (binStep offset g rowLength) ⟨fun _ => [], ⟨fun _ => some 0, 0⟩⟩
  let n := s.st.next
  let st := (List.range (bound + 1)).foldl
    (fun st key => (s.bins key).foldl (Order.assign offset) st) s.st
  (st.order, n)

/-- The loop of `consistent_stride_range` (offline_data.template.h:254-265): the index `i` at which it
stops, started at `i` with `fuel` iterations left. -/
def strideScan (g : ℕ) (rowLength : ℕ → ℕ) : ℕ → ℕ → ℕ → ℕ
  | 0, _, i => i
  | fuel + 1, group_row_length, i =>
    if i % g = 0 then strideScan g rowLength fuel (rowLength i) (i + 1)
    else if group_row_length ≠ rowLength i then i
    else strideScan g rowLength fuel group_row_length (i + 1)

/-- `consistent_stride_range` (offline_data.template.h:249-267). -/
def consistentStrideRange (nInternal g : ℕ) (rowLength : ℕ → ℕ) : ℕ :=
  strideScan g rowLength nInternal 0 0 / g * g

/-- The recomputation of `n_export_indices_` (offline_data.template.h:368-380); `imports` is the list of
import intervals `[first, second)` of the partitioner. -/
def nExportIndices (nInternal simd : ℕ) (imports : List (ℕ × ℕ)) : ℕ :=
  let n := imports.foldl (fun n it => if it.2 ≤ nInternal then max n it.2 else n) 0
  (n + simd - 1) / simd * simd

end Renumbering
end Ryujin
