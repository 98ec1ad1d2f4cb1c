import Verif.Model.Tensor

/-!
# Model of `OfflineData::construct_boundary_map` and `collect_coupling_boundary_pairs`
(offline_data.template.h:1173-1364 and 1369-1462)

What deal.II computes (the loop over cells and faces, quadrature, supports) enters as the list of contributions in the
order in which the loop produces them; everything after that is modelled.
-/

namespace Ryujin
namespace BoundaryMap

noncomputable section

/-- `Boundary::slip` (discretization.h:75). -/
def slip : ℕ := 2

/-- `Boundary::no_slip` (discretization.h:85). -/
def noSlip : ℕ := 3

/-- `BoundaryData` (offline_data.template.h:1187-1191). -/
structure Data (dim : ℕ) where
  normal : Vec dim
  normal_mass : ℝ
  boundary_mass : ℝ
  id : ℕ
  position : Vec dim

variable {dim : ℕ}

/-- `std::multimap<unsigned int, BoundaryData>`: sorted by key, equal keys in the order of insertion.
(offline_data.template.h:1192, 1295) -/
abbrev Multimap (dim : ℕ) := List (ℕ × Data dim)

/-- `std::multimap::insert`: behind all entries with the same or a smaller key. (offline_data.template.h:1277-1285, 1339) -/
def insert (m : Multimap dim) (entry : ℕ × Data dim) : Multimap dim :=
  m.takeWhile (fun x => decide (x.1 ≤ entry.1)) ++ entry :: m.dropWhile (fun x => decide (x.1 ≤ entry.1))

/-- `preliminary_map` after the loop over the cells (offline_data.template.h:1211-1282); a contribution is a
`(index, data)` pair. -/
def preliminary (contributions : List (ℕ × Data dim)) : Multimap dim := contributions.foldl insert []

/-- Local variables of the loop body: the id of the (copied) new entry and `inserted`. (offline_data.template.h:1296-1298) -/
structure Loop where
  new_id : ℕ
  inserted : Bool

open Classical in
/-- Body of the loop over `equal_range` for one entry of `filtered_map`
(offline_data.template.h:1300-1339). -/
def visit (new : Data dim) (st : Loop) (old : Data dim) : Loop × Data dim :=
  if old.id ≠ st.new_id then (st, old)
  else if dot old.normal new.normal / vnorm old.normal / vnorm new.normal > 1 / 2 then
    ({ st with inserted := true },
      { old with normal := old.normal + new.normal, boundary_mass := old.boundary_mass + new.boundary_mass })
  else if dim = 2 then
    if st.new_id = slip then ({ st with new_id := noSlip }, { old with id := noSlip }) else (st, old)
  else (st, old)

/-- The loop over `filtered_map.equal_range(key)` (offline_data.template.h:1298-1340). -/
def visitRange (new : Data dim) (key : ℕ) : Loop → Multimap dim → Loop × Multimap dim
  | st, [] => (st, [])
  | st, (k, d) :: l =>
    if k = key then
      ((visitRange new key (visit new st d).1 l).1, (k, (visit new st d).2) :: (visitRange new key (visit new st d).1 l).2)
    else ((visitRange new key st l).1, (k, d) :: (visitRange new key st l).2)

/-- Body of the loop over `preliminary_map` (offline_data.template.h:1296-1343). -/
def mergeEntry (m : Multimap dim) (entry : ℕ × Data dim) : Multimap dim :=
  let r := visitRange entry.2 entry.1 ⟨entry.2.id, false⟩ m
  if r.1.inserted then r.2 else insert r.2 (entry.1, { entry.2 with id := r.1.new_id })

/-- `filtered_map` (offline_data.template.h:1294-1343). -/
def filtered (m : Multimap dim) : Multimap dim := m.foldl mergeEntry []

/-- Final transformation of one entry (offline_data.template.h:1350-1361); `eps` is the machine epsilon. -/
def finalize (eps : ℝ) (entry : ℕ × Data dim) : ℕ × Data dim :=
  let new_normal_mass := vnorm entry.2.normal + eps
  (entry.1, { entry.2 with normal := fun i => entry.2.normal i / new_normal_mass, normal_mass := new_normal_mass })

/-- `construct_boundary_map` (offline_data.template.h:1173-1364). -/
def boundaryMap (eps : ℝ) (contributions : List (ℕ × Data dim)) : Multimap dim :=
  (filtered (preliminary contributions)).map (finalize eps)

/-- `collect_coupling_boundary_pairs` (offline_data.template.h:1431-1459): `boundary` is the (sorted) set of locally
relevant boundary indices collected by the first loop, `cols i` the columns of row `i`, the diagonal first. -/
def couplingPairs (n_owned : ℕ) (cols : ℕ → List ℕ) (boundary : List ℕ) : List (ℕ × ℕ × ℕ) :=
  boundary.flatMap fun i =>
    if i ≥ n_owned then []
    else if (cols i).length = 1 then []
    else (List.range' 1 ((cols i).length - 1)).filterMap fun col_idx =>
      let j := (cols i).getD col_idx 0
      if j ∈ boundary then some (i, col_idx, j) else none

end

end BoundaryMap
end Ryujin
