import Mathlib.Data.List.Basic
import Mathlib.Data.List.Sort
import Mathlib.Data.Nat.ModEq
import Mathlib.Logic.Function.Basic

/-!
# Model of `source/sparse_matrix_simd.h` and `source/sparse_matrix_simd.template.h`

Indices are natural numbers.  A `Pattern` is deal.II's static `SparsityPattern` in local indexing, stored
in CSR format.  Memory is a function from addresses to values.  Everything below is the code of the
release build: the `Assert`s are absent, the `AssertThrow` of `reinit` is the outcome `none`.
-/

namespace Ryujin
namespace Sparse

/-- deal.II's `SparsityPattern` in local indexing: the number of rows and the column indices of every row
in storage order. -/
structure Pattern where
  n_rows : ℕ
  cols : ℕ → List ℕ

namespace Pattern

variable (P : Pattern)

/-- `row_length` of the CSR pattern. (sparse_matrix_simd.template.h:111, 135) -/
def rowLength (row : ℕ) : ℕ := (P.cols row).length

/-- Begin of a row in the CSR storage. (sparse_matrix_simd.template.h:103, 130) -/
def csrStart : ℕ → ℕ
  | 0 => 0
  | r + 1 => csrStart r + P.rowLength r

/-- `n_nonzero_elements()` of the CSR pattern. (sparse_matrix_simd.template.h:86-88) -/
def nnz : ℕ := P.csrStart P.n_rows

/-- The CSR column array; an iterator `sparsity.begin(row)` advanced `c` times points to
`csrStart row + c` of this array, and runs into the next rows when advanced beyond the row's end.
(sparse_matrix_simd.template.h:103-108) -/
def flat : List ℕ := (List.range P.n_rows).flatMap P.cols

/-- `SparsityPattern::operator()(row, col)`: the position of an entry in the CSR storage, or
`invalid_entry` (the largest `size_type`) if the entry is not present. (sparse_matrix_simd.template.h:109-118) -/
def position (row col : ℕ) : ℕ :=
  if col ∈ P.cols row then P.csrStart row + (P.cols row).idxOf col else 2 ^ 64 - 1

end Pattern

/-- The arrays of `SparsityPatternSIMD` (sparse_matrix_simd.h:106-112), as filled by `reinit`. -/
structure Simd where
  n_internal : ℕ
  n_owned : ℕ
  n_rows : ℕ
  row_starts : ℕ → ℕ
  column_indices : List ℕ
  indices_transposed : List ℕ

/-- The value written through `transposed_ptr` for an entry `(row, column)`
(sparse_matrix_simd.template.h:108-119 and 135-145, the same text twice). -/
def transposedIndex (P : Pattern) (s n_internal column row : ℕ) : ℕ :=
  let position := P.position column row
  if column < n_internal then
    let my_row_length := P.rowLength column
    let position_diag := P.position column column
    let pos_within_row := position - position_diag
    let simd_offset := column % s
    position - simd_offset * my_row_length - pos_within_row + simd_offset + pos_within_row * s
  else position

/-- State of the filling loops: what has been written through `col_ptr` and `transposed_ptr`, and
`row_starts`. (sparse_matrix_simd.template.h:96-100) -/
structure Build where
  written : List (ℕ × ℕ)
  row_starts : ℕ → ℕ

/-- Loop body for one row block `i, …, i + s - 1` of the vectorised part
(sparse_matrix_simd.template.h:101-123). -/
def vecBlock (P : Pattern) (s n_internal : ℕ) (st : Build) (block : ℕ) : Build :=
  let i := block * s
  let new := (List.range (P.rowLength i)).flatMap fun c => (List.range s).map fun k =>
    let column := P.flat.getD (P.csrStart (i + k) + c) 0
    (column, transposedIndex P s n_internal column (i + k))
  let written := st.written ++ new
  { written, row_starts := Function.update st.row_starts (i / s + 1) written.length }

/-- Loop body for one row of the rest (sparse_matrix_simd.template.h:129-147). -/
def csrRow (P : Pattern) (s n_internal : ℕ) (st : Build) (i : ℕ) : Build :=
  let new := (P.cols i).map fun column => (column, transposedIndex P s n_internal column i)
  let written := st.written ++ new
  { written, row_starts := Function.update st.row_starts (i + 1) written.length }

/-- `reinit` (sparse_matrix_simd.template.h:76-149) after the minimal pattern `P` has been set up; `s` is
`simd_length`, `garbage` is the uninitialised content of `row_starts` after `resize_fast`. -/
def reinit (P : Pattern) (s n_internal n_owned : ℕ) (garbage : ℕ → ℕ) : Option Simd :=
  if P.nnz < 2 ^ 32 - 1 then
    let st0 : Build := ⟨[], Function.update garbage 0 0⟩
    let st1 := (List.range ((n_internal + s - 1) / s)).foldl (vecBlock P s n_internal) st0
    let st2 : Build :=
      { st1 with row_starts := Function.update st1.row_starts n_internal (st1.row_starts (n_internal / s)) }
    let st3 := (List.range' n_internal (P.n_rows - n_internal)).foldl (csrRow P s n_internal) st2
    some { n_internal, n_owned, n_rows := P.n_rows, row_starts := st3.row_starts
           column_indices := st3.written.map Prod.fst
           indices_transposed := st3.written.map Prod.snd }
  else none

namespace Simd

variable (S : Simd)

/-- `stride_of_row` (sparse_matrix_simd.h:311-321). -/
def strideOfRow (s row : ℕ) : ℕ := if row < S.n_internal then s else 1

/-- `columns` (sparse_matrix_simd.h:324-335): an offset into `column_indices`. -/
def columns (s row : ℕ) : ℕ :=
  if row < S.n_internal then S.row_starts (row / s) + row % s else S.row_starts row

/-- `row_length` (sparse_matrix_simd.h:338-350). -/
def rowLength (s row : ℕ) : ℕ :=
  if row < S.n_internal then (S.row_starts (row / s + 1) - S.row_starts (row / s)) / s
  else S.row_starts (row + 1) - S.row_starts row

/-- `n_nonzero_elements` (sparse_matrix_simd.h:362-369): `row_starts.back()`. -/
def nNonzero : ℕ := S.row_starts S.n_rows

/-- The address of component `d` of entry `(row, position_within_column)` used by the scalar variants of
`get_tensor` and `write_entry` (sparse_matrix_simd.h:403-419 and 592-611). -/
def address (s nc row pos d : ℕ) : ℕ :=
  if row < S.n_internal then (S.row_starts (row / s) + pos * s) * nc + d * s + row % s
  else (S.row_starts row + pos) * nc + d

/-- The address of lane `k` of component `d` used by the vectorised variants of `get_tensor` and
`write_entry` (sparse_matrix_simd.h:434-440 and 627-638). -/
def vecAddress (s nc row pos d k : ℕ) : ℕ :=
  (S.row_starts (row / s) + pos * s) * nc + d * s + k

variable {α : Type}

/-- `get_tensor<Number>`, component `d` (sparse_matrix_simd.h:403-419). -/
def get (s nc : ℕ) (data : ℕ → α) (row pos d : ℕ) : α := data (S.address s nc row pos d)

/-- `get_tensor<VectorizedArray>`, component `d`, lane `k` (sparse_matrix_simd.h:421-440). -/
def getVec (s nc : ℕ) (data : ℕ → α) (row pos d k : ℕ) : α := data (S.vecAddress s nc row pos d k)

/-- `write_entry<Number>` (sparse_matrix_simd.h:592-611): the components are stored one after the
other. -/
def write (s nc : ℕ) (entry : ℕ → α) (row pos : ℕ) (data : ℕ → α) : ℕ → α :=
  (List.range nc).foldl (fun data d => Function.update data (S.address s nc row pos d) (entry d)) data

/-- `write_entry<VectorizedArray>` (sparse_matrix_simd.h:613-638); `entry d k` is lane `k` of component
`d`.  Streaming stores have the same effect. -/
def writeVec (s nc : ℕ) (entry : ℕ → ℕ → α) (row pos : ℕ) (data : ℕ → α) : ℕ → α :=
  (List.range nc).foldl (fun data d => (List.range s).foldl
    (fun data k => Function.update data (S.vecAddress s nc row pos d k) (entry d k)) data) data

/-- `get_transposed_tensor<Number>`, component `d` (sparse_matrix_simd.h:478-527). -/
def getTransposed (s nc : ℕ) (data : ℕ → α) (row pos d : ℕ) : α :=
  let offset := if row < S.n_internal then S.row_starts (row / s) + row % s + pos * s
    else S.row_starts row + pos
  let index := S.indices_transposed.getD offset 0
  if nc > 1 then
    let col := S.column_indices.getD offset 0
    if col < S.n_internal then data (index / s * s * nc + s * d + index % s)
    else data (index * nc + d)
  else data index

/-- `get_transposed_tensor<VectorizedArray>` for one component, lane `k`
(sparse_matrix_simd.h:529-549). -/
def getTransposedVec (s : ℕ) (data : ℕ → α) (row pos k : ℕ) : α :=
  data (S.indices_transposed.getD (S.row_starts (row / s) + pos * s + k) 0)

/-- Lane `k` of column `pos` of row block `row`, resp. column `pos` of a row, as read through
`columns(row)` with the stride of the row (e.g. sparse_matrix_simd.template.h:310-320, 331-335). -/
def column (s row pos : ℕ) : ℕ :=
  S.column_indices.getD (S.columns s row + pos * S.strideOfRow s row) 0

/-- `read_in` (sparse_matrix_simd.template.h:296-352; for one component 358-414): vectorised writes for the row blocks, scalar writes
for the remaining owned rows; `M d i j` is `sparse_matrix[d](i, j)` in local indexing.  The OpenMP loops
are modelled in ascending order; `C28_read_in` and the disjointness of the written addresses make the
order irrelevant. -/
def readIn (s nc : ℕ) (M : ℕ → ℕ → ℕ → α) (data : ℕ → α) : ℕ → α :=
  let data := (List.range ((S.n_internal + s - 1) / s)).foldl (fun data b =>
    let i := b * s
    (List.range (S.rowLength s i)).foldl (fun data c =>
      S.writeVec s nc (fun d k => M d (i + k) (S.column_indices.getD (S.columns s i + c * s + k) 0)) i c
        data) data) data
  (List.range' S.n_internal (S.n_owned - S.n_internal)).foldl (fun data i =>
    (List.range (S.rowLength s i)).foldl (fun data c =>
      S.write s nc (fun d => M d i (S.column_indices.getD (S.columns s i + c) 0)) i c data) data) data

end Simd

end Sparse
end Ryujin
