import Verif.Model.SparseMatrix

/-!
# Model of the ghost row exchange of `source/sparse_matrix_simd.{h,template.h}`

The deal.II `Partitioner` is an interface: a contiguous range of owned global indices and the sorted list
of ghost indices; its import lists are derived from the ghost lists of the other ranks, which is what
deal.II's index-owner exchange computes.  `import_indices()` stores the import list as a list of intervals,
which `reinit` immediately expands (sparse_matrix_simd.template.h:206-209); the model keeps the expanded
list.  MPI is modelled by its specification: a message from `p` to `q` carries the posted bytes, and a
receive of a shorter message fills a prefix of its buffer.
-/

namespace Ryujin
namespace Sparse

/-- `dealii::Utilities::MPI::Partitioner`: the owned range `[first, first + n_owned)` and the ghost
indices, in ascending order. (sparse_matrix_simd.template.h:44-52) -/
structure Partitioner where
  first : ℕ
  n_owned : ℕ
  ghosts : List ℕ

namespace Partitioner

variable (part : Partitioner)

/-- The owned range. (sparse_matrix_simd.template.h:48) -/
def Owned (g : ℕ) : Prop := part.first ≤ g ∧ g < part.first + part.n_owned

instance : DecidablePred part.Owned := fun _ => inferInstanceAs (Decidable (_ ∧ _))

/-- Number of locally relevant indices. (sparse_matrix_simd.template.h:50-52) -/
def nRelevant : ℕ := part.n_owned + part.ghosts.length

/-- `local_to_global`: owned indices first, then the ghosts in ascending order. (sparse_matrix_simd.template.h:64) -/
def localToGlobal (i : ℕ) : ℕ :=
  if i < part.n_owned then part.first + i else part.ghosts.getD (i - part.n_owned) 0

/-- `global_to_local`. (sparse_matrix_simd.template.h:67) -/
def globalToLocal (g : ℕ) : ℕ :=
  if part.Owned g then g - part.first else part.n_owned + part.ghosts.idxOf g

end Partitioner

/-- The entries added to `dsp_minimal` (sparse_matrix_simd.template.h:60-73): for every owned row all its
columns, and for ghost columns the transposed entry as well. -/
def minimalEntries (dsp : ℕ → List ℕ) (part : Partitioner) : List (ℕ × ℕ) :=
  (List.range part.n_owned).flatMap fun i => (dsp (part.localToGlobal i)).flatMap fun column =>
    let j := part.globalToLocal column
    (i, j) :: if j ≥ part.n_owned then [(j, i)] else []

/-- `sparsity.copy_from(dsp_minimal)` (sparse_matrix_simd.template.h:75-76): deal.II stores the diagonal
of a square pattern first (adding it if it is missing), then the other columns in ascending order. -/
def minimalPattern (dsp : ℕ → List ℕ) (part : Partitioner) : Pattern where
  n_rows := part.nRelevant
  cols row := row :: (List.range part.nRelevant).filter fun j =>
    decide (j ≠ row ∧ (row, j) ∈ minimalEntries dsp part)

/-- All ranks: `R` partitioners of one index range. (sparse_matrix_simd.template.h:152-164) -/
structure World where
  R : ℕ
  part : ℕ → Partitioner

namespace World

variable (W : World)

/-- The ghost indices of `q` owned by `p`. (sparse_matrix_simd.template.h:164, 200-209) -/
def shared (q p : ℕ) : List ℕ := (W.part q).ghosts.filter fun g => decide ((W.part p).Owned g)

/-- `ghost_targets()` of rank `q`: for every rank owning ghosts of `q` the rank and their number, in
ascending order. (sparse_matrix_simd.template.h:164) -/
def ghostTargets (q : ℕ) : List (ℕ × ℕ) :=
  (List.range W.R).filterMap fun p => if W.shared q p = [] then none else some (p, (W.shared q p).length)

/-- `import_targets()` of rank `p`: for every rank with ghosts owned by `p` the rank and their number.
(sparse_matrix_simd.template.h:206-240) -/
def importTargets (p : ℕ) : List (ℕ × ℕ) :=
  (List.range W.R).filterMap fun q => if W.shared q p = [] then none else some (q, (W.shared q p).length)

/-- The expanded `import_indices()` of rank `p` (sparse_matrix_simd.template.h:206-209): local indices of
`p`, grouped by import target. -/
def importIndices (p : ℕ) : List ℕ :=
  (List.range W.R).flatMap fun q => (W.shared q p).map (W.part p).globalToLocal

end World

/-- State of the loop that sets up the receive targets. (sparse_matrix_simd.template.h:172-187) -/
structure RecvState where
  index : ℕ
  row_count : ℕ
  targets : List ℕ

/-- Loop body of sparse_matrix_simd.template.h:180-188; the position of `gt_ptr` is the number of targets
already set. -/
def recvRow (P : Pattern) (gts : List (ℕ × ℕ)) (st : RecvState) (i : ℕ) : RecvState :=
  let index := st.index + P.rowLength i
  let row_count := st.row_count + 1
  if row_count = (gts.getD st.targets.length (0, 0)).2 then ⟨index, 0, st.targets ++ [index]⟩
  else ⟨index, row_count, st.targets⟩

/-- `receive_targets[p].second` (sparse_matrix_simd.template.h:164-191). -/
def receiveTargets (P : Pattern) (n_owned : ℕ) (gts : List (ℕ × ℕ)) : List ℕ :=
  ((List.range' n_owned (P.n_rows - n_owned)).foldl (recvRow P gts) ⟨0, 0, []⟩).targets

/-- The `while` loop matching up ranks (sparse_matrix_simd.template.h:236-239), started at `p_match`. -/
def matchRank (receive : List (ℕ × ℕ)) (rank : ℕ) (p_match : ℕ) : ℕ :=
  p_match + ((receive.drop p_match).takeWhile fun t => decide (t.1 ≠ rank)).length

/-- State of the loop that collects the entries to be sent. (sparse_matrix_simd.template.h:200-260) -/
structure SendState where
  p_match : ℕ
  idx : List ℕ
  entries : List (ℕ × ℕ)
  targets : List (ℕ × ℕ)

/-- The entries collected for one imported row (sparse_matrix_simd.template.h:252-262): the diagonal and
the columns in the ghost range of the matched rank. -/
def rowEntries (P : Pattern) (lo hi row : ℕ) : List (ℕ × ℕ) :=
  (row, 0) :: ((List.range' 1 (P.rowLength row - 1)).filter fun c =>
    decide (lo ≤ (P.cols row).getD c 0 ∧ (P.cols row).getD c 0 < hi)).map fun c => (row, c)

/-- `ghost_ranges[p]` (sparse_matrix_simd.template.h:200-204). -/
def ghostRange (n_owned : ℕ) (gts : List (ℕ × ℕ)) (p : ℕ) : ℕ :=
  n_owned + ((gts.take p).map Prod.snd).sum

/-- Loop body for one import target (sparse_matrix_simd.template.h:222-270). -/
def sendTarget (P : Pattern) (n_owned : ℕ) (gts : List (ℕ × ℕ)) (st : SendState) (t : ℕ × ℕ) :
    SendState :=
  let p_match := matchRank gts t.1 (if st.p_match = gts.length then 0 else st.p_match)
  let new := if p_match = gts.length then []
    else (st.idx.take t.2).flatMap
      (rowEntries P (ghostRange n_owned gts p_match) (ghostRange n_owned gts (p_match + 1)))
  let entries := st.entries ++ new
  { p_match, idx := st.idx.drop t.2, entries, targets := st.targets ++ [(t.1, entries.length)] }

/-- The exchange pattern of one rank: `receive_targets`, `entries_to_be_sent`, `send_targets`.
(sparse_matrix_simd.template.h:152-260) -/
structure Exchange where
  receive : List (ℕ × ℕ)
  entries : List (ℕ × ℕ)
  send : List (ℕ × ℕ)

/-- Third part of `reinit` (sparse_matrix_simd.template.h:151-272).  Nothing is set up on a rank without
ghost indices. -/
def exchangePattern (dsp : ℕ → List ℕ) (W : World) (p : ℕ) : Exchange :=
  let P := minimalPattern dsp (W.part p)
  let n_owned := (W.part p).n_owned
  let gts := W.ghostTargets p
  if P.n_rows > n_owned then
    let st := (W.importTargets p).foldl (sendTarget P n_owned gts) ⟨0, W.importIndices p, [], []⟩
    { receive := List.zip (gts.map Prod.fst) (receiveTargets P n_owned gts)
      entries := st.entries, send := st.targets }
  else ⟨[], [], []⟩

namespace Exchange

/-- Begin of the range of target `a`: `(a == 0 ? 0 : targets[a - 1].second)`. (sparse_matrix_simd.h:649-760) -/
def start (targets : List (ℕ × ℕ)) (a : ℕ) : ℕ :=
  if a = 0 then 0 else (targets.getD (a - 1) (0, 0)).2

/-- The entries of the send buffer addressed to rank `q`, in order, or `none` if no send to `q` is posted
(sparse_matrix_simd.h:690-747). -/
def message (E : Exchange) (q : ℕ) : Option (List (ℕ × ℕ)) :=
  let a := (E.send.map Prod.fst).idxOf q
  if a < E.send.length then
    some ((E.entries.drop (start E.send a)).take ((E.send.getD a (0, 0)).2 - start E.send a))
  else none

end Exchange

/-- The ghost part of rank `q`'s data after `update_ghost_rows` (sparse_matrix_simd.h:649-760): for every
receive target `a` with rank `p`, the `x`-th received entry is stored at
`n_components * (row_starts[n_owned] + start + x) + d`.  `value p row pos d` is `get_tensor` on rank `p`.
A location no message writes to keeps its old value. -/
def received {α : Type} (nc : ℕ) (base : ℕ) (E : ℕ → Exchange) (value : ℕ → ℕ → ℕ → ℕ → α) (q : ℕ)
    (data : ℕ → α) : ℕ → α :=
  (List.range (E q).receive.length).foldl (fun data a =>
    let t := (E q).receive.getD a (0, 0)
    match (E t.1).message q with
    | none => data
    | some m =>
      (List.range m.length).foldl (fun data x => (List.range nc).foldl (fun data d =>
        Function.update data (nc * (base + Exchange.start (E q).receive a + x) + d)
          (value t.1 (m.getD x (0, 0)).1 (m.getD x (0, 0)).2 d)) data) data) data

end Sparse
end Ryujin
