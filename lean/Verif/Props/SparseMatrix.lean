import Verif.Proofs.SparseMatrix

/-!
# C28, C29 – the SIMD sparse matrix

All statements start from the result `S` of `reinit` applied to a well-formed pattern `P`, for an arbitrary
SIMD length `s`, size of the vectorised range `nI`, and content `garbage` of uninitialised memory.  The
matrix entry `(row, pos)` belongs to column `(P.cols row)[pos]`.
-/

namespace Ryujin
namespace Sparse

variable {P : Pattern} {s nI n_owned : ℕ} {garbage : ℕ → ℕ} {S : Simd} {α : Type}

/-- `reinit` succeeds iff the number of entries fits the index type. -/
theorem C28_reinit_some_iff (P : Pattern) (s nI n_owned : ℕ) (garbage : ℕ → ℕ) :
    (∃ S, reinit P s nI n_owned garbage = some S) ↔ P.nnz < 2 ^ 32 - 1 := by
  unfold reinit
  split_ifs with h
  · exact ⟨fun _ => h, fun _ => ⟨_, rfl⟩⟩
  · exact ⟨fun h' => absurd h' (by simp), fun h' => absurd h' h⟩

/-- **C28 (row lengths and sizes).** The vectorised pattern reports the row lengths of the pattern it was
built from, for every row, and has room for exactly its entries. -/
theorem C28_row_length (h : P.WF s nI) (hS : reinit P s nI n_owned garbage = some S) :
    (∀ row < P.n_rows, S.rowLength s row = P.rowLength row) ∧ S.nNonzero = P.nnz ∧
      S.column_indices.length = P.nnz ∧ S.indices_transposed.length = P.nnz := by
  obtain ⟨rfl, -, hL⟩ := reinit_layout h hS
  refine ⟨fun row hr => ?_, ?_, hL.lengths⟩
  · unfold Simd.rowLength
    split_ifs with hv
    · have hb := base_le h hv
      have e : (row / s + 1) * s = row / s * s + s := by ring
      rw [hL.starts_vec (row / s) (by omega), hL.starts_vec (row / s + 1) (by omega)]
      rw [e, csrStart_next h hv, Nat.add_sub_cancel_left, Nat.mul_div_cancel_left _ h.s_pos]
    · rw [hL.starts_csr _ (by omega) hr, hL.starts_csr _ (by omega) hr.le]
      simp [Pattern.csrStart]
  · unfold Simd.nNonzero Pattern.nnz
    rw [hL.n_rows, hL.starts_csr _ h.le le_rfl]

/-- **C28 (columns).** Walking a row with the documented stride yields its column indices, in order. -/
theorem C28_columns (h : P.WF s nI) (hS : reinit P s nI n_owned garbage = some S) {row pos : ℕ}
    (he : IsEntry P row pos) : S.column s row pos = (P.cols row)[pos]'he.2 := by
  obtain ⟨rfl, -, hL⟩ := reinit_layout h hS
  have hg : (P.cols row).getD pos 0 = (P.cols row)[pos]'he.2 := by
    rw [List.getD_eq_getElem?_getD, List.getElem?_eq_getElem he.2]; rfl
  unfold Simd.column Simd.columns Simd.strideOfRow
  rw [List.getD_eq_getElem?_getD]
  split_ifs with hv
  · have hb := Nat.div_mul_le_self row s
    have hlen : pos < P.rowLength (row / s * s) := by
      have := he.2; rw [← rowLength_base h hv]; exact this
    have := (hL.entries_vec (row / s) (by omega) (row % s) (Nat.mod_lt _ h.s_pos) pos hlen).1
    rw [hL.starts_vec _ (by omega)]
    have e1 : P.csrStart (row / s * s) + row % s + pos * s
        = P.csrStart (row / s * s) + pos * s + row % s := by ring
    have e2 : row / s * s + row % s = row := by rw [Nat.mul_comm]; exact Nat.div_add_mod row s
    rw [e1, this, e2]
    simp only [entryOf, Option.getD_some, hg]
  · have := (hL.entries_csr row (by omega) he.1 pos he.2).1
    rw [hL.starts_csr _ (by omega) he.1.le, Nat.mul_one, this]
    simp only [entryOf, Option.getD_some, hg]

/-- **C28 (memory safety).** Every component of every entry is stored inside the allocated array. -/
theorem C28_in_bounds (h : P.WF s nI) (hS : reinit P s nI n_owned garbage = some S) {nc row pos d : ℕ}
    (he : IsEntry P row pos) (hd : d < nc) : S.address s nc row pos d < S.nNonzero * nc := by
  have hn := (C28_row_length h hS).2.1
  obtain ⟨rfl, -, hL⟩ := reinit_layout h hS
  rw [hn]
  exact lt_of_lt_of_le (address_range h hL he hd).2 (Nat.mul_le_mul_right _ (blockHi_le h he.1))

/-- **C28 (no aliasing).** Different components of entries have different addresses, across the boundary
between the vectorised and the CSR part as well. -/
theorem C28_no_aliasing (h : P.WF s nI) (hS : reinit P s nI n_owned garbage = some S)
    {nc row pos d row' pos' d' : ℕ} (he : IsEntry P row pos) (he' : IsEntry P row' pos')
    (hd : d < nc) (hd' : d' < nc) (heq : S.address s nc row pos d = S.address s nc row' pos' d') :
    row = row' ∧ pos = pos' ∧ d = d' := by
  obtain ⟨rfl, -, hL⟩ := reinit_layout h hS
  exact address_injective h hL he he' hd hd' heq

theorem write_eq (s nc : ℕ) (entry : ℕ → α) (row pos : ℕ) (data : ℕ → α) :
    S.write s nc entry row pos data
      = applyWrites ((List.range nc).map fun d => (S.address s nc row pos d, entry d)) data :=
  applyWrites_map _ _ _ _

theorem writeVec_eq (s nc : ℕ) (entry : ℕ → ℕ → α) (row pos : ℕ) (data : ℕ → α) :
    S.writeVec s nc entry row pos data
      = applyWrites ((List.range nc).flatMap fun d => (List.range s).map fun k =>
          (S.vecAddress s nc row pos d k, entry d k)) data := by
  unfold Simd.writeVec
  simp only [applyWrites_map]
  exact applyWrites_flatMap _ _ _

/-- **C28 (read after write, scalar).** `get_tensor` after `write_entry` returns the entry written, and
every other entry is unchanged. -/
theorem C28_write_read (h : P.WF s nI) (hS : reinit P s nI n_owned garbage = some S)
    {nc row pos : ℕ} (he : IsEntry P row pos) (entry : ℕ → α) (data : ℕ → α) :
    (∀ d < nc, S.get s nc (S.write s nc entry row pos data) row pos d = entry d) ∧
    (∀ row' pos' d', IsEntry P row' pos' → d' < nc → (row', pos') ≠ (row, pos) →
      S.get s nc (S.write s nc entry row pos data) row' pos' d' = S.get s nc data row' pos' d') := by
  constructor
  · intro d hd
    unfold Simd.get
    rw [write_eq]
    refine applyWrites_mem _ _ _ _ (List.mem_map.2 ⟨d, List.mem_range.2 hd, rfl⟩) ?_
    intro w hw hx
    obtain ⟨d', hd', rfl⟩ := List.mem_map.1 hw
    have := C28_no_aliasing h hS he he (List.mem_range.1 hd') hd hx
    simp only [this.2.2]
  · intro row' pos' d' he' hd' hne
    unfold Simd.get
    rw [write_eq]
    refine applyWrites_frame _ _ _ ?_
    intro w hw hx
    obtain ⟨d, hd, rfl⟩ := List.mem_map.1 hw
    have := C28_no_aliasing h hS he he' (List.mem_range.1 hd) hd' hx
    exact hne (by rw [this.1, this.2.1])

/-- **C28 (vectorised reads).** A vectorised access to row block `row` returns in lane `k` what the scalar
access to row `row + k` returns. -/
theorem C28_vectorised_read (h : P.WF s nI) (hS : reinit P s nI n_owned garbage = some S)
    {nc row pos d k : ℕ} (hrow : row < nI) (hdvd : s ∣ row) (hk : k < s) (data : ℕ → α) :
    S.getVec s nc data row pos d k = S.get s nc data (row + k) pos d := by
  obtain ⟨rfl, -, hL⟩ := reinit_layout h hS
  unfold Simd.getVec Simd.get
  rw [vecAddress_eq h hrow hdvd hk]

/-- Rows of one block have an entry at the same positions. -/
theorem isEntry_block (h : P.WF s nI) {row pos k : ℕ} (hrow : row < nI) (hdvd : s ∣ row) (hk : k < s)
    (he : IsEntry P row pos) : IsEntry P (row + k) pos := by
  obtain ⟨m, rfl⟩ := hdvd
  have hs := h.s_pos
  have h1 : (s * m + k) / s = m := by
    rw [Nat.mul_add_div hs, Nat.div_eq_of_lt hk]; rfl
  obtain ⟨q, hq⟩ := h.dvd
  have hmq : m < q := by
    rw [hq] at hrow; exact Nat.lt_of_mul_lt_mul_left hrow
  have h2 : s * m + k < nI := by
    have : s * (m + 1) ≤ s * q := Nat.mul_le_mul_left _ hmq
    have e : s * (m + 1) = s * m + s := by ring
    omega
  refine ⟨lt_of_lt_of_le h2 h.le, ?_⟩
  rw [h.stride _ h2, h1, Nat.mul_comm]
  exact he.2

/-- **C28 (vectorised writes).** A vectorised `write_entry` stores lane `k` in row `row + k`, and leaves
all other entries unchanged. -/
theorem C28_vectorised_write (h : P.WF s nI) (hS : reinit P s nI n_owned garbage = some S)
    {nc row pos : ℕ} (hrow : row < nI) (hdvd : s ∣ row) (he : IsEntry P row pos)
    (entry : ℕ → ℕ → α) (data : ℕ → α) :
    (∀ d < nc, ∀ k < s,
      S.get s nc (S.writeVec s nc entry row pos data) (row + k) pos d = entry d k) ∧
    (∀ row' pos' d', IsEntry P row' pos' → d' < nc → (∀ k < s, (row', pos') ≠ (row + k, pos)) →
      S.get s nc (S.writeVec s nc entry row pos data) row' pos' d' = S.get s nc data row' pos' d') := by
  have hmem : ∀ w ∈ (List.range nc).flatMap (fun d => (List.range s).map fun k =>
      (S.vecAddress s nc row pos d k, entry d k)),
      ∃ d < nc, ∃ k < s, w = (S.address s nc (row + k) pos d, entry d k) := by
    intro w hw
    obtain ⟨d, hd, hw⟩ := List.mem_flatMap.1 hw
    obtain ⟨k, hk, rfl⟩ := List.mem_map.1 hw
    refine ⟨d, List.mem_range.1 hd, k, List.mem_range.1 hk, ?_⟩
    obtain ⟨rfl, -, hL⟩ := reinit_layout h hS
    rw [vecAddress_eq h hrow hdvd (List.mem_range.1 hk)]
  have hin : ∀ d < nc, ∀ k < s, (S.address s nc (row + k) pos d, entry d k) ∈
      (List.range nc).flatMap (fun d => (List.range s).map fun k =>
      (S.vecAddress s nc row pos d k, entry d k)) := by
    intro d hd k hk
    refine List.mem_flatMap.2 ⟨d, List.mem_range.2 hd, List.mem_map.2 ⟨k, List.mem_range.2 hk, ?_⟩⟩
    obtain ⟨rfl, -, hL⟩ := reinit_layout h hS
    rw [vecAddress_eq h hrow hdvd hk]
  constructor
  · intro d hd k hk
    unfold Simd.get
    rw [writeVec_eq]
    refine applyWrites_mem _ _ _ _ (hin d hd k hk) ?_
    intro w hw hx
    obtain ⟨d', hd', k', hk', rfl⟩ := hmem w hw
    have := C28_no_aliasing h hS (isEntry_block h hrow hdvd hk' he) (isEntry_block h hrow hdvd hk he)
      hd' hd hx
    have hkk : k' = k := by omega
    simp only [this.2.2, hkk]
  · intro row' pos' d' he' hd' hne
    unfold Simd.get
    rw [writeVec_eq]
    refine applyWrites_frame _ _ _ ?_
    intro w hw hx
    obtain ⟨d, hd, k, hk, rfl⟩ := hmem w hw
    have := C28_no_aliasing h hS (isEntry_block h hrow hdvd hk he) he' hd hd' hx
    exact hne k hk (by rw [this.1, this.2.1])

/-- **C28 (read_in).** After `read_in` every entry of every locally owned row holds the value of the source
matrix at that row and the entry's column; ghost rows are untouched. -/
theorem C28_read_in (h : P.WF s nI) (hS : reinit P s nI n_owned garbage = some S)
    (hn : nI ≤ n_owned) (ho : n_owned ≤ P.n_rows) (nc : ℕ) (M : ℕ → ℕ → ℕ → α) (data : ℕ → α) :
    (∀ row pos d, row < n_owned → (he : pos < P.rowLength row) → d < nc →
      S.get s nc (S.readIn s nc M data) row pos d = M d row ((P.cols row)[pos]'he)) ∧
    (∀ row pos d, n_owned ≤ row → IsEntry P row pos → d < nc →
      S.get s nc (S.readIn s nc M data) row pos d = S.get s nc data row pos d) := by
  have hlen := (C28_row_length h hS).1
  have hcol := fun {row pos} => C28_columns (row := row) (pos := pos) h hS
  have halias := fun {row pos d row' pos' d'} => C28_no_aliasing (nc := nc) (row := row) (pos := pos)
    (d := d) (row' := row') (pos' := pos') (d' := d') h hS
  have hblock := fun {row pos k} => isEntry_block (row := row) (pos := pos) (k := k) h
  obtain ⟨rfl, rfl, hL⟩ := reinit_layout h hS
  obtain ⟨m, hm⟩ := h.dvd
  have hs := h.s_pos
  have hceil : (S.n_internal + s - 1) / s = m := by
    rw [hm]
    have : s * m + s - 1 = s * m + (s - 1) := by omega
    rw [this, Nat.mul_add_div hs, Nat.div_eq_of_lt (by omega)]; rfl
  -- the stores of `read_in`
  let W1 : List (ℕ × α) := (List.range m).flatMap fun b =>
    (List.range (S.rowLength s (b * s))).flatMap fun c => (List.range nc).flatMap fun d =>
      (List.range s).map fun k => (S.vecAddress s nc (b * s) c d k,
        M d (b * s + k) (S.column_indices.getD (S.columns s (b * s) + c * s + k) 0))
  let W2 : List (ℕ × α) := (List.range' S.n_internal (S.n_owned - S.n_internal)).flatMap fun i =>
    (List.range (S.rowLength s i)).flatMap fun c => (List.range nc).map fun d =>
      (S.address s nc i c d, M d i (S.column_indices.getD (S.columns s i + c) 0))
  have hW : S.readIn s nc M data = applyWrites (W1 ++ W2) data := by
    unfold Simd.readIn
    simp only [writeVec_eq, write_eq, applyWrites_flatMap, hceil]
    rw [applyWrites_append]
  -- every store targets an owned entry with the right value
  have hmem : ∀ w ∈ W1 ++ W2, ∃ row pos d, ∃ he : pos < P.rowLength row, row < S.n_owned ∧ d < nc ∧
      w = (S.address s nc row pos d, M d row ((P.cols row)[pos]'he)) := by
    intro w hw
    rcases List.mem_append.1 hw with hw | hw
    · obtain ⟨b, hb, hw⟩ := List.mem_flatMap.1 hw
      obtain ⟨c, hc, hw⟩ := List.mem_flatMap.1 hw
      obtain ⟨d, hd, hw⟩ := List.mem_flatMap.1 hw
      obtain ⟨k, hk, rfl⟩ := List.mem_map.1 hw
      have hb := List.mem_range.1 hb
      have hc := List.mem_range.1 hc
      have hd := List.mem_range.1 hd
      have hk := List.mem_range.1 hk
      have hbs : b * s < S.n_internal := by
        rw [hm, Nat.mul_comm s m]; exact Nat.mul_lt_mul_of_pos_right hb hs
      rw [hlen _ (lt_of_lt_of_le hbs h.le)] at hc
      have he := hblock hbs (Dvd.intro_left b rfl) hk ⟨lt_of_lt_of_le hbs h.le, hc⟩
      have hv : b * s + k < S.n_internal := by
        have := base_le h hbs
        rw [Nat.mul_div_cancel _ hs] at this
        omega
      refine ⟨b * s + k, c, d, he.2, by omega, hd, ?_⟩
      rw [vecAddress_eq h hbs (Dvd.intro_left b rfl) hk]
      have := hcol he
      unfold Simd.column Simd.columns Simd.strideOfRow at this
      rw [if_pos hv, if_pos hv] at this
      have e1 : (b * s + k) / s = b := by
        rw [Nat.mul_comm, Nat.mul_add_div hs, Nat.div_eq_of_lt hk]; rfl
      have e2 : (b * s + k) % s = k := by
        rw [Nat.mul_comm, Nat.mul_add_mod, Nat.mod_eq_of_lt hk]
      rw [e1, e2] at this
      unfold Simd.columns
      rw [if_pos hbs, Nat.mul_div_cancel _ hs, Nat.mul_mod_left, ← this]
      have e3 : S.row_starts b + 0 + c * s + k = S.row_starts b + k + c * s := by omega
      rw [e3]
    · obtain ⟨i, hi, hw⟩ := List.mem_flatMap.1 hw
      obtain ⟨c, hc, hw⟩ := List.mem_flatMap.1 hw
      obtain ⟨d, hd, rfl⟩ := List.mem_map.1 hw
      obtain ⟨q, hq, rfl⟩ := List.mem_range'.1 hi
      have hc := List.mem_range.1 hc
      have hd := List.mem_range.1 hd
      have hio : S.n_internal + 1 * q < S.n_owned := by omega
      rw [hlen _ (by omega)] at hc
      refine ⟨_, c, d, hc, hio, hd, ?_⟩
      have := hcol (row := S.n_internal + 1 * q) (pos := c) ⟨by omega, hc⟩
      unfold Simd.column Simd.strideOfRow at this
      rw [if_neg (by omega), Nat.mul_one] at this
      rw [this]
  have hin : ∀ row pos d, row < S.n_owned → (he : pos < P.rowLength row) → d < nc →
      (S.address s nc row pos d, M d row ((P.cols row)[pos]'he)) ∈ W1 ++ W2 := by
    intro row pos d hr he hd
    rw [List.mem_append]
    have hentry : IsEntry P row pos := ⟨by omega, he⟩
    by_cases hv : row < S.n_internal
    · left
      have hb := base_le h hv
      have hdm : row / s * s + row % s = row := by rw [Nat.mul_comm]; exact Nat.div_add_mod row s
      have hk := Nat.mod_lt row hs
      have hbs : row / s * s < S.n_internal := by omega
      refine List.mem_flatMap.2 ⟨row / s, List.mem_range.2 ?_, List.mem_flatMap.2 ⟨pos,
        List.mem_range.2 ?_, List.mem_flatMap.2 ⟨d, List.mem_range.2 hd, List.mem_map.2
        ⟨row % s, List.mem_range.2 hk, ?_⟩⟩⟩⟩
      · rw [Nat.div_lt_iff_lt_mul hs, Nat.mul_comm, ← hm]; exact hv
      · rw [hlen _ (by omega), ← rowLength_base h hv]; exact he
      · rw [vecAddress_eq h hbs (Dvd.intro_left _ rfl) hk, hdm]
        have := hcol hentry
        unfold Simd.column Simd.columns Simd.strideOfRow at this
        rw [if_pos hv, if_pos hv] at this
        unfold Simd.columns
        rw [if_pos hbs, Nat.mul_div_cancel _ hs, Nat.mul_mod_left, ← this]
        have e3 : S.row_starts (row / s) + 0 + pos * s + row % s
          = S.row_starts (row / s) + row % s + pos * s := by omega
        rw [e3]
    · right
      refine List.mem_flatMap.2 ⟨row, List.mem_range'.2 ⟨row - S.n_internal, by omega, by omega⟩,
        List.mem_flatMap.2 ⟨pos, List.mem_range.2 ?_, List.mem_map.2 ⟨d, List.mem_range.2 hd, ?_⟩⟩⟩
      · rw [hlen _ (by omega)]; exact he
      · have := hcol hentry
        unfold Simd.column Simd.strideOfRow at this
        rw [if_neg hv, Nat.mul_one] at this
        rw [this]
  constructor
  · intro row pos d hr he hd
    unfold Simd.get
    rw [hW]
    refine applyWrites_mem _ _ _ _ (hin row pos d hr he hd) ?_
    intro w hw hx
    obtain ⟨row', pos', d', he', hr', hd', rfl⟩ := hmem w hw
    obtain ⟨rfl, rfl, rfl⟩ := halias ⟨by omega, he'⟩ ⟨by omega, he⟩ hd' hd hx
    rfl
  · intro row pos d hr he hd
    unfold Simd.get
    rw [hW]
    refine applyWrites_frame _ _ _ ?_
    intro w hw hx
    obtain ⟨row', pos', d', he', hr', hd', rfl⟩ := hmem w hw
    obtain ⟨rfl, rfl, rfl⟩ := halias ⟨by omega, he'⟩ he hd' hd hx
    omega

/-! ### Transposed access -/

/-- Position of the transposed entry: where column `row` sits in row `j`. -/
def transposedPos (P : Pattern) (j row : ℕ) : ℕ := (P.cols j).idxOf row

theorem transposedIndex_vec (h : P.WF s nI) {j row : ℕ} (hj : j < nI) (hm : row ∈ P.cols j) :
    transposedIndex P s nI j row
      = P.csrStart (j / s * s) + transposedPos P j row * s + j % s := by
  have hjn : j < P.n_rows := lt_of_lt_of_le hj h.le
  have hdiag : (P.cols j).idxOf j = 0 := by
    have := h.diag j hjn
    cases hc : P.cols j with
    | nil => rw [hc] at this; simp at this
    | cons a l => rw [hc] at this; simp at this; rw [this, List.idxOf_cons_self]
  have hdm : j ∈ P.cols j := by
    have := h.diag j hjn
    exact List.mem_of_mem_head? (by rw [this]; rfl)
  have hb : j / s * s + j % s = j := by rw [Nat.mul_comm]; exact Nat.div_add_mod j s
  have hcs : P.csrStart j = P.csrStart (j / s * s) + j % s * P.rowLength j := by
    have := csrStart_block h (b := j / s) (k := j % s) (Nat.mod_lt _ h.s_pos).le (by omega)
    rw [hb] at this
    rw [this, h.stride j hj]
  unfold transposedIndex Pattern.position
  simp only [if_pos hm, if_pos hdm, if_pos hj, hdiag, Nat.add_zero]
  unfold transposedPos
  rw [Nat.add_sub_cancel_left, hcs]
  have e : P.csrStart (j / s * s) + j % s * P.rowLength j + List.idxOf row (P.cols j)
      - j % s * P.rowLength j - List.idxOf row (P.cols j) = P.csrStart (j / s * s) := by omega
  rw [e]
  ring

/-- The transposed entry exists. -/
theorem transposed_isEntry (h : P.WF s nI) {row pos : ℕ} (he : IsEntry P row pos) :
    IsEntry P ((P.cols row)[pos]'he.2) (transposedPos P ((P.cols row)[pos]'he.2) row) := by
  have hm : (P.cols row)[pos]'he.2 ∈ P.cols row := List.getElem_mem _
  exact ⟨h.range row he.1 _ hm, List.idxOf_lt_length_of_mem (h.symm row he.1 _ hm)⟩

/-- **C29.** The transposed access to entry `(row, pos)` with column `j` returns the entry of row `j` whose
column is `row` – for any number of components, in the vectorised and in the CSR part, for every content of
the matrix. -/
theorem C29_transposed (h : P.WF s nI) (hS : reinit P s nI n_owned garbage = some S)
    {nc row pos d : ℕ} (hnc : 0 < nc) (hd : d < nc) (he : IsEntry P row pos) (data : ℕ → α) :
    ∃ pos', IsEntry P ((P.cols row)[pos]'he.2) pos' ∧
      (P.cols ((P.cols row)[pos]'he.2))[pos']? = some row ∧
      S.getTransposed s nc data row pos d = S.get s nc data ((P.cols row)[pos]'he.2) pos' d := by
  have hT := transposed_isEntry h he
  set j := (P.cols row)[pos]'he.2 with hj
  have hm : j ∈ P.cols row := List.getElem_mem _
  have hm' : row ∈ P.cols j := h.symm row he.1 _ hm
  refine ⟨transposedPos P j row, hT, ?_, ?_⟩
  · unfold transposedPos
    exact List.getElem?_idxOf hm'
  obtain ⟨rfl, -, hL⟩ := reinit_layout h hS
  have hs := h.s_pos
  have hg : (P.cols row).getD pos 0 = j := by
    rw [List.getD_eq_getElem?_getD, List.getElem?_eq_getElem he.2]; rfl
  -- what is stored at the offset of the entry
  have hoff : ∀ offset, offset = (if row < S.n_internal then S.row_starts (row / s) + row % s + pos * s
      else S.row_starts row + pos) →
      S.indices_transposed.getD offset 0 = transposedIndex P s S.n_internal j row ∧
      S.column_indices.getD offset 0 = j := by
    rintro offset rfl
    rw [List.getD_eq_getElem?_getD, List.getD_eq_getElem?_getD]
    split_ifs with hv
    · have hb := Nat.div_mul_le_self row s
      have hlen : pos < P.rowLength (row / s * s) := by
        have := he.2; rw [← rowLength_base h hv]; exact this
      have := hL.entries_vec (row / s) (by omega) (row % s) (Nat.mod_lt _ hs) pos hlen
      rw [hL.starts_vec _ (by omega)]
      have e1 : P.csrStart (row / s * s) + row % s + pos * s
          = P.csrStart (row / s * s) + pos * s + row % s := by ring
      have e2 : row / s * s + row % s = row := by rw [Nat.mul_comm]; exact Nat.div_add_mod row s
      rw [e1, this.1, this.2, e2]
      simp only [entryOf, Option.getD_some, hg, and_self]
    · have := hL.entries_csr row (by omega) he.1 pos he.2
      rw [hL.starts_csr _ (by omega) he.1.le, this.1, this.2]
      simp only [entryOf, Option.getD_some, hg, and_self]
  obtain ⟨o1, o2⟩ := hoff _ rfl
  unfold Simd.getTransposed Simd.get
  simp only
  rw [o1, o2, address_eq h hL hT.1]
  by_cases hv : j < S.n_internal
  · have hk := Nat.mod_lt j hs
    have ht := transposedIndex_vec h hv hm'
    simp only [if_pos hv]
    unfold blockLo
    rw [if_pos hv]
    obtain ⟨m, hmul⟩ : s ∣ P.csrStart (j / s * s) := by
      have hall : ∀ b, b * s ≤ S.n_internal → s ∣ P.csrStart (b * s) := by
        intro b
        induction b with
        | zero => intro _; simp [Pattern.csrStart]
        | succ b ih =>
          intro hb
          have e : (b + 1) * s = b * s + s := by ring
          rw [e, csrStart_block h le_rfl (by omega)]
          exact Nat.dvd_add (ih (by omega)) (Dvd.intro _ rfl)
      exact hall _ (by have := base_le h hv; omega)
    rw [hmul] at ht ⊢
    have e1 : transposedIndex P s S.n_internal j row / s = m + transposedPos P j row := by
      rw [ht]
      have : s * m + transposedPos P j row * s + j % s = s * (m + transposedPos P j row) + j % s := by
        ring
      rw [this, Nat.mul_add_div hs, Nat.div_eq_of_lt hk]; rfl
    have e2 : transposedIndex P s S.n_internal j row % s = j % s := by
      rw [ht]
      have : s * m + transposedPos P j row * s + j % s = s * (m + transposedPos P j row) + j % s := by
        ring
      rw [this, Nat.mul_add_mod, Nat.mod_eq_of_lt hk]
    split_ifs with hn
    · rw [e1, e2]
      congr 1
      ring
    · obtain rfl : nc = 1 := by omega
      obtain rfl : d = 0 := by omega
      rw [ht]
      congr 1
      ring
  · simp only [if_neg hv]
    have ht : transposedIndex P s S.n_internal j row = P.csrStart j + transposedPos P j row := by
      unfold transposedIndex Pattern.position
      simp only [if_neg hv, if_pos hm']
      rfl
    unfold blockLo
    rw [if_neg hv, ht]
    split_ifs with hn
    · congr 1
      ring
    · obtain rfl : nc = 1 := by omega
      obtain rfl : d = 0 := by omega
      congr 1
      ring

/-- **C29 (vectorised).** The vectorised transposed access of a scalar matrix returns in lane `k` the
transposed entry of row `row + k`. -/
theorem C29_transposed_vectorised (h : P.WF s nI) (hS : reinit P s nI n_owned garbage = some S)
    {row pos k : ℕ} (hrow : row < nI) (hdvd : s ∣ row) (hk : k < s) (data : ℕ → α) :
    S.getTransposedVec s data row pos k = S.getTransposed s 1 data (row + k) pos 0 := by
  obtain ⟨rfl, -, hL⟩ := reinit_layout h hS
  obtain ⟨m, rfl⟩ := hdvd
  have hs := h.s_pos
  have h1 : (s * m + k) / s = m := by
    rw [Nat.mul_add_div hs, Nat.div_eq_of_lt hk]; rfl
  have h2 : s * m / s = m := Nat.mul_div_cancel_left _ hs
  have h3 : (s * m + k) % s = k := by rw [Nat.mul_add_mod, Nat.mod_eq_of_lt hk]
  have h4 : s * m + k < S.n_internal := by
    have := base_le h hrow
    rw [h2, Nat.mul_comm] at this
    omega
  unfold Simd.getTransposedVec Simd.getTransposed
  simp only [if_pos h4, h1, h2, h3, gt_iff_lt, lt_irrefl, if_false]
  congr 2
  omega

/-- **C29 (consequence).** If the matrix is symmetric as a function of (row, column), the transposed access
returns the entry itself. -/
theorem C29_symmetric (h : P.WF s nI) (hS : reinit P s nI n_owned garbage = some S)
    {nc : ℕ} (hnc : 0 < nc) (data : ℕ → α) (A : ℕ → ℕ → ℕ → α)
    (hA : ∀ row pos d, (he : IsEntry P row pos) → d < nc →
      S.get s nc data row pos d = A d row ((P.cols row)[pos]'he.2))
    (hsym : ∀ d i j, A d i j = A d j i) {row pos d : ℕ} (he : IsEntry P row pos) (hd : d < nc) :
    S.getTransposed s nc data row pos d = S.get s nc data row pos d := by
  obtain ⟨pos', he', hp, ht⟩ := C29_transposed h hS hnc hd he data
  rw [ht, hA _ _ _ he' hd, hA _ _ _ he hd]
  have : (P.cols ((P.cols row)[pos]'he.2))[pos']'he'.2 = row := by
    rw [List.getElem?_eq_getElem he'.2] at hp
    exact Option.some.inj hp
  rw [this, hsym]

/-! ### A concrete pattern

A ring of six nodes, the first four vectorised with SIMD length two, all rows of length three. -/

/-- Ring of six nodes, diagonal first. -/
def ringPattern : Pattern where
  n_rows := 6
  cols i := [i, (i + 1) % 6, (i + 5) % 6]

theorem ringPattern_wf : ringPattern.WF 2 4 where
  s_pos := by decide
  dvd := by decide
  le := by decide
  diag := by intro i _; rfl
  nodup := by decide
  range := by decide
  symm := by decide
  stride := by decide

/-- Non-vacuity: `reinit` succeeds on the ring, and the transposed entry of `(0, 1)` – row 0, column 1 – is
entry `(1, 2)`. -/
example : ∃ S, reinit ringPattern 2 4 5 (fun _ => 77) = some S ∧
    ∀ data : ℕ → ℤ, S.getTransposed 2 3 data 0 1 2 = S.get 2 3 data 1 2 2 := by
  obtain ⟨S, hS⟩ := (C28_reinit_some_iff ringPattern 2 4 5 fun _ => 77).2 (by decide)
  refine ⟨S, hS, fun data => ?_⟩
  have he : IsEntry ringPattern 0 1 := by unfold IsEntry; decide
  obtain ⟨pos', he', hp, ht⟩ := C29_transposed ringPattern_wf hS (nc := 3) (d := 2) (by decide)
    (by decide) he data
  have e : (ringPattern.cols 0)[1]'he.2 = 1 := rfl
  rw [ht, e]
  rw [e] at he' hp
  have : pos' = 2 := by
    have hlt : pos' < 3 := he'.2
    have hp : [1, 2, 0][pos']? = some 0 := hp
    rcases Nat.lt_succ_iff_lt_or_eq.1 hlt with h | h
    · rcases Nat.lt_succ_iff_lt_or_eq.1 h with h | h
      · obtain rfl : pos' = 0 := by omega
        simp at hp
      · subst h; simp at hp
    · exact h
  rw [this]

end Sparse
end Ryujin
