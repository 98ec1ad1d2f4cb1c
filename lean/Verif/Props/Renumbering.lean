import Verif.Proofs.Renumbering
import Mathlib.Data.Finset.Card

/-!
# C31, C32 – renumbering of the degrees of freedom

A renumbering is given by its vector `new_order`, which assigns to the old local index `i` its new global
index.  `offset` is the first owned global index, so that the new local index is `new_order[i] - offset`.
-/

namespace Ryujin
namespace Renumbering

variable {offset g nOwned nInternal : ℕ}

/-- `new_order` is a permutation of the owned range `[offset, offset + n)`. -/
structure IsPermutation (offset n : ℕ) (new_order : ℕ → Option ℕ) : Prop where
  total : ∀ i < n, ∃ a < n, new_order i = some (offset + a)
  onto : ∀ a < n, ∃ i < n, new_order i = some (offset + a)
  inj : ∀ i < n, ∀ i' < n, new_order i = new_order i' → i = i'

theorem reorderGroups_perm (hg : 0 < g) (hd : g ∣ nInternal) (hle : nInternal ≤ nOwned)
    (keep : ℕ → Bool) :
    ((groupOrder nInternal g keep).flatMap (grp g) ++
      List.range' nInternal (nOwned - nInternal)).Perm (List.range nOwned) := by
  obtain ⟨⟨st, -, h⟩, -⟩ := reorderGroups_assigned (offset := 0) (nOwned := nOwned) hg hd keep
  rw [List.perm_ext_iff_of_nodup h.nodup List.nodup_range]
  intro i
  rw [List.mem_append, mem_groups hg, mem_groupOrder, List.mem_range'_1, List.mem_range,
    Nat.div_lt_iff_lt_mul hg, Nat.div_mul_cancel hd]
  omega

/-- The skeleton shared by the two group renumberings: a permutation; the indices outside the internal range
are kept; the groups satisfying `keep` fill exactly `[0, n)`, in their old order, where `n` is the returned
number; groups stay groups. -/
theorem reorderGroups_spec (hg : 0 < g) (hd : g ∣ nInternal) (hle : nInternal ≤ nOwned)
    (keep : ℕ → Bool) :
    let r := reorderGroups offset nOwned nInternal g keep
    IsPermutation offset nOwned r.1 ∧
    (∀ i, nInternal ≤ i → i < nOwned → r.1 i = some (offset + i)) ∧
    g ∣ r.2 ∧ r.2 ≤ nInternal ∧
    (∀ i < nInternal, ∃ a < nInternal, r.1 i = some (offset + a) ∧ (a < r.2 ↔ keep (i / g * g)) ∧
      a % g = i % g) ∧
    (∀ i < nInternal, ∀ i' < nInternal, ∀ a a', r.1 i = some (offset + a) →
      r.1 i' = some (offset + a') → (a / g = a' / g ↔ i / g = i' / g)) := by
  intro r
  obtain ⟨⟨st, hst, h⟩, hn⟩ := reorderGroups_assigned (offset := offset) (nOwned := nOwned) hg hd keep
  have hp := reorderGroups_perm hg hd hle keep
  set L1 := (groupOrder nInternal g keep).flatMap (grp g) with hL1
  have hlen1 : L1.length = nInternal := by
    rw [hL1, groups_length, (groupOrder_perm _ _).length_eq, List.length_range, Nat.div_mul_cancel hd]
  have hbij := h.bijective hp
  rw [← hst] at hbij
  -- position of an internal index
  have hpos : ∀ i < nInternal, ∃ (k : ℕ) (hk : k < (groupOrder nInternal g keep).length),
      (groupOrder nInternal g keep)[k] = i / g ∧ k * g + i % g < nInternal ∧
      r.1 i = some (offset + (k * g + i % g)) := by
    intro i hi
    have hb : i / g ∈ groupOrder nInternal g keep := by
      rw [mem_groupOrder, Nat.div_lt_iff_lt_mul hg, Nat.div_mul_cancel hd]; exact hi
    obtain ⟨k, hk, hke⟩ := List.getElem_of_mem hb
    have hget := groups_get (groupOrder nInternal g keep) hk (Nat.mod_lt i hg)
    rw [← hL1, hke] at hget
    have e : i / g * g + i % g = i := by rw [Nat.mul_comm]; exact Nat.div_add_mod i g
    rw [e] at hget
    obtain ⟨hlt, hge⟩ := List.getElem?_eq_some_iff.1 hget
    refine ⟨k, hk, hke, by omega, ?_⟩
    have := h.order (k * g + i % g) (by rw [List.length_append]; omega)
    rw [List.getElem_append_left hlt, hge, ← hst] at this
    exact this
  have hdivk : ∀ k i, (k * g + i % g) / g = k := by
    intro k i
    rw [Nat.mul_comm, Nat.mul_add_div hg, Nat.div_eq_of_lt (Nat.mod_lt _ hg), Nat.add_zero]
  have hKlen : ((List.range (nInternal / g)).filter fun b => keep (b * g)).length
      ≤ nInternal / g := by
    have := List.length_filter_le (fun b => keep (b * g)) (List.range (nInternal / g))
    rwa [List.length_range] at this
  refine ⟨⟨hbij.1, hbij.2.1, hbij.2.2⟩, ?_, ?_, ?_, ?_, ?_⟩
  · intro i h1 h2
    have := h.order i (by rw [hp.length_eq, List.length_range]; exact h2)
    rw [List.getElem_append_right (by omega), ← hst] at this
    simp only [List.getElem_range', hlen1] at this
    have e : nInternal + 1 * (i - nInternal) = i := by omega
    rw [e] at this
    exact this
  · exact ⟨_, by rw [show r.2 = _ from hn, Nat.mul_comm]⟩
  · rw [show r.2 = _ from hn]
    calc _ ≤ nInternal / g * g := Nat.mul_le_mul_right _ hKlen
      _ = nInternal := Nat.div_mul_cancel hd
  · intro i hi
    obtain ⟨k, hk, hke, hlt, hr⟩ := hpos i hi
    refine ⟨_, hlt, hr, ?_, ?_⟩
    · rw [show r.2 = _ from hn, ← Nat.div_lt_iff_lt_mul hg, hdivk]
      unfold groupOrder at hk hke
      constructor
      · intro hlt
        rw [List.getElem_append_left hlt] at hke
        have := List.getElem_mem hlt
        rw [hke, List.mem_filter] at this
        exact this.2
      · intro hkeep
        by_contra hge
        rw [List.getElem_append_right (by omega)] at hke
        have hmem := List.getElem_mem (l := (List.range (nInternal / g)).filter fun b => !keep (b * g))
          (n := k - ((List.range (nInternal / g)).filter fun b => keep (b * g)).length)
          (by rw [List.length_append] at hk; omega)
        rw [hke, List.mem_filter] at hmem
        simp [hkeep] at hmem
    · rw [Nat.mul_comm, Nat.mul_add_mod, Nat.mod_mod]
  · intro i hi i' hi' a a' ha ha'
    obtain ⟨k, hk, hke, hlt, hr⟩ := hpos i hi
    obtain ⟨k', hk', hke', hlt', hr'⟩ := hpos i' hi'
    rw [hr, Option.some.injEq] at ha
    rw [hr', Option.some.injEq] at ha'
    have e : a = k * g + i % g := by omega
    have e' : a' = k' * g + i' % g := by omega
    rw [e, e', hdivk, hdivk, ← hke, ← hke']
    have hnd : (groupOrder nInternal g keep).Nodup :=
      (groupOrder_perm _ _).nodup_iff.2 List.nodup_range
    exact (hnd.getElem_inj_iff).symm

/-- **C31 (`export_indices_first`).** For every export set: a permutation; non-internal indices keep their
number; the returned number `n` is a multiple of the group size within the internal range; an internal index
ends up below `n` iff its group contains an export index; and two indices are in the same group afterwards
iff they were before. -/
theorem C31_export_indices_first (hg : 0 < g) (hd : g ∣ nInternal) (hle : nInternal ≤ nOwned)
    (exported : ℕ → Bool) :
    let r := exportIndicesFirst offset nOwned nInternal g exported
    IsPermutation offset nOwned r.1 ∧
    (∀ i, nInternal ≤ i → i < nOwned → r.1 i = some (offset + i)) ∧
    g ∣ r.2 ∧ r.2 ≤ nInternal ∧
    (∀ i < nInternal, ∃ a < nInternal, r.1 i = some (offset + a) ∧
      (a < r.2 ↔ ∃ i', i' / g = i / g ∧ exported i')) ∧
    (∀ i < nInternal, ∀ i' < nInternal, ∀ a a', r.1 i = some (offset + a) →
      r.1 i' = some (offset + a') → (a / g = a' / g ↔ i / g = i' / g)) := by
  intro r
  obtain ⟨h1, h2, h3, h4, h5, h6⟩ := reorderGroups_spec (offset := offset) hg hd hle
    (fun i => (List.range g).any fun j => exported (i + j))
  refine ⟨h1, h2, h3, h4, ?_, h6⟩
  intro i hi
  obtain ⟨a, ha, hr, hiff, -⟩ := h5 i hi
  refine ⟨a, ha, hr, hiff.trans ?_⟩
  rw [List.any_eq_true]
  constructor
  · rintro ⟨j, hj, he⟩
    refine ⟨i / g * g + j, ?_, he⟩
    rw [Nat.mul_comm, Nat.mul_add_div hg, Nat.div_eq_of_lt (List.mem_range.1 hj), Nat.add_zero]
  · rintro ⟨i', hi', he⟩
    refine ⟨i' % g, List.mem_range.2 (Nat.mod_lt _ hg), ?_⟩
    rw [← hi', Nat.mul_comm, Nat.div_add_mod]
    exact he

/-- **C31 (`inconsistent_strides_last`).** A permutation keeping the non-internal indices, after which
exactly the groups with uniform row length come first; in particular all groups below the returned number
have uniform row length (`rowLength` is the row length of an old index, which moves with the index). -/
theorem C31_inconsistent_strides_last (hg : 0 < g) (hd : g ∣ nInternal) (hle : nInternal ≤ nOwned)
    (rowLength : ℕ → ℕ) :
    let r := inconsistentStridesLast offset nOwned nInternal g rowLength
    IsPermutation offset nOwned r.1 ∧
    (∀ i, nInternal ≤ i → i < nOwned → r.1 i = some (offset + i)) ∧
    g ∣ r.2 ∧ r.2 ≤ nInternal ∧
    (∀ i < nInternal, ∃ a < nInternal, r.1 i = some (offset + a) ∧
      (a < r.2 ↔ ∀ i' i'', i' / g = i / g → i'' / g = i / g → rowLength i' = rowLength i'')) ∧
    (∀ i < nInternal, ∀ i' < nInternal, ∀ a a', r.1 i = some (offset + a) →
      r.1 i' = some (offset + a') → a < r.2 → a / g = a' / g → rowLength i = rowLength i') := by
  intro r
  obtain ⟨h1, h2, h3, h4, h5, h6⟩ := reorderGroups_spec (offset := offset) hg hd hle
    (fun i => (List.range g).all fun j => decide (rowLength i = rowLength (i + j)))
  have hiff : ∀ i < nInternal, ∃ a < nInternal, r.1 i = some (offset + a) ∧
      (a < r.2 ↔ ∀ i' i'', i' / g = i / g → i'' / g = i / g → rowLength i' = rowLength i'') := by
    intro i hi
    obtain ⟨a, ha, hr, hiff, -⟩ := h5 i hi
    refine ⟨a, ha, hr, hiff.trans ?_⟩
    rw [List.all_eq_true]
    simp only [List.mem_range, decide_eq_true_eq]
    constructor
    · intro h
      have key : ∀ i', i' / g = i / g → rowLength (i / g * g) = rowLength i' := by
        intro i' hi'
        have := h (i' % g) (Nat.mod_lt _ hg)
        rwa [← hi', Nat.mul_comm, Nat.div_add_mod, Nat.mul_comm, hi'] at this
      intro i' i'' h' h''
      rw [← key i' h', ← key i'' h'']
    · intro h j hj
      apply h
      · exact Nat.mul_div_cancel _ hg
      · rw [Nat.mul_comm, Nat.mul_add_div hg, Nat.div_eq_of_lt hj, Nat.add_zero]
  refine ⟨h1, h2, h3, h4, hiff, ?_⟩
  intro i hi i' hi' a a' ha ha' hlt hdiv
  obtain ⟨b, -, hb, hu⟩ := hiff i hi
  have hab : a = b := by
    have := ha.symm.trans hb
    rw [Option.some.injEq] at this; omega
  subst hab
  exact hu.1 hlt i i' rfl ((h6 i hi i' hi' a a' ha ha').1 hdiv).symm

/-- **C31 (`internal_range`).** A permutation of the owned range; the returned number `n` is a multiple of
the group size; below `n` all groups consist of indices with the same row length; and `n` is as large as
possible: of the remaining indices fewer than `g` have the same row length. -/
theorem C31_internal_range (hg : 0 < g) (rowLength : ℕ → ℕ) (bound : ℕ)
    (hb : ∀ i < nOwned, rowLength i ≤ bound) :
    let r := internalRange offset nOwned g rowLength bound
    IsPermutation offset nOwned r.1 ∧ g ∣ r.2 ∧ r.2 ≤ nOwned ∧
    (∀ i < nOwned, ∀ i' < nOwned, ∀ a a', r.1 i = some (offset + a) → r.1 i' = some (offset + a') →
      a < r.2 → a / g = a' / g → rowLength i = rowLength i') ∧
    (∀ (T : Finset ℕ) (len : ℕ), (∀ i ∈ T, i < nOwned ∧ rowLength i = len ∧
      ∃ a, r.1 i = some (offset + a) ∧ r.2 ≤ a) → T.card < g) := by
  intro r
  obtain ⟨L, R, st, hst, hn, h, hp, hdvd, hu, hR⟩ :=
    internalRange_assigned (offset := offset) (rowLength := rowLength) hg nOwned bound hb
  have hbij := h.bijective hp
  rw [← hst] at hbij
  have hmem : ∀ i < nOwned, i ∈ L ++ R := fun i hi => hp.mem_iff.2 (List.mem_range.2 hi)
  refine ⟨⟨hbij.1, hbij.2.1, hbij.2.2⟩, ?_, ?_, ?_, ?_⟩
  · rw [show r.2 = _ from hn]; exact hdvd
  · rw [show r.2 = _ from hn]
    have := hp.length_eq
    rw [List.length_append, List.length_range] at this
    omega
  · intro i hi i' hi' a a' ha ha' hlt hdiv
    rw [show r.2 = _ from hn] at hlt
    rw [show r.1 = _ from hst] at ha ha'
    obtain ⟨hal, hLa⟩ := h.index (hmem i hi) ha
    obtain ⟨hal', hLa'⟩ := h.index (hmem i' hi') ha'
    have hlt' : a' < L.length := by
      obtain ⟨m, hm⟩ := hdvd
      have h1 : a / g < m := by rw [Nat.div_lt_iff_lt_mul hg, Nat.mul_comm, ← hm]; exact hlt
      rw [hdiv, Nat.div_lt_iff_lt_mul hg, Nat.mul_comm, ← hm] at h1
      exact h1
    rw [List.getElem_append_left hlt] at hLa
    rw [List.getElem_append_left hlt'] at hLa'
    rw [← hLa, ← hLa']
    exact hu a a' hlt hlt' hdiv
  · intro T len hT
    have hsub : T ⊆ (R.filter fun i => decide (rowLength i = len)).toFinset := by
      intro i hi
      obtain ⟨h1, h2, a, ha, hge⟩ := hT i hi
      rw [show r.2 = _ from hn] at hge
      rw [show r.1 = _ from hst] at ha
      obtain ⟨hal, hLa⟩ := h.index (hmem i h1) ha
      rw [List.getElem_append_right hge] at hLa
      rw [List.mem_toFinset, List.mem_filter, decide_eq_true_eq]
      exact ⟨hLa ▸ List.getElem_mem _, h2⟩
    calc T.card ≤ _ := Finset.card_le_card hsub
      _ ≤ _ := List.toFinset_card_le _
      _ < g := hR len

/-- **C31 (`consistent_stride_range`).** The number computed in `setup()` marks the longest prefix of the
internal range made of complete groups with uniform row length. -/
theorem C31_consistent_stride_range (hg : 0 < g) (rowLength : ℕ → ℕ) (hd : g ∣ nInternal) :
    g ∣ consistentStrideRange nInternal g rowLength ∧
    consistentStrideRange nInternal g rowLength ≤ nInternal ∧
    (∀ i i', i < consistentStrideRange nInternal g rowLength → i / g = i' / g →
      rowLength i = rowLength i') ∧
    (consistentStrideRange nInternal g rowLength < nInternal →
      ∃ i i', i / g = i' / g ∧ i / g * g = consistentStrideRange nInternal g rowLength ∧
        rowLength i ≠ rowLength i') := by
  obtain ⟨-, h2, h3, h4⟩ := strideScan_spec (rowLength := rowLength) hg nInternal 0 0
    (by simp)
  unfold consistentStrideRange
  set r := strideScan g rowLength nInternal 0 0
  have hle := Nat.div_mul_le_self r g
  refine ⟨dvd_mul_left _ _, by omega, ?_, ?_⟩
  · intro i i' hi hii
    have hi' : i' < r / g * g := by
      rw [← Nat.div_lt_iff_lt_mul hg, ← hii, Nat.div_lt_iff_lt_mul hg]; exact hi
    rw [h3 i (Nat.zero_le _) (by omega), h3 i' (Nat.zero_le _) (by omega), hii]
  · intro hlt
    have hr : r < 0 + nInternal := by
      by_contra hge
      have : r = nInternal := by omega
      rw [this, Nat.div_mul_cancel hd] at hlt
      omega
    exact ⟨r, r / g * g, (Nat.mul_div_cancel _ hg).symm, rfl, h4 hr⟩

/-! ### Number of export indices -/

theorem fold_max_le (nInternal : ℕ) (imports : List (ℕ × ℕ)) (n : ℕ) (hn : n ≤ nInternal) :
    imports.foldl (fun n it => if it.2 ≤ nInternal then max n it.2 else n) n ≤ nInternal ∧
    n ≤ imports.foldl (fun n it => if it.2 ≤ nInternal then max n it.2 else n) n ∧
    ∀ it ∈ imports, it.2 ≤ nInternal →
      it.2 ≤ imports.foldl (fun n it => if it.2 ≤ nInternal then max n it.2 else n) n := by
  induction imports generalizing n with
  | nil => simp [hn]
  | cons a l ih =>
    rw [List.foldl_cons]
    split_ifs with ha
    · obtain ⟨h1, h2, h3⟩ := ih (max n a.2) (by omega)
      refine ⟨h1, by omega, ?_⟩
      intro it hit hle
      rcases List.mem_cons.1 hit with rfl | hit
      · omega
      · exact h3 it hit hle
    · obtain ⟨h1, h2, h3⟩ := ih n hn
      refine ⟨h1, h2, ?_⟩
      intro it hit hle
      rcases List.mem_cons.1 hit with rfl | hit
      · omega
      · exact h3 it hit hle

/-- **C32 (no constraints).** Without affine constraints `n_export_indices` is the number returned by
`export_indices_first`: every exported index of the internal range ends up below it. -/
theorem C32_unconstrained (hg : 0 < g) (hd : g ∣ nInternal) (hle : nInternal ≤ nOwned)
    (exported : ℕ → Bool) :
    let r := exportIndicesFirst offset nOwned nInternal g exported
    ∀ i < nInternal, exported i → ∃ a < r.2, r.1 i = some (offset + a) := by
  intro r i hi he
  obtain ⟨a, ha, hr, hiff⟩ :=
    (C31_export_indices_first (offset := offset) hg hd hle exported).2.2.2.2.1 i hi
  exact ⟨a, hiff.2 ⟨i, rfl, he⟩, hr⟩

/-- **C32 (with constraints), partial.** If no import interval of the partitioner crosses the end of the
internal range, the recomputed `n_export_indices` exceeds every exported internal index; it is a multiple of
the SIMD length within the internal range.  Without that condition the claim fails:
`C32_straddling_violation`. -/
theorem C32_constrained_partial {simd : ℕ} (hs : 0 < simd) (hd : simd ∣ nInternal)
    (imports : List (ℕ × ℕ)) (hstr : ∀ it ∈ imports, it.2 ≤ nInternal ∨ nInternal ≤ it.1) :
    (∀ e < nInternal, (∃ it ∈ imports, it.1 ≤ e ∧ e < it.2) → e < nExportIndices nInternal simd imports) ∧
    simd ∣ nExportIndices nInternal simd imports ∧ nExportIndices nInternal simd imports ≤ nInternal := by
  obtain ⟨h1, -, h3⟩ := fold_max_le nInternal imports 0 (Nat.zero_le _)
  unfold nExportIndices
  dsimp only
  set n := imports.foldl (fun n it => if it.2 ≤ nInternal then max n it.2 else n) 0
  have hround : n ≤ (n + simd - 1) / simd * simd := by
    have h1 := Nat.div_add_mod (n + simd - 1) simd
    have h2 := Nat.mod_lt (n + simd - 1) hs
    rw [Nat.mul_comm] at h1
    omega
  refine ⟨?_, dvd_mul_left _ _, ?_⟩
  · rintro e he ⟨it, hit, h4, h5⟩
    have : it.2 ≤ nInternal := (hstr it hit).resolve_right (by omega)
    have := h3 it hit this
    omega
  · obtain ⟨m, hm⟩ := hd
    have h2 : (n + simd - 1) / simd < m + 1 := by
      rw [Nat.div_lt_iff_lt_mul hs, Nat.add_mul, Nat.mul_comm m, ← hm]; omega
    calc (n + simd - 1) / simd * simd ≤ m * simd := Nat.mul_le_mul_right _ (by omega)
      _ = nInternal := by rw [hm, Nat.mul_comm]

/-- **C32 fails for an import interval crossing the end of the internal range**: with 8 internal indices and
the exported interval `[0, 10)` the recomputed number is zero, although all internal indices are
exported. -/
theorem C32_straddling_violation :
    ∃ (nInternal simd : ℕ) (imports : List (ℕ × ℕ)) (e : ℕ), 0 < simd ∧ simd ∣ nInternal ∧
      e < nInternal ∧ (∃ it ∈ imports, it.1 ≤ e ∧ e < it.2) ∧
      ¬ e < nExportIndices nInternal simd imports :=
  ⟨8, 4, [(0, 10)], 3, by decide, by decide, by decide, ⟨(0, 10), by simp, by decide, by decide⟩,
    by decide⟩

/-! ### Concrete cases -/

/-- Nine owned indices with offset 5, of which six in three groups are internal; index 5 is exported: group 2
comes first. -/
example : let r := exportIndicesFirst 5 9 6 2 (fun i => i == 5)
    r.2 = 2 ∧ (List.range 9).map r.1
      = [some 7, some 8, some 9, some 10, some 5, some 6, some 11, some 12, some 13] := by
  decide

/-- Row lengths 3 4 3 4 5 with group size 2: indices 0, 2 and 1, 3 form groups, 4 is left over. -/
example : let r := internalRange 0 5 2 (fun i => if i = 4 then 5 else 3 + i % 2) 5
    r.2 = 4 ∧ (List.range 5).map r.1 = [some 0, some 2, some 1, some 3, some 4] := by
  decide

example : (inconsistentStridesLast 0 5 4 2 (fun i => if i = 1 then 7 else 3)).2 = 2 := by decide

example : consistentStrideRange 6 2 (fun i => if i = 3 then 7 else 3) = 2 := by decide

end Renumbering
end Ryujin
