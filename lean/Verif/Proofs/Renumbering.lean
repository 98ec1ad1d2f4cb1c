import Verif.Model.Renumbering
import Mathlib.Data.List.Nodup
import Mathlib.Data.List.Perm.Lattice
import Mathlib.Data.List.Perm.Subperm
import Mathlib.Data.Nat.ModEq
import Mathlib.Tactic.Ring

/-!
# Helper lemmas for the renumberings
-/

namespace Ryujin
namespace Renumbering

variable {offset g : ℕ}

/-- The numbers given out so far are `offset, offset + 1, …`, to the indices in `L`, in this order. -/
structure Assigned (offset : ℕ) (L : List ℕ) (st : Order) : Prop where
  next : st.next = L.length
  nodup : L.Nodup
  order : ∀ k (h : k < L.length), st.order L[k] = some (offset + k)

theorem Assigned.snoc {L : List ℕ} {st : Order} (h : Assigned offset L st) {i : ℕ} (hi : i ∉ L) :
    Assigned offset (L ++ [i]) (st.assign offset i) where
  next := by simp [Order.assign, h.next]
  nodup := by
    rw [List.nodup_append]
    exact ⟨h.nodup, by simp, fun a ha b hb => by
      rw [List.mem_singleton] at hb; subst hb; exact fun he => hi (he ▸ ha)⟩
  order := by
    intro k hk
    simp only [Order.assign]
    by_cases hlt : k < L.length
    · rw [List.getElem_append_left hlt, Function.update_of_ne, h.order k hlt]
      exact fun he => hi (he ▸ List.getElem_mem hlt)
    · have : k = L.length := by simp at hk; omega
      subst this
      simp [h.next]

theorem Assigned.append {L : List ℕ} : ∀ {l : List ℕ} {st : Order}, Assigned offset L st →
    (L ++ l).Nodup → Assigned offset (L ++ l) (l.foldl (Order.assign offset) st)
  | [], _, h, _ => by simpa using h
  | i :: l, st, h, hn => by
    have hi : i ∉ L := by
      rw [List.nodup_append] at hn
      exact fun hi => hn.2.2 i hi i List.mem_cons_self rfl
    have e : L ++ i :: l = (L ++ [i]) ++ l := by simp
    rw [e] at hn ⊢
    exact Assigned.append (h.snoc hi) hn

theorem foldl_assign_frame (l : List ℕ) (st : Order) {i : ℕ} (hi : i ∉ l) :
    (l.foldl (Order.assign offset) st).order i = st.order i := by
  induction l generalizing st with
  | nil => rfl
  | cons a l ih =>
    rw [List.foldl_cons, ih _ fun h => hi (List.mem_cons_of_mem _ h)]
    simp only [Order.assign]
    rw [Function.update_of_ne]
    rintro rfl
    exact hi List.mem_cons_self

/-- The indices of group `b`. -/
def grp (g b : ℕ) : List ℕ := (List.range g).map fun j => b * g + j

theorem mem_grp (hg : 0 < g) {b i : ℕ} : i ∈ grp g b ↔ i / g = b := by
  unfold grp
  simp only [List.mem_map, List.mem_range]
  constructor
  · rintro ⟨j, hj, rfl⟩
    rw [Nat.mul_comm, Nat.mul_add_div hg, Nat.div_eq_of_lt hj, Nat.add_zero]
  · rintro rfl
    exact ⟨i % g, Nat.mod_lt _ hg, by rw [Nat.mul_comm]; exact Nat.div_add_mod i g⟩

theorem grp_nodup (b : ℕ) : (grp g b).Nodup :=
  List.Nodup.map (fun a b h => by simpa using h) List.nodup_range

theorem grp_foldl (b : ℕ) (st : Order) :
    (List.range g).foldl (fun st j => st.assign offset (b * g + j)) st
      = (grp g b).foldl (Order.assign offset) st := by
  unfold grp; rw [List.foldl_map]

theorem mem_groups (hg : 0 < g) {l : List ℕ} {i : ℕ} : i ∈ l.flatMap (grp g) ↔ i / g ∈ l := by
  simp [List.mem_flatMap, mem_grp hg]

theorem groups_nodup (hg : 0 < g) {l : List ℕ} (hl : l.Nodup) : (l.flatMap (grp g)).Nodup := by
  rw [List.nodup_flatMap]
  refine ⟨fun b _ => grp_nodup b, hl.imp ?_⟩
  intro a b hab
  simp only [Function.onFun, List.disjoint_left]
  intro i hi hj
  rw [mem_grp hg] at hi hj
  exact hab (hi.symm.trans hj)

theorem groups_length (l : List ℕ) : (l.flatMap (grp g)).length = l.length * g := by
  induction l with
  | nil => simp
  | cons b l ih => simp [ih, grp]; ring

theorem groups_get : ∀ (l : List ℕ) {k j : ℕ} (hk : k < l.length) (_hj : j < g),
    (l.flatMap (grp g))[k * g + j]? = some (l[k] * g + j)
  | b :: l, 0, j, _, hj => by
    rw [List.flatMap_cons, List.getElem?_append_left (by simpa [grp] using hj)]
    simp [grp, hj]
  | b :: l, k + 1, j, hk, hj => by
    have hlen : (grp g b).length = g := by simp [grp]
    rw [List.flatMap_cons, List.getElem?_append_right (by rw [hlen, Nat.add_mul]; omega), hlen]
    have e : (k + 1) * g + j - g = k * g + j := by rw [Nat.add_mul]; omega
    rw [e, groups_get l (by simpa using hk) hj]
    simp

theorem groups_eq (hg : 0 < g) {n : ℕ} (hd : g ∣ n) : groups n g = n / g := by
  obtain ⟨m, rfl⟩ := hd
  unfold groups
  rw [Nat.mul_div_cancel_left _ hg]
  apply Nat.div_eq_of_lt_le
  · rw [Nat.mul_comm]; omega
  · rw [Nat.add_mul, Nat.mul_comm]; omega

theorem foldl_invalid (b : ℕ) (order : ℕ → Option ℕ) (i : ℕ) (hg : 0 < g) :
    (List.range g).foldl (fun order j => Function.update order (b * g + j) none) order i
      = if i / g = b then none else order i := by
  have : ∀ (l : List ℕ) (order : ℕ → Option ℕ),
      l.foldl (fun order j => Function.update order (b * g + j) none) order i
        = if i ∈ l.map (fun j => b * g + j) then none else order i := by
    intro l
    induction l with
    | nil => simp
    | cons a l ih =>
      intro order
      rw [List.foldl_cons, ih, List.map_cons]
      by_cases h1 : i = b * g + a
      · subst h1; simp
      · simp [h1]
  rw [this]
  have := mem_grp hg (b := b) (i := i)
  unfold grp at this
  simp only [this]

/-- Invariant of the first pass. -/
theorem firstPass_inv (hg : 0 < g) (keep : ℕ → Bool) (B : ℕ) :
    let st := (List.range B).foldl (firstPass offset g keep) ⟨fun _ => some 0, 0⟩
    Assigned offset (((List.range B).filter fun b => keep (b * g)).flatMap (grp g)) st ∧
    ∀ i, i / g < B → ¬ keep (i / g * g) → st.order i = none := by
  induction B with
  | zero =>
    exact ⟨⟨rfl, by simp, fun k h => by simp at h⟩, fun i h => absurd h (Nat.not_lt_zero _)⟩
  | succ B ih =>
    obtain ⟨h1, h2⟩ := ih
    rw [List.range_succ, List.foldl_append, List.foldl_cons, List.foldl_nil]
    set st := (List.range B).foldl (firstPass offset g keep) ⟨fun _ => some 0, 0⟩ with hst
    unfold firstPass
    by_cases hk : keep (B * g)
    · rw [if_pos hk, grp_foldl]
      constructor
      · rw [List.filter_append, List.flatMap_append, List.filter_singleton, hk]
        simp only [cond_true, List.flatMap_cons, List.flatMap_nil, List.append_nil]
        apply h1.append
        rw [← List.append_nil (grp g B), ← List.flatMap_nil (f := grp g), ← List.flatMap_cons,
          ← List.flatMap_append]
        apply groups_nodup hg
        rw [List.nodup_append]
        refine ⟨List.nodup_range.filter _, by simp, ?_⟩
        intro a ha b hb
        rw [List.mem_filter, List.mem_range] at ha
        simp only [List.mem_singleton] at hb
        omega
      · intro i hi hni
        have hne : i / g ≠ B := fun h => hni (h ▸ hk)
        rw [foldl_assign_frame _ _ (by rw [mem_grp hg]; exact hne)]
        exact h2 i (by omega) hni
    · rw [if_neg hk]
      constructor
      · rw [List.filter_append, List.flatMap_append, List.filter_singleton]
        simp only [Bool.not_eq_true] at hk
        simp only [hk, cond_false, List.flatMap_nil, List.append_nil]
        refine ⟨h1.next, h1.nodup, fun k hkl => ?_⟩
        simp only
        rw [foldl_invalid _ _ _ hg, if_neg, h1.order k hkl]
        have := List.getElem_mem hkl
        rw [mem_groups hg, List.mem_filter, List.mem_range] at this
        omega
      · intro i hi hni
        simp only
        rw [foldl_invalid _ _ _ hg]
        split_ifs with h
        · rfl
        · exact h2 i (by omega) hni

/-- Invariant of the second pass. -/
theorem secondPass_inv (hg : 0 < g) (keep : ℕ → Bool) {NB : ℕ} {st0 : Order}
    (h1 : Assigned offset (((List.range NB).filter fun b => keep (b * g)).flatMap (grp g)) st0)
    (h2 : ∀ i, i / g < NB → ¬ keep (i / g * g) → st0.order i = none) (B : ℕ) (hB : B ≤ NB) :
    let st := (List.range B).foldl (secondPass offset g) st0
    Assigned offset ((((List.range NB).filter fun b => keep (b * g)) ++
      ((List.range B).filter fun b => !keep (b * g))).flatMap (grp g)) st ∧
    ∀ i, i / g < NB → B ≤ i / g → ¬ keep (i / g * g) → st.order i = none := by
  induction B with
  | zero => exact ⟨by simpa using h1, fun i hi _ => h2 i hi⟩
  | succ B ih =>
    obtain ⟨i1, i2⟩ := ih (by omega)
    rw [List.range_succ, List.foldl_append, List.foldl_cons, List.foldl_nil]
    set st := (List.range B).foldl (secondPass offset g) st0 with hst
    have hdiv : B * g / g = B := Nat.mul_div_cancel _ hg
    unfold secondPass
    by_cases hk : keep (B * g)
    · have hmem : B * g ∈ (((List.range NB).filter fun b => keep (b * g)) ++
          ((List.range B).filter fun b => !keep (b * g))).flatMap (grp g) := by
        rw [mem_groups hg, hdiv, List.mem_append, List.mem_filter, List.mem_range]
        exact Or.inl ⟨by omega, hk⟩
      obtain ⟨k, hkl, hke⟩ := List.getElem_of_mem hmem
      have := i1.order k hkl
      rw [hke] at this
      rw [if_neg (by rw [this]; simp)]
      constructor
      · rw [List.filter_append, List.filter_singleton]
        simpa [hk] using i1
      · intro i hi hb hni
        exact i2 i hi (by omega) hni
    · rw [if_pos (i2 _ (by rw [hdiv]; omega) (by rw [hdiv]) (by rw [hdiv]; exact hk)), grp_foldl]
      simp only [Bool.not_eq_true] at hk
      constructor
      · rw [List.filter_append, List.filter_singleton]
        simp only [hk, Bool.not_false, cond_true]
        rw [← List.append_assoc, List.flatMap_append]
        have e : List.flatMap (grp g) [B] = grp g B := by simp
        rw [e]
        apply i1.append
        rw [← e, ← List.flatMap_append]
        apply groups_nodup hg
        rw [List.append_assoc, List.nodup_append, List.nodup_append]
        refine ⟨List.nodup_range.filter _, ⟨List.nodup_range.filter _, by simp, ?_⟩, ?_⟩
        · intro a ha b hb
          rw [List.mem_filter, List.mem_range] at ha
          simp only [List.mem_singleton] at hb
          omega
        · intro a ha b hb hab
          subst hab
          rw [List.mem_filter, List.mem_range] at ha
          rcases List.mem_append.1 hb with hb | hb
          · rw [List.mem_filter] at hb
            simp [ha.2] at hb
          · simp only [List.mem_singleton] at hb
            subst hb
            simp [hk] at ha
      · intro i hi hb hni
        rw [foldl_assign_frame _ _ (by rw [mem_grp hg]; omega)]
        exact i2 i hi (by omega) hni

/-- The groups in the order in which they are numbered: first those satisfying `keep`. -/
def groupOrder (nInternal g : ℕ) (keep : ℕ → Bool) : List ℕ :=
  ((List.range (nInternal / g)).filter fun b => keep (b * g)) ++
    ((List.range (nInternal / g)).filter fun b => !keep (b * g))

theorem mem_groupOrder {nInternal : ℕ} {keep : ℕ → Bool} {b : ℕ} :
    b ∈ groupOrder nInternal g keep ↔ b < nInternal / g := by
  unfold groupOrder
  simp only [List.mem_append, List.mem_filter, List.mem_range, Bool.not_eq_true']
  cases keep (b * g) <;> simp

theorem groupOrder_perm (nInternal : ℕ) (keep : ℕ → Bool) :
    (groupOrder nInternal g keep).Perm (List.range (nInternal / g)) :=
  List.filter_append_perm _ _

/-- The complete numbering. -/
theorem reorderGroups_assigned (hg : 0 < g) {nOwned nInternal : ℕ} (hd : g ∣ nInternal)
    (keep : ℕ → Bool) :
    (∃ st : Order, (reorderGroups offset nOwned nInternal g keep).1 = st.order ∧
      Assigned offset ((groupOrder nInternal g keep).flatMap (grp g) ++
        List.range' nInternal (nOwned - nInternal)) st) ∧
    (reorderGroups offset nOwned nInternal g keep).2
      = ((List.range (nInternal / g)).filter fun b => keep (b * g)).length * g := by
  have h1 := firstPass_inv (offset := offset) hg keep (nInternal / g)
  have h2 := secondPass_inv hg keep h1.1 h1.2 (nInternal / g) le_rfl
  unfold reorderGroups
  rw [groups_eq hg hd]
  refine ⟨⟨_, rfl, ?_⟩, ?_⟩
  · apply h2.1.append
    rw [List.nodup_append]
    refine ⟨groups_nodup hg ((groupOrder_perm _ _).nodup_iff.2 List.nodup_range),
      List.nodup_range', ?_⟩
    intro a ha b hb hab
    subst hab
    rw [List.mem_range'_1] at hb
    have := (mem_groupOrder (keep := keep)).1 ((mem_groups hg).1 ha)
    have := (Nat.div_lt_iff_lt_mul hg).1 this
    have := Nat.div_mul_cancel hd
    omega
  · exact h1.1.next.trans (groups_length _)

/-- A complete numbering is a permutation of the owned range. -/
theorem Assigned.bijective {L : List ℕ} {st : Order} (h : Assigned offset L st) {n : ℕ}
    (hp : L.Perm (List.range n)) :
    (∀ i < n, ∃ a < n, st.order i = some (offset + a)) ∧
    (∀ a < n, ∃ i < n, st.order i = some (offset + a)) ∧
    (∀ i < n, ∀ i' < n, st.order i = st.order i' → i = i') := by
  have hlen : L.length = n := by rw [hp.length_eq, List.length_range]
  have key : ∀ i < n, ∃ (a : ℕ) (ha : a < L.length), L[a] = i ∧ st.order i = some (offset + a) := by
    intro i hi
    obtain ⟨a, ha, he⟩ := List.getElem_of_mem (hp.mem_iff.2 (List.mem_range.2 hi))
    exact ⟨a, ha, he, by rw [← he]; exact h.order a ha⟩
  refine ⟨?_, ?_, ?_⟩
  · intro i hi
    obtain ⟨a, ha, -, he⟩ := key i hi
    exact ⟨a, by omega, he⟩
  · intro a ha
    have ha' : a < L.length := by omega
    exact ⟨L[a], List.mem_range.1 (hp.mem_iff.1 (List.getElem_mem ha')), h.order a ha'⟩
  · intro i hi i' hi' he
    obtain ⟨a, ha, hLa, hea⟩ := key i hi
    obtain ⟨b, hb, hLb, heb⟩ := key i' hi'
    rw [hea, heb, Option.some.injEq] at he
    have : a = b := by omega
    subst this
    exact hLa.symm.trans hLb

theorem Assigned.index {L : List ℕ} {st : Order} (h : Assigned offset L st) {i a : ℕ}
    (hi : i ∈ L) (he : st.order i = some (offset + a)) : ∃ ha : a < L.length, L[a] = i := by
  obtain ⟨b, hb, hLb⟩ := List.getElem_of_mem hi
  have := h.order b hb
  rw [hLb, he, Option.some.injEq] at this
  have hab : a = b := by omega
  subst hab
  exact ⟨hb, hLb⟩

/-! ### `internal_range` -/

variable {rowLength : ℕ → ℕ}

/-- Invariant of the main loop of `internal_range` after `n` indices; `L` lists the indices already
numbered. -/
structure BinInv (offset g : ℕ) (rowLength : ℕ → ℕ) (n : ℕ) (L : List ℕ) (s : Bins) : Prop where
  assigned : Assigned offset L s.st
  dvd : g ∣ L.length
  uniform : ∀ a a' (h : a < L.length) (h' : a' < L.length), a / g = a' / g →
    rowLength L[a] = rowLength L[a']
  bin : ∀ r, ∀ i ∈ s.bins r, rowLength i = r
  bin_nodup : ∀ r, (s.bins r).Nodup
  bin_length : ∀ r, (s.bins r).length < g
  disjoint : ∀ i, i ∈ L → i ∉ s.bins (rowLength i)
  mem : ∀ i, i < n ↔ (i ∈ L ∨ i ∈ s.bins (rowLength i))

theorem binInv_step (hg : 0 < g) {n : ℕ} {L : List ℕ} {s : Bins}
    (h : BinInv offset g rowLength n L s) :
    ∃ L', BinInv offset g rowLength (n + 1) L' (binStep offset g rowLength s n) := by
  have hnL : n ∉ L := fun hm => lt_irrefl n ((h.mem n).2 (Or.inl hm))
  have hnb : n ∉ s.bins (rowLength n) := fun hm => lt_irrefl n ((h.mem n).2 (Or.inr hm))
  have hnodup : (s.bins (rowLength n) ++ [n]).Nodup := by
    rw [List.nodup_append]
    refine ⟨h.bin_nodup _, by simp, ?_⟩
    intro a ha b hb hab
    rw [List.mem_singleton] at hb
    subst hab hb
    exact hnb ha
  have hbin : ∀ i ∈ s.bins (rowLength n) ++ [n], rowLength i = rowLength n := by
    intro i hi
    rcases List.mem_append.1 hi with hi | hi
    · exact h.bin _ _ hi
    · rw [List.mem_singleton] at hi; rw [hi]
  unfold binStep
  dsimp only
  split_ifs with hfull
  · refine ⟨L ++ (s.bins (rowLength n) ++ [n]), ?_⟩
    have hnd : (L ++ (s.bins (rowLength n) ++ [n])).Nodup := by
      rw [List.nodup_append]
      refine ⟨h.assigned.nodup, hnodup, ?_⟩
      intro a ha b hb hab
      subst hab
      rcases List.mem_append.1 hb with hb | hb
      · have := h.bin _ _ hb
        exact h.disjoint a ha (this ▸ hb)
      · rw [List.mem_singleton] at hb; subst hb; exact hnL ha
    refine ⟨h.assigned.append hnd, ?_, ?_, ?_, ?_, ?_, ?_, ?_⟩
    · rw [List.length_append, hfull]
      exact Nat.dvd_add h.dvd (dvd_refl g)
    · have hdiv : ∀ a (_ : a < (L ++ (s.bins (rowLength n) ++ [n])).length), ¬ a < L.length →
          a / g = L.length / g := by
        intro a ha hlt
        obtain ⟨m, hm⟩ := h.dvd
        rw [List.length_append, hfull] at ha
        rw [hm, Nat.mul_div_cancel_left _ hg]
        apply Nat.div_eq_of_lt_le
        · rw [Nat.mul_comm]; omega
        · rw [Nat.add_mul, Nat.mul_comm m]; omega
      have hdiv' : ∀ a, a < L.length → a / g < L.length / g := by
        intro a ha
        obtain ⟨m, hm⟩ := h.dvd
        rw [hm, Nat.mul_div_cancel_left _ hg, Nat.div_lt_iff_lt_mul hg, Nat.mul_comm]
        omega
      intro a a' ha ha' hEq
      by_cases h1 : a < L.length <;> by_cases h2 : a' < L.length
      · rw [List.getElem_append_left h1, List.getElem_append_left h2]
        exact h.uniform a a' h1 h2 hEq
      · have := hdiv a' ha' h2; have := hdiv' a h1; omega
      · have := hdiv a ha h1; have := hdiv' a' h2; omega
      · rw [List.getElem_append_right (Nat.le_of_not_lt h1),
          List.getElem_append_right (Nat.le_of_not_lt h2)]
        rw [hbin _ (List.getElem_mem _), hbin _ (List.getElem_mem _)]
    · intro r i hi
      by_cases hr : r = rowLength n
      · subst hr; simp at hi
      · simp only [Function.update_of_ne hr] at hi; exact h.bin r i hi
    · intro r
      by_cases hr : r = rowLength n
      · subst hr; simp
      · simp only [Function.update_of_ne hr]; exact h.bin_nodup r
    · intro r
      by_cases hr : r = rowLength n
      · subst hr; simpa using hg
      · simp only [Function.update_of_ne hr]; exact h.bin_length r
    · intro i hi hb
      simp only at hb
      by_cases hr : rowLength i = rowLength n
      · rw [hr] at hb; simp at hb
      · rw [Function.update_of_ne hr] at hb
        rcases List.mem_append.1 hi with hi | hi
        · exact h.disjoint i hi hb
        · exact hr (hbin i hi)
    · intro i
      simp only
      by_cases hr : rowLength i = rowLength n
      · rw [hr, Function.update_self, Nat.lt_succ_iff_lt_or_eq, h.mem i, hr]
        simp only [List.mem_append, List.mem_singleton, List.not_mem_nil, or_false]
        tauto
      · rw [Function.update_of_ne hr, Nat.lt_succ_iff_lt_or_eq, h.mem i]
        have h1 : i ≠ n := fun he => hr (by rw [he])
        have h2 : i ∉ s.bins (rowLength n) := fun hm => hr (h.bin _ _ hm)
        simp only [List.mem_append, List.mem_singleton]
        tauto
  · refine ⟨L, h.assigned, h.dvd, h.uniform, ?_, ?_, ?_, ?_, ?_⟩
    · intro r i hi
      by_cases hr : r = rowLength n
      · subst hr; simp only [Function.update_self] at hi; exact hbin i hi
      · simp only [Function.update_of_ne hr] at hi; exact h.bin r i hi
    · intro r
      by_cases hr : r = rowLength n
      · subst hr; simp only [Function.update_self]; exact hnodup
      · simp only [Function.update_of_ne hr]; exact h.bin_nodup r
    · intro r
      by_cases hr : r = rowLength n
      · subst hr
        simp only [Function.update_self]
        have := h.bin_length (rowLength n)
        simp only [List.length_append, List.length_singleton] at hfull ⊢
        omega
      · simp only [Function.update_of_ne hr]; exact h.bin_length r
    · intro i hi hb
      simp only at hb
      by_cases hr : rowLength i = rowLength n
      · rw [hr, Function.update_self] at hb
        rcases List.mem_append.1 hb with hb | hb
        · exact h.disjoint i hi (hr ▸ hb)
        · rw [List.mem_singleton] at hb; subst hb; exact hnL hi
      · rw [Function.update_of_ne hr] at hb; exact h.disjoint i hi hb
    · intro i
      simp only
      by_cases hr : rowLength i = rowLength n
      · rw [hr, Function.update_self, Nat.lt_succ_iff_lt_or_eq, h.mem i, hr]
        simp only [List.mem_append, List.mem_singleton]
        tauto
      · rw [Function.update_of_ne hr, Nat.lt_succ_iff_lt_or_eq, h.mem i]
        have h1 : i ≠ n := fun he => hr (by rw [he])
        tauto

theorem binInv_loop (hg : 0 < g) (n : ℕ) :
    ∃ L, BinInv offset g rowLength n L
      ((List.range n).foldl (binStep offset g rowLength) ⟨fun _ => [], ⟨fun _ => some 0, 0⟩⟩) := by
  induction n with
  | zero =>
    refine ⟨[], ⟨rfl, by simp, fun k h => by simp at h⟩, by simp, ?_, ?_, ?_, ?_, ?_, ?_⟩ <;>
      simp [hg]
  | succ n ih =>
    obtain ⟨L, hL⟩ := ih
    rw [List.range_succ, List.foldl_append]
    exact binInv_step hg hL

/-- The complete numbering of `internal_range`. -/
theorem internalRange_assigned (hg : 0 < g) (nOwned bound : ℕ)
    (hb : ∀ i < nOwned, rowLength i ≤ bound) :
    ∃ (L R : List ℕ) (st : Order), (internalRange offset nOwned g rowLength bound).1 = st.order ∧
      (internalRange offset nOwned g rowLength bound).2 = L.length ∧
      Assigned offset (L ++ R) st ∧ (L ++ R).Perm (List.range nOwned) ∧ g ∣ L.length ∧
      (∀ a a' (h : a < L.length) (h' : a' < L.length), a / g = a' / g →
        rowLength L[a] = rowLength L[a']) ∧
      (∀ r, (R.filter fun i => decide (rowLength i = r)).length < g) := by
  obtain ⟨L, h⟩ := binInv_loop (offset := offset) (rowLength := rowLength) hg nOwned
  set s := (List.range nOwned).foldl (binStep offset g rowLength)
    ⟨fun _ => [], ⟨fun _ => some 0, 0⟩⟩ with hs
  have hfold : (List.range (bound + 1)).foldl
      (fun st key => (s.bins key).foldl (Order.assign offset) st) s.st
      = ((List.range (bound + 1)).flatMap s.bins).foldl (Order.assign offset) s.st := by
    rw [List.foldl_flatMap]
  have hmemR : ∀ i, i ∈ (List.range (bound + 1)).flatMap s.bins ↔
      (rowLength i ≤ bound ∧ i ∈ s.bins (rowLength i)) := by
    intro i
    rw [List.mem_flatMap]
    constructor
    · rintro ⟨r, hr, hi⟩
      have := h.bin r i hi
      subst this
      exact ⟨by rw [List.mem_range] at hr; omega, hi⟩
    · rintro ⟨h1, h2⟩
      exact ⟨rowLength i, List.mem_range.2 (by omega), h2⟩
  have hnd : (L ++ (List.range (bound + 1)).flatMap s.bins).Nodup := by
    rw [List.nodup_append]
    refine ⟨h.assigned.nodup, ?_, ?_⟩
    · rw [List.nodup_flatMap]
      refine ⟨fun r _ => h.bin_nodup r, List.nodup_range.imp ?_⟩
      intro a b hab
      simp only [Function.onFun, List.disjoint_left]
      intro i hi hj
      exact hab ((h.bin a i hi).symm.trans (h.bin b i hj))
    · intro a ha b hb' hab
      subst hab
      exact h.disjoint a ha ((hmemR a).1 hb').2
  refine ⟨L, (List.range (bound + 1)).flatMap s.bins, _, rfl, h.assigned.next, ?_, ?_, h.dvd,
    h.uniform, ?_⟩
  · rw [← hs, hfold]
    exact h.assigned.append hnd
  · rw [List.perm_ext_iff_of_nodup hnd List.nodup_range]
    intro i
    rw [List.mem_append, List.mem_range, hmemR, h.mem i]
    constructor
    · tauto
    · rintro (h1 | h1)
      · exact Or.inl h1
      · exact Or.inr ⟨hb i ((h.mem i).2 (Or.inr h1)), h1⟩
  · intro r
    by_cases hr : r < bound + 1
    · have : ((List.range (bound + 1)).flatMap s.bins).filter (fun i => decide (rowLength i = r))
          ⊆ s.bins r := by
        intro i hi
        rw [List.mem_filter, hmemR, decide_eq_true_eq] at hi
        exact hi.2 ▸ hi.1.2
      have hn := ((List.nodup_append.1 hnd).2.1).filter (fun i => decide (rowLength i = r))
      exact lt_of_le_of_lt (List.subperm_of_subset hn this).length_le (h.bin_length r)
    · have : ((List.range (bound + 1)).flatMap s.bins).filter (fun i => decide (rowLength i = r))
          = [] := by
        rw [List.filter_eq_nil_iff]
        intro i hi
        rw [hmemR] at hi
        rw [decide_eq_true_eq]
        omega
      rw [this]
      exact hg

/-! ### `consistent_stride_range` -/

theorem strideScan_spec (hg : 0 < g) : ∀ (fuel c i : ℕ), (i % g ≠ 0 → c = rowLength (i / g * g)) →
    i ≤ strideScan g rowLength fuel c i ∧ strideScan g rowLength fuel c i ≤ i + fuel ∧
    (∀ x, i ≤ x → x < strideScan g rowLength fuel c i → rowLength x = rowLength (x / g * g)) ∧
    (strideScan g rowLength fuel c i < i + fuel →
      rowLength (strideScan g rowLength fuel c i)
        ≠ rowLength (strideScan g rowLength fuel c i / g * g))
  | 0, c, i, _ => by simp [strideScan]; intro x h1 h2; omega
  | fuel + 1, c, i, hc => by
    have hself : ∀ x, i ≤ x → x < i + 1 → x = i := fun x h1 h2 => by omega
    have hnext : ∀ c', (c' = rowLength (i / g * g)) → (i + 1) % g ≠ 0 →
        c' = rowLength ((i + 1) / g * g) := by
      intro c' hc' hne
      have : (i + 1) / g = i / g := by
        rw [Nat.succ_div, if_neg (fun hd => hne (Nat.mod_eq_zero_of_dvd hd)), Nat.add_zero]
      rw [this]; exact hc'
    unfold strideScan
    split_ifs with h0 h1
    · have hb : i / g * g = i := Nat.div_mul_cancel (Nat.dvd_of_mod_eq_zero h0)
      obtain ⟨a1, a2, a3, a4⟩ := strideScan_spec hg fuel (rowLength i) (i + 1)
        (hnext _ (by rw [hb]))
      refine ⟨by omega, by omega, ?_, fun h => a4 (by omega)⟩
      intro x hx1 hx2
      by_cases hx : x < i + 1
      · rw [hself x hx1 hx, hb]
      · exact a3 x (by omega) hx2
    · refine ⟨le_rfl, by omega, fun x h1 h2 => by omega, fun _ => ?_⟩
      rw [← hc h0]; exact fun h => h1 h.symm
    · push Not at h1
      obtain ⟨a1, a2, a3, a4⟩ := strideScan_spec hg fuel c (i + 1) (hnext _ (hc h0))
      refine ⟨by omega, by omega, ?_, fun h => a4 (by omega)⟩
      intro x hx1 hx2
      by_cases hx : x < i + 1
      · rw [hself x hx1 hx, ← h1, hc h0]
      · exact a3 x (by omega) hx2

end Renumbering
end Ryujin
