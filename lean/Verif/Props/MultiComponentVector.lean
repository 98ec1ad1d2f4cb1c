import Verif.Model.MultiComponentVector
import Verif.Proofs.SparseExchange

/-!
# C27 – the multicomponent vector

`data` is the local storage, `n` the number of components, `s` the SIMD length.
-/

namespace Ryujin
namespace Multi

open Sparse (applyWrites applyWrites_map applyWrites_flatMap applyWrites_mem applyWrites_frame
  radix_unique)

variable {α : Type} {n s : ℕ}

theorem vec_address (i k d : ℕ) : i * n + (k * n + d) = (i + k) * n + d := by ring

theorem write_eq (tensor : ℕ → α) (i : ℕ) (data : ℕ → α) :
    write n tensor i data
      = applyWrites ((List.range n).map fun d => (i * n + d, tensor d)) data := applyWrites_map _ _ _ _

theorem writeVec_eq (tensor : ℕ → ℕ → α) (i : ℕ) (data : ℕ → α) :
    writeVec n s tensor i data = applyWrites ((List.range n).flatMap fun d => (List.range s).map fun k =>
      (i * n + (k * n + d), tensor d k)) data := by
  unfold writeVec
  simp only [applyWrites_map]
  exact applyWrites_flatMap _ _ _

/-- **C27 (read after write).** `get_tensor(i)` returns what `write_tensor` wrote at `i`, and every other
entry is unchanged. -/
theorem C27_write_read (tensor : ℕ → α) (i : ℕ) (data : ℕ → α) :
    (∀ d < n, get n (write n tensor i data) i d = tensor d) ∧
    (∀ i' d, d < n → i' ≠ i → get n (write n tensor i data) i' d = get n data i' d) := by
  unfold get
  rw [write_eq]
  constructor
  · intro d hd
    refine applyWrites_mem _ _ _ _ (List.mem_map.2 ⟨d, List.mem_range.2 hd, rfl⟩) ?_
    intro w hw hx
    obtain ⟨d', hd', rfl⟩ := List.mem_map.1 hw
    rw [(radix_unique (List.mem_range.1 hd') hd hx).2]
  · intro i' d hd hne
    refine applyWrites_frame _ _ _ ?_
    intro w hw hx
    obtain ⟨d', hd', rfl⟩ := List.mem_map.1 hw
    exact hne (radix_unique (List.mem_range.1 hd') hd hx).1.symm

/-- **C27 (vectorised read).** Lane `k` of a vectorised access at `i` is the scalar access at `i + k`, and
lane `k` of an indirect access is the scalar access at `js[k]`. -/
theorem C27_vectorised_read (data : ℕ → α) (i d k : ℕ) (js : ℕ → ℕ) :
    getVec n data i d k = get n data (i + k) d ∧
    getIndirectVec n data js d k = get n data (js k) d ∧
    getIndirect n data js d = get n data (js 0) d := by
  refine ⟨?_, rfl, rfl⟩
  unfold getVec get
  rw [vec_address]

/-- **C27 (vectorised write).** A vectorised `write_tensor` at `i` sets the entries `i, …, i + s - 1` to the
lanes of the tensor and nothing else. -/
theorem C27_vectorised_write (tensor : ℕ → ℕ → α) (i : ℕ) (data : ℕ → α) :
    (∀ k < s, ∀ d < n, get n (writeVec n s tensor i data) (i + k) d = tensor d k) ∧
    (∀ i' d, d < n → (i' < i ∨ i + s ≤ i') →
      get n (writeVec n s tensor i data) i' d = get n data i' d) := by
  unfold get
  rw [writeVec_eq]
  constructor
  · intro k hk d hd
    refine applyWrites_mem _ _ _ _ (List.mem_flatMap.2 ⟨d, List.mem_range.2 hd, List.mem_map.2
      ⟨k, List.mem_range.2 hk, by rw [vec_address]⟩⟩) ?_
    intro w hw hx
    obtain ⟨d', hd', hw⟩ := List.mem_flatMap.1 hw
    obtain ⟨k', hk', rfl⟩ := List.mem_map.1 hw
    simp only [vec_address] at hx
    obtain ⟨h1, h2⟩ := radix_unique (List.mem_range.1 hd') hd hx
    have : k' = k := by omega
    rw [this, h2]
  · intro i' d hd hne
    refine applyWrites_frame _ _ _ ?_
    intro w hw hx
    obtain ⟨d', hd', hw⟩ := List.mem_flatMap.1 hw
    obtain ⟨k', hk', rfl⟩ := List.mem_map.1 hw
    simp only [vec_address] at hx
    have h1 := (radix_unique (List.mem_range.1 hd') hd hx).1
    have := List.mem_range.1 hk'
    omega

theorem foldl_add [Add α] {β : Type} (l : List β) (a : β → ℕ) (e : β → α) (hl : (l.map a).Nodup)
    (data : ℕ → α) :
    (∀ x ∈ l, l.foldl (fun data x => Function.update data (a x) (data (a x) + e x)) data (a x)
      = data (a x) + e x) ∧
    ∀ y, y ∉ l.map a →
      l.foldl (fun data x => Function.update data (a x) (data (a x) + e x)) data y = data y := by
  induction l generalizing data with
  | nil => simp
  | cons b l ih =>
    rw [List.map_cons, List.nodup_cons] at hl
    obtain ⟨h1, h2⟩ := ih hl.2 (Function.update data (a b) (data (a b) + e b))
    constructor
    · intro x hx
      rw [List.foldl_cons]
      rcases List.mem_cons.1 hx with rfl | hx
      · rw [h2 _ hl.1, Function.update_self]
      · rw [h1 x hx]
        have : a x ≠ a b := fun he => hl.1 (he ▸ List.mem_map_of_mem hx)
        rw [Function.update_of_ne this]
    · intro y hy
      rw [List.map_cons, List.mem_cons, not_or] at hy
      rw [List.foldl_cons, h2 y hy.2, Function.update_of_ne hy.1]

/-- **C27 (add).** `add_tensor` adds to the entry at `i` and leaves all other entries alone. -/
theorem C27_add [Add α] (tensor : ℕ → α) (i : ℕ) (data : ℕ → α) :
    (∀ d < n, get n (add n tensor i data) i d = get n data i d + tensor d) ∧
    (∀ i' d, d < n → i' ≠ i → get n (add n tensor i data) i' d = get n data i' d) := by
  have hnd : ((List.range n).map fun d => i * n + d).Nodup :=
    List.Nodup.map (fun a b h => by simpa using h) List.nodup_range
  obtain ⟨h1, h2⟩ := foldl_add (List.range n) (fun d => i * n + d) tensor hnd data
  unfold get add
  constructor
  · intro d hd
    exact h1 d (List.mem_range.2 hd)
  · intro i' d hd hne
    apply h2
    intro hm
    obtain ⟨d', hd', he⟩ := List.mem_map.1 hm
    exact hne (radix_unique (List.mem_range.1 hd') hd he).1.symm

/-- **C27 (vectorised add).** -/
theorem C27_vectorised_add [Add α] (tensor : ℕ → ℕ → α) (i : ℕ) (data : ℕ → α) :
    (∀ k < s, ∀ d < n, get n (addVec n s tensor i data) (i + k) d = get n data (i + k) d + tensor d k) ∧
    (∀ i' d, d < n → (i' < i ∨ i + s ≤ i') →
      get n (addVec n s tensor i data) i' d = get n data i' d) := by
  have hflat : addVec n s tensor i data
      = ((List.range n).flatMap fun d => (List.range s).map fun k => (d, k)).foldl
        (fun data x => Function.update data (i * n + (x.2 * n + x.1))
          (data (i * n + (x.2 * n + x.1)) + tensor x.1 x.2)) data := by
    unfold addVec
    rw [List.foldl_flatMap]
    simp only [List.foldl_map]
  have hmem : ∀ d k, (d, k) ∈ ((List.range n).flatMap fun d => (List.range s).map fun k => (d, k)) ↔
      d < n ∧ k < s := by
    intro d k
    simp [List.mem_flatMap]
  have hnd : (((List.range n).flatMap fun d => (List.range s).map fun k => (d, k)).map
      fun x => i * n + (x.2 * n + x.1)).Nodup := by
    apply List.Nodup.map_on
    · rintro ⟨d, k⟩ h ⟨d', k'⟩ h' he
      rw [hmem] at h h'
      simp only [vec_address] at he
      obtain ⟨h1, h2⟩ := radix_unique h.1 h'.1 he
      simp only [Prod.mk.injEq]
      omega
    · rw [List.nodup_flatMap]
      refine ⟨fun d _ => List.Nodup.map (fun a b h => by simpa using h) List.nodup_range,
        List.nodup_range.imp ?_⟩
      intro a b hab
      simp only [Function.onFun, List.disjoint_left, List.mem_map]
      rintro ⟨x, y⟩ ⟨k, -, hk⟩ ⟨k', -, hk'⟩
      simp only [Prod.mk.injEq] at hk hk'
      exact hab (hk.1.trans hk'.1.symm)
  obtain ⟨h1, h2⟩ := foldl_add _ (fun x : ℕ × ℕ => i * n + (x.2 * n + x.1))
    (fun x => tensor x.1 x.2) hnd data
  unfold get
  rw [hflat]
  constructor
  · intro k hk d hd
    have := h1 (d, k) ((hmem d k).2 ⟨hd, hk⟩)
    simpa only [vec_address] using this
  · intro i' d hd hne
    apply h2
    intro hm
    obtain ⟨⟨d', k'⟩, hx, he⟩ := List.mem_map.1 hm
    rw [hmem] at hx
    simp only [vec_address] at he
    have := (radix_unique hx.1 hd he).1
    omega

/-- **C27 (extract).** `extract_component` copies one component of all owned entries. -/
theorem C27_extract (n_owned : ℕ) (data : ℕ → α) (c : ℕ) (scalar : ℕ → α) :
    ∀ i, extractComponent n n_owned data c scalar i
      = if i < n_owned then get n data i c else scalar i := by
  intro i
  unfold extractComponent
  rw [applyWrites_map]
  split_ifs with hi
  · refine applyWrites_mem _ _ _ _ (List.mem_map.2 ⟨i, List.mem_range.2 hi, rfl⟩) ?_
    intro w hw hx
    obtain ⟨i', -, rfl⟩ := List.mem_map.1 hw
    simp only at hx
    rw [hx]; rfl
  · refine applyWrites_frame _ _ _ ?_
    intro w hw hx
    obtain ⟨i', hi', rfl⟩ := List.mem_map.1 hw
    simp only at hx
    exact hi (hx ▸ List.mem_range.1 hi')

/-- **C27 (insert).** `insert_component` sets one component of all owned entries, and neither another
component nor a ghost entry. -/
theorem C27_insert (n_owned : ℕ) (scalar : ℕ → α) {c : ℕ} (hc : c < n) (data : ℕ → α) :
    ∀ i d, d < n → get n (insertComponent n n_owned scalar c data) i d
      = if i < n_owned ∧ d = c then scalar i else get n data i d := by
  intro i d hd
  unfold insertComponent get
  rw [applyWrites_map]
  split_ifs with hi
  · obtain ⟨hi, rfl⟩ := hi
    refine applyWrites_mem _ _ _ _ (List.mem_map.2 ⟨i, List.mem_range.2 hi, rfl⟩) ?_
    intro w hw hx
    obtain ⟨i', -, rfl⟩ := List.mem_map.1 hw
    simp only at hx
    rw [(radix_unique hd hd hx).1]
  · refine applyWrites_frame _ _ _ ?_
    intro w hw hx
    obtain ⟨i', hi', rfl⟩ := List.mem_map.1 hw
    simp only at hx
    obtain ⟨h1, h2⟩ := radix_unique hc hd hx
    exact hi ⟨h1 ▸ List.mem_range.1 hi', h2.symm⟩

/-- **C27 (round trips).** Extracting what was inserted returns the scalar vector; inserting what was
extracted changes nothing. -/
theorem C27_round_trip (n_owned : ℕ) (scalar scalar' : ℕ → α) {c : ℕ} (hc : c < n) (data : ℕ → α) :
    (∀ i < n_owned, extractComponent n n_owned (insertComponent n n_owned scalar c data) c scalar' i
      = scalar i) ∧
    (∀ i d, d < n → get n (insertComponent n n_owned (extractComponent n n_owned data c scalar) c data) i d
      = get n data i d) := by
  constructor
  · intro i hi
    rw [C27_extract, if_pos hi, C27_insert n_owned scalar hc data i c hc, if_pos ⟨hi, rfl⟩]
  · intro i d hd
    rw [C27_insert n_owned _ hc data i d hd]
    split_ifs with h
    · rw [C27_extract, if_pos h.1, h.2]
    · rfl

/-! ### The partitioner -/

theorem scale_range (a m : ℕ) :
    List.range' (a * n) ((a + m) * n - a * n)
      = (List.range' a m).flatMap fun g => (List.range n).map fun d => g * n + d := by
  induction m generalizing a with
  | zero => simp
  | succ m ih =>
    have e1 : (a + (m + 1)) * n - a * n = n + ((a + 1 + m) * n - (a + 1) * n) := by
      have h1 : (a + (m + 1)) * n = a * n + n + m * n := by ring
      have h2 : (a + 1 + m) * n = (a + 1) * n + m * n := by ring
      omega
    rw [e1, ← List.range'_append, List.range'_succ (step := 1), List.flatMap_cons, ← ih (a + 1)]
    have e2 : a * n + 1 * n = (a + 1) * n := by ring
    rw [e2, List.range_eq_range', List.map_add_range']
    simp

theorem scaleSet_elements (I : IndexSet) :
    IndexSet.elements (scaleSet n I)
      = (IndexSet.elements I).flatMap fun g => (List.range n).map fun d => g * n + d := by
  unfold IndexSet.elements scaleSet
  rw [List.flatMap_map, List.flatMap_assoc]
  congr 1
  funext t
  exact scale_range t.1 t.2

theorem scaled_get {l : List ℕ} {i d : ℕ} (hi : i < l.length) (hd : d < n) :
    (l.flatMap fun g => (List.range n).map fun d => g * n + d)[i * n + d]? = some (l[i] * n + d) := by
  induction l generalizing i with
  | nil => simp at hi
  | cons a l ih =>
    rw [List.flatMap_cons]
    cases i with
    | zero =>
      rw [List.getElem?_append_left (by simpa using hd)]
      simp [hd]
    | succ i =>
      have e : (i + 1) * n + d - n = i * n + d := by rw [Nat.add_mul]; omega
      rw [List.getElem?_append_right (by simp; rw [Nat.add_mul]; omega)]
      simp only [List.length_map, List.length_range, e, List.getElem_cons_succ]
      exact ih (by simpa using hi)

theorem scaled_length (l : List ℕ) :
    (l.flatMap fun g => (List.range n).map fun d => g * n + d).length = l.length * n := by
  induction l with
  | nil => simp
  | cons a l ih => rw [List.flatMap_cons, List.length_append, ih]; simp; ring

/-- **C27 (partitioner).** For every owned range and ghost set: component `d` of global index `j` belongs to
the rank owning `j` and is a ghost iff `j` is; and local index `i` maps to the local indices
`i * n, …, i * n + n - 1`, on the owned and on the ghost range. -/
theorem C27_partitioner (hn : 0 < n) (first n_owned : ℕ) (ghosts : IndexSet) :
    let v := vectorPartitioner n first n_owned ghosts
    let p := scalarPartitioner first n_owned ghosts
    v.n_owned = p.n_owned * n ∧ v.nRelevant = p.nRelevant * n ∧
    (∀ x, v.Owned x ↔ p.Owned (x / n)) ∧ (∀ x, x ∈ v.ghosts ↔ x / n ∈ p.ghosts) ∧
    (∀ i < p.nRelevant, ∀ d < n, v.localToGlobal (i * n + d) = p.localToGlobal i * n + d) := by
  intro v p
  have hown : v.n_owned = n_owned * n := by
    simp only [v, vectorPartitioner]; rw [Nat.add_mul]; omega
  have hgh : v.ghosts = ghosts.elements.flatMap fun g => (List.range n).map fun d => g * n + d :=
    scaleSet_elements ghosts
  have hlt : ∀ i d m, d < n → (i * n + d < m * n ↔ i < m) := by
    intro i d m hd
    rw [← Nat.div_lt_iff_lt_mul hn, Nat.mul_comm, Nat.mul_add_div hn, Nat.div_eq_of_lt hd, Nat.add_zero]
  refine ⟨hown, ?_, ?_, ?_, ?_⟩
  · unfold Sparse.Partitioner.nRelevant
    rw [hown, hgh, scaled_length]
    simp only [p, scalarPartitioner]; ring
  · intro x
    unfold Sparse.Partitioner.Owned
    rw [hown]
    simp only [v, p, vectorPartitioner, scalarPartitioner]
    rw [Nat.le_div_iff_mul_le hn, Nat.div_lt_iff_lt_mul hn, Nat.add_mul]
  · intro x
    rw [hgh]
    simp only [List.mem_flatMap, List.mem_map, List.mem_range, p, scalarPartitioner]
    constructor
    · rintro ⟨g, hg, d, hd, rfl⟩
      rw [Nat.mul_comm, Nat.mul_add_div hn, Nat.div_eq_of_lt hd, Nat.add_zero]
      exact hg
    · intro h
      exact ⟨x / n, h, x % n, Nat.mod_lt _ hn, by rw [Nat.mul_comm]; exact Nat.div_add_mod x n⟩
  · intro i hi d hd
    unfold Sparse.Partitioner.localToGlobal
    rw [hown]
    have hp : p.n_owned = n_owned := rfl
    rw [hp]
    by_cases hio : i < n_owned
    · rw [if_pos ((hlt i d n_owned hd).2 hio), if_pos hio]
      simp only [v, p, vectorPartitioner, scalarPartitioner]; ring
    · rw [if_neg (fun h => hio ((hlt i d n_owned hd).1 h)), if_neg hio, hgh]
      have e : i * n + d - n_owned * n = (i - n_owned) * n + d := by
        have : n_owned * n ≤ i * n := Nat.mul_le_mul_right _ (by omega)
        rw [Nat.sub_mul]; omega
      have hlen : i - n_owned < ghosts.elements.length := by
        have : i < n_owned + ghosts.elements.length := hi
        omega
      rw [e, List.getD_eq_getElem?_getD, scaled_get hlen hd, List.getD_eq_getElem?_getD]
      simp only [p, scalarPartitioner, List.getElem?_eq_getElem hlen, Option.getD_some]

/-- Three components, owned range `[4, 6)`, ghosts `{1, 2, 7}`: the second component of the ghost index 7. -/
example : (vectorPartitioner 3 4 2 [(1, 2), (7, 1)]).localToGlobal (4 * 3 + 1) = 7 * 3 + 1 ∧
    (scalarPartitioner 4 2 [(1, 2), (7, 1)]).localToGlobal 4 = 7 := by decide

example : get 3 (writeVec 3 2 (fun d k => 10 * k + d) 4 (fun _ => (0 : ℕ))) 5 2 = 12 := by decide

end Multi
end Ryujin
