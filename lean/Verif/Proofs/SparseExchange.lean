import Verif.Model.SparseExchange
import Verif.Props.SparseMatrix

/-!
# The ghost row exchange: sorted lists, groups, messages
-/

namespace Ryujin
namespace Sparse

/-! ### Strictly ascending lists -/

/-- Strictly ascending lists with the same elements are equal. -/
theorem sorted_ext : ∀ {a b : List ℕ}, a.Pairwise (· < ·) → b.Pairwise (· < ·) →
    (∀ x, x ∈ a ↔ x ∈ b) → a = b
  | [], [], _, _, _ => rfl
  | [], y :: b, _, _, h => by simpa using (h y).2 List.mem_cons_self
  | x :: a, [], _, _, h => by simpa using (h x).1 List.mem_cons_self
  | x :: a, y :: b, ha, hb, h => by
    obtain ⟨ha1, ha2⟩ := List.pairwise_cons.1 ha
    obtain ⟨hb1, hb2⟩ := List.pairwise_cons.1 hb
    have hxy : x = y := by
      rcases List.mem_cons.1 ((h x).1 List.mem_cons_self) with e | hx
      · exact e
      rcases List.mem_cons.1 ((h y).2 List.mem_cons_self) with e | hy
      · exact e.symm
      exact absurd (ha1 y hy) (not_lt.2 (hb1 x hx).le)
    subst hxy
    rw [sorted_ext ha2 hb2]
    intro z
    have := h z
    simp only [List.mem_cons] at this
    constructor
    · intro hz
      rcases this.1 (Or.inr hz) with e | hz'
      · exact absurd (ha1 z hz) (by rw [e]; exact lt_irrefl _)
      · exact hz'
    · intro hz
      rcases this.2 (Or.inr hz) with e | hz'
      · exact absurd (hb1 z hz) (by rw [e]; exact lt_irrefl _)
      · exact hz'

theorem sorted_nodup {a : List ℕ} (h : a.Pairwise (· < ·)) : a.Nodup :=
  h.imp fun hab => hab.ne

theorem range_sorted (n : ℕ) : (List.range n).Pairwise (· < ·) := List.pairwise_lt_range

theorem map_sorted {a : List ℕ} (f : ℕ → ℕ) (h : a.Pairwise (· < ·))
    (hf : ∀ x ∈ a, ∀ y ∈ a, x < y → f x < f y) : (a.map f).Pairwise (· < ·) := by
  rw [List.pairwise_map]
  exact List.Pairwise.imp_of_mem (fun hx hy hxy => hf _ hx _ hy hxy) h

/-! ### Slices of concatenations -/

/-- Total length of the first `a` segments. -/
def offset {β : Type} (segs : List (List β)) (a : ℕ) : ℕ := ((segs.take a).map List.length).sum

theorem offset_succ {β : Type} (segs : List (List β)) {a : ℕ} (ha : a < segs.length) :
    offset segs (a + 1) = offset segs a + (segs[a]).length := by
  unfold offset
  rw [List.take_succ_eq_append_getElem ha]
  simp only [List.map_append, List.sum_append, List.map_cons, List.map_nil, List.sum_cons,
    List.sum_nil, Nat.add_zero]

theorem slice_flatten {β : Type} : ∀ (segs : List (List β)) {a : ℕ} (ha : a < segs.length),
    (segs.flatten.drop (offset segs a)).take (segs[a]).length = segs[a]
  | [], a, ha => by simp at ha
  | l :: segs, 0, _ => by simp [offset]
  | l :: segs, a + 1, ha => by
    have : offset (l :: segs) (a + 1) = l.length + offset segs a := by simp [offset]
    rw [this, List.flatten_cons, ← List.drop_drop, List.drop_left]
    exact slice_flatten segs (Nat.lt_of_succ_lt_succ ha)

theorem flatten_get {β : Type} : ∀ (segs : List (List β)) {a x : ℕ} (ha : a < segs.length)
    (_ : x < (segs[a]).length), segs.flatten[offset segs a + x]? = (segs[a])[x]?
  | [], a, _, ha, _ => by simp at ha
  | l :: segs, 0, x, _, hx => by
    simp only [List.getElem_cons_zero] at hx ⊢
    simp only [offset, List.take_zero, List.map_nil, List.sum_nil, List.flatten_cons, Nat.zero_add]
    rw [List.getElem?_append_left hx]
  | l :: segs, a + 1, x, ha, hx => by
    have : offset (l :: segs) (a + 1) = l.length + offset segs a := by simp [offset]
    simp only [List.getElem_cons_succ] at hx ⊢
    rw [this, List.flatten_cons, List.getElem?_append_right (by omega)]
    have e : l.length + offset segs a + x - l.length = offset segs a + x := by omega
    rw [e]
    exact flatten_get segs (Nat.lt_of_succ_lt_succ ha) hx

theorem offset_length {β : Type} (segs : List (List β)) :
    offset segs segs.length = segs.flatten.length := by
  simp [offset, List.length_flatten]

theorem offset_mono {β : Type} (segs : List (List β)) {a b : ℕ} (h : a ≤ b) :
    offset segs a ≤ offset segs b := by
  induction h with
  | refl => exact le_rfl
  | @step m _ ih =>
    refine ih.trans ?_
    by_cases hm : m < segs.length
    · rw [offset_succ segs hm]; omega
    · unfold offset
      rw [List.take_of_length_le (by omega), List.take_of_length_le (by omega)]

/-! ### Partitioners -/

/-- The contract of the partitioners: consecutive owned ranges starting at zero; ghosts ascending and owned
by another rank. -/
structure World.Consistent (W : World) : Prop where
  zero : (W.part 0).first = 0
  next : ∀ p, (W.part (p + 1)).first = (W.part p).first + (W.part p).n_owned
  sorted : ∀ p < W.R, (W.part p).ghosts.Pairwise (· < ·)
  ghost : ∀ q < W.R, ∀ g ∈ (W.part q).ghosts, ∃ p < W.R, p ≠ q ∧ (W.part p).Owned g

/-- The contract of the global sparsity pattern: symmetric, and all columns of owned rows are locally
relevant. -/
structure World.Compatible (W : World) (dsp : ℕ → List ℕ) : Prop where
  symm : ∀ g g', g' ∈ dsp g → g ∈ dsp g'
  relevant : ∀ p < W.R, ∀ g, (W.part p).Owned g → ∀ g' ∈ dsp g,
    (W.part p).Owned g' ∨ g' ∈ (W.part p).ghosts

variable {W : World} {dsp : ℕ → List ℕ}

theorem first_mono (hW : W.Consistent) {p q : ℕ} (h : p < q) :
    (W.part p).first + (W.part p).n_owned ≤ (W.part q).first := by
  induction h with
  | refl => exact (hW.next p).ge
  | step _ ih => exact ih.trans ((Nat.le_add_right _ _).trans (hW.next _).ge)

/-- Every index has at most one owner. -/
theorem owner_unique (hW : W.Consistent) {p q g : ℕ} (hp : (W.part p).Owned g)
    (hq : (W.part q).Owned g) : p = q := by
  rcases Nat.lt_trichotomy p q with h | h | h
  · have := first_mono hW h; unfold Partitioner.Owned at hp hq; omega
  · exact h
  · have := first_mono hW h; unfold Partitioner.Owned at hp hq; omega

theorem owner_order (hW : W.Consistent) {p q g g' : ℕ} (hp : (W.part p).Owned g)
    (hq : (W.part q).Owned g') (h : p < q) : g < g' := by
  have := first_mono hW h; unfold Partitioner.Owned at hp hq; omega

theorem ghost_not_owned (hW : W.Consistent) {q g : ℕ} (hq : q < W.R) (hg : g ∈ (W.part q).ghosts) :
    ¬ (W.part q).Owned g := fun ho => by
  obtain ⟨p, -, hne, hp⟩ := hW.ghost q hq g hg
  exact hne (owner_unique hW hp ho)

/-- Locally relevant. -/
def Relevant (part : Partitioner) (g : ℕ) : Prop := part.Owned g ∨ g ∈ part.ghosts

section Local

variable {part : Partitioner}

theorem l2g_owned {i : ℕ} (hi : i < part.n_owned) : part.localToGlobal i = part.first + i := if_pos hi

theorem l2g_ghost {i : ℕ} (hi : part.n_owned ≤ i) (hi' : i < part.nRelevant) :
    part.localToGlobal i = part.ghosts[i - part.n_owned]'(by unfold Partitioner.nRelevant at hi'; omega) := by
  unfold Partitioner.localToGlobal
  rw [if_neg (by omega), List.getD_eq_getElem?_getD, List.getElem?_eq_getElem]
  rfl

theorem l2g_relevant {i : ℕ} (hi : i < part.nRelevant) : Relevant part (part.localToGlobal i) := by
  by_cases h : i < part.n_owned
  · left; rw [l2g_owned h]; unfold Partitioner.Owned; omega
  · right; rw [l2g_ghost (by omega) hi]; exact List.getElem_mem _

theorem g2l_lt {g : ℕ} (hg : Relevant part g) : part.globalToLocal g < part.nRelevant := by
  unfold Partitioner.globalToLocal Partitioner.nRelevant
  split_ifs with h
  · unfold Partitioner.Owned at h; omega
  · have := List.idxOf_lt_length_of_mem (hg.resolve_left h)
    omega

theorem g2l_lt_owned {g : ℕ} (hg : part.Owned g) : part.globalToLocal g < part.n_owned := by
  unfold Partitioner.globalToLocal
  rw [if_pos hg]
  unfold Partitioner.Owned at hg; omega

theorem g2l_ge {g : ℕ} (hg : ¬ part.Owned g) : part.n_owned ≤ part.globalToLocal g := by
  unfold Partitioner.globalToLocal
  rw [if_neg hg]; omega

theorem l2g_g2l {g : ℕ} (hg : Relevant part g) : part.localToGlobal (part.globalToLocal g) = g := by
  by_cases h : part.Owned g
  · rw [l2g_owned (g2l_lt_owned h)]
    unfold Partitioner.globalToLocal
    rw [if_pos h]
    unfold Partitioner.Owned at h; omega
  · rw [l2g_ghost (g2l_ge h) (g2l_lt hg)]
    have e : part.globalToLocal g - part.n_owned = part.ghosts.idxOf g := by
      unfold Partitioner.globalToLocal
      rw [if_neg h]; omega
    simp only [e]
    exact List.getElem_idxOf (List.idxOf_lt_length_of_mem (hg.resolve_left h))

theorem l2g_injective (hs : part.ghosts.Pairwise (· < ·)) (hn : ∀ g ∈ part.ghosts, ¬ part.Owned g)
    {i j : ℕ} (hi : i < part.nRelevant) (hj : j < part.nRelevant)
    (h : part.localToGlobal i = part.localToGlobal j) : i = j := by
  by_cases h1 : i < part.n_owned <;> by_cases h2 : j < part.n_owned
  · rw [l2g_owned h1, l2g_owned h2] at h; omega
  · rw [l2g_owned h1, l2g_ghost (by omega) hj] at h
    refine absurd ?_ (hn _ (List.getElem_mem (l := part.ghosts) (n := j - part.n_owned)
      (by unfold Partitioner.nRelevant at hj; omega)))
    rw [← h]; unfold Partitioner.Owned; omega
  · rw [l2g_owned h2, l2g_ghost (by omega) hi] at h
    refine absurd ?_ (hn _ (List.getElem_mem (l := part.ghosts) (n := i - part.n_owned)
      (by unfold Partitioner.nRelevant at hi; omega)))
    rw [h]; unfold Partitioner.Owned; omega
  · rw [l2g_ghost (by omega) hi, l2g_ghost (by omega) hj] at h
    have := (List.Nodup.getElem_inj_iff (sorted_nodup hs)).1 h
    omega

theorem g2l_l2g (hs : part.ghosts.Pairwise (· < ·)) (hn : ∀ g ∈ part.ghosts, ¬ part.Owned g)
    {i : ℕ} (hi : i < part.nRelevant) : part.globalToLocal (part.localToGlobal i) = i :=
  l2g_injective hs hn (g2l_lt (l2g_relevant hi)) hi (l2g_g2l (l2g_relevant hi))

/-- `local_to_global` is increasing on the ghost range. -/
theorem l2g_ghost_mono (hs : part.ghosts.Pairwise (· < ·)) {i j : ℕ} (hi : part.n_owned ≤ i)
    (hij : i < j) (hj : j < part.nRelevant) : part.localToGlobal i < part.localToGlobal j := by
  rw [l2g_ghost hi (by omega), l2g_ghost (by omega) hj]
  exact List.pairwise_iff_getElem.1 hs _ _ _ _ (by omega)

end Local

/-! ### The minimal pattern -/

/-- Membership in the minimal pattern, in global indices. -/
theorem mem_minimalEntries {part : Partitioner} (hs : part.ghosts.Pairwise (· < ·))
    (hn : ∀ g ∈ part.ghosts, ¬ part.Owned g)
    (hrel : ∀ g, part.Owned g → ∀ g' ∈ dsp g, Relevant part g') {row j : ℕ}
    (hr : row < part.nRelevant) (hj : j < part.nRelevant) :
    (row, j) ∈ minimalEntries dsp part ↔
      (row < part.n_owned ∧ part.localToGlobal j ∈ dsp (part.localToGlobal row)) ∨
      (part.n_owned ≤ row ∧ j < part.n_owned ∧ part.localToGlobal row ∈ dsp (part.localToGlobal j)) := by
  unfold minimalEntries
  simp only [List.mem_flatMap, List.mem_range, List.mem_cons, Prod.mk.injEq]
  have howned : ∀ i < part.n_owned, part.Owned (part.localToGlobal i) := by
    intro i hi; rw [l2g_owned hi]; unfold Partitioner.Owned; omega
  constructor
  · rintro ⟨i, hi, c, hc, h⟩
    have hrc := hrel _ (howned i hi) c hc
    rcases h with ⟨rfl, rfl⟩ | h
    · left; rw [l2g_g2l hrc]; exact ⟨hi, hc⟩
    · right
      split_ifs at h with hge
      · simp only [List.mem_cons, Prod.mk.injEq, List.not_mem_nil, or_false] at h
        obtain ⟨rfl, rfl⟩ := h
        rw [l2g_g2l hrc]; exact ⟨hge, hi, hc⟩
      · simp at h
  · rintro (⟨h1, h2⟩ | ⟨h1, h2, h3⟩)
    · exact ⟨row, h1, _, h2, Or.inl ⟨rfl, (g2l_l2g hs hn hj).symm⟩⟩
    · refine ⟨j, h2, _, h3, Or.inr ?_⟩
      rw [g2l_l2g hs hn hr, if_pos h1]
      simp

/-- The minimal pattern is well formed up to the block structure of the vectorised range. -/
theorem minimalPattern_wf {part : Partitioner} (hs : part.ghosts.Pairwise (· < ·))
    (hn : ∀ g ∈ part.ghosts, ¬ part.Owned g)
    (hrel : ∀ g, part.Owned g → ∀ g' ∈ dsp g, Relevant part g')
    (hsym : ∀ g g', g' ∈ dsp g → g ∈ dsp g') {s nI : ℕ} (h0 : 0 < s) (hd : s ∣ nI)
    (hle : nI ≤ part.n_owned)
    (hstride : ∀ i < nI, (minimalPattern dsp part).rowLength i
      = (minimalPattern dsp part).rowLength (i / s * s)) :
    (minimalPattern dsp part).WF s nI where
  s_pos := h0
  dvd := hd
  le := by simp only [minimalPattern, Partitioner.nRelevant]; omega
  diag := by intro i _; rfl
  nodup := by
    intro i _
    simp only [minimalPattern, List.nodup_cons, List.mem_filter, decide_eq_true_eq]
    exact ⟨fun h => h.2.1 rfl, List.nodup_range.filter _⟩
  range := by
    intro i hi j hj
    simp only [minimalPattern, List.mem_cons, List.mem_filter, List.mem_range] at hi hj ⊢
    rcases hj with rfl | hj
    · exact hi
    · exact hj.1
  symm := by
    intro i hi j hj
    simp only [minimalPattern, List.mem_cons, List.mem_filter, List.mem_range, decide_eq_true_eq]
      at hi hj ⊢
    rcases hj with rfl | ⟨hj, hne, hm⟩
    · exact Or.inl rfl
    · right
      refine ⟨hi, hne.symm, ?_⟩
      rw [mem_minimalEntries hs hn hrel hi hj] at hm
      rw [mem_minimalEntries hs hn hrel hj hi]
      rcases hm with ⟨h1, h2⟩ | ⟨h1, h2, h3⟩
      · by_cases hjo : j < part.n_owned
        · exact Or.inl ⟨hjo, hsym _ _ h2⟩
        · exact Or.inr ⟨by omega, h1, h2⟩
      · exact Or.inl ⟨h2, h3⟩
  stride := hstride

/-! ### Ghost groups -/

/-- The ranks owning ghosts of `q`, ascending. -/
def World.neighbours (W : World) (q : ℕ) : List ℕ :=
  (List.range W.R).filter fun p => decide (W.shared q p ≠ [])

/-- The ranks having ghosts owned by `p`, ascending. -/
def World.requesters (W : World) (p : ℕ) : List ℕ :=
  (List.range W.R).filter fun q => decide (W.shared q p ≠ [])

theorem ghostTargets_eq (W : World) (q : ℕ) :
    W.ghostTargets q = (W.neighbours q).map fun p => (p, (W.shared q p).length) := by
  unfold World.ghostTargets World.neighbours
  induction List.range W.R with
  | nil => rfl
  | cons a l ih =>
    by_cases h : W.shared q a = []
    · simp [h, ih]
    · simp [h, ih]

theorem importTargets_eq (W : World) (p : ℕ) :
    W.importTargets p = (W.requesters p).map fun q => (q, (W.shared q p).length) := by
  unfold World.importTargets World.requesters
  induction List.range W.R with
  | nil => rfl
  | cons a l ih =>
    by_cases h : W.shared a p = []
    · simp [h, ih]
    · simp [h, ih]

theorem importIndices_eq (W : World) (p : ℕ) :
    W.importIndices p = ((W.requesters p).map fun q =>
      (W.shared q p).map (W.part p).globalToLocal).flatten := by
  unfold World.importIndices World.requesters
  induction List.range W.R with
  | nil => rfl
  | cons a l ih =>
    by_cases h : W.shared a p = []
    · simp [h, ih]
    · simp [h, ih]

theorem mem_neighbours {p q : ℕ} : p ∈ W.neighbours q ↔ p < W.R ∧ W.shared q p ≠ [] := by
  simp [World.neighbours]

theorem mem_requesters {p q : ℕ} : q ∈ W.requesters p ↔ q < W.R ∧ W.shared q p ≠ [] := by
  simp [World.requesters]

theorem mem_shared {p q g : ℕ} : g ∈ W.shared q p ↔ g ∈ (W.part q).ghosts ∧ (W.part p).Owned g := by
  simp [World.shared]

theorem neighbours_sorted (W : World) (q : ℕ) : (W.neighbours q).Pairwise (· < ·) :=
  (range_sorted _).filter _

theorem requesters_sorted (W : World) (p : ℕ) : (W.requesters p).Pairwise (· < ·) :=
  (range_sorted _).filter _

theorem shared_sorted (hW : W.Consistent) {q : ℕ} (hq : q < W.R) (p : ℕ) :
    (W.shared q p).Pairwise (· < ·) := (hW.sorted q hq).filter _

/-- The ghosts of a rank are the concatenation of the groups owned by its neighbours. -/
theorem ghosts_groups (hW : W.Consistent) {q : ℕ} (hq : q < W.R) :
    (W.part q).ghosts = ((W.neighbours q).map (W.shared q)).flatten := by
  apply sorted_ext (hW.sorted q hq)
  · rw [List.pairwise_flatten]
    constructor
    · intro l hl
      obtain ⟨p, -, rfl⟩ := List.mem_map.1 hl
      exact shared_sorted hW hq p
    · rw [List.pairwise_map]
      refine (neighbours_sorted W q).imp ?_
      intro p p' hpp x hx y hy
      exact owner_order hW (mem_shared.1 hx).2 (mem_shared.1 hy).2 hpp
  · intro g
    simp only [List.mem_flatten, List.mem_map, exists_exists_and_eq_and, mem_shared]
    constructor
    · intro hg
      obtain ⟨p, hp, -, ho⟩ := hW.ghost q hq g hg
      exact ⟨p, mem_neighbours.2 ⟨hp, List.ne_nil_of_mem (mem_shared.2 ⟨hg, ho⟩)⟩, hg, ho⟩
    · rintro ⟨p, -, hg, -⟩
      exact hg

/-- `ghost_ranges[a]` is where group `a` starts. -/
theorem ghostRange_eq (W : World) (q a : ℕ) :
    ghostRange (W.part q).n_owned (W.ghostTargets q) a
      = (W.part q).n_owned + offset ((W.neighbours q).map (W.shared q)) a := by
  unfold ghostRange offset
  rw [ghostTargets_eq, ← List.map_take, ← List.map_take, List.map_map, List.map_map]
  rfl

/-- A local index lies in ghost range `a` iff its global index is owned by the `a`-th neighbour. -/
theorem mem_ghostRange (hW : W.Consistent) {q : ℕ} (hq : q < W.R) {a : ℕ}
    (ha : a < (W.neighbours q).length) {j : ℕ} (hj : j < (W.part q).nRelevant) :
    (ghostRange (W.part q).n_owned (W.ghostTargets q) a ≤ j ∧
      j < ghostRange (W.part q).n_owned (W.ghostTargets q) (a + 1)) ↔
    (W.part q).localToGlobal j ∈ W.shared q ((W.neighbours q)[a]) := by
  set segs := (W.neighbours q).map (W.shared q) with hsegs
  have hlen : segs.length = (W.neighbours q).length := by simp [hsegs]
  have hg := ghosts_groups hW hq
  rw [← hsegs] at hg
  have hseg : segs[a]'(by omega) = W.shared q ((W.neighbours q)[a]) := by simp [hsegs]
  rw [ghostRange_eq, ghostRange_eq, ← hsegs, offset_succ segs (by omega), hseg]
  constructor
  · rintro ⟨h1, h2⟩
    rw [l2g_ghost (by omega) hj]
    have hx : j - (W.part q).n_owned - offset segs a < (segs[a]'(by omega)).length := by
      rw [hseg]; omega
    have := flatten_get segs (by omega) hx
    rw [← hg] at this
    have e : offset segs a + (j - (W.part q).n_owned - offset segs a) = j - (W.part q).n_owned := by
      omega
    rw [e, List.getElem?_eq_getElem (by unfold Partitioner.nRelevant at hj; omega),
      List.getElem?_eq_getElem hx, Option.some.injEq] at this
    rw [this, ← hseg]
    exact List.getElem_mem _
  · intro hm
    have hgh := (mem_shared.1 hm).1
    have hno : ¬ j < (W.part q).n_owned := by
      intro hlt
      refine ghost_not_owned hW hq hgh ?_
      rw [l2g_owned hlt]; unfold Partitioner.Owned; omega
    obtain ⟨x, hx, hxe⟩ := List.getElem_of_mem hm
    have hx' : x < (segs[a]'(by omega)).length := by rw [hseg]; exact hx
    have := flatten_get segs (by omega) hx'
    rw [← hg, List.getElem?_eq_getElem hx'] at this
    obtain ⟨hlt, hge⟩ := List.getElem?_eq_some_iff.1 this
    have hsame : (W.part q).localToGlobal ((W.part q).n_owned + (offset segs a + x))
        = (W.part q).localToGlobal j := by
      rw [l2g_ghost (by omega) (by unfold Partitioner.nRelevant; omega), ← hxe]
      simp only [Nat.add_sub_cancel_left]
      rw [hge]
      simp only [hseg]
    have := l2g_injective (hW.sorted q hq) (fun g hg => ghost_not_owned hW hq hg)
      (by unfold Partitioner.nRelevant; omega) hj hsame
    omega

/-! ### Receive targets -/

theorem foldl_range'_add {β : Type} (f : β → ℕ → β) (i a b : ℕ) (st : β) :
    (List.range' i (a + b)).foldl f st
      = (List.range' (i + a) b).foldl f ((List.range' i a).foldl f st) := by
  have : List.range' i (a + b) = List.range' i a ++ List.range' (i + a) b := by
    rw [List.range'_append_1]
  rw [this, List.foldl_append]

/-- One group of rows. -/
theorem recv_group (P : Pattern) (gts : List (ℕ × ℕ)) (T : List ℕ) (n i0 idx : ℕ) (hn : 0 < n)
    (hg : (gts.getD T.length (0, 0)).2 = n) :
    (List.range' i0 n).foldl (recvRow P gts) ⟨idx, 0, T⟩
      = ⟨idx + (P.csrStart (i0 + n) - P.csrStart i0), 0,
          T ++ [idx + (P.csrStart (i0 + n) - P.csrStart i0)]⟩ := by
  have key : ∀ m, m < n → (List.range' i0 m).foldl (recvRow P gts) ⟨idx, 0, T⟩
      = ⟨idx + (P.csrStart (i0 + m) - P.csrStart i0), m, T⟩ := by
    intro m
    induction m with
    | zero => intro _; simp
    | succ m ih =>
      intro hm
      rw [List.range'_concat, List.foldl_append, ih (by omega)]
      simp only [List.foldl_cons, List.foldl_nil, recvRow, Nat.one_mul]
      rw [if_neg (by rw [hg]; omega)]
      have h1 := csrStart_mono (P := P) (Nat.le_add_right i0 m)
      have h2 : P.csrStart (i0 + (m + 1)) = P.csrStart (i0 + m) + P.rowLength (i0 + m) := rfl
      rw [h2]
      congr 1
      omega
  obtain ⟨m, rfl⟩ : ∃ m, n = m + 1 := ⟨n - 1, by omega⟩
  rw [List.range'_concat, List.foldl_append, key m (by omega)]
  simp only [List.foldl_cons, List.foldl_nil, recvRow, Nat.one_mul]
  rw [if_pos (by rw [hg])]
  have h1 := csrStart_mono (P := P) (Nat.le_add_right i0 m)
  have h2 : P.csrStart (i0 + (m + 1)) = P.csrStart (i0 + m) + P.rowLength (i0 + m) := rfl
  have e : idx + (P.csrStart (i0 + m) - P.csrStart i0) + P.rowLength (i0 + m)
      = idx + (P.csrStart (i0 + (m + 1)) - P.csrStart i0) := by rw [h2]; omega
  rw [e]

/-- All groups: target `a` ends where the rows of group `a` end. -/
theorem recv_groups (P : Pattern) (i0 : ℕ) :
    ∀ (rest done : List (ℕ × ℕ)) (i idx : ℕ) (T : List ℕ), T.length = done.length →
      (∀ t ∈ rest, 0 < t.2) → idx = P.csrStart i - P.csrStart i0 → i0 ≤ i →
      ((List.range' i ((rest.map Prod.snd).sum)).foldl (recvRow P (done ++ rest)) ⟨idx, 0, T⟩).targets
        = T ++ (List.range rest.length).map fun a =>
            P.csrStart (i + ((rest.take (a + 1)).map Prod.snd).sum) - P.csrStart i0
  | [], done, i, idx, T, _, _, _, _ => by simp
  | t :: rest, done, i, idx, T, hT, hpos, hidx, hi => by
    have h0 := hpos t List.mem_cons_self
    have hg : ((done ++ t :: rest).getD T.length (0, 0)).2 = t.2 := by
      rw [hT, List.getD_eq_getElem?_getD, List.getElem?_append_right le_rfl]
      simp
    rw [List.map_cons, List.sum_cons, foldl_range'_add, recv_group P _ T t.2 i idx h0 hg]
    have e : done ++ t :: rest = (done ++ [t]) ++ rest := by simp
    have m1 := csrStart_mono (P := P) hi
    have m2 := csrStart_mono (P := P) (Nat.le_add_right i t.2)
    have e2 : idx + (P.csrStart (i + t.2) - P.csrStart i) = P.csrStart (i + t.2) - P.csrStart i0 := by
      rw [hidx]; omega
    rw [e, e2, recv_groups P i0 rest (done ++ [t]) (i + t.2) _ _ (by simp [hT])
      (fun t' ht' => hpos t' (List.mem_cons_of_mem _ ht')) rfl (by omega)]
    rw [List.length_cons, List.range_succ_eq_map, List.map_cons, List.map_map, List.append_assoc]
    congr 1
    simp only [List.singleton_append, Nat.zero_add, List.take_succ_cons, List.take_zero, List.map_cons,
      List.map_nil, List.sum_cons, List.sum_nil, Nat.add_zero, List.cons.injEq, true_and]
    apply List.map_congr_left
    intro a _
    simp only [Function.comp, Nat.succ_eq_add_one]
    rw [Nat.add_assoc]

/-- The receive targets of a rank. -/
theorem receiveTargets_eq (hW : W.Consistent) {q : ℕ} (hq : q < W.R) :
    receiveTargets (minimalPattern dsp (W.part q)) (W.part q).n_owned (W.ghostTargets q)
      = (List.range (W.neighbours q).length).map fun a =>
        (minimalPattern dsp (W.part q)).csrStart
            (ghostRange (W.part q).n_owned (W.ghostTargets q) (a + 1))
          - (minimalPattern dsp (W.part q)).csrStart (W.part q).n_owned := by
  have hsum : ((W.ghostTargets q).map Prod.snd).sum = (W.part q).ghosts.length := by
    rw [ghosts_groups hW hq, List.length_flatten, ghostTargets_eq, List.map_map, List.map_map]
    rfl
  have hlen : (W.ghostTargets q).length = (W.neighbours q).length := by
    rw [ghostTargets_eq, List.length_map]
  have hpos : ∀ t ∈ W.ghostTargets q, 0 < t.2 := by
    intro t ht
    rw [ghostTargets_eq] at ht
    obtain ⟨p, hp, rfl⟩ := List.mem_map.1 ht
    exact List.length_pos_of_ne_nil (mem_neighbours.1 hp).2
  have := recv_groups (minimalPattern dsp (W.part q)) (W.part q).n_owned (W.ghostTargets q) []
    (W.part q).n_owned 0 [] rfl hpos (by simp) le_rfl
  unfold receiveTargets
  have hrows : (minimalPattern dsp (W.part q)).n_rows - (W.part q).n_owned
      = ((W.ghostTargets q).map Prod.snd).sum := by
    rw [hsum]; simp [minimalPattern, Partitioner.nRelevant]
  rw [hrows]
  simpa [hlen, ghostRange] using this

/-! ### Matching ranks -/

/-- `idxOf` splits a list. -/
theorem takeWhile_ne_length (l : List (ℕ × ℕ)) (r : ℕ) :
    (l.takeWhile fun t => decide (t.1 ≠ r)).length = (l.map Prod.fst).idxOf r := by
  induction l with
  | nil => rfl
  | cons t l ih =>
    by_cases h : t.1 = r
    · simp [h]
    · rw [List.takeWhile_cons_of_pos (by simpa using h), List.length_cons, ih, List.map_cons,
        List.idxOf_cons_ne _ h]

/-- Searching from a position not behind the match finds the match, or the end of the list. -/
theorem matchRank_eq (gts : List (ℕ × ℕ)) (r m : ℕ)
    (hm : m ≤ (gts.map Prod.fst).idxOf r) (hml : m ≤ gts.length) :
    matchRank gts r m = (gts.map Prod.fst).idxOf r := by
  unfold matchRank
  rw [takeWhile_ne_length, List.map_drop]
  have hsplit : gts.map Prod.fst = (gts.map Prod.fst).take m ++ (gts.map Prod.fst).drop m :=
    (List.take_append_drop m _).symm
  have hnot : r ∉ (gts.map Prod.fst).take m := by
    intro hmem
    have h1 : (gts.map Prod.fst).idxOf r < m := by
      rw [hsplit, List.idxOf_append_of_mem hmem]
      exact lt_of_lt_of_le (List.idxOf_lt_length_of_mem hmem) (by simp)
    omega
  conv_rhs => rw [hsplit, List.idxOf_append_of_notMem hnot]
  have : ((gts.map Prod.fst).take m).length = m := by simp; omega
  rw [this]

theorem idxOf_le_of_lt {l : List ℕ} (hl : l.Pairwise (· < ·)) {q q' : ℕ} (hq : q ∈ l) (h : q < q') :
    l.idxOf q ≤ l.idxOf q' := by
  by_cases hq' : q' ∈ l
  · by_contra hcon
    have h1 := List.idxOf_lt_length_of_mem hq
    have h2 := List.idxOf_lt_length_of_mem hq'
    have := List.pairwise_iff_getElem.1 hl _ _ h2 h1 (by omega)
    rw [List.getElem_idxOf h2, List.getElem_idxOf h1] at this
    omega
  · rw [List.idxOf_eq_length hq']
    exact (List.idxOf_lt_length_of_mem hq).le

/-! ### The entries to be sent -/

/-- What rank `p` sends to rank `q`: nothing unless `p` has ghosts owned by `q`. -/
def segment (dsp : ℕ → List ℕ) (W : World) (p q : ℕ) : List (ℕ × ℕ) :=
  if q ∈ W.neighbours p then
    ((W.shared q p).map (W.part p).globalToLocal).flatMap
      (rowEntries (minimalPattern dsp (W.part p))
        (ghostRange (W.part p).n_owned (W.ghostTargets p) ((W.neighbours p).idxOf q))
        (ghostRange (W.part p).n_owned (W.ghostTargets p) ((W.neighbours p).idxOf q + 1)))
  else []

theorem ghostTargets_fst (W : World) (p : ℕ) : (W.ghostTargets p).map Prod.fst = W.neighbours p := by
  rw [ghostTargets_eq, List.map_map]
  exact List.map_id _

theorem ghostTargets_length (W : World) (p : ℕ) :
    (W.ghostTargets p).length = (W.neighbours p).length := by
  rw [ghostTargets_eq, List.length_map]

theorem send_loop (dsp : ℕ → List ℕ) (W : World) (p : ℕ) :
    ∀ (rest : List ℕ) (m : ℕ) (E T : List (ℕ × ℕ)), rest.Pairwise (· < ·) →
      m ≤ (W.neighbours p).length →
      (∀ q ∈ rest, (if m = (W.neighbours p).length then 0 else m) ≤ (W.neighbours p).idxOf q) →
      let st := (rest.map fun q => (q, (W.shared q p).length)).foldl
        (sendTarget (minimalPattern dsp (W.part p)) (W.part p).n_owned (W.ghostTargets p))
        ⟨m, (rest.map fun q => (W.shared q p).map (W.part p).globalToLocal).flatten, E, T⟩
      st.entries = E ++ (rest.map (segment dsp W p)).flatten ∧
      st.targets = T ++ (List.range rest.length).map fun b =>
        (rest.getD b 0, E.length + offset (rest.map (segment dsp W p)) (b + 1))
  | [], m, E, T, _, _, _ => by simp
  | q :: rest, m, E, T, hs, hm, hall => by
    obtain ⟨hs1, hs2⟩ := List.pairwise_cons.1 hs
    have hfst := ghostTargets_fst W p
    have hlen := ghostTargets_length W p
    have hmatch : matchRank (W.ghostTargets p) q (if m = (W.ghostTargets p).length then 0 else m)
        = (W.neighbours p).idxOf q := by
      rw [matchRank_eq, hfst]
      · rw [hfst, hlen]; exact hall q List.mem_cons_self
      · rw [hlen]; split_ifs <;> omega
    have hstep : sendTarget (minimalPattern dsp (W.part p)) (W.part p).n_owned (W.ghostTargets p)
        ⟨m, ((q :: rest).map fun q => (W.shared q p).map (W.part p).globalToLocal).flatten, E, T⟩
        (q, (W.shared q p).length)
        = ⟨(W.neighbours p).idxOf q,
            (rest.map fun q => (W.shared q p).map (W.part p).globalToLocal).flatten,
            E ++ segment dsp W p q, T ++ [(q, (E ++ segment dsp W p q).length)]⟩ := by
      unfold sendTarget
      simp only [hmatch, List.map_cons, List.flatten_cons]
      have hseg : (if (W.neighbours p).idxOf q = (W.ghostTargets p).length then []
          else (((W.shared q p).map (W.part p).globalToLocal ++
            (rest.map fun q => (W.shared q p).map (W.part p).globalToLocal).flatten).take
              (W.shared q p).length).flatMap
            (rowEntries (minimalPattern dsp (W.part p))
              (ghostRange (W.part p).n_owned (W.ghostTargets p) ((W.neighbours p).idxOf q))
              (ghostRange (W.part p).n_owned (W.ghostTargets p) ((W.neighbours p).idxOf q + 1))))
          = segment dsp W p q := by
        unfold segment
        by_cases hq : q ∈ W.neighbours p
        · rw [if_neg (by rw [hlen]; exact (List.idxOf_lt_length_of_mem hq).ne), if_pos hq]
          rw [List.take_left' (by simp)]
        · rw [if_pos (by rw [hlen]; exact List.idxOf_eq_length hq), if_neg hq]
      rw [hseg, List.drop_left' (by simp)]
    have ih := send_loop dsp W p rest ((W.neighbours p).idxOf q) (E ++ segment dsp W p q)
      (T ++ [(q, (E ++ segment dsp W p q).length)]) hs2 List.idxOf_le_length (by
        intro q' hq'
        split_ifs with h
        · exact Nat.zero_le _
        · refine idxOf_le_of_lt (neighbours_sorted W p) ?_ (hs1 q' hq')
          by_contra hn
          exact h (List.idxOf_eq_length hn))
    intro st
    have hst : st = (rest.map fun q => (q, (W.shared q p).length)).foldl
        (sendTarget (minimalPattern dsp (W.part p)) (W.part p).n_owned (W.ghostTargets p))
        ⟨(W.neighbours p).idxOf q,
            (rest.map fun q => (W.shared q p).map (W.part p).globalToLocal).flatten,
            E ++ segment dsp W p q, T ++ [(q, (E ++ segment dsp W p q).length)]⟩ := by
      rw [← hstep]; rfl
    rw [hst, ih.1, ih.2]
    constructor
    · simp
    · rw [List.length_cons, List.range_succ_eq_map, List.map_cons, List.map_map, List.append_assoc]
      congr 1
      rw [List.singleton_append]
      congr 1
      · simp [offset]
      · apply List.map_congr_left
        intro b _
        have : offset ((q :: rest).map (segment dsp W p)) (b + 1 + 1)
            = (segment dsp W p q).length + offset (rest.map (segment dsp W p)) (b + 1) := by
          simp [offset]
        simp only [Function.comp, Nat.succ_eq_add_one, this, List.length_append, List.getD_cons_succ]
        rw [Nat.add_assoc]

/-- The exchange pattern of a rank with ghosts. -/
theorem exchange_eq (hW : W.Consistent) {p : ℕ} (hp : p < W.R) (hg : (W.part p).ghosts ≠ []) :
    (exchangePattern dsp W p).entries = ((W.requesters p).map (segment dsp W p)).flatten ∧
    (exchangePattern dsp W p).send = ((List.range (W.requesters p).length).map fun b =>
      ((W.requesters p).getD b 0, offset ((W.requesters p).map (segment dsp W p)) (b + 1))) ∧
    (exchangePattern dsp W p).receive = (List.range (W.neighbours p).length).map fun a =>
      ((W.neighbours p).getD a 0, (minimalPattern dsp (W.part p)).csrStart
            (ghostRange (W.part p).n_owned (W.ghostTargets p) (a + 1))
          - (minimalPattern dsp (W.part p)).csrStart (W.part p).n_owned) := by
  have hrows : (minimalPattern dsp (W.part p)).n_rows > (W.part p).n_owned := by
    have := List.length_pos_of_ne_nil hg
    simp only [minimalPattern, Partitioner.nRelevant]; omega
  have := send_loop dsp W p (W.requesters p) 0 [] [] (requesters_sorted W p) (Nat.zero_le _)
    (by intro q _; split_ifs <;> exact Nat.zero_le _)
  rw [← importTargets_eq, ← importIndices_eq] at this
  unfold exchangePattern
  simp only [if_pos hrows]
  refine ⟨by simpa using this.1, by simpa using this.2, ?_⟩
  rw [receiveTargets_eq hW hp, ghostTargets_fst]
  apply List.ext_getElem
  · simp
  · intro n h1 h2
    simp only [List.length_map, List.length_range] at h2
    simp [List.getD_eq_getElem?_getD, List.getElem?_eq_getElem h2]

theorem start_send (hW : W.Consistent) {p : ℕ} (hp : p < W.R) (hg : (W.part p).ghosts ≠ []) {b : ℕ}
    (hb : b < (W.requesters p).length) :
    Exchange.start (exchangePattern dsp W p).send b
      = offset ((W.requesters p).map (segment dsp W p)) b := by
  unfold Exchange.start
  rw [(exchange_eq hW hp hg).2.1]
  split_ifs with h0
  · rw [h0]; rfl
  · have hb' : b - 1 < (W.requesters p).length := by omega
    have e : b - 1 + 1 = b := by omega
    simp [List.getD_eq_getElem?_getD, hb', e]

/-- The message posted by `p` for `q`. -/
theorem message_eq (hW : W.Consistent) {p q : ℕ} (hp : p < W.R) (hg : (W.part p).ghosts ≠ [])
    (hq : q ∈ W.requesters p) :
    (exchangePattern dsp W p).message q = some (segment dsp W p q) := by
  have hfst : (exchangePattern dsp W p).send.map Prod.fst = W.requesters p := by
    rw [(exchange_eq hW hp hg).2.1, List.map_map]
    apply List.ext_getElem
    · simp
    · intro n h1 h2
      simp [List.getD_eq_getElem?_getD, List.getElem?_eq_getElem h2]
  have hlen : (exchangePattern dsp W p).send.length = (W.requesters p).length := by
    rw [← hfst, List.length_map]
  have hb := List.idxOf_lt_length_of_mem hq
  unfold Exchange.message
  simp only [hfst, hlen, if_pos hb, start_send hW hp hg hb]
  set b := (W.requesters p).idxOf q with hbdef
  set segs := (W.requesters p).map (segment dsp W p) with hsegs
  have hbs : b < segs.length := by simp [hsegs, hb]
  have hseg : segs[b]'hbs = segment dsp W p q := by
    simp only [hsegs, List.getElem_map]
    rw [List.getElem_idxOf hb]
  have h2 : ((exchangePattern dsp W p).send.getD b (0, 0)).2 = offset segs (b + 1) := by
    rw [(exchange_eq hW hp hg).2.1]
    simp [List.getD_eq_getElem?_getD, hb, hsegs]
  rw [h2, offset_succ segs hbs, Nat.add_sub_cancel_left, (exchange_eq hW hp hg).1, ← hsegs,
    slice_flatten segs hbs, hseg]

/-! ### One row on both sides -/

/-- The global column of an entry. -/
def globalColumn (dsp : ℕ → List ℕ) (part : Partitioner) (e : ℕ × ℕ) : ℕ :=
  part.localToGlobal (((minimalPattern dsp part).cols e.1).getD e.2 0)

theorem filter_positions (l : List ℕ) (f : ℕ → Bool) :
    ((List.range' 1 (l.length - 1)).filter fun c => f (l.getD c 0)).map (fun c => l.getD c 0)
      = l.tail.filter f := by
  have h : (List.range' 1 (l.length - 1)).map (fun c => l.getD c 0) = l.tail := by
    apply List.ext_getElem
    · simp
    · intro n h1 h2
      simp only [List.length_tail] at h2
      simp [List.getD_eq_getElem?_getD, List.getElem?_eq_getElem (show n + 1 < l.length by omega),
        Nat.add_comm]
  rw [← h, List.filter_map]
  rfl

section Rows

variable (hW : W.Consistent) (hD : W.Compatible dsp)
include hW hD

theorem mem_tail_cols {p row j : ℕ} (hp : p < W.R) (hrow : row < (W.part p).nRelevant) :
    j ∈ ((minimalPattern dsp (W.part p)).cols row).tail ↔ j < (W.part p).nRelevant ∧ j ≠ row ∧
      ((row < (W.part p).n_owned ∧
          (W.part p).localToGlobal j ∈ dsp ((W.part p).localToGlobal row)) ∨
        ((W.part p).n_owned ≤ row ∧ j < (W.part p).n_owned ∧
          (W.part p).localToGlobal row ∈ dsp ((W.part p).localToGlobal j))) := by
  simp only [minimalPattern, List.tail_cons, List.mem_filter, List.mem_range, decide_eq_true_eq]
  constructor
  · rintro ⟨h1, h2, h3⟩
    exact ⟨h1, h2, (mem_minimalEntries (hW.sorted p hp) (fun g hg => ghost_not_owned hW hp hg)
      (hD.relevant p hp) hrow h1).1 h3⟩
  · rintro ⟨h1, h2, h3⟩
    exact ⟨h1, h2, (mem_minimalEntries (hW.sorted p hp) (fun g hg => ghost_not_owned hW hp hg)
      (hD.relevant p hp) hrow h1).2 h3⟩

omit hW hD in
theorem tail_cols_sorted (p row : ℕ) :
    ((minimalPattern dsp (W.part p)).cols row).tail.Pairwise (· < ·) := by
  simp only [minimalPattern, List.tail_cons]
  exact (range_sorted _).filter _

/-- The columns of a ghost row, in global indices. -/
theorem ghost_row_columns {q i : ℕ} (hq : q < W.R) (hi : (W.part q).n_owned ≤ i)
    (hi' : i < (W.part q).nRelevant) :
    (((minimalPattern dsp (W.part q)).cols i).tail.map (W.part q).localToGlobal).Pairwise (· < ·) ∧
    ∀ g', g' ∈ ((minimalPattern dsp (W.part q)).cols i).tail.map (W.part q).localToGlobal ↔
      (W.part q).Owned g' ∧ (W.part q).localToGlobal i ∈ dsp g' := by
  constructor
  · apply map_sorted _ (tail_cols_sorted q i)
    intro a ha b hb hab
    obtain ⟨-, -, ha⟩ := (mem_tail_cols hW hD hq hi').1 ha
    obtain ⟨-, -, hb⟩ := (mem_tail_cols hW hD hq hi').1 hb
    rcases ha with ⟨h, -⟩ | ⟨-, ha, -⟩
    · omega
    rcases hb with ⟨h, -⟩ | ⟨-, hb, -⟩
    · omega
    rw [l2g_owned ha, l2g_owned hb]; omega
  · intro g'
    rw [List.mem_map]
    constructor
    · rintro ⟨j, hj, rfl⟩
      obtain ⟨-, -, h⟩ := (mem_tail_cols hW hD hq hi').1 hj
      rcases h with ⟨h, -⟩ | ⟨-, hj, h⟩
      · omega
      · refine ⟨?_, h⟩
        rw [l2g_owned hj]; unfold Partitioner.Owned; omega
    · rintro ⟨ho, hd⟩
      have hlt := g2l_lt_owned ho
      refine ⟨(W.part q).globalToLocal g', (mem_tail_cols hW hD hq hi').2
        ⟨g2l_lt (Or.inl ho), by omega, Or.inr ⟨hi, hlt, ?_⟩⟩, l2g_g2l (Or.inl ho)⟩
      rw [l2g_g2l (Or.inl ho)]; exact hd

/-- **The entries collected by the owner match the row of the receiver**, entry by entry. -/
theorem row_match {p q i : ℕ} (hp : p < W.R) (hq : q < W.R) (hi : (W.part q).n_owned ≤ i)
    (hi' : i < (W.part q).nRelevant) (ho : (W.part p).Owned ((W.part q).localToGlobal i))
    (hqp : q ∈ W.neighbours p) :
    (rowEntries (minimalPattern dsp (W.part p))
        (ghostRange (W.part p).n_owned (W.ghostTargets p) ((W.neighbours p).idxOf q))
        (ghostRange (W.part p).n_owned (W.ghostTargets p) ((W.neighbours p).idxOf q + 1))
        ((W.part p).globalToLocal ((W.part q).localToGlobal i))).map (globalColumn dsp (W.part p))
      = ((minimalPattern dsp (W.part q)).cols i).map (W.part q).localToGlobal := by
  set gid := (W.part q).localToGlobal i with hgid
  set row := (W.part p).globalToLocal gid with hrow
  have hrlt : row < (W.part p).n_owned := g2l_lt_owned ho
  have hrrel : row < (W.part p).nRelevant := by unfold Partitioner.nRelevant; omega
  have hrg : (W.part p).localToGlobal row = gid := l2g_g2l (Or.inl ho)
  have ha := List.idxOf_lt_length_of_mem hqp
  have hcols : ∀ (part : Partitioner) r, (minimalPattern dsp part).cols r
      = r :: ((minimalPattern dsp part).cols r).tail := fun _ _ => rfl
  have hneq : p ≠ q := by
    rintro rfl
    have : gid ∈ (W.part p).ghosts := by
      rw [hgid, l2g_ghost hi hi']; exact List.getElem_mem _
    exact ghost_not_owned hW hp this ho
  unfold rowEntries
  rw [List.map_cons, List.map_map, hcols (W.part q) i, List.map_cons]
  congr 1
  have e : (List.map (globalColumn dsp (W.part p) ∘ fun c => (row, c))
      ((List.range' 1 ((minimalPattern dsp (W.part p)).rowLength row - 1)).filter fun c =>
        decide (ghostRange (W.part p).n_owned (W.ghostTargets p) ((W.neighbours p).idxOf q)
            ≤ ((minimalPattern dsp (W.part p)).cols row).getD c 0 ∧
          ((minimalPattern dsp (W.part p)).cols row).getD c 0 <
            ghostRange (W.part p).n_owned (W.ghostTargets p) ((W.neighbours p).idxOf q + 1))))
      = ((((minimalPattern dsp (W.part p)).cols row).tail.filter fun j =>
          decide (ghostRange (W.part p).n_owned (W.ghostTargets p) ((W.neighbours p).idxOf q) ≤ j ∧
            j < ghostRange (W.part p).n_owned (W.ghostTargets p) ((W.neighbours p).idxOf q + 1))).map
          (W.part p).localToGlobal) := by
    rw [← filter_positions, List.map_map]
    rfl
  rw [e]
  have hrange : ∀ {j}, j < (W.part p).nRelevant →
      ((ghostRange (W.part p).n_owned (W.ghostTargets p) ((W.neighbours p).idxOf q) ≤ j ∧
        j < ghostRange (W.part p).n_owned (W.ghostTargets p) ((W.neighbours p).idxOf q + 1)) ↔
        (W.part p).localToGlobal j ∈ W.shared p q) := by
    intro j hj
    rw [mem_ghostRange hW hp ha hj, List.getElem_idxOf ha]
  have hgr := ghost_row_columns hW hD hq hi hi'
  apply sorted_ext _ hgr.1
  · intro g'
    rw [hgr.2 g']
    simp only [List.mem_map, List.mem_filter, decide_eq_true_eq]
    constructor
    · rintro ⟨j, ⟨hj, hb⟩, rfl⟩
      obtain ⟨h1, -, h3⟩ := (mem_tail_cols hW hD hp hrrel).1 hj
      have hm := (hrange h1).1 hb
      refine ⟨(mem_shared.1 hm).2, ?_⟩
      rcases h3 with ⟨-, h⟩ | ⟨h, -, -⟩
      · rw [hrg] at h; exact hD.symm _ _ h
      · omega
    · rintro ⟨hoq, hd⟩
      have hd' := hD.symm _ _ hd
      have hnp : ¬ (W.part p).Owned g' := fun h => hneq (owner_unique hW h hoq)
      have hg : g' ∈ (W.part p).ghosts := (hD.relevant p hp gid ho g' hd').resolve_left hnp
      have hge := g2l_ge hnp
      have hlt := g2l_lt (part := W.part p) (Or.inr hg)
      have hl := l2g_g2l (part := W.part p) (Or.inr hg)
      refine ⟨(W.part p).globalToLocal g', ⟨(mem_tail_cols hW hD hp hrrel).2
        ⟨hlt, by omega, Or.inl ⟨hrlt, ?_⟩⟩, ?_⟩, hl⟩
      · rw [hl, hrg]; exact hd'
      · rw [hrange hlt, hl]; exact mem_shared.2 ⟨hg, hoq⟩
  · apply map_sorted _ ((tail_cols_sorted p row).filter _)
    intro a ha b hb hab
    simp only [List.mem_filter, decide_eq_true_eq] at ha hb
    have ha1 := ((mem_tail_cols hW hD hp hrrel).1 ha.1).1
    have hb1 := ((mem_tail_cols hW hD hp hrrel).1 hb.1).1
    have hgh : ∀ {j}, j < (W.part p).nRelevant → (W.part p).localToGlobal j ∈ W.shared p q →
        (W.part p).n_owned ≤ j := by
      intro j hj hm
      by_contra hlt
      refine ghost_not_owned hW hp (mem_shared.1 hm).1 ?_
      rw [l2g_owned (by omega)]; unfold Partitioner.Owned; omega
    exact l2g_ghost_mono (hW.sorted p hp) (hgh ha1 ((hrange ha1).1 ha.2)) hab hb1

/-- A ghost row with an off-diagonal entry comes from a rank that has ghosts of the receiver. -/
theorem off_diagonal_shared {p q i : ℕ} (hp : p < W.R) (hq : q < W.R) (hi : (W.part q).n_owned ≤ i)
    (hi' : i < (W.part q).nRelevant) (ho : (W.part p).Owned ((W.part q).localToGlobal i))
    (hne : 1 < (minimalPattern dsp (W.part q)).rowLength i) : q ∈ W.neighbours p := by
  have hgr := ghost_row_columns hW hD hq hi hi'
  have hlen : 0 < ((minimalPattern dsp (W.part q)).cols i).tail.length := by
    rw [List.length_tail]; unfold Pattern.rowLength at hne; omega
  have hm := (hgr.2 ((W.part q).localToGlobal (((minimalPattern dsp (W.part q)).cols i).tail[0]))).1
    (List.mem_map.2 ⟨_, List.getElem_mem hlen, rfl⟩)
  set g' := (W.part q).localToGlobal (((minimalPattern dsp (W.part q)).cols i).tail[0])
  have hneq : p ≠ q := by
    rintro rfl
    have : (W.part p).localToGlobal i ∈ (W.part p).ghosts := by
      rw [l2g_ghost hi hi']; exact List.getElem_mem _
    exact ghost_not_owned hW hp this ho
  have hg : g' ∈ (W.part p).ghosts :=
    (hD.relevant p hp _ ho g' (hD.symm _ _ hm.2)).resolve_left
      fun h => hneq (owner_unique hW h hm.1)
  exact mem_neighbours.2 ⟨hq, List.ne_nil_of_mem (mem_shared.2 ⟨hg, hm.1⟩)⟩

omit hD in
/-- The `k`-th ghost owned by the `a`-th neighbour. -/
theorem l2g_group {q a k : ℕ} (hq : q < W.R) (ha : a < (W.neighbours q).length)
    (hk : k < (W.shared q ((W.neighbours q)[a])).length) :
    ghostRange (W.part q).n_owned (W.ghostTargets q) a + k < (W.part q).nRelevant ∧
    (W.part q).n_owned ≤ ghostRange (W.part q).n_owned (W.ghostTargets q) a + k ∧
    (W.part q).localToGlobal (ghostRange (W.part q).n_owned (W.ghostTargets q) a + k)
      = (W.shared q ((W.neighbours q)[a]))[k] := by
  set segs := (W.neighbours q).map (W.shared q) with hsegs
  have hlen : segs.length = (W.neighbours q).length := by simp [hsegs]
  have hg := ghosts_groups hW hq
  rw [← hsegs] at hg
  have hseg : segs[a]'(by omega) = W.shared q ((W.neighbours q)[a]) := by simp [hsegs]
  rw [ghostRange_eq, ← hsegs]
  have hk' : k < (segs[a]'(by omega)).length := by rw [hseg]; exact hk
  have := flatten_get segs (by omega) hk'
  rw [← hg, List.getElem?_eq_getElem hk'] at this
  obtain ⟨hlt, hge⟩ := List.getElem?_eq_some_iff.1 this
  have h1 : (W.part q).n_owned + offset segs a + k < (W.part q).nRelevant := by
    unfold Partitioner.nRelevant; omega
  refine ⟨h1, by omega, ?_⟩
  rw [l2g_ghost (by omega) h1]
  have e : (W.part q).n_owned + offset segs a + k - (W.part q).n_owned = offset segs a + k := by omega
  simp only [e]
  rw [hge]
  simp only [hseg]

omit hD in
/-- Every ghost row is the `k`-th of some neighbour. -/
theorem exists_group {q i : ℕ} (hq : q < W.R) (hi : (W.part q).n_owned ≤ i)
    (hi' : i < (W.part q).nRelevant) :
    ∃ (a : ℕ) (ha : a < (W.neighbours q).length) (k : ℕ),
      k < (W.shared q ((W.neighbours q)[a])).length ∧
      i = ghostRange (W.part q).n_owned (W.ghostTargets q) a + k := by
  have hgh : (W.part q).localToGlobal i ∈ (W.part q).ghosts := by
    rw [l2g_ghost hi hi']; exact List.getElem_mem _
  obtain ⟨p, hp, -, ho⟩ := hW.ghost q hq _ hgh
  have hsh : (W.part q).localToGlobal i ∈ W.shared q p := mem_shared.2 ⟨hgh, ho⟩
  have hpn : p ∈ W.neighbours q := mem_neighbours.2 ⟨hp, List.ne_nil_of_mem hsh⟩
  have ha := List.idxOf_lt_length_of_mem hpn
  refine ⟨_, ha, ?_⟩
  have hr := (mem_ghostRange hW hq ha hi').2 (by rw [List.getElem_idxOf ha]; exact hsh)
  refine ⟨i - ghostRange (W.part q).n_owned (W.ghostTargets q) ((W.neighbours q).idxOf p), ?_,
    by omega⟩
  have hlen : (W.neighbours q).length = ((W.neighbours q).map (W.shared q)).length := by simp
  have := hr.2
  rw [ghostRange_eq, offset_succ _ (by rw [← hlen]; exact ha), List.getElem_map] at this
  rw [ghostRange_eq] at hr ⊢
  omega

/-- Offsets within a message agree with the row starts of the receiver. -/
theorem segment_offset {p q a : ℕ} (hp : p < W.R) (hq : q < W.R)
    (ha : a < (W.neighbours q).length) (hap : (W.neighbours q)[a] = p) (hqp : q ∈ W.neighbours p)
    (k : ℕ) (hk : k ≤ (W.shared q p).length) :
    (minimalPattern dsp (W.part q)).csrStart (ghostRange (W.part q).n_owned (W.ghostTargets q) a + k)
      = (minimalPattern dsp (W.part q)).csrStart (ghostRange (W.part q).n_owned (W.ghostTargets q) a)
        + offset ((W.shared q p).map fun gid => rowEntries (minimalPattern dsp (W.part p))
            (ghostRange (W.part p).n_owned (W.ghostTargets p) ((W.neighbours p).idxOf q))
            (ghostRange (W.part p).n_owned (W.ghostTargets p) ((W.neighbours p).idxOf q + 1))
            ((W.part p).globalToLocal gid)) k := by
  induction k with
  | zero => simp [offset]
  | succ k ih =>
    have ih := ih (by omega)
    have hk' : k < (W.shared q ((W.neighbours q)[a])).length := by rw [hap]; omega
    obtain ⟨h1, h2, h3⟩ := l2g_group hW hq ha hk'
    simp only [hap] at h3
    have ho := (mem_shared.1 (List.getElem_mem (l := W.shared q p) (n := k) (by omega))).2
    have hm := row_match hW hD hp hq h2 h1 (by rw [h3]; exact ho) hqp
    rw [offset_succ _ (by rw [List.length_map]; omega), List.getElem_map]
    rw [h3] at hm
    have hl := congrArg List.length hm
    rw [List.length_map, List.length_map] at hl
    rw [hl, ← Nat.add_assoc (Pattern.csrStart _ _), ← ih, ← Nat.add_assoc]
    simp [Pattern.csrStart, Pattern.rowLength]

/-- The `x`-th entry of a message belongs to the row and column of the receiver's ghost row. -/
theorem segment_get {p q a k pos : ℕ} (hp : p < W.R) (hq : q < W.R)
    (ha : a < (W.neighbours q).length) (hap : (W.neighbours q)[a] = p) (hqp : q ∈ W.neighbours p)
    (hk : k < (W.shared q p).length)
    (hpos : pos < (minimalPattern dsp (W.part q)).rowLength
      (ghostRange (W.part q).n_owned (W.ghostTargets q) a + k)) :
    ∃ e, (segment dsp W p q)[(minimalPattern dsp (W.part q)).csrStart
          (ghostRange (W.part q).n_owned (W.ghostTargets q) a + k)
        - (minimalPattern dsp (W.part q)).csrStart
          (ghostRange (W.part q).n_owned (W.ghostTargets q) a) + pos]? = some e ∧
      e.1 < (W.part p).n_owned ∧ IsEntry (minimalPattern dsp (W.part p)) e.1 e.2 ∧
      (W.part p).localToGlobal e.1 = (W.part q).localToGlobal
        (ghostRange (W.part q).n_owned (W.ghostTargets q) a + k) ∧
      globalColumn dsp (W.part p) e = globalColumn dsp (W.part q)
        (ghostRange (W.part q).n_owned (W.ghostTargets q) a + k, pos) := by
  have hk' : k < (W.shared q ((W.neighbours q)[a])).length := by rw [hap]; omega
  obtain ⟨h1, h2, h3⟩ := l2g_group hW hq ha hk'
  simp only [hap] at h3
  have ho := (mem_shared.1 (List.getElem_mem (l := W.shared q p) (n := k) hk)).2
  have hm := row_match hW hD hp hq h2 h1 (by rw [h3]; exact ho) hqp
  have hoff := segment_offset hW hD hp hq ha hap hqp k hk.le
  set i := ghostRange (W.part q).n_owned (W.ghostTargets q) a + k with hidef
  set lo := ghostRange (W.part p).n_owned (W.ghostTargets p) ((W.neighbours p).idxOf q) with hlo
  set hi := ghostRange (W.part p).n_owned (W.ghostTargets p) ((W.neighbours p).idxOf q + 1) with hhi
  set segs := (W.shared q p).map fun gid => rowEntries (minimalPattern dsp (W.part p)) lo hi
    ((W.part p).globalToLocal gid) with hsegs
  have hks : k < segs.length := by simpa [hsegs] using hk
  have hsk : segs[k] = rowEntries (minimalPattern dsp (W.part p)) lo hi
      ((W.part p).globalToLocal ((W.part q).localToGlobal i)) := by
    simp only [hsegs, List.getElem_map, h3]
  have hseg : segment dsp W p q = segs.flatten := by
    unfold segment
    rw [if_pos hqp, List.flatMap_def, List.map_map]
    rfl
  have hl := congrArg List.length hm
  rw [List.length_map, List.length_map, ← hsk] at hl
  have hps : pos < segs[k].length := by rw [hl]; exact hpos
  refine ⟨segs[k][pos], ?_, ?_⟩
  · rw [hseg, hoff, Nat.add_sub_cancel_left, flatten_get segs hks hps, List.getElem?_eq_getElem hps]
  · have hmem : segs[k][pos] ∈ rowEntries (minimalPattern dsp (W.part p)) lo hi
        ((W.part p).globalToLocal ((W.part q).localToGlobal i)) := by
      rw [← hsk]; exact List.getElem_mem _
    have hcol : globalColumn dsp (W.part p) segs[k][pos] = globalColumn dsp (W.part q) (i, pos) := by
      have hm' := hm
      rw [← hsk] at hm'
      have := congrArg (fun l => l[pos]?) hm'
      simp only [List.getElem?_map, List.getElem?_eq_getElem hps, Option.map_some] at this
      have hpc : pos < ((minimalPattern dsp (W.part q)).cols i).length := hpos
      rw [List.getElem?_eq_getElem hpc, Option.map_some, Option.some.injEq] at this
      rw [this]
      simp only [globalColumn]
      rw [List.getD_eq_getElem?_getD, List.getElem?_eq_getElem hpc]
      rfl
    have hrow : segs[k][pos].1 = (W.part p).globalToLocal ((W.part q).localToGlobal i) ∧
        segs[k][pos].2 < (minimalPattern dsp (W.part p)).rowLength
          ((W.part p).globalToLocal ((W.part q).localToGlobal i)) := by
      unfold rowEntries at hmem
      rcases List.mem_cons.1 hmem with h | h
      · rw [h]
        exact ⟨rfl, by simp [Pattern.rowLength, minimalPattern]⟩
      · obtain ⟨c, hc, h⟩ := List.mem_map.1 h
        rw [← h]
        refine ⟨rfl, ?_⟩
        have := (List.mem_filter.1 hc).1
        rw [List.mem_range'_1] at this
        simp only
        omega
    have hog : (W.part p).Owned ((W.part q).localToGlobal i) := by rw [h3]; exact ho
    have hlt := g2l_lt_owned hog
    refine ⟨by rw [hrow.1]; exact hlt, ⟨?_, ?_⟩, ?_, hcol⟩
    · rw [hrow.1]; simp only [minimalPattern, Partitioner.nRelevant]; omega
    · rw [hrow.1]; exact hrow.2
    · rw [hrow.1]; exact l2g_g2l (Or.inl hog)

/-- A message has exactly the posted length if the sender has ghosts of the receiver. -/
theorem segment_length {p q a : ℕ} (hp : p < W.R) (hq : q < W.R)
    (ha : a < (W.neighbours q).length) (hap : (W.neighbours q)[a] = p) (hqp : q ∈ W.neighbours p) :
    (segment dsp W p q).length
      = (minimalPattern dsp (W.part q)).csrStart
          (ghostRange (W.part q).n_owned (W.ghostTargets q) (a + 1))
        - (minimalPattern dsp (W.part q)).csrStart
          (ghostRange (W.part q).n_owned (W.ghostTargets q) a) := by
  have hoff := segment_offset hW hD hp hq ha hap hqp _ le_rfl
  have hr : ghostRange (W.part q).n_owned (W.ghostTargets q) (a + 1)
      = ghostRange (W.part q).n_owned (W.ghostTargets q) a + (W.shared q p).length := by
    rw [ghostRange_eq, ghostRange_eq, offset_succ _ (by simpa using ha), List.getElem_map, hap]
    omega
  rw [hr, hoff, Nat.add_sub_cancel_left]
  unfold segment
  rw [if_pos hqp, List.flatMap_def, List.map_map, ← offset_length, List.length_map]
  congr 1

omit hD in
/-- Begin of the range posted for the `a`-th neighbour. -/
theorem start_receive {q : ℕ} (hq : q < W.R) (hg : (W.part q).ghosts ≠ []) {a : ℕ}
    (ha : a < (W.neighbours q).length) :
    Exchange.start (exchangePattern dsp W q).receive a
      = (minimalPattern dsp (W.part q)).csrStart
          (ghostRange (W.part q).n_owned (W.ghostTargets q) a)
        - (minimalPattern dsp (W.part q)).csrStart (W.part q).n_owned := by
  unfold Exchange.start
  rw [(exchange_eq hW hq hg).2.2]
  split_ifs with h0
  · subst h0; simp [ghostRange]
  · have hb' : a - 1 < (W.neighbours q).length := by omega
    have e : a - 1 + 1 = a := by omega
    simp [List.getD_eq_getElem?_getD, hb', e]

end Rows

end Sparse
end Ryujin
