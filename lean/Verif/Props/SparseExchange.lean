import Verif.Proofs.SparseExchange
import Mathlib.Tactic.IntervalCases

/-!
# C30 – the exchange of ghost rows

`W` is the set of ranks with their partitioners, `dsp` the global sparsity pattern, and
`exchangePattern dsp W p` what `reinit` sets up on rank `p`.  `data p` is the storage of the matrix on rank
`p` and `after` the storage of rank `q` once `update_ghost_rows()` has returned.
-/

namespace Ryujin
namespace Sparse

variable {W : World} {dsp : ℕ → List ℕ} {α : Type}

/-- The stores performed by the messages rank `q` receives. -/
def receivedWrites (nc base : ℕ) (E : ℕ → Exchange) (value : ℕ → ℕ → ℕ → ℕ → α) (q : ℕ) :
    List (ℕ × α) :=
  (List.range (E q).receive.length).flatMap fun a =>
    match (E ((E q).receive.getD a (0, 0)).1).message q with
    | none => []
    | some m => (List.range m.length).flatMap fun x => (List.range nc).map fun d =>
        (nc * (base + Exchange.start (E q).receive a + x) + d,
          value ((E q).receive.getD a (0, 0)).1 (m.getD x (0, 0)).1 (m.getD x (0, 0)).2 d)

theorem received_eq (nc base : ℕ) (E : ℕ → Exchange) (value : ℕ → ℕ → ℕ → ℕ → α) (q : ℕ)
    (data : ℕ → α) :
    received nc base E value q data = applyWrites (receivedWrites nc base E value q) data := by
  unfold received receivedWrites
  rw [← applyWrites_flatMap]
  congr 1
  funext data a
  dsimp only
  cases (E ((E q).receive.getD a (0, 0)).1).message q with
  | none => rfl
  | some m =>
    simp only [applyWrites_map]
    exact applyWrites_flatMap _ _ _

theorem no_exchange {p : ℕ} (hg : (W.part p).ghosts = []) :
    exchangePattern dsp W p = ⟨[], [], []⟩ := by
  unfold exchangePattern
  simp [minimalPattern, Partitioner.nRelevant, hg]

theorem receive_get (hW : W.Consistent) {q : ℕ} (hq : q < W.R) (hg : (W.part q).ghosts ≠ []) {a : ℕ}
    (ha : a < (W.neighbours q).length) :
    ((exchangePattern dsp W q).receive.getD a (0, 0)).1 = (W.neighbours q)[a] := by
  rw [(exchange_eq hW hq hg).2.2]
  simp [List.getD_eq_getElem?_getD, ha]

theorem receive_length (hW : W.Consistent) {q : ℕ} (hq : q < W.R) (hg : (W.part q).ghosts ≠ []) :
    (exchangePattern dsp W q).receive.length = (W.neighbours q).length := by
  rw [(exchange_eq hW hq hg).2.2]; simp

/-- Number of entries rank `q` expects in its `a`-th receive. -/
def posted (E : Exchange) (a : ℕ) : ℕ := (E.receive.getD a (0, 0)).2 - Exchange.start E.receive a

theorem posted_eq (hW : W.Consistent) {q : ℕ} (hq : q < W.R) (hg : (W.part q).ghosts ≠ []) {a : ℕ}
    (ha : a < (W.neighbours q).length) :
    posted (exchangePattern dsp W q) a
      = (minimalPattern dsp (W.part q)).csrStart
          (ghostRange (W.part q).n_owned (W.ghostTargets q) (a + 1))
        - (minimalPattern dsp (W.part q)).csrStart
          (ghostRange (W.part q).n_owned (W.ghostTargets q) a) := by
  unfold posted
  rw [start_receive hW hq hg ha, (exchange_eq hW hq hg).2.2]
  have m1 := csrStart_mono (P := minimalPattern dsp (W.part q))
    (a := (W.part q).n_owned) (b := ghostRange (W.part q).n_owned (W.ghostTargets q) a)
    (by unfold ghostRange; omega)
  simp only [List.getD_eq_getElem?_getD, List.getElem?_map, List.getElem?_range ha, Option.map_some,
    Option.getD_some]
  omega

/-- The message for the `a`-th receive of rank `q`, if it is posted at all. -/
theorem message_cases (hW : W.Consistent) {q : ℕ} (hq : q < W.R) {a : ℕ}
    (ha : a < (W.neighbours q).length) :
    (exchangePattern dsp W ((W.neighbours q)[a])).message q
      = if (W.part ((W.neighbours q)[a])).ghosts = [] then none
        else some (segment dsp W ((W.neighbours q)[a]) q) := by
  obtain ⟨hp, hs⟩ := mem_neighbours.1 (List.getElem_mem ha)
  split_ifs with hg
  · rw [no_exchange hg]; rfl
  · exact message_eq hW hp hg (mem_requesters.2 ⟨hq, hs⟩)

theorem segment_le (hW : W.Consistent) (hD : W.Compatible dsp) {q : ℕ} (hq : q < W.R) {a : ℕ}
    (ha : a < (W.neighbours q).length) :
    Exchange.start (exchangePattern dsp W q).receive a + (segment dsp W ((W.neighbours q)[a]) q).length
      ≤ (minimalPattern dsp (W.part q)).csrStart
          (ghostRange (W.part q).n_owned (W.ghostTargets q) (a + 1))
        - (minimalPattern dsp (W.part q)).csrStart (W.part q).n_owned := by
  obtain ⟨hp, hs⟩ := mem_neighbours.1 (List.getElem_mem ha)
  have hg : (W.part q).ghosts ≠ [] := by
    intro h; apply hs; unfold World.shared; rw [h]; rfl
  rw [start_receive hW hq hg ha]
  have m1 := csrStart_mono (P := minimalPattern dsp (W.part q))
    (a := (W.part q).n_owned) (b := ghostRange (W.part q).n_owned (W.ghostTargets q) a)
    (by unfold ghostRange; omega)
  have m2 := csrStart_mono (P := minimalPattern dsp (W.part q))
    (a := ghostRange (W.part q).n_owned (W.ghostTargets q) a)
    (b := ghostRange (W.part q).n_owned (W.ghostTargets q) (a + 1))
    (by rw [ghostRange_eq, ghostRange_eq]; have := offset_mono ((W.neighbours q).map (W.shared q))
          (Nat.le_succ a); simp only [Nat.succ_eq_add_one] at this; omega)
  by_cases hqp : q ∈ W.neighbours ((W.neighbours q)[a])
  · rw [segment_length hW hD hp hq ha rfl hqp]; omega
  · unfold segment; rw [if_neg hqp, List.length_nil]; omega

theorem receivedWrites_unique (hW : W.Consistent) {q : ℕ} (hq : q < W.R)
    (hg : (W.part q).ghosts ≠ []) {nc base : ℕ} {value : ℕ → ℕ → ℕ → ℕ → α} {w : ℕ × α}
    (hw : w ∈ receivedWrites nc base (exchangePattern dsp W) value q) :
    ∃ (a : ℕ) (ha : a < (W.neighbours q).length) (x d : ℕ),
      (W.part ((W.neighbours q)[a])).ghosts ≠ [] ∧
      x < (segment dsp W ((W.neighbours q)[a]) q).length ∧ d < nc ∧
      w = (nc * (base + Exchange.start (exchangePattern dsp W q).receive a + x) + d,
        value ((W.neighbours q)[a]) ((segment dsp W ((W.neighbours q)[a]) q).getD x (0, 0)).1
          ((segment dsp W ((W.neighbours q)[a]) q).getD x (0, 0)).2 d) := by
  unfold receivedWrites at hw
  obtain ⟨a, ha, hw⟩ := List.mem_flatMap.1 hw
  rw [List.mem_range, receive_length hW hq hg] at ha
  rw [receive_get hW hq hg ha, message_cases hW hq ha] at hw
  by_cases hgp : (W.part ((W.neighbours q)[a])).ghosts = []
  · rw [if_pos hgp] at hw; simp at hw
  · rw [if_neg hgp] at hw
    obtain ⟨x, hx, hw⟩ := List.mem_flatMap.1 hw
    obtain ⟨d, hd, hw⟩ := List.mem_map.1 hw
    exact ⟨a, ha, x, d, hgp, List.mem_range.1 hx, List.mem_range.1 hd, hw.symm⟩

section

variable {s : ℕ} {nI n_owned : ℕ → ℕ} {garbage : ℕ → ℕ → ℕ} {S : ℕ → Simd}

/-- **C30 (ghost rows).** After `update_ghost_rows()` every entry of every ghost row has the value that the
owner of the row stores for the same global row and column, on every number of ranks, for every SIMD length
and size of the vectorised range.  The only exception is the diagonal of a ghost row whose owner has no
ghosts of the receiving rank: see `C30_stale_diagonal_violation`. -/
theorem C30_ghost_rows_partial (hW : W.Consistent) (hD : W.Compatible dsp)
    (hwf : ∀ r < W.R, (minimalPattern dsp (W.part r)).WF s (nI r))
    (hnI : ∀ r < W.R, nI r ≤ (W.part r).n_owned)
    (hS : ∀ r < W.R, reinit (minimalPattern dsp (W.part r)) s (nI r) (W.part r).n_owned (garbage r)
      = some (S r))
    (nc : ℕ) (data : ℕ → ℕ → α) {p q i pos d : ℕ} (hp : p < W.R) (hq : q < W.R)
    (hi : (W.part q).n_owned ≤ i) (he : IsEntry (minimalPattern dsp (W.part q)) i pos)
    (howner : (W.part p).Owned ((W.part q).localToGlobal i)) (hd : d < nc)
    (hdiag : pos ≠ 0 ∨ W.shared p q ≠ []) :
    let after := received nc ((S q).row_starts (W.part q).n_owned) (exchangePattern dsp W)
      (fun r row pos d => (S r).get s nc (data r) row pos d) q (data q)
    ∃ row' pos', row' < (W.part p).n_owned ∧ IsEntry (minimalPattern dsp (W.part p)) row' pos' ∧
      (W.part p).localToGlobal row' = (W.part q).localToGlobal i ∧
      (W.part p).localToGlobal ((S p).column s row' pos')
        = (W.part q).localToGlobal ((S q).column s i pos) ∧
      (S q).get s nc after i pos d = (S p).get s nc (data p) row' pos' d := by
  intro after
  have hi' : i < (W.part q).nRelevant := he.1
  have hqp : q ∈ W.neighbours p := by
    rcases hdiag with h | h
    · exact off_diagonal_shared hW hD hp hq hi hi' howner (by have := he.2; omega)
    · exact mem_neighbours.2 ⟨hq, h⟩
  have hgh : (W.part q).localToGlobal i ∈ (W.part q).ghosts := by
    rw [l2g_ghost hi hi']; exact List.getElem_mem _
  have hg : (W.part q).ghosts ≠ [] := List.ne_nil_of_mem hgh
  have hgp : (W.part p).ghosts ≠ [] := by
    intro h; apply (mem_neighbours.1 hqp).2; unfold World.shared; rw [h]; rfl
  obtain ⟨a, ha, k, hk, hik⟩ := exists_group hW hq hi hi'
  obtain ⟨-, -, h3⟩ := l2g_group hW hq ha hk
  have hap : (W.neighbours q)[a] = p := by
    have := (mem_shared.1 (List.getElem_mem hk)).2
    rw [← h3, ← hik] at this
    exact owner_unique hW this howner
  have hk' : k < (W.shared q p).length := by rw [← hap]; exact hk
  obtain ⟨e, hget, he1, he2, he3, he4⟩ := segment_get hW hD hp hq ha hap hqp hk'
    (pos := pos) (by rw [← hik]; exact he.2)
  rw [← hik] at hget he3 he4
  have hgetD : ∀ {r row pos' : ℕ}, r < W.R → IsEntry (minimalPattern dsp (W.part r)) row pos' →
      (S r).column s row pos' = ((minimalPattern dsp (W.part r)).cols row).getD pos' 0 := by
    intro r row pos' hr hen
    rw [C28_columns (hwf r hr) (hS r hr) hen, List.getD_eq_getElem?_getD,
      List.getElem?_eq_getElem hen.2]
    rfl
  refine ⟨e.1, e.2, he1, he2, he3, ?_, ?_⟩
  · rw [hgetD hp he2, hgetD hq he]; exact he4
  · obtain ⟨hnI', -, hL⟩ := reinit_layout (hwf q hq) (hS q hq)
    have hrows : (minimalPattern dsp (W.part q)).n_rows = (W.part q).nRelevant := rfl
    have hbase : (S q).row_starts (W.part q).n_owned
        = (minimalPattern dsp (W.part q)).csrStart (W.part q).n_owned := by
      apply hL.starts_csr
      · rw [hnI']; exact hnI q hq
      · rw [hrows]; unfold Partitioner.nRelevant; omega
    have hmono : ∀ {b c : ℕ}, b ≤ c → (minimalPattern dsp (W.part q)).csrStart b
        ≤ (minimalPattern dsp (W.part q)).csrStart c := fun h => csrStart_mono h
    have m1 := hmono (b := (W.part q).n_owned)
      (c := ghostRange (W.part q).n_owned (W.ghostTargets q) a) (by unfold ghostRange; omega)
    have m2 := hmono (b := ghostRange (W.part q).n_owned (W.ghostTargets q) a) (c := i) (by omega)
    have haddr : (S q).address s nc i pos d
        = nc * ((minimalPattern dsp (W.part q)).csrStart (W.part q).n_owned
          + Exchange.start (exchangePattern dsp W q).receive a
          + ((minimalPattern dsp (W.part q)).csrStart i - (minimalPattern dsp (W.part q)).csrStart
            (ghostRange (W.part q).n_owned (W.ghostTargets q) a) + pos)) + d := by
      unfold Simd.address
      rw [if_neg (by rw [hnI']; have := hnI q hq; omega), hL.starts_csr _ (by rw [hnI']; have := hnI q hq; omega)
        (by rw [hrows]; omega), start_receive hW hq hg ha, Nat.mul_comm]
      congr 2
      omega
    unfold Simd.get
    simp only [after, received_eq]
    rw [haddr, hbase]
    set x := (minimalPattern dsp (W.part q)).csrStart i - (minimalPattern dsp (W.part q)).csrStart
            (ghostRange (W.part q).n_owned (W.ghostTargets q) a) + pos with hx
    have hxlt : x < (segment dsp W p q).length := (List.getElem?_eq_some_iff.1 hget).1
    have hxe : (segment dsp W p q).getD x (0, 0) = e := by
      rw [List.getD_eq_getElem?_getD, hget]; rfl
    apply applyWrites_mem
    · unfold receivedWrites
      refine List.mem_flatMap.2 ⟨a, List.mem_range.2 (by rw [receive_length hW hq hg]; exact ha), ?_⟩
      rw [receive_get hW hq hg ha, message_cases hW hq ha, hap, if_neg hgp]
      refine List.mem_flatMap.2 ⟨x, List.mem_range.2 hxlt, List.mem_map.2 ⟨d, List.mem_range.2 hd, ?_⟩⟩
      rw [hxe]
      rfl
    · intro w hw hwx
      obtain ⟨a', ha', x', d', hgp', hx', hd', rfl⟩ := receivedWrites_unique hW hq hg hw
      simp only at hwx ⊢
      rw [Nat.mul_comm nc, Nat.mul_comm nc] at hwx
      obtain ⟨hr1, hr2⟩ := radix_unique hd' hd hwx
      have hsl := segment_le hW hD hq ha
      have hsl' := segment_le hW hD hq ha'
      rw [hap] at hsl
      have hord : ∀ {b c : ℕ} (_ : b < (W.neighbours q).length) (hc : c < (W.neighbours q).length),
          b < c → (minimalPattern dsp (W.part q)).csrStart
            (ghostRange (W.part q).n_owned (W.ghostTargets q) (b + 1))
            - (minimalPattern dsp (W.part q)).csrStart (W.part q).n_owned
            ≤ Exchange.start (exchangePattern dsp W q).receive c := by
        intro b c _ hc hbc
        rw [start_receive hW hq hg hc]
        have := hmono (b := ghostRange (W.part q).n_owned (W.ghostTargets q) (b + 1))
          (c := ghostRange (W.part q).n_owned (W.ghostTargets q) c)
          (by rw [ghostRange_eq, ghostRange_eq]
              have := offset_mono ((W.neighbours q).map (W.shared q)) (show b + 1 ≤ c by omega)
              omega)
        omega
      have haa : a' = a := by
        rcases lt_trichotomy a' a with h | h | h
        · have := hord ha' ha h; omega
        · exact h
        · have := hord ha ha' h; omega
      subst haa
      have : x' = x := by omega
      subst this
      simp only [hap, hxe, hr2]
      rfl

/-- **C30 (owned rows).** The exchange does not touch any owned row. -/
theorem C30_owned_rows (hW : W.Consistent)
    (hwf : ∀ r < W.R, (minimalPattern dsp (W.part r)).WF s (nI r))
    (hnI : ∀ r < W.R, nI r ≤ (W.part r).n_owned)
    (hS : ∀ r < W.R, reinit (minimalPattern dsp (W.part r)) s (nI r) (W.part r).n_owned (garbage r)
      = some (S r))
    (nc : ℕ) (data : ℕ → ℕ → α) {q i pos d : ℕ} (hq : q < W.R)
    (hi : i < (W.part q).n_owned) (he : IsEntry (minimalPattern dsp (W.part q)) i pos) (hd : d < nc) :
    (S q).get s nc (received nc ((S q).row_starts (W.part q).n_owned) (exchangePattern dsp W)
      (fun r row pos d => (S r).get s nc (data r) row pos d) q (data q)) i pos d
      = (S q).get s nc (data q) i pos d := by
  unfold Simd.get
  rw [received_eq]
  apply applyWrites_frame
  intro w hw
  by_cases hg : (W.part q).ghosts = []
  · unfold receivedWrites at hw
    rw [no_exchange hg] at hw
    simp at hw
  obtain ⟨a', ha', x', d', hgp', hx', hd', rfl⟩ := receivedWrites_unique hW hq hg hw
  obtain ⟨hnI', -, hL⟩ := reinit_layout (hwf q hq) (hS q hq)
  have hrows : (minimalPattern dsp (W.part q)).n_rows = (W.part q).nRelevant := rfl
  have hbase : (S q).row_starts (W.part q).n_owned
      = (minimalPattern dsp (W.part q)).csrStart (W.part q).n_owned := by
    apply hL.starts_csr
    · rw [hnI']; exact hnI q hq
    · rw [hrows]; unfold Partitioner.nRelevant; omega
  have hlt := (address_range (hnI'.symm ▸ hwf q hq) hL he hd).2
  have hhi : blockHi (minimalPattern dsp (W.part q)) s (S q).n_internal i
      ≤ (minimalPattern dsp (W.part q)).csrStart (W.part q).n_owned := by
    unfold blockHi
    have hle := hnI q hq
    split_ifs with h
    · have := base_le (S := S q) (hnI'.symm ▸ hwf q hq) h
      exact csrStart_mono (by omega)
    · exact csrStart_mono (by omega)
  have h1 := Nat.mul_le_mul_right nc hhi
  rw [hbase]
  have h2 : nc * ((minimalPattern dsp (W.part q)).csrStart (W.part q).n_owned
      + Exchange.start (exchangePattern dsp W q).receive a' + x')
      = (minimalPattern dsp (W.part q)).csrStart (W.part q).n_owned * nc
        + (Exchange.start (exchangePattern dsp W q).receive a' + x') * nc := by ring
  simp only
  omega

end

/-- **C30 (matching messages).** If every rank from which somebody needs ghost rows has ghosts itself, then
every receive posted by `q` is matched by a send of its owner, no message is longer than the receive buffer,
and every message posted by `p` is expected by its addressee.  The side condition is necessary:
`C30_unmatched_receive_violation`. -/
theorem C30_messages_match_partial (hW : W.Consistent) (hD : W.Compatible dsp)
    (hall : ∀ p < W.R, ∀ q < W.R, W.shared q p ≠ [] → (W.part p).ghosts ≠ []) {q : ℕ} (hq : q < W.R) :
    (∀ a < (exchangePattern dsp W q).receive.length, ∃ m,
      (exchangePattern dsp W ((exchangePattern dsp W q).receive.getD a (0, 0)).1).message q = some m ∧
      m.length ≤ posted (exchangePattern dsp W q) a ∧
      (W.shared ((exchangePattern dsp W q).receive.getD a (0, 0)).1 q ≠ [] →
        m.length = posted (exchangePattern dsp W q) a)) ∧
    (∀ p < W.R, ∀ m, (exchangePattern dsp W p).message q = some m →
      ∃ a < (exchangePattern dsp W q).receive.length,
        ((exchangePattern dsp W q).receive.getD a (0, 0)).1 = p) := by
  constructor
  · intro a ha
    have hg : (W.part q).ghosts ≠ [] := by
      intro h; rw [no_exchange h] at ha; simp at ha
    rw [receive_length hW hq hg] at ha
    obtain ⟨hp, hs⟩ := mem_neighbours.1 (List.getElem_mem ha)
    rw [receive_get hW hq hg ha, message_cases hW hq ha, if_neg (hall _ hp q hq hs)]
    refine ⟨_, rfl, ?_, ?_⟩
    · have h1 := segment_le hW hD hq ha
      rw [start_receive hW hq hg ha] at h1
      rw [posted_eq hW hq hg ha]
      have m1 := csrStart_mono (P := minimalPattern dsp (W.part q))
        (a := (W.part q).n_owned) (b := ghostRange (W.part q).n_owned (W.ghostTargets q) a)
        (by unfold ghostRange; omega)
      omega
    · intro hne
      rw [posted_eq hW hq hg ha]
      exact segment_length hW hD hp hq ha rfl (mem_neighbours.2 ⟨hq, hne⟩)
  · intro p hp m hm
    have hgp : (W.part p).ghosts ≠ [] := by
      intro h; rw [no_exchange h] at hm; simp [Exchange.message] at hm
    have hfst : (exchangePattern dsp W p).send.map Prod.fst = W.requesters p := by
      rw [(exchange_eq hW hp hgp).2.1, List.map_map]
      apply List.ext_getElem
      · simp
      · intro n h1 h2
        simp [List.getD_eq_getElem?_getD, List.getElem?_eq_getElem h2]
    unfold Exchange.message at hm
    dsimp only at hm
    split_ifs at hm with hlt
    have hmem : q ∈ W.requesters p := by
      rw [← hfst, ← List.idxOf_lt_length_iff, List.length_map]; exact hlt
    have hs := (mem_requesters.1 hmem).2
    have hpn : p ∈ W.neighbours q := mem_neighbours.2 ⟨hp, hs⟩
    have hg : (W.part q).ghosts ≠ [] := by
      intro h; apply hs; unfold World.shared; rw [h]; rfl
    have ha := List.idxOf_lt_length_of_mem hpn
    refine ⟨(W.neighbours q).idxOf p, by rw [receive_length hW hq hg]; exact ha, ?_⟩
    rw [receive_get hW hq hg ha, List.getElem_idxOf ha]

/-! ### Violations -/

/-- Two ranks: rank 0 owns both degrees of freedom, rank 1 owns none but needs both. -/
def emptyRankWorld : World where
  R := 2
  part p := if p = 0 then ⟨0, 2, []⟩ else if p = 1 then ⟨2, 0, [0, 1]⟩ else ⟨2, 0, []⟩

/-- The full pattern on `n` degrees of freedom. -/
def fullPattern (n g : ℕ) : List ℕ := if g < n then List.range n else []

theorem emptyRankWorld_consistent : emptyRankWorld.Consistent where
  zero := rfl
  next := by
    intro p
    rcases p with _ | _ | p <;> simp [emptyRankWorld]
  sorted := by
    intro p hp
    have : p < 2 := hp
    interval_cases p <;> simp [emptyRankWorld]
  ghost := by
    intro q hq g hg
    have : q < 2 := hq
    interval_cases q
    · simp [emptyRankWorld] at hg
    · refine ⟨0, by simp [emptyRankWorld], by simp, ?_⟩
      simp only [emptyRankWorld, Partitioner.Owned] at hg ⊢
      simp at hg ⊢
      omega

theorem emptyRankWorld_compatible : emptyRankWorld.Compatible (fullPattern 2) where
  symm := by
    intro g g' h
    unfold fullPattern at h ⊢
    split_ifs at h with hg
    · rw [if_pos (List.mem_range.1 h)]; exact List.mem_range.2 hg
    · simp at h
  relevant := by
    intro p hp g hg g' hg'
    have : p < 2 := hp
    unfold fullPattern at hg'
    split_ifs at hg' with hlt
    · have hg' := List.mem_range.1 hg'
      interval_cases p <;> simp [emptyRankWorld, Partitioner.Owned] <;> omega
    · simp at hg'

/-- **C30 fails on a rank without owned degrees of freedom.** Rank 1 posts a receive for two matrix entries
from rank 0, but rank 0 has no ghosts and sets up no message at all, so that waiting for all requests never
ends on rank 1. -/
theorem C30_unmatched_receive_violation :
    ∃ (W : World) (dsp : ℕ → List ℕ), W.Consistent ∧ W.Compatible dsp ∧
      (exchangePattern dsp W 1).receive = [(0, 2)] ∧ (exchangePattern dsp W 0).message 1 = none :=
  ⟨emptyRankWorld, fullPattern 2, emptyRankWorld_consistent, emptyRankWorld_compatible,
    by decide, by decide⟩

/-- Three ranks; rank 2 owns nothing and needs the degree of freedom of rank 0. -/
def staleWorld : World where
  R := 3
  part p := if p = 0 then ⟨0, 1, [1]⟩ else if p = 1 then ⟨1, 1, [0]⟩
    else if p = 2 then ⟨2, 0, [0]⟩ else ⟨2, 0, []⟩

theorem staleWorld_consistent : staleWorld.Consistent where
  zero := rfl
  next := by
    intro p
    rcases p with _ | _ | _ | p <;> simp [staleWorld]
  sorted := by
    intro p hp
    have : p < 3 := hp
    interval_cases p <;> simp [staleWorld]
  ghost := by
    intro q hq g hg
    have : q < 3 := hq
    interval_cases q
    · refine ⟨1, by simp [staleWorld], by simp, ?_⟩
      simp only [staleWorld, Partitioner.Owned] at hg ⊢
      simp at hg ⊢
      omega
    · exact ⟨0, by simp [staleWorld], by simp, by simpa [staleWorld, Partitioner.Owned] using hg⟩
    · exact ⟨0, by simp [staleWorld], by simp, by simpa [staleWorld, Partitioner.Owned] using hg⟩

theorem staleWorld_compatible : staleWorld.Compatible (fullPattern 2) where
  symm := emptyRankWorld_compatible.symm
  relevant := by
    intro p hp g hg g' hg'
    have : p < 3 := hp
    unfold fullPattern at hg'
    split_ifs at hg' with hlt
    · have hg' := List.mem_range.1 hg'
      interval_cases p <;> simp [staleWorld, Partitioner.Owned] at hg ⊢ <;> omega
    · simp at hg'

/-- **C30 fails for the diagonal of some ghost rows.** Rank 2 has the ghost row 0 and expects its diagonal
entry from rank 0, but rank 0 sends an empty message: the entry on rank 2 keeps its old value. -/
theorem C30_stale_diagonal_violation :
    ∃ (W : World) (dsp : ℕ → List ℕ), W.Consistent ∧ W.Compatible dsp ∧
      (exchangePattern dsp W 2).receive = [(0, 1)] ∧ (exchangePattern dsp W 0).message 2 = some [] ∧
      ∀ (value : ℕ → ℕ → ℕ → ℕ → ℤ) (data : ℕ → ℤ),
        received 1 0 (exchangePattern dsp W) value 2 data = data := by
  have h1 : (exchangePattern (fullPattern 2) staleWorld 2).receive = [(0, 1)] := by decide
  have h2 : (exchangePattern (fullPattern 2) staleWorld 0).message 2 = some [] := by decide
  refine ⟨staleWorld, fullPattern 2, staleWorld_consistent, staleWorld_compatible, h1, h2, ?_⟩
  intro value data
  unfold received
  simp [h1, h2]

/-! ### A case meeting all hypotheses -/

/-- Four degrees of freedom in a ring on two ranks. -/
def ringWorld : World where
  R := 2
  part p := if p = 0 then ⟨0, 2, [2, 3]⟩ else if p = 1 then ⟨2, 2, [0, 1]⟩ else ⟨4, 0, []⟩

/-- The ring: everything couples with its two neighbours. -/
def ringDsp (g : ℕ) : List ℕ := if g < 4 then [g, (g + 1) % 4, (g + 3) % 4] else []

theorem ringWorld_consistent : ringWorld.Consistent where
  zero := rfl
  next := by
    intro p
    rcases p with _ | _ | p <;> simp [ringWorld]
  sorted := by
    intro p hp
    have : p < 2 := hp
    interval_cases p <;> simp [ringWorld]
  ghost := by
    intro q hq g hg
    have : q < 2 := hq
    interval_cases q
    · refine ⟨1, by simp [ringWorld], by simp, ?_⟩
      simp only [ringWorld, Partitioner.Owned] at hg ⊢
      simp at hg ⊢
      omega
    · refine ⟨0, by simp [ringWorld], by simp, ?_⟩
      simp only [ringWorld, Partitioner.Owned] at hg ⊢
      simp at hg ⊢
      omega

theorem ringWorld_compatible : ringWorld.Compatible ringDsp where
  symm := by
    intro g g' h
    unfold ringDsp at h ⊢
    split_ifs at h with hg
    · simp only [List.mem_cons, List.not_mem_nil, or_false] at h
      rw [if_pos (by omega)]
      simp only [List.mem_cons, List.not_mem_nil, or_false]
      omega
    · simp at h
  relevant := by
    intro p hp g hg g' hg'
    have : p < 2 := hp
    unfold ringDsp at hg'
    split_ifs at hg' with hlt
    · simp only [List.mem_cons, List.not_mem_nil, or_false] at hg'
      interval_cases p <;> simp [ringWorld, Partitioner.Owned] <;> omega
    · simp at hg'

theorem ringWorld_wf (r : ℕ) (hr : r < ringWorld.R) :
    (minimalPattern ringDsp (ringWorld.part r)).WF 2 2 := by
  have : r < 2 := hr
  refine minimalPattern_wf (ringWorld_consistent.sorted r hr)
    (fun g hg => ghost_not_owned ringWorld_consistent hr hg) (ringWorld_compatible.relevant r hr)
    ringWorld_compatible.symm (by norm_num) dvd_rfl ?_ ?_
  · interval_cases r <;> simp [ringWorld]
  · interval_cases r <;> decide

/-- On the ring the ghost rows of both ranks are exchanged completely: rank 1 finds in its ghost row of
degree of freedom 0, off-diagonal entry, the value of rank 0 for the entry (0, 3). -/
example : ∃ S : ℕ → Simd, ∀ (data : ℕ → ℕ → ℤ),
    (S 1).get 2 1 (received 1 ((S 1).row_starts 2) (exchangePattern ringDsp ringWorld)
      (fun r row pos d => (S r).get 2 1 (data r) row pos d) 1 (data 1)) 2 1 0
      = (S 0).get 2 1 (data 0) 0 2 0 := by
  have hS : ∀ r, ∃ S, r < ringWorld.R →
      reinit (minimalPattern ringDsp (ringWorld.part r)) 2 2 (ringWorld.part r).n_owned
      (fun _ => 0) = some S := by
    intro r
    by_cases hr : r < ringWorld.R
    · have : r < 2 := hr
      obtain ⟨S, hS⟩ := (C28_reinit_some_iff (minimalPattern ringDsp (ringWorld.part r)) 2 2
        (ringWorld.part r).n_owned (fun _ => 0)).2 (by interval_cases r <;> decide)
      exact ⟨S, fun _ => hS⟩
    · exact ⟨⟨0, 0, 0, fun _ => 0, [], []⟩, fun h => absurd h hr⟩
  choose S hS using hS
  refine ⟨S, fun data => ?_⟩
  obtain ⟨row', pos', h1, h2, h3, h4, h5⟩ := C30_ghost_rows_partial (s := 2) (nI := fun _ => 2)
    (garbage := fun _ _ => 0) (S := S) ringWorld_consistent
    ringWorld_compatible ringWorld_wf (by intro r hr; have : r < 2 := hr; interval_cases r <;> simp [ringWorld])
    hS 1 data (p := 0) (q := 1) (i := 2) (pos := 1) (d := 0) (by simp [ringWorld])
    (by simp [ringWorld]) (by simp [ringWorld]) ⟨by decide, by decide⟩ (by decide) (by norm_num)
    (Or.inl (by norm_num))
  have hr0 : row' = 0 := by
    have e : (ringWorld.part 1).localToGlobal 2 = 0 := by decide
    have e0 : (ringWorld.part 0).first = 0 := rfl
    rw [e, l2g_owned h1, e0] at h3
    omega
  subst hr0
  have hp : pos' < 3 := h2.2
  have hc0 := C28_columns (ringWorld_wf 0 (by decide)) (hS 0 (by decide)) h2
  have hc1 := C28_columns (ringWorld_wf 1 (by decide)) (hS 1 (by decide)) (row := 2) (pos := 1)
    ⟨by decide, by decide⟩
  rw [hc0, hc1] at h4
  have : pos' = 2 := by
    have e : ∀ n : Fin 3, (ringWorld.part 0).localToGlobal
        (((minimalPattern ringDsp (ringWorld.part 0)).cols 0)[n.1]'(n.2)) = 3 → n.1 = 2 := by decide
    exact e ⟨pos', hp⟩ h4
  subst this
  exact h5

end Sparse
end Ryujin
