import Verif.Model.PartitionSetup
import Verif.Props.SparseExchange
import Mathlib.Tactic.FinCases

/-!
# C30: the partitioners satisfy the assumptions of the exchange
-/

namespace Ryujin
namespace Sparse

/-- What the cells of a rank provide: couplings are mutual and only couple locally relevant indices, among them all owned ones. -/
structure Setup.Valid (S : Setup) : Prop where
  symm : ∀ p < S.R, ∀ a b, (a, b) ∈ (S.rank p).entries → (b, a) ∈ (S.rank p).entries
  relevant : ∀ p < S.R, ∀ e ∈ (S.rank p).entries, e.1 ∈ (S.rank p).relevant ∧ e.2 ∈ (S.rank p).relevant
  owned : ∀ p < S.R, ∀ g, S.owns p g → g ∈ (S.rank p).relevant
  bounded : ∀ p < S.R, ∀ g ∈ (S.rank p).relevant, g < S.nDofs

namespace Setup

variable {S : Setup}

theorem first_succ (p : ℕ) : S.first (p + 1) = S.first p + (S.rank p).n_owned := Finset.sum_range_succ _ _

/-- Every index has an owner. -/
theorem exists_owner {g : ℕ} (h : g < S.nDofs) : ∃ p < S.R, S.owns p g := by
  unfold nDofs at h
  generalize S.R = R at h
  induction R with
  | zero => simp [first] at h
  | succ R ih =>
    rw [first_succ] at h
    by_cases h' : g < S.first R
    · obtain ⟨p, hp, ho⟩ := ih h'
      exact ⟨p, hp.trans (Nat.lt_succ_self _), ho⟩
    · exact ⟨R, Nat.lt_succ_self _, not_lt.1 h', h⟩

theorem mem_localRow {p g g' : ℕ} : g' ∈ S.localRow p g ↔ (g, g') ∈ (S.rank p).entries := by
  simp only [localRow, Finset.mem_image, Finset.mem_filter]
  constructor
  · rintro ⟨⟨a, b⟩, ⟨h, rfl⟩, rfl⟩
    exact h
  · intro h
    exact ⟨(g, g'), ⟨h, rfl⟩, rfl⟩

theorem mem_row_owned {p g g' : ℕ} (h : S.owns p g) : g' ∈ S.row p g ↔ ∃ r < S.R, (g, g') ∈ (S.rank r).entries := by
  simp only [row, if_pos h, Finset.mem_biUnion, Finset.mem_range, mem_localRow]

theorem mem_pattern (hS : S.Valid) {g g' : ℕ} : g' ∈ S.pattern g ↔ ∃ r < S.R, (g, g') ∈ (S.rank r).entries := by
  simp only [pattern, List.mem_filter, List.mem_range, decide_eq_true_eq, Finset.mem_range]
  constructor
  · rintro ⟨_, p, _, ho, h⟩
    exact (mem_row_owned ho).1 h
  · rintro ⟨r, hr, h⟩
    have h1 := hS.relevant r hr _ h
    obtain ⟨p, hp, ho⟩ := exists_owner (hS.bounded r hr _ h1.1)
    exact ⟨hS.bounded r hr _ h1.2, p, hp, ho, (mem_row_owned ho).2 ⟨r, hr, h⟩⟩

end Setup

open Setup

variable {S : Setup}

/-- **C30 (partitioners).** The partitioners created by the set-up are those the exchange relies on: consecutive owned ranges, ghosts in
ascending order, every ghost owned by another rank. -/
theorem C30_setup_consistent (S : Setup) : S.world.Consistent where
  zero := by simp [world, partitioner, first]
  next := fun p => first_succ p
  sorted := fun p _ => List.Pairwise.filter _ List.pairwise_lt_range
  ghost := by
    intro q _ g hg
    simp only [world, partitioner, List.mem_filter, List.mem_range, decide_eq_true_eq] at hg
    obtain ⟨p, hp, ho⟩ := exists_owner hg.1
    exact ⟨p, hp, fun e => hg.2.2 (e ▸ ho), ho⟩

/-- **C30 (sparsity pattern).** After the exchange of rows and the enlargement of the relevant indices, the pattern is symmetric across ranks and all
columns of owned rows are owned or ghosts, also those that come from cells of other ranks only. -/
theorem C30_setup_compatible (hS : S.Valid) : S.world.Compatible S.pattern where
  symm := by
    intro g g' h
    obtain ⟨r, hr, h⟩ := (mem_pattern hS).1 h
    exact (mem_pattern hS).2 ⟨r, hr, hS.symm r hr _ _ h⟩
  relevant := by
    intro p hp g ho g' h
    obtain ⟨r, hr, h⟩ := (mem_pattern hS).1 h
    have ho' : S.owns p g := ho
    by_cases hown : S.owns p g'
    · exact Or.inl hown
    · right
      simp only [world, partitioner, List.mem_filter, List.mem_range, decide_eq_true_eq]
      refine ⟨hS.bounded r hr _ (hS.relevant r hr _ h).2, ?_, hown⟩
      unfold enlarged additional
      rw [Finset.mem_union, Finset.mem_filter, Finset.mem_biUnion]
      by_cases hrel : g' ∈ (S.rank p).relevant
      · exact Or.inl hrel
      · exact Or.inr ⟨⟨g, hS.owned p hp g ho', (mem_row_owned ho').2 ⟨r, hr, h⟩⟩, hrel⟩

/-- **C30 (assertion).** The assertion in the loop over the entries holds: a column that is not locally relevant occurs in owned rows only. -/
theorem C30_setup_assertion (hS : S.Valid) {p g g' : ℕ} (hp : p < S.R) (h : g' ∈ S.row p g) (hrel : g' ∉ (S.rank p).relevant) : S.owns p g := by
  by_contra ho
  rw [row, if_neg ho, mem_localRow] at h
  exact hrel (hS.relevant p hp _ h).2

/-- **C30 (nothing superfluous).** A ghost that was not locally relevant before couples with an owned index. -/
theorem C30_setup_minimal (hS : S.Valid) {p g' : ℕ} (hp : p < S.R) (h : g' ∈ (S.world.part p).ghosts) (hrel : g' ∉ (S.rank p).relevant) :
    ∃ g, S.owns p g ∧ g' ∈ S.pattern g := by
  simp only [world, partitioner, List.mem_filter, List.mem_range, decide_eq_true_eq, enlarged, additional, Finset.mem_union, Finset.mem_filter,
    Finset.mem_biUnion] at h
  rcases h.2.1 with h1 | ⟨⟨g, _, hrow⟩, _⟩
  · exact absurd h1 hrel
  · have ho := C30_setup_assertion hS hp hrow hrel
    exact ⟨g, ho, (mem_pattern hS).2 ((mem_row_owned ho).1 hrow)⟩

/-- Two ranks; the index 1 of the first one couples with the index 3 only through a cell of the second one, which knows about both. -/
def twoRanks : Setup where
  R := 2
  rank := fun p => if p = 0 then ⟨2, {0, 1, 2}, {(0, 0), (0, 1), (1, 0), (1, 1), (1, 2), (2, 1)}⟩
    else if p = 1 then ⟨2, {1, 2, 3}, {(1, 2), (2, 1), (1, 3), (3, 1), (2, 2), (2, 3), (3, 2), (3, 3)}⟩ else ⟨0, ∅, ∅⟩

theorem twoRanks_valid : twoRanks.Valid where
  symm := by
    intro p hp a b
    have : p = 0 ∨ p = 1 := by simp only [twoRanks] at hp; omega
    rcases this with rfl | rfl <;> simp [twoRanks] <;> omega
  relevant := by
    intro p hp e
    have : p = 0 ∨ p = 1 := by simp only [twoRanks] at hp; omega
    rcases this with rfl | rfl <;> revert e <;> simp [twoRanks]
  owned := by
    intro p hp g
    have : p = 0 ∨ p = 1 := by simp only [twoRanks] at hp; omega
    rcases this with rfl | rfl <;> simp [twoRanks, owns, first] <;> omega
  bounded := by
    intro p hp g
    have : p = 0 ∨ p = 1 := by simp only [twoRanks] at hp; omega
    have hn : twoRanks.nDofs = 4 := by decide
    rw [hn]
    rcases this with rfl | rfl <;> simp [twoRanks] <;> omega

/-- The index 3 becomes a ghost of the first rank. -/
example : (twoRanks.world.part 0).ghosts = [2, 3] ∧ (twoRanks.world.part 1).ghosts = [1] ∧ twoRanks.pattern 1 = [0, 1, 2, 3] := by decide

example : twoRanks.world.Consistent ∧ twoRanks.world.Compatible twoRanks.pattern :=
  ⟨C30_setup_consistent twoRanks, C30_setup_compatible twoRanks_valid⟩

example : ∃ g, twoRanks.owns 0 g ∧ 3 ∈ twoRanks.pattern g :=
  C30_setup_minimal twoRanks_valid (by decide) (by decide) (by decide)

example : twoRanks.owns 0 1 := C30_setup_assertion (g' := 3) twoRanks_valid (by decide) (by decide) (by decide)

end Sparse
end Ryujin
