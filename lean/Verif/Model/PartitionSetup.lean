import Verif.Model.SparseExchange
import Mathlib.Data.Finset.Union
import Mathlib.Data.Finset.Prod
import Mathlib.Algebra.BigOperators.Group.Finset.Basic

/-!
# Model of the set-up of the partitioners

`OfflineData::create_constraints_and_sparsity_pattern` ends with the exchange of the rows of the sparsity pattern, and `OfflineData::setup` enlarges the
set of locally relevant indices by all columns before it creates the partitioner.  deal.II is modelled by its specification: the owned indices
of the ranks are consecutive ranges, and `distribute_sparsity_pattern` sends the rows a rank stores for indices it does not own to the owner, which
adds them to its own row.
-/

namespace Ryujin
namespace Sparse

/-- What a rank knows before the exchange: the number of owned indices, the locally relevant indices and the entries its cells contribute to the
sparsity pattern. (offline_data.template.h:146-173, 332-337) -/
structure RankSetup where
  n_owned : ℕ
  relevant : Finset ℕ
  entries : Finset (ℕ × ℕ)

/-- All ranks. (offline_data.template.h:146-173, 332-337) -/
structure Setup where
  R : ℕ
  rank : ℕ → RankSetup

namespace Setup

variable (S : Setup)

/-- First owned index of a rank. (offline_data.template.h:332) -/
def first (p : ℕ) : ℕ := ∑ q ∈ Finset.range p, (S.rank q).n_owned

/-- `dof_handler.n_dofs()`. (offline_data.template.h:340) -/
def nDofs : ℕ := S.first S.R

/-- `locally_owned.is_element(g)`. (offline_data.template.h:332, 343) -/
def owns (p g : ℕ) : Prop := S.first p ≤ g ∧ g < S.first p + (S.rank p).n_owned

instance (p : ℕ) : DecidablePred (S.owns p) := fun _ => inferInstanceAs (Decidable (_ ∧ _))

/-- The row a rank stores before the exchange. (offline_data.template.h:146-173) -/
def localRow (p g : ℕ) : Finset ℕ := ((S.rank p).entries.filter fun e => e.1 = g).image Prod.snd

/-- The row after `distribute_sparsity_pattern`. (offline_data.template.h:181-182) -/
def row (p g : ℕ) : Finset ℕ := if S.owns p g then (Finset.range S.R).biUnion fun r => S.localRow r g else S.localRow p g

/-- `additional_dofs`: the rows of the pattern are those of the locally relevant indices. (offline_data.template.h:340-346) -/
def additional (p : ℕ) : Finset ℕ := ((S.rank p).relevant.biUnion (S.row p)).filter fun g => g ∉ (S.rank p).relevant

/-- The locally relevant indices of the partitioner. (offline_data.template.h:347-348) -/
def enlarged (p : ℕ) : Finset ℕ := (S.rank p).relevant ∪ S.additional p

/-- `scalar_partitioner_` of a rank; the ghosts are the relevant indices that are not owned. (offline_data.template.h:353-354) -/
def partitioner (p : ℕ) : Partitioner where
  first := S.first p
  n_owned := (S.rank p).n_owned
  ghosts := (List.range S.nDofs).filter fun g => decide (g ∈ S.enlarged p ∧ ¬ S.owns p g)

/-- All partitioners. (offline_data.template.h:353-354) -/
def world : World where
  R := S.R
  part := S.partitioner

/-- The rows of the global sparsity pattern as `SparsityPatternSIMD::reinit` sees them: every rank passes the rows it owns.
(offline_data.template.h:399-400) -/
def pattern (g : ℕ) : List ℕ := (List.range S.nDofs).filter fun g' => decide (∃ p ∈ Finset.range S.R, S.owns p g ∧ g' ∈ S.row p g)

end Setup

end Sparse
end Ryujin
