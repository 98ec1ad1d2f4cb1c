import Verif.Model.ErrorNorms
import Mathlib.Combinatorics.Nullstellensatz
import Mathlib.LinearAlgebra.Lagrange
import Mathlib.MeasureTheory.Integral.Pi
import Mathlib.Analysis.SpecialFunctions.Integrals.Basic
import Mathlib.Tactic.Linarith
import Mathlib.Tactic.FinCases
import Mathlib.Tactic.IntervalCases
import Mathlib.Tactic.ComputeDegree
import Mathlib.Tactic.LinearCombination
import Mathlib.Algebra.BigOperators.Field

/-!
# C101: the error norms
-/

namespace Ryujin
namespace ErrorNorms

open scoped BigOperators
open GeoTiff (Outcome)

noncomputable section

/-! ### Specification: a mesh that is not distributed -/

/-- The ranks together have every degree of freedom and every cell of the mesh exactly once. -/
def Partition {s : ℕ} {Q : Type} (ranks : List (Rank s Q)) (dofs : List ℕ) (mesh : List (Cell s Q)) : Prop :=
  (ranks.flatMap fun r => r.owned).Perm dofs ∧
    (ranks.flatMap fun r => r.cells.filterMap fun c => if c.2 then some c.1 else none).Perm mesh

/-- `L` is the largest absolute value of the coefficients. -/
def IsLinf (dofs : List ℕ) (e : ℕ → ℝ) (L : ℝ) : Prop :=
  (∀ i ∈ dofs, |e i| ≤ L) ∧ ((dofs = [] ∧ L = 0) ∨ ∃ i ∈ dofs, |e i| = L)

/-- The integral of the absolute value of the finite element function, by quadrature. -/
def integralAbs {s : ℕ} {Q : Type} [Fintype Q] (mesh : List (Cell s Q)) (e : ℕ → ℝ) : ℝ :=
  (mesh.map fun K => ∑ q, |K.eval e q| * K.JxW q).sum

/-- The integral of the square of the finite element function, by quadrature. -/
def integralSq {s : ℕ} {Q : Type} [Fintype Q] (mesh : List (Cell s Q)) (e : ℕ → ℝ) : ℝ :=
  (mesh.map fun K => ∑ q, K.eval e q ^ 2 * K.JxW q).sum

/-! ### The norms -/

theorem foldl_max_spec (l : List ℕ) (f : ℕ → ℝ) (a : ℝ) :
    a ≤ l.foldl (fun b i => max b (f i)) a ∧ (∀ i ∈ l, f i ≤ l.foldl (fun b i => max b (f i)) a) ∧
      (l.foldl (fun b i => max b (f i)) a = a ∨ ∃ i ∈ l, f i = l.foldl (fun b i => max b (f i)) a) := by
  induction l generalizing a with
  | nil => simp
  | cons i l ih =>
    obtain ⟨h1, h2, h3⟩ := ih (max a (f i))
    simp only [List.foldl_cons]
    refine ⟨(le_max_left _ _).trans h1, ?_, ?_⟩
    · intro j hj
      rcases List.mem_cons.mp hj with rfl | hj
      · exact (le_max_right _ _).trans h1
      · exact h2 j hj
    · rcases h3 with h3 | ⟨j, hj, h3⟩
      · rw [h3]
        rcases max_choice a (f i) with h | h
        · exact Or.inl h
        · exact Or.inr ⟨i, by simp, h.symm⟩
      · exact Or.inr ⟨j, by simp [hj], h3⟩

theorem linf_ranks {s : ℕ} {Q : Type} (ranks : List (Rank s Q)) (e : ℕ → ℝ) (a : ℝ) (ha : 0 ≤ a) :
    ranks.foldl (fun a r => max a (r.owned.foldl (fun b i => max b |e i|) 0)) a =
      (ranks.flatMap fun r => r.owned).foldl (fun b i => max b |e i|) a := by
  induction ranks generalizing a with
  | nil => rfl
  | cons r ranks ih =>
    have hmove : ∀ (l : List ℕ) (a b : ℝ), max a (l.foldl (fun b i => max b |e i|) b) =
        l.foldl (fun b i => max b |e i|) (max a b) := by
      intro l
      induction l with
      | nil => intro a b; rfl
      | cons i l ih => intro a b; simp only [List.foldl_cons]; rw [ih, max_assoc]
    rw [List.foldl_cons, List.flatMap_cons, List.foldl_append, hmove, max_eq_left ha]
    exact ih _ (ha.trans (foldl_max_spec r.owned (fun i => |e i|) a).1)

theorem isLinf_unique {dofs : List ℕ} {e : ℕ → ℝ} {L L' : ℝ} (h : IsLinf dofs e L) (h' : IsLinf dofs e L') : L = L' := by
  rcases h.2 with ⟨h0, h1⟩ | ⟨i, hi, h1⟩
  · rcases h'.2 with ⟨_, h2⟩ | ⟨j, hj, _⟩
    · rw [h1, h2]
    · rw [h0] at hj; simp at hj
  · rcases h'.2 with ⟨h0, _⟩ | ⟨j, hj, h2⟩
    · rw [h0] at hi; simp at hi
    · apply le_antisymm
      · rw [← h1]; exact h'.1 i hi
      · rw [← h2]; exact h.1 j hj

theorem cell_l1_nonneg {s : ℕ} {Q : Type} [Fintype Q] (e : ℕ → ℝ) (K : Cell s Q) (hK : ∀ q, 0 ≤ K.JxW q) :
    0 ≤ Cell.l1 e K := Finset.sum_nonneg fun q _ => mul_nonneg (abs_nonneg _) (hK q)

theorem sum_flatMap {α β : Type} (l : List α) (g : α → List β) (f : β → ℝ) :
    ((l.flatMap g).map f).sum = (l.map fun a => ((g a).map f).sum).sum := by
  induction l with
  | nil => rfl
  | cons a l ih => rw [List.flatMap_cons, List.map_append, List.sum_append, List.map_cons, List.sum_cons, ih]

theorem sum_owned {s : ℕ} {Q : Type} (cells : List (Cell s Q × Bool)) (f : Cell s Q → ℝ) :
    ((cells.filterMap fun c => if c.2 then some c.1 else none).map f).sum =
      (cells.map fun c => if c.2 then f c.1 else 0).sum := by
  induction cells with
  | nil => rfl
  | cons c cells ih =>
    rw [List.map_cons, List.sum_cons, ← ih, List.filterMap_cons]
    by_cases h : c.2 = true
    · simp [h]
    · simp [h]

/-- C101: the three norms are those of the finite element function on the whole mesh, however cells and degrees of freedom
are distributed over the ranks, with ghost cells or without. -/
theorem C101_norms {s : ℕ} {Q : Type} [Fintype Q] {ranks : List (Rank s Q)} {dofs : List ℕ} {mesh : List (Cell s Q)}
    (hp : Partition ranks dofs mesh) (hJ : ∀ K ∈ mesh, ∀ q, 0 ≤ K.JxW q) (e : ℕ → ℝ) :
    IsLinf dofs e (linf ranks e) ∧ l1 ranks e = integralAbs mesh e ∧ l2 ranks e = Real.sqrt (integralSq mesh e) := by
  have hmem : ∀ r ∈ ranks, ∀ c ∈ r.cells, c.2 = true → c.1 ∈ mesh := by
    intro r hr c hc h
    refine hp.2.subset (List.mem_flatMap.mpr ⟨r, hr, List.mem_filterMap.mpr ⟨c, hc, by simp [h]⟩⟩)
  refine ⟨?_, ?_, ?_⟩
  · unfold linf
    rw [linf_ranks ranks e 0 le_rfl]
    obtain ⟨h0, h1, h2⟩ := foldl_max_spec (ranks.flatMap fun r => r.owned) (fun i => |e i|) 0
    refine ⟨fun i hi => h1 i (hp.1.symm.subset hi), ?_⟩
    rcases h2 with h2 | ⟨i, hi, h2⟩
    · by_cases hd : dofs = []
      · exact Or.inl ⟨hd, h2⟩
      · right
        obtain ⟨i, hi⟩ := List.exists_mem_of_ne_nil _ hd
        refine ⟨i, hi, le_antisymm (h1 i (hp.1.symm.subset hi)) ?_⟩
        rw [h2]; exact abs_nonneg _
    · exact Or.inr ⟨i, hp.1.subset hi, h2⟩
  · unfold l1 integralAbs
    rw [← (hp.2.map _).sum_eq, sum_flatMap]
    refine congrArg List.sum (List.map_congr_left fun r hr => ?_)
    rw [sum_owned, l1Norm, Rank.differencePerCell, List.map_map]
    refine congrArg List.sum (List.map_congr_left fun c hc => ?_)
    by_cases h : c.2 = true
    · simp only [Function.comp, h, if_true]
      exact abs_of_nonneg (cell_l1_nonneg e c.1 (hJ c.1 (hmem r hr c hc h)))
    · simp [Function.comp, h]
  · unfold l2 integralSq
    congr 1
    rw [← (hp.2.map _).sum_eq, sum_flatMap]
    refine congrArg List.sum (List.map_congr_left fun r hr => ?_)
    rw [l2Norm, Real.sq_sqrt (List.sum_nonneg (by
      intro x hx
      obtain ⟨y, _, rfl⟩ := List.mem_map.mp hx
      positivity)), sum_owned, Rank.differencePerCell, List.map_map]
    refine congrArg List.sum (List.map_congr_left fun c hc => ?_)
    by_cases h : c.2 = true
    · simp only [Function.comp, h, if_true, Cell.l2, sq_abs]
      exact Real.sq_sqrt (Finset.sum_nonneg fun q _ => mul_nonneg (sq_nonneg _) (hJ c.1 (hmem r hr c hc h) q))
    · simp [Function.comp, h]

/-- C101: the reported errors do not depend on the number of ranks and on the distribution of the mesh, whatever the
settings. -/
theorem C101_partition {s : ℕ} {Q : Type} [Fintype Q] {ranks ranks' : List (Rank s Q)} {dofs : List ℕ}
    {mesh : List (Cell s Q)} (hp : Partition ranks dofs mesh) (hp' : Partition ranks' dofs mesh)
    (hJ : ∀ K ∈ mesh, ∀ q, 0 ≤ K.JxW q) (constraint : ℕ → Option (List (ℕ × ℝ))) (names quantities : List String)
    (normalize : Bool) (U analytic : ℕ → ℕ → ℝ) :
    computeError ranks constraint names quantities normalize U analytic =
      computeError ranks' constraint names quantities normalize U analytic := by
  have h1 : ∀ e, linf ranks e = linf ranks' e := fun e =>
    isLinf_unique (C101_norms hp hJ e).1 (C101_norms hp' hJ e).1
  have h2 : ∀ e, l1 ranks e = l1 ranks' e := fun e => by rw [(C101_norms hp hJ e).2.1, (C101_norms hp' hJ e).2.1]
  have h3 : ∀ e, l2 ranks e = l2 ranks' e := fun e => by rw [(C101_norms hp hJ e).2.2, (C101_norms hp' hJ e).2.2]
  have hq : addQuantity ranks constraint names normalize U analytic =
      addQuantity ranks' constraint names normalize U analytic := by
    funext acc entry
    unfold addQuantity
    simp only [h1, h2, h3]
  unfold computeError
  rw [hq]

/-! ### The sum over the quantities -/

/-- The error of component `k`: the computed solution, with values in the constrained degrees of freedom, minus the
interpolated exact solution. -/
def errorOf (constraint : ℕ → Option (List (ℕ × ℝ))) (U analytic : ℕ → ℕ → ℝ) (k : ℕ) : ℕ → ℝ :=
  fun i => distribute constraint (U k) i - analytic k i

theorem findIdx_of_mem {names : List String} {entry : String} (h : entry ∈ names) :
    names.findIdx? (· == entry) = some (names.idxOf entry) := by
  rw [List.findIdx?_eq_some_iff_findIdx_eq]
  exact ⟨List.idxOf_lt_length_of_mem h, rfl⟩

theorem findIdx_of_not_mem {names : List String} {entry : String} (h : entry ∉ names) :
    names.findIdx? (· == entry) = none := by
  rw [List.findIdx?_eq_none_iff]
  intro x hx
  simp only [beq_eq_false_iff_ne, ne_eq]
  rintro rfl
  exact h hx

/-- C101: a quantity that is no conserved component is reported as an exception. -/
theorem C101_unknown {s : ℕ} {Q : Type} [Fintype Q] (ranks : List (Rank s Q)) (constraint : ℕ → Option (List (ℕ × ℝ)))
    (names quantities : List String) (normalize : Bool) (U analytic : ℕ → ℕ → ℝ) :
    computeError ranks constraint names quantities normalize U analytic = .exception ↔ ∃ q ∈ quantities, q ∉ names := by
  have hexc : ∀ l : List String, l.foldl (addQuantity ranks constraint names normalize U analytic) .exception = .exception := by
    intro l
    induction l with
    | nil => rfl
    | cons q l ih => exact ih
  have key : ∀ (l : List String) (a : Norms),
      l.foldl (addQuantity ranks constraint names normalize U analytic) (.ok a) = .exception ↔ ∃ q ∈ l, q ∉ names := by
    intro l
    induction l with
    | nil => intro a; simp
    | cons q l ih =>
      intro a
      rw [List.foldl_cons]
      by_cases hq : q ∈ names
      · have : addQuantity ranks constraint names normalize U analytic (.ok a) q =
            .ok (if normalize then
              { linf := addQuotient a.linf (linf ranks (errorOf constraint U analytic (names.idxOf q)))
                  (linf ranks (analytic (names.idxOf q)))
                l1 := addQuotient a.l1 (l1 ranks (errorOf constraint U analytic (names.idxOf q)))
                  (l1 ranks (analytic (names.idxOf q)))
                l2 := addQuotient a.l2 (l2 ranks (errorOf constraint U analytic (names.idxOf q)))
                  (l2 ranks (analytic (names.idxOf q))) }
            else
              { linf := a.linf.map (· + linf ranks (errorOf constraint U analytic (names.idxOf q)))
                l1 := a.l1.map (· + l1 ranks (errorOf constraint U analytic (names.idxOf q)))
                l2 := a.l2.map (· + l2 ranks (errorOf constraint U analytic (names.idxOf q))) }) := by
          unfold addQuantity
          simp only [findIdx_of_mem hq]
          rfl
        rw [this, ih]
        simp [hq]
      · have : addQuantity ranks constraint names normalize U analytic (.ok a) q = .exception := by
          unfold addQuantity
          simp only [findIdx_of_not_mem hq]
        rw [this]
        exact iff_of_true (hexc l) ⟨q, by simp, hq⟩
  exact key quantities _

/-- C101: without normalisation the three numbers are the sums, over the requested components, of the norms of the error. -/
theorem C101_consolidated {s : ℕ} {Q : Type} [Fintype Q] (ranks : List (Rank s Q)) (constraint : ℕ → Option (List (ℕ × ℝ)))
    (names quantities : List String) (U analytic : ℕ → ℕ → ℝ) (hq : ∀ q ∈ quantities, q ∈ names) :
    computeError ranks constraint names quantities false U analytic = .ok
      ⟨some (quantities.map fun q => linf ranks (errorOf constraint U analytic (names.idxOf q))).sum,
        some (quantities.map fun q => l1 ranks (errorOf constraint U analytic (names.idxOf q))).sum,
        some (quantities.map fun q => l2 ranks (errorOf constraint U analytic (names.idxOf q))).sum⟩ := by
  have key : ∀ (l : List String) (a b c : ℝ), (∀ q ∈ l, q ∈ names) →
      l.foldl (addQuantity ranks constraint names false U analytic) (.ok ⟨some a, some b, some c⟩) = .ok
        ⟨some (a + (l.map fun q => linf ranks (errorOf constraint U analytic (names.idxOf q))).sum),
          some (b + (l.map fun q => l1 ranks (errorOf constraint U analytic (names.idxOf q))).sum),
          some (c + (l.map fun q => l2 ranks (errorOf constraint U analytic (names.idxOf q))).sum)⟩ := by
    intro l
    induction l with
    | nil => intro a b c _; simp
    | cons q l ih =>
      intro a b c hl
      rw [List.foldl_cons]
      have : addQuantity ranks constraint names false U analytic (.ok ⟨some a, some b, some c⟩) q = .ok
          ⟨some (a + linf ranks (errorOf constraint U analytic (names.idxOf q))),
            some (b + l1 ranks (errorOf constraint U analytic (names.idxOf q))),
            some (c + l2 ranks (errorOf constraint U analytic (names.idxOf q)))⟩ := by
        unfold addQuantity
        simp only [findIdx_of_mem (hl q (by simp))]
        rfl
      rw [this, ih _ _ _ fun q' h => hl q' (by simp [h])]
      simp only [List.map_cons, List.sum_cons, add_assoc]
  have := key quantities 0 0 0 hq
  simp only [zero_add] at this
  exact this

theorem foldl_normalized {s : ℕ} {Q : Type} [Fintype Q] (ranks : List (Rank s Q)) (constraint : ℕ → Option (List (ℕ × ℝ)))
    (names : List String) (U analytic : ℕ → ℕ → ℝ) (l : List String) (hl : ∀ q ∈ l, q ∈ names) (a : Norms) :
    l.foldl (addQuantity ranks constraint names true U analytic) (.ok a) = .ok
      ⟨l.foldl (fun acc q => addQuotient acc (linf ranks (errorOf constraint U analytic (names.idxOf q)))
          (linf ranks (analytic (names.idxOf q)))) a.linf,
        l.foldl (fun acc q => addQuotient acc (l1 ranks (errorOf constraint U analytic (names.idxOf q)))
          (l1 ranks (analytic (names.idxOf q)))) a.l1,
        l.foldl (fun acc q => addQuotient acc (l2 ranks (errorOf constraint U analytic (names.idxOf q)))
          (l2 ranks (analytic (names.idxOf q)))) a.l2⟩ := by
  induction l generalizing a with
  | nil => rfl
  | cons q l ih =>
    rw [List.foldl_cons]
    have : addQuantity ranks constraint names true U analytic (.ok a) q = .ok
        ⟨addQuotient a.linf (linf ranks (errorOf constraint U analytic (names.idxOf q)))
            (linf ranks (analytic (names.idxOf q))),
          addQuotient a.l1 (l1 ranks (errorOf constraint U analytic (names.idxOf q)))
            (l1 ranks (analytic (names.idxOf q))),
          addQuotient a.l2 (l2 ranks (errorOf constraint U analytic (names.idxOf q)))
            (l2 ranks (analytic (names.idxOf q)))⟩ := by
      unfold addQuantity
      simp only [findIdx_of_mem (hl q (by simp))]
      rfl
    rw [this, ih (fun q' h => hl q' (by simp [h]))]
    rfl

theorem foldl_quotient {num den : String → ℝ} (l : List String) (a : ℝ) (h : ∀ q ∈ l, den q ≠ 0) :
    l.foldl (fun acc q => addQuotient acc (num q) (den q)) (some a) = some (a + (l.map fun q => num q / den q).sum) := by
  induction l generalizing a with
  | nil => simp
  | cons q l ih =>
    rw [List.foldl_cons]
    have : addQuotient (some a) (num q) (den q) = some (a + num q / den q) := by
      unfold addQuotient; rw [if_neg (h q (by simp))]; rfl
    rw [this, ih _ fun q' hq => h q' (by simp [hq])]
    simp only [List.map_cons, List.sum_cons, add_assoc]

theorem foldl_quotient_none {num den : String → ℝ} (l : List String) :
    l.foldl (fun acc q => addQuotient acc (num q) (den q)) none = none := by
  induction l with
  | nil => rfl
  | cons q l ih =>
    rw [List.foldl_cons]
    have : addQuotient none (num q) (den q) = none := by unfold addQuotient; split <;> rfl
    rw [this, ih]

theorem foldl_quotient_zero {num den : String → ℝ} (l : List String) (a : Option ℝ) {q : String} (hq : q ∈ l)
    (h : den q = 0) : l.foldl (fun acc q => addQuotient acc (num q) (den q)) a = none := by
  induction l generalizing a with
  | nil => simp at hq
  | cons q' l ih =>
    rw [List.foldl_cons]
    rcases List.mem_cons.mp hq with rfl | hq
    · have : addQuotient a (num q) (den q) = none := by unfold addQuotient; rw [if_pos h]
      rw [this]; exact foldl_quotient_none l
    · exact ih _ hq

/-- C101: with normalisation they are the sums of the relative errors, provided none of the requested components of the
exact solution vanishes. -/
theorem C101_normalized {s : ℕ} {Q : Type} [Fintype Q] (ranks : List (Rank s Q)) (constraint : ℕ → Option (List (ℕ × ℝ)))
    (names quantities : List String) (U analytic : ℕ → ℕ → ℝ) (hq : ∀ q ∈ quantities, q ∈ names)
    (h1 : ∀ q ∈ quantities, linf ranks (analytic (names.idxOf q)) ≠ 0)
    (h2 : ∀ q ∈ quantities, l1 ranks (analytic (names.idxOf q)) ≠ 0)
    (h3 : ∀ q ∈ quantities, l2 ranks (analytic (names.idxOf q)) ≠ 0) :
    computeError ranks constraint names quantities true U analytic = .ok
      ⟨some (quantities.map fun q => linf ranks (errorOf constraint U analytic (names.idxOf q)) /
          linf ranks (analytic (names.idxOf q))).sum,
        some (quantities.map fun q => l1 ranks (errorOf constraint U analytic (names.idxOf q)) /
          l1 ranks (analytic (names.idxOf q))).sum,
        some (quantities.map fun q => l2 ranks (errorOf constraint U analytic (names.idxOf q)) /
          l2 ranks (analytic (names.idxOf q))).sum⟩ := by
  unfold computeError
  rw [foldl_normalized ranks constraint names U analytic quantities hq]
  dsimp only
  rw [foldl_quotient quantities 0 h1, foldl_quotient quantities 0 h2, foldl_quotient quantities 0 h3]
  simp only [zero_add]

theorem linf_zero {s : ℕ} {Q : Type} (ranks : List (Rank s Q)) {e : ℕ → ℝ} (h : ∀ r ∈ ranks, ∀ i ∈ r.owned, e i = 0) :
    linf ranks e = 0 := by
  unfold linf
  rw [linf_ranks ranks e 0 le_rfl]
  obtain ⟨h0, _, h2⟩ := foldl_max_spec (ranks.flatMap fun r => r.owned) (fun i => |e i|) 0
  rcases h2 with h2 | ⟨i, hi, h2⟩
  · exact h2
  · obtain ⟨r, hr, hi⟩ := List.mem_flatMap.mp hi
    rw [← h2]
    show |e i| = 0
    rw [h r hr i hi, abs_zero]

theorem cell_eval_zero {s : ℕ} {Q : Type} (K : Cell s Q) : K.eval (fun _ => 0) = fun _ => 0 := by
  funext q; simp [Cell.eval]

theorem l1_zero {s : ℕ} {Q : Type} [Fintype Q] (ranks : List (Rank s Q)) : l1 ranks (fun _ => 0) = 0 := by
  have hc : ∀ K : Cell s Q, Cell.l1 (fun _ => 0) K = 0 := fun K => by simp [Cell.l1, cell_eval_zero]
  unfold l1 l1Norm Rank.differencePerCell
  simp [hc]

theorem l2_zero {s : ℕ} {Q : Type} [Fintype Q] (ranks : List (Rank s Q)) : l2 ranks (fun _ => 0) = 0 := by
  have hc : ∀ K : Cell s Q, Cell.l2 (fun _ => 0) K = 0 := fun K => by simp [Cell.l2, cell_eval_zero]
  unfold l2 l2Norm Rank.differencePerCell
  simp [hc]

/-- C101: if one of the requested components of the exact solution vanishes, as the transversal momentum does in every
one-dimensional flow, the normalised errors, which are the default, are no finite numbers, no matter how good the computed
solution is. -/
theorem C101_vanishing_component_violation {s : ℕ} {Q : Type} [Fintype Q] (ranks : List (Rank s Q))
    (constraint : ℕ → Option (List (ℕ × ℝ))) (names quantities : List String) (U analytic : ℕ → ℕ → ℝ)
    (hq : ∀ q ∈ quantities, q ∈ names) {q : String} (hmem : q ∈ quantities) (h0 : analytic (names.idxOf q) = fun _ => 0) :
    computeError ranks constraint names quantities true U analytic = .ok ⟨none, none, none⟩ := by
  unfold computeError
  rw [foldl_normalized ranks constraint names U analytic quantities hq]
  rw [foldl_quotient_zero quantities _ hmem (by rw [h0]; exact linf_zero ranks fun _ _ _ _ => rfl),
    foldl_quotient_zero quantities _ hmem (by rw [h0]; exact l1_zero ranks),
    foldl_quotient_zero quantities _ hmem (by rw [h0]; exact l2_zero ranks)]

/-- C101: the exact solution has no error. -/
theorem C101_exact {s : ℕ} {Q : Type} [Fintype Q] (ranks : List (Rank s Q)) (constraint : ℕ → Option (List (ℕ × ℝ)))
    (names quantities : List String) (U analytic : ℕ → ℕ → ℝ) (hq : ∀ q ∈ quantities, q ∈ names)
    (h : ∀ q ∈ quantities, distribute constraint (U (names.idxOf q)) = analytic (names.idxOf q)) :
    computeError ranks constraint names quantities false U analytic = .ok ⟨some 0, some 0, some 0⟩ := by
  rw [C101_consolidated ranks constraint names quantities U analytic hq]
  have he : ∀ q ∈ quantities, errorOf constraint U analytic (names.idxOf q) = fun _ => 0 := by
    intro q hq
    funext i
    unfold errorOf
    rw [h q hq, sub_self]
  have e1 : (quantities.map fun q => linf ranks (errorOf constraint U analytic (names.idxOf q))) =
      quantities.map fun _ => 0 := List.map_congr_left fun q hq => by
    rw [he q hq]; exact linf_zero ranks fun _ _ _ _ => rfl
  have e2 : (quantities.map fun q => l1 ranks (errorOf constraint U analytic (names.idxOf q))) =
      quantities.map fun _ => 0 := List.map_congr_left fun q hq => by rw [he q hq, l1_zero]
  have e3 : (quantities.map fun q => l2 ranks (errorOf constraint U analytic (names.idxOf q))) =
      quantities.map fun _ => 0 := List.map_congr_left fun q hq => by rw [he q hq, l2_zero]
  rw [e1, e2, e3]
  simp

/-! ### The quadrature -/

theorem gaussNode_injective : Function.Injective gaussNode := by
  have h : 0 < Real.sqrt (3 / 5) := Real.sqrt_pos.mpr (by norm_num)
  intro i j hij
  unfold gaussNode at hij
  generalize Real.sqrt (3 / 5) = r at *
  fin_cases i <;> fin_cases j <;> first | rfl | (simp at hij; linarith)

theorem gaussWeight_pos (k : Fin 3) : 0 < gaussWeight k := by fin_cases k <;> simp [gaussWeight]

/-- C101: for elements of degree at most two the `L1` and the `L2` error are definite: if one of them is zero, the error
vanishes identically on every cell (with shape functions that are polynomials of degree at most two in every variable on the
reference cell, and positive weights). -/
theorem C101_definite {s dim : ℕ} {mesh : List (Cell s (Fin dim → Fin 3))} (shape : Fin s → MvPolynomial (Fin dim) ℝ)
    (hdeg : ∀ j d, (shape j).degreeOf d ≤ 2)
    (hval : ∀ K ∈ mesh, ∀ q j, K.value q j = MvPolynomial.eval (gaussPoint q) (shape j))
    (hJ : ∀ K ∈ mesh, ∀ q, 0 < K.JxW q) (e : ℕ → ℝ) (h : integralAbs mesh e = 0 ∨ integralSq mesh e = 0) :
    ∀ K ∈ mesh, ∑ j, MvPolynomial.C (e (K.dofs j)) * shape j = 0 := by
  have hz : ∀ K ∈ mesh, ∀ q, K.eval e q = 0 := by
    rcases h with h | h
    · unfold integralAbs at h
      intro K hK q
      have h0 := List.all_zero_of_le_zero_le_of_sum_eq_zero (l := mesh.map fun K => ∑ q, |K.eval e q| * K.JxW q) (by
        intro x hx
        obtain ⟨K', hK', rfl⟩ := List.mem_map.mp hx
        exact Finset.sum_nonneg fun q _ => mul_nonneg (abs_nonneg _) (hJ K' hK' q).le) h
        (List.mem_map.mpr ⟨K, hK, rfl⟩)
      rw [Finset.sum_eq_zero_iff_of_nonneg fun q _ => mul_nonneg (abs_nonneg _) (hJ K hK q).le] at h0
      have := h0 q (Finset.mem_univ _)
      rcases mul_eq_zero.mp this with h1 | h1
      · exact abs_eq_zero.mp h1
      · exact absurd h1 (hJ K hK q).ne'
    · unfold integralSq at h
      intro K hK q
      have h0 := List.all_zero_of_le_zero_le_of_sum_eq_zero (l := mesh.map fun K => ∑ q, K.eval e q ^ 2 * K.JxW q) (by
        intro x hx
        obtain ⟨K', hK', rfl⟩ := List.mem_map.mp hx
        exact Finset.sum_nonneg fun q _ => mul_nonneg (sq_nonneg _) (hJ K' hK' q).le) h
        (List.mem_map.mpr ⟨K, hK, rfl⟩)
      rw [Finset.sum_eq_zero_iff_of_nonneg fun q _ => mul_nonneg (sq_nonneg _) (hJ K hK q).le] at h0
      have := h0 q (Finset.mem_univ _)
      rcases mul_eq_zero.mp this with h1 | h1
      · exact pow_eq_zero_iff two_ne_zero |>.mp h1
      · exact absurd h1 (hJ K hK q).ne'
  intro K hK
  refine MvPolynomial.eq_zero_of_eval_zero_at_prod_finset _ (fun _ => Finset.univ.image gaussNode) ?_ ?_
  · intro d
    rw [Finset.card_image_of_injective _ gaussNode_injective, Finset.card_univ, Fintype.card_fin]
    refine lt_of_le_of_lt (MvPolynomial.degreeOf_sum_le _ _ _) ?_
    rw [Finset.sup_lt_iff (by norm_num)]
    intro j _
    exact lt_of_le_of_lt ((MvPolynomial.degreeOf_C_mul_le _ _ _).trans (hdeg j d)) (by norm_num)
  · intro x hx
    choose q hq using fun d => Finset.mem_image.mp (hx d)
    have hxq : x = gaussPoint q := by funext d; exact (hq d).2.symm
    have := hz K hK q
    unfold Cell.eval at this
    rw [map_sum, hxq, ← this]
    refine Finset.sum_congr rfl fun j _ => ?_
    rw [map_mul, MvPolynomial.eval_C, hval K hK]

/-- The moments of the one-dimensional formula. -/
theorem gauss_moment {k : ℕ} (hk : k ≤ 5) : ∑ i, gaussWeight i * gaussNode i ^ k = 1 / ((k : ℝ) + 1) := by
  have h : Real.sqrt (3 / 5) ^ 2 = 3 / 5 := Real.sq_sqrt (by norm_num)
  rw [Fin.sum_univ_three]
  show 5 / 18 * ((1 - Real.sqrt (3 / 5)) / 2) ^ k + 8 / 18 * (1 / 2) ^ k + 5 / 18 * ((1 + Real.sqrt (3 / 5)) / 2) ^ k = _
  generalize Real.sqrt (3 / 5) = r at *
  have h4 : r ^ 4 = 9 / 25 := by
    have : r ^ 4 = (r ^ 2) ^ 2 := by ring
    rw [this, h]; norm_num
  interval_cases k
  · norm_num
  · push_cast; ring
  · push_cast; linear_combination 5 / 36 * h
  · push_cast; linear_combination 5 / 24 * h
  · push_cast; linear_combination 5 / 24 * h + 5 / 144 * h4
  · push_cast; linear_combination 25 / 144 * h + 25 / 288 * h4

theorem integral_cube_prod {dim : ℕ} (m : Fin dim → ℕ) :
    ∫ x in Set.pi Set.univ fun _ : Fin dim => Set.Icc (0 : ℝ) 1, ∏ d, x d ^ m d = ∏ d, 1 / ((m d : ℝ) + 1) := by
  rw [MeasureTheory.volume_pi, MeasureTheory.Measure.restrict_pi_pi,
    MeasureTheory.integral_fintype_prod_eq_prod (fun d (x : ℝ) => x ^ m d)]
  refine Finset.prod_congr rfl fun d _ => ?_
  rw [MeasureTheory.integral_Icc_eq_integral_Ioc, ← intervalIntegral.integral_of_le zero_le_one, integral_pow]
  simp

/-- C101: the quadrature formula is exact for all polynomials of degree at most five in every variable on the reference
cell. -/
theorem C101_quadrature {dim : ℕ} (p : MvPolynomial (Fin dim) ℝ) (hp : ∀ d, p.degreeOf d ≤ 5) :
    ∑ q : Fin dim → Fin 3, MvPolynomial.eval (gaussPoint q) p * gaussProduct q =
      ∫ x in Set.pi Set.univ fun _ : Fin dim => Set.Icc (0 : ℝ) 1, MvPolynomial.eval x p := by
  have hint : ∀ m : Fin dim →₀ ℕ, MeasureTheory.IntegrableOn (fun x : Fin dim → ℝ => p.coeff m * ∏ d, x d ^ m d)
      (Set.pi Set.univ fun _ : Fin dim => Set.Icc (0 : ℝ) 1) := by
    intro m
    refine ContinuousOn.integrableOn_compact (isCompact_univ_pi fun _ => isCompact_Icc) ?_
    fun_prop
  have hR : ∫ x in Set.pi Set.univ fun _ : Fin dim => Set.Icc (0 : ℝ) 1, MvPolynomial.eval x p =
      ∑ m ∈ p.support, p.coeff m * ∏ d, 1 / ((m d : ℝ) + 1) := by
    simp only [MvPolynomial.eval_eq']
    rw [MeasureTheory.integral_finsetSum _ fun m _ => hint m]
    refine Finset.sum_congr rfl fun m _ => ?_
    rw [MeasureTheory.integral_const_mul, integral_cube_prod fun d => m d]
  rw [hR]
  simp only [MvPolynomial.eval_eq', Finset.sum_mul]
  rw [Finset.sum_comm]
  refine Finset.sum_congr rfl fun m hm => ?_
  have hm5 : ∀ d, m d ≤ 5 := fun d => (MvPolynomial.monomial_le_degreeOf d hm).trans (hp d)
  have : ∀ q : Fin dim → Fin 3, p.coeff m * (∏ d, gaussPoint q d ^ m d) * gaussProduct q =
      p.coeff m * ∏ d, (gaussWeight (q d) * gaussNode (q d) ^ m d) := by
    intro q
    unfold gaussPoint gaussProduct
    rw [Finset.prod_mul_distrib]
    ring
  simp only [this]
  rw [← Finset.mul_sum]
  congr 1
  have hprod := Finset.prod_univ_sum (fun _ : Fin dim => (Finset.univ : Finset (Fin 3)))
    (fun d k => gaussWeight k * gaussNode k ^ m d)
  rw [Fintype.piFinset_univ] at hprod
  rw [← hprod]
  exact Finset.prod_congr rfl fun d _ => gauss_moment (hm5 d)

/-- C101: for elements of degree at most two on parallelepipeds the `L2` error is the exact norm: the sum over the cells of
the integral over the reference cell times the volume of the cell. -/
theorem C101_l2_exact {s dim : ℕ} {mesh : List (Cell s (Fin dim → Fin 3))} (shape : Fin s → MvPolynomial (Fin dim) ℝ)
    (hdeg : ∀ j d, (shape j).degreeOf d ≤ 2) (volume : Cell s (Fin dim → Fin 3) → ℝ)
    (hval : ∀ K ∈ mesh, ∀ q j, K.value q j = MvPolynomial.eval (gaussPoint q) (shape j))
    (hJ : ∀ K ∈ mesh, ∀ q, K.JxW q = volume K * gaussProduct q) (e : ℕ → ℝ) :
    integralSq mesh e = (mesh.map fun K => volume K *
      ∫ x in Set.pi Set.univ fun _ : Fin dim => Set.Icc (0 : ℝ) 1,
        (∑ j, e (K.dofs j) * MvPolynomial.eval x (shape j)) ^ 2).sum := by
  unfold integralSq
  refine congrArg List.sum (List.map_congr_left fun K hK => ?_)
  have hp : ∀ d, ((∑ j, MvPolynomial.C (e (K.dofs j)) * shape j) ^ 2).degreeOf d ≤ 5 := by
    intro d
    refine (MvPolynomial.degreeOf_pow_le _ _ _).trans ?_
    have : (∑ j, MvPolynomial.C (e (K.dofs j)) * shape j).degreeOf d ≤ 2 := by
      refine (MvPolynomial.degreeOf_sum_le _ _ _).trans ?_
      rw [Finset.sup_le_iff]
      intro j _
      exact (MvPolynomial.degreeOf_C_mul_le _ _ _).trans (hdeg j d)
    omega
  have hev : ∀ x : Fin dim → ℝ, MvPolynomial.eval x ((∑ j, MvPolynomial.C (e (K.dofs j)) * shape j) ^ 2) =
      (∑ j, e (K.dofs j) * MvPolynomial.eval x (shape j)) ^ 2 := by
    intro x
    rw [map_pow, map_sum]
    simp only [map_mul, MvPolynomial.eval_C]
  have := C101_quadrature _ hp
  simp only [hev] at this
  rw [← this, Finset.mul_sum]
  refine Finset.sum_congr rfl fun q _ => ?_
  rw [hJ K hK, Cell.eval]
  simp only [hval K hK]
  ring

/-! ### Cubic elements -/

/-- The third Legendre polynomial on `[0, 1]`, times two. -/
def legendre3 (x : ℝ) : ℝ := 5 * (2 * x - 1) ^ 3 - 3 * (2 * x - 1)

theorem legendre3_gauss (k : Fin 3) : legendre3 (gaussNode k) = 0 := by
  have h : Real.sqrt (3 / 5) ^ 2 = 3 / 5 := Real.sq_sqrt (by norm_num)
  have h0 : legendre3 ((1 - Real.sqrt (3 / 5)) / 2) = 0 ∧ legendre3 (1 / 2) = 0 ∧
      legendre3 ((1 + Real.sqrt (3 / 5)) / 2) = 0 := by
    generalize Real.sqrt (3 / 5) = r at *
    unfold legendre3
    refine ⟨by linear_combination -5 * r * h, by norm_num, by linear_combination 5 * r * h⟩
  fin_cases k
  · exact h0.1
  · exact h0.2.1
  · exact h0.2.2

/-- The `k`-th cell of a one-dimensional mesh with continuous cubic elements: Lagrange polynomials of the four nodes. -/
def cubicCell (node : Fin 4 → ℝ) (h : ℝ) (k : ℕ) : Cell 4 (Fin 3) where
  dofs := fun j => 3 * k + j
  value := fun q j => (Lagrange.basis Finset.univ node j).eval (gaussNode q)
  JxW := fun q => h * gaussWeight q

/-- The error: the third Legendre polynomial with alternating signs. -/
def cubicError (node : Fin 4 → ℝ) (i : ℕ) : ℝ := (-1) ^ (i / 3) * legendre3 (node (Fin.ofNat 4 (i % 3)))

/-- C101: for cubic elements the quadrature formula is too weak: on every uniform mesh of an interval, with the usual nodes,
there is a continuous error function, of amplitude two in every vertex, whose `L1` and `L2` norms are reported as zero. -/
theorem C101_cubic_violation (node : Fin 4 → ℝ) (hn : Function.Injective node) (h0 : node 0 = 0) (h3 : node 3 = 1)
    (h : ℝ) (N : ℕ) :
    integralAbs ((List.range N).map (cubicCell node h)) (cubicError node) = 0 ∧
    integralSq ((List.range N).map (cubicCell node h)) (cubicError node) = 0 ∧
    ∀ k, |cubicError node (3 * k)| = 2 := by
  have hdof : ∀ k (j : Fin 4), cubicError node ((cubicCell node h k).dofs j) = (-1) ^ k * legendre3 (node j) := by
    intro k j
    show cubicError node (3 * k + j) = _
    unfold cubicError
    fin_cases j
    · have e1 : (3 * k + 0) / 3 = k := by omega
      have e2 : (3 * k + 0) % 3 = 0 := by omega
      show (-1 : ℝ) ^ ((3 * k + 0) / 3) * legendre3 (node (Fin.ofNat 4 ((3 * k + 0) % 3))) = (-1) ^ k * legendre3 (node 0)
      rw [e1, e2]; rfl
    · have e1 : (3 * k + 1) / 3 = k := by omega
      have e2 : (3 * k + 1) % 3 = 1 := by omega
      show (-1 : ℝ) ^ ((3 * k + 1) / 3) * legendre3 (node (Fin.ofNat 4 ((3 * k + 1) % 3))) = (-1) ^ k * legendre3 (node 1)
      rw [e1, e2]; rfl
    · have e1 : (3 * k + 2) / 3 = k := by omega
      have e2 : (3 * k + 2) % 3 = 2 := by omega
      show (-1 : ℝ) ^ ((3 * k + 2) / 3) * legendre3 (node (Fin.ofNat 4 ((3 * k + 2) % 3))) = (-1) ^ k * legendre3 (node 2)
      rw [e1, e2]; rfl
    · have e1 : (3 * k + 3) / 3 = k + 1 := by omega
      have e2 : (3 * k + 3) % 3 = 0 := by omega
      show (-1 : ℝ) ^ ((3 * k + 3) / 3) * legendre3 (node (Fin.ofNat 4 ((3 * k + 3) % 3))) = (-1) ^ k * legendre3 (node 3)
      rw [e1, e2, h3]
      show (-1 : ℝ) ^ (k + 1) * legendre3 (node 0) = _
      rw [h0, pow_succ]
      unfold legendre3
      ring
  have heval : ∀ k q, (cubicCell node h k).eval (cubicError node) q = 0 := by
    intro k q
    unfold Cell.eval
    simp only [hdof]
    let P : Polynomial ℝ := Polynomial.C 5 * (Polynomial.C 2 * Polynomial.X - Polynomial.C 1) ^ 3 -
      Polynomial.C 3 * (Polynomial.C 2 * Polynomial.X - Polynomial.C 1)
    have hPe : ∀ x, P.eval x = legendre3 x := by
      intro x
      simp [P, legendre3]
    have hdeg : P.degree < (Finset.univ : Finset (Fin 4)).card := by
      have hl : (Polynomial.C (2 : ℝ) * Polynomial.X - Polynomial.C 1).natDegree ≤ 1 := by
        compute_degree
      have hnd : P.natDegree ≤ 3 := by
        refine (Polynomial.natDegree_sub_le _ _).trans (max_le ?_ ?_)
        · refine (Polynomial.natDegree_C_mul_le _ _).trans ((Polynomial.natDegree_pow_le).trans ?_)
          omega
        · exact (Polynomial.natDegree_C_mul_le _ _).trans (hl.trans (by norm_num))
      refine lt_of_le_of_lt Polynomial.degree_le_natDegree ?_
      simp only [Finset.card_univ, Fintype.card_fin]
      exact_mod_cast Nat.lt_succ_of_le hnd
    have hint := Lagrange.eq_interpolate (s := Finset.univ) (v := node) hn.injOn hdeg
    have := congrArg (Polynomial.eval (gaussNode q)) hint
    rw [hPe, legendre3_gauss, Lagrange.interpolate_apply, Polynomial.eval_finsetSum] at this
    have e : ∑ j, (-1 : ℝ) ^ k * legendre3 (node j) * (cubicCell node h k).value q j =
        (-1) ^ k * ∑ j, (Polynomial.C (P.eval (node j)) * Lagrange.basis Finset.univ node j).eval (gaussNode q) := by
      rw [Finset.mul_sum]
      refine Finset.sum_congr rfl fun j _ => ?_
      rw [Polynomial.eval_mul, Polynomial.eval_C, hPe, mul_assoc]
      rfl
    rw [e, ← this, mul_zero]
  refine ⟨?_, ?_, ?_⟩
  · unfold integralAbs
    rw [List.map_map]
    refine List.sum_eq_zero fun x hx => ?_
    obtain ⟨k, _, rfl⟩ := List.mem_map.mp hx
    simp [Function.comp, heval]
  · unfold integralSq
    rw [List.map_map]
    refine List.sum_eq_zero fun x hx => ?_
    obtain ⟨k, _, rfl⟩ := List.mem_map.mp hx
    simp [Function.comp, heval]
  · intro k
    have := hdof k 0
    have h' : cubicError node (3 * k) = (-1) ^ k * legendre3 (node 0) := this
    rw [h', h0, abs_mul, abs_pow, abs_neg, abs_one, one_pow, one_mul]
    unfold legendre3
    norm_num

/-! ### The hypotheses are satisfiable -/

/-- One linear element on an interval of length two. -/
def linearCell : Cell 2 (Fin 1 → Fin 3) where
  dofs := fun j => j
  value := fun q j => MvPolynomial.eval (gaussPoint q) ((![1 - MvPolynomial.X 0, MvPolynomial.X 0] : Fin 2 → MvPolynomial (Fin 1) ℝ) j)
  JxW := fun q => 2 * gaussProduct q

example : Partition [⟨[0], [(linearCell, true)]⟩, ⟨[1], [(linearCell, false)]⟩] [0, 1] [linearCell] ∧
    Partition [⟨[1, 0], [(linearCell, true)]⟩] [0, 1] [linearCell] ∧ (∀ q, 0 < linearCell.JxW q) := by
  refine ⟨⟨?_, ?_⟩, ⟨?_, ?_⟩, ?_⟩
  · simp
  · simp
  · exact List.Perm.swap _ _ _
  · simp
  · intro q
    show 0 < 2 * gaussProduct q
    exact mul_pos two_pos (Finset.prod_pos fun d _ => gaussWeight_pos _)

example (j : Fin 2) (d : Fin 1) :
    ((![1 - MvPolynomial.X 0, MvPolynomial.X 0] : Fin 2 → MvPolynomial (Fin 1) ℝ) j).degreeOf d ≤ 2 ∧
    ∀ q, linearCell.JxW q = 2 * gaussProduct q := by
  refine ⟨?_, fun _ => rfl⟩
  have hX : (MvPolynomial.X 0 : MvPolynomial (Fin 1) ℝ).degreeOf d ≤ 2 := by
    rw [MvPolynomial.degreeOf_X]; split <;> norm_num
  fin_cases j
  · refine (MvPolynomial.degreeOf_sub_le _ _ _).trans (max_le ?_ hX)
    rw [show (1 : MvPolynomial (Fin 1) ℝ) = MvPolynomial.C 1 from rfl, MvPolynomial.degreeOf_C]
    norm_num
  · exact hX

/-- The transversal momentum of a flow in the first direction. -/
example : computeError ([] : List (Rank 2 (Fin 1 → Fin 3))) (fun _ => none) ["rho", "m_1", "m_2", "E"] ["rho", "m_2"] true
    (fun _ _ => 1) (fun k _ => if k = 2 then 0 else 1) = .ok ⟨none, none, none⟩ := by
  refine C101_vanishing_component_violation _ _ _ _ _ _ ?_ (q := "m_2") (by simp) ?_
  · intro q hq
    simp only [List.mem_cons, List.not_mem_nil, or_false] at hq
    rcases hq with rfl | rfl <;> simp
  · funext i
    have : List.idxOf "m_2" ["rho", "m_1", "m_2", "E"] = 2 := by decide
    rw [this]; rfl

end

end ErrorNorms
end Ryujin
