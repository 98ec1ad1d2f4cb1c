import Verif.Spec.Assembly
import Mathlib.Algebra.BigOperators.Ring.Finset
import Mathlib.Algebra.BigOperators.Field
import Mathlib.Tactic.LinearCombination
import Mathlib.Tactic.Linarith

/-!
# The assembled matrices as integrals of the global basis functions
-/

namespace Ryujin
namespace Assembly

noncomputable section

open Classical

variable {κ : Type} {n s nq nf nfq nn dim : ℕ} {F : FeData κ n s nq nf nfq nn dim}

/-- Distributing a quadrature sum of products gives the quadrature sum of the products of the global functions. -/
theorem distribute_sum {r : ℕ} (rows cols : Fin s → Fin n) (a b : Fin r → Fin s → ℝ) (w : Fin r → ℝ) (k l : Fin n) :
    distribute F rows cols (fun i j => ∑ q, w q * (a q i * b q j)) k l =
      ∑ q, w q * ((∑ i, expand F (rows i) k * a q i) * ∑ j, expand F (cols j) l * b q j) := by
  unfold distribute
  simp only [Finset.mul_sum, Finset.sum_mul]
  have h1 : ∀ i, ∑ j, ∑ q, expand F (rows i) k * (w q * (a q i * b q j)) * expand F (cols j) l =
      ∑ q, ∑ j, expand F (rows i) k * (w q * (a q i * b q j)) * expand F (cols j) l := fun i => Finset.sum_comm
  simp only [h1]
  rw [Finset.sum_comm]
  refine Finset.sum_congr rfl fun q _ => ?_
  rw [Finset.sum_comm]
  refine Finset.sum_congr rfl fun j _ => Finset.sum_congr rfl fun i _ => ?_
  ring

theorem distribute_congr {rows cols : Fin s → Fin n} {g h : Fin s → Fin s → ℝ} (e : ∀ i j, g i j = h i j) (k l : Fin n) :
    distribute F rows cols g k l = distribute F rows cols h k l := by
  have : g = h := funext fun i => funext fun j => e i j
  rw [this]

theorem distribute_sub (rows cols : Fin s → Fin n) (g h : Fin s → Fin s → ℝ) (k l : Fin n) :
    distribute F rows cols (fun i j => g i j - h i j) k l = distribute F rows cols g k l - distribute F rows cols h k l := by
  unfold distribute
  simp only [← Finset.sum_sub_distrib]
  refine Finset.sum_congr rfl fun i _ => Finset.sum_congr rfl fun j _ => ?_
  ring

theorem distribute_finsum {r : ℕ} (rows cols : Fin s → Fin n) (g : Fin r → Fin s → Fin s → ℝ) (k l : Fin n) :
    distribute F rows cols (fun i j => ∑ f, g f i j) k l = ∑ f, distribute F rows cols (g f) k l := by
  unfold distribute
  simp only [Finset.mul_sum, Finset.sum_mul]
  have h1 : ∀ i, ∑ j, ∑ f, expand F (rows i) k * g f i j * expand F (cols j) l =
      ∑ f, ∑ j, expand F (rows i) k * g f i j * expand F (cols j) l := fun i => Finset.sum_comm
  simp only [h1]
  rw [Finset.sum_comm]

theorem distribute_zero (rows cols : Fin s → Fin n) (k l : Fin n) :
    distribute F rows cols (fun _ _ => 0) k l = 0 := by
  unfold distribute; simp

/-- The mass matrix. -/
theorem massMatrix_eq [Fintype κ] {k : Fin n} (hk : ¬ F.constrained k) (l : Fin n) :
    massMatrix F k l = ∑ K, ∑ q, F.JxW K q * (basis F k K q * basis F l K q) := by
  unfold massMatrix
  rw [if_neg (fun h => hk h.1), add_zero]
  refine Finset.sum_congr rfl fun K _ => ?_
  rw [distribute_congr (h := fun i j => ∑ q, F.JxW K q * (F.value K q i * F.value K q j)), distribute_sum]
  · rfl
  · intro i j; unfold cellMass
    exact Finset.sum_congr rfl fun q _ => by ring

/-- The part of the interior faces of `c_kl`. -/
def faceTerm (F : FeData κ n s nq nf nfq nn dim) (k l : Fin n) (K : κ) (f : Fin nf) : Vec dim := fun d =>
  match F.neighbor K f with
  | none => 0
  | some (K', f') => ∑ q, F.faceJxW K f q * ((1 / 2) * F.normal K f q d * basisTrace F k K f q *
      (basisTrace F l K' f' q - basisTrace F l K f q))

theorem distribute_faceC (k l : Fin n) (K : κ) (f : Fin nf) (d : Fin dim) :
    distribute F (F.dofs K) (F.dofs K) (fun i j => faceC F K f i j d) k l =
      if (F.neighbor K f).isSome then ∑ q, F.faceJxW K f q * ((1 / 2) * F.normal K f q d * basisTrace F k K f q *
        basisTrace F l K f q) else 0 := by
  unfold faceC
  by_cases h : (F.neighbor K f).isSome = true
  · simp only [h, if_true]
    rw [distribute_congr (h := fun i j => ∑ q, (F.faceJxW K f q * ((1 / 2) * F.normal K f q d)) *
      (F.faceValue K f q i * F.faceValue K f q j)), distribute_sum]
    · exact Finset.sum_congr rfl fun q _ => by unfold basisTrace; ring
    · intro i j; exact Finset.sum_congr rfl fun q _ => by ring
  · simp only [h]
    exact distribute_zero _ _ k l

theorem interfaceTerm_C (k l : Fin n) (K : κ) (f : Fin nf) (d : Fin dim) :
    interfaceTerm F (fun K f i j => interfaceC F K f i j d) K f k l =
      match F.neighbor K f with
      | none => 0
      | some (K', f') => ∑ q, F.faceJxW K f q * ((1 / 2) * F.normal K f q d * basisTrace F k K f q *
        basisTrace F l K' f' q) := by
  unfold interfaceTerm interfaceC
  rcases hn : F.neighbor K f with _ | ⟨K', f'⟩
  · rfl
  · simp only [hn]
    rw [distribute_congr (h := fun i j => ∑ q, (F.faceJxW K f q * ((1 / 2) * F.normal K f q d)) *
      (F.faceValue K f q i * F.faceValue K' f' q j)), distribute_sum]
    · exact Finset.sum_congr rfl fun q _ => by unfold basisTrace; ring
    · intro i j; exact Finset.sum_congr rfl fun q _ => by ring

/-- The matrix `c_kl`. -/
theorem cMatrix_eq [Fintype κ] (k l : Fin n) (d : Fin dim) :
    cMatrix F k l d = (∑ K, ∑ q, F.JxW K q * (basis F k K q * basisGrad F l K q d)) +
      if F.dG then ∑ K, ∑ f, faceTerm F k l K f d else 0 := by
  unfold cMatrix cellC
  have hvol : ∀ K, distribute F (F.dofs K) (F.dofs K)
      (fun i j => ∑ q, F.value K q i * (F.grad K q j d * F.JxW K q)) k l =
      ∑ q, F.JxW K q * (basis F k K q * basisGrad F l K q d) := by
    intro K
    rw [distribute_congr (h := fun i j => ∑ q, F.JxW K q * (F.value K q i * F.grad K q j d)), distribute_sum]
    · rfl
    · intro i j; exact Finset.sum_congr rfl fun q _ => by ring
  by_cases hd : F.dG = true
  · simp only [hd, if_true]
    simp only [distribute_sub, hvol, distribute_finsum, distribute_faceC, interfaceTerm_C, Finset.sum_sub_distrib]
    rw [sub_add, sub_eq_add_neg, neg_sub, ← Finset.sum_sub_distrib]
    congr 1
    refine Finset.sum_congr rfl fun K _ => ?_
    rw [← Finset.sum_sub_distrib]
    refine Finset.sum_congr rfl fun f _ => ?_
    unfold faceTerm
    rcases hn : F.neighbor K f with _ | ⟨K', f'⟩
    · simp
    · simp only [Option.isSome_some, if_true]
      rw [← Finset.sum_sub_distrib]
      exact Finset.sum_congr rfl fun q _ => by ring
  · have hd' : F.dG = false := by simpa using hd
    simp only [hd', Bool.false_eq_true, if_false, sub_zero, hvol]

/-! ### Partition of unity -/

/-- One in the unconstrained degrees of freedom. -/
def ones (F : FeData κ n s nq nf nfq nn dim) (l : Fin n) : ℝ := if F.constrained l then 0 else 1

/-- A vector that vanishes in the constrained degrees of freedom, resolved. -/
theorem sum_expand (i : Fin n) (X : Fin n → ℝ) (hX : ∀ i, F.constrained i → X i = ∑ k, F.coef i k * X k)
    (hc : ∀ i k, F.constrained i → F.constrained k → F.coef i k = 0) :
    ∑ l, expand F i l * (if F.constrained l then 0 else X l) = X i := by
  unfold expand
  by_cases hi : F.constrained i
  · rw [hX i hi]
    refine Finset.sum_congr rfl fun l _ => ?_
    rw [if_pos hi]
    by_cases hl : F.constrained l
    · rw [if_pos hl, hc i l hi hl]; ring
    · rw [if_neg hl]
  · rw [Finset.sum_eq_single i]
    · rw [if_neg hi, if_pos rfl, if_neg hi, one_mul]
    · intro l _ hl
      rw [if_neg hi, if_neg (fun h => hl h.symm), zero_mul]
    · intro h; exact absurd (Finset.mem_univ _) h

theorem sum_expand_ones (hF : F.Consistent) (i : Fin n) : ∑ l, expand F i l * ones F l = 1 := by
  have := sum_expand (F := F) i (fun _ => 1) (fun i hi => by simp [hF.coefUnity i hi]) hF.closed
  simpa [ones] using this

theorem sum_comb (c : Fin n → ℝ) (a : Fin s → ℝ) (dofs : Fin s → Fin n) :
    ∑ l, (∑ i, expand F (dofs i) l * a i) * c l = ∑ i, a i * ∑ l, expand F (dofs i) l * c l := by
  simp only [Finset.sum_mul, Finset.mul_sum]
  rw [Finset.sum_comm]
  exact Finset.sum_congr rfl fun i _ => Finset.sum_congr rfl fun l _ => by ring

theorem basis_unity (hF : F.Consistent) (K : κ) (q : Fin nq) : ∑ l, basis F l K q * ones F l = 1 := by
  unfold basis
  rw [sum_comb]
  simp only [sum_expand_ones hF, mul_one, hF.unity]

theorem basisGrad_unity (hF : F.Consistent) (K : κ) (q : Fin nq) (d : Fin dim) :
    ∑ l, basisGrad F l K q d * ones F l = 0 := by
  unfold basisGrad
  rw [sum_comb]
  simp only [sum_expand_ones hF, mul_one, hF.gradUnity]

theorem basisTrace_unity (hF : F.Consistent) (K : κ) (f : Fin nf) (q : Fin nfq) :
    ∑ l, basisTrace F l K f q * ones F l = 1 := by
  unfold basisTrace
  rw [sum_comb]
  simp only [sum_expand_ones hF, mul_one, hF.faceUnity]

theorem lumped_eq [Fintype κ] (hF : F.Consistent) {k : Fin n} (hk : ¬ F.constrained k) :
    lumpedMass F k = ∑ K, ∑ q, F.JxW K q * basis F k K q := by
  have h0 : lumpedMass F k = ∑ l, massMatrix F k l * ones F l := rfl
  rw [h0]
  simp only [massMatrix_eq hk, Finset.sum_mul]
  rw [Finset.sum_comm]
  refine Finset.sum_congr rfl fun K _ => ?_
  rw [Finset.sum_comm]
  refine Finset.sum_congr rfl fun q _ => ?_
  have : ∀ l, F.JxW K q * (basis F k K q * basis F l K q) * ones F l =
      F.JxW K q * basis F k K q * (basis F l K q * ones F l) := fun l => by ring
  simp only [this, ← Finset.mul_sum, basis_unity hF, mul_one]

/-- A constrained degree of freedom has no basis function. -/
theorem expand_constrained (hF : F.Consistent) {k : Fin n} (hk : F.constrained k) (i : Fin n) : expand F i k = 0 := by
  unfold expand
  by_cases hi : F.constrained i
  · rw [if_pos hi, hF.closed i k hi hk]
  · rw [if_neg hi, if_neg (fun h : i = k => hi (h ▸ hk))]

theorem lumped_constrained [Fintype κ] (hF : F.Consistent) {k : Fin n} (hk : F.constrained k) : lumpedMass F k = 0 := by
  unfold lumpedMass
  refine Finset.sum_eq_zero fun l _ => ?_
  by_cases hl : F.constrained l
  · rw [if_pos hl, mul_zero]
  · rw [if_neg hl, mul_one]
    unfold massMatrix distribute
    rw [if_neg (fun h : F.constrained k ∧ k = l => hl (h.2 ▸ h.1)), add_zero]
    exact Finset.sum_eq_zero fun K _ => Finset.sum_eq_zero fun i _ => Finset.sum_eq_zero fun j _ => by
      rw [expand_constrained hF hk]; ring

/-! ### Weighted row sums of `c` -/

/-- Row `k` of `c` applied to a vector. -/
theorem cMatrix_apply [Fintype κ] (k : Fin n) (d : Fin dim) (x : Fin n → ℝ) :
    ∑ l, cMatrix F k l d * x l =
      (∑ K, ∑ q, F.JxW K q * (basis F k K q * ∑ l, basisGrad F l K q d * x l)) +
      if F.dG then ∑ K, ∑ f, (match F.neighbor K f with
        | none => 0
        | some (K', f') => ∑ q, F.faceJxW K f q * ((1 / 2) * F.normal K f q d * basisTrace F k K f q *
          ((∑ l, basisTrace F l K' f' q * x l) - ∑ l, basisTrace F l K f q * x l))) else 0 := by
  simp only [cMatrix_eq, add_mul, Finset.sum_add_distrib]
  congr 1
  · simp only [Finset.sum_mul, Finset.mul_sum]
    rw [Finset.sum_comm]
    refine Finset.sum_congr rfl fun K _ => ?_
    rw [Finset.sum_comm]
    exact Finset.sum_congr rfl fun q _ => Finset.sum_congr rfl fun l _ => by ring
  · by_cases hd : F.dG = true
    · simp only [hd, if_true, Finset.sum_mul]
      rw [Finset.sum_comm]
      refine Finset.sum_congr rfl fun K _ => ?_
      rw [Finset.sum_comm]
      refine Finset.sum_congr rfl fun f _ => ?_
      unfold faceTerm
      rcases hn : F.neighbor K f with _ | ⟨K', f'⟩
      · simp
      · simp only [Finset.sum_mul, ← Finset.sum_sub_distrib, Finset.mul_sum]
        rw [Finset.sum_comm]
        exact Finset.sum_congr rfl fun q _ => Finset.sum_congr rfl fun l _ => by ring
    · simp [hd]

end

end Assembly
end Ryujin
