import Verif.Proofs.Assembly
import Verif.Props.HyperbolicStep
import Mathlib.Logic.Equiv.Basic
import Mathlib.Tactic.FinCases
import Mathlib.Tactic.NormNum

/-!
# C87: the assembled matrices

The consistency checks of the debug build (offline_data.template.h:1002-1103), proved for every mesh: total mass, row
sums, symmetry of the mass matrix, skew symmetry of `c_ij` away from the boundary; in addition exactness for linear
functions, completeness of the stencil, the inverse mass matrix and the incidence matrix of the discontinuous ansatz.
-/

namespace Ryujin
namespace Assembly

open Classical

variable {κ : Type} {n s nq nf nfq nn dim : ℕ} {F : FeData κ n s nq nf nfq nn dim}

/-! ### Sums over rows and faces -/

/-- Sums over unconstrained degrees of freedom. -/
theorem sum_dof (g : Fin n → ℝ) : ∑ k : Dof F, g k = ∑ k, g k * ones F k := by
  rw [← Finset.sum_subtype (Finset.univ.filter fun k => ¬ F.constrained k) (by simp) g, Finset.sum_filter]
  refine Finset.sum_congr rfl fun k _ => ?_
  unfold ones
  by_cases h : F.constrained k <;> simp [h]

theorem mem_stencil {k l : Dof F} : l ∈ stencil F k ↔ l ≠ k ∧ inPattern F k l := by
  unfold stencil; simp

/-- Diagonal plus stencil is the complete row. -/
theorem stencil_sum (k : Dof F) (g : Fin n → ℝ) (hg : ∀ l : Dof F, l ≠ k → ¬ inPattern F k l → g l = 0) :
    g k + ((stencil F k).map fun l : Dof F => g l).sum = ∑ l, g l * ones F l := by
  rw [← sum_dof]
  unfold stencil
  rw [Finset.sum_map_toList, ← Finset.add_sum_erase Finset.univ (fun l : Dof F => g l) (Finset.mem_univ k)]
  congr 1
  refine Finset.sum_subset_zero_on_sdiff ?_ ?_ fun _ _ => rfl
  · intro l hl
    simp only [Finset.mem_filter, Finset.mem_univ, true_and] at hl
    exact Finset.mem_erase.2 ⟨hl.1, Finset.mem_univ _⟩
  · intro l hl
    simp only [Finset.mem_sdiff, Finset.mem_erase, Finset.mem_filter, Finset.mem_univ, and_true, true_and,
      not_and] at hl
    exact hg l hl.1 (hl.2 hl.1)

/-- Visiting the interior faces from the other side. -/
theorem sum_faces [Fintype κ] (hback : ∀ K f K' f', F.neighbor K f = some (K', f') → F.neighbor K' f' = some (K, f))
    (g h : κ → Fin nf → ℝ) (h0 : ∀ K f, F.neighbor K f = none → h K f = g K f)
    (h1 : ∀ K f K' f', F.neighbor K f = some (K', f') → h K' f' = g K f) :
    ∑ K, ∑ f, h K f = ∑ K, ∑ f, g K f := by
  let σ : κ × Fin nf → κ × Fin nf := fun x => (F.neighbor x.1 x.2).getD x
  have hσ : Function.Involutive σ := by
    intro x
    rcases hx : F.neighbor x.1 x.2 with _ | y
    · simp [σ, hx]
    · have := hback x.1 x.2 y.1 y.2 hx
      simp [σ, hx, this]
  rw [← Fintype.sum_prod_type', ← Fintype.sum_prod_type', ← Equiv.sum_comp hσ.toPerm]
  refine Finset.sum_congr rfl fun x _ => ?_
  show h (σ x).1 (σ x).2 = g x.1 x.2
  rcases hx : F.neighbor x.1 x.2 with _ | y
  · simp only [σ, hx, Option.getD_none]; exact h0 _ _ hx
  · simp only [σ, hx, Option.getD_some]; exact h1 _ _ _ _ hx

/-! ### The stencil is complete -/

theorem distribute_eq_zero {rows cols : Fin s → Fin n} {loc : Fin s → Fin s → ℝ} {R C : Fin s → Prop} {k l : Fin n}
    (hl : ∀ i j, ¬ R i ∨ ¬ C j → loc i j = 0) (h : ¬ couples F rows cols R C k l) :
    distribute F rows cols loc k l = 0 := by
  unfold distribute
  refine Finset.sum_eq_zero fun i _ => Finset.sum_eq_zero fun j _ => ?_
  by_cases hi : R i
  · by_cases hj : C j
    · by_cases h1 : expand F (rows i) k = 0
      · rw [h1]; ring
      · by_cases h2 : expand F (cols j) l = 0
        · rw [h2]; ring
        · exact absurd ⟨i, j, hi, hj, h1, h2⟩ h
    · rw [hl i j (Or.inr hj)]; ring
  · rw [hl i j (Or.inl hi)]; ring

/-- **C87 (stencil).** No contribution is lost: all matrices vanish outside of the sparsity pattern. -/
theorem C87_stencil_complete [Fintype κ] (hF : F.Consistent) (ip : IncidenceParams) (heps : 0 ≤ ip.eps) (k l : Dof F)
    (h : ¬ inPattern F k l) :
    massMatrix F k l = 0 ∧ massInvMatrix F k l = 0 ∧ cMatrix F k l = 0 ∧
      (F.dG = true → incidenceMatrix F ip k l = 0) := by
  have hcell : ∀ (K : κ) (loc : Fin s → Fin s → ℝ), distribute F (F.dofs K) (F.dofs K) loc k l = 0 := fun K loc =>
    distribute_eq_zero (R := fun _ => True) (C := fun _ => True) (by simp) fun hc => h (Or.inl ⟨K, hc⟩)
  have hface : F.dG = true → ∀ (loc : κ → Fin nf → Fin s → Fin s → ℝ),
      (∀ K f K' f', F.neighbor K f = some (K', f') → ∀ i j, ¬ F.supportOnFace i f ∨ ¬ F.supportOnFace j f' →
        loc K f i j = 0) → ∀ K f, interfaceTerm F loc K f k l = 0 := by
    intro hd loc hloc K f
    unfold interfaceTerm
    rcases hn : F.neighbor K f with _ | ⟨K', f'⟩
    · rfl
    · exact distribute_eq_zero (R := fun i => F.supportOnFace i f) (C := fun j => F.supportOnFace j f')
        (hloc K f K' f' hn) fun hc => h (Or.inr ⟨hd, K, f, K', f', hn, hc⟩)
  refine ⟨?_, ?_, ?_, ?_⟩
  · unfold massMatrix
    rw [if_neg (fun e => k.2 e.1), add_zero]
    exact Finset.sum_eq_zero fun K _ => hcell K _
  · exact Finset.sum_eq_zero fun K _ => hcell K _
  · funext d
    unfold cMatrix
    rw [Finset.sum_eq_zero fun K _ => hcell K _, zero_add]
    by_cases hd : F.dG = true
    · rw [if_pos hd]
      refine Finset.sum_eq_zero fun K _ => Finset.sum_eq_zero fun f _ => hface hd _ ?_ K f
      intro K f K' f' hn i j hij
      simp only [interfaceC, hn]
      refine Finset.sum_eq_zero fun q _ => ?_
      rcases hij with hi | hj
      · rw [hF.support K f q i hi]; ring
      · rw [hF.support K' f' q j hj]; ring
    · rw [if_neg hd]; rfl
  · intro hd
    refine Finset.sum_eq_zero fun K _ => Finset.sum_eq_zero fun f _ => hface hd _ ?_ K f
    intro K f K' f' hn i j hij
    simp only [interfaceIncidence, hn]
    refine Finset.sum_eq_zero fun q _ => if_neg ?_
    rcases hij with hi | hj
    · rw [hF.nodalSupport K f q i hi]; simp [heps]
    · rw [hF.nodalSupport K' f' q j hj]; simp [heps]

/-! ### The mass matrix -/

/-- **C87 (total mass).** The lumped masses sum up to the measure of the domain. -/
theorem C87_total_mass [Fintype κ] (hF : F.Consistent) : ∑ k : Dof F, lumpedMass F k = measure F := by
  have e : ∀ k : Dof F, lumpedMass F k = ∑ K, ∑ q, F.JxW K q * basis F k K q := fun k => lumped_eq hF k.2
  simp only [e]
  rw [sum_dof (F := F) (fun k => ∑ K, ∑ q, F.JxW K q * basis F k K q)]
  simp only [Finset.sum_mul]
  rw [Finset.sum_comm]
  unfold measure cellMeasure
  refine Finset.sum_congr rfl fun K _ => ?_
  rw [Finset.sum_comm]
  refine Finset.sum_congr rfl fun q _ => ?_
  simp only [mul_assoc]
  rw [← Finset.mul_sum, basis_unity hF, mul_one]

/-- **C87 (mass matrix).** The mass matrix is symmetric and the entries of a row, summed over its stencil, add up to the
lumped mass; the lumped mass is the integral of the basis function. -/
theorem C87_mass_matrix [Fintype κ] (hF : F.Consistent) (k : Dof F) :
    (∀ l : Dof F, massMatrix F l k = massMatrix F k l) ∧
    massMatrix F k k + ((stencil F k).map fun l : Dof F => massMatrix F k l).sum = lumpedMass F k ∧
    lumpedMass F k = ∑ K, ∑ q, F.JxW K q * basis F k K q := by
  refine ⟨fun l => ?_, ?_, lumped_eq hF k.2⟩
  · rw [massMatrix_eq k.2, massMatrix_eq l.2]
    exact Finset.sum_congr rfl fun K _ => Finset.sum_congr rfl fun q _ => by ring
  · rw [stencil_sum k (fun l => massMatrix F k l)]
    · rfl
    · intro l _ hl
      exact (C87_stencil_complete hF ⟨0, 0, false, 0⟩ le_rfl k l hl).1

/-- **C87 (positive masses).** The lumped mass of an unconstrained degree of freedom is positive if the shape functions
have positive integrals on every cell, constraint weights are non-negative and the degree of freedom belongs to a cell. -/
theorem C87_lumped_pos [Fintype κ] (hF : F.Consistent) (hint : ∀ K i, 0 < ∑ q, F.JxW K q * F.value K q i)
    (hcoef : ∀ i k, F.constrained i → 0 ≤ F.coef i k) (k : Dof F) (hk : ∃ K i, F.dofs K i = k) : 0 < lumpedMass F k := by
  rw [lumped_eq hF k.2]
  have e : ∀ K, ∑ q, F.JxW K q * basis F k K q =
      ∑ i, expand F (F.dofs K i) k * ∑ q, F.JxW K q * F.value K q i := by
    intro K
    unfold basis
    simp only [Finset.mul_sum]
    rw [Finset.sum_comm]
    exact Finset.sum_congr rfl fun i _ => Finset.sum_congr rfl fun q _ => by ring
  have hnn : ∀ i, 0 ≤ expand F i k := by
    intro i
    unfold expand
    split_ifs with h1 h2
    · exact hcoef i k h1
    · exact zero_le_one
    · exact le_rfl
  simp only [e]
  obtain ⟨K, i, hK⟩ := hk
  refine Finset.sum_pos' (fun K _ => Finset.sum_nonneg fun i _ => mul_nonneg (hnn _) (hint K i).le)
    ⟨K, Finset.mem_univ _, Finset.sum_pos' (fun i _ => mul_nonneg (hnn _) (hint K i).le)
      ⟨i, Finset.mem_univ _, mul_pos ?_ (hint K i)⟩⟩
  unfold expand
  rw [hK, if_neg k.2, if_pos rfl]
  exact one_pos

/-! ### The matrix `c_ij` -/

/-- **C87 (row sums).** Every row of `c_ij` sums up to zero over its stencil. -/
theorem C87_row_sum [Fintype κ] (hF : F.Consistent) (k : Dof F) (d : Fin dim) :
    cMatrix F k k d + ((stencil F k).map fun l : Dof F => cMatrix F k l d).sum = 0 := by
  rw [stencil_sum k (fun l => cMatrix F k l d) (fun l _ hl => by
      rw [(C87_stencil_complete hF ⟨0, 0, false, 0⟩ le_rfl k l hl).2.2.1]; rfl), cMatrix_apply]
  simp only [basisGrad_unity hF, basisTrace_unity hF, sub_self, mul_zero, Finset.sum_const_zero, zero_add]
  split_ifs
  · refine Finset.sum_eq_zero fun K _ => Finset.sum_eq_zero fun f _ => ?_
    rcases F.neighbor K f with _ | ⟨K', f'⟩ <;> rfl
  · rfl

/-- **C87 (consistency).** For a finite element function with constant gradient and single valued traces, for example a
linear function, `Σ_j c_ij X_j` is the lumped mass times the gradient. -/
theorem C87_linear_exact [Fintype κ] (hF : F.Consistent) (k : Dof F) (X : Fin n → ℝ) (G : Vec dim)
    (hX : ∀ i, F.constrained i → X i = ∑ k, F.coef i k * X k)
    (hgrad : ∀ K q d, ∑ i, X (F.dofs K i) * F.grad K q i d = G d)
    (htrace : ∀ K f K' f', F.neighbor K f = some (K', f') → ∀ q,
      ∑ i, X (F.dofs K' i) * F.faceValue K' f' q i = ∑ i, X (F.dofs K i) * F.faceValue K f q i) (d : Fin dim) :
    cMatrix F k k d * X k + ((stencil F k).map fun l : Dof F => cMatrix F k l d * X l).sum = lumpedMass F k * G d := by
  have hxe : ∀ i, ∑ l, expand F i l * (X l * ones F l) = X i := by
    intro i
    rw [← sum_expand i X hX hF.closed]
    refine Finset.sum_congr rfl fun l _ => ?_
    unfold ones; split_ifs <;> simp
  rw [stencil_sum k (fun l => cMatrix F k l d * X l) (fun l _ hl => by
      rw [(C87_stencil_complete hF ⟨0, 0, false, 0⟩ le_rfl k l hl).2.2.1]; simp)]
  simp only [mul_assoc]
  rw [cMatrix_apply]
  have hG : ∀ K q, ∑ l, basisGrad F l K q d * (X l * ones F l) = G d := by
    intro K q
    unfold basisGrad
    rw [sum_comb]
    simp only [hxe]
    rw [← hgrad K q d]
    exact Finset.sum_congr rfl fun i _ => by ring
  have hT : ∀ K f q, ∑ l, basisTrace F l K f q * (X l * ones F l) = ∑ i, X (F.dofs K i) * F.faceValue K f q i := by
    intro K f q
    unfold basisTrace
    rw [sum_comb]
    simp only [hxe]
    exact Finset.sum_congr rfl fun i _ => by ring
  have h0 : (if F.dG then ∑ K, ∑ f, (match F.neighbor K f with
        | none => 0
        | some (K', f') => ∑ q, F.faceJxW K f q * ((1 / 2) * F.normal K f q d * basisTrace F k K f q *
          ((∑ l, basisTrace F l K' f' q * (X l * ones F l)) - ∑ l, basisTrace F l K f q * (X l * ones F l)))) else 0) = 0 := by
    split_ifs
    · refine Finset.sum_eq_zero fun K _ => Finset.sum_eq_zero fun f _ => ?_
      rcases hn : F.neighbor K f with _ | ⟨K', f'⟩
      · rfl
      · refine Finset.sum_eq_zero fun q _ => ?_
        rw [hT, hT, htrace K f K' f' hn q]; ring
    · rfl
  refine (congrArg₂ (· + ·) rfl h0).trans ?_
  rw [add_zero, lumped_eq hF k.2]
  simp only [hG]
  simp only [Finset.sum_mul, ← mul_assoc]

/-- **C87 (integration by parts).** `c_kl + c_lk` is the integral of `φ_k φ_l n` over the boundary of the domain. -/
theorem C87_integration_by_parts [Fintype κ] (hG : F.Conforming) (k l : Fin n) :
    cMatrix F k l + cMatrix F l k = boundaryIntegral F k l := by
  funext d
  have hvol : (∑ K, ∑ q, F.JxW K q * (basis F k K q * basisGrad F l K q d)) +
      (∑ K, ∑ q, F.JxW K q * (basis F l K q * basisGrad F k K q d)) =
      ∑ K, ∑ f, ∑ q, F.faceJxW K f q * F.normal K f q d * basisTrace F k K f q * basisTrace F l K f q := by
    rw [← Finset.sum_add_distrib]
    refine Finset.sum_congr rfl fun K _ => ?_
    have e1 : ∑ q, F.JxW K q * (basis F k K q * basisGrad F l K q d) =
        ∑ i, ∑ j, expand F (F.dofs K i) k * expand F (F.dofs K j) l *
          ∑ q, F.JxW K q * (F.value K q i * F.grad K q j d) := by
      unfold basis basisGrad
      have := distribute_sum (F := F) (F.dofs K) (F.dofs K) (fun q i => F.value K q i) (fun q j => F.grad K q j d)
        (fun q => F.JxW K q) k l
      rw [← this]
      unfold distribute
      exact Finset.sum_congr rfl fun i _ => Finset.sum_congr rfl fun j _ => by ring
    have e2 : ∑ q, F.JxW K q * (basis F l K q * basisGrad F k K q d) =
        ∑ i, ∑ j, expand F (F.dofs K i) k * expand F (F.dofs K j) l *
          ∑ q, F.JxW K q * (F.value K q j * F.grad K q i d) := by
      unfold basis basisGrad
      have := distribute_sum (F := F) (F.dofs K) (F.dofs K) (fun q i => F.grad K q i d) (fun q j => F.value K q j)
        (fun q => F.JxW K q) k l
      have e : ∀ i j, ∑ q, F.JxW K q * (F.value K q j * F.grad K q i d) =
          ∑ q, F.JxW K q * (F.grad K q i d * F.value K q j) := fun i j => Finset.sum_congr rfl fun q _ => by ring
      simp only [e]
      rw [show ∑ i, ∑ j, expand F (F.dofs K i) k * expand F (F.dofs K j) l *
          ∑ q, F.JxW K q * (F.grad K q i d * F.value K q j) = distribute F (F.dofs K) (F.dofs K)
            (fun i j => ∑ q, F.JxW K q * (F.grad K q i d * F.value K q j)) k l from by
          unfold distribute
          exact Finset.sum_congr rfl fun i _ => Finset.sum_congr rfl fun j _ => by ring, this]
      exact Finset.sum_congr rfl fun q _ => by ring
    have e3 : ∑ f, ∑ q, F.faceJxW K f q * F.normal K f q d * basisTrace F k K f q * basisTrace F l K f q =
        ∑ i, ∑ j, expand F (F.dofs K i) k * expand F (F.dofs K j) l *
          ∑ f, ∑ q, F.faceJxW K f q * F.normal K f q d * F.faceValue K f q i * F.faceValue K f q j := by
      have h1 : ∀ f, ∑ q, F.faceJxW K f q * F.normal K f q d * basisTrace F k K f q * basisTrace F l K f q =
          distribute F (F.dofs K) (F.dofs K) (fun i j => ∑ q, F.faceJxW K f q * F.normal K f q d *
            F.faceValue K f q i * F.faceValue K f q j) k l := by
        intro f
        have := distribute_sum (F := F) (F.dofs K) (F.dofs K) (fun q i => F.faceValue K f q i)
          (fun q j => F.faceValue K f q j) (fun q => F.faceJxW K f q * F.normal K f q d) k l
        simp only [mul_assoc] at this ⊢
        rw [this]
        rfl
      simp only [h1, ← distribute_finsum]
      unfold distribute
      exact Finset.sum_congr rfl fun i _ => Finset.sum_congr rfl fun j _ => by ring
    rw [e1, e2, e3, ← Finset.sum_add_distrib]
    refine Finset.sum_congr rfl fun i _ => ?_
    rw [← Finset.sum_add_distrib]
    refine Finset.sum_congr rfl fun j _ => ?_
    rw [← hG.gauss K i j d, ← mul_add, ← Finset.sum_add_distrib]
    congr 1
    exact Finset.sum_congr rfl fun q _ => by ring
  have hsplit : ∀ K f, ∑ q, F.faceJxW K f q * F.normal K f q d * basisTrace F k K f q * basisTrace F l K f q =
      (if (F.neighbor K f).isNone then ∑ q, F.faceJxW K f q * F.normal K f q d * basisTrace F k K f q *
        basisTrace F l K f q else 0) +
      (if (F.neighbor K f).isSome then ∑ q, F.faceJxW K f q * F.normal K f q d * basisTrace F k K f q *
        basisTrace F l K f q else 0) := by
    intro K f
    rcases F.neighbor K f with _ | y <;> simp
  have hb : boundaryIntegral F k l d = ∑ K, ∑ f, if (F.neighbor K f).isNone then
    ∑ q, F.faceJxW K f q * F.normal K f q d * basisTrace F k K f q * basisTrace F l K f q else 0 := rfl
  show cMatrix F k l d + cMatrix F l k d = _
  rw [cMatrix_eq, cMatrix_eq, add_add_add_comm, hvol, hb,
    Finset.sum_congr rfl fun K _ => Finset.sum_congr rfl fun f _ => hsplit K f]
  simp only [Finset.sum_add_distrib]
  rw [add_assoc]
  refine add_eq_left.2 ?_
  by_cases hd : F.dG = true
  · simp only [hd, if_true]
    have key := sum_faces (F := F) hG.back (fun K f => faceTerm F k l K f d + (1 / 2) * (if (F.neighbor K f).isSome then
        ∑ q, F.faceJxW K f q * F.normal K f q d * basisTrace F k K f q * basisTrace F l K f q else 0))
      (fun K f => -(faceTerm F l k K f d + (1 / 2) * (if (F.neighbor K f).isSome then
        ∑ q, F.faceJxW K f q * F.normal K f q d * basisTrace F k K f q * basisTrace F l K f q else 0)))
      (fun K f hn => by simp [faceTerm, hn]) (fun K f K' f' hn => by
        have hn' := hG.back _ _ _ _ hn
        simp only [faceTerm, hn, hn', Option.isSome_some, if_true, Finset.mul_sum, ← Finset.sum_add_distrib,
          ← Finset.sum_neg_distrib]
        refine Finset.sum_congr rfl fun q _ => ?_
        rw [hG.weight _ _ _ _ hn, hG.opposite _ _ _ _ hn]; ring)
    simp only [Finset.sum_neg_distrib, Finset.sum_add_distrib, ← Finset.mul_sum] at key
    linarith
  · simp only [hd]
    have hd' : F.dG = false := by simpa using hd
    have key := sum_faces (F := F) hG.back (fun K f => if (F.neighbor K f).isSome then
        ∑ q, F.faceJxW K f q * F.normal K f q d * basisTrace F k K f q * basisTrace F l K f q else 0)
      (fun K f => -(if (F.neighbor K f).isSome then
        ∑ q, F.faceJxW K f q * F.normal K f q d * basisTrace F k K f q * basisTrace F l K f q else 0))
      (fun K f hn => by simp [hn]) (fun K f K' f' hn => by
        have hn' := hG.back _ _ _ _ hn
        simp only [hn, hn', Option.isSome_some, if_true, ← Finset.sum_neg_distrib]
        refine Finset.sum_congr rfl fun q _ => ?_
        rw [hG.weight _ _ _ _ hn, hG.opposite _ _ _ _ hn, hG.continuous hd' k _ _ _ _ hn,
          hG.continuous hd' l _ _ _ _ hn]; ring)
    simp only [Finset.sum_neg_distrib] at key
    simp only [Bool.false_eq_true, if_false]
    linarith

/-- **C87 (skew symmetry).** `c_ij = -c_ji` unless both basis functions are non-zero on the boundary. -/
theorem C87_skew [Fintype κ] (hG : F.Conforming) (k l : Fin n) (h : Interior F k ∨ Interior F l) :
    cMatrix F l k = -cMatrix F k l := by
  have hb : boundaryIntegral F k l = 0 := by
    funext d
    refine Finset.sum_eq_zero fun K _ => Finset.sum_eq_zero fun f _ => ?_
    split_ifs with hn
    · have hn' : F.neighbor K f = none := by simpa using hn
      refine Finset.sum_eq_zero fun q _ => ?_
      rcases h with h | h
      · rw [h K f hn' q]; ring
      · rw [h K f hn' q]; ring
    · rfl
  have := C87_integration_by_parts hG k l
  rw [hb] at this
  exact eq_neg_of_add_eq_zero_right this

/-! ### Discontinuous ansatz -/

/-- **C87 (inverse mass matrix).** For a discontinuous ansatz the product of the assembled inverse with the mass matrix is
the identity. -/
theorem C87_mass_inverse [Fintype κ] (hF : F.Consistent) (hd : F.dG = true)
    (hdofs : Function.Bijective fun x : κ × Fin s => F.dofs x.1 x.2)
    (hdet : ∀ K, IsUnit (Matrix.of fun i j => cellMass F K i j).det) (k l : Fin n) :
    ∑ m, massInvMatrix F k m * massMatrix F m l = if k = l then 1 else 0 := by
  have hu := hF.unconstrained hd
  have hex : ∀ i k, expand F i k = if i = k then 1 else 0 := fun i k => by unfold expand; rw [if_neg (hu i)]
  have entry : ∀ (loc : κ → Fin s → Fin s → ℝ) (K K' : κ) (i j : Fin s),
      ∑ K₀, distribute F (F.dofs K₀) (F.dofs K₀) (loc K₀) (F.dofs K i) (F.dofs K' j) =
        if K = K' then loc K i j else 0 := by
    intro loc K K' i j
    have hinj : ∀ K₁ i₁ K₂ i₂, F.dofs K₁ i₁ = F.dofs K₂ i₂ ↔ K₁ = K₂ ∧ i₁ = i₂ := by
      intro K₁ i₁ K₂ i₂
      constructor
      · intro h
        have := hdofs.1 (a₁ := (K₁, i₁)) (a₂ := (K₂, i₂)) h
        exact Prod.mk.inj this
      · rintro ⟨rfl, rfl⟩; rfl
    unfold distribute
    rw [Finset.sum_eq_single K]
    · rw [Finset.sum_eq_single i]
      · rw [Finset.sum_eq_single j]
        · simp only [hex, hinj]
          by_cases h : K = K' <;> simp [h]
        · intro j' _ hj'
          simp only [hex, hinj]
          simp [hj']
        · intro h; exact absurd (Finset.mem_univ _) h
      · intro i' _ hi'
        refine Finset.sum_eq_zero fun j' _ => ?_
        simp only [hex, hinj]
        simp [hi']
      · intro h; exact absurd (Finset.mem_univ _) h
    · intro K₁ _ hK₁
      refine Finset.sum_eq_zero fun i' _ => Finset.sum_eq_zero fun j' _ => ?_
      simp only [hex, hinj]
      simp [hK₁]
    · intro h; exact absurd (Finset.mem_univ _) h
  obtain ⟨⟨K, i⟩, rfl⟩ := hdofs.2 k
  obtain ⟨⟨K', j⟩, rfl⟩ := hdofs.2 l
  have hm : ∀ m l, massMatrix F m l = ∑ K₀, distribute F (F.dofs K₀) (F.dofs K₀) (cellMass F K₀) m l := by
    intro m l; unfold massMatrix; rw [if_neg (fun h => hu m h.1), add_zero]
  have hmi : ∀ (K K' : κ) (i j : Fin s), massInvMatrix F (F.dofs K i) (F.dofs K' j) =
      if K = K' then cellMassInv F K i j else 0 := fun K K' i j => entry (cellMassInv F) K K' i j
  have hsum : ∑ m, massInvMatrix F (F.dofs K i) m * massMatrix F m (F.dofs K' j) =
      ∑ x : κ × Fin s, massInvMatrix F (F.dofs K i) (F.dofs x.1 x.2) * massMatrix F (F.dofs x.1 x.2) (F.dofs K' j) :=
    ((Equiv.ofBijective _ hdofs).sum_comp fun m => massInvMatrix F (F.dofs K i) m * massMatrix F m (F.dofs K' j)).symm
  show ∑ m, massInvMatrix F (F.dofs K i) m * massMatrix F m (F.dofs K' j) = _
  rw [hsum, Fintype.sum_prod_type]
  simp only [hm, hmi, entry]
  rw [Finset.sum_eq_single K]
  · by_cases hK : K = K'
    · subst hK
      simp only [if_true]
      have hmul := Matrix.nonsing_inv_mul _ (hdet K)
      have := congrFun (congrFun hmul i) j
      rw [Matrix.mul_apply, Matrix.one_apply] at this
      unfold cellMassInv
      rw [show ∑ y, (Matrix.of fun i j => cellMass F K i j)⁻¹ i y * cellMass F K y j = if i = j then 1 else 0 from this]
      have : F.dofs K i = F.dofs K j ↔ i = j := ⟨fun h => (Prod.mk.inj (hdofs.1 (a₁ := (K, i)) (a₂ := (K, j)) h)).2,
        fun h => by rw [h]⟩
      simp only [this]
    · have hne : F.dofs K i ≠ F.dofs K' j := fun h => hK (Prod.mk.inj (hdofs.1 (a₁ := (K, i)) (a₂ := (K', j)) h)).1
      simp [hK, hne]
  · intro K₁ _ h
    simp [Ne.symm h]
  · intro h; exact absurd (Finset.mem_univ _) h

theorem massInv_symm [Fintype κ] (k l : Fin n) : massInvMatrix F l k = massInvMatrix F k l := by
  unfold massInvMatrix distribute
  refine Finset.sum_congr rfl fun K _ => ?_
  rw [Finset.sum_comm]
  refine Finset.sum_congr rfl fun i _ => Finset.sum_congr rfl fun j _ => ?_
  have hs : (Matrix.of fun i j => cellMass F K i j).transpose = Matrix.of fun i j => cellMass F K i j := by
    ext a b
    simp only [Matrix.transpose_apply, Matrix.of_apply, cellMass]
    exact Finset.sum_congr rfl fun q _ => by ring
  have : cellMassInv F K j i = cellMassInv F K i j := by
    unfold cellMassInv
    have h := Matrix.transpose_nonsing_inv (Matrix.of fun i j => cellMass F K i j)
    rw [hs] at h
    exact congrFun (congrFun h i) j
  rw [this]; ring

/-- **C87 (incidence matrix).** The incidence matrix is symmetric, and non-negative if the masses are. -/
theorem C87_incidence [Fintype κ] (hG : F.Conforming) (ip : IncidenceParams) (k l : Fin n) :
    incidenceMatrix F ip l k = incidenceMatrix F ip k l ∧
    ((∀ m, ¬ F.constrained m) → (∀ m, 0 ≤ lumpedMass F m) → 0 ≤ measure F → 0 ≤ incidenceMatrix F ip k l) := by
  have hw : ∀ a b, incidenceWeight F ip a b = incidenceWeight F ip b a := by
    intro a b; unfold incidenceWeight; rw [add_comm (lumpedMass F a)]
  constructor
  · unfold incidenceMatrix
    refine sum_faces (F := F) hG.back _ _ ?_ ?_
    · intro K f hn; unfold interfaceTerm; rw [hn]
    · intro K f K' f' hn
      have hn' := hG.back _ _ _ _ hn
      unfold interfaceTerm
      simp only [hn, hn']
      unfold distribute
      rw [Finset.sum_comm]
      refine Finset.sum_congr rfl fun i _ => Finset.sum_congr rfl fun j _ => ?_
      have : interfaceIncidence F ip K' f' j i = interfaceIncidence F ip K f i j := by
        unfold interfaceIncidence
        simp only [hn, hn']
        exact Finset.sum_congr rfl fun q _ => by rw [mul_comm (F.nodalValue K' f' q j), hw]
      rw [this]; ring
  · intro hc hm hO
    refine Finset.sum_nonneg fun K _ => Finset.sum_nonneg fun f _ => ?_
    unfold interfaceTerm
    rcases hn : F.neighbor K f with _ | ⟨K', f'⟩
    · exact le_rfl
    · refine Finset.sum_nonneg fun i _ => Finset.sum_nonneg fun j _ => ?_
      have hex : ∀ i k, 0 ≤ expand F i k := fun i k => by
        unfold expand; rw [if_neg (hc i)]; split_ifs <;> norm_num
      refine mul_nonneg (mul_nonneg (hex _ _) ?_) (hex _ _)
      simp only [interfaceIncidence, hn]
      refine Finset.sum_nonneg fun q _ => ?_
      split_ifs
      · unfold incidenceWeight
        have h0 : 0 ≤ (1 / 2) * (lumpedMass F (F.dofs K i) + lumpedMass F (F.dofs K' j)) / measure F :=
          div_nonneg (mul_nonneg (by norm_num) (add_nonneg (hm _) (hm _))) hO
        dsimp only
        split_ifs <;> exact Real.rpow_nonneg h0 _
      · exact le_rfl

/-! ### The mesh of the hyperbolic module -/

theorem couples_symm {rows cols : Fin s → Fin n} {R C : Fin s → Prop} {k l : Fin n}
    (h : couples F rows cols R C k l) : couples F cols rows C R l k := by
  obtain ⟨i, j, a, b, c, d⟩ := h
  exact ⟨j, i, b, a, d, c⟩

/-- **C87 (mesh).** The assembled data satisfy the structural assumptions of the theorems about the hyperbolic step. -/
theorem C87_assembled_wellFormed [Fintype κ] (hG : F.Conforming) (ip : IncidenceParams) (below skip : Dof F → Dof F → Prop)
    (boundary : Dof F → Prop) (hasymm : ∀ i j, below i j → ¬ below j i) (hskip : ∀ i j, skip i j → below i j) :
    (assembled F ip below skip boundary).WellFormed where
  nodup := fun k => Finset.nodup_toList _
  irrefl := fun k h => (mem_stencil.1 h).1 rfl
  symm := by
    intro k l h
    obtain ⟨hne, hp⟩ := mem_stencil.1 h
    refine mem_stencil.2 ⟨hne.symm, ?_⟩
    rcases hp with ⟨K, hc⟩ | ⟨hd, K, f, K', f', hn, hc⟩
    · exact Or.inl ⟨K, couples_symm hc⟩
    · exact Or.inr ⟨hd, K', f', K, f, hG.back _ _ _ _ hn, couples_symm hc⟩
  asymm := hasymm
  skip_below := hskip

/-- **C87 (mesh without boundary).** If every face has a neighbour, e.g. on a fully periodic mesh, the assembled data
satisfy the assumptions of the conservation theorems. -/
theorem C87_assembled_closed [Fintype κ] (hF : F.Consistent) (hG : F.Conforming) (hB : NoBoundary F)
    (ip : IncidenceParams) (below skip : Dof F → Dof F → Prop) (boundary : Dof F → Prop)
    (hint : ∀ K i, 0 < ∑ q, F.JxW K q * F.value K q i) (hcoef : ∀ i k, F.constrained i → 0 ≤ F.coef i k)
    (hdof : ∀ k : Dof F, ∃ K i, F.dofs K i = k) : (assembled F ip below skip boundary).Closed := by
  have hI : ∀ k, Interior F k := by
    intro k K f hn
    have := hB K f
    rw [hn] at this
    exact absurd this (by simp)
  refine ⟨fun k l _ => C87_skew hG k l (Or.inl (hI k)), fun k => ?_, fun k l _ => (C87_mass_matrix hF k).1 l,
    fun k l _ => massInv_symm _ _, fun k l _ => (C87_incidence hG ip k l).1,
    fun k => C87_lumped_pos hF hint hcoef k (hdof k)⟩
  have h := C87_skew hG (k : Fin n) k (Or.inl (hI k))
  funext d
  have hd := congrFun h d
  have hd' : cMatrix F k k d = -cMatrix F k k d := hd
  show cMatrix F k k d = 0
  linarith

/-- **C87 (rows of the mesh).** The row sums as they enter the theorems about the hyperbolic step. -/
theorem C87_assembled_rowSum [Fintype κ] (hF : F.Consistent) (ip : IncidenceParams) (below skip : Dof F → Dof F → Prop)
    (boundary : Dof F → Prop) (k : Dof F) :
    (assembled F ip below skip boundary).c k k +
      (((assembled F ip below skip boundary).nbrs k).map ((assembled F ip below skip boundary).c k)).sum = 0 := by
  funext d
  have h := C87_row_sum hF k d
  have e : ∀ l : List (Dof F), (l.map fun m : Dof F => cMatrix F k m).sum d = (l.map fun m : Dof F => cMatrix F k m d).sum := by
    intro l
    induction l with
    | nil => rfl
    | cons a t ih =>
      simp only [List.map_cons, List.sum_cons]
      rw [Pi.add_apply, ih]
  show cMatrix F k k d + ((stencil F k).map fun m : Dof F => cMatrix F k m).sum d = 0
  rw [e]; exact h

/-! ### Three periodic cells with a continuous ansatz -/

/-- Linear elements on a periodic interval with three cells; the last node is constrained to the first one.  Simpson's
rule. -/
noncomputable def ringFe : FeData (Fin 3) 4 2 3 2 1 1 1 where
  dofs := fun K i => ![![0, 1], ![1, 2], ![2, 3]] K i
  value := fun _ q i => if i = 0 then 1 - (q.val : ℝ) / 2 else (q.val : ℝ) / 2
  grad := fun _ _ i _ => ![-1, 1] i
  JxW := fun _ q => if q.val = 1 then 4 / 6 else 1 / 6
  neighbor := fun K f => ![![some (2, 1), some (1, 0)], ![some (0, 1), some (2, 0)], ![some (1, 1), some (0, 0)]] K f
  faceValue := fun _ f _ i => ![![1, 0], ![0, 1]] f i
  faceJxW := fun _ _ _ => 1
  normal := fun _ f _ _ => ![-1, 1] f
  nodalValue := fun _ f _ i => ![![1, 0], ![0, 1]] f i
  supportOnFace := fun i f => i.val = f.val
  constrained := fun k => k = 3
  coef := fun _ k => if k = 0 then 1 else 0
  diagonal := fun _ => 1
  dG := false

theorem ringFe_consistent : ringFe.Consistent where
  unity := by intro K q; fin_cases q <;> norm_num [ringFe, Fin.sum_univ_two]
  gradUnity := by intro K q d; norm_num [ringFe, Fin.sum_univ_two]
  faceUnity := by intro K f q; fin_cases f <;> norm_num [ringFe, Fin.sum_univ_two]
  closed := by
    intro i k _ hk
    have : k = 3 := hk
    subst this; rfl
  coefUnity := by intro i _; simp [ringFe]
  unconstrained := fun h => absurd h (by simp [ringFe])
  support := by
    intro K f q i h
    fin_cases f <;> fin_cases i <;> simp_all [ringFe]
  nodalSupport := by
    intro K f q i h
    fin_cases f <;> fin_cases i <;> simp_all [ringFe]

theorem ringFe_conforming : ringFe.Conforming where
  back := by
    intro K f K' f' h
    fin_cases K <;> fin_cases f <;> simp [ringFe] at h ⊢ <;> obtain ⟨rfl, rfl⟩ := h <;> simp
  weight := fun _ _ _ _ _ _ => rfl
  opposite := by
    intro K f K' f' h q d
    fin_cases K <;> fin_cases f <;> simp [ringFe] at h ⊢ <;> obtain ⟨rfl, rfl⟩ := h <;> simp
  gauss := by
    intro K i j d
    fin_cases i <;> fin_cases j <;> norm_num [ringFe, Fin.sum_univ_two, Fin.sum_univ_three]
  continuous := by
    intro _ k K f K' f' h q
    fin_cases K <;> fin_cases f <;> simp [ringFe] at h ⊢ <;> obtain ⟨rfl, rfl⟩ := h <;>
      fin_cases k <;> simp [basisTrace, expand, Fin.sum_univ_two]

/-- C87 is not vacuous: the assembled ring is closed and the masses sum up to three. -/
example : (assembled ringFe ⟨1, 1, false, 0⟩ (fun i j => j.1 < i.1) (fun _ _ => False) (fun _ => False)).Closed ∧
    ∑ k : Dof ringFe, lumpedMass ringFe k = 3 := by
  refine ⟨C87_assembled_closed ringFe_consistent ringFe_conforming ?_ _ _ _ _ ?_ ?_ ?_, ?_⟩
  · intro K f; fin_cases K <;> fin_cases f <;> rfl
  · intro K i; fin_cases i <;> norm_num [ringFe, Fin.sum_univ_three]
  · intro i k _
    show (0 : ℝ) ≤ if k = 0 then 1 else 0
    split_ifs <;> norm_num
  · rintro ⟨k, hk⟩
    have hk' : k ≠ 3 := hk
    fin_cases k
    · exact ⟨0, 0, rfl⟩
    · exact ⟨1, 0, rfl⟩
    · exact ⟨2, 0, rfl⟩
    · exact absurd rfl hk'
  · rw [C87_total_mass ringFe_consistent]
    norm_num [measure, cellMeasure, ringFe, Fin.sum_univ_three]

/-! ### Two cells with a discontinuous ansatz -/

/-- Discontinuous linear elements on the interval `[0, 2]` with two cells and two boundary faces. -/
noncomputable def intervalFe : FeData (Fin 2) 4 2 3 2 1 1 1 where
  dofs := fun K i => ![![0, 1], ![2, 3]] K i
  value := fun _ q i => if i = 0 then 1 - (q.val : ℝ) / 2 else (q.val : ℝ) / 2
  grad := fun _ _ i _ => ![-1, 1] i
  JxW := fun _ q => if q.val = 1 then 4 / 6 else 1 / 6
  neighbor := fun K f => ![![none, some (1, 0)], ![some (0, 1), none]] K f
  faceValue := fun _ f _ i => ![![1, 0], ![0, 1]] f i
  faceJxW := fun _ _ _ => 1
  normal := fun _ f _ _ => ![-1, 1] f
  nodalValue := fun _ f _ i => ![![1, 0], ![0, 1]] f i
  supportOnFace := fun i f => i.val = f.val
  constrained := fun _ => False
  coef := fun _ _ => 0
  diagonal := fun _ => 1
  dG := true

theorem intervalFe_consistent : intervalFe.Consistent where
  unity := by intro K q; fin_cases q <;> norm_num [intervalFe, Fin.sum_univ_two]
  gradUnity := by intro K q d; norm_num [intervalFe, Fin.sum_univ_two]
  faceUnity := by intro K f q; fin_cases f <;> norm_num [intervalFe, Fin.sum_univ_two]
  closed := fun _ _ h => absurd h (by simp [intervalFe])
  coefUnity := fun _ h => absurd h (by simp [intervalFe])
  unconstrained := fun _ _ h => h
  support := by
    intro K f q i h
    fin_cases f <;> fin_cases i <;> simp_all [intervalFe]
  nodalSupport := by
    intro K f q i h
    fin_cases f <;> fin_cases i <;> simp_all [intervalFe]

theorem intervalFe_conforming : intervalFe.Conforming where
  back := by
    intro K f K' f' h
    fin_cases K <;> fin_cases f <;> simp [intervalFe] at h ⊢ <;> obtain ⟨rfl, rfl⟩ := h <;> simp
  weight := fun _ _ _ _ _ _ => rfl
  opposite := by
    intro K f K' f' h q d
    fin_cases K <;> fin_cases f <;> simp [intervalFe] at h ⊢ <;> obtain ⟨rfl, rfl⟩ := h <;> simp
  gauss := by
    intro K i j d
    fin_cases i <;> fin_cases j <;> norm_num [intervalFe, Fin.sum_univ_two, Fin.sum_univ_three]
  continuous := fun h => absurd h (by simp [intervalFe])

/-- The coordinates of the nodes. -/
noncomputable def intervalX : Fin 4 → ℝ := fun k => (((k.val + 1) / 2 : ℕ) : ℝ)

/-- The cell mass matrices are invertible, the nodes of the interior face are interior, the coordinate is a linear
function: the theorems apply. -/
example : (∀ k l, ∑ m, massInvMatrix intervalFe k m * massMatrix intervalFe m l = if k = l then 1 else 0) ∧
    cMatrix intervalFe 2 1 = -cMatrix intervalFe 1 2 ∧
    (∀ k : Dof intervalFe, cMatrix intervalFe k k 0 * intervalX k.1 +
      ((stencil intervalFe k).map fun l : Dof intervalFe => cMatrix intervalFe k l 0 * intervalX l.1).sum =
        lumpedMass intervalFe k * 1) := by
  refine ⟨C87_mass_inverse intervalFe_consistent rfl ?_ ?_, C87_skew intervalFe_conforming 1 2 (Or.inl ?_), fun k => ?_⟩
  · constructor
    · rintro ⟨K, i⟩ ⟨K', j⟩ h
      fin_cases K <;> fin_cases i <;> fin_cases K' <;> fin_cases j <;> simp_all [intervalFe]
    · intro k
      fin_cases k
      · exact ⟨(0, 0), rfl⟩
      · exact ⟨(0, 1), rfl⟩
      · exact ⟨(1, 0), rfl⟩
      · exact ⟨(1, 1), rfl⟩
  · intro K
    rw [isUnit_iff_ne_zero, Matrix.det_fin_two]
    norm_num [cellMass, intervalFe, Fin.sum_univ_three]
  · intro K f hn q
    fin_cases K <;> fin_cases f <;> simp [intervalFe, basisTrace, expand, Fin.sum_univ_two] at hn ⊢
  · refine C87_linear_exact intervalFe_consistent k intervalX (fun _ => 1) (fun i h => absurd h (by simp [intervalFe]))
      ?_ ?_ 0
    · intro K q d
      fin_cases K <;> norm_num [intervalFe, intervalX, Fin.sum_univ_two]
    · intro K f K' f' h q
      fin_cases K <;> fin_cases f <;> simp [intervalFe] at h ⊢ <;> obtain ⟨rfl, rfl⟩ := h <;>
        simp [intervalX]

end Assembly
end Ryujin
