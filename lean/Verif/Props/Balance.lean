import Verif.Proofs.StepEquations
import Verif.Props.StepEquations
import Verif.Props.Assembly
import Mathlib.Algebra.BigOperators.Pi

/-!
# C93: exact balance of conserved quantities on a domain with boundary

C13 is about meshes without boundary.  Here the boundary is arbitrary.
-/

namespace Ryujin

open scoped BigOperators

namespace Hyp

variable {ι P S F B : Type} {dim : ℕ}

/-- The matrices are symmetric and the lumped masses positive; nothing is assumed about the boundary. -/
structure Mesh.Symmetric (M : Mesh ι dim) : Prop where
  mass : ∀ i, ∀ j ∈ M.nbrs i, M.mass j i = M.mass i j
  massInv : ∀ i, ∀ j ∈ M.nbrs i, M.massInv j i = M.massInv i j
  incidence : ∀ i, ∀ j ∈ M.nbrs i, M.incidence j i = M.incidence i j
  lumped : ∀ i, 0 < M.lumped i

/-- The viscosity matrix of a state vector is symmetric (C11). -/
def SymmetricViscosity (D : Description ι P S F B dim) (M : Mesh ι dim) (stale : ι → ι → ℝ) (old : StateVector ι P S) : Prop :=
  ∀ i, ∀ j ∈ M.nbrs i, dOff D M stale old i j = dOff D M stale old j i

/-- On one rank this is the case for every Riemann solver. -/
theorem SymmetricViscosity.of_one_rank {D : Description ι P S F B dim} {M : Mesh ι dim} (hM : M.WellFormed)
    (h : ∀ i, ∀ j ∈ M.nbrs i, M.below i j ∨ M.below j i) {stale : ι → ι → ℝ} {old : StateVector ι P S} :
    SymmetricViscosity D M stale old :=
  fun i j hj => C11_viscosity_symmetric_one_rank D M hM stale old i j (h i j hj)

/-- On several ranks it is the case for Riemann solvers that do not depend on the order of the states (C10). -/
theorem SymmetricViscosity.of_reversible {D : Description ι P S F B dim} {M : Mesh ι dim} (hM : M.WellFormed)
    {stale : ι → ι → ℝ} {old : StateVector ι P S}
    (hrev : ∀ i, ∀ j ∈ M.nbrs i, M.c i j ≠ 0 →
      D.riemann old.prec i j (old.U i) (old.U j) (fun k => M.c i j k / vnorm (M.c i j)) =
        D.riemann old.prec j i (old.U j) (old.U i) (-fun k => M.c i j k / vnorm (M.c i j)))
    (hskew : ∀ i, ∀ j ∈ M.nbrs i, ¬ (M.boundary i ∧ M.boundary j) → M.c j i = -M.c i j) :
    SymmetricViscosity D M stale old :=
  fun i j hj => (C11_viscosity D M hM stale old hrev hskew i j hj).1

theorem Mesh.Closed.symmetric {M : Mesh ι dim} (h : M.Closed) : M.Symmetric :=
  ⟨h.mass, h.massInv, h.incidence, h.lumped⟩

section core

variable [AddCommGroup S] [Module ℝ S] {D : Description ι P S F B dim} {M : Mesh ι dim} {X : Stage4 ι P S}
  {φ : S →ₗ[ℝ] ℝ}

/-- The part of the correction `P_ij` that stems from the fluxes. -/
noncomputable def fluxCorrection (D : Description ι P S F B dim) (M : Mesh ι dim) (X : Stage4 ι P S) (i j : ι) : S :=
  -fluxIJ D M X i j + X.weight • highOrderIJ D M X i j + (X.stages.map fun s => s.1 • stageFluxIJ D M s i j).sum

theorem stage_source_zero (hsrc : ∀ p i U tau, φ (D.source p i U tau) = 0) (l : List (ℝ × StateVector ι P S)) (i j : ι) :
    φ (l.map fun s => s.1 • stageFluxIJ D M s i j + (s.1 * M.mass i j) • stageSource D X s j).sum =
      φ (l.map fun s => s.1 • stageFluxIJ D M s i j).sum := by
  induction l with
  | nil => rfl
  | cons a t ih =>
    have h0 : φ (stageSource D X a j) = 0 := hsrc _ _ _ _
    simp only [List.map_cons, List.sum_cons]
    rw [map_add, map_add, ih, map_add, map_smul φ (a.1 * M.mass i j), h0, smul_zero, add_zero]

theorem pStep4_balance (hst : ∀ U f V g, φ ((D.stars U f V g).2 - (D.stars U f V g).1)
      = -φ ((D.stars V g U f).2 - (D.stars V g U f).1))
    (hsrc : ∀ p i U tau, φ (D.source p i U tau) = 0) (hS : M.Symmetric)
    (hd : ∀ i, ∀ j ∈ M.nbrs i, X.d i j = X.d j i)
    {i j : ι} (hj : j ∈ M.nbrs i) (hP : φ (fluxCorrection D M X i j) = -φ (fluxCorrection D M X j i)) :
    φ (pStep4 D M X i j) = -φ (pStep4 D M X j i) := by
  have hval : ∀ i j, φ (pStep4 D M X i j) = φ (fluxCorrection D M X i j) +
      (dH M X i j - X.d i j) * φ (jump D X i j) := by
    intro i j
    unfold pStep4 fluxCorrection highOrderPart
    simp only [map_add, map_sub, map_neg, map_smul, smul_eq_mul, sourceAt, hsrc, stage_source_zero hsrc]
    ring
  have hdH : dH M X i j = dH M X j i := by
    unfold dH
    simp only [hS.incidence i j hj, hd i j hj, add_comm (X.alpha i) (X.alpha j)]
  have hjump : φ (jump D X i j) = -φ (jump D X j i) := hst _ _ _ _
  rw [hval, hval, hP, hdH, hd i j hj, hjump]
  ring

/-- Scaled corrections are antisymmetric if the flux parts are. -/
theorem pIJ_balance (hM : M.WellFormed) (hst : ∀ U f V g, φ ((D.stars U f V g).2 - (D.stars U f V g).1)
      = -φ ((D.stars V g U f).2 - (D.stars V g U f).1))
    (hsrc : ∀ p i U tau, φ (D.source p i U tau) = 0) (hS : M.Symmetric)
    (hd : ∀ i, ∀ j ∈ M.nbrs i, X.d i j = X.d j i)
    {i j : ι} (hj : j ∈ M.nbrs i) (hP : φ (fluxCorrection D M X i j) = -φ (fluxCorrection D M X j i)) :
    M.lumped i * (1 / ((M.nbrs i).length : ℝ)) * φ (pIJ D M X i j)
      = -(M.lumped j * (1 / ((M.nbrs j).length : ℝ)) * φ (pIJ D M X j i)) := by
  have key : ∀ i j, j ∈ M.nbrs i → M.lumped i * (1 / ((M.nbrs i).length : ℝ)) * φ (pIJ D M X i j)
      = X.tau * (φ (pStep4 D M X i j) +
          (bIJ M i j * φ (rhsH D M X j) - bJI M i j * φ (rhsH D M X i))) := by
    intro i j hj
    have h1 : (M.lumped i) ≠ 0 := (hS.lumped i).ne'
    have h2 : ((M.nbrs i).length : ℝ) ≠ 0 := by
      have : 0 < (M.nbrs i).length := List.length_pos_of_mem hj
      positivity
    unfold pIJ
    simp only [map_smul, smul_eq_mul, map_add, map_sub]
    field_simp
  have hb1 : bIJ M i j = bJI M j i := by unfold bIJ bJI; rw [hS.mass i j hj, hS.massInv i j hj]
  have hb2 : bJI M i j = bIJ M j i := by unfold bIJ bJI; rw [hS.mass i j hj, hS.massInv i j hj]
  rw [key i j hj, key j i (hM.symm i j hj), pStep4_balance hst hsrc hS hd hj hP, hb1, hb2]
  ring

open Classical in
theorem lowOrder_balance [Fintype ι] (hM : M.WellFormed)
    (hst : ∀ U f V g, φ ((D.stars U f V g).2 - (D.stars U f V g).1)
      = -φ ((D.stars V g U f).2 - (D.stars V g U f).1))
    (hsrc : ∀ p i U tau, φ (D.source p i U tau) = 0) (hS : M.Symmetric)
    (hd : ∀ i, ∀ j ∈ M.nbrs i, X.d i j = X.d j i) :
    ∑ i ∈ Finset.univ.filter M.active, M.lumped i * φ (lowOrder D M X i)
      = ∑ i ∈ Finset.univ.filter M.active, M.lumped i * φ (X.old.U i) +
        X.tau * ∑ i ∈ Finset.univ.filter M.active, ((M.columns i).map fun j => φ (fluxIJ D M X i j)).sum := by
  have hjump : ∀ i j, φ (jump D X i j) = -φ (jump D X j i) := fun i j => hst _ _ _ _
  have h1 : ∀ i ∈ Finset.univ.filter M.active, M.lumped i * φ (lowOrder D M X i)
      = M.lumped i * φ (X.old.U i) + (X.tau * ((M.columns i).map fun j => φ (fluxIJ D M X i j)).sum +
          ((M.nbrs i).map fun j => X.tau * (X.d i j * φ (jump D X i j))).sum) := by
    intro i _
    have h1 : (M.lumped i) ≠ 0 := (hS.lumped i).ne'
    have hjj : φ (jump D X i i) = 0 := by have := hjump i i; linarith
    have hcol : ∀ l : List ι, (l.map fun j => φ ((X.tau * (M.lumped i)⁻¹) • fluxIJ D M X i j +
        (X.tau * (M.lumped i)⁻¹ * X.d i j) • jump D X i j)).sum =
        (M.lumped i)⁻¹ * (X.tau * (l.map fun j => φ (fluxIJ D M X i j)).sum +
          (l.map fun j => X.tau * (X.d i j * φ (jump D X i j))).sum) := by
      intro l
      induction l with
      | nil => simp
      | cons a t ih =>
        simp only [List.map_cons, List.sum_cons]
        rw [ih]
        simp only [map_add, map_smul, smul_eq_mul]
        ring
    unfold lowOrder
    rw [map_add, map_add, map_list_sum, hcol (M.columns i), map_smul, sourceAt, hsrc, smul_zero, add_zero, mul_add, ← mul_assoc, mul_inv_cancel₀ h1, one_mul]
    congr 2
    simp [Mesh.columns, hjj]
  have hz : ∑ i ∈ Finset.univ.filter M.active, ((M.nbrs i).map fun j =>
          X.tau * (X.d i j * φ (jump D X i j))).sum = 0 := by
    rw [sum_active]
    · apply sum_antisymm M hM fun i j => X.tau * (X.d i j * φ (jump D X i j))
      intro i j hj
      rw [hd i j hj, hjump i j]
      ring
    · intro i hi
      have : M.nbrs i = [] := by simpa [Mesh.active] using hi
      simp [this]
  rw [Finset.sum_congr rfl h1, Finset.sum_add_distrib, Finset.sum_add_distrib, hz, add_zero, Finset.mul_sum]

end core

open Classical in
/-- The change of a total by one step, if the flux parts of the corrections are antisymmetric. -/
theorem step_balance [Fintype ι] [AddCommGroup S] [Module ℝ S] (D : Description ι P S F B dim)
    (M : Mesh ι dim) (hM : M.WellFormed) (hS : M.Symmetric) (φ : S →ₗ[ℝ] ℝ)
    (hst : ∀ U f V g, φ ((D.stars U f V g).2 - (D.stars U f V g).1) = -φ ((D.stars V g U f).2 - (D.stars V g U f).1))
    (hsrc : ∀ p i U tau, φ (D.source p i U tau) = 0)
    (par : Params) (strategy : Strategy) (cnt : Counters) (lo : Leftover ι S) (old : StateVector ι P S)
    (stages : List (ℝ × StateVector ι P S)) (tau tau_max : ℝ)
    (hd : SymmetricViscosity D M lo.dij old)
    (hP : ∀ tau i, ∀ j ∈ M.nbrs i, φ (fluxCorrection D M (stage4 D M par lo old stages tau) i j) =
      -φ (fluxCorrection D M (stage4 D M par lo old stages tau) j i))
    (U : ι → S) (t : ℝ) (h : (step D M par strategy cnt lo old stages tau tau_max).1 = .done U t) :
    ∑ i ∈ Finset.univ.filter (fun i => M.nbrs i ≠ []), M.lumped i * φ (U i)
      = ∑ i ∈ Finset.univ.filter (fun i => M.nbrs i ≠ []), M.lumped i * φ (old.U i) +
        t * ∑ i ∈ Finset.univ.filter (fun i => M.nbrs i ≠ []), ((M.columns i).map fun j =>
          φ (D.fluxDiv (D.flux old.prec i (old.U i)) (D.flux old.prec j (old.U j)) (M.c i j))).sum := by
  obtain ⟨-, -, rfl⟩ := step_done h
  set X := stage4 D M par lo old stages t with hX
  have hd' : ∀ i, ∀ j ∈ M.nbrs i, X.d i j = X.d j i := by
    intro i j hj
    have hne : i ≠ j := fun e => hM.irrefl i (e ▸ hj)
    simp only [hX, stage4, hne, hne.symm, if_false]
    exact hd i j hj
  have main : ∑ i ∈ Finset.univ.filter M.active, M.lumped i * φ (newStates D M par lo X i)
        = ∑ i ∈ Finset.univ.filter M.active, M.lumped i * φ (old.U i) +
          t * ∑ i ∈ Finset.univ.filter M.active, ((M.columns i).map fun j => φ (fluxIJ D M X i j)).sum := by
    unfold newStates
    rw [limiterLoop_conserves D M hM φ _ _ (fun i j hj => pIJ_balance hM hst hsrc hS hd' hj (hP t i j hj))]
    refine Eq.trans ?_ (lowOrder_balance (X := X) hM hst hsrc hS hd')
    refine Finset.sum_congr rfl fun i hi => ?_
    have : M.active i := (Finset.mem_filter.1 hi).2
    simp [newLow, this]
  convert main
  rfl

/-- `Σ_i Σ_j g_ij` over all pairs of the stencil, summed up in either order. -/
theorem sum_swap [Fintype ι] (M : Mesh ι dim) (hM : M.WellFormed) (g : ι → ι → ℝ) :
    ∑ i, ((M.nbrs i).map fun j => g i j).sum = ∑ j, ((M.nbrs j).map fun i => g i j).sum := by
  have h := sum_antisymm M hM (fun i j => g i j - g j i) (fun i j _ => by ring)
  have e : ∀ i, ((M.nbrs i).map fun j => g i j - g j i).sum =
      ((M.nbrs i).map fun j => g i j).sum - ((M.nbrs i).map fun j => g j i).sum := by
    intro i
    induction M.nbrs i with
    | nil => simp
    | cons a t ih => simp only [List.map_cons, List.sum_cons, ih]; ring
  simp only [e, Finset.sum_sub_distrib] at h
  linarith

/-- The column sum `Σ_i c_ij`.  For the assembled matrix this is `∫ φ_j n` over the boundary (`C93_assembled_normal`);
it vanishes in the interior. -/
noncomputable def Mesh.boundaryNormal (M : Mesh ι dim) (j : ι) : Vec dim :=
  M.c j j + ((M.nbrs j).map fun i => M.c i j).sum

theorem lin_list_sum [AddCommGroup S] [Module ℝ S] {A : Type} (L : Vec dim →ₗ[ℝ] S) (φ : S →ₗ[ℝ] ℝ) (l : List A)
    (g : A → Vec dim) : φ (L (l.map g).sum) = (l.map fun a => φ (L (g a))).sum := by
  induction l with
  | nil => simp
  | cons a t ih => simp only [List.map_cons, List.sum_cons, map_add, ih]

open Classical in
/-- **C93 (balance law).** Without stages (all strong stability preserving schemes, and single stage updates) and for
equations with central fluxes, one call of `step` changes `Σ_i m_i φ(U_i)` by exactly minus the time step times the flux
of the old states through the boundary, `Σ_j φ(f(U_j) · ∂n_j)` with `∂n_j = Σ_i c_ij`: for every linear functional `φ`,
every mesh, boundary, limiter, indicator, row schedule and time-step size. -/
theorem C93_balance [Fintype ι] [AddCommGroup S] [Module ℝ S] (D : Description ι P S F B dim)
    (M : Mesh ι dim) (hM : M.WellFormed) (hS : M.Symmetric) (K : F → Vec dim →ₗ[ℝ] S) (hK : D.CentralFlux K)
    (hho : D.highOrder = D.fluxDiv) (φ : S →ₗ[ℝ] ℝ)
    (par : Params) (strategy : Strategy) (cnt : Counters) (lo : Leftover ι S) (old : StateVector ι P S) (tau tau_max : ℝ)
    (hd : SymmetricViscosity D M lo.dij old)
    (hrow : ∀ i, M.nbrs i ≠ [] → M.c i i + ((M.nbrs i).map (M.c i)).sum = 0)
    (U : ι → S) (t : ℝ) (h : (step D M par strategy cnt lo old [] tau tau_max).1 = .done U t) :
    ∑ i ∈ Finset.univ.filter (fun i => M.nbrs i ≠ []), M.lumped i * φ (U i)
      = ∑ i ∈ Finset.univ.filter (fun i => M.nbrs i ≠ []), M.lumped i * φ (old.U i) -
        t * ∑ j ∈ Finset.univ.filter (fun i => M.nbrs i ≠ []),
          φ (K (D.flux old.prec j (old.U j)) (M.boundaryNormal j)) := by
  have hC := hK.conserves hho φ
  rw [step_balance D M hM hS φ hC.stars hC.source par strategy cnt lo old [] tau tau_max hd (fun tau i j _ => by
    have hw : (stage4 D M par lo old [] tau).weight = 1 := by simp [Stage4.weight, stage4]
    have hz : ∀ i j, fluxCorrection D M (stage4 D M par lo old [] tau) i j = 0 := by
      intro i j
      unfold fluxCorrection
      rw [hw]
      simp [stage4, highOrderIJ, fluxIJ, hho]
    rw [hz, hz, map_zero, neg_zero]) U t h, sub_eq_add_neg, ← mul_neg]
  congr 2
  rw [← Finset.sum_neg_distrib]
  set f := fun i => D.flux old.prec i (old.U i) with hf
  have hcol : ∀ i ∈ Finset.univ.filter (fun i => M.nbrs i ≠ []), ((M.columns i).map fun j =>
      φ (D.fluxDiv (f i) (f j) (M.c i j))).sum = -φ (K (f i) (M.c i i)) -
        ((M.nbrs i).map fun j => φ (K (f j) (M.c i j))).sum := by
    intro i hi
    have hi' := (Finset.mem_filter.1 hi).2
    have h0 : φ (K (f i) (M.c i i)) + ((M.nbrs i).map fun j => φ (K (f i) (M.c i j))).sum = 0 := by
      rw [← lin_list_sum (K (f i)) φ (M.nbrs i) (M.c i), ← map_add, ← map_add, hrow i hi', map_zero, map_zero]
    have e : ∀ l : List ι, (l.map fun j => φ (D.fluxDiv (f i) (f j) (M.c i j))).sum =
        -(l.map fun j => φ (K (f i) (M.c i j))).sum - (l.map fun j => φ (K (f j) (M.c i j))).sum := by
      intro l
      induction l with
      | nil => simp
      | cons a t ih =>
        simp only [List.map_cons, List.sum_cons]
        rw [ih, hK.fluxDiv, map_neg, map_add]
        ring
    rw [e, Mesh.columns]
    simp only [List.map_cons, List.sum_cons]
    linarith
  refine (Finset.sum_congr rfl hcol).trans ?_
  have hbn : ∀ j, φ (K (f j) (M.boundaryNormal j)) = φ (K (f j) (M.c j j)) +
      ((M.nbrs j).map fun i => φ (K (f j) (M.c i j))).sum := by
    intro j
    unfold Mesh.boundaryNormal
    rw [map_add, map_add, lin_list_sum (K (f j)) φ (M.nbrs j) (fun i => M.c i j)]
  refine Eq.trans ?_ (Finset.sum_congr rfl fun j _ => congrArg Neg.neg (hbn j)).symm
  simp only [Finset.sum_sub_distrib, Finset.sum_neg_distrib, Finset.sum_add_distrib, neg_add]
  rw [sub_eq_add_neg]
  congr 2
  have hs := sum_swap M hM fun i j => φ (K (f j) (M.c i j))
  have h1 := sum_active M (fun i => ((M.nbrs i).map fun j => φ (K (f j) (M.c i j))).sum) (fun i hi => by
      have : M.nbrs i = [] := by simpa [Mesh.active] using hi
      simp [this])
  have h2 := sum_active M (fun i => ((M.nbrs i).map fun j => φ (K (f i) (M.c j i))).sum) (fun i hi => by
      have : M.nbrs i = [] := by simpa [Mesh.active] using hi
      simp [this])
  refine Eq.trans (Finset.sum_congr ?_ fun _ _ => rfl) ((h1.trans (hs.trans h2.symm)).trans (Finset.sum_congr ?_ fun _ _ => rfl))
  all_goals ext x; simp [Mesh.active]

/-- The `φ`-fluxes of a state vector over every pair of the stencil, and over the diagonal, cancel. -/
structure PairBalanced (D : Description ι P S F B dim) (M : Mesh ι dim) [AddCommGroup S] [Module ℝ S] (φ : S →ₗ[ℝ] ℝ)
    (w : StateVector ι P S) : Prop where
  fluxDiv : ∀ i, ∀ j ∈ M.columns i, φ (D.fluxDiv (D.flux w.prec i (w.U i)) (D.flux w.prec j (w.U j)) (M.c i j)) =
    -φ (D.fluxDiv (D.flux w.prec j (w.U j)) (D.flux w.prec i (w.U i)) (M.c j i))
  highOrder : ∀ i, ∀ j ∈ M.columns i, φ (D.highOrder (D.flux w.prec i (w.U i)) (D.flux w.prec j (w.U j)) (M.c i j)) =
    -φ (D.highOrder (D.flux w.prec j (w.U j)) (D.flux w.prec i (w.U i)) (M.c j i))

open Classical in
/-- The total of `φ` does not change if the fluxes of the old vector and of all stages cancel pair by pair. -/
theorem pair_conserves [Fintype ι] [AddCommGroup S] [Module ℝ S] (D : Description ι P S F B dim)
    (M : Mesh ι dim) (hM : M.WellFormed) (hS : M.Symmetric) (φ : S →ₗ[ℝ] ℝ)
    (hst : ∀ U f V g, φ ((D.stars U f V g).2 - (D.stars U f V g).1) = -φ ((D.stars V g U f).2 - (D.stars V g U f).1))
    (hsrc : ∀ p i U tau, φ (D.source p i U tau) = 0)
    (par : Params) (strategy : Strategy) (cnt : Counters) (lo : Leftover ι S) (old : StateVector ι P S)
    (stages : List (ℝ × StateVector ι P S)) (tau tau_max : ℝ)
    (hd : SymmetricViscosity D M lo.dij old)
    (hold : PairBalanced D M φ old) (hstages : ∀ s ∈ stages, PairBalanced D M φ s.2)
    (U : ι → S) (t : ℝ) (h : (step D M par strategy cnt lo old stages tau tau_max).1 = .done U t) :
    ∑ i ∈ Finset.univ.filter (fun i => M.nbrs i ≠ []), M.lumped i * φ (U i)
      = ∑ i ∈ Finset.univ.filter (fun i => M.nbrs i ≠ []), M.lumped i * φ (old.U i) := by
  have hmem : ∀ {i j}, j ∈ M.nbrs i → j ∈ M.columns i := fun hj => List.mem_cons_of_mem _ hj
  rw [step_balance D M hM hS φ hst hsrc par strategy cnt lo old stages tau tau_max hd (fun tau i j hj => ?_) U t h]
  · rw [add_eq_left]
    refine mul_eq_zero_of_right _ ?_
    have hdiag : ∀ i, φ (D.fluxDiv (D.flux old.prec i (old.U i)) (D.flux old.prec i (old.U i)) (M.c i i)) = 0 := by
      intro i
      have := hold.fluxDiv i i List.mem_cons_self
      linarith
    simp only [Mesh.columns, List.map_cons, List.sum_cons, hdiag, zero_add]
    have h1 := sum_active M (fun i => ((M.nbrs i).map fun j =>
      φ (D.fluxDiv (D.flux old.prec i (old.U i)) (D.flux old.prec j (old.U j)) (M.c i j))).sum) (fun i hi => by
        have : M.nbrs i = [] := by simpa [Mesh.active] using hi
        simp [this])
    have h2 := sum_antisymm M hM (fun i j =>
      φ (D.fluxDiv (D.flux old.prec i (old.U i)) (D.flux old.prec j (old.U j)) (M.c i j)))
      (fun i j hj => hold.fluxDiv i j (hmem hj))
    rw [h2] at h1
    refine Eq.trans (Finset.sum_congr ?_ fun _ _ => rfl) h1
    ext x; simp [Mesh.active]
  · unfold fluxCorrection
    rw [map_add, map_add, map_add, map_add, map_neg, map_neg, map_smul, map_smul]
    have e1 : φ (fluxIJ D M (stage4 D M par lo old stages tau) i j) =
        -φ (fluxIJ D M (stage4 D M par lo old stages tau) j i) := hold.fluxDiv i j (hmem hj)
    have e2 : φ (highOrderIJ D M (stage4 D M par lo old stages tau) i j) =
        -φ (highOrderIJ D M (stage4 D M par lo old stages tau) j i) := hold.highOrder i j (hmem hj)
    have e3 : ∀ l : List (ℝ × StateVector ι P S), (∀ s ∈ l, PairBalanced D M φ s.2) →
        φ (l.map fun s => s.1 • stageFluxIJ D M s i j).sum = -φ (l.map fun s => s.1 • stageFluxIJ D M s j i).sum := by
      intro l
      induction l with
      | nil => simp
      | cons a t ih =>
        intro hl
        have ha : φ (stageFluxIJ D M a i j) = -φ (stageFluxIJ D M a j i) :=
          (hl a (by simp)).highOrder i j (hmem hj)
        simp only [List.map_cons, List.sum_cons]
        rw [map_add, map_add, ih (fun s hs => hl s (by simp [hs])), map_smul, map_smul, ha]
        simp only [smul_eq_mul]; ring
    rw [e1, e2, show (stage4 D M par lo old stages tau).stages = stages from rfl, e3 stages hstages]
    simp only [smul_eq_mul]; ring

end Hyp

/-! ### Walls -/

open Hyp

variable {ι : Type} {dim : ℕ}

/-- The flux of the Euler equations through `c`. -/
theorem Aeos.fluxThrough_f (U : Euler.State dim) (pr : ℝ) (c : Vec dim) :
    contract (Aeos.f U pr) c 0 = dot (Euler.momentum U) c ∧
    contract (Aeos.f U pr) c (Fin.last (dim + 1)) =
      1 / Euler.density U * (Euler.totalEnergy U + pr) * dot (Euler.momentum U) c ∧
    ∀ i : Fin dim, contract (Aeos.f U pr) c i.castSucc.succ =
      Euler.momentum U i * (1 / Euler.density U) * dot (Euler.momentum U) c + pr * c i := by
  refine ⟨rfl, ?_, fun i => ?_⟩
  · have : Aeos.f U pr (Fin.last (dim + 1)) = fun k => Euler.momentum U k * (1 / Euler.density U * (Euler.totalEnergy U + pr)) := by
      unfold Aeos.f
      rw [show Fin.last (dim + 1) = (Fin.last dim).succ from rfl, Fin.cons_succ, Fin.snoc_last]
    simp only [contract, this, dot, Finset.mul_sum]
    exact Finset.sum_congr rfl fun k _ => by ring
  · have : Aeos.f U pr i.castSucc.succ =
        fun k => Euler.momentum U k * (Euler.momentum U i * (1 / Euler.density U)) + if k = i then pr else 0 := by
      unfold Aeos.f
      rw [Fin.cons_succ, Fin.snoc_castSucc]
    simp only [contract, this, dot, add_mul, Finset.sum_add_distrib, ite_mul, zero_mul, Finset.sum_ite_eq',
      Finset.mem_univ, if_true, Finset.mul_sum]
    congr 1
    exact Finset.sum_congr rfl fun k _ => by ring

/-- **C93 (Euler, impermeable boundary).** Without stages: if no mass flows through the boundary – the momentum of every
old state is orthogonal to its boundary normal `∂n_j` –, total mass and total energy are exactly conserved and the total
momentum changes by the pressure force on the boundary. -/
theorem C93_euler_walls [Fintype ι] (p : Euler.Params) (lp : Ryujin.LimiterParams) (big : ℝ)
    (riem : ι → ι → Euler.State dim → Euler.State dim → Vec dim → ℝ)
    (ind : Euler.State dim → List (Euler.State dim × Vec dim) → ℝ → ℝ)
    (lim : ι → ι → Euler.Bounds → Euler.State dim → Euler.State dim → ℝ × Prop)
    (M : Mesh ι dim) (hM : M.WellFormed) (hS : M.Symmetric) (hact : ∀ i, M.nbrs i ≠ [])
    (par : Hyp.Params) (strategy : Strategy) (cnt : Counters) (lo : Leftover ι (Euler.State dim))
    (old : StateVector ι Unit (Euler.State dim)) (tau tau_max : ℝ)
    (hd : SymmetricViscosity (Euler.description p lp big riem ind lim) M lo.dij old)
    (hrow : ∀ i, M.c i i + ((M.nbrs i).map (M.c i)).sum = 0)
    (hwall : ∀ j, dot (Euler.momentum (old.U j)) (M.boundaryNormal j) = 0)
    (U : ι → Euler.State dim) (t : ℝ)
    (h : (step (Euler.description p lp big riem ind lim) M par strategy cnt lo old [] tau tau_max).1 = .done U t) :
    ∑ i, M.lumped i * Euler.density (U i) = ∑ i, M.lumped i * Euler.density (old.U i) ∧
    ∑ i, M.lumped i * Euler.totalEnergy (U i) = ∑ i, M.lumped i * Euler.totalEnergy (old.U i) ∧
    ∀ k, ∑ i, M.lumped i * Euler.momentum (U i) k = ∑ i, M.lumped i * Euler.momentum (old.U i) k -
      t * ∑ j, Euler.pressure p (old.U j) * M.boundaryNormal j k := by
  classical
  have key := fun k : Fin (dim + 2) => C93_balance (Euler.description p lp big riem ind lim) M hM hS contractLin
    (Euler.centralFlux p lp big riem ind lim) rfl (LinearMap.proj k) par strategy cnt lo old tau tau_max hd
    (fun i _ => hrow i) U t h
  simp only [hact, ne_eq, not_false_eq_true, Finset.filter_true, LinearMap.proj_apply] at key
  have hval : ∀ j k, contractLin ((Euler.description p lp big riem ind lim).flux old.prec j (old.U j)) (M.boundaryNormal j) k =
      contract (Aeos.f (old.U j) (Euler.pressure p (old.U j))) (M.boundaryNormal j) k := fun _ _ => rfl
  have hf := fun j => Aeos.fluxThrough_f (old.U j) (Euler.pressure p (old.U j)) (M.boundaryNormal j)
  refine ⟨?_, ?_, fun k => ?_⟩
  · have := key 0
    simp only [hval, (hf _).1, hwall, Finset.sum_const_zero, mul_zero, sub_zero] at this
    exact this
  · have := key (Fin.last (dim + 1))
    simp only [hval, (hf _).2.1, hwall, Finset.sum_const_zero, mul_zero, sub_zero] at this
    exact this
  · have := key k.castSucc.succ
    simp only [hval, (hf _).2.2, hwall, mul_zero, zero_add] at this
    exact this

/-- **C93 (Euler with arbitrary equation of state, impermeable boundary).** The pressure of the force is the precomputed
one. -/
theorem C93_aeos_walls [Fintype ι] {B : Type}
    (riem : (ι → ℝ) → ι → ι → Euler.State dim → Euler.State dim → Vec dim → ℝ)
    (ind : (ι → ℝ) → ι → Euler.State dim → List (ι × Euler.State dim × Vec dim) → ℝ → ℝ)
    (bnds : (ι → ℝ) → ι → Euler.State dim → (Fin (dim + 2) → Vec dim) →
      List (LimiterEntry ι (Euler.State dim) (Fin (dim + 2) → Vec dim) dim) → ℝ → B)
    (comb : B → B → B) (lim : ι → ι → B → Euler.State dim → Euler.State dim → ℝ × Prop)
    (M : Mesh ι dim) (hM : M.WellFormed) (hS : M.Symmetric) (hact : ∀ i, M.nbrs i ≠ [])
    (par : Hyp.Params) (strategy : Strategy) (cnt : Counters) (lo : Leftover ι (Euler.State dim))
    (old : StateVector ι (ι → ℝ) (Euler.State dim)) (tau tau_max : ℝ)
    (hd : SymmetricViscosity (Aeos.description riem ind bnds comb lim) M lo.dij old)
    (hrow : ∀ i, M.c i i + ((M.nbrs i).map (M.c i)).sum = 0)
    (hwall : ∀ j, dot (Euler.momentum (old.U j)) (M.boundaryNormal j) = 0)
    (U : ι → Euler.State dim) (t : ℝ)
    (h : (step (Aeos.description riem ind bnds comb lim) M par strategy cnt lo old [] tau tau_max).1 = .done U t) :
    ∑ i, M.lumped i * Euler.density (U i) = ∑ i, M.lumped i * Euler.density (old.U i) ∧
    ∑ i, M.lumped i * Euler.totalEnergy (U i) = ∑ i, M.lumped i * Euler.totalEnergy (old.U i) ∧
    ∀ k, ∑ i, M.lumped i * Euler.momentum (U i) k = ∑ i, M.lumped i * Euler.momentum (old.U i) k -
      t * ∑ j, old.prec j * M.boundaryNormal j k := by
  classical
  have key := fun k : Fin (dim + 2) => C93_balance (Aeos.description riem ind bnds comb lim) M hM hS contractLin
    (Aeos.centralFlux riem ind bnds comb lim) rfl (LinearMap.proj k) par strategy cnt lo old tau tau_max hd
    (fun i _ => hrow i) U t h
  simp only [hact, ne_eq, not_false_eq_true, Finset.filter_true, LinearMap.proj_apply] at key
  have hval : ∀ j k, contractLin ((Aeos.description riem ind bnds comb lim).flux old.prec j (old.U j)) (M.boundaryNormal j) k =
      contract (Aeos.f (old.U j) (old.prec j)) (M.boundaryNormal j) k := fun _ _ => rfl
  have hf := fun j => Aeos.fluxThrough_f (old.U j) (old.prec j) (M.boundaryNormal j)
  refine ⟨?_, ?_, fun k => ?_⟩
  · have := key 0
    simp only [hval, (hf _).1, hwall, Finset.sum_const_zero, mul_zero, sub_zero] at this
    exact this
  · have := key (Fin.last (dim + 1))
    simp only [hval, (hf _).2.1, hwall, Finset.sum_const_zero, mul_zero, sub_zero] at this
    exact this
  · have := key k.castSucc.succ
    simp only [hval, (hf _).2.2, hwall, mul_zero, zero_add] at this
    exact this

/-- **C93 (scalar equations).** Without stages, and with random entropies only if they are consistent: the total of `u`
changes by minus the time step times the flux of the old values through the boundary. -/
theorem C93_scalar_balance [Fintype ι] (fl : Scalar.Flux dim) (q : Scalar.StepParams)
    (draws : ι → ι → List ℝ) (hdraws : ∀ i j, draws j i = (draws i j).map (1 - ·))
    (lim : ι → ι → Scalar.Bounds → Scalar.State → Scalar.State → ℝ × Prop)
    (M : Mesh ι dim) (hM : M.WellFormed) (hS : M.Symmetric) (hact : ∀ i, M.nbrs i ≠ [])
    (par : Hyp.Params) (strategy : Strategy) (cnt : Counters) (lo : Leftover ι Scalar.State)
    (old : StateVector ι Unit Scalar.State) (tau tau_max : ℝ)
    (hskew : ∀ i, ∀ j ∈ M.nbrs i, ¬ (M.boundary i ∧ M.boundary j) → M.c j i = -M.c i j)
    (hrow : ∀ i, M.c i i + ((M.nbrs i).map (M.c i)).sum = 0) (U : ι → Scalar.State) (t : ℝ)
    (h : (step (Scalar.description fl q draws lim) M par strategy cnt lo old [] tau tau_max).1 = .done U t) :
    ∑ i, M.lumped i * U i 0 = ∑ i, M.lumped i * old.U i 0 -
      t * ∑ j, dot (Scalar.fluxFunction fl (old.U j 0)) (M.boundaryNormal j) := by
  classical
  have key := C93_balance (Scalar.description fl q draws lim) M hM hS contractLin
    (Scalar.centralFlux fl q draws lim) rfl (LinearMap.proj 0) par strategy cnt lo old tau tau_max
    (.of_reversible hM (fun i j _ _ => by
      have := Scalar.C10_scalar_swap fl q.rp (draws i j) (Scalar.state (old.U i)) (Scalar.state (old.U j))
        (fun k => M.c i j k / vnorm (M.c i j))
      rw [← hdraws i j] at this
      exact this.symm) hskew) (fun i _ => hrow i) U t h
  simp only [hact, ne_eq, not_false_eq_true, Finset.filter_true, LinearMap.proj_apply] at key
  exact key

/-! ### Flat walls: any Runge-Kutta scheme -/

/-- No flow through the boundary, pair by pair: for all `j` in the stencil of `i` the momentum of `i` is orthogonal to
`c_ij + c_ji`, which is `∫ φ_i φ_j n` over the boundary (`C87_integration_by_parts`).  On straight walls this is the case
if the momenta of all boundary states are orthogonal to the normal. -/
def PairImpermeable (M : Mesh ι dim) (m : ι → Vec dim) : Prop :=
  ∀ i, ∀ j ∈ M.columns i, dot (m i) (M.c i j + M.c j i) = 0

theorem PairImpermeable.flux {M : Mesh ι dim} (hM : M.WellFormed) {m : ι → Vec dim} (h : PairImpermeable M m) {i j : ι}
    (hj : j ∈ M.columns i) :
    dot (m i) (M.c j i) = -dot (m i) (M.c i j) ∧ dot (m j) (M.c j i) = -dot (m j) (M.c i j) := by
  have hi : i ∈ M.columns j := by
    rcases List.mem_cons.1 hj with rfl | hj
    · exact List.mem_cons_self
    · exact List.mem_cons_of_mem _ (hM.symm i j hj)
  have h1 := h i j hj
  have h2 := h j i hi
  rw [dot_add_right] at h1 h2
  constructor <;> linarith

/-- Mass and energy fluxes of the Euler equations cancel pair by pair. -/
theorem PairImpermeable.euler {M : Mesh ι dim} (hM : M.WellFormed) {m : ι → Vec dim} (hw : PairImpermeable M m)
    (U : ι → Euler.State dim) (pr : ι → ℝ) (hm : ∀ i, Euler.momentum (U i) = m i) (k : Fin (dim + 2))
    (hk : k = 0 ∨ k = Fin.last (dim + 1)) (i j : ι) (hj : j ∈ M.columns i) :
    Euler.fluxDivergence (Aeos.f (U i) (pr i)) (Aeos.f (U j) (pr j)) (M.c i j) k =
      -Euler.fluxDivergence (Aeos.f (U j) (pr j)) (Aeos.f (U i) (pr i)) (M.c j i) k := by
  obtain ⟨h1, h2⟩ := hw.flux hM hj
  have e : ∀ a b : ι, ∀ c, Euler.fluxDivergence (Aeos.f (U a) (pr a)) (Aeos.f (U b) (pr b)) c k =
      -(contract (Aeos.f (U a) (pr a)) c k + contract (Aeos.f (U b) (pr b)) c k) := by
    intro a b c
    unfold Euler.fluxDivergence
    rw [contract_addFlux]; rfl
  rw [e, e]
  rcases hk with rfl | rfl
  · rw [(Aeos.fluxThrough_f _ _ _).1, (Aeos.fluxThrough_f _ _ _).1, (Aeos.fluxThrough_f _ _ _).1,
      (Aeos.fluxThrough_f _ _ _).1, hm, hm, h1, h2]; ring
  · rw [(Aeos.fluxThrough_f _ _ _).2.1, (Aeos.fluxThrough_f _ _ _).2.1, (Aeos.fluxThrough_f _ _ _).2.1,
      (Aeos.fluxThrough_f _ _ _).2.1, hm, hm, h1, h2]; ring

/-- **C93 (Euler, flat walls).** With any stages, if old vector and stages are impermeable pair by pair: total mass and
total energy are exactly conserved. -/
theorem C93_euler_flat_walls [Fintype ι] (p : Euler.Params) (lp : Ryujin.LimiterParams) (big : ℝ)
    (riem : ι → ι → Euler.State dim → Euler.State dim → Vec dim → ℝ)
    (ind : Euler.State dim → List (Euler.State dim × Vec dim) → ℝ → ℝ)
    (lim : ι → ι → Euler.Bounds → Euler.State dim → Euler.State dim → ℝ × Prop)
    (M : Mesh ι dim) (hM : M.WellFormed) (hS : M.Symmetric) (hact : ∀ i, M.nbrs i ≠ [])
    (par : Hyp.Params) (strategy : Strategy) (cnt : Counters) (lo : Leftover ι (Euler.State dim))
    (old : StateVector ι Unit (Euler.State dim)) (stages : List (ℝ × StateVector ι Unit (Euler.State dim)))
    (tau tau_max : ℝ)
    (hd : SymmetricViscosity (Euler.description p lp big riem ind lim) M lo.dij old)
    (hold : PairImpermeable M fun i => Euler.momentum (old.U i))
    (hstages : ∀ s ∈ stages, PairImpermeable M fun i => Euler.momentum (s.2.U i))
    (U : ι → Euler.State dim) (t : ℝ)
    (h : (step (Euler.description p lp big riem ind lim) M par strategy cnt lo old stages tau tau_max).1 = .done U t) :
    ∑ i, M.lumped i * Euler.density (U i) = ∑ i, M.lumped i * Euler.density (old.U i) ∧
    ∑ i, M.lumped i * Euler.totalEnergy (U i) = ∑ i, M.lumped i * Euler.totalEnergy (old.U i) := by
  classical
  have hpair : ∀ w : StateVector ι Unit (Euler.State dim), (PairImpermeable M fun i => Euler.momentum (w.U i)) →
      ∀ k, k = 0 ∨ k = Fin.last (dim + 1) →
      PairBalanced (Euler.description p lp big riem ind lim) M (LinearMap.proj k) w := fun w hw k hk =>
    ⟨fun i j hj => hw.euler hM (fun i => w.U i) (fun i => Euler.pressure p (w.U i)) (fun _ => rfl) k hk i j hj,
      fun i j hj => hw.euler hM (fun i => w.U i) (fun i => Euler.pressure p (w.U i)) (fun _ => rfl) k hk i j hj⟩
  have key := fun k hk => pair_conserves (Euler.description p lp big riem ind lim) M hM hS (LinearMap.proj k)
    (fun U f V g => by simp [Euler.description]) (fun _ _ _ _ => by simp [Euler.description])
    par strategy cnt lo old stages tau tau_max hd (hpair old hold k hk)
    (fun s hs => hpair s.2 (hstages s hs) k hk) U t h
  simp only [hact, ne_eq, not_false_eq_true, Finset.filter_true, LinearMap.proj_apply] at key
  exact ⟨key 0 (Or.inl rfl), key _ (Or.inr rfl)⟩

/-- **C93 (Euler with arbitrary equation of state, flat walls).** -/
theorem C93_aeos_flat_walls [Fintype ι] {B : Type}
    (riem : (ι → ℝ) → ι → ι → Euler.State dim → Euler.State dim → Vec dim → ℝ)
    (ind : (ι → ℝ) → ι → Euler.State dim → List (ι × Euler.State dim × Vec dim) → ℝ → ℝ)
    (bnds : (ι → ℝ) → ι → Euler.State dim → (Fin (dim + 2) → Vec dim) →
      List (LimiterEntry ι (Euler.State dim) (Fin (dim + 2) → Vec dim) dim) → ℝ → B)
    (comb : B → B → B) (lim : ι → ι → B → Euler.State dim → Euler.State dim → ℝ × Prop)
    (M : Mesh ι dim) (hM : M.WellFormed) (hS : M.Symmetric) (hact : ∀ i, M.nbrs i ≠ [])
    (par : Hyp.Params) (strategy : Strategy) (cnt : Counters) (lo : Leftover ι (Euler.State dim))
    (old : StateVector ι (ι → ℝ) (Euler.State dim)) (stages : List (ℝ × StateVector ι (ι → ℝ) (Euler.State dim)))
    (tau tau_max : ℝ)
    (hd : SymmetricViscosity (Aeos.description riem ind bnds comb lim) M lo.dij old)
    (hold : PairImpermeable M fun i => Euler.momentum (old.U i))
    (hstages : ∀ s ∈ stages, PairImpermeable M fun i => Euler.momentum (s.2.U i))
    (U : ι → Euler.State dim) (t : ℝ)
    (h : (step (Aeos.description riem ind bnds comb lim) M par strategy cnt lo old stages tau tau_max).1 = .done U t) :
    ∑ i, M.lumped i * Euler.density (U i) = ∑ i, M.lumped i * Euler.density (old.U i) ∧
    ∑ i, M.lumped i * Euler.totalEnergy (U i) = ∑ i, M.lumped i * Euler.totalEnergy (old.U i) := by
  classical
  have hpair : ∀ w : StateVector ι (ι → ℝ) (Euler.State dim), (PairImpermeable M fun i => Euler.momentum (w.U i)) →
      ∀ k, k = 0 ∨ k = Fin.last (dim + 1) →
      PairBalanced (Aeos.description riem ind bnds comb lim) M (LinearMap.proj k) w := fun w hw k hk =>
    ⟨fun i j hj => hw.euler hM (fun i => w.U i) w.prec (fun _ => rfl) k hk i j hj,
      fun i j hj => hw.euler hM (fun i => w.U i) w.prec (fun _ => rfl) k hk i j hj⟩
  have key := fun k hk => pair_conserves (Aeos.description riem ind bnds comb lim) M hM hS (LinearMap.proj k)
    (fun U f V g => by simp [Aeos.description]) (fun _ _ _ _ => by simp [Aeos.description])
    par strategy cnt lo old stages tau tau_max hd (hpair old hold k hk)
    (fun s hs => hpair s.2 (hstages s hs) k hk) U t h
  simp only [hact, ne_eq, not_false_eq_true, Finset.filter_true, LinearMap.proj_apply] at key
  exact ⟨key 0 (Or.inl rfl), key _ (Or.inr rfl)⟩

/-- The mass flux of the shallow water equations is a multiple of the momentum. -/
theorem ShallowWater.depth_flux (p : ShallowWater.Params) (U : ShallowWater.State dim) (c : Vec dim) :
    contract (ShallowWater.g p U) c 0 =
      ShallowWater.inverseWaterDepthSharp p U * ShallowWater.waterDepth U * dot (ShallowWater.momentum U) c := by
  simp only [contract, ShallowWater.g, Fin.cons_zero, dot, Finset.mul_sum]
  exact Finset.sum_congr rfl fun k _ => by ring

theorem ShallowWater.dot_starState (p : ShallowWater.Params) (U : ShallowWater.State dim) (Z Z' : ℝ) (c : Vec dim) :
    dot (ShallowWater.momentum (ShallowWater.starState p U Z Z')) c =
      (max 0 (ShallowWater.waterDepth U + Z - max Z Z') * ShallowWater.inverseWaterDepthMollified p U) *
        dot (ShallowWater.momentum U) c := by
  simp only [dot, Finset.mul_sum]
  refine Finset.sum_congr rfl fun k _ => ?_
  show (max 0 (ShallowWater.waterDepth U + Z - max Z Z') * ShallowWater.inverseWaterDepthMollified p U) *
    ShallowWater.momentum U k * c k = _
  ring

/-- **C93 (shallow water, flat walls).** With any stages and any bathymetry, if old vector and stages are impermeable
pair by pair: the total water volume is exactly conserved. -/
theorem C93_sw_flat_walls [Fintype ι] (q : ShallowWater.StepParams) (Z : ι → ℝ)
    (lim : ι → ι → ShallowWater.Bounds → ShallowWater.State dim → ShallowWater.State dim → ℝ × Prop)
    (M : Mesh ι dim) (hM : M.WellFormed) (hS : M.Symmetric) (hact : ∀ i, M.nbrs i ≠ [])
    (par : Hyp.Params) (strategy : Strategy) (cnt : Counters) (lo : Leftover ι (ShallowWater.State dim))
    (old : StateVector ι Unit (ShallowWater.State dim))
    (stages : List (ℝ × StateVector ι Unit (ShallowWater.State dim))) (tau tau_max : ℝ)
    (hskew : ∀ i, ∀ j ∈ M.nbrs i, ¬ (M.boundary i ∧ M.boundary j) → M.c j i = -M.c i j)
    (hold : PairImpermeable M fun i => ShallowWater.momentum (old.U i))
    (hstages : ∀ s ∈ stages, PairImpermeable M fun i => ShallowWater.momentum (s.2.U i))
    (U : ι → ShallowWater.State dim) (t : ℝ)
    (h : (step (ShallowWater.description q Z lim) M par strategy cnt lo old stages tau tau_max).1 = .done U t) :
    ∑ i, M.lumped i * ShallowWater.waterDepth (U i) = ∑ i, M.lumped i * ShallowWater.waterDepth (old.U i) := by
  classical
  have hpair : ∀ w : StateVector ι Unit (ShallowWater.State dim),
      (PairImpermeable M fun i => ShallowWater.momentum (w.U i)) →
      PairBalanced (ShallowWater.description q Z lim) M (LinearMap.proj 0) w := by
    intro w hw
    have hz : ∀ (A B : Fin (dim + 1) → Vec dim) (x : ℝ) (c : Vec dim),
        contract (ShallowWater.subDiagonal (-addFlux A B) x) c 0 = -(contract A c 0 + contract B c 0) := by
      intro A B x c
      rw [← Pi.add_apply (contract A c) (contract B c) 0, ← contract_addFlux]
      simp only [contract, ShallowWater.subDiagonal, Fin.cons_zero, dot, Pi.neg_apply, neg_mul, Finset.sum_neg_distrib]
    constructor
    · intro i j hj
      obtain ⟨h1, h2⟩ := hw.flux hM hj
      show ShallowWater.fluxDivergence q.p ⟨w.U i, Z i⟩ ⟨w.U j, Z j⟩ (M.c i j) 0 =
        -ShallowWater.fluxDivergence q.p ⟨w.U j, Z j⟩ ⟨w.U i, Z i⟩ (M.c j i) 0
      simp only [ShallowWater.fluxDivergence, ShallowWater.equilibratedStates, hz, ShallowWater.depth_flux,
        ShallowWater.dot_starState, h1, h2]
      ring
    · intro i j hj
      obtain ⟨h1, h2⟩ := hw.flux hM hj
      show ShallowWater.highOrderFluxDivergence q.p ⟨w.U i, Z i⟩ ⟨w.U j, Z j⟩ (M.c i j) 0 =
        -ShallowWater.highOrderFluxDivergence q.p ⟨w.U j, Z j⟩ ⟨w.U i, Z i⟩ (M.c j i) 0
      simp only [ShallowWater.highOrderFluxDivergence, hz, ShallowWater.depth_flux, h1, h2]
      ring
  have hC := ShallowWater.conserves_depth (ι := ι) (dim := dim) q Z lim
  have key := pair_conserves (ShallowWater.description q Z lim) M hM hS (LinearMap.proj 0) hC.stars hC.source
    par strategy cnt lo old stages tau tau_max (.of_reversible hM (fun i j _ _ => ShallowWater.C10_sw_swap q.p _ _ _) hskew)
    (hpair old hold) (fun s hs => hpair s.2 (hstages s hs)) U t h
  simp only [hact, ne_eq, not_false_eq_true, Finset.filter_true, LinearMap.proj_apply] at key
  exact key

end Ryujin
