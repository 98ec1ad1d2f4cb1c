import Verif.Model.HyperbolicStep
import Mathlib.Algebra.BigOperators.Group.List.Basic
import Mathlib.Algebra.BigOperators.Ring.List
import Mathlib.Data.List.GetD
import Mathlib.Algebra.Module.BigOperators
import Mathlib.Algebra.Module.LinearMap.Basic
import Mathlib.Analysis.Convex.Basic
import Mathlib.Tactic.Abel
import Mathlib.Tactic.Module
import Mathlib.Tactic.LinearCombination
import Mathlib.Tactic.Positivity
import Mathlib.Tactic.FieldSimp

/-!
# Lemmas about the model of the hyperbolic step
-/

namespace Ryujin
namespace Hyp

open scoped BigOperators

variable {ι P S F B : Type} {dim : ℕ}

/-! ### Viscosity -/

theorem vnorm_neg (a : Vec dim) : vnorm (-a) = vnorm a := by
  simp [vnorm, normSq]

theorem vnorm_nonneg (a : Vec dim) : 0 ≤ vnorm a := Real.sqrt_nonneg _

theorem dStep2_not_skip (D : Description ι P S F B dim) (M : Mesh ι dim) (stale old) {i j : ι}
    (h : ¬ M.skip i j) : dStep2 D M stale old i j = viscosityEntry D M old i j := by
  simp [dStep2, h]

/-- The entry of an upper triangular position. -/
theorem dBoundary_upper (D : Description ι P S F B dim) (M : Mesh ι dim) (hM : M.WellFormed) (stale old)
    {i j : ι} (h : ¬ M.below i j) :
    (M.boundary i ∧ M.boundary j →
      dBoundary D M stale old i j = max (viscosityEntry D M old i j) (viscosityEntry D M old j i)) ∧
    (¬ (M.boundary i ∧ M.boundary j) →
      dBoundary D M stale old i j = viscosityEntry D M old i j) := by
  have hs : ¬ M.skip i j := fun hs => h (hM.skip_below i j hs)
  constructor
  · rintro ⟨h1, h2⟩
    simp [dBoundary, h1, h2, h, dStep2_not_skip D M stale old hs]
  · intro hb
    have : ¬ (M.boundary i ∧ M.boundary j ∧ ¬ M.below i j) := fun ⟨a, b, _⟩ => hb ⟨a, b⟩
    simp only [dBoundary, this, if_false]
    exact dStep2_not_skip D M stale old hs

theorem viscosityEntry_swap (D : Description ι P S F B dim) (M : Mesh ι dim) (old : StateVector ι P S)
    (hrev : ∀ i, ∀ j ∈ M.nbrs i, M.c i j ≠ 0 →
      D.riemann old.prec i j (old.U i) (old.U j) (fun k => M.c i j k / vnorm (M.c i j)) =
        D.riemann old.prec j i (old.U j) (old.U i) (-fun k => M.c i j k / vnorm (M.c i j)))
    {i j : ι} (hj : j ∈ M.nbrs i) (hc : M.c j i = -M.c i j) :
    viscosityEntry D M old i j = viscosityEntry D M old j i := by
  unfold viscosityEntry
  simp only [hc, vnorm_neg]
  by_cases h0 : M.c i j = 0
  · rw [h0]
    simp [vnorm, normSq]
  rw [hrev i j hj h0]
  congr 2
  funext k
  simp [neg_div]

/-- Closed form of the symmetrised viscosity. -/
theorem dOff_eq (D : Description ι P S F B dim) (M : Mesh ι dim) (hM : M.WellFormed) (stale old)
    (hrev : ∀ i, ∀ j ∈ M.nbrs i, M.c i j ≠ 0 →
      D.riemann old.prec i j (old.U i) (old.U j) (fun k => M.c i j k / vnorm (M.c i j)) =
        D.riemann old.prec j i (old.U j) (old.U i) (-fun k => M.c i j k / vnorm (M.c i j)))
    (hskew : ∀ i, ∀ j ∈ M.nbrs i, ¬ (M.boundary i ∧ M.boundary j) → M.c j i = -M.c i j)
    {i j : ι} (hj : j ∈ M.nbrs i) :
    dOff D M stale old i j = max (viscosityEntry D M old i j) (viscosityEntry D M old j i) := by
  classical
  by_cases hb : M.boundary i ∧ M.boundary j
  · unfold dOff
    split_ifs with h
    · rw [(dBoundary_upper D M hM stale old (hM.asymm i j h)).1 hb.symm, max_comm]
    · exact (dBoundary_upper D M hM stale old h).1 hb
  · have hsw := viscosityEntry_swap D M old hrev hj (hskew i j hj hb)
    unfold dOff
    split_ifs with h
    · rw [(dBoundary_upper D M hM stale old (hM.asymm i j h)).2 (fun hh => hb hh.symm), ← hsw, max_self]
    · rw [(dBoundary_upper D M hM stale old h).2 hb, ← hsw, max_self]

/-! ### List sums -/

theorem sum_map_eq_finset [DecidableEq ι] {A : Type} [AddCommMonoid A] (l : List ι) (h : l.Nodup) (f : ι → A) :
    (l.map f).sum = ∑ j ∈ l.toFinset, f j := (List.sum_toFinset f h).symm

/-- Antisymmetric pair contributions cancel. -/
theorem sum_antisymm [Fintype ι] (M : Mesh ι dim) (hM : M.WellFormed) (g : ι → ι → ℝ)
    (hg : ∀ i, ∀ j ∈ M.nbrs i, g i j = -g j i) :
    ∑ i, ((M.nbrs i).map (g i)).sum = 0 := by
  classical
  have h1 : ∀ i, ((M.nbrs i).map (g i)).sum = ∑ j, if j ∈ M.nbrs i then g i j else 0 := by
    intro i
    rw [sum_map_eq_finset _ (hM.nodup i), ← Finset.sum_filter]
    congr 1
    ext j; simp
  have h2 : ∑ i, ((M.nbrs i).map (g i)).sum = -∑ i, ((M.nbrs i).map (g i)).sum := by
    simp only [h1]
    conv_lhs => rw [Finset.sum_comm]
    rw [← Finset.sum_neg_distrib]
    refine Finset.sum_congr rfl fun i _ => ?_
    rw [← Finset.sum_neg_distrib]
    refine Finset.sum_congr rfl fun j _ => ?_
    by_cases h : j ∈ M.nbrs i
    · rw [if_pos h, if_pos (hM.symm i j h), hg i j h, neg_neg]
    · rw [if_neg h, if_neg (fun h' => h (hM.symm j i h')), neg_zero]
  linarith

theorem sum_active [Fintype ι] (M : Mesh ι dim) (f : ι → ℝ) [DecidablePred M.active]
    (hf : ∀ i, ¬ M.active i → f i = 0) :
    ∑ i ∈ Finset.univ.filter M.active, f i = ∑ i, f i := by
  rw [Finset.sum_filter]
  refine Finset.sum_congr rfl fun i _ => ?_
  split_ifs with h
  · rfl
  · exact (hf i h).symm

section

variable [AddCommGroup S] [Module ℝ S]

theorem map_list_sum (φ : S →ₗ[ℝ] ℝ) (l : List ι) (f : ι → S) :
    φ ((l.map f).sum) = (l.map fun j => φ (f j)).sum := by
  induction l with
  | nil => simp
  | cons a t ih => simp [ih]

theorem sum_map_congr {A C : Type} [AddMonoid A] (l : List C) (f g : C → A) (h : ∀ j ∈ l, f j = g j) :
    (l.map f).sum = (l.map g).sum := by
  rw [List.map_congr_left h]

theorem sum_map_smul {C : Type} (l : List C) (a : ℝ) (f : C → S) :
    (l.map fun j => a • f j).sum = a • (l.map f).sum := by
  induction l with
  | nil => simp
  | cons b t ih => simp [ih, smul_add]

omit [Module ℝ S] in
theorem sum_map_add' {C : Type} (l : List C) (f g : C → S) :
    (l.map fun j => f j + g j).sum = (l.map f).sum + (l.map g).sum := by
  induction l with
  | nil => simp
  | cons b t ih => simp only [List.map_cons, List.sum_cons, ih]; abel

omit [Module ℝ S] in
theorem sum_map_sub' {C : Type} (l : List C) (f g : C → S) :
    (l.map fun j => f j - g j).sum = (l.map f).sum - (l.map g).sum := by
  induction l with
  | nil => simp
  | cons b t ih => simp only [List.map_cons, List.sum_cons, ih]; abel

omit [Module ℝ S] in
theorem sum_map_neg' {C : Type} (l : List C) (f : C → S) :
    (l.map fun j => -f j).sum = -(l.map f).sum := by
  induction l with
  | nil => simp
  | cons b t ih => simp only [List.map_cons, List.sum_cons, ih]; abel

theorem sum_map_smul_const {C : Type} (l : List C) (a : C → ℝ) (v : S) :
    (l.map fun j => a j • v).sum = (l.map a).sum • v := by
  induction l with
  | nil => simp
  | cons b t ih => simp [ih, add_smul]

/-! ### The limiter loop -/

theorem symmetrized_comm (lij : ι → ι → ℝ) (i j : ι) : symmetrized lij i j = symmetrized lij j i :=
  min_comm _ _

open Classical in
/-- A limiter pass preserves every linear functional of the total if the corrections are antisymmetric. -/
theorem limiterPass_conserves [Fintype ι] (D : Description ι P S F B dim) (M : Mesh ι dim)
    (hM : M.WellFormed) (φ : S →ₗ[ℝ] ℝ) (b : ι → B) (p : ι → ι → S)
    (hp : ∀ i, ∀ j ∈ M.nbrs i,
      M.lumped i * (1 / ((M.nbrs i).length : ℝ)) * φ (p i j)
        = -(M.lumped j * (1 / ((M.nbrs j).length : ℝ)) * φ (p j i)))
    (n pass : ℕ) (st : LimiterLoop ι S) :
    ∑ i ∈ Finset.univ.filter M.active, M.lumped i * φ ((limiterPass D M b p n pass st).U i)
      = ∑ i ∈ Finset.univ.filter M.active, M.lumped i * φ (st.U i) := by
  set lij := if n = 2 ∧ pass + 1 = n then st.lijNext else st.lij with hl
  have h1 : ∀ i ∈ Finset.univ.filter M.active, M.lumped i * φ ((limiterPass D M b p n pass st).U i)
      = M.lumped i * φ (st.U i) + ((M.nbrs i).map fun j => symmetrized lij i j *
          (M.lumped i * (1 / ((M.nbrs i).length : ℝ)) * φ (p i j))).sum := by
    intro i hi
    have hi' : M.active i := (Finset.mem_filter.1 hi).2
    simp only [limiterPass, hi', if_true, ← hl, map_add, map_list_sum, map_smul, smul_eq_mul, mul_add]
    congr 1
    rw [← List.sum_map_mul_left]
    refine sum_map_congr _ _ _ fun j _ => ?_
    ring
  rw [Finset.sum_congr rfl h1, Finset.sum_add_distrib]
  have h2 : ∑ i ∈ Finset.univ.filter M.active, ((M.nbrs i).map fun j => symmetrized lij i j *
          (M.lumped i * (1 / ((M.nbrs i).length : ℝ)) * φ (p i j))).sum = 0 := by
    rw [sum_active]
    · apply sum_antisymm M hM (fun i j => symmetrized lij i j *
          (M.lumped i * (1 / ((M.nbrs i).length : ℝ)) * φ (p i j)))
      intro i j hj
      rw [hp i j hj, symmetrized_comm lij i j]
      ring
    · intro i hi
      have : M.nbrs i = [] := by simpa [Mesh.active] using hi
      simp [this]
  rw [h2, add_zero]

open Classical in
theorem limiterLoop_conserves [Fintype ι] (D : Description ι P S F B dim) (M : Mesh ι dim)
    (hM : M.WellFormed) (φ : S →ₗ[ℝ] ℝ) (b : ι → B) (p : ι → ι → S)
    (hp : ∀ i, ∀ j ∈ M.nbrs i,
      M.lumped i * (1 / ((M.nbrs i).length : ℝ)) * φ (p i j)
        = -(M.lumped j * (1 / ((M.nbrs j).length : ℝ)) * φ (p j i)))
    (n : ℕ) (st : LimiterLoop ι S) :
    ∑ i ∈ Finset.univ.filter M.active, M.lumped i * φ ((limiterLoop D M b p n st).U i)
      = ∑ i ∈ Finset.univ.filter M.active, M.lumped i * φ (st.U i) := by
  unfold limiterLoop
  generalize List.range n = l
  induction l generalizing st with
  | nil => rfl
  | cons a t ih =>
    rw [List.foldl_cons, ih, limiterPass_conserves D M hM φ b p hp]

omit [AddCommGroup S] [Module ℝ S] in
/-- The weight of the old state. -/
theorem weight_eq (X : Stage4 ι P S) : X.weight = 1 - (X.stages.map Prod.fst).sum := by
  unfold Stage4.weight
  have : ∀ (l : List (ℝ × StateVector ι P S)) (a : ℝ),
      l.foldl (fun a s => a + s.1) a = a + (l.map Prod.fst).sum := by
    intro l
    induction l with
    | nil => intro a; simp
    | cons b t ih => intro a; simp only [List.foldl_cons, ih, List.map_cons, List.sum_cons]; ring
  rw [this]; ring

/-! ### Conservation -/

/-- The equations conserve the quantity `φ`: numerical fluxes and jumps are antisymmetric in `φ` and the
source terms do not contribute. -/
structure Description.Conserves (D : Description ι P S F B dim) (φ : S →ₗ[ℝ] ℝ) : Prop where
  fluxDiv : ∀ f g c, φ (D.fluxDiv f g c) = -φ (D.fluxDiv g f (-c))
  highOrder : ∀ f g c, φ (D.highOrder f g c) = -φ (D.highOrder g f (-c))
  stars : ∀ U f V g, φ ((D.stars U f V g).2 - (D.stars U f V g).1)
    = -φ ((D.stars V g U f).2 - (D.stars V g U f).1)
  source : ∀ p i U tau, φ (D.source p i U tau) = 0

/-- No (non-periodic) boundary: `c_ij` is skew-symmetric; the matrices are symmetric, lumped masses positive. -/
structure Mesh.Closed (M : Mesh ι dim) : Prop where
  skew : ∀ i, ∀ j ∈ M.nbrs i, M.c j i = -M.c i j
  diag : ∀ i, M.c i i = 0
  mass : ∀ i, ∀ j ∈ M.nbrs i, M.mass j i = M.mass i j
  massInv : ∀ i, ∀ j ∈ M.nbrs i, M.massInv j i = M.massInv i j
  incidence : ∀ i, ∀ j ∈ M.nbrs i, M.incidence j i = M.incidence i j
  lumped : ∀ i, 0 < M.lumped i

variable {D : Description ι P S F B dim} {M : Mesh ι dim} {X : Stage4 ι P S} {φ : S →ₗ[ℝ] ℝ}

theorem fluxIJ_antisymm (hD : D.Conserves φ) (hC : M.Closed) {i j : ι} (hj : j ∈ M.nbrs i) :
    φ (fluxIJ D M X i j) = -φ (fluxIJ D M X j i) := by
  unfold fluxIJ; rw [hC.skew i j hj]; exact hD.fluxDiv _ _ _

theorem fluxIJ_diag (hD : D.Conserves φ) (hC : M.Closed) (i : ι) : φ (fluxIJ D M X i i) = 0 := by
  have h := hD.fluxDiv (fluxAt D X i) (fluxAt D X i) 0
  unfold fluxIJ; rw [hC.diag i]; rw [neg_zero] at h; linarith

theorem jump_antisymm (hD : D.Conserves φ) (i j : ι) : φ (jump D X i j) = -φ (jump D X j i) :=
  hD.stars _ _ _ _

omit [AddCommGroup S] [Module ℝ S] in
theorem dH_symm (hC : M.Closed) (hd : ∀ i, ∀ j ∈ M.nbrs i, X.d i j = X.d j i) {i j : ι} (hj : j ∈ M.nbrs i) :
    dH M X i j = dH M X j i := by
  unfold dH
  simp only [hC.incidence i j hj, hd i j hj, add_comm (X.alpha i) (X.alpha j)]

theorem stage_sum_antisymm (l : List (ℝ × StateVector ι P S)) (f g : ℝ × StateVector ι P S → S)
    (h : ∀ s, φ (f s) = -φ (g s)) : φ ((l.map f).sum) = -φ ((l.map g).sum) := by
  induction l with
  | nil => simp
  | cons a t ih => simp only [List.map_cons, List.sum_cons, map_add, ih, h]; ring

theorem highOrderPart_antisymm (hD : D.Conserves φ) (hC : M.Closed) {i j : ι} (hj : j ∈ M.nbrs i) :
    φ (highOrderPart D M X i j) = -φ (highOrderPart D M X j i) := by
  unfold highOrderPart
  rw [map_add, map_add, map_add, map_add, stage_sum_antisymm X.stages
    (fun s => s.1 • stageFluxIJ D M s i j + (s.1 * M.mass i j) • stageSource D X s j)
    (fun s => s.1 • stageFluxIJ D M s j i + (s.1 * M.mass j i) • stageSource D X s i)]
  · have h : φ (highOrderIJ D M X i j) = -φ (highOrderIJ D M X j i) := by
      unfold highOrderIJ; rw [hC.skew i j hj]; exact hD.highOrder _ _ _
    simp only [map_smul, smul_eq_mul, sourceAt, hD.source, h]; ring
  · intro s
    have h : φ (stageFluxIJ D M s i j) = -φ (stageFluxIJ D M s j i) := by
      unfold stageFluxIJ; rw [hC.skew i j hj]; exact hD.highOrder _ _ _
    simp only [map_add, map_smul, smul_eq_mul, stageSource, hD.source, h]; ring

theorem pStep4_antisymm (hD : D.Conserves φ) (hC : M.Closed)
    (hd : ∀ i, ∀ j ∈ M.nbrs i, X.d i j = X.d j i) {i j : ι} (hj : j ∈ M.nbrs i) :
    φ (pStep4 D M X i j) = -φ (pStep4 D M X j i) := by
  unfold pStep4
  simp only [map_add, map_sub, map_neg, map_smul, smul_eq_mul]
  rw [fluxIJ_antisymm hD hC hj, dH_symm hC hd hj, hd i j hj, jump_antisymm hD i j,
    highOrderPart_antisymm hD hC hj, sourceAt, sourceAt, hD.source, hD.source]
  ring

theorem bIJ_swap (hC : M.Closed) {i j : ι} (hj : j ∈ M.nbrs i) : bIJ M i j = bJI M j i := by
  unfold bIJ bJI; rw [hC.mass i j hj, hC.massInv i j hj]

theorem bJI_swap (hC : M.Closed) {i j : ι} (hj : j ∈ M.nbrs i) : bJI M i j = bIJ M j i := by
  unfold bIJ bJI; rw [hC.mass i j hj, hC.massInv i j hj]

/-- Scaled corrections are antisymmetric. -/
theorem pIJ_antisymm (hM : M.WellFormed) (hD : D.Conserves φ) (hC : M.Closed)
    (hd : ∀ i, ∀ j ∈ M.nbrs i, X.d i j = X.d j i) {i j : ι} (hj : j ∈ M.nbrs i) :
    M.lumped i * (1 / ((M.nbrs i).length : ℝ)) * φ (pIJ D M X i j)
      = -(M.lumped j * (1 / ((M.nbrs j).length : ℝ)) * φ (pIJ D M X j i)) := by
  have key : ∀ i j, j ∈ M.nbrs i → M.lumped i * (1 / ((M.nbrs i).length : ℝ)) * φ (pIJ D M X i j)
      = X.tau * (φ (pStep4 D M X i j) +
          (bIJ M i j * φ (rhsH D M X j) - bJI M i j * φ (rhsH D M X i))) := by
    intro i j hj
    have h1 : (M.lumped i) ≠ 0 := (hC.lumped i).ne'
    have h2 : ((M.nbrs i).length : ℝ) ≠ 0 := by
      have : 0 < (M.nbrs i).length := List.length_pos_of_mem hj
      positivity
    unfold pIJ
    simp only [map_smul, smul_eq_mul, map_add, map_sub]
    field_simp
  rw [key i j hj, key j i (hM.symm i j hj), pStep4_antisymm hD hC hd hj, bIJ_swap hC hj, bJI_swap hC hj]
  ring

open Classical in
theorem lowOrder_conserves [Fintype ι] (hM : M.WellFormed) (hD : D.Conserves φ) (hC : M.Closed)
    (hd : ∀ i, ∀ j ∈ M.nbrs i, X.d i j = X.d j i) :
    ∑ i ∈ Finset.univ.filter M.active, M.lumped i * φ (lowOrder D M X i)
      = ∑ i ∈ Finset.univ.filter M.active, M.lumped i * φ (X.old.U i) := by
  have h1 : ∀ i ∈ Finset.univ.filter M.active, M.lumped i * φ (lowOrder D M X i)
      = M.lumped i * φ (X.old.U i) + ((M.nbrs i).map fun j =>
          X.tau * (φ (fluxIJ D M X i j) + X.d i j * φ (jump D X i j))).sum := by
    intro i _
    have h1 : (M.lumped i) ≠ 0 := (hC.lumped i).ne'
    have hjj : φ (jump D X i i) = 0 := by have := jump_antisymm (X := X) hD i i; linarith
    unfold lowOrder Mesh.columns
    simp only [map_add, map_smul, map_list_sum, List.map_cons, List.sum_cons, smul_eq_mul,
      fluxIJ_diag hD hC, hjj, sourceAt, hD.source, mul_zero, add_zero, zero_add, mul_add]
    congr 1
    rw [← List.sum_map_mul_left]
    refine sum_map_congr _ _ _ fun j _ => ?_
    field_simp
  have hz : ∑ i ∈ Finset.univ.filter M.active, ((M.nbrs i).map fun j =>
          X.tau * (φ (fluxIJ D M X i j) + X.d i j * φ (jump D X i j))).sum = 0 := by
    rw [sum_active]
    · apply sum_antisymm M hM fun i j => X.tau * (φ (fluxIJ D M X i j) + X.d i j * φ (jump D X i j))
      intro i j hj
      rw [fluxIJ_antisymm hD hC hj, hd i j hj, jump_antisymm hD i j]
      ring
    · intro i hi
      have : M.nbrs i = [] := by simpa [Mesh.active] using hi
      simp [this]
  rw [Finset.sum_congr rfl h1, Finset.sum_add_distrib, hz, add_zero]

/-! ### Convexity -/

/-- Flux in the form used by all conservation laws of the code: `-(f_i + f_j) c_ij`. -/
structure Description.CentralFlux (D : Description ι P S F B dim) (K : F → Vec dim →ₗ[ℝ] S) : Prop where
  fluxDiv : ∀ f g c, D.fluxDiv f g c = -(K f c + K g c)
  stars : ∀ U f V g, D.stars U f V g = (U, V)
  source : ∀ p i U tau, D.source p i U tau = 0
  affineShift : ∀ f g c d, D.affineShift f g c d = 0

/-- The bar state as formed by the limiters, with the regularised scaling `c_ij / max(d_ij, 100 min())`. -/
noncomputable def barState (D : Description ι P S F B dim) (M : Mesh ι dim) (X : Stage4 ι P S)
    (K : F → Vec dim →ₗ[ℝ] S) (tiny : ℝ) (i j : ι) : S :=
  (1 / 2 : ℝ) • (X.old.U i + X.old.U j) -
    (1 / 2 : ℝ) • (K (fluxAt D X j) (limiterEntry D M X tiny i j).scaled_c
      - K (fluxAt D X i) (limiterEntry D M X tiny i j).scaled_c)

/-- The viscosity of a pair is not lost to the regularisation: it is at least `100 min()`, or zero for a pair
without flux difference. -/
def Resolved (D : Description ι P S F B dim) (M : Mesh ι dim) (X : Stage4 ι P S)
    (K : F → Vec dim →ₗ[ℝ] S) (tiny : ℝ) (i j : ι) : Prop :=
  100 * tiny ≤ X.d i j ∨
    (X.d i j = 0 ∧ K (fluxAt D X j) (M.c i j) = K (fluxAt D X i) (M.c i j))

/-- The low-order update written with bar states. -/
theorem lowOrder_eq_bar {K : F → Vec dim →ₗ[ℝ] S} (hK : D.CentralFlux K) {tiny : ℝ} (htiny : 0 < tiny) (i : ι)
    (hc : M.c i i + ((M.nbrs i).map (M.c i)).sum = 0)
    (hd : ∀ j ∈ M.nbrs i, Resolved D M X K tiny i j) :
    lowOrder D M X i =
      (1 - ((M.nbrs i).map fun j => 2 * X.tau * (M.lumped i)⁻¹ * X.d i j).sum) • X.old.U i +
      ((M.nbrs i).map fun j =>
        (2 * X.tau * (M.lumped i)⁻¹ * X.d i j) • barState D M X K tiny i j).sum := by
  set a := X.tau * (M.lumped i)⁻¹ with ha
  have hjump : ∀ j, jump D X i j = X.old.U j - X.old.U i := by
    intro j; simp [jump, hK.stars]
  have hsum : ∀ l : List ι, K (fluxAt D X i) ((l.map (M.c i)).sum) =
      (l.map fun j => K (fluxAt D X i) (M.c i j)).sum := by
    intro l
    induction l with
    | nil => simp
    | cons b t ih => simp [ih]
  have hKc : K (fluxAt D X i) (M.c i i) =
      -((M.nbrs i).map fun j => K (fluxAt D X i) (M.c i j)).sum := by
    rw [← hsum, ← map_neg]
    congr 1
    exact eq_neg_of_add_eq_zero_left hc
  have hlow : lowOrder D M X i = X.old.U i + (-(2 * a)) • K (fluxAt D X i) (M.c i i) +
      ((M.nbrs i).map fun j => (a • -(K (fluxAt D X i) (M.c i j) + K (fluxAt D X j) (M.c i j)) +
        (a * X.d i j) • (X.old.U j - X.old.U i))).sum := by
    unfold lowOrder Mesh.columns sourceAt
    simp only [hjump, hK.source, smul_zero, add_zero, List.map_cons, List.sum_cons, fluxIJ, hK.fluxDiv,
      sub_self, ← ha]
    rw [← add_assoc]
    congr 2
    module
  rw [hlow, hKc]
  have hbar : ∀ j ∈ M.nbrs i, (2 * a * X.d i j) • barState D M X K tiny i j =
      (a * X.d i j) • (X.old.U i + X.old.U j) -
        a • (K (fluxAt D X j) (M.c i j) - K (fluxAt D X i) (M.c i j)) := by
    intro j hj
    have hsc : ∀ i j, (limiterEntry D M X tiny i j).scaled_c = (max (X.d i j) (100 * tiny))⁻¹ • M.c i j := by
      intro i j; funext k; simp [limiterEntry, div_eq_inv_mul]
    rcases hd j hj with h | ⟨h, hz⟩
    · have hne : X.d i j ≠ 0 := by
        have : 0 < 100 * tiny := by positivity
        exact (lt_of_lt_of_le this h).ne'
      unfold barState
      simp only [hsc, max_eq_left h, map_smul]
      have e : a • (K (fluxAt D X j) (M.c i j) - K (fluxAt D X i) (M.c i j)) =
          (a * X.d i j * (X.d i j)⁻¹) • (K (fluxAt D X j) (M.c i j) - K (fluxAt D X i) (M.c i j)) := by
        congr 1; field_simp
      rw [e]
      module
    · simp [h, hz]
  have e1 : ∀ j, 2 * X.tau * (M.lumped i)⁻¹ * X.d i j = 2 * a * X.d i j := by
    intro j; rw [ha]; ring
  simp only [e1]
  rw [sum_map_congr _ _ _ hbar, sub_smul, one_smul]
  have h3 : ((M.nbrs i).map fun j => 2 * a * X.d i j).sum • X.old.U i
      = ((M.nbrs i).map fun j => (2 * a * X.d i j) • X.old.U i).sum := (sum_map_smul_const _ _ _).symm
  rw [h3, smul_neg, ← sum_map_smul, ← sum_map_neg']
  have e2 : ∀ (u : S) (l : List ι) (f g k r : ι → S), (∀ j, f j + g j = r j - k j) →
      u + (l.map f).sum + (l.map g).sum = u - (l.map k).sum + (l.map r).sum := by
    intro u l f g k r h
    rw [add_assoc, ← sum_map_add', sub_add, ← sum_map_sub', sub_eq_add_neg, ← sum_map_neg']
    congr 1
    refine sum_map_congr _ _ _ fun j _ => ?_
    rw [h]; abel
  apply e2
  intro j
  module

/-- A convex set contains list-indexed convex combinations. -/
theorem convex_list_mem {C : Set S} (hC : Convex ℝ C) {A : Type} (l : List A) (w : A → ℝ) (x : A → S)
    (hw : ∀ a ∈ l, 0 ≤ w a) (hx : ∀ a ∈ l, x a ∈ C) (x0 : S) (hx0 : x0 ∈ C)
    (hsum : (l.map w).sum ≤ 1) :
    (1 - (l.map w).sum) • x0 + (l.map fun a => w a • x a).sum ∈ C := by
  induction l generalizing x0 with
  | nil => simpa using hx0
  | cons a t ih =>
    have hwa := hw a (by simp)
    have ht : ∀ b ∈ t, 0 ≤ w b := fun b hb => hw b (by simp [hb])
    have hts : 0 ≤ (t.map w).sum := List.sum_nonneg (by simpa using ht)
    simp only [List.map_cons, List.sum_cons] at hsum ⊢
    rcases eq_or_lt_of_le (show w a ≤ 1 - (t.map w).sum by linarith) with h | h
    · -- the point `x0` has weight zero
      have h0 : 1 - (w a + (t.map w).sum) = 0 := by linarith
      have := ih ht (fun b hb => hx b (by simp [hb])) (x a) (hx a (by simp)) (by linarith)
      rw [h0, zero_smul, zero_add, h]
      exact this
    · have hpos : 0 < 1 - (t.map w).sum := by linarith
      have hmem : (1 - w a / (1 - (t.map w).sum)) • x0 + (w a / (1 - (t.map w).sum)) • x a ∈ C := by
        have hle : w a / (1 - (t.map w).sum) ≤ 1 := by rw [div_le_one hpos]; linarith
        have hge : 0 ≤ w a / (1 - (t.map w).sum) := div_nonneg hwa hpos.le
        exact hC hx0 (hx a (by simp)) (by linarith) hge (by ring)
      have := ih ht (fun b hb => hx b (by simp [hb])) _ hmem (by linarith)
      convert this using 1
      rw [smul_add, smul_smul, smul_smul]
      have e1 : (1 - (t.map w).sum) * (1 - w a / (1 - (t.map w).sum)) = 1 - (w a + (t.map w).sum) := by
        field_simp; ring
      have e2 : (1 - (t.map w).sum) * (w a / (1 - (t.map w).sum)) = w a := by field_simp
      rw [e1, e2]
      abel

/-! ### CFL -/

omit [AddCommGroup S] [Module ℝ S] in
theorem dDiag_le (D : Description ι P S F B dim) (M : Mesh ι dim) (par : Params) (stale old) (i : ι) :
    ((M.nbrs i).map (dOff D M stale old i)).sum ≤ -dDiag D M par stale old i := by
  unfold dDiag
  have := min_le_left (-((M.nbrs i).map (dOff D M stale old i)).sum) (-1000000 * par.tiny)
  linarith

omit [AddCommGroup S] [Module ℝ S] in
theorem dDiag_neg (D : Description ι P S F B dim) (M : Mesh ι dim) (par : Params) (stale old) (i : ι)
    (ht : 0 < par.tiny) : dDiag D M par stale old i < 0 := by
  unfold dDiag
  refine lt_of_le_of_lt (min_le_right _ _) ?_
  linarith

omit [AddCommGroup S] [Module ℝ S] in
theorem tauRow_pos (D : Description ι P S F B dim) (M : Mesh ι dim) (par : Params) (stale old) (i : ι)
    (ht : 0 < par.tiny) (hcfl : 0 < par.cfl) (hm : 0 < M.lumped i) : 0 < tauRow D M par stale old i := by
  unfold tauRow
  have := dDiag_neg D M par stale old i ht
  exact div_pos (mul_pos hcfl hm) (by linarith)

omit [AddCommGroup S] [Module ℝ S] in
/-- A time step below the bound of row `i` makes the weights of the neighbours sum to at most one. -/
theorem weights_le_one (D : Description ι P S F B dim) (M : Mesh ι dim) (par : Params) (stale old) (i : ι)
    {tau : ℝ} (ht : 0 < par.tiny) (hcfl : par.cfl ≤ 1) (hm : 0 < M.lumped i) (htau0 : 0 ≤ tau)
    (htau : tau ≤ tauRow D M par stale old i) :
    ((M.nbrs i).map fun j => 2 * tau * (M.lumped i)⁻¹ * dOff D M stale old i j).sum ≤ 1 := by
  have hd := dDiag_neg D M par stale old i ht
  have hle := dDiag_le D M par stale old i
  rw [List.sum_map_mul_left]
  have h1 : 2 * tau * (M.lumped i)⁻¹ * ((M.nbrs i).map (dOff D M stale old i)).sum
      ≤ 2 * tau * (M.lumped i)⁻¹ * -dDiag D M par stale old i := by
    apply mul_le_mul_of_nonneg_left hle
    positivity
  refine h1.trans ?_
  unfold tauRow at htau
  have hpos : 0 < -2 * dDiag D M par stale old i := by linarith
  rw [le_div_iff₀ hpos] at htau
  have : 2 * tau * (M.lumped i)⁻¹ * -dDiag D M par stale old i
      = tau * (-2 * dDiag D M par stale old i) * (M.lumped i)⁻¹ := by ring
  rw [this]
  calc tau * (-2 * dDiag D M par stale old i) * (M.lumped i)⁻¹
      ≤ par.cfl * M.lumped i * (M.lumped i)⁻¹ := by
        apply mul_le_mul_of_nonneg_right htau; positivity
    _ = par.cfl := by field_simp
    _ ≤ 1 := hcfl

/-- One limited update in a convex set. -/
theorem limited_mem {C : Set S} (hC : Convex ℝ C) (l : List ι) (hl : l ≠ []) (U : S) (hU : U ∈ C) (a : ι → ℝ)
    (p : ι → S) (h : ∀ j ∈ l, U + a j • p j ∈ C) :
    U + (l.map fun j => (a j * (1 / (l.length : ℝ))) • p j).sum ∈ C := by
  have hn : (l.length : ℝ) ≠ 0 := by
    have : 0 < l.length := List.length_pos_iff.2 hl
    positivity
  have hw : (l.map fun _ : ι => 1 / (l.length : ℝ)).sum = 1 := by
    rw [List.map_const', List.sum_replicate, nsmul_eq_mul]
    field_simp
  have := convex_list_mem hC l (fun _ => 1 / (l.length : ℝ)) (fun j => U + a j • p j)
    (fun _ _ => by positivity) h U hU hw.le
  rw [hw, sub_self, zero_smul, zero_add] at this
  convert this using 1
  simp only [smul_add]
  rw [sum_map_add', sum_map_smul_const, hw, one_smul]
  congr 1
  refine sum_map_congr _ _ _ fun j _ => ?_
  rw [smul_smul, mul_comm]

end

/-- What a normal return of `step` means. -/
theorem step_done [Fintype ι] [AddCommGroup S] [Module ℝ S] {D : Description ι P S F B dim} {M : Mesh ι dim} {par : Params}
    {strategy : Strategy} {cnt : Counters} {lo : Leftover ι S} {old : StateVector ι P S}
    {stages : List (ℝ × StateVector ι P S)} {tau tau_max : ℝ} {U : ι → S} {t : ℝ}
    (h : (step D M par strategy cnt lo old stages tau tau_max).1 = .done U t) :
    0 < tauMax D M par lo.dij old tau_max ∧
    (t = if tau = 0 then tauMax D M par lo.dij old tau_max else tau) ∧
    U = newStates D M par lo (stage4 D M par lo old stages t) := by
  unfold step at h
  by_cases h0 : 0 < tauMax D M par lo.dij old tau_max
  · simp only [h0, not_true_eq_false, if_false] at h
    refine ⟨h0, ?_⟩
    generalize hT : (if tau = 0 then tauMax D M par lo.dij old tau_max else tau) = T at h ⊢
    by_cases hR : restartNeeded D M par lo (stage4 D M par lo old stages T)
    · rw [if_pos hR] at h
      cases strategy
      · injection h with h1 h2; exact ⟨h2.symm, by rw [← h1, ← h2]⟩
      · exact absurd h (by simp)
    · rw [if_neg hR] at h
      injection h with h1 h2; exact ⟨h2.symm, by rw [← h1, ← h2]⟩
  · simp [h0] at h

end Hyp
end Ryujin
