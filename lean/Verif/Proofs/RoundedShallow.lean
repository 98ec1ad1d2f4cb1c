import Verif.Spec.RoundedShallow
import Verif.Proofs.RoundedStep

/-! # Error analysis of the time step of the shallow water equations -/

namespace Ryujin
namespace RoundedShallow

noncomputable section

open Hyp Rounded

variable {R : Rounding}

/-! ### Steps 4 to 7 without rounding -/

section

variable {ι : Type} {dim : ℕ} (s : Contractions ι) (M : Mesh ι dim) (X : StepData ι dim)

/-- The low-order update without rounding. -/
def refLow (i : ι) : ℝ :=
  X.U i + ((M.columns i).map fun j =>
    X.tau * (1 / M.lumped i) * refFlux (X.fStar i j) (X.fStar j i) (M.c i j) + X.tau * (1 / M.lumped i) * X.d i j * (X.star j i - X.star i j)).sum

variable (theta : ι → ι → ℝ) (F : ι → ℝ)

/-- The first part of `P_ij` without rounding. -/
def refFirst (i j : ι) : ℝ :=
  -refFlux (X.fStar i j) (X.fStar j i) (M.c i j) + (X.d i j * theta i j - X.d i j) * (X.star j i - X.star i j)
    + X.weight * refFlux (X.f i) (X.f j) (M.c i j) + (X.stages.map fun st => st.1 * refFlux (st.2 i) (st.2 j) (M.c i j)).sum

/-- `P_ij` without rounding, and without the factor `lambda_inv`. -/
def refP (i j : ι) : ℝ := X.tau * (1 / M.lumped i) * (refFirst M X theta i j + refMass M F i j)

open Classical in
/-- The new state without rounding. -/
def refNew (lij : List (ι → ι → ℝ)) (i : ι) : ℝ :=
  refLow M X i + (lij.map fun l => ((M.nbrs i).map fun j => symmetrized l i j * refP M X theta F i j).sum).sum

variable {M X}

theorem close_flux (fused : Fin dim → Bool) (f_i f_j c : Vec dim) :
    Close R (dim + 2) (fluxDivergence R fused f_i f_j c) (refFlux f_i f_j c) (fluxSize f_i f_j c) := by
  have h := Close.foldl (R := R) (List.finRange dim) (fun acc k => mulAdd R (fused k) (-R.fl (f_i k + f_j k)) (c k) acc)
    (fun k => -(f_i k + f_j k) * c k) (fun k => (|f_i k| + |f_j k|) * |c k|) 1 2
    (fun k _ n xh x S hn hx => hx.mulAdd (fused k) ((Close.refl (f_i k)).add (Close.refl (f_j k))).fl.neg (Close.refl (c k)) (by omega))
    2 0 0 0 le_rfl ((Close.of_le (by simp)).mono (by omega))
  rw [zero_add, zero_add, List.length_finRange] at h
  have e : ((List.finRange dim).map fun k => -(f_i k + f_j k) * c k).sum = refFlux f_i f_j c := by
    unfold refFlux
    rw [← sum_map_neg']
    congr 2
    funext k
    ring
  rw [e] at h
  exact h.mono (by omega)

theorem close_tauMass {i : ι} (hm : 0 < M.lumped i) :
    Close R 2 (tauMass R M X i) (X.tau * (1 / M.lumped i)) (|X.tau| / M.lumped i) := by
  have := ((Close.refl (R := R) X.tau).mul (Close.inv hm)).fl
  rwa [mul_one_div |X.tau|] at this

theorem close_jump (i j : ι) : Close R 1 (jump R X i j) (X.star j i - X.star i j) (|X.star j i| + |X.star i j|) :=
  ((Close.refl _).sub (Close.refl _)).fl

theorem close_low {i : ι} (hm : 0 < M.lumped i) :
    Close R (dim + 7 + 2 * (M.nbrs i).length) (lowOrder R s M X i) (refLow M X i) (lowSize M X i) := by
  have h := Close.foldl (R := R) (M.columns i) (fun U_i_new j =>
      mulAdd R (s i j .lowJump) (R.fl (tauMass R M X i * X.d i j)) (jump R X i j)
        (mulAdd R (s i j .lowFlux) (tauMass R M X i) (fluxIJ R s M X i j) U_i_new))
    (fun j => X.tau * (1 / M.lumped i) * refFlux (X.fStar i j) (X.fStar j i) (M.c i j) + X.tau * (1 / M.lumped i) * X.d i j * (X.star j i - X.star i j))
    (fun j => |X.tau| / M.lumped i * fluxSize (X.fStar i j) (X.fStar j i) (M.c i j) + |X.tau| / M.lumped i * |X.d i j| * (|X.star j i| + |X.star i j|)) 2 (dim + 5)
    (fun j _ n xh x S hn hx => by
      have h1 := hx.mulAdd (s i j .lowFlux) (close_tauMass (X := X) hm) (close_flux (fun k => s i j (.dot k.1)) (X.fStar i j) (X.fStar j i) (M.c i j)) (by omega)
      have h2 := h1.mulAdd (s i j .lowJump) ((close_tauMass (X := X) hm).mul (Close.refl (X.d i j))).fl (close_jump (X := X) i j) (by omega)
      rw [add_assoc x, add_assoc S] at h2
      exact h2)
    (dim + 5) (X.U i) (X.U i) |X.U i| le_rfl ((Close.refl _).mono (by omega))
  refine h.mono ?_
  simp [Mesh.columns]
  omega

theorem close_stages (place : ℕ → Place) (i j : ι) (L : List (ℝ × (ι → Vec dim))) : ∀ (n k : ℕ) (xh x S : ℝ), dim + 3 ≤ k → Close R k xh x S →
    Close R (k + L.length) (addStages R s M place i j n xh L) (x + (L.map fun st => st.1 * refFlux (st.2 i) (st.2 j) (M.c i j)).sum)
      (S + (L.map fun st => |st.1| * fluxSize (st.2 i) (st.2 j) (M.c i j)).sum) := by
  induction L with
  | nil =>
    intro n k xh x S _ h
    simpa [addStages] using h
  | cons st L ih =>
    intro n k xh x S hk h
    obtain ⟨w, f⟩ := st
    have h1 := h.mulAdd (s i j (place n)) (Close.refl w) (close_flux (fun k => s i j (.stageDot n k.1)) (f i) (f j) (M.c i j)) (by omega)
    have h2 := ih (n + 1) (k + 1) _ _ _ (by omega) h1
    rw [List.map_cons, List.map_cons, List.sum_cons, List.sum_cons, ← add_assoc, ← add_assoc]
    refine h2.mono ?_
    rw [List.length_cons]
    omega

theorem close_first (i j : ι) :
    Close R (dim + 6 + X.stages.length) (pFirst R s M X i j) (refFirst M X (factor R M X) i j)
      (fluxSize (X.fStar i j) (X.fStar j i) (M.c i j) + (|X.d i j| * |factor R M X i j| + |X.d i j|) * (|X.star j i| + |X.star i j|)
        + |X.weight| * fluxSize (X.f i) (X.f j) (M.c i j) + (X.stages.map fun st => |st.1| * fluxSize (st.2 i) (st.2 j) (M.c i j)).sum) := by
  have hf := close_flux (R := R) (fun k => s i j (.dot k.1)) (X.fStar i j) (X.fStar j i) (M.c i j)
  have hd := (((Close.refl (R := R) (X.d i j)).product (s i j .viscosity) (Close.refl (factor R M X i j))).sub
    ((Close.refl (X.d i j)).mono (by omega))).fl
  have h1 := (hf.neg.mono (l := dim + 4) (by omega)).mulAdd (s i j .pJump) hd (close_jump (X := X) i j) (by omega)
  have h2 := h1.mulAdd (s i j .pWeight) (Close.refl X.weight)
    (close_flux (R := R) (fun k => s i j (.stageDot X.stages.length k.1)) (X.f i) (X.f j) (M.c i j)) (by omega)
  have h3 := close_stages s (M := M) .pStage i j X.stages 0 _ _ _ _ (by omega) h2
  exact h3.mono (by omega)

/-- `F_iH` without rounding. -/
def refRhs (M : Mesh ι dim) (X : StepData ι dim) (theta : ι → ι → ℝ) (i : ι) : ℝ :=
  ((M.columns i).map fun j => X.d i j * theta i j * (X.star j i - X.star i j) + X.weight * refFlux (X.f i) (X.f j) (M.c i j)
    + (X.stages.map fun st => st.1 * refFlux (st.2 i) (st.2 j) (M.c i j)).sum).sum

theorem close_rhs (i : ι) : ∃ k S, Close R k (rhs R s M X i) (refRhs M X (factor R M X) i) S := by
  have h := Close.foldl (R := R) (M.columns i) (fun F j =>
      addStages R s M .rhsStage i j 0 (mulAdd R (s i j .rhsWeight) X.weight (highFlux R s M X i j)
        (mulAdd R (s i j .rhsJump) (R.fl (X.d i j * factor R M X i j)) (jump R X i j) F)) X.stages)
    (fun j => X.d i j * factor R M X i j * (X.star j i - X.star i j) + X.weight * refFlux (X.f i) (X.f j) (M.c i j)
      + (X.stages.map fun st => st.1 * refFlux (st.2 i) (st.2 j) (M.c i j)).sum)
    (fun j => |X.d i j| * |factor R M X i j| * (|X.star j i| + |X.star i j|) + |X.weight| * fluxSize (X.f i) (X.f j) (M.c i j)
      + (X.stages.map fun st => |st.1| * fluxSize (st.2 i) (st.2 j) (M.c i j)).sum) (X.stages.length + 2) (dim + 3)
    (fun j _ n xh x S hn hx => by
      have h1 := hx.mulAdd (s i j .rhsJump) ((Close.refl (X.d i j)).mul (Close.refl (factor R M X i j))).fl (close_jump (X := X) i j) (by omega)
      have h2 := h1.mulAdd (s i j .rhsWeight) (Close.refl X.weight)
        (close_flux (fun k => s i j (.stageDot X.stages.length k.1)) (X.f i) (X.f j) (M.c i j)) (by omega)
      have h3 := close_stages s (M := M) .rhsStage i j X.stages 0 _ _ _ _ (by omega) h2
      rw [add_assoc x, add_assoc S, add_assoc x, add_assoc S] at h3
      exact h3.mono (by omega))
    (dim + 3) 0 0 0 le_rfl (Close.zero _)
  rw [zero_add, zero_add] at h
  exact ⟨_, _, h⟩

/-- The corrections. -/
theorem close_pIJ {i j : ι} (hi : 0 < M.lumped i) (hj : 0 < M.lumped j) :
    Close R (dim + 11 + X.stages.length) (pIJ R s M X i j) (refP M X (factor R M X) (rhs R s M X) i j * (M.nbrs i).length)
      (correctionSize R s M X i j * (M.nbrs i).length) := by
  have hb := (((close_bIJ (R := R) s hi hj).product (s i j .correctionIJ) (Close.refl (rhs R s M X j))).sub
    ((close_bJI (R := R) s hi hj).product (s i j .correctionJI) (Close.refl (rhs R s M X i)))).fl
  have hn : Close R 0 ((M.nbrs i).length : ℝ) (M.nbrs i).length (M.nbrs i).length := Close.of_le (by rw [abs_of_nonneg (by positivity)])
  have h := ((((close_first (R := R) s (M := M) (X := X) i j).add (hb.mono (by omega))).fl).mul
    ((close_tauMass (R := R) (X := X) hi).mul hn).fl).fl
  have e1 : (refFirst M X (factor R M X) i j
      + ((if M.dG then M.lumped i * M.massInv i j else -(M.mass i j * (1 / M.lumped j))) * rhs R s M X j
        - (if M.dG then M.lumped j * M.massInv i j else -(M.mass i j * (1 / M.lumped i))) * rhs R s M X i))
      * (X.tau * (1 / M.lumped i) * (M.nbrs i).length) = refP M X (factor R M X) (rhs R s M X) i j * (M.nbrs i).length := by
    unfold refP refMass
    split_ifs <;> ring
  have e2 : (fluxSize (X.fStar i j) (X.fStar j i) (M.c i j) + (|X.d i j| * |factor R M X i j| + |X.d i j|) * (|X.star j i| + |X.star i j|)
        + |X.weight| * fluxSize (X.f i) (X.f j) (M.c i j) + (X.stages.map fun st => |st.1| * fluxSize (st.2 i) (st.2 j) (M.c i j)).sum
      + ((if M.dG then M.lumped i * |M.massInv i j| else |M.mass i j| / M.lumped j) * |rhs R s M X j|
        + (if M.dG then M.lumped j * |M.massInv i j| else |M.mass i j| / M.lumped i) * |rhs R s M X i|))
      * (|X.tau| / M.lumped i * (M.nbrs i).length) = correctionSize R s M X i j * (M.nbrs i).length := by
    unfold correctionSize massSize
    split_ifs <;> ring
  rw [e1, e2] at h
  exact h.mono (by omega)

theorem correctionSize_nonneg {i j : ι} (hi : 0 < M.lumped i) (hj : 0 < M.lumped j) (hn : M.nbrs i ≠ []) :
    0 ≤ correctionSize R s M X i j := by
  have h := (close_pIJ (R := R) s (X := X) hi hj).nonneg
  have : (0 : ℝ) < (M.nbrs i).length := by
    have := List.length_pos_iff.2 hn
    exact_mod_cast this
  exact nonneg_of_mul_nonneg_left h this

theorem close_update {i : ι} (hm : ∀ j, 0 < M.lumped j) (hn : M.nbrs i ≠ []) (l : ι → ι → ℝ) (n k : ℕ) (xh x S : ℝ)
    (hk : dim + 14 + X.stages.length ≤ k) (h : Close R k xh x S) :
    Close R (k + (M.nbrs i).length) (update R (lambda R (M.nbrs i).length) xh
        ((M.nbrs i).map fun j => (symmetrized l i j, pIJ R s M X i j, s i j (.update n))))
      (x + ((M.nbrs i).map fun j => symmetrized l i j * refP M X (factor R M X) (rhs R s M X) i j).sum)
      (S + ((M.nbrs i).map fun j => |symmetrized l i j| * correctionSize R s M X i j).sum) := by
  have hN : (0 : ℝ) < (M.nbrs i).length := by
    have := List.length_pos_iff.2 hn
    exact_mod_cast this
  rw [update_eq_foldl, List.foldl_map]
  have := Close.foldl (R := R) (M.nbrs i) (fun U j => mulAdd R (s i j (.update n)) (R.fl (symmetrized l i j * lambda R (M.nbrs i).length))
      (pIJ R s M X i j) U) (fun j => symmetrized l i j * refP M X (factor R M X) (rhs R s M X) i j)
    (fun j => |symmetrized l i j| * correctionSize R s M X i j) 1 (dim + 14 + X.stages.length)
    (fun j _ k xh x S hk h => by
      have h1 := h.mulAdd (s i j (.update n)) ((Close.refl (symmetrized l i j)).mul (Close.inv hN)).fl
        (close_pIJ (R := R) s (X := X) (hm i) (hm j)) (by omega)
      have e1 : symmetrized l i j * (1 / (M.nbrs i).length) * (refP M X (factor R M X) (rhs R s M X) i j * (M.nbrs i).length)
          = symmetrized l i j * refP M X (factor R M X) (rhs R s M X) i j := by field_simp
      have e2 : |symmetrized l i j| * (1 / (M.nbrs i).length) * (correctionSize R s M X i j * (M.nbrs i).length)
          = |symmetrized l i j| * correctionSize R s M X i j := by field_simp
      rw [e1, e2] at h1
      exact h1) k xh x S hk h
  rwa [mul_one] at this

theorem close_passes {i : ι} (hm : ∀ j, 0 < M.lumped j) (hn : M.nbrs i ≠ []) (lij : List (ι → ι → ℝ)) : ∀ (n k : ℕ) (xh x S : ℝ),
    dim + 14 + X.stages.length ≤ k → Close R k xh x S →
    Close R (k + lij.length * (M.nbrs i).length) (passes R s M X i n xh lij)
      (x + (lij.map fun l => ((M.nbrs i).map fun j => symmetrized l i j * refP M X (factor R M X) (rhs R s M X) i j).sum).sum)
      (S + (lij.map fun l => ((M.nbrs i).map fun j => |symmetrized l i j| * correctionSize R s M X i j).sum).sum) := by
  induction lij with
  | nil =>
    intro n k xh x S _ h
    simpa [passes] using h
  | cons l lij ih =>
    intro n k xh x S hk h
    have h1 := close_update s hm hn l n k xh x S hk h
    have h2 := ih (n + 1) _ _ _ _ (by omega) h1
    rw [List.map_cons, List.map_cons, List.sum_cons, List.sum_cons, ← add_assoc, ← add_assoc]
    refine h2.mono ?_
    rw [List.length_cons]
    ring_nf
    exact le_rfl

/-- The complete step. -/
theorem close_new (left : ι → ℝ) {i : ι} (hm : ∀ j, 0 < M.lumped j) (hn : M.nbrs i ≠ []) (lij : List (ι → ι → ℝ)) :
    Close R (dim + 14 + X.stages.length + (lij.length + 2) * (M.nbrs i).length) (newU R s M X left lij i)
      (refNew M X (factor R M X) (rhs R s M X) lij i) (stepSize R s M X lij i) := by
  have h := close_passes (R := R) s (X := X) hm hn lij 0 (dim + 14 + X.stages.length + 2 * (M.nbrs i).length) _ _ _ (by omega)
    ((close_low (R := R) s (X := X) (hm i)).mono (by omega))
  unfold newU
  rw [if_pos (show M.active i from hn)]
  refine h.mono ?_
  rw [add_mul]
  omega

/-! ### The exact step conserves -/

theorem refFluxPair_antisymm (hC : M.Closed) (f : ι → ι → Vec dim) {i j : ι} (hj : j ∈ M.nbrs i) :
    refFlux (f i j) (f j i) (M.c i j) = -refFlux (f j i) (f i j) (M.c j i) := by
  unfold refFlux
  rw [hC.skew i j hj, neg_neg, ← sum_map_neg']
  congr 2
  funext k
  simp only [Pi.neg_apply]
  ring

theorem refFirst_antisymm (hC : M.Closed) (hd : ∀ i, ∀ j ∈ M.nbrs i, X.d i j = X.d j i) (ht : ∀ i, ∀ j ∈ M.nbrs i, theta i j = theta j i) {i j : ι}
    (hj : j ∈ M.nbrs i) : refFirst M X theta i j = -refFirst M X theta j i := by
  unfold refFirst
  have : (X.stages.map fun st => st.1 * refFlux (st.2 i) (st.2 j) (M.c i j)).sum
      = -(X.stages.map fun st => st.1 * refFlux (st.2 j) (st.2 i) (M.c j i)).sum := by
    rw [← sum_map_neg']
    congr 2
    funext st
    rw [refFlux_antisymm hC st.2 hj]
    ring
  rw [this, refFlux_antisymm hC X.f hj, refFluxPair_antisymm hC X.fStar hj, hd i j hj, ht i j hj]
  ring

theorem refP_antisymm (hC : M.Closed) (hd : ∀ i, ∀ j ∈ M.nbrs i, X.d i j = X.d j i) (ht : ∀ i, ∀ j ∈ M.nbrs i, theta i j = theta j i) {i j : ι}
    (hj : j ∈ M.nbrs i) : M.lumped i * refP M X theta F i j = -(M.lumped j * refP M X theta F j i) := by
  have hi := (hC.lumped i).ne'
  have hj' := (hC.lumped j).ne'
  unfold refP
  rw [refFirst_antisymm theta hC hd ht hj, refMass_antisymm F hC hj]
  field_simp
  ring

theorem factor_symm (hC : M.Closed) {i j : ι} (hj : j ∈ M.nbrs i) : factor R M X i j = factor R M X j i := by
  unfold factor
  rw [hC.incidence i j hj, add_comm]

open Classical in
/-- The step without rounding conserves the sum. -/
theorem refNew_conserves [Fintype ι] (hM : M.WellFormed) (hC : M.Closed) (hd : ∀ i, ∀ j ∈ M.nbrs i, X.d i j = X.d j i)
    (ht : ∀ i, ∀ j ∈ M.nbrs i, theta i j = theta j i) (lij : List (ι → ι → ℝ)) :
    ∑ i ∈ Finset.univ.filter (fun i => M.nbrs i ≠ []), M.lumped i * refNew M X theta F lij i
      = ∑ i ∈ Finset.univ.filter (fun i => M.nbrs i ≠ []), M.lumped i * X.U i := by
  -- the contribution of one pair
  have hlow : ∀ i, M.lumped i * refLow M X i = M.lumped i * X.U i +
      ((M.nbrs i).map fun j => X.tau * (refFlux (X.fStar i j) (X.fStar j i) (M.c i j) + X.d i j * (X.star j i - X.star i j))).sum := by
    intro i
    unfold refLow
    rw [Mesh.columns, List.map_cons, List.sum_cons, refFlux_diag hC, sub_self, mul_add, mul_zero, mul_zero, add_zero, zero_add,
      ← List.sum_map_mul_left]
    congr 2
    congr 1
    funext j
    have := (hC.lumped i).ne'
    field_simp
  have hpass : ∀ (lij : List (ι → ι → ℝ)),
      ∑ i, M.lumped i * (lij.map fun l => ((M.nbrs i).map fun j => symmetrized l i j * refP M X theta F i j).sum).sum = 0 := by
    intro lij
    induction lij with
    | nil => simp
    | cons l lij ih =>
      simp only [List.map_cons, List.sum_cons, mul_add, Finset.sum_add_distrib]
      rw [ih, add_zero]
      have e : ∀ i, M.lumped i * ((M.nbrs i).map fun j => symmetrized l i j * refP M X theta F i j).sum
          = ((M.nbrs i).map fun j => symmetrized l i j * (M.lumped i * refP M X theta F i j)).sum := by
        intro i
        rw [← List.sum_map_mul_left]
        congr 2
        funext j
        ring
      simp only [e]
      apply sum_antisymm M hM fun i j => symmetrized l i j * (M.lumped i * refP M X theta F i j)
      intro i j hj
      show symmetrized l i j * _ = -(symmetrized l j i * _)
      rw [refP_antisymm theta F hC hd ht hj, show symmetrized l j i = symmetrized l i j from min_comm _ _]
      ring
  have key : ∀ i, ¬ (M.nbrs i ≠ []) → refNew M X theta F lij i = X.U i := by
    intro i hi
    push Not at hi
    have h1 := hlow i
    rw [hi] at h1
    have h2 : refLow M X i = X.U i := by
      have := (hC.lumped i).ne'
      simpa [this] using h1
    unfold refNew
    rw [hi, h2]
    simp
  have all : ∑ i, M.lumped i * (refNew M X theta F lij i - X.U i) = 0 := by
    have e : ∀ i, M.lumped i * (refNew M X theta F lij i - X.U i)
        = ((M.nbrs i).map fun j => X.tau * (refFlux (X.fStar i j) (X.fStar j i) (M.c i j) + X.d i j * (X.star j i - X.star i j))).sum
          + M.lumped i * (lij.map fun l => ((M.nbrs i).map fun j => symmetrized l i j * refP M X theta F i j).sum).sum := by
      intro i
      unfold refNew
      rw [mul_sub, mul_add, hlow i]
      ring
    simp only [e, Finset.sum_add_distrib]
    rw [hpass, add_zero]
    apply sum_antisymm M hM fun i j => X.tau * (refFlux (X.fStar i j) (X.fStar j i) (M.c i j) + X.d i j * (X.star j i - X.star i j))
    intro i j hj
    show X.tau * _ = -(X.tau * _)
    rw [refFluxPair_antisymm hC X.fStar hj, hd i j hj]
    ring
  have filt : ∑ i ∈ Finset.univ.filter (fun i => M.nbrs i ≠ []), M.lumped i * (refNew M X theta F lij i - X.U i) = 0 := by
    rw [Finset.sum_filter]
    refine Eq.trans ?_ all
    refine Finset.sum_congr rfl fun i _ => ?_
    split_ifs with h
    · rfl
    · rw [key i h, sub_self, mul_zero]
  simp only [mul_sub, Finset.sum_sub_distrib] at filt
  linarith

end

end

end RoundedShallow
end Ryujin
