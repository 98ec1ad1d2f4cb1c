import Verif.Spec.RoundedStep
import Verif.Proofs.Rounding
import Verif.Proofs.HyperbolicStep

/-! # Error analysis of the time step -/

namespace Ryujin
namespace Rounded

noncomputable section

open Hyp

variable (R : Rounding)

/-- `xh` is the result of a computation of `x` with at most `k` roundings in a row, of numbers with sum of absolute values at most `S`. -/
structure Close (k : ℕ) (xh x S : ℝ) : Prop where
  size : |x| ≤ S
  err : |xh - x| ≤ ((1 + R.u) ^ k - 1) * S

variable {R}

theorem one_le_grow (k : ℕ) : 1 ≤ (1 + R.u) ^ k := one_le_pow₀ (by linarith [R.u_nonneg])

namespace Close

theorem nonneg {k : ℕ} {xh x S : ℝ} (h : Close R k xh x S) : 0 ≤ S := (abs_nonneg _).trans h.size

theorem refl (x : ℝ) : Close R 0 x x |x| := ⟨le_rfl, by simp⟩

theorem of_le {x S : ℝ} (h : |x| ≤ S) : Close R 0 x x S := ⟨h, by simp⟩

theorem zero (k : ℕ) : Close R k 0 0 0 := ⟨by simp, by simp⟩

theorem mono {k l : ℕ} {xh x S : ℝ} (h : Close R k xh x S) (hk : k ≤ l) : Close R l xh x S := by
  refine ⟨h.size, h.err.trans (mul_le_mul_of_nonneg_right ?_ h.nonneg)⟩
  have : (1 + R.u) ^ k ≤ (1 + R.u) ^ l := pow_le_pow_right₀ (by linarith [R.u_nonneg]) hk
  linarith

theorem fl {k : ℕ} {xh x S : ℝ} (h : Close R k xh x S) : Close R (k + 1) (R.fl xh) x S := by
  refine ⟨h.size, ?_⟩
  have u0 := R.u_nonneg
  have h1 := R.rel xh
  have h2 : |xh| ≤ |x| + |xh - x| := by
    have := abs_add_le x (xh - x)
    rwa [add_sub_cancel] at this
  have h3 : |R.fl xh - x| ≤ |R.fl xh - xh| + |xh - x| := abs_sub_le _ _ _
  have h4 : R.u * |xh| ≤ R.u * (S + |xh - x|) := mul_le_mul_of_nonneg_left (by linarith [h.size]) u0
  have h5 : (1 + R.u) * |xh - x| ≤ (1 + R.u) * (((1 + R.u) ^ k - 1) * S) := mul_le_mul_of_nonneg_left h.err (by linarith)
  rw [pow_succ]
  nlinarith

theorem add {k : ℕ} {xh x S yh y T : ℝ} (h : Close R k xh x S) (h' : Close R k yh y T) : Close R k (xh + yh) (x + y) (S + T) := by
  refine ⟨(abs_add_le _ _).trans (add_le_add h.size h'.size), ?_⟩
  rw [show xh + yh - (x + y) = (xh - x) + (yh - y) by ring]
  have := abs_add_le (xh - x) (yh - y)
  nlinarith [h.err, h'.err]

theorem neg {k : ℕ} {xh x S : ℝ} (h : Close R k xh x S) : Close R k (-xh) (-x) S := by
  refine ⟨by rw [abs_neg]; exact h.size, ?_⟩
  rw [show -xh - -x = -(xh - x) by ring, abs_neg]
  exact h.err

theorem sub {k : ℕ} {xh x S yh y T : ℝ} (h : Close R k xh x S) (h' : Close R k yh y T) : Close R k (xh - yh) (x - y) (S + T) := by
  rw [sub_eq_add_neg, sub_eq_add_neg]
  exact h.add h'.neg

theorem mul {k l : ℕ} {xh x S yh y T : ℝ} (h : Close R k xh x S) (h' : Close R l yh y T) :
    Close R (k + l) (xh * yh) (x * y) (S * T) := by
  refine ⟨by rw [abs_mul]; exact mul_le_mul h.size h'.size (abs_nonneg _) h.nonneg, ?_⟩
  have hy : |yh| ≤ (1 + R.u) ^ l * T := by
    have := abs_add_le y (yh - y)
    rw [add_sub_cancel] at this
    have := h'.size
    have := h'.err
    linarith
  have h1 : |xh * yh - x * y| ≤ |xh - x| * |yh| + |x| * |yh - y| := by
    rw [← abs_mul, ← abs_mul, show xh * yh - x * y = (xh - x) * yh + x * (yh - y) by ring]
    exact abs_add_le _ _
  have g := one_le_grow (R := R) k
  have e0 : 0 ≤ ((1 + R.u) ^ k - 1) * S := mul_nonneg (by linarith) h.nonneg
  have h2 : |xh - x| * |yh| ≤ ((1 + R.u) ^ k - 1) * S * ((1 + R.u) ^ l * T) := mul_le_mul h.err hy (abs_nonneg _) e0
  have h3 : |x| * |yh - y| ≤ S * (((1 + R.u) ^ l - 1) * T) := mul_le_mul h.size h'.err (abs_nonneg _) h.nonneg
  calc _ ≤ ((1 + R.u) ^ k - 1) * S * ((1 + R.u) ^ l * T) + S * (((1 + R.u) ^ l - 1) * T) := h1.trans (add_le_add h2 h3)
    _ = _ := by rw [pow_add]; ring

theorem product (f : Bool) {k l : ℕ} {xh x S yh y T : ℝ} (h : Close R k xh x S) (h' : Close R l yh y T) :
    Close R (k + l + 1) (product R f xh yh) (x * y) (S * T) := by
  unfold Rounded.product
  cases f
  · exact (h.mul h').fl
  · exact (h.mul h').mono (by omega)

theorem mulAdd (f : Bool) {k l n : ℕ} {ah a A bh b B ch c C : ℝ} (hc : Close R n ch c C) (ha : Close R k ah a A) (hb : Close R l bh b B)
    (hn : k + l + 1 ≤ n) : Close R (n + 1) (mulAdd R f ah bh ch) (c + a * b) (C + A * B) :=
  (hc.add ((ha.product f hb).mono hn)).fl

theorem inv {m : ℝ} (hm : 0 < m) : Close R 1 (R.fl (1 / m)) (1 / m) (1 / m) :=
  (of_le (by rw [abs_of_pos (by positivity)])).fl

/-- Sums. -/
theorem foldl {α : Type} (L : List α) (step : ℝ → α → ℝ) (t T : α → ℝ) (e k0 : ℕ)
    (hstep : ∀ a ∈ L, ∀ k xh x S, k0 ≤ k → Close R k xh x S → Close R (k + e) (step xh a) (x + t a) (S + T a)) :
    ∀ (k : ℕ) (xh x S : ℝ), k0 ≤ k → Close R k xh x S →
      Close R (k + L.length * e) (L.foldl step xh) (x + (L.map t).sum) (S + (L.map T).sum) := by
  induction L with
  | nil =>
    intro k xh x S _ h
    simpa using h
  | cons a L ih =>
    intro k xh x S hk h
    have h1 := hstep a (by simp) k xh x S hk h
    have h2 := ih (fun b hb => hstep b (by simp [hb])) (k + e) _ _ _ (by omega) h1
    rw [List.foldl_cons, List.map_cons, List.map_cons, List.sum_cons, List.sum_cons, ← add_assoc, ← add_assoc]
    refine h2.mono ?_
    rw [List.length_cons]
    ring_nf
    exact le_rfl

end Close

/-- Nothing is lost without rounding. -/
theorem Close.exact_eq {k : ℕ} {xh x S : ℝ} (h : Close Rounding.exact k xh x S) : xh = x := by
  have := h.err
  rw [show Rounding.exact.u = 0 from rfl, add_zero, one_pow, sub_self, zero_mul] at this
  exact sub_eq_zero.1 (abs_nonpos_iff.1 this)

/-- From powers to multiples of the unit roundoff. -/
theorem grow_le (k : ℕ) (hk : k * R.u ≤ 1 / 2) : (1 + R.u) ^ k - 1 ≤ 2 * k * R.u := by
  have u0 := R.u_nonneg
  induction k with
  | zero => simp
  | succ k ih =>
    push_cast at hk ⊢
    have h1 := ih (by linarith)
    rw [pow_succ]
    have h2 : (1 + R.u) ^ k * (1 + R.u) ≤ (1 + 2 * k * R.u) * (1 + R.u) := mul_le_mul_of_nonneg_right (by linarith) (by linarith)
    have h3 : k * R.u * R.u ≤ 1 / 2 * R.u := mul_le_mul_of_nonneg_right (by linarith) u0
    nlinarith

/-! ### Steps 4 to 7 without rounding -/

section

variable {ι : Type} {dim : ℕ} (s : Contractions ι) (M : Mesh ι dim) (X : StepData ι dim)

/-- `flux_divergence` without rounding. -/
def refFlux (f_i f_j c : Vec dim) : ℝ := -((List.finRange dim).map fun k => (f_i k + f_j k) * c k).sum

/-- The low-order update without rounding. -/
def refLow (i : ι) : ℝ :=
  X.U i + ((M.columns i).map fun j =>
    X.tau * (1 / M.lumped i) * refFlux (X.f i) (X.f j) (M.c i j) + X.tau * (1 / M.lumped i) * X.d i j * (X.U j - X.U i)).sum

variable (theta : ι → ι → ℝ) (F : ι → ℝ)

/-- The first part of `P_ij` without rounding. -/
def refFirst (i j : ι) : ℝ :=
  -refFlux (X.f i) (X.f j) (M.c i j) + (X.d i j * theta i j - X.d i j) * (X.U j - X.U i)
    + X.weight * refFlux (X.f i) (X.f j) (M.c i j) + (X.stages.map fun st => st.1 * refFlux (st.2 i) (st.2 j) (M.c i j)).sum

/-- The correction with the mass matrix without rounding. -/
def refMass (i j : ι) : ℝ :=
  if M.dG then M.lumped i * M.massInv i j * F j - M.lumped j * M.massInv i j * F i
  else -(M.mass i j * (1 / M.lumped j)) * F j - -(M.mass i j * (1 / M.lumped i)) * F i

/-- `P_ij` without rounding, and without the factor `lambda_inv`. -/
def refP (i j : ι) : ℝ := X.tau * (1 / M.lumped i) * (refFirst M X theta i j + refMass M F i j)

open Classical in
/-- The new state without rounding. -/
def refNew (lij : List (ι → ι → ℝ)) (i : ι) : ℝ :=
  refLow M X i + (lij.map fun l => ((M.nbrs i).map fun j => symmetrized l i j * refP M X theta F i j).sum).sum

variable {M X}

theorem close_flux (fused : Fin dim → Bool) (f_i f_j c : Vec dim) :
    Close R (dim + 2) (fluxDivergence R fused f_i f_j c) (refFlux f_i f_j c) (fluxSize f_i f_j c) := by
  have h := Close.foldl (R := R) (List.finRange dim) (fun acc k => mulAdd R (fused k) (R.fl (f_i k + f_j k)) (c k) acc)
    (fun k => (f_i k + f_j k) * c k) (fun k => (|f_i k| + |f_j k|) * |c k|) 1 2
    (fun k _ n xh x S hn hx => hx.mulAdd (fused k) ((Close.refl (f_i k)).add (Close.refl (f_j k))).fl (Close.refl (c k)) (by omega))
    2 0 0 0 le_rfl ((Close.of_le (by simp)).mono (by omega))
  rw [zero_add, zero_add, List.length_finRange] at h
  exact (h.mono (by omega)).neg

theorem close_tauMass {i : ι} (hm : 0 < M.lumped i) :
    Close R 2 (tauMass R M X i) (X.tau * (1 / M.lumped i)) (|X.tau| / M.lumped i) := by
  have := ((Close.refl (R := R) X.tau).mul (Close.inv hm)).fl
  rwa [mul_one_div |X.tau|] at this

theorem close_jump (i j : ι) : Close R 1 (R.fl (X.U j - X.U i)) (X.U j - X.U i) (|X.U j| + |X.U i|) :=
  ((Close.refl _).sub (Close.refl _)).fl

theorem close_low {i : ι} (hm : 0 < M.lumped i) :
    Close R (dim + 7 + 2 * (M.nbrs i).length) (lowOrder R s M X i) (refLow M X i) (lowSize M X i) := by
  have h := Close.foldl (R := R) (M.columns i) (fun U_i_new j =>
      mulAdd R (s i j .lowJump) (R.fl (tauMass R M X i * X.d i j)) (R.fl (X.U j - X.U i))
        (mulAdd R (s i j .lowFlux) (tauMass R M X i) (fluxIJ R s M X i j) U_i_new))
    (fun j => X.tau * (1 / M.lumped i) * refFlux (X.f i) (X.f j) (M.c i j) + X.tau * (1 / M.lumped i) * X.d i j * (X.U j - X.U i))
    (fun j => |X.tau| / M.lumped i * fluxSize (X.f i) (X.f j) (M.c i j) + |X.tau| / M.lumped i * |X.d i j| * (|X.U j| + |X.U i|)) 2 (dim + 5)
    (fun j _ n xh x S hn hx => by
      have h1 := hx.mulAdd (s i j .lowFlux) (close_tauMass (X := X) hm) (close_flux (fun k => s i j (.dot k.1)) (X.f i) (X.f j) (M.c i j)) (by omega)
      have h2 := h1.mulAdd (s i j .lowJump) ((close_tauMass (X := X) hm).mul (Close.refl (X.d i j))).fl (close_jump (X := X) i j) (by omega)
      rw [add_assoc x, add_assoc S] at h2
      exact h2)
    (dim + 5) (X.U i) (X.U i) |X.U i| le_rfl ((Close.refl _).mono (by omega))
  refine h.mono ?_
  simp [Mesh.columns]
  omega

theorem close_stages (place : ℕ → Place) (i j : ι) (L : List (ℝ × (ι → Vec dim))) : ∀ (n k : ℕ) (xh x S : ℝ), dim + 3 ≤ k → Close R k xh x S →
    Close R (k + L.length) (addStages R s M place i j n xh L) (x + (L.map fun st => st.1 * refFlux (st.2 i) (st.2 j) (M.c i j)).sum)
      (S + (L.map fun st => |st.1| * fluxSize (st.2 i) (st.2 j) (M.c i j)).sum) := by
  induction L with
  | nil =>
    intro n k xh x S _ h
    simpa [addStages] using h
  | cons st L ih =>
    intro n k xh x S hk h
    obtain ⟨w, f⟩ := st
    have h1 := h.mulAdd (s i j (place n)) (Close.refl w) (close_flux (fun k => s i j (.stageDot n k.1)) (f i) (f j) (M.c i j)) (by omega)
    have h2 := ih (n + 1) (k + 1) _ _ _ (by omega) h1
    rw [List.map_cons, List.map_cons, List.sum_cons, List.sum_cons, ← add_assoc, ← add_assoc]
    refine h2.mono ?_
    rw [List.length_cons]
    omega

theorem close_first (i j : ι) :
    Close R (dim + 6 + X.stages.length) (pFirst R s M X i j) (refFirst M X (factor R M X) i j)
      (fluxSize (X.f i) (X.f j) (M.c i j) + (|X.d i j| * |factor R M X i j| + |X.d i j|) * (|X.U j| + |X.U i|)
        + |X.weight| * fluxSize (X.f i) (X.f j) (M.c i j) + (X.stages.map fun st => |st.1| * fluxSize (st.2 i) (st.2 j) (M.c i j)).sum) := by
  have hf := close_flux (R := R) (fun k => s i j (.dot k.1)) (X.f i) (X.f j) (M.c i j)
  have hd := (((Close.refl (R := R) (X.d i j)).product (s i j .viscosity) (Close.refl (factor R M X i j))).sub
    ((Close.refl (X.d i j)).mono (by omega))).fl
  have h1 := (hf.neg.mono (l := dim + 4) (by omega)).mulAdd (s i j .pJump) hd (close_jump (X := X) i j) (by omega)
  have h2 := h1.mulAdd (s i j .pWeight) (Close.refl X.weight) hf (by omega)
  have h3 := close_stages s (M := M) .pStage i j X.stages 0 _ _ _ _ (by omega) h2
  exact h3.mono (by omega)

/-- `F_iH` without rounding. -/
def refRhs (M : Mesh ι dim) (X : StepData ι dim) (theta : ι → ι → ℝ) (i : ι) : ℝ :=
  ((M.columns i).map fun j => X.d i j * theta i j * (X.U j - X.U i) + X.weight * refFlux (X.f i) (X.f j) (M.c i j)
    + (X.stages.map fun st => st.1 * refFlux (st.2 i) (st.2 j) (M.c i j)).sum).sum

theorem close_rhs (i : ι) : ∃ k S, Close R k (rhs R s M X i) (refRhs M X (factor R M X) i) S := by
  have h := Close.foldl (R := R) (M.columns i) (fun F j =>
      addStages R s M .rhsStage i j 0 (mulAdd R (s i j .rhsWeight) X.weight (fluxIJ R s M X i j)
        (mulAdd R (s i j .rhsJump) (R.fl (X.d i j * factor R M X i j)) (R.fl (X.U j - X.U i)) F)) X.stages)
    (fun j => X.d i j * factor R M X i j * (X.U j - X.U i) + X.weight * refFlux (X.f i) (X.f j) (M.c i j)
      + (X.stages.map fun st => st.1 * refFlux (st.2 i) (st.2 j) (M.c i j)).sum)
    (fun j => |X.d i j| * |factor R M X i j| * (|X.U j| + |X.U i|) + |X.weight| * fluxSize (X.f i) (X.f j) (M.c i j)
      + (X.stages.map fun st => |st.1| * fluxSize (st.2 i) (st.2 j) (M.c i j)).sum) (X.stages.length + 2) (dim + 3)
    (fun j _ n xh x S hn hx => by
      have h1 := hx.mulAdd (s i j .rhsJump) ((Close.refl (X.d i j)).mul (Close.refl (factor R M X i j))).fl (close_jump (X := X) i j) (by omega)
      have h2 := h1.mulAdd (s i j .rhsWeight) (Close.refl X.weight) (close_flux (fun k => s i j (.dot k.1)) (X.f i) (X.f j) (M.c i j)) (by omega)
      have h3 := close_stages s (M := M) .rhsStage i j X.stages 0 _ _ _ _ (by omega) h2
      rw [add_assoc x, add_assoc S, add_assoc x, add_assoc S] at h3
      exact h3.mono (by omega))
    (dim + 3) 0 0 0 le_rfl (Close.zero _)
  rw [zero_add, zero_add] at h
  exact ⟨_, _, h⟩

theorem close_bIJ {i j : ι} (hi : 0 < M.lumped i) (hj : 0 < M.lumped j) :
    Close R 3 (bIJ R s M i j) (if M.dG then M.lumped i * M.massInv i j else -(M.mass i j * (1 / M.lumped j)))
      (if M.dG then M.lumped i * |M.massInv i j| else |M.mass i j| / M.lumped j) := by
  unfold bIJ
  split_ifs
  · have := (((Close.of_le (R := R) (abs_of_pos hi).le).product (s i j .matrixIJ) (Close.refl (M.massInv i j))).sub
      (Close.zero 1)).fl
    rw [sub_zero (_ * _), add_zero (_ * _)] at this
    exact this.mono (by omega)
  · have := ((Close.zero (R := R) 2).sub
      ((Close.refl (M.mass i j)).product (s i j .matrixIJ) (Close.inv hj))).fl
    rw [zero_sub (_ * _), zero_add (_ * _), mul_one_div |_|] at this
    exact this

theorem close_bJI {i j : ι} (hi : 0 < M.lumped i) (hj : 0 < M.lumped j) :
    Close R 3 (bJI R s M i j) (if M.dG then M.lumped j * M.massInv i j else -(M.mass i j * (1 / M.lumped i)))
      (if M.dG then M.lumped j * |M.massInv i j| else |M.mass i j| / M.lumped i) := by
  unfold bJI
  split_ifs
  · have := (((Close.of_le (R := R) (abs_of_pos hj).le).product (s i j .matrixJI) (Close.refl (M.massInv i j))).sub
      (Close.zero 1)).fl
    rw [sub_zero (_ * _), add_zero (_ * _)] at this
    exact this.mono (by omega)
  · have := ((Close.zero (R := R) 2).sub
      ((Close.refl (M.mass i j)).product (s i j .matrixJI) (Close.inv hi))).fl
    rw [zero_sub (_ * _), zero_add (_ * _), mul_one_div |_|] at this
    exact this

/-- The corrections. -/
theorem close_pIJ {i j : ι} (hi : 0 < M.lumped i) (hj : 0 < M.lumped j) :
    Close R (dim + 11 + X.stages.length) (pIJ R s M X i j) (refP M X (factor R M X) (rhs R s M X) i j * (M.nbrs i).length)
      (correctionSize R s M X i j * (M.nbrs i).length) := by
  have hb := (((close_bIJ (R := R) s hi hj).product (s i j .correctionIJ) (Close.refl (rhs R s M X j))).sub
    ((close_bJI (R := R) s hi hj).product (s i j .correctionJI) (Close.refl (rhs R s M X i)))).fl
  have hn : Close R 0 ((M.nbrs i).length : ℝ) (M.nbrs i).length (M.nbrs i).length := Close.of_le (by rw [abs_of_nonneg (by positivity)])
  have h := ((((close_first (R := R) s (M := M) (X := X) i j).add (hb.mono (by omega))).fl).mul
    ((close_tauMass (R := R) (X := X) hi).mul hn).fl).fl
  have e1 : (refFirst M X (factor R M X) i j
      + ((if M.dG then M.lumped i * M.massInv i j else -(M.mass i j * (1 / M.lumped j))) * rhs R s M X j
        - (if M.dG then M.lumped j * M.massInv i j else -(M.mass i j * (1 / M.lumped i))) * rhs R s M X i))
      * (X.tau * (1 / M.lumped i) * (M.nbrs i).length) = refP M X (factor R M X) (rhs R s M X) i j * (M.nbrs i).length := by
    unfold refP refMass
    split_ifs <;> ring
  have e2 : (fluxSize (X.f i) (X.f j) (M.c i j) + (|X.d i j| * |factor R M X i j| + |X.d i j|) * (|X.U j| + |X.U i|)
        + |X.weight| * fluxSize (X.f i) (X.f j) (M.c i j) + (X.stages.map fun st => |st.1| * fluxSize (st.2 i) (st.2 j) (M.c i j)).sum
      + ((if M.dG then M.lumped i * |M.massInv i j| else |M.mass i j| / M.lumped j) * |rhs R s M X j|
        + (if M.dG then M.lumped j * |M.massInv i j| else |M.mass i j| / M.lumped i) * |rhs R s M X i|))
      * (|X.tau| / M.lumped i * (M.nbrs i).length) = correctionSize R s M X i j * (M.nbrs i).length := by
    unfold correctionSize massSize
    split_ifs <;> ring
  rw [e1, e2] at h
  exact h.mono (by omega)

theorem correctionSize_nonneg {i j : ι} (hi : 0 < M.lumped i) (hj : 0 < M.lumped j) (hn : M.nbrs i ≠ []) :
    0 ≤ correctionSize R s M X i j := by
  have h := (close_pIJ (R := R) s (X := X) hi hj).nonneg
  have : (0 : ℝ) < (M.nbrs i).length := by
    have := List.length_pos_iff.2 hn
    exact_mod_cast this
  exact nonneg_of_mul_nonneg_left h this

theorem update_eq_foldl (lam : ℝ) (row : List (ℝ × ℝ × Bool)) : ∀ U, update R lam U row =
    row.foldl (fun U e => mulAdd R e.2.2 (R.fl (e.1 * lam)) e.2.1 U) U := by
  induction row with
  | nil => intro U; rfl
  | cons e row ih => intro U; obtain ⟨l, p, f⟩ := e; exact ih _

theorem close_update {i : ι} (hm : ∀ j, 0 < M.lumped j) (hn : M.nbrs i ≠ []) (l : ι → ι → ℝ) (n k : ℕ) (xh x S : ℝ)
    (hk : dim + 14 + X.stages.length ≤ k) (h : Close R k xh x S) :
    Close R (k + (M.nbrs i).length) (update R (lambda R (M.nbrs i).length) xh
        ((M.nbrs i).map fun j => (symmetrized l i j, pIJ R s M X i j, s i j (.update n))))
      (x + ((M.nbrs i).map fun j => symmetrized l i j * refP M X (factor R M X) (rhs R s M X) i j).sum)
      (S + ((M.nbrs i).map fun j => |symmetrized l i j| * correctionSize R s M X i j).sum) := by
  have hN : (0 : ℝ) < (M.nbrs i).length := by
    have := List.length_pos_iff.2 hn
    exact_mod_cast this
  rw [update_eq_foldl, List.foldl_map]
  have := Close.foldl (R := R) (M.nbrs i) (fun U j => mulAdd R (s i j (.update n)) (R.fl (symmetrized l i j * lambda R (M.nbrs i).length))
      (pIJ R s M X i j) U) (fun j => symmetrized l i j * refP M X (factor R M X) (rhs R s M X) i j)
    (fun j => |symmetrized l i j| * correctionSize R s M X i j) 1 (dim + 14 + X.stages.length)
    (fun j _ k xh x S hk h => by
      have h1 := h.mulAdd (s i j (.update n)) ((Close.refl (symmetrized l i j)).mul (Close.inv hN)).fl
        (close_pIJ (R := R) s (X := X) (hm i) (hm j)) (by omega)
      have e1 : symmetrized l i j * (1 / (M.nbrs i).length) * (refP M X (factor R M X) (rhs R s M X) i j * (M.nbrs i).length)
          = symmetrized l i j * refP M X (factor R M X) (rhs R s M X) i j := by field_simp
      have e2 : |symmetrized l i j| * (1 / (M.nbrs i).length) * (correctionSize R s M X i j * (M.nbrs i).length)
          = |symmetrized l i j| * correctionSize R s M X i j := by field_simp
      rw [e1, e2] at h1
      exact h1) k xh x S hk h
  rwa [mul_one] at this

theorem close_passes {i : ι} (hm : ∀ j, 0 < M.lumped j) (hn : M.nbrs i ≠ []) (lij : List (ι → ι → ℝ)) : ∀ (n k : ℕ) (xh x S : ℝ),
    dim + 14 + X.stages.length ≤ k → Close R k xh x S →
    Close R (k + lij.length * (M.nbrs i).length) (passes R s M X i n xh lij)
      (x + (lij.map fun l => ((M.nbrs i).map fun j => symmetrized l i j * refP M X (factor R M X) (rhs R s M X) i j).sum).sum)
      (S + (lij.map fun l => ((M.nbrs i).map fun j => |symmetrized l i j| * correctionSize R s M X i j).sum).sum) := by
  induction lij with
  | nil =>
    intro n k xh x S _ h
    simpa [passes] using h
  | cons l lij ih =>
    intro n k xh x S hk h
    have h1 := close_update s hm hn l n k xh x S hk h
    have h2 := ih (n + 1) _ _ _ _ (by omega) h1
    rw [List.map_cons, List.map_cons, List.sum_cons, List.sum_cons, ← add_assoc, ← add_assoc]
    refine h2.mono ?_
    rw [List.length_cons]
    ring_nf
    exact le_rfl

/-- The complete step. -/
theorem close_new (left : ι → ℝ) {i : ι} (hm : ∀ j, 0 < M.lumped j) (hn : M.nbrs i ≠ []) (lij : List (ι → ι → ℝ)) :
    Close R (dim + 14 + X.stages.length + (lij.length + 2) * (M.nbrs i).length) (newU R s M X left lij i)
      (refNew M X (factor R M X) (rhs R s M X) lij i) (stepSize R s M X lij i) := by
  have h := close_passes (R := R) s (X := X) hm hn lij 0 (dim + 14 + X.stages.length + 2 * (M.nbrs i).length) _ _ _ (by omega)
    ((close_low (R := R) s (X := X) (hm i)).mono (by omega))
  unfold newU
  rw [if_pos (show M.active i from hn)]
  refine h.mono ?_
  rw [add_mul]
  omega

/-! ### The exact step conserves -/

theorem sum_map_neg' {α : Type} (L : List α) (g : α → ℝ) : (L.map fun a => -g a).sum = -(L.map g).sum := by
  induction L with
  | nil => simp
  | cons a L ih => rw [List.map_cons, List.sum_cons, ih, List.map_cons, List.sum_cons]; ring


theorem refFlux_antisymm (hC : M.Closed) (f : ι → Vec dim) {i j : ι} (hj : j ∈ M.nbrs i) :
    refFlux (f i) (f j) (M.c i j) = -refFlux (f j) (f i) (M.c j i) := by
  unfold refFlux
  rw [hC.skew i j hj, neg_neg, ← sum_map_neg']
  congr 2
  funext k
  simp only [Pi.neg_apply]
  ring

theorem refFlux_diag (hC : M.Closed) (f : Vec dim) (i : ι) : refFlux f f (M.c i i) = 0 := by
  unfold refFlux
  simp [hC.diag i]

theorem refFirst_antisymm (hC : M.Closed) (hd : ∀ i, ∀ j ∈ M.nbrs i, X.d i j = X.d j i) (ht : ∀ i, ∀ j ∈ M.nbrs i, theta i j = theta j i) {i j : ι}
    (hj : j ∈ M.nbrs i) : refFirst M X theta i j = -refFirst M X theta j i := by
  unfold refFirst
  have : (X.stages.map fun st => st.1 * refFlux (st.2 i) (st.2 j) (M.c i j)).sum
      = -(X.stages.map fun st => st.1 * refFlux (st.2 j) (st.2 i) (M.c j i)).sum := by
    rw [← sum_map_neg']
    congr 2
    funext st
    rw [refFlux_antisymm hC st.2 hj]
    ring
  rw [this, refFlux_antisymm hC X.f hj, hd i j hj, ht i j hj]
  ring

theorem refMass_antisymm (hC : M.Closed) {i j : ι} (hj : j ∈ M.nbrs i) : refMass M F i j = -refMass M F j i := by
  unfold refMass
  rw [hC.massInv i j hj, hC.mass i j hj]
  split_ifs <;> ring

theorem refP_antisymm (hC : M.Closed) (hd : ∀ i, ∀ j ∈ M.nbrs i, X.d i j = X.d j i) (ht : ∀ i, ∀ j ∈ M.nbrs i, theta i j = theta j i) {i j : ι}
    (hj : j ∈ M.nbrs i) : M.lumped i * refP M X theta F i j = -(M.lumped j * refP M X theta F j i) := by
  have hi := (hC.lumped i).ne'
  have hj' := (hC.lumped j).ne'
  unfold refP
  rw [refFirst_antisymm theta hC hd ht hj, refMass_antisymm F hC hj]
  field_simp
  ring

theorem factor_symm (hC : M.Closed) {i j : ι} (hj : j ∈ M.nbrs i) : factor R M X i j = factor R M X j i := by
  unfold factor
  rw [hC.incidence i j hj, add_comm]

open Classical in
/-- The step without rounding conserves the sum. -/
theorem refNew_conserves [Fintype ι] (hM : M.WellFormed) (hC : M.Closed) (hd : ∀ i, ∀ j ∈ M.nbrs i, X.d i j = X.d j i)
    (ht : ∀ i, ∀ j ∈ M.nbrs i, theta i j = theta j i) (lij : List (ι → ι → ℝ)) :
    ∑ i ∈ Finset.univ.filter (fun i => M.nbrs i ≠ []), M.lumped i * refNew M X theta F lij i
      = ∑ i ∈ Finset.univ.filter (fun i => M.nbrs i ≠ []), M.lumped i * X.U i := by
  -- the contribution of one pair
  have hlow : ∀ i, M.lumped i * refLow M X i = M.lumped i * X.U i +
      ((M.nbrs i).map fun j => X.tau * (refFlux (X.f i) (X.f j) (M.c i j) + X.d i j * (X.U j - X.U i))).sum := by
    intro i
    unfold refLow
    rw [Mesh.columns, List.map_cons, List.sum_cons, refFlux_diag hC, sub_self, mul_add, mul_zero, mul_zero, add_zero, zero_add,
      ← List.sum_map_mul_left]
    congr 2
    congr 1
    funext j
    have := (hC.lumped i).ne'
    field_simp
  have hpass : ∀ (lij : List (ι → ι → ℝ)),
      ∑ i, M.lumped i * (lij.map fun l => ((M.nbrs i).map fun j => symmetrized l i j * refP M X theta F i j).sum).sum = 0 := by
    intro lij
    induction lij with
    | nil => simp
    | cons l lij ih =>
      simp only [List.map_cons, List.sum_cons, mul_add, Finset.sum_add_distrib]
      rw [ih, add_zero]
      have e : ∀ i, M.lumped i * ((M.nbrs i).map fun j => symmetrized l i j * refP M X theta F i j).sum
          = ((M.nbrs i).map fun j => symmetrized l i j * (M.lumped i * refP M X theta F i j)).sum := by
        intro i
        rw [← List.sum_map_mul_left]
        congr 2
        funext j
        ring
      simp only [e]
      apply sum_antisymm M hM fun i j => symmetrized l i j * (M.lumped i * refP M X theta F i j)
      intro i j hj
      show symmetrized l i j * _ = -(symmetrized l j i * _)
      rw [refP_antisymm theta F hC hd ht hj, show symmetrized l j i = symmetrized l i j from min_comm _ _]
      ring
  have key : ∀ i, ¬ (M.nbrs i ≠ []) → refNew M X theta F lij i = X.U i := by
    intro i hi
    push Not at hi
    have h1 := hlow i
    rw [hi] at h1
    have h2 : refLow M X i = X.U i := by
      have := (hC.lumped i).ne'
      simpa [this] using h1
    unfold refNew
    rw [hi, h2]
    simp
  have all : ∑ i, M.lumped i * (refNew M X theta F lij i - X.U i) = 0 := by
    have e : ∀ i, M.lumped i * (refNew M X theta F lij i - X.U i)
        = ((M.nbrs i).map fun j => X.tau * (refFlux (X.f i) (X.f j) (M.c i j) + X.d i j * (X.U j - X.U i))).sum
          + M.lumped i * (lij.map fun l => ((M.nbrs i).map fun j => symmetrized l i j * refP M X theta F i j).sum).sum := by
      intro i
      unfold refNew
      rw [mul_sub, mul_add, hlow i]
      ring
    simp only [e, Finset.sum_add_distrib]
    rw [hpass, add_zero]
    apply sum_antisymm M hM fun i j => X.tau * (refFlux (X.f i) (X.f j) (M.c i j) + X.d i j * (X.U j - X.U i))
    intro i j hj
    show X.tau * _ = -(X.tau * _)
    rw [refFlux_antisymm hC X.f hj, hd i j hj]
    ring
  have filt : ∑ i ∈ Finset.univ.filter (fun i => M.nbrs i ≠ []), M.lumped i * (refNew M X theta F lij i - X.U i) = 0 := by
    rw [Finset.sum_filter]
    refine Eq.trans ?_ all
    refine Finset.sum_congr rfl fun i _ => ?_
    split_ifs with h
    · rfl
    · rw [key i h, sub_self, mul_zero]
  simp only [mul_sub, Finset.sum_sub_distrib] at filt
  linarith

end

end

end Rounded
end Ryujin
