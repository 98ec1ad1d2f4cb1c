import Verif.Proofs.RoundedStep
import Verif.Props.HyperbolicStep
import Verif.Model.Descriptions
import Verif.Model.AeosDescription

/-!
# C123, C124: the time step in floating point arithmetic
-/

namespace Ryujin
namespace Rounded

noncomputable section

open Hyp

variable {ι P S F B : Type} {dim : ℕ}

/-! ### C123: the total is conserved up to rounding -/

open Classical in
/-- **C123.** In floating point arithmetic one step on a mesh without (non-periodic) boundary changes the total `Σ m_i U_i` of every component
of the state by at most the sum of the sizes of all numbers that were added up, times the growth `(1 + u)^K - 1` of `K` roundings in a row.  `K`
depends only on the dimension, the number of stages, the number of passes of the limiter and the largest number `N` of neighbours.  The fluxes,
the viscosity (as long as it is symmetric), the indicator and the coefficients of the limiter may be arbitrary numbers: no error made in them
is an error of conservation.  The compiler may contract any products with sums. -/
theorem C123_conservation [Fintype ι] (R : Rounding) (s : Contractions ι) (M : Mesh ι dim) (hM : M.WellFormed) (hC : M.Closed) (X : StepData ι dim)
    (hd : ∀ i, ∀ j ∈ M.nbrs i, X.d i j = X.d j i) (left : ι → ℝ) (lij : List (ι → ι → ℝ)) (N : ℕ) (hN : ∀ i, (M.nbrs i).length ≤ N) :
    |∑ i ∈ Finset.univ.filter (fun i => M.nbrs i ≠ []), M.lumped i * newU R s M X left lij i
        - ∑ i ∈ Finset.univ.filter (fun i => M.nbrs i ≠ []), M.lumped i * X.U i|
      ≤ ((1 + R.u) ^ (dim + 14 + X.stages.length + (lij.length + 2) * N) - 1)
        * ∑ i ∈ Finset.univ.filter (fun i => M.nbrs i ≠ []), M.lumped i * stepSize R s M X lij i := by
  rw [← refNew_conserves (X := X) (factor R M X) (rhs R s M X) hM hC hd (fun i j hj => factor_symm hC hj) lij, ← Finset.sum_sub_distrib,
    Finset.mul_sum]
  refine (Finset.abs_sum_le_sum_abs _ _).trans (Finset.sum_le_sum fun i hi => ?_)
  have hn : M.nbrs i ≠ [] := (Finset.mem_filter.1 hi).2
  have h := ((close_new (R := R) s (X := X) left hC.lumped hn lij).mono
    (l := dim + 14 + X.stages.length + (lij.length + 2) * N) (by have := Nat.mul_le_mul_left (lij.length + 2) (hN i); omega)).err
  rw [← mul_sub, abs_mul, abs_of_pos (hC.lumped i)]
  calc _ ≤ M.lumped i * (((1 + R.u) ^ (dim + 14 + X.stages.length + (lij.length + 2) * N) - 1) * stepSize R s M X lij i) :=
        mul_le_mul_of_nonneg_left h (hC.lumped i).le
    _ = _ := by ring

open Classical in
/-- The same with a multiple of the unit roundoff: for `double`, three stages, two passes and 27 neighbours in three dimensions the factor is
about `3e-14`. -/
theorem C123_conservation_linear [Fintype ι] (R : Rounding) (s : Contractions ι) (M : Mesh ι dim) (hM : M.WellFormed) (hC : M.Closed)
    (X : StepData ι dim) (hd : ∀ i, ∀ j ∈ M.nbrs i, X.d i j = X.d j i) (left : ι → ℝ) (lij : List (ι → ι → ℝ)) (N : ℕ) (hN : ∀ i, (M.nbrs i).length ≤ N)
    (hu : (dim + 14 + X.stages.length + (lij.length + 2) * N : ℕ) * R.u ≤ 1 / 2) :
    |∑ i ∈ Finset.univ.filter (fun i => M.nbrs i ≠ []), M.lumped i * newU R s M X left lij i
        - ∑ i ∈ Finset.univ.filter (fun i => M.nbrs i ≠ []), M.lumped i * X.U i|
      ≤ 2 * (dim + 14 + X.stages.length + (lij.length + 2) * N : ℕ) * R.u
        * ∑ i ∈ Finset.univ.filter (fun i => M.nbrs i ≠ []), M.lumped i * stepSize R s M X lij i := by
  refine (C123_conservation R s M hM hC X hd left lij N hN).trans (mul_le_mul_of_nonneg_right (grow_le _ hu) ?_)
  refine Finset.sum_nonneg fun i hi => mul_nonneg (hC.lumped i).le ?_
  exact (close_new (R := R) s (X := X) left hC.lumped (Finset.mem_filter.1 hi).2 lij).nonneg

/-- Entries of constrained degrees of freedom are not written. -/
theorem C123_constrained (R : Rounding) (s : Contractions ι) (M : Mesh ι dim) (X : StepData ι dim) (left : ι → ℝ) (lij : List (ι → ι → ℝ)) (i : ι)
    (h : M.nbrs i = []) : newU R s M X left lij i = left i := by
  unfold newU
  rw [if_neg (by unfold Mesh.active; simp [h])]

/-! ### Without rounding -/

/-- `φ` is a component of the state with the row `row` of the flux: no sources, no equilibrated states. -/
structure Component (D : Description ι P S F B dim) [AddCommGroup S] [Module ℝ S] (φ : S →ₗ[ℝ] ℝ) (row : F → Vec dim) : Prop where
  fluxDiv : ∀ f g c, φ (D.fluxDiv f g c) = -∑ k, (row f k + row g k) * c k
  highOrder : ∀ f g c, φ (D.highOrder f g c) = -∑ k, (row f k + row g k) * c k
  source : ∀ prec i U tau, φ (D.source prec i U tau) = 0
  stars : ∀ U f V g, φ (D.stars U f V g).2 - φ (D.stars U f V g).1 = φ V - φ U

/-- The component of the input of step 4. -/
def component [AddCommGroup S] [Module ℝ S] (D : Description ι P S F B dim) (φ : S →ₗ[ℝ] ℝ) (row : F → Vec dim) (X : Stage4 ι P S) :
    StepData ι dim where
  U i := φ (X.old.U i)
  f i := row (D.flux X.old.prec i (X.old.U i))
  stages := X.stages.map fun st => (st.1, fun i => row (D.flux st.2.prec i (st.2.U i)))
  weight := X.weight
  tau := X.tau
  d := X.d
  alpha := X.alpha

theorem passes_cons (R : Rounding) (s : Contractions ι) (M : Mesh ι dim) (X : StepData ι dim) (i : ι) (n : ℕ) (U : ℝ) (l : ι → ι → ℝ)
    (L : List (ι → ι → ℝ)) : passes R s M X i n U (l :: L) = passes R s M X i (n + 1) (passes R s M X i n U [l]) L := rfl

section exact

variable [AddCommGroup S] [Module ℝ S] {D : Description ι P S F B dim} {φ : S →ₗ[ℝ] ℝ} {row : F → Vec dim} (hD : Component D φ row)
  (s : Contractions ι) (M : Mesh ι dim) (X : Stage4 ι P S)

theorem refFlux_sum (f g c : Vec dim) : refFlux f g c = -∑ k, (f k + g k) * c k := by
  unfold refFlux
  rw [Fin.sum_univ_def]

theorem exact_factor (i j : ι) : X.d i j * factor Rounding.exact M (component D φ row X) i j = dH M X i j := rfl

include hD

theorem exact_jump (i j : ι) : φ (jump D X i j) = φ (X.old.U j) - φ (X.old.U i) := by
  unfold jump
  rw [map_sub]
  exact hD.stars _ _ _ _

theorem exact_highOrderPart (i j : ι) : φ (highOrderPart D M X i j) =
    X.weight * refFlux ((component D φ row X).f i) ((component D φ row X).f j) (M.c i j)
      + ((component D φ row X).stages.map fun st => st.1 * refFlux (st.2 i) (st.2 j) (M.c i j)).sum := by
  unfold highOrderPart
  rw [map_add, map_add, map_smul, map_smul, sourceAt, hD.source, smul_zero, add_zero, highOrderIJ, hD.highOrder, smul_eq_mul,
    ← refFlux_sum]
  congr 1
  simp only [component, List.map_map]
  induction X.stages with
  | nil => simp
  | cons st L ih =>
    rw [List.map_cons, List.map_cons, List.sum_cons, List.sum_cons, map_add, ih]
    congr 1
    rw [map_add, map_smul, map_smul, stageSource, hD.source, smul_zero, add_zero, stageFluxIJ, hD.highOrder, smul_eq_mul, ← refFlux_sum]
    rfl

/-- **C123 (no rounding).** Without rounding the low-order update is that of the model over the real numbers. -/
theorem C123_exact_low {i : ι} (hm : 0 < M.lumped i) :
    lowOrder Rounding.exact s M (component D φ row X) i = φ (Hyp.lowOrder D M X i) := by
  rw [(close_low (R := Rounding.exact) s (M := M) (X := component D φ row X) hm).exact_eq]
  unfold refLow Hyp.lowOrder
  rw [map_add, map_add, map_smul, sourceAt, hD.source, smul_zero, add_zero, Hyp.map_list_sum]
  congr 2
  congr 1
  funext j
  rw [map_add, map_smul, map_smul, exact_jump hD, Hyp.fluxIJ, hD.fluxDiv, refFlux_sum, smul_eq_mul, smul_eq_mul, one_div]
  rfl

/-- **C123 (no rounding).** Without rounding `F_iH` is that of the model over the real numbers. -/
theorem C123_exact_rhs (i : ι) : rhs Rounding.exact s M (component D φ row X) i = φ (rhsH D M X i) := by
  obtain ⟨k, S, h⟩ := close_rhs (R := Rounding.exact) s (M := M) (X := component D φ row X) i
  rw [h.exact_eq]
  unfold refRhs rhsH
  have hs : φ (sourceH D X i) = 0 := by
    unfold sourceH
    rw [map_add, map_smul, sourceAt, hD.source, smul_zero, add_zero]
    induction X.stages with
    | nil => simp
    | cons st L ih => rw [List.map_cons, List.sum_cons, map_add, ih, map_smul, stageSource, hD.source, smul_zero, add_zero]
  rw [map_add, map_smul, hs, smul_zero, zero_add, Hyp.map_list_sum]
  congr 2
  funext j
  rw [map_add, map_sub, map_smul, map_smul, hs, smul_zero, sub_zero, exact_jump hD, exact_highOrderPart hD, smul_eq_mul, add_assoc]
  rfl

/-- **C123 (no rounding).** Without rounding `P_ij` is that of the model over the real numbers. -/
theorem C123_exact_correction {i j : ι} (hi : 0 < M.lumped i) (hj : 0 < M.lumped j) :
    pIJ Rounding.exact s M (component D φ row X) i j = φ (Hyp.pIJ D M X i j) := by
  rw [(close_pIJ (R := Rounding.exact) s (M := M) (X := component D φ row X) hi hj).exact_eq]
  unfold Hyp.pIJ refP refFirst refMass
  rw [map_smul, map_add, map_sub, map_smul, map_smul, C123_exact_rhs hD, C123_exact_rhs hD, pStep4, map_add, map_sub, map_add, map_neg, map_smul,
    map_smul, sourceAt, hD.source, exact_jump hD, exact_highOrderPart hD, Hyp.fluxIJ, hD.fluxDiv, Hyp.bIJ, Hyp.bJI]
  simp only [smul_eq_mul, mul_zero, sub_zero, one_div]
  rw [refFlux_sum ((component D φ row X).f i) ((component D φ row X).f j)]
  have e : (component D φ row X).d i j * factor Rounding.exact M (component D φ row X) i j = dH M X i j := rfl
  rw [e]
  simp only [component, fluxAt]
  split_ifs <;> ring

open Classical in
/-- **C123 (no rounding).** Without rounding a pass of the limiter is that of the model over the real numbers. -/
theorem C123_exact_pass (hm : ∀ j, 0 < M.lumped j) (b : ι → B) (n pass place : ℕ) (st : LimiterLoop ι S) (i : ι) (hi : M.nbrs i ≠ []) :
    passes Rounding.exact s M (component D φ row X) i place (φ (st.U i)) [(limiterPass D M b (Hyp.pIJ D M X) n pass st).lij]
      = φ ((limiterPass D M b (Hyp.pIJ D M X) n pass st).U i) := by
  unfold passes
  rw [passes, update_eq_foldl, List.foldl_map]
  have hl : (limiterPass D M b (Hyp.pIJ D M X) n pass st).U i = st.U i + ((M.nbrs i).map fun j =>
      (symmetrized (limiterPass D M b (Hyp.pIJ D M X) n pass st).lij i j * (1 / ((M.nbrs i).length : ℝ))) • Hyp.pIJ D M X i j).sum := by
    unfold limiterPass
    simp only [show M.active i from hi, if_true]
  rw [hl, map_add, Hyp.map_list_sum]
  generalize (limiterPass D M b (Hyp.pIJ D M X) n pass st).lij = l
  have : ∀ (L : List ι) (x : ℝ), L.foldl (fun U j => mulAdd Rounding.exact (s i j (.update place))
        (Rounding.exact.fl (symmetrized l i j * lambda Rounding.exact (M.nbrs i).length)) (pIJ Rounding.exact s M (component D φ row X) i j) U) x
      = x + (L.map fun j => φ ((symmetrized l i j * (1 / ((M.nbrs i).length : ℝ))) • Hyp.pIJ D M X i j)).sum := by
    intro L
    induction L with
    | nil => intro x; simp
    | cons j L ih =>
      intro x
      rw [List.foldl_cons, ih, List.map_cons, List.sum_cons, ← add_assoc, map_smul, smul_eq_mul,
        ← C123_exact_correction hD s M X (hm i) (hm j)]
      congr 2
      unfold mulAdd product
      split_ifs <;> rfl
  exact this _ _

/-- `lij_matrix_` in the passes of a limiter loop. -/
def coefficients (D : Description ι P S F B dim) (M : Mesh ι dim) (b : ι → B) (p : ι → ι → S) (n : ℕ) :
    List ℕ → LimiterLoop ι S → List (ι → ι → ℝ)
  | [], _ => []
  | pass :: rest, st => (limiterPass D M b p n pass st).lij :: coefficients D M b p n rest (limiterPass D M b p n pass st)

/-- **C123 (no rounding).** Without rounding the complete update is that of the model over the real numbers, with the coefficients computed
there. -/
theorem C123_exact_step (hm : ∀ j, 0 < M.lumped j) (par : Hyp.Params) (lo : Leftover ι S) (i : ι) :
    newU Rounding.exact s M (component D φ row X) (fun i => φ (newStates D M par lo X i))
        (coefficients D M (finalBounds D M par lo X) (Hyp.pIJ D M X) par.iterations (List.range par.iterations)
          ⟨newLow D M lo X, fun i j => (l1 D M par lo X i j).1, lo.lijNext⟩) i
      = φ (newStates D M par lo X i) := by
  classical
  unfold newU
  split_ifs with hi
  · have key : ∀ (L : List ℕ) (k : ℕ) (st : LimiterLoop ι S),
        passes Rounding.exact s M (component D φ row X) i k (φ (st.U i))
            (coefficients D M (finalBounds D M par lo X) (Hyp.pIJ D M X) par.iterations L st)
          = φ ((L.foldl (fun st pass => limiterPass D M (finalBounds D M par lo X) (Hyp.pIJ D M X) par.iterations pass st) st).U i) := by
      intro L
      induction L with
      | nil => intro k st; rfl
      | cons a L ih =>
        intro k st
        rw [coefficients, passes_cons, C123_exact_pass hD s M X hm _ _ _ _ _ _ hi, ih, List.foldl_cons]
    have h := key (List.range par.iterations) 0 ⟨newLow D M lo X, fun i j => (l1 D M par lo X i j).1, lo.lijNext⟩
    rw [show φ ((⟨newLow D M lo X, fun i j => (l1 D M par lo X i j).1, lo.lijNext⟩ : LimiterLoop ι S).U i) = φ (Hyp.lowOrder D M X i) by
      simp only [newLow, hi, if_true], ← C123_exact_low hD s M X (hm i)] at h
    exact h
  · rfl

end exact

/-- Every component of the state of a scalar equation, ... -/
theorem C123_scalar_component (fl : Scalar.Flux dim) (q : Scalar.StepParams) (draws : ι → ι → List ℝ) (lim) :
    Component (Scalar.description fl q draws lim) (LinearMap.proj (0 : Fin 1)) fun f => f 0 where
  fluxDiv := fun _ _ _ => rfl
  highOrder := fun _ _ _ => rfl
  source := fun _ _ _ _ => rfl
  stars := fun _ _ _ _ => rfl

/-- ... of the Euler equations ... -/
theorem C123_euler_component (p : Euler.Params) (lp big riem ind lim) (a : Fin (dim + 2)) :
    Component (Euler.description (ι := ι) (dim := dim) p lp big riem ind lim) (LinearMap.proj a) fun f => f a where
  fluxDiv := fun _ _ _ => rfl
  highOrder := fun _ _ _ => rfl
  source := fun _ _ _ _ => rfl
  stars := fun _ _ _ _ => rfl

/-- ... and of the Euler equations with arbitrary equation of state is such a component. -/
theorem C123_aeos_component (P : Aeos.Params) (lp strict big evc lim) (a : Fin (dim + 2)) :
    Component (Aeos.solver (ι := ι) (dim := dim) P lp strict big evc lim) (LinearMap.proj a) fun f => f a where
  fluxDiv := fun _ _ _ => rfl
  highOrder := fun _ _ _ => rfl
  source := fun _ _ _ _ => rfl
  stars := fun _ _ _ _ => rfl

/-! ### C124: the density stays positive in spite of rounding -/

/-- Sum of the viscosities of a row. -/
def rowViscosity (M : Mesh ι dim) (X : StepData ι dim) (i : ι) : ℝ := ((M.nbrs i).map (X.d i)).sum

/-- **C124 (time-step size).** The time-step size computed in floating point arithmetic exceeds the bound `cfl * m_i / (2 Σ_j d_ij)` of no row
by more than the errors of `n + 4` roundings, `n` being the number of neighbours. -/
theorem C124_time_step (R : Rounding) (M : Mesh ι dim) (X : StepData ι dim) (tiny cfl : ℝ) (i : ι) (hu : R.u < 1) (hcfl : 0 ≤ cfl)
    (hm : 0 < M.lumped i) (hd : ∀ j ∈ M.nbrs i, 0 ≤ X.d i j) (htau0 : 0 ≤ X.tau) (htau : X.tau ≤ tauRow R M X tiny cfl i) :
    2 * X.tau * rowViscosity M X i * (1 - R.u) ^ ((M.nbrs i).length + 1) ≤ cfl * M.lumped i * (1 + R.u) ^ 2 := by
  have u0 := R.u_nonneg
  -- the sum
  have hsum : ∀ (L : List ι), (∀ j ∈ L, 0 ≤ X.d i j) → ∀ x, x ≤ 0 →
      L.foldl (fun d_sum j => R.fl (d_sum - X.d i j)) x ≤ (x - (L.map (X.d i)).sum) * (1 - R.u) ^ L.length ∧
        0 ≤ (L.map (X.d i)).sum := by
    intro L
    induction L with
    | nil => intro _ x _; simp
    | cons j L ih =>
      intro h x hx
      have hj := h j (by simp)
      have h1 : R.fl (x - X.d i j) ≤ (x - X.d i j) * (1 - R.u) := fl_le_of_nonpos R (by linarith)
      have h2 := ih (fun k hk => h k (by simp [hk])) (R.fl (x - X.d i j)) (R.fl_nonpos (by linarith))
      rw [List.foldl_cons, List.map_cons, List.sum_cons, List.length_cons, pow_succ]
      refine ⟨h2.1.trans ?_, by linarith [h2.2]⟩
      have h3 : R.fl (x - X.d i j) - (L.map (X.d i)).sum ≤ (x - (X.d i j + (L.map (X.d i)).sum)) * (1 - R.u) := by
        have := mul_nonneg h2.2 u0
        linarith
      have h4 : 0 ≤ (1 - R.u) ^ L.length := pow_nonneg (by linarith) _
      calc _ ≤ (x - (X.d i j + (L.map (X.d i)).sum)) * (1 - R.u) * (1 - R.u) ^ L.length := mul_le_mul_of_nonneg_right h3 h4
        _ = _ := by ring
  obtain ⟨hS, hS0⟩ := hsum (M.nbrs i) hd 0 le_rfl
  set V := rowViscosity M X i with hV
  set q := (1 - R.u) ^ (M.nbrs i).length with hq
  have hq0 : 0 < q := pow_pos (by linarith) _
  have hV0 : 0 ≤ V := hS0
  set D := min (viscositySum R M X i) (R.fl (-1000000 * tiny)) with hD
  have hDV : D ≤ -(V * q) := by
    refine (min_le_left _ _).trans (hS.trans_eq ?_)
    rw [hV, rowViscosity]
    ring
  rcases hV0.lt_or_eq with hpos | hzero
  · have hVq : 0 < V * q := mul_pos hpos hq0
    have hD2 : 0 < -2 * D := by linarith
    have h5 : -2 * D * (1 - R.u) ≤ R.fl (-2 * D) := fl_ge_of_nonneg R hD2.le
    have h6 : 0 < -2 * D * (1 - R.u) := mul_pos hD2 (by linarith)
    have h7 : 0 < R.fl (-2 * D) := h6.trans_le h5
    have hn : 0 ≤ cfl * M.lumped i := mul_nonneg hcfl hm.le
    have h8 : R.fl (cfl * M.lumped i) ≤ cfl * M.lumped i * (1 + R.u) := fl_le_of_nonneg R hn
    have h9 : 0 ≤ R.fl (cfl * M.lumped i) := R.fl_nonneg hn
    have h10 : X.tau ≤ R.fl (cfl * M.lumped i) / R.fl (-2 * D) * (1 + R.u) :=
      htau.trans (fl_le_of_nonneg R (div_nonneg h9 h7.le))
    have h11 : X.tau * R.fl (-2 * D) ≤ R.fl (cfl * M.lumped i) * (1 + R.u) := by
      have := mul_le_mul_of_nonneg_right h10 h7.le
      rwa [mul_right_comm, div_mul_cancel₀ _ h7.ne'] at this
    have h12 : X.tau * (-2 * D * (1 - R.u)) ≤ X.tau * R.fl (-2 * D) := mul_le_mul_of_nonneg_left h5 htau0
    have h13 : R.fl (cfl * M.lumped i) * (1 + R.u) ≤ cfl * M.lumped i * (1 + R.u) * (1 + R.u) :=
      mul_le_mul_of_nonneg_right h8 (by linarith)
    have h14 : X.tau * (1 - R.u) * (2 * (V * q)) ≤ X.tau * (1 - R.u) * (-2 * D) :=
      mul_le_mul_of_nonneg_left (by linarith) (mul_nonneg htau0 (by linarith))
    calc 2 * X.tau * V * (1 - R.u) ^ ((M.nbrs i).length + 1) = X.tau * (1 - R.u) * (2 * (V * q)) := by rw [pow_succ, hq]; ring
      _ ≤ X.tau * (1 - R.u) * (-2 * D) := h14
      _ = X.tau * (-2 * D * (1 - R.u)) := by ring
      _ ≤ cfl * M.lumped i * (1 + R.u) * (1 + R.u) := h12.trans (h11.trans h13)
      _ = _ := by ring
  · rw [← hzero]
    have : 0 ≤ cfl * M.lumped i * (1 + R.u) ^ 2 := by positivity
    simpa using this

/-- **C124 (density, assembled matrices).** The bound of `C124_density` for vectors `c_ij` whose row sums need not vanish exactly, as the
assembly in floating point arithmetic leaves them: the flux of the state, multiplied with the sum of the row, enters the update
(source/offline_data.template.h, `assemble()`). -/
theorem C124_density_assembled (R : Rounding) (s : Contractions ι) (M : Mesh ι dim) (X : StepData ι dim) (i : ι) (top κ cfl' : ℝ) (hm : 0 < M.lumped i)
    (htau0 : 0 ≤ X.tau) (hκ : 0 ≤ κ) (hd : ∀ j ∈ M.nbrs i, 0 ≤ X.d i j) (hdiag : |X.d i i| ≤ 2 * rowViscosity M X i)
    (hrho_i : 0 < X.U i ∧ X.U i ≤ top) (hrho : ∀ j ∈ M.nbrs i, 0 < X.U j ∧ X.U j ≤ top)
    (hwave : ∀ j ∈ M.nbrs i, ∑ k, (X.f j k - X.f i k) * M.c i j k ≤ X.d i j * (X.U i + X.U j))
    (hspeed : ∀ j ∈ M.columns i, fluxSize (X.f i) (X.f j) (M.c i j) ≤ κ * |X.d i j| * (X.U i + X.U j))
    (hcfl : 2 * X.tau * rowViscosity M X i ≤ cfl' * M.lumped i)
    (hu : (dim + 7 + 2 * (M.nbrs i).length : ℕ) * R.u ≤ 1 / 2) :
    (1 - cfl') * X.U i - 2 * (dim + 7 + 2 * (M.nbrs i).length : ℕ) * R.u * ((1 + 3 * (κ + 1) * cfl') * top)
      - X.tau / M.lumped i * (2 * ∑ k, X.f i k * ((M.columns i).map fun j => M.c i j k).sum) ≤ lowOrder R s M X i := by
  have hV : 0 ≤ rowViscosity M X i := List.sum_nonneg (by
    intro x hx
    obtain ⟨j, hj, rfl⟩ := List.mem_map.1 hx
    exact hd j hj)
  have htm : 0 ≤ X.tau / M.lumped i := div_nonneg htau0 hm.le
  have hrate : X.tau / M.lumped i * (2 * rowViscosity M X i) ≤ cfl' := by
    rw [div_mul_eq_mul_div, div_le_iff₀ hm]
    linarith
  have htop : 0 < top := hrho_i.1.trans_le hrho_i.2
  have h := close_low (R := R) s (X := X) hm
  have herr := (abs_le.1 h.err).1
  have hg := grow_le (R := R) _ hu
  -- the update without rounding
  have hlow : (1 - cfl') * X.U i - X.tau / M.lumped i * (2 * ∑ k, X.f i k * ((M.columns i).map fun j => M.c i j k).sum) ≤ refLow M X i := by
    have e : refLow M X i = X.U i + X.tau / M.lumped i * ((M.nbrs i).map fun j =>
        X.d i j * (X.U j - X.U i) - ∑ k, (X.f j k - X.f i k) * M.c i j k).sum
          - X.tau / M.lumped i * (2 * ∑ k, X.f i k * ((M.columns i).map fun j => M.c i j k).sum) := by
      have a1 : refLow M X i = X.U i + X.tau / M.lumped i * ((M.columns i).map fun j =>
          X.d i j * (X.U j - X.U i) - ∑ k, (X.f j k - X.f i k) * M.c i j k - 2 * ∑ k, X.f i k * M.c i j k).sum := by
        unfold refLow
        rw [← List.sum_map_mul_left]
        congr 3
        funext j
        rw [refFlux_sum]
        have : ∑ k, (X.f i k + X.f j k) * M.c i j k = ∑ k, (X.f j k - X.f i k) * M.c i j k + 2 * ∑ k, X.f i k * M.c i j k := by
          rw [Finset.mul_sum, ← Finset.sum_add_distrib]
          exact Finset.sum_congr rfl fun k _ => by ring
        rw [this]
        ring
      have a2 : ∀ (L : List ι) (g : ι → ℝ), (L.map fun j => g j - 2 * ∑ k, X.f i k * M.c i j k).sum
          = (L.map g).sum - 2 * ∑ k, X.f i k * (L.map fun j => M.c i j k).sum := by
        intro L g
        induction L with
        | nil => simp
        | cons j L ih =>
          simp only [List.map_cons, List.sum_cons, mul_add, Finset.sum_add_distrib]
          rw [ih]
          ring
      have a3 : ((M.columns i).map fun j => X.d i j * (X.U j - X.U i) - ∑ k, (X.f j k - X.f i k) * M.c i j k).sum
          = ((M.nbrs i).map fun j => X.d i j * (X.U j - X.U i) - ∑ k, (X.f j k - X.f i k) * M.c i j k).sum := by
        rw [Mesh.columns, List.map_cons, List.sum_cons]
        simp
      rw [a1, a2, a3]
      ring
    rw [e]
    have hterm : -(2 * rowViscosity M X i * X.U i)
        ≤ ((M.nbrs i).map fun j => X.d i j * (X.U j - X.U i) - ∑ k, (X.f j k - X.f i k) * M.c i j k).sum := by
      have : ((M.nbrs i).map fun j => -(2 * X.d i j * X.U i)).sum
          ≤ ((M.nbrs i).map fun j => X.d i j * (X.U j - X.U i) - ∑ k, (X.f j k - X.f i k) * M.c i j k).sum :=
        List.sum_le_sum fun j hj => by have := hwave j hj; linarith
      refine le_trans (le_of_eq ?_) this
      unfold rowViscosity
      induction M.nbrs i with
      | nil => simp
      | cons j L ih => rw [List.map_cons, List.sum_cons, List.map_cons, List.sum_cons, ← ih]; ring
    have h1 := mul_le_mul_of_nonneg_left hterm htm
    have h2 := mul_le_mul_of_nonneg_right hrate hrho_i.1.le
    linarith
  -- the size of the numbers
  have hsize : lowSize M X i ≤ (1 + 3 * (κ + 1) * cfl') * top := by
    unfold lowSize
    rw [abs_of_pos hrho_i.1, abs_of_nonneg htau0]
    have hone : ∀ j, (0 < X.U j ∧ X.U j ≤ top) → fluxSize (X.f i) (X.f j) (M.c i j) ≤ κ * |X.d i j| * (X.U i + X.U j) →
        X.tau / M.lumped i * fluxSize (X.f i) (X.f j) (M.c i j) + X.tau / M.lumped i * |X.d i j| * (|X.U j| + X.U i)
          ≤ X.tau / M.lumped i * (2 * (κ + 1) * top * |X.d i j|) := by
      intro j hj hs
      rw [abs_of_pos hj.1]
      have a0 : 0 ≤ κ * |X.d i j| := mul_nonneg hκ (abs_nonneg _)
      have a1 : κ * |X.d i j| * (X.U i + X.U j) ≤ κ * |X.d i j| * (2 * top) := mul_le_mul_of_nonneg_left (by linarith [hrho_i.2, hj.2]) a0
      have a2 : |X.d i j| * (X.U j + X.U i) ≤ |X.d i j| * (2 * top) := mul_le_mul_of_nonneg_left (by linarith [hrho_i.2, hj.2]) (abs_nonneg _)
      calc _ = X.tau / M.lumped i * (fluxSize (X.f i) (X.f j) (M.c i j) + |X.d i j| * (X.U j + X.U i)) := by ring
        _ ≤ _ := mul_le_mul_of_nonneg_left (by linarith) htm
    have hnb : ∀ L : List ι, (∀ j ∈ L, j ∈ M.nbrs i) →
        (L.map fun j => X.tau / M.lumped i * fluxSize (X.f i) (X.f j) (M.c i j) + X.tau / M.lumped i * |X.d i j| * (|X.U j| + X.U i)).sum
          ≤ X.tau / M.lumped i * (2 * (κ + 1) * top * (L.map (X.d i)).sum) := by
      intro L
      induction L with
      | nil => intro _; simp
      | cons j L ih =>
        intro hL
        have hj := hL j (by simp)
        have h1 := ih fun k hk => hL k (by simp [hk])
        have h2 := hone j (hrho j hj) (hspeed j (by simp [Mesh.columns, hj]))
        rw [abs_of_nonneg (hd j hj)] at h2
        rw [List.map_cons, List.sum_cons, List.map_cons, List.sum_cons, abs_of_nonneg (hd j hj)]
        linarith
    have h1 := hone i hrho_i (hspeed i (by simp [Mesh.columns]))
    have h2 := hnb (M.nbrs i) fun _ h => h
    rw [abs_of_pos hrho_i.1] at h1
    have h3 : X.tau / M.lumped i * (2 * (κ + 1) * top * |X.d i i|) ≤ X.tau / M.lumped i * (2 * (κ + 1) * top * (2 * rowViscosity M X i)) :=
      mul_le_mul_of_nonneg_left (mul_le_mul_of_nonneg_left hdiag (by positivity)) htm
    have h4 : 3 * (κ + 1) * top * (X.tau / M.lumped i * (2 * rowViscosity M X i)) ≤ 3 * (κ + 1) * top * cfl' :=
      mul_le_mul_of_nonneg_left hrate (by positivity)
    have h5 : ((M.nbrs i).map (X.d i)).sum = rowViscosity M X i := rfl
    rw [h5] at h2
    rw [Mesh.columns, List.map_cons, List.sum_cons, abs_of_pos hrho_i.1]
    linarith [hrho_i.2]
  have hK : 0 ≤ 2 * ((dim + 7 + 2 * (M.nbrs i).length : ℕ) : ℝ) * R.u := by
    have := R.u_nonneg
    positivity
  have h1 : ((1 + R.u) ^ (dim + 7 + 2 * (M.nbrs i).length) - 1) * lowSize M X i
      ≤ 2 * (dim + 7 + 2 * (M.nbrs i).length : ℕ) * R.u * lowSize M X i := mul_le_mul_of_nonneg_right hg h.nonneg
  have h2 := mul_le_mul_of_nonneg_left hsize hK
  linarith

/-- **C124 (density).** The density of the low-order update in floating point arithmetic: if the states of row `i` and of its neighbours have
densities in `(0, top]`, if `d_ij` is a bound of the wave speeds (which makes the densities of the bar states non-negative), and if the time-step
size satisfies `2 tau Σ_j d_ij ≤ cfl' m_i`, then the new density is at least `(1 - cfl')` times the old one, up to rounding errors that are small
compared to the largest density of the stencil.  `κ` bounds the speed of the flow, relative to the wave speeds. -/
theorem C124_density (R : Rounding) (s : Contractions ι) (M : Mesh ι dim) (X : StepData ι dim) (i : ι) (top κ cfl' : ℝ) (hm : 0 < M.lumped i)
    (htau0 : 0 ≤ X.tau) (hκ : 0 ≤ κ) (hd : ∀ j ∈ M.nbrs i, 0 ≤ X.d i j) (hdiag : |X.d i i| ≤ 2 * rowViscosity M X i)
    (hc : ∀ k, ((M.columns i).map fun j => M.c i j k).sum = 0)
    (hrho_i : 0 < X.U i ∧ X.U i ≤ top) (hrho : ∀ j ∈ M.nbrs i, 0 < X.U j ∧ X.U j ≤ top)
    (hwave : ∀ j ∈ M.nbrs i, ∑ k, (X.f j k - X.f i k) * M.c i j k ≤ X.d i j * (X.U i + X.U j))
    (hspeed : ∀ j ∈ M.columns i, fluxSize (X.f i) (X.f j) (M.c i j) ≤ κ * |X.d i j| * (X.U i + X.U j))
    (hcfl : 2 * X.tau * rowViscosity M X i ≤ cfl' * M.lumped i)
    (hu : (dim + 7 + 2 * (M.nbrs i).length : ℕ) * R.u ≤ 1 / 2) :
    (1 - cfl') * X.U i - 2 * (dim + 7 + 2 * (M.nbrs i).length : ℕ) * R.u * ((1 + 3 * (κ + 1) * cfl') * top) ≤ lowOrder R s M X i := by
  have h := C124_density_assembled R s M X i top κ cfl' hm htau0 hκ hd hdiag hrho_i hrho hwave hspeed hcfl hu
  simp only [hc, mul_zero, Finset.sum_const_zero, sub_zero] at h
  exact h

/-- **C124 (double precision).** With `double`, at most 30 neighbours, an effective CFL number of at most `0.9`, a flow not faster than hundred
times the wave speeds, densities in the stencil that differ by a factor of at most `10^9` and a row sum of the assembled `c_ij` whose
contribution to the update is at most a twentieth of the density, the low-order density is positive. -/
theorem C124_double (s : Contractions ι) (M : Mesh ι dim) (X : StepData ι dim) (i : ι) (hdim : dim ≤ 3) (hnb : (M.nbrs i).length ≤ 30)
    (hm : 0 < M.lumped i) (htau0 : 0 ≤ X.tau) (hd : ∀ j ∈ M.nbrs i, 0 ≤ X.d i j) (hdiag : |X.d i i| ≤ 2 * rowViscosity M X i)
    (hc : X.tau / M.lumped i * (2 * ∑ k, X.f i k * ((M.columns i).map fun j => M.c i j k).sum) ≤ 1 / 20 * X.U i) (hrho_i : 0 < X.U i)
    (hrho : ∀ j ∈ M.nbrs i, 0 < X.U j ∧ X.U j ≤ 10 ^ 9 * X.U i)
    (hwave : ∀ j ∈ M.nbrs i, ∑ k, (X.f j k - X.f i k) * M.c i j k ≤ X.d i j * (X.U i + X.U j))
    (hspeed : ∀ j ∈ M.columns i, fluxSize (X.f i) (X.f j) (M.c i j) ≤ 100 * |X.d i j| * (X.U i + X.U j))
    (hcfl : 2 * X.tau * rowViscosity M X i ≤ 9 / 10 * M.lumped i) : 0 < lowOrder Rounding.double s M X i := by
  have hK : ((dim + 7 + 2 * (M.nbrs i).length : ℕ) : ℝ) ≤ 70 := by
    have : dim + 7 + 2 * (M.nbrs i).length ≤ 70 := by omega
    exact_mod_cast this
  have hu : Rounding.double.u = 1 / 2 ^ 53 := by
    show (2 : ℝ) ^ (-((53 : ℕ) : ℤ)) = _
    rw [zpow_neg, zpow_natCast, one_div]
  have hu0 := Rounding.double.u_nonneg
  have h1 : ((dim + 7 + 2 * (M.nbrs i).length : ℕ) : ℝ) * Rounding.double.u ≤ 70 * (1 / 2 ^ 53) := by
    rw [hu]
    exact mul_le_mul_of_nonneg_right hK (by positivity)
  have h := C124_density_assembled Rounding.double s M X i (10 ^ 9 * X.U i) 100 (9 / 10) hm htau0 (by norm_num) hd hdiag
    ⟨hrho_i, by linarith⟩ hrho hwave hspeed hcfl (h1.trans (by norm_num))
  have h2 : 2 * ((dim + 7 + 2 * (M.nbrs i).length : ℕ) : ℝ) * Rounding.double.u * ((1 + 3 * (100 + 1) * (9 / 10)) * (10 ^ 9 * X.U i))
      ≤ 2 * (70 * (1 / 2 ^ 53)) * ((1 + 3 * (100 + 1) * (9 / 10)) * (10 ^ 9 * X.U i)) := by
    rw [mul_assoc 2]
    exact mul_le_mul_of_nonneg_right (by linarith) (by positivity)
  have h3 : 2 * (70 * (1 / 2 ^ 53)) * ((1 + 3 * (100 + 1) * (9 / 10)) * (10 ^ 9 * X.U i)) ≤ 1 / 100 * X.U i := by
    rw [show (2 : ℝ) * (70 * (1 / 2 ^ 53)) * ((1 + 3 * (100 + 1) * (9 / 10)) * (10 ^ 9 * X.U i))
      = (2 * (70 * (1 / 2 ^ 53)) * ((1 + 3 * (100 + 1) * (9 / 10)) * 10 ^ 9)) * X.U i by ring]
    exact mul_le_mul_of_nonneg_right (by norm_num) hrho_i.le
  linarith

/-! ### Examples -/

/-- Three densities on the periodic interval, moving with velocity `1/2`. -/
def ringData : StepData (Fin 3) 1 where
  U := ![1, 2, 4]
  f := fun i _ => ![1, 2, 4] i / 2
  stages := [(1 / 2, fun i _ => ![1, 1, 3] i)]
  weight := 1 / 2
  tau := 1 / 10
  d := fun i j => if i = j then -4 else 2
  alpha := ![0, 1 / 3, 1]

open Classical in
/-- The error of conservation on the ring in double precision, with one stage and two passes of the limiter. -/
example (s : Contractions (Fin 3)) (left : Fin 3 → ℝ) (lij : Fin 3 → Fin 3 → ℝ) :
    |∑ i ∈ Finset.univ.filter (fun i => ring.nbrs i ≠ []), ring.lumped i * newU Rounding.double s ring ringData left [lij, lij] i
        - ∑ i ∈ Finset.univ.filter (fun i => ring.nbrs i ≠ []), ring.lumped i * ringData.U i|
      ≤ ((1 + Rounding.double.u) ^ (1 + 14 + 1 + (2 + 2) * 2) - 1) * ∑ i ∈ Finset.univ.filter (fun i => ring.nbrs i ≠ []),
          ring.lumped i * stepSize Rounding.double s ring ringData [lij, lij] i :=
  C123_conservation Rounding.double s ring ring_wf ring_closed ringData
    (by intro i j _; simp [ringData, eq_comm]) left [lij, lij] 2 (by intro i; simp [ring])

/-- The densities on the ring stay positive in double precision. -/
example (s : Contractions (Fin 3)) (i : Fin 3) : 0 < lowOrder Rounding.double s ring ringData i := by
  have hV : rowViscosity ring ringData i = 4 := by fin_cases i <;> simp [rowViscosity, ring, ringData] <;> norm_num
  apply C124_double s ring ringData i (by norm_num) (by simp [ring]) (by norm_num [ring]) (by norm_num [ringData])
  · intro j _; simp only [ringData]; fin_cases i <;> fin_cases j <;> simp_all [ring]
  · rw [hV]; norm_num [ringData]
  · have h0 : ∀ k, ((ring.columns i).map fun j => ring.c i j k).sum = 0 := by
      intro k; fin_cases i <;> simp [Mesh.columns, ring] <;> norm_num
    simp only [h0, mul_zero, Finset.sum_const_zero]
    fin_cases i <;> simp [ringData]
  · fin_cases i <;> simp [ringData]
  · intro j _; fin_cases i <;> fin_cases j <;> simp [ringData] <;> norm_num
  · intro j _; fin_cases i <;> fin_cases j <;> simp_all [ring, ringData] <;> norm_num
  · intro j _; fin_cases i <;> fin_cases j <;> simp [ring, ringData, fluxSize] <;> norm_num
  · rw [hV]; norm_num [ring, ringData]

/-- The time-step size computed on the ring. -/
example : 2 * (1 / 10) * rowViscosity ring ringData 0 * (1 - Rounding.exact.u) ^ 3 ≤ 8 / 10 * 1 * (1 + Rounding.exact.u) ^ 2 := by
  have h := C124_time_step Rounding.exact ring ringData 0 (8 / 10) 0 (by norm_num [Rounding.exact]) (by norm_num) (by norm_num [ring])
    (by intro j hj; fin_cases j <;> simp_all [ring, ringData]) (by norm_num [ringData])
    (by simp [tauRow, viscositySum, Rounding.exact, ring, ringData]; norm_num)
  simpa [ring, ringData] using h

end

end Rounded
end Ryujin
