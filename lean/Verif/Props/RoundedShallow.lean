import Verif.Proofs.RoundedShallow
import Verif.Props.RoundedStep

/-!
# C123: the total water is conserved up to rounding
-/

namespace Ryujin
namespace RoundedShallow

noncomputable section

open Hyp Rounded

variable {ι : Type} {dim : ℕ}

open Classical in
/-- **C123 (shallow water).** In floating point arithmetic one step of the shallow water equations over arbitrary bathymetry on a mesh without
(non-periodic) boundary changes the total `Σ m_i h_i` of the water depth by at most the sum of the sizes of all numbers that were added up, times
the growth `(1 + u)^K - 1` of `K` roundings in a row.  The equilibrated states, their fluxes, the fluxes of the states, the viscosity (as long
as it is symmetric), the indicator and the coefficients of the limiter may be arbitrary numbers: no error made in them is an error of
conservation.  The compiler may contract any products with sums. -/
theorem C123_shallow_water [Fintype ι] (R : Rounding) (s : Contractions ι) (M : Mesh ι dim) (hM : M.WellFormed) (hC : M.Closed) (X : StepData ι dim)
    (hd : ∀ i, ∀ j ∈ M.nbrs i, X.d i j = X.d j i) (left : ι → ℝ) (lij : List (ι → ι → ℝ)) (N : ℕ) (hN : ∀ i, (M.nbrs i).length ≤ N) :
    |∑ i ∈ Finset.univ.filter (fun i => M.nbrs i ≠ []), M.lumped i * newU R s M X left lij i
        - ∑ i ∈ Finset.univ.filter (fun i => M.nbrs i ≠ []), M.lumped i * X.U i|
      ≤ ((1 + R.u) ^ (dim + 14 + X.stages.length + (lij.length + 2) * N) - 1)
        * ∑ i ∈ Finset.univ.filter (fun i => M.nbrs i ≠ []), M.lumped i * stepSize R s M X lij i := by
  rw [← refNew_conserves (X := X) (factor R M X) (rhs R s M X) hM hC hd (fun i j hj => factor_symm hC hj) lij, ← Finset.sum_sub_distrib,
    Finset.mul_sum]
  refine (Finset.abs_sum_le_sum_abs _ _).trans (Finset.sum_le_sum fun i hi => ?_)
  have hn : M.nbrs i ≠ [] := (Finset.mem_filter.1 hi).2
  have h := ((close_new (R := R) s (X := X) left hC.lumped hn lij).mono
    (l := dim + 14 + X.stages.length + (lij.length + 2) * N) (by have := Nat.mul_le_mul_left (lij.length + 2) (hN i); omega)).err
  rw [← mul_sub, abs_mul, abs_of_pos (hC.lumped i)]
  calc _ ≤ M.lumped i * (((1 + R.u) ^ (dim + 14 + X.stages.length + (lij.length + 2) * N) - 1) * stepSize R s M X lij i) :=
        mul_le_mul_of_nonneg_left h (hC.lumped i).le
    _ = _ := by ring

open Classical in
/-- The same with a multiple of the unit roundoff. -/
theorem C123_shallow_water_linear [Fintype ι] (R : Rounding) (s : Contractions ι) (M : Mesh ι dim) (hM : M.WellFormed) (hC : M.Closed)
    (X : StepData ι dim) (hd : ∀ i, ∀ j ∈ M.nbrs i, X.d i j = X.d j i) (left : ι → ℝ) (lij : List (ι → ι → ℝ)) (N : ℕ) (hN : ∀ i, (M.nbrs i).length ≤ N)
    (hu : (dim + 14 + X.stages.length + (lij.length + 2) * N : ℕ) * R.u ≤ 1 / 2) :
    |∑ i ∈ Finset.univ.filter (fun i => M.nbrs i ≠ []), M.lumped i * newU R s M X left lij i
        - ∑ i ∈ Finset.univ.filter (fun i => M.nbrs i ≠ []), M.lumped i * X.U i|
      ≤ 2 * (dim + 14 + X.stages.length + (lij.length + 2) * N : ℕ) * R.u
        * ∑ i ∈ Finset.univ.filter (fun i => M.nbrs i ≠ []), M.lumped i * stepSize R s M X lij i := by
  refine (C123_shallow_water R s M hM hC X hd left lij N hN).trans (mul_le_mul_of_nonneg_right (grow_le _ hu) ?_)
  refine Finset.sum_nonneg fun i hi => mul_nonneg (hC.lumped i).le ?_
  exact (close_new (R := R) s (X := X) left hC.lumped (Finset.mem_filter.1 hi).2 lij).nonneg

/-- Entries of constrained degrees of freedom are not written. -/
theorem C123_shallow_water_constrained (R : Rounding) (s : Contractions ι) (M : Mesh ι dim) (X : StepData ι dim) (left : ι → ℝ)
    (lij : List (ι → ι → ℝ)) (i : ι) (h : M.nbrs i = []) : newU R s M X left lij i = left i := by
  unfold newU
  rw [if_neg (by unfold Mesh.active; simp [h])]

/-! ### Without rounding -/

open ShallowWater in
/-- The depth component of the input of step 4 of the shallow water solver. -/
def depth (q : StepParams) (Z : ι → ℝ) (X : Stage4 ι Unit (ShallowWater.State dim)) : StepData ι dim where
  U i := waterDepth (X.old.U i)
  star i j := waterDepth (starState q.p (X.old.U i) (Z i) (Z j))
  fStar i j := g q.p (starState q.p (X.old.U i) (Z i) (Z j)) 0
  f i := g q.p (X.old.U i) 0
  stages := X.stages.map fun st => (st.1, fun i => g q.p (st.2.U i) 0)
  weight := X.weight
  tau := X.tau
  d := X.d
  alpha := X.alpha

section exact

variable (q : ShallowWater.StepParams) (Z : ι → ℝ) (lim : ι → ι → ShallowWater.Bounds → ShallowWater.State dim → ShallowWater.State dim → ℝ × Prop)
  (s : Contractions ι) (M : Mesh ι dim) (X : Stage4 ι Unit (ShallowWater.State dim))

/-- The depth, as a linear function of the state. -/
abbrev depthOf : ShallowWater.State dim →ₗ[ℝ] ℝ := LinearMap.proj (0 : Fin (dim + 1))

theorem depth_fluxIJ (i j : ι) : depthOf (Hyp.fluxIJ (ShallowWater.description q Z lim) M X i j) =
    refFlux ((depth q Z X).fStar i j) ((depth q Z X).fStar j i) (M.c i j) := by
  rw [refFlux_sum, ← Finset.sum_neg_distrib]
  simp only [← neg_mul]
  rfl

theorem depth_highOrder (U V : ShallowWater.State dim) (Z_i Z_j : ℝ) (c : Vec dim) :
    depthOf (ShallowWater.highOrderFluxDivergence q.p ⟨U, Z_i⟩ ⟨V, Z_j⟩ c)
      = refFlux (ShallowWater.g q.p U 0) (ShallowWater.g q.p V 0) c := by
  rw [refFlux_sum, ← Finset.sum_neg_distrib]
  simp only [← neg_mul]
  rfl

theorem depth_source (U : ShallowWater.State dim) (tau : ℝ) : depthOf (ShallowWater.nodalSource q.p U tau) = 0 := rfl

theorem depth_jump (i j : ι) : depthOf (Hyp.jump (ShallowWater.description q Z lim) X i j) = (depth q Z X).star j i - (depth q Z X).star i j := rfl

theorem depth_sourceAt (i : ι) : depthOf (sourceAt (ShallowWater.description q Z lim) X i) = 0 := rfl

theorem depth_highOrderPart (i j : ι) : depthOf (highOrderPart (ShallowWater.description q Z lim) M X i j) =
    X.weight * refFlux ((depth q Z X).f i) ((depth q Z X).f j) (M.c i j)
      + ((depth q Z X).stages.map fun st => st.1 * refFlux (st.2 i) (st.2 j) (M.c i j)).sum := by
  unfold highOrderPart
  rw [map_add, map_add, map_smul, map_smul, depth_sourceAt, smul_zero, add_zero, smul_eq_mul]
  congr 1
  · congr 1
    exact depth_highOrder q _ _ _ _ _
  · simp only [depth, List.map_map]
    induction X.stages with
    | nil => simp
    | cons st L ih =>
      rw [List.map_cons, List.map_cons, List.sum_cons, List.sum_cons, map_add, ih]
      congr 1
      rw [map_add, map_smul, map_smul, smul_eq_mul, smul_eq_mul,
        show depthOf (stageSource (ShallowWater.description q Z lim) X st j) = 0 from rfl, mul_zero, add_zero]
      congr 1
      exact depth_highOrder q _ _ _ _ _

/-- **C123 (shallow water, no rounding).** Without rounding the low-order update of the depth is that of the model over the real numbers. -/
theorem C123_shallow_water_exact_low {i : ι} (hm : 0 < M.lumped i) :
    lowOrder Rounding.exact s M (depth q Z X) i = ShallowWater.waterDepth (Hyp.lowOrder (ShallowWater.description q Z lim) M X i) := by
  rw [(close_low (R := Rounding.exact) s (M := M) (X := depth q Z X) hm).exact_eq]
  change _ = depthOf (Hyp.lowOrder (ShallowWater.description q Z lim) M X i)
  unfold refLow Hyp.lowOrder
  rw [map_add, map_add, map_smul, depth_sourceAt, smul_zero, add_zero, Hyp.map_list_sum]
  congr 2
  congr 1
  funext j
  rw [map_add, map_smul, map_smul, depth_jump, depth_fluxIJ, smul_eq_mul, smul_eq_mul, one_div]
  rfl

/-- **C123 (shallow water, no rounding).** Without rounding `F_iH` is that of the model over the real numbers. -/
theorem C123_shallow_water_exact_rhs (i : ι) :
    rhs Rounding.exact s M (depth q Z X) i = ShallowWater.waterDepth (rhsH (ShallowWater.description q Z lim) M X i) := by
  obtain ⟨k, S, h⟩ := close_rhs (R := Rounding.exact) s (M := M) (X := depth q Z X) i
  rw [h.exact_eq]
  change _ = depthOf (rhsH (ShallowWater.description q Z lim) M X i)
  unfold refRhs rhsH
  have hs : depthOf (sourceH (ShallowWater.description q Z lim) X i) = 0 := by
    unfold sourceH
    rw [map_add, map_smul, depth_sourceAt, smul_zero, add_zero]
    induction X.stages with
    | nil => simp
    | cons st L ih =>
      rw [List.map_cons, List.sum_cons, map_add, ih, map_smul,
        show depthOf (stageSource (ShallowWater.description q Z lim) X st i) = 0 from rfl, smul_zero, add_zero]
  rw [map_add, map_smul, hs, smul_zero, zero_add, Hyp.map_list_sum]
  congr 2
  funext j
  rw [map_add, map_sub, map_smul, map_smul, hs, smul_zero, sub_zero, depth_jump, depth_highOrderPart, smul_eq_mul, add_assoc]
  rfl

/-- **C123 (shallow water, no rounding).** Without rounding the depth component of `P_ij` is that of the model over the real numbers. -/
theorem C123_shallow_water_exact_correction {i j : ι} (hi : 0 < M.lumped i) (hj : 0 < M.lumped j) :
    pIJ Rounding.exact s M (depth q Z X) i j = ShallowWater.waterDepth (Hyp.pIJ (ShallowWater.description q Z lim) M X i j) := by
  rw [(close_pIJ (R := Rounding.exact) s (M := M) (X := depth q Z X) hi hj).exact_eq]
  change _ = depthOf (Hyp.pIJ (ShallowWater.description q Z lim) M X i j)
  unfold Hyp.pIJ refP refFirst refMass
  rw [map_smul, map_add, map_sub, map_smul, map_smul, C123_shallow_water_exact_rhs q Z lim, C123_shallow_water_exact_rhs q Z lim, pStep4, map_add,
    map_sub, map_add, map_neg, map_smul, map_smul, depth_sourceAt, depth_jump, depth_highOrderPart, depth_fluxIJ, Hyp.bIJ, Hyp.bJI]
  simp only [smul_eq_mul, mul_zero, sub_zero, one_div]
  have e : (depth q Z X).d i j * factor Rounding.exact M (depth q Z X) i j = dH M X i j := rfl
  rw [e]
  simp only [depth]
  split_ifs <;> simp only [ShallowWater.waterDepth, LinearMap.proj_apply] <;> ring

open Classical in
/-- **C123 (shallow water, no rounding).** Without rounding a pass of the limiter is that of the model over the real numbers. -/
theorem C123_shallow_water_exact_pass (hm : ∀ j, 0 < M.lumped j) (b : ι → ShallowWater.Bounds) (n pass place : ℕ)
    (st : LimiterLoop ι (ShallowWater.State dim)) (i : ι) (hi : M.nbrs i ≠ []) :
    passes Rounding.exact s M (depth q Z X) i place (ShallowWater.waterDepth (st.U i))
        [(limiterPass (ShallowWater.description q Z lim) M b (Hyp.pIJ (ShallowWater.description q Z lim) M X) n pass st).lij]
      = ShallowWater.waterDepth ((limiterPass (ShallowWater.description q Z lim) M b (Hyp.pIJ (ShallowWater.description q Z lim) M X) n pass st).U i) := by
  change _ = depthOf ((limiterPass (ShallowWater.description q Z lim) M b (Hyp.pIJ (ShallowWater.description q Z lim) M X) n pass st).U i)
  unfold passes
  rw [passes, update_eq_foldl, List.foldl_map]
  have hl : (limiterPass (ShallowWater.description q Z lim) M b (Hyp.pIJ (ShallowWater.description q Z lim) M X) n pass st).U i = st.U i + ((M.nbrs i).map fun j =>
      (symmetrized (limiterPass (ShallowWater.description q Z lim) M b (Hyp.pIJ (ShallowWater.description q Z lim) M X) n pass st).lij i j * (1 / ((M.nbrs i).length : ℝ))) • Hyp.pIJ (ShallowWater.description q Z lim) M X i j).sum := by
    unfold limiterPass
    simp only [show M.active i from hi, if_true]
  rw [hl, map_add, Hyp.map_list_sum]
  generalize (limiterPass (ShallowWater.description q Z lim) M b (Hyp.pIJ (ShallowWater.description q Z lim) M X) n pass st).lij = l
  have : ∀ (L : List ι) (x : ℝ), L.foldl (fun U j => mulAdd Rounding.exact (s i j (.update place))
        (Rounding.exact.fl (symmetrized l i j * lambda Rounding.exact (M.nbrs i).length)) (pIJ Rounding.exact s M (depth q Z X) i j) U) x
      = x + (L.map fun j => depthOf ((symmetrized l i j * (1 / ((M.nbrs i).length : ℝ))) • Hyp.pIJ (ShallowWater.description q Z lim) M X i j)).sum := by
    intro L
    induction L with
    | nil => intro x; simp
    | cons j L ih =>
      intro x
      rw [List.foldl_cons, ih, List.map_cons, List.sum_cons, ← add_assoc, map_smul, smul_eq_mul]
      change _ = x + _ * ShallowWater.waterDepth (Hyp.pIJ (ShallowWater.description q Z lim) M X i j) + _
      rw [← C123_shallow_water_exact_correction q Z lim s M X (hm i) (hm j)]
      congr 2
      unfold mulAdd product
      split_ifs <;> rfl
  exact this _ _

/-- **C123 (shallow water, no rounding).** Without rounding the complete update of the depth is that of the model over the real numbers, with
the coefficients computed there. -/
theorem C123_shallow_water_exact_step (hm : ∀ j, 0 < M.lumped j) (par : Hyp.Params) (lo : Leftover ι (ShallowWater.State dim)) (i : ι) :
    newU Rounding.exact s M (depth q Z X) (fun i => ShallowWater.waterDepth (newStates (ShallowWater.description q Z lim) M par lo X i))
        (coefficients (ShallowWater.description q Z lim) M (finalBounds (ShallowWater.description q Z lim) M par lo X) (Hyp.pIJ (ShallowWater.description q Z lim) M X) par.iterations (List.range par.iterations)
          ⟨newLow (ShallowWater.description q Z lim) M lo X, fun i j => (l1 (ShallowWater.description q Z lim) M par lo X i j).1, lo.lijNext⟩) i
      = ShallowWater.waterDepth (newStates (ShallowWater.description q Z lim) M par lo X i) := by
  classical
  unfold newU
  split_ifs with hi
  · have key : ∀ (L : List ℕ) (k : ℕ) (st : LimiterLoop ι (ShallowWater.State dim)),
        passes Rounding.exact s M (depth q Z X) i k (ShallowWater.waterDepth (st.U i))
            (coefficients (ShallowWater.description q Z lim) M (finalBounds (ShallowWater.description q Z lim) M par lo X) (Hyp.pIJ (ShallowWater.description q Z lim) M X) par.iterations L st)
          = ShallowWater.waterDepth
            ((L.foldl (fun st pass => limiterPass (ShallowWater.description q Z lim) M (finalBounds (ShallowWater.description q Z lim) M par lo X) (Hyp.pIJ (ShallowWater.description q Z lim) M X) par.iterations pass st) st).U i) := by
      intro L
      induction L with
      | nil => intro k st; rfl
      | cons a L ih =>
        intro k st
        rw [coefficients, show ∀ (U : ℝ) (l : ι → ι → ℝ) (L : List (ι → ι → ℝ)), passes Rounding.exact s M (depth q Z X) i k U (l :: L)
            = passes Rounding.exact s M (depth q Z X) i (k + 1) (passes Rounding.exact s M (depth q Z X) i k U [l]) L from fun _ _ _ => rfl,
          C123_shallow_water_exact_pass q Z lim s M X hm _ _ _ _ _ _ hi, ih, List.foldl_cons]
    have h := key (List.range par.iterations) 0 ⟨newLow (ShallowWater.description q Z lim) M lo X, fun i j => (l1 (ShallowWater.description q Z lim) M par lo X i j).1, lo.lijNext⟩
    rw [show ShallowWater.waterDepth ((⟨newLow (ShallowWater.description q Z lim) M lo X, fun i j => (l1 (ShallowWater.description q Z lim) M par lo X i j).1, lo.lijNext⟩ :
        LimiterLoop ι (ShallowWater.State dim)).U i) = ShallowWater.waterDepth (Hyp.lowOrder (ShallowWater.description q Z lim) M X i) by
      simp only [newLow, hi, if_true], ← C123_shallow_water_exact_low q Z lim s M X (hm i)] at h
    exact h
  · rfl

end exact

/-! ### An example -/

/-- A lake at rest over bathymetry 0, 1, 0 on the ring of three degrees of freedom, with some momentum. -/
def lake : StepData (Fin 3) 1 where
  U := ![3, 2, 3]
  star := fun i j => if i = 1 ∨ j = 1 then 2 else 3
  fStar := fun i j => if i = 1 ∨ j = 1 then fun _ => 1 / 2 else fun _ => 3 / 4
  f := fun _ _ => 1
  stages := [(1 / 2, fun _ _ => 1)]
  weight := 1 / 2
  tau := 1 / 10
  d := fun i j => if i = j then -4 else 2
  alpha := fun _ => 1 / 2

open Classical in
/-- One step of the lake in double precision conserves the water up to rounding. -/
example (s : Contractions (Fin 3)) (left : Fin 3 → ℝ) (lij : Fin 3 → Fin 3 → ℝ) :
    |∑ i ∈ Finset.univ.filter (fun i => ring.nbrs i ≠ []), ring.lumped i * newU Rounding.double s ring lake left [lij, lij] i
        - ∑ i ∈ Finset.univ.filter (fun i => ring.nbrs i ≠ []), ring.lumped i * lake.U i|
      ≤ ((1 + Rounding.double.u) ^ (1 + 14 + 1 + (2 + 2) * 2) - 1) * ∑ i ∈ Finset.univ.filter (fun i => ring.nbrs i ≠ []),
          ring.lumped i * stepSize Rounding.double s ring lake [lij, lij] i :=
  C123_shallow_water Rounding.double s ring ring_wf ring_closed lake
    (by intro i j _; simp [lake, eq_comm]) left [lij, lij] 2 (by intro i; simp [ring])

open Classical in
/-- With a multiple of the unit roundoff. -/
example (s : Contractions (Fin 3)) (left : Fin 3 → ℝ) (lij : Fin 3 → Fin 3 → ℝ) :
    |∑ i ∈ Finset.univ.filter (fun i => ring.nbrs i ≠ []), ring.lumped i * newU Rounding.double s ring lake left [lij, lij] i
        - ∑ i ∈ Finset.univ.filter (fun i => ring.nbrs i ≠ []), ring.lumped i * lake.U i|
      ≤ 2 * (1 + 14 + 1 + (2 + 2) * 2 : ℕ) * Rounding.double.u * ∑ i ∈ Finset.univ.filter (fun i => ring.nbrs i ≠ []),
          ring.lumped i * stepSize Rounding.double s ring lake [lij, lij] i :=
  C123_shallow_water_linear Rounding.double s ring ring_wf ring_closed lake
    (by intro i j _; simp [lake, eq_comm]) left [lij, lij] 2 (by intro i; simp [ring]) (by norm_num [lake, Rounding.double, Rounding.ieee])

end

end RoundedShallow
end Ryujin
