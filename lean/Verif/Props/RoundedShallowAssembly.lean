import Verif.Props.RoundedShallow
import Verif.Props.RoundedAssembly

/-!
# C123: conservation of water with rounding errors in the assembled matrices
-/

namespace Ryujin
namespace RoundedShallow

noncomputable section

open Hyp Rounded

variable {ι : Type} {dim : ℕ}

open Classical in
/-- The size of the contributions to row `i` that have no counterpart. -/
def assemblyDefect (M : Mesh ι dim) (X : StepData ι dim) (F : ι → ℝ) (lij : List (ι → ι → ℝ)) (i : ι) : ℝ :=
  |X.tau| * (((M.columns i).map fun j => fluxSize (X.fStar i j) (X.fStar j i) (skewDefect M i j)).sum
    + (lij.map fun l => ((M.nbrs i).map fun j => |symmetrized l i j| *
        (fluxSize (X.fStar i j) (X.fStar j i) (skewDefect M i j) + |X.weight| * fluxSize (X.f i) (X.f j) (skewDefect M i j)
          + (X.stages.map fun st => |st.1| * fluxSize (st.2 i) (st.2 j) (skewDefect M i j)).sum
          + massDefect M F i j)).sum).sum)

open Classical in
theorem refNew_sub_le (M : Mesh ι dim) (X : StepData ι dim) (hm : ∀ i, 0 < M.lumped i) (theta : ι → ι → ℝ) (F : ι → ℝ)
    (lij : List (ι → ι → ℝ)) (i : ι) :
    M.lumped i * |refNew M X theta F lij i - refNew (mended M) X theta F lij i| ≤ assemblyDefect M X F lij i := by
  have hi := hm i
  set a := X.tau * (1 / M.lumped i) with ha
  have haabs : M.lumped i * |a| = |X.tau| := by
    rw [ha, abs_mul, abs_of_pos (one_div_pos.2 hi)]
    field_simp
  have hflux : ∀ f g : Vec dim, ∀ j, refFlux f g (M.c i j) - refFlux f g ((mended M).c i j) = refFlux f g (skewDefect M i j) := by
    intro f g j
    exact refFlux_sub f g (M.c i j) (skewDefect M i j)
  have hlow : |refLow M X i - refLow (mended M) X i|
      ≤ |a| * ((M.columns i).map fun j => fluxSize (X.fStar i j) (X.fStar j i) (skewDefect M i j)).sum := by
    unfold refLow
    have e0 : (mended M).columns i = M.columns i := rfl
    have e1 : (mended M).lumped i = M.lumped i := rfl
    rw [e0, e1, add_sub_add_left_eq_sub, list_sum_sub, ← List.sum_map_mul_left]
    refine abs_list_sum_le _ _ _ fun j _ => ?_
    rw [add_sub_add_right_eq_sub, ← mul_sub, hflux, abs_mul]
    exact mul_le_mul_of_nonneg_left (abs_refFlux_le _ _ _) (abs_nonneg _)
  have hP : ∀ j, |refP M X theta F i j - refP (mended M) X theta F i j| ≤ |a| *
      (fluxSize (X.fStar i j) (X.fStar j i) (skewDefect M i j) + |X.weight| * fluxSize (X.f i) (X.f j) (skewDefect M i j)
          + (X.stages.map fun st => |st.1| * fluxSize (st.2 i) (st.2 j) (skewDefect M i j)).sum
          + massDefect M F i j) := by
    intro j
    unfold refP
    have e1 : (mended M).lumped i = M.lumped i := rfl
    rw [e1, ← mul_sub, abs_mul]
    refine mul_le_mul_of_nonneg_left ?_ (abs_nonneg _)
    have hfirst : |refFirst M X theta i j - refFirst (mended M) X theta i j|
        ≤ fluxSize (X.fStar i j) (X.fStar j i) (skewDefect M i j) + |X.weight| * fluxSize (X.f i) (X.f j) (skewDefect M i j)
          + (X.stages.map fun st => |st.1| * fluxSize (st.2 i) (st.2 j) (skewDefect M i j)).sum := by
      have e : refFirst M X theta i j - refFirst (mended M) X theta i j
          = (-refFlux (X.fStar i j) (X.fStar j i) (skewDefect M i j) + X.weight * refFlux (X.f i) (X.f j) (skewDefect M i j))
            + (X.stages.map fun st => st.1 * refFlux (st.2 i) (st.2 j) (skewDefect M i j)).sum := by
        have h2 : (X.stages.map fun st => st.1 * refFlux (st.2 i) (st.2 j) (skewDefect M i j)).sum
            = (X.stages.map fun st => st.1 * refFlux (st.2 i) (st.2 j) (M.c i j)).sum
              - (X.stages.map fun st => st.1 * refFlux (st.2 i) (st.2 j) ((mended M).c i j)).sum := by
          rw [list_sum_sub]
          congr 2
          funext st
          rw [← hflux]
          ring
        rw [h2, ← hflux, ← hflux]
        unfold refFirst
        ring
      rw [e]
      refine (abs_add_le _ _).trans (add_le_add ?_ (abs_list_sum_le _ _ _ fun st _ => ?_))
      · refine (abs_add_le _ _).trans (add_le_add ?_ ?_)
        · rw [abs_neg]
          exact abs_refFlux_le _ _ _
        · rw [abs_mul]
          exact mul_le_mul_of_nonneg_left (abs_refFlux_le _ _ _) (abs_nonneg _)
      · rw [abs_mul]
        exact mul_le_mul_of_nonneg_left (abs_refFlux_le _ _ _) (abs_nonneg _)
    have e2 : refFirst M X theta i j + refMass M F i j - (refFirst (mended M) X theta i j + refMass (mended M) F i j)
        = (refFirst M X theta i j - refFirst (mended M) X theta i j) + (refMass M F i j - refMass (mended M) F i j) := by ring
    rw [e2]
    exact (abs_add_le _ _).trans (add_le_add hfirst (abs_refMass_sub M hm F i j))
  have hpass : |(lij.map fun l => ((M.nbrs i).map fun j => symmetrized l i j * refP M X theta F i j).sum).sum
      - (lij.map fun l => ((M.nbrs i).map fun j => symmetrized l i j * refP (mended M) X theta F i j).sum).sum|
      ≤ |a| * (lij.map fun l => ((M.nbrs i).map fun j => |symmetrized l i j| *
        (fluxSize (X.fStar i j) (X.fStar j i) (skewDefect M i j) + |X.weight| * fluxSize (X.f i) (X.f j) (skewDefect M i j)
          + (X.stages.map fun st => |st.1| * fluxSize (st.2 i) (st.2 j) (skewDefect M i j)).sum
          + massDefect M F i j)).sum).sum := by
    rw [list_sum_sub, ← List.sum_map_mul_left]
    refine abs_list_sum_le _ _ _ fun l _ => ?_
    rw [list_sum_sub, ← List.sum_map_mul_left]
    refine abs_list_sum_le _ _ _ fun j _ => ?_
    rw [← mul_sub, abs_mul, mul_left_comm]
    exact mul_le_mul_of_nonneg_left (hP j) (abs_nonneg _)
  have hall : |refNew M X theta F lij i - refNew (mended M) X theta F lij i|
      ≤ |refLow M X i - refLow (mended M) X i|
        + |(lij.map fun l => ((M.nbrs i).map fun j => symmetrized l i j * refP M X theta F i j).sum).sum
          - (lij.map fun l => ((M.nbrs i).map fun j => symmetrized l i j * refP (mended M) X theta F i j).sum).sum| := by
    unfold refNew
    rw [add_sub_add_comm]
    exact abs_add_le _ _
  refine (mul_le_mul_of_nonneg_left (hall.trans (add_le_add hlow hpass)) hi.le).trans (le_of_eq ?_)
  unfold assemblyDefect
  rw [← mul_add, ← mul_assoc, haabs]

open Classical in
/-- **C123 (shallow water, assembled matrices).** The same without the assumption that the matrices are exactly antisymmetric or symmetric: the total changes
by at most the bound of `C123_shallow_water`, plus what the pairs add whose `c_ij + c_ji` is not zero, the diagonal entries `c_ii` and the
asymmetry of the mass matrix. -/
theorem C123_shallow_water_assembled [Fintype ι] (R : Rounding) (s : Contractions ι) (M : Mesh ι dim) (hM : M.WellFormed)
    (hinc : ∀ i, ∀ j ∈ M.nbrs i, M.incidence j i = M.incidence i j) (hm : ∀ i, 0 < M.lumped i) (X : StepData ι dim)
    (hd : ∀ i, ∀ j ∈ M.nbrs i, X.d i j = X.d j i) (left : ι → ℝ) (lij : List (ι → ι → ℝ)) (N : ℕ) (hN : ∀ i, (M.nbrs i).length ≤ N) :
    |∑ i ∈ Finset.univ.filter (fun i => M.nbrs i ≠ []), M.lumped i * newU R s M X left lij i
        - ∑ i ∈ Finset.univ.filter (fun i => M.nbrs i ≠ []), M.lumped i * X.U i|
      ≤ ((1 + R.u) ^ (dim + 14 + X.stages.length + (lij.length + 2) * N) - 1)
          * ∑ i ∈ Finset.univ.filter (fun i => M.nbrs i ≠ []), M.lumped i * stepSize R s M X lij i
        + ∑ i ∈ Finset.univ.filter (fun i => M.nbrs i ≠ []), assemblyDefect M X (rhs R s M X) lij i := by
  have hC := mended_closed hM hinc hm
  have hM' : (mended M).WellFormed := ⟨hM.1, hM.2, hM.3, hM.4, hM.5⟩
  have key := refNew_conserves (M := mended M) (X := X) (factor R M X) (rhs R s M X) hM' hC hd
    (fun i j hj => factor_symm (M := mended M) (R := R) (X := X) hC hj) lij
  have key' : ∑ i ∈ Finset.univ.filter (fun i => M.nbrs i ≠ []), M.lumped i * X.U i
      = ∑ i ∈ Finset.univ.filter (fun i => M.nbrs i ≠ []), M.lumped i * refNew (mended M) X (factor R M X) (rhs R s M X) lij i := key.symm
  rw [key', ← Finset.sum_sub_distrib, Finset.mul_sum, ← Finset.sum_add_distrib]
  refine (Finset.abs_sum_le_sum_abs _ _).trans (Finset.sum_le_sum fun i hi => ?_)
  have hn : M.nbrs i ≠ [] := (Finset.mem_filter.1 hi).2
  have h := ((close_new (R := R) s (X := X) left hm hn lij).mono
    (l := dim + 14 + X.stages.length + (lij.length + 2) * N) (by have := Nat.mul_le_mul_left (lij.length + 2) (hN i); omega)).err
  have h2 := refNew_sub_le M X hm (factor R M X) (rhs R s M X) lij i
  rw [← mul_sub, abs_mul, abs_of_pos (hm i)]
  set A := newU R s M X left lij i
  set B := refNew M X (factor R M X) (rhs R s M X) lij i
  set C := refNew (mended M) X (factor R M X) (rhs R s M X) lij i
  have h3 : |A - C| ≤ |A - B| + |B - C| := by
    have := abs_add_le (A - B) (B - C)
    rwa [sub_add_sub_cancel] at this
  have h4 := mul_le_mul_of_nonneg_left (h3.trans (add_le_add h le_rfl)) (hm i).le
  rw [mul_add] at h4
  calc _ ≤ _ := h4
    _ ≤ _ := add_le_add (le_of_eq (by ring)) h2

/-- On an exactly closed mesh nothing is added: `C123_shallow_water_assembled` contains `C123_shallow_water`. -/
theorem C123_shallow_water_assembled_exact (M : Mesh ι dim) (hC : M.Closed) (X : StepData ι dim) (F : ι → ℝ) (lij : List (ι → ι → ℝ)) (i : ι) :
    assemblyDefect M X F lij i = 0 := by
  classical
  have hflux : ∀ f g : Vec dim, ∀ e : Vec dim, (∀ k, e k = 0) → fluxSize f g e = 0 := by
    intro f g e he
    unfold fluxSize
    simp [he]
  have hskew : ∀ j ∈ M.columns i, ∀ k, skewDefect M i j k = 0 := by
    intro j hj k
    unfold skewDefect
    rw [Mesh.columns, List.mem_cons] at hj
    split_ifs with h
    · rw [hC.diag]; rfl
    · rcases hj with e | e
      · exact absurd e.symm h
      · rw [hC.skew i j e]
        simp
  have hmass : ∀ j ∈ M.nbrs i, massDefect M F i j = 0 := by
    intro j hj
    unfold massDefect
    rw [hC.mass i j hj, hC.massInv i j hj]
    simp
  have hsum0 : ∀ {α : Type} (L : List α) (g : α → ℝ), (∀ a ∈ L, g a = 0) → (L.map g).sum = 0 := by
    intro α L g h
    induction L with
    | nil => rfl
    | cons a L ih => rw [List.map_cons, List.sum_cons, h a (List.mem_cons_self ..), ih fun b hb => h b (List.mem_cons_of_mem _ hb), add_zero]
  unfold assemblyDefect
  rw [hsum0 _ _ fun j hj => ?_, hsum0 _ _ fun l _ => ?_, add_zero, mul_zero]
  · refine hsum0 _ _ fun j hj => ?_
    have hj' : j ∈ M.columns i := by rw [Mesh.columns]; exact List.mem_cons_of_mem _ hj
    have hs := hskew j hj'
    rw [hmass j hj, hflux _ _ _ hs, hflux _ _ _ hs, hsum0 _ _ fun st _ => ?_]
    · simp
    · rw [hflux _ _ _ hs, mul_zero]
  · exact hflux _ _ _ (hskew j hj)

/-! ### An example -/

open Classical in
/-- The lake on a ring whose matrices are not exactly antisymmetric. -/
example (s : Contractions (Fin 3)) (left : Fin 3 → ℝ) (lij : Fin 3 → Fin 3 → ℝ) :
    |∑ i ∈ Finset.univ.filter (fun i => bentRing.nbrs i ≠ []), bentRing.lumped i * newU Rounding.double s bentRing lake left [lij, lij] i
        - ∑ i ∈ Finset.univ.filter (fun i => bentRing.nbrs i ≠ []), bentRing.lumped i * lake.U i|
      ≤ ((1 + Rounding.double.u) ^ (1 + 14 + 1 + (2 + 2) * 2) - 1) * ∑ i ∈ Finset.univ.filter (fun i => bentRing.nbrs i ≠ []),
          bentRing.lumped i * stepSize Rounding.double s bentRing lake [lij, lij] i
        + ∑ i ∈ Finset.univ.filter (fun i => bentRing.nbrs i ≠ []),
          assemblyDefect bentRing lake (rhs Rounding.double s bentRing lake) [lij, lij] i :=
  C123_shallow_water_assembled Rounding.double s bentRing ⟨ring_wf.1, ring_wf.2, ring_wf.3, ring_wf.4, ring_wf.5⟩ bentRing_nearly.incidence
    bentRing_nearly.lumped lake (by intro i j _; simp [lake, eq_comm]) left [lij, lij] 2 (by intro i; simp [bentRing, ring])

end

end RoundedShallow
end Ryujin
