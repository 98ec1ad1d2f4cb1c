import Verif.Props.RoundedStep

/-!
# C123: conservation with rounding errors in the assembled matrices

The matrices the offline data provides are computed with rounding errors, too: `c_ij + c_ji` is not exactly zero, and the mass matrix is not
exactly symmetric.
-/

namespace Ryujin
namespace Rounded

noncomputable section

open Hyp

variable {ι : Type} {dim : ℕ}

open Classical in
/-- The part of `c_ij` that violates `c_ij = -c_ji` and `c_ii = 0`. -/
def skewDefect (M : Mesh ι dim) (i j : ι) : Vec dim := fun k =>
  if i = j then M.c i i k else (M.c i j k + M.c j i k) / 2

/-- What a pair adds to the total because the mass matrix (or, for discontinuous elements, its inverse) is not symmetric. -/
def massDefect (M : Mesh ι dim) (F : ι → ℝ) (i j : ι) : ℝ :=
  if M.dG then |M.massInv i j - M.massInv j i| / 2 * (M.lumped i * |F j| + M.lumped j * |F i|)
  else |M.mass i j - M.mass j i| / 2 * (1 / M.lumped j * |F j| + 1 / M.lumped i * |F i|)

open Classical in
/-- The size of the contributions to row `i` that have no counterpart. -/
def assemblyDefect (M : Mesh ι dim) (X : StepData ι dim) (F : ι → ℝ) (lij : List (ι → ι → ℝ)) (i : ι) : ℝ :=
  |X.tau| * (((M.columns i).map fun j => fluxSize (X.f i) (X.f j) (skewDefect M i j)).sum
    + (lij.map fun l => ((M.nbrs i).map fun j => |symmetrized l i j| *
        ((1 + |X.weight|) * fluxSize (X.f i) (X.f j) (skewDefect M i j)
          + (X.stages.map fun st => |st.1| * fluxSize (st.2 i) (st.2 j) (skewDefect M i j)).sum
          + massDefect M F i j)).sum).sum)

/-- The mesh with the violations removed. -/
def mended (M : Mesh ι dim) : Mesh ι dim where
  nbrs := M.nbrs
  below := M.below
  skip := M.skip
  boundary := M.boundary
  c := fun i j k => M.c i j k - skewDefect M i j k
  mass := fun i j => (M.mass i j + M.mass j i) / 2
  massInv := fun i j => (M.massInv i j + M.massInv j i) / 2
  lumped := M.lumped
  incidence := M.incidence
  dG := M.dG
  omega := M.omega

theorem mended_closed {M : Mesh ι dim} (hM : M.WellFormed) (hinc : ∀ i, ∀ j ∈ M.nbrs i, M.incidence j i = M.incidence i j)
    (hm : ∀ i, 0 < M.lumped i) : (mended M).Closed where
  skew := by
    classical
    intro i j hj
    have hne : i ≠ j := fun e => hM.irrefl i (e ▸ hj)
    funext k
    simp only [mended, skewDefect, Pi.neg_apply, if_neg hne, if_neg hne.symm]
    ring
  diag := by
    intro i
    funext k
    simp [mended, skewDefect]
  mass := by intro i j _; simp only [mended]; ring
  massInv := by intro i j _; simp only [mended]; ring
  incidence := hinc
  lumped := hm

theorem refFlux_sub (f g c e : Vec dim) : refFlux f g c - refFlux f g (fun k => c k - e k) = refFlux f g e := by
  unfold refFlux
  have : ((List.finRange dim).map fun k => (f k + g k) * c k).sum
      = ((List.finRange dim).map fun k => (f k + g k) * (c k - e k)).sum + ((List.finRange dim).map fun k => (f k + g k) * e k).sum := by
    rw [← List.sum_map_add]
    congr 2
    funext k
    ring
  rw [this]
  ring

theorem abs_list_sum_le {α : Type} (L : List α) (g h : α → ℝ) (hgh : ∀ a ∈ L, |g a| ≤ h a) : |(L.map g).sum| ≤ (L.map h).sum := by
  induction L with
  | nil => simp
  | cons a L ih =>
    rw [List.map_cons, List.map_cons, List.sum_cons, List.sum_cons]
    exact (abs_add_le _ _).trans (add_le_add (hgh a (List.mem_cons_self ..)) (ih fun b hb => hgh b (List.mem_cons_of_mem _ hb)))

theorem abs_refFlux_le (f g e : Vec dim) : |refFlux f g e| ≤ fluxSize f g e := by
  unfold refFlux fluxSize
  rw [abs_neg]
  refine abs_list_sum_le _ _ _ fun k _ => ?_
  rw [abs_mul]
  exact mul_le_mul_of_nonneg_right (abs_add_le _ _) (abs_nonneg _)

theorem list_sum_sub {α : Type} (L : List α) (g h : α → ℝ) : (L.map g).sum - (L.map h).sum = (L.map fun a => g a - h a).sum := by
  induction L with
  | nil => simp
  | cons a L ih => simp only [List.map_cons, List.sum_cons]; linarith

theorem abs_refMass_sub (M : Mesh ι dim) (hm : ∀ i, 0 < M.lumped i) (F : ι → ℝ) (i j : ι) :
    |refMass M F i j - refMass (mended M) F i j| ≤ massDefect M F i j := by
  have hi := hm i
  have hj := hm j
  unfold refMass massDefect mended
  simp only
  split_ifs
  · have e : M.lumped i * M.massInv i j * F j - M.lumped j * M.massInv i j * F i
        - (M.lumped i * ((M.massInv i j + M.massInv j i) / 2) * F j - M.lumped j * ((M.massInv i j + M.massInv j i) / 2) * F i)
        = (M.massInv i j - M.massInv j i) / 2 * (M.lumped i * F j - M.lumped j * F i) := by ring
    rw [e, abs_mul, abs_div, abs_two]
    refine mul_le_mul_of_nonneg_left ((abs_sub _ _).trans ?_) (by positivity)
    rw [abs_mul, abs_mul, abs_of_pos hi, abs_of_pos hj]
  · have e : -(M.mass i j * (1 / M.lumped j)) * F j - -(M.mass i j * (1 / M.lumped i)) * F i
        - (-((M.mass i j + M.mass j i) / 2 * (1 / M.lumped j)) * F j - -((M.mass i j + M.mass j i) / 2 * (1 / M.lumped i)) * F i)
        = -((M.mass i j - M.mass j i) / 2 * (1 / M.lumped j * F j - 1 / M.lumped i * F i)) := by ring
    rw [e, abs_neg, abs_mul, abs_div, abs_two]
    refine mul_le_mul_of_nonneg_left ((abs_sub _ _).trans ?_) (by positivity)
    rw [abs_mul, abs_mul, abs_of_pos (one_div_pos.2 hi), abs_of_pos (one_div_pos.2 hj)]

open Classical in
theorem refNew_sub_le (M : Mesh ι dim) (X : StepData ι dim) (hm : ∀ i, 0 < M.lumped i) (theta : ι → ι → ℝ) (F : ι → ℝ)
    (lij : List (ι → ι → ℝ)) (i : ι) :
    M.lumped i * |refNew M X theta F lij i - refNew (mended M) X theta F lij i| ≤ assemblyDefect M X F lij i := by
  have hi := hm i
  set a := X.tau * (1 / M.lumped i) with ha
  have haabs : M.lumped i * |a| = |X.tau| := by
    rw [ha, abs_mul, abs_of_pos (one_div_pos.2 hi)]
    field_simp
  have hflux : ∀ f g : Vec dim, ∀ j, refFlux f g (M.c i j) - refFlux f g ((mended M).c i j) = refFlux f g (skewDefect M i j) := by
    intro f g j
    exact refFlux_sub f g (M.c i j) (skewDefect M i j)
  have hlow : |refLow M X i - refLow (mended M) X i|
      ≤ |a| * ((M.columns i).map fun j => fluxSize (X.f i) (X.f j) (skewDefect M i j)).sum := by
    unfold refLow
    have e0 : (mended M).columns i = M.columns i := rfl
    have e1 : (mended M).lumped i = M.lumped i := rfl
    rw [e0, e1, add_sub_add_left_eq_sub, list_sum_sub, ← List.sum_map_mul_left]
    refine abs_list_sum_le _ _ _ fun j _ => ?_
    rw [add_sub_add_right_eq_sub, ← mul_sub, hflux, abs_mul]
    exact mul_le_mul_of_nonneg_left (abs_refFlux_le _ _ _) (abs_nonneg _)
  have hP : ∀ j, |refP M X theta F i j - refP (mended M) X theta F i j| ≤ |a| *
      ((1 + |X.weight|) * fluxSize (X.f i) (X.f j) (skewDefect M i j)
          + (X.stages.map fun st => |st.1| * fluxSize (st.2 i) (st.2 j) (skewDefect M i j)).sum
          + massDefect M F i j) := by
    intro j
    unfold refP
    have e1 : (mended M).lumped i = M.lumped i := rfl
    rw [e1, ← mul_sub, abs_mul]
    refine mul_le_mul_of_nonneg_left ?_ (abs_nonneg _)
    have hfirst : |refFirst M X theta i j - refFirst (mended M) X theta i j|
        ≤ (1 + |X.weight|) * fluxSize (X.f i) (X.f j) (skewDefect M i j)
          + (X.stages.map fun st => |st.1| * fluxSize (st.2 i) (st.2 j) (skewDefect M i j)).sum := by
      have e : refFirst M X theta i j - refFirst (mended M) X theta i j
          = (X.weight - 1) * refFlux (X.f i) (X.f j) (skewDefect M i j)
            + (X.stages.map fun st => st.1 * refFlux (st.2 i) (st.2 j) (skewDefect M i j)).sum := by
        have h2 : (X.stages.map fun st => st.1 * refFlux (st.2 i) (st.2 j) (skewDefect M i j)).sum
            = (X.stages.map fun st => st.1 * refFlux (st.2 i) (st.2 j) (M.c i j)).sum
              - (X.stages.map fun st => st.1 * refFlux (st.2 i) (st.2 j) ((mended M).c i j)).sum := by
          rw [list_sum_sub]
          congr 2
          funext st
          rw [← hflux]
          ring
        rw [h2, ← hflux]
        unfold refFirst
        ring
      rw [e]
      refine (abs_add_le _ _).trans (add_le_add ?_ (abs_list_sum_le _ _ _ fun st _ => ?_))
      · rw [abs_mul]
        refine mul_le_mul ?_ (abs_refFlux_le _ _ _) (abs_nonneg _) (by positivity)
        have := abs_sub X.weight 1
        rw [abs_one] at this
        linarith
      · rw [abs_mul]
        exact mul_le_mul_of_nonneg_left (abs_refFlux_le _ _ _) (abs_nonneg _)
    have e2 : refFirst M X theta i j + refMass M F i j - (refFirst (mended M) X theta i j + refMass (mended M) F i j)
        = (refFirst M X theta i j - refFirst (mended M) X theta i j) + (refMass M F i j - refMass (mended M) F i j) := by ring
    rw [e2]
    exact (abs_add_le _ _).trans (add_le_add hfirst (abs_refMass_sub M hm F i j))
  have hpass : |(lij.map fun l => ((M.nbrs i).map fun j => symmetrized l i j * refP M X theta F i j).sum).sum
      - (lij.map fun l => ((M.nbrs i).map fun j => symmetrized l i j * refP (mended M) X theta F i j).sum).sum|
      ≤ |a| * (lij.map fun l => ((M.nbrs i).map fun j => |symmetrized l i j| *
        ((1 + |X.weight|) * fluxSize (X.f i) (X.f j) (skewDefect M i j)
          + (X.stages.map fun st => |st.1| * fluxSize (st.2 i) (st.2 j) (skewDefect M i j)).sum
          + massDefect M F i j)).sum).sum := by
    rw [list_sum_sub, ← List.sum_map_mul_left]
    refine abs_list_sum_le _ _ _ fun l _ => ?_
    rw [list_sum_sub, ← List.sum_map_mul_left]
    refine abs_list_sum_le _ _ _ fun j _ => ?_
    rw [← mul_sub, abs_mul, mul_left_comm]
    exact mul_le_mul_of_nonneg_left (hP j) (abs_nonneg _)
  have hall : |refNew M X theta F lij i - refNew (mended M) X theta F lij i|
      ≤ |refLow M X i - refLow (mended M) X i|
        + |(lij.map fun l => ((M.nbrs i).map fun j => symmetrized l i j * refP M X theta F i j).sum).sum
          - (lij.map fun l => ((M.nbrs i).map fun j => symmetrized l i j * refP (mended M) X theta F i j).sum).sum| := by
    unfold refNew
    rw [add_sub_add_comm]
    exact abs_add_le _ _
  refine (mul_le_mul_of_nonneg_left (hall.trans (add_le_add hlow hpass)) hi.le).trans (le_of_eq ?_)
  unfold assemblyDefect
  rw [← mul_add, ← mul_assoc, haabs]

open Classical in
/-- **C123 (assembled matrices).** The same without the assumption that the matrices are exactly antisymmetric or symmetric: the total changes
by at most the bound of `C123_conservation`, plus what the pairs add whose `c_ij + c_ji` is not zero, the diagonal entries `c_ii` and the
asymmetry of the mass matrix. -/
theorem C123_assembled [Fintype ι] (R : Rounding) (s : Contractions ι) (M : Mesh ι dim) (hM : M.WellFormed)
    (hinc : ∀ i, ∀ j ∈ M.nbrs i, M.incidence j i = M.incidence i j) (hm : ∀ i, 0 < M.lumped i) (X : StepData ι dim)
    (hd : ∀ i, ∀ j ∈ M.nbrs i, X.d i j = X.d j i) (left : ι → ℝ) (lij : List (ι → ι → ℝ)) (N : ℕ) (hN : ∀ i, (M.nbrs i).length ≤ N) :
    |∑ i ∈ Finset.univ.filter (fun i => M.nbrs i ≠ []), M.lumped i * newU R s M X left lij i
        - ∑ i ∈ Finset.univ.filter (fun i => M.nbrs i ≠ []), M.lumped i * X.U i|
      ≤ ((1 + R.u) ^ (dim + 14 + X.stages.length + (lij.length + 2) * N) - 1)
          * ∑ i ∈ Finset.univ.filter (fun i => M.nbrs i ≠ []), M.lumped i * stepSize R s M X lij i
        + ∑ i ∈ Finset.univ.filter (fun i => M.nbrs i ≠ []), assemblyDefect M X (rhs R s M X) lij i := by
  have hC := mended_closed hM hinc hm
  have hM' : (mended M).WellFormed := ⟨hM.1, hM.2, hM.3, hM.4, hM.5⟩
  have key := refNew_conserves (M := mended M) (X := X) (factor R M X) (rhs R s M X) hM' hC hd
    (fun i j hj => factor_symm (M := mended M) (R := R) (X := X) hC hj) lij
  have key' : ∑ i ∈ Finset.univ.filter (fun i => M.nbrs i ≠ []), M.lumped i * X.U i
      = ∑ i ∈ Finset.univ.filter (fun i => M.nbrs i ≠ []), M.lumped i * refNew (mended M) X (factor R M X) (rhs R s M X) lij i := key.symm
  rw [key', ← Finset.sum_sub_distrib, Finset.mul_sum, ← Finset.sum_add_distrib]
  refine (Finset.abs_sum_le_sum_abs _ _).trans (Finset.sum_le_sum fun i hi => ?_)
  have hn : M.nbrs i ≠ [] := (Finset.mem_filter.1 hi).2
  have h := ((close_new (R := R) s (X := X) left hm hn lij).mono
    (l := dim + 14 + X.stages.length + (lij.length + 2) * N) (by have := Nat.mul_le_mul_left (lij.length + 2) (hN i); omega)).err
  have h2 := refNew_sub_le M X hm (factor R M X) (rhs R s M X) lij i
  rw [← mul_sub, abs_mul, abs_of_pos (hm i)]
  set A := newU R s M X left lij i
  set B := refNew M X (factor R M X) (rhs R s M X) lij i
  set C := refNew (mended M) X (factor R M X) (rhs R s M X) lij i
  have h3 : |A - C| ≤ |A - B| + |B - C| := by
    have := abs_add_le (A - B) (B - C)
    rwa [sub_add_sub_cancel] at this
  have h4 := mul_le_mul_of_nonneg_left (h3.trans (add_le_add h le_rfl)) (hm i).le
  rw [mul_add] at h4
  calc _ ≤ _ := h4
    _ ≤ _ := add_le_add (le_of_eq (by ring)) h2

/-- On an exactly closed mesh nothing is added: `C123_assembled` contains `C123_conservation`. -/
theorem C123_assembled_exact (M : Mesh ι dim) (hC : M.Closed) (X : StepData ι dim) (F : ι → ℝ) (lij : List (ι → ι → ℝ)) (i : ι) :
    assemblyDefect M X F lij i = 0 := by
  classical
  have hflux : ∀ f g : Vec dim, ∀ e : Vec dim, (∀ k, e k = 0) → fluxSize f g e = 0 := by
    intro f g e he
    unfold fluxSize
    simp [he]
  have hskew : ∀ j ∈ M.columns i, ∀ k, skewDefect M i j k = 0 := by
    intro j hj k
    unfold skewDefect
    rw [Mesh.columns, List.mem_cons] at hj
    split_ifs with h
    · rw [hC.diag]; rfl
    · rcases hj with e | e
      · exact absurd e.symm h
      · rw [hC.skew i j e]
        simp
  have hmass : ∀ j ∈ M.nbrs i, massDefect M F i j = 0 := by
    intro j hj
    unfold massDefect
    rw [hC.mass i j hj, hC.massInv i j hj]
    simp
  have hsum0 : ∀ {α : Type} (L : List α) (g : α → ℝ), (∀ a ∈ L, g a = 0) → (L.map g).sum = 0 := by
    intro α L g h
    induction L with
    | nil => rfl
    | cons a L ih => rw [List.map_cons, List.sum_cons, h a (List.mem_cons_self ..), ih fun b hb => h b (List.mem_cons_of_mem _ hb), add_zero]
  unfold assemblyDefect
  rw [hsum0 _ _ fun j hj => ?_, hsum0 _ _ fun l _ => ?_, add_zero, mul_zero]
  · refine hsum0 _ _ fun j hj => ?_
    have hj' : j ∈ M.columns i := by rw [Mesh.columns]; exact List.mem_cons_of_mem _ hj
    have hs := hskew j hj'
    rw [hmass j hj, hflux _ _ _ hs, hsum0 _ _ fun st _ => ?_]
    · simp
    · rw [hflux _ _ _ hs, mul_zero]
  · exact hflux _ _ _ (hskew j hj)

/-- The matrices are antisymmetric or symmetric up to the relative error `δ`: `c_ij + c_ji` and the asymmetry of the mass matrix are small compared to
the entries, and `c_ii` is small compared to the row. -/
structure NearlyClosed (M : Mesh ι dim) (δ : ℝ) : Prop where
  nonneg : 0 ≤ δ
  skew : ∀ i, ∀ j ∈ M.nbrs i, ∀ k, |M.c i j k + M.c j i k| ≤ 2 * δ * |M.c i j k|
  diag : ∀ i k, 2 * |M.c i i k| ≤ δ * ((M.nbrs i).map fun j => |M.c i j k|).sum
  mass : ∀ i, ∀ j ∈ M.nbrs i, |M.mass i j - M.mass j i| ≤ 2 * δ * |M.mass i j|
  massInv : ∀ i, ∀ j ∈ M.nbrs i, |M.massInv i j - M.massInv j i| ≤ 2 * δ * |M.massInv i j|
  incidence : ∀ i, ∀ j ∈ M.nbrs i, M.incidence j i = M.incidence i j
  lumped : ∀ i, 0 < M.lumped i

theorem Closed.nearly {M : Mesh ι dim} (hC : M.Closed) : NearlyClosed M 0 where
  nonneg := le_rfl
  skew := by intro i j hj k; rw [hC.skew i j hj]; simp
  diag := by intro i k; rw [hC.diag i]; simp
  mass := by intro i j hj; rw [hC.mass i j hj]; simp
  massInv := by intro i j hj; rw [hC.massInv i j hj]; simp
  incidence := hC.incidence
  lumped := hC.lumped

theorem fluxSize_nonneg (f g e : Vec dim) : 0 ≤ fluxSize f g e := by
  unfold fluxSize
  refine List.sum_nonneg fun x hx => ?_
  obtain ⟨k, _, rfl⟩ := List.mem_map.1 hx
  positivity

theorem fluxSize_le (f g e c : Vec dim) (δ : ℝ) (h : ∀ k, |e k| ≤ δ * |c k|) : fluxSize f g e ≤ δ * fluxSize f g c := by
  unfold fluxSize
  rw [← List.sum_map_mul_left]
  refine List.sum_le_sum fun k _ => ?_
  have := mul_le_mul_of_nonneg_left (h k) (by positivity : 0 ≤ |f k| + |g k|)
  linarith

theorem skewDefect_le {M : Mesh ι dim} {δ : ℝ} (hM : M.WellFormed) (hC : NearlyClosed M δ) {i j : ι} (hj : j ∈ M.nbrs i) (f g : Vec dim) :
    fluxSize f g (skewDefect M i j) ≤ δ * fluxSize f g (M.c i j) := by
  classical
  refine fluxSize_le _ _ _ _ _ fun k => ?_
  have hne : i ≠ j := fun e => hM.irrefl i (e ▸ hj)
  have h := hC.skew i j hj k
  simp only [skewDefect, if_neg hne]
  rw [abs_div, abs_two]
  linarith

theorem diagonal_le {M : Mesh ι dim} {δ : ℝ} (hC : NearlyClosed M δ) (X : StepData ι dim) (i : ι) :
    fluxSize (X.f i) (X.f i) (skewDefect M i i) ≤ δ * ((M.nbrs i).map fun j => fluxSize (X.f i) (X.f j) (M.c i j)).sum := by
  classical
  have h1 : fluxSize (X.f i) (X.f i) (skewDefect M i i)
      ≤ ((List.finRange dim).map fun k => δ * ((M.nbrs i).map fun j => (|X.f i k| + |X.f j k|) * |M.c i j k|).sum).sum := by
    unfold fluxSize
    refine List.sum_le_sum fun k _ => ?_
    have h := mul_le_mul_of_nonneg_left (hC.diag i k) (abs_nonneg (X.f i k))
    have h2 : |X.f i k| * ((M.nbrs i).map fun j => |M.c i j k|).sum
        ≤ ((M.nbrs i).map fun j => (|X.f i k| + |X.f j k|) * |M.c i j k|).sum := by
      rw [← List.sum_map_mul_left]
      refine List.sum_le_sum fun j _ => mul_le_mul_of_nonneg_right ?_ (abs_nonneg _)
      linarith [abs_nonneg (X.f j k)]
    have h3 := mul_le_mul_of_nonneg_left h2 hC.nonneg
    simp only [skewDefect, if_true]
    linarith
  refine h1.trans (le_of_eq ?_)
  rw [List.sum_map_mul_left]
  congr 1
  unfold fluxSize
  induction M.nbrs i with
  | nil => simp
  | cons j L ih => simp only [List.map_cons, List.sum_cons, List.sum_map_add, ih]

theorem massDefect_le {M : Mesh ι dim} {δ : ℝ} (hC : NearlyClosed M δ) (R : Rounding) (s : Contractions ι) (X : StepData ι dim) {i j : ι}
    (hj : j ∈ M.nbrs i) : massDefect M (rhs R s M X) i j ≤ δ * massSize R s M X i j := by
  have hi := hC.lumped i
  have hj' := hC.lumped j
  unfold massDefect massSize
  split_ifs
  · have h := hC.massInv i j hj
    have h2 := mul_le_mul_of_nonneg_right (by linarith : |M.massInv i j - M.massInv j i| / 2 ≤ δ * |M.massInv i j|)
      (by positivity : 0 ≤ M.lumped i * |rhs R s M X j| + M.lumped j * |rhs R s M X i|)
    linarith
  · have h := hC.mass i j hj
    have h2 := mul_le_mul_of_nonneg_right (by linarith : |M.mass i j - M.mass j i| / 2 ≤ δ * |M.mass i j|)
      (by positivity : 0 ≤ 1 / M.lumped j * |rhs R s M X j| + 1 / M.lumped i * |rhs R s M X i|)
    refine h2.trans (le_of_eq ?_)
    ring

theorem massSize_nonneg {M : Mesh ι dim} (hm : ∀ i, 0 < M.lumped i) (R : Rounding) (s : Contractions ι) (X : StepData ι dim) (i j : ι) :
    0 ≤ massSize R s M X i j := by
  have hi := hm i
  have hj := hm j
  unfold massSize
  split_ifs <;> positivity

theorem assemblyDefect_le {M : Mesh ι dim} {δ : ℝ} (hM : M.WellFormed) (hC : NearlyClosed M δ) (R : Rounding) (s : Contractions ι)
    (X : StepData ι dim) (lij : List (ι → ι → ℝ)) (i : ι) :
    assemblyDefect M X (rhs R s M X) lij i ≤ 2 * δ * (M.lumped i * stepSize R s M X lij i) := by
  have hi := hC.lumped i
  have hδ := hC.nonneg
  set A := ((M.nbrs i).map fun j => fluxSize (X.f i) (X.f j) (M.c i j)).sum with hA
  have hA0 : 0 ≤ A := List.sum_nonneg fun x hx => by
    obtain ⟨j, _, rfl⟩ := List.mem_map.1 hx
    exact fluxSize_nonneg _ _ _
  -- the low-order update
  have hlow1 : ((M.columns i).map fun j => fluxSize (X.f i) (X.f j) (skewDefect M i j)).sum ≤ 2 * δ * A := by
    rw [Mesh.columns, List.map_cons, List.sum_cons]
    have h1 := diagonal_le hC X i
    have h2 : ((M.nbrs i).map fun j => fluxSize (X.f i) (X.f j) (skewDefect M i j)).sum ≤ δ * A := by
      rw [hA, ← List.sum_map_mul_left]
      exact List.sum_le_sum fun j hj => skewDefect_le hM hC hj _ _
    linarith
  have hlow2 : |X.tau| * A ≤ M.lumped i * lowSize M X i := by
    have h1 : |X.tau| / M.lumped i * A ≤ lowSize M X i := by
      unfold lowSize
      rw [Mesh.columns, List.map_cons, List.sum_cons, hA, ← List.sum_map_mul_left]
      have h3 : ((M.nbrs i).map fun j => |X.tau| / M.lumped i * fluxSize (X.f i) (X.f j) (M.c i j)).sum
          ≤ ((M.nbrs i).map fun j => |X.tau| / M.lumped i * fluxSize (X.f i) (X.f j) (M.c i j)
            + |X.tau| / M.lumped i * |X.d i j| * (|X.U j| + |X.U i|)).sum :=
        List.sum_le_sum fun j _ => by
          have : 0 ≤ |X.tau| / M.lumped i * |X.d i j| * (|X.U j| + |X.U i|) := by positivity
          linarith
      have h4 : 0 ≤ |X.tau| / M.lumped i * fluxSize (X.f i) (X.f i) (M.c i i) + |X.tau| / M.lumped i * |X.d i i| * (|X.U i| + |X.U i|) := by
        have := fluxSize_nonneg (X.f i) (X.f i) (M.c i i)
        positivity
      linarith [abs_nonneg (X.U i)]
    have h2 := mul_le_mul_of_nonneg_left h1 hi.le
    refine le_trans (le_of_eq ?_) h2
    field_simp
  -- the corrections
  have hcor : ∀ j ∈ M.nbrs i, |X.tau| * ((1 + |X.weight|) * fluxSize (X.f i) (X.f j) (skewDefect M i j)
          + (X.stages.map fun st => |st.1| * fluxSize (st.2 i) (st.2 j) (skewDefect M i j)).sum
          + massDefect M (rhs R s M X) i j) ≤ δ * (M.lumped i * correctionSize R s M X i j) := by
    intro j hj
    have h1 := mul_le_mul_of_nonneg_left (skewDefect_le hM hC hj (X.f i) (X.f j)) (by positivity : 0 ≤ 1 + |X.weight|)
    have h2 : (X.stages.map fun st => |st.1| * fluxSize (st.2 i) (st.2 j) (skewDefect M i j)).sum
        ≤ δ * (X.stages.map fun st => |st.1| * fluxSize (st.2 i) (st.2 j) (M.c i j)).sum := by
      rw [← List.sum_map_mul_left]
      refine List.sum_le_sum fun st _ => ?_
      have := mul_le_mul_of_nonneg_left (skewDefect_le hM hC hj (st.2 i) (st.2 j)) (abs_nonneg st.1)
      linarith
    have h3 := massDefect_le hC R s X hj
    have h4 : 0 ≤ δ * ((|X.d i j| * |factor R M X i j| + |X.d i j|) * (|X.U j| + |X.U i|)) := by positivity
    have e : M.lumped i * correctionSize R s M X i j = |X.tau| *
        (fluxSize (X.f i) (X.f j) (M.c i j) + (|X.d i j| * |factor R M X i j| + |X.d i j|) * (|X.U j| + |X.U i|)
      + |X.weight| * fluxSize (X.f i) (X.f j) (M.c i j)
      + (X.stages.map fun st => |st.1| * fluxSize (st.2 i) (st.2 j) (M.c i j)).sum + massSize R s M X i j) := by
      unfold correctionSize
      field_simp
    rw [e, mul_left_comm]
    refine mul_le_mul_of_nonneg_left ?_ (abs_nonneg _)
    linarith
  have hcor0 : ∀ j, 0 ≤ correctionSize R s M X i j := by
    intro j
    have h1 := fluxSize_nonneg (X.f i) (X.f j) (M.c i j)
    have h2 := massSize_nonneg hC.lumped R s X i j
    have h3 : 0 ≤ (X.stages.map fun st => |st.1| * fluxSize (st.2 i) (st.2 j) (M.c i j)).sum := List.sum_nonneg fun x hx => by
      obtain ⟨st, _, rfl⟩ := List.mem_map.1 hx
      exact mul_nonneg (abs_nonneg _) (fluxSize_nonneg _ _ _)
    unfold correctionSize
    positivity
  have hpass : |X.tau| * (lij.map fun l => ((M.nbrs i).map fun j => |symmetrized l i j| *
        ((1 + |X.weight|) * fluxSize (X.f i) (X.f j) (skewDefect M i j)
          + (X.stages.map fun st => |st.1| * fluxSize (st.2 i) (st.2 j) (skewDefect M i j)).sum
          + massDefect M (rhs R s M X) i j)).sum).sum
      ≤ δ * M.lumped i * (lij.map fun l => ((M.nbrs i).map fun j => |symmetrized l i j| * correctionSize R s M X i j).sum).sum := by
    rw [← List.sum_map_mul_left, ← List.sum_map_mul_left]
    refine List.sum_le_sum fun l _ => ?_
    rw [← List.sum_map_mul_left, ← List.sum_map_mul_left]
    refine List.sum_le_sum fun j hj => ?_
    have := mul_le_mul_of_nonneg_left (hcor j hj) (abs_nonneg (symmetrized l i j))
    linarith
  have hsum0 : 0 ≤ (lij.map fun l => ((M.nbrs i).map fun j => |symmetrized l i j| * correctionSize R s M X i j).sum).sum :=
    List.sum_nonneg fun x hx => by
      obtain ⟨l, _, rfl⟩ := List.mem_map.1 hx
      refine List.sum_nonneg fun y hy => ?_
      obtain ⟨j, _, rfl⟩ := List.mem_map.1 hy
      exact mul_nonneg (abs_nonneg _) (hcor0 j)
  have h1 := mul_le_mul_of_nonneg_left hlow1 (abs_nonneg X.tau)
  have h2 := mul_le_mul_of_nonneg_left hlow2 hδ
  have h3 := mul_nonneg (mul_nonneg hδ hi.le) hsum0
  unfold assemblyDefect stepSize
  rw [mul_add |X.tau|, mul_add (M.lumped i)]
  linarith

open Classical in
/-- **C123 (relative errors of the matrices).** If the assembled matrices are antisymmetric or symmetric up to the relative error `δ`, the total
changes by at most `(1 + u)^K - 1 + 2 δ` times the size of the numbers added up. -/
theorem C123_assembled_relative [Fintype ι] (R : Rounding) (s : Contractions ι) (M : Mesh ι dim) (hM : M.WellFormed) (δ : ℝ)
    (hC : NearlyClosed M δ) (X : StepData ι dim) (hd : ∀ i, ∀ j ∈ M.nbrs i, X.d i j = X.d j i) (left : ι → ℝ) (lij : List (ι → ι → ℝ)) (N : ℕ)
    (hN : ∀ i, (M.nbrs i).length ≤ N) :
    |∑ i ∈ Finset.univ.filter (fun i => M.nbrs i ≠ []), M.lumped i * newU R s M X left lij i
        - ∑ i ∈ Finset.univ.filter (fun i => M.nbrs i ≠ []), M.lumped i * X.U i|
      ≤ ((1 + R.u) ^ (dim + 14 + X.stages.length + (lij.length + 2) * N) - 1 + 2 * δ)
          * ∑ i ∈ Finset.univ.filter (fun i => M.nbrs i ≠ []), M.lumped i * stepSize R s M X lij i := by
  have h := C123_assembled R s M hM hC.incidence hC.lumped X hd left lij N hN
  have h2 : ∑ i ∈ Finset.univ.filter (fun i => M.nbrs i ≠ []), assemblyDefect M X (rhs R s M X) lij i
      ≤ 2 * δ * ∑ i ∈ Finset.univ.filter (fun i => M.nbrs i ≠ []), M.lumped i * stepSize R s M X lij i := by
    rw [Finset.mul_sum]
    exact Finset.sum_le_sum fun i _ => assemblyDefect_le hM hC R s X lij i
  linarith

/-- The periodic interval with an error in one entry of `c_ij`. -/
def bentRing : Mesh (Fin 3) 1 := { ring with c := fun i j k => ring.c i j k + if i = 0 ∧ j = 1 then 1 / 10 ^ 16 else 0 }

open Classical in
/-- The hypotheses are met by a mesh that is not closed. -/
example (s : Contractions (Fin 3)) (left : Fin 3 → ℝ) (lij : Fin 3 → Fin 3 → ℝ) :
    |∑ i ∈ Finset.univ.filter (fun i => bentRing.nbrs i ≠ []), bentRing.lumped i * newU Rounding.double s bentRing ringData left [lij, lij] i
        - ∑ i ∈ Finset.univ.filter (fun i => bentRing.nbrs i ≠ []), bentRing.lumped i * ringData.U i|
      ≤ ((1 + Rounding.double.u) ^ (1 + 14 + 1 + (2 + 2) * 2) - 1) * ∑ i ∈ Finset.univ.filter (fun i => bentRing.nbrs i ≠ []),
          bentRing.lumped i * stepSize Rounding.double s bentRing ringData [lij, lij] i
        + ∑ i ∈ Finset.univ.filter (fun i => bentRing.nbrs i ≠ []),
          assemblyDefect bentRing ringData (rhs Rounding.double s bentRing ringData) [lij, lij] i :=
  C123_assembled Rounding.double s bentRing ⟨ring_wf.1, ring_wf.2, ring_wf.3, ring_wf.4, ring_wf.5⟩ ring_closed.incidence ring_closed.lumped
    ringData (by intro i j _; simp [ringData, eq_comm]) left [lij, lij] 2 (by intro i; simp [bentRing, ring])

/-- A relative error of `10^-15`. -/
theorem bentRing_nearly : NearlyClosed bentRing (1 / 10 ^ 15) where
  nonneg := by norm_num
  skew := by
    intro i j hj k
    fin_cases i <;> fin_cases j <;> simp_all [bentRing, ring] <;> norm_num
  diag := by
    intro i k
    fin_cases i <;> simp [bentRing, ring] <;> norm_num
  mass := by intro i j _; fin_cases i <;> fin_cases j <;> simp [bentRing, ring]
  massInv := by intro i j _; fin_cases i <;> fin_cases j <;> simp [bentRing, ring]
  incidence := ring_closed.incidence
  lumped := ring_closed.lumped

example : ¬ bentRing.Closed := by
  intro h
  have h1 := congrFun (h.skew 0 1 (by simp [bentRing, ring])) 0
  have h2 := congrFun (ring_closed.skew 0 1 (by simp [ring])) 0
  simp only [bentRing, Pi.neg_apply] at h1 h2
  norm_num at h1
  linarith

end

end Rounded
end Ryujin
