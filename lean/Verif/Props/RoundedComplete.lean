import Verif.Props.RoundedStep
import Verif.Props.Rounding

/-!
# C119: the complete time step in floating point arithmetic stays within the bounds of the limiter
-/

namespace Ryujin
namespace Rounded

open Hyp

variable {ι : Type} {dim : ℕ}

/-- `new_U` after the first pass of step 6. -/
noncomputable def afterFirst (R : Rounding) (s : Contractions ι) (M : Mesh ι dim) (X : StepData ι dim) (l1 : ι → ι → ℝ) (i : ι) : ℝ :=
  passes R s M X i 0 (lowOrder R s M X i) [l1]

/-- `l1` and `l2` are what the limiter stores in `lij_matrix_` for the two passes of step 6, with the bounds `lo` and `hi` of the rows: in step 5 from
the low-order update and `p_ij`, in the first pass from the partially corrected state and what is left of `p_ij`. Which equation the limiter belongs to,
its vector width and the accuracy of its Newton iterations are arbitrary. -/
structure Limited (R : Rounding) (s : Contractions ι) (M : Mesh ι dim) (X : StepData ι dim) (eps : ℝ) (lo hi : ι → ℝ) (l1 l2 : ι → ι → ℝ) :
    Prop where
  first : ∀ i, ∀ j ∈ M.nbrs i, Coefficient R eps (lo i) (hi i) (lowOrder R s M X i) (pIJ R s M X i j) (l1 i j)
  second : ∀ i, ∀ j ∈ M.nbrs i, ∃ t, Coefficient R eps (lo i) (hi i) (afterFirst R s M X l1 i)
    (nextP R (symmetrized l1 i j) (pIJ R s M X i j)) t ∧ l2 i j = nextL R (symmetrized l1 i j) t

/-- The row of a degree of freedom, as seen by the two rounds of the limiter. -/
noncomputable def neighbours (R : Rounding) (s : Contractions ι) (M : Mesh ι dim) (X : StepData ι dim) (l1 l2 : ι → ι → ℝ) (i : ι) : List Neighbour :=
  (M.nbrs i).map fun j => ⟨pIJ R s M X i j, symmetrized l1 i j, symmetrized l2 i j, (s i j (.update 0), s i j (.update 1))⟩

theorem afterFirst_eq (R : Rounding) (s : Contractions ι) (M : Mesh ι dim) (X : StepData ι dim) (l1 l2 : ι → ι → ℝ) (i : ι) :
    afterFirst R s M X l1 i = firstRound R (lowOrder R s M X i) (neighbours R s M X l1 l2 i) := by
  simp only [afterFirst, passes, firstRound, neighbours, List.length_map, List.map_map, Function.comp_def]

theorem newU_eq (R : Rounding) (s : Contractions ι) (M : Mesh ι dim) (X : StepData ι dim) (left : ι → ℝ) (l1 l2 : ι → ι → ℝ) (i : ι)
    (hi : M.nbrs i ≠ []) : newU R s M X left [l1, l2] i = secondRound R (lowOrder R s M X i) (neighbours R s M X l1 l2 i) := by
  unfold newU
  rw [if_pos (show M.active i from hi)]
  simp only [passes, secondRound, firstRound, neighbours, List.length_map, List.map_map, Function.comp_def, zero_add]

theorem fl_foldl (R : Rounding) (g : ℝ → ι → ℝ) (hg : ∀ a j, R.fl (g a j) = g a j) :
    ∀ (l : List ι) (a : ℝ), l ≠ [] ∨ R.fl a = a → R.fl (l.foldl g a) = l.foldl g a
  | [], a, h => h.resolve_left (by simp)
  | j :: l, a, _ => fl_foldl R g hg l (g a j) (Or.inr (hg a j))

/-- The low-order update is a machine number. -/
theorem fl_lowOrder (R : Rounding) (s : Contractions ι) (M : Mesh ι dim) (X : StepData ι dim) (i : ι) :
    R.fl (lowOrder R s M X i) = lowOrder R s M X i :=
  fl_foldl R _ (fun _ _ => R.idem _) _ _ (Or.inl (by simp [Mesh.columns]))

theorem Coefficient.mem {R : Rounding} {eps m M U P t : ℝ} (h : Coefficient R eps m M U P t) (hu : R.u ≤ 1 / 100) (heps : 0 ≤ eps) (hM : 0 ≤ M) :
    0 ≤ t ∧ t ≤ 1 := by
  obtain ⟨s, den, -, -, h0, h1⟩ := h.fit hu heps hM
  exact ⟨h0, h1.trans (max_le (min_le_right _ _) zero_le_one)⟩

section
variable {R : Rounding} {s : Contractions ι} {M : Mesh ι dim} {X : StepData ι dim} {eps : ℝ} {lo hi : ι → ℝ} {l1 l2 : ι → ι → ℝ}

theorem Limited.rows (h : Limited R s M X eps lo hi l1 l2) (hM : M.WellFormed) (hu : R.u ≤ 1 / 100) (heps : 0 ≤ eps) (hhi : ∀ j, 0 ≤ hi j) (i : ι) :
    (∀ e ∈ neighbours R s M X l1 l2 i, 0 ≤ e.first ∧ ∃ t, Coefficient R eps (lo i) (hi i) (lowOrder R s M X i) e.p t ∧ e.first ≤ t) ∧
    ∀ e ∈ neighbours R s M X l1 l2 i, 0 ≤ e.second ∧ ∃ t, Coefficient R eps (lo i) (hi i)
      (firstRound R (lowOrder R s M X i) (neighbours R s M X l1 l2 i)) (nextP R e.first e.p) t ∧ e.second ≤ nextL R e.first t := by
  have hl1 : ∀ i, ∀ j ∈ M.nbrs i, 0 ≤ l1 i j ∧ l1 i j ≤ 1 := fun i j hj => (h.first i j hj).mem hu heps (hhi i)
  have hl2 : ∀ i, ∀ j ∈ M.nbrs i, 0 ≤ l2 i j := by
    intro i j hj
    obtain ⟨t, ht, e⟩ := h.second i j hj
    rw [e]
    refine R.fl_nonneg (mul_nonneg (R.fl_nonneg ?_) (ht.mem hu heps (hhi i)).1)
    have := (min_le_left (l1 i j) (l1 j i)).trans (hl1 i j hj).2
    unfold symmetrized
    linarith
  refine ⟨fun e he => ?_, fun e he => ?_⟩
  · obtain ⟨j, hj, rfl⟩ := List.mem_map.1 he
    exact ⟨le_min (hl1 i j hj).1 (hl1 j i (hM.symm i j hj)).1, l1 i j, h.first i j hj, min_le_left _ _⟩
  · obtain ⟨j, hj, rfl⟩ := List.mem_map.1 he
    obtain ⟨t, ht, e⟩ := h.second i j hj
    rw [afterFirst_eq R s M X l1 l2 i] at ht
    exact ⟨le_min (hl2 i j hj) (hl2 j i (hM.symm i j hj)), t, ht, (min_le_left _ _).trans e.le⟩

/-- **C119 (complete time step).** Step 4 to step 6 in floating point arithmetic with two passes of the limiter: if the low-order updates are within the
bounds of the limiter, then so is the result, up to `4 n + 50` (below) and `6 n + 72` (above) units of roundoff of the upper bound. Nothing is assumed
about the accuracy of fluxes, `p_ij`, indicator and Newton iterations. -/
theorem C119_complete_step (hM : M.WellFormed) (heps : 0 ≤ eps) (h : Limited R s M X eps lo hi l1 l2) (hlo : ∀ j, 0 ≤ lo j)
    (hU : ∀ j, lowOrder R s M X j ∈ Set.Icc (lo j) (hi j)) (left : ι → ℝ) (i : ι) (hi' : M.nbrs i ≠ [])
    (hn : (2 * (M.nbrs i).length + 28) * R.u ≤ 1 / 10) :
    lo i - (4 * (M.nbrs i).length + 50) * (R.u * hi i) ≤ newU R s M X left [l1, l2] i ∧
      newU R s M X left [l1, l2] i ≤ hi i + (6 * (M.nbrs i).length + 72) * (R.u * hi i) := by
  have u0 := R.u_nonneg
  have hu : R.u ≤ 1 / 100 := by
    have : 0 ≤ ((M.nbrs i).length : ℝ) * R.u := by positivity
    linarith
  have hlen : (neighbours R s M X l1 l2 i).length = (M.nbrs i).length := List.length_map ..
  obtain ⟨a, b⟩ := h.rows hM hu heps (fun j => (hlo j).trans ((hU j).1.trans (hU j).2)) i
  rw [newU_eq R s M X left l1 l2 i hi', ← hlen]
  exact C119_second_round _ heps (by rw [hlen]; exact hn) (hlo i) (hU i).1 (hU i).2 (fl_lowOrder R s M X i) a b

/-- **C119, C124 (complete time step).** The result is positive if the bounds of the row are not further apart than about `1 / (4 n + 50)` units of
roundoff. -/
theorem C124_complete_step (hM : M.WellFormed) (heps : 0 ≤ eps) (h : Limited R s M X eps lo hi l1 l2) (hlo : ∀ j, 0 ≤ lo j)
    (hU : ∀ j, lowOrder R s M X j ∈ Set.Icc (lo j) (hi j)) (left : ι → ℝ) (i : ι) (hi' : M.nbrs i ≠ [])
    (hn : (2 * (M.nbrs i).length + 28) * R.u ≤ 1 / 10) (hpos : (4 * (M.nbrs i).length + 50) * (R.u * hi i) < lo i) :
    0 < newU R s M X left [l1, l2] i := by
  have := (C119_complete_step hM heps h hlo hU left i hi' hn).1
  linarith

/-- **C124 (complete time step, double precision).** With at most 100 neighbours and bounds that are at most twelve orders of magnitude apart. -/
theorem C124_complete_step_double (hM : M.WellFormed) (heps : 0 ≤ eps) (h : Limited Rounding.double s M X eps lo hi l1 l2) (hlo : ∀ j, 0 ≤ lo j)
    (hU : ∀ j, lowOrder Rounding.double s M X j ∈ Set.Icc (lo j) (hi j)) (left : ι → ℝ) (i : ι) (hi' : M.nbrs i ≠ [])
    (hn : (M.nbrs i).length ≤ 100) (hpos : 0 < hi i) (hratio : hi i ≤ 1e12 * lo i) : 0 < newU Rounding.double s M X left [l1, l2] i := by
  have hn' : ((M.nbrs i).length : ℝ) ≤ 100 := by exact_mod_cast hn
  have hu : Rounding.double.u = 2 ^ (-53 : ℤ) := rfl
  have hu0 := Rounding.double.u_nonneg
  refine C124_complete_step hM heps h hlo hU left i hi' ?_ ?_
  · calc (2 * ((M.nbrs i).length : ℝ) + 28) * Rounding.double.u ≤ 228 * Rounding.double.u :=
        mul_le_mul_of_nonneg_right (by linarith) hu0
      _ ≤ 1 / 10 := by rw [hu]; norm_num
  · have h1 : (4 * ((M.nbrs i).length : ℝ) + 50) * (Rounding.double.u * hi i) ≤ 450 * (Rounding.double.u * hi i) :=
      mul_le_mul_of_nonneg_right (by linarith) (mul_nonneg hu0 hpos.le)
    have h2 : 450 * (Rounding.double.u * hi i) < 1 / 1e12 * hi i := by
      rw [← mul_assoc]
      exact mul_lt_mul_of_pos_right (by rw [hu]; norm_num) hpos
    have h3 : 1 / 1e12 * hi i ≤ lo i := by
      have := mul_le_mul_of_nonneg_left hratio (show (0 : ℝ) ≤ 1 / 1e12 by norm_num)
      rw [← mul_assoc] at this
      norm_num at this ⊢
      linarith
    linarith

end

/-- A limiter exists for every step: the scalar one, a lane at a time. -/
theorem exists_limited (R : Rounding) (s : Contractions ι) (M : Mesh ι dim) (X : StepData ι dim) (eps tiny : ℝ) (lo hi : ι → ℝ) :
    ∃ l1 l2, Limited R s M X eps lo hi l1 l2 := by
  let c : Fin 1 → Contraction := fun _ => ⟨true, false, true⟩
  let l1 : ι → ι → ℝ := fun i j => scalarLimit R c eps tiny (fun _ => lo i) (fun _ => hi i) (fun _ => lowOrder R s M X i)
    (fun _ => pIJ R s M X i j) (fun _ => 0) (fun _ => 1) 0
  let t : ι → ι → ℝ := fun i j => scalarLimit R c eps tiny (fun _ => lo i) (fun _ => hi i) (fun _ => afterFirst R s M X l1 i)
    (fun _ => nextP R (symmetrized l1 i j) (pIJ R s M X i j)) (fun _ => 0) (fun _ => 1) 0
  refine ⟨l1, fun i j => nextL R (symmetrized l1 i j) (t i j), fun i j _ => ?_, fun i j _ => ⟨t i j, ?_, rfl⟩⟩
  · exact Coefficient.scalar c tiny (fun _ => lo i) (fun _ => hi i) (fun _ => lowOrder R s M X i) (fun _ => pIJ R s M X i j) 0
  · exact Coefficient.scalar c tiny (fun _ => lo i) (fun _ => hi i) (fun _ => afterFirst R s M X l1 i)
      (fun _ => nextP R (symmetrized l1 i j) (pIJ R s M X i j)) 0

/-- The low-order updates on the ring are positive. -/
theorem ring_low_pos (s : Contractions (Fin 3)) (i : Fin 3) : 0 < lowOrder Rounding.double s ring ringData i := by
  have hV : rowViscosity ring ringData i = 4 := by fin_cases i <;> simp [rowViscosity, ring, ringData] <;> norm_num
  apply C124_double s ring ringData i (by norm_num) (by simp [ring]) (by norm_num [ring]) (by norm_num [ringData])
  · intro j _; simp only [ringData]; fin_cases i <;> fin_cases j <;> simp_all [ring]
  · rw [hV]; norm_num [ringData]
  · have h0 : ∀ k, ((ring.columns i).map fun j => ring.c i j k).sum = 0 := by
      intro k; fin_cases i <;> simp [Mesh.columns, ring] <;> norm_num
    simp only [h0, mul_zero, Finset.sum_const_zero]
    fin_cases i <;> simp [ringData]
  · fin_cases i <;> simp [ringData]
  · intro j _; fin_cases i <;> fin_cases j <;> simp [ringData] <;> norm_num
  · intro j _; fin_cases i <;> fin_cases j <;> simp_all [ring, ringData] <;> norm_num
  · intro j _; fin_cases i <;> fin_cases j <;> simp [ring, ringData, fluxSize] <;> norm_num
  · rw [hV]; norm_num [ring, ringData]

/-- A complete step on the ring in double precision, with bounds that allow half and twice the low-order update. -/
example (s : Contractions (Fin 3)) :
    ∃ l1 l2, Limited Rounding.double s ring ringData (2 ^ (-52 : ℤ)) (fun i => lowOrder Rounding.double s ring ringData i / 2)
      (fun i => 2 * lowOrder Rounding.double s ring ringData i) l1 l2 ∧
      ∀ left i, 0 < newU Rounding.double s ring ringData left [l1, l2] i := by
  obtain ⟨l1, l2, h⟩ := exists_limited Rounding.double s ring ringData (2 ^ (-52 : ℤ)) 1e-300
    (fun i => lowOrder Rounding.double s ring ringData i / 2) (fun i => 2 * lowOrder Rounding.double s ring ringData i)
  have hlow := ring_low_pos s
  refine ⟨l1, l2, h, fun left i => C124_complete_step_double ring_wf (by positivity) h (fun j => (half_pos (hlow j)).le)
    (fun j => ⟨by linarith [hlow j], by linarith [hlow j]⟩) left i (by simp [ring]) (by simp [ring]) (by linarith [hlow i]) (by linarith [hlow i])⟩

end Rounded
end Ryujin
