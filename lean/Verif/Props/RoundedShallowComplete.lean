import Verif.Props.RoundedComplete
import Verif.Props.RoundedShallowDepth

/-!
# C119, C124: the complete time step of the shallow water equations in floating point arithmetic stays within the bounds of the limiter
-/

namespace Ryujin
namespace RoundedShallow

open Hyp
open Rounded (Contractions Coefficient Neighbour firstRound secondRound nextP nextL scalarLimit Contraction C119_second_round)

variable {ι : Type} {dim : ℕ}

/-- `new_U` after the first pass of step 6. -/
noncomputable def afterFirst (R : Rounding) (s : Contractions ι) (M : Mesh ι dim) (X : StepData ι dim) (l1 : ι → ι → ℝ) (i : ι) : ℝ :=
  passes R s M X i 0 (lowOrder R s M X i) [l1]

/-- `l1` and `l2` are what the limiter stores in `lij_matrix_` for the two passes of step 6, with the bounds `lo` and `hi` of the rows: in step 5 from
the low-order update and `p_ij`, in the first pass from the partially corrected state and what is left of `p_ij`. The variant of the limiter,
its vector width and the accuracy of its Newton iterations are arbitrary. -/
structure Limited (R : Rounding) (s : Contractions ι) (M : Mesh ι dim) (X : StepData ι dim) (eps : ℝ) (lo hi : ι → ℝ) (l1 l2 : ι → ι → ℝ) :
    Prop where
  first : ∀ i, ∀ j ∈ M.nbrs i, Coefficient R eps (lo i) (hi i) (lowOrder R s M X i) (pIJ R s M X i j) (l1 i j)
  second : ∀ i, ∀ j ∈ M.nbrs i, ∃ t, Coefficient R eps (lo i) (hi i) (afterFirst R s M X l1 i)
    (nextP R (symmetrized l1 i j) (pIJ R s M X i j)) t ∧ l2 i j = nextL R (symmetrized l1 i j) t

/-- The row of a degree of freedom, as seen by the two rounds of the limiter. -/
noncomputable def neighbours (R : Rounding) (s : Contractions ι) (M : Mesh ι dim) (X : StepData ι dim) (l1 l2 : ι → ι → ℝ) (i : ι) : List Neighbour :=
  (M.nbrs i).map fun j => ⟨pIJ R s M X i j, symmetrized l1 i j, symmetrized l2 i j, (s i j (.update 0), s i j (.update 1))⟩

theorem afterFirst_eq (R : Rounding) (s : Contractions ι) (M : Mesh ι dim) (X : StepData ι dim) (l1 l2 : ι → ι → ℝ) (i : ι) :
    afterFirst R s M X l1 i = firstRound R (lowOrder R s M X i) (neighbours R s M X l1 l2 i) := by
  simp only [afterFirst, passes, firstRound, neighbours, List.length_map, List.map_map, Function.comp_def]

theorem newU_eq (R : Rounding) (s : Contractions ι) (M : Mesh ι dim) (X : StepData ι dim) (left : ι → ℝ) (l1 l2 : ι → ι → ℝ) (i : ι)
    (hi : M.nbrs i ≠ []) : newU R s M X left [l1, l2] i = secondRound R (lowOrder R s M X i) (neighbours R s M X l1 l2 i) := by
  unfold newU
  rw [if_pos (show M.active i from hi)]
  simp only [passes, secondRound, firstRound, neighbours, List.length_map, List.map_map, Function.comp_def, zero_add]

/-- The low-order update is a machine number. -/
theorem fl_lowOrder (R : Rounding) (s : Contractions ι) (M : Mesh ι dim) (X : StepData ι dim) (i : ι) :
    R.fl (lowOrder R s M X i) = lowOrder R s M X i :=
  Rounded.fl_foldl R _ (fun _ _ => R.idem _) _ _ (Or.inl (by simp [Mesh.columns]))

section
variable {R : Rounding} {s : Contractions ι} {M : Mesh ι dim} {X : StepData ι dim} {eps : ℝ} {lo hi : ι → ℝ} {l1 l2 : ι → ι → ℝ}

theorem Limited.rows (h : Limited R s M X eps lo hi l1 l2) (hM : M.WellFormed) (hu : R.u ≤ 1 / 100) (heps : 0 ≤ eps) (hhi : ∀ j, 0 ≤ hi j) (i : ι) :
    (∀ e ∈ neighbours R s M X l1 l2 i, 0 ≤ e.first ∧ ∃ t, Coefficient R eps (lo i) (hi i) (lowOrder R s M X i) e.p t ∧ e.first ≤ t) ∧
    ∀ e ∈ neighbours R s M X l1 l2 i, 0 ≤ e.second ∧ ∃ t, Coefficient R eps (lo i) (hi i)
      (firstRound R (lowOrder R s M X i) (neighbours R s M X l1 l2 i)) (nextP R e.first e.p) t ∧ e.second ≤ nextL R e.first t := by
  have hl1 : ∀ i, ∀ j ∈ M.nbrs i, 0 ≤ l1 i j ∧ l1 i j ≤ 1 := fun i j hj => (h.first i j hj).mem hu heps (hhi i)
  have hl2 : ∀ i, ∀ j ∈ M.nbrs i, 0 ≤ l2 i j := by
    intro i j hj
    obtain ⟨t, ht, e⟩ := h.second i j hj
    rw [e]
    refine R.fl_nonneg (mul_nonneg (R.fl_nonneg ?_) (ht.mem hu heps (hhi i)).1)
    have := (min_le_left (l1 i j) (l1 j i)).trans (hl1 i j hj).2
    unfold symmetrized
    linarith
  refine ⟨fun e he => ?_, fun e he => ?_⟩
  · obtain ⟨j, hj, rfl⟩ := List.mem_map.1 he
    exact ⟨le_min (hl1 i j hj).1 (hl1 j i (hM.symm i j hj)).1, l1 i j, h.first i j hj, min_le_left _ _⟩
  · obtain ⟨j, hj, rfl⟩ := List.mem_map.1 he
    obtain ⟨t, ht, e⟩ := h.second i j hj
    rw [afterFirst_eq R s M X l1 l2 i] at ht
    exact ⟨le_min (hl2 i j hj) (hl2 j i (hM.symm i j hj)), t, ht, (min_le_left _ _).trans e.le⟩

/-- **C119 (complete time step, shallow water).** Step 4 to step 6 for the water depth in floating point arithmetic, over arbitrary bathymetry, with two passes of
the limiter: if the low-order updates are within the
bounds of the limiter, then so is the result, up to `4 n + 50` (below) and `6 n + 72` (above) units of roundoff of the upper bound. Nothing is assumed
about the accuracy of fluxes, equilibrated states, `p_ij`, indicator and Newton iterations. -/
theorem C119_shallow_water_complete_step (hM : M.WellFormed) (heps : 0 ≤ eps) (h : Limited R s M X eps lo hi l1 l2) (hlo : ∀ j, 0 ≤ lo j)
    (hU : ∀ j, lowOrder R s M X j ∈ Set.Icc (lo j) (hi j)) (left : ι → ℝ) (i : ι) (hi' : M.nbrs i ≠ [])
    (hn : (2 * (M.nbrs i).length + 28) * R.u ≤ 1 / 10) :
    lo i - (4 * (M.nbrs i).length + 50) * (R.u * hi i) ≤ newU R s M X left [l1, l2] i ∧
      newU R s M X left [l1, l2] i ≤ hi i + (6 * (M.nbrs i).length + 72) * (R.u * hi i) := by
  have u0 := R.u_nonneg
  have hu : R.u ≤ 1 / 100 := by
    have : 0 ≤ ((M.nbrs i).length : ℝ) * R.u := by positivity
    linarith
  have hlen : (neighbours R s M X l1 l2 i).length = (M.nbrs i).length := List.length_map ..
  obtain ⟨a, b⟩ := h.rows hM hu heps (fun j => (hlo j).trans ((hU j).1.trans (hU j).2)) i
  rw [newU_eq R s M X left l1 l2 i hi', ← hlen]
  exact C119_second_round _ heps (by rw [hlen]; exact hn) (hlo i) (hU i).1 (hU i).2 (fl_lowOrder R s M X i) a b

/-- **C119, C124 (complete time step, shallow water).** The depth is positive if the bounds of the row are not further apart than about `1 / (4 n + 50)` units of
roundoff. -/
theorem C124_shallow_water_complete_step (hM : M.WellFormed) (heps : 0 ≤ eps) (h : Limited R s M X eps lo hi l1 l2) (hlo : ∀ j, 0 ≤ lo j)
    (hU : ∀ j, lowOrder R s M X j ∈ Set.Icc (lo j) (hi j)) (left : ι → ℝ) (i : ι) (hi' : M.nbrs i ≠ [])
    (hn : (2 * (M.nbrs i).length + 28) * R.u ≤ 1 / 10) (hpos : (4 * (M.nbrs i).length + 50) * (R.u * hi i) < lo i) :
    0 < newU R s M X left [l1, l2] i := by
  have := (C119_shallow_water_complete_step hM heps h hlo hU left i hi' hn).1
  linarith

/-- **C124 (complete time step, shallow water, double precision).** With at most 100 neighbours and bounds that are at most twelve orders of magnitude apart. -/
theorem C124_shallow_water_complete_step_double (hM : M.WellFormed) (heps : 0 ≤ eps) (h : Limited Rounding.double s M X eps lo hi l1 l2) (hlo : ∀ j, 0 ≤ lo j)
    (hU : ∀ j, lowOrder Rounding.double s M X j ∈ Set.Icc (lo j) (hi j)) (left : ι → ℝ) (i : ι) (hi' : M.nbrs i ≠ [])
    (hn : (M.nbrs i).length ≤ 100) (hpos : 0 < hi i) (hratio : hi i ≤ 1e12 * lo i) : 0 < newU Rounding.double s M X left [l1, l2] i := by
  have hn' : ((M.nbrs i).length : ℝ) ≤ 100 := by exact_mod_cast hn
  have hu : Rounding.double.u = 2 ^ (-53 : ℤ) := rfl
  have hu0 := Rounding.double.u_nonneg
  refine C124_shallow_water_complete_step hM heps h hlo hU left i hi' ?_ ?_
  · calc (2 * ((M.nbrs i).length : ℝ) + 28) * Rounding.double.u ≤ 228 * Rounding.double.u :=
        mul_le_mul_of_nonneg_right (by linarith) hu0
      _ ≤ 1 / 10 := by rw [hu]; norm_num
  · have h1 : (4 * ((M.nbrs i).length : ℝ) + 50) * (Rounding.double.u * hi i) ≤ 450 * (Rounding.double.u * hi i) :=
      mul_le_mul_of_nonneg_right (by linarith) (mul_nonneg hu0 hpos.le)
    have h2 : 450 * (Rounding.double.u * hi i) < 1 / 1e12 * hi i := by
      rw [← mul_assoc]
      exact mul_lt_mul_of_pos_right (by rw [hu]; norm_num) hpos
    have h3 : 1 / 1e12 * hi i ≤ lo i := by
      have := mul_le_mul_of_nonneg_left hratio (show (0 : ℝ) ≤ 1 / 1e12 by norm_num)
      rw [← mul_assoc] at this
      norm_num at this ⊢
      linarith
    linarith

end

/-- A limiter exists for every step: the scalar one, a lane at a time. -/
theorem exists_limited (R : Rounding) (s : Contractions ι) (M : Mesh ι dim) (X : StepData ι dim) (eps tiny : ℝ) (lo hi : ι → ℝ) :
    ∃ l1 l2, Limited R s M X eps lo hi l1 l2 := by
  let c : Fin 1 → Contraction := fun _ => ⟨true, false, true⟩
  let l1 : ι → ι → ℝ := fun i j => scalarLimit R c eps tiny (fun _ => lo i) (fun _ => hi i) (fun _ => lowOrder R s M X i)
    (fun _ => pIJ R s M X i j) (fun _ => 0) (fun _ => 1) 0
  let t : ι → ι → ℝ := fun i j => scalarLimit R c eps tiny (fun _ => lo i) (fun _ => hi i) (fun _ => afterFirst R s M X l1 i)
    (fun _ => nextP R (symmetrized l1 i j) (pIJ R s M X i j)) (fun _ => 0) (fun _ => 1) 0
  refine ⟨l1, fun i j => nextL R (symmetrized l1 i j) (t i j), fun i j _ => ?_, fun i j _ => ⟨t i j, ?_, rfl⟩⟩
  · exact Coefficient.scalar c tiny (fun _ => lo i) (fun _ => hi i) (fun _ => lowOrder R s M X i) (fun _ => pIJ R s M X i j) 0
  · exact Coefficient.scalar c tiny (fun _ => lo i) (fun _ => hi i) (fun _ => afterFirst R s M X l1 i)
      (fun _ => nextP R (symmetrized l1 i j) (pIJ R s M X i j)) 0

/-- Water of depth one whose high-order fluxes move it. -/
noncomputable def still : StepData (Fin 3) 1 :=
  { lake with U := fun _ => 1, star := fun _ _ => 1, fStar := fun _ _ _ => 0, f := fun i _ => ![1, 2, 4] i }

theorem still_low (s : Contractions (Fin 3)) (i : Fin 3) : lowOrder Rounding.double s ring still i = 1 := by
  have hp : ∀ f a, Rounded.product Rounding.double f a 0 = 0 := by
    intro f a
    unfold Rounded.product
    rw [mul_zero, Rounding.double.fl_zero, ite_self]
  have hf : ∀ j, fluxIJ Rounding.double s ring still i j = 0 := by
    intro j
    have hz : ∀ f c, Rounded.product Rounding.double f 0 c = 0 := by
      intro f c
      unfold Rounded.product
      rw [zero_mul, Rounding.double.fl_zero, ite_self]
    simp [fluxIJ, fluxDivergence, still, Rounded.mulAdd, Rounding.double.fl_zero, hz, List.finRange]
  have hj : ∀ j, jump Rounding.double still i j = 0 := by
    intro j
    simp [jump, still, Rounding.double.fl_zero]
  unfold lowOrder
  simp only [hf, hj, Rounded.mulAdd, hp, add_zero]
  have h1 : ∀ l : List (Fin 3), l.foldl (fun U _ => Rounding.double.fl (Rounding.double.fl U)) (1 : ℝ) = 1 := by
    intro l
    induction l with
    | nil => rfl
    | cons _ _ ih => rw [List.foldl_cons, Rounded.double_one, Rounded.double_one]; exact ih
  exact h1 _

/-- A complete step in double precision, with bounds that allow half and twice the depth. -/
example (s : Contractions (Fin 3)) : ∃ l1 l2,
    Limited Rounding.double s ring still (2 ^ (-52 : ℤ)) (fun _ => 1 / 2) (fun _ => 2) l1 l2 ∧
      ∀ left i, 0 < newU Rounding.double s ring still left [l1, l2] i := by
  obtain ⟨l1, l2, h⟩ := exists_limited Rounding.double s ring still (2 ^ (-52 : ℤ)) 1e-300 (fun _ => 1 / 2) (fun _ => 2)
  refine ⟨l1, l2, h, fun left i => C124_shallow_water_complete_step_double ring_wf (by positivity) h (fun _ => by norm_num)
    (fun j => ?_) left i (by simp [ring]) (by simp [ring]) (by norm_num) (by norm_num)⟩
  rw [still_low]
  constructor <;> norm_num

end RoundedShallow
end Ryujin
