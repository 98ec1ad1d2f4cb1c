import Verif.Model.Airfoil
import Mathlib.Analysis.Convex.SpecificFunctions.Basic
import Mathlib.Tactic.Linarith
import Mathlib.Tactic.LinearCombination
import Mathlib.Tactic.Positivity
import Mathlib.Tactic.FieldSimp
import Mathlib.Tactic.FinCases

/-!
# C98: the grading of the airfoil mesh and its extrusion
-/

namespace Ryujin
namespace Airfoil

open scoped BigOperators
open GeoTiff (Outcome)

noncomputable section

theorem offset_pos : 0 < offset := by unfold offset; positivity

theorem sign1_mul_self (x : ℝ) : sign1 x * sign1 x = 1 := by unfold sign1; split <;> norm_num

/-- The distance of a point from the centre along the direction of the grading, coordinate by coordinate. -/
def Grading.depth {dim : ℕ} (G : Grading dim) (p : Vec dim) (d : Fin dim) : ℝ :=
  (p d - G.center d) * sign1 (G.direction d)

theorem pullBack_active {dim : ℕ} (G : Grading dim) (p : Vec dim) {d : Fin dim} (h : |G.direction d| > 1 / 10 ^ 10) :
    G.pullBack p d * sign1 (G.direction d) = G.hat (G.depth p d) := by
  unfold Grading.pullBack Grading.depth
  dsimp only
  rw [if_pos h]
  linear_combination
    (G.hat ((p d - G.center d) * sign1 (G.direction d)) - (p d - G.center d) * sign1 (G.direction d)) *
      sign1_mul_self (G.direction d)

theorem pushForward_active {dim : ℕ} (G : Grading dim) (c : Vec dim) {d : Fin dim} (h : |G.direction d| > 1 / 10 ^ 10) :
    G.depth (G.pushForward c) d = G.unhat (c d * sign1 (G.direction d)) := by
  unfold Grading.pushForward Grading.depth
  dsimp only
  rw [if_pos h]
  linear_combination
    (G.unhat (c d * sign1 (G.direction d)) - c d * sign1 (G.direction d)) * sign1_mul_self (G.direction d)

theorem hat_strictMono {dim : ℕ} (G : Grading dim) (hg : 0 < G.grading) {x y : ℝ} (hx : 0 ≤ x + G.epsilon) (hxy : x < y) :
    G.hat x < G.hat y := by
  unfold Grading.hat
  have := Real.rpow_lt_rpow hx (by linarith : x + G.epsilon < y + G.epsilon) (one_div_pos.mpr hg)
  linarith

theorem hat_mono {dim : ℕ} (G : Grading dim) (hg : 0 < G.grading) {x y : ℝ} (hx : 0 ≤ x + G.epsilon) (hxy : x ≤ y) :
    G.hat x ≤ G.hat y := by
  rcases hxy.eq_or_lt with rfl | h
  · exact le_rfl
  · exact (hat_strictMono G hg hx h).le

theorem rpow_inv_self {g x : ℝ} (hg : 0 < g) (hx : 0 ≤ x) : (x ^ (1 / g)) ^ g = x := by
  rw [← Real.rpow_mul hx, one_div_mul_cancel hg.ne', Real.rpow_one]

theorem unhat_hat {dim : ℕ} (G : Grading dim) (x : ℝ) :
    G.unhat (G.hat x) = ((x + G.epsilon) ^ (1 / G.grading) + offset) ^ G.grading - G.epsilon + offset := by
  unfold Grading.unhat Grading.hat
  congr 3
  ring

/-- C98: the grading maps that are meant to be inverse to each other are not: every point that is expressed in the chart and
mapped back has moved by more than the added constant, always away from the centre. -/
theorem C98_grading_violation {dim : ℕ} (G : Grading dim) (hg : 0 < G.grading) (p : Vec dim) {d : Fin dim}
    (ha : |G.direction d| > 1 / 10 ^ 10) (hx : 0 ≤ G.depth p d + G.epsilon) :
    G.depth p d + 1 / 10 ^ 14 < G.depth (G.pushForward (G.pullBack p)) d ∧ G.pushForward (G.pullBack p) d ≠ p d := by
  have h1 : G.depth p d + 1 / 10 ^ 14 < G.depth (G.pushForward (G.pullBack p)) d := by
    rw [pushForward_active G _ ha, pullBack_active G p ha, unhat_hat]
    have h0 : 0 ≤ (G.depth p d + G.epsilon) ^ (1 / G.grading) := Real.rpow_nonneg hx _
    have h2 := Real.rpow_lt_rpow h0 (by linarith [offset_pos] :
      (G.depth p d + G.epsilon) ^ (1 / G.grading) < (G.depth p d + G.epsilon) ^ (1 / G.grading) + offset) hg
    rw [rpow_inv_self hg hx] at h2
    have : offset = 1 / 10 ^ 14 := rfl
    linarith
  refine ⟨h1, fun h => ?_⟩
  have h2 : G.depth (G.pushForward (G.pullBack p)) d = G.depth p d := by
    unfold Grading.depth; rw [h]
  have h3 : (0 : ℝ) < 1 / 10 ^ 14 := by positivity
  linarith

/-- The largest displacement of a point at the depth `x`. -/
def Grading.drift {dim : ℕ} (G : Grading dim) (x : ℝ) : ℝ :=
  1 / 10 ^ 14 * (1 + G.grading * ((x + G.epsilon) ^ (1 / G.grading) + 1 / 10 ^ 14) ^ (G.grading - 1))

theorem unhat_hat_le {dim : ℕ} (G : Grading dim) (hg : 1 ≤ G.grading) {x : ℝ} (hx : 0 ≤ x + G.epsilon) :
    G.unhat (G.hat x) ≤ x + G.drift x := by
  rw [unhat_hat]
  have hg0 : 0 < G.grading := by linarith
  have hu0 : 0 ≤ (x + G.epsilon) ^ (1 / G.grading) := Real.rpow_nonneg hx _
  have hug := rpow_inv_self hg0 hx
  have hdr : G.drift x = offset * (1 + G.grading * ((x + G.epsilon) ^ (1 / G.grading) + offset) ^ (G.grading - 1)) := rfl
  rw [hdr]
  set u := (x + G.epsilon) ^ (1 / G.grading)
  have ho := offset_pos
  have hv : 0 < u + offset := by linarith
  have hb := one_add_mul_self_le_rpow_one_add (s := -offset / (u + offset)) (by
    rw [le_div_iff₀ hv]; linarith) hg
  have he : 1 + -offset / (u + offset) = u / (u + offset) := by field_simp; ring
  rw [he, Real.div_rpow hu0 hv.le, hug] at hb
  have hvg : 0 < (u + offset) ^ G.grading := Real.rpow_pos_of_pos hv _
  rw [le_div_iff₀ hvg] at hb
  have hsub : (u + offset) ^ G.grading = (u + offset) ^ (G.grading - 1) * (u + offset) := by
    rw [Real.rpow_sub_one hv.ne']; field_simp
  have hexp : (1 + G.grading * (-offset / (u + offset))) * (u + offset) ^ G.grading =
      (u + offset) ^ G.grading - G.grading * offset * (u + offset) ^ (G.grading - 1) := by
    rw [hsub]; field_simp; ring
  rw [hexp] at hb
  linarith

/-- C98: the displacement is of the size of the added constant, `1e-14`, times a factor that does not exceed
`1 + g ((x + ε)^(1/g) + 1e-14)^(g - 1)`; in the directions that are not graded there is none. -/
theorem C98_grading_partial {dim : ℕ} (G : Grading dim) (hg : 1 ≤ G.grading) (p : Vec dim) (d : Fin dim) :
    (|G.direction d| > 1 / 10 ^ 10 → 0 ≤ G.depth p d + G.epsilon →
      |G.pushForward (G.pullBack p) d - p d| ≤ G.drift (G.depth p d)) ∧
    (|G.direction d| ≤ 1 / 10 ^ 10 → G.pushForward (G.pullBack p) d = p d) := by
  constructor
  · intro ha hx
    have h1 := (C98_grading_violation G (by linarith) p ha hx).1
    have h2 := unhat_hat_le G hg hx
    rw [← pullBack_active G p ha, ← pushForward_active G _ ha] at h2
    have h3 : (0 : ℝ) < 1 / 10 ^ 14 := by positivity
    have hs : |G.pushForward (G.pullBack p) d - p d| =
        |G.depth (G.pushForward (G.pullBack p)) d - G.depth p d| := by
      have : G.depth (G.pushForward (G.pullBack p)) d - G.depth p d =
          (G.pushForward (G.pullBack p) d - p d) * sign1 (G.direction d) := by unfold Grading.depth; ring
      rw [this, abs_mul]
      have h1 : |sign1 (G.direction d)| = 1 := by unfold sign1; split <;> simp
      rw [h1, mul_one]
    rw [hs, abs_of_nonneg (by linarith)]
    linarith
  · intro ha
    unfold Grading.pushForward Grading.pullBack
    dsimp only
    rw [if_neg (not_lt.mpr ha), if_neg (not_lt.mpr ha)]
    ring

/-- C98: a new point stays between the points it is the average of, up to the displacement at the far end: the order of the
layers of the graded mesh is kept. -/
theorem C98_grading_layers {dim n : ℕ} (G : Grading dim) (hg : 1 ≤ G.grading) (points : Fin n → Vec dim)
    (weights : Fin n → ℝ) (hw : ∀ i, 0 ≤ weights i) (hsum : ∑ i, weights i = 1) {d : Fin dim}
    (ha : |G.direction d| > 1 / 10 ^ 10) {lo hi : ℝ} (hlo : 0 ≤ lo + G.epsilon)
    (h1 : ∀ i, lo ≤ G.depth (points i) d) (h2 : ∀ i, G.depth (points i) d ≤ hi) (hn : 2 ≤ n) :
    ∃ q, G.newPoint points weights = .ok q ∧ lo + 1 / 10 ^ 14 < G.depth q d ∧ G.depth q d ≤ hi + G.drift hi := by
  have hg0 : 0 < G.grading := by linarith
  have hle1 : ∀ i, weights i ≤ 1 := fun i => by
    rw [← hsum]
    exact Finset.single_le_sum (f := weights) (fun j _ => hw j) (Finset.mem_univ i)
  refine ⟨chartNewPoint G.pullBack G.pushForward points weights, ?_, ?_⟩
  · unfold Grading.newPoint
    rw [dif_pos (by omega), if_neg (not_lt.mpr (hle1 _)), dif_pos (by omega), if_neg (not_lt.mpr (hle1 _))]
  unfold chartNewPoint
  rw [pushForward_active G _ ha]
  have hs : (∑ i, weights i * G.pullBack (points i) d) * sign1 (G.direction d) =
      ∑ i, weights i * G.hat (G.depth (points i) d) := by
    rw [Finset.sum_mul]
    refine Finset.sum_congr rfl fun i _ => ?_
    rw [mul_assoc, pullBack_active G _ ha]
  rw [hs]
  have hl : G.hat lo ≤ ∑ i, weights i * G.hat (G.depth (points i) d) := by
    calc G.hat lo = ∑ i, weights i * G.hat lo := by rw [← Finset.sum_mul, hsum, one_mul]
      _ ≤ _ := Finset.sum_le_sum fun i _ => mul_le_mul_of_nonneg_left (hat_mono G hg0 hlo (h1 i)) (hw i)
  have hu : ∑ i, weights i * G.hat (G.depth (points i) d) ≤ G.hat hi := by
    calc _ ≤ ∑ i, weights i * G.hat hi := Finset.sum_le_sum fun i _ =>
          mul_le_mul_of_nonneg_left (hat_mono G hg0 (by linarith [h1 i]) (h2 i)) (hw i)
      _ = G.hat hi := by rw [← Finset.sum_mul, hsum, one_mul]
  have hlh : lo ≤ hi := (h1 ⟨0, by omega⟩).trans (h2 ⟨0, by omega⟩)
  have hmono : ∀ a b : ℝ, 0 ≤ a + G.epsilon ^ (1 / G.grading) → a ≤ b → G.unhat a ≤ G.unhat b := by
    intro a b ha hab
    unfold Grading.unhat
    have := Real.rpow_le_rpow ha (by linarith : a + G.epsilon ^ (1 / G.grading) ≤ b + G.epsilon ^ (1 / G.grading)) hg0.le
    linarith
  have hp : 0 ≤ G.hat lo + G.epsilon ^ (1 / G.grading) := by
    unfold Grading.hat
    have := Real.rpow_nonneg hlo (1 / G.grading)
    linarith [offset_pos]
  constructor
  · have h3 := hmono _ _ hp hl
    have h4 : lo + 1 / 10 ^ 14 < G.unhat (G.hat lo) := by
      rw [unhat_hat]
      have h0 : 0 ≤ (lo + G.epsilon) ^ (1 / G.grading) := Real.rpow_nonneg hlo _
      have h2 := Real.rpow_lt_rpow h0 (by linarith [offset_pos] :
        (lo + G.epsilon) ^ (1 / G.grading) < (lo + G.epsilon) ^ (1 / G.grading) + offset) hg0
      rw [rpow_inv_self hg0 hlo] at h2
      have : offset = 1 / 10 ^ 14 := rfl
      linarith
    linarith
  · have h3 := hmono _ _ (by linarith) hu
    have h4 := unhat_hat_le G hg (x := hi) (by linarith)
    linarith

/-- C98: extrapolating weights select a point instead: with `weights[0] > 1` the result is the first point, with
`weights[1] > 1` (and not `weights[0] > 1`) the second one. -/
theorem C98_grading_extrapolation {dim n : ℕ} (G : Grading dim) (points : Fin (n + 2) → Vec dim)
    (weights : Fin (n + 2) → ℝ) :
    (weights 0 > 1 → G.newPoint points weights = .ok (points 0)) ∧
    (weights 0 ≤ 1 → weights 1 > 1 → G.newPoint points weights = .ok (points 1)) := by
  constructor
  · intro h
    unfold Grading.newPoint
    rw [dif_pos (by omega)]
    exact if_pos h
  · intro h h'
    unfold Grading.newPoint
    rw [dif_pos (by omega), if_neg (by exact not_lt.mpr h), dif_pos (by omega)]
    exact if_pos h'

/-- C98: the average of a single point with the weight one, trivially the point itself, reads a weight that does not
exist. -/
theorem C98_single_point_violation {dim : ℕ} (G : Grading dim) (points : Fin 1 → Vec dim) :
    G.newPoint points (fun _ => 1) = .ub := by
  unfold Grading.newPoint
  rw [dif_pos (by omega), if_neg (lt_irrefl _), dif_neg (by omega)]

/-- C98: in three dimensions the new point is the new point of the plane at the mean height, which lies between the lowest
and the highest of the points. -/
theorem C98_extruded {n : ℕ} (planar : (Fin n → Vec 2) → (Fin n → ℝ) → Outcome (Vec 2)) (points : Fin n → Vec 3)
    (weights : Fin n → ℝ) (hn : n ≤ 100) (hw : ∀ i, 0 ≤ weights i) (hsum : ∑ i, weights i = 1) {q : Vec 2}
    (hq : planar (fun i => ![points i 0, points i 1]) weights = .ok q) {lo hi : ℝ}
    (h1 : ∀ i, lo ≤ points i 2) (h2 : ∀ i, points i 2 ≤ hi) :
    ∃ r, extrudedNewPoint planar points weights = .ok r ∧ r 0 = q 0 ∧ r 1 = q 1 ∧
      r 2 = ∑ i, weights i * points i 2 ∧ lo ≤ r 2 ∧ r 2 ≤ hi := by
  refine ⟨![q 0, q 1, ∑ i, weights i * points i 2], ?_, rfl, rfl, rfl, ?_, ?_⟩
  · unfold extrudedNewPoint
    rw [if_pos hn, hq]
  · show lo ≤ ∑ i, weights i * points i 2
    calc lo = ∑ i, weights i * lo := by rw [← Finset.sum_mul, hsum, one_mul]
      _ ≤ _ := Finset.sum_le_sum fun i _ => mul_le_mul_of_nonneg_left (h1 i) (hw i)
  · show ∑ i, weights i * points i 2 ≤ hi
    calc _ ≤ ∑ i, weights i * hi := Finset.sum_le_sum fun i _ => mul_le_mul_of_nonneg_left (h2 i) (hw i)
      _ = hi := by rw [← Finset.sum_mul, hsum, one_mul]

/-- C98: with more than 100 surrounding points the projected points are written past the end of the buffer. -/
theorem C98_extruded_violation {n : ℕ} (planar : (Fin n → Vec 2) → (Fin n → ℝ) → Outcome (Vec 2))
    (points : Fin n → Vec 3) (weights : Fin n → ℝ) (hn : 100 < n) :
    extrudedNewPoint planar points weights = .ub := by
  unfold extrudedNewPoint
  rw [if_neg (not_le.mpr hn)]

/-- The grading of the upper and lower cells with the default parameters (geometry_airfoil.h:866-873, 1144-1158). -/
def defaultGrading : Grading 2 where
  center := ![0, 0]
  direction := ![0, 1]
  grading := 5.5
  epsilon := 0.02

example : 1 ≤ defaultGrading.grading ∧ |defaultGrading.direction 1| > 1 / 10 ^ 10 ∧
    |defaultGrading.direction 0| ≤ 1 / 10 ^ 10 ∧ 0 ≤ defaultGrading.depth ![1, 1 / 2] 1 + defaultGrading.epsilon ∧
    (0 : ℝ) ≤ defaultGrading.depth ![1, 0] 1 ∧ 0 ≤ (0 : ℝ) + defaultGrading.epsilon := by
  refine ⟨?_, ?_, ?_, ?_, ?_, ?_⟩ <;>
    simp [defaultGrading, Grading.depth, sign1] <;> norm_num

example : ∃ r, extrudedNewPoint (fun p w => .ok fun d => ∑ i, w i * p i d)
    (fun i : Fin 2 => if i = 0 then ![0, 0, 0] else ![1, 1, 1]) (fun _ => 1 / 2) = .ok r ∧ 0 ≤ r 2 ∧ r 2 ≤ 1 := by
  obtain ⟨r, h, _, _, _, h1, h2⟩ := C98_extruded (n := 2) (fun p w => .ok fun d => ∑ i, w i * p i d)
    (fun i => if i = 0 then ![0, 0, 0] else ![1, 1, 1]) (fun _ => 1 / 2) (by norm_num) (fun _ => by norm_num)
    (by rw [Fin.sum_univ_two]; norm_num) rfl (lo := 0) (hi := 1)
    (fun i => by fin_cases i <;> simp) (fun i => by fin_cases i <;> simp)
  exact ⟨r, h, h1, h2⟩

end

end Airfoil
end Ryujin
