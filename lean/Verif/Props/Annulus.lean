import Verif.Model.Annulus
import Mathlib.Analysis.SpecialFunctions.Trigonometric.Bounds
import Mathlib.Analysis.Real.Pi.Bounds
import Mathlib.Tactic.Linarith
import Mathlib.Tactic.Positivity
import Mathlib.Tactic.FieldSimp
import Mathlib.Tactic.LinearCombination

/-!
# C129: the annulus geometry removes the cells of the ring that the coverage angle covers
-/

namespace Ryujin
namespace Annulus

noncomputable section

/-- Specification: the point lies in the double wedge of all lines through the origin with an angle of at most `angle` degrees
to the horizontal axis. -/
def Covered (angle : ℝ) (x : Vec 2) : Prop :=
  ∃ r φ : ℝ, |φ| ≤ Real.pi / 180 * angle ∧ x 0 = r * Real.cos φ ∧ x 1 = r * Real.sin φ

theorem vnorm_two (x : Vec 2) : vnorm x = Real.sqrt (x 0 ^ 2 + x 1 ^ 2) := by
  simp [vnorm, normSq, Fin.sum_univ_two, sq]

theorem vnorm_eq {x : Vec 2} {r : ℝ} (hr : 0 ≤ r) (h : x 0 ^ 2 + x 1 ^ 2 = r ^ 2) : vnorm x = r := by
  rw [vnorm_two, h, Real.sqrt_sq hr]

theorem vnorm_point {r : ℝ} (hr : 0 ≤ r) (k : ℕ) : vnorm (point r k) = r := by
  refine vnorm_eq hr ?_
  simp only [point, Matrix.cons_val_zero, Matrix.cons_val_one]
  linear_combination r ^ 2 * Real.sin_sq_add_cos_sq (2 * Real.pi * k / 128)

theorem point_zero (r : ℝ) (k : ℕ) : point r k 0 = r * Real.cos (2 * Real.pi * k / 128) := rfl

theorem point_one (r : ℝ) (k : ℕ) : point r k 1 = r * Real.sin (2 * Real.pi * k / 128) := rfl

/-- The centre of a face on a ray lies on the ray. -/
theorem center_ray (r s : ℝ) (k : ℕ) : center (point r k) (point s k) = point ((r + s) / 2) k := by
  funext i
  fin_cases i <;> simp [center, point] <;> ring

/-- The centre of a face on a circle. -/
theorem vnorm_center_arc {r : ℝ} (hr : 0 ≤ r) (k : ℕ) :
    vnorm (center (point r k) (point r (k + 1))) = r * Real.cos (Real.pi / 128) := by
  have hpi := Real.pi_pos
  have hc : 0 ≤ Real.cos (Real.pi / 128) :=
    Real.cos_nonneg_of_neg_pi_div_two_le_of_le (by linarith) (by linarith)
  refine vnorm_eq (mul_nonneg hr hc) ?_
  simp only [center, point, Matrix.cons_val_zero, Matrix.cons_val_one]
  set a := 2 * Real.pi * (k : ℝ) / 128 with ha
  have hb : 2 * Real.pi * ((k + 1 : ℕ) : ℝ) / 128 = a + 2 * (Real.pi / 128) := by
    rw [ha]; push_cast; ring
  rw [hb]
  set d := Real.pi / 128
  have h2 : Real.cos (2 * d) = 2 * Real.cos d ^ 2 - 1 := Real.cos_two_mul d
  have e1 := Real.sin_sq_add_cos_sq a
  have e2 := Real.sin_sq_add_cos_sq (2 * d)
  rw [Real.cos_add, Real.sin_add]
  linear_combination (r ^ 2 / 4 * (1 + Real.cos (2 * d) ^ 2 + Real.sin (2 * d) ^ 2 + 2 * Real.cos (2 * d))) * e1
    + r ^ 2 / 4 * e2 + r ^ 2 / 2 * h2

theorem tan_nonneg' {angle : ℝ} (h0 : 0 ≤ angle) (h1 : angle < 90) : 0 ≤ Real.tan (Real.pi / 180 * angle) := by
  have hpi := Real.pi_pos
  refine Real.tan_nonneg_of_nonneg_of_le_pi_div_two (by positivity) ?_
  nlinarith

/-- The double wedge in coordinates. -/
theorem covered_le {angle : ℝ} (h1 : angle < 90) {x : Vec 2} (h : Covered angle x) :
    |x 1| ≤ |x 0| * Real.tan (Real.pi / 180 * angle) := by
  obtain ⟨r, φ, hφ, hx, hy⟩ := h
  have hpi := Real.pi_pos
  have hα : Real.pi / 180 * angle < Real.pi / 2 := by nlinarith
  have hφ0 : |φ| < Real.pi / 2 := lt_of_le_of_lt hφ hα
  have hc : 0 < Real.cos |φ| := Real.cos_pos_of_mem_Ioo ⟨by linarith [abs_nonneg φ], hφ0⟩
  have hs : 0 ≤ Real.sin |φ| := Real.sin_nonneg_of_nonneg_of_le_pi (abs_nonneg φ) (by linarith)
  have ht : Real.tan |φ| ≤ Real.tan (Real.pi / 180 * angle) := by
    rcases eq_or_lt_of_le hφ with e | e
    · rw [e]
    · exact (Real.tan_lt_tan_of_lt_of_lt_pi_div_two (by linarith [abs_nonneg φ]) hα e).le
  have e1 : |Real.cos φ| = Real.cos |φ| := by rw [Real.cos_abs] at hc ⊢; exact abs_of_pos hc
  have e2 : |Real.sin φ| = Real.sin |φ| := by
    rcases abs_cases φ with ⟨h, _⟩ | ⟨h, _⟩
    · rw [h] at hs ⊢; exact abs_of_nonneg hs
    · rw [h] at hs ⊢; rw [Real.sin_neg] at hs ⊢; exact abs_of_nonpos (by linarith)
  rw [hx, hy, abs_mul, abs_mul, e1, e2, mul_assoc]
  refine mul_le_mul_of_nonneg_left ?_ (abs_nonneg r)
  have := mul_le_mul_of_nonneg_left ht hc.le
  rwa [mul_comm (Real.cos |φ|), Real.tan_mul_cos hc.ne'] at this

/-- Admissible radii: a ring of a thickness of at least `0.01`. -/
structure Parameters.Thick (A : Parameters) : Prop where
  inner : 0 < A.innerRadius
  outer : 1 / 100 ≤ A.outerRadius - A.innerRadius

theorem radius_nonneg {A : Parameters} (h : A.Thick) (j : ℕ) : 0 ≤ A.radius j := by
  unfold Parameters.radius
  have := h.inner
  have := h.outer
  have : (0 : ℝ) ≤ (A.outerRadius - A.innerRadius) * ((j : ℝ) / 4) := mul_nonneg (by linarith) (by positivity)
  linarith

/-- Faces on rays are inside of the ring. -/
theorem ray_inAnnulus {A : Parameters} (h : A.Thick) (c : Cell) (ray : Fin 2) :
    A.inAnnulus (center (A.vertex c ray 0) (A.vertex c ray 1)) := by
  unfold Parameters.inAnnulus Parameters.vertex
  rw [center_ray, vnorm_point (by
    have := radius_nonneg h (c.j + (0 : Fin 2)); have := radius_nonneg h (c.j + (1 : Fin 2)); positivity)]
  have h1 := h.outer
  have hj : ((c.j : ℕ) : ℝ) ≤ 3 := by exact_mod_cast Nat.lt_succ_iff.mp c.j.isLt
  have hj0 : (0 : ℝ) ≤ ((c.j : ℕ) : ℝ) := Nat.cast_nonneg _
  simp only [Parameters.radius, Fin.val_zero, Fin.val_one]
  push_cast
  constructor <;> nlinarith

/-- C129: every cell of the ring all vertices of which are covered by the angle is removed, whatever the radii of a ring of
a thickness of at least `0.01` and the angle less than 90 degrees. -/
theorem C129_covered_removed {A : Parameters} (h : A.Thick) (h1 : A.angle < 90) (c : Cell)
    (hc : ∀ ray circle, Covered A.angle (A.vertex c ray circle)) : A.Removed (A.faces c) := by
  refine ⟨_, List.mem_cons_self .., ray_inAnnulus h c 0, ?_⟩
  unfold Parameters.partialAnnulus
  have a := covered_le h1 (hc 0 0)
  have b := covered_le h1 (hc 0 1)
  simp only [Parameters.vertex] at a b ⊢
  rw [center_ray]
  have r0 := radius_nonneg h (c.j + (0 : Fin 2))
  have r1 := radius_nonneg h (c.j + (1 : Fin 2))
  simp only [point, Matrix.cons_val_zero, Matrix.cons_val_one] at a b ⊢
  rw [abs_mul, abs_mul, abs_of_nonneg r0] at a
  rw [abs_mul, abs_mul, abs_of_nonneg r1] at b
  rw [abs_mul, abs_mul, abs_of_nonneg (by positivity)]
  nlinarith

/-- The ordinates of two consecutive points of a circle have the same sign. -/
theorem same_sign {r s : ℝ} (hr : 0 ≤ r) (hs : 0 ≤ s) {k l : ℕ} (hk : k ≤ 127) (hl : l = k ∨ l = k + 1) :
    0 ≤ point r k 1 * point s l 1 := by
  have hpi := Real.pi_pos
  rw [point_one, point_one]
  have key : ∀ m : ℕ, m ≤ 64 → 0 ≤ Real.sin (2 * Real.pi * m / 128) := by
    intro m hm
    have : (m : ℝ) ≤ 64 := by exact_mod_cast hm
    refine Real.sin_nonneg_of_nonneg_of_le_pi (by positivity) ?_
    rw [div_le_iff₀ (by norm_num)]
    nlinarith
  have key2 : ∀ m : ℕ, 64 ≤ m → m ≤ 128 → Real.sin (2 * Real.pi * m / 128) ≤ 0 := by
    intro m hm hm2
    have h := key (m - 64) (by omega)
    rw [Nat.cast_sub hm] at h
    have e : 2 * Real.pi * ((m : ℝ) - (64 : ℕ)) / 128 = 2 * Real.pi * m / 128 - Real.pi := by push_cast; ring
    rw [e, Real.sin_sub_pi] at h
    linarith
  have : 0 ≤ Real.sin (2 * Real.pi * k / 128) * Real.sin (2 * Real.pi * l / 128) := by
    by_cases h : k < 64
    · exact mul_nonneg (key _ (by omega)) (key _ (by omega))
    · exact mul_nonneg_of_nonpos_of_nonpos (key2 _ (by omega) (by omega)) (key2 _ (by omega) (by omega))
  have := mul_nonneg (mul_nonneg hr hs) this
  linarith [this]

theorem abs_center_of_same_sign {a b : ℝ} (h : 0 ≤ a * b) : |(a + b) / 2| = (|a| + |b|) / 2 := by
  rw [abs_div, abs_two, abs_add_eq_add_abs_iff _ _ |>.mpr]
  rcases le_total 0 a with ha | ha <;> rcases le_total 0 b with hb | hb
  · exact Or.inl ⟨ha, hb⟩
  · rcases eq_or_lt_of_le ha with e | e
    · exact Or.inr ⟨by linarith, hb⟩
    · exact Or.inl ⟨ha, by by_contra hn; push Not at hn; nlinarith⟩
  · rcases eq_or_lt_of_le hb with e | e
    · exact Or.inr ⟨ha, by linarith⟩
    · exact Or.inl ⟨by by_contra hn; push Not at hn; nlinarith, hb⟩
  · exact Or.inr ⟨ha, hb⟩

/-- C129: a cell of the ring all vertices of which lie beyond the covered double wedge, by more than the tolerance `1e-8`, is
kept. -/
theorem C129_uncovered_kept {A : Parameters} (h : A.Thick) (h0 : 0 ≤ A.angle) (h1 : A.angle < 90) (c : Cell)
    (hc : ∀ ray circle, |A.vertex c ray circle 0| * Real.tan (Real.pi / 180 * A.angle) + 1 / 10 ^ 8
      ≤ |A.vertex c ray circle 1|) : ¬ A.Removed (A.faces c) := by
  have ht := tan_nonneg' h0 h1
  have key : ∀ r1 c1 r2 c2 : Fin 2, (r2 = r1 ∨ (r1 = 0 ∧ r2 = 1)) →
      ¬ A.partialAnnulus (center (A.vertex c r1 c1) (A.vertex c r2 c2)) := by
    intro r1 c1 r2 c2 hr hp
    have a := hc r1 c1
    have b := hc r2 c2
    have hs : 0 ≤ A.vertex c r1 c1 1 * A.vertex c r2 c2 1 := by
      rcases hr with e | ⟨e1, e2⟩
      · subst e
        unfold Parameters.vertex
        rw [point_one, point_one]
        have g := mul_nonneg (mul_nonneg (radius_nonneg h (c.j + c1)) (radius_nonneg h (c.j + c2)))
          (mul_self_nonneg (Real.sin (2 * Real.pi * ((c.k + r2 : ℕ) : ℝ) / 128)))
        linarith [g]
      · subst e1 e2
        exact same_sign (radius_nonneg h _) (radius_nonneg h _) (by have := c.k.isLt; simp; omega) (Or.inr (by simp))
    unfold Parameters.partialAnnulus at hp
    simp only [center] at hp
    rw [abs_center_of_same_sign hs] at hp
    have hx : |(A.vertex c r1 c1 0 + A.vertex c r2 c2 0) / 2| ≤ (|A.vertex c r1 c1 0| + |A.vertex c r2 c2 0|) / 2 := by
      rw [abs_div, abs_two]
      have := abs_add_le (A.vertex c r1 c1 0) (A.vertex c r2 c2 0)
      linarith
    have := mul_le_mul_of_nonneg_right hx ht
    linarith
  rintro ⟨x, hx, -, hp⟩
  simp only [Parameters.faces, List.mem_cons, List.not_mem_nil, or_false] at hx
  rcases hx with rfl | rfl | rfl | rfl
  · exact key 0 0 0 1 (Or.inl rfl) hp
  · exact key 1 0 1 1 (Or.inl rfl) hp
  · exact key 0 0 1 0 (Or.inr ⟨rfl, rfl⟩) hp
  · exact key 0 1 1 1 (Or.inr ⟨rfl, rfl⟩) hp

theorem cos_small : 1 - 32 / 10 ^ 5 ≤ Real.cos (Real.pi / 128) ∧ Real.cos (Real.pi / 128) ≤ 1 - 3 / 10 ^ 4 := by
  have hp := Real.pi_gt_d4
  have hp2 := Real.pi_lt_d4
  constructor
  · have := Real.one_sub_sq_div_two_le_cos (x := Real.pi / 128)
    nlinarith
  · have h : Real.cos (Real.pi / 128) = 1 - 2 * Real.sin (Real.pi / 256) ^ 2 := by
      have e : Real.pi / 128 = 2 * (Real.pi / 256) := by ring
      rw [e, Real.cos_two_mul, ← Real.sin_sq_add_cos_sq (Real.pi / 256)]
      ring
    have hs := Real.sin_gt_sub_cube (x := Real.pi / 256) (by positivity)
    have hlow : 0.01226 ≤ Real.sin (Real.pi / 256) := by
      have h1 : (Real.pi / 256) ^ 3 ≤ (0.0123 : ℝ) ^ 3 := pow_le_pow_left₀ (by positivity) (by linarith) 3
      nlinarith
    rw [h]
    nlinarith

/-- C129: cells outside of the ring are kept if the outer radius is at most 3: neither a face at most as far from the centre
as the inner radius nor one at least as far away as the centre of a face on the outer circle passes the test. -/
theorem C129_outside_kept {A : Parameters} (h : A.Thick) (h3 : A.outerRadius ≤ 3) (faces : List (Vec 2))
    (hf : (∀ x ∈ faces, vnorm x ≤ A.innerRadius) ∨ ∀ x ∈ faces, ∃ k, vnorm (A.rimFace k) ≤ vnorm x) :
    ¬ A.Removed faces := by
  rintro ⟨x, hx, ⟨i1, i2⟩, -⟩
  rcases hf with hf | hf
  · have := hf x hx
    have : (0 : ℝ) < 1 / 10 ^ 8 := by norm_num
    linarith
  · obtain ⟨k, hk⟩ := hf x hx
    have ho : 0 ≤ A.outerRadius := by linarith [h.inner, h.outer]
    unfold Parameters.rimFace at hk
    rw [vnorm_center_arc ho] at hk
    have := cos_small.1
    nlinarith

theorem tan_45 : Real.tan (Real.pi / 180 * 45) = 1 := by
  rw [show Real.pi / 180 * 45 = Real.pi / 4 by ring, Real.tan_pi_div_four]

/-- C129 does not hold exactly: the cell behind the last covered one is removed as well, since one face is enough.  With the
default parameters the obstacle extends to 47.8 instead of 45 degrees: the cells between the 16th and the 17th ray are removed,
although no point of the 17th ray is covered. -/
theorem C129_next_cell_violation (c : Cell) (hk : c.k = 16) :
    defaults.Removed (defaults.faces c) ∧ ∀ circle, ¬ Covered defaults.angle (defaults.vertex c 1 circle) := by
  have hT : defaults.Thick := ⟨by norm_num [defaults], by norm_num [defaults]⟩
  have ha : defaults.angle = 45 := rfl
  have hpi := Real.pi_pos
  constructor
  · refine ⟨_, List.mem_cons_self .., ray_inAnnulus hT c 0, ?_⟩
    unfold Parameters.partialAnnulus Parameters.vertex
    rw [center_ray, ha, tan_45, hk]
    have e : 2 * Real.pi * (((16 : Fin 128) : ℕ) + ((0 : Fin 2) : ℕ) : ℕ) / 128 = Real.pi / 4 := by
      have : ((16 : Fin 128) : ℕ) + ((0 : Fin 2) : ℕ) = 16 := rfl
      rw [this]; push_cast; ring
    simp only [point, Matrix.cons_val_zero, Matrix.cons_val_one]
    rw [e, Real.cos_pi_div_four, Real.sin_pi_div_four]
    norm_num
  · intro circle hc
    have := covered_le (by rw [ha]; norm_num) hc
    rw [ha, tan_45, mul_one] at this
    unfold Parameters.vertex at this
    rw [hk] at this
    have e : 2 * Real.pi * (((16 : Fin 128) : ℕ) + ((1 : Fin 2) : ℕ) : ℕ) / 128 = Real.pi / 2 - (15 * Real.pi / 64) := by
      have : ((16 : Fin 128) : ℕ) + ((1 : Fin 2) : ℕ) = 17 := rfl
      rw [this]; push_cast; ring
    have hr : 0 < defaults.radius (c.j + circle) := by
      unfold Parameters.radius
      have : (0 : ℝ) ≤ (((c.j : ℕ) + (circle : ℕ) : ℕ) : ℝ) := Nat.cast_nonneg _
      norm_num [defaults]
      push_cast at this
      linarith
    simp only [point, Matrix.cons_val_zero, Matrix.cons_val_one] at this
    rw [e, Real.cos_pi_div_two_sub, Real.sin_pi_div_two_sub, abs_mul, abs_mul] at this
    have hlt : Real.sin (15 * Real.pi / 64) < Real.cos (15 * Real.pi / 64) := by
      rw [← Real.sin_pi_div_two_sub]
      exact Real.sin_lt_sin_of_lt_of_le_pi_div_two (by linarith) (by linarith) (by linarith)
    have hs : 0 ≤ Real.sin (15 * Real.pi / 64) :=
      Real.sin_nonneg_of_nonneg_of_le_pi (by positivity) (by linarith)
    rw [abs_of_nonneg hs, abs_of_nonneg (hs.trans hlt.le), abs_of_pos hr] at this
    have := le_of_mul_le_mul_left this hr
    linarith

/-- C129 does not hold for large rings: with an outer radius between 4 and 30 the centre of a face on the outer circle counts as
inside of the ring, and the cells around the covered part of the ring are removed, too. -/
theorem C129_large_violation {A : Parameters} (h : A.Thick) (h4 : 4 ≤ A.outerRadius) (h30 : A.outerRadius ≤ 30)
    (h0 : 45 ≤ A.angle) (h1 : A.angle < 90) (faces : List (Vec 2)) (hf : A.rimFace 0 ∈ faces) : A.Removed faces := by
  have ho : 0 ≤ A.outerRadius := by linarith
  have hpi := Real.pi_gt_d4
  have hpi2 := Real.pi_lt_d4
  refine ⟨_, hf, ⟨?_, ?_⟩, ?_⟩
  · unfold Parameters.rimFace
    rw [vnorm_center_arc ho]
    have := cos_small.1
    have := h.outer
    nlinarith
  · unfold Parameters.rimFace
    rw [vnorm_center_arc ho]
    have := cos_small.2
    nlinarith
  · unfold Parameters.partialAnnulus
    have ht : 1 ≤ Real.tan (Real.pi / 180 * A.angle) := by
      rw [← tan_45]
      rcases eq_or_lt_of_le h0 with e | e
      · rw [← e]
      · exact (Real.tan_lt_tan_of_lt_of_lt_pi_div_two (by linarith) (by nlinarith) (by nlinarith)).le
    have hx := mul_le_mul_of_nonneg_left ht (abs_nonneg (A.rimFace 0 0))
    have hd : |A.rimFace 0 1| ≤ |A.rimFace 0 0| := by
      simp only [Parameters.rimFace, center, point, Matrix.cons_val_zero, Matrix.cons_val_one, Fin.val_zero, Nat.cast_zero,
        mul_zero, zero_div, Real.sin_zero, Real.cos_zero, zero_add]
      have hs0 : 0 ≤ Real.sin (2 * Real.pi * ((1 : ℕ) : ℝ) / 128) :=
        Real.sin_nonneg_of_nonneg_of_le_pi (by positivity) (by push_cast; linarith)
      have hs1 := Real.sin_le_one (2 * Real.pi * ((1 : ℕ) : ℝ) / 128)
      have hc0 : 0 ≤ Real.cos (2 * Real.pi * ((1 : ℕ) : ℝ) / 128) :=
        Real.cos_nonneg_of_neg_pi_div_two_le_of_le (by push_cast; linarith) (by push_cast; linarith)
      have a := mul_nonneg ho hs0
      have b := mul_le_mul_of_nonneg_left hs1 ho
      have c := mul_nonneg ho hc0
      rw [abs_of_nonneg (by linarith), abs_of_nonneg (by linarith)]
      linarith
    have : (0 : ℝ) < 1 / 10 ^ 8 := by norm_num
    linarith

/-- C129 does not hold for angles of more than 90 degrees: nothing is removed, although the horizontal axis is covered, and
neither a warning nor an error is produced. -/
theorem C129_obtuse_violation {A : Parameters} (h2 : 1 / 10 ^ 8 ≤ A.innerRadius) (h0 : 90 < A.angle)
    (h1 : A.angle ≤ 135) (faces : List (Vec 2)) : ¬ A.Removed faces ∧ ∀ r, Covered A.angle (point r 0) := by
  have hpi := Real.pi_pos
  constructor
  · rintro ⟨x, -, ⟨i1, -⟩, hp⟩
    unfold Parameters.partialAnnulus at hp
    have ht : Real.tan (Real.pi / 180 * A.angle) ≤ -1 := by
      have e : Real.tan (Real.pi / 180 * A.angle) = -Real.tan (Real.pi - Real.pi / 180 * A.angle) := by
        rw [Real.tan_pi_sub, neg_neg]
      rw [e, ← tan_45]
      have : Real.tan (Real.pi / 180 * 45) ≤ Real.tan (Real.pi - Real.pi / 180 * A.angle) := by
        rcases eq_or_lt_of_le h1 with e | e
        · rw [e]; apply le_of_eq; congr 1; ring
        · exact (Real.tan_lt_tan_of_lt_of_lt_pi_div_two (by linarith) (by nlinarith) (by nlinarith)).le
      linarith
    have hx := mul_le_mul_of_nonneg_left ht (abs_nonneg (x 0))
    have hn : vnorm x ≤ |x 0| + |x 1| := by
      rw [vnorm_two]
      refine Real.sqrt_le_iff.mpr ⟨by positivity, ?_⟩
      have := mul_nonneg (abs_nonneg (x 0)) (abs_nonneg (x 1))
      nlinarith [sq_abs (x 0), sq_abs (x 1)]
    linarith
  · intro r
    refine ⟨r, 0, by rw [abs_zero]; nlinarith, by simp [point], by simp [point]⟩

/-- The theorems apply to the default parameters: the cell above the horizontal axis is covered and removed, the cell next to
the vertical axis is kept. -/
example (j : Fin 4) : defaults.Removed (defaults.faces ⟨0, j⟩) := by
  have hpi := Real.pi_pos
  refine C129_covered_removed ⟨by norm_num [defaults], by norm_num [defaults]⟩ (by norm_num [defaults]) _ ?_
  intro ray circle
  refine ⟨defaults.radius (j + circle), 2 * Real.pi * (ray : ℕ) / 128, ?_, ?_, ?_⟩
  · rw [abs_of_nonneg (by positivity)]
    have : ((ray : ℕ) : ℝ) ≤ 1 := by exact_mod_cast Nat.lt_succ_iff.mp ray.isLt
    show _ ≤ Real.pi / 180 * 45
    nlinarith
  · simp [Parameters.vertex, point]
  · simp [Parameters.vertex, point]

example (j : Fin 4) : ¬ defaults.Removed (defaults.faces ⟨31, j⟩) := by
  have hpi := Real.pi_gt_d4
  have hpi2 := Real.pi_lt_d4
  refine C129_uncovered_kept ⟨by norm_num [defaults], by norm_num [defaults]⟩ (by norm_num [defaults])
    (by norm_num [defaults]) _ ?_
  intro ray circle
  have ha : defaults.angle = 45 := rfl
  rw [ha, tan_45, mul_one]
  unfold Parameters.vertex
  rw [point_zero, point_one]
  have hr : 0.6 ≤ defaults.radius (j + circle) := by
    unfold Parameters.radius
    have : (0 : ℝ) ≤ (((j : ℕ) + (circle : ℕ) : ℕ) : ℝ) := Nat.cast_nonneg _
    norm_num [defaults]
    push_cast at this
    linarith
  have hray : ((ray : ℕ) : ℝ) ≤ 1 := by exact_mod_cast Nat.lt_succ_iff.mp ray.isLt
  have hray0 : (0 : ℝ) ≤ ((ray : ℕ) : ℝ) := Nat.cast_nonneg _
  set δ := Real.pi / 64 * (1 - ((ray : ℕ) : ℝ)) with hδ
  have e : 2 * Real.pi * (((31 : Fin 128) : ℕ) + (ray : ℕ) : ℕ) / 128 = Real.pi / 2 - δ := by
    have : ((31 : Fin 128) : ℕ) = 31 := rfl
    rw [this, hδ]; push_cast; ring
  show |_ * Real.cos (2 * Real.pi * (((31 : Fin 128) : ℕ) + (ray : ℕ) : ℕ) / 128)| + _
    ≤ |_ * Real.sin (2 * Real.pi * (((31 : Fin 128) : ℕ) + (ray : ℕ) : ℕ) / 128)|
  rw [e, Real.cos_pi_div_two_sub, Real.sin_pi_div_two_sub, abs_mul, abs_mul, abs_of_nonneg (by linarith)]
  have d0 : 0 ≤ δ := by rw [hδ]; exact mul_nonneg (by positivity) (by linarith)
  have d1 : δ ≤ 0.1 := by rw [hδ]; nlinarith
  have s0 : 0 ≤ Real.sin δ := Real.sin_nonneg_of_nonneg_of_le_pi d0 (by linarith)
  have s1 : Real.sin δ ≤ 0.1 := (Real.sin_le d0).trans d1
  have c1 : 0.9 ≤ Real.cos δ := by
    have := Real.one_sub_sq_div_two_le_cos (x := δ)
    nlinarith
  rw [abs_of_nonneg s0, abs_of_nonneg (by linarith)]
  nlinarith

example : (⟨1, 5, 60⟩ : Parameters).Removed [(⟨1, 5, 60⟩ : Parameters).rimFace 0] :=
  C129_large_violation ⟨by norm_num, by norm_num⟩ (by norm_num) (by norm_num) (by norm_num) (by norm_num) _
    (List.mem_cons_self ..)

example (c : Cell) : ¬ (⟨1, 2, 120⟩ : Parameters).Removed ((⟨1, 2, 120⟩ : Parameters).faces c) :=
  (C129_obtuse_violation (by norm_num) (by norm_num) (by norm_num) _).1

example : ¬ defaults.Removed [![0, 0.5], ![0.1, 0.5]] := by
  refine C129_outside_kept ⟨by norm_num [defaults], by norm_num [defaults]⟩ (by norm_num [defaults]) _ (Or.inl ?_)
  intro x hx
  rw [vnorm_two]
  simp only [List.mem_cons, List.not_mem_nil, or_false] at hx
  refine Real.sqrt_le_iff.mpr ⟨by norm_num [defaults], ?_⟩
  rcases hx with rfl | rfl <;> norm_num [defaults]

end

end Annulus
end Ryujin
