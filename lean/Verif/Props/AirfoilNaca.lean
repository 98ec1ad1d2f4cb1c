import Verif.Model.Airfoil
import Mathlib.Analysis.SpecialFunctions.Trigonometric.ArctanDeriv
import Mathlib.Tactic.Linarith
import Mathlib.Tactic.LinearCombination
import Mathlib.Tactic.Positivity
import Mathlib.Tactic.FieldSimp
import Mathlib.Tactic.NormNum

/-!
# C99: the sample points of the NACA four digit airfoils
-/

namespace Ryujin
namespace Airfoil

open scoped BigOperators

noncomputable section

/-- The serial number `d₁ d₂ d₃ d₄` of an airfoil, given by four digits. -/
def serial (d : Fin 4 → Fin 10) : List Char :=
  [Char.ofNat (48 + d 0), Char.ofNat (48 + d 1), Char.ofNat (48 + d 2), Char.ofNat (48 + d 3)]

theorem digit_ofNat (k : Fin 10) : digit (Char.ofNat (48 + k)) = k := by
  revert k; decide

/-- The three parameters the digits stand for: maximal camber in percent of the chord, its position in tenths, and the
thickness in percent. -/
def maxCamber (d : Fin 4 → Fin 10) : ℝ := (d 0 : ℕ) / 100

@[inherit_doc maxCamber]
def camberPosition (d : Fin 4 → Fin 10) : ℝ := (d 1 : ℕ) / 10

@[inherit_doc maxCamber]
def thicknessRatio (d : Fin 4 → Fin 10) : ℝ := (10 * (d 2 : ℕ) + (d 3 : ℕ)) / 100

/-! ### Thickness and camber -/

theorem thickness_factor (t : ℝ) {x : ℝ} (hx : 0 ≤ x) :
    thickness t x = 5 * t * (Real.sqrt x * (1 - Real.sqrt x) *
      (0.2969 + 0.1709 * Real.sqrt x + 0.1709 * Real.sqrt x ^ 2 - 0.1807 * Real.sqrt x ^ 3 - 0.1807 * Real.sqrt x ^ 4 +
        0.1036 * Real.sqrt x ^ 5 + 0.1036 * Real.sqrt x ^ 6)) := by
  have h : x = Real.sqrt x ^ 2 := (Real.sq_sqrt hx).symm
  unfold thickness
  generalize Real.sqrt x = s at *
  subst h
  ring

theorem thickness_poly_ge {s : ℝ} (h0 : 0 ≤ s) (h1 : s ≤ 1) :
    (0.27 : ℝ) ≤ 0.2969 + 0.1709 * s + 0.1709 * s ^ 2 - 0.1807 * s ^ 3 - 0.1807 * s ^ 4 + 0.1036 * s ^ 5 +
      0.1036 * s ^ 6 := by
  have h3 : s ^ 3 ≤ s ^ 2 := pow_le_pow_of_le_one h0 h1 (by norm_num)
  have h4 : s ^ 4 ≤ s ^ 1 := pow_le_pow_of_le_one h0 h1 (by norm_num)
  have h2 : s ^ 2 ≤ 1 := pow_le_one₀ h0 h1
  have h5 : 0 ≤ s ^ 5 := pow_nonneg h0 5
  have h6 : 0 ≤ s ^ 6 := pow_nonneg h0 6
  rw [pow_one] at h4
  linarith

theorem sqrt_mem {x : ℝ} (h1 : x ≤ 1) : Real.sqrt x ≤ 1 := by
  exact Real.sqrt_le_iff.mpr ⟨by norm_num, by simpa using h1⟩

theorem thickness_lower {t x : ℝ} (ht : 0 ≤ t) (h0 : 0 ≤ x) (h1 : x ≤ 1) :
    5 * t * (Real.sqrt x * (1 - Real.sqrt x) * 0.27) ≤ thickness t x := by
  rw [thickness_factor t h0]
  have hs0 := Real.sqrt_nonneg x
  have hs1 := sqrt_mem h1
  have h := thickness_poly_ge hs0 hs1
  have hp : 0 ≤ Real.sqrt x * (1 - Real.sqrt x) := mul_nonneg hs0 (by linarith)
  exact mul_le_mul_of_nonneg_left (mul_le_mul_of_nonneg_left h hp) (by linarith)

/-- C99: the profile is closed at both ends and has a positive thickness in between. -/
theorem C99_thickness {t : ℝ} (ht : 0 < t) :
    thickness t 0 = 0 ∧ thickness t 1 = 0 ∧ ∀ x, 0 < x → x < 1 → 0 < thickness t x := by
  refine ⟨by simp [thickness], ?_, ?_⟩
  · unfold thickness; rw [Real.sqrt_one]; norm_num
  · intro x h0 h1
    refine lt_of_lt_of_le ?_ (thickness_lower ht.le h0.le h1.le)
    have hs0 := Real.sqrt_pos.mpr h0
    have hs1 : Real.sqrt x < 1 := by rw [Real.sqrt_lt' one_pos]; simpa using h1
    have : 0 < 1 - Real.sqrt x := by linarith
    positivity

/-- C99: the camber line starts and ends on the chord, attains its maximum, the prescribed camber, at the prescribed
position, and `dy_c` is its slope, also where the two parabolas meet. -/
theorem C99_camber {m p : ℝ} (hm : 0 ≤ m) (h0 : 0 < p) (h1 : p < 1) :
    camber m p 0 = 0 ∧ camber m p 1 = 0 ∧ camber m p p = m ∧ (∀ x, camber m p x ≤ m) ∧
      (∀ x, 0 ≤ x → x ≤ 1 → 0 ≤ camber m p x) ∧ ∀ x, HasDerivAt (camber m p) (camberSlope m p x) x := by
  have hp' : (1 - p) ≠ 0 := by linarith
  have hsq1 : 0 < p * p := mul_pos h0 h0
  have hsq2 : 0 < (1 - p) * (1 - p) := mul_pos (by linarith) (by linarith)
  refine ⟨?_, ?_, ?_, ?_, ?_, ?_⟩
  · simp [camber, h0]
  · unfold camber; rw [if_neg (by linarith)]; ring
  · unfold camber; rw [if_neg (lt_irrefl p)]; field_simp; ring
  · intro x
    unfold camber
    split
    · rw [div_mul_eq_mul_div, div_le_iff₀ hsq1]
      have := mul_nonneg hm (sq_nonneg (p - x))
      nlinarith
    · rw [div_mul_eq_mul_div, div_le_iff₀ hsq2]
      have := mul_nonneg hm (sq_nonneg (p - x))
      nlinarith
  · intro x hx0 hx1
    unfold camber
    split
    · rename_i h
      refine mul_nonneg (div_nonneg hm hsq1.le) ?_
      have := mul_nonneg hx0 (by linarith : 0 ≤ 2 * p - x)
      linarith
    · rename_i h
      refine mul_nonneg (div_nonneg hm hsq2.le) ?_
      have := mul_nonneg (by linarith : 0 ≤ 1 - x) (by linarith : 0 ≤ 1 + x - 2 * p)
      linarith
  · intro x
    have hA : ∀ y, HasDerivAt (fun x => m / (p * p) * (2 * p * x - x * x)) (2 * m / (p * p) * (p - y)) y := by
      intro y
      have := (((hasDerivAt_id y).const_mul (2 * p)).sub ((hasDerivAt_id y).mul (hasDerivAt_id y))).const_mul (m / (p * p))
      refine this.congr_deriv ?_
      simp only [id]
      ring
    have hB : ∀ y, HasDerivAt (fun x => m / ((1 - p) * (1 - p)) * (1 - 2 * p + 2 * p * x - x * x))
        (2 * m / ((1 - p) * (1 - p)) * (p - y)) y := by
      intro y
      have := ((((hasDerivAt_id y).const_mul (2 * p)).const_add (1 - 2 * p)).sub
        ((hasDerivAt_id y).mul (hasDerivAt_id y))).const_mul (m / ((1 - p) * (1 - p)))
      refine this.congr_deriv ?_
      simp only [id]
      ring
    rcases lt_trichotomy x p with h | h | h
    · refine ((hA x).congr_deriv ?_).congr_of_eventuallyEq ?_
      · simp [camberSlope, h]
      · filter_upwards [eventually_lt_nhds h] with y hy
        simp [camber, hy]
    · subst h
      have hval : camber m x x = m := by unfold camber; rw [if_neg (lt_irrefl x)]; field_simp; ring
      have hs : camberSlope m x x = 0 := by unfold camberSlope; rw [if_neg (lt_irrefl x)]; ring
      rw [hs]
      have hl : HasDerivWithinAt (camber m x) 0 (Set.Iio x) x := by
        have h2 : HasDerivWithinAt (fun y => m / (x * x) * (2 * x * y - y * y)) 0 (Set.Iio x) x :=
          ((hA x).congr_deriv (by ring)).hasDerivWithinAt
        refine h2.congr (fun y hy => by simp [camber, show y < x from hy]) ?_
        rw [hval]; field_simp; ring
      have hr : HasDerivWithinAt (camber m x) 0 (Set.Ici x) x := by
        have h2 : HasDerivWithinAt (fun y => m / ((1 - x) * (1 - x)) * (1 - 2 * x + 2 * x * y - y * y)) 0 (Set.Ici x) x :=
          ((hB x).congr_deriv (by ring)).hasDerivWithinAt
        refine h2.congr (fun y hy => by simp [camber, show ¬ y < x from not_lt.mpr hy]) ?_
        rw [hval]; field_simp; ring
      have := hl.union hr
      rw [Set.Iio_union_Ici] at this
      exact this.hasDerivAt Filter.univ_mem
    · refine ((hB x).congr_deriv ?_).congr_of_eventuallyEq ?_
      · simp [camberSlope, not_lt.mpr h.le]
      · filter_upwards [eventually_gt_nhds h] with y hy
        simp [camber, not_lt.mpr (le_of_lt hy)]

/-- C99: the definition of the series.  The points of the upper and of the lower side belonging to a position `x` have the
point of the camber line as their midpoint, lie on the normal of the camber line there, and have the distance of twice the
half thickness; the upper one is above the lower one. -/
theorem C99_section {t m p x : ℝ} (ht : 0 < t) (hx0 : 0 < x) (hx1 : x < 1) :
    ((upperPoint t m p x).1 + (lowerPoint t m p x).1) / 2 = x ∧
    ((upperPoint t m p x).2 + (lowerPoint t m p x).2) / 2 = camber m p x ∧
    ((upperPoint t m p x).1 - (lowerPoint t m p x).1) * 1 +
      ((upperPoint t m p x).2 - (lowerPoint t m p x).2) * camberSlope m p x = 0 ∧
    ((upperPoint t m p x).1 - (lowerPoint t m p x).1) ^ 2 + ((upperPoint t m p x).2 - (lowerPoint t m p x).2) ^ 2 =
      (2 * thickness t x) ^ 2 ∧
    (lowerPoint t m p x).2 < (upperPoint t m p x).2 := by
  have hc : 0 < Real.cos (camberAngle m p x) := Real.cos_arctan_pos _
  have hs : Real.sin (camberAngle m p x) = camberSlope m p x * Real.cos (camberAngle m p x) := by
    have := Real.tan_arctan (camberSlope m p x)
    rw [Real.tan_eq_sin_div_cos] at this
    unfold camberAngle at *
    field_simp at this
    linarith
  have hth := (C99_thickness ht).2.2 x hx0 hx1
  refine ⟨?_, ?_, ?_, ?_, ?_⟩
  · simp only [upperPoint, lowerPoint]; ring
  · simp only [upperPoint, lowerPoint]; ring
  · simp only [upperPoint, lowerPoint]; rw [hs]; ring
  · simp only [upperPoint, lowerPoint]
    linear_combination 4 * thickness t x ^ 2 * Real.sin_sq_add_cos_sq (camberAngle m p x)
  · simp only [upperPoint, lowerPoint]
    have := mul_pos hth hc
    linarith

/-! ### The samples -/

/-- The samples returned for four digits, at least two samples and a thickness. -/
def samplesOf (d : Fin 4 → Fin 10) (n : ℕ) : Samples where
  xUpper := (List.range n).map fun i =>
    (upperPoint (thicknessRatio d) (maxCamber d) (camberPosition d) (abscissa n i)).1
  yUpper := fixEnds n ((List.range n).map fun i =>
    (upperPoint (thicknessRatio d) (maxCamber d) (camberPosition d) (abscissa n i)).2)
  xLower := (List.range n).map fun i =>
    (lowerPoint (thicknessRatio d) (maxCamber d) (camberPosition d) (abscissa n i)).1
  yLower := fixEnds n ((List.range n).map fun i =>
    (lowerPoint (thicknessRatio d) (maxCamber d) (camberPosition d) (abscissa n i)).2)

theorem nacaPoints_serial (d : Fin 4 → Fin 10) (n : ℕ) :
    nacaPoints (serial d) n =
      if thicknessRatio d > 0 then
        if n = 0 then .ub else if n = 1 then .nan else .ok (samplesOf d n)
      else .exception := by
  have ht : (0.1 * ((d 2 : ℕ) : ℝ) + 0.01 * ((d 3 : ℕ) : ℝ)) = thicknessRatio d := by
    unfold thicknessRatio; ring
  have hm : (0.01 * ((d 0 : ℕ) : ℝ)) = maxCamber d := by unfold maxCamber; ring
  have hp : (0.1 * ((d 1 : ℕ) : ℝ)) = camberPosition d := by unfold camberPosition; ring
  unfold nacaPoints serial
  simp only [digit_ofNat, ht, hm, hp]
  rfl

/-- C99: with at least two samples, every serial number of four digits with a positive thickness yields the samples of the
section of that camber, position and thickness at equidistant abscissae; a serial number ending in `00` is rejected. -/
theorem C99_samples (d : Fin 4 → Fin 10) {n : ℕ} (hn : 2 ≤ n) :
    ((d 2 : ℕ) = 0 ∧ (d 3 : ℕ) = 0 → nacaPoints (serial d) n = .exception) ∧
    (¬ ((d 2 : ℕ) = 0 ∧ (d 3 : ℕ) = 0) → ∃ s, nacaPoints (serial d) n = .ok s ∧
      s.xUpper.length = n ∧ s.yUpper.length = n ∧ s.xLower.length = n ∧ s.yLower.length = n ∧
      (∀ i, 0 < i → i + 1 < n →
        (s.xUpper.getD i 0, s.yUpper.getD i 0) =
          upperPoint (thicknessRatio d) (maxCamber d) (camberPosition d) ((i : ℝ) / (n - 1)) ∧
        (s.xLower.getD i 0, s.yLower.getD i 0) =
          lowerPoint (thicknessRatio d) (maxCamber d) (camberPosition d) ((i : ℝ) / (n - 1))) ∧
      (s.xUpper.getD 0 1, s.yUpper.getD 0 1) = (0, 0) ∧ (s.xLower.getD 0 1, s.yLower.getD 0 1) = (0, 0) ∧
      (s.xUpper.getD (n - 1) 0, s.yUpper.getD (n - 1) 1) = (1, 0) ∧
      (s.xLower.getD (n - 1) 0, s.yLower.getD (n - 1) 1) = (1, 0)) := by
  constructor
  · rintro ⟨h2, h3⟩
    rw [nacaPoints_serial, if_neg]
    unfold thicknessRatio
    rw [h2, h3]
    norm_num
  · intro h
    have hpos : 0 < thicknessRatio d := by
      unfold thicknessRatio
      have : 0 < 10 * (d 2 : ℕ) + (d 3 : ℕ) := by omega
      have : (0 : ℝ) < ((10 * (d 2 : ℕ) + (d 3 : ℕ) : ℕ) : ℝ) := by exact_mod_cast this
      push_cast at this
      linarith
    have hn1 : ((n : ℝ) - 1) ≠ 0 := by
      have : (2 : ℝ) ≤ n := by exact_mod_cast hn
      linarith
    have ha0 : abscissa n 0 = 0 := by simp [abscissa]
    have ha1 : abscissa n (n - 1) = 1 := by
      unfold abscissa
      rw [Nat.cast_sub (by omega)]
      simp [hn1]
    obtain ⟨t0, t1, _⟩ := C99_thickness hpos
    refine ⟨samplesOf d n, ?_, ?_, ?_, ?_, ?_, ?_, ?_, ?_, ?_, ?_⟩
    · rw [nacaPoints_serial, if_pos hpos, if_neg (by omega), if_neg (by omega)]
    · simp [samplesOf]
    · simp [samplesOf, fixEnds]
    · simp [samplesOf]
    · simp [samplesOf, fixEnds]
    · intro i hi0 hi1
      have hin : i < n := by omega
      have e1 : n - 1 ≠ i := by omega
      have e2 : 0 ≠ i := by omega
      constructor <;>
        simp [samplesOf, fixEnds, List.getD, hin, e1, e2, abscissa]
    · have h0 : 0 < n := by omega
      have h1 : n - 1 ≠ 0 := by omega
      simp [samplesOf, fixEnds, List.getD, h0, h1, ha0, upperPoint, t0]
    · have h0 : 0 < n := by omega
      have h1 : n - 1 ≠ 0 := by omega
      simp [samplesOf, fixEnds, List.getD, h0, h1, ha0, lowerPoint, t0]
    · have h0 : n - 1 < n := by omega
      simp [samplesOf, fixEnds, List.getD, h0, ha1, upperPoint, t1]
    · have h0 : n - 1 < n := by omega
      simp [samplesOf, fixEnds, List.getD, h0, ha1, lowerPoint, t1]

/-- C99: a section without camber is symmetric, and its abscissae increase strictly, as the spline requires. -/
theorem C99_symmetric (d : Fin 4 → Fin 10) (h0 : (d 0 : ℕ) = 0) (ht : ¬ ((d 2 : ℕ) = 0 ∧ (d 3 : ℕ) = 0)) {n : ℕ}
    (hn : 2 ≤ n) :
    ∃ s, nacaPoints (serial d) n = .ok s ∧ s.xUpper = s.xLower ∧ s.xUpper.Pairwise (· < ·) ∧
      ∀ i, i < n → s.yUpper.getD i 0 = -s.yLower.getD i 0 := by
  have hpos : 0 < thicknessRatio d := by
    unfold thicknessRatio
    have : 0 < 10 * (d 2 : ℕ) + (d 3 : ℕ) := by omega
    have : (0 : ℝ) < ((10 * (d 2 : ℕ) + (d 3 : ℕ) : ℕ) : ℝ) := by exact_mod_cast this
    push_cast at this
    linarith
  have hm : maxCamber d = 0 := by unfold maxCamber; rw [h0]; norm_num
  have hsl : ∀ p x, camberAngle 0 p x = 0 := by
    intro p x; unfold camberAngle camberSlope; split <;> simp
  have hca : ∀ p x, camber 0 p x = 0 := by intro p x; unfold camber; split <;> simp
  refine ⟨samplesOf d n, ?_, ?_, ?_, ?_⟩
  · rw [nacaPoints_serial, if_pos hpos, if_neg (by omega), if_neg (by omega)]
  · simp [samplesOf, hm, upperPoint, lowerPoint, hsl]
  · simp only [samplesOf, hm, upperPoint, hsl, Real.sin_zero, mul_zero, sub_zero]
    rw [List.pairwise_map]
    refine List.pairwise_lt_range.imp ?_
    intro a b hab
    unfold abscissa
    have hn1 : (0 : ℝ) < (n : ℝ) - 1 := by
      have : (2 : ℝ) ≤ n := by exact_mod_cast hn
      linarith
    exact div_lt_div_of_pos_right (by exact_mod_cast hab) hn1
  · intro i hi
    simp only [samplesOf, hm, upperPoint, lowerPoint, hsl, hca, fixEnds, List.getD, List.getElem?_set]
    by_cases h1 : n - 1 = i
    · simp [h1, hi]
    · by_cases h2 : 0 = i
      · subst h2; simp [h1, hi]
      · simp [h1, h2, hi]

theorem sin_arctan_ge {s : ℝ} (hs : 0 < s) : s / (1 + s) ≤ Real.sin (Real.arctan s) := by
  rw [Real.sin_arctan]
  have h1 : Real.sqrt (1 + s ^ 2) ≤ 1 + s := by
    rw [Real.sqrt_le_left (by linarith)]
    nlinarith
  exact div_le_div_of_nonneg_left hs.le (Real.sqrt_pos.mpr (by positivity)) h1

/-- C99: with camber the abscissae are not increasing once there are enough samples: for every section with camber there is
a number of samples from which on the second point of the upper side lies in front of the nose, so that the vector handed to
the spline, which has to be sorted, is not. -/
theorem C99_unsorted_violation (d : Fin 4 → Fin 10) (h0 : (d 0 : ℕ) ≠ 0) (h1 : (d 1 : ℕ) ≠ 0)
    (ht : ¬ ((d 2 : ℕ) = 0 ∧ (d 3 : ℕ) = 0)) :
    ∃ N, ∀ n, N ≤ n → ∃ s, nacaPoints (serial d) n = .ok s ∧ s.xUpper.getD 0 1 = 0 ∧ s.xUpper.getD 1 0 < 0 ∧
      ¬ s.xUpper.Pairwise (· ≤ ·) := by
  have htp : 0 < thicknessRatio d := by
    unfold thicknessRatio
    have : 0 < 10 * (d 2 : ℕ) + (d 3 : ℕ) := by omega
    have : (0 : ℝ) < ((10 * (d 2 : ℕ) + (d 3 : ℕ) : ℕ) : ℝ) := by exact_mod_cast this
    push_cast at this
    linarith
  have hmp : 0 < maxCamber d := by
    unfold maxCamber
    have : (0 : ℝ) < (d 0 : ℕ) := by exact_mod_cast Nat.pos_of_ne_zero h0
    linarith
  have hpp : 0 < camberPosition d := by
    unfold camberPosition
    have : (0 : ℝ) < (d 1 : ℕ) := by exact_mod_cast Nat.pos_of_ne_zero h1
    linarith
  have hp1 : camberPosition d < 1 := by
    unfold camberPosition
    have : ((d 1 : ℕ) : ℝ) < 10 := by exact_mod_cast (d 1).isLt
    linarith
  set t := thicknessRatio d with htdef
  set m := maxCamber d with hmdef
  set p := camberPosition d with hpdef
  -- a lower bound of the slope and of the sine
  have hσ : 0 < m / p := div_pos hmp hpp
  set σ := m / p with hσdef
  set κ := 5 * t * 0.27 * (σ / (1 + σ)) with hκdef
  have hκ : 0 < κ := by
    have : 0 < σ / (1 + σ) := div_pos hσ (by linarith)
    positivity
  have key : ∀ x, 0 < x → x ≤ p / 2 → Real.sqrt x * (1 + κ) < κ → (upperPoint t m p x).1 < 0 := by
    intro x hx0 hxp hsx
    have hslope : σ ≤ camberSlope m p x := by
      unfold camberSlope
      rw [if_pos (by linarith)]
      rw [hσdef, div_mul_eq_mul_div, div_le_div_iff₀ hpp (mul_pos hpp hpp)]
      have : 0 ≤ m * p * (p - 2 * x) := mul_nonneg (mul_pos hmp hpp).le (by linarith)
      nlinarith
    have hsin : σ / (1 + σ) ≤ Real.sin (camberAngle m p x) := by
      have h2 := sin_arctan_ge (lt_of_lt_of_le hσ hslope)
      refine le_trans ?_ h2
      rw [div_le_div_iff₀ (by linarith) (by linarith)]
      nlinarith
    have hx1 : x ≤ 1 := by linarith
    have hth := thickness_lower htp.le hx0.le hx1
    have hs0 := Real.sqrt_pos.mpr hx0
    have hs1 := sqrt_mem hx1
    have hth0 : 0 ≤ 5 * t * (Real.sqrt x * (1 - Real.sqrt x) * 0.27) := by
      have : 0 ≤ 1 - Real.sqrt x := by linarith
      positivity
    have hprod : 5 * t * (Real.sqrt x * (1 - Real.sqrt x) * 0.27) * (σ / (1 + σ)) ≤
        thickness t x * Real.sin (camberAngle m p x) :=
      mul_le_mul hth hsin (div_nonneg hσ.le (by linarith)) (hth0.trans hth)
    have hre : 5 * t * (Real.sqrt x * (1 - Real.sqrt x) * 0.27) * (σ / (1 + σ)) = κ * (Real.sqrt x * (1 - Real.sqrt x)) := by
      rw [hκdef]; ring
    have hxx : x = Real.sqrt x * Real.sqrt x := (Real.mul_self_sqrt hx0.le).symm
    have hlt : Real.sqrt x * Real.sqrt x < κ * (Real.sqrt x * (1 - Real.sqrt x)) := by
      have : 0 < Real.sqrt x * (κ - Real.sqrt x * (1 + κ)) := mul_pos hs0 (by linarith)
      nlinarith
    show x - thickness t x * Real.sin (camberAngle m p x) < 0
    linarith
  -- the bound on the abscissa of the second sample
  set δ := min (p / 2) ((κ / (1 + κ)) ^ 2 / 2) with hδdef
  have hq : 0 < κ / (1 + κ) := div_pos hκ (by linarith)
  have hδ : 0 < δ := lt_min (by linarith) (by positivity)
  obtain ⟨N, hN⟩ := exists_nat_gt (1 / δ + 2)
  refine ⟨N, fun n hn => ?_⟩
  have hnr : 1 / δ + 2 < (n : ℝ) := lt_of_lt_of_le hN (by exact_mod_cast hn)
  have hδi : 0 < 1 / δ := one_div_pos.mpr hδ
  have hn2 : 2 ≤ n := by
    have : (2 : ℝ) < n := by linarith
    exact_mod_cast this.le
  have hx0 : 0 < abscissa n 1 := by
    unfold abscissa
    rw [Nat.cast_one]
    exact div_pos one_pos (by linarith)
  have hxδ : abscissa n 1 < δ := by
    unfold abscissa
    rw [Nat.cast_one, div_lt_iff₀ (by linarith)]
    have h3 : 1 / δ * δ = 1 := by field_simp
    nlinarith
  have hsq : Real.sqrt (abscissa n 1) * (1 + κ) < κ := by
    have h3 : abscissa n 1 < (κ / (1 + κ)) ^ 2 := by
      have h4 := min_le_right (p / 2) ((κ / (1 + κ)) ^ 2 / 2)
      have : 0 < (κ / (1 + κ)) ^ 2 := by positivity
      linarith
    have h5 : Real.sqrt (abscissa n 1) < κ / (1 + κ) := by
      rw [Real.sqrt_lt' hq]; exact h3
    rwa [lt_div_iff₀ (by linarith)] at h5
  have hneg := key (abscissa n 1) hx0 (by
    have := min_le_left (p / 2) ((κ / (1 + κ)) ^ 2 / 2)
    linarith) hsq
  obtain ⟨s, hs, hlen, _, _, _, hint, hfirst, _⟩ := (C99_samples d hn2).2 ht
  have hs' : s = samplesOf d n := by
    have h3 := nacaPoints_serial d n
    rw [if_pos htp, if_neg (by omega), if_neg (by omega)] at h3
    rw [h3] at hs
    injection hs with h4
    exact h4.symm
  have hsec : s.xUpper.getD 1 0 = (upperPoint t m p (abscissa n 1)).1 := by
    rw [hs']
    have : 1 < n := by omega
    simp [samplesOf, List.getD, this, htdef, hmdef, hpdef]
  have hf : s.xUpper.getD 0 1 = 0 := congrArg Prod.fst hfirst
  refine ⟨s, hs, hf, by rw [hsec]; exact hneg, ?_⟩
  intro hpw
  have h01 := List.pairwise_iff_getElem.mp hpw 0 1 (by omega) (by omega) (by omega)
  have e0 : s.xUpper[0]'(by omega) = 0 := by
    rw [← hf]; simp [List.getD, show 0 < s.xUpper.length by omega]
  have e1 : s.xUpper[1]'(by omega) = (upperPoint t m p (abscissa n 1)).1 := by
    rw [← hsec]; simp [List.getD, show 1 < s.xUpper.length by omega]
  rw [e0, e1] at h01
  linarith

/-- C99: the trailing edge of every NACA section is sharp, which `create_psi` asserts not to be the case: the last points of
the two sides coincide. -/
theorem C99_trailing_edge_violation (d : Fin 4 → Fin 10) {n : ℕ} (hn : 2 ≤ n) {s : Samples}
    (h : nacaPoints (serial d) n = .ok s) : ¬ (s.yLower.getD (n - 1) 1 < s.yUpper.getD (n - 1) 1) := by
  by_cases ht : (d 2 : ℕ) = 0 ∧ (d 3 : ℕ) = 0
  · rw [(C99_samples d hn).1 ht] at h
    exact absurd h (by simp)
  · obtain ⟨s', h1, _, _, _, _, _, _, _, h2, h3⟩ := (C99_samples d hn).2 ht
    rw [h] at h1
    injection h1 with h1
    subst h1
    have e2 : s.yUpper.getD (n - 1) 1 = 0 := congrArg Prod.snd h2
    have e3 : s.yLower.getD (n - 1) 1 = 0 := congrArg Prod.snd h3
    rw [e2, e3]
    exact lt_irrefl 0

/-- C99: nothing else is checked.  A single sample divides zero by zero, no sample at all accesses an empty vector, a serial
number that is not a number is accepted, and a camber at the position zero gives a camber line that does not start on the
chord. -/
theorem C99_validation_violation :
    nacaPoints (serial ![0, 0, 1, 2]) 1 = .nan ∧ nacaPoints (serial ![0, 0, 1, 2]) 0 = .ub ∧
    (∃ s, nacaPoints ['a', 'b', 'c', 'd'] 100 = .ok s) ∧ ∀ m : ℝ, camber m 0 0 = m := by
  have hpos : (0 : ℝ) < thicknessRatio ![0, 0, 1, 2] := by
    unfold thicknessRatio
    simp
    norm_num
  refine ⟨?_, ?_, ?_, ?_⟩
  · rw [nacaPoints_serial, if_pos hpos]; simp
  · rw [nacaPoints_serial, if_pos hpos]; simp
  · unfold nacaPoints
    have hd : digit 'c' = 51 := by decide
    have hd' : digit 'd' = 52 := by decide
    simp only [hd, hd']
    rw [if_pos (by norm_num), if_neg (by norm_num), if_neg (by norm_num)]
    exact ⟨_, rfl⟩
  · intro m; simp [camber]

/-- NACA 2412 and NACA 0012. -/
example : ¬ (((![2, 4, 1, 2] : Fin 4 → Fin 10) 2 : ℕ) = 0 ∧ ((![2, 4, 1, 2] : Fin 4 → Fin 10) 3 : ℕ) = 0) ∧
    ((![2, 4, 1, 2] : Fin 4 → Fin 10) 0 : ℕ) ≠ 0 ∧ ((![2, 4, 1, 2] : Fin 4 → Fin 10) 1 : ℕ) ≠ 0 ∧
    ((![0, 0, 1, 2] : Fin 4 → Fin 10) 0 : ℕ) = 0 ∧ serial ![2, 4, 1, 2] = ['2', '4', '1', '2'] := by decide

end

end Airfoil
end Ryujin
