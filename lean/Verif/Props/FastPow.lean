import Verif.Proofs.FastPow

/-!
# C108: the approximate power function

`fast_pow(x, b, bias)` is documented as an approximation of `pow(x, b)`, with a guaranteed bound
from above or below for two of the values of `bias`.  In exact arithmetic the algorithm is accurate
to single precision for exponents of modulus less than one.  For larger exponents there is a
systematic error: the constant `ln2f_hi` is an approximation of `log 2` with an error of `2.1e-4`
and the correction by the remainder of `log 2` is missing.  The bias is ignored, and neither
guarantee holds.
-/

namespace Ryujin
namespace FastPow

theorem log_rpow' {x : ℝ} (hx : 0 < x) (y : ℝ) : Real.log (x ^ y) = y * Real.log x :=
  Real.log_rpow hx y

/-- From an error of the logarithm to a relative error. -/
theorem relative_of_log {z p t : ℝ} (hz : 0 < z) (hp : 0 < p) (h : |Real.log z - Real.log p| ≤ t)
    (ht : t ≤ 1 / 5) : |z - p| ≤ (t + t ^ 2) * p := by
  have h' := abs_le.1 h
  have ht0 : 0 ≤ t := (abs_nonneg _).trans h
  have e : z = p * Real.exp (Real.log z - Real.log p) := by
    rw [Real.exp_sub, Real.exp_log hz, Real.exp_log hp]
    field_simp
  have h1 : Real.exp (Real.log z - Real.log p) ≤ 1 + (t + t ^ 2) := by
    refine (Real.exp_le_exp.2 h'.2).trans ?_
    have := abs_le.1 (Real.abs_exp_sub_one_sub_id_le (x := t) (abs_le.2 ⟨by linarith, by linarith⟩))
    linarith
  have h2 : 1 - (t + t ^ 2) ≤ Real.exp (Real.log z - Real.log p) := by
    have := Real.add_one_le_exp (Real.log z - Real.log p)
    nlinarith [sq_nonneg t]
  rw [abs_le]
  constructor
  · rw [e]
    nlinarith
  · rw [e]
    nlinarith

theorem log_range {p : ℝ} {n : ℕ} (h1 : (2 : ℝ) ^ (-(n : ℤ)) ≤ p) (h2 : p ≤ (2 : ℝ) ^ (n : ℤ)) :
    |Real.log p| ≤ n * Real.log 2 := by
  have hp : 0 < p := lt_of_lt_of_le (by positivity) h1
  rw [abs_le]
  constructor
  · have := Real.log_le_log (by positivity) h1
    rw [Real.log_zpow] at this
    push_cast at this
    linarith
  · have := Real.log_le_log hp h2
    rw [Real.log_zpow] at this
    push_cast at this
    linarith

theorem ln2Hi_gap : 2.12e-4 < ln2Hi - Real.log 2 ∧ ln2Hi - Real.log 2 < 2.122e-4 := by
  have h1 := Real.log_two_gt_d9
  have h2 := Real.log_two_lt_d9
  unfold ln2Hi
  constructor <;> norm_num at * <;> linarith

/-- **C108 (partial).** For every normal positive base, every exponent of modulus at most `0.99`
and every bias, `fast_pow` returns the power up to a relative error of `10^-6`, provided the result
is not close to the limits of single precision.  Exact arithmetic; the full property has no
restriction on the exponent. -/
theorem C108_accuracy_partial (b : Bias) {x y : ℝ} (hx : (2 : ℝ) ^ (-126 : ℤ) ≤ x)
    (hy : |y| ≤ 0.99) (h1 : (2 : ℝ) ^ (-119 : ℤ) ≤ x ^ y) (h2 : x ^ y ≤ (2 : ℝ) ^ (119 : ℤ)) :
    ∃ z, fastPow b x y = .finite z ∧ |z - x ^ y| ≤ 1e-6 * x ^ y := by
  have hx0 : 0 < x := lt_of_lt_of_le (by positivity) hx
  have hr := reduced_range hx0
  have hg := lg_error hr.1 hr.2
  have hl9 := Real.log_two_gt_d9
  have hl := log_two_pos'
  have hlr := log_reduced_le hx0
  have he2 : e2 x y = 0 := by
    refine roundEven_eq ?_
    rw [Int.cast_zero, sub_zero, abs_mul, abs_mul, abs_of_pos (by positivity : 0 < 1 / Real.log 2),
      mul_one_div, div_lt_iff₀ hl]
    have h3 : |lg (reduced x)| ≤ Real.log 2 / 2 + 4.7e-7 := by
      have := abs_sub_abs_le_abs_sub (lg (reduced x)) (Real.log (1 + reduced x))
      linarith
    have h4 : |lg (reduced x)| * |y| ≤ (Real.log 2 / 2 + 4.7e-7) * 0.99 :=
      mul_le_mul h3 hy (abs_nonneg y) (by linarith)
    refine lt_of_le_of_lt h4 ?_
    norm_num at hl9 ⊢
    linarith
  have hlog := log_rawPow hx0 y
  rw [he2, Int.cast_zero, zero_mul, add_zero] at hlog
  have herr : |Real.log (rawPow x y) - Real.log (x ^ y)| ≤ 5e-7 := by
    rw [log_rpow' hx0, hlog]
    refine (abs_add_le _ _).trans ?_
    rw [abs_mul]
    have h4 := mul_le_mul hy hg (abs_nonneg _) (by norm_num)
    have h5 := log_taylor_error (taylorArg_le x y)
    norm_num at h4 h5 ⊢
    linarith
  refine ⟨rawPow x y, fastPow_eq b hx ?_, ?_⟩
  · have h6 := log_range (n := 119) h1 h2
    have := abs_sub_abs_le_abs_sub (Real.log (rawPow x y)) (Real.log (x ^ y))
    norm_num at h6 herr hl9 ⊢
    linarith
  · have hp : 0 < x ^ y := Real.rpow_pos_of_pos hx0 y
    refine (relative_of_log (rawPow_pos x y) hp herr (by norm_num)).trans ?_
    refine mul_le_mul_of_nonneg_right ?_ hp.le
    norm_num

/-- The hypotheses of `C108_accuracy_partial` are met by the second call in
tests/common/fast_pow.cc: base `2.135`, exponent `1/3`. -/
example : (2 : ℝ) ^ (-126 : ℤ) ≤ (2.135 : ℝ) ∧ |(1 / 3 : ℝ)| ≤ 0.99
    ∧ (2 : ℝ) ^ (-119 : ℤ) ≤ (2.135 : ℝ) ^ (1 / 3 : ℝ)
    ∧ (2.135 : ℝ) ^ (1 / 3 : ℝ) ≤ (2 : ℝ) ^ (119 : ℤ) := by
  refine ⟨by norm_num, by rw [abs_of_pos] <;> norm_num, ?_, ?_⟩
  · refine le_trans ?_ (Real.one_le_rpow (by norm_num) (by norm_num))
    norm_num
  · refine (Real.rpow_le_rpow_of_exponent_le (by norm_num) (by norm_num : (1 / 3 : ℝ) ≤ 1)).trans ?_
    rw [Real.rpow_one]
    norm_num

/-- **C108 (partial).** For exponents of modulus up to one thousand the relative error is at most
`1.2e-4 * (|y| + 1)`. -/
theorem C108_error_bound_partial (b : Bias) {x y : ℝ} (hx : (2 : ℝ) ^ (-126 : ℤ) ≤ x)
    (hy : |y| ≤ 1000) (h1 : (2 : ℝ) ^ (-119 : ℤ) ≤ x ^ y) (h2 : x ^ y ≤ (2 : ℝ) ^ (119 : ℤ)) :
    ∃ z, fastPow b x y = .finite z ∧ |z - x ^ y| ≤ 1.2e-4 * (|y| + 1) * x ^ y := by
  have hx0 : 0 < x := lt_of_lt_of_le (by positivity) hx
  have hr := reduced_range hx0
  have hg := lg_error hr.1 hr.2
  have hl9 := Real.log_two_gt_d9
  have hl := log_two_pos'
  have hlr := log_reduced_le hx0
  have hgap := ln2Hi_gap
  have hlog := log_rawPow hx0 y
  have hy0 := abs_nonneg y
  have he2 : |(e2 x y : ℝ)| ≤ 0.5001 * |y| + 1 / 2 := by
    have h3 := e2_error hx0 y
    have h4 := abs_sub_abs_le_abs_sub ((e2 x y : ℝ) * Real.log 2) (y * Real.log (1 + reduced x))
    rw [abs_mul (e2 x y : ℝ), abs_mul y, abs_of_pos hl] at h4
    have h5 := mul_le_mul_of_nonneg_left hlr hy0
    have h6 : |(e2 x y : ℝ)| * Real.log 2 ≤ (0.5001 * |y| + 1 / 2) * Real.log 2 := by
      have : |y| * 4.7e-7 ≤ 0.0001 * |y| * Real.log 2 := by
        have := mul_le_mul_of_nonneg_left hl9.le (by positivity : 0 ≤ 0.0001 * |y|)
        norm_num at this ⊢
        linarith
      linarith
    exact le_of_mul_le_mul_right h6 hl
  have herr : |Real.log (rawPow x y) - Real.log (x ^ y)| ≤ 1.07e-4 * (|y| + 1) := by
    rw [log_rpow' hx0, hlog]
    refine (abs_add_le _ _).trans ?_
    refine (add_le_add_left (abs_add_le _ _) _).trans ?_
    rw [abs_mul, abs_mul]
    have h4 := mul_le_mul_of_nonneg_left hg hy0
    have h5 := log_taylor_error (taylorArg_le x y)
    have h6 : |Real.log 2 - ln2Hi| ≤ 2.122e-4 := by
      rw [abs_sub_comm, abs_of_pos] <;> linarith
    have h7 := mul_le_mul he2 h6 (abs_nonneg _) (by positivity)
    norm_num at h4 h5 h7 ⊢
    linarith
  refine ⟨rawPow x y, fastPow_eq b hx ?_, ?_⟩
  · have h6 := log_range (n := 119) h1 h2
    have := abs_sub_abs_le_abs_sub (Real.log (rawPow x y)) (Real.log (x ^ y))
    norm_num at h6 herr hl9 ⊢
    linarith
  · have hp : 0 < x ^ y := Real.rpow_pos_of_pos hx0 y
    refine (relative_of_log (rawPow_pos x y) hp herr ?_).trans ?_
    · norm_num; linarith
    · refine mul_le_mul_of_nonneg_right ?_ hp.le
      have : (|y| + 1) * (|y| + 1) ≤ 1001 * (|y| + 1) :=
        mul_le_mul_of_nonneg_right (by linarith) (by linarith)
      norm_num
      nlinarith

/-- The first call in tests/common/fast_pow.cc, base `1.225` and exponent `2.3559`, meets the
hypotheses of `C108_error_bound_partial` (but not of `C108_accuracy_partial`). -/
example : (2 : ℝ) ^ (-126 : ℤ) ≤ (1.225 : ℝ) ∧ |(2.3559 : ℝ)| ≤ 1000
    ∧ (2 : ℝ) ^ (-119 : ℤ) ≤ (1.225 : ℝ) ^ (2.3559 : ℝ)
    ∧ (1.225 : ℝ) ^ (2.3559 : ℝ) ≤ (2 : ℝ) ^ (119 : ℤ) := by
  refine ⟨by norm_num, by rw [abs_of_pos] <;> norm_num, ?_, ?_⟩
  · refine le_trans ?_ (Real.one_le_rpow (by norm_num) (by norm_num))
    norm_num
  · refine (Real.rpow_le_rpow_of_exponent_le (by norm_num) (by norm_num : (2.3559 : ℝ) ≤ (3 : ℕ))).trans ?_
    rw [Real.rpow_natCast]
    norm_num

theorem reduced_of_mem {x : ℝ} (h1 : 1.3 ≤ x) (h2 : x ≤ 1.4) : reduced x = x - 1 := by
  have hl : Int.log 2 x = 0 := by
    have ha : (0 : ℤ) ≤ Int.log 2 x :=
      (Int.zpow_le_iff_le_log (by norm_num) (by linarith)).1 (by norm_num at *; linarith)
    have hb : Int.log 2 x < 1 :=
      (Int.lt_zpow_iff_log_lt (by norm_num) (by linarith)).1 (by norm_num at *; linarith)
    omega
  have hf : fraction2 x = x / 2 := by
    unfold fraction2 exponentF
    rw [hl]
    norm_num
  have hs := sqrt_two_bounds
  unfold reduced blend
  rw [decide_eq_false (by rw [hf, not_lt]; norm_num at *; linarith), hf]
  simp

theorem log_one_three : (0.23 : ℝ) ≤ Real.log 1.3 := by
  have := Real.one_sub_inv_le_log_of_pos (x := (1.3 : ℝ)) (by norm_num)
  norm_num at this ⊢
  linarith

theorem raw_in_range {x y : ℝ} (h1 : 1.3 ≤ x) (h2 : x ≤ 1.4) (hy : |y| ≤ 10) :
    |Real.log (x ^ y)| ≤ 4 := by
  have hx0 : (0 : ℝ) < x := by linarith
  have ha : 0 ≤ Real.log x := Real.log_nonneg (by linarith)
  have hb : Real.log x ≤ 0.4 := by
    have := Real.log_le_sub_one_of_pos hx0
    linarith
  rw [log_rpow' hx0, abs_mul, abs_of_nonneg ha]
  have := mul_le_mul hy hb ha (by norm_num)
  norm_num at this
  linarith

theorem violation_aux (b : Bias) {x y : ℝ} (h1 : 1.3 ≤ x) (h2 : x ≤ 1.4) (hy : |y| ≤ 10) :
    fastPow b x y = .finite (rawPow x y)
    ∧ |Real.log (rawPow x y) - Real.log (x ^ y) - e2 x y * (Real.log 2 - ln2Hi)| ≤ 4.8e-6
    ∧ |e2 x y * Real.log 2 - y * Real.log x| ≤ 0.35 := by
  have hx0 : (0 : ℝ) < x := by linarith
  have hr := reduced_range hx0
  have hg := lg_error hr.1 hr.2
  have hl9 := Real.log_two_gt_d9
  have hl9' := Real.log_two_lt_d9
  have hlog := log_rawPow hx0 y
  have hy0 := abs_nonneg y
  have hgap := ln2Hi_gap
  have h4 : |y| * |lg (reduced x) - Real.log (1 + reduced x)| ≤ 10 * 4.7e-7 :=
    mul_le_mul hy hg (abs_nonneg _) (by norm_num)
  have hlogerr : |Real.log (rawPow x y) - Real.log (x ^ y) - e2 x y * (Real.log 2 - ln2Hi)|
      ≤ 4.8e-6 := by
    rw [log_rpow' hx0, hlog]
    have h5 := log_taylor_error (taylorArg_le x y)
    have e : y * (lg (reduced x) - Real.log (1 + reduced x)) + e2 x y * (Real.log 2 - ln2Hi)
        + (Real.log (taylor (taylorArg x y)) - taylorArg x y) - e2 x y * (Real.log 2 - ln2Hi)
        = y * (lg (reduced x) - Real.log (1 + reduced x))
          + (Real.log (taylor (taylorArg x y)) - taylorArg x y) := by ring
    rw [e]
    refine (abs_add_le _ _).trans ?_
    rw [abs_mul]
    norm_num at h4 h5 ⊢
    linarith
  have he2 : |e2 x y * Real.log 2 - y * Real.log x| ≤ 0.35 := by
    have h3 := e2_error hx0 y
    rw [reduced_of_mem h1 h2, add_sub_cancel] at h3
    have := mul_le_mul_of_nonneg_right hy (by norm_num : (0 : ℝ) ≤ 4.7e-7)
    norm_num at this h3 hl9' ⊢
    linarith
  refine ⟨fastPow_eq b (le_trans (by norm_num) h1) ?_, hlogerr, he2⟩
  have h6 := raw_in_range h1 h2 hy
  have h7 : |(e2 x y : ℝ) * (Real.log 2 - ln2Hi)| ≤ 5 := by
    have h8 : |(e2 x y : ℝ)| * Real.log 2 ≤ 5 := by
      have h9 := abs_sub_abs_le_abs_sub ((e2 x y : ℝ) * Real.log 2) (y * Real.log x)
      rw [log_rpow' hx0] at h6
      rw [abs_mul (e2 x y : ℝ), abs_of_pos log_two_pos'] at h9
      norm_num at he2
      linarith
    rw [abs_mul]
    refine le_trans (mul_le_mul_of_nonneg_left ?_ (abs_nonneg _)) h8
    rw [abs_sub_comm, abs_of_pos (by linarith)]
    norm_num at hgap hl9 ⊢
    linarith
  have h10 := abs_sub_abs_le_abs_sub (Real.log (rawPow x y)) (Real.log (x ^ y))
  have h11 := abs_sub_abs_le_abs_sub (Real.log (rawPow x y) - Real.log (x ^ y))
    (e2 x y * (Real.log 2 - ln2Hi))
  norm_num at hlogerr hl9 ⊢
  linarith

/-- **C108 (violation).** The bias is ignored and the result is systematically too small: for
every base between `1.3` and `1.4`, every exponent between `2` and `10` and every bias, also for
`Bias::max`, `fast_pow` is smaller than the power by more than two parts in ten thousand. -/
theorem C108_upper_bias_violation (b : Bias) {x y : ℝ} (h1 : 1.3 ≤ x) (h2 : x ≤ 1.4)
    (hy1 : 2 ≤ y) (hy2 : y ≤ 10) :
    ∃ z, fastPow b x y = .finite z ∧ z < (1 - 2e-4) * x ^ y := by
  have hx0 : (0 : ℝ) < x := by linarith
  have hyabs : |y| ≤ 10 := abs_le.2 ⟨by linarith, hy2⟩
  obtain ⟨hf, hlogerr, he2⟩ := violation_aux b h1 h2 hyabs
  refine ⟨_, hf, ?_⟩
  have hgap := ln2Hi_gap
  have hp : 0 < x ^ y := Real.rpow_pos_of_pos hx0 y
  have hlx : 0.23 ≤ Real.log x := log_one_three.trans (Real.log_le_log (by norm_num) h1)
  have hylx : 2 * 0.23 ≤ y * Real.log x := mul_le_mul hy1 hlx (by norm_num) (by linarith)
  have he : (1 : ℝ) ≤ e2 x y := by
    have h3 : 0 < (e2 x y : ℝ) * Real.log 2 := by
      have := (abs_le.1 he2).1
      norm_num at this hylx
      linarith
    have h4 : (0 : ℝ) < e2 x y := (mul_pos_iff_of_pos_right log_two_pos').1 h3
    have : (1 : ℤ) ≤ e2 x y := by exact_mod_cast h4
    exact_mod_cast this
  have h5 : (e2 x y : ℝ) * (Real.log 2 - ln2Hi) ≤ -2.12e-4 := by nlinarith
  have h6 : Real.log (rawPow x y) ≤ Real.log (x ^ y) - 2.07e-4 := by
    have := (abs_le.1 hlogerr).2
    norm_num at this h5 ⊢
    linarith
  have h7 := (Real.log_le_iff_le_exp (rawPow_pos x y)).1 h6
  rw [Real.exp_sub, Real.exp_log hp] at h7
  refine lt_of_le_of_lt h7 ?_
  rw [div_lt_iff₀ (Real.exp_pos _)]
  have h8 : (1 : ℝ) + 2.07e-4 ≤ Real.exp 2.07e-4 := by
    have := Real.add_one_le_exp (2.07e-4 : ℝ); linarith
  have h9 : 1 < (1 - 2e-4) * Real.exp 2.07e-4 := by
    have := mul_le_mul_of_nonneg_left h8 (by norm_num : (0 : ℝ) ≤ 1 - 2e-4)
    refine lt_of_lt_of_le ?_ this
    norm_num
  nlinarith

/-- **C108 (violation).** For negative exponents the result is systematically too large, also for
`Bias::min`. -/
theorem C108_lower_bias_violation (b : Bias) {x y : ℝ} (h1 : 1.3 ≤ x) (h2 : x ≤ 1.4)
    (hy1 : -10 ≤ y) (hy2 : y ≤ -2) :
    ∃ z, fastPow b x y = .finite z ∧ (1 + 2e-4) * x ^ y < z := by
  have hx0 : (0 : ℝ) < x := by linarith
  have hyabs : |y| ≤ 10 := abs_le.2 ⟨hy1, by linarith⟩
  obtain ⟨hf, hlogerr, he2⟩ := violation_aux b h1 h2 hyabs
  refine ⟨_, hf, ?_⟩
  have hgap := ln2Hi_gap
  have hp : 0 < x ^ y := Real.rpow_pos_of_pos hx0 y
  have hlx : 0.23 ≤ Real.log x := log_one_three.trans (Real.log_le_log (by norm_num) h1)
  have hylx : y * Real.log x ≤ -(2 * 0.23) := by
    have : 2 * 0.23 ≤ (-y) * Real.log x := mul_le_mul (by linarith) hlx (by norm_num) (by linarith)
    linarith
  have he : (e2 x y : ℝ) ≤ -1 := by
    have h3 : 0 < (-(e2 x y : ℝ)) * Real.log 2 := by
      have := (abs_le.1 he2).2
      norm_num at this hylx ⊢
      linarith
    have h4 : (0 : ℝ) < -(e2 x y : ℝ) := (mul_pos_iff_of_pos_right log_two_pos').1 h3
    have h4' : (e2 x y : ℝ) < 0 := by linarith
    have h5 : e2 x y < 0 := by exact_mod_cast h4'
    have : e2 x y ≤ -1 := by omega
    exact_mod_cast this
  have h5 : 2.12e-4 ≤ (e2 x y : ℝ) * (Real.log 2 - ln2Hi) := by nlinarith
  have h6 : Real.log (x ^ y) + 2.07e-4 ≤ Real.log (rawPow x y) := by
    have := (abs_le.1 hlogerr).1
    norm_num at this h5 ⊢
    linarith
  have h7 := (Real.le_log_iff_exp_le (rawPow_pos x y)).1 h6
  rw [Real.exp_add, Real.exp_log hp] at h7
  refine lt_of_lt_of_le ?_ h7
  have h8 : (1 : ℝ) + 2.07e-4 ≤ Real.exp 2.07e-4 := by
    have := Real.add_one_le_exp (2.07e-4 : ℝ); linarith
  have : 1 + 2e-4 < Real.exp 2.07e-4 := by
    refine lt_of_lt_of_le ?_ h8
    norm_num
  nlinarith

theorem roundEven_zero : roundEven 0 = 0 := roundEven_eq (by norm_num)

/-- **C108.** Powers of one are one, for every exponent. -/
theorem C108_base_one (b : Bias) (y : ℝ) : fastPow b 1 y = .finite 1 := by
  have hl : Int.log 2 (1 : ℝ) = 0 := Int.log_one_right 2
  have hf : fraction2 1 = 1 / 2 := by
    unfold fraction2 exponentF
    rw [hl]
    norm_num
  have hb : blend 1 = false := by
    have hs := sqrt_two_bounds
    unfold blend
    rw [decide_eq_false_iff_not, not_lt, hf]
    norm_num at *
  have hu : reduced 1 = 0 := by
    unfold reduced
    rw [hb, hf]
    norm_num
  have hre : reducedExponent 1 = 0 := by
    unfold reducedExponent exponentF
    rw [hb, hl]
    simp
  have he1 : e1 1 y = 0 := by
    unfold e1
    rw [hre, Int.cast_zero, zero_mul, roundEven_zero]
  have hlg : lg 0 = 0 := by unfold lg lg1; ring
  have he2 : e2 1 y = 0 := by
    unfold e2
    rw [hu, hlg, zero_mul, zero_mul, roundEven_zero]
  have hv : v 1 y = 0 := by
    unfold v yr lgerr x2err lg1
    rw [hu, hlg, he1, he2, hre]
    norm_num
  have he3 : e3 1 y = 0 := by
    unfold e3
    rw [hv, zero_mul, roundEven_zero]
  have hw : taylorArg 1 y = 0 := by
    unfold taylorArg
    rw [hv, he3]
    norm_num
  have hei : ei 1 y = 0 := by
    unfold ei
    rw [he1, he2, he3]
    rfl
  have hr : rawPow 1 y = 1 := by
    unfold rawPow taylor
    rw [hw, hei]
    norm_num
  have := fastPow_eq b (x := 1) (y := y) (by norm_num) (by rw [hr]; simp [log_two_pos'.le])
  rw [this, hr]

/-- **C108.** A zero base gives infinity, one, or zero, depending on the sign of the exponent. -/
theorem C108_base_zero (b : Bias) (y : ℝ) :
    fastPow b 0 y = if y < 0 then .infinity else if y = 0 then .finite 1 else .finite 0 := by
  unfold fastPow
  simp only [abs_zero]
  rw [if_pos (by positivity)]

end FastPow
end Ryujin
