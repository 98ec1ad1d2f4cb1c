import Verif.Model.AeosRiemann
import Verif.Proofs.EulerRiemann
import Mathlib.Analysis.Convex.SpecificFunctions.Basic

/-!
# The constant `c(γ)`: shock curves lie above scaled rarefaction curves for all `γ > 1`
-/

namespace Ryujin
namespace Aeos

/-- The logarithm of the slope of the shock curve relative to that of the rarefaction curve. -/
noncomputable def slopeLog (g x : ℝ) : ℝ :=
  Real.log ((g + 1) * x + (3 * g - 1)) - 3 / 2 * Real.log ((g + 1) * x + (g - 1)) + (g + 1) / (2 * g) * Real.log x

theorem slopeLog_hasDerivAt {g x : ℝ} (hg : 1 < g) (hx : 0 < x) :
    HasDerivAt (slopeLog g) ((g + 1) * ((x - 1) * ((g + 1) * x - (3 * g - 1) * (g - 1))) /
      (2 * g * x * ((g + 1) * x + (3 * g - 1)) * ((g + 1) * x + (g - 1)))) x := by
  have a : 0 < (g + 1) * x + (3 * g - 1) := by nlinarith
  have d : 0 < (g + 1) * x + (g - 1) := by nlinarith
  have d1 : HasDerivAt (fun x : ℝ => (g + 1) * x + (3 * g - 1)) (g + 1) x := by
    simpa using ((hasDerivAt_id x).const_mul (g + 1)).add_const (3 * g - 1)
  have d2 : HasDerivAt (fun x : ℝ => (g + 1) * x + (g - 1)) (g + 1) x := by
    simpa using ((hasDerivAt_id x).const_mul (g + 1)).add_const (g - 1)
  have l1 := d1.log a.ne'
  have l2 := (d2.log d.ne').const_mul (3 / 2)
  have l3 := ((hasDerivAt_id x).log (by simp; linarith)).const_mul ((g + 1) / (2 * g))
  refine ((l1.sub l2).add l3).congr_deriv ?_
  simp only [id]
  have hg0 : g ≠ 0 := by linarith
  have hx0 : x ≠ 0 := hx.ne'
  obtain ⟨A, hAe⟩ : ∃ A, A = (g + 1) * x + (3 * g - 1) := ⟨_, rfl⟩
  obtain ⟨B, hBe⟩ : ∃ B, B = (g + 1) * x + (g - 1) := ⟨_, rfl⟩
  rw [← hAe, ← hBe]
  rw [← hAe] at a
  rw [← hBe] at d
  have ha := a.ne'
  have hd := d.ne'
  field_simp
  rw [hAe, hBe]
  ring

/-- The minimiser of `slopeLog` for `γ > 5/3`. -/
noncomputable def slopeMin (g : ℝ) : ℝ := (3 * g - 1) * (g - 1) / (g + 1)

theorem one_le_slopeMin {g : ℝ} (hg : 5 / 3 ≤ g) : 1 ≤ slopeMin g := by
  unfold slopeMin
  rw [le_div_iff₀ (by linarith)]
  nlinarith

theorem slopeLog_ge_min {g x : ℝ} (hg : 5 / 3 ≤ g) (hx : 1 ≤ x) : slopeLog g (slopeMin g) ≤ slopeLog g x := by
  have hg1 : 1 < g := by linarith
  have hm := one_le_slopeMin hg
  have hmul : (g + 1) * slopeMin g = (3 * g - 1) * (g - 1) := by
    unfold slopeMin; field_simp
  have hden : ∀ y : ℝ, 0 < y → 0 < 2 * g * y * ((g + 1) * y + (3 * g - 1)) * ((g + 1) * y + (g - 1)) := by
    intro y hy
    have : 0 < (g + 1) * y + (3 * g - 1) := by nlinarith
    have : 0 < (g + 1) * y + (g - 1) := by nlinarith
    positivity
  rcases le_total x (slopeMin g) with h | h
  · have hanti : AntitoneOn (slopeLog g) (Set.Icc 1 (slopeMin g)) := by
      refine antitoneOn_of_deriv_nonpos (convex_Icc _ _) ?_ ?_ ?_
      · exact fun y hy => (slopeLog_hasDerivAt hg1 (by linarith [hy.1])).continuousAt.continuousWithinAt
      · intro y hy
        rw [interior_Icc] at hy
        exact (slopeLog_hasDerivAt hg1 (by linarith [hy.1])).differentiableAt.differentiableWithinAt
      · intro y hy
        rw [interior_Icc] at hy
        rw [(slopeLog_hasDerivAt hg1 (by linarith [hy.1])).deriv]
        refine div_nonpos_of_nonpos_of_nonneg ?_ (hden y (by linarith [hy.1])).le
        refine mul_nonpos_of_nonneg_of_nonpos (by linarith) (mul_nonpos_of_nonneg_of_nonpos (by linarith [hy.1]) ?_)
        have := mul_le_mul_of_nonneg_left hy.2.le (by linarith : 0 ≤ g + 1)
        linarith
    exact hanti ⟨hx, h⟩ ⟨hm, le_rfl⟩ h
  · have hmono : MonotoneOn (slopeLog g) (Set.Ici (slopeMin g)) := by
      refine monotoneOn_of_deriv_nonneg (convex_Ici _) ?_ ?_ ?_
      · exact fun y hy => (slopeLog_hasDerivAt hg1 (lt_of_lt_of_le one_pos (hm.trans hy))).continuousAt.continuousWithinAt
      · intro y hy
        rw [interior_Ici] at hy
        exact (slopeLog_hasDerivAt hg1 (lt_of_lt_of_le one_pos (hm.trans (le_of_lt hy)))).differentiableAt.differentiableWithinAt
      · intro y hy
        rw [interior_Ici] at hy
        have hy' : slopeMin g < y := hy
        have hy1 : 1 ≤ y := hm.trans hy'.le
        rw [(slopeLog_hasDerivAt hg1 (by linarith)).deriv]
        refine div_nonneg ?_ (hden y (by linarith)).le
        refine mul_nonneg (by linarith) (mul_nonneg (by linarith) ?_)
        have := mul_le_mul_of_nonneg_left hy'.le (by linarith : 0 ≤ g + 1)
        linarith
    exact hmono (Set.mem_Ici.2 le_rfl) (Set.mem_Ici.2 h) h

/-- Bernoulli. -/
theorem rpow_inv_ge {g s x : ℝ} (hg : 1 < g) (hs : 0 < s) (hx : 0 < x) :
    s ^ (1 / g) * (g * x / (s + (g - 1) * x)) ≤ x ^ (1 / g) := by
  have hg0 : 0 < g := by linarith
  have hsx : 0 < s / x := by positivity
  have hb := rpow_one_add_le_one_add_mul_self (s := s / x - 1) (by linarith)
    (p := 1 / g) (by positivity) (by rw [div_le_one hg0]; linarith)
  rw [add_sub_cancel, Real.div_rpow hs.le hx.le] at hb
  have hxp : 0 < x ^ (1 / g) := Real.rpow_pos_of_pos hx _
  have hpos : 0 < s + (g - 1) * x := by
    have : 0 < (g - 1) * x := mul_pos (by linarith) hx
    linarith
  have e : 1 + 1 / g * (s / x - 1) = (s + (g - 1) * x) / (g * x) := by field_simp; ring
  rw [e, div_le_iff₀ hxp] at hb
  have h2 := mul_le_mul_of_nonneg_right hb (by positivity : 0 ≤ g * x / (s + (g - 1) * x))
  refine h2.trans (le_of_eq ?_)
  field_simp

/-- The square of the relative slope at the minimum. -/
theorem slopeLog_min_eq {g : ℝ} (hg : 5 / 3 ≤ g) :
    2 * slopeLog g (slopeMin g) =
      Real.log ((3 * g - 1) ^ 3 * slopeMin g ^ (1 / g) / (27 * g * (g - 1) ^ 2 * (g + 1))) := by
  have hm : 0 < slopeMin g := lt_of_lt_of_le one_pos (one_le_slopeMin hg)
  have h1 : 0 < g - 1 := by linarith
  have h3 : 0 < 3 * g - 1 := by linarith
  have h0 : 0 < g := by linarith
  have hp : 0 < g + 1 := by linarith
  have hmul : (g + 1) * slopeMin g = (3 * g - 1) * (g - 1) := by unfold slopeMin; field_simp
  have eN : (g + 1) * slopeMin g + (3 * g - 1) = g * (3 * g - 1) := by rw [hmul]; ring
  have eD : (g + 1) * slopeMin g + (g - 1) = 3 * g * (g - 1) := by rw [hmul]; ring
  unfold slopeLog
  rw [eN, eD]
  have hlm : Real.log (slopeMin g) = Real.log (3 * g - 1) + Real.log (g - 1) - Real.log (g + 1) := by
    unfold slopeMin
    rw [Real.log_div (by positivity) hp.ne', Real.log_mul h3.ne' h1.ne']
  have hr : 0 < slopeMin g ^ (1 / g) := Real.rpow_pos_of_pos hm _
  have e1 : Real.log (27 * g * (g - 1) ^ 2 * (g + 1)) =
      3 * Real.log 3 + Real.log g + 2 * Real.log (g - 1) + Real.log (g + 1) := by
    rw [Real.log_mul (by positivity) hp.ne', Real.log_mul (by positivity) (by positivity),
      Real.log_mul (by norm_num) h0.ne', Real.log_pow, show (27 : ℝ) = 3 ^ 3 by norm_num, Real.log_pow]
    push_cast; ring
  have e2 : Real.log (g * (3 * g - 1)) = Real.log g + Real.log (3 * g - 1) := Real.log_mul h0.ne' h3.ne'
  have e3 : Real.log (3 * g * (g - 1)) = Real.log 3 + Real.log g + Real.log (g - 1) := by
    rw [Real.log_mul (by positivity) h1.ne', Real.log_mul (by norm_num) h0.ne']
  rw [Real.log_div (by positivity) (by positivity), Real.log_mul (by positivity) hr.ne', Real.log_pow,
    Real.log_rpow hm, e1, e2, e3, hlm]
  push_cast
  field_simp
  ring

/-- The algebraic heart: `c(γ)²` is below the square of the relative slope at its minimum. -/
theorem cSq_le_min {g : ℝ} (hg : 5 / 3 ≤ g) :
    max (1 / 2) (min 1 (min ((3 * g + 11) / (6 * g + 6)) (5 / 6 + cSlope * (g - 3)))) *
      (54 * (g - 1) ^ 2 * (g + 1)) ≤ (3 * g - 1) ^ 3 * slopeMin g ^ (1 / g) := by
  have h1 : 0 < g - 1 := by linarith
  have h3 : 0 < 3 * g - 1 := by linarith
  have h0 : 0 < g := by linarith
  have hp : 0 < g + 1 := by linarith
  have hm1 := one_le_slopeMin hg
  have hm : 0 < slopeMin g := lt_of_lt_of_le one_pos hm1
  have hW : 0 < 54 * (g - 1) ^ 2 * (g + 1) := by positivity
  have hmge : (1 : ℝ) ≤ slopeMin g ^ (1 / g) := Real.one_le_rpow hm1 (by positivity)
  have half : 1 / 2 * (54 * (g - 1) ^ 2 * (g + 1)) ≤ (3 * g - 1) ^ 3 * slopeMin g ^ (1 / g) := by
    have : 1 / 2 * (54 * (g - 1) ^ 2 * (g + 1)) ≤ (3 * g - 1) ^ 3 := by nlinarith [mul_pos h1 h1]
    have h4 : (3 * g - 1) ^ 3 * 1 ≤ (3 * g - 1) ^ 3 * slopeMin g ^ (1 / g) :=
      mul_le_mul_of_nonneg_left hmge (by positivity)
    linarith
  -- Bernoulli with a parameter
  have bern : ∀ s k : ℝ, 0 < s → 0 ≤ k → k ≤ s ^ (1 / g) →
      k * ((3 * g - 1) ^ 4 * (g * (g - 1))) ≤
        (3 * g - 1) ^ 3 * slopeMin g ^ (1 / g) * (s * (g + 1) + (g - 1) * ((3 * g - 1) * (g - 1))) := by
    intro s k hs hk hks
    have hb := rpow_inv_ge (by linarith : 1 < g) hs hm
    have hd : 0 < s + (g - 1) * slopeMin g := by positivity
    have e : g * slopeMin g / (s + (g - 1) * slopeMin g) =
        g * ((3 * g - 1) * (g - 1)) / (s * (g + 1) + (g - 1) * ((3 * g - 1) * (g - 1))) := by
      unfold slopeMin
      field_simp
    rw [e] at hb
    have hq : 0 < s * (g + 1) + (g - 1) * ((3 * g - 1) * (g - 1)) := by positivity
    have h5 : k * (g * ((3 * g - 1) * (g - 1)) / (s * (g + 1) + (g - 1) * ((3 * g - 1) * (g - 1)))) ≤
        slopeMin g ^ (1 / g) := le_trans (mul_le_mul_of_nonneg_right hks (by positivity)) hb
    rw [← mul_div_assoc, div_le_iff₀ hq] at h5
    have h6 := mul_le_mul_of_nonneg_left h5 (by positivity : 0 ≤ (3 * g - 1) ^ 3)
    nlinarith [h6]
  rw [max_mul_of_nonneg _ _ hW.le]
  refine max_le half ?_
  have cancel : ∀ s A : ℝ, 0 < s → A * (s * (g + 1) + (g - 1) * ((3 * g - 1) * (g - 1))) ≤
      (3 * g - 1) ^ 3 * slopeMin g ^ (1 / g) * (s * (g + 1) + (g - 1) * ((3 * g - 1) * (g - 1))) →
      A ≤ (3 * g - 1) ^ 3 * slopeMin g ^ (1 / g) := by
    intro s A hs h
    exact le_of_mul_le_mul_right h (by positivity)
  have hfirst : min 1 (min ((3 * g + 11) / (6 * g + 6)) (5 / 6 + cSlope * (g - 3))) * (54 * (g - 1) ^ 2 * (g + 1)) ≤
      9 * (g - 1) ^ 2 * (3 * g + 11) := by
    have := mul_le_mul_of_nonneg_right ((min_le_right 1 _).trans (min_le_left ((3 * g + 11) / (6 * g + 6))
      (5 / 6 + cSlope * (g - 3)))) hW.le
    refine this.trans (le_of_eq ?_)
    rw [show 6 * g + 6 = 6 * (g + 1) by ring]
    field_simp
    ring
  have hsecond : min 1 (min ((3 * g + 11) / (6 * g + 6)) (5 / 6 + cSlope * (g - 3))) * (54 * (g - 1) ^ 2 * (g + 1)) ≤
      (5 / 6 + cSlope * (g - 3)) * (54 * (g - 1) ^ 2 * (g + 1)) :=
    mul_le_mul_of_nonneg_right ((min_le_right 1 _).trans (min_le_right _ _)) hW.le
  rcases le_total g (9 / 4) with ha | ha
  · -- s = 1
    refine hfirst.trans (cancel 1 _ one_pos (le_trans ?_ (bern 1 1 one_pos zero_le_one (by rw [Real.one_rpow]))))
    have key : 0 ≤ (3 * g - 1) ^ 4 * g - 9 * (g - 1) * (3 * g + 11) * ((g + 1) + (g - 1) ^ 2 * (3 * g - 1)) := by
      obtain ⟨t, rfl⟩ : ∃ t, g = 5 / 3 + t := ⟨g - 5 / 3, by ring⟩
      have ht0 : 0 ≤ t := by linarith
      have ht1 : t ≤ 7 / 12 := by linarith
      have e : (3 * (5 / 3 + t) - 1) ^ 4 * (5 / 3 + t) - 9 * (5 / 3 + t - 1) * (3 * (5 / 3 + t) + 11) *
          ((5 / 3 + t + 1) + (5 / 3 + t - 1) ^ 2 * (3 * (5 / 3 + t) - 1)) =
          t * (80 + 78 * t - 207 * t ^ 2 - 135 * t ^ 3) := by ring
      rw [e]
      refine mul_nonneg ht0 ?_
      nlinarith [mul_nonneg ht0 (sub_nonneg.2 ht1), mul_nonneg (mul_nonneg ht0 ht0) (sub_nonneg.2 ht1)]
    nlinarith [mul_nonneg h1.le key]
  rcases le_total g 3 with hb | hb
  · -- s = 2
    have hk : (12599 / 10000 : ℝ) ≤ 2 ^ (1 / g) := by
      have h6 : (12599 / 10000 : ℝ) ≤ 2 ^ (1 / 3 : ℝ) := by
        have : (12599 / 10000 : ℝ) = ((12599 / 10000) ^ (3 : ℝ)) ^ (1 / 3 : ℝ) := by
          rw [← Real.rpow_mul (by norm_num)]; norm_num
        rw [this]
        apply Real.rpow_le_rpow (by positivity) _ (by norm_num)
        norm_num
      refine h6.trans (Real.rpow_le_rpow_of_exponent_le (by norm_num) ?_)
      rw [div_le_div_iff₀ (by norm_num) h0]; linarith
    refine hfirst.trans (cancel 2 _ two_pos (le_trans ?_ (bern 2 _ two_pos (by norm_num) hk)))
    have key : 0 ≤ 12599 / 10000 * (3 * g - 1) ^ 4 * g -
        9 * (g - 1) * (3 * g + 11) * (2 * (g + 1) + (g - 1) ^ 2 * (3 * g - 1)) := by
      obtain ⟨t, rfl⟩ : ∃ t, g = 9 / 4 + t := ⟨g - 9 / 4, by ring⟩
      have ht0 : 0 ≤ t := by linarith
      have ht1 : t ≤ 3 / 4 := by linarith
      nlinarith [mul_nonneg ht0 (sub_nonneg.2 ht1), mul_nonneg (mul_nonneg ht0 ht0) (sub_nonneg.2 ht1),
        mul_nonneg (mul_nonneg (mul_nonneg ht0 ht0) ht0) (sub_nonneg.2 ht1), pow_nonneg ht0 5, pow_nonneg ht0 4,
        pow_nonneg ht0 3, pow_nonneg ht0 2]
    nlinarith [mul_nonneg h1.le key]
  have hslope : 5 / 6 + cSlope * (g - 3) ≤ 5 / 6 := by
    have : cSlope * (g - 3) ≤ 0 := mul_nonpos_of_nonpos_of_nonneg (by norm_num [cSlope]) (by linarith)
    linarith
  rcases le_total g 4 with hc | hc
  · -- s = 4
    have hk : (1414 / 1000 : ℝ) ≤ 4 ^ (1 / g) := by
      have h6 : (1414 / 1000 : ℝ) ≤ 4 ^ (1 / 4 : ℝ) := by
        have : (1414 / 1000 : ℝ) = ((1414 / 1000) ^ (4 : ℝ)) ^ (1 / 4 : ℝ) := by
          rw [← Real.rpow_mul (by norm_num)]; norm_num
        rw [this]
        apply Real.rpow_le_rpow (by positivity) _ (by norm_num)
        norm_num
      refine h6.trans (Real.rpow_le_rpow_of_exponent_le (by norm_num) ?_)
      rw [div_le_div_iff₀ (by norm_num) h0]; linarith
    refine hsecond.trans (le_trans (mul_le_mul_of_nonneg_right hslope hW.le)
      (cancel 4 _ (by norm_num) (le_trans ?_ (bern 4 _ (by norm_num) (by norm_num) hk))))
    have key : 0 ≤ 1414 / 1000 * (3 * g - 1) ^ 4 * g -
        45 * (g - 1) * (g + 1) * (4 * (g + 1) + (g - 1) ^ 2 * (3 * g - 1)) := by
      obtain ⟨t, rfl⟩ : ∃ t, g = 3 + t := ⟨g - 3, by ring⟩
      have ht0 : 0 ≤ t := by linarith
      have ht1 : t ≤ 1 := by linarith
      nlinarith [mul_nonneg ht0 (sub_nonneg.2 ht1), mul_nonneg (mul_nonneg ht0 ht0) (sub_nonneg.2 ht1),
        mul_nonneg (mul_nonneg (mul_nonneg ht0 ht0) ht0) (sub_nonneg.2 ht1),
        mul_nonneg (mul_nonneg (mul_nonneg (mul_nonneg ht0 ht0) ht0) ht0) (sub_nonneg.2 ht1), pow_nonneg ht0 5,
        pow_nonneg ht0 4, pow_nonneg ht0 3, pow_nonneg ht0 2]
    nlinarith [mul_nonneg h1.le key]
  · -- the cut-off
    refine hsecond.trans (le_trans (mul_le_mul_of_nonneg_right ?_ hW.le) half)
    have : cSlope * (g - 3) ≤ cSlope * 1 := mul_le_mul_of_nonpos_left (by linarith) (by norm_num [cSlope])
    have h7 : cSlope ≤ -(1 / 3) := by norm_num [cSlope]
    linarith

theorem cGamma_pos (g : ℝ) : 0 < cGamma g := Real.sqrt_pos.2 (lt_max_of_lt_left (by norm_num))

theorem cGamma_le_one (g : ℝ) : cGamma g ≤ 1 := by
  unfold cGamma
  exact Real.sqrt_le_one.2 (max_le (by norm_num) (min_le_left _ _))

/-- Slope bound in logarithmic form. -/
theorem cGamma_slope {g x : ℝ} (hg : 1 < g) (hx : 1 ≤ x) :
    Real.log (cGamma g) + (Real.log (4 * g) - 3 / 2 * Real.log (2 * g)) ≤ slopeLog g x := by
  have h0 : 0 < g := by linarith
  rcases le_total g (5 / 3) with h | h
  · have h1 : Real.log (cGamma g) ≤ 0 := Real.log_nonpos (cGamma_pos g).le (cGamma_le_one g)
    have h2 := Euler.shock_slope_ge hg h hx
    unfold slopeLog
    linarith
  · refine le_trans ?_ (slopeLog_ge_min h hx)
    have e := slopeLog_min_eq h
    have h1 : 0 < g - 1 := by linarith
    have hp : 0 < g + 1 := by linarith
    have hC : Real.log (cGamma g) = 1 / 2 * Real.log (max (1 / 2) (min 1 (min ((3 * g + 11) / (6 * g + 6))
        (5 / 6 + cSlope * (g - 3))))) := by
      unfold cGamma
      rw [Real.log_sqrt (le_max_of_le_left (by norm_num))]
      ring
    have key := cSq_le_min h
    set C := max (1 / 2) (min 1 (min ((3 * g + 11) / (6 * g + 6)) (5 / 6 + cSlope * (g - 3)))) with hCdef
    have hCpos : 0 < C := lt_max_of_lt_left (by norm_num)
    have hlog : Real.log (C * (2 / g)) ≤ 2 * slopeLog g (slopeMin g) := by
      rw [e]
      apply Real.log_le_log (by positivity)
      rw [le_div_iff₀ (by positivity)]
      refine le_trans (le_of_eq ?_) key
      field_simp
      ring
    rw [Real.log_mul hCpos.ne' (by positivity), Real.log_div (by norm_num) h0.ne'] at hlog
    rw [hC, Real.log_mul (by norm_num) h0.ne', Real.log_mul (by norm_num) h0.ne', show (4 : ℝ) = 2 ^ 2 by norm_num,
      Real.log_pow]
    push_cast
    linarith

/-- The normalised shock curve lies above the normalised rarefaction curve scaled by `c(γ)`, for all `γ > 1`. -/
theorem shock_ge_scaled_rarefaction {g x : ℝ} (hg1 : 1 < g) (hx : 1 ≤ x) :
    cGamma g * (2 / (g - 1) * (x ^ ((g - 1) / (2 * g)) - 1)) ≤
      √(2 / g) * ((x - 1) * ((g + 1) * x + (g - 1)) ^ (-(1 / 2) : ℝ)) := by
  have hcp := cGamma_pos g
  have hslope := fun (x : ℝ) (hx : 1 ≤ x) => cGamma_slope hg1 hx
  generalize cGamma g = C at *
  set G : ℝ → ℝ := fun x => √(2 / g) * ((x - 1) * ((g + 1) * x + (g - 1)) ^ (-(1 / 2) : ℝ)) -
    C * (2 / (g - 1) * (x ^ ((g - 1) / (2 * g)) - 1)) with hG
  have hD : ∀ x : ℝ, 1 ≤ x → 0 < (g + 1) * x + (g - 1) := fun x hx => by nlinarith
  have hA : ∀ x : ℝ, 1 ≤ x → 0 < (g + 1) * x + (3 * g - 1) := fun x hx => by nlinarith
  have hg0 : g ≠ 0 := by linarith
  have hg1' : g - 1 ≠ 0 := by linarith
  have hder : ∀ x : ℝ, 1 ≤ x → HasDerivAt G
      (√(2 / g) * (1 / 2 * ((g + 1) * x + (3 * g - 1)) * ((g + 1) * x + (g - 1)) ^ (-(3 / 2) : ℝ)) -
        C * (1 / g * x ^ (-((g + 1) / (2 * g))))) x := by
    intro x hx
    have d2 : HasDerivAt (fun x : ℝ => (g + 1) * x + (g - 1)) (g + 1) x := by
      simpa using ((hasDerivAt_id x).const_mul (g + 1)).add_const (g - 1)
    have d3 := d2.rpow_const (p := -(1 / 2)) (Or.inl (hD x hx).ne')
    have d4 := ((hasDerivAt_id x).sub_const 1).mul d3
    have d5 := (hasDerivAt_id x).rpow_const (p := (g - 1) / (2 * g)) (Or.inl (by simp; linarith))
    have d6 := (d4.const_mul √(2 / g)).sub (((d5.sub_const 1).const_mul (2 / (g - 1))).const_mul C)
    refine d6.congr_deriv ?_
    simp only [id]
    have e1 : ((g + 1) * x + (g - 1)) ^ (-(1 / 2) : ℝ) =
        ((g + 1) * x + (g - 1)) * ((g + 1) * x + (g - 1)) ^ (-(3 / 2) : ℝ) := by
      rw [← Real.rpow_one_add' (hD x hx).le (by norm_num)]
      norm_num
    have e2 : (-(1 / 2) : ℝ) - 1 = -(3 / 2) := by norm_num
    have e3 : (g - 1) / (2 * g) - 1 = -((g + 1) / (2 * g)) := by field_simp; ring
    rw [e2, e1, e3]
    have e4 : 2 / (g - 1) * (1 * ((g - 1) / (2 * g)) * x ^ (-((g + 1) / (2 * g)))) =
        1 / g * x ^ (-((g + 1) / (2 * g))) := by field_simp
    rw [e4]
    ring
  have hmono : MonotoneOn G (Set.Ici 1) := by
    refine monotoneOn_of_deriv_nonneg (convex_Ici 1) ?_ ?_ ?_
    · exact fun x hx => (hder x hx).continuousAt.continuousWithinAt
    · intro x hx
      rw [interior_Ici] at hx
      exact (hder x hx.le).differentiableAt.differentiableWithinAt
    · intro x hx
      rw [interior_Ici] at hx
      have hx1 : (1 : ℝ) < x := hx
      rw [(hder x hx1.le).deriv]
      have hs := hslope x hx1.le
      unfold slopeLog at hs
      have h2g : (0 : ℝ) < 2 * g := by linarith
      have hexp := Real.exp_le_exp.2 hs
      have hx0 : 0 < x := by linarith
      have eL : Real.exp (Real.log C + (Real.log (4 * g) - 3 / 2 * Real.log (2 * g))) =
          C * (4 * g * (2 * g) ^ (-(3 / 2) : ℝ)) := by
        rw [Real.exp_add, Real.exp_log hcp, sub_eq_add_neg, Real.exp_add, Real.exp_log (by linarith),
          Real.rpow_def_of_pos h2g]
        congr 3; ring
      have eR : Real.exp (Real.log ((g + 1) * x + (3 * g - 1)) - 3 / 2 * Real.log ((g + 1) * x + (g - 1)) +
          (g + 1) / (2 * g) * Real.log x) =
          ((g + 1) * x + (3 * g - 1)) * ((g + 1) * x + (g - 1)) ^ (-(3 / 2) : ℝ) * x ^ ((g + 1) / (2 * g)) := by
        rw [sub_eq_add_neg, Real.exp_add, Real.exp_add, Real.exp_log (hA x hx1.le),
          Real.rpow_def_of_pos (hD x hx1.le), Real.rpow_def_of_pos hx0]
        congr 2
        · congr 1; ring
        · ring
      rw [eL, eR] at hexp
      have hc : √(2 / g) * (1 / 2) * (C * (4 * g * (2 * g) ^ (-(3 / 2) : ℝ))) = C * (1 / g) := by
        have e1 : (2 * g) ^ (-(3 / 2) : ℝ) = 1 / (2 * g * √(2 * g)) := by
          rw [Real.rpow_neg h2g.le, show (3 / 2 : ℝ) = 1 + 1 / 2 by norm_num, Real.rpow_add h2g, Real.rpow_one,
            ← Real.sqrt_eq_rpow, one_div]
        have e2 : √(2 / g) = √(2 * g) / g := by
          rw [show 2 / g = 2 * g / g ^ 2 by field_simp, Real.sqrt_div h2g.le, Real.sqrt_sq (by linarith)]
        rw [e1, e2]
        have h3 : √(2 * g) ≠ 0 := (Real.sqrt_pos.2 h2g).ne'
        field_simp
        norm_num
      have hxinv : x ^ (-((g + 1) / (2 * g))) * x ^ ((g + 1) / (2 * g)) = 1 := by
        rw [← Real.rpow_add hx0, neg_add_cancel, Real.rpow_zero]
      have hxp : 0 < x ^ (-((g + 1) / (2 * g))) := Real.rpow_pos_of_pos hx0 _
      have hk : 0 ≤ √(2 / g) * (1 / 2) := by positivity
      have h5 := mul_le_mul_of_nonneg_left hexp hk
      rw [hc] at h5
      have h6 := mul_le_mul_of_nonneg_right h5 hxp.le
      have e7 : √(2 / g) * (1 / 2) * (((g + 1) * x + (3 * g - 1)) * ((g + 1) * x + (g - 1)) ^ (-(3 / 2) : ℝ) *
          x ^ ((g + 1) / (2 * g))) * x ^ (-((g + 1) / (2 * g))) =
          √(2 / g) * (1 / 2 * ((g + 1) * x + (3 * g - 1)) * ((g + 1) * x + (g - 1)) ^ (-(3 / 2) : ℝ)) := by
        linear_combination (√(2 / g) * (1 / 2) * (((g + 1) * x + (3 * g - 1)) *
          ((g + 1) * x + (g - 1)) ^ (-(3 / 2) : ℝ))) * hxinv
      rw [e7] at h6
      linarith
  have h1 := hmono (Set.mem_Ici.2 le_rfl) (Set.mem_Ici.2 hx) hx
  have e1 : G 1 = 0 := by simp [hG]
  rw [e1] at h1
  simp only [hG] at h1
  linarith

/-- The shock part of a wave curve lies above the scaled rarefaction curve. -/
theorem gasWave_ge_scaled {g rho pK p : ℝ} (hg : 1 < g) (hr : 0 < rho) (hK : 0 < pK) (hp : pK ≤ p) :
    cGamma g * (2 * Spec.gasSound g rho pK / (g - 1)) * ((p / pK) ^ ((g - 1) / (2 * g)) - 1) ≤
      Spec.gasWave g rho pK p := by
  rw [Euler.gasWave_shock hp hK]
  have hx : 1 ≤ p / pK := by rw [le_div_iff₀ hK]; linarith
  have hs := shock_ge_scaled_rarefaction hg hx
  have ha : 0 ≤ Spec.gasSound g rho pK := Real.sqrt_nonneg _
  have hm := mul_le_mul_of_nonneg_left hs ha
  have h1 : 0 < g + 1 := by linarith
  have h0 : 0 < g := by linarith
  have hD : 0 < (g + 1) * (p / pK) + (g - 1) := by nlinarith
  have e : (p - pK) * √(2 / ((g + 1) * rho) / (p + (g - 1) / (g + 1) * pK)) =
      Spec.gasSound g rho pK *
        (√(2 / g) * ((p / pK - 1) * ((g + 1) * (p / pK) + (g - 1)) ^ (-(1 / 2) : ℝ))) := by
    rw [Real.rpow_neg hD.le, ← Real.sqrt_eq_rpow, ← Real.sqrt_inv]
    unfold Spec.gasSound
    have e1 : √(g * pK / rho) * (√(2 / g) * ((p / pK - 1) * √((g + 1) * (p / pK) + (g - 1))⁻¹)) =
        (p / pK - 1) * √(g * pK / rho * (2 / g) * ((g + 1) * (p / pK) + (g - 1))⁻¹) := by
      rw [Real.sqrt_mul (by positivity), Real.sqrt_mul (by positivity)]
      ring
    rw [e1]
    have e2 : p - pK = (p / pK - 1) * pK := by field_simp
    rw [e2, mul_assoc]
    congr 1
    nth_rewrite 1 [← Real.sqrt_sq hK.le]
    rw [← Real.sqrt_mul (sq_nonneg _)]
    congr 1
    have e3 : p + (g - 1) / (g + 1) * pK = pK / (g + 1) * ((g + 1) * (p / pK) + (g - 1)) := by
      field_simp
    rw [e3]
    generalize (g + 1) * (p / pK) + (g - 1) = D at hD
    field_simp
  rw [e]
  refine le_trans (le_of_eq ?_) hm
  ring

end Aeos
end Ryujin
