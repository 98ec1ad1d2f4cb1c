import Verif.Model.Newton
import Verif.Spec.ThreeConvex
import Mathlib.Analysis.Calculus.Deriv.MeanValue
import Mathlib.Analysis.Calculus.Deriv.Pow
import Mathlib.Analysis.Calculus.Deriv.Add
import Mathlib.Analysis.Calculus.Deriv.Mul
import Mathlib.Analysis.Convex.Slope
import Mathlib.Tactic.Linarith
import Mathlib.Tactic.Ring
import Mathlib.Tactic.FieldSimp
import Mathlib.Tactic.Positivity
import Mathlib.Tactic.LinearCombination

namespace Ryujin

theorem newtonClamp_mem {p1 p2 : ℝ} (h : p1 ≤ p2) (t : ℝ) :
    p1 ≤ newtonClamp p1 p2 t ∧ newtonClamp p1 p2 t ≤ p2 := by
  unfold newtonClamp
  exact ⟨le_min h (le_max_left _ _), min_le_left _ _⟩

theorem newtonClamp_of_mem {p1 p2 t : ℝ} (h1 : p1 ≤ t) (h2 : t ≤ p2) : newtonClamp p1 p2 t = t := by
  unfold newtonClamp
  rw [max_eq_right h1, min_eq_right h2]

/-- Core one-sided interpolation error estimate: if `g` vanishes doubly at `a` and at `b` and its
derivative is convex, then `g ≤ 0` on `[a, b]`. -/
theorem nonpos_of_convex_deriv {a b : ℝ} (hab : a < b) {g g' : ℝ → ℝ}
    (hd : ∀ t ∈ Set.Icc a b, HasDerivAt g (g' t) t) (hc : ConvexOn ℝ (Set.Icc a b) g')
    (ga : g a = 0) (g'a : g' a = 0) (gb : g b = 0) {c : ℝ} (hc1 : c ∈ Set.Icc a b) : g c ≤ 0 := by
  by_contra hpos
  push Not at hpos
  have hac : a < c := lt_of_le_of_ne hc1.1 (by rintro rfl; rw [ga] at hpos; exact lt_irrefl _ hpos)
  have hcb : c < b := lt_of_le_of_ne hc1.2 (by rintro rfl; rw [gb] at hpos; exact lt_irrefl _ hpos)
  have hcont : ContinuousOn g (Set.Icc a b) := fun t ht => (hd t ht).continuousAt.continuousWithinAt
  obtain ⟨x, hx, hxe⟩ := exists_hasDerivAt_eq_slope g g' hac
    (hcont.mono (Set.Icc_subset_Icc le_rfl hcb.le))
    (fun t ht => hd t ⟨ht.1.le, ht.2.le.trans hcb.le⟩)
  obtain ⟨y, hy, hye⟩ := exists_hasDerivAt_eq_slope g g' hcb
    (hcont.mono (Set.Icc_subset_Icc hac.le le_rfl))
    (fun t ht => hd t ⟨hac.le.trans ht.1.le, ht.2.le⟩)
  have hxpos : 0 < g' x := by
    rw [hxe, ga, sub_zero]; exact div_pos hpos (sub_pos.2 hac)
  have hyneg : g' y < 0 := by
    rw [hye, gb]; exact div_neg_of_neg_of_pos (by linarith) (sub_pos.2 hcb)
  have hxy : x < y := hx.2.trans hy.1
  have hs := hc.slope_mono_adjacent (x := a) (y := x) (z := y) ⟨le_rfl, hab.le⟩
    ⟨(hac.trans hy.1).le, hy.2.le⟩ hx.1 hxy
  rw [g'a, sub_zero] at hs
  have h1 : 0 < g' x / (x - a) := div_pos hxpos (sub_pos.2 hx.1)
  have h2 : (g' y - g' x) / (y - x) < 0 := div_neg_of_neg_of_pos (by linarith) (sub_pos.2 hxy)
  linarith

/-- Mirror image: `g` vanishes at `a` and doubly at `b`; convex derivative gives `0 ≤ g`. -/
theorem nonneg_of_convex_deriv {a b : ℝ} (hab : a < b) {g g' : ℝ → ℝ}
    (hd : ∀ t ∈ Set.Icc a b, HasDerivAt g (g' t) t) (hc : ConvexOn ℝ (Set.Icc a b) g')
    (ga : g a = 0) (g'b : g' b = 0) (gb : g b = 0) {c : ℝ} (hc1 : c ∈ Set.Icc a b) : 0 ≤ g c := by
  by_contra hpos
  push Not at hpos
  have hac : a < c := lt_of_le_of_ne hc1.1 (by rintro rfl; rw [ga] at hpos; exact lt_irrefl _ hpos)
  have hcb : c < b := lt_of_le_of_ne hc1.2 (by rintro rfl; rw [gb] at hpos; exact lt_irrefl _ hpos)
  have hcont : ContinuousOn g (Set.Icc a b) := fun t ht => (hd t ht).continuousAt.continuousWithinAt
  obtain ⟨x, hx, hxe⟩ := exists_hasDerivAt_eq_slope g g' hac
    (hcont.mono (Set.Icc_subset_Icc le_rfl hcb.le))
    (fun t ht => hd t ⟨ht.1.le, ht.2.le.trans hcb.le⟩)
  obtain ⟨y, hy, hye⟩ := exists_hasDerivAt_eq_slope g g' hcb
    (hcont.mono (Set.Icc_subset_Icc hac.le le_rfl))
    (fun t ht => hd t ⟨hac.le.trans ht.1.le, ht.2.le⟩)
  have hxneg : g' x < 0 := by
    rw [hxe, ga, sub_zero]; exact div_neg_of_neg_of_pos hpos (sub_pos.2 hac)
  have hypos : 0 < g' y := by
    rw [hye, gb]; exact div_pos (by linarith) (sub_pos.2 hcb)
  have hxy : x < y := hx.2.trans hy.1
  have hs := hc.slope_mono_adjacent (x := x) (y := y) (z := b) ⟨hx.1.le, (hx.2.trans hcb).le⟩
    ⟨hab.le, le_rfl⟩ hxy hy.2
  rw [g'b, zero_sub] at hs
  have h1 : -g' y / (b - y) < 0 := div_neg_of_neg_of_pos (by linarith) (sub_pos.2 hy.2)
  have h2 : 0 < (g' y - g' x) / (y - x) := div_pos (by linarith) (sub_pos.2 hxy)
  linarith

/-- The smallest positive root of a quadratic that is positive at `0` and nonpositive at `h`, in the
form computed by `quadratic_newton_step`. -/
theorem quad_root {A B a h : ℝ} (hA : 0 < A) (hh : 0 < h) (hq : A + B * h + a * h ^ 2 ≤ 0) :
    let s := Real.sqrt |B * B - 4 * A * a|
    let x := -(2 * A / (B - s))
    B - s < 0 ∧ 0 < x ∧ x ≤ h ∧ A + B * x + a * x ^ 2 = 0 ∧
      (∀ y, 0 ≤ y → y < x → 0 < A + B * y + a * y ^ 2) ∧
      (A + B * h + a * h ^ 2 < 0 → ∀ y, x < y → y ≤ h → A + B * y + a * y ^ 2 < 0) := by
  intro s x
  have hD : 0 ≤ B * B - 4 * A * a := by
    rcases le_or_gt a 0 with ha | ha
    · nlinarith [mul_self_nonneg B, mul_nonneg hA.le (neg_nonneg.2 ha)]
    · nlinarith [sq_nonneg (2 * a * h + B)]
  have hs2 : s * s = B * B - 4 * A * a := by
    show Real.sqrt _ * Real.sqrt _ = _
    rw [abs_of_nonneg hD, Real.mul_self_sqrt hD]
  have hs0 : 0 ≤ s := Real.sqrt_nonneg _
  have hden : B - s < 0 := by
    by_contra hcon
    push Not at hcon
    have hB : 0 ≤ B := le_trans hs0 (by linarith)
    have h1 : s * s ≤ B * B := mul_self_le_mul_self hs0 (by linarith)
    have ha : 0 ≤ a := by
      by_contra hneg
      push Not at hneg
      nlinarith [mul_pos hA (neg_pos.2 hneg)]
    nlinarith [mul_nonneg hB hh.le, mul_nonneg ha (sq_nonneg h)]
  have hx : 0 < x := by
    show 0 < -(2 * A / (B - s))
    have : 2 * A / (B - s) < 0 := div_neg_of_pos_of_neg (by linarith) hden
    linarith
  have hxden : x * (B - s) = -(2 * A) := by
    show -(2 * A / (B - s)) * (B - s) = _
    rw [neg_mul, div_mul_cancel₀ _ hden.ne]
  have hfac : ∀ y, 4 * A * (A + B * y + a * y ^ 2)
      = (2 * A + y * (B - s)) * (2 * A + y * (B + s)) := by
    intro y
    have : (2 * A + y * (B - s)) * (2 * A + y * (B + s))
        = 4 * A ^ 2 + 4 * A * B * y + (B * B - s * s) * y ^ 2 := by ring
    rw [this, hs2]; ring
  have hroot : A + B * x + a * x ^ 2 = 0 := by
    have h4 := hfac x
    rw [hxden] at h4
    have : 4 * A * (A + B * x + a * x ^ 2) = 0 := by rw [h4]; ring
    rcases mul_eq_zero.1 this with h5 | h5
    · linarith
    · exact h5
  have hpos : ∀ y, 0 ≤ y → y < x → 0 < A + B * y + a * y ^ 2 := by
    intro y hy0 hyx
    have h1 : 0 < 2 * A + y * (B - s) := by nlinarith
    have h2 : 0 < 2 * A + y * (B + s) := by nlinarith [mul_nonneg hy0 hs0]
    have h3 := mul_pos h1 h2
    rw [← hfac y] at h3
    by_contra hcon
    push Not at hcon
    nlinarith
  refine ⟨hden, hx, ?_, hroot, hpos, ?_⟩
  · by_contra hcon
    push Not at hcon
    exact absurd (hpos h hh.le hcon) (not_lt.2 hq)
  · intro hlt y hxy hyh
    have hy0 : 0 < y := hx.trans hxy
    have f1 : ∀ z, x < z → 2 * A + z * (B - s) < 0 := fun z hz => by nlinarith
    have f2h : 0 < 2 * A + h * (B + s) := by
      by_contra hcon
      push Not at hcon
      have := hfac h
      nlinarith [mul_nonneg_of_nonpos_of_nonpos (f1 h (hxy.trans_le hyh)).le hcon]
    have f2 : 0 < 2 * A + y * (B + s) := by
      by_contra hcon
      push Not at hcon
      have hneg : B + s < 0 := by
        by_contra hc; push Not at hc
        nlinarith [mul_nonneg hy0.le hc]
      nlinarith [mul_nonneg (sub_nonneg.2 hyh) (neg_pos.2 hneg).le]
    have h3 := mul_neg_of_neg_of_pos (f1 y hxy) f2
    rw [← hfac y] at h3
    by_contra hcon
    push Not at hcon
    nlinarith [mul_nonneg hA.le hcon]

/-- With `eps = 0` and `sign = -1` the first candidate is the first root, to the right of `p_1`, of
the quadratic interpolant on `[p_1, p_1, p_2]`. -/
theorem candidate1_spec {p1 p2 phi1 phi2 dphi1 : ℝ} (h12 : p1 < p2) (h1 : 0 < phi1) (h2 : phi2 ≤ 0) :
    let a := newtonDD112 0 p1 p2 phi1 phi2 dphi1
    let t := newtonCandidate 0 (-1) p1 phi1 dphi1 a
    p1 < t ∧ t ≤ p2 ∧ phi1 + dphi1 * (t - p1) + a * (t - p1) ^ 2 = 0 ∧
      (∀ y, p1 ≤ y → y < t → 0 < phi1 + dphi1 * (y - p1) + a * (y - p1) ^ 2) ∧
      phi1 + dphi1 * (p2 - p1) + a * (p2 - p1) ^ 2 = phi2 ∧
      (phi2 < 0 → ∀ y, t < y → y ≤ p2 → phi1 + dphi1 * (y - p1) + a * (y - p1) ^ 2 < 0) := by
  intro a t
  have hh : 0 < p2 - p1 := sub_pos.2 h12
  have hq : phi1 + dphi1 * (p2 - p1) + a * (p2 - p1) ^ 2 = phi2 := by
    show phi1 + dphi1 * (p2 - p1) + newtonDD112 0 p1 p2 phi1 phi2 dphi1 * (p2 - p1) ^ 2 = phi2
    simp only [newtonDD112, newtonScaling, add_zero]
    field_simp
    ring
  have hr := quad_root (A := phi1) (B := dphi1) (a := a) h1 hh (by rw [hq]; exact h2)
  obtain ⟨hden, hx0, hxh, hroot, hpos, hneg⟩ := hr
  have ht : t = p1 + -(2 * phi1 / (dphi1 - Real.sqrt |dphi1 * dphi1 - 4 * phi1 * a|)) := by
    show newtonCandidate 0 (-1) p1 phi1 dphi1 a = _
    simp only [newtonCandidate, maskLt]
    rw [if_neg (not_lt.2 (abs_nonneg _))]
    have : dphi1 + -1 * Real.sqrt |dphi1 * dphi1 - 4 * phi1 * a|
        = dphi1 - Real.sqrt |dphi1 * dphi1 - 4 * phi1 * a| := by ring
    rw [this]; ring
  set x := -(2 * phi1 / (dphi1 - Real.sqrt |dphi1 * dphi1 - 4 * phi1 * a|)) with hxdef
  have htx : t - p1 = x := by rw [ht]; ring
  refine ⟨by linarith, by linarith, ?_, ?_, hq, ?_⟩
  · rw [htx]; exact hroot
  · intro y hy hyt
    exact hpos (y - p1) (by linarith) (by linarith)
  · intro h3 y hy hyt
    exact hneg (by rw [hq]; exact h3) (y - p1) (by linarith) (by linarith)

/-- With `eps = 0` and `sign = -1` the second candidate is the first root, to the left of `p_2`, of
the quadratic interpolant on `[p_1, p_2, p_2]`. -/
theorem candidate2_spec {p1 p2 phi1 phi2 dphi2 : ℝ} (h12 : p1 < p2) (h1 : 0 ≤ phi1) (h2 : phi2 < 0) :
    let a := newtonDD122 0 p1 p2 phi1 phi2 dphi2
    let t := newtonCandidate 0 (-1) p2 phi2 dphi2 a
    p1 ≤ t ∧ t < p2 ∧ phi2 + dphi2 * (t - p2) + a * (t - p2) ^ 2 = 0 ∧
      (∀ y, t < y → y ≤ p2 → phi2 + dphi2 * (y - p2) + a * (y - p2) ^ 2 < 0) ∧
      phi2 + dphi2 * (p1 - p2) + a * (p1 - p2) ^ 2 = phi1 := by
  intro a t
  have hh : 0 < p2 - p1 := sub_pos.2 h12
  have hq : phi2 + dphi2 * (p1 - p2) + a * (p1 - p2) ^ 2 = phi1 := by
    show phi2 + dphi2 * (p1 - p2) + newtonDD122 0 p1 p2 phi1 phi2 dphi2 * (p1 - p2) ^ 2 = phi1
    simp only [newtonDD122, newtonScaling, add_zero]
    have hne : p2 - p1 ≠ 0 := hh.ne'
    field_simp
    ring
  have hr := quad_root (A := -phi2) (B := dphi2) (a := -a) (by linarith) hh
    (by nlinarith [hq])
  obtain ⟨hden, hx0, hxh, hroot, hpos, hneg⟩ := hr
  have ht : t = p2 - -(2 * -phi2 / (dphi2 - Real.sqrt |dphi2 * dphi2 - 4 * -phi2 * -a|)) := by
    show newtonCandidate 0 (-1) p2 phi2 dphi2 a = _
    simp only [newtonCandidate, maskLt]
    rw [if_neg (not_lt.2 (abs_nonneg _))]
    have h3 : dphi2 * dphi2 - 4 * -phi2 * -a = dphi2 * dphi2 - 4 * phi2 * a := by ring
    have : dphi2 + -1 * Real.sqrt |dphi2 * dphi2 - 4 * phi2 * a|
        = dphi2 - Real.sqrt |dphi2 * dphi2 - 4 * phi2 * a| := by ring
    rw [this, h3]; ring
  set x := -(2 * -phi2 / (dphi2 - Real.sqrt |dphi2 * dphi2 - 4 * -phi2 * -a|)) with hxdef
  have htx : t - p2 = -x := by rw [ht]; ring
  refine ⟨by linarith, by linarith, ?_, ?_, hq⟩
  · rw [htx]; nlinarith [hroot]
  · intro y hy hyt
    have := hpos (p2 - y) (by linarith) (by linarith)
    nlinarith [this]

section enclosure

variable {p1 p2 : ℝ} {phi dphi : ℝ → ℝ}

theorem interp1_hasDeriv (hd : ∀ t ∈ Set.Icc p1 p2, HasDerivAt phi (dphi t) t) (A B a : ℝ) :
    ∀ t ∈ Set.Icc p1 p2, HasDerivAt (fun t => phi t - (A + B * (t - p1) + a * (t - p1) ^ 2))
      (dphi t - (B + 2 * a * (t - p1))) t := by
  intro t ht
  have h1 : HasDerivAt (fun t : ℝ => t - p1) 1 t := (hasDerivAt_id t).sub_const p1
  have h2 := ((h1.const_mul B).const_add A).add ((h1.pow 2).const_mul a)
  have h3 := (hd t ht).sub h2
  exact h3.congr_deriv (by push_cast; ring)

theorem interp2_hasDeriv (hd : ∀ t ∈ Set.Icc p1 p2, HasDerivAt phi (dphi t) t) (A B a : ℝ) :
    ∀ t ∈ Set.Icc p1 p2, HasDerivAt (fun t => phi t - (A + B * (t - p2) + a * (t - p2) ^ 2))
      (dphi t - (B + 2 * a * (t - p2))) t := by
  intro t ht
  have h1 : HasDerivAt (fun t : ℝ => t - p2) 1 t := (hasDerivAt_id t).sub_const p2
  have h2 := ((h1.const_mul B).const_add A).add ((h1.pow 2).const_mul a)
  have h3 := (hd t ht).sub h2
  exact h3.congr_deriv (by push_cast; ring)

theorem convexOn_sub_affine {s : Set ℝ} {f : ℝ → ℝ} (hf : ConvexOn ℝ s f) (B c q : ℝ) :
    ConvexOn ℝ s (fun t => f t - (B + c * (t - q))) := by
  refine ⟨hf.1, fun x hx y hy u v hu hv huv => ?_⟩
  have := hf.2 hx hy hu hv huv
  simp only [smul_eq_mul] at this ⊢
  have hv' : v = 1 - u := by linarith
  subst hv'
  nlinarith [this]

/-- Enclosure of a function with convex derivative by its two quadratic interpolants. -/
theorem enclosure_convex (h12 : p1 < p2) (hd : ∀ t ∈ Set.Icc p1 p2, HasDerivAt phi (dphi t) t)
    (hc : ConvexOn ℝ (Set.Icc p1 p2) dphi) {t : ℝ} (ht : t ∈ Set.Icc p1 p2) {a b : ℝ}
    (ha : phi p1 + dphi p1 * (p2 - p1) + a * (p2 - p1) ^ 2 = phi p2)
    (hb : phi p2 + dphi p2 * (p1 - p2) + b * (p1 - p2) ^ 2 = phi p1) :
    phi t ≤ phi p1 + dphi p1 * (t - p1) + a * (t - p1) ^ 2 ∧
      phi p2 + dphi p2 * (t - p2) + b * (t - p2) ^ 2 ≤ phi t := by
  constructor
  · have := nonpos_of_convex_deriv h12 (interp1_hasDeriv hd (phi p1) (dphi p1) a)
      (convexOn_sub_affine hc _ _ _) (by simp) (by simp) (by linarith) ht
    linarith
  · have := nonneg_of_convex_deriv h12 (interp2_hasDeriv hd (phi p2) (dphi p2) b)
      (convexOn_sub_affine hc _ _ _) (by linarith) (by simp) (by simp) ht
    linarith

theorem enclosure_concave (h12 : p1 < p2) (hd : ∀ t ∈ Set.Icc p1 p2, HasDerivAt phi (dphi t) t)
    (hc : ConcaveOn ℝ (Set.Icc p1 p2) dphi) {t : ℝ} (ht : t ∈ Set.Icc p1 p2) {a b : ℝ}
    (ha : phi p1 + dphi p1 * (p2 - p1) + a * (p2 - p1) ^ 2 = phi p2)
    (hb : phi p2 + dphi p2 * (p1 - p2) + b * (p1 - p2) ^ 2 = phi p1) :
    phi p1 + dphi p1 * (t - p1) + a * (t - p1) ^ 2 ≤ phi t ∧
      phi t ≤ phi p2 + dphi p2 * (t - p2) + b * (t - p2) ^ 2 := by
  have := enclosure_convex (phi := fun t => - phi t) (dphi := fun t => - dphi t) h12
    (fun t ht => (hd t ht).neg) hc.neg ht (a := -a) (b := -b) (by linarith) (by linarith)
  constructor
  · linarith [this.1]
  · linarith [this.2]

/-- One Newton step with `eps = 0` on a bracket with a strict sign change keeps the sign change. -/
theorem newton_step_bracket (h12 : p1 < p2) (h : ThreeConvexOrConcave p1 p2 phi dphi)
    (h1 : 0 < phi p1) (h2 : phi p2 < 0) :
    let r := quadraticNewtonStep 0 p1 p2 (phi p1) (phi p2) (dphi p1) (dphi p2) (-1)
    0 ≤ phi r.1 ∧ phi r.2 ≤ 0 := by
  intro r
  have c1 := candidate1_spec (dphi1 := dphi p1) h12 h1 h2.le
  have c2 := candidate2_spec (dphi2 := dphi p2) h12 h1.le h2
  set a := newtonDD112 0 p1 p2 (phi p1) (phi p2) (dphi p1)
  set b := newtonDD122 0 p1 p2 (phi p1) (phi p2) (dphi p2)
  set t1 := newtonCandidate 0 (-1) p1 (phi p1) (dphi p1) a with ht1
  set t2 := newtonCandidate 0 (-1) p2 (phi p2) (dphi p2) b with ht2
  obtain ⟨a1, a2, a3, a4, a5, a6⟩ := c1
  obtain ⟨b1, b2, b3, b4, b5⟩ := c2
  have hr : r = (min t1 t2, max t1 t2) := by
    show quadraticNewtonStep 0 p1 p2 (phi p1) (phi p2) (dphi p1) (dphi p2) (-1) = _
    simp only [quadraticNewtonStep]
    rw [newtonClamp_of_mem (t := newtonCandidate 0 (-1) p1 (phi p1) (dphi p1)
        (newtonDD112 0 p1 p2 (phi p1) (phi p2) (dphi p1))) a1.le a2,
      newtonClamp_of_mem (t := newtonCandidate 0 (-1) p2 (phi p2) (dphi p2)
        (newtonDD122 0 p1 p2 (phi p1) (phi p2) (dphi p2))) b1 b2.le]
  rw [hr]
  have m1 : t1 ∈ Set.Icc p1 p2 := ⟨a1.le, a2⟩
  have m2 : t2 ∈ Set.Icc p1 p2 := ⟨b1, b2.le⟩
  rcases h.shape with hc | hc
  · -- convex: phi ≤ q1, q2 ≤ phi, so t2 ≤ t1
    have e1 := enclosure_convex h12 h.deriv hc m1 a5 b5
    have e2 := enclosure_convex h12 h.deriv hc m2 a5 b5
    have hle : t2 ≤ t1 := by
      by_contra hcon
      push Not at hcon
      have h5 := a6 h2 t2 hcon m2.2
      have h6 := e2.2
      rw [b3] at h6
      linarith [e2.1]
    simp only [min_eq_right hle, max_eq_left hle]
    exact ⟨by have := e2.2; rw [b3] at this; exact this, by have := e1.1; rw [a3] at this; exact this⟩
  · have e1 := enclosure_concave h12 h.deriv hc m1 a5 b5
    have e2 := enclosure_concave h12 h.deriv hc m2 a5 b5
    have hle : t1 ≤ t2 := by
      by_contra hcon
      push Not at hcon
      have h5 := b4 t1 hcon m1.2
      have h6 := e1.1
      rw [a3] at h6
      linarith [e1.2]
    simp only [min_eq_left hle, max_eq_right hle]
    exact ⟨by have := e1.1; rw [a3] at this; exact this, by have := e2.2; rw [b3] at this; exact this⟩

/-- The lower end of the bracket stays good also in the degenerate cases `phi p_1 = 0` or
`phi p_2 = 0`, provided `phi ≥ 0` in between in the latter case, and also if `p_1 = p_2`. -/
theorem newton_step_left_good (h12 : p1 ≤ p2) (h : ThreeConvexOrConcave p1 p2 phi dphi)
    (h1 : 0 ≤ phi p1) (h2 : phi p2 ≤ 0)
    (h0 : phi p2 = 0 → ∀ t ∈ Set.Icc p1 p2, 0 ≤ phi t) :
    0 ≤ phi (quadraticNewtonStep 0 p1 p2 (phi p1) (phi p2) (dphi p1) (dphi p2) (-1)).1 := by
  have hcl : ∀ t, newtonClamp p1 p2 t ∈ Set.Icc p1 p2 := fun t => newtonClamp_mem h12 t
  rcases h2.lt_or_eq with h2 | h2
  · rcases h1.lt_or_eq with h1 | h1
    · rcases h12.lt_or_eq with h12 | h12
      · exact (newton_step_bracket h12 h h1 h2).1
      · subst h12; linarith
    · -- phi p1 = 0 : p1 is kept
      have ht : newtonClamp p1 p2 (newtonCandidate 0 (-1) p1 (phi p1) (dphi p1)
          (newtonDD112 0 p1 p2 (phi p1) (phi p2) (dphi p1))) = p1 := by
        have : newtonCandidate 0 (-1) p1 (phi p1) (dphi p1)
          (newtonDD112 0 p1 p2 (phi p1) (phi p2) (dphi p1)) = p1 := by
          rw [← h1]; simp [newtonCandidate, maskLt]
        rw [this]; exact newtonClamp_of_mem le_rfl h12
      simp only [quadraticNewtonStep]
      rw [ht, min_eq_left (hcl _).1, ← h1]
  · refine h0 h2 _ ?_
    simp only [quadraticNewtonStep]
    exact ⟨le_min (hcl _).1 (hcl _).1, (min_le_left _ _).trans (hcl _).2⟩

/-- For a quadratic function one step with `eps = 0` hits the root with both ends. -/
theorem newton_step_quadratic (h12 : p1 < p2) {A B C : ℝ}
    (hphi : ∀ t, phi t = A + B * t + C * t ^ 2) (hdphi : ∀ t, dphi t = B + 2 * C * t)
    (h1 : 0 < phi p1) (h2 : phi p2 < 0) :
    let r := quadraticNewtonStep 0 p1 p2 (phi p1) (phi p2) (dphi p1) (dphi p2) (-1)
    r.1 = r.2 ∧ phi r.1 = 0 := by
  intro r
  have c1 := candidate1_spec (dphi1 := dphi p1) h12 h1 h2.le
  have c2 := candidate2_spec (dphi2 := dphi p2) h12 h1.le h2
  have hne : p2 - p1 ≠ 0 := (sub_pos.2 h12).ne'
  have ha : newtonDD112 0 p1 p2 (phi p1) (phi p2) (dphi p1) = C := by
    simp only [newtonDD112, newtonScaling, add_zero, hphi, hdphi]
    field_simp
    ring
  have hb : newtonDD122 0 p1 p2 (phi p1) (phi p2) (dphi p2) = C := by
    simp only [newtonDD122, newtonScaling, add_zero, hphi, hdphi]
    field_simp
    ring
  rw [ha] at c1
  rw [hb] at c2
  have q1 : ∀ t, phi p1 + dphi p1 * (t - p1) + C * (t - p1) ^ 2 = phi t := by
    intro t; simp only [hphi, hdphi]; ring
  have q2 : ∀ t, phi p2 + dphi p2 * (t - p2) + C * (t - p2) ^ 2 = phi t := by
    intro t; simp only [hphi, hdphi]; ring
  simp only [q1] at c1
  simp only [q2] at c2
  set t1 := newtonCandidate 0 (-1) p1 (phi p1) (dphi p1) C with ht1
  set t2 := newtonCandidate 0 (-1) p2 (phi p2) (dphi p2) C with ht2
  obtain ⟨a1, a2, a3, a4, a5, a6⟩ := c1
  obtain ⟨b1, b2, b3, b4, b5⟩ := c2
  have hr : r = (min t1 t2, max t1 t2) := by
    show quadraticNewtonStep 0 p1 p2 (phi p1) (phi p2) (dphi p1) (dphi p2) (-1) = _
    simp only [quadraticNewtonStep, ha, hb]
    rw [newtonClamp_of_mem (t := newtonCandidate 0 (-1) p1 (phi p1) (dphi p1) C) a1.le a2,
      newtonClamp_of_mem (t := newtonCandidate 0 (-1) p2 (phi p2) (dphi p2) C) b1 b2.le]
  have e : t1 = t2 := by
    rcases lt_trichotomy t1 t2 with h | h | h
    · exact absurd b3 (a6 h2 t2 h b2.le).ne
    · exact h
    · exact absurd a3 (b4 t1 h a2).ne
  rw [hr, e]
  simpa using b3

end enclosure

/-- Reversing the sign of the function and of the `sign` argument gives the same step. -/
theorem newton_step_neg (eps p1 p2 phi1 phi2 dphi1 dphi2 sign : ℝ) :
    quadraticNewtonStep eps p1 p2 (-phi1) (-phi2) (-dphi1) (-dphi2) (-sign)
      = quadraticNewtonStep eps p1 p2 phi1 phi2 dphi1 dphi2 sign := by
  have hdd1 : newtonDD112 eps p1 p2 (-phi1) (-phi2) (-dphi1)
      = - newtonDD112 eps p1 p2 phi1 phi2 dphi1 := by simp only [newtonDD112]; ring
  have hdd2 : newtonDD122 eps p1 p2 (-phi1) (-phi2) (-dphi2)
      = - newtonDD122 eps p1 p2 phi1 phi2 dphi2 := by simp only [newtonDD122]; ring
  have hc : ∀ p phi dphi dd, newtonCandidate eps (-sign) p (-phi) (-dphi) (-dd)
      = newtonCandidate eps sign p phi dphi dd := by
    intro p phi dphi dd
    simp only [newtonCandidate]
    have e1 : -dphi * -dphi - 4 * -phi * -dd = dphi * dphi - 4 * phi * dd := by ring
    rw [e1]
    have e2 : -dphi + -sign * Real.sqrt |dphi * dphi - 4 * phi * dd|
        = -(dphi + sign * Real.sqrt |dphi * dphi - 4 * phi * dd|) := by ring
    rw [e2, abs_neg]
    have e3 : 2 * -phi / -(dphi + sign * Real.sqrt |dphi * dphi - 4 * phi * dd|)
        = 2 * phi / (dphi + sign * Real.sqrt |dphi * dphi - 4 * phi * dd|) := by
      rw [mul_neg, neg_div_neg_eq]
    rw [e3]
  simp only [quadraticNewtonStep, hdd1, hdd2, hc]

end Ryujin
