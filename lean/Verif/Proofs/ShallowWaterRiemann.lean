import Verif.Proofs.ShallowWater

/-!
# Helper lemmas for the shallow water Riemann solver
-/

namespace Ryujin
namespace ShallowWater

open Real

/-- Well-formed Riemann data: positive depth and the matching speed of sound. -/
structure RiemannData.Valid (g : ℝ) (z : RiemannData) : Prop where
  h_pos : 0 < z.h
  a_eq : z.a = √(g * z.h)

theorem riemannF_ge_shock {g : ℝ} (hg : 0 < g) {z : RiemannData} (hz : z.Valid g) {h : ℝ}
    (hh : z.h ≤ h) : √g * ((h - z.h) / (√2 * √z.h)) ≤ riemannF g z h := by
  have hzh := hz.h_pos
  unfold riemannF
  simp only
  split
  · rename_i hle
    have : h = z.h := le_antisymm hle hh
    rw [this, hz.a_eq]; simp
  · rename_i hlt
    push Not at hlt
    have hpos : 0 < h := hzh.trans hlt
    have h1 : √g / (√2 * √z.h) ≤ √(1 / 2 * g * (h + z.h) / (h * z.h)) := by
      rw [← Real.sqrt_mul (by norm_num), ← Real.sqrt_div hg.le]
      apply Real.sqrt_le_sqrt
      rw [div_le_div_iff₀ (by positivity) (by positivity)]
      nlinarith [mul_pos hg (mul_pos hzh hzh)]
    have h2 := mul_le_mul_of_nonneg_left h1 (sub_nonneg.2 hh)
    calc √g * ((h - z.h) / (√2 * √z.h)) = (h - z.h) * (√g / (√2 * √z.h)) := by ring
      _ ≤ _ := h2

theorem riemannF_ge_rare {g : ℝ} (hg : 0 < g) {z : RiemannData} (hz : z.Valid g) {h : ℝ}
    (hh : 0 < h) : 2 * √g * (√h - √z.h) ≤ riemannF g z h := by
  have hzh := hz.h_pos
  unfold riemannF
  simp only
  split
  · rw [hz.a_eq, Real.sqrt_mul hg.le, Real.sqrt_mul hg.le]
    apply le_of_eq; ring
  · rename_i hlt
    push Not at hlt
    set y := √h with hy
    set m := √z.h with hm
    have hy2 : h = y ^ 2 := (Real.sq_sqrt hh.le).symm
    have hm2 : z.h = m ^ 2 := (Real.sq_sqrt hzh.le).symm
    have hm0 : 0 < m := Real.sqrt_pos.2 hzh
    have hym : m < y := Real.sqrt_lt_sqrt hzh.le hlt
    have hy0 : 0 < y := hm0.trans hym
    have h1 : √g * ((y + m) / (2 * (y * m))) ≤ √(1 / 2 * g * (h + z.h) / (h * z.h)) := by
      apply Real.le_sqrt_of_sq_le
      rw [mul_pow, Real.sq_sqrt hg.le, hy2, hm2, div_pow]
      have e : 1 / 2 * g * (y ^ 2 + m ^ 2) / (y ^ 2 * m ^ 2)
          = g * ((2 * (y ^ 2 + m ^ 2)) / (2 * (y * m)) ^ 2) := by
        field_simp
      rw [e]
      apply mul_le_mul_of_nonneg_left _ hg.le
      apply div_le_div_of_nonneg_right _ (by positivity)
      nlinarith [sq_nonneg (y - m)]
    have h2 := mul_le_mul_of_nonneg_left h1 (sub_nonneg.2 hlt.le)
    refine le_trans ?_ h2
    have h3 : 2 ≤ (y + m) * ((y + m) / (2 * (y * m))) := by
      rw [← mul_div_assoc, le_div_iff₀ (by positivity)]
      nlinarith [sq_nonneg (y - m)]
    have h4 : 0 ≤ √g * (y - m) := mul_nonneg (Real.sqrt_nonneg _) (by linarith)
    have h5 := mul_le_mul_of_nonneg_left h3 h4
    calc 2 * √g * (y - m) = √g * (y - m) * 2 := by ring
      _ ≤ _ := h5
      _ = (h - z.h) * (√g * ((y + m) / (2 * (y * m)))) := by rw [hy2, hm2]; ring

variable {g : ℝ} {i j : RiemannData}

theorem phi_swap (i j : RiemannData) (h : ℝ) :
    phi g i j h = phi g ⟨j.h, -j.u, j.a⟩ ⟨i.h, -i.u, i.a⟩ h := by
  simp only [phi, riemannF]; ring

/-- The estimate "expansion and modified shock" dominates every depth with `phi ≤ 0`. -/
theorem le_hStarRight (hg : 0 < g) (hi : i.Valid g) (hj : j.Valid g) {h : ℝ} (hh : min i.h j.h ≤ h)
    (hphi : phi g i j h ≤ 0) : h ≤ hStarRight g i j := by
  -- it suffices to know the two lower bounds on the sum of the two wave functions
  have hmin : 0 < min i.h j.h := lt_min hi.h_pos hj.h_pos
  have hpos : 0 < h := hmin.trans_le hh
  have key : √g * ((h - min i.h j.h) / (√2 * √(min i.h j.h))) + 2 * √g * (√h - √(max i.h j.h))
      ≤ i.u - j.u := by
    have hs : √g * ((h - min i.h j.h) / (√2 * √(min i.h j.h))) + 2 * √g * (√h - √(max i.h j.h))
        ≤ riemannF g i h + riemannF g j h := by
      rcases le_total i.h j.h with h' | h'
      · rw [min_eq_left h', max_eq_right h'] at *
        have h1 := riemannF_ge_shock hg hi hh
        have h2 := riemannF_ge_rare hg hj hpos
        linarith
      · rw [min_eq_right h', max_eq_left h'] at *
        have h1 := riemannF_ge_shock hg hj hh
        have h2 := riemannF_ge_rare hg hi hpos
        linarith
    unfold phi at hphi
    linarith
  unfold hStarRight
  simp only
  have hmax : 0 < max i.h j.h := hi.h_pos.trans_le (le_max_left _ _)
  rw [Real.sqrt_mul hmin.le, Real.sqrt_mul (by positivity) (min i.h j.h), one_div, Real.sqrt_inv]
  set m := √(min i.h j.h) with hm
  set M := √(max i.h j.h) with hM
  set y := √h with hy
  set G := √g with hG
  have hG0 : 0 < G := Real.sqrt_pos.2 hg
  have hm0 : 0 < m := Real.sqrt_pos.2 hmin
  have hy0 : 0 < y := Real.sqrt_pos.2 hpos
  have hy2 : h = y ^ 2 := (Real.sq_sqrt hpos.le).symm
  have hm2 : min i.h j.h = m ^ 2 := (Real.sq_sqrt hmin.le).symm
  have h2 : √2 ^ 2 = (2:ℝ) := Real.sq_sqrt (by norm_num)
  have h20 : 0 < √2 := Real.sqrt_pos.2 (by norm_num)
  set R := 3 * min i.h j.h + 2 * √2 * (m * M) + √2 * (G⁻¹ * m) * (i.u - j.u) with hR
  have hRy : (y + √2 * m) ^ 2 ≤ R := by
    have h3 := mul_le_mul_of_nonneg_left key (by positivity : 0 ≤ √2 * (G⁻¹ * m))
    have e : √2 * (G⁻¹ * m) * (G * ((h - min i.h j.h) / (√2 * m)) + 2 * G * (y - M))
        = (h - min i.h j.h) + 2 * √2 * m * (y - M) := by
      field_simp
    rw [e] at h3
    rw [hR]
    have : (y + √2 * m) ^ 2 = h + 2 * √2 * m * y + 2 * min i.h j.h := by
      rw [hy2, hm2]; linear_combination m ^ 2 * h2
    rw [this]
    linarith
  have hR0 : 0 ≤ R := (sq_nonneg _).trans hRy
  rw [positivePart_of_nonneg hR0]
  have h4 : y + √2 * m ≤ √R := Real.le_sqrt_of_sq_le hRy
  have h5 : y ≤ √R - √2 * m := by linarith
  rw [hy2, sq]
  exact mul_le_mul h5 h5 hy0.le (hy0.le.trans h5)

/-- The estimate "double modified shock" dominates every depth above both states with `phi ≤ 0`. -/
theorem le_hStarMiddle (hg : 0 < g) (hi : i.Valid g) (hj : j.Valid g) {h : ℝ} (hh : max i.h j.h ≤ h)
    (hphi : phi g i j h ≤ 0) : h ≤ hStarMiddle g i j := by
  have hmin : 0 < min i.h j.h := lt_min hi.h_pos hj.h_pos
  have hmax : 0 < max i.h j.h := hi.h_pos.trans_le (le_max_left _ _)
  have hpos : 0 < h := hmax.trans_le hh
  have key : √g * ((h - min i.h j.h) / (√2 * √(min i.h j.h)))
      + √g * ((h - max i.h j.h) / (√2 * √(max i.h j.h))) ≤ i.u - j.u := by
    have hs : √g * ((h - min i.h j.h) / (√2 * √(min i.h j.h)))
        + √g * ((h - max i.h j.h) / (√2 * √(max i.h j.h))) ≤ riemannF g i h + riemannF g j h := by
      have h1 := riemannF_ge_shock hg hi ((le_max_left _ _).trans hh)
      have h2 := riemannF_ge_shock hg hj ((le_max_right _ _).trans hh)
      rcases le_total i.h j.h with h' | h'
      · rw [min_eq_left h', max_eq_right h'] at *; linarith
      · rw [min_eq_right h', max_eq_left h'] at *; linarith
    unfold phi at hphi
    linarith
  unfold hStarMiddle
  simp only
  rw [Real.sqrt_mul hmin.le, Real.sqrt_mul hg.le, Real.sqrt_mul hg.le]
  set m := √(min i.h j.h) with hm
  set M := √(max i.h j.h) with hM
  set G := √g with hG
  have hG0 : 0 < G := Real.sqrt_pos.2 hg
  have hm0 : 0 < m := Real.sqrt_pos.2 hmin
  have hM0 : 0 < M := Real.sqrt_pos.2 hmax
  have hm2 : min i.h j.h = m ^ 2 := (Real.sq_sqrt hmin.le).symm
  have hM2 : max i.h j.h = M ^ 2 := (Real.sq_sqrt hmax.le).symm
  have h2 : √2 ^ 2 = (2:ℝ) := Real.sq_sqrt (by norm_num)
  have h20 : 0 < √2 := Real.sqrt_pos.2 (by norm_num)
  have h3 := mul_le_mul_of_nonneg_left key (by positivity : 0 ≤ √2 * (m * M) / G)
  rw [hm2, hM2] at h3
  have e : √2 * (m * M) / G * (G * ((h - m ^ 2) / (√2 * m)) + G * ((h - M ^ 2) / (√2 * M)))
      = h * (m + M) - m * M * (m + M) := by
    field_simp
    ring
  rw [e] at h3
  have h4 : h * (m + M) ≤ m * M * (1 + √2 * (i.u - j.u) / (G * m + G * M)) * (m + M) := by
    have : m * M * (1 + √2 * (i.u - j.u) / (G * m + G * M)) * (m + M)
        = m * M * (m + M) + √2 * (m * M) / G * (i.u - j.u) := by
      field_simp
    rw [this]; linarith
  exact le_of_mul_le_mul_right h4 (by positivity)

theorem one_le_x0 : (1:ℝ) ≤ 9 - 4 * √2 := by
  have : √2 ≤ 2 := by
    rw [Real.sqrt_le_left (by norm_num)]; norm_num
  linarith

/-- Every depth above the smaller of the two with `phi ≤ 0` is dominated by `compute_h_star`. -/
theorem le_computeHStar (hg : 0 < g) (hi : i.Valid g) (hj : j.Valid g) {h : ℝ} (hh : min i.h j.h ≤ h)
    (hphi : phi g i j h ≤ 0) : h ≤ computeHStar g i j := by
  unfold computeHStar
  simp only [maskLt]
  split
  · rename_i hneg
    have hmax : 0 < max i.h j.h := hi.h_pos.trans_le (le_max_left _ _)
    have hx : max i.h j.h ≤ (9 - 4 * √2) * max i.h j.h := by
      nlinarith [one_le_x0]
    have h1 := le_hStarMiddle hg hi hj hx hneg.le
    rcases le_total h (max i.h j.h) with h' | h'
    · exact h'.trans (hx.trans h1)
    · exact le_hStarMiddle hg hi hj h' hphi
  · exact le_hStarRight hg hi hj hh hphi

/-- The multiplier of the sound speed is monotone in the star depth. -/
theorem wave_factor_mono {h h1 h2 : ℝ} (hh : 0 < h) (h12 : h1 ≤ h2 ∨ h1 ≤ h) :
    √((1 + 1 / 2 * positivePart ((h1 - h) / h)) * (1 + positivePart ((h1 - h) / h)))
      ≤ √((1 + 1 / 2 * positivePart ((h2 - h) / h)) * (1 + positivePart ((h2 - h) / h))) := by
  apply Real.sqrt_le_sqrt
  have hp : positivePart ((h1 - h) / h) ≤ positivePart ((h2 - h) / h) := by
    rcases h12 with h' | h'
    · apply positivePart_mono
      gcongr
    · rw [positivePart_of_nonpos (div_nonpos_of_nonpos_of_nonneg (by linarith) hh.le)]
      exact positivePart_nonneg _
  have := positivePart_nonneg ((h1 - h) / h)
  apply mul_le_mul <;> linarith

theorem computeLambda_mono (hi : 0 < i.h) (hj : 0 < j.h) (hia : 0 ≤ i.a) (hja : 0 ≤ j.a) {h1 h2 : ℝ}
    (h12 : h1 ≤ h2 ∨ h1 ≤ min i.h j.h) : computeLambda i j h1 ≤ computeLambda i j h2 := by
  unfold computeLambda
  apply max_le_max
  · apply negativePart_anti
    unfold lambda1Minus
    have := mul_le_mul_of_nonneg_left
      (wave_factor_mono hi (h12.imp id (fun h => h.trans (min_le_left _ _)))) hia
    simp only; linarith
  · apply positivePart_mono
    unfold lambda3Plus
    have := mul_le_mul_of_nonneg_left
      (wave_factor_mono hj (h12.imp id (fun h => h.trans (min_le_right _ _)))) hja
    simp only; linarith

end ShallowWater
end Ryujin
