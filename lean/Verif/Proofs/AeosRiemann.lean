import Verif.Proofs.AeosShock
import Verif.Spec.AeosRiemann

/-!
# Lemmas about the Riemann solver of the Euler equations with arbitrary equation of state
-/

namespace Ryujin
namespace Aeos

/-! ### Bounds for the star pressure in terms of wave curves -/

/-- `(γ - 1) / (2 γ)`. -/
noncomputable def zOf (g : ℝ) : ℝ := (g - 1) / (2 * g)

theorem zOf_pos {g : ℝ} (hg : 1 < g) : 0 < zOf g := div_pos (by linarith) (by linarith)

theorem zOf_mono {g g' : ℝ} (hg : 1 < g) (h : g ≤ g') : zOf g ≤ zOf g' := by
  unfold zOf
  rw [div_le_div_iff₀ (by linarith) (by linarith)]
  nlinarith

/-- The exponent `r` of the solver. -/
theorem r_exponent_eq {g g' : ℝ} (hg : 1 < g) (_hg' : 1 < g') :
    (max g g' - g) / (2 * g * max g g') = zOf (max g g') - zOf g := by
  have : 0 < max g g' := lt_max_of_lt_left (by linarith)
  have : 0 < g := by linarith
  unfold zOf
  field_simp
  ring

/-- Inverting a power. -/
theorem le_of_rpow_mul_le {P Px e N D : ℝ} (hP : 0 < P) (hPx : 0 < Px) (he : 0 < e) (hD : 0 < D)
    (h : (P / Px) ^ e * D ≤ N) : P ≤ Px * (positivePart N / D) ^ (1 / e) := by
  have h1 : (P / Px) ^ e ≤ positivePart N / D := by
    rw [le_div_iff₀ hD, positivePart_eq_max]
    exact h.trans (le_max_right _ _)
  have h2 := Real.rpow_le_rpow (Real.rpow_nonneg (by positivity) _) h1 (by positivity : 0 ≤ 1 / e)
  rw [← Real.rpow_mul (by positivity), mul_one_div_cancel he.ne', Real.rpow_one, div_le_iff₀ hPx, mul_comm] at h2
  exact h2

section bounds

variable {am ax gm gx Pm Px P Fm Fx du : ℝ}

theorem ratio_pow (hPm : 0 < Pm) (hPx : 0 < Px) (hP : 0 < P) (e : ℝ) :
    (P / Px) ^ e * (Pm / Px) ^ (-e) = (P / Pm) ^ e := by
  rw [Real.rpow_neg (by positivity), ← Real.inv_rpow (by positivity), ← Real.mul_rpow (by positivity) (by positivity)]
  congr 1
  field_simp

/-- `p_star_interpolated` bounds the star pressure if that is not below both pressures.  `am`, `ax` are
`\hat α_min` and `α_max`, `cx ax` is `\hat α_max`. -/
theorem interpolated_bound {cx : ℝ} (ham : 0 < am) (hax : 0 < ax) (hcx : 0 < cx) (hcx1 : cx ≤ 1) (hgm : 1 < gm)
    (hgx : 1 < gx) (hPm : 0 < Pm) (hPmx : Pm ≤ Px) (hP : Pm ≤ P)
    (hFm : am * ((P / Pm) ^ zOf gm - 1) ≤ Fm)
    (hFx1 : P ≤ Px → ax * ((P / Px) ^ zOf gx - 1) ≤ Fx) (hFx2 : Px ≤ P → cx * ax * ((P / Px) ^ zOf gx - 1) ≤ Fx)
    (h0 : Fm + Fx + du = 0) :
    P ≤ Px * (positivePart (am + ax - du) / (am * (Pm / Px) ^ (-zOf (min gm gx)) +
      cx * ax * (Pm / Px) ^ ((max gm gx - gm) / (2 * gm * max gm gx)))) ^ (1 / zOf (min gm gx)) := by
  have hPx : 0 < Px := by linarith
  have hP0 : 0 < P := by linarith
  have hgmin : 1 < min gm gx := lt_min hgm hgx
  rw [r_exponent_eq hgm hgx]
  set zm := zOf (min gm gx) with hzm
  have hzm0 : 0 < zm := zOf_pos hgmin
  have hr0 : 0 ≤ zOf (max gm gx) - zOf gm := sub_nonneg.2 (zOf_mono hgm (le_max_left _ _))
  set r := zOf (max gm gx) - zOf gm with hr
  have hratio : 0 < Pm / Px := by positivity
  have hratio1 : Pm / Px ≤ 1 := by rw [div_le_one hPx]; exact hPmx
  have hrr : (Pm / Px) ^ r ≤ 1 := Real.rpow_le_one hratio.le hratio1 hr0
  have hrr0 : 0 < (Pm / Px) ^ r := Real.rpow_pos_of_pos hratio _
  have hrz0 : 0 < (Pm / Px) ^ (-zm) := Real.rpow_pos_of_pos hratio _
  refine le_of_rpow_mul_le hP0 hPx hzm0 (by positivity) ?_
  have h1 : (P / Pm) ^ zm ≤ (P / Pm) ^ zOf gm :=
    Real.rpow_le_rpow_of_exponent_le (by rw [le_div_iff₀ hPm]; linarith) (zOf_mono hgmin (min_le_left _ _))
  have hm : am * ((P / Px) ^ zm * (Pm / Px) ^ (-zm)) ≤ am + Fm := by
    rw [ratio_pow hPm hPx hP0]
    have := mul_le_mul_of_nonneg_left h1 ham.le
    linarith
  have hy0 : 0 < (P / Px) ^ zm := Real.rpow_pos_of_pos (by positivity) _
  have hx : cx * ax * ((P / Px) ^ zm * (Pm / Px) ^ r) ≤ ax + Fx := by
    rcases le_total P Px with hle | hle
    · have hyr : (P / Px) ^ zm * (Pm / Px) ^ r ≤ (P / Px) ^ zOf gx := by
        have hy : Pm / Px ≤ P / Px := div_le_div_of_nonneg_right hP hPx.le
        rcases le_total gm gx with hg | hg
        · have e1 : zm = zOf gm := by rw [hzm, min_eq_left hg]
          have e2 : r = zOf gx - zOf gm := by rw [hr, max_eq_right hg]
          have hr0' : 0 ≤ zOf gx - zOf gm := by rw [← e2]; exact hr0
          rw [e1, e2]
          have : (Pm / Px) ^ (zOf gx - zOf gm) ≤ (P / Px) ^ (zOf gx - zOf gm) :=
            Real.rpow_le_rpow hratio.le hy hr0'
          refine (mul_le_mul_of_nonneg_left this (Real.rpow_nonneg (by positivity) _)).trans (le_of_eq ?_)
          rw [← Real.rpow_add (by positivity)]
          congr 1; ring
        · have e1 : zm = zOf gx := by rw [hzm, min_eq_right hg]
          have e2 : r = 0 := by rw [hr, max_eq_left hg, sub_self]
          rw [e1, e2, Real.rpow_zero, mul_one]
      have h2 := hFx1 hle
      have h3 : cx * ax * ((P / Px) ^ zm * (Pm / Px) ^ r) ≤ ax * (P / Px) ^ zOf gx := by
        have h5 : cx * ax ≤ ax := by nlinarith
        exact mul_le_mul h5 hyr (by positivity) hax.le
      linarith
    · have hy1 : 1 ≤ P / Px := by rw [le_div_iff₀ hPx]; linarith
      have h2 := hFx2 hle
      have h3 : (P / Px) ^ zm * (Pm / Px) ^ r ≤ (P / Px) ^ zOf gx := by
        have h4 : (P / Px) ^ zm ≤ (P / Px) ^ zOf gx :=
          Real.rpow_le_rpow_of_exponent_le hy1 (zOf_mono hgmin (min_le_right _ _))
        calc (P / Px) ^ zm * (Pm / Px) ^ r ≤ (P / Px) ^ zm * 1 := mul_le_mul_of_nonneg_left hrr hy0.le
          _ ≤ _ := by rw [mul_one]; exact h4
      have h5 : cx * ax ≤ ax := by nlinarith
      have h6 := mul_le_mul_of_nonneg_left h3 (by positivity : 0 ≤ cx * ax)
      linarith
  have e : (P / Px) ^ zm * (am * (Pm / Px) ^ (-zm) + cx * ax * (Pm / Px) ^ r) =
      am * ((P / Px) ^ zm * (Pm / Px) ^ (-zm)) + cx * ax * ((P / Px) ^ zm * (Pm / Px) ^ r) := by ring
  rw [e]
  linarith

/-- Both pressures of `p_star_RS_full` bound the star pressure if that lies between the two pressures. -/
theorem rs_bound (ham : 0 < am) (hax : 0 < ax) (hgm : 1 < gm) (hgx : 1 < gx) (hPm : 0 < Pm) (hP : Pm ≤ P)
    (hPx' : P ≤ Px) (hFm : am * ((P / Pm) ^ zOf gm - 1) ≤ Fm) (hFx : ax * ((P / Px) ^ zOf gx - 1) ≤ Fx)
    (h0 : Fm + Fx + du = 0) :
    P ≤ Px * (positivePart (am + ax - du) / (am * (Pm / Px) ^ ((max gm gx - gm) / (2 * gm * max gm gx) -
        zOf (max gm gx)) + ax)) ^ (1 / zOf (max gm gx)) ∧
    P ≤ Px * (positivePart (am + ax - du) / (am * (Pm / Px) ^ (-zOf (min gm gx)) +
      ax * (Pm / Px) ^ ((max gm gx - gm) / (2 * gm * max gm gx)))) ^ (1 / zOf (min gm gx)) := by
  have hP0 : 0 < P := by linarith
  have hPx : 0 < Px := by linarith
  refine ⟨?_, ?_⟩
  · rw [r_exponent_eq hgm hgx]
    have hgM : 1 < max gm gx := lt_max_of_lt_left hgm
    have e0 : zOf (max gm gx) - zOf gm - zOf (max gm gx) = -zOf gm := by ring
    rw [e0]
    have hratio : 0 < Pm / Px := by positivity
    have hrz0 : 0 < (Pm / Px) ^ (-zOf gm) := Real.rpow_pos_of_pos hratio _
    refine le_of_rpow_mul_le hP0 hPx (zOf_pos hgM) (by positivity) ?_
    have hy0 : 0 < P / Px := by positivity
    have hy1 : P / Px ≤ 1 := by rw [div_le_one hPx]; exact hPx'
    have h1 : (P / Px) ^ zOf (max gm gx) ≤ (P / Px) ^ zOf gm :=
      Real.rpow_le_rpow_of_exponent_ge hy0 hy1 (zOf_mono hgm (le_max_left _ _))
    have h2 : (P / Px) ^ zOf (max gm gx) ≤ (P / Px) ^ zOf gx :=
      Real.rpow_le_rpow_of_exponent_ge hy0 hy1 (zOf_mono hgx (le_max_right _ _))
    have h3 : am * ((P / Px) ^ zOf (max gm gx) * (Pm / Px) ^ (-zOf gm)) ≤ am * (P / Pm) ^ zOf gm := by
      rw [← ratio_pow hPm hPx hP0]
      exact mul_le_mul_of_nonneg_left (mul_le_mul_of_nonneg_right h1 hrz0.le) ham.le
    have h4 := mul_le_mul_of_nonneg_left h2 hax.le
    nlinarith
  · have h := interpolated_bound (cx := 1) ham hax one_pos le_rfl hgm hgx hPm (hP.trans hPx') hP hFm (fun _ => hFx)
      (fun _ => by rw [one_mul]; exact hFx) h0
    rwa [one_mul] at h

/-- The first pressure of `p_star_SS_full` bounds the star pressure of two shocks. -/
theorem ss_bound {ai aj gi gj Pi Pj Fi Fj : ℝ} (hai : 0 < ai) (haj : 0 < aj) (hgi : 1 < gi) (hgj : 1 < gj) (hPi : 0 < Pi)
    (hPj : 0 < Pj) (hi : Pi ≤ P) (hj : Pj ≤ P) (hFi : ai * ((P / Pi) ^ zOf gi - 1) ≤ Fi)
    (hFj : aj * ((P / Pj) ^ zOf gj - 1) ≤ Fj) (h0 : Fi + Fj + du = 0) :
    P ≤ Pj * (positivePart (ai + aj - du) / (ai * (Pi / Pj) ^ (-zOf (min gi gj)) + aj)) ^ (1 / zOf (min gi gj)) := by
  have hP0 : 0 < P := by linarith
  have hgm : 1 < min gi gj := lt_min hgi hgj
  have hrz0 : 0 < (Pi / Pj) ^ (-zOf (min gi gj)) := Real.rpow_pos_of_pos (by positivity) _
  refine le_of_rpow_mul_le hP0 hPj (zOf_pos hgm) (by positivity) ?_
  have h1 : (P / Pi) ^ zOf (min gi gj) ≤ (P / Pi) ^ zOf gi :=
    Real.rpow_le_rpow_of_exponent_le (by rw [le_div_iff₀ hPi]; linarith) (zOf_mono hgm (min_le_left _ _))
  have h2 : (P / Pj) ^ zOf (min gi gj) ≤ (P / Pj) ^ zOf gj :=
    Real.rpow_le_rpow_of_exponent_le (by rw [le_div_iff₀ hPj]; linarith) (zOf_mono hgm (min_le_right _ _))
  rw [← ratio_pow hPi hPj hP0] at h1
  have h3 := mul_le_mul_of_nonneg_left h1 hai.le
  rw [ratio_pow hPi hPj hP0] at h3
  have h4 := mul_le_mul_of_nonneg_left h2 haj.le
  have e : (P / Pj) ^ zOf (min gi gj) * (ai * (Pi / Pj) ^ (-zOf (min gi gj)) + aj) =
      ai * ((P / Pj) ^ zOf (min gi gj) * (Pi / Pj) ^ (-zOf (min gi gj))) + aj * (P / Pj) ^ zOf (min gi gj) := by ring
  rw [e, ratio_pow hPi hPj hP0]
  linarith

/-- The failsafe bound. -/
theorem failsafe_bound {xi xj Pi Pj Fi Fj : ℝ} (hxi : 0 < xi) (hxj : 0 < xj) (hP : 0 < P)
    (hFi : (P - Pi) * xi ≤ Fi * √P) (hFj : (P - Pj) * xj ≤ Fj * √P) (h0 : Fi + Fj + du = 0) :
    P ≤ ((-du + √(du * du - 4 * (xi + xj) * (-Pi * xi - Pj * xj))) / (2 * (xi + xj))) *
      ((-du + √(du * du - 4 * (xi + xj) * (-Pi * xi - Pj * xj))) / (2 * (xi + xj))) := by
  set y := √P with hy
  have hy0 : 0 ≤ y := Real.sqrt_nonneg _
  have hyy : y * y = P := Real.mul_self_sqrt hP.le
  have hq : (xi + xj) * (y * y) + du * y + (-Pi * xi - Pj * xj) ≤ 0 := by
    have : (Fi + Fj + du) * y = 0 := by rw [h0, zero_mul]
    rw [hyy]
    nlinarith
  have hdisc : (2 * (xi + xj) * y + du) ^ 2 ≤ du * du - 4 * (xi + xj) * (-Pi * xi - Pj * xj) := by
    nlinarith [mul_le_mul_of_nonneg_left hq (by positivity : 0 ≤ 4 * (xi + xj))]
  have hle : 2 * (xi + xj) * y + du ≤ √(du * du - 4 * (xi + xj) * (-Pi * xi - Pj * xj)) :=
    (le_abs_self _).trans (Real.abs_le_sqrt hdisc)
  have hb : y ≤ (-du + √(du * du - 4 * (xi + xj) * (-Pi * xi - Pj * xj))) / (2 * (xi + xj)) := by
    rw [le_div_iff₀ (by positivity)]
    linarith
  rw [← hyy]
  exact mul_self_le_mul_self hy0 hb

end bounds

/-! ### The model's functions and the specification -/

/-- The Riemann data describe a gas with covolume. -/
structure Gas (P : Params) (d : RiemannData) : Prop where
  rho_pos : 0 < d.rho
  cov_pos : 0 < 1 - P.b * d.rho
  p_pos : 0 < d.p + P.pinf
  gamma_gt : 1 < d.gamma
  a_eq : d.a = Spec.nasgSound P.b P.pinf d.gamma d.rho d.p

/-- Riemann data as a side of the extended Riemann problem. -/
def side (d : RiemannData) : Spec.Side := ⟨d.rho, d.u, d.p, d.gamma⟩

variable {P : Params} {d i j : RiemannData}

theorem Gas.a_pos (h : Gas P d) : 0 < d.a := by
  rw [h.a_eq]
  have := h.rho_pos
  have := h.cov_pos
  have := h.p_pos
  have : 0 < d.gamma := by linarith [h.gamma_gt]
  exact Real.sqrt_pos.2 (by positivity)

/-- A gas with covolume has the wave curve of a polytropic gas with density `ρ/(1-bρ)` and pressure `p + p_∞`. -/
theorem nasgSound_eq {b pinf g rho p : ℝ} (hr : 0 < rho) (hx : 0 < 1 - b * rho) (hp : 0 < p + pinf) (hg : 1 < g) :
    Spec.gasSound g (rho / (1 - b * rho)) (p + pinf) = Spec.nasgSound b pinf g rho p * (1 - b * rho) := by
  unfold Spec.gasSound Spec.nasgSound
  generalize 1 - b * rho = x at *
  nth_rewrite 3 [← Real.sqrt_sq hx.le]
  have : 0 < g := by linarith
  rw [← Real.sqrt_mul (by positivity)]
  congr 1
  field_simp

theorem nasgWave_eq {b pinf g rho pK p : ℝ} (hr : 0 < rho) (hx : 0 < 1 - b * rho) (hp : 0 < pK + pinf) (hg : 1 < g) :
    Spec.nasgWave b pinf g rho pK p = Spec.gasWave g (rho / (1 - b * rho)) (pK + pinf) (p + pinf) := by
  unfold Spec.nasgWave Spec.gasWave
  simp only [add_le_add_iff_right]
  rw [nasgSound_eq hr hx hp hg]
  split_ifs
  · ring
  · rw [show p + pinf - (pK + pinf) = p - pK by ring]
    congr 3
    generalize 1 - b * rho = x at *
    have : 0 < g + 1 := by linarith
    field_simp

theorem Gas.rhox_pos (h : Gas P d) : 0 < d.rho / (1 - P.b * d.rho) := div_pos h.rho_pos h.cov_pos

theorem Gas.alpha_eq (h : Gas P d) : alphaOf P d.rho d.gamma d.a =
    2 * Spec.gasSound d.gamma (d.rho / (1 - P.b * d.rho)) (d.p + P.pinf) / (d.gamma - 1) := by
  rw [nasgSound_eq h.rho_pos h.cov_pos h.p_pos h.gamma_gt, ← h.a_eq]
  unfold alphaOf
  ring

theorem Gas.alpha_pos (h : Gas P d) : 0 < alphaOf P d.rho d.gamma d.a := by
  have := h.a_pos
  have := h.cov_pos
  have : 0 < d.gamma - 1 := by linarith [h.gamma_gt]
  unfold alphaOf
  positivity

/-- The wave curve above the pressure of the state. -/
theorem Gas.shock_ge (h : Gas P d) {p : ℝ} (hp : d.p ≤ p) :
    cGamma d.gamma * alphaOf P d.rho d.gamma d.a * (((p + P.pinf) / (d.p + P.pinf)) ^ zOf d.gamma - 1) ≤
      Spec.nasgWave P.b P.pinf d.gamma d.rho d.p p := by
  rw [nasgWave_eq h.rho_pos h.cov_pos h.p_pos h.gamma_gt, h.alpha_eq]
  exact gasWave_ge_scaled h.gamma_gt h.rhox_pos h.p_pos (by linarith)

theorem Gas.rarefaction_eq (h : Gas P d) {p : ℝ} (hp : p ≤ d.p) :
    Spec.nasgWave P.b P.pinf d.gamma d.rho d.p p =
      alphaOf P d.rho d.gamma d.a * (((p + P.pinf) / (d.p + P.pinf)) ^ zOf d.gamma - 1) := by
  unfold Spec.nasgWave alphaOf zOf
  rw [if_pos hp, h.a_eq]

theorem Gas.failsafe_ge (h : Gas P d) {pm p : ℝ} (h1 : d.p ≤ pm) (h2 : pm ≤ p) :
    ((p + P.pinf) - (d.p + P.pinf)) * √(2 * (1 - P.b * d.rho) * (pm + P.pinf) /
      (d.rho * ((d.gamma + 1) * (pm + P.pinf) + (d.gamma - 1) * (d.p + P.pinf)))) ≤
      Spec.nasgWave P.b P.pinf d.gamma d.rho d.p p * √(p + P.pinf) := by
  rw [nasgWave_eq h.rho_pos h.cov_pos h.p_pos h.gamma_gt]
  refine le_trans (le_of_eq ?_) (Euler.gasWave_ge_failsafe (pm := pm + P.pinf) h.gamma_gt h.rhox_pos h.p_pos
    (by linarith) (by linarith))
  congr 2
  have := h.rho_pos
  have hx := h.cov_pos
  generalize 1 - P.b * d.rho = x at *
  have h3 : 0 < (d.gamma + 1) * (pm + P.pinf) + (d.gamma - 1) * (d.p + P.pinf) := by
    have := h.p_pos
    have := h.gamma_gt
    have : 0 < (d.gamma + 1) * (pm + P.pinf) := mul_pos (by linarith) (by linarith)
    have : 0 < (d.gamma - 1) * (d.p + P.pinf) := mul_pos (by linarith) (by linarith)
    linarith
  field_simp

/-- `f` is the wave curve. -/
theorem riemannF_eq (h : Gas P d) (p : ℝ) : riemannF P d p = Spec.nasgWave P.b P.pinf d.gamma d.rho d.p p := by
  unfold riemannF Spec.nasgWave
  dsimp only
  rcases lt_trichotomy p d.p with hlt | heq | hgt
  · rw [if_neg (by simpa using hlt), if_pos hlt.le, h.a_eq]
    rw [show 1 / 2 * (d.gamma - 1) / d.gamma = (d.gamma - 1) / (2 * d.gamma) by
      rw [mul_comm 2 d.gamma, ← div_div]; ring]
    ring
  · have := h.p_pos.ne'
    rw [if_pos (by simp [heq]), if_pos heq.le, heq]
    simp [this]
  · rw [if_pos hgt.le, if_neg (by simpa using hgt)]
    rw [mul_comm d.rho]

theorem shock_value_eq (h : Gas P d) {p : ℝ} (hp : d.p ≤ p) :
    (p - d.p) / √(1 / 2 * d.rho / (1 - P.b * d.rho) * ((d.gamma + 1) * (p + P.pinf) + (d.gamma - 1) * (d.p + P.pinf))) =
      Spec.nasgWave P.b P.pinf d.gamma d.rho d.p p := by
  rw [← riemannF_eq h]
  unfold riemannF
  dsimp only
  rw [if_pos hp, div_eq_mul_inv, ← Real.sqrt_inv]
  congr 2
  have := h.rho_pos
  have := h.p_pos
  have := h.gamma_gt
  have hx := h.cov_pos
  have h1 : 0 < d.gamma + 1 := by linarith
  have h2 : 0 < (d.gamma + 1) * (p + P.pinf) + (d.gamma - 1) * (d.p + P.pinf) := by
    have : 0 < (d.gamma + 1) * (p + P.pinf) := mul_pos (by linarith) (by linarith)
    have : 0 < (d.gamma - 1) * (d.p + P.pinf) := mul_pos (by linarith) (by linarith)
    linarith
  have e : p + P.pinf + (d.gamma - 1) / (d.gamma + 1) * (d.p + P.pinf) =
      ((d.gamma + 1) * (p + P.pinf) + (d.gamma - 1) * (d.p + P.pinf)) / (d.gamma + 1) := by
    field_simp
  rw [e]
  generalize (d.gamma + 1) * (p + P.pinf) + (d.gamma - 1) * (d.p + P.pinf) = z at *
  generalize 1 - P.b * d.rho = x at *
  field_simp

/-- The computed value of `phi(p_max)` is the exact one plus a nonnegative multiple of `p_∞`. -/
theorem phiOfPMax_eq (hi : Gas P i) (hj : Gas P j) :
    ∃ k, 0 < k ∧ phiOfPMax P i j = Spec.nasgWave P.b P.pinf i.gamma i.rho i.p (max i.p j.p) +
      Spec.nasgWave P.b P.pinf j.gamma j.rho j.p (max i.p j.p) + (j.u - i.u) + P.pinf * k := by
  have hpos : ∀ d : RiemannData, Gas P d → d.p ≤ max i.p j.p →
      0 < √(1 / 2 * d.rho / (1 - P.b * d.rho) *
        ((d.gamma + 1) * (max i.p j.p + P.pinf) + (d.gamma - 1) * (d.p + P.pinf))) := by
    intro d h hd
    have := h.rho_pos
    have := h.p_pos
    have := h.gamma_gt
    have := h.cov_pos
    have : 0 < (d.gamma + 1) * (max i.p j.p + P.pinf) := mul_pos (by linarith) (by linarith)
    have : 0 < (d.gamma - 1) * (d.p + P.pinf) := mul_pos (by linarith) (by linarith)
    exact Real.sqrt_pos.2 (by positivity)
  have h1 := hpos i hi (le_max_left _ _)
  have h2 := hpos j hj (le_max_right _ _)
  refine ⟨_, add_pos (one_div_pos.2 h1) (one_div_pos.2 h2), ?_⟩
  rw [← shock_value_eq hi (le_max_left i.p j.p), ← shock_value_eq hj (le_max_right i.p j.p)]
  unfold phiOfPMax
  dsimp only
  field_simp
  ring

theorem nasgWave_strictMono_shock (h : Gas P d) {p q : ℝ} (hp : d.p ≤ p) (hpq : p < q) :
    Spec.nasgWave P.b P.pinf d.gamma d.rho d.p p < Spec.nasgWave P.b P.pinf d.gamma d.rho d.p q := by
  rw [nasgWave_eq h.rho_pos h.cov_pos h.p_pos h.gamma_gt, nasgWave_eq h.rho_pos h.cov_pos h.p_pos h.gamma_gt]
  exact Euler.gasWave_strictMono_shock h.gamma_gt h.rhox_pos h.p_pos (by linarith) (by linarith)

theorem nasgSpeedFactor_eq (pinf gamma pK p : ℝ) :
    Spec.nasgSpeedFactor pinf gamma pK p = Spec.gasSpeedFactor gamma (pK + pinf) (p + pinf) := by
  unfold Spec.nasgSpeedFactor Spec.gasSpeedFactor
  simp only [add_le_add_iff_right]

theorem sqrtFactor_eq (h : Gas P d) (p : ℝ) :
    √(1 + 1 / 2 * (d.gamma + 1) / d.gamma * positivePart ((p - d.p) / (d.p + P.pinf))) =
      Spec.nasgSpeedFactor P.pinf d.gamma d.p p := by
  have hp := h.p_pos
  have hg := h.gamma_gt
  unfold Spec.nasgSpeedFactor
  split_ifs with hle
  · rw [positivePart_of_nonpos, mul_zero, add_zero, Real.sqrt_one]
    exact div_nonpos_of_nonpos_of_nonneg (by linarith) hp.le
  · push Not at hle
    rw [positivePart_of_nonneg (div_nonneg (by linarith) hp.le)]
    congr 1
    have : d.gamma ≠ 0 := by linarith
    generalize hz : d.p + P.pinf = z at *
    rw [show p - d.p = p + P.pinf - z by rw [← hz]; ring]
    field_simp
    ring

theorem lambda1Minus_eq (h : Gas P d) (p : ℝ) : lambda1Minus P d p = Spec.nasgLeftSpeed P.b P.pinf (side d) p := by
  unfold lambda1Minus Spec.nasgLeftSpeed side
  dsimp only
  rw [sqrtFactor_eq h, h.a_eq]

theorem lambda3Plus_eq (h : Gas P d) (p : ℝ) : lambda3Plus P d p = Spec.nasgRightSpeed P.b P.pinf (side d) p := by
  unfold lambda3Plus Spec.nasgRightSpeed side
  dsimp only
  rw [sqrtFactor_eq h, h.a_eq]

theorem lambda1Minus_anti (h : Gas P d) {p q : ℝ} (hpq : p ≤ q) : lambda1Minus P d q ≤ lambda1Minus P d p := by
  rw [lambda1Minus_eq h, lambda1Minus_eq h]
  unfold Spec.nasgLeftSpeed side
  dsimp only
  rw [nasgSpeedFactor_eq, nasgSpeedFactor_eq]
  have := mul_le_mul_of_nonneg_left (Euler.gasSpeedFactor_mono h.gamma_gt h.p_pos
    (by linarith : p + P.pinf ≤ q + P.pinf)) (Real.sqrt_nonneg (d.gamma * (d.p + P.pinf) / (d.rho * (1 - P.b * d.rho))))
  unfold Spec.nasgSound
  linarith

theorem lambda3Plus_mono (h : Gas P d) {p q : ℝ} (hpq : p ≤ q) : lambda3Plus P d p ≤ lambda3Plus P d q := by
  rw [lambda3Plus_eq h, lambda3Plus_eq h]
  unfold Spec.nasgRightSpeed side
  dsimp only
  rw [nasgSpeedFactor_eq, nasgSpeedFactor_eq]
  have := mul_le_mul_of_nonneg_left (Euler.gasSpeedFactor_mono h.gamma_gt h.p_pos
    (by linarith : p + P.pinf ≤ q + P.pinf)) (Real.sqrt_nonneg (d.gamma * (d.p + P.pinf) / (d.rho * (1 - P.b * d.rho))))
  unfold Spec.nasgSound
  linarith

theorem lambda1Minus_le (h : Gas P d) (p : ℝ) : lambda1Minus P d p ≤ d.u - d.a := by
  have := lambda1Minus_anti h (min_le_left p d.p)
  refine this.trans (le_of_eq ?_)
  rw [lambda1Minus_eq h, h.a_eq]
  simp [Spec.nasgLeftSpeed, Spec.nasgSpeedFactor, side]

theorem le_lambda3Plus (h : Gas P d) (p : ℝ) : d.u + d.a ≤ lambda3Plus P d p := by
  have := lambda3Plus_mono h (min_le_left p d.p)
  refine le_trans (le_of_eq ?_) this
  rw [lambda3Plus_eq h, h.a_eq]
  simp [Spec.nasgRightSpeed, Spec.nasgSpeedFactor, side]

theorem computeLambda_nonneg (P : Params) (i j : RiemannData) (q : ℝ) : 0 ≤ computeLambda P i j q := by
  unfold computeLambda
  exact (positivePart_nonneg _).trans (le_max_left _ _)

theorem computeLambda_characteristic (hi : Gas P i) (hj : Gas P j) (q : ℝ) :
    -(i.u - i.a) ≤ computeLambda P i j q ∧ j.u + j.a ≤ computeLambda P i j q := by
  unfold computeLambda
  dsimp only
  rw [positivePart_eq_max, negativePart_eq_max]
  have h1 := lambda1Minus_le hi q
  have h3 := le_lambda3Plus hj q
  refine ⟨?_, ?_⟩
  · exact le_trans (by linarith) ((le_max_right _ _).trans (le_max_right _ _))
  · exact le_trans h3 ((le_max_right _ _).trans (le_max_left _ _))

theorem computeLambda_bounds (hi : Gas P i) (hj : Gas P j) {p q : ℝ} (h : p ≤ q) :
    -Spec.nasgLeftSpeed P.b P.pinf (side i) p ≤ computeLambda P i j q ∧
      Spec.nasgRightSpeed P.b P.pinf (side j) p ≤ computeLambda P i j q := by
  rw [← lambda1Minus_eq hi, ← lambda3Plus_eq hj]
  have h1 := lambda1Minus_anti hi h
  have h3 := lambda3Plus_mono hj h
  unfold computeLambda
  dsimp only
  rw [positivePart_eq_max, negativePart_eq_max]
  refine ⟨?_, ?_⟩
  · exact le_trans (by linarith) ((le_max_right _ _).trans (le_max_right _ _))
  · exact le_trans h3 ((le_max_right _ _).trans (le_max_left _ _))

/-! ### Upper bounds for the star pressure -/

theorem star_le_failsafe (hi : Gas P i) (hj : Gas P j) {p : ℝ}
    (h : Spec.IsNasgStarPressure P.b P.pinf (side i) (side j) p) (hmax : max i.p j.p ≤ p) :
    p ≤ pStarFailsafe P i j := by
  obtain ⟨hp, h0⟩ := h
  have wi := hi.failsafe_ge (le_max_left i.p j.p) hmax
  have wj := hj.failsafe_ge (le_max_right i.p j.p) hmax
  have hpos : ∀ d : RiemannData, Gas P d → d.p ≤ max i.p j.p →
      0 < √(2 * (1 - P.b * d.rho) * (max i.p j.p + P.pinf) /
        (d.rho * ((d.gamma + 1) * (max i.p j.p + P.pinf) + (d.gamma - 1) * (d.p + P.pinf)))) := by
    intro d h hd
    have := h.rho_pos
    have := h.p_pos
    have := h.gamma_gt
    have := h.cov_pos
    have h3 : 0 < max i.p j.p + P.pinf := by linarith
    have : 0 < (d.gamma + 1) * (max i.p j.p + P.pinf) := mul_pos (by linarith) (by linarith)
    have : 0 < (d.gamma - 1) * (d.p + P.pinf) := mul_pos (by linarith) (by linarith)
    exact Real.sqrt_pos.2 (by positivity)
  have := failsafe_bound (hpos i hi (le_max_left _ _)) (hpos j hj (le_max_right _ _)) hp wi wj h0
  unfold pStarFailsafe
  dsimp only
  simp only [side] at this
  linarith

theorem star_le_interpolated (hi : Gas P i) (hj : Gas P j) {p : ℝ}
    (h : Spec.IsNasgStarPressure P.b P.pinf (side i) (side j) p) (hmin : min i.p j.p ≤ p) :
    p ≤ pStarInterpolated P i j := by
  obtain ⟨hp, h0⟩ := h
  simp only [side] at h0
  unfold pStarInterpolated maskLt
  dsimp only
  have hci := cGamma_pos i.gamma
  have hcj := cGamma_pos j.gamma
  have hai := hi.alpha_pos
  have haj := hj.alpha_pos
  rcases lt_or_ge i.p j.p with hlt | hge
  · rw [if_pos hlt, if_pos hlt, if_neg (not_le.2 hlt), if_neg (not_le.2 hlt), min_eq_left hlt.le, max_eq_right hlt.le]
    rw [min_eq_left hlt.le] at hmin
    have := interpolated_bound (am := cGamma i.gamma * alphaOf P i.rho i.gamma i.a) (ax := alphaOf P j.rho j.gamma j.a)
      (cx := cGamma j.gamma) (Px := j.p + P.pinf) (P := p + P.pinf) (gx := j.gamma)
      (Fx := Spec.nasgWave P.b P.pinf j.gamma j.rho j.p p) (by positivity) haj hcj (cGamma_le_one _) hi.gamma_gt hj.gamma_gt
      hi.p_pos (by linarith) (by linarith) (hi.shock_ge hmin)
      (fun hle => (hj.rarefaction_eq (by linarith)).ge) (fun hle => hj.shock_ge (by linarith)) h0
    unfold zOf at this
    linarith
  · rw [if_neg (not_lt.2 hge), if_neg (not_lt.2 hge), if_pos hge, if_pos hge, min_eq_right hge, max_eq_left hge,
      min_comm i.gamma, max_comm i.gamma]
    rw [min_eq_right hge] at hmin
    have := interpolated_bound (am := cGamma j.gamma * alphaOf P j.rho j.gamma j.a) (ax := alphaOf P i.rho i.gamma i.a)
      (cx := cGamma i.gamma) (Px := i.p + P.pinf) (P := p + P.pinf) (gx := i.gamma)
      (Fx := Spec.nasgWave P.b P.pinf i.gamma i.rho i.p p) (by positivity) hai hci (cGamma_le_one _) hj.gamma_gt hi.gamma_gt
      hj.p_pos (by linarith) (by linarith) (hj.shock_ge hmin)
      (fun hle => (hi.rarefaction_eq (by linarith)).ge) (fun hle => hi.shock_ge (by linarith)) (du := j.u - i.u)
      (by linarith)
    unfold zOf at this
    linarith

theorem star_le_RS (hi : Gas P i) (hj : Gas P j) {p : ℝ}
    (h : Spec.IsNasgStarPressure P.b P.pinf (side i) (side j) p) (hmin : min i.p j.p ≤ p) (hmax : p ≤ max i.p j.p) :
    p ≤ pStarRS P i j := by
  obtain ⟨hp, h0⟩ := h
  simp only [side] at h0
  unfold pStarRS maskLt
  dsimp only
  have hci := cGamma_pos i.gamma
  have hcj := cGamma_pos j.gamma
  have hai := hi.alpha_pos
  have haj := hj.alpha_pos
  rcases lt_or_ge i.p j.p with hlt | hge
  · rw [if_pos hlt, if_pos hlt, if_neg (not_le.2 hlt), min_eq_left hlt.le, max_eq_right hlt.le]
    rw [min_eq_left hlt.le] at hmin
    rw [max_eq_right hlt.le] at hmax
    have := rs_bound (am := cGamma i.gamma * alphaOf P i.rho i.gamma i.a) (ax := alphaOf P j.rho j.gamma j.a)
      (Px := j.p + P.pinf) (P := p + P.pinf) (gx := j.gamma)
      (by positivity) haj hi.gamma_gt hj.gamma_gt hi.p_pos (by linarith) (by linarith) (hi.shock_ge hmin)
      (hj.rarefaction_eq hmax).ge h0
    unfold zOf at this
    exact le_min (by linarith [this.1]) (by linarith [this.2])
  · rw [if_neg (not_lt.2 hge), if_neg (not_lt.2 hge), if_pos hge, min_eq_right hge, max_eq_left hge,
      min_comm i.gamma, max_comm i.gamma]
    rw [min_eq_right hge] at hmin
    rw [max_eq_left hge] at hmax
    have := rs_bound (am := cGamma j.gamma * alphaOf P j.rho j.gamma j.a) (ax := alphaOf P i.rho i.gamma i.a)
      (Px := i.p + P.pinf) (P := p + P.pinf) (gx := i.gamma)
      (by positivity) hai hj.gamma_gt hi.gamma_gt hj.p_pos (by linarith) (by linarith) (hj.shock_ge hmin)
      (hi.rarefaction_eq hmax).ge (du := j.u - i.u) (by linarith)
    unfold zOf at this
    exact le_min (by linarith [this.1]) (by linarith [this.2])

theorem star_le_SS (hi : Gas P i) (hj : Gas P j) {p : ℝ}
    (h : Spec.IsNasgStarPressure P.b P.pinf (side i) (side j) p) (hmax : max i.p j.p ≤ p) : p ≤ pStarSS P i j := by
  have hf := star_le_failsafe hi hj h hmax
  obtain ⟨hp, h0⟩ := h
  simp only [side] at h0
  have hci := cGamma_pos i.gamma
  have hcj := cGamma_pos j.gamma
  have hai := hi.alpha_pos
  have haj := hj.alpha_pos
  have h1 := (max_le_iff.1 hmax).1
  have h2 := (max_le_iff.1 hmax).2
  have := ss_bound (ai := cGamma i.gamma * alphaOf P i.rho i.gamma i.a) (aj := cGamma j.gamma * alphaOf P j.rho j.gamma j.a)
    (P := p + P.pinf) (by positivity) (by positivity) hi.gamma_gt hj.gamma_gt hi.p_pos hj.p_pos (by linarith)
    (by linarith) (hi.shock_ge h1) (hj.shock_ge h2) h0
  unfold pStarSS
  dsimp only
  unfold zOf at this
  exact le_min (by linarith) hf

/-- The pressure `p_2` of the solver bounds the star pressure unless both waves are rarefactions, if the sign of
`phi(p_max)` is computed correctly. -/
theorem star_le_startP2 (strict : Bool) (hi : Gas P i) (hj : Gas P j) {p : ℝ}
    (h : Spec.IsNasgStarPressure P.b P.pinf (side i) (side j) p) (hmin : min i.p j.p ≤ p) (hinf : 0 ≤ P.pinf)
    (hcase : P.pinf = 0 ∨ p ≤ max i.p j.p ∨ phiOfPMax P i j < 0) : p ≤ startP2 P strict i j := by
  obtain ⟨k, hk, hphi⟩ := phiOfPMax_eq hi hj
  have hk0 : 0 ≤ P.pinf * k := mul_nonneg hinf hk.le
  -- if phi(p_max) is negative there are two shocks
  have hss : phiOfPMax P i j < 0 → max i.p j.p ≤ p := by
    intro hneg
    by_contra hlt
    push Not at hlt
    have h0 := h.2
    simp only [side] at h0
    have hmono : ∀ d : RiemannData, Gas P d → d.p ≤ max i.p j.p →
        Spec.nasgWave P.b P.pinf d.gamma d.rho d.p p ≤ Spec.nasgWave P.b P.pinf d.gamma d.rho d.p (max i.p j.p) := by
      intro d hd hdp
      rcases le_total d.p p with h1 | h1
      · exact (nasgWave_strictMono_shock hd h1 hlt).le
      · have e1 : Spec.nasgWave P.b P.pinf d.gamma d.rho d.p p ≤ 0 := by
          rw [hd.rarefaction_eq h1]
          refine mul_nonpos_of_nonneg_of_nonpos hd.alpha_pos.le (sub_nonpos.2 ?_)
          exact Real.rpow_le_one (div_nonneg h.1.le hd.p_pos.le) (by rw [div_le_one hd.p_pos]; linarith)
            (zOf_pos hd.gamma_gt).le
        have e2 : 0 ≤ Spec.nasgWave P.b P.pinf d.gamma d.rho d.p (max i.p j.p) := by
          rw [nasgWave_eq hd.rho_pos hd.cov_pos hd.p_pos hd.gamma_gt, Euler.gasWave_shock (by linarith) hd.p_pos]
          exact mul_nonneg (by linarith) (Real.sqrt_nonneg _)
        linarith
    have m1 := hmono i hi (le_max_left _ _)
    have m2 := hmono j hj (le_max_right _ _)
    linarith
  -- otherwise there are not, unless p_∞ spoils the sign
  have hrs : ¬ phiOfPMax P i j < 0 → p ≤ max i.p j.p := by
    intro hneg
    rcases hcase with h1 | h1 | h1
    · by_contra hlt
      push Not at hlt
      apply hneg
      have h0 := h.2
      simp only [side] at h0
      rw [hphi, h1, zero_mul, add_zero]
      rw [h1] at h0
      have m1 := nasgWave_strictMono_shock hi (le_max_left i.p j.p) hlt
      have m2 := nasgWave_strictMono_shock hj (le_max_right i.p j.p) hlt
      rw [h1] at m1 m2
      linarith
    · exact h1
    · exact absurd h1 hneg
  unfold startP2 maskLt
  dsimp only
  cases strict
  · simp only [Bool.not_false, if_true]
    have hI := star_le_interpolated hi hj h hmin
    split_ifs with hneg
    · exact le_min hI (star_le_failsafe hi hj h (hss hneg))
    · exact le_min ((hrs hneg).trans (by linarith)) hI
  · simp only [Bool.not_true, Bool.false_eq_true, if_false]
    split_ifs with hneg
    · exact star_le_SS hi hj h (hss hneg)
    · exact le_min ((hrs hneg).trans (by linarith)) (star_le_RS hi hj h hmin (hrs hneg))

/-! ### Exchanging the two sides -/

/-- Data with the velocity reversed. -/
def mirror (d : RiemannData) : RiemannData := { d with u := -d.u }

theorem computeLambda_swap (P : Params) (i j : RiemannData) (q : ℝ) :
    computeLambda P (mirror j) (mirror i) q = computeLambda P i j q := by
  unfold computeLambda lambda1Minus lambda3Plus mirror
  dsimp only
  rw [max_comm]
  congr 1
  · simp only [negativePart_eq_max, positivePart_eq_max]
    congr 1
    ring
  · simp only [negativePart_eq_max, positivePart_eq_max]
    congr 1
    ring

theorem phiOfPMax_swap (P : Params) (i j : RiemannData) : phiOfPMax P (mirror j) (mirror i) = phiOfPMax P i j := by
  unfold phiOfPMax mirror
  dsimp only
  rw [max_comm j.p]
  ring

theorem pStarFailsafe_swap (P : Params) (i j : RiemannData) :
    pStarFailsafe P (mirror j) (mirror i) = pStarFailsafe P i j := by
  unfold pStarFailsafe mirror
  dsimp only
  rw [max_comm j.p]
  ring_nf

theorem pStarSS_swap (hi : Gas P i) (hj : Gas P j) : pStarSS P (mirror j) (mirror i) = pStarSS P i j := by
  unfold pStarSS
  rw [pStarFailsafe_swap]
  unfold mirror
  dsimp only
  congr 1
  rw [min_comm j.gamma]
  have hci := cGamma_pos i.gamma
  have hcj := cGamma_pos j.gamma
  have hai := mul_pos hci hi.alpha_pos
  have haj := mul_pos hcj hj.alpha_pos
  have hpi := hi.p_pos
  have hpj := hj.p_pos
  have hz : 0 < (min i.gamma j.gamma - 1) / (2 * min i.gamma j.gamma) := by
    have := zOf_pos (lt_min hi.gamma_gt hj.gamma_gt)
    unfold zOf at this
    exact this
  rw [show cGamma j.gamma * alphaOf P j.rho j.gamma j.a + cGamma i.gamma * alphaOf P i.rho i.gamma i.a - (-i.u - -j.u) =
    cGamma i.gamma * alphaOf P i.rho i.gamma i.a + cGamma j.gamma * alphaOf P j.rho j.gamma j.a - (j.u - i.u) by ring]
  generalize cGamma i.gamma * alphaOf P i.rho i.gamma i.a = A at *
  generalize cGamma j.gamma * alphaOf P j.rho j.gamma j.a = B at *
  generalize (min i.gamma j.gamma - 1) / (2 * min i.gamma j.gamma) = z at *
  generalize hN : positivePart (A + B - (j.u - i.u)) = N
  have hN0 : 0 ≤ N := by rw [← hN]; exact positivePart_nonneg _
  congr 1
  -- both are (N / (A Pi^-z + B Pj^-z))^(1/z)
  have key : ∀ (Q R A B : ℝ), 0 < Q → 0 < R → 0 < A → 0 < B →
      R * (N / (A * (Q / R) ^ (-z) + B)) ^ (1 / z) = (N / (A * Q ^ (-z) + B * R ^ (-z))) ^ (1 / z) := by
    intro Q R A B hQ hR hA hB
    have hRz : 0 < R ^ z := Real.rpow_pos_of_pos hR _
    have hQz : 0 < Q ^ z := Real.rpow_pos_of_pos hQ _
    have e1 : R = (R ^ z) ^ (1 / z) := by
      rw [← Real.rpow_mul hR.le, mul_one_div_cancel hz.ne', Real.rpow_one]
    nth_rewrite 1 [e1]
    rw [← Real.mul_rpow hRz.le (by positivity)]
    congr 1
    rw [Real.rpow_neg (by positivity), Real.rpow_neg hQ.le, Real.rpow_neg hR.le, Real.div_rpow hQ.le hR.le]
    field_simp
  rw [key _ _ _ _ hpj hpi haj hai, key _ _ _ _ hpi hpj hai haj]
  congr 2
  ring

theorem pStarInterpolated_swap (P : Params) (i j : RiemannData) (h : i.p ≠ j.p) :
    pStarInterpolated P (mirror j) (mirror i) = pStarInterpolated P i j := by
  unfold pStarInterpolated mirror maskLt
  dsimp only
  rw [min_comm j.p, max_comm j.p, min_comm j.gamma, max_comm j.gamma,
    show -i.u - -j.u = j.u - i.u by ring]
  rcases lt_or_gt_of_ne h with h | h
  · rw [if_neg (not_lt.2 h.le), if_neg (not_lt.2 h.le), if_pos h, if_pos h, if_pos h.le, if_pos h.le,
      if_neg (not_le.2 h), if_neg (not_le.2 h)]
  · rw [if_neg (not_lt.2 h.le), if_neg (not_lt.2 h.le), if_pos h, if_pos h, if_pos h.le, if_pos h.le,
      if_neg (not_le.2 h), if_neg (not_le.2 h)]

theorem pStarRS_swap (P : Params) (i j : RiemannData) (h : i.p ≠ j.p) :
    pStarRS P (mirror j) (mirror i) = pStarRS P i j := by
  unfold pStarRS mirror maskLt
  dsimp only
  rw [min_comm j.p, max_comm j.p, min_comm j.gamma, max_comm j.gamma,
    show -i.u - -j.u = j.u - i.u by ring]
  rcases lt_or_gt_of_ne h with h | h
  · rw [if_neg (not_lt.2 h.le), if_neg (not_lt.2 h.le), if_pos h, if_pos h, if_pos h.le, if_neg (not_le.2 h)]
  · rw [if_neg (not_lt.2 h.le), if_neg (not_lt.2 h.le), if_pos h, if_pos h, if_pos h.le, if_neg (not_le.2 h)]

theorem cGamma_eq_one {g : ℝ} (h1 : 1 < g) (h2 : g ≤ 5 / 3) : cGamma g = 1 := by
  unfold cGamma
  dsimp only
  have e1 : 1 ≤ (3 * g + 11) / (6 * g + 6) := by rw [le_div_iff₀ (by linarith)]; linarith
  have e2 : 1 ≤ 5 / 6 + cSlope * (g - 3) := by unfold cSlope; nlinarith
  rw [min_eq_left (le_min e1 e2), max_eq_right (by norm_num), Real.sqrt_one]

theorem startP2_swap (strict : Bool) (hi : Gas P i) (hj : Gas P j)
    (h : i.p ≠ j.p ∨ (i.gamma ≤ 5 / 3 ∧ j.gamma ≤ 5 / 3)) :
    startP2 P strict (mirror j) (mirror i) = startP2 P strict i j := by
  have hI : pStarInterpolated P (mirror j) (mirror i) = pStarInterpolated P i j ∧
      pStarRS P (mirror j) (mirror i) = pStarRS P i j := by
    by_cases hne : i.p = j.p
    · obtain ⟨h1, h2⟩ := h.resolve_left (by simpa using hne)
      have hp := hj.p_pos
      have e1 : ∀ x y : ℝ, (if j.p < j.p then x else y) = y := fun x y => if_neg (lt_irrefl _)
      have e2 : ∀ x y : ℝ, (if j.p ≥ j.p then x else y) = x := fun x y => if_pos le_rfl
      have e3 : (j.p + P.pinf) / (j.p + P.pinf) = 1 := div_self hp.ne'
      constructor
      · unfold pStarInterpolated mirror maskLt
        dsimp only
        rw [hne]
        simp only [e1, e2, min_self, max_self, cGamma_eq_one hi.gamma_gt h1, cGamma_eq_one hj.gamma_gt h2, e3,
          Real.one_rpow, one_mul, mul_one]
        rw [min_comm j.gamma]
        congr 4 <;> [congr 1; skip] <;> ring
      · unfold pStarRS mirror maskLt
        dsimp only
        rw [hne]
        simp only [e1, e2, min_self, max_self, cGamma_eq_one hi.gamma_gt h1, cGamma_eq_one hj.gamma_gt h2, e3,
          Real.one_rpow, one_mul, mul_one]
        rw [min_comm j.gamma, max_comm j.gamma,
          show alphaOf P i.rho i.gamma i.a + alphaOf P j.rho j.gamma j.a - (-i.u - -j.u) =
          alphaOf P j.rho j.gamma j.a + alphaOf P i.rho i.gamma i.a - (j.u - i.u) by ring,
          add_comm (alphaOf P i.rho i.gamma i.a)]
    · exact ⟨pStarInterpolated_swap P i j hne, pStarRS_swap P i j hne⟩
  unfold startP2
  dsimp only
  rw [hI.1, hI.2, phiOfPMax_swap, pStarFailsafe_swap, pStarSS_swap hi hj]
  unfold mirror
  dsimp only
  rw [max_comm j.p]

/-- If the pressures agree, the sound speed is not enlarged unless there are two shocks (or `p_∞` spoils the sign). -/
theorem computeLambda_small (P : Params) (i j : RiemannData) {q q' : ℝ} (h1 : q ≤ i.p) (h2 : q ≤ j.p) (h1' : q' ≤ i.p)
    (h2' : q' ≤ j.p) (hpi : 0 ≤ i.p + P.pinf) (hpj : 0 ≤ j.p + P.pinf) : computeLambda P i j q = computeLambda P i j q' := by
  unfold computeLambda lambda1Minus lambda3Plus
  dsimp only
  have e : ∀ {x y z : ℝ}, x ≤ y → 0 ≤ z → positivePart ((x - y) / z) = 0 := fun h hz =>
    positivePart_of_nonpos (div_nonpos_of_nonpos_of_nonneg (by linarith) hz)
  rw [e h1 hpi, e h2 hpj, e h1' hpi, e h2' hpj]

end Aeos
end Ryujin
