import Verif.Spec.EulerRiemann
import Verif.Proofs.EulerRiemann
import Mathlib.Analysis.Convex.SpecificFunctions.Basic

/-!
# The minimum principle for the specific entropy across one wave

The exact solution of a Riemann problem never lowers the smaller of the two specific entropies.  The average of the
solution over the fan – the bar state – is treated here without integrals: a supporting hyperplane `Φ` of the convex
set `{ρe ≥ σ ρ^γ}` is evaluated on both sides of a wave (`wave_inequality`).
-/

namespace Ryujin
namespace Euler

/-- The supporting hyperplane of `{(ρ, m, E) : ρe ≥ σ ρ^γ}` at the point with density `r` and a given velocity, written
in terms of density, relative normal velocity `w`, squared relative tangential velocity `T` and pressure. -/
noncomputable def supportGap (gamma sigma r rho w T p : ℝ) : ℝ :=
  p / (gamma - 1) + 1 / 2 * rho * (w ^ 2 + T) - gamma * sigma * r ^ (gamma - 1) * rho + (gamma - 1) * sigma * r ^ gamma

theorem young_rpow {g x r : ℝ} (hg : 1 ≤ g) (hx : 0 ≤ x) (hr : 0 < r) :
    0 ≤ x ^ g - g * r ^ (g - 1) * x + (g - 1) * r ^ g := by
  have hxr : 0 ≤ x / r := by positivity
  have h := one_add_mul_self_le_rpow_one_add (s := x / r - 1) (by linarith) hg
  rw [show 1 + (x / r - 1) = x / r by ring, Real.div_rpow hx hr.le] at h
  have hrg : 0 < r ^ g := Real.rpow_pos_of_pos hr _
  have e : r ^ (g - 1) = r ^ g / r := Real.rpow_sub_one hr.ne' g
  have h2 := mul_le_mul_of_nonneg_right h hrg.le
  rw [div_mul_cancel₀ _ hrg.ne'] at h2
  rw [e]
  have e3 : (1 + g * (x / r - 1)) * r ^ g = g * (r ^ g / r) * x - (g - 1) * r ^ g := by field_simp; ring
  linarith

theorem supportGap_nonneg {gamma sigma r rho w T p : ℝ} (hg : 1 < gamma) (hs : 0 ≤ sigma) (hr : 0 < r) (hrho : 0 ≤ rho)
    (hT : 0 ≤ T) (hent : sigma * rho ^ gamma ≤ p / (gamma - 1)) : 0 ≤ supportGap gamma sigma r rho w T p := by
  unfold supportGap
  have h := mul_nonneg hs (young_rpow hg.le hrho hr)
  have : 0 ≤ 1 / 2 * rho * (w ^ 2 + T) := by positivity
  nlinarith

/-! ### Shock -/

/-- Entropy does not decrease across a shock: `x ≥ (density ratio)^γ` for the pressure ratio `x ≥ 1`. -/
theorem shock_entropy {g x : ℝ} (hg : 1 < g) (hx : 1 ≤ x) :
    (((g + 1) * x + (g - 1)) / ((g - 1) * x + (g + 1))) ^ g ≤ x := by
  set h : ℝ → ℝ := fun x => Real.log x - g * (Real.log ((g + 1) * x + (g - 1)) - Real.log ((g - 1) * x + (g + 1))) with hh
  have hA : ∀ x : ℝ, 1 ≤ x → 0 < (g + 1) * x + (g - 1) := fun x hx => by nlinarith
  have hB : ∀ x : ℝ, 1 ≤ x → 0 < (g - 1) * x + (g + 1) := fun x hx => by nlinarith
  have hder : ∀ x : ℝ, 1 ≤ x → HasDerivAt h
      (1 / x - g * ((g + 1) / ((g + 1) * x + (g - 1)) - (g - 1) / ((g - 1) * x + (g + 1)))) x := by
    intro x hx
    have d1 : HasDerivAt (fun x : ℝ => (g + 1) * x + (g - 1)) (g + 1) x := by
      simpa using ((hasDerivAt_id x).const_mul (g + 1)).add_const (g - 1)
    have d2 : HasDerivAt (fun x : ℝ => (g - 1) * x + (g + 1)) (g - 1) x := by
      simpa using ((hasDerivAt_id x).const_mul (g - 1)).add_const (g + 1)
    have l3 := (hasDerivAt_id x).log (by simp; linarith)
    exact l3.sub (((d1.log (hA x hx).ne').sub (d2.log (hB x hx).ne')).const_mul g)
  have hmono : MonotoneOn h (Set.Ici 1) := by
    refine monotoneOn_of_deriv_nonneg (convex_Ici 1) ?_ ?_ ?_
    · exact fun x hx => (hder x hx).continuousAt.continuousWithinAt
    · intro x hx
      rw [interior_Ici] at hx
      exact (hder x hx.le).differentiableAt.differentiableWithinAt
    · intro x hx
      rw [interior_Ici] at hx
      have hx1 : (1 : ℝ) < x := hx
      rw [(hder x hx1.le).deriv]
      have a := hA x hx1.le
      have d := hB x hx1.le
      have e : 1 / x - g * ((g + 1) / ((g + 1) * x + (g - 1)) - (g - 1) / ((g - 1) * x + (g + 1))) =
          (g ^ 2 - 1) * (x - 1) ^ 2 / (x * ((g + 1) * x + (g - 1)) * ((g - 1) * x + (g + 1))) := by
        have hx0 : x ≠ 0 := by linarith
        obtain ⟨A, hAe⟩ : ∃ A, A = (g + 1) * x + (g - 1) := ⟨_, rfl⟩
        obtain ⟨B, hBe⟩ : ∃ B, B = (g - 1) * x + (g + 1) := ⟨_, rfl⟩
        rw [← hAe, ← hBe]
        rw [← hAe] at a
        rw [← hBe] at d
        have ha := a.ne'
        have hd := d.ne'
        field_simp
        rw [hAe, hBe]
        ring
      rw [e]
      have : 0 ≤ g ^ 2 - 1 := by nlinarith
      have : 0 < x := by linarith
      positivity
  have h1 := hmono (Set.mem_Ici.2 le_rfl) (Set.mem_Ici.2 hx) hx
  have e1 : h 1 = 0 := by
    simp only [hh, Real.log_one, mul_one]
    rw [show g + 1 + (g - 1) = g - 1 + (g + 1) by ring]; ring
  rw [e1] at h1
  simp only [hh] at h1
  rw [← Real.log_div (hA x hx).ne' (hB x hx).ne'] at h1
  have hq : 0 < ((g + 1) * x + (g - 1)) / ((g - 1) * x + (g + 1)) := div_pos (hA x hx) (hB x hx)
  have hx0 : 0 < x := by linarith
  rw [← Real.log_le_log_iff (Real.rpow_pos_of_pos hq _) hx0, Real.log_rpow hq]
  linarith

/-- The wave inequality for a shock. -/
theorem wave_inequality_shock {gamma sigma r rho w T p ps mu : ℝ} (hg : 1 < gamma) (hs : 0 ≤ sigma) (hr : 0 < r)
    (hrho : 0 < rho) (hp : 0 < p) (hT : 0 ≤ T) (hent : sigma * rho ^ gamma ≤ p / (gamma - 1)) (hps : p < ps)
    (hmu : Spec.gasSound gamma rho p * Spec.gasSpeedFactor gamma p ps ≤ mu) :
    (ps - (gamma - 1) * sigma * r ^ gamma) * (w - Spec.gasWave gamma rho p ps) ≤
      mu * supportGap gamma sigma r rho w T p + (p - (gamma - 1) * sigma * r ^ gamma) * w := by
  have h0 : 0 < gamma := by linarith
  have h1 : 0 < gamma - 1 := by linarith
  have h2 : 0 < gamma + 1 := by linarith
  have hgap := supportGap_nonneg (w := w) hg hs hr hrho.le hT hent
  refine le_trans ?_ (add_le_add_left (mul_le_mul_of_nonneg_right hmu hgap) _)
  set D := (gamma + 1) * ps + (gamma - 1) * p with hD
  set N := (gamma - 1) * ps + (gamma + 1) * p with hN
  have hDpos : 0 < D := by simp only [hD]; nlinarith
  have hNpos : 0 < N := by simp only [hN]; nlinarith
  set m := √(rho * D / 2) with hm
  have hmpos : 0 < m := Real.sqrt_pos.2 (by positivity)
  have hmsq : m ^ 2 = rho * D / 2 := Real.sq_sqrt (by positivity)
  have hspeed : Spec.gasSound gamma rho p * Spec.gasSpeedFactor gamma p ps = m / rho := by
    unfold Spec.gasSound Spec.gasSpeedFactor
    rw [if_neg (not_le.2 hps), ← Real.sqrt_mul (by positivity)]
    rw [show m / rho = √(rho * D / 2 / rho ^ 2) by rw [Real.sqrt_div' _ (sq_nonneg _), Real.sqrt_sq hrho.le]]
    congr 1
    rw [hD]
    field_simp
  have hwave : Spec.gasWave gamma rho p ps = (ps - p) / m := by
    unfold Spec.gasWave
    rw [if_neg (not_le.2 hps), div_eq_mul_inv (ps - p) m, hm, ← Real.sqrt_inv]
    congr 2
    have e : ps + (gamma - 1) / (gamma + 1) * p = D / (gamma + 1) := by rw [hD]; field_simp
    rw [e]
    clear_value D
    field_simp
  rw [hspeed, hwave]
  -- the state behind the shock
  set rs := rho * D / N with hrs
  have hrspos : 0 < rs := by positivity
  have hents : sigma * rs ^ gamma ≤ ps / (gamma - 1) := by
    have hx : 1 ≤ ps / p := by rw [le_div_iff₀ hp]; linarith
    have hse := shock_entropy hg hx
    have e : ((gamma + 1) * (ps / p) + (gamma - 1)) / ((gamma - 1) * (ps / p) + (gamma + 1)) = D / N := by
      rw [show (gamma + 1) * (ps / p) + (gamma - 1) = D / p by rw [hD]; field_simp,
        show (gamma - 1) * (ps / p) + (gamma + 1) = N / p by rw [hN]; field_simp]
      clear_value D N
      field_simp
    rw [e] at hse
    have e2 : rs ^ gamma = rho ^ gamma * (D / N) ^ gamma := by
      rw [hrs, mul_div_assoc, Real.mul_rpow hrho.le (by positivity)]
    rw [e2]
    calc sigma * (rho ^ gamma * (D / N) ^ gamma) = sigma * rho ^ gamma * (D / N) ^ gamma := by ring
      _ ≤ p / (gamma - 1) * (ps / p) := by
        apply mul_le_mul hent hse (by positivity) (by positivity)
      _ = ps / (gamma - 1) := by field_simp
  have hgaps := supportGap_nonneg (w := w - (ps - p) / m) hg hs hr hrspos.le hT hents
  have key : m / rho * supportGap gamma sigma r rho w T p + (p - (gamma - 1) * sigma * r ^ gamma) * w =
      m / rs * supportGap gamma sigma r rs (w - (ps - p) / m) T ps +
        (ps - (gamma - 1) * sigma * r ^ gamma) * (w - (ps - p) / m) := by
    unfold supportGap
    generalize r ^ gamma = R at *
    generalize gamma * sigma * r ^ (gamma - 1) = c at *
    -- 1 / rs = 1 / rho - (ps - p) / m²
    have hinv : 1 / rs = 1 / rho - (ps - p) / m ^ 2 := by
      rw [hrs, hmsq]
      have : N = D - 2 * (ps - p) := by rw [hN, hD]; ring
      rw [this] at hNpos ⊢
      clear_value D N
      have := hNpos.ne'
      field_simp
    have e1 : ∀ X, m / rs * X = m * (1 / rs) * X := fun X => by ring
    have e2 : m / rs * (ps / (gamma - 1) + 1 / 2 * rs * ((w - (ps - p) / m) ^ 2 + T) - c * rs + (gamma - 1) * sigma * R) =
        m * (1 / rs) * (ps / (gamma - 1) + (gamma - 1) * sigma * R) +
          m * (1 / 2 * ((w - (ps - p) / m) ^ 2 + T) - c) := by
      field_simp
      ring
    rw [e2, hinv]
    have hD2 : D = 2 * m ^ 2 / rho := by rw [hmsq]; field_simp
    have hm2 : m ^ 2 * 2 = rho * ((gamma + 1) * ps + (gamma - 1) * p) := by rw [hmsq, hD]; ring
    clear_value m D N rs
    clear hspeed hwave hents hgaps hgap e1 e2 hinv hrs hD2 hmsq hmu
    field_simp
    linear_combination (p - ps) * hm2
  rw [key]
  have : 0 ≤ m / rs * supportGap gamma sigma r rs (w - (ps - p) / m) T ps := mul_nonneg (by positivity) hgaps
  linarith

/-! ### Rarefaction -/

/-- The wave inequality for a rarefaction (`ps = 0` is the expansion into vacuum). -/
theorem wave_inequality_rarefaction {gamma sigma r rho w T p ps mu : ℝ} (hg : 1 < gamma) (hs : 0 ≤ sigma) (hr : 0 < r)
    (hrho : 0 < rho) (hp : 0 < p) (hT : 0 ≤ T) (hent : sigma * rho ^ gamma ≤ p / (gamma - 1)) (hps0 : 0 ≤ ps)
    (hps : ps ≤ p) (hmu : Spec.gasSound gamma rho p * Spec.gasSpeedFactor gamma p ps ≤ mu) :
    (ps - (gamma - 1) * sigma * r ^ gamma) * (w - Spec.gasWave gamma rho p ps) ≤
      mu * supportGap gamma sigma r rho w T p + (p - (gamma - 1) * sigma * r ^ gamma) * w := by
  have h0 : 0 < gamma := by linarith
  have h1 : 0 < gamma - 1 := by linarith
  have hgap := supportGap_nonneg (w := w) hg hs hr hrho.le hT hent
  refine le_trans ?_ (add_le_add_left (mul_le_mul_of_nonneg_right hmu hgap) _)
  unfold Spec.gasSpeedFactor Spec.gasWave
  rw [if_pos hps, if_pos hps, mul_one]
  set a := Spec.gasSound gamma rho p with ha
  have hapos : 0 < a := Real.sqrt_pos.2 (by positivity)
  have hasq : a ^ 2 = gamma * p / rho := Real.sq_sqrt (by positivity)
  set P := (gamma - 1) * sigma * r ^ gamma with hP
  set k := 2 / (gamma - 1) with hk
  have hkpos : 0 < k := by positivity
  -- the isentrope, parametrised by the ratio `y` of the speeds of sound
  set wv : ℝ → ℝ := fun y => w - k * a * (y - 1) with hwv
  set gap : ℝ → ℝ := fun y => supportGap gamma sigma r (rho * y ^ k) (wv y) T (p * (y ^ k * y ^ 2)) with hgapdef
  set H : ℝ → ℝ := fun y => a * y * gap y + (p * (y ^ k * y ^ 2) - P) * wv y with hH
  have hent' : ∀ y : ℝ, 0 ≤ y → sigma * (rho * y ^ k) ^ gamma ≤ p * (y ^ k * y ^ 2) / (gamma - 1) := by
    intro y hy
    have e : (y ^ k) ^ gamma = y ^ k * y ^ 2 := by
      rw [← Real.rpow_mul hy, ← Real.rpow_natCast y 2, ← Real.rpow_add' hy (by push_cast; positivity)]
      congr 1
      rw [hk]; push_cast; field_simp; ring
    rw [Real.mul_rpow hrho.le (by positivity), e, mul_div_right_comm, ← mul_assoc]
    exact mul_le_mul_of_nonneg_right hent (by positivity)
  have hgapnn : ∀ y : ℝ, 0 ≤ y → 0 ≤ gap y := fun y hy =>
    supportGap_nonneg hg hs hr (by positivity) hT (hent' y hy)
  have hcz : Continuous fun y : ℝ => y ^ k := Real.continuous_rpow_const hkpos.le
  have hcont : Continuous H := by
    simp only [hH, hgapdef, hwv, supportGap]
    fun_prop
  have hder : ∀ y : ℝ, 0 < y → HasDerivAt H ((1 + k) * a * gap y) y := by
    intro y hy
    have dz : HasDerivAt (fun y : ℝ => y ^ k) (k * y ^ k / y) y := by
      have := Real.hasDerivAt_rpow_const (x := y) (p := k) (Or.inl hy.ne')
      rwa [Real.rpow_sub_one hy.ne', ← mul_div_assoc] at this
    have dw : HasDerivAt wv (-(k * a)) y := by
      have := (((hasDerivAt_id y).sub_const 1).const_mul (k * a)).const_sub w
      simpa [hwv] using this
    have dy2 : HasDerivAt (fun y : ℝ => y ^ 2) (2 * y) y := by simpa using hasDerivAt_pow 2 y
    have dp := (dz.mul dy2).const_mul p
    have drho := dz.const_mul rho
    have dgap : HasDerivAt gap
        (p * (k * y ^ k / y * y ^ 2 + y ^ k * (2 * y)) / (gamma - 1) +
          (1 / 2 * (rho * (k * y ^ k / y)) * (wv y ^ 2 + T) + 1 / 2 * (rho * y ^ k) * (2 * wv y * (-(k * a)))) -
          gamma * sigma * r ^ (gamma - 1) * (rho * (k * y ^ k / y))) y := by
      have d1 := dp.div_const (gamma - 1)
      have d2 := (drho.const_mul (1 / 2)).mul ((dw.pow 2).add_const T)
      have d3 := drho.const_mul (gamma * sigma * r ^ (gamma - 1))
      have d := ((d1.add d2).sub d3).add_const ((gamma - 1) * sigma * r ^ gamma)
      refine d.congr_deriv ?_
      simp
    have dH := (((hasDerivAt_id y).const_mul a).mul dgap).add ((dp.sub_const P).mul dw)
    refine dH.congr_deriv ?_
    simp only [hgapdef, supportGap, id, Pi.mul_apply]
    generalize y ^ k = z at *
    generalize wv y = W at *
    rw [← hP]
    generalize gamma * sigma * r ^ (gamma - 1) = c at *
    clear_value P
    have hkg : gamma = 1 + 2 / k := by rw [hk]; field_simp; ring
    have e2 : a ^ 2 * rho = gamma * p := by rw [hasq]; field_simp
    have e4 : k * (gamma - 1) = 2 := by rw [hk]; field_simp
    have hg1 := h1.ne'
    clear_value k a
    have hp2 : p = a ^ 2 * rho / gamma := by rw [e2]; field_simp
    rw [hp2]
    have hk2 : k = 2 / (gamma - 1) := by rw [eq_div_iff hg1]; exact e4
    rw [hk2]
    clear e4 e2 hp2 hk2 hkg dH dgap drho dp dw dz
    field_simp
    ring
  have hmono : MonotoneOn H (Set.Ici 0) := by
    refine monotoneOn_of_deriv_nonneg (convex_Ici 0) hcont.continuousOn ?_ ?_
    · intro x hx
      rw [interior_Ici] at hx
      exact (hder x hx).differentiableAt.differentiableWithinAt
    · intro x hx
      rw [interior_Ici] at hx
      rw [(hder x hx).deriv]
      exact mul_nonneg (by positivity) (hgapnn x (le_of_lt hx))
  set ys := (ps / p) ^ ((gamma - 1) / (2 * gamma)) with hys
  have hys0 : 0 ≤ ys := by positivity
  have hys1 : ys ≤ 1 := Real.rpow_le_one (by positivity) (by rw [div_le_one hp]; exact hps) (by positivity)
  have hfin := hmono (Set.mem_Ici.2 hys0) (Set.mem_Ici.2 zero_le_one) hys1
  have e1 : H 1 = a * supportGap gamma sigma r rho w T p + (p - P) * w := by
    simp [hH, hgapdef, hwv]
  have e2 : p * (ys ^ k * ys ^ 2) = ps := by
    rw [← Real.rpow_natCast ys 2, ← Real.rpow_add' hys0 (by push_cast; positivity), hys,
      ← Real.rpow_mul (by positivity)]
    rw [show (gamma - 1) / (2 * gamma) * (k + ((2 : ℕ) : ℝ)) = 1 by rw [hk]; push_cast; field_simp; ring, Real.rpow_one]
    field_simp
  have e3 : (ps - P) * (w - 2 * a / (gamma - 1) * (ys - 1)) ≤ H ys := by
    simp only [hH, e2, hwv]
    have : 0 ≤ a * ys * gap ys := mul_nonneg (by positivity) (hgapnn _ hys0)
    rw [show 2 * a / (gamma - 1) = k * a by rw [hk]; ring]
    linarith
  linarith

/-- **The wave inequality.**  If a wave connects the state `(rho, w, p)` to the pressure `ps ≥ 0` and moves, relative to
the state, at most at speed `mu`. -/
theorem wave_inequality {gamma sigma r rho w T p ps mu : ℝ} (hg : 1 < gamma) (hs : 0 ≤ sigma) (hr : 0 < r)
    (hrho : 0 < rho) (hp : 0 < p) (hT : 0 ≤ T) (hent : sigma * rho ^ gamma ≤ p / (gamma - 1)) (hps0 : 0 ≤ ps)
    (hmu : Spec.gasSound gamma rho p * Spec.gasSpeedFactor gamma p ps ≤ mu) :
    (ps - (gamma - 1) * sigma * r ^ gamma) * (w - Spec.gasWave gamma rho p ps) ≤
      mu * supportGap gamma sigma r rho w T p + (p - (gamma - 1) * sigma * r ^ gamma) * w := by
  rcases le_or_gt ps p with h | h
  · exact wave_inequality_rarefaction hg hs hr hrho hp hT hent hps0 h hmu
  · exact wave_inequality_shock hg hs hr hrho hp hT hent h hmu

end Euler
end Ryujin
