import Verif.Model.AeosSystem
import Verif.Proofs.EulerLimiter
import Mathlib.Analysis.Convex.Mul
import Mathlib.Analysis.Convex.SpecificFunctions.Basic

/-!
# Helper lemmas: the limiting functional of the arbitrary-EOS Euler equations along a line
-/

namespace Ryujin

open scoped BigOperators
open Euler (State density momentum totalEnergy internalEnergy internalEnergyDerivative mkState)

/-- Negative powers are convex on the positive half line. -/
theorem rpow_neg_convex {k x y la lb : ℝ} (hk : 0 ≤ k) (hx : 0 < x) (hy : 0 < y) (hla : 0 ≤ la)
    (hlb : 0 ≤ lb) (hsum : la + lb = 1) :
    (la * x + lb * y) ^ (-k) ≤ la * x ^ (-k) + lb * y ^ (-k) := by
  have hz : 0 < la * x + lb * y := by
    rcases eq_or_lt_of_le hla with h | h
    · have : lb = 1 := by linarith
      rw [← h, this]; linarith
    · have := mul_pos h hx
      have := mul_nonneg hlb hy.le
      linarith
  have h1 := strictConcaveOn_log_Ioi.concaveOn.2 (Set.mem_Ioi.2 hx) (Set.mem_Ioi.2 hy) hla hlb hsum
  simp only [smul_eq_mul] at h1
  have h2 := convexOn_exp.2 (Set.mem_univ (Real.log x * -k)) (Set.mem_univ (Real.log y * -k)) hla hlb
    hsum
  simp only [smul_eq_mul] at h2
  rw [Real.rpow_def_of_pos hz, Real.rpow_def_of_pos hx, Real.rpow_def_of_pos hy]
  refine le_trans (Real.exp_le_exp.2 ?_) h2
  nlinarith

/-- The admissible densities of the interpolatory equation of state. -/
def covolumeDomain (b : ℝ) : Set ℝ := {r | 0 < r ∧ 0 < 1 - b * r}

theorem covolumeDomain_convex (b : ℝ) : Convex ℝ (covolumeDomain b) := by
  intro x hx y hy la lb hla hlb hsum
  refine ⟨?_, ?_⟩
  · simp only [smul_eq_mul]
    rcases eq_or_lt_of_le hla with h | h
    · have : lb = 1 := by linarith
      rw [← h, this]; linarith [hy.1]
    · have := mul_pos h hx.1
      have := mul_nonneg hlb hy.1.le
      linarith
  · simp only [smul_eq_mul]
    have e : 1 - b * (la * x + lb * y) = la * (1 - b * x) + lb * (1 - b * y) := by
      linear_combination (-1 : ℝ) * hsum
    rw [e]
    rcases eq_or_lt_of_le hla with h | h
    · have : lb = 1 := by linarith
      rw [← h, this]; linarith [hy.2]
    · have := mul_pos h hx.2
      have := mul_nonneg hlb hy.2.le
      linarith

/-- `rho^g (1 - b rho)^(-k)` is convex on the admissible densities. -/
theorem covolume_profile_convex {b g k : ℝ} (hb : 0 ≤ b) (hg : 1 ≤ g) (hk : 0 ≤ k) :
    ConvexOn ℝ (covolumeDomain b) (fun r => r ^ g * (1 - b * r) ^ (-k)) := by
  have h1 : ConvexOn ℝ (covolumeDomain b) (fun r : ℝ => r ^ g) :=
    ⟨covolumeDomain_convex b, fun x hx y hy la lb hla hlb hsum => by
      simpa using Euler.rpow_convex hg hx.1 hy.1 hla hlb hsum⟩
  have h2 : ConvexOn ℝ (covolumeDomain b) (fun r : ℝ => (1 - b * r) ^ (-k)) :=
    ⟨covolumeDomain_convex b, fun x hx y hy la lb hla hlb hsum => by
      have e : 1 - b * (la * x + lb * y) = la * (1 - b * x) + lb * (1 - b * y) := by
        linear_combination (-1 : ℝ) * hsum
      simpa [e] using rpow_neg_convex hk hx.2 hy.2 hla hlb hsum⟩
  refine h1.mul h2 (fun x hx => Real.rpow_nonneg hx.1.le _) (fun x hx => Real.rpow_nonneg hx.2.le _) ?_
  intro x hx y hy hlt
  -- `g x < g y` forces `x ≤ y`
  have hxy : x ≤ y := by
    by_contra hcon
    push Not at hcon
    have h3 : 1 - b * x ≤ 1 - b * y := by nlinarith
    have h4 := Real.rpow_le_rpow_of_nonpos hx.2 h3 (by linarith : -k ≤ 0)
    simp only at hlt
    linarith
  exact Real.rpow_le_rpow hx.1.le hxy (by linarith)

/-- A function whose derivative is affine minus `s r₁` times a convex profile of an affine density is
3-convex or 3-concave. -/
theorem threeConvex_of_profile {a b : ℝ} {psi dpsi : ℝ → ℝ} (A B r0 r1 s : ℝ) (g : ℝ → ℝ)
    (D : Set ℝ) (hD : ∀ t ∈ Set.Icc a b, r0 + t * r1 ∈ D) (hg : ConvexOn ℝ D g) (hs : 0 ≤ s)
    (hder : ∀ t ∈ Set.Icc a b, HasDerivAt psi (dpsi t) t)
    (hform : ∀ t ∈ Set.Icc a b, dpsi t = A + t * B - s * r1 * g (r0 + t * r1)) :
    ThreeConvexOrConcave a b psi dpsi := by
  refine ⟨hder, ?_⟩
  have hc : ∀ x ∈ Set.Icc a b, ∀ y ∈ Set.Icc a b, ∀ la lb : ℝ, 0 ≤ la → 0 ≤ lb → la + lb = 1 →
      g (r0 + (la * x + lb * y) * r1) ≤ la * g (r0 + x * r1) + lb * g (r0 + y * r1) := by
    intro x hx y hy la lb hla hlb hsum
    have := hg.2 (hD x hx) (hD y hy) hla hlb hsum
    simp only [smul_eq_mul] at this
    refine le_trans (le_of_eq ?_) this
    congr 1
    have : r0 = (la + lb) * r0 := by rw [hsum, one_mul]
    linear_combination this
  rcases le_total r1 0 with h | h
  · left
    refine ⟨convex_Icc a b, fun x hx y hy la lb hla hlb hsum => ?_⟩
    have hz := (convex_Icc a b) hx hy hla hlb hsum
    have hC : 0 ≤ -(s * r1) := by nlinarith
    have := mul_le_mul_of_nonneg_left (hc x hx y hy la lb hla hlb hsum) hC
    rw [hform _ hz, hform x hx, hform y hy]
    simp only [smul_eq_mul] at this ⊢
    have e : A = (la + lb) * A := by rw [hsum, one_mul]
    nlinarith
  · right
    refine ⟨convex_Icc a b, fun x hx y hy la lb hla hlb hsum => ?_⟩
    have hz := (convex_Icc a b) hx hy hla hlb hsum
    have hC : -(s * r1) ≤ 0 := by nlinarith
    have := mul_le_mul_of_nonpos_left (hc x hx y hy la lb hla hlb hsum) hC
    rw [hform _ hz, hform x hx, hform y hy]
    simp only [smul_eq_mul] at this ⊢
    have e : A = (la + lb) * A := by rw [hsum, one_mul]
    nlinarith

namespace Aeos

variable {dim : ℕ}

/-- Admissible density: positive, with positive covolume. -/
def DensityOk (p : Params) (r : ℝ) : Prop := r ∈ covolumeDomain p.b

theorem psi_line (p : Params) (heps : p.eps = 0) (gamma s : ℝ) (U P : State dim) (t : ℝ)
    (h : 0 < density (U + t • P)) :
    psi p gamma s U P t = (density U + t * density P) * (totalEnergy U + t * totalEnergy P)
      - 1 / 2 * (normSq (momentum U) + 2 * t * dot (momentum U) (momentum P)
        + t ^ 2 * normSq (momentum P))
      - (density U + t * density P) ^ 2 * p.q
      - p.pinf * (density U + t * density P) * (1 - p.b * (density U + t * density P))
      - s * ((density U + t * density P) ^ (gamma + 1) *
          (1 - p.b * (density U + t * density P)) ^ (-(gamma - 1))) := by
  have h1 := Euler.rho_rhoe (U + t • P) h.ne'
  have h2 : (density U + t * density P) ^ (gamma + 1) =
      (density U + t * density P) * (density U + t * density P) ^ gamma := by
    rw [Real.rpow_add_one (by simpa [Euler.density_line] using h.ne'), mul_comm]
  rw [h2]
  simp only [Euler.density_line, Euler.momentum_add, Euler.momentum_smul, Euler.totalEnergy_add,
    Euler.totalEnergy_smul, normSq_add_smul] at h1
  unfold psi covolume
  simp only [heps, mul_zero, add_zero, one_mul, Euler.density_line]
  linear_combination h1

theorem dpsi_line (p : Params) (gamma s : ℝ) (U P : State dim) (t : ℝ)
    (h : DensityOk p (density (U + t • P))) :
    dpsi p gamma s U P t = density P * (totalEnergy U + t * totalEnergy P)
      + (density U + t * density P) * totalEnergy P
      - (dot (momentum U) (momentum P) + t * normSq (momentum P))
      - (2 * (density U + t * density P) * p.q
          + p.pinf * (1 - 2 * p.b * (density U + t * density P))) * density P
      - s * density P * (2 * ((density U + t * density P) ^ gamma *
            (1 - p.b * (density U + t * density P)) ^ (-(gamma - 1)))
          + (gamma - 1) * ((density U + t * density P) ^ gamma *
            (1 - p.b * (density U + t * density P)) ^ (-gamma))) := by
  have hE := Euler.dpsi_line (⟨gamma, 0, 0, 0, 0⟩ : Euler.Params) 0 U P t h.1
  have hr : 0 < density U + t * density P := h.1
  have hx : 0 < 1 - p.b * (density U + t * density P) := h.2
  have e1 : ((density U + t * density P) / (1 - p.b * (density U + t * density P))) ^ gamma
      = (density U + t * density P) ^ gamma *
        (1 - p.b * (density U + t * density P)) ^ (-gamma) := by
    rw [Real.div_rpow hr.le hx.le, Real.rpow_neg hx.le, div_eq_mul_inv]
  have e2 : (1 - p.b * (density U + t * density P)) ^ (-(gamma - 1))
      = (1 - p.b * (density U + t * density P)) *
        (1 - p.b * (density U + t * density P)) ^ (-gamma) := by
    rw [show (-(gamma - 1) : ℝ) = 1 + -gamma by ring, Real.rpow_add hx, Real.rpow_one]
  unfold Euler.dpsi at hE
  unfold dpsi covolume
  simp only [Euler.density_line] at hE ⊢
  rw [e1, e2]
  simp only [mul_zero, zero_mul, sub_zero] at hE
  linear_combination hE

theorem psi_hasDeriv (p : Params) (heps : p.eps = 0) {gamma : ℝ} (hg : 1 ≤ gamma) (s : ℝ)
    (U P : State dim) (t : ℝ) (h : DensityOk p (density (U + t • P))) :
    HasDerivAt (psi p gamma s U P) (dpsi p gamma s U P t) t := by
  have hr0 : 0 < density U + t * density P := h.1
  have hx0 : 0 < 1 - p.b * (density U + t * density P) := h.2
  have hcont : Continuous fun x : ℝ => density U + x * density P := by fun_prop
  have hev : ∀ᶠ x in nhds t, 0 < density (U + x • P) :=
    hcont.continuousAt.eventually (lt_mem_nhds h.1)
  have hpsi : psi p gamma s U P =ᶠ[nhds t] _ :=
    hev.mono fun x hx => psi_line p heps gamma s U P x hx
  refine HasDerivAt.congr_of_eventuallyEq ?_ hpsi
  have hr : HasDerivAt (fun x : ℝ => density U + x * density P) (density P) t := by
    simpa using ((hasDerivAt_id t).mul_const (density P)).const_add (density U)
  have hE : HasDerivAt (fun x : ℝ => totalEnergy U + x * totalEnergy P) (totalEnergy P) t := by
    simpa using ((hasDerivAt_id t).mul_const (totalEnergy P)).const_add (totalEnergy U)
  have hx : HasDerivAt (fun x : ℝ => 1 - p.b * (density U + x * density P)) (-(p.b * density P)) t := by
    simpa using (hr.const_mul p.b).const_sub 1
  have hm : HasDerivAt (fun x : ℝ => normSq (momentum U) + 2 * x * dot (momentum U) (momentum P)
        + x ^ 2 * normSq (momentum P))
      (2 * dot (momentum U) (momentum P) + 2 * t * normSq (momentum P)) t := by
    have h1 := ((((hasDerivAt_id t).const_mul 2).mul_const (dot (momentum U) (momentum P))).const_add
      (normSq (momentum U))).add (((hasDerivAt_id t).pow 2).mul_const (normSq (momentum P)))
    refine (h1.congr_of_eventuallyEq (Filter.Eventually.of_forall fun x => ?_)).congr_deriv ?_
    · simp
    · simp
  have hp1 : HasDerivAt (fun x : ℝ => (density U + x * density P) ^ (gamma + 1))
      (density P * (gamma + 1) * (density U + t * density P) ^ (gamma + 1 - 1)) t :=
    hr.rpow_const (Or.inr (by linarith))
  have hp2 : HasDerivAt (fun x : ℝ => (1 - p.b * (density U + x * density P)) ^ (-(gamma - 1)))
      (-(p.b * density P) * (-(gamma - 1)) *
        (1 - p.b * (density U + t * density P)) ^ (-(gamma - 1) - 1)) t :=
    hx.rpow_const (Or.inl hx0.ne')
  have := ((((hr.mul hE).sub (hm.const_mul (1 / 2))).sub ((hr.pow 2).mul_const p.q)).sub
    ((hr.const_mul p.pinf).mul hx)).sub ((hp1.mul hp2).const_mul s)
  refine this.congr_deriv ?_
  rw [dpsi_line p gamma s U P t h]
  have e1 : (density U + t * density P) ^ (gamma + 1) =
      (density U + t * density P) * (density U + t * density P) ^ gamma := by
    rw [Real.rpow_add_one hr0.ne', mul_comm]
  have e2 : (1 - p.b * (density U + t * density P)) ^ (-(gamma - 1))
      = (1 - p.b * (density U + t * density P)) *
        (1 - p.b * (density U + t * density P)) ^ (-gamma) := by
    rw [show (-(gamma - 1) : ℝ) = 1 + -gamma by ring, Real.rpow_add hx0, Real.rpow_one]
  have e3 : (-(gamma - 1) - 1 : ℝ) = -gamma := by ring
  rw [e1, e2, e3]
  simp only [add_sub_cancel_right]
  push_cast
  ring

theorem psi_threeConvex (p : Params) (heps : p.eps = 0) (hb : 0 ≤ p.b) {gamma : ℝ} (hg : 1 ≤ gamma)
    {s : ℝ} (hs : 0 ≤ s) (U P : State dim) {a b : ℝ}
    (h : ∀ t ∈ Set.Icc a b, DensityOk p (density (U + t • P))) :
    ThreeConvexOrConcave a b (psi p gamma s U P) (dpsi p gamma s U P) := by
  refine threeConvex_of_profile
    (density P * totalEnergy U + density U * totalEnergy P - dot (momentum U) (momentum P)
      - (2 * density U * p.q + p.pinf * (1 - 2 * p.b * density U)) * density P)
    (2 * density P * totalEnergy P - normSq (momentum P)
      - (2 * density P * p.q - 2 * p.pinf * p.b * density P) * density P)
    (density U) (density P) s
    (fun r => 2 * (r ^ gamma * (1 - p.b * r) ^ (-(gamma - 1)))
      + (gamma - 1) * (r ^ gamma * (1 - p.b * r) ^ (-gamma)))
    (covolumeDomain p.b) h ?_ hs (fun t ht => psi_hasDeriv p heps hg s U P t (h t ht)) ?_
  · have h1 := (covolume_profile_convex (b := p.b) hb hg (by linarith : 0 ≤ gamma - 1)).smul
      (by norm_num : (0 : ℝ) ≤ 2)
    have h2 := (covolume_profile_convex (b := p.b) hb hg (by linarith : 0 ≤ gamma)).smul
      (by linarith : 0 ≤ gamma - 1)
    exact h1.add h2
  · intro t ht
    rw [dpsi_line p gamma s U P t (h t ht)]
    ring

theorem psi_nonneg_iff (p : Params) (heps : p.eps = 0) (gamma s : ℝ) (U P : State dim) (t : ℝ)
    (h : 0 < density (U + t • P)) :
    0 ≤ psi p gamma s U P t ↔
      s * (density (U + t • P) ^ gamma * (1 - p.b * density (U + t • P)) ^ (-(gamma - 1)))
        ≤ shift p (U + t • P) := by
  have e : psi p gamma s U P t = density (U + t • P) * (shift p (U + t • P) -
      s * (density (U + t • P) ^ gamma * (1 - p.b * density (U + t • P)) ^ (-(gamma - 1)))) := by
    unfold psi shift covolume
    simp only [heps, mul_zero, add_zero, one_mul]
    ring
  rw [e]
  constructor
  · intro h'
    have := nonneg_of_mul_nonneg_right h' h
    linarith
  · intro h'
    exact mul_nonneg h.le (sub_nonneg.2 h')

theorem entropy_iff (p : Params) (gamma s : ℝ) (U : State dim) (h : DensityOk p (density U)) :
    s ≤ surrogateSpecificEntropy p U gamma ↔
      s * (density U ^ gamma * (1 - p.b * density U) ^ (-(gamma - 1))) ≤ shift p U := by
  have hr : 0 < density U := h.1
  have hx : 0 < 1 - p.b * density U := h.2
  have e0 : 1 / density U - p.b = (1 - p.b * density U) / density U := by field_simp
  have hpos : 0 < density U ^ gamma * (1 - p.b * density U) ^ (-(gamma - 1)) :=
    mul_pos (Real.rpow_pos_of_pos hr _) (Real.rpow_pos_of_pos hx _)
  have e : surrogateSpecificEntropy p U gamma =
      shift p U / (density U ^ gamma * (1 - p.b * density U) ^ (-(gamma - 1))) := by
    unfold surrogateSpecificEntropy covolume
    rw [e0, Real.div_rpow hx.le hr.le, Real.rpow_neg hx.le, Real.rpow_sub hx, Real.rpow_one]
    have h1 := (Real.rpow_pos_of_pos hr gamma).ne'
    have h2 := (Real.rpow_pos_of_pos hx gamma).ne'
    field_simp
  rw [e, le_div_iff₀ hpos]

/-- The set of admissible states with surrogate entropy at least `s` is convex. -/
theorem entropySet_convex (p : Params) (hb : 0 ≤ p.b) {gamma s : ℝ} (hg : 1 ≤ gamma) (hs : 0 ≤ s)
    (U V : State dim) {la lb : ℝ} (hU : DensityOk p (density U)) (hV : DensityOk p (density V))
    (hla : 0 ≤ la) (hlb : 0 ≤ lb) (hsum : la + lb = 1)
    (hU' : s * (density U ^ gamma * (1 - p.b * density U) ^ (-(gamma - 1))) ≤ shift p U)
    (hV' : s * (density V ^ gamma * (1 - p.b * density V) ^ (-(gamma - 1))) ≤ shift p V) :
    s * (density (la • U + lb • V) ^ gamma *
      (1 - p.b * density (la • U + lb • V)) ^ (-(gamma - 1))) ≤ shift p (la • U + lb • V) := by
  have h1 := Euler.internalEnergy_concave U V hU.1 hV.1 hla hlb hsum
  have h2 := (covolume_profile_convex (b := p.b) hb hg (by linarith : 0 ≤ gamma - 1)).2 hU hV hla hlb
    hsum
  simp only [smul_eq_mul] at h2
  have h3 := mul_le_mul_of_nonneg_left h2 hs
  have h4 := mul_le_mul_of_nonneg_left hU' hla
  have h5 := mul_le_mul_of_nonneg_left hV' hlb
  unfold shift covolume at *
  simp only [Euler.density_add, Euler.density_smul] at *
  have e : p.pinf = (la + lb) * p.pinf := by rw [hsum, one_mul]
  nlinarith

/-- The good set along a line is an interval. -/
theorem psi_interval (p : Params) (heps : p.eps = 0) (hb0 : 0 ≤ p.b) {gamma : ℝ} (hg : 1 ≤ gamma)
    {s : ℝ} (hs : 0 ≤ s) (U P : State dim) {a b : ℝ} (ha : DensityOk p (density (U + a • P)))
    (hb : DensityOk p (density (U + b • P))) (ha' : 0 ≤ psi p gamma s U P a)
    (hb' : 0 ≤ psi p gamma s U P b) (t : ℝ) (ht : t ∈ Set.Icc a b) : 0 ≤ psi p gamma s U P t := by
  rcases eq_or_lt_of_le (ht.1.trans ht.2) with hab | hab
  · have : t = a := le_antisymm (ht.2.trans hab.ge) ht.1
    rw [this]; exact ha'
  · set lb := (t - a) / (b - a) with hlb
    set la := (b - t) / (b - a) with hla
    have hba : 0 < b - a := sub_pos.2 hab
    have h1 : 0 ≤ la := div_nonneg (sub_nonneg.2 ht.2) hba.le
    have h2 : 0 ≤ lb := div_nonneg (sub_nonneg.2 ht.1) hba.le
    have h3 : la + lb = 1 := by rw [hla, hlb]; field_simp; ring
    have ht' : la * a + lb * b = t := by rw [hla, hlb]; field_simp; ring
    have hV : la • (U + a • P) + lb • (U + b • P) = U + t • P := by
      rw [← ht']
      have : U = (la + lb) • U := by rw [h3, one_smul]
      conv_rhs => rw [this]
      module
    have hd : DensityOk p (density (U + t • P)) := by
      rw [← hV]
      exact covolumeDomain_convex p.b ha hb h1 h2 h3
    rw [psi_nonneg_iff p heps gamma s U P _ hd.1]
    rw [psi_nonneg_iff p heps gamma s U P _ ha.1] at ha'
    rw [psi_nonneg_iff p heps gamma s U P _ hb.1] at hb'
    have := entropySet_convex p hb0 hg hs (U + a • P) (U + b • P) ha hb h1 h2 h3 ha' hb'
    rwa [hV] at this

end Aeos

end Ryujin
