import Verif.Proofs.AeosRiemann
import Verif.Spec.AeosWaves
import Verif.Props.EulerRiemann
import Verif.Props.AeosLimiter

/-!
# C08, C09, C10 and C68 for the Euler equations with arbitrary equation of state
-/

namespace Ryujin
namespace Aeos

open Euler (State density momentum totalEnergy internalEnergy mkState)

variable {dim : ℕ}

/-! ### C08 -/

theorem denominator_nonneg (st : IndicatorState dim) : 0 ≤ st.denominator :=
  (abs_nonneg _).trans (Euler.foldl_add_abs_ge (fun k => st.d_eta_i k * st.right k) _ _)

theorem accumulate_eta (P : Params) (row : List (State dim × Vec dim)) (st : IndicatorState dim) :
    (row.foldl (fun st e => st.accumulate P e.1 e.2) st).eta_i = st.eta_i := by
  induction row generalizing st with
  | nil => rfl
  | cons a l ih => rw [List.foldl_cons, ih]; rfl

/-- **C08 (arbitrary equation of state).** -/
theorem C08_aeos_indicator (P : Params) (evc_factor gamma_min_i hd_i : ℝ) (U_i : State dim)
    (row : List (State dim × Vec dim)) (hevc : 0 ≤ evc_factor) (hhd : 0 ≤ hd_i) :
    0 ≤ indicator P evc_factor gamma_min_i U_i row hd_i ∧ indicator P evc_factor gamma_min_i U_i row hd_i ≤ 1 := by
  unfold indicator IndicatorState.alpha
  refine ⟨le_min zero_le_one ?_, min_le_left _ _⟩
  refine mul_nonneg hevc (div_nonneg (abs_nonneg _) ?_)
  exact add_nonneg (denominator_nonneg _) (mul_nonneg hhd (abs_nonneg _))

/-- **C08 (arbitrary equation of state, no division by zero).** -/
theorem C08_aeos_indicator_denominator_pos (P : Params) (gamma_min_i hd_i : ℝ) (U_i : State dim)
    (row : List (State dim × Vec dim)) (hr : 0 < density U_i) (hx : 0 < 1 - P.b * density U_i) (hs : 0 < shift P U_i)
    (hhd : 0 < hd_i) :
    0 < (row.foldl (fun st e => st.accumulate P e.1 e.2)
        (IndicatorState.reset P gamma_min_i (surrogateHartenEntropy P U_i gamma_min_i) U_i)).denominator +
      hd_i * |(row.foldl (fun st e => st.accumulate P e.1 e.2)
        (IndicatorState.reset P gamma_min_i (surrogateHartenEntropy P U_i gamma_min_i) U_i)).eta_i| := by
  rw [accumulate_eta]
  have : 0 < surrogateHartenEntropy P U_i gamma_min_i := by
    unfold surrogateHartenEntropy
    refine Real.rpow_pos_of_pos (mul_pos ?_ (Real.rpow_pos_of_pos hx _)) _
    have h1 := mul_pos hr hs
    have h2 := Euler.rho_rhoe U_i hr.ne'
    unfold shift at h1
    nlinarith
  exact add_pos_of_nonneg_of_pos (denominator_nonneg _) (mul_pos hhd (abs_pos.2 this.ne'))

/-- **C08 (arbitrary equation of state, constant states).** -/
theorem C08_aeos_indicator_constant (P : Params) (evc_factor gamma_min_i hd_i : ℝ) (U_i : State dim)
    (row : List (State dim × Vec dim)) (hrow : ∀ e ∈ row, e.1 = U_i) :
    indicator P evc_factor gamma_min_i U_i row hd_i = 0 := by
  have key : ∀ (row : List (State dim × Vec dim)) (st : IndicatorState dim), st.gamma_min = gamma_min_i →
      st.f_i = f U_i (surrogatePressure P U_i gamma_min_i) →
      st.eta_i = surrogateHartenEntropy P U_i gamma_min_i → st.rho_i_inverse = 1 / density U_i → (∀ e ∈ row, e.1 = U_i) →
      (row.foldl (fun st e => st.accumulate P e.1 e.2) st).left = st.left ∧
      (row.foldl (fun st e => st.accumulate P e.1 e.2) st).right = st.right := by
    intro row
    induction row with
    | nil => intro st _ _ _ _ _; exact ⟨rfl, rfl⟩
    | cons a l ih =>
      intro st hg hf he hr hall
      have ha := hall a List.mem_cons_self
      obtain ⟨h1, h2⟩ := ih (st.accumulate P a.1 a.2) hg hf he hr (fun e he => hall e (List.mem_cons_of_mem _ he))
      rw [List.foldl_cons, h1, h2]
      constructor
      · simp [IndicatorState.accumulate, ha, he, hr, hg]
      · funext k
        simp [IndicatorState.accumulate, ha, hf, hg, dot]
  obtain ⟨h1, h2⟩ := key row (IndicatorState.reset P gamma_min_i (surrogateHartenEntropy P U_i gamma_min_i) U_i)
    rfl rfl rfl rfl hrow
  have hnum : (row.foldl (fun st e => st.accumulate P e.1 e.2)
      (IndicatorState.reset P gamma_min_i (surrogateHartenEntropy P U_i gamma_min_i) U_i)).numerator = 0 := by
    unfold IndicatorState.numerator
    rw [h1, h2]
    have : ∀ (l : List (Fin (dim + 2))) (d : State dim), l.foldl (fun acc k => acc - d k *
          (IndicatorState.reset P gamma_min_i (surrogateHartenEntropy P U_i gamma_min_i) U_i).right k) 0 = 0 := by
      intro l d
      induction l with
      | nil => rfl
      | cons a l ih => simp [IndicatorState.reset]
    exact this _ _
  unfold indicator IndicatorState.alpha
  simp [hnum]

/-! ### Admissible states -/

theorem GasState.gamma_gt {P : Params} {U : State dim} {pr : ℝ} (h : GasState P U pr) : 1 < surrogateGamma P U pr := by
  have h1 := h.shift_pos
  have h2 := h.p_pos
  have h3 := h.cov_pos
  unfold surrogateGamma
  dsimp only
  unfold covolume
  rw [mul_comm P.pinf] at h1
  have := div_pos (mul_pos h2 h3) h1
  linarith

theorem stateSide_gamma (P : Params) (U : State dim) (pr : ℝ) (n : Vec dim) :
    (stateSide P U pr n).gamma = surrogateGamma P U pr := by
  unfold stateSide surrogateGamma covolume
  dsimp only
  rw [mul_comm P.pinf]

/-- The side of the Riemann problem is valid. -/
theorem GasState.side_valid {P : Params} {U : State dim} {pr : ℝ} (h : GasState P U pr) (n : Vec dim) :
    (stateSide P U pr n).Valid P.b P.pinf := ⟨h.rho_pos, h.cov_pos, h.p_pos, by rw [stateSide_gamma]; exact h.gamma_gt⟩

theorem riemannDataFromState_side (P : Params) (U : State dim) (pr : ℝ) (n : Vec dim) :
    side (riemannDataFromState P U pr n) = stateSide P U pr n := by
  have := stateSide_gamma P U pr n
  unfold side riemannDataFromState
  dsimp only
  rw [← this]
  unfold stateSide
  simp only [div_eq_mul_inv, one_mul]

theorem GasState.gas {P : Params} {U : State dim} {pr : ℝ} (h : GasState P U pr) (n : Vec dim) :
    Gas P (riemannDataFromState P U pr n) := ⟨h.rho_pos, h.cov_pos, h.p_pos, h.gamma_gt, rfl⟩

theorem riemannDataFromState_neg (P : Params) (U : State dim) (pr : ℝ) (n : Vec dim) :
    riemannDataFromState P U pr (-n) = mirror (riemannDataFromState P U pr n) := by
  unfold riemannDataFromState mirror
  dsimp only
  congr 1
  simp [dot, Finset.sum_neg_distrib]

/-! ### C09 -/

/-- **C09 (arbitrary equation of state).** For all admissible states and both modes the computed wave speed is
nonnegative and dominates the characteristic speeds `-(u_i - a_i)` and `u_j + a_j`, where `a` is the speed of sound of
the interpolated equation of state. -/
theorem C09_aeos_characteristic (P : Params) (strict : Bool) (U_i U_j : State dim) (p_i p_j : ℝ) (n : Vec dim)
    (hi : GasState P U_i p_i) (hj : GasState P U_j p_j) :
    0 ≤ riemann P strict U_i p_i U_j p_j n ∧
      -(dot n (momentum U_i) / density U_i -
        √(surrogateGamma P U_i p_i * (p_i + P.pinf) / (density U_i * (1 - P.b * density U_i)))) ≤
          riemann P strict U_i p_i U_j p_j n ∧
      dot n (momentum U_j) / density U_j +
        √(surrogateGamma P U_j p_j * (p_j + P.pinf) / (density U_j * (1 - P.b * density U_j))) ≤
          riemann P strict U_i p_i U_j p_j n := by
  refine ⟨computeLambda_nonneg _ _ _ _, ?_⟩
  have := computeLambda_characteristic (hi.gas n) (hj.gas n)
    (startP2 P strict (riemannDataFromState P U_i p_i n) (riemannDataFromState P U_j p_j n))
  have e : ∀ (U : State dim) (pr : ℝ), (riemannDataFromState P U pr n).u = dot n (momentum U) / density U := by
    intro U pr
    unfold riemannDataFromState
    simp only [div_eq_mul_inv, one_mul]
  rw [e, e] at this
  exact this

/-! ### C10 -/

/-- **C10 (arbitrary equation of state).** Exchanging the two states and reversing the normal does not change the wave
speed if the two pressures differ, or the `γ` of both states are at most `5/3`, or in strict mode with `p_∞ = 0`.  What is
missing is two states of equal pressure in the other cases, for which the claim is false, see
`C10_aeos_swap_violation`. -/
theorem C10_aeos_swap_partial (P : Params) (strict : Bool) (U_i U_j : State dim) (p_i p_j : ℝ) (n : Vec dim)
    (hi : GasState P U_i p_i) (hj : GasState P U_j p_j)
    (h : p_i ≠ p_j ∨ (surrogateGamma P U_i p_i ≤ 5 / 3 ∧ surrogateGamma P U_j p_j ≤ 5 / 3) ∨
      (strict = true ∧ P.pinf = 0)) :
    riemann P strict U_j p_j U_i p_i (-n) = riemann P strict U_i p_i U_j p_j n := by
  unfold riemann compute
  rw [riemannDataFromState_neg, riemannDataFromState_neg, computeLambda_swap]
  have gi := hi.gas n
  have gj := hj.gas n
  by_cases hc : p_i ≠ p_j ∨ (surrogateGamma P U_i p_i ≤ 5 / 3 ∧ surrogateGamma P U_j p_j ≤ 5 / 3)
  · rw [startP2_swap strict gi gj hc]
  · push Not at hc
    obtain ⟨hs, hinf⟩ : strict = true ∧ P.pinf = 0 := by
      rcases h with h | h | h
      · exact absurd hc.1 h
      · exact absurd h.2 (not_le.2 (hc.2 h.1))
      · exact h
    subst hs
    have hpi : (riemannDataFromState P U_i p_i n).p = p_j := hc.1
    have hpj : (riemannDataFromState P U_j p_j n).p = p_j := rfl
    generalize riemannDataFromState P U_i p_i n = i at *
    generalize riemannDataFromState P U_j p_j n = j at *
    unfold startP2 maskLt
    simp only [Bool.not_true, Bool.false_eq_true, if_false]
    rw [phiOfPMax_swap, pStarSS_swap gi gj]
    split_ifs
    · rfl
    · have e : max (mirror j).p (mirror i).p + P.pinf = p_j ∧ max i.p j.p + P.pinf = p_j := by
        unfold mirror
        simp [hpi, hpj, hinf]
      refine computeLambda_small P i j ?_ ?_ ?_ ?_ gi.p_pos.le gj.p_pos.le
      · exact (min_le_left _ _).trans (by rw [e.1, hpi])
      · exact (min_le_left _ _).trans (by rw [e.1, hpj])
      · exact (min_le_left _ _).trans (by rw [e.2, hpi])
      · exact (min_le_left _ _).trans (by rw [e.2, hpj])

/-! ### C68 -/

/-- **C68.** In both modes, for all admissible states, whatever their `γ`, and all covolume constants: the computed wave
speed bounds the speeds of the left- and right-most wave of the exact solution of the extended Riemann problem, if
`p_∞ = 0` or the solution does not consist of two shocks.  What is missing is two shocks with `p_∞ > 0`, for which the
claim is false, see `C68_aeos_wave_speed_violation`. -/
theorem C68_aeos_wave_speed_partial (P : Params) (hinf : 0 ≤ P.pinf) (strict : Bool) (U_i U_j : State dim) (p_i p_j : ℝ)
    (n : Vec dim) (hi : GasState P U_i p_i) (hj : GasState P U_j p_j) (ps : ℝ)
    (hps : Spec.IsNasgStarPressure P.b P.pinf (stateSide P U_i p_i n) (stateSide P U_j p_j n) ps)
    (hcase : P.pinf = 0 ∨ ps ≤ max p_i p_j) :
    -Spec.nasgLeftSpeed P.b P.pinf (stateSide P U_i p_i n) ps ≤ riemann P strict U_i p_i U_j p_j n ∧
      Spec.nasgRightSpeed P.b P.pinf (stateSide P U_j p_j n) ps ≤ riemann P strict U_i p_i U_j p_j n := by
  have gi := hi.gas n
  have gj := hj.gas n
  rw [← riemannDataFromState_side, ← riemannDataFromState_side] at hps
  rw [← riemannDataFromState_side, ← riemannDataFromState_side]
  rcases le_total (min p_i p_j) ps with hmin | hmin
  · have hle : ps ≤ startP2 P strict (riemannDataFromState P U_i p_i n) (riemannDataFromState P U_j p_j n) :=
      star_le_startP2 strict gi gj hps hmin hinf (hcase.imp_right Or.inl)
    exact computeLambda_bounds gi gj hle
  · have h := computeLambda_characteristic gi gj
      (startP2 P strict (riemannDataFromState P U_i p_i n) (riemannDataFromState P U_j p_j n))
    have h1 : ps ≤ p_i := hmin.trans (min_le_left _ _)
    have h2 : ps ≤ p_j := hmin.trans (min_le_right _ _)
    have e1 := lambda1Minus_eq gi ps
    have e2 := lambda3Plus_eq gj ps
    have e3 : Spec.nasgLeftSpeed P.b P.pinf (side (riemannDataFromState P U_i p_i n)) ps =
        (riemannDataFromState P U_i p_i n).u - (riemannDataFromState P U_i p_i n).a := by
      rw [gi.a_eq]
      unfold Spec.nasgLeftSpeed Spec.nasgSpeedFactor side
      dsimp only
      rw [if_pos (show ps ≤ (riemannDataFromState P U_i p_i n).p from h1), mul_one]
    have e4 : Spec.nasgRightSpeed P.b P.pinf (side (riemannDataFromState P U_j p_j n)) ps =
        (riemannDataFromState P U_j p_j n).u + (riemannDataFromState P U_j p_j n).a := by
      rw [gj.a_eq]
      unfold Spec.nasgRightSpeed Spec.nasgSpeedFactor side
      dsimp only
      rw [if_pos (show ps ≤ (riemannDataFromState P U_j p_j n).p from h2), mul_one]
    rw [e3, e4]
    exact h

/-! ### Witnesses -/

/-- A one dimensional state given by density, velocity and internal energy. -/
noncomputable def fluid (rho u rhoe : ℝ) : State 1 := mkState rho (fun _ => rho * u) (rhoe + 1 / 2 * rho * u ^ 2)

@[simp] theorem fluid_density (rho u rhoe : ℝ) : density (fluid rho u rhoe) = rho := Euler.density_mkState _ _ _

theorem fluid_internalEnergy {rho u rhoe : ℝ} (_hr : rho ≠ 0) : internalEnergy (fluid rho u rhoe) = rhoe := by
  unfold internalEnergy fluid
  simp only [Euler.density_mkState, Euler.momentum_mkState, Euler.totalEnergy_mkState, normSq, Finset.univ_unique,
    Finset.sum_singleton]
  field_simp
  ring

theorem fluid_velocity {rho u rhoe : ℝ} (hr : rho ≠ 0) :
    dot (fun _ : Fin 1 => (1 : ℝ)) (momentum (fluid rho u rhoe)) / density (fluid rho u rhoe) = u := by
  unfold fluid
  simp only [Euler.density_mkState, Euler.momentum_mkState, dot, Finset.univ_unique, Finset.sum_singleton, one_mul]
  field_simp

/-- Two gas streams colliding, with covolume constant `b = 1/2`, equal pressures `1` and `γ = 2`. -/
noncomputable def nobelAbel : Params := ⟨1 / 2, 0, 0, 1, 10, 10000, 0⟩

theorem fluid_nobelAbel (u : ℝ) : GasState nobelAbel (fluid 1 u (1 / 2)) 1 ∧
    ∀ u', stateSide nobelAbel (fluid 1 u' (1 / 2)) 1 (fun _ => 1) = ⟨1, u', 1, 2⟩ := by
  refine ⟨⟨by simp, by simp [nobelAbel]; norm_num, ?_, by simp [nobelAbel]⟩, fun u' => ?_⟩
  · rw [fluid_internalEnergy one_ne_zero]
    simp [nobelAbel]
  · unfold stateSide
    rw [fluid_velocity one_ne_zero, fluid_internalEnergy one_ne_zero]
    simp [nobelAbel]
    norm_num

/-- The hypotheses of C68 are met by two colliding streams: the star pressure is `8`. -/
example (strict : Bool) : ∃ u, 0 < u ∧
    Spec.IsNasgStarPressure nobelAbel.b nobelAbel.pinf (stateSide nobelAbel (fluid 1 u (1 / 2)) 1 (fun _ => 1))
      (stateSide nobelAbel (fluid 1 (-u) (1 / 2)) 1 (fun _ => 1)) 8 ∧
    Spec.nasgRightSpeed nobelAbel.b nobelAbel.pinf (stateSide nobelAbel (fluid 1 (-u) (1 / 2)) 1 (fun _ => 1)) 8 ≤
      riemann nobelAbel strict (fluid 1 u (1 / 2)) 1 (fluid 1 (-u) (1 / 2)) 1 (fun _ => 1) := by
  have hu : Spec.nasgWave (1 / 2) 0 2 1 1 8 = 7 / 5 := by
    unfold Spec.nasgWave
    rw [if_neg (by norm_num), show (2 : ℝ) * (1 - 1 / 2 * 1) / ((2 + 1) * 1) / (8 + 0 + (2 - 1) / (2 + 1) * (1 + 0)) =
      (1 / 5) ^ 2 by norm_num, Real.sqrt_sq (by norm_num)]
    norm_num
  have hst : Spec.IsNasgStarPressure nobelAbel.b nobelAbel.pinf
      (stateSide nobelAbel (fluid 1 (7 / 5) (1 / 2)) 1 (fun _ => 1))
      (stateSide nobelAbel (fluid 1 (-(7 / 5)) (1 / 2)) 1 (fun _ => 1)) 8 := by
    rw [(fluid_nobelAbel 0).2, (fluid_nobelAbel 0).2]
    refine ⟨by norm_num [nobelAbel], ?_⟩
    show Spec.nasgWave (1 / 2) 0 2 1 1 8 + Spec.nasgWave (1 / 2) 0 2 1 1 8 + (-(7 / 5) - 7 / 5) = 0
    rw [hu]
    norm_num
  exact ⟨7 / 5, by norm_num, hst, (C68_aeos_wave_speed_partial nobelAbel le_rfl strict _ _ 1 1 _ (fluid_nobelAbel _).1
    (fluid_nobelAbel _).1 8 hst (Or.inl rfl)).2⟩

/-! ### Violations -/

/-- A stiffened gas with `p_∞ = 1`. -/
noncomputable def stiffened : Params := ⟨0, 1, 0, 1, 10, 10000, 0⟩

theorem fluid_stiffened (u : ℝ) : GasState stiffened (fluid 1 u 2) 1 ∧
    ∀ u', stateSide stiffened (fluid 1 u' 2) 1 (fun _ => 1) = ⟨1, u', 1, 3⟩ := by
  refine ⟨⟨by simp, by simp [stiffened], ?_, by simp [stiffened]⟩, fun u' => ?_⟩
  · rw [fluid_internalEnergy one_ne_zero]
    norm_num [stiffened]
  · unfold stateSide
    rw [fluid_velocity one_ne_zero, fluid_internalEnergy one_ne_zero]
    simp [stiffened]
    norm_num

/-- The speed of a shock grows strictly with the pressure behind it. -/
theorem lambda3Plus_strict {P : Params} {d : RiemannData} (h : Gas P d) {p q : ℝ} (hq : d.p < q) (hpq : p < q) :
    lambda3Plus P d p < lambda3Plus P d q := by
  rw [lambda3Plus_eq h, lambda3Plus_eq h]
  unfold Spec.nasgRightSpeed side
  dsimp only
  rw [nasgSpeedFactor_eq, nasgSpeedFactor_eq, ← h.a_eq]
  have := mul_lt_mul_of_pos_left (Euler.gasSpeedFactor_strict h.gamma_gt h.p_pos
    (by linarith : d.p + P.pinf < q + P.pinf) (by linarith : p + P.pinf < q + P.pinf)) h.a_pos
  linarith

/-- **C68 is violated for `p_∞ > 0`.** In `phi_of_p_max` the difference of the pressures is computed as
`p_max + p_∞ - p_i`, so that a collision of two streams is not recognised as two shocks and the pressure is capped at
`p_max + p_∞`.  Example: `p_∞ = 1`, `γ = 3`, both streams of density and pressure `1` and velocities `±1.06…/2.85`; the
star pressure is `2.06…`, the computed wave speed is smaller than the speed of the shocks.  In both modes. -/
theorem C68_aeos_wave_speed_violation (strict : Bool) : ∃ u ps : ℝ,
    GasState stiffened (fluid 1 u 2) 1 ∧ GasState stiffened (fluid 1 (-u) 2) 1 ∧
    Spec.IsNasgStarPressure stiffened.b stiffened.pinf (stateSide stiffened (fluid 1 u 2) 1 (fun _ => 1))
      (stateSide stiffened (fluid 1 (-u) 2) 1 (fun _ => 1)) ps ∧
    riemann stiffened strict (fluid 1 u 2) 1 (fluid 1 (-u) 2) 1 (fun _ => 1) <
      Spec.nasgRightSpeed stiffened.b stiffened.pinf (stateSide stiffened (fluid 1 (-u) 2) 1 (fun _ => 1)) ps := by
  have hu : Spec.nasgWave 0 1 3 1 1 (1649 / 800) = 849 / 2280 := by
    unfold Spec.nasgWave
    rw [if_neg (by norm_num), show (2 : ℝ) * (1 - 0 * 1) / ((3 + 1) * 1) / (1649 / 800 + 1 + (3 - 1) / (3 + 1) * (1 + 1)) =
      (20 / 57) ^ 2 by norm_num, Real.sqrt_sq (by norm_num)]
    norm_num
  have gi := (fluid_stiffened (849 / 2280)).1
  have gj := (fluid_stiffened (-(849 / 2280))).1
  refine ⟨849 / 2280, 1649 / 800, gi, gj, ?_, ?_⟩
  · rw [(fluid_stiffened 0).2, (fluid_stiffened 0).2]
    refine ⟨by norm_num [stiffened], ?_⟩
    show Spec.nasgWave 0 1 3 1 1 (1649 / 800) + Spec.nasgWave 0 1 3 1 1 (1649 / 800) + (-(849 / 2280) - 849 / 2280) = 0
    rw [hu]
    norm_num
  · set i := riemannDataFromState stiffened (fluid 1 (849 / 2280) 2) 1 (fun _ => 1) with hi
    set j := riemannDataFromState stiffened (fluid 1 (-(849 / 2280)) 2) 1 (fun _ => 1) with hj
    have Gi : Gas stiffened i := gi.gas _
    have Gj : Gas stiffened j := gj.gas _
    have si : side i = ⟨1, 849 / 2280, 1, 3⟩ := by rw [hi, riemannDataFromState_side, (fluid_stiffened 0).2]
    have sj : side j = ⟨1, -(849 / 2280), 1, 3⟩ := by rw [hj, riemannDataFromState_side, (fluid_stiffened 0).2]
    have hri : i.rho = 1 := congrArg Spec.Side.rho si
    have hui : i.u = 849 / 2280 := congrArg Spec.Side.u si
    have hpi : i.p = 1 := congrArg Spec.Side.p si
    have hgi : i.gamma = 3 := congrArg Spec.Side.gamma si
    have hrj : j.rho = 1 := congrArg Spec.Side.rho sj
    have huj : j.u = -(849 / 2280) := congrArg Spec.Side.u sj
    have hpj : j.p = 1 := congrArg Spec.Side.p sj
    have hgj : j.gamma = 3 := congrArg Spec.Side.gamma sj
    have haa : i.a = j.a := by rw [Gi.a_eq, Gj.a_eq, hri, hrj, hpi, hpj, hgi, hgj]
    have hphi : ¬ phiOfPMax stiffened i j < 0 := by
      unfold phiOfPMax
      dsimp only
      rw [hri, hui, hpi, hgi, hrj, huj, hpj, hgj]
      have e : (1 : ℝ) / 2 * 1 / (1 - stiffened.b * 1) * ((3 + 1) * (max 1 1 + stiffened.pinf) +
          (3 - 1) * (1 + stiffened.pinf)) = 6 := by norm_num [stiffened]
      rw [e]
      have h6 : √6 ≤ 5 / 2 := by rw [Real.sqrt_le_left (by norm_num)]; norm_num
      have h6' : 0 < √6 := Real.sqrt_pos.2 (by norm_num)
      have : 2 / 5 ≤ 1 / √6 := by rw [div_le_div_iff₀ (by norm_num) h6']; linarith
      have e2 : max 1 1 + stiffened.pinf - 1 = 1 := by norm_num [stiffened]
      rw [e2]
      push Not
      linarith
    have hp2 : startP2 stiffened strict i j ≤ 2 := by
      have e2 : max i.p j.p + stiffened.pinf = 2 := by rw [hpi, hpj]; norm_num [stiffened]
      unfold startP2 maskLt
      dsimp only
      rw [if_neg hphi, if_neg hphi, e2]
      split_ifs <;> exact min_le_left _ _
    show computeLambda stiffened i j (startP2 stiffened strict i j) < _
    rw [← riemannDataFromState_side, ← hj, ← lambda3Plus_eq Gj]
    have hlt := lambda3Plus_strict Gj (p := startP2 stiffened strict i j) (q := 1649 / 800) (by rw [hpj]; norm_num)
      (by linarith)
    have hneg : -lambda1Minus stiffened i (startP2 stiffened strict i j) =
        lambda3Plus stiffened j (startP2 stiffened strict i j) := by
      unfold lambda1Minus lambda3Plus
      dsimp only
      rw [haa, hui, huj, hgi, hgj, hpi, hpj]
      ring
    have hpos : 0 < lambda3Plus stiffened j (1649 / 800) := by
      have h1 := le_lambda3Plus Gj (1649 / 800)
      have h2 : 1 < j.a := by
        rw [Gj.a_eq, hrj, hpj, hgj]
        unfold Spec.nasgSound
        rw [Real.lt_sqrt (by norm_num)]
        norm_num [stiffened]
      rw [huj] at h1
      linarith
    unfold computeLambda
    dsimp only
    rw [positivePart_eq_max, negativePart_eq_max, hneg, max_self]
    exact max_lt hpos hlt

/-- An ideal gas. -/
noncomputable def ideal : Params := ⟨0, 0, 0, 1, 10, 10000, 0⟩

theorem fluid_ideal {rho : ℝ} (hr : 0 < rho) (u : ℝ) : GasState ideal (fluid rho u (1 / 8)) 1 ∧
    stateSide ideal (fluid rho u (1 / 8)) 1 (fun _ => 1) = ⟨rho, u, 1, 9⟩ := by
  refine ⟨⟨by simpa using hr, by simp [ideal], ?_, by simp [ideal]⟩, ?_⟩
  · rw [fluid_internalEnergy hr.ne']
    simp [ideal]
  · unfold stateSide
    rw [fluid_velocity hr.ne', fluid_internalEnergy hr.ne']
    simp [ideal]
    norm_num

theorem cGamma_nine : cGamma 9 = √(1 / 2) := by
  unfold cGamma
  dsimp only
  congr 1
  rw [max_eq_left]
  exact (min_le_right _ _).trans ((min_le_right _ _).trans (by unfold cSlope; norm_num))

/-- The wave speed of a pair of equal pressure and of the exchanged pair. -/
theorem swap_differs : riemann ideal false (fluid 4 0 (1 / 8)) 1 (fluid 1 5 (1 / 8)) 1 (-fun _ => 1) ≠
    riemann ideal false (fluid 1 5 (1 / 8)) 1 (fluid 4 0 (1 / 8)) 1 (fun _ => 1) := by
  have Gi := (fluid_ideal one_pos 5).1.gas (fun _ => 1)
  have Gj := (fluid_ideal (by norm_num : (0 : ℝ) < 4) 0).1.gas (fun _ => 1)
  have si := (riemannDataFromState_side ideal (fluid 1 5 (1 / 8)) 1 (fun _ => 1)).trans (fluid_ideal one_pos 5).2
  have sj := (riemannDataFromState_side ideal (fluid 4 0 (1 / 8)) 1 (fun _ => 1)).trans
    (fluid_ideal (by norm_num : (0 : ℝ) < 4) 0).2
  unfold riemann compute
  rw [riemannDataFromState_neg, riemannDataFromState_neg, computeLambda_swap]
  generalize riemannDataFromState ideal (fluid 1 5 (1 / 8)) 1 (fun _ => 1) = i at *
  generalize riemannDataFromState ideal (fluid 4 0 (1 / 8)) 1 (fun _ => 1) = j at *
  obtain ⟨ri, ui, pi, gi, ai⟩ := i
  obtain ⟨rj, uj, pj, gj, aj⟩ := j
  simp only [side, Spec.Side.mk.injEq] at si sj
  obtain ⟨rfl, rfl, rfl, rfl⟩ := si
  obtain ⟨rfl, rfl, rfl, rfl⟩ := sj
  have hai : ai = 3 := by
    have := Gi.a_eq
    simp only [Spec.nasgSound, ideal] at this
    rw [this, show (9 : ℝ) * (1 + 0) / (1 * (1 - 0 * 1)) = 3 ^ 2 by norm_num, Real.sqrt_sq (by norm_num)]
  have haj : aj = 3 / 2 := by
    have := Gj.a_eq
    simp only [Spec.nasgSound, ideal] at this
    rw [this, show (9 : ℝ) * (1 + 0) / (4 * (1 - 0 * 4)) = (3 / 2) ^ 2 by norm_num, Real.sqrt_sq (by norm_num)]
  subst hai haj
  obtain ⟨s, hs0, hs, hss⟩ : ∃ s, 0 < s ∧ s = √(1 / 2 : ℝ) ∧ s * s = 1 / 2 :=
    ⟨_, Real.sqrt_pos.2 (by norm_num), rfl, Real.mul_self_sqrt (by norm_num)⟩
  have hs1 : s < 71 / 100 := by nlinarith
  have hs2 : 7 / 10 < s := by nlinarith
  set I : RiemannData := ⟨1, 5, 1, 9, 3⟩
  set J : RiemannData := ⟨4, 0, 1, 9, 3 / 2⟩
  have e94 : (1 : ℝ) / ((9 - 1) / (2 * 9)) = 9 / 4 := by norm_num
  have hx1 : pStarInterpolated ideal I J = ((s * (3 / 8) + 3 / 4 + 5) / (s * (9 / 8))) ^ (9 / 4 : ℝ) := by
    unfold pStarInterpolated alphaOf maskLt
    simp only [I, J, cGamma_nine, ← hs, min_self, max_self, lt_irrefl, ge_iff_le, le_refl, if_true, if_false, ideal, e94]
    rw [positivePart_of_nonneg (by nlinarith)]
    norm_num
    congr 1
    ring
  have hx2 : pStarInterpolated ideal (mirror J) (mirror I) =
      ((s * (3 / 4) + 3 / 8 + 5) / (s * (9 / 8))) ^ (9 / 4 : ℝ) := by
    unfold pStarInterpolated alphaOf maskLt mirror
    simp only [I, J, cGamma_nine, ← hs, min_self, max_self, lt_irrefl, ge_iff_le, le_refl, if_true, if_false, ideal, e94]
    rw [positivePart_of_nonneg (by nlinarith)]
    norm_num
    congr 1
    ring
  have hf : pStarFailsafe ideal I J = (5 + √26) * (5 + √26) := by
    unfold pStarFailsafe
    simp only [I, J, max_self, ideal]
    rw [show (2 : ℝ) * (1 - 0 * 1) * (1 + 0) / (1 * ((9 + 1) * (1 + 0) + (9 - 1) * (1 + 0))) = (1 / 3) ^ 2 by norm_num,
      show (2 : ℝ) * (1 - 0 * 4) * (1 + 0) / (4 * ((9 + 1) * (1 + 0) + (9 - 1) * (1 + 0))) = (1 / 6) ^ 2 by norm_num,
      Real.sqrt_sq (by norm_num), Real.sqrt_sq (by norm_num)]
    norm_num
  have hphi : phiOfPMax ideal I J < 0 := by
    unfold phiOfPMax
    simp only [I, J, max_self, ideal]
    norm_num
  have hlt1 : (s * (3 / 4) + 3 / 8 + 5) / (s * (9 / 8)) < (s * (3 / 8) + 3 / 4 + 5) / (s * (9 / 8)) :=
    div_lt_div_of_pos_right (by nlinarith) (by positivity)
  have hlt2 : (s * (3 / 8) + 3 / 4 + 5) / (s * (9 / 8)) < 77 / 10 := by
    rw [div_lt_iff₀ (by positivity)]; nlinarith
  have hgt : 1 < (s * (3 / 4) + 3 / 8 + 5) / (s * (9 / 8)) := by
    rw [lt_div_iff₀ (by positivity)]; nlinarith
  have hI1 : ((s * (3 / 4) + 3 / 8 + 5) / (s * (9 / 8))) ^ (9 / 4 : ℝ) <
      ((s * (3 / 8) + 3 / 4 + 5) / (s * (9 / 8))) ^ (9 / 4 : ℝ) :=
    Real.rpow_lt_rpow (by linarith) hlt1 (by norm_num)
  have hI2 : ((s * (3 / 8) + 3 / 4 + 5) / (s * (9 / 8))) ^ (9 / 4 : ℝ) < 100 := by
    refine (Real.rpow_lt_rpow (by linarith) hlt2 (by norm_num)).trans ?_
    have : ((77 / 10 : ℝ) ^ (9 / 4 : ℝ)) ^ (4 : ℕ) < 100 ^ (4 : ℕ) := by
      rw [← Real.rpow_natCast, ← Real.rpow_mul (by norm_num)]
      rw [show (9 / 4 : ℝ) * ((4 : ℕ) : ℝ) = ((9 : ℕ) : ℝ) by norm_num, Real.rpow_natCast]
      norm_num
    exact lt_of_pow_lt_pow_left₀ 4 (by norm_num) this
  have hI3 : 1 < ((s * (3 / 4) + 3 / 8 + 5) / (s * (9 / 8))) ^ (9 / 4 : ℝ) := Real.one_lt_rpow hgt (by norm_num)
  have hf2 : 100 < pStarFailsafe ideal I J := by
    rw [hf]
    have : 5 < √26 := by rw [Real.lt_sqrt (by norm_num)]; norm_num
    nlinarith
  have hq1 : startP2 ideal false I J = ((s * (3 / 8) + 3 / 4 + 5) / (s * (9 / 8))) ^ (9 / 4 : ℝ) := by
    unfold startP2 maskLt
    simp only [Bool.not_false, if_true]
    rw [if_pos hphi, hx1, min_eq_left (by linarith)]
  have hq2 : startP2 ideal false (mirror J) (mirror I) = ((s * (3 / 4) + 3 / 8 + 5) / (s * (9 / 8))) ^ (9 / 4 : ℝ) := by
    unfold startP2 maskLt
    simp only [Bool.not_false, if_true]
    rw [phiOfPMax_swap, if_pos hphi, pStarFailsafe_swap, hx2, min_eq_left (by linarith)]
  rw [hq1, hq2]
  refine ne_of_lt ?_
  generalize ((s * (3 / 4) + 3 / 8 + 5) / (s * (9 / 8))) ^ (9 / 4 : ℝ) = q2 at *
  generalize ((s * (3 / 8) + 3 / 4 + 5) / (s * (9 / 8))) ^ (9 / 4 : ℝ) = q1 at *
  have h3 := lambda3Plus_strict Gj (p := q2) (q := q1) (by show (1 : ℝ) < q1; linarith) hI1
  have h1 : lambda1Minus ideal I q1 < lambda1Minus ideal I q2 := by
    have := lambda3Plus_strict Gi (p := q2) (q := q1) (by show (1 : ℝ) < q1; linarith) hI1
    unfold lambda3Plus at this
    unfold lambda1Minus
    dsimp only at this ⊢
    linarith
  have hpos : 0 < lambda3Plus ideal J q1 := by
    have := le_lambda3Plus Gj q1
    have e : J.u + J.a = 3 / 2 := by norm_num [J]
    rw [e] at this
    exact lt_of_lt_of_le (by norm_num) this
  unfold computeLambda
  dsimp only
  simp only [positivePart_eq_max, negativePart_eq_max]
  refine max_lt (max_lt ?_ ?_) (max_lt ?_ ?_)
  · exact lt_of_lt_of_le hpos ((le_max_right _ _).trans (le_max_left _ _))
  · exact lt_of_lt_of_le h3 ((le_max_right _ _).trans (le_max_left _ _))
  · exact lt_of_lt_of_le hpos ((le_max_right _ _).trans (le_max_left _ _))
  · exact lt_of_lt_of_le (neg_lt_neg h1) ((le_max_right _ _).trans (le_max_right _ _))

/-- **C10 is violated for equal pressures** when bounds are not strict: the state with index `j` is then taken to be the
one of lower pressure.  Example: an ideal gas with `γ = 9`, pressure `1`, densities `1` and `4` and a relative velocity
of `5`; the wave speed of the pair differs from the one of the exchanged pair. -/
theorem C10_aeos_swap_violation : ∃ (U_i U_j : State 1) (p_i p_j : ℝ) (n : Vec 1),
    GasState ideal U_i p_i ∧ GasState ideal U_j p_j ∧ normSq n = 1 ∧
    riemann ideal false U_j p_j U_i p_i (-n) ≠ riemann ideal false U_i p_i U_j p_j n := by
  refine ⟨fluid 1 5 (1 / 8), fluid 4 0 (1 / 8), 1, 1, fun _ => 1, (fluid_ideal one_pos _).1,
    (fluid_ideal (by norm_num) _).1, by simp [normSq], swap_differs⟩

/-- The hypotheses of C09 and C10 for two different states. -/
example (strict : Bool) : riemann ideal strict (fluid 4 0 (1 / 8)) 1 (fluid 1 5 (1 / 4)) 2 (-fun _ => 1) =
    riemann ideal strict (fluid 1 5 (1 / 4)) 2 (fluid 4 0 (1 / 8)) 1 (fun _ => 1) := by
  refine C10_aeos_swap_partial ideal strict _ _ 2 1 _ ?_ (fluid_ideal (by norm_num) _).1 (Or.inl (by norm_num))
  refine ⟨by simp, by simp [ideal], ?_, by simp [ideal]⟩
  rw [fluid_internalEnergy one_ne_zero]
  simp [ideal]

end Aeos
end Ryujin
