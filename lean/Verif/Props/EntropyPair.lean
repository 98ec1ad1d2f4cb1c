import Verif.Model.EulerRiemann
import Verif.Model.AeosRiemann
import Verif.Model.ShallowWater
import Verif.Model.Scalar
import Verif.Proofs.EntropyPair
import Verif.Proofs.AeosBar
import Verif.Proofs.ShallowWater
import Verif.Props.EulerRiemann
import Verif.Props.AeosRiemann

/-!
# C89: the smoothness indicators measure entropy production
-/

namespace Ryujin

open Filter Topology

variable {dim : ℕ}

namespace Euler

open EntropyPair

theorem rhoRhoe_curve {c : ℝ → State dim} {c' : State dim} (hc : HasDerivAt c c' 0) :
    HasDerivAt (fun h => density (c h) * totalEnergy (c h) - (1 / 2) * normSq (momentum (c h)))
      (density c' * totalEnergy (c 0) + density (c 0) * totalEnergy c' - dot (momentum (c 0)) (momentum c')) 0 := by
  obtain ⟨h1, h2, h3⟩ := curve_components hc
  refine ((h1.mul h3).sub ((hasDerivAt_normSq h2).const_mul (1 / 2))).congr_deriv ?_
  ring

/-- **C89 (Euler, gradient).** `harten_entropy_derivative` is the gradient of `harten_entropy`. -/
theorem C89_euler_harten_gradient (p : Params) (hg : p.gamma ≠ -1) (U : State dim)
    (hr : 0 < density U) (he : 0 < internalEnergy U) :
    Spec.IsGradient (hartenEntropy p) U (hartenEntropyDerivative p U) := by
  intro c c' h0 hc
  have hZ : 0 < density U * totalEnergy U - (1 / 2) * normSq (momentum U) := by
    have := mul_pos hr he; rwa [rho_rhoe U hr.ne'] at this
  have hd := (rhoRhoe_curve hc).rpow_const (p := 1 / (p.gamma + 1)) (Or.inl (by rw [h0]; exact hZ.ne'))
  refine hd.congr_deriv ?_
  rw [h0]
  have hsum : ∑ k, hartenEntropyDerivative p U k * c' k = _ := sum_mkState _ _ _ (momentum U) c'
  rw [hsum]
  have hg1 : p.gamma + 1 ≠ 0 := fun h => hg (by linarith)
  have hexp : 1 / (p.gamma + 1) - 1 = -p.gamma * (1 / (p.gamma + 1)) := by field_simp; ring
  rw [hexp]
  ring

theorem pressure_curve (p : Params) {c : ℝ → State dim} {c' : State dim} (hc : HasDerivAt c c' 0)
    (hr : density (c 0) ≠ 0) : HasDerivAt (fun h => pressure p (c h)) ((p.gamma - 1) * (totalEnergy c' -
      (dot (momentum (c 0)) (momentum c') / density (c 0) - (1 / 2) * normSq (momentum (c 0)) * density c' / density (c 0) ^ 2))) 0 := by
  obtain ⟨h1, h2, h3⟩ := curve_components hc
  have := (h3.sub (((hasDerivAt_normSq h2).const_mul (1 / 2)).div h1 hr)).const_mul (p.gamma - 1)
  refine HasDerivAt.congr_of_eventuallyEq (this.congr_deriv ?_) (Eventually.of_forall fun h => pressure_eq p (c h))
  field_simp

theorem velocity_eq (U : State dim) : (fun i => momentum U i * (1 / density U)) = (1 / density U) • momentum U := by
  funext i; simp only [Pi.smul_apply, smul_eq_mul]; ring

/-- **C89 (Euler, gradient).** `mathematical_entropy_derivative` is the gradient of `mathematical_entropy`. -/
theorem C89_euler_mathematical_gradient (p : Params) (hg : 1 < p.gamma) (U : State dim)
    (hr : 0 < density U) (he : 0 < internalEnergy U) :
    Spec.IsGradient (mathematicalEntropy p) U (mathematicalEntropyDerivative p U) := by
  intro c c' h0 hc
  have hp : 0 < pressure p U := mul_pos (by linarith) he
  have hd := (pressure_curve p hc (by rw [h0]; exact hr.ne')).rpow_const (p := 1 / p.gamma) (Or.inl (by rw [h0]; exact hp.ne'))
  refine hd.congr_deriv ?_
  rw [h0]
  have hm : mathematicalEntropyDerivative p U = mkState ((p.gamma - 1) * (1 / p.gamma) * pressure p U ^ (1 / p.gamma - 1) *
      (1 / 2) * normSq ((1 / density U) • momentum U)) (fun i => -((p.gamma - 1) * (1 / p.gamma) * pressure p U ^ (1 / p.gamma - 1) *
        (1 / density U)) * momentum U i) ((p.gamma - 1) * (1 / p.gamma) * pressure p U ^ (1 / p.gamma - 1)) := by
    rw [mathematicalEntropyDerivative, velocity_eq]
    congr 1
    funext i; simp only [Pi.smul_apply, smul_eq_mul]; ring
  rw [hm, sum_mkState, normSq_smul]
  field_simp
  ring

/-- **C89 (Euler, gradient).** `internal_energy_derivative` is the gradient of `internal_energy`. -/
theorem C89_euler_internal_energy_gradient (U : State dim) (hr : density U ≠ 0) :
    Spec.IsGradient internalEnergy U (internalEnergyDerivative U) := by
  intro c c' h0 hc
  have h := pressure_curve (⟨2, 0, 0, 0, 0⟩ : Params) hc (by rw [h0]; exact hr)
  have e : (fun h => pressure (⟨2, 0, 0, 0, 0⟩ : Params) (c h)) = fun h => internalEnergy (c h) := by
    funext h; unfold pressure; norm_num
  rw [e] at h
  refine h.congr_deriv ?_
  rw [h0]
  have hm : internalEnergyDerivative U = mkState ((1 / 2) * normSq ((1 / density U) • momentum U))
      (fun i => -(1 / density U) * momentum U i) 1 := by
    rw [internalEnergyDerivative, velocity_eq]
    congr 1
    funext i; simp only [Pi.smul_apply, smul_eq_mul]; ring
  rw [hm, sum_mkState, normSq_smul]
  field_simp
  ring

/-- **C89 (Euler, entropy pairs).** With these gradients `η v` is the entropy flux of both entropies. -/
theorem C89_euler_entropy_flux (p : Params) (hg : 1 < p.gamma) (U : State dim)
    (hr : 0 < density U) (he : 0 < internalEnergy U) :
    Spec.IsEntropyFlux (fun U d => hartenEntropy p U / density U * momentum U d) (f p) U (hartenEntropyDerivative p U) ∧
    Spec.IsEntropyFlux (fun U d => mathematicalEntropy p U / density U * momentum U d) (f p) U
      (mathematicalEntropyDerivative p U) := by
  have hpr : ∀ (c : ℝ → State dim) (c' : State dim), c 0 = U → HasDerivAt c c' 0 →
      ∃ P', HasDerivAt (fun h => pressure p (c h)) P' 0 := fun c c' h0 hc =>
    ⟨_, pressure_curve p hc (by rw [h0]; exact hr.ne')⟩
  have hg1 : p.gamma + 1 ≠ 0 := by linarith
  have hZ : 0 < density U * totalEnergy U - (1 / 2) * normSq (momentum U) := by
    have := mul_pos hr he; rwa [rho_rhoe U hr.ne'] at this
  constructor
  · refine gas_entropyFlux (contract_f p) hr.ne' hpr (C89_euler_harten_gradient p (by linarith) U hr he) ?_
    have hη : hartenEntropy p U = (p.gamma + 1) * (density U * totalEnergy U - (1 / 2) * normSq (momentum U)) *
        (1 / (p.gamma + 1) * (density U * totalEnergy U - (1 / 2) * normSq (momentum U)) ^ (-p.gamma * (1 / (p.gamma + 1)))) := by
      unfold hartenEntropy
      have hexp : 1 / (p.gamma + 1) = -p.gamma * (1 / (p.gamma + 1)) + 1 := by field_simp; ring
      conv_lhs => rw [hexp]
      rw [Real.rpow_add hZ, Real.rpow_one]
      field_simp
    rw [hη, pressure_eq]
    field_simp
    ring
  · have hm : mathematicalEntropyDerivative p U = mkState ((p.gamma - 1) * (1 / p.gamma) * pressure p U ^ (1 / p.gamma - 1) *
        (1 / 2) * normSq ((1 / density U) • momentum U)) (fun i => -((p.gamma - 1) * (1 / p.gamma) * pressure p U ^ (1 / p.gamma - 1) *
          (1 / density U)) * momentum U i) ((p.gamma - 1) * (1 / p.gamma) * pressure p U ^ (1 / p.gamma - 1) *
          (1 / density U) * density U) := by
      rw [mathematicalEntropyDerivative, velocity_eq]
      have h3 : ∀ x : ℝ, x * (1 / density U) * density U = x := fun x => by field_simp
      rw [h3]
      congr 1
      funext i; simp only [Pi.smul_apply, smul_eq_mul]; ring
    rw [hm]
    refine gas_entropyFlux (contract_f p) hr.ne' hpr (hm ▸ C89_euler_mathematical_gradient p hg U hr he) ?_
    have hp : 0 < pressure p U := mul_pos (by linarith) he
    have hη : mathematicalEntropy p U = pressure p U * pressure p U ^ (1 / p.gamma - 1) := by
      unfold mathematicalEntropy
      rw [Real.rpow_sub hp, Real.rpow_one]
      field_simp
    rw [hη, normSq_smul]
    generalize pressure p U ^ (1 / p.gamma - 1) = y
    have hE : totalEnergy U = pressure p U / (p.gamma - 1) + (1 / 2) * normSq (momentum U) / density U := by
      rw [pressure_eq]
      have : p.gamma - 1 ≠ 0 := by linarith
      field_simp
      ring
    rw [hE]
    have : p.gamma - 1 ≠ 0 := by linarith
    field_simp
    ring

/-- The numerator of the indicator, as a fold over the row. -/
noncomputable def indicatorAfter (p : Params) (U_i : State dim) (row : List (State dim × Vec dim)) : IndicatorState dim :=
  row.foldl (fun st e => st.accumulate p (hartenEntropy p e.1) e.1 e.2) (IndicatorState.reset p (hartenEntropy p U_i) U_i)

theorem foldl_sub {α : Type} (g : α → ℝ) (l : List α) (x : ℝ) :
    l.foldl (fun acc k => acc - g k) x = x - (l.map g).sum := by
  induction l generalizing x with
  | nil => simp
  | cons a l ih => rw [List.foldl_cons, ih]; simp; ring

theorem foldl_sub_finRange {n : ℕ} (g : Fin n → ℝ) (x : ℝ) :
    (List.finRange n).foldl (fun acc k => acc - g k) x = x - ∑ k, g k := by
  rw [foldl_sub, ← List.ofFn_eq_map, List.sum_ofFn]

/-- **C89 (Euler, meaning of the numerator).** The numerator of the indicator is the entropy production of the stencil with
respect to the Harten entropy and its flux `η v`. -/
theorem C89_euler_numerator (p : Params) (U_i : State dim) (row : List (State dim × Vec dim)) :
    (indicatorAfter p U_i row).numerator =
      Spec.entropyProduction (fun U d => hartenEntropy p U / density U * momentum U d) (f p) U_i
        (hartenEntropyDerivative p U_i) row := by
  have gen : ∀ (row : List (State dim × Vec dim)) (st : IndicatorState dim), st.f_i = f p U_i →
      st.eta_i = hartenEntropy p U_i → st.rho_i_inverse = 1 / density U_i →
      st.d_eta_i = (IndicatorState.reset p (hartenEntropy p U_i) U_i).d_eta_i →
      (row.foldl (fun st e => st.accumulate p (hartenEntropy p e.1) e.1 e.2) st).numerator = st.numerator +
        Spec.entropyProduction (fun U d => hartenEntropy p U / density U * momentum U d) (f p) U_i
          (hartenEntropyDerivative p U_i) row := by
    intro row
    induction row with
    | nil => intro st _ _ _ _; simp [Spec.entropyProduction]
    | cons e l ih =>
      intro st hf he hr hd
      rw [List.foldl_cons, ih (st.accumulate p (hartenEntropy p e.1) e.1 e.2) hf he hr hd]
      simp only [Spec.entropyProduction, List.map_cons, List.sum_cons]
      rw [← add_assoc]
      congr 1
      unfold IndicatorState.numerator
      rw [foldl_sub_finRange, foldl_sub_finRange]
      simp only [IndicatorState.accumulate]
      rw [hd, he, hr, hf]
      have hdot : ∀ (a : ℝ) (b : ℝ) (m m' c : Vec dim), dot (fun d => a * m d - b * m' d) c = a * dot m c - b * dot m' c := by
        intro a b m m' c
        unfold dot
        rw [Finset.mul_sum, Finset.mul_sum, ← Finset.sum_sub_distrib]
        exact Finset.sum_congr rfl fun i _ => by ring
      rw [hdot]
      have hs : ∀ (R : State dim), ∑ k, (IndicatorState.reset p (hartenEntropy p U_i) U_i).d_eta_i k * R k =
          ∑ k, hartenEntropyDerivative p U_i k * R k - hartenEntropy p U_i * (1 / density U_i) * R 0 := by
        intro R
        simp only [IndicatorState.reset]
        rw [Fin.sum_univ_succ, Fin.sum_univ_succ (fun k => hartenEntropyDerivative p U_i k * R k)]
        simp only [Function.update_self, Function.update_of_ne (Fin.succ_ne_zero _)]
        ring
      rw [hs, hs]
      have hm : ∀ V : State dim, f p V 0 = momentum V := fun V => rfl
      have hsub : dot (fun d => f p e.1 0 d - f p U_i 0 d) e.2 = dot (momentum e.1) e.2 - dot (momentum U_i) e.2 := by
        rw [hm, hm]; unfold dot; rw [← Finset.sum_sub_distrib]
        exact Finset.sum_congr rfl fun i _ => by ring
      rw [hsub]
      simp only [mul_add, Finset.sum_add_distrib]
      ring
  unfold indicatorAfter
  rw [gen row _ rfl rfl rfl rfl]
  unfold IndicatorState.numerator
  rw [foldl_sub_finRange]
  simp [IndicatorState.reset]

/-- **C89 (Euler, smooth flow).** Let the states of a stencil be samples, at distance `h`, of differentiable curves through
the admissible state `U_i`, the vectors `c_ij` scale with `h ^ a` and `hd_i` with `h ^ (a + 1)` (as on refined meshes, with
`a = dim - 1`).  Then the indicator tends to zero as `h → 0`: the scheme is not viscous where the flow is smooth. -/
theorem C89_euler_indicator_vanishes (p : Params) (hg : 1 < p.gamma) (evc kappa : ℝ) (hevc : 0 ≤ evc) (hk : 0 < kappa) (a : ℕ)
    (U_i : State dim) (hr : 0 < density U_i) (he : 0 < internalEnergy U_i) (row : List ((ℝ → State dim) × Vec dim))
    (h0 : ∀ e ∈ row, e.1 0 = U_i) (hd : ∀ e ∈ row, DifferentiableAt ℝ e.1 0) :
    Tendsto (fun h => indicator p evc U_i (row.map fun e => (e.1 h, h ^ a • e.2)) (kappa * h ^ (a + 1))) (𝓝[>] 0) (𝓝 0) := by
  have hη : 0 < hartenEntropy p U_i := by
    unfold hartenEntropy
    refine Real.rpow_pos_of_pos ?_ _
    have := mul_pos hr he
    rwa [rho_rhoe U_i hr.ne'] at this
  refine quotient_tendsto (production_little_o (C89_euler_entropy_flux p hg U_i hr he).1 row h0 hd)
    (den := fun h => (indicatorAfter p U_i (row.map fun e => (e.1 h, h ^ a • e.2))).denominator)
    (fun h => denominator_nonneg _) hevc hk hη a fun h hh => ?_
  have hnum := C89_euler_numerator p U_i (row.map fun e => (e.1 h, h ^ a • e.2))
  have hmap : (row.map fun e => (e.1 h, h ^ a • e.2)) = (row.map fun e => (e.1 h, e.2)).map fun e => (e.1, h ^ a • e.2) := by
    rw [List.map_map]; rfl
  conv_rhs at hnum => rw [hmap, production_smul]
  rw [← hnum]
  have heta := accumulate_eta p (row.map fun e => (e.1 h, h ^ a • e.2)) (IndicatorState.reset p (hartenEntropy p U_i) U_i)
  unfold indicator IndicatorState.alpha
  rw [heta]
  show min 1 (evc * (|(indicatorAfter p U_i _).numerator| / (_ + _ * |hartenEntropy p U_i|))) = _
  rw [abs_of_pos hη]
  rfl

/-- Example: a linear density profile; both neighbours of a node of a one-dimensional mesh. -/
example : ∃ (U_i : State 1) (row : List ((ℝ → State 1) × Vec 1)), 0 < density U_i ∧ 0 < internalEnergy U_i ∧ row.length = 2 ∧
    (∀ e ∈ row, e.1 0 = U_i) ∧ (∀ e ∈ row, DifferentiableAt ℝ e.1 0) ∧ ∀ e ∈ row, e.1 1 ≠ U_i := by
  refine ⟨mkState 1 ![1] 2, [(fun h => mkState 1 ![1] 2 + h • mkState 1 ![1] 2, ![1 / 2]),
    (fun h => mkState 1 ![1] 2 + h • mkState (-1) ![-1] (-2), ![-1 / 2])], by norm_num, ?_, rfl, ?_, ?_, ?_⟩
  · norm_num [internalEnergy, normSq]
  · intro e he
    simp only [List.mem_cons, List.not_mem_nil, or_false] at he
    rcases he with rfl | rfl <;> simp
  · intro e he
    simp only [List.mem_cons, List.not_mem_nil, or_false] at he
    rcases he with rfl | rfl
    · exact (differentiableAt_const _).add (differentiableAt_id.smul_const _)
    · exact (differentiableAt_const _).add (differentiableAt_id.smul_const _)
  · intro e he
    simp only [List.mem_cons, List.not_mem_nil, or_false] at he
    rcases he with rfl | rfl <;> intro h <;> have := congrArg density h <;> norm_num at this

end Euler

namespace Aeos

open Euler (State density momentum totalEnergy internalEnergy mkState)
open EntropyPair

/-- `ρ (ρ e - ρ q - p_∞ (1 - b ρ))`. -/
noncomputable def scaledShift (P : Params) (U : State dim) : ℝ :=
  density U * totalEnergy U - (1 / 2) * normSq (momentum U) - density U * density U * P.q -
    density U * P.pinf * covolume P (density U)

theorem scaledShift_eq (P : Params) (U : State dim) (hr : density U ≠ 0) : scaledShift P U = density U * shift P U := by
  have h := Euler.rho_rhoe U hr
  unfold scaledShift shift
  linear_combination -h

theorem scaledShift_curve (P : Params) {c : ℝ → State dim} {c' : State dim} (hc : HasDerivAt c c' 0) :
    HasDerivAt (fun h => scaledShift P (c h))
      ((totalEnergy (c 0) - 2 * density (c 0) * P.q - P.pinf * (1 - 2 * P.b * density (c 0))) * density c' -
        dot (momentum (c 0)) (momentum c') + density (c 0) * totalEnergy c') 0 := by
  obtain ⟨h1, h2, h3⟩ := curve_components hc
  have hcov : HasDerivAt (fun h => covolume P (density (c h))) (-(P.b * density c')) 0 := by
    unfold covolume
    exact (h1.const_mul P.b).const_sub 1
  refine ((((h1.mul h3).sub ((hasDerivAt_normSq h2).const_mul (1 / 2))).sub ((h1.mul h1).mul_const P.q)).sub
    ((h1.mul_const P.pinf).mul hcov)).congr_deriv ?_
  unfold covolume
  ring

theorem factor_eq {s x g : ℝ} (hs : 0 < s) (hx : 0 < x) (hg : 0 < g + 1) :
    (((s * x ^ (g - 1)) ^ (1 / (g + 1)) * (1 / x)) ^ (-g) * (1 / x) ^ 2) * x =
      (s * x ^ (g - 1)) ^ (1 / (g + 1) - 1) * x ^ (g - 1) := by
  have hB : 0 < s * x ^ (g - 1) := mul_pos hs (Real.rpow_pos_of_pos hx _)
  have h1 : 1 / x = x ^ (-1 : ℝ) := by rw [Real.rpow_neg_one, one_div]
  rw [Real.mul_rpow (Real.rpow_pos_of_pos hB _).le (by positivity), ← Real.rpow_mul hB.le]
  have h2 : (1 / x) ^ (-g) = x ^ g := by rw [h1, ← Real.rpow_mul hx.le]; congr 1; ring
  have h3 : (1 / (g + 1)) * (-g) = 1 / (g + 1) - 1 := by field_simp; ring
  have h4 : x ^ (g - 1) = x ^ g * (1 / x) := by rw [Real.rpow_sub hx, Real.rpow_one]; ring
  rw [h2, h3]
  conv_rhs => rw [h4]
  have h5 : s * (x ^ g * (1 / x)) = s * x ^ (g - 1) := by rw [h4]
  rw [h5]
  field_simp

/-- The coefficients of `surrogate_harten_entropy_derivative`. -/
theorem derivative_eq (P : Params) (gamma : ℝ) (hg : 0 < gamma + 1) (U : State dim)
    (hx : 0 < covolume P (density U)) (hs : 0 < scaledShift P U) :
    ∃ F, F = 1 / (gamma + 1) * (scaledShift P U * covolume P (density U) ^ (gamma - 1)) ^ (1 / (gamma + 1) - 1) *
        covolume P (density U) ^ (gamma - 1) ∧
      surrogateHartenEntropyDerivative P U (surrogateHartenEntropy P U gamma) gamma =
        mkState (F * (totalEnergy U - 2 * density U * P.q - P.pinf * (1 - 2 * P.b * density U)) -
          F / covolume P (density U) * ((gamma - 1) * scaledShift P U * P.b)) (fun i => -F * momentum U i) (F * density U) := by
  refine ⟨_, rfl, ?_⟩
  have hη : surrogateHartenEntropy P U gamma = (scaledShift P U * covolume P (density U) ^ (gamma - 1)) ^ (1 / (gamma + 1)) := rfl
  have hF := factor_eq hs hx hg
  rw [← hη] at hF
  generalize surrogateHartenEntropy P U gamma = eta at hF hη ⊢
  have hfac : 1 / (gamma + 1) * (scaledShift P U * covolume P (density U) ^ (gamma - 1)) ^ (1 / (gamma + 1) - 1) *
        covolume P (density U) ^ (gamma - 1) =
      (eta * (1 / covolume P (density U))) ^ (-gamma) * (1 / covolume P (density U)) ^ 2 / (gamma + 1) * covolume P (density U) := by
    rw [mul_assoc, ← hF]; ring
  rw [hfac]
  show mkState ((eta * (1 / covolume P (density U))) ^ (-gamma) * (1 / covolume P (density U)) ^ 2 / (gamma + 1) *
      (covolume P (density U) * (totalEnergy U - 2 * density U * P.q - P.pinf * (1 - 2 * P.b * density U)) +
        -(gamma - 1) * scaledShift P U * P.b)) (fun i => -((eta * (1 / covolume P (density U))) ^ (-gamma) *
          (1 / covolume P (density U)) ^ 2 / (gamma + 1)) * covolume P (density U) * momentum U i) _ = _
  congr 1
  · field_simp
    ring
  · funext i; ring

/-- **C89 (arbitrary equation of state, gradient).** -/
theorem C89_aeos_harten_gradient (P : Params) (gamma : ℝ) (hg : 0 < gamma + 1) (U : State dim)
    (hr : 0 < density U) (hx : 0 < covolume P (density U)) (hs : 0 < shift P U) :
    Spec.IsGradient (fun U => surrogateHartenEntropy P U gamma) U
      (surrogateHartenEntropyDerivative P U (surrogateHartenEntropy P U gamma) gamma) := by
  intro c c' h0 hc
  have hs' : 0 < scaledShift P U := by rw [scaledShift_eq P U hr.ne']; exact mul_pos hr hs
  obtain ⟨F, hF, hder⟩ := derivative_eq P gamma hg U hx hs'
  obtain ⟨h1, -, -⟩ := curve_components hc
  have hcov : HasDerivAt (fun h => covolume P (density (c h))) (-(P.b * density c')) 0 := by
    unfold covolume
    exact (h1.const_mul P.b).const_sub 1
  have hB := (scaledShift_curve P hc).mul (hcov.rpow_const (p := gamma - 1) (Or.inl (by rw [h0]; exact hx.ne')))
  have hd := hB.rpow_const (p := 1 / (gamma + 1)) (Or.inl (by
    simp only [Pi.mul_apply]
    rw [h0]; exact (mul_pos hs' (Real.rpow_pos_of_pos hx _)).ne'))
  refine hd.congr_deriv ?_
  simp only [Pi.mul_apply]
  rw [hder, sum_mkState, h0, hF]
  have h4 : covolume P (density U) ^ (gamma - 1 - 1) = covolume P (density U) ^ (gamma - 1) / covolume P (density U) := by
    rw [Real.rpow_sub hx, Real.rpow_one]
  rw [h4]
  field_simp
  ring

theorem surrogatePressure_curve (P : Params) (gamma : ℝ) {c : ℝ → State dim} {c' : State dim} (hc : HasDerivAt c c' 0)
    (hr : density (c 0) ≠ 0) (hx : covolume P (density (c 0)) ≠ 0) :
    ∃ P', HasDerivAt (fun h => surrogatePressure P (c h) gamma) P' 0 := by
  obtain ⟨h1, h2, h3⟩ := curve_components hc
  have hcov : HasDerivAt (fun h => covolume P (density (c h))) (-(P.b * density c')) 0 := by
    unfold covolume
    exact (h1.const_mul P.b).const_sub 1
  have hi : HasDerivAt (fun h => internalEnergy (c h)) _ 0 :=
    h3.sub (((hasDerivAt_normSq h2).const_mul (1 / 2)).mul ((hasDerivAt_const (0 : ℝ) (1 : ℝ)).div h1 hr))
  exact ⟨_, (((hi.sub (h1.mul_const P.q)).const_mul (gamma - 1)).div hcov hx).sub_const (gamma * P.pinf)⟩

/-- **C89 (arbitrary equation of state, entropy pair).** For the gas with the surrogate pressure, `η v` is the flux of the
surrogate Harten entropy. -/
theorem C89_aeos_entropy_flux (P : Params) (gamma : ℝ) (hg : 0 < gamma + 1) (U : State dim)
    (hr : 0 < density U) (hx : 0 < covolume P (density U)) (hs : 0 < shift P U) :
    Spec.IsEntropyFlux (fun U d => surrogateHartenEntropy P U gamma / density U * momentum U d)
      (fun U => f U (surrogatePressure P U gamma)) U
      (surrogateHartenEntropyDerivative P U (surrogateHartenEntropy P U gamma) gamma) := by
  have hs' : 0 < scaledShift P U := by rw [scaledShift_eq P U hr.ne']; exact mul_pos hr hs
  obtain ⟨F, hF, hder⟩ := derivative_eq P gamma hg U hx hs'
  have hgrad := C89_aeos_harten_gradient P gamma hg U hr hx hs
  rw [hder] at hgrad ⊢
  refine gas_entropyFlux (pr := fun U => surrogatePressure P U gamma) (fun U d => contract_f U _ d) hr.ne'
    (fun c c' h0 hc => surrogatePressure_curve P gamma hc (by rw [h0]; exact hr.ne') (by rw [h0]; exact hx.ne')) hgrad ?_
  have hη : surrogateHartenEntropy P U gamma = (gamma + 1) * scaledShift P U * F := by
    have e : surrogateHartenEntropy P U gamma = (scaledShift P U * covolume P (density U) ^ (gamma - 1)) ^ (1 / (gamma + 1)) := rfl
    have hB : 0 < scaledShift P U * covolume P (density U) ^ (gamma - 1) := mul_pos hs' (Real.rpow_pos_of_pos hx _)
    have hexp : 1 / (gamma + 1) = (1 / (gamma + 1) - 1) + 1 := by ring
    rw [e, hF]
    conv_lhs => rw [hexp]
    rw [Real.rpow_add hB, Real.rpow_one]
    field_simp
  rw [hη]
  have hE : totalEnergy U = (scaledShift P U + density U * density U * P.q + density U * P.pinf * covolume P (density U)) /
      density U + (1 / 2) * normSq (momentum U) / density U := by
    unfold scaledShift
    field_simp
    ring
  have hp : surrogatePressure P U gamma = (gamma - 1) * (scaledShift P U / density U +
      P.pinf * covolume P (density U)) / covolume P (density U) - gamma * P.pinf := by
    rw [scaledShift_eq P U hr.ne']
    unfold surrogatePressure shift
    field_simp
    ring
  rw [hp, hE]
  have hb : P.b * density U = 1 - covolume P (density U) := by unfold covolume; ring
  generalize covolume P (density U) = x at hx hb ⊢
  generalize scaledShift P U = s
  have hb' : P.b = (1 - x) / density U := by field_simp; linarith
  rw [hb']
  field_simp
  ring

/-- The indicator after the row has been accumulated. -/
noncomputable def indicatorAfter (P : Params) (gamma : ℝ) (U_i : State dim) (row : List (State dim × Vec dim)) :
    IndicatorState dim :=
  row.foldl (fun st e => st.accumulate P e.1 e.2)
    (IndicatorState.reset P gamma (surrogateHartenEntropy P U_i gamma) U_i)

/-- **C89 (arbitrary equation of state, meaning of the numerator).** -/
theorem C89_aeos_numerator (P : Params) (gamma : ℝ) (U_i : State dim) (row : List (State dim × Vec dim)) :
    (indicatorAfter P gamma U_i row).numerator =
      Spec.entropyProduction (fun U d => surrogateHartenEntropy P U gamma / density U * momentum U d)
        (fun U => f U (surrogatePressure P U gamma)) U_i
        (surrogateHartenEntropyDerivative P U_i (surrogateHartenEntropy P U_i gamma) gamma) row := by
  have gen : ∀ (row : List (State dim × Vec dim)) (st : IndicatorState dim), st.gamma_min = gamma →
      st.f_i = f U_i (surrogatePressure P U_i gamma) →
      st.eta_i = surrogateHartenEntropy P U_i gamma → st.rho_i_inverse = 1 / density U_i →
      st.d_eta_i = (IndicatorState.reset P gamma (surrogateHartenEntropy P U_i gamma) U_i).d_eta_i →
      (row.foldl (fun st e => st.accumulate P e.1 e.2) st).numerator = st.numerator +
        Spec.entropyProduction (fun U d => surrogateHartenEntropy P U gamma / density U * momentum U d)
          (fun U => f U (surrogatePressure P U gamma)) U_i
          (surrogateHartenEntropyDerivative P U_i (surrogateHartenEntropy P U_i gamma) gamma) row := by
    intro row
    induction row with
    | nil => intro st _ _ _ _ _; simp [Spec.entropyProduction]
    | cons e l ih =>
      intro st hgm hf he hr hd
      rw [List.foldl_cons, ih (st.accumulate P e.1 e.2) hgm hf he hr hd]
      simp only [Spec.entropyProduction, List.map_cons, List.sum_cons]
      rw [← add_assoc]
      congr 1
      unfold IndicatorState.numerator
      rw [Euler.foldl_sub_finRange, Euler.foldl_sub_finRange]
      simp only [IndicatorState.accumulate]
      rw [hd, he, hr, hf, hgm]
      have hdot : ∀ (a : ℝ) (b : ℝ) (m m' c : Vec dim), dot (fun d => a * m d - b * m' d) c = a * dot m c - b * dot m' c := by
        intro a b m m' c
        unfold dot
        rw [Finset.mul_sum, Finset.mul_sum, ← Finset.sum_sub_distrib]
        exact Finset.sum_congr rfl fun i _ => by ring
      rw [hdot]
      have hs : ∀ (R : State dim),
          ∑ k, (IndicatorState.reset P gamma (surrogateHartenEntropy P U_i gamma) U_i).d_eta_i k * R k =
          ∑ k, surrogateHartenEntropyDerivative P U_i (surrogateHartenEntropy P U_i gamma) gamma k * R k -
            surrogateHartenEntropy P U_i gamma * (1 / density U_i) * R 0 := by
        intro R
        simp only [IndicatorState.reset]
        rw [Fin.sum_univ_succ, Fin.sum_univ_succ
          (fun k => surrogateHartenEntropyDerivative P U_i (surrogateHartenEntropy P U_i gamma) gamma k * R k)]
        simp only [Function.update_self, Function.update_of_ne (Fin.succ_ne_zero _)]
        ring
      rw [hs, hs]
      have hm : ∀ (V : State dim) (pr : ℝ), f V pr 0 = momentum V := fun V pr => rfl
      have hsub : dot (fun d => f e.1 (surrogatePressure P e.1 gamma) 0 d - f U_i (surrogatePressure P U_i gamma) 0 d) e.2 =
          dot (momentum e.1) e.2 - dot (momentum U_i) e.2 := by
        rw [hm, hm]; unfold dot; rw [← Finset.sum_sub_distrib]
        exact Finset.sum_congr rfl fun i _ => by ring
      rw [hsub]
      simp only [mul_add, Finset.sum_add_distrib]
      ring
  unfold indicatorAfter
  rw [gen row _ rfl rfl rfl rfl rfl]
  unfold IndicatorState.numerator
  rw [Euler.foldl_sub_finRange]
  simp [IndicatorState.reset]

/-- **C89 (arbitrary equation of state, smooth flow).** -/
theorem C89_aeos_indicator_vanishes (P : Params) (gamma : ℝ) (hg : 0 < gamma + 1) (evc kappa : ℝ) (hevc : 0 ≤ evc)
    (hk : 0 < kappa) (a : ℕ) (U_i : State dim) (hr : 0 < density U_i) (hx : 0 < covolume P (density U_i))
    (hs : 0 < shift P U_i) (row : List ((ℝ → State dim) × Vec dim))
    (h0 : ∀ e ∈ row, e.1 0 = U_i) (hd : ∀ e ∈ row, DifferentiableAt ℝ e.1 0) :
    Tendsto (fun h => indicator P evc gamma U_i (row.map fun e => (e.1 h, h ^ a • e.2)) (kappa * h ^ (a + 1)))
      (𝓝[>] 0) (𝓝 0) := by
  have hs' : 0 < scaledShift P U_i := by rw [scaledShift_eq P U_i hr.ne']; exact mul_pos hr hs
  have hη : 0 < surrogateHartenEntropy P U_i gamma :=
    Real.rpow_pos_of_pos (mul_pos hs' (Real.rpow_pos_of_pos hx _)) _
  refine quotient_tendsto (production_little_o (C89_aeos_entropy_flux P gamma hg U_i hr hx hs) row h0 hd)
    (den := fun h => (indicatorAfter P gamma U_i (row.map fun e => (e.1 h, h ^ a • e.2))).denominator)
    (fun h => denominator_nonneg _) hevc hk hη a fun h hh => ?_
  have hnum := C89_aeos_numerator P gamma U_i (row.map fun e => (e.1 h, h ^ a • e.2))
  have hmap : (row.map fun e => (e.1 h, h ^ a • e.2)) = (row.map fun e => (e.1 h, e.2)).map fun e => (e.1, h ^ a • e.2) := by
    rw [List.map_map]; rfl
  conv_rhs at hnum => rw [hmap, production_smul]
  rw [← hnum]
  have heta := accumulate_eta P (row.map fun e => (e.1 h, h ^ a • e.2))
    (IndicatorState.reset P gamma (surrogateHartenEntropy P U_i gamma) U_i)
  unfold indicator IndicatorState.alpha
  rw [heta]
  show min 1 (evc * (|(indicatorAfter P gamma U_i _).numerator| / (_ + _ * |surrogateHartenEntropy P U_i gamma|))) = _
  rw [abs_of_pos hη]
  rfl

/-- Example: a gas with covolume, reference energy and `p_∞`. -/
example : ∃ (P : Params) (U : State 1), 0 < P.b ∧ 0 < P.pinf ∧ 0 < P.q ∧ 0 < density U ∧ 0 < covolume P (density U) ∧
    0 < shift P U := by
  refine ⟨⟨1 / 2, 1, 1, 1, 1, 1, 0⟩, mkState 1 ![1] 3, by norm_num, by norm_num, by norm_num, by norm_num, ?_, ?_⟩
  · norm_num [covolume]
  · norm_num [shift, covolume, internalEnergy, normSq]

end Aeos

namespace ShallowWater

open EntropyPair

theorem curve_components {c : ℝ → State dim} {c' : State dim} (hc : HasDerivAt c c' 0) :
    HasDerivAt (fun h => waterDepth (c h)) (waterDepth c') 0 ∧
    (∀ k, HasDerivAt (fun h => momentum (c h) k) (momentum c' k) 0) :=
  ⟨hasDerivAt_pi.1 hc _, fun _ => hasDerivAt_pi.1 hc _⟩

/-- A state above the dry cutoff. -/
def Wet (p : Params) (U : State dim) : Prop :=
  0 < waterDepth U ∧ p.reference_water_depth * p.dry_state_relaxation_small * p.eps < waterDepth U

theorem sharp_of_wet {p : Params} {U : State dim} (h : Wet p U) : inverseWaterDepthSharp p U = 1 / waterDepth U := by
  unfold inverseWaterDepthSharp waterDepthSharp
  rw [max_eq_left h.2.le]

theorem wet_eventually {p : Params} {c : ℝ → State dim} {c' : State dim} (hc : HasDerivAt c c' 0) (h : Wet p (c 0)) :
    ∀ᶠ t in 𝓝 0, Wet p (c t) := by
  have hcont := (curve_components hc).1.continuousAt
  exact (hcont.eventually (lt_mem_nhds h.1)).and (hcont.eventually (lt_mem_nhds h.2))

theorem sum_state' (A B : State dim) : ∑ k, A k * B k = waterDepth A * waterDepth B + dot (momentum A) (momentum B) := by
  rw [Fin.sum_univ_succ]; rfl

theorem entropy_wet {p : Params} {U : State dim} (h : Wet p U) :
    mathematicalEntropy p U = (1 / 2) * p.gravity * (waterDepth U * waterDepth U) + (1 / 2) * (normSq (momentum U) / waterDepth U) := by
  unfold mathematicalEntropy kineticEnergy pressure
  rw [sharp_of_wet h, Euler.normSq_smul]
  have := h.1.ne'
  field_simp

/-- **C89 (shallow water, gradient).** Above the dry cutoff. -/
theorem C89_sw_gradient (p : Params) (U : State dim) (hU : Wet p U) :
    Spec.IsGradient (mathematicalEntropy p) U (mathematicalEntropyDerivative p U) := by
  intro c c' h0 hc
  obtain ⟨h1, h2⟩ := curve_components hc
  have hw := wet_eventually hc (h0 ▸ hU)
  have hne : waterDepth (c 0) ≠ 0 := by rw [h0]; exact hU.1.ne'
  have hd := ((h1.mul h1).const_mul ((1 / 2) * p.gravity)).add (((hasDerivAt_normSq h2).div h1 hne).const_mul (1 / 2))
  refine HasDerivAt.congr_of_eventuallyEq (hd.congr_deriv ?_) (hw.mono fun t ht => entropy_wet ht)
  rw [h0, sum_state']
  unfold mathematicalEntropyDerivative
  simp only [waterDepth_mkState, momentum_mkState]
  rw [sharp_of_wet hU, dot_smul_left, Euler.normSq_smul]
  have := hU.1.ne'
  field_simp
  ring

theorem flux_wet {p : Params} {U : State dim} (h : Wet p U) (d : Vec dim) :
    (∀ k, dot (f p U k) d = mkState (dot (momentum U) d) (fun i => dot (momentum U) d / waterDepth U * momentum U i +
      (1 / 2) * p.gravity * (waterDepth U * waterDepth U) * d i) k) := by
  have hne := h.1.ne'
  intro k
  refine Fin.cases ?_ (fun i => ?_) k
  · show dot (fun k => momentum U k * inverseWaterDepthSharp p U * waterDepth U) d = dot (momentum U) d
    rw [sharp_of_wet h]
    congr 1; funext k; field_simp
  · show dot (fun k => momentum U k * inverseWaterDepthSharp p U * momentum U i + if k = i then pressure p U else 0) d =
      dot (momentum U) d / waterDepth U * momentum U i + (1 / 2) * p.gravity * (waterDepth U * waterDepth U) * d i
    rw [sharp_of_wet h]
    have e : (fun k => momentum U k * (1 / waterDepth U) * momentum U i + if k = i then pressure p U else 0) =
        (momentum U i / waterDepth U) • momentum U + (fun k => if k = i then pressure p U else 0) := by
      funext k; simp only [Pi.add_apply, Pi.smul_apply, smul_eq_mul]; ring
    rw [e, dot_add_left, dot_smul_left]
    have e2 : dot (fun k => if k = i then pressure p U else 0) d = pressure p U * d i := by
      unfold dot; simp
    rw [e2]
    unfold pressure
    ring

theorem entropyFlux_wet {p : Params} {U : State dim} (h : Wet p U) (d : Vec dim) :
    dot (fun k => (mathematicalEntropy p U + pressure p U) * (inverseWaterDepthSharp p U • momentum U) k) d =
      (p.gravity * waterDepth U + (1 / 2) * (normSq (momentum U) / waterDepth U ^ 2)) * dot (momentum U) d := by
  have e : (fun k => (mathematicalEntropy p U + pressure p U) * (inverseWaterDepthSharp p U • momentum U) k) =
      ((mathematicalEntropy p U + pressure p U) * (1 / waterDepth U)) • momentum U := by
    rw [sharp_of_wet h]; funext k; simp only [Pi.smul_apply, smul_eq_mul]; ring
  rw [e, dot_smul_left, entropy_wet h]
  unfold pressure
  have := h.1.ne'
  field_simp
  ring

/-- **C89 (shallow water, entropy pair).** Above the dry cutoff `(η + p) v` is the entropy flux. -/
theorem C89_sw_entropy_flux (p : Params) (U : State dim) (hU : Wet p U) :
    Spec.IsEntropyFlux (fun U k => (mathematicalEntropy p U + pressure p U) * (inverseWaterDepthSharp p U • momentum U) k)
      (f p) U (mathematicalEntropyDerivative p U) := by
  intro c c' d h0 hc
  obtain ⟨h1, h2⟩ := curve_components hc
  have hw := wet_eventually hc (h0 ▸ hU)
  have hne : waterDepth (c 0) ≠ 0 := by rw [h0]; exact hU.1.ne'
  have hne2 : waterDepth (c 0) ^ 2 ≠ 0 := pow_ne_zero _ hne
  have hwd := hasDerivAt_dot h2 d
  set w := dot (momentum U) d with hwdef
  set w' := dot (momentum c') d with hw'
  let F' : State dim := mkState w' (fun i => (w' * waterDepth U - w * waterDepth c') / waterDepth U ^ 2 * momentum U i +
    w / waterDepth U * momentum c' i + (1 / 2) * p.gravity * (2 * waterDepth U * waterDepth c') * d i)
  refine ⟨F', fun k => ?_, ?_⟩
  · refine HasDerivAt.congr_of_eventuallyEq ?_ (hw.mono fun t ht => flux_wet ht d k)
    refine Fin.cases ?_ (fun i => ?_) k
    · exact hwd
    · have e1 : ∀ (a : ℝ) (m : Vec dim), mkState a m i.succ = m i := fun a m => congrFun (momentum_mkState a m) i
      simp only [e1, F']
      have := ((hwd.div h1 hne).mul (h2 i)).add (((h1.mul h1).const_mul ((1 / 2) * p.gravity)).mul_const (d i))
      simp only [Pi.div_apply] at this
      rw [h0] at this
      refine this.congr_deriv ?_
      ring
  · have hq := (((h1.const_mul p.gravity).add (((hasDerivAt_normSq h2).div (h1.pow 2) hne2).const_mul (1 / 2))).mul hwd)
    simp only [Pi.add_apply, Pi.div_apply, Pi.pow_apply] at hq
    refine HasDerivAt.congr_of_eventuallyEq (hq.congr_deriv ?_) (hw.mono fun t ht => entropyFlux_wet ht d)
    rw [h0, sum_state']
    have hF0 : waterDepth F' = w' := waterDepth_mkState _ _
    have hFm : momentum F' = ((w' * waterDepth U - w * waterDepth c') / waterDepth U ^ 2) • momentum U +
        (w / waterDepth U) • momentum c' + ((1 / 2) * p.gravity * (2 * waterDepth U * waterDepth c')) • d := by
      simp only [F', momentum_mkState]
      funext i; simp only [Pi.add_apply, Pi.smul_apply, smul_eq_mul]
    rw [hF0, hFm]
    unfold mathematicalEntropyDerivative
    simp only [waterDepth_mkState, momentum_mkState]
    rw [sharp_of_wet hU, dot_smul_left, Euler.normSq_smul, dot_add_right, dot_add_right, dot_smul_right, dot_smul_right,
      dot_smul_right, ← normSq_eq_dot, ← hwdef]
    have := hU.1.ne'
    field_simp
    ring

/-- The indicator after the row has been accumulated. -/
noncomputable def indicatorAfter (p : Params) (U_i : State dim) (row : List (State dim × Vec dim)) : IndicatorState dim :=
  row.foldl (fun st e => st.accumulate p e.1 e.2) (IndicatorState.reset p U_i)

/-- **C89 (shallow water, meaning of the numerator).** If the `c_ij` of the row sum up to zero (the row contains the diagonal
entry), the numerator of the indicator is the entropy production of the stencil. -/
theorem C89_sw_numerator (p : Params) (U_i : State dim) (row : List (State dim × Vec dim)) (hc : (row.map Prod.snd).sum = 0) :
    (indicatorAfter p U_i row).left - ∑ k, (indicatorAfter p U_i row).d_eta_i k * (indicatorAfter p U_i row).right k =
      Spec.entropyProduction
        (fun U k => (mathematicalEntropy p U + pressure p U) * (inverseWaterDepthSharp p U • momentum U) k)
        (f p) U_i (mathematicalEntropyDerivative p U_i) row := by
  have gen : ∀ (row : List (State dim × Vec dim)) (st : IndicatorState dim), st.f_i = f p U_i →
      st.d_eta_i = mathematicalEntropyDerivative p U_i →
      let st' := row.foldl (fun st e => st.accumulate p e.1 e.2) st
      st'.left - ∑ k, st'.d_eta_i k * st'.right k = st.left - ∑ k, st.d_eta_i k * st.right k +
        dot (fun k => (mathematicalEntropy p U_i + pressure p U_i) * (inverseWaterDepthSharp p U_i • momentum U_i) k)
          (row.map Prod.snd).sum +
        Spec.entropyProduction
          (fun U k => (mathematicalEntropy p U + pressure p U) * (inverseWaterDepthSharp p U • momentum U) k)
          (f p) U_i (mathematicalEntropyDerivative p U_i) row := by
    intro row
    induction row with
    | nil => intro st _ _; simp [Spec.entropyProduction, dot]
    | cons e l ih =>
      intro st hf hd
      have := ih (st.accumulate p e.1 e.2) hf hd
      simp only [List.foldl_cons] at this ⊢
      rw [this]
      simp only [Spec.entropyProduction, List.map_cons, List.sum_cons]
      rw [dot_add_right]
      simp only [IndicatorState.accumulate]
      rw [hd, hf]
      have hsub : ∀ a b c : Vec dim, dot (fun d => a d - b d) c = dot a c - dot b c := by
        intro a b c; unfold dot; rw [← Finset.sum_sub_distrib]
        exact Finset.sum_congr rfl fun i _ => by ring
      have hsub' : ∀ a b c : Vec dim, dot (a - b) c = dot a c - dot b c := hsub
      have hq : dot (fun k => (mathematicalEntropy p e.1 + pressure p e.1) * (inverseWaterDepthSharp p e.1 • momentum e.1) k) e.2 =
          (mathematicalEntropy p e.1 + pressure p e.1) * dot (inverseWaterDepthSharp p e.1 • momentum e.1) e.2 :=
        dot_smul_left (mathematicalEntropy p e.1 + pressure p e.1) _ _
      simp only [hsub, hsub', hq, mul_add, Finset.sum_add_distrib]
      ring
  have := gen row (IndicatorState.reset p U_i) rfl rfl
  simp only at this
  unfold indicatorAfter
  rw [this, hc]
  simp [IndicatorState.reset, dot]

/-- **C89 (shallow water, smooth flow).** As for gas dynamics, at states above the dry cutoff; the vectors `c_ij` of a row sum
up to zero (C87). -/
theorem C89_sw_indicator_vanishes (p : Params) (hgr : 0 < p.gravity) (evc kappa : ℝ) (hevc : 0 ≤ evc) (hk : 0 < kappa) (a : ℕ)
    (U_i : State dim) (hU : Wet p U_i) (row : List ((ℝ → State dim) × Vec dim)) (hc : (row.map Prod.snd).sum = 0)
    (h0 : ∀ e ∈ row, e.1 0 = U_i) (hd : ∀ e ∈ row, DifferentiableAt ℝ e.1 0) :
    Tendsto (fun h => indicator p evc (kappa * h ^ (a + 1)) U_i (row.map fun e => (e.1 h, h ^ a • e.2))) (𝓝[>] 0) (𝓝 0) := by
  have hη : 0 < mathematicalEntropy p U_i := by
    rw [entropy_wet hU]
    have h1 := hU.1
    have h2 := normSq_nonneg (momentum U_i)
    positivity
  have hsumsmul : ∀ (s : ℝ) (l : List ((ℝ → State dim) × Vec dim)), (l.map fun e => s • e.2).sum = s • (l.map Prod.snd).sum := by
    intro s l
    induction l with
    | nil => simp
    | cons e l ih => simp only [List.map_cons, List.sum_cons, ih, smul_add]
  refine quotient_tendsto (production_little_o (C89_sw_entropy_flux p U_i hU) row h0 hd)
    (den := fun h => |(indicatorAfter p U_i (row.map fun e => (e.1 h, h ^ a • e.2))).left| +
      |∑ k, (indicatorAfter p U_i (row.map fun e => (e.1 h, h ^ a • e.2))).d_eta_i k *
        (indicatorAfter p U_i (row.map fun e => (e.1 h, h ^ a • e.2))).right k| +
      (max (kappa * h ^ (a + 1) * mathematicalEntropy p U_i) (100 * p.tiny) - kappa * h ^ (a + 1) * mathematicalEntropy p U_i))
    (fun h => add_nonneg (add_nonneg (abs_nonneg _) (abs_nonneg _)) (sub_nonneg.2 (le_max_left _ _))) hevc hk hη a fun h hh => ?_
  have hnum := C89_sw_numerator p U_i (row.map fun e => (e.1 h, h ^ a • e.2)) (by
    rw [List.map_map]
    have := hsumsmul (h ^ a) row
    rw [hc, smul_zero] at this
    exact this)
  have hmap : (row.map fun e => (e.1 h, h ^ a • e.2)) = (row.map fun e => (e.1 h, e.2)).map fun e => (e.1, h ^ a • e.2) := by
    rw [List.map_map]; rfl
  conv_rhs at hnum => rw [hmap, production_smul]
  rw [← hnum]
  have heta : ∀ (row : List (State dim × Vec dim)) (st : IndicatorState dim),
      (row.foldl (fun st e => st.accumulate p e.1 e.2) st).eta_i = st.eta_i := by
    intro row
    induction row with
    | nil => intro st; rfl
    | cons e l ih => intro st; rw [List.foldl_cons, ih]; rfl
  unfold indicator IndicatorState.alpha
  simp only [heta]
  rw [show (IndicatorState.reset p U_i).eta_i = mathematicalEntropy p U_i from rfl, abs_of_pos hη, abs_abs]
  unfold indicatorAfter
  congr 3
  ring

/-- Example: a row with zero sum of the `c_ij` around a wet state. -/
example : ∃ (p : Params) (U : State 1) (row : List ((ℝ → State 1) × Vec 1)), Wet p U ∧ (row.map Prod.snd).sum = 0 ∧
    row.length = 3 ∧ (∀ e ∈ row, e.1 0 = U) ∧ (∀ e ∈ row, DifferentiableAt ℝ e.1 0) := by
  refine ⟨⟨9.81, 0, 1, 1, 1, 1, 0, 0⟩, mkState 1 ![1], [(fun _ => mkState 1 ![1], 0),
    (fun h => mkState 1 ![1] + h • mkState 1 ![1], ![1 / 2]), (fun h => mkState 1 ![1] + h • mkState (-1) ![-1], ![-1 / 2])],
    ⟨by norm_num, by norm_num⟩, ?_, rfl, ?_, ?_⟩
  · funext k; fin_cases k; norm_num
  · intro e he
    simp only [List.mem_cons, List.not_mem_nil, or_false] at he
    rcases he with rfl | rfl | rfl <;> simp
  · intro e he
    simp only [List.mem_cons, List.not_mem_nil, or_false] at he
    rcases he with rfl | rfl | rfl
    · exact differentiableAt_const _
    · exact (differentiableAt_const _).add (differentiableAt_id.smul_const _)
    · exact (differentiableAt_const _).add (differentiableAt_id.smul_const _)

end ShallowWater

namespace Scalar

/-- The row of the indicator for a flux function `fl` and states `u_j`. -/
def indicatorRow (fl : ℝ → Vec dim) (row : List (ℝ × Vec dim)) : List (IndicatorEntry dim) :=
  row.map fun e => ⟨e.1, fl e.1, e.2⟩

/-- **C89 (scalar, meaning of the numerator).** The numerator is the entropy production of the Kruzkov entropy
`|u - u_i|`, whose flux is `sign(u - u_i) (f(u) - f(u_i))` (zero gradient at `u_i`). -/
theorem C89_scalar_numerator (fl : ℝ → Vec dim) (u_i : ℝ) (row : List (ℝ × Vec dim)) :
    let st := (indicatorRow fl row).foldl IndicatorState.accumulate (IndicatorState.reset u_i (fl u_i))
    st.left - st.right = Spec.entropyProduction (n := 1)
      (fun u d => (if u 0 ≥ u_i then 1 else -1) * (fl (u 0) d - fl u_i d)) (fun u _ => fl (u 0)) (fun _ => u_i) (fun _ => 0)
      (row.map fun e => (fun _ => e.1, e.2)) := by
  have gen : ∀ (row : List (ℝ × Vec dim)) (st : IndicatorState dim), st.f_i = fl u_i → st.u_i = u_i →
      ((indicatorRow fl row).foldl IndicatorState.accumulate st).left -
        ((indicatorRow fl row).foldl IndicatorState.accumulate st).right = st.left - st.right +
      Spec.entropyProduction (n := 1)
      (fun u d => (if u 0 ≥ u_i then 1 else -1) * (fl (u 0) d - fl u_i d)) (fun u _ => fl (u 0)) (fun _ => u_i) (fun _ => 0)
      (row.map fun e => (fun _ => e.1, e.2)) := by
    intro row
    induction row with
    | nil => intro st _ _; simp [indicatorRow, Spec.entropyProduction]
    | cons e l ih =>
      intro st hf hu
      have := ih (st.accumulate ⟨e.1, fl e.1, e.2⟩) hf hu
      simp only [indicatorRow, List.map_cons, List.foldl_cons] at this ⊢
      rw [this]
      simp only [Spec.entropyProduction, List.map_cons, List.sum_cons, IndicatorState.accumulate, kruzkovEntropyDerivative]
      rw [hf, hu]
      have hd : dot (fun d => (if e.1 ≥ u_i then (1 : ℝ) else -1) * (fl e.1 d - fl u_i d) -
          (if u_i ≥ u_i then 1 else -1) * (fl u_i d - fl u_i d)) e.2 =
          (if e.1 ≥ u_i then (1 : ℝ) else -1) * (dot (fl e.1) e.2 - dot (fl u_i) e.2) := by
        unfold dot
        rw [← Finset.sum_sub_distrib, Finset.mul_sum]
        exact Finset.sum_congr rfl fun i _ => by ring
      rw [hd]
      simp only [zero_mul, Finset.sum_const_zero]
      ring
  have := gen row (IndicatorState.reset u_i (fl u_i)) rfl rfl
  intro st
  refine this.trans ?_
  simp [IndicatorState.reset]

/-- One entry of the numerator, to first order. -/
theorem kruzkov_limit {G u : ℝ → ℝ} {D u' u0 : ℝ} (h0 : u 0 = u0) (hu : HasDerivAt u u' 0) (hG : HasDerivAt G D u0)
    (hG0 : G u0 = 0) :
    Tendsto (fun h => (if u h ≥ u0 then (1 : ℝ) else -1) * G (u h) / h) (𝓝[>] 0) (𝓝 (|u'| * D)) := by
  have hsub : 𝓝[>] (0 : ℝ) ≤ 𝓝[≠] 0 := nhdsWithin_mono _ fun x hx => ne_of_gt hx
  have h1 : HasDerivAt (fun h => G (u h) - D * (u h - u0)) 0 0 := by
    have hG' : HasDerivAt G D (u 0) := by rw [h0]; exact hG
    have hcomp : HasDerivAt (fun h => G (u h)) (D * u') 0 := hG'.comp 0 hu
    have := hcomp.sub ((hu.sub_const u0).const_mul D)
    rw [sub_self] at this
    exact this
  have h2 : Tendsto (fun h => (G (u h) - D * (u h - u0)) / h) (𝓝[>] 0) (𝓝 0) := by
    have := h1.tendsto_slope.mono_left hsub
    refine this.congr fun h => ?_
    rw [slope_def_field, h0, hG0]
    simp
  have h3 : Tendsto (fun h => |(u h - u0) / h|) (𝓝[>] 0) (𝓝 |u'|) := by
    have := (hu.tendsto_slope.mono_left hsub).abs
    refine this.congr fun h => ?_
    rw [slope_def_field, h0, sub_zero]
  have h4 : Tendsto (fun h => (if u h ≥ u0 then (1 : ℝ) else -1) * ((G (u h) - D * (u h - u0)) / h)) (𝓝[>] 0) (𝓝 0) := by
    refine squeeze_zero_norm (fun h => ?_) (tendsto_norm_zero.comp h2)
    simp only [Function.comp_apply, norm_mul]
    split_ifs <;> simp
  have h5 := (h3.mul_const D).add h4
  rw [add_zero] at h5
  refine h5.congr' ?_
  filter_upwards [self_mem_nhdsWithin] with h hh
  have hh0 : (0 : ℝ) < h := hh
  rw [abs_div, abs_of_pos hh0]
  split_ifs with hc
  · rw [abs_of_nonneg (by linarith)]; field_simp; ring
  · rw [abs_of_neg (by linarith)]; field_simp; ring

/-- **C89 (scalar, numerator to first order).** For samples of differentiable curves through `u_i` with derivatives `u'_e`, the
numerator divided by `h` tends to `∑ |u'_e| (f'(u_i) · c_e)`. -/
theorem C89_scalar_numerator_limit (fl : ℝ → Vec dim) (fl' : Vec dim) (u_i : ℝ) (hfl : ∀ d, HasDerivAt (fun u => fl u d) (fl' d) u_i)
    (row : List ((ℝ → ℝ) × ℝ × Vec dim)) (h0 : ∀ e ∈ row, e.1 0 = u_i) (hd : ∀ e ∈ row, HasDerivAt e.1 e.2.1 0) :
    Tendsto (fun h =>
      (((indicatorRow fl (row.map fun e => (e.1 h, e.2.2))).foldl IndicatorState.accumulate
          (IndicatorState.reset u_i (fl u_i))).left -
        ((indicatorRow fl (row.map fun e => (e.1 h, e.2.2))).foldl IndicatorState.accumulate
          (IndicatorState.reset u_i (fl u_i))).right) / h)
      (𝓝[>] 0) (𝓝 (row.map fun e => |e.2.1| * dot fl' e.2.2).sum) := by
  have e1 : ∀ h, ((indicatorRow fl (row.map fun e => (e.1 h, e.2.2))).foldl IndicatorState.accumulate
          (IndicatorState.reset u_i (fl u_i))).left -
        ((indicatorRow fl (row.map fun e => (e.1 h, e.2.2))).foldl IndicatorState.accumulate
          (IndicatorState.reset u_i (fl u_i))).right =
      (row.map fun e => (if e.1 h ≥ u_i then (1 : ℝ) else -1) * (dot (fl (e.1 h)) e.2.2 - dot (fl u_i) e.2.2)).sum := by
    intro h
    have := C89_scalar_numerator fl u_i (row.map fun e => (e.1 h, e.2.2))
    refine this.trans ?_
    unfold Spec.entropyProduction
    rw [List.map_map, List.map_map]
    congr 1
    refine List.map_congr_left fun e _ => ?_
    simp only [Function.comp_apply, zero_mul, Finset.sum_const_zero, sub_zero]
    unfold dot
    rw [← Finset.sum_sub_distrib, Finset.mul_sum]
    exact Finset.sum_congr rfl fun i _ => by ring
  simp only [e1]
  clear e1
  induction row with
  | nil => simp
  | cons e l ih =>
    simp only [List.map_cons, List.sum_cons, add_div]
    refine Tendsto.add ?_ (ih (fun e he => h0 e (by simp [he])) (fun e he => hd e (by simp [he])))
    have hG : HasDerivAt (fun v => dot (fl v) e.2.2 - dot (fl u_i) e.2.2) (dot fl' e.2.2) u_i := by
      refine HasDerivAt.sub_const _ ?_
      unfold dot
      exact HasDerivAt.fun_sum fun d _ => (hfl d).mul_const _
    exact kruzkov_limit (G := fun v => dot (fl v) e.2.2 - dot (fl u_i) e.2.2) (h0 e (by simp)) (hd e (by simp)) hG (sub_self _)

/-- **C89 (scalar, smooth flow).** On stencils with `∑ |u'_e| (f'(u_i) · c_e) = 0`, for example where every neighbour has an
opposite one, the indicator vanishes in the limit. -/
theorem C89_scalar_indicator_vanishes (tiny evc kappa : ℝ) (hevc : 0 ≤ evc) (hk : 0 < kappa) (a : ℕ)
    (fl : ℝ → Vec dim) (fl' : Vec dim) (u_i : ℝ) (hu : u_i ≠ 0) (hfl : ∀ d, HasDerivAt (fun u => fl u d) (fl' d) u_i)
    (row : List ((ℝ → ℝ) × ℝ × Vec dim)) (h0 : ∀ e ∈ row, e.1 0 = u_i) (hd : ∀ e ∈ row, HasDerivAt e.1 e.2.1 0)
    (hsym : (row.map fun e => |e.2.1| * dot fl' e.2.2).sum = 0) :
    Tendsto (fun h => indicator tiny evc (kappa * h ^ (a + 1)) u_i (fl u_i)
      (indicatorRow fl (row.map fun e => (e.1 h, h ^ a • e.2.2)))) (𝓝[>] 0) (𝓝 0) := by
  have hlim := C89_scalar_numerator_limit fl fl' u_i hfl row h0 hd
  rw [hsym] at hlim
  set N := fun h : ℝ => ((indicatorRow fl (row.map fun e => (e.1 h, e.2.2))).foldl IndicatorState.accumulate
          (IndicatorState.reset u_i (fl u_i))).left -
        ((indicatorRow fl (row.map fun e => (e.1 h, e.2.2))).foldl IndicatorState.accumulate
          (IndicatorState.reset u_i (fl u_i))).right with hN
  let st := fun h : ℝ => (indicatorRow fl (row.map fun e => (e.1 h, h ^ a • e.2.2))).foldl IndicatorState.accumulate
    (IndicatorState.reset u_i (fl u_i))
  -- scaling
  have hscale : ∀ (s : ℝ) (r : List (ℝ × Vec dim)) (st₀ st₁ : IndicatorState dim), st₀.f_i = st₁.f_i → st₀.u_i = st₁.u_i →
      st₀.left = s * st₁.left → st₀.right = s * st₁.right →
      ((indicatorRow fl (r.map fun e => (e.1, s • e.2))).foldl IndicatorState.accumulate st₀).left =
        s * ((indicatorRow fl r).foldl IndicatorState.accumulate st₁).left ∧
      ((indicatorRow fl (r.map fun e => (e.1, s • e.2))).foldl IndicatorState.accumulate st₀).right =
        s * ((indicatorRow fl r).foldl IndicatorState.accumulate st₁).right := by
    intro s r
    induction r with
    | nil => intro st₀ st₁ _ _ h3 h4; exact ⟨h3, h4⟩
    | cons e l ih =>
      intro st₀ st₁ h1 h2 h3 h4
      simp only [indicatorRow, List.map_cons, List.foldl_cons] at ih ⊢
      refine ih _ _ h1 h2 ?_ ?_
      · simp only [IndicatorState.accumulate]; rw [h2, h3, dot_smul_right]; ring
      · simp only [IndicatorState.accumulate]; rw [h1, h2, h4, dot_smul_right]; ring
  have habs : ∀ (l : List (IndicatorEntry dim)) (st₀ : IndicatorState dim), st₀.u_abs_max ≤
      (l.foldl IndicatorState.accumulate st₀).u_abs_max := by
    intro l
    induction l with
    | nil => intro st₀; exact le_rfl
    | cons e l ih =>
      intro st₀
      rw [List.foldl_cons]
      refine le_trans ?_ (ih (st₀.accumulate e))
      simp only [IndicatorState.accumulate]
      exact le_max_left _ _
  have hst : ∀ h, (st h).left - (st h).right = h ^ a * N h := by
    intro h
    have hmap : (row.map fun e => (e.1 h, h ^ a • e.2.2)) = (row.map fun e => (e.1 h, e.2.2)).map fun e => (e.1, h ^ a • e.2) := by
      rw [List.map_map]; rfl
    obtain ⟨h1, h2⟩ := hscale (h ^ a) (row.map fun e => (e.1 h, e.2.2)) (IndicatorState.reset u_i (fl u_i))
      (IndicatorState.reset u_i (fl u_i)) rfl rfl (by simp [IndicatorState.reset]) (by simp [IndicatorState.reset])
    simp only [st]
    rw [hmap, h1, h2, hN]
    ring
  have hP : Tendsto (fun h => (fun h => if 0 < h then N h else 0) h / h) (𝓝[≠] 0) (𝓝 0) := by
    rw [show (𝓝[≠] (0 : ℝ)) = 𝓝[<] 0 ⊔ 𝓝[>] 0 by rw [← nhdsWithin_union]; congr 1; ext x; simp]
    refine Tendsto.sup ?_ ?_
    · refine tendsto_const_nhds.congr' ?_
      filter_upwards [self_mem_nhdsWithin] with h hh
      have : ¬ (0 : ℝ) < h := not_lt.2 (le_of_lt hh)
      simp [this]
    · refine hlim.congr' ?_
      filter_upwards [self_mem_nhdsWithin] with h hh
      have : (0 : ℝ) < h := hh
      simp only [if_pos this, hN]
  refine EntropyPair.quotient_tendsto hP
    (den := fun h => if 0 < h then |(st h).left| + |(st h).right| + (max (kappa * h ^ (a + 1) * |(st h).u_abs_max|) (100 * tiny) -
      kappa * h ^ (a + 1) * |u_i|) else 0) (fun h => ?_) hevc hk (abs_pos.2 hu) a fun h hh => ?_
  · split_ifs with hh
    · refine add_nonneg (add_nonneg (abs_nonneg _) (abs_nonneg _)) (sub_nonneg.2 (le_trans ?_ (le_max_left _ _)))
      refine mul_le_mul_of_nonneg_left ?_ (by positivity)
      exact (habs _ (IndicatorState.reset u_i (fl u_i))).trans (le_abs_self _)
    · exact le_rfl
  · simp only [if_pos hh]
    rw [← hst]
    unfold indicator IndicatorState.alpha
    show min 1 (evc * (|(st h).left - (st h).right| / (|(st h).left| + |(st h).right| +
      max (kappa * h ^ (a + 1) * |(st h).u_abs_max|) (100 * tiny)))) = _
    congr 3
    ring

/-- Example: Burgers' flux, the two neighbours of a node of a uniform mesh, `u(x) = 1 + x`. -/
example : ∃ (fl : ℝ → Vec 1) (fl' : Vec 1) (row : List ((ℝ → ℝ) × ℝ × Vec 1)), (∀ d, HasDerivAt (fun u => fl u d) (fl' d) 1) ∧
    (∀ e ∈ row, e.1 0 = 1) ∧ (∀ e ∈ row, HasDerivAt e.1 e.2.1 0) ∧ row.length = 2 ∧ (∀ e ∈ row, e.2.1 ≠ 0) ∧
    (row.map fun e => |e.2.1| * dot fl' e.2.2).sum = 0 := by
  refine ⟨fun u _ => 1 / 2 * u ^ 2, fun _ => 1, [(fun h => 1 + h, 1, fun _ => 1 / 2), (fun h => 1 - h, -1, fun _ => -1 / 2)],
    fun d => ?_, ?_, ?_, rfl, ?_, ?_⟩
  · exact ((hasDerivAt_pow 2 (1 : ℝ)).const_mul (1 / 2)).congr_deriv (by norm_num)
  · intro e he
    simp only [List.mem_cons, List.not_mem_nil, or_false] at he
    rcases he with rfl | rfl <;> simp
  · intro e he
    simp only [List.mem_cons, List.not_mem_nil, or_false] at he
    rcases he with rfl | rfl
    · exact (hasDerivAt_id' (0 : ℝ)).const_add 1
    · exact (hasDerivAt_id' (0 : ℝ)).const_sub 1
  · intro e he
    simp only [List.mem_cons, List.not_mem_nil, or_false] at he
    rcases he with rfl | rfl <;> norm_num
  · norm_num [dot]

end Scalar
end Ryujin
