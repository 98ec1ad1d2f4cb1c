import Verif.Props.EulerVortex
import Verif.Props.EquationOfState
import Mathlib.Analysis.Calculus.Deriv.Pow

/-!
# The smooth wave is a solution of the equations for every equation of state (C79)
-/

namespace Ryujin
namespace InitialStates

open Euler (State mkState)
open Eos (Interface InverseAt statePressure)
open scoped BigOperators

variable {d : ℕ}

/-! ### A density profile moving with constant velocity and pressure -/

theorem normSq_one (p : ℝ) : normSq (fun i : Fin (d + 1) => if i = 0 then p else 0) = p * p := by
  unfold normSq
  rw [Fin.sum_univ_succ]
  simp

/-- Any profile of density and energy carried along with constant velocity `M` in the first direction and constant
pressure `p0` solves the Euler equations, whatever the pressure function is. -/
theorem advected_solves (P : State (d + 1) → ℝ) (rho E : ℝ → ℝ) (M p0 : ℝ) (hpos : ∀ y, rho y ≠ 0)
    (hP : ∀ y, P (mkState (rho y) (fun i => if i = 0 then rho y * M else 0) (E y)) = p0) (x : Vec (d + 1)) (t : ℝ)
    {rho' E' : ℝ} (hr : HasDerivAt rho rho' (x 0 - M * t)) (hE : HasDerivAt E E' (x 0 - M * t)) :
    Spec.SolvesAt (Spec.eulerFlux P) 0
      (fun x t => mkState (rho (x 0 - M * t)) (fun i => if i = 0 then rho (x 0 - M * t) * M else 0) (E (x 0 - M * t))) x t := by
  have hself : ∀ k j, Function.update x k (x k) j = x j := fun k j => by rw [Function.update_eq_self]
  have hat : HasDerivAt (fun s => x 0 - M * s) (-M) t := by
    have := (hasDerivAt_id' t).const_mul M |>.const_sub (x 0)
    simpa using this
  have hax : ∀ k, HasDerivAt (fun s => Function.update x k s 0 - M * t) (if (0 : Fin (d + 1)) = k then 1 else 0) (x k) :=
    fun k => (Spec.hasDerivAt_coord x k 0).sub_const _
  have hflux : ∀ y k, Spec.eulerFlux P (mkState (rho y) (fun i => if i = 0 then rho y * M else 0) (E y)) k =
      mkState (if k = 0 then rho y * M else 0)
        (fun i => (if i = 0 ∧ k = 0 then rho y * M * M else 0) + if i = k then p0 else 0)
        (if k = 0 then (E y + p0) * M else 0) := by
    intro y k
    have h0 := hpos y
    unfold Spec.eulerFlux
    rw [hP]
    simp only [Euler.density_mkState, Euler.momentum_mkState, Euler.totalEnergy_mkState]
    congr 1
    · funext i
      congr 1
      by_cases hi : i = 0 <;> by_cases hk : k = 0 <;> simp [hi, hk]
      field_simp
    · split_ifs
      · field_simp
      · simp
  have hcurve : ∀ {g : ℝ → ℝ} {g' s : ℝ} (F : ℝ → ℝ) {F' : ℝ}, HasDerivAt g g' s → HasDerivAt F F' (g s) →
      HasDerivAt (fun y => F (g y)) (F' * g') s := fun F _ hg hF => hF.comp _ hg
  have hm : ∀ {g : ℝ → ℝ} {g' s : ℝ} (c : Prop) [Decidable c], HasDerivAt g g' s →
      HasDerivAt (fun y => if c then g y else 0) (if c then g' else 0) s := by
    intro g g' s c _ hg
    by_cases h : c
    · simpa [h] using hg
    · simpa [h] using hasDerivAt_const s (0 : ℝ)
  have hrx : ∀ k, HasDerivAt (fun s => rho (Function.update x k s 0 - M * t))
      (rho' * if (0 : Fin (d + 1)) = k then 1 else 0) (x k) :=
    fun k => hcurve rho (hax k) (by rw [hself]; exact hr)
  have hEx : ∀ k, HasDerivAt (fun s => E (Function.update x k s 0 - M * t))
      (E' * if (0 : Fin (d + 1)) = k then 1 else 0) (x k) :=
    fun k => hcurve E (hax k) (by rw [hself]; exact hE)
  refine ⟨mkState (rho' * -M) (fun i => if i = 0 then rho' * -M * M else 0) (E' * -M),
    fun k => mkState (if k = 0 then rho' * M else 0) (fun i => if i = 0 ∧ k = 0 then rho' * M * M else 0)
      (if k = 0 then E' * M else 0), ?_, fun k => ?_, ?_⟩
  · exact Spec.hasDerivAt_mkState (hcurve rho hat hr) (fun i => hm _ ((hcurve rho hat hr).mul_const M)) (hcurve E hat hE)
  · simp only [hflux]
    refine (Spec.hasDerivAt_mkState (hm (k = 0) ((hrx k).mul_const M))
      (fun i => (hm (i = 0 ∧ k = 0) (((hrx k).mul_const M).mul_const M)).add_const _)
      (hm (k = 0) (((hEx k).add_const p0).mul_const M))).congr_deriv ?_
    by_cases hk : k = 0
    · simp [hk]
    · simp [hk]
  · refine Euler.state_ext ?_ ?_ ?_
    · rw [Euler.density_add, Spec.density_sum', Euler.density_mkState]
      simp only [Euler.density_mkState]
      rw [Finset.sum_ite_eq' Finset.univ (0 : Fin (d + 1))]
      show _ = (0 : ℝ)
      simp
    · rw [Euler.momentum_add]
      funext i
      rw [Pi.add_apply, Spec.momentum_sum', Euler.momentum_mkState]
      simp only [Euler.momentum_mkState]
      show _ = (0 : ℝ)
      by_cases hi : i = 0
      · simp [hi]
      · simp [hi]
    · rw [Euler.totalEnergy_add, Spec.totalEnergy_sum', Euler.totalEnergy_mkState]
      simp only [Euler.totalEnergy_mkState]
      rw [Finset.sum_ite_eq' Finset.univ (0 : Fin (d + 1))]
      show _ = (0 : ℝ)
      simp

/-! ### The density profile -/

theorem hasDerivAt_cubePos (y : ℝ) : HasDerivAt (fun z : ℝ => max z 0 ^ 3) (3 * max y 0 ^ 2) y := by
  rcases lt_trichotomy y 0 with h | h | h
  · rw [max_eq_right h.le]
    have : (fun z : ℝ => max z 0 ^ 3) =ᶠ[nhds y] fun _ => 0 :=
      (eventually_lt_nhds h).mono fun z hz => by simp [max_eq_right (le_of_lt hz)]
    simpa using (hasDerivAt_const y (0 : ℝ)).congr_of_eventuallyEq this
  · subst h
    have : (fun z : ℝ => max z 0 ^ 3) =O[nhds 0] fun z => ‖z - 0‖ ^ 3 := by
      refine Asymptotics.IsBigO.of_bound 1 (Filter.Eventually.of_forall fun z => ?_)
      rw [one_mul, Real.norm_eq_abs, Real.norm_eq_abs, sub_zero, Real.norm_eq_abs, abs_pow, abs_pow, abs_abs]
      refine pow_le_pow_left₀ (abs_nonneg _) ?_ 3
      rcases le_total z 0 with hz | hz
      · rw [max_eq_right hz]; simp
      · rw [max_eq_left hz]
    have h2 := (this.hasFDerivAt (𝕜 := ℝ) (by norm_num)).hasDerivAt
    simpa using h2
  · rw [max_eq_left h.le]
    have : (fun z : ℝ => max z 0 ^ 3) =ᶠ[nhds y] fun z => z ^ 3 :=
      (eventually_gt_nhds h).mono fun z hz => by simp [max_eq_left (le_of_lt hz)]
    have h2 := (hasDerivAt_pow 3 y).congr_of_eventuallyEq this
    simpa using h2

theorem smoothWaveDensity_eq (c : SmoothWaveParams) (y : ℝ) :
    smoothWaveDensity c y =
      c.density_ref + 64 * max (y - c.left) 0 ^ 3 * max (c.right - y) 0 ^ 3 / (c.right - c.left) ^ 6 := by
  unfold smoothWaveDensity
  dsimp only
  split_ifs with h1
  · rw [max_eq_left (sub_nonneg.2 h1.1), max_eq_left (sub_nonneg.2 h1.2)]
  · rcases lt_or_ge y c.left with h2 | h2
    · rw [max_eq_right (by linarith : y - c.left ≤ 0)]; simp
    · have h3 : c.right < y := not_le.1 fun h3 => h1 ⟨h2, h3⟩
      rw [max_eq_right (by linarith : c.right - y ≤ 0)]; simp

/-- The density stays between the reference density and the reference density plus one. -/
theorem smoothWaveDensity_bounds (c : SmoothWaveParams) (h : c.left < c.right) (y : ℝ) :
    c.density_ref ≤ smoothWaveDensity c y ∧ smoothWaveDensity c y ≤ c.density_ref + 1 := by
  have hw : 0 < c.right - c.left := sub_pos.2 h
  rw [smoothWaveDensity_eq c]
  have ha : 0 ≤ max (y - c.left) 0 := le_max_right _ _
  have hb : 0 ≤ max (c.right - y) 0 := le_max_right _ _
  have hab : max (y - c.left) 0 * max (c.right - y) 0 ≤ (c.right - c.left) ^ 2 / 4 := by
    rcases le_total (y - c.left) 0 with h1 | h1
    · rw [max_eq_right h1, zero_mul]; positivity
    · rcases le_total (c.right - y) 0 with h2 | h2
      · rw [max_eq_right h2, mul_zero]; positivity
      · rw [max_eq_left h1, max_eq_left h2]
        nlinarith [sq_nonneg (y - c.left - (c.right - y))]
  generalize max (y - c.left) 0 = a at *
  generalize max (c.right - y) 0 = b at *
  constructor
  · have : 0 ≤ 64 * a ^ 3 * b ^ 3 / (c.right - c.left) ^ 6 := by positivity
    linarith
  · have h1 : (a * b) ^ 3 ≤ ((c.right - c.left) ^ 2 / 4) ^ 3 := pow_le_pow_left₀ (mul_nonneg ha hb) hab 3
    have : 64 * a ^ 3 * b ^ 3 / (c.right - c.left) ^ 6 ≤ 1 := by
      rw [div_le_one (by positivity)]
      nlinarith
    linarith

theorem smoothWaveDensity_deriv (c : SmoothWaveParams) (y : ℝ) :
    ∃ r', HasDerivAt (smoothWaveDensity c) r' y := by
  have hf : smoothWaveDensity c = fun y =>
      c.density_ref + 64 * max (y - c.left) 0 ^ 3 * max (c.right - y) 0 ^ 3 / (c.right - c.left) ^ 6 :=
    funext fun y => smoothWaveDensity_eq c y
  rw [hf]
  have h1 : HasDerivAt (fun y => max (y - c.left) 0 ^ 3) (3 * max (y - c.left) 0 ^ 2 * 1) y :=
    HasDerivAt.comp (h₂ := fun z : ℝ => max z 0 ^ 3) y (hasDerivAt_cubePos (y - c.left)) ((hasDerivAt_id' y).sub_const c.left)
  have h2 : HasDerivAt (fun y => max (c.right - y) 0 ^ 3) (3 * max (c.right - y) 0 ^ 2 * -1) y :=
    HasDerivAt.comp (h₂ := fun z : ℝ => max z 0 ^ 3) y (hasDerivAt_cubePos (c.right - y)) ((hasDerivAt_id' y).const_sub c.right)
  exact ⟨_, ((((h1.const_mul 64).mul h2).div_const ((c.right - c.left) ^ 6)).const_add c.density_ref)⟩

/-! ### The theorems -/

theorem fromInitialState_smooth (eosEnergy : ℝ → ℝ → ℝ) (rho M p : ℝ) :
    (Aeos.fromInitialState eosEnergy (mkState rho (fun i => if i = 0 then M else 0) p : State (d + 1)) : State (d + 1)) =
      mkState rho (fun i => if i = 0 then rho * M else 0) (rho * eosEnergy rho p + 1 / 2 * rho * (M * M)) := by
  unfold Aeos.fromInitialState
  rw [Eos.expandState_self]
  unfold Aeos.fromPrimitiveState
  simp only [Euler.density_mkState, Euler.momentum_mkState, Euler.totalEnergy_mkState]
  rw [← normSq_eq_dot, normSq_one]
  congr 1
  funext i
  split_ifs
  · ring
  · ring

/-- **C79.**  The smooth wave is, at every point and time, a classical solution of the Euler equations with the pressure of
the configured equation of state, in every dimension.  Required is that pressure and energy of the equation of state are
inverse to each other (C51) and that the energy is a differentiable function of the density, for densities of the profile. -/
theorem C79_smooth_wave (eos : Interface) (c : SmoothWaveParams) (hlr : c.left < c.right) (href : 0 < c.density_ref)
    (hinv : ∀ rho, c.density_ref ≤ rho → rho ≤ c.density_ref + 1 → InverseAt eos rho)
    (hdiff : ∀ rho, c.density_ref ≤ rho → rho ≤ c.density_ref + 1 →
      DifferentiableAt ℝ (fun r => eos.specificInternalEnergy r c.pressure_ref) rho) (x : Vec (d + 1)) (t : ℝ) :
    c.density_ref ≤ Euler.density (smoothWave (Aeos.fromInitialState eos.specificInternalEnergy) c x t) ∧
      statePressure eos (smoothWave (Aeos.fromInitialState eos.specificInternalEnergy) c x t) = c.pressure_ref ∧
      Spec.SolvesAt (Spec.eulerFlux (statePressure eos)) 0
        (smoothWave (Aeos.fromInitialState eos.specificInternalEnergy) c) x t := by
  have hb := smoothWaveDensity_bounds c hlr
  have hpos : ∀ y, 0 < smoothWaveDensity c y := fun y => lt_of_lt_of_le href (hb y).1
  have hP : ∀ y, statePressure eos (Aeos.fromInitialState eos.specificInternalEnergy
      (mkState (smoothWaveDensity c y) (fun i => if i = 0 then c.mach_number else 0) c.pressure_ref : State (d + 1)) :
      State (d + 1)) = c.pressure_ref := by
    intro y
    have := Eos.C51_initial_pressure eos (mkState (smoothWaveDensity c y) (fun i => if i = 0 then c.mach_number else 0)
      c.pressure_ref : State (d + 1)) (by rw [Euler.density_mkState]; exact hpos y)
      (by rw [Euler.density_mkState]; exact hinv _ (hb y).1 (hb y).2)
    rw [this, Euler.totalEnergy_mkState]
  have hfun : (smoothWave (Aeos.fromInitialState eos.specificInternalEnergy) c : Vec (d + 1) → ℝ → State (d + 1)) =
      fun x t => mkState (smoothWaveDensity c (x 0 - c.mach_number * t))
        (fun i => if i = 0 then smoothWaveDensity c (x 0 - c.mach_number * t) * c.mach_number else 0)
        (smoothWaveDensity c (x 0 - c.mach_number * t) *
          eos.specificInternalEnergy (smoothWaveDensity c (x 0 - c.mach_number * t)) c.pressure_ref +
          1 / 2 * smoothWaveDensity c (x 0 - c.mach_number * t) * (c.mach_number * c.mach_number)) := by
    funext x t
    exact fromInitialState_smooth _ _ _ _
  refine ⟨?_, hP _, ?_⟩
  · rw [hfun]
    dsimp only
    rw [Euler.density_mkState]
    exact (hb _).1
  · obtain ⟨r', hr'⟩ := smoothWaveDensity_deriv c (x 0 - c.mach_number * t)
    have he := (hdiff _ (hb (x 0 - c.mach_number * t)).1 (hb _).2).hasDerivAt
    have hE := (hr'.mul (he.comp (x 0 - c.mach_number * t) hr')).add ((hr'.const_mul (1 / 2)).mul_const
      (c.mach_number * c.mach_number))
    rw [hfun]
    refine advected_solves (statePressure eos) (smoothWaveDensity c)
      (fun y => smoothWaveDensity c y * eos.specificInternalEnergy (smoothWaveDensity c y) c.pressure_ref +
        1 / 2 * smoothWaveDensity c y * (c.mach_number * c.mach_number)) c.mach_number c.pressure_ref
      (fun y => (hpos y).ne') (fun y => ?_) x t hr' hE
    have := hP y
    rw [fromInitialState_smooth] at this
    exact this

/-- The equations of state satisfy the hypotheses of `C79_smooth_wave`: polytropic, Noble-Abel stiffened and van der Waals
gas (covolume respected at the maximal density `density_ref + 1`), Jones-Wilkins-Lee without offset. -/
theorem C79_smooth_wave_eos (pressure ref : ℝ) (href : 0 < ref) :
    (∀ s : Eos.PolytropicGas, s.gamma ≠ 1 → ∀ rho, ref ≤ rho → rho ≤ ref + 1 → InverseAt s.interface rho ∧
      DifferentiableAt ℝ (fun r => s.interface.specificInternalEnergy r pressure) rho) ∧
    (∀ s : Eos.NobleAbelStiffenedGas, s.gamma ≠ 1 → 0 ≤ s.b → s.b * (ref + 1) < 1 → ∀ rho, ref ≤ rho → rho ≤ ref + 1 →
      InverseAt s.interface rho ∧ DifferentiableAt ℝ (fun r => s.interface.specificInternalEnergy r pressure) rho) ∧
    (∀ s : Eos.VanDerWaals, s.gamma ≠ 1 → 0 ≤ s.b → s.b * (ref + 1) < 1 → ∀ rho, ref ≤ rho → rho ≤ ref + 1 →
      InverseAt s.interface rho ∧ DifferentiableAt ℝ (fun r => s.interface.specificInternalEnergy r pressure) rho) ∧
    (∀ s : Eos.JonesWilkinsLee, s.omega ≠ 0 → s.q_0 = 0 → s.rho_0 ≠ 0 → ∀ rho, ref ≤ rho → rho ≤ ref + 1 →
      InverseAt s.interface rho ∧ DifferentiableAt ℝ (fun r => s.interface.specificInternalEnergy r pressure) rho) := by
  refine ⟨?_, ?_, ?_, ?_⟩
  · intro s hg rho h1 _
    have hr : 0 < rho := lt_of_lt_of_le href h1
    refine ⟨Eos.C51_polytropic s rho hr hg, ?_⟩
    have : rho * (s.gamma - 1) ≠ 0 := mul_ne_zero hr.ne' (sub_ne_zero.2 hg)
    simp only [Eos.PolytropicGas.interface, Eos.PolytropicGas.specificInternalEnergy]
    fun_prop (disch := assumption)
  · intro s hg hb hc rho h1 h2
    have hr : 0 < rho := lt_of_lt_of_le href h1
    refine ⟨Eos.C51_nasg s rho hr (by nlinarith) hg, ?_⟩
    have : rho * (s.gamma - 1) ≠ 0 := mul_ne_zero hr.ne' (sub_ne_zero.2 hg)
    simp only [Eos.NobleAbelStiffenedGas.interface, Eos.NobleAbelStiffenedGas.specificInternalEnergy]
    fun_prop (disch := assumption)
  · intro s hg hb hc rho h1 h2
    have hr : 0 < rho := lt_of_lt_of_le href h1
    refine ⟨Eos.C51_vdw s rho hr (by nlinarith) hg, ?_⟩
    have : rho * (s.gamma - 1) ≠ 0 := mul_ne_zero hr.ne' (sub_ne_zero.2 hg)
    simp only [Eos.VanDerWaals.interface, Eos.VanDerWaals.specificInternalEnergy]
    fun_prop (disch := assumption)
  · intro s hw hq h0 rho h1 h2
    have hr : 0 < rho := lt_of_lt_of_le href h1
    refine ⟨Eos.C51_jwl_partial s rho hr hw hq, ?_⟩
    have h3 : rho * s.omega ≠ 0 := mul_ne_zero hr.ne' hw
    have h4 : rho / s.rho_0 ≠ 0 := div_ne_zero hr.ne' h0
    simp only [Eos.JonesWilkinsLee.interface, Eos.JonesWilkinsLee.specificInternalEnergy]
    fun_prop (disch := assumption)

/-- The default profile moves: at the origin the density changes in time. -/
example : smoothWaveDensity ⟨1, 1, 1, 0.1, 0.3⟩ 0.2 = 2 ∧ smoothWaveDensity ⟨1, 1, 1, 0.1, 0.3⟩ 0 = 1 := by
  constructor
  · norm_num [smoothWaveDensity]
  · norm_num [smoothWaveDensity]

end InitialStates
end Ryujin
