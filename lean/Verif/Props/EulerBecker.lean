import Mathlib.Analysis.Complex.ExponentialBounds
import Mathlib.Analysis.SpecialFunctions.Arsinh
import Verif.Spec.ViscousLaw
import Verif.Props.EulerShockFront
import Mathlib.Analysis.SpecialFunctions.Log.Deriv
import Mathlib.Analysis.Calculus.Deriv.Inverse
import Mathlib.Analysis.Calculus.Deriv.MeanValue
import Mathlib.Topology.Order.MonotoneContinuity
import Mathlib.Topology.Order.IntermediateValue

/-!
# Becker's viscous shock (C84)
-/

namespace Ryujin
namespace InitialStates

open Euler (State mkState)
open Spec (SolvesNavierStokes navierStokesFlux velocityGradient energyGradient gasPressure gasConserved RankineHugoniot eulerFlux)
open scoped BigOperators

variable {d : ℕ}

/-! ### The function whose root is the velocity -/

/-- The parameters for which the viscous shock exists. -/
structure BeckerParams.Valid (c : BeckerParams) : Prop where
  gamma : 1 < c.gamma
  right : 0 < c.velocity_right
  order : c.velocity_right < c.velocity_left
  density : 0 < c.density_left
  mu : 0 < c.mu

theorem BeckerParams.Valid.factor_pos {c : BeckerParams} (h : c.Valid) : 0 < beckerFactor c := by
  have := h.gamma
  have := h.right.trans h.order
  have := h.density
  have := h.mu
  unfold beckerFactor
  positivity

theorem beckerPsiDerivative_eq {c : BeckerParams} (h : c.velocity_right < c.velocity_left) {v : ℝ}
    (h1 : c.velocity_right < v) (h2 : v < c.velocity_left) :
    beckerPsiDerivative c v = -(beckerFactor c * v / ((c.velocity_left - v) * (v - c.velocity_right))) := by
  have e1 : c.velocity_left - c.velocity_right ≠ 0 := (sub_pos.2 h).ne'
  have e2 : c.velocity_left - v ≠ 0 := (sub_pos.2 h2).ne'
  have e3 : v - c.velocity_right ≠ 0 := (sub_pos.2 h1).ne'
  unfold beckerPsiDerivative
  dsimp only
  field_simp
  ring

theorem hasDerivAt_beckerPsi (c : BeckerParams) (x : ℝ) {v : ℝ} (h1 : c.velocity_right < v) (h2 : v < c.velocity_left) :
    HasDerivAt (beckerPsi c x) (beckerPsiDerivative c v) v := by
  have e2 : c.velocity_left - v ≠ 0 := (sub_pos.2 h2).ne'
  have e3 : v - c.velocity_right ≠ 0 := (sub_pos.2 h1).ne'
  have k1 := ((hasDerivAt_id' v).const_sub c.velocity_left).log e2
  have k2 := ((hasDerivAt_id' v).sub_const c.velocity_right).log e3
  have k := (((k1.sub_const (Real.log (c.velocity_left - Real.sqrt (c.velocity_left * c.velocity_right)))).const_mul
    (c.velocity_left / (c.velocity_left - c.velocity_right))).sub
    ((k2.sub_const (Real.log (Real.sqrt (c.velocity_left * c.velocity_right) - c.velocity_right))).const_mul
    (c.velocity_right / (c.velocity_left - c.velocity_right)))).const_mul (beckerFactor c) |>.sub_const x
  refine k.congr_deriv ?_
  unfold beckerPsiDerivative
  dsimp only
  ring

theorem beckerPsiDerivative_neg {c : BeckerParams} (h : c.Valid) {v : ℝ} (h1 : c.velocity_right < v)
    (h2 : v < c.velocity_left) : beckerPsiDerivative c v < 0 := by
  rw [beckerPsiDerivative_eq h.order h1 h2, neg_lt_zero]
  have := h.factor_pos
  have := h.right.trans h1
  have := sub_pos.2 h2
  have := sub_pos.2 h1
  positivity

theorem strictAntiOn_beckerPsi {c : BeckerParams} (h : c.Valid) (x : ℝ) :
    StrictAntiOn (beckerPsi c x) (Set.Ioo c.velocity_right c.velocity_left) := by
  refine strictAntiOn_of_deriv_neg (convex_Ioo _ _)
    (fun v hv => (hasDerivAt_beckerPsi c x hv.1 hv.2).continuousAt.continuousWithinAt) fun v hv => ?_
  rw [interior_Ioo] at hv
  rw [(hasDerivAt_beckerPsi c x hv.1 hv.2).deriv]
  exact beckerPsiDerivative_neg h hv.1 hv.2

theorem beckerPsi_shift (c : BeckerParams) (x v : ℝ) : beckerPsi c x v = beckerPsi c 0 v - x := by
  unfold beckerPsi; dsimp only; ring

open Filter Topology in
theorem exists_root {c : BeckerParams} (h : c.Valid) (x : ℝ) :
    ∃ v ∈ Set.Ioo c.velocity_right c.velocity_left, beckerPsi c x v = 0 := by
  have hF := h.factor_pos
  have hd := sub_pos.2 h.order
  have hcr : 0 < c.velocity_right / (c.velocity_left - c.velocity_right) := div_pos h.right hd
  have hcl : 0 < c.velocity_left / (c.velocity_left - c.velocity_right) := div_pos (h.right.trans h.order) hd
  -- near the right velocity the function is positive
  have t1 : Tendsto (fun v => Real.log (v - c.velocity_right)) (𝓝[>] c.velocity_right) atBot := by
    refine Real.tendsto_log_nhdsGT_zero.comp ?_
    refine tendsto_nhdsWithin_iff.2 ⟨?_, ?_⟩
    · have : Tendsto (fun v => v - c.velocity_right) (𝓝 c.velocity_right) (𝓝 (c.velocity_right - c.velocity_right)) :=
        (continuous_id.sub continuous_const).tendsto _
      rw [sub_self] at this
      exact this.mono_left nhdsWithin_le_nhds
    · filter_upwards [self_mem_nhdsWithin] with v hv
      exact sub_pos.2 (Set.mem_Ioi.1 hv)
  have t2 : Tendsto (fun v => Real.log (c.velocity_left - v)) (𝓝[<] c.velocity_left) atBot := by
    refine Real.tendsto_log_nhdsGT_zero.comp ?_
    refine tendsto_nhdsWithin_iff.2 ⟨?_, ?_⟩
    · have : Tendsto (fun v => c.velocity_left - v) (𝓝 c.velocity_left) (𝓝 (c.velocity_left - c.velocity_left)) :=
        (continuous_const.sub continuous_id).tendsto _
      rw [sub_self] at this
      exact this.mono_left nhdsWithin_le_nhds
    · filter_upwards [self_mem_nhdsWithin] with v hv
      exact sub_pos.2 (Set.mem_Iio.1 hv)
  set a := Real.log (c.velocity_left - Real.sqrt (c.velocity_left * c.velocity_right)) with ha
  set b := Real.log (Real.sqrt (c.velocity_left * c.velocity_right) - c.velocity_right) with hb
  have hpsi : ∀ v, beckerPsi c x v = beckerFactor c * (c.velocity_left / (c.velocity_left - c.velocity_right) *
      (Real.log (c.velocity_left - v) - a) - c.velocity_right / (c.velocity_left - c.velocity_right) *
      (Real.log (v - c.velocity_right) - b)) - x := fun v => rfl
  have s1 : ∃ v ∈ Set.Ioo c.velocity_right c.velocity_left, 0 ≤ beckerPsi c x v := by
    have l1 : Tendsto (fun v => Real.log (c.velocity_left - v)) (𝓝[>] c.velocity_right)
        (𝓝 (Real.log (c.velocity_left - c.velocity_right))) :=
      (((continuous_const.sub continuous_id).continuousAt.log hd.ne').tendsto).mono_left nhdsWithin_le_nhds
    have l2 := (tendsto_atBot_add_const_right _ (-b) t1).const_mul_atBot hcr
    have l3 := ((l1.sub_const a).const_mul (c.velocity_left / (c.velocity_left - c.velocity_right))).add_atTop
      (tendsto_neg_atBot_atTop.comp l2)
    have l4 := tendsto_atTop_add_const_right _ (-x) (l3.const_mul_atTop hF)
    have l5 := (l4.eventually_ge_atTop 0).and (Ioo_mem_nhdsGT h.order)
    obtain ⟨v, hv, hm⟩ := l5.exists
    refine ⟨v, hm, ?_⟩
    rw [hpsi]
    simp only [Function.comp_apply] at hv
    linarith
  have s2 : ∃ v ∈ Set.Ioo c.velocity_right c.velocity_left, beckerPsi c x v ≤ 0 := by
    have l1 : Tendsto (fun v => Real.log (v - c.velocity_right)) (𝓝[<] c.velocity_left)
        (𝓝 (Real.log (c.velocity_left - c.velocity_right))) :=
      (((continuous_id.sub continuous_const).continuousAt.log hd.ne').tendsto).mono_left nhdsWithin_le_nhds
    have l2 := (tendsto_atBot_add_const_right _ (-a) t2).const_mul_atBot hcl
    have l3 := (((l1.sub_const b).const_mul (c.velocity_right / (c.velocity_left - c.velocity_right))).neg).add_atBot l2
    have l4 := tendsto_atBot_add_const_right _ (-x) (l3.const_mul_atBot hF)
    have l5 := (l4.eventually_le_atBot 0).and (Ioo_mem_nhdsLT h.order)
    obtain ⟨v, hv, hm⟩ := l5.exists
    refine ⟨v, hm, ?_⟩
    rw [hpsi]
    linarith
  obtain ⟨v1, m1, p1⟩ := s1
  obtain ⟨v2, m2, p2⟩ := s2
  have := isPreconnected_Ioo.intermediate_value m2 m1
    (fun v hv => (hasDerivAt_beckerPsi c x hv.1 hv.2).continuousAt.continuousWithinAt)
  obtain ⟨v, hv, h0⟩ := this ⟨p2, p1⟩
  exact ⟨v, hv, h0⟩

/-- **C84.** For every position there is exactly one velocity between the two limits that solves Becker's equation. -/
theorem C84_becker_velocity (c : BeckerParams) (h : c.Valid) (x : ℝ) :
    ∃! v, (c.velocity_right < v ∧ v < c.velocity_left) ∧ beckerPsi c x v = 0 := by
  obtain ⟨v, hv, h0⟩ := exists_root h x
  refine ⟨v, ⟨hv, h0⟩, ?_⟩
  rintro w ⟨hw, h1⟩
  exact (strictAntiOn_beckerPsi h x).injOn hw hv (h1.trans h0.symm)

/-- The function `fv` gives the exact velocity profile. -/
def IsBeckerProfile (c : BeckerParams) (fv : ℝ → ℝ) : Prop :=
  ∀ x, (c.velocity_right < fv x ∧ fv x < c.velocity_left) ∧ beckerPsi c x (fv x) = 0

theorem profile_antitone {c : BeckerParams} (h : c.Valid) {fv : ℝ → ℝ} (hfv : IsBeckerProfile c fv) : StrictAnti fv := by
  intro x y hxy
  refine (StrictAntiOn.lt_iff_gt (strictAntiOn_beckerPsi h 0) (hfv x).1 (hfv y).1).1 ?_
  have h1 := (hfv x).2
  have h2 := (hfv y).2
  rw [beckerPsi_shift] at h1 h2
  linarith

theorem profile_continuousAt {c : BeckerParams} (h : c.Valid) {fv : ℝ → ℝ} (hfv : IsBeckerProfile c fv) (x : ℝ) :
    ContinuousAt fv x := by
  have hneg : ContinuousAt (fun y => -fv y) x := by
    refine continuousAt_of_monotoneOn_of_image_mem_nhds (s := Set.univ)
      (fun a _ b _ hab => neg_le_neg ((profile_antitone h hfv).antitone hab)) Filter.univ_mem ?_
    have hsub : Set.Ioo (-c.velocity_left) (-c.velocity_right) ⊆ (fun y => -fv y) '' Set.univ := by
      intro w hw
      have hm : -w ∈ Set.Ioo c.velocity_right c.velocity_left := ⟨by linarith [hw.2], by linarith [hw.1]⟩
      refine ⟨beckerPsi c 0 (-w), trivial, ?_⟩
      have hp := hfv (beckerPsi c 0 (-w))
      have : fv (beckerPsi c 0 (-w)) = -w := by
        refine (strictAntiOn_beckerPsi h 0).injOn hp.1 hm ?_
        have := hp.2
        rw [beckerPsi_shift] at this
        linarith
      show -fv _ = w
      rw [this, neg_neg]
    refine Filter.mem_of_superset (Ioo_mem_nhds ?_ ?_) hsub
    · exact neg_lt_neg (hfv x).1.2
    · exact neg_lt_neg (hfv x).1.1
  have h2 : ContinuousAt (fun y => - -fv y) x := hneg.neg
  simp only [neg_neg] at h2
  exact h2

/-- The profile solves Becker's differential equation. -/
theorem profile_hasDerivAt {c : BeckerParams} (h : c.Valid) {fv : ℝ → ℝ} (hfv : IsBeckerProfile c fv) (x : ℝ) :
    HasDerivAt fv (-((c.velocity_left - fv x) * (fv x - c.velocity_right) / (beckerFactor c * fv x))) x := by
  have hb := (hfv x).1
  have := HasDerivAt.of_local_left_inverse (profile_continuousAt h hfv x) (hasDerivAt_beckerPsi c 0 hb.1 hb.2)
    (beckerPsiDerivative_neg h hb.1 hb.2).ne
    (Filter.Eventually.of_forall fun y => by
      have := (hfv y).2
      rw [beckerPsi_shift] at this
      linarith)
  refine this.congr_deriv ?_
  rw [beckerPsiDerivative_eq h.order hb.1 hb.2, inv_neg, inv_div]

/-! ### Planar viscous flow -/

theorem density_sub' (U W : State d) : Euler.density (U - W) = Euler.density U - Euler.density W := rfl
theorem momentum_sub' (U W : State d) : Euler.momentum (U - W) = Euler.momentum U - Euler.momentum W := rfl
theorem totalEnergy_sub' (U W : State d) : Euler.totalEnergy (U - W) = Euler.totalEnergy U - Euler.totalEnergy W := rfl

/-- A planar state with density `r`, velocity `q` in the first direction and specific internal energy `e`. -/
noncomputable def planarState (r q e : ℝ) : State (d + 1) :=
  mkState r (fun i => if i = 0 then r * q else 0) (r * (e + 1 / 2 * q ^ 2))

theorem normSq_first (a : ℝ) : normSq (fun i : Fin (d + 1) => if i = 0 then a else 0) = a * a := by
  unfold normSq
  rw [Fin.sum_univ_succ]
  simp

theorem gasPressure_planar {r : ℝ} (hr : r ≠ 0) (gamma q e : ℝ) :
    gasPressure gamma (planarState r q e : State (d + 1)) = (gamma - 1) * (r * e) := by
  unfold gasPressure planarState
  simp only [Euler.density_mkState, Euler.momentum_mkState, Euler.totalEnergy_mkState]
  rw [normSq_first]
  field_simp
  ring

theorem specificEnergy_planar {r : ℝ} (hr : r ≠ 0) (q e : ℝ) :
    Spec.specificEnergy (planarState r q e : State (d + 1)) = e := by
  unfold Spec.specificEnergy planarState
  simp only [Euler.density_mkState, Euler.momentum_mkState, Euler.totalEnergy_mkState]
  rw [normSq_first]
  field_simp
  ring

theorem velocity_planar {r : ℝ} (hr : r ≠ 0) (q e : ℝ) (i : Fin (d + 1)) :
    Euler.momentum (planarState r q e : State (d + 1)) i / Euler.density (planarState r q e : State (d + 1)) =
      if i = 0 then q else 0 := by
  unfold planarState
  simp only [Euler.density_mkState, Euler.momentum_mkState]
  by_cases h : i = 0
  · simp only [h, if_true]; field_simp
  · simp [h]

/-- The flux of the Navier-Stokes equations of a planar flow in the first direction. -/
theorem planar_navierStokesFlux (gamma mu lambda kappa : ℝ) {r q e q' e' : ℝ → ℝ} (hr : ∀ s, r s ≠ 0)
    (hq : ∀ s, HasDerivAt q (q' s) s) (he : ∀ s, HasDerivAt e (e' s) s) (a : ℝ) (y : Vec (d + 1)) :
    navierStokesFlux gamma mu lambda kappa (fun y => planarState (r (y 0 - a)) (q (y 0 - a)) (e (y 0 - a))) y 0 =
      mkState (r (y 0 - a) * q (y 0 - a))
        (fun i => if i = 0 then r (y 0 - a) * q (y 0 - a) ^ 2 + (gamma - 1) * (r (y 0 - a) * e (y 0 - a)) -
          (4 / 3 * mu + lambda) * q' (y 0 - a) else 0)
        ((r (y 0 - a) * (e (y 0 - a) + 1 / 2 * q (y 0 - a) ^ 2) + (gamma - 1) * (r (y 0 - a) * e (y 0 - a))) * q (y 0 - a) -
          (4 / 3 * mu + lambda) * q' (y 0 - a) * q (y 0 - a) - kappa * e' (y 0 - a)) := by
  have hself : ∀ j, Function.update y j (y j) = y := fun j => Function.update_eq_self j y
  have hchain : ∀ {f f' : ℝ → ℝ}, (∀ s, HasDerivAt f (f' s) s) → ∀ j : Fin (d + 1),
      HasDerivAt (fun s => f (Function.update y j s 0 - a)) (if j = 0 then f' (y 0 - a) else 0) (y j) := by
    intro f f' hf j
    have h1 := (Spec.hasDerivAt_coord y j 0).sub_const a
    have h2 := HasDerivAt.comp (h₂ := f) (y j) (hf _) h1
    refine h2.congr_deriv ?_
    rw [hself]
    by_cases hj : j = 0
    · simp [hj]
    · simp [hj, Ne.symm hj]
  have hG : ∀ i j, velocityGradient (fun y : Vec (d + 1) => (planarState (r (y 0 - a)) (q (y 0 - a)) (e (y 0 - a)) : State (d + 1)))
      y i j = if i = 0 then (if j = 0 then q' (y 0 - a) else 0) else 0 := by
    intro i j
    unfold velocityGradient
    simp only [velocity_planar (hr _)]
    by_cases hi : i = 0
    · simp only [hi, if_true]
      exact (hchain hq j).deriv
    · simp [hi]
  have hE : energyGradient (fun y : Vec (d + 1) => (planarState (r (y 0 - a)) (q (y 0 - a)) (e (y 0 - a)) : State (d + 1)))
      y 0 = e' (y 0 - a) := by
    unfold energyGradient
    simp only [specificEnergy_planar (hr _)]
    have := (hchain he 0).deriv
    simpa using this
  have hS : ∀ i, Spec.newtonianStress mu lambda (velocityGradient
      (fun y : Vec (d + 1) => (planarState (r (y 0 - a)) (q (y 0 - a)) (e (y 0 - a)) : State (d + 1))) y) i 0 =
      if i = 0 then (4 / 3 * mu + lambda) * q' (y 0 - a) else 0 := by
    intro i
    unfold Spec.newtonianStress
    simp only [hG]
    by_cases hi : i = 0
    · simp only [hi, if_true, Fin.sum_univ_succ, Fin.succ_ne_zero, if_false, Finset.sum_const_zero]
      ring
    · simp [hi]
  unfold navierStokesFlux
  dsimp only
  rw [hE]
  simp only [hS, velocity_planar (hr _)]
  have hsum : ∑ i : Fin (d + 1), (if i = 0 then (4 / 3 * mu + lambda) * q' (y 0 - a) else 0) *
      (if i = 0 then q (y 0 - a) else 0) = (4 / 3 * mu + lambda) * q' (y 0 - a) * q (y 0 - a) := by
    rw [Fin.sum_univ_succ]
    simp
  rw [hsum]
  unfold eulerFlux
  dsimp only
  rw [gasPressure_planar (hr _)]
  have hne := hr (y 0 - a)
  refine Euler.state_ext ?_ ?_ ?_
  · rw [density_sub']
    simp only [planarState, Euler.density_mkState, Euler.momentum_mkState]
    simp
  · rw [momentum_sub']
    funext i
    simp only [planarState, Euler.density_mkState, Euler.momentum_mkState, Pi.sub_apply]
    by_cases hi : i = 0
    · simp only [hi, if_true]
      field_simp
    · simp [hi]
  · rw [totalEnergy_sub']
    simp only [planarState, Euler.density_mkState, Euler.momentum_mkState, Euler.totalEnergy_mkState, if_true]
    field_simp
    ring

/-- A travelling planar wave solves the Navier-Stokes equations if its flux minus speed times state is constant. -/
theorem travelling_solves (gamma mu lambda kappa : ℝ) {r q e r' q' e' : ℝ → ℝ} (hr0 : ∀ s, r s ≠ 0)
    (hr : ∀ s, HasDerivAt r (r' s) s) (hq : ∀ s, HasDerivAt q (q' s) s) (he : ∀ s, HasDerivAt e (e' s) s) (V : ℝ)
    (mass mom en : ℝ) (hmass : ∀ s, r s * (q s - V) = mass)
    (hmom : ∀ s, r s * q s * (q s - V) + (gamma - 1) * (r s * e s) - (4 / 3 * mu + lambda) * q' s = mom)
    (hen : ∀ s, r s * (e s + 1 / 2 * q s ^ 2) * (q s - V) + (gamma - 1) * (r s * e s) * q s -
      (4 / 3 * mu + lambda) * q' s * q s - kappa * e' s = en) (x : Vec (d + 1)) (t : ℝ) :
    SolvesNavierStokes gamma mu lambda kappa
      (fun y t => planarState (r (y 0 - V * t)) (q (y 0 - V * t)) (e (y 0 - V * t))) x t := by
  have hW : ∀ s, ∃ W' : State (d + 1), HasDerivAt (fun s => (planarState (r s) (q s) (e s) : State (d + 1))) W' s := by
    intro s
    refine ⟨_, Spec.hasDerivAt_mkState (hr s) (m' := fun i => if i = 0 then r' s * q s + r s * q' s else 0) (fun i => ?_)
      ((hr s).mul ((he s).add (((hq s).pow 2).const_mul (1 / 2))))⟩
    by_cases hi : i = 0
    · simp only [hi, if_true]; exact (hr s).mul (hq s)
    · simpa [hi] using hasDerivAt_const s (0 : ℝ)
  choose W' hW' using hW
  have hflux : ∀ y : Vec (d + 1), navierStokesFlux gamma mu lambda kappa
      (fun y => planarState (r (y 0 - V * t)) (q (y 0 - V * t)) (e (y 0 - V * t))) y 0 =
      V • planarState (r (y 0 - V * t)) (q (y 0 - V * t)) (e (y 0 - V * t)) +
        mkState mass (fun i => if i = 0 then mom else 0) en := by
    intro y
    rw [planar_navierStokesFlux gamma mu lambda kappa hr0 hq he]
    generalize y 0 - V * t = s
    have h1 := hmass s
    have h2 := hmom s
    have h3 := hen s
    refine Euler.state_ext ?_ ?_ ?_
    · rw [Euler.density_add, Euler.density_smul]
      simp only [planarState, Euler.density_mkState]
      linear_combination h1
    · rw [Euler.momentum_add, Euler.momentum_smul]
      funext i
      simp only [planarState, Euler.momentum_mkState, Pi.add_apply, Pi.smul_apply, smul_eq_mul]
      by_cases hi : i = 0
      · simp only [hi, if_true]
        linear_combination h2
      · simp [hi]
    · rw [Euler.totalEnergy_add, Euler.totalEnergy_smul]
      simp only [planarState, Euler.totalEnergy_mkState]
      linear_combination h3
  have hspace : ∀ (z : Vec (d + 1)) (j : Fin (d + 1)), HasDerivAt (fun s => (planarState (r (Function.update z j s 0 - V * t))
      (q (Function.update z j s 0 - V * t)) (e (Function.update z j s 0 - V * t)) : State (d + 1)))
      ((if (0 : Fin (d + 1)) = j then (1 : ℝ) else 0) • W' (z 0 - V * t)) (z j) := by
    intro z j
    have h1 := (Spec.hasDerivAt_coord z j 0).sub_const (V * t)
    refine HasDerivAt.scomp (z j) (g₁ := fun s => (planarState (r s) (q s) (e s) : State (d + 1))) ?_ h1
    rw [Function.update_eq_self]
    exact hW' _
  refine ⟨fun k j => Filter.Eventually.of_forall fun s => (hspace _ j).differentiableAt, (-V) • W' (x 0 - V * t),
    fun k => if k = 0 then V • W' (x 0 - V * t) else 0, ?_, fun k => ?_, ?_⟩
  · have h1 : HasDerivAt (fun s => x 0 - V * s) (-V) t := by
      simpa using ((hasDerivAt_id' t).const_mul V).const_sub (x 0)
    exact HasDerivAt.scomp t (g₁ := fun s => (planarState (r s) (q s) (e s) : State (d + 1))) (hW' _) h1
  · by_cases hk : k = 0
    · subst hk
      simp only [hflux, if_true]
      have h1 := (hspace x 0).const_smul V
      have h2 := h1.add_const (mkState mass (fun i => if i = 0 then mom else 0) en : State (d + 1))
      refine h2.congr_deriv ?_
      simp
    · simp only [hk, if_false]
      have hconst : ∀ s, navierStokesFlux gamma mu lambda kappa
          (fun y : Vec (d + 1) => (planarState (r (y 0 - V * t)) (q (y 0 - V * t)) (e (y 0 - V * t)) : State (d + 1)))
          (Function.update x k s) k = navierStokesFlux gamma mu lambda kappa
          (fun y : Vec (d + 1) => (planarState (r (y 0 - V * t)) (q (y 0 - V * t)) (e (y 0 - V * t)) : State (d + 1))) x k := by
        intro s
        have h0 : ∀ (j : Fin (d + 1)) (z : ℝ), Function.update (Function.update x k s) j z 0 = Function.update x j z 0 := by
          intro j z
          by_cases hj : (0 : Fin (d + 1)) = j
          · subst hj; simp
          · rw [Function.update_of_ne hj, Function.update_of_ne (Ne.symm hk), Function.update_of_ne hj]
        have h00 : Function.update x k s 0 = x 0 := Function.update_of_ne (Ne.symm hk) _ _
        have hder : ∀ (f : ℝ → ℝ) (j : Fin (d + 1)), deriv (fun z => f (Function.update (Function.update x k s) j z 0))
            (Function.update x k s j) = deriv (fun z => f (Function.update x j z 0)) (x j) := by
          intro f j
          simp only [h0]
          by_cases hj : (0 : Fin (d + 1)) = j
          · subst hj; rw [h00]
          · have : ∀ z, Function.update x j z 0 = x 0 := fun z => Function.update_of_ne hj _ _
            simp [this]
        have hG : velocityGradient (fun y : Vec (d + 1) =>
            (planarState (r (y 0 - V * t)) (q (y 0 - V * t)) (e (y 0 - V * t)) : State (d + 1))) (Function.update x k s) =
            velocityGradient (fun y : Vec (d + 1) =>
            (planarState (r (y 0 - V * t)) (q (y 0 - V * t)) (e (y 0 - V * t)) : State (d + 1))) x := by
          funext i j
          unfold velocityGradient
          simp only [velocity_planar (hr0 _)]
          exact hder (fun z => if i = 0 then q (z - V * t) else 0) j
        have hE : energyGradient (fun y : Vec (d + 1) =>
            (planarState (r (y 0 - V * t)) (q (y 0 - V * t)) (e (y 0 - V * t)) : State (d + 1))) (Function.update x k s) =
            energyGradient (fun y : Vec (d + 1) =>
            (planarState (r (y 0 - V * t)) (q (y 0 - V * t)) (e (y 0 - V * t)) : State (d + 1))) x := by
          funext j
          unfold energyGradient
          simp only [specificEnergy_planar (hr0 _)]
          exact hder (fun z => e (z - V * t)) j
        unfold navierStokesFlux
        rw [hG, hE]
        simp only [h00]
      have : (fun s => navierStokesFlux gamma mu lambda kappa
          (fun y : Vec (d + 1) => (planarState (r (y 0 - V * t)) (q (y 0 - V * t)) (e (y 0 - V * t)) : State (d + 1)))
          (Function.update x k s) k) = fun _ => navierStokesFlux gamma mu lambda kappa
          (fun y : Vec (d + 1) => (planarState (r (y 0 - V * t)) (q (y 0 - V * t)) (e (y 0 - V * t)) : State (d + 1))) x k :=
        funext hconst
      rw [this]
      exact hasDerivAt_const _ _
  · simp

/-! ### The state of the class -/

theorem becker_eq (c : BeckerParams) (fv : ℝ → ℝ) (x : Vec (d + 1)) (t : ℝ) :
    becker c fv x t = planarState (c.density_left * c.velocity_left / fv (x 0 - c.velocity * t))
      (c.velocity + fv (x 0 - c.velocity * t))
      (1 / (2 * c.gamma) * ((c.gamma + 1) / (c.gamma - 1) * c.velocity_left * c.velocity_right -
        fv (x 0 - c.velocity * t) * fv (x 0 - c.velocity * t))) := by
  unfold becker planarState
  dsimp only
  rw [show ∀ a b e : ℝ, (mkState a (fun _ => b) e : State 1) = (⟨a, b, e⟩ : Primitive).state from fun a b e => rfl,
    expandState_one]
  dsimp only
  congr 1
  ring

/-- **C84.** With the exact velocity profile, Becker's state solves the compressible Navier-Stokes equations at every point
and time: shear viscosity `mu`, no bulk viscosity, and the heat conduction of a gas of Prandtl number 3/4
(`κ / c_v = γ μ / Pr`). -/
theorem C84_becker_solution (c : BeckerParams) (h : c.Valid) (fv : ℝ → ℝ) (hfv : IsBeckerProfile c fv)
    (x : Vec (d + 1)) (t : ℝ) :
    SolvesNavierStokes c.gamma c.mu 0 (c.gamma * c.mu / 0.75) (becker c fv) x t := by
  have hfun : (becker c fv : Vec (d + 1) → ℝ → State (d + 1)) = fun y t =>
      planarState ((fun s => c.density_left * c.velocity_left / fv s) (y 0 - c.velocity * t))
      ((fun s => c.velocity + fv s) (y 0 - c.velocity * t))
      ((fun s => 1 / (2 * c.gamma) * ((c.gamma + 1) / (c.gamma - 1) * c.velocity_left * c.velocity_right - fv s * fv s))
        (y 0 - c.velocity * t)) := by
    funext y t
    exact becker_eq c fv y t
  rw [hfun]
  have hg := h.gamma
  have hL := h.right.trans h.order
  have hrho := h.density
  have hmu := h.mu
  have hpos : ∀ s, 0 < fv s := fun s => h.right.trans (hfv s).1.1
  have hd := profile_hasDerivAt h hfv
  have hg1 : c.gamma - 1 ≠ 0 := by linarith
  have hg2 : c.gamma + 1 ≠ 0 := by linarith
  have hg0 : c.gamma ≠ 0 := by linarith
  refine travelling_solves c.gamma c.mu 0 (c.gamma * c.mu / 0.75) (r := fun s => c.density_left * c.velocity_left / fv s)
    (q := fun s => c.velocity + fv s)
    (e := fun s => 1 / (2 * c.gamma) * ((c.gamma + 1) / (c.gamma - 1) * c.velocity_left * c.velocity_right - fv s * fv s))
    (r' := fun s => (0 * fv s - c.density_left * c.velocity_left *
      -((c.velocity_left - fv s) * (fv s - c.velocity_right) / (beckerFactor c * fv s))) / fv s ^ 2)
    (q' := fun s => -((c.velocity_left - fv s) * (fv s - c.velocity_right) / (beckerFactor c * fv s)))
    (e' := fun s => 1 / (2 * c.gamma) * -(2 * fv s *
      -((c.velocity_left - fv s) * (fv s - c.velocity_right) / (beckerFactor c * fv s))))
    (fun s => ?_) (fun s => ?_) (fun s => ?_) (fun s => ?_) c.velocity
    (c.density_left * c.velocity_left)
    (c.velocity * (c.density_left * c.velocity_left) + (c.gamma + 1) / (2 * c.gamma) * (c.density_left * c.velocity_left) *
      (c.velocity_left + c.velocity_right))
    (c.density_left * c.velocity_left * (1 / 2 * ((c.gamma + 1) / (c.gamma - 1) * c.velocity_left * c.velocity_right)) +
      c.velocity * ((c.gamma + 1) / (2 * c.gamma) * (c.density_left * c.velocity_left) *
      (c.velocity_left + c.velocity_right)) + 1 / 2 * c.velocity ^ 2 * (c.density_left * c.velocity_left))
    (fun s => ?_) (fun s => ?_) (fun s => ?_) x t
  · have := hpos s; positivity
  · have := (hasDerivAt_const s (c.density_left * c.velocity_left)).div (hd s) (hpos s).ne'
    exact this
  · exact (hd s).const_add _
  · have := (((hd s).mul (hd s)).const_sub ((c.gamma + 1) / (c.gamma - 1) * c.velocity_left * c.velocity_right)).const_mul
      (1 / (2 * c.gamma))
    refine this.congr_deriv ?_
    ring
  · have := (hpos s).ne'
    field_simp
    ring
  · have hv := (hpos s).ne'
    unfold beckerFactor
    generalize fv s = v at *
    field_simp
    ring
  · have hv := (hpos s).ne'
    unfold beckerFactor
    generalize fv s = v at *
    field_simp
    ring

/-- The limit state of the viscous shock for the velocity `v`. -/
noncomputable def beckerLimit (c : BeckerParams) (v : ℝ) : State (d + 1) := becker c (fun _ => v) 0 0

/-- **C84.** The two limit states satisfy the jump conditions of the inviscid equations for a shock that moves with the
speed of the profile. -/
theorem C84_becker_limits (c : BeckerParams) (h : c.Valid) :
    RankineHugoniot (eulerFlux (gasPressure c.gamma)) (fun k : Fin (d + 1) => if k = 0 then 1 else 0) c.velocity
      (beckerLimit c c.velocity_left) (beckerLimit c c.velocity_right) := by
  have hg := h.gamma
  have hR := h.right
  have hL := h.right.trans h.order
  have hrho := h.density
  have hg1 : c.gamma - 1 ≠ 0 := by linarith
  unfold RankineHugoniot beckerLimit
  rw [becker_eq, becker_eq]
  have hsum : ∀ F : Fin (d + 1) → State (d + 1), ∑ k, (if k = 0 then (1 : ℝ) else 0) • F k = F 0 := by
    intro F
    simp
  rw [hsum]
  have hne1 : c.density_left * c.velocity_left / c.velocity_left ≠ 0 := by positivity
  have hne2 : c.density_left * c.velocity_left / c.velocity_right ≠ 0 := by positivity
  unfold eulerFlux
  dsimp only
  rw [gasPressure_planar hne1, gasPressure_planar hne2]
  refine Euler.state_ext ?_ ?_ ?_
  · simp only [density_sub', Euler.density_smul, planarState, Euler.density_mkState, Euler.momentum_mkState, if_true]
    field_simp
    ring
  · simp only [momentum_sub', Euler.momentum_smul, planarState, Euler.momentum_mkState, Euler.density_mkState, if_true]
    funext i
    simp only [Pi.sub_apply, Pi.smul_apply, smul_eq_mul]
    by_cases hi : i = 0
    · simp only [hi, if_true]
      field_simp
      ring
    · simp [hi]
  · simp only [totalEnergy_sub', Euler.totalEnergy_smul, planarState, Euler.totalEnergy_mkState, Euler.density_mkState,
      Euler.momentum_mkState, if_true]
    field_simp
    ring

/-- **C84.** The state is admissible for every velocity of the profile if and only if the ratio of the limit velocities is at
most `(γ + 1) / (γ - 1)`, which the class does not check. -/
theorem C84_becker_admissible (c : BeckerParams) (h : c.Valid) (fv : ℝ → ℝ) (hfv : IsBeckerProfile c fv) :
    (∀ (x : Vec (d + 1)) (t : ℝ), 0 < Euler.density (becker c fv x t) ∧ 0 < Spec.specificEnergy (becker c fv x t)) ↔
      (c.gamma - 1) * c.velocity_left ≤ (c.gamma + 1) * c.velocity_right := by
  have hg := h.gamma
  have hL := h.right.trans h.order
  have hR := h.right
  have hrho := h.density
  have hg1 : 0 < c.gamma - 1 := by linarith
  have hpos : ∀ s, 0 < fv s := fun s => h.right.trans (hfv s).1.1
  have hr : ∀ s, c.density_left * c.velocity_left / fv s ≠ 0 := fun s => by have := hpos s; positivity
  have hiff : ∀ v : ℝ, 0 < 1 / (2 * c.gamma) * ((c.gamma + 1) / (c.gamma - 1) * c.velocity_left * c.velocity_right - v * v) ↔
      (c.gamma - 1) * (v * v) < (c.gamma + 1) * c.velocity_left * c.velocity_right := by
    intro v
    have h1 : 0 < 1 / (2 * c.gamma) := by positivity
    rw [mul_pos_iff_of_pos_left h1, sub_pos, div_mul_eq_mul_div, div_mul_eq_mul_div, lt_div_iff₀ hg1, mul_comm (v * v)]
  constructor
  · intro hall
    by_contra hcon
    push Not at hcon
    -- a velocity of the profile close to the left limit
    have hlt : (c.gamma + 1) * c.velocity_left * c.velocity_right < (c.gamma - 1) * (c.velocity_left * c.velocity_left) := by
      nlinarith
    have hc : ContinuousAt (fun v : ℝ => (c.gamma - 1) * (v * v)) c.velocity_left := by fun_prop
    have hev := (hc.eventually (lt_mem_nhds hlt)).filter_mono (nhdsWithin_le_nhds (s := Set.Iio c.velocity_left))
    obtain ⟨v, hv, hm⟩ := (hev.and (Ioo_mem_nhdsLT h.order)).exists
    have hx : fv (beckerPsi c 0 v) = v := by
      refine (strictAntiOn_beckerPsi h 0).injOn (hfv _).1 hm ?_
      have := (hfv (beckerPsi c 0 v)).2
      rw [beckerPsi_shift] at this
      linarith
    have := (hall (fun _ => beckerPsi c 0 v) 0).2
    rw [becker_eq, specificEnergy_planar (hr _), hiff] at this
    simp only [mul_zero, sub_zero, hx] at this
    linarith
  · intro hle x t
    rw [becker_eq, specificEnergy_planar (hr _), hiff]
    refine ⟨?_, ?_⟩
    · simp only [planarState, Euler.density_mkState]
      have := hpos (x 0 - c.velocity * t)
      positivity
    · have hb := (hfv (x 0 - c.velocity * t)).1
      have h0 := hpos (x 0 - c.velocity * t)
      generalize fv (x 0 - c.velocity * t) = v at *
      have h1 : v * v < c.velocity_left * c.velocity_left := by nlinarith
      have h2 : (c.gamma - 1) * (v * v) < (c.gamma - 1) * (c.velocity_left * c.velocity_left) :=
        mul_lt_mul_of_pos_left h1 hg1
      have h3 := mul_le_mul_of_nonneg_right hle hL.le
      linarith

/-- The default parameters of the class (initial_state_becker_solution.h:59-83). -/
noncomputable def beckerDefault : BeckerParams := ⟨1.4, 0.2, 1, 7 / 27, 1, 0.01⟩

/-- Non-vacuity: the default parameters are valid, a profile exists, and all its states are admissible. -/
example : beckerDefault.Valid ∧ (∃ fv, IsBeckerProfile beckerDefault fv) ∧
    (beckerDefault.gamma - 1) * beckerDefault.velocity_left ≤ (beckerDefault.gamma + 1) * beckerDefault.velocity_right := by
  have h : beckerDefault.Valid := by constructor <;> norm_num [beckerDefault]
  refine ⟨h, ?_, by norm_num [beckerDefault]⟩
  choose fv hfv using fun x => (C84_becker_velocity beckerDefault h x).exists
  exact ⟨fv, hfv⟩

/-! ### The root finder -/

theorem beckerPsi_slope {c : BeckerParams} (h : c.Valid) {v : ℝ} (h1 : c.velocity_right < v) (h2 : v < c.velocity_left) :
    beckerPsiDerivative c v ≤ -(4 * beckerFactor c * c.velocity_right / (c.velocity_left - c.velocity_right) ^ 2) := by
  have hF := h.factor_pos
  have hd := sub_pos.2 h.order
  have a1 := sub_pos.2 h2
  have a2 := sub_pos.2 h1
  have hR := h.right
  rw [beckerPsiDerivative_eq h.order h1 h2, neg_le_neg_iff, div_le_div_iff₀ (by positivity) (by positivity)]
  have h3 : 4 * ((c.velocity_left - v) * (v - c.velocity_right)) ≤ (c.velocity_left - c.velocity_right) ^ 2 := by
    nlinarith [sq_nonneg ((c.velocity_left - v) - (v - c.velocity_right))]
  have h4 : c.velocity_right * (4 * ((c.velocity_left - v) * (v - c.velocity_right))) ≤
      v * (c.velocity_left - c.velocity_right) ^ 2 :=
    mul_le_mul h1.le h3 (by positivity) (hR.trans h1).le
  have h5 := mul_le_mul_of_nonneg_left h4 hF.le
  linarith

/-- The residual bounds the error. -/
theorem becker_error {c : BeckerParams} (h : c.Valid) (x : ℝ) {v w : ℝ} (hv : v ∈ Set.Ioo c.velocity_right c.velocity_left)
    (hw : w ∈ Set.Ioo c.velocity_right c.velocity_left) (h0 : beckerPsi c x w = 0) :
    4 * beckerFactor c * c.velocity_right / (c.velocity_left - c.velocity_right) ^ 2 * |v - w| ≤ |beckerPsi c x v| := by
  have hbound := fun {u : ℝ} (hu : u ∈ Set.Ioo c.velocity_right c.velocity_left) => beckerPsi_slope h hu.1 hu.2
  have hK : 0 ≤ 4 * beckerFactor c * c.velocity_right / (c.velocity_left - c.velocity_right) ^ 2 := by
    have hF := h.factor_pos
    have hR := h.right
    positivity
  generalize 4 * beckerFactor c * c.velocity_right / (c.velocity_left - c.velocity_right) ^ 2 = K at *
  have hcont : ContinuousOn (beckerPsi c x) (Set.Ioo c.velocity_right c.velocity_left) := fun u hu =>
    (hasDerivAt_beckerPsi c x hu.1 hu.2).continuousAt.continuousWithinAt
  have hdiff : DifferentiableOn ℝ (beckerPsi c x) (interior (Set.Ioo c.velocity_right c.velocity_left)) := fun u hu => by
    rw [interior_Ioo] at hu
    exact (hasDerivAt_beckerPsi c x hu.1 hu.2).differentiableAt.differentiableWithinAt
  have key : ∀ a ∈ Set.Ioo c.velocity_right c.velocity_left, ∀ b ∈ Set.Ioo c.velocity_right c.velocity_left, a ≤ b →
      beckerPsi c x b - beckerPsi c x a ≤ -K * (b - a) := fun a ha b hb hab =>
    Convex.image_sub_le_mul_sub_of_deriv_le (convex_Ioo _ _) hcont hdiff
      (fun u hu => by
        rw [interior_Ioo] at hu
        rw [(hasDerivAt_beckerPsi c x hu.1 hu.2).deriv]
        exact hbound hu) a ha b hb hab
  rcases le_total v w with hvw | hvw
  · have := key v hv w hw hvw
    rw [h0] at this
    rw [abs_of_nonpos (sub_nonpos.2 hvw)]
    refine le_trans ?_ (le_abs_self _)
    linarith
  · have := key w hw v hv hvw
    rw [h0] at this
    rw [abs_of_nonneg (sub_nonneg.2 hvw)]
    refine le_trans ?_ (neg_le_abs _)
    linarith

theorem beckerLoop_spec (c : BeckerParams) (h : c.Valid) (x : ℝ) (fuel : ℕ) (v0 r : ℝ)
    (hv0 : c.velocity_right ≤ v0 ∧ v0 ≤ c.velocity_left) (hr : beckerLoop c x fuel v0 = .velocity r) :
    (|beckerPsi c x r| ≤ beckerNorm c ∧ c.velocity_right < r ∧ r < c.velocity_left) ∨
      ∃ v, (c.velocity_right < v ∧ v < c.velocity_left) ∧ r = v - beckerPsi c x v / beckerPsiDerivative c v ∧
        |r - v| < beckerTol * 0.5 * (c.velocity_right + c.velocity_left) := by
  have ho := h.order
  induction fuel generalizing v0 with
  | zero => simp [beckerLoop] at hr
  | succ n ih =>
    unfold beckerLoop at hr
    by_cases hend : v0 = c.velocity_left ∨ v0 = c.velocity_right
    · rw [if_pos hend] at hr; cases hr
    rw [if_neg hend] at hr
    have hv : c.velocity_right < v0 ∧ v0 < c.velocity_left :=
      ⟨lt_of_le_of_ne hv0.1 fun e => hend (Or.inr e.symm), lt_of_le_of_ne hv0.2 fun e => hend (Or.inl e)⟩
    dsimp only at hr
    split_ifs at hr with h1 h2 h3 h4
    · right
      have e : v0 - beckerPsi c x v0 / beckerPsiDerivative c v0 = r := BeckerResult.velocity.inj hr
      refine ⟨v0, hv, e.symm, ?_⟩
      rw [← e]; exact h2
    · refine ih _ ⟨?_, ?_⟩ hr
      · norm_num; linarith [hv0.1]
      · norm_num; linarith [hv0.2]
    · refine ih _ ⟨?_, ?_⟩ hr
      · norm_num; linarith [hv0.1]
      · norm_num; linarith [hv0.2]
    · exact ih _ ⟨not_lt.1 h3, not_lt.1 h4⟩ hr
    · left
      have e : v0 = r := BeckerResult.velocity.inj hr
      rw [← e]
      exact ⟨not_lt.1 h1, hv⟩

theorem beckerGuess_mem (c : BeckerParams) (h : c.Valid) (x : ℝ) :
    c.velocity_right ≤ beckerGuess c x ∧ beckerGuess c x ≤ c.velocity_left := by
  unfold beckerGuess
  dsimp only
  generalize 10 * (x - 0.5 * (beckerXRight c + beckerXLeft c)) / (beckerXRight c - beckerXLeft c) = z
  have h1 := Real.tanh_lt_one z
  have h2 := Real.neg_one_lt_tanh z
  have ho := sub_pos.2 h.order
  constructor
  · nlinarith
  · nlinarith

/-- **C84.** What the root finder returns, whenever it returns a number.  Outside the cut-off points the limit velocity is within the
tolerance of the exact velocity `w`.  Inside, the value lies between the limit velocities and its residual is below the threshold, or it is
the result of a last Newton step shorter than the tolerance; in both cases its distance to the exact velocity is bounded, in the second
by a bound that grows when the step starts close to a limit velocity. -/
theorem C84_becker_root_finder (c : BeckerParams) (h : c.Valid) (fuel : ℕ) (x r : ℝ)
    (hr : beckerFindVelocity c fuel x = .velocity r) (w : ℝ) (hw : c.velocity_right < w ∧ w < c.velocity_left)
    (h0 : beckerPsi c x w = 0) :
    (x ≤ beckerXLeft c → r = c.velocity_left ∧ |r - w| ≤ beckerTol * (c.velocity_left - c.velocity_right)) ∧
    (beckerXRight c ≤ x → r = c.velocity_right ∧ |r - w| ≤ beckerTol * (c.velocity_left - c.velocity_right)) ∧
    (beckerXLeft c < x → x < beckerXRight c →
      ((c.velocity_right < r ∧ r < c.velocity_left) ∧ |beckerPsi c x r| ≤ beckerNorm c ∧
        |r - w| ≤ beckerNorm c * (c.velocity_left - c.velocity_right) ^ 2 / (4 * beckerFactor c * c.velocity_right)) ∨
      ∃ v, (c.velocity_right < v ∧ v < c.velocity_left) ∧ r = v - beckerPsi c x v / beckerPsiDerivative c v ∧
        |r - v| < beckerTol * 0.5 * (c.velocity_right + c.velocity_left) ∧
        |v - w| ≤ beckerTol * 0.5 * (c.velocity_right + c.velocity_left) * (c.velocity_left - c.velocity_right) ^ 2 * v /
          (4 * c.velocity_right * ((c.velocity_left - v) * (v - c.velocity_right)))) := by
  have hd := sub_pos.2 h.order
  have htol : 0 < beckerTol ∧ beckerTol < 1 / 2 := by constructor <;> norm_num [beckerTol]
  have hmem : ∀ s, 0 < s → s < 1 → (1 - s) * c.velocity_left + s * c.velocity_right ∈
      Set.Ioo c.velocity_right c.velocity_left := by
    intro s hs hs1
    constructor <;> nlinarith
  have hL := hmem beckerTol htol.1 (by linarith [htol.2])
  have hR := hmem (1 - beckerTol) (by linarith [htol.2]) (by linarith [htol.1])
  have eR : (1 - (1 - beckerTol)) * c.velocity_left + (1 - beckerTol) * c.velocity_right =
      beckerTol * c.velocity_left + (1 - beckerTol) * c.velocity_right := by ring
  rw [eR] at hR
  have hanti := strictAntiOn_beckerPsi h 0
  have hw0 : beckerPsi c 0 w = x := by rw [beckerPsi_shift] at h0; linarith
  have hLR : beckerXLeft c < beckerXRight c := hanti hR hL (by nlinarith [htol.2])
  refine ⟨fun hx => ?_, fun hx => ?_, fun hx1 hx2 => ?_⟩
  · unfold beckerFindVelocity at hr
    rw [if_pos hx] at hr
    have e : c.velocity_left = r := BeckerResult.velocity.inj hr
    refine ⟨e.symm, ?_⟩
    rw [← e, abs_of_pos (sub_pos.2 hw.2)]
    have : (1 - beckerTol) * c.velocity_left + beckerTol * c.velocity_right ≤ w := by
      refine (StrictAntiOn.le_iff_ge hanti hw hL).1 ?_
      rw [hw0]; exact hx
    linarith
  · unfold beckerFindVelocity at hr
    rw [if_neg (by linarith), if_pos hx] at hr
    have e : c.velocity_right = r := BeckerResult.velocity.inj hr
    refine ⟨e.symm, ?_⟩
    rw [← e, abs_of_neg (sub_neg.2 hw.1)]
    have : w ≤ beckerTol * c.velocity_left + (1 - beckerTol) * c.velocity_right := by
      refine (StrictAntiOn.le_iff_ge hanti hR hw).1 ?_
      rw [hw0]; exact hx
    linarith
  · unfold beckerFindVelocity at hr
    rw [if_neg (not_le.2 hx1), if_neg (not_le.2 hx2)] at hr
    rcases beckerLoop_spec c h x fuel _ r (beckerGuess_mem c h x) hr with h1 | h1
    · left
      refine ⟨h1.2, h1.1, ?_⟩
      have h2 := (becker_error h x h1.2 hw h0).trans h1.1
      have hF := h.factor_pos
      have hvR := h.right
      rw [le_div_iff₀ (by positivity)]
      rw [div_mul_eq_mul_div, div_le_iff₀ (by positivity)] at h2
      linarith
    · right
      obtain ⟨v, hv, e, hs⟩ := h1
      refine ⟨v, hv, e, hs, ?_⟩
      have h2 := becker_error h x hv hw h0
      have hF := h.factor_pos
      have hvR := h.right
      have hv0 := hvR.trans hv.1
      have a1 := sub_pos.2 hv.1
      have a2 := sub_pos.2 hv.2
      have hdf := beckerPsiDerivative_neg h hv.1 hv.2
      have h3 : |beckerPsi c x v| ≤ beckerTol * 0.5 * (c.velocity_right + c.velocity_left) * (beckerFactor c * v /
          ((c.velocity_left - v) * (v - c.velocity_right))) := by
        have h4 : |r - v| = |beckerPsi c x v| / |beckerPsiDerivative c v| := by
          rw [e, ← abs_div, ← abs_neg]
          congr 1
          ring
        have hpos : 0 < beckerFactor c * v / ((c.velocity_left - v) * (v - c.velocity_right)) := by positivity
        rw [h4, div_lt_iff₀ (abs_pos.2 hdf.ne), beckerPsiDerivative_eq h.order hv.1 hv.2, abs_neg, abs_of_pos hpos] at hs
        exact hs.le
      have h5 := h2.trans h3
      rw [le_div_iff₀ (by positivity)]
      rw [div_mul_eq_mul_div, div_le_iff₀ (by positivity), mul_div_assoc', div_mul_eq_mul_div, le_div_iff₀ (by positivity)] at h5
      have h6 : beckerFactor c * (|v - w| * (4 * c.velocity_right * ((c.velocity_left - v) * (v - c.velocity_right)))) ≤
          beckerFactor c * (beckerTol * 0.5 * (c.velocity_right + c.velocity_left) * (c.velocity_left - c.velocity_right) ^ 2 * v) := by
        linarith
      exact le_of_mul_le_mul_left h6 hF

/-- The first guess lies strictly between the limits. -/
theorem beckerGuess_lt (c : BeckerParams) (h : c.Valid) (x : ℝ) :
    c.velocity_right < beckerGuess c x ∧ beckerGuess c x < c.velocity_left := by
  unfold beckerGuess
  dsimp only
  generalize 10 * (x - 0.5 * (beckerXRight c + beckerXLeft c)) / (beckerXRight c - beckerXLeft c) = z
  have h1 := Real.tanh_lt_one z
  have h2 := Real.neg_one_lt_tanh z
  have ho := sub_pos.2 h.order
  constructor <;> nlinarith

/-- The second derivative changes its sign at `sqrt(v_L v_R)`: to the right of it the derivative decreases, to the left it increases. -/
theorem beckerPsiDerivative_mono {c : BeckerParams} (h : c.Valid) {v w : ℝ} (hv : c.velocity_right < v) (hw : w < c.velocity_left)
    (hvw : v ≤ w) :
    (c.velocity_left * c.velocity_right ≤ v * v → beckerPsiDerivative c w ≤ beckerPsiDerivative c v) ∧
    (w * w ≤ c.velocity_left * c.velocity_right → beckerPsiDerivative c v ≤ beckerPsiDerivative c w) := by
  have hF := h.factor_pos
  have hR := h.right
  have hL := hR.trans h.order
  have v0 := hR.trans hv
  have w0 := v0.trans_le hvw
  have v1 := sub_pos.2 hv
  have v2 := sub_pos.2 (hvw.trans_lt hw)
  have w1 := sub_pos.2 (hv.trans_le hvw)
  have w2 := sub_pos.2 hw
  rw [beckerPsiDerivative_eq h.order hv (hvw.trans_lt hw), beckerPsiDerivative_eq h.order (hv.trans_le hvw) hw, neg_le_neg_iff,
    neg_le_neg_iff, div_le_div_iff₀ (by positivity) (by positivity), div_le_div_iff₀ (by positivity) (by positivity)]
  have id : w * ((c.velocity_left - v) * (v - c.velocity_right)) - v * ((c.velocity_left - w) * (w - c.velocity_right)) =
      (w - v) * (v * w - c.velocity_left * c.velocity_right) := by ring
  constructor
  · intro hc
    have : 0 ≤ (w - v) * (v * w - c.velocity_left * c.velocity_right) :=
      mul_nonneg (sub_nonneg.2 hvw) (by nlinarith)
    have := mul_nonneg hF.le this
    rw [← id] at this
    linarith
  · intro hc
    have : 0 ≤ (w - v) * (c.velocity_left * c.velocity_right - v * w) :=
      mul_nonneg (sub_nonneg.2 hvw) (by nlinarith)
    have := mul_nonneg hF.le this
    have id' : (w - v) * (c.velocity_left * c.velocity_right - v * w) =
      v * ((c.velocity_left - w) * (w - c.velocity_right)) - w * ((c.velocity_left - v) * (v - c.velocity_right)) := by ring
    rw [id'] at this
    linarith

/-- Non-vacuity: to the left of the cut-off point the root finder returns at once; in between, one step of the loop suffices
where the residual of the first guess is small. -/
example (fuel : ℕ) : beckerFindVelocity beckerDefault fuel (beckerXLeft beckerDefault - 1) = .velocity 1 ∧
    ∀ x, beckerXLeft beckerDefault < x → x < beckerXRight beckerDefault →
      |beckerPsi beckerDefault x (beckerGuess beckerDefault x)| ≤ beckerNorm beckerDefault →
      beckerFindVelocity beckerDefault (fuel + 1) x = .velocity (beckerGuess beckerDefault x) := by
  refine ⟨?_, fun x h1 h2 h3 => ?_⟩
  · unfold beckerFindVelocity
    rw [if_pos (by linarith)]
    rfl
  · have h : beckerDefault.Valid := by constructor <;> norm_num [beckerDefault]
    have hg := beckerGuess_lt beckerDefault h x
    unfold beckerFindVelocity
    rw [if_neg (not_le.2 h1), if_neg (not_le.2 h2)]
    unfold beckerLoop
    rw [if_neg (by rintro (e | e); exacts [hg.2.ne e, hg.1.ne' e])]
    dsimp only
    rw [if_neg (not_lt.2 h3)]

/-! ### The root finder ends -/

theorem beckerNorm_nonneg {c : BeckerParams} (h : c.Valid) : 0 ≤ beckerNorm c := by
  have htol : 0 < beckerTol ∧ beckerTol < 1 / 2 := by constructor <;> norm_num [beckerTol]
  have hd := sub_pos.2 h.order
  have hLR : beckerXLeft c < beckerXRight c := by
    refine strictAntiOn_beckerPsi h 0 ?_ ?_ ?_
    · constructor <;> nlinarith
    · constructor <;> nlinarith
    · nlinarith
  exact mul_nonneg (sub_pos.2 hLR).le htol.1.le

theorem beckerLoop_mono (c : BeckerParams) (x : ℝ) (n : ℕ) (v : ℝ) (h : beckerLoop c x n v ≠ .running) (m : ℕ) (hm : n ≤ m) :
    beckerLoop c x m v ≠ .running := by
  induction n generalizing v m with
  | zero => exact (h rfl).elim
  | succ n ih =>
    obtain ⟨m, rfl⟩ : ∃ k, m = k + 1 := ⟨m - 1, by omega⟩
    have hm' : n ≤ m := by omega
    unfold beckerLoop at h ⊢
    dsimp only at h ⊢
    split_ifs at h ⊢
    all_goals first
      | exact h
      | exact ih _ h m hm'

/-- On the side of the root where the Newton iteration is monotone it does not cross the root. -/
theorem newton_monotone {c : BeckerParams} (h : c.Valid) {x v w : ℝ} (hv : c.velocity_right < v ∧ v < c.velocity_left)
    (hw : c.velocity_right < w ∧ w < c.velocity_left) (h0 : beckerPsi c x w = 0) :
    (c.velocity_left * c.velocity_right ≤ w * w → w < v →
      w ≤ v - beckerPsi c x v / beckerPsiDerivative c v ∧ v - beckerPsi c x v / beckerPsiDerivative c v < v) ∧
    (w * w ≤ c.velocity_left * c.velocity_right → v < w →
      v - beckerPsi c x v / beckerPsiDerivative c v ≤ w ∧ v < v - beckerPsi c x v / beckerPsiDerivative c v) := by
  have hdf := beckerPsiDerivative_neg h hv.1 hv.2
  have hR := h.right
  have hder : ∀ u, c.velocity_right < u → u < c.velocity_left → HasDerivAt (beckerPsi c x) (beckerPsiDerivative c u) u :=
    fun u h1 h2 => hasDerivAt_beckerPsi c x h1 h2
  constructor
  · intro hc hwv
    obtain ⟨u, hu, he⟩ := exists_hasDerivAt_eq_slope (beckerPsi c x) (beckerPsiDerivative c) hwv
      (fun u hu => (hder u (hw.1.trans_le hu.1) (hu.2.trans_lt hv.2)).continuousAt.continuousWithinAt)
      (fun u hu => hder u (hw.1.trans hu.1) (hu.2.trans hv.2))
    have hmono := (beckerPsiDerivative_mono h (hw.1.trans hu.1) hv.2 hu.2.le).1 (by nlinarith [hu.1, hw.1])
    rw [h0, sub_zero] at he
    have hneg : beckerPsi c x v < 0 := by
      rw [← h0]; exact strictAntiOn_beckerPsi h x hw hv hwv
    constructor
    · rw [he] at hmono
      have h1 : beckerPsiDerivative c v * (v - w) ≤ beckerPsi c x v := (le_div_iff₀ (sub_pos.2 hwv)).1 hmono
      have h2 : beckerPsi c x v / beckerPsiDerivative c v ≤ v - w := by
        rw [div_le_iff_of_neg hdf]; linarith
      linarith
    · have := div_pos_of_neg_of_neg hneg hdf
      linarith
  · intro hc hvw
    obtain ⟨u, hu, he⟩ := exists_hasDerivAt_eq_slope (beckerPsi c x) (beckerPsiDerivative c) hvw
      (fun u hu => (hder u (hv.1.trans_le hu.1) (hu.2.trans_lt hw.2)).continuousAt.continuousWithinAt)
      (fun u hu => hder u (hv.1.trans hu.1) (hu.2.trans hw.2))
    have hmono := (beckerPsiDerivative_mono h hv.1 (hu.2.trans hw.2) hu.1.le).2 (by nlinarith [hu.1, hv.1, hu.2])
    rw [h0, zero_sub] at he
    have hpos : 0 < beckerPsi c x v := by
      rw [← h0]; exact strictAntiOn_beckerPsi h x hv hw hvw
    constructor
    · rw [he] at hmono
      have h1 : beckerPsiDerivative c v * (w - v) ≤ -beckerPsi c x v := (le_div_iff₀ (sub_pos.2 hvw)).1 hmono
      have h2 : -(w - v) ≤ beckerPsi c x v / beckerPsiDerivative c v := by
        rw [le_div_iff_of_neg hdf]; linarith
      linarith
    · have := div_neg_of_pos_of_neg hpos hdf
      linarith

/-- The shortest step after which the loop goes on. -/
noncomputable def beckerDelta (c : BeckerParams) : ℝ := beckerTol * 0.5 * (c.velocity_right + c.velocity_left)

theorem beckerDelta_pos {c : BeckerParams} (h : c.Valid) : 0 < beckerDelta c := by
  have := h.right
  have := h.right.trans h.order
  unfold beckerDelta beckerTol
  positivity

theorem loop_at_root {c : BeckerParams} (h : c.Valid) {x w : ℝ} (h0 : beckerPsi c x w = 0) (n : ℕ) :
    beckerLoop c x (n + 1) w ≠ .running := by
  unfold beckerLoop
  dsimp only
  rw [h0, abs_zero, if_neg (not_lt.2 (beckerNorm_nonneg h))]
  split_ifs <;> simp

/-- The monotone phase ends. -/
theorem loop_monotone_phase {c : BeckerParams} (h : c.Valid) {x w : ℝ} (hw : c.velocity_right < w ∧ w < c.velocity_left)
    (h0 : beckerPsi c x w = 0) (n : ℕ) (v : ℝ) (hv : c.velocity_right < v ∧ v < c.velocity_left) :
    (c.velocity_left * c.velocity_right ≤ w * w → w ≤ v → v - w < n * beckerDelta c → beckerLoop c x (n + 1) v ≠ .running) ∧
    (w * w ≤ c.velocity_left * c.velocity_right → v ≤ w → w - v < n * beckerDelta c → beckerLoop c x (n + 1) v ≠ .running) := by
  induction n generalizing v with
  | zero =>
    refine ⟨fun _ h1 h2 => ?_, fun _ h1 h2 => ?_⟩
    all_goals
      rw [Nat.cast_zero, zero_mul] at h2
      linarith
  | succ n ih =>
    have hmon := newton_monotone h hv hw h0
    have hδ := beckerDelta_pos h
    push_cast
    constructor
    · intro hc hle hn
      rcases hle.eq_or_lt with rfl | hlt
      · exact loop_at_root h h0 _
      obtain ⟨m1, m2⟩ := hmon.1 hc hlt
      unfold beckerLoop
      rw [if_neg (by rintro (e | e); exacts [hv.2.ne e, hv.1.ne' e])]
      dsimp only
      generalize hN : v - beckerPsi c x v / beckerPsiDerivative c v = v' at *
      split_ifs with h1 h2 h3 h4
      · simp
      · exact absurd h3 (by linarith [hw.1])
      · exact absurd h4 (by linarith [hv.2])
      · refine (ih v' ⟨hw.1.trans_le m1, m2.trans hv.2⟩).1 hc m1 ?_
        have : beckerDelta c ≤ |v' - v| := not_lt.1 h2
        rw [abs_of_neg (sub_neg.2 m2)] at this
        linarith
      · simp
    · intro hc hle hn
      rcases hle.eq_or_lt with rfl | hlt
      · exact loop_at_root h h0 _
      obtain ⟨m1, m2⟩ := hmon.2 hc hlt
      unfold beckerLoop
      rw [if_neg (by rintro (e | e); exacts [hv.2.ne e, hv.1.ne' e])]
      dsimp only
      generalize hN : v - beckerPsi c x v / beckerPsiDerivative c v = v' at *
      split_ifs with h1 h2 h3 h4
      · simp
      · exact absurd h3 (by linarith [hv.1])
      · exact absurd h4 (by linarith [hw.2])
      · refine (ih v' ⟨hv.1.trans m2, m1.trans_lt hw.2⟩).2 hc m1 ?_
        have : beckerDelta c ≤ |v' - v| := not_lt.1 h2
        rw [abs_of_pos (sub_pos.2 m2)] at this
        linarith
      · simp

/-- The phase on the other side of the root ends: every iteration moves towards the root by a fixed amount, or beyond it. -/
theorem loop_other_phase {c : BeckerParams} (h : c.Valid) {x w : ℝ} (hw : c.velocity_right < w ∧ w < c.velocity_left)
    (h0 : beckerPsi c x w = 0) {N : ℕ} (hN : c.velocity_left - c.velocity_right < N * beckerDelta c) (n : ℕ) (v : ℝ)
    (hv : c.velocity_right < v ∧ v < c.velocity_left) :
    (c.velocity_left * c.velocity_right ≤ w * w → v < w →
      w - v < n * min (beckerDelta c) ((c.velocity_left - w) / 2) → beckerLoop c x (n + (N + 1)) v ≠ .running) ∧
    (w * w ≤ c.velocity_left * c.velocity_right → w < v →
      v - w < n * min (beckerDelta c) ((w - c.velocity_right) / 2) → beckerLoop c x (n + (N + 1)) v ≠ .running) := by
  induction n generalizing v with
  | zero =>
    refine ⟨fun _ h1 h2 => ?_, fun _ h1 h2 => ?_⟩
    all_goals
      rw [Nat.cast_zero, zero_mul] at h2
      linarith
  | succ n ih =>
    have hδ := beckerDelta_pos h
    have hdf := beckerPsiDerivative_neg h hv.1 hv.2
    push_cast
    rw [show n + 1 + (N + 1) = (n + (N + 1)) + 1 by ring]
    constructor
    · intro hc hlt hn
      have hpos : 0 < beckerPsi c x v := by
        rw [← h0]; exact strictAntiOn_beckerPsi h x hv hw hlt
      have hq := div_neg_of_pos_of_neg hpos hdf
      have b1 := min_le_left (beckerDelta c) ((c.velocity_left - w) / 2)
      have b2 := min_le_right (beckerDelta c) ((c.velocity_left - w) / 2)
      have go : ∀ u, u < c.velocity_left → v + min (beckerDelta c) ((c.velocity_left - w) / 2) ≤ u →
          beckerLoop c x (n + (N + 1)) u ≠ .running := by
        intro u hu hvu
        have hmin : 0 < min (beckerDelta c) ((c.velocity_left - w) / 2) := lt_min hδ (by linarith [hw.2])
        have hu' : c.velocity_right < u ∧ u < c.velocity_left := ⟨by linarith [hv.1], hu⟩
        rcases le_or_gt w u with hwu | hwu
        · refine beckerLoop_mono c x (N + 1) u ?_ _ (by omega)
          exact (loop_monotone_phase h hw h0 N u hu').1 hc hwu (by linarith [hw.1])
        · exact (ih u hu').1 hc hwu (by linarith)
      unfold beckerLoop
      rw [if_neg (by rintro (e | e); exacts [hv.2.ne e, hv.1.ne' e])]
      dsimp only
      generalize hE : v - beckerPsi c x v / beckerPsiDerivative c v = v' at *
      have hvv : v < v' := by linarith
      split_ifs with h1 h2 h3 h4
      · simp
      · exact absurd h3 (by linarith [hv.1])
      · refine go _ ?_ ?_
        · norm_num; linarith [hv.2]
        · norm_num; linarith [hv.2]
      · rcases (not_lt.1 h4).eq_or_lt with e | hlt'
        · rw [e, show n + (N + 1) = (n + N) + 1 by ring]
          unfold beckerLoop
          rw [if_pos (Or.inl rfl)]
          simp
        · refine go _ hlt' ?_
          have : beckerDelta c ≤ |v' - v| := not_lt.1 h2
          rw [abs_of_pos (sub_pos.2 hvv)] at this
          linarith
      · simp
    · intro hc hlt hn
      have hneg : beckerPsi c x v < 0 := by
        rw [← h0]; exact strictAntiOn_beckerPsi h x hw hv hlt
      have hq := div_pos_of_neg_of_neg hneg hdf
      have b1 := min_le_left (beckerDelta c) ((w - c.velocity_right) / 2)
      have b2 := min_le_right (beckerDelta c) ((w - c.velocity_right) / 2)
      have go : ∀ u, c.velocity_right < u → u ≤ v - min (beckerDelta c) ((w - c.velocity_right) / 2) →
          beckerLoop c x (n + (N + 1)) u ≠ .running := by
        intro u hu hvu
        have hmin : 0 < min (beckerDelta c) ((w - c.velocity_right) / 2) := lt_min hδ (by linarith [hw.1])
        have hu' : c.velocity_right < u ∧ u < c.velocity_left := ⟨hu, by linarith [hv.2]⟩
        rcases le_or_gt u w with hwu | hwu
        · refine beckerLoop_mono c x (N + 1) u ?_ _ (by omega)
          exact (loop_monotone_phase h hw h0 N u hu').2 hc hwu (by linarith [hw.2])
        · exact (ih u hu').2 hc hwu (by linarith)
      unfold beckerLoop
      rw [if_neg (by rintro (e | e); exacts [hv.2.ne e, hv.1.ne' e])]
      dsimp only
      generalize hE : v - beckerPsi c x v / beckerPsiDerivative c v = v' at *
      have hvv : v' < v := by linarith
      split_ifs with h1 h2 h3 h4
      · simp
      · refine go _ ?_ ?_
        · norm_num; linarith [hv.1]
        · norm_num; linarith [hv.1]
      · exact absurd h4 (by linarith [hv.2])
      · rcases (not_lt.1 h3).eq_or_lt with e | hlt'
        · rw [← e, show n + (N + 1) = (n + N) + 1 by ring]
          unfold beckerLoop
          rw [if_pos (Or.inr rfl)]
          simp
        · refine go _ hlt' ?_
          have : beckerDelta c ≤ |v' - v| := not_lt.1 h2
          rw [abs_of_neg (sub_neg.2 hvv)] at this
          linarith
      · simp

/-- **C84.** The root finder ends for every position: the number of iterations is bounded. -/
theorem C84_becker_root_finder_ends (c : BeckerParams) (h : c.Valid) (x : ℝ) :
    ∃ N, ∀ fuel, N ≤ fuel → beckerFindVelocity c fuel x ≠ .running := by
  obtain ⟨w, hw, h0⟩ := exists_root h x
  have hg := beckerGuess_lt c h x
  have hδ := beckerDelta_pos h
  obtain ⟨N, hN⟩ := exists_nat_gt ((c.velocity_left - c.velocity_right) / beckerDelta c)
  rw [div_lt_iff₀ hδ] at hN
  have key : ∃ K, beckerLoop c x K (beckerGuess c x) ≠ .running := by
    rcases le_total (c.velocity_left * c.velocity_right) (w * w) with hc | hc
    · rcases le_or_gt w (beckerGuess c x) with hwg | hwg
      · exact ⟨_, (loop_monotone_phase h hw h0 N _ hg).1 hc hwg (by linarith [hw.1, hg.2])⟩
      · have hmin : 0 < min (beckerDelta c) ((c.velocity_left - w) / 2) := lt_min hδ (by linarith [hw.2])
        obtain ⟨n, hn⟩ := exists_nat_gt ((w - beckerGuess c x) / min (beckerDelta c) ((c.velocity_left - w) / 2))
        rw [div_lt_iff₀ hmin] at hn
        exact ⟨_, (loop_other_phase h hw h0 hN n _ hg).1 hc hwg hn⟩
    · rcases le_or_gt (beckerGuess c x) w with hwg | hwg
      · exact ⟨_, (loop_monotone_phase h hw h0 N _ hg).2 hc hwg (by linarith [hw.2, hg.1])⟩
      · have hmin : 0 < min (beckerDelta c) ((w - c.velocity_right) / 2) := lt_min hδ (by linarith [hw.1])
        obtain ⟨n, hn⟩ := exists_nat_gt ((beckerGuess c x - w) / min (beckerDelta c) ((w - c.velocity_right) / 2))
        rw [div_lt_iff₀ hmin] at hn
        exact ⟨_, (loop_other_phase h hw h0 hN n _ hg).2 hc hwg hn⟩
  obtain ⟨K, hK⟩ := key
  refine ⟨K, fun fuel hf => ?_⟩
  unfold beckerFindVelocity
  split_ifs
  · simp
  · simp
  · exact beckerLoop_mono c x K _ hK fuel hf

/-- Non-vacuity: for the default parameters and every position there is an exact velocity, and from some number of iterations on the root
finder has ended. -/
example (x : ℝ) : (∃ w, (beckerDefault.velocity_right < w ∧ w < beckerDefault.velocity_left) ∧ beckerPsi beckerDefault x w = 0) ∧
    ∃ N, beckerFindVelocity beckerDefault N x ≠ .running := by
  have h : beckerDefault.Valid := by constructor <;> norm_num [beckerDefault]
  obtain ⟨N, hN⟩ := C84_becker_root_finder_ends beckerDefault h x
  exact ⟨(C84_becker_velocity beckerDefault h x).exists, N, hN N le_rfl⟩

/-! ### The root finder can fail -/

/-- The distance of the first guess to the left limit, relative to the difference of the limits. -/
theorem beckerGuess_eq (c : BeckerParams) (x : ℝ) :
    c.velocity_left - beckerGuess c x = (c.velocity_left - c.velocity_right) *
      ((1 + Real.tanh (10 * (x - 0.5 * (beckerXRight c + beckerXLeft c)) / (beckerXRight c - beckerXLeft c))) / 2) := by
  unfold beckerGuess
  dsimp only
  ring

theorem half_one_add_tanh (y : ℝ) : (1 + Real.tanh y) / 2 = 1 / (1 + Real.exp (-(2 * y))) := by
  rw [Real.tanh_eq_sinh_div_cosh, Real.sinh_eq, Real.cosh_eq]
  have h1 := Real.exp_pos y
  have h2 := Real.exp_pos (-y)
  have e : Real.exp (-(2 * y)) = Real.exp (-y) / Real.exp y := by
    rw [← Real.exp_sub]; congr 1; ring
  rw [e]
  field_simp
  ring

theorem exp_ten_lt : Real.exp 10 < 59049 := by
  have h1 : Real.exp 1 < 3 := Real.exp_one_lt_d9.trans (by norm_num)
  have h2 : Real.exp 10 = Real.exp 1 ^ 10 := by rw [← Real.exp_nat_mul]; norm_num
  rw [h2]
  calc Real.exp 1 ^ 10 < 3 ^ 10 := pow_lt_pow_left₀ h1 (Real.exp_pos 1).le (by norm_num)
    _ = 59049 := by norm_num

/-- **C84 (violation).** Unless the two limit velocities nearly agree, there is a position at which the root finder returns not a number: a Newton
step that ends exactly at a limit velocity passes both checks, and the function is infinite there. -/
theorem C84_becker_nan_violation (c : BeckerParams) (h : c.Valid)
    (hlim : c.velocity_left + c.velocity_right ≤ 10 ^ 6 * (c.velocity_left - c.velocity_right)) :
    ∃ x, ∀ n, beckerFindVelocity c (n + 2) x = .nan := by
  have hF := h.factor_pos
  have hR := h.right
  have hL := hR.trans h.order
  have hd := sub_pos.2 h.order
  have htol : 0 < beckerTol ∧ beckerTol < 1 / 2 := by constructor <;> norm_num [beckerTol]
  have htp := htol.1
  set D := c.velocity_left - c.velocity_right with hD
  have hLm : c.velocity_right < (1 - beckerTol) * c.velocity_left + beckerTol * c.velocity_right ∧
      (1 - beckerTol) * c.velocity_left + beckerTol * c.velocity_right < c.velocity_left := by
    constructor <;> nlinarith
  have hRm : c.velocity_right < beckerTol * c.velocity_left + (1 - beckerTol) * c.velocity_right ∧
      beckerTol * c.velocity_left + (1 - beckerTol) * c.velocity_right < c.velocity_left := by
    constructor <;> nlinarith
  have hX : beckerXLeft c < beckerXRight c := strictAntiOn_beckerPsi h 0 hRm hLm (by nlinarith)
  have hXd := sub_pos.2 hX
  -- the first iterate as a function of the position
  let g : ℝ → ℝ := fun x => beckerGuess c x - beckerPsi c x (beckerGuess c x) / beckerPsiDerivative c (beckerGuess c x)
  have hguess : Continuous (beckerGuess c) := by
    unfold beckerGuess
    dsimp only
    have : Continuous Real.tanh := by
      have : Real.tanh = fun y => Real.sinh y / Real.cosh y := funext Real.tanh_eq_sinh_div_cosh
      rw [this]
      exact Real.continuous_sinh.div Real.continuous_cosh fun y => (Real.cosh_pos y).ne'
    fun_prop
  have hgc : Continuous g := by
    have e : g = fun x => beckerGuess c x - (beckerPsi c 0 (beckerGuess c x) - x) / beckerPsiDerivative c (beckerGuess c x) := by
      funext x
      simp only [g]
      rw [beckerPsi_shift c x]
    rw [e, continuous_iff_continuousAt]
    intro x
    have hm := beckerGuess_lt c h x
    have c1 : ContinuousAt (fun x => beckerPsi c 0 (beckerGuess c x)) x :=
      ContinuousAt.comp (f := beckerGuess c) (g := beckerPsi c 0) (hasDerivAt_beckerPsi c 0 hm.1 hm.2).continuousAt hguess.continuousAt
    have c2 : ContinuousAt (fun x => beckerPsiDerivative c (beckerGuess c x)) x := by
      have : ContinuousAt (beckerPsiDerivative c) (beckerGuess c x) := by
        unfold beckerPsiDerivative
        dsimp only
        refine continuousAt_const.mul ((continuousAt_const.div (continuousAt_const.sub continuousAt_id) ?_).sub
          (continuousAt_const.div (continuousAt_id.sub continuousAt_const) ?_))
        · exact (sub_pos.2 hm.2).ne'
        · exact (sub_pos.2 hm.1).ne'
      exact ContinuousAt.comp (f := beckerGuess c) (g := beckerPsiDerivative c) this hguess.continuousAt
    exact hguess.continuousAt.sub ((c1.sub continuousAt_id).div c2 (beckerPsiDerivative_neg h hm.1 hm.2).ne)
  -- the distance of the guess to the left limit
  have hs : ∀ x, beckerXLeft c ≤ x → D / 59050 < c.velocity_left - beckerGuess c x := by
    intro x hx
    rw [beckerGuess_eq, half_one_add_tanh, div_eq_mul_one_div]
    refine mul_lt_mul_of_pos_left ?_ hd
    have h1 : -(2 * (10 * (x - 0.5 * (beckerXRight c + beckerXLeft c)) / (beckerXRight c - beckerXLeft c))) ≤ 10 := by
      rw [neg_le, mul_div_assoc', le_div_iff₀ hXd]
      norm_num
      linarith
    have h2 := (Real.exp_le_exp.2 h1).trans_lt exp_ten_lt
    exact one_div_lt_one_div_of_lt (by positivity) (by linarith)
  -- at the left cut-off point the step goes beyond the left limit
  have hleft : c.velocity_left < g (beckerXLeft c) := by
    have hm := beckerGuess_lt c h (beckerXLeft c)
    have hsl := hs _ le_rfl
    have hhalf : c.velocity_left - beckerGuess c (beckerXLeft c) ≤ D / 2 := by
      rw [beckerGuess_eq]
      have : Real.tanh (10 * (beckerXLeft c - 0.5 * (beckerXRight c + beckerXLeft c)) / (beckerXRight c - beckerXLeft c)) ≤ 0 := by
        have : 10 * (beckerXLeft c - 0.5 * (beckerXRight c + beckerXLeft c)) / (beckerXRight c - beckerXLeft c) ≤ 0 :=
          div_nonpos_of_nonpos_of_nonneg (by norm_num; linarith) hXd.le
        rw [Real.tanh_eq_sinh_div_cosh]
        exact div_nonpos_of_nonpos_of_nonneg (Real.sinh_nonpos_iff.2 this) (Real.cosh_pos _).le
      have := mul_le_mul_of_nonneg_left this hd.le
      linarith
    simp only [g]
    rw [beckerPsiDerivative_eq h.order hm.1 hm.2]
    generalize beckerGuess c (beckerXLeft c) = v at *
    have a1 := sub_pos.2 hm.1
    have a2 := sub_pos.2 hm.2
    have hv := hR.trans hm.1
    -- the residual
    have hval : beckerPsi c (beckerXLeft c) v = beckerFactor c * (c.velocity_left / D * (Real.log (c.velocity_left - v) - Real.log (beckerTol * D))
        - c.velocity_right / D * (Real.log (v - c.velocity_right) - Real.log ((1 - beckerTol) * D))) := by
      rw [beckerPsi_shift]
      unfold beckerXLeft beckerPsi
      dsimp only
      rw [show c.velocity_left - ((1 - beckerTol) * c.velocity_left + beckerTol * c.velocity_right) = beckerTol * D by rw [hD]; ring,
        show (1 - beckerTol) * c.velocity_left + beckerTol * c.velocity_right - c.velocity_right = (1 - beckerTol) * D by rw [hD]; ring, ← hD]
      ring
    have hlog1 : 2 < Real.log (c.velocity_left - v) - Real.log (beckerTol * D) := by
      rw [← Real.log_div a2.ne' (by positivity), Real.lt_log_iff_exp_lt (by positivity), lt_div_iff₀ (by positivity)]
      have h1 : Real.exp 2 < 9 := by
        have h2 : Real.exp 2 = Real.exp 1 ^ 2 := by rw [← Real.exp_nat_mul]; norm_num
        have h3 : Real.exp 1 < 3 := Real.exp_one_lt_d9.trans (by norm_num)
        have h4 := Real.exp_pos 1
        rw [h2]; nlinarith
      have h2 : Real.exp 2 * (beckerTol * D) ≤ 9 * (beckerTol * D) := mul_le_mul_of_nonneg_right h1.le (by positivity)
      have h3 : 9 * (beckerTol * D) < D / 59050 := by
        rw [beckerTol]; norm_num; linarith
      linarith
    have hlog2 : Real.log (v - c.velocity_right) - Real.log ((1 - beckerTol) * D) ≤ 0 := by
      refine sub_nonpos.2 (Real.log_le_log a1 ?_)
      have : beckerTol * D ≤ D / 59050 := by rw [beckerTol]; norm_num; linarith
      linarith
    have hres : beckerFactor c * (c.velocity_left / D * 2) < beckerPsi c (beckerXLeft c) v := by
      rw [hval]
      refine mul_lt_mul_of_pos_left ?_ hF
      have h1 := mul_lt_mul_of_pos_left hlog1 (div_pos hL hd)
      have h2 := mul_nonneg (div_pos hR hd).le (neg_nonneg.2 hlog2)
      linarith
    have hq : beckerPsi c (beckerXLeft c) v / -(beckerFactor c * v / ((c.velocity_left - v) * (v - c.velocity_right))) =
        -(beckerPsi c (beckerXLeft c) v * ((c.velocity_left - v) * (v - c.velocity_right)) / (beckerFactor c * v)) := by
      field_simp
    rw [hq, sub_neg_eq_add]
    have hgoal : c.velocity_left - v < beckerPsi c (beckerXLeft c) v * ((c.velocity_left - v) * (v - c.velocity_right)) / (beckerFactor c * v) := by
      rw [lt_div_iff₀ (by positivity)]
      have h1 : beckerFactor c * (c.velocity_left / D * 2) * (v - c.velocity_right) ≥ beckerFactor c * v := by
        rw [ge_iff_le, mul_assoc]
        refine mul_le_mul_of_nonneg_left ?_ hF.le
        rw [div_mul_eq_mul_div, div_mul_eq_mul_div, le_div_iff₀ hd]
        nlinarith
      have h2 := mul_lt_mul_of_pos_right hres a1
      have h3 := mul_lt_mul_of_pos_left (h1.trans_lt h2) a2
      linarith
    linarith
  -- at the right cut-off point it does not
  have hright : g (beckerXRight c) < c.velocity_left := by
    have hm := beckerGuess_lt c h (beckerXRight c)
    have hdf := beckerPsiDerivative_neg h hm.1 hm.2
    have hneg : beckerPsi c (beckerXRight c) (beckerGuess c (beckerXRight c)) < 0 := by
      rw [beckerPsi_shift]
      refine sub_neg.2 (strictAntiOn_beckerPsi h 0 hRm hm ?_)
      have h1 : c.velocity_left - beckerGuess c (beckerXRight c) < D * (1 - 1 / 59050) := by
        rw [beckerGuess_eq, half_one_add_tanh]
        refine mul_lt_mul_of_pos_left ?_ hd
        have e : -(2 * (10 * (beckerXRight c - 0.5 * (beckerXRight c + beckerXLeft c)) / (beckerXRight c - beckerXLeft c))) = -10 := by
          field_simp
          ring
        rw [e, Real.exp_neg]
        have h2 := exp_ten_lt
        have h3 := Real.exp_pos 10
        rw [div_lt_iff₀ (by positivity)]
        have h4 : (59049 : ℝ)⁻¹ < (Real.exp 10)⁻¹ := (inv_lt_inv₀ (by norm_num) h3).2 h2
        nlinarith
      have : beckerTol * D ≤ D / 59050 := by rw [beckerTol]; norm_num; linarith
      linarith
    have := div_pos_of_neg_of_neg hneg hdf
    simp only [g]
    linarith [hm.2]
  obtain ⟨x, hx, hgx⟩ := intermediate_value_Icc' hX.le hgc.continuousOn ⟨hright.le, hleft.le⟩
  have hxl : beckerXLeft c < x := lt_of_le_of_ne hx.1 fun e => by rw [← e] at hgx; linarith
  have hxr : x < beckerXRight c := lt_of_le_of_ne hx.2 fun e => by rw [e] at hgx; linarith
  refine ⟨x, fun n => ?_⟩
  have hm := beckerGuess_lt c h x
  have hsx := hs x hxl.le
  have hdf := beckerPsiDerivative_neg h hm.1 hm.2
  have hstep : beckerGuess c x - beckerPsi c x (beckerGuess c x) / beckerPsiDerivative c (beckerGuess c x) = c.velocity_left := hgx
  unfold beckerFindVelocity
  rw [if_neg (not_le.2 hxl), if_neg (not_le.2 hxr)]
  unfold beckerLoop
  rw [if_neg (by rintro (e | e); exacts [hm.2.ne e, hm.1.ne' e])]
  dsimp only
  have hnorm : beckerNorm c < |beckerPsi c x (beckerGuess c x)| := by
    have h1 : beckerPsi c x (beckerGuess c x) = -(c.velocity_left - beckerGuess c x) * beckerPsiDerivative c (beckerGuess c x) := by
      have : beckerPsi c x (beckerGuess c x) / beckerPsiDerivative c (beckerGuess c x) = -(c.velocity_left - beckerGuess c x) := by linarith
      rw [← this, div_mul_cancel₀ _ hdf.ne]
    rw [h1, beckerPsiDerivative_eq h.order hm.1 hm.2]
    generalize beckerGuess c x = v at *
    have a1 := sub_pos.2 hm.1
    have a2 := sub_pos.2 hm.2
    have hv := hR.trans hm.1
    have h2 : -(c.velocity_left - v) * -(beckerFactor c * v / ((c.velocity_left - v) * (v - c.velocity_right))) =
        beckerFactor c * (v / (v - c.velocity_right)) := by
      field_simp
    have h3 : 1 < v / (v - c.velocity_right) := by rw [lt_div_iff₀ a1]; linarith
    have h4 : beckerFactor c * 1 < beckerFactor c * (v / (v - c.velocity_right)) := mul_lt_mul_of_pos_left h3 hF
    rw [h2, abs_of_pos (by positivity)]
    refine lt_of_le_of_lt ?_ h4
    -- the threshold
    have hlogs : 0 ≤ Real.log (1 - beckerTol) - Real.log beckerTol ∧ Real.log (1 - beckerTol) - Real.log beckerTol ≤ 12 * 3 := by
      constructor
      · exact sub_nonneg.2 (Real.log_le_log htol.1 (by linarith [htol.2]))
      · have l1 : Real.log (1 - beckerTol) ≤ 0 := Real.log_nonpos (by linarith [htol.2]) (by linarith [htol.1])
        have l2 : Real.log beckerTol = -(12 * Real.log 10) := by
          rw [beckerTol, one_div, Real.log_inv, Real.log_pow]; norm_num
        have l3 : Real.log 10 ≤ 3 := by
          rw [Real.log_le_iff_le_exp (by norm_num)]
          have e3 : Real.exp 3 = Real.exp 1 ^ 3 := by rw [← Real.exp_nat_mul]; norm_num
          have e1 : 2.7 < Real.exp 1 := lt_trans (by norm_num) Real.exp_one_gt_d9
          rw [e3]
          calc (10 : ℝ) ≤ 2.7 ^ 3 := by norm_num
            _ ≤ Real.exp 1 ^ 3 := pow_le_pow_left₀ (by norm_num) e1.le 3
        rw [l2]; linarith
    have hnv : beckerNorm c = beckerFactor c * ((c.velocity_left + c.velocity_right) / D *
        (Real.log (1 - beckerTol) - Real.log beckerTol)) * beckerTol := by
      unfold beckerNorm beckerXLeft beckerXRight beckerPsi
      dsimp only
      rw [show c.velocity_left - ((1 - beckerTol) * c.velocity_left + beckerTol * c.velocity_right) = beckerTol * D by rw [hD]; ring,
        show (1 - beckerTol) * c.velocity_left + beckerTol * c.velocity_right - c.velocity_right = (1 - beckerTol) * D by rw [hD]; ring,
        show c.velocity_left - (beckerTol * c.velocity_left + (1 - beckerTol) * c.velocity_right) = (1 - beckerTol) * D by rw [hD]; ring,
        show beckerTol * c.velocity_left + (1 - beckerTol) * c.velocity_right - c.velocity_right = beckerTol * D by rw [hD]; ring, ← hD,
        Real.log_mul (by linarith [htol.2] : 1 - beckerTol ≠ 0) hd.ne', Real.log_mul htol.1.ne' hd.ne']
      ring
    rw [hnv, mul_assoc]
    refine mul_le_mul_of_nonneg_left ?_ hF.le
    have hquot : (c.velocity_left + c.velocity_right) / D ≤ 10 ^ 6 := (div_le_iff₀ hd).2 hlim
    have h5 := mul_le_mul hquot hlogs.2 hlogs.1 (by norm_num)
    have h6 := mul_le_mul_of_nonneg_right h5 htol.1.le
    refine h6.trans ?_
    rw [beckerTol]; norm_num
  rw [if_pos hnorm, hstep, if_neg, if_neg (not_lt.2 h.order.le), if_neg (lt_irrefl _)]
  · unfold beckerLoop
    rw [if_pos (Or.inl rfl)]
  · rw [abs_of_pos (sub_pos.2 hm.2), not_lt]
    refine le_trans ?_ hsx.le
    have := mul_le_mul_of_nonneg_left hlim htol.1.le
    rw [beckerTol] at this ⊢
    norm_num at this ⊢
    linarith

/-- Non-vacuity: the default parameters. -/
example : ∃ x, ∀ n, beckerFindVelocity beckerDefault (n + 2) x = .nan :=
  C84_becker_nan_violation beckerDefault (by constructor <;> norm_num [beckerDefault]) (by norm_num [beckerDefault])

end InitialStates
end Ryujin
