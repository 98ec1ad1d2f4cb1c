import Verif.Proofs.AeosBar
import Verif.Props.AeosRiemann
import Verif.Props.AeosLimiter
import Verif.Props.EulerInvariantDomain
import Verif.Props.LimiterSuccess
import Verif.Model.AeosDescription

/-!
# C69 and C70 – the invariant domain of the Euler equations with arbitrary equation of state
-/

namespace Ryujin
namespace Aeos

open Hyp
open Euler (State density momentum totalEnergy internalEnergy mkState)

variable {dim : ℕ} {ι : Type}

/-! ### C69: bar states -/

/-- **C69 (bar states, exact wave speeds).** For all covolume constants, reference pressures and all gases: if the wave
speed is at least as large as those of the exact solution of the extended Riemann problem (with or without vacuum), the
bar state has positive density, a density below the one the covolume permits, and positive shifted internal energy. -/
theorem C69_aeos_bar_admissible_exact (P : Params) (U V : State dim) (p_U p_V : ℝ) (n : Vec dim) (hn : normSq n = 1)
    (hU : GasState P U p_U) (hV : GasState P V p_V) (lam : ℝ) (hl : 0 < lam)
    (h : Spec.NasgDominates P.b P.pinf (stateSide P U p_U n) (stateSide P V p_V n) lam) :
    Admissible P (barOf U p_U V p_V n lam) := bar_admissible hn hU hV hl h

/-- The exact solution of the extended Riemann problem exists. -/
theorem exists_nasgFanPressure {b pinf : ℝ} {l r : Spec.Side} (hl : l.Valid b pinf) (hr : r.Valid b pinf) :
    ∃ ps, Spec.IsNasgFanPressure b pinf l r ps := by
  set phi : ℝ → ℝ := fun q => Spec.gasWave l.gamma (l.rho / (1 - b * l.rho)) (l.p + pinf) q +
    Spec.gasWave r.gamma (r.rho / (1 - b * r.rho)) (r.p + pinf) q + (r.u - l.u) with hphi
  have hc : Continuous phi := ((Euler.gasWave_continuous hl.gamma_gt hl.p_pos).add
    (Euler.gasWave_continuous hr.gamma_gt hr.p_pos)).add continuous_const
  have e : ∀ q, Spec.nasgWave b pinf l.gamma l.rho l.p (q - pinf) + Spec.nasgWave b pinf r.gamma r.rho r.p (q - pinf) +
      (r.u - l.u) = phi q := by
    intro q
    rw [nasgWave_eq hl.rho_pos hl.covolume hl.p_pos hl.gamma_gt, nasgWave_eq hr.rho_pos hr.covolume hr.p_pos hr.gamma_gt,
      sub_add_cancel]
  by_cases h0 : 0 ≤ phi 0
  · exact ⟨0 - pinf, Or.inr ⟨by ring, by rw [e]; exact h0⟩⟩
  push Not at h0
  obtain ⟨p0, hp0⟩ := Euler.gasWave_unbounded hl.gamma_gt (div_pos hl.rho_pos hl.covolume) hl.p_pos (-(r.u - l.u))
  set T := max p0 (r.p + pinf) with hT
  have hT0 : 0 ≤ T := hr.p_pos.le.trans (le_max_right _ _)
  have h1 : 0 ≤ phi T := by
    have a := hp0 T (le_max_left _ _)
    have b := Euler.gasWave_nonneg (gamma := r.gamma) (rho_K := r.rho / (1 - b * r.rho)) hr.p_pos
      (le_max_right p0 _ : _ ≤ T)
    show 0 ≤ _ + _ + _
    linarith
  obtain ⟨q, hq, e'⟩ := intermediate_value_Icc hT0 hc.continuousOn ⟨h0.le, h1⟩
  refine ⟨q - pinf, Or.inl ⟨?_, by rw [e]; exact e'⟩⟩
  rw [sub_add_cancel]
  refine lt_of_le_of_ne hq.1 fun h => ?_
  rw [← h] at e'
  linarith

/-- **C69 (the computed wave speed).** In both modes and for all gases and covolume constants, the wave speed computed by
the Riemann solver dominates those of the exact solution if `p_∞ = 0`, or if the exact solution does not consist of two
shocks.  What is missing is two shocks with `p_∞ > 0`, see `C68_aeos_wave_speed_violation`. -/
theorem C69_aeos_dominates_partial (P : Params) (hinf : 0 ≤ P.pinf) (strict : Bool) (U V : State dim) (p_U p_V : ℝ)
    (n : Vec dim) (hU : GasState P U p_U) (hV : GasState P V p_V)
    (hcase : P.pinf = 0 ∨ ∃ ps, Spec.IsNasgFanPressure P.b P.pinf (stateSide P U p_U n) (stateSide P V p_V n) ps ∧
      ps ≤ max p_U p_V) :
    Spec.NasgDominates P.b P.pinf (stateSide P U p_U n) (stateSide P V p_V n) (riemann P strict U p_U V p_V n) := by
  obtain ⟨ps, hps, hc⟩ : ∃ ps, Spec.IsNasgFanPressure P.b P.pinf (stateSide P U p_U n) (stateSide P V p_V n) ps ∧
      (P.pinf = 0 ∨ ps ≤ max p_U p_V) := by
    rcases hcase with h | ⟨ps, h1, h2⟩
    · obtain ⟨ps, h1⟩ := exists_nasgFanPressure (hU.side_valid n) (hV.side_valid n)
      exact ⟨ps, h1, Or.inl h⟩
    · exact ⟨ps, h1, Or.inr h2⟩
  refine ⟨ps, hps, ?_⟩
  rcases hps with hps | ⟨h0, -⟩
  · exact C68_aeos_wave_speed_partial P hinf strict U V p_U p_V n hU hV ps hps hc
  · have h := C09_aeos_characteristic P strict U V p_U p_V n hU hV
    have h1 : ps ≤ (stateSide P U p_U n).p := by
      have := hU.p_pos
      show ps ≤ p_U
      linarith
    have h2 : ps ≤ (stateSide P V p_V n).p := by
      have := hV.p_pos
      show ps ≤ p_V
      linarith
    unfold Spec.nasgLeftSpeed Spec.nasgRightSpeed Spec.nasgSpeedFactor
    rw [if_pos h1, if_pos h2, mul_one, mul_one, stateSide_gamma, stateSide_gamma]
    exact h.2

/-- **C69 (bar states).** With `p_∞ = 0` – the default, and the value for which the Riemann solver is a bound – every bar
state of two gases is admissible for every wave speed not below the computed one, in both modes, for all covolume
constants and equations of state. -/
theorem C69_aeos_bar_admissible (P : Params) (hinf : P.pinf = 0) (strict : Bool) (U V : State dim) (p_U p_V : ℝ)
    (n : Vec dim) (hn : normSq n = 1) (hU : GasState P U p_U) (hV : GasState P V p_V) (lam : ℝ) (hl : 0 < lam)
    (h : riemann P strict U p_U V p_V n ≤ lam) : Admissible P (barOf U p_U V p_V n lam) := by
  obtain ⟨ps, h1, h2, h3⟩ := C69_aeos_dominates_partial P hinf.ge strict U V p_U p_V n hU hV (Or.inl hinf)
  exact bar_admissible hn hU hV hl ⟨ps, h1, h2.trans h, h3.trans h⟩

/-! ### C70: the step -/

theorem Admissible.densityOk {P : Params} {U : State dim} (h : Admissible P U) : DensityOk P (density U) :=
  ⟨h.rho_pos, h.cov_pos⟩

theorem GasState.admissible {P : Params} {U : State dim} {pr : ℝ} (h : GasState P U pr) : Admissible P U :=
  ⟨h.rho_pos, h.cov_pos, h.shift_pos⟩

theorem admissible_convex (P : Params) : Convex ℝ {V : State dim | Admissible P V} := by
  intro x hx y hy α β hα hβ hαβ
  have hd := covolumeDomain_convex P.b hx.densityOk hy.densityOk hα hβ hαβ
  have hd' : density (α • x + β • y) = α • density x + β • density y := by
    rw [Euler.density_add, Euler.density_smul, Euler.density_smul]; rfl
  rw [← hd'] at hd
  refine ⟨hd.1, hd.2, ?_⟩
  have h1 := Euler.internalEnergy_concave x y hx.rho_pos hy.rho_pos hα hβ hαβ
  rw [hd']
  simp only [smul_eq_mul]
  have h2 : 0 < α * (internalEnergy x - density x * P.q - P.pinf * (1 - P.b * density x)) +
      β * (internalEnergy y - density y * P.q - P.pinf * (1 - P.b * density y)) := by
    rcases hα.eq_or_lt with h | h
    · rw [← h, zero_mul, zero_add]
      exact mul_pos (by linarith) hy.shift_pos
    · exact add_pos_of_pos_of_nonneg (mul_pos h hx.shift_pos) (mul_nonneg hβ hy.shift_pos.le)
  have e : P.pinf = (α + β) * P.pinf := by rw [hαβ, one_mul]
  nlinarith

theorem Admissible.entropy_pos {P : Params} {U : State dim} (h : Admissible P U) (g : ℝ) :
    0 < surrogateSpecificEntropy P U g := by
  have h1 := h.rho_pos
  have h2 := h.cov_pos
  have h3 := h.shift_pos
  have e : 1 / density U - P.b = (1 - P.b * density U) / density U := by field_simp
  unfold surrogateSpecificEntropy covolume shift
  rw [e]
  unfold covolume
  exact div_pos (mul_pos h3 (Real.rpow_pos_of_pos (by positivity) _)) h2

theorem admissible_of_entropy {P : Params} {U : State dim} {g s : ℝ} (hd : DensityOk P (density U)) (hs : 0 < s)
    (h : s ≤ surrogateSpecificEntropy P U g) : Admissible P U := by
  refine ⟨hd.1, hd.2, lt_of_lt_of_le ?_ ((entropy_iff P g s U hd).1 h)⟩
  exact mul_pos hs (mul_pos (Real.rpow_pos_of_pos hd.1 _) (Real.rpow_pos_of_pos hd.2 _))

/-- The sides of the reversed problem. -/
theorem nasgDominates_swap {P : Params} {U V : State dim} {p_U p_V : ℝ} {n : Vec dim} {lam : ℝ}
    (h : Spec.NasgDominates P.b P.pinf (stateSide P U p_U n) (stateSide P V p_V n) lam) :
    Spec.NasgDominates P.b P.pinf (stateSide P V p_V (-n)) (stateSide P U p_U (-n)) lam := by
  have hu : ∀ (W : State dim) (q : ℝ), stateSide P W q (-n) =
      ⟨(stateSide P W q n).rho, -(stateSide P W q n).u, (stateSide P W q n).p, (stateSide P W q n).gamma⟩ := by
    intro W q
    unfold stateSide
    rw [show dot (-n) (momentum W) = -dot n (momentum W) by simp [dot]]
    simp only [neg_div]
  rw [hu, hu]
  generalize stateSide P U p_U n = l at *
  generalize stateSide P V p_V n = r at *
  obtain ⟨ps, h1, h2, h3⟩ := h
  unfold Spec.nasgLeftSpeed at h2
  unfold Spec.nasgRightSpeed at h3
  refine ⟨ps, ?_, ?_, ?_⟩
  · rcases h1 with ⟨a, b⟩ | ⟨a, b⟩
    · exact Or.inl ⟨a, by dsimp only; linarith⟩
    · exact Or.inr ⟨a, by dsimp only; linarith⟩
  · unfold Spec.nasgLeftSpeed; dsimp only; linarith
  · unfold Spec.nasgRightSpeed; dsimp only; linarith

theorem nasgDominates_mono {b pinf : ℝ} {l r : Spec.Side} {lam mu : ℝ} (h : Spec.NasgDominates b pinf l r lam)
    (hle : lam ≤ mu) : Spec.NasgDominates b pinf l r mu := by
  obtain ⟨ps, h1, h2, h3⟩ := h
  exact ⟨ps, h1, h2.trans hle, h3.trans hle⟩

/-- The solver has central fluxes. -/
theorem solver_centralFlux (P : Params) (lp : LimiterParams) (strict : Bool) (big evc : ℝ) (lim) :
    (solver (ι := ι) (dim := dim) P lp strict big evc lim).CentralFlux contractLin where
  fluxDiv := fun f g c => by
    show -contract (addFlux f g) c = _
    rw [contract_addFlux]; rfl
  stars := fun _ _ _ _ => rfl
  source := fun _ _ _ _ => rfl
  affineShift := fun _ _ _ _ => rfl

/-- The bar state of the step is the bar state of the Riemann problem for the wave speed `max(d_ij, 100 min()) / |c_ij|`. -/
theorem step_bar (P : Params) (lp : LimiterParams) (strict : Bool) (big evc : ℝ) (lim)
    (M : Mesh ι dim) (X : Stage4 ι (ι → Eos.Prec) (State dim)) {tiny : ℝ} (ht : 0 < tiny) (i j : ι) :
    (M.c i j = 0 → Hyp.barState (solver P lp strict big evc lim) M X contractLin tiny i j =
      (1 / 2 : ℝ) • X.old.U i + (1 / 2 : ℝ) • X.old.U j) ∧
    (M.c i j ≠ 0 → Hyp.barState (solver P lp strict big evc lim) M X contractLin tiny i j =
      barOf (X.old.U i) (X.old.prec i).p (X.old.U j) (X.old.prec j).p (fun k => M.c i j k / vnorm (M.c i j))
        (max (X.d i j) (100 * tiny) / vnorm (M.c i j))) := by
  have hD : 0 < max (X.d i j) (100 * tiny) := lt_max_of_lt_right (by linarith)
  have hs : (limiterEntry (solver P lp strict big evc lim) M X tiny i j).scaled_c =
      fun k => M.c i j k / max (X.d i j) (100 * tiny) := rfl
  have hf : ∀ i, fluxAt (solver P lp strict big evc lim) X i = f (X.old.U i) (X.old.prec i).p := fun _ => rfl
  unfold Hyp.barState
  rw [hs, hf, hf]
  constructor
  · intro h
    rw [h]
    have e : (fun k => (0 : Vec dim) k / max (X.d i j) (100 * tiny)) = 0 := by funext k; simp
    rw [e, map_zero, map_zero, sub_self, smul_zero, sub_zero, smul_add]
  · intro h
    have hc := vnorm_pos h
    have e : (fun k => M.c i j k / max (X.d i j) (100 * tiny)) =
        (vnorm (M.c i j) / max (X.d i j) (100 * tiny)) • fun k => M.c i j k / vnorm (M.c i j) := by
      funext k
      simp only [Pi.smul_apply, smul_eq_mul]
      field_simp
    rw [e, map_smul, map_smul, ← smul_sub (vnorm (M.c i j) / max (X.d i j) (100 * tiny)), smul_smul]
    unfold barOf
    congr 2
    field_simp

/-- The hypotheses on mesh, parameters and old state vector of a step under which the bar states are resolved. -/
structure StepHyp (P : Params) (strict : Bool)
    (D : Description ι (ι → Eos.Prec) (State dim) (Fin (dim + 2) → Vec dim) Bounds dim)
    (M : Mesh ι dim) (par : Hyp.Params) (stale : ι → ι → ℝ) (old : StateVector ι (ι → Eos.Prec) (State dim)) : Prop where
  wf : M.WellFormed
  skew : ∀ i, ∀ j ∈ M.nbrs i, ¬ (M.boundary i ∧ M.boundary j) → M.c j i = -M.c i j
  mass : ∀ i, 0 < M.lumped i
  rowSum : ∀ i, M.c i i + ((M.nbrs i).map (M.c i)).sum = 0
  tiny : 0 < par.tiny
  cfl : par.cfl ≤ 1
  /-- no viscosity is lost to the regularisation -/
  resolved : ∀ i, ∀ j ∈ M.nbrs i, 100 * par.tiny ≤ dOff D M stale old i j ∨
    (M.c i j = 0 ∧ dOff D M stale old i j = 0)
  /-- the old states with their precomputed pressures are gases -/
  gas : ∀ i, GasState P (old.U i) (old.prec i).p
  /-- the precomputed `gamma_min` is the surrogate `γ` of a state of the stencil (see `C61`) -/
  gammaMin : ∀ i, ∃ j ∈ i :: M.nbrs i, (old.prec i).gamma_min = surrogateGamma P (old.U j) (old.prec j).p
  /-- the precomputed entropy is that of the state (see `C61`) -/
  entropy : ∀ i, (old.prec i).s = surrogateSpecificEntropy P (old.U i) (old.prec i).gamma_min
  /-- the wave speeds of the Riemann solver bound those of the exact solution: C69, proved for `p_∞ = 0` -/
  speeds : ∀ i, ∀ j ∈ M.nbrs i, M.c i j ≠ 0 → P.pinf ≠ 0 →
    Spec.NasgDominates P.b P.pinf (stateSide P (old.U i) (old.prec i).p (fun k => M.c i j k / vnorm (M.c i j)))
      (stateSide P (old.U j) (old.prec j).p (fun k => M.c i j k / vnorm (M.c i j)))
      (riemann P strict (old.U i) (old.prec i).p (old.U j) (old.prec j).p (fun k => M.c i j k / vnorm (M.c i j)))

variable {P : Params} {lp : LimiterParams} {strict : Bool} {big evc : ℝ}
  {lim : ι → ι → Bounds → State dim → State dim → ℝ × Prop}
  {M : Mesh ι dim} {par : Hyp.Params} {lo : Leftover ι (State dim)} {old : StateVector ι (ι → Eos.Prec) (State dim)}

theorem StepHyp.gamma_gt (h : StepHyp P strict (solver P lp strict big evc lim) M par lo.dij old) (i : ι) :
    1 < (old.prec i).gamma_min := by
  obtain ⟨j, -, e⟩ := h.gammaMin i
  rw [e]
  exact (h.gas j).gamma_gt

theorem stage4_d [Fintype ι] (h : StepHyp P strict (solver P lp strict big evc lim) M par lo.dij old) (stages) (tau : ℝ)
    {i j : ι} (hj : j ∈ M.nbrs i) :
    (stage4 (solver P lp strict big evc lim) M par lo old stages tau).d i j =
      dOff (solver P lp strict big evc lim) M lo.dij old i j := by
  classical
  have hne : i ≠ j := fun e => h.wf.irrefl i (e ▸ hj)
  simp only [stage4, hne, if_false]

theorem StepHyp.computed (h : StepHyp P strict (solver P lp strict big evc lim) M par lo.dij old)
    {i j : ι} (hj : j ∈ M.nbrs i) (hc : M.c i j ≠ 0) :
    Spec.NasgDominates P.b P.pinf (stateSide P (old.U i) (old.prec i).p (fun k => M.c i j k / vnorm (M.c i j)))
      (stateSide P (old.U j) (old.prec j).p (fun k => M.c i j k / vnorm (M.c i j)))
      (riemann P strict (old.U i) (old.prec i).p (old.U j) (old.prec j).p (fun k => M.c i j k / vnorm (M.c i j))) := by
  by_cases h0 : P.pinf = 0
  · exact C69_aeos_dominates_partial P h0.ge strict _ _ _ _ _ (h.gas i) (h.gas j) (Or.inl h0)
  · exact h.speeds i j hj hc h0

/-- The viscosity of a pair over `|c_ij|` dominates the exact wave speeds of the pair. -/
theorem StepHyp.dominates (h : StepHyp P strict (solver P lp strict big evc lim) M par lo.dij old)
    {i j : ι} (hj : j ∈ M.nbrs i) (hc : M.c i j ≠ 0) :
    Spec.NasgDominates P.b P.pinf (stateSide P (old.U i) (old.prec i).p (fun k => M.c i j k / vnorm (M.c i j)))
      (stateSide P (old.U j) (old.prec j).p (fun k => M.c i j k / vnorm (M.c i j)))
      (dOff (solver P lp strict big evc lim) M lo.dij old i j / vnorm (M.c i j)) := by
  have hv := vnorm_pos hc
  have a := h.computed hj hc
  set n := fun k => M.c i j k / vnorm (M.c i j) with hn
  set D := solver P lp strict big evc lim with hD
  rcases le_total (D.riemann old.prec i j (old.U i) (old.U j) n) (D.riemann old.prec j i (old.U j) (old.U i) (-n)) with hle | hle
  · refine nasgDominates_mono a ?_
    rw [le_div_iff₀ hv, mul_comm]
    exact dOff_ge D M h.wf lo.dij old h.skew hj le_rfl fun _ => hle
  · by_cases hsk : M.c j i = -M.c i j
    · have hc' : M.c j i ≠ 0 := by rw [hsk]; simpa using hc
      have hn' : (fun k => M.c j i k / vnorm (M.c j i)) = -n := by
        funext k
        rw [hsk, vnorm_neg]
        simp [hn, neg_div]
      have b := h.computed (h.wf.symm i j hj) hc'
      rw [hn'] at b
      have b' := nasgDominates_swap b
      rw [neg_neg] at b'
      refine nasgDominates_mono b' ?_
      rw [le_div_iff₀ hv, mul_comm]
      exact dOff_ge D M h.wf lo.dij old h.skew hj hle fun _ => le_rfl
    · refine nasgDominates_mono a ?_
      rw [le_div_iff₀ hv, mul_comm]
      exact dOff_ge D M h.wf lo.dij old h.skew hj le_rfl fun e => absurd e hsk

/-- All bar states of the step are admissible. -/
theorem StepHyp.bar_admissible [Fintype ι] (h : StepHyp P strict (solver P lp strict big evc lim) M par lo.dij old)
    (stages) (tau : ℝ) (i j : ι) (hj : j ∈ i :: M.nbrs i) :
    Admissible P (Hyp.barState (solver P lp strict big evc lim) M
      (stage4 (solver P lp strict big evc lim) M par lo old stages tau) contractLin par.tiny i j) := by
  set X := stage4 (solver P lp strict big evc lim) M par lo old stages tau with hX
  have hav : ∀ i j, Admissible P ((1 / 2 : ℝ) • old.U i + (1 / 2 : ℝ) • old.U j) := fun i j =>
    admissible_convex P (h.gas i).admissible (h.gas j).admissible (by norm_num) (by norm_num) (by norm_num)
  rcases List.mem_cons.1 hj with rfl | hj
  · have e : Hyp.barState (solver P lp strict big evc lim) M X contractLin par.tiny j j =
        (1 / 2 : ℝ) • old.U j + (1 / 2 : ℝ) • old.U j := by
      unfold Hyp.barState
      rw [sub_self, smul_zero, sub_zero, smul_add]
      rfl
    rw [e]; exact hav j j
  by_cases hc : M.c i j = 0
  · rw [(step_bar P lp strict big evc lim M X h.tiny i j).1 hc]
    exact hav i j
  · rw [(step_bar P lp strict big evc lim M X h.tiny i j).2 hc]
    have hv := vnorm_pos hc
    have hD : 0 < max (X.d i j) (100 * par.tiny) := lt_max_of_lt_right (by linarith [h.tiny])
    refine Aeos.bar_admissible (normSq_normal hc) (h.gas i) (h.gas j) (div_pos hD hv)
      (nasgDominates_mono (h.dominates hj hc) ?_)
    rw [hX, stage4_d h stages tau hj]
    exact div_le_div_of_nonneg_right (le_max_left _ _) hv.le

theorem StepHyp.isResolved [Fintype ι] (h : StepHyp P strict (solver P lp strict big evc lim) M par lo.dij old)
    (stages) (tau : ℝ) (i : ι) : ∀ j ∈ M.nbrs i, Hyp.Resolved (solver P lp strict big evc lim) M
      (stage4 (solver P lp strict big evc lim) M par lo old stages tau) contractLin par.tiny i j := by
  intro j hj
  unfold Hyp.Resolved
  rw [stage4_d h stages tau hj]
  rcases h.resolved i j hj with h1 | ⟨h1, h2⟩
  · exact Or.inl h1
  · exact Or.inr ⟨h2, by rw [h1, map_zero, map_zero]⟩

theorem StepHyp.pos (h : StepHyp P strict (solver P lp strict big evc lim) M par lo.dij old) (i j) (U V : State dim) (n) :
    0 ≤ (solver P lp strict big evc lim).riemann old.prec i j U V n := computeLambda_nonneg _ _ _ _

/-- **C70 (low-order update).** If all old states are gases and the time-step size is at most the maximal one
(`cfl ≤ 1`), the low-order update of every row is admissible. -/
theorem C70_aeos_low_order_admissible [Fintype ι]
    (h : StepHyp P strict (solver P lp strict big evc lim) M par lo.dij old)
    (stages : List (ℝ × StateVector ι (ι → Eos.Prec) (State dim))) (tau tau_max : ℝ) (htau0 : 0 ≤ tau)
    (htau : tau ≤ tauMax (solver P lp strict big evc lim) M par lo.dij old tau_max) (i : ι) (hi : M.nbrs i ≠ []) :
    Admissible P (lowOrder (solver P lp strict big evc lim) M
      (stage4 (solver P lp strict big evc lim) M par lo old stages tau) i) := by
  have := C14_low_order_convex (solver P lp strict big evc lim) M h.wf contractLin
    (solver_centralFlux P lp strict big evc lim) par lo old stages tau tau_max h.pos h.tiny h.cfl htau0 htau i hi (h.mass i)
    (h.rowSum i) (h.isResolved stages tau i) {V | Admissible P V} (admissible_convex P) (h.gas i).admissible
    (fun j hj => h.bar_admissible stages tau i j (by simp [hj]))
  exact this

/-- The columns handed to the limiter in row `i`. -/
noncomputable def stepColumn (D : Description ι (ι → Eos.Prec) (State dim) (Fin (dim + 2) → Vec dim) Bounds dim)
    (M : Mesh ι dim) (X : Stage4 ι (ι → Eos.Prec) (State dim)) (tiny : ℝ) (i j : ι) : Column dim :=
  ⟨X.old.U j, (X.old.prec j).s, fluxAt D X j, (limiterEntry D M X tiny i j).scaled_c,
    (limiterEntry D M X tiny i j).affine_shift⟩

theorem step_bounds4 (M : Mesh ι dim) (X : Stage4 ι (ι → Eos.Prec) (State dim)) (tiny : ℝ) (i : ι) :
    boundsStep4 (solver P lp strict big evc lim) M X tiny i =
      (accumulateRow P strict big (X.old.prec i).gamma_min (X.old.U i) (fluxAt (solver P lp strict big evc lim) X i)
        ((M.columns i).map (stepColumn (solver P lp strict big evc lim) M X tiny i))).relaxedBounds dim P lp
        (M.lumped i * (1 / M.omega)) := by
  unfold boundsStep4 accumulateRow
  rw [List.foldl_map]
  show LimiterState.relaxedBounds _ _ _ (((M.columns i).map (limiterEntry (solver P lp strict big evc lim) M X tiny
    i)).foldl (fun st e => st.accumulate P strict (X.old.U i) (fluxAt (solver P lp strict big evc lim) X i) e.U_j
      (X.old.prec e.j).s e.flux_j e.scaled_c e.affine_shift)
      (LimiterState.reset big (X.old.prec i).gamma_min)) _ = _
  rw [List.foldl_map]
  rfl

theorem affineShift_zero (M : Mesh ι dim) (X : Stage4 ι (ι → Eos.Prec) (State dim)) (i : ι) :
    affineShiftAt (solver P lp strict big evc lim) M X i = 0 := by
  have : (M.columns i).map (fun j => (solver P lp strict big evc lim).affineShift
      (fluxAt (solver P lp strict big evc lim) X i) (fluxAt (solver P lp strict big evc lim) X j) (M.c i j) (X.d i j))
        = (M.columns i).map fun _ => (0 : State dim) := rfl
  rw [affineShiftAt, this, show sourceAt (solver P lp strict big evc lim) X i = 0 from rfl]
  simp

/-- The bar states the limiter accumulates are those of the step. -/
theorem step_limiterBar (M : Mesh ι dim) (X : Stage4 ι (ι → Eos.Prec) (State dim)) (tiny : ℝ) (i j : ι) :
    bar (X.old.U i) (fluxAt (solver P lp strict big evc lim) X i)
        (stepColumn (solver P lp strict big evc lim) M X tiny i j) =
      Hyp.barState (solver P lp strict big evc lim) M X contractLin tiny i j := by
  have h1 : (limiterEntry (solver P lp strict big evc lim) M X tiny i j).affine_shift = 0 := affineShift_zero M X i
  unfold bar Hyp.barState stepColumn
  rw [h1]
  funext k
  simp only [Pi.sub_apply, Pi.smul_apply, Pi.add_apply, smul_eq_mul, Pi.zero_apply, add_zero]
  show _ = 1 / 2 * (X.old.U i k + X.old.U j k) - 1 / 2 * (dot (fluxAt (solver P lp strict big evc lim) X j k) _ -
    dot (fluxAt (solver P lp strict big evc lim) X i k) _)
  simp only [dot, ← Finset.sum_sub_distrib]
  have : ∀ d, (fluxAt (solver P lp strict big evc lim) X j k d - fluxAt (solver P lp strict big evc lim) X i k d) *
      (limiterEntry (solver P lp strict big evc lim) M X tiny i j).scaled_c d =
      fluxAt (solver P lp strict big evc lim) X j k d * (limiterEntry (solver P lp strict big evc lim) M X tiny i j).scaled_c d -
      fluxAt (solver P lp strict big evc lim) X i k d * (limiterEntry (solver P lp strict big evc lim) M X tiny i j).scaled_c d :=
    fun d => by ring
  simp only [this]
  ring

theorem accumulateRow_interp (p : Params) (strict : Bool) (big g : ℝ) (U_i : State dim)
    (flux_i : Fin (dim + 2) → Vec dim) (row : List (Column dim)) :
    ∀ e ∈ row, (if strict then surrogateSpecificEntropy p (fun k => (U_i k + e.U_j k) * (1 / 2)) g
      else surrogateSpecificEntropy p (bar U_i flux_i e) g) ≤ (accumulateRow p strict big g U_i flux_i row).s_interp_max := by
  have key : ∀ (row : List (Column dim)) (st : LimiterState), st.bounds.gamma_min = g →
      let st' := row.foldl (fun st e => st.accumulate p strict U_i flux_i e.U_j e.s_j e.flux_j e.scaled_c e.shift) st
      st.s_interp_max ≤ st'.s_interp_max ∧
      ∀ e ∈ row, (if strict then surrogateSpecificEntropy p (fun k => (U_i k + e.U_j k) * (1 / 2)) g
        else surrogateSpecificEntropy p (bar U_i flux_i e) g) ≤ st'.s_interp_max := by
    intro row
    induction row with
    | nil => intro st _; simp
    | cons a l ih =>
      intro st hg
      have hb : (fun k => (1 / 2) * (U_i k + a.U_j k)
          - (1 / 2) * contract (addFlux a.flux_j (fun r => -flux_i r)) a.scaled_c k + a.shift k)
          = bar U_i flux_i a := by
        funext k
        simp only [bar, contract, addFlux, dot, Pi.add_apply, Pi.neg_apply]
        have : ∑ d, (a.flux_j k d + -flux_i k d) * a.scaled_c d
            = ∑ d, (a.flux_j k d - flux_i k d) * a.scaled_c d :=
          Finset.sum_congr rfl fun d _ => by ring
        rw [this]; ring
      have h1 : (st.accumulate p strict U_i flux_i a.U_j a.s_j a.flux_j a.scaled_c a.shift).s_interp_max =
          max st.s_interp_max (if strict then surrogateSpecificEntropy p (fun k => (U_i k + a.U_j k) * (1 / 2)) g
            else surrogateSpecificEntropy p (bar U_i flux_i a) g) := by
        simp only [LimiterState.accumulate, hb, hg]
      obtain ⟨i1, i2⟩ := ih (st.accumulate p strict U_i flux_i a.U_j a.s_j a.flux_j a.scaled_c a.shift)
        (by rw [accumulate_bar]; exact hg)
      rw [h1] at i1
      refine ⟨(le_max_left _ _).trans i1, fun e he => ?_⟩
      rcases List.mem_cons.1 he with rfl | he
      · exact (le_max_right _ _).trans i1
      · exact i2 e he
  exact (key row (LimiterState.reset big g) rfl).2

/-- Properties of the bounds after step 4. -/
theorem StepHyp.bounds4 [Fintype ι] (h : StepHyp P strict (solver P lp strict big evc lim) M par lo.dij old)
    (heps : 0 ≤ P.eps) (hb0 : 0 ≤ P.b) (hf : 0 ≤ lp.relaxation_factor) (hbig : 0 < big) (stages) (tau : ℝ) (i : ι)
    (hr : Euler.relaxationRadius dim lp.relaxation_factor (M.lumped i * (1 / M.omega)) < 1) :
    let X := stage4 (solver P lp strict big evc lim) M par lo old stages tau
    let b := boundsStep4 (solver P lp strict big evc lim) M X par.tiny i
    b.gamma_min = (old.prec i).gamma_min ∧ 0 < b.rho_min ∧ 0 < b.s_min ∧
      (lp.relaxation_factor = 0 → P.b * b.rho_max < 1) ∧
      ∀ j ∈ i :: M.nbrs i, b.rho_min ≤ density (Hyp.barState (solver P lp strict big evc lim) M X contractLin par.tiny i j) ∧
        density (Hyp.barState (solver P lp strict big evc lim) M X contractLin par.tiny i j) ≤ b.rho_max ∧
        b.s_min ≤ surrogateSpecificEntropy P (Hyp.barState (solver P lp strict big evc lim) M X contractLin par.tiny i j)
          (old.prec i).gamma_min := by
  intro X b
  set D := solver P lp strict big evc lim with hD
  set g := (old.prec i).gamma_min with hg
  set row := (M.columns i).map (stepColumn D M X par.tiny i) with hrow
  have hb : b = (accumulateRow P strict big g (old.U i) (fluxAt D X i) row).relaxedBounds dim P lp
    (M.lumped i * (1 / M.omega)) := step_bounds4 M X par.tiny i
  have hbd : ∀ j, bar (old.U i) (fluxAt D X i) (stepColumn D M X par.tiny i j) =
      Hyp.barState D M X contractLin par.tiny i j := fun j => step_limiterBar M X par.tiny i j
  have hadm : ∀ e ∈ row, Admissible P (bar (old.U i) (fluxAt D X i) e) := by
    intro e he
    obtain ⟨j, hj, rfl⟩ := List.mem_map.1 he
    rw [hbd]
    exact h.bar_admissible stages tau i j hj
  have hce : ∀ e ∈ row, 0 < columnEntropy P strict g e := by
    intro e he
    obtain ⟨j, hj, rfl⟩ := List.mem_map.1 he
    unfold columnEntropy
    split_ifs
    · exact (h.gas j).admissible.entropy_pos g
    · show 0 < (old.prec j).s
      rw [h.entropy j]
      exact (h.gas j).admissible.entropy_pos _
  have hi : stepColumn D M X par.tiny i i ∈ row := List.mem_map_of_mem (show i ∈ M.columns i from List.mem_cons_self)
  obtain ⟨e0, e1, e2, e3, e4⟩ := C07_aeos_accumulate_exact P strict big g (old.U i) (fluxAt D X i) row
  have hin := accumulateRow_interp P strict big g (old.U i) (fluxAt D X i) row _ hi
  set st := accumulateRow P strict big g (old.U i) (fluxAt D X i) row with hst
  have hrho : 0 < st.bounds.rho_min := by
    rcases e2 with e2 | ⟨e, he, e2⟩
    · rw [e2]; exact hbig
    · rw [e2]; exact (hadm e he).rho_pos
  have hs : 0 < st.bounds.s_min := by
    rcases e4 with e4 | ⟨e, he, e4 | e4⟩
    · rw [e4]; exact hbig
    · rw [e4]; exact hce e he
    · rw [e4]; exact (hadm e he).entropy_pos g
  have hM : 0 < st.bounds.rho_max := (hadm _ hi).rho_pos.trans_le (e1 _ hi).2.1
  have hbM : P.b * st.bounds.rho_max < 1 := by
    rcases e3 with e3 | ⟨e, he, e3⟩
    · rw [e3]; norm_num
    · rw [e3]; have := (hadm e he).cov_pos; linarith
  have hself : (fun k => (old.U i k + (stepColumn D M X par.tiny i i).U_j k) * (1 / 2)) = old.U i := by
    funext k
    show (old.U i k + old.U i k) * (1 / 2) = old.U i k
    ring
  have hSI : st.bounds.s_min ≤ st.s_interp_max := by
    refine le_trans ?_ hin
    split_ifs with hst'
    · rw [hself]
      have := (e1 _ hi).2.2.1
      unfold columnEntropy at this
      rw [if_pos hst'] at this
      exact this
    · exact (e1 _ hi).2.2.2
  obtain ⟨r1, r2, r3, r4, r5⟩ := C06_aeos_bounds (dim := dim) P lp (M.lumped i * (1 / M.omega)) st heps hf hb0 hrho.le hM
    hbM.le (by rw [e0]; exact h.gamma_gt i) hs.le hSI
  refine ⟨by rw [hb, r4, e0], ?_, ?_, ?_, ?_⟩
  · rw [hb]
    exact lt_of_lt_of_le (mul_pos (by linarith) hrho) (le_max_left _ _)
  · rw [hb]
    exact lt_of_lt_of_le (mul_pos (by linarith) hs) (le_max_left _ _)
  · intro h0
    rw [hb, r5 h0]
    exact hbM
  · intro j hj
    have := e1 _ (List.mem_map_of_mem hj)
    rw [hbd] at this
    rw [hb]
    exact ⟨r1.trans this.1, this.2.1.trans r2, r3.trans this.2.2.2⟩

/-- **C70 (complete step, density).** For every `eps ≥ 0`, every number of Newton iterations and both ansatz types: a
completed step from gases leaves the density of every row positive and within the bounds of the limiter. -/
theorem C70_aeos_step_density [Fintype ι] (h : StepHyp P strict (solver P lp strict big evc lim) M par lo.dij old)
    (heps : 0 ≤ P.eps) (hb0 : 0 ≤ P.b)
    (hlim : ∀ i j b U V, IsLaneOf (fun _ => limit P lp) b U V (lim i j b U V))
    (hf : 0 ≤ lp.relaxation_factor) (hbig : 0 < big) (hn : par.iterations ≤ 2)
    (hr : ∀ i, Euler.relaxationRadius dim lp.relaxation_factor (M.lumped i * (1 / M.omega)) < 1)
    (strategy : Strategy) (cnt : Counters) (stages : List (ℝ × StateVector ι (ι → Eos.Prec) (State dim))) (tau tau_max : ℝ)
    (htau0 : 0 ≤ tau) (htau : tau ≤ tauMax (solver P lp strict big evc lim) M par lo.dij old tau_max)
    (U : ι → State dim) (t : ℝ)
    (hstep : (step (solver P lp strict big evc lim) M par strategy cnt lo old stages tau tau_max).1 = .done U t)
    (i : ι) (hi : M.nbrs i ≠ []) :
    0 < density (U i) ∧
    let b := finalBounds (solver P lp strict big evc lim) M par lo
      (stage4 (solver P lp strict big evc lim) M par lo old stages t) i
    b.rho_min ≤ density (U i) ∧ density (U i) ≤ b.rho_max := by
  classical
  set D := solver P lp strict big evc lim with hD
  obtain ⟨htm, htt, hU⟩ := step_done hstep
  have ht0' : 0 ≤ t := by rw [htt]; split_ifs; exacts [htm.le, htau0]
  have ht1' : t ≤ tauMax D M par lo.dij old tau_max := by rw [htt]; split_ifs; exacts [le_rfl, htau]
  set X := stage4 D M par lo old stages t with hX
  set b4 := boundsStep4 D M X par.tiny with hb4
  set bf := finalBounds D M par lo X with hbf
  have h4 := fun i => h.bounds4 heps hb0 hf hbig stages t i (hr i)
  have hwide : ∀ i, (bf i).rho_min ≤ (b4 i).rho_min ∧ (b4 i).rho_max ≤ (bf i).rho_max := by
    refine boundsStep5_induct D M lo.order b4 (fun i x => x.rho_min ≤ (b4 i).rho_min ∧ (b4 i).rho_max ≤ x.rho_max)
      (fun i => ⟨le_rfl, le_rfl⟩) ?_
    intro i x j y _ hx _
    exact ⟨(min_le_left _ _).trans hx.1, hx.2.trans (le_max_left _ _)⟩
  have hpos : ∀ i, 0 < (bf i).rho_min := by
    refine boundsStep5_induct D M lo.order b4 (fun i x => 0 < x.rho_min) (fun i => (h4 i).2.1) ?_
    intro i x j y _ hx hy
    exact lt_min hx hy
  have hbarIn : ∀ i, ∀ j ∈ i :: M.nbrs i, (bf i).rho_min ≤ density (Hyp.barState D M X contractLin par.tiny i j) ∧
      density (Hyp.barState D M X contractLin par.tiny i j) ≤ (bf i).rho_max := by
    intro i j hj
    have a := (h4 i).2.2.2.2 j hj
    exact ⟨(hwide i).1.trans a.1, a.2.1.trans (hwide i).2⟩
  have hself : ∀ i, Hyp.barState D M X contractLin par.tiny i i = old.U i := by
    intro i
    unfold Hyp.barState
    rw [sub_self, smul_zero, sub_zero, ← two_smul ℝ, smul_smul]
    norm_num
    rfl
  let C : ι → Set (State dim) := fun i => {V | (bf i).rho_min ≤ density V ∧ density V ≤ (bf i).rho_max}
  have hconv : ∀ i, Convex ℝ (C i) := by
    intro i x hx y hy α β hα hβ hαβ
    have e : ∀ z : ℝ, z = α * z + β * z := fun z => by rw [← add_mul, hαβ, one_mul]
    show _ ≤ density (α • x + β • y) ∧ density (α • x + β • y) ≤ _
    rw [Euler.density_add, Euler.density_smul, Euler.density_smul]
    constructor
    · linarith [mul_le_mul_of_nonneg_left hx.1 hα, mul_le_mul_of_nonneg_left hy.1 hβ, e (bf i).rho_min]
    · linarith [mul_le_mul_of_nonneg_left hx.2 hα, mul_le_mul_of_nonneg_left hy.2 hβ, e (bf i).rho_max]
  have hlow : ∀ i, M.nbrs i ≠ [] → lowOrder D M X i ∈ C i := by
    intro i hi
    refine C14_low_order_convex D M h.wf contractLin (solver_centralFlux P lp strict big evc lim) par lo old stages t tau_max
      h.pos h.tiny h.cfl ht0' ht1' i hi (h.mass i) (h.rowSum i) (h.isResolved stages t i) (C i) (hconv i) ?_ ?_
    · have := hbarIn i i (by simp)
      rw [hself] at this
      exact this
    · intro j hj
      exact hbarIn i j (by simp [hj])
  have hfin := C15_limited_update D M h.wf par lo X hn C hconv hlow ?_ i hi
  · rw [← hU] at hfin
    exact ⟨(hpos i).trans_le hfin.1, hfin⟩
  · intro i j hj V hV Q
    obtain ⟨L, bs, Us, Ps, l, e1, e2, e3, e4⟩ := hlim i j (bf i) V Q
    have hr := C02_aeos_limit_range P lp bs Us Ps (fun _ => 0) (fun _ => 1) l zero_le_one
    have hval : D.limit i j (bf i) V Q = lim i j (bf i) V Q := rfl
    rw [hval, e4]
    refine ⟨hr.1, hr.2, fun s hs0 hs => ?_⟩
    have := C03_aeos_limit_density P lp bs Us Ps (fun _ => 0) (fun _ => 1) l zero_le_one heps
      (by rw [e1]; linarith [hV.1, hV.2, hpos i]) (by rw [e1, e2]; exact hV) (by rw [e1, e2, zero_smul, add_zero]; exact hV) s hs0 hs
    rw [e1, e2, e3] at this
    exact this

/-- **C70 (complete step).** With a continuous ansatz and in exact arithmetic (`eps = 0` in the limiter): a completed step
from gases yields states with positive density, density below the one the covolume permits and positive shifted internal
energy, whose surrogate entropy (with the precomputed `gamma_min`) is at least the positive entropy bound of the limiter.
The relaxed density bound must not exceed the covolume – which the code does not ensure,
`C70_aeos_covolume_violation` – unless relaxation is switched off or `b = 0`. -/
theorem C70_aeos_step_invariant_domain_partial [Fintype ι]
    (h : StepHyp P strict (solver P lp strict big evc lim) M par lo.dij old)
    (hcg : M.dG = false) (heps : P.eps = 0) (hb0 : 0 ≤ P.b)
    (hlim : ∀ i j b U V, IsLaneOf (fun _ => limit P lp) b U V (lim i j b U V))
    (hf : 0 ≤ lp.relaxation_factor) (hbig : 0 < big) (hn : par.iterations ≤ 2)
    (hr : ∀ i, Euler.relaxationRadius dim lp.relaxation_factor (M.lumped i * (1 / M.omega)) < 1)
    (strategy : Strategy) (cnt : Counters) (stages : List (ℝ × StateVector ι (ι → Eos.Prec) (State dim))) (tau tau_max : ℝ)
    (htau0 : 0 ≤ tau) (htau : tau ≤ tauMax (solver P lp strict big evc lim) M par lo.dij old tau_max)
    (U : ι → State dim) (t : ℝ)
    (hstep : (step (solver P lp strict big evc lim) M par strategy cnt lo old stages tau tau_max).1 = .done U t)
    (hcov : P.b = 0 ∨ lp.relaxation_factor = 0 ∨ ∀ i, P.b * (finalBounds (solver P lp strict big evc lim) M par lo
      (stage4 (solver P lp strict big evc lim) M par lo old stages t) i).rho_max < 1)
    (i : ι) (hi : M.nbrs i ≠ []) :
    Admissible P (U i) ∧
    let b := finalBounds (solver P lp strict big evc lim) M par lo
      (stage4 (solver P lp strict big evc lim) M par lo old stages t) i
    0 < b.s_min ∧ b.s_min ≤ surrogateSpecificEntropy P (U i) (old.prec i).gamma_min := by
  classical
  set D := solver P lp strict big evc lim with hD
  obtain ⟨htm, htt, hU⟩ := step_done hstep
  have ht0' : 0 ≤ t := by rw [htt]; split_ifs; exacts [htm.le, htau0]
  have ht1' : t ≤ tauMax D M par lo.dij old tau_max := by rw [htt]; split_ifs; exacts [le_rfl, htau]
  set X := stage4 D M par lo old stages t with hX
  set bf := finalBounds D M par lo X with hbf
  have e4 : bf = boundsStep4 D M X par.tiny := by
    show boundsStep5 D M lo.order (boundsStep4 D M X par.tiny) = _
    simp [boundsStep5, hcg]
  have h4 := fun i => h.bounds4 heps.ge hb0 hf hbig stages t i (hr i)
  dsimp only at h4
  rw [← hD, ← hX, ← e4] at h4
  have hg : ∀ i, 1 < (bf i).gamma_min := fun i => by rw [(h4 i).1]; exact h.gamma_gt i
  have hcov' : ∀ i, P.b * (bf i).rho_max < 1 := by
    intro i
    rcases hcov with h0 | h0 | h0
    · rw [h0, zero_mul]; exact one_pos
    · exact (h4 i).2.2.2.1 h0
    · exact h0 i
  have hok : ∀ i (V : State dim), (bf i).rho_min ≤ density V → density V ≤ (bf i).rho_max → DensityOk P (density V) := by
    intro i V h1 h2
    refine ⟨(h4 i).2.1.trans_le h1, ?_⟩
    have := mul_le_mul_of_nonneg_left h2 hb0
    linarith [hcov' i]
  have hself : ∀ i, Hyp.barState D M X contractLin par.tiny i i = old.U i := by
    intro i
    unfold Hyp.barState
    rw [sub_self, smul_zero, sub_zero, ← two_smul ℝ, smul_smul]
    norm_num
    rfl
  let C : ι → Set (State dim) := fun i => {V | ((bf i).rho_min ≤ density V ∧ density V ≤ (bf i).rho_max) ∧
    (bf i).s_min ≤ surrogateSpecificEntropy P V (bf i).gamma_min}
  have hbarIn : ∀ i, ∀ j ∈ i :: M.nbrs i, Hyp.barState D M X contractLin par.tiny i j ∈ C i := by
    intro i j hj
    have a := (h4 i).2.2.2.2 j hj
    refine ⟨⟨a.1, a.2.1⟩, ?_⟩
    rw [(h4 i).1]
    exact a.2.2
  have hconv : ∀ i, Convex ℝ (C i) := by
    intro i x hx y hy α β hα hβ hαβ
    have e : ∀ z : ℝ, z = α * z + β * z := fun z => by rw [← add_mul, hαβ, one_mul]
    have px := hok i x hx.1.1 hx.1.2
    have py := hok i y hy.1.1 hy.1.2
    have hd : (bf i).rho_min ≤ density (α • x + β • y) ∧ density (α • x + β • y) ≤ (bf i).rho_max := by
      rw [Euler.density_add, Euler.density_smul, Euler.density_smul]
      constructor
      · linarith [mul_le_mul_of_nonneg_left hx.1.1 hα, mul_le_mul_of_nonneg_left hy.1.1 hβ, e (bf i).rho_min]
      · linarith [mul_le_mul_of_nonneg_left hx.1.2 hα, mul_le_mul_of_nonneg_left hy.1.2 hβ, e (bf i).rho_max]
    refine ⟨hd, (entropy_iff P _ _ _ (hok i _ hd.1 hd.2)).2 ?_⟩
    exact entropySet_convex P hb0 (hg i).le (h4 i).2.2.1.le x y px py hα hβ hαβ ((entropy_iff P _ _ _ px).1 hx.2)
      ((entropy_iff P _ _ _ py).1 hy.2)
  have hlow : ∀ i, M.nbrs i ≠ [] → lowOrder D M X i ∈ C i := by
    intro i hi
    refine C14_low_order_convex D M h.wf contractLin (solver_centralFlux P lp strict big evc lim) par lo old stages t tau_max
      h.pos h.tiny h.cfl ht0' ht1' i hi (h.mass i) (h.rowSum i) (h.isResolved stages t i) (C i) (hconv i) ?_ ?_
    · have := hbarIn i i (by simp)
      rw [hself] at this
      exact this
    · intro j hj
      exact hbarIn i j (by simp [hj])
  have hfin := C15_limited_update D M h.wf par lo X hn C hconv hlow ?_ i hi
  · rw [← hU] at hfin
    have hs := hfin.2
    refine ⟨admissible_of_entropy (hok i _ hfin.1.1 hfin.1.2) (h4 i).2.2.1 hs, (h4 i).2.2.1, ?_⟩
    rw [(h4 i).1] at hs
    exact hs
  · intro i j hj V hV Q
    obtain ⟨L, bs, Us, Ps, l, e1, e2, e3, e4⟩ := hlim i j (bf i) V Q
    have hr := C02_aeos_limit_range P lp bs Us Ps (fun _ => 0) (fun _ => 1) l zero_le_one
    have hval : D.limit i j (bf i) V Q = lim i j (bf i) V Q := rfl
    rw [hval, e4]
    refine ⟨hr.1, hr.2, fun s hs0 hs => ?_⟩
    have a := C03_aeos_limit_density P lp bs Us Ps (fun _ => 0) (fun _ => 1) l zero_le_one heps.ge
      (by rw [e1]; linarith [hV.1.1, hV.1.2, (h4 i).2.1]) (by rw [e1, e2]; exact hV.1)
      (by rw [e1, e2, zero_smul, add_zero]; exact hV.1) s hs0 hs
    have b := C53_aeos_limit_entropy_partial P lp bs Us Ps (fun _ => 1) l zero_le_one heps hb0 (by rw [e1]; exact (hg i).le)
      (by rw [e1]; exact (h4 i).2.1) (by rw [e1]; exact hcov' i) (by rw [e1]; exact (h4 i).2.2.1.le)
      (by rw [e1, e2]; exact hV.1) (by rw [e1, e2]; exact hV.2) s hs0 hs
    rw [e1, e2, e3] at a b
    exact ⟨a, b⟩

/-- **C70 is violated by the code for `b > 0` with relaxation**: the upper bound of the density is capped with the
*relaxed* maximum, so it can exceed the density `1/b` permitted by the covolume although all states of the stencil (and
their bar states) are below it; the limiter then accepts densities for which the equation of state is undefined. -/
theorem C70_aeos_covolume_violation :
    ∃ (P : Params) (lp : LimiterParams) (U : State 1) (hd : ℝ),
      0 < P.b ∧ Admissible P U ∧ 0 < hd ∧ hd < 1 ∧
      1 < P.b * ((accumulateRow P false 100 (7 / 5) U (fun _ _ => 0)
        [⟨U, surrogateSpecificEntropy P U (7 / 5), fun _ _ => 0, 0, 0⟩]).relaxedBounds 1 P lp hd).rho_max := by
  have hs : Real.sqrt (1 / 4) = 1 / 2 := by
    rw [show (1 / 4 : ℝ) = (1 / 2) ^ 2 by norm_num]
    exact Real.sqrt_sq (by norm_num)
  refine ⟨⟨1 / 2, 0, 0, 1, 100, 10000, 0⟩, ⟨2, 0, 1⟩, mkState (15 / 8) (fun _ => 0) 2, 1 / 4, by norm_num, ?_, by norm_num,
    by norm_num, ?_⟩
  · constructor <;> norm_num [internalEnergy, normSq]
  · simp only [accumulateRow, List.foldl_cons, List.foldl_nil, LimiterState.relaxedBounds, LimiterState.reset,
      LimiterState.accumulate, Euler.relaxationRadius, hs]
    have hd : density (fun k => (1 / 2) * ((mkState (15 / 8) (fun _ => 0) 2 : State 1) k + (mkState (15 / 8) (fun _ => 0) 2 : State 1) k) -
        (1 / 2) * contract (addFlux (fun _ _ => (0 : ℝ)) (fun r => -(fun _ _ => (0 : ℝ)) r)) (0 : Vec 1) k + (0 : State 1) k :
          State 1) = 15 / 8 := by
      show (1 / 2) * ((15 / 8 : ℝ) + 15 / 8) - (1 / 2) * dot _ (0 : Vec 1) + 0 = 15 / 8
      have : ∀ v : Vec 1, dot v 0 = 0 := fun v => by simp [dot]
      rw [this]; norm_num
    rw [hd]
    norm_num

/-! ### A gas on the ring -/

/-- Covolume `1/8`. -/
noncomputable def ringP : Params := ⟨1 / 8, 0, 0, 1, 100, 10000, 0⟩

noncomputable def ringLp : LimiterParams := ⟨2, 0, 0⟩

/-- A gas at rest with pressure 1, internal energy 2 and discontinuous density: its surrogate `γ` takes three values. -/
noncomputable def ringState (i : Fin 3) : State 1 := mkState (Euler.ringRho i) (fun _ => 0) 2

noncomputable def ringGas : StateVector (Fin 3) (Fin 3 → Eos.Prec) (State 1) :=
  ⟨ringState, fun i => ⟨1, 5 / 4, surrogateSpecificEntropy ringP (ringState i) (5 / 4), 0⟩⟩

/-- The limiter, called with one lane. -/
noncomputable def ringLim : Fin 3 → Fin 3 → Bounds → State 1 → State 1 → ℝ × Prop := fun _ _ b U P =>
  ((limit ringP ringLp (fun _ : Fin 1 => b) (fun _ => U) (fun _ => P) (fun _ => 0) (fun _ => 1)).1 0,
    (limit ringP ringLp (fun _ : Fin 1 => b) (fun _ => U) (fun _ => P) (fun _ => 0) (fun _ => 1)).2)

theorem ringState_energy (i : Fin 3) : internalEnergy (ringState i) = 2 := by
  simp [ringState, internalEnergy, normSq, dot]

theorem ringState_density (i : Fin 3) : density (ringState i) = Euler.ringRho i := by simp [ringState]

theorem ringRho_two : Euler.ringRho 2 = 4 := rfl

theorem ringState_gas (i : Fin 3) : GasState ringP (ringState i) 1 := by
  have h := Euler.ringRho_pos i
  have hb : ringP.b = 1 / 8 := rfl
  have hq : ringP.q = 0 := rfl
  have hp : ringP.pinf = 0 := rfl
  constructor
  · rw [ringState_density]; exact h.1
  · rw [ringState_density, hb]; linarith
  · rw [ringState_energy, hq, hp]; norm_num
  · rw [hp]; norm_num

theorem ringState_gamma (i : Fin 3) : surrogateGamma ringP (ringState i) 1 = 1 + (1 - Euler.ringRho i / 8) / 2 := by
  unfold surrogateGamma covolume
  rw [ringState_energy, ringState_density]
  simp only [ringP]
  ring

theorem ringState_speed (strict : Bool) (n : Vec 1) (a c : Fin 3) :
    1 / 2 ≤ riemann ringP strict (ringState a) 1 (ringState c) 1 n := by
  have h := (C09_aeos_characteristic ringP strict (ringState a) (ringState c) 1 1 n (ringState_gas a) (ringState_gas c)).2.2
  have hm : dot n (momentum (ringState c)) = 0 := by simp [ringState, dot]
  rw [hm, zero_div, zero_add] at h
  refine le_trans ?_ h
  have hr := Euler.ringRho_pos c
  rw [Real.le_sqrt' (by norm_num), ringState_gamma, ringState_density]
  simp only [ringP]
  have : 0 < Euler.ringRho c * (1 - 1 / 8 * Euler.ringRho c) := mul_pos hr.1 (by linarith)
  rw [le_div_iff₀ this]
  nlinarith

theorem ringGas_stepHyp (strict : Bool) (evc : ℝ) : StepHyp ringP strict (solver ringP ringLp strict 1000 evc ringLim) ring
    demoPar Euler.ringLo.dij ringGas where
  wf := ring_wf
  skew := fun i j hj _ => ring_closed.skew i j hj
  mass := ring_closed.lumped
  rowSum := Scalar.ring_row_sum
  tiny := by norm_num [demoPar]
  cfl := by norm_num [demoPar]
  resolved := by
    intro i j hj
    left
    have := dOff_ge (solver ringP ringLp strict 1000 evc ringLim) ring ring_wf Euler.ringLo.dij ringGas
      (fun i j hj _ => ring_closed.skew i j hj) hj (kappa := 1 / 2) (ringState_speed strict _ i j)
      (fun _ => ringState_speed strict _ j i)
    rw [ring_c i j hj] at this
    refine le_trans ?_ this
    norm_num [demoPar]
  gas := ringState_gas
  gammaMin := by
    intro i
    refine ⟨2, ?_, ?_⟩
    · fin_cases i <;> simp [ring]
    · show 5 / 4 = surrogateGamma ringP (ringState 2) 1
      rw [ringState_gamma, ringRho_two]
      norm_num
  entropy := fun _ => rfl
  speeds := fun _ _ _ _ h => absurd rfl h

/-- All hypotheses of C70 hold for a gas with covolume, discontinuous density and three different surrogate `γ` on the
ring, in both modes: the step is completed and its states are admissible. -/
example (strict : Bool) (evc : ℝ) (stages : List (ℝ × StateVector (Fin 3) (Fin 3 → Eos.Prec) (State 1))) : ∃ U t,
    (step (solver ringP ringLp strict 1000 evc ringLim) ring demoPar .warn ⟨0, 0⟩ Euler.ringLo ringGas stages 0 10).1 =
      .done U t ∧ ∀ i, Admissible ringP (U i) := by
  have htau := (C11_step_tau (solver ringP ringLp strict 1000 evc ringLim) ring demoPar .warn ⟨0, 0⟩ Euler.ringLo ringGas
    stages 0 10 (by norm_num [demoPar]) (by norm_num [demoPar]) ring_closed.lumped (by norm_num)).1
  obtain ⟨U, t, h⟩ := C18_warn_returns (solver ringP ringLp strict 1000 evc ringLim) ring demoPar ⟨0, 0⟩ Euler.ringLo
    ringGas stages 0 10 htau
  refine ⟨U, t, h, fun i => ?_⟩
  exact (C70_aeos_step_invariant_domain_partial (ringGas_stepHyp strict evc) rfl rfl (by norm_num [ringP])
    (fun i j b U P => ⟨1, fun _ => b, fun _ => U, fun _ => P, 0, rfl, rfl, rfl, rfl⟩) (le_refl (0 : ℝ)) (by norm_num)
    (by norm_num [demoPar]) (fun i => by simp [Euler.relaxationRadius, ringLp]) .warn ⟨0, 0⟩ stages 0 10 le_rfl htau.le U t h
    (Or.inr (Or.inl rfl)) i (by simp [ring])).1

/-- A bar state of C69 for two gases with different surrogate `γ`. -/
example (strict : Bool) (n : Vec 1) (hn : normSq n = 1) (lam : ℝ) (hl : 0 < lam)
    (h : riemann ringP strict (ringState 0) 1 (ringState 2) 1 n ≤ lam) :
    Admissible ringP (barOf (ringState 0) 1 (ringState 2) 1 n lam) ∧
      surrogateGamma ringP (ringState 0) 1 ≠ surrogateGamma ringP (ringState 2) 1 := by
  refine ⟨C69_aeos_bar_admissible ringP rfl strict _ _ 1 1 n hn (ringState_gas 0) (ringState_gas 2) lam hl h, ?_⟩
  rw [ringState_gamma, ringState_gamma, ringRho_two]
  norm_num [Euler.ringRho]

end Aeos
end Ryujin
