import Mathlib.Analysis.Complex.ExponentialBounds
import Verif.Props.AeosUniformRun
import Verif.Props.AeosInvariantDomain

/-!
# Complete runs of a gas with arbitrary equation of state stay admissible
-/

namespace Ryujin

namespace Aeos

noncomputable section

open Integrator Hyp Euler Slot

variable {ι : Type} {dim : ℕ}

/-! ### Pressures of admissible states -/

/-- With the interpolation constants of the polytropic gas, the pressure of an admissible state is positive. -/
theorem C92_aeos_pressure_polytropic (g : Eos.PolytropicGas) (hg : 1 < g.gamma) (p : Params) (V : State dim)
    (h : Admissible (Eos.systemParams g.interface p) V) :
    0 < Eos.statePressure g.interface V + (Eos.systemParams g.interface p).pinf := by
  have h1 := h.rho_pos
  have h3 := h.shift_pos
  simp only [Eos.systemParams, Eos.PolytropicGas.interface, Eos.statePressure, Eos.PolytropicGas.pressure] at *
  have : density V * (internalEnergy V / density V) = internalEnergy V := by field_simp
  have h4 : 0 < (g.gamma - 1) * internalEnergy V := mul_pos (by linarith) (by linarith)
  have e : (g.gamma - 1) * density V * (internalEnergy V / density V) = (g.gamma - 1) * internalEnergy V := by
    rw [mul_assoc, this]
  rw [e]
  linarith

/-- With the interpolation constants of a Noble-Abel stiffened gas that is set up from a parameter file, the shifted pressure of an admissible state is positive. -/
theorem C92_aeos_pressure_noble_abel (before : Eos.NobleAbelStiffenedGas) (gamma R b q pinf : ℝ) (hgamma : 1 < gamma) (p : Params)
    (V : State dim) (h : Admissible (Eos.systemParams (before.parse gamma R b q pinf).interface p) V) :
    0 < Eos.statePressure (before.parse gamma R b q pinf).interface V +
      (Eos.systemParams (before.parse gamma R b q pinf).interface p).pinf := by
  have hb : (before.parse gamma R b q pinf).interpolation_b = (before.parse gamma R b q pinf).b := rfl
  have hp : (before.parse gamma R b q pinf).interpolation_pinfty = (before.parse gamma R b q pinf).pinf := rfl
  have hq : (before.parse gamma R b q pinf).interpolation_q = (before.parse gamma R b q pinf).q := rfl
  have hg : 1 < (before.parse gamma R b q pinf).gamma := hgamma
  generalize before.parse gamma R b q pinf = g at h hb hp hq hg
  have h1 := h.rho_pos
  have h2 := h.cov_pos
  have h3 := h.shift_pos
  simp only [Eos.systemParams, Eos.NobleAbelStiffenedGas.interface, Eos.statePressure, Eos.NobleAbelStiffenedGas.pressure,
    hb, hp, hq] at *
  have e : (g.gamma - 1) * density V * (internalEnergy V / density V - g.q) / (1 - g.b * density V) - g.gamma * g.pinf + g.pinf =
      (g.gamma - 1) * (internalEnergy V - density V * g.q - g.pinf * (1 - g.b * density V)) / (1 - g.b * density V) := by
    have hne := h2.ne'
    have e1 : (g.gamma - 1) * density V * (internalEnergy V / density V - g.q) =
        (g.gamma - 1) * (internalEnergy V - density V * g.q) := by
      field_simp
    rw [e1, eq_div_iff hne, add_mul, sub_mul, div_mul_cancel₀ _ hne]
    ring
  rw [e]
  exact div_pos (mul_pos (by linarith) h3) h2

/-- With the interpolation constants of a van der Waals gas with covolume that is set up from a parameter file, the shifted pressure of an admissible state is
positive. -/
theorem C92_aeos_pressure_van_der_waals (before : Eos.VanDerWaals) (gamma a b R : ℝ) (hgamma : 1 < gamma) (ha' : 0 ≤ a) (hb' : 0 < b)
    (p : Params) (V : State dim) (h : Admissible (Eos.systemParams (before.parse gamma a b R).interface p) V) :
    0 < Eos.statePressure (before.parse gamma a b R).interface V +
      (Eos.systemParams (before.parse gamma a b R).interface p).pinf := by
  have hb : (before.parse gamma a b R).interpolation_b = (before.parse gamma a b R).b := rfl
  have hp : (before.parse gamma a b R).interpolation_pinfty =
      (before.parse gamma a b R).a / ((before.parse gamma a b R).b * (before.parse gamma a b R).b) := if_pos hb'
  have hg : 1 < (before.parse gamma a b R).gamma := hgamma
  have ha : 0 ≤ (before.parse gamma a b R).a := ha'
  have hb0 : 0 < (before.parse gamma a b R).b := hb'
  generalize before.parse gamma a b R = g at h hb hp hg ha hb0
  have h1 := h.rho_pos
  have h2 := h.cov_pos
  have h3 := h.shift_pos
  simp only [Eos.systemParams, Eos.VanDerWaals.interface, Eos.statePressure, Eos.VanDerWaals.pressure, hb, hp] at *
  have hpi : 0 ≤ g.a / (g.b * g.b) := div_nonneg ha (mul_self_nonneg _)
  have h4 : 0 < internalEnergy V := by
    have := mul_nonneg hpi h2.le
    linarith
  have e : density V * (internalEnergy V / density V) = internalEnergy V := by field_simp
  rw [e]
  have h5 : 0 ≤ g.a * density V * density V := by positivity
  have h6 : 0 < (g.gamma - 1) * (internalEnergy V + g.a * density V * density V) / (1 - g.b * density V) :=
    div_pos (mul_pos (by linarith) (by linarith)) h2
  have h7 : g.a * density V * density V ≤ g.a / (g.b * g.b) := by
    rw [le_div_iff₀ (mul_pos hb0 hb0)]
    have h8 : g.b * density V * (g.b * density V) ≤ 1 := by
      have := mul_le_mul_of_nonneg_left (show g.b * density V ≤ 1 by linarith) (mul_pos hb0 h1).le
      linarith
    have := mul_le_mul_of_nonneg_left h8 ha
    linarith
  linarith

/-- Air, and a van der Waals gas as set up by a parameter file. -/
example (p : Params) : (0 < Eos.statePressure (Eos.PolytropicGas.interface ⟨7 / 5, 1, 1⟩) (mkState 1 (fun _ => 2) 3 : State 1) +
      (Eos.systemParams (Eos.PolytropicGas.interface ⟨7 / 5, 1, 1⟩) p).pinf) ∧
    0 < Eos.statePressure (Eos.VanDerWaals.construct.parse (7 / 5) 1 (1 / 2) 1).interface (mkState 1 (fun _ => 0) 3 : State 1) +
      (Eos.systemParams (Eos.VanDerWaals.construct.parse (7 / 5) 1 (1 / 2) 1).interface p).pinf := by
  refine ⟨C92_aeos_pressure_polytropic _ (by norm_num) p _ ?_, C92_aeos_pressure_van_der_waals _ _ _ _ _
    (by norm_num) (by norm_num) (by norm_num) p _ ?_⟩
  · constructor <;> norm_num [Eos.systemParams, Eos.PolytropicGas.interface, internalEnergy, normSq, dot]
  · constructor <;> norm_num [Eos.systemParams, Eos.VanDerWaals.interface, Eos.VanDerWaals.parse, internalEnergy, normSq, dot]

/-- The Jones-Wilkins-Lee equation of state is not of that kind: with its default parameters, a moderately expanded explosive with
little internal energy is admissible, its pressure is negative and its surrogate `γ` is below one. -/
theorem C92_aeos_pressure_jwl_negative (p : Params) : ∃ V : State 1,
    Admissible (Eos.systemParams Eos.JonesWilkinsLee.construct.interface p) V ∧
    Eos.statePressure Eos.JonesWilkinsLee.construct.interface V +
      (Eos.systemParams Eos.JonesWilkinsLee.construct.interface p).pinf < 0 ∧
    surrogateGamma (Eos.systemParams Eos.JonesWilkinsLee.construct.interface p) V
      (Eos.statePressure Eos.JonesWilkinsLee.construct.interface V) < 1 := by
  have hr : density (mkState (1895 * 0.565) (fun _ => 0) (1895 * 0.565) : State 1) = 1895 * 0.565 := by simp
  have hE : internalEnergy (mkState (1895 * 0.565) (fun _ => 0) (1895 * 0.565) : State 1) = 1895 * 0.565 := by
    simp [internalEnergy, normSq]
  have hp : Eos.statePressure Eos.JonesWilkinsLee.construct.interface (mkState (1895 * 0.565) (fun _ => 0) (1895 * 0.565) : State 1)
      < 0 := by
    have e : Eos.statePressure Eos.JonesWilkinsLee.construct.interface
        (mkState (1895 * 0.565) (fun _ => 0) (1895 * 0.565) : State 1) =
        6.3207e13 * (1 - 0.8938 / 11.3 * 0.565) * Real.exp (-1) ^ 20 - 4.472e9 * (1 - 0.8938 / 1.13 * 0.565) * Real.exp (-1) ^ 2 +
          0.8938 * (1895 * 0.565) := by
      have e20 : Real.exp (-1) ^ 20 = Real.exp (-20) := by rw [← Real.exp_nat_mul]; norm_num
      have e2 : Real.exp (-1) ^ 2 = Real.exp (-2) := by rw [← Real.exp_nat_mul]; norm_num
      rw [e20, e2]
      simp only [Eos.statePressure, hr, hE, Eos.JonesWilkinsLee.interface, Eos.JonesWilkinsLee.construct,
        Eos.JonesWilkinsLee.pressure]
      rw [show (1895 * 0.565 : ℝ) / 1895 = 0.565 by norm_num, show (-11.3 * 1 / 0.565 : ℝ) = -20 by norm_num,
        show (-1.13 * 1 / 0.565 : ℝ) = -2 by norm_num]
      ring
    rw [e]
    have h1 : Real.exp (-1) < 0.37 := lt_trans Real.exp_neg_one_lt_d9 (by norm_num)
    have h2 : 0.36 < Real.exp (-1) := lt_trans (by norm_num) Real.exp_neg_one_gt_d9
    have h3 : Real.exp (-1) ^ 20 ≤ 0.37 ^ 20 := pow_le_pow_left₀ (Real.exp_pos _).le h1.le 20
    have h4 : (0.36 : ℝ) ^ 2 ≤ Real.exp (-1) ^ 2 := pow_le_pow_left₀ (by norm_num) h2.le 2
    norm_num at h3 h4 ⊢
    linarith
  refine ⟨mkState (1895 * 0.565) (fun _ => 0) (1895 * 0.565), ⟨?_, ?_, ?_⟩, ?_, ?_⟩
  · rw [hr]; norm_num
  · simp only [Eos.systemParams, Eos.JonesWilkinsLee.interface]; norm_num
  · rw [hr, hE]; simp only [Eos.systemParams, Eos.JonesWilkinsLee.interface]; norm_num
  · simp only [Eos.systemParams]
    show _ + (0 : ℝ) < 0
    rw [add_zero]; exact hp
  · unfold surrogateGamma covolume
    rw [hr, hE]
    generalize Eos.statePressure _ _ = pr at hp
    simp only [Eos.systemParams, Eos.JonesWilkinsLee.interface]
    have : pr / (1895 * 0.565) < 0 := div_neg_of_neg_of_pos hp (by norm_num)
    norm_num at this ⊢
    linarith

/-! ### Runs -/

/-- The side conditions on a vector that is handed to an update: no viscosity is lost to the regularisation, and for
`p_∞ ≠ 0` the computed wave speeds bound those of the exact solution. -/
def Resolved (eos : Eos.Interface) (P : Params) (strict : Bool)
    (D : Description ι (ι → Eos.Prec) (State dim) (Fin (dim + 2) → Vec dim) Bounds dim) (M : Mesh ι dim) (par : Hyp.Params)
    (q : ι → Eos.Prec) (lo : ℕ → Leftover ι (State dim)) (u : ι → State dim) : Prop :=
  ∀ n, ∀ i, ∀ j ∈ M.nbrs i,
    (100 * par.tiny ≤ dOff D M (lo n).dij ⟨u, Mpi.precompute M (preCycles eos P M) 2 u q⟩ i j ∨
      (M.c i j = 0 ∧ dOff D M (lo n).dij ⟨u, Mpi.precompute M (preCycles eos P M) 2 u q⟩ i j = 0)) ∧
    (M.c i j ≠ 0 → P.pinf ≠ 0 →
      Spec.NasgDominates P.b P.pinf (stateSide P (u i) (Eos.statePressure eos (u i)) (fun k => M.c i j k / vnorm (M.c i j)))
        (stateSide P (u j) (Eos.statePressure eos (u j)) (fun k => M.c i j k / vnorm (M.c i j)))
        (riemann P strict (u i) (Eos.statePressure eos (u i)) (u j) (Eos.statePressure eos (u j))
          (fun k => M.c i j k / vnorm (M.c i j))))

/-- **C92 (arbitrary equation of state).** Runs of the forward Euler scheme: positive density below the one the covolume permits and
positive shifted internal energy in every state, for every equation of state whose shifted pressure is positive on such states, with the
values the code precomputes. Partial for the same reasons as C70: exact arithmetic, continuous finite elements, side conditions
`Resolved`. -/
theorem C92_aeos_run_partial [Fintype ι] (eos : Eos.Interface) (P : Params) (lp : LimiterParams) (strict : Bool) (big evc : ℝ)
    (lim : ι → ι → Bounds → State dim → State dim → ℝ × Prop) (M : Mesh ι dim) (par : Hyp.Params)
    (heos : ∀ V : State dim, Admissible P V → 0 < Eos.statePressure eos V + P.pinf)
    (hcg : M.dG = false) (heps : P.eps = 0) (hb0 : 0 ≤ P.b) (hcov : P.b = 0 ∨ lp.relaxation_factor = 0)
    (hlim : ∀ i j b U V, IsLaneOf (fun _ => limit P lp) b U V (lim i j b U V))
    (hM : M.WellFormed) (hskew : ∀ i, ∀ j ∈ M.nbrs i, ¬ (M.boundary i ∧ M.boundary j) → M.c j i = -M.c i j)
    (hmass : ∀ i, 0 < M.lumped i) (hrow : ∀ i, M.c i i + ((M.nbrs i).map (M.c i)).sum = 0) (ht : 0 < par.tiny)
    (hact : ∀ i, M.nbrs i ≠ [])
    (hf : 0 ≤ lp.relaxation_factor) (hbig : 0 < big) (hn : par.iterations ≤ 2)
    (hr : ∀ i, Euler.relaxationRadius dim lp.relaxation_factor (M.lumped i * (1 / M.omega)) < 1)
    (bc : ℝ → (ι → State dim) → ι → State dim) (hbc : ∀ t u, (∀ i, Admissible P (u i)) → ∀ i, Admissible P (bc t u i))
    (q : ι → Eos.Prec) (lo : ℕ → Leftover ι (State dim)) (garbage : ℕ → ι → State dim)
    (parabolic : Ctx → ℕ → (ι → State dim) → ℝ → (ι → State dim) → ℝ → Res (ι → State dim)) (bigTau : ℝ)
    (rec : Recovery) (cflMin cflMax : ℝ) (m m' : Mem (ι → State dim) (ι → Eos.Prec))
    (h : Run (hyperbolicModules (solver P lp strict big evc lim) M par bigTau bc
      (fun U => Mpi.precompute M (preCycles eos P M) 2 U q) lo garbage parabolic) .erk_11 rec cflMin cflMax
      (fun ctx u => ctx.cfl ≤ 1 ∧ Resolved eos P strict (solver P lp strict big evc lim) M par q lo u) m m')
    (h0 : ∀ i, Admissible P ((m old).U i)) (i : ι) : Admissible P ((m' old).U i) := by
  classical
  refine Integrator.C90_forward_euler_invariant _ {u : ι → State dim | ∀ i, Admissible P (u i)} _ ?_ ?_
    rec cflMin cflMax m m' h0 h i
  · exact hbc
  intro ctx n v dst cap u τ hok hv hh i
  have hst := Integrator.hyp_ok hh
  have hpre := precompute_precomputed eos P hM v q
  refine (C70_aeos_step_invariant_domain_partial (lo := { lo n with newU := dst })
    (old := ⟨v, Mpi.precompute M (preCycles eos P M) 2 v q⟩) (par := { par with cfl := ctx.cfl })
    { wf := hM, skew := hskew, mass := hmass, rowSum := hrow, tiny := ht, cfl := hok.1
      resolved := fun i j hj => (hok.2 n i j hj).1
      gas := fun i => ?_
      gammaMin := fun i => ?_
      entropy := fun i => hpre.s i (hact i)
      speeds := fun i j hj hc hp => ?_ }
    hcg heps hb0 hlim hf hbig hn hr _ _ _ 0 _ le_rfl (step_done hst).1.le u τ hst (hcov.imp id Or.inl) i (hact i)).1
  · have e : (Mpi.precompute M (preCycles eos P M) 2 v q i).p = _ := hpre.p i (hact i)
    show GasState P (v i) (Mpi.precompute M (preCycles eos P M) 2 v q i).p
    rw [e]
    exact ⟨(hv i).rho_pos, (hv i).cov_pos, (hv i).shift_pos, heos _ (hv i)⟩
  · obtain ⟨j, hj, e⟩ := (hpre.gamma_min i (hact i)).1
    refine ⟨j, hj, e.trans ?_⟩
    show _ = surrogateGamma P (v j) (Mpi.precompute M (preCycles eos P M) 2 v q j).p
    rw [hpre.p j (hact j)]
  · have := (hok.2 n i j hj).2 hc hp
    rw [← hpre.p i (hact i), ← hpre.p j (hact j)] at this
    exact this

/-! ### A gas with covolume on the ring -/

/-- A Noble-Abel gas with covolume `1/8`, as set up by a parameter file. -/
def ringEos : Eos.NobleAbelStiffenedGas := Eos.NobleAbelStiffenedGas.construct.parse (7 / 5) 1 (1 / 8) 0 0

theorem ringEos_params : Eos.systemParams ringEos.interface ringP = ringP := by
  simp [Eos.systemParams, ringEos, Eos.NobleAbelStiffenedGas.interface, Eos.NobleAbelStiffenedGas.parse, ringP]

theorem ringEos_positive (V : State 1) (h : Admissible ringP V) : 0 < Eos.statePressure ringEos.interface V + ringP.pinf := by
  have := C92_aeos_pressure_noble_abel Eos.NobleAbelStiffenedGas.construct (7 / 5) 1 (1 / 8) 0 0 (by norm_num) ringP V
    (by rw [← ringEos, ringEos_params]; exact h)
  rwa [← ringEos, ringEos_params] at this

theorem ringState_pressure (i : Fin 3) : Eos.statePressure ringEos.interface (ringState i) =
    (4 / 5) / (1 - Euler.ringRho i / 8) := by
  have h := (Euler.ringRho_pos i).1.ne'
  simp only [Eos.statePressure, ringState_density, ringState_energy, ringEos, Eos.NobleAbelStiffenedGas.interface,
    Eos.NobleAbelStiffenedGas.parse, Eos.NobleAbelStiffenedGas.pressure]
  have e : (7 / 5 - 1) * Euler.ringRho i * (2 / Euler.ringRho i - 0) = 4 / 5 := by
    field_simp
    norm_num
  rw [e]
  ring_nf

theorem ringState_real (i : Fin 3) : GasState ringP (ringState i) (Eos.statePressure ringEos.interface (ringState i)) := by
  have h := ringState_gas i
  exact ⟨h.rho_pos, h.cov_pos, h.shift_pos, ringEos_positive _ ⟨h.rho_pos, h.cov_pos, h.shift_pos⟩⟩

theorem ringState_real_speed (strict : Bool) (n : Vec 1) (a c : Fin 3) :
    1 / 2 ≤ riemann ringP strict (ringState a) (Eos.statePressure ringEos.interface (ringState a)) (ringState c)
      (Eos.statePressure ringEos.interface (ringState c)) n := by
  have h := (C09_aeos_characteristic ringP strict (ringState a) (ringState c) _ _ n (ringState_real a) (ringState_real c)).2.2
  have hm : dot n (momentum (ringState c)) = 0 := by simp [ringState, dot]
  rw [hm, zero_div, zero_add] at h
  refine le_trans ?_ h
  have hr := Euler.ringRho_pos c
  have hcov : 0 < 1 - Euler.ringRho c / 8 := by linarith
  have hg : surrogateGamma ringP (ringState c) (Eos.statePressure ringEos.interface (ringState c)) = 7 / 5 := by
    unfold surrogateGamma covolume
    rw [ringState_energy, ringState_density, ringState_pressure]
    simp only [ringP]
    have := hcov.ne'
    have e : 1 - 1 / 8 * Euler.ringRho c = 1 - Euler.ringRho c / 8 := by ring
    rw [e, add_zero, div_mul_cancel₀ _ this]
    norm_num
  rw [Real.le_sqrt' (by norm_num), hg, ringState_density, ringState_pressure]
  have hb : ringP.b = 1 / 8 := rfl
  have hp : ringP.pinf = 0 := rfl
  rw [hb, hp]
  have : 0 < Euler.ringRho c * (1 - 1 / 8 * Euler.ringRho c) := mul_pos hr.1 (by linarith)
  rw [le_div_iff₀ this, add_zero, mul_div_assoc', le_div_iff₀ hcov]
  nlinarith

/-- The hypotheses are met: the gas with covolume and discontinuous density on the ring, in both modes and whatever the precomputed
vector contained before. -/
example (strict : Bool) (evc : ℝ) (m : Mem (Fin 3 → State 1) (Fin 3 → Eos.Prec)) (hm : (m old).U = ringState)
    (q : Fin 3 → Eos.Prec) (garbage : ℕ → Fin 3 → State 1) : ∃ m',
    (∀ i, Admissible ringP ((m' old).U i)) ∧ ∃ ok, Run (hyperbolicModules (solver ringP ringLp strict 1000 evc ringLim) ring demoPar
      1000 (fun _ u => u) (fun U => Mpi.precompute ring (preCycles ringEos.interface ringP ring) 2 U q) (fun _ => Euler.ringLo)
      garbage fun _ _ _ _ _ _ => .crash) .erk_11 .none 1 1 ok m m' := by
  set D := solver ringP ringLp strict 1000 evc ringLim with hD
  set Mo := hyperbolicModules D ring demoPar 1000 (fun _ u => u)
    (fun U => Mpi.precompute ring (preCycles ringEos.interface ringP ring) 2 U q) (fun _ => Euler.ringLo) garbage
    (fun _ _ _ _ _ _ => .crash) with hMo
  obtain ⟨U, t, h⟩ := C18_warn_returns D ring ⟨1 / 2, demoPar.tiny, demoPar.iterations⟩ ⟨0, 0⟩
    { Euler.ringLo with newU := (m (temp 0)).U } ⟨(m old).U, Mo.pre (m old).U⟩ [] 0 10
    (C11_step_tau D ring ⟨1 / 2, demoPar.tiny, demoPar.iterations⟩ .warn ⟨0, 0⟩
      { Euler.ringLo with newU := (m (temp 0)).U } ⟨(m old).U, Mo.pre (m old).U⟩ [] 0 10
      (by norm_num [demoPar]) (by norm_num) ring_closed.lumped (by norm_num)).1
  have hup : Mo.hyp ⟨1 / 2, .warn, .warn⟩ 0 ⟨Mo.bc 0 (m old).U, Mo.pre (Mo.bc 0 (m old).U)⟩ [] (m (temp 0)).U 0
      (some (10 - 0)) = .ok U t := by
    simp only [hMo, hyperbolicModules] at h ⊢
    simp only [sub_zero, Option.getD_some, List.map_nil, h]
  have hact : ∀ i, ring.nbrs i ≠ [] := fun i => by simp [ring]
  obtain ⟨m', hrun, -⟩ := Integrator.run_of_update
    (ok := fun ctx u => ctx.cfl ≤ 1 ∧ Resolved ringEos.interface ringP strict D ring demoPar q (fun _ => Euler.ringLo) u) 1 1 hup
    (fun u hu => by
      have e : u = ringState := by rcases hu with hu | hu <;> exact hu.trans hm
      subst e
      refine ⟨by norm_num, fun _ i j hj => ⟨Or.inl ?_, fun _ hp => absurd rfl hp⟩⟩
      have hpre := precompute_precomputed ringEos.interface ringP ring_wf ringState q
      have := dOff_ge D ring ring_wf Euler.ringLo.dij
        ⟨ringState, Mpi.precompute ring (preCycles ringEos.interface ringP ring) 2 ringState q⟩
        (fun i j hj _ => ring_closed.skew i j hj) hj (kappa := 1 / 2)
        (by
          show 1 / 2 ≤ riemann ringP strict (ringState i) (Mpi.precompute ring (preCycles ringEos.interface ringP ring) 2 ringState q i).p
            (ringState j) (Mpi.precompute ring (preCycles ringEos.interface ringP ring) 2 ringState q j).p _
          rw [hpre.p i (hact i), hpre.p j (hact j)]
          exact ringState_real_speed strict _ i j)
        (fun _ => by
          show 1 / 2 ≤ riemann ringP strict (ringState j) (Mpi.precompute ring (preCycles ringEos.interface ringP ring) 2 ringState q j).p
            (ringState i) (Mpi.precompute ring (preCycles ringEos.interface ringP ring) 2 ringState q i).p _
          rw [hpre.p i (hact i), hpre.p j (hact j)]
          exact ringState_real_speed strict _ j i)
      rw [ring_c i j hj] at this
      refine le_trans ?_ this
      norm_num [demoPar])
  refine ⟨m', fun i => ?_, _, hrun⟩
  refine C92_aeos_run_partial ringEos.interface ringP ringLp strict 1000 evc ringLim ring demoPar ringEos_positive rfl rfl
    (by norm_num [ringP]) (Or.inr rfl) (fun i j b U P => ⟨1, fun _ => b, fun _ => U, fun _ => P, 0, rfl, rfl, rfl, rfl⟩) ring_wf
    (fun i j hj _ => ring_closed.skew i j hj) ring_closed.lumped Scalar.ring_row_sum (by norm_num [demoPar]) hact
    (le_refl (0 : ℝ)) (by norm_num) (by norm_num [demoPar]) (fun i => by simp [Euler.relaxationRadius, ringLp]) (fun _ u => u)
    (fun _ _ h => h) q (fun _ => Euler.ringLo) garbage _ 1000 .none 1 1 m m' hrun (fun i => ?_) i
  rw [hm]
  exact ⟨(ringState_gas i).rho_pos, (ringState_gas i).cov_pos, (ringState_gas i).shift_pos⟩

end

end Aeos

namespace Assembly

noncomputable section

open Integrator Hyp Slot
open Classical

variable {κ : Type} {n s nq nf nfq nn dim : ℕ} {F : FeData κ n s nq nf nfq nn dim}

/-- **C92 (arbitrary equation of state on assembled meshes).** As `C92_aeos_run_partial`, on every mesh with any boundary and with the
matrices assembled by `OfflineData` for continuous elements. -/
theorem C92_assembled_aeos_partial [Fintype κ] (hP : BoundedSpace F) (hcg : F.dG = false)
    (ip : IncidenceParams) (below skip : Dof F → Dof F → Prop) (boundary : Dof F → Prop)
    (hasymm : ∀ i j, below i j → ¬ below j i) (hskip : ∀ i j, skip i j → below i j)
    (hbound : ∀ k : Dof F, ¬ boundary k → Interior F k)
    (eos : Eos.Interface) (P : Aeos.Params) (lp : LimiterParams) (strict : Bool) (big evc : ℝ)
    (lim : Dof F → Dof F → Aeos.Bounds → Euler.State dim → Euler.State dim → ℝ × Prop) (par : Hyp.Params)
    (heos : ∀ V : Euler.State dim, Aeos.Admissible P V → 0 < Eos.statePressure eos V + P.pinf)
    (heps : P.eps = 0) (hb0 : 0 ≤ P.b) (hcov : P.b = 0 ∨ lp.relaxation_factor = 0)
    (hlim : ∀ i j b U V, IsLaneOf (fun _ => Aeos.limit P lp) b U V (lim i j b U V)) (ht : 0 < par.tiny)
    (hf : 0 ≤ lp.relaxation_factor) (hbig : 0 < big) (hn : par.iterations ≤ 2)
    (hr : ∀ k : Dof F, Euler.relaxationRadius dim lp.relaxation_factor (lumpedMass F k * (1 / measure F)) < 1)
    (bc : ℝ → (Dof F → Euler.State dim) → Dof F → Euler.State dim)
    (hbc : ∀ t u, (∀ i, Aeos.Admissible P (u i)) → ∀ i, Aeos.Admissible P (bc t u i))
    (q : Dof F → Eos.Prec) (lo : ℕ → Hyp.Leftover (Dof F) (Euler.State dim)) (garbage : ℕ → Dof F → Euler.State dim)
    (parabolic : Ctx → ℕ → (Dof F → Euler.State dim) → ℝ → (Dof F → Euler.State dim) → ℝ → Res (Dof F → Euler.State dim))
    (bigTau : ℝ) (rec : Recovery) (cflMin cflMax : ℝ) (m m' : Mem (Dof F → Euler.State dim) (Dof F → Eos.Prec))
    (h : Run (hyperbolicModules (Aeos.solver P lp strict big evc lim) (assembled F ip below skip boundary) par bigTau bc
      (fun U => Hyp.Mpi.precompute (assembled F ip below skip boundary)
        (Aeos.preCycles eos P (assembled F ip below skip boundary)) 2 U q) lo garbage parabolic) .erk_11 rec cflMin cflMax
      (fun ctx u => ctx.cfl ≤ 1 ∧ Aeos.Resolved eos P strict (Aeos.solver P lp strict big evc lim)
        (assembled F ip below skip boundary) par q lo u) m m')
    (h0 : ∀ k, Aeos.Admissible P ((m old).U k)) (k : Dof F) : Aeos.Admissible P ((m' old).U k) :=
  Aeos.C92_aeos_run_partial eos P lp strict big evc lim (assembled F ip below skip boundary) par heos hcg heps hb0 hcov hlim
    (C87_assembled_wellFormed hP.conforming ip below skip boundary hasymm hskip)
    (fun i j _ hij => assembled_skew hP.conforming ip below skip boundary hbound i j hij)
    (fun k => C87_lumped_pos hP.consistent hP.integrals hP.weights k (hP.covered k))
    (fun i => C87_assembled_rowSum hP.consistent ip below skip boundary i) ht hP.stencils hf hbig hn hr bc hbc q lo garbage
    parabolic bigTau rec cflMin cflMax m m' h h0 k

/-- The gas with covolume and discontinuous density on the assembled ring: a run exists and keeps the gas admissible. -/
example (strict : Bool) (evc : ℝ) (lo : ℕ → Hyp.Leftover (Dof ringFe) (Euler.State 1)) (garbage : ℕ → Dof ringFe → Euler.State 1)
    (q : Dof ringFe → Eos.Prec) (m : Mem (Dof ringFe → Euler.State 1) (Dof ringFe → Eos.Prec))
    (hm : (m old).U = fun k => Aeos.ringState (Fin.ofNat 3 k.1.val)) :
    ∃ m', (∀ k, Aeos.Admissible Aeos.ringP ((m' old).U k)) ∧ ∃ ok,
      Run (hyperbolicModules (Aeos.solver Aeos.ringP Aeos.ringLp strict 1000 evc (fun _ _ => Aeos.ringLim 0 0)) ringMesh Hyp.demoPar
        1000 (fun _ u => u) (fun U => Hyp.Mpi.precompute ringMesh (Aeos.preCycles Aeos.ringEos.interface Aeos.ringP ringMesh) 2 U q)
        lo garbage fun _ _ _ _ _ _ => .crash) .erk_11 .none 1 1 ok m m' := by
  have hwf : ringMesh.WellFormed := C87_assembled_wellFormed ringFe_conforming _ _ _ _ (fun _ _ h h' => lt_asymm h h')
    (fun _ _ h => h.elim)
  have hC : ringMesh.Closed := C87_assembled_closed ringFe_consistent ringFe_conforming ringFe_periodic.noBoundary _ _ _ _
    ringFe_periodic.integrals ringFe_periodic.weights ringFe_periodic.covered
  have hact : ∀ k, ringMesh.nbrs k ≠ [] := ringFe_stencil
  set D : Hyp.Description (Dof ringFe) (Dof ringFe → Eos.Prec) (Euler.State 1) (Fin 3 → Vec 1) Aeos.Bounds 1 :=
    Aeos.solver Aeos.ringP Aeos.ringLp strict 1000 evc (fun _ _ => Aeos.ringLim 0 0) with hD
  set Mo := hyperbolicModules D ringMesh Hyp.demoPar 1000 (fun _ u => u)
    (fun U => Hyp.Mpi.precompute ringMesh (Aeos.preCycles Aeos.ringEos.interface Aeos.ringP ringMesh) 2 U q) lo garbage
    (fun _ _ _ _ _ _ => .crash) with hMo
  obtain ⟨U, t, h⟩ := Hyp.C18_warn_returns D ringMesh ⟨1 / 2, Hyp.demoPar.tiny, Hyp.demoPar.iterations⟩ ⟨0, 0⟩
    { lo 0 with newU := (m (temp 0)).U } ⟨(m old).U, Mo.pre (m old).U⟩ [] 0 10
    (Hyp.C11_step_tau D ringMesh ⟨1 / 2, Hyp.demoPar.tiny, Hyp.demoPar.iterations⟩ .warn ⟨0, 0⟩
      { lo 0 with newU := (m (temp 0)).U } ⟨(m old).U, Mo.pre (m old).U⟩ [] 0 10
      (by norm_num [Hyp.demoPar]) (by norm_num) hC.lumped (by norm_num)).1
  have hup : Mo.hyp ⟨1 / 2, .warn, .warn⟩ 0 ⟨Mo.bc 0 (m old).U, Mo.pre (Mo.bc 0 (m old).U)⟩ [] (m (temp 0)).U 0
      (some (10 - 0)) = .ok U t := by
    simp only [hMo, hyperbolicModules] at h ⊢
    simp only [sub_zero, Option.getD_some, List.map_nil, h]
  have hres : Aeos.Resolved Aeos.ringEos.interface Aeos.ringP strict D ringMesh Hyp.demoPar q lo (m old).U := by
    intro n i j hj
    refine ⟨Or.inl ?_, fun _ hp => absurd rfl hp⟩
    have hv : vnorm (ringMesh.c i j) = 1 / 2 := ringFe_c i j (mem_stencil.1 hj).1
    rw [hm]
    set u : Dof ringFe → Euler.State 1 := fun k => Aeos.ringState (Fin.ofNat 3 k.1.val) with hu
    have hpre := Aeos.precompute_precomputed Aeos.ringEos.interface Aeos.ringP hwf u q
    have hsp : ∀ (a b : Dof ringFe) (n : Vec 1), 1 / 2 ≤ Aeos.riemann Aeos.ringP strict (u a)
        (Hyp.Mpi.precompute ringMesh (Aeos.preCycles Aeos.ringEos.interface Aeos.ringP ringMesh) 2 u q a).p (u b)
        (Hyp.Mpi.precompute ringMesh (Aeos.preCycles Aeos.ringEos.interface Aeos.ringP ringMesh) 2 u q b).p n := by
      intro a b n
      rw [hpre.p a (hact a), hpre.p b (hact b)]
      exact Aeos.ringState_real_speed strict n _ _
    have := Hyp.dOff_ge D ringMesh hwf (lo n).dij
      ⟨u, Hyp.Mpi.precompute ringMesh (Aeos.preCycles Aeos.ringEos.interface Aeos.ringP ringMesh) 2 u q⟩
      (fun i j hj _ => hC.skew i j hj) hj (kappa := 1 / 2) (hsp i j _) (fun _ => hsp j i _)
    rw [hv] at this
    refine le_trans ?_ this
    norm_num [Hyp.demoPar]
  obtain ⟨m', hrun, -⟩ := Integrator.run_of_update (ok := fun ctx u => ctx.cfl ≤ 1 ∧
      Aeos.Resolved Aeos.ringEos.interface Aeos.ringP strict D ringMesh Hyp.demoPar q lo u) 1 1 hup
    (fun u hu => ⟨by norm_num, by rcases hu with hu | hu <;> (rw [hu]; exact hres)⟩)
  refine ⟨m', fun k => ?_, _, hrun⟩
  refine C92_assembled_aeos_partial ringFe_bounded rfl ⟨1, 1, false, 0⟩ (fun i j => j.1 < i.1) (fun _ _ => False) (fun _ => False)
    (fun _ _ h h' => lt_asymm h h') (fun _ _ h => h.elim) (fun _ _ K f h => absurd (ringFe_periodic.noBoundary K f) (by simp [h]))
    Aeos.ringEos.interface Aeos.ringP Aeos.ringLp strict 1000 evc (fun _ _ => Aeos.ringLim 0 0) Hyp.demoPar Aeos.ringEos_positive rfl
    (by norm_num [Aeos.ringP]) (Or.inr rfl) (fun i j b U P => ⟨1, fun _ => b, fun _ => U, fun _ => P, 0, rfl, rfl, rfl, rfl⟩)
    (by norm_num [Hyp.demoPar]) (le_refl (0 : ℝ)) (by norm_num) (by norm_num [Hyp.demoPar])
    (fun i => by simp [Euler.relaxationRadius, Aeos.ringLp]) (fun _ u => u)
    (fun _ _ h => h) q lo garbage _ 1000 .none 1 1 m m' hrun (fun i => ?_) k
  rw [hm]
  have hg := Aeos.ringState_gas (Fin.ofNat 3 i.1.val)
  exact ⟨hg.rho_pos, hg.cov_pos, hg.shift_pos⟩

end

end Assembly

end Ryujin
