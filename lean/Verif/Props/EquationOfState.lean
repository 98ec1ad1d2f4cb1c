import Verif.Model.EquationOfState
import Verif.Proofs.EulerSystem
import Mathlib.Analysis.SpecialFunctions.ExpDeriv
import Mathlib.Analysis.Calculus.Deriv.Inv
import Mathlib.Tactic.LinearCombination

/-!
# C35, C49, C51, C62, C63: equations of state
-/

namespace Ryujin
namespace Eos

open Euler (State density momentum totalEnergy internalEnergy mkState)

variable {dim : ℕ}

/-! ### Specification -/

/-- `pressure` and `specific_internal_energy` are inverse to each other at density `rho`. -/
def InverseAt (eos : Interface) (rho : ℝ) : Prop :=
  (∀ p, eos.pressure rho (eos.specificInternalEnergy rho p) = p) ∧
    ∀ e, eos.specificInternalEnergy rho (eos.pressure rho e) = e

/-- Thermodynamics: `c` is the speed of sound of the caloric equation of state `p(ρ, e)`, i.e. it is nonnegative
and `c² = ∂p/∂ρ + (p/ρ²) ∂p/∂e`. -/
def IsSoundSpeed (p : ℝ → ℝ → ℝ) (rho e c : ℝ) : Prop :=
  0 ≤ c ∧ ∃ p_rho p_e, HasDerivAt (fun r => p r e) p_rho rho ∧ HasDerivAt (fun x => p rho x) p_e e ∧
    c ^ 2 = p_rho + p rho e / rho ^ 2 * p_e

/-! ### C51: pressure and specific internal energy are inverse functions -/

/-- **C51** polytropic gas. -/
theorem C51_polytropic (s : PolytropicGas) (rho : ℝ) (hrho : 0 < rho) (hg : s.gamma ≠ 1) :
    InverseAt s.interface rho := by
  have h1 : s.gamma - 1 ≠ 0 := sub_ne_zero.2 hg
  constructor <;> intro x <;>
    simp only [PolytropicGas.interface, PolytropicGas.pressure, PolytropicGas.specificInternalEnergy] <;>
    field_simp

/-- **C51** Noble-Abel stiffened gas. -/
theorem C51_nasg (s : NobleAbelStiffenedGas) (rho : ℝ) (hrho : 0 < rho) (hcov : 0 < 1 - s.b * rho)
    (hg : s.gamma ≠ 1) : InverseAt s.interface rho := by
  have h1 : s.gamma - 1 ≠ 0 := sub_ne_zero.2 hg
  have h2 := hcov.ne'
  have h3 : 1 - rho * s.b ≠ 0 := by rwa [mul_comm]
  constructor <;> intro x <;>
    simp only [NobleAbelStiffenedGas.interface, NobleAbelStiffenedGas.pressure,
      NobleAbelStiffenedGas.specificInternalEnergy] <;>
    field_simp <;> ring

/-- **C51** van der Waals gas. -/
theorem C51_vdw (s : VanDerWaals) (rho : ℝ) (hrho : 0 < rho) (hcov : 0 < 1 - s.b * rho)
    (hg : s.gamma ≠ 1) : InverseAt s.interface rho := by
  have h1 : s.gamma - 1 ≠ 0 := sub_ne_zero.2 hg
  have h2 := hcov.ne'
  have h3 : 1 - rho * s.b ≠ 0 := by rwa [mul_comm]
  constructor <;> intro x <;>
    simp only [VanDerWaals.interface, VanDerWaals.pressure, VanDerWaals.specificInternalEnergy] <;>
    field_simp <;> ring

/-- What the Jones-Wilkins-Lee functions do for every energy offset `q_0`. -/
theorem jwl_inverse (s : JonesWilkinsLee) (rho : ℝ) (hrho : 0 < rho) (hw : s.omega ≠ 0) :
    (∀ p, s.pressure rho (s.specificInternalEnergy rho p) = p + s.omega * rho * s.q_0) ∧
      ∀ e, s.specificInternalEnergy rho (s.pressure rho e) = e + s.q_0 := by
  constructor <;> intro x <;>
    simp only [JonesWilkinsLee.pressure, JonesWilkinsLee.specificInternalEnergy] <;>
    field_simp <;> ring

/-- **C51** (partial: `q_0 = 0`, the default) Jones-Wilkins-Lee. -/
theorem C51_jwl_partial (s : JonesWilkinsLee) (rho : ℝ) (hrho : 0 < rho) (hw : s.omega ≠ 0) (hq : s.q_0 = 0) :
    InverseAt s.interface rho := by
  have h := jwl_inverse s rho hrho hw
  rw [hq] at h
  exact ⟨fun p => (h.1 p).trans (by ring), fun e => (h.2 e).trans (by ring)⟩

/-- **C51 is false** for Jones-Wilkins-Lee with an energy offset: `specific_internal_energy` forgets to subtract
`q_0`, at every density. -/
theorem C51_jwl_violation (s : JonesWilkinsLee) (rho : ℝ) (hrho : 0 < rho) (hw : s.omega ≠ 0) (hq : s.q_0 ≠ 0) :
    (∀ p, s.interface.pressure rho (s.interface.specificInternalEnergy rho p) ≠ p) ∧
      ∀ e, s.interface.specificInternalEnergy rho (s.interface.pressure rho e) ≠ e := by
  have h := jwl_inverse s rho hrho hw
  constructor
  · intro p hp
    have h1 := h.1 p
    rw [show s.pressure rho (s.specificInternalEnergy rho p) = p from hp] at h1
    have : s.omega * rho * s.q_0 ≠ 0 := by positivity
    exact this (by linarith)
  · intro e he
    have h1 := h.2 e
    rw [show s.specificInternalEnergy rho (s.pressure rho e) = e from he] at h1
    exact hq (by linarith)

theorem expandState_self (U : State dim) : (Euler.expandState U : State dim) = U := by
  apply Euler.state_ext
  · simp [Euler.expandState, Euler.density_mkState]
  · funext i
    rw [Euler.expandState, Euler.momentum_mkState, dif_pos i.2]
  · simp [Euler.expandState, Euler.totalEnergy_mkState]

theorem internalEnergy_fromPrimitive (prim : State dim) (h : density prim ≠ 0) :
    internalEnergy (Aeos.fromPrimitiveState prim) = density prim * totalEnergy prim := by
  have hn : normSq (fun i => momentum prim i * density prim) = density prim ^ 2 * dot (momentum prim) (momentum prim) := by
    simp only [normSq, dot, Finset.mul_sum]
    exact Finset.sum_congr rfl fun i _ => by ring
  unfold Aeos.fromPrimitiveState internalEnergy
  simp only [Euler.density_mkState, Euler.momentum_mkState, Euler.totalEnergy_mkState, hn]
  field_simp
  ring

/-- **C51** The pressure of an initial state given in primitive variables `[rho, u, p]` is the prescribed `p`,
for every equation of state whose two functions are inverse to each other. -/
theorem C51_initial_pressure (eos : Interface) (prim : State dim) (h : 0 < density prim)
    (hinv : InverseAt eos (density prim)) :
    statePressure eos (Aeos.fromInitialState (dim := dim) eos.specificInternalEnergy prim) = totalEnergy prim := by
  have hexp : (Euler.expandState prim : State dim) = prim := expandState_self prim
  unfold statePressure Aeos.fromInitialState
  simp only [hexp]
  have hd : density (Aeos.fromPrimitiveState (mkState (density prim) (momentum prim)
      (eos.specificInternalEnergy (density prim) (totalEnergy prim)))) = density prim := by
    simp [Aeos.fromPrimitiveState, Euler.density_mkState]
  rw [hd, internalEnergy_fromPrimitive _ (by rw [Euler.density_mkState]; exact h.ne'), Euler.density_mkState,
    Euler.totalEnergy_mkState, mul_div_cancel_left₀ _ h.ne']
  exact hinv.1 _

/-! ### C35 for the arbitrary equation of state solver -/

/-- **C35** Conversion between conserved and primitive variables `[rho, u, e]` is lossless in both directions. -/
theorem C35_aeos_roundtrip (U : State dim) (h : 0 < density U) :
    Aeos.toPrimitiveState (Aeos.fromPrimitiveState U) = U ∧
      Aeos.fromPrimitiveState (Aeos.toPrimitiveState U) = U := by
  have h0 := h.ne'
  have hd : density (Aeos.fromPrimitiveState U) = density U := by
    simp [Aeos.fromPrimitiveState, Euler.density_mkState]
  constructor
  · apply Euler.state_ext
    · unfold Aeos.toPrimitiveState
      rw [Euler.density_mkState, hd]
    · unfold Aeos.toPrimitiveState
      rw [Euler.momentum_mkState, hd]
      funext i
      have : momentum (Aeos.fromPrimitiveState U) i = momentum U i * density U := by
        simp [Aeos.fromPrimitiveState, Euler.momentum_mkState]
      rw [this]
      field_simp
    · unfold Aeos.toPrimitiveState
      rw [Euler.totalEnergy_mkState, hd, internalEnergy_fromPrimitive U h0]
      field_simp
  · apply Euler.state_ext
    · simp [Aeos.fromPrimitiveState, Aeos.toPrimitiveState, Euler.density_mkState]
    · funext i
      simp only [Aeos.fromPrimitiveState, Aeos.toPrimitiveState, Euler.momentum_mkState, Euler.density_mkState]
      field_simp
    · have hn : dot (fun i => momentum U i * (1 / density U)) (fun i => momentum U i * (1 / density U)) =
          normSq (momentum U) * (1 / density U) ^ 2 := by
        simp only [normSq, dot, Finset.sum_mul]
        exact Finset.sum_congr rfl fun i _ => by ring
      simp only [Aeos.fromPrimitiveState, Aeos.toPrimitiveState, Euler.momentum_mkState, Euler.density_mkState,
        Euler.totalEnergy_mkState, hn]
      unfold internalEnergy
      field_simp
      ring

/-- **C35** The initial state interface is lossless as well: converting primitive initial data `[rho, u, p]` to
conserved variables keeps density and velocity, and the pressure is recovered (`C51_initial_pressure`). -/
theorem C35_aeos_initial_state (eos : Interface) (prim : State dim) (h : 0 < density prim) :
    density (Aeos.fromInitialState (dim := dim) eos.specificInternalEnergy prim) = density prim ∧
      (1 / density prim) • momentum (Aeos.fromInitialState (dim := dim) eos.specificInternalEnergy prim) =
        momentum prim := by
  have hexp : (Euler.expandState prim : State dim) = prim := expandState_self prim
  unfold Aeos.fromInitialState
  simp only [hexp, Aeos.fromPrimitiveState, Euler.density_mkState, Euler.momentum_mkState, true_and]
  funext i
  simp only [Pi.smul_apply, smul_eq_mul]
  field_simp

/-! ### C49: the surrogate gamma -/

theorem gamma_aux (gamma I rq X pinf : ℝ) (hX : X ≠ 0) (hD : I - rq - X * pinf ≠ 0) :
    1 + ((gamma - 1) * (I - rq) / X - gamma * pinf + pinf) * X / (I - rq - X * pinf) = gamma := by
  have : ((gamma - 1) * (I - rq) / X - gamma * pinf + pinf) * X = (gamma - 1) * (I - rq - X * pinf) := by
    field_simp
    ring
  rw [this, mul_div_cancel_right₀ _ hD]
  ring

/-- **C49** The surrogate pressure evaluated with the surrogate gamma of `(U, p)` is `p`. -/
theorem C49_surrogate_pressure (par : Aeos.Params) (U : State dim) (p : ℝ) (hcov : 0 < 1 - par.b * density U)
    (hshift : 0 < internalEnergy U - density U * par.q - par.pinf * (1 - par.b * density U)) :
    Aeos.surrogatePressure par U (Aeos.surrogateGamma par U p) = p := by
  have h1 := hcov.ne'
  have h2 : internalEnergy U - density U * par.q - (1 - par.b * density U) * par.pinf ≠ 0 := by
    have := hshift.ne'
    rwa [mul_comm par.pinf] at this
  unfold Aeos.surrogatePressure Aeos.surrogateGamma Aeos.covolume
  field_simp
  ring

/-- **C49** and conversely the surrogate gamma of the surrogate pressure for `gamma` is `gamma`. -/
theorem C49_surrogate_gamma (par : Aeos.Params) (U : State dim) (gamma : ℝ) (hcov : 0 < 1 - par.b * density U)
    (hshift : 0 < internalEnergy U - density U * par.q - par.pinf * (1 - par.b * density U)) :
    Aeos.surrogateGamma par U (Aeos.surrogatePressure par U gamma) = gamma := by
  have h1 := hcov.ne'
  have h2 : internalEnergy U - density U * par.q - (1 - par.b * density U) * par.pinf ≠ 0 := by
    have := hshift.ne'
    rwa [mul_comm par.pinf] at this
  exact gamma_aux gamma _ _ _ _ h1 h2

/-- **C49** The surrogate gamma exceeds one exactly when the pressure exceeds `-p_inf`. -/
theorem C49_gamma_gt_one (par : Aeos.Params) (U : State dim) (p : ℝ) (hcov : 0 < 1 - par.b * density U)
    (hshift : 0 < internalEnergy U - density U * par.q - par.pinf * (1 - par.b * density U)) :
    1 < Aeos.surrogateGamma par U p ↔ -par.pinf < p := by
  have h2 : 0 < internalEnergy U - density U * par.q - (1 - par.b * density U) * par.pinf := by
    rwa [mul_comm par.pinf] at hshift
  unfold Aeos.surrogateGamma Aeos.covolume
  dsimp only
  rw [lt_add_iff_pos_right, div_pos_iff_of_pos_right h2, mul_pos_iff_of_pos_right hcov]
  constructor <;> intro h <;> linarith

/-- **C49** For the Noble-Abel stiffened gas the interpolation is exact: with the constants set when the
parameter file is read, the surrogate gamma of every admissible state is the configured `gamma`. -/
theorem C49_nasg_exact (s0 : NobleAbelStiffenedGas) (gamma R b q pinf : ℝ) (par : Aeos.Params) (U : State dim)
    (hrho : 0 < density U) (hcov : 0 < 1 - b * density U)
    (hshift : 0 < internalEnergy U - density U * q - pinf * (1 - b * density U)) :
    let eos := (s0.parse gamma R b q pinf).interface
    Aeos.surrogateGamma (systemParams eos par) U (statePressure eos U) = gamma := by
  intro eos
  have h1 := hcov.ne'
  have h2 : internalEnergy U - density U * q - (1 - b * density U) * pinf ≠ 0 := by
    have := hshift.ne'
    rwa [mul_comm pinf] at this
  simp only [eos, Aeos.surrogateGamma, Aeos.covolume, systemParams, statePressure, NobleAbelStiffenedGas.interface,
    NobleAbelStiffenedGas.parse, NobleAbelStiffenedGas.pressure]
  rw [show (gamma - 1) * density U * (internalEnergy U / density U - q) =
    (gamma - 1) * (internalEnergy U - density U * q) by field_simp]
  exact gamma_aux gamma _ _ _ _ h1 h2

/-- **C49** The same for the polytropic gas. -/
theorem C49_polytropic_exact (s : PolytropicGas) (par : Aeos.Params) (U : State dim)
    (hrho : 0 < density U) (he : 0 < internalEnergy U) :
    Aeos.surrogateGamma (systemParams s.interface par) U (statePressure s.interface U) = s.gamma := by
  simp only [Aeos.surrogateGamma, Aeos.covolume, systemParams, statePressure, PolytropicGas.interface,
    PolytropicGas.pressure]
  have : internalEnergy U ≠ 0 := he.ne'
  rw [show ((s.gamma - 1) * density U * (internalEnergy U / density U) + 0) * (1 - 0 * density U) =
    (s.gamma - 1) * internalEnergy U by field_simp; ring,
    show internalEnergy U - density U * 0 - (1 - 0 * density U) * 0 = internalEnergy U by ring,
    mul_div_cancel_right₀ _ this]
  ring

/-- **C49** For the van der Waals gas with `a ≥ 0`, `b > 0` the interpolation constants chosen when the parameter
file is read make the surrogate gamma of every admissible state larger than one although the pressure may be
negative. -/
theorem C49_vdw_gamma (s0 : VanDerWaals) (gamma a b R : ℝ) (par : Aeos.Params) (U : State dim)
    (ha : 0 < a) (hb : 0 < b) (hg : 1 < gamma) (hrho : 0 < density U) (hcov : 0 < 1 - b * density U)
    (hshift : 0 < internalEnergy U - a / (b * b) * (1 - b * density U)) :
    let eos := (s0.parse gamma a b R).interface
    1 < Aeos.surrogateGamma (systemParams eos par) U (statePressure eos U) := by
  intro eos
  have hpar : systemParams eos par = { par with b := b, pinf := a / (b * b), q := 0 } := by
    simp [eos, systemParams, VanDerWaals.interface, VanDerWaals.parse, if_pos hb]
  rw [hpar, C49_gamma_gt_one _ _ _ hcov (by simpa using hshift)]
  have hE : 0 < internalEnergy U := by
    have : 0 < a / (b * b) * (1 - b * density U) := by positivity
    linarith
  have hp : statePressure eos U =
      (gamma - 1) * (density U * (internalEnergy U / density U) + a * density U * density U) / (1 - b * density U) -
        a * density U * density U := by
    simp [eos, statePressure, VanDerWaals.interface, VanDerWaals.parse, VanDerWaals.pressure]
  rw [hp]
  have h1 : 0 < (gamma - 1) * (density U * (internalEnergy U / density U) + a * density U * density U) /
      (1 - b * density U) := by
    have : 0 < gamma - 1 := by linarith
    positivity
  have h2 : a * density U * density U < a / (b * b) := by
    rw [lt_div_iff₀ (by positivity)]
    have hbr : b * density U < 1 := by linarith
    have hbr0 : 0 < b * density U := by positivity
    have : (b * density U) * (b * density U) < 1 := by nlinarith
    nlinarith
  simp only
  linarith

/-! ### C62: the speed of sound -/

/-- **C62** polytropic gas. -/
theorem C62_polytropic (s : PolytropicGas) (rho e : ℝ) (hrho : 0 < rho) (he : 0 ≤ e) (hg : 1 ≤ s.gamma) :
    IsSoundSpeed s.interface.pressure rho e (s.interface.speedOfSound rho e) := by
  refine ⟨Real.sqrt_nonneg _, (s.gamma - 1) * e, (s.gamma - 1) * rho, ?_, ?_, ?_⟩
  · have := ((hasDerivAt_id rho).const_mul (s.gamma - 1)).mul_const e
    simpa [PolytropicGas.interface, PolytropicGas.pressure] using this
  · have := (hasDerivAt_id e).const_mul ((s.gamma - 1) * rho)
    simpa [PolytropicGas.interface, PolytropicGas.pressure] using this
  · have h0 : 0 ≤ s.gamma * (s.gamma - 1) * e := by
      have : 0 ≤ s.gamma - 1 := by linarith
      have : 0 ≤ s.gamma := by linarith
      positivity
    simp only [PolytropicGas.interface, PolytropicGas.pressure, PolytropicGas.speedOfSound]
    rw [Real.sq_sqrt h0]
    field_simp
    ring

/-- **C62** Noble-Abel stiffened gas, on the admissible set. -/
theorem C62_nasg (s : NobleAbelStiffenedGas) (rho e : ℝ) (hrho : 0 < rho) (hcov : 0 < 1 - s.b * rho)
    (hg : 1 ≤ s.gamma) (hshift : 0 ≤ rho * (e - s.q) - s.pinf * (1 - s.b * rho)) :
    IsSoundSpeed s.interface.pressure rho e (s.interface.speedOfSound rho e) := by
  have hc := hcov.ne'
  have hc' : 1 - rho * s.b ≠ 0 := by rwa [mul_comm]
  refine ⟨div_nonneg (Real.sqrt_nonneg _) hcov.le,
    (s.gamma - 1) * (e - s.q) / (1 - s.b * rho) ^ 2, (s.gamma - 1) * rho / (1 - s.b * rho), ?_, ?_, ?_⟩
  · have h1 := ((hasDerivAt_id rho).const_mul (s.gamma - 1)).mul_const (e - s.q)
    have h2 := ((hasDerivAt_id rho).const_mul s.b).const_sub 1
    have := (h1.div h2 hc).sub_const (s.gamma * s.pinf)
    refine (this.congr_deriv ?_)
    simp only [id]
    field_simp
    ring
  · have := ((((hasDerivAt_id e).sub_const s.q).const_mul ((s.gamma - 1) * rho)).div_const
      (1 - s.b * rho)).sub_const (s.gamma * s.pinf)
    refine (this.congr_deriv ?_)
    ring
  · have h0 : 0 ≤ (rho * (e - s.q) - s.pinf * (1 - s.b * rho)) / rho * (s.gamma * (s.gamma - 1)) := by
      have : 0 ≤ s.gamma - 1 := by linarith
      have : 0 ≤ s.gamma := by linarith
      positivity
    simp only [NobleAbelStiffenedGas.interface, NobleAbelStiffenedGas.pressure, NobleAbelStiffenedGas.speedOfSound]
    rw [div_pow, Real.sq_sqrt h0]
    field_simp
    ring

/-- **C62** van der Waals gas, wherever the equation of state is hyperbolic. -/
theorem C62_vdw (s : VanDerWaals) (rho e : ℝ) (hrho : 0 < rho) (hcov : 0 < 1 - s.b * rho)
    (hyp : 2 * s.a * rho * (1 - s.b * rho) ^ 2 ≤ s.gamma * (s.gamma - 1) * (e + s.a * rho)) :
    IsSoundSpeed s.interface.pressure rho e (s.interface.speedOfSound rho e) := by
  have hc := hcov.ne'
  have hc' : 1 - rho * s.b ≠ 0 := by rwa [mul_comm]
  refine ⟨Real.sqrt_nonneg _,
    (s.gamma - 1) * ((e + 2 * s.a * rho) * (1 - s.b * rho) + s.b * (rho * e + s.a * rho * rho)) /
      (1 - s.b * rho) ^ 2 - 2 * s.a * rho, (s.gamma - 1) * rho / (1 - s.b * rho), ?_, ?_, ?_⟩
  · have h0 := ((hasDerivAt_id rho).const_mul s.a).mul (hasDerivAt_id rho)
    have h1 := ((((hasDerivAt_id rho).mul_const e).add h0).const_mul (s.gamma - 1))
    have h2 := ((hasDerivAt_id rho).const_mul s.b).const_sub 1
    have := (h1.div h2 hc).sub h0
    refine (this.congr_deriv ?_)
    simp only [id, Pi.add_apply, Pi.mul_apply]
    field_simp
    ring
  · have := (((((hasDerivAt_id e).const_mul rho).add_const (s.a * rho * rho)).const_mul (s.gamma - 1)).div_const
      (1 - s.b * rho)).sub_const (s.a * rho * rho)
    refine (this.congr_deriv ?_)
    ring
  · have h0 : 0 ≤ s.gamma * (s.gamma - 1) * (e + s.a * rho) / ((1 - s.b * rho) * (1 - s.b * rho)) -
        2 * s.a * rho := by
      rw [sub_nonneg, le_div_iff₀ (by positivity)]
      nlinarith [hyp]
    simp only [VanDerWaals.interface, VanDerWaals.pressure, VanDerWaals.speedOfSound]
    rw [Real.sq_sqrt h0]
    field_simp
    ring

/-- One exponential term of the Jones-Wilkins-Lee pressure. -/
theorem jwl_term (A w R r0 rho : ℝ) (hrho : 0 < rho) (hR : R ≠ 0) (hr0 : r0 ≠ 0) :
    HasDerivAt (fun r => A * (1 - w / R * (r / r0)) * Real.exp (-R * 1 / (r / r0)))
      (A * (-(w / (R * r0)) + (1 - w * rho / (R * r0)) * (R * r0 / rho ^ 2)) * Real.exp (-R * r0 / rho)) rho := by
  have hi : HasDerivAt (fun r : ℝ => r / r0) (1 / r0) rho := (hasDerivAt_id rho).div_const r0
  have h1 := ((hi.const_mul (w / R)).const_sub 1).const_mul A
  have h2 : HasDerivAt (fun r : ℝ => -R * 1 / (r / r0)) (-R * (-(1 / r0) / (rho / r0) ^ 2)) rho := by
    have := (hi.inv (div_ne_zero hrho.ne' hr0)).const_mul (-R * 1)
    refine (this.congr_deriv (by ring))
  have := h1.mul h2.exp
  refine (this.congr_deriv ?_)
  have he : -R * 1 / (rho / r0) = -R * r0 / rho := by field_simp
  rw [he]
  field_simp

/-- The true square of the speed of sound of the Jones-Wilkins-Lee pressure. -/
noncomputable def jwlTrueSquare (s : JonesWilkinsLee) (rho e : ℝ) : ℝ :=
  let t1 := s.omega * rho / (s.R1 * s.rho_0)
  let t2 := s.omega * rho / (s.R2 * s.rho_0)
  s.capA / rho * (s.omega * (1 - t1) * (1 + 1 / t1) - t1) * Real.exp (-s.R1 * s.rho_0 / rho) +
    s.capB / rho * (s.omega * (1 - t2) * (1 + 1 / t2) - t2) * Real.exp (-s.R2 * s.rho_0 / rho) +
    s.omega * (s.omega + 1) * (e + s.q_0)

theorem jwl_sound_iff (s : JonesWilkinsLee) (rho e c : ℝ) (hrho : 0 < rho) (hR1 : s.R1 ≠ 0) (hR2 : s.R2 ≠ 0)
    (hr0 : s.rho_0 ≠ 0) (hw : s.omega ≠ 0) :
    IsSoundSpeed s.interface.pressure rho e c ↔ 0 ≤ c ∧ c ^ 2 = jwlTrueSquare s rho e := by
  have hd1 := ((jwl_term s.capA s.omega s.R1 s.rho_0 rho hrho hR1 hr0).add
    (jwl_term s.capB s.omega s.R2 s.rho_0 rho hrho hR2 hr0)).add
      (((hasDerivAt_id rho).const_mul s.omega).mul_const (e + s.q_0))
  have hd2 : HasDerivAt (fun x => s.interface.pressure rho x) (s.omega * rho) e := by
    have := (((hasDerivAt_id e).add_const s.q_0).const_mul (s.omega * rho)).const_add
      (s.capA * (1 - s.omega / s.R1 * (rho / s.rho_0)) * Real.exp (-s.R1 * 1 / (rho / s.rho_0)) +
        s.capB * (1 - s.omega / s.R2 * (rho / s.rho_0)) * Real.exp (-s.R2 * 1 / (rho / s.rho_0)))
    exact this.congr_deriv (by ring)
  have heq : ∀ pr pe, HasDerivAt (fun r => s.interface.pressure r e) pr rho →
      HasDerivAt (fun x => s.interface.pressure rho x) pe e →
      pr + s.interface.pressure rho e / rho ^ 2 * pe = jwlTrueSquare s rho e := by
    intro pr pe h1 h2
    rw [h1.unique hd1, h2.unique hd2]
    have e1 : -s.R1 * 1 / (rho / s.rho_0) = -s.R1 * s.rho_0 / rho := by field_simp
    have e2 : -s.R2 * 1 / (rho / s.rho_0) = -s.R2 * s.rho_0 / rho := by field_simp
    simp only [JonesWilkinsLee.interface, JonesWilkinsLee.pressure, jwlTrueSquare, e1, e2]
    field_simp
    ring
  constructor
  · rintro ⟨hc, pr, pe, h1, h2, h3⟩
    exact ⟨hc, h3.trans (heq pr pe h1 h2)⟩
  · rintro ⟨hc, h⟩
    exact ⟨hc, _, _, hd1, hd2, h.trans (heq _ _ hd1 hd2).symm⟩

/-- **C62** (partial: `omega = 1` and `q_0 = 0`) Jones-Wilkins-Lee. -/
theorem C62_jwl_partial (s : JonesWilkinsLee) (rho e : ℝ) (hrho : 0 < rho) (hR1 : s.R1 ≠ 0) (hR2 : s.R2 ≠ 0)
    (hr0 : s.rho_0 ≠ 0) (hw : s.omega = 1) (hq : s.q_0 = 0) (hrad : 0 ≤ s.speedOfSoundRadicand rho e) :
    IsSoundSpeed s.interface.pressure rho e (s.interface.speedOfSound rho e) := by
  rw [jwl_sound_iff s rho e _ hrho hR1 hR2 hr0 (by rw [hw]; exact one_ne_zero)]
  refine ⟨Real.sqrt_nonneg _, ?_⟩
  simp only [JonesWilkinsLee.interface, JonesWilkinsLee.speedOfSound]
  rw [Real.sq_sqrt hrad]
  have e1 : ∀ R : ℝ, R ≠ 0 → -1 / (1 * rho / (R * s.rho_0)) / 1 = -R * s.rho_0 / rho := by
    intro R hR
    field_simp
  simp only [JonesWilkinsLee.speedOfSoundRadicand, jwlTrueSquare, hw, hq, e1 _ hR1, e1 _ hR2, add_zero]

/-- **C62 is false** for Jones-Wilkins-Lee with its default parameters: at the reference density the value
returned is not the speed of sound, for every energy (the exponentials are evaluated at `R rho_0/(omega² rho)`
instead of `R rho_0/rho`). -/
theorem C62_jwl_default_violation (e : ℝ) (hrad : 0 ≤ JonesWilkinsLee.construct.speedOfSoundRadicand 1895 e) :
    ¬ IsSoundSpeed JonesWilkinsLee.construct.interface.pressure 1895 e
      (JonesWilkinsLee.construct.interface.speedOfSound 1895 e) := by
  rw [jwl_sound_iff _ _ _ _ (by norm_num) (by norm_num [JonesWilkinsLee.construct])
    (by norm_num [JonesWilkinsLee.construct]) (by norm_num [JonesWilkinsLee.construct])
    (by norm_num [JonesWilkinsLee.construct])]
  rintro ⟨-, h⟩
  simp only [JonesWilkinsLee.interface, JonesWilkinsLee.speedOfSound] at h
  rw [Real.sq_sqrt hrad] at h
  simp only [JonesWilkinsLee.speedOfSoundRadicand, jwlTrueSquare, JonesWilkinsLee.construct, add_zero] at h
  have x1 : Real.exp (-1 / (0.8938 * 1895 / (11.3 * 1895)) / 0.8938) < Real.exp (-11.3 * 1895 / 1895) :=
    Real.exp_lt_exp.2 (by norm_num)
  have x2 : Real.exp (-1 / (0.8938 * 1895 / (1.13 * 1895)) / 0.8938) < Real.exp (-1.13 * 1895 / 1895) :=
    Real.exp_lt_exp.2 (by norm_num)
  set E1 := Real.exp (-1 / (0.8938 * 1895 / (11.3 * 1895)) / 0.8938)
  set E2 := Real.exp (-1 / (0.8938 * 1895 / (1.13 * 1895)) / 0.8938)
  set F1 := Real.exp (-11.3 * 1895 / 1895)
  set F2 := Real.exp (-1.13 * 1895 / 1895)
  norm_num at h
  linarith

/-- **C62 is false** for Jones-Wilkins-Lee with an energy offset `q_0`, even where the exponential terms vanish. -/
theorem C62_jwl_offset_violation (s : JonesWilkinsLee) (rho e : ℝ) (hrho : 0 < rho) (hR1 : s.R1 ≠ 0)
    (hR2 : s.R2 ≠ 0) (hr0 : s.rho_0 ≠ 0) (hw : 0 < s.omega) (hA : s.capA = 0) (hB : s.capB = 0)
    (hq : s.q_0 ≠ 0) (he : 0 ≤ e) :
    ¬ IsSoundSpeed s.interface.pressure rho e (s.interface.speedOfSound rho e) := by
  rw [jwl_sound_iff s rho e _ hrho hR1 hR2 hr0 hw.ne']
  rintro ⟨-, h⟩
  have hrad : s.speedOfSoundRadicand rho e = s.omega * (s.omega + 1) * e := by
    simp [JonesWilkinsLee.speedOfSoundRadicand, hA, hB]
  have htrue : jwlTrueSquare s rho e = s.omega * (s.omega + 1) * (e + s.q_0) := by
    simp [jwlTrueSquare, hA, hB]
  simp only [JonesWilkinsLee.interface, JonesWilkinsLee.speedOfSound] at h
  rw [Real.sq_sqrt (by rw [hrad]; positivity), hrad, htrue] at h
  have : s.omega * (s.omega + 1) * s.q_0 = 0 := by linarith
  have h2 : s.omega * (s.omega + 1) ≠ 0 := by positivity
  exact hq ((mul_eq_zero.1 this).resolve_left h2)

/-! ### C63: the temperature -/

/-- **C63** polytropic gas: the temperature satisfies the thermal equation of state `p = ρ R T` with the configured
constants if and only if `gamma` and `R` have the ratio of the default values the heat capacity was computed with. -/
theorem C63_polytropic_iff (gamma R rho e : ℝ) (hrho : 0 < rho) (he : 0 < e) :
    let s := PolytropicGas.construct.parse gamma R
    (s.interface.pressure rho e = rho * R * s.interface.temperature rho e ↔
      (gamma - 1) * 287.052874 = R * (7 / 5 - 1)) := by
  intro s
  simp only [s, PolytropicGas.interface, PolytropicGas.pressure, PolytropicGas.temperature, PolytropicGas.parse,
    PolytropicGas.construct]
  have hre : rho * e ≠ 0 := by positivity
  have h : rho * R * (e / (287.052874 / (7 / 5 - 1))) = rho * e * (R * (7 / 5 - 1) / 287.052874) := by ring
  rw [h, show (gamma - 1) * rho * e = rho * e * (gamma - 1) by ring, mul_right_inj' hre, eq_div_iff (by norm_num)]

/-- **C63** (partial: heat capacity `cv = R / (gamma - 1)`, as it is for the default constants) all three gases
satisfy their thermal equation of state. -/
theorem C63_thermal_partial (rho e : ℝ) (hrho : 0 < rho) :
    (∀ s : PolytropicGas, s.gamma ≠ 1 → s.R ≠ 0 → s.cv = s.R / (s.gamma - 1) →
      s.interface.pressure rho e = rho * s.R * s.interface.temperature rho e) ∧
    (∀ s : NobleAbelStiffenedGas, s.gamma ≠ 1 → s.R ≠ 0 → 0 < 1 - s.b * rho → s.cv = s.R / (s.gamma - 1) →
      (s.interface.pressure rho e + s.pinf) * (1 / rho - s.b) = s.R * s.interface.temperature rho e) ∧
    ∀ s : VanDerWaals, s.gamma ≠ 1 → s.R ≠ 0 → 0 < 1 - s.b * rho → s.cv = s.R / (s.gamma - 1) →
      (s.interface.pressure rho e + s.a * rho ^ 2) * (1 / rho - s.b) = s.R * s.interface.temperature rho e := by
  refine ⟨fun s hg hR hcv => ?_, fun s hg hR hcov hcv => ?_, fun s hg hR hcov hcv => ?_⟩
  · have : s.gamma - 1 ≠ 0 := sub_ne_zero.2 hg
    simp only [PolytropicGas.interface, PolytropicGas.pressure, PolytropicGas.temperature, hcv]
    field_simp
  · have : s.gamma - 1 ≠ 0 := sub_ne_zero.2 hg
    have := hcov.ne'
    have : 1 - rho * s.b ≠ 0 := by rwa [mul_comm]
    simp only [NobleAbelStiffenedGas.interface, NobleAbelStiffenedGas.pressure, NobleAbelStiffenedGas.temperature,
      hcv]
    field_simp
    ring
  · have : s.gamma - 1 ≠ 0 := sub_ne_zero.2 hg
    have := hcov.ne'
    have : 1 - rho * s.b ≠ 0 := by rwa [mul_comm]
    simp only [VanDerWaals.interface, VanDerWaals.pressure, VanDerWaals.temperature, hcv]
    field_simp
    ring

/-- **C63** Jones-Wilkins-Lee: pressure and temperature satisfy
`p = A exp(-R₁ρ₀/ρ) + B exp(-R₂ρ₀/ρ) + ω ρ c_v T` with the configured constants. -/
theorem C63_jwl (s : JonesWilkinsLee) (rho e : ℝ) (hrho : 0 < rho) (hR1 : s.R1 ≠ 0) (hR2 : s.R2 ≠ 0)
    (hr0 : s.rho_0 ≠ 0) (hcv : s.cv ≠ 0) :
    s.interface.pressure rho e = s.capA * Real.exp (-s.R1 * s.rho_0 / rho) +
      s.capB * Real.exp (-s.R2 * s.rho_0 / rho) + s.omega * rho * s.cv * s.interface.temperature rho e := by
  have e1 : -s.R1 * 1 / (rho / s.rho_0) = -s.R1 * s.rho_0 / rho := by field_simp
  have e2 : -s.R2 * 1 / (rho / s.rho_0) = -s.R2 * s.rho_0 / rho := by field_simp
  simp only [JonesWilkinsLee.interface, JonesWilkinsLee.pressure, JonesWilkinsLee.temperature, e1, e2]
  field_simp
  ring

/-- **C63 is false** as soon as a parameter file sets another ratio of specific heats: with `gamma = 5/3` (and the
default gas constant) the temperature of the polytropic gas is off at every state. -/
theorem C63_stale_heat_capacity_violation (rho e : ℝ) (hrho : 0 < rho) (he : 0 < e) :
    let s := PolytropicGas.construct.parse (5 / 3) 287.052874
    s.interface.pressure rho e ≠ rho * s.R * s.interface.temperature rho e := by
  intro s h
  have := (C63_polytropic_iff (5 / 3) 287.052874 rho e hrho he).1 h
  norm_num at this

/-! ### The array interface -/

/-- **C51** The array variants evaluate the scalar function entry by entry, on any number of entries. -/
theorem C51_array (f : ℝ → ℝ → ℝ) (xs ys : List ℝ) (h : xs.length = ys.length) :
    (arrayVariant f xs ys).length = xs.length ∧
      ∀ i (hx : i < xs.length) (hy : i < ys.length), (arrayVariant f xs ys)[i]? = some (f xs[i] ys[i]) := by
  constructor
  · simp [arrayVariant, h]
  · intro i hx hy
    simp [arrayVariant, hx, hy]

/-! ### Non-vacuity -/

/-- Admissible states for all the theorems above: a covolume gas, a van der Waals gas with negative pressure. -/
example : ∃ s : NobleAbelStiffenedGas, ∃ rho e : ℝ, 0 < rho ∧ 0 < 1 - s.b * rho ∧ 1 < s.gamma ∧ s.pinf ≠ 0 ∧
    s.q ≠ 0 ∧ 0 < rho * (e - s.q) - s.pinf * (1 - s.b * rho) :=
  ⟨NobleAbelStiffenedGas.construct.parse (7 / 5) 1 (1 / 4) 1 2, 2, 4, by
    norm_num [NobleAbelStiffenedGas.construct, NobleAbelStiffenedGas.parse]⟩

example : ∃ s : VanDerWaals, ∃ rho e : ℝ, 0 < rho ∧ 0 < 1 - s.b * rho ∧ s.pressure rho e < 0 ∧
    2 * s.a * rho * (1 - s.b * rho) ^ 2 ≤ s.gamma * (s.gamma - 1) * (e + s.a * rho) :=
  ⟨VanDerWaals.construct.parse (7 / 5) 1 (1 / 2) 1, 1, 1 / 10, by
    norm_num [VanDerWaals.construct, VanDerWaals.parse, VanDerWaals.pressure]⟩

/-- The hypothesis of `C49_vdw_gamma`: `b = 1/2`, `a = 1`, `rho = 1`, internal energy 3. -/
example : ∃ U : State 1, 0 < density U ∧ 0 < 1 - (1 / 2 : ℝ) * density U ∧
    0 < internalEnergy U - (1 : ℝ) / (1 / 2 * (1 / 2)) * (1 - 1 / 2 * density U) :=
  ⟨mkState 1 (fun _ => 0) 3, by
    norm_num [internalEnergy, Euler.density_mkState, Euler.momentum_mkState, Euler.totalEnergy_mkState, normSq]⟩

/-- The hypothesis of `C62_jwl_default_violation` holds for some energy. -/
example : ∃ e : ℝ, 0 ≤ JonesWilkinsLee.construct.speedOfSoundRadicand 1895 e := by
  let x := JonesWilkinsLee.construct.speedOfSoundRadicand 1895 0
  refine ⟨|x| / (0.8938 * (0.8938 + 1)), ?_⟩
  have h : JonesWilkinsLee.construct.speedOfSoundRadicand 1895 (|x| / (0.8938 * (0.8938 + 1))) = x + |x| := by
    simp only [x, JonesWilkinsLee.speedOfSoundRadicand, JonesWilkinsLee.construct]
    rw [mul_div_cancel₀]
    · ring
    · norm_num
  rw [h]
  have := neg_abs_le x
  linarith

end Eos
end Ryujin
