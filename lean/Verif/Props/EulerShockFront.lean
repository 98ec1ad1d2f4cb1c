import Verif.Props.EulerLeblanc
import Verif.Props.EquationOfState

/-!
# Shock fronts (C81)
-/

namespace Ryujin
namespace InitialStates

open Euler (State mkState)
open Spec (SolvesAt SolvesEuler gasPressure gasConserved RankineHugoniot eulerFlux)
open scoped BigOperators

variable {d : ℕ}

/-! ### Conversions -/

theorem expandState_one (s : Primitive) : (Euler.expandState s.state : State (d + 1)) =
    mkState s.rho (fun i => if i = 0 then s.u else 0) s.p := by
  unfold Euler.expandState Primitive.state
  simp only [Euler.density_mkState, Euler.momentum_mkState, Euler.totalEnergy_mkState]
  congr 1
  funext i
  by_cases hi : i = 0
  · simp [hi]
  · have : ¬ i.1 < 1 := fun h => hi (Fin.ext (by simpa using h))
    simp [hi, this]

theorem fromInitialState_full (sys : Euler.Params) (rho : ℝ) (u : Vec d) (p : ℝ) :
    (Euler.fromInitialState sys (mkState rho u p : State d) : State d) = gasConserved sys.gamma rho u p := by
  unfold Euler.fromInitialState
  rw [Eos.expandState_self]
  unfold Euler.fromPrimitiveState Spec.gasConserved
  simp only [Euler.density_mkState, Euler.momentum_mkState, Euler.totalEnergy_mkState]
  congr 1
  funext i
  have : (mkState rho u p : State d) i.castSucc.succ = u i := by simp [mkState]
  rw [this, mul_comm]

theorem fromInitialState_one (sys : Euler.Params) (s : Primitive) :
    (Euler.fromInitialState sys s.state : State (d + 1)) = s.conserved sys.gamma := by
  rw [Spec.primitive_conserved_eq, ← fromInitialState_full]
  unfold Euler.fromInitialState
  rw [expandState_one, Eos.expandState_self]

/-! ### Jump conditions for states that move along the normal -/

theorem normalFlux_conserved {gamma : ℝ} (hg : gamma ≠ 1) {nu : Vec d} (hn : normSq nu = 1) {rho : ℝ} (hr : rho ≠ 0)
    (u p : ℝ) :
    ∑ k, nu k • eulerFlux (gasPressure gamma) (gasConserved gamma rho (fun i => u * nu i) p) k =
      mkState (rho * u) (fun i => (rho * u * u + p) * nu i) ((p / (gamma - 1) + 1 / 2 * rho * (u * u) + p) * u) := by
  have hn2 : normSq (fun i => u * nu i) = u * u := by
    unfold normSq at *
    have : ∀ i, u * nu i * (u * nu i) = u * u * (nu i * nu i) := fun i => by ring
    simp only [this, ← Finset.mul_sum]
    rw [hn, mul_one]
  have hs : ∑ k, nu k * nu k = 1 := hn
  refine Euler.state_ext ?_ ?_ ?_
  · rw [Spec.density_sum', Euler.density_mkState]
    simp only [Spec.eulerFlux_conserved gamma hg hr, Euler.density_smul, Euler.density_mkState]
    have : ∀ k, nu k * (rho * (u * nu k)) = rho * u * (nu k * nu k) := fun k => by ring
    simp only [this, ← Finset.mul_sum, hs, mul_one]
  · funext i
    rw [Spec.momentum_sum', Euler.momentum_mkState]
    simp only [Spec.eulerFlux_conserved gamma hg hr, Euler.momentum_smul, Euler.momentum_mkState, Pi.smul_apply, smul_eq_mul]
    have : ∀ k, nu k * (rho * (u * nu i) * (u * nu k) + if i = k then p else 0) =
        rho * u * u * nu i * (nu k * nu k) + if i = k then nu k * p else 0 := fun k => by split_ifs <;> ring
    simp only [this, Finset.sum_add_distrib, ← Finset.mul_sum, hs, mul_one, Finset.sum_ite_eq, Finset.mem_univ, if_true]
    ring
  · rw [Spec.totalEnergy_sum', Euler.totalEnergy_mkState]
    simp only [Spec.eulerFlux_conserved gamma hg hr, Euler.totalEnergy_smul, Euler.totalEnergy_mkState, hn2]
    have : ∀ k, nu k * ((p / (gamma - 1) + 1 / 2 * rho * (u * u) + p) * (u * nu k)) =
        (p / (gamma - 1) + 1 / 2 * rho * (u * u) + p) * u * (nu k * nu k) := fun k => by ring
    simp only [this, ← Finset.mul_sum, hs, mul_one]

theorem exists_ne_zero {nu : Vec d} (hn : normSq nu = 1) : ∃ i, nu i ≠ 0 := by
  by_contra h
  push Not at h
  unfold normSq at hn
  simp [h] at hn

theorem rankineHugoniot_normal {gamma : ℝ} (hg : gamma ≠ 1) {nu : Vec d} (hn : normSq nu = 1) (s : ℝ) {rhoL rhoR : ℝ}
    (hL : rhoL ≠ 0) (hR : rhoR ≠ 0) (uL uR pL pR : ℝ) :
    RankineHugoniot (eulerFlux (gasPressure gamma)) nu s (gasConserved gamma rhoL (fun i => uL * nu i) pL)
      (gasConserved gamma rhoR (fun i => uR * nu i) pR) ↔
      rhoR * uR - rhoL * uL = s * (rhoR - rhoL) ∧
      (rhoR * uR * uR + pR) - (rhoL * uL * uL + pL) = s * (rhoR * uR - rhoL * uL) ∧
      (pR / (gamma - 1) + 1 / 2 * rhoR * (uR * uR) + pR) * uR - (pL / (gamma - 1) + 1 / 2 * rhoL * (uL * uL) + pL) * uL =
        s * ((pR / (gamma - 1) + 1 / 2 * rhoR * (uR * uR)) - (pL / (gamma - 1) + 1 / 2 * rhoL * (uL * uL))) := by
  have hn2 : ∀ u : ℝ, normSq (fun i => u * nu i) = u * u := by
    intro u
    unfold normSq at *
    have : ∀ i, u * nu i * (u * nu i) = u * u * (nu i * nu i) := fun i => by ring
    simp only [this, ← Finset.mul_sum]
    rw [hn, mul_one]
  unfold Spec.RankineHugoniot
  simp only [smul_sub, Finset.sum_sub_distrib]
  rw [normalFlux_conserved hg hn hL, normalFlux_conserved hg hn hR]
  unfold Spec.gasConserved
  rw [hn2, hn2]
  obtain ⟨i0, hi0⟩ := exists_ne_zero hn
  constructor
  · intro h
    refine ⟨?_, ?_, ?_⟩
    · have := congrArg Euler.density h
      simp [Euler.density, mkState] at this
      linear_combination this
    · have := congrFun (congrArg Euler.momentum h) i0
      simp only [Euler.momentum, mkState, Pi.sub_apply, Pi.smul_apply, Fin.cons_succ, Fin.snoc_castSucc, smul_eq_mul] at this
      have h2 : ((rhoR * uR * uR + pR) - (rhoL * uL * uL + pL)) * nu i0 = (s * (rhoR * uR - rhoL * uL)) * nu i0 := by
        linear_combination this
      exact mul_right_cancel₀ hi0 h2
    · have := congrArg Euler.totalEnergy h
      simp [Euler.totalEnergy, mkState] at this
      linear_combination this
  · rintro ⟨h1, h2, h3⟩
    refine Euler.state_ext ?_ ?_ ?_
    · simp [Euler.density, mkState]
      linear_combination h1
    · funext i
      simp only [Euler.momentum, mkState, Pi.sub_apply, Pi.smul_apply, Fin.cons_succ, Fin.snoc_castSucc, smul_eq_mul]
      linear_combination nu i * h2
    · simp [Euler.totalEnergy, mkState]
      linear_combination h3

/-! ### The post-shock state -/

/-- The state behind the shock satisfies the jump conditions (`b = 0`). -/
theorem shockState_jump {gamma : ℝ} (hg : 1 < gamma) (R : Primitive) (hr : 0 < R.rho) (hp : 0 < R.p) (mach : ℝ)
    (hM : R.u ≠ mach * Real.sqrt (gamma * R.p / R.rho)) :
    let L := (shockState gamma 0 R mach).1
    let s := (shockState gamma 0 R mach).2
    let delta := R.u / Real.sqrt (gamma * R.p / R.rho) - mach
    s = mach * Real.sqrt (gamma * R.p / R.rho) ∧ 0 < L.rho ∧ delta ≠ 0 ∧
      R.rho / L.rho = ((gamma - 1) * delta ^ 2 + 2) / ((gamma + 1) * delta ^ 2) ∧
      L.p = R.p * (2 * gamma * delta ^ 2 - (gamma - 1)) / (gamma + 1) ∧
      R.rho * R.u - L.rho * L.u = s * (R.rho - L.rho) ∧
      (R.rho * R.u * R.u + R.p) - (L.rho * L.u * L.u + L.p) = s * (R.rho * R.u - L.rho * L.u) ∧
      (R.p / (gamma - 1) + 1 / 2 * R.rho * (R.u * R.u) + R.p) * R.u -
        (L.p / (gamma - 1) + 1 / 2 * L.rho * (L.u * L.u) + L.p) * L.u =
        s * ((R.p / (gamma - 1) + 1 / 2 * R.rho * (R.u * R.u)) - (L.p / (gamma - 1) + 1 / 2 * L.rho * (L.u * L.u))) := by
  intro L s delta
  obtain ⟨a, ha⟩ : ∃ a, a = Real.sqrt (gamma * R.p / R.rho) := ⟨_, rfl⟩
  have hapos : 0 < a := by rw [ha]; exact Real.sqrt_pos.2 (by positivity)
  have hasq : R.rho * a ^ 2 = gamma * R.p := by
    rw [ha, Real.sq_sqrt (by positivity)]; field_simp
  have haR : Real.sqrt (gamma * R.p / R.rho / (1 - 0 * R.rho)) = a := by rw [zero_mul, sub_zero, div_one, ha]
  have hd : delta = R.u / a - mach := by rw [ha]
  have hd0 : delta ≠ 0 := by
    rw [hd]
    intro h
    have : R.u / a = mach := by linarith
    rw [div_eq_iff hapos.ne'] at this
    exact hM (by rw [← ha]; exact this)
  have hs : s = mach * a := by
    show mach * Real.sqrt (gamma * R.p / R.rho / (1 - 0 * R.rho)) = _
    rw [haR]
  have hLr : L.rho = R.rho * (gamma + 1) * delta * delta / ((gamma - 1) * delta * delta + 2) := by
    show R.rho * (gamma + 1) * (R.u / Real.sqrt (gamma * R.p / R.rho / (1 - 0 * R.rho)) - mach) *
      (R.u / Real.sqrt (gamma * R.p / R.rho / (1 - 0 * R.rho)) - mach) / _ = _
    rw [haR, ← hd]
  have hLu : L.u = (1 - R.rho / L.rho) * s + R.rho / L.rho * R.u := rfl
  have hLp : L.p = R.p * (2 * gamma * delta * delta - (gamma - 1)) / (gamma + 1) := by
    show R.p * (2 * gamma * (R.u / Real.sqrt (gamma * R.p / R.rho / (1 - 0 * R.rho)) - mach) *
      (R.u / Real.sqrt (gamma * R.p / R.rho / (1 - 0 * R.rho)) - mach) - (gamma - 1)) / _ = _
    rw [haR, ← hd]
  have hdd : 0 < delta * delta := mul_self_pos.2 hd0
  have hq : 0 < (gamma - 1) * delta * delta + 2 := by nlinarith
  have hLpos : 0 < L.rho := by
    rw [hLr]
    refine div_pos ?_ hq
    have : R.rho * (gamma + 1) * delta * delta = R.rho * (gamma + 1) * (delta * delta) := by ring
    rw [this]; positivity
  have hratio : R.rho / L.rho = ((gamma - 1) * delta ^ 2 + 2) / ((gamma + 1) * delta ^ 2) := by
    rw [hLr]
    have : (gamma - 1) * delta ^ 2 + 2 ≠ 0 := by nlinarith
    have : (gamma - 1) * delta * delta + 2 ≠ 0 := hq.ne'
    field_simp
  have hu : R.u = s + delta * a := by rw [hs, hd]; field_simp; ring
  have hg1 : gamma - 1 ≠ 0 := by linarith
  have hg2 : gamma + 1 ≠ 0 := by linarith
  -- velocity behind the shock relative to the shock
  obtain ⟨q, hqdef⟩ : ∃ q, q = R.rho / L.rho := ⟨_, rfl⟩
  have hqL : R.rho = q * L.rho := by rw [hqdef]; field_simp
  have hLu' : L.u = s + q * (delta * a) := by rw [hLu, ← hqdef, hu]; ring
  have hqd : q * ((gamma + 1) * delta ^ 2) = (gamma - 1) * delta ^ 2 + 2 := by
    rw [hqdef, hratio]; field_simp
  have hpR : R.p = R.rho * a ^ 2 / gamma := by rw [hasq]; field_simp
  have hg0 : gamma ≠ 0 := by linarith
  have hmass : R.rho * R.u - L.rho * L.u = s * (R.rho - L.rho) := by
    rw [hu, hLu', hqL]; ring
  have hmom0 : L.p - R.p = R.rho * (delta * a) ^ 2 * (1 - q) := by
    have h1 : (L.p - R.p) * (gamma + 1) = R.p * 2 * gamma * (delta ^ 2 - 1) := by
      rw [hLp]; field_simp; ring
    have h2 : R.rho * (delta * a) ^ 2 * (1 - q) * (gamma + 1) = R.rho * a ^ 2 * (2 * (delta ^ 2 - 1)) := by
      have : (gamma + 1) * delta ^ 2 * (1 - q) = 2 * (delta ^ 2 - 1) := by linear_combination -hqd
      linear_combination (R.rho * a ^ 2) * this
    refine mul_right_cancel₀ hg2 ?_
    rw [h1, h2, hasq]; ring
  have hmom : (R.rho * R.u * R.u + R.p) - (L.rho * L.u * L.u + L.p) = s * (R.rho * R.u - L.rho * L.u) := by
    have hpp : L.p = R.p + R.rho * (delta * a) ^ 2 * (1 - q) := by linarith
    rw [hpp, hu, hLu', hqL]; ring
  refine ⟨by rw [hs, ha], hLpos, hd0, hratio, by rw [hLp]; ring, hmass, hmom, ?_⟩
  -- energy
  have hpp : L.p = R.p + R.rho * (delta * a) ^ 2 * (1 - q) := by linarith
  have key : gamma / (gamma - 1) * (R.p - L.p * q) + 1 / 2 * R.rho * (delta * a) ^ 2 * (1 - q ^ 2) = 0 := by
    rw [hpp, hpR]
    have h1 : (gamma - 1) * (gamma / (gamma - 1) * (R.rho * a ^ 2 / gamma -
        (R.rho * a ^ 2 / gamma + R.rho * (delta * a) ^ 2 * (1 - q)) * q) + 1 / 2 * R.rho * (delta * a) ^ 2 * (1 - q ^ 2)) =
        R.rho * a ^ 2 * (1 - q) * (1 - gamma * delta ^ 2 * q + (gamma - 1) / 2 * delta ^ 2 * (1 + q)) := by
      field_simp
      ring
    have h2 : 1 - gamma * delta ^ 2 * q + (gamma - 1) / 2 * delta ^ 2 * (1 + q) = 0 := by linear_combination -hqd / 2
    rw [h2, mul_zero] at h1
    exact (mul_eq_zero.1 h1).resolve_left hg1
  have key2 : gamma / (gamma - 1) = 1 / (gamma - 1) + 1 := by field_simp; ring
  rw [key2, hqL] at key
  rw [hqL] at hmom0
  rw [hu, hLu', hqL]
  linear_combination (delta * a) * key - s * hmom0

theorem rankineHugoniot_planar' {gamma s : ℝ} (hg : gamma ≠ 1) (L R : Primitive) (hL : L.rho ≠ 0) (hR : R.rho ≠ 0) :
    RankineHugoniot (eulerFlux (gasPressure gamma)) (fun k : Fin (d + 1) => if k = 0 then 1 else 0) s
      (L.conserved gamma) (R.conserved gamma) ↔
      R.rho * R.u - L.rho * L.u = s * (R.rho - L.rho) ∧
      (R.rho * R.u * R.u + R.p) - (L.rho * L.u * L.u + L.p) = s * (R.rho * R.u - L.rho * L.u) ∧
      (R.p / (gamma - 1) + 1 / 2 * R.rho * (R.u * R.u) + R.p) * R.u -
        (L.p / (gamma - 1) + 1 / 2 * L.rho * (L.u * L.u) + L.p) * L.u =
        s * ((R.p / (gamma - 1) + 1 / 2 * R.rho * (R.u * R.u)) - (L.p / (gamma - 1) + 1 / 2 * L.rho * (L.u * L.u))) := by
  rw [rankineHugoniot_planar hg L R hL hR]
  have h : ∀ x : Primitive, 0.5 * x.rho * x.u * x.u = 1 / 2 * x.rho * (x.u * x.u) := fun x => by ring
  rw [h, h]

/-- **C81.**  The shock front of the Euler solver is an exact weak solution: the plane `x₀ = s t`, with the speed
`s = mach · a` where `a` is the speed of sound ahead of the shock, separates two constant states, these satisfy the jump
conditions with speed `s`, and away from the plane the field solves the Euler equations. -/
theorem C81_shock_front (sys : Euler.Params) (hg : 1 < sys.gamma) (R : Primitive) (hr : 0 < R.rho) (hp : 0 < R.p)
    (mach : ℝ) (hM : R.u ≠ mach * Real.sqrt (sys.gamma * R.p / R.rho)) :
    let U := shockFront (d := d) (Euler.fromInitialState sys) sys.gamma 0 R mach
    let s := mach * Real.sqrt (sys.gamma * R.p / R.rho)
    (∀ (x y : Vec (d + 1)) (t : ℝ), x 0 < s * t → s * t < y 0 →
      U y t = Euler.fromInitialState sys R.state ∧
      RankineHugoniot (eulerFlux (gasPressure sys.gamma)) (fun k => if k = 0 then 1 else 0) s (U x t) (U y t)) ∧
    ∀ (x : Vec (d + 1)) (t : ℝ), x 0 ≠ s * t → SolvesEuler sys.gamma U x t := by
  intro U s
  obtain ⟨hs, hL, -, -, -, h1, h2, h3⟩ := shockState_jump hg R hr hp mach hM
  have hU : ∀ (x : Vec (d + 1)) t, U x t = if x 0 - s * t > 0 then R.conserved sys.gamma
      else (shockState sys.gamma 0 R mach).1.conserved sys.gamma := by
    intro x t
    show shockFront _ _ _ _ _ _ _ = _
    unfold shockFront
    dsimp only
    rw [hs, fromInitialState_one, fromInitialState_one]
  constructor
  · intro x y t hx hy
    rw [hU y t, if_pos (by linarith), hU x t, if_neg (by linarith), fromInitialState_one]
    refine ⟨rfl, ?_⟩
    rw [rankineHugoniot_planar' hg.ne' _ _ hL.ne' hr.ne']
    rw [hs] at h1 h2 h3
    exact ⟨h1, h2, h3⟩
  · intro x t hx
    rcases lt_or_gt_of_ne hx with h | h
    · refine solves_of_eventually (fun y τ => y < s * τ) (W := fun _ _ => (shockState sys.gamma 0 R mach).1.conserved sys.gamma)
        ?_ ?_ ?_ (Spec.solvesAt_const _ _ _ _)
      · intro x t hxt
        rw [hU, if_neg (by linarith)]
      · exact (continuous_const.mul continuous_id).continuousAt.eventually (lt_mem_nhds h)
      · exact gt_mem_nhds h
    · refine solves_of_eventually (fun y τ => s * τ < y) (W := fun _ _ => R.conserved sys.gamma)
        ?_ ?_ ?_ (Spec.solvesAt_const _ _ _ _)
      · intro x t hxt
        rw [hU, if_pos (by linarith)]
      · exact (continuous_const.mul continuous_id).continuousAt.eventually (gt_mem_nhds h)
      · exact lt_mem_nhds h

/-- **C81.**  If the front is supersonic with respect to the gas ahead of it (`R.u + a < s`), then it is a compression shock:
behind it density, pressure and velocity are larger, in particular the state is admissible, and the front is subsonic with
respect to the gas behind it (Lax's entropy condition). -/
theorem C81_shock_entropy (gamma : ℝ) (hg : 1 < gamma) (R : Primitive) (hr : 0 < R.rho) (hp : 0 < R.p) (mach : ℝ)
    (hsuper : R.u + Real.sqrt (gamma * R.p / R.rho) < mach * Real.sqrt (gamma * R.p / R.rho)) :
    let L := (shockState gamma 0 R mach).1
    R.rho < L.rho ∧ R.p < L.p ∧ R.u < L.u ∧
      mach * Real.sqrt (gamma * R.p / R.rho) < L.u + Real.sqrt (gamma * L.p / L.rho) := by
  intro L
  have hapos : 0 < Real.sqrt (gamma * R.p / R.rho) := Real.sqrt_pos.2 (by positivity)
  obtain ⟨hs, hL, -, hratio, hLp, h1, h2, h3⟩ := shockState_jump hg R hr hp mach (by linarith)
  have hasq : R.rho * Real.sqrt (gamma * R.p / R.rho) ^ 2 = gamma * R.p := by
    rw [Real.sq_sqrt (by positivity)]; field_simp
  have hL : 0 < L.rho := hL
  have hL0 := hL.ne'
  generalize Real.sqrt (gamma * R.p / R.rho) = a at *
  obtain ⟨delta, hdelta⟩ : ∃ delta, delta = R.u / a - mach := ⟨_, rfl⟩
  have hu : R.u = mach * a + delta * a := by rw [hdelta]; field_simp; ring
  have hd1 : delta < -1 := by
    have : (delta + 1) * a < 0 := by rw [hu] at hsuper; linarith
    nlinarith [neg_of_mul_neg_left this hapos.le]
  have hd2 : 1 < delta ^ 2 := by nlinarith
  rw [← hdelta] at hratio hLp
  have hq : R.rho / L.rho < 1 := by
    rw [hratio, div_lt_one (mul_pos (by linarith) (by linarith))]
    linarith
  have hrho : R.rho < L.rho := by rwa [div_lt_one hL] at hq
  have hLpos : R.p < L.p := by
    rw [hLp, lt_div_iff₀ (by linarith)]
    nlinarith [mul_pos hp (by linarith : (0 : ℝ) < gamma)]
  obtain ⟨q, hqd⟩ : ∃ q, q = R.rho / L.rho := ⟨_, rfl⟩
  have hqL : R.rho = q * L.rho := by rw [hqd]; field_simp
  have hLu : L.u = mach * a + q * (delta * a) := by
    have : L.rho * (L.u - mach * a) = L.rho * (q * (delta * a)) := by
      have h5 : R.rho * (R.u - mach * a) = L.rho * (L.u - mach * a) := by
        rw [hs] at h1
        have h1' : R.rho * R.u - L.rho * L.u = mach * a * (R.rho - L.rho) := h1
        linarith
      rw [← h5, hu, hqL]; ring
    have := mul_left_cancel₀ hL.ne' this
    linarith
  have hqpos : 0 < q := by rw [hqd]; positivity
  have hda : delta * a < 0 := mul_neg_of_neg_of_pos (by linarith) hapos
  have hqda : q * (delta * a) < 0 := mul_neg_of_pos_of_neg hqpos hda
  refine ⟨hrho, hLpos, ?_, ?_⟩
  · rw [hLu, hu]
    have : q < 1 := by rw [hqd]; exact hq
    have := mul_lt_mul_of_neg_right this hda
    linarith
  · have hpL : 0 < L.p := lt_trans hp hLpos
    have h6 : (-(q * (delta * a))) < Real.sqrt (gamma * L.p / L.rho) := by
      refine (Real.lt_sqrt ?_).2 ?_
      · linarith
      · rw [lt_div_iff₀ hL]
        have e1 : (-(q * (delta * a))) ^ 2 * L.rho = q * delta ^ 2 * (R.rho * a ^ 2) := by rw [hqL]; ring
        have e2 : q * delta ^ 2 = ((gamma - 1) * delta ^ 2 + 2) / (gamma + 1) := by
          rw [hqd, hratio]
          have : delta ≠ 0 := by linarith
          field_simp
        rw [e1, e2, hasq, hLp]
        have e3 : gamma * (R.p * (2 * gamma * delta ^ 2 - (gamma - 1)) / (gamma + 1)) =
            (2 * gamma * delta ^ 2 - (gamma - 1)) / (gamma + 1) * (gamma * R.p) := by ring
        rw [e3]
        refine mul_lt_mul_of_pos_right ?_ (by positivity)
        refine div_lt_div_of_pos_right ?_ (by linarith)
        have : 0 < (gamma + 1) * (delta ^ 2 - 1) := mul_pos (by linarith) (by linarith)
        linarith
    rw [hLu]
    linarith

/-- The default configuration (air at rest, Mach number 2) satisfies the hypotheses of `C81_shock_front` and
`C81_shock_entropy`. -/
example : (0 : ℝ) + Real.sqrt (1.4 * 1 / 1.4) < 2 * Real.sqrt (1.4 * 1 / 1.4) ∧
    (0 : ℝ) ≠ 2 * Real.sqrt (1.4 * 1 / 1.4) := by
  have : Real.sqrt (1.4 * 1 / 1.4) = 1 := by norm_num
  rw [this]; norm_num

/-- **C81.**  With the solver for arbitrary equations of state and a polytropic gas with the same `gamma` the field is the
same as the one of the Euler solver. -/
theorem C81_shock_front_polytropic (s : Eos.PolytropicGas) (sys : Euler.Params) (hsys : sys.gamma = s.gamma)
    (hg : 1 < s.gamma) (R : Primitive) (hr : 0 < R.rho) (hp : 0 < R.p) (mach : ℝ)
    (hM : R.u ≠ mach * Real.sqrt (s.gamma * R.p / R.rho)) (x : Vec (d + 1)) (t : ℝ) :
    shockFront (Aeos.fromInitialState s.interface.specificInternalEnergy) s.gamma 0 R mach x t =
      shockFront (Euler.fromInitialState sys) sys.gamma 0 R mach x t := by
  obtain ⟨-, hL, -⟩ := shockState_jump hg R hr hp mach hM
  have hconv : ∀ q : Primitive, 0 < q.rho → (Aeos.fromInitialState s.interface.specificInternalEnergy q.state : State (d + 1)) =
      Euler.fromInitialState sys q.state := by
    intro q hq
    have hg1 : s.gamma - 1 ≠ 0 := by linarith
    rw [fromInitialState_one]
    unfold Aeos.fromInitialState
    rw [expandState_one]
    unfold Aeos.fromPrimitiveState Primitive.conserved
    simp only [Euler.density_mkState, Euler.momentum_mkState, Euler.totalEnergy_mkState, Eos.PolytropicGas.interface,
      Eos.PolytropicGas.specificInternalEnergy, hsys]
    have hn : dot (fun i : Fin (d + 1) => if i = 0 then q.u else 0) (fun i => if i = 0 then q.u else 0) = q.u * q.u := by
      unfold dot
      rw [Fin.sum_univ_succ]
      simp
    rw [hn]
    congr 1
    · funext i
      split_ifs <;> ring
    · field_simp
      ring
  unfold shockFront
  dsimp only
  rw [hsys]
  split_ifs
  · exact hconv _ hr
  · exact hconv _ hL

/-- **C81 (violation).**  For an equation of state with covolume the front does not satisfy the jump conditions, whatever
speed is assumed: a Noble-Abel gas with `γ = 2`, covolume `1/4`, gas at rest with density 1 and pressure 3/2, Mach number
2.  The speed of sound, and with it the front speed, takes the covolume into account, the jump relations do not. -/
theorem C81_shock_front_violation :
    let eos : Eos.NobleAbelStiffenedGas := Eos.NobleAbelStiffenedGas.construct.parse 2 1 (1 / 4) 0 0
    let R : Primitive := ⟨1, 0, 3 / 2⟩
    let U := shockFront (d := 0) (Aeos.fromInitialState eos.interface.specificInternalEnergy) 2
      eos.interface.interpolation_b R 2
    ∀ s, ¬ RankineHugoniot (eulerFlux (Eos.statePressure eos.interface)) (fun _ => 1) s (U (fun _ => -1) 0) (U (fun _ => 1) 0) := by
  intro eos R U s h
  have ha : Real.sqrt (2 * (3 / 2) / 1 / (1 - 1 / 4 * 1)) = 2 := by
    have : (2 * (3 / 2) / 1 / (1 - 1 / 4 * 1) : ℝ) = 2 ^ 2 := by norm_num
    rw [this, Real.sqrt_sq (by norm_num)]
  have hb : eos.interface.interpolation_b = 1 / 4 := rfl
  have hL : shockState 2 eos.interface.interpolation_b R 2 = (⟨2, 2, 15 / 2⟩, 4) := by
    rw [hb]
    unfold shockState
    dsimp only
    rw [show R.rho = 1 from rfl, show R.u = 0 from rfl, show R.p = 3 / 2 from rfl, ha]
    norm_num
  have hUL : U (fun _ => -1) 0 = Aeos.fromInitialState eos.interface.specificInternalEnergy (⟨2, 2, 15 / 2⟩ : Primitive).state := by
    show shockFront _ _ _ _ _ _ _ = _
    unfold shockFront
    dsimp only
    rw [hL, if_neg (by norm_num)]
  have hUR : U (fun _ => 1) 0 = Aeos.fromInitialState eos.interface.specificInternalEnergy R.state := by
    show shockFront _ _ _ _ _ _ _ = _
    unfold shockFront
    dsimp only
    rw [hL, if_pos (by norm_num)]
  have hP : ∀ q : Primitive, 0 < q.rho → 1 / 4 * q.rho < 1 →
      Eos.statePressure eos.interface (Aeos.fromInitialState (dim := 1) eos.interface.specificInternalEnergy q.state) = q.p := by
    intro q hq hc
    rw [Eos.C51_initial_pressure _ _ (by unfold Primitive.state; rw [Euler.density_mkState]; exact hq)]
    · unfold Primitive.state; rw [Euler.totalEnergy_mkState]
    · unfold Primitive.state
      rw [Euler.density_mkState]
      refine Eos.C51_nasg eos q.rho hq ?_ ?_
      · show (0 : ℝ) < 1 - 1 / 4 * q.rho
        linarith
      · show (2 : ℝ) ≠ 1
        norm_num
  have hd : ∀ q : Primitive, Euler.density (Aeos.fromInitialState (dim := 1) eos.interface.specificInternalEnergy q.state) = q.rho := by
    intro q
    unfold Aeos.fromInitialState Aeos.fromPrimitiveState
    rw [expandState_one]
    simp only [Euler.density_mkState]
  have hm : ∀ q : Primitive, Euler.momentum (Aeos.fromInitialState (dim := 1) eos.interface.specificInternalEnergy q.state) 0 = q.u * q.rho := by
    intro q
    unfold Aeos.fromInitialState Aeos.fromPrimitiveState
    rw [expandState_one]
    simp only [Euler.density_mkState, Euler.momentum_mkState, if_true]
  unfold Spec.RankineHugoniot at h
  rw [Fin.sum_univ_one, one_smul, hUL, hUR] at h
  have h1 := congrArg Euler.density h
  have h2 := congrFun (congrArg Euler.momentum h) 0
  have e1 : ∀ a b : State 1, Euler.density (a - b) = Euler.density a - Euler.density b := fun _ _ => rfl
  have e2 : ∀ a b : State 1, Euler.momentum (a - b) 0 = Euler.momentum a 0 - Euler.momentum b 0 := fun _ _ => rfl
  rw [Euler.density_smul, e1, e1, hd, hd] at h1
  rw [Euler.momentum_smul, Pi.smul_apply, e2, e2, hm, hm] at h2
  unfold Spec.eulerFlux at h1 h2
  simp only [Euler.density_mkState, Euler.momentum_mkState, hd, hm, if_true] at h1 h2
  rw [hP R (by show (0 : ℝ) < 1; norm_num) (by show (1 / 4 * 1 : ℝ) < 1; norm_num),
    hP ⟨2, 2, 15 / 2⟩ (by norm_num) (by norm_num)] at h2
  rw [show R.rho = 1 from rfl, show R.u = 0 from rfl] at h1 h2
  rw [show R.p = 3 / 2 from rfl] at h2
  simp only [smul_eq_mul] at h1 h2
  norm_num at h1 h2
  linarith

/-! ### The converging shock of the ICF configuration -/

theorem shockState_bracket {gamma : ℝ} (hg : 1 < gamma) (R : Primitive) (hr : 0 < R.rho) (hp : 0 < R.p) (hu : R.u = 0)
    {mach : ℝ} (hM : 1 < mach) :
    let L := (shockState gamma 0 R mach).1
    let s := (shockState gamma 0 R mach).2
    R.rho < L.rho ∧ 0 < s * (L.p - R.p) - L.p * L.u := by
  intro L s
  have hapos : 0 < Real.sqrt (gamma * R.p / R.rho) := Real.sqrt_pos.2 (by positivity)
  have hsuper : R.u + Real.sqrt (gamma * R.p / R.rho) < mach * Real.sqrt (gamma * R.p / R.rho) := by
    rw [hu]; nlinarith
  obtain ⟨hrho, hLp, -, -⟩ := C81_shock_entropy gamma hg R hr hp mach hsuper
  obtain ⟨hs, hL, hd, hratio, hLp2, h1, -, -⟩ := shockState_jump hg R hr hp mach (by linarith)
  refine ⟨hrho, ?_⟩
  have hL : 0 < L.rho := hL
  have hspos : 0 < s := by
    show 0 < (shockState gamma 0 R mach).2
    rw [hs]
    exact mul_pos (by linarith) hapos
  have h1' : R.rho * R.u - L.rho * L.u = s * (R.rho - L.rho) := h1
  have hLu : L.u = s * (1 - R.rho / L.rho) := by
    rw [hu] at h1'
    field_simp
    linarith
  rw [hLu]
  have hdd : R.u / Real.sqrt (gamma * R.p / R.rho) - mach = -mach := by rw [hu]; ring
  rw [hdd] at hratio hLp2
  have e : s * (L.p - R.p) - L.p * (s * (1 - R.rho / L.rho)) = s * (L.p * (R.rho / L.rho) - R.p) := by ring
  rw [e]
  refine mul_pos hspos (sub_pos.2 ?_)
  show R.p < (shockState gamma 0 R mach).1.p * (R.rho / (shockState gamma 0 R mach).1.rho)
  have hm1 : 0 < mach ^ 2 - 1 := by nlinarith
  have hm2 : 0 < (-mach) ^ 2 := by rw [neg_sq]; linarith
  have hg1 : 0 < gamma - 1 := by linarith
  rw [hratio, hLp2, div_mul_div_comm, lt_div_iff₀ (mul_pos (by linarith) (mul_pos (by linarith) hm2))]
  have h7 : R.p * (2 * gamma * (-mach) ^ 2 - (gamma - 1)) * ((gamma - 1) * (-mach) ^ 2 + 2) -
      R.p * ((gamma + 1) * ((gamma + 1) * (-mach) ^ 2)) =
        R.p * (2 * (gamma - 1) * (mach ^ 2 - 1) * (gamma * mach ^ 2 + 1)) := by ring
  have h8 : 0 < R.p * (2 * (gamma - 1) * (mach ^ 2 - 1) * (gamma * mach ^ 2 + 1)) := by positivity
  linarith

/-- States of the ICF configuration outside of the shock radius and between interface and shock. -/
theorem icf_states (sys : Euler.Params) (c : IcfParams) (hsr : 0 ≤ c.shock_radius) (hu : c.outside.u = 0)
    (x : Vec (d + 1)) (hx : c.shock_radius < vnorm x) (y : Vec (d + 1)) (hy : vnorm y ≤ c.shock_radius)
    (hy2 : c.interface_radius + |c.amplitude| < vnorm y) :
    icfLike (Euler.fromInitialState sys) (Euler.fromInitialState sys) (icfConstruct c) 0 x =
      gasConserved sys.gamma (shockState 1.4 0 c.outside c.mach_number).1.rho
        (fun i => (shockState 1.4 0 c.outside c.mach_number).1.u * (-(x i / vnorm x)))
        (shockState 1.4 0 c.outside c.mach_number).1.p ∧
    icfLike (Euler.fromInitialState sys) (Euler.fromInitialState sys) (icfConstruct c) 0 y =
      gasConserved sys.gamma c.outside.rho (fun i => 0 * (-(x i / vnorm x))) c.outside.p := by
  have hxpos : vnorm x > 0 := lt_of_le_of_lt hsr hx
  constructor
  · unfold icfLike
    dsimp only
    rw [if_pos (show vnorm x > (icfConstruct c).shock_radius from hx), fromInitialState_full]
    congr 1
    funext i
    rw [if_pos hxpos]
    show -(shockState 1.4 0 c.outside c.mach_number).1.u * (x i / vnorm x) = _
    ring
  · unfold icfLike
    dsimp only
    have hcos : ∀ z, (icfConstruct c).amplitude * Real.cos z ≤ |c.amplitude| := by
      intro z
      show c.amplitude * Real.cos z ≤ _
      calc c.amplitude * Real.cos z ≤ |c.amplitude * Real.cos z| := le_abs_self _
        _ = |c.amplitude| * |Real.cos z| := abs_mul _ _
        _ ≤ |c.amplitude| * 1 := mul_le_mul_of_nonneg_left (Real.abs_cos_le_one z) (abs_nonneg _)
        _ = |c.amplitude| := mul_one _
    rw [if_neg (show ¬ vnorm y > (icfConstruct c).shock_radius from not_lt.2 hy), if_pos (by
      have := hcos ((icfConstruct c).num_modes * Real.arccos (|y (Fin.last d)| / vnorm y))
      have h3 : (icfConstruct c).interface_radius = c.interface_radius := rfl
      rw [h3]
      linarith), fromInitialState_one, Spec.primitive_conserved_eq]
    show gasConserved sys.gamma c.outside.rho (fun i => if i = 0 then c.outside.u else 0) c.outside.p = _
    congr 1
    funext i
    rw [hu]
    simp

theorem normSq_radial {x : Vec d} (hx : 0 < vnorm x) : normSq (fun i => -(x i / vnorm x)) = 1 := by
  have h1 : vnorm x ^ 2 = normSq x := Real.sq_sqrt (by unfold normSq; exact Finset.sum_nonneg fun i _ => mul_self_nonneg _)
  unfold normSq at *
  have : ∀ i, -(x i / vnorm x) * -(x i / vnorm x) = (x i * x i) * (1 / vnorm x ^ 2) := fun i => by field_simp
  simp only [this, ← Finset.sum_mul, ← h1]
  field_simp

/-- **C81 (partial).**  The converging shock of the ICF configuration: if the gas has `γ = 7/5` and is at rest in front of the
shock, then the states on both sides of the shock sphere satisfy the jump conditions, with the normal pointing to the centre
and the speed `mach · a`.  Missing: every other `γ`, see the violation below. -/
theorem C81_icf_like_partial (sys : Euler.Params) (hg : sys.gamma = 7 / 5) (c : IcfParams) (hr : 0 < c.outside.rho)
    (hp : 0 < c.outside.p) (hu : c.outside.u = 0) (hM : 1 < c.mach_number) (hsr : 0 ≤ c.shock_radius)
    (x : Vec (d + 1)) (hx : c.shock_radius < vnorm x) (y : Vec (d + 1)) (hy : vnorm y ≤ c.shock_radius)
    (hy2 : c.interface_radius + |c.amplitude| < vnorm y) :
    RankineHugoniot (eulerFlux (gasPressure sys.gamma)) (fun i => -(x i / vnorm x))
      (c.mach_number * Real.sqrt (sys.gamma * c.outside.p / c.outside.rho))
      (icfLike (Euler.fromInitialState sys) (Euler.fromInitialState sys) (icfConstruct c) 0 x)
      (icfLike (Euler.fromInitialState sys) (Euler.fromInitialState sys) (icfConstruct c) 0 y) := by
  obtain ⟨hX, hY⟩ := icf_states sys c hsr hu x hx y hy hy2
  have h14 : (1.4 : ℝ) = 7 / 5 := by norm_num
  rw [h14] at hX
  have hapos : 0 < Real.sqrt (7 / 5 * c.outside.p / c.outside.rho) := Real.sqrt_pos.2 (by positivity)
  obtain ⟨hs, hL, -, -, -, h1, h2, h3⟩ := shockState_jump (by norm_num : (1 : ℝ) < 7 / 5) c.outside hr hp c.mach_number (by
    rw [hu]; exact (mul_pos (by linarith) hapos).ne)
  rw [hX, hY, hg, rankineHugoniot_normal (by norm_num) (normSq_radial (lt_of_le_of_lt hsr hx)) _ hL.ne' hr.ne', ← hs]
  rw [hu] at h1 h2 h3
  exact ⟨h1, h2, h3⟩

/-- **C81 (violation).**  For every gas with `γ ≠ 7/5` the shock of the ICF configuration violates the jump conditions,
whatever speed is assumed: the state behind the shock is computed with `γ = 7/5`, since the class never reads `γ` of the
Euler system. -/
theorem C81_icf_like_violation (sys : Euler.Params) (hg1 : sys.gamma ≠ 1) (hg : sys.gamma ≠ 7 / 5) (c : IcfParams)
    (hr : 0 < c.outside.rho) (hp : 0 < c.outside.p) (hu : c.outside.u = 0) (hM : 1 < c.mach_number)
    (hsr : 0 ≤ c.shock_radius) (x : Vec (d + 1)) (hx : c.shock_radius < vnorm x) (y : Vec (d + 1))
    (hy : vnorm y ≤ c.shock_radius) (hy2 : c.interface_radius + |c.amplitude| < vnorm y) (s : ℝ) :
    ¬ RankineHugoniot (eulerFlux (gasPressure sys.gamma)) (fun i => -(x i / vnorm x)) s
      (icfLike (Euler.fromInitialState sys) (Euler.fromInitialState sys) (icfConstruct c) 0 x)
      (icfLike (Euler.fromInitialState sys) (Euler.fromInitialState sys) (icfConstruct c) 0 y) := by
  obtain ⟨hX, hY⟩ := icf_states sys c hsr hu x hx y hy hy2
  have h14 : (1.4 : ℝ) = 7 / 5 := by norm_num
  rw [h14] at hX
  have hapos : 0 < Real.sqrt (7 / 5 * c.outside.p / c.outside.rho) := Real.sqrt_pos.2 (by positivity)
  obtain ⟨hs, hL, -, -, -, h1, h2, h3⟩ := shockState_jump (by norm_num : (1 : ℝ) < 7 / 5) c.outside hr hp c.mach_number (by
    rw [hu]; exact (mul_pos (by linarith) hapos).ne)
  obtain ⟨hlt, hbr⟩ := shockState_bracket (by norm_num : (1 : ℝ) < 7 / 5) c.outside hr hp hu hM
  rw [hX, hY, rankineHugoniot_normal hg1 (normSq_radial (lt_of_le_of_lt hsr hx)) _ hL.ne' hr.ne']
  rintro ⟨g1, -, g3⟩
  rw [hu] at h1 h2 h3
  generalize (shockState (7 / 5) 0 c.outside c.mach_number).1 = L at *
  generalize (shockState (7 / 5) 0 c.outside c.mach_number).2 = s' at *
  have hss : s = s' := by
    have : (s - s') * (c.outside.rho - L.rho) = 0 := by linarith
    rcases mul_eq_zero.1 this with h | h
    · linarith
    · linarith
  subst hss
  have hk : (1 / (sys.gamma - 1) - 1 / ((7 / 5 : ℝ) - 1)) * (s * (L.p - c.outside.p) - L.p * L.u) = 0 := by
    linear_combination g3 - h3
  rcases mul_eq_zero.1 hk with h | h
  · have h5 : sys.gamma - 1 ≠ 0 := sub_ne_zero.2 hg1
    have : 1 / (sys.gamma - 1) = 5 / 2 := by linarith
    rw [div_eq_iff h5] at this
    exact hg (by linarith)
  · exact hbr.ne' h

/-- The default configuration has points that satisfy the hypotheses. -/
example : ∃ x y : Vec 2, (1.2 : ℝ) < vnorm x ∧ vnorm y ≤ 1.2 ∧ 1.0 + |(0.02 : ℝ)| < vnorm y := by
  have h : ∀ r : ℝ, 0 ≤ r → vnorm (fun i : Fin 2 => if i = 0 then r else 0) = r := by
    intro r hr
    unfold vnorm normSq
    rw [Fin.sum_univ_two]
    simp [Real.sqrt_mul_self hr]
  refine ⟨fun i => if i = 0 then 2 else 0, fun i => if i = 0 then 1.1 else 0, ?_, ?_, ?_⟩
  · rw [h _ (by norm_num)]; norm_num
  · rw [h _ (by norm_num)]; norm_num
  · rw [h _ (by norm_num), abs_of_pos (by norm_num)]; norm_num

end InitialStates
end Ryujin
