import Verif.Proofs.EulerSystem

/-!
# C35, C36, C37, C52 for the compressible Euler equations
-/

namespace Ryujin
namespace Euler

variable {dim : ℕ}

/-! ### C35 -/

/-- **C35 (Euler).** -/
theorem C35_euler_roundtrip (p : Params) (U : State dim) (h : 0 < density U) (hg : p.gamma ≠ 1) :
    toPrimitiveState p (fromPrimitiveState p U) = U ∧
      fromPrimitiveState p (toPrimitiveState p U) = U := by
  have hg' : p.gamma - 1 ≠ 0 := sub_ne_zero.2 hg
  have hm : (fun i : Fin dim => U i.castSucc.succ * density U) = density U • momentum U := by
    funext i; simp [momentum]; ring
  constructor
  · apply state_ext
    · simp [toPrimitiveState, fromPrimitiveState]
    · funext i
      simp only [toPrimitiveState, fromPrimitiveState, momentum_mkState, density_mkState]
      simp only [momentum]; field_simp
    · simp only [toPrimitiveState, totalEnergy_mkState, pressure_eq]
      simp only [fromPrimitiveState, totalEnergy_mkState, momentum_mkState, density_mkState, hm,
        normSq_smul, ← normSq_eq_dot]
      field_simp; ring
  · apply state_ext
    · simp [toPrimitiveState, fromPrimitiveState]
    · funext i
      have : toPrimitiveState p U i.castSucc.succ = momentum (toPrimitiveState p U) i := rfl
      simp only [fromPrimitiveState, momentum_mkState, this]
      simp only [toPrimitiveState, density_mkState, momentum_mkState]
      field_simp
    · simp only [fromPrimitiveState, totalEnergy_mkState]
      simp only [toPrimitiveState, totalEnergy_mkState, density_mkState, momentum_mkState, pressure_eq]
      have : (fun i => momentum U i * (1 / density U)) = (1 / density U) • momentum U := by
        funext i; simp; ring
      rw [this, ← normSq_eq_dot, normSq_smul]
      field_simp; ring

/-! ### C36 -/

/-- **C36 (Euler, slip).** -/
theorem C36_euler_slip (p : Params) (U : State dim) (n : Vec dim) (D : State dim) (hn : normSq n = 1) :
    let V := applyBoundaryConditions p .slip U n D
    density V = density U ∧ totalEnergy V = totalEnergy U ∧ dot (momentum V) n = 0 ∧
      (∀ t : Vec dim, dot n t = 0 → dot (momentum V) t = dot (momentum U) t) ∧
      applyBoundaryConditions p .slip V n D = V := by
  intro V
  have hV : momentum V = momentum U + (-dot (momentum U) n) • n := by
    funext k
    simp [V, applyBoundaryConditions]; ring
  have h0 : dot (momentum V) n = 0 := by
    rw [hV, dot_add_left, dot_smul_left, ← normSq_eq_dot n, hn]; ring
  refine ⟨by simp [V, applyBoundaryConditions], by simp [V, applyBoundaryConditions], h0, ?_, ?_⟩
  · intro t ht
    rw [hV, dot_add_left, dot_smul_left, ht]; ring
  · apply state_ext
    · simp [applyBoundaryConditions]
    · funext k
      simp [applyBoundaryConditions, h0]
    · simp [applyBoundaryConditions]

/-- **C36 (Euler, no slip).** -/
theorem C36_euler_no_slip (p : Params) (U : State dim) (n : Vec dim) (D : State dim) :
    let V := applyBoundaryConditions p .noSlip U n D
    density V = density U ∧ totalEnergy V = totalEnergy U ∧ momentum V = 0 := by
  simp [applyBoundaryConditions]; rfl

/-- **C36 (Euler, admissibility).** Slip conditions never decrease the internal energy: an admissible
state remains admissible. -/
theorem C36_euler_slip_internal_energy (p : Params) (U : State dim) (n : Vec dim) (D : State dim)
    (hn : normSq n = 1) (h : 0 < density U) :
    internalEnergy U ≤ internalEnergy (applyBoundaryConditions p .slip U n D) ∧
      internalEnergy U ≤ internalEnergy (applyBoundaryConditions p .noSlip U n D) := by
  have hV : momentum (applyBoundaryConditions p .slip U n D)
      = momentum U + (-dot (momentum U) n) • n := by
    funext k
    simp [applyBoundaryConditions]; ring
  obtain ⟨h1, h2, -⟩ := C36_euler_slip p U n D hn
  obtain ⟨h3, h4, h5⟩ := C36_euler_no_slip p U n D
  have hd : 0 < 1 / density U := by positivity
  constructor
  · unfold internalEnergy
    rw [h1, h2, hV, normSq_add, dot_smul_right, normSq_smul, hn]
    nlinarith [mul_nonneg (sq_nonneg (dot (momentum U) n)) hd.le]
  · unfold internalEnergy
    rw [h3, h4, h5]
    have e : normSq (0 : Vec dim) = 0 := by simp [normSq]
    rw [e]
    nlinarith [mul_nonneg (normSq_nonneg (momentum U)) hd.le]

example : ∃ n : Vec 2, normSq n = 1 ∧ n 0 ≠ 0 ∧ n 1 ≠ 0 :=
  ⟨![3 / 5, 4 / 5], by norm_num [normSq], by norm_num, by norm_num⟩

/-! ### C37 -/

/-- Normal velocity (specification). -/
noncomputable def normalVelocity (U : State dim) (n : Vec dim) : ℝ := dot (momentum U) n / density U

/-- The Riemann invariants `v·n ∓ 2 a / (γ - 1)` (specification), with `a² = γ p / ρ`. -/
noncomputable def riemannInvariant (c : Characteristic) (p : Params) (U : State dim) (n : Vec dim) : ℝ :=
  match c with
  | .first => normalVelocity U n - 2 * √(p.gamma * pressure p U / density U) / (p.gamma - 1)
  | .second => normalVelocity U n + 2 * √(p.gamma * pressure p U / density U) / (p.gamma - 1)

/-- The other characteristic. -/
def Characteristic.other : Characteristic → Characteristic
  | .first => .second
  | .second => .first

/-- **C37 (Euler).** `prescribe_riemann_characteristic<c>(U, U_bar, n)` has the `c`-th Riemann invariant
of `U_bar`, the other Riemann invariant of `U`, and the tangential velocity and the entropy `p / ρ^γ` of
`U`, provided the invariants do not cross. -/
theorem C37_euler_riemann_characteristic (c : Characteristic) (p : Params) (U Ubar : State dim)
    (n : Vec dim) (hn : normSq n = 1) (hg : 1 < p.gamma) (hU : 0 < density U)
    (hp : 0 < pressure p U)
    (hR : match c with
      | .first => riemannInvariant .first p Ubar n < riemannInvariant .second p U n
      | .second => riemannInvariant .first p U n < riemannInvariant .second p Ubar n) :
    let V := prescribeRiemannCharacteristic c p U Ubar n
    0 < density V ∧ 0 < pressure p V ∧
      riemannInvariant c p V n = riemannInvariant c p Ubar n ∧
      riemannInvariant c.other p V n = riemannInvariant c.other p U n ∧
      pressure p V / density V ^ p.gamma = pressure p U / density U ^ p.gamma ∧
      ∀ t : Vec dim, dot n t = 0 →
        dot (momentum V) t / density V = dot (momentum U) t / density U := by
  intro V
  have hg1 : 0 < p.gamma - 1 := by linarith
  have hg0 : 0 < p.gamma := by linarith
  set s := pressure p U / density U ^ p.gamma with hs
  have hs0 : 0 < s := div_pos hp (Real.rpow_pos_of_pos hU _)
  have ha : ∀ W : State dim, speedOfSound p W = √(p.gamma * pressure p W / density W) := by
    intro W; unfold speedOfSound; rw [mul_one_div]
  obtain ⟨R1, R2, hR12, hVdef, hR1, hR2⟩ : ∃ R1 R2 : ℝ, R1 < R2 ∧
      (let w := ((1 / 2) * (R1 + R2)) • n + ((1 / density U) • momentum U
          + (-(dot (momentum U) n / density U)) • n)
       let r := (1 / (p.gamma * s) * ((p.gamma - 1) / 4 * (R2 - R1)) ^ 2) ^ (1 / (p.gamma - 1))
       density V = r ∧ momentum V = r • w ∧
        totalEnergy V = s * r ^ p.gamma / (p.gamma - 1) + (1 / 2) * r * ((1 / 2) * (R1 + R2) *
          ((1 / 2) * (R1 + R2)) + normSq ((1 / density U) • momentum U
          + (-(dot (momentum U) n / density U)) • n))) ∧
      R1 = (match c with
        | .first => riemannInvariant .first p Ubar n
        | .second => riemannInvariant .first p U n) ∧
      R2 = (match c with
        | .first => riemannInvariant .second p U n
        | .second => riemannInvariant .second p Ubar n) := by
    have ev : (fun i => momentum U i / density U - dot (momentum U) n / density U * n i)
        = (1 / density U) • momentum U + (-(dot (momentum U) n / density U)) • n := by
      funext i; simp; ring
    cases c
    · refine ⟨riemannInvariant .first p Ubar n, riemannInvariant .second p U n, hR, ?_, rfl, rfl⟩
      simp only [V, prescribeRiemannCharacteristic, ha]
      refine ⟨?_, ?_, ?_⟩
      · rw [density_mkState]; rfl
      · rw [momentum_mkState]
        funext i
        simp only [Pi.smul_apply, Pi.add_apply, smul_eq_mul, riemannInvariant, normalVelocity, hs]
        ring
      · rw [totalEnergy_mkState, ← ev]; rfl
    · refine ⟨riemannInvariant .first p U n, riemannInvariant .second p Ubar n, hR, ?_, rfl, rfl⟩
      simp only [V, prescribeRiemannCharacteristic, ha]
      refine ⟨?_, ?_, ?_⟩
      · rw [density_mkState]; rfl
      · rw [momentum_mkState]
        funext i
        simp only [Pi.smul_apply, Pi.add_apply, smul_eq_mul, riemannInvariant, normalVelocity, hs]
        ring
      · rw [totalEnergy_mkState, ← ev]; rfl
  simp only at hVdef
  set vp : Vec dim := (1 / density U) • momentum U + (-(dot (momentum U) n / density U)) • n with hvp
  set q := (p.gamma - 1) / 4 * (R2 - R1) with hq
  set r := (1 / (p.gamma * s) * q ^ 2) ^ (1 / (p.gamma - 1)) with hr
  set vn := (1 / 2) * (R1 + R2) with hvn
  obtain ⟨hrho, hm, hE⟩ := hVdef
  have hq0 : 0 < q := mul_pos (by positivity) (by linarith)
  have hbase : 0 < 1 / (p.gamma * s) * q ^ 2 := by positivity
  have hr0 : 0 < r := Real.rpow_pos_of_pos hbase _
  have hperp : dot n vp = 0 := by
    rw [hvp, dot_add_right, dot_smul_right, dot_smul_right, ← normSq_eq_dot, hn, dot_comm n]; ring
  have hw : normSq (vn • n + vp) = vn * vn + normSq vp := by
    rw [normSq_add, normSq_smul, dot_smul_left, hperp, hn]; ring
  have hpV : pressure p V = s * r ^ p.gamma := by
    rw [pressure_eq, hE, hm, hrho, normSq_smul, hw]
    field_simp; ring
  have hrpow : r ^ (p.gamma - 1) = 1 / (p.gamma * s) * q ^ 2 := by
    rw [hr, ← Real.rpow_mul hbase.le, one_div_mul_cancel hg1.ne', Real.rpow_one]
  have hsound : √(p.gamma * pressure p V / density V) = q := by
    have : p.gamma * pressure p V / density V = q ^ 2 := by
      rw [hpV, hrho]
      have : r ^ p.gamma = r ^ (p.gamma - 1) * r := by
        conv_lhs => rw [show p.gamma = (p.gamma - 1) + 1 by ring]
        rw [Real.rpow_add hr0, Real.rpow_one]
      rw [this, hrpow]; field_simp
    rw [this, Real.sqrt_sq hq0.le]
  have hdot : ∀ t, dot (momentum V) t / density V = vn * dot n t + dot vp t := by
    intro t
    rw [hm, hrho, dot_smul_left, dot_add_left, dot_smul_left]
    field_simp
  have hnv : normalVelocity V n = vn := by
    unfold normalVelocity
    rw [hdot, ← normSq_eq_dot, hn, dot_comm, hperp]; ring
  have h1 : riemannInvariant .first p V n = R1 := by
    simp only [riemannInvariant, hnv, hsound, hvn, hq]; field_simp; ring
  have h2 : riemannInvariant .second p V n = R2 := by
    simp only [riemannInvariant, hnv, hsound, hvn, hq]; field_simp; ring
  refine ⟨hrho ▸ hr0, by rw [hpV]; exact mul_pos hs0 (Real.rpow_pos_of_pos hr0 _), ?_, ?_, ?_, ?_⟩
  · cases c
    · exact h1.trans hR1
    · exact h2.trans hR2
  · cases c
    · exact h2.trans hR2
    · exact h1.trans hR1
  · rw [hpV, hrho, mul_div_cancel_right₀ _ (Real.rpow_pos_of_pos hr0 _).ne']
  · intro t ht
    rw [hdot, ht, hvp, dot_add_left, dot_smul_left, dot_smul_left, ht]; ring

/-- **C37 (Euler, dynamic boundary).** -/
theorem C37_euler_dynamic (p : Params) (U D : State dim) (n : Vec dim) :
    let vn := normalVelocity U n
    let a := √(p.gamma * pressure p U / density U)
    let V := applyBoundaryConditions p .dynamic U n D
    (vn < -a → V = D) ∧ (a < vn → V = U) ∧
      (-a ≤ vn → vn ≤ 0 → V = prescribeRiemannCharacteristic .second p D U n) ∧
      (0 < vn → vn ≤ a → V = prescribeRiemannCharacteristic .first p U D n) := by
  intro vn a V
  have ha : 0 ≤ a := Real.sqrt_nonneg _
  have hV : V = if vn < -a then D
    else if vn ≥ -a ∧ vn ≤ 0 then prescribeRiemannCharacteristic .second p D U n
    else if vn > 0 ∧ vn ≤ a then prescribeRiemannCharacteristic .first p U D n
    else U := by
    have : speedOfSound p U = a := by unfold speedOfSound; rw [mul_one_div]
    simp only [V, applyBoundaryConditions, this]; rfl
  refine ⟨fun h => ?_, fun h => ?_, fun h1 h2 => ?_, fun h1 h2 => ?_⟩
  · rw [hV, if_pos h]
  · rw [hV, if_neg (by linarith), if_neg (by rintro ⟨-, h'⟩; linarith),
      if_neg (by rintro ⟨-, h'⟩; linarith)]
  · rw [hV, if_neg (by linarith), if_pos ⟨h1, h2⟩]
  · rw [hV, if_neg (by linarith), if_neg (by rintro ⟨-, h'⟩; linarith), if_pos ⟨h1, h2⟩]

/-- Example: a gas at rest and a slightly expanded boundary state satisfy the hypotheses of
`C37_euler_riemann_characteristic`. -/
example : ∃ (p : Params) (U Ubar : State 1) (n : Vec 1), normSq n = 1 ∧ 1 < p.gamma ∧ 0 < density U ∧
    0 < pressure p U ∧ U ≠ Ubar ∧
    riemannInvariant .first p Ubar n < riemannInvariant .second p U n := by
  refine ⟨⟨2, 1, 1, 1, 0⟩, mkState 1 ![0] 2, mkState 2 ![0] 4, ![1], by norm_num [normSq], by norm_num,
    by norm_num, by norm_num [pressure_eq, normSq], fun h => ?_, ?_⟩
  · have := congrArg density h; norm_num at this
  · norm_num [riemannInvariant, normalVelocity, pressure_eq, normSq, dot]

/-! ### C52 -/

/-- **C52 (flux).** The flux in direction `n` is the textbook Euler flux
`(m·n, (m·n) m/ρ + p n, (m·n) (E + p)/ρ)` with `p = (γ-1)(E - |m|²/(2ρ))`. -/
theorem C52_euler_flux (p : Params) (rho : ℝ) (m : Vec dim) (E : ℝ) (n : Vec dim) :
    contract (f p (mkState rho m E)) n =
      let pr := (p.gamma - 1) * (E - (1 / 2) * normSq m / rho)
      mkState (dot m n) (fun i => dot m n * (m i / rho) + pr * n i) (dot m n * ((E + pr) / rho)) := by
  rw [contract_f, pressure_eq]; simp

/-- **C52 (flux divergence).** Exchanging the states and reversing `c_ij` reverses the flux divergence. -/
theorem C52_euler_flux_antisymmetric (F G : Fin (dim + 2) → Vec dim) (c : Vec dim) :
    fluxDivergence G F (-c) = -fluxDivergence F G c := by
  funext k
  simp [fluxDivergence, contract, addFlux, dot, add_comm]

/-- **C52 (consistency).** For equal states the flux divergence is `-2 f(U) c`. -/
theorem C52_euler_flux_consistent (p : Params) (U : State dim) (c : Vec dim) :
    fluxDivergence (f p U) (f p U) c = -(2 : ℝ) • contract (f p U) c := by
  funext k
  simp only [fluxDivergence, contract, addFlux, Pi.neg_apply, Pi.smul_apply, smul_eq_mul, dot_add_left]
  ring

/-- **C52 (rotations).** The flux is equivariant under every linear map that preserves the dot product. -/
theorem C52_euler_flux_rotation (p : Params) (U : State dim) (n : Vec dim)
    (Q : Vec dim →ₗ[ℝ] Vec dim) (hQ : ∀ a b, dot (Q a) (Q b) = dot a b) :
    contract (f p (applyGalileiTransform U Q)) (Q n)
      = applyGalileiTransform (contract (f p U) n) Q := by
  rw [contract_f, contract_f]
  have hp : pressure p (applyGalileiTransform U Q) = pressure p U := by
    simp [pressure_eq, applyGalileiTransform, normSq_eq_dot, hQ]
  rw [hp]
  apply state_ext
  · simp [applyGalileiTransform, hQ]
  · funext i
    simp only [applyGalileiTransform, momentum_mkState, density_mkState]
    have : (fun i => dot (momentum U) n * (momentum U i / density U) + pressure p U * n i)
        = (dot (momentum U) n / density U) • momentum U + pressure p U • n := by
      funext i; simp; ring
    rw [this, map_add, map_smul, map_smul, hQ]
    simp; ring
  · simp [applyGalileiTransform, hQ]

/-- The state seen by an observer moving with velocity `-w` (specification). -/
noncomputable def boost (w : Vec dim) (U : State dim) : State dim :=
  mkState (density U) (momentum U + density U • w)
    (totalEnergy U + dot (momentum U) w + (1 / 2) * density U * normSq w)

/-- **C52 (Galilei covariance).** `f(boost_w U) n = boost_w (f(U) n) + (w·n) boost_w U`, and the pressure
is invariant. -/
theorem C52_euler_flux_galilei (p : Params) (U : State dim) (n w : Vec dim) (h : density U ≠ 0) :
    pressure p (boost w U) = pressure p U ∧
    contract (f p (boost w U)) n = boost w (contract (f p U) n) + dot w n • boost w U := by
  have hp : pressure p (boost w U) = pressure p U := by
    rw [pressure_eq, pressure_eq]
    simp only [boost, totalEnergy_mkState, momentum_mkState, density_mkState, normSq_add, normSq_smul,
      dot_smul_right]
    field_simp; ring
  refine ⟨hp, ?_⟩
  rw [contract_f, contract_f, hp]
  apply state_ext
  · simp only [boost, density_mkState, momentum_mkState, density_add, density_smul, dot_add_left,
      dot_smul_left]
    ring
  · funext i
    simp only [boost, density_mkState, momentum_mkState, momentum_add, momentum_smul, dot_add_left,
      dot_smul_left, Pi.add_apply, Pi.smul_apply, smul_eq_mul]
    field_simp; ring
  · simp only [boost, density_mkState, momentum_mkState, totalEnergy_mkState, totalEnergy_add,
      totalEnergy_smul, dot_add_left, dot_smul_left]
    have e : dot (fun i => dot (momentum U) n * (momentum U i / density U) + pressure p U * n i) w
        = dot (momentum U) n * dot (momentum U) w / density U + pressure p U * dot w n := by
      have : (fun i => dot (momentum U) n * (momentum U i / density U) + pressure p U * n i)
          = (dot (momentum U) n / density U) • momentum U + pressure p U • n := by
        funext i; simp; ring
      rw [this, dot_add_left, dot_smul_left, dot_smul_left, dot_comm n w]; ring
    rw [e]
    field_simp; ring

/-- The derivative of the normal flux at `U` in direction `W` (specification: the product rule applied to
the textbook flux). -/
noncomputable def fluxJacobian (p : Params) (U W : State dim) (n : Vec dim) : State dim :=
  let rho := density U
  let dp := (p.gamma - 1) * (totalEnergy W - dot (momentum U) (momentum W) / rho
    + (1 / 2) * normSq (momentum U) / rho ^ 2 * density W)
  let mn := dot (momentum U) n
  mkState (dot (momentum W) n)
    (fun i => dot (momentum W) n * momentum U i / rho + mn * momentum W i / rho
      - mn * momentum U i / rho ^ 2 * density W + dp * n i)
    (dot (momentum W) n * (totalEnergy U + pressure p U) / rho
      + mn * (totalEnergy W + dp) / rho - mn * (totalEnergy U + pressure p U) / rho ^ 2 * density W)

/-- `fluxJacobian` is the derivative of the flux of the code along every line. -/
theorem C52_euler_flux_jacobian (p : Params) (U W : State dim) (n : Vec dim) (h : density U ≠ 0) :
    HasDerivAt (fun t : ℝ => contract (f p (U + t • W)) n) (fluxJacobian p U W n) 0 := by
  have hrho : HasDerivAt (fun t : ℝ => density (U + t • W)) (density W) 0 := by
    have := ((hasDerivAt_id' (0:ℝ)).mul_const (density W)).const_add (density U)
    exact this.congr_deriv (by ring)
  have hrho0 : density (U + (0:ℝ) • W) = density U := by simp
  have hE : HasDerivAt (fun t : ℝ => totalEnergy (U + t • W)) (totalEnergy W) 0 := by
    have := ((hasDerivAt_id' (0:ℝ)).mul_const (totalEnergy W)).const_add (totalEnergy U)
    exact this.congr_deriv (by ring)
  have hmn : HasDerivAt (fun t : ℝ => dot (momentum (U + t • W)) n) (dot (momentum W) n) 0 := by
    have e : (fun t : ℝ => dot (momentum (U + t • W)) n)
        = fun t => dot (momentum U) n + t * dot (momentum W) n := by
      funext t; rw [momentum_add, momentum_smul, dot_add_left, dot_smul_left]
    rw [e]
    exact (((hasDerivAt_id' (0:ℝ)).mul_const _).const_add _).congr_deriv (by ring)
  have hm2 : HasDerivAt (fun t : ℝ => normSq (momentum (U + t • W)))
      (2 * dot (momentum U) (momentum W)) 0 := by
    have e : (fun t : ℝ => normSq (momentum (U + t • W))) = fun t =>
        normSq (momentum U) + (t * (2 * dot (momentum U) (momentum W))
          + t ^ 2 * normSq (momentum W)) := by
      funext t; rw [momentum_add, momentum_smul, normSq_add, dot_smul_right, normSq_smul]; ring
    rw [e]
    have := (((hasDerivAt_id' (0:ℝ)).mul_const (2 * dot (momentum U) (momentum W))).add
      (((hasDerivAt_id' (0:ℝ)).pow 2).mul_const (normSq (momentum W)))).const_add (normSq (momentum U))
    exact this.congr_deriv (by simp)
  have hp : HasDerivAt (fun t : ℝ => pressure p (U + t • W))
      ((p.gamma - 1) * (totalEnergy W - dot (momentum U) (momentum W) / density U
        + (1 / 2) * normSq (momentum U) / density U ^ 2 * density W)) 0 := by
    simp only [pressure_eq]
    have := ((hE.sub ((hm2.const_mul (1 / 2)).div hrho (by rw [hrho0]; exact h))).const_mul (p.gamma - 1))
    refine this.congr_deriv ?_
    simp only [zero_smul, add_zero]
    field_simp; ring
  have key : ∀ k, HasDerivAt (fun t : ℝ => contract (f p (U + t • W)) n k) (fluxJacobian p U W n k) 0 := by
    intro k
    simp only [contract_f]
    refine Fin.cases ?_ (fun k => Fin.lastCases ?_ (fun i => ?_) k) k
    · exact hmn
    · have e1 : ∀ (a : ℝ) (b : Vec dim) (c : ℝ), mkState a b c (Fin.last dim).succ = c :=
        fun a b c => totalEnergy_mkState a b c
      simp only [fluxJacobian, e1]
      have := hmn.mul ((hE.add hp).div hrho (by rw [hrho0]; exact h))
      refine this.congr_deriv ?_
      simp only [zero_smul, add_zero, Pi.add_apply, Pi.div_apply]
      field_simp
      ring
    · have e1 : ∀ (a : ℝ) (b : Vec dim) (c : ℝ), mkState a b c i.castSucc.succ = b i :=
        fun a b c => congrFun (momentum_mkState a b c) i
      simp only [fluxJacobian, e1]
      have hmi : HasDerivAt (fun t : ℝ => momentum (U + t • W) i) (momentum W i) 0 := by
        have := ((hasDerivAt_id' (0:ℝ)).mul_const (momentum W i)).const_add (momentum U i)
        exact this.congr_deriv (by ring)
      have := (hmn.mul (hmi.div hrho (by rw [hrho0]; exact h))).add (hp.mul_const (n i))
      refine this.congr_deriv ?_
      simp only [zero_smul, add_zero, Pi.div_apply]
      field_simp
      ring
  exact hasDerivAt_pi.2 key

/-- **C52 (eigenvectors).** For an admissible state, the pair `(b, c)` returned by
`linearized_eigenvector<1>` consists of a left and a right eigenvector of the flux Jacobian in direction
`n` for the eigenvalue `v·n - a`, normalised to `b·c = 1`; the pair returned for the last component has
the eigenvalue `v·n + a`; and the two families are biorthogonal. -/
theorem C52_euler_eigenvectors (p : Params) (U : State dim) (n : Vec dim) (hn : normSq n = 1)
    (hg : 1 < p.gamma) (hU : 0 < density U) (hp : 0 < pressure p U) :
    let a := √(p.gamma * pressure p U / density U)
    let vn := normalVelocity U n
    let e1 := linearizedEigenvectorFirst p U n
    let e2 := linearizedEigenvectorLast p U n
    fluxJacobian p U e1.2 n = (vn - a) • e1.2 ∧ fluxJacobian p U e2.2 n = (vn + a) • e2.2 ∧
      (∀ W, dot e1.1 (fluxJacobian p U W n) = (vn - a) * dot e1.1 W) ∧
      (∀ W, dot e2.1 (fluxJacobian p U W n) = (vn + a) * dot e2.1 W) ∧
      dot e1.1 e1.2 = 1 ∧ dot e2.1 e2.2 = 1 ∧ dot e1.1 e2.2 = 0 ∧ dot e2.1 e1.2 = 0 := by
  intro a vn e1 e2
  have hg1 : 0 < p.gamma - 1 := by linarith
  have hg0 : 0 < p.gamma := by linarith
  have ha : 0 < a := Real.sqrt_pos.2 (by positivity)
  have ha2 : a ^ 2 = p.gamma * pressure p U / density U := Real.sq_sqrt (by positivity)
  have hsound : speedOfSound p U = a := by unfold speedOfSound; rw [mul_one_div]
  set rho := density U with hrho
  set m := momentum U with hm
  set v : Vec dim := (1 / rho) • m with hv
  have hvf : (fun i => m i / rho) = v := by funext i; simp [hv]; ring
  have hmv : m = rho • v := by
    funext i; simp [hv]; field_simp
  have hvn : vn = dot v n := by
    simp only [vn, normalVelocity, hv, dot_smul_left, ← hrho, ← hm]; ring
  set w := dot v n with hw
  set k2 := normSq v with hk2
  have hpE : totalEnergy U = rho * a ^ 2 / (p.gamma * (p.gamma - 1)) + (1 / 2) * rho * k2 := by
    have := pressure_eq p U
    rw [← hm, hmv, normSq_smul, ← hrho, ← hk2] at this
    rw [ha2, this]; field_simp; ring
  have hpr : pressure p U = rho * a ^ 2 / p.gamma := by rw [ha2]; field_simp
  have hmn : dot m n = rho * w := by rw [hmv, dot_smul_left]
  have hm2 : normSq m = rho ^ 2 * k2 := by rw [hmv, normSq_smul]
  have hmd : ∀ W : Vec dim, dot m W = rho * dot v W := by intro W; rw [hmv, dot_smul_left]
  have hmi : ∀ i, m i = rho * v i := fun i => by rw [hmv]; simp
  -- both pairs at once, with a sign
  set b : ℝ → State dim := fun σ => (1 / (2 * a * a)) • mkState ((p.gamma - 1) * ((1 / 2) * k2) - σ * a * w)
      ((1 - p.gamma) • v + (σ * a) • n) (p.gamma - 1) with hb
  set c : ℝ → State dim := fun σ => mkState 1 (v + (σ * a) • n)
      (a * a / (p.gamma - 1) + (1 / 2) * k2 + σ * a * w) with hc
  have hvi : ∀ i, m i / rho = v i := fun i => congrFun hvf i
  have q : ∀ {r r' : ℝ} {M M' : Vec dim} {e e' : ℝ}, r = r' → M = M' → e = e' →
      mkState r M e = mkState r' M' e' := by
    rintro r _ M _ e _ rfl rfl rfl; rfl
  have E1 : e1 = (b (-1), c (-1)) := by
    simp only [e1, linearizedEigenvectorFirst, hsound, ← hm, ← hrho, hb, hc]
    rw [hvf, ← hw, ← hk2]
    refine Prod.ext (funext fun k => ?_) (q ?_ ?_ ?_)
    · simp only [Pi.smul_apply, smul_eq_mul]
      rw [one_div_mul_eq_div (2 * a * a)]
      congr 1
      refine congrFun (q ?_ ?_ rfl) k
      · ring
      · funext i
        simp only [Pi.add_apply, Pi.smul_apply, smul_eq_mul, ← hvi]; ring
    · rfl
    · funext i
      simp only [Pi.add_apply, Pi.smul_apply, smul_eq_mul, ← hvi]; ring
    · ring
  have E2 : e2 = (b 1, c 1) := by
    simp only [e2, linearizedEigenvectorLast, hsound, ← hm, ← hrho, hb, hc]
    rw [hvf, ← hw, ← hk2]
    refine Prod.ext (funext fun k => ?_) (q ?_ ?_ ?_)
    · simp only [Pi.smul_apply, smul_eq_mul]
      rw [one_div_mul_eq_div (2 * a * a)]
      congr 1
      refine congrFun (q ?_ ?_ rfl) k
      · ring
      · funext i
        simp only [Pi.add_apply, Pi.smul_apply, smul_eq_mul, ← hvi]; ring
    · rfl
    · funext i
      simp only [Pi.add_apply, Pi.smul_apply, smul_eq_mul, ← hvi]; ring
    · ring
  have right : ∀ σ : ℝ, σ ^ 2 = 1 → fluxJacobian p U (c σ) n = (w + σ * a) • c σ := by
    intro σ hσ
    simp only [fluxJacobian, ← hm, ← hrho, hc]
    apply state_ext
    · simp only [density_mkState, momentum_mkState, density_smul, dot_add_left, dot_smul_left,
        ← normSq_eq_dot, hn, ← hw]; ring
    · funext i
      simp only [density_mkState, momentum_mkState, totalEnergy_mkState, momentum_smul, dot_add_left,
        dot_smul_left, ← normSq_eq_dot n, hn, ← hw, hmn, hm2, hmd, dot_add_right, dot_smul_right,
        ← normSq_eq_dot v, ← hk2, Pi.add_apply, Pi.smul_apply, smul_eq_mul, hmi]
      field_simp
      ring_nf
      simp only [hσ]
      ring
    · simp only [density_mkState, momentum_mkState, totalEnergy_mkState, totalEnergy_smul, dot_add_left,
        dot_smul_left, ← normSq_eq_dot n, hn, ← hw, hmn, hm2, hmd, dot_add_right, dot_smul_right,
        ← normSq_eq_dot v, ← hk2, hpE, hpr]
      field_simp
      ring_nf
      simp only [hσ]
      ring
  have left : ∀ σ : ℝ, σ ^ 2 = 1 → ∀ W : State dim,
      dot (b σ) (fluxJacobian p U W n) = (w + σ * a) * dot (b σ) W := by
    intro σ hσ W
    have hvec : (fun i => dot (momentum W) n * m i / rho + dot m n * momentum W i / rho
        - dot m n * m i / rho ^ 2 * density W + (p.gamma - 1) * (totalEnergy W - dot m (momentum W) / rho
          + (1 / 2) * normSq m / rho ^ 2 * density W) * n i)
        = (dot (momentum W) n - w * density W) • v + (w • momentum W + ((p.gamma - 1) * (totalEnergy W
          - dot v (momentum W) + (1 / 2) * k2 * density W)) • n) := by
      funext i
      simp only [hmn, hm2, hmd, hmi, Pi.add_apply, Pi.smul_apply, smul_eq_mul]
      field_simp; ring
    simp only [fluxJacobian, ← hm, ← hrho, hb, dot_smul_left]
    rw [dot_state, dot_state, hvec]
    simp only [density_mkState, momentum_mkState, totalEnergy_mkState, dot_add_left, dot_smul_left,
      dot_add_right, dot_smul_right, ← normSq_eq_dot n, hn, ← hw, hmn, hm2, hmd,
        ← normSq_eq_dot v, ← hk2, hpE, hpr, dot_comm n v, dot_comm n (momentum W)]
    field_simp
    ring_nf
    simp only [hσ]
    ring
  have norm : ∀ σ τ : ℝ, dot (b σ) (c τ) = (1 + σ * τ) / 2 := by
    intro σ τ
    simp only [hb, hc, dot_smul_left]
    rw [dot_state]
    simp only [density_mkState, momentum_mkState, totalEnergy_mkState, dot_add_left, dot_smul_left,
      dot_add_right, dot_smul_right, ← normSq_eq_dot n, hn, ← hw, ← normSq_eq_dot v, ← hk2,
      dot_comm n v]
    field_simp
    ring
  rw [hvn, E1, E2]
  have em : w - a = w + -1 * a := by ring
  have ep : w + a = w + 1 * a := by ring
  refine ⟨?_, ?_, ?_, ?_, ?_, ?_, ?_, ?_⟩
  · rw [em]; exact right (-1) (by norm_num)
  · rw [ep]; exact right 1 (by norm_num)
  · rw [em]; exact left (-1) (by norm_num)
  · rw [ep]; exact left 1 (by norm_num)
  · rw [norm]; norm_num
  · rw [norm]; norm_num
  · rw [norm]; norm_num
  · rw [norm]; norm_num

end Euler
end Ryujin
