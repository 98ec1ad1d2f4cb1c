import Verif.Model.EulerLimiter

/-!
# Model of `source/shallow_water/*` (namespace `ryujin::ShallowWater`)

`Number` is idealised as `ℝ`.  All functions are lane-wise except the limiter, which is modelled with
all lanes.  `eps` is `numeric_limits::epsilon()`, `tiny` is `numeric_limits::min()`.
-/

namespace Ryujin

noncomputable section

/-- `positive_part` (simd.h:112-115). -/
def positivePart (x : ℝ) : ℝ := (1 / 2) * (|x| + x)

/-- `negative_part` (simd.h:124-127). -/
def negativePart (x : ℝ) : ℝ := (1 / 2) * (|x| - x)

namespace ShallowWater

/-- Run-time parameters (shallow_water/hyperbolic_system.h:643-673) and the number type's constants. -/
structure Params where
  gravity : ℝ
  manning_friction_coefficient : ℝ
  reference_water_depth : ℝ
  dry_state_relaxation_factor : ℝ
  dry_state_relaxation_small : ℝ
  dry_state_relaxation_large : ℝ
  eps : ℝ
  tiny : ℝ

/-- `state_type = Tensor<1, dim + 1>`: `[h, m_1, ..., m_d]`. (shallow_water/hyperbolic_system.h:190) -/
abbrev State (dim : ℕ) := Vec (dim + 1)

variable {dim : ℕ}

/-- The state with given components. (shallow_water/hyperbolic_system.h:1252-1272) -/
def mkState (h : ℝ) (m : Vec dim) : State dim := Fin.cons (α := fun _ => ℝ) h m

/-- `water_depth` (shallow_water/hyperbolic_system.h:719-724). -/
def waterDepth (U : State dim) : ℝ := U 0

/-- `momentum` (shallow_water/hyperbolic_system.h:786-795). -/
def momentum (U : State dim) : Vec dim := fun i => U i.succ

/-- `inverse_water_depth_mollified` (shallow_water/hyperbolic_system.h:727-742). -/
def inverseWaterDepthMollified (p : Params) (U : State dim) : ℝ :=
  let h_cutoff_mollified := p.reference_water_depth * p.dry_state_relaxation_large * p.eps
  let h := waterDepth U
  let h_pos := positivePart (waterDepth U)
  let h_max := max h h_cutoff_mollified
  let denom := h * h + h_max * h_max
  2 * h_pos / denom

/-- `water_depth_sharp` (shallow_water/hyperbolic_system.h:745-758). -/
def waterDepthSharp (p : Params) (U : State dim) : ℝ :=
  max (waterDepth U) (p.reference_water_depth * p.dry_state_relaxation_small * p.eps)

/-- `inverse_water_depth_sharp` (shallow_water/hyperbolic_system.h:761-767). -/
def inverseWaterDepthSharp (p : Params) (U : State dim) : ℝ := 1 / waterDepthSharp p U

/-- `filter_dry_water_depth` (shallow_water/hyperbolic_system.h:770-783). -/
def filterDryWaterDepth (p : Params) (h : ℝ) : ℝ :=
  maskLt |h| (p.reference_water_depth * p.dry_state_relaxation_large * p.eps) 0 h

/-- `kinetic_energy` (shallow_water/hyperbolic_system.h:798-807). -/
def kineticEnergy (p : Params) (U : State dim) : ℝ :=
  (1 / 2) * waterDepth U * normSq (inverseWaterDepthSharp p U • momentum U)

/-- `pressure` (shallow_water/hyperbolic_system.h:810-818). -/
def pressure (p : Params) (U : State dim) : ℝ := (1 / 2) * p.gravity * (waterDepth U * waterDepth U)

/-- `speed_of_sound` (shallow_water/hyperbolic_system.h:821-827). -/
def speedOfSound (p : Params) (U : State dim) : ℝ := Real.sqrt (p.gravity * waterDepth U)

/-- `mathematical_entropy` (shallow_water/hyperbolic_system.h:830-838). -/
def mathematicalEntropy (p : Params) (U : State dim) : ℝ := pressure p U + kineticEnergy p U

/-- `mathematical_entropy_derivative` (shallow_water/hyperbolic_system.h:841-871). -/
def mathematicalEntropyDerivative (p : Params) (U : State dim) : State dim :=
  let vel := inverseWaterDepthSharp p U • momentum U
  mkState (p.gravity * waterDepth U - (1 / 2) * normSq vel) vel

/-- `is_admissible` (shallow_water/hyperbolic_system.h:874-893) on `L` lanes. -/
def isAdmissible {L : ℕ} (p : Params) (U : Fin L → State dim) : Prop :=
  ∀ l, (if filterDryWaterDepth p (waterDepth (U l)) ≥ 0 then (0 : ℝ) else -1) = 0

/-- `prescribe_riemann_characteristic<component>` (shallow_water/hyperbolic_system.h:896-942). -/
def prescribeRiemannCharacteristic (c : Euler.Characteristic) (p : Params) (U Ubar : State dim)
    (normal : Vec dim) : State dim :=
  let m := momentum U
  let a := speedOfSound p U
  let vn := dot m normal * inverseWaterDepthSharp p U
  let a_bar := speedOfSound p Ubar
  let vn_bar := dot (momentum Ubar) normal * inverseWaterDepthSharp p Ubar
  let R_1 := match c with
    | .first => vn_bar - 2 * a_bar
    | .second => vn - 2 * a
  let R_2 := match c with
    | .second => vn_bar + 2 * a_bar
    | .first => vn + 2 * a
  let vperp : Vec dim := fun i => m i * inverseWaterDepthSharp p U - vn * normal i
  let vn_new := (1 / 2) * (R_1 + R_2)
  let h_new := ((R_2 - R_1) / 4) ^ 2 / p.gravity
  mkState h_new (fun i => h_new * (vn_new * normal i + vperp i))

/-- The `Boundary` ids distinguished by `apply_boundary_conditions`. (discretization.h:48-120) -/
inductive Boundary
  | doNothing
  | dirichlet
  | dirichletMomentum
  | slip
  | noSlip
  | dynamic
  | other

/-- `apply_boundary_conditions` (shallow_water/hyperbolic_system.h:945-1019). -/
def applyBoundaryConditions (p : Params) (id : Boundary) (U : State dim) (normal : Vec dim)
    (dirichlet : State dim) : State dim :=
  match id with
  | .dirichlet => dirichlet
  | .dirichletMomentum => mkState (waterDepth U) (momentum dirichlet)
  | .slip => mkState (waterDepth U) (fun k => momentum U k - 1 * dot (momentum U) normal * normal k)
  | .noSlip => mkState (waterDepth U) (fun _ => 0)
  | .dynamic =>
    let a := speedOfSound p U
    let vn := dot (momentum U) normal * inverseWaterDepthSharp p U
    if vn < -a then dirichlet
    else if vn ≥ -a ∧ vn ≤ 0 then prescribeRiemannCharacteristic .second p dirichlet U normal
    else if vn > 0 ∧ vn ≤ a then prescribeRiemannCharacteristic .first p U dirichlet normal
    else U
  | .doNothing => U
  | .other => U

/-- `g(U)` (shallow_water/hyperbolic_system.h:1041-1055): the flux without pressure. -/
def g (p : Params) (U : State dim) : Fin (dim + 1) → Vec dim :=
  let h_inverse := inverseWaterDepthSharp p U
  let m := momentum U
  Fin.cons (α := fun _ => Vec dim) (fun k => m k * h_inverse * waterDepth U)
    (fun i => fun k => m k * h_inverse * m i)

/-- `f(U)` (shallow_water/hyperbolic_system.h:1022-1038). -/
def f (p : Params) (U : State dim) : Fin (dim + 1) → Vec dim :=
  let h_inverse := inverseWaterDepthSharp p U
  let m := momentum U
  Fin.cons (α := fun _ => Vec dim) (fun k => m k * h_inverse * waterDepth U)
    (fun i => fun k => m k * h_inverse * m i + if k = i then pressure p U else 0)

/-- `star_state` (shallow_water/hyperbolic_system.h:1058-1070). -/
def starState (p : Params) (U : State dim) (Z_left Z_right : ℝ) : State dim :=
  let Z_max := max Z_left Z_right
  let h := waterDepth U
  let H_star := max 0 (h + Z_left - Z_max)
  (H_star * inverseWaterDepthMollified p U) • U

/-- `flux_contribution_type`: a state and the bathymetry (`flux_contribution`,
shallow_water/hyperbolic_system.h:1089-1112). -/
structure FluxContribution (dim : ℕ) where
  U : State dim
  Z : ℝ

/-- `equilibrated_states` (shallow_water/hyperbolic_system.h:1073-1086). -/
def equilibratedStates (p : Params) (flux_i flux_j : FluxContribution dim) : State dim × State dim :=
  (starState p flux_i.U flux_i.Z flux_j.Z, starState p flux_j.U flux_j.Z flux_i.Z)

/-- `for i < dim: result[1 + i][i] -= factor` (shallow_water/hyperbolic_system.h:1139-1141, 1167-1169). -/
def subDiagonal (F : Fin (dim + 1) → Vec dim) (factor : ℝ) : Fin (dim + 1) → Vec dim :=
  Fin.cons (α := fun _ => Vec dim) (F 0)
    (fun i => fun k => F i.succ k - if k = i then factor else 0)

/-- `flux_divergence` (shallow_water/hyperbolic_system.h:1115-1144). -/
def fluxDivergence (p : Params) (flux_i flux_j : FluxContribution dim) (c_ij : Vec dim) : State dim :=
  let s := equilibratedStates p flux_i flux_j
  let H_i := waterDepth flux_i.U
  let H_star_ij := waterDepth s.1
  let H_star_ji := waterDepth s.2
  let result := -addFlux (g p s.1) (g p s.2)
  let factor := ((1 / 2) * (H_star_ji * H_star_ji - H_star_ij * H_star_ij) + H_i * H_i) * p.gravity
  contract (subDiagonal result factor) c_ij

/-- `high_order_flux_divergence` (shallow_water/hyperbolic_system.h:1147-1171). -/
def highOrderFluxDivergence (p : Params) (flux_i flux_j : FluxContribution dim) (c_ij : Vec dim) :
    State dim :=
  let H_i := waterDepth flux_i.U
  let H_j := waterDepth flux_j.U
  let result := -addFlux (g p flux_i.U) (g p flux_j.U)
  let factor := p.gravity * H_i * (H_j + flux_j.Z - flux_i.Z)
  contract (subDiagonal result factor) c_ij

/-- `affine_shift` (shallow_water/hyperbolic_system.h:1174-1191). -/
def affineShift (p : Params) (flux_i flux_j : FluxContribution dim) (c_ij : Vec dim) (d_ij : ℝ) :
    State dim :=
  let U_star_ij := starState p flux_i.U flux_i.Z flux_j.Z
  let h_inverse := inverseWaterDepthSharp p flux_i.U
  let m := momentum flux_i.U
  let factor := 2 * (d_ij + h_inverse * dot m c_ij)
  (-factor) • (U_star_ij - flux_i.U)

/-- `manning_friction` (shallow_water/hyperbolic_system.h:1194-1218); `result[0]` is value initialised
to zero. -/
def manningFriction (p : Params) (U : State dim) (h_star tau : ℝ) : State dim :=
  let n := p.manning_friction_coefficient
  let h_inverse := inverseWaterDepthMollified p U
  let m := momentum U
  let v_norm := vnorm (h_inverse • m)
  let factor := 2 * p.gravity * n * n * v_norm
  let denominator := h_star + max h_star (tau * factor)
  let denominator_inverse := 1 / denominator
  mkState 0 (fun d => -factor * denominator_inverse * m d)

/-- The precomputed `h_star = water_depth_sharp^(4/3)` (`precomputation_loop`,
shallow_water/hyperbolic_system.h:676-716). -/
def precomputedHStar (p : Params) (U : State dim) : ℝ := waterDepthSharp p U ^ ((4 : ℝ) / 3)

/-- `nodal_source` (shallow_water/hyperbolic_system.h:1221-1249). -/
def nodalSource (p : Params) (U : State dim) (tau : ℝ) : State dim :=
  manningFriction p U (precomputedHStar p U) tau

/-- `expand_state` (shallow_water/hyperbolic_system.h:1252-1271). -/
def expandState {dim2 : ℕ} (state : State dim2) : State dim :=
  mkState (waterDepth state) (fun i => if h : i.1 < dim2 then momentum state ⟨i.1, h⟩ else 0)

/-- `from_primitive_state` (shallow_water/hyperbolic_system.h:1284-1297). -/
def fromPrimitiveState (prim : State dim) : State dim :=
  mkState (waterDepth prim) (fun i => momentum prim i * waterDepth prim)

/-- `from_initial_state` (shallow_water/hyperbolic_system.h:1273-1281). -/
def fromInitialState {dim2 : ℕ} (initial : State dim2) : State dim :=
  fromPrimitiveState (expandState initial)

/-- `to_primitive_state` (shallow_water/hyperbolic_system.h:1300-1313). -/
def toPrimitiveState (p : Params) (state : State dim) : State dim :=
  mkState (waterDepth state) (fun i => momentum state i * inverseWaterDepthSharp p state)

/-- `apply_galilei_transform` (shallow_water/hyperbolic_system.h:1316-1326). -/
def applyGalileiTransform (state : State dim) (lam : Vec dim → Vec dim) : State dim :=
  mkState (waterDepth state) (lam (momentum state))

/-! ### Riemann solver -/

/-- `primitive_type = std::array<Number, 3>`: `{h, u, a}`. (shallow_water/riemann_solver.h:67) -/
structure RiemannData where
  h : ℝ
  u : ℝ
  a : ℝ

/-- `f(riemann_data_Z, h)` (shallow_water/riemann_solver.template.h:25-44). -/
def riemannF (gravity : ℝ) (z : RiemannData) (h : ℝ) : ℝ :=
  let left_value := 2 * (Real.sqrt (gravity * h) - z.a)
  let radicand := (1 / 2) * gravity * (h + z.h) / (h * z.h)
  let right_value := (h - z.h) * Real.sqrt radicand
  if h ≤ z.h then left_value else right_value

/-- `phi` (shallow_water/riemann_solver.template.h:47-61). -/
def phi (gravity : ℝ) (i j : RiemannData) (h : ℝ) : ℝ :=
  riemannF gravity i h + riemannF gravity j h + j.u - i.u

/-- `lambda1_minus` (shallow_water/riemann_solver.template.h:64-76). -/
def lambda1Minus (d : RiemannData) (h_star : ℝ) : ℝ :=
  let factor := positivePart ((h_star - d.h) / d.h)
  let half_factor := (1 / 2) * factor
  d.u - d.a * Real.sqrt ((1 + half_factor) * (1 + factor))

/-- `lambda3_plus` (shallow_water/riemann_solver.template.h:79-91). -/
def lambda3Plus (d : RiemannData) (h_star : ℝ) : ℝ :=
  let factor := positivePart ((h_star - d.h) / d.h)
  let half_factor := (1 / 2) * factor
  d.u + d.a * Real.sqrt ((1 + half_factor) * (1 + factor))

/-- `compute_lambda` (shallow_water/riemann_solver.template.h:94-105). -/
def computeLambda (i j : RiemannData) (h_star : ℝ) : ℝ :=
  max (negativePart (lambda1Minus i h_star)) (positivePart (lambda3Plus j h_star))

/-- `h_star_left` (shallow_water/riemann_solver.template.h:156-160); its value is overwritten by the
second mask (lines 196-203), see `computeHStar`. -/
def hStarLeft (gravity : ℝ) (i j : RiemannData) : ℝ :=
  let tmp := positivePart (i.u - j.u + 2 * (i.a + j.a))
  (1 / 16) * (1 / gravity) * tmp * tmp

/-- `h_star_middle` (shallow_water/riemann_solver.template.h:121-129, 168-169). -/
def hStarMiddle (gravity : ℝ) (i j : RiemannData) : ℝ :=
  let h_min := min i.h j.h
  let h_max := max i.h j.h
  let a_min := Real.sqrt (gravity * h_min)
  let a_max := Real.sqrt (gravity * h_max)
  let tmp := 1 + Real.sqrt 2 * (i.u - j.u) / (a_min + a_max)
  Real.sqrt (h_min * h_max) * tmp

/-- `h_star_right` (shallow_water/riemann_solver.template.h:177-187). -/
def hStarRight (gravity : ℝ) (i j : RiemannData) : ℝ :=
  let h_min := min i.h j.h
  let h_max := max i.h j.h
  let left_radicand := 3 * h_min + 2 * Real.sqrt 2 * Real.sqrt (h_min * h_max)
  let right_radicand := Real.sqrt 2 * Real.sqrt (1 / gravity * h_min) * (i.u - j.u)
  let tmp := Real.sqrt (positivePart (left_radicand + right_radicand)) - Real.sqrt 2 * Real.sqrt h_min
  tmp * tmp

/-- `compute_h_star` (shallow_water/riemann_solver.template.h:108-204).  The code assigns `h_star` twice:
the first assignment (`0 <= phi_value_min ? left : right`) is dead. -/
def computeHStar (gravity : ℝ) (i j : RiemannData) : ℝ :=
  let h_min := min i.h j.h
  let h_max := max i.h j.h
  let x0 := 9 - 4 * Real.sqrt 2
  let phi_value_min := phi gravity i j (x0 * h_min)
  let phi_value_max := phi gravity i j (x0 * h_max)
  let _h_star := if 0 ≤ phi_value_min then hStarLeft gravity i j else hStarRight gravity i j
  maskLt phi_value_max 0 (hStarMiddle gravity i j) (hStarRight gravity i j)

/-- `riemann_data_from_state` (shallow_water/riemann_solver.template.h:207-223). -/
def riemannDataFromState (p : Params) (U : State dim) (n_ij : Vec dim) : RiemannData :=
  let h := waterDepthSharp p U
  let velocity : Vec dim := fun k => momentum U k / h
  ⟨h, dot n_ij velocity, Real.sqrt (h * p.gravity)⟩

/-- `compute(riemann_data_i, riemann_data_j)` (shallow_water/riemann_solver.template.h:226-237). -/
def riemannCompute (gravity : ℝ) (i j : RiemannData) : ℝ := computeLambda i j (computeHStar gravity i j)

/-- `compute(U_i, U_j, i, js, n_ij)` (shallow_water/riemann_solver.template.h:240-251). -/
def riemann (p : Params) (U_i U_j : State dim) (n_ij : Vec dim) : ℝ :=
  riemannCompute p.gravity (riemannDataFromState p U_i n_ij) (riemannDataFromState p U_j n_ij)

/-! ### Indicator -/

/-- The private data of `Indicator` (shallow_water/indicator.h:133-148) used by `alpha`. -/
structure IndicatorState (dim : ℕ) where
  eta_i : ℝ
  d_eta_i : State dim
  f_i : Fin (dim + 1) → Vec dim
  left : ℝ
  right : State dim

/-- `reset` (shallow_water/indicator.h:155-174); the precomputed `eta_m` is the mathematical entropy
(`precomputation_loop`). -/
def IndicatorState.reset (p : Params) (U_i : State dim) : IndicatorState dim :=
  ⟨mathematicalEntropy p U_i, mathematicalEntropyDerivative p U_i, f p U_i, 0, 0⟩

/-- `accumulate` (shallow_water/indicator.h:177-199). -/
def IndicatorState.accumulate (p : Params) (st : IndicatorState dim) (U_j : State dim)
    (c_ij : Vec dim) : IndicatorState dim :=
  let eta_j := mathematicalEntropy p U_j
  let velocity_j := inverseWaterDepthSharp p U_j • momentum U_j
  let f_j := f p U_j
  { st with
    left := st.left + (eta_j + pressure p U_j) * dot velocity_j c_ij
    right := fun k => st.right k + dot (f_j k - st.f_i k) c_ij }

/-- `alpha` (shallow_water/indicator.h:202-222). -/
def IndicatorState.alpha (st : IndicatorState dim) (tiny evc_factor hd_i : ℝ) : ℝ :=
  let my_sum := ∑ k, st.d_eta_i k * st.right k
  let numerator := |st.left - my_sum|
  let denominator := |st.left| + |my_sum|
  let regularization := 100 * tiny
  let quotient := |numerator| / (denominator + max (hd_i * |st.eta_i|) regularization)
  min 1 (evc_factor * quotient)

/-- The indicator of a row: `reset`, `accumulate` over the row, `alpha`
(hyperbolic_module.template.h:352-424). -/
def indicator (p : Params) (evc_factor hd_i : ℝ) (U_i : State dim) (row : List (State dim × Vec dim)) :
    ℝ :=
  (row.foldl (fun st e => st.accumulate p e.1 e.2) (IndicatorState.reset p U_i)).alpha
    p.tiny evc_factor hd_i

/-! ### Limiter -/

/-- `LimiterParameters` (shallow_water/limiter.h:25-60), the parameters `limit` and `bounds` read. -/
structure LimiterParams where
  newton_tolerance : ℝ
  relaxation_factor : ℝ
  limit_on_kinetic_energy : Bool
  limit_on_square_velocity : Bool

/-- `Limiter::Bounds`: `{h_min, h_max, h_small, kin_max, v2_max}`. -/
@[ext] structure Bounds where
  h_min : ℝ
  h_max : ℝ
  h_small : ℝ
  kin_max : ℝ
  v2_max : ℝ

/-- The accumulated data of a limiter (shallow_water/limiter.h:220-233). -/
structure LimiterState where
  bounds : Bounds
  h_relaxation_numerator : ℝ
  kin_relaxation_numerator : ℝ
  v2_relaxation_numerator : ℝ
  relaxation_denominator : ℝ

/-- `reset` (shallow_water/limiter.h:247-267); `big` is `numeric_limits::max()`. -/
def LimiterState.reset (big : ℝ) : LimiterState := ⟨⟨big, 0, 0, 0, 0⟩, 0, 0, 0, 0⟩

/-- The shifted bar state (shallow_water/limiter.h:279-290). -/
def barState (p : Params) (U_star_ij U_star_ji : State dim) (scaled_c : Vec dim)
    (affine_shift : State dim) : State dim :=
  (1 / 2 : ℝ) • (U_star_ij + U_star_ji
    + contract (addFlux (f p U_star_ij) (-f p U_star_ji)) scaled_c) + affine_shift

/-- `accumulate` (shallow_water/limiter.h:270-328). -/
def LimiterState.accumulate (p : Params) (U_i : State dim) (st : LimiterState)
    (U_j U_star_ij U_star_ji : State dim) (scaled_c : Vec dim) (affine_shift : State dim) :
    LimiterState :=
  let bar := barState p U_star_ij U_star_ji scaled_c affine_shift
  let h_bar := waterDepth bar
  let kin_bar := kineticEnergy p bar
  let v_bar := inverseWaterDepthMollified p bar • momentum bar
  let beta := 1
  let vel_i := inverseWaterDepthMollified p U_i • momentum U_i
  let vel_j := inverseWaterDepthMollified p U_j • momentum U_j
  { bounds :=
      { h_min := min st.bounds.h_min h_bar
        h_max := max st.bounds.h_max h_bar
        h_small := st.bounds.h_small
        kin_max := max st.bounds.kin_max kin_bar
        v2_max := max st.bounds.v2_max (normSq v_bar) }
    h_relaxation_numerator := st.h_relaxation_numerator + beta * (waterDepth U_i + waterDepth U_j)
    kin_relaxation_numerator :=
      st.kin_relaxation_numerator + beta * (kineticEnergy p U_i + kineticEnergy p U_j)
    v2_relaxation_numerator := st.v2_relaxation_numerator + beta * (-normSq vel_i + normSq vel_j)
    relaxation_denominator := st.relaxation_denominator + |beta| }

/-- `bounds(hd_i)` (shallow_water/limiter.h:331-381). -/
def LimiterState.relaxedBounds (dim : ℕ) (p : Params) (lp : LimiterParams) (st : LimiterState)
    (hd_i : ℝ) : Bounds :=
  let r_i := Euler.relaxationRadius dim lp.relaxation_factor hd_i
  let b := st.bounds
  let h_relaxed := 2 * |st.h_relaxation_numerator| / (st.relaxation_denominator + p.eps)
  let kin_relaxed := 2 * |st.kin_relaxation_numerator| / (st.relaxation_denominator + p.eps)
  let v2_relaxed := 2 * |st.v2_relaxation_numerator| / (st.relaxation_denominator + p.eps)
  let r_dry := (if dim = 2 then Real.sqrt hd_i else hd_i) * p.dry_state_relaxation_factor
  { h_min := max ((1 - r_i) * b.h_min) (b.h_min - h_relaxed)
    h_max := min ((1 + r_i) * b.h_max) (b.h_max + h_relaxed)
    h_small := p.reference_water_depth * r_dry
    kin_max := min ((1 + r_i) * b.kin_max) (b.kin_max + kin_relaxed)
    v2_max := min ((1 + r_i) * b.v2_max) (b.v2_max + v2_relaxed) }

/-- `combine_bounds` (shallow_water/limiter.h:384-397).  The fourth entry is `max(k_max_l, h_max_r)` in
the code (not `k_max_r`). -/
def combineBounds (l r : Bounds) : Bounds :=
  ⟨min l.h_min r.h_min, max l.h_max r.h_max, min l.h_small r.h_small, max l.kin_max r.h_max,
    max l.v2_max r.v2_max⟩

/-- The low-order depth test (shallow_water/limiter.template.h:49-54), one lane. -/
def depthInBounds (p : Params) (b : Bounds) (h_U : ℝ) : Prop :=
  let relax := 1 + p.dry_state_relaxation_large * p.eps
  filterDryWaterDepth p (max 0 (h_U - relax * b.h_max)) = 0 ∧
  filterDryWaterDepth p (max 0 (b.h_min - relax * h_U)) = 0

/-- The water depth part of `limit`, one lane (shallow_water/limiter.template.h:70-117): `t_r`. -/
def depthLimit (p : Params) (b : Bounds) (h_U h_P t_min t_max : ℝ) : ℝ :=
  let t_r := t_max
  let denominator := 1 / (|h_P| + p.eps * b.h_max + p.tiny)
  let t_r := maskLt b.h_max (h_U + t_r * h_P) ((b.h_max - h_U) * denominator) t_r
  let h_min_tilde := max b.h_small b.h_min
  let t_r := maskLt (h_U + t_r * h_P) h_min_tilde ((h_U - h_min_tilde) * denominator) t_r
  let t_r := min t_r t_max
  max t_r t_min

/-- `psi` of the kinetic energy stage along `U + t P` (shallow_water/limiter.template.h:169-170,
196-197). -/
def psiKin (p : Params) (kin_max : ℝ) (U P : State dim) (t : ℝ) : ℝ :=
  let V : State dim := U + t • P
  (1 + p.dry_state_relaxation_small * p.eps) * waterDepth V * kin_max - (1 / 2) * normSq (momentum V)

/-- `dpsi` of the kinetic energy stage (shallow_water/limiter.template.h:247-248). -/
def dpsiKin (kin_max : ℝ) (U P : State dim) (t : ℝ) : ℝ :=
  waterDepth P * kin_max - dot (momentum U) (momentum P) - dot (momentum P) (momentum P) * t

/-- `lower_bound` of the kinetic energy stage (shallow_water/limiter.template.h:207-209). -/
def lowerKin (p : Params) (kin_max : ℝ) (U P : State dim) (t : ℝ) : ℝ :=
  (1 - (1 + p.dry_state_relaxation_large * p.eps)) * filterDryWaterDepth p (waterDepth (U + t • P))
    * kin_max - p.eps

/-- `psi` of the square velocity stage (shallow_water/limiter.template.h:318, 344). -/
def psiVel (p : Params) (v2_max : ℝ) (U P : State dim) (t : ℝ) : ℝ :=
  let V : State dim := U + t • P
  (1 + p.dry_state_relaxation_small * p.eps) * waterDepth V * waterDepth V * v2_max
    - normSq (momentum V)

/-- `dpsi` of the square velocity stage exactly as written (shallow_water/limiter.template.h:396-401);
this is *not* the derivative of `psiVel`. -/
def dpsiVel (v2_max : ℝ) (U P : State dim) (t : ℝ) : ℝ :=
  (waterDepth U + t * waterDepth P) * waterDepth P * v2_max
    - 2 * (dot (momentum U) (momentum P) - dot (momentum P) (momentum P) * t)

/-- `lower_bound` of the square velocity stage (shallow_water/limiter.template.h:354-357). -/
def lowerVel (p : Params) (v2_max : ℝ) (U P : State dim) (t : ℝ) : ℝ :=
  let h := filterDryWaterDepth p (waterDepth (U + t • P))
  (1 - (1 + p.dry_state_relaxation_large * p.eps)) * h * h * v2_max - 100 * p.eps

/-- One limiting stage after the initial mask (shallow_water/limiter.template.h:191-265 and 339-411):
success check and a single guarded quadratic Newton step; returns `(t_l, success)`. -/
def newtonOnce {L : ℕ} (eps tolerance : ℝ) (psi dpsi lower : Fin L → ℝ → ℝ) (t_l t_r : Fin L → ℝ)
    (success : Prop) : (Fin L → ℝ) × Prop :=
  let success' : Prop := success ∧ ∀ l, min 0 (psi l (t_l l) - lower l (t_l l)) = 0
  open Classical in
  if ∀ l, max 0 (t_r l - t_l l - tolerance) = 0 then (t_l, success')
  else (fun l => (quadraticNewtonStep eps (t_l l) (t_r l) (psi l (t_l l)) (psi l (t_r l))
      (dpsi l (t_l l)) (dpsi l (t_r l)) (-1)).1, success')

/-- The square velocity stage of `limit` (shallow_water/limiter.template.h:311-446). -/
def velocityStage {L : ℕ} (p : Params) (lp : LimiterParams) (bounds : Fin L → Bounds)
    (U P : Fin L → State dim) (t_l t_r : Fin L → ℝ) (success : Prop) : (Fin L → ℝ) × Prop :=
  let psi : Fin L → ℝ → ℝ := fun l => psiVel p (bounds l).v2_max (U l) (P l)
  let t_l' : Fin L → ℝ := fun l => maskGt (psi l (t_r l)) 0 (t_r l) (t_l l)
  open Classical in
  if t_l' = t_r then (t_l', success)
  else newtonOnce p.eps lp.newton_tolerance psi (fun l => dpsiVel (bounds l).v2_max (U l) (P l))
    (fun l => lowerVel p (bounds l).v2_max (U l) (P l)) t_l' t_r success

/-- `Limiter::limit` (shallow_water/limiter.template.h:16-449) on `L` lanes. -/
def limit {L : ℕ} (p : Params) (lp : LimiterParams) (bounds : Fin L → Bounds)
    (U P : Fin L → State dim) (t_min t_max : Fin L → ℝ) : (Fin L → ℝ) × Prop :=
  let success : Prop := ∀ l, depthInBounds p (bounds l) (waterDepth (U l))
  let t_l := t_min
  let t_r : Fin L → ℝ := fun l => depthLimit p (bounds l) (waterDepth (U l)) (waterDepth (P l))
    (t_min l) (t_max l)
  -- lines 144-146
  if lp.limit_on_square_velocity = false ∧ lp.limit_on_kinetic_energy = false then (t_l, success)
  else if lp.limit_on_kinetic_energy then
    -- lines 161-297
    let psi : Fin L → ℝ → ℝ := fun l => psiKin p (bounds l).kin_max (U l) (P l)
    let t_l' : Fin L → ℝ := fun l => maskGt (psi l (t_r l)) 0 (t_r l) (t_l l)
    open Classical in
    if lp.limit_on_square_velocity = false ∧ t_l' = t_r then (t_l', success)
    else
      let r := newtonOnce p.eps lp.newton_tolerance psi
        (fun l => dpsiKin (bounds l).kin_max (U l) (P l))
        (fun l => lowerKin p (bounds l).kin_max (U l) (P l)) t_l' t_r success
      if lp.limit_on_square_velocity then velocityStage p lp bounds U P t_min r.1 r.2 else r
  else velocityStage p lp bounds U P t_l t_r success

end ShallowWater

end

end Ryujin
