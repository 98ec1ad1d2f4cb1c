import Verif.Model.Tensor
import Verif.Model.Newton
import Mathlib.Analysis.SpecialFunctions.Pow.Real

/-!
# Model of `source/euler/hyperbolic_system.h` (namespace `ryujin::Euler`)

`Number` is idealised as `ℝ`, `ryujin::pow`/`std::pow` as `Real.rpow`, `std::sqrt` as `Real.sqrt`.
The code is lane-wise throughout, so one lane is modelled (except `is_admissible`, which joins the
lanes, and the limiter, which is modelled with all lanes in `Verif.Model.EulerLimiter`).
-/

namespace Ryujin

open scoped BigOperators

noncomputable section

/-- `ryujin::contract` (convenience_macros.h:77-92): contract a rank-2 flux with `c_ij`. -/
def contract {k dim : ℕ} (flux : Fin k → Vec dim) (c : Vec dim) : Vec k := fun i => dot (flux i) c

/-- `ryujin::add` (convenience_macros.h:95-105): add two rank-2 tensors. -/
def addFlux {k dim : ℕ} (a b : Fin k → Vec dim) : Fin k → Vec dim := fun i => a i + b i

namespace Euler

/-- `HyperbolicSystem` run-time parameters (euler/hyperbolic_system.h:662-684). `eps` is
`std::numeric_limits<ScalarNumber>::epsilon()`, a compile-time constant in the code.  The cached
inverses `gamma_inverse_` etc. (lines 690-695) are written as divisions below. -/
structure Params where
  gamma : ℝ
  reference_density : ℝ
  vacuum_small : ℝ
  vacuum_large : ℝ
  eps : ℝ

/-- `state_type = Tensor<1, dim + 2>`: `[rho, m_1, ..., m_d, E]`. (euler/hyperbolic_system.h:215-223) -/
abbrev State (dim : ℕ) := Vec (dim + 2)

variable {dim : ℕ}

/-- The state with given components (the code fills `state_type` component by component). (euler/hyperbolic_system.h:1219-1238) -/
def mkState (rho : ℝ) (m : Vec dim) (E : ℝ) : State dim :=
  Fin.cons (α := fun _ => ℝ) rho (Fin.snoc (α := fun _ => ℝ) m E)

/-- `density` (euler/hyperbolic_system.h:741-745). -/
def density (U : State dim) : ℝ := U 0

/-- `momentum` (euler/hyperbolic_system.h:763-770). -/
def momentum (U : State dim) : Vec dim := fun i => U i.castSucc.succ

/-- `total_energy` (euler/hyperbolic_system.h:774-778). -/
def totalEnergy (U : State dim) : ℝ := U (Fin.last (dim + 1))

/-- `filter_vacuum_density` (euler/hyperbolic_system.h:749-759). -/
def filterVacuumDensity (p : Params) (rho : ℝ) : ℝ :=
  maskLt |rho| (p.reference_density * p.vacuum_large * p.eps) 0 rho

/-- `internal_energy` (euler/hyperbolic_system.h:782-793): `E - 1/2 |m|² / rho`. -/
def internalEnergy (U : State dim) : ℝ :=
  totalEnergy U - (1 / 2) * normSq (momentum U) * (1 / density U)

/-- `internal_energy_derivative` (euler/hyperbolic_system.h:797-820). -/
def internalEnergyDerivative (U : State dim) : State dim :=
  let u : Vec dim := fun i => momentum U i * (1 / density U)
  mkState ((1 / 2) * normSq u) (fun i => -u i) 1

/-- `pressure` (euler/hyperbolic_system.h:824-829). -/
def pressure (p : Params) (U : State dim) : ℝ := (p.gamma - 1) * internalEnergy U

/-- `speed_of_sound` (euler/hyperbolic_system.h:833-840). -/
def speedOfSound (p : Params) (U : State dim) : ℝ :=
  Real.sqrt (p.gamma * pressure p U * (1 / density U))

/-- `specific_entropy` (euler/hyperbolic_system.h:844-851). -/
def specificEntropy (p : Params) (U : State dim) : ℝ :=
  internalEnergy U * (1 / density U) ^ p.gamma

/-- `harten_entropy` (euler/hyperbolic_system.h:855-866). -/
def hartenEntropy (p : Params) (U : State dim) : ℝ :=
  (density U * totalEnergy U - (1 / 2) * normSq (momentum U)) ^ (1 / (p.gamma + 1))

/-- `harten_entropy_derivative` (euler/hyperbolic_system.h:870-903). -/
def hartenEntropyDerivative (p : Params) (U : State dim) : State dim :=
  let rho_rho_e := density U * totalEnergy U - (1 / 2) * normSq (momentum U)
  let factor := 1 / (p.gamma + 1) * rho_rho_e ^ (-p.gamma * (1 / (p.gamma + 1)))
  mkState (factor * totalEnergy U) (fun i => -factor * momentum U i) (factor * density U)

/-- `mathematical_entropy` (euler/hyperbolic_system.h:906-914). -/
def mathematicalEntropy (p : Params) (U : State dim) : ℝ := pressure p U ^ (1 / p.gamma)

/-- `mathematical_entropy_derivative` (euler/hyperbolic_system.h:917-951). -/
def mathematicalEntropyDerivative (p : Params) (U : State dim) : State dim :=
  let u : Vec dim := fun i => momentum U i * (1 / density U)
  let factor := (p.gamma - 1) * (1 / p.gamma) * pressure p U ^ (1 / p.gamma - 1)
  mkState (factor * (1 / 2) * normSq u) (fun i => -factor * u i) factor

/-- `is_admissible` (euler/hyperbolic_system.h:954-980) for a vectorised state with `L` lanes: the sum
of the three masks has to vanish in every lane. -/
def isAdmissible {L : ℕ} (p : Params) (U : Fin L → State dim) : Prop :=
  ∀ l, maskGt (density (U l)) 0 0 (-1) + maskGt (internalEnergy (U l)) 0 0 (-1) +
    maskGt (specificEntropy p (U l)) 0 0 (-1) = 0

/-- `linearized_eigenvector<1>` (euler/hyperbolic_system.h:984-1017): the pair `{b, c}`. -/
def linearizedEigenvectorFirst (p : Params) (U : State dim) (n : Vec dim) : State dim × State dim :=
  let v : Vec dim := fun i => momentum U i / density U
  let a := speedOfSound p U
  let ek := (1 / 2) * normSq v
  (fun k => mkState ((p.gamma - 1) * ek + a * dot v n)
      (fun i => (1 - p.gamma) * v i - a * n i) (p.gamma - 1) k / (2 * a * a),
   mkState 1 (fun i => v i - a * n i) (a * a / (p.gamma - 1) + ek - a * dot v n))

/-- `linearized_eigenvector<problem_dimension>` (euler/hyperbolic_system.h:984-1002, 1018-1030). -/
def linearizedEigenvectorLast (p : Params) (U : State dim) (n : Vec dim) : State dim × State dim :=
  let v : Vec dim := fun i => momentum U i / density U
  let a := speedOfSound p U
  let ek := (1 / 2) * normSq v
  (fun k => mkState ((p.gamma - 1) * ek - a * dot v n)
      (fun i => (1 - p.gamma) * v i + a * n i) (p.gamma - 1) k / (2 * a * a),
   mkState 1 (fun i => v i + a * n i) (a * a / (p.gamma - 1) + ek + a * dot v n))

/-- The template argument `component` of `prescribe_riemann_characteristic` (a `static_assert`
restricts it to 1 and 2, euler/hyperbolic_system.h:1043-1044). -/
inductive Characteristic
  | first
  | second

/-- `prescribe_riemann_characteristic<component>` (euler/hyperbolic_system.h:1035-1092). -/
def prescribeRiemannCharacteristic (c : Characteristic) (p : Params) (U Ubar : State dim)
    (normal : Vec dim) : State dim :=
  let m := momentum U
  let rho := density U
  let a := speedOfSound p U
  let vn := dot m normal / rho
  let a_bar := speedOfSound p Ubar
  let vn_bar := dot (momentum Ubar) normal / density Ubar
  let R_1 := match c with
    | .first => vn_bar - 2 * a_bar / (p.gamma - 1)
    | .second => vn - 2 * a / (p.gamma - 1)
  let R_2 := match c with
    | .second => vn_bar + 2 * a_bar / (p.gamma - 1)
    | .first => vn + 2 * a / (p.gamma - 1)
  let s := pressure p U / rho ^ p.gamma
  let vperp : Vec dim := fun i => m i / rho - vn * normal i
  let vn_new := (1 / 2) * (R_1 + R_2)
  let rho_new := 1 / (p.gamma * s) * ((p.gamma - 1) / 4 * (R_2 - R_1)) ^ 2
  let rho_new := rho_new ^ (1 / (p.gamma - 1))
  let p_new := s * rho_new ^ p.gamma
  mkState rho_new (fun i => rho_new * (vn_new * normal i + vperp i))
    (p_new / (p.gamma - 1) + (1 / 2) * rho_new * (vn_new * vn_new + normSq vperp))

/-- The `Boundary` ids that `apply_boundary_conditions` distinguishes (discretization.h:39-97); every
other id leaves the state unchanged. -/
inductive Boundary
  | doNothing
  | dirichlet
  | slip
  | noSlip
  | dynamic
  | other

/-- `apply_boundary_conditions` (euler/hyperbolic_system.h:1095-1158). `dirichlet` is the value of
`get_dirichlet_data()` (the callback is assumed to be pure). -/
def applyBoundaryConditions (p : Params) (id : Boundary) (U : State dim) (normal : Vec dim)
    (dirichlet : State dim) : State dim :=
  match id with
  | .dirichlet => dirichlet
  | .slip =>
    let m := momentum U
    mkState (density U) (fun k => m k - 1 * dot m normal * normal k) (totalEnergy U)
  | .noSlip => mkState (density U) (fun _ => 0) (totalEnergy U)
  | .dynamic =>
    let a := speedOfSound p U
    let vn := dot (momentum U) normal / density U
    if vn < -a then dirichlet
    else if vn ≥ -a ∧ vn ≤ 0 then prescribeRiemannCharacteristic .second p dirichlet U normal
    else if vn > 0 ∧ vn ≤ a then prescribeRiemannCharacteristic .first p U dirichlet normal
    else U
  | .doNothing => U
  | .other => U

/-- `f(U)` (euler/hyperbolic_system.h:1161-1180): row `0` is `m`, row `1 + i` is `m m_i / rho + p e_i`,
the last row is `m (E + p) / rho`. -/
def f (p : Params) (U : State dim) : Fin (dim + 2) → Vec dim :=
  let rho_inverse := 1 / density U
  let m := momentum U
  let pr := pressure p U
  let E := totalEnergy U
  Fin.cons (α := fun _ => Vec dim) m
    (Fin.snoc (α := fun _ => Vec dim)
      (fun i => fun k => m k * (m i * rho_inverse) + if k = i then pr else 0)
      (fun k => m k * (rho_inverse * (E + pr))))

/-- `flux_divergence` (euler/hyperbolic_system.h:1207-1216). -/
def fluxDivergence (flux_i flux_j : Fin (dim + 2) → Vec dim) (c : Vec dim) : State dim :=
  -contract (addFlux flux_i flux_j) c

/-- `expand_state` (euler/hyperbolic_system.h:1219-1238) from dimension `dim2 ≤ dim`: missing momentum
components are zero (`state_type` is value initialised). -/
def expandState {dim2 : ℕ} (state : State dim2) : State dim :=
  mkState (density state)
    (fun i => if h : i.1 < dim2 then momentum state ⟨i.1, h⟩ else 0) (totalEnergy state)

/-- `from_primitive_state` (euler/hyperbolic_system.h:1252-1272). -/
def fromPrimitiveState (p : Params) (prim : State dim) : State dim :=
  let rho := density prim
  let u := momentum prim
  mkState rho (fun i => prim i.castSucc.succ * rho)
    (totalEnergy prim / (p.gamma - 1) + (1 / 2) * rho * dot u u)

/-- `to_primitive_state` (euler/hyperbolic_system.h:1275-1292). -/
def toPrimitiveState (p : Params) (state : State dim) : State dim :=
  mkState (density state) (fun i => momentum state i * (1 / density state)) (pressure p state)

/-- `from_initial_state` (euler/hyperbolic_system.h:1241-1249). -/
def fromInitialState {dim2 : ℕ} (p : Params) (initial : State dim2) : State dim :=
  fromPrimitiveState p (expandState initial)

/-- `apply_galilei_transform` (euler/hyperbolic_system.h:1295-1306). -/
def applyGalileiTransform (state : State dim) (lam : Vec dim → Vec dim) : State dim :=
  mkState (density state) (lam (momentum state)) (totalEnergy state)

end Euler

end

end Ryujin
