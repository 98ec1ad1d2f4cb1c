import Verif.Model.EulerSystem
import Verif.Model.EulerLimiter

/-!
# Model of `source/euler_aeos/hyperbolic_system.h` and `source/euler_aeos/limiter*.h`

`density`, `momentum`, `total_energy`, `internal_energy`, `internal_energy_derivative`
(euler_aeos/hyperbolic_system.h:980-1059), `filter_vacuum_density` (988-998), `flux_divergence`
(1421-1430), `expand_state` (1433-1455) and `apply_galilei_transform` (1516-1527) are textually identical
to the ones in `euler/hyperbolic_system.h`; the definitions of `Ryujin.Euler` are used for them.
`AssertThrow(false)`/`__builtin_trap()` branches are modelled as `none`.
-/

namespace Ryujin

open scoped BigOperators

noncomputable section

namespace Aeos

open Euler (State density momentum totalEnergy internalEnergy internalEnergyDerivative mkState)

/-- Run-time parameters (euler_aeos/hyperbolic_system.h:772-812) and the interpolation constants
`eos_interpolation_b/pinfty/q` of the selected equation of state. -/
structure Params where
  b : ℝ
  pinf : ℝ
  q : ℝ
  reference_density : ℝ
  vacuum_small : ℝ
  vacuum_large : ℝ
  eps : ℝ

variable {dim : ℕ}

/-- `covolume = 1 - b rho` (e.g. euler_aeos/hyperbolic_system.h:1074). -/
def covolume (p : Params) (rho : ℝ) : ℝ := 1 - p.b * rho

/-- `shift = rho e - rho q - pinf (1 - b rho)` (euler_aeos/hyperbolic_system.h:1076). -/
def shift (p : Params) (U : State dim) : ℝ :=
  internalEnergy U - density U * p.q - p.pinf * covolume p (density U)

/-- `surrogate_specific_entropy` (euler_aeos/hyperbolic_system.h:1061-1079). -/
def surrogateSpecificEntropy (p : Params) (U : State dim) (gamma_min : ℝ) : ℝ :=
  shift p U * (1 / density U - p.b) ^ gamma_min / covolume p (density U)

/-- `surrogate_harten_entropy` (euler_aeos/hyperbolic_system.h:1081-1104). -/
def surrogateHartenEntropy (p : Params) (U : State dim) (gamma_min : ℝ) : ℝ :=
  let rho := density U
  let rho_rho_e_q := rho * totalEnergy U - (1 / 2) * normSq (momentum U) - rho * rho * p.q
  let exponent := 1 / (gamma_min + 1)
  let covolume_term := covolume p rho ^ (gamma_min - 1)
  let rho_pinfcov := rho * p.pinf * covolume p rho
  ((rho_rho_e_q - rho_pinfcov) * covolume_term) ^ exponent

/-- `surrogate_harten_entropy_derivative` (euler_aeos/hyperbolic_system.h:1107-1157). -/
def surrogateHartenEntropyDerivative (p : Params) (U : State dim) (eta gamma_min : ℝ) : State dim :=
  let rho := density U
  let m := momentum U
  let E := totalEnergy U
  let x := covolume p rho
  let x_inverse := 1 / x
  let shift := rho * E - (1 / 2) * normSq m - rho * rho * p.q - rho * p.pinf * x
  let factor := (eta * x_inverse) ^ (-gamma_min) * x_inverse ^ 2 / (gamma_min + 1)
  let first_term := E - 2 * rho * p.q - p.pinf * (1 - 2 * p.b * rho)
  let second_term := -(gamma_min - 1) * shift * p.b
  mkState (factor * (x * first_term + second_term)) (fun i => -factor * x * m i) (factor * x * rho)

/-- `surrogate_gamma` (euler_aeos/hyperbolic_system.h:1160-1176). -/
def surrogateGamma (p : Params) (U : State dim) (pressure : ℝ) : ℝ :=
  let x := covolume p (density U)
  let numerator := (pressure + p.pinf) * x
  let denominator := internalEnergy U - density U * p.q - x * p.pinf
  1 + numerator / denominator

/-- `surrogate_pressure` (euler_aeos/hyperbolic_system.h:1179-1194). -/
def surrogatePressure (p : Params) (U : State dim) (gamma : ℝ) : ℝ :=
  (gamma - 1) * (internalEnergy U - density U * p.q) / covolume p (density U) - gamma * p.pinf

/-- `is_admissible` (euler_aeos/hyperbolic_system.h:1197-1228) on `L` lanes. -/
def isAdmissible {L : ℕ} (p : Params) (U : Fin L → State dim) : Prop :=
  ∀ l, maskGt (density (U l)) 0 0 (-1) + maskGt (shift p (U l)) 0 0 (-1) = 0

/-- `apply_boundary_conditions` (euler_aeos/hyperbolic_system.h:1303-1369); the dynamic boundary id
executes `__builtin_trap()` and is modelled as `none`. -/
def applyBoundaryConditions (id : Euler.Boundary) (U : State dim) (normal : Vec dim)
    (dirichlet : State dim) : Option (State dim) :=
  match id with
  | .dirichlet => some dirichlet
  | .slip =>
    let m := momentum U
    some (mkState (density U) (fun k => m k - 1 * dot m normal * normal k) (totalEnergy U))
  | .noSlip => some (mkState (density U) (fun _ => 0) (totalEnergy U))
  | .dynamic => none
  | .doNothing => some U
  | .other => some U

/-- `f(U, p)` (euler_aeos/hyperbolic_system.h:1371-1390). -/
def f (U : State dim) (pr : ℝ) : Fin (dim + 2) → Vec dim :=
  let rho_inverse := 1 / density U
  let m := momentum U
  let E := totalEnergy U
  Fin.cons (α := fun _ => Vec dim) m
    (Fin.snoc (α := fun _ => Vec dim)
      (fun i => fun k => m k * (m i * rho_inverse) + if k = i then pr else 0)
      (fun k => m k * (rho_inverse * (E + pr))))

/-- `from_primitive_state` (euler_aeos/hyperbolic_system.h:1473-1493); the last primitive component is
the specific internal energy `e`. -/
def fromPrimitiveState (prim : State dim) : State dim :=
  let rho := density prim
  let u := momentum prim
  mkState rho (fun i => momentum prim i * rho) (rho * totalEnergy prim + (1 / 2) * rho * dot u u)

/-- `to_primitive_state` (euler_aeos/hyperbolic_system.h:1496-1513). -/
def toPrimitiveState (state : State dim) : State dim :=
  let rho_inverse := 1 / density state
  mkState (density state) (fun i => momentum state i * rho_inverse)
    (internalEnergy state * rho_inverse)

/-- `from_initial_state` (euler_aeos/hyperbolic_system.h:1458-1470): the initial state carries the
pressure; `eosEnergy` is the equation of state's `specific_internal_energy(rho, p)`. -/
def fromInitialState {dim2 : ℕ} (eosEnergy : ℝ → ℝ → ℝ) (initial : State dim2) : State dim :=
  let prim : State dim := Euler.expandState initial
  let e := eosEnergy (density prim) (totalEnergy prim)
  fromPrimitiveState (mkState (density prim) (momentum prim) e)

/-! ### Limiter -/

/-- `Limiter::Bounds` (euler_aeos/limiter.h:144-149): `{rho_min, rho_max, s_min, gamma_min}`. -/
structure Bounds where
  rho_min : ℝ
  rho_max : ℝ
  s_min : ℝ
  gamma_min : ℝ

/-- Accumulated limiter data (euler_aeos/limiter.h:240-250). -/
structure LimiterState where
  bounds : Bounds
  rho_relaxation_numerator : ℝ
  rho_relaxation_denominator : ℝ
  s_interp_max : ℝ

/-- `reset` (euler_aeos/limiter.h:262-290); `gamma_min_i` is the precomputed value at `i`. -/
def LimiterState.reset (big gamma_min_i : ℝ) : LimiterState := ⟨⟨big, 0, big, gamma_min_i⟩, 0, 0, 0⟩

/-- `accumulate` (euler_aeos/limiter.h:293-375). `strict` is `compute_strict_bounds()`, `s_j` the
precomputed surrogate entropy of column `j` (used when `strict` is off). -/
def LimiterState.accumulate (p : Params) (strict : Bool) (U_i : State dim)
    (flux_i : Fin (dim + 2) → Vec dim) (st : LimiterState) (U_j : State dim) (s_j : ℝ)
    (flux_j : Fin (dim + 2) → Vec dim) (scaled_c : Vec dim) (affine_shift : State dim) :
    LimiterState :=
  let U_ij_bar : State dim := fun k =>
    (1 / 2) * (U_i k + U_j k) - (1 / 2) * contract (addFlux flux_j (fun r => -flux_i r)) scaled_c k
      + affine_shift k
  let g := st.bounds.gamma_min
  let beta_ij := 1
  let s_ij_bar := surrogateSpecificEntropy p U_ij_bar g
  let s_j' := if strict then surrogateSpecificEntropy p U_j g else s_j
  let s_interp := if strict then surrogateSpecificEntropy p (fun k => (U_i k + U_j k) * (1 / 2)) g
    else s_ij_bar
  { bounds :=
      { rho_min := min st.bounds.rho_min (density U_ij_bar)
        rho_max := max st.bounds.rho_max (density U_ij_bar)
        s_min := min (min st.bounds.s_min s_j') s_ij_bar
        gamma_min := g }
    rho_relaxation_numerator := st.rho_relaxation_numerator + beta_ij * (density U_i + density U_j)
    rho_relaxation_denominator := st.rho_relaxation_denominator + |beta_ij|
    s_interp_max := max st.s_interp_max s_interp }

/-- `bounds(hd_i)` (euler_aeos/limiter.h:378-424). -/
def LimiterState.relaxedBounds (dim : ℕ) (p : Params) (lp : LimiterParams) (st : LimiterState)
    (hd_i : ℝ) : Bounds :=
  let r_i := Euler.relaxationRadius dim lp.relaxation_factor hd_i
  let rho_relaxation := |st.rho_relaxation_numerator| / (|st.rho_relaxation_denominator| + p.eps)
  let relaxation := 2 * lp.relaxation_factor * rho_relaxation
  let b := st.bounds
  let rho_max := min ((1 + r_i) * b.rho_max) (b.rho_max + relaxation)
  let entropy_relaxation := lp.relaxation_factor * (st.s_interp_max - b.s_min)
  let numerator := (b.gamma_min + 1) * rho_max
  let denominator := b.gamma_min - 1 + 2 * p.b * rho_max
  let upper_bound := numerator / denominator
  { rho_min := max ((1 - r_i) * b.rho_min) (b.rho_min - relaxation)
    rho_max := min upper_bound rho_max
    s_min := max ((1 - r_i) * b.s_min) (b.s_min - entropy_relaxation)
    gamma_min := b.gamma_min }

/-- `combine_bounds` (euler_aeos/limiter.h:427-440). -/
def combineBounds (l r : Bounds) : Bounds :=
  ⟨min l.rho_min r.rho_min, max l.rho_max r.rho_max, min l.s_min r.s_min,
    min l.gamma_min r.gamma_min⟩

/-- `psi` along `U + t P` (`psi_l`, `psi_r`, euler_aeos/limiter.template.h:180-190, 228-237). -/
def psi (p : Params) (gamma s_min : ℝ) (U P : State dim) (t : ℝ) : ℝ :=
  let V : State dim := U + t • P
  let rho := density V
  let x := covolume p rho
  let shift := internalEnergy V - rho * p.q - p.pinf * x
  (1 + p.vacuum_small * p.eps) * rho * shift - s_min * rho * rho ^ gamma * x ^ (-(gamma - 1))

/-- `dpsi` along `U + t P` (`dpsi_l`, `dpsi_r`, euler_aeos/limiter.template.h:284-305). -/
def dpsi (p : Params) (gamma s_min : ℝ) (U P : State dim) (t : ℝ) : ℝ :=
  let V : State dim := U + t • P
  let rho := density V
  let x := covolume p rho
  let drho := density P
  let drho_e := dot (internalEnergyDerivative V) P
  let q_pinf_term := 2 * rho * p.q + p.pinf * (1 - 2 * p.b * rho)
  let extra_term := s_min * (rho / x) ^ gamma * (x + gamma - p.b * rho)
  rho * drho_e + (internalEnergy V - q_pinf_term - extra_term) * drho

/-- `lower_bound` at `U + t P` (euler_aeos/limiter.template.h:243-244). -/
def lowerBound (p : Params) (gamma s_min : ℝ) (U P : State dim) (t : ℝ) : ℝ :=
  let V : State dim := U + t • P
  (1 - (1 + p.vacuum_large * p.eps)) * s_min * density V * density V ^ gamma
    * covolume p (density V) ^ (-(gamma - 1))

/-- Low-order density check (euler_aeos/limiter.template.h:51-55, same text as euler/limiter.template.h:49-56). -/
def densityInBounds (p : Params) (rho_min rho_max rho_U : ℝ) : Prop :=
  Euler.densityInBounds ⟨0, p.reference_density, p.vacuum_small, p.vacuum_large, p.eps⟩
    rho_min rho_max rho_U

/-- `Limiter::limit` (euler_aeos/limiter.template.h:15-361) on `L` SIMD lanes. -/
def limit {L : ℕ} (p : Params) (lp : LimiterParams) (bounds : Fin L → Bounds)
    (U P : Fin L → State dim) (t_min t_max : Fin L → ℝ) : (Fin L → ℝ) × Prop :=
  let success : Prop := ∀ l, densityInBounds p (bounds l).rho_min (bounds l).rho_max (density (U l))
  let t_r : Fin L → ℝ := fun l => densityLimit p.eps (bounds l).rho_min (bounds l).rho_max
    (density (U l)) (density (P l)) (t_min l) (t_max l)
  newtonLoop p.eps lp.newton_tolerance
    (fun l => psi p (bounds l).gamma_min (bounds l).s_min (U l) (P l))
    (fun l => dpsi p (bounds l).gamma_min (bounds l).s_min (U l) (P l))
    (fun l => lowerBound p (bounds l).gamma_min (bounds l).s_min (U l) (P l))
    lp.newton_max_iterations 0 t_min t_r success

end Aeos

end

end Ryujin
