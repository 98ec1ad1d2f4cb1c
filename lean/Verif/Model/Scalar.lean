import Verif.Model.EulerLimiter
import Mathlib.Analysis.SpecialFunctions.Trigonometric.Basic

/-!
# Model of `source/scalar_conservation/*` (namespace `ryujin::ScalarConservation`)

One SIMD lane; every function is lane-wise except the `success` flag of the limiter.
-/

namespace Ryujin
namespace Scalar

noncomputable section

/-- `FluxLibrary::Flux` (scalar_conservation/flux.h:31-90): per direction `k` a value, a gradient, and
the `derivative_approximation_delta`. -/
structure Flux (dim : ℕ) where
  value : ℝ → Fin dim → ℝ
  gradient : ℝ → Fin dim → ℝ
  delta : ℝ

/-- `FluxLibrary::Burgers` (scalar_conservation/flux_burgers.h:21-40). -/
def burgers (dim : ℕ) (delta : ℝ) : Flux dim where
  value u _ := (1 / 2) * u * u
  gradient u _ := u
  delta := delta

/-- `FluxLibrary::KPP` (scalar_conservation/flux_kpp.h:20-60) in two space dimensions. -/
def kpp (delta : ℝ) : Flux 2 where
  value u k := if k = 0 then Real.sin u else Real.cos u
  gradient u k := if k = 0 then Real.cos u else -Real.sin u
  delta := delta

/-- `state_type = Tensor<1, 1>`. (scalar_conservation/hyperbolic_system.h:170) -/
abbrev State := Vec 1

/-- `state` (scalar_conservation/hyperbolic_system.h:645-650). -/
def state (U : State) : ℝ := U 0

variable {dim : ℕ}

/-- `flux_function` (scalar_conservation/hyperbolic_system.h:540-559).  The precomputed values
(lines 583-633) store exactly this and `flux_gradient_function`; `construct_flux_tensor` and
`construct_flux_gradient_tensor` (lines 717-772) read them back. -/
def fluxFunction (fl : Flux dim) (u : ℝ) : Vec dim := fun k => fl.value u k

/-- `flux_gradient_function` (scalar_conservation/hyperbolic_system.h:562-582). -/
def fluxGradientFunction (fl : Flux dim) (u : ℝ) : Vec dim := fun k => fl.gradient u k

/-- `flux_contribution` (scalar_conservation/hyperbolic_system.h:775-807): the flux as a rank-2 tensor. -/
def fluxContribution (fl : Flux dim) (U : State) : Fin 1 → Vec dim := fun _ => fluxFunction fl (state U)

/-- `flux_divergence` (scalar_conservation/hyperbolic_system.h:810-819). -/
def fluxDivergence (flux_i flux_j : Fin 1 → Vec dim) (c_ij : Vec dim) : State :=
  -contract (addFlux flux_i flux_j) c_ij

/-- `kruzkov_entropy` (scalar_conservation/hyperbolic_system.h:670-676). -/
def kruzkovEntropy (k u : ℝ) : ℝ := |k - u|

/-- `kruzkov_entropy_derivative` (scalar_conservation/hyperbolic_system.h:672-680). -/
def kruzkovEntropyDerivative (k u : ℝ) : ℝ := if u ≥ k then 1 else -1

/-- `square_entropy` (scalar_conservation/hyperbolic_system.h:653-658). -/
def squareEntropy (u : ℝ) : ℝ := (1 / 2) * u * u

/-- `square_entropy_derivative` (scalar_conservation/hyperbolic_system.h:661-667). -/
def squareEntropyDerivative (u : ℝ) : ℝ := u

/-- Boundary ids (discretization.h:26-91) as dispatched on by `apply_boundary_conditions`. -/
inductive Boundary
  | do_nothing | periodic | slip | no_slip | dirichlet | dynamic

/-- `apply_boundary_conditions` (scalar_conservation/hyperbolic_system.h:683-722); `none` is the thrown
exception for unsupported boundary ids. -/
def applyBoundaryConditions (id : Boundary) (U : State) (dirichlet : State) : Option State :=
  match id with
  | .dirichlet => some dirichlet
  | .slip | .no_slip | .dynamic => none
  | _ => some U

/-! ### Riemann solver -/

/-- `RiemannSolverParameters` (scalar_conservation/riemann_solver.h:20-60). -/
structure RiemannParams where
  use_greedy_wavespeed : Bool
  use_averaged_entropy : Bool

/-- `enforce_entropy(k)` (scalar_conservation/riemann_solver.template.h:130-176), returning the updated
`lambda_max`. -/
def enforceEntropy (fl : Flux dim) (n : Vec dim) (u_i u_j f_i f_j : ℝ) (lambda_max k : ℝ) : ℝ :=
  let h2 := 2 * fl.delta
  let f_k := dot (fluxFunction fl k) n
  let eta_i := kruzkovEntropy k u_i
  let q_i := kruzkovEntropyDerivative k u_i * (f_i - f_k)
  let eta_j := kruzkovEntropy k u_j
  let q_j := kruzkovEntropyDerivative k u_j * (f_j - f_k)
  let a := u_i + u_j - 2 * k
  let b := f_j - f_i
  let c := eta_i + eta_j
  let d := q_j - q_i
  let lambda_left := |d + b| / (|c + a| + h2)
  let lambda_right := |d - b| / (|c - a| + h2)
  max (max lambda_max lambda_left) lambda_right

/-- `compute` (scalar_conservation/riemann_solver.template.h:22-192).  `draws` are the random numbers in
`[0,1]` drawn for the `random_entropies` Kružkov entropies, in order. -/
def riemann (fl : Flux dim) (rp : RiemannParams) (draws : List ℝ) (u_i u_j : ℝ) (n : Vec dim) : ℝ :=
  let f_i := dot (fluxFunction fl u_i) n
  let f_j := dot (fluxFunction fl u_j) n
  let df_i := dot (fluxGradientFunction fl u_i) n
  let df_j := dot (fluxGradientFunction fl u_j) n
  let h2 := 2 * fl.delta
  let lambda_max := |f_i - f_j| / max |u_i - u_j| h2
  let lambda_max :=
    if rp.use_greedy_wavespeed then
      if |u_i - u_j| ≥ h2 then lambda_max else |(1 / 2) * (df_i + df_j)|
    else max (max lambda_max |df_i|) |df_j|
  let lambda_max :=
    if rp.use_averaged_entropy then
      enforceEntropy fl n u_i u_j f_i f_j lambda_max ((1 / 2) * (u_i + u_j))
    else lambda_max
  draws.foldl (fun lam factor =>
    enforceEntropy fl n u_i u_j f_i f_j lam (factor * u_i + (1 - factor) * u_j)) lambda_max

/-! ### Indicator -/

/-- One neighbour as seen by the indicator: `(u_j, f(u_j), c_ij)`. (scalar_conservation/indicator.h:171-192) -/
structure IndicatorEntry (dim : ℕ) where
  u_j : ℝ
  f_j : Vec dim
  c_ij : Vec dim

/-- The private data of `Indicator` (scalar_conservation/indicator.h:131-138). -/
structure IndicatorState (dim : ℕ) where
  u_i : ℝ
  u_abs_max : ℝ
  f_i : Vec dim
  left : ℝ
  right : ℝ

/-- `reset` (scalar_conservation/indicator.h:149-166). -/
def IndicatorState.reset (u_i : ℝ) (f_i : Vec dim) : IndicatorState dim := ⟨u_i, |u_i|, f_i, 0, 0⟩

/-- `accumulate` (scalar_conservation/indicator.h:169-189). -/
def IndicatorState.accumulate (st : IndicatorState dim) (e : IndicatorEntry dim) : IndicatorState dim :=
  let d_eta_j := kruzkovEntropyDerivative st.u_i e.u_j
  { st with
    u_abs_max := max st.u_abs_max |e.u_j|
    left := st.left + d_eta_j * dot e.f_j e.c_ij
    right := st.right + d_eta_j * dot st.f_i e.c_ij }

/-- `alpha` (scalar_conservation/indicator.h:192-208); `tiny` is `numeric_limits::min()`. -/
def IndicatorState.alpha (st : IndicatorState dim) (tiny evc_factor hd_i : ℝ) : ℝ :=
  let numerator := st.left - st.right
  let denominator := |st.left| + |st.right|
  let regularization := 100 * tiny
  let quotient := |numerator| / (denominator + max (hd_i * |st.u_abs_max|) regularization)
  min 1 (evc_factor * quotient)

/-- The indicator value of a stencil: `reset`, then `accumulate` over the row, then `alpha`
(hyperbolic_module.template.h step 2). (scalar_conservation/indicator.h:153-210) -/
def indicator (tiny evc_factor hd_i u_i : ℝ) (f_i : Vec dim) (row : List (IndicatorEntry dim)) : ℝ :=
  (row.foldl IndicatorState.accumulate (IndicatorState.reset u_i f_i)).alpha tiny evc_factor hd_i

/-! ### Limiter -/

/-- `Limiter::Bounds` (scalar_conservation/limiter.h): `{u_min, u_max}`. (line 103) -/
structure Bounds where
  u_min : ℝ
  u_max : ℝ

/-- Accumulated limiter data (scalar_conservation/limiter.h:185-196). -/
structure LimiterState where
  bounds : Bounds
  u_relaxation_numerator : ℝ
  u_relaxation_denominator : ℝ

/-- `reset` (scalar_conservation/limiter.h:207-228); `big` is `numeric_limits::max()` (and `lowest()` is
its negative). -/
def LimiterState.reset (big : ℝ) : LimiterState := ⟨⟨big, -big⟩, 0, 0⟩

/-- The bar state `U_ij_bar` (scalar_conservation/limiter.h:246-249). -/
def barState (U_i U_j : State) (flux_i flux_j : Fin 1 → Vec dim) (scaled_c : Vec dim)
    (affine_shift : State) : State :=
  (1 / 2 : ℝ) • (U_i + U_j) - (1 / 2 : ℝ) • contract (addFlux flux_j (-flux_i)) scaled_c + affine_shift

/-- `accumulate` (scalar_conservation/limiter.h:231-264). -/
def LimiterState.accumulate (U_i : State) (flux_i : Fin 1 → Vec dim) (st : LimiterState)
    (U_j : State) (flux_j : Fin 1 → Vec dim) (scaled_c : Vec dim) (affine_shift : State) :
    LimiterState :=
  let u_ij_bar := state (barState U_i U_j flux_i flux_j scaled_c affine_shift)
  let beta_ij := 1
  { bounds := ⟨min st.bounds.u_min u_ij_bar, max st.bounds.u_max u_ij_bar⟩
    u_relaxation_numerator := st.u_relaxation_numerator + beta_ij * (state U_i + state U_j)
    u_relaxation_denominator := st.u_relaxation_denominator + |beta_ij| }

/-- `bounds(hd_i)` (scalar_conservation/limiter.h:267-297). -/
def LimiterState.relaxedBounds (dim : ℕ) (eps factor : ℝ) (st : LimiterState) (hd_i : ℝ) : Bounds :=
  let r_i := Euler.relaxationRadius dim factor hd_i
  let u_relaxation := |st.u_relaxation_numerator| / (|st.u_relaxation_denominator| + eps)
  let b := st.bounds
  { u_min := max (min ((1 - r_i) * b.u_min) ((1 + r_i) * b.u_min)) (b.u_min - 2 * u_relaxation)
    u_max := min (max ((1 + r_i) * b.u_max) ((1 - r_i) * b.u_max)) (b.u_max + 2 * u_relaxation) }

/-- `combine_bounds` (scalar_conservation/limiter.h:300-309). -/
def combineBounds (l r : Bounds) : Bounds := ⟨min l.u_min r.u_min, max l.u_max r.u_max⟩

/-- The low-order bounds test of `limit` (scalar_conservation/limiter.template.h:37-44), one lane. -/
def inBounds (eps : ℝ) (b : Bounds) (u_U : ℝ) : Prop :=
  let relax := 1 + 10000 * eps
  max 0 (min (u_U - relax * b.u_max) (relax * u_U - b.u_max)) = 0 ∧
  max 0 (min (b.u_min - relax * u_U) (relax * b.u_min - u_U)) = 0

/-- The coefficient returned by `limit` in one lane (scalar_conservation/limiter.template.h:58-98);
`tiny` is `numeric_limits::min()`. -/
def limitLane (eps tiny : ℝ) (b : Bounds) (U P : State) (t_min t_max : ℝ) : ℝ :=
  let u_U := state U
  let u_P := state P
  let t_r := t_max
  let regularization := 100 * tiny
  let denominator := 1 / max regularization (|u_P| + eps * b.u_max)
  let t_r := maskLt b.u_max (u_U + t_r * u_P) ((b.u_max - u_U) * denominator) t_r
  let t_r := maskLt (u_U + t_r * u_P) b.u_min ((u_U - b.u_min) * denominator) t_r
  let t_r := min t_r t_max
  max t_r t_min

/-- `Limiter::limit` (scalar_conservation/limiter.template.h:14-127) on `L` lanes. -/
def limit {L : ℕ} (eps tiny : ℝ) (b : Fin L → Bounds) (U P : Fin L → State) (t_min t_max : Fin L → ℝ) :
    (Fin L → ℝ) × Prop :=
  (fun l => limitLane eps tiny (b l) (U l) (P l) (t_min l) (t_max l),
   ∀ l, inBounds eps (b l) (state (U l)))

end

end Scalar
end Ryujin
