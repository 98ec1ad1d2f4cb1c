import Verif.Model.AeosSystem
import Verif.Model.EulerRiemann

/-!
# Model of `source/euler_aeos/riemann_solver.template.h` and `source/euler_aeos/indicator.h`

`Number` is idealised as `ℝ`; all functions are lane-wise (there is no iteration), so one lane is modelled.
`ryujin::pow` is the real power.  `#ifdef DEBUG_RIEMANN_SOLVER` and `EXPENSIVE_BOUNDS_CHECK` code is not modelled; the
functions `f` and `phi` are used only there, but are modelled as well.
-/

namespace Ryujin
namespace Aeos

open Euler (State density momentum totalEnergy internalEnergy)

noncomputable section

variable {dim : ℕ}

/-- `primitive_type`: the array `[rho, u, p, gamma, a]` (euler_aeos/riemann_solver.h). (line 66) -/
structure RiemannData where
  rho : ℝ
  u : ℝ
  p : ℝ
  gamma : ℝ
  a : ℝ

/-- `slope` (euler_aeos/riemann_solver.template.h:68-69). -/
def cSlope : ℝ := -0.34976871477801828189920753948709

/-- `c` (euler_aeos/riemann_solver.template.h:51-82). -/
def cGamma (gamma : ℝ) : ℝ :=
  let first_radicand := (3 * gamma + 11) / (6 * gamma + 6)
  let second_radicand := 5 / 6 + cSlope * (gamma - 3)
  let radicand := min first_radicand second_radicand
  let radicand := min 1 radicand
  let radicand := max (1 / 2) radicand
  Real.sqrt radicand

/-- `alpha` (euler_aeos/riemann_solver.template.h:85-98). -/
def alphaOf (P : Params) (rho gamma a : ℝ) : ℝ :=
  let numerator := 2 * a * (1 - P.b * rho)
  let denominator := gamma - 1
  numerator / denominator

/-- `p_star_RS_full` (euler_aeos/riemann_solver.template.h:101-201). -/
def pStarRS (P : Params) (i j : RiemannData) : ℝ :=
  let alpha_i := alphaOf P i.rho i.gamma i.a
  let alpha_j := alphaOf P j.rho j.gamma j.a
  let p_min := min i.p j.p
  let p_max := max i.p j.p
  let gamma_min := maskLt i.p j.p i.gamma j.gamma
  let alpha_min := maskLt i.p j.p alpha_i alpha_j
  let alpha_hat_min := cGamma gamma_min * alpha_min
  let alpha_max := if i.p ≥ j.p then alpha_i else alpha_j
  let gamma_m := min i.gamma j.gamma
  let gamma_M := max i.gamma j.gamma
  let numerator := positivePart (alpha_hat_min + alpha_max - (j.u - i.u))
  let p_ratio := (p_min + P.pinf) / (p_max + P.pinf)
  let r_exponent := (gamma_M - gamma_min) / (2 * gamma_min * gamma_M)
  let first_exponent := (gamma_M - 1) / (2 * gamma_M)
  let first_exponent_inverse := 1 / first_exponent
  let first_denom := alpha_hat_min * p_ratio ^ (r_exponent - first_exponent) + alpha_max
  let p_1_tilde := (p_max + P.pinf) * (numerator / first_denom) ^ first_exponent_inverse - P.pinf
  let second_exponent := (gamma_m - 1) / (2 * gamma_m)
  let second_exponent_inverse := 1 / second_exponent
  let second_denom := alpha_hat_min * p_ratio ^ (-second_exponent) + alpha_max * p_ratio ^ r_exponent
  let p_2_tilde := (p_max + P.pinf) * (numerator / second_denom) ^ second_exponent_inverse - P.pinf
  min p_1_tilde p_2_tilde

/-- `p_star_failsafe` (euler_aeos/riemann_solver.template.h:253-300). -/
def pStarFailsafe (P : Params) (i j : RiemannData) : ℝ :=
  let p_max := max i.p j.p + P.pinf
  let radicand_i := 2 * (1 - P.b * i.rho) * p_max
  let radicand_i := radicand_i / (i.rho * ((i.gamma + 1) * p_max + (i.gamma - 1) * (i.p + P.pinf)))
  let x_i := Real.sqrt radicand_i
  let radicand_j := 2 * (1 - P.b * j.rho) * p_max
  let radicand_j := radicand_j / (j.rho * ((j.gamma + 1) * p_max + (j.gamma - 1) * (j.p + P.pinf)))
  let x_j := Real.sqrt radicand_j
  let a := x_i + x_j
  let b := j.u - i.u
  let c := -(i.p + P.pinf) * x_i - (j.p + P.pinf) * x_j
  let base := (-b + Real.sqrt (b * b - 4 * a * c)) / (2 * a)
  base * base - P.pinf

/-- `p_star_SS_full` (euler_aeos/riemann_solver.template.h:204-250). -/
def pStarSS (P : Params) (i j : RiemannData) : ℝ :=
  let gamma_m := min i.gamma j.gamma
  let alpha_hat_i := cGamma i.gamma * alphaOf P i.rho i.gamma i.a
  let alpha_hat_j := cGamma j.gamma * alphaOf P j.rho j.gamma j.a
  let exponent := (gamma_m - 1) / (2 * gamma_m)
  let exponent_inverse := 1 / exponent
  let numerator := positivePart (alpha_hat_i + alpha_hat_j - (j.u - i.u))
  let denominator := alpha_hat_i * ((i.p + P.pinf) / (j.p + P.pinf)) ^ (-exponent) + alpha_hat_j
  let p_1_tilde := (j.p + P.pinf) * (numerator / denominator) ^ exponent_inverse - P.pinf
  let p_2_tilde := pStarFailsafe P i j
  min p_1_tilde p_2_tilde

/-- `p_star_interpolated` (euler_aeos/riemann_solver.template.h:303-387). -/
def pStarInterpolated (P : Params) (i j : RiemannData) : ℝ :=
  let alpha_i := alphaOf P i.rho i.gamma i.a
  let alpha_j := alphaOf P j.rho j.gamma j.a
  let p_min := min i.p j.p + P.pinf
  let p_max := max i.p j.p + P.pinf
  let gamma_min := maskLt i.p j.p i.gamma j.gamma
  let alpha_min := maskLt i.p j.p alpha_i alpha_j
  let alpha_hat_min := cGamma gamma_min * alpha_min
  let gamma_max := if i.p ≥ j.p then i.gamma else j.gamma
  let alpha_max := if i.p ≥ j.p then alpha_i else alpha_j
  let alpha_hat_max := cGamma gamma_max * alpha_max
  let gamma_m := min i.gamma j.gamma
  let gamma_M := max i.gamma j.gamma
  let p_ratio := p_min / p_max
  let r_exponent := (gamma_M - gamma_min) / (2 * gamma_min * gamma_M)
  let exponent := (gamma_m - 1) / (2 * gamma_m)
  let exponent_inverse := 1 / exponent
  let numerator := positivePart (alpha_hat_min + alpha_max - (j.u - i.u))
  let denominator := alpha_hat_min * p_ratio ^ (-exponent) + alpha_hat_max * p_ratio ^ r_exponent
  p_max * (numerator / denominator) ^ exponent_inverse - P.pinf

/-- `f` (euler_aeos/riemann_solver.template.h:390-426). -/
def riemannF (P : Params) (d : RiemannData) (p_star : ℝ) : ℝ :=
  let one_minus_b_rho := 1 - P.b * d.rho
  let gamma_minus_one := d.gamma - 1
  let Az := 2 * one_minus_b_rho / (d.rho * (d.gamma + 1))
  let Bz := gamma_minus_one / (d.gamma + 1) * (d.p + P.pinf)
  let radicand := Az / (p_star + P.pinf + Bz)
  let true_value := (p_star - d.p) * Real.sqrt radicand
  let exponent := (1 / 2) * gamma_minus_one / d.gamma
  let ratio := (p_star + P.pinf) / (d.p + P.pinf)
  let factor := ratio ^ exponent - 1
  let false_value := 2 * d.a * one_minus_b_rho * factor / gamma_minus_one
  if p_star ≥ d.p then true_value else false_value

/-- `phi` (euler_aeos/riemann_solver.template.h:429-439). -/
def phi (P : Params) (i j : RiemannData) (p_in : ℝ) : ℝ := riemannF P i p_in + riemannF P j p_in + j.u - i.u

/-- `phi_of_p_max` (euler_aeos/riemann_solver.template.h:442-472). -/
def phiOfPMax (P : Params) (i j : RiemannData) : ℝ :=
  let p_max := max i.p j.p + P.pinf
  let radicand_inverse_i := (1 / 2) * i.rho / (1 - P.b * i.rho) *
    ((i.gamma + 1) * p_max + (i.gamma - 1) * (i.p + P.pinf))
  let value_i := (p_max - i.p) / Real.sqrt radicand_inverse_i
  let radicand_inverse_j := (1 / 2) * j.rho / (1 - P.b * j.rho) *
    ((j.gamma + 1) * p_max + (j.gamma - 1) * (j.p + P.pinf))
  let value_j := (p_max - j.p) / Real.sqrt radicand_inverse_j
  value_i + value_j + j.u - i.u

/-- `lambda1_minus` (euler_aeos/riemann_solver.template.h:475-491). -/
def lambda1Minus (P : Params) (d : RiemannData) (p_star : ℝ) : ℝ :=
  let factor := (1 / 2) * (d.gamma + 1) / d.gamma
  let tmp := positivePart ((p_star - d.p) / (d.p + P.pinf))
  d.u - d.a * Real.sqrt (1 + factor * tmp)

/-- `lambda3_plus` (euler_aeos/riemann_solver.template.h:494-510). -/
def lambda3Plus (P : Params) (d : RiemannData) (p_star : ℝ) : ℝ :=
  let factor := (1 / 2) * (d.gamma + 1) / d.gamma
  let tmp := positivePart ((p_star - d.p) / (d.p + P.pinf))
  d.u + d.a * Real.sqrt (1 + factor * tmp)

/-- `compute_lambda` (euler_aeos/riemann_solver.template.h:513-524). -/
def computeLambda (P : Params) (i j : RiemannData) (p_star : ℝ) : ℝ :=
  let nu_11 := lambda1Minus P i p_star
  let nu_32 := lambda3Plus P j p_star
  max (positivePart nu_32) (negativePart nu_11)

/-- `riemann_data_from_state` (euler_aeos/riemann_solver.template.h:527-567). -/
def riemannDataFromState (P : Params) (U : State dim) (p : ℝ) (n_ij : Vec dim) : RiemannData :=
  let rho := density U
  let rho_inverse := 1 / rho
  let m := momentum U
  let proj_m := dot n_ij m
  let gamma := surrogateGamma P U p
  let x := 1 - P.b * rho
  let a := Real.sqrt (gamma * (p + P.pinf) / (rho * x))
  ⟨rho, proj_m * rho_inverse, p, gamma, a⟩

/-- `p_2` in `compute` (euler_aeos/riemann_solver.template.h:594-595, 612-622 and 636-641); `strict` is
`compute_strict_bounds()`. -/
def startP2 (P : Params) (strict : Bool) (i j : RiemannData) : ℝ :=
  let p_max := max i.p j.p + P.pinf
  let phi_p_max := phiOfPMax P i j
  if !strict then
    let p_star_tilde := pStarInterpolated P i j
    let p_star_backup := pStarFailsafe P i j
    maskLt phi_p_max 0 (min p_star_tilde p_star_backup) (min p_max p_star_tilde)
  else
    let p_star_RS := pStarRS P i j
    let p_star_SS := pStarSS P i j
    maskLt phi_p_max 0 p_star_SS (min p_max p_star_RS)

/-- `compute(riemann_data_i, riemann_data_j)` (euler_aeos/riemann_solver.template.h:570-653). -/
def compute (P : Params) (strict : Bool) (i j : RiemannData) : ℝ := computeLambda P i j (startP2 P strict i j)

/-- `compute(U_i, U_j, i, js, n_ij)` (euler_aeos/riemann_solver.template.h:656-674); `p_i`, `p_j` are the precomputed
pressures. -/
def riemann (P : Params) (strict : Bool) (U_i : State dim) (p_i : ℝ) (U_j : State dim) (p_j : ℝ) (n_ij : Vec dim) : ℝ :=
  compute P strict (riemannDataFromState P U_i p_i n_ij) (riemannDataFromState P U_j p_j n_ij)

/-! ### Indicator -/

/-- The private data of `Indicator` (euler_aeos/indicator.h:169-176). -/
structure IndicatorState (dim : ℕ) where
  gamma_min : ℝ
  rho_i_inverse : ℝ
  eta_i : ℝ
  f_i : Fin (dim + 2) → Vec dim
  d_eta_i : State dim
  left : ℝ
  right : State dim

/-- `reset` (euler_aeos/indicator.h:189-214); `gamma_min_i` and `eta` are precomputed. -/
def IndicatorState.reset (P : Params) (gamma_min_i eta : ℝ) (U_i : State dim) : IndicatorState dim :=
  let rho_i_inverse := 1 / density U_i
  let d := surrogateHartenEntropyDerivative P U_i eta gamma_min_i
  let surrogate_p_i := surrogatePressure P U_i gamma_min_i
  ⟨gamma_min_i, rho_i_inverse, eta, f U_i surrogate_p_i, Function.update d 0 (d 0 - eta * rho_i_inverse), 0, 0⟩

/-- `accumulate` (euler_aeos/indicator.h:217-245). -/
def IndicatorState.accumulate (P : Params) (st : IndicatorState dim) (U_j : State dim) (c_ij : Vec dim) :
    IndicatorState dim :=
  let rho_j_inverse := 1 / density U_j
  let eta_j := surrogateHartenEntropy P U_j st.gamma_min
  let surrogate_p_j := surrogatePressure P U_j st.gamma_min
  let entropy_flux := (eta_j * rho_j_inverse - st.eta_i * st.rho_i_inverse) * dot (momentum U_j) c_ij
  { st with
    left := st.left + entropy_flux
    right := fun k => st.right k + dot (fun d => f U_j surrogate_p_j k d - st.f_i k d) c_ij }

/-- `numerator` in `alpha` (euler_aeos/indicator.h:254-259). -/
def IndicatorState.numerator (st : IndicatorState dim) : ℝ :=
  (List.finRange (dim + 2)).foldl (fun acc k => acc - st.d_eta_i k * st.right k) st.left

/-- `denominator` in `alpha` (euler_aeos/indicator.h:254-259), before the regularisation. -/
def IndicatorState.denominator (st : IndicatorState dim) : ℝ :=
  (List.finRange (dim + 2)).foldl (fun acc k => acc + |st.d_eta_i k * st.right k|) |st.left|

/-- `alpha` (euler_aeos/indicator.h:248-265). -/
def IndicatorState.alpha (st : IndicatorState dim) (evc_factor hd_i : ℝ) : ℝ :=
  let quotient := |st.numerator| / (st.denominator + hd_i * |st.eta_i|)
  min 1 (evc_factor * quotient)

/-- The indicator of a row: `reset`, `accumulate` over the row, `alpha` (as called by
hyperbolic_module.template.h:385-422).  The precomputed Harten entropy is that of the state
(euler_aeos/hyperbolic_system.h, `precomputation_loop`). -/
def indicator (P : Params) (evc_factor gamma_min_i : ℝ) (U_i : State dim) (row : List (State dim × Vec dim))
    (hd_i : ℝ) : ℝ :=
  (row.foldl (fun st e => st.accumulate P e.1 e.2)
    (IndicatorState.reset P gamma_min_i (surrogateHartenEntropy P U_i gamma_min_i) U_i)).alpha evc_factor hd_i

end

end Aeos
end Ryujin
