import Verif.Model.EulerSystem
import Verif.Model.ShallowWater

/-!
# Model of `source/euler/riemann_solver.template.h` and `source/euler/indicator.h`

`Number` is idealised as `ℝ`.  All functions are lane-wise except the Newton loop of `compute`, which stops when *all*
lanes have converged and is therefore modelled with `L` lanes.
-/

namespace Ryujin
namespace Euler

noncomputable section

variable {dim L : ℕ}

/-- `primitive_type`: the array `[rho, u, p, a]` (euler/riemann_solver.h). (line 86) -/
structure RiemannData where
  rho : ℝ
  u : ℝ
  p : ℝ
  a : ℝ

/-- `f` (euler/riemann_solver.template.h:22-47). -/
def riemannF (gamma : ℝ) (d : RiemannData) (p_star : ℝ) : ℝ :=
  let Az := 2 / (d.rho * (gamma + 1))
  let Bz := (gamma - 1) / (gamma + 1) * d.p
  let radicand := Az / (p_star + Bz)
  let true_value := (p_star - d.p) * Real.sqrt radicand
  let exponent := (1 / 2) * (gamma - 1) / gamma
  let factor := (p_star / d.p) ^ exponent - 1
  let false_value := 2 * d.a * factor / (gamma - 1)
  if p_star ≥ d.p then true_value else false_value

/-- `df` (euler/riemann_solver.template.h:50-85). -/
def riemannDF (gamma : ℝ) (d : RiemannData) (p_star : ℝ) : ℝ :=
  let radicand_inverse := (1 / 2) * d.rho * ((gamma + 1) * p_star + (gamma - 1) * d.p)
  let denominator := p_star + (gamma - 1) * (1 / (gamma + 1)) * d.p
  let true_value := (denominator - (1 / 2) * (p_star - d.p)) / (denominator * Real.sqrt radicand_inverse)
  let exponent := (-1 - gamma) * (1 / 2) * (1 / gamma)
  let factor := (gamma - 1) * (1 / 2) * (1 / gamma) * (p_star / d.p) ^ exponent / d.p
  let false_value := factor * 2 * d.a * (1 / (gamma - 1))
  if p_star ≥ d.p then true_value else false_value

/-- `phi` (euler/riemann_solver.template.h:88-98). -/
def phi (gamma : ℝ) (i j : RiemannData) (p : ℝ) : ℝ := riemannF gamma i p + riemannF gamma j p + j.u - i.u

/-- `dphi` (euler/riemann_solver.template.h:101-108). -/
def dphi (gamma : ℝ) (i j : RiemannData) (p : ℝ) : ℝ := riemannDF gamma i p + riemannDF gamma j p

/-- `phi_of_p_max` (euler/riemann_solver.template.h:123-149). -/
def phiOfPMax (gamma : ℝ) (i j : RiemannData) : ℝ :=
  let p_max := max i.p j.p
  let radicand_inverse_i := (1 / 2) * i.rho * ((gamma + 1) * p_max + (gamma - 1) * i.p)
  let value_i := (p_max - i.p) / Real.sqrt radicand_inverse_i
  let radicand_inverse_j := (1 / 2) * j.rho * ((gamma + 1) * p_max + (gamma - 1) * j.p)
  let value_j := (p_max - j.p) / Real.sqrt radicand_inverse_j
  value_i + value_j + j.u - i.u

/-- `lambda1_minus` (euler/riemann_solver.template.h:164-180). -/
def lambda1Minus (gamma : ℝ) (d : RiemannData) (p_star : ℝ) : ℝ :=
  let factor := (gamma + 1) * (1 / 2) * (1 / gamma)
  let inv_p := 1 / d.p
  let tmp := positivePart ((p_star - d.p) * inv_p)
  d.u - d.a * Real.sqrt (1 + factor * tmp)

/-- `lambda3_plus` (euler/riemann_solver.template.h:188-203). -/
def lambda3Plus (gamma : ℝ) (d : RiemannData) (p_star : ℝ) : ℝ :=
  let factor := (gamma + 1) * (1 / 2) * (1 / gamma)
  let inv_p := 1 / d.p
  let tmp := positivePart ((p_star - d.p) * inv_p)
  d.u + d.a * Real.sqrt (1 + factor * tmp)

/-- `compute_gap` (euler/riemann_solver.template.h:215-236): the pair `{gap, lambda_max}`. -/
def computeGap (gamma : ℝ) (i j : RiemannData) (p_1 p_2 : ℝ) : ℝ × ℝ :=
  let nu_11 := lambda1Minus gamma i p_2
  let nu_12 := lambda1Minus gamma i p_1
  let nu_31 := lambda3Plus gamma j p_1
  let nu_32 := lambda3Plus gamma j p_2
  (max |nu_32 - nu_31| |nu_12 - nu_11|, max (positivePart nu_32) (negativePart nu_11))

/-- `compute_lambda` (euler/riemann_solver.template.h:250-262). -/
def computeLambda (gamma : ℝ) (i j : RiemannData) (p_star : ℝ) : ℝ :=
  let nu_11 := lambda1Minus gamma i p_star
  let nu_32 := lambda3Plus gamma j p_star
  max (positivePart nu_32) (negativePart nu_11)

/-- `p_star_two_rarefaction` (euler/riemann_solver.template.h:273-320). -/
def pStarTwoRarefaction (gamma : ℝ) (i j : RiemannData) : ℝ :=
  let inv_p_j := 1 / j.p
  let factor := (gamma - 1) * (1 / 2)
  let numerator := positivePart (i.a + j.a - factor * (j.u - i.u))
  let denominator := i.a * (i.p * inv_p_j) ^ (-factor * (1 / gamma)) + j.a
  let exponent := 2 * gamma * (1 / (gamma - 1))
  j.p * (numerator / denominator) ^ exponent

/-- `p_star_failsafe` (euler/riemann_solver.template.h:331-374). -/
def pStarFailsafe (gamma : ℝ) (i j : RiemannData) : ℝ :=
  let p_max := max i.p j.p
  let radicand_i := 2 * p_max / (i.rho * ((gamma + 1) * p_max + (gamma - 1) * i.p))
  let x_i := Real.sqrt radicand_i
  let radicand_j := 2 * p_max / (j.rho * ((gamma + 1) * p_max + (gamma - 1) * j.p))
  let x_j := Real.sqrt radicand_j
  let a := x_i + x_j
  let b := j.u - i.u
  let c := -i.p * x_i - j.p * x_j
  let base := (-b + Real.sqrt (b * b - 4 * a * c)) / (2 * a)
  base * base

/-- `riemann_data_from_state` (euler/riemann_solver.template.h:377-403): the pressure and the speed of sound are those
of the one dimensional state `[rho, proj_m, E]`. -/
def riemannDataFromState (p : Params) (U : State dim) (n : Vec dim) : RiemannData :=
  let rho := density U
  let rho_inverse := 1 / rho
  let m := momentum U
  let proj_m := dot n m
  let perp : Vec dim := fun k => m k - proj_m * n k
  let E := totalEnergy U - (1 / 2) * normSq perp * rho_inverse
  let state : State 1 := mkState rho (fun _ => proj_m) E
  ⟨rho, proj_m * rho_inverse, pressure p state, speedOfSound p state⟩

/-- `p_2` (euler/riemann_solver.template.h:472-486). -/
def startP2 (gamma : ℝ) (i j : RiemannData) : ℝ :=
  let p_max := max i.p j.p
  let p_star_tilde := min (pStarTwoRarefaction gamma i j) (pStarFailsafe gamma i j)
  maskLt (phiOfPMax gamma i j) 0 p_star_tilde (min p_max p_star_tilde)

/-- `p_1` (euler/riemann_solver.template.h:514-521). -/
def startP1 (gamma : ℝ) (i j : RiemannData) : ℝ :=
  let p_max := max i.p j.p
  let p_min := min i.p j.p
  let p_1 := maskLt (phiOfPMax gamma i j) 0 p_max p_min
  if p_1 ≤ startP2 gamma i j then p_1 else startP2 gamma i j

/-- The variables of the Newton loop in one lane. (euler/riemann_solver.template.h:540-560) -/
structure NewtonState where
  p_1 : ℝ
  p_2 : ℝ
  gap : ℝ
  lambda_max : ℝ

/-- `RiemannSolverParameters` (euler/riemann_solver.h:24-47) and `eps` of `quadratic_newton_step`. -/
structure RiemannParams where
  newton_tolerance : ℝ
  newton_max_iterations : ℕ
  eps : ℝ

/-- Loop body of the Newton iteration in one lane (euler/riemann_solver.template.h:552-564). -/
def newtonBody (gamma eps : ℝ) (i j : RiemannData) (st : NewtonState) : NewtonState :=
  let phi_p_1 := phi gamma i j st.p_1
  let phi_p_2 := phi gamma i j st.p_2
  let dphi_p_1 := dphi gamma i j st.p_1
  let dphi_p_2 := dphi gamma i j st.p_2
  let ps := quadraticNewtonStep eps st.p_1 st.p_2 phi_p_1 phi_p_2 dphi_p_1 dphi_p_2 1
  let g := computeGap gamma i j ps.1 ps.2
  ⟨ps.1, ps.2, g.1, g.2⟩

open Classical in
/-- The Newton loop (euler/riemann_solver.template.h:540-575): left early only if all lanes have converged. -/
def newtonLoop (gamma : ℝ) (rp : RiemannParams) (i j : Fin L → RiemannData) :
    ℕ → (Fin L → NewtonState) → Fin L → NewtonState
  | 0, st => st
  | n + 1, st =>
    if ∀ l, max 0 ((st l).gap - rp.newton_tolerance) = 0 then st
    else newtonLoop gamma rp i j n fun l => newtonBody gamma rp.eps (i l) (j l) (st l)

/-- `compute(riemann_data_i, riemann_data_j)` (euler/riemann_solver.template.h:406-582). -/
def compute (gamma : ℝ) (rp : RiemannParams) (i j : Fin L → RiemannData) : Fin L → ℝ :=
  if rp.newton_max_iterations = 0 then fun l => computeLambda gamma (i l) (j l) (startP2 gamma (i l) (j l))
  else
    let start := fun l =>
      let p_1 := startP1 gamma (i l) (j l)
      let p_2 := startP2 gamma (i l) (j l)
      let g := computeGap gamma (i l) (j l) p_1 p_2
      (⟨p_1, p_2, g.1, g.2⟩ : NewtonState)
    fun l => (newtonLoop gamma rp i j rp.newton_max_iterations start l).lambda_max

/-- `compute(U_i, U_j, i, js, n_ij)` (euler/riemann_solver.template.h:585-597). -/
def riemann (p : Params) (rp : RiemannParams) (U_i U_j : Fin L → State dim) (n : Fin L → Vec dim) : Fin L → ℝ :=
  compute p.gamma rp (fun l => riemannDataFromState p (U_i l) (n l)) (fun l => riemannDataFromState p (U_j l) (n l))

/-! ### Indicator -/

/-- The private data of `Indicator` (euler/indicator.h:168-178). -/
structure IndicatorState (dim : ℕ) where
  rho_i_inverse : ℝ
  eta_i : ℝ
  f_i : Fin (dim + 2) → Vec dim
  d_eta_i : State dim
  left : ℝ
  right : State dim

/-- `reset` (euler/indicator.h:188-211); `eta` is the precomputed Harten entropy of the row. -/
def IndicatorState.reset (p : Params) (eta : ℝ) (U_i : State dim) : IndicatorState dim :=
  let rho_i_inverse := 1 / density U_i
  let d := hartenEntropyDerivative p U_i
  ⟨rho_i_inverse, eta, f p U_i, Function.update d 0 (d 0 - eta * rho_i_inverse), 0, 0⟩

/-- `accumulate` (euler/indicator.h:214-242); `eta_j` is the precomputed Harten entropy of the column. -/
def IndicatorState.accumulate (p : Params) (st : IndicatorState dim) (eta_j : ℝ) (U_j : State dim)
    (c_ij : Vec dim) : IndicatorState dim :=
  let rho_j_inverse := 1 / density U_j
  let entropy_flux := (eta_j * rho_j_inverse - st.eta_i * st.rho_i_inverse) * dot (momentum U_j) c_ij
  { st with
    left := st.left + entropy_flux
    right := fun k => st.right k + dot (fun d => f p U_j k d - st.f_i k d) c_ij }

/-- `numerator` in `alpha` (euler/indicator.h:251-256). -/
def IndicatorState.numerator (st : IndicatorState dim) : ℝ :=
  (List.finRange (dim + 2)).foldl (fun acc k => acc - st.d_eta_i k * st.right k) st.left

/-- `denominator` in `alpha` (euler/indicator.h:252-257), before the regularisation. -/
def IndicatorState.denominator (st : IndicatorState dim) : ℝ :=
  (List.finRange (dim + 2)).foldl (fun acc k => acc + |st.d_eta_i k * st.right k|) |st.left|

/-- `alpha` (euler/indicator.h:242-259). -/
def IndicatorState.alpha (st : IndicatorState dim) (evc_factor hd_i : ℝ) : ℝ :=
  let quotient := |st.numerator| / (st.denominator + hd_i * |st.eta_i|)
  min 1 (evc_factor * quotient)

/-- The indicator of a row: `reset`, `accumulate` over the row, `alpha` (as called by
hyperbolic_module.template.h:385-422).  The precomputed entropies are those of the states
(euler/hyperbolic_system.h, `precomputation_loop`). -/
def indicator (p : Params) (evc_factor : ℝ) (U_i : State dim) (row : List (State dim × Vec dim)) (hd_i : ℝ) : ℝ :=
  (row.foldl (fun st e => st.accumulate p (hartenEntropy p e.1) e.1 e.2)
    (IndicatorState.reset p (hartenEntropy p U_i) U_i)).alpha evc_factor hd_i

end

end Euler
end Ryujin
