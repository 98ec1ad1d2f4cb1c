import Verif.Spec.Rounding
import Verif.Model.EulerLimiter
import Verif.Model.AeosSystem
import Verif.Model.Scalar
import Verif.Model.ShallowWater

/-!
# Model of the limiters in floating point arithmetic

The other models use real numbers.  Here the results of the arithmetic operations that decide about the guarantees of the limiters are rounded
(`Rounding`).  The compiler may contract a multiplication followed by an addition into one operation with a single rounding (gcc does so by
default); every such place has a flag, and the theorems hold for all values of the flags.

Over-approximations: where the guarantees do not depend on the accuracy of the computation (values of `psi`, candidates of the Newton step,
tests for the end of an iteration) arbitrary values are allowed.  Every function agrees with the model over the real numbers when nothing is
rounded (`Props/Rounding`).  Overflow, underflow and NaN are not modelled.
-/

namespace Ryujin
namespace Rounded

noncomputable section

/-- The product in `c + a * b`: rounded, unless it is contracted with the sum. (euler/limiter.template.h:76, 83) -/
def product (R : Rounding) (fused : Bool) (a b : ℝ) : ℝ := if fused then a * b else R.fl (a * b)

/-- `c + a * b`. (euler/limiter.template.h:76, 83; hyperbolic_module.template.h:1115) -/
def mulAdd (R : Rounding) (fused : Bool) (a b c : ℝ) : ℝ := R.fl (c + product R fused a b)

/-- Which operations of a limiter are contracted. (euler/limiter.template.h:71, 76, 88) -/
structure Contraction where
  denominator : Bool
  first : Bool
  second : Bool

/-- The part common to all limiters: largest coefficient, given the reciprocal `denominator`.
(euler/limiter.template.h:73-104, euler_aeos/limiter.template.h:72-103, scalar_conservation/limiter.template.h:67-98,
shallow_water/limiter.template.h:75-117) -/
def fit (R : Rounding) (s : Contraction) (denominator rho_min rho_max rho_U rho_P t_min t_max : ℝ) : ℝ :=
  let t_r := t_max
  let t_r := maskLt rho_max (mulAdd R s.first t_r rho_P rho_U) (R.fl (R.fl (rho_max - rho_U) * denominator)) t_r
  let t_r := maskLt (mulAdd R s.second t_r rho_P rho_U) rho_min (R.fl (R.fl (rho_U - rho_min) * denominator)) t_r
  let t_r := min t_r t_max
  max t_r t_min

/-- `denominator` of the Euler limiters. (euler/limiter.template.h:70-71, euler_aeos/limiter.template.h:69-70) -/
def eulerDenominator (R : Rounding) (s : Contraction) (eps rho_max rho_P : ℝ) : ℝ :=
  R.fl (1 / mulAdd R s.denominator eps rho_max |rho_P|)

/-- `denominator` of the limiter of scalar equations. (scalar_conservation/limiter.template.h:60-65) -/
def scalarDenominator (R : Rounding) (s : Contraction) (eps tiny u_max u_P : ℝ) : ℝ :=
  R.fl (1 / max (R.fl (100 * tiny)) (mulAdd R s.denominator eps u_max |u_P|))

/-- `denominator` of the limiter of the shallow water equations. (shallow_water/limiter.template.h:70-71) -/
def shallowDenominator (R : Rounding) (s : Contraction) (eps tiny h_max h_P : ℝ) : ℝ :=
  R.fl (1 / R.fl (mulAdd R s.denominator eps h_max |h_P| + tiny))

/-- The end of `quadratic_newton_step`, for arbitrary candidates. (newton.h:91-105) -/
def clampPair (p_1 p_2 : ℝ) (t : ℝ × ℝ) : ℝ × ℝ :=
  (min (newtonClamp p_1 p_2 t.1) (newtonClamp p_1 p_2 t.2), max (newtonClamp p_1 p_2 t.1) (newtonClamp p_1 p_2 t.2))

/-- The test for the end of the Newton iteration, without rounding. (euler/limiter.template.h:258-259) -/
def realStop {L : ℕ} (tolerance : ℝ) (t_l t_r : Fin L → ℝ) : Prop := ∀ l, max 0 (t_r l - t_l l - tolerance) = 0

/-- The candidates of the quadratic Newton step, without rounding. (newton.h:56-89) -/
def realCandidates (eps : ℝ) (psi dpsi : ℝ → ℝ) (p_1 p_2 : ℝ) : ℝ × ℝ :=
  (newtonCandidate eps (-1) p_1 (psi p_1) (dpsi p_1) (newtonDD112 eps p_1 p_2 (psi p_1) (psi p_2) (dpsi p_1)),
   newtonCandidate eps (-1) p_2 (psi p_2) (dpsi p_2) (newtonDD122 eps p_1 p_2 (psi p_1) (psi p_2) (dpsi p_2)))

open Classical in
/-- The Newton loop of the Euler limiters (euler/limiter.template.h:161-281, euler_aeos/limiter.template.h:178-320), for arbitrary values of
`psi`, an arbitrary test for the end and arbitrary candidates in every iteration. -/
def newtonLoop {L : ℕ} (psi : ℕ → Fin L → ℝ → ℝ) (stop : ℕ → (Fin L → ℝ) → (Fin L → ℝ) → Prop) (candidates : ℕ → Fin L → ℝ → ℝ → ℝ × ℝ) :
    ℕ → ℕ → (Fin L → ℝ) → (Fin L → ℝ) → Fin L → ℝ
  | 0, _, t_l, _ => t_l
  | fuel + 1, n, t_l, t_r =>
    let t_l' : Fin L → ℝ := fun l => maskGt (psi n l (t_r l)) 0 (t_r l) (t_l l)
    if t_l' = t_r then t_l'
    else if stop n t_l' t_r then t_l'
    else
      let r : Fin L → ℝ × ℝ := fun l => clampPair (t_l' l) (t_r l) (candidates n l (t_l' l) (t_r l))
      newtonLoop psi stop candidates fuel (n + 1) (fun l => (r l).1) (fun l => (r l).2)

/-- `Limiter::limit` of the Euler equations with either equation of state: the returned coefficients. (euler/limiter.template.h:16-323,
euler_aeos/limiter.template.h:15-361).  The bounds are those of the density. -/
def eulerLimit {L : ℕ} (R : Rounding) (s : Fin L → Contraction) (eps : ℝ) (psi : ℕ → Fin L → ℝ → ℝ)
    (stop : ℕ → (Fin L → ℝ) → (Fin L → ℝ) → Prop) (candidates : ℕ → Fin L → ℝ → ℝ → ℝ × ℝ) (iterations : ℕ)
    (rho_min rho_max rho_U rho_P t_min t_max : Fin L → ℝ) : Fin L → ℝ :=
  newtonLoop psi stop candidates iterations 0 t_min fun l =>
    fit R (s l) (eulerDenominator R (s l) eps (rho_max l) (rho_P l)) (rho_min l) (rho_max l) (rho_U l) (rho_P l) (t_min l) (t_max l)

/-- `Limiter::limit` of scalar equations: the returned coefficients. (scalar_conservation/limiter.template.h:14-127) -/
def scalarLimit {L : ℕ} (R : Rounding) (s : Fin L → Contraction) (eps tiny : ℝ) (u_min u_max u_U u_P t_min t_max : Fin L → ℝ) : Fin L → ℝ :=
  fun l => fit R (s l) (scalarDenominator R (s l) eps tiny (u_max l) (u_P l)) (u_min l) (u_max l) (u_U l) (u_P l) (t_min l) (t_max l)

open Classical in
/-- One stage of the limiter of the shallow water equations after the initial mask (shallow_water/limiter.template.h:191-265 and 339-411), for
an arbitrary test and arbitrary candidates. -/
def newtonOnce {L : ℕ} (stop : (Fin L → ℝ) → (Fin L → ℝ) → Prop) (candidates : Fin L → ℝ → ℝ → ℝ × ℝ) (t_l t_r : Fin L → ℝ) : Fin L → ℝ :=
  if stop t_l t_r then t_l else fun l => (clampPair (t_l l) (t_r l) (candidates l (t_l l) (t_r l))).1

open Classical in
/-- The square velocity stage. (shallow_water/limiter.template.h:311-446) -/
def velocityStage {L : ℕ} (psi : Fin L → ℝ → ℝ) (stop : (Fin L → ℝ) → (Fin L → ℝ) → Prop) (candidates : Fin L → ℝ → ℝ → ℝ × ℝ)
    (t_l t_r : Fin L → ℝ) : Fin L → ℝ :=
  let t_l' : Fin L → ℝ := fun l => maskGt (psi l (t_r l)) 0 (t_r l) (t_l l)
  if t_l' = t_r then t_l' else newtonOnce stop candidates t_l' t_r

open Classical in
/-- `Limiter::limit` of the shallow water equations: the returned coefficients (shallow_water/limiter.template.h:16-449).  `psi`, `stop` and
`candidates` of the kinetic energy stage (`false`) and of the square velocity stage (`true`) are arbitrary. -/
def shallowLimit {L : ℕ} (R : Rounding) (s : Fin L → Contraction) (eps tiny : ℝ) (limit_on_kinetic_energy limit_on_square_velocity : Bool)
    (psi : Bool → Fin L → ℝ → ℝ) (stop : Bool → (Fin L → ℝ) → (Fin L → ℝ) → Prop) (candidates : Bool → Fin L → ℝ → ℝ → ℝ × ℝ)
    (h_min h_max h_small h_U h_P t_min t_max : Fin L → ℝ) : Fin L → ℝ :=
  let t_l := t_min
  let t_r : Fin L → ℝ := fun l =>
    fit R (s l) (shallowDenominator R (s l) eps tiny (h_max l) (h_P l)) (max (h_small l) (h_min l)) (h_max l) (h_U l) (h_P l) (t_min l) (t_max l)
  if limit_on_square_velocity = false ∧ limit_on_kinetic_energy = false then t_l
  else if limit_on_kinetic_energy then
    let t_l' : Fin L → ℝ := fun l => maskGt (psi false l (t_r l)) 0 (t_r l) (t_l l)
    if limit_on_square_velocity = false ∧ t_l' = t_r then t_l'
    else
      let r := newtonOnce (stop false) (candidates false) t_l' t_r
      if limit_on_square_velocity then velocityStage (psi true) (stop true) (candidates true) t_min r else r
  else velocityStage (psi true) (stop true) (candidates true) t_l t_r

/-- `U_i_new += l_ij * lambda * p_ij` over the columns of a row, for one component of the state; an entry is the coefficient `l_ij` (already
symmetrised), `p_ij` and whether the sum is contracted. (hyperbolic_module.template.h:1107-1119) -/
def update (R : Rounding) (lambda : ℝ) : ℝ → List (ℝ × ℝ × Bool) → ℝ
  | U, [] => U
  | U, (l, p, fused) :: row => update R lambda (mulAdd R fused (R.fl (l * lambda)) p U) row

/-- `lambda` of a row with `n` neighbours. (hyperbolic_module.template.h:1103) -/
def lambda (R : Rounding) (n : ℕ) : ℝ := R.fl (1 / n)

/-- `new_p_ij` of the second round. (hyperbolic_module.template.h:1141-1143) -/
def nextP (R : Rounding) (l p : ℝ) : ℝ := R.fl (R.fl (1 - l) * p)

/-- The entry of `lij_matrix_next_`. (hyperbolic_module.template.h:1169) -/
def nextL (R : Rounding) (l new_l : ℝ) : ℝ := R.fl (R.fl (1 - l) * new_l)

/-- A neighbour of a degree of freedom in the two rounds of the limiter, for one component of the state: the entry of `pij_matrix_`, the
symmetrised coefficients of both rounds and whether the sums are contracted. (hyperbolic_module.template.h:1108-1115) -/
structure Neighbour where
  p : ℝ
  first : ℝ
  second : ℝ
  fused : Bool × Bool

/-- The component after the first round. (hyperbolic_module.template.h:1101-1119) -/
def firstRound (R : Rounding) (U : ℝ) (row : List Neighbour) : ℝ :=
  update R (lambda R row.length) U (row.map fun e => (e.first, e.p, e.fused.1))

/-- The component after the second round. (hyperbolic_module.template.h:1101-1119) -/
def secondRound (R : Rounding) (U : ℝ) (row : List Neighbour) : ℝ :=
  update R (lambda R row.length) (firstRound R U row) (row.map fun e => (e.second, e.p, e.fused.2))

/-- The test of the limiters whether the state is in bounds, without the filter for vacuum and dry states, which only makes it weaker
(euler/limiter.template.h:49-53, euler_aeos/limiter.template.h:51-55, shallow_water/limiter.template.h:49-54). -/
def inBounds (R : Rounding) (relax rho_min rho_max rho_U : ℝ) : Prop :=
  max 0 (R.fl (rho_U - R.fl (relax * rho_max))) = 0 ∧ max 0 (R.fl (rho_min - R.fl (relax * rho_U))) = 0

end

end Rounded
end Ryujin
