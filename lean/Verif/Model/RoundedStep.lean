import Verif.Model.Rounded
import Verif.Model.HyperbolicStep

/-!
# Model of the time step in floating point arithmetic

Steps 4 to 7 of `HyperbolicModule::step` for one component of the state, with every arithmetic operation rounded.  It covers the equations
without source terms and without equilibrated states (Euler with either equation of state, scalar equations).  Input of the steps are arbitrary
numbers: the old state, the fluxes of the old state and of the stages, the viscosity matrix, the indicator, the coefficients of the limiter
(the largest coefficients are modelled in `Model/Rounded`).  As there, every multiplication followed by an addition may be contracted.
`Props/RoundedStep` shows that nothing but the rounding separates this from `Model/HyperbolicStep`.
-/

namespace Ryujin
namespace Rounded

noncomputable section

open Hyp

/-- The places of steps 4 to 6 at which a product may be contracted with a sum; `dot` and `stageDot` carry the number of the coordinate and of
the stage. (convenience_macros.h:88; hyperbolic_module.template.h:739, 770, 790-792, 812-813, 837-838, 982-995, 1115) -/
inductive Place
  | dot (k : ℕ)
  | stageDot (stage k : ℕ)
  | lowFlux
  | lowJump
  | rhsJump
  | rhsWeight
  | rhsStage (stage : ℕ)
  | viscosity
  | pJump
  | pWeight
  | pStage (stage : ℕ)
  | matrixIJ
  | matrixJI
  | correctionIJ
  | correctionJI
  | update (pass : ℕ)

/-- Which products are contracted, in every row and column: the loops over the rows are compiled twice, with and without SIMD, and unrolled.
(hyperbolic_module.template.h:877-892) -/
abbrev Contractions (ι : Type) := ι → ι → Place → Bool

/-- Input of steps 4 to 7 for one component of the state: old state, rows of the fluxes of the old state and of the stages (with weights),
`weight`, `tau`, `dij_matrix_` and `alpha_`. (hyperbolic_module.template.h:615-668, 721-769) -/
structure StepData (ι : Type) (dim : ℕ) where
  U : ι → ℝ
  f : ι → Vec dim
  stages : List (ℝ × (ι → Vec dim))
  weight : ℝ
  tau : ℝ
  d : ι → ι → ℝ
  alpha : ι → ℝ

variable {ι : Type} {dim : ℕ} (R : Rounding) (s : Contractions ι) (M : Mesh ι dim) (X : StepData ι dim)

/-- One component of `flux_divergence`: `-contract(add(flux_i, flux_j), c_ij)`. (euler/hyperbolic_system.h:1210-1216,
euler_aeos/hyperbolic_system.h:1423-1429, scalar_conservation/hyperbolic_system.h:821-827, convenience_macros.h:76-105) -/
def fluxDivergence (fused : Fin dim → Bool) (f_i f_j c : Vec dim) : ℝ :=
  -((List.finRange dim).foldl (fun acc k => mulAdd R (fused k) (R.fl (f_i k + f_j k)) (c k) acc) 0)

/-- `lumped_mass_matrix_inverse`. (offline_data.template.h:782-783, 800-801) -/
def massInverse (i : ι) : ℝ := R.fl (1 / M.lumped i)

/-- `flux_ij`. (hyperbolic_module.template.h:769) -/
def fluxIJ (i j : ι) : ℝ := fluxDivergence R (fun k => s i j (.dot k.1)) (X.f i) (X.f j) (M.c i j)

/-- `flux_ij` of a stage. (hyperbolic_module.template.h:835-836) -/
def stageFlux (i j : ι) (n : ℕ) (f : ι → Vec dim) : ℝ := fluxDivergence R (fun k => s i j (.stageDot n k.1)) (f i) (f j) (M.c i j)

/-- `tau * m_i_inv`. (hyperbolic_module.template.h:770, 790, 960) -/
def tauMass (i : ι) : ℝ := R.fl (X.tau * massInverse R M i)

/-- The low-order update: `U_i_new` at the end of step 4. (hyperbolic_module.template.h:654, 722-723, 770, 790) -/
def lowOrder (i : ι) : ℝ :=
  (M.columns i).foldl (fun U_i_new j =>
    let U_i_new := mulAdd R (s i j .lowFlux) (tauMass R M X i) (fluxIJ R s M X i j) U_i_new
    mulAdd R (s i j .lowJump) (R.fl (tauMass R M X i * X.d i j)) (R.fl (X.U j - X.U i)) U_i_new) (X.U i)

/-- `factor`. (hyperbolic_module.template.h:731-737) -/
def factor (i j : ι) : ℝ :=
  let factor := R.fl (R.fl (X.alpha i + X.alpha j) * (1 / 2))
  if M.dG then max factor (M.incidence i j) else factor

/-- The loop over the stages, for `F_iH` or `P_ij`. (hyperbolic_module.template.h:823-848) -/
def addStages (place : ℕ → Place) (i j : ι) : ℕ → ℝ → List (ℝ × (ι → Vec dim)) → ℝ
  | _, acc, [] => acc
  | n, acc, (w, f) :: rest => addStages place i j (n + 1) (mulAdd R (s i j (place n)) w (stageFlux R s M i j n f) acc) rest

/-- `F_iH`, stored in `r_`. (hyperbolic_module.template.h:722-723, 739, 791, 812, 837, 858) -/
def rhs (i : ι) : ℝ :=
  (M.columns i).foldl (fun F j =>
    let F := mulAdd R (s i j .rhsJump) (R.fl (X.d i j * factor R M X i j)) (R.fl (X.U j - X.U i)) F
    let F := mulAdd R (s i j .rhsWeight) X.weight (fluxIJ R s M X i j) F
    addStages R s M .rhsStage i j 0 F X.stages) 0

/-- `P_ij` at the end of step 4. (hyperbolic_module.template.h:739, 771, 792, 813, 838) -/
def pFirst (i j : ι) : ℝ :=
  let P := -fluxIJ R s M X i j
  let P := mulAdd R (s i j .pJump) (R.fl (product R (s i j .viscosity) (X.d i j) (factor R M X i j) - X.d i j)) (R.fl (X.U j - X.U i)) P
  let P := mulAdd R (s i j .pWeight) X.weight (fluxIJ R s M X i j) P
  addStages R s M .pStage i j 0 P X.stages

/-- `b_ij` of an off-diagonal entry. (hyperbolic_module.template.h:973, 982, 992) -/
def bIJ (i j : ι) : ℝ :=
  if M.dG then R.fl (product R (s i j .matrixIJ) (M.lumped i) (M.massInv i j) - 0)
  else R.fl (0 - product R (s i j .matrixIJ) (M.mass i j) (massInverse R M j))

/-- `b_ji` of an off-diagonal entry, as computed in row `i`. (hyperbolic_module.template.h:983, 993) -/
def bJI (i j : ι) : ℝ :=
  if M.dG then R.fl (product R (s i j .matrixJI) (M.lumped j) (M.massInv i j) - 0)
  else R.fl (0 - product R (s i j .matrixJI) (M.mass i j) (massInverse R M i))

/-- `pij_matrix_` after step 5. (hyperbolic_module.template.h:959-999) -/
def pIJ (i j : ι) : ℝ :=
  let P := R.fl (pFirst R s M X i j + R.fl (product R (s i j .correctionIJ) (bIJ R s M i j) (rhs R s M X j)
    - product R (s i j .correctionJI) (bJI R s M i j) (rhs R s M X i)))
  R.fl (P * R.fl (tauMass R M X i * (M.nbrs i).length))

/-- The passes of step 6; `lij` are the entries of `lij_matrix_` in each of them. (hyperbolic_module.template.h:1054-1124) -/
def passes (i : ι) : ℕ → ℝ → List (ι → ι → ℝ) → ℝ
  | _, U, [] => U
  | n, U, lij :: rest =>
    passes i (n + 1) (update R (lambda R (M.nbrs i).length) U
      ((M.nbrs i).map fun j => (symmetrized lij i j, pIJ R s M X i j, s i j (.update n)))) rest

open Classical in
/-- The component of `new_U` at the end of the step: rows of constrained degrees of freedom are skipped, their entries remain what they were
before the step (`leftover`).
(hyperbolic_module.template.h:641-643, 857, 1054-1124) -/
def newU (leftover : ι → ℝ) (lij : List (ι → ι → ℝ)) (i : ι) : ℝ :=
  if M.active i then passes R s M X i 0 (lowOrder R s M X i) lij else leftover i

/-- `d_sum` of step 3: the sum of a row of `dij_matrix_` without the diagonal. (hyperbolic_module.template.h:502-538) -/
def viscositySum (i : ι) : ℝ := (M.nbrs i).foldl (fun d_sum j => R.fl (d_sum - X.d i j)) 0

/-- The largest time-step size of a row, in step 3. (hyperbolic_module.template.h:545-552) -/
def tauRow (tiny cfl : ℝ) (i : ι) : ℝ :=
  let d_sum := min (viscositySum R M X i) (R.fl (-1000000 * tiny))
  R.fl (R.fl (cfl * M.lumped i) / R.fl (-2 * d_sum))

end

end Rounded
end Ryujin
