import Verif.Model.RoundedStep
import Verif.Model.ShallowWater

/-!
# Model of the time step of the shallow water equations in floating point arithmetic

Steps 4 to 7 of `HyperbolicModule::step` for the water depth, with every arithmetic operation rounded, as `Model/RoundedStep`.  The shallow water
equations differ in the low-order flux, which uses the equilibrated states of a pair of degrees of freedom, in the jump, which is that of the
equilibrated states, and in the high-order flux, which uses the states themselves.  Input are arbitrary numbers: nothing is assumed about how
accurately they have been computed.

Simplification: the depth component of the source terms is zero (shallow_water/hyperbolic_system.h:1194-1218, `result[0]`); adding it is exact and
left out.  The equilibrated state of `i` with respect to `j` is computed by the same function from the same arguments in the rows of `i` and of `j`
and taken to be the same number in both.
-/

namespace Ryujin
namespace RoundedShallow

noncomputable section

open Hyp Rounded

/-- Input of steps 4 to 7 for the water depth: the old depth, the depth `star i j` and the flux of the depth `fStar i j` of the equilibrated state
of `i` with respect to `j`, the flux `f` of the depth, that of the stages (with weights), `weight`, `tau`, `dij_matrix_` and `alpha_`.
(hyperbolic_module.template.h:615-668, 721-790, shallow_water/hyperbolic_system.h:1058-1171) -/
structure StepData (ι : Type) (dim : ℕ) where
  U : ι → ℝ
  star : ι → ι → ℝ
  fStar : ι → ι → Vec dim
  f : ι → Vec dim
  stages : List (ℝ × (ι → Vec dim))
  weight : ℝ
  tau : ℝ
  d : ι → ι → ℝ
  alpha : ι → ℝ

variable {ι : Type} {dim : ℕ} (R : Rounding) (s : Contractions ι) (M : Mesh ι dim) (X : StepData ι dim)

/-- The depth component of `flux_divergence` and `high_order_flux_divergence`: `contract(-add(g_i, g_j), c_ij)`.
(shallow_water/hyperbolic_system.h:1127-1143, 1160-1170; convenience_macros.h:76-105) -/
def fluxDivergence (fused : Fin dim → Bool) (f_i f_j c : Vec dim) : ℝ :=
  (List.finRange dim).foldl (fun acc k => mulAdd R (fused k) (-R.fl (f_i k + f_j k)) (c k) acc) 0

/-- `flux_ij`. (hyperbolic_module.template.h:769) -/
def fluxIJ (i j : ι) : ℝ := fluxDivergence R (fun k => s i j (.dot k.1)) (X.fStar i j) (X.fStar j i) (M.c i j)

/-- `high_order_flux_ij`. (hyperbolic_module.template.h:806-810) -/
def highFlux (i j : ι) : ℝ := fluxDivergence R (fun k => s i j (.stageDot X.stages.length k.1)) (X.f i) (X.f j) (M.c i j)

/-- `high_order_flux_ij` of a stage. (hyperbolic_module.template.h:829-833) -/
def stageFlux (i j : ι) (n : ℕ) (f : ι → Vec dim) : ℝ := fluxDivergence R (fun k => s i j (.stageDot n k.1)) (f i) (f j) (M.c i j)

/-- `tau * m_i_inv`. (hyperbolic_module.template.h:770, 781, 960) -/
def tauMass (i : ι) : ℝ := R.fl (X.tau * massInverse R M i)

/-- `U_star_ji - U_star_ij`. (hyperbolic_module.template.h:778-783) -/
def jump (i j : ι) : ℝ := R.fl (X.star j i - X.star i j)

/-- The low-order update: `U_i_new` at the end of step 4. (hyperbolic_module.template.h:654, 769-781) -/
def lowOrder (i : ι) : ℝ :=
  (M.columns i).foldl (fun U_i_new j =>
    let U_i_new := mulAdd R (s i j .lowFlux) (tauMass R M X i) (fluxIJ R s M X i j) U_i_new
    mulAdd R (s i j .lowJump) (R.fl (tauMass R M X i * X.d i j)) (jump R X i j) U_i_new) (X.U i)

/-- `factor`. (hyperbolic_module.template.h:731-737) -/
def factor (i j : ι) : ℝ :=
  let factor := R.fl (R.fl (X.alpha i + X.alpha j) * (1 / 2))
  if M.dG then max factor (M.incidence i j) else factor

/-- The loop over the stages, for `F_iH` or `P_ij`. (hyperbolic_module.template.h:823-833) -/
def addStages (place : ℕ → Place) (i j : ι) : ℕ → ℝ → List (ℝ × (ι → Vec dim)) → ℝ
  | _, acc, [] => acc
  | n, acc, (w, f) :: rest => addStages place i j (n + 1) (mulAdd R (s i j (place n)) w (stageFlux R s M i j n f) acc) rest

/-- `F_iH`, stored in `r_`. (hyperbolic_module.template.h:782, 809, 832, 858) -/
def rhs (i : ι) : ℝ :=
  (M.columns i).foldl (fun F j =>
    let F := mulAdd R (s i j .rhsJump) (R.fl (X.d i j * factor R M X i j)) (jump R X i j) F
    let F := mulAdd R (s i j .rhsWeight) X.weight (highFlux R s M X i j) F
    addStages R s M .rhsStage i j 0 F X.stages) 0

/-- `P_ij` at the end of step 4. (hyperbolic_module.template.h:771, 783, 810, 833) -/
def pFirst (i j : ι) : ℝ :=
  let P := -fluxIJ R s M X i j
  let P := mulAdd R (s i j .pJump) (R.fl (product R (s i j .viscosity) (X.d i j) (factor R M X i j) - X.d i j)) (jump R X i j) P
  let P := mulAdd R (s i j .pWeight) X.weight (highFlux R s M X i j) P
  addStages R s M .pStage i j 0 P X.stages

/-- `pij_matrix_` after step 5. (hyperbolic_module.template.h:959-999) -/
def pIJ (i j : ι) : ℝ :=
  let P := R.fl (pFirst R s M X i j + R.fl (product R (s i j .correctionIJ) (bIJ R s M i j) (rhs R s M X j)
    - product R (s i j .correctionJI) (bJI R s M i j) (rhs R s M X i)))
  R.fl (P * R.fl (tauMass R M X i * (M.nbrs i).length))

/-- The passes of step 6; `lij` are the entries of `lij_matrix_` in each of them. (hyperbolic_module.template.h:1054-1124) -/
def passes (i : ι) : ℕ → ℝ → List (ι → ι → ℝ) → ℝ
  | _, U, [] => U
  | n, U, lij :: rest =>
    passes i (n + 1) (update R (lambda R (M.nbrs i).length) U
      ((M.nbrs i).map fun j => (symmetrized lij i j, pIJ R s M X i j, s i j (.update n)))) rest

/-- `positive_part`. (simd.h:112-115) -/
def positivePart (h : ℝ) : ℝ := R.fl (1 / 2 * R.fl (|h| + h))

/-- `inverse_water_depth_mollified`, with the cutoff `h_cutoff_mollified`; `fused` tells which products the compiler contracts.
(shallow_water/hyperbolic_system.h:727-742) -/
def mollifiedInverse (fused : Bool × Bool) (cutoff h : ℝ) : ℝ :=
  let h_max := max h cutoff
  let denom := R.fl (product R fused.1 h h + product R fused.2 h_max h_max)
  R.fl (R.fl (2 * positivePart R h) / denom)

/-- The depth of `star_state`: `U * H_star * inverse_water_depth_mollified(U)`. (shallow_water/hyperbolic_system.h:1056-1070) -/
def starDepth (fused : Bool × Bool) (cutoff h Z_left Z_right : ℝ) : ℝ :=
  let H_star := max 0 (R.fl (R.fl (h + Z_left) - max Z_left Z_right))
  R.fl (R.fl (h * H_star) * mollifiedInverse R fused cutoff h)

open Classical in
/-- The water depth in `new_U` at the end of the step. (hyperbolic_module.template.h:641-643, 857, 1054-1124) -/
def newU (leftover : ι → ℝ) (lij : List (ι → ι → ℝ)) (i : ι) : ℝ :=
  if M.active i then passes R s M X i 0 (lowOrder R s M X i) lij else leftover i

end

end RoundedShallow
end Ryujin
