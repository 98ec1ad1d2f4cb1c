import Verif.Model.EulerSystem
import Mathlib.Order.ConditionallyCompleteLattice.Basic
import Mathlib.Data.Real.Archimedean

/-!
# Model of the parabolic step of the Navier-Stokes equations

`navier_stokes/parabolic_solver.template.h`, `navier_stokes/parabolic_solver_gmg_operators.h`,
`navier_stokes/parabolic_system.h`, in the global view: the vectors have one entry per degree of freedom of the whole mesh
(every degree of freedom is owned by exactly one rank; `cell_loop` adds the contributions of ghost cells up and
`Utilities::MPI::min` combines the minima of the ranks).

deal.II's `MatrixFree`/`FEEvaluation` are modelled by what they compute: shape functions and gradients at the quadrature
points, `read_dof_values` that resolves the affine constraints, and `distribute_local_to_global` that applies the
transpose.  The linear solvers (conjugate gradients with or without multigrid) are arbitrary functions: what the theorems
need of them is stated where it is used.  Numbers are real; `1000 * eps` is the only rounding constant.
-/

namespace Ryujin
namespace NavierStokes

open Euler (State density momentum totalEnergy internalEnergy mkState Boundary)

noncomputable section

variable {ι Q : Type} {dim : ℕ}

/-- `ParabolicSystem` (navier_stokes/parabolic_system.h:52-88): shear and bulk viscosity and the scaled conductivity. -/
structure Params where
  mu : ℝ
  lam : ℝ
  kappa : ℝ

/-- Finite elements and constraints (deal.II, external): shape functions `phi`, their gradients and `JxW` at the quadrature
points `Q` of all cells, and the `AffineConstraints`: a constrained degree of freedom `j` has the value
`∑ k, coef j k * x k`. -/
structure Fe (ι Q : Type) (dim : ℕ) where
  phi : ι → Q → ℝ
  grad : ι → Q → Vec dim
  weight : Q → ℝ
  constrained : ι → Prop
  coef : ι → ι → ℝ

/-- An entry of the boundary map; `data t` is `initial_values_->initial_state(position, t)`.
(navier_stokes/parabolic_solver.template.h:301-310) -/
structure Entry (ι : Type) (dim : ℕ) where
  i : ι
  normal : Vec dim
  id : Boundary
  data : ℝ → State dim

/-- Vectors with one tensor per degree of freedom (`BlockVector`). (navier_stokes/parabolic_solver.h:253-262) -/
abbrev Field (ι : Type) (dim : ℕ) := ι → Vec dim

open Classical in
/-- `FEEvaluation::read_dof_values`: resolves constraints. (navier_stokes/parabolic_solver_gmg_operators.h:253, 646) -/
def readDof [Fintype ι] (fe : Fe ι Q dim) (src : ι → ℝ) (j : ι) : ℝ :=
  if fe.constrained j then ∑ k, fe.coef j k * src k else src j

open Classical in
/-- `FEEvaluation::distribute_local_to_global` over all cells: the transpose of `readDof`.
(navier_stokes/parabolic_solver_gmg_operators.h:255, 648) -/
def scatter [Fintype ι] (fe : Fe ι Q dim) (loc : ι → ℝ) (k : ι) : ℝ :=
  ∑ j, (if fe.constrained j then fe.coef j k else if j = k then 1 else 0) * loc j

/-- `get_gradient(q)` of a vector field: entry `d e` is the derivative of component `d` in direction `e`.
(navier_stokes/parabolic_solver_gmg_operators.h:415) -/
def gradAt [Fintype ι] (fe : Fe ι Q dim) (V : Field ι dim) (q : Q) : Fin dim → Fin dim → ℝ :=
  fun d e => ∑ j, readDof fe (fun i => V i d) j * fe.grad j q e

/-- `get_symmetric_gradient`. (navier_stokes/parabolic_solver_gmg_operators.h:421) -/
def symGrad (G : Fin dim → Fin dim → ℝ) : Fin dim → Fin dim → ℝ := fun d e => (G d e + G e d) / 2

/-- The stress tensor `S` for a velocity gradient (parabolic_solver_gmg_operators.h:412-428 and
parabolic_solver.template.h:540-555); in one space dimension the code uses the gradient itself. -/
def stress (p : Params) (G : Fin dim → Fin dim → ℝ) : Fin dim → Fin dim → ℝ :=
  if dim = 1 then fun d e => (4 / 3 * p.mu + p.lam) * G d e
  else
    let s := symGrad G
    let divergence := ∑ d, s d d
    fun d e => 2 * p.mu * s d e + if d = e then (p.lam - 2 / 3 * p.mu) * divergence else 0

/-- Double contraction of two rank-two tensors. (navier_stokes/parabolic_solver.template.h:549-557) -/
def ddot (A B : Fin dim → Fin dim → ℝ) : ℝ := ∑ d, ∑ e, A d e * B d e

/-- The argument of `energy.submit_value` (parabolic_solver.template.h:540-555). -/
def dissipation (p : Params) (G : Fin dim → Fin dim → ℝ) : ℝ :=
  if dim = 1 then ddot G (stress p G) else ddot (symGrad G) (stress p G)

/-- `apply_local_operator` on all cells and `distribute_local_to_global` (parabolic_solver_gmg_operators.h:242-260 and
404-432): `θτ ∑ B_ij V_j`. -/
def stressOp [Fintype ι] [Fintype Q] (p : Params) (fe : Fe ι Q dim) (theta_x_tau : ℝ) (V : Field ι dim) : Field ι dim :=
  fun k d => scatter fe (fun j => ∑ q, fe.weight q * ∑ e, theta_x_tau * stress p (gradAt fe V q) d e * fe.grad j q e) k

open Classical in
/-- Fix-up of the rows of constrained velocities at the end of `VelocityMatrix::vmult` for one entry of the boundary map
(parabolic_solver_gmg_operators.h:269-298); `src * normal` is summed up component by component. -/
def fixVelocity (src : Field ι dim) (dst : Field ι dim) (e : Entry ι dim) : Field ι dim :=
  match e.id with
  | .slip => Function.update dst e.i
      (fun d => (dst e.i d - 1 * dot (dst e.i) e.normal * e.normal d) + 1 * dot (src e.i) e.normal * e.normal d)
  | .noSlip => Function.update dst e.i (src e.i)
  | .dirichlet => Function.update dst e.i (src e.i)
  | _ => dst

/-- `VelocityMatrix::vmult` (parabolic_solver_gmg_operators.h:190-299). -/
def velocityMatrix [Fintype ι] [Fintype Q] (p : Params) (fe : Fe ι Q dim) (m rho : ι → ℝ) (bc : List (Entry ι dim))
    (theta_x_tau : ℝ) (src : Field ι dim) : Field ι dim :=
  bc.foldl (fixVelocity src) (fun i d => m i * rho i * src i d + stressOp p fe theta_x_tau src i d)

/-- `get_gradient(q)` of a scalar field. (navier_stokes/parabolic_solver_gmg_operators.h:754) -/
def gradAtScalar [Fintype ι] (fe : Fe ι Q dim) (e : ι → ℝ) (q : Q) : Vec dim :=
  fun d => ∑ j, readDof fe e j * fe.grad j q d

/-- `apply_local_operator` of the energy matrix (parabolic_solver_gmg_operators.h:635-653 and 749-757). -/
def diffusionOp [Fintype ι] [Fintype Q] (fe : Fe ι Q dim) (factor : ℝ) (e : ι → ℝ) : ι → ℝ :=
  fun k => scatter fe (fun j => ∑ q, fe.weight q * dot (factor • gradAtScalar fe e q) (fe.grad j q)) k

open Classical in
/-- Fix-up of the Dirichlet rows at the end of `EnergyMatrix::vmult` (parabolic_solver_gmg_operators.h:662-670). -/
def fixEnergy (src : ι → ℝ) (dst : ι → ℝ) (e : Entry ι dim) : ι → ℝ :=
  match e.id with
  | .dirichlet => Function.update dst e.i (src e.i)
  | _ => dst

/-- `EnergyMatrix::vmult` (parabolic_solver_gmg_operators.h:588-671). -/
def energyMatrix [Fintype ι] [Fintype Q] (fe : Fe ι Q dim) (m rho : ι → ℝ) (bc : List (Entry ι dim)) (factor : ℝ)
    (src : ι → ℝ) : ι → ℝ :=
  bc.foldl (fixEnergy src) (fun i => m i * rho i * src i + diffusionOp fe factor src i)

open Classical in
/-- `AffineConstraints::set_zero`. (navier_stokes/parabolic_solver.template.h:359-363) -/
def setZero (fe : Fe ι Q dim) (x : ι → ℝ) : ι → ℝ := fun i => if fe.constrained i then 0 else x i

open Classical in
/-- `set_zero` on every block. (navier_stokes/parabolic_solver.template.h:362-363) -/
def setZeroField (fe : Fe ι Q dim) (x : Field ι dim) : Field ι dim := fun i => if fe.constrained i then 0 else x i

/-- The vectors set up by step 1: `velocity_`, `velocity_rhs_`, `internal_energy_`.
(navier_stokes/parabolic_solver.template.h:250-364) -/
structure Setup (ι : Type) (dim : ℕ) where
  velocity : Field ι dim
  rhs : Field ι dim
  energy : ι → ℝ

open Classical in
/-- Strong boundary conditions for one entry of the boundary map in step 1 (parabolic_solver.template.h:299-350); `t1` is
`t + tau`. -/
def setupBoundary (t1 : ℝ) (s : Setup ι dim) (e : Entry ι dim) : Setup ι dim :=
  match e.id with
  | .slip =>
    { s with
      velocity := Function.update s.velocity e.i (fun d => s.velocity e.i d - 1 * dot (s.velocity e.i) e.normal * e.normal d)
      rhs := Function.update s.rhs e.i (fun d => s.rhs e.i d - 1 * dot (s.rhs e.i) e.normal * e.normal d) }
  | .noSlip => { s with velocity := Function.update s.velocity e.i 0, rhs := Function.update s.rhs e.i 0 }
  | .dirichlet =>
    let V : Vec dim := fun d => momentum (e.data t1) d / density (e.data t1)
    { velocity := Function.update s.velocity e.i V, rhs := Function.update s.rhs e.i V
      energy := Function.update s.energy e.i (internalEnergy (e.data t1) / density (e.data t1)) }
  | _ => s

/-- Step 1 up to the boundary conditions (parabolic_solver.template.h:261-288). -/
def setupLoop (m : ι → ℝ) (U : ι → State dim) : Setup ι dim where
  velocity := fun i d => momentum (U i) d / density (U i)
  rhs := fun i d => m i * momentum (U i) d
  energy := fun i => internalEnergy (U i) / density (U i)

/-- Step 1 (parabolic_solver.template.h:249-364) including the zeroing of constrained degrees of freedom. -/
def setup (fe : Fe ι Q dim) (m : ι → ℝ) (bc : List (Entry ι dim)) (U : ι → State dim) (t1 : ℝ) : Setup ι dim :=
  let s := bc.foldl (setupBoundary t1) (setupLoop m U)
  ⟨setZeroField fe s.velocity, setZeroField fe s.rhs, setZero fe s.energy⟩

/-- `density_` (parabolic_solver.template.h:275 and 359). -/
def densityVector (fe : Fe ι Q dim) (U : ι → State dim) : ι → ℝ := setZero fe fun i => density (U i)

/-- `e_min_old` and `e_min_new` (parabolic_solver.template.h:427-432 and 764-767): minimum over all owned degrees of
freedom of all ranks. (`std::min_element` of a rank without degrees of freedom would be dereferenced, undefined behaviour;
not modelled.) -/
def globalMin (e : ι → ℝ) : ℝ := ⨅ i, e i

/-- `m_i K_i` (parabolic_solver.template.h:519-562). -/
def heating [Fintype ι] [Fintype Q] (p : Params) (fe : Fe ι Q dim) (V : Field ι dim) : ι → ℝ :=
  fun k => scatter fe (fun j => ∑ q, fe.weight q * (dissipation p (gradAt fe V q) * fe.phi j q)) k

open Classical in
/-- Dirichlet values of the energy (parabolic_solver.template.h:615-634). -/
def energyBoundary (t1 : ℝ) (x : ι → ℝ) (e : Entry ι dim) : ι → ℝ :=
  match e.id with
  | .dirichlet => Function.update x e.i (internalEnergy (e.data t1) / density (e.data t1))
  | _ => x

/-- Right hand side of the energy update (parabolic_solver.template.h:564-642); `e` is `internal_energy_` as set up by
step 1, `V` the new velocity. -/
def energyRhs [Fintype ι] [Fintype Q] (p : Params) (fe : Fe ι Q dim) (m : ι → ℝ) (bc : List (Entry ι dim))
    (U : ι → State dim) (e : ι → ℝ) (V : Field ι dim) (t1 tau : ℝ) : ι → ℝ :=
  let rho := densityVector fe U
  let loop : ι → ℝ := fun i =>
    let V_i : Vec dim := fun d => momentum (U i) d / rho i
    let correction := 1 / 2 * normSq (V_i - V i)
    m i * rho i * (e i + correction) + tau * heating p fe V i
  setZero fe (bc.foldl (energyBoundary t1) loop)

/-- Step 3 (parabolic_solver.template.h:786-834). -/
def writeBack (U : ι → State dim) (V : Field ι dim) (e : ι → ℝ) : ι → State dim := fun i =>
  let rho := density (U i)
  let m_new : Vec dim := fun d => rho * V i d
  let rho_e_new := rho * e i
  mkState rho m_new (rho_e_new + 0.5 * dot m_new m_new / rho)

/-- A linear solver: operator, start vector, right hand side; `false` means that `SolverControl::NoConvergence` is thrown
and the second component is the last iterate. -/
abbrev Solver (X : Type) := (X → X) → X → X → Bool × X

/-- First multigrid, then plain conjugate gradients starting from what multigrid left behind
(parabolic_solver.template.h:456-505 and 708-755); `none`: `NoConvergence` leaves `backward_euler_step`. -/
def solve {X : Type} (use_gmg : Bool) (gmg cg : Solver X) (A : X → X) (x0 b : X) : Option X :=
  if use_gmg then
    if (gmg A x0 b).1 then some (gmg A x0 b).2
    else if (cg A (gmg A x0 b).2 b).1 then some (cg A (gmg A x0 b).2 b).2 else none
  else if (cg A x0 b).1 then some (cg A x0 b).2 else none

/-- The linear solvers and the options selecting them. -/
structure Solvers (ι : Type) (dim : ℕ) where
  use_gmg_velocity : Bool
  use_gmg_internal_energy : Bool
  gmg_velocity : Solver (Field ι dim)
  cg_velocity : Solver (Field ι dim)
  gmg_energy : Solver (ι → ℝ)
  cg_energy : Solver (ι → ℝ)

/-- `IDViolationStrategy`. (hyperbolic_module.h:37-50) -/
inductive Strategy
  | warn
  | raise

/-- How `backward_euler_step` ends. (navier_stokes/parabolic_solver.template.h:205-230) -/
inductive Outcome (ι : Type) (dim : ℕ)
  /-- new state vector, and whether a warning was counted -/
  | done (U : ι → State dim) (warned : Bool)
  /-- `Restart` is thrown (a restart is counted) -/
  | restart
  /-- `SolverControl::NoConvergence` is thrown -/
  | noConvergence

/-- Everything a step does not change. (navier_stokes/parabolic_solver.h:207-245) -/
structure Config (ι Q : Type) (dim : ℕ) where
  p : Params
  fe : Fe ι Q dim
  m : ι → ℝ
  bc : List (Entry ι dim)
  solvers : Solvers ι dim
  /-- `std::numeric_limits<Number>::epsilon()` -/
  eps : ℝ

variable [Fintype ι] [Fintype Q]

/-- The solve of step 1 (parabolic_solver.template.h:439-508). -/
def newVelocity (c : Config ι Q dim) (U : ι → State dim) (t tau : ℝ) : Option (Field ι dim) :=
  let s := setup c.fe c.m c.bc U (t + tau)
  solve c.solvers.use_gmg_velocity c.solvers.gmg_velocity c.solvers.cg_velocity
    (velocityMatrix c.p c.fe c.m (densityVector c.fe U) c.bc tau) s.velocity s.rhs

/-- The solve of step 2 (parabolic_solver.template.h:510-755). -/
def newEnergy (c : Config ι Q dim) (U : ι → State dim) (V : Field ι dim) (t tau : ℝ) : Option (ι → ℝ) :=
  let s := setup c.fe c.m c.bc U (t + tau)
  solve c.solvers.use_gmg_internal_energy c.solvers.gmg_energy c.solvers.cg_energy
    (energyMatrix c.fe c.m (densityVector c.fe U) c.bc (tau * c.p.kappa)) s.energy
    (energyRhs c.p c.fe c.m c.bc U s.energy V (t + tau) tau)

/-- The check of step 2 (parabolic_solver.template.h:421-437 and 757-781). -/
def restartNeeded (c : Config ι Q dim) (U : ι → State dim) (e : ι → ℝ) (t tau : ℝ) : Prop :=
  globalMin e < globalMin (setup c.fe c.m c.bc U (t + tau)).energy * (1 - 1000 * c.eps)

open Classical in
/-- `ParabolicSolver::backward_euler_step` (parabolic_solver.template.h:211-848). The state is written back before `Restart`
is thrown; the caller discards it, so the outcome `restart` carries none. -/
def backwardEulerStep (c : Config ι Q dim) (strategy : Strategy) (U : ι → State dim) (t tau : ℝ) : Outcome ι dim :=
  match newVelocity c U t tau with
  | none => .noConvergence
  | some V =>
    match newEnergy c U V t tau with
    | none => .noConvergence
    | some e =>
      if restartNeeded c U e t tau then
        match strategy with
        | .warn => .done (writeBack U V e) true
        | .raise => .restart
      else .done (writeBack U V e) false

end

end NavierStokes
end Ryujin
