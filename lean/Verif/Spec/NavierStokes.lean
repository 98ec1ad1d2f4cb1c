import Verif.Model.NavierStokes

/-!
# What the theorems on the parabolic step assume and speak about

Assumptions on the finite element space, on the data and on the linear solvers, stated without reference to the step.
-/

namespace Ryujin
namespace NavierStokes

open Euler (State density momentum totalEnergy internalEnergy mkState Boundary)

noncomputable section

variable {ι Q : Type} {dim : ℕ}

/-- A conforming finite element space: nonnegative quadrature weights, a partition of unity whose gradients therefore add
up to zero, and constraints that express constrained degrees of freedom by unconstrained ones with weights adding up to
one (hanging nodes, periodic boundaries). -/
structure Fe.Conforming [Fintype ι] (fe : Fe ι Q dim) : Prop where
  weight_nonneg : ∀ q, 0 ≤ fe.weight q
  sum_phi : ∀ q, ∑ j, fe.phi j q = 1
  sum_grad : ∀ q d, ∑ j, fe.grad j q d = 0
  resolved : ∀ j k, fe.constrained j → fe.constrained k → fe.coef j k = 0
  coef_sum : ∀ j, fe.constrained j → ∑ k, fe.coef j k = 1

/-- No two slip conditions with different directions meet at a degree of freedom unless these directions are orthogonal
(or the velocity is prescribed there anyway), and the normals have length one. -/
structure SlipCompatible (bc : List (Entry ι dim)) : Prop where
  unit : ∀ e ∈ bc, e.id = .slip → dot e.normal e.normal = 1
  orth : ∀ i, (∀ e ∈ bc, e.i = i → e.id ≠ .noSlip ∧ e.id ≠ .dirichlet) →
    bc.Pairwise fun a b => a.i = i → b.i = i → a.id = .slip → b.id = .slip → dot a.normal b.normal = 0

/-- A linear solver that, whenever it reports convergence, has solved the system. -/
def Exact {X : Type} (s : Solver X) : Prop := ∀ A x0 b, (s A x0 b).1 = true → A (s A x0 b).2 = b

/-- All linear solvers are exact. -/
structure Solvers.AllExact (s : Solvers ι dim) : Prop where
  gmg_velocity : Exact s.gmg_velocity
  cg_velocity : Exact s.cg_velocity
  gmg_energy : Exact s.gmg_energy
  cg_energy : Exact s.cg_energy

/-- A solver that leaves the entries of constrained degrees of freedom at their initial values (their rows of the matrix
vanish). -/
def KeepsConstrained {α : Type} (constrained : ι → Prop) (s : Solver (ι → α)) : Prop :=
  ∀ A x0 b i, constrained i → (s A x0 b).2 i = x0 i

/-- All linear solvers leave constrained entries alone. -/
structure Solvers.AllKeep (s : Solvers ι dim) (constrained : ι → Prop) : Prop where
  gmg_velocity : KeepsConstrained constrained s.gmg_velocity
  cg_velocity : KeepsConstrained constrained s.cg_velocity
  gmg_energy : KeepsConstrained constrained s.gmg_energy
  cg_energy : KeepsConstrained constrained s.cg_energy

open Classical in
/-- The total of a quantity: sum over the unconstrained degrees of freedom weighted by the lumped mass. -/
def total [Fintype ι] (c : Config ι Q dim) (f : ι → ℝ) : ℝ := ∑ i, if c.fe.constrained i then 0 else c.m i * f i

/-- Kinetic energy density. -/
def kineticEnergy (U : State dim) : ℝ := normSq (momentum U) / (2 * density U)

/-- Specific internal energy. -/
def specificEnergy (U : State dim) : ℝ := (totalEnergy U - normSq (momentum U) / (2 * density U)) / density U

/-- Velocity. -/
def velocity (U : State dim) : Vec dim := fun d => momentum U d / density U

/-- Physical coefficients: nonnegative viscosities and conductivity, at most three space dimensions, positive masses. -/
structure Config.Physical (c : Config ι Q dim) : Prop where
  mu : 0 ≤ c.p.mu
  lam : 0 ≤ c.p.lam
  kappa : 0 ≤ c.p.kappa
  dim_le : dim ≤ 3
  mass : ∀ i, 0 < c.m i

open Classical in
/-- Entry of the stiffness matrix: the integral of the product of the gradients of two (resolved) basis functions. -/
def stiffness [Fintype ι] [Fintype Q] (fe : Fe ι Q dim) (i j : ι) : ℝ :=
  ∑ q, fe.weight q * dot (gradAtScalar fe (Pi.single i 1) q) (gradAtScalar fe (Pi.single j 1) q)

/-- A nonobtuse mesh with nonnegative shape functions and constraint weights: the off-diagonal entries of the stiffness
matrix are not positive. -/
structure Fe.NonObtuse [Fintype ι] [Fintype Q] (fe : Fe ι Q dim) : Prop where
  offdiag : ∀ i j, ¬ fe.constrained i → ¬ fe.constrained j → i ≠ j → stiffness fe i j ≤ 0
  phi_nonneg : ∀ j q, 0 ≤ fe.phi j q
  coef_nonneg : ∀ j k, fe.constrained j → 0 ≤ fe.coef j k

/-- A velocity field whose gradient is skew-symmetric: translations and rotations. -/
def RigidMotion [Fintype ι] (fe : Fe ι Q dim) (W : Field ι dim) : Prop :=
  ∀ q d e, gradAt fe W q d e = - gradAt fe W q e d

end

end NavierStokes
end Ryujin
