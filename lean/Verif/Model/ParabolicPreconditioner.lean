import Verif.Model.NavierStokes

/-!
# Model of the diagonal preconditioners of the parabolic step

`DiagonalMatrix`, `VelocityMatrix::compute_diagonal` and `EnergyMatrix::compute_diagonal` of
`navier_stokes/parabolic_solver_gmg_operators.h`, in the global view of `Model/NavierStokes`.  The
diagonals are computed for the operators on the multigrid levels; the level operators are set up
with an empty set of constraints (parabolic_solver.template.h:190-199).
-/

namespace Ryujin
namespace NavierStokes

noncomputable section

variable {ι Q : Type} {dim : ℕ}

/-- `DiagonalMatrix::reinit` (parabolic_solver_gmg_operators.h:62-84): the preconditioner of the
conjugate gradient iteration without multigrid. -/
def diagonalReinit (fe : Fe ι Q dim) (m rho : ι → ℝ) : ι → ℝ :=
  setZero fe fun i => 1 / (rho i * m i)

/-- `DiagonalMatrix::vmult` on a vector (parabolic_solver_gmg_operators.h:105-114). -/
def diagonalVmult (diagonal src : ι → ℝ) : ι → ℝ := fun i => diagonal i * src i

/-- `DiagonalMatrix::vmult` on a block vector (parabolic_solver_gmg_operators.h:119-142): the
vector `diagonal` is used for all components, unless `diagonal_block` has been set up. -/
def diagonalVmultBlock (diagonal : ι → ℝ) (diagonal_block : Option (Field ι dim))
    (src : Field ι dim) : Field ι dim :=
  match diagonal_block with
  | none => fun i d => diagonal i * src i d
  | some b => fun i d => b i d * src i d

/-- The gradient, at the quadrature point `q`, of the local vector with a one in component `d` of
degree of freedom `j` (parabolic_solver_gmg_operators.h:329-335). -/
def unitGrad (fe : Fe ι Q dim) (j : ι) (d : Fin dim) (q : Q) : Fin dim → Fin dim → ℝ :=
  fun d' e => if d' = d then fe.grad j q e else 0

/-- The loop over cells in `VelocityMatrix::compute_diagonal`
(parabolic_solver_gmg_operators.h:316-343).  The local operator is applied to every unit vector of
a cell; the quadrature points `Q` are those of all cells, so the sum over `q` sums up the cells. -/
def velocityDiagonalCells [Fintype ι] [Fintype Q] (p : Params) (fe : Fe ι Q dim) (theta_x_tau : ℝ) :
    Field ι dim :=
  fun k d => scatter fe (fun j =>
    ∑ q, fe.weight q * ∑ e, theta_x_tau * stress p (unitGrad fe j d q) d e * fe.grad j q e) k

open Classical in
/-- Boundary treatment at the end of `VelocityMatrix::compute_diagonal` for one entry of the boundary map
(parabolic_solver_gmg_operators.h:362-391). -/
def fixVelocityDiagonal (dst : Field ι dim) (e : Entry ι dim) : Field ι dim :=
  match e.id with
  | .slip => Function.update dst e.i
      (fun d => (dst e.i d - 1 * dot (dst e.i) e.normal * e.normal d)
        + ∑ d', 1 * (1 * e.normal d') * e.normal d)
  | .noSlip => Function.update dst e.i (fun _ => 1)
  | .dirichlet => Function.update dst e.i (fun _ => 1)
  | _ => dst

/-- `VelocityMatrix::compute_diagonal` (parabolic_solver_gmg_operators.h:301-392). -/
def velocityDiagonal [Fintype ι] [Fintype Q] (p : Params) (fe : Fe ι Q dim) (m rho : ι → ℝ)
    (bc : List (Entry ι dim)) (theta_x_tau : ℝ) : Field ι dim :=
  bc.foldl fixVelocityDiagonal
    (fun i d => 1 / (m i * rho i + velocityDiagonalCells p fe theta_x_tau i d))

/-- The loop over cells in `EnergyMatrix::compute_diagonal`
(parabolic_solver_gmg_operators.h:686-713). -/
def energyDiagonalCells [Fintype ι] [Fintype Q] (fe : Fe ι Q dim) (factor : ℝ) : ι → ℝ :=
  fun k => scatter fe (fun j => ∑ q, fe.weight q * dot (factor • fe.grad j q) (fe.grad j q)) k

open Classical in
/-- Boundary treatment at the end of `EnergyMatrix::compute_diagonal`
(parabolic_solver_gmg_operators.h:730-740). -/
def fixEnergyDiagonal (dst : ι → ℝ) (e : Entry ι dim) : ι → ℝ :=
  match e.id with
  | .dirichlet => Function.update dst e.i 1
  | _ => dst

/-- `EnergyMatrix::compute_diagonal` (parabolic_solver_gmg_operators.h:673-741). -/
def energyDiagonal [Fintype ι] [Fintype Q] (fe : Fe ι Q dim) (m rho : ι → ℝ)
    (bc : List (Entry ι dim)) (factor : ℝ) : ι → ℝ :=
  bc.foldl fixEnergyDiagonal (fun i => 1 / (m i * rho i + energyDiagonalCells fe factor i))

end

end NavierStokes
end Ryujin
