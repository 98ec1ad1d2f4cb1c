import Verif.Model.NavierStokes
import Verif.Model.Descriptions
import Verif.Model.PrepareState
import Verif.Model.TimeIntegrator

/-!
# Model of the modules of the Navier-Stokes equations

`parabolic_module.template.h` on top of the model of `ParabolicSolver::backward_euler_step`, and both modules as the time
integrator sees them (`navier_stokes/description.h`): the hyperbolic part is the one of the Euler equations.  The equations
without parabolic part have the trivial module.
-/

namespace Ryujin
namespace NavierStokes

open Euler (State density)
open Integrator (Ctx Res Modules hyperbolicModules)

noncomputable section

variable {ι Q : Type} {dim : ℕ}

/-- One enumeration is used for both modules. (hyperbolic_module.h:37-50, parabolic_module.h:125) -/
def strategyOf : Hyp.Strategy → Strategy
  | .warn => .warn
  | .raise_exception => .raise

/-- The entries of the boundary map as the parabolic solver sees them: it evaluates the initial values at the position of
the entry. (navier_stokes/parabolic_solver.template.h:299-310, 617-628) -/
def entries (data : Vec dim → ℝ → State dim) (map : List (Prepare.Entry ι Euler.Boundary dim)) : List (Entry ι dim) :=
  map.map fun e => ⟨e.i, e.normal, e.id, data e.position⟩

open Classical in
/-- `ParabolicModule::step` (parabolic_module.template.h:53-88).  The linear solvers of call `n` are arbitrary: they depend
on the multigrid hierarchy, which is set up again in every fourth call (`cycle_++ % 4 == 0`).  A vanishing density at an
unconstrained degree of freedom (division by zero; all values of the new state are then not numbers) and
`SolverControl::NoConvergence`, which nobody catches, end the run.  What `Restart` leaves behind in the new vector is
discarded by the caller: `garbage`. -/
def parabolicStep [Fintype ι] [Fintype Q] (c : Config ι Q dim) (solvers : ℕ → Solvers ι dim) (garbage : ℕ → ι → State dim)
    (ctx : Ctx) (n : ℕ) (old : ι → State dim) (t : ℝ) (_new : ι → State dim) (tau : ℝ) : Res (ι → State dim) :=
  if ∃ i, ¬ c.fe.constrained i ∧ density (old i) = 0 then .crash
  else
    match backwardEulerStep { c with solvers := solvers n } (strategyOf ctx.par) old t tau with
    | .done U _ => .ok U tau
    | .restart => .restart (garbage n)
    | .noConvergence => .crash

/-- `ParabolicModule::step` of equations whose parabolic system is the identity: `AssertThrow(false)`.
(parabolic_module.template.h:63-69) -/
def identityStep {X : Type} : Ctx → ℕ → X → ℝ → X → ℝ → Res X := fun _ _ _ _ _ _ => .crash

/-- The modules of the Navier-Stokes equations (navier_stokes/description.h:30-51, time_loop.template.h:36-54). -/
def modules [Fintype ι] [Fintype Q] (p : Euler.Params) (lp : LimiterParams) (big bigTau : ℝ)
    (riem : ι → ι → State dim → State dim → Vec dim → ℝ) (ind : State dim → List (State dim × Vec dim) → ℝ → ℝ)
    (lim : ι → ι → Euler.Bounds → State dim → State dim → ℝ × Prop) (M : Hyp.Mesh ι dim) (par : Hyp.Params)
    (bc : ℝ → (ι → State dim) → ι → State dim) (lo : ℕ → Hyp.Leftover ι (State dim)) (garbage : ℕ → ι → State dim)
    (c : Config ι Q dim) (solvers : ℕ → Solvers ι dim) : Modules (ι → State dim) Unit :=
  hyperbolicModules (Euler.description p lp big riem ind lim) M par bigTau bc (fun _ => ()) lo garbage
    (parabolicStep c solvers garbage)

end

end NavierStokes
end Ryujin
