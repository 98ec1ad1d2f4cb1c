import Verif.Model.RoundedRun
import Verif.Model.RoundedShallow
import Verif.Spec.RoundedShallow

/-!
# Model of the explicit time integrators for the shallow water equations in floating point arithmetic

As `Model/RoundedRun`, for the water depth: the hyperbolic steps are those of `Model/RoundedShallow`.  What a step computes for the equilibrated
states, the fluxes, the viscosity, the indicator and the coefficients of the limiter is arbitrary; so are the points at which a step gives up
with a `Restart` exception.  The mesh has no boundary, hence `prepare_state_vector` does not change the state.
-/

namespace Ryujin
namespace RoundedShallow

noncomputable section

open Hyp Integrator Rounded

variable {ι : Type} {dim : ℕ}

/-- What the statements of a `step_*` function may do in floating point arithmetic.  `Effect R M passes i m m' size`: statement `i` turns the
vectors `m` into `m'`; `size` is the sum of the sizes of all numbers it added up, weighted like the total.  A hyperbolic step starts with the
source vector, has the given number of stages, a symmetric viscosity matrix and at most `passes` passes of the limiter.
(time_integrator.template.h:278-512) -/
inductive Effect [Fintype ι] (R : Rounding) (M : Mesh ι dim) (passes : ℕ) : Instr → RMem ι → RMem ι → ℝ → Prop
  | prepare (v : Slot) (c : ℝ) (m : RMem ι) : Effect R M passes (.prepare v c) m m 0
  | first (src dst : Slot) (div : ℝ) (m : RMem ι) (s : Contractions ι) (X : StepData ι dim) (lij : List (ι → ι → ℝ))
      (hU : X.U = m src) (hst : X.stages = []) (hd : ∀ i, ∀ j ∈ M.nbrs i, X.d i j = X.d j i) (hl : lij.length ≤ passes) :
      Effect R M passes (.first src dst div) m (store m dst (newU R s M X (m dst) lij)) (total M (stepSize R s M X lij))
  | hyp (src : Slot) (stages : List (Slot × ℝ)) (dst : Slot) (m : RMem ι) (s : Contractions ι) (X : StepData ι dim) (lij : List (ι → ι → ℝ))
      (hU : X.U = m src) (hst : X.stages.length = stages.length) (hd : ∀ i, ∀ j ∈ M.nbrs i, X.d i j = X.d j i) (hl : lij.length ≤ passes) :
      Effect R M passes (.hyp src stages dst) m (store m dst (newU R s M X (m dst) lij)) (total M (stepSize R s M X lij))
  | sadd (dst : Slot) (s b : ℝ) (src : Slot) (m : RMem ι) (fused : ι → Bool × Bool) :
      Effect R M passes (.sadd dst s b src) m (store m dst fun i => saddEntry R (fused i) s b (m dst i) (m src i))
        (total M fun i => |s| * |m dst i| + |b| * |m src i|)

/-- A list of statements. (time_integrator.template.h:278-512) -/
inductive Effects [Fintype ι] (R : Rounding) (M : Mesh ι dim) (passes : ℕ) : List Instr → RMem ι → RMem ι → ℝ → Prop
  | nil (m : RMem ι) : Effects R M passes [] m m 0
  | cons {i : Instr} {is : List Instr} {m m' m'' : RMem ι} {x y : ℝ} (h : Effect R M passes i m m' x) (hs : Effects R M passes is m' m'' y) :
      Effects R M passes (i :: is) m m'' (x + y)

/-- `TimeIntegrator::step`: the statements of the scheme, either at once, or (`CFLRecoveryStrategy::bang_bang_control`) after a first attempt
that ended early with a `Restart` exception and may have left arbitrary values in the vector it was writing.
(time_integrator.template.h:206-275) -/
inductive StepEffect [Fintype ι] (R : Rounding) (M : Mesh ι dim) (passes : ℕ) (pr : Program) : RMem ι → RMem ι → ℝ → Prop
  | once {m m' : RMem ι} {x : ℝ} (h : Effects R M passes pr.code m m' x) : StepEffect R M passes pr m (swapVectors m' pr.result) x
  | twice {m m₁ m' : RMem ι} {x y : ℝ} (k : ℕ) (dst : ℕ) (garbage : ι → ℝ) (h₁ : Effects R M passes (pr.code.take k) m m₁ y)
      (h : Effects R M passes pr.code (store m₁ (.temp dst) garbage) m' x) :
      StepEffect R M passes pr m (swapVectors m' pr.result) x

/-- The time loop: `n` steps. (time_loop.template.h:262-451) -/
inductive RunEffect [Fintype ι] (R : Rounding) (M : Mesh ι dim) (passes : ℕ) (pr : Program) : ℕ → RMem ι → RMem ι → ℝ → Prop
  | zero (m : RMem ι) : RunEffect R M passes pr 0 m m 0
  | succ {n : ℕ} {m m' m'' : RMem ι} {x y : ℝ} (h : RunEffect R M passes pr n m m' x) (hs : StepEffect R M passes pr m' m'' y) :
      RunEffect R M passes pr (n + 1) m m'' (x + y)

end

end RoundedShallow
end Ryujin
