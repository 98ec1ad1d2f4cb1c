import Verif.Model.Rounded
import Verif.Model.TimeIntegrator

/-!
# Model of the time in the time loop, in floating point arithmetic

Only the variables `t`, `tau` and `tau_max` and the tests of `TimeLoop::run`.  The step size of the hyperbolic module (before it is capped) is
arbitrary.  With `Number = float` the divisions and products in the time integrator are done in double precision and rounded to `float` afterwards;
these are modelled by one rounding.
-/

namespace Ryujin
namespace Rounded

noncomputable section

open Integrator

/-- The divisor of `tau_max` in the first call of the hyperbolic module. (time_integrator.template.h:287, 310, 342, 360, 383, 417, 473, 530, 578,
634, 693, 714, 751) -/
def divisor (p : Integrator.Program) : ℝ :=
  ((p.code.findSome? fun i => match i with
    | .first _ _ d => some d
    | _ => none).getD 0)

/-- `tau_max` of the time integrator. (time_integrator.template.h:215) -/
def tauMax (R : Rounding) (t_final t : ℝ) : ℝ := R.fl (t_final - t)

/-- The step size of the hyperbolic module: `computed` is the one of the CFL condition. (hyperbolic_module.template.h:552-578,
time_integrator.template.h:287-751) -/
def tauStep (R : Rounding) (p : Integrator.Program) (computed t_final t : ℝ) : ℝ := min computed (R.fl (tauMax R t_final t / divisor p))

/-- `t += tau` with the value returned by the time integrator, `factor * tau`. (time_loop.template.h:389,
time_integrator.template.h:297-797) -/
def nextTime (R : Rounding) (fused : Bool) (p : Integrator.Program) (tau t : ℝ) : ℝ := mulAdd R fused p.factor tau t

/-- `relax`. (time_loop.template.h:352-355) -/
def relaxation (R : Rounding) (enforce : Bool) (eps : ℝ) : ℝ := if enforce then R.fl (1 - R.fl (10 * eps)) else 1

/-- The test for the end of the time loop. (time_loop.template.h:357) -/
def finished (R : Rounding) (enforce : Bool) (eps t_final t : ℝ) : Prop := R.fl (relaxation R enforce eps * t_final) ≤ t

/-- The test for a tick of the timer. (time_loop.template.h:316) -/
def tickDue (R : Rounding) (timer_cycle : ℕ) (granularity t : ℝ) : Prop := R.fl (timer_cycle * granularity) ≤ t

end

end Rounded
end Ryujin
