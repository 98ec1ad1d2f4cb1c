import Mathlib.Analysis.Convex.Function
import Mathlib.Analysis.Calculus.Deriv.Basic

/-!
# 3-convex and 3-concave functions

The documentation of `newton.h` requires `phi''' < 0` or `phi''' > 0`.  We use the (weaker) standard
form: the derivative is convex (3-convex) or concave (3-concave) on the interval.
-/

namespace Ryujin

/-- `phi` is differentiable on `[a, b]` with derivative `dphi`, and `dphi` is convex or concave. -/
structure ThreeConvexOrConcave (a b : ℝ) (phi dphi : ℝ → ℝ) : Prop where
  deriv : ∀ t ∈ Set.Icc a b, HasDerivAt phi (dphi t) t
  shape : ConvexOn ℝ (Set.Icc a b) dphi ∨ ConcaveOn ℝ (Set.Icc a b) dphi

end Ryujin
