import Mathlib.Analysis.Real.Sqrt

/-!
# Model of `source/newton.h`

`Number` is idealised as `ℝ`; `eps` (`std::numeric_limits<ScalarNumber>::epsilon()`) is kept as a
parameter.  One SIMD lane is modelled; `quadratic_newton_step` is lane-wise throughout.
-/

namespace Ryujin

noncomputable section

/-- `dealii::compare_and_apply_mask<less_than>(a, b, x, y)` on one lane (used in newton.h:75-89 and in
all limiters): `a < b ? x : y`. -/
def maskLt (a b x y : ℝ) : ℝ := if a < b then x else y

/-- `dealii::compare_and_apply_mask<greater_than>(a, b, x, y)` on one lane: `a > b ? x : y`. (newton.h:74-87) -/
def maskGt (a b x y : ℝ) : ℝ := if a > b then x else y

/-- newton.h:54 `scaling = 1 / (p_2 - p_1 + eps)`. -/
def newtonScaling (eps p1 p2 : ℝ) : ℝ := 1 / (p2 - p1 + eps)

/-- newton.h:56-61: the second divided difference `dd_112` on the nodes `[p_1, p_1, p_2]`. -/
def newtonDD112 (eps p1 p2 phi1 phi2 dphi1 : ℝ) : ℝ :=
  let scaling := newtonScaling eps p1 p2
  let dd11 := dphi1
  let dd12 := (phi2 - phi1) * scaling
  (dd12 - dd11) * scaling

/-- newton.h:57-62: the second divided difference `dd_122` on the nodes `[p_1, p_2, p_2]`. -/
def newtonDD122 (eps p1 p2 phi1 phi2 dphi2 : ℝ) : ℝ :=
  let scaling := newtonScaling eps p1 p2
  let dd12 := (phi2 - phi1) * scaling
  let dd22 := dphi2
  (dd22 - dd12) * scaling

/-- newton.h:66-89: the unclamped candidate `t_k = p_k - (|denominator_k| < eps ? 0 : 2 phi_k /
denominator_k)`; `dd` is `dd_112` for `k = 1` and `dd_122` for `k = 2`. -/
def newtonCandidate (eps sign p phi dphi dd : ℝ) : ℝ :=
  let discriminant := |dphi * dphi - 4 * phi * dd|
  let denominator := dphi + sign * Real.sqrt discriminant
  p - maskLt |denominator| eps 0 (2 * phi / denominator)

/-- newton.h:93-97: `t = max(p_1, t); t = min(p_2, t)`. -/
def newtonClamp (p1 p2 t : ℝ) : ℝ := min p2 (max p1 t)

/-- newton.h:36-105 `quadratic_newton_step`; returns the updated pair `(p_1, p_2)`. -/
def quadraticNewtonStep (eps p1 p2 phi1 phi2 dphi1 dphi2 sign : ℝ) : ℝ × ℝ :=
  let t1 := newtonCandidate eps sign p1 phi1 dphi1 (newtonDD112 eps p1 p2 phi1 phi2 dphi1)
  let t2 := newtonCandidate eps sign p2 phi2 dphi2 (newtonDD122 eps p1 p2 phi1 phi2 dphi2)
  let t1 := newtonClamp p1 p2 t1
  let t2 := newtonClamp p1 p2 t2
  (min t1 t2, max t1 t2)

end

end Ryujin
