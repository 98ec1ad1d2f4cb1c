import Verif.Proofs.Newton
import Mathlib.Analysis.Convex.Mul

/-!
# C01 – the safeguarded quadratic Newton step (`source/newton.h`)
-/

namespace Ryujin

/-- **C01 (nesting).** For arbitrary function values, derivatives, `eps` and `sign`, the updated
bracket is ordered and contained in the bracket passed in. -/
theorem C01_newton_nested (eps p1 p2 phi1 phi2 dphi1 dphi2 sign : ℝ) (h : p1 ≤ p2) :
    let r := quadraticNewtonStep eps p1 p2 phi1 phi2 dphi1 dphi2 sign
    p1 ≤ r.1 ∧ r.1 ≤ r.2 ∧ r.2 ≤ p2 := by
  intro r
  refine ⟨?_, ?_, ?_⟩
  · exact le_min (newtonClamp_mem h _).1 (newtonClamp_mem h _).1
  · exact min_le_max
  · exact max_le (newtonClamp_mem h _).2 (newtonClamp_mem h _).2

example : (0 : ℝ) ≤ 1 := by norm_num

/-- **C01 (bracketing, decreasing case, exact arithmetic).** If `phi` is 3-convex or 3-concave on the
bracket and changes sign from positive to negative, the updated bracket (with `sign = -1`, as used by
all limiters, and `eps = 0`) still has a nonnegative value at its left and a nonpositive value at its
right end. -/
theorem C01_newton_bracket_decreasing (p1 p2 : ℝ) (phi dphi : ℝ → ℝ) (h12 : p1 < p2)
    (h : ThreeConvexOrConcave p1 p2 phi dphi) (h1 : 0 < phi p1) (h2 : phi p2 < 0) :
    let r := quadraticNewtonStep 0 p1 p2 (phi p1) (phi p2) (dphi p1) (dphi p2) (-1)
    0 ≤ phi r.1 ∧ phi r.2 ≤ 0 :=
  newton_step_bracket h12 h h1 h2

/-- **C01 (bracketing, increasing case, exact arithmetic)** with the default `sign = +1`. -/
theorem C01_newton_bracket_increasing (p1 p2 : ℝ) (phi dphi : ℝ → ℝ) (h12 : p1 < p2)
    (h : ThreeConvexOrConcave p1 p2 phi dphi) (h1 : phi p1 < 0) (h2 : 0 < phi p2) :
    let r := quadraticNewtonStep 0 p1 p2 (phi p1) (phi p2) (dphi p1) (dphi p2) 1
    phi r.1 ≤ 0 ∧ 0 ≤ phi r.2 := by
  have hn : ThreeConvexOrConcave p1 p2 (fun t => -phi t) (fun t => -dphi t) :=
    ⟨fun t ht => (h.deriv t ht).neg, h.shape.elim (fun hc => Or.inr hc.neg) (fun hc => Or.inl hc.neg)⟩
  have := newton_step_bracket h12 hn (by linarith) (by linarith)
  rw [newton_step_neg 0 p1 p2 (phi p1) (phi p2) (dphi p1) (dphi p2) 1] at this
  exact ⟨by linarith [this.1], by linarith [this.2]⟩

/-- **C01 (exactness).** For a quadratic function with a sign change one step (with `eps = 0`)
collapses the bracket onto the root. -/
theorem C01_newton_exact_on_quadratics (p1 p2 A B C : ℝ) (h12 : p1 < p2)
    (h1 : 0 < A + B * p1 + C * p1 ^ 2) (h2 : A + B * p2 + C * p2 ^ 2 < 0) :
    let r := quadraticNewtonStep 0 p1 p2 (A + B * p1 + C * p1 ^ 2) (A + B * p2 + C * p2 ^ 2)
      (B + 2 * C * p1) (B + 2 * C * p2) (-1)
    r.1 = r.2 ∧ A + B * r.1 + C * r.1 ^ 2 = 0 :=
  newton_step_quadratic (phi := fun t => A + B * t + C * t ^ 2) (dphi := fun t => B + 2 * C * t) h12
    (fun _ => rfl) (fun _ => rfl) h1 h2

/-- Non-vacuity: `1 - 2 t³` on `[0, 1]` satisfies the hypotheses of the bracketing theorem. -/
example : ThreeConvexOrConcave 0 1 (fun t => 1 - 2 * t ^ 3) (fun t => -(6 * t ^ 2)) ∧
    (0 : ℝ) < 1 - 2 * 0 ^ 3 ∧ (1 : ℝ) - 2 * 1 ^ 3 < 0 := by
  refine ⟨⟨fun t _ => ?_, Or.inr ?_⟩, by norm_num, by norm_num⟩
  · have h := ((hasDerivAt_id t).pow 3).const_mul (2 : ℝ) |>.const_sub 1
    exact h.congr_deriv (by simp; ring)
  · have h : ConvexOn ℝ (Set.Icc (0 : ℝ) 1) (fun t => t ^ 2) :=
      (even_two.convexOn_pow).subset (Set.subset_univ _) (convex_Icc 0 1)
    exact (h.smul (by norm_num : (0 : ℝ) ≤ 6)).neg

/-- Non-vacuity of the quadratic case: `1 - 4 t²` on `[0, 1]`. -/
example : (0 : ℝ) < 1 + 0 * 0 + (-4) * 0 ^ 2 ∧ (1 : ℝ) + 0 * 1 + (-4) * 1 ^ 2 < 0 := by norm_num

end Ryujin
