import Verif.Model.Airfoil

/-! # Specification: sample points of an airfoil from which the parametrisation can be created -/

namespace Ryujin
namespace Airfoil

/-- The samples `x`, `y` of one side: at least two, as many ordinates as abscissae, strictly increasing from 0 to 1, starting at the nose. -/
structure SideAdmissible (x y : List ℝ) : Prop where
  size : 2 ≤ x.length
  length : y.length = x.length
  sorted : x.Pairwise (· < ·)
  first : x.head? = some 0
  last : x.getLast? = some 1
  nose : y.head? = some 0

/-- Two samples one after the other. -/
def Consecutive (l : List (ℝ × ℝ)) (a b : ℝ × ℝ) : Prop := (a, b) ∈ l.zip l.tail

/-- `v` is larger (smaller) than the ordinate at `t` of the straight line through `a` and `b`; `a` is left of `b`. -/
def AboveLine (a b : ℝ × ℝ) (t v : ℝ) : Prop := a.2 * (b.1 - t) + b.2 * (t - a.1) < v * (b.1 - a.1)
/-- See `AboveLine`. -/
def BelowLine (a b : ℝ × ℝ) (t v : ℝ) : Prop := v * (b.1 - a.1) < a.2 * (b.1 - t) + b.2 * (t - a.1)

/-- What the conversion of the samples into a mesh asks for: both sides are admissible; the trailing edge is blunt; behind the nose the two
polygons do not touch: every sample of the upper side is above the polygon of the lower side, and the other way round. -/
structure Admissible (s : Samples) : Prop where
  upper : SideAdmissible s.xUpper s.yUpper
  lower : SideAdmissible s.xLower s.yLower
  blunt : ∃ u l, s.yUpper.getLast? = some u ∧ s.yLower.getLast? = some l ∧ l < u
  above : ∀ q ∈ s.xUpper.zip s.yUpper, 0 < q.1 → ∀ a b, Consecutive (s.xLower.zip s.yLower) a b → a.1 ≤ q.1 → q.1 ≤ b.1 → AboveLine a b q.1 q.2
  below : ∀ q ∈ s.xLower.zip s.yLower, 0 < q.1 → ∀ a b, Consecutive (s.xUpper.zip s.yUpper) a b → a.1 ≤ q.1 → q.1 ≤ b.1 → BelowLine a b q.1 q.2

/-- The shape of a profile: the upper side rises strictly up to the sample `k` and falls strictly behind it; the lower side falls up to a sample `i`,
rises up to a sample `j` (the end for a profile without a hollow) and falls again behind it. -/
structure Streamlined (s : Samples) : Prop where
  upper : ∃ k, (s.yUpper.take (k + 1)).Pairwise (· < ·) ∧ (s.yUpper.drop k).Pairwise (· > ·)
  lower : ∃ i j, i < j ∧ (s.yLower.take (i + 1)).Pairwise (· ≥ ·) ∧ ((s.yLower.take (j + 1)).drop i).Pairwise (· ≤ ·) ∧
    (s.yLower.drop j).Pairwise (· ≥ ·)

end Airfoil
end Ryujin
