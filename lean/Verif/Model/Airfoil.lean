import Verif.Model.GeoTiff
import Verif.Model.Transfinite
import Mathlib.Analysis.SpecialFunctions.Complex.Arg
import Mathlib.Analysis.SpecialFunctions.Trigonometric.Arctan
import Mathlib.Analysis.SpecialFunctions.Pow.Real

/-!
# Model of the airfoil geometry (source/geometry_airfoil.h)

The charts `AirfoilManifold`, `GradingManifold` and the manifold `ExtrudedManifold`, the sample points of the NACA four
digit series and the parametrisations produced by `create_psi`.  `double` is `ℝ`.  deal.II contributes the polar chart and
the weighted average of chart points, GSL the interpolating spline (source/cubic_spline.h), which is a parameter here.
`Assert` is active in debug builds only and is left out of the functions; where a theorem is about one of these conditions
it states it.  The tables of the NASA, ONERA and BELL profiles are in `Model/AirfoilTypes`.  Not modelled: the
construction and refinement of the coarse mesh (geometry_airfoil.h:960-1323).
-/

namespace Ryujin
namespace Airfoil

open scoped BigOperators
open GeoTiff (Outcome)

noncomputable section

/-! ### Charts -/

/-- A point of the plane. (geometry_airfoil.h:52-79) -/
abbrev Pt := Vec 2

/-- `std::atan2(y, x)`. (geometry_airfoil.h:745) -/
def atan2 (y x : ℝ) : ℝ := Complex.arg ⟨x, y⟩

/-- The angle of `dealii::PolarManifold<2>::pull_back` (deal.II) and of geometry_airfoil.h:745-747: `atan2` moved into
`[0, 2 π)`. -/
def polarAngle (y x : ℝ) : ℝ :=
  if atan2 y x < 0 then atan2 y x + 2 * Real.pi else atan2 y x

/-- `dealii::PolarManifold<2>::pull_back` with centre `0` (deal.II). -/
def polarPullBack (p : Pt) : Pt := ![Real.sqrt (p 0 * p 0 + p 1 * p 1), polarAngle (p 1) (p 0)]

/-- `dealii::PolarManifold<2>::push_forward` with centre `0` (deal.II). -/
def polarPushForward (c : Pt) : Pt := ![c 0 * Real.cos (c 1), c 0 * Real.sin (c 1)]

/-- The members of `AirfoilManifold` (geometry_airfoil.h:135-143). -/
structure Manifold where
  center : Pt
  psiFront : ℝ → ℝ
  psiUpper : ℝ → ℝ
  psiLower : ℝ → ℝ
  upperSide : Bool
  ratio : ℝ

/-- The constructor (geometry_airfoil.h:47-59). -/
def Manifold.construct (center : Pt) (psiFront psiUpper psiLower : ℝ → ℝ) (upperSide : Bool) (psiRatio : ℝ) :
    Manifold where
  center := center
  psiFront := psiFront
  psiUpper := psiUpper
  psiLower := psiLower
  upperSide := upperSide
  ratio := psiRatio * psiFront 0 / psiFront Real.pi

/-- `clone` (geometry_airfoil.h:123-132). -/
def Manifold.clone (M : Manifold) : Manifold :=
  Manifold.construct M.center M.psiFront M.psiUpper M.psiLower M.upperSide
    (M.ratio * M.psiFront Real.pi / M.psiFront 0)

/-- `AirfoilManifold::pull_back` (geometry_airfoil.h:67-92). -/
def Manifold.pullBack (M : Manifold) (p : Pt) : Pt :=
  let x := p 0 - M.center 0
  let y := p 1 - M.center 1
  if x > 0 then
    if M.upperSide then ![1 + y - M.psiUpper x, 1 / 2 * Real.pi - M.ratio * x]
    else ![1 - y + M.psiLower x, 3 / 2 * Real.pi + M.ratio * x]
  else
    let c := polarPullBack ![x, y]
    ![1 + c 0 - M.psiFront (c 1), c 1]

/-- `AirfoilManifold::push_forward` (geometry_airfoil.h:94-121). -/
def Manifold.pushForward (M : Manifold) (c : Pt) : Pt :=
  let q : Pt :=
    if c 1 < 1 / 2 * Real.pi then
      let x := (1 / 2 * Real.pi - c 1) / M.ratio
      ![x, c 0 - 1 + M.psiUpper x]
    else if c 1 > 3 / 2 * Real.pi then
      let x := (c 1 - 3 / 2 * Real.pi) / M.ratio
      ![x, 1 - c 0 + M.psiLower x]
    else polarPushForward ![c 0 - 1 + M.psiFront (c 1), c 1]
  ![q 0 + M.center 0, q 1 + M.center 1]

/-- `dealii::ChartManifold::get_new_point` (deal.II): the weighted sum of the pulled back points, pushed forward. -/
def chartNewPoint {n dim : ℕ} (pull push : Vec dim → Vec dim) (points : Fin n → Vec dim) (weights : Fin n → ℝ) : Vec dim :=
  push fun d => ∑ i, weights i * pull (points i) d

/-- The members of `GradingManifold` (geometry_airfoil.h:226-229). -/
structure Grading (dim : ℕ) where
  center : Vec dim
  direction : Vec dim
  grading : ℝ
  epsilon : ℝ

/-- `std::copysign(1., x)` for `x ≠ 0`. (geometry_airfoil.h:187, 191, 206, 212) -/
def sign1 (x : ℝ) : ℝ := if x < 0 then -1 else 1

/-- The constant `1.e-14` of geometry_airfoil.h:190, 211. -/
def offset : ℝ := 1 / 10 ^ 14

/-- `x_hat` as a function of `x` (geometry_airfoil.h:189-190). -/
def Grading.hat {dim : ℕ} (G : Grading dim) (x : ℝ) : ℝ :=
  (x + G.epsilon) ^ (1 / G.grading) - G.epsilon ^ (1 / G.grading) + offset

/-- `x` as a function of `x_hat` (geometry_airfoil.h:209-211). -/
def Grading.unhat {dim : ℕ} (G : Grading dim) (xh : ℝ) : ℝ :=
  (xh + G.epsilon ^ (1 / G.grading)) ^ G.grading - G.epsilon + offset

/-- `GradingManifold::pull_back` (geometry_airfoil.h:180-196). -/
def Grading.pullBack {dim : ℕ} (G : Grading dim) (p : Vec dim) : Vec dim := fun d =>
  let c := p d - G.center d
  if |G.direction d| > 1 / 10 ^ 10 then
    let x := c * sign1 (G.direction d)
    c + (G.hat x - x) * sign1 (G.direction d)
  else c

/-- `GradingManifold::push_forward` (geometry_airfoil.h:198-217). -/
def Grading.pushForward {dim : ℕ} (G : Grading dim) (c : Vec dim) : Vec dim := fun d =>
  G.center d +
    if |G.direction d| > 1 / 10 ^ 10 then
      let xh := c d * sign1 (G.direction d)
      c d + (G.unhat xh - xh) * sign1 (G.direction d)
    else c d

/-- `GradingManifold::get_new_point` (geometry_airfoil.h:166-178).  `weights[0]` and `weights[1]` are read without a check
of the number of weights: with fewer than two (and, with one, unless the first is larger than one) there is no such entry. -/
def Grading.newPoint {dim n : ℕ} (G : Grading dim) (points : Fin n → Vec dim) (weights : Fin n → ℝ) :
    Outcome (Vec dim) :=
  if h0 : 0 < n then
    if weights ⟨0, h0⟩ > 1 then .ok (points ⟨0, h0⟩)
    else if h1 : 1 < n then
      if weights ⟨1, h1⟩ > 1 then .ok (points ⟨1, h1⟩)
      else .ok (chartNewPoint G.pullBack G.pushForward points weights)
    else .ub
  else .ub

/-- `ExtrudedManifold::get_new_point` (geometry_airfoil.h:250-283).  `planar` is `get_new_point` of the manifold of the
plane.  The projected points are written through `begin()` of a `small_vector` whose size stays zero and which has room for
100 elements; the model calls the result undefined when there are more points than that. -/
def extrudedNewPoint {n : ℕ} (planar : (Fin n → Vec 2) → (Fin n → ℝ) → Outcome (Vec 2)) (points : Fin n → Vec 3)
    (weights : Fin n → ℝ) : Outcome (Vec 3) :=
  if n ≤ 100 then
    match planar (fun i => ![points i 0, points i 1]) weights with
    | .ok q => .ok ![q 0, q 1, ∑ i, weights i * points i 2]
    | .exception => .exception
    | .ub => .ub
  else .ub

/-! ### The NACA four digit series -/

/-- `it - '0'` converted to `unsigned int` (geometry_airfoil.h:303-307). -/
def digit (c : Char) : ℕ := (c.toNat + 2 ^ 32 - 48) % 2 ^ 32

/-- The sample points returned by `naca_4digit_points`, as lists. (geometry_airfoil.h:298-303) -/
structure Samples where
  xUpper : List ℝ
  yUpper : List ℝ
  xLower : List ℝ
  yLower : List ℝ

/-- Half of the thickness (geometry_airfoil.h:326-329). -/
def thickness (t x : ℝ) : ℝ :=
  5 * t * (0.2969 * Real.sqrt x + x * (-0.126 + x * (-0.3516 + x * (0.2843 + x * (-0.1036)))))

/-- The camber line `y_c` (geometry_airfoil.h:331-333). -/
def camber (m p x : ℝ) : ℝ :=
  if x < p then m / (p * p) * (2 * p * x - x * x)
  else m / ((1 - p) * (1 - p)) * (1 - 2 * p + 2 * p * x - x * x)

/-- `dy_c` (geometry_airfoil.h:335-336). -/
def camberSlope (m p x : ℝ) : ℝ :=
  if x < p then 2 * m / (p * p) * (p - x) else 2 * m / ((1 - p) * (1 - p)) * (p - x)

/-- `theta` (geometry_airfoil.h:338). -/
def camberAngle (m p x : ℝ) : ℝ := Real.arctan (camberSlope m p x)

/-- The point on the upper side (geometry_airfoil.h:340-341). -/
def upperPoint (t m p x : ℝ) : ℝ × ℝ :=
  (x - thickness t x * Real.sin (camberAngle m p x), camber m p x + thickness t x * Real.cos (camberAngle m p x))

/-- The point on the lower side (geometry_airfoil.h:342-343). -/
def lowerPoint (t m p x : ℝ) : ℝ × ℝ :=
  (x + thickness t x * Real.sin (camberAngle m p x), camber m p x - thickness t x * Real.cos (camberAngle m p x))

/-- `x` (geometry_airfoil.h:325). -/
def abscissa (n i : ℕ) : ℝ := (i : ℝ) / ((n : ℝ) - 1)

/-- Set the first and the last entry to zero (geometry_airfoil.h:347-350). -/
def fixEnds (n : ℕ) (l : List ℝ) : List ℝ := (l.set 0 0).set (n - 1) 0

/-- What `naca_4digit_points` ends with: an exception, undefined behaviour (`front()` of an empty vector), numbers that are
not finite, or the samples. (geometry_airfoil.h:298-380) -/
inductive NacaResult
  | exception
  | ub
  | nan
  | ok (s : Samples)

/-- `naca_4digit_points` (geometry_airfoil.h:297-353).  With one sample the abscissa is `0. / 0`. -/
def nacaPoints (serial : List Char) (n : ℕ) : NacaResult :=
  match serial with
  | [a, b, c, d] =>
    let t : ℝ := 0.1 * digit c + 0.01 * digit d
    let m : ℝ := 0.01 * digit a
    let p : ℝ := 0.1 * digit b
    if t > 0 then
      if n = 0 then .ub
      else if n = 1 then .nan
      else
        .ok {
          xUpper := (List.range n).map fun i => (upperPoint t m p (abscissa n i)).1
          yUpper := fixEnds n ((List.range n).map fun i => (upperPoint t m p (abscissa n i)).2)
          xLower := (List.range n).map fun i => (lowerPoint t m p (abscissa n i)).1
          yLower := fixEnds n ((List.range n).map fun i => (lowerPoint t m p (abscissa n i)).2) }
    else .exception
  | _ => .exception

/-! ### The parametrisations -/

/-- `CubicSpline(x, y)` (source/cubic_spline.h:37-51) as a function of its sample points: what `eval` returns. -/
abbrev SplineMaker := List (ℝ × ℝ) → ℝ → ℝ

/-- The result of `create_psi`. (geometry_airfoil.h:643-700) -/
structure Psi where
  front : ℝ → ℝ
  upper : ℝ → ℝ
  lower : ℝ → ℝ

/-- `psi_upper`, and `psi_lower` with the other spline (geometry_airfoil.h:675-693). -/
def psiSide (eval : ℝ → ℝ) (xc yc scaling : ℝ) (xh : ℝ) : ℝ :=
  let x := xh / scaling
  if x > 1 - xc then scaling * (eval 1 - yc) else scaling * (eval (x + xc) - yc)

/-- The leading samples in front of the centre, then three points around it (geometry_airfoil.h:702-719, 726-736). -/
def frontSamples (points : List (ℝ × ℝ)) (eval : ℝ → ℝ) (xc : ℝ) : List (ℝ × ℝ) :=
  (points.takeWhile fun q => !decide (q.1 ≥ xc)) ++
    [(xc, eval xc), (xc + 0.01, eval (xc + 0.01)), (xc + 0.02, eval (xc + 0.02))]

/-- The combined set of points (geometry_airfoil.h:699-736): upper samples backwards without the first one, then lower
samples. -/
def combined (upper lower : List (ℝ × ℝ)) (evalUpper evalLower : ℝ → ℝ) (xc : ℝ) : List (ℝ × ℝ) :=
  (frontSamples upper evalUpper xc).reverse.dropLast ++ frontSamples lower evalLower xc

/-- Polar coordinates of a sample (geometry_airfoil.h:740-751). -/
def toPolar (xc yc : ℝ) (q : ℝ × ℝ) : ℝ × ℝ :=
  (polarAngle (q.2 - yc) (q.1 - xc), Real.sqrt ((q.1 - xc) * (q.1 - xc) + (q.2 - yc) * (q.2 - yc)))

/-- geometry_airfoil.h:754-755: a last angle that is zero becomes `2 π`. -/
def fixLast (l : List (ℝ × ℝ)) : List (ℝ × ℝ) :=
  match l.getLast? with
  | some q => if q.1 = 0 then l.dropLast ++ [(2 * Real.pi, q.2)] else l
  | none => l

/-- The sample points of the spline in polar coordinates (geometry_airfoil.h:699-759). -/
def polarSamples (upper lower : List (ℝ × ℝ)) (evalUpper evalLower : ℝ → ℝ) (xc yc : ℝ) : List (ℝ × ℝ) :=
  fixLast ((combined upper lower evalUpper evalLower xc).map (toPolar xc yc))

/-- `create_psi` (geometry_airfoil.h:642-768) for deal.II configured with GSL. -/
def createPsi (spline : SplineMaker) (upper lower : List (ℝ × ℝ)) (xc yc scaling : ℝ) : Psi where
  upper := psiSide (spline upper) xc yc scaling
  lower := psiSide (spline lower) xc yc scaling
  front := fun phi =>
    if phi = 0 then scaling * (1 - xc)
    else scaling * spline (polarSamples upper lower (spline upper) (spline lower) xc yc) phi

/-- The vertices of the coarse mesh on the airfoil (geometry_airfoil.h:966, 970-971, 984-985): the nose, the lower and the
upper trailing point. -/
def nose (center : Pt) (psi : Psi) : Pt := ![center 0 - psi.front Real.pi, center 1]

/-- The lower end of the airfoil (geometry_airfoil.h:960-1000). -/
def trailingLower (center : Pt) (psi : Psi) : Pt := ![center 0 + psi.front 0, center 1 + psi.lower (psi.front 0)]

/-- The upper end of the airfoil (geometry_airfoil.h:960-1000). -/
def trailingUpper (center : Pt) (psi : Psi) : Pt := ![center 0 + psi.front 0, center 1 + psi.upper (psi.front 0)]

/-- What the check of the trailing edge decides (geometry_airfoil.h:951-958). -/
inductive TrailingEdge
  | sharp
  | blunt
  | exception
  deriving DecidableEq

open Classical in
/-- The check of the trailing edge (geometry_airfoil.h:951-958). -/
def trailingEdge (psi : Psi) : TrailingEdge :=
  let width := |psi.upper (psi.front 0) - psi.lower (psi.front 0)|
  if width < 1 / 10 ^ 10 then .sharp
  else if width > 0.001 * psi.front 0 then .blunt
  else .exception

end

end Airfoil
end Ryujin
