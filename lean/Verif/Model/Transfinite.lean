import Verif.Model.Tensor
import Verif.Model.GeoTiff
import Mathlib.Data.List.FinRange
import Mathlib.Data.List.Sort
import Mathlib.LinearAlgebra.Matrix.NonsingularInverse

/-!
# Model of the transfinite interpolation (source/transfinite_interpolation.template.h)

A coarse cell is represented by what the code reads from it: the vertices, the manifold ids of the cell, of its lines and
of its faces, and `get_new_point` of the manifolds attached to the triangulation.  Coordinates are `ℝ`; `dim == spacedim`
for the inversion of the map (the assignment in line 494 does not compile otherwise).  The queries into deal.II's
`GeometryInfo` are the functions of the same names below.
-/

namespace Ryujin
namespace Transfinite

open GeoTiff (Outcome)

noncomputable section

/-- `numbers::flat_manifold_id`, deal.II's `static_cast<types::manifold_id>(-1)`. -/
def flatManifoldId : ℕ := 2 ^ 32 - 1

/-- `a[k] += x` for an array of numbers. (transfinite_interpolation.template.h:120-170, 240-360) -/
def addAt {m : ℕ} (a : Fin m → ℝ) (k : Fin m) (x : ℝ) : Fin m → ℝ := fun j => if j = k then a j + x else a j

/-- `GeometryInfo<2>::line_to_cell_vertices` (deal.II). -/
def lineVertices2 : Fin 4 → Fin 2 → Fin 4 := ![![0, 2], ![1, 3], ![0, 1], ![2, 3]]

/-- `GeometryInfo<3>::line_to_cell_vertices` (deal.II). -/
def lineVertices3 : Fin 12 → Fin 2 → Fin 8 :=
  ![![0, 2], ![1, 3], ![0, 1], ![2, 3], ![4, 6], ![5, 7], ![4, 5], ![6, 7], ![0, 4], ![1, 5], ![2, 6], ![3, 7]]

/-- `face_to_cell_vertices_3d` (transfinite_interpolation.template.h:182-188). -/
def faceVertices : Fin 6 → Fin 4 → Fin 8 :=
  ![![0, 2, 4, 6], ![1, 3, 5, 7], ![0, 4, 1, 5], ![2, 6, 3, 7], ![0, 1, 2, 3], ![4, 5, 6, 7]]

/-- `face_to_cell_lines_3d` (transfinite_interpolation.template.h:193-198). -/
def faceLines : Fin 6 → Fin 4 → Fin 12 :=
  ![![8, 10, 0, 4], ![9, 11, 1, 5], ![2, 6, 8, 9], ![3, 7, 10, 11], ![0, 1, 2, 3], ![4, 5, 6, 7]]

/-- What the code reads from a coarse cell in two dimensions. `manifold id points weights` is
`tria.get_manifold(id).get_new_point(points, weights)`. (transfinite_interpolation.template.h:94-170) -/
structure Cell2 (n : ℕ) where
  vertex : Fin 4 → Vec n
  manifoldId : ℕ
  lineManifold : Fin 4 → ℕ
  manifold : ℕ → List (Vec n) → List ℝ → Vec n

/-- What the code reads from a coarse cell in three dimensions. (transfinite_interpolation.template.h:203-360) -/
structure Cell3 (n : ℕ) where
  vertex : Fin 8 → Vec n
  manifoldId : ℕ
  lineManifold : Fin 12 → ℕ
  faceManifold : Fin 6 → ℕ
  manifold : ℕ → List (Vec n) → List ℝ → Vec n

/-- `initialize` (transfinite_interpolation.template.h:60-73), the entry of `coarse_cell_is_flat` in two dimensions. -/
def Cell2.isFlat {n : ℕ} (c : Cell2 n) : Bool :=
  (List.finRange 4).foldl (fun flat l =>
    if c.lineManifold l ≠ c.manifoldId ∧ c.lineManifold l ≠ flatManifoldId then false else flat) true

/-- `initialize` (transfinite_interpolation.template.h:60-73), the entry of `coarse_cell_is_flat` in three dimensions. -/
def Cell3.isFlat {n : ℕ} (c : Cell3 n) : Bool :=
  (List.finRange 6).foldl (fun flat q =>
      if c.faceManifold q ≠ c.manifoldId ∧ c.faceManifold q ≠ flatManifoldId then false else flat)
    ((List.finRange 12).foldl (fun flat l =>
      if c.lineManifold l ≠ c.manifoldId ∧ c.lineManifold l ≠ flatManifoldId then false else flat) true)

/-- `compute_transfinite_interpolation`, version for 1D (transfinite_interpolation.template.h:80-89). -/
def interpolate1 {n : ℕ} (v0 v1 : Vec n) (x : ℝ) : Vec n := (1 - x) • v0 + x • v1

/-- The bilinear shape functions (transfinite_interpolation.template.h:113-117). -/
def bilinearWeights (x : Vec 2) : Fin 4 → ℝ :=
  ![(1 - x 0) * (1 - x 1), x 0 * (1 - x 1), (1 - x 0) * x 1, x 0 * x 1]

/-- One pass of the loop over the lines (transfinite_interpolation.template.h:140-169) on
`(new_point, weights_vertices)`. -/
def line2 {n : ℕ} (c : Cell2 n) (x : Vec 2) (s : Vec n × (Fin 4 → ℝ)) (l : Fin 4) : Vec n × (Fin 4 → ℝ) :=
  let direction : Fin 2 := if (l : ℕ) / 2 = 0 then 0 else 1
  let myWeight := if (l : ℕ) % 2 = 1 then x direction else 1 - x direction
  let linePoint := x (1 - direction)
  if c.lineManifold l = c.manifoldId ∨ c.lineManifold l = flatManifoldId then
    (s.1, addAt (addAt s.2 (lineVertices2 l 0) (-(myWeight * (1 - linePoint))))
      (lineVertices2 l 1) (-(myWeight * linePoint)))
  else
    (s.1 + myWeight • c.manifold (c.lineManifold l) [c.vertex (lineVertices2 l 0), c.vertex (lineVertices2 l 1)]
      [1 - linePoint, linePoint], s.2)

/-- `compute_transfinite_interpolation`, version for 2D (transfinite_interpolation.template.h:91-177). -/
def interpolate2 {n : ℕ} (c : Cell2 n) (x : Vec 2) (cellIsFlat : Bool) : Vec n :=
  if cellIsFlat then (List.finRange 4).foldl (fun p v => p + bilinearWeights x v • c.vertex v) 0
  else
    let s := (List.finRange 4).foldl (line2 c x) (0, bilinearWeights x)
    (List.finRange 4).foldl (fun p v => p - s.2 v • c.vertex v) s.1

/-- `linear_shapes`, the last four entries wrap around (transfinite_interpolation.template.h:226-234). -/
def linearShapes (x : Vec 3) (k : ℕ) : ℝ :=
  let j := if k < 6 then k else k - 6
  let d : Fin 3 := if j / 2 = 0 then 0 else if j / 2 = 1 then 1 else 2
  if j % 2 = 0 then 1 - x d else x d

/-- The trilinear shape functions (transfinite_interpolation.template.h:236-242). -/
def trilinearWeights (x : Vec 3) (v : Fin 8) : ℝ :=
  (linearShapes x (4 + v / 4) * linearShapes x (2 + v / 2 % 2)) * linearShapes x (v % 2)

/-- The state of the three-dimensional version: `new_point`, `weights_vertices`, `weights_lines`. -/
structure State3 (n : ℕ) where
  point : Vec n
  vertices : Fin 8 → ℝ
  lines : Fin 12 → ℝ

/-- The bilinear shape functions on a face (transfinite_interpolation.template.h:301-308). -/
def faceWeights (x : Vec 3) (f : Fin 6) : Fin 4 → ℝ :=
  let e : ℕ := f - f % 2
  ![linearShapes x (e + 2) * linearShapes x (e + 4), linearShapes x (e + 3) * linearShapes x (e + 4),
    linearShapes x (e + 2) * linearShapes x (e + 5), linearShapes x (e + 3) * linearShapes x (e + 5)]

/-- One pass of the loop over the faces (transfinite_interpolation.template.h:263-313). -/
def face3 {n : ℕ} (c : Cell3 n) (x : Vec 3) (s : State3 n) (f : Fin 6) : State3 n :=
  let myWeight := linearShapes x f
  let e : ℕ := f - f % 2
  if |myWeight| < 1e-13 then s
  else if c.faceManifold f = c.manifoldId ∨ c.faceManifold f = flatManifoldId then
    { s with
      lines := (List.finRange 4).foldl
        (fun a l => addAt a (faceLines f l) (myWeight * linearShapes x (e + 2 + l))) s.lines
      vertices :=
        addAt (addAt (addAt (addAt s.vertices
          (faceVertices f 0) (-(linearShapes x (e + 2) * (linearShapes x (e + 4) * myWeight))))
          (faceVertices f 1) (-(linearShapes x (e + 3) * (linearShapes x (e + 4) * myWeight))))
          (faceVertices f 2) (-(linearShapes x (e + 2) * (linearShapes x (e + 5) * myWeight))))
          (faceVertices f 3) (-(linearShapes x (e + 3) * (linearShapes x (e + 5) * myWeight))) }
  else
    { s with
      point := s.point + myWeight • c.manifold (c.faceManifold f)
        ((List.finRange 4).map fun v => c.vertex (faceVertices f v)) ((List.finRange 4).map (faceWeights x f)) }

/-- The coordinate along a line (transfinite_interpolation.template.h:322-323). -/
def linePoint3 (x : Vec 3) (l : Fin 12) : ℝ :=
  if (l : ℕ) < 8 then (if (l : ℕ) % 4 / 2 = 0 then x 1 else x 0) else x 2

/-- The weight of a line before the contributions of the faces are subtracted
(transfinite_interpolation.template.h:324-331). -/
def lineWeight3 (x : Vec 3) (l : Fin 12) : ℝ :=
  if (l : ℕ) < 8 then linearShapes x (l % 4) * linearShapes x (4 + l / 4)
  else linearShapes x ((l - 8) % 2) * linearShapes x (2 + (l - 8) / 2)

/-- One pass of the loop over the lines (transfinite_interpolation.template.h:320-356). -/
def line3 {n : ℕ} (c : Cell3 n) (x : Vec 3) (s : State3 n) (l : Fin 12) : State3 n :=
  let linePoint := linePoint3 x l
  let myWeight := lineWeight3 x l - s.lines l
  if |myWeight| < 1e-13 then s
  else if c.lineManifold l = c.manifoldId ∨ c.lineManifold l = flatManifoldId then
    { s with
      vertices := addAt (addAt s.vertices (lineVertices3 l 0) (-(myWeight * (1 - linePoint))))
        (lineVertices3 l 1) (-(myWeight * linePoint)) }
  else
    { s with
      point := s.point - myWeight • c.manifold (c.lineManifold l)
        [c.vertex (lineVertices3 l 0), c.vertex (lineVertices3 l 1)] [1 - linePoint, linePoint] }

/-- `compute_transfinite_interpolation`, version for 3D (transfinite_interpolation.template.h:200-363). -/
def interpolate3 {n : ℕ} (c : Cell3 n) (x : Vec 3) (cellIsFlat : Bool) : Vec n :=
  if cellIsFlat then (List.finRange 8).foldl (fun p v => p + trilinearWeights x v • c.vertex v) 0
  else
    let s := (List.finRange 6).foldl (face3 c x) ⟨0, trilinearWeights x, fun _ => 0⟩
    let s := (List.finRange 12).foldl (line3 c x) s
    (List.finRange 8).foldl (fun p v => p + s.vertices v • c.vertex v) s.point

/-- `push_forward` in two dimensions (transfinite_interpolation.template.h:367-382). -/
def Cell2.pushForward {n : ℕ} (c : Cell2 n) (x : Vec 2) : Vec n := interpolate2 c x c.isFlat

/-- `push_forward` in three dimensions (transfinite_interpolation.template.h:367-382). -/
def Cell3.pushForward {n : ℕ} (c : Cell3 n) (x : Vec 3) : Vec n := interpolate3 c x c.isFlat

/-- `push_forward_gradient` (transfinite_interpolation.template.h:385-408) for the map `F`; `value` is the argument
`pushed_forward_chart_point`. -/
def pushForwardGradient {m n : ℕ} (F : Vec m → Vec n) (x : Vec m) (value : Vec n) : Matrix (Fin n) (Fin m) ℝ :=
  Matrix.of fun e d =>
    let step : ℝ := if x d > 0.5 then -1e-8 else 1e-8
    (F (Function.update x d (x d + step)) e - value e) / step

/-- `GeometryInfo::is_inside_unit_cell(p, eps)` (deal.II). -/
def isInside {m : ℕ} (x : Vec m) (eps : ℝ) : Prop := ∀ d, -eps ≤ x d ∧ x d ≤ 1 + eps

/-- `GeometryInfo::project_to_unit_cell` (deal.II). -/
def project {m : ℕ} (x : Vec m) : Vec m := fun d => max 0 (min 1 (x d))

/-- `internal::invalid_pull_back_coordinate` in all coordinates (transfinite_interpolation.template.h:21, 417-419). -/
def outside {m : ℕ} : Vec m := fun _ => 20

/-- The sums `update[e] += inv_grad[d][e] * residual[d]` (transfinite_interpolation.template.h:444-447, 476-479,
536-539). -/
def applyInverse {m : ℕ} (invGrad : Matrix (Fin m) (Fin m) ℝ) (r : Vec m) : Vec m := fun e => ∑ d, invGrad d e * r d

/-- The first line search (transfinite_interpolation.template.h:486-489).  The loop stops after 24 halvings because
`2^-24 < 1e-7`. -/
def shrink {m : ℕ} (x update : Vec m) : ℕ → ℝ → ℝ
  | 0, alpha => alpha
  | fuel + 1, alpha =>
    open Classical in
    if ¬isInside (x + alpha • update) 0.2 ∧ alpha > 1e-7 then shrink x update fuel (alpha * 0.5) else alpha

/-- The second line search (transfinite_interpolation.template.h:492-505); the result is `alpha` and the new
`(chart_point, residual)`, if there is one.  The loop stops after 14 halvings because `2^-14 < 1e-4`. -/
def search {m : ℕ} (F : Vec m → Vec m) (point x residual update : Vec m) : ℕ → ℝ → ℝ × Option (Vec m × Vec m)
  | 0, alpha => (alpha, none)
  | fuel + 1, alpha =>
    if alpha > 1e-4 then
      let guess := x + alpha • update
      let residualGuess := point - F guess
      if normSq residualGuess < normSq residual then (alpha, some (guess, residualGuess))
      else search F point x residual update fuel (alpha * 0.5)
    else (alpha, none)

/-- The update of the inverse Jacobian (transfinite_interpolation.template.h:546-557). -/
def broyden {m : ℕ} (tolerance : ℝ) (invGrad : Matrix (Fin m) (Fin m) ℝ) (deltaX deltaF : Vec m) (recompute : Bool) :
    Matrix (Fin m) (Fin m) ℝ :=
  let jinv := applyInverse invGrad deltaF
  if |dot deltaX jinv| > 0.1 * tolerance ∧ recompute = false then
    Matrix.of fun d e => invGrad d e + (deltaX e - jinv e) / dot deltaX jinv * ∑ e', deltaX e' * invGrad d e'
  else invGrad

/-- The variables of `pull_back` that survive an iteration. `residual_norm_square` is `normSq residual`.
(transfinite_interpolation.template.h:419-440) -/
structure Newton (m : ℕ) where
  x : Vec m
  residual : Vec m
  invGrad : Matrix (Fin m) (Fin m) ℝ
  recompute : Bool

/-- One pass of the quasi-Newton iteration (transfinite_interpolation.template.h:438-558): either `pull_back` returns
(`inl`) or the iteration goes on (`inr`).  `covariant_form()` is the transpose of the inverse (deal.II). -/
def newtonStep {m : ℕ} (F : Vec m → Vec m) (tolerance : ℝ) (point : Vec m) (i : ℕ) (s : Newton m) :
    Vec m ⊕ Newton m :=
  if normSq s.residual < tolerance then .inl (s.x + applyInverse s.invGrad s.residual)
  else
    let jacobian := decide (s.recompute = true ∨ (normSq s.residual > 1e4 * tolerance ∧ i % 7 = 0))
    let grad := pushForwardGradient F s.x (point - s.residual)
    if jacobian = true ∧ grad.det ≤ 0 then .inl outside
    else
      let invGrad := if jacobian then (grad⁻¹).transpose else s.invGrad
      let recompute := if jacobian then false else s.recompute
      let update := applyInverse invGrad s.residual
      let alpha := shrink s.x update 24 1
      let found := search F point s.x s.residual update 14 alpha
      let alpha := found.1
      let x := (found.2.map Prod.fst).getD s.x
      let residual := (found.2.map Prod.snd).getD s.residual
      if alpha ≤ 1e-4 ∧ recompute = true then
        .inl (if normSq residual < Real.sqrt tolerance then x else outside)
      else
        let recompute := if alpha ≤ 1e-4 then true else recompute
        .inr ⟨x, residual, broyden tolerance invGrad (alpha • update) (s.residual - residual) recompute, recompute⟩

/-- The remaining passes of the iteration, the first of them with the index `i`. (transfinite_interpolation.template.h:437-560) -/
def newtonLoop {m : ℕ} (F : Vec m → Vec m) (tolerance : ℝ) (point : Vec m) : ℕ → ℕ → Newton m → Vec m
  | 0, _, _ => outside
  | remaining + 1, i, s =>
    match newtonStep F tolerance point i s with
    | .inl x => x
    | .inr s => newtonLoop F tolerance point remaining (i + 1) s

/-- `pull_back` (transfinite_interpolation.template.h:411-560) for the map `F` of the cell; `tolerance` is
`1e-21 * diameter^2` (line 433). -/
def pullBack {m : ℕ} (F : Vec m → Vec m) (tolerance : ℝ) (point guess : Vec m) : Vec m :=
  let x := project guess
  newtonLoop F tolerance point 100 0 ⟨x, point - F x, 0, true⟩

/-- What `get_possible_cells_around_points` and `compute_chart_points` read from a coarse cell: material, vertices, the map
`push_forward`, the tolerance of its inversion, and `real_to_unit_cell_affine_approximation`.
(transfinite_interpolation.template.h:565-660) -/
structure Chart (m : ℕ) where
  materialId : ℕ
  vertices : List (Vec m)
  map : Vec m → Vec m
  tolerance : ℝ
  affine : Vec m → Vec m

/-- The sum of the vertices divided by their number (transfinite_interpolation.template.h:598-601). -/
def Chart.center {m : ℕ} (C : Chart m) : Vec m := (1 / (2 : ℝ) ^ m) • C.vertices.foldl (· + ·) 0

/-- `radius_square` (transfinite_interpolation.template.h:602-605). -/
def Chart.radiusSquare {m : ℕ} (C : Chart m) : ℝ := C.vertices.foldl (fun r v => max r (normSq (C.center - v))) 0

/-- `GeometryInfo::distance_to_unit_cell` (deal.II). -/
def distanceToUnitCell {m : ℕ} (x : Vec m) : ℝ :=
  (List.finRange m).foldl (fun r d => if -x d > r then -x d else if x d - 1 > r then x d - 1 else r) 0

/-- Whether a cell is kept as a candidate (transfinite_interpolation.template.h:586-613). -/
def Chart.near {m : ℕ} (C : Chart m) (points : List (Vec m)) : Prop :=
  C.materialId ≠ 42 ∧ ∀ p ∈ points, ¬normSq (C.center - p) > C.radiusSquare * 1.5

/-- `current_distance` (transfinite_interpolation.template.h:616-621). -/
def Chart.distance {m : ℕ} (C : Chart m) (points : List (Vec m)) : ℝ :=
  points.foldl (fun r p => r + distanceToUnitCell (C.affine p)) 0

/-- The order of `std::pair<double, unsigned int>`. (transfinite_interpolation.template.h:600-635) -/
def pairLe (a b : ℝ × ℕ) : Prop := a.1 < b.1 ∨ (a.1 = b.1 ∧ a.2 ≤ b.2)

open Classical in
/-- `get_possible_cells_around_points` (transfinite_interpolation.template.h:563-636): the indices of the candidates, at
most 20 of them (an index `invalid_unsigned_int` ends the list). `charts` are the cells of the level by index. -/
def possibleCells {m : ℕ} (charts : List (Chart m)) (points : List (Vec m)) : Outcome (List ℕ) :=
  let found := charts.zipIdx.filterMap fun (C, k) => if C.near points then some (C.distance points, k) else none
  if found.length = 0 then .exception
  else .ok (((found.insertionSort pairLe).map Prod.snd).take 20)

/-- The guess for the chart point with the given index if it is not the affine approximation
(transfinite_interpolation.template.h:674-735, 779-802). `done` are the chart points computed so far. -/
def cheapGuess {m : ℕ} (points done : List (Vec m)) : Option (Vec m) :=
  let c := fun k => done.getD k 0
  let p := fun k => points.getD k 0
  let i := done.length
  let v06 := p 6 - p 0
  let v27 := p 7 - p 2
  let cosine := dot v06 v27 / Real.sqrt (normSq v06 * normSq v27)
  let structdim2 := points.length = 8 ∧ 0.707 < cosine
  let structdim3 := points.length = 8 ∧ ¬0.707 < cosine ∧ m = 3
  if i = 3 ∧ points.length ≥ 8 then some (c 1 + (c 2 - c 0))
  else if structdim2 ∧ 3 < i then
    some (if i = 4 then (0.5 : ℝ) • (c 0 + c 2) else if i = 5 then (0.5 : ℝ) • (c 1 + c 3)
      else if i = 6 then (0.5 : ℝ) • (c 0 + c 1) else (0.5 : ℝ) • (c 2 + c 3))
  else if structdim3 ∧ 4 < i then some (c (i - 4) + (c 4 - c 0))
  else if m = 3 ∧ i > 7 ∧ points.length = 26 then
    some (if i < 20 then
        (0.5 : ℝ) • (c (lineVertices3 (Fin.ofNat 12 (i - 8)) 0) + c (lineVertices3 (Fin.ofNat 12 (i - 8)) 1))
      else (0.25 : ℝ) • (c (faceVertices (Fin.ofNat 6 (i - 20)) 0) + c (faceVertices (Fin.ofNat 6 (i - 20)) 1)
        + c (faceVertices (Fin.ofNat 6 (i - 20)) 2) + c (faceVertices (Fin.ofNat 6 (i - 20)) 3)))
  else none

/-- Whether `chart_points[point_index][0] == invalid_pull_back_coordinate` (transfinite_interpolation.template.h:814,
823). -/
def isInvalid {m : ℕ} (x : Vec m) : Prop := ∀ h : 0 < m, x ⟨0, h⟩ = 20

open Classical in
/-- `compute_chart_point` (transfinite_interpolation.template.h:768-830) for the point `p` after the chart points `done`. -/
def chartPoint {m : ℕ} (C : Chart m) (points done : List (Vec m)) (p : Vec m) : Vec m :=
  let cheap := cheapGuess points done
  let x := pullBack C.map C.tolerance p (cheap.getD (C.affine p))
  let x := if isInvalid x ∧ cheap.isSome then pullBack C.map C.tolerance p (C.affine p) else x
  if isInvalid x then pullBack C.map C.tolerance p (fun _ => 0.5) else x

open Classical in
/-- The loop over the points for one cell (transfinite_interpolation.template.h:836-847): `none` if a point is not inside
of the unit cell. -/
def chartPointsFrom {m : ℕ} (C : Chart m) (points : List (Vec m)) : List (Vec m) → List (Vec m) → Option (List (Vec m))
  | [], done => some done
  | p :: rest, done =>
    let x := chartPoint C points done p
    if isInside x 5e-4 then chartPointsFrom C points rest (done ++ [x]) else none

/-- The loop over the candidates (transfinite_interpolation.template.h:833-886). -/
def firstChart {m : ℕ} (charts : List (Chart m)) (points : List (Vec m)) : List ℕ → Outcome (Chart m × List (Vec m))
  | [] => .exception
  | k :: rest =>
    match charts[k]? with
    | none => .ub
    | some C =>
      match chartPointsFrom C points points [] with
      | some xs => .ok (C, xs)
      | none => firstChart charts points rest

/-- `compute_chart_points` (transfinite_interpolation.template.h:639-887). -/
def computeChartPoints {m : ℕ} (charts : List (Chart m)) (points : List (Vec m)) : Outcome (Chart m × List (Vec m)) :=
  match possibleCells charts points with
  | .ok cells => firstChart charts points cells
  | .exception => .exception
  | .ub => .ub

/-- `get_new_point` (transfinite_interpolation.template.h:890-907); `chartManifold` is
`chart_manifold->get_new_point`. -/
def getNewPoint {m : ℕ} (charts : List (Chart m)) (chartManifold : List (Vec m) → List ℝ → Vec m)
    (points : List (Vec m)) (weights : List ℝ) : Outcome (Vec m) :=
  match computeChartPoints charts points with
  | .ok (C, xs) => .ok (C.map (chartManifold xs weights))
  | .exception => .exception
  | .ub => .ub

/-- `get_new_points` (transfinite_interpolation.template.h:910-935); `chartManifolds` is
`chart_manifold->get_new_points`. -/
def getNewPoints {m : ℕ} (charts : List (Chart m)) (chartManifolds : List (Vec m) → List (List ℝ) → List (Vec m))
    (points : List (Vec m)) (weights : List (List ℝ)) : Outcome (List (Vec m)) :=
  match computeChartPoints charts points with
  | .ok (C, xs) => .ok ((chartManifolds xs weights).map C.map)
  | .exception => .exception
  | .ub => .ub

end

end Transfinite
end Ryujin
