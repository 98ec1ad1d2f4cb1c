import Verif.Model.Tensor
import Verif.Model.Configuration
import Mathlib.Analysis.SpecialFunctions.Trigonometric.Basic

/-!
# Model of the boundary ids the geometries assign (source/geometry_*.h)

Every geometry visits the boundary faces of the coarse mesh and sets a boundary id from the position of the face; an id
that is not set is `0`, that is `Boundary::do_nothing`.  The faces themselves are those of the meshes deal.II creates
(`subdivided_hyper_rectangle`, `merge_triangulations`, `hyper_cube_with_cylindrical_hole`); they are listed here by the
position of their centre.  `double` is `ℝ`.  Not modelled: meshes read from a file (geometry_reader.h); the mesh of the
annulus is in `Model/Annulus`, and all boundary faces of the disk get the same id.
-/

namespace Ryujin
namespace Geometries

open Configuration (Boundary)

noncomputable section

/-! ### The rectangular domain -/

/-- Run-time parameters of `RectangularDomain` (geometry_rectangular_domain.h:38-115): the corners, the number of
subdivisions and the boundary conditions on the side of the small (`lo`: left, bottom, back) and of the large (`hi`: right,
top, front) coordinate in every direction. -/
structure Rectangle (dim : ℕ) where
  left : Vec dim
  right : Vec dim
  subdivisions : Fin dim → ℕ
  lo : Fin dim → Boundary
  hi : Fin dim → Boundary

open Classical in
/-- The id of the face with the given centre (geometry_rectangular_domain.h:163-182): the tests of all directions in turn,
each overwriting the previous one. -/
def Rectangle.boundaryId {dim : ℕ} (R : Rectangle dim) (position : Vec dim) : Boundary :=
  (List.finRange dim).foldl
    (fun id d =>
      let id1 := if position d < R.left d + 1 / 10 ^ 8 then R.lo d else id
      if position d > R.right d - 1 / 10 ^ 8 then R.hi d else id1)
    .do_nothing

/-- The check of one direction (geometry_rectangular_domain.h:188-196, 198-206, 208-216): `none` if it throws. -/
def Rectangle.periodicStep {dim : ℕ} (R : Rectangle dim) (acc : Option (List (Fin dim))) (d : Fin dim) :
    Option (List (Fin dim)) :=
  match acc with
  | none => none
  | some l =>
    if R.lo d = .periodic ∨ R.hi d = .periodic then
      if R.lo d = R.hi d then some (l ++ [d]) else none
    else some l

/-- The list of periodic directions (geometry_rectangular_domain.h:186-216). -/
def Rectangle.periodicDirections {dim : ℕ} (R : Rectangle dim) : Option (List (Fin dim)) :=
  (List.finRange dim).foldl R.periodicStep (some [])

/-- The midpoint of the `k`-th of `n` equal parts of `[a, b]`. (geometry_wall.h:49-53, geometry_step.h:47-52) -/
def mid (a b : ℝ) (n k : ℕ) : ℝ := a + ((k : ℝ) + 1 / 2) * ((b - a) / n)

/-- `subdivided_hyper_rectangle` (deal.II) orders the two corners. -/
def Rectangle.low {dim : ℕ} (R : Rectangle dim) : Vec dim := fun d => min (R.left d) (R.right d)

/-- The other corner of the rectangle (geometry_rectangular_domain.h:120-140). -/
def Rectangle.high {dim : ℕ} (R : Rectangle dim) : Vec dim := fun d => max (R.left d) (R.right d)

/-- The centre of the boundary face with normal in direction `d`, on the side of the large coordinate or not, of the cell
with the index `k` (deal.II `subdivided_hyper_rectangle`). -/
def Rectangle.faceCenter {dim : ℕ} (R : Rectangle dim) (d : Fin dim) (large : Bool) (k : Fin dim → ℕ) : Vec dim := fun e =>
  if e = d then (if large then R.high d else R.low d) else mid (R.low e) (R.high e) (R.subdivisions e) (k e)

/-! ### The wall of the double Mach reflection -/

/-- Run-time parameters of `Wall` (geometry_wall.h:108-122). -/
structure Wall where
  length : ℝ
  height : ℝ
  wallPosition : ℝ

open Classical in
/-- geometry_wall.h:76-89. -/
def Wall.boundaryId (W : Wall) (c : Vec 2) : Boundary :=
  if c 0 > W.wallPosition ∧ c 1 < 1 / 10 ^ 6 then .slip
  else if c 0 > W.length - 1 / 10 ^ 6 then .do_nothing
  else .dirichlet

/-- The boundary faces of the merged mesh (geometry_wall.h:49-57): 18 × 6 cells behind the wall position and 1 × 6 cells in
front of it. -/
inductive WallFace
  | left (k : Fin 6)
  | right (k : Fin 6)
  | topFront
  | topBack (i : Fin 18)
  | bottomFront
  | bottomBack (i : Fin 18)

/-- Their centres. (geometry_wall.h:49-55) -/
def Wall.center (W : Wall) : WallFace → Vec 2
  | .left k => ![0, mid 0 W.height 6 k]
  | .right k => ![W.length, mid 0 W.height 6 k]
  | .topFront => ![mid 0 W.wallPosition 1 0, W.height]
  | .topBack i => ![mid W.wallPosition W.length 18 i, W.height]
  | .bottomFront => ![mid 0 W.wallPosition 1 0, 0]
  | .bottomBack i => ![mid W.wallPosition W.length 18 i, 0]

/-! ### The Mach step -/

/-- Run-time parameters of `Step` (geometry_step.h:144-161). -/
structure Step where
  length : ℝ
  height : ℝ
  stepPosition : ℝ
  stepHeight : ℝ

open Classical in
/-- geometry_step.h:77-83. -/
def Step.boundaryId (S : Step) (c : Vec 2) : Boundary :=
  let id1 := if c 0 > 0 + 1 / 10 ^ 6 ∧ c 0 < S.length - 1 / 10 ^ 6 then Boundary.slip else .do_nothing
  if c 0 < 0 + 1 / 10 ^ 6 then .dirichlet else id1

/-- The `x` coordinates of the vertices of the upper block (15 × 4 cells) and of the lower block (3 × 1 cells) on their common
line (geometry_step.h:47-54). -/
def Step.upperVertex (S : Step) (i : ℕ) : ℝ := S.length * i / 15

/-- The `y` coordinates of the vertices of the lower block (geometry_step.h:47-52). -/
def Step.lowerVertex (S : Step) (j : ℕ) : ℝ := S.stepPosition * j / 3

/-- The boundary faces of the merged mesh, if the vertices of the two blocks match (geometry_step.h:47-57). -/
inductive StepFace
  | leftUpper (k : Fin 4)
  | leftLower
  | right (k : Fin 4)
  | top (i : Fin 15)
  | bottom (i : Fin 3)
  | stepFront
  | stepTop (i : Fin 12)

/-- Their centres. (geometry_step.h:47-55) -/
def Step.center (S : Step) : StepFace → Vec 2
  | .leftUpper k => ![0, mid S.stepHeight S.height 4 k]
  | .leftLower => ![0, mid 0 S.stepHeight 1 0]
  | .right k => ![S.length, mid S.stepHeight S.height 4 k]
  | .top i => ![mid 0 S.length 15 i, S.height]
  | .bottom i => ![mid 0 S.stepPosition 3 i, 0]
  | .stepFront => ![S.stepPosition, mid 0 S.stepHeight 1 0]
  | .stepTop i => ![mid 0 S.length 15 (i + 3), S.stepHeight]

open Classical in
/-- The displacement of the vertices of the cells that touch the corner of the step (geometry_step.h:116-126), after the mesh
has been refined four times. -/
def Step.moveVertex (S : Step) (v : Vec 2) : Vec 2 :=
  let x :=
    if |v 0 - S.stepPosition| < 1 / 10 ^ 6 ∧ v 1 > S.stepHeight - 1 / 10 ^ 6 then
      S.stepPosition + 0.0125 * (1 - Real.sqrt (1 / 2))
    else v 0
  let y :=
    if |v 1 - S.stepHeight| < 1 / 10 ^ 6 ∧ x < S.stepPosition + 0.005 then
      S.stepHeight - 0.0125 * (1 - Real.sqrt (1 / 2))
    else v 1
  ![x, y]

/-! ### The cylinder -/

/-- Run-time parameters of `Cylinder` (geometry_cylinder.h:229-249). -/
structure Cylinder where
  length : ℝ
  height : ℝ
  position : ℝ
  diameter : ℝ

open Classical in
/-- geometry_cylinder.h:127-140, 196-209. -/
def Cylinder.boundaryId {dim : ℕ} (C : Cylinder) (c : Vec (dim + 1)) : Boundary :=
  if c 0 > C.length - C.position - 1 / 10 ^ 6 then .do_nothing
  else if c 0 < -C.position + 1 / 10 ^ 6 then .dirichlet
  else .slip

open Classical in
/-- The left boundary is moved to its position (geometry_cylinder.h:102-107). -/
def Cylinder.fixLeft (C : Cylinder) (x : ℝ) : ℝ := if x ≤ -C.diameter + 1 / 10 ^ 6 then -C.position else x

/-- The boundary faces of the mesh (geometry_cylinder.h:55-94): on the left, on the right, above or below the block of the
cylinder (two faces), above or below the block behind it (six faces), and on the cylinder between the angles `kπ/4` and
`(k+1)π/4`. -/
inductive CylinderFace
  | left (y : ℝ)
  | right (y : ℝ)
  | channelFront (second top : Bool)
  | channelBack (i : Fin 6) (top : Bool)
  | cylinder (k : Fin 8)

/-- The `x` coordinate of their centres, after the left boundary has been moved. (geometry_cylinder.h:103-106, 127) -/
def Cylinder.centerX (C : Cylinder) : CylinderFace → ℝ
  | .left _ => C.fixLeft (-C.diameter)
  | .right _ => C.length - C.position
  | .channelFront second _ => if second then (0 + C.diameter) / 2 else (C.fixLeft (-C.diameter) + 0) / 2
  | .channelBack i _ => mid C.diameter (C.length - C.position) 6 i
  | .cylinder k =>
    (C.diameter / 2 * Real.cos (k * (Real.pi / 4)) + C.diameter / 2 * Real.cos ((k + 1) * (Real.pi / 4))) / 2

/-! ### The wave tank -/

/-- Run-time parameters of `WaveTank` (geometry_tank.h:135-155). -/
structure Tank where
  reservoirLength : ℝ
  reservoirWidth : ℝ
  flumeLength : ℝ
  flumeWidth : ℝ

/-- Their default values. (geometry_tank.h:139-156) -/
def defaultTank : Tank where
  reservoirLength := 157 / 100
  reservoirWidth := 8.1 / 100
  flumeLength := 600.78 / 100
  flumeWidth := 24 / 100

open Classical in
/-- geometry_tank.h:111-115. -/
def Tank.boundaryId (T : Tank) (c : Vec 2) : Boundary :=
  if c 0 > T.flumeLength - 1 / 10 ^ 8 then .dynamic else .slip

/-- The condition asserted at geometry_tank.h:53. -/
def Tank.Admissible (T : Tank) : Prop := T.reservoirWidth - T.flumeWidth > 1 / 10 ^ 8

/-- The boundary faces (geometry_tank.h:56-94): those of the reservoir, with an abscissa between `-reservoirLength` and `0`,
those along the flume, and those at its end. -/
inductive TankFace (n : ℕ)
  | reservoir (x y : ℝ)
  | flume (i : Fin n) (top : Bool)
  | finish (y : ℝ)

/-- Their centres; `n` is the number of subdivisions of the flume. (geometry_tank.h:63-90) -/
def Tank.center (T : Tank) {n : ℕ} : TankFace n → Vec 2
  | .reservoir x y => ![x, y]
  | .flume i top => ![mid 0 T.flumeLength n i, if top then T.flumeWidth / 2 else -T.flumeWidth / 2]
  | .finish y => ![T.flumeLength, y]

/-! ### The airfoil -/

/-- The quantities that enter the boundary ids of the airfoil (geometry_airfoil.h:944-948, 1343-1361). -/
structure AirfoilDomain where
  outerRadius : ℝ
  centerX : ℝ
  backLength : ℝ
  width : ℝ

/-- geometry_airfoil.h:1342-1344. -/
def AirfoilDomain.Outer {dim : ℕ} (A : AirfoilDomain) (v : Vec (dim + 2)) : Prop :=
  v 0 * v 0 + v 1 * v 1 ≥ A.outerRadius * A.outerRadius - 1 / 10 ^ 10 ∨ v 0 > A.centerX + 1.001 * A.backLength

open Classical in
/-- The id of a boundary face in two dimensions from its vertices (geometry_airfoil.h:1335-1379): `none` is
`__builtin_trap`. -/
def AirfoilDomain.boundaryId2 (A : AirfoilDomain) (vertices : List (Vec 2)) : Option Boundary :=
  if ∀ v ∈ vertices, A.Outer (dim := 0) v then some .dynamic
  else if ∀ v ∈ vertices, ¬ A.Outer (dim := 0) v then some .no_slip
  else none

open Classical in
/-- The same in three dimensions, with the periodic faces (geometry_airfoil.h:1350-1379). -/
def AirfoilDomain.boundaryId3 (A : AirfoilDomain) (vertices : List (Vec 3)) : Option Boundary :=
  if ¬ ((∃ v ∈ vertices, v 2 > 1 / 10 ^ 10) ∧ ∃ v ∈ vertices, v 2 < A.width - 1 / 10 ^ 10) then some .periodic
  else if ∀ v ∈ vertices, A.Outer (dim := 1) v then some .dynamic
  else if ∀ v ∈ vertices, ¬ A.Outer (dim := 1) v then some .no_slip
  else none

end

end Geometries
end Ryujin
