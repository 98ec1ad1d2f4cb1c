import Verif.Model.Tensor
import Mathlib.Analysis.SpecialFunctions.Trigonometric.Basic

/-!
# Model of the mesh of the annulus (source/geometry_annulus.h)

The geometry meshes a square, with a ring of cells between two radii, refines the mesh twice and removes those cells of the
ring that make up an obstacle.  Modelled: the ring, the cells that touch it from outside, and the decision which cells are
removed.  `double` is `ℝ`, `numbers::PI` is `π`.  Simplifications: the position of the vertices of the ring is that of deal.II's
`hyper_shell` refined with a `SphericalManifold` (halving angles and radii), the centre of a face is the mean of its vertices.
Not modelled: the inner ball and the outer shell (deal.II) apart from the face they share with the ring, merging the three
triangulations, manifold ids.  All boundary faces get the id `Boundary::slip` (geometry_annulus.h:199-210), those of the disk
the configured one (geometry_disk.h:62-72).
-/

namespace Ryujin
namespace Annulus

noncomputable section

/-- Run-time parameters (geometry_annulus.h:245-265); `length` does not matter for the ring. -/
structure Parameters where
  innerRadius : ℝ
  outerRadius : ℝ
  angle : ℝ

/-- The default values (geometry_annulus.h:252-261). -/
def defaults : Parameters := ⟨0.6, 0.7, 45⟩

/-- The point with radius `r` on the `k`-th of the 128 rays: `hyper_shell` with 32 cells (geometry_annulus.h:108-110),
refined twice (geometry_annulus.h:151). -/
def point (r : ℝ) (k : ℕ) : Vec 2 :=
  ![r * Real.cos (2 * Real.pi * k / 128), r * Real.sin (2 * Real.pi * k / 128)]

/-- Radius of the `j`-th of the five circles of the refined ring (geometry_annulus.h:108-110, 151). -/
def Parameters.radius (A : Parameters) (j : ℕ) : ℝ :=
  A.innerRadius + (A.outerRadius - A.innerRadius) * (j / 4)

/-- `face->center()` (geometry_annulus.h:161): the mean of the vertices. -/
def center (v w : Vec 2) : Vec 2 := fun i => (v i + w i) / 2

/-- A cell of the refined ring: between the rays `k` and `k + 1` and the circles `j` and `j + 1`
(geometry_annulus.h:108-110, 151). -/
structure Cell where
  k : Fin 128
  j : Fin 4

/-- Its vertices (geometry_annulus.h:108-110). -/
def Parameters.vertex (A : Parameters) (c : Cell) (ray circle : Fin 2) : Vec 2 :=
  point (A.radius (c.j + circle)) (c.k + ray)

/-- Centres of its four faces (geometry_annulus.h:159-161): on the two rays and on the two circles. -/
def Parameters.faces (A : Parameters) (c : Cell) : List (Vec 2) :=
  [center (A.vertex c 0 0) (A.vertex c 0 1), center (A.vertex c 1 0) (A.vertex c 1 1),
   center (A.vertex c 0 0) (A.vertex c 1 0), center (A.vertex c 0 1) (A.vertex c 1 1)]

/-- The face a cell around the ring shares with the ring, between the rays `k` and `k + 1` (geometry_annulus.h:112-139). -/
def Parameters.rimFace (A : Parameters) (k : Fin 128) : Vec 2 :=
  center (point A.outerRadius k) (point A.outerRadius (k + 1))

/-- `in_anulus` (geometry_annulus.h:162-167, `position.norm()`). -/
def Parameters.inAnnulus (A : Parameters) (x : Vec 2) : Prop :=
  vnorm x - A.innerRadius > 1 / 10 ^ 8 ∧ A.outerRadius - vnorm x > 1 / 10 ^ 3

/-- `partial_annulus` (geometry_annulus.h:169-173). -/
def Parameters.partialAnnulus (A : Parameters) (x : Vec 2) : Prop :=
  |x 1| - |x 0| * Real.tan (Real.pi / 180 * A.angle) < 1 / 10 ^ 8

/-- A cell is removed if one of its faces passes both tests (geometry_annulus.h:158-179). -/
def Parameters.Removed (A : Parameters) (faces : List (Vec 2)) : Prop :=
  ∃ x ∈ faces, A.inAnnulus x ∧ A.partialAnnulus x

end

end Annulus
end Ryujin
