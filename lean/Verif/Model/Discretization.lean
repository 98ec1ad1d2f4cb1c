import Verif.Model.Configuration
import Mathlib.Data.Rat.Floor
import Mathlib.Data.List.FinRange
import Mathlib.Logic.Function.Iterate

/-!
# Discretization and mesh adaptation

`Discretization::prepare` (discretization.template.h:81-192), the marking of cells of the mesh adaptor
(mesh_adaptor.template.h:149-203), the mesh part of `read_checkpoint` (time_loop.template.h:463-465), and the list of
geometries (geometry_library.h:34-50).

The triangulation is a forest: every coarse cell carries a tree of cells with `k = 2^dim` children each. The place of
the corners of a child is computed from those of its parent by a function `split` (deal.II: manifolds; linear, or
transfinite, interpolation). The smoothing of flags by deal.II (`limit_level_difference_at_vertices`,
discretization.template.h:31-32) is not modelled: flags are the flags after smoothing.
-/

namespace Ryujin
namespace Discretize

/-! ### The triangulation -/

/-- A cell with its corners and its children: `dealii::Triangulation` as it is used in discretization.template.h:88-124.
`k` is the number of children and of corners, `2^dim`. -/
inductive Cell (k : ℕ) (P : Type)
  | leaf (corners : Fin k → P)
  | node (corners : Fin k → P) (children : Fin k → Cell k P)

/-- What a checkpoint stores of a coarse cell: `triangulation.save`/`load` (time_loop.template.h:465, 593) write and
read the refinement tree (p4est), and no places of corners. -/
inductive Shape (k : ℕ)
  | leaf
  | node (children : Fin k → Shape k)

/-- Flags set by `set_refine_flag`, `set_coarsen_flag` (mesh_adaptor.template.h:169, 192). -/
inductive Flag
  | none | refine | coarsen
  deriving DecidableEq

namespace Cell

variable {k : ℕ} {P : Type}

/-- The refinement tree below a cell. (time_loop.template.h:593) -/
def shape : Cell k P → Shape k
  | leaf _ => .leaf
  | node _ ch => .node fun i => (ch i).shape

/-- Is the cell active? (mesh_adaptor.template.h:168) -/
def isLeaf : Cell k P → Bool
  | leaf _ => true
  | node _ _ => false

/-- `triangulation.execute_coarsening_and_refinement()` (time_loop.template.h:666) on one tree: active cells with a refine
flag get `k` children; `k` active siblings that all have a coarsen flag are removed. The flag of a cell is looked up
under its path from the coarse cell. -/
def execute (split : (Fin k → P) → Fin k → Fin k → P) (flags : List (Fin k) → Flag) : Cell k P → Cell k P
  | leaf c => if flags [] = .refine then node c fun i => leaf (split c i) else leaf c
  | node c ch =>
    if ∀ i, (ch i).isLeaf = true ∧ flags [i] = .coarsen then leaf c
    else node c fun i => (ch i).execute split fun p => flags (i :: p)

/-- The paths to the active cells below a cell (mesh_adaptor.template.h:168, 174; simplified: depth first instead of
level by level). -/
def leaves : Cell k P → List (List (Fin k))
  | leaf _ => [[]]
  | node _ ch => (List.finRange k).flatMap fun i => (ch i).leaves.map (i :: ·)

/-- Move all corners: what `GridTools::distort_random` does (discretization.template.h:123-124). A vertex that is shared
by several cells, or by a cell and its parent, is one vertex. -/
def move (d : P → P) : Cell k P → Cell k P
  | leaf c => leaf fun i => d (c i)
  | node c ch => node (fun i => d (c i)) fun i => (ch i).move d

/-- Corners of a cell. (discretization.template.h:88) -/
def corners : Cell k P → Fin k → P
  | leaf c => c
  | node c _ => c

end Cell

variable {k n : ℕ} {P : Type}

/-- A triangulation with `n` coarse cells. (discretization.template.h:88) -/
abbrev Mesh (n k : ℕ) (P : Type) := Fin n → Cell k P

/-- The coarse mesh created by a geometry. (discretization.template.h:95) -/
def coarseMesh (corners : Fin n → Fin k → P) : Mesh n k P := fun c => .leaf (corners c)

/-- Flags of all cells, by coarse cell and path. (mesh_adaptor.template.h:166-197) -/
abbrev Flags (n k : ℕ) := Fin n → List (Fin k) → Flag

/-- `triangulation.execute_coarsening_and_refinement()` (time_loop.template.h:666). -/
def Mesh.execute (split : (Fin k → P) → Fin k → Fin k → P) (f : Flags n k) (M : Mesh n k P) : Mesh n k P :=
  fun c => (M c).execute split (f c)

/-- All cells are marked for refinement (mesh_adaptor.template.h:168-169). -/
def markAll : Flags n k := fun _ _ => .refine

/-- `triangulation.refine_global(refinement_)` (discretization.template.h:120): refines all cells that often. -/
def Mesh.refineGlobal (split : (Fin k → P) → Fin k → Fin k → P) (r : ℕ) (M : Mesh n k P) : Mesh n k P :=
  (Mesh.execute split markAll)^[r] M

/-- The active cells. (mesh_adaptor.template.h:168) -/
def Mesh.active (M : Mesh n k P) : List (Fin n × List (Fin k)) :=
  (List.finRange n).flatMap fun c => (M c).leaves.map fun p => (c, p)

/-- `triangulation.save` (time_loop.template.h:593). -/
def Mesh.save (M : Mesh n k P) : Fin n → Shape k := fun c => (M c).shape

/-- One tree of `triangulation.load` (time_loop.template.h:465): refine the cell until it has the stored tree. -/
def grow (split : (Fin k → P) → Fin k → Fin k → P) : Shape k → (Fin k → P) → Cell k P
  | .leaf, c => .leaf c
  | .node ch, c => .node c fun i => grow split (ch i) (split c i)

/-- `triangulation.load` (time_loop.template.h:465): the stored trees are grown on the coarse cells of the present
triangulation. -/
def Mesh.load (split : (Fin k → P) → Fin k → Fin k → P) (s : Fin n → Shape k) (M : Mesh n k P) : Mesh n k P :=
  fun c => grow split (s c) (M c).corners

/-! ### Discretization::prepare -/

/-- A member of `geometry_list_`: its name and the coarse mesh it creates (geometry.h:30-65); all coarse meshes of the
model have the same number of cells, which only serves to avoid a dependent type. -/
structure GeometryEntry (n k : ℕ) (P : Type) where
  name : String
  create : Fin n → Fin k → P

/-- Names of the geometries (geometry_library.h:41-49; geometry_airfoil.h:827, geometry_annulus.h:245,
geometry_cylinder.h:230, geometry_disk.h:27, geometry_reader.h:30, geometry_rectangular_domain.h:39,
geometry_step.h:145, geometry_wall.h:109, geometry_tank.h:136). -/
def geometryNames : List String :=
  ["airfoil", "annulus", "cylinder", "disk", "reader", "rectangular domain", "step", "wall", "wave tank"]

/-- Run time parameters (discretization.template.h:51-75). -/
structure Parameters where
  ansatz : Configuration.Ansatz
  geometry : String
  refinement : ℕ
  writeout : Bool
  distortion : ℚ

/-- `std::find`-like loop over `geometry_list_` (discretization.template.h:92-98): the first entry with the name. The
list is a `std::set` of pointers (discretization.h:351): its order is that of addresses. -/
def lookup (name : String) : List (GeometryEntry n k P) → Option (GeometryEntry n k P)
  | [] => none
  | g :: gs => if g.name = name then some g else lookup name gs

/-- What `prepare` leaves behind: the triangulation and the file with the coarse mesh.
(discretization.template.h:106-124) -/
structure Prepared (n k : ℕ) (P : Type) where
  mesh : Mesh n k P
  /-- `base_name + "-coarse_grid.msh"` -/
  file : Option (String × Mesh n k P)

/-- `Discretization::prepare` (discretization.template.h:81-124) on MPI rank `rank`. `none`: exception "Could not find a
geometry description". `noise a seed M` is the displacement chosen by `GridTools::distort_random` with strength `a` and
seed `seed`; `seed` is the value of `std::random_device()()`. -/
def prepare (split : (Fin k → P) → Fin k → Fin k → P) (noise : ℚ → ℕ → Mesh n k P → P → P)
    (list : List (GeometryEntry n k P)) (p : Parameters) (base : String) (rank seed : ℕ) : Option (Prepared n k P) :=
  (lookup p.geometry list).map fun g =>
    let M := coarseMesh g.create
    let file := if p.writeout && rank == 0 then some (base ++ "-coarse_grid.msh", M) else none
    let R := M.refineGlobal split p.refinement
    { file := file
      mesh := if |p.distortion| > 1 / 10000000000 then fun c => (R c).move (noise p.distortion seed R) else R }

/-- `read_checkpoint`, the part for the mesh (time_loop.template.h:463-465). -/
def resume (split : (Fin k → P) → Fin k → Fin k → P) (noise : ℚ → ℕ → Mesh n k P → P → P)
    (list : List (GeometryEntry n k P)) (p : Parameters) (base : String) (rank seed : ℕ)
    (saved : Fin n → Shape k) : Option (Mesh n k P) :=
  (prepare split noise list { p with refinement := 0 } base rank seed).map fun q => q.mesh.load split saved

/-! ### Finite element and quadratures -/

/-- Polynomial degree of `finite_element_` (discretization.template.h:126-148). -/
def degree : Configuration.Ansatz → ℕ
  | .cg_q1 => 1
  | .cg_q2 => 2
  | .cg_q3 => 3
  | .dg_q0 => 0
  | .dg_q1 => 1
  | .dg_q2 => 2
  | .dg_q3 => 3

/-- `FE_DGQ` instead of `FE_Q` (discretization.template.h:126-148). -/
def isDGQ : Configuration.Ansatz → Bool
  | .cg_q1 | .cg_q2 | .cg_q3 => false
  | .dg_q0 | .dg_q1 | .dg_q2 | .dg_q3 => true

/-- `have_discontinuous_ansatz` (discretization.h:247-270). -/
def haveDiscontinuousAnsatz : Configuration.Ansatz → Bool
  | .cg_q1 => false
  | .cg_q2 => false
  | .cg_q3 => false
  | .dg_q0 => true
  | .dg_q1 => true
  | .dg_q2 => true
  | .dg_q3 => true

/-- Degree of `mapping_` (discretization.template.h:152, 164, 174, 184). -/
def mappingDegree : Configuration.Ansatz → ℕ
  | .dg_q0 => 1
  | .cg_q1 | .dg_q1 => 1
  | .cg_q2 | .dg_q2 => 2
  | .cg_q3 | .dg_q3 => 3

/-- Number of points per direction of `quadrature_` (discretization.template.h:153, 165, 175, 185); the same for
`quadrature_1d_` and `face_quadrature_` (lines 154-155, 166-167, 176-177, 186-187). -/
def gaussPoints : Configuration.Ansatz → ℕ
  | .dg_q0 => 1
  | .cg_q1 | .dg_q1 => 2
  | .cg_q2 | .dg_q2 => 3
  | .cg_q3 | .dg_q3 => 4

/-- Number of points per direction of `face_nodal_quadrature_` (discretization.template.h:156-159, 168-169, 178-179,
188-189): the midpoint for degree zero, Gauss-Lobatto points otherwise. -/
def nodalPoints : Configuration.Ansatz → ℕ
  | .dg_q0 => 1
  | .cg_q1 | .dg_q1 => 2
  | .cg_q2 | .dg_q2 => 3
  | .cg_q3 | .dg_q3 => 4

/-! ### Marking of cells -/

/-- `GridRefinement::refine_and_coarsen_fixed_number` (called in mesh_adaptor.template.h:192-196) for one cell: with
`R = ⌊fraction * n⌋` the cells with an indicator not below the `R`-th largest are refined, i.e. those for which fewer
than `R` indicators are larger; of the others those with an indicator not above the `C`-th smallest are coarsened. -/
def fixedNumber (refinement coarsening : ℚ) (indicators : List ℚ) (x : ℚ) : Flag :=
  if (indicators.filter fun y => decide (y > x)).length < ⌊refinement * indicators.length⌋₊ then .refine
  else if (indicators.filter fun y => decide (y < x)).length < ⌊coarsening * indicators.length⌋₊ then .coarsen
  else .none

/-- Parameters of the mesh adaptor (mesh_adaptor.template.h:28-69). -/
structure AdaptorParameters where
  strategy : Configuration.AdaptationStrategy
  refinement : ℚ
  coarsening : ℚ

/-- Flags of the cells that are listed with their marks; cells that are not listed have no flag.
(mesh_adaptor.template.h:192-196) -/
def flagsOf (marks : List ((Fin n × List (Fin k)) × Flag)) : Flags n k :=
  fun c p => ((marks.find? fun m => m.1 = (c, p)).map Prod.snd).getD .none

/-- `mark_cells_for_coarsening_and_refinement` (mesh_adaptor.template.h:149-203) followed by
`execute_coarsening_and_refinement` (time_loop.template.h:666), on one MPI rank. `stream` is the sequence of numbers that
the seeded Mersenne twister delivers (line 83), `drawn` the count of numbers drawn so far. -/
def adapt (split : (Fin k → P) → Fin k → Fin k → P) (a : AdaptorParameters) (stream : ℕ → ℚ)
    (σ : ℕ × Mesh n k P) : ℕ × Mesh n k P :=
  match a.strategy with
  | .global_refinement => (σ.1, σ.2.execute split markAll)
  | .random_adaptation =>
    let cells := σ.2.active
    let indicators := (List.range cells.length).map fun i => stream (σ.1 + i)
    let marks := (cells.zip indicators).map fun m => (m.1, fixedNumber a.refinement a.coarsening indicators m.2)
    (σ.1 + cells.length, σ.2.execute split (flagsOf marks))

end Discretize
end Ryujin
