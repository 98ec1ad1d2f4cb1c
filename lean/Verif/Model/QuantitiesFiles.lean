import Verif.Model.Quantities
import Mathlib.Data.Nat.Digits.Defs
import Mathlib.Algebra.Order.Group.Unbundled.Abs

/-!
# Model of the files of `Quantities` (source/quantities.template.h)

`Model/Quantities` describes what is accumulated and which files are written when; here the points of the manifolds,
the names of the files and their content are added, for any number of MPI ranks.

Simplifications: the numbers printed in a line are represented by the data they are printed from; the header lines
with the names of the components are one constant line; the local part of a vector of point values is a function
of rank and position in the list of points of this rank.
-/

namespace Ryujin
namespace Quantities
namespace Files

noncomputable section

/-! ### The points of the manifolds -/

/-- What one MPI rank knows about the mesh: the active cells (locally owned or not) with the local indices of their
degrees of freedom and the positions of their support points, the number of locally owned indices, the row lengths
of the sparsity pattern and the lumped mass matrix. (quantities.template.h:101-102, 122-165) -/
structure RankMesh (X : Type) where
  cells : List (Bool × List (ℕ × X))
  n_owned : ℕ
  row_length : ℕ → ℕ
  lumped_mass : ℕ → ℝ

/-- An `interior_point`: index, mass and position. (quantities.h:168-171) -/
structure InteriorPoint (X : Type) where
  index : ℕ
  mass : ℝ
  position : X

/-- The body of the loop over the degrees of freedom of a cell (quantities.template.h:139-172). -/
def visit {X : Type} (level_set : X → ℝ) (M : RankMesh X) (preliminary_map : ℕ → Option (InteriorPoint X))
    (dof : ℕ × X) : ℕ → Option (InteriorPoint X) :=
  if |level_set dof.2| > 1e-12 then preliminary_map
  else if M.row_length dof.1 = 1 then preliminary_map
  else if dof.1 ≥ M.n_owned then preliminary_map
  else Function.update preliminary_map dof.1 (some ⟨dof.1, M.lumped_mass dof.1, dof.2⟩)

/-- The interior map of one manifold on one rank (quantities.template.h:112-183): loop over the cells, then copy the
`std::map`, which is sorted by index, into a vector. All indices inserted are below `n_owned`. -/
def interiorMap {X : Type} (level_set : X → ℝ) (M : RankMesh X) : List (InteriorPoint X) :=
  let preliminary_map := M.cells.foldl
    (fun m cell => if !cell.1 then m else cell.2.foldl (visit level_set M) m) (fun _ => none)
  (List.range M.n_owned).filterMap preliminary_map

/-- A `boundary_point`: index, normal, normal mass, boundary mass, boundary id and position; the three numbers and the
normal are kept together. (quantities.h:124-130) -/
structure BoundaryPoint (X : Type) where
  index : ℕ
  data : List ℝ
  position : X

open Classical in
/-- The boundary map of one manifold on one rank (quantities.template.h:196-226). -/
def boundaryMap {X : Type} (level_set : X → ℝ) (n_owned : ℕ) (is_constrained : ℕ → Bool)
    (boundary_map : List (BoundaryPoint X)) : List (BoundaryPoint X) :=
  boundary_map.foldl (fun map entry =>
    if entry.index ≥ n_owned then map
    else if is_constrained entry.index then map
    else if |level_set entry.position| < 1e-12 then map ++ [entry]
    else map) []

/-! ### Files -/

/-- `dealii::Utilities::to_string(cycle, 4)`: decimal digits, padded with zeros to at least four digits.
(quantities.template.h:276, 594, 648) -/
def toString4 (n : ℕ) : String :=
  let digits := if n = 0 then [0] else Nat.digits 10 n
  String.ofList ((digits ++ List.replicate (4 - digits.length) 0).reverse.map Nat.digitChar)

/-- The four types of files. (quantities.template.h:276, 602, 626, 649) -/
inductive Kind
  | points
  | instantaneous
  | timeAveraged
  | series
  deriving DecidableEq

/-- The ends of the file names. (quantities.template.h:276, 602, 626, 649) -/
def Kind.suffix : Kind → String
  | points => "-points.dat"
  | instantaneous => "-instantaneous.dat"
  | timeAveraged => "-time_averaged.dat"
  | series => "-space_averaged_time_series.dat"

/-- The name of a file. (quantities.template.h:275-276, 593-594, 602, 626, 646-649) -/
def fileName (base name : String) (cycle : ℕ) (kind : Kind) : String :=
  base ++ "-" ++ name ++ "-R" ++ toString4 cycle ++ kind.suffix

/-- One line of a file. (quantities.template.h:280-289, 440-452, 472-482) -/
inductive Line (P W A : Type)
  /-- "# position ..." or the description of the state -/
  | header
  /-- "# at t = ..." -/
  | timeStamp (t : ℝ)
  /-- "# averaged from t = ... to t = ..." -/
  | averaged (t₀ t₁ : ℝ)
  /-- "# rank ..." -/
  | rank (r : ℕ)
  /-- position, masses and normal of a point -/
  | point (p : P)
  /-- state and second moments of a point -/
  | value (w : W)
  /-- an entry of a time series -/
  | sample (t : ℝ) (a : A)

variable {P W A : Type}

/-- The files in the working directory. (std::ofstream, quantities.template.h:275, 441, 464-470) -/
abbrev Disk (P W A : Type) := String → Option (List (Line P W A))

/-- Write a file; an existing one is replaced. (std::ofstream, quantities.template.h:275, 441, 469) -/
def Disk.put (d : Disk P W A) (path : String) (lines : List (Line P W A)) : Disk P W A :=
  Function.update d path (some lines)

/-- The points of manifold `k` on all ranks, as set up by `prepare`. (quantities.h:135, 176) -/
abbrev Mesh (P : Type) := ℕ → List (List P)

/-- The body of a points file, gathered from all ranks (quantities.template.h:270-290, 312-333). -/
def pointLines (points : List (List P)) : List (Line P W A) :=
  points.zipIdx.flatMap fun r => Line.rank r.2 :: r.1.map Line.point

/-- The body of a file with point values, gathered from all ranks (quantities.template.h:436-456). -/
def valueLines (points : List (List P)) (x : ℕ → ℕ → W) : List (Line P W A) :=
  points.zipIdx.flatMap fun r => Line.rank r.2 :: (List.range r.1.length).map fun i => Line.value (x r.2 i)

/-- The parameters of the class: base name, and name and options of all manifolds, interior ones first.
(quantities.h:96-102, 204) -/
structure Setup where
  base : String
  manifolds : List (String × Options)

/-- The name of manifold number `k` (quantities.template.h:255, 298, 589). -/
def Setup.name (S : Setup) (k : ℕ) : String := (S.manifolds[k]?.map Prod.fst).getD ""

/-- `write_mesh_files` (quantities.template.h:249-336). -/
def writeMeshFiles (S : Setup) (mesh : Mesh P) (cycle : ℕ) (d : Disk P W A) : Disk P W A :=
  S.manifolds.zipIdx.foldl (fun d m =>
    if !m.1.2.instantaneous && !m.1.2.time_averaged then d
    else d.put (fileName S.base m.1.1 cycle .points) (Line.header :: pointLines (mesh m.2))) d

/-- `internal_write_out` and `internal_write_out_time_series` (quantities.template.h:427-490): what the write
operations of `write_out` do to the files. -/
def apply (S : Setup) (mesh : Mesh P) (d : Disk P W A) : Event (ℕ → ℕ → W) A → Disk P W A
  | .instantaneous k cycle t x =>
    d.put (fileName S.base (S.name k) cycle .instantaneous)
      (Line.timeStamp t :: Line.header :: valueLines (mesh k) x)
  | .timeAveraged k cycle t₀ t₁ x =>
    d.put (fileName S.base (S.name k) cycle .timeAveraged)
      (Line.averaged t₀ t₁ :: Line.header :: valueLines (mesh k) x)
  | .series k cycle append entries =>
    let path := fileName S.base (S.name k) cycle .series
    let lines := entries.map fun e => Line.sample e.1 e.2
    if append then d.put path ((d path).getD [] ++ lines) else d.put path (Line.header :: lines)

variable [AddCommGroup W] [Module ℝ W]

/-- The vectors `val_new` filled by `internal_accumulate` (quantities.template.h:377-405) on all ranks, together with
the spatial average; `u r i` is the pair of primitive state and second moments for index `i` on rank `r`. -/
def observe (index : P → ℕ) (average : ℕ → Mesh P → (ℕ → ℕ → W) → A) (k : ℕ) (s : Mesh P × (ℕ → ℕ → W)) :
    (ℕ → ℕ → W) × A :=
  (fun r i => match ((s.1 k)[r]?.getD [])[i]? with
    | some p => s.2 r (index p)
    | none => 0,
   average k s.1 s.2)

/-- The members of the class and the files. (quantities.h:135-214) -/
structure FState (P W A : Type) where
  core : State (ℕ → ℕ → W) A
  mesh : Mesh P
  mesh_files_have_been_written : Bool
  disk : Disk P W A

/-- Calls of the class; `prepare` is called with the current mesh. (quantities.h:55-92) -/
inductive FOp (P W : Type)
  | prepare (mesh : Mesh P)
  | accumulate (t : ℝ) (u : ℕ → ℕ → W)
  | writeOut (t : ℝ) (u : ℕ → ℕ → W) (cycle : ℕ)

/-- One call (quantities.template.h:91-245, 494-562, 565-682). -/
def FState.call (S : Setup) (clearing : Bool) (index : P → ℕ) (average : ℕ → Mesh P → (ℕ → ℕ → W) → A)
    (σ : FState P W A) : FOp P W → Option (FState P W A)
  | .prepare mesh => some ⟨σ.core.prepare, mesh, false, σ.disk⟩
  | .accumulate t u => some { σ with core := σ.core.accumulate (observe index average) t (σ.mesh, u) }
  | .writeOut t u cycle =>
    let disk := if σ.mesh_files_have_been_written then σ.disk else writeMeshFiles S σ.mesh cycle σ.disk
    (σ.core.writeOut (observe index average) clearing t (σ.mesh, u) cycle).map fun r =>
      ⟨r.1, σ.mesh, true, r.2.foldl (apply S σ.mesh) disk⟩

/-- A sequence of calls. (time_loop.template.h:255, 308-340) -/
def FState.calls (S : Setup) (clearing : Bool) (index : P → ℕ) (average : ℕ → Mesh P → (ℕ → ℕ → W) → A) :
    FState P W A → List (FOp P W) → Option (FState P W A)
  | σ, [] => some σ
  | σ, o :: os => (σ.call S clearing index average o).bind fun σ' => FState.calls S clearing index average σ' os

/-- The state after the first call of `prepare`, in a directory with the given files.
(quantities.template.h:91-245) -/
def begin (S : Setup) (mesh : Mesh P) (disk : Disk P W A) : FState P W A :=
  ⟨start (S.manifolds.map Prod.snd), mesh, false, disk⟩

end

end Files
end Quantities
end Ryujin
