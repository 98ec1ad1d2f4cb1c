import Verif.Model.HyperbolicStep
import Mathlib.Analysis.SpecialFunctions.Pow.Real
import Mathlib.LinearAlgebra.Matrix.NonsingularInverse

/-!
# Model of `OfflineData::assemble` (offline_data.template.h:419-1105)

The matrices are modelled in the global view: one index per degree of freedom of the whole mesh, and sums over the cells
of all ranks (without Trilinos every rank assembles its ghost layer as well and the rows of the owner overwrite the ghost
rows afterwards; the exchange is the subject of C30).  `WorkStream` runs the copies of the cells one after the other; as
numbers are real the order does not matter.

deal.II is modelled by what it delivers: shape functions, gradients and `JxW` at the quadrature points, the neighbours of
the faces, the `AffineConstraints`, and `distribute_local_to_global`.  Which properties of these the theorems need is
stated in `FeData.Consistent` and `FeData.Conforming` (Spec/Assembly).  Numbers are real; `eps` is the machine epsilon.
-/

namespace Ryujin
namespace Assembly

noncomputable section

open Classical

/-- What deal.II delivers (external): cells `κ`, `n` degrees of freedom, `s` of them per cell, `nq` quadrature points,
`nf` faces per cell with `nfq` quadrature points and `nn` nodal points. -/
structure FeData (κ : Type) (n s nq nf nfq nn dim : ℕ) where
  /-- `get_dof_indices` -/
  dofs : κ → Fin s → Fin n
  /-- `fe_values.shape_value(i, q)` -/
  value : κ → Fin nq → Fin s → ℝ
  /-- `fe_values.shape_grad(i, q)` -/
  grad : κ → Fin nq → Fin s → Vec dim
  /-- `fe_values.JxW(q)` -/
  JxW : κ → Fin nq → ℝ
  /-- `neighbor_or_periodic_neighbor(f)` and the number of the face seen from there; `none` at the boundary -/
  neighbor : κ → Fin nf → Option (κ × Fin nf)
  /-- `fe_face_values.shape_value(i, q)`; also what `fe_neighbor_face_values` returns on the neighbour -/
  faceValue : κ → Fin nf → Fin nfq → Fin s → ℝ
  /-- `fe_face_values.JxW(q)` -/
  faceJxW : κ → Fin nf → Fin nfq → ℝ
  /-- `fe_face_values.get_normal_vectors()[q]` -/
  normal : κ → Fin nf → Fin nfq → Vec dim
  /-- `fe_face_values_nodal.shape_value(i, q)` -/
  nodalValue : κ → Fin nf → Fin nn → Fin s → ℝ
  /-- `fe.has_support_on_face(i, f)` -/
  supportOnFace : Fin s → Fin nf → Prop
  /-- `AffineConstraints::is_constrained` -/
  constrained : Fin n → Prop
  /-- the entries of the (closed) constraints -/
  coef : Fin n → Fin n → ℝ
  /-- what `distribute_local_to_global` puts on the diagonal of the row of a constrained degree of freedom -/
  diagonal : Fin n → ℝ
  /-- `discretization_->have_discontinuous_ansatz()` -/
  dG : Bool

/-- `incidence_relaxation_even_`, `incidence_relaxation_odd_`, whether the polynomial degree is even (`dg_q0` or `dg_q2`)
and the machine epsilon. (offline_data.template.h:46-60) -/
structure IncidenceParams where
  even_relaxation : ℝ
  odd_relaxation : ℝ
  even_degree : Bool
  eps : ℝ

variable {κ : Type} {n s nq nf nfq nn dim : ℕ}

/-- `cell_mass_matrix` (offline_data.template.h:560-574). -/
def cellMass (F : FeData κ n s nq nf nfq nn dim) (K : κ) (i j : Fin s) : ℝ :=
  ∑ q, F.value K q i * (F.value K q j * F.JxW K q)

/-- `cell_measure` (offline_data.template.h:563-564). -/
def cellMeasure (F : FeData κ n s nq nf nfq nn dim) (K : κ) : ℝ := ∑ q, F.JxW K q

/-- The face contribution to `cell_cij_matrix` (offline_data.template.h:584-627). -/
def faceC (F : FeData κ n s nq nf nfq nn dim) (K : κ) (f : Fin nf) (i j : Fin s) : Vec dim := fun d =>
  if (F.neighbor K f).isSome then
    ∑ q, (1 / 2) * F.normal K f q d * F.faceValue K f q i * (F.faceValue K f q j * F.faceJxW K f q)
  else 0

/-- `cell_cij_matrix` (offline_data.template.h:566-578 and 584-627). -/
def cellC (F : FeData κ n s nq nf nfq nn dim) (K : κ) (i j : Fin s) : Vec dim := fun d =>
  (∑ q, F.value K q i * (F.grad K q j d * F.JxW K q)) - if F.dG then ∑ f, faceC F K f i j d else 0

/-- `interface_cij_matrix[f_index]` (offline_data.template.h:629-661): `i` belongs to the cell and `j` to its
neighbour. -/
def interfaceC (F : FeData κ n s nq nf nfq nn dim) (K : κ) (f : Fin nf) (i j : Fin s) : Vec dim := fun d =>
  match F.neighbor K f with
  | none => 0
  | some (K', f') =>
    ∑ q, (1 / 2) * F.normal K f q d * F.faceValue K f q i * (F.faceValue K' f' q j * F.faceJxW K f q)

/-- `cell_mass_matrix_inverse` (offline_data.template.h:664-671). -/
def cellMassInv (F : FeData κ n s nq nf nfq nn dim) (K : κ) : Matrix (Fin s) (Fin s) ℝ :=
  (Matrix.of fun i j => cellMass F K i j)⁻¹

/-- How a degree of freedom depends on the unconstrained ones (deal.II `AffineConstraints`). -/
def expand (F : FeData κ n s nq nf nfq nn dim) (i k : Fin n) : ℝ :=
  if F.constrained i then F.coef i k else if i = k then 1 else 0

/-- `AffineConstraints::distribute_local_to_global` of a local matrix with the given rows and columns (deal.II). -/
def distribute (F : FeData κ n s nq nf nfq nn dim) (rows cols : Fin s → Fin n) (loc : Fin s → Fin s → ℝ)
    (k l : Fin n) : ℝ :=
  ∑ i, ∑ j, expand F (rows i) k * loc i j * expand F (cols j) l

/-- `mass_matrix_tmp` (offline_data.template.h:701-702). -/
def massMatrix [Fintype κ] (F : FeData κ n s nq nf nfq nn dim) (k l : Fin n) : ℝ :=
  (∑ K, distribute F (F.dofs K) (F.dofs K) (cellMass F K) k l) +
    if F.constrained k ∧ k = l then F.diagonal k else 0

/-- `interface_cij_matrix[f_index]` distributed to the rows of the cell and the columns of its neighbour
(offline_data.template.h:708-716). -/
def interfaceTerm (F : FeData κ n s nq nf nfq nn dim) (loc : κ → Fin nf → Fin s → Fin s → ℝ) (K : κ) (f : Fin nf)
    (k l : Fin n) : ℝ :=
  match F.neighbor K f with
  | none => 0
  | some (K', _) => distribute F (F.dofs K) (F.dofs K') (loc K f) k l

/-- `cij_matrix_tmp` (offline_data.template.h:704-718); rows of constrained degrees of freedom are never read. -/
def cMatrix [Fintype κ] (F : FeData κ n s nq nf nfq nn dim) (k l : Fin n) : Vec dim := fun d =>
  (∑ K, distribute F (F.dofs K) (F.dofs K) (fun i j => cellC F K i j d) k l) +
    if F.dG then ∑ K, ∑ f, interfaceTerm F (fun K f i j => interfaceC F K f i j d) K f k l else 0

/-- `mass_matrix_inverse_tmp` (offline_data.template.h:720-724). -/
def massInvMatrix [Fintype κ] (F : FeData κ n s nq nf nfq nn dim) (k l : Fin n) : ℝ :=
  ∑ K, distribute F (F.dofs K) (F.dofs K) (cellMassInv F K) k l

/-- `measure_of_omega_` (offline_data.template.h:726, 762-763). -/
def measure [Fintype κ] (F : FeData κ n s nq nf nfq nn dim) : ℝ := ∑ K, cellMeasure F K

/-- `lumped_mass_matrix_` (offline_data.template.h:769-808): `one` is zero at constrained degrees of freedom. -/
def lumpedMass [Fintype κ] (F : FeData κ n s nq nf nfq nn dim) (k : Fin n) : ℝ :=
  ∑ l, massMatrix F k l * (if F.constrained l then 0 else 1)

/-- `r_ij` (offline_data.template.h:892-919). -/
def incidenceWeight [Fintype κ] (F : FeData κ n s nq nf nfq nn dim) (ip : IncidenceParams) (k l : Fin n) : ℝ :=
  let hd_ij := (1 / 2) * (lumpedMass F k + lumpedMass F l) / measure F
  if ip.even_degree then hd_ij ^ (ip.even_relaxation / dim) else hd_ij ^ (ip.odd_relaxation / dim)

/-- `interface_incidence_matrix[f_index]` (offline_data.template.h:879-924). -/
def interfaceIncidence [Fintype κ] (F : FeData κ n s nq nf nfq nn dim) (ip : IncidenceParams) (K : κ) (f : Fin nf)
    (i j : Fin s) : ℝ :=
  match F.neighbor K f with
  | none => 0
  | some (K', f') =>
    ∑ q, if |F.nodalValue K f q i * F.nodalValue K' f' q j| > 100 * ip.eps then
      incidenceWeight F ip (F.dofs K i) (F.dofs K' j) else 0

/-- `incidence_matrix_tmp` (offline_data.template.h:952-961). -/
def incidenceMatrix [Fintype κ] (F : FeData κ n s nq nf nfq nn dim) (ip : IncidenceParams) (k l : Fin n) : ℝ :=
  ∑ K, ∑ f, interfaceTerm F (interfaceIncidence F ip) K f k l

/-- `AffineConstraints::add_entries_local_to_global` adds the pair `k`, `l` (deal.II, with
`keep_constrained_entries == false`). -/
def couples (F : FeData κ n s nq nf nfq nn dim) (rows cols : Fin s → Fin n) (rowSel colSel : Fin s → Prop)
    (k l : Fin n) : Prop :=
  ∃ i j, rowSel i ∧ colSel j ∧ expand F (rows i) k ≠ 0 ∧ expand F (cols j) l ≠ 0

/-- The sparsity pattern: `DoFTools::make_sparsity_pattern` for a continuous ansatz and
`make_extended_sparsity_pattern_dg` (local_index_handling.h:436-508, offline_data.template.h:139-164) otherwise. -/
def inPattern (F : FeData κ n s nq nf nfq nn dim) (k l : Fin n) : Prop :=
  (∃ K, couples F (F.dofs K) (F.dofs K) (fun _ => True) (fun _ => True) k l) ∨
  (F.dG = true ∧ ∃ K f K' f', F.neighbor K f = some (K', f') ∧
    couples F (F.dofs K) (F.dofs K') (fun i => F.supportOnFace i f) (fun j => F.supportOnFace j f') k l)

/-- The unconstrained degrees of freedom; the rows of the others have length one and are skipped.
(offline_data.template.h:585, hyperbolic_module.template.h:374-376) -/
abbrev Dof (F : FeData κ n s nq nf nfq nn dim) := {k : Fin n // ¬ F.constrained k}

/-- The off-diagonal columns of a row (sparse_matrix_simd.template.h:53-138 stores the diagonal first). -/
def stencil (F : FeData κ n s nq nf nfq nn dim) (k : Dof F) : List (Dof F) :=
  (Finset.univ.filter fun l : Dof F => l ≠ k ∧ inPattern F k l).toList

/-- The data handed to the hyperbolic module.  The numbering, i.e. which columns are "below the diagonal", and the
boundary flags are the subject of C28, C29 and C31. (offline_data.h:316-330) -/
def assembled [Fintype κ] (F : FeData κ n s nq nf nfq nn dim) (ip : IncidenceParams) (below skip : Dof F → Dof F → Prop)
    (boundary : Dof F → Prop) : Hyp.Mesh (Dof F) dim where
  nbrs := stencil F
  below := below
  skip := skip
  boundary := boundary
  c := fun k l => cMatrix F k l
  mass := fun k l => massMatrix F k l
  massInv := fun k l => massInvMatrix F k l
  lumped := fun k => lumpedMass F k
  incidence := fun k l => incidenceMatrix F ip k l
  dG := F.dG
  omega := measure F

end

end Assembly
end Ryujin
