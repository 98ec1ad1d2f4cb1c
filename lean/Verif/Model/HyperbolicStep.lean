import Verif.Model.Tensor
import Mathlib.Data.Finset.Fold
import Mathlib.Data.Fintype.Basic
import Mathlib.Algebra.Module.Basic

/-!
# Model of `HyperbolicModule::step` (source/hyperbolic_module.template.h:234-1214)

The step is written once for every `Description` (set of equations); so is the model: the equation
specific operations are the fields of `Description`, and the theorems instantiate or constrain them.

* The degrees of freedom of all MPI ranks form one index type `ι`.  A row is described by its off-diagonal
  columns `nbrs i`; the diagonal is always the first column.  "`j < i`" compares *local* indices on the
  rank owning row `i` (ghost indices are larger than owned ones), so for a pair owned by two different
  ranks neither `below i j` nor `below j i` holds: `below` is only assumed to be asymmetric.
* Values of neighbours on other ranks are read through ghost exchanges; the model reads the owner's value
  (the exchange itself is the subject of C30, C32, C34).
* `Number` is `ℝ`; sums over a row are sums over its column list.
* `#ifdef DEBUG` and `#ifdef EXPENSIVE_BOUNDS_CHECK` code is not modelled.
-/

namespace Ryujin
namespace Hyp

noncomputable section

/-- The parts of `OfflineData` used by `step` (offline_data.h; hyperbolic_module.template.h:273-303). -/
structure Mesh (ι : Type) (dim : ℕ) where
  /-- off-diagonal columns of row `i`, i.e. `columns(i)` for `1 ≤ col_idx < row_length(i)` -/
  nbrs : ι → List ι
  /-- `j < i` for a column `j` of row `i`, in the local numbering of the rank owning row `i` -/
  below : ι → ι → Prop
  /-- `all_below_diagonal` was true for the SIMD group containing row `i` and this column
  (hyperbolic_module.template.h:209-231, 400) -/
  skip : ι → ι → Prop
  /-- both entries of a pair being `boundary` is what `coupling_boundary_pairs` collects
  (offline_data.template.h:1369-1462) -/
  boundary : ι → Prop
  /-- `cij_matrix` -/
  c : ι → ι → Vec dim
  /-- `mass_matrix` -/
  mass : ι → ι → ℝ
  /-- `mass_matrix_inverse` (discontinuous ansatz only) -/
  massInv : ι → ι → ℝ
  /-- `lumped_mass_matrix` -/
  lumped : ι → ℝ
  /-- `incidence_matrix` (discontinuous ansatz only) -/
  incidence : ι → ι → ℝ
  /-- `have_discontinuous_ansatz()` -/
  dG : Bool
  /-- `measure_of_omega()` -/
  omega : ℝ

/-- Structural facts about the stencils and the numbering that hold for every mesh. (offline_data.template.h:140-330) -/
structure Mesh.WellFormed {ι : Type} {dim : ℕ} (M : Mesh ι dim) : Prop where
  nodup : ∀ i, (M.nbrs i).Nodup
  irrefl : ∀ i, i ∉ M.nbrs i
  symm : ∀ i j, j ∈ M.nbrs i → i ∈ M.nbrs j
  asymm : ∀ i j, M.below i j → ¬ M.below j i
  skip_below : ∀ i j, M.skip i j → M.below i j

/-- One column as handed to `Limiter::accumulate` (hyperbolic_module.template.h:785-794). -/
structure LimiterEntry (ι S F : Type) (dim : ℕ) where
  j : ι
  U_j : S
  flux_j : F
  star_ij : S
  star_ji : S
  scaled_c : Vec dim
  affine_shift : S

/-- The equation specific operations used by `step`.  `P` is the type of precomputed values of a state
vector, `F` the `flux_contribution_type`, `B` the limiter `Bounds`.

Compile time branches of the code are represented by the choice of the fields:
* `have_source_terms == false`: `source` is zero;
* `have_high_order_flux == false`: `highOrder = fluxDiv`;
* not shallow water: `stars U_i f_i U_j f_j = (U_i, U_j)` and `affineShift = 0`.

`limit` and `indicator` of one row get the row (and column) index, which stands for the other rows in the
same SIMD group; nothing is assumed about how they depend on it. (euler/description.h:31-51) -/
structure Description (ι P S F B : Type) (dim : ℕ) where
  /-- `RiemannSolver::compute(U_i, U_j, i, js, n_ij)` -/
  riemann : P → ι → ι → S → S → Vec dim → ℝ
  /-- `Indicator::reset`, `accumulate` over the given columns, then `alpha(hd_i)` -/
  indicator : P → ι → S → List (ι × S × Vec dim) → ℝ → ℝ
  /-- `flux_contribution` -/
  flux : P → ι → S → F
  /-- `flux_divergence` -/
  fluxDiv : F → F → Vec dim → S
  /-- `high_order_flux_divergence` -/
  highOrder : F → F → Vec dim → S
  /-- `nodal_source(prec, i, U_i, tau)` -/
  source : P → ι → S → ℝ → S
  /-- `equilibrated_states(flux_i, flux_j)` -/
  stars : S → F → S → F → S × S
  /-- `affine_shift(flux_i, flux_j, c_ij, d_ij)` -/
  affineShift : F → F → Vec dim → ℝ → S
  /-- `Limiter::reset`, `accumulate` over the given columns, then `bounds(hd_i)` -/
  limiterBounds : P → ι → S → F → List (LimiterEntry ι S F dim) → ℝ → B
  /-- `Limiter::combine_bounds` -/
  combine : B → B → B
  /-- `Limiter::limit(bounds, U, P)`: coefficient and success flag -/
  limit : ι → ι → B → S → S → ℝ × Prop

/-- A `StateVector`: conserved states and precomputed values. (state_vector.h:47-51) -/
structure StateVector (ι P S : Type) where
  U : ι → S
  prec : P

/-- Parameters of the step: `cfl_`, `numeric_limits::min()`, `limiter_parameters_.iterations()`. (hyperbolic_module.h:305-311) -/
structure Params where
  cfl : ℝ
  tiny : ℝ
  iterations : ℕ

variable {ι P S F B : Type} {dim : ℕ}

/-- `row_length == 1`: constrained degree of freedom, skipped by all loops. (hyperbolic_module.template.h:374-376) -/
def Mesh.active (M : Mesh ι dim) (i : ι) : Prop := M.nbrs i ≠ []

/-- All columns of row `i` in storage order: the diagonal first. (sparse_matrix_simd.template.h:63-74) -/
def Mesh.columns (M : Mesh ι dim) (i : ι) : List ι := i :: M.nbrs i

/-! ### Steps 2 and 3: graph viscosity and time-step size -/

/-- `norm * riemann_solver.compute(U_i, U_j, i, js, c_ij / norm)` (hyperbolic_module.template.h:403-415). -/
def viscosityEntry (D : Description ι P S F B dim) (M : Mesh ι dim) (old : StateVector ι P S)
    (i j : ι) : ℝ :=
  let norm := vnorm (M.c i j)
  let n_ij := fun k => M.c i j k / norm
  norm * D.riemann old.prec i j (old.U i) (old.U j) n_ij

open Classical in
/-- `dij_matrix_` after step 2 (hyperbolic_module.template.h:393-416): entries of a group that lies
entirely below the diagonal are not computed and keep their `stale` value. -/
def dStep2 (D : Description ι P S F B dim) (M : Mesh ι dim) (stale : ι → ι → ℝ)
    (old : StateVector ι P S) (i j : ι) : ℝ :=
  if M.skip i j then stale i j else viscosityEntry D M old i j

open Classical in
/-- `dij_matrix_` after the loop over `coupling_boundary_pairs` (hyperbolic_module.template.h:462-491). -/
def dBoundary (D : Description ι P S F B dim) (M : Mesh ι dim) (stale : ι → ι → ℝ)
    (old : StateVector ι P S) (i j : ι) : ℝ :=
  if M.boundary i ∧ M.boundary j ∧ ¬ M.below i j then
    max (dStep2 D M stale old i j) (viscosityEntry D M old j i)
  else dStep2 D M stale old i j

open Classical in
/-- Off-diagonal entries of `dij_matrix_` after symmetrisation (hyperbolic_module.template.h:495-537). -/
def dOff (D : Description ι P S F B dim) (M : Mesh ι dim) (stale : ι → ι → ℝ)
    (old : StateVector ι P S) (i j : ι) : ℝ :=
  if M.below i j then dBoundary D M stale old j i else dBoundary D M stale old i j

/-- The diagonal entry (hyperbolic_module.template.h:504, 537-549). -/
def dDiag (D : Description ι P S F B dim) (M : Mesh ι dim) (par : Params) (stale : ι → ι → ℝ)
    (old : StateVector ι P S) (i : ι) : ℝ :=
  min (-((M.nbrs i).map (dOff D M stale old i)).sum) (-1000000 * par.tiny)

/-- The bound on the time-step size by row `i` (hyperbolic_module.template.h:551-553). -/
def tauRow (D : Description ι P S F B dim) (M : Mesh ι dim) (par : Params) (stale : ι → ι → ℝ)
    (old : StateVector ι P S) (i : ι) : ℝ :=
  par.cfl * M.lumped i / (-2 * dDiag D M par stale old i)

open Classical in
/-- `tau_max` after the reduction over rows, threads and ranks (hyperbolic_module.template.h:448, 553-571);
`tau_max` is the value of the argument.  That the reduction over threads yields the minimum for every
schedule is C12. -/
def tauMax [Fintype ι] (D : Description ι P S F B dim) (M : Mesh ι dim) (par : Params)
    (stale : ι → ι → ℝ) (old : StateVector ι P S) (tau_max : ℝ) : ℝ :=
  (Finset.univ.filter M.active).fold min tau_max (tauRow D M par stale old)

/-- `alpha_i` (hyperbolic_module.template.h:385-422): all columns including the diagonal. -/
def alpha (D : Description ι P S F B dim) (M : Mesh ι dim) (old : StateVector ι P S) (i : ι) : ℝ :=
  D.indicator old.prec i (old.U i) ((M.columns i).map fun j => (j, old.U j, M.c i j))
    (M.lumped i * (1 / M.omega))

/-! ### Step 4: low-order update, `r_i`, first part of `P_ij` and limiter bounds -/

/-- The data fixed before step 4 starts: old and stage state vectors with weights, `tau`, and the viscosity
matrix and indicator of steps 2 and 3. (hyperbolic_module.template.h:618-650) -/
structure Stage4 (ι P S : Type) where
  old : StateVector ι P S
  stages : List (ℝ × StateVector ι P S)
  tau : ℝ
  /-- `dij_matrix_` including the diagonal -/
  d : ι → ι → ℝ
  alpha : ι → ℝ

/-- `weight = -accumulate(stage_weights, -1.)` (hyperbolic_module.template.h:615-616). -/
def Stage4.weight (X : Stage4 ι P S) : ℝ :=
  -(X.stages.foldl (fun a s => a + s.1) (-1))

section step4

variable [AddCommGroup S] [Module ℝ S]
variable (D : Description ι P S F B dim) (M : Mesh ι dim) (X : Stage4 ι P S)

/-- `flux_i` (hyperbolic_module.template.h:660-661, 760-761). -/
def fluxAt (i : ι) : F := D.flux X.old.prec i (X.old.U i)

/-- `S_i` (hyperbolic_module.template.h:683, 817). -/
def sourceAt (i : ι) : S := D.source X.old.prec i (X.old.U i) X.tau

/-- `nodal_source` of a stage (hyperbolic_module.template.h:675, 842). -/
def stageSource (s : ℝ × StateVector ι P S) (i : ι) : S := D.source s.2.prec i (s.2.U i) X.tau

/-- `S_iH` (hyperbolic_module.template.h:664-684). -/
def sourceH (i : ι) : S :=
  (X.stages.map fun s => s.1 • stageSource D X s i).sum + X.weight • sourceAt D X i

/-- `flux_ij` (hyperbolic_module.template.h:769). -/
def fluxIJ (i j : ι) : S := D.fluxDiv (fluxAt D X i) (fluxAt D X j) (M.c i j)

/-- `high_order_flux_ij` of the old state (hyperbolic_module.template.h:807-808). -/
def highOrderIJ (i j : ι) : S := D.highOrder (fluxAt D X i) (fluxAt D X j) (M.c i j)

/-- The high-order flux of a stage (hyperbolic_module.template.h:825-836). -/
def stageFluxIJ (s : ℝ × StateVector ι P S) (i j : ι) : S :=
  D.highOrder (D.flux s.2.prec i (s.2.U i)) (D.flux s.2.prec j (s.2.U j)) (M.c i j)

/-- `U_star_ji - U_star_ij`, or `U_j - U_i` (hyperbolic_module.template.h:778-792). -/
def jump (i j : ι) : S :=
  let stars := D.stars (X.old.U i) (fluxAt D X i) (X.old.U j) (fluxAt D X j)
  stars.2 - stars.1

/-- `d_ijH` (hyperbolic_module.template.h:730-739). -/
def dH (i j : ι) : ℝ :=
  let factor := (X.alpha i + X.alpha j) * (1 / 2)
  let factor := if M.dG then max factor (M.incidence i j) else factor
  X.d i j * factor

/-- The low-order update `U_i_new` at the end of step 4 (hyperbolic_module.template.h:653-654, 685, 770,
781, 790). -/
def lowOrder (i : ι) : S :=
  X.old.U i + X.tau • sourceAt D X i +
    ((M.columns i).map fun j =>
      (X.tau * (M.lumped i)⁻¹) • fluxIJ D M X i j +
      (X.tau * (M.lumped i)⁻¹ * X.d i j) • jump D X i j).sum

/-- High-order contributions added both to `F_iH` and `P_ij` (hyperbolic_module.template.h:806-846). -/
def highOrderPart (i j : ι) : S :=
  X.weight • highOrderIJ D M X i j + (X.weight * M.mass i j) • sourceAt D X j +
    (X.stages.map fun s =>
      s.1 • stageFluxIJ D M s i j + (s.1 * M.mass i j) • stageSource D X s j).sum

/-- `F_iH`, stored in `r_` (hyperbolic_module.template.h:680, 686, 782, 791, 798, 806-846, 858). -/
def rhsH (i : ι) : S :=
  M.lumped i • sourceH D X i +
    ((M.columns i).map fun j =>
      dH M X i j • jump D X i j - M.mass i j • sourceH D X i + highOrderPart D M X i j).sum

/-- First part of `P_ij` (hyperbolic_module.template.h:771, 783, 792, 799, 806-848). -/
def pStep4 (i j : ι) : S :=
  -fluxIJ D M X i j + (dH M X i j - X.d i j) • jump D X i j - M.mass i j • sourceAt D X i +
    highOrderPart D M X i j

/-- `affine_shift` (hyperbolic_module.template.h:691-720). -/
def affineShiftAt (i : ι) : S :=
  (X.tau * (M.lumped i)⁻¹) • ((M.columns i).map fun j =>
      D.affineShift (fluxAt D X i) (fluxAt D X j) (M.c i j) (X.d i j)).sum +
    X.tau • sourceAt D X i

/-- The argument list of one `limiter.accumulate` call (hyperbolic_module.template.h:755-794). -/
def limiterEntry (tiny : ℝ) (i j : ι) : LimiterEntry ι S F dim :=
  let stars := D.stars (X.old.U i) (fluxAt D X i) (X.old.U j) (fluxAt D X j)
  { j := j
    U_j := X.old.U j
    flux_j := fluxAt D X j
    star_ij := stars.1
    star_ji := stars.2
    scaled_c := fun k => M.c i j k / max (X.d i j) (100 * tiny)
    affine_shift := affineShiftAt D M X i }

/-- `bounds_` after step 4 (hyperbolic_module.template.h:689, 785-794, 860-862). -/
def boundsStep4 (tiny : ℝ) (i : ι) : B :=
  D.limiterBounds X.old.prec i (X.old.U i) (fluxAt D X i)
    ((M.columns i).map (limiterEntry D M X tiny i)) (M.lumped i * (1 / M.omega))

/-! ### Step 5: second part of `P_ij` and limiter coefficients -/

/-- `b_ij` for an off-diagonal entry of row `i` (hyperbolic_module.template.h:974-992; the Kronecker symbol
is zero because the diagonal is skipped). -/
def bIJ (i j : ι) : ℝ :=
  if M.dG then M.lumped i * M.massInv i j else -(M.mass i j * (M.lumped j)⁻¹)

/-- `b_ji` as computed in row `i` (hyperbolic_module.template.h:983, 993). -/
def bJI (i j : ι) : ℝ :=
  if M.dG then M.lumped j * M.massInv i j else -(M.mass i j * (M.lumped i)⁻¹)

/-- `P_ij` after step 5 (hyperbolic_module.template.h:959-999). -/
def pIJ (i j : ι) : S :=
  (X.tau * (M.lumped i)⁻¹ * ((M.nbrs i).length : ℝ)) •
    (pStep4 D M X i j + (bIJ M i j • rhsH D M X j - bJI M i j • rhsH D M X i))

end step4

/-- Extension of the bounds of row `i` over its stencil, reading the current content of `bounds_`
(hyperbolic_module.template.h:938-946). -/
def combineRow (D : Description ι P S F B dim) (M : Mesh ι dim) (b : ι → B) (i : ι) : B :=
  (M.nbrs i).foldl (fun acc j => D.combine acc (b j)) (b i)

open Classical in
/-- `bounds_` after step 5 (hyperbolic_module.template.h:930-948).  For a discontinuous ansatz the rows are
combined *in place*, while other rows read them: the result depends on the `order` in which rows are
processed (threads interleave at the granularity of rows in this model). -/
def boundsStep5 (D : Description ι P S F B dim) (M : Mesh ι dim) (order : List ι) (b : ι → B) : ι → B :=
  if M.dG then order.foldl (fun b i => if M.active i then Function.update b i (combineRow D M b i) else b) b
  else b

/-! ### Steps 6 and 7: limited updates -/

/-- What the limiter loop works on: `new_U`, `lij_matrix_`, `lij_matrix_next_`. (hyperbolic_module.template.h:1054-1062) -/
structure LimiterLoop (ι S : Type) where
  U : ι → S
  lij : ι → ι → ℝ
  lijNext : ι → ι → ℝ

section step6

variable [AddCommGroup S] [Module ℝ S]
variable (D : Description ι P S F B dim) (M : Mesh ι dim)

/-- The symmetrised coefficient (hyperbolic_module.template.h:1109-1111). -/
def symmetrized (lij : ι → ι → ℝ) (i j : ι) : ℝ := min (lij i j) (lij j i)

open Classical in
/-- One limiter pass (hyperbolic_module.template.h:1054-1182); `p` is `pij_matrix_`, `b` is `bounds_`. -/
def limiterPass (b : ι → B) (p : ι → ι → S) (n pass : ℕ) (st : LimiterLoop ι S) : LimiterLoop ι S :=
  let last_round : Prop := pass + 1 = n
  let lij := if n = 2 ∧ last_round then st.lijNext else st.lij
  let lijNext := if n = 2 ∧ last_round then st.lij else st.lijNext
  let U := fun i =>
    if M.active i then
      st.U i + ((M.nbrs i).map fun j =>
        (symmetrized lij i j * (1 / ((M.nbrs i).length : ℝ))) • p i j).sum
    else st.U i
  let next := fun i j =>
    if last_round then lijNext i j
    else
      let old_l := symmetrized lij i j
      (1 - old_l) * (D.limit i j (b i) (U i) ((1 - old_l) • p i j)).1
  ⟨U, lij, next⟩

/-- All limiter passes. (hyperbolic_module.template.h:1054-1182) -/
def limiterLoop (b : ι → B) (p : ι → ι → S) (n : ℕ) (st : LimiterLoop ι S) : LimiterLoop ι S :=
  (List.range n).foldl (fun st pass => limiterPass D M b p n pass st) st

end step6

/-! ### The full step -/

/-- `IDViolationStrategy` (hyperbolic_module.h). (hyperbolic_module.h:37-50) -/
inductive Strategy
  | warn | raise_exception
  deriving DecidableEq

/-- `n_restarts_`, `n_warnings_`. (hyperbolic_module.h:313-315) -/
structure Counters where
  restarts : ℕ
  warnings : ℕ

/-- How a call of `step` ends. (hyperbolic_module.template.h:573-576, 1192-1214) -/
inductive Outcome (ι S : Type)
  /-- the `AssertThrow` on `tau_max` fired (hyperbolic_module.template.h:573-576) -/
  | crashed
  /-- `throw Restart()` (hyperbolic_module.template.h:1206) -/
  | restart
  /-- normal return with the new states and the returned `tau` -/
  | done (U : ι → S) (tau : ℝ)

/-- Everything that is not a state vector: leftover values of member matrices which the code reads only
after overwriting them, the row schedule of step 5 and the content of the output vector on entry. (hyperbolic_module.h:319-333) -/
structure Leftover (ι S : Type) where
  dij : ι → ι → ℝ
  lijNext : ι → ι → ℝ
  newU : ι → S
  order : List ι

section full

variable [AddCommGroup S] [Module ℝ S]

open Classical in
/-- The data for step 4 as set up by steps 2 and 3 (hyperbolic_module.template.h:352-580). -/
def stage4 [Fintype ι] (D : Description ι P S F B dim) (M : Mesh ι dim) (par : Params)
    (lo : Leftover ι S) (old : StateVector ι P S) (stages : List (ℝ × StateVector ι P S)) (tau : ℝ) :
    Stage4 ι P S where
  old := old
  stages := stages
  tau := tau
  d := fun i j => if i = j then dDiag D M par lo.dij old i else dOff D M lo.dij old i j
  alpha := alpha D M old

open Classical in
/-- `new_U` after step 4; constrained rows are not written. (hyperbolic_module.template.h:645-648, 857) -/
def newLow (D : Description ι P S F B dim) (M : Mesh ι dim) (lo : Leftover ι S) (X : Stage4 ι P S)
    (i : ι) : S :=
  if M.active i then lowOrder D M X i else lo.newU i

/-- `bounds_` as used by step 5 and 6. (hyperbolic_module.template.h:930-948) -/
def finalBounds (D : Description ι P S F B dim) (M : Mesh ι dim) (par : Params) (lo : Leftover ι S)
    (X : Stage4 ι P S) : ι → B :=
  boundsStep5 D M lo.order (boundsStep4 D M X par.tiny)

open Classical in
/-- The bounds against which row `i` is limited in step 5: its own combined bounds, read and written when the
row is processed.  As later rows never write row `i`, this is the final content of `bounds_` at `i`.
(hyperbolic_module.template.h:1004) -/
def l1 (D : Description ι P S F B dim) (M : Mesh ι dim) (par : Params) (lo : Leftover ι S)
    (X : Stage4 ι P S) (i j : ι) : ℝ × Prop :=
  D.limit i j (finalBounds D M par lo X i) (lowOrder D M X i) (pIJ D M X i j)

/-- `restart_needed` (hyperbolic_module.template.h:1017-1018, 1192-1197): some row violates its bounds; the
flag is only ever set in step 5, which is skipped if no limiter pass is requested. -/
def restartNeeded (D : Description ι P S F B dim) (M : Mesh ι dim) (par : Params) (lo : Leftover ι S)
    (X : Stage4 ι P S) : Prop :=
  par.iterations ≠ 0 ∧ ∃ i, ∃ j ∈ M.nbrs i, ¬ (l1 D M par lo X i j).2

/-- `new_U` after steps 4 to 7. (hyperbolic_module.template.h:1054-1182) -/
def newStates (D : Description ι P S F B dim) (M : Mesh ι dim) (par : Params) (lo : Leftover ι S)
    (X : Stage4 ι P S) : ι → S :=
  (limiterLoop D M (finalBounds D M par lo X) (pIJ D M X) par.iterations
    ⟨newLow D M lo X, fun i j => (l1 D M par lo X i j).1, lo.lijNext⟩).U

open Classical in
/-- `HyperbolicModule::step` (hyperbolic_module.template.h:234-1214).  `tau = 0` asks for the maximal
time-step size. -/
def step [Fintype ι] (D : Description ι P S F B dim) (M : Mesh ι dim) (par : Params)
    (strategy : Strategy) (cnt : Counters) (lo : Leftover ι S) (old : StateVector ι P S)
    (stages : List (ℝ × StateVector ι P S)) (tau tau_max : ℝ) : Outcome ι S × Counters :=
  let tau_max := tauMax D M par lo.dij old tau_max
  if ¬ (0 < tau_max) then (.crashed, cnt)
  else
    let tau := if tau = 0 then tau_max else tau
    let X := stage4 D M par lo old stages tau
    let U := newStates D M par lo X
    if restartNeeded D M par lo X then
      match strategy with
      | .warn => (.done U tau, { cnt with warnings := cnt.warnings + 1 })
      | .raise_exception => (.restart, { cnt with restarts := cnt.restarts + 1 })
    else (.done U tau, cnt)

end full

end

end Hyp
end Ryujin
