import Verif.Model.HyperbolicStep
import Verif.Model.PrepareState
import Mathlib.Data.Finset.Lattice.Fold

/-!
# Model of a time step on several MPI ranks (hyperbolic_module.template.h:97-1214)

`Model/HyperbolicStep` describes a time step as one computation on the degrees of freedom of all ranks, in which a value
on another rank is read from its owner.  Here every rank has its own memory: vectors and matrices are functions of the rank,
and what a rank reads for a degree of freedom it does not own is whatever its own memory contains.  It becomes the owner's
value only through one of the exchanges the code posts:

* `U.update_ghost_values()` and `precomputed.update_ghost_values_*` in `prepare_state_vector` (line 148, 157-160),
* `alpha_.update_ghost_values_*` after step 2 (line 344-347),
* `r_.update_ghost_values_*`, and `bounds_.update_ghost_values_*` for discontinuous elements only, after step 4 (line 601-613),
* `lij_matrix_.update_ghost_rows_*` after step 5 (line 895-898),
* `lij_matrix_next_.update_ghost_rows_*` after every limiter pass but the last (line 1066-1071).

The global indices of degrees of freedom name the locations on all ranks.  An exchange copies the values of the
ghost degrees of freedom of a rank, i.e. of the columns of its rows which it does not own, and of a ghost row of a matrix the
entries in owned columns (`Sparse.exchangePattern`, C30); everything else keeps its content.  An exchange happens after the loop
that computes the values (C32, C34).  `tau_max` and the restart flag are reduced over all ranks.
-/

namespace Ryujin
namespace Hyp
namespace Mpi

noncomputable section

open Classical

variable {ι R P S F B : Type} {dim : ℕ}

/-- `i` is a ghost degree of freedom of rank `r`: a column of a row of the rank, owned by another rank
(offline_data.template.h:60-110: `locally_relevant` minus `locally_owned`). -/
def ghost (M : Mesh ι dim) (owner : ι → R) (r : R) (i : ι) : Prop :=
  owner i ≠ r ∧ ∃ k, owner k = r ∧ i ∈ M.nbrs k

/-- `update_ghost_values` of a vector. (hyperbolic_module.template.h:148, 157-160, 344-347, 601-613) -/
def exchange {α : Type} (M : Mesh ι dim) (owner : ι → R) (v : R → ι → α) (r : R) (i : ι) : α :=
  if ghost M owner r i then v (owner i) i else v r i

/-- `update_ghost_rows` of a matrix (sparse_matrix_simd.h:649-760): of a ghost row the entries in owned columns are
received. -/
def exchangeRows {α : Type} (M : Mesh ι dim) (owner : ι → R) (v : R → ι → ι → α) (r : R) (i j : ι) : α :=
  if ghost M owner r i ∧ owner j = r ∧ j ∈ M.nbrs i then v (owner i) i j else v r i j

/-- The effect of a loop over the unconstrained rows owned by rank `r` which writes `value i` to entry `i` of a vector with
content `stale`. (hyperbolic_module.template.h:366-378, 857-862) -/
def written {α : Type} (M : Mesh ι dim) (owner : ι → R) (r : R) (value stale : ι → α) (i : ι) : α :=
  if owner i = r ∧ M.active i then value i else stale i

/-- The same for a matrix. (hyperbolic_module.template.h:848, 999, 1004, 1164) -/
def writtenRows {α : Type} (M : Mesh ι dim) (owner : ι → R) (r : R) (value stale : ι → ι → α) (i j : ι) : α :=
  if owner i = r ∧ M.active i ∧ j ∈ M.nbrs i then value i j else stale i j

/-- The content of the member vectors and matrices of one rank before the step, and the order in which the rank processes its rows in
step 5. (hyperbolic_module.h:319-333) -/
structure Memory (ι S B : Type) where
  alpha : ι → ℝ
  dij : ι → ι → ℝ
  newU : ι → S
  r : ι → S
  bounds : ι → B
  lij : ι → ι → ℝ
  lijNext : ι → ι → ℝ
  order : List ι

section

variable (D : Description ι P S F B dim) (M : Mesh ι dim) (owner : ι → R) (par : Params)

/-- `alpha_` on all ranks at the end of step 2 (hyperbolic_module.template.h:344-422). -/
def alphaVec (mem : R → Memory ι S B) (old : R → StateVector ι P S) : R → ι → ℝ :=
  exchange M owner fun r => written M owner r (alpha D M (old r)) (mem r).alpha

/-- `tau_max` of one rank at the end of step 3 (hyperbolic_module.template.h:448, 553-563). -/
def tauLocal [Fintype ι] (mem : R → Memory ι S B) (old : R → StateVector ι P S) (tau_max : ℝ) (r : R) : ℝ :=
  (Finset.univ.filter fun i => owner i = r ∧ M.active i).fold min tau_max (tauRow D M par (mem r).dij (old r))

/-- `Utilities::MPI::min(tau_max.load(), mpi_communicator_)` (hyperbolic_module.template.h:571). -/
def tauGlobal [Fintype ι] [Fintype R] [Nonempty R] (mem : R → Memory ι S B) (old : R → StateVector ι P S) (tau_max : ℝ) : ℝ :=
  Finset.univ.inf' Finset.univ_nonempty (tauLocal D M owner par mem old tau_max)

/-- What rank `r` reads in step 4: its copies of the state vectors, its rows of `dij_matrix_` and its copy of `alpha_`.
(hyperbolic_module.template.h:618-740) -/
def stage4 (mem : R → Memory ι S B) (old : R → StateVector ι P S) (stages : R → List (ℝ × StateVector ι P S)) (tau : ℝ)
    (r : R) : Stage4 ι P S where
  old := old r
  stages := stages r
  tau := tau
  d := fun i j => if i = j then dDiag D M par (mem r).dij (old r) i else dOff D M (mem r).dij (old r) i j
  alpha := alphaVec D M owner mem old r

variable [AddCommGroup S] [Module ℝ S]

/-- `new_U` after step 4 (hyperbolic_module.template.h:857); the ghost range of `new_U` is not written. -/
def lowVec (mem : R → Memory ι S B) (X : R → Stage4 ι P S) (r : R) : ι → S :=
  written M owner r (lowOrder D M (X r)) (mem r).newU

/-- `r_` after step 4 (hyperbolic_module.template.h:601-603, 858). -/
def rVec (mem : R → Memory ι S B) (X : R → Stage4 ι P S) : R → ι → S :=
  exchange M owner fun r => written M owner r (rhsH D M (X r)) (mem r).r

/-- `bounds_` after step 4 (hyperbolic_module.template.h:604-612, 860-862): ghost values are exchanged for discontinuous
elements only. -/
def boundsVec (mem : R → Memory ι S B) (X : R → Stage4 ι P S) (r : R) : ι → B :=
  let local_ := fun r => written M owner r (boundsStep4 D M (X r) par.tiny) (mem r).bounds
  if M.dG then exchange M owner local_ r else local_ r

/-- `bounds_` after step 5 (hyperbolic_module.template.h:930-948): a rank combines its own rows in place. -/
def boundsVec5 (mem : R → Memory ι S B) (X : R → Stage4 ι P S) (r : R) : ι → B :=
  boundsStep5 D M ((mem r).order.filter fun i => owner i = r) (boundsVec D M owner par mem X r)

/-- `pij_matrix_` of rank `r` after step 5 (hyperbolic_module.template.h:959-999): `F_jH` and `F_iH` are read from the rank's copy
of `r_`. -/
def pMat (X : R → Stage4 ι P S) (rv : R → ι → S) (r : R) (i j : ι) : S :=
  ((X r).tau * (M.lumped i)⁻¹ * ((M.nbrs i).length : ℝ)) •
    (pStep4 D M (X r) i j + (bIJ M i j • rv r j - bJI M i j • rv r i))

/-- The call of `limiter.limit` in step 5 (hyperbolic_module.template.h:1004). -/
def limit5 (mem : R → Memory ι S B) (X : R → Stage4 ι P S) (r : R) (i j : ι) : ℝ × Prop :=
  D.limit i j (boundsVec5 D M owner par mem X r i) (lowVec D M owner mem X r i) (pMat D M X (rVec D M owner mem X) r i j)

/-- `lij_matrix_` after step 5 (hyperbolic_module.template.h:895-898, 1004). -/
def lijMat (mem : R → Memory ι S B) (X : R → Stage4 ι P S) : R → ι → ι → ℝ :=
  exchangeRows M owner fun r => writtenRows M owner r (fun i j => (limit5 D M owner par mem X r i j).1) (mem r).lij

/-- One limiter pass on all ranks (hyperbolic_module.template.h:1054-1182). -/
def pass (b : R → ι → B) (p : R → ι → ι → S) (n pass : ℕ) (st : R → LimiterLoop ι S) : R → LimiterLoop ι S :=
  let last_round : Prop := pass + 1 = n
  let lij := fun r => if n = 2 ∧ last_round then (st r).lijNext else (st r).lij
  let lijNext := fun r => if n = 2 ∧ last_round then (st r).lij else (st r).lijNext
  let U := fun r => written M owner r (fun i => (st r).U i + ((M.nbrs i).map fun j =>
    (symmetrized (lij r) i j * (1 / ((M.nbrs i).length : ℝ))) • p r i j).sum) (st r).U
  let next := fun r => writtenRows M owner r (fun i j =>
      (1 - symmetrized (lij r) i j) * (D.limit i j (b r i) (U r i) ((1 - symmetrized (lij r) i j) • p r i j)).1) (lijNext r)
  fun r => ⟨U r, lij r, if last_round then lijNext r else exchangeRows M owner next r⟩

/-- `new_U` on all ranks after steps 4 to 7. (hyperbolic_module.template.h:588-1182) -/
def newVec (mem : R → Memory ι S B) (X : R → Stage4 ι P S) (r : R) : ι → S :=
  ((List.range par.iterations).foldl
    (fun st k => pass D M owner (boundsVec5 D M owner par mem X) (pMat D M X (rVec D M owner mem X)) par.iterations k st)
    (fun r => ⟨lowVec D M owner mem X r, lijMat D M owner par mem X r, (mem r).lijNext⟩) r).U

/-- `restart_needed` of one rank (hyperbolic_module.template.h:1017-1018). -/
def restartLocal (mem : R → Memory ι S B) (X : R → Stage4 ι P S) (r : R) : Prop :=
  par.iterations ≠ 0 ∧ ∃ i, owner i = r ∧ ∃ j ∈ M.nbrs i, ¬ (limit5 D M owner par mem X r i j).2

/-- `step` on all ranks (hyperbolic_module.template.h:234-1214): how the call ends on each of them. -/
def step [Fintype ι] [Fintype R] [Nonempty R] (strategy : Strategy) (cnt : R → Counters) (mem : R → Memory ι S B)
    (old : R → StateVector ι P S) (stages : R → List (ℝ × StateVector ι P S)) (tau tau_max : ℝ) (r : R) :
    Outcome ι S × Counters :=
  let tau_max := tauGlobal D M owner par mem old tau_max
  if ¬ (0 < tau_max) then (.crashed, cnt r)
  else
    let tau := if tau = 0 then tau_max else tau
    let X := stage4 D M owner par mem old stages tau
    let U := newVec D M owner par mem X
    if ∃ q, restartLocal D M owner par mem X q then
      match strategy with
      | .warn => (.done (U r) tau, { cnt r with warnings := (cnt r).warnings + 1 })
      | .raise_exception => (.restart, { cnt r with restarts := (cnt r).restarts + 1 })
    else (.done (U r) tau, cnt r)

end

/-! ### `prepare_state_vector` -/

section

variable {Q Id : Type}

/-- The precomputation cycles on one process (hyperbolic_module.template.h:154-190).  `pre k U prec i` is what cycle `k` stores
for row `i`. -/
def precompute (M : Mesh ι dim) (pre : ℕ → (ι → S) → (ι → Q) → ι → Q) (cycles : ℕ) (U : ι → S) (prec : ι → Q) : ι → Q :=
  (List.range cycles).foldl (fun prec k i => if M.active i then pre k U prec i else prec i) prec

/-- The precomputation cycles on all ranks (hyperbolic_module.template.h:154-190): the ghost values are exchanged at the end of
each cycle. -/
def precomputeMpi (M : Mesh ι dim) (owner : ι → R) (pre : ℕ → (ι → S) → (ι → Q) → ι → Q) (cycles : ℕ) (U : R → ι → S)
    (prec : R → ι → Q) : R → ι → Q :=
  (List.range cycles).foldl (fun prec k => exchange M owner fun r => written M owner r (pre k (U r) (prec r)) (prec r)) prec

/-- `prepare_state_vector` on one process (hyperbolic_module.template.h:97-190). -/
def prepare (M : Mesh ι dim) (A : Prepare.System S Id dim) (data : Vec dim → ℝ → S)
    (pre : ℕ → (ι → S) → (ι → Q) → ι → Q) (cycles : ℕ) (map : List (Prepare.Entry ι Id dim)) (t : ℝ)
    (x : StateVector ι (ι → Q) S) : Option (StateVector ι (ι → Q) S) :=
  (Prepare.boundaryPass A data t map x.U).map fun U => ⟨U, precompute M pre cycles U x.prec⟩

/-- `prepare_state_vector` on all ranks (hyperbolic_module.template.h:97-190): every rank has the part of the boundary map that
refers to its own degrees of freedom.  An exception on one rank ends the program. -/
def prepareMpi (M : Mesh ι dim) (owner : ι → R) (A : Prepare.System S Id dim) (data : Vec dim → ℝ → S)
    (pre : ℕ → (ι → S) → (ι → Q) → ι → Q) (cycles : ℕ) (map : List (Prepare.Entry ι Id dim)) (t : ℝ)
    (x : R → StateVector ι (ι → Q) S) : Option (R → StateVector ι (ι → Q) S) :=
  let own := fun r => Prepare.boundaryPass A data t (map.filter fun e => owner e.i = r) (x r).U
  if h : ∀ r, (own r).isSome then
    let U := exchange M owner fun r => (own r).get (h r)
    let prec := precomputeMpi M owner pre cycles U fun r => (x r).prec
    some fun r => ⟨U r, prec r⟩
  else none

end

end

end Mpi
end Hyp
end Ryujin
