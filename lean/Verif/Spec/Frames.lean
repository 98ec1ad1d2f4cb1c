import Verif.Model.HyperbolicStep
import Verif.Model.EulerSystem
import Verif.Model.ShallowWater
import Mathlib.Data.Matrix.Mul

/-!
# Specification: the same computation in another numbering and in another frame of reference
-/

namespace Ryujin
namespace Spec

open Hyp

noncomputable section

variable {ι κ S : Type} {dim : ℕ}

/-- The gas state `U` seen in a frame rotated or reflected by `A`: density and energy are unchanged, the momentum is
`A m`. -/
def moveGas (A : Matrix (Fin dim) (Fin dim) ℝ) (U : Euler.State dim) : Euler.State dim :=
  Euler.mkState (Euler.density U) (A.mulVec (Euler.momentum U)) (Euler.totalEnergy U)

/-- The water state `U` seen in that frame. -/
def moveWater (A : Matrix (Fin dim) (Fin dim) ℝ) (U : ShallowWater.State dim) : ShallowWater.State dim :=
  ShallowWater.mkState (ShallowWater.waterDepth U) (A.mulVec (ShallowWater.momentum U))

/-- `A` exchanges and reflects coordinate axes: `(A v)_k = ± v_{π k}`. -/
def IsAxisSymmetry (A : Matrix (Fin dim) (Fin dim) ℝ) : Prop :=
  ∃ (π : Equiv.Perm (Fin dim)) (σ : Fin dim → ℝ), (∀ k, σ k * σ k = 1) ∧ ∀ v k, A.mulVec v k = σ k * v (π k)

/-- `M'` is the mesh `M` rotated or reflected by `A`, with the degrees of freedom renumbered by `e` and the columns of every row
stored in another order.  Which rank owns a degree of freedom and how rows are grouped (`below`, `skip`) is left open. -/
structure SameMesh (e : ι ≃ κ) (A : Matrix (Fin dim) (Fin dim) ℝ) (M : Mesh ι dim) (M' : Mesh κ dim) : Prop where
  stencil : ∀ i, (M'.nbrs (e i)).Perm ((M.nbrs i).map e)
  boundary : ∀ i, M'.boundary (e i) ↔ M.boundary i
  c : ∀ i j, M'.c (e i) (e j) = A.mulVec (M.c i j)
  mass : ∀ i j, M'.mass (e i) (e j) = M.mass i j
  massInv : ∀ i j, M'.massInv (e i) (e j) = M.massInv i j
  lumped : ∀ i, M'.lumped (e i) = M.lumped i
  incidence : ∀ i j, M'.incidence (e i) (e j) = M.incidence i j
  dG : M'.dG = M.dG
  omega : M'.omega = M.omega

/-- `M'` is the mesh `M` with the degrees of freedom renumbered and the columns reordered. -/
structure Renumbered (e : ι ≃ κ) (M : Mesh ι dim) (M' : Mesh κ dim) : Prop where
  stencil : ∀ i, (M'.nbrs (e i)).Perm ((M.nbrs i).map e)
  boundary : ∀ i, M'.boundary (e i) ↔ M.boundary i
  c : ∀ i j, M'.c (e i) (e j) = M.c i j
  mass : ∀ i j, M'.mass (e i) (e j) = M.mass i j
  massInv : ∀ i j, M'.massInv (e i) (e j) = M.massInv i j
  lumped : ∀ i, M'.lumped (e i) = M.lumped i
  incidence : ∀ i j, M'.incidence (e i) (e j) = M.incidence i j
  dG : M'.dG = M.dG
  omega : M'.omega = M.omega

/-- The state vectors agree up to the renumbering `e` and the map `R` of states, on all unconstrained degrees of freedom. -/
def SameState (e : ι ≃ κ) (R : S → S) (M : Mesh ι dim) (U : ι → S) (U' : κ → S) : Prop :=
  ∀ i, M.nbrs i ≠ [] → U' (e i) = R (U i)

/-- The same for the stages of a Runge-Kutta step, which carry the same weights. -/
def SameStages (e : ι ≃ κ) (R : S → S) (M : Mesh ι dim) :
    List (ℝ × StateVector ι Unit S) → List (ℝ × StateVector κ Unit S) → Prop :=
  List.Forall₂ fun a b => b.1 = a.1 ∧ SameState e R M a.2.U b.2.U

/-- The same outcome: both runs end with an exception, both ask for a restart, or both succeed with the same time step and
corresponding states. -/
def SameResult (e : ι ≃ κ) (R : S → S) (M : Mesh ι dim) : Outcome ι S → Outcome κ S → Prop
  | .crashed, .crashed => True
  | .restart, .restart => True
  | .done U t, .done U' t' => SameState e R M U U' ∧ t' = t
  | _, _ => False

end

end Spec
end Ryujin
