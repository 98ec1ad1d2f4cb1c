import Verif.Model.EulerSystem

/-!
# Model of `InitialValues` (source/initial_values.template.h)

Simplifications: `Number` is `ℝ`.  The random perturbation is represented by the sequence of drawn numbers.
Interpolation onto the mesh (deal.II) is not modelled.
-/

namespace Ryujin
namespace InitialValues

noncomputable section

variable {d : ℕ}

/-- One "roll" of `affine_transform` (initial_values.template.h:77-90 with `k = 2`, 93-106 with `k = 1`): a rotation in
the plane of the coordinates `0` and `k`, skipped if the direction has no component in this plane. -/
def roll (k : Fin (d + 1)) (n v : Vec (d + 1)) : Vec (d + 1) :=
  let norm := Real.sqrt (n 0 * n 0 + n k * n k)
  let n_x := n 0 / norm
  let n_k := n k / norm
  if norm > 1e-14 then
    fun i => if i = 0 then n_x * v 0 + n_k * v k else if i = k then -n_k * v 0 + n_x * v k else v i
  else v

/-- One step of `affine_transform_vector` (initial_values.template.h:119-131 with `k = 1`, 134-146 with `k = 2`). -/
def unroll (k : Fin (d + 1)) (n v : Vec (d + 1)) : Vec (d + 1) :=
  let norm := Real.sqrt (n 0 * n 0 + n k * n k)
  let n_x := n 0 / norm
  let n_k := n k / norm
  if norm > 1e-14 then
    fun i => if i = 0 then n_x * v 0 - n_k * v k else if i = k then n_k * v 0 + n_x * v k else v i
  else v

/-- `affine_transform` in two dimensions (initial_values.template.h:70-109). -/
def transform2 (n position x : Vec 2) : Vec 2 := roll 1 n (x - position)

/-- `affine_transform` in three dimensions (initial_values.template.h:70-109): the z roll comes first, the y roll uses
the original direction. -/
def transform3 (n position x : Vec 3) : Vec 3 := roll 1 n (roll 2 n (x - position))

/-- `affine_transform_vector` in two dimensions (initial_values.template.h:115-149). -/
def transformVector2 (n v : Vec 2) : Vec 2 := unroll 1 n v

/-- `affine_transform_vector` in three dimensions (initial_values.template.h:115-149). -/
def transformVector3 (n v : Vec 3) : Vec 3 := unroll 2 n (unroll 1 n v)

/-- Normalisation of the direction (initial_values.template.h:158-160); `none` is the exception for the zero vector. -/
def normalizeDirection (n : Vec d) : Option (Vec d) :=
  open Classical in if vnorm n = 0 then none else some fun i => n i / vnorm n

/-- The initial state function (initial_values.template.h:168-180) for the Euler equations: evaluate the configuration
at the transformed point and transform the momentum; `T`, `Tv` are the transforms of the point and of vectors.
The arbitrary equation of state version is the same, the shallow water version differs in the number of components
only. -/
def initialState (T : Vec d → Vec d) (Tv : Vec d → Vec d) (compute : Vec d → ℝ → Euler.State d) (x : Vec d) (t : ℝ) :
    Euler.State d :=
  Euler.applyGalileiTransform (compute (T x) t) Tv

/-- The random perturbation (initial_values.template.h:200-219): component `i` is multiplied by `1 + perturbation *
draw`, but only for `t <= 0`, and only if the perturbation is switched on. -/
def perturbed {k : ℕ} (perturbation : ℝ) (draw : Fin k → ℝ) (old : Vec d → ℝ → Fin k → ℝ) (x : Vec d) (t : ℝ) :
    Fin k → ℝ :=
  open Classical in
  if perturbation = 0 then old x t
  else if t > 0 then old x t
  else fun i => old x t i * (1 + perturbation * draw i)

end

end InitialValues
end Ryujin
