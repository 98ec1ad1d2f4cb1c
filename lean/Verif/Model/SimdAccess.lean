import Verif.Model.GeoTiff

/-!
# Model of the SIMD access functions (source/simd.h)

Vectors have a fixed number of locally stored elements; reading or writing outside of them is undefined behaviour
(`Outcome.ub`).  The template parameter `T` is either the scalar type or a `VectorizedArray` with `w` lanes; the scalar type is
the case `w = 1`.  Release builds are modelled: `Assert` has no effect.  Not modelled: alignment of addresses (`load` and `store`
do not require it).  The overload of `get_entry` for a `std::vector` and a list of indices calls `VectorizedArray::load` with two
arguments (simd.h:331-347), which deal.II does not have: it can only be used with `w = 1`.
-/

namespace Ryujin
namespace SimdAccess

open GeoTiff (Outcome)

variable {α β γ : Type} {n w : ℕ}

/-- Continue with the result of a computation. (simd.h:244-300) -/
def andThen : Outcome β → (β → Outcome γ) → Outcome γ
  | .ok x, f => f x
  | .exception, _ => .exception
  | .ub, _ => .ub

/-- `get_entry(vector, i)` (simd.h:243-258, 267-297): `w` consecutive elements; `conv` converts an element of the vector to the
scalar type of `T`, it is the identity unless the vector is a `std::vector` of another type (simd.h:285-294). -/
def getEntry (w : ℕ) (conv : α → β) (v : Fin n → α) (i : ℕ) : Outcome (Fin w → β) :=
  if h : i + w ≤ n then .ok fun k => conv (v ⟨i + k, by have := k.isLt; omega⟩) else .ub

/-- `get_entry(vector, js)` (simd.h:305-321): one element for every lane. -/
def gather (v : Fin n → α) (js : Fin w → ℕ) : Outcome (Fin w → α) :=
  if h : ∀ k, js k < n then .ok fun k => v ⟨js k, h k⟩ else .ub

/-- `write_entry(vector, values, i)` (simd.h:356-369, 378-402). -/
def writeEntry (conv : β → α) (v : Fin n → α) (x : Fin w → β) (i : ℕ) : Outcome (Fin n → α) :=
  if i + w ≤ n then
    .ok fun j => if h : i ≤ j ∧ (j : ℕ) < i + w then conv (x ⟨j - i, by omega⟩) else v j
  else .ub

/-- One iteration of a loop over rows: the number of lanes and the first row. (postprocessor.template.h:145-153) -/
structure Task where
  width : ℕ
  start : ℕ

/-- The iterations of `for (i = left; i < right; i += stride_size)` (postprocessor.template.h:147-153,
navier_stokes/parabolic_solver.template.h:261-267). -/
def tasks (w left right : ℕ) : List Task :=
  (List.range ((right - left + w - 1) / w)).map fun k => ⟨w, left + k * w⟩

/-- The serial loop over `[n_internal, n_owned)` and the vectorised one over `[0, n_internal)`
(postprocessor.template.h:215-218, navier_stokes/parabolic_solver.template.h:286-289). -/
def allTasks (w nInternal nOwned : ℕ) : List Task := tasks 1 nInternal nOwned ++ tasks w 0 nInternal

/-- Iterations in the given order: `get_entry` from one vector, `f` applied to every lane and `write_entry` to another one
(navier_stokes/parabolic_solver.template.h:267-283). -/
def run (f : α → β) (src : Fin n → α) : List Task → (Fin n → β) → Outcome (Fin n → β)
  | [], dst => .ok dst
  | t :: l, dst =>
    andThen (getEntry t.width id src t.start) fun x =>
    andThen (writeEntry id dst (fun k => f (x k)) t.start) fun dst' => run f src l dst'

/-- `dealii::Tensor<rank, dim, T>`. (simd.h:411-415) -/
def Tensor (dim : ℕ) : ℕ → Type → Type
  | 0, α => α
  | rank + 1, α => Fin dim → Tensor dim rank α

variable {dim : ℕ}

/-- `serialize_tensor` for a lane `k` that exists (simd.h:410-428). -/
def serializeLane (k : Fin w) : (rank : ℕ) → Tensor dim rank (Fin w → α) → Tensor dim rank α
  | 0, x => (x : Fin w → α) k
  | rank + 1, x => fun d => serializeLane k rank (x d)

/-- `serialize_tensor` (simd.h:410-428). -/
def serialize (rank : ℕ) (x : Tensor dim rank (Fin w → α)) (k : ℕ) : Outcome (Tensor dim rank α) :=
  if h : k < w then .ok (serializeLane ⟨k, h⟩ rank x) else .ub

/-- `assign_serial_tensor` for a lane `k` that exists (simd.h:452-468). -/
def assignLane (k : Fin w) : (rank : ℕ) → Tensor dim rank (Fin w → α) → Tensor dim rank α → Tensor dim rank (Fin w → α)
  | 0, x, s => (Function.update (x : Fin w → α) k s : Fin w → α)
  | rank + 1, x, s => fun d => assignLane k rank (x d) (s d)

/-- `assign_serial_tensor` (simd.h:452-468). -/
def assign (rank : ℕ) (x : Tensor dim rank (Fin w → α)) (s : Tensor dim rank α) (k : ℕ) :
    Outcome (Tensor dim rank (Fin w → α)) :=
  if h : k < w then .ok (assignLane ⟨k, h⟩ rank x s) else .ub

/-- `serialize_tensor` for a serial tensor (simd.h:436-446): the index is ignored. -/
def serializeSerial (rank : ℕ) (x : Tensor dim rank α) (_k : ℕ) : Tensor dim rank α := x

/-- `assign_serial_tensor` for a serial tensor (simd.h:476-487): the index is ignored. -/
def assignSerial (rank : ℕ) (_x : Tensor dim rank α) (s : Tensor dim rank α) (_k : ℕ) : Tensor dim rank α := s

/-- Filling a vectorised tensor lane by lane with `assign_serial_tensor` (simd.h:452-468). -/
def assembleLanes (rank : ℕ) (x : Tensor dim rank (Fin w → α)) (s : Fin w → Tensor dim rank α) :
    Tensor dim rank (Fin w → α) :=
  (List.finRange w).foldl (fun x k => assignLane k rank x (s k)) x

end SimdAccess
end Ryujin
