import Verif.Model.Assembly

/-!
# What the finite element library is expected to deliver, and exact integrals

`Consistent` and `Conforming` collect standard facts about Lagrange elements, hanging node and periodicity constraints and
sufficiently accurate quadrature.  `basis`, `basisTrace` are the global basis functions after resolving the constraints.
-/

namespace Ryujin
namespace Assembly

noncomputable section

variable {κ : Type} {n s nq nf nfq nn dim : ℕ}

/-- Partition of unity of the shape functions and of the constraints. -/
structure FeData.Consistent (F : FeData κ n s nq nf nfq nn dim) : Prop where
  unity : ∀ K q, ∑ i, F.value K q i = 1
  gradUnity : ∀ K q d, ∑ i, F.grad K q i d = 0
  faceUnity : ∀ K f q, ∑ i, F.faceValue K f q i = 1
  /-- constraints are closed: they refer to unconstrained degrees of freedom only -/
  closed : ∀ i k, F.constrained i → F.constrained k → F.coef i k = 0
  coefUnity : ∀ i, F.constrained i → ∑ k, F.coef i k = 1
  /-- no constraints for a discontinuous ansatz (asserted in local_index_handling.h:445-446) -/
  unconstrained : F.dG = true → ∀ k, ¬ F.constrained k
  /-- shape functions without support on a face vanish there -/
  support : ∀ K f q i, ¬ F.supportOnFace i f → F.faceValue K f q i = 0
  nodalSupport : ∀ K f q i, ¬ F.supportOnFace i f → F.nodalValue K f q i = 0

/-- The value of the global basis function of `k` at quadrature point `q` of cell `K`. -/
def basis (F : FeData κ n s nq nf nfq nn dim) (k : Fin n) (K : κ) (q : Fin nq) : ℝ :=
  ∑ i, expand F (F.dofs K i) k * F.value K q i

/-- The gradient of the global basis function of `k`. -/
def basisGrad (F : FeData κ n s nq nf nfq nn dim) (k : Fin n) (K : κ) (q : Fin nq) : Vec dim :=
  fun d => ∑ i, expand F (F.dofs K i) k * F.grad K q i d

/-- The trace of the global basis function of `k` on a face, from the inside of cell `K`. -/
def basisTrace (F : FeData κ n s nq nf nfq nn dim) (k : Fin n) (K : κ) (f : Fin nf) (q : Fin nfq) : ℝ :=
  ∑ i, expand F (F.dofs K i) k * F.faceValue K f q i

/-- A mesh of matching cells with exact quadrature: both sides of a face see the same points with opposite normals, the
divergence theorem holds for products of shape functions, and for a continuous ansatz the basis functions have one trace. -/
structure FeData.Conforming (F : FeData κ n s nq nf nfq nn dim) : Prop where
  back : ∀ K f K' f', F.neighbor K f = some (K', f') → F.neighbor K' f' = some (K, f)
  weight : ∀ K f K' f', F.neighbor K f = some (K', f') → ∀ q, F.faceJxW K' f' q = F.faceJxW K f q
  opposite : ∀ K f K' f', F.neighbor K f = some (K', f') → ∀ q d, F.normal K' f' q d = -F.normal K f q d
  gauss : ∀ K i j d, ∑ q, F.JxW K q * (F.value K q i * F.grad K q j d + F.value K q j * F.grad K q i d) =
    ∑ f, ∑ q, F.faceJxW K f q * F.normal K f q d * F.faceValue K f q i * F.faceValue K f q j
  continuous : F.dG = false → ∀ k K f K' f', F.neighbor K f = some (K', f') → ∀ q,
    basisTrace F k K' f' q = basisTrace F k K f q

/-- `∫ φ_k φ_l n` over the faces without neighbour. -/
def boundaryIntegral [Fintype κ] (F : FeData κ n s nq nf nfq nn dim) (k l : Fin n) : Vec dim := fun d =>
  ∑ K, ∑ f, if (F.neighbor K f).isNone then
    ∑ q, F.faceJxW K f q * F.normal K f q d * basisTrace F k K f q * basisTrace F l K f q else 0

/-- The basis function of `k` vanishes on the boundary. -/
def Interior (F : FeData κ n s nq nf nfq nn dim) (k : Fin n) : Prop :=
  ∀ K f, F.neighbor K f = none → ∀ q, basisTrace F k K f q = 0

/-- No faces without neighbour, e.g. a fully periodic mesh. -/
def NoBoundary (F : FeData κ n s nq nf nfq nn dim) : Prop := ∀ K f, (F.neighbor K f).isSome

end

end Assembly
end Ryujin
