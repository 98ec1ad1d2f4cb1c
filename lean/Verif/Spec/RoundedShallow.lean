import Verif.Model.RoundedShallow
import Verif.Spec.RoundedStep

/-! # Specification: size of the numbers added up in a step of the shallow water equations -/

namespace Ryujin
namespace RoundedShallow

noncomputable section

open Hyp Rounded

variable {ι : Type} {dim : ℕ} (R : Rounding) (s : Contractions ι) (M : Mesh ι dim) (X : StepData ι dim)

/-- Size of the contributions to the low-order update. -/
def lowSize (i : ι) : ℝ :=
  |X.U i| + ((M.columns i).map fun j => |X.tau| / M.lumped i * fluxSize (X.fStar i j) (X.fStar j i) (M.c i j)
    + |X.tau| / M.lumped i * |X.d i j| * (|X.star j i| + |X.star i j|)).sum

/-- Size of the contributions of the mass matrix to the correction of row `i` in direction of `j`. -/
def massSize (i j : ι) : ℝ :=
  if M.dG then M.lumped i * |M.massInv i j| * |rhs R s M X j| + M.lumped j * |M.massInv i j| * |rhs R s M X i|
  else |M.mass i j| / M.lumped j * |rhs R s M X j| + |M.mass i j| / M.lumped i * |rhs R s M X i|

/-- Size of the contributions to the correction of row `i` in direction of `j`. -/
def correctionSize (i j : ι) : ℝ :=
  |X.tau| / M.lumped i *
    (fluxSize (X.fStar i j) (X.fStar j i) (M.c i j) + (|X.d i j| * |factor R M X i j| + |X.d i j|) * (|X.star j i| + |X.star i j|)
      + |X.weight| * fluxSize (X.f i) (X.f j) (M.c i j)
      + (X.stages.map fun st => |st.1| * fluxSize (st.2 i) (st.2 j) (M.c i j)).sum + massSize R s M X i j)

/-- Size of all contributions to the new depth. -/
def stepSize (lij : List (ι → ι → ℝ)) (i : ι) : ℝ :=
  lowSize M X i + (lij.map fun l => ((M.nbrs i).map fun j => |symmetrized l i j| * correctionSize R s M X i j).sum).sum

end

end RoundedShallow
end Ryujin
