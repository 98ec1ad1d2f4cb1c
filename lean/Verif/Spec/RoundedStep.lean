import Verif.Model.RoundedStep

/-!
# Specification: size of the numbers added up in a step

Rounding errors are measured against the sum of the absolute values of the numbers that are added up.
-/

namespace Ryujin
namespace Rounded

noncomputable section

open Hyp

variable {ι : Type} {dim : ℕ} (R : Rounding) (s : Contractions ι) (M : Mesh ι dim) (X : StepData ι dim)

/-- Size of `(f_i + f_j) · c`. -/
def fluxSize (f_i f_j c : Vec dim) : ℝ := ((List.finRange dim).map fun k => (|f_i k| + |f_j k|) * |c k|).sum

/-- Size of the contributions to the low-order update. -/
def lowSize (i : ι) : ℝ :=
  |X.U i| + ((M.columns i).map fun j =>
    |X.tau| / M.lumped i * fluxSize (X.f i) (X.f j) (M.c i j) + |X.tau| / M.lumped i * |X.d i j| * (|X.U j| + |X.U i|)).sum

/-- Size of the contributions of the mass matrix to the correction of row `i` in direction of `j`. -/
def massSize (i j : ι) : ℝ :=
  if M.dG then M.lumped i * |M.massInv i j| * |rhs R s M X j| + M.lumped j * |M.massInv i j| * |rhs R s M X i|
  else |M.mass i j| / M.lumped j * |rhs R s M X j| + |M.mass i j| / M.lumped i * |rhs R s M X i|

/-- Size of the contributions to the correction of row `i` in direction of `j`. -/
def correctionSize (i j : ι) : ℝ :=
  |X.tau| / M.lumped i *
    (fluxSize (X.f i) (X.f j) (M.c i j) + (|X.d i j| * |factor R M X i j| + |X.d i j|) * (|X.U j| + |X.U i|)
      + |X.weight| * fluxSize (X.f i) (X.f j) (M.c i j)
      + (X.stages.map fun st => |st.1| * fluxSize (st.2 i) (st.2 j) (M.c i j)).sum + massSize R s M X i j)

/-- Size of all contributions to the new state. -/
def stepSize (lij : List (ι → ι → ℝ)) (i : ι) : ℝ :=
  lowSize M X i + (lij.map fun l => ((M.nbrs i).map fun j => |symmetrized l i j| * correctionSize R s M X i j).sum).sum

end

end Rounded
end Ryujin
