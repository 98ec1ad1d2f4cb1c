import Mathlib.Data.Real.Basic
import Mathlib.Algebra.BigOperators.Fin
import Mathlib.Analysis.Real.Sqrt

/-!
# `dealii::Tensor<1, dim, Number>` with `Number` idealised as `ℝ`

deal.II is external to the repository; these are the operations of its rank-one tensors that the
modelled code uses (`operator*` of two tensors, `norm_square()`, `norm()`), plus
`ryujin::add`/`ryujin::contract` (`source/multicomponent_vector.h` / `flux` helpers) in
`Verif.Model.EulerSystem`.
-/

namespace Ryujin

open scoped BigOperators

noncomputable section

/-- `dealii::Tensor<1, n, Number>`. (multicomponent_vector.h:100-140) -/
abbrev Vec (n : ℕ) := Fin n → ℝ

/-- `a * b` for two rank-one tensors. (euler/hyperbolic_system.h:1095-1158) -/
def dot {n : ℕ} (a b : Vec n) : ℝ := ∑ i, a i * b i

/-- `Tensor::norm_square()`. (euler/hyperbolic_system.h:791, 863) -/
def normSq {n : ℕ} (a : Vec n) : ℝ := ∑ i, a i * a i

/-- `Tensor::norm()`. (hyperbolic_module.template.h:405) -/
def vnorm {n : ℕ} (a : Vec n) : ℝ := Real.sqrt (normSq a)

end

end Ryujin
