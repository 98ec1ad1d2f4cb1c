import Verif.Proofs.EulerLimiter
import Mathlib.Analysis.Calculus.Deriv.Basic
import Mathlib.Analysis.Calculus.Deriv.Inv
import Mathlib.Analysis.Calculus.Deriv.Mul
import Mathlib.Analysis.Calculus.Deriv.Pi
import Mathlib.LinearAlgebra.Pi

/-!
# Helper lemmas on the Euler system
-/

namespace Ryujin
namespace Euler

variable {dim : ℕ}

/-- The normal flux of a state, component-wise. -/
theorem contract_f (p : Params) (U : State dim) (n : Vec dim) :
    contract (f p U) n = mkState (dot (momentum U) n)
      (fun i => dot (momentum U) n * (momentum U i / density U) + pressure p U * n i)
      (dot (momentum U) n * ((totalEnergy U + pressure p U) / density U)) := by
  apply state_ext
  · rw [density_mkState]; rfl
  · rw [momentum_mkState]
    funext i
    show dot (f p U i.castSucc.succ) n = _
    simp only [f, Fin.cons_succ, Fin.snoc_castSucc, dot]
    simp only [add_mul, Finset.sum_add_distrib, ite_mul, zero_mul, Finset.sum_ite_eq', Finset.mem_univ,
      if_true, Finset.sum_mul]
    congr 1
    exact Finset.sum_congr rfl (fun k _ => by ring)
  · rw [totalEnergy_mkState]
    show dot (f p U (Fin.last (dim + 1))) n = _
    rw [show (Fin.last (dim + 1)) = (Fin.last dim).succ from rfl]
    simp only [f, Fin.cons_succ, Fin.snoc_last, dot, Finset.sum_mul]
    exact Finset.sum_congr rfl (fun k _ => by ring)

theorem normSq_smul {n : ℕ} (t : ℝ) (a : Vec n) : normSq (t • a) = t ^ 2 * normSq a := by
  rw [normSq_eq_dot, normSq_eq_dot, dot_smul_left, dot_smul_right]; ring

theorem normSq_add {n : ℕ} (a b : Vec n) : normSq (a + b) = normSq a + 2 * dot a b + normSq b := by
  simp only [normSq_eq_dot, dot_add_left, dot_add_right, dot_comm b a]; ring

theorem pressure_eq (p : Params) (U : State dim) : pressure p U
    = (p.gamma - 1) * (totalEnergy U - (1 / 2) * normSq (momentum U) / density U) := by
  unfold pressure internalEnergy; ring

end Euler
end Ryujin
