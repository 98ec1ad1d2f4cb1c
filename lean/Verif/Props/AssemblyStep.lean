import Verif.Props.Assembly
import Verif.Props.EulerInvariantDomain

/-!
# C87: one Euler step on an assembled mesh without boundary
-/

namespace Ryujin
namespace Assembly

open Classical

variable {κ : Type} {n s nq nf nfq nn dim : ℕ} {F : FeData κ n s nq nf nfq nn dim}

/-- **C87 (conservation on an assembled mesh).** On every conforming mesh whose faces all have neighbours, with matrices
as assembled by `OfflineData`, a step of the Euler equations (Riemann solver of the code, no Newton iterations) from
admissible states conserves `∫ρ`, `∫m` and `∫E`, where the integral of a finite element function is the sum over all
quadrature points. -/
theorem C87_euler_conserves [Fintype κ] (hF : F.Consistent) (hG : F.Conforming) (hB : NoBoundary F)
    (hint : ∀ K i, 0 < ∑ q, F.JxW K q * F.value K q i) (hcoef : ∀ i k, F.constrained i → 0 ≤ F.coef i k)
    (hdof : ∀ k : Dof F, ∃ K i, F.dofs K i = k) (hst : ∀ k : Dof F, stencil F k ≠ [])
    (ip : IncidenceParams) (below skip : Dof F → Dof F → Prop) (boundary : Dof F → Prop)
    (hasymm : ∀ i j, below i j → ¬ below j i) (hskip : ∀ i j, skip i j → below i j)
    (p : Euler.Params) (hg : 1 < p.gamma) (rp : Euler.RiemannParams) (h0 : rp.newton_max_iterations = 0)
    (lp : LimiterParams) (big : ℝ) (riem : Dof F → Dof F → Euler.State dim → Euler.State dim → Vec dim → ℝ)
    (hriem : ∀ i j U V n, Euler.IsRiemannLane p rp U V n (riem i j U V n))
    (ind : Euler.State dim → List (Euler.State dim × Vec dim) → ℝ → ℝ)
    (lim : Dof F → Dof F → Euler.Bounds → Euler.State dim → Euler.State dim → ℝ × Prop)
    (par : Hyp.Params) (strategy : Hyp.Strategy) (cnt : Hyp.Counters) (lo : Hyp.Leftover (Dof F) (Euler.State dim))
    (old : Hyp.StateVector (Dof F) Unit (Euler.State dim)) (hold : ∀ i, Euler.Admissible (old.U i))
    (stages : List (ℝ × Hyp.StateVector (Dof F) Unit (Euler.State dim))) (tau tau_max : ℝ)
    (U : Dof F → Euler.State dim) (t : ℝ)
    (h : (Hyp.step (Euler.description p lp big riem ind lim) (assembled F ip below skip boundary) par strategy cnt lo old
      stages tau tau_max).1 = .done U t) (c : Fin (dim + 2)) :
    ∑ K, ∑ q, F.JxW K q * ∑ k : Dof F, basis F k K q * U k c =
      ∑ K, ∑ q, F.JxW K q * ∑ k : Dof F, basis F k K q * old.U k c := by
  have key := Euler.C13_euler_solver_conserves p hg rp h0 lp big riem hriem ind lim (assembled F ip below skip boundary)
    (C87_assembled_wellFormed hG ip below skip boundary hasymm hskip)
    (C87_assembled_closed hF hG hB ip below skip boundary hint hcoef hdof) hst par strategy cnt lo old hold stages tau
    tau_max U t h
  have e : ∀ V : Dof F → Euler.State dim, ∑ K, ∑ q, F.JxW K q * ∑ k : Dof F, basis F k K q * V k c =
      ∑ k : Dof F, lumpedMass F k * V k c := by
    intro V
    have hl : ∀ k : Dof F, lumpedMass F k * V k c = ∑ K, ∑ q, F.JxW K q * (basis F k K q * V k c) := by
      intro k
      rw [lumped_eq hF k.2]
      simp only [Finset.sum_mul, mul_assoc]
    simp only [hl, Finset.mul_sum]
    refine Eq.symm ?_
    rw [Finset.sum_comm]
    refine Finset.sum_congr rfl fun K _ => ?_
    rw [Finset.sum_comm]
  rw [e, e]
  clear e
  revert c
  refine Fin.cases key.1 fun c => Fin.lastCases key.2.2 (fun d => key.2.1 d) c

/-- The mesh hypotheses are met by the periodic mesh with three cells. -/
example : ringFe.Consistent ∧ ringFe.Conforming ∧ NoBoundary ringFe ∧ ∀ k : Dof ringFe, stencil ringFe k ≠ [] := by
  refine ⟨ringFe_consistent, ringFe_conforming, fun K f => by fin_cases K <;> fin_cases f <;> rfl, ?_⟩
  have hmem : ∀ k l : Dof ringFe, l ≠ k → (∃ K i j, ringFe.dofs K i = k ∧ ringFe.dofs K j = l) → stencil ringFe k ≠ [] := by
    rintro k l hne ⟨K, i, j, hi, hj⟩
    refine List.ne_nil_of_mem (a := l) (mem_stencil.2 ⟨hne, Or.inl ⟨K, i, j, trivial, trivial, ?_, ?_⟩⟩)
    · rw [hi]; unfold expand; rw [if_neg k.2, if_pos rfl]; exact one_ne_zero
    · rw [hj]; unfold expand; rw [if_neg l.2, if_pos rfl]; exact one_ne_zero
  rintro ⟨k, hk⟩
  have hk' : k ≠ 3 := hk
  have h1 : ¬ ringFe.constrained 1 := by simp [ringFe]
  have h0 : ¬ ringFe.constrained 0 := by simp [ringFe]
  fin_cases k
  · exact hmem _ ⟨1, h1⟩ (by simp) ⟨0, 0, 1, rfl, rfl⟩
  · exact hmem _ ⟨0, h0⟩ (by simp) ⟨0, 1, 0, rfl, rfl⟩
  · exact hmem _ ⟨1, h1⟩ (by simp) ⟨1, 1, 0, rfl, rfl⟩
  · exact absurd rfl hk'

end Assembly
end Ryujin
