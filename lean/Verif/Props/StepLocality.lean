import Verif.Proofs.StepCongr
import Verif.Props.HyperbolicStep

/-!
# Property C59: a step depends on nothing but its arguments
-/

namespace Ryujin
namespace Hyp

variable {ι P S F B : Type} {dim : ℕ}

/-- **C59.** Two calls of `step` on state vectors that agree on the unconstrained rows and on the precomputed values,
with arbitrary different contents `lo`, `lo'` of all scratch matrices and of the output vector (and the same row
order, which matters for discontinuous elements only), return the same values on all unconstrained rows, the same
time step size and the same counters, or both throw. -/
theorem C59_step_congr [AddCommGroup S] [Module ℝ S] [Fintype ι] (D : Description ι P S F B dim) (M : Mesh ι dim)
    (hM : M.WellFormed) (par : Params) (strategy : Strategy) (cnt : Counters)
    (lo lo' : Leftover ι S) (ho : lo.order = lo'.order) (x y : StateVector ι P S)
    (hU : ∀ i, M.nbrs i ≠ [] → x.U i = y.U i) (hp : x.prec = y.prec)
    (st st' : List (ℝ × StateVector ι P S))
    (hs : List.Forall₂ (fun p q => p.1 = q.1 ∧ (∀ i, M.nbrs i ≠ [] → p.2.U i = q.2.U i) ∧ p.2.prec = q.2.prec) st st')
    (tau tau_max : ℝ) :
    (match (step D M par strategy cnt lo x st tau tau_max).1, (step D M par strategy cnt lo' y st' tau tau_max).1 with
      | .crashed, .crashed => True
      | .restart, .restart => True
      | .done U t, .done U' t' => (∀ i, M.nbrs i ≠ [] → U i = U' i) ∧ t = t'
      | _, _ => False) ∧
    (step D M par strategy cnt lo x st tau tau_max).2 = (step D M par strategy cnt lo' y st' tau tau_max).2 := by
  have h := step_congr D hM par strategy cnt ho (x := x) (y := y) ⟨hU, hp⟩ (st := st) (st' := st')
    (List.Forall₂.imp (fun p q h => ⟨h.1, h.2.1, h.2.2⟩) hs) tau tau_max
  refine ⟨?_, h.2⟩
  have h1 := h.1
  revert h1
  generalize (step D M par strategy cnt lo x st tau tau_max).1 = o
  generalize (step D M par strategy cnt lo' y st' tau tau_max).1 = o'
  intro h1
  cases o <;> cases o' <;> simp_all [SameOutcome]
  exact h1.1

/-- **C59 (cG).** For continuous elements not even the order in which the rows are processed matters. -/
theorem C59_step_congr_cG [AddCommGroup S] [Module ℝ S] [Fintype ι] (D : Description ι P S F B dim) (M : Mesh ι dim)
    (hM : M.WellFormed) (hdG : M.dG = false) (par : Params) (strategy : Strategy) (cnt : Counters)
    (lo : Leftover ι S) (order : List ι) (x : StateVector ι P S) (st : List (ℝ × StateVector ι P S))
    (tau tau_max : ℝ) :
    step D M par strategy cnt { lo with order := order } x st tau tau_max =
      step D M par strategy cnt lo x st tau tau_max := by
  have hf : ∀ X : Stage4 ι P S, finalBounds D M par { lo with order := order } X = finalBounds D M par lo X := by
    intro X; simp [finalBounds, boundsStep5, hdG]
  have hl : ∀ X : Stage4 ι P S, l1 D M par { lo with order := order } X = l1 D M par lo X := by
    intro X; funext i j; simp only [l1, hf]
  have hn : ∀ X : Stage4 ι P S, newStates D M par { lo with order := order } X = newStates D M par lo X := by
    intro X; simp only [newStates, hf, hl]; rfl
  have hr : ∀ X : Stage4 ι P S, restartNeeded D M par { lo with order := order } X ↔ restartNeeded D M par lo X := by
    intro X; simp only [restartNeeded, hl]
  have h4 : ∀ τ, stage4 D M par { lo with order := order } x st τ = stage4 D M par lo x st τ := fun _ => rfl
  unfold step
  simp only [h4, hn]
  by_cases h1 : 0 < tauMax D M par lo.dij x tau_max
  · simp only [h1, not_true_eq_false, if_false]
    by_cases h2 : restartNeeded D M par lo (stage4 D M par lo x st
        (if tau = 0 then tauMax D M par lo.dij x tau_max else tau))
    · exact (if_pos ((hr _).mpr h2)).trans (if_pos h2).symm
    · exact (if_neg (fun h => h2 ((hr _).mp h))).trans (if_neg h2).symm
  · simp only [h1, not_false_eq_true, if_true]

/-- `C59_step_congr` applied: Burgers' equation on the ring, two different contents of the viscosity matrix, of the
limiter matrix and of the output vector. -/
example : (step demo ring demoPar .raise_exception ⟨0, 0⟩
      ⟨fun _ _ => 17, fun _ _ => -4, fun _ => 0, []⟩ demoOld [] 0 10).2 =
    (step demo ring demoPar .raise_exception ⟨0, 0⟩
      ⟨fun _ _ => 0, fun _ _ => 1, fun _ => 5, []⟩ demoOld [] 0 10).2 :=
  (C59_step_congr demo ring ring_wf demoPar .raise_exception ⟨0, 0⟩
    ⟨fun _ _ => 17, fun _ _ => -4, fun _ => 0, []⟩ ⟨fun _ _ => 0, fun _ _ => 1, fun _ => 5, []⟩ rfl demoOld demoOld (fun _ _ => rfl) rfl
    [] [] List.Forall₂.nil 0 10).2

end Hyp
end Ryujin
