import Verif.Props.Balance
import Verif.Props.EulerInvariantDomain
import Mathlib.Tactic.FinCases

/-!
# C93 and C17: updates with stages at curved walls
-/

namespace Ryujin

open scoped BigOperators

namespace Euler

open Hyp

/-- Two nodes on a curved wall: `c_01 + c_10 = (0, 1)` is not parallel to the boundary normals `(1, 0)` and `(-1, 0)`. -/
noncomputable def bend : Mesh (Fin 2) 2 where
  nbrs := fun i => [i + 1]
  below := fun i j => j < i
  skip := fun _ _ => False
  boundary := fun _ => True
  c := fun i j => if i = 0 then (if j = 0 then ![1 / 2, -1 / 2] else ![-1 / 2, 1 / 2])
    else (if j = 0 then ![1 / 2, 1 / 2] else ![-1 / 2, -1 / 2])
  mass := fun i j => if i = j then 2 / 3 else 1 / 3
  massInv := fun _ _ => 0
  lumped := fun _ => 1
  incidence := fun _ _ => 0
  dG := false
  omega := 2

theorem bend_wf : bend.WellFormed := by
  refine ⟨fun i => by simp [bend], fun i => ?_, fun i j h => ?_, fun i j h h' => lt_asymm h h', fun i j h => h.elim⟩
  · fin_cases i <;> simp [bend]
  · fin_cases i <;> fin_cases j <;> simp [bend] at h ⊢

theorem bend_symmetric : bend.Symmetric := by
  refine ⟨fun i j _ => ?_, fun i j _ => rfl, fun i j _ => rfl, fun i => one_pos⟩
  fin_cases i <;> fin_cases j <;> simp [bend]

theorem bend_row (i : Fin 2) : bend.c i i + ((bend.nbrs i).map (bend.c i)).sum = 0 := by
  funext k
  fin_cases i <;> fin_cases k <;> simp [bend] <;> norm_num

theorem bend_normal (j : Fin 2) : bend.boundaryNormal j = ![if j = 0 then 1 else -1, 0] := by
  funext k
  fin_cases j <;> fin_cases k <;> simp [bend, Mesh.boundaryNormal] <;> norm_num

/-- A gas with unit density that flows along the wall with velocity `(0, v)`. -/
noncomputable def slide (v : ℝ) : StateVector (Fin 2) Unit (State 2) := ⟨fun _ => ![1, 0, v, 2], ()⟩

theorem slide_momentum (v : ℝ) (i : Fin 2) : momentum ((slide v).U i) = ![0, v] := by
  funext k; fin_cases k <;> rfl

/-- The Euler equations with a limiter that never limits. -/
noncomputable def unlimited : Hyp.Description (Fin 2) Unit (State 2) (Fin (2 + 2) → Vec 2) Bounds 2 :=
  description air ringLp 1000 (fun _ _ _ _ _ => 1) (fun _ _ _ => 0) (fun _ _ _ _ _ => (1, True))

/-- Leftovers. -/
noncomputable def bendLo : Leftover (Fin 2) (State 2) := ⟨fun _ _ => -7, fun _ _ => 5, fun _ => 0, [1, 0]⟩

theorem unlimited_density (U V : State 2) (c : Vec 2) :
    unlimited.fluxDiv (unlimited.flux () 0 U) (unlimited.flux () 0 V) c 0 =
      -(dot (momentum U) c + dot (momentum V) c) := by
  have := (centralFlux (ι := Fin 2) air ringLp 1000 (fun _ _ _ _ _ => 1) (fun (_ : State 2) _ _ => 0)
    (fun _ _ _ _ _ => (1, True))).fluxDiv (unlimited.flux () 0 U) (unlimited.flux () 0 V) c
  unfold unlimited at this ⊢
  rw [this]
  show -(contract (f air U) c 0 + contract (f air V) c 0) = _
  rw [show f air U = Aeos.f U (pressure air U) from rfl, show f air V = Aeos.f V (pressure air V) from rfl,
    (Aeos.fluxThrough_f _ _ _).1, (Aeos.fluxThrough_f _ _ _).1]

/-- The time step of the examples below. -/
noncomputable def bendStep : Stage4 (Fin 2) Unit (State 2) :=
  stage4 unlimited bend demoPar bendLo (slide 1) [(-1, slide 0)] (1 / 10)

theorem bend_weight : bendStep.weight = 2 := by
  norm_num [bendStep, stage4, Stage4.weight]

theorem bend_jump (i j : Fin 2) : jump unlimited bendStep i j = 0 := sub_self _

theorem bend_flux (i j : Fin 2) : fluxIJ unlimited bend bendStep i j 0 = -(2 * bend.c i j 1) := by
  have := unlimited_density ((slide 1).U i) ((slide 1).U j) (bend.c i j)
  rw [slide_momentum, slide_momentum] at this
  refine Eq.trans this ?_
  simp [dot, Fin.sum_univ_two]; ring

theorem bend_highOrder (i j : Fin 2) : highOrderPart unlimited bend bendStep i j 0 = -(4 * bend.c i j 1) := by
  have h1 : highOrderIJ unlimited bend bendStep i j 0 = -(2 * bend.c i j 1) := bend_flux i j
  have h2 : stageFluxIJ unlimited bend ((-1 : ℝ), slide 0) i j 0 = 0 := by
    have := unlimited_density ((slide 0).U i) ((slide 0).U j) (bend.c i j)
    rw [slide_momentum, slide_momentum] at this
    refine Eq.trans this ?_
    simp [dot, Fin.sum_univ_two]
  have h3 : highOrderPart unlimited bend bendStep i j = (2 : ℝ) • highOrderIJ unlimited bend bendStep i j + (2 * bend.mass i j) • (0 : State 2) +
    ([((-1 : ℝ), slide 0)].map fun s => s.1 • stageFluxIJ unlimited bend s i j + (s.1 * bend.mass i j) • (0 : State 2)).sum := by
    unfold highOrderPart
    rw [bend_weight]
    rfl
  rw [h3]
  simp only [List.map_cons, List.map_nil, List.sum_cons, List.sum_nil, Pi.add_apply, Pi.smul_apply, h1, h2, smul_eq_mul,
    smul_zero, Pi.zero_apply]
  ring

theorem bend_pStep4 (i j : Fin 2) : pStep4 unlimited bend bendStep i j 0 = -(2 * bend.c i j 1) := by
  have : pStep4 unlimited bend bendStep i j = -fluxIJ unlimited bend bendStep i j +
      (dH bend bendStep i j - bendStep.d i j) • jump unlimited bendStep i j - bend.mass i j • (0 : State 2) +
      highOrderPart unlimited bend bendStep i j := rfl
  rw [this, bend_jump]
  simp only [Pi.add_apply, Pi.sub_apply, Pi.neg_apply, bend_flux, bend_highOrder, smul_zero, Pi.zero_apply]
  ring

theorem bend_new (i : Fin 2) : newStates unlimited bend demoPar bendLo bendStep i 0 = 1 + 1 / 10 * (-(2 * bend.c i (i + 1) 1) +
    (-(1 / 3) * rhsH unlimited bend bendStep (i + 1) 0 + 1 / 3 * rhsH unlimited bend bendStep i 0)) := by
  rw [newStates_unlimited unlimited bend demoPar bendLo bendStep (Or.inr rfl) i (by simp [bend])
    (fun j _ => by simp [symmetrized, l1, unlimited, description])]
  have hlow : lowOrder unlimited bend bendStep i 0 = 1 := by
    have : lowOrder unlimited bend bendStep i = (slide 1).U i + (1 / 10 : ℝ) • (0 : State 2) +
      (((1 / 10 : ℝ) * (1 : ℝ)⁻¹) • fluxIJ unlimited bend bendStep i i + ((1 / 10 : ℝ) * (1 : ℝ)⁻¹ * bendStep.d i i) • jump unlimited bendStep i i +
      ((((1 / 10 : ℝ) * (1 : ℝ)⁻¹) • fluxIJ unlimited bend bendStep i (i + 1) + ((1 / 10 : ℝ) * (1 : ℝ)⁻¹ * bendStep.d i (i + 1)) •
        jump unlimited bendStep i (i + 1)) + 0)) := rfl
    rw [this, bend_jump, bend_jump]
    simp only [Pi.add_apply, Pi.smul_apply, bend_flux, smul_zero, Pi.zero_apply, smul_eq_mul]
    fin_cases i <;> simp [slide, bend] <;> norm_num
  have hp : pIJ unlimited bend bendStep i (i + 1) = ((1 / 10 : ℝ) * (1 : ℝ)⁻¹ * (1 : ℕ)) •
      (pStep4 unlimited bend bendStep i (i + 1) + ((-(bend.mass i (i + 1) * (1 : ℝ)⁻¹)) • rhsH unlimited bend bendStep (i + 1) -
        (-(bend.mass i (i + 1) * (1 : ℝ)⁻¹)) • rhsH unlimited bend bendStep i)) := rfl
  have hm : bend.mass i (i + 1) = 1 / 3 := by fin_cases i <;> simp [bend]
  have hn : bend.nbrs i = [i + 1] := rfl
  rw [hn]
  simp only [List.map_cons, List.map_nil, List.sum_cons, List.sum_nil, Pi.add_apply, Pi.sub_apply, Pi.smul_apply, hlow, hp, hm,
    bend_pStep4, smul_eq_mul, List.length_singleton, Pi.zero_apply]
  push_cast
  ring

theorem bend_done : ∃ U, (step unlimited bend demoPar .warn ⟨0, 0⟩ bendLo (slide 1) [(-1, slide 0)] (1 / 10) 10).1 =
      .done U (1 / 10) ∧ U = newStates unlimited bend demoPar bendLo bendStep := by
  have h1 := C11_step_tau unlimited bend demoPar .warn ⟨0, 0⟩ bendLo (slide 1) [(-1, slide 0)] (1 / 10) 10
    (by norm_num [demoPar]) (by norm_num [demoPar]) bend_symmetric.lumped (by norm_num)
  obtain ⟨U, t, h⟩ := C18_warn_returns unlimited bend demoPar ⟨0, 0⟩ bendLo (slide 1) [(-1, slide 0)] (1 / 10) 10 h1.1
  have ht := h1.2.2 U t h
  rw [if_neg (by norm_num)] at ht
  subst ht
  exact ⟨U, h, (step_done h).2.2⟩

/-- **C93 is violated with stages on curved walls.** An update with a stage (weight -1, as in the second stage of the
`ERK(2;1)` scheme): no old state and no stage flows through the boundary, the limiter does not limit, yet the total mass
changes, because the update uses the fluxes `c_ij` of single pairs, which do not vanish, and omits the flux correction of
the diagonal. -/
theorem C93_curved_wall_violation :
    (∀ v j, dot (momentum ((slide v).U j)) (bend.boundaryNormal j) = 0) ∧
    ∃ U, (step unlimited bend demoPar .warn ⟨0, 0⟩ bendLo (slide 1) [(-1, slide 0)] (1 / 10) 10).1 = .done U (1 / 10) ∧
      ∑ i, bend.lumped i * density (U i) = ∑ i, bend.lumped i * density ((slide 1).U i) - 1 / 5 := by
  refine ⟨fun v j => by rw [slide_momentum, bend_normal]; simp [dot, Fin.sum_univ_two], ?_⟩
  obtain ⟨U, h, hU⟩ := bend_done
  refine ⟨U, h, ?_⟩
  rw [hU]
  have e0 := bend_new 0
  have e1 := bend_new 1
  simp only [Fin.sum_univ_two]
  show 1 * newStates unlimited bend demoPar bendLo bendStep 0 0 + 1 * newStates unlimited bend demoPar bendLo bendStep 1 0 =
    1 * 1 + 1 * 1 - 1 / 5
  rw [e0, e1]
  have c0 : bend.c 0 (0 + 1) 1 = 1 / 2 := by simp [bend]
  have c1 : bend.c 1 (1 + 1) 1 = 1 / 2 := by simp [bend]
  rw [c0, c1]
  have : (0 + 1 : Fin 2) = 1 := rfl
  have : (1 + 1 : Fin 2) = 0 := rfl
  simp only [*]
  norm_num
  ring

/-- **C17 is violated in rows at the boundary if stages are used.** All limiter coefficients are one, yet the update is not
the high-order update: the diagonal entry `P_ii` of the flux corrections is dropped. -/
theorem C17_boundary_row_violation :
    (∀ i j, symmetrized (fun i j => (l1 unlimited bend demoPar bendLo bendStep i j).1) i j = 1) ∧
    ∃ U, (step unlimited bend demoPar .warn ⟨0, 0⟩ bendLo (slide 1) [(-1, slide 0)] (1 / 10) 10).1 = .done U (1 / 10) ∧
      ∀ i, U i ≠ bendStep.old.U i + (bendStep.tau * (bend.lumped i)⁻¹) • (rhsH unlimited bend bendStep i +
        ((bend.nbrs i).map fun j => bIJ bend i j • rhsH unlimited bend bendStep j -
          bJI bend i j • rhsH unlimited bend bendStep i).sum) := by
  have hone : ∀ i j, symmetrized (fun i j => (l1 unlimited bend demoPar bendLo bendStep i j).1) i j = 1 :=
    fun i j => by simp [symmetrized, l1, unlimited, description]
  refine ⟨hone, ?_⟩
  obtain ⟨U, h, hU⟩ := bend_done
  refine ⟨U, h, fun i he => ?_⟩
  have key := C17_unlimited_step_partial unlimited bend demoPar bendLo bendStep (Or.inr rfl) i (by simp [bend]) one_ne_zero
    (by fin_cases i <;> simp [bend] <;> norm_num) (bend_jump i i) (fun j _ => hone i j)
  rw [← hU, ← he, eq_comm, sub_eq_self] at key
  have := congrFun key 0
  rw [Pi.smul_apply, bend_pStep4] at this
  revert this
  have : bendStep.tau = 1 / 10 := rfl
  rw [this]
  fin_cases i <;> simp [bend]

end Euler

end Ryujin
