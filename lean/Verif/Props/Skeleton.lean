import Verif.Model.Skeleton
import Verif.Props.Runs

/-!
# C115: the skeleton equations do not change any state
-/

namespace Ryujin
namespace Skeleton

open Hyp

noncomputable section

variable {ι : Type} {dim : ℕ}

/-- Without flux and with a vanishing indicator the limited update gives back the old state. -/
theorem newStates_eq (M : Mesh ι dim) (hdG : M.dG = false) (par : Hyp.Params)
    (hn : par.iterations = 1 ∨ par.iterations = 2) (lo : Leftover ι State) (X : Stage4 ι Unit State)
    (hα : ∀ i, X.alpha i = 0) (i : ι) (hi : M.nbrs i ≠ []) :
    newStates (description (dim := dim)) M par lo X i = X.old.U i := by
  have hlen : ((M.nbrs i).length : ℝ) ≠ 0 := by
    have : 0 < (M.nbrs i).length := List.length_pos_iff.2 hi
    positivity
  rw [newStates_unlimited _ M par lo X hn i hi (fun j _ => by simp [symmetrized, l1, description, limit])]
  have hsrc : ∀ k, sourceAt (description (dim := dim)) X k = 0 := fun _ => rfl
  have hflux : ∀ k j, fluxIJ (description (dim := dim)) M X k j = 0 := fun _ _ => rfl
  have hsrcH : ∀ k, sourceH (description (dim := dim)) X k = 0 := by
    intro k
    unfold sourceH
    rw [hsrc, smul_zero, add_zero]
    exact List.sum_eq_zero (by simp [stageSource, description])
  have hhigh : ∀ k j, highOrderPart (description (dim := dim)) M X k j = 0 := by
    intro k j
    have h1 : highOrderIJ (description (dim := dim)) M X k j = 0 := rfl
    unfold highOrderPart
    rw [h1, hsrc, smul_zero, smul_zero, zero_add, zero_add]
    refine List.sum_eq_zero ?_
    intro x hx
    obtain ⟨s, -, rfl⟩ := List.mem_map.1 hx
    have h2 : stageFluxIJ (description (dim := dim)) M s k j = 0 := rfl
    have h3 : stageSource (description (dim := dim)) X s j = 0 := rfl
    rw [h2, h3, smul_zero, smul_zero, add_zero]
  have hdH : ∀ k j, dH M X k j = 0 := by
    intro k j
    simp [dH, hα, hdG]
  have hr : ∀ k, rhsH (description (dim := dim)) M X k = 0 := by
    intro k
    unfold rhsH
    rw [hsrcH, smul_zero, zero_add]
    refine List.sum_eq_zero ?_
    intro x hx
    obtain ⟨j, -, rfl⟩ := List.mem_map.1 hx
    rw [hdH, hhigh, smul_zero, zero_smul]
    simp
  have hp : ∀ j, (1 / ((M.nbrs i).length : ℝ)) • pIJ (description (dim := dim)) M X i j
      = -((X.tau * (M.lumped i)⁻¹ * X.d i j) • jump (description (dim := dim)) X i j) := by
    intro j
    unfold pIJ pStep4
    rw [hflux, hdH, hhigh, hsrc, hr, hr, smul_smul, ← neg_smul]
    simp only [smul_zero, neg_zero, zero_add, zero_sub, sub_zero, add_zero, smul_smul]
    congr 1
    field_simp
  have hj : jump (description (dim := dim)) X i i = 0 := sub_self _
  unfold lowOrder
  rw [hsrc, smul_zero, add_zero, show M.columns i = i :: M.nbrs i from rfl, List.map_cons, List.sum_cons, hj]
  simp only [hflux, smul_zero, add_zero, zero_add, hp]
  rw [add_assoc, ← sum_map_add', List.sum_eq_zero, add_zero]
  intro x hx
  obtain ⟨j, -, rfl⟩ := List.mem_map.1 hx
  exact add_neg_cancel _

/-- **C115**: a hyperbolic step with the skeleton equations (continuous elements, one or two limiter passes) is never
rejected, sets no counters and returns the old states: on every mesh, for every state, time-step size and list of stages,
although the low order update diffuses with wave speed one. -/
theorem C115_step_partial [Fintype ι] (M : Mesh ι dim) (hdG : M.dG = false) (par : Hyp.Params)
    (hn : par.iterations = 1 ∨ par.iterations = 2) (strategy : Strategy) (cnt : Counters) (lo : Leftover ι State)
    (old : StateVector ι Unit State) (stages : List (ℝ × StateVector ι Unit State)) (tau tau_max : ℝ)
    (htiny : 0 < par.tiny) (hcfl : 0 < par.cfl) (hm : ∀ i, 0 < M.lumped i) (hmax : 0 < tau_max) :
    ∃ U t, step description M par strategy cnt lo old stages tau tau_max = (.done U t, cnt) ∧ (tau ≠ 0 → t = tau) ∧
      (tau = 0 → 0 < t ∧ t ≤ tau_max) ∧ ∀ i, M.nbrs i ≠ [] → U i = old.U i := by
  classical
  obtain ⟨hpos, -, -⟩ := C11_step_tau description M par strategy cnt lo old stages tau tau_max htiny hcfl hm hmax
  have hno : ∀ X, ¬ restartNeeded description M par lo X := by
    rintro X ⟨-, i, j, -, h⟩
    exact h trivial
  let t := if tau = 0 then tauMax description M par lo.dij old tau_max else tau
  refine ⟨newStates description M par lo (stage4 description M par lo old stages t), t, ?_, fun h => if_neg h,
    fun h => ?_, ?_⟩
  · unfold step
    simp only [hpos, not_true_eq_false, if_false, hno]
    rfl
  · have e : t = tauMax description M par lo.dij old tau_max := if_pos h
    rw [e]
    exact ⟨hpos, (Finset.fold_min_le _).2 (Or.inl le_rfl)⟩
  · intro i hi
    exact newStates_eq M hdG par hn lo _ (fun _ => rfl) i hi

open Integrator (Ctx Scheme Recovery Mem Run Res hyperbolicModules schemeAccepted passBc)
open Integrator.Slot in
/-- **C115**: after any number of time steps with any explicit scheme, any boundary ids and boundary data and any settings,
the states are the initial ones. -/
theorem C115_run_partial [Fintype ι] {Id : Type} (M : Mesh ι dim) (hdG : M.dG = false) (par : Hyp.Params)
    (hn : par.iterations = 1 ∨ par.iterations = 2) (doNothing : Id) (data : Vec dim → ℝ → State)
    (map : List (Prepare.Entry ι Id dim)) (big : ℝ) (lo : ℕ → Leftover ι State) (garbage : ℕ → ι → State)
    (parabolic : Ctx → ℕ → (ι → State) → ℝ → (ι → State) → ℝ → Res (ι → State))
    (sch : Scheme) (hsch : schemeAccepted true sch) (rec : Recovery) (cflMin cflMax : ℝ) (m m' : Mem (ι → State) Unit)
    (h : Run (hyperbolicModules description M par big (passBc (boundary doNothing) data map) (fun _ => ()) lo
      garbage parabolic) sch rec cflMin cflMax (fun _ _ => True) m m') (i : ι) (hi : M.nbrs i ≠ []) :
    (m' old).U i = (m old).U i := by
  let K : Set (ι → State) := {u | ∀ i, M.nbrs i ≠ [] → u i = (m old).U i}
  have hK : Convex ℝ K := by
    intro x hx y hy α β _ _ hαβ i hi
    show α • x i + β • y i = _
    rw [hx i hi, hy i hi, ← add_smul, hαβ, one_smul]
  refine Integrator.C90_run_invariant _ K hK (fun _ => True) ?_ ?_ sch hsch rec cflMin cflMax m m' (fun _ _ => rfl) h i hi
  · intro t u hu i hi
    refine Integrator.passBc_keeps (boundary doNothing) data map t u (fun V => V = (m old).U i) ?_ i (hu i hi)
    intro e _ W W' hW hW'
    obtain rfl := Option.some.inj hW'
    exact hW
  · intro ctx _ n src st dst tau cap u τ hsrc _ hh i hi
    obtain ⟨-, -, hU⟩ := step_done (Integrator.hyp_ok hh)
    rw [hU]
    exact (newStates_eq M hdG { par with cfl := ctx.cfl } hn _ _ (fun _ => rfl) i hi).trans (hsrc i hi)

/-- Three points on a ring, read as discontinuous elements: every point couples with its neighbours across a face
(weight `1`, what the code uses for odd polynomial degrees) and with no other point of its own cell (diagonal mass
matrix). -/
def brokenRing (g : Bool) : Mesh (Fin 3) 1 := { ring with
  dG := g
  incidence := fun _ _ => 1
  mass := fun i j => if i = j then 1 else 0
  massInv := fun i j => if i = j then 1 else 0 }

theorem brokenRing_wf (g : Bool) : (brokenRing g).WellFormed :=
  ⟨ring_wf.nodup, ring_wf.irrefl, ring_wf.symm, ring_wf.asymm, ring_wf.skip_below⟩

/-- The low order update of the first point. -/
theorem low_eq (g : Bool) (par : Hyp.Params) (t : ℝ) :
    lowOrder description (brokenRing g) (stage4 description (brokenRing g) par demoLo demoOld [] t) 0 0
      = 1 + t * (3 / 2) := by
  classical
  have hv : ∀ x : ℝ, vnorm (fun _ : Fin 1 => x) = |x| := fun x => by
    simp [vnorm, normSq, Real.sqrt_mul_self_eq_abs]
  have hd1 : dOff (description (dim := 1)) (brokenRing g) demoLo.dij demoOld 0 1 = 1 / 2 := by
    have : viscosityEntry (description (dim := 1)) (brokenRing g) demoOld 0 1 = 1 / 2 := by
      change vnorm (fun _ => 1 / 2) * 1 = _
      rw [hv, mul_one, abs_of_pos (by norm_num)]
    simp only [dOff, dBoundary, dStep2, this]
    simp [brokenRing, ring]
  have hd2 : dOff (description (dim := 1)) (brokenRing g) demoLo.dij demoOld 0 2 = 1 / 2 := by
    have : viscosityEntry (description (dim := 1)) (brokenRing g) demoOld 0 2 = 1 / 2 := by
      change vnorm (fun _ => -1 / 2) * 1 = _
      rw [hv, mul_one]; norm_num [abs_of_neg]
    simp only [dOff, dBoundary, dStep2, this]
    simp [brokenRing, ring]
  have hz : ∀ j, fluxIJ (description (dim := 1)) (brokenRing g)
      (stage4 description (brokenRing g) par demoLo demoOld [] t) 0 j = 0 := fun _ => rfl
  have hj : ∀ j : Fin 3, jump (description (dim := 1)) (stage4 description (brokenRing g) par demoLo demoOld [] t) 0 j 0
      = (j.val : ℝ) := by
    intro j
    change (j.val : ℝ) + 1 - (((0 : Fin 3).val : ℝ) + 1) = _
    simp
  have hd1' : (stage4 (description (dim := 1)) (brokenRing g) par demoLo demoOld [] t).d 0 1 = 1 / 2 := by
    rw [← hd1]; exact if_neg (by decide)
  have hd2' : (stage4 (description (dim := 1)) (brokenRing g) par demoLo demoOld [] t).d 0 2 = 1 / 2 := by
    rw [← hd2]; exact if_neg (by decide)
  have hc : (brokenRing g).columns 0 = [0, 1, 2] := rfl
  have hm : (brokenRing g).lumped 0 = 1 := rfl
  have ht : (stage4 (description (dim := 1)) (brokenRing g) par demoLo demoOld [] t).tau = t := rfl
  have hs : sourceAt (description (dim := 1)) (stage4 description (brokenRing g) par demoLo demoOld [] t) 0 = 0 := rfl
  have ho : (stage4 (description (dim := 1)) (brokenRing g) par demoLo demoOld [] t).old.U 0 0 = 1 := by
    change ((0 : Fin 3).val : ℝ) + 1 = 1
    simp
  unfold lowOrder
  rw [hc, hs, hm, ht]
  simp only [List.map_cons, List.map_nil, List.sum_cons, List.sum_nil, Pi.add_apply, Pi.smul_apply, smul_eq_mul, hz,
    hj, hd1', hd2', ho]
  norm_num
  ring

/-- A step whose result at the first point is the low order update changes the state. -/
theorem changes (g : Bool) (par : Hyp.Params) (htiny : 0 < par.tiny) (hcfl : 0 < par.cfl)
    (e : ∀ t, newStates description (brokenRing g) par demoLo (stage4 description (brokenRing g) par demoLo demoOld [] t) 0
      = lowOrder description (brokenRing g) (stage4 description (brokenRing g) par demoLo demoOld [] t) 0) :
    ∃ (U : Fin 3 → State) (t : ℝ),
      step description (brokenRing g) par .warn ⟨0, 0⟩ demoLo demoOld [] 0 10 = (.done U t, ⟨0, 0⟩) ∧ U ≠ demoOld.U := by
  classical
  have hpos := (C11_step_tau (description (dim := 1)) (brokenRing g) par .warn ⟨0, 0⟩ demoLo demoOld [] 0 10 htiny
    hcfl ring_closed.lumped (by norm_num)).1
  have hno : ∀ X, ¬ restartNeeded (description (dim := 1)) (brokenRing g) par demoLo X := by
    rintro X ⟨-, i, j, -, h⟩
    exact h trivial
  let t := tauMax (description (dim := 1)) (brokenRing g) par demoLo.dij demoOld 10
  refine ⟨newStates description (brokenRing g) par demoLo
    (stage4 description (brokenRing g) par demoLo demoOld [] t), t, ?_, fun h => ?_⟩
  · unfold step
    simp only [hpos, not_true_eq_false, if_false, hno, if_true]
    rfl
  · have h0 := congrFun (congrFun h 0) 0
    rw [e, low_eq] at h0
    have : demoOld.U 0 0 = 1 := by simp [demoOld]
    rw [this] at h0
    have : 0 < t := hpos
    linarith

/-- **C115** (what is missing): without limiter passes the step returns the low order update, which is not the old state.
Witness: three points on a ring. -/
theorem C115_low_order_violation :
    ∃ (M : Mesh (Fin 3) 1) (par : Hyp.Params) (lo : Leftover (Fin 3) State) (old : StateVector (Fin 3) Unit State)
      (U : Fin 3 → State) (t : ℝ), M.WellFormed ∧ M.dG = false ∧ 0 < par.tiny ∧ 0 < par.cfl ∧ (∀ i, 0 < M.lumped i) ∧
      par.iterations = 0 ∧
      step description M par .warn ⟨0, 0⟩ lo old [] 0 10 = (.done U t, ⟨0, 0⟩) ∧ U ≠ old.U := by
  classical
  obtain ⟨U, t, h, hU⟩ := changes false ⟨1 / 2, 1 / 1000, 0⟩ (by norm_num) (by norm_num) (fun t => by
    simp [newStates, limiterLoop, newLow, Mesh.active, brokenRing, ring])
  exact ⟨brokenRing false, ⟨1 / 2, 1 / 1000, 0⟩, demoLo, demoOld, U, t, brokenRing_wf _, rfl, by norm_num, by norm_num,
    ring_closed.lumped, rfl, h, hU⟩

/-- **C115** (what is missing): with discontinuous elements the high order update keeps the graph viscosity across faces,
where the incidence matrix overrules the vanishing indicator, so that the step changes the state with any number of
limiter passes that the continuous case allows. -/
theorem C115_dg_violation (n : ℕ) (hn : n = 1 ∨ n = 2) :
    ∃ (M : Mesh (Fin 3) 1) (par : Hyp.Params) (lo : Leftover (Fin 3) State) (old : StateVector (Fin 3) Unit State)
      (U : Fin 3 → State) (t : ℝ), M.WellFormed ∧ M.dG = true ∧ 0 < par.tiny ∧ 0 < par.cfl ∧ (∀ i, 0 < M.lumped i) ∧
      par.iterations = n ∧
      step description M par .warn ⟨0, 0⟩ lo old [] 0 10 = (.done U t, ⟨0, 0⟩) ∧ U ≠ old.U := by
  classical
  obtain ⟨U, t, h, hU⟩ := changes true ⟨1 / 2, 1 / 1000, n⟩ (by norm_num) (by norm_num) (fun t => by
    rw [newStates_unlimited _ (brokenRing true) _ demoLo _ hn 0 (by simp [brokenRing, ring])
      (fun j _ => by simp [symmetrized, l1, description, limit])]
    refine (congrArg _ (List.sum_eq_zero ?_)).trans (add_zero _)
    intro x hx
    obtain ⟨j, hj, rfl⟩ := List.mem_map.1 hx
    have h0j : (0 : Fin 3) ≠ j := fun e => ring_wf.irrefl 0 (by simpa [brokenRing, e] using hj)
    generalize hX : stage4 (description (dim := 1)) (brokenRing true) _ demoLo demoOld [] t = X
    have hα : ∀ i, X.alpha i = 0 := by rw [← hX]; exact fun _ => rfl
    have hst : X.stages = [] := by rw [← hX]; rfl
    have hb : bIJ (brokenRing true) 0 j = 0 := by simp [bIJ, brokenRing, h0j]
    have hb' : bJI (brokenRing true) 0 j = 0 := by simp [bJI, brokenRing, h0j]
    have hd : dH (brokenRing true) X 0 j = X.d 0 j := by simp [dH, hα, brokenRing]
    have hflux : fluxIJ (description (dim := 1)) (brokenRing true) X 0 j = 0 := rfl
    have hsrc : ∀ k, sourceAt (description (dim := 1)) X k = 0 := fun _ => rfl
    have hho : highOrderIJ (description (dim := 1)) (brokenRing true) X 0 j = 0 := rfl
    have hh : highOrderPart (description (dim := 1)) (brokenRing true) X 0 j = 0 := by
      unfold highOrderPart
      rw [hho, hsrc, hst, smul_zero, smul_zero, zero_add]
      simp
    unfold pIJ pStep4
    rw [hb, hb', hd, hflux, hsrc, hh]
    simp)
  exact ⟨brokenRing true, ⟨1 / 2, 1 / 1000, n⟩, demoLo, demoOld, U, t, brokenRing_wf _, rfl, by norm_num, by norm_num,
    ring_closed.lumped, rfl, h, hU⟩

/-! ### Non-vacuity -/

example (x : State) (strategy : Strategy) : ∃ U t,
    step description ring demoPar strategy ⟨3, 4⟩ demoLo ⟨fun i _ => if i = 0 then x 0 else 7, ()⟩ [] 0 10
      = (.done U t, ⟨3, 4⟩) ∧ U 0 = x := by
  obtain ⟨U, t, h, -, -, hU⟩ := C115_step_partial ring rfl demoPar (Or.inr rfl) strategy ⟨3, 4⟩ demoLo
    ⟨fun i _ => if i = 0 then x 0 else 7, ()⟩ [] 0 10 (by norm_num [demoPar]) (by norm_num [demoPar])
    ring_closed.lumped (by norm_num)
  refine ⟨U, t, h, ?_⟩
  rw [hU 0 (by simp [ring])]
  funext k
  fin_cases k
  rfl

end

end Skeleton
end Ryujin
