import Verif.Proofs.HyperbolicStep
import Verif.Model.Descriptions
import Verif.Props.Scalar
import Mathlib.Data.Fintype.Fin
import Mathlib.Order.Bounds.Basic
import Mathlib.Tactic.IntervalCases

/-!
# C11, C13, C14, C15, C17, C18 – the hyperbolic update

All theorems are about `Hyp.step` and its parts, for every `Description` (set of equations), every mesh,
every content of the member matrices left over from previous steps, and every row schedule.
-/

namespace Ryujin
namespace Hyp

open scoped BigOperators

variable {ι P S F B : Type} {dim : ℕ}

/-! ### A concrete mesh for the non-vacuity examples: a periodic ring of three elements -/

/-- Linear finite elements on three elements of length one with periodic boundary. -/
noncomputable def ring : Mesh (Fin 3) 1 where
  nbrs := fun i => [i + 1, i + 2]
  below := fun i j => j < i
  skip := fun _ _ => False
  boundary := fun _ => False
  c := fun i j => fun _ => if j = i + 1 then 1 / 2 else if j = i + 2 then -1 / 2 else 0
  mass := fun i j => if i = j then 2 / 3 else 1 / 6
  massInv := fun _ _ => 0
  lumped := fun _ => 1
  incidence := fun _ _ => 0
  dG := false
  omega := 3

theorem ring_wf : ring.WellFormed where
  nodup := by intro i; fin_cases i <;> simp [ring]
  irrefl := by intro i; fin_cases i <;> simp [ring]
  symm := by intro i j; fin_cases i <;> fin_cases j <;> simp [ring]
  asymm := fun i j h => not_lt.2 (le_of_lt h)
  skip_below := fun _ _ h => h.elim

theorem ring_closed : ring.Closed where
  skew := by
    intro i j; fin_cases i <;> fin_cases j <;> simp [ring] <;> (funext k; norm_num)
  diag := by intro i; fin_cases i <;> (funext k; simp [ring])
  mass := by intro i j _; simp only [ring, eq_comm]
  massInv := fun _ _ _ => rfl
  incidence := fun _ _ _ => rfl
  lumped := fun _ => one_pos

/-- Burgers' equation on the ring, with the scalar limiter of one lane. -/
noncomputable def demo : Description (Fin 3) Unit Scalar.State (Fin 1 → Vec 1) Scalar.Bounds 1 :=
  Scalar.description (Scalar.burgers 1 (1 / 1000)) ⟨⟨false, false⟩, 1, 0, 1 / 1000, 100, 0⟩ (fun _ _ => [])
    fun _ _ b U P => (Scalar.limitLane 0 (1 / 1000) b U P 0 1, Scalar.inBounds 0 b (Scalar.state U))

/-- The data `u = (1, 2, 3)`. -/
noncomputable def demoOld : StateVector (Fin 3) Unit Scalar.State := ⟨fun i _ => ((i : ℕ) : ℝ) + 1, ()⟩

/-- Parameters of the examples. -/
noncomputable def demoPar : Params := ⟨1 / 2, 1 / 1000, 2⟩

/-- Arbitrary leftovers. -/
noncomputable def demoLo : Leftover (Fin 3) Scalar.State := ⟨fun _ _ => -7, fun _ _ => 5, fun _ _ => 9, [2, 0, 1]⟩

theorem demo_rev (p : Unit) (i j : Fin 3) (U V : Scalar.State) (n : Vec 1) :
    demo.riemann p i j U V n = demo.riemann p j i V U (-n) :=
  (Scalar.C10_scalar_swap (Scalar.burgers 1 (1 / 1000)) ⟨false, false⟩ [] _ _ n).symm

theorem demo_pos (p : Unit) (i j : Fin 3) (U V : Scalar.State) (n : Vec 1) :
    0 ≤ demo.riemann p i j U V n := Scalar.C09_scalar_nonneg _ _ _ _ _ _

theorem ring_c (i j : Fin 3) (hj : j ∈ ring.nbrs i) : vnorm (ring.c i j) = 1 / 2 := by
  have : ∀ x : ℝ, vnorm (fun _ : Fin 1 => x) = |x| := by
    intro x; simp [vnorm, normSq, Real.sqrt_mul_self_eq_abs]
  fin_cases i <;> fin_cases j <;> simp [ring] at hj ⊢ <;> rw [this] <;> norm_num [abs_of_nonneg]

theorem demo_d (i j : Fin 3) (hj : j ∈ ring.nbrs i) :
    1 / 2 ≤ viscosityEntry demo ring demoOld i j := by
  unfold viscosityEntry
  have h := (Scalar.C09_scalar_characteristic (Scalar.burgers 1 (1 / 1000)) ⟨false, false⟩ []
    (Scalar.state (demoOld.U i)) (Scalar.state (demoOld.U j))
    (fun k => ring.c i j k / vnorm (ring.c i j)) rfl).1
  have h2 : 1 ≤ |∑ k, (Scalar.burgers 1 (1 / 1000)).gradient (Scalar.state (demoOld.U i)) k *
      (ring.c i j k / vnorm (ring.c i j))| := by
    rw [ring_c i j hj]
    have h1 : (1 : ℝ) ≤ Scalar.state (demoOld.U i) := by simp [Scalar.state, demoOld]
    have h3 : |ring.c i j 0 / (1 / 2)| = 1 := by
      fin_cases i <;> fin_cases j <;> simp [ring] at hj ⊢
    simp only [Scalar.burgers, Finset.univ_unique, Fin.default_eq_zero, Finset.sum_singleton]
    rw [abs_mul, h3, mul_one]
    exact h1.trans (le_abs_self _)
  have h4 : 1 ≤ demo.riemann demoOld.prec i j (demoOld.U i) (demoOld.U j)
      (fun k => ring.c i j k / vnorm (ring.c i j)) := h2.trans h
  have h5 := mul_le_mul (ring_c i j hj).ge h4 zero_le_one (vnorm_nonneg _)
  simpa using h5

/-! ### C11 -/

/-- **C11 (symmetry and lower bound).** Whatever the dependent data (stale matrix entries, SIMD grouping,
distribution over ranks), the assembled viscosity is symmetric and is the maximum of the two one-sided
estimates `|c_ij| λ(U_i, U_j, n_ij)` and `|c_ji| λ(U_j, U_i, n_ji)`.  `hrev` is C10 for the Riemann solver,
needed for the given states only; `hskew` says that `c_ij` fails to be skew-symmetric only between boundary degrees of freedom. -/
theorem C11_viscosity (D : Description ι P S F B dim) (M : Mesh ι dim) (hM : M.WellFormed)
    (stale : ι → ι → ℝ) (old : StateVector ι P S)
    (hrev : ∀ i, ∀ j ∈ M.nbrs i, M.c i j ≠ 0 →
      D.riemann old.prec i j (old.U i) (old.U j) (fun k => M.c i j k / vnorm (M.c i j)) =
        D.riemann old.prec j i (old.U j) (old.U i) (-fun k => M.c i j k / vnorm (M.c i j)))
    (hskew : ∀ i, ∀ j ∈ M.nbrs i, ¬ (M.boundary i ∧ M.boundary j) → M.c j i = -M.c i j)
    (i j : ι) (hj : j ∈ M.nbrs i) :
    dOff D M stale old i j = dOff D M stale old j i ∧
    dOff D M stale old i j =
      max (vnorm (M.c i j) * D.riemann old.prec i j (old.U i) (old.U j) (fun k => M.c i j k / vnorm (M.c i j)))
        (vnorm (M.c j i) * D.riemann old.prec j i (old.U j) (old.U i)
          (fun k => M.c j i k / vnorm (M.c j i))) := by
  have h1 := dOff_eq D M hM stale old hrev hskew hj
  have h2 := dOff_eq D M hM stale old hrev hskew (hM.symm i j hj)
  exact ⟨by rw [h1, h2, max_comm], h1⟩

/-- The hypotheses hold for Burgers' equation on the ring, and the viscosity is not zero there. -/
example (stale : Fin 3 → Fin 3 → ℝ) : dOff demo ring stale demoOld 0 1 = dOff demo ring stale demoOld 1 0 ∧
    1 / 2 ≤ dOff demo ring stale demoOld 0 1 := by
  have h := C11_viscosity demo ring ring_wf stale demoOld (fun i j _ _ => demo_rev _ i j _ _ _)
    (fun i j hj _ => ring_closed.skew i j hj) 0 1 (by simp [ring])
  exact ⟨h.1, h.2 ▸ le_max_of_le_left (demo_d 0 1 (by simp [ring]))⟩

/-- **C11 (non-negativity).** With a non-negative wave speed estimate (C09) every off-diagonal entry is
non-negative.  No symmetry assumption is needed. -/
theorem C11_viscosity_nonneg (D : Description ι P S F B dim) (M : Mesh ι dim) (hM : M.WellFormed)
    (stale : ι → ι → ℝ) (old : StateVector ι P S)
    (hpos : ∀ i j U V n, 0 ≤ D.riemann old.prec i j U V n) (i j : ι) :
    0 ≤ dOff D M stale old i j := by
  have hv : ∀ i j, 0 ≤ viscosityEntry D M old i j := fun i j => mul_nonneg (vnorm_nonneg _) (hpos _ _ _ _ _)
  have hb : ∀ i j, ¬ M.below i j → 0 ≤ dBoundary D M stale old i j := by
    intro i j h
    by_cases hb : M.boundary i ∧ M.boundary j
    · rw [(dBoundary_upper D M hM stale old h).1 hb]; exact le_max_of_le_left (hv _ _)
    · rw [(dBoundary_upper D M hM stale old h).2 hb]; exact hv _ _
  unfold dOff
  split_ifs with h
  · exact hb _ _ (hM.asymm i j h)
  · exact hb _ _ h

example (stale : Fin 3 → Fin 3 → ℝ) (i j : Fin 3) : 0 ≤ dOff demo ring stale demoOld i j :=
  C11_viscosity_nonneg demo ring ring_wf stale demoOld (fun i j U V n => demo_pos _ i j U V n) i j

/-- **C11 (one rank).** If all degrees of freedom live on one rank (one of `i`, `j` is below the other),
symmetry holds for every Riemann solver, even a non-deterministic one. -/
theorem C11_viscosity_symmetric_one_rank (D : Description ι P S F B dim) (M : Mesh ι dim) (hM : M.WellFormed)
    (stale : ι → ι → ℝ) (old : StateVector ι P S) (i j : ι) (h : M.below i j ∨ M.below j i) :
    dOff D M stale old i j = dOff D M stale old j i := by
  unfold dOff
  rcases h with h | h
  · rw [if_pos h, if_neg (hM.asymm i j h)]
  · rw [if_neg (hM.asymm j i h), if_pos h]

example : ring.below 1 0 := by simp [ring]

/-- **C11 (diagonal).** The diagonal is minus the row sum of the off-diagonal entries, unless that sum is below
`10⁶ min()`; it is always negative and never smaller in magnitude than the row sum. -/
theorem C11_diagonal (D : Description ι P S F B dim) (M : Mesh ι dim) (par : Params)
    (stale : ι → ι → ℝ) (old : StateVector ι P S) (i : ι) (ht : 0 < par.tiny) :
    dDiag D M par stale old i < 0 ∧
    dDiag D M par stale old i + ((M.nbrs i).map (dOff D M stale old i)).sum ≤ 0 ∧
    (1000000 * par.tiny ≤ ((M.nbrs i).map (dOff D M stale old i)).sum →
      dDiag D M par stale old i + ((M.nbrs i).map (dOff D M stale old i)).sum = 0) := by
  refine ⟨dDiag_neg D M par stale old i ht, ?_, ?_⟩
  · have := dDiag_le D M par stale old i; linarith
  · intro h
    unfold dDiag
    rw [min_eq_left (by linarith)]; ring

/-- On the ring the row sums exceed the regularisation threshold `10⁶ min()` for small `min()`. -/
example (stale : Fin 3 → Fin 3 → ℝ) (i : Fin 3) : dDiag demo ring ⟨1 / 2, 1 / 10000000, 2⟩ stale demoOld i +
    ((ring.nbrs i).map (dOff demo ring stale demoOld i)).sum = 0 := by
  refine (C11_diagonal demo ring _ stale demoOld i (by norm_num)).2.2 ?_
  have h : ∀ j ∈ ring.nbrs i, 1 / 2 ≤ dOff demo ring stale demoOld i j := fun j hj => by
    have h := C11_viscosity demo ring ring_wf stale demoOld (fun i j _ _ => demo_rev _ i j _ _ _)
      (fun i j hj _ => ring_closed.skew i j hj) i j hj
    exact h.2 ▸ le_max_of_le_left (demo_d i j hj)
  have h1 := h (i + 1) (by simp [ring])
  have h2 := h (i + 2) (by simp [ring])
  simp only [ring, List.map_cons, List.map_nil, List.sum_cons, List.sum_nil] at h1 h2 ⊢
  linarith

/-- **C11 (time-step bound).** `tau_max` is the least of the initial value and the CFL bounds
`cfl m_i / (2 |d_ii|)` of the unconstrained rows. -/
theorem C11_tau_max [Fintype ι] (D : Description ι P S F B dim) (M : Mesh ι dim) (par : Params)
    (stale : ι → ι → ℝ) (old : StateVector ι P S) (tau_max : ℝ) (ht : 0 < par.tiny) :
    IsLeast (insert tau_max {t | ∃ i, M.nbrs i ≠ [] ∧
        t = par.cfl * M.lumped i / (2 * |dDiag D M par stale old i|)})
      (tauMax D M par stale old tau_max) := by
  classical
  have hrow : ∀ i, tauRow D M par stale old i = par.cfl * M.lumped i / (2 * |dDiag D M par stale old i|) := by
    intro i
    unfold tauRow
    rw [abs_of_neg (dDiag_neg D M par stale old i ht)]
    congr 1; ring
  unfold tauMax
  constructor
  · generalize hs : (Finset.univ.filter M.active) = s
    have hact : ∀ i ∈ s, M.active i := by intro i hi; rw [← hs] at hi; exact (Finset.mem_filter.1 hi).2
    clear hs
    induction s using Finset.induction_on with
    | empty => simp
    | insert a s ha ih =>
      rw [Finset.fold_insert ha]
      rcases min_choice (tauRow D M par stale old a) (s.fold min tau_max (tauRow D M par stale old)) with h | h
      · rw [h]; right; exact ⟨a, hact a (by simp), hrow a⟩
      · rw [h]; exact ih fun i hi => hact i (by simp [hi])
  · rintro t (rfl | ⟨i, hi, rfl⟩)
    · exact Finset.fold_min_le _ |>.2 (Or.inl le_rfl)
    · exact (Finset.fold_min_le _).2 (Or.inr ⟨i, by simp [Mesh.active, hi], (hrow i).le⟩)

/-- **C11 (positivity of the time step).** For positive CFL number and masses the time-step bound is positive,
so a step never "crashes" in exact arithmetic; the step returns the requested `tau` or, if that is zero,
`tau_max`. -/
theorem C11_step_tau [Fintype ι] [AddCommGroup S] [Module ℝ S] (D : Description ι P S F B dim) (M : Mesh ι dim)
    (par : Params) (strategy : Strategy) (cnt : Counters) (lo : Leftover ι S) (old : StateVector ι P S)
    (stages : List (ℝ × StateVector ι P S)) (tau tau_max : ℝ)
    (ht : 0 < par.tiny) (hcfl : 0 < par.cfl) (hm : ∀ i, 0 < M.lumped i) (hmax : 0 < tau_max) :
    0 < tauMax D M par lo.dij old tau_max ∧
    (step D M par strategy cnt lo old stages tau tau_max).1 ≠ .crashed ∧
    ∀ U t, (step D M par strategy cnt lo old stages tau tau_max).1 = .done U t →
      t = if tau = 0 then tauMax D M par lo.dij old tau_max else tau := by
  classical
  have hpos : 0 < tauMax D M par lo.dij old tau_max :=
    (Finset.lt_fold_min _).2 ⟨hmax, fun i _ => tauRow_pos D M par lo.dij old i ht hcfl (hm i)⟩
  refine ⟨hpos, ?_, ?_⟩
  · unfold step
    simp only [hpos, not_true_eq_false, if_false]
    split_ifs <;> (try (cases strategy)) <;> simp
  · intro U t h
    unfold step at h
    simp only [hpos, not_true_eq_false, if_false] at h
    split_ifs at h <;> (try (cases strategy)) <;> simp_all

/-! ### C18 -/

open Classical in
/-- **C18.** A step that detected a bounds violation in some row either raises a restart and counts it, or
returns normally and counts one warning, depending on the strategy; without violation neither counter
changes and no restart is raised; a crash changes nothing. -/
theorem C18_violations_reported [Fintype ι] [AddCommGroup S] [Module ℝ S] (D : Description ι P S F B dim)
    (M : Mesh ι dim) (par : Params) (strategy : Strategy) (cnt : Counters) (lo : Leftover ι S)
    (old : StateVector ι P S) (stages : List (ℝ × StateVector ι P S)) (tau tau_max : ℝ)
    (hpos : 0 < tauMax D M par lo.dij old tau_max) :
    let X := stage4 D M par lo old stages (if tau = 0 then tauMax D M par lo.dij old tau_max else tau)
    let r := step D M par strategy cnt lo old stages tau tau_max
    let violated := ∃ i, ∃ j ∈ M.nbrs i,
      ¬ (D.limit i j (finalBounds D M par lo X i) (lowOrder D M X i) (pIJ D M X i j)).2
    (par.iterations ≠ 0 → violated → strategy = .raise_exception →
      r.1 = .restart ∧ r.2 = ⟨cnt.restarts + 1, cnt.warnings⟩) ∧
    (par.iterations ≠ 0 → violated → strategy = .warn →
      (∃ U t, r.1 = .done U t) ∧ r.2 = ⟨cnt.restarts, cnt.warnings + 1⟩) ∧
    (par.iterations = 0 ∨ ¬ violated → (∃ U t, r.1 = .done U t) ∧ r.2 = cnt) := by
  intro X r violated
  have hr : r = if restartNeeded D M par lo X then
      ((match strategy with
      | .warn => (.done (newStates D M par lo X)
          (if tau = 0 then tauMax D M par lo.dij old tau_max else tau),
          { cnt with warnings := cnt.warnings + 1 })
      | .raise_exception => (.restart, { cnt with restarts := cnt.restarts + 1 })) :
        Outcome ι S × Counters)
      else (.done (newStates D M par lo X)
          (if tau = 0 then tauMax D M par lo.dij old tau_max else tau), cnt) := by
    simp only [r, step, hpos, not_true_eq_false, if_false, X]
    split_ifs <;> rfl
  have hv : restartNeeded D M par lo X ↔ par.iterations ≠ 0 ∧ violated := Iff.rfl
  refine ⟨?_, ?_, ?_⟩
  · rintro h1 h2 rfl
    rw [hr, if_pos (hv.2 ⟨h1, h2⟩)]
    exact ⟨rfl, rfl⟩
  · rintro h1 h2 rfl
    rw [hr, if_pos (hv.2 ⟨h1, h2⟩)]
    exact ⟨⟨_, _, rfl⟩, rfl⟩
  · intro h
    have : ¬ restartNeeded D M par lo X := by
      rw [hv]; rintro ⟨h1, h2⟩; rcases h with h | h
      · exact h1 h
      · exact h h2
    rw [hr, if_neg this]
    exact ⟨⟨_, _, rfl⟩, rfl⟩

open Classical in
/-- Some limiter flags a violation in every row; the step then counts one warning. -/
example (stages : List (ℝ × StateVector (Fin 3) Unit Scalar.State)) :
    (step { demo with limit := fun _ _ _ _ _ => (1 / 2, False) } ring demoPar .warn ⟨0, 4⟩ demoLo demoOld
      stages 0 10).2 = ⟨0, 5⟩ := by
  set D : Description (Fin 3) Unit Scalar.State (Fin 1 → Vec 1) Scalar.Bounds 1 :=
    { demo with limit := fun _ _ _ _ _ => (1 / 2, False) }
  have h := C11_step_tau D ring demoPar .warn ⟨0, 4⟩ demoLo demoOld stages 0 10
    (by norm_num [demoPar]) (by norm_num [demoPar]) ring_closed.lumped (by norm_num)
  exact ((C18_violations_reported D ring demoPar .warn ⟨0, 4⟩ demoLo demoOld stages 0 10 h.1).2.1
    (by norm_num [demoPar]) ⟨0, 1, by simp [ring], by simp [D]⟩ rfl).2

/-- In warning mode a step always returns normally. -/
theorem C18_warn_returns [Fintype ι] [AddCommGroup S] [Module ℝ S] (D : Description ι P S F B dim)
    (M : Mesh ι dim) (par : Params) (cnt : Counters) (lo : Leftover ι S)
    (old : StateVector ι P S) (stages : List (ℝ × StateVector ι P S)) (tau tau_max : ℝ)
    (hpos : 0 < tauMax D M par lo.dij old tau_max) :
    ∃ U t, (step D M par .warn cnt lo old stages tau tau_max).1 = .done U t := by
  have h := C18_violations_reported D M par .warn cnt lo old stages tau tau_max hpos
  by_cases h0 : par.iterations = 0
  · exact (h.2.2 (Or.inl h0)).1
  · by_cases hv : ∃ i, ∃ j ∈ M.nbrs i, ¬ (D.limit i j (finalBounds D M par lo (stage4 D M par lo old stages
        (if tau = 0 then tauMax D M par lo.dij old tau_max else tau)) i) (lowOrder D M (stage4 D M par lo old stages
        (if tau = 0 then tauMax D M par lo.dij old tau_max else tau)) i) (pIJ D M (stage4 D M par lo old stages
        (if tau = 0 then tauMax D M par lo.dij old tau_max else tau)) i j)).2
    · exact (h.2.1 h0 hv rfl).1
    · exact (h.2.2 (Or.inr hv)).1

/-- A step of Burgers' equation on the ring with automatic time-step size, in warning mode, returns normally. -/
theorem demo_done (stages : List (ℝ × StateVector (Fin 3) Unit Scalar.State)) :
    ∃ U t, (step demo ring demoPar .warn ⟨0, 0⟩ demoLo demoOld stages 0 10).1 = .done U t :=
  C18_warn_returns _ _ _ _ _ _ _ _ _ (C11_step_tau demo ring demoPar .warn ⟨0, 0⟩ demoLo demoOld stages 0 10
    (by norm_num [demoPar]) (by norm_num [demoPar]) ring_closed.lumped (by norm_num)).1

/-! ### C13 -/

open Classical in
/-- **C13.** On a mesh without (non-periodic) boundary and with a symmetric viscosity matrix, one call of `step`
leaves `Σ_i m_i φ(U_i)` over the unconstrained degrees of freedom unchanged for every linear functional `φ` of the
state which the equations conserve, for every Riemann solver, indicator, limiter, number of limiter passes, list
of stages and weights, time-step size and row schedule.  The symmetry is C11: it holds for every Riemann solver
on one rank and for every solver with the symmetry C10 on any number of ranks (next theorem). -/
theorem C13_step_conserves_of_symmetric [Fintype ι] [AddCommGroup S] [Module ℝ S] (D : Description ι P S F B dim)
    (M : Mesh ι dim) (hM : M.WellFormed) (hC : M.Closed) (φ : S →ₗ[ℝ] ℝ) (hD : D.Conserves φ)
    (par : Params) (strategy : Strategy) (cnt : Counters) (lo : Leftover ι S) (old : StateVector ι P S)
    (stages : List (ℝ × StateVector ι P S)) (tau tau_max : ℝ)
    (hsym : ∀ i, ∀ j ∈ M.nbrs i, dOff D M lo.dij old i j = dOff D M lo.dij old j i)
    (U : ι → S) (t : ℝ) (h : (step D M par strategy cnt lo old stages tau tau_max).1 = .done U t) :
    ∑ i ∈ Finset.univ.filter (fun i => M.nbrs i ≠ []), M.lumped i * φ (U i)
      = ∑ i ∈ Finset.univ.filter (fun i => M.nbrs i ≠ []), M.lumped i * φ (old.U i) := by
  have main : ∀ tau, ∑ i ∈ Finset.univ.filter M.active, M.lumped i *
      φ (newStates D M par lo (stage4 D M par lo old stages tau) i)
        = ∑ i ∈ Finset.univ.filter M.active, M.lumped i * φ (old.U i) := by
    intro tau
    set X := stage4 D M par lo old stages tau with hX
    have hd : ∀ i, ∀ j ∈ M.nbrs i, X.d i j = X.d j i := by
      intro i j hj
      have hne : i ≠ j := fun e => hM.irrefl i (e ▸ hj)
      simp only [hX, stage4, hne, hne.symm, if_false]
      exact hsym i j hj
    unfold newStates
    rw [limiterLoop_conserves D M hM φ _ _ (fun i j hj => pIJ_antisymm hM hD hC hd hj)]
    refine Eq.trans ?_ (lowOrder_conserves (X := X) hM hD hC hd)
    refine Finset.sum_congr rfl fun i hi => ?_
    have : M.active i := (Finset.mem_filter.1 hi).2
    simp [newLow, this]
  have hU : ∃ tau, U = newStates D M par lo (stage4 D M par lo old stages tau) := by
    unfold step at h
    by_cases h0 : 0 < tauMax D M par lo.dij old tau_max
    · simp only [h0, not_true_eq_false, if_false] at h
      split_ifs at h with h1 h2
      all_goals (try (cases strategy <;> simp at h))
      all_goals exact ⟨_, h.1.symm⟩
    · simp [h0] at h
  obtain ⟨tau', rfl⟩ := hU
  convert main tau'

open Classical in
/-- **C13 (any number of ranks).** One call of `step` on a mesh without (non-periodic) boundary leaves
`Σ_i m_i φ(U_i)` unchanged for every conserved linear functional `φ` and every Riemann solver with the reversal
symmetry C10 on the given states, however the rows are distributed over ranks. -/
theorem C13_step_conserves [Fintype ι] [AddCommGroup S] [Module ℝ S] (D : Description ι P S F B dim)
    (M : Mesh ι dim) (hM : M.WellFormed) (hC : M.Closed) (φ : S →ₗ[ℝ] ℝ) (hD : D.Conserves φ)
    (par : Params) (strategy : Strategy) (cnt : Counters) (lo : Leftover ι S) (old : StateVector ι P S)
    (stages : List (ℝ × StateVector ι P S)) (tau tau_max : ℝ)
    (hrev : ∀ i, ∀ j ∈ M.nbrs i, M.c i j ≠ 0 →
      D.riemann old.prec i j (old.U i) (old.U j) (fun k => M.c i j k / vnorm (M.c i j)) =
        D.riemann old.prec j i (old.U j) (old.U i) (-fun k => M.c i j k / vnorm (M.c i j)))
    (U : ι → S) (t : ℝ) (h : (step D M par strategy cnt lo old stages tau tau_max).1 = .done U t) :
    ∑ i ∈ Finset.univ.filter (fun i => M.nbrs i ≠ []), M.lumped i * φ (U i)
      = ∑ i ∈ Finset.univ.filter (fun i => M.nbrs i ≠ []), M.lumped i * φ (old.U i) :=
  C13_step_conserves_of_symmetric D M hM hC φ hD par strategy cnt lo old stages tau tau_max
    (fun i j hj => (C11_viscosity D M hM lo.dij old hrev (fun i j hj _ => hC.skew i j hj) i j hj).1) U t h

/-! ### C14 -/

/-- **C14.** If `cfl ≤ 1` and the time-step size is at most the bound `tau_max` of steps 2 and 3, then the
low-order update of every row lies in every convex set that contains the old state and the bar states of the
row – exactly those bar states the limiter accumulates.  Assumptions: non-negative wave speed estimates (C09),
`Σ_j c_ij = 0` (partition of unity), positive mass, and no viscosity that is positive but below
`100 min()`. -/
theorem C14_low_order_convex [Fintype ι] [AddCommGroup S] [Module ℝ S] (D : Description ι P S F B dim)
    (M : Mesh ι dim) (hM : M.WellFormed) (K : F → Vec dim →ₗ[ℝ] S) (hK : D.CentralFlux K) (par : Params)
    (lo : Leftover ι S) (old : StateVector ι P S) (stages : List (ℝ × StateVector ι P S)) (tau tau_max : ℝ)
    (hpos : ∀ i j U V n, 0 ≤ D.riemann old.prec i j U V n)
    (ht : 0 < par.tiny) (hcfl : par.cfl ≤ 1) (htau0 : 0 ≤ tau)
    (htau : tau ≤ tauMax D M par lo.dij old tau_max)
    (i : ι) (hi : M.nbrs i ≠ []) (hm : 0 < M.lumped i)
    (hc : M.c i i + ((M.nbrs i).map (M.c i)).sum = 0)
    (hres : ∀ j ∈ M.nbrs i, Resolved D M (stage4 D M par lo old stages tau) K par.tiny i j)
    (C : Set S) (hconv : Convex ℝ C) (hold : old.U i ∈ C)
    (hbar : ∀ j ∈ M.nbrs i, barState D M (stage4 D M par lo old stages tau) K par.tiny i j ∈ C) :
    lowOrder D M (stage4 D M par lo old stages tau) i ∈ C := by
  classical
  set X := stage4 D M par lo old stages tau with hX
  have hdne : ∀ j ∈ M.nbrs i, X.d i j = dOff D M lo.dij old i j := by
    intro j hj
    have hne : i ≠ j := fun e => hM.irrefl i (e ▸ hj)
    simp only [hX, stage4, hne, if_false]
  have hrow : tau ≤ tauRow D M par lo.dij old i :=
    htau.trans ((Finset.fold_min_le _).2 (Or.inr ⟨i, by simp [Mesh.active, hi], le_rfl⟩))
  rw [lowOrder_eq_bar hK ht i hc hres]
  apply convex_list_mem hconv
  · intro j hj
    rw [hdne j hj]
    have := C11_viscosity_nonneg D M hM lo.dij old hpos i j
    have h2 : 0 ≤ X.tau := htau0
    positivity
  · exact hbar
  · exact hold
  · have := weights_le_one D M par lo.dij old i ht hcfl hm htau0 hrow
    refine le_trans (le_of_eq ?_) this
    exact sum_map_congr _ _ _ fun j hj => by rw [hdne j hj]; rfl

/-! ### C15 -/

/-- **C15.** Let `C i` be convex sets such that the low-order update of row `i` is in `C i` and such that the
limiter certifies them: for a state in `C i` the coefficient `l ∈ [0, 1]` it returns (with the bounds of row `i`)
keeps the segment `U + s P`, `0 ≤ s ≤ l`, in `C i`.  Then after zero, one or two limiter passes – the code allows
no more – the updated state of every unconstrained row is in `C i`. -/
theorem C15_limited_update [AddCommGroup S] [Module ℝ S] (D : Description ι P S F B dim) (M : Mesh ι dim)
    (hM : M.WellFormed) (par : Params) (lo : Leftover ι S) (X : Stage4 ι P S) (hn : par.iterations ≤ 2)
    (C : ι → Set S) (hconv : ∀ i, Convex ℝ (C i))
    (hlow : ∀ i, M.nbrs i ≠ [] → lowOrder D M X i ∈ C i)
    (hlim : ∀ i, ∀ j ∈ M.nbrs i, ∀ U ∈ C i, ∀ Q : S,
      0 ≤ (D.limit i j (finalBounds D M par lo X i) U Q).1 ∧
      (D.limit i j (finalBounds D M par lo X i) U Q).1 ≤ 1 ∧
      ∀ s, 0 ≤ s → s ≤ (D.limit i j (finalBounds D M par lo X i) U Q).1 → U + s • Q ∈ C i) :
    ∀ i, M.nbrs i ≠ [] → newStates D M par lo X i ∈ C i := by
  intro i hi
  have hact : ∀ j ∈ M.nbrs i, M.nbrs j ≠ [] := fun j hj => List.ne_nil_of_mem (hM.symm i j hj)
  have hnl : ∀ i, M.nbrs i ≠ [] → newLow D M lo X i = lowOrder D M X i := by
    intro i hi; have : M.active i := hi; simp [newLow, this]
  set b := finalBounds D M par lo X with hb
  set p := pIJ D M X with hp
  set st0 : LimiterLoop ι S := ⟨newLow D M lo X, fun i j => (l1 D M par lo X i j).1, lo.lijNext⟩ with hst0
  have hl1 : ∀ i, ∀ j ∈ M.nbrs i, 0 ≤ (l1 D M par lo X i j).1 ∧ (l1 D M par lo X i j).1 ≤ 1 ∧
      ∀ s, 0 ≤ s → s ≤ (l1 D M par lo X i j).1 → lowOrder D M X i + s • p i j ∈ C i :=
    fun i j hj => hlim i j hj _ (hlow i (List.ne_nil_of_mem hj)) _
  have hsym0 : ∀ i, ∀ j ∈ M.nbrs i, 0 ≤ symmetrized st0.lij i j ∧ symmetrized st0.lij i j ≤ 1 := fun i j hj =>
    ⟨le_min (hl1 i j hj).1 (hl1 j i (hM.symm i j hj)).1, (min_le_left _ _).trans (hl1 i j hj).2.1⟩
  -- the first pass
  have pass1 : ∀ i, M.nbrs i ≠ [] →
      newLow D M lo X i + ((M.nbrs i).map fun j =>
        (symmetrized st0.lij i j * (1 / ((M.nbrs i).length : ℝ))) • p i j).sum ∈ C i := by
    intro i hi
    rw [hnl i hi]
    exact limited_mem (hconv i) _ hi _ (hlow i hi) _ _ fun j hj =>
      (hl1 i j hj).2.2 _ (hsym0 i j hj).1 (min_le_left _ _)
  have hi' : M.active i := hi
  unfold newStates
  rw [← hb, ← hp, ← hst0]
  interval_cases h : par.iterations
  · rw [show (limiterLoop D M b p 0 st0).U i = newLow D M lo X i from rfl, hnl i hi]
    exact hlow i hi
  · have : (limiterLoop D M b p 1 st0).U i = newLow D M lo X i + ((M.nbrs i).map fun j =>
        (symmetrized st0.lij i j * (1 / ((M.nbrs i).length : ℝ))) • p i j).sum := by
      simp [limiterLoop, limiterPass, hi', hst0]
    rw [this]
    exact pass1 i hi
  · set st1 := limiterPass D M b p 2 0 st0 with hst1
    have hU1 : ∀ i, M.nbrs i ≠ [] → st1.U i = newLow D M lo X i + ((M.nbrs i).map fun j =>
        (symmetrized st0.lij i j * (1 / ((M.nbrs i).length : ℝ))) • p i j).sum := by
      intro i hi
      have : M.active i := hi
      simp [hst1, limiterPass, this, hst0]
    have hU1C : ∀ i, M.nbrs i ≠ [] → st1.U i ∈ C i := fun i hi => by rw [hU1 i hi]; exact pass1 i hi
    have hnext : ∀ i j, st1.lijNext i j = (1 - symmetrized st0.lij i j) *
        (D.limit i j (b i) (st1.U i) ((1 - symmetrized st0.lij i j) • p i j)).1 := by
      intro i j; simp [hst1, limiterPass]
    have hloop : (limiterLoop D M b p 2 st0).U i = st1.U i + ((M.nbrs i).map fun j =>
        (symmetrized st1.lijNext i j * (1 / ((M.nbrs i).length : ℝ))) • p i j).sum := by
      have : limiterLoop D M b p 2 st0 = limiterPass D M b p 2 1 st1 := by
        simp [limiterLoop, List.range_succ, hst1]
      rw [this]
      simp [limiterPass, hi']
    rw [hloop]
    refine limited_mem (hconv i) _ hi _ (hU1C i hi) _ _ fun j hj => ?_
    have hL := hlim i j hj _ (hU1C i hi) ((1 - symmetrized st0.lij i j) • p i j)
    have hL' := hlim j i (hM.symm i j hj) _ (hU1C j (hact j hj)) ((1 - symmetrized st0.lij j i) • p j i)
    have h1 := hsym0 i j hj
    have h2 := hsym0 j i (hM.symm i j hj)
    have hn0 : 0 ≤ symmetrized st1.lijNext i j := by
      refine le_min ?_ ?_
      · rw [hnext]; exact mul_nonneg (by linarith) hL.1
      · rw [hnext]; exact mul_nonneg (by linarith) hL'.1
    have hn1 : symmetrized st1.lijNext i j ≤ (1 - symmetrized st0.lij i j) *
        (D.limit i j (b i) (st1.U i) ((1 - symmetrized st0.lij i j) • p i j)).1 :=
      (min_le_left _ _).trans (hnext i j).le
    rcases eq_or_lt_of_le (show 0 ≤ 1 - symmetrized st0.lij i j by linarith) with h0 | h0
    · rw [← h0, zero_mul] at hn1
      rw [le_antisymm hn1 hn0, zero_smul, add_zero]
      exact hU1C i hi
    · have := hL.2.2 (symmetrized st1.lijNext i j / (1 - symmetrized st0.lij i j)) (div_nonneg hn0 h0.le)
        (by rw [div_le_iff₀ h0, mul_comm]; exact hn1)
      rwa [smul_smul, div_mul_cancel₀ _ h0.ne'] at this

/-! ### C17 -/

/-- If all symmetrised coefficients of a row are one then one and two limiter passes give the same result. -/
theorem newStates_unlimited [AddCommGroup S] [Module ℝ S] (D : Description ι P S F B dim) (M : Mesh ι dim)
    (par : Params) (lo : Leftover ι S) (X : Stage4 ι P S)
    (hn : par.iterations = 1 ∨ par.iterations = 2) (i : ι) (hi : M.nbrs i ≠ [])
    (hone : ∀ j ∈ M.nbrs i, symmetrized (fun i j => (l1 D M par lo X i j).1) i j = 1) :
    newStates D M par lo X i = lowOrder D M X i +
      ((M.nbrs i).map fun j => (1 / ((M.nbrs i).length : ℝ)) • pIJ D M X i j).sum := by
  have hi' : M.active i := hi
  set st0 : LimiterLoop ι S := ⟨newLow D M lo X, fun i j => (l1 D M par lo X i j).1, lo.lijNext⟩ with hst0
  have h1 : lowOrder D M X i + ((M.nbrs i).map fun j =>
      (symmetrized st0.lij i j * (1 / ((M.nbrs i).length : ℝ))) • pIJ D M X i j).sum
        = lowOrder D M X i + ((M.nbrs i).map fun j =>
          (1 / ((M.nbrs i).length : ℝ)) • pIJ D M X i j).sum := by
    congr 1
    refine sum_map_congr _ _ _ fun j hj => ?_
    have : symmetrized st0.lij i j = 1 := hone j hj
    rw [this, one_mul]
  unfold newStates
  rw [← hst0]
  rcases hn with hn | hn
  · rw [hn, ← h1]
    simp [limiterLoop, limiterPass, hi', newLow, hst0]
  · rw [hn, ← h1]
    set b := finalBounds D M par lo X
    set p := pIJ D M X
    have : limiterLoop D M b p 2 st0 = limiterPass D M b p 2 1 (limiterPass D M b p 2 0 st0) := by
      simp [limiterLoop, List.range_succ]
    rw [this]
    set st1 := limiterPass D M b p 2 0 st0 with hst1
    have hU : (limiterPass D M b p 2 1 st1).U i = st1.U i + ((M.nbrs i).map fun j =>
        (symmetrized st1.lijNext i j * (1 / ((M.nbrs i).length : ℝ))) • p i j).sum := by
      simp [limiterPass, hi']
    have hz : ((M.nbrs i).map fun j =>
        (symmetrized st1.lijNext i j * (1 / ((M.nbrs i).length : ℝ))) • p i j).sum = 0 := by
      have : ∀ j ∈ M.nbrs i, (symmetrized st1.lijNext i j * (1 / ((M.nbrs i).length : ℝ))) • p i j
          = (0 : ℝ) • p i j := by
        intro j hj
        have h2 : symmetrized st0.lij i j = 1 := hone j hj
        have h3 : symmetrized st0.lij j i = 1 := by rw [symmetrized_comm]; exact h2
        have : symmetrized st1.lijNext i j = 0 := by
          unfold symmetrized
          have e : ∀ i j, symmetrized st0.lij i j = 1 → st1.lijNext i j = 0 := by
            intro i j h; simp [hst1, limiterPass, h]
          rw [e i j h2, e j i h3, min_self]
        rw [this, zero_mul]
      rw [sum_map_congr _ _ _ this, sum_map_smul, zero_smul]
    rw [hU, hz, add_zero, hst1]
    simp [limiterPass, hi', newLow, hst0]

/-- **C17 (exact form).** If the symmetrised limiter coefficients of row `i` are one, one or two limiter passes
return the high-order update `U_i + τ/m_i (F_i + Σ_j (b_ij F_j - b_ji F_i))` *minus* the diagonal correction
`τ/m_i P_ii`: the limiter loops skip the diagonal although `P_ii` need not vanish. -/
theorem C17_unlimited_step_partial [AddCommGroup S] [Module ℝ S] (D : Description ι P S F B dim) (M : Mesh ι dim)
    (par : Params) (lo : Leftover ι S) (X : Stage4 ι P S)
    (hn : par.iterations = 1 ∨ par.iterations = 2) (i : ι) (hi : M.nbrs i ≠ []) (hm : M.lumped i ≠ 0)
    (hmass : M.mass i i + ((M.nbrs i).map (M.mass i)).sum = M.lumped i)
    (hjump : jump D X i i = 0)
    (hone : ∀ j ∈ M.nbrs i, symmetrized (fun i j => (l1 D M par lo X i j).1) i j = 1) :
    newStates D M par lo X i =
      X.old.U i + (X.tau * (M.lumped i)⁻¹) • (rhsH D M X i +
        ((M.nbrs i).map fun j => bIJ M i j • rhsH D M X j - bJI M i j • rhsH D M X i).sum)
      - (X.tau * (M.lumped i)⁻¹) • pStep4 D M X i i := by
  set τ := X.tau * (M.lumped i)⁻¹ with hτ
  have hlen : ((M.nbrs i).length : ℝ) ≠ 0 := by
    have : 0 < (M.nbrs i).length := List.length_pos_iff.2 hi
    positivity
  have h1 : newStates D M par lo X i = lowOrder D M X i +
      ((M.nbrs i).map fun j => τ • (pStep4 D M X i j +
        (bIJ M i j • rhsH D M X j - bJI M i j • rhsH D M X i))).sum := by
    rw [newStates_unlimited D M par lo X hn i hi hone]
    congr 1
    refine sum_map_congr _ _ _ fun j hj => ?_
    unfold pIJ
    rw [smul_smul, ← hτ]
    congr 1
    field_simp
  rw [h1]
  have hcol : ∀ f : ι → S, ((M.columns i).map f).sum = f i + ((M.nbrs i).map f).sum := by
    intro f; simp [Mesh.columns]
  -- separate the sums
  have hlow : lowOrder D M X i = X.old.U i + X.tau • sourceAt D X i + (τ • fluxIJ D M X i i +
      ((M.nbrs i).map fun j => τ • fluxIJ D M X i j + (τ * X.d i j) • jump D X i j).sum) := by
    unfold lowOrder
    rw [hcol, hjump, smul_zero, add_zero]
  have hrhs : τ • rhsH D M X i = X.tau • sourceH D X i + (-(τ * M.mass i i) • sourceH D X i +
      τ • highOrderPart D M X i i + ((M.nbrs i).map fun j => (τ * dH M X i j) • jump D X i j
        - (τ * M.mass i j) • sourceH D X i + τ • highOrderPart D M X i j).sum) := by
    unfold rhsH
    rw [hcol, hjump, smul_zero, zero_sub, smul_add, smul_smul, smul_add, smul_add, ← sum_map_smul, smul_neg,
      smul_smul]
    have e : τ * M.lumped i = X.tau := by rw [hτ]; field_simp
    rw [e, neg_smul]
    congr 2
    refine sum_map_congr _ _ _ fun j _ => ?_
    module
  have hp : τ • pStep4 D M X i i = -(τ • fluxIJ D M X i i) - (τ * M.mass i i) • sourceAt D X i +
      τ • highOrderPart D M X i i := by
    unfold pStep4
    rw [hjump]; module
  rw [hlow, smul_add, hrhs, hp, ← sum_map_smul]
  have hms : ∀ v : S, X.tau • v = (τ * M.mass i i) • v +
      ((M.nbrs i).map fun j => (τ * M.mass i j) • v).sum := by
    intro v
    rw [sum_map_smul_const, List.sum_map_mul_left, ← add_smul, ← mul_add, hmass, hτ]
    congr 1; field_simp
  have hS := hms (sourceAt D X i)
  have hSH := hms (sourceH D X i)
  rw [hS, hSH]
  have e2 : ∀ (f g h k r q : ι → S), (∀ j, k j + f j + g j = r j + h j + q j) →
      ((M.nbrs i).map k).sum + ((M.nbrs i).map f).sum + ((M.nbrs i).map g).sum
        = ((M.nbrs i).map r).sum + ((M.nbrs i).map h).sum + ((M.nbrs i).map q).sum := by
    intro f g h k r q hh
    rw [← sum_map_add', ← sum_map_add', ← sum_map_add', ← sum_map_add']
    exact sum_map_congr _ _ _ fun j _ => hh j
  have := e2 (fun j => τ • fluxIJ D M X i j + (τ * X.d i j) • jump D X i j)
    (fun j => τ • (pStep4 D M X i j + (bIJ M i j • rhsH D M X j - bJI M i j • rhsH D M X i)))
    (fun j => (τ * dH M X i j) • jump D X i j - (τ * M.mass i j) • sourceH D X i + τ • highOrderPart D M X i j)
    (fun j => (τ * M.mass i j) • sourceAt D X i)
    (fun j => (τ * M.mass i j) • sourceH D X i)
    (fun j => τ • (bIJ M i j • rhsH D M X j - bJI M i j • rhsH D M X i))
    (fun j => by unfold pStep4; module)
  generalize ((M.nbrs i).map fun j => (τ * M.mass i j) • sourceAt D X i).sum = a1 at this ⊢
  generalize ((M.nbrs i).map fun j => τ • fluxIJ D M X i j + (τ * X.d i j) • jump D X i j).sum = a2 at this ⊢
  generalize ((M.nbrs i).map fun j => τ • (pStep4 D M X i j +
    (bIJ M i j • rhsH D M X j - bJI M i j • rhsH D M X i))).sum = a3 at this ⊢
  generalize ((M.nbrs i).map fun j => (τ * M.mass i j) • sourceH D X i).sum = a4 at this ⊢
  generalize ((M.nbrs i).map fun j => (τ * dH M X i j) • jump D X i j - (τ * M.mass i j) • sourceH D X i
    + τ • highOrderPart D M X i j).sum = a5 at this ⊢
  generalize ((M.nbrs i).map fun j => τ • (bIJ M i j • rhsH D M X j - bJI M i j • rhsH D M X i)).sum = a6
    at this ⊢
  have h7 : a3 = a4 + a5 + a6 - a1 - a2 := by rw [← this]; abel
  rw [h7]
  module

/-- **C17 (no stages).** Without additional stages (all strong stability preserving and single stage schemes) and
with `high_order_flux == flux`, the unlimited step is exactly the high-order update, for all sources. -/
theorem C17_unlimited_step_no_stages [AddCommGroup S] [Module ℝ S] (D : Description ι P S F B dim)
    (M : Mesh ι dim) (par : Params) (lo : Leftover ι S) (X : Stage4 ι P S)
    (hn : par.iterations = 1 ∨ par.iterations = 2) (i : ι) (hi : M.nbrs i ≠ []) (hm : M.lumped i ≠ 0)
    (hmass : M.mass i i + ((M.nbrs i).map (M.mass i)).sum = M.lumped i)
    (hjump : jump D X i i = 0) (hst : X.stages = [])
    (hho : ∀ f c, D.highOrder f f c = D.fluxDiv f f c)
    (hone : ∀ j ∈ M.nbrs i, symmetrized (fun i j => (l1 D M par lo X i j).1) i j = 1) :
    newStates D M par lo X i =
      X.old.U i + (X.tau * (M.lumped i)⁻¹) • (rhsH D M X i +
        ((M.nbrs i).map fun j => bIJ M i j • rhsH D M X j - bJI M i j • rhsH D M X i).sum) := by
  rw [C17_unlimited_step_partial D M par lo X hn i hi hm hmass hjump hone]
  have hw : X.weight = 1 := by rw [weight_eq, hst]; simp
  have : pStep4 D M X i i = 0 := by
    unfold pStep4 highOrderPart highOrderIJ fluxIJ
    rw [hw, hst, hjump, hho]
    simp
  rw [this, smul_zero, sub_zero]

/-- **C17 (interior rows).** For equations without sources and rows with vanishing diagonal flux (`c_ii = 0`, every
row in the interior of the domain) the unlimited step is exactly the high-order update, for all stages. -/
theorem C17_unlimited_step_interior [AddCommGroup S] [Module ℝ S] (D : Description ι P S F B dim)
    (M : Mesh ι dim) (par : Params) (lo : Leftover ι S) (X : Stage4 ι P S)
    (hn : par.iterations = 1 ∨ par.iterations = 2) (i : ι) (hi : M.nbrs i ≠ []) (hm : M.lumped i ≠ 0)
    (hmass : M.mass i i + ((M.nbrs i).map (M.mass i)).sum = M.lumped i)
    (hjump : jump D X i i = 0) (hc : M.c i i = 0)
    (hflux : ∀ f, D.fluxDiv f f 0 = 0) (hho : ∀ f, D.highOrder f f 0 = 0)
    (hsrc : ∀ p i U t, D.source p i U t = 0)
    (hone : ∀ j ∈ M.nbrs i, symmetrized (fun i j => (l1 D M par lo X i j).1) i j = 1) :
    newStates D M par lo X i =
      X.old.U i + (X.tau * (M.lumped i)⁻¹) • (rhsH D M X i +
        ((M.nbrs i).map fun j => bIJ M i j • rhsH D M X j - bJI M i j • rhsH D M X i).sum) := by
  rw [C17_unlimited_step_partial D M par lo X hn i hi hm hmass hjump hone]
  have : pStep4 D M X i i = 0 := by
    unfold pStep4 highOrderPart highOrderIJ fluxIJ stageFluxIJ stageSource sourceAt
    simp only [hc, hjump, hflux, hho, hsrc, smul_zero, add_zero, neg_zero, sub_zero, zero_add]
    exact List.sum_eq_zero (by simp)
  rw [this, smul_zero, sub_zero]

end Hyp
end Ryujin
