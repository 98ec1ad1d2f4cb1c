import Verif.Props.NavierStokes
import Verif.Proofs.NavierStokesSolve
import Mathlib.Order.Bounds.Basic
import Mathlib.Data.Set.Finite.Lattice
import Mathlib.Data.Fintype.EquivFin
import Mathlib.Tactic.NormNum
import Mathlib.Tactic.FinCases

/-!
# The parabolic step of the Navier-Stokes equations: minimum principle, solvability, boundary conditions, steady states
-/

namespace Ryujin
namespace NavierStokes

open Euler (State density momentum totalEnergy internalEnergy mkState Boundary)

noncomputable section

variable {ι Q : Type} {dim : ℕ} [Fintype ι] [Fintype Q]

theorem specificEnergy_eq (U : State dim) : specificEnergy U = internalEnergy U / density U := by
  unfold specificEnergy internalEnergy
  congr 2
  rw [one_div, one_div, mul_comm 2, ← div_div, div_eq_mul_inv, div_eq_mul_inv]
  ring

/-! ## C74: the linear systems -/

/-- **C74.** For every time step size and every density the velocity system has exactly one solution that vanishes at
constrained degrees of freedom. -/
theorem C74_velocity_unique (c : Config ι Q dim) (hp : c.Physical) (hfe : c.fe.Conforming) (hs : SlipCompatible c.bc)
    (rho : ι → ℝ) (hrho : ∀ i, ¬ c.fe.constrained i → 0 < rho i) (tau : ℝ) (htau : 0 ≤ tau)
    (b : Field ι dim) (hb : ∀ i, c.fe.constrained i → b i = 0) :
    ∃! V : Field ι dim, (∀ i, c.fe.constrained i → V i = 0) ∧ velocityMatrix c.p c.fe c.m rho c.bc tau V = b :=
  unique_solution _ (velocityMatrix_add _ _ _ _ _ _) (velocityMatrix_smul _ _ _ _ _ _) (freeFields c.fe)
    (velocityMatrix_free c hfe rho tau) (velocityMatrix_kernel c hp hfe hs rho hrho tau htau) b hb

/-- **C74.** The energy system has exactly one solution that vanishes at constrained degrees of freedom. -/
theorem C74_energy_unique (c : Config ι Q dim) (hp : c.Physical) (hfe : c.fe.Conforming)
    (rho : ι → ℝ) (hrho : ∀ i, ¬ c.fe.constrained i → 0 < rho i) (tau : ℝ) (htau : 0 ≤ tau)
    (b : ι → ℝ) (hb : ∀ i, c.fe.constrained i → b i = 0) :
    ∃! e : ι → ℝ, (∀ i, c.fe.constrained i → e i = 0) ∧ energyMatrix c.fe c.m rho c.bc (tau * c.p.kappa) e = b :=
  unique_solution _ (energyMatrix_add _ _ _ _ _) (energyMatrix_smul _ _ _ _ _) (freeScalars c.fe)
    (energyMatrix_free c hfe rho _) (energyMatrix_kernel c hp.mass hfe rho hrho _ (mul_nonneg htau hp.kappa)) b hb

theorem stressOp_congr (p : Params) (fe : Fe ι Q dim) (hfe : fe.Conforming) (tau : ℝ) (V W : Field ι dim)
    (h : ∀ i, ¬ fe.constrained i → V i = W i) : stressOp p fe tau V = stressOp p fe tau W := by
  have : ∀ q, gradAt fe V q = gradAt fe W q := by
    intro q
    funext d e
    unfold gradAt
    refine Finset.sum_congr rfl fun j _ => ?_
    rw [readDof_congr fe hfe (fun i => V i d) (fun i => W i d) fun k hk => by rw [h k hk]]
  unfold stressOp
  simp only [this]

theorem heating_congr (p : Params) (fe : Fe ι Q dim) (hfe : fe.Conforming) (V W : Field ι dim)
    (h : ∀ i, ¬ fe.constrained i → V i = W i) : heating p fe V = heating p fe W := by
  have : ∀ q, gradAt fe V q = gradAt fe W q := by
    intro q
    funext d e
    unfold gradAt
    refine Finset.sum_congr rfl fun j _ => ?_
    rw [readDof_congr fe hfe (fun i => V i d) (fun i => W i d) fun k hk => by rw [h k hk]]
  unfold heating
  simp only [this]

theorem diffusionOp_congr (fe : Fe ι Q dim) (hfe : fe.Conforming) (factor : ℝ) (x y : ι → ℝ)
    (h : ∀ i, ¬ fe.constrained i → x i = y i) : diffusionOp fe factor x = diffusionOp fe factor y := by
  have : ∀ q, gradAtScalar fe x q = gradAtScalar fe y q := by
    intro q
    funext d
    unfold gradAtScalar
    refine Finset.sum_congr rfl fun j _ => ?_
    rw [readDof_congr fe hfe x y h]
  unfold diffusionOp
  simp only [this]

theorem setup_rhs_constrained (c : Config ι Q dim) (U : ι → State dim) (t1 : ℝ) (i : ι) (hi : c.fe.constrained i) :
    (setup c.fe c.m c.bc U t1).rhs i = 0 := if_pos hi

theorem setup_velocity_constrained (c : Config ι Q dim) (U : ι → State dim) (t1 : ℝ) (i : ι) (hi : c.fe.constrained i) :
    (setup c.fe c.m c.bc U t1).velocity i = 0 := if_pos hi

theorem setup_energy_constrained (c : Config ι Q dim) (U : ι → State dim) (t1 : ℝ) (i : ι) (hi : c.fe.constrained i) :
    (setup c.fe c.m c.bc U t1).energy i = 0 := if_pos hi

theorem energyRhs_constrained (c : Config ι Q dim) (U : ι → State dim) (e : ι → ℝ) (V : Field ι dim) (t1 tau : ℝ) (i : ι)
    (hi : c.fe.constrained i) : energyRhs c.p c.fe c.m c.bc U e V t1 tau i = 0 := if_pos hi

theorem densityVector_pos (c : Config ι Q dim) (U : ι → State dim)
    (hrho : ∀ i, ¬ c.fe.constrained i → 0 < density (U i)) (i : ι) (hi : ¬ c.fe.constrained i) :
    0 < densityVector c.fe U i := by
  have : densityVector c.fe U i = density (U i) := if_neg hi
  rw [this]; exact hrho i hi

/-- Two solutions of the velocity system agree at unconstrained degrees of freedom. -/
theorem velocity_unique_free (c : Config ι Q dim) (hp : c.Physical) (hfe : c.fe.Conforming) (hs : SlipCompatible c.bc)
    (U : ι → State dim) (hrho : ∀ i, ¬ c.fe.constrained i → 0 < density (U i)) (t tau : ℝ) (htau : 0 ≤ tau)
    (V W : Field ι dim) (hV : VelocitySolved c U t tau V) (hW : VelocitySolved c U t tau W) (i : ι)
    (hi : ¬ c.fe.constrained i) : V i = W i := by
  have hzero : ∀ X : Field ι dim, VelocitySolved c U t tau X →
      (∀ i, c.fe.constrained i → setZeroField c.fe X i = 0) ∧
        velocityMatrix c.p c.fe c.m (densityVector c.fe U) c.bc tau (setZeroField c.fe X) =
          (setup c.fe c.m c.bc U (t + tau)).rhs := by
    intro X hX
    refine ⟨fun i hi => if_pos hi, ?_⟩
    funext k
    by_cases hk : c.fe.constrained k
    · have h0 : setZeroField c.fe X k = 0 := if_pos hk
      rw [setup_rhs_constrained c U _ k hk, velocityMatrix_apply, h0, stressOp_constrained c.p c.fe hfe tau _ k hk,
        smul_zero, add_zero, foldl_fixRow_self]
    · have h0 : setZeroField c.fe X k = X k := if_neg hk
      rw [← congrFun hX k, velocityMatrix_apply, velocityMatrix_apply, h0,
        stressOp_congr c.p c.fe hfe tau (setZeroField c.fe X) X fun i hi => if_neg hi]
  have := (C74_velocity_unique c hp hfe hs (densityVector c.fe U) (densityVector_pos c U hrho) tau htau _
    (setup_rhs_constrained c U (t + tau))).unique (hzero V hV) (hzero W hW)
  have h1 := congrFun this i
  have hv : setZeroField c.fe V i = V i := if_neg hi
  have hw : setZeroField c.fe W i = W i := if_neg hi
  rw [hv, hw] at h1
  exact h1

/-- Two solutions of the energy system agree at unconstrained degrees of freedom. -/
theorem energy_unique_free (c : Config ι Q dim) (hp : c.Physical) (hfe : c.fe.Conforming)
    (U : ι → State dim) (hrho : ∀ i, ¬ c.fe.constrained i → 0 < density (U i)) (t tau : ℝ) (htau : 0 ≤ tau)
    (V : Field ι dim) (e e' : ι → ℝ) (he : EnergySolved c U t tau V e) (he' : EnergySolved c U t tau V e') (i : ι)
    (hi : ¬ c.fe.constrained i) : e i = e' i := by
  have hzero : ∀ x : ι → ℝ, EnergySolved c U t tau V x →
      (∀ i, c.fe.constrained i → setZero c.fe x i = 0) ∧
        energyMatrix c.fe c.m (densityVector c.fe U) c.bc (tau * c.p.kappa) (setZero c.fe x) =
          energyRhs c.p c.fe c.m c.bc U (setup c.fe c.m c.bc U (t + tau)).energy V (t + tau) tau := by
    intro x hx
    refine ⟨fun i hi => if_pos hi, ?_⟩
    funext k
    by_cases hk : c.fe.constrained k
    · rw [energyRhs_constrained c U _ V _ tau k hk]
      exact energyMatrix_free c hfe _ _ (setZero c.fe x) (fun i hi => if_pos hi) k hk
    · have h0 : setZero c.fe x k = x k := if_neg hk
      rw [← congrFun hx k]
      unfold energyMatrix
      by_cases hd : ∃ b ∈ c.bc, b.i = k ∧ b.id = .dirichlet
      · rw [foldl_fixEnergy_some _ _ _ _ hd, foldl_fixEnergy_some _ _ _ _ hd, h0]
      · push Not at hd
        rw [foldl_fixEnergy_none _ _ _ _ hd, foldl_fixEnergy_none _ _ _ _ hd, h0,
          diffusionOp_congr c.fe hfe _ (setZero c.fe x) x fun i hi => if_neg hi]
  have := (C74_energy_unique c hp hfe (densityVector c.fe U) (densityVector_pos c U hrho) tau htau _
    (energyRhs_constrained c U (setup c.fe c.m c.bc U (t + tau)).energy V (t + tau) tau)).unique (hzero e he) (hzero e' he')
  have h1 := congrFun this i
  have hv : setZero c.fe e i = e i := if_neg hi
  have hw : setZero c.fe e' i = e' i := if_neg hi
  rw [hv, hw] at h1
  exact h1

open Classical in
/-- A solver that finds a solution leaving constrained entries alone whenever there is one. -/
def idealSolver {α : Type} (constrained : ι → Prop) : Solver (ι → α) := fun A x0 b =>
  if h : ∃ x, A x = b ∧ ∀ i, constrained i → x i = x0 i then (true, h.choose) else (false, x0)

omit [Fintype ι] in
theorem idealSolver_exact {α : Type} (constrained : ι → Prop) : Exact (idealSolver (α := α) constrained) := by
  intro A x0 b h
  unfold idealSolver at h ⊢
  split_ifs at h ⊢ with hx
  exact hx.choose_spec.1

omit [Fintype ι] in
theorem idealSolver_keeps {α : Type} (constrained : ι → Prop) :
    KeepsConstrained constrained (idealSolver (α := α) constrained) := by
  intro A x0 b i hi
  unfold idealSolver
  split_ifs with hx
  · exact hx.choose_spec.2 i hi
  · rfl

omit [Fintype ι] in
theorem solve_idealSolver {α : Type} (constrained : ι → Prop) (use_gmg : Bool) (A : (ι → α) → ι → α) (x0 b x : ι → α)
    (hx : A x = b) (hc : ∀ i, constrained i → x i = x0 i) :
    ∃ y, solve use_gmg (idealSolver constrained) (idealSolver constrained) A x0 b = some y := by
  have h1 : (idealSolver constrained A x0 b).1 = true := by
    unfold idealSolver
    rw [dif_pos ⟨x, hx, hc⟩]
  unfold solve
  cases use_gmg
  · rw [if_neg (by simp), if_pos h1]; exact ⟨_, rfl⟩
  · rw [if_pos rfl, if_pos h1]; exact ⟨_, rfl⟩

/-- Ideal solvers for both systems. -/
def idealSolvers (fe : Fe ι Q dim) (b : Bool) : Solvers ι dim :=
  ⟨b, b, idealSolver fe.constrained, idealSolver fe.constrained, idealSolver fe.constrained, idealSolver fe.constrained⟩

omit [Fintype ι] [Fintype Q] in
theorem idealSolvers_exact (fe : Fe ι Q dim) (b : Bool) : (idealSolvers fe b).AllExact :=
  ⟨idealSolver_exact _, idealSolver_exact _, idealSolver_exact _, idealSolver_exact _⟩

omit [Fintype ι] [Fintype Q] in
theorem idealSolvers_keep (fe : Fe ι Q dim) (b : Bool) : (idealSolvers fe b).AllKeep fe.constrained :=
  ⟨idealSolver_keeps _, idealSolver_keeps _, idealSolver_keeps _, idealSolver_keeps _⟩

/-- **C74.** If the linear solvers find solutions that exist, the step never fails for lack of convergence, whatever the
time step size: there always is a solution. -/
theorem C74_step_completes (c : Config ι Q dim) (hp : c.Physical) (hfe : c.fe.Conforming) (hs : SlipCompatible c.bc)
    (use_gmg : Bool) (hx : c.solvers = idealSolvers c.fe use_gmg) (strategy : Strategy)
    (U : ι → State dim) (hrho : ∀ i, ¬ c.fe.constrained i → 0 < density (U i)) (t tau : ℝ) (htau : 0 ≤ tau) :
    backwardEulerStep c strategy U t tau ≠ .noConvergence := by
  obtain ⟨V0, ⟨hV0, hV1⟩, -⟩ := C74_velocity_unique c hp hfe hs (densityVector c.fe U) (densityVector_pos c U hrho)
    tau htau _ (setup_rhs_constrained c U (t + tau))
  obtain ⟨V, hV⟩ : ∃ V, newVelocity c U t tau = some V := by
    unfold newVelocity
    rw [hx]
    exact solve_idealSolver _ _ _ _ _ V0 hV1 fun i hi => by
      rw [hV0 i hi, setup_velocity_constrained c U _ i hi]
  obtain ⟨e0, ⟨he0, he1⟩, -⟩ := C74_energy_unique c hp hfe (densityVector c.fe U) (densityVector_pos c U hrho)
    tau htau _ (energyRhs_constrained c U (setup c.fe c.m c.bc U (t + tau)).energy V (t + tau) tau)
  obtain ⟨e, he⟩ : ∃ e, newEnergy c U V t tau = some e := by
    unfold newEnergy
    rw [hx]
    exact solve_idealSolver _ _ _ _ _ e0 he1 fun i hi => by
      rw [he0 i hi, setup_energy_constrained c U _ i hi]
  unfold backwardEulerStep
  rw [hV]
  dsimp only
  rw [he]
  dsimp only
  split_ifs
  · cases strategy <;> simp
  · simp

/-! ## C73: the internal energy -/

theorem globalMin_le (e : ι → ℝ) (i : ι) : globalMin e ≤ e i := ciInf_le (Set.finite_range e).bddBelow i

theorem le_globalMin [Nonempty ι] (e : ι → ℝ) (r : ℝ) (h : ∀ i, r ≤ e i) : r ≤ globalMin e := le_ciInf h

omit [Fintype ι] in
theorem foldl_dirichletRow_ge (i : ι) (t1 lower : ℝ) (bc : List (Entry ι dim)) (x : ℝ) (hx : lower ≤ x)
    (h : ∀ b ∈ bc, b.i = i → b.id = .dirichlet → lower ≤ specificEnergy (b.data t1)) :
    lower ≤ bc.foldl (dirichletRow i t1) x := by
  induction bc generalizing x with
  | nil => exact hx
  | cons b l ih =>
    rw [List.foldl_cons]
    refine ih _ ?_ fun b hb => h b (List.mem_cons_of_mem _ hb)
    unfold dirichletRow
    split_ifs with hb
    · rw [← specificEnergy_eq]; exact h b List.mem_cons_self hb.1 hb.2
    · exact hx

theorem setup_energy_ge (c : Config ι Q dim) (U : ι → State dim) (t1 lower : ℝ) (i : ι) (hi : ¬ c.fe.constrained i)
    (hU : lower ≤ specificEnergy (U i))
    (hb : ∀ b ∈ c.bc, b.id = .dirichlet → lower ≤ specificEnergy (b.data t1)) :
    lower ≤ (setup c.fe c.m c.bc U t1).energy i := by
  have : (setup c.fe c.m c.bc U t1).energy i = (c.bc.foldl (setupBoundary t1) (setupLoop c.m U)).energy i := if_neg hi
  rw [this, foldl_setup_energy]
  refine foldl_dirichletRow_ge i t1 lower c.bc _ ?_ fun b hb' _ => hb b hb'
  show lower ≤ internalEnergy (U i) / density (U i)
  rw [← specificEnergy_eq]; exact hU

/-- **C73.** Meshes without constraints: a step that is accepted without a warning has not lowered the minimum of the
specific internal energy (of the old state and the Dirichlet data) by more than the relative tolerance, whatever the
linear solvers did. Missing for the full claim: constrained degrees of freedom, see `C73_constraint_violation`. -/
theorem C73_minimum_partial [Nonempty ι] (c : Config ι Q dim) (hcon : ∀ i, ¬ c.fe.constrained i)
    (heps : 1000 * c.eps ≤ 1) (strategy : Strategy) (U U' : ι → State dim) (t tau : ℝ)
    (h : backwardEulerStep c strategy U t tau = .done U' false) (lower : ℝ)
    (hU : ∀ i, lower ≤ specificEnergy (U i))
    (hb : ∀ b ∈ c.bc, b.id = .dirichlet → lower ≤ specificEnergy (b.data (t + tau))) (i : ι) (hi : density (U i) ≠ 0) :
    lower * (1 - 1000 * c.eps) ≤ specificEnergy (U' i) := by
  obtain ⟨V, e, -, -, rfl, hr⟩ := step_done c strategy U U' t tau false h
  rw [specificEnergy_writeBack U V e i hi]
  have h1 := not_lt.1 (hr rfl)
  refine le_trans ?_ (h1.trans (globalMin_le e i))
  refine mul_le_mul_of_nonneg_right (le_globalMin _ _ fun j => ?_) (by linarith)
  exact setup_energy_ge c U _ lower j (hcon j) (hU j) hb

/-- **C73.** On all meshes: a step that is accepted without a warning keeps the internal energy nonnegative, whatever the
linear solvers did. -/
theorem C73_nonnegative [Nonempty ι] (c : Config ι Q dim) (heps : 1000 * c.eps ≤ 1) (strategy : Strategy)
    (U U' : ι → State dim) (t tau : ℝ) (h : backwardEulerStep c strategy U t tau = .done U' false)
    (hU : ∀ i, ¬ c.fe.constrained i → 0 ≤ specificEnergy (U i))
    (hb : ∀ b ∈ c.bc, b.id = .dirichlet → 0 ≤ specificEnergy (b.data (t + tau))) (i : ι) (hi : density (U i) ≠ 0) :
    0 ≤ specificEnergy (U' i) := by
  obtain ⟨V, e, -, -, rfl, hr⟩ := step_done c strategy U U' t tau false h
  rw [specificEnergy_writeBack U V e i hi]
  have h1 := not_lt.1 (hr rfl)
  refine le_trans ?_ (h1.trans (globalMin_le e i))
  refine mul_nonneg (le_globalMin _ _ fun j => ?_) (by linarith)
  by_cases hj : c.fe.constrained j
  · rw [setup_energy_constrained c U _ j hj]
  · exact setup_energy_ge c U _ 0 j hj (hU j hj) hb

/-- **C73.** With the strategy that raises an exception no step is accepted with a warning. -/
theorem C73_raise (c : Config ι Q dim) (U U' : ι → State dim) (t tau : ℝ) (w : Bool)
    (h : backwardEulerStep c .raise U t tau = .done U' w) : w = false := by
  unfold backwardEulerStep at h
  split at h
  · cases h
  · split at h
    · cases h
    · split_ifs at h
      cases h
      rfl

theorem energy_lower (c : Config ι Q dim) (hp : c.Physical) (hfe : c.fe.Conforming) (hn : c.fe.NonObtuse)
    (U : ι → State dim) (hrho : ∀ i, ¬ c.fe.constrained i → 0 < density (U i)) (t tau : ℝ) (htau : 0 ≤ tau) (lower : ℝ)
    (hU : ∀ i, ¬ c.fe.constrained i → lower ≤ (setup c.fe c.m c.bc U (t + tau)).energy i)
    (V : Field ι dim) (e : ι → ℝ) (he : EnergySolved c U t tau V e) (i : ι) (hi : ¬ c.fe.constrained i) :
    lower ≤ e i := by
  have : Nonempty {i // ¬ c.fe.constrained i} := ⟨⟨i, hi⟩⟩
  obtain ⟨⟨k, hk⟩, hmin⟩ := Finite.exists_min fun j : {i // ¬ c.fe.constrained i} => e j.1
  refine le_trans ?_ (hmin ⟨i, hi⟩)
  by_cases hd : ∃ b ∈ c.bc, b.i = k ∧ b.id = .dirichlet
  · show lower ≤ e k
    rw [energy_row_dirichlet c U t tau V e he k hk hd]
    exact hU k hk
  · push Not at hd
    have h1 := energy_row c U t tau V e he k hk hd
    have h2 := diffusionOp_at_min c.fe hfe hn (tau * c.p.kappa) (mul_nonneg htau hp.kappa) e k hk
      fun j hj => hmin ⟨j, hj⟩
    have h3 := mul_nonneg htau (heating_nonneg c.p c.fe hfe.weight_nonneg hn hp.mu hp.lam hp.dim_le V k)
    have h4 : 0 ≤ normSq (velocity (U k) - V k) := dot_self_nonneg _
    have hpos : 0 < c.m k * density (U k) := mul_pos (hp.mass k) (hrho k hk)
    have h5 := hU k hk
    have hs : (setup c.fe c.m c.bc U (t + tau)).energy k = internalEnergy (U k) / density (U k) := by
      unfold setup setZero
      dsimp only
      rw [if_neg hk, foldl_setup_energy, foldl_dirichletRow_none k _ _ _ hd]
      rfl
    rw [hs] at h5
    have h6 : c.m k * density (U k) * lower ≤ c.m k * density (U k) * e k := by
      have := mul_le_mul_of_nonneg_left h5 hpos.le
      have := mul_nonneg hpos.le h4
      nlinarith
    exact le_of_mul_le_mul_left h6 hpos

/-- **C73.** On nonobtuse meshes the minimum of the specific internal energy does not decrease at all, for every time step
size, constraints included. -/
theorem C73_nonobtuse_minimum (c : Config ι Q dim) (hp : c.Physical) (hfe : c.fe.Conforming) (hn : c.fe.NonObtuse)
    (hx : c.solvers.AllExact) (strategy : Strategy) (U U' : ι → State dim)
    (hrho : ∀ i, ¬ c.fe.constrained i → 0 < density (U i)) (t tau : ℝ) (htau : 0 ≤ tau) (w : Bool)
    (h : backwardEulerStep c strategy U t tau = .done U' w) (lower : ℝ)
    (hU : ∀ i, ¬ c.fe.constrained i → lower ≤ specificEnergy (U i))
    (hb : ∀ b ∈ c.bc, b.id = .dirichlet → lower ≤ specificEnergy (b.data (t + tau)))
    (i : ι) (hi : ¬ c.fe.constrained i) : lower ≤ specificEnergy (U' i) := by
  obtain ⟨V, e, -, he, rfl, -⟩ := step_done c strategy U U' t tau w h
  rw [specificEnergy_writeBack U V e i (hrho i hi).ne']
  exact energy_lower c hp hfe hn U hrho t tau htau lower (fun j hj => setup_energy_ge c U _ lower j hj (hU j hj) hb) V e
    (newEnergy_solved c hx U V t tau e he) i hi

/-- **C73.** On nonobtuse meshes a step from a state with nonnegative internal energy never restarts or warns, for every
time step size. -/
theorem C73_nonobtuse_accepted [Nonempty ι] (c : Config ι Q dim) (hp : c.Physical) (hfe : c.fe.Conforming)
    (hn : c.fe.NonObtuse) (hx : c.solvers.AllExact) (hk : c.solvers.AllKeep c.fe.constrained)
    (heps : 0 ≤ c.eps) (strategy : Strategy) (U : ι → State dim)
    (hrho : ∀ i, ¬ c.fe.constrained i → 0 < density (U i)) (t tau : ℝ) (htau : 0 ≤ tau)
    (hU : ∀ i, ¬ c.fe.constrained i → 0 ≤ specificEnergy (U i))
    (hb : ∀ b ∈ c.bc, b.id = .dirichlet → 0 ≤ specificEnergy (b.data (t + tau))) :
    backwardEulerStep c strategy U t tau = .noConvergence ∨ ∃ U', backwardEulerStep c strategy U t tau = .done U' false := by
  unfold backwardEulerStep
  split
  · exact Or.inl rfl
  · rename_i V hV
    split
    · exact Or.inl rfl
    · rename_i e he
      right
      rw [if_neg]
      · exact ⟨_, rfl⟩
      · unfold restartNeeded
        rw [not_lt]
        have hs0 : 0 ≤ globalMin (setup c.fe c.m c.bc U (t + tau)).energy := by
          refine le_globalMin _ _ fun j => ?_
          by_cases hj : c.fe.constrained j
          · rw [setup_energy_constrained c U _ j hj]
          · exact setup_energy_ge c U _ 0 j hj (hU j hj) hb
        refine le_trans ?_ (le_globalMin e (globalMin (setup c.fe c.m c.bc U (t + tau)).energy) fun j => ?_)
        · nlinarith
        · by_cases hj : c.fe.constrained j
          · have h1 : e j = (setup c.fe c.m c.bc U (t + tau)).energy j :=
              solve_keeps c.fe.constrained _ _ _ hk.gmg_energy hk.cg_energy _ _ _ _ he j hj
            rw [h1]; exact globalMin_le _ j
          · exact energy_lower c hp hfe hn U hrho t tau htau _ (fun k _ => globalMin_le _ k) V e
              (newEnergy_solved c hx U V t tau e he) j hj

/-! ## C75: kinetic energy and boundary conditions -/

/-- **C75.** Without Dirichlet boundaries the parabolic step does not increase the kinetic energy, for every time step
size. -/
theorem C75_kinetic_energy (c : Config ι Q dim) (hp : c.Physical) (hfe : c.fe.Conforming) (hs : SlipCompatible c.bc)
    (hx : c.solvers.AllExact) (hd : ∀ b ∈ c.bc, b.id ≠ .dirichlet) (strategy : Strategy) (U U' : ι → State dim)
    (hrho : ∀ i, ¬ c.fe.constrained i → 0 < density (U i)) (t tau : ℝ) (htau : 0 ≤ tau) (w : Bool)
    (h : backwardEulerStep c strategy U t tau = .done U' w) :
    total c (fun i => kineticEnergy (U' i)) ≤ total c (fun i => kineticEnergy (U i)) := by
  classical
  obtain ⟨V, e, hV, -, rfl, -⟩ := step_done c strategy U U' t tau w h
  have hV' := newVelocity_solved c hx U t tau V hV
  have key : ∀ i, (if c.fe.constrained i then 0 else c.m i * kineticEnergy (writeBack U V e i)) ≤
      (if c.fe.constrained i then 0 else c.m i * kineticEnergy (U i)) - dot (V i) (stressOp c.p c.fe tau V i) := by
    intro i
    by_cases hi : c.fe.constrained i
    · simp only [if_pos hi, stressOp_constrained c.p c.fe hfe tau V i hi, dot_zero_right, sub_zero, le_refl]
    · simp only [if_neg hi]
      have hr := hrho i hi
      have h0 := velocity_test c hs U t tau V hV' i hi fun b hb _ => hd b hb
      have h1 : dot (V i) (momentumDefect c U tau V i) = c.m i * density (U i) * dot (V i) (V i) +
          dot (V i) (stressOp c.p c.fe tau V i) - c.m i * density (U i) * dot (V i) (velocity (U i)) := by
        have : momentumDefect c U tau V i = (c.m i * density (U i)) • V i + stressOp c.p c.fe tau V i -
            (c.m i * density (U i)) • velocity (U i) := by
          funext d
          simp only [momentumDefect, velocity, Pi.add_apply, Pi.sub_apply, Pi.smul_apply, smul_eq_mul]
          field_simp
        rw [this, dot_sub_right', dot_add_right', dot_smul_right', dot_smul_right']
      have h2 : kineticEnergy (writeBack U V e i) = 1 / 2 * density (U i) * dot (V i) (V i) := by
        unfold kineticEnergy
        have hn : normSq (fun d => density (U i) * V i d) = density (U i) ^ 2 * dot (V i) (V i) := by
          unfold dot normSq
          rw [Finset.mul_sum]
          exact Finset.sum_congr rfl fun d _ => by ring
        rw [density_writeBack, momentum_writeBack, hn]
        field_simp
      have h3 : kineticEnergy (U i) = 1 / 2 * density (U i) * dot (velocity (U i)) (velocity (U i)) := by
        have hn : normSq (momentum (U i)) = density (U i) ^ 2 * dot (velocity (U i)) (velocity (U i)) := by
          unfold normSq dot velocity
          rw [Finset.mul_sum]
          exact Finset.sum_congr rfl fun d _ => by field_simp
        unfold kineticEnergy
        rw [hn]
        field_simp
      have h4 : 0 ≤ dot (velocity (U i) - V i) (velocity (U i) - V i) := dot_self_nonneg _
      rw [dot_sub_right', dot_sub_left', dot_sub_left', dot_comm' (velocity (U i)) (V i)] at h4
      have h5 := mul_nonneg (mul_pos (hp.mass i) hr).le h4
      rw [h2, h3]
      nlinarith
  have hsum : total c (fun i => kineticEnergy (writeBack U V e i)) ≤
      total c (fun i => kineticEnergy (U i)) - ∑ i, dot (V i) (stressOp c.p c.fe tau V i) := by
    unfold total
    rw [← Finset.sum_sub_distrib]
    exact Finset.sum_le_sum fun i _ => key i
  rw [sum_stressOp] at hsum
  have hdiss : 0 ≤ tau * ∑ q, c.fe.weight q * dissipation c.p (gradAt c.fe V q) :=
    mul_nonneg htau (Finset.sum_nonneg fun q _ => mul_nonneg (hfe.weight_nonneg q)
      (dissipation_nonneg c.p hp.mu hp.lam hp.dim_le _))
  linarith

/-- **C75.** The new velocity is tangential at slip boundaries and zero at no-slip boundaries. -/
theorem C75_walls (c : Config ι Q dim) (hs : SlipCompatible c.bc) (hx : c.solvers.AllExact)
    (strategy : Strategy) (U U' : ι → State dim) (t tau : ℝ) (w : Bool)
    (h : backwardEulerStep c strategy U t tau = .done U' w) (b : Entry ι dim) (hb : b ∈ c.bc)
    (hi : ¬ c.fe.constrained b.i) (hrho : density (U b.i) ≠ 0)
    (hd : ∀ b' ∈ c.bc, b'.i = b.i → b'.id ≠ .dirichlet) :
    (b.id = .slip → dot (velocity (U' b.i)) b.normal = 0) ∧ (b.id = .noSlip → velocity (U' b.i) = 0) := by
  obtain ⟨V, e, hV, -, rfl, -⟩ := step_done c strategy U U' t tau w h
  have hV' := newVelocity_solved c hx U t tau V hV
  rw [velocity_writeBack U V e b.i hrho]
  by_cases hn : ∃ b' ∈ c.bc, b'.i = b.i ∧ Prescribes b'
  · have h1 := velocity_row_prescribed c U t tau V hV' b.i hi hn
    have hn' : ∃ b' ∈ c.bc, b'.i = b.i ∧ b'.id = .noSlip := by
      obtain ⟨b', hb', hi', hp⟩ := hn
      exact ⟨b', hb', hi', hp.resolve_right (hd b' hb' hi')⟩
    rw [foldl_rhsRow_noSlip b.i (t + tau) c.bc _ hd hn'] at h1
    rw [h1]
    exact ⟨fun _ => dot_zero_left _, fun _ => rfl⟩
  · push Not at hn
    exact ⟨fun hsl => (velocity_row_free c hs U t tau V hV' b.i hi hn).1 b hb rfl hsl,
      fun hns => absurd (Or.inl hns) (hn b hb rfl)⟩

omit [Fintype ι] in
theorem foldl_rhsRow_dirichlet (i : ι) (t1 : ℝ) (v : Vec dim) (bc : List (Entry ι dim)) (R : Vec dim)
    (h : ∀ b ∈ bc, b.i = i → b.id ≠ .slip ∧ b.id ≠ .noSlip ∧ (b.id = .dirichlet → velocity (b.data t1) = v))
    (hR : R = v ∨ ∃ b ∈ bc, b.i = i ∧ b.id = .dirichlet) : bc.foldl (rhsRow i t1) R = v := by
  induction bc generalizing R with
  | nil =>
    rcases hR with hR | ⟨b, hb, -⟩
    · exact hR
    · cases hb
  | cons a l ih =>
    rw [List.foldl_cons]
    refine ih _ (fun b hb => h b (List.mem_cons_of_mem _ hb)) ?_
    by_cases hi : a.i = i
    · obtain ⟨h1, h2, h3⟩ := h a List.mem_cons_self hi
      by_cases hd : a.id = .dirichlet
      · left
        unfold rhsRow
        rw [if_pos hi, hd]
        exact h3 hd
      · have hR' : rhsRow i t1 R a = R := by
          unfold rhsRow; rw [if_pos hi]
          cases hid : a.id <;> simp_all
        rw [hR']
        rcases hR with hR | ⟨b, hb, hbi⟩
        · exact Or.inl hR
        · rcases List.mem_cons.1 hb with rfl | hb
          · exact absurd hbi.2 hd
          · exact Or.inr ⟨b, hb, hbi⟩
    · have hR' : rhsRow i t1 R a = R := by unfold rhsRow; rw [if_neg hi]
      rw [hR']
      rcases hR with hR | ⟨b, hb, hbi⟩
      · exact Or.inl hR
      · rcases List.mem_cons.1 hb with rfl | hb
        · exact absurd hbi.1 hi
        · exact Or.inr ⟨b, hb, hbi⟩

omit [Fintype ι] in
theorem foldl_dirichletRow_value (i : ι) (t1 : ℝ) (v : ℝ) (bc : List (Entry ι dim)) (x : ℝ)
    (h : ∀ b ∈ bc, b.i = i → b.id = .dirichlet → specificEnergy (b.data t1) = v)
    (hR : x = v ∨ ∃ b ∈ bc, b.i = i ∧ b.id = .dirichlet) : bc.foldl (dirichletRow i t1) x = v := by
  induction bc generalizing x with
  | nil =>
    rcases hR with hR | ⟨b, hb, -⟩
    · exact hR
    · cases hb
  | cons a l ih =>
    rw [List.foldl_cons]
    refine ih _ (fun b hb => h b (List.mem_cons_of_mem _ hb)) ?_
    unfold dirichletRow
    split_ifs with ha
    · left
      rw [← specificEnergy_eq]
      exact h a List.mem_cons_self ha.1 ha.2
    · rcases hR with hR | ⟨b, hb, hbi⟩
      · exact Or.inl hR
      · rcases List.mem_cons.1 hb with rfl | hb
        · exact absurd hbi ha
        · exact Or.inr ⟨b, hb, hbi⟩

/-- **C75.** At Dirichlet boundaries the new velocity and the new specific internal energy are those of the prescribed
state at the new time (the density remains the one of the old state). -/
theorem C75_dirichlet (c : Config ι Q dim) (hx : c.solvers.AllExact)
    (strategy : Strategy) (U U' : ι → State dim) (t tau : ℝ) (w : Bool)
    (h : backwardEulerStep c strategy U t tau = .done U' w) (b : Entry ι dim) (hb : b ∈ c.bc) (hbd : b.id = .dirichlet)
    (hi : ¬ c.fe.constrained b.i) (hrho : density (U b.i) ≠ 0)
    (hd : ∀ b' ∈ c.bc, b'.i = b.i → b'.id ≠ .slip ∧ b'.id ≠ .noSlip ∧ b'.data = b.data) :
    velocity (U' b.i) = velocity (b.data (t + tau)) ∧ specificEnergy (U' b.i) = specificEnergy (b.data (t + tau)) := by
  obtain ⟨V, e, hV, he, rfl, -⟩ := step_done c strategy U U' t tau w h
  have hV' := newVelocity_solved c hx U t tau V hV
  have he' := newEnergy_solved c hx U V t tau e he
  rw [velocity_writeBack U V e b.i hrho, specificEnergy_writeBack U V e b.i hrho]
  constructor
  · rw [velocity_row_prescribed c U t tau V hV' b.i hi ⟨b, hb, rfl, Or.inr hbd⟩]
    exact foldl_rhsRow_dirichlet b.i _ _ c.bc _
      (fun b' hb' hi' => ⟨(hd b' hb' hi').1, (hd b' hb' hi').2.1, fun _ => by rw [(hd b' hb' hi').2.2]⟩)
      (Or.inr ⟨b, hb, rfl, hbd⟩)
  · rw [energy_row_dirichlet c U t tau V e he' b.i hi ⟨b, hb, rfl, hbd⟩]
    have : (setup c.fe c.m c.bc U (t + tau)).energy b.i =
        (c.bc.foldl (setupBoundary (t + tau)) (setupLoop c.m U)).energy b.i := if_neg hi
    rw [this, foldl_setup_energy]
    exact foldl_dirichletRow_value b.i _ _ c.bc _ (fun b' hb' hi' _ => by rw [(hd b' hb' hi').2.2])
      (Or.inr ⟨b, hb, rfl, hbd⟩)

/-! ## C76: steady states -/

omit [Fintype ι] in
theorem foldl_steady (i : ι) (t1 : ℝ) (v : Vec dim) (bc : List (Entry ι dim)) (D : Vec dim)
    (h : ∀ b ∈ bc, b.i = i → (b.id = .slip → dot v b.normal = 0) ∧ (b.id = .noSlip → v = 0) ∧
      (b.id = .dirichlet → velocity (b.data t1) = v)) :
    bc.foldl (fixRow i v) D = bc.foldl (rhsRow i t1) D := by
  induction bc generalizing D with
  | nil => rfl
  | cons a l ih =>
    rw [List.foldl_cons, List.foldl_cons]
    have : fixRow i v D a = rhsRow i t1 D a := by
      unfold fixRow rhsRow
      split_ifs with hi
      · obtain ⟨h1, h2, h3⟩ := h a List.mem_cons_self hi
        cases hid : a.id
        · rfl
        · exact (h3 hid).symm
        · simp only [h1 hid, zero_smul, add_zero]
        · exact h2 hid
        · rfl
        · rfl
      · rfl
    rw [this, ih _ fun b hb => h b (List.mem_cons_of_mem _ hb)]

/-- The boundary conditions are compatible with a flow of uniform velocity `v` and specific internal energy `e0`. -/
def CompatibleWith (bc : List (Entry ι dim)) (t1 : ℝ) (v : Vec dim) (e0 : ℝ) : Prop :=
  ∀ b ∈ bc, (b.id = .slip → dot v b.normal = 0) ∧ (b.id = .noSlip → v = 0) ∧
    (b.id = .dirichlet → velocity (b.data t1) = v ∧ specificEnergy (b.data t1) = e0)

theorem steady_velocity (c : Config ι Q dim) (hfe : c.fe.Conforming)
    (U : ι → State dim) (hrho : ∀ i, ¬ c.fe.constrained i → density (U i) ≠ 0) (t tau : ℝ) (v : Vec dim) (e0 : ℝ)
    (hv : ∀ i, ¬ c.fe.constrained i → velocity (U i) = v)
    (hb : CompatibleWith c.bc (t + tau) v e0) : VelocitySolved c U t tau (setZeroField c.fe fun _ => v) := by
  funext i
  have hst : stressOp c.p c.fe tau (setZeroField c.fe fun _ => v) = 0 := by
    funext k d
    have hg : ∀ q, gradAt c.fe (setZeroField c.fe fun _ => v) q = 0 :=
      gradAt_const c.fe hfe _ v fun k hk => if_neg hk
    have hz : stress c.p (0 : Fin dim → Fin dim → ℝ) = 0 := by
      have := stress_smul c.p 0 (0 : Fin dim → Fin dim → ℝ)
      rwa [zero_smul, zero_smul] at this
    unfold stressOp
    simp only [hg, hz, Pi.zero_apply, mul_zero, zero_mul, Finset.sum_const_zero]
    exact scatter_zero c.fe k
  rw [velocityMatrix_apply, hst]
  by_cases hi : c.fe.constrained i
  · have h0 : setZeroField c.fe (fun _ => v) i = 0 := if_pos hi
    rw [setup_rhs_constrained c U _ i hi, h0, smul_zero, Pi.zero_apply, add_zero, foldl_fixRow_self]
  · have h0 : setZeroField c.fe (fun _ => v) i = v := if_neg hi
    have hr : densityVector c.fe U i = density (U i) := if_neg hi
    have hrhs : (setup c.fe c.m c.bc U (t + tau)).rhs i =
        c.bc.foldl (rhsRow i (t + tau)) (fun d => c.m i * momentum (U i) d) := by
      have : (setup c.fe c.m c.bc U (t + tau)).rhs i = (c.bc.foldl (setupBoundary (t + tau)) (setupLoop c.m U)).rhs i :=
        if_neg hi
      rw [this, foldl_setup_rhs]; rfl
    rw [hrhs, h0, hr, Pi.zero_apply, add_zero, foldl_steady i (t + tau) v c.bc _ fun b hb' _ =>
      ⟨(hb b hb').1, (hb b hb').2.1, fun h => ((hb b hb').2.2 h).1⟩]
    congr 1
    funext d
    have := congrFun (hv i hi) d
    have hne := hrho i hi
    rw [Pi.smul_apply, smul_eq_mul, ← this]
    unfold velocity
    field_simp

theorem steady_energy (c : Config ι Q dim) (hfe : c.fe.Conforming)
    (U : ι → State dim) (t tau : ℝ) (v : Vec dim) (e0 : ℝ)
    (hv : ∀ i, ¬ c.fe.constrained i → velocity (U i) = v) (he : ∀ i, ¬ c.fe.constrained i → specificEnergy (U i) = e0)
    (hb : CompatibleWith c.bc (t + tau) v e0) (V : Field ι dim) (hV : ∀ i, ¬ c.fe.constrained i → V i = v) :
    EnergySolved c U t tau V (setZero c.fe fun _ => e0) := by
  funext i
  have hdf : diffusionOp c.fe (tau * c.p.kappa) (setZero c.fe fun _ => e0) = 0 := by
    classical
    funext k
    rw [diffusionOp_eq]
    simp only [gradAtScalar_const c.fe hfe (setZero c.fe fun _ => e0) e0 fun k hk => if_neg hk, dot_zero_right, mul_zero,
      Finset.sum_const_zero, Pi.zero_apply]
  by_cases hi : c.fe.constrained i
  · rw [energyRhs_constrained c U _ V _ tau i hi]
    exact energyMatrix_free c hfe _ _ _ (fun i hi => if_pos hi) i hi
  · have h0 : setZero c.fe (fun _ => e0) i = e0 := if_neg hi
    have hr : densityVector c.fe U i = density (U i) := if_neg hi
    have hrow : ∀ x : ι → ℝ, setZero c.fe (c.bc.foldl (energyBoundary (t + tau)) x) i =
        c.bc.foldl (dirichletRow i (t + tau)) (x i) := by
      intro x
      have : setZero c.fe (c.bc.foldl (energyBoundary (t + tau)) x) i = c.bc.foldl (energyBoundary (t + tau)) x i := if_neg hi
      rw [this, foldl_energyBoundary]
    by_cases hd : ∃ b ∈ c.bc, b.i = i ∧ b.id = .dirichlet
    · unfold energyMatrix energyRhs
      dsimp only
      rw [foldl_fixEnergy_some _ _ _ _ hd, hrow, h0]
      exact (foldl_dirichletRow_value i _ e0 c.bc _ (fun b hb' _ hbd => ((hb b hb').2.2 hbd).2) (Or.inr hd)).symm
    · push Not at hd
      have hs : (setup c.fe c.m c.bc U (t + tau)).energy i = e0 := by
        have : (setup c.fe c.m c.bc U (t + tau)).energy i =
            (c.bc.foldl (setupBoundary (t + tau)) (setupLoop c.m U)).energy i := if_neg hi
        rw [this, foldl_setup_energy, foldl_dirichletRow_none i _ _ _ hd, ← he i hi, specificEnergy_eq]
        rfl
      have hh : heating c.p c.fe V i = 0 := by
        have hg : ∀ q, gradAt c.fe V q = 0 := gradAt_const c.fe hfe V v hV
        have hz : dissipation c.p (0 : Fin dim → Fin dim → ℝ) = 0 := by
          rw [dissipation_eq]
          unfold ddot
          simp
        unfold heating
        simp only [hg, hz, zero_mul, mul_zero, Finset.sum_const_zero]
        exact scatter_zero c.fe i
      unfold energyMatrix energyRhs
      dsimp only
      rw [foldl_fixEnergy_none _ _ _ _ hd, hrow, foldl_dirichletRow_none i _ _ _ hd, hdf, h0, hs, hr, hh, hV i hi]
      have : (fun d => momentum (U i) d / density (U i)) - v = 0 := by
        rw [← hv i hi]; exact sub_self _
      rw [this]
      have hn : normSq (0 : Vec dim) = 0 := dot_zero_left _
      rw [hn, Pi.zero_apply]
      ring

/-- **C76.** A state with uniform velocity and uniform specific internal energy (the density may vary) that meets the
boundary conditions is not changed by the step, for every time step size. -/
theorem C76_steady (c : Config ι Q dim) (hp : c.Physical) (hfe : c.fe.Conforming) (hs : SlipCompatible c.bc)
    (hx : c.solvers.AllExact) (strategy : Strategy) (U U' : ι → State dim)
    (hrho : ∀ i, ¬ c.fe.constrained i → 0 < density (U i)) (t tau : ℝ) (htau : 0 ≤ tau) (w : Bool)
    (h : backwardEulerStep c strategy U t tau = .done U' w) (v : Vec dim) (e0 : ℝ)
    (hv : ∀ i, ¬ c.fe.constrained i → velocity (U i) = v) (he : ∀ i, ¬ c.fe.constrained i → specificEnergy (U i) = e0)
    (hb : CompatibleWith c.bc (t + tau) v e0) (i : ι) (hi : ¬ c.fe.constrained i) : U' i = U i := by
  obtain ⟨V, e, hV, he', rfl, -⟩ := step_done c strategy U U' t tau w h
  have hV' := newVelocity_solved c hx U t tau V hV
  have he'' := newEnergy_solved c hx U V t tau e he'
  have hVv : ∀ i, ¬ c.fe.constrained i → V i = v := by
    intro j hj
    have := velocity_unique_free c hp hfe hs U hrho t tau htau V _ hV'
      (steady_velocity c hfe U (fun i hi => (hrho i hi).ne') t tau v e0 hv hb) j hj
    rw [this]; exact if_neg hj
  have hee : e i = e0 := by
    have := energy_unique_free c hp hfe U hrho t tau htau V e _ he''
      (steady_energy c hfe U t tau v e0 hv he hb V hVv) i hi
    rw [this]; exact if_neg hi
  have hne := (hrho i hi).ne'
  apply Euler.state_ext
  · exact density_writeBack U V e i
  · rw [momentum_writeBack, hVv i hi, ← hv i hi]
    funext d
    unfold velocity
    field_simp
  · rw [totalEnergy_writeBack U V e i hne, hVv i hi, hee, ← he i hi]
    have hn : normSq (momentum (U i)) = density (U i) ^ 2 * dot v v := by
      rw [← hv i hi]
      unfold normSq dot velocity
      rw [Finset.mul_sum]
      exact Finset.sum_congr rfl fun d _ => by field_simp
    unfold specificEnergy
    rw [hn]
    field_simp
    ring

end

end NavierStokes
end Ryujin
