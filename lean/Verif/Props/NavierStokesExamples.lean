import Verif.Props.NavierStokesStep

/-!
# The parabolic step of the Navier-Stokes equations: cases that meet the hypotheses, and two cases in which the code does
not do what its users expect
-/

namespace Ryujin
namespace NavierStokes

open Euler (State density momentum totalEnergy internalEnergy mkState Boundary)

noncomputable section

/-! ## A mesh of two cells and three nodes -/

/-- Two linear cells of length one; if `periodic`, the last node is constrained to the first. -/
def barFe (periodic : Prop) : Fe (Fin 3) (Fin 2) 1 where
  phi := fun j q => (![![1 / 2, 0], ![1 / 2, 1 / 2], ![0, 1 / 2]] : Fin 3 → Fin 2 → ℝ) j q
  grad := fun j q _ => (![![-1, 0], ![1, -1], ![0, 1]] : Fin 3 → Fin 2 → ℝ) j q
  weight := fun _ => 1
  constrained := fun j => periodic ∧ j = 2
  coef := fun _ k => if k = 0 then 1 else 0

theorem barFe_conforming (periodic : Prop) : (barFe periodic).Conforming where
  weight_nonneg := fun _ => zero_le_one
  sum_phi := fun q => by fin_cases q <;> simp [barFe, Fin.sum_univ_three] <;> norm_num
  sum_grad := fun q d => by fin_cases q <;> simp [barFe, Fin.sum_univ_three]
  resolved := fun j k _ hk => by simp [barFe] at hk ⊢; simp [hk.2]
  coef_sum := fun j _ => by simp [barFe]

theorem barFe_nonObtuse (periodic : Prop) : (barFe periodic).NonObtuse where
  offdiag := by
    intro i j hi hj hij
    by_cases hp : periodic
    · simp only [barFe, hp, true_and] at hi hj
      fin_cases i <;> fin_cases j <;>
        simp_all [stiffness, gradAtScalar, readDof, dot, barFe, Fin.sum_univ_three, Fin.sum_univ_two]
    · fin_cases i <;> fin_cases j <;>
        simp_all [stiffness, gradAtScalar, readDof, dot, barFe, Fin.sum_univ_three, Fin.sum_univ_two]
  phi_nonneg := fun j q => by fin_cases j <;> fin_cases q <;> simp [barFe]
  coef_nonneg := fun j k _ => by simp only [barFe]; split_ifs <;> norm_num

/-- The configuration used in the examples: unit masses, `mu = lambda = kappa = 1`. -/
def barConfig (periodic : Prop) (bc : List (Entry (Fin 3) 1)) : Config (Fin 3) (Fin 2) 1 where
  p := ⟨1, 1, 1⟩
  fe := barFe periodic
  m := fun _ => 1
  bc := bc
  solvers := idealSolvers (barFe periodic) true
  eps := 1 / 10000

theorem barConfig_physical (periodic : Prop) (bc : List (Entry (Fin 3) 1)) : (barConfig periodic bc).Physical :=
  ⟨zero_le_one, zero_le_one, zero_le_one, by norm_num, fun _ => zero_lt_one⟩

/-- A flow with different densities, velocities and energies at the three nodes. -/
def barState (i : Fin 3) : State 1 :=
  mkState ((![1, 2, 1] : Fin 3 → ℝ) i) (fun _ => (![3, -2, 3] : Fin 3 → ℝ) i) ((![10, 4, 10] : Fin 3 → ℝ) i)

theorem barState_density (i : Fin 3) : 0 < density (barState i) := by
  unfold barState; rw [Euler.density_mkState]; fin_cases i <;> simp

theorem barState_energy (i : Fin 3) : 1 ≤ specificEnergy (barState i) := by
  unfold barState specificEnergy
  rw [Euler.density_mkState, Euler.momentum_mkState, Euler.totalEnergy_mkState]
  fin_cases i <;> simp [normSq] <;> norm_num

/-- No-slip at the middle node. -/
def barWall : Entry (Fin 3) 1 := ⟨1, fun _ => 1, .noSlip, fun _ => 0⟩

theorem slipCompatible_of_no_slip {ι : Type} {dim : ℕ} (bc : List (Entry ι dim)) (h : ∀ b ∈ bc, b.id ≠ .slip) :
    SlipCompatible bc := by
  refine ⟨fun b hb hs => absurd hs (h b hb), fun i _ => ?_⟩
  rw [List.pairwise_iff_forall_sublist]
  intro a b hab _ _ ha
  exact absurd ha (h a (hab.subset (by simp)))

/-- The step on the ring and on the bar, with walls or Dirichlet conditions, is accepted for every time step size. -/
theorem bar_done' (periodic : Prop) (bc : List (Entry (Fin 3) 1)) (hs : SlipCompatible bc) (U : Fin 3 → State 1)
    (hrho : ∀ i, 0 < density (U i)) (hU : ∀ i, 0 ≤ specificEnergy (U i)) (strategy : Strategy) (t tau : ℝ) (htau : 0 ≤ tau)
    (hd : ∀ b ∈ bc, b.id = .dirichlet → 0 ≤ specificEnergy (b.data (t + tau))) :
    ∃ U', backwardEulerStep (barConfig periodic bc) strategy U t tau = .done U' false := by
  have h1 := C73_nonobtuse_accepted (barConfig periodic bc) (barConfig_physical periodic bc) (barFe_conforming periodic)
    (barFe_nonObtuse periodic) (idealSolvers_exact _ _) (idealSolvers_keep _ _) (by norm_num [barConfig]) strategy
    U (fun i _ => hrho i) t tau htau (fun i _ => hU i) hd
  exact h1.resolve_left (C74_step_completes _ (barConfig_physical periodic bc) (barFe_conforming periodic)
    hs true rfl strategy U (fun i _ => hrho i) t tau htau)

theorem bar_done (periodic : Prop) (bc : List (Entry (Fin 3) 1)) (hs : ∀ b ∈ bc, b.id ≠ .slip)
    (hd : ∀ b ∈ bc, b.id ≠ .dirichlet) (strategy : Strategy) (t tau : ℝ) (htau : 0 ≤ tau) :
    ∃ U', backwardEulerStep (barConfig periodic bc) strategy barState t tau = .done U' false :=
  bar_done' periodic bc (slipCompatible_of_no_slip bc hs) barState barState_density
    (fun i => zero_le_one.trans (barState_energy i)) strategy t tau htau fun b hb h => absurd h (hd b hb)

/-- Non-vacuity of C72 (total energy) with a periodic constraint and a no-slip wall: a step that is not trivial (the
velocity at the wall was not zero). -/
example : ∃ U', backwardEulerStep (barConfig True [barWall]) .raise barState 0 (1 / 2) = .done U' false ∧
    total (barConfig True [barWall]) (fun i => totalEnergy (U' i)) = 14 ∧ velocity (barState 1) ≠ 0 ∧
    velocity (U' 1) = 0 := by
  obtain ⟨U', h⟩ := bar_done True [barWall] (by simp [barWall]) (by simp [barWall]) .raise 0 (1 / 2) (by norm_num)
  have hs : SlipCompatible (barConfig True [barWall]).bc := slipCompatible_of_no_slip [barWall] (by simp [barWall])
  refine ⟨U', h, ?_, ?_, ?_⟩
  · rw [C72_total_energy (barConfig True [barWall]) (barFe_conforming True) hs (idealSolvers_exact _ _)
      (by simp [barConfig, barWall]) .raise barState U' 0 (1 / 2) false (fun i _ => (barState_density i).ne') h]
    simp [total, barConfig, barFe, Fin.sum_univ_three, barState]
    norm_num
  · intro h0
    have := congrFun h0 0
    simp [velocity, barState] at this
  · exact (C75_walls (barConfig True [barWall]) hs (idealSolvers_exact _ _) .raise barState U' 0 (1 / 2) false h barWall
      (by simp [barConfig]) (by simp [barConfig, barFe, barWall]) (barState_density _).ne'
      (by simp [barConfig, barWall])).2 rfl

/-- Non-vacuity of C72 (momentum): periodic, no boundary entries. -/
example : ∃ U', backwardEulerStep (barConfig True []) .raise barState 0 (1 / 2) = .done U' false ∧
    total (barConfig True []) (fun i => momentum (U' i) 0) = 1 := by
  obtain ⟨U', h⟩ := bar_done True [] (by simp) (by simp) .raise 0 (1 / 2) (by norm_num)
  refine ⟨U', h, ?_⟩
  rw [C72_momentum (barConfig True []) (barFe_conforming True) (idealSolvers_exact _ _) rfl .raise barState U' 0 (1 / 2)
    false h 0]
  simp [total, barConfig, barFe, Fin.sum_univ_three, barState]
  norm_num

/-- Non-vacuity of C73 without constraints. -/
example : ∃ U', backwardEulerStep (barConfig False [barWall]) .raise barState 0 100 = .done U' false ∧
    ∀ i, 1 * (1 - 1000 * (1 / 10000)) ≤ specificEnergy (U' i) := by
  obtain ⟨U', h⟩ := bar_done False [barWall] (by simp [barWall]) (by simp [barWall]) .raise 0 100 (by norm_num)
  exact ⟨U', h, fun i => C73_minimum_partial (barConfig False [barWall]) (by simp [barConfig, barFe])
    (by norm_num [barConfig]) .raise barState U' 0 100 h 1 barState_energy (by simp [barConfig, barWall]) i
    (barState_density i).ne'⟩

/-- Non-vacuity of C75 (kinetic energy). -/
example : ∃ U', backwardEulerStep (barConfig True [barWall]) .warn barState 0 100 = .done U' false ∧
    total (barConfig True [barWall]) (fun i => kineticEnergy (U' i)) ≤ 11 / 2 := by
  obtain ⟨U', h⟩ := bar_done True [barWall] (by simp [barWall]) (by simp [barWall]) .warn 0 100 (by norm_num)
  refine ⟨U', h, (C75_kinetic_energy (barConfig True [barWall]) (barConfig_physical _ _) (barFe_conforming True)
    (slipCompatible_of_no_slip [barWall] (by simp [barWall])) (idealSolvers_exact _ _) (by simp [barConfig, barWall]) .warn
    barState U' (fun i _ => barState_density i) 0 100 (by norm_num) false h).trans (le_of_eq ?_)⟩
  simp [total, kineticEnergy, normSq, barConfig, barFe, Fin.sum_univ_three, barState]
  norm_num

/-- Dirichlet conditions at the first node: velocity `7`, specific internal energy `2`. -/
def barInlet : Entry (Fin 3) 1 := ⟨0, fun _ => -1, .dirichlet, fun _ => mkState 3 (fun _ => 21) (6 + 147 / 2)⟩

theorem barInlet_energy (t : ℝ) : specificEnergy (barInlet.data t) = 2 := by
  unfold barInlet specificEnergy
  simp only [Euler.density_mkState, Euler.momentum_mkState, Euler.totalEnergy_mkState]
  simp [normSq]
  norm_num

/-- Slip at the last node. -/
def barSlip : Entry (Fin 3) 1 := ⟨2, fun _ => 1, .slip, fun _ => 0⟩

theorem barSlip_compatible : SlipCompatible [barInlet, barSlip] := by
  refine ⟨?_, ?_⟩
  · intro b hb _
    simp only [List.mem_cons, List.not_mem_nil, or_false] at hb
    rcases hb with rfl | rfl <;> simp [barInlet, barSlip, dot]
  · intro i _
    simp only [List.pairwise_cons, List.mem_cons, List.not_mem_nil, or_false, forall_eq, false_implies, implies_true,
      List.Pairwise.nil, and_true]
    intro _ _ h
    cases h

/-- Non-vacuity of C75: Dirichlet conditions at one end of the bar, slip at the other. -/
example : ∃ U', backwardEulerStep (barConfig False [barInlet, barSlip]) .raise barState 0 1 = .done U' false ∧
    velocity (U' 0) 0 = 7 ∧ specificEnergy (U' 0) = 2 ∧ velocity (U' 2) 0 = 0 := by
  obtain ⟨U', h⟩ := bar_done' False [barInlet, barSlip] barSlip_compatible barState barState_density
    (fun i => zero_le_one.trans (barState_energy i)) .raise 0 1 zero_le_one (by
      intro b hb hd
      simp only [List.mem_cons, List.not_mem_nil, or_false] at hb
      rcases hb with rfl | rfl
      · rw [barInlet_energy]; norm_num
      · cases hd)
  have h1 := C75_dirichlet (barConfig False [barInlet, barSlip]) (idealSolvers_exact _ _) .raise barState U' 0 1 false h
    barInlet (by simp [barConfig]) rfl (by simp [barConfig, barFe]) (barState_density _).ne' (by
      intro b hb hi
      simp only [barConfig, List.mem_cons, List.not_mem_nil, or_false] at hb
      rcases hb with rfl | rfl
      · exact ⟨by simp [barInlet], by simp [barInlet], rfl⟩
      · simp [barSlip, barInlet] at hi)
  have h2 := (C75_walls (barConfig False [barInlet, barSlip]) barSlip_compatible (idealSolvers_exact _ _) .raise barState
    U' 0 1 false h barSlip (by simp [barConfig]) (by simp [barConfig, barFe]) (barState_density _).ne' (by
      intro b hb hi
      simp only [barConfig, List.mem_cons, List.not_mem_nil, or_false] at hb
      rcases hb with rfl | rfl
      · simp [barSlip, barInlet] at hi
      · simp [barSlip])).1 rfl
  refine ⟨U', h, ?_, ?_, ?_⟩
  · have := congrFun h1.1 0
    rw [show U' 0 = U' barInlet.i from rfl, this]
    unfold barInlet velocity
    simp only [Euler.density_mkState, Euler.momentum_mkState]
    norm_num
  · exact h1.2.trans (barInlet_energy _)
  · simpa [dot, barSlip] using h2

/-- Uniform velocity `2` and specific internal energy `3`, different densities. -/
def barUniform (i : Fin 3) : State 1 :=
  mkState ((![1, 5, 1] : Fin 3 → ℝ) i) (fun _ => 2 * (![1, 5, 1] : Fin 3 → ℝ) i) (5 * (![1, 5, 1] : Fin 3 → ℝ) i)

/-- Non-vacuity of C76: a uniform flow with varying density around the ring. -/
example : ∃ U', backwardEulerStep (barConfig True []) .raise barUniform 0 1000 = .done U' false ∧
    ∀ i, i ≠ 2 → U' i = barUniform i := by
  have hrho : ∀ i, 0 < density (barUniform i) := by
    intro i
    unfold barUniform; rw [Euler.density_mkState]; fin_cases i <;> simp
  have hvel : ∀ i, velocity (barUniform i) = fun _ => 2 := by
    intro i
    funext d
    unfold barUniform velocity
    rw [Euler.density_mkState, Euler.momentum_mkState]
    fin_cases i <;> simp
  have hen : ∀ i, specificEnergy (barUniform i) = 3 := by
    intro i
    unfold barUniform specificEnergy
    rw [Euler.density_mkState, Euler.momentum_mkState, Euler.totalEnergy_mkState]
    fin_cases i <;> simp [normSq] <;> norm_num
  have hs : SlipCompatible (barConfig True []).bc := slipCompatible_of_no_slip [] (by simp)
  obtain ⟨U', h⟩ := bar_done' True [] hs barUniform hrho (fun i => by rw [hen]; norm_num) .raise 0 1000 (by norm_num)
    (by simp)
  exact ⟨U', h, fun i hi => C76_steady (barConfig True []) (barConfig_physical _ _) (barFe_conforming True) hs
    (idealSolvers_exact _ _) .raise barUniform U' (fun i _ => hrho i) 0 1000 (by norm_num) false h (fun _ => 2) 3
    (fun i _ => hvel i) (fun i _ => hen i) (by intro b hb; cases hb) i (by simp [barConfig, barFe, hi])⟩

/-! ## A triangle -/

/-- The reference triangle with one quadrature point. -/
def triFe : Fe (Fin 3) Unit 2 where
  phi := fun _ _ => 1 / 3
  grad := fun j _ => (![![-1, -1], ![1, 0], ![0, 1]] : Fin 3 → Fin 2 → ℝ) j
  weight := fun _ => 1 / 2
  constrained := fun _ => False
  coef := fun _ _ => 0

theorem triFe_conforming : triFe.Conforming where
  weight_nonneg := fun _ => by norm_num [triFe]
  sum_phi := fun q => by simp [triFe]
  sum_grad := fun q d => by fin_cases d <;> simp [triFe, Fin.sum_univ_three]
  resolved := fun _ _ h => h.elim
  coef_sum := fun _ h => h.elim

/-- Non-vacuity of C72 (angular momentum): a rotating gas on a triangle. -/
example : ∃ (c : Config (Fin 3) Unit 2) (U U' : Fin 3 → State 2), backwardEulerStep c .warn U 0 1 = .done U' false ∧
    total c (fun i => (![![0, 0], ![1, 0], ![0, 1]] : Fin 3 → Fin 2 → ℝ) i 0 * momentum (U' i) 1 -
      (![![0, 0], ![1, 0], ![0, 1]] : Fin 3 → Fin 2 → ℝ) i 1 * momentum (U' i) 0) = 2 := by
  let c : Config (Fin 3) Unit 2 := ⟨⟨1, 1, 1⟩, triFe, fun _ => 1, [], idealSolvers triFe false, 0⟩
  let U : Fin 3 → State 2 := fun i => mkState 1 ((![![0, 0], ![0, 1], ![-1, 0]] : Fin 3 → Fin 2 → ℝ) i) 10
  have hp : c.Physical := ⟨zero_le_one, zero_le_one, zero_le_one, by norm_num, fun _ => zero_lt_one⟩
  have hn : c.fe.NonObtuse := by
    refine ⟨?_, fun _ _ => by norm_num [c, triFe], fun _ _ h => h.elim⟩
    intro i j _ _ hij
    fin_cases i <;> fin_cases j <;>
      simp_all [c, stiffness, gradAtScalar, readDof, dot, triFe, Fin.sum_univ_three, Fin.sum_univ_two]
  have hs : SlipCompatible c.bc := slipCompatible_of_no_slip [] (by simp)
  have hrho : ∀ i, 0 < density (U i) := fun i => by simp only [U, Euler.density_mkState]; norm_num
  have hx : c.solvers.AllExact := idealSolvers_exact _ _
  have h1 := C73_nonobtuse_accepted c hp triFe_conforming hn hx (idealSolvers_keep _ _) le_rfl .warn U
    (fun i _ => hrho i) 0 1 zero_le_one (fun i _ => by
      simp only [U, specificEnergy, Euler.density_mkState, Euler.momentum_mkState, Euler.totalEnergy_mkState]
      fin_cases i <;> simp [normSq] <;> norm_num) (by intro b hb; cases hb)
  obtain ⟨U', h⟩ := h1.resolve_left (C74_step_completes c hp triFe_conforming hs false rfl .warn U (fun i _ => hrho i) 0 1
    zero_le_one)
  refine ⟨c, U, U', h, ?_⟩
  rw [C72_angular_momentum c triFe_conforming hx rfl (![![0, 0], ![1, 0], ![0, 1]] : Fin 3 → Fin 2 → ℝ) (by
    intro q a b
    fin_cases a <;> fin_cases b <;> simp [c, triFe, readDof, Fin.sum_univ_three]) .warn U U' 0 1 false h 0 1]
  simp [total, c, triFe, Fin.sum_univ_three, U]
  norm_num

/-! ## Constrained degrees of freedom disable the check of the internal energy -/

/-- One cell with an obtuse angle and four nodes in two space dimensions; node 3 is constrained to node 0. -/
def obtuseFe : Fe (Fin 4) Unit 2 where
  phi := fun _ _ => 1 / 4
  grad := fun j _ d => if d = 0 then (![1 / 2, 1, -2, 1 / 2] : Fin 4 → ℝ) j else 0
  weight := fun _ => 1
  constrained := fun j => j = 3
  coef := fun _ k => if k = 0 then 1 else 0

theorem obtuseFe_conforming : obtuseFe.Conforming where
  weight_nonneg := fun _ => zero_le_one
  sum_phi := fun q => by simp [obtuseFe]
  sum_grad := fun q d => by
    by_cases hd : d = 0
    · simp only [obtuseFe, hd, if_true, Fin.sum_univ_four]
      norm_num [Matrix.cons_val_two, Matrix.cons_val_three]
    · simp [obtuseFe, hd]
  resolved := fun j k _ hk => by simp only [obtuseFe] at hk ⊢; rw [hk]; simp
  coef_sum := fun j _ => by simp [obtuseFe]

/-- Configuration of the counterexample: unit masses, `mu = lambda = kappa = 1`, no boundary. -/
def obtuseConfig : Config (Fin 4) Unit 2 where
  p := ⟨1, 1, 1⟩
  fe := obtuseFe
  m := fun _ => 1
  bc := []
  solvers := idealSolvers obtuseFe true
  eps := 1 / 10000

theorem obtuseConfig_physical : obtuseConfig.Physical :=
  ⟨zero_le_one, zero_le_one, zero_le_one, by norm_num, fun _ => zero_lt_one⟩

/-- Gas at rest with density one and specific internal energies `1, 9/2, 1`. -/
def obtuseState (i : Fin 4) : State 2 := mkState 1 0 ((![1, 9 / 2, 1, 1] : Fin 4 → ℝ) i)

theorem obtuseState_density (i : Fin 4) : density (obtuseState i) = 1 := Euler.density_mkState _ _ _

theorem obtuseState_velocity (i : Fin 4) : velocity (obtuseState i) = 0 := by
  funext d
  unfold velocity obtuseState
  rw [Euler.density_mkState, Euler.momentum_mkState]
  simp

theorem obtuseState_energy (i : Fin 4) : specificEnergy (obtuseState i) = (![1, 9 / 2, 1, 1] : Fin 4 → ℝ) i := by
  unfold specificEnergy obtuseState
  rw [Euler.density_mkState, Euler.momentum_mkState, Euler.totalEnergy_mkState]
  have : normSq (0 : Vec 2) = 0 := dot_zero_left _
  rw [this]
  simp

/-- **C73, violation.** As soon as the mesh has a constrained degree of freedom (periodic boundary, hanging node) the check
of the minimum principle compares with zero instead of the old minimum: here the specific internal energy drops from
`1` to `1/2` at node 0, with exact linear solvers, and the step is accepted without restart or warning. -/
theorem C73_constraint_violation : obtuseConfig.Physical ∧ obtuseConfig.fe.Conforming ∧ obtuseConfig.solvers.AllExact ∧
    (∀ i, 1 ≤ specificEnergy (obtuseState i)) ∧ ∃ U', backwardEulerStep obtuseConfig .raise obtuseState 0 1 = .done U' false ∧
      specificEnergy (U' 0) = 1 / 2 := by
  have hs : SlipCompatible obtuseConfig.bc := slipCompatible_of_no_slip [] (by simp)
  have hx : obtuseConfig.solvers.AllExact := idealSolvers_exact _ _
  have hrho : ∀ i, ¬ obtuseConfig.fe.constrained i → 0 < density (obtuseState i) := fun i _ => by
    rw [obtuseState_density]; norm_num
  refine ⟨obtuseConfig_physical, obtuseFe_conforming, hx, fun i => ?_, ?_⟩
  · rw [obtuseState_energy]; fin_cases i <;> norm_num
  have hcomp := C74_step_completes obtuseConfig obtuseConfig_physical obtuseFe_conforming hs true rfl .raise obtuseState
    hrho 0 1 zero_le_one
  -- the computed velocity is zero at unconstrained nodes
  have hvel : ∀ V, newVelocity obtuseConfig obtuseState 0 1 = some V → ∀ i, ¬ obtuseConfig.fe.constrained i → V i = 0 := by
    intro V hV i hi
    have := velocity_unique_free obtuseConfig obtuseConfig_physical obtuseFe_conforming hs obtuseState hrho 0 1 zero_le_one V _
      (newVelocity_solved obtuseConfig hx obtuseState 0 1 V hV)
      (steady_velocity obtuseConfig obtuseFe_conforming obtuseState (fun i hi => (hrho i hi).ne') 0 1 0 0
        (fun i _ => obtuseState_velocity i) (by intro b hb; cases hb)) i hi
    rw [this]; exact if_neg hi
  -- the solution of the energy system
  have hsol : ∀ V, (∀ i, ¬ obtuseConfig.fe.constrained i → V i = 0) →
      EnergySolved obtuseConfig obtuseState 0 1 V (![1 / 2, 4, 2, 0] : Fin 4 → ℝ) := by
    intro V hV
    have hh : heating obtuseConfig.p obtuseConfig.fe V = 0 := by
      have hg : ∀ q, gradAt obtuseConfig.fe V q = 0 := gradAt_const obtuseConfig.fe obtuseFe_conforming V 0 hV
      have hz : dissipation obtuseConfig.p (0 : Fin 2 → Fin 2 → ℝ) = 0 := by
        rw [dissipation_eq]; unfold ddot; simp
      funext i
      unfold heating
      simp only [hg, hz, zero_mul, mul_zero, Finset.sum_const_zero]
      exact scatter_zero _ i
    have hd : ∀ i, diffusionOp obtuseFe 1 (![1 / 2, 4, 2, 0] : Fin 4 → ℝ) i = (![1 / 2, 1 / 2, -1, 0] : Fin 4 → ℝ) i := by
      intro i
      have hg : gradAtScalar obtuseFe (![1 / 2, 4, 2, 0] : Fin 4 → ℝ) () = fun d => if d = 0 then 1 / 2 else 0 := by
        funext d
        simp only [gradAtScalar, readDof, obtuseFe, Fin.sum_univ_four]
        by_cases hd : d = 0
        · simp [hd]; norm_num
        · simp [hd]
      unfold diffusionOp
      simp only [Finset.univ_unique, Finset.sum_singleton]
      have hu : (default : Unit) = () := rfl
      rw [hu, hg]
      fin_cases i <;> simp [scatter, obtuseFe, Fin.sum_univ_four, dot, Fin.sum_univ_two] <;> norm_num
    funext i
    by_cases hi : i = 3
    · rw [energyRhs_constrained obtuseConfig obtuseState _ V _ 1 i hi]
      exact energyMatrix_free obtuseConfig obtuseFe_conforming _ _ _ (fun i hi => by
        have : i = 3 := hi
        subst this; rfl) i hi
    · have hi' : ¬ obtuseConfig.fe.constrained i := hi
      have hr : densityVector obtuseConfig.fe obtuseState i = 1 := by
        have : densityVector obtuseConfig.fe obtuseState i = density (obtuseState i) := if_neg hi'
        rw [this, obtuseState_density]
      have hse : (setup obtuseConfig.fe obtuseConfig.m obtuseConfig.bc obtuseState (0 + 1)).energy i =
          (![1, 9 / 2, 1, 1] : Fin 4 → ℝ) i := by
        have : (setup obtuseConfig.fe obtuseConfig.m obtuseConfig.bc obtuseState (0 + 1)).energy i =
            internalEnergy (obtuseState i) / density (obtuseState i) := if_neg hi'
        rw [this, ← specificEnergy_eq, obtuseState_energy]
      have hlhs : energyMatrix obtuseConfig.fe obtuseConfig.m (densityVector obtuseConfig.fe obtuseState) obtuseConfig.bc
          (1 * obtuseConfig.p.kappa) (![1 / 2, 4, 2, 0] : Fin 4 → ℝ) i =
          (![1 / 2, 4, 2, 0] : Fin 4 → ℝ) i + (![1 / 2, 1 / 2, -1, 0] : Fin 4 → ℝ) i := by
        show 1 * densityVector obtuseConfig.fe obtuseState i * (![1 / 2, 4, 2, 0] : Fin 4 → ℝ) i +
          diffusionOp obtuseFe (1 * 1) (![1 / 2, 4, 2, 0] : Fin 4 → ℝ) i = _
        rw [hr, one_mul, one_mul, hd]
      have hrhs : energyRhs obtuseConfig.p obtuseConfig.fe obtuseConfig.m obtuseConfig.bc obtuseState
          (setup obtuseConfig.fe obtuseConfig.m obtuseConfig.bc obtuseState (0 + 1)).energy V (0 + 1) 1 i =
          (![1, 9 / 2, 1, 1] : Fin 4 → ℝ) i := by
        have : energyRhs obtuseConfig.p obtuseConfig.fe obtuseConfig.m obtuseConfig.bc obtuseState
            (setup obtuseConfig.fe obtuseConfig.m obtuseConfig.bc obtuseState (0 + 1)).energy V (0 + 1) 1 i =
            1 * densityVector obtuseConfig.fe obtuseState i *
              ((setup obtuseConfig.fe obtuseConfig.m obtuseConfig.bc obtuseState (0 + 1)).energy i + 1 / 2 *
                normSq ((fun d => momentum (obtuseState i) d / densityVector obtuseConfig.fe obtuseState i) - V i)) +
              1 * heating obtuseConfig.p obtuseConfig.fe V i := if_neg hi'
        rw [this, hse, hr, hV i hi', hh]
        have hz : (fun d => momentum (obtuseState i) d / (1 : ℝ)) - (0 : Vec 2) = 0 := by
          have := obtuseState_velocity i
          unfold velocity at this
          rw [obtuseState_density] at this
          rw [this, sub_zero]
        have hn : normSq (0 : Vec 2) = 0 := dot_zero_left _
        rw [hz, hn]
        simp
      rw [hlhs, hrhs]
      fin_cases i
      · norm_num
      · norm_num
      · norm_num
      · exact absurd rfl hi
  unfold backwardEulerStep at hcomp ⊢
  split at hcomp
  · exact absurd rfl hcomp
  · rename_i V hV
    split at hcomp
    · exact absurd rfl hcomp
    · rename_i e he
      have hes := newEnergy_solved obtuseConfig hx obtuseState V 0 1 e he
      have hev : ∀ i, i ≠ 3 → e i = (![1 / 2, 4, 2, 0] : Fin 4 → ℝ) i := fun i hi =>
        energy_unique_free obtuseConfig obtuseConfig_physical obtuseFe_conforming obtuseState hrho 0 1 zero_le_one V e _
          hes (hsol V (hvel V hV)) i hi
      have he3 : e 3 = 0 := by
        have hk := idealSolvers_keep (dim := 2) obtuseFe true
        have := solve_keeps obtuseConfig.fe.constrained _ _ _ hk.gmg_energy hk.cg_energy _ _ _ _ he 3 rfl
        rw [this]
        exact setup_energy_constrained obtuseConfig obtuseState _ 3 rfl
      rw [if_neg]
      · refine ⟨_, rfl, ?_⟩
        rw [specificEnergy_writeBack _ _ _ _ (by rw [obtuseState_density]; norm_num), hev 0 (by decide)]
        rfl
      · unfold restartNeeded
        rw [not_lt]
        have h1 : globalMin (setup obtuseConfig.fe obtuseConfig.m obtuseConfig.bc obtuseState (0 + 1)).energy ≤ 0 := by
          have := globalMin_le (setup obtuseConfig.fe obtuseConfig.m obtuseConfig.bc obtuseState (0 + 1)).energy 3
          rwa [setup_energy_constrained obtuseConfig obtuseState _ 3 rfl] at this
        have h2 : 0 ≤ globalMin e := by
          refine le_globalMin e 0 fun i => ?_
          by_cases hi : i = 3
          · rw [hi, he3]
          · rw [hev i hi]; fin_cases i <;> norm_num
        refine le_trans ?_ h2
        exact mul_nonpos_of_nonpos_of_nonneg h1 (by norm_num [obtuseConfig])

/-! ## Two slip boundaries meeting at an oblique edge -/

/-- A single node in three space dimensions at which two slip boundaries meet whose normals are not orthogonal (the
boundary map keeps both entries because their angle exceeds 60 degrees). -/
def edgeConfig (s : Solvers Unit 3) : Config Unit Empty 3 where
  p := ⟨1, 1, 1⟩
  fe := ⟨fun _ _ => 1, fun _ q => q.elim, fun q => q.elim, fun _ => False, fun _ _ => 0⟩
  m := fun _ => 1
  bc := [⟨(), ![1, 0, 0], .slip, fun _ => 0⟩, ⟨(), ![-3 / 5, 4 / 5, 0], .slip, fun _ => 0⟩]
  solvers := s
  eps := 1 / 10000

theorem edgeConfig_conforming (s : Solvers Unit 3) : (edgeConfig s).fe.Conforming :=
  ⟨fun q => q.elim, fun q => q.elim, fun q => q.elim, fun _ _ h => h.elim, fun _ h => h.elim⟩

/-- Density one, velocity `(10, 25, 0)`, internal energy one. -/
def edgeState : Unit → State 3 := fun _ => mkState 1 ![10, 25, 0] (1 + 725 / 2)

/-- **C75/C72, violation.** Where two slip boundaries meet at an oblique edge the solution of the linear system is not
tangential to both of them, and total energy is not conserved: with exact linear solvers the velocity `(10, 25, 0)` becomes
`(12, 9, 0)`, which still passes through the wall with normal `(1, 0, 0)`, and the total energy drops by `120`. -/
theorem C75_oblique_edge_violation (s : Solvers Unit 3) (hx : s.AllExact) (strategy : Strategy) (U' : Unit → State 3)
    (t tau : ℝ) (w : Bool) (h : backwardEulerStep (edgeConfig s) strategy edgeState t tau = .done U' w) :
    velocity (U' ()) = ![12, 9, 0] ∧ dot (velocity (U' ())) ![1, 0, 0] = 12 ∧
      total (edgeConfig s) (fun i => totalEnergy (U' i)) = total (edgeConfig s) (fun i => totalEnergy (edgeState i)) - 120 := by
  have hrho : density (edgeState ()) = 1 := Euler.density_mkState _ _ _
  have hmom : momentum (edgeState ()) = ![10, 25, 0] := Euler.momentum_mkState _ _ _
  obtain ⟨V, e, hV, he, rfl, -⟩ := step_done (edgeConfig s) strategy edgeState U' t tau w h
  have hV' := newVelocity_solved (edgeConfig s) hx edgeState t tau V hV
  have he' := newEnergy_solved (edgeConfig s) hx edgeState V t tau e he
  have hi : ¬ (edgeConfig s).fe.constrained () := fun h => h
  have hrow := velocity_row (edgeConfig s) edgeState t tau V hV' () hi
  have hst : stressOp (edgeConfig s).p (edgeConfig s).fe tau V () = 0 := by
    funext d
    unfold stressOp
    simp only [Finset.univ_eq_empty, Finset.sum_empty]
    exact scatter_zero _ _
  rw [hrho, hmom, hst] at hrow
  simp only [edgeConfig, List.foldl_cons, List.foldl_nil, fixRow, rhsRow, if_true] at hrow
  have h0 := congrFun hrow 0
  have h1 := congrFun hrow 1
  have h2 := congrFun hrow 2
  simp [dot, Fin.sum_univ_three, Matrix.vecHead, Matrix.vecTail] at h0 h1 h2
  have hv0 : V () 0 = 12 := by linarith
  have hv1 : V () 1 = 9 := by linarith
  have hv2 : V () 2 = 0 := by linarith
  have hvel : V () = ![12, 9, 0] := by
    funext d
    fin_cases d
    · exact hv0
    · exact hv1
    · exact hv2
  have hne : density (edgeState ()) ≠ 0 := by rw [hrho]; norm_num
  rw [velocity_writeBack edgeState V e () hne, hvel]
  refine ⟨rfl, by simp [dot, Fin.sum_univ_three], ?_⟩
  have hid := energy_identity (edgeConfig s) (edgeConfig_conforming s) edgeState tau (fun i _ => hne) V e
  have herow := energy_row (edgeConfig s) edgeState t tau V e he' () hi (by
    intro b hb _
    simp only [edgeConfig, List.mem_cons, List.not_mem_nil, or_false] at hb
    rcases hb with rfl | rfl <;> simp)
  have hdef : energyDefect (edgeConfig s) edgeState tau V e () = 0 := by
    unfold energyDefect; linarith
  have hmd : dot (V ()) (momentumDefect (edgeConfig s) edgeState tau V ()) = -120 := by
    unfold momentumDefect
    rw [hst, hrho, hmom, hvel]
    simp [dot, Fin.sum_univ_three, edgeConfig]
    norm_num
  have hsum : ∀ f : Unit → ℝ, ∑ i, f i = f () := fun f => by simp
  rw [hsum, if_neg hi, hdef, hmd] at hid
  linarith

end

end NavierStokes
end Ryujin
