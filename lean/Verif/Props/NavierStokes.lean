import Verif.Proofs.NavierStokes

/-!
# The parabolic step of the Navier-Stokes equations: conservation, boundary conditions, minimum principle
-/

namespace Ryujin
namespace NavierStokes

open Euler (State density momentum totalEnergy internalEnergy mkState Boundary)

noncomputable section

variable {ι Q : Type} {dim : ℕ} [Fintype ι] [Fintype Q]

/-- What a successful step has computed. -/
theorem step_done (c : Config ι Q dim) (strategy : Strategy) (U U' : ι → State dim) (t tau : ℝ) (w : Bool)
    (h : backwardEulerStep c strategy U t tau = .done U' w) :
    ∃ V e, newVelocity c U t tau = some V ∧ newEnergy c U V t tau = some e ∧ U' = writeBack U V e ∧
      (w = false → ¬ restartNeeded c U e t tau) := by
  unfold backwardEulerStep at h
  split at h
  · cases h
  · rename_i V hV
    split at h
    · cases h
    · rename_i e he
      split_ifs at h with hr
      · cases strategy
        · cases h; exact ⟨V, e, hV, he, rfl, fun h => by cases h⟩
        · cases h
      · cases h; exact ⟨V, e, hV, he, rfl, fun _ => hr⟩

theorem newVelocity_solved (c : Config ι Q dim) (hx : c.solvers.AllExact) (U : ι → State dim) (t tau : ℝ)
    (V : Field ι dim) (h : newVelocity c U t tau = some V) : VelocitySolved c U t tau V :=
  solve_exact _ _ _ hx.gmg_velocity hx.cg_velocity _ _ _ _ h

theorem newEnergy_solved (c : Config ι Q dim) (hx : c.solvers.AllExact) (U : ι → State dim) (V : Field ι dim) (t tau : ℝ)
    (e : ι → ℝ) (h : newEnergy c U V t tau = some e) : EnergySolved c U t tau V e :=
  solve_exact _ _ _ hx.gmg_energy hx.cg_energy _ _ _ _ h

omit [Fintype ι] in
theorem density_writeBack (U : ι → State dim) (V : Field ι dim) (e : ι → ℝ) (i : ι) :
    density (writeBack U V e i) = density (U i) := Euler.density_mkState _ _ _

omit [Fintype ι] in
theorem momentum_writeBack (U : ι → State dim) (V : Field ι dim) (e : ι → ℝ) (i : ι) :
    momentum (writeBack U V e i) = fun d => density (U i) * V i d := Euler.momentum_mkState _ _ _

omit [Fintype ι] in
theorem velocity_writeBack (U : ι → State dim) (V : Field ι dim) (e : ι → ℝ) (i : ι) (h : density (U i) ≠ 0) :
    velocity (writeBack U V e i) = V i := by
  funext d
  unfold velocity
  rw [density_writeBack, momentum_writeBack]
  field_simp

omit [Fintype ι] in
theorem totalEnergy_writeBack (U : ι → State dim) (V : Field ι dim) (e : ι → ℝ) (i : ι) (h : density (U i) ≠ 0) :
    totalEnergy (writeBack U V e i) = density (U i) * e i + 1 / 2 * density (U i) * dot (V i) (V i) := by
  have hd : dot (fun d => density (U i) * V i d) (fun d => density (U i) * V i d) =
      density (U i) ^ 2 * dot (V i) (V i) := by
    unfold dot
    rw [Finset.mul_sum]
    exact Finset.sum_congr rfl fun d _ => by ring
  unfold writeBack
  dsimp only
  rw [Euler.totalEnergy_mkState, hd]
  field_simp
  norm_num
  ring

omit [Fintype ι] in
theorem specificEnergy_writeBack (U : ι → State dim) (V : Field ι dim) (e : ι → ℝ) (i : ι) (h : density (U i) ≠ 0) :
    specificEnergy (writeBack U V e i) = e i := by
  have hd : normSq (fun d => density (U i) * V i d) = density (U i) ^ 2 * dot (V i) (V i) := by
    unfold dot normSq
    rw [Finset.mul_sum]
    exact Finset.sum_congr rfl fun d _ => by ring
  unfold specificEnergy
  rw [density_writeBack, momentum_writeBack, totalEnergy_writeBack U V e i h, hd]
  field_simp
  ring

/-! ## C71: mass -/

/-- **C71.** The parabolic step does not change the density anywhere. -/
theorem C71_density (c : Config ι Q dim) (strategy : Strategy) (U U' : ι → State dim) (t tau : ℝ) (w : Bool)
    (h : backwardEulerStep c strategy U t tau = .done U' w) (i : ι) : density (U' i) = density (U i) := by
  obtain ⟨V, e, -, -, rfl, -⟩ := step_done c strategy U U' t tau w h
  exact density_writeBack U V e i

/-! ## C72: conservation -/

/-- The residual of the energy equation without boundary conditions. -/
def energyDefect (c : Config ι Q dim) (U : ι → State dim) (tau : ℝ) (V : Field ι dim) (e : ι → ℝ) (i : ι) : ℝ :=
  c.m i * density (U i) * e i + diffusionOp c.fe (tau * c.p.kappa) e i -
    (c.m i * density (U i) * (internalEnergy (U i) / density (U i) + 1 / 2 * normSq (velocity (U i) - V i)) +
        tau * heating c.p c.fe V i)

open Classical in
theorem energy_identity (c : Config ι Q dim) (hfe : c.fe.Conforming) (U : ι → State dim) (tau : ℝ)
    (hrho : ∀ i, ¬ c.fe.constrained i → density (U i) ≠ 0) (V : Field ι dim) (e : ι → ℝ) :
    total c (fun i => totalEnergy (writeBack U V e i)) - total c (fun i => totalEnergy (U i)) =
      ∑ i, if c.fe.constrained i then 0 else dot (V i) (momentumDefect c U tau V i) + energyDefect c U tau V e i := by
  have key : ∀ i, (if c.fe.constrained i then 0 else c.m i * totalEnergy (writeBack U V e i)) -
      (if c.fe.constrained i then 0 else c.m i * totalEnergy (U i)) =
      (if c.fe.constrained i then 0 else dot (V i) (momentumDefect c U tau V i) + energyDefect c U tau V e i) -
        diffusionOp c.fe (tau * c.p.kappa) e i + tau * heating c.p c.fe V i - dot (V i) (stressOp c.p c.fe tau V i) := by
    intro i
    by_cases hi : c.fe.constrained i
    · simp only [if_pos hi, diffusionOp_constrained c.fe hfe _ e i hi, heating_constrained c.p c.fe hfe V i hi,
        stressOp_constrained c.p c.fe hfe tau V i hi, dot_zero_right]
      ring
    · have hr := hrho i hi
      simp only [if_neg hi]
      rw [totalEnergy_writeBack U V e i hr]
      have h1 : dot (V i) (momentumDefect c U tau V i) = c.m i * density (U i) * dot (V i) (V i) +
          dot (V i) (stressOp c.p c.fe tau V i) - c.m i * density (U i) * dot (V i) (velocity (U i)) := by
        have : momentumDefect c U tau V i = (c.m i * density (U i)) • V i + stressOp c.p c.fe tau V i -
            (c.m i * density (U i)) • velocity (U i) := by
          funext d
          simp only [momentumDefect, velocity, Pi.add_apply, Pi.sub_apply, Pi.smul_apply, smul_eq_mul]
          field_simp
        rw [this, dot_sub_right', dot_add_right', dot_smul_right', dot_smul_right']
      have h2 : normSq (velocity (U i) - V i) =
          dot (velocity (U i)) (velocity (U i)) - 2 * dot (V i) (velocity (U i)) + dot (V i) (V i) := by
        show dot (velocity (U i) - V i) (velocity (U i) - V i) = _
        rw [dot_sub_right', dot_sub_left', dot_sub_left', dot_comm' (velocity (U i)) (V i)]
        ring
      have h3 : normSq (momentum (U i)) = density (U i) ^ 2 * dot (velocity (U i)) (velocity (U i)) := by
        unfold normSq dot velocity
        rw [Finset.mul_sum]
        exact Finset.sum_congr rfl fun d _ => by field_simp
      rw [h1]
      unfold energyDefect
      rw [h2]
      unfold internalEnergy
      rw [h3]
      field_simp
      ring
  unfold total
  rw [← Finset.sum_sub_distrib, Finset.sum_congr rfl fun i _ => key i, Finset.sum_sub_distrib, Finset.sum_add_distrib,
    Finset.sum_sub_distrib, sum_diffusionOp c.fe hfe, ← Finset.mul_sum, sum_heating c.p c.fe hfe, sum_stressOp]
  ring

/-- **C72.** With slip, no-slip, do-nothing and periodic boundaries, hanging nodes included, the parabolic step conserves
the total energy: viscous friction turns kinetic into internal energy and nothing else. -/
theorem C72_total_energy (c : Config ι Q dim) (hfe : c.fe.Conforming) (hs : SlipCompatible c.bc)
    (hx : c.solvers.AllExact) (hd : ∀ b ∈ c.bc, b.id ≠ .dirichlet) (strategy : Strategy) (U U' : ι → State dim)
    (t tau : ℝ) (w : Bool) (hrho : ∀ i, ¬ c.fe.constrained i → density (U i) ≠ 0)
    (h : backwardEulerStep c strategy U t tau = .done U' w) :
    total c (fun i => totalEnergy (U' i)) = total c (fun i => totalEnergy (U i)) := by
  classical
  obtain ⟨V, e, hV, he, rfl, -⟩ := step_done c strategy U U' t tau w h
  have hV' := newVelocity_solved c hx U t tau V hV
  have he' := newEnergy_solved c hx U V t tau e he
  have hid := energy_identity c hfe U tau hrho V e
  rw [Finset.sum_eq_zero] at hid
  · linarith
  · intro i _
    split_ifs with hi
    · rfl
    · rw [velocity_test c hs U t tau V hV' i hi fun b hb _ => hd b hb]
      have := energy_row c U t tau V e he' i hi fun b hb _ => hd b hb
      unfold energyDefect
      linarith

/-- **C72.** Without boundary entries the defect in the total energy is exactly the work of the residual of the velocity
system plus the sum of the residual of the energy system, whatever the solvers return. -/
theorem C72_energy_defect (c : Config ι Q dim) (hfe : c.fe.Conforming) (hbc : c.bc = []) (strategy : Strategy)
    (U U' : ι → State dim) (t tau : ℝ) (w : Bool) (hrho : ∀ i, ¬ c.fe.constrained i → density (U i) ≠ 0)
    (h : backwardEulerStep c strategy U t tau = .done U' w) :
    ∃ (V : Field ι dim) (e : ι → ℝ), (∀ i, ¬ c.fe.constrained i → velocity (U' i) = V i ∧ specificEnergy (U' i) = e i) ∧
      total c (fun i => totalEnergy (U' i)) - total c (fun i => totalEnergy (U i)) =
        ∑ i, dot (V i) (velocityMatrix c.p c.fe c.m (densityVector c.fe U) c.bc tau V i -
          (setup c.fe c.m c.bc U (t + tau)).rhs i) +
        ∑ i, (energyMatrix c.fe c.m (densityVector c.fe U) c.bc (tau * c.p.kappa) e i -
          energyRhs c.p c.fe c.m c.bc U (setup c.fe c.m c.bc U (t + tau)).energy V (t + tau) tau i) := by
  classical
  obtain ⟨V, e, -, -, rfl, -⟩ := step_done c strategy U U' t tau w h
  refine ⟨V, e, fun i hi => ⟨velocity_writeBack U V e i (hrho i hi), specificEnergy_writeBack U V e i (hrho i hi)⟩, ?_⟩
  rw [energy_identity c hfe U tau hrho V e, ← Finset.sum_add_distrib]
  refine Finset.sum_congr rfl fun i _ => ?_
  by_cases hi : c.fe.constrained i
  · have h1 : velocityMatrix c.p c.fe c.m (densityVector c.fe U) c.bc tau V i = 0 := by
      rw [hbc]
      show (fun d => c.m i * densityVector c.fe U i * V i d + stressOp c.p c.fe tau V i d) = 0
      funext d
      have : densityVector c.fe U i = 0 := if_pos hi
      rw [this, stressOp_constrained c.p c.fe hfe tau V i hi]
      simp
    have h2 : (setup c.fe c.m c.bc U (t + tau)).rhs i = 0 := if_pos hi
    have h3 : energyMatrix c.fe c.m (densityVector c.fe U) c.bc (tau * c.p.kappa) e i = 0 := by
      rw [hbc]
      show c.m i * densityVector c.fe U i * e i + diffusionOp c.fe (tau * c.p.kappa) e i = 0
      have : densityVector c.fe U i = 0 := if_pos hi
      rw [this, diffusionOp_constrained c.fe hfe _ e i hi]
      ring
    have h4 : energyRhs c.p c.fe c.m c.bc U (setup c.fe c.m c.bc U (t + tau)).energy V (t + tau) tau i = 0 := if_pos hi
    rw [if_pos hi, h1, h2, h3, h4, sub_zero, dot_zero_right]
    ring
  · have hr : densityVector c.fe U i = density (U i) := if_neg hi
    have h1 : velocityMatrix c.p c.fe c.m (densityVector c.fe U) c.bc tau V i -
        (setup c.fe c.m c.bc U (t + tau)).rhs i = momentumDefect c U tau V i := by
      have h2 : (setup c.fe c.m c.bc U (t + tau)).rhs i = fun d => c.m i * momentum (U i) d := by
        rw [hbc]; exact if_neg hi
      rw [h2, hbc]
      funext d
      show c.m i * densityVector c.fe U i * V i d + stressOp c.p c.fe tau V i d - c.m i * momentum (U i) d = _
      rw [hr]
      rfl
    have h3 : energyMatrix c.fe c.m (densityVector c.fe U) c.bc (tau * c.p.kappa) e i -
        energyRhs c.p c.fe c.m c.bc U (setup c.fe c.m c.bc U (t + tau)).energy V (t + tau) tau i =
        energyDefect c U tau V e i := by
      have h4 : energyRhs c.p c.fe c.m c.bc U (setup c.fe c.m c.bc U (t + tau)).energy V (t + tau) tau i =
          c.m i * density (U i) * (internalEnergy (U i) / density (U i) + 1 / 2 * normSq (velocity (U i) - V i)) +
            tau * heating c.p c.fe V i := by
        unfold energyRhs
        dsimp only
        have hs : (setup c.fe c.m c.bc U (t + tau)).energy i = internalEnergy (U i) / density (U i) := by
          rw [hbc]; exact if_neg hi
        unfold setZero
        rw [if_neg hi, foldl_energyBoundary, hs, hbc, hr]
        rfl
      rw [h4, hbc]
      show c.m i * densityVector c.fe U i * e i + diffusionOp c.fe (tau * c.p.kappa) e i - _ = _
      rw [hr]
      rfl
    rw [if_neg hi, h1, h3]

/-- **C72.** Momentum and angular momentum: the moment of the momentum with any translation or rotation `W` that is
tangential to all slip boundaries is conserved (no no-slip or Dirichlet boundaries). -/
theorem C72_rigid_motion (c : Config ι Q dim) (hfe : c.fe.Conforming) (hs : SlipCompatible c.bc)
    (hx : c.solvers.AllExact) (hd : ∀ b ∈ c.bc, b.id ≠ .dirichlet ∧ b.id ≠ .noSlip) (strategy : Strategy)
    (U U' : ι → State dim) (t tau : ℝ) (w : Bool)
    (h : backwardEulerStep c strategy U t tau = .done U' w)
    (W : Field ι dim) (hW : RigidMotion c.fe W) (hWn : ∀ b ∈ c.bc, b.id = .slip → dot (W b.i) b.normal = 0) :
    total c (fun i => dot (W i) (momentum (U' i))) = total c (fun i => dot (W i) (momentum (U i))) := by
  classical
  obtain ⟨V, e, hV, -, rfl, -⟩ := step_done c strategy U U' t tau w h
  have hV' := newVelocity_solved c hx U t tau V hV
  have hzero : ∑ k, dot (W k) (stressOp c.p c.fe tau V k) = 0 := by
    rw [sum_test_stressOp]
    have : ∀ q, ddot (gradAt c.fe W q) (stress c.p (gradAt c.fe V q)) = 0 := by
      intro q
      rw [← ddot_symm_right _ _ (stress_symm c.p _)]
      unfold ddot symGrad
      refine Finset.sum_eq_zero fun d _ => Finset.sum_eq_zero fun e _ => ?_
      rw [hW q d e]
      ring
    simp only [this, mul_zero, Finset.sum_const_zero]
  have key : ∀ i, (if c.fe.constrained i then 0 else c.m i * dot (W i) (momentum (writeBack U V e i))) -
      (if c.fe.constrained i then 0 else c.m i * dot (W i) (momentum (U i))) =
      - dot (W i) (stressOp c.p c.fe tau V i) := by
    intro i
    by_cases hi : c.fe.constrained i
    · simp only [if_pos hi, stressOp_constrained c.p c.fe hfe tau V i hi, dot_zero_right]
      ring
    · simp only [if_neg hi]
      have hfree : ∀ b ∈ c.bc, b.i = i → ¬ Prescribes b := fun b hb _ hp => by
        rcases hp with hp | hp
        · exact (hd b hb).2 hp
        · exact (hd b hb).1 hp
      have h1 := (velocity_row_free c hs U t tau V hV' i hi hfree).2 (W i) fun b hb hbi hbs => hbi ▸ hWn b hb hbs
      have h2 : momentumDefect c U tau V i = c.m i • momentum (writeBack U V e i) + stressOp c.p c.fe tau V i -
          c.m i • momentum (U i) := by
        funext d
        rw [momentum_writeBack]
        simp only [momentumDefect, Pi.add_apply, Pi.sub_apply, Pi.smul_apply, smul_eq_mul]
        ring
      rw [h2, dot_sub_right', dot_add_right', dot_smul_right', dot_smul_right'] at h1
      linarith
  have : total c (fun i => dot (W i) (momentum (writeBack U V e i))) - total c (fun i => dot (W i) (momentum (U i))) = 0 := by
    unfold total
    rw [← Finset.sum_sub_distrib, Finset.sum_congr rfl fun i _ => key i, Finset.sum_neg_distrib, hzero, neg_zero]
  linarith

omit [Fintype Q] in
theorem rigidMotion_translation (fe : Fe ι Q dim) (hfe : fe.Conforming) (v : Vec dim) : RigidMotion fe (fun _ => v) := by
  intro q d e
  rw [gradAt_const fe hfe (fun _ => v) v (fun _ _ => rfl) q]
  simp

/-- **C72.** Every component of the total momentum is conserved on meshes without boundary (all boundaries periodic). -/
theorem C72_momentum (c : Config ι Q dim) (hfe : c.fe.Conforming) (hx : c.solvers.AllExact) (hbc : c.bc = [])
    (strategy : Strategy) (U U' : ι → State dim) (t tau : ℝ) (w : Bool)
   
    (h : backwardEulerStep c strategy U t tau = .done U' w) (d : Fin dim) :
    total c (fun i => momentum (U' i) d) = total c (fun i => momentum (U i) d) := by
  classical
  have hs : SlipCompatible c.bc := by
    rw [hbc]
    exact ⟨fun _ h => (by cases h), fun _ _ => List.Pairwise.nil⟩
  have := C72_rigid_motion c hfe hs hx (by rw [hbc]; exact fun _ h => by cases h) strategy U U' t tau w h
    (fun _ => Pi.single d 1) (rigidMotion_translation c.fe hfe _) (by rw [hbc]; exact fun _ h => by cases h)
  have hdot : ∀ v : Vec dim, dot (Pi.single d 1) v = v d := by
    intro v
    unfold dot
    rw [Finset.sum_eq_single d]
    · simp
    · intro b _ hb; simp [hb]
    · exact fun h => absurd (Finset.mem_univ d) h
  simpa only [hdot] using this

/-- **C72.** Angular momentum about the origin is conserved if there are no boundary entries and the finite element space
contains the coordinate functions (`x i` is the position of degree of freedom `i`). -/
theorem C72_angular_momentum (c : Config ι Q dim) (hfe : c.fe.Conforming) (hx : c.solvers.AllExact) (hbc : c.bc = [])
    (x : ι → Vec dim) (hlin : ∀ q a b, ∑ j, readDof c.fe (fun i => x i a) j * c.fe.grad j q b = if a = b then 1 else 0)
    (strategy : Strategy) (U U' : ι → State dim) (t tau : ℝ) (w : Bool)
   
    (h : backwardEulerStep c strategy U t tau = .done U' w) (a b : Fin dim) :
    total c (fun i => x i a * momentum (U' i) b - x i b * momentum (U' i) a) =
      total c (fun i => x i a * momentum (U i) b - x i b * momentum (U i) a) := by
  classical
  have hs : SlipCompatible c.bc := by
    rw [hbc]
    exact ⟨fun _ h => (by cases h), fun _ _ => List.Pairwise.nil⟩
  have hneg : ∀ (y : ι → ℝ) j, readDof c.fe (fun i => - y i) j = - readDof c.fe y j := by
    intro y j
    have h1 : (fun i => - y i) = (-1 : ℝ) • y := by funext i; simp
    rw [h1, readDof_smul, neg_one_mul]
  have hzero : ∀ j, readDof c.fe (fun _ => (0 : ℝ)) j = 0 := readDof_const c.fe hfe _ 0 fun _ _ => rfl
  have hW : RigidMotion c.fe (fun i d => (if d = b then x i a else 0) - if d = a then x i b else 0) := by
    intro q d e
    have hg : ∀ d e, gradAt c.fe (fun i d => (if d = b then x i a else 0) - if d = a then x i b else 0) q d e =
        (if d = b then (if a = e then 1 else 0) else 0) - if d = a then (if b = e then 1 else 0) else 0 := by
      intro d e
      unfold gradAt
      have hsub : ∀ j, readDof c.fe (fun i => (if d = b then x i a else 0) - if d = a then x i b else 0) j =
          (if d = b then readDof c.fe (fun i => x i a) j else 0) - if d = a then readDof c.fe (fun i => x i b) j else 0 := by
        intro j
        have := readDof_add c.fe (fun i => if d = b then x i a else 0) (fun i => - if d = a then x i b else 0) j
        rw [hneg] at this
        have h1 : ∀ y : ι → ℝ, ∀ (P : Prop) [Decidable P], readDof c.fe (fun i => if P then y i else 0) j =
            if P then readDof c.fe y j else 0 := by
          intro y P _
          split_ifs
          · rfl
          · exact hzero j
        rw [h1, h1] at this
        rw [sub_eq_add_neg, ← this]
        rfl
      simp only [hsub, sub_mul, Finset.sum_sub_distrib, ite_mul, zero_mul]
      congr 1
      · split_ifs with h1 h2 <;> simp_all
      · split_ifs with h1 h2 <;> simp_all
    rw [hg, hg]
    by_cases h1 : d = b <;> by_cases h2 : d = a <;> by_cases h3 : e = a <;> by_cases h4 : e = b <;>
      simp_all [eq_comm]
  have := C72_rigid_motion c hfe hs hx (by rw [hbc]; exact fun _ h => by cases h) strategy U U' t tau w h _ hW
    (by rw [hbc]; exact fun _ h => by cases h)
  have hdot : ∀ (i : ι) (v : Vec dim), dot (fun d => (if d = b then x i a else 0) - if d = a then x i b else 0) v =
      x i a * v b - x i b * v a := by
    intro i v
    unfold dot
    simp only [sub_mul, Finset.sum_sub_distrib, ite_mul, zero_mul, Finset.sum_ite_eq', Finset.mem_univ, if_true]
  simpa only [hdot] using this

end

end NavierStokes
end Ryujin
