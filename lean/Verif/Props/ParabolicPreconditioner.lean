import Verif.Model.ParabolicPreconditioner
import Verif.Proofs.NavierStokes

/-!
# C109: the preconditioners of the parabolic step

The multigrid smoother of the velocity and of the energy update is a Chebyshev iteration with a
diagonal preconditioner.  It is documented (and required by that iteration) to be the inverse of
the diagonal of the operator on that level, hence positive.
-/

namespace Ryujin
namespace NavierStokes

variable {ι Q : Type} {dim : ℕ}

open Classical in
/-- The vector with a one in component `d` of degree of freedom `k`. -/
noncomputable def unitField (k : ι) (d : Fin dim) : Field ι dim :=
  fun i d' => if i = k ∧ d' = d then 1 else 0

open Classical in
/-- The scalar vector with a one at degree of freedom `k`. -/
noncomputable def unitScalar (k : ι) : ι → ℝ := fun i => if i = k then 1 else 0

/-- The diagonal entry of the velocity operator for component `d` of degree of freedom `k`: what
`vmult` returns there for the corresponding unit vector. -/
noncomputable def velocityEntry [Fintype ι] [Fintype Q] (p : Params)
    (fe : Fe ι Q dim) (m rho : ι → ℝ) (bc : List (Entry ι dim)) (theta_x_tau : ℝ) (k : ι)
    (d : Fin dim) : ℝ :=
  velocityMatrix p fe m rho bc theta_x_tau (unitField k d) k d

/-- The diagonal entry of the energy operator. -/
noncomputable def energyEntry [Fintype ι] [Fintype Q]
    (fe : Fe ι Q dim) (m rho : ι → ℝ) (bc : List (Entry ι dim)) (factor : ℝ) (k : ι) : ℝ :=
  energyMatrix fe m rho bc factor (unitScalar k) k

theorem scatter_free [Fintype ι] (fe : Fe ι Q dim) (hfree : ∀ j, ¬ fe.constrained j)
    (loc : ι → ℝ) (k : ι) : scatter fe loc k = loc k := by
  classical
  unfold scatter
  rw [Finset.sum_eq_single k]
  · rw [if_neg (hfree k), if_pos rfl, one_mul]
  · intro j _ hj
    rw [if_neg (hfree j), if_neg hj, zero_mul]
  · intro h; exact absurd (Finset.mem_univ k) h

theorem gradAt_unit [Fintype ι] (fe : Fe ι Q dim)
    (hfree : ∀ j, ¬ fe.constrained j) (k : ι) (d : Fin dim) (q : Q) :
    gradAt fe (unitField k d) q = unitGrad fe k d q := by
  funext d' e
  unfold gradAt unitGrad readDof unitField
  rw [Finset.sum_eq_single k]
  · rw [if_neg (hfree k)]
    by_cases h : d' = d <;> simp [h]
  · intro j _ hj
    rw [if_neg (hfree j)]
    dsimp only
    rw [if_neg (fun h => hj h.1), zero_mul]
  · intro h; exact absurd (Finset.mem_univ k) h

theorem stressOp_unit [Fintype ι] [Fintype Q] (p : Params) (fe : Fe ι Q dim)
    (hfree : ∀ j, ¬ fe.constrained j) (tau : ℝ) (k : ι) (d : Fin dim) :
    stressOp p fe tau (unitField k d) k d = velocityDiagonalCells p fe tau k d := by
  unfold stressOp velocityDiagonalCells
  rw [scatter_free fe hfree, scatter_free fe hfree]
  simp only [gradAt_unit fe hfree]

theorem velocityDiagonalCells_nonneg [Fintype ι] [Fintype Q] (p : Params) (hmu : 0 ≤ p.mu)
    (hlam : 0 ≤ p.lam) (hdim : dim ≤ 3) (fe : Fe ι Q dim) (hw : ∀ q, 0 ≤ fe.weight q)
    (hfree : ∀ j, ¬ fe.constrained j) {tau : ℝ} (htau : 0 ≤ tau) (k : ι) (d : Fin dim) :
    0 ≤ velocityDiagonalCells p fe tau k d := by
  unfold velocityDiagonalCells
  rw [scatter_free fe hfree]
  refine Finset.sum_nonneg fun q _ => mul_nonneg (hw q) ?_
  have h := dissipation_nonneg p hmu hlam hdim (unitGrad fe k d q)
  rw [dissipation_eq] at h
  have hdd : ddot (unitGrad fe k d q) (stress p (unitGrad fe k d q))
      = ∑ e, fe.grad k q e * stress p (unitGrad fe k d q) d e := by
    unfold ddot
    rw [Finset.sum_eq_single d]
    · refine Finset.sum_congr rfl fun e _ => ?_
      have : unitGrad fe k d q d e = fe.grad k q e := if_pos rfl
      rw [this]
    · intro d' _ hd
      refine Finset.sum_eq_zero fun e _ => ?_
      have : unitGrad fe k d q d' e = 0 := if_neg hd
      rw [this, zero_mul]
    · intro h; exact absurd (Finset.mem_univ d) h
  have e : ∑ e, tau * stress p (unitGrad fe k d q) d e * fe.grad k q e
      = tau * ddot (unitGrad fe k d q) (stress p (unitGrad fe k d q)) := by
    rw [hdd, Finset.mul_sum]
    exact Finset.sum_congr rfl fun e _ => by ring
  rw [e]
  exact mul_nonneg htau h

/-- A slip entry whose normal is a coordinate direction, up to the sign. -/
def AxisNormal (e : Entry ι dim) : Prop :=
  e.id = .slip → ∃ a : Fin dim, e.normal a * e.normal a = 1 ∧ ∀ b, b ≠ a → e.normal b = 0

theorem AxisNormal.dot {e : Entry ι dim} {a : Fin dim} (h0 : ∀ b, b ≠ a → e.normal b = 0)
    (x : Vec dim) : Ryujin.dot x e.normal = x a * e.normal a := by
  unfold Ryujin.dot
  rw [Finset.sum_eq_single a]
  · intro b _ hb; rw [h0 b hb, mul_zero]
  · intro h; exact absurd (Finset.mem_univ a) h

theorem diagonal_fold (k : ι) (d : Fin dim) (bc : List (Entry ι dim))
    (hbc : ∀ e ∈ bc, AxisNormal e) (D dst : Field ι dim) (h : D k d * dst k d = 1)
    (hp : 0 < D k d) :
    bc.foldl fixVelocityDiagonal D k d * bc.foldl (fixVelocity (unitField k d)) dst k d = 1
      ∧ 0 < bc.foldl fixVelocityDiagonal D k d := by
  classical
  induction bc generalizing D dst with
  | nil => exact ⟨h, hp⟩
  | cons e l ih =>
    rw [List.foldl_cons, List.foldl_cons]
    have key : fixVelocityDiagonal D e k d * fixVelocity (unitField k d) dst e k d = 1
        ∧ 0 < fixVelocityDiagonal D e k d := by
      have hsrc : unitField k d k d = (1 : ℝ) := if_pos ⟨rfl, rfl⟩
      by_cases hk : k = e.i
      · cases hid : e.id with
        | slip =>
          obtain ⟨a, ha, h0⟩ := hbc e (by simp) hid
          unfold fixVelocityDiagonal fixVelocity
          rw [hid]
          simp only
          rw [hk, Function.update_self, Function.update_self, ← hk]
          rw [AxisNormal.dot h0, AxisNormal.dot h0, AxisNormal.dot h0]
          have hs : ∑ d', 1 * (1 * e.normal d') * e.normal d = e.normal a * e.normal d := by
            rw [Finset.sum_eq_single a]
            · ring
            · intro b _ hb; rw [h0 b hb]; ring
            · intro h; exact absurd (Finset.mem_univ a) h
          rw [hs]
          by_cases hda : d = a
          · subst hda
            rw [hsrc]
            have e1 : D k d - 1 * (D k d * e.normal d) * e.normal d + e.normal d * e.normal d = 1 := by
              linear_combination (1 - D k d) * ha
            have e2 : dst k d - 1 * (dst k d * e.normal d) * e.normal d
                + 1 * (1 * e.normal d) * e.normal d = 1 := by
              linear_combination (1 - dst k d) * ha
            rw [e1, e2]
            norm_num
          · rw [h0 d hda]
            simp only [mul_zero, sub_zero, add_zero]
            exact ⟨h, hp⟩
        | noSlip =>
          unfold fixVelocityDiagonal fixVelocity
          rw [hid]
          simp only
          rw [hk, Function.update_self, Function.update_self, ← hk, hsrc]
          norm_num
        | dirichlet =>
          unfold fixVelocityDiagonal fixVelocity
          rw [hid]
          simp only
          rw [hk, Function.update_self, Function.update_self, ← hk, hsrc]
          norm_num
        | _ =>
          unfold fixVelocityDiagonal fixVelocity
          rw [hid]
          exact ⟨h, hp⟩
      · have e1 : fixVelocityDiagonal D e k = D k := by
          unfold fixVelocityDiagonal
          cases e.id <;> simp only [Function.update_of_ne hk]
        have e2 : fixVelocity (unitField k d) dst e k = dst k := by
          unfold fixVelocity
          cases e.id <;> simp only [Function.update_of_ne hk]
        rw [e1, e2]
        exact ⟨h, hp⟩
    exact ih (fun e he => hbc e (List.mem_cons_of_mem _ he)) _ _ key.1 key.2

/-- **C109 (partial).** If all slip boundaries have normals in coordinate directions, every entry of
the diagonal preconditioner of the velocity update is positive and is the inverse of the diagonal entry
of the operator. -/
theorem C109_velocity_diagonal_partial [Fintype ι] [Fintype Q] (p : Params)
    (hmu : 0 ≤ p.mu) (hlam : 0 ≤ p.lam) (hdim : dim ≤ 3) (fe : Fe ι Q dim)
    (hw : ∀ q, 0 ≤ fe.weight q) (hfree : ∀ j, ¬ fe.constrained j) (m rho : ι → ℝ)
    (hm : ∀ i, 0 < m i) (hrho : ∀ i, 0 < rho i) (bc : List (Entry ι dim))
    (hbc : ∀ e ∈ bc, AxisNormal e) {theta_x_tau : ℝ} (htau : 0 ≤ theta_x_tau) (k : ι)
    (d : Fin dim) :
    0 < velocityDiagonal p fe m rho bc theta_x_tau k d
      ∧ velocityDiagonal p fe m rho bc theta_x_tau k d
        = 1 / velocityEntry p fe m rho bc theta_x_tau k d := by
  have hn := velocityDiagonalCells_nonneg p hmu hlam hdim fe hw hfree htau k d
  have hpos : 0 < m k * rho k + velocityDiagonalCells p fe theta_x_tau k d := by
    have := mul_pos (hm k) (hrho k); linarith
  have h := diagonal_fold k d bc hbc
    (fun i d => 1 / (m i * rho i + velocityDiagonalCells p fe theta_x_tau i d))
    (fun i d' => m i * rho i * unitField k d i d' + stressOp p fe theta_x_tau (unitField k d) i d')
    (by
      rw [stressOp_unit p fe hfree]
      have : unitField k d k d = (1 : ℝ) := if_pos ⟨rfl, rfl⟩
      rw [this, mul_one, one_div, inv_mul_cancel₀ hpos.ne'])
    (by positivity)
  refine ⟨h.2, ?_⟩
  have h1 : velocityDiagonal p fe m rho bc theta_x_tau k d
      * velocityEntry p fe m rho bc theta_x_tau k d = 1 := h.1
  exact eq_one_div_of_mul_eq_one_left h1

theorem energy_fold (k : ι) (bc : List (Entry ι dim)) (D dst : ι → ℝ)
    (h : D k * dst k = 1) (hp : 0 < D k) :
    bc.foldl fixEnergyDiagonal D k * bc.foldl (fixEnergy (unitScalar k)) dst k = 1
      ∧ 0 < bc.foldl fixEnergyDiagonal D k := by
  classical
  induction bc generalizing D dst with
  | nil => exact ⟨h, hp⟩
  | cons e l ih =>
    rw [List.foldl_cons, List.foldl_cons]
    have key : fixEnergyDiagonal D e k * fixEnergy (unitScalar k) dst e k = 1
        ∧ 0 < fixEnergyDiagonal D e k := by
      have hsrc : unitScalar k k = (1 : ℝ) := if_pos rfl
      by_cases hk : k = e.i
      · unfold fixEnergyDiagonal fixEnergy
        cases hid : e.id with
        | dirichlet =>
          simp only
          rw [hk, Function.update_self, Function.update_self, ← hk, hsrc]
          norm_num
        | _ => exact ⟨h, hp⟩
      · have e1 : fixEnergyDiagonal D e k = D k := by
          unfold fixEnergyDiagonal
          cases e.id <;> simp only [Function.update_of_ne hk]
        have e2 : fixEnergy (unitScalar k) dst e k = dst k := by
          unfold fixEnergy
          cases e.id <;> simp only [Function.update_of_ne hk]
        rw [e1, e2]
        exact ⟨h, hp⟩
    exact ih _ _ key.1 key.2

/-- **C109.** Every entry of the diagonal preconditioner of the energy update is positive and is the
inverse of the diagonal entry of the operator, for every boundary map. -/
theorem C109_energy_diagonal [Fintype ι] [Fintype Q] (fe : Fe ι Q dim)
    (hw : ∀ q, 0 ≤ fe.weight q) (hfree : ∀ j, ¬ fe.constrained j) (m rho : ι → ℝ)
    (hm : ∀ i, 0 < m i) (hrho : ∀ i, 0 < rho i) (bc : List (Entry ι dim)) {factor : ℝ}
    (hfac : 0 ≤ factor) (k : ι) :
    0 < energyDiagonal fe m rho bc factor k
      ∧ energyDiagonal fe m rho bc factor k = 1 / energyEntry fe m rho bc factor k := by
  have hd : diffusionOp fe factor (unitScalar k) k = energyDiagonalCells fe factor k := by
    unfold diffusionOp energyDiagonalCells
    rw [scatter_free fe hfree, scatter_free fe hfree]
    refine Finset.sum_congr rfl fun q _ => ?_
    have : gradAtScalar fe (unitScalar k) q = fe.grad k q := by
      funext e
      unfold gradAtScalar readDof unitScalar
      rw [Finset.sum_eq_single k]
      · rw [if_neg (hfree k), if_pos rfl, one_mul]
      · intro j _ hj
        rw [if_neg (hfree j), if_neg hj, zero_mul]
      · intro h; exact absurd (Finset.mem_univ k) h
    rw [this]
  have hn : 0 ≤ energyDiagonalCells fe factor k := by
    unfold energyDiagonalCells
    rw [scatter_free fe hfree]
    refine Finset.sum_nonneg fun q _ => mul_nonneg (hw q) ?_
    rw [dot_smul_left']
    exact mul_nonneg hfac (dot_self_nonneg _)
  have hpos : 0 < m k * rho k + energyDiagonalCells fe factor k := by
    have := mul_pos (hm k) (hrho k); linarith
  have h := energy_fold k bc
    (fun i => 1 / (m i * rho i + energyDiagonalCells fe factor i))
    (fun i => m i * rho i * unitScalar k i + diffusionOp fe factor (unitScalar k) i)
    (by
      rw [hd]
      have : unitScalar k k = (1 : ℝ) := if_pos rfl
      rw [this, mul_one, one_div, inv_mul_cancel₀ hpos.ne'])
    (by positivity)
  refine ⟨h.2, ?_⟩
  have h1 : energyDiagonal fe m rho bc factor k * energyEntry fe m rho bc factor k = 1 := h.1
  exact eq_one_div_of_mul_eq_one_left h1

/-- **C109.** The preconditioner of the iteration without multigrid is the inverse of the lumped mass
times the density, and zero exactly at the constrained degrees of freedom. -/
theorem C109_mass_diagonal (fe : Fe ι Q dim) (m rho : ι → ℝ) (hm : ∀ i, 0 < m i)
    (hrho : ∀ i, 0 < rho i) (src : ι → ℝ) (i : ι) :
    (¬ fe.constrained i → m i * rho i * diagonalVmult (diagonalReinit fe m rho) src i = src i)
      ∧ (fe.constrained i → diagonalVmult (diagonalReinit fe m rho) src i = 0) := by
  unfold diagonalVmult diagonalReinit setZero
  refine ⟨fun h => ?_, fun h => ?_⟩
  · rw [if_neg h]
    have h1 := (hm i).ne'
    have h2 := (hrho i).ne'
    field_simp
  · rw [if_pos h, zero_mul]

/-- **C109.** On a vector field the same factor is used for all components, unless the diagonal has
been set up component by component. -/
theorem C109_mass_diagonal_block (fe : Fe ι Q dim) (m rho : ι → ℝ) (src : Field ι dim)
    (d : Fin dim) :
    (fun i => diagonalVmultBlock (diagonalReinit fe m rho) none src i d)
      = diagonalVmult (diagonalReinit fe m rho) (fun i => src i d) := rfl

/-- **C109.** On a level of the multigrid the diagonal is set up component by component, and applying the preconditioner
divides every component of every degree of freedom by its own diagonal entry of the velocity operator, whatever the scalar
diagonal of the object is. -/
theorem C109_velocity_preconditioner_partial [Fintype ι] [Fintype Q] (p : Params)
    (hmu : 0 ≤ p.mu) (hlam : 0 ≤ p.lam) (hdim : dim ≤ 3) (fe : Fe ι Q dim)
    (hw : ∀ q, 0 ≤ fe.weight q) (hfree : ∀ j, ¬ fe.constrained j) (m rho : ι → ℝ)
    (hm : ∀ i, 0 < m i) (hrho : ∀ i, 0 < rho i) (bc : List (Entry ι dim))
    (hbc : ∀ e ∈ bc, AxisNormal e) {theta_x_tau : ℝ} (htau : 0 ≤ theta_x_tau) (diagonal : ι → ℝ) (src : Field ι dim)
    (k : ι) (d : Fin dim) :
    diagonalVmultBlock diagonal (some (velocityDiagonal p fe m rho bc theta_x_tau)) src k d =
      src k d / velocityEntry p fe m rho bc theta_x_tau k d := by
  show velocityDiagonal p fe m rho bc theta_x_tau k d * src k d = _
  rw [(C109_velocity_diagonal_partial p hmu hlam hdim fe hw hfree m rho hm hrho bc hbc htau k d).2]
  ring

/-- **C109 (violation).** On a slip boundary with an oblique normal the entry computed for the
preconditioner is negative as soon as the inverse diagonal is larger than ten, which is the case on
every fine mesh, because the lumped mass is the volume of a patch.  The diagonal preconditioner is then
indefinite. -/
theorem C109_slip_negative_violation [Fintype ι] [Fintype Q] (p : Params) (hmu : 0 ≤ p.mu)
    (hlam : 0 ≤ p.lam) (fe : Fe ι Q 2) (hw : ∀ q, 0 ≤ fe.weight q)
    (hfree : ∀ j, ¬ fe.constrained j) (m rho : ι → ℝ) (hm : ∀ i, 0 < m i) (hrho : ∀ i, 0 < rho i)
    {theta_x_tau : ℝ} (htau : 0 ≤ theta_x_tau) (e : Entry ι 2) (hid : e.id = .slip)
    (hn : e.normal = ![3 / 5, 4 / 5])
    (hsmall : m e.i * rho e.i + velocityDiagonalCells p fe theta_x_tau e.i 0 < 1 / 10)
    (hle : velocityDiagonalCells p fe theta_x_tau e.i 0
      ≤ velocityDiagonalCells p fe theta_x_tau e.i 1) :
    velocityDiagonal p fe m rho [e] theta_x_tau e.i 1 < 0 := by
  have hn0 := velocityDiagonalCells_nonneg p hmu hlam (by norm_num) fe hw hfree htau e.i 0
  have hmr := mul_pos (hm e.i) (hrho e.i)
  unfold velocityDiagonal fixVelocityDiagonal
  simp only [List.foldl_cons, List.foldl_nil]
  rw [hid]
  simp only
  classical
  rw [Function.update_self, hn]
  unfold dot
  simp only [Fin.sum_univ_two, Matrix.cons_val_zero, Matrix.cons_val_one]
  set a := m e.i * rho e.i + velocityDiagonalCells p fe theta_x_tau e.i 0
  set b := m e.i * rho e.i + velocityDiagonalCells p fe theta_x_tau e.i 1
  have ha : 0 < a := by linarith
  have hab : a ≤ b := by linarith
  have h1 : 10 < 1 / a := by rw [lt_div_iff₀ ha]; linarith
  have h2 : 1 / b ≤ 1 / a := one_div_le_one_div_of_le ha hab
  nlinarith

/-! ### A configuration that meets the hypotheses -/

/-- Two degrees of freedom and one quadrature point with a vertical gradient. -/
noncomputable def demoFe : Fe (Fin 2) (Fin 1) 2 where
  phi := fun _ _ => 1 / 2
  grad := fun j _ => if j = 0 then ![0, 1] else ![0, -1]
  weight := fun _ => 1
  constrained := fun _ => False
  coef := fun _ _ => 0

/-- Viscosity one, no bulk viscosity. -/
noncomputable def demoParams : Params := ⟨1, 0, 1⟩

/-- A slip boundary with the given normal at the first degree of freedom. -/
noncomputable def demoEntry (n : Vec 2) : Entry (Fin 2) 2 := ⟨0, n, .slip, fun _ => 0⟩

theorem demo_cells :
    velocityDiagonalCells demoParams demoFe (1 / 1000) 0 0 = 1 / 1000
      ∧ velocityDiagonalCells demoParams demoFe (1 / 1000) 0 1 = 4 / 3000 := by
  have h : ∀ d, velocityDiagonalCells demoParams demoFe (1 / 1000) 0 d
      = ∑ e, 1 / 1000 * stress demoParams (unitGrad demoFe 0 d 0) d e * demoFe.grad 0 0 e := by
    intro d
    unfold velocityDiagonalCells
    rw [scatter_free demoFe (fun _ h => h)]
    simp [demoFe]
  rw [h, h]
  unfold stress symGrad
  rw [if_neg (by norm_num)]
  simp [Fin.sum_univ_two, unitGrad, demoFe, demoParams]
  norm_num

/-- The hypotheses of `C109_velocity_diagonal_partial` and `C109_energy_diagonal`, with a slip boundary
in the direction of an axis. -/
example : 0 < velocityDiagonal demoParams demoFe (fun _ => 1 / 100) (fun _ => 1)
      [demoEntry ![0, -1]] (1 / 1000) 0 0
    ∧ 0 < energyDiagonal demoFe (fun _ => 1 / 100) (fun _ => 1) [demoEntry ![0, -1]] 2 1 := by
  refine ⟨(C109_velocity_diagonal_partial demoParams (by norm_num [demoParams])
    (by norm_num [demoParams]) (by norm_num) demoFe (fun _ => by norm_num [demoFe])
    (fun _ h => h) _ _ (fun _ => by norm_num) (fun _ => by norm_num) _ ?_ (by norm_num) 0 0).1,
    (C109_energy_diagonal demoFe (fun _ => by norm_num [demoFe])
    (fun _ h => h) _ _ (fun _ => by norm_num) (fun _ => by norm_num) _ (by norm_num) 1).1⟩
  intro e he
  rw [List.mem_singleton] at he
  subst he
  refine fun _ => ⟨1, by simp [demoEntry], fun b hb => ?_⟩
  have : b = 0 := by omega
  subst this
  rfl

/-- The violation occurs for the same configuration with an oblique normal. -/
example : velocityDiagonal demoParams demoFe (fun _ => 1 / 100) (fun _ => 1)
    [demoEntry ![3 / 5, 4 / 5]] (1 / 1000) 0 1 < 0 :=
  C109_slip_negative_violation demoParams (by norm_num [demoParams]) (by norm_num [demoParams]) demoFe
    (fun _ => by norm_num [demoFe]) (fun _ h => h) _ _ (fun _ => by norm_num)
    (fun _ => by norm_num) (by norm_num) (demoEntry ![3 / 5, 4 / 5]) rfl rfl
    (by
      have : (demoEntry ![3 / 5, 4 / 5]).i = 0 := rfl
      rw [this, demo_cells.1]; norm_num)
    (by
      have : (demoEntry ![3 / 5, 4 / 5]).i = 0 := rfl
      rw [this, demo_cells.1, demo_cells.2]; norm_num)

end NavierStokes
end Ryujin
