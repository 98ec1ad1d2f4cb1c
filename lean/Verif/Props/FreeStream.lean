import Verif.Proofs.FreeStream
import Verif.Model.OneLane
import Verif.Props.Runs
import Verif.Props.Frames
import Mathlib.Data.Matrix.Mul
import Mathlib.LinearAlgebra.Matrix.ToLin

/-!
# C103: uniform flow stays uniform

On every mesh whose vectors `c_ij` add up to zero in every row (C87), a uniform state is preserved exactly by a step with any
stages, and therefore by a complete run with any explicit scheme.
-/

namespace Ryujin

open Hyp

noncomputable section

variable {ι : Type} {dim : ℕ}

theorem contract_mulVec {n : ℕ} (f : Fin n → Vec dim) (c : Vec dim) : contract f c = (Matrix.of f).mulVec c := rfl

/-- The change of momentum etc. caused by the flux of two equal states. -/
def uniformFlux {n : ℕ} (f : Fin n → Vec dim) : Vec dim →ₗ[ℝ] Vec n := -(Matrix.mulVecLin (Matrix.of (addFlux f f)))

theorem uniformFlux_apply {n : ℕ} (f : Fin n → Vec dim) (c : Vec dim) : -contract (addFlux f f) c = uniformFlux f c := rfl

/-! ### Scalar equations -/

namespace Scalar

theorem steady (fl : Flux dim) (q : StepParams) (draws : ι → ι → List ℝ)
    (lim : ι → ι → Bounds → State → State → ℝ × Prop) (U0 : State) :
    Steady (description fl q draws lim) U0 (fluxContribution fl U0) (uniformFlux (fluxContribution fl U0)) where
  low := fun _ => rfl
  high := fun _ => rfl
  star := rfl

theorem uniform (fl : Flux dim) (q : StepParams) (draws : ι → ι → List ℝ)
    (lim : ι → ι → Bounds → State → State → ℝ × Prop) (M : Mesh ι dim) (U0 : State) {x : StateVector ι Unit State}
    (h : ∀ i, M.nbrs i ≠ [] → x.U i = U0) : Uniform (description fl q draws lim) M U0 (fluxContribution fl U0) x where
  value := h
  flux := fun _ _ => rfl
  source := fun _ _ _ => rfl

/-- The bounds admit the value. -/
def AdmitsValue (U0 : State) (b : Bounds) : Prop := b.u_min ≤ state U0 ∧ state U0 ≤ b.u_max

theorem uniform_bounds (fl : Flux dim) (q : StepParams) (heps : 0 ≤ q.eps) (hf : 0 ≤ q.relaxation_factor)
    (draws : ι → ι → List ℝ) (lim : ι → ι → Bounds → State → State → ℝ × Prop) {M : Mesh ι dim} (U0 : State)
    (X : Stage4 ι Unit State) (hx : ∀ i, M.nbrs i ≠ [] → X.old.U i = U0) (tiny : ℝ) (i : ι) (hi : M.active i) :
    AdmitsValue U0 (boundsStep4 (description fl q draws lim) M X tiny i) := by
  let col : ι → Column dim := fun j =>
    let e := limiterEntry (description fl q draws lim) M X tiny i j
    ⟨e.U_j, e.flux_j, e.scaled_c, e.affine_shift⟩
  have hb : boundsStep4 (description fl q draws lim) M X tiny i =
      (accumulateRow q.big (X.old.U i) (fluxAt (description fl q draws lim) X i) ((M.columns i).map col)).relaxedBounds dim q.eps
        q.relaxation_factor (M.lumped i * (1 / M.omega)) := by
    unfold accumulateRow
    rw [List.foldl_map]
    unfold boundsStep4
    show LimiterState.relaxedBounds _ _ _ (List.foldl _ _ (List.map _ _)) _ = _
    rw [List.foldl_map]
  have h7 := (C07_scalar_accumulate_exact q.big (X.old.U i) (fluxAt (description fl q draws lim) X i)
    ((M.columns i).map col)).1 (col i) (List.mem_map.2 ⟨i, List.mem_cons_self, rfl⟩)
  have h6 := C06_scalar_bounds dim q.eps q.relaxation_factor (M.lumped i * (1 / M.omega))
    (accumulateRow q.big (X.old.U i) (fluxAt (description fl q draws lim) X i) ((M.columns i).map col)) heps hf
  have hbar : barValue (X.old.U i) (fluxAt (description fl q draws lim) X i) (col i) = state U0 := by
    have hs : affineShiftAt (description fl q draws lim) M X i = 0 := by
      unfold affineShiftAt
      rw [map_sum_zero _ (fun j => _) fun j _ => (rfl : (description fl q draws lim).affineShift _ _ _ _ = 0), smul_zero, zero_add]
      show X.tau • (0 : State) = 0
      rw [smul_zero]
    simp only [barValue, col, limiterEntry, hs, sub_self, zero_mul, Finset.sum_const_zero, Pi.zero_apply, sub_zero, add_zero,
      hx i hi, state]
    ring
  rw [hbar] at h7
  rw [hb]
  exact ⟨h6.1.trans h7.1, h7.2.trans h6.2.1⟩

/-- **C103 (scalar equations).** Whatever the grouping of rows, the random draws and the limiter do: if all unconstrained values
of the old vector and of the stages are equal, a step that returns has left them as they are. -/
theorem C103_scalar [Fintype ι] (fl : Flux dim) (q : StepParams) (draws : ι → ι → List ℝ)
    (lim : ι → ι → Bounds → State → State → ℝ × Prop) (M : Mesh ι dim) (hM : M.WellFormed)
    (hrow : ∀ i, M.nbrs i ≠ [] → M.c i i + ((M.nbrs i).map (M.c i)).sum = 0) (par : Hyp.Params) (strategy : Strategy)
    (cnt : Counters) (lo : Leftover ι State) (U0 : State) (old : StateVector ι Unit State)
    (hold : ∀ i, M.nbrs i ≠ [] → old.U i = U0) (stages : List (ℝ × StateVector ι Unit State))
    (hstages : ∀ s ∈ stages, ∀ i, M.nbrs i ≠ [] → s.2.U i = U0) (tau tau_max : ℝ) (U : ι → State) (t : ℝ)
    (h : (step (description fl q draws lim) M par strategy cnt lo old stages tau tau_max).1 = .done U t)
    (i : ι) (hi : M.nbrs i ≠ []) : U i = U0 :=
  uniform_step hM (steady fl q draws lim U0) hrow (uniform fl q draws lim M U0 hold)
    (fun s hs => uniform fl q draws lim M U0 (hstages s hs)) h hi

/-- **C103 (scalar equations, no rejection).** And with a row per call the step does return, also if violations raise an
exception. -/
theorem C103_scalar_returns [Fintype ι] (fl : Flux dim) (q : StepParams) (heps : 0 ≤ q.eps) (hf : 0 ≤ q.relaxation_factor)
    (draws : ι → ι → List ℝ) (M : Mesh ι dim) (hM : M.WellFormed)
    (hrow : ∀ i, M.nbrs i ≠ [] → M.c i i + ((M.nbrs i).map (M.c i)).sum = 0) (hm : ∀ i, 0 < M.lumped i)
    (par : Hyp.Params) (htiny : 0 < par.tiny) (hcfl : 0 < par.cfl) (strategy : Strategy)
    (cnt : Counters) (lo : Leftover ι State) (U0 : State) (old : StateVector ι Unit State)
    (hold : ∀ i, M.nbrs i ≠ [] → old.U i = U0) (stages : List (ℝ × StateVector ι Unit State))
    (hstages : ∀ s ∈ stages, ∀ i, M.nbrs i ≠ [] → s.2.U i = U0) (tau tau_max : ℝ) (hmax : 0 < tau_max) :
    ∃ U t, step (oneLane fl q draws) M par strategy cnt lo old stages tau tau_max = (.done U t, cnt) ∧
      ∀ i, M.nbrs i ≠ [] → U i = U0 := by
  have hpos := (C11_step_tau (oneLane fl q draws) M par strategy cnt lo old stages tau tau_max htiny hcfl hm hmax).1
  have hlim : ∀ i j b, AdmitsValue U0 b → ((oneLane fl q draws).limit i j b U0 0).2 := fun i j b hb =>
    (C60_scalar_no_false_alarm q.eps q.tiny heps (fun _ : Fin 1 => b) (fun _ => U0) (fun _ => 0) (fun _ => 0) (fun _ => 1)).1
      fun _ => hb
  obtain ⟨U, hU⟩ := uniform_not_rejected (strategy := strategy) (cnt := cnt) (tau := tau) hM (steady fl q draws _ U0) hrow
    (uniform fl q draws _ M U0 hold)
    (fun s hs => uniform fl q draws _ M U0 (hstages s hs)) (AdmitsValue U0)
    (fun a b ha _ => ⟨(min_le_left _ _).trans ha.1, ha.2.trans (le_max_left _ _)⟩)
    (fun t i hi => uniform_bounds fl q heps hf draws _ U0 (stage4 _ M par lo old stages t) hold par.tiny i hi)
    hlim hpos
  exact ⟨U, _, hU, fun i hi => C103_scalar fl q draws _ M hM hrow par strategy cnt lo U0 old hold stages hstages tau tau_max U _
    (congrArg Prod.fst hU) i hi⟩

end Scalar

/-! ### Compressible Euler equations -/

namespace Euler

section

variable (p : Params) (lp : LimiterParams) (big : ℝ) (riem : ι → ι → State dim → State dim → Vec dim → ℝ)
  (ind : State dim → List (State dim × Vec dim) → ℝ → ℝ) (lim : ι → ι → Bounds → State dim → State dim → ℝ × Prop)

theorem steady (U0 : State dim) :
    Steady (description p lp big riem ind lim) U0 (f p U0) (uniformFlux (f p U0)) where
  low := fun _ => rfl
  high := fun _ => rfl
  star := rfl

theorem uniform (M : Mesh ι dim) (U0 : State dim) {x : StateVector ι Unit (State dim)}
    (h : ∀ i, M.nbrs i ≠ [] → x.U i = U0) : Uniform (description p lp big riem ind lim) M U0 (f p U0) x where
  value := h
  flux := fun _ _ => rfl
  source := fun _ _ _ => rfl

/-- The bounds admit the state. -/
def AdmitsState (U0 : State dim) (b : Bounds) : Prop :=
  0 ≤ b.rho_min ∧ b.rho_min ≤ density U0 ∧ density U0 ≤ b.rho_max ∧ 0 ≤ b.s_min ∧ b.s_min ≤ specificEntropy p U0

variable {p lp big riem ind lim}

theorem uniform_bounds (heps : 0 ≤ p.eps) (hf : 0 ≤ lp.relaxation_factor) (hbig : 0 ≤ big) {M : Mesh ι dim} (hM : M.WellFormed)
    (U0 : State dim) (h0 : 0 < density U0) (he : 0 ≤ internalEnergy U0)
    (X : Stage4 ι Unit (State dim)) (hx : ∀ i, M.nbrs i ≠ [] → X.old.U i = U0) (tiny : ℝ) (i : ι) (hi : M.active i)
    (hr : relaxationRadius dim lp.relaxation_factor (M.lumped i * (1 / M.omega)) ≤ 1) :
    AdmitsState p U0 (boundsStep4 (description p lp big riem ind lim) M X tiny i) := by
  set row := (M.columns i).map (stepColumn (description p lp big riem ind lim) p M X tiny i) with hrow
  have hs0 : 0 ≤ specificEntropy p U0 := mul_nonneg he (Real.rpow_nonneg (one_div_pos.2 h0).le _)
  have hbar : ∀ e ∈ row, barDensity (X.old.U i) e = density U0 := by
    intro e he
    obtain ⟨j, hj, rfl⟩ := List.mem_map.1 he
    have hj := col_active hM hi hj
    have h1 : (limiterEntry (description p lp big riem ind lim) M X tiny i j).affine_shift = 0 := affineShift_zero M X i
    unfold barDensity stepColumn
    simp only [h1, hx i hi, hx j hj, sub_self, zero_mul, Finset.sum_const_zero]
    show (density U0 + density U0 + 0) / 2 + 0 = _
    ring
  have hent : ∀ e ∈ row, e.s_j = specificEntropy p U0 := by
    intro e he
    obtain ⟨j, hj, rfl⟩ := List.mem_map.1 he
    show specificEntropy p (X.old.U j) = _
    rw [hx j (col_active hM hi hj)]
  have hmem : stepColumn (description p lp big riem ind lim) p M X tiny i i ∈ row :=
    List.mem_map_of_mem (show i ∈ M.columns i from List.mem_cons_self)
  obtain ⟨e1, e2, e3, e4⟩ := C07_euler_accumulate_exact p big (X.old.U i) row
  obtain ⟨r1, r2, r3, -⟩ := C06_euler_bounds p lp big (M.lumped i * (1 / M.omega)) (X.old.U i) row heps hf hbig
    ⟨_, hmem, rfl, rfl⟩ (fun e he => by rw [hbar e he]; exact h0.le) (fun e he => by rw [hent e he]; exact hs0)
  obtain ⟨m1, m2, m3⟩ := e1 _ hmem
  rw [hbar _ hmem] at m1 m2
  rw [hent _ hmem] at m3
  rw [step_bounds4]
  refine ⟨?_, r1.trans m1, m2.trans r2, ?_, r3.trans m3⟩
  · refine le_max_of_le_left (mul_nonneg (by linarith) ?_)
    rcases e2 with h | ⟨e, he, h⟩
    · rw [h]; exact hbig
    · rw [h, hbar e he]; exact h0.le
  · refine le_max_of_le_left (mul_nonneg (by linarith) ?_)
    rcases e4 with h | ⟨e, he, h⟩
    · rw [h]; exact hbig
    · rw [h, hent e he]; exact hs0

/-- **C103 (Euler).** Uniform flow of any state – moving or not, with any Riemann solver, indicator and limiter – is left exactly
as it is by a step that returns. -/
theorem C103_euler [Fintype ι] (M : Mesh ι dim) (hM : M.WellFormed)
    (hrow : ∀ i, M.nbrs i ≠ [] → M.c i i + ((M.nbrs i).map (M.c i)).sum = 0) (par : Hyp.Params) (strategy : Strategy)
    (cnt : Counters) (lo : Leftover ι (State dim)) (U0 : State dim) (old : StateVector ι Unit (State dim))
    (hold : ∀ i, M.nbrs i ≠ [] → old.U i = U0) (stages : List (ℝ × StateVector ι Unit (State dim)))
    (hstages : ∀ s ∈ stages, ∀ i, M.nbrs i ≠ [] → s.2.U i = U0) (tau tau_max : ℝ) (U : ι → State dim) (t : ℝ)
    (h : (step (description p lp big riem ind lim) M par strategy cnt lo old stages tau tau_max).1 = .done U t)
    (i : ι) (hi : M.nbrs i ≠ []) : U i = U0 :=
  uniform_step hM (steady p lp big riem ind lim U0) hrow (uniform p lp big riem ind lim M U0 hold)
    (fun s hs => uniform p lp big riem ind lim M U0 (hstages s hs)) h hi

end

/-- **C103 (Euler, no rejection).** And with a row per call the step does return, also if violations raise an exception. -/
theorem C103_euler_returns [Fintype ι] (p : Params) (lp : LimiterParams) (rp : RiemannParams) (evc_factor big : ℝ)
    (heps : 0 ≤ p.eps) (hf : 0 ≤ lp.relaxation_factor) (hbig : 0 ≤ big)
    (hc : 0 < p.reference_density * p.vacuum_large * p.eps) (hv : 0 ≤ p.vacuum_large * p.eps)
    (hw : 0 ≤ p.vacuum_small * p.eps) (M : Mesh ι dim) (hM : M.WellFormed)
    (hrow : ∀ i, M.nbrs i ≠ [] → M.c i i + ((M.nbrs i).map (M.c i)).sum = 0) (hm : ∀ i, 0 < M.lumped i)
    (hr : ∀ i, relaxationRadius dim lp.relaxation_factor (M.lumped i * (1 / M.omega)) ≤ 1)
    (par : Hyp.Params) (htiny : 0 < par.tiny) (hcfl : 0 < par.cfl) (strategy : Strategy)
    (cnt : Counters) (lo : Leftover ι (State dim)) (U0 : State dim) (h0 : 0 < density U0) (he : 0 ≤ internalEnergy U0)
    (old : StateVector ι Unit (State dim))
    (hold : ∀ i, M.nbrs i ≠ [] → old.U i = U0) (stages : List (ℝ × StateVector ι Unit (State dim)))
    (hstages : ∀ s ∈ stages, ∀ i, M.nbrs i ≠ [] → s.2.U i = U0) (tau tau_max : ℝ) (hmax : 0 < tau_max) :
    ∃ U t, step (oneLane p lp rp evc_factor big) M par strategy cnt lo old stages tau tau_max = (.done U t, cnt) ∧
      ∀ i, M.nbrs i ≠ [] → U i = U0 := by
  have hpos := (C11_step_tau (oneLane p lp rp evc_factor big) M par strategy cnt lo old stages tau tau_max htiny hcfl hm hmax).1
  have hlim : ∀ i j b, AdmitsState p U0 b → ((oneLane (ι := ι) p lp rp evc_factor big).limit i j b U0 0).2 := fun i j b hb =>
    C60_euler_no_false_alarm p lp (fun _ : Fin 1 => b) (fun _ => U0) (fun _ => 0) (fun _ => 1) heps hc hv hw (fun _ => zero_le_one)
      (fun _ => h0) (fun _ => he) (fun _ => hb.1) (fun _ => hb.2.1) (fun _ => hb.2.2.1) (fun _ => hb.2.2.2.1)
      (fun _ => hb.2.2.2.2)
  obtain ⟨U, hU⟩ := uniform_not_rejected (strategy := strategy) (cnt := cnt) (tau := tau) hM (steady p lp big _ _ _ U0) hrow
    (uniform p lp big _ _ _ M U0 hold)
    (fun s hs => uniform p lp big _ _ _ M U0 (hstages s hs)) (AdmitsState p U0)
    (fun a b ha hb => ⟨le_min ha.1 hb.1, (min_le_left _ _).trans ha.2.1, ha.2.2.1.trans (le_max_left _ _),
      le_min ha.2.2.2.1 hb.2.2.2.1, (min_le_left _ _).trans ha.2.2.2.2⟩)
    (fun t i hi => uniform_bounds heps hf hbig hM U0 h0 he (stage4 _ M par lo old stages t) hold par.tiny i hi (hr i))
    hlim hpos
  exact ⟨U, _, hU, fun i hi => C103_euler M hM hrow par strategy cnt lo U0 old hold stages hstages tau tau_max U _
    (congrArg Prod.fst hU) i hi⟩

/-- Prescribing a characteristic of the state itself changes nothing. -/
theorem prescribe_self (c : Characteristic) (p : Params) (U : State dim) (n : Vec dim) (hn : normSq n = 1) (hg : 1 < p.gamma)
    (hU : 0 < density U) (hp : 0 < pressure p U) : prescribeRiemannCharacteristic c p U U n = U := by
  have hg1 : 0 < p.gamma - 1 := by linarith
  have hg0 : 0 < p.gamma := by linarith
  set v : ℝ := dot (momentum U) n / density U with hv
  set a := speedOfSound p U with ha
  have ha2 : a ^ 2 = p.gamma * pressure p U / density U := by
    rw [ha]; unfold speedOfSound; rw [mul_one_div, Real.sq_sqrt (by positivity)]
  have hrp := Real.rpow_pos_of_pos hU p.gamma
  have e1 : (1 / (p.gamma * (pressure p U / density U ^ p.gamma)) *
      ((p.gamma - 1) / 4 * ((v + 2 * a / (p.gamma - 1)) - (v - 2 * a / (p.gamma - 1)))) ^ 2) ^ (1 / (p.gamma - 1)) = density U := by
    have : (p.gamma - 1) / 4 * ((v + 2 * a / (p.gamma - 1)) - (v - 2 * a / (p.gamma - 1))) = a := by field_simp; ring
    rw [this, ha2]
    have : 1 / (p.gamma * (pressure p U / density U ^ p.gamma)) * (p.gamma * pressure p U / density U) = density U ^ (p.gamma - 1) := by
      rw [Real.rpow_sub hU, Real.rpow_one]; field_simp
    rw [this, ← Real.rpow_mul hU.le, mul_one_div_cancel hg1.ne', Real.rpow_one]
  have e2 : 1 / 2 * ((v - 2 * a / (p.gamma - 1)) + (v + 2 * a / (p.gamma - 1))) = v := by ring
  have hV : prescribeRiemannCharacteristic c p U U n =
      mkState (density U) (fun i => density U * (v * n i + (momentum U i / density U - v * n i)))
        (pressure p U / density U ^ p.gamma * density U ^ p.gamma / (p.gamma - 1) + 1 / 2 * density U * (v * v +
          normSq fun i => momentum U i / density U - v * n i)) := by
    cases c <;> simp only [prescribeRiemannCharacteristic, ← ha, ← hv, e1, e2]
  rw [hV]
  apply state_ext
  · simp
  · rw [momentum_mkState]; funext i; field_simp; ring
  · rw [totalEnergy_mkState, div_mul_cancel₀ _ hrp.ne', pressure_eq]
    have hq : (fun i => momentum U i / density U - v * n i) = (1 / density U) • momentum U + (-v) • n := by
      funext i; simp; ring
    rw [hq, normSq_add, normSq_smul, normSq_smul, hn, dot_smul_left, dot_smul_right]
    have : dot (momentum U) n = v * density U := by rw [hv]; field_simp
    rw [this]
    field_simp
    ring

/-- **C103 (Euler, boundary conditions).** Which boundary conditions keep a uniform state, if the boundary data are that state. -/
theorem C103_euler_boundary (p : Params) (hg : 1 < p.gamma) (U0 : State dim) (h0 : 0 < density U0) (hp : 0 < pressure p U0)
    (id : Boundary) (n : Vec dim) (hn : normSq n = 1) (hslip : id = .slip → dot (momentum U0) n = 0)
    (hnoslip : id = .noSlip → momentum U0 = 0) : applyBoundaryConditions p id U0 n U0 = U0 := by
  cases id with
  | slip =>
    have := hslip rfl
    apply state_ext <;> simp [applyBoundaryConditions, this]
  | noSlip =>
    have := hnoslip rfl
    apply state_ext <;> simp [applyBoundaryConditions, this]; rfl
  | dynamic =>
    unfold applyBoundaryConditions
    simp only [prescribe_self _ p U0 n hn hg h0 hp, ite_self]
  | _ => rfl

end Euler

/-! ### Euler equations with arbitrary equation of state -/

namespace Aeos

open Euler (State)

/-- **C103 (arbitrary equation of state).** If the precomputed pressures are equal too, uniform flow is left as it is. -/
theorem C103_aeos [Fintype ι] {B : Type} (riem : (ι → ℝ) → ι → ι → State dim → State dim → Vec dim → ℝ)
    (ind : (ι → ℝ) → ι → State dim → List (ι × State dim × Vec dim) → ℝ → ℝ)
    (bnds : (ι → ℝ) → ι → State dim → (Fin (dim + 2) → Vec dim) →
      List (Hyp.LimiterEntry ι (State dim) (Fin (dim + 2) → Vec dim) dim) → ℝ → B)
    (comb : B → B → B) (lim : ι → ι → B → State dim → State dim → ℝ × Prop) (M : Mesh ι dim) (hM : M.WellFormed)
    (hrow : ∀ i, M.nbrs i ≠ [] → M.c i i + ((M.nbrs i).map (M.c i)).sum = 0) (par : Hyp.Params) (strategy : Strategy)
    (cnt : Counters) (lo : Leftover ι (State dim)) (U0 : State dim) (pr : ℝ) (old : StateVector ι (ι → ℝ) (State dim))
    (hold : ∀ i, M.nbrs i ≠ [] → old.U i = U0 ∧ old.prec i = pr) (stages : List (ℝ × StateVector ι (ι → ℝ) (State dim)))
    (hstages : ∀ s ∈ stages, ∀ i, M.nbrs i ≠ [] → s.2.U i = U0 ∧ s.2.prec i = pr) (tau tau_max : ℝ) (U : ι → State dim) (t : ℝ)
    (h : (step (description riem ind bnds comb lim) M par strategy cnt lo old stages tau tau_max).1 = .done U t)
    (i : ι) (hi : M.nbrs i ≠ []) : U i = U0 := by
  have hu : ∀ x : StateVector ι (ι → ℝ) (State dim), (∀ i, M.nbrs i ≠ [] → x.U i = U0 ∧ x.prec i = pr) →
      Uniform (description riem ind bnds comb lim) M U0 (f U0 pr) x := fun x hx =>
    { value := fun i hi => (hx i hi).1
      flux := fun i hi => by show f U0 (x.prec i) = _; rw [(hx i hi).2]
      source := fun _ _ _ => rfl }
  exact uniform_step hM (D := description riem ind bnds comb lim) (G := uniformFlux (f U0 pr)) ⟨fun _ => rfl, fun _ => rfl, rfl⟩
    hrow (hu _ hold) (fun s hs => hu _ (hstages s hs)) h hi

end Aeos

/-! ### Shallow water equations -/

namespace ShallowWater

/-- Water that is deep enough not to be regarded as dry. -/
structure FlowingWater (p : Params) (U : State dim) : Prop where
  pos : 0 < waterDepth U
  mollified : cutoffMollified p ≤ waterDepth U
  sharp : cutoffSharp p ≤ waterDepth U

theorem wet_star {p : Params} {U0 : State dim} (h : FlowingWater p U0) (z : ℝ) : starState p U0 z z = U0 := by
  unfold starState
  have := (mollified_factor p U0).2.2.1 h.pos h.mollified
  simp only [max_self]
  rw [show waterDepth U0 + z - z = waterDepth U0 by ring, max_eq_right h.pos.le, mul_comm, this, one_smul]

theorem wet_sharp {p : Params} {U0 : State dim} (h : FlowingWater p U0) : inverseWaterDepthSharp p U0 = 1 / waterDepth U0 := by
  unfold inverseWaterDepthSharp waterDepthSharp
  rw [max_eq_left (show p.reference_water_depth * p.dry_state_relaxation_small * p.eps ≤ waterDepth U0 from h.sharp)]

section

variable (q : StepParams) (Z : ι → ℝ) (lim : ι → ι → Bounds → State dim → State dim → ℝ × Prop)

/-- The change caused by the flux of two equal states on a flat bottom. -/
def flatFlux (p : Params) (U : State dim) : Vec dim →ₗ[ℝ] State dim :=
  Matrix.mulVecLin (Matrix.of (subDiagonal (-addFlux (g p U) (g p U)) (waterDepth U * waterDepth U * p.gravity)))

theorem steady (U0 : State dim) (hw : FlowingWater q.p U0) (z : ℝ) :
    Steady (description q Z lim) U0 ⟨U0, z⟩ (flatFlux q.p U0) where
  low := by
    intro c
    show contract (subDiagonal _ _) c = contract (subDiagonal _ _) c
    simp only [equilibratedStates, wet_star hw]
    congr 2
    ring
  high := by
    intro c
    show contract (subDiagonal _ _) c = contract (subDiagonal _ _) c
    congr 2
    ring
  star := rfl

theorem nodalSource_zero (p : Params) (U0 : State dim) (h : p.manning_friction_coefficient = 0 ∨ momentum U0 = 0) (tau : ℝ) :
    nodalSource p U0 tau = 0 := by
  unfold nodalSource manningFriction
  funext k
  refine Fin.cases ?_ (fun k => ?_) k
  · rfl
  · show -_ * _ * momentum U0 k = 0
    rcases h with h | h
    · rw [h]; ring
    · rw [h]; simp

theorem uniform (M : Mesh ι dim) (U0 : State dim) (z : ℝ) (hZ : ∀ i, M.nbrs i ≠ [] → Z i = z)
    (hs : q.p.manning_friction_coefficient = 0 ∨ momentum U0 = 0) {x : StateVector ι Unit (State dim)}
    (h : ∀ i, M.nbrs i ≠ [] → x.U i = U0) : Uniform (description q Z lim) M U0 ⟨U0, z⟩ x where
  value := h
  flux := fun i hi => by show FluxContribution.mk U0 (Z i) = _; rw [hZ i hi]
  source := fun _ _ tau => nodalSource_zero q.p U0 hs tau

/-- The bounds admit the state. -/
def AdmitsState (p : Params) (U0 : State dim) (b : Bounds) : Prop :=
  b.h_min ≤ waterDepth U0 ∧ waterDepth U0 ≤ b.h_max ∧ kineticEnergy p U0 ≤ b.kin_max ∧ velocitySquare p U0 ≤ b.v2_max

variable {q Z lim}

theorem uniform_bounds (heps : 0 ≤ q.p.eps) (hf : 0 ≤ q.lp.relaxation_factor) (hbig : 0 ≤ q.big) {M : Mesh ι dim}
    (hM : M.WellFormed) (U0 : State dim) (hw : FlowingWater q.p U0) (z : ℝ) (hZ : ∀ i, M.nbrs i ≠ [] → Z i = z)
    (hs : q.p.manning_friction_coefficient = 0 ∨ momentum U0 = 0)
    (X : Stage4 ι Unit (State dim)) (hx : ∀ i, M.nbrs i ≠ [] → X.old.U i = U0) (tiny : ℝ) (i : ι) (hi : M.active i) :
    AdmitsState q.p U0 (boundsStep4 (description q Z lim) M X tiny i) := by
  let col : ι → Column dim := fun j =>
    let e := limiterEntry (description q Z lim) M X tiny i j
    ⟨e.U_j, e.star_ij, e.star_ji, e.scaled_c, e.affine_shift⟩
  have hu := uniform q Z lim M U0 z hZ hs hx
  have hb : boundsStep4 (description q Z lim) M X tiny i =
      (accumulateRow q.p q.big (X.old.U i) ((M.columns i).map col)).relaxedBounds dim q.p q.lp (M.lumped i * (1 / M.omega)) := by
    unfold accumulateRow
    rw [List.foldl_map]
    unfold boundsStep4
    show LimiterState.relaxedBounds _ _ _ (List.foldl _ _ (List.map _ _)) _ = _
    rw [List.foldl_map]
  have hshift : affineShiftAt (description q Z lim) M X i = 0 := by
    unfold affineShiftAt
    rw [uniform_sourceAt hu hi, smul_zero, add_zero, map_sum_zero, smul_zero]
    intro j hj
    rw [uniform_fluxAt hu hi, uniform_fluxAt hu (col_active hM hi hj)]
    show affineShift q.p ⟨U0, z⟩ ⟨U0, z⟩ _ _ = 0
    unfold affineShift
    simp only [wet_star hw, sub_self, smul_zero]
  have hbar : ∀ e ∈ (M.columns i).map col, e.bar q.p = U0 := by
    intro e he
    obtain ⟨j, hj, rfl⟩ := List.mem_map.1 he
    have hj := col_active hM hi hj
    have h1 : (col j).U_star_ij = U0 := by
      show (equilibratedStates q.p (fluxAt (description q Z lim) X i) (fluxAt (description q Z lim) X j)).1 = U0
      rw [uniform_fluxAt hu hi, uniform_fluxAt hu hj]
      exact wet_star hw z
    have h2 : (col j).U_star_ji = U0 := by
      show (equilibratedStates q.p (fluxAt (description q Z lim) X i) (fluxAt (description q Z lim) X j)).2 = U0
      rw [uniform_fluxAt hu hi, uniform_fluxAt hu hj]
      exact wet_star hw z
    have h3 : (col j).shift = 0 := hshift
    unfold Column.bar barState
    rw [h1, h2, h3]
    have h4 : addFlux (f q.p U0) (-f q.p U0) = 0 := by funext k l; simp [addFlux]
    rw [h4]
    funext k
    simp [contract, dot]
    ring
  have hmem : col i ∈ (M.columns i).map col := List.mem_map_of_mem (show i ∈ M.columns i from List.mem_cons_self)
  have h7 := (C07_sw_accumulate_bounds q.p q.big (X.old.U i) ((M.columns i).map col)).1 _ hmem
  obtain ⟨r1, r2, r3, r4, -⟩ := C06_sw_bounds q.p q.lp q.big (M.lumped i * (1 / M.omega)) (X.old.U i) ((M.columns i).map col) heps
    hf hbig (fun e he => by rw [hbar e he]; exact hw.pos.le)
  rw [hbar _ hmem] at h7
  rw [hb]
  exact ⟨r1.trans h7.1, h7.2.1.trans r2, h7.2.2.1.trans r3, h7.2.2.2.trans r4⟩

/-- The limiter accepts a state that the bounds admit if there is nothing to limit. -/
theorem limit_accepts {L : ℕ} (p : Params) (lp : LimiterParams) (heps : 0 ≤ p.eps)
    (hc : 0 < p.reference_water_depth * p.dry_state_relaxation_large * p.eps) (hl : 0 ≤ p.dry_state_relaxation_large * p.eps)
    (hsm : 0 ≤ p.dry_state_relaxation_small * p.eps) (b : Fin L → Bounds) (U0 : State dim) (hw : FlowingWater p U0)
    (hb : ∀ l, AdmitsState p U0 (b l)) (t_min t_max : Fin L → ℝ) :
    (limit p lp b (fun _ => U0) (fun _ => 0) t_min t_max).2 := by
  have hh := hw.pos
  have hdepth : ∀ l, depthInBounds p (b l) (waterDepth U0) := by
    intro l
    rw [depthInBounds_iff p _ _ hc]
    obtain ⟨h1, h2, -, -⟩ := hb l
    have a1 := mul_nonneg hl hh.le
    have a2 := mul_nonneg hl (hh.le.trans h2)
    constructor <;> linarith
  have hfil : filterDryWaterDepth p (waterDepth U0) = waterDepth U0 := by
    unfold filterDryWaterDepth
    rw [abs_of_pos hh]
    unfold maskLt
    exact if_neg (not_lt.2 hw.mollified)
  have hconst : ∀ t : ℝ, U0 + t • (0 : State dim) = U0 := fun t => by rw [smul_zero, add_zero]
  have hkin : ∀ l t, lowerKin p (b l).kin_max U0 0 t ≤ psiKin p (b l).kin_max U0 0 t := by
    intro l t
    unfold lowerKin psiKin
    simp only [hconst, hfil]
    have hk := (hb l).2.2.1
    unfold kineticEnergy at hk
    rw [wet_sharp hw, Euler.normSq_smul] at hk
    have hk0 : 0 ≤ (b l).kin_max := le_trans (mul_nonneg (by positivity) (mul_nonneg (sq_nonneg _) (normSq_nonneg _))) hk
    have e : 1 / 2 * waterDepth U0 * ((1 / waterDepth U0) ^ 2 * normSq (momentum U0)) * waterDepth U0 =
        1 / 2 * normSq (momentum U0) := by field_simp
    have h1 := mul_le_mul_of_nonneg_right hk hh.le
    rw [e] at h1
    have h2 := mul_nonneg hsm (mul_nonneg hh.le hk0)
    have h3 := mul_nonneg hl (mul_nonneg hh.le hk0)
    nlinarith
  have hvel : ∀ l t, lowerVel p (b l).v2_max U0 0 t ≤ psiVel p (b l).v2_max U0 0 t := by
    intro l t
    unfold lowerVel psiVel
    simp only [hconst, hfil]
    have hk := (hb l).2.2.2
    unfold velocitySquare at hk
    rw [Euler.normSq_smul] at hk
    have hm := (mollified_factor p U0).2.2.1 hw.pos hw.mollified
    have hk0 : 0 ≤ (b l).v2_max := le_trans (mul_nonneg (sq_nonneg _) (normSq_nonneg _)) hk
    have h1 := mul_le_mul_of_nonneg_right hk (mul_nonneg hh.le hh.le)
    have e : inverseWaterDepthMollified p U0 ^ 2 * normSq (momentum U0) * (waterDepth U0 * waterDepth U0) =
        normSq (momentum U0) := by
      have : inverseWaterDepthMollified p U0 ^ 2 * normSq (momentum U0) * (waterDepth U0 * waterDepth U0) =
        (inverseWaterDepthMollified p U0 * waterDepth U0) ^ 2 * normSq (momentum U0) := by ring
      rw [this, hm]; ring
    rw [e] at h1
    have h2 := mul_nonneg hsm (mul_nonneg (mul_nonneg hh.le hh.le) hk0)
    have h3 := mul_nonneg hl (mul_nonneg (mul_nonneg hh.le hh.le) hk0)
    nlinarith
  have hv : ∀ (t_l t_r : Fin L → ℝ) (s : Prop), s → (velocityStage p lp b (fun _ => U0) (fun _ => 0) t_l t_r s).2 := by
    intro t_l t_r s hs
    unfold velocityStage
    simp only
    split_ifs
    · exact hs
    · exact newtonOnce_flag.2 ⟨hs, fun l => hvel l _⟩
  unfold limit
  simp only
  split_ifs
  · exact hdepth
  · exact hdepth
  · exact hv _ _ _ (newtonOnce_flag.2 ⟨hdepth, fun l => hkin l _⟩)
  · exact newtonOnce_flag.2 ⟨hdepth, fun l => hkin l _⟩
  · exact hv _ _ _ hdepth

/-- **C103 (shallow water).** On a flat bottom, without friction or at rest, wet uniform flow is left exactly as it is by a step
that returns. -/
theorem C103_sw [Fintype ι] (M : Mesh ι dim) (hM : M.WellFormed)
    (hrow : ∀ i, M.nbrs i ≠ [] → M.c i i + ((M.nbrs i).map (M.c i)).sum = 0) (par : Hyp.Params) (strategy : Strategy)
    (cnt : Counters) (lo : Leftover ι (State dim)) (U0 : State dim) (hw : FlowingWater q.p U0) (z : ℝ)
    (hZ : ∀ i, M.nbrs i ≠ [] → Z i = z) (hs : q.p.manning_friction_coefficient = 0 ∨ momentum U0 = 0)
    (old : StateVector ι Unit (State dim))
    (hold : ∀ i, M.nbrs i ≠ [] → old.U i = U0) (stages : List (ℝ × StateVector ι Unit (State dim)))
    (hstages : ∀ s ∈ stages, ∀ i, M.nbrs i ≠ [] → s.2.U i = U0) (tau tau_max : ℝ) (U : ι → State dim) (t : ℝ)
    (h : (step (description q Z lim) M par strategy cnt lo old stages tau tau_max).1 = .done U t)
    (i : ι) (hi : M.nbrs i ≠ []) : U i = U0 :=
  uniform_step hM (steady q Z lim U0 hw z) hrow (uniform q Z lim M U0 z hZ hs hold)
    (fun s h => uniform q Z lim M U0 z hZ hs (hstages s h)) h hi

end

/-- **C103 (shallow water, no rejection).** And with a row per call the step does return, also if violations raise an
exception. -/
theorem C103_sw_returns [Fintype ι] (q : StepParams) (Z : ι → ℝ) (heps : 0 ≤ q.p.eps) (hf : 0 ≤ q.lp.relaxation_factor)
    (hbig : 0 ≤ q.big) (hc : 0 < q.p.reference_water_depth * q.p.dry_state_relaxation_large * q.p.eps)
    (hl : 0 ≤ q.p.dry_state_relaxation_large * q.p.eps) (hsm : 0 ≤ q.p.dry_state_relaxation_small * q.p.eps)
    (M : Mesh ι dim) (hM : M.WellFormed)
    (hrow : ∀ i, M.nbrs i ≠ [] → M.c i i + ((M.nbrs i).map (M.c i)).sum = 0) (hm : ∀ i, 0 < M.lumped i)
    (par : Hyp.Params) (htiny : 0 < par.tiny) (hcfl : 0 < par.cfl) (strategy : Strategy)
    (cnt : Counters) (lo : Leftover ι (State dim)) (U0 : State dim) (hw : FlowingWater q.p U0) (z : ℝ)
    (hZ : ∀ i, M.nbrs i ≠ [] → Z i = z) (hs : q.p.manning_friction_coefficient = 0 ∨ momentum U0 = 0)
    (old : StateVector ι Unit (State dim))
    (hold : ∀ i, M.nbrs i ≠ [] → old.U i = U0) (stages : List (ℝ × StateVector ι Unit (State dim)))
    (hstages : ∀ s ∈ stages, ∀ i, M.nbrs i ≠ [] → s.2.U i = U0) (tau tau_max : ℝ) (hmax : 0 < tau_max) :
    ∃ U t, step (oneLane q Z) M par strategy cnt lo old stages tau tau_max = (.done U t, cnt) ∧
      ∀ i, M.nbrs i ≠ [] → U i = U0 := by
  have hpos := (C11_step_tau (oneLane q Z) M par strategy cnt lo old stages tau tau_max htiny hcfl hm hmax).1
  have hlim : ∀ i j b, AdmitsState q.p U0 b → ((oneLane (ι := ι) q Z).limit i j b U0 0).2 := fun i j b hb =>
    limit_accepts q.p q.lp heps hc hl hsm (fun _ : Fin 1 => b) U0 hw (fun _ => hb) (fun _ => 0) (fun _ => 1)
  obtain ⟨U, hU⟩ := uniform_not_rejected (strategy := strategy) (cnt := cnt) (tau := tau) hM (steady q Z _ U0 hw z) hrow
    (uniform q Z _ M U0 z hZ hs hold)
    (fun s h => uniform q Z _ M U0 z hZ hs (hstages s h)) (AdmitsState q.p U0)
    (fun a b ha hb => ⟨(min_le_left _ _).trans ha.1, ha.2.1.trans (le_max_left _ _),
      ha.2.2.1.trans (le_max_left _ _), ha.2.2.2.trans (le_max_left _ _)⟩)
    (fun t i hi => uniform_bounds heps hf hbig hM U0 hw z hZ hs (stage4 _ M par lo old stages t) hold par.tiny i hi)
    hlim hpos
  exact ⟨U, _, hU, fun i hi => C103_sw M hM hrow par strategy cnt lo U0 hw z hZ hs old hold stages hstages tau tau_max U _
    (congrArg Prod.fst hU) i hi⟩

/-- Prescribing a characteristic of the state itself changes nothing. -/
theorem prescribe_self (c : Euler.Characteristic) (p : Params) (U : State dim) (n : Vec dim) (hg : 0 < p.gravity)
    (hw : FlowingWater p U) : prescribeRiemannCharacteristic c p U U n = U := by
  have hh := hw.pos
  have hs := wet_sharp hw
  have ha : speedOfSound p U ^ 2 = p.gravity * waterDepth U := Real.sq_sqrt (by positivity)
  have e1 : ∀ v : ℝ, ((v + 2 * speedOfSound p U - (v - 2 * speedOfSound p U)) / 4) ^ 2 / p.gravity = waterDepth U := by
    intro v
    have : (v + 2 * speedOfSound p U - (v - 2 * speedOfSound p U)) / 4 = speedOfSound p U := by ring
    rw [this, ha]; field_simp
  have e2 : ∀ v : ℝ, 1 / 2 * (v - 2 * speedOfSound p U + (v + 2 * speedOfSound p U)) = v := fun v => by ring
  have hV : prescribeRiemannCharacteristic c p U U n = mkState (waterDepth U) (fun i => waterDepth U *
      (dot (momentum U) n * inverseWaterDepthSharp p U * n i + (momentum U i * inverseWaterDepthSharp p U -
        dot (momentum U) n * inverseWaterDepthSharp p U * n i))) := by
    cases c <;> simp only [prescribeRiemannCharacteristic, e1, e2]
  rw [hV]
  funext k
  refine Fin.cases ?_ (fun k => ?_) k
  · rfl
  · show waterDepth U * (_ + _) = momentum U k
    rw [hs]; field_simp; ring

/-- **C103 (shallow water, boundary conditions).** Which boundary conditions keep a uniform state, if the boundary data are that
state. -/
theorem C103_sw_boundary (p : Params) (hg : 0 < p.gravity) (U0 : State dim) (hw : FlowingWater p U0)
    (id : Boundary) (n : Vec dim) (hslip : id = .slip → dot (momentum U0) n = 0)
    (hnoslip : id = .noSlip → momentum U0 = 0) : applyBoundaryConditions p id U0 n U0 = U0 := by
  cases id with
  | slip =>
    have := hslip rfl
    funext k
    refine Fin.cases ?_ (fun k => ?_) k
    · rfl
    · show momentum U0 k - 1 * dot (momentum U0) n * n k = _
      rw [this]; ring_nf; rfl
  | noSlip =>
    have := hnoslip rfl
    funext k
    refine Fin.cases ?_ (fun k => ?_) k
    · rfl
    · exact (congrFun this k).symm
  | dirichletMomentum =>
    funext k
    refine Fin.cases ?_ (fun k => ?_) k <;> rfl
  | dynamic =>
    unfold applyBoundaryConditions
    simp only [prescribe_self _ p U0 n hg hw, ite_self]
  | _ => rfl

end ShallowWater

/-! ### Complete runs -/

open Integrator (Ctx Scheme Recovery Mem Run Res hyperbolicModules schemeAccepted passBc)
open Integrator.Slot in
/-- A uniform state kept by the boundary pass is kept by every run with an explicit scheme. -/
theorem uniform_run {S F B Id : Type} [AddCommGroup S] [Module ℝ S] [Fintype ι] {D : Description ι Unit S F B dim}
    {M : Mesh ι dim} (hM : M.WellFormed) {U0 : S} {f0 : F} {G : Vec dim →ₗ[ℝ] S} (hD : Steady D U0 f0 G)
    (hrow : ∀ i, M.nbrs i ≠ [] → M.c i i + ((M.nbrs i).map (M.c i)).sum = 0)
    (hU : ∀ x : StateVector ι Unit S, (∀ i, M.nbrs i ≠ [] → x.U i = U0) → Uniform D M U0 f0 x) (par : Hyp.Params)
    (A : Prepare.System S Id dim) (data : Vec dim → ℝ → S) (map : List (Prepare.Entry ι Id dim))
    (hmap : ∀ e ∈ map, ∀ t W', A.apply e.id U0 e.normal (data e.position t) = some W' → W' = U0)
    (big : ℝ) (lo : ℕ → Leftover ι S) (garbage : ℕ → ι → S)
    (parabolic : Ctx → ℕ → (ι → S) → ℝ → (ι → S) → ℝ → Res (ι → S))
    (sch : Scheme) (hsch : schemeAccepted true sch) (rec : Recovery) (cflMin cflMax : ℝ) (m m' : Mem (ι → S) Unit)
    (h : Run (hyperbolicModules D M par big (passBc A data map) (fun _ => ()) lo garbage parabolic) sch rec cflMin cflMax
      (fun _ _ => True) m m')
    (h0 : ∀ i, M.nbrs i ≠ [] → (m old).U i = U0) (i : ι) (hi : M.nbrs i ≠ []) : (m' old).U i = U0 := by
  let K : Set (ι → S) := {u | ∀ i, M.nbrs i ≠ [] → u i = U0}
  have hK : Convex ℝ K := by
    intro x hx y hy α β _ _ hαβ i hi
    show α • x i + β • y i = U0
    rw [hx i hi, hy i hi, ← add_smul, hαβ, one_smul]
  refine Integrator.C90_run_invariant _ K hK (fun _ => True) ?_ ?_ sch hsch rec cflMin cflMax m m' h0 h i hi
  · intro t u hu i hi
    exact Integrator.passBc_keeps A data map t u (fun V => V = U0) (fun e he W W' hW hW' => hmap e he t W' (hW ▸ hW')) i (hu i hi)
  · intro ctx _ n src st dst tau cap u τ hsrc hst hh i hi
    refine uniform_step hM hD hrow (hU ⟨src.U, src.prec⟩ hsrc) ?_ (Integrator.hyp_ok hh) hi
    intro s hs
    obtain ⟨a, ha, rfl⟩ := List.mem_map.1 hs
    exact hU ⟨a.2.U, a.2.prec⟩ (hst a ha)

open Integrator (Ctx Scheme Recovery Mem Run Res hyperbolicModules schemeAccepted passBc)
open Integrator.Slot in
/-- **C103 (scalar equations, complete runs).** After any number of time steps with any explicit scheme and any recoveries a
constant solution with the same boundary data is still that constant. -/
theorem C103_scalar_run [Fintype ι] (fl : Scalar.Flux dim) (q : Scalar.StepParams) (draws : ι → ι → List ℝ)
    (lim : ι → ι → Scalar.Bounds → Scalar.State → Scalar.State → ℝ × Prop) (M : Mesh ι dim) (hM : M.WellFormed)
    (hrow : ∀ i, M.nbrs i ≠ [] → M.c i i + ((M.nbrs i).map (M.c i)).sum = 0) (par : Hyp.Params) (U0 : Scalar.State)
    (data : Vec dim → ℝ → Scalar.State) (map : List (Prepare.Entry ι Scalar.Boundary dim))
    (hdata : ∀ e ∈ map, ∀ t, data e.position t = U0)
    (big : ℝ) (lo : ℕ → Leftover ι Scalar.State) (garbage : ℕ → ι → Scalar.State)
    (parabolic : Ctx → ℕ → (ι → Scalar.State) → ℝ → (ι → Scalar.State) → ℝ → Res (ι → Scalar.State))
    (sch : Scheme) (hsch : schemeAccepted true sch) (rec : Recovery) (cflMin cflMax : ℝ) (m m' : Mem (ι → Scalar.State) Unit)
    (h : Run (hyperbolicModules (Scalar.description fl q draws lim) M par big (passBc Prepare.scalar data map) (fun _ => ()) lo
      garbage parabolic) sch rec cflMin cflMax (fun _ _ => True) m m')
    (h0 : ∀ i, M.nbrs i ≠ [] → (m old).U i = U0) (i : ι) (hi : M.nbrs i ≠ []) : (m' old).U i = U0 := by
  refine uniform_run hM (Scalar.steady fl q draws lim U0) hrow (fun x hx => Scalar.uniform fl q draws lim M U0 hx) par
    Prepare.scalar data map ?_ big lo garbage parabolic sch hsch rec cflMin cflMax m m' h h0 i hi
  intro e he t W' hW'
  rw [hdata e he t] at hW'
  simp only [Prepare.scalar] at hW'
  unfold Scalar.applyBoundaryConditions at hW'
  split at hW' <;> first | exact (Option.some.inj hW').symm | cases hW'

open Integrator (Ctx Scheme Recovery Mem Run Res hyperbolicModules schemeAccepted passBc)
open Integrator.Slot in
/-- **C103 (Euler, complete runs).** A uniform flow with matching boundary data, tangential to slip boundaries and at rest if there
is a no-slip boundary, is still that uniform flow after any number of time steps. -/
theorem C103_euler_run [Fintype ι] (p : Euler.Params) (hg : 1 < p.gamma) (lp : LimiterParams) (big' : ℝ)
    (riem : ι → ι → Euler.State dim → Euler.State dim → Vec dim → ℝ)
    (ind : Euler.State dim → List (Euler.State dim × Vec dim) → ℝ → ℝ)
    (lim : ι → ι → Euler.Bounds → Euler.State dim → Euler.State dim → ℝ × Prop) (M : Mesh ι dim) (hM : M.WellFormed)
    (hrow : ∀ i, M.nbrs i ≠ [] → M.c i i + ((M.nbrs i).map (M.c i)).sum = 0) (par : Hyp.Params) (U0 : Euler.State dim)
    (hρ : 0 < Euler.density U0) (hpr : 0 < Euler.pressure p U0)
    (data : Vec dim → ℝ → Euler.State dim) (map : List (Prepare.Entry ι Euler.Boundary dim))
    (hdata : ∀ e ∈ map, (∀ t, data e.position t = U0) ∧ normSq e.normal = 1 ∧
      (e.id = .slip → dot (Euler.momentum U0) e.normal = 0) ∧ (e.id = .noSlip → Euler.momentum U0 = 0))
    (big : ℝ) (lo : ℕ → Leftover ι (Euler.State dim)) (garbage : ℕ → ι → Euler.State dim)
    (parabolic : Ctx → ℕ → (ι → Euler.State dim) → ℝ → (ι → Euler.State dim) → ℝ → Res (ι → Euler.State dim))
    (sch : Scheme) (hsch : schemeAccepted true sch) (rec : Recovery) (cflMin cflMax : ℝ) (m m' : Mem (ι → Euler.State dim) Unit)
    (h : Run (hyperbolicModules (Euler.description p lp big' riem ind lim) M par big (passBc (Prepare.euler p) data map)
      (fun _ => ()) lo garbage parabolic) sch rec cflMin cflMax (fun _ _ => True) m m')
    (h0 : ∀ i, M.nbrs i ≠ [] → (m old).U i = U0) (i : ι) (hi : M.nbrs i ≠ []) : (m' old).U i = U0 := by
  refine uniform_run hM (Euler.steady p lp big' riem ind lim U0) hrow (fun x hx => Euler.uniform p lp big' riem ind lim M U0 hx) par
    (Prepare.euler p) data map ?_ big lo garbage parabolic sch hsch rec cflMin cflMax m m' h h0 i hi
  intro e he t W' hW'
  obtain ⟨hd, hn, hs, hns⟩ := hdata e he
  rw [hd t] at hW'
  rw [← Option.some.inj hW']
  exact Euler.C103_euler_boundary p hg U0 hρ hpr e.id e.normal hn hs hns

open Integrator (Ctx Scheme Recovery Mem Run Res hyperbolicModules schemeAccepted passBc)
open Integrator.Slot in
/-- **C103 (shallow water, complete runs).** The same for wet uniform flow over a flat bottom. -/
theorem C103_sw_run [Fintype ι] (q : ShallowWater.StepParams) (hg : 0 < q.p.gravity) (Z : ι → ℝ)
    (lim : ι → ι → ShallowWater.Bounds → ShallowWater.State dim → ShallowWater.State dim → ℝ × Prop)
    (M : Mesh ι dim) (hM : M.WellFormed)
    (hrow : ∀ i, M.nbrs i ≠ [] → M.c i i + ((M.nbrs i).map (M.c i)).sum = 0) (par : Hyp.Params) (U0 : ShallowWater.State dim)
    (hw : ShallowWater.FlowingWater q.p U0) (z : ℝ) (hZ : ∀ i, M.nbrs i ≠ [] → Z i = z)
    (hs : q.p.manning_friction_coefficient = 0 ∨ ShallowWater.momentum U0 = 0)
    (data : Vec dim → ℝ → ShallowWater.State dim) (map : List (Prepare.Entry ι ShallowWater.Boundary dim))
    (hdata : ∀ e ∈ map, (∀ t, data e.position t = U0) ∧
      (e.id = .slip → dot (ShallowWater.momentum U0) e.normal = 0) ∧ (e.id = .noSlip → ShallowWater.momentum U0 = 0))
    (big : ℝ) (lo : ℕ → Leftover ι (ShallowWater.State dim)) (garbage : ℕ → ι → ShallowWater.State dim)
    (parabolic : Ctx → ℕ → (ι → ShallowWater.State dim) → ℝ → (ι → ShallowWater.State dim) → ℝ → Res (ι → ShallowWater.State dim))
    (sch : Scheme) (hsch : schemeAccepted true sch) (rec : Recovery) (cflMin cflMax : ℝ)
    (m m' : Mem (ι → ShallowWater.State dim) Unit)
    (h : Run (hyperbolicModules (ShallowWater.description q Z lim) M par big (passBc (Prepare.shallowWater q.p) data map)
      (fun _ => ()) lo garbage parabolic) sch rec cflMin cflMax (fun _ _ => True) m m')
    (h0 : ∀ i, M.nbrs i ≠ [] → (m old).U i = U0) (i : ι) (hi : M.nbrs i ≠ []) : (m' old).U i = U0 := by
  refine uniform_run hM (ShallowWater.steady q Z lim U0 hw z) hrow (fun x hx => ShallowWater.uniform q Z lim M U0 z hZ hs hx) par
    (Prepare.shallowWater q.p) data map ?_ big lo garbage parabolic sch hsch rec cflMin cflMax m m' h h0 i hi
  intro e he t W' hW'
  obtain ⟨hd, hs, hns⟩ := hdata e he
  rw [hd t] at hW'
  rw [← Option.some.inj hW']
  exact ShallowWater.C103_sw_boundary q.p hg U0 hw e.id e.normal hs hns

/-! ### Concrete cases -/

/-- Burgers' equation with the value `2`, the stages with arbitrary weights, any time-step size and any leftovers. -/
example (lo : Leftover (Fin 3) Scalar.State) (a b tau : ℝ) :
    ∃ U t, step (Scalar.oneLane (Scalar.burgers 1 (1 / 1000)) ⟨⟨false, false⟩, 1, 1 / 1000, 1 / 1000, 100, 1⟩ fun _ _ => []) ring
      demoPar .raise_exception ⟨0, 0⟩ lo ⟨fun _ _ => 2, ()⟩ [(a, ⟨fun _ _ => 2, ()⟩), (b, ⟨fun _ _ => 2, ()⟩)] tau 10 =
        (.done U t, ⟨0, 0⟩) ∧ ∀ i, ring.nbrs i ≠ [] → U i = fun _ => 2 :=
  Scalar.C103_scalar_returns _ _ (by norm_num) (by norm_num) _ ring ring_wf (fun i _ => Scalar.ring_row_sum i) ring_closed.lumped
    demoPar (by norm_num [demoPar]) (by norm_num [demoPar]) _ _ lo (fun _ => 2) _ (fun _ _ => rfl) _
    (fun s hs i _ => by rcases List.mem_cons.1 hs with rfl | hs <;> [rfl; (rw [List.mem_singleton.1 hs])]) tau 10 (by norm_num)

/-- Gas with density `1`, momentum `3` and energy `7` – supersonic flow – and a run of it with a matching dynamic boundary. -/
example (m : Integrator.Mem (Fin 3 → Euler.State 1) Unit)
    (hm : (m .old).U = fun _ => Euler.mkState 1 (fun _ => 3) 7) (lo : ℕ → Leftover (Fin 3) (Euler.State 1))
    (garbage : ℕ → Fin 3 → Euler.State 1) : ∃ m',
    Integrator.Run (Integrator.hyperbolicModules (Euler.oneLane ⟨7 / 5, 1, 100, 10000, 1 / 10 ^ 6⟩ ⟨2, 0, 0⟩ ⟨0, 0, 0⟩ 1 1000) ring
      demoPar 1000 (Integrator.passBc (Prepare.euler ⟨7 / 5, 1, 100, 10000, 1 / 10 ^ 6⟩) (fun _ _ => Euler.mkState 1 (fun _ => 3) 7)
        [⟨0, fun _ => 1, .dynamic, 0⟩]) (fun _ => ()) lo garbage fun _ _ _ _ _ _ => .crash)
      .erk_11 .none 1 1 (fun _ _ => True) m m' ∧ ∀ i, (m' .old).U i = Euler.mkState 1 (fun _ => 3) 7 := by
  set p : Euler.Params := ⟨7 / 5, 1, 100, 10000, 1 / 10 ^ 6⟩ with hp
  set U0 : Euler.State 1 := Euler.mkState 1 (fun _ => 3) 7 with hU0
  have hρ : 0 < Euler.density U0 := by simp [hU0]
  have hpr : 0 < Euler.pressure p U0 := by
    rw [Euler.pressure_eq]; simp only [hU0, Euler.totalEnergy_mkState, Euler.momentum_mkState, Euler.density_mkState]
    norm_num [hp, normSq]
  have hdata : ∀ e ∈ [(⟨0, fun _ => 1, .dynamic, 0⟩ : Prepare.Entry (Fin 3) Euler.Boundary 1)],
      (∀ _ : ℝ, U0 = U0) ∧ normSq e.normal = 1 ∧
      (e.id = .slip → dot (Euler.momentum U0) e.normal = 0) ∧ (e.id = .noSlip → Euler.momentum U0 = 0) := by
    intro e he
    rw [List.mem_singleton.1 he]
    exact ⟨fun _ => rfl, by norm_num [normSq], by rintro ⟨⟩, by rintro ⟨⟩⟩
  set Mo := Integrator.hyperbolicModules (Euler.oneLane p ⟨2, 0, 0⟩ ⟨0, 0, 0⟩ 1 1000) ring
      demoPar 1000 (Integrator.passBc (Prepare.euler p) (fun _ _ => U0)
        [⟨0, fun _ => 1, .dynamic, 0⟩]) (fun _ => ()) lo garbage (fun _ _ _ _ _ _ => .crash) with hMo
  have hb : ∀ i, Mo.bc 0 (m .old).U i = U0 := fun i =>
    Integrator.passBc_keeps (Prepare.euler p) (fun _ _ => U0) [⟨0, fun _ => 1, .dynamic, 0⟩] 0 (m .old).U (fun V => V = U0)
      (fun e he W W' hW hW' => by
        obtain ⟨_, hn, hs, hns⟩ := hdata e he
        subst hW
        rw [← Option.some.inj hW']
        exact Euler.C103_euler_boundary p (by norm_num [hp]) _ hρ hpr e.id e.normal hn hs hns) i (by rw [hm])
  obtain ⟨U, t, h, -⟩ := Euler.C103_euler_returns p ⟨2, 0, 0⟩ ⟨0, 0, 0⟩ 1 1000 (by norm_num [hp]) le_rfl (by norm_num)
    (by norm_num [hp]) (by norm_num [hp]) (by norm_num [hp]) ring ring_wf (fun i _ => Scalar.ring_row_sum i) ring_closed.lumped
    (fun i => by simp [Euler.relaxationRadius]) ⟨1 / 2, demoPar.tiny, demoPar.iterations⟩ (by norm_num [demoPar]) (by norm_num)
    .raise_exception ⟨0, 0⟩
    { lo 0 with newU := (m (.temp 0)).U } U0 hρ (by simp [hU0, Euler.internalEnergy, normSq]; norm_num) ⟨Mo.bc 0 (m .old).U, ()⟩
    (fun i _ => hb i) [] (fun s hs => by cases hs) 0 10 (by norm_num)
  have hup : Mo.hyp ⟨1 / 2, .raise_exception, .raise_exception⟩ 0 ⟨Mo.bc 0 (m .old).U, Mo.pre (Mo.bc 0 (m .old).U)⟩ []
      (m (.temp 0)).U 0 (some (10 - 0)) = .ok U t := by
    simp only [hMo, Integrator.hyperbolicModules] at h ⊢
    simp only [sub_zero, Option.getD_some, List.map_nil, h]
  obtain ⟨m', hrun, -⟩ := Integrator.run_of_update (ok := fun _ _ => True) 1 1 hup (fun _ _ => trivial)
  refine ⟨m', hrun, fun i => ?_⟩
  exact C103_euler_run p (by norm_num [hp]) _ _ _ _ _ ring ring_wf (fun i _ => Scalar.ring_row_sum i) demoPar U0 hρ hpr
    (fun _ _ => U0) _ hdata 1000 lo garbage _ .erk_11 rfl .none 1 1 m m' hrun (fun i _ => by rw [hm]) i (by simp [ring])

/-- A stream with depth `2` and momentum `1` without friction. -/
example (lo : Leftover (Fin 3) (ShallowWater.State 1)) (tau : ℝ) :
    ∃ U t, step (ShallowWater.oneLane ⟨⟨10, 0, 1, 1, 100, 10000, 1 / 10 ^ 6, 1 / 1000⟩, ⟨0, 1, true, true⟩, 1, 1000⟩ fun _ => 4) ring
      demoPar .raise_exception ⟨0, 0⟩ lo ⟨fun _ => ShallowWater.mkState 2 (fun _ => 1), ()⟩ [] tau 10 =
        (.done U t, ⟨0, 0⟩) ∧ ∀ i, ring.nbrs i ≠ [] → U i = ShallowWater.mkState 2 (fun _ => 1) :=
  ShallowWater.C103_sw_returns _ _ (by norm_num) (by norm_num) (by norm_num) (by norm_num) (by norm_num) (by norm_num) ring ring_wf
    (fun i _ => Scalar.ring_row_sum i) ring_closed.lumped
    demoPar (by norm_num [demoPar]) (by norm_num [demoPar]) _ _ lo (ShallowWater.mkState 2 (fun _ => 1))
    ⟨by simp [ShallowWater.waterDepth, ShallowWater.mkState],
      by norm_num [ShallowWater.waterDepth, ShallowWater.mkState, ShallowWater.cutoffMollified],
      by norm_num [ShallowWater.waterDepth, ShallowWater.mkState, ShallowWater.cutoffSharp]⟩ 4 (fun _ _ => rfl) (Or.inl rfl) _
    (fun _ _ => rfl) _ (fun s hs => by cases hs) tau 10 (by norm_num)

end

end Ryujin
