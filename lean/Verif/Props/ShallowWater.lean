import Verif.Proofs.ShallowWater
import Verif.Proofs.ShallowWaterRiemann
import Verif.Spec.ShallowWaterRiemann
import Mathlib.Analysis.SpecialFunctions.Pow.Real

/-!
# C08, C09, C10, C35, C36, C37, C39, C40, C56 for the shallow water equations
-/

namespace Ryujin
namespace ShallowWater

variable {dim : ℕ}

/-- The dry threshold of the sharp regularisation, `reference_water_depth * small * eps`. -/
noncomputable def cutoffSharp (p : Params) : ℝ :=
  p.reference_water_depth * p.dry_state_relaxation_small * p.eps

/-- The dry threshold of the mollified regularisation, `reference_water_depth * large * eps`. -/
noncomputable def cutoffMollified (p : Params) : ℝ :=
  p.reference_water_depth * p.dry_state_relaxation_large * p.eps

/-! ### C08 -/

/-- **C08 (shallow water).** -/
theorem C08_sw_indicator (p : Params) (evc_factor hd_i : ℝ) (U_i : State dim)
    (row : List (State dim × Vec dim)) (htiny : 0 ≤ p.tiny) (hevc : 0 ≤ evc_factor) :
    0 ≤ indicator p evc_factor hd_i U_i row ∧ indicator p evc_factor hd_i U_i row ≤ 1 := by
  unfold indicator IndicatorState.alpha
  refine ⟨le_min zero_le_one ?_, min_le_left _ _⟩
  apply mul_nonneg hevc
  apply div_nonneg (abs_nonneg _)
  have : ∀ x : ℝ, 0 ≤ max x (100 * p.tiny) := fun x => le_trans (by positivity) (le_max_right _ _)
  exact add_nonneg (by positivity) (this _)

theorem dot_sum_right {n : ℕ} (a : Vec n) (l : List (Vec n)) : dot a l.sum = (l.map (dot a)).sum := by
  induction l with
  | nil => simp [dot]
  | cons x l ih =>
    rw [List.sum_cons, List.map_cons, List.sum_cons, ← ih]
    simp [dot, mul_add, Finset.sum_add_distrib]

/-- **C08 (shallow water, constant states).** On a constant stencil with `∑_j c_ij = 0` the indicator
vanishes. -/
theorem C08_sw_indicator_constant (p : Params) (evc_factor hd_i : ℝ) (U_i : State dim)
    (row : List (State dim × Vec dim)) (hrow : ∀ e ∈ row, e.1 = U_i)
    (hc : (row.map Prod.snd).sum = 0) :
    indicator p evc_factor hd_i U_i row = 0 := by
  have key : ∀ (row : List (State dim × Vec dim)) (st : IndicatorState dim), st.f_i = f p U_i →
      (∀ e ∈ row, e.1 = U_i) →
      (row.foldl (fun st e => st.accumulate p e.1 e.2) st).left = st.left +
        (mathematicalEntropy p U_i + pressure p U_i) *
          dot (inverseWaterDepthSharp p U_i • momentum U_i) (row.map Prod.snd).sum ∧
      (row.foldl (fun st e => st.accumulate p e.1 e.2) st).right = st.right := by
    intro row
    induction row with
    | nil => intro st _ _; simp [dot]
    | cons a l ih =>
      intro st hf hr
      have ha := hr a List.mem_cons_self
      obtain ⟨h1, h2⟩ := ih (st.accumulate p a.1 a.2) hf
        (fun e he => hr e (List.mem_cons_of_mem _ he))
      rw [List.foldl_cons, h1, h2]
      constructor
      · simp only [IndicatorState.accumulate, ha, List.map_cons, List.sum_cons, dot_add_right]
        ring
      · funext k
        simp [IndicatorState.accumulate, ha, hf, dot]
  obtain ⟨h1, h2⟩ := key row (IndicatorState.reset p U_i) rfl hrow
  unfold indicator IndicatorState.alpha
  simp only [h1, h2, hc]
  simp [IndicatorState.reset, dot]

/-! ### C09 and C56 -/

/-- The Riemann data of a state are valid. -/
theorem riemannData_valid (p : Params) (U : State dim) (n : Vec dim)
    (h : 0 < waterDepthSharp p U) : (riemannDataFromState p U n).Valid p.gravity :=
  ⟨h, by simp [riemannDataFromState, mul_comm]⟩

/-- **C09 (shallow water).** The computed wave speed is nonnegative and dominates the characteristic
speeds of the two states; here with the regularised depth `max(h, cutoff)`, for all states including dry
ones. -/
theorem C09_sw_characteristic (p : Params) (U_i U_j : State dim) (n : Vec dim)
    (hi : 0 < waterDepthSharp p U_i) (hj : 0 < waterDepthSharp p U_j) :
    let v : State dim → ℝ := fun U => dot n (fun k => momentum U k / waterDepthSharp p U)
    let a : State dim → ℝ := fun U => √(p.gravity * waterDepthSharp p U)
    0 ≤ riemann p U_i U_j n ∧ -(v U_i - a U_i) ≤ riemann p U_i U_j n ∧
      v U_j + a U_j ≤ riemann p U_i U_j n := by
  intro v a
  have h1 : computeLambda (riemannDataFromState p U_i n) (riemannDataFromState p U_j n)
      (min (waterDepthSharp p U_i) (waterDepthSharp p U_j)) ≤ riemann p U_i U_j n :=
    computeLambda_mono hi hj (Real.sqrt_nonneg _) (Real.sqrt_nonneg _) (Or.inr le_rfl)
  have e1 : positivePart ((min (waterDepthSharp p U_i) (waterDepthSharp p U_j) - waterDepthSharp p U_i)
      / waterDepthSharp p U_i) = 0 :=
    positivePart_of_nonpos (div_nonpos_of_nonpos_of_nonneg
      (by have := min_le_left (waterDepthSharp p U_i) (waterDepthSharp p U_j); linarith) hi.le)
  have e2 : positivePart ((min (waterDepthSharp p U_i) (waterDepthSharp p U_j) - waterDepthSharp p U_j)
      / waterDepthSharp p U_j) = 0 :=
    positivePart_of_nonpos (div_nonpos_of_nonpos_of_nonneg
      (by have := min_le_right (waterDepthSharp p U_i) (waterDepthSharp p U_j); linarith) hj.le)
  have e3 : lambda1Minus (riemannDataFromState p U_i n)
      (min (waterDepthSharp p U_i) (waterDepthSharp p U_j)) = v U_i - a U_i := by
    simp only [lambda1Minus, riemannDataFromState, e1]
    simp [v, a, mul_comm]
  have e4 : lambda3Plus (riemannDataFromState p U_j n)
      (min (waterDepthSharp p U_i) (waterDepthSharp p U_j)) = v U_j + a U_j := by
    simp only [lambda3Plus, riemannDataFromState, e2]
    simp [v, a, mul_comm]
  unfold computeLambda at h1
  rw [e3, e4, negativePart_eq_max, positivePart_eq_max] at h1
  exact ⟨((le_max_left _ _).trans (le_max_left _ _)).trans h1,
    ((le_max_right _ _).trans (le_max_left _ _)).trans h1,
    ((le_max_right _ _).trans (le_max_right _ _)).trans h1⟩

/-- **C09 (shallow water, wet states).** In terms of the physical depth and velocity. -/
theorem C09_sw_characteristic_wet (p : Params) (U_i U_j : State dim) (n : Vec dim)
    (hi : 0 < waterDepth U_i) (hj : 0 < waterDepth U_j)
    (hci : cutoffSharp p ≤ waterDepth U_i) (hcj : cutoffSharp p ≤ waterDepth U_j) :
    0 ≤ riemann p U_i U_j n ∧
      -(dot n (momentum U_i) / waterDepth U_i - √(p.gravity * waterDepth U_i)) ≤ riemann p U_i U_j n ∧
      dot n (momentum U_j) / waterDepth U_j + √(p.gravity * waterDepth U_j) ≤ riemann p U_i U_j n := by
  have ei : waterDepthSharp p U_i = waterDepth U_i := max_eq_left hci
  have ej : waterDepthSharp p U_j = waterDepth U_j := max_eq_left hcj
  have := C09_sw_characteristic p U_i U_j n (by rwa [ei]) (by rwa [ej])
  simp only [ei, ej] at this
  have e : ∀ (m : Vec dim) (h : ℝ), dot n (fun k => m k / h) = dot n m / h := by
    intro m h
    simp only [dot, Finset.sum_div]
    exact Finset.sum_congr rfl (fun _ _ => by ring)
  rw [e, e] at this
  exact this

theorem swWave_eq {g : ℝ} {z : RiemannData} (hz : z.Valid g) (h : ℝ) :
    Spec.swWave g z.h h = riemannF g z h := by
  unfold Spec.swWave riemannF
  simp only [hz.a_eq]
  split
  · rfl
  · congr 2; ring

theorem swSpeedFactor_eq {h_K h : ℝ} (hK : 0 < h_K) :
    Spec.swSpeedFactor h_K h
      = √((1 + 1 / 2 * positivePart ((h - h_K) / h_K)) * (1 + positivePart ((h - h_K) / h_K))) := by
  unfold Spec.swSpeedFactor
  split
  · rename_i hle
    rw [positivePart_of_nonpos (div_nonpos_of_nonpos_of_nonneg (by linarith) hK.le)]; simp
  · rename_i hlt
    push Not at hlt
    rw [positivePart_of_nonneg (div_nonneg (by linarith) hK.le)]
    congr 1
    field_simp; ring

/-- **C56.** For two wet states the computed wave speed bounds the modulus of *every* wave speed of the
exact solution of the Riemann problem: if `h*` is the depth of its star region then the left-most wave
moves at a speed of at least `-λ` and the right-most one at a speed of at most `λ` (although the first
of the three branches of `compute_h_star` is dead code). -/
theorem C56_sw_max_wavespeed (p : Params) (U_i U_j : State dim) (n : Vec dim) (hg : 0 < p.gravity)
    (hi : 0 < waterDepth U_i) (hj : 0 < waterDepth U_j)
    (hci : cutoffSharp p ≤ waterDepth U_i) (hcj : cutoffSharp p ≤ waterDepth U_j) (h_star : ℝ)
    (hstar : Spec.IsStarDepth p.gravity (waterDepth U_i) (dot n (momentum U_i) / waterDepth U_i)
      (waterDepth U_j) (dot n (momentum U_j) / waterDepth U_j) h_star) :
    -riemann p U_i U_j n ≤ Spec.swLeftSpeed p.gravity (waterDepth U_i)
        (dot n (momentum U_i) / waterDepth U_i) h_star ∧
      Spec.swRightSpeed p.gravity (waterDepth U_j)
        (dot n (momentum U_j) / waterDepth U_j) h_star ≤ riemann p U_i U_j n := by
  have ei : waterDepthSharp p U_i = waterDepth U_i := max_eq_left hci
  have ej : waterDepthSharp p U_j = waterDepth U_j := max_eq_left hcj
  have e : ∀ (m : Vec dim) (h : ℝ), dot n (fun k => m k / h) = dot n m / h := by
    intro m h
    simp only [dot, Finset.sum_div]
    exact Finset.sum_congr rfl (fun _ _ => by ring)
  set i := riemannDataFromState p U_i n with hidef
  set j := riemannDataFromState p U_j n with hjdef
  have vi : i.Valid p.gravity := riemannData_valid p U_i n (by rwa [ei])
  have vj : j.Valid p.gravity := riemannData_valid p U_j n (by rwa [ej])
  have hih : i.h = waterDepth U_i := ei
  have hjh : j.h = waterDepth U_j := ej
  have hiu : i.u = dot n (momentum U_i) / waterDepth U_i := by
    rw [← ei]; exact e _ _
  have hju : j.u = dot n (momentum U_j) / waterDepth U_j := by
    rw [← ej]; exact e _ _
  obtain ⟨hpos, hroot⟩ := hstar
  rw [← hiu, ← hju, ← hih, ← hjh, swWave_eq vi, swWave_eq vj] at hroot
  have hphi : phi p.gravity i j h_star ≤ 0 := by unfold phi; linarith
  have hmono : computeLambda i j h_star ≤ riemann p U_i U_j n := by
    refine computeLambda_mono vi.h_pos vj.h_pos ?_ ?_ ?_
    · rw [vi.a_eq]; exact Real.sqrt_nonneg _
    · rw [vj.a_eq]; exact Real.sqrt_nonneg _
    · rcases le_total (min i.h j.h) h_star with h' | h'
      · exact Or.inl (le_computeHStar hg vi vj h' hphi)
      · exact Or.inr h'
  unfold computeLambda at hmono
  rw [negativePart_eq_max, positivePart_eq_max] at hmono
  have h1 := ((le_max_right _ _).trans (le_max_left _ _)).trans hmono
  have h2 := ((le_max_right _ _).trans (le_max_right _ _)).trans hmono
  constructor
  · have : lambda1Minus i h_star = Spec.swLeftSpeed p.gravity i.h i.u h_star := by
      unfold lambda1Minus Spec.swLeftSpeed
      rw [swSpeedFactor_eq vi.h_pos, vi.a_eq]
    rw [← hiu, ← hih, ← this]; linarith
  · have : lambda3Plus j h_star = Spec.swRightSpeed p.gravity j.h j.u h_star := by
      unfold lambda3Plus Spec.swRightSpeed
      rw [swSpeedFactor_eq vj.h_pos, vj.a_eq]
    rw [← hju, ← hjh, ← this]; exact h2

/-- The star depth is dominated by the estimate used by the code. -/
theorem C56_sw_h_star_bound (g : ℝ) (i j : RiemannData) (hg : 0 < g) (hi : i.Valid g) (hj : j.Valid g)
    (h_star : ℝ) (hstar : Spec.IsStarDepth g i.h i.u j.h j.u h_star) (hmin : min i.h j.h ≤ h_star) :
    h_star ≤ computeHStar g i j := by
  refine le_computeHStar hg hi hj hmin ?_
  have := hstar.2
  rw [swWave_eq hi, swWave_eq hj] at this
  unfold phi; linarith

/-- Example: a Riemann problem with two shocks has a star depth. -/
example : Spec.IsStarDepth 1 1 (√(3 / 4)) 1 (-√(3 / 4)) 2 := by
  refine ⟨by norm_num, ?_⟩
  norm_num [Spec.swWave]

/-! ### C10 -/

/-- **C10 (shallow water).** -/
theorem C10_sw_swap (p : Params) (U_i U_j : State dim) (n : Vec dim) :
    riemann p U_i U_j n = riemann p U_j U_i (-n) := by
  have e : ∀ U : State dim, riemannDataFromState p U (-n)
      = ⟨(riemannDataFromState p U n).h, -(riemannDataFromState p U n).u,
        (riemannDataFromState p U n).a⟩ := by
    intro U
    simp [riemannDataFromState, dot]
  unfold riemann
  rw [e, e]
  generalize riemannDataFromState p U_i n = i
  generalize riemannDataFromState p U_j n = j
  have eh : computeHStar p.gravity i j = computeHStar p.gravity ⟨j.h, -j.u, j.a⟩ ⟨i.h, -i.u, i.a⟩ := by
    unfold computeHStar hStarMiddle hStarRight
    simp only [← phi_swap, min_comm j.h i.h, max_comm j.h i.h]
    ring_nf
  unfold riemannCompute
  rw [← eh]
  have hneg : ∀ x : ℝ, negativePart x = positivePart (-x) := fun x => by
    rw [negativePart_eq_max, positivePart_eq_max]
  unfold computeLambda
  rw [max_comm, hneg, hneg]
  congr 2
  · unfold lambda1Minus lambda3Plus
    simp only; ring
  · unfold lambda1Minus lambda3Plus
    simp only; ring

/-! ### C35 -/

/-- **C35 (shallow water, wet states).** Above the dry threshold, converting to primitive variables and
back are inverse to each other.  Missing for the full statement: `0 < h < cutoff`, where it fails
(`C35_sw_roundtrip_violation`). -/
theorem C35_sw_roundtrip_partial (p : Params) (U : State dim) (h : 0 < waterDepth U)
    (hc : cutoffSharp p ≤ waterDepth U) :
    toPrimitiveState p (fromPrimitiveState U) = U ∧ fromPrimitiveState (toPrimitiveState p U) = U := by
  have e : ∀ V : State dim, waterDepth V = waterDepth U →
      inverseWaterDepthSharp p V = 1 / waterDepth U := by
    intro V hV
    unfold inverseWaterDepthSharp waterDepthSharp
    rw [hV, max_eq_left (show p.reference_water_depth * p.dry_state_relaxation_small * p.eps
      ≤ waterDepth U from hc)]
  constructor
  · apply state_ext
    · simp [toPrimitiveState, fromPrimitiveState]
    · funext k
      simp only [toPrimitiveState, momentum_mkState, e (fromPrimitiveState U) (by simp [fromPrimitiveState])]
      simp only [fromPrimitiveState, momentum_mkState]
      field_simp
  · apply state_ext
    · simp [toPrimitiveState, fromPrimitiveState]
    · funext k
      simp only [toPrimitiveState, fromPrimitiveState, momentum_mkState, waterDepth_mkState, e U rfl]
      field_simp

/-- **C35 (shallow water, finding).** For every positive dry threshold there is a state with positive
depth that does not survive the conversion. -/
theorem C35_sw_roundtrip_violation (p : Params) (hc : 0 < cutoffSharp p) :
    ∃ U : State 1, 0 < waterDepth U ∧ toPrimitiveState p (fromPrimitiveState U) ≠ U ∧
      fromPrimitiveState (toPrimitiveState p U) ≠ U := by
  have hlt : cutoffSharp p / 2 < cutoffSharp p := by linarith
  have e : ∀ V : State 1, waterDepth V = cutoffSharp p / 2 →
      inverseWaterDepthSharp p V = 1 / cutoffSharp p := by
    intro V hV
    unfold inverseWaterDepthSharp waterDepthSharp
    rw [hV]
    show 1 / max _ (cutoffSharp p) = _
    rw [max_eq_right hlt.le]
  refine ⟨mkState (cutoffSharp p / 2) ![1], by simpa using hc, fun h => ?_, fun h => ?_⟩
  · have := congrFun (congrArg momentum h) 0
    simp only [toPrimitiveState, momentum_mkState] at this
    rw [e _ (by simp [fromPrimitiveState])] at this
    simp only [fromPrimitiveState, momentum_mkState, waterDepth_mkState, Matrix.cons_val_fin_one] at this
    field_simp at this
    norm_num at this
  · have := congrFun (congrArg momentum h) 0
    simp only [toPrimitiveState, fromPrimitiveState, momentum_mkState, waterDepth_mkState] at this
    rw [e _ (by simp)] at this
    simp only [Matrix.cons_val_fin_one] at this
    field_simp at this
    norm_num at this

/-! ### C36 -/

/-- **C36 (shallow water, slip).** -/
theorem C36_sw_slip (p : Params) (U : State dim) (n : Vec dim) (D : State dim) (hn : normSq n = 1) :
    let V := applyBoundaryConditions p .slip U n D
    waterDepth V = waterDepth U ∧ dot (momentum V) n = 0 ∧
      (∀ t : Vec dim, dot n t = 0 → dot (momentum V) t = dot (momentum U) t) ∧
      applyBoundaryConditions p .slip V n D = V := by
  intro V
  have hV : momentum V = momentum U + (-dot (momentum U) n) • n := by
    funext k
    simp [V, applyBoundaryConditions]; ring
  have hd : waterDepth V = waterDepth U := by simp [V, applyBoundaryConditions]
  have h0 : dot (momentum V) n = 0 := by
    rw [hV, dot_comm, dot_add_right, dot_smul_right, ← normSq_eq_dot, hn, dot_comm n]; ring
  refine ⟨hd, h0, ?_, ?_⟩
  · intro t ht
    rw [hV, dot_comm, dot_add_right, dot_smul_right, dot_comm t n, ht, dot_comm t]; ring
  · apply state_ext
    · simp [applyBoundaryConditions]
    · funext k
      simp [applyBoundaryConditions, h0]

/-- **C36 (shallow water, no slip).** -/
theorem C36_sw_no_slip (p : Params) (U : State dim) (n : Vec dim) (D : State dim) :
    let V := applyBoundaryConditions p .noSlip U n D
    waterDepth V = waterDepth U ∧ momentum V = 0 := by
  simp [applyBoundaryConditions]; rfl

example : ∃ n : Vec 2, normSq n = 1 ∧ n 0 ≠ 0 ∧ n 1 ≠ 0 :=
  ⟨![3 / 5, 4 / 5], by norm_num [normSq], by norm_num, by norm_num⟩

/-! ### C37 -/

/-- Normal velocity of a wet state (specification). -/
noncomputable def normalVelocity (U : State dim) (n : Vec dim) : ℝ := dot (momentum U) n / waterDepth U

/-- The two Riemann invariants `v·n ∓ 2 √(g h)` (specification). -/
noncomputable def riemannInvariant (c : Euler.Characteristic) (p : Params) (U : State dim) (n : Vec dim) :
    ℝ :=
  match c with
  | .first => normalVelocity U n - 2 * √(p.gravity * waterDepth U)
  | .second => normalVelocity U n + 2 * √(p.gravity * waterDepth U)

/-- The other characteristic. -/
def other : Euler.Characteristic → Euler.Characteristic
  | .first => .second
  | .second => .first

/-- **C37 (shallow water).** `prescribe_riemann_characteristic<c>(U, U_bar, n)` has the `c`-th Riemann
invariant of `U_bar`, the other Riemann invariant of `U` and the tangential velocity of `U`, provided the
two invariants do not cross (otherwise there is no such state). -/
theorem C37_sw_riemann_characteristic (c : Euler.Characteristic) (p : Params) (U Ubar : State dim)
    (n : Vec dim) (hn : normSq n = 1) (hg : 0 < p.gravity)
    (hU : 0 < waterDepth U ∧ cutoffSharp p ≤ waterDepth U)
    (hB : 0 < waterDepth Ubar ∧ cutoffSharp p ≤ waterDepth Ubar)
    (hR : match c with
      | .first => riemannInvariant .first p Ubar n < riemannInvariant .second p U n
      | .second => riemannInvariant .first p U n < riemannInvariant .second p Ubar n) :
    let V := prescribeRiemannCharacteristic c p U Ubar n
    0 < waterDepth V ∧ riemannInvariant c p V n = riemannInvariant c p Ubar n ∧
      riemannInvariant (other c) p V n = riemannInvariant (other c) p U n ∧
      ∀ t : Vec dim, dot n t = 0 →
        dot (momentum V) t / waterDepth V = dot (momentum U) t / waterDepth U := by
  intro V
  have eU : inverseWaterDepthSharp p U = 1 / waterDepth U := by
    unfold inverseWaterDepthSharp waterDepthSharp
    rw [max_eq_left (show p.reference_water_depth * p.dry_state_relaxation_small * p.eps
      ≤ waterDepth U from hU.2)]
  have eB : inverseWaterDepthSharp p Ubar = 1 / waterDepth Ubar := by
    unfold inverseWaterDepthSharp waterDepthSharp
    rw [max_eq_left (show p.reference_water_depth * p.dry_state_relaxation_small * p.eps
      ≤ waterDepth Ubar from hB.2)]
  -- the two invariants of the new state
  obtain ⟨R1, R2, hR12, hVdef, hR1, hR2⟩ : ∃ R1 R2 : ℝ, R1 < R2 ∧
      V = mkState (((R2 - R1) / 4) ^ 2 / p.gravity) (fun i => ((R2 - R1) / 4) ^ 2 / p.gravity *
        ((1 / 2) * (R1 + R2) * n i + (momentum U i * (1 / waterDepth U)
          - dot (momentum U) n * (1 / waterDepth U) * n i))) ∧
      R1 = (match c with
        | .first => riemannInvariant .first p Ubar n
        | .second => riemannInvariant .first p U n) ∧
      R2 = (match c with
        | .first => riemannInvariant .second p U n
        | .second => riemannInvariant .second p Ubar n) := by
    cases c
    · refine ⟨riemannInvariant .first p Ubar n, riemannInvariant .second p U n, hR, ?_, rfl, rfl⟩
      simp only [V, prescribeRiemannCharacteristic, eU, eB, riemannInvariant, normalVelocity,
        speedOfSound, mul_one_div]
    · refine ⟨riemannInvariant .first p U n, riemannInvariant .second p Ubar n, hR, ?_, rfl, rfl⟩
      simp only [V, prescribeRiemannCharacteristic, eU, eB, riemannInvariant, normalVelocity,
        speedOfSound, mul_one_div]
  set h := ((R2 - R1) / 4) ^ 2 / p.gravity with hh
  have hpos : 0 < h := by
    have : 0 < (R2 - R1) / 4 := by linarith
    positivity
  have hdV : waterDepth V = h := by rw [hVdef]; simp
  have hmV : momentum V = h • (((1 / 2) * (R1 + R2)) • n + ((1 / waterDepth U) • momentum U
      + (-(dot (momentum U) n * (1 / waterDepth U))) • n)) := by
    rw [hVdef, momentum_mkState]
    funext i
    simp only [Pi.add_apply, Pi.smul_apply, smul_eq_mul]; ring
  have hdot : ∀ t, dot (momentum V) t = h * ((1 / 2) * (R1 + R2) * dot n t
      + (1 / waterDepth U * dot (momentum U) t
        - dot (momentum U) n * (1 / waterDepth U) * dot n t)) := by
    intro t
    rw [hmV, dot_comm, dot_smul_right, dot_add_right, dot_smul_right, dot_add_right, dot_smul_right,
      dot_smul_right, dot_comm t n, dot_comm t]
    ring
  have hvn : normalVelocity V n = (1 / 2) * (R1 + R2) := by
    unfold normalVelocity
    rw [hdot, hdV, ← normSq_eq_dot, hn]
    field_simp; ring
  have hsq : √(p.gravity * waterDepth V) = (R2 - R1) / 4 := by
    rw [hdV, hh, mul_div_cancel₀ _ hg.ne', Real.sqrt_sq (by linarith)]
  have h1 : riemannInvariant .first p V n = R1 := by
    simp only [riemannInvariant, hvn, hsq]; ring
  have h2 : riemannInvariant .second p V n = R2 := by
    simp only [riemannInvariant, hvn, hsq]; ring
  refine ⟨by rw [hdV]; exact hpos, ?_, ?_, ?_⟩
  · cases c
    · exact h1.trans hR1
    · exact h2.trans hR2
  · cases c
    · exact h2.trans hR2
    · exact h1.trans hR1
  · intro t ht
    rw [hdot, hdV, ht]
    field_simp; ring

/-- **C37 (shallow water, dynamic boundary).** The dynamic boundary condition imposes the full boundary
state at supercritical inflow, nothing at supercritical outflow and exactly one characteristic at
subcritical boundaries. -/
theorem C37_sw_dynamic (p : Params) (U D : State dim) (n : Vec dim)
    (hU : 0 < waterDepth U ∧ cutoffSharp p ≤ waterDepth U) :
    let vn := normalVelocity U n
    let a := √(p.gravity * waterDepth U)
    let V := applyBoundaryConditions p .dynamic U n D
    (vn < -a → V = D) ∧ (a < vn → V = U) ∧
      (-a ≤ vn → vn ≤ 0 → V = prescribeRiemannCharacteristic .second p D U n) ∧
      (0 < vn → vn ≤ a → V = prescribeRiemannCharacteristic .first p U D n) := by
  intro vn a V
  have eU : inverseWaterDepthSharp p U = 1 / waterDepth U := by
    unfold inverseWaterDepthSharp waterDepthSharp
    rw [max_eq_left (show p.reference_water_depth * p.dry_state_relaxation_small * p.eps
      ≤ waterDepth U from hU.2)]
  have evn : dot (momentum U) n * inverseWaterDepthSharp p U = vn := by
    rw [eU, mul_one_div]; rfl
  have ha : 0 ≤ a := Real.sqrt_nonneg _
  have hV : V = if vn < -a then D
    else if vn ≥ -a ∧ vn ≤ 0 then prescribeRiemannCharacteristic .second p D U n
    else if vn > 0 ∧ vn ≤ a then prescribeRiemannCharacteristic .first p U D n
    else U := by
    simp only [V, applyBoundaryConditions, evn]; rfl
  refine ⟨fun h => ?_, fun h => ?_, fun h1 h2 => ?_, fun h1 h2 => ?_⟩
  · rw [hV, if_pos h]
  · rw [hV, if_neg (by linarith), if_neg (by rintro ⟨-, h'⟩; linarith),
      if_neg (by rintro ⟨-, h'⟩; linarith)]
  · rw [hV, if_neg (by linarith), if_pos ⟨h1, h2⟩]
  · rw [hV, if_neg (by linarith), if_neg (by rintro ⟨-, h'⟩; linarith), if_pos ⟨h1, h2⟩]

/-! ### C39 -/

/-- **C39.** An explicit update with the friction source keeps the depth and multiplies the momentum by
a number in `[0,1]`, for every step size. -/
theorem C39_sw_friction (p : Params) (U : State dim) (tau : ℝ) (htau : 0 ≤ tau) (hg : 0 ≤ p.gravity)
    (hpos : 0 < waterDepthSharp p U) :
    waterDepth (U + tau • nodalSource p U tau) = waterDepth U ∧
      ∃ θ : ℝ, 0 ≤ θ ∧ θ ≤ 1 ∧ momentum (U + tau • nodalSource p U tau) = θ • momentum U := by
  have hh : 0 < precomputedHStar p U := Real.rpow_pos_of_pos hpos _
  constructor
  · simp [nodalSource, manningFriction]
  · set h_star := precomputedHStar p U
    set n := p.manning_friction_coefficient
    set w := vnorm (inverseWaterDepthMollified p U • momentum U)
    have hw : 0 ≤ w := Real.sqrt_nonneg _
    have hf : 0 ≤ 2 * p.gravity * n * n * w := by
      have : 0 ≤ n * n := mul_self_nonneg n
      have e : 2 * p.gravity * n * n * w = 2 * p.gravity * (n * n) * w := by ring
      rw [e]; positivity
    set F := 2 * p.gravity * n * n * w
    have hd : 0 < h_star + max h_star (tau * F) := by
      have := le_max_left h_star (tau * F); linarith
    refine ⟨1 - tau * F / (h_star + max h_star (tau * F)), ?_, ?_, ?_⟩
    · rw [sub_nonneg, div_le_one hd]
      have := le_max_right h_star (tau * F); linarith
    · have : 0 ≤ tau * F / (h_star + max h_star (tau * F)) := by positivity
      linarith
    · funext k
      simp only [nodalSource, manningFriction, momentum_add, momentum_smul, momentum_mkState,
        Pi.add_apply, Pi.smul_apply, smul_eq_mul]
      show momentum U k + tau * (-F * (1 / (h_star + max h_star (tau * F))) * momentum U k) = _
      ring

/-! ### C40 -/

/-- `h * inverse_water_depth_mollified` is a number in `[0,1]`, and `1` above the threshold. -/
theorem mollified_factor (p : Params) (U : State dim) :
    0 ≤ inverseWaterDepthMollified p U * waterDepth U ∧ inverseWaterDepthMollified p U * waterDepth U ≤ 1
      ∧ (0 < waterDepth U → cutoffMollified p ≤ waterDepth U →
        inverseWaterDepthMollified p U * waterDepth U = 1)
      ∧ (waterDepth U ≤ 0 → inverseWaterDepthMollified p U = 0) := by
  unfold inverseWaterDepthMollified
  simp only
  set h := waterDepth U
  set c := p.reference_water_depth * p.dry_state_relaxation_large * p.eps with hc
  rcases le_or_gt h 0 with hle | hpos
  · rw [positivePart_of_nonpos hle]
    refine ⟨by simp, by simp, fun h' => absurd h' (not_lt.2 hle), fun _ => by simp⟩
  · rw [positivePart_of_nonneg hpos.le]
    have hm : h ≤ max h c := le_max_left _ _
    have hd : 0 < h * h + max h c * max h c := by positivity
    have hsq : h * h ≤ max h c * max h c := mul_self_le_mul_self hpos.le hm
    refine ⟨by positivity, ?_, ?_, fun h' => absurd hpos (not_lt.2 h')⟩
    · rw [div_mul_eq_mul_div, div_le_one hd]; nlinarith
    · intro _ hcut
      have : max h c = h := max_eq_left hcut
      rw [this]; field_simp; ring

/-- **C40.** The star state of a state of depth `h` has a depth in `[0, max(0, h)]`, is a nonnegative
multiple of the state, vanishes if the neighbouring bottom is above the water surface, and for wet states
has exactly the depth `max(0, h + Z_left - max(Z_left, Z_right))`. -/
theorem C40_sw_star_state (p : Params) (U : State dim) (Z_left Z_right : ℝ) :
    let V := starState p U Z_left Z_right
    0 ≤ waterDepth V ∧ waterDepth V ≤ max 0 (waterDepth U) ∧
      (∃ θ : ℝ, 0 ≤ θ ∧ V = θ • U) ∧
      (waterDepth U + Z_left ≤ Z_right → V = 0) ∧
      (0 < waterDepth U → cutoffMollified p ≤ waterDepth U →
        waterDepth V = max 0 (waterDepth U + Z_left - max Z_left Z_right)) := by
  intro V
  obtain ⟨h1, h2, h3, h4⟩ := mollified_factor p U
  set H := max 0 (waterDepth U + Z_left - max Z_left Z_right) with hH
  have hH0 : 0 ≤ H := le_max_left _ _
  have hHle : H ≤ max 0 (waterDepth U) := by
    apply max_le_max le_rfl
    have := le_max_left Z_left Z_right; linarith
  have hV : V = (H * inverseWaterDepthMollified p U) • U := rfl
  have hdV : waterDepth V = H * (inverseWaterDepthMollified p U * waterDepth U) := by
    rw [hV, waterDepth_smul]; ring
  refine ⟨?_, ?_, ?_, ?_, ?_⟩
  · rw [hdV]; positivity
  · rw [hdV]
    calc H * (inverseWaterDepthMollified p U * waterDepth U) ≤ H * 1 := by gcongr
      _ ≤ _ := by rw [mul_one]; exact hHle
  · refine ⟨_, mul_nonneg hH0 ?_, hV⟩
    rcases le_or_gt (waterDepth U) 0 with h | h
    · rw [h4 h]
    · exact nonneg_of_mul_nonneg_left h1 h
  · intro h
    have : H = 0 := max_eq_left (by have := le_max_right Z_left Z_right; linarith)
    rw [hV, this]; simp
  · intro hp hc
    rw [hdV, h3 hp hc, mul_one]

/-- Example: with bottom heights 0 and 1/2 a state of depth 1 is reconstructed with depth 1/2. -/
example : waterDepth (starState ⟨1, 0, 1, 1, 1, 1, 0, 0⟩ (mkState 1 ![1] : State 1) 0 (1 / 2)) = 1 / 2 := by
  have := (C40_sw_star_state ⟨1, 0, 1, 1, 1, 1, 0, 0⟩ (mkState 1 ![1] : State 1) 0 (1 / 2)).2.2.2.2
    (by norm_num) (by norm_num [cutoffMollified])
  rw [this]; norm_num

end ShallowWater
end Ryujin
