import Verif.Proofs.EulerRiemannNewton
import Verif.Proofs.EulerSystem
import Verif.Spec.EulerWaves

/-!
# C08, C09, C10 and C64 for the Euler equations
-/

namespace Ryujin
namespace Euler

variable {dim L : ℕ}

/-! ### C08 -/

theorem foldl_add_abs_ge {α : Type} (g : α → ℝ) (l : List α) (x : ℝ) :
    x ≤ l.foldl (fun acc k => acc + |g k|) x := by
  induction l generalizing x with
  | nil => exact le_rfl
  | cons a l ih => exact le_trans (by linarith [abs_nonneg (g a)]) (ih _)

theorem denominator_nonneg (st : IndicatorState dim) : 0 ≤ st.denominator :=
  (abs_nonneg _).trans (foldl_add_abs_ge (fun k => st.d_eta_i k * st.right k) _ _)

theorem accumulate_eta (p : Params) (row : List (State dim × Vec dim)) (st : IndicatorState dim) :
    (row.foldl (fun st e => st.accumulate p (hartenEntropy p e.1) e.1 e.2) st).eta_i = st.eta_i := by
  induction row generalizing st with
  | nil => rfl
  | cons a l ih => rw [List.foldl_cons, ih]; rfl

/-- **C08 (Euler).** -/
theorem C08_euler_indicator (p : Params) (evc_factor hd_i : ℝ) (U_i : State dim) (row : List (State dim × Vec dim))
    (hevc : 0 ≤ evc_factor) (hhd : 0 ≤ hd_i) :
    0 ≤ indicator p evc_factor U_i row hd_i ∧ indicator p evc_factor U_i row hd_i ≤ 1 := by
  unfold indicator IndicatorState.alpha
  refine ⟨le_min zero_le_one ?_, min_le_left _ _⟩
  refine mul_nonneg hevc (div_nonneg (abs_nonneg _) ?_)
  exact add_nonneg (denominator_nonneg _) (mul_nonneg hhd (abs_nonneg _))

/-- **C08 (Euler, no division by zero).** For an admissible state and `hd_i > 0` the denominator of the quotient is
positive, whatever the stencil. -/
theorem C08_euler_indicator_denominator_pos (p : Params) (hd_i : ℝ) (U_i : State dim)
    (row : List (State dim × Vec dim)) (hr : 0 < density U_i) (he : 0 < internalEnergy U_i) (hhd : 0 < hd_i) :
    0 < (row.foldl (fun st e => st.accumulate p (hartenEntropy p e.1) e.1 e.2)
        (IndicatorState.reset p (hartenEntropy p U_i) U_i)).denominator +
      hd_i * |(row.foldl (fun st e => st.accumulate p (hartenEntropy p e.1) e.1 e.2)
        (IndicatorState.reset p (hartenEntropy p U_i) U_i)).eta_i| := by
  rw [accumulate_eta]
  have : 0 < hartenEntropy p U_i := by
    unfold hartenEntropy
    refine Real.rpow_pos_of_pos ?_ _
    have := mul_pos hr he
    rwa [rho_rhoe U_i hr.ne'] at this
  exact add_pos_of_nonneg_of_pos (denominator_nonneg _) (mul_pos hhd (abs_pos.2 this.ne'))

/-- **C08 (Euler, constant states).** On a stencil of equal states the indicator vanishes.  No assumption on the
`c_ij` is needed. -/
theorem C08_euler_indicator_constant (p : Params) (evc_factor hd_i : ℝ) (U_i : State dim)
    (row : List (State dim × Vec dim)) (hrow : ∀ e ∈ row, e.1 = U_i) :
    indicator p evc_factor U_i row hd_i = 0 := by
  have key : ∀ (row : List (State dim × Vec dim)) (st : IndicatorState dim), st.f_i = f p U_i →
      st.eta_i = hartenEntropy p U_i → st.rho_i_inverse = 1 / density U_i → (∀ e ∈ row, e.1 = U_i) →
      (row.foldl (fun st e => st.accumulate p (hartenEntropy p e.1) e.1 e.2) st).left = st.left ∧
      (row.foldl (fun st e => st.accumulate p (hartenEntropy p e.1) e.1 e.2) st).right = st.right := by
    intro row
    induction row with
    | nil => intro st _ _ _ _; exact ⟨rfl, rfl⟩
    | cons a l ih =>
      intro st hf he hr hall
      have ha := hall a List.mem_cons_self
      obtain ⟨h1, h2⟩ := ih (st.accumulate p (hartenEntropy p a.1) a.1 a.2) hf he hr
        (fun e he => hall e (List.mem_cons_of_mem _ he))
      rw [List.foldl_cons, h1, h2]
      constructor
      · simp [IndicatorState.accumulate, ha, he, hr]
      · funext k
        simp [IndicatorState.accumulate, ha, hf, dot]
  obtain ⟨h1, h2⟩ := key row (IndicatorState.reset p (hartenEntropy p U_i) U_i) rfl rfl rfl hrow
  have hnum : (row.foldl (fun st e => st.accumulate p (hartenEntropy p e.1) e.1 e.2)
      (IndicatorState.reset p (hartenEntropy p U_i) U_i)).numerator = 0 := by
    unfold IndicatorState.numerator
    rw [h1, h2]
    have : ∀ l : List (Fin (dim + 2)), l.foldl (fun acc k => acc -
        (row.foldl (fun st e => st.accumulate p (hartenEntropy p e.1) e.1 e.2)
          (IndicatorState.reset p (hartenEntropy p U_i) U_i)).d_eta_i k *
          (IndicatorState.reset p (hartenEntropy p U_i) U_i).right k) 0 = 0 := by
      intro l
      induction l with
      | nil => rfl
      | cons a l ih => simp [IndicatorState.reset]
    exact this _
  unfold indicator IndicatorState.alpha
  simp [hnum]

/-! ### C09 -/

/-- **C09 (Euler).** For all admissible states, all numbers of Newton iterations and whatever the other SIMD lanes
hold, the computed wave speed is nonnegative and dominates the characteristic speeds `-(u_i - a_i)` and `u_j + a_j` of
the two states; here `u = n · m / rho` and `a` is the speed of sound. -/
theorem C09_euler_characteristic (p : Params) (hg : 1 < p.gamma) (rp : RiemannParams) (U_i U_j : Fin L → State dim)
    (n : Fin L → Vec dim) (l : Fin L) (hn : normSq (n l) = 1)
    (hri : 0 < density (U_i l)) (hei : 0 < internalEnergy (U_i l))
    (hrj : 0 < density (U_j l)) (hej : 0 < internalEnergy (U_j l)) :
    0 ≤ riemann p rp U_i U_j n l ∧
      -(dot (n l) (momentum (U_i l)) / density (U_i l) - speedOfSound p (U_i l)) ≤ riemann p rp U_i U_j n l ∧
      dot (n l) (momentum (U_j l)) / density (U_j l) + speedOfSound p (U_j l) ≤ riemann p rp U_i U_j n l := by
  obtain ⟨q, hq⟩ := compute_exists p.gamma rp (fun l => riemannDataFromState p (U_i l) (n l))
    (fun l => riemannDataFromState p (U_j l) (n l)) l
  have h := computeLambda_characteristic hg (riemannDataFromState_gas p hg (U_i l) hn hri hei)
    (riemannDataFromState_gas p hg (U_j l) hn hrj hej) q
  rw [← hq] at h
  have ha : ∀ U : State dim, Spec.gasSound p.gamma (density U) (pressure p U) = speedOfSound p U := by
    intro U
    unfold Spec.gasSound speedOfSound
    congr 1; ring
  rw [riemannDataFromState_eq p (U_i l) hn, riemannDataFromState_eq p (U_j l) hn] at h
  simp only [ha] at h
  exact h

/-- **C09 (Euler, sign).** The wave speed is nonnegative for all arguments, admissible or not. -/
theorem C09_euler_nonneg (p : Params) (rp : RiemannParams) (U_i U_j : Fin L → State dim) (n : Fin L → Vec dim)
    (l : Fin L) : 0 ≤ riemann p rp U_i U_j n l := by
  obtain ⟨q, hq⟩ := compute_exists p.gamma rp (fun l => riemannDataFromState p (U_i l) (n l))
    (fun l => riemannDataFromState p (U_j l) (n l)) l
  unfold riemann
  rw [hq]
  exact (positivePart_nonneg _).trans (le_max_left _ _)

/-! ### C10 -/

/-- **C10 (Euler).** Exchanging the two states and reversing the normal does not change the wave speed, for all numbers
of Newton iterations and all lanes. -/
theorem C10_euler_swap (p : Params) (hg : 1 < p.gamma) (rp : RiemannParams) (U_i U_j : Fin L → State dim)
    (n : Fin L → Vec dim) (hn : ∀ l, normSq (n l) = 1)
    (hi : ∀ l, 0 < density (U_i l) ∧ 0 < internalEnergy (U_i l))
    (hj : ∀ l, 0 < density (U_j l) ∧ 0 < internalEnergy (U_j l)) :
    riemann p rp U_j U_i (fun l => -n l) = riemann p rp U_i U_j n := by
  unfold riemann
  simp only [riemannDataFromState_neg]
  exact compute_swap hg rp _ _ (fun l => riemannDataFromState_gas p hg (U_i l) (hn l) (hi l).1 (hi l).2)
    (fun l => riemannDataFromState_gas p hg (U_j l) (hn l) (hj l).1 (hj l).2)

/-! ### C64 -/

/-- **C64 (two shocks or two rarefactions).** For `1 < γ ≤ 5/3`, in exact arithmetic (`eps = 0` in the Newton step) and
for every number of Newton iterations: if the exact solution of the Riemann problem between the two states consists of
two shocks or of two rarefactions, its wave speeds are bounded by the computed one.  What is missing from the full
property is the case of one shock and one rarefaction, for which the claim is false
(`C64_euler_wave_speed_mixed_violation`), and `γ > 5/3`, for which it is false too
(`C64_euler_wave_speed_gamma_violation`). -/
theorem C64_euler_wave_speed_partial (p : Params) (hg : 1 < p.gamma) (hg2 : p.gamma ≤ 5 / 3) (rp : RiemannParams)
    (heps : rp.eps = 0) (U_i U_j : Fin L → State dim) (n : Fin L → Vec dim) (l : Fin L) (hn : normSq (n l) = 1)
    (hri : 0 < density (U_i l)) (hei : 0 < internalEnergy (U_i l))
    (hrj : 0 < density (U_j l)) (hej : 0 < internalEnergy (U_j l))
    (ps : ℝ) (hps : IsStarPressure p (U_i l) (U_j l) (n l) ps)
    (hcase : (pressure p (U_i l) ≤ ps ∧ pressure p (U_j l) ≤ ps) ∨ (ps ≤ pressure p (U_i l) ∧ ps ≤ pressure p (U_j l))) :
    -leftSpeed p (U_i l) (n l) ps ≤ riemann p rp U_i U_j n l ∧
      rightSpeed p (U_j l) (n l) ps ≤ riemann p rp U_i U_j n l := by
  have gi := riemannDataFromState_gas p hg (U_i l) hn hri hei
  have gj := riemannDataFromState_gas p hg (U_j l) hn hrj hej
  have ei := riemannDataFromState_eq p (U_i l) hn
  have ej := riemannDataFromState_eq p (U_j l) hn
  rcases hcase with ⟨h1, h2⟩ | ⟨h1, h2⟩
  · obtain ⟨q, hq, e⟩ := compute_star (L := L) hg hg2 rp heps (fun l => riemannDataFromState p (U_i l) (n l))
      (fun l => riemannDataFromState p (U_j l) (n l)) l gi gj (ps := ps) (by rw [ei, ej]; exact hps)
      (by rw [ei, ej]; exact (min_le_left _ _).trans h1) (Or.inl (by rw [ei, ej]; exact max_le h1 h2))
    have h := computeLambda_bounds hg gi gj hq
    rw [← e, ei, ej] at h
    exact h
  · have h := C09_euler_characteristic p hg rp U_i U_j n l hn hri hei hrj hej
    have ha : ∀ U : State dim, Spec.gasSound p.gamma (density U) (pressure p U) = speedOfSound p U := by
      intro U
      unfold Spec.gasSound speedOfSound
      congr 1; ring
    unfold leftSpeed rightSpeed Spec.gasLeftSpeed Spec.gasRightSpeed Spec.gasSpeedFactor
    rw [if_pos h1, if_pos h2, mul_one, mul_one, ha, ha]
    exact h.2

/-- **C64 (one shock and one rarefaction).** The speed of the rarefaction is bounded for all `γ > 1`; both speeds are
bounded for `1 < γ ≤ 5/3` if the star pressure does not exceed the failsafe pressure of the solver.  The last hypothesis
cannot be dropped, see `C64_euler_wave_speed_mixed_violation`. -/
theorem C64_euler_wave_speed_mixed_partial (p : Params) (hg : 1 < p.gamma) (rp : RiemannParams)
    (U_i U_j : Fin L → State dim) (n : Fin L → Vec dim) (l : Fin L) (hn : normSq (n l) = 1)
    (hri : 0 < density (U_i l)) (hei : 0 < internalEnergy (U_i l))
    (hrj : 0 < density (U_j l)) (hej : 0 < internalEnergy (U_j l))
    (ps : ℝ) (hps : IsStarPressure p (U_i l) (U_j l) (n l) ps) :
    (ps ≤ pressure p (U_i l) → -leftSpeed p (U_i l) (n l) ps ≤ riemann p rp U_i U_j n l) ∧
      (ps ≤ pressure p (U_j l) → rightSpeed p (U_j l) (n l) ps ≤ riemann p rp U_i U_j n l) ∧
      (p.gamma ≤ 5 / 3 → rp.eps = 0 → min (pressure p (U_i l)) (pressure p (U_j l)) ≤ ps →
        ps ≤ pStarFailsafe p.gamma (riemannDataFromState p (U_i l) (n l)) (riemannDataFromState p (U_j l) (n l)) →
        -leftSpeed p (U_i l) (n l) ps ≤ riemann p rp U_i U_j n l ∧
          rightSpeed p (U_j l) (n l) ps ≤ riemann p rp U_i U_j n l) := by
  have h := C09_euler_characteristic p hg rp U_i U_j n l hn hri hei hrj hej
  have ha : ∀ U : State dim, Spec.gasSound p.gamma (density U) (pressure p U) = speedOfSound p U := by
    intro U
    unfold Spec.gasSound speedOfSound
    congr 1; ring
  refine ⟨fun h1 => ?_, fun h1 => ?_, fun hg2 heps h1 h2 => ?_⟩
  · unfold leftSpeed Spec.gasLeftSpeed Spec.gasSpeedFactor
    rw [if_pos h1, mul_one, ha]
    exact h.2.1
  · unfold rightSpeed Spec.gasRightSpeed Spec.gasSpeedFactor
    rw [if_pos h1, mul_one, ha]
    exact h.2.2
  · have gi := riemannDataFromState_gas p hg (U_i l) hn hri hei
    have gj := riemannDataFromState_gas p hg (U_j l) hn hrj hej
    have ei := riemannDataFromState_eq p (U_i l) hn
    have ej := riemannDataFromState_eq p (U_j l) hn
    obtain ⟨q, hq, e⟩ := compute_star (L := L) hg hg2 rp heps (fun l => riemannDataFromState p (U_i l) (n l))
      (fun l => riemannDataFromState p (U_j l) (n l)) l gi gj (ps := ps) (by rw [ei, ej]; exact hps)
      (by rw [ei, ej]; exact h1) (Or.inr h2)
    have h := computeLambda_bounds hg gi gj hq
    rw [← e, ei, ej] at h
    exact h

/-! ### Witnesses -/

/-- A one dimensional gas state given by density, velocity and pressure. -/
noncomputable def gasState (p : Params) (rho u pr : ℝ) : State 1 :=
  mkState rho (fun _ => rho * u) (pr / (p.gamma - 1) + 1 / 2 * rho * u ^ 2)

theorem gasState_internalEnergy (p : Params) {rho u pr : ℝ} (_hr : rho ≠ 0) :
    internalEnergy (gasState p rho u pr) = pr / (p.gamma - 1) := by
  unfold internalEnergy gasState
  simp only [density_mkState, momentum_mkState, totalEnergy_mkState, normSq, Finset.univ_unique, Finset.sum_singleton]
  field_simp
  ring

theorem gasState_pressure (p : Params) (hg : 1 < p.gamma) {rho u pr : ℝ} (hr : rho ≠ 0) :
    pressure p (gasState p rho u pr) = pr := by
  unfold pressure
  rw [gasState_internalEnergy p hr]
  have : p.gamma - 1 ≠ 0 := by linarith
  field_simp

@[simp] theorem gasState_density (p : Params) (rho u pr : ℝ) : density (gasState p rho u pr) = rho := density_mkState _ _ _

theorem gasState_velocity (p : Params) {rho u pr : ℝ} (hr : rho ≠ 0) :
    velocityAlong (gasState p rho u pr) (fun _ => 1) = u := by
  unfold velocityAlong gasState
  simp only [density_mkState, momentum_mkState, dot, Finset.univ_unique, Finset.sum_singleton, one_mul]
  field_simp

/-- Diatomic gas. -/
noncomputable def air : Params := ⟨7 / 5, 1, 10, 10000, 0⟩

/-- The shock curve of `(rho, p) = (1, 1)` at `p = 4` in a diatomic gas. -/
theorem air_wave : Spec.gasWave (7 / 5) 1 1 4 = 3 / √5 := by
  unfold Spec.gasWave
  rw [if_neg (by norm_num), show (2 : ℝ) / ((7 / 5 + 1) * 1) / (4 + (7 / 5 - 1) / (7 / 5 + 1) * 1) = 1 / 5 by norm_num,
    Real.sqrt_div zero_le_one, Real.sqrt_one]
  ring

/-- Two colliding gas streams: the hypotheses of `C64_euler_wave_speed_partial` hold (two shocks, `p* = 4`), and the
exact shock speed is not trivial. -/
example : IsStarPressure air (gasState air 1 (3 / √5) 1) (gasState air 1 (-(3 / √5)) 1) (fun _ => 1) 4 ∧
    pressure air (gasState air 1 (3 / √5) 1) ≤ 4 ∧ pressure air (gasState air 1 (-(3 / √5)) 1) ≤ 4 ∧
    normSq (fun _ : Fin 1 => (1 : ℝ)) = 1 ∧ 0 < internalEnergy (gasState air 1 (3 / √5) 1) := by
  have hg : 1 < air.gamma := by norm_num [air]
  refine ⟨?_, ?_, ?_, by simp [normSq], ?_⟩
  · unfold IsStarPressure
    rw [gasState_pressure air hg one_ne_zero, gasState_pressure air hg one_ne_zero, gasState_velocity air one_ne_zero,
      gasState_velocity air one_ne_zero, gasState_density, gasState_density]
    refine ⟨by norm_num, ?_⟩
    rw [show air.gamma = 7 / 5 from rfl, air_wave]
    ring
  · rw [gasState_pressure air hg one_ne_zero]; norm_num
  · rw [gasState_pressure air hg one_ne_zero]; norm_num
  · rw [gasState_internalEnergy air one_ne_zero]; norm_num [air]

/-- The hypotheses of C09 and C10 for a pair of different states, in two lanes. -/
example (rp : RiemannParams) : riemann air rp (fun _ : Fin 2 => gasState air 1 0 1) (fun _ => gasState air 2 1 3)
    (fun _ _ => 1) = riemann air rp (fun _ => gasState air 2 1 3) (fun _ => gasState air 1 0 1) (fun _ => -fun _ => 1) :=
  (C10_euler_swap air (by norm_num [air]) rp _ _ _ (fun _ => by simp [normSq])
    (fun _ => ⟨by simp, by rw [gasState_internalEnergy air one_ne_zero]; norm_num [air]⟩)
    (fun _ => ⟨by simp, by rw [gasState_internalEnergy air two_ne_zero]; norm_num [air]⟩)).symm

/-! ### Violations -/

/-- The solver without Newton iterations (the default) in one lane. -/
theorem riemann_default (p : Params) (hg : 1 < p.gamma) (rp : RiemannParams) (h0 : rp.newton_max_iterations = 0)
    {ri ui pi rj uj pj : ℝ} (hri : 0 < ri) (hpi : 0 < pi) (hrj : 0 < rj) (hpj : 0 < pj) :
    ∃ i j : RiemannData, Gas p.gamma i ∧ Gas p.gamma j ∧
      i = ⟨ri, ui, pi, Spec.gasSound p.gamma ri pi⟩ ∧ j = ⟨rj, uj, pj, Spec.gasSound p.gamma rj pj⟩ ∧
      riemann p rp (fun _ : Fin 1 => gasState p ri ui pi) (fun _ => gasState p rj uj pj) (fun _ _ => 1) 0 =
        computeLambda p.gamma i j (startP2 p.gamma i j) := by
  have hn : normSq (fun _ : Fin 1 => (1 : ℝ)) = 1 := by simp [normSq]
  have ei : riemannDataFromState p (gasState p ri ui pi) (fun _ => 1) = ⟨ri, ui, pi, Spec.gasSound p.gamma ri pi⟩ := by
    rw [riemannDataFromState_eq p _ hn, gasState_pressure p hg hri.ne']
    have := gasState_velocity p (u := ui) (pr := pi) hri.ne'
    unfold velocityAlong at this
    rw [this, gasState_density]
  have ej : riemannDataFromState p (gasState p rj uj pj) (fun _ => 1) = ⟨rj, uj, pj, Spec.gasSound p.gamma rj pj⟩ := by
    rw [riemannDataFromState_eq p _ hn, gasState_pressure p hg hrj.ne']
    have := gasState_velocity p (u := uj) (pr := pj) hrj.ne'
    unfold velocityAlong at this
    rw [this, gasState_density]
  refine ⟨⟨ri, ui, pi, Spec.gasSound p.gamma ri pi⟩, ⟨rj, uj, pj, Spec.gasSound p.gamma rj pj⟩,
    ⟨hri, hpi, rfl⟩, ⟨hrj, hpj, rfl⟩, rfl, rfl, ?_⟩
  unfold riemann compute
  rw [if_pos h0]
  simp only [ei, ej]

theorem gasSpeedFactor_strict {gamma : ℝ} (hg : 1 < gamma) {pK p q : ℝ} (hK : 0 < pK) (hq : pK < q) (h : p < q) :
    Spec.gasSpeedFactor gamma pK p < Spec.gasSpeedFactor gamma pK q := by
  have h0 : 0 < gamma := by linarith
  unfold Spec.gasSpeedFactor
  rw [if_neg (not_le.2 hq)]
  have hq1 : 1 < q / pK := by rwa [one_lt_div hK]
  split_ifs with hp
  · rw [Real.lt_sqrt zero_le_one]
    have e : (gamma + 1) / (2 * gamma) * (q / pK) + (gamma - 1) / (2 * gamma) - 1 =
        (gamma + 1) / (2 * gamma) * (q / pK - 1) := by field_simp; ring
    have : 0 < (gamma + 1) / (2 * gamma) * (q / pK - 1) := mul_pos (by positivity) (by linarith)
    linarith
  · push Not at hp
    apply Real.sqrt_lt_sqrt
    · have : 0 < p / pK := div_pos (hK.trans hp) hK
      have : 0 < gamma - 1 := by linarith
      positivity
    · have h1 : p / pK < q / pK := div_lt_div_of_pos_right h hK
      have h2 : 0 < (gamma + 1) / (2 * gamma) := by positivity
      nlinarith [mul_lt_mul_of_pos_left h1 h2]

/-- **C64 (violation, one shock and one rarefaction).** For a diatomic gas there are two admissible states, a shock
moving to the left and a rarefaction on the right, for which the wave speed returned by the solver with its default
parameters is *smaller* than the speed of the shock: the failsafe bound `p̃_2` that enters the minimum is an upper bound
for the star pressure only if both waves are shocks. -/
theorem C64_euler_wave_speed_mixed_violation (rp : RiemannParams) (h0 : rp.newton_max_iterations = 0) :
    ∃ (U_i U_j : State 1) (ps : ℝ), 0 < density U_i ∧ 0 < internalEnergy U_i ∧ 0 < density U_j ∧
      0 < internalEnergy U_j ∧ IsStarPressure air U_i U_j (fun _ => 1) ps ∧ pressure air U_i < ps ∧
      ps < pressure air U_j ∧
      riemann air rp (fun _ : Fin 1 => U_i) (fun _ => U_j) (fun _ _ => 1) 0 < -leftSpeed air U_i (fun _ => 1) ps := by
  have hg : 1 < air.gamma := by norm_num [air]
  have hgam : air.gamma = 7 / 5 := rfl
  set rj : ℝ := 5000000 / 7 with hrj
  have hrj0 : 0 < rj := by norm_num [hrj]
  have haj : Spec.gasSound (7 / 5) rj 16 = 7 / 1250 := by
    unfold Spec.gasSound
    rw [hrj, show (7 / 5 * 16 / (5000000 / 7) : ℝ) = (7 / 1250) ^ 2 by norm_num]
    exact Real.sqrt_sq (by norm_num)
  -- the rarefaction curve of the heavy state
  set wj : ℝ := Spec.gasWave (7 / 5) rj 16 4 with hwj
  have hwj_bounds : -(7 / 250) ≤ wj ∧ wj ≤ 0 := by
    rw [hwj]
    unfold Spec.gasWave
    rw [if_pos (by norm_num), haj]
    have h1 : ((4 : ℝ) / 16) ^ ((7 / 5 - 1) / (2 * (7 / 5)) : ℝ) ≤ 1 :=
      Real.rpow_le_one (by norm_num) (by norm_num) (by norm_num)
    have h2 : 0 ≤ ((4 : ℝ) / 16) ^ ((7 / 5 - 1) / (2 * (7 / 5)) : ℝ) := Real.rpow_nonneg (by norm_num) _
    constructor <;> nlinarith
  set uj : ℝ := -(3 / √5 + wj) with huj
  have hs5 : (2236 / 1000 : ℝ) < √5 ∧ √5 < 2237 / 1000 := by
    constructor
    · rw [Real.lt_sqrt (by norm_num)]; norm_num
    · rw [Real.sqrt_lt' (by norm_num)]; norm_num
  have h3s5 : (1341 / 1000 : ℝ) < 3 / √5 ∧ 3 / √5 < 13418 / 10000 := by
    have : 0 < √5 := by linarith [hs5.1]
    constructor
    · rw [lt_div_iff₀ this]; nlinarith [hs5.2]
    · rw [div_lt_iff₀ this]; nlinarith [hs5.1]
  obtain ⟨i, j, gi, gj, ei, ej, hriem⟩ := riemann_default air hg rp h0 (ri := 1) (ui := 0) (pi := 1) (rj := rj) (uj := uj)
    (pj := 16) one_pos one_pos hrj0 (by norm_num)
  refine ⟨gasState air 1 0 1, gasState air rj uj 16, 4, by simp, ?_, by simpa using hrj0, ?_, ?_, ?_, ?_, ?_⟩
  · rw [gasState_internalEnergy air one_ne_zero]; norm_num [air]
  · rw [gasState_internalEnergy air hrj0.ne']; norm_num [air]
  · unfold IsStarPressure
    rw [gasState_pressure air hg one_ne_zero, gasState_pressure air hg hrj0.ne', gasState_velocity air one_ne_zero,
      gasState_velocity air hrj0.ne', gasState_density, gasState_density]
    refine ⟨by norm_num, ?_⟩
    rw [hgam, air_wave, ← hwj, huj]
    ring
  · rw [gasState_pressure air hg one_ne_zero]; norm_num
  · rw [gasState_pressure air hg hrj0.ne']; norm_num
  · rw [hriem]
    unfold leftSpeed
    rw [gasState_pressure air hg one_ne_zero, gasState_velocity air one_ne_zero, gasState_density]
    -- the failsafe pressure is below 4
    have hfail : pStarFailsafe air.gamma i j < 4 := by
      unfold pStarFailsafe
      rw [ei, ej]
      dsimp only
      rw [hgam, show max (1 : ℝ) 16 = 16 by norm_num,
        show (2 * 16 / (rj * ((7 / 5 + 1) * 16 + (7 / 5 - 1) * 16)) : ℝ) = (1 / 1000) ^ 2 by rw [hrj]; norm_num,
        show (2 * 16 / (1 * ((7 / 5 + 1) * 16 + (7 / 5 - 1) * 1)) : ℝ) = 80 / 97 by norm_num,
        Real.sqrt_sq (by norm_num : (0 : ℝ) ≤ 1 / 1000)]
      have hx : (908 / 1000 : ℝ) < √(80 / 97) ∧ √(80 / 97) < 909 / 1000 := by
        constructor
        · rw [Real.lt_sqrt (by norm_num)]; norm_num
        · rw [Real.sqrt_lt' (by norm_num)]; norm_num
      set x := √(80 / 97 : ℝ)
      have ha : 0 < x + 1 / 1000 := by linarith [hx.1]
      have hb : -(13418 / 10000) ≤ uj - 0 := by rw [huj]; linarith [h3s5.2, hwj_bounds.2]
      set b := uj - 0
      set c := -1 * x - 16 * (1 / 1000)
      have hc : c < 0 := by simp only [c]; linarith [hx.1]
      have hdisc : 0 ≤ b * b - 4 * (x + 1 / 1000) * c := by nlinarith [mul_pos ha (neg_pos.2 hc), mul_self_nonneg b]
      have hq : 0 < (x + 1 / 1000) * 4 + b * 2 + c := by simp only [c]; linarith [hx.1]
      have hlt : √(b * b - 4 * (x + 1 / 1000) * c) < 4 * (x + 1 / 1000) + b := by
        rw [Real.sqrt_lt' (by linarith [hx.1])]
        nlinarith [mul_pos ha hq]
      have hnn : 0 ≤ (-b + √(b * b - 4 * (x + 1 / 1000) * c)) / (2 * (x + 1 / 1000)) := by
        apply div_nonneg _ (by linarith)
        have : b ≤ √(b * b - 4 * (x + 1 / 1000) * c) := by
          apply Real.le_sqrt_of_sq_le
          nlinarith [mul_pos ha (neg_pos.2 hc)]
        linarith
      have hbase : (-b + √(b * b - 4 * (x + 1 / 1000) * c)) / (2 * (x + 1 / 1000)) < 2 := by
        rw [div_lt_iff₀ (by linarith)]
        linarith
      nlinarith
    have hp2 : startP2 air.gamma i j < 4 := by
      unfold startP2 maskLt
      dsimp only
      split_ifs
      · exact (min_le_right _ _).trans_lt hfail
      · exact (min_le_right _ _).trans_lt ((min_le_right _ _).trans_lt hfail)
    -- the right wave does not contribute
    have h3 : lambda3Plus air.gamma j (startP2 air.gamma i j) < 0 := by
      rw [lambda3Plus_eq hg gj, ej]
      unfold Spec.gasRightSpeed
      dsimp only
      have : Spec.gasSpeedFactor air.gamma 16 (startP2 air.gamma i ⟨rj, uj, 16, Spec.gasSound air.gamma rj 16⟩) = 1 := by
        rw [← ej]; exact if_pos (by linarith)
      rw [this, hgam, haj, huj]
      linarith [h3s5.1, hwj_bounds.1]
    have h1 : lambda1Minus air.gamma i (startP2 air.gamma i j) = Spec.gasLeftSpeed air.gamma 1 0 1 (startP2 air.gamma i j) := by
      rw [lambda1Minus_eq hg gi, ei]
    have hsound : 0 < Spec.gasSound air.gamma 1 1 := Real.sqrt_pos.2 (by rw [hgam]; norm_num)
    have hstrict : -Spec.gasLeftSpeed air.gamma 1 0 1 (startP2 air.gamma i j) < -Spec.gasLeftSpeed air.gamma 1 0 1 4 := by
      unfold Spec.gasLeftSpeed
      have := mul_lt_mul_of_pos_left (gasSpeedFactor_strict hg one_pos (by norm_num : (1 : ℝ) < 4) hp2) hsound
      linarith
    have hpos : 0 < -Spec.gasLeftSpeed air.gamma 1 0 1 4 := by
      unfold Spec.gasLeftSpeed
      have := mul_le_mul_of_nonneg_left (one_le_gasSpeedFactor (p := 4) hg one_pos) hsound.le
      linarith
    unfold computeLambda
    dsimp only
    rw [h1, positivePart_eq_max, negativePart_eq_max]
    refine max_lt (max_lt hpos (by linarith)) (max_lt hpos hstrict)

/-- **C64 (violation, `γ = 3`).** For `γ > 5/3` the two-rarefaction pressure is not an upper bound either: two gas streams
colliding at a fifth of the speed of sound produce two shocks that are faster than the wave speed returned by the solver
with its default parameters. -/
theorem C64_euler_wave_speed_gamma_violation (rp : RiemannParams) (h0 : rp.newton_max_iterations = 0) :
    ∃ (p : Params) (U_i U_j : State 1) (ps : ℝ), p.gamma = 3 ∧ 0 < density U_i ∧ 0 < internalEnergy U_i ∧
      0 < density U_j ∧ 0 < internalEnergy U_j ∧ IsStarPressure p U_i U_j (fun _ => 1) ps ∧ pressure p U_i < ps ∧
      pressure p U_j < ps ∧
      riemann p rp (fun _ : Fin 1 => U_i) (fun _ => U_j) (fun _ _ => 1) 0 < rightSpeed p U_j (fun _ => 1) ps ∧
      riemann p rp (fun _ : Fin 1 => U_i) (fun _ => U_j) (fun _ _ => 1) 0 < -leftSpeed p U_i (fun _ => 1) ps := by
  set p : Params := ⟨3, 1, 10, 10000, 0⟩ with hp
  have hgam : p.gamma = 3 := rfl
  have hg : 1 < p.gamma := by rw [hgam]; norm_num
  set w : ℝ := √3 / 10 with hw
  have h3 : √3 * √3 = 3 := Real.mul_self_sqrt (by norm_num)
  have h3pos : 0 < √3 := Real.sqrt_pos.2 (by norm_num)
  set ps : ℝ := 103 / 100 + √(909 / 10000) with hps
  have hsq : √(909 / 10000 : ℝ) * √(909 / 10000) = 909 / 10000 := Real.mul_self_sqrt (by norm_num)
  have hps_lb : 1331 / 1000 < ps := by
    have : (301 / 1000 : ℝ) < √(909 / 10000) := by rw [Real.lt_sqrt (by norm_num)]; norm_num
    rw [hps]; linarith
  obtain ⟨i, j, gi, gj, ei, ej, hriem⟩ := riemann_default p hg rp h0 (ri := 1) (ui := w) (pi := 1) (rj := 1) (uj := -w)
    (pj := 1) one_pos one_pos one_pos one_pos
  have hsound : Spec.gasSound 3 1 1 = √3 := by unfold Spec.gasSound; norm_num
  have hwave : Spec.gasWave 3 1 1 ps = w := by
    unfold Spec.gasWave
    rw [if_neg (by linarith)]
    have hpos : 0 < ps + (3 - 1) / (3 + 1) * 1 := by linarith
    have e1 : (ps - 1) * √(2 / ((3 + 1) * 1) / (ps + (3 - 1) / (3 + 1) * 1)) =
        √((ps - 1) ^ 2 * (2 / ((3 + 1) * 1) / (ps + (3 - 1) / (3 + 1) * 1))) := by
      rw [Real.sqrt_mul (sq_nonneg _), Real.sqrt_sq (by linarith)]
    rw [e1]
    have e2 : (ps - 1) ^ 2 * (2 / ((3 + 1) * 1) / (ps + (3 - 1) / (3 + 1) * 1)) = w ^ 2 := by
      rw [hw, div_pow, show √3 ^ 2 = 3 by rw [sq]; exact h3]
      rw [← mul_div_assoc, div_eq_div_iff hpos.ne' (by norm_num)]
      rw [hps]
      nlinarith [hsq]
    rw [e2, Real.sqrt_sq (by positivity)]
  have hp2 : startP2 p.gamma i j < ps := by
    have hrare : pStarTwoRarefaction p.gamma i j = 1331 / 1000 := by
      unfold pStarTwoRarefaction
      rw [ei, ej]
      dsimp only
      rw [hgam, hsound, positivePart_of_nonneg (by rw [hw]; nlinarith)]
      have e1 : (√3 + √3 - (3 - 1) * (1 / 2) * (-w - w)) / (√3 * (1 * (1 / 1) : ℝ) ^ (-((3 - 1) * (1 / 2)) * (1 / 3) : ℝ) + √3)
          = 11 / 10 := by
        rw [show (1 * (1 / 1) : ℝ) = 1 by norm_num, Real.one_rpow, hw]
        field_simp
        norm_num
      rw [e1, show (2 * 3 * (1 / (3 - 1)) : ℝ) = ((3 : ℕ) : ℝ) by norm_num, Real.rpow_natCast]
      norm_num
    have hle : min (pStarTwoRarefaction p.gamma i j) (pStarFailsafe p.gamma i j) < ps :=
      (min_le_left _ _).trans_lt (by rw [hrare]; exact hps_lb)
    unfold startP2 maskLt
    dsimp only
    split_ifs
    · exact hle
    · exact (min_le_right _ _).trans_lt hle
  have hfac := gasSpeedFactor_strict hg one_pos (by linarith : (1 : ℝ) < ps) hp2
  have hs0 : 0 < Spec.gasSound p.gamma 1 1 := by rw [hgam, hsound]; exact h3pos
  have hmul := mul_lt_mul_of_pos_left hfac hs0
  have h1 : lambda1Minus p.gamma i (startP2 p.gamma i j) = w - Spec.gasSound p.gamma 1 1 *
      Spec.gasSpeedFactor p.gamma 1 (startP2 p.gamma i j) := by
    rw [lambda1Minus_eq hg gi, ei]; rfl
  have h3' : lambda3Plus p.gamma j (startP2 p.gamma i j) = -w + Spec.gasSound p.gamma 1 1 *
      Spec.gasSpeedFactor p.gamma 1 (startP2 p.gamma i j) := by
    rw [lambda3Plus_eq hg gj, ej]; rfl
  have hlam : riemann p rp (fun _ : Fin 1 => gasState p 1 w 1) (fun _ => gasState p 1 (-w) 1) (fun _ _ => 1) 0 <
      -w + Spec.gasSound p.gamma 1 1 * Spec.gasSpeedFactor p.gamma 1 ps := by
    rw [hriem]
    have hpos : 0 < -w + Spec.gasSound p.gamma 1 1 * Spec.gasSpeedFactor p.gamma 1 ps := by
      have := mul_le_mul_of_nonneg_left (one_le_gasSpeedFactor (p := ps) hg one_pos) hs0.le
      rw [hgam, hsound] at this ⊢
      rw [hw]
      linarith
    unfold computeLambda
    dsimp only
    rw [h1, h3', positivePart_eq_max, negativePart_eq_max]
    exact max_lt (max_lt hpos (by linarith)) (max_lt hpos (by linarith))
  refine ⟨p, gasState p 1 w 1, gasState p 1 (-w) 1, ps, hgam, by simp, ?_, by simp, ?_, ?_, ?_, ?_, ?_, ?_⟩
  · rw [gasState_internalEnergy p one_ne_zero, hgam]; norm_num
  · rw [gasState_internalEnergy p one_ne_zero, hgam]; norm_num
  · unfold IsStarPressure
    rw [gasState_pressure p hg one_ne_zero, gasState_pressure p hg one_ne_zero, gasState_velocity p one_ne_zero,
      gasState_velocity p one_ne_zero, gasState_density, gasState_density]
    refine ⟨by linarith, ?_⟩
    rw [hgam, hwave]
    ring
  · rw [gasState_pressure p hg one_ne_zero]; linarith
  · rw [gasState_pressure p hg one_ne_zero]; linarith
  · unfold rightSpeed Spec.gasRightSpeed
    rw [gasState_pressure p hg one_ne_zero, gasState_velocity p one_ne_zero, gasState_density]
    exact hlam
  · unfold leftSpeed Spec.gasLeftSpeed
    rw [gasState_pressure p hg one_ne_zero, gasState_velocity p one_ne_zero, gasState_density]
    linarith

end Euler
end Ryujin
