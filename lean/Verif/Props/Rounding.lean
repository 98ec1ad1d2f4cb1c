import Verif.Proofs.Rounding

/-!
# C119: the limiters in floating point arithmetic

All limiters, with every intermediate result rounded, for every choice of contracted operations.
-/

namespace Ryujin
namespace Rounded

open Rounding

/-- `t` is a coefficient that one of the limiters returns in one lane for the bounds `m`, `M` of the density (or water depth, or scalar
quantity), its value `U` and the update `P`: there are no conditions on the other lanes, nor on the accuracy of `psi`, its derivatives and the
Newton iterations. -/
inductive Coefficient (R : Rounding) (eps : ℝ) : ℝ → ℝ → ℝ → ℝ → ℝ → Prop
  | euler {L : ℕ} (s : Fin L → Contraction) (psi : ℕ → Fin L → ℝ → ℝ) (stop : ℕ → (Fin L → ℝ) → (Fin L → ℝ) → Prop)
      (candidates : ℕ → Fin L → ℝ → ℝ → ℝ × ℝ) (iterations : ℕ) (m M U P : Fin L → ℝ) (l : Fin L) :
      Coefficient R eps (m l) (M l) (U l) (P l)
        (eulerLimit R s eps psi stop candidates iterations m M U P (fun _ => 0) (fun _ => 1) l)
  | scalar {L : ℕ} (s : Fin L → Contraction) (tiny : ℝ) (m M U P : Fin L → ℝ) (l : Fin L) :
      Coefficient R eps (m l) (M l) (U l) (P l) (scalarLimit R s eps tiny m M U P (fun _ => 0) (fun _ => 1) l)
  | shallow {L : ℕ} (s : Fin L → Contraction) (tiny : ℝ) (htiny : 0 ≤ tiny) (kin vel : Bool) (psi : Bool → Fin L → ℝ → ℝ)
      (stop : Bool → (Fin L → ℝ) → (Fin L → ℝ) → Prop) (candidates : Bool → Fin L → ℝ → ℝ → ℝ × ℝ) (m M small U P : Fin L → ℝ) (l : Fin L) :
      Coefficient R eps (max (small l) (m l)) (M l) (U l) (P l)
        (shallowLimit R s eps tiny kin vel psi stop candidates m M small U P (fun _ => 0) (fun _ => 1) l)

theorem Coefficient.fit {R : Rounding} {eps m M U P t : ℝ} (h : Coefficient R eps m M U P t) (hu : R.u ≤ 1 / 100) (heps : 0 ≤ eps) (hM : 0 ≤ M) :
    ∃ (s : Contraction) (den : ℝ), 0 ≤ den ∧ den * |P| ≤ 1 + 3 * R.u ∧ 0 ≤ t ∧ t ≤ Rounded.fit R s den m M U P 0 1 := by
  cases h with
  | euler s psi stop candidates iterations m M U P l =>
    have h := newtonLoop_mem psi stop candidates iterations 0 (fun _ => 0) (fun l =>
      Rounded.fit R (s l) (eulerDenominator R (s l) eps (M l) (P l)) (m l) (M l) (U l) (P l) 0 1) (fun l => le_max_right _ _) l
    exact ⟨s l, _, (eulerDenominator_spec R (s l) hu heps hM).1, (eulerDenominator_spec R (s l) hu heps hM).2, h⟩
  | scalar s tiny m M U P l =>
    exact ⟨s l, _, (scalarDenominator_spec R (s l) (tiny := tiny) hu heps hM).1, (scalarDenominator_spec R (s l) hu heps hM).2,
      le_max_right _ _, le_refl _⟩
  | shallow s tiny htiny kin vel psi stop candidates m M small U P l =>
    exact ⟨s l, _, (shallowDenominator_spec R (s l) hu heps htiny hM).1, (shallowDenominator_spec R (s l) hu heps htiny hM).2,
      shallow_mem R s eps tiny kin vel psi stop candidates m M small U P (fun _ => 0) (fun _ => 1) l⟩

/-- **C119.** Whatever is rounded, and however badly: a coefficient is never outside the interval it is asked for, for every equation. -/
theorem C119_window {L : ℕ} (R : Rounding) (s : Fin L → Contraction) (eps tiny : ℝ) (psi : ℕ → Fin L → ℝ → ℝ)
    (stop : ℕ → (Fin L → ℝ) → (Fin L → ℝ) → Prop) (candidates : ℕ → Fin L → ℝ → ℝ → ℝ × ℝ) (iterations : ℕ)
    (kin vel : Bool) (psi' : Bool → Fin L → ℝ → ℝ) (stop' : Bool → (Fin L → ℝ) → (Fin L → ℝ) → Prop)
    (candidates' : Bool → Fin L → ℝ → ℝ → ℝ × ℝ) (m M small U P t_min t_max : Fin L → ℝ) (ht : ∀ l, t_min l ≤ t_max l) (l : Fin L) :
    eulerLimit R s eps psi stop candidates iterations m M U P t_min t_max l ∈ Set.Icc (t_min l) (t_max l) ∧
      scalarLimit R s eps tiny m M U P t_min t_max l ∈ Set.Icc (t_min l) (t_max l) ∧
      shallowLimit R s eps tiny kin vel psi' stop' candidates' m M small U P t_min t_max l ∈ Set.Icc (t_min l) (t_max l) := by
  have hfit : ∀ (c : Contraction) (den m' l), Rounded.fit R c den m' (M l) (U l) (P l) (t_min l) (t_max l) ≤ t_max l := fun c den m' l =>
    max_le (min_le_right _ _) (ht l)
  refine ⟨?_, ⟨le_max_right _ _, hfit _ _ _ l⟩, ?_⟩
  · have h := newtonLoop_mem psi stop candidates iterations 0 t_min (fun l =>
      Rounded.fit R (s l) (eulerDenominator R (s l) eps (M l) (P l)) (m l) (M l) (U l) (P l) (t_min l) (t_max l)) (fun l => le_max_right _ _) l
    exact ⟨h.1, h.2.trans (hfit _ _ _ l)⟩
  · have h := shallow_mem R s eps tiny kin vel psi' stop' candidates' m M small U P t_min t_max l
    exact ⟨h.1, h.2.trans (hfit _ _ _ l)⟩

/-! ### Without rounding these are the limiters of the other chapters -/

theorem fit_exact (s : Contraction) (den m M U P t_min t_max : ℝ) :
    Rounded.fit Rounding.exact s den m M U P t_min t_max =
      max (min (maskLt (U + maskLt M (U + t_max * P) ((M - U) * den) t_max * P) m ((U - m) * den)
        (maskLt M (U + t_max * P) ((M - U) * den) t_max)) t_max) t_min := by
  unfold Rounded.fit mulAdd product Rounding.exact
  simp

theorem eulerDenominator_exact (s : Contraction) (eps M P : ℝ) : eulerDenominator Rounding.exact s eps M P = 1 / (|P| + eps * M) := by
  unfold eulerDenominator mulAdd product Rounding.exact
  simp

theorem newtonLoop_exact {L : ℕ} (eps tolerance : ℝ) (psi dpsi lower : Fin L → ℝ → ℝ) : ∀ (fuel n : ℕ) (t_l t_r : Fin L → ℝ) (success : Prop),
    newtonLoop (fun _ => psi) (fun _ => realStop tolerance) (fun _ l => realCandidates eps (psi l) (dpsi l)) fuel n t_l t_r =
      (Ryujin.newtonLoop eps tolerance psi dpsi lower fuel n t_l t_r success).1
  | 0, _, _, _, _ => rfl
  | fuel + 1, n, t_l, t_r, success => by
    rw [newtonLoop, Ryujin.newtonLoop]
    dsimp only
    by_cases h1 : (fun l => maskGt (psi l (t_r l)) 0 (t_r l) (t_l l)) = t_r
    · rw [if_pos h1, if_pos h1]
    · rw [if_neg h1, if_neg h1]
      by_cases h2 : ∀ l, max 0 (t_r l - maskGt (psi l (t_r l)) 0 (t_r l) (t_l l) - tolerance) = 0
      · rw [if_pos h2, if_pos (show realStop tolerance _ t_r from h2)]
      · rw [if_neg h2, if_neg (show ¬ realStop tolerance _ t_r from h2)]
        exact newtonLoop_exact eps tolerance psi dpsi lower fuel (n + 1) _ _ _

/-- **C119.** Without rounding the rounded limiter is the limiter of the Euler equations. -/
theorem C119_exact_euler {dim L : ℕ} (s : Fin L → Contraction) (p : Euler.Params) (lp : LimiterParams) (bounds : Fin L → Euler.Bounds)
    (U P : Fin L → Euler.State dim) (t_min t_max : Fin L → ℝ) :
    eulerLimit Rounding.exact s p.eps (fun _ l => Euler.psi p (bounds l).s_min (U l) (P l)) (fun _ => realStop lp.newton_tolerance)
      (fun _ l => realCandidates p.eps (Euler.psi p (bounds l).s_min (U l) (P l)) (Euler.dpsi p (bounds l).s_min (U l) (P l)))
      lp.newton_max_iterations (fun l => (bounds l).rho_min) (fun l => (bounds l).rho_max) (fun l => Euler.density (U l))
      (fun l => Euler.density (P l)) t_min t_max = (Euler.limit p lp bounds U P t_min t_max).1 := by
  refine Eq.trans ?_ (newtonLoop_exact p.eps lp.newton_tolerance (fun l => Euler.psi p (bounds l).s_min (U l) (P l))
    (fun l => Euler.dpsi p (bounds l).s_min (U l) (P l)) (fun l => Euler.lowerBound p (bounds l).s_min (U l) (P l))
    lp.newton_max_iterations 0 t_min _ _)
  unfold eulerLimit
  congr 1
  funext l
  rw [fit_exact, eulerDenominator_exact]
  rfl

/-- **C119.** The same for an arbitrary equation of state. -/
theorem C119_exact_aeos {dim L : ℕ} (s : Fin L → Contraction) (p : Aeos.Params) (lp : LimiterParams) (bounds : Fin L → Aeos.Bounds)
    (U P : Fin L → Euler.State dim) (t_min t_max : Fin L → ℝ) :
    eulerLimit Rounding.exact s p.eps (fun _ l => Aeos.psi p (bounds l).gamma_min (bounds l).s_min (U l) (P l))
      (fun _ => realStop lp.newton_tolerance)
      (fun _ l => realCandidates p.eps (Aeos.psi p (bounds l).gamma_min (bounds l).s_min (U l) (P l))
        (Aeos.dpsi p (bounds l).gamma_min (bounds l).s_min (U l) (P l)))
      lp.newton_max_iterations (fun l => (bounds l).rho_min) (fun l => (bounds l).rho_max) (fun l => Euler.density (U l))
      (fun l => Euler.density (P l)) t_min t_max = (Aeos.limit p lp bounds U P t_min t_max).1 := by
  refine Eq.trans ?_ (newtonLoop_exact p.eps lp.newton_tolerance
    (fun l => Aeos.psi p (bounds l).gamma_min (bounds l).s_min (U l) (P l))
    (fun l => Aeos.dpsi p (bounds l).gamma_min (bounds l).s_min (U l) (P l))
    (fun l => Aeos.lowerBound p (bounds l).gamma_min (bounds l).s_min (U l) (P l))
    lp.newton_max_iterations 0 t_min _ _)
  unfold eulerLimit
  congr 1
  funext l
  rw [fit_exact, eulerDenominator_exact]
  rfl

/-- **C119.** The same for scalar equations. -/
theorem C119_exact_scalar {L : ℕ} (s : Fin L → Contraction) (eps tiny : ℝ) (b : Fin L → Scalar.Bounds) (U P : Fin L → Scalar.State)
    (t_min t_max : Fin L → ℝ) :
    scalarLimit Rounding.exact s eps tiny (fun l => (b l).u_min) (fun l => (b l).u_max) (fun l => Scalar.state (U l))
      (fun l => Scalar.state (P l)) t_min t_max = (Scalar.limit eps tiny b U P t_min t_max).1 := by
  funext l
  unfold scalarLimit
  rw [fit_exact]
  unfold scalarDenominator mulAdd product Rounding.exact Scalar.limit Scalar.limitLane
  simp

theorem newtonOnce_exact {L : ℕ} (eps tolerance : ℝ) (psi dpsi lower : Fin L → ℝ → ℝ) (t_l t_r : Fin L → ℝ) (success : Prop) :
    newtonOnce (realStop tolerance) (fun l => realCandidates eps (psi l) (dpsi l)) t_l t_r =
      (ShallowWater.newtonOnce eps tolerance psi dpsi lower t_l t_r success).1 := by
  unfold newtonOnce ShallowWater.newtonOnce
  by_cases h : ∀ l, max 0 (t_r l - t_l l - tolerance) = 0
  · rw [if_pos h, if_pos (show realStop tolerance _ t_r from h)]
  · rw [if_neg h, if_neg (show ¬ realStop tolerance _ t_r from h)]
    rfl

theorem velocityStage_exact {dim L : ℕ} (p : ShallowWater.Params) (lp : ShallowWater.LimiterParams) (bounds : Fin L → ShallowWater.Bounds)
    (U P : Fin L → ShallowWater.State dim) (t_l t_r : Fin L → ℝ) (success : Prop) :
    velocityStage (fun l => ShallowWater.psiVel p (bounds l).v2_max (U l) (P l)) (realStop lp.newton_tolerance)
      (fun l => realCandidates p.eps (ShallowWater.psiVel p (bounds l).v2_max (U l) (P l)) (ShallowWater.dpsiVel (bounds l).v2_max (U l) (P l)))
      t_l t_r = (ShallowWater.velocityStage p lp bounds U P t_l t_r success).1 := by
  unfold velocityStage ShallowWater.velocityStage
  dsimp only
  by_cases h : (fun l => maskGt (ShallowWater.psiVel p (bounds l).v2_max (U l) (P l) (t_r l)) 0 (t_r l) (t_l l)) = t_r
  · rw [if_pos h, if_pos h]
  · rw [if_neg h, if_neg h]
    exact newtonOnce_exact _ _ _ _ _ _ _ _

/-- **C119.** The same for the shallow water equations. -/
theorem C119_exact_shallow {dim L : ℕ} (s : Fin L → Contraction) (p : ShallowWater.Params) (lp : ShallowWater.LimiterParams)
    (bounds : Fin L → ShallowWater.Bounds) (U P : Fin L → ShallowWater.State dim) (t_min t_max : Fin L → ℝ) :
    shallowLimit Rounding.exact s p.eps p.tiny lp.limit_on_kinetic_energy lp.limit_on_square_velocity
      (fun velocity l => if velocity then ShallowWater.psiVel p (bounds l).v2_max (U l) (P l)
        else ShallowWater.psiKin p (bounds l).kin_max (U l) (P l))
      (fun _ => realStop lp.newton_tolerance)
      (fun velocity l => if velocity then
          realCandidates p.eps (ShallowWater.psiVel p (bounds l).v2_max (U l) (P l)) (ShallowWater.dpsiVel (bounds l).v2_max (U l) (P l))
        else realCandidates p.eps (ShallowWater.psiKin p (bounds l).kin_max (U l) (P l)) (ShallowWater.dpsiKin (bounds l).kin_max (U l) (P l)))
      (fun l => (bounds l).h_min) (fun l => (bounds l).h_max) (fun l => (bounds l).h_small) (fun l => ShallowWater.waterDepth (U l))
      (fun l => ShallowWater.waterDepth (P l)) t_min t_max = (ShallowWater.limit p lp bounds U P t_min t_max).1 := by
  have hfit : ∀ l, Rounded.fit Rounding.exact (s l)
      (shallowDenominator Rounding.exact (s l) p.eps p.tiny (bounds l).h_max (ShallowWater.waterDepth (P l)))
      (max (bounds l).h_small (bounds l).h_min) (bounds l).h_max (ShallowWater.waterDepth (U l)) (ShallowWater.waterDepth (P l)) (t_min l)
      (t_max l) = ShallowWater.depthLimit p (bounds l) (ShallowWater.waterDepth (U l)) (ShallowWater.waterDepth (P l)) (t_min l)
      (t_max l) := by
    intro l
    rw [fit_exact]
    unfold shallowDenominator mulAdd product Rounding.exact ShallowWater.depthLimit
    simp
  unfold shallowLimit ShallowWater.limit
  dsimp only
  simp only [hfit, Bool.false_eq_true, if_false, if_true]
  split_ifs
  · rfl
  · rfl
  · rw [newtonOnce_exact p.eps lp.newton_tolerance _ _ (fun l => ShallowWater.lowerKin p (bounds l).kin_max (U l) (P l)) _ _
      (∀ l, ShallowWater.depthInBounds p (bounds l) (ShallowWater.waterDepth (U l)))]
    exact velocityStage_exact p lp bounds U P _ _ _
  · exact newtonOnce_exact _ _ _ _ _ _ _ _
  · exact velocityStage_exact p lp bounds U P _ _ _

/-! ### The guarantees -/

/-- **C119.** Limiting in floating point arithmetic: with the state in bounds, the limited component, computed with rounding, leaves the bounds by
at most `20` units of roundoff of the upper bound. -/
theorem C119_limit {R : Rounding} {eps m M U P t : ℝ} (h : Coefficient R eps m M U P t) (fused : Bool) (hu : R.u ≤ 1 / 100) (heps : 0 ≤ eps)
    (hm : 0 ≤ m) (h1 : m ≤ U) (h2 : U ≤ M) (hU : R.fl U = U) :
    m - 20 * (R.u * M) ≤ mulAdd R fused t P U ∧ mulAdd R fused t P U ≤ M + 20 * (R.u * M) := by
  have u0 := R.u_nonneg
  have hM : 0 ≤ M := by linarith
  have huM := mul_nonneg u0 hM
  obtain ⟨s, den, hd0, hden, ht0, ht⟩ := h.fit hu heps hM
  have hs := fit_spec R s (κ := 0) hu hd0 hden hm hM le_rfl hM (by linarith) (by linarith) hU ht0 ht
  rw [min_eq_left h1, max_eq_left h2] at hs
  have hx := product_err R fused t P
  have c1 : R.u * M ≤ 1 / 100 * M := mul_le_mul_of_nonneg_right hu hM
  have hab : |t * P| ≤ 13 / 10 * M := by
    rw [abs_le]
    constructor <;> linarith [hs.1, hs.2]
  have c2 : R.u * |t * P| ≤ R.u * (13 / 10 * M) := mul_le_mul_of_nonneg_left hab u0
  have hx' := abs_le.1 hx
  have hab2 : |U + product R fused t P| ≤ 2 * M := by
    rw [abs_le]
    constructor <;> linarith [hs.1, hs.2, hx'.1, hx'.2]
  have c3 : R.u * |U + product R fused t P| ≤ R.u * (2 * M) := mul_le_mul_of_nonneg_left hab2 u0
  have d1 := R.fl_le (U + product R fused t P)
  have d2 := R.le_fl (U + product R fused t P)
  unfold mulAdd
  constructor <;> linarith [hs.1, hs.2, hx'.1, hx'.2]

/-- **C119.** First round: the component after adding up the limited updates of all neighbours leaves the bounds by at most `2 n + 22` units of
roundoff of the upper bound, where `n` is the number of neighbours.  The coefficients are those of the limiter for this row, or smaller ones (the
coefficients of the transposed entries). -/
theorem C119_first_round {R : Rounding} {eps m M U : ℝ} (row : List Neighbour) (heps : 0 ≤ eps)
    (hn : (2 * row.length + 22) * R.u ≤ 1 / 10) (hm : 0 ≤ m) (h1 : m ≤ U) (h2 : U ≤ M) (hU : R.fl U = U)
    (h : ∀ e ∈ row, 0 ≤ e.first ∧ ∃ t, Coefficient R eps m M U e.p t ∧ e.first ≤ t) :
    m - (2 * row.length + 22) * (R.u * M) ≤ firstRound R U row ∧ firstRound R U row ≤ M + (2 * row.length + 22) * (R.u * M) := by
  have u0 := R.u_nonneg
  have hM : 0 ≤ M := by linarith
  have hk : (0 : ℝ) ≤ row.length := by positivity
  have hu : R.u ≤ 1 / 100 := by
    have := mul_nonneg hk u0
    linarith
  have hr := round_spec R (m := m) (M := M) (a := U) (κ := 0) (w := 16) (row.map fun e => (e.first, e.p, e.fused.1)) hu (by norm_num)
    (by rw [List.length_map]; linarith) hm hM le_rfl (by linarith) (by linarith) (by linarith) (by
      intro e he
      obtain ⟨x, hx, rfl⟩ := List.mem_map.1 he
      obtain ⟨h0, t, hc, hle⟩ := h x hx
      obtain ⟨s, den, hd0, hden, ht0, ht⟩ := hc.fit hu heps hM
      exact ⟨h0, fit_spec R s (κ := 0) hu hd0 hden hm hM le_rfl hM (by linarith) (by linarith) hU h0 (hle.trans ht)⟩)
  rw [List.length_map, min_eq_left h1, max_eq_left h2] at hr
  unfold firstRound
  constructor <;> linarith [hr.1, hr.2]

/-- **C119.** Second round: the limiter is called with a state that may be out of bounds by the errors of the first round, and with the rest of
the updates.  After the round the component leaves the bounds by at most `6 n + 72` units of roundoff of the upper bound. -/
theorem C119_second_round {R : Rounding} {eps m M U : ℝ} (row : List Neighbour) (heps : 0 ≤ eps)
    (hn : (2 * row.length + 28) * R.u ≤ 1 / 10) (hm : 0 ≤ m) (h1 : m ≤ U) (h2 : U ≤ M) (hU : R.fl U = U)
    (h : ∀ e ∈ row, 0 ≤ e.first ∧ ∃ t, Coefficient R eps m M U e.p t ∧ e.first ≤ t)
    (h' : ∀ e ∈ row, 0 ≤ e.second ∧ ∃ t, Coefficient R eps m M (firstRound R U row) (nextP R e.first e.p) t ∧ e.second ≤ nextL R e.first t) :
    m - (4 * row.length + 50) * (R.u * M) ≤ secondRound R U row ∧ secondRound R U row ≤ M + (6 * row.length + 72) * (R.u * M) := by
  have u0 := R.u_nonneg
  have hM : 0 ≤ M := by linarith
  have huM := mul_nonneg u0 hM
  have hk : (0 : ℝ) ≤ row.length := by positivity
  have hku := mul_nonneg hk u0
  have hu : R.u ≤ 1 / 100 := by linarith
  obtain ⟨f1, f2⟩ := C119_first_round row heps (by linarith) hm h1 h2 hU h
  have hfl : R.fl (firstRound R U row) = firstRound R U row := fl_update R _ _ hU
  have hκ : (2 * row.length + 22) * (R.u * M) ≤ M / 10 := by
    have := mul_le_mul_of_nonneg_right (show (2 * (row.length : ℝ) + 22) * R.u ≤ 1 / 10 by linarith) hM
    linarith
  have hκ0 : 0 ≤ (2 * (row.length : ℝ) + 22) * (R.u * M) := by positivity
  have c1 : R.u * M ≤ 1 / 100 * M := mul_le_mul_of_nonneg_right hu hM
  unfold secondRound
  set a := firstRound R U row with ha
  set κ := (2 * (row.length : ℝ) + 22) * (R.u * M) with hκdef
  have hr := round_spec R (m := m) (M := M) (a := a) (κ := κ) (w := 22) (row.map fun e => (e.second, e.p, e.fused.2)) hu (by norm_num)
    (by rw [List.length_map]; linarith) hm hM hκ0 hκ (by linarith) (by linarith) (by
      intro e he
      obtain ⟨x, hx, rfl⟩ := List.mem_map.1 he
      obtain ⟨h0, t, hc, hle⟩ := h' x hx
      obtain ⟨g0, t1, hc1, hle1⟩ := h x hx
      obtain ⟨s, den, hd0, hden, ht0, ht⟩ := hc.fit hu heps hM
      obtain ⟨s', den', -, -, -, ht'⟩ := hc1.fit hu heps hM
      have hone : x.first ≤ 1 := (hle1.trans ht').trans (max_le (min_le_right _ _) zero_le_one)
      have hf := fit_spec R s (κ := κ) hu hd0 hden hm hM hκ0 (by linarith) (by linarith) (by linarith) hfl ht0 ht
      have hmin := min_le_right m a
      have hmax := le_max_right M a
      have hlo1 : a - min m a ≤ 11 / 10 * M := by
        rcases le_total m a with h | h
        · rw [min_eq_left h]; linarith
        · rw [min_eq_right h]; linarith
      have hhi1 : max M a - a ≤ 11 / 10 * M := by
        rcases le_total M a with h | h
        · rw [max_eq_right h]; linarith
        · rw [max_eq_left h]; linarith
      have hs := second_spec R (M := M) (lo := a - min m a + 16 * (R.u * M)) (hi := (max M a - a) + κ + 16 * (R.u * M)) hu hM hone ht0 rfl
        (by linarith [hf.1]) (by linarith [hf.2]) (by linarith) (by linarith) (by linarith) (by linarith) h0 hle
      refine ⟨h0, ?_, ?_⟩
      · linarith [hs.1]
      · linarith [hs.2])
  rw [List.length_map] at hr
  have hmin : m - κ ≤ min m a := le_min (by linarith) (by linarith)
  have hmax : max M a ≤ M + κ := max_le (by linarith) (by linarith)
  constructor <;> linarith [hr.1, hr.2]

/-- **C119.** The errors of the first round do not spoil the test of the second round, as long as the upper bound is at most `r` times the lower
one and `6/5 (2 n + 24) r` units of roundoff are tolerated (in double precision the default of `relax - 1` is `20000` units). -/
theorem C119_no_warning {R : Rounding} {eps m M U r relax : ℝ} (row : List Neighbour) (heps : 0 ≤ eps) (hr : 1 ≤ r)
    (hn : (2 * row.length + 24) * r * R.u ≤ 1 / 10) (hm : 0 ≤ m) (h1 : m ≤ U) (h2 : U ≤ M) (hU : R.fl U = U)
    (h : ∀ e ∈ row, 0 ≤ e.first ∧ ∃ t, Coefficient R eps m M U e.p t ∧ e.first ≤ t)
    (hrM : M ≤ r * m) (hrelax : 1 + 6 / 5 * ((2 * row.length + 24) * r * R.u) ≤ relax) :
    inBounds R relax m M (firstRound R U row) := by
  have u0 := R.u_nonneg
  have hM : 0 ≤ M := by linarith
  have hk : (0 : ℝ) ≤ row.length := by positivity
  have hku : 0 ≤ (2 * (row.length : ℝ) + 24) * R.u := by positivity
  have hkr : (2 * (row.length : ℝ) + 24) * R.u * 1 ≤ (2 * (row.length : ℝ) + 24) * R.u * r := mul_le_mul_of_nonneg_left hr hku
  have hur : R.u * 1 ≤ R.u * r := mul_le_mul_of_nonneg_left hr u0
  have hkur : 0 ≤ (row.length : ℝ) * R.u := by positivity
  have hkurr : 0 ≤ (row.length : ℝ) * r * R.u := by positivity
  have hu : R.u ≤ 1 / 100 := by linarith
  obtain ⟨f1, f2⟩ := C119_first_round row heps (by linarith) hm h1 h2 hU h
  set f := firstRound R U row
  set c := (2 * (row.length : ℝ) + 24) * r * R.u with hc
  have hc0 : 0 ≤ c := by positivity
  have hcu : (2 * (row.length : ℝ) + 22) * R.u + R.u ≤ c := by linarith
  have hdown : ∀ {x : ℝ}, x ≤ 0 → max 0 (R.fl x) = 0 := fun hx => max_eq_left (R.fl_nonpos hx)
  have hrel0 : 0 ≤ relax := by linarith
  constructor
  · apply hdown
    have a1 := fl_ge_of_nonneg R (mul_nonneg hrel0 hM)
    have a2 : (1 + 6 / 5 * c) * (1 - R.u) ≤ relax * (1 - R.u) := mul_le_mul_of_nonneg_right hrelax (by linarith)
    have a3 : c * R.u ≤ c * (1 / 100) := mul_le_mul_of_nonneg_left hu hc0
    have a4 : 1 + (2 * (row.length : ℝ) + 22) * R.u ≤ relax * (1 - R.u) := by linarith
    have a5 := mul_le_mul_of_nonneg_right a4 hM
    linarith
  · apply hdown
    have b1 : (2 * (row.length : ℝ) + 22) * (R.u * M) ≤ (2 * (row.length : ℝ) + 22) * (R.u * (r * m)) :=
      mul_le_mul_of_nonneg_left (mul_le_mul_of_nonneg_left hrM u0) (by positivity)
    have b2 : m * (1 - (c - 2 * r * R.u)) ≤ f := by
      have : (2 * (row.length : ℝ) + 22) * (R.u * (r * m)) = m * (c - 2 * r * R.u) := by rw [hc]; ring
      linarith
    have b20 : 0 ≤ r * R.u := by positivity
    have b3 : 0 ≤ f := le_trans (mul_nonneg hm (by linarith)) b2
    have a1 := fl_ge_of_nonneg R (mul_nonneg hrel0 b3)
    have a2 : (1 + 6 / 5 * c) * (f * (1 - R.u)) ≤ relax * (f * (1 - R.u)) :=
      mul_le_mul_of_nonneg_right hrelax (mul_nonneg b3 (by linarith))
    have a3 : m * (1 - (c - 2 * r * R.u)) * (1 - R.u) ≤ f * (1 - R.u) := mul_le_mul_of_nonneg_right b2 (by linarith)
    have a4 : (1 + 6 / 5 * c) * (m * (1 - (c - 2 * r * R.u)) * (1 - R.u)) ≤ (1 + 6 / 5 * c) * (f * (1 - R.u)) :=
      mul_le_mul_of_nonneg_left a3 (by linarith)
    have a5 : (1 : ℝ) - c ≤ (1 - (c - 2 * r * R.u)) * (1 - R.u) := by
      have : (c - 2 * r * R.u) * R.u ≥ 0 := mul_nonneg (by linarith) u0
      linarith
    have a6 : (1 : ℝ) ≤ (1 + 6 / 5 * c) * (1 - c) := by
      have : c * c ≤ c * (1 / 10) := mul_le_mul_of_nonneg_left hn hc0
      linarith
    have a7 : (1 + 6 / 5 * c) * (1 - c) ≤ (1 + 6 / 5 * c) * ((1 - (c - 2 * r * R.u)) * (1 - R.u)) :=
      mul_le_mul_of_nonneg_left a5 (by linarith)
    have a8 := mul_le_mul_of_nonneg_left (a6.trans a7) hm
    linarith

/-- **C119.** Positivity of the density and the water depth in floating point arithmetic, after both rounds, unless the lower bound is smaller
than the upper one by about `14` orders of magnitude. -/
theorem C119_positive {R : Rounding} {eps m M U : ℝ} (row : List Neighbour) (heps : 0 ≤ eps)
    (hn : (2 * row.length + 28) * R.u ≤ 1 / 10) (hm : (4 * row.length + 50) * (R.u * M) < m) (h1 : m ≤ U) (h2 : U ≤ M) (hM : 0 ≤ M)
    (hU : R.fl U = U) (h : ∀ e ∈ row, 0 ≤ e.first ∧ ∃ t, Coefficient R eps m M U e.p t ∧ e.first ≤ t)
    (h' : ∀ e ∈ row, 0 ≤ e.second ∧ ∃ t, Coefficient R eps m M (firstRound R U row) (nextP R e.first e.p) t ∧ e.second ≤ nextL R e.first t) :
    0 < firstRound R U row ∧ 0 < secondRound R U row := by
  have u0 := R.u_nonneg
  have huM := mul_nonneg u0 hM
  have hk : (0 : ℝ) ≤ row.length := by positivity
  have hkM := mul_nonneg hk huM
  have hm0 : 0 ≤ m := le_trans (by positivity) hm.le
  have a := C119_first_round row heps (by linarith [mul_nonneg hk u0]) hm0 h1 h2 hU h
  have b := C119_second_round row heps hn hm0 h1 h2 hU h h'
  constructor <;> linarith [a.1, b.1]

/-! ### Bounds are not respected to the last bit -/

theorem double_fl_nat {x : ℝ} {e n : ℤ} (h1 : (2 : ℝ) ^ e ≤ x) (h2 : x < (2 : ℝ) ^ (e + 1)) (h3 : (n : ℝ) - 1 / 2 < x / (2 : ℝ) ^ (e - 52))
    (h4 : x / (2 : ℝ) ^ (e - 52) < (n : ℝ) + 1 / 2) : Rounding.double.fl x = n * (2 : ℝ) ^ (e - 52) := by
  have h := nearest_eq (p := 53) (x := x) (e := e) (n := n) h1 h2 (by norm_num at h3 ⊢; linarith) (by norm_num at h4 ⊢; linarith)
  norm_num at h
  exact h

/-- The double nearest to `1 / 5`; it is larger than `1 / 5`. -/
theorem double_fifth : Rounding.double.fl (1 / 5) = 7205759403792794 * (2 : ℝ) ^ (-55 : ℤ) := by
  have := double_fl_nat (x := 1 / 5) (e := -3) (n := 7205759403792794) (by norm_num) (by norm_num) (by norm_num) (by norm_num)
  norm_num at this ⊢
  exact this

theorem double_one : Rounding.double.fl 1 = 1 := by
  have := double_fl_nat (x := 1) (e := 0) (n := 2 ^ 52) (by norm_num) (by norm_num) (by norm_num) (by norm_num)
  norm_num at this
  exact this

theorem double_five : Rounding.double.fl (5 + 2 ^ (-52 : ℤ)) = 5 := by
  have := double_fl_nat (x := 5 + 2 ^ (-52 : ℤ)) (e := 2) (n := 5 * 2 ^ 50) (by norm_num) (by norm_num) (by norm_num) (by norm_num)
  norm_num at this ⊢
  exact this

theorem double_eps : Rounding.double.fl (2 ^ (-52 : ℤ)) = 2 ^ (-52 : ℤ) := by
  have := double_fl_nat (x := 2 ^ (-52 : ℤ)) (e := -52) (n := 2 ^ 52) (by norm_num) (by norm_num) (by norm_num) (by norm_num)
  norm_num at this ⊢
  exact this

theorem double_below_one : Rounding.double.fl (1 - 2 ^ (-100 : ℤ)) = 1 := by
  have := double_fl_nat (x := 1 - 2 ^ (-100 : ℤ)) (e := -1) (n := 2 ^ 53) (by norm_num) (by norm_num) (by norm_num) (by norm_num)
  norm_num at this ⊢
  exact this

/-- **C119 (violation).** In double precision the limited value of a scalar equation may be negative, even with a positive lower bound: value `1`,
bounds `[2 ^ -100, 1]`, one neighbour with the update `-5`.  The coefficient is `fl (1 / 5)`, which is larger than `1 / 5`. -/
theorem C119_violation (s : Contraction) {tiny : ℝ} (h2 : tiny ≤ 1 / 100) :
    firstRound Rounding.double 1 [⟨-5, scalarLimit Rounding.double (fun _ : Fin 1 => s) (2 ^ (-52 : ℤ)) tiny (fun _ => 2 ^ (-100 : ℤ))
      (fun _ => 1) (fun _ => 1) (fun _ => -5) (fun _ => 0) (fun _ => 1) 0, 0, true, true⟩] < 0 := by
  have hu : Rounding.double.u = 2 ^ (-53 : ℤ) := rfl
  have hden : scalarDenominator Rounding.double s (2 ^ (-52 : ℤ)) tiny 1 (-5) = Rounding.double.fl (1 / 5) := by
    unfold scalarDenominator mulAdd
    have hp : product Rounding.double s.denominator (2 ^ (-52 : ℤ)) 1 = 2 ^ (-52 : ℤ) := by
      unfold product
      rw [mul_one, double_eps, ite_self]
    rw [hp, show |(-5 : ℝ)| = 5 by norm_num, double_five, max_eq_right]
    have := Rounding.double.mono (show 100 * tiny ≤ 1 by linarith)
    rw [double_one] at this
    linarith
  set d := Rounding.double.fl (1 / 5) with hd
  have hdv : d = 7205759403792794 * (2 : ℝ) ^ (-55 : ℤ) := double_fifth
  have hd1 : d ≤ 1 := by rw [hdv]; norm_num
  have hd0 : 0 ≤ d := by rw [hdv]; positivity
  have hflm : Rounding.double.fl d = d := Rounding.double.idem _
  have hq : ∀ f, product Rounding.double f 1 (-5) ≤ -1 := by
    intro f
    unfold product
    cases f
    · have := fl_le_of_nonpos Rounding.double (show (1 : ℝ) * -5 ≤ 0 by norm_num)
      rw [hu] at this
      norm_num at this ⊢
      linarith
    · norm_num
  have hfit : Rounded.fit Rounding.double s d (2 ^ (-100 : ℤ)) 1 1 (-5) 0 1 = d := by
    unfold Rounded.fit
    dsimp only
    have e1 : maskLt 1 (mulAdd Rounding.double s.first 1 (-5) 1) (Rounding.double.fl (Rounding.double.fl (1 - 1) * d)) 1 = 1 := by
      unfold maskLt
      rw [if_neg]
      have := Rounding.double.fl_nonpos (show 1 + product Rounding.double s.first 1 (-5) ≤ 0 by linarith [hq s.first])
      exact not_lt.2 (this.trans zero_le_one)
    rw [e1]
    have e2 : maskLt (mulAdd Rounding.double s.second 1 (-5) 1) (2 ^ (-100 : ℤ))
        (Rounding.double.fl (Rounding.double.fl (1 - 2 ^ (-100 : ℤ)) * d)) 1 = d := by
      unfold maskLt
      rw [if_pos, double_below_one, one_mul, hflm]
      have := Rounding.double.fl_nonpos (show 1 + product Rounding.double s.second 1 (-5) ≤ 0 by linarith [hq s.second])
      exact lt_of_le_of_lt this (by positivity)
    rw [e2, min_eq_left hd1, max_eq_left hd0]
  have hl : scalarLimit Rounding.double (fun _ : Fin 1 => s) (2 ^ (-52 : ℤ)) tiny (fun _ => 2 ^ (-100 : ℤ))
      (fun _ => 1) (fun _ => 1) (fun _ => -5) (fun _ => 0) (fun _ => 1) 0 = d := by
    unfold scalarLimit
    rw [hden, hfit]
  rw [hl]
  show mulAdd Rounding.double true (Rounding.double.fl (d * lambda Rounding.double 1)) (-5) 1 < 0
  have hlam : lambda Rounding.double 1 = 1 := by
    unfold lambda
    norm_num [double_one]
  rw [hlam, mul_one, hflm]
  show Rounding.double.fl (1 + d * -5) < 0
  have hx : 1 + d * -5 < 0 := by rw [hdv]; norm_num
  have := fl_le_of_nonpos Rounding.double hx.le
  rw [hu] at this
  have : (1 + d * -5) * (1 - 2 ^ (-53 : ℤ)) < 0 := mul_neg_of_neg_of_pos hx (by norm_num)
  linarith

/-! ### Examples -/

/-- The coefficient of the violation satisfies the hypotheses of the theorems, and so the value leaves the bounds by `24` units of roundoff at
most. -/
example (s : Contraction) : ∃ t, Coefficient Rounding.double (2 ^ (-52 : ℤ)) (2 ^ (-100 : ℤ)) 1 1 (-5) t ∧
    firstRound Rounding.double 1 [⟨-5, t, 0, true, true⟩] < 0 ∧
    -(24 * (2 : ℝ) ^ (-53 : ℤ)) ≤ firstRound Rounding.double 1 [⟨-5, t, 0, true, true⟩] := by
  have hc := Coefficient.scalar (R := Rounding.double) (eps := 2 ^ (-52 : ℤ)) (fun _ : Fin 1 => s) 0 (fun _ => 2 ^ (-100 : ℤ)) (fun _ => 1)
    (fun _ => 1) (fun _ => -5) 0
  refine ⟨_, hc, C119_violation s (by norm_num), ?_⟩
  have hu : Rounding.double.u = 2 ^ (-53 : ℤ) := rfl
  obtain ⟨-, -, -, -, h0, -⟩ := hc.fit (by rw [hu]; norm_num) (by positivity) zero_le_one
  have := (C119_first_round (R := Rounding.double) (eps := 2 ^ (-52 : ℤ)) (m := 2 ^ (-100 : ℤ)) (M := 1) (U := 1) [⟨-5, _, 0, true, true⟩]
    (by positivity) (by rw [hu]; norm_num) (by positivity) (by norm_num) le_rfl double_one
    (fun e he => by rw [List.mem_singleton.1 he]; exact ⟨h0, _, hc, le_rfl⟩)).1
  refine le_trans ?_ this
  rw [hu]
  norm_num

/-- The tolerance of the test in double precision: 26 neighbours and a factor of 200 between the bounds. -/
example : 1 + 6 / 5 * ((2 * ((26 : ℕ) : ℝ) + 24) * 200 * Rounding.double.u) ≤ 1 + 10000 * 2 ^ (-52 : ℤ) ∧
    (2 * ((26 : ℕ) : ℝ) + 24) * 200 * Rounding.double.u ≤ 1 / 10 ∧ (2 * ((26 : ℕ) : ℝ) + 28) * Rounding.double.u ≤ 1 / 10 := by
  have hu : Rounding.double.u = 2 ^ (-53 : ℤ) := rfl
  rw [hu]
  norm_num

end Rounded
end Ryujin
