import Verif.Model.EulerInitialStates
import Verif.Props.EulerInvariantDomain
import Mathlib.Analysis.SpecialFunctions.Trigonometric.Deriv

/-!
# The ramp-up state (C85)
-/

namespace Ryujin
namespace InitialStates

open Euler (State mkState)

variable {d : ℕ}

/-- The weight of the final state. -/
noncomputable def rampWeight (t0 t1 t : ℝ) : ℝ :=
  if t ≤ t0 then 0 else if t ≥ t1 then 1 else 1 - Real.cos (0.5 * Real.pi * (t - t0) / (t1 - t0)) ^ 2

theorem rampUp_eq (A B : State d) (t0 t1 t : ℝ) :
    rampUp A B t0 t1 t = (1 - rampWeight t0 t1 t) • A + rampWeight t0 t1 t • B := by
  unfold rampUp rampWeight
  dsimp only
  split_ifs
  · simp
  · simp
  · rw [sq, sub_sub_cancel]

theorem rampWeight_mem (t0 t1 t : ℝ) : 0 ≤ rampWeight t0 t1 t ∧ rampWeight t0 t1 t ≤ 1 := by
  unfold rampWeight
  split_ifs
  · norm_num
  · norm_num
  · have h1 := Real.cos_sq_le_one (0.5 * Real.pi * (t - t0) / (t1 - t0))
    have h2 := sq_nonneg (Real.cos (0.5 * Real.pi * (t - t0) / (t1 - t0)))
    constructor <;> linarith

/-- The derivative of the weight of the final state. -/
noncomputable def rampSlope (t0 t1 t : ℝ) : ℝ :=
  if t ≤ t0 then 0 else if t ≥ t1 then 0 else 0.5 * Real.pi / (t1 - t0) * Real.sin (Real.pi * (t - t0) / (t1 - t0))

theorem rampWeight_hasDerivAt {t0 t1 : ℝ} (h : t0 < t1) (t : ℝ) : HasDerivAt (rampWeight t0 t1) (rampSlope t0 t1 t) t := by
  have hd := sub_pos.2 h
  -- the formula of the interior, on the whole line
  have hmid : ∀ t, HasDerivAt (fun t => 1 - Real.cos (0.5 * Real.pi * (t - t0) / (t1 - t0)) ^ 2)
      (0.5 * Real.pi / (t1 - t0) * Real.sin (Real.pi * (t - t0) / (t1 - t0))) t := by
    intro t
    have h1 := (((hasDerivAt_id' t).sub_const t0).const_mul (0.5 * Real.pi)).div_const (t1 - t0)
    have h2 := (h1.cos.pow 2).const_sub 1
    refine h2.congr_deriv ?_
    have : Real.pi * (t - t0) / (t1 - t0) = 2 * (0.5 * Real.pi * (t - t0) / (t1 - t0)) := by ring
    rw [this, Real.sin_two_mul]
    norm_num
    ring
  have hs0 : 0.5 * Real.pi / (t1 - t0) * Real.sin (Real.pi * (t0 - t0) / (t1 - t0)) = 0 := by simp
  have hs1 : 0.5 * Real.pi / (t1 - t0) * Real.sin (Real.pi * (t1 - t0) / (t1 - t0)) = 0 := by
    rw [mul_div_cancel_right₀ _ hd.ne', Real.sin_pi, mul_zero]
  rcases lt_trichotomy t t0 with ht | ht | ht
  · have : rampSlope t0 t1 t = 0 := by unfold rampSlope; rw [if_pos ht.le]
    rw [this]
    refine (hasDerivAt_const t (0 : ℝ)).congr_of_eventuallyEq ?_
    filter_upwards [gt_mem_nhds ht] with s hs
    unfold rampWeight
    rw [if_pos (le_of_lt hs)]
  · subst ht
    have : rampSlope t t1 t = 0 := by unfold rampSlope; rw [if_pos le_rfl]
    rw [this]
    have hl : HasDerivWithinAt (rampWeight t t1) 0 (Set.Iic t) t := by
      refine (hasDerivWithinAt_const t _ (0 : ℝ)).congr_of_eventuallyEq ?_ ?_
      · filter_upwards [self_mem_nhdsWithin] with s hs
        unfold rampWeight
        rw [if_pos (Set.mem_Iic.1 hs)]
      · unfold rampWeight
        rw [if_pos le_rfl]
    have hr : HasDerivWithinAt (rampWeight t t1) 0 (Set.Ici t) t := by
      have h1 := (hmid t).hasDerivWithinAt (s := Set.Ici t)
      rw [hs0] at h1
      refine h1.congr_of_eventuallyEq ?_ ?_
      · filter_upwards [self_mem_nhdsWithin, mem_nhdsWithin_of_mem_nhds (gt_mem_nhds h)] with s hs hs1
        unfold rampWeight
        rcases eq_or_lt_of_le (Set.mem_Ici.1 hs) with e | e
        · rw [if_pos e.ge, ← e]
          simp
        · rw [if_neg (not_le.2 e), if_neg (not_le.2 hs1)]
      · unfold rampWeight
        rw [if_pos le_rfl]
        simp
    have := hl.union hr
    rw [Set.Iic_union_Ici] at this
    exact hasDerivWithinAt_univ.1 this
  · rcases lt_trichotomy t t1 with ht1 | ht1 | ht1
    · have : rampSlope t0 t1 t = 0.5 * Real.pi / (t1 - t0) * Real.sin (Real.pi * (t - t0) / (t1 - t0)) := by
        unfold rampSlope; rw [if_neg (not_le.2 ht), if_neg (not_le.2 ht1)]
      rw [this]
      refine (hmid t).congr_of_eventuallyEq ?_
      filter_upwards [lt_mem_nhds ht, gt_mem_nhds ht1] with s hs1 hs2
      unfold rampWeight
      rw [if_neg (not_le.2 hs1), if_neg (not_le.2 hs2)]
    · subst ht1
      have : rampSlope t0 t t = 0 := by unfold rampSlope; rw [if_neg (not_le.2 ht), if_pos le_rfl]
      rw [this]
      have hr : HasDerivWithinAt (rampWeight t0 t) 0 (Set.Ici t) t := by
        refine (hasDerivWithinAt_const t _ (1 : ℝ)).congr_of_eventuallyEq ?_ ?_
        · filter_upwards [self_mem_nhdsWithin] with s hs
          unfold rampWeight
          rw [if_neg (not_le.2 (ht.trans_le (Set.mem_Ici.1 hs))), if_pos (Set.mem_Ici.1 hs)]
        · unfold rampWeight
          rw [if_neg (not_le.2 ht), if_pos le_rfl]
      have hl : HasDerivWithinAt (rampWeight t0 t) 0 (Set.Iic t) t := by
        have h1 := (hmid t).hasDerivWithinAt (s := Set.Iic t)
        rw [hs1] at h1
        have hval : Real.cos (0.5 * Real.pi * (t - t0) / (t - t0)) = 0 := by
          rw [mul_div_cancel_right₀ _ hd.ne']
          have : 0.5 * Real.pi = Real.pi / 2 := by ring
          rw [this, Real.cos_pi_div_two]
        refine h1.congr_of_eventuallyEq ?_ ?_
        · filter_upwards [self_mem_nhdsWithin, mem_nhdsWithin_of_mem_nhds (lt_mem_nhds h)] with s hs hs0
          unfold rampWeight
          rw [if_neg (not_le.2 hs0)]
          rcases eq_or_lt_of_le (Set.mem_Iic.1 hs) with e | e
          · rw [if_pos e.ge, e, hval]
            norm_num
          · rw [if_neg (not_le.2 e)]
        · unfold rampWeight
          rw [if_neg (not_le.2 ht), if_pos le_rfl, hval]
          norm_num
      have := hl.union hr
      rw [Set.Iic_union_Ici] at this
      exact hasDerivWithinAt_univ.1 this
    · have : rampSlope t0 t1 t = 0 := by unfold rampSlope; rw [if_neg (not_le.2 ht), if_pos ht1.le]
      rw [this]
      refine (hasDerivAt_const t (1 : ℝ)).congr_of_eventuallyEq ?_
      filter_upwards [lt_mem_nhds ht1] with s hs
      unfold rampWeight
      rw [if_neg (not_le.2 (h.trans hs)), if_pos (le_of_lt hs)]

theorem rampSlope_nonneg {t0 t1 : ℝ} (h : t0 < t1) (t : ℝ) : 0 ≤ rampSlope t0 t1 t := by
  have hd := sub_pos.2 h
  have hpi := Real.pi_pos
  unfold rampSlope
  split_ifs with h1 h2
  · exact le_rfl
  · exact le_rfl
  · push Not at h1 h2
    have : 0 ≤ Real.sin (Real.pi * (t - t0) / (t1 - t0)) := by
      refine Real.sin_nonneg_of_nonneg_of_le_pi ?_ ?_
      · have := sub_pos.2 h1; positivity
      · rw [div_le_iff₀ hd]
        exact mul_le_mul_of_nonneg_left (by linarith) hpi.le
    positivity

theorem rampSlope_eq {t0 t1 : ℝ} (h : t0 < t1) (t : ℝ) :
    rampSlope t0 t1 t = 0.5 * Real.pi / (t1 - t0) * Real.sin (Real.pi * (max t0 (min t t1) - t0) / (t1 - t0)) := by
  have hd := sub_pos.2 h
  unfold rampSlope
  split_ifs with h1 h2
  · rw [max_eq_left ((min_le_left _ _).trans h1)]
    simp
  · rw [min_eq_right h2, max_eq_right h.le, mul_div_cancel_right₀ _ hd.ne', Real.sin_pi, mul_zero]
  · push Not at h1 h2
    rw [min_eq_left h2.le, max_eq_right h1.le]

/-- **C85.** The ramp-up state equals the initial state until the initial time and the final state from the final time on.
In between it moves along the segment from one to the other, never turning back and without a jump or a kink. -/
theorem C85_ramp_up (A B : State d) {t0 t1 : ℝ} (h : t0 < t1) :
    ∃ beta : ℝ → ℝ, (∀ t, rampUp A B t0 t1 t = (1 - beta t) • A + beta t • B) ∧
      (∀ t, 0 ≤ beta t ∧ beta t ≤ 1) ∧ (∀ t ≤ t0, beta t = 0) ∧ (∀ t ≥ t1, beta t = 1) ∧ Monotone beta ∧
      Differentiable ℝ beta ∧ Continuous (deriv beta) := by
  have hder : deriv (rampWeight t0 t1) = rampSlope t0 t1 := funext fun t => (rampWeight_hasDerivAt h t).deriv
  refine ⟨rampWeight t0 t1, rampUp_eq A B t0 t1, rampWeight_mem t0 t1, fun t ht => ?_, fun t ht => ?_,
    monotone_of_deriv_nonneg (fun t => (rampWeight_hasDerivAt h t).differentiableAt) fun t => ?_,
    fun t => (rampWeight_hasDerivAt h t).differentiableAt, ?_⟩
  · unfold rampWeight; rw [if_pos ht]
  · unfold rampWeight; rw [if_neg (not_le.2 (h.trans_le ht)), if_pos ht]
  · rw [hder]; exact rampSlope_nonneg h t
  · rw [hder, funext (rampSlope_eq h)]
    fun_prop

/-- **C85.** At every time, and for all parameters, the ramp-up state lies in every convex set that contains both states. -/
theorem C85_ramp_up_convex (A B : State d) (t0 t1 t : ℝ) (K : Set (State d)) (hK : Convex ℝ K) (hA : A ∈ K) (hB : B ∈ K) :
    rampUp A B t0 t1 t ∈ K := by
  rw [rampUp_eq]
  have := rampWeight_mem t0 t1 t
  exact hK hA hB (by linarith) this.1 (by ring)

/-- **C85.** If both states are admissible (positive density and internal energy), the ramp-up state is at every time. -/
theorem C85_ramp_up_admissible (A B : State d) (t0 t1 t : ℝ) (hA : Euler.Admissible A) (hB : Euler.Admissible B) :
    Euler.Admissible (rampUp A B t0 t1 t) :=
  C85_ramp_up_convex A B t0 t1 t {V | Euler.Admissible V} Euler.admissible_convex hA hB

/-- Non-vacuity: halfway through the ramp both states contribute equally. -/
example (A B : State d) : rampUp A B 0 1 (1 / 2) = (1 / 2 : ℝ) • A + (1 / 2 : ℝ) • B := by
  unfold rampUp
  dsimp only
  rw [if_neg (by norm_num), if_neg (by norm_num)]
  have h1 : (0.5 * Real.pi * (1 / 2 - 0) / (1 - 0) : ℝ) = Real.pi / 4 := by ring
  have h2 : Real.cos (Real.pi / 4) * Real.cos (Real.pi / 4) = 1 / 2 := by
    rw [Real.cos_pi_div_four]
    have := Real.mul_self_sqrt (show (0 : ℝ) ≤ 2 by norm_num)
    linear_combination this / 4
  rw [h1, h2]
  norm_num

end InitialStates
end Ryujin
