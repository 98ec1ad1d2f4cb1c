import Verif.Model.EulerLimiter
import Verif.Proofs.Newton

/-!
# Helper lemmas: the joint Newton loop and the density limit
-/

namespace Ryujin

theorem newtonStep_nested (eps p1 p2 phi1 phi2 dphi1 dphi2 sign : ℝ) (h : p1 ≤ p2) :
    let r := quadraticNewtonStep eps p1 p2 phi1 phi2 dphi1 dphi2 sign
    p1 ≤ r.1 ∧ r.1 ≤ r.2 ∧ r.2 ≤ p2 := by
  intro r
  refine ⟨?_, min_le_max, ?_⟩
  · exact le_min (newtonClamp_mem h _).1 (newtonClamp_mem h _).1
  · exact max_le (newtonClamp_mem h _).2 (newtonClamp_mem h _).2

/-- A general invariant principle for the joint Newton loop. -/
theorem newtonLoop_inv {L : ℕ} (eps tol : ℝ) (psi dpsi lower : Fin L → ℝ → ℝ) (l : Fin L)
    (I : ℝ → ℝ → Prop)
    (hmask : ∀ a b, I a b → 0 < psi l b → I b b)
    (hstep : ∀ a b, I a b → (psi l b ≤ 0 ∨ a = b) →
      let r := quadraticNewtonStep eps a b (psi l a) (psi l b) (dpsi l a) (dpsi l b) (-1)
      I r.1 r.2) :
    ∀ fuel n t_l t_r success, I (t_l l) (t_r l) →
      ∃ b, I ((newtonLoop eps tol psi dpsi lower fuel n t_l t_r success).1 l) b := by
  intro fuel
  induction fuel with
  | zero => intro n t_l t_r s h; exact ⟨_, h⟩
  | succ k ih =>
    intro n t_l t_r s h
    have hI : I (maskGt (psi l (t_r l)) 0 (t_r l) (t_l l)) (t_r l) ∧
        (psi l (t_r l) ≤ 0 ∨ maskGt (psi l (t_r l)) 0 (t_r l) (t_l l) = t_r l) := by
      unfold maskGt
      split
      · rename_i hp
        exact ⟨hmask _ _ h hp, Or.inr rfl⟩
      · rename_i hp
        exact ⟨h, Or.inl (not_lt.1 hp)⟩
    simp only [newtonLoop]
    split
    · exact ⟨_, hI.1⟩
    · split
      · exact ⟨_, hI.1⟩
      · exact ih _ _ _ _ (hstep _ _ hI.1 hI.2)

/-- The result of the loop lies between the initial values. -/
theorem newtonLoop_mem {L : ℕ} (eps tol : ℝ) (psi dpsi lower : Fin L → ℝ → ℝ) (l : Fin L)
    (fuel n : ℕ) (t_l t_r : Fin L → ℝ) (success : Prop) (h : t_l l ≤ t_r l) :
    t_l l ≤ (newtonLoop eps tol psi dpsi lower fuel n t_l t_r success).1 l ∧
      (newtonLoop eps tol psi dpsi lower fuel n t_l t_r success).1 l ≤ t_r l := by
  obtain ⟨b, hb⟩ := newtonLoop_inv eps tol psi dpsi lower l
    (fun a b => t_l l ≤ a ∧ a ≤ b ∧ b ≤ t_r l)
    (fun a b ⟨h1, h2, h3⟩ _ => ⟨h1.trans h2, le_rfl, h3⟩)
    (fun a b ⟨h1, h2, h3⟩ _ => by
      obtain ⟨q1, q2, q3⟩ := newtonStep_nested eps a b (psi l a) (psi l b) (dpsi l a) (dpsi l b) (-1) h2
      exact ⟨h1.trans q1, q2, q3.trans h3⟩)
    fuel n t_l t_r success ⟨le_rfl, h, le_rfl⟩
  exact ⟨hb.1, hb.2.1.trans hb.2.2⟩

/-- If the right end is good from the start (and at least one iteration is allowed), it is returned. -/
theorem newtonLoop_right {L : ℕ} (eps tol : ℝ) (psi dpsi lower : Fin L → ℝ → ℝ) (l : Fin L)
    (t : ℝ) (hpos : 0 < psi l t) :
    ∀ fuel n t_l t_r success, t_r l = t → (0 < fuel ∨ t_l l = t) →
      (newtonLoop eps tol psi dpsi lower fuel n t_l t_r success).1 l = t := by
  intro fuel
  induction fuel with
  | zero => intro n t_l t_r s h h'; simpa [newtonLoop] using h'
  | succ k ih =>
    intro n t_l t_r s h _
    have hm : maskGt (psi l (t_r l)) 0 (t_r l) (t_l l) = t := by
      unfold maskGt; rw [h]; simp [hpos]
    simp only [newtonLoop]
    split
    · exact hm
    · split
      · exact hm
      · have hn := newtonStep_nested eps t t (psi l t) (psi l t) (dpsi l t) (dpsi l t) (-1) le_rfl
        have hm' := hm
        rw [h] at hm'
        apply ih
        · simp only [h, hm']; exact le_antisymm hn.2.2 (hn.1.trans hn.2.1)
        · right; simp only [h, hm']; exact le_antisymm (hn.2.1.trans hn.2.2) hn.1

theorem densityLimit_mem (eps rho_min rho_max rho_U rho_P t_min t_max : ℝ) (h : t_min ≤ t_max) :
    t_min ≤ densityLimit eps rho_min rho_max rho_U rho_P t_min t_max ∧
      densityLimit eps rho_min rho_max rho_U rho_P t_min t_max ≤ t_max := by
  unfold densityLimit
  exact ⟨le_max_right _ _, max_le (min_le_right _ _) h⟩

/-- Quotient estimate used for both one-sided density limits. -/
theorem quotient_limit {x y d t : ℝ} (hx : 0 ≤ x) (hd : 0 ≤ d) (hy : 0 ≤ y)
    (ht0 : 0 ≤ t) (ht : t ≤ x * (1 / (|y| + d))) : t * y ≤ x := by
  rw [abs_of_nonneg hy] at ht
  rcases eq_or_lt_of_le hy with h0 | hpos
  · rw [← h0]; simpa using hx
  · have hden : 0 < y + d := by linarith
    have h1 : t * (y + d) ≤ x := by
      rw [mul_one_div, le_div_iff₀ hden] at ht; exact ht
    nlinarith [mul_nonneg ht0 hd]

theorem densityLimit_bounds {eps rho_min rho_max rho_U rho_P t_min t_max s : ℝ}
    (heps : 0 ≤ eps) (hmax0 : 0 ≤ rho_max) (hmin : rho_min ≤ rho_U) (hmax : rho_U ≤ rho_max)
    (htm : rho_min ≤ rho_U + t_min * rho_P ∧ rho_U + t_min * rho_P ≤ rho_max)
    (hs0 : 0 ≤ s) (hs : s ≤ densityLimit eps rho_min rho_max rho_U rho_P t_min t_max) :
    rho_min ≤ rho_U + s * rho_P ∧ rho_U + s * rho_P ≤ rho_max := by
  rcases le_total s t_min with hst | hst
  · rcases le_total 0 rho_P with hP | hP
    · have := mul_le_mul_of_nonneg_right hst hP
      have := mul_nonneg hs0 hP
      constructor <;> linarith [htm.1, htm.2]
    · have := mul_le_mul_of_nonpos_right hst hP
      have := mul_nonpos_of_nonneg_of_nonpos hs0 hP
      constructor <;> linarith [htm.1, htm.2]
  · rcases eq_or_lt_of_le hst with h0 | hlt
    · rw [← h0]; exact htm
    · unfold densityLimit at hs
      simp only at hs
      set d := eps * rho_max with hd
      have hd0 : 0 ≤ d := mul_nonneg heps hmax0
      have hs1 := (le_max_iff.1 hs).resolve_right (not_le.2 hlt)
      obtain ⟨hs2, hs3⟩ := le_min_iff.1 hs1
      rcases le_total 0 rho_P with hP | hP
      · have hlow : rho_min ≤ rho_U + s * rho_P := by linarith [mul_nonneg hs0 hP]
        refine ⟨hlow, ?_⟩
        by_cases h1 : rho_max < rho_U + t_max * rho_P
        · have e1 : maskLt rho_max (rho_U + t_max * rho_P)
              ((rho_max - rho_U) * (1 / (|rho_P| + d))) t_max
              = (rho_max - rho_U) * (1 / (|rho_P| + d)) := by simp [maskLt, h1]
          rw [e1] at hs2
          have hnn : 0 ≤ (rho_max - rho_U) * (1 / (|rho_P| + d)) := by
            apply mul_nonneg (by linarith)
            apply one_div_nonneg.2; positivity
          have h2 : ¬ (rho_U + (rho_max - rho_U) * (1 / (|rho_P| + d)) * rho_P < rho_min) := by
            have := mul_nonneg hnn hP
            intro h; linarith
          have e2 : s ≤ (rho_max - rho_U) * (1 / (|rho_P| + d)) := by
            rw [maskLt, if_neg h2] at hs2; exact hs2
          have := quotient_limit (by linarith : (0:ℝ) ≤ rho_max - rho_U) hd0 hP hs0 e2
          linarith
        · have := mul_le_mul_of_nonneg_right hs3 hP
          linarith
      · have hup : rho_U + s * rho_P ≤ rho_max := by
          linarith [mul_nonpos_of_nonneg_of_nonpos hs0 hP]
        refine ⟨?_, hup⟩
        have htmax : 0 ≤ t_max := hs0.trans hs3
        have h1 : ¬ (rho_max < rho_U + t_max * rho_P) := by
          have := mul_nonpos_of_nonneg_of_nonpos htmax hP
          intro h; linarith
        have e1 : maskLt rho_max (rho_U + t_max * rho_P)
            ((rho_max - rho_U) * (1 / (|rho_P| + d))) t_max = t_max := by simp [maskLt, h1]
        rw [e1] at hs2
        by_cases h2 : rho_U + t_max * rho_P < rho_min
        · have e2 : s ≤ (rho_U - rho_min) * (1 / (|rho_P| + d)) := by
            rw [maskLt, if_pos h2] at hs2; exact hs2
          have e3 : s ≤ (rho_U - rho_min) * (1 / (|-rho_P| + d)) := by rwa [abs_neg]
          have := quotient_limit (by linarith : (0:ℝ) ≤ rho_U - rho_min) hd0
            (by linarith : (0:ℝ) ≤ -rho_P) hs0 e3
          linarith
        · have := mul_le_mul_of_nonpos_right hs3 hP
          linarith

/-- If `U + t_max P` satisfies the density bounds, nothing is limited. -/
theorem densityLimit_noop {eps rho_min rho_max rho_U rho_P t_min t_max : ℝ} (h : t_min ≤ t_max)
    (h1 : rho_min ≤ rho_U + t_max * rho_P) (h2 : rho_U + t_max * rho_P ≤ rho_max) :
    densityLimit eps rho_min rho_max rho_U rho_P t_min t_max = t_max := by
  simp [densityLimit, maskLt, not_lt.2 h1, not_lt.2 h2, h]

theorem Euler.relaxationRadius_nonneg (dim : ℕ) {f hd : ℝ} (hf : 0 ≤ f) :
    0 ≤ Euler.relaxationRadius dim f hd := by
  unfold Euler.relaxationRadius
  apply mul_nonneg _ hf
  split
  · positivity
  · split <;> positivity

theorem Euler.relaxationRadius_zero (dim : ℕ) (hd : ℝ) : Euler.relaxationRadius dim 0 hd = 0 := by
  simp [Euler.relaxationRadius]

end Ryujin
