import Verif.Model.ShallowWater
import Verif.Proofs.EulerLimiter

/-!
# Helper lemmas for the shallow water limiter
-/

namespace Ryujin

open scoped BigOperators

theorem positivePart_nonneg (x : ℝ) : 0 ≤ positivePart x := by
  unfold positivePart; linarith [neg_abs_le x]

theorem negativePart_nonneg (x : ℝ) : 0 ≤ negativePart x := by
  unfold negativePart; linarith [le_abs_self x]

theorem positivePart_of_nonneg {x : ℝ} (h : 0 ≤ x) : positivePart x = x := by
  unfold positivePart; rw [abs_of_nonneg h]; ring

theorem positivePart_of_nonpos {x : ℝ} (h : x ≤ 0) : positivePart x = 0 := by
  unfold positivePart; rw [abs_of_nonpos h]; ring

theorem positivePart_eq_max (x : ℝ) : positivePart x = max 0 x := by
  rcases le_total 0 x with h | h
  · rw [positivePart_of_nonneg h, max_eq_right h]
  · rw [positivePart_of_nonpos h, max_eq_left h]

theorem negativePart_eq_max (x : ℝ) : negativePart x = max 0 (-x) := by
  rw [← positivePart_eq_max]; simp [negativePart, positivePart, sub_eq_add_neg]

theorem positivePart_mono {x y : ℝ} (h : x ≤ y) : positivePart x ≤ positivePart y := by
  rw [positivePart_eq_max, positivePart_eq_max]; exact max_le_max le_rfl h

theorem negativePart_anti {x y : ℝ} (h : x ≤ y) : negativePart y ≤ negativePart x := by
  rw [negativePart_eq_max, negativePart_eq_max]; exact max_le_max le_rfl (by linarith)

/-- Two-sided limiting of an affine scalar quantity `u + t q`: the general form used by the shallow
water limiter, where the lower threshold `lo` may lie above `u` itself. -/
theorem box_limit {d lo0 lo hi u q t_min t_max s : ℝ} (hd : 0 ≤ d) (hlo : lo0 ≤ lo)
    (hmin : lo0 ≤ u) (hmax : u ≤ hi)
    (htm : lo0 ≤ u + t_min * q ∧ u + t_min * q ≤ hi) (hs0 : 0 ≤ s)
    (hs : s ≤ max (min (maskLt (u + maskLt hi (u + t_max * q) ((hi - u) * (1 / (|q| + d))) t_max * q)
        lo ((u - lo) * (1 / (|q| + d)))
        (maskLt hi (u + t_max * q) ((hi - u) * (1 / (|q| + d))) t_max)) t_max) t_min) :
    lo0 ≤ u + s * q ∧ u + s * q ≤ hi := by
  have hden : 0 ≤ 1 / (|q| + d) := by positivity
  have hneg : ∀ x, x ≤ 0 → s ≤ x * (1 / (|q| + d)) → s = 0 := fun x hx h =>
    le_antisymm (h.trans (mul_nonpos_of_nonpos_of_nonneg hx hden)) hs0
  rcases le_total s t_min with hst | hst
  · rcases le_total 0 q with hq | hq
    · have := mul_le_mul_of_nonneg_right hst hq
      have := mul_nonneg hs0 hq
      constructor <;> linarith [htm.1, htm.2]
    · have := mul_le_mul_of_nonpos_right hst hq
      have := mul_nonpos_of_nonneg_of_nonpos hs0 hq
      constructor <;> linarith [htm.1, htm.2]
  rcases eq_or_lt_of_le hst with h0 | hlt
  · rw [← h0]; exact htm
  have hs1 := (le_max_iff.1 hs).resolve_right (not_le.2 hlt)
  obtain ⟨hs2, hs3⟩ := le_min_iff.1 hs1
  rcases le_total 0 q with hq | hq
  · refine ⟨by linarith [mul_nonneg hs0 hq], ?_⟩
    by_cases h1 : hi < u + t_max * q
    · have e1 : maskLt hi (u + t_max * q) ((hi - u) * (1 / (|q| + d))) t_max
          = (hi - u) * (1 / (|q| + d)) := if_pos h1
      rw [e1] at hs2
      have hnn : 0 ≤ (hi - u) * (1 / (|q| + d)) := mul_nonneg (by linarith) hden
      by_cases h2 : u + (hi - u) * (1 / (|q| + d)) * q < lo
      · rw [maskLt, if_pos h2] at hs2
        have := hneg _ (by linarith [mul_nonneg hnn hq]) hs2
        rw [this]; linarith
      · rw [maskLt, if_neg h2] at hs2
        have := quotient_limit (by linarith : (0:ℝ) ≤ hi - u) hd hq hs0 hs2
        linarith
    · have := mul_le_mul_of_nonneg_right hs3 hq
      linarith
  · refine ⟨?_, by linarith [mul_nonpos_of_nonneg_of_nonpos hs0 hq]⟩
    have h1 : ¬ (hi < u + t_max * q) := by
      have := mul_nonpos_of_nonneg_of_nonpos (hs0.trans hs3) hq
      intro h; linarith
    have e1 : maskLt hi (u + t_max * q) ((hi - u) * (1 / (|q| + d))) t_max = t_max := if_neg h1
    rw [e1] at hs2
    by_cases h2 : u + t_max * q < lo
    · rw [maskLt, if_pos h2] at hs2
      rcases le_total lo u with hu | hu
      · rw [← abs_neg] at hs2
        have := quotient_limit (by linarith : (0:ℝ) ≤ u - lo) hd (by linarith : (0:ℝ) ≤ -q) hs0 hs2
        linarith
      · rw [hneg _ (by linarith) hs2]; linarith
    · have := mul_le_mul_of_nonpos_right hs3 hq
      linarith

/-- One Newton step with possibly *wrong* derivatives for a quadratic function: if the supplied left
derivative is not too large or the supplied right derivative is not too small, and the set where the
function is nonnegative is an interval, then the new left end is still good. -/
theorem newton_step_wrong_deriv {p1 p2 d1 d2 A B C : ℝ} {phi : ℝ → ℝ} (h12 : p1 ≤ p2)
    (hphi : ∀ t, phi t = A + B * t + C * t ^ 2) (h1 : 0 ≤ phi p1) (h2 : phi p2 ≤ 0)
    (hint : ∀ x ∈ Set.Icc p1 p2, 0 ≤ phi x → ∀ y ∈ Set.Icc p1 x, 0 ≤ phi y)
    (hd : d1 ≤ B + 2 * C * p1 ∨ B + 2 * C * p2 ≤ d2) :
    0 ≤ phi (quadraticNewtonStep 0 p1 p2 (phi p1) (phi p2) d1 d2 (-1)).1 := by
  have hcl : ∀ t, newtonClamp p1 p2 t ∈ Set.Icc p1 p2 := fun t => newtonClamp_mem h12 t
  have hmem : (quadraticNewtonStep 0 p1 p2 (phi p1) (phi p2) d1 d2 (-1)).1 ∈ Set.Icc p1 p2 := by
    simp only [quadraticNewtonStep]
    exact ⟨le_min (hcl _).1 (hcl _).1, (min_le_left _ _).trans (hcl _).2⟩
  rcases h2.lt_or_eq with h2 | h2
  swap
  · exact hint p2 ⟨h12, le_rfl⟩ h2.ge _ hmem
  rcases h1.lt_or_eq with h1 | h1
  swap
  · have ht : newtonClamp p1 p2 (newtonCandidate 0 (-1) p1 (phi p1) d1
        (newtonDD112 0 p1 p2 (phi p1) (phi p2) d1)) = p1 := by
      have : newtonCandidate 0 (-1) p1 (phi p1) d1
        (newtonDD112 0 p1 p2 (phi p1) (phi p2) d1) = p1 := by
        rw [← h1]; simp [newtonCandidate, maskLt]
      rw [this]; exact newtonClamp_of_mem le_rfl h12
    simp only [quadraticNewtonStep]
    rw [ht, min_eq_left (hcl _).1, ← h1]
  rcases h12.lt_or_eq with h12 | h12
  swap
  · subst h12; linarith
  obtain ⟨a1, a2, a3, -, a5, -⟩ := candidate1_spec (dphi1 := d1) h12 h1 h2.le
  obtain ⟨b1, b2, b3, -, b5⟩ := candidate2_spec (dphi2 := d2) h12 h1.le h2
  set t1 := newtonCandidate 0 (-1) p1 (phi p1) d1 (newtonDD112 0 p1 p2 (phi p1) (phi p2) d1)
  set t2 := newtonCandidate 0 (-1) p2 (phi p2) d2 (newtonDD122 0 p1 p2 (phi p1) (phi p2) d2)
  set a := newtonDD112 0 p1 p2 (phi p1) (phi p2) d1
  set b := newtonDD122 0 p1 p2 (phi p1) (phi p2) d2
  have hr : (quadraticNewtonStep 0 p1 p2 (phi p1) (phi p2) d1 d2 (-1)).1 = min t1 t2 := by
    show min (newtonClamp p1 p2 t1) (newtonClamp p1 p2 t2) = _
    rw [newtonClamp_of_mem a1.le a2, newtonClamp_of_mem b1 b2.le]
  have hΔ : 0 < p2 - p1 := sub_pos.2 h12
  rw [hr]
  rcases hd with hd | hd
  · have hpos : 0 ≤ phi t1 := by
      have e : (phi t1 - (phi p1 + d1 * (t1 - p1) + a * (t1 - p1) ^ 2)) * (p2 - p1)
          = (B + 2 * C * p1 - d1) * (t1 - p1) * (p2 - t1) := by
        have ha : a * (p2 - p1) ^ 2 = phi p2 - phi p1 - d1 * (p2 - p1) := by linarith
        have ha' : a * (p2 - p1) = B + C * (p1 + p2) - d1 := by
          have : a * (p2 - p1) * (p2 - p1) = (B + C * (p1 + p2) - d1) * (p2 - p1) := by
            rw [hphi p2, hphi p1] at ha; linear_combination ha
          exact mul_right_cancel₀ hΔ.ne' this
        rw [hphi t1, hphi p1]
        linear_combination -(t1 - p1) ^ 2 * ha'
      have : 0 ≤ (B + 2 * C * p1 - d1) * (t1 - p1) * (p2 - t1) :=
        mul_nonneg (mul_nonneg (by linarith) (by linarith)) (by linarith)
      rw [a3, sub_zero] at e
      by_contra hcon
      push Not at hcon
      nlinarith
    exact hint t1 ⟨a1.le, a2⟩ hpos _ ⟨le_min a1.le b1, min_le_left _ _⟩
  · have hpos : 0 ≤ phi t2 := by
      have e : (phi t2 - (phi p2 + d2 * (t2 - p2) + b * (t2 - p2) ^ 2)) * (p2 - p1)
          = (d2 - (B + 2 * C * p2)) * (p2 - t2) * (t2 - p1) := by
        have ha : b * (p1 - p2) ^ 2 = phi p1 - phi p2 - d2 * (p1 - p2) := by linarith
        have ha' : b * (p2 - p1) = d2 - (B + C * (p1 + p2)) := by
          have : b * (p2 - p1) * (p2 - p1) = (d2 - (B + C * (p1 + p2))) * (p2 - p1) := by
            rw [hphi p2, hphi p1] at ha; linear_combination ha
          exact mul_right_cancel₀ hΔ.ne' this
        rw [hphi t2, hphi p2]
        linear_combination -(t2 - p2) ^ 2 * ha'
      have : 0 ≤ (d2 - (B + 2 * C * p2)) * (p2 - t2) * (t2 - p1) :=
        mul_nonneg (mul_nonneg (by linarith) (by linarith)) (by linarith)
      rw [b3, sub_zero] at e
      by_contra hcon
      push Not at hcon
      nlinarith
    exact hint t2 ⟨b1, b2.le⟩ hpos _ ⟨le_min a1.le b1, min_le_right _ _⟩

theorem dot_sq_le {n : ℕ} (a b : Vec n) : dot a b ^ 2 ≤ normSq a * normSq b := by
  have := Finset.sum_mul_sq_le_sq_mul_sq Finset.univ a b
  simpa [dot, normSq, sq] using this

namespace ShallowWater

variable {dim : ℕ}

@[simp] theorem waterDepth_mkState (h : ℝ) (m : Vec dim) : waterDepth (mkState h m) = h := by
  simp [waterDepth, mkState]

@[simp] theorem momentum_mkState (h : ℝ) (m : Vec dim) : momentum (mkState h m) = m := by
  funext i; simp [momentum, mkState]

theorem state_ext {U V : State dim} (h1 : waterDepth U = waterDepth V) (h2 : momentum U = momentum V) :
    U = V := by
  funext k
  exact Fin.cases h1 (fun i => congrFun h2 i) k

@[simp] theorem waterDepth_add (U V : State dim) : waterDepth (U + V) = waterDepth U + waterDepth V := rfl
@[simp] theorem waterDepth_sub (U V : State dim) : waterDepth (U - V) = waterDepth U - waterDepth V := rfl
@[simp] theorem momentum_add (U V : State dim) : momentum (U + V) = momentum U + momentum V := rfl
@[simp] theorem momentum_sub (U V : State dim) : momentum (U - V) = momentum U - momentum V := rfl
@[simp] theorem waterDepth_smul (t : ℝ) (V : State dim) : waterDepth (t • V) = t * waterDepth V := rfl
@[simp] theorem momentum_smul (t : ℝ) (V : State dim) : momentum (t • V) = t • momentum V := rfl

theorem depthLimit_mem (p : Params) (b : Bounds) (h_U h_P : ℝ) {t_min t_max : ℝ} (h : t_min ≤ t_max) :
    t_min ≤ depthLimit p b h_U h_P t_min t_max ∧ depthLimit p b h_U h_P t_min t_max ≤ t_max := by
  unfold depthLimit
  exact ⟨le_max_right _ _, max_le (min_le_right _ _) h⟩

theorem depthLimit_bounds {p : Params} {b : Bounds} {h_U h_P t_min t_max s : ℝ}
    (heps : 0 ≤ p.eps) (htiny : 0 ≤ p.tiny) (hmax0 : 0 ≤ b.h_max)
    (hmin : b.h_min ≤ h_U) (hmax : h_U ≤ b.h_max)
    (htm : b.h_min ≤ h_U + t_min * h_P ∧ h_U + t_min * h_P ≤ b.h_max)
    (hs0 : 0 ≤ s) (hs : s ≤ depthLimit p b h_U h_P t_min t_max) :
    b.h_min ≤ h_U + s * h_P ∧ h_U + s * h_P ≤ b.h_max := by
  refine box_limit (d := p.eps * b.h_max + p.tiny) (lo := max b.h_small b.h_min) (t_max := t_max)
    (by positivity) (le_max_right _ _) hmin hmax htm hs0 ?_
  unfold depthLimit at hs
  simpa only [← add_assoc] using hs

theorem depthLimit_noop {p : Params} {b : Bounds} {h_U h_P t_min t_max : ℝ} (h : t_min ≤ t_max)
    (h1 : b.h_min ≤ h_U + t_max * h_P) (h1' : b.h_small ≤ h_U + t_max * h_P)
    (h2 : h_U + t_max * h_P ≤ b.h_max) :
    depthLimit p b h_U h_P t_min t_max = t_max := by
  simp [depthLimit, maskLt, not_lt.2 h1, not_lt.2 h1', not_lt.2 h2, h]

variable {L : ℕ}

theorem newtonOnce_mem (eps tol : ℝ) (psi dpsi lower : Fin L → ℝ → ℝ) (t_l t_r : Fin L → ℝ)
    (s : Prop) (l : Fin L) (h : t_l l ≤ t_r l) :
    t_l l ≤ (newtonOnce eps tol psi dpsi lower t_l t_r s).1 l ∧
      (newtonOnce eps tol psi dpsi lower t_l t_r s).1 l ≤ t_r l := by
  unfold newtonOnce
  simp only
  split
  · exact ⟨le_rfl, h⟩
  · have := newtonStep_nested eps (t_l l) (t_r l) (psi l (t_l l)) (psi l (t_r l)) (dpsi l (t_l l))
      (dpsi l (t_r l)) (-1) h
    exact ⟨this.1, this.2.1.trans this.2.2⟩

/-- A stage "mask, then one Newton step" keeps a lane good. -/
theorem stage_good (eps tol : ℝ) (psi dpsi lower : Fin L → ℝ → ℝ) (t_l t_r : Fin L → ℝ)
    (s : Prop) (l : Fin L) (hl : 0 ≤ psi l (t_l l))
    (hstep : psi l (t_r l) ≤ 0 → 0 ≤ psi l (quadraticNewtonStep eps (t_l l) (t_r l) (psi l (t_l l))
      (psi l (t_r l)) (dpsi l (t_l l)) (dpsi l (t_r l)) (-1)).1) :
    0 ≤ psi l ((newtonOnce eps tol psi dpsi lower
      (fun l => maskGt (psi l (t_r l)) 0 (t_r l) (t_l l)) t_r s).1 l) := by
  unfold newtonOnce maskGt
  simp only
  split
  · show 0 ≤ psi l (if psi l (t_r l) > 0 then t_r l else t_l l)
    split
    · rename_i hp; exact hp.le
    · exact hl
  · show 0 ≤ psi l (quadraticNewtonStep eps (if psi l (t_r l) > 0 then t_r l else t_l l) (t_r l) _ _ _ _
      (-1)).1
    split
    · rename_i hp
      have q := newtonStep_nested eps (t_r l) (t_r l) (psi l (t_r l)) (psi l (t_r l))
        (dpsi l (t_r l)) (dpsi l (t_r l)) (-1) le_rfl
      rw [le_antisymm (q.2.1.trans q.2.2) q.1]
      exact hp.le
    · rename_i hp
      exact hstep (not_lt.1 hp)

theorem mask_le {psi t_l t_r : ℝ} (h : t_l ≤ t_r) :
    t_l ≤ maskGt psi 0 t_r t_l ∧ maskGt psi 0 t_r t_l ≤ t_r := by
  unfold maskGt; split
  · exact ⟨h, le_rfl⟩
  · exact ⟨le_rfl, h⟩

/-- The velocity stage lies in the window. -/
theorem velocityStage_mem (p : Params) (lp : LimiterParams) (bounds : Fin L → Bounds)
    (U P : Fin L → State dim) (t_l t_r : Fin L → ℝ) (s : Prop) (l : Fin L) (h : t_l l ≤ t_r l) :
    t_l l ≤ (velocityStage p lp bounds U P t_l t_r s).1 l ∧
      (velocityStage p lp bounds U P t_l t_r s).1 l ≤ t_r l := by
  have hm := mask_le (psi := psiVel p (bounds l).v2_max (U l) (P l) (t_r l)) h
  unfold velocityStage
  simp only
  split
  · exact hm
  · have := newtonOnce_mem p.eps lp.newton_tolerance
      (fun l => psiVel p (bounds l).v2_max (U l) (P l))
      (fun l => dpsiVel (bounds l).v2_max (U l) (P l))
      (fun l => lowerVel p (bounds l).v2_max (U l) (P l))
      (fun l => maskGt (psiVel p (bounds l).v2_max (U l) (P l) (t_r l)) 0 (t_r l) (t_l l)) t_r s l hm.2
    exact ⟨hm.1.trans this.1, this.2⟩

/-- The kinetic energy functional is an explicit quadratic (`eps = 0`). -/
theorem psiKin_eq {p : Params} (heps : p.eps = 0) (k : ℝ) (U P : State dim) (t : ℝ) :
    psiKin p k U P t = (waterDepth U * k - (1 / 2) * normSq (momentum U))
      + (waterDepth P * k - dot (momentum U) (momentum P)) * t
      + (-(1 / 2) * normSq (momentum P)) * t ^ 2 := by
  simp only [psiKin, heps, waterDepth_add, waterDepth_smul, momentum_add, momentum_smul,
    normSq_add_smul]
  ring

theorem psiVel_eq {p : Params} (heps : p.eps = 0) (v : ℝ) (U P : State dim) (t : ℝ) :
    psiVel p v U P t = (waterDepth U ^ 2 * v - normSq (momentum U))
      + (2 * waterDepth U * waterDepth P * v - 2 * dot (momentum U) (momentum P)) * t
      + (waterDepth P ^ 2 * v - normSq (momentum P)) * t ^ 2 := by
  simp only [psiVel, heps, waterDepth_add, waterDepth_smul, momentum_add, momentum_smul,
    normSq_add_smul]
  ring

/-- The depth limits of all lanes. -/
noncomputable def depthLimits (p : Params) (bounds : Fin L → Bounds) (U P : Fin L → State dim)
    (t_min t_max : Fin L → ℝ) : Fin L → ℝ := fun l =>
  depthLimit p (bounds l) (waterDepth (U l)) (waterDepth (P l)) (t_min l) (t_max l)

/-- The kinetic energy stage of `limit`. -/
noncomputable def kinStage (p : Params) (lp : LimiterParams) (bounds : Fin L → Bounds)
    (U P : Fin L → State dim) (t_l t_r : Fin L → ℝ) (s : Prop) : (Fin L → ℝ) × Prop :=
  newtonOnce p.eps lp.newton_tolerance (fun l => psiKin p (bounds l).kin_max (U l) (P l))
    (fun l => dpsiKin (bounds l).kin_max (U l) (P l))
    (fun l => lowerKin p (bounds l).kin_max (U l) (P l))
    (fun l => maskGt (psiKin p (bounds l).kin_max (U l) (P l) (t_r l)) 0 (t_r l) (t_l l)) t_r s

theorem kinStage_mem (p : Params) (lp : LimiterParams) (bounds : Fin L → Bounds)
    (U P : Fin L → State dim) (t_l t_r : Fin L → ℝ) (s : Prop) (l : Fin L) (h : t_l l ≤ t_r l) :
    t_l l ≤ (kinStage p lp bounds U P t_l t_r s).1 l ∧
      (kinStage p lp bounds U P t_l t_r s).1 l ≤ t_r l := by
  have hm := mask_le (psi := psiKin p (bounds l).kin_max (U l) (P l) (t_r l)) h
  have := newtonOnce_mem p.eps lp.newton_tolerance (fun l => psiKin p (bounds l).kin_max (U l) (P l))
    (fun l => dpsiKin (bounds l).kin_max (U l) (P l))
    (fun l => lowerKin p (bounds l).kin_max (U l) (P l))
    (fun l => maskGt (psiKin p (bounds l).kin_max (U l) (P l) (t_r l)) 0 (t_r l) (t_l l)) t_r s l hm.2
  exact ⟨hm.1.trans this.1, this.2⟩

/-- The four configurations of `limit`. -/
theorem limit_cases (p : Params) (lp : LimiterParams) (bounds : Fin L → Bounds)
    (U P : Fin L → State dim) (t_min t_max : Fin L → ℝ) :
    (lp.limit_on_square_velocity = false → lp.limit_on_kinetic_energy = false →
      (limit p lp bounds U P t_min t_max).1 = t_min) ∧
    (lp.limit_on_square_velocity = true → lp.limit_on_kinetic_energy = false → ∃ s,
      (limit p lp bounds U P t_min t_max).1 =
        (velocityStage p lp bounds U P t_min (depthLimits p bounds U P t_min t_max) s).1) ∧
    (lp.limit_on_square_velocity = true → lp.limit_on_kinetic_energy = true → ∃ s s',
      (limit p lp bounds U P t_min t_max).1 = (velocityStage p lp bounds U P t_min
        (kinStage p lp bounds U P t_min (depthLimits p bounds U P t_min t_max) s).1 s').1) ∧
    (lp.limit_on_square_velocity = false → lp.limit_on_kinetic_energy = true →
      (∃ s, (limit p lp bounds U P t_min t_max).1 =
        (kinStage p lp bounds U P t_min (depthLimits p bounds U P t_min t_max) s).1) ∨
      (limit p lp bounds U P t_min t_max).1 = fun l =>
        maskGt (psiKin p (bounds l).kin_max (U l) (P l) (depthLimits p bounds U P t_min t_max l)) 0
          (depthLimits p bounds U P t_min t_max l) (t_min l)) := by
  refine ⟨fun hv hk => ?_, fun hv hk => ?_, fun hv hk => ?_, fun hv hk => ?_⟩
  · simp [limit, hv, hk]
  · refine ⟨∀ l, depthInBounds p (bounds l) (waterDepth (U l)), ?_⟩
    simp only [limit, hv, hk, Bool.true_eq_false, false_and, if_false, Bool.false_eq_true]
    rfl
  · refine ⟨∀ l, depthInBounds p (bounds l) (waterDepth (U l)),
      (kinStage p lp bounds U P t_min (depthLimits p bounds U P t_min t_max)
        (∀ l, depthInBounds p (bounds l) (waterDepth (U l)))).2, ?_⟩
    simp only [limit, hv, hk, Bool.true_eq_false, false_and, if_false, if_true]
    rfl
  · unfold limit
    simp only [hv, hk, Bool.true_eq_false, and_false, if_false, if_true, Bool.false_eq_true, true_and]
    split
    · right; rfl
    · left; exact ⟨_, rfl⟩

/-- Along a segment on which the end points are good, the kinetic energy bound holds. -/
theorem psiKin_interval {p : Params} (heps : p.eps = 0) {k : ℝ} (U P : State dim) {a b c : ℝ}
    (ha : 0 ≤ psiKin p k U P a) (hb : 0 ≤ psiKin p k U P b) (hc : c ∈ Set.Icc a b) :
    0 ≤ psiKin p k U P c := by
  rcases eq_or_lt_of_le (hc.1.trans hc.2) with h | h
  · have : c = a := le_antisymm (by rw [h]; exact hc.2) hc.1
    rw [this]; exact ha
  have hq := normSq_nonneg (momentum P)
  have e : psiKin p k U P c * (b - a) = psiKin p k U P a * (b - c) + psiKin p k U P b * (c - a)
      + (1 / 2) * normSq (momentum P) * ((c - a) * (b - c) * (b - a)) := by
    simp only [psiKin_eq heps]; ring
  have h1 : 0 ≤ psiKin p k U P a * (b - c) := mul_nonneg ha (sub_nonneg.2 hc.2)
  have h2 : 0 ≤ psiKin p k U P b * (c - a) := mul_nonneg hb (sub_nonneg.2 hc.1)
  have h3 : 0 ≤ (1 / 2) * normSq (momentum P) * ((c - a) * (b - c) * (b - a)) := by
    apply mul_nonneg (by positivity)
    exact mul_nonneg (mul_nonneg (sub_nonneg.2 hc.1) (sub_nonneg.2 hc.2)) (by linarith)
  by_contra hcon
  push Not at hcon
  have := mul_neg_of_neg_of_pos hcon (sub_pos.2 h)
  linarith

/-- Same for the velocity bound, on a segment with nonnegative water depth. -/
theorem psiVel_interval {p : Params} (heps : p.eps = 0) {v : ℝ} (hv : 0 ≤ v) (U P : State dim)
    {a b c : ℝ} (hha : 0 ≤ waterDepth (U + a • P)) (hhb : 0 ≤ waterDepth (U + b • P))
    (ha : 0 ≤ psiVel p v U P a) (hb : 0 ≤ psiVel p v U P b) (hc : c ∈ Set.Icc a b) :
    0 ≤ psiVel p v U P c := by
  rcases eq_or_lt_of_le (hc.1.trans hc.2) with h | h
  · have : c = a := le_antisymm (by rw [h]; exact hc.2) hc.1
    rw [this]; exact ha
  set ha' := waterDepth (U + a • P)
  set hb' := waterDepth (U + b • P)
  set qa := momentum (U + a • P) with hqa
  set qb := momentum (U + b • P) with hqb
  have pa : psiVel p v U P a = ha' * ha' * v - normSq qa := by
    simp only [psiVel, heps]; ring
  have pb : psiVel p v U P b = hb' * hb' * v - normSq qb := by
    simp only [psiVel, heps]; ring
  have hcs : dot qa qb ≤ ha' * hb' * v := by
    have h1 := dot_sq_le qa qb
    have h2 : normSq qa * normSq qb ≤ (ha' * ha' * v) * (hb' * hb' * v) :=
      mul_le_mul (by linarith) (by linarith) (normSq_nonneg _) (by positivity)
    have h3 : dot qa qb ^ 2 ≤ (ha' * hb' * v) ^ 2 := by nlinarith
    exact abs_le_of_sq_le_sq' h3 (by positivity) |>.2
  have hdq : dot qa qb = normSq (momentum U) + (a + b) * dot (momentum U) (momentum P)
      + a * b * normSq (momentum P) := by
    simp only [hqa, hqb, momentum_add, momentum_smul, dot_add_left, dot_add_right, dot_smul_left,
      dot_smul_right, normSq_eq_dot, dot_comm (momentum P) (momentum U)]
    ring
  have e : psiVel p v U P c * (b - a) ^ 2 = psiVel p v U P a * (b - c) ^ 2
      + psiVel p v U P b * (c - a) ^ 2 + 2 * (ha' * hb' * v - dot qa qb) * ((c - a) * (b - c)) := by
    have e1 : ha' = waterDepth U + a * waterDepth P := rfl
    have e2 : hb' = waterDepth U + b * waterDepth P := rfl
    rw [hdq, e1, e2]
    simp only [psiVel_eq heps]; ring
  have h1 : 0 ≤ psiVel p v U P a * (b - c) ^ 2 := mul_nonneg ha (sq_nonneg _)
  have h2 : 0 ≤ psiVel p v U P b * (c - a) ^ 2 := mul_nonneg hb (sq_nonneg _)
  have h3 : 0 ≤ 2 * (ha' * hb' * v - dot qa qb) * ((c - a) * (b - c)) :=
    mul_nonneg (by linarith) (mul_nonneg (sub_nonneg.2 hc.1) (sub_nonneg.2 hc.2))
  by_contra hcon
  push Not at hcon
  have : psiVel p v U P c * (b - a) ^ 2 < 0 :=
    mul_neg_of_neg_of_pos hcon (by have := sub_pos.2 h; positivity)
  linarith

/-- The kinetic energy step. -/
theorem kin_step {p : Params} (heps : p.eps = 0) {k : ℝ} (U P : State dim) {a b : ℝ} (hab : a ≤ b)
    (ha : 0 ≤ psiKin p k U P a) (hb : psiKin p k U P b ≤ 0) :
    0 ≤ psiKin p k U P (quadraticNewtonStep p.eps a b (psiKin p k U P a) (psiKin p k U P b)
      (dpsiKin k U P a) (dpsiKin k U P b) (-1)).1 := by
  rw [heps]
  refine newton_step_wrong_deriv hab (psiKin_eq heps k U P) ha hb ?_ (Or.inl ?_)
  · intro x _ hpx y hy
    exact psiKin_interval heps U P ha hpx hy
  · simp only [dpsiKin, normSq_eq_dot]; apply le_of_eq; ring

/-- The square velocity step starting at `t_l = 0`: the derivative in the code is wrong, but errs on the
safe side at one of the two ends. -/
theorem vel_step {p : Params} (heps : p.eps = 0) {v : ℝ} (hv : 0 ≤ v) (U P : State dim) {b : ℝ}
    (hb0 : 0 ≤ b) (hU : 0 ≤ waterDepth U) (hUb : 0 ≤ waterDepth (U + b • P))
    (ha : 0 ≤ psiVel p v U P 0) (hb : psiVel p v U P b ≤ 0) :
    0 ≤ psiVel p v U P (quadraticNewtonStep p.eps 0 b (psiVel p v U P 0) (psiVel p v U P b)
      (dpsiVel v U P 0) (dpsiVel v U P b) (-1)).1 := by
  rw [heps]
  have hh : ∀ x ∈ Set.Icc (0:ℝ) b, 0 ≤ waterDepth (U + x • P) := by
    intro x hx
    simp only [waterDepth_add, waterDepth_smul] at hUb ⊢
    rcases le_total 0 (waterDepth P) with hP | hP
    · have := mul_nonneg hx.1 hP; linarith
    · have := mul_le_mul_of_nonpos_right hx.2 hP; linarith
  refine newton_step_wrong_deriv hb0 (psiVel_eq heps v U P) ha hb ?_ ?_
  · intro x hx hpx y hy
    exact psiVel_interval heps hv U P (by simpa using hU) (hh x hx) ha hpx hy
  · rcases le_total 0 (waterDepth P) with hP | hP
    · left
      have : 0 ≤ waterDepth U * waterDepth P * v := by positivity
      simp only [dpsiVel, zero_mul, mul_zero]
      linarith
    · right
      have h1 : 0 ≤ (waterDepth U + b * waterDepth P) * (-waterDepth P) * v := by
        have : 0 ≤ waterDepth U + b * waterDepth P := hUb
        have : 0 ≤ -waterDepth P := by linarith
        positivity
      have h2 : 0 ≤ normSq (momentum P) * b := mul_nonneg (normSq_nonneg _) hb0
      simp only [dpsiVel, ← normSq_eq_dot]
      nlinarith

end ShallowWater
end Ryujin
