import Verif.Model.Transfinite
import Mathlib.Tactic.LinearCombination
import Mathlib.Tactic.FinCases
import Mathlib.Tactic.Linarith
import Mathlib.Tactic.Positivity
import Mathlib.Algebra.BigOperators.Group.List.Basic
import Mathlib.Data.List.Forall2

/-!
# Property C97: the inversion of the transfinite interpolation and the placement of new points
-/

namespace Ryujin
namespace Transfinite

open GeoTiff (Outcome)

noncomputable section

/-! ## Line search -/

theorem shrink_spec {m : ℕ} (x update : Vec m) (fuel : ℕ) (alpha : ℝ) (h0 : 0 ≤ alpha)
    (hf : alpha * (1 / 2) ^ fuel ≤ 1e-7) :
    0 ≤ shrink x update fuel alpha ∧ shrink x update fuel alpha ≤ alpha
    ∧ (shrink x update fuel alpha ≤ 1e-7 ∨ isInside (x + shrink x update fuel alpha • update) 0.2) := by
  classical
  induction fuel generalizing alpha with
  | zero => exact ⟨h0, le_refl _, Or.inl (by simpa [shrink] using hf)⟩
  | succ k ih =>
    unfold shrink
    by_cases h : ¬isInside (x + alpha • update) 0.2 ∧ alpha > 1e-7
    · rw [if_pos h]
      have hk : alpha * 0.5 * (1 / 2) ^ k ≤ 1e-7 := by
        have : alpha * 0.5 * (1 / 2 : ℝ) ^ k = alpha * (1 / 2) ^ (k + 1) := by rw [pow_succ]; ring
        rw [this]; exact hf
      obtain ⟨a, b, c⟩ := ih (alpha * 0.5) (by linarith) hk
      exact ⟨a, by linarith, c⟩
    · rw [if_neg h]
      refine ⟨h0, le_refl _, ?_⟩
      by_cases hi : isInside (x + alpha • update) 0.2
      · exact Or.inr hi
      · exact Or.inl (not_lt.1 fun h' => h ⟨hi, h'⟩)

theorem search_spec {m : ℕ} (F : Vec m → Vec m) (point x residual update : Vec m) (fuel : ℕ) (alpha : ℝ) (h0 : 0 ≤ alpha)
    (hf : alpha * (1 / 2) ^ fuel ≤ 1e-4) :
    ((search F point x residual update fuel alpha).2 = none ∧ (search F point x residual update fuel alpha).1 ≤ 1e-4)
    ∨ ∃ a, 1e-4 < a ∧ a ≤ alpha ∧ (search F point x residual update fuel alpha).1 = a
      ∧ (search F point x residual update fuel alpha).2 = some (x + a • update, point - F (x + a • update))
      ∧ normSq (point - F (x + a • update)) < normSq residual := by
  induction fuel generalizing alpha with
  | zero => exact Or.inl ⟨rfl, by simpa [search] using hf⟩
  | succ k ih =>
    unfold search
    by_cases h : alpha > 1e-4
    · rw [if_pos h]
      dsimp only
      by_cases hd : normSq (point - F (x + alpha • update)) < normSq residual
      · rw [if_pos hd]
        exact Or.inr ⟨alpha, h, le_refl _, rfl, rfl, hd⟩
      · rw [if_neg hd]
        have hk : alpha * 0.5 * (1 / 2) ^ k ≤ 1e-4 := by
          have : alpha * 0.5 * (1 / 2 : ℝ) ^ k = alpha * (1 / 2) ^ (k + 1) := by rw [pow_succ]; ring
          rw [this]; exact hf
        rcases ih (alpha * 0.5) (by linarith) hk with h' | ⟨a, h1, h2, h3⟩
        · exact Or.inl h'
        · exact Or.inr ⟨a, h1, by linarith, h3⟩
    · rw [if_neg h]
      exact Or.inl ⟨rfl, not_lt.1 h⟩

theorem inside_segment {m : ℕ} {x u : Vec m} {a b eps : ℝ} (ha : 0 ≤ a) (hab : a ≤ b) (hx : isInside x eps)
    (hb : isInside (x + b • u) eps) : isInside (x + a • u) eps := by
  intro d
  have h1 := hx d
  have h2 := hb d
  simp only [Pi.add_apply, Pi.smul_apply, smul_eq_mul] at h2 ⊢
  rcases le_total 0 (u d) with hu | hu
  · have e1 : a * u d ≤ b * u d := mul_le_mul_of_nonneg_right hab hu
    have e2 : 0 ≤ a * u d := mul_nonneg ha hu
    constructor <;> linarith
  · have e1 : b * u d ≤ a * u d := mul_le_mul_of_nonpos_right hab hu
    have e2 : a * u d ≤ 0 := mul_nonpos_of_nonneg_of_nonpos ha hu
    constructor <;> linarith

/-- The state of the iteration for the inversion of `F` at `point`: the residual belongs to the chart point, which is in
1.2 times the unit cell, and the residual is not larger than at the start. -/
structure Sound {m : ℕ} (F : Vec m → Vec m) (point : Vec m) (bound : ℝ) (s : Newton m) : Prop where
  residual : s.residual = point - F s.x
  inside : isInside s.x 0.2
  decreasing : normSq s.residual ≤ bound

/-- What one pass of the iteration does. -/
theorem step_cases {m : ℕ} (F : Vec m → Vec m) (tolerance : ℝ) (point : Vec m) (i : ℕ) {bound : ℝ} {s : Newton m}
    (h : Sound F point bound s) :
    (normSq s.residual < tolerance ∧ newtonStep F tolerance point i s = .inl (s.x + applyInverse s.invGrad s.residual))
    ∨ newtonStep F tolerance point i s = .inl outside
    ∨ ∃ s', newtonStep F tolerance point i s = .inr s' ∧ Sound F point bound s' := by
  unfold newtonStep
  by_cases ht : normSq s.residual < tolerance
  · rw [if_pos ht]
    exact Or.inl ⟨ht, rfl⟩
  · rw [if_neg ht]
    right
    dsimp only
    generalize hj : decide (s.recompute = true ∨ (normSq s.residual > 1e4 * tolerance ∧ i % 7 = 0)) = jacobian
    generalize pushForwardGradient F s.x (point - s.residual) = grad
    by_cases hdet : jacobian = true ∧ grad.det ≤ 0
    · rw [if_pos hdet]
      exact Or.inl rfl
    · rw [if_neg hdet]
      right
      have hrec : (if jacobian = true then false else s.recompute) = false := by
        cases hjj : jacobian with
        | true => rfl
        | false =>
          rw [hjj] at hj
          have := of_decide_eq_false hj
          push Not at this
          simpa using this.1
      generalize (if jacobian = true then (grad⁻¹).transpose else s.invGrad) = invGrad
      generalize hu : applyInverse invGrad s.residual = update
      obtain ⟨a0, a1, ain⟩ := shrink_spec s.x update 24 1 (by norm_num) (by norm_num)
      generalize shrink s.x update 24 1 = alpha at a0 a1 ain
      have key := search_spec F point s.x s.residual update 14 alpha a0
        (by have : alpha * (1 / 2 : ℝ) ^ 14 ≤ 1 * (1 / 2 : ℝ) ^ 14 := by gcongr
            refine this.trans ?_
            norm_num)
      rw [hrec]
      simp only [Bool.false_eq_true, and_false, if_false]
      generalize search F point s.x s.residual update 14 alpha = found at key
      refine ⟨_, rfl, ?_⟩
      rcases key with ⟨hn, _⟩ | ⟨a, hlo, hle, hfst, hsome, hdec⟩
      · refine ⟨?_, ?_, ?_⟩
        · simpa [hn] using h.residual
        · simpa [hn] using h.inside
        · simpa [hn] using h.decreasing
      · have hin : isInside (s.x + alpha • update) 0.2 := by
          rcases ain with h' | h'
          · exact absurd h' (by push Not; refine lt_of_lt_of_le ?_ hle; refine lt_trans ?_ hlo; norm_num)
          · exact h'
        refine ⟨?_, ?_, ?_⟩
        · simp [hsome]
        · simpa [hsome] using inside_segment (by linarith) hle h.inside hin
        · have := h.decreasing
          simp only [hsome, Option.map_some, Option.getD_some]
          exact hdec.le.trans this

theorem loop_sound {m : ℕ} (F : Vec m → Vec m) (tolerance : ℝ) (point : Vec m) {bound : ℝ} (remaining i : ℕ)
    (s : Newton m) (h : Sound F point bound s) :
    newtonLoop F tolerance point remaining i s = outside
    ∨ ∃ (x : Vec m) (J : Matrix (Fin m) (Fin m) ℝ), isInside x 0.2 ∧ normSq (point - F x) < tolerance
      ∧ normSq (point - F x) ≤ bound
      ∧ newtonLoop F tolerance point remaining i s = x + applyInverse J (point - F x) := by
  induction remaining generalizing i s with
  | zero => exact Or.inl rfl
  | succ k ih =>
    unfold newtonLoop
    rcases step_cases F tolerance point i h with ⟨ht, he⟩ | he | ⟨s', he, hs'⟩
    · rw [he]
      refine Or.inr ⟨s.x, s.invGrad, h.inside, ?_, ?_, ?_⟩
      · rw [← h.residual]; exact ht
      · rw [← h.residual]; exact h.decreasing
      · rw [h.residual]
    · rw [he]
      exact Or.inl rfl
    · rw [he]
      exact ih (i + 1) s' hs'

theorem project_inside {m : ℕ} (x : Vec m) : isInside (project x) 0 := by
  intro d
  unfold project
  constructor
  · simp
  · simp

theorem start_sound {m : ℕ} (F : Vec m → Vec m) (point guess : Vec m) :
    Sound F point (normSq (point - F (project guess)))
      ⟨project guess, point - F (project guess), 0, true⟩ := by
  refine ⟨rfl, fun d => ?_, le_refl _⟩
  have := project_inside guess d
  constructor <;> linarith [this.1, this.2]

/-- Whatever `pull_back` returns for a map `F`: either the sentinel for "not in this cell", or a point of 1.2 times the unit
cell that `F` maps to the given point up to the tolerance (and not farther from it than the guess), after one last
correction linear in the remaining distance. -/
theorem C97_sound {m : ℕ} (F : Vec m → Vec m) (tolerance : ℝ) (point guess : Vec m) :
    pullBack F tolerance point guess = outside
    ∨ ∃ (x : Vec m) (J : Matrix (Fin m) (Fin m) ℝ), isInside x 0.2 ∧ normSq (point - F x) < tolerance
      ∧ normSq (point - F x) ≤ normSq (point - F (project guess))
      ∧ pullBack F tolerance point guess = x + applyInverse J (point - F x) :=
  loop_sound F tolerance point 100 0 _ (start_sound F point guess)

/-! ## The fallback that is never taken -/

/-- A map with a jump, as rounding makes of any map: next to `0` it does not get closer to `1/8`. -/
def jump : Vec 1 → Vec 1 := fun x _ => if x 0 = 0 then 0 else if x 0 = 1e-8 then 1e-8 else 5

theorem jump_grad (r : Vec 1) (hr : r = 0) : pushForwardGradient jump 0 r = 1 := by
  funext e d
  have he : e = 0 := Subsingleton.elim _ _
  have hd : d = 0 := Subsingleton.elim _ _
  subst he; subst hd
  unfold pushForwardGradient
  norm_num [jump, Function.update, hr]

theorem jump_step (i : ℕ) (J : Matrix (Fin 1) (Fin 1) ℝ) :
    ∃ J', newtonStep jump (1 / 64) (fun _ => 1 / 8) i ⟨0, fun _ => 1 / 8, J, true⟩
      = .inr ⟨0, fun _ => 1 / 8, J', true⟩ := by
  have hn : normSq (fun _ => 1 / 8 : Vec 1) = 1 / 64 := by
    simp [normSq]; norm_num
  have hg : pushForwardGradient jump 0 ((fun _ => 1 / 8 : Vec 1) - fun _ => 1 / 8) = 1 :=
    jump_grad _ (by funext k; simp)
  unfold newtonStep
  simp only [hn, lt_irrefl, if_false, true_or, decide_true, hg, Matrix.det_one, true_and, if_true, inv_one,
    Matrix.transpose_one]
  have hu : applyInverse (1 : Matrix (Fin 1) (Fin 1) ℝ) (fun _ => 1 / 8) = fun _ => 1 / 8 := by
    funext k
    have hk : k = 0 := Subsingleton.elim _ _
    subst hk
    simp [applyInverse]
  rw [hu, if_neg (by norm_num)]
  simp only [Bool.false_eq_true, and_false, if_false]
  obtain ⟨a0, a1, _⟩ := shrink_spec (0 : Vec 1) (fun _ => 1 / 8) 24 1 (by norm_num) (by norm_num)
  generalize shrink (0 : Vec 1) (fun _ => 1 / 8) 24 1 = alpha at a0 a1
  have key := search_spec jump (fun _ => 1 / 8) (0 : Vec 1) (fun _ => 1 / 8) (fun _ => 1 / 8) 14 alpha a0
    (by have : alpha * (1 / 2 : ℝ) ^ 14 ≤ 1 * (1 / 2 : ℝ) ^ 14 := by gcongr
        refine this.trans ?_
        norm_num)
  generalize search jump (fun _ => 1 / 8) (0 : Vec 1) (fun _ => 1 / 8) (fun _ => 1 / 8) 14 alpha = found at key
  rcases key with ⟨hn', hle⟩ | ⟨a, hlo, _, _, _, hdec⟩
  · simp only [hn', Option.map_none, Option.getD_none, if_pos hle]
    exact ⟨_, rfl⟩
  · exfalso
    have hj : jump ((0 : Vec 1) + a • fun _ => 1 / 8) = fun _ => 5 := by
      have e : ((0 : Vec 1) + a • (fun _ => 1 / 8) : Vec 1) 0 = a / 8 := by
        simp; ring
      funext k
      unfold jump
      rw [e, if_neg (by intro h; norm_num at hlo; linarith), if_neg (by intro h; norm_num at hlo h; linarith)]
    rw [hj, hn] at hdec
    simp [normSq] at hdec
    norm_num at hdec

theorem jump_loop (remaining i : ℕ) (J : Matrix (Fin 1) (Fin 1) ℝ) :
    newtonLoop jump (1 / 64) (fun _ => 1 / 8) remaining i ⟨0, fun _ => 1 / 8, J, true⟩ = outside := by
  induction remaining generalizing i J with
  | zero => rfl
  | succ k ih =>
    obtain ⟨J', h⟩ := jump_step i J
    unfold newtonLoop
    rw [h]
    exact ih _ _

/-- The comment in the code promises the best estimate when the iteration stalls with a residual below the square root of
the tolerance.  The flag that selects this exit has always been reset before it is looked at: a point that is found
up to the square root of the tolerance is reported as being outside of the cell. -/
theorem C97_best_estimate_violation :
    normSq ((fun _ => 1 / 8 : Vec 1) - jump (project 0)) < Real.sqrt (1 / 64)
    ∧ pullBack jump (1 / 64) (fun _ => 1 / 8) 0 = outside := by
  have hp : project (0 : Vec 1) = 0 := by funext d; simp [project]
  have hr : ((fun _ => 1 / 8 : Vec 1) - jump 0) = fun _ => 1 / 8 := by
    funext k; simp [jump]
  constructor
  · rw [hp, hr]
    have : Real.sqrt (1 / 64) = 1 / 8 := by
      rw [show (1 / 64 : ℝ) = (1 / 8) ^ 2 by norm_num]
      exact Real.sqrt_sq (by norm_num)
    rw [this]
    simp [normSq]
    norm_num
  · unfold pullBack
    simp only [hp, hr]
    exact jump_loop _ _ _

/-! ## Affine cells -/

theorem gradient_affine {m : ℕ} (A : Matrix (Fin m) (Fin m) ℝ) (b x : Vec m) :
    pushForwardGradient (fun x => A.mulVec x + b) x (A.mulVec x + b) = A := by
  ext e d
  unfold pushForwardGradient
  rw [Matrix.of_apply]
  dsimp only
  have hstep : (if x d > 0.5 then (-1e-8 : ℝ) else 1e-8) ≠ 0 := by
    split <;> norm_num
  generalize (if x d > 0.5 then (-1e-8 : ℝ) else 1e-8) = step at hstep
  have h : Function.update x d (x d + step) = x + step • Pi.single d 1 := by
    funext k
    by_cases hk : k = d
    · subst hk; simp
    · simp [Function.update_of_ne hk, Pi.single_eq_of_ne hk]
  rw [h, Matrix.mulVec_add, Matrix.mulVec_smul]
  simp only [Pi.add_apply, Pi.smul_apply, smul_eq_mul, Matrix.mulVec_single_one, Matrix.col_apply]
  rw [show A.mulVec x e + step * A e d + b e - (A.mulVec x e + b e) = step * A e d by ring]
  field_simp

theorem applyInverse_transpose {m : ℕ} (B : Matrix (Fin m) (Fin m) ℝ) (r : Vec m) :
    applyInverse B.transpose r = B.mulVec r := by
  funext e
  simp [applyInverse, Matrix.mulVec, dotProduct]

theorem broyden_exact {m : ℕ} (tolerance : ℝ) (J : Matrix (Fin m) (Fin m) ℝ) (dx df : Vec m) (recompute : Bool)
    (h : applyInverse J df = dx) : broyden tolerance J dx df recompute = J := by
  unfold broyden
  dsimp only
  rw [h]
  by_cases hc : |dot dx dx| > 0.1 * tolerance ∧ recompute = false
  · rw [if_pos hc]
    funext d e; simp
  · rw [if_neg hc]

theorem broyden_recompute {m : ℕ} (tolerance : ℝ) (J : Matrix (Fin m) (Fin m) ℝ) (dx df : Vec m) :
    broyden tolerance J dx df true = J := by
  simp [broyden]

theorem normSq_nonneg' {m : ℕ} (v : Vec m) : 0 ≤ normSq v := Finset.sum_nonneg fun _ _ => mul_self_nonneg _

/-- One pass for an affine map with the exact inverse Jacobian, or before it has been computed. -/
theorem affine_step {m : ℕ} {A : Matrix (Fin m) (Fin m) ℝ} (hA : 0 < A.det) (b y : Vec m) (tolerance : ℝ) (i : ℕ)
    {s : Newton m} (hres : s.residual = (A.mulVec y + b) - (A.mulVec s.x + b))
    (hJ : s.recompute = true ∨ s.invGrad = (A⁻¹).transpose) :
    (normSq s.residual < tolerance
      ∧ newtonStep (fun x => A.mulVec x + b) tolerance (A.mulVec y + b) i s
        = .inl (s.x + applyInverse s.invGrad s.residual))
    ∨ ∃ s', newtonStep (fun x => A.mulVec x + b) tolerance (A.mulVec y + b) i s = .inr s'
      ∧ s'.residual = (A.mulVec y + b) - (A.mulVec s'.x + b) ∧ s'.invGrad = (A⁻¹).transpose
      ∧ (isInside y 0.2 → 0 < tolerance → s'.x = y) := by
  have hunit : IsUnit A.det := (ne_of_gt hA).isUnit
  have hinv : ∀ v, (A⁻¹).mulVec (A.mulVec v) = v := by
    intro v
    rw [Matrix.mulVec_mulVec, Matrix.nonsing_inv_mul A hunit, Matrix.one_mulVec]
  have hres' : s.residual = A.mulVec (y - s.x) := by
    rw [hres, Matrix.mulVec_sub]
    funext k
    simp
  have hval : (A.mulVec y + b) - s.residual = A.mulVec s.x + b := by
    rw [hres]
    funext k
    simp only [Pi.add_apply, Pi.sub_apply]
    ring
  unfold newtonStep
  by_cases ht : normSq s.residual < tolerance
  · rw [if_pos ht]
    exact Or.inl ⟨ht, rfl⟩
  · rw [if_neg ht]
    right
    dsimp only
    rw [hval, gradient_affine]
    generalize hj : decide (s.recompute = true ∨ (normSq s.residual > 1e4 * tolerance ∧ i % 7 = 0)) = jacobian
    rw [if_neg (fun h => absurd h.2 (not_le.2 hA))]
    have hinvg : (if jacobian = true then (A⁻¹).transpose else s.invGrad) = (A⁻¹).transpose := by
      cases hjj : jacobian with
      | true => rfl
      | false =>
        rw [hjj] at hj
        have := of_decide_eq_false hj
        push Not at this
        rcases hJ with h' | h'
        · exact absurd h' this.1
        · simpa using h'
    have hrec : (if jacobian = true then false else s.recompute) = false := by
      cases hjj : jacobian with
      | true => rfl
      | false =>
        rw [hjj] at hj
        have := of_decide_eq_false hj
        push Not at this
        simpa using this.1
    rw [hinvg, hrec, applyInverse_transpose]
    have hup : (A⁻¹).mulVec s.residual = y - s.x := by rw [hres', hinv]
    rw [hup]
    simp only [Bool.false_eq_true, and_false, if_false]
    obtain ⟨a0, a1, _⟩ := shrink_spec s.x (y - s.x) 24 1 (by norm_num) (by norm_num)
    have hsh : isInside y 0.2 → shrink s.x (y - s.x) 24 1 = 1 := by
      intro hin
      unfold shrink
      have : s.x + (1 : ℝ) • (y - s.x) = y := by simp
      rw [this, if_neg (fun h => h.1 hin)]
    generalize hal : shrink s.x (y - s.x) 24 1 = alpha at a0 a1 hsh
    have key := search_spec (fun x => A.mulVec x + b) (A.mulVec y + b) s.x s.residual (y - s.x) 14 alpha a0
      (by have : alpha * (1 / 2 : ℝ) ^ 14 ≤ 1 * (1 / 2 : ℝ) ^ 14 := by gcongr
          refine this.trans ?_
          norm_num)
    have hone : isInside y 0.2 → 0 < tolerance →
        search (fun x => A.mulVec x + b) (A.mulVec y + b) s.x s.residual (y - s.x) 14 alpha = (1, some (y, 0)) := by
      intro hin htol
      rw [hsh hin]
      unfold search
      have : s.x + (1 : ℝ) • (y - s.x) = y := by simp
      rw [if_pos (by norm_num)]
      dsimp only
      rw [this, sub_self, if_pos ?_]
      push Not at ht
      have : normSq (0 : Vec m) = 0 := by simp [normSq]
      rw [this]
      exact lt_of_lt_of_le htol ht
    generalize search (fun x => A.mulVec x + b) (A.mulVec y + b) s.x s.residual (y - s.x) 14 alpha = found at key hone
    refine ⟨_, rfl, ?_, ?_, ?_⟩
    · rcases key with ⟨hn, _⟩ | ⟨a, _, _, _, hsome, _⟩
      · simpa [hn] using hres
      · simp [hsome]
    · rcases key with ⟨hn, hle⟩ | ⟨a, _, _, hfst, hsome, _⟩
      · dsimp only
        rw [if_pos hle, broyden_recompute]
      · refine broyden_exact _ _ _ _ _ ?_
        rw [applyInverse_transpose]
        simp only [hsome, Option.map_some, Option.getD_some, hfst]
        have : s.residual - (A.mulVec y + b - (A.mulVec (s.x + a • (y - s.x)) + b)) = A.mulVec (a • (y - s.x)) := by
          rw [hres, Matrix.mulVec_add]
          funext k
          simp
        rw [this, hinv]
    · intro hin htol
      simp [hone hin htol]

/-- For an affine cell with positive orientation: the result is the exact preimage, or the guess if it is already within the
tolerance, or the sentinel; the latter does not happen for the points of 1.2 times the cell. -/
theorem C97_affine {m : ℕ} {A : Matrix (Fin m) (Fin m) ℝ} (hA : 0 < A.det) (b y guess : Vec m) (tolerance : ℝ) :
    (pullBack (fun x => A.mulVec x + b) tolerance (A.mulVec y + b) guess = outside
      ∨ pullBack (fun x => A.mulVec x + b) tolerance (A.mulVec y + b) guess = y
      ∨ (pullBack (fun x => A.mulVec x + b) tolerance (A.mulVec y + b) guess = project guess
        ∧ normSq ((A.mulVec y + b) - (A.mulVec (project guess) + b)) < tolerance))
    ∧ (isInside y 0.2 → 0 < tolerance →
      pullBack (fun x => A.mulVec x + b) tolerance (A.mulVec y + b) guess = y
      ∨ (pullBack (fun x => A.mulVec x + b) tolerance (A.mulVec y + b) guess = project guess
        ∧ normSq ((A.mulVec y + b) - (A.mulVec (project guess) + b)) < tolerance)) := by
  have hunit : IsUnit A.det := (ne_of_gt hA).isUnit
  have hinv : ∀ v, (A⁻¹).mulVec (A.mulVec v) = v := by
    intro v
    rw [Matrix.mulVec_mulVec, Matrix.nonsing_inv_mul A hunit, Matrix.one_mulVec]
  have hret : ∀ s : Newton m, s.residual = (A.mulVec y + b) - (A.mulVec s.x + b) → s.invGrad = (A⁻¹).transpose →
      s.x + applyInverse s.invGrad s.residual = y := by
    intro s h1 h2
    rw [h1, h2, applyInverse_transpose]
    have : (A.mulVec y + b) - (A.mulVec s.x + b) = A.mulVec (y - s.x) := by
      rw [Matrix.mulVec_sub]
      funext k
      simp
    rw [this, hinv]
    simp
  have hloop : ∀ (k i : ℕ) (s : Newton m), s.residual = (A.mulVec y + b) - (A.mulVec s.x + b) →
      s.invGrad = (A⁻¹).transpose →
      newtonLoop (fun x => A.mulVec x + b) tolerance (A.mulVec y + b) k i s = outside
      ∨ newtonLoop (fun x => A.mulVec x + b) tolerance (A.mulVec y + b) k i s = y := by
    intro k
    induction k with
    | zero => exact fun i s _ _ => Or.inl rfl
    | succ k ih =>
      intro i s h1 h2
      unfold newtonLoop
      rcases affine_step hA b y tolerance i h1 (Or.inr h2) with ⟨_, he⟩ | ⟨s', he, h1', h2', _⟩
      · rw [he]
        exact Or.inr (hret s h1 h2)
      · rw [he]
        exact ih _ s' h1' h2'
  unfold pullBack
  dsimp only
  generalize hs0 : (⟨project guess, A.mulVec y + b - (A.mulVec (project guess) + b), 0, true⟩ : Newton m) = s0
  have r0 : s0.residual = (A.mulVec y + b) - (A.mulVec s0.x + b) := by rw [← hs0]
  have x0 : s0.x = project guess := by rw [← hs0]
  have j0 : s0.recompute = true := by rw [← hs0]
  have g0 : s0.invGrad = 0 := by rw [← hs0]
  rcases affine_step hA b y tolerance 0 r0 (Or.inl j0) with ⟨ht, he⟩ | ⟨s', he, h1', h2', h3'⟩
  · have hres : newtonLoop (fun x => A.mulVec x + b) tolerance (A.mulVec y + b) 100 0 s0 = project guess := by
      unfold newtonLoop
      rw [he, g0, x0]
      funext k
      simp [applyInverse]
    rw [r0, x0] at ht
    exact ⟨Or.inr (Or.inr ⟨hres, ht⟩), fun _ _ => Or.inr ⟨hres, ht⟩⟩
  · have hres : newtonLoop (fun x => A.mulVec x + b) tolerance (A.mulVec y + b) 100 0 s0
        = newtonLoop (fun x => A.mulVec x + b) tolerance (A.mulVec y + b) 99 1 s' := by
      conv_lhs => unfold newtonLoop
      rw [he]
    rw [hres]
    refine ⟨?_, fun hin htol => Or.inl ?_⟩
    · rcases hloop 99 1 s' h1' h2' with h | h
      · exact Or.inl h
      · exact Or.inr (Or.inl h)
    · have hx := h3' hin htol
      have hz : normSq s'.residual < tolerance := by
        rw [h1', hx, sub_self]
        simpa [normSq] using htol
      unfold newtonLoop newtonStep
      rw [if_pos hz]
      exact hret s' h1' h2'

/-! ## Choice of the cell -/

/-- The point with the index `k` has been inverted in the cell `C`. -/
def Inverted {m : ℕ} (C : Chart m) (points xs : List (Vec m)) (k : ℕ) : Prop :=
  ∃ p x, points[k]? = some p ∧ xs[k]? = some x ∧ isInside x 5e-4
    ∧ ∃ guess, x = pullBack C.map C.tolerance p guess

theorem chartPoint_pullBack {m : ℕ} (C : Chart m) (points done : List (Vec m)) (p : Vec m) :
    ∃ guess, chartPoint C points done p = pullBack C.map C.tolerance p guess := by
  classical
  unfold chartPoint
  dsimp only
  have h1 : ∃ g, (if isInvalid (pullBack C.map C.tolerance p ((cheapGuess points done).getD (C.affine p)))
      ∧ (cheapGuess points done).isSome = true then pullBack C.map C.tolerance p (C.affine p)
      else pullBack C.map C.tolerance p ((cheapGuess points done).getD (C.affine p)))
      = pullBack C.map C.tolerance p g := by
    split
    · exact ⟨_, rfl⟩
    · exact ⟨_, rfl⟩
  obtain ⟨g, hg⟩ := h1
  rw [hg]
  split
  · exact ⟨_, rfl⟩
  · exact ⟨_, rfl⟩

theorem chartPointsFrom_spec {m : ℕ} (C : Chart m) (points rest done xs : List (Vec m))
    (h : chartPointsFrom C points rest done = some xs) :
    xs.length = done.length + rest.length ∧ (∀ k, k < done.length → xs[k]? = done[k]?)
    ∧ ∀ k, k < rest.length → ∃ p x, rest[k]? = some p ∧ xs[done.length + k]? = some x ∧ isInside x 5e-4
      ∧ ∃ guess, x = pullBack C.map C.tolerance p guess := by
  classical
  induction rest generalizing done with
  | nil =>
    simp only [chartPointsFrom, Option.some.injEq] at h
    subst h
    exact ⟨rfl, fun k _ => rfl, fun k hk => absurd hk (by simp)⟩
  | cons p t ih =>
    unfold chartPointsFrom at h
    dsimp only at h
    by_cases hin : isInside (chartPoint C points done p) 5e-4
    · rw [if_pos hin] at h
      obtain ⟨h1, h2, h3⟩ := ih _ h
      simp only [List.length_append, List.length_singleton] at h1 h2 h3
      refine ⟨by rw [h1, List.length_cons]; omega, fun k hk => ?_, fun k hk => ?_⟩
      · rw [h2 k (by omega), List.getElem?_append_left hk]
      · rcases k with _ | k
        · refine ⟨p, chartPoint C points done p, rfl, ?_, hin, chartPoint_pullBack _ _ _ _⟩
          rw [Nat.add_zero, h2 done.length (by omega)]
          simp
        · obtain ⟨q, x, hq, hx, hr⟩ := h3 k (by simpa using hk)
          refine ⟨q, x, by simpa using hq, ?_, hr⟩
          rw [← hx]
          congr 1
          omega
    · rw [if_neg hin] at h
      exact absurd h (by simp)

theorem pairLe_total (a b : ℝ × ℕ) : pairLe a b ∨ pairLe b a := by
  unfold pairLe
  rcases lt_trichotomy a.1 b.1 with h | h | h
  · exact Or.inl (Or.inl h)
  · rcases le_total a.2 b.2 with h' | h'
    · exact Or.inl (Or.inr ⟨h, h'⟩)
    · exact Or.inr (Or.inr ⟨h.symm, h'⟩)
  · exact Or.inr (Or.inl h)

theorem pairLe_trans {a b c : ℝ × ℕ} (h : pairLe a b) (h' : pairLe b c) : pairLe a c := by
  unfold pairLe at *
  rcases h with h | ⟨h, h2⟩ <;> rcases h' with h' | ⟨h', h2'⟩
  · exact Or.inl (h.trans h')
  · exact Or.inl (h' ▸ h)
  · exact Or.inl (h ▸ h')
  · exact Or.inr ⟨h.trans h', h2.trans h2'⟩

open Classical in
/-- The list of the distances and indices of the candidates. -/
def foundCells {m : ℕ} (charts : List (Chart m)) (points : List (Vec m)) : List (ℝ × ℕ) :=
  charts.zipIdx.filterMap fun (C, k) => if C.near points then some (C.distance points, k) else none

theorem mem_foundCells {m : ℕ} (charts : List (Chart m)) (points : List (Vec m)) (q : ℝ × ℕ) :
    q ∈ foundCells charts points ↔ ∃ C, charts[q.2]? = some C ∧ C.near points ∧ q.1 = C.distance points := by
  classical
  unfold foundCells
  rw [List.mem_filterMap]
  constructor
  · rintro ⟨⟨C, k⟩, hmem, hq⟩
    rw [List.mem_zipIdx_iff_getElem?] at hmem
    dsimp only at hq hmem
    by_cases hn : C.near points
    · rw [if_pos hn] at hq
      have := Option.some.inj hq
      subst this
      exact ⟨C, hmem, hn, rfl⟩
    · rw [if_neg hn] at hq
      exact absurd hq (by simp)
  · rintro ⟨C, hC, hn, hd⟩
    refine ⟨(C, q.2), ?_, ?_⟩
    · rw [List.mem_zipIdx_iff_getElem?]
      exact hC
    · dsimp only
      rw [if_pos hn, ← hd]

open Classical in
theorem length_foundCells {m : ℕ} (charts : List (Chart m)) (points : List (Vec m)) :
    (foundCells charts points).length = (charts.filter fun C => C.near points).length := by
  have : ∀ (l : List (Chart m)) (n : ℕ), ((l.zipIdx n).filterMap fun (C, k) =>
      if C.near points then some (C.distance points, k) else none).length = (l.filter fun C => C.near points).length := by
    intro l
    induction l with
    | nil => simp
    | cons C t ih =>
      intro n
      rw [List.zipIdx_cons, List.filterMap_cons, List.filter_cons]
      by_cases hn : C.near points
      · simp [hn, ih]
      · simp [hn, ih]
  exact this charts 0

open Classical in
/-- The candidates: the cells that are not excluded, in the order of their distances, at most 20. -/
theorem possibleCells_spec {m : ℕ} (charts : List (Chart m)) (points : List (Vec m)) :
    (possibleCells charts points = .exception ∧ ∀ C ∈ charts, ¬C.near points)
    ∨ ∃ cells, possibleCells charts points = .ok cells
      ∧ (∀ k ∈ cells, ∃ C, charts[k]? = some C ∧ C.near points)
      ∧ ((charts.filter fun C => C.near points).length ≤ 20 →
        ∀ (k : ℕ) (C : Chart m), charts[k]? = some C → C.near points → k ∈ cells)
      ∧ cells.Pairwise fun j k => ∀ C D : Chart m, charts[j]? = some C → charts[k]? = some D →
        C.distance points ≤ D.distance points := by
  have hdef : possibleCells charts points = if (foundCells charts points).length = 0 then Outcome.exception
      else .ok ((((foundCells charts points).insertionSort pairLe).map Prod.snd).take 20) := rfl
  rw [hdef]
  by_cases h0 : (foundCells charts points).length = 0
  · rw [if_pos h0]
    left
    refine ⟨rfl, fun C hC hn => ?_⟩
    obtain ⟨k, hk⟩ := List.getElem?_of_mem hC
    have : (C.distance points, k) ∈ foundCells charts points := (mem_foundCells _ _ _).2 ⟨C, hk, hn, rfl⟩
    rw [List.length_eq_zero_iff.1 h0] at this
    exact absurd this (by simp)
  · rw [if_neg h0]
    right
    have hmem : ∀ q, q ∈ (foundCells charts points).insertionSort pairLe ↔ q ∈ foundCells charts points :=
      fun q => (List.perm_insertionSort _ _).mem_iff
    refine ⟨_, rfl, fun k hk => ?_, fun hlen k C hC hn => ?_, ?_⟩
    · have := List.mem_of_mem_take hk
      rw [List.mem_map] at this
      obtain ⟨q, hq, rfl⟩ := this
      obtain ⟨C, hC, hn, _⟩ := (mem_foundCells _ _ _).1 ((hmem q).1 hq)
      exact ⟨C, hC, hn⟩
    · rw [List.take_of_length_le]
      · rw [List.mem_map]
        exact ⟨(C.distance points, k), (hmem _).2 ((mem_foundCells _ _ _).2 ⟨C, hC, hn, rfl⟩), rfl⟩
      · rw [List.length_map, List.length_insertionSort, length_foundCells]
        exact hlen
    · have hs : ((foundCells charts points).insertionSort pairLe).Pairwise pairLe := by
        have : Std.Total (α := ℝ × ℕ) pairLe := ⟨pairLe_total⟩
        have : IsTrans (ℝ × ℕ) pairLe := ⟨fun _ _ _ => pairLe_trans⟩
        exact List.pairwise_insertionSort _ _
      refine List.Pairwise.take ?_
      rw [List.pairwise_map]
      refine List.Pairwise.imp_of_mem ?_ hs
      intro a b ha hb hab C D hC hD
      obtain ⟨C', hC', _, hd⟩ := (mem_foundCells _ _ _).1 ((hmem a).1 ha)
      obtain ⟨D', hD', _, hd'⟩ := (mem_foundCells _ _ _).1 ((hmem b).1 hb)
      rw [hC] at hC'
      rw [hD] at hD'
      cases hC'
      cases hD'
      rw [← hd, ← hd']
      rcases hab with h | h
      · exact h.le
      · exact h.1.le

theorem firstChart_spec {m : ℕ} (charts : List (Chart m)) (points : List (Vec m)) (cells : List ℕ)
    (hcells : ∀ k ∈ cells, ∃ C, charts[k]? = some C ∧ C.near points) :
    (firstChart charts points cells = .exception
      ∧ ∀ k ∈ cells, ∀ C, charts[k]? = some C → chartPointsFrom C points points [] = none)
    ∨ ∃ pre k post C xs, cells = pre ++ k :: post ∧ charts[k]? = some C
      ∧ chartPointsFrom C points points [] = some xs ∧ firstChart charts points cells = .ok (C, xs)
      ∧ ∀ j ∈ pre, ∀ D, charts[j]? = some D → chartPointsFrom D points points [] = none := by
  induction cells with
  | nil => exact Or.inl ⟨rfl, fun k hk => absurd hk (by simp)⟩
  | cons k t ih =>
    obtain ⟨C, hC, hn⟩ := hcells k (by simp)
    unfold firstChart
    rw [hC]
    dsimp only
    cases hx : chartPointsFrom C points points [] with
    | some xs => exact Or.inr ⟨[], k, t, C, xs, rfl, hC, hx, rfl, fun j hj => absurd hj (by simp)⟩
    | none =>
      dsimp only
      rcases ih (fun j hj => hcells j (by simp [hj])) with ⟨h1, h2⟩ | ⟨pre, k', post, C', xs, h1, h2, h3, h4, h5⟩
      · refine Or.inl ⟨h1, fun j hj D hD => ?_⟩
        rcases List.mem_cons.1 hj with rfl | hj
        · rw [hC] at hD
          cases hD
          exact hx
        · exact h2 j hj D hD
      · refine Or.inr ⟨k :: pre, k', post, C', xs, by rw [h1]; rfl, h2, h3, h4, fun j hj D hD => ?_⟩
        rcases List.mem_cons.1 hj with rfl | hj
        · rw [hC] at hD
          cases hD
          exact hx
        · exact h5 j hj D hD

open Classical in
/-- The cell chosen for a list of points: it belongs to the mesh and is not an excluded one, all points have been inverted in
it with results inside of the unit cell (up to `5e-4`), and no candidate at a smaller distance takes all points. -/
theorem C97_chart {m : ℕ} {charts : List (Chart m)} {points xs : List (Vec m)} {C : Chart m}
    (h : computeChartPoints charts points = .ok (C, xs)) :
    C ∈ charts ∧ C.materialId ≠ 42 ∧ xs.length = points.length ∧ (∀ k, k < points.length → Inverted C points xs k)
    ∧ ((charts.filter fun D => D.near points).length ≤ 20 →
      ∀ D ∈ charts, D.near points → D.distance points < C.distance points →
        chartPointsFrom D points points [] = none) := by
  unfold computeChartPoints at h
  rcases possibleCells_spec charts points with ⟨he, _⟩ | ⟨cells, he, hc1, hc2, hc3⟩
  · rw [he] at h
    exact absurd h (by simp)
  · rw [he] at h
    dsimp only at h
    rcases firstChart_spec charts points cells hc1 with ⟨h1, _⟩ | ⟨pre, k, post, C', xs', h1, h2, h3, h4, h5⟩
    · rw [h1] at h
      exact absurd h (by simp)
    · rw [h4] at h
      simp only [Outcome.ok.injEq, Prod.mk.injEq] at h
      obtain ⟨rfl, rfl⟩ := h
      obtain ⟨D, hD, hnear⟩ := hc1 k (by rw [h1]; simp)
      rw [h2] at hD
      cases hD
      obtain ⟨l1, _, l3⟩ := chartPointsFrom_spec C' points points [] xs' h3
      refine ⟨List.mem_of_getElem? h2, hnear.1, by simpa using l1, fun j hj => ?_, fun hlen D hD hn hlt => ?_⟩
      · obtain ⟨p, x, a, b, c⟩ := l3 j hj
        exact ⟨p, x, a, by simpa using b, c⟩
      · obtain ⟨j, hj⟩ := List.getElem?_of_mem hD
        have hmem := hc2 (by simpa using hlen) j D hj hn
        rw [h1] at hmem hc3
        rcases List.mem_append.1 hmem with hm | hm
        · exact h5 j hm D hj
        · exfalso
          rcases List.mem_cons.1 hm with rfl | hm
          · rw [h2] at hj
            cases hj
            exact lt_irrefl _ hlt
          · have := (List.pairwise_cons.1 (List.pairwise_append.1 hc3).2.1).1 j hm C' D h2 hj
            linarith

open Classical in
/-- An exception means that no candidate takes all points (as long as there are not more than 20 candidates, the size of the
array), and the code does not read a cell that does not exist. -/
theorem C97_exception {m : ℕ} (charts : List (Chart m)) (points : List (Vec m)) :
    computeChartPoints charts points ≠ .ub
    ∧ ((charts.filter fun D => D.near points).length ≤ 20 →
      (computeChartPoints charts points = .exception
        ↔ ∀ D ∈ charts, D.near points → chartPointsFrom D points points [] = none)) := by
  unfold computeChartPoints
  rcases possibleCells_spec charts points with ⟨he, hno⟩ | ⟨cells, he, hc1, hc2, _⟩
  · rw [he]
    refine ⟨by simp, fun _ => ⟨fun _ D hD hn => absurd hn (hno D hD), fun _ => rfl⟩⟩
  · rw [he]
    dsimp only
    rcases firstChart_spec charts points cells hc1 with ⟨h1, h1'⟩ | ⟨pre, k, post, C', xs', h1, h2, h3, h4, h5⟩
    · rw [h1]
      refine ⟨by simp, fun hlen => ⟨fun _ D hD hn => ?_, fun _ => rfl⟩⟩
      obtain ⟨j, hj⟩ := List.getElem?_of_mem hD
      exact h1' j (hc2 (by simpa using hlen) j D hj hn) D hj
    · rw [h4]
      refine ⟨by simp, fun hlen => ⟨fun h => absurd h (by simp), fun h => ?_⟩⟩
      obtain ⟨D, hD, hnear⟩ := hc1 k (by rw [h1]; simp)
      rw [h2] at hD
      cases hD
      rw [h C' (List.mem_of_getElem? h2) hnear] at h3
      exact absurd h3 (by simp)

/-- Every chart point that has been accepted belongs to a point that the cell maps to the given one, up to the tolerance. -/
theorem C97_accurate {m : ℕ} {charts : List (Chart (m + 1))} {points xs : List (Vec (m + 1))} {C : Chart (m + 1)}
    (h : computeChartPoints charts points = .ok (C, xs)) {k : ℕ} (hk : k < points.length) :
    ∃ p x, points[k]? = some p ∧ xs[k]? = some x ∧ isInside x 5e-4
      ∧ ∃ (z : Vec (m + 1)) (J : Matrix (Fin (m + 1)) (Fin (m + 1)) ℝ), isInside z 0.2
        ∧ normSq (p - C.map z) < C.tolerance ∧ x = z + applyInverse J (p - C.map z) := by
  obtain ⟨p, x, hp, hx, hin, guess, hg⟩ := (C97_chart h).2.2.2.1 k hk
  refine ⟨p, x, hp, hx, hin, ?_⟩
  rcases C97_sound C.map C.tolerance p guess with ho | ⟨z, J, h1, h2, _, h4⟩
  · exfalso
    rw [hg, ho] at hin
    have := (hin 0).2
    norm_num [outside] at this
  · exact ⟨z, J, h1, h2, hg.trans h4⟩

/-! ## New points -/

/-- deal.II's `FlatManifold`: the weighted mean of the points. -/
def flatManifold {m : ℕ} (xs : List (Vec m)) (ws : List ℝ) : Vec m := (List.zipWith (fun w x => w • x) ws xs).sum

/-- All rows of weights at once give the same points as one call for each of them. -/
theorem C97_rows {m : ℕ} (charts : List (Chart m)) (chartManifold : List (Vec m) → List ℝ → Vec m)
    (points : List (Vec m)) (weights : List (List ℝ)) :
    (∀ news, getNewPoints charts (fun xs ws => ws.map (chartManifold xs)) points weights = .ok news →
      weights.map (getNewPoint charts chartManifold points) = news.map Outcome.ok)
    ∧ (getNewPoints charts (fun xs ws => ws.map (chartManifold xs)) points weights = .exception ↔
      ∀ row, getNewPoint charts chartManifold points row = .exception) := by
  unfold getNewPoints getNewPoint
  cases h : computeChartPoints charts points with
  | ub => exact absurd h (C97_exception charts points).1
  | exception => simp
  | ok q => simp

theorem flat_bound {m : ℕ} (f : Vec m → Vec m) (δ : ℝ) (e : Fin m) {points xs : List (Vec m)}
    (h : List.Forall₂ (fun p x => |f x e - p e| ≤ δ) points xs) (ws : List ℝ) (hw : ws.length = points.length) :
    |flatManifold (xs.map f) ws e - flatManifold points ws e| ≤ (ws.map fun w => |w|).sum * δ := by
  induction h generalizing ws with
  | nil =>
    have : ws = [] := List.length_eq_zero_iff.1 (by simpa using hw)
    subst this
    simp [flatManifold]
  | @cons p x ps xs' hd _ ih =>
    cases ws with
    | nil => simp at hw
    | cons w t =>
      have := ih t (by simpa using hw)
      unfold flatManifold at this ⊢
      simp only [List.map_cons, List.zipWith_cons_cons, List.sum_cons, Pi.add_apply, Pi.smul_apply, smul_eq_mul]
      have e1 : |w * (f x e - p e)| ≤ |w| * δ := by
        rw [abs_mul]
        exact mul_le_mul_of_nonneg_left hd (abs_nonneg _)
      have e2 := abs_le.1 e1
      have e3 := abs_le.1 this
      refine abs_le.2 ⟨?_, ?_⟩
      · nlinarith [e2.1, e3.1]
      · nlinarith [e2.2, e3.2]

theorem flat_affine {m : ℕ} (A : Matrix (Fin m) (Fin m) ℝ) (b : Vec m) (xs : List (Vec m)) (ws : List ℝ)
    (hlen : ws.length = xs.length) :
    flatManifold (xs.map fun x => A.mulVec x + b) ws = A.mulVec (flatManifold xs ws) + ws.sum • b := by
  induction xs generalizing ws with
  | nil =>
    have : ws = [] := List.length_eq_zero_iff.1 (by simpa using hlen)
    subst this
    simp [flatManifold]
  | cons x t ih =>
    cases ws with
    | nil => simp at hlen
    | cons w s =>
      have := ih s (by simpa using hlen)
      unfold flatManifold at this ⊢
      simp only [List.map_cons, List.zipWith_cons_cons, List.sum_cons]
      rw [this, Matrix.mulVec_add, Matrix.mulVec_smul]
      funext k
      simp only [Pi.add_apply, Pi.smul_apply, smul_eq_mul]
      ring

/-- In a mesh of parallelograms or parallelepipeds, with the flat chart manifold, a new point is the weighted mean of the
surrounding points, up to the square root of the tolerance (`3.2e-11` times the diameter of the cell). -/
theorem C97_mean {m : ℕ} {charts : List (Chart (m + 1))} {tol : ℝ}
    (haff : ∀ C ∈ charts, 0 < C.tolerance ∧ C.tolerance ≤ tol
      ∧ ∃ (A : Matrix (Fin (m + 1)) (Fin (m + 1)) ℝ) (b : Vec (m + 1)), 0 < A.det ∧ C.map = fun x => A.mulVec x + b)
    {points : List (Vec (m + 1))} {ws : List ℝ} (hlen : ws.length = points.length) (hsum : ws.sum = 1) {p : Vec (m + 1)}
    (h : getNewPoint charts flatManifold points ws = .ok p) (e : Fin (m + 1)) :
    |p e - flatManifold points ws e| ≤ (ws.map fun w => |w|).sum * Real.sqrt tol := by
  unfold getNewPoint at h
  cases hc : computeChartPoints charts points with
  | ub => rw [hc] at h; exact absurd h (by simp)
  | exception => rw [hc] at h; exact absurd h (by simp)
  | ok q =>
    obtain ⟨C, xs⟩ := q
    rw [hc] at h
    simp only [Outcome.ok.injEq] at h
    obtain ⟨hmem, _, hxs, hinv, _⟩ := C97_chart hc
    obtain ⟨htol, hle, A, b, hA, hmap⟩ := haff C hmem
    have hunit : IsUnit A.det := (ne_of_gt hA).isUnit
    have hsqrt : ∀ v : Vec (m + 1), normSq v < C.tolerance → |v e| ≤ Real.sqrt tol := by
      intro v hv
      apply Real.abs_le_sqrt
      have : v e * v e ≤ normSq v :=
        Finset.single_le_sum (f := fun i => v i * v i) (fun i _ => mul_self_nonneg _) (Finset.mem_univ e)
      rw [sq]
      linarith
    have hfor : List.Forall₂ (fun p x => |C.map x e - p e| ≤ Real.sqrt tol) points xs := by
      rw [List.forall₂_iff_get]
      refine ⟨hxs.symm, fun k h1 h2 => ?_⟩
      obtain ⟨p', x', hp, hx, hin, guess, hg⟩ := hinv k h1
      rw [List.getElem?_eq_getElem h1] at hp
      rw [List.getElem?_eq_getElem h2] at hx
      simp only [Option.some.injEq] at hp hx
      show |C.map (xs[k]) e - points[k] e| ≤ Real.sqrt tol
      rw [hp, hx]
      have hy : p' = A.mulVec ((A⁻¹).mulVec (p' - b)) + b := by
        rw [Matrix.mulVec_mulVec, Matrix.mul_nonsing_inv A hunit, Matrix.one_mulVec]
        simp
      have hn : normSq (p' - C.map x') < C.tolerance := by
        rw [hmap] at hg ⊢
        rw [hy] at hg
        rcases (C97_affine hA b ((A⁻¹).mulVec (p' - b)) guess C.tolerance).1 with h' | h' | ⟨h', h''⟩
        · exfalso
          rw [hg, h'] at hin
          have := (hin 0).2
          norm_num [outside] at this
        · rw [hg, h']
          dsimp only
          rw [← hy, sub_self]
          simpa [normSq] using htol
        · rw [← hy] at h''
          rw [hg, h']
          exact h''
      have := hsqrt _ hn
      rw [abs_sub_comm]
      exact this
    have hb := flat_bound C.map (Real.sqrt tol) e hfor ws hlen
    rw [← h]
    have hpush : C.map (flatManifold xs ws) = flatManifold (xs.map C.map) ws := by
      rw [hmap, flat_affine A b xs ws (by rw [hlen, hxs]), hsum, one_smul]
    rw [hpush]
    exact hb

/-- The unit square as the only cell of a mesh. -/
def unitSquare : Chart 2 where
  materialId := 0
  vertices := [![0, 0], ![1, 0], ![0, 1], ![1, 1]]
  map := fun x => (1 : Matrix (Fin 2) (Fin 2) ℝ).mulVec x + 0
  tolerance := 2e-21
  affine := fun x => x

theorem unitSquare_center : unitSquare.center = ![1 / 2, 1 / 2] := by
  funext i
  fin_cases i <;> simp [Chart.center, unitSquare] <;> norm_num

theorem unitSquare_near : unitSquare.near [![0, 0], ![1, 0]] := by
  have hrad : unitSquare.radiusSquare ≥ 1 / 2 := by
    have hn : normSq (unitSquare.center - ![0, 0]) = 1 / 2 := by
      rw [unitSquare_center]
      simp [normSq, Fin.sum_univ_two]
      norm_num
    have : unitSquare.radiusSquare = [![0, 0], ![1, 0], ![0, 1], ![1, 1]].foldl
        (fun r v => max r (normSq (unitSquare.center - v))) 0 := rfl
    rw [this]
    simp only [List.foldl_cons, List.foldl_nil, hn]
    simp
  refine ⟨by simp [unitSquare], fun p hp => ?_⟩
  have hn : normSq (unitSquare.center - p) = 1 / 2 := by
    rw [unitSquare_center]
    simp only [List.mem_cons, List.not_mem_nil, or_false] at hp
    rcases hp with rfl | rfl <;> simp [normSq, Fin.sum_univ_two] <;> norm_num
  rw [hn]
  push Not
  linarith

theorem unitSquare_takes : ∃ xs, chartPointsFrom unitSquare [![0, 0], ![1, 0]] [![0, 0], ![1, 0]] [] = some xs := by
  classical
  have hdet : 0 < (1 : Matrix (Fin 2) (Fin 2) ℝ).det := by simp
  have hpt : ∀ p : Vec 2, isInside p 0 → ∀ guess, ∀ x, x = pullBack unitSquare.map unitSquare.tolerance p guess →
      isInside x 5e-4 := by
    intro p hp guess x hx
    have h02 : isInside p 0.2 := fun d => ⟨by linarith [(hp d).1], by linarith [(hp d).2]⟩
    have hpe : p = (1 : Matrix (Fin 2) (Fin 2) ℝ).mulVec p + 0 := by simp
    have := (C97_affine hdet 0 p guess (2e-21)).2 h02 (by norm_num)
    rw [← hpe] at this
    rcases this with h | ⟨h, _⟩
    · rw [hx, show pullBack unitSquare.map unitSquare.tolerance p guess = p from h]
      exact fun d => ⟨by linarith [(hp d).1], by linarith [(hp d).2]⟩
    · rw [hx, show pullBack unitSquare.map unitSquare.tolerance p guess = project guess from h]
      have := project_inside guess
      exact fun d => ⟨by linarith [(this d).1], by linarith [(this d).2]⟩
  have hin : ∀ p, p ∈ [![0, 0], ![(1 : ℝ), 0]] → isInside p 0 := by
    intro p hp d
    simp only [List.mem_cons, List.not_mem_nil, or_false] at hp
    rcases hp with rfl | rfl <;> fin_cases d <;> norm_num
  unfold chartPointsFrom
  dsimp only
  obtain ⟨g1, h1⟩ := chartPoint_pullBack unitSquare [![0, 0], ![1, 0]] [] ![0, 0]
  rw [if_pos (hpt _ (hin _ (by simp)) g1 _ h1)]
  unfold chartPointsFrom
  dsimp only
  obtain ⟨g2, h2⟩ := chartPoint_pullBack unitSquare [![0, 0], ![1, 0]]
    ([] ++ [chartPoint unitSquare [![0, 0], ![1, 0]] [] ![0, 0]]) ![1, 0]
  rw [if_pos (hpt _ (hin _ (by simp)) g2 _ h2)]
  exact ⟨_, rfl⟩

/-- For the unit square and its lower side the search for a cell succeeds: the hypotheses of the theorems are met. -/
example : ∃ xs, computeChartPoints [unitSquare] [![0, 0], ![1, 0]] = .ok (unitSquare, xs) := by
  classical
  obtain ⟨xs, hxs⟩ := unitSquare_takes
  have hne : computeChartPoints [unitSquare] [![0, 0], ![1, 0]] ≠ .exception := by
    intro h
    have := ((C97_exception [unitSquare] [![0, 0], ![1, 0]]).2
      ((List.length_filter_le _ _).trans (by simp))).1 h unitSquare (by simp) unitSquare_near
    rw [this] at hxs
    exact absurd hxs (by simp)
  cases hc : computeChartPoints [unitSquare] [![0, 0], ![1, 0]] with
  | ub => exact absurd hc (C97_exception _ _).1
  | exception => exact absurd hc hne
  | ok q =>
    obtain ⟨C, ys⟩ := q
    have := (C97_chart hc).1
    simp only [List.mem_cons, List.not_mem_nil, or_false] at this
    exact ⟨ys, by rw [this]⟩

/-- A cell with the vertices of the unit square that is mapped to a point far away. -/
def collapsed : Chart 2 := { unitSquare with map := fun _ => ![5, 5] }

theorem collapsed_pullBack (p guess : Vec 2) (hp : isInside p 0) : pullBack collapsed.map collapsed.tolerance p guess
    = outside := by
  have hbig : ¬normSq (p - ![5, 5]) < 2e-21 := by
    have h0 := hp 0
    have h1 := hp 1
    simp only [normSq, Fin.sum_univ_two, Pi.sub_apply, Matrix.cons_val_zero, Matrix.cons_val_one]
    push Not
    nlinarith
  have hg : pushForwardGradient (fun _ : Vec 2 => (![5, 5] : Vec 2)) (project guess)
      (p - (p - ![5, 5])) = 0 := by
    rw [show p - (p - ![5, 5]) = (![5, 5] : Vec 2) by funext k; simp only [Pi.sub_apply]; ring]
    ext e d
    simp [pushForwardGradient]
  show newtonLoop (fun _ => ![5, 5]) (2e-21) p 100 0 ⟨project guess, p - ![5, 5], 0, true⟩ = outside
  unfold newtonLoop newtonStep
  simp only [if_neg hbig, hg, true_or, decide_true, true_and]
  rw [if_pos]
  rw [Matrix.det_zero]

/-- With more than 20 candidates the search may fail although one of them contains all points: only the first 20 are
looked at. -/
theorem C97_twenty_violation :
    computeChartPoints (List.replicate 20 collapsed ++ [unitSquare]) [![0, 0], ![1, 0]] = .exception
    ∧ unitSquare.near [![0, 0], ![1, 0]]
    ∧ ∃ xs, chartPointsFrom unitSquare [![0, 0], ![1, 0]] [![0, 0], ![1, 0]] [] = some xs := by
  classical
  refine ⟨?_, unitSquare_near, unitSquare_takes⟩
  have hcn : collapsed.near [![0, 0], ![1, 0]] := unitSquare_near
  have hd : collapsed.distance [![0, 0], ![1, 0]] = unitSquare.distance [![0, 0], ![1, 0]] := rfl
  have hfound : foundCells (List.replicate 20 collapsed ++ [unitSquare]) [![0, 0], ![1, 0]]
      = (List.range 21).map fun k => (unitSquare.distance [![0, 0], ![1, 0]], k) := by
    unfold foundCells
    simp [List.replicate, List.zipIdx, hcn, unitSquare_near, hd, List.range, List.range.loop]
  have hsorted : (foundCells (List.replicate 20 collapsed ++ [unitSquare]) [![0, 0], ![1, 0]]).Pairwise pairLe := by
    rw [hfound, List.pairwise_map]
    refine List.Pairwise.imp ?_ List.pairwise_lt_range
    intro a b hab
    exact Or.inr ⟨rfl, le_of_lt hab⟩
  have hposs : possibleCells (List.replicate 20 collapsed ++ [unitSquare]) [![0, 0], ![1, 0]] = .ok (List.range 20) := by
    have hdef : possibleCells (List.replicate 20 collapsed ++ [unitSquare]) [![0, 0], ![1, 0]]
      = if (foundCells (List.replicate 20 collapsed ++ [unitSquare]) [![0, 0], ![1, 0]]).length = 0
        then Outcome.exception else .ok ((((foundCells (List.replicate 20 collapsed ++ [unitSquare])
          [![0, 0], ![1, 0]]).insertionSort pairLe).map Prod.snd).take 20) := rfl
    rw [hdef, hsorted.insertionSort_eq, hfound, if_neg (by simp)]
    simp [List.range, List.range.loop]
  have hnone : chartPointsFrom collapsed [![0, 0], ![1, 0]] [![0, 0], ![1, 0]] [] = none := by
    unfold chartPointsFrom
    dsimp only
    obtain ⟨g, hg⟩ := chartPoint_pullBack collapsed [![0, 0], ![1, 0]] [] ![0, 0]
    have hin : isInside ![(0 : ℝ), 0] 0 := by
      intro d
      fin_cases d <;> norm_num
    rw [hg, collapsed_pullBack _ _ hin, if_neg]
    intro h
    have := (h 0).2
    norm_num [outside] at this
  unfold computeChartPoints
  rw [hposs]
  dsimp only
  have hcells : ∀ k ∈ List.range 20, ∃ C, (List.replicate 20 collapsed ++ [unitSquare])[k]? = some C
      ∧ C.near [![0, 0], ![1, 0]] := by
    intro k hk
    rw [List.mem_range] at hk
    exact ⟨collapsed, by rw [List.getElem?_append_left (by simpa using hk), List.getElem?_replicate, if_pos hk], hcn⟩
  rcases firstChart_spec (List.replicate 20 collapsed ++ [unitSquare]) [![0, 0], ![1, 0]] (List.range 20) hcells with
    ⟨h, _⟩ | ⟨pre, k, post, C, xs, hsplit, hC, hxs, _, _⟩
  · exact h
  · exfalso
    have hk : k < 20 := List.mem_range.1 (by rw [hsplit]; simp)
    rw [List.getElem?_append_left (by simpa using hk), List.getElem?_replicate, if_pos hk] at hC
    cases hC
    rw [hnone] at hxs
    exact absurd hxs (by simp)

end

end Transfinite
end Ryujin
