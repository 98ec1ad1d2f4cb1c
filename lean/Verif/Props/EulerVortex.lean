import Verif.Model.EulerInitialStates
import Verif.Proofs.VortexDerivatives
import Mathlib.Analysis.Real.Pi.Bounds
import Mathlib.Analysis.Complex.ExponentialBounds

/-!
# The isentropic vortex and the smooth wave are solutions of the equations (C79)
-/

namespace Ryujin
namespace InitialStates

open Euler (State mkState)
open scoped BigOperators

variable {d : ℕ}

/-! ### The isentropic vortex -/

/-- Velocity of the vortex. -/
noncomputable def vortexVelocity (M c a b : ℝ) : Vec (d + 2) :=
  fun i => if i = 0 then M - Spec.vortexFactor c a b * b else if i = 1 then Spec.vortexFactor c a b * a else 0

theorem normSq_two (p q : ℝ) : normSq (fun i : Fin (d + 2) => if i = 0 then p else if i = 1 then q else 0) = p * p + q * q := by
  unfold normSq
  rw [Fin.sum_univ_succ, Fin.sum_univ_succ]
  have : ∑ i : Fin d, (if i.succ.succ = (0 : Fin (d + 2)) then p else if i.succ.succ = (1 : Fin (d + 2)) then q else 0) *
      (if i.succ.succ = (0 : Fin (d + 2)) then p else if i.succ.succ = (1 : Fin (d + 2)) then q else 0) = 0 := by
    refine Finset.sum_eq_zero fun i _ => ?_
    have h1 : i.succ.succ ≠ (1 : Fin (d + 2)) := fun h => by
      have := congrArg Fin.val h
      simp at this
    simp [h1]
  rw [this]
  simp

theorem vortex_eq (gamma M beta : ℝ) (x : Vec (d + 2)) (t : ℝ) :
    isentropicVortex gamma M beta x t =
      Spec.gasConserved gamma (Spec.vortexRho gamma (beta / (2 * Real.pi)) (x 0 - M * t) (x 1))
        (vortexVelocity M (beta / (2 * Real.pi)) (x 0 - M * t) (x 1))
        (Spec.vortexP gamma (beta / (2 * Real.pi)) (x 0 - M * t) (x 1)) := by
  unfold isentropicVortex Spec.gasConserved vortexVelocity
  rw [normSq_two]
  refine Euler.state_ext ?_ ?_ ?_
  · simp only [Euler.density_mkState]
    rfl
  · simp only [Euler.momentum_mkState]
    funext i
    split_ifs with h0 h1
    · rfl
    · rfl
    · simp
  · simp only [Euler.totalEnergy_mkState]
    norm_num [Spec.vortexP, Spec.vortexRho, Spec.vortexT, Spec.vortexFactor]

theorem vortexT_pos {gamma beta : ℝ} (hg : 1 < gamma) (hb : (gamma - 1) * beta ^ 2 * Real.exp 1 < 8 * gamma * Real.pi ^ 2)
    (a b : ℝ) : 0 < Spec.vortexT gamma (beta / (2 * Real.pi)) a b := by
  unfold Spec.vortexT Spec.vortexFactor
  have hpi := Real.pi_pos
  have he : Real.exp (0.5 - 0.5 * (a * a + b * b)) * Real.exp (0.5 - 0.5 * (a * a + b * b)) ≤ Real.exp 1 := by
    rw [← Real.exp_add]
    apply Real.exp_le_exp.2
    nlinarith [mul_self_nonneg a, mul_self_nonneg b]
  set e := Real.exp (0.5 - 0.5 * (a * a + b * b)) with hedef
  have h1 : (gamma - 1) / (2 * gamma) * (beta / (2 * Real.pi) * e) * (beta / (2 * Real.pi) * e) =
      (gamma - 1) * beta ^ 2 * (e * e) / (8 * gamma * Real.pi ^ 2) := by
    field_simp
    ring
  rw [h1, sub_pos, div_lt_one (by positivity)]
  refine lt_of_le_of_lt ?_ hb
  exact mul_le_mul_of_nonneg_left he (mul_nonneg (by linarith) (sq_nonneg _))

/-- **C79.**  The isentropic vortex in two and three dimensions is, at every point and time, an admissible state and a
classical solution of the Euler equations, for every Mach number and every vortex strength below the given bound (the
temperature would be negative in the core otherwise). -/
theorem C79_isentropic_vortex (gamma M beta : ℝ) (hg : 1 < gamma)
    (hb : (gamma - 1) * beta ^ 2 * Real.exp 1 < 8 * gamma * Real.pi ^ 2) (x : Vec (d + 2)) (t : ℝ) :
    0 < Euler.density (isentropicVortex gamma M beta x t) ∧
      0 < Spec.gasPressure gamma (isentropicVortex gamma M beta x t) ∧
      Spec.SolvesEuler gamma (isentropicVortex gamma M beta) x t := by
  set c := beta / (2 * Real.pi) with hc
  have hfun : (isentropicVortex gamma M beta : Vec (d + 2) → ℝ → State (d + 2)) = fun x t =>
      Spec.gasConserved gamma (Spec.vortexRho gamma c (x 0 - M * t) (x 1)) (vortexVelocity M c (x 0 - M * t) (x 1))
        (Spec.vortexP gamma c (x 0 - M * t) (x 1)) := by
    funext x t
    exact vortex_eq gamma M beta x t
  have hT := vortexT_pos hg hb (x 0 - M * t) (x 1)
  rw [← hc] at hT
  have hr := Spec.vortexRho_pos hT
  refine ⟨?_, ?_, ?_⟩
  · rw [hfun]
    unfold Spec.gasConserved
    rw [Euler.density_mkState]
    exact hr
  · rw [hfun]
    dsimp only
    rw [Spec.gasPressure_conserved gamma hg.ne']
    exact Real.rpow_pos_of_pos hr _
  · rw [hfun]
    have hself : ∀ k j, Function.update x k (x k) j = x j := fun k j => by rw [Function.update_eq_self]
    have hat : HasDerivAt (fun s => x 0 - M * s) (-M) t := by
      have := (hasDerivAt_id' t).const_mul M |>.const_sub (x 0)
      simpa using this
    have hbt : HasDerivAt (fun _ : ℝ => x 1) 0 t := hasDerivAt_const _ _
    have hax : ∀ k, HasDerivAt (fun s => Function.update x k s 0 - M * t) (if (0 : Fin (d + 2)) = k then 1 else 0) (x k) :=
      fun k => (Spec.hasDerivAt_coord x k 0).sub_const _
    have hbx : ∀ k, HasDerivAt (fun s => Function.update x k s 1) (if (1 : Fin (d + 2)) = k then 1 else 0) (x k) :=
      fun k => Spec.hasDerivAt_coord x k 1
    have hvel : ∀ {a b : ℝ → ℝ} {a' b' s : ℝ}, HasDerivAt a a' s → HasDerivAt b b' s → ∀ i : Fin (d + 2),
        HasDerivAt (fun y => vortexVelocity M c (a y) (b y) i)
          (if i = 0 then Spec.vortexFactor c (a s) (b s) * (a s * a' + b s * b') * b s - Spec.vortexFactor c (a s) (b s) * b'
            else if i = 1 then -Spec.vortexFactor c (a s) (b s) * (a s * a' + b s * b') * a s +
              Spec.vortexFactor c (a s) (b s) * a' else 0) s := by
      intro a b a' b' s ha hb i
      have hf := Spec.hasDerivAt_vortexFactor c ha hb
      unfold vortexVelocity
      by_cases h0 : i = 0
      · simp only [h0, if_true]
        refine ((hf.mul hb).const_sub M).congr_deriv ?_
        ring
      · by_cases h1 : i = 1
        · simp only [h1, if_true]
          have h10 : ((1 : Fin (d + 2)) = 0) = False := by simp
          simp only [h10, if_false]
          exact hf.mul ha
        · simp only [h0, h1, if_false]
          exact hasDerivAt_const _ _
    have hTx : ∀ k, 0 < Spec.vortexT gamma c (Function.update x k (x k) 0 - M * t) (Function.update x k (x k) 1) :=
      fun k => by rw [hself, hself]; exact hT
    refine Spec.solvesEuler_of_primitive hg.ne'
      (fun x t => Spec.vortexRho gamma c (x 0 - M * t) (x 1)) (fun x t => Spec.vortexP gamma c (x 0 - M * t) (x 1))
      (fun x t => vortexVelocity M c (x 0 - M * t) (x 1)) x t hr.ne' (Spec.hasDerivAt_vortexRho hg c hat hbt hT)
      (hvel hat hbt) (Spec.hasDerivAt_vortexP hg c hat hbt hT)
      (fun k => Spec.hasDerivAt_vortexRho hg c (hax k) (hbx k) (hTx k)) (fun k => hvel (hax k) (hbx k))
      (fun k => Spec.hasDerivAt_vortexP hg c (hax k) (hbx k) (hTx k)) ?_ ?_ ?_
    all_goals simp only [hself]
    all_goals
      generalize x 0 - M * t = a at *
      generalize x 1 = b at *
      have hs : ∀ i : Fin d, ((0 : Fin (d + 2)) = i.succ.succ) = False ∧ ((1 : Fin (d + 2)) = i.succ.succ) = False ∧
          (i.succ.succ = (0 : Fin (d + 2))) = False ∧ (i.succ.succ = (1 : Fin (d + 2))) = False := by
        intro i
        have h1 : (1 : Fin (d + 2)) ≠ i.succ.succ := fun h => by
          have := congrArg Fin.val h
          simp at this
        have h0 : (0 : Fin (d + 2)) ≠ i.succ.succ := fun h => by
          have := congrArg Fin.val h
          simp at this
        exact ⟨eq_false h0, eq_false h1, eq_false h0.symm, eq_false h1.symm⟩
    · rw [Fin.sum_univ_succ, Fin.sum_univ_succ]
      simp only [vortexVelocity, hs, if_false, if_true, Fin.succ_zero_eq_one, mul_zero, zero_mul, add_zero,
        Finset.sum_const_zero, one_ne_zero, zero_ne_one, mul_one]
      ring
    · intro i
      rw [Fin.sum_univ_succ, Fin.sum_univ_succ]
      simp only [vortexVelocity, hs, if_false, if_true, Fin.succ_zero_eq_one, mul_zero, zero_mul, add_zero,
        Finset.sum_const_zero, one_ne_zero, zero_ne_one, mul_one]
      by_cases h0 : i = 0
      · simp only [h0, if_true, one_ne_zero, if_false, mul_one, mul_zero, zero_add, sub_zero]
        ring
      · by_cases h1 : i = 1
        · simp only [h1, if_true, one_ne_zero, zero_ne_one, if_false, mul_one, mul_zero, zero_add, sub_zero]
          ring
        · have e0 : ((0 : Fin (d + 2)) = i) = False := eq_false fun h => h0 h.symm
          have e1 : ((1 : Fin (d + 2)) = i) = False := eq_false fun h => h1 h.symm
          simp [h0, h1, e0, e1]
    · rw [Fin.sum_univ_succ, Fin.sum_univ_succ]
      simp only [vortexVelocity, hs, if_false, if_true, Fin.succ_zero_eq_one, mul_zero, zero_mul, add_zero,
        Finset.sum_const_zero, one_ne_zero, zero_ne_one, mul_one]
      ring

/-- The default parameters satisfy the hypotheses. -/
example : (1 : ℝ) < 7 / 5 ∧ ((7 / 5 : ℝ) - 1) * 5 ^ 2 * Real.exp 1 < 8 * (7 / 5) * Real.pi ^ 2 := by
  refine ⟨by norm_num, ?_⟩
  nlinarith [Real.exp_one_lt_d9, Real.pi_gt_three]

end InitialStates
end Ryujin
