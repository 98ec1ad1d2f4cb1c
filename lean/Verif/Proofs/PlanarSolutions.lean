import Verif.Model.EulerInitialStates
import Verif.Proofs.ExactSolutions
import Mathlib.Analysis.SpecialFunctions.Pow.Deriv
import Mathlib.Tactic.LinearCombination

/-!
# Planar solutions of the Euler equations: constants, rarefaction fans, jumps
-/

namespace Ryujin
namespace Spec

open Euler (State mkState)
open InitialStates (Primitive)
open scoped BigOperators

variable {n d : ℕ}

/-- Being a solution at a point depends only on the field near that point. -/
theorem SolvesAt.congr {F : Vec n → Fin d → Vec n} {S : Vec n} {U W : Vec d → ℝ → Vec n} {x : Vec d} {t : ℝ}
    (h : SolvesAt F S W x t) (ht : ∀ᶠ s in nhds t, U x s = W x s)
    (hx : ∀ k, ∀ᶠ s in nhds (x k), U (Function.update x k s) t = W (Function.update x k s) t) : SolvesAt F S U x t := by
  obtain ⟨Ut, Fx, h1, h2, h3⟩ := h
  refine ⟨Ut, Fx, h1.congr_of_eventuallyEq ht, fun k => (h2 k).congr_of_eventuallyEq ?_, h3⟩
  filter_upwards [hx k] with s hs
  rw [hs]

/-- A constant field solves every conservation law. -/
theorem solvesAt_const (F : Vec n → Fin d → Vec n) (C : Vec n) (x : Vec d) (t : ℝ) : SolvesAt F 0 (fun _ _ => C) x t :=
  ⟨0, fun _ => 0, hasDerivAt_const _ _, fun _ => hasDerivAt_const _ _, by simp⟩

theorem primitive_conserved_eq (gamma : ℝ) (s : Primitive) :
    (s.conserved gamma : State (d + 1)) = gasConserved gamma s.rho (fun i => if i = 0 then s.u else 0) s.p := by
  unfold Primitive.conserved gasConserved
  have : normSq (fun i : Fin (d + 1) => if i = 0 then s.u else 0) = s.u * s.u := by
    unfold normSq
    rw [Fin.sum_univ_succ]
    simp
  rw [this]
  congr 1
  · funext i; by_cases hi : i = 0 <;> simp [hi]
  · ring

theorem planar_solves {gamma : ℝ} (hg : gamma ≠ 1) (R V P : ℝ → ℝ → ℝ) (x : Vec (d + 1)) (t : ℝ)
    {Rt Vt Pt Ry Vy Py : ℝ} (h0 : R (x 0) t ≠ 0)
    (hRt : HasDerivAt (fun s => R (x 0) s) Rt t) (hVt : HasDerivAt (fun s => V (x 0) s) Vt t)
    (hPt : HasDerivAt (fun s => P (x 0) s) Pt t)
    (hRy : HasDerivAt (fun y => R y t) Ry (x 0)) (hVy : HasDerivAt (fun y => V y t) Vy (x 0))
    (hPy : HasDerivAt (fun y => P y t) Py (x 0))
    (mass : Rt + (V (x 0) t * Ry + R (x 0) t * Vy) = 0)
    (mom : R (x 0) t * (Vt + V (x 0) t * Vy) + Py = 0)
    (en : Pt + (V (x 0) t * Py + gamma * P (x 0) t * Vy) = 0) :
    SolvesEuler gamma (fun x t => ((⟨R (x 0) t, V (x 0) t, P (x 0) t⟩ : Primitive).conserved gamma : State (d + 1))) x t := by
  have hself : ∀ k, Function.update x k (x k) 0 = x 0 := fun k => by rw [Function.update_eq_self]
  have hcomp : ∀ {F : ℝ → ℝ} {F' : ℝ}, HasDerivAt F F' (x 0) → ∀ k,
      HasDerivAt (fun s => F (Function.update x k s 0)) (F' * if (0 : Fin (d + 1)) = k then 1 else 0) (x k) := by
    intro F F' hF k
    have := hasDerivAt_coord x k 0
    refine HasDerivAt.comp (h₂ := F) _ ?_ this
    rw [hself]; exact hF
  have hite : ∀ {g : ℝ → ℝ} {g' s : ℝ} (c : Prop) [Decidable c], HasDerivAt g g' s →
      HasDerivAt (fun y => if c then g y else 0) (if c then g' else 0) s := by
    intro g g' s c _ hg
    by_cases h : c
    · simpa [h] using hg
    · simpa [h] using hasDerivAt_const s (0 : ℝ)
  have key := solvesEuler_of_primitive (d := d + 1) hg (fun x t => R (x 0) t) (fun x t => P (x 0) t)
    (fun x t i => if i = 0 then V (x 0) t else 0) x t (rt := Rt) (pt := Pt)
    (rx := fun k => Ry * if (0 : Fin (d + 1)) = k then 1 else 0)
    (px := fun k => Py * if (0 : Fin (d + 1)) = k then 1 else 0)
    (ut := fun i => if i = 0 then Vt else 0)
    (ux := fun k i => if i = 0 then Vy * (if (0 : Fin (d + 1)) = k then 1 else 0) else 0)
    h0 hRt (fun i => hite (i = 0) hVt) hPt (hcomp hRy) (fun k i => hite (i = 0) (hcomp hVy k)) (hcomp hPy)
    (by
      rw [Fin.sum_univ_succ]
      simp only [if_true, mul_one]
      rw [Finset.sum_eq_zero, add_zero]
      · exact mass
      · intro k _
        simp [Fin.succ_ne_zero, (Fin.succ_ne_zero k).symm])
    (by
      intro i
      rw [Fin.sum_univ_succ]
      by_cases hi : i = 0
      · simp only [hi, if_true, mul_one]
        rw [Finset.sum_eq_zero, add_zero]
        · exact mom
        · intro k _
          simp [Fin.succ_ne_zero]
      · have : ((0 : Fin (d + 1)) = i) = False := eq_false fun h => hi h.symm
        simp [hi, this])
    (by
      rw [Fin.sum_univ_succ]
      simp only [if_true, mul_one]
      rw [Finset.sum_eq_zero, add_zero]
      · exact en
      · intro k _
        simp [Fin.succ_ne_zero, (Fin.succ_ne_zero k).symm])
  have hfun : (fun (x : Vec (d + 1)) t => ((⟨R (x 0) t, V (x 0) t, P (x 0) t⟩ : Primitive).conserved gamma : State (d + 1))) =
      fun x t => gasConserved gamma (R (x 0) t) (fun i => if i = 0 then V (x 0) t else 0) (P (x 0) t) := by
    funext x t
    rw [primitive_conserved_eq]
  rw [hfun]
  exact key

/-- The state on the ray `x = χ t` of a centred rarefaction wave (of the first family) connected to the state
`(rhoL, uL, pL)` with sound speed `cL`. -/
noncomputable def fan (gamma rhoL uL pL cL chi : ℝ) : Primitive :=
  let A := 2 / (gamma + 1) + (gamma - 1) / ((gamma + 1) * cL) * (uL - chi)
  ⟨rhoL * A ^ (2 / (gamma - 1)), 2 / (gamma + 1) * (cL + (gamma - 1) / 2 * uL + chi), pL * A ^ (2 * gamma / (gamma - 1))⟩

/-- A centred rarefaction wave solves the Euler equations. -/
theorem fan_solves {gamma rhoL uL pL cL : ℝ} (hg : 1 < gamma) (hr : 0 < rhoL) (hc : 0 < cL) (hcL : rhoL * cL ^ 2 = gamma * pL)
    (x : Vec (d + 1)) (t : ℝ) (ht : t ≠ 0)
    (hA : 0 < 2 / (gamma + 1) + (gamma - 1) / ((gamma + 1) * cL) * (uL - x 0 / t)) :
    SolvesEuler gamma (fun x t => ((fan gamma rhoL uL pL cL (x 0 / t)).conserved gamma : State (d + 1))) x t := by
  set y := x 0 with hy
  have hg1 : gamma - 1 ≠ 0 := by linarith
  have hg2 : gamma + 1 ≠ 0 := by linarith
  have hdt : HasDerivAt (fun s => y / s) (-(y / t) / t) t := by
    have := (hasDerivAt_id' t).inv ht |>.const_mul y
    refine (this.congr_of_eventuallyEq (Filter.Eventually.of_forall fun s => by simp [div_eq_mul_inv])).congr_deriv ?_
    field_simp
  have hdy : HasDerivAt (fun s => s / t) (1 / t) y := (hasDerivAt_id' y).div_const t
  obtain ⟨k2, hk2⟩ : ∃ k2, k2 = (gamma - 1) / ((gamma + 1) * cL) := ⟨_, rfl⟩
  obtain ⟨A, hAdef⟩ : ∃ A, A = 2 / (gamma + 1) + k2 * (uL - y / t) := ⟨_, rfl⟩
  rw [← hk2, ← hAdef] at hA
  have hAa : ∀ {g : ℝ → ℝ} {g' s : ℝ}, HasDerivAt g g' s → g s = y / t → ∀ e : ℝ,
      HasDerivAt (fun z => (2 / (gamma + 1) + k2 * (uL - g z)) ^ e) (-(k2 * g') * e * A ^ (e - 1)) s := by
    intro g g' s hgd hgs e
    have h1 : HasDerivAt (fun z => 2 / (gamma + 1) + k2 * (uL - g z)) (-(k2 * g')) s := by
      refine ((hgd.const_sub uL).const_mul k2 |>.const_add (2 / (gamma + 1))).congr_deriv ?_
      ring
    have h2 := h1.rpow_const (p := e) (Or.inl (by rw [hgs, ← hAdef]; exact hA.ne'))
    rw [hgs, ← hAdef] at h2
    exact h2
  have hpw : ∀ e : ℝ, A ^ (e - 1) = A ^ e / A := fun e => by rw [Real.rpow_sub hA, Real.rpow_one]
  have hexp : A ^ (2 * gamma / (gamma - 1)) = A ^ (2 / (gamma - 1)) * A ^ 2 := by
    rw [← Real.rpow_natCast, ← Real.rpow_add hA]
    congr 1
    field_simp
    push_cast
    ring
  have hfan : ∀ y t, fan gamma rhoL uL pL cL (y / t) =
      ⟨rhoL * (2 / (gamma + 1) + k2 * (uL - y / t)) ^ (2 / (gamma - 1)), 2 / (gamma + 1) * (cL + (gamma - 1) / 2 * uL + y / t),
        pL * (2 / (gamma + 1) + k2 * (uL - y / t)) ^ (2 * gamma / (gamma - 1))⟩ := by
    intro y t
    rw [hk2]; rfl
  simp only [hfan]
  have hu : 2 / (gamma + 1) * (cL + (gamma - 1) / 2 * uL + y / t) = y / t + cL * A := by
    rw [hAdef, hk2]; field_simp; ring
  have hq : 0 < A ^ (2 / (gamma - 1)) := Real.rpow_pos_of_pos hA _
  have hpL : pL = rhoL * cL ^ 2 / gamma := by rw [hcL]; field_simp
  have hg0 : gamma ≠ 0 := by linarith
  refine planar_solves hg.ne' (fun y t => rhoL * (2 / (gamma + 1) + k2 * (uL - y / t)) ^ (2 / (gamma - 1)))
    (fun y t => 2 / (gamma + 1) * (cL + (gamma - 1) / 2 * uL + y / t))
    (fun y t => pL * (2 / (gamma + 1) + k2 * (uL - y / t)) ^ (2 * gamma / (gamma - 1))) x t ?_
    ((hAa hdt rfl _).const_mul rhoL) ((hdt.const_add (cL + (gamma - 1) / 2 * uL)).const_mul (2 / (gamma + 1)))
    ((hAa hdt rfl _).const_mul pL)
    ((hAa hdy rfl _).const_mul rhoL) ((hdy.const_add (cL + (gamma - 1) / 2 * uL)).const_mul (2 / (gamma + 1)))
    ((hAa hdy rfl _).const_mul pL) ?_ ?_ ?_
  · rw [← hy, ← hAdef]
    exact (mul_pos hr hq).ne'
  · rw [← hy, ← hAdef, hu, hpw, hk2]
    generalize A ^ (2 / (gamma - 1)) = q
    generalize y / t = chi
    field_simp
    ring
  · rw [← hy, ← hAdef, hu, hpw, hexp, hk2, hpL]
    generalize A ^ (2 / (gamma - 1)) = q
    generalize y / t = chi
    field_simp
    ring
  · rw [← hy, ← hAdef, hu, hpw, hexp, hk2]
    generalize A ^ (2 / (gamma - 1)) = q
    generalize y / t = chi
    field_simp
    ring

end Spec
end Ryujin
