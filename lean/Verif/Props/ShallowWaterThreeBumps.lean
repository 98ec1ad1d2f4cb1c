import Verif.Model.ShallowWaterInitialStates
import Verif.Proofs.ShallowWaterSolutions
import Verif.Props.LakeAtRest

/-!
# The three bumps with the option "well balancing validation" (C86)
-/

namespace Ryujin
namespace ShallowWaterStates

open ShallowWater (State mkState waterDepth momentum cutoffMollified)

/-- **C86.**  Three bumps: with "well balancing validation" and equal depths on both sides the nodal values at any set of nodes
and at any time form a lake at rest (in the sense of C38) whose surface is at the given depth, provided that no node is covered by
a film thinner than the dry state cut-off. -/
theorem C86_three_bumps (p : ShallowWater.Params) (g D cone t : ℝ) {ι : Type} (X : ι → Vec 2)
    (hfilm : ∀ i, threeBumpsBathymetry cone (X i) < D → cutoffMollified p ≤ D - threeBumpsBathymetry cone (X i)) :
    ShallowWater.LakeAtRest p (fun i => threeBumpsBathymetry cone (X i)) D fun i => threeBumps g true D D cone (X i) t := by
  intro i
  have hU : threeBumps g true D D cone (X i) t = planar (max (D - threeBumpsBathymetry cone (X i)) 0) 0 := by
    unfold threeBumps
    rw [if_pos (Or.inr rfl), ite_self]
  dsimp only
  rw [hU]
  have hm : momentum (planar (max (D - threeBumpsBathymetry cone (X i)) 0) 0 : State 2) = 0 := by
    unfold planar
    rw [Spec.sw_momentum_mk]
    funext j
    simp
  have hd : waterDepth (planar (max (D - threeBumpsBathymetry cone (X i)) 0) 0 : State 2) =
      max (D - threeBumpsBathymetry cone (X i)) 0 := rfl
  refine ⟨hm, ?_⟩
  rw [hd]
  by_cases hw : threeBumpsBathymetry cone (X i) < D
  · left
    rw [max_eq_left (by linarith)]
    exact ⟨by linarith, hfilm i hw, by ring⟩
  · right
    exact ⟨max_eq_right (by linarith [not_lt.1 hw]), not_lt.1 hw⟩

theorem threeBumps_flat (cone : ℝ) : ∀ x : Vec 2, x 1 = 15 → (x 0 = 0 ∨ x 0 = 20) → threeBumpsBathymetry cone x = 0 := by
  intro x h1 h0
  unfold threeBumpsBathymetry
  dsimp only
  have hb : ∀ a r w : ℝ, 0 ≤ w → (w : ℝ) ^ 2 ≤ a ^ 2 + r ^ 2 → w ≤ Real.sqrt (a ^ 2 + r ^ 2) := fun a r w hw h =>
    Real.le_sqrt_of_sq_le h
  rw [max_eq_right, mul_zero]
  refine max_le (max_le ?_ ?_) ?_
  · have := hb (x 0 - 30) (x 1 - 6) 8 (by norm_num) (by rcases h0 with h | h <;> rw [h, h1] <;> norm_num)
    linarith
  · have := hb (x 0 - 30) (x 1 - 24) 8 (by norm_num) (by rcases h0 with h | h <;> rw [h, h1] <;> norm_num)
    linarith
  · have := hb (x 0 - 47.5) (x 1 - 15) 10 (by norm_num) (by rcases h0 with h | h <;> rw [h, h1] <;> norm_num)
    linarith

/-- Without the option, or with different depths, the state is a lake at rest at no level: at the initial time the default
depths 1.875 and 0 have two different surfaces. -/
theorem C86_three_bumps_dam (p : ShallowWater.Params) (g cone t : ℝ) (b : Bool) (ht : t ≤ 1 / 10 ^ 10)
    (Z : Vec 2 → ℝ) (hZ : Z = threeBumpsBathymetry cone) (eta : ℝ) :
    ¬ ShallowWater.LakeAtRest p Z eta fun x => threeBumps g b 1.875 0 cone x t := by
  intro h
  have hz0 := threeBumps_flat cone
  have hl := (h ![0, 15]).2
  have hr := (h ![20, 15]).2
  have hUl : waterDepth (threeBumps g b 1.875 0 cone ![0, 15] t) = 1.875 := by
    unfold threeBumps
    rw [if_pos (Or.inl ht), hz0 _ rfl (Or.inl rfl)]
    show max ((if (0 : ℝ) < 16 then (1.875 : ℝ) else 0) - 0) 0 = 1.875
    norm_num
  have hUr : waterDepth (threeBumps g b 1.875 0 cone ![20, 15] t) = 0 := by
    unfold threeBumps
    rw [if_pos (Or.inl ht), hz0 _ rfl (Or.inr rfl)]
    show max ((if (20 : ℝ) < 16 then (1.875 : ℝ) else 0) - 0) 0 = 0
    norm_num
  rw [hUl, hZ, hz0 _ rfl (Or.inl rfl)] at hl
  rw [hUr, hZ, hz0 _ rfl (Or.inr rfl)] at hr
  rcases hl with hl | hl
  · rcases hr with hr | hr
    · linarith [hr.1]
    · have := hl.2.2
      have := hr.2
      norm_num at *
      linarith
  · have := hl.1
    norm_num at this

/-- Non-vacuity of the film condition: nodes on the flat part and a node inside the big cone, depth 1. -/
example (p : ShallowWater.Params) (hp : cutoffMollified p ≤ 1) :
    ∀ i : Fin 2, threeBumpsBathymetry 1 ((![![0, 15], ![47.5, 15]] : Fin 2 → Vec 2) i) < 1 →
      cutoffMollified p ≤ 1 - threeBumpsBathymetry 1 ((![![0, 15], ![47.5, 15]] : Fin 2 → Vec 2) i) := by
  intro i
  fin_cases i
  · intro _
    have : threeBumpsBathymetry 1 ((![![0, 15], ![47.5, 15]] : Fin 2 → Vec 2) 0) = 0 := by
      exact threeBumps_flat 1 _ rfl (Or.inl rfl)
    show cutoffMollified p ≤ 1 - threeBumpsBathymetry 1 ((![![0, 15], ![47.5, 15]] : Fin 2 → Vec 2) 0)
    rw [this]
    linarith
  · intro h
    exfalso
    have : (3 : ℝ) ≤ threeBumpsBathymetry 1 ((![![0, 15], ![47.5, 15]] : Fin 2 → Vec 2) 1) := by
      unfold threeBumpsBathymetry
      dsimp only
      show (3 : ℝ) ≤ 1 * max (max _ (3 - 3 / 10 * Real.sqrt ((47.5 - 47.5) ^ 2 + (15 - 15) ^ 2))) 0
      have h0 : Real.sqrt (((47.5 : ℝ) - 47.5) ^ 2 + (15 - 15) ^ 2) = 0 := by norm_num
      rw [h0, one_mul]
      exact le_max_of_le_left (le_max_of_le_right (by norm_num))
    have h' : threeBumpsBathymetry 1 ((![![0, 15], ![47.5, 15]] : Fin 2 → Vec 2) 1) < 1 := h
    linarith

end ShallowWaterStates
end Ryujin
