import Verif.Props.ShallowWaterParaboloid
import Verif.Proofs.VortexDerivatives
import Mathlib.Analysis.Real.Pi.Bounds

/-!
# The smooth vortex of the shallow water equations (C83)
-/

namespace Ryujin
namespace ShallowWaterStates

open ShallowWater (State mkState waterDepth momentum)
open Spec (SolvesShallowWater waterState vortexFactor)
open scoped BigOperators

/-- **C83.**  Smooth vortex: at a wet point the state solves the shallow water equations with the bottom of the class if and
only if the water there is at rest or there is no friction, and moreover the option "with bathymetry" is off, or the bottom is
flat, or the vortex does not travel (or the point lies on an exceptional curve). -/
theorem C83_smooth_vortex (g nm : ℝ) (hg : 0 < g) (c : VortexParams) (x : Vec 2) (t : ℝ)
    (hwet : 0 < waterDepth (smoothVortex g c x t)) :
    let f := c.beta / (2 * Real.pi) * Real.exp (0.5 - 0.5 * ((x 0 - c.mach_number * t) ^ 2 + x 1 ^ 2))
    SolvesShallowWater g nm (smoothVortexBathymetry c) (smoothVortex g c) x t ↔
      (c.with_bathymetry = false ∨ c.depth = 0 ∨ c.beta = 0 ∨ c.mach_number = 0 ∨ x 0 = f * t * x 1) ∧
      (nm = 0 ∨ ∀ i, momentum (smoothVortex g c x t) i = 0) := by
  intro f
  set k := c.beta / (2 * Real.pi) with hk
  set b : ℝ := if c.with_bathymetry then c.depth / 4 else 0 with hb
  set M := c.mach_number with hM
  have hf : f = vortexFactor k (x 0 - M * t) (x 1) := by
    simp only [f, vortexFactor, sq, hk, hM]
  have hz : ∀ y, smoothVortexBathymetry c y = b * vortexFactor k (y 0) (y 1) := by
    intro y
    unfold smoothVortexBathymetry vortexFactor
    simp only [normSq, Fin.sum_univ_two, hb, hk]
    split_ifs <;> simp
  set H : Vec 2 → ℝ → ℝ := fun y s => c.depth - 1 / (2 * g) * vortexFactor k (y 0 - M * s) (y 1) *
    vortexFactor k (y 0 - M * s) (y 1) - b * vortexFactor k (y 0) (y 1) with hH
  set V : Vec 2 → ℝ → Vec 2 := fun y s => ![M - vortexFactor k (y 0 - M * s) (y 1) * y 1,
    vortexFactor k (y 0 - M * s) (y 1) * (y 0 - M * s)] with hV
  have hU : smoothVortex g c = fun y s => waterState (H y s) (V y s) := by
    funext y s
    have hh : (if c.with_bathymetry then c.depth - 1 / (2 * g) * vortexFactor k (y 0 - M * s) (y 1) *
        vortexFactor k (y 0 - M * s) (y 1) - smoothVortexBathymetry c y else c.depth - 1 / (2 * g) *
        vortexFactor k (y 0 - M * s) (y 1) * vortexFactor k (y 0 - M * s) (y 1)) = H y s := by
      simp only [hH, hz, hb]
      split_ifs <;> simp
    rw [← hh]
    unfold smoothVortex waterState
    dsimp only
    congr 1
    funext i
    fin_cases i <;> simp [hV, vortexFactor, hk, hM]
  have hwet' : 0 < H x t := by
    rw [hU] at hwet
    exact hwet
  have hmom0 : (∀ i, momentum (smoothVortex g c x t) i = 0) ↔ ∀ i, V x t i = 0 := by
    rw [hU]
    unfold waterState
    simp only [Spec.sw_momentum_mk]
    exact forall_congr' fun i => by simp [hwet'.ne']
  have h0 := fun j : Fin 2 => Spec.hasDerivAt_coord x j 0
  have h1 := fun j : Fin 2 => Spec.hasDerivAt_coord x j 1
  have hself : ∀ j, Function.update x j (x j) = x := fun j => Function.update_eq_self j x
  have hft : HasDerivAt (fun s => vortexFactor k (x 0 - M * s) (x 1)) (f * ((x 0 - M * t) * M)) t := by
    have := Spec.hasDerivAt_vortexFactor k (((hasDerivAt_id' t).const_mul M).const_sub (x 0)) (hasDerivAt_const t (x 1))
    refine this.congr_deriv ?_
    rw [hf]; ring
  have hfx : ∀ j : Fin 2, HasDerivAt (fun y => vortexFactor k (Function.update x j y 0 - M * t) (Function.update x j y 1))
      (-f * ((x 0 - M * t) * (if (0 : Fin 2) = j then 1 else 0) + x 1 * (if (1 : Fin 2) = j then 1 else 0))) (x j) := fun j => by
    have := Spec.hasDerivAt_vortexFactor k ((h0 j).sub_const (M * t)) (h1 j)
    refine this.congr_deriv ?_
    rw [hself, hf]
  have hFx : ∀ j : Fin 2, HasDerivAt (fun y => vortexFactor k (Function.update x j y 0) (Function.update x j y 1))
      (-vortexFactor k (x 0) (x 1) * (x 0 * (if (0 : Fin 2) = j then 1 else 0) + x 1 * (if (1 : Fin 2) = j then 1 else 0)))
      (x j) := fun j => by
    have := Spec.hasDerivAt_vortexFactor k (h0 j) (h1 j)
    refine this.congr_deriv ?_
    rw [hself]
  rw [hmom0, ← friction_zero_iff (nm := nm) hg hwet' (V x t), hU]
  rw [Spec.solvesShallowWater_iff g nm (smoothVortexBathymetry c) H V x t
    (ht := -(1 / g * f * (f * ((x 0 - M * t) * M))))
    (vt := ![-(f * ((x 0 - M * t) * M) * x 1), f * ((x 0 - M * t) * M) * (x 0 - M * t) + f * -M])
    (hx := fun j => 1 / g * f * (f * ((x 0 - M * t) * (if (0 : Fin 2) = j then 1 else 0) + x 1 * (if (1 : Fin 2) = j then 1 else 0))) +
      b * (vortexFactor k (x 0) (x 1) * (x 0 * (if (0 : Fin 2) = j then 1 else 0) + x 1 * (if (1 : Fin 2) = j then 1 else 0))))
    (vx := fun j => ![f * ((x 0 - M * t) * (if (0 : Fin 2) = j then 1 else 0) + x 1 * (if (1 : Fin 2) = j then 1 else 0)) * x 1 -
        f * (if (1 : Fin 2) = j then 1 else 0),
      -f * ((x 0 - M * t) * (if (0 : Fin 2) = j then 1 else 0) + x 1 * (if (1 : Fin 2) = j then 1 else 0)) * (x 0 - M * t) +
        f * (if (0 : Fin 2) = j then 1 else 0)])
    (zx := fun j => b * (-vortexFactor k (x 0) (x 1) * (x 0 * (if (0 : Fin 2) = j then 1 else 0) +
      x 1 * (if (1 : Fin 2) = j then 1 else 0)))) hwet'.ne' ?_ ?_ ?_ ?_ ?_]
  · have hbF : b * vortexFactor k (x 0) (x 1) * (M * (x 0 - f * t * x 1)) = 0 ↔
        (c.with_bathymetry = false ∨ c.depth = 0 ∨ c.beta = 0 ∨ M = 0 ∨ x 0 = f * t * x 1) := by
      have he := Real.exp_pos (0.5 - 0.5 * (x 0 * x 0 + x 1 * x 1))
      have hb0 : b = 0 ↔ c.with_bathymetry = false ∨ c.depth = 0 := by
        rw [hb]
        cases c.with_bathymetry <;> simp
      have hk0 : k = 0 ↔ c.beta = 0 := by
        rw [hk]
        simp [Real.pi_ne_zero]
      unfold vortexFactor
      rw [mul_eq_zero, mul_eq_zero, mul_eq_zero, mul_eq_zero, hb0, hk0, sub_eq_zero]
      have : Real.exp (0.5 - 0.5 * (x 0 * x 0 + x 1 * x 1)) ≠ 0 := he.ne'
      tauto
    have hmass : -(1 / g * f * (f * ((x 0 - M * t) * M))) + ∑ j : Fin 2, (V x t j * (1 / g * f * (f * ((x 0 - M * t) *
        (if (0 : Fin 2) = j then 1 else 0) + x 1 * (if (1 : Fin 2) = j then 1 else 0))) +
        b * (vortexFactor k (x 0) (x 1) * (x 0 * (if (0 : Fin 2) = j then 1 else 0) + x 1 * (if (1 : Fin 2) = j then 1 else 0)))) +
        H x t * (![f * ((x 0 - M * t) * (if (0 : Fin 2) = j then 1 else 0) + x 1 * (if (1 : Fin 2) = j then 1 else 0)) * x 1 -
          f * (if (1 : Fin 2) = j then 1 else 0),
        -f * ((x 0 - M * t) * (if (0 : Fin 2) = j then 1 else 0) + x 1 * (if (1 : Fin 2) = j then 1 else 0)) * (x 0 - M * t) +
          f * (if (0 : Fin 2) = j then 1 else 0)] : Vec 2) j) = b * vortexFactor k (x 0) (x 1) * (M * (x 0 - f * t * x 1)) := by
      rw [Fin.sum_univ_two]
      simp [hV, ← hf]
      ring
    rw [hmass, hbF]
    refine and_congr_right fun _ => forall_congr' fun i => ?_
    have hmom : (![-(f * ((x 0 - M * t) * M) * x 1), f * ((x 0 - M * t) * M) * (x 0 - M * t) + f * -M] : Vec 2) i +
        ∑ j : Fin 2, V x t j *
        (![f * ((x 0 - M * t) * (if (0 : Fin 2) = j then 1 else 0) + x 1 * (if (1 : Fin 2) = j then 1 else 0)) * x 1 -
          f * (if (1 : Fin 2) = j then 1 else 0),
        -f * ((x 0 - M * t) * (if (0 : Fin 2) = j then 1 else 0) + x 1 * (if (1 : Fin 2) = j then 1 else 0)) * (x 0 - M * t) +
          f * (if (0 : Fin 2) = j then 1 else 0)] : Vec 2) i +
        g * (1 / g * f * (f * ((x 0 - M * t) * (if (0 : Fin 2) = i then 1 else 0) + x 1 * (if (1 : Fin 2) = i then 1 else 0))) +
          b * (vortexFactor k (x 0) (x 1) * (x 0 * (if (0 : Fin 2) = i then 1 else 0) + x 1 * (if (1 : Fin 2) = i then 1 else 0))) +
          b * (-vortexFactor k (x 0) (x 1) * (x 0 * (if (0 : Fin 2) = i then 1 else 0) +
            x 1 * (if (1 : Fin 2) = i then 1 else 0)))) = 0 := by
      rw [Fin.sum_univ_two]
      fin_cases i
      · simp [hV, ← hf]
        field_simp
        ring
      · simp [hV, ← hf]
        field_simp
        ring
    rw [hmom, zero_add]
  · have := (((hft.const_mul (1 / (2 * g))).mul hft).const_sub c.depth).sub_const (b * vortexFactor k (x 0) (x 1))
    refine this.congr_deriv ?_
    rw [← hf]
    field_simp
    ring
  · intro i
    fin_cases i
    · have := (hft.mul_const (x 1)).const_sub M
      simpa [hV] using this
    · have := hft.mul (((hasDerivAt_id' t).const_mul M).const_sub (x 0))
      rw [← hf] at this
      refine this.congr_deriv ?_
      simp
  · intro j
    have := ((((hfx j).const_mul (1 / (2 * g))).mul (hfx j)).const_sub c.depth).sub ((hFx j).const_mul b)
    refine this.congr_deriv ?_
    rw [hself, ← hf]
    field_simp
    ring
  · intro j i
    fin_cases i
    · have := ((hfx j).mul (h1 j)).const_sub M
      rw [hself, ← hf] at this
      refine this.congr_deriv ?_
      simp
      ring
    · have := (hfx j).mul ((h0 j).sub_const (M * t))
      rw [hself, ← hf] at this
      exact this
  · intro j
    simp only [hz]
    exact (hFx j).const_mul b

/-- **C83, finding.**  With "with bathymetry" and the default parameters (depth 1, Mach number 2, strength 0.1) the state is not a
solution. -/
theorem C83_smooth_vortex_violation (g : ℝ) (hg : 1 ≤ g) :
    ∃ (x : Vec 2) (t : ℝ), 0 < waterDepth (smoothVortex g ⟨true, 1, 2, 0.1⟩ x t) ∧
      ¬ SolvesShallowWater g 0 (smoothVortexBathymetry ⟨true, 1, 2, 0.1⟩) (smoothVortex g ⟨true, 1, 2, 0.1⟩) x t := by
  have hwet : 0 < waterDepth (smoothVortex g ⟨true, 1, 2, 0.1⟩ ![1, 0] 0) := by
    unfold smoothVortex smoothVortexBathymetry
    simp only [if_true, Spec.sw_depth_mk, normSq, Fin.sum_univ_two]
    simp
    norm_num
    have hpi := Real.pi_gt_three
    have hp : 1 / 10 / (2 * Real.pi) ≤ (1 : ℝ) / 60 := by
      rw [div_le_div_iff₀ (by positivity) (by norm_num)]
      linarith
    have hp0 : 0 < 1 / 10 / (2 * Real.pi) := by positivity
    have hgi : g⁻¹ ≤ 1 := by
      rw [inv_le_one₀ (by linarith)]
      exact hg
    have hgi0 : 0 < g⁻¹ := by positivity
    generalize 1 / 10 / (2 * Real.pi) = q at *
    have hq2 : q * q ≤ 1 / 60 := by nlinarith
    have : g⁻¹ * (q * q) ≤ 1 * (1 / 60) := mul_le_mul hgi hq2 (by positivity) (by norm_num)
    nlinarith
  refine ⟨![1, 0], 0, hwet, fun hsol => ?_⟩
  have := ((C83_smooth_vortex g 0 (by linarith) _ _ _ hwet).1 hsol).1
  norm_num at this

end ShallowWaterStates
end Ryujin
