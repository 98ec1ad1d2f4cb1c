import Verif.Props.ShallowWaterRitter
import Mathlib.Analysis.SpecialFunctions.Trigonometric.InverseDeriv
import Mathlib.Tactic.FieldSimp

/-!
# Steady shallow water flows: uniform flow down a slope and flow over a bump (C86)
-/

namespace Ryujin
namespace ShallowWaterStates

open ShallowWater (State mkState waterDepth momentum)
open Spec (SolvesShallowWater waterState)
open scoped BigOperators

variable {d : ℕ}

/-! ### Uniform flow down a slope with friction -/

/-- **C86.**  Sloping friction: gravity and Manning friction are in equilibrium exactly if the discharge is positive
(downhill). -/
theorem C86_sloping_friction (g n slope q : ℝ) (hg : 0 < g) (hn : 0 < n) (hs : 0 < slope) (hq : q ≠ 0)
    (x : Vec (d + 1)) (t : ℝ) :
    0 < waterDepth (slopingFriction n slope q x t) ∧
    (SolvesShallowWater g n (slopingBathymetry slope) (slopingFriction n slope q) x t ↔ 0 < q) := by
  set h := (n * n * q * q / slope) ^ ((1 / (2 + 4 / 3) : ℝ)) with hh
  have hprof : 0 < n * n * q * q / slope := by
    have : 0 < q * q := mul_self_pos.2 hq
    have : 0 < n * n * q * q := by rw [mul_assoc]; positivity
    positivity
  have hpos : 0 < h := Real.rpow_pos_of_pos hprof _
  refine ⟨hpos, ?_⟩
  have hU : slopingFriction n slope q = fun (_ : Vec (d + 1)) (_ : ℝ) => waterState h fun i => if i = 0 then q / h else 0 := by
    funext y s
    rw [← planar_eq, mul_div_cancel₀ _ hpos.ne']
    rfl
  have hzx : ∀ k, HasDerivAt (fun s => slopingBathymetry slope (Function.update x k s)) (if k = 0 then -slope else 0) (x k) := by
    intro k
    have := (Spec.hasDerivAt_coord x k 0).const_mul (-slope)
    unfold slopingBathymetry
    refine this.congr_deriv ?_
    by_cases hk : k = 0
    · simp [hk]
    · simp [hk, Ne.symm hk]
  rw [hU, planar_solves_iff g n _ (fun _ _ => h) (fun _ _ => q / h) x t hpos.ne' (hasDerivAt_const _ _) (hasDerivAt_const _ _)
    (hasDerivAt_const _ _) (hasDerivAt_const _ _) hzx]
  have hpow : h ^ ((4 : ℝ) / 3) * h ^ 2 = n * n * q * q / slope := by
    rw [hh, ← Real.rpow_mul hprof.le, ← Real.rpow_natCast, ← Real.rpow_mul hprof.le, ← Real.rpow_add hprof]
    norm_num
  have hp43 : 0 < h ^ ((4 : ℝ) / 3) := Real.rpow_pos_of_pos hpos _
  generalize h ^ ((4 : ℝ) / 3) = w at *
  have hns : w * h ^ 2 * slope = n * n * q * q := by rw [hpow]; field_simp
  simp only [mul_zero, add_zero, zero_add, true_and]
  rcases lt_or_gt_of_ne hq with hneg | hqpos
  · constructor
    · intro h2
      rw [abs_of_neg (div_neg_of_neg_of_pos hneg hpos)] at h2
      field_simp at h2
      have h3 : -(h ^ 2 * w * slope) - n ^ 2 * q ^ 2 = 0 := by
        refine (mul_eq_zero.1 (?_ : g * (-(h ^ 2 * w * slope) - n ^ 2 * q ^ 2) = 0)).resolve_left hg.ne'
        linear_combination h2
      have : 0 < h ^ 2 * w * slope := by positivity
      have h4 : 0 ≤ n ^ 2 * q ^ 2 := by positivity
      linarith
    · intro h2
      linarith
  · constructor
    · intro _; exact hqpos
    · intro _
      rw [abs_of_pos (div_pos hqpos hpos)]
      field_simp
      linear_combination -g * hns

/-- Non-vacuity: the default parameters with a Manning coefficient of 0.02. -/
example (x : Vec 2) (t : ℝ) :
    SolvesShallowWater 9.81 0.02 (slopingBathymetry 1) (slopingFriction 0.02 1 0.1) x t :=
  (C86_sloping_friction 9.81 0.02 1 0.1 (by norm_num) (by norm_num) (by norm_num) (by norm_num) x t).2.2 (by norm_num)

/-! ### Flow over a bump -/

/-- The cubic truncated at zero is differentiable. -/
theorem hasDerivAt_posCube (y : ℝ) : HasDerivAt (fun s => max 0 s ^ 3) (3 * max 0 y ^ 2) y := by
  rcases lt_trichotomy y 0 with h | h | h
  · rw [max_eq_left h.le]
    refine HasDerivAt.congr_of_eventuallyEq (f := fun _ => (0 : ℝ)) ?_ ((gt_mem_nhds h).mono fun s hs => ?_)
    · simpa using hasDerivAt_const y (0 : ℝ)
    · dsimp only
      rw [max_eq_left (le_of_lt hs)]
      norm_num
  · subst h
    rw [max_self]
    have h1 : HasDerivWithinAt (fun s : ℝ => max 0 s ^ 3) (3 * 0 ^ 2) (Set.Iic 0) 0 := by
      have := (hasDerivAt_const (0 : ℝ) (0 : ℝ)).hasDerivWithinAt (s := Set.Iic 0)
      refine (this.congr (fun s hs => ?_) ?_).congr_deriv (by norm_num)
      · rw [max_eq_left (Set.mem_Iic.1 hs)]; norm_num
      · norm_num
    have h2 : HasDerivWithinAt (fun s : ℝ => max 0 s ^ 3) (3 * 0 ^ 2) (Set.Ici 0) 0 := by
      have := ((hasDerivAt_id' (0 : ℝ)).pow 3).hasDerivWithinAt (s := Set.Ici 0)
      refine (this.congr (fun s hs => ?_) ?_).congr_deriv (by norm_num)
      · rw [max_eq_right (Set.mem_Ici.1 hs)]; rfl
      · norm_num
    have := h1.union h2
    rw [Set.Iic_union_Ici] at this
    exact hasDerivWithinAt_univ.1 this
  · rw [max_eq_right h.le]
    refine HasDerivAt.congr_of_eventuallyEq (f := fun s => s ^ 3) ?_ ((lt_mem_nhds h).mono fun s hs => ?_)
    · exact ((hasDerivAt_id' y).pow 3).congr_deriv (by norm_num)
    · dsimp only
      rw [max_eq_right (le_of_lt hs)]

/-- The bottom as function of one variable. -/
noncomputable def bump (x : ℝ) : ℝ := 0.2 / 64 * max 0 ((x - 8) * (12 - x)) ^ 3

theorem bumpBathymetry_eq (x : Vec (d + 1)) : bumpBathymetry x = bump (x 0) := by
  unfold bumpBathymetry bump
  dsimp only
  split_ifs with h
  · rw [max_eq_right (mul_nonneg (by linarith [h.1]) (by linarith [h.2])), mul_pow]
    ring
  · rw [max_eq_left]
    · norm_num
    · rcases not_and_or.1 h with h | h
      · exact mul_nonpos_of_nonpos_of_nonneg (by linarith [not_le.1 h]) (by linarith [not_le.1 h])
      · exact mul_nonpos_of_nonneg_of_nonpos (by linarith [not_le.1 h]) (by linarith [not_le.1 h])

theorem hasDerivAt_bump (x : ℝ) :
    HasDerivAt bump (0.2 / 64 * (3 * max 0 ((x - 8) * (12 - x)) ^ 2 * (-2 * (x - 10)))) x := by
  have h1 : HasDerivAt (fun s : ℝ => (s - 8) * (12 - s)) (-2 * (x - 10)) x := by
    have := ((hasDerivAt_id' x).sub_const 8).mul ((hasDerivAt_id' x).const_sub 12)
    refine this.congr_deriv ?_
    ring
  have h2 := HasDerivAt.comp x (h₂ := fun s => max 0 s ^ 3) (hasDerivAt_posCube ((x - 8) * (12 - x))) h1
  exact h2.const_mul _

theorem bump_nonneg (x : ℝ) : 0 ≤ bump x := by
  unfold bump
  have := le_max_left 0 ((x - 8) * (12 - x))
  positivity

theorem bump_le (x : ℝ) : bump x ≤ 0.2 ∧ (bump x = 0.2 → x = 10) := by
  unfold bump
  have hp : (x - 8) * (12 - x) ≤ 4 := by nlinarith [sq_nonneg (x - 10)]
  have h0 := le_max_left 0 ((x - 8) * (12 - x))
  have h4 : max 0 ((x - 8) * (12 - x)) ≤ 4 := max_le (by norm_num) hp
  have h64 : max 0 ((x - 8) * (12 - x)) ^ 3 ≤ 4 ^ 3 := pow_le_pow_left₀ h0 h4 3
  refine ⟨by norm_num at h64 ⊢; linarith, fun h => ?_⟩
  by_contra hx
  have hlt : (x - 8) * (12 - x) < 4 := by
    have : 0 < (x - 10) ^ 2 := by
      have := sub_ne_zero.2 hx
      positivity
    nlinarith
  have h4 : max 0 ((x - 8) * (12 - x)) < 4 := max_lt (by norm_num) hlt
  have h64 : max 0 ((x - 8) * (12 - x)) ^ 3 < 4 ^ 3 := pow_lt_pow_left₀ h4 h0 (by norm_num)
  norm_num at h64 h
  linarith

theorem hasDerivAt_bumpBathymetry (x : Vec (d + 1)) (k : Fin (d + 1)) :
    HasDerivAt (fun s => bumpBathymetry (Function.update x k s))
      (if k = 0 then 0.2 / 64 * (3 * max 0 ((x 0 - 8) * (12 - x 0)) ^ 2 * (-2 * (x 0 - 10))) else 0) (x k) := by
  simp only [bumpBathymetry_eq]
  by_cases hk : k = 0
  · subst hk
    simpa using hasDerivAt_bump (x 0)
  · simp only [hk, if_false]
    refine (hasDerivAt_const (x k) (bump (x 0))).congr_of_eventuallyEq (Filter.Eventually.of_forall fun s => ?_)
    dsimp only
    rw [Function.update_of_ne (Ne.symm hk)]

/-- Root of `h³ - c h² + e = 0` by the trigonometric formula, `sigma = 0` or `4 π`. -/
noncomputable def cubicRoot (sigma c e : ℝ) : ℝ :=
  c / 3 * (1 + 2 * Real.cos ((sigma + Real.arccos (1 - 27 * e / (2 * c ^ 3))) / 3))

theorem cardano_eq {c : ℝ} (hc : 0 < c) (e sigma : ℝ) :
    2 * Real.sqrt (-(-(-c) ^ 2 / 9)) *
      Real.cos ((sigma + Real.arccos ((-(-(-c) ^ 2 / 9)) ^ (-1.5 : ℝ) * (-(27 * e + 2 * (-c) ^ 3) / 54))) / 3) - -c / 3 =
      cubicRoot sigma c e := by
  have hq : -(-(-c) ^ 2 / 9) = (c / 3) ^ 2 := by ring
  have hp : ((c / 3) ^ 2) ^ (-1.5 : ℝ) = 27 / c ^ 3 := by
    have hc3 : 0 ≤ c / 3 := by positivity
    rw [← Real.rpow_natCast, ← Real.rpow_mul hc3]
    have : ((2 : ℕ) : ℝ) * -1.5 = ((-3 : ℤ) : ℝ) := by norm_num
    rw [this, Real.rpow_intCast]
    rw [zpow_neg, ← inv_zpow]
    field_simp
    norm_cast
  rw [hq, hp, Real.sqrt_sq (by positivity)]
  have : 27 / c ^ 3 * (-(27 * e + 2 * (-c) ^ 3) / 54) = 1 - 27 * e / (2 * c ^ 3) := by
    field_simp
    ring
  rw [this]
  unfold cubicRoot
  ring

/-- Both branches satisfy Bernoulli's law; the branch `0` is the subcritical, the branch `4 π` the supercritical flow. -/
theorem cubicRoot_spec {c e : ℝ} (hc : 0 < c) (he : 0 < e) (hcrit : 27 * e < 4 * c ^ 3) :
    (∀ sigma, (sigma = 0 ∨ sigma = 4 * Real.pi) →
      cubicRoot sigma c e ^ 3 - c * cubicRoot sigma c e ^ 2 + e = 0 ∧
      ∀ (C : ℝ → ℝ) (y : ℝ), DifferentiableAt ℝ C y → C y = c → DifferentiableAt ℝ (fun s => cubicRoot sigma (C s) e) y) ∧
    2 / 3 * c < cubicRoot 0 c e ∧ 0 < cubicRoot (4 * Real.pi) c e ∧ cubicRoot (4 * Real.pi) c e < 2 / 3 * c := by
  set a := 1 - 27 * e / (2 * c ^ 3) with ha
  have hc3 : 0 < c ^ 3 := by positivity
  have ha1 : a < 1 := by
    rw [ha]
    have : 0 < 27 * e / (2 * c ^ 3) := by positivity
    linarith
  have ha2 : -1 < a := by
    rw [ha]
    have : 27 * e / (2 * c ^ 3) < 2 := by
      rw [div_lt_iff₀ (by positivity)]
      linarith
    linarith
  have hth0 : 0 < Real.arccos a := Real.arccos_pos.2 ha1
  have hthpi : Real.arccos a < Real.pi := by
    have h1 : Real.arccos a ≤ Real.pi := Real.arccos_le_pi a
    refine lt_of_le_of_ne h1 fun h => ?_
    have := Real.cos_arccos ha2.le ha1.le
    rw [h, Real.cos_pi] at this
    linarith
  have hpi := Real.pi_pos
  refine ⟨fun sigma hs => ⟨?_, ?_⟩, ?_, ?_, ?_⟩
  · have hcos : Real.cos (sigma + Real.arccos a) = a := by
      rcases hs with rfl | rfl
      · rw [zero_add, Real.cos_arccos ha2.le ha1.le]
      · have : 4 * Real.pi + Real.arccos a = Real.arccos a + (2 : ℕ) * (2 * Real.pi) := by push_cast; ring
        rw [this, Real.cos_add_nat_mul_two_pi, Real.cos_arccos ha2.le ha1.le]
    have h3 := Real.cos_three_mul ((sigma + Real.arccos a) / 3)
    have h33 : 3 * ((sigma + Real.arccos a) / 3) = sigma + Real.arccos a := by ring
    rw [h33, hcos] at h3
    unfold cubicRoot
    rw [← ha]
    have hae : c ^ 3 * (1 - a) = 27 * e / 2 := by
      rw [ha]
      field_simp
      ring
    generalize Real.cos ((sigma + Real.arccos a) / 3) = w at *
    linear_combination (-2 / 27 * c ^ 3) * h3 - (2 / 27) * hae
  · intro C y hC hCy
    have hne : C y ≠ 0 := by rw [hCy]; exact hc.ne'
    have harg : DifferentiableAt ℝ (fun s => 1 - 27 * e / (2 * C s ^ 3)) y := by
      refine (differentiableAt_const _).sub ((differentiableAt_const _).div ((differentiableAt_const _).mul (hC.pow 3)) ?_)
      simpa using hne
    have hacos : DifferentiableAt ℝ (fun s => Real.arccos (1 - 27 * e / (2 * C s ^ 3))) y := by
      refine DifferentiableAt.comp y (g := Real.arccos) ?_ harg
      rw [Real.differentiableAt_arccos, hCy, ← ha]
      exact ⟨ha2.ne', ha1.ne⟩
    unfold cubicRoot
    exact (hC.div_const 3).mul ((((hacos.const_add sigma).div_const 3).cos.const_mul 2).const_add 1)
  · have hw : 1 / 2 < Real.cos (Real.arccos a / 3) := by
      rw [← Real.cos_pi_div_three]
      exact Real.cos_lt_cos_of_nonneg_of_le_pi (by positivity) (by linarith) (by linarith)
    unfold cubicRoot
    rw [← ha, zero_add]
    have := mul_lt_mul_of_pos_left hw hc
    linarith
  all_goals
    have hw : (4 * Real.pi + Real.arccos a) / 3 = Real.arccos a / 3 + Real.pi / 3 + Real.pi := by ring
    have hcosw : Real.cos ((4 * Real.pi + Real.arccos a) / 3) = -Real.cos (Real.arccos a / 3 + Real.pi / 3) := by
      rw [hw, Real.cos_add_pi]
  · have h1 : Real.cos (Real.arccos a / 3 + Real.pi / 3) < 1 / 2 := by
      rw [← Real.cos_pi_div_three]
      exact Real.cos_lt_cos_of_nonneg_of_le_pi (by positivity) (by linarith) (by linarith)
    unfold cubicRoot
    rw [← ha, hcosw]
    have : 0 < 1 + 2 * -Real.cos (Real.arccos a / 3 + Real.pi / 3) := by linarith
    positivity
  · have h1 : -(1 / 2) < Real.cos (Real.arccos a / 3 + Real.pi / 3) := by
      have : -(1 / 2) = Real.cos (2 * Real.pi / 3) := by
        have h : 2 * Real.pi / 3 = Real.pi - Real.pi / 3 := by ring
        rw [h, Real.cos_pi_sub, Real.cos_pi_div_three]
      rw [this]
      exact Real.cos_lt_cos_of_nonneg_of_le_pi (by positivity) (by linarith) (by linarith)
    unfold cubicRoot
    rw [← ha, hcosw]
    have := mul_lt_mul_of_pos_left h1 hc
    linarith

/-- A steady planar flow with constant discharge that satisfies Bernoulli's law near a point is a solution there. -/
theorem bernoulli_solves {g q C : ℝ} (z : Vec (d + 1) → ℝ) (h zz : ℝ → ℝ) (x : Vec (d + 1)) (t : ℝ) {zx : ℝ}
    (hz : ∀ k, HasDerivAt (fun s => z (Function.update x k s)) (if k = 0 then zx else 0) (x k))
    (hzz : HasDerivAt zz zx (x 0)) (hh : DifferentiableAt ℝ h (x 0)) (hpos : 0 < h (x 0)) (hg : 0 < g)
    (hB : ∀ᶠ s in nhds (x 0), q ^ 2 / (2 * g) / h s ^ 2 + h s + zz s = C) :
    SolvesShallowWater g 0 z (fun x _ => waterState (h (x 0)) fun i => if i = 0 then q / h (x 0) else 0) x t := by
  obtain ⟨hx, hhx⟩ : ∃ hx, HasDerivAt h hx (x 0) := ⟨_, hh.hasDerivAt⟩
  have hv : HasDerivAt (fun y => q / h y) (-(q * hx) / h (x 0) ^ 2) (x 0) := by
    have := (hasDerivAt_const (x 0) q).div hhx hpos.ne'
    refine this.congr_deriv ?_
    simp
  rw [planar_solves_iff g 0 z (fun y _ => h y) (fun y _ => q / h y) x t hpos.ne' (hasDerivAt_const _ _) (hasDerivAt_const _ _)
    hhx hv hz]
  have hBd : HasDerivAt (fun s => q ^ 2 / (2 * g) / h s ^ 2 + h s + zz s)
      (-(q ^ 2 / (2 * g) * (2 * h (x 0) * hx)) / (h (x 0) ^ 2) ^ 2 + hx + zx) (x 0) := by
    have h1 : HasDerivAt (fun s => h s ^ 2) (2 * h (x 0) * hx) (x 0) := (hhx.pow 2).congr_deriv (by norm_num)
    have h2 := (hasDerivAt_const (x 0) (q ^ 2 / (2 * g))).div h1 (by positivity)
    refine ((h2.add hhx).add hzz).congr_deriv ?_
    simp
  have h0 : -(q ^ 2 / (2 * g) * (2 * h (x 0) * hx)) / (h (x 0) ^ 2) ^ 2 + hx + zx = 0 := by
    have hc := (hasDerivAt_const (x 0) C).congr_of_eventuallyEq (f₁ := fun s => q ^ 2 / (2 * g) / h s ^ 2 + h s + zz s) hB
    exact hBd.unique hc
  constructor
  · field_simp
    ring
  · simp only [ne_eq, OfNat.ofNat_ne_zero, not_false_eq_true, zero_pow, mul_zero, zero_mul, zero_div, add_zero, zero_add]
    field_simp at h0 ⊢
    linear_combination h0

theorem bernoulli_of_root {g q h z C : ℝ} (hpos : 0 < h)
    (hroot : h ^ 3 - (C - z) * h ^ 2 + q * q / (2 * g) = 0) : q ^ 2 / (2 * g) / h ^ 2 + h + z = C := by
  have hh : h ^ 2 ≠ 0 := by positivity
  have h1 : q ^ 2 / (2 * g) = (C - z - h) * h ^ 2 := by linear_combination hroot
  rw [h1, mul_div_cancel_right₀ _ hh]
  ring

/-- The depth of the state as root of the cubic, in the branch that is selected. -/
theorem flowOverBump_eq {g : ℝ} {sub : Bool} {x : Vec (d + 1)} {t : ℝ} (ht : 1 / 10 ^ 12 ≤ t)
    (hc : 0 < (bumpConstants g sub).2.2 - bump (x 0)) :
    flowOverBump g sub x t =
      if sub = false ∧ 11.7 < x 0 then planar 0.28205279813802181 (bumpConstants g sub).1
      else planar (cubicRoot (if sub = false ∧ 10 ≤ x 0 ∧ x 0 < 11.7 then 4 * Real.pi else 0)
        ((bumpConstants g sub).2.2 - bump (x 0)) ((bumpConstants g sub).1 * (bumpConstants g sub).1 / (2 * g)))
        (bumpConstants g sub).1 := by
  unfold flowOverBump
  dsimp only
  rw [if_neg (not_lt.2 ht), bumpBathymetry_eq]
  have hb : bump (x 0) - (bumpConstants g sub).2.2 = -((bumpConstants g sub).2.2 - bump (x 0)) := by ring
  rw [hb]
  generalize (bumpConstants g sub).2.2 - bump (x 0) = c at *
  have h0 := cardano_eq hc ((bumpConstants g sub).1 * (bumpConstants g sub).1 / (2 * g)) 0
  have h4 := cardano_eq hc ((bumpConstants g sub).1 * (bumpConstants g sub).1 / (2 * g)) (4 * Real.pi)
  rw [zero_add] at h0
  rw [h0, h4]
  cases sub
  · simp only [Bool.false_eq_true, if_false, true_and]
    by_cases h1 : 11.7 < x 0
    · rw [if_pos h1, if_pos h1, if_neg (fun h => absurd h.2 (not_lt.2 h1.le))]
    · rw [if_neg h1, if_neg h1]
      split_ifs <;> rfl
  · simp

theorem planar_discharge {h : ℝ} (hh : h ≠ 0) (q : ℝ) :
    (planar h q : State (d + 1)) = waterState h fun i => if i = 0 then q / h else 0 := by
  rw [← planar_eq, mul_div_cancel₀ _ hh]

/-- A branch of the flow over the bump that is used in a neighbourhood solves the equations there. -/
theorem bump_branch_solves {g : ℝ} (hg : 0 < g) {sub : Bool} {x : Vec (d + 1)} {t sigma : ℝ} (ht : 1 / 10 ^ 12 < t)
    (hsig : sigma = 0 ∨ sigma = 4 * Real.pi) (hc : ∀ y, 0 < (bumpConstants g sub).2.2 - bump y)
    (hq : 0 < (bumpConstants g sub).1)
    (hcrit : 27 * ((bumpConstants g sub).1 * (bumpConstants g sub).1 / (2 * g)) < 4 * ((bumpConstants g sub).2.2 - bump (x 0)) ^ 3)
    (hbranch : ∀ᶠ y in nhds (x 0), ¬ (sub = false ∧ 11.7 < y) ∧
      (if sub = false ∧ 10 ≤ y ∧ y < 11.7 then 4 * Real.pi else 0) = sigma) :
    SolvesShallowWater g 0 bumpBathymetry (flowOverBump g sub) x t ∧
    waterDepth (flowOverBump g sub x t) = cubicRoot sigma ((bumpConstants g sub).2.2 - bump (x 0))
      ((bumpConstants g sub).1 * (bumpConstants g sub).1 / (2 * g)) ∧
    momentum (flowOverBump g sub x t) 0 = (bumpConstants g sub).1 := by
  set q := (bumpConstants g sub).1 with hqd
  set C := (bumpConstants g sub).2.2 with hCd
  have he : 0 < q * q / (2 * g) := by positivity
  have hpos : ∀ y, 27 * (q * q / (2 * g)) < 4 * (C - bump y) ^ 3 → 0 < cubicRoot sigma (C - bump y) (q * q / (2 * g)) := by
    intro y hy
    have := cubicRoot_spec (hc y) he hy
    rcases hsig with rfl | rfl
    · have := this.2.1
      have hcy := hc y
      linarith
    · exact this.2.2.1
  have hbc : ContinuousAt (fun y => 4 * (C - bump y) ^ 3) (x 0) :=
    (((hasDerivAt_bump (x 0)).continuousAt.const_sub C).pow 3).const_mul 4
  have hcritE : ∀ᶠ y in nhds (x 0), 27 * (q * q / (2 * g)) < 4 * (C - bump y) ^ 3 := hbc.eventually (lt_mem_nhds hcrit)
  have hst : ∀ (y : Vec (d + 1)) s, 1 / 10 ^ 12 ≤ s → ¬ (sub = false ∧ 11.7 < y 0) →
      (if sub = false ∧ 10 ≤ y 0 ∧ y 0 < 11.7 then 4 * Real.pi else 0) = sigma →
      27 * (q * q / (2 * g)) < 4 * (C - bump (y 0)) ^ 3 →
      flowOverBump g sub y s = waterState (cubicRoot sigma (C - bump (y 0)) (q * q / (2 * g)))
        fun i => if i = 0 then q / cubicRoot sigma (C - bump (y 0)) (q * q / (2 * g)) else 0 := by
    intro y s hs h1 h2 h3
    rw [flowOverBump_eq hs (hc (y 0)), if_neg h1, h2, planar_discharge (hpos _ h3).ne']
  have hx := hbranch.self_of_nhds
  refine ⟨?_, ?_, ?_⟩
  · rw [Spec.SolvesShallowWater.congr (W := fun (y : Vec (d + 1)) _ => waterState (cubicRoot sigma (C - bump (y 0)) (q * q / (2 * g)))
      fun i => if i = 0 then q / cubicRoot sigma (C - bump (y 0)) (q * q / (2 * g)) else 0)
      ((lt_mem_nhds ht).mono fun s hs => hst x s (le_of_lt hs) hx.1 hx.2 hcrit)
      fun k => ((eventually_update_zero hbranch k).and (eventually_update_zero hcritE k)).mono fun s hs =>
        hst _ t ht.le hs.1.1 hs.1.2 hs.2]
    refine bernoulli_solves (C := C) bumpBathymetry (fun y => cubicRoot sigma (C - bump y) (q * q / (2 * g))) bump x t
      (hasDerivAt_bumpBathymetry x) (hasDerivAt_bump (x 0)) ?_ (hpos _ hcrit) hg ?_
    · exact ((cubicRoot_spec (hc (x 0)) he hcrit).1 sigma hsig).2 (fun y => C - bump y) (x 0)
        ((hasDerivAt_bump (x 0)).differentiableAt.const_sub C) rfl
    · exact hcritE.mono fun y hy => bernoulli_of_root (hpos y hy) ((cubicRoot_spec (hc y) he hy).1 sigma hsig).1
  · rw [hst x t ht.le hx.1 hx.2 hcrit]
    rfl
  · rw [hst x t ht.le hx.1 hx.2 hcrit]
    unfold waterState
    rw [Spec.sw_momentum_mk]
    dsimp only
    rw [if_pos rfl, mul_div_cancel₀ _ (hpos _ hcrit).ne']

/-- Froude number below one, in the form `q² < g h³`. -/
theorem froude_of_root {g q h c : ℝ} (hg : 0 < g) (hpos : 0 < h) (hroot : h ^ 3 - c * h ^ 2 + q * q / (2 * g) = 0) :
    (2 / 3 * c < h → q ^ 2 < g * h ^ 3) ∧ (h < 2 / 3 * c → g * h ^ 3 < q ^ 2) := by
  have h1 : q ^ 2 = 2 * g * (h ^ 2 * (c - h)) := by
    have : q * q / (2 * g) = h ^ 2 * (c - h) := by linear_combination hroot
    rw [div_eq_iff (by positivity)] at this
    linear_combination this
  have hgh : 0 < g * h ^ 2 := by positivity
  constructor
  · intro h2
    rw [h1]
    have := mul_lt_mul_of_pos_left (show 2 * (c - h) < h by linarith) hgh
    linear_combination this
  · intro h2
    rw [h1]
    have := mul_lt_mul_of_pos_left (show h < 2 * (c - h) by linarith) hgh
    linear_combination this

theorem bump_eq_zero {x : ℝ} (hx : x ≤ 8 ∨ 12 ≤ x) : bump x = 0 := by
  unfold bump
  rw [max_eq_left]
  · norm_num
  · rcases hx with h | h
    · exact mul_nonpos_of_nonpos_of_nonneg (by linarith) (by linarith)
    · exact mul_nonpos_of_nonneg_of_nonpos (by linarith) (by linarith)

/-- **C86.**  Subcritical flow over the bump (after the initial time): everywhere a steady solution of the shallow water
equations without friction, with discharge 4.42 and Froude number below one; away from the bump the depth is the inflow depth
2. -/
theorem C86_bump_subsonic (g : ℝ) (hg : 8 ≤ g) (x : Vec (d + 1)) (t : ℝ) (ht : 1 / 10 ^ 12 < t) :
    let h := waterDepth (flowOverBump g true x t)
    SolvesShallowWater g 0 bumpBathymetry (flowOverBump g true) x t ∧
    momentum (flowOverBump g true x t) 0 = 4.42 ∧ 0 < h ∧ (4.42 : ℝ) ^ 2 < g * h ^ 3 ∧
    ((x 0 ≤ 8 ∨ 12 ≤ x 0) → h = 2) := by
  intro h
  have hg0 : 0 < g := by linarith
  have hq : (bumpConstants g true).1 = 4.42 := rfl
  have hC : (bumpConstants g true).2.2 = (4.42 / 2) ^ 2 / (2 * g) + 2 := rfl
  have hu : 0 < 1 / g := by positivity
  have hu8 : 1 / g ≤ 1 / 8 := one_div_le_one_div_of_le (by norm_num) hg
  have hCu : (bumpConstants g true).2.2 = 2.44205 * (1 / g) + 2 := by rw [hC]; field_simp; norm_num; ring
  have hEu : (4.42 : ℝ) * 4.42 / (2 * g) = 9.7682 * (1 / g) := by field_simp; norm_num
  have hcl : ∀ y, 1.8 + 2.44205 * (1 / g) ≤ (bumpConstants g true).2.2 - bump y := fun y => by
    have := (bump_le y).1
    rw [hCu]
    linarith
  have hc : ∀ y, 0 < (bumpConstants g true).2.2 - bump y := fun y => by
    have := hcl y
    nlinarith
  have hcrit : ∀ y, 27 * ((bumpConstants g true).1 * (bumpConstants g true).1 / (2 * g)) <
      4 * ((bumpConstants g true).2.2 - bump y) ^ 3 := by
    intro y
    rw [hq, hEu]
    have h1 : (1.8 + 2.44205 * (1 / g)) ^ 3 ≤ ((bumpConstants g true).2.2 - bump y) ^ 3 :=
      pow_le_pow_left₀ (by positivity) (hcl y) 3
    have h2 : (1.8 : ℝ) ^ 3 + 3 * 1.8 ^ 2 * (2.44205 * (1 / g)) ≤ (1.8 + 2.44205 * (1 / g)) ^ 3 := by
      have : (0 : ℝ) ≤ 2.44205 * (1 / g) := by positivity
      generalize 2.44205 * (1 / g) = w at *
      have h3 : 0 ≤ w ^ 2 * (5.4 + w) := by positivity
      nlinarith
    generalize 1 / g = u at *
    norm_num at h2 ⊢
    linarith
  obtain ⟨hsol, hdep, hmo⟩ := bump_branch_solves hg0 (sub := true) (sigma := 0) ht (Or.inl rfl) hc (by rw [hq]; norm_num)
    (hcrit (x 0)) (Filter.Eventually.of_forall fun y => by simp)
  have he : 0 < (bumpConstants g true).1 * (bumpConstants g true).1 / (2 * g) := by rw [hq]; positivity
  obtain ⟨hroot, h23, -⟩ := cubicRoot_spec (hc (x 0)) he (hcrit (x 0))
  have hroot := (hroot 0 (Or.inl rfl)).1
  rw [← hdep] at hroot h23
  have hpos : 0 < h := by
    have := hc (x 0)
    show 0 < waterDepth (flowOverBump g true x t)
    linarith
  refine ⟨hsol, by rw [hmo, hq], hpos, ?_, fun hx => ?_⟩
  · have := (froude_of_root hg0 hpos hroot).1 h23
    rwa [hq] at this
  · have hroot' : h ^ 3 - (bumpConstants g true).2.2 * h ^ 2 + 9.7682 * (1 / g) = 0 := by
      have := hroot
      rw [bump_eq_zero hx, sub_zero, hq, hEu] at this
      exact this
    have h23' : 2 / 3 * (bumpConstants g true).2.2 < h := by
      have := h23
      rw [bump_eq_zero hx, sub_zero] at this
      exact this
    rw [hCu] at hroot' h23'
    have hfac : (h - 2) * (h ^ 2 - 2.44205 * (1 / g) * (h + 2)) = 0 := by
      linear_combination hroot'
    rcases mul_eq_zero.1 hfac with h1 | h1
    · linarith
    · exfalso
      generalize 1 / g = u at *
      have hh43 : 4 / 3 < h := by nlinarith
      nlinarith

/-- Critical depth of the transcritical flow. -/
theorem critical_depth {g : ℝ} (hg : 0 < g) :
    0 < (0.18 * 0.18 / g : ℝ) ^ (1 / 3 : ℝ) ∧ ((0.18 * 0.18 / g : ℝ) ^ (1 / 3 : ℝ)) ^ 3 = 0.18 * 0.18 / g := by
  have h0 : (0 : ℝ) < 0.18 * 0.18 / g := by positivity
  refine ⟨Real.rpow_pos_of_pos h0 _, ?_⟩
  rw [← Real.rpow_natCast, ← Real.rpow_mul h0.le]
  norm_num

/-- **C86.**  Transcritical flow over the bump (after the initial time): upstream of the crest a subcritical, between the
crest and 11.7 a supercritical steady solution without friction; over the crest the depth is the critical depth and the depth is
continuous there; downstream of the bump a steady solution again. -/
theorem C86_bump_transcritical_partial (g : ℝ) (hg : 0 < g) (x : Vec (d + 1)) (t : ℝ) (ht : 1 / 10 ^ 12 < t) :
    let h := waterDepth (flowOverBump g false x t)
    momentum (flowOverBump g false x t) 0 = 0.18 ∧ 0 < h ∧
    (x 0 < 10 → SolvesShallowWater g 0 bumpBathymetry (flowOverBump g false) x t ∧ (0.18 : ℝ) ^ 2 < g * h ^ 3) ∧
    (x 0 = 10 → (0.18 : ℝ) ^ 2 = g * h ^ 3 ∧ ContinuousAt (fun y => waterDepth (flowOverBump g false y t)) x) ∧
    (10 < x 0 → x 0 < 11.7 →
      SolvesShallowWater g 0 bumpBathymetry (flowOverBump g false) x t ∧ g * h ^ 3 < (0.18 : ℝ) ^ 2) ∧
    (12 ≤ x 0 → SolvesShallowWater g 0 bumpBathymetry (flowOverBump g false) x t) := by
  intro h
  obtain ⟨hc0, hc3⟩ := critical_depth hg
  have hq : (bumpConstants g false).1 = 0.18 := rfl
  have hC : (bumpConstants g false).2.2 = 0.2 + 1.5 * (0.18 * 0.18 / g) ^ (1 / 3 : ℝ) := rfl
  set hcr := (0.18 * 0.18 / g : ℝ) ^ (1 / 3 : ℝ) with hcrd
  have hc : ∀ y, 0 < (bumpConstants g false).2.2 - bump y := fun y => by
    have := (bump_le y).1
    rw [hC]
    linarith
  have he : (bumpConstants g false).1 * (bumpConstants g false).1 / (2 * g) = hcr ^ 3 / 2 := by
    rw [hq, hc3]; field_simp
  have he0 : 0 < (bumpConstants g false).1 * (bumpConstants g false).1 / (2 * g) := by rw [he]; positivity
  have hcrit : ∀ y, y ≠ 10 → 27 * ((bumpConstants g false).1 * (bumpConstants g false).1 / (2 * g)) <
      4 * ((bumpConstants g false).2.2 - bump y) ^ 3 := by
    intro y hy
    rw [he]
    have hlt : bump y < 0.2 := lt_of_le_of_ne (bump_le y).1 fun h => hy ((bump_le y).2 h)
    have h1 : (1.5 * hcr) ^ 3 < ((bumpConstants g false).2.2 - bump y) ^ 3 :=
      pow_lt_pow_left₀ (by rw [hC]; linarith) (by positivity) (by norm_num)
    have h2 : (1.5 * hcr) ^ 3 = 27 / 8 * hcr ^ 3 := by ring
    rw [h2] at h1
    linarith
  have hb10 : bump 10 = 0.2 := by unfold bump; norm_num
  have hc10 : (bumpConstants g false).2.2 - bump 10 = 1.5 * hcr := by rw [hC, hb10]; ring
  have harg10 : 1 - 27 * (hcr ^ 3 / 2) / (2 * (1.5 * hcr) ^ 3) = -1 := by
    field_simp
    norm_num
  have hroot10 : ∀ sigma, sigma = 0 ∨ sigma = 4 * Real.pi → cubicRoot sigma (1.5 * hcr) (hcr ^ 3 / 2) = hcr := by
    intro sigma hs
    unfold cubicRoot
    rw [harg10, Real.arccos_neg_one]
    have : Real.cos ((sigma + Real.pi) / 3) = 1 / 2 := by
      rcases hs with rfl | rfl
      · rw [zero_add, Real.cos_pi_div_three]
      · have : (4 * Real.pi + Real.pi) / 3 = 2 * Real.pi - Real.pi / 3 := by ring
        rw [this, Real.cos_two_pi_sub, Real.cos_pi_div_three]
    rw [this]
    ring
  have hmom : momentum (flowOverBump g false x t) 0 = 0.18 := by
    rw [flowOverBump_eq ht.le (hc (x 0))]
    split_ifs <;> · unfold planar; rw [Spec.sw_momentum_mk]; simp [hq]
  have key : ∀ sigma, (sigma = 0 ∨ sigma = 4 * Real.pi) → x 0 ≠ 10 → (∀ᶠ y in nhds (x 0), ¬ (false = false ∧ 11.7 < y) ∧
      (if false = false ∧ 10 ≤ y ∧ y < 11.7 then 4 * Real.pi else 0) = sigma) →
      SolvesShallowWater g 0 bumpBathymetry (flowOverBump g false) x t ∧
      (sigma = 0 → (0.18 : ℝ) ^ 2 < g * h ^ 3) ∧ (sigma = 4 * Real.pi → g * h ^ 3 < (0.18 : ℝ) ^ 2) := by
    intro sigma hs hx hb
    obtain ⟨hsol, hdep, -⟩ := bump_branch_solves hg (sub := false) (sigma := sigma) ht hs hc (by rw [hq]; norm_num)
      (hcrit (x 0) hx) hb
    obtain ⟨hroot, h23, h0, h32⟩ := cubicRoot_spec (hc (x 0)) he0 (hcrit (x 0) hx)
    have hroot := (hroot sigma hs).1
    have hh : h = cubicRoot sigma ((bumpConstants g false).2.2 - bump (x 0))
      ((bumpConstants g false).1 * (bumpConstants g false).1 / (2 * g)) := hdep
    rw [← hh] at hroot
    refine ⟨hsol, fun h1 => ?_, fun h1 => ?_⟩
    · rw [h1] at hh
      rw [← hh] at h23
      have hp : 0 < h := by
        have := hc (x 0)
        linarith
      exact (froude_of_root hg hp hroot).1 h23
    · rw [h1] at hh
      rw [← hh] at h0 h32
      exact (froude_of_root hg h0 hroot).2 h32
  refine ⟨hmom, ?_, fun hx => ?_, fun hx => ?_, fun hx1 hx2 => ?_, fun hx => ?_⟩
  · show 0 < waterDepth (flowOverBump g false x t)
    rw [flowOverBump_eq ht.le (hc (x 0))]
    by_cases h1 : 11.7 < x 0
    · rw [if_pos ⟨rfl, h1⟩]
      show (0 : ℝ) < 0.28205279813802181
      norm_num
    · rw [if_neg (fun hh => h1 hh.2)]
      show 0 < cubicRoot _ _ _
      by_cases hx : x 0 = 10
      · rw [hx, hc10, he]
        split_ifs
        · rw [hroot10 _ (Or.inr rfl)]; exact hc0
        · rw [hroot10 _ (Or.inl rfl)]; exact hc0
      · obtain ⟨-, h23, h0, -⟩ := cubicRoot_spec (hc (x 0)) he0 (hcrit (x 0) hx)
        split_ifs
        · exact h0
        · have := hc (x 0)
          linarith
  · have := key 0 (Or.inl rfl) hx.ne ((gt_mem_nhds hx).mono fun y hy => by
      have h1 : ¬ (11.7 : ℝ) < y := by
        have := Set.mem_setOf.1 hy
        norm_num
        linarith
      have h2 : ¬ (10 : ℝ) ≤ y := not_le.2 hy
      simp [h1, h2])
    exact ⟨this.1, this.2.1 rfl⟩
  · constructor
    · have : h = hcr := by
        show waterDepth (flowOverBump g false x t) = hcr
        rw [flowOverBump_eq ht.le (hc (x 0)), if_neg (by rw [hx]; norm_num), if_pos (by rw [hx]; norm_num)]
        show cubicRoot _ _ _ = hcr
        rw [hx, hc10, he, hroot10 _ (Or.inr rfl)]
      rw [this, hc3]
      field_simp
    · have hcb : Continuous bump := continuous_iff_continuousAt.2 fun y => (hasDerivAt_bump y).continuousAt
      have hcr : ∀ sigma, Continuous fun y : Vec (d + 1) => cubicRoot sigma ((bumpConstants g false).2.2 - bump (y 0))
          ((bumpConstants g false).1 * (bumpConstants g false).1 / (2 * g)) := by
        intro sigma
        have hcc : Continuous fun y : Vec (d + 1) => (bumpConstants g false).2.2 - bump (y 0) :=
          continuous_const.sub (hcb.comp (continuous_apply 0))
        have harg : Continuous fun y : Vec (d + 1) => 1 - 27 * ((bumpConstants g false).1 * (bumpConstants g false).1 / (2 * g)) /
            (2 * ((bumpConstants g false).2.2 - bump (y 0)) ^ 3) :=
          continuous_const.sub (continuous_const.div (continuous_const.mul (hcc.pow 3)) fun y => by
            have := hc (y 0)
            positivity)
        unfold cubicRoot
        exact (hcc.div_const 3).mul (continuous_const.add (continuous_const.mul
          (Real.continuous_cos.comp ((continuous_const.add (Real.continuous_arccos.comp harg)).div_const 3))))
      have hif : Continuous fun y : Vec (d + 1) => if 10 ≤ y 0 then
          cubicRoot (4 * Real.pi) ((bumpConstants g false).2.2 - bump (y 0))
            ((bumpConstants g false).1 * (bumpConstants g false).1 / (2 * g))
          else cubicRoot 0 ((bumpConstants g false).2.2 - bump (y 0))
            ((bumpConstants g false).1 * (bumpConstants g false).1 / (2 * g)) := by
        refine Continuous.if_le (hcr _) (hcr _) continuous_const (continuous_apply 0) fun y hy => ?_
        rw [← hy, hc10, he, hroot10 _ (Or.inr rfl), hroot10 _ (Or.inl rfl)]
      refine hif.continuousAt.congr ?_
      have hlt : ∀ᶠ y : Vec (d + 1) in nhds x, y 0 < 11.7 :=
        (continuous_apply 0).continuousAt.eventually_lt continuous_const.continuousAt (by rw [hx]; norm_num)
      refine hlt.mono fun y hy => ?_
      dsimp only
      rw [flowOverBump_eq ht.le (hc (y 0)), if_neg (c := false = false ∧ 11.7 < y 0) (fun hh => absurd hh.2 (not_lt.2 (le_of_lt hy)))]
      show _ = cubicRoot _ _ _
      by_cases h1 : 10 ≤ y 0
      · rw [if_pos h1, if_pos ⟨rfl, h1, hy⟩]
      · rw [if_neg h1, if_neg (fun hh => h1 hh.2.1)]
  · have := key (4 * Real.pi) (Or.inr rfl) hx1.ne' (((lt_mem_nhds hx1).and (gt_mem_nhds hx2)).mono fun y hy => by
      have h1 : ¬ (11.7 : ℝ) < y := not_lt.2 (le_of_lt hy.2)
      have h2 : (10 : ℝ) ≤ y := le_of_lt hy.1
      have h3 : y < (11.7 : ℝ) := hy.2
      simp [h1, h2, h3])
    exact ⟨this.1, this.2.2 rfl⟩
  · have hx' : (11.7 : ℝ) < x 0 := by norm_num; linarith
    have hpl : (planar 0.28205279813802181 0.18 : State (d + 1)) =
        waterState 0.28205279813802181 fun i => if i = 0 then 0.18 / 0.28205279813802181 else 0 :=
      planar_discharge (by norm_num) _
    rw [Spec.SolvesShallowWater.congr (W := fun _ _ => waterState 0.28205279813802181
        fun i => if i = 0 then 0.18 / 0.28205279813802181 else 0)
      ((lt_mem_nhds ht).mono fun s hs => by
        rw [flowOverBump_eq (le_of_lt hs) (hc (x 0)), if_pos ⟨rfl, hx'⟩, hq, hpl])
      fun k => (eventually_update_zero (p := fun y => 11.7 < y) (lt_mem_nhds hx') k).mono fun s hs => by
        rw [flowOverBump_eq ht.le (hc _), if_pos ⟨rfl, hs⟩, hq, hpl]]
    rw [planar_solves_iff g 0 bumpBathymetry (fun _ _ => 0.28205279813802181) (fun _ _ => 0.18 / 0.28205279813802181) x t
      (by norm_num) (hasDerivAt_const _ _) (hasDerivAt_const _ _) (hasDerivAt_const _ _) (hasDerivAt_const _ _)
      (hasDerivAt_bumpBathymetry x)]
    have : (x 0 - 8) * (12 - x 0) ≤ 0 := mul_nonpos_of_nonneg_of_nonpos (by linarith) (by linarith)
    rw [max_eq_left this]
    norm_num

/-- **C86, finding.**  Behind the jump at 11.7 the bump has not ended yet, but the depth is taken constant: for `11.7 < x < 12`
the state is not a solution. -/
theorem C86_bump_transcritical_violation (g : ℝ) (hg : 0 < g) (x : Vec (d + 1)) (t : ℝ) (ht : 1 / 10 ^ 12 < t)
    (hx : 11.7 < x 0) (hx' : x 0 < 12) : ¬ SolvesShallowWater g 0 bumpBathymetry (flowOverBump g false) x t := by
  obtain ⟨hc0, -⟩ := critical_depth hg
  have hq : (bumpConstants g false).1 = 0.18 := rfl
  have hC : (bumpConstants g false).2.2 = 0.2 + 1.5 * (0.18 * 0.18 / g) ^ (1 / 3 : ℝ) := rfl
  have hc : ∀ y, 0 < (bumpConstants g false).2.2 - bump y := fun y => by
    have := (bump_le y).1
    rw [hC]
    linarith
  have hpl : (planar 0.28205279813802181 0.18 : State (d + 1)) =
      waterState 0.28205279813802181 fun i => if i = 0 then 0.18 / 0.28205279813802181 else 0 :=
    planar_discharge (by norm_num) _
  rw [Spec.SolvesShallowWater.congr (W := fun _ _ => waterState 0.28205279813802181
      fun i => if i = 0 then 0.18 / 0.28205279813802181 else 0)
    ((lt_mem_nhds ht).mono fun s hs => by
      rw [flowOverBump_eq (le_of_lt hs) (hc (x 0)), if_pos ⟨rfl, hx⟩, hq, hpl])
    fun k => (eventually_update_zero (p := fun y => 11.7 < y) (lt_mem_nhds hx) k).mono fun s hs => by
      rw [flowOverBump_eq ht.le (hc _), if_pos ⟨rfl, hs⟩, hq, hpl]]
  rw [planar_solves_iff g 0 bumpBathymetry (fun _ _ => 0.28205279813802181) (fun _ _ => 0.18 / 0.28205279813802181) x t
    (by norm_num) (hasDerivAt_const _ _) (hasDerivAt_const _ _) (hasDerivAt_const _ _) (hasDerivAt_const _ _)
    (hasDerivAt_bumpBathymetry x)]
  rintro ⟨-, h2⟩
  norm_num at hx
  have hp : 0 < (x 0 - 8) * (12 - x 0) := mul_pos (by linarith) (by linarith)
  rw [max_eq_right hp.le] at h2
  have h3 : 0 < (x 0 - 10) := by linarith
  have : 0 < g * (0.2 / 64 * (3 * ((x 0 - 8) * (12 - x 0)) ^ 2 * (2 * (x 0 - 10)))) := by positivity
  simp only [ne_eq, OfNat.ofNat_ne_zero, not_false_eq_true, zero_pow, mul_zero, zero_mul, zero_div, add_zero, zero_add] at h2
  linarith

/-- **C86, finding.**  At the position of the jump itself neither case of the code applies and the subcritical depth of the
upstream branch is returned, although the flow is supercritical on one side and constant on the other. -/
theorem C86_bump_jump_violation (g : ℝ) (hg : 0 < g) (x : Vec (d + 1)) (t : ℝ) (ht : 1 / 10 ^ 12 ≤ t) (hx : x 0 = 11.7) :
    (0.18 : ℝ) ^ 2 < g * waterDepth (flowOverBump g false x t) ^ 3 := by
  obtain ⟨hc0, hc3⟩ := critical_depth hg
  have hC : (bumpConstants g false).2.2 = 0.2 + 1.5 * (0.18 * 0.18 / g) ^ (1 / 3 : ℝ) := rfl
  set hcr := (0.18 * 0.18 / g : ℝ) ^ (1 / 3 : ℝ) with hcrd
  have hlt : bump (x 0) < 0.2 := lt_of_le_of_ne (bump_le _).1 fun h => by
    have := (bump_le _).2 h
    rw [hx] at this
    norm_num at this
  have hc : 1.5 * hcr < (bumpConstants g false).2.2 - bump (x 0) := by rw [hC]; linarith
  have hcp : 0 < (bumpConstants g false).2.2 - bump (x 0) := lt_trans (by positivity) hc
  have he : (bumpConstants g false).1 * (bumpConstants g false).1 / (2 * g) = hcr ^ 3 / 2 := by
    rw [hc3]
    show (0.18 * 0.18 / (2 * g) : ℝ) = _
    field_simp
  rw [flowOverBump_eq ht hcp, if_neg (by rw [hx]; norm_num), if_neg (by rw [hx]; norm_num)]
  have hcrit : 27 * ((bumpConstants g false).1 * (bumpConstants g false).1 / (2 * g)) <
      4 * ((bumpConstants g false).2.2 - bump (x 0)) ^ 3 := by
    rw [he]
    have h1 : (1.5 * hcr) ^ 3 < ((bumpConstants g false).2.2 - bump (x 0)) ^ 3 :=
      pow_lt_pow_left₀ hc (by positivity) (by norm_num)
    have h2 : (1.5 * hcr) ^ 3 = 27 / 8 * hcr ^ 3 := by ring
    rw [h2] at h1
    linarith
  obtain ⟨hroot, h23, -⟩ := cubicRoot_spec hcp (by rw [he]; positivity) hcrit
  have hp : 0 < cubicRoot 0 ((bumpConstants g false).2.2 - bump (x 0))
      ((bumpConstants g false).1 * (bumpConstants g false).1 / (2 * g)) := by linarith
  exact (froude_of_root hg hp (hroot 0 (Or.inl rfl)).1).1 h23

end ShallowWaterStates
end Ryujin
