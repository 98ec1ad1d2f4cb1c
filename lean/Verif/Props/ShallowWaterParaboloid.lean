import Verif.Proofs.ShallowWaterSolutions
import Mathlib.Analysis.SpecialFunctions.Trigonometric.Deriv
import Mathlib.Analysis.SpecialFunctions.ExpDeriv
import Mathlib.Analysis.SpecialFunctions.Pow.Continuity

/-!
# Oscillating water in a parabolic basin (C83)
-/

namespace Ryujin
namespace ShallowWaterStates

open ShallowWater (State mkState waterDepth momentum)
open Spec (SolvesShallowWater waterState)
open scoped BigOperators

variable {d : ℕ}

theorem vnorm_eq_zero_iff (v : Vec d) : vnorm v = 0 ↔ ∀ i, v i = 0 := by
  unfold vnorm
  have hnn : 0 ≤ normSq v := Finset.sum_nonneg fun i _ => mul_self_nonneg _
  rw [Real.sqrt_eq_zero hnn]
  unfold normSq
  rw [Finset.sum_eq_zero_iff_of_nonneg fun i _ => mul_self_nonneg _]
  simp

theorem vnorm_nonneg' (v : Vec d) : 0 ≤ vnorm v := Real.sqrt_nonneg _

/-- Friction vanishes only without friction coefficient or without motion. -/
theorem friction_zero_iff {g nm h : ℝ} (hg : 0 < g) (hh : 0 < h) (v : Vec d) :
    (∀ i, g * nm ^ 2 * vnorm v / h ^ ((4 : ℝ) / 3) * v i = 0) ↔ nm = 0 ∨ ∀ i, v i = 0 := by
  have hp : 0 < h ^ ((4 : ℝ) / 3) := Real.rpow_pos_of_pos hh _
  constructor
  · intro hall
    by_contra hcon
    push Not at hcon
    obtain ⟨hn, i, hi⟩ := hcon
    have hv : vnorm v ≠ 0 := fun h0 => hi ((vnorm_eq_zero_iff v).1 h0 i)
    have := hall i
    simp [hg.ne', hn, hv, hp.ne', hi] at this
  · rintro (h | h) i
    · simp [h]
    · simp [h i]

/-! ### Two dimensions -/

/-- Elevation of the free surface of the rotating flow. -/
noncomputable def surface2 (c : ParaboloidParams) (omega : ℝ) (x : Vec 2) (t : ℝ) : ℝ :=
  c.eta * c.h_0 / (c.a * c.a) * (2 * x 0 * Real.cos (omega * t) + 2 * x 1 * Real.sin (omega * t))

theorem hasDerivAt_normSq_update (x : Vec d) (k : Fin d) :
    HasDerivAt (fun s => normSq (Function.update x k s)) (2 * x k) (x k) := by
  have h1 := Spec.hasDerivAt_normSq (u := fun s => Function.update x k s) (u' := fun i => if i = k then 1 else 0) (s := x k)
    fun i => Spec.hasDerivAt_coord x k i
  refine h1.congr_deriv ?_
  rw [Function.update_eq_self]
  simp

theorem hasDerivAt_paraboloidBathymetry2 (c : ParaboloidParams) (x : Vec 2) (k : Fin 2) :
    HasDerivAt (fun s => paraboloidBathymetry2 c (Function.update x k s)) (2 * c.h_0 / (c.a * c.a) * x k) (x k) := by
  unfold paraboloidBathymetry2
  have := (((hasDerivAt_normSq_update x k).div_const (c.a * c.a)).const_sub 1).const_mul (-c.h_0)
  refine this.congr_deriv ?_
  ring

theorem continuous_update' (x : Vec d) (k : Fin d) : Continuous fun s => Function.update x k s := by
  fun_prop

/-- **C83.**  Rotating flow in a paraboloid (two dimensions).  At every wet point the state solves the shallow water equations
with the bottom of the class if and only if the system has no friction (or the water is at rest); in the interior of the dry
region it always does. -/
theorem C83_paraboloid_2d (g nm : ℝ) (hg : 0 < g) (c : ParaboloidParams) (ha : 0 < c.a) (hh : 0 < c.h_0) (x : Vec 2) (t : ℝ) :
    (0 < waterDepth (paraboloid2 g c x t) →
      (SolvesShallowWater g nm (paraboloidBathymetry2 c) (paraboloid2 g c) x t ↔ nm = 0 ∨ c.eta = 0)) ∧
    (surface2 c (Real.sqrt (2 * g * c.h_0) / c.a) x t < paraboloidBathymetry2 c x →
      SolvesShallowWater g nm (paraboloidBathymetry2 c) (paraboloid2 g c) x t) := by
  set om := Real.sqrt (2 * g * c.h_0) / c.a with hom
  have hom2 : om ^ 2 = 2 * g * c.h_0 / (c.a * c.a) := by
    rw [hom, div_pow, Real.sq_sqrt (by positivity), sq]
  have hompos : 0 < om := by rw [hom]; positivity
  set V : ℝ → Vec 2 := fun t => ![-c.eta * om * Real.sin (om * t), c.eta * om * Real.cos (om * t)] with hV
  have hP : ∀ x t, paraboloid2 g c x t = waterState (max (surface2 c om x t - paraboloidBathymetry2 c x) 0) (V t) := by
    intro x t
    unfold paraboloid2 waterState surface2
    dsimp only
    congr 1
    funext i
    fin_cases i <;> simp [hV, hom]
  have hself : ∀ k, Function.update x k (x k) = x := fun k => Function.update_eq_self k x
  have hst : HasDerivAt (fun s => surface2 c om x s) (c.eta * c.h_0 / (c.a * c.a) *
      (2 * x 0 * (-Real.sin (om * t) * om) + 2 * x 1 * (Real.cos (om * t) * om))) t := by
    have h1 : HasDerivAt (fun s => om * s) om t := by simpa using (hasDerivAt_id' t).const_mul om
    exact ((h1.cos.const_mul (2 * x 0)).add (h1.sin.const_mul (2 * x 1))).const_mul _
  have hsx : ∀ k : Fin 2, HasDerivAt (fun s => surface2 c om (Function.update x k s) t)
      (c.eta * c.h_0 / (c.a * c.a) * (2 * (if (0 : Fin 2) = k then 1 else 0) * Real.cos (om * t) +
        2 * (if (1 : Fin 2) = k then 1 else 0) * Real.sin (om * t))) (x k) := fun k =>
    ((((Spec.hasDerivAt_coord x k 0).const_mul 2).mul_const _).add
      (((Spec.hasDerivAt_coord x k 1).const_mul 2).mul_const _)).const_mul _
  have hzx := hasDerivAt_paraboloidBathymetry2 c x
  have hct : ContinuousAt (fun s => surface2 c om x s - paraboloidBathymetry2 c x) t := hst.continuousAt.sub_const _
  have hcx : ∀ k, Filter.Tendsto (fun s => surface2 c om (Function.update x k s) t -
      paraboloidBathymetry2 c (Function.update x k s)) (nhds (x k)) (nhds (surface2 c om x t - paraboloidBathymetry2 c x)) := by
    intro k
    have : Filter.Tendsto (fun s => surface2 c om (Function.update x k s) t - paraboloidBathymetry2 c (Function.update x k s))
        (nhds (x k)) (nhds (surface2 c om (Function.update x k (x k)) t -
          paraboloidBathymetry2 c (Function.update x k (x k)))) := ((hsx k).continuousAt.sub (hzx k).continuousAt).tendsto
    rw [hself] at this
    exact this
  refine ⟨fun hwet => ?_, fun hdry => ?_⟩
  · rw [hP] at hwet
    have hpos : 0 < surface2 c om x t - paraboloidBathymetry2 c x := by
      by_contra hcon
      rw [max_eq_right (not_lt.1 hcon)] at hwet
      exact lt_irrefl _ hwet
    rw [Spec.SolvesShallowWater.congr (W := fun x t => waterState (surface2 c om x t - paraboloidBathymetry2 c x) (V t))
      ((hct.eventually (lt_mem_nhds hpos)).mono fun s hs => by rw [hP, max_eq_left (le_of_lt hs)])
      fun k => ((hcx k).eventually (lt_mem_nhds hpos)).mono fun s hs => by rw [hP, max_eq_left (le_of_lt hs)]]
    rw [Spec.solvesShallowWater_iff g nm (paraboloidBathymetry2 c) (fun x t => surface2 c om x t - paraboloidBathymetry2 c x)
      (fun _ t => V t) x t (vt := ![-c.eta * om * (Real.cos (om * t) * om), c.eta * om * (-Real.sin (om * t) * om)])
      (vx := fun _ _ => 0) hpos.ne' (hst.sub_const _) ?_ (fun k => (hsx k).sub (hzx k)) (fun k i => hasDerivAt_const _ _) hzx]
    · have hmass : c.eta * c.h_0 / (c.a * c.a) * (2 * x 0 * (-Real.sin (om * t) * om) + 2 * x 1 * (Real.cos (om * t) * om)) +
          ∑ k : Fin 2, (V t k * (c.eta * c.h_0 / (c.a * c.a) * (2 * (if (0 : Fin 2) = k then 1 else 0) * Real.cos (om * t) +
            2 * (if (1 : Fin 2) = k then 1 else 0) * Real.sin (om * t)) - 2 * c.h_0 / (c.a * c.a) * x k) +
            (surface2 c om x t - paraboloidBathymetry2 c x) * 0) = 0 := by
        rw [Fin.sum_univ_two]
        simp [hV]
        ring
      have hmom : ∀ i : Fin 2, (![-c.eta * om * (Real.cos (om * t) * om), c.eta * om * (-Real.sin (om * t) * om)] : Vec 2) i +
          ∑ k : Fin 2, V t k * 0 + g * (c.eta * c.h_0 / (c.a * c.a) * (2 * (if (0 : Fin 2) = i then 1 else 0) * Real.cos (om * t) +
            2 * (if (1 : Fin 2) = i then 1 else 0) * Real.sin (om * t)) - 2 * c.h_0 / (c.a * c.a) * x i +
            2 * c.h_0 / (c.a * c.a) * x i) = 0 := by
        intro i
        fin_cases i
        · simp
          linear_combination (-c.eta * Real.cos (om * t)) * hom2
        · simp
          linear_combination (-c.eta * Real.sin (om * t)) * hom2
      have hfr := friction_zero_iff (nm := nm) hg hpos (V t)
      have hV0 : (∀ i, V t i = 0) ↔ c.eta = 0 := by
        constructor
        · intro h
          have h1 := h 0
          have h2 := h 1
          simp only [hV, Matrix.cons_val_zero, Matrix.cons_val_one] at h1 h2
          have hsc := Real.sin_sq_add_cos_sq (om * t)
          have : (c.eta * om) ^ 2 = 0 := by linear_combination (c.eta * om * -Real.sin (om * t)) * h1 +
            (c.eta * om * Real.cos (om * t)) * h2 - (c.eta * om) ^ 2 * hsc
          have := pow_eq_zero_iff (two_ne_zero) |>.1 this
          exact (mul_eq_zero.1 this).resolve_right hompos.ne'
        · intro h i
          fin_cases i <;> simp [hV, h]
      rw [hV0] at hfr
      rw [← hfr]
      constructor
      · rintro ⟨-, h2⟩ i
        have := h2 i
        rw [hmom i, zero_add] at this
        exact this
      · intro h
        refine ⟨hmass, fun i => ?_⟩
        rw [hmom i, zero_add]
        exact h i
    · intro i
      have h1 : HasDerivAt (fun s => om * s) om t := by simpa using (hasDerivAt_id' t).const_mul om
      fin_cases i
      · exact h1.sin.const_mul _
      · exact h1.cos.const_mul _
  · have hneg : surface2 c om x t - paraboloidBathymetry2 c x < 0 := sub_neg.2 hdry
    have hz0 : ∀ v : Vec 2, waterState 0 v = waterState 0 (0 : Vec 2) := fun v => by simp [waterState]
    rw [Spec.SolvesShallowWater.congr (W := fun _ _ => waterState 0 0)
      ((hct.eventually (gt_mem_nhds hneg)).mono fun s hs => by rw [hP, max_eq_right (le_of_lt hs), hz0])
      fun k => ((hcx k).eventually (gt_mem_nhds hneg)).mono fun s hs => by rw [hP, max_eq_right (le_of_lt hs), hz0]]
    exact Spec.dry_solves g nm _ x t ⟨_, hzx⟩

/-- Non-vacuity: with depth, radius and gravity 1 the centre of the basin is wet, a point far away is dry. -/
example : 0 < waterDepth (paraboloid2 1 ⟨1, 1, 1 / 2, 0, 0⟩ 0 0) ∧
    surface2 ⟨1, 1, 1 / 2, 0, 0⟩ (Real.sqrt (2 * 1 * 1) / 1) ![3, 0] 0 <
      paraboloidBathymetry2 ⟨1, 1, 1 / 2, 0, 0⟩ ![3, 0] := by
  constructor
  · simp [paraboloid2, paraboloidBathymetry2, waterDepth, mkState, normSq]
  · simp [surface2, paraboloidBathymetry2, normSq]
    norm_num

/-! ### One dimension -/

/-- Elevation of the free surface of the damped oscillation, over the lowest point of the bottom. -/
noncomputable def surface1 (g k s : ℝ) (c : ParaboloidParams) (x t : ℝ) : ℝ :=
  c.h_0 + ((c.a * c.a * c.B * c.B) / (8 * g * g * c.h_0) * Real.exp (-k * t) *
    ((1 / 4 * k * k - s * s) * Real.cos (2 * s * t) - s * k * Real.sin (2 * s * t)) +
    -(c.B * c.B / (4 * g)) * Real.exp (-k * t) +
    -(c.B / g) * Real.exp (-1 / 2 * k * t) * ((s * Real.cos (s * t) + 1 / 2 * k * Real.sin (s * t)) * (x - 1 / 2 * c.length)))

/-- Velocity of the damped oscillation. -/
noncomputable def velocity1 (k s B t : ℝ) : ℝ := B * Real.exp (-1 / 2 * k * t) * Real.sin (s * t)

theorem hasDerivAt_velocity1 (k s B t : ℝ) : HasDerivAt (velocity1 k s B)
    (B * Real.exp (-1 / 2 * k * t) * (s * Real.cos (s * t) - 1 / 2 * k * Real.sin (s * t))) t := by
  have h1 : HasDerivAt (fun y => s * y) s t := by simpa using (hasDerivAt_id' t).const_mul s
  have h2 : HasDerivAt (fun y => -1 / 2 * k * y) (-1 / 2 * k) t := by simpa using (hasDerivAt_id' t).const_mul (-1 / 2 * k)
  have h3 := (h2.exp.const_mul B).mul h1.sin
  refine h3.congr_deriv ?_
  ring

/-- The time derivative of the elevation, with `4 s² = p² - k²` and `p² = 8 g h₀ / a²`. -/
theorem hasDerivAt_surface1 {g k s : ℝ} (hg : 0 < g) (c : ParaboloidParams) (ha : 0 < c.a) (hh : 0 < c.h_0)
    (hs : s * s + 1 / 4 * k * k = 2 * g * c.h_0 / (c.a * c.a)) (x t : ℝ) :
    HasDerivAt (fun y => surface1 g k s c x y)
      (-velocity1 k s c.B t * (-(c.B / g) * Real.exp (-1 / 2 * k * t) * (s * Real.cos (s * t) + 1 / 2 * k * Real.sin (s * t)) -
        2 * c.h_0 / (c.a * c.a) * (x - 1 / 2 * c.length))) t := by
  have h1 : HasDerivAt (fun y => s * y) s t := by simpa using (hasDerivAt_id' t).const_mul s
  have h2 : HasDerivAt (fun y => -1 / 2 * k * y) (-1 / 2 * k) t := by simpa using (hasDerivAt_id' t).const_mul (-1 / 2 * k)
  have h3 : HasDerivAt (fun y => 2 * s * y) (2 * s) t := by simpa using (hasDerivAt_id' t).const_mul (2 * s)
  have h4 : HasDerivAt (fun y => -k * y) (-k) t := by simpa using (hasDerivAt_id' t).const_mul (-k)
  have t1 := (h4.exp.const_mul ((c.a * c.a * c.B * c.B) / (8 * g * g * c.h_0))).mul
    ((h3.cos.const_mul (1 / 4 * k * k - s * s)).sub (h3.sin.const_mul (s * k)))
  have t2 := h4.exp.const_mul (-(c.B * c.B / (4 * g)))
  have t3 := (h2.exp.const_mul (-(c.B / g))).mul
    (((h1.cos.const_mul s).add (h1.sin.const_mul (1 / 2 * k))).mul_const (x - 1 / 2 * c.length))
  have := ((t1.add t2).add t3).const_add c.h_0
  refine this.congr_deriv ?_
  simp only [Pi.sub_apply, Pi.add_apply]
  unfold velocity1
  have e1 : 2 * s * t = 2 * (s * t) := by ring
  have e2 : Real.exp (-k * t) = Real.exp (-1 / 2 * k * t) ^ 2 := by
    rw [← Real.exp_nat_mul]; congr 1; push_cast; ring
  rw [e1, e2, Real.cos_two_mul, Real.sin_two_mul]
  have hsc := Real.sin_sq_add_cos_sq (s * t)
  generalize Real.exp (-1 / 2 * k * t) = e at *
  generalize Real.sin (s * t) = S at *
  generalize Real.cos (s * t) = C at *
  have hC : C ^ 2 = 1 - S ^ 2 := by linarith
  have hh0 : c.h_0 = (s * s + 1 / 4 * k * k) * (c.a * c.a) / (2 * g) := by
    rw [hs]; field_simp
  have hw : s * s + 1 / 4 * k * k ≠ 0 := by rw [hs]; positivity
  have hcoef : c.a * c.a * c.B * c.B / (8 * g * g * c.h_0) = c.B * c.B / (4 * g * (s * s + 1 / 4 * k * k)) := by
    rw [hs]; field_simp; ring
  have hcoef2 : 2 * c.h_0 / (c.a * c.a) = (s * s + 1 / 4 * k * k) / g := by
    rw [hs]; field_simp
  rw [hcoef, hcoef2]
  generalize hW : s * s + 1 / 4 * k * k = W at *
  clear t1 t2 t3 this h1 h2 h3 h4
  field_simp
  subst hW
  linear_combination (-64 * c.B ^ 2 * e ^ 2 * k * (s * s + 1 / 4 * k * k)) * hC

theorem hasDerivAt_paraboloidBathymetry1 (c : ParaboloidParams) (x : Vec 1) (j : Fin 1) :
    HasDerivAt (fun y => paraboloidBathymetry1 c (Function.update x j y))
      (2 * c.h_0 / (c.a * c.a) * (x 0 - 1 / 2 * c.length)) (x j) := by
  have hcoord : HasDerivAt (fun y => Function.update x j y 0) 1 (x j) := by
    have := Spec.hasDerivAt_coord x j 0
    rwa [if_pos (Subsingleton.elim _ _)] at this
  have := ((hcoord.sub_const (0.5 * c.length)).pow 2).const_mul (c.h_0 / (c.a * c.a))
  unfold paraboloidBathymetry1
  refine this.congr_deriv ?_
  rw [Function.update_eq_self]
  norm_num
  ring

theorem paraboloid1_eq (g k : ℝ) (c : ParaboloidParams) (x : Vec 1) (t : ℝ) :
    paraboloid1 g k c x t =
      waterState (max (surface1 g k (Real.sqrt (Real.sqrt (8 * g * c.h_0) / c.a * (Real.sqrt (8 * g * c.h_0) / c.a) - k * k) / 2)
        c (x 0) t - paraboloidBathymetry1 c x) 0) fun _ => velocity1 k
          (Real.sqrt (Real.sqrt (8 * g * c.h_0) / c.a * (Real.sqrt (8 * g * c.h_0) / c.a) - k * k) / 2) c.B t := by
  unfold paraboloid1 waterState surface1 velocity1 planar
  dsimp only
  have : ∀ a b e : ℝ, a - b + e = a + e - b := fun a b e => by ring
  rw [this]
  congr 1
  funext i
  fin_cases i
  simp

theorem vnorm_one (v : Vec 1) : vnorm v = |v 0| := by
  unfold vnorm normSq
  rw [Fin.sum_univ_one, Real.sqrt_mul_self_eq_abs]

/-- **C83.**  Oscillating flow in a parabola (one dimension).  The depth and velocity of the class solve the shallow water
equations with the *linear* friction term `-k m`, where `k` is the friction coefficient of the system.  The system has the
friction term of Manning, so at a wet point the state solves the equations of the system if and only if there is no friction,
or the water is at rest, or the two friction terms happen to agree there. -/
theorem C83_paraboloid_1d (g k : ℝ) (hg : 0 < g) (hk : 0 ≤ k) (c : ParaboloidParams) (ha : 0 < c.a) (hh : 0 < c.h_0)
    (hkp : k * k ≤ 8 * g * c.h_0 / (c.a * c.a)) (x : Vec 1) (t : ℝ) (hwet : 0 < waterDepth (paraboloid1 g k c x t)) :
    let h := waterDepth (paraboloid1 g k c x t)
    let v := momentum (paraboloid1 g k c x t) 0 / h
    SolvesShallowWater g k (paraboloidBathymetry1 c) (paraboloid1 g k c) x t ↔
      k = 0 ∨ v = 0 ∨ h ^ ((4 : ℝ) / 3) = g * k * |v| := by
  intro h v
  set p := Real.sqrt (8 * g * c.h_0) / c.a with hp
  set s := Real.sqrt (p * p - k * k) / 2 with hsd
  have hp2 : p * p = 8 * g * c.h_0 / (c.a * c.a) := by
    rw [hp, div_mul_div_comm, Real.mul_self_sqrt (by positivity)]
  have hs : s * s + 1 / 4 * k * k = 2 * g * c.h_0 / (c.a * c.a) := by
    have : s * s = (p * p - k * k) / 4 := by
      rw [hsd, div_mul_div_comm, Real.mul_self_sqrt (by rw [hp2]; linarith)]
      norm_num
    rw [this, hp2]; ring
  have hP : ∀ x t, paraboloid1 g k c x t =
      waterState (max (surface1 g k s c (x 0) t - paraboloidBathymetry1 c x) 0) fun _ => velocity1 k s c.B t :=
    fun x t => paraboloid1_eq g k c x t
  have hpos : 0 < surface1 g k s c (x 0) t - paraboloidBathymetry1 c x := by
    rw [hP] at hwet
    by_contra hcon
    rw [max_eq_right (not_lt.1 hcon)] at hwet
    exact lt_irrefl _ hwet
  have hhv : h = surface1 g k s c (x 0) t - paraboloidBathymetry1 c x := by
    show waterDepth (paraboloid1 g k c x t) = _
    rw [hP, max_eq_left hpos.le]
    rfl
  have hvv : v = velocity1 k s c.B t := by
    show momentum (paraboloid1 g k c x t) 0 / h = _
    rw [hhv, hP, max_eq_left hpos.le]
    unfold waterState
    rw [Spec.sw_momentum_mk]
    field_simp
  have hself : ∀ j, Function.update x j (x j) = x := fun j => Function.update_eq_self j x
  have hst := hasDerivAt_surface1 hg c ha hh hs (x 0) t
  have hcoord : ∀ j : Fin 1, HasDerivAt (fun y => Function.update x j y 0) 1 (x j) := fun j => by
    have := Spec.hasDerivAt_coord x j 0
    rwa [if_pos (Subsingleton.elim _ _)] at this
  have hsx : ∀ j : Fin 1, HasDerivAt (fun y => surface1 g k s c (Function.update x j y 0) t)
      (-(c.B / g) * Real.exp (-1 / 2 * k * t) * (s * Real.cos (s * t) + 1 / 2 * k * Real.sin (s * t))) (x j) := fun j => by
    have := ((((hcoord j).sub_const (1 / 2 * c.length)).const_mul
      (s * Real.cos (s * t) + 1 / 2 * k * Real.sin (s * t))).const_mul (-(c.B / g) * Real.exp (-1 / 2 * k * t))).const_add
      ((c.a * c.a * c.B * c.B) / (8 * g * g * c.h_0) * Real.exp (-k * t) *
        ((1 / 4 * k * k - s * s) * Real.cos (2 * s * t) - s * k * Real.sin (2 * s * t)) +
        -(c.B * c.B / (4 * g)) * Real.exp (-k * t)) |>.const_add c.h_0
    unfold surface1
    refine this.congr_deriv ?_
    ring
  have hzx := hasDerivAt_paraboloidBathymetry1 c x
  have hct : ContinuousAt (fun y => surface1 g k s c (x 0) y - paraboloidBathymetry1 c x) t := hst.continuousAt.sub_const _
  have hcx : ∀ j, Filter.Tendsto (fun y => surface1 g k s c (Function.update x j y 0) t -
      paraboloidBathymetry1 c (Function.update x j y)) (nhds (x j))
      (nhds (surface1 g k s c (x 0) t - paraboloidBathymetry1 c x)) := by
    intro j
    have : Filter.Tendsto (fun y => surface1 g k s c (Function.update x j y 0) t - paraboloidBathymetry1 c (Function.update x j y))
        (nhds (x j)) (nhds (surface1 g k s c (Function.update x j (x j) 0) t -
          paraboloidBathymetry1 c (Function.update x j (x j)))) := ((hsx j).continuousAt.sub (hzx j).continuousAt).tendsto
    rw [hself] at this
    exact this
  rw [Spec.SolvesShallowWater.congr
    (W := fun x t => waterState (surface1 g k s c (x 0) t - paraboloidBathymetry1 c x) fun _ => velocity1 k s c.B t)
    ((hct.eventually (lt_mem_nhds hpos)).mono fun s hs => by rw [hP, max_eq_left (le_of_lt hs)])
    fun j => ((hcx j).eventually (lt_mem_nhds hpos)).mono fun s hs => by rw [hP, max_eq_left (le_of_lt hs)]]
  rw [Spec.solvesShallowWater_iff g k (paraboloidBathymetry1 c) (fun x t => surface1 g k s c (x 0) t - paraboloidBathymetry1 c x)
    (fun _ t _ => velocity1 k s c.B t) x t (vx := fun _ _ => 0)
    (vt := fun _ => c.B * Real.exp (-1 / 2 * k * t) * (s * Real.cos (s * t) - 1 / 2 * k * Real.sin (s * t))) hpos.ne'
    (hst.sub_const _) (fun _ => hasDerivAt_velocity1 k s c.B t) (fun j => (hsx j).sub (hzx j))
    (fun _ _ => hasDerivAt_const _ _) hzx]
  simp only [Fin.sum_univ_one, mul_zero, add_zero, vnorm_one]
  rw [← hhv, ← hvv]
  have hhp : 0 < h := hwet
  have hhpow : 0 < h ^ ((4 : ℝ) / 3) := Real.rpow_pos_of_pos hhp _
  have hv' : v = c.B * Real.exp (-1 / 2 * k * t) * Real.sin (s * t) := hvv
  have h6 : g * (-(c.B / g) * Real.exp (-1 / 2 * k * t) * (s * Real.cos (s * t) + 1 / 2 * k * Real.sin (s * t)) -
      2 * c.h_0 / (c.a * c.a) * (x 0 - 1 / 2 * c.length) + 2 * c.h_0 / (c.a * c.a) * (x 0 - 1 / 2 * c.length)) =
      -c.B * Real.exp (-1 / 2 * k * t) * (s * Real.cos (s * t) + 1 / 2 * k * Real.sin (s * t)) := by
    rw [sub_add_cancel]
    field_simp
  rw [h6]
  have h7 : g * k ^ 2 * |v| / h ^ ((4 : ℝ) / 3) * v = k * v * (g * k * |v| / h ^ ((4 : ℝ) / 3)) := by ring
  rw [h7]
  constructor
  · rintro ⟨-, h2⟩
    have h3 := h2 0
    have h4 : k * v * (g * k * |v| / h ^ ((4 : ℝ) / 3) - 1) = 0 := by
      linear_combination h3 - k * hv'
    rcases mul_eq_zero.1 h4 with h5 | h5
    · rcases mul_eq_zero.1 h5 with h6 | h6
      · left; exact h6
      · right; left; exact h6
    · right; right
      rw [sub_eq_zero, div_eq_one_iff_eq hhpow.ne'] at h5
      exact h5.symm
  · intro hc
    have h4 : k * v * (g * k * |v| / h ^ ((4 : ℝ) / 3) - 1) = 0 := by
      rcases hc with h5 | h5 | h5
      · rw [h5]; ring
      · rw [h5]; ring
      · rw [← h5, div_self hhpow.ne']; ring
    refine ⟨?_, fun _ => ?_⟩
    · ring
    · linear_combination h4 + k * hv'

/-- In the interior of the dry region the one-dimensional state solves the equations with any friction. -/
theorem C83_paraboloid_1d_dry (g k : ℝ) (c : ParaboloidParams) (x : Vec 1) (t : ℝ)
    (hdry : ∀ᶠ s in nhds t, waterDepth (paraboloid1 g k c x s) = 0)
    (hdryx : ∀ᶠ s in nhds (x 0), waterDepth (paraboloid1 g k c (Function.update x 0 s) t) = 0) (nm : ℝ) :
    SolvesShallowWater g nm (paraboloidBathymetry1 c) (paraboloid1 g k c) x t := by
  have key : ∀ x t, waterDepth (paraboloid1 g k c x t) = 0 → paraboloid1 g k c x t = 0 := by
    intro x t h
    unfold paraboloid1 planar at h ⊢
    dsimp only at h ⊢
    rw [Spec.sw_depth_mk] at h
    rw [h]
    refine Spec.sw_ext rfl fun i => ?_
    rw [Spec.sw_momentum_mk]
    simp
    rfl
  have h0 : (0 : State 1) = waterState 0 0 := by
    refine Spec.sw_ext rfl fun i => ?_
    unfold waterState
    rw [Spec.sw_momentum_mk]
    simp
    rfl
  rw [Spec.SolvesShallowWater.congr (W := fun _ _ => waterState 0 0) (hdry.mono fun s hs => (key _ _ hs).trans h0)
    fun j => by
      rw [Subsingleton.elim j 0]
      exact hdryx.mono fun s hs => (key _ _ hs).trans h0]
  exact Spec.dry_solves g nm _ x t ⟨fun _ => _, hasDerivAt_paraboloidBathymetry1 c x⟩

/-- **C83, finding.**  With friction the one-dimensional state is not a solution of the equations of the system: whatever the
parameters (positive friction coefficient below the critical damping, moving water), it fails at some wet point at a positive
time. -/
theorem C83_paraboloid_1d_violation (g k : ℝ) (hg : 0 < g) (hk : 0 < k) (c : ParaboloidParams) (ha : 0 < c.a) (hh : 0 < c.h_0)
    (hB : c.B ≠ 0) (hkp : k * k < 8 * g * c.h_0 / (c.a * c.a)) :
    ∃ (x : Vec 1) (t : ℝ), 0 < t ∧ 0 < waterDepth (paraboloid1 g k c x t) ∧
      ¬ SolvesShallowWater g k (paraboloidBathymetry1 c) (paraboloid1 g k c) x t := by
  set p := Real.sqrt (8 * g * c.h_0) / c.a with hp
  set s := Real.sqrt (p * p - k * k) / 2 with hsd
  have hp2 : p * p = 8 * g * c.h_0 / (c.a * c.a) := by
    rw [hp, div_mul_div_comm, Real.mul_self_sqrt (by positivity)]
  have hs0 : 0 < s := by
    rw [hsd]
    have : 0 < p * p - k * k := by rw [hp2]; linarith
    positivity
  have hs : s * s + 1 / 4 * k * k = 2 * g * c.h_0 / (c.a * c.a) := by
    have : s * s = (p * p - k * k) / 4 := by
      rw [hsd, div_mul_div_comm, Real.mul_self_sqrt (by rw [hp2]; linarith)]
      norm_num
    rw [this, hp2]; ring
  set y : ℝ := 1 / 2 * c.length - c.B * s * (c.a * c.a) / (2 * g * c.h_0) with hy
  have hP : ∀ t, paraboloid1 g k c (fun _ => y) t =
      waterState (max (surface1 g k s c y t - paraboloidBathymetry1 c fun _ => y) 0) fun _ => velocity1 k s c.B t :=
    fun t => paraboloid1_eq g k c (fun _ => y) t
  set H : ℝ → ℝ := fun t => surface1 g k s c y t - paraboloidBathymetry1 c fun _ => y with hH
  have hH0 : H 0 = c.h_0 := by
    simp only [hH]
    unfold surface1 paraboloidBathymetry1
    simp only [mul_zero, Real.exp_zero, Real.cos_zero, Real.sin_zero]
    have : (1 / 4 * k * k - s * s : ℝ) = 2 * g * c.h_0 / (c.a * c.a) - 2 * (s * s) := by linarith
    rw [this, hy]
    field_simp
    ring
  have hHc : ContinuousAt H 0 := (hasDerivAt_surface1 hg c ha hh hs y 0).continuousAt.sub_const _
  have hVc : ContinuousAt (velocity1 k s c.B) 0 := (hasDerivAt_velocity1 k s c.B 0).continuousAt
  have hV0 : velocity1 k s c.B 0 = 0 := by simp [velocity1]
  have hpc : ContinuousAt (fun t => H t ^ ((4 : ℝ) / 3) - g * k * |velocity1 k s c.B t|) 0 :=
    (hHc.rpow_const (Or.inr (by norm_num))).sub (hVc.abs.const_mul (g * k))
  have hp0 : 0 < H 0 ^ ((4 : ℝ) / 3) - g * k * |velocity1 k s c.B 0| := by
    rw [hH0, hV0, abs_zero, mul_zero, sub_zero]
    exact Real.rpow_pos_of_pos hh _
  have e1 : ∀ᶠ t in nhdsWithin 0 (Set.Ioi 0), 0 < H t :=
    (hHc.eventually (lt_mem_nhds (by rw [hH0]; exact hh))).filter_mono nhdsWithin_le_nhds
  have e2 : ∀ᶠ t in nhdsWithin 0 (Set.Ioi 0), 0 < H t ^ ((4 : ℝ) / 3) - g * k * |velocity1 k s c.B t| :=
    (hpc.eventually (lt_mem_nhds hp0)).filter_mono nhdsWithin_le_nhds
  have e3 : ∀ᶠ t in nhdsWithin (0 : ℝ) (Set.Ioi 0), t ∈ Set.Ioo 0 (Real.pi / s) :=
    Ioo_mem_nhdsGT (div_pos Real.pi_pos hs0)
  obtain ⟨t, ht1, ht2, ht3⟩ := (e1.and (e2.and e3)).exists
  have hd : waterDepth (paraboloid1 g k c (fun _ => y) t) = H t := by
    rw [hP, max_eq_left ht1.le]
    rfl
  have hv : momentum (paraboloid1 g k c (fun _ => y) t) 0 / H t = velocity1 k s c.B t := by
    rw [hP, max_eq_left ht1.le]
    unfold waterState
    rw [Spec.sw_momentum_mk]
    field_simp
  have hwet : 0 < waterDepth (paraboloid1 g k c (fun _ => y) t) := by rw [hd]; exact ht1
  refine ⟨fun _ => y, t, ht3.1, hwet, fun hsol => ?_⟩
  have := (C83_paraboloid_1d g k hg hk.le c ha hh hkp.le (fun _ => y) t hwet).1 hsol
  rw [hd, hv] at this
  rcases this with h | h | h
  · exact hk.ne' h
  · have hst : 0 < Real.sin (s * t) := by
      refine Real.sin_pos_of_pos_of_lt_pi (mul_pos hs0 ht3.1) ?_
      have := (lt_div_iff₀ hs0).1 ht3.2
      linarith
    unfold velocity1 at h
    have := Real.exp_pos (-1 / 2 * k * t)
    simp [hB, hst.ne', this.ne'] at h
  · linarith

/-- Non-vacuity: the default parameters of the class (radius 1, depth 0.1, speed 2) and a Manning coefficient of 0.02. -/
example : ∃ (x : Vec 1) (t : ℝ), 0 < t ∧ 0 < waterDepth (paraboloid1 9.81 0.02 ⟨1, 0.1, 0, 10000, 2⟩ x t) ∧
    ¬ SolvesShallowWater 9.81 0.02 (paraboloidBathymetry1 ⟨1, 0.1, 0, 10000, 2⟩) (paraboloid1 9.81 0.02 ⟨1, 0.1, 0, 10000, 2⟩)
      x t :=
  C83_paraboloid_1d_violation 9.81 0.02 (by norm_num) (by norm_num) ⟨1, 0.1, 0, 10000, 2⟩ (by norm_num) (by norm_num)
    (by norm_num) (by norm_num)

end ShallowWaterStates
end Ryujin
