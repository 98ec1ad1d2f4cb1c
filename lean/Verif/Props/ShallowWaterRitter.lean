import Verif.Props.ShallowWaterParaboloid

/-!
# The dam break of Ritter (C83)
-/

namespace Ryujin
namespace ShallowWaterStates

open ShallowWater (State mkState waterDepth momentum)
open Spec (SolvesShallowWater waterState)
open scoped BigOperators

variable {d : ℕ}

theorem continuous_planar {X : Type*} [TopologicalSpace X] {h m : X → ℝ} (hh : Continuous h) (hm : Continuous m) :
    Continuous fun x => (planar (h x) (m x) : State (d + 1)) := by
  unfold planar mkState
  refine continuous_pi fun i => ?_
  refine Fin.cases ?_ (fun i => ?_) i
  · simpa using hh
  · simp only [Fin.cons_succ]
    split_ifs
    · exact hm
    · exact continuous_const

/-- A planar state with velocity `v` in the first direction. -/
theorem planar_eq (h v : ℝ) : (planar h (h * v) : State (d + 1)) = waterState h fun i => if i = 0 then v else 0 := by
  unfold planar waterState
  congr 1
  funext i
  by_cases hi : i = 0 <;> simp [hi]

/-- Planar flow: the equations for depth and first velocity component. -/
theorem planar_solves_iff (g nm : ℝ) (z : Vec (d + 1) → ℝ) (h v : ℝ → ℝ → ℝ) (x : Vec (d + 1)) (t : ℝ)
    {ht vt hx vx zx : ℝ} (h0 : h (x 0) t ≠ 0) (hht : HasDerivAt (fun s => h (x 0) s) ht t)
    (hvt : HasDerivAt (fun s => v (x 0) s) vt t) (hhx : HasDerivAt (fun y => h y t) hx (x 0))
    (hvx : HasDerivAt (fun y => v y t) vx (x 0))
    (hzx : ∀ k, HasDerivAt (fun s => z (Function.update x k s)) (if k = 0 then zx else 0) (x k)) :
    SolvesShallowWater g nm z (fun x t => waterState (h (x 0) t) fun i => if i = 0 then v (x 0) t else 0) x t ↔
      ht + (v (x 0) t * hx + h (x 0) t * vx) = 0 ∧
      vt + v (x 0) t * vx + g * (hx + zx) + g * nm ^ 2 * |v (x 0) t| / h (x 0) t ^ ((4 : ℝ) / 3) * v (x 0) t = 0 := by
  have hupd : ∀ k : Fin (d + 1), k ≠ 0 → ∀ s, Function.update x k s 0 = x 0 := fun k hk s => by
    rw [Function.update_of_ne (Ne.symm hk)]
  rw [Spec.solvesShallowWater_iff g nm z (fun x t => h (x 0) t) (fun x t i => if i = 0 then v (x 0) t else 0) x t
    (ht := ht) (vt := fun i => if i = 0 then vt else 0) (hx := fun k => if k = 0 then hx else 0)
    (vx := fun k i => if k = 0 then (if i = 0 then vx else 0) else 0) (zx := fun k => if k = 0 then zx else 0) h0 hht ?_ ?_ ?_ hzx]
  · have hv : vnorm (fun i : Fin (d + 1) => if i = 0 then v (x 0) t else 0) = |v (x 0) t| := by
      unfold vnorm normSq
      rw [Finset.sum_eq_single 0 (fun i _ hi => by simp [hi]) (by simp)]
      simp [Real.sqrt_mul_self_eq_abs]
    have hm : (∑ k : Fin (d + 1), ((if k = 0 then v (x 0) t else 0) * (if k = 0 then hx else 0) +
        h (x 0) t * (if k = 0 then (if k = 0 then vx else 0) else 0))) = v (x 0) t * hx + h (x 0) t * vx := by
      rw [Finset.sum_eq_single 0 (fun i _ hi => by simp [hi]) (by simp)]
      simp
    have hc : ∀ i : Fin (d + 1), (∑ k : Fin (d + 1), (if k = 0 then v (x 0) t else 0) *
        (if k = 0 then (if i = 0 then vx else 0) else 0)) = if i = 0 then v (x 0) t * vx else 0 := by
      intro i
      rw [Finset.sum_eq_single 0 (fun i _ hi => by simp [hi]) (by simp)]
      simp
    rw [hv, hm]
    refine and_congr_right fun _ => ⟨fun hall => ?_, fun h1 i => ?_⟩
    · have := hall 0
      rw [hc] at this
      simpa using this
    · rw [hc]
      by_cases hi : i = 0
      · simpa [hi] using h1
      · simp [hi]
  · intro i
    split_ifs
    · exact hvt
    · exact hasDerivAt_const _ _
  · intro k
    by_cases hk : k = 0
    · subst hk
      simpa using hhx
    · simp only [hk, if_false]
      exact (hasDerivAt_const (x k) (h (x 0) t)).congr_of_eventuallyEq
        (Filter.Eventually.of_forall fun s => by dsimp only; rw [hupd k hk])
  · intro k i
    by_cases hi : i = 0
    · by_cases hk : k = 0
      · subst hk
        simpa [hi] using hvx
      · simp only [hk, hi, if_false, if_true]
        exact (hasDerivAt_const (x k) (v (x 0) t)).congr_of_eventuallyEq
          (Filter.Eventually.of_forall fun s => by dsimp only; rw [hupd k hk])
    · simp only [hi, if_false, ite_self]
      exact hasDerivAt_const _ _

theorem eventually_update_zero {x : Vec (d + 1)} {p : ℝ → Prop} (hp : ∀ᶠ s in nhds (x 0), p s) (k : Fin (d + 1)) :
    ∀ᶠ s in nhds (x k), p (Function.update x k s 0) := by
  by_cases hk : k = 0
  · subst hk
    simpa using hp
  · refine Filter.Eventually.of_forall fun s => ?_
    rw [Function.update_of_ne (Ne.symm hk)]
    exact hp.self_of_nhds

/-- **C83.**  Dam break of Ritter: upstream of the fan, in the fan and on the dry ground the state solves the shallow water
equations without bottom topography and without friction, with friction it does not in the fan; at each time the state depends
continuously on the position, so that no jump conditions have to be met. -/
theorem C83_ritter (g t0 L nm : ℝ) (hg : 0 < g) (hL : 0 < L) (x : Vec (d + 1)) (t : ℝ) (ht : 0 < t + t0) :
    let a := Real.sqrt (g * L)
    (x 0 < -(t + t0) * a → SolvesShallowWater g nm (fun _ => 0) (ritter g t0 L) x t) ∧
    (-(t + t0) * a < x 0 → x 0 < 2 * (t + t0) * a →
      (SolvesShallowWater g nm (fun _ => 0) (ritter g t0 L) x t ↔ nm = 0)) ∧
    (2 * (t + t0) * a < x 0 → SolvesShallowWater g nm (fun _ => 0) (ritter g t0 L) x t) ∧
    Continuous (fun y : Vec (d + 1) => ritter g t0 L y t) ∧ 0 ≤ waterDepth (ritter g t0 L x t) := by
  intro a
  have ha : 0 < a := Real.sqrt_pos.2 (by positivity)
  have ha2 : a * a = g * L := Real.mul_self_sqrt (by positivity)
  have hAB : -(t + t0) * a < 2 * (t + t0) * a := by nlinarith [mul_pos ht ha]
  have hz : ∃ zx : Vec (d + 1), ∀ k, HasDerivAt (fun _ : ℝ => (0 : ℝ)) (zx k) (x k) :=
    ⟨fun _ => 0, fun k => hasDerivAt_const _ _⟩
  have hdef : ∀ (y : Vec (d + 1)) s, ritter g t0 L y s = if y 0 ≤ -(s + t0) * a then planar L 0
      else if y 0 ≤ 2 * (s + t0) * a then
        planar (4 / (9 * g) * (a - y 0 / (2 * (s + t0))) * (a - y 0 / (2 * (s + t0))))
          (4 / (9 * g) * (a - y 0 / (2 * (s + t0))) * (a - y 0 / (2 * (s + t0))) * (2 / 3 * (y 0 / (s + t0) + a)))
      else planar 0 0 := fun y s => rfl
  have hcA : Continuous fun s => -(s + t0) * a := by fun_prop
  have hcB : Continuous fun s => 2 * (s + t0) * a := by fun_prop
  refine ⟨fun hx => ?_, fun hx1 hx2 => ?_, fun hx => ?_, ?_, ?_⟩
  · have h1 : (planar L 0 : State (d + 1)) = waterState L fun i => if i = 0 then 0 else 0 := by
      rw [← planar_eq, mul_zero]
    rw [Spec.SolvesShallowWater.congr (W := fun _ _ => waterState L fun i => if i = 0 then 0 else 0)
      ((continuous_const.continuousAt.eventually_lt hcA.continuousAt hx).mono fun s hs => by
        rw [hdef, if_pos (le_of_lt hs), h1])
      fun k => (eventually_update_zero (p := fun y => y < -(t + t0) * a) (gt_mem_nhds hx) k).mono fun s hs => by
        rw [hdef, if_pos (le_of_lt hs), h1]]
    rw [planar_solves_iff g nm (fun _ => 0) (fun _ _ => L) (fun _ _ => 0) x t hL.ne' (hasDerivAt_const _ _)
      (hasDerivAt_const _ _) (hasDerivAt_const _ _) (hasDerivAt_const _ _) (zx := 0)
      fun k => by simpa using hasDerivAt_const _ _]
    simp
  · have e1 : ∀ᶠ s in nhds t, -(s + t0) * a < x 0 := hcA.continuousAt.eventually_lt continuous_const.continuousAt hx1
    have e2 : ∀ᶠ s in nhds t, x 0 < 2 * (s + t0) * a := continuous_const.continuousAt.eventually_lt hcB.continuousAt hx2
    have e3 : ∀ᶠ s in nhds (x 0), -(t + t0) * a < s := lt_mem_nhds hx1
    have e4 : ∀ᶠ s in nhds (x 0), s < 2 * (t + t0) * a := gt_mem_nhds hx2
    set H : ℝ → ℝ → ℝ := fun y s => 4 / (9 * g) * (a - y / (2 * (s + t0))) * (a - y / (2 * (s + t0))) with hH
    set V : ℝ → ℝ → ℝ := fun y s => 2 / 3 * (y / (s + t0) + a) with hV
    rw [Spec.SolvesShallowWater.congr (W := fun x t => waterState (H (x 0) t) fun i => if i = 0 then V (x 0) t else 0)
      ((e1.and e2).mono fun s hs => by rw [hdef, if_neg (not_le.2 hs.1), if_pos hs.2.le, planar_eq])
      fun k => ((eventually_update_zero e3 k).and (eventually_update_zero e4 k)).mono fun s hs => by
        rw [hdef, if_neg (not_le.2 hs.1), if_pos hs.2.le, planar_eq]]
    have htmp : 0 < a - x 0 / (2 * (t + t0)) := by
      rw [sub_pos, div_lt_iff₀ (by positivity)]
      linarith
    have hpos : 0 < H (x 0) t := by
      simp only [hH]
      positivity
    have hvpos : 0 < V (x 0) t := by
      simp only [hV]
      have : -a < x 0 / (t + t0) := by
        rw [lt_div_iff₀ ht]
        linarith
      linarith
    have dt : HasDerivAt (fun s => s + t0) 1 t := (hasDerivAt_id' t).add_const t0
    have dinv : HasDerivAt (fun s => x 0 / (s + t0)) (-(x 0) / (t + t0) ^ 2) t := by
      have := dt.fun_inv ht.ne'
      have h2 := this.const_mul (x 0)
      refine (h2.congr_deriv ?_).congr_of_eventuallyEq (Filter.Eventually.of_forall fun s => ?_)
      · ring
      · dsimp only; rw [div_eq_mul_inv]
    have dtmp : HasDerivAt (fun s => a - x 0 / (2 * (s + t0))) (x 0 / (2 * (t + t0) ^ 2)) t := by
      have := (dinv.div_const 2).const_sub a
      refine (this.congr_deriv ?_).congr_of_eventuallyEq (Filter.Eventually.of_forall fun s => ?_)
      · field_simp
      · dsimp only; rw [div_div, mul_comm 2]
    have dtmpx : HasDerivAt (fun y => a - y / (2 * (t + t0))) (-(1 / (2 * (t + t0)))) (x 0) :=
      ((hasDerivAt_id' (x 0)).div_const _).const_sub a
    rw [planar_solves_iff g nm (fun _ => 0) H V x t (zx := 0) hpos.ne' ((dtmp.const_mul (4 / (9 * g))).mul dtmp)
      ((dinv.add_const a).const_mul (2 / 3)) ((dtmpx.const_mul (4 / (9 * g))).mul dtmpx)
      ((((hasDerivAt_id' (x 0)).div_const (t + t0)).add_const a).const_mul (2 / 3))
      fun k => by simpa using hasDerivAt_const _ _]
    have hmass : 4 / (9 * g) * (x 0 / (2 * (t + t0) ^ 2)) * (a - x 0 / (2 * (t + t0))) +
        4 / (9 * g) * (a - x 0 / (2 * (t + t0))) * (x 0 / (2 * (t + t0) ^ 2)) +
        (V (x 0) t * (4 / (9 * g) * -(1 / (2 * (t + t0))) * (a - x 0 / (2 * (t + t0))) +
          4 / (9 * g) * (a - x 0 / (2 * (t + t0))) * -(1 / (2 * (t + t0)))) + H (x 0) t * (2 / 3 * (1 / (t + t0)))) = 0 := by
      simp only [hH, hV]
      field_simp
      ring
    have hmom : 2 / 3 * (-(x 0) / (t + t0) ^ 2) + V (x 0) t * (2 / 3 * (1 / (t + t0))) +
        g * (4 / (9 * g) * -(1 / (2 * (t + t0))) * (a - x 0 / (2 * (t + t0))) +
          4 / (9 * g) * (a - x 0 / (2 * (t + t0))) * -(1 / (2 * (t + t0))) + 0) = 0 := by
      simp only [hV]
      field_simp
      ring
    rw [hmom, zero_add]
    have hHp : 0 < H (x 0) t ^ ((4 : ℝ) / 3) := Real.rpow_pos_of_pos hpos _
    constructor
    · rintro ⟨-, h2⟩
      rw [abs_of_pos hvpos] at h2
      by_contra hn
      have : 0 < g * nm ^ 2 * V (x 0) t / H (x 0) t ^ ((4 : ℝ) / 3) * V (x 0) t := by positivity
      exact this.ne' h2
    · intro hn
      exact ⟨hmass, by simp [hn]⟩
  · have h1 : (planar 0 0 : State (d + 1)) = waterState 0 0 := by
      have := planar_eq (d := d) 0 0
      rw [mul_zero] at this
      rw [this]
      simp [waterState]
    rw [Spec.SolvesShallowWater.congr (W := fun _ _ => waterState 0 0)
      (((hcB.continuousAt.eventually_lt continuous_const.continuousAt hx).and
        (hcA.continuousAt.eventually_lt continuous_const.continuousAt (hAB.trans hx))).mono fun s hs => by
        rw [hdef, if_neg (not_le.2 hs.2), if_neg (not_le.2 hs.1), h1])
      fun k => (eventually_update_zero (p := fun y => 2 * (t + t0) * a < y) (lt_mem_nhds hx) k).mono fun s hs => by
        rw [hdef, if_neg (not_le.2 (hAB.trans hs)), if_neg (not_le.2 hs), h1]]
    exact Spec.dry_solves g nm _ x t hz
  · have hc0 : Continuous fun y : Vec (d + 1) => y 0 := continuous_apply 0
    have htmp : Continuous fun y : Vec (d + 1) => a - y 0 / (2 * (t + t0)) := by fun_prop
    simp only [hdef]
    refine Continuous.if_le (continuous_planar continuous_const continuous_const) ?_ hc0 continuous_const ?_
    · refine Continuous.if_le (continuous_planar (by fun_prop) (by fun_prop))
        (continuous_planar continuous_const continuous_const) hc0 continuous_const ?_
      intro y hy
      have : a - y 0 / (2 * (t + t0)) = 0 := by rw [hy]; field_simp; ring
      rw [this]
      simp
    · intro y hy
      rw [if_pos (by rw [hy]; exact hAB.le)]
      have h1 : a - y 0 / (2 * (t + t0)) = 3 / 2 * a := by rw [hy]; field_simp; ring
      have h2 : y 0 / (t + t0) + a = 0 := by rw [hy]; field_simp; ring
      rw [h1, h2]
      have : 4 / (9 * g) * (3 / 2 * a) * (3 / 2 * a) = L := by
        field_simp
        linear_combination 36 * ha2
      rw [this]
      simp
  · rw [hdef]
    split_ifs
    · exact hL.le
    · show 0 ≤ 4 / (9 * g) * (a - x 0 / (2 * (t + t0))) * (a - x 0 / (2 * (t + t0)))
      rw [mul_assoc]
      have := mul_self_nonneg (a - x 0 / (2 * (t + t0)))
      positivity
    · exact le_refl _

/-- Non-vacuity: the three regions of the default configuration (initial time 0.1, depth 0.005) at time 0 with `g = 200`. -/
example : Real.sqrt (200 * 0.005) = 1 ∧ (-1 : ℝ) < -(0 + 0.1) * 1 - 0.5 ∧ -(0 + 0.1) * 1 < (0 : ℝ) ∧ (0 : ℝ) < 2 * (0 + 0.1) * 1 := by
  norm_num

end ShallowWaterStates
end Ryujin
