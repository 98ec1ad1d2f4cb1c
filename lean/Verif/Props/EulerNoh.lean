import Verif.Props.EulerShockFront
import Mathlib.Analysis.SpecialFunctions.Sqrt

/-!
# The Noh problem (C82)
-/

namespace Ryujin
namespace InitialStates

open Euler (State mkState)
open Spec (SolvesAt SolvesEuler gasPressure gasConserved RankineHugoniot eulerFlux)
open scoped BigOperators

variable {d : ℕ}

/-! ### Derivatives of the norm -/

theorem vnorm_sq (x : Vec d) : vnorm x ^ 2 = normSq x :=
  Real.sq_sqrt (by unfold normSq; exact Finset.sum_nonneg fun i _ => mul_self_nonneg _)

theorem hasDerivAt_vnorm (x : Vec d) (hx : 0 < vnorm x) (k : Fin d) :
    HasDerivAt (fun s => vnorm (Function.update x k s)) (x k / vnorm x) (x k) := by
  have h1 := Spec.hasDerivAt_normSq (u := fun s => Function.update x k s) (u' := fun i => if i = k then 1 else 0) (s := x k)
    fun i => Spec.hasDerivAt_coord x k i
  have hself : Function.update x k (x k) = x := Function.update_eq_self k x
  have h2 : normSq x ≠ 0 := by rw [← vnorm_sq]; positivity
  have h3 := h1.sqrt (by rw [hself]; exact h2)
  simp only [hself] at h3
  refine h3.congr_deriv ?_
  have : ∑ i, x i * (if i = k then (1 : ℝ) else 0) = x k := by simp
  rw [this]
  show 2 * x k / (2 * vnorm x) = _
  field_simp

theorem continuous_vnorm : Continuous fun x : Vec d => vnorm x := by
  unfold vnorm normSq
  fun_prop

theorem continuous_update (x : Vec d) (k : Fin d) : Continuous fun s => Function.update x k s := by
  fun_prop

/-! ### The field in terms of conserved states -/

theorem noh_outer (sys : Euler.Params) (c : NohParams) (htiny : c.tiny = 0) (x : Vec (d + 1)) (t : ℝ) (ht : 0 < t)
    (hx : c.u0 * (c.gamma - 1) / 2 * t ≤ vnorm x) :
    noh sys c x t = gasConserved sys.gamma (c.rho0 * (1 + t / vnorm x) ^ d) (fun i => -c.u0 * x i / vnorm x) c.p0 := by
  have hn : ¬ vnorm x / t < c.u0 * (c.gamma - 1) / 2 := by
    rw [not_lt, le_div_iff₀ ht]; exact hx
  unfold noh nohPrimitive
  dsimp only
  rw [if_neg fun h => hn h.2]
  dsimp only
  rw [fromInitialState_full, htiny]
  simp only [add_zero]

theorem noh_inner (sys : Euler.Params) (c : NohParams) (x : Vec (d + 1)) (t : ℝ) (ht : 0 < t)
    (hx : vnorm x < c.u0 * (c.gamma - 1) / 2 * t) :
    noh sys c x t = gasConserved sys.gamma (c.rho0 * ((c.gamma + 1) / (c.gamma - 1)) ^ (d + 1)) (fun _ => 0)
      (0.5 * c.rho0 * c.u0 * c.u0 * ((c.gamma + 1) ^ (d + 1) / (c.gamma - 1) ^ d)) := by
  have hn : vnorm x / t < c.u0 * (c.gamma - 1) / 2 := (div_lt_iff₀ ht).2 hx
  unfold noh nohPrimitive
  dsimp only
  rw [if_pos ⟨ht.ne', hn⟩]
  dsimp only
  rw [fromInitialState_full]
  simp only [zero_mul]

/-! ### The theorems -/

/-- **C82.**  Ahead of the shock the Noh state solves the Euler equations if and only if the problem is one-dimensional or
both the velocity is 1 and the pressure is 0.  (The density `ρ₀ (1 + t / r)^(dim - 1)` of the code lacks the factor `u₀` in
front of `t`; the exact solution exists for cold gas only.)  Here `tiny`, a number of size `10⁻³⁰⁷` added to the radius, is
taken to be 0. -/
theorem C82_noh_outer (sys : Euler.Params) (hg : 1 < sys.gamma) (c : NohParams) (hc : c.gamma = sys.gamma)
    (htiny : c.tiny = 0) (hr : 0 < c.rho0) (hu : 0 < c.u0) (x : Vec (d + 1)) (t : ℝ) (ht : 0 < t)
    (hx : c.u0 * (c.gamma - 1) / 2 * t < vnorm x) :
    SolvesEuler sys.gamma (noh sys c) x t ↔ d = 0 ∨ (c.u0 = 1 ∧ c.p0 = 0) := by
  have hg1 : 0 < sys.gamma - 1 := by linarith
  have hD : 0 < c.u0 * (c.gamma - 1) / 2 := by rw [hc]; positivity
  have hn : 0 < vnorm x := lt_trans (mul_pos hD ht) hx
  have hself : ∀ k, Function.update x k (x k) = x := fun k => Function.update_eq_self k x
  -- replace the field by the outer formula
  have hW : SolvesEuler sys.gamma (noh sys c) x t ↔ SolvesEuler sys.gamma (fun x t => gasConserved sys.gamma
      (c.rho0 * (1 + t / vnorm x) ^ d) (fun i => -c.u0 * x i / vnorm x) c.p0) x t := by
    have e1 : ∀ᶠ s in nhds t, noh sys c x s = gasConserved sys.gamma
        (c.rho0 * (1 + s / vnorm x) ^ d) (fun i => -c.u0 * x i / vnorm x) c.p0 := by
      filter_upwards [lt_mem_nhds ht, (continuous_const.mul continuous_id).continuousAt.eventually (gt_mem_nhds hx)]
        with s hs1 hs2
      exact noh_outer sys c htiny x s hs1 (le_of_lt hs2)
    have e2 : ∀ k, ∀ᶠ s in nhds (x k), noh sys c (Function.update x k s) t = gasConserved sys.gamma
        (c.rho0 * (1 + t / vnorm (Function.update x k s)) ^ d)
        (fun i => -c.u0 * Function.update x k s i / vnorm (Function.update x k s)) c.p0 := by
      intro k
      have : Filter.Tendsto (fun s => vnorm (Function.update x k s)) (nhds (x k)) (nhds (vnorm x)) := by
        have := (continuous_vnorm.comp (continuous_update x k)).tendsto (x k)
        rwa [Function.comp_apply, hself] at this
      filter_upwards [this.eventually (lt_mem_nhds hx)] with s hs
      exact noh_outer sys c htiny _ t ht (le_of_lt hs)
    constructor
    · intro h
      exact h.congr (e1.mono fun s hs => hs.symm) fun k => (e2 k).mono fun s hs => hs.symm
    · intro h
      exact h.congr e1 e2
  rw [hW]
  have hrk := hasDerivAt_vnorm x hn
  have hgt : HasDerivAt (fun s => c.rho0 * (1 + s / vnorm x) ^ d)
      (c.rho0 * (d * (1 + t / vnorm x) ^ (d - 1) * (1 / vnorm x))) t :=
    ((((hasDerivAt_id' t).div_const (vnorm x)).const_add 1).pow d).const_mul c.rho0
  have hgx : ∀ k, HasDerivAt (fun s => c.rho0 * (1 + t / vnorm (Function.update x k s)) ^ d)
      (c.rho0 * (d * (1 + t / vnorm x) ^ (d - 1) * (-t / vnorm x ^ 2 * (x k / vnorm x)))) (x k) := by
    intro k
    have h1 := ((hasDerivAt_const (x k) t).div (hrk k) (by rw [hself]; exact hn.ne')).const_add 1 |>.pow d |>.const_mul c.rho0
    simp only [Pi.div_apply, hself] at h1
    refine h1.congr_deriv ?_
    ring
  have hux : ∀ k i, HasDerivAt (fun s => -c.u0 * Function.update x k s i / vnorm (Function.update x k s))
      (-c.u0 * ((if i = k then 1 else 0) / vnorm x - x i * x k / vnorm x ^ 3)) (x k) := by
    intro k i
    have h1 := ((Spec.hasDerivAt_coord x k i).const_mul (-c.u0)).div (hrk k) (by rw [hself]; exact hn.ne')
    rw [hself] at h1
    refine h1.congr_deriv ?_
    field_simp
    ring
  have h0 : c.rho0 * (1 + t / vnorm x) ^ d ≠ 0 := by positivity
  rw [Spec.solvesEuler_iff_primitive hg.ne' (fun x t => c.rho0 * (1 + t / vnorm x) ^ d) (fun _ _ => c.p0)
    (fun x _ i => -c.u0 * x i / vnorm x) x t h0 hgt (fun i => hasDerivAt_const _ _) (hasDerivAt_const _ _) hgx hux
    (fun k => hasDerivAt_const _ _)]
  have hsq : ∑ k, x k * x k = vnorm x ^ 2 := (vnorm_sq x).symm
  clear hW hrk hgt hgx hux h0 hx
  generalize vnorm x = r at hsq hn ⊢
  have hdiv : ∑ k, -c.u0 * ((if k = k then (1 : ℝ) else 0) / r - x k * x k / r ^ 3) = -c.u0 * d / r := by
    simp only [if_true, ← Finset.mul_sum, Finset.sum_sub_distrib, ← Finset.sum_div, hsq]
    simp
    field_simp
    ring
  have hadv : ∑ k, -c.u0 * x k / r * (c.rho0 * (d * (1 + t / r) ^ (d - 1) * (-t / r ^ 2 * (x k / r)))) =
      c.u0 * (c.rho0 * (d * (1 + t / r) ^ (d - 1) * (t / r ^ 2))) := by
    have : ∀ k, -c.u0 * x k / r * (c.rho0 * (d * (1 + t / r) ^ (d - 1) * (-t / r ^ 2 * (x k / r)))) =
        (x k * x k) * (c.u0 * (c.rho0 * (d * (1 + t / r) ^ (d - 1) * (t / r ^ 4)))) := by
      intro k; field_simp
    simp only [this, ← Finset.sum_mul, hsq]
    field_simp
  have hmass : (c.rho0 * (d * (1 + t / r) ^ (d - 1) * (1 / r)) + ∑ k, (-c.u0 * x k / r *
      (c.rho0 * (d * (1 + t / r) ^ (d - 1) * (-t / r ^ 2 * (x k / r)))) + c.rho0 * (1 + t / r) ^ d *
      (-c.u0 * ((if k = k then (1 : ℝ) else 0) / r - x k * x k / r ^ 3)))) =
      c.rho0 * (1 + t / r) ^ (d - 1) / r * (d * (1 - c.u0)) := by
    rw [Finset.sum_add_distrib, hadv, ← Finset.mul_sum, hdiv]
    rcases d with - | d
    · simp
    · rw [Nat.add_sub_cancel, pow_succ (1 + t / r) d]
      generalize (1 + t / r) ^ d = q
      field_simp
      ring
  have hmom : ∀ i, c.rho0 * (1 + t / r) ^ d * (0 + ∑ k, -c.u0 * x k / r *
      (-c.u0 * ((if i = k then (1 : ℝ) else 0) / r - x i * x k / r ^ 3))) + 0 = 0 := by
    intro i
    have h1 : ∀ k, -c.u0 * x k / r * (-c.u0 * ((if i = k then (1 : ℝ) else 0) / r - x i * x k / r ^ 3)) =
        c.u0 ^ 2 / r ^ 2 * (if i = k then x k else 0) - c.u0 ^ 2 * x i / r ^ 4 * (x k * x k) := by
      intro k; split_ifs <;> field_simp; ring
    simp only [h1, Finset.sum_sub_distrib, ← Finset.mul_sum, hsq, Finset.sum_ite_eq, Finset.mem_univ, if_true]
    field_simp
    ring
  have hen : (0 + ∑ k, (-c.u0 * x k / r * 0 + sys.gamma * c.p0 *
      (-c.u0 * ((if k = k then (1 : ℝ) else 0) / r - x k * x k / r ^ 3)))) = -(sys.gamma * c.u0 / r) * (d * c.p0) := by
    rw [Finset.sum_add_distrib, ← Finset.mul_sum, hdiv]
    simp
    ring
  rw [hmass, hen]
  have hA : c.rho0 * (1 + t / r) ^ (d - 1) / r ≠ 0 := by positivity
  have hB : -(sys.gamma * c.u0 / r) ≠ 0 := by
    have : 0 < sys.gamma := by linarith
    exact neg_ne_zero.2 (by positivity)
  constructor
  · rintro ⟨h1, -, h3⟩
    have h1' := (mul_eq_zero.1 h1).resolve_left hA
    have h3' := (mul_eq_zero.1 h3).resolve_left hB
    by_cases hd : d = 0
    · exact Or.inl hd
    · right
      have hd' : (d : ℝ) ≠ 0 := Nat.cast_ne_zero.2 hd
      exact ⟨by linarith [(mul_eq_zero.1 h1').resolve_left hd'], (mul_eq_zero.1 h3').resolve_left hd'⟩
  · intro h
    refine ⟨?_, hmom, ?_⟩
    · rcases h with h | h
      · simp [h]
      · rw [h.1]; simp
    · rcases h with h | h
      · simp [h]
      · rw [h.2]; simp

/-- **C82.**  Behind the shock the Noh state solves the Euler equations, in all dimensions and for all parameters. -/
theorem C82_noh_inner (sys : Euler.Params) (c : NohParams) (x : Vec (d + 1)) (t : ℝ) (ht : 0 < t)
    (hx : vnorm x < c.u0 * (c.gamma - 1) / 2 * t) : SolvesEuler sys.gamma (noh sys c) x t := by
  have hself : ∀ k, Function.update x k (x k) = x := fun k => Function.update_eq_self k x
  refine SolvesAt.congr (W := fun _ _ => gasConserved sys.gamma (c.rho0 * ((c.gamma + 1) / (c.gamma - 1)) ^ (d + 1))
    (fun _ => 0) (0.5 * c.rho0 * c.u0 * c.u0 * ((c.gamma + 1) ^ (d + 1) / (c.gamma - 1) ^ d)))
    (Spec.solvesAt_const _ _ _ _) ?_ fun k => ?_
  · filter_upwards [lt_mem_nhds ht, (continuous_const.mul continuous_id).continuousAt.eventually (lt_mem_nhds hx)]
      with s hs1 hs2
    exact noh_inner sys c x s hs1 hs2
  · have : Filter.Tendsto (fun s => vnorm (Function.update x k s)) (nhds (x k)) (nhds (vnorm x)) := by
      have := (continuous_vnorm.comp (continuous_update x k)).tendsto (x k)
      rwa [Function.comp_apply, hself] at this
    filter_upwards [this.eventually (gt_mem_nhds hx)] with s hs
    exact noh_inner sys c _ t ht hs

/-- **C82.**  At the shock, the sphere of radius `D t` with `D = u₀ (γ - 1) / 2`, the states on both sides satisfy the jump
conditions with the speed `D` if the gas ahead is cold (`p₀ = 0`) and, in more than one dimension, `u₀ = 1`. -/
theorem C82_noh_shock (sys : Euler.Params) (hg : 1 < sys.gamma) (c : NohParams) (hc : c.gamma = sys.gamma)
    (htiny : c.tiny = 0) (hr : 0 < c.rho0) (hu : 0 < c.u0) (hp : c.p0 = 0) (hd : d = 0 ∨ c.u0 = 1) (t : ℝ) (ht : 0 < t)
    (x y : Vec (d + 1)) (hx : vnorm x < c.u0 * (c.gamma - 1) / 2 * t) (hy : vnorm y = c.u0 * (c.gamma - 1) / 2 * t) :
    RankineHugoniot (eulerFlux (gasPressure sys.gamma)) (fun i => y i / vnorm y) (c.u0 * (c.gamma - 1) / 2)
      (noh sys c x t) (noh sys c y t) := by
  have hg1 : 0 < sys.gamma - 1 := by linarith
  have hn : 0 < vnorm y := by rw [hy, hc]; positivity
  have hnu : normSq (fun i => y i / vnorm y) = 1 := by
    have h1 := vnorm_sq y
    unfold normSq at *
    have : ∀ i, y i / vnorm y * (y i / vnorm y) = (y i * y i) * (1 / vnorm y ^ 2) := fun i => by field_simp
    simp only [this, ← Finset.sum_mul, ← h1]
    field_simp
  have hrho : c.rho0 * (1 + t / vnorm y) ^ d = c.rho0 * ((sys.gamma + 1) / (sys.gamma - 1)) ^ d := by
    rcases hd with hd | hd
    · subst hd; simp
    · rw [hy, hc, hd]
      congr 2
      field_simp
      ring
  rw [noh_inner sys c x t ht hx, noh_outer sys c htiny y t ht hy.ge, hrho, hp, hc]
  have e1 : (fun i => -c.u0 * y i / vnorm y) = fun i => -c.u0 * (y i / vnorm y) := funext fun i => by ring
  have e2 : (fun _ : Fin (d + 1) => (0 : ℝ)) = fun i => 0 * (y i / vnorm y) := funext fun i => by ring
  rw [e1, e2, rankineHugoniot_normal hg.ne' hnu _ (by positivity) (by positivity)]
  have hq : (sys.gamma + 1) ^ (d + 1) / (sys.gamma - 1) ^ d = ((sys.gamma + 1) / (sys.gamma - 1)) ^ d * (sys.gamma + 1) := by
    rw [div_pow, pow_succ]; ring
  rw [hq, pow_succ]
  generalize ((sys.gamma + 1) / (sys.gamma - 1)) ^ d = q
  refine ⟨?_, ?_, ?_⟩
  · field_simp; ring
  · field_simp; ring
  · field_simp; ring

/-- The default parameters of the code, up to the pressure, satisfy the hypotheses in two dimensions; at time 1 the shock
of a gas with `γ = 5/3` is at radius 1/3. -/
example : ∃ (c : NohParams) (x y : Vec 2), c.gamma = 5 / 3 ∧ c.tiny = 0 ∧ 0 < c.rho0 ∧ c.u0 = 1 ∧ c.p0 = 0 ∧
    vnorm x < c.u0 * (c.gamma - 1) / 2 * 1 ∧ vnorm y = c.u0 * (c.gamma - 1) / 2 * 1 := by
  have h : ∀ r : ℝ, 0 ≤ r → vnorm (fun i : Fin 2 => if i = 0 then r else 0) = r := by
    intro r hr
    unfold vnorm normSq
    rw [Fin.sum_univ_two]
    simp [Real.sqrt_mul_self hr]
  refine ⟨⟨5 / 3, 1, 1, 0, 0⟩, fun i => if i = 0 then 1 / 10 else 0, fun i => if i = 0 then 1 / 3 else 0, rfl, rfl, one_pos, rfl,
    rfl, ?_, ?_⟩
  · rw [h _ (by norm_num)]; norm_num
  · rw [h _ (by norm_num)]; norm_num

/-- **C82 (violation).**  The reference velocity is a run-time parameter; with the value 2 the Noh state in two dimensions
does not solve the Euler equations anywhere ahead of the shock, even for cold gas. -/
theorem C82_noh_violation (sys : Euler.Params) (hg : 1 < sys.gamma) (x : Vec 2) (t : ℝ) (ht : 0 < t)
    (hx : (sys.gamma - 1) * t < vnorm x) : ¬ SolvesEuler sys.gamma (noh sys ⟨sys.gamma, 1, 2, 0, 0⟩) x t := by
  rw [C82_noh_outer sys hg _ rfl rfl one_pos two_pos x t ht (by
    show 2 * (sys.gamma - 1) / 2 * t < _
    linarith)]
  norm_num

end InitialStates
end Ryujin
