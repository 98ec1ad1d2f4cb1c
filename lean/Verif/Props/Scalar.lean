import Verif.Proofs.Scalar
import Mathlib.Analysis.Real.Pi.Bounds

/-!
# C02, C04, C06, C07, C08, C09, C10 for the scalar conservation equation
-/

namespace Ryujin
namespace Scalar

variable {dim L : ℕ}

/-- **C02 (scalar).** The returned coefficient lies in `[t_min, t_max]`. -/
theorem C02_scalar_limit_range (eps tiny : ℝ) (b : Fin L → Bounds) (U P : Fin L → State)
    (t_min t_max : Fin L → ℝ) (l : Fin L) (h : t_min l ≤ t_max l) :
    t_min l ≤ (limit eps tiny b U P t_min t_max).1 l ∧
      (limit eps tiny b U P t_min t_max).1 l ≤ t_max l :=
  limitLane_mem _ _ _ _ _ h

/-- **C02 (scalar, no needless limiting).** If `U + t_max P` is within bounds, `t_max` is returned. -/
theorem C02_scalar_limit_no_needless_limiting (eps tiny : ℝ) (b : Fin L → Bounds)
    (U P : Fin L → State) (t_min t_max : Fin L → ℝ) (l : Fin L) (h : t_min l ≤ t_max l)
    (hmin : (b l).u_min ≤ state (U l + t_max l • P l))
    (hmax : state (U l + t_max l • P l) ≤ (b l).u_max) :
    (limit eps tiny b U P t_min t_max).1 l = t_max l := by
  rw [state_add_smul] at hmin hmax
  simp [limit, limitLane, maskLt, not_lt.2 hmin, not_lt.2 hmax, h]

/-- **C04 (scalar, nonnegative upper bound).** If `u ∈ [u_min, u_max]` and `u_max ≥ 0`, every update with
a coefficient below the returned one stays in `[u_min, u_max]`.  The full statement has no hypothesis on
the sign of `u_max`; it is false for the code, see `C04_scalar_limit_violation`. -/
theorem C04_scalar_limit_bounds_partial (eps tiny : ℝ) (b : Fin L → Bounds) (U P : Fin L → State)
    (t_max : Fin L → ℝ) (l : Fin L) (heps : 0 ≤ eps) (htiny : 0 < tiny) (h0 : 0 ≤ (b l).u_max)
    (hU : (b l).u_min ≤ state (U l) ∧ state (U l) ≤ (b l).u_max)
    (s : ℝ) (hs0 : 0 ≤ s) (hs : s ≤ (limit eps tiny b U P (fun _ => 0) t_max).1 l) :
    (b l).u_min ≤ state (U l + s • P l) ∧ state (U l + s • P l) ≤ (b l).u_max := by
  have := limitLane_bounds heps htiny hU.1 hU.2 hs0 hs
  rw [max_eq_left (by linarith)] at this
  simpa using this

/-- **C04 (scalar, all signs).** For any sign of `u_max` the bounds are violated by at most
`s * eps * max(0, -u_max)`. -/
theorem C04_scalar_limit_bounds_relaxed (eps tiny : ℝ) (b : Fin L → Bounds) (U P : Fin L → State)
    (t_max : Fin L → ℝ) (l : Fin L) (heps : 0 ≤ eps) (htiny : 0 < tiny)
    (hU : (b l).u_min ≤ state (U l) ∧ state (U l) ≤ (b l).u_max)
    (s : ℝ) (hs0 : 0 ≤ s) (hs : s ≤ (limit eps tiny b U P (fun _ => 0) t_max).1 l) :
    (b l).u_min - s * (eps * max 0 (-(b l).u_max)) ≤ state (U l + s • P l) ∧
      state (U l + s • P l) ≤ (b l).u_max + s * (eps * max 0 (-(b l).u_max)) :=
  limitLane_bounds heps htiny hU.1 hU.2 hs0 hs

/-- **C04 is violated by the code for negative `u_max`**: for every `0 < eps < 1` (in particular the
machine epsilon) and every `0 < tiny ≤ 1/100` there are bounds, a state within them and a direction such
that the limited update exceeds `u_max` (because `eps * u_max` *shrinks* the denominator). -/
theorem C04_scalar_limit_violation (eps tiny : ℝ) (heps : 0 < eps) (heps1 : eps < 1)
    (htiny : 0 < tiny) (htiny1 : tiny ≤ 1 / 100) :
    ∃ (b : Bounds) (U P : State), b.u_min ≤ state U ∧ state U ≤ b.u_max ∧
      b.u_max < state (U + (limit (L := 1) eps tiny (fun _ => b) (fun _ => U) (fun _ => P)
        (fun _ => 0) (fun _ => 1)).1 0 • P) := by
  refine ⟨⟨-2, -1⟩, fun _ => -2, fun _ => 2, by norm_num [state], by norm_num [state], ?_⟩
  rw [state_add_smul]
  have hD : max (100 * tiny) (|(2 : ℝ)| + eps * -1) = 2 - eps := by
    rw [max_eq_right] <;> norm_num <;> linarith
  have hpos : 0 < 2 - eps := by linarith
  have hq : 1 / (2 - eps) < 1 := by rw [div_lt_one hpos]; linarith
  have hq2 : 1 < 2 * (1 / (2 - eps)) := by
    rw [mul_one_div, lt_div_iff₀ hpos]; linarith
  have hqp : 0 < 1 / (2 - eps) := by positivity
  have e1 : ((-1 : ℝ) - -2) * (1 / (2 - eps)) = 1 / (2 - eps) := by ring
  have hval : (limit (L := 1) eps tiny (fun _ => ⟨-2, -1⟩) (fun _ => fun _ => -2)
      (fun _ => fun _ => 2) (fun _ => 0) (fun _ => 1)).1 0 = 1 / (2 - eps) := by
    simp only [limit, limitLane, state]
    rw [hD, e1]
    rw [maskLt, maskLt, if_pos (by norm_num : (-1 : ℝ) < -2 + 1 * 2), if_neg (by
      intro h; linarith), min_eq_left hq.le, max_eq_left hqp.le]
  rw [hval]
  simp only [state]
  linarith

/-- Non-vacuity for C02/C04: `u = 1 ∈ [0, 2]`, `p = 5`: the hypotheses hold and the limiter is active. -/
example : let b : Bounds := ⟨0, 2⟩
    let U : State := fun _ => 1
    let P : State := fun _ => 5
    (0 : ℝ) ≤ b.u_max ∧ b.u_min ≤ state U ∧ state U ≤ b.u_max ∧ b.u_max < state (U + (1 : ℝ) • P) := by
  norm_num [state]

/-! ### C07 -/

/-- A value is admitted by bounds. -/
def Admits (b : Bounds) (u : ℝ) : Prop := b.u_min ≤ u ∧ u ≤ b.u_max

/-- **C07 (scalar).** `combine_bounds` admits everything either side admits, and is the smallest such
bounds; it is commutative, associative and idempotent. -/
theorem C07_scalar_combine (a b c : Bounds) :
    (∀ u, Admits a u → Admits (combineBounds a b) u) ∧
    (∀ u, Admits b u → Admits (combineBounds a b) u) ∧
    combineBounds a b = combineBounds b a ∧
    combineBounds (combineBounds a b) c = combineBounds a (combineBounds b c) ∧
    combineBounds a a = a ∧
    (c.u_min ≤ a.u_min ∧ a.u_max ≤ c.u_max → c.u_min ≤ b.u_min ∧ b.u_max ≤ c.u_max →
      c.u_min ≤ (combineBounds a b).u_min ∧ (combineBounds a b).u_max ≤ c.u_max) := by
  refine ⟨fun u hu => ⟨(min_le_left _ _).trans hu.1, hu.2.trans (le_max_left _ _)⟩,
    fun u hu => ⟨(min_le_right _ _).trans hu.1, hu.2.trans (le_max_right _ _)⟩, ?_, ?_, ?_, ?_⟩
  · simp [combineBounds, min_comm, max_comm]
  · simp [combineBounds, min_assoc, max_assoc]
  · simp [combineBounds]
  · intro h1 h2
    exact ⟨le_min h1.1 h2.1, max_le h1.2 h2.2⟩

example : Admits (combineBounds ⟨0, 1⟩ ⟨3, 4⟩) 1 := ⟨by norm_num [combineBounds], by norm_num [combineBounds]⟩

/-! ### C06 -/

/-- **C06 (scalar).** For every accumulated limiter state, relaxation widens the bounds, and with factor
zero it is exact. No sign restriction on the bounds. -/
theorem C06_scalar_bounds (dim : ℕ) (eps factor hd_i : ℝ) (st : LimiterState) (heps : 0 ≤ eps)
    (hf : 0 ≤ factor) :
    (st.relaxedBounds dim eps factor hd_i).u_min ≤ st.bounds.u_min ∧
    st.bounds.u_max ≤ (st.relaxedBounds dim eps factor hd_i).u_max ∧
    st.relaxedBounds dim eps 0 hd_i = st.bounds := by
  have hr := Euler.relaxationRadius_nonneg dim (hd := hd_i) hf
  have hq : 0 ≤ |st.u_relaxation_numerator| / (|st.u_relaxation_denominator| + eps) := by positivity
  refine ⟨?_, ?_, ?_⟩
  · simp only [LimiterState.relaxedBounds]
    refine max_le ?_ (by linarith)
    rcases le_total 0 st.bounds.u_min with h | h
    · exact (min_le_left _ _).trans (by nlinarith)
    · exact (min_le_right _ _).trans (by nlinarith)
  · simp only [LimiterState.relaxedBounds]
    refine le_min ?_ (by linarith)
    rcases le_total 0 st.bounds.u_max with h | h
    · exact le_trans (by nlinarith) (le_max_left _ _)
    · exact le_trans (by nlinarith) (le_max_right _ _)
  · have h0 : Euler.relaxationRadius dim 0 hd_i = 0 := by simp [Euler.relaxationRadius]
    simp only [LimiterState.relaxedBounds, h0]
    have h1 : st.bounds.u_min - 2 * (|st.u_relaxation_numerator| / (|st.u_relaxation_denominator| + eps))
        ≤ st.bounds.u_min := by linarith
    have h2 : st.bounds.u_max ≤
        st.bounds.u_max + 2 * (|st.u_relaxation_numerator| / (|st.u_relaxation_denominator| + eps)) := by
      linarith
    simp [h1, h2]

/-! ### C08 -/

/-- **C08 (scalar).** `0 ≤ alpha_i ≤ 1` for every stencil. -/
theorem C08_scalar_indicator (tiny evc_factor hd_i u_i : ℝ) (f_i : Vec dim)
    (row : List (IndicatorEntry dim)) (htiny : 0 ≤ tiny) (hevc : 0 ≤ evc_factor) :
    0 ≤ indicator tiny evc_factor hd_i u_i f_i row ∧ indicator tiny evc_factor hd_i u_i f_i row ≤ 1 := by
  unfold indicator IndicatorState.alpha
  refine ⟨le_min zero_le_one ?_, min_le_left _ _⟩
  apply mul_nonneg hevc
  apply div_nonneg (abs_nonneg _)
  have : ∀ x : ℝ, 0 ≤ max x (100 * tiny) := fun x => le_trans (by positivity) (le_max_right _ _)
  exact add_nonneg (by positivity) (this _)

/-- The regularised denominator never vanishes, so that the quotient of the indicator is a genuine
quotient. -/
theorem C08_scalar_indicator_denominator_pos (tiny hd_i : ℝ) (st : IndicatorState dim)
    (htiny : 0 < tiny) :
    0 < |st.left| + |st.right| + max (hd_i * |st.u_abs_max|) (100 * tiny) := by
  have : (0 : ℝ) < max (hd_i * |st.u_abs_max|) (100 * tiny) :=
    lt_of_lt_of_le (by positivity) (le_max_right _ _)
  positivity

/-- **C08 (scalar, constant states).** On a stencil whose fluxes all equal the flux of the row the
indicator vanishes, i.e. no viscosity is added. -/
theorem C08_scalar_indicator_constant (tiny evc_factor hd_i u_i : ℝ) (f_i : Vec dim)
    (row : List (IndicatorEntry dim)) (hrow : ∀ e ∈ row, e.f_j = f_i) :
    indicator tiny evc_factor hd_i u_i f_i row = 0 := by
  have key : ∀ (row : List (IndicatorEntry dim)) (st : IndicatorState dim), st.f_i = f_i →
      (∀ e ∈ row, e.f_j = f_i) → st.left = st.right →
      (row.foldl IndicatorState.accumulate st).left = (row.foldl IndicatorState.accumulate st).right := by
    intro row
    induction row with
    | nil => intro st _ _ h; exact h
    | cons a l ih =>
      intro st hf hr h
      rw [List.foldl_cons]
      apply ih
      · simp [IndicatorState.accumulate, hf]
      · intro e he; exact hr e (List.mem_cons_of_mem _ he)
      · simp [IndicatorState.accumulate, hf, h, hr a List.mem_cons_self]
  unfold indicator IndicatorState.alpha
  have := key row (IndicatorState.reset u_i f_i) rfl hrow rfl
  simp [this]

example : indicator (dim := 1) 1 1 1 0 (fun _ => 0) [⟨1, fun _ => 1, fun _ => 1⟩] = 1 / 101 := by
  norm_num [indicator, IndicatorState.accumulate, IndicatorState.reset, IndicatorState.alpha,
    kruzkovEntropyDerivative, dot]

/-! ### C09 -/

/-- **C09 (scalar).** The wave speed estimate is nonnegative. -/
theorem C09_scalar_nonneg (fl : Flux dim) (rp : RiemannParams) (draws : List ℝ) (u_i u_j : ℝ)
    (n : Vec dim) : 0 ≤ riemann fl rp draws u_i u_j n := by
  refine le_trans ?_ (le_riemann fl rp draws u_i u_j n)
  split
  · split
    · exact div_nonneg (abs_nonneg _) (le_max_of_le_left (abs_nonneg _))
    · exact abs_nonneg _
  · exact le_max_of_le_right (abs_nonneg _)

/-- **C09 (scalar).** The non-greedy estimate dominates both characteristic speeds `|f'(u_i)·n|` and
`|f'(u_j)·n|`. -/
theorem C09_scalar_characteristic (fl : Flux dim) (rp : RiemannParams) (draws : List ℝ) (u_i u_j : ℝ)
    (n : Vec dim) (hg : rp.use_greedy_wavespeed = false) :
    |∑ k, fl.gradient u_i k * n k| ≤ riemann fl rp draws u_i u_j n ∧
      |∑ k, fl.gradient u_j k * n k| ≤ riemann fl rp draws u_i u_j n := by
  have h := le_riemann fl rp draws u_i u_j n
  simp only [hg, Bool.false_eq_true, if_false] at h
  exact ⟨((le_max_right _ _).trans (le_max_left _ _)).trans h, (le_max_right _ _).trans h⟩

/-- **C09 (scalar, Roe speed).** For every flux and all settings the estimate dominates the Roe speed of
states that are at least `2 * delta` apart. -/
theorem C09_scalar_roe_separated (fl : Flux dim) (rp : RiemannParams) (draws : List ℝ) (u_i u_j : ℝ)
    (n : Vec dim) (hsep : 2 * fl.delta ≤ |u_i - u_j|) :
    |(∑ k, fl.value u_i k * n k) - ∑ k, fl.value u_j k * n k|
      ≤ riemann fl rp draws u_i u_j n * |u_i - u_j| := by
  rcases eq_or_lt_of_le (abs_nonneg (u_i - u_j)) with h0 | hpos
  · have : u_i = u_j := sub_eq_zero.1 (abs_eq_zero.1 h0.symm)
    subst this; simp
  have h := le_riemann fl rp draws u_i u_j n
  rw [max_eq_left hsep] at h
  have h2 : |dot (fluxFunction fl u_i) n - dot (fluxFunction fl u_j) n| / |u_i - u_j|
      ≤ riemann fl rp draws u_i u_j n := by
    refine le_trans ?_ h
    split
    · exact le_rfl
    · exact (le_max_left _ _).trans (le_max_left _ _)
  rwa [div_le_iff₀ hpos] at h2

/-- **C09 (scalar, convex or concave fluxes).** If the flux in direction `n` is differentiable with
monotone (or antitone) derivative `f'·n` – the case the code documents as guaranteed – the non-greedy
estimate dominates the Roe speed for all pairs of states, whatever `delta`. -/
theorem C09_scalar_roe_convex (fl : Flux dim) (rp : RiemannParams) (draws : List ℝ) (u_i u_j : ℝ)
    (n : Vec dim) (hg : rp.use_greedy_wavespeed = false)
    (hderiv : ∀ u, HasDerivAt (fun v => ∑ k, fl.value v k * n k) (∑ k, fl.gradient u k * n k) u)
    (hconv : Monotone (fun u => ∑ k, fl.gradient u k * n k) ∨
      Antitone (fun u => ∑ k, fl.gradient u k * n k)) :
    |(∑ k, fl.value u_i k * n k) - ∑ k, fl.value u_j k * n k|
      ≤ riemann fl rp draws u_i u_j n * |u_i - u_j| := by
  have hch := C09_scalar_characteristic fl rp draws u_i u_j n hg
  set lam := riemann fl rp draws u_i u_j n
  have main : ∀ a b : ℝ, a < b → |∑ k, fl.gradient a k * n k| ≤ lam →
      |∑ k, fl.gradient b k * n k| ≤ lam →
      |(∑ k, fl.value b k * n k) - ∑ k, fl.value a k * n k| ≤ lam * |b - a| := by
    intro a b hab ha hb
    obtain ⟨c, hc, hceq⟩ := exists_hasDerivAt_eq_slope (fun v => ∑ k, fl.value v k * n k)
      (fun u => ∑ k, fl.gradient u k * n k) hab
      (fun x _ => (hderiv x).continuousAt.continuousWithinAt) (fun x _ => hderiv x)
    have hpos : 0 < b - a := sub_pos.2 hab
    have hcl : |∑ k, fl.gradient c k * n k| ≤ lam := by
      rw [abs_le] at ha hb ⊢
      rcases hconv with hm | hm
      · have h1 := hm hc.1.le; have h2 := hm hc.2.le
        exact ⟨ha.1.trans h1, h2.trans hb.2⟩
      · have h1 := hm hc.1.le; have h2 := hm hc.2.le
        exact ⟨hb.1.trans h2, h1.trans ha.2⟩
    rw [abs_of_pos hpos]
    rw [hceq, abs_div, abs_of_pos hpos, div_le_iff₀ hpos] at hcl
    exact hcl
  rcases lt_trichotomy u_i u_j with h | h | h
  · have := main u_i u_j h hch.1 hch.2
    rwa [abs_sub_comm, abs_sub_comm u_i u_j]
  · subst h; simp
  · exact main u_j u_i h hch.2 hch.1

/-- The Burgers flux meets the hypotheses of `C09_scalar_roe_convex` in every direction. -/
theorem C09_scalar_burgers_convex (delta : ℝ) (n : Vec dim) :
    (∀ u, HasDerivAt (fun v => ∑ k, (burgers dim delta).value v k * n k)
      (∑ k, (burgers dim delta).gradient u k * n k) u) ∧
    (Monotone (fun u => ∑ k, (burgers dim delta).gradient u k * n k) ∨
      Antitone (fun u => ∑ k, (burgers dim delta).gradient u k * n k)) := by
  simp only [burgers, ← Finset.mul_sum]
  refine ⟨fun u => ?_, ?_⟩
  · have h : HasDerivAt (fun v : ℝ => (1 / 2) * v * v) (1 / 2 * u + 1 / 2 * u) u := by
      have := ((hasDerivAt_id' u).const_mul (1 / 2 : ℝ)).mul (hasDerivAt_id' u)
      exact this.congr_deriv (by ring)
    exact (h.mul_const _).congr_deriv (by ring)
  · rcases le_total 0 (∑ k, n k) with h | h
    · left; intro a b hab; exact mul_le_mul_of_nonneg_right hab h
    · right; intro a b hab; exact mul_le_mul_of_nonpos_right hab h

/-- **C09 fails for non-convex fluxes below the regularisation threshold.** For the KPP flux shipped with
the code, for every `delta > 0` there are two states closer than `2 * delta` and a unit direction for
which the (default) estimate is strictly below the Roe speed, so that the bar state leaves the interval
spanned by the two states. -/
theorem C09_scalar_kpp_violation (delta : ℝ) (hd : 0 < delta) :
    ∃ (u_i u_j : ℝ) (n : Vec 2), (∑ k, n k * n k = 1) ∧
      riemann (kpp delta) ⟨false, false⟩ [] u_i u_j n * |u_i - u_j|
        < |(∑ k, (kpp delta).value u_i k * n k) - ∑ k, (kpp delta).value u_j k * n k| := by
  set x := min (delta / 2) 1 with hx
  have hx0 : 0 < x := lt_min (by linarith) one_pos
  have hxd : x < delta := lt_of_le_of_lt (min_le_left _ _) (by linarith)
  have hx1 : x < Real.pi / 2 := lt_of_le_of_lt (min_le_right _ _) (by linarith [Real.pi_gt_three])
  refine ⟨-x, x, ![1, 0], by simp, ?_⟩
  have hs : 0 < Real.sin x := Real.sin_pos_of_pos_of_lt_pi hx0 (by linarith)
  have hc : 0 < Real.cos x := Real.cos_pos_of_mem_Ioo ⟨by linarith, hx1⟩
  have htan : x * Real.cos x < Real.sin x := by
    have := Real.lt_tan hx0 hx1
    rwa [Real.tan_eq_sin_div_cos, lt_div_iff₀ hc] at this
  have habs : |(-x) - x| = 2 * x := by rw [abs_of_neg (by linarith)]; ring
  have hf : ((∑ k, (kpp delta).value (-x) k * (![1, 0] : Vec 2) k) -
      ∑ k, (kpp delta).value x k * (![1, 0] : Vec 2) k) = -(2 * Real.sin x) := by
    simp [kpp, Fin.sum_univ_two]; ring
  rw [hf, abs_neg, abs_of_pos (by positivity : 0 < 2 * Real.sin x), habs]
  have hr : riemann (kpp delta) ⟨false, false⟩ [] (-x) x ![1, 0]
      = max (max (2 * Real.sin x / (2 * delta)) (Real.cos x)) (Real.cos x) := by
    have e1 : dot (fluxFunction (kpp delta) (-x)) ![1, 0] - dot (fluxFunction (kpp delta) x) ![1, 0]
        = -(2 * Real.sin x) := hf
    have e2 : dot (fluxGradientFunction (kpp delta) (-x)) ![1, 0] = Real.cos x := by
      simp [dot, fluxGradientFunction, kpp, Fin.sum_univ_two]
    have e3 : dot (fluxGradientFunction (kpp delta) x) ![1, 0] = Real.cos x := by
      simp [dot, fluxGradientFunction, kpp, Fin.sum_univ_two]
    have e4 : max |(-x) - x| (2 * (kpp delta).delta) = 2 * delta := by
      rw [habs]; exact max_eq_right (by simp only [kpp]; linarith)
    simp only [riemann, Bool.false_eq_true, if_false, List.foldl_nil]
    rw [e1, e2, e3, e4, abs_neg, abs_of_pos (by positivity : 0 < 2 * Real.sin x), abs_of_pos hc]
  rw [hr]
  have h1 : max (max (2 * Real.sin x / (2 * delta)) (Real.cos x)) (Real.cos x) < Real.sin x / x := by
    have hcx : Real.cos x < Real.sin x / x := by rw [lt_div_iff₀ hx0]; linarith
    refine max_lt (max_lt ?_ hcx) hcx
    rw [mul_div_mul_left _ _ (by norm_num : (2:ℝ) ≠ 0)]
    exact div_lt_div_of_pos_left hs hx0 hxd
  calc _ < Real.sin x / x * (2 * x) := by
        apply mul_lt_mul_of_pos_right h1; positivity
    _ = 2 * Real.sin x := by field_simp

/-- **C09 (scalar, entropy slopes).** With averaged entropies enabled the estimate dominates the two
slopes of the Kružkov entropy inequality at the midpoint `k`, in the regularised form of the code. -/
theorem C09_scalar_entropy (fl : Flux dim) (rp : RiemannParams) (draws : List ℝ) (u_i u_j : ℝ)
    (n : Vec dim) (ha : rp.use_averaged_entropy = true) (hd : 0 < fl.delta) :
    let k := (u_i + u_j) / 2
    let f := fun u => ∑ c, fl.value u c * n c
    let q := fun u => (if u ≥ k then 1 else -1) * (f u - f k)
    |q u_j - q u_i + (f u_j - f u_i)| ≤
        riemann fl rp draws u_i u_j n * (|(|k - u_i| + |k - u_j|) + (u_i + u_j - 2 * k)| + 2 * fl.delta) ∧
    |q u_j - q u_i - (f u_j - f u_i)| ≤
        riemann fl rp draws u_i u_j n * (|(|k - u_i| + |k - u_j|) - (u_i + u_j - 2 * k)| + 2 * fl.delta) := by
  intro k f q
  have hk : (1 / 2) * (u_i + u_j) = k := by simp only [k]; ring
  have h : ∃ lam, enforceEntropy fl n u_i u_j (dot (fluxFunction fl u_i) n)
      (dot (fluxFunction fl u_j) n) lam k ≤ riemann fl rp draws u_i u_j n := by
    unfold riemann
    simp only [ha, if_true]
    rw [hk]
    exact ⟨_, le_foldl_enforce fl n u_i u_j _ _ (fun factor => factor * u_i + (1 - factor) * u_j) draws _⟩
  obtain ⟨lam, h⟩ := h
  have h1 : |q u_j - q u_i + (f u_j - f u_i)| / (|(|k - u_i| + |k - u_j|) + (u_i + u_j - 2 * k)| + 2 * fl.delta)
      ≤ riemann fl rp draws u_i u_j n := ((le_max_right _ _).trans (le_max_left _ _)).trans h
  have h2 : |q u_j - q u_i - (f u_j - f u_i)| / (|(|k - u_i| + |k - u_j|) - (u_i + u_j - 2 * k)| + 2 * fl.delta)
      ≤ riemann fl rp draws u_i u_j n := (le_max_right _ _).trans h
  rw [div_le_iff₀ (by positivity)] at h1 h2
  exact ⟨h1, h2⟩

/-! ### C10 -/

/-- **C10 (scalar).** Swapping the states and reversing the direction gives the same wave speed (with the
random Kružkov parameters mirrored accordingly; with the default of no random entropies the list is
empty). -/
theorem C10_scalar_swap (fl : Flux dim) (rp : RiemannParams) (draws : List ℝ) (u_i u_j : ℝ)
    (n : Vec dim) :
    riemann fl rp (draws.map (1 - ·)) u_j u_i (-n) = riemann fl rp draws u_i u_j n := by
  unfold riemann
  simp only [dot_neg_right, foldl_enforce_swap]
  have e1 : ∀ a b : ℝ, |-a - -b| = |b - a| := fun a b => by congr 1; ring
  have e2 : ∀ a b : ℝ, |1 / 2 * (-a + -b)| = |1 / 2 * (b + a)| := fun a b => by
    rw [show 1 / 2 * (-a + -b) = -(1 / 2 * (b + a)) by ring, abs_neg]
  simp only [abs_sub_comm u_j u_i, e1, e2, abs_neg]
  congr 1
  rw [show (1 / 2 : ℝ) * (u_j + u_i) = 1 / 2 * (u_i + u_j) by ring, enforceEntropy_swap]
  simp only [max_assoc, max_comm |dot (fluxGradientFunction fl u_j) n|]

example : riemann (burgers 1 (1 / 4)) ⟨false, true⟩ [1 / 3] 0 2 (fun _ => 1) ≠ 0 := by
  have := (C09_scalar_characteristic (burgers 1 (1 / 4)) ⟨false, true⟩ [1 / 3] 0 2 (fun _ => 1) rfl).2
  intro h
  rw [h] at this
  norm_num [burgers] at this

end Scalar
end Ryujin
