import Verif.Props.Scalar
import Verif.Model.ScalarFlux
import Mathlib.Analysis.SpecialFunctions.Trigonometric.Deriv
import Mathlib.Analysis.Calculus.MeanValue
import Mathlib.Algebra.BigOperators.Field
import Mathlib.Tactic.FinCases

/-!
# C122: the scalar solver uses the chosen flux and its derivative

A user selects a flux by name, or writes down an expression.  The solver then has to evaluate this flux, in the right
direction, wherever the scheme needs it, together with its derivative.  The derivative of an expression is a difference
quotient; the theorems bound what this costs.
-/

namespace Ryujin
namespace Scalar

open GeoTiff (Outcome)

/-! ### Selection -/

/-- **C122 (selection).** Whatever the order of the library: a name selects the flux of this name, any other name throws.
The expression and the step size of the parameter file are those of the function flux. -/
theorem C122_selection (mu : MuParser) (q : FluxParameters) (list : List LibraryFlux) (h : list.Perm (fluxList mu q)) :
    selectFlux list q.flux =
      if q.flux = "burgers" then .ok .burgers
      else if q.flux = "kpp" then .ok .kpp
      else if q.flux = "function" then .ok (.function ((q.expression.splitOn ';').map mu) q.delta)
      else .exception := by
  have hmem : ∀ it, it ∈ list ↔ it = .burgers ∨ it = setUpMuparser mu q ∨ it = .kpp := fun it => by
    rw [h.mem_iff]; simp [fluxList]
  unfold selectFlux
  cases hf : list.find? (fun it => it.name = q.flux) with
  | none =>
    rw [List.find?_eq_none] at hf
    have h1 := hf .burgers ((hmem _).2 (Or.inl rfl))
    have h2 := hf _ ((hmem _).2 (Or.inr (Or.inl rfl)))
    have h3 := hf .kpp ((hmem _).2 (Or.inr (Or.inr rfl)))
    simp only [LibraryFlux.name, setUpMuparser] at h1 h2 h3
    rw [if_neg (fun e => h1 (decide_eq_true e.symm)), if_neg (fun e => h3 (decide_eq_true e.symm)),
      if_neg (fun e => h2 (decide_eq_true e.symm))]
  | some it =>
    have h1 := List.find?_some hf
    have h2 := (hmem it).1 (List.mem_of_find?_eq_some hf)
    simp only [decide_eq_true_eq] at h1
    rcases h2 with rfl | rfl | rfl
    · simp [← h1, LibraryFlux.name]
    · simp [← h1, LibraryFlux.name, setUpMuparser, splitExpressions]
    · simp [← h1, LibraryFlux.name]

/-- **C122 (components of an expression).** An expression of `n` parts that are joined by semicolons has exactly these
components. -/
theorem C122_expression (parts : List (List Char)) (h : ∀ part ∈ parts, ';' ∉ part) (hne : parts ≠ []) :
    splitExpressions ([';'].intercalate parts) = parts := List.splitOn_intercalate ';' h hne

/-- **C122 (components of an expression).** Every expression is made of its components. -/
theorem C122_expression_join (s : List Char) : [';'].intercalate (splitExpressions s) = s := List.intercalate_splitOn ';'

/-! ### Values -/

theorem directions_ok (n : ℕ) (f : ℕ → Outcome ℝ) (v : Vec n) (h : ∀ k : Fin n, f k = .ok (v k)) :
    directions n f = .ok v := by
  induction n with
  | zero => simp only [directions]; congr; funext k; exact k.elim0
  | succ n ih =>
    simp only [directions]
    rw [ih (fun k => v k.castSucc) (fun k => h k.castSucc)]
    have := h (Fin.last n)
    simp only [Fin.val_last] at this
    rw [this]
    simp only
    congr
    funext k
    refine Fin.lastCases ?_ (fun k => ?_) k
    · rw [Fin.snoc_last]
    · rw [Fin.snoc_castSucc]

theorem directions_fail (n : ℕ) (f : ℕ → Outcome ℝ) (m : ℕ) (hm : m < n) (v : ℕ → ℝ) (h : ∀ k < m, f k = .ok (v k)) :
    (f m = .exception → directions n f = .exception) ∧ (f m = .ub → directions n f = .ub) := by
  induction n with
  | zero => omega
  | succ n ih =>
    simp only [directions]
    rcases Nat.lt_succ_iff_lt_or_eq.1 hm with hlt | rfl
    · exact ⟨fun e => by rw [(ih hlt).1 e], fun e => by rw [(ih hlt).2 e]⟩
    · rw [directions_ok m f (fun k => v k) (fun k => h k k.2)]
      exact ⟨fun e => by simp only [e], fun e => by simp only [e]⟩

/-- **C122 (Burgers).** The flux is `u²/2` in every direction, and the gradient its derivative. -/
theorem C122_burgers (dim : ℕ) (u : ℝ) :
    evalFlux dim .burgers u = .ok (fun _ => u ^ 2 / 2) ∧
      evalFluxGradient dim .burgers u = .ok (fun _ => u) ∧ HasDerivAt (fun v : ℝ => v ^ 2 / 2) u u := by
  refine ⟨directions_ok _ _ _ fun k => ?_, directions_ok _ _ _ fun k => rfl, ?_⟩
  · simp only [LibraryFlux.value]; congr 1; ring
  · have := (hasDerivAt_pow 2 u).div_const 2
    simpa using this

/-- **C122 (KPP).** In one and two dimensions the flux is `(sin u, cos u)` and the gradient its derivative. -/
theorem C122_kpp (dim : ℕ) (hdim : dim ≤ 2) (u : ℝ) :
    ∃ f df : ℝ → Vec dim, evalFlux dim .kpp u = .ok (f u) ∧ evalFluxGradient dim .kpp u = .ok (df u) ∧
      (∀ k, HasDerivAt (fun v => f v k) (df u k) u) ∧
      (∀ k, k.val = 0 → ∀ v, f v k = Real.sin v) ∧ (∀ k, k.val = 1 → ∀ v, f v k = Real.cos v) := by
  refine ⟨fun v k => if k.val = 0 then Real.sin v else Real.cos v, fun v k => if k.val = 0 then Real.cos v else -Real.sin v,
    directions_ok _ _ _ fun k => ?_, directions_ok _ _ _ fun k => ?_, fun k => ?_, fun k h v => ?_, fun k h v => ?_⟩
  · have : k.val = 0 ∨ k.val = 1 := by omega
    rcases this with h | h <;> simp [LibraryFlux.value, h]
  · have : k.val = 0 ∨ k.val = 1 := by omega
    rcases this with h | h <;> simp [LibraryFlux.gradient, h]
  · by_cases h : k.val = 0
    · simp only [h, if_true]; exact Real.hasDerivAt_sin u
    · simp only [h, if_false]; exact Real.hasDerivAt_cos u
  · simp [h]
  · simp [h]

/-- **C122 (KPP in three dimensions).** The evaluation throws; no wrong value is used. -/
theorem C122_kpp_three (dim : ℕ) (hdim : 2 < dim) (u : ℝ) :
    evalFlux dim .kpp u = .exception ∧ evalFluxGradient dim .kpp u = .exception := by
  refine ⟨(directions_fail dim _ 2 hdim (fun k => if k = 0 then Real.sin u else Real.cos u) ?_).1 rfl,
    (directions_fail dim _ 2 hdim (fun k => if k = 0 then Real.cos u else -Real.sin u) ?_).1 rfl⟩
  · intro k hk
    have : k = 0 ∨ k = 1 := by omega
    rcases this with rfl | rfl <;> simp [LibraryFlux.value]
  · intro k hk
    have : k = 0 ∨ k = 1 := by omega
    rcases this with rfl | rfl <;> simp [LibraryFlux.gradient]

/-- **C122 (user defined flux).** If there is an expression for every direction and all of them are understood, the flux
consists of the expressions in the order in which they are written, and the solver sees `functionFlux`. -/
theorem C122_function (mu : MuParser) (q : FluxParameters) (dim : ℕ) (parts : List (List Char)) (f : Fin dim → ℝ → ℝ)
    (hparts : ∀ part ∈ parts, ';' ∉ part) (hexpr : q.expression = [';'].intercalate parts) (hdim : dim ≤ parts.length)
    (hne : parts ≠ []) (hmu : ∀ k : Fin dim, mu (parts[k.val]'(by omega)) = some (f k)) (u : ℝ) :
    evalFlux dim (setUpMuparser mu q) u = .ok ((functionFlux f q.delta).value u) ∧
      evalFluxGradient dim (setUpMuparser mu q) u = .ok ((functionFlux f q.delta).gradient u) ∧
      (∀ k, (functionFlux f q.delta).value u k = f k u) ∧
      (setUpMuparser mu q).delta 0 = (functionFlux f q.delta).delta := by
  have hs : splitExpressions q.expression = parts := by rw [hexpr]; exact C122_expression parts hparts hne
  have hk : ∀ k : Fin dim, ((splitExpressions q.expression).map mu)[k.val]? = some (some (f k)) := fun k => by
    rw [hs, List.getElem?_map, List.getElem?_eq_getElem (by omega), Option.map_some, hmu]
  refine ⟨directions_ok _ _ _ fun k => ?_, directions_ok _ _ _ fun k => ?_, fun k => rfl, rfl⟩
  · simp only [setUpMuparser, LibraryFlux.value, hk]; rfl
  · simp only [setUpMuparser, LibraryFlux.gradient, hk]; rfl

/-- **C122 (violation, number of components).** An expression with fewer parts than space dimensions is accepted, and the
first evaluation reads a component that does not exist.  The default expression is one of them in two and three dimensions. -/
theorem C122_dimension_violation (mu : MuParser) (q : FluxParameters) (dim : ℕ) (f : List (ℝ → ℝ))
    (hmu : (splitExpressions q.expression).map mu = f.map some) (hdim : f.length < dim) (u : ℝ) :
    evalFlux dim (setUpMuparser mu q) u = .ub := by
  refine (directions_fail dim _ f.length hdim (fun k => if h : k < f.length then f[k] u else 0) fun k hk => ?_).2 ?_
  · simp only [setUpMuparser, LibraryFlux.value, hmu, List.getElem?_map, List.getElem?_eq_getElem hk, Option.map_some,
      dif_pos hk]
  · simp only [setUpMuparser, LibraryFlux.value, hmu, List.getElem?_map, List.getElem?_eq_none le_rfl, Option.map_none]

/-- Non-vacuity: the default expression in two dimensions. -/
example (mu : MuParser) (hmu : mu "0.5*u*u".toList = some fun u => 0.5 * u * u) (u : ℝ) :
    evalFlux 2 (setUpMuparser mu ⟨"function", "0.5*u*u".toList, 1 / 10 ^ 10⟩) u = .ub :=
  C122_dimension_violation mu _ 2 [fun u => 0.5 * u * u]
    (by rw [show splitExpressions "0.5*u*u".toList = ["0.5*u*u".toList] by decide +kernel]
        simp only [List.map_cons, List.map_nil, hmu]) (by simp) u

/-- Non-vacuity of `C122_function`: two components in two dimensions. -/
example (mu : MuParser) (h1 : mu "sin(u)".toList = some Real.sin) (h2 : mu "cos(u)".toList = some Real.cos) (u : ℝ) :
    evalFlux 2 (setUpMuparser mu ⟨"function", "sin(u);cos(u)".toList, 1⟩) u = .ok ![Real.sin u, Real.cos u] := by
  have := (C122_function mu ⟨"function", "sin(u);cos(u)".toList, 1⟩ 2 ["sin(u)".toList, "cos(u)".toList]
    ![Real.sin, Real.cos] (by decide +kernel) (by decide +kernel) (by simp) (by simp)
    (fun k => by fin_cases k; exacts [h1, h2]) u).1
  rw [this]
  congr
  funext k
  fin_cases k <;> rfl

/-! ### The derivative of a user defined flux -/

theorem nonneg_of_derivative (g g' : ℝ → ℝ) (hd : ∀ t, HasDerivAt g (g' t) t) (h0 : g 0 = 0) (hg : ∀ t, 0 ≤ t → 0 ≤ g' t)
    (t : ℝ) (ht : 0 ≤ t) : 0 ≤ g t := by
  rcases ht.eq_or_lt with rfl | hpos
  · exact h0.ge
  obtain ⟨c, hc, hs⟩ := exists_hasDerivAt_eq_slope g g' hpos (fun x _ => (hd x).continuousAt.continuousWithinAt)
    (fun x _ => hd x)
  have := hg c hc.1.le
  rw [hs, h0, sub_zero, sub_zero] at this
  rcases div_nonneg_iff.1 this with h | h
  · exact h.1
  · linarith [h.2]

/-- **C122 (derivative of an expression).** The derivative of an expression is taken with an error of at most a sixth of the
square of the step size times a bound on the third derivative (a Lipschitz constant of the second one). -/
theorem C122_difference_quotient {dim : ℕ} (f : Fin dim → ℝ → ℝ) (delta : ℝ) (hdelta : 0 < delta) (k : Fin dim)
    (f1 f2 : ℝ → ℝ) (h1 : ∀ x, HasDerivAt (f k) (f1 x) x) (h2 : ∀ x, HasDerivAt f1 (f2 x) x) (M : ℝ)
    (hM : ∀ x y, |f2 x - f2 y| ≤ M * |x - y|) (u : ℝ) :
    |(functionFlux f delta).gradient u k - f1 u| ≤ M * delta ^ 2 / 6 := by
  have hp : ∀ (g g1 : ℝ → ℝ), (∀ x, HasDerivAt g (g1 x) x) → ∀ t, HasDerivAt (fun t => g (u + t)) (g1 (u + t)) t :=
    fun g g1 hg t => by simpa using (hg (u + t)).comp_const_add u t
  have hm : ∀ (g g1 : ℝ → ℝ), (∀ x, HasDerivAt g (g1 x) x) → ∀ t, HasDerivAt (fun t => g (u - t)) (-g1 (u - t)) t :=
    fun g g1 hg t => by simpa using (hg (u - t)).comp_const_sub u t
  have hsq : ∀ t : ℝ, HasDerivAt (fun t : ℝ => M * t ^ 2) (2 * M * t) t := fun t => by
    have := (hasDerivAt_pow 2 t).const_mul M
    refine this.congr_deriv ?_
    norm_num; ring
  have hcu : ∀ t : ℝ, HasDerivAt (fun t : ℝ => M * t ^ 3 / 3) (M * t ^ 2) t := fun t => by
    have := ((hasDerivAt_pow 3 t).const_mul M).div_const 3
    refine this.congr_deriv ?_
    norm_num; ring
  have hlin : ∀ t : ℝ, HasDerivAt (fun t : ℝ => 2 * f1 u * t) (2 * f1 u) t := fun t => by
    simpa using (hasDerivAt_id t).const_mul (2 * f1 u)
  have hb : ∀ t : ℝ, 0 ≤ t → |f2 (u + t) - f2 (u - t)| ≤ 2 * M * t := fun t ht => by
    have := hM (u + t) (u - t)
    rw [show u + t - (u - t) = 2 * t by ring, abs_of_nonneg (show (0 : ℝ) ≤ 2 * t by linarith)] at this
    linarith
  have a1 := nonneg_of_derivative (fun t => M * t ^ 2 - (f1 (u + t) + f1 (u - t) - 2 * f1 u)) _
    (fun t => (hsq t).sub (((hp f1 f2 h2 t).add (hm f1 f2 h2 t)).sub_const _)) (by simp; ring)
    (fun t ht => by linarith [(abs_le.1 (hb t ht)).2])
  have a2 := nonneg_of_derivative (fun t => M * t ^ 2 + (f1 (u + t) + f1 (u - t) - 2 * f1 u)) _
    (fun t => (hsq t).add (((hp f1 f2 h2 t).add (hm f1 f2 h2 t)).sub_const _)) (by simp; ring)
    (fun t ht => by linarith [(abs_le.1 (hb t ht)).1])
  have b1 := nonneg_of_derivative (fun t => M * t ^ 3 / 3 - (f k (u + t) - f k (u - t) - 2 * f1 u * t)) _
    (fun t => (hcu t).sub (((hp _ f1 h1 t).sub (hm _ f1 h1 t)).sub (hlin t))) (by simp)
    (fun t ht => by linarith [a1 t ht]) delta hdelta.le
  have b2 := nonneg_of_derivative (fun t => M * t ^ 3 / 3 + (f k (u + t) - f k (u - t) - 2 * f1 u * t)) _
    (fun t => (hcu t).add (((hp _ f1 h1 t).sub (hm _ f1 h1 t)).sub (hlin t))) (by simp)
    (fun t ht => by linarith [a2 t ht]) delta hdelta.le
  have e : (functionFlux f delta).gradient u k - f1 u
      = (f k (u + delta) - f k (u - delta) - 2 * f1 u * delta) / (2 * delta) := by
    show (f k (u + delta) - f k (u - delta)) / (2 * delta) - f1 u = _
    field_simp
  rw [e, abs_div, abs_of_pos (show 0 < 2 * delta by linarith), div_le_iff₀ (by linarith), abs_le]
  constructor <;> nlinarith

/-- **C122 (quadratic expressions).** For fluxes that are at most quadratic – in particular for the default expression – the
derivative is exact, whatever the step size. -/
theorem C122_quadratic {dim : ℕ} (f : Fin dim → ℝ → ℝ) (delta : ℝ) (hdelta : delta ≠ 0) (k : Fin dim) (a b c : ℝ)
    (h : ∀ u, f k u = a * u ^ 2 + b * u + c) (u : ℝ) :
    (functionFlux f delta).gradient u k = 2 * a * u + b ∧ HasDerivAt (f k) (2 * a * u + b) u := by
  constructor
  · show (f k (u + delta) - f k (u - delta)) / (2 * delta) = _
    rw [h, h]
    field_simp
    ring
  · have : f k = fun u => a * u ^ 2 + b * u + c := funext h
    rw [this]
    have := ((((hasDerivAt_pow 2 u).const_mul a).add ((hasDerivAt_id u).const_mul b)).add_const c)
    refine this.congr_deriv ?_
    norm_num; ring

/-- **C122 (default expression).** In one dimension the function flux with its default expression is the Burgers flux. -/
theorem C122_default_expression (delta : ℝ) (hdelta : delta ≠ 0) :
    (functionFlux (fun (_ : Fin 1) u => 0.5 * u * u) delta) = burgers 1 delta := by
  unfold functionFlux burgers
  congr 1
  · funext u k; norm_num
  · funext u k; field_simp; ring

/-! ### Consequences for the wave speed estimate -/

/-- **C122 (Roe speed).** For every expression, whether convex or not, and for all settings of the Riemann solver: the wave
speed estimate is a bound of the speed of propagation between any two states, up to two step sizes of the difference quotient
times a Lipschitz constant of the derivative in direction `n`. -/
theorem C122_roe {dim : ℕ} (f : Fin dim → ℝ → ℝ) (delta : ℝ) (hdelta : 0 < delta) (rp : RiemannParams) (draws : List ℝ)
    (n : Vec dim) (g1 : ℝ → ℝ) (hg : ∀ x, HasDerivAt (fun v => ∑ k, f k v * n k) (g1 x) x) (lip : ℝ)
    (hlip : ∀ x y, |g1 x - g1 y| ≤ lip * |x - y|) (u_i u_j : ℝ) :
    |(∑ k, f k u_i * n k) - ∑ k, f k u_j * n k|
      ≤ (riemann (functionFlux f delta) rp draws u_i u_j n + 2 * lip * delta) * |u_i - u_j| := by
  have hlip0 : 0 ≤ lip := by
    have := hlip 1 0
    norm_num at this
    exact (abs_nonneg _).trans this
  by_cases hsep : 2 * delta ≤ |u_i - u_j|
  · have := C09_scalar_roe_separated (functionFlux f delta) rp draws u_i u_j n hsep
    refine this.trans (mul_le_mul_of_nonneg_right ?_ (abs_nonneg _))
    have : 0 ≤ 2 * lip * delta := by positivity
    linarith
  push Not at hsep
  have hq : ∀ u, dot (fluxGradientFunction (functionFlux f delta) u) n
      = ((∑ k, f k (u + delta) * n k) - ∑ k, f k (u - delta) * n k) / (2 * delta) := fun u => by
    show ∑ k, (f k (u + delta) - f k (u - delta)) / (2 * delta) * n k = _
    rw [← Finset.sum_sub_distrib, Finset.sum_div]
    exact Finset.sum_congr rfl fun k _ => by ring
  have hcd : ∀ u, |dot (fluxGradientFunction (functionFlux f delta) u) n - g1 u| ≤ lip * delta := fun u => by
    obtain ⟨c, hc, hs⟩ := exists_hasDerivAt_eq_slope (fun v => ∑ k, f k v * n k) g1
      (show u - delta < u + delta by linarith) (fun x _ => (hg x).continuousAt.continuousWithinAt) (fun x _ => hg x)
    rw [hq, show 2 * delta = u + delta - (u - delta) by ring, ← hs]
    refine (hlip c u).trans (mul_le_mul_of_nonneg_left ?_ hlip0)
    rw [abs_le]; constructor <;> linarith [hc.1, hc.2]
  have hr : |(1 / 2) * (dot (fluxGradientFunction (functionFlux f delta) u_i) n
      + dot (fluxGradientFunction (functionFlux f delta) u_j) n)|
      ≤ riemann (functionFlux f delta) rp draws u_i u_j n := by
    have h := le_riemann (functionFlux f delta) rp draws u_i u_j n
    refine le_trans ?_ h
    split
    · rw [if_neg (by push Not; exact hsep)]
    · set a := dot (fluxGradientFunction (functionFlux f delta) u_i) n
      set b := dot (fluxGradientFunction (functionFlux f delta) u_j) n
      have h3 : |(1 / 2) * (a + b)| ≤ max |a| |b| := by
        rw [abs_mul, abs_of_pos (by norm_num : (0 : ℝ) < 1 / 2)]
        have := abs_add_le a b
        have := le_max_left |a| |b|
        have := le_max_right |a| |b|
        linarith
      exact h3.trans (max_le ((le_max_right _ _).trans (le_max_left _ _)) (le_max_right _ _))
  have main : ∀ a b : ℝ, a < b → |(∑ k, f k b * n k) - ∑ k, f k a * n k|
      ≤ (|(1 / 2) * (dot (fluxGradientFunction (functionFlux f delta) a) n
        + dot (fluxGradientFunction (functionFlux f delta) b) n)| + lip * delta + lip * |b - a| / 2) * |b - a| := by
    intro a b hab
    obtain ⟨c, hc, hs⟩ := exists_hasDerivAt_eq_slope (fun v => ∑ k, f k v * n k) g1 hab
      (fun x _ => (hg x).continuousAt.continuousWithinAt) (fun x _ => hg x)
    have hpos : 0 < b - a := sub_pos.2 hab
    rw [abs_of_pos hpos, ← div_le_iff₀ hpos, ← abs_of_pos hpos, ← abs_div, abs_of_pos hpos, ← hs]
    have e1 := hcd a
    have e2 := hcd b
    have e3 := hlip c a
    have e4 := hlip c b
    rw [abs_of_pos (show 0 < c - a by linarith [hc.1])] at e3
    rw [abs_of_neg (show c - b < 0 by linarith [hc.2])] at e4
    set x := dot (fluxGradientFunction (functionFlux f delta) a) n
    set y := dot (fluxGradientFunction (functionFlux f delta) b) n
    have e5 : |g1 c| ≤ |(1 / 2) * (x + y)| + |g1 c - (1 / 2) * (x + y)| := by
      have := abs_add_le ((1 / 2) * (x + y)) (g1 c - (1 / 2) * (x + y))
      rwa [add_sub_cancel] at this
    have e6 : |g1 c - (1 / 2) * (x + y)| ≤ lip * delta + lip * (b - a) / 2 := by
      rw [abs_le] at e1 e2 e3 e4 ⊢
      constructor <;> linarith [e1.1, e1.2, e2.1, e2.2, e3.1, e3.2, e4.1, e4.2]
    linarith
  rcases lt_trichotomy u_i u_j with h | h | h
  · have := main u_i u_j h
    rw [abs_sub_comm, abs_sub_comm u_i]
    refine this.trans (mul_le_mul_of_nonneg_right ?_ (abs_nonneg _))
    rw [abs_sub_comm u_j]
    have := mul_le_mul_of_nonneg_left hsep.le hlip0
    linarith
  · subst h; simp
  · have := main u_j u_i h
    refine this.trans (mul_le_mul_of_nonneg_right ?_ (abs_nonneg _))
    have := mul_le_mul_of_nonneg_left hsep.le hlip0
    rw [add_comm (dot (fluxGradientFunction (functionFlux f delta) u_j) n)]
    linarith

/-- **C122 (violation, convex fluxes).** The estimate is documented as guaranteed for convex fluxes (`C09_scalar_roe_convex`).
For a convex expression it is not: for every step size there are two states with a shock that moves faster than the estimate. -/
theorem C122_convex_violation (delta : ℝ) (hdelta : 0 < delta) (h2 : delta ≤ 1 / 2) :
    ∃ f : ℝ → ℝ, (∃ f1 : ℝ → ℝ, (∀ x, HasDerivAt f (f1 x) x) ∧ Monotone f1) ∧
      ∃ u_i u_j : ℝ, riemann (functionFlux (fun _ : Fin 1 => f) delta) ⟨false, false⟩ [] u_i u_j (fun _ => 1) * |u_i - u_j|
        < |f u_i - f u_j| := by
  refine ⟨fun u => 8 * u + u ^ 4 / 4, ⟨fun u => 8 + u ^ 3, fun x => ?_, fun x y h => ?_⟩, -1, -1 - delta ^ 2 / 2, ?_⟩
  · have := ((hasDerivAt_id x).const_mul 8).add ((hasDerivAt_pow 4 x).div_const 4)
    refine this.congr_deriv ?_
    norm_num
  · have : x ^ 3 ≤ y ^ 3 := (Odd.strictMono_pow (by decide)).monotone h
    simpa using this
  · have hsq : 0 < delta ^ 2 := by positivity
    have hle : delta ^ 2 ≤ 1 / 4 := by nlinarith
    set e := delta ^ 2 / 2 with he
    have hd2 : delta ^ 2 = 2 * e := by rw [he]; ring
    have he0 : 0 < e := by positivity
    have he1 : e ≤ 1 / 8 := by linarith
    have hroe : (8 * (-1) + (-1 : ℝ) ^ 4 / 4) - (8 * (-1 - e) + (-1 - e) ^ 4 / 4)
        = e * (7 - 3 * e / 2 - e ^ 2 - e ^ 3 / 4) := by ring
    have hpos : 0 < 7 - 3 * e / 2 - e ^ 2 - e ^ 3 / 4 := by nlinarith [mul_pos he0 he0]
    have habs : |(-1 : ℝ) - (-1 - e)| = e := by rw [show (-1 : ℝ) - (-1 - e) = e by ring, abs_of_pos he0]
    rw [habs]
    show _ < |(8 * (-1) + (-1 : ℝ) ^ 4 / 4) - (8 * (-1 - e) + (-1 - e) ^ 4 / 4)|
    rw [hroe, abs_of_pos (mul_pos he0 hpos), mul_comm e]
    refine mul_lt_mul_of_pos_right ?_ he0
    have hg : ∀ u : ℝ, (8 * (u + delta) + (u + delta) ^ 4 / 4 - (8 * (u - delta) + (u - delta) ^ 4 / 4)) / (2 * delta)
        = 8 + u ^ 3 + u * (2 * e) := fun u => by
      rw [← hd2]; field_simp; ring
    simp only [riemann, dot, fluxFunction, fluxGradientFunction, functionFlux, Fin.sum_univ_one, mul_one, hg,
      Bool.false_eq_true, if_false, List.foldl_nil]
    rw [hroe, abs_of_pos (mul_pos he0 hpos), habs]
    have hsmall : e ^ 2 ≤ e / 8 := by nlinarith
    have hcube : e ^ 3 ≤ e / 64 := by nlinarith
    have hcube0 : 0 < e ^ 3 := by positivity
    refine max_lt (max_lt ?_ ?_) ?_
    · rw [div_lt_iff₀ (lt_of_lt_of_le he0 (le_max_left _ _)), mul_comm]
      refine mul_lt_mul_of_pos_left ?_ hpos
      refine lt_of_lt_of_le ?_ (le_max_right _ _)
      nlinarith
    · rw [abs_of_pos] <;> nlinarith
    · rw [abs_of_pos] <;> nlinarith

theorem enforceEntropy_le {dim : ℕ} (fl : Flux dim) (hdelta : 0 ≤ fl.delta) (n : Vec dim) (u_i u_j lam speed k : ℝ)
    (hlam : lam ≤ speed) (hk : k ∈ Set.uIcc u_i u_j)
    (hlip : ∀ x ∈ Set.uIcc u_i u_j, ∀ y ∈ Set.uIcc u_i u_j,
      |dot (fluxFunction fl x) n - dot (fluxFunction fl y) n| ≤ speed * |x - y|) (hs : 0 ≤ speed) :
    enforceEntropy fl n u_i u_j (dot (fluxFunction fl u_i) n) (dot (fluxFunction fl u_j) n) lam k ≤ speed := by
  have hi := hlip u_i Set.left_mem_uIcc k hk
  have hj := hlip u_j Set.right_mem_uIcc k hk
  have hij := hlip u_i Set.left_mem_uIcc u_j Set.right_mem_uIcc
  have quot : ∀ x y : ℝ, |x| ≤ speed * |y| → |x| / (|y| + 2 * fl.delta) ≤ speed := fun x y h => by
    rcases eq_or_lt_of_le (show 0 ≤ |y| + 2 * fl.delta by positivity) with h0 | hpos
    · rw [← h0, div_zero]; exact hs
    · rw [div_le_iff₀ hpos]
      have : 0 ≤ speed * (2 * fl.delta) := by positivity
      linarith
  unfold enforceEntropy
  simp only [kruzkovEntropy, kruzkovEntropyDerivative]
  have sgn : ∀ x : ℝ, (k ≤ x → (if x ≥ k then (1 : ℝ) else -1) * (dot (fluxFunction fl x) n - dot (fluxFunction fl k) n)
      = dot (fluxFunction fl x) n - dot (fluxFunction fl k) n) ∧
      (x ≤ k → (if x ≥ k then (1 : ℝ) else -1) * (dot (fluxFunction fl x) n - dot (fluxFunction fl k) n)
        = -(dot (fluxFunction fl x) n - dot (fluxFunction fl k) n)) := fun x => by
    refine ⟨fun h => by rw [if_pos h, one_mul], fun h => ?_⟩
    rcases h.eq_or_lt with rfl | h
    · simp
    · rw [if_neg (not_le.2 h)]; ring
  have two : ∀ x y a b : ℝ, |x| ≤ speed * |y| → (a = 2 * x ∨ a = -(2 * x)) → b = 2 * y → |a| ≤ speed * |b| :=
    fun x y a b h ha hb => by
      have : |a| = 2 * |x| := by
        rcases ha with rfl | rfl
        · rw [abs_mul, abs_of_pos (by norm_num : (0 : ℝ) < 2)]
        · rw [abs_neg, abs_mul, abs_of_pos (by norm_num : (0 : ℝ) < 2)]
      rw [this, hb, abs_mul, abs_of_pos (by norm_num : (0 : ℝ) < 2)]; linarith
  rw [abs_sub_comm, ← abs_sub_comm k] at hi
  rw [Set.mem_uIcc] at hk
  refine max_le (max_le hlam (quot _ _ ?_)) (quot _ _ ?_)
  all_goals
    rcases hk with ⟨h1, h2⟩ | ⟨h1, h2⟩
    · rw [(sgn u_i).2 h1, (sgn u_j).1 h2, abs_of_nonneg (show 0 ≤ k - u_i by linarith),
        abs_of_nonpos (show k - u_j ≤ 0 by linarith)]
      first
      | exact two _ _ _ _ hj (Or.inl (by linarith)) (by linarith)
      | exact two _ _ _ _ hi (Or.inr (by linarith)) (by linarith)
    · rw [(sgn u_i).1 h2, (sgn u_j).2 h1, abs_of_nonpos (show k - u_i ≤ 0 by linarith),
        abs_of_nonneg (show 0 ≤ k - u_j by linarith)]
      rw [abs_sub_comm, ← abs_sub_comm u_i] at hi
      rw [abs_sub_comm, ← abs_sub_comm k] at hj
      first
      | exact two _ _ _ _ hi (Or.inr (by linarith)) (by linarith)
      | exact two _ _ _ _ hj (Or.inl (by linarith)) (by linarith)

/-- **C122 (sharpness).** The estimate never exceeds the largest speed of propagation between the two states: if the flux in
direction `n` is Lipschitz with constant `speed` on the interval between them and the gradients at the two states are bounded
by it, then so is the estimate – for all settings, and whatever the random entropies.  Time steps are therefore not smaller
than the flux demands. -/
theorem C122_sharp {dim : ℕ} (fl : Flux dim) (hdelta : 0 ≤ fl.delta) (rp : RiemannParams) (draws : List ℝ)
    (hdraws : ∀ x ∈ draws, 0 ≤ x ∧ x ≤ 1) (n : Vec dim) (u_i u_j speed : ℝ)
    (hlip : ∀ x ∈ Set.uIcc u_i u_j, ∀ y ∈ Set.uIcc u_i u_j,
      |(∑ k, fl.value x k * n k) - ∑ k, fl.value y k * n k| ≤ speed * |x - y|)
    (h_i : |∑ k, fl.gradient u_i k * n k| ≤ speed) (h_j : |∑ k, fl.gradient u_j k * n k| ≤ speed) :
    riemann fl rp draws u_i u_j n ≤ speed := by
  have hs : 0 ≤ speed := (abs_nonneg _).trans h_i
  have hroe : |dot (fluxFunction fl u_i) n - dot (fluxFunction fl u_j) n| / max |u_i - u_j| (2 * fl.delta) ≤ speed := by
    rcases eq_or_lt_of_le (show 0 ≤ max |u_i - u_j| (2 * fl.delta) from (abs_nonneg _).trans (le_max_left _ _)) with h0 | hpos
    · rw [← h0, div_zero]; exact hs
    · rw [div_le_iff₀ hpos]
      exact (hlip _ Set.left_mem_uIcc _ Set.right_mem_uIcc).trans (mul_le_mul_of_nonneg_left (le_max_left _ _) hs)
  have hmean : |(1 / 2) * (dot (fluxGradientFunction fl u_i) n + dot (fluxGradientFunction fl u_j) n)| ≤ speed := by
    rw [abs_mul, abs_of_pos (by norm_num : (0 : ℝ) < 1 / 2)]
    have := abs_add_le (dot (fluxGradientFunction fl u_i) n) (dot (fluxGradientFunction fl u_j) n)
    have h_i' : |dot (fluxGradientFunction fl u_i) n| ≤ speed := h_i
    have h_j' : |dot (fluxGradientFunction fl u_j) n| ≤ speed := h_j
    linarith
  have fold : ∀ (draws : List ℝ) (lam : ℝ), (∀ x ∈ draws, 0 ≤ x ∧ x ≤ 1) → lam ≤ speed →
      draws.foldl (fun lam factor => enforceEntropy fl n u_i u_j (dot (fluxFunction fl u_i) n)
        (dot (fluxFunction fl u_j) n) lam (factor * u_i + (1 - factor) * u_j)) lam ≤ speed := by
    intro draws
    induction draws with
    | nil => exact fun lam _ h => h
    | cons x draws ih =>
      intro lam hx h
      refine ih _ (fun y hy => hx y (List.mem_cons_of_mem _ hy)) (enforceEntropy_le fl hdelta n u_i u_j lam speed _ h ?_ hlip hs)
      obtain ⟨h0, h1⟩ := hx x List.mem_cons_self
      rw [Set.mem_uIcc]
      rcases le_total u_i u_j with h | h
      · left; constructor <;> nlinarith
      · right; constructor <;> nlinarith
  unfold riemann
  refine fold draws _ hdraws ?_
  have base : (if rp.use_greedy_wavespeed = true then
      if |u_i - u_j| ≥ 2 * fl.delta then
        |dot (fluxFunction fl u_i) n - dot (fluxFunction fl u_j) n| / max |u_i - u_j| (2 * fl.delta)
      else |(1 / 2) * (dot (fluxGradientFunction fl u_i) n + dot (fluxGradientFunction fl u_j) n)|
    else max (max (|dot (fluxFunction fl u_i) n - dot (fluxFunction fl u_j) n| /
        max |u_i - u_j| (2 * fl.delta)) |dot (fluxGradientFunction fl u_i) n|)
        |dot (fluxGradientFunction fl u_j) n|) ≤ speed := by
    split
    · split
      · exact hroe
      · exact hmean
    · exact max_le (max_le hroe h_i) h_j
  by_cases ha : rp.use_averaged_entropy = true
  · rw [if_pos ha]
    refine enforceEntropy_le fl hdelta n u_i u_j _ speed _ base ?_ hlip hs
    rw [Set.mem_uIcc]
    rcases le_total u_i u_j with h | h
    · left; constructor <;> linarith
    · right; constructor <;> linarith
  · rw [if_neg ha]
    exact base

/-- Non-vacuity: Burgers between `1` and `3`, with the averaged and one random entropy. -/
example : riemann (burgers 1 (1 / 10)) ⟨false, true⟩ [1 / 3] 1 3 (fun _ => 1) ≤ 3 := by
  refine C122_sharp _ (by norm_num [burgers]) _ _ (by norm_num) _ _ _ _ (fun x hx y hy => ?_) (by norm_num [burgers])
    (by norm_num [burgers])
  rw [Set.uIcc_of_le (by norm_num)] at hx hy
  simp only [burgers, Fin.sum_univ_one, mul_one]
  rw [show 1 / 2 * x * x - 1 / 2 * y * y = (1 / 2 * (x + y)) * (x - y) by ring, abs_mul]
  refine mul_le_mul_of_nonneg_right ?_ (abs_nonneg _)
  rw [abs_of_nonneg (by linarith [hx.1, hy.1])]
  linarith [hx.2, hy.2]

/-! ### Precomputed values -/

theorem construct_pack (dim : ℕ) (h1 : 1 ≤ dim) (h3 : dim ≤ 3) (f df : Vec dim) :
    constructFluxTensor dim (packPrecomputed f df) = f ∧ constructFluxGradientTensor dim (packPrecomputed f df) = df := by
  have : dim = 1 ∨ dim = 2 ∨ dim = 3 := by omega
  rcases this with rfl | rfl | rfl
  all_goals
    refine ⟨funext fun k => ?_, funext fun k => ?_⟩
    all_goals fin_cases k <;> simp [constructFluxTensor, constructFluxGradientTensor, packPrecomputed]

/-- **C122 (fluxes used by the scheme).** In one, two and three dimensions: after the precomputation the flux and the
derivative that the scheme reads for a row are those of the selected flux at the state of this row; rows that are not visited
or constrained keep their values. -/
theorem C122_precomputed {ι : Type} [DecidableEq ι] (dim : ℕ) (h1 : 1 ≤ dim) (h3 : dim ≤ 3) (fl : LibraryFlux)
    (row_length : ι → ℕ) (u : ι → ℝ) (rows : List ι) (prec prec' : ι → Vec (2 * dim))
    (h : precomputeLoop dim fl row_length u rows prec = .ok prec') (i : ι) :
    (i ∈ rows → row_length i ≠ 1 →
      evalFlux dim fl (u i) = .ok (constructFluxTensor dim (prec' i)) ∧
        evalFluxGradient dim fl (u i) = .ok (constructFluxGradientTensor dim (prec' i))) ∧
      (i ∉ rows ∨ row_length i = 1 → prec' i = prec i) := by
  induction rows generalizing prec with
  | nil =>
    simp only [precomputeLoop, Outcome.ok.injEq] at h
    subst h
    exact ⟨fun hi => by simp at hi, fun _ => rfl⟩
  | cons r rows ih =>
    simp only [precomputeLoop] at h
    cases hr : precomputeRow dim fl (row_length r) (u r) (prec r) with
    | ub => rw [hr] at h; simp at h
    | exception => rw [hr] at h; simp at h
    | ok p =>
      rw [hr] at h
      simp only at h
      have := ih _ h
      by_cases hlen : row_length i = 1
      · refine ⟨fun _ hn => absurd hlen hn, fun _ => ?_⟩
        rw [this.2 (Or.inr hlen)]
        by_cases hri : i = r
        · subst hri
          rw [Function.update_self]
          simp only [precomputeRow, hlen, if_true, Outcome.ok.injEq] at hr
          exact hr.symm
        · rw [Function.update_of_ne hri]
      · by_cases hmem : i ∈ rows
        · exact ⟨fun _ hn => this.1 hmem hn, fun hc => by
            rcases hc with hc | hc
            · exact absurd (List.mem_cons_of_mem _ hmem) hc
            · exact absurd hc hlen⟩
        · have hk := this.2 (Or.inl hmem)
          by_cases hri : i = r
          · subst hri
            rw [Function.update_self] at hk
            refine ⟨fun _ _ => ?_, fun hc => by
              rcases hc with hc | hc
              · exact absurd List.mem_cons_self hc
              · exact absurd hc hlen⟩
            rw [hk]
            simp only [precomputeRow, hlen, if_false] at hr
            cases hf : evalFlux dim fl (u i) with
            | ub => rw [hf] at hr; simp at hr
            | exception => rw [hf] at hr; simp at hr
            | ok f =>
              rw [hf] at hr
              cases hdf : evalFluxGradient dim fl (u i) with
              | ub => rw [hdf] at hr; simp at hr
              | exception => rw [hdf] at hr; simp at hr
              | ok df =>
                rw [hdf] at hr
                simp only [Outcome.ok.injEq] at hr
                subst hr
                rw [(construct_pack dim h1 h3 f df).1, (construct_pack dim h1 h3 f df).2]
                exact ⟨rfl, rfl⟩
          · rw [Function.update_of_ne hri] at hk
            exact ⟨fun hc => absurd ((List.mem_cons.1 hc).resolve_left hri) hmem, fun _ => hk⟩

/-- **C122 (completeness).** If the flux can be evaluated, the precomputation succeeds. -/
theorem C122_precomputed_total {ι : Type} [DecidableEq ι] (dim : ℕ) (fl : LibraryFlux) (row_length : ι → ℕ) (u : ι → ℝ)
    (hf : ∀ v, ∃ f df, evalFlux dim fl v = .ok f ∧ evalFluxGradient dim fl v = .ok df) (rows : List ι)
    (prec : ι → Vec (2 * dim)) : ∃ prec', precomputeLoop dim fl row_length u rows prec = .ok prec' := by
  induction rows generalizing prec with
  | nil => exact ⟨prec, rfl⟩
  | cons r rows ih =>
    obtain ⟨f, df, e1, e2⟩ := hf (u r)
    simp only [precomputeLoop, precomputeRow]
    by_cases hr : row_length r = 1
    · simp only [hr, if_true]; exact ih _
    · simp only [hr, if_false, e1, e2]; exact ih _

/-- Non-vacuity: Burgers in three dimensions, two rows of which the second is constrained. -/
example : ∃ prec', precomputeLoop 3 .burgers ![5, 1] ![2, 7] [0, 1] (fun (_ : Fin 2) _ => 9) = .ok prec' ∧
    constructFluxTensor 3 (prec' 0) = (fun _ => 2) ∧ constructFluxGradientTensor 3 (prec' 0) = (fun _ => 2) ∧
    prec' 1 = fun _ => 9 := by
  obtain ⟨p, hp⟩ := C122_precomputed_total 3 .burgers ![5, 1] ![2, 7] (fun v =>
    ⟨_, _, (C122_burgers 3 v).1, (C122_burgers 3 v).2.1⟩) [0, 1] (fun (_ : Fin 2) _ => 9)
  have h := C122_precomputed 3 (by norm_num) (by norm_num) .burgers _ _ _ _ _ hp
  have h0 := (h 0).1 (by simp) (by simp)
  rw [(C122_burgers 3 _).1, (C122_burgers 3 _).2.1] at h0
  refine ⟨p, hp, (Outcome.ok.inj h0.1).symm.trans ?_, (Outcome.ok.inj h0.2).symm.trans ?_, (h 1).2 (Or.inr (by simp))⟩
  · funext k; norm_num
  · funext k; norm_num

/-- Non-vacuity of `C122_roe` and `C122_difference_quotient`: the sine as a user defined flux. -/
example (u_i u_j : ℝ) : |Real.sin u_i - Real.sin u_j| ≤
    (riemann (functionFlux (fun _ : Fin 1 => Real.sin) (1 / 10)) ⟨true, false⟩ [] u_i u_j (fun _ => 1) + 2 * 1 * (1 / 10))
      * |u_i - u_j| := by
  have := C122_roe (fun _ : Fin 1 => Real.sin) (1 / 10) (by norm_num) ⟨true, false⟩ [] (fun _ => 1) Real.cos
    (fun x => by simpa using Real.hasDerivAt_sin x) 1 (fun x y => by
      rw [one_mul]; exact Real.abs_cos_sub_cos_le x y) u_i u_j
  simpa using this

end Scalar
end Ryujin
