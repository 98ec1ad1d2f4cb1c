import Verif.Model.Rounded
import Mathlib.Tactic.LinearCombination

/-! # Error analysis of the limiters -/

namespace Ryujin
namespace Rounded

open Rounding

variable (R : Rounding)

theorem fl_le_of_nonneg {x : ℝ} (h : 0 ≤ x) : R.fl x ≤ x * (1 + R.u) := by
  have := R.fl_le x
  rw [abs_of_nonneg h] at this
  linarith

theorem fl_ge_of_nonneg {x : ℝ} (h : 0 ≤ x) : x * (1 - R.u) ≤ R.fl x := by
  have := R.le_fl x
  rw [abs_of_nonneg h] at this
  linarith

theorem fl_ge_of_nonpos {x : ℝ} (h : x ≤ 0) : x * (1 + R.u) ≤ R.fl x := by
  have := R.le_fl x
  rw [abs_of_nonpos h] at this
  linarith

theorem fl_le_of_nonpos {x : ℝ} (h : x ≤ 0) : R.fl x ≤ x * (1 - R.u) := by
  have := R.fl_le x
  rw [abs_of_nonpos h] at this
  linarith

/-! ### Products -/

theorem product_err (f : Bool) (a b : ℝ) : |product R f a b - a * b| ≤ R.u * |a * b| := by
  unfold product
  cases f
  · simpa using R.rel (a * b)
  · simpa using mul_nonneg R.u_nonneg (abs_nonneg (a * b))

theorem product_nonneg (f : Bool) {a b : ℝ} (h : 0 ≤ a * b) : 0 ≤ product R f a b := by
  unfold product
  cases f
  · simpa using R.fl_nonneg h
  · simpa using h

theorem product_nonpos (f : Bool) {a b : ℝ} (h : a * b ≤ 0) : product R f a b ≤ 0 := by
  unfold product
  cases f
  · simpa using R.fl_nonpos h
  · simpa using h

/-- The quotient that limits the coefficient. -/
theorem quotient_pos {den P d : ℝ} (hu : R.u ≤ 1 / 100) (hd0 : 0 ≤ den) (hden : den * |P| ≤ 1 + 3 * R.u) (hd : 0 ≤ d) :
    0 ≤ R.fl (R.fl d * den) ∧ R.fl (R.fl d * den) * |P| ≤ d * (1 + 6 * R.u) := by
  have u0 := R.u_nonneg
  have h1 : 0 ≤ R.fl d := R.fl_nonneg hd
  have h2 : 0 ≤ R.fl d * den := mul_nonneg h1 hd0
  refine ⟨R.fl_nonneg h2, ?_⟩
  have h3 := fl_le_of_nonneg R h2
  have h4 := fl_le_of_nonneg R hd
  calc R.fl (R.fl d * den) * |P| ≤ R.fl d * den * (1 + R.u) * |P| := mul_le_mul_of_nonneg_right h3 (abs_nonneg _)
    _ = R.fl d * (1 + R.u) * (den * |P|) := by ring
    _ ≤ R.fl d * (1 + R.u) * (1 + 3 * R.u) := mul_le_mul_of_nonneg_left hden (by positivity)
    _ ≤ d * (1 + R.u) * (1 + R.u) * (1 + 3 * R.u) := by
      have : 0 ≤ (1 + R.u) * (1 + 3 * R.u) := by positivity
      nlinarith [mul_le_mul_of_nonneg_right h4 this]
    _ ≤ d * (1 + 6 * R.u) := by
      have : (1 + R.u) * (1 + R.u) * (1 + 3 * R.u) ≤ 1 + 6 * R.u := by nlinarith [mul_nonneg u0 u0, mul_nonneg (mul_nonneg u0 u0) u0]
      nlinarith [mul_le_mul_of_nonneg_left this hd]

theorem quotient_neg {den P d : ℝ} (hu : R.u ≤ 1 / 100) (hd0 : 0 ≤ den) (hden : den * |P| ≤ 1 + 3 * R.u) (hd : d ≤ 0) :
    R.fl (R.fl d * den) ≤ 0 ∧ d * (1 + 6 * R.u) ≤ R.fl (R.fl d * den) * |P| := by
  have u0 := R.u_nonneg
  have h1 : R.fl d ≤ 0 := R.fl_nonpos hd
  have h2 : R.fl d * den ≤ 0 := mul_nonpos_of_nonpos_of_nonneg h1 hd0
  refine ⟨R.fl_nonpos h2, ?_⟩
  have h3 := fl_ge_of_nonpos R h2
  have h4 := fl_ge_of_nonpos R hd
  have a1 : R.fl d * den * (1 + R.u) * |P| ≤ R.fl (R.fl d * den) * |P| := mul_le_mul_of_nonneg_right h3 (abs_nonneg _)
  have a2 : R.fl d * (1 + R.u) * (1 + 3 * R.u) ≤ R.fl d * (1 + R.u) * (den * |P|) := by
    apply mul_le_mul_of_nonpos_left hden
    exact mul_nonpos_of_nonpos_of_nonneg h1 (by positivity)
  have a3 : d * (1 + R.u) * ((1 + R.u) * (1 + 3 * R.u)) ≤ R.fl d * ((1 + R.u) * (1 + 3 * R.u)) :=
    mul_le_mul_of_nonneg_right h4 (by positivity)
  have a4 : d * (1 + 6 * R.u) ≤ d * ((1 + R.u) * (1 + R.u) * (1 + 3 * R.u)) := by
    apply mul_le_mul_of_nonpos_left _ hd
    nlinarith [mul_nonneg u0 u0, mul_nonneg (mul_nonneg u0 u0) u0]
  linarith

/-! ### The reciprocals -/

theorem reciprocal {D P : ℝ} (hu : R.u ≤ 1 / 100) (h : |P| * (1 - R.u) ≤ D) : 0 ≤ R.fl (1 / D) ∧ R.fl (1 / D) * |P| ≤ 1 + 3 * R.u := by
  have u0 := R.u_nonneg
  have hP := abs_nonneg P
  have hD : 0 ≤ D := le_trans (mul_nonneg hP (by linarith)) h
  have h1 : 0 ≤ 1 / D := by positivity
  refine ⟨R.fl_nonneg h1, ?_⟩
  rcases hD.lt_or_eq with hD | hD
  · have h2 := fl_le_of_nonneg R h1
    have h3 : 1 / D * |P| ≤ 1 / (1 - R.u) := by
      rw [one_div_mul_eq_div, div_le_div_iff₀ hD (by linarith)]
      linarith
    have h4 : 1 / (1 - R.u) ≤ 1 + 2 * R.u - R.u * 0 + 0 := by
      rw [div_le_iff₀ (by linarith)]
      nlinarith
    calc R.fl (1 / D) * |P| ≤ 1 / D * (1 + R.u) * |P| := mul_le_mul_of_nonneg_right h2 hP
      _ = 1 / D * |P| * (1 + R.u) := by ring
      _ ≤ 1 / (1 - R.u) * (1 + R.u) := mul_le_mul_of_nonneg_right h3 (by linarith)
      _ ≤ 1 + 3 * R.u := by
        rw [one_div_mul_eq_div, div_le_iff₀ (by linarith)]
        nlinarith
  · rw [← hD, div_zero, R.fl_zero, zero_mul]
    linarith

theorem mulAdd_ge (f : Bool) {a b c : ℝ} (hab : 0 ≤ a * b) (hc : 0 ≤ c) : c * (1 - R.u) ≤ mulAdd R f a b c := by
  have h := product_nonneg R f hab
  exact (fl_ge_of_nonneg R hc).trans (R.mono (by linarith))

theorem eulerDenominator_spec (s : Contraction) {eps M P : ℝ} (hu : R.u ≤ 1 / 100) (heps : 0 ≤ eps) (hM : 0 ≤ M) :
    0 ≤ eulerDenominator R s eps M P ∧ eulerDenominator R s eps M P * |P| ≤ 1 + 3 * R.u :=
  reciprocal R hu (mulAdd_ge R _ (mul_nonneg heps hM) (abs_nonneg P))

theorem scalarDenominator_spec (s : Contraction) {eps tiny M P : ℝ} (hu : R.u ≤ 1 / 100) (heps : 0 ≤ eps) (hM : 0 ≤ M) :
    0 ≤ scalarDenominator R s eps tiny M P ∧ scalarDenominator R s eps tiny M P * |P| ≤ 1 + 3 * R.u :=
  reciprocal R hu ((mulAdd_ge R _ (mul_nonneg heps hM) (abs_nonneg P)).trans (le_max_right _ _))

theorem shallowDenominator_spec (s : Contraction) {eps tiny M P : ℝ} (hu : R.u ≤ 1 / 100) (heps : 0 ≤ eps) (htiny : 0 ≤ tiny) (hM : 0 ≤ M) :
    0 ≤ shallowDenominator R s eps tiny M P ∧ shallowDenominator R s eps tiny M P * |P| ≤ 1 + 3 * R.u := by
  refine reciprocal R hu ((mulAdd_ge R s.denominator (mul_nonneg heps hM) (abs_nonneg P)).trans ?_)
  have : mulAdd R s.denominator eps M |P| = R.fl (mulAdd R s.denominator eps M |P|) := (R.idem _).symm
  conv_lhs => rw [this]
  exact R.mono (by linarith)

/-! ### The largest coefficient -/

/-- Arithmetic: the bound from below is not active. -/
theorem arith_inactive_min {u M a m q X : ℝ} (u0 : 0 ≤ u) (hu : u ≤ 1 / 100) (hM : 0 ≤ M) (hm : 0 ≤ m) (ha : a ≤ 2 * M) (hq : q ≤ 0)
    (h : m ≤ (a + q) * (1 + u)) (hX : 0 ≤ X) (hx : q + X ≤ u * X) : X ≤ (a - m) + 16 * (u * M) := by
  have a1 : (a + q) * u ≤ 2 * M * u := mul_le_mul_of_nonneg_right (by linarith) u0
  have a2 : u * X ≤ 1 / 100 * X := mul_le_mul_of_nonneg_right hu hX
  have a3 : u * M ≤ 1 / 100 * M := mul_le_mul_of_nonneg_right hu hM
  have a4 : X ≤ 3 * M := by linarith
  have a5 : u * X ≤ u * (3 * M) := mul_le_mul_of_nonneg_left a4 u0
  have a6 : 0 ≤ u * M := mul_nonneg u0 hM
  linarith

/-- Arithmetic: the bound from above is not active. -/
theorem arith_inactive_max {u M a q X F : ℝ} (u0 : 0 ≤ u) (hu : u ≤ 1 / 100) (hM : 0 ≤ M) (ha : -M ≤ a)
    (hF : F ≤ M) (h : 0 ≤ a + q → (a + q) * (1 - u) ≤ F) (hX : 0 ≤ X) (hx : -(u * X) ≤ q - X) : X ≤ (M - a) + 16 * (u * M) := by
  have a2 : u * X ≤ 1 / 100 * X := mul_le_mul_of_nonneg_right hu hX
  have a3 : u * M ≤ 1 / 100 * M := mul_le_mul_of_nonneg_right hu hM
  have a6 : 0 ≤ u * M := mul_nonneg u0 hM
  have hq2 : a + q ≤ M + 2 * (u * M) := by
    rcases le_or_gt (a + q) 0 with hy | hy
    · linarith
    · have h3 := h hy.le
      have h4 : u * (a + q) ≤ 1 / 100 * (a + q) := mul_le_mul_of_nonneg_right hu hy.le
      have h6 : a + q ≤ 2 * M := by linarith
      have h5 : (a + q) * u ≤ 2 * M * u := mul_le_mul_of_nonneg_right h6 u0
      linarith
  have a4 : X ≤ 3 * M := by linarith
  have a5 : u * X ≤ u * (3 * M) := mul_le_mul_of_nonneg_left a4 u0
  linarith

/-- Arithmetic: the component is above its bound, but seems to be below the lower one. -/
theorem arith_above {u M a m κ q Y F : ℝ} (u0 : 0 ≤ u) (hu : u ≤ 1 / 100) (hM : 0 ≤ M) (hκM : κ ≤ M) (haM : M < a)
    (ha2 : a ≤ M + κ) (hY : (M - a) * (1 + 6 * u) ≤ Y) (hx : -(u * -Y) ≤ q - Y) (hF : 0 ≤ a + q → (a + q) * (1 - u) ≤ F)
    (hs : F < m) : (a - m) * (1 + 6 * u) ≤ κ + 16 * (u * M) := by
  have huM : 0 ≤ u * M := mul_nonneg u0 hM
  have g1 : (a - M) * u ≤ M * u := mul_le_mul_of_nonneg_right (by linarith) u0
  have g1' : u * M ≤ 1 / 100 * M := mul_le_mul_of_nonneg_right hu hM
  have g2 : -(2 * M) ≤ Y := by linarith
  have g3 : u * -Y ≤ u * (2 * M) := mul_le_mul_of_nonneg_left (by linarith) u0
  have g4 : M - 8 * (u * M) ≤ a + q := by linarith
  have g5 : 0 ≤ M - 8 * (u * M) := by linarith
  have g6 := hF (g5.trans g4)
  have g7 : (M - 8 * (u * M)) * (1 - u) ≤ (a + q) * (1 - u) := mul_le_mul_of_nonneg_right g4 (by linarith)
  have g13 : 0 ≤ u * (u * M) := mul_nonneg u0 huM
  have g8 : M - 9 * (u * M) ≤ m := by linarith
  have g9 : a - m ≤ κ + 9 * (u * M) := by linarith
  have g10 : (a - m) * u ≤ (M + 9 * (u * M)) * u := mul_le_mul_of_nonneg_right (by linarith) u0
  have g12 : u * M * u ≤ u * M * (1 / 100) := mul_le_mul_of_nonneg_left hu huM
  linarith

/-- The masks of `fit`. -/
theorem fit_cases (s : Contraction) {den m M a P t_max t : ℝ} (ht0 : 0 ≤ t) (ht : t ≤ fit R s den m M a P 0 t_max) :
    ∃ t1 t2 : ℝ, ((M < mulAdd R s.first t_max P a ∧ t1 = R.fl (R.fl (M - a) * den)) ∨ (mulAdd R s.first t_max P a ≤ M ∧ t1 = t_max)) ∧
      ((mulAdd R s.second t1 P a < m ∧ t2 = R.fl (R.fl (a - m) * den)) ∨ (m ≤ mulAdd R s.second t1 P a ∧ t2 = t1)) ∧
      (t = 0 ∨ (t ≤ t2 ∧ t ≤ t_max)) := by
  refine ⟨maskLt M (mulAdd R s.first t_max P a) (R.fl (R.fl (M - a) * den)) t_max,
    maskLt (mulAdd R s.second (maskLt M (mulAdd R s.first t_max P a) (R.fl (R.fl (M - a) * den)) t_max) P a) m
      (R.fl (R.fl (a - m) * den)) (maskLt M (mulAdd R s.first t_max P a) (R.fl (R.fl (M - a) * den)) t_max), ?_, ?_, ?_⟩
  · unfold maskLt
    split_ifs with h
    · exact Or.inl ⟨h, rfl⟩
    · exact Or.inr ⟨not_lt.1 h, rfl⟩
  · generalize maskLt M (mulAdd R s.first t_max P a) (R.fl (R.fl (M - a) * den)) t_max = t1
    unfold maskLt
    split_ifs with h
    · exact Or.inl ⟨h, rfl⟩
    · exact Or.inr ⟨not_lt.1 h, rfl⟩
  · unfold fit at ht
    dsimp only at ht
    generalize maskLt (mulAdd R s.second (maskLt M (mulAdd R s.first t_max P a) (R.fl (R.fl (M - a) * den)) t_max) P a) m
      (R.fl (R.fl (a - m) * den)) (maskLt M (mulAdd R s.first t_max P a) (R.fl (R.fl (M - a) * den)) t_max) = t2 at ht ⊢
    rcases le_total (min t2 t_max) 0 with h | h
    · left
      rw [max_eq_right h] at ht
      linarith
    · right
      rw [max_eq_left h] at ht
      exact ⟨ht.trans (min_le_left _ _), ht.trans (min_le_right _ _)⟩

/-- A decreasing component. -/
theorem fit_min (s : Contraction) {den m M a P t_max t : ℝ} (hu : R.u ≤ 1 / 100) (hd0 : 0 ≤ den) (hden : den * |P| ≤ 1 + 3 * R.u)
    (hm : 0 ≤ m) (hM : 0 ≤ M) (ha2 : a ≤ 2 * M) (hafl : R.fl a = a) (hP : P < 0)
    (ht0 : 0 ≤ t) (ht : t ≤ fit R s den m M a P 0 t_max) : t * -P ≤ (a - min m a) + 16 * (R.u * M) := by
  have u0 := R.u_nonneg
  have huM : 0 ≤ R.u * M := mul_nonneg u0 hM
  have hlo : 0 ≤ a - min m a := by linarith [min_le_right m a]
  have hzero : t ≤ 0 → t * -P ≤ (a - min m a) + 16 * (R.u * M) := fun h => by
    rw [le_antisymm h ht0, zero_mul]
    linarith
  have hPa : |P| = -P := abs_of_neg hP
  obtain ⟨t1, t2, h1, h2, h3⟩ := fit_cases R s ht0 ht
  rcases h3 with h3 | ⟨htt, httm⟩
  · exact hzero h3.le
  have htm : 0 ≤ t_max := ht0.trans httm
  have hdec : ∀ f {x : ℝ}, 0 ≤ x → mulAdd R f x P a ≤ a := fun f x hx => by
    have hq : product R f x P ≤ 0 := product_nonpos R _ (mul_nonpos_of_nonneg_of_nonpos hx hP.le)
    have := R.mono (show a + product R f x P ≤ a by linarith)
    rwa [hafl] at this
  rcases le_or_gt m a with hma | hma
  · rw [min_eq_left hma] at hzero ⊢
    rcases h1 with ⟨h1, e1⟩ | ⟨h1, e1⟩
    · -- above the bound: nothing is done
      have haM : M < a := h1.trans_le (hdec _ htm)
      have h4 : t1 ≤ 0 := by rw [e1]; exact (quotient_neg R hu hd0 hden (by linarith)).1
      have hq1 : 0 ≤ product R s.second t1 P := product_nonneg R _ (mul_nonneg_of_nonpos_of_nonpos h4 hP.le)
      have hs : m ≤ mulAdd R s.second t1 P a := by
        have := R.mono (show a ≤ a + product R s.second t1 P by linarith)
        rw [hafl] at this
        exact hma.trans this
      rcases h2 with ⟨h2, e2⟩ | ⟨h2, e2⟩
      · exact absurd h2 (not_lt.2 hs)
      · exact hzero (by rw [e2] at htt; linarith)
    · rcases h2 with ⟨h2, e2⟩ | ⟨h2, e2⟩
      · have h4 := (quotient_pos R hu hd0 hden (d := a - m) (by linarith)).2
        rw [← e2, hPa] at h4
        have h5 : t * -P ≤ t2 * -P := mul_le_mul_of_nonneg_right htt (by linarith)
        have h6 : (a - m) * R.u ≤ 2 * M * R.u := mul_le_mul_of_nonneg_right (by linarith) u0
        linarith
      · rw [e1] at h2
        have hx := product_err R s.second t_max P
        have hneg : t_max * P ≤ 0 := mul_nonpos_of_nonneg_of_nonpos htm hP.le
        have hq0 : product R s.second t_max P ≤ 0 := product_nonpos R _ hneg
        have h2 : m ≤ R.fl (a + product R s.second t_max P) := h2
        rw [abs_of_nonpos hneg] at hx
        generalize product R s.second t_max P = q at hx hq0 h2
        have hy0 : 0 ≤ a + q := by
          by_contra hc
          push Not at hc
          have h4 := fl_le_of_nonpos R hc.le
          have : (a + q) * (1 - R.u) < 0 := mul_neg_of_neg_of_pos hc (by linarith)
          linarith
        have h4 := arith_inactive_min (X := -(t_max * P)) u0 hu hM hm ha2 hq0 (h2.trans (fl_le_of_nonneg R hy0)) (by linarith)
          (by linarith [(abs_le.1 hx).2])
        have h5 : t * -P ≤ t_max * -P := mul_le_mul_of_nonneg_right httm (by linarith)
        linarith
  · -- below the bound: nothing is done
    apply hzero
    have hn := (quotient_neg R hu hd0 hden (d := a - m) (by linarith)).1
    rcases h2 with ⟨h2, e2⟩ | ⟨h2, e2⟩
    · rw [e2] at htt
      linarith
    · rcases h1 with ⟨h1, e1⟩ | ⟨h1, e1⟩
      · have h4 : M < a := h1.trans_le (hdec _ htm)
        have h5 : t1 ≤ 0 := by rw [e1]; exact (quotient_neg R hu hd0 hden (by linarith)).1
        rw [e2] at htt
        linarith
      · rw [e1] at h2
        linarith [hdec s.second htm]

/-- An increasing component. -/
theorem fit_max (s : Contraction) {den m M a P t_max κ t : ℝ} (hu : R.u ≤ 1 / 100) (hd0 : 0 ≤ den) (hden : den * |P| ≤ 1 + 3 * R.u)
    (hM : 0 ≤ M) (hκ : 0 ≤ κ) (hκM : κ ≤ M) (ha1 : -M ≤ a) (ha2 : a ≤ M + κ) (hafl : R.fl a = a) (hP : 0 < P)
    (ht0 : 0 ≤ t) (ht : t ≤ fit R s den m M a P 0 t_max) : t * P ≤ (max M a - a) + κ + 16 * (R.u * M) := by
  have u0 := R.u_nonneg
  have huM : 0 ≤ R.u * M := mul_nonneg u0 hM
  have hhi : 0 ≤ max M a - a := by linarith [le_max_right M a]
  have hzero : t ≤ 0 → t * P ≤ (max M a - a) + κ + 16 * (R.u * M) := fun h => by
    rw [le_antisymm h ht0, zero_mul]
    linarith
  have hPa : |P| = P := abs_of_pos hP
  obtain ⟨t1, t2, h1, h2, h3⟩ := fit_cases R s ht0 ht
  rcases h3 with h3 | ⟨htt, httm⟩
  · exact hzero h3.le
  have htm : 0 ≤ t_max := ht0.trans httm
  have hge : ∀ f {x : ℝ}, 0 ≤ x → a ≤ mulAdd R f x P a := fun f x hx => by
    have hq : 0 ≤ product R f x P := product_nonneg R _ (mul_nonneg hx hP.le)
    have := R.mono (show a ≤ a + product R f x P by linarith)
    rwa [hafl] at this
  rcases le_or_gt a M with haM | haM
  · rw [max_eq_left haM] at hzero ⊢
    -- first bound
    have hb : 0 ≤ t1 ∧ t1 * P ≤ (M - a) + 16 * (R.u * M) := by
      rcases h1 with ⟨h1, e1⟩ | ⟨h1, e1⟩
      · have h4 := quotient_pos R hu hd0 hden (d := M - a) (by linarith)
        rw [← e1, hPa] at h4
        refine ⟨h4.1, ?_⟩
        have h5 : (M - a) * R.u ≤ 2 * M * R.u := mul_le_mul_of_nonneg_right (by linarith) u0
        linarith [h4.2]
      · rw [e1]
        refine ⟨htm, ?_⟩
        have hx := product_err R s.first t_max P
        have hpos := mul_nonneg htm hP.le
        rw [abs_of_nonneg hpos] at hx
        have h1 : R.fl (a + product R s.first t_max P) ≤ M := h1
        generalize product R s.first t_max P = q at hx h1
        exact arith_inactive_max u0 hu hM ha1 h1 (fun h => fl_ge_of_nonneg R h) hpos (abs_le.1 hx).1
    -- second bound
    rcases h2 with ⟨h2, e2⟩ | ⟨h2, e2⟩
    · have hma : a < m := lt_of_le_of_lt (hge s.second hb.1) h2
      have h4 := (quotient_neg R hu hd0 hden (d := a - m) (by linarith)).1
      exact hzero (by rw [e2] at htt; linarith)
    · rw [e2] at htt
      have := mul_le_mul_of_nonneg_right htt hP.le
      linarith [hb.2]
  · rw [max_eq_right haM.le] at hzero ⊢
    rcases h1 with ⟨h1, e1⟩ | ⟨h1, e1⟩
    swap
    · exact absurd (h1.trans_lt haM) (not_lt.2 (hge s.first htm))
    have hb := quotient_neg R hu hd0 hden (d := M - a) (by linarith)
    rw [← e1, hPa] at hb
    rcases h2 with ⟨h2, e2⟩ | ⟨h2, e2⟩
    · rcases le_or_gt a m with hma | hma
      · have h4 := (quotient_neg R hu hd0 hden (d := a - m) (by linarith)).1
        exact hzero (by rw [e2] at htt; linarith)
      · have h4 := (quotient_pos R hu hd0 hden (d := a - m) (by linarith)).2
        rw [← e2, hPa] at h4
        have hx := product_err R s.second t1 P
        have hneg : t1 * P ≤ 0 := mul_nonpos_of_nonpos_of_nonneg hb.1 hP.le
        rw [abs_of_nonpos hneg] at hx
        have h2 : R.fl (a + product R s.second t1 P) < m := h2
        generalize product R s.second t1 P = q at hx h2
        have h5 := arith_above (κ := κ) u0 hu hM hκM haM ha2 hb.2 (abs_le.1 hx).1 (fun h => fl_ge_of_nonneg R h) h2
        have := mul_le_mul_of_nonneg_right htt hP.le
        linarith
    · exact hzero (by rw [e2] at htt; linarith [hb.1])

/-- What a coefficient up to the largest one does to the component, in exact arithmetic. -/
theorem fit_spec (s : Contraction) {den m M a P t_max κ t : ℝ} (hu : R.u ≤ 1 / 100) (hd0 : 0 ≤ den) (hden : den * |P| ≤ 1 + 3 * R.u)
    (hm : 0 ≤ m) (hM : 0 ≤ M) (hκ : 0 ≤ κ) (hκM : κ ≤ M) (ha1 : -M ≤ a) (ha2 : a ≤ M + κ) (hafl : R.fl a = a)
    (ht0 : 0 ≤ t) (ht : t ≤ fit R s den m M a P 0 t_max) :
    min m a - a - 16 * (R.u * M) ≤ t * P ∧ t * P ≤ (max M a - a) + κ + 16 * (R.u * M) := by
  have huM : 0 ≤ R.u * M := mul_nonneg R.u_nonneg hM
  have hlo : 0 ≤ a - min m a := by linarith [min_le_right m a]
  have hhi : 0 ≤ max M a - a := by linarith [le_max_right M a]
  rcases lt_trichotomy P 0 with hP | hP | hP
  · have h := fit_min R s hu hd0 hden hm hM (by linarith) hafl hP ht0 ht
    have := mul_nonpos_of_nonneg_of_nonpos ht0 hP.le
    constructor <;> linarith
  · rw [hP, mul_zero]
    constructor <;> linarith
  · have h := fit_max R s hu hd0 hden hM hκ hκM ha1 ha2 hafl hP ht0 ht
    have := mul_nonneg ht0 hP.le
    constructor <;> linarith

/-! ### Rows -/

/-- One term of a row. -/
theorem term_spec (f : Bool) {n : ℕ} {l p lo hi : ℝ} (hu : R.u ≤ 1 / 100) (hl : 0 ≤ l) (hlo : 0 ≤ lo) (hhi : 0 ≤ hi) (h1 : -lo ≤ l * p)
    (h2 : l * p ≤ hi) :
    -(lo / n * (1 + 4 * R.u)) ≤ product R f (R.fl (l * lambda R n)) p ∧ product R f (R.fl (l * lambda R n)) p ≤ hi / n * (1 + 4 * R.u) := by
  have u0 := R.u_nonneg
  have hn : (0 : ℝ) ≤ 1 / n := by positivity
  have hlam0 : 0 ≤ lambda R n := R.fl_nonneg hn
  have hlam : lambda R n ≤ 1 / n * (1 + R.u) := fl_le_of_nonneg R hn
  have hL0 : 0 ≤ R.fl (l * lambda R n) := R.fl_nonneg (mul_nonneg hl hlam0)
  have hL : R.fl (l * lambda R n) ≤ l * (1 / n) * ((1 + R.u) * (1 + R.u)) := by
    have h3 := fl_le_of_nonneg R (mul_nonneg hl hlam0)
    have h4 : l * lambda R n * (1 + R.u) ≤ l * (1 / n * (1 + R.u)) * (1 + R.u) :=
      mul_le_mul_of_nonneg_right (mul_le_mul_of_nonneg_left hlam hl) (by linarith)
    linarith
  have hc : (1 + R.u) * (1 + R.u) * (1 + R.u) ≤ 1 + 4 * R.u := by
    have a1 : R.u * R.u ≤ 1 / 100 * R.u := mul_le_mul_of_nonneg_right hu u0
    have a2 : R.u * (R.u * R.u) ≤ 1 / 100 * (R.u * R.u) := mul_le_mul_of_nonneg_right hu (mul_nonneg u0 u0)
    linarith
  have hx := product_err R f (R.fl (l * lambda R n)) p
  have hlo' : 0 ≤ lo / n * (1 + 4 * R.u) := by positivity
  have hhi' : 0 ≤ hi / n * (1 + 4 * R.u) := by positivity
  have key : ∀ {q y : ℝ}, 0 ≤ q → R.fl (l * lambda R n) * q * (1 + R.u) ≤ y * (1 + 4 * R.u) ∨ l * (1 / n) * q > y := fun {q y} hq => by
    by_cases hy : l * (1 / n) * q ≤ y
    · left
      have hy0 : 0 ≤ l * (1 / n) * q := by positivity
      have b1 : R.fl (l * lambda R n) * (q * (1 + R.u)) ≤ l * (1 / n) * ((1 + R.u) * (1 + R.u)) * (q * (1 + R.u)) :=
        mul_le_mul_of_nonneg_right hL (by positivity)
      have b2 : l * (1 / n) * q * ((1 + R.u) * (1 + R.u) * (1 + R.u)) ≤ l * (1 / n) * q * (1 + 4 * R.u) :=
        mul_le_mul_of_nonneg_left hc hy0
      have b3 : l * (1 / n) * q * (1 + 4 * R.u) ≤ y * (1 + 4 * R.u) := mul_le_mul_of_nonneg_right hy (by linarith)
      linarith
    · exact Or.inr (not_le.1 hy)
  rcases le_total 0 p with hp | hp
  · have h0 : 0 ≤ R.fl (l * lambda R n) * p := mul_nonneg hL0 hp
    have h3 := product_nonneg R f h0
    rw [abs_of_nonneg h0] at hx
    refine ⟨by linarith, ?_⟩
    have hy : l * (1 / n) * p ≤ hi / n := by
      have := mul_le_mul_of_nonneg_right h2 hn
      calc l * (1 / n) * p = l * p * (1 / n) := by ring
        _ ≤ hi * (1 / n) := this
        _ = hi / n := by ring
    rcases key hp (y := hi / n) with h | h
    · linarith [(abs_le.1 hx).2]
    · linarith
  · have h0 : R.fl (l * lambda R n) * p ≤ 0 := mul_nonpos_of_nonneg_of_nonpos hL0 hp
    have h3 := product_nonpos R f h0
    rw [abs_of_nonpos h0] at hx
    refine ⟨?_, by linarith⟩
    have hy : l * (1 / n) * -p ≤ lo / n := by
      have := mul_le_mul_of_nonneg_right (show l * -p ≤ lo by linarith) hn
      calc l * (1 / n) * -p = l * -p * (1 / n) := by ring
        _ ≤ lo * (1 / n) := this
        _ = lo / n := by ring
    rcases key (q := -p) (by linarith) (y := lo / n) with h | h
    · linarith [(abs_le.1 hx).1]
    · linarith

/-- The sum over a row. -/
theorem update_spec {lambda dl dh : ℝ} {B : ℝ} : ∀ (row : List (ℝ × ℝ × Bool)) (U : ℝ), 0 ≤ dl → 0 ≤ dh → 0 ≤ B →
    (∀ e ∈ row, -dl ≤ product R e.2.2 (R.fl (e.1 * lambda)) e.2.1 ∧ product R e.2.2 (R.fl (e.1 * lambda)) e.2.1 ≤ dh) →
    -B ≤ U - row.length * (dl + R.u * B) → U + row.length * (dh + R.u * B) ≤ B →
    U - row.length * (dl + R.u * B) ≤ update R lambda U row ∧ update R lambda U row ≤ U + row.length * (dh + R.u * B)
  | [], U, _, _, _, _, _, _ => by simp [update]
  | (l, p, f) :: row, U, hdl, hdh, hB, he, h1, h2 => by
    have u0 := R.u_nonneg
    have huB := mul_nonneg u0 hB
    obtain ⟨e1, e2⟩ := he _ List.mem_cons_self
    simp only at e1 e2
    simp only [List.length_cons, Nat.cast_add, Nat.cast_one] at h1 h2 ⊢
    have hk : (0 : ℝ) ≤ row.length := by positivity
    have k1 : 0 ≤ (row.length : ℝ) * (dl + R.u * B) := by positivity
    have k2 : 0 ≤ (row.length : ℝ) * (dh + R.u * B) := by positivity
    set q := product R f (R.fl (l * lambda)) p with hq
    have hab : |U + q| ≤ B := by
      rw [abs_le]
      constructor <;> linarith
    have huab : R.u * |U + q| ≤ R.u * B := mul_le_mul_of_nonneg_left hab u0
    have a1 := R.fl_le (U + q)
    have a2 := R.le_fl (U + q)
    have ih := update_spec (lambda := lambda) row (R.fl (U + q)) hdl hdh hB (fun e h => he e (List.mem_cons_of_mem _ h))
      (by linarith) (by linarith)
    show _ ≤ update R lambda (mulAdd R f (R.fl (l * lambda)) p U) row ∧ update R lambda (mulAdd R f (R.fl (l * lambda)) p U) row ≤ _
    rw [mulAdd, ← hq]
    constructor <;> linarith [ih.1, ih.2]

theorem fl_update {lambda : ℝ} : ∀ (row : List (ℝ × ℝ × Bool)) (U : ℝ), R.fl U = U → R.fl (update R lambda U row) = update R lambda U row
  | [], _, h => h
  | (_, _, _) :: row, _, _ => fl_update row _ (R.idem _)

/-- A round of the limiter: `w` collects the errors of the coefficients. -/
theorem round_spec {m M a κ w : ℝ} (row : List (ℝ × ℝ × Bool)) (hu : R.u ≤ 1 / 100) (hw : 0 ≤ w)
    (hn : (2 * row.length + w + 6) * R.u ≤ 1 / 10) (hm : 0 ≤ m) (hM : 0 ≤ M) (hκ : 0 ≤ κ) (hκM : κ ≤ M / 10)
    (ha1 : -(M / 10) ≤ a) (ha2 : a ≤ M + κ)
    (he : ∀ e ∈ row, 0 ≤ e.1 ∧ min m a - a - w * (R.u * M) ≤ e.1 * e.2.1 ∧ e.1 * e.2.1 ≤ (max M a - a) + κ + w * (R.u * M)) :
    min m a - (2 * row.length + w + 6) * (R.u * M) ≤ update R (lambda R row.length) a row ∧
      update R (lambda R row.length) a row ≤ max M a + κ + (2 * row.length + w + 6) * (R.u * M) := by
  have u0 := R.u_nonneg
  have huM : 0 ≤ R.u * M := mul_nonneg u0 hM
  have hk : (0 : ℝ) ≤ row.length := by positivity
  have hc : (2 * row.length + w + 6) * (R.u * M) ≤ M / 10 := by
    have := mul_le_mul_of_nonneg_right hn hM
    linarith
  have hwM : w * (R.u * M) ≤ M / 10 := by
    have : 0 ≤ (2 * (row.length : ℝ) + 6) * (R.u * M) := by positivity
    linarith
  have hwM0 : 0 ≤ w * (R.u * M) := mul_nonneg hw huM
  have hmin1 := min_le_right m a
  have hmax1 := le_max_right M a
  have hmin : -(M / 10) ≤ min m a := le_min (by linarith) ha1
  have hmax : max M a ≤ M + κ := max_le (by linarith) ha2
  -- sizes of the terms
  have hlo0 : 0 ≤ a - min m a + w * (R.u * M) := by linarith
  have hhi0 : 0 ≤ (max M a - a) + κ + w * (R.u * M) := by linarith
  have hlo1 : a - min m a ≤ 11 / 10 * M := by
    rcases le_total m a with h | h
    · rw [min_eq_left h]; linarith
    · rw [min_eq_right h]; linarith
  have hhi1 : max M a - a ≤ 11 / 10 * M := by
    rcases le_total M a with h | h
    · rw [max_eq_right h]; linarith
    · rw [max_eq_left h]; linarith
  rcases Nat.eq_zero_or_pos row.length with h0 | hpos
  · rw [List.length_eq_zero_iff] at h0
    subst h0
    simp only [update, List.length_nil, Nat.cast_zero]
    have : 0 ≤ (2 * (0 : ℝ) + w + 6) * (R.u * M) := by positivity
    constructor <;> linarith
  have hne : (row.length : ℝ) ≠ 0 := by positivity
  set lo := a - min m a + w * (R.u * M) with hlo
  set hi := (max M a - a) + κ + w * (R.u * M) with hhi
  have g1 : R.u * lo ≤ R.u * (13 / 10 * M) := mul_le_mul_of_nonneg_left (by linarith) u0
  have g2 : R.u * hi ≤ R.u * (13 / 10 * M) := mul_le_mul_of_nonneg_left (by linarith) u0
  have E : ∀ x : ℝ, (row.length : ℝ) * (x / row.length * (1 + 4 * R.u) + R.u * (2 * M)) = x + 4 * (R.u * x) + 2 * (row.length * (R.u * M)) :=
    fun x => by field_simp
  have hlen : 0 ≤ (row.length : ℝ) * (R.u * M) := by positivity
  have h := update_spec R (lambda := lambda R row.length) (dl := lo / row.length * (1 + 4 * R.u)) (dh := hi / row.length * (1 + 4 * R.u))
    (B := 2 * M) row a (by positivity) (by positivity) (by positivity)
    (fun e hme => term_spec R e.2.2 hu (he e hme).1 hlo0 hhi0 (by linarith [(he e hme).2.1]) (he e hme).2.2)
    (by rw [E]; linarith) (by rw [E]; linarith)
  rw [E, E] at h
  constructor
  · linarith [h.1]
  · linarith [h.2]

/-- The entry of the second round. -/
theorem second_spec {l p t x second lo hi M : ℝ} (hu : R.u ≤ 1 / 100) (hM : 0 ≤ M) (hl1 : l ≤ 1) (ht : 0 ≤ t)
    (hx : t * nextP R l p = x) (h1 : -lo ≤ x) (h2 : x ≤ hi) (hlo0 : 0 ≤ lo) (hhi0 : 0 ≤ hi) (hlo : lo ≤ 14 / 10 * M) (hhi : hi ≤ 14 / 10 * M)
    (h3 : 0 ≤ second) (h4 : second ≤ nextL R l t) :
    -(lo + 6 * (R.u * M)) ≤ second * p ∧ second * p ≤ hi + 6 * (R.u * M) := by
  have u0 := R.u_nonneg
  have huM : 0 ≤ R.u * M := mul_nonneg u0 hM
  have hc0 : 0 ≤ R.fl (1 - l) := R.fl_nonneg (by linarith)
  unfold nextL at h4
  unfold nextP at hx
  set c := R.fl (1 - l)
  have h5 : second ≤ c * t * (1 + R.u) := h4.trans (fl_le_of_nonneg R (mul_nonneg hc0 ht))
  -- the size of the entry, from the size of what the limiter has seen
  have key : ∀ {y z b : ℝ}, 0 ≤ y → y * (1 - R.u) ≤ z → z ≤ b → b ≤ 14 / 10 * M → y * (1 + R.u) ≤ b + 6 * (R.u * M) := fun {y z b} hy hyz hz hb => by
    have a1 : R.u * y ≤ 1 / 100 * y := mul_le_mul_of_nonneg_right hu hy
    have a2 : y ≤ 2 * M := by linarith
    have a3 : R.u * y ≤ R.u * (2 * M) := mul_le_mul_of_nonneg_left a2 u0
    linarith
  rcases le_total 0 p with hp | hp
  · have a0 : 0 ≤ second * p := mul_nonneg h3 hp
    refine ⟨by linarith, ?_⟩
    have a1 : second * p ≤ c * t * (1 + R.u) * p := mul_le_mul_of_nonneg_right h5 hp
    have a2 : t * (c * p * (1 - R.u)) ≤ t * R.fl (c * p) := mul_le_mul_of_nonneg_left (fl_ge_of_nonneg R (mul_nonneg hc0 hp)) ht
    have a3 := key (y := c * t * p) (z := x) (b := hi) (by positivity) (by linarith) h2 hhi
    linarith
  · have a0 : second * p ≤ 0 := mul_nonpos_of_nonneg_of_nonpos h3 hp
    refine ⟨?_, by linarith⟩
    have a1 : second * -p ≤ c * t * (1 + R.u) * -p := mul_le_mul_of_nonneg_right h5 (by linarith)
    have a2 : t * R.fl (c * p) ≤ t * (c * p * (1 - R.u)) :=
      mul_le_mul_of_nonneg_left (fl_le_of_nonpos R (mul_nonpos_of_nonneg_of_nonpos hc0 hp)) ht
    have a3 := key (y := c * t * -p) (z := -x) (b := lo) (mul_nonneg (mul_nonneg hc0 ht) (by linarith)) (by linarith) (by linarith) hlo
    linarith

/-! ### The coefficients -/

theorem clampPair_mem {p_1 p_2 : ℝ} (h : p_1 ≤ p_2) (t : ℝ × ℝ) :
    p_1 ≤ (clampPair p_1 p_2 t).1 ∧ (clampPair p_1 p_2 t).1 ≤ (clampPair p_1 p_2 t).2 ∧ (clampPair p_1 p_2 t).2 ≤ p_2 := by
  have hc : ∀ x, p_1 ≤ newtonClamp p_1 p_2 x ∧ newtonClamp p_1 p_2 x ≤ p_2 := fun x =>
    ⟨le_min h (le_max_left _ _), min_le_left _ _⟩
  refine ⟨le_min (hc _).1 (hc _).1, (min_le_left _ _).trans (le_max_left _ _), max_le (hc _).2 (hc _).2⟩

theorem newtonLoop_mem {L : ℕ} (psi : ℕ → Fin L → ℝ → ℝ) (stop : ℕ → (Fin L → ℝ) → (Fin L → ℝ) → Prop)
    (candidates : ℕ → Fin L → ℝ → ℝ → ℝ × ℝ) : ∀ (fuel n : ℕ) (t_l t_r : Fin L → ℝ), (∀ l, t_l l ≤ t_r l) →
    ∀ l, t_l l ≤ newtonLoop psi stop candidates fuel n t_l t_r l ∧ newtonLoop psi stop candidates fuel n t_l t_r l ≤ t_r l
  | 0, _, _, _, h, l => ⟨le_refl _, h l⟩
  | fuel + 1, n, t_l, t_r, h, l => by
    have hm : ∀ l, t_l l ≤ maskGt (psi n l (t_r l)) 0 (t_r l) (t_l l) ∧ maskGt (psi n l (t_r l)) 0 (t_r l) (t_l l) ≤ t_r l := fun l => by
      unfold maskGt
      split_ifs
      · exact ⟨h l, le_refl _⟩
      · exact ⟨le_refl _, h l⟩
    rw [newtonLoop]
    dsimp only
    split_ifs with h1 h2
    · exact hm l
    · exact hm l
    · have hc := fun l => clampPair_mem (hm l).2 (candidates n l (maskGt (psi n l (t_r l)) 0 (t_r l) (t_l l)) (t_r l))
      have ih := newtonLoop_mem psi stop candidates fuel (n + 1) _ _ (fun l => (hc l).2.1) l
      exact ⟨((hm l).1.trans (hc l).1).trans ih.1, ih.2.trans (hc l).2.2⟩

theorem newtonOnce_mem {L : ℕ} (stop : (Fin L → ℝ) → (Fin L → ℝ) → Prop) (candidates : Fin L → ℝ → ℝ → ℝ × ℝ) {t_l t_r : Fin L → ℝ}
    (h : ∀ l, t_l l ≤ t_r l) (l : Fin L) : t_l l ≤ newtonOnce stop candidates t_l t_r l ∧ newtonOnce stop candidates t_l t_r l ≤ t_r l := by
  unfold newtonOnce
  split_ifs
  · exact ⟨le_refl _, h l⟩
  · have := clampPair_mem (h l) (candidates l (t_l l) (t_r l))
    exact ⟨this.1, this.2.1.trans this.2.2⟩

theorem mask_mem {L : ℕ} (psi : Fin L → ℝ → ℝ) {t_l t_r : Fin L → ℝ} (h : ∀ l, t_l l ≤ t_r l) (l : Fin L) :
    t_l l ≤ maskGt (psi l (t_r l)) 0 (t_r l) (t_l l) ∧ maskGt (psi l (t_r l)) 0 (t_r l) (t_l l) ≤ t_r l := by
  unfold maskGt
  split_ifs
  · exact ⟨h l, le_refl _⟩
  · exact ⟨le_refl _, h l⟩

theorem velocityStage_mem {L : ℕ} (psi : Fin L → ℝ → ℝ) (stop : (Fin L → ℝ) → (Fin L → ℝ) → Prop) (candidates : Fin L → ℝ → ℝ → ℝ × ℝ)
    {t_l t_r : Fin L → ℝ} (h : ∀ l, t_l l ≤ t_r l) (l : Fin L) :
    t_l l ≤ velocityStage psi stop candidates t_l t_r l ∧ velocityStage psi stop candidates t_l t_r l ≤ t_r l := by
  have hm := mask_mem psi h
  unfold velocityStage
  split_ifs
  · exact hm l
  · have := newtonOnce_mem stop candidates (fun l => (hm l).2) l
    exact ⟨(hm l).1.trans this.1, this.2⟩

/-- The coefficients of the shallow water equations, from any largest coefficients. -/
theorem shallow_mem {L : ℕ} (R : Rounding) (s : Fin L → Contraction) (eps tiny : ℝ) (kin vel : Bool) (psi : Bool → Fin L → ℝ → ℝ)
    (stop : Bool → (Fin L → ℝ) → (Fin L → ℝ) → Prop) (candidates : Bool → Fin L → ℝ → ℝ → ℝ × ℝ)
    (h_min h_max h_small h_U h_P t_min t_max : Fin L → ℝ) (l : Fin L) :
    t_min l ≤ shallowLimit R s eps tiny kin vel psi stop candidates h_min h_max h_small h_U h_P t_min t_max l ∧
      shallowLimit R s eps tiny kin vel psi stop candidates h_min h_max h_small h_U h_P t_min t_max l ≤
        fit R (s l) (shallowDenominator R (s l) eps tiny (h_max l) (h_P l)) (max (h_small l) (h_min l)) (h_max l) (h_U l) (h_P l) (t_min l)
          (t_max l) := by
  have h : ∀ l, t_min l ≤ fit R (s l) (shallowDenominator R (s l) eps tiny (h_max l) (h_P l)) (max (h_small l) (h_min l)) (h_max l) (h_U l)
      (h_P l) (t_min l) (t_max l) := fun l => le_max_right _ _
  unfold shallowLimit
  dsimp only
  have hm := mask_mem (psi false) h
  have ho := newtonOnce_mem (stop false) (candidates false) (fun l => (hm l).2)
  split_ifs
  · exact ⟨le_refl _, h l⟩
  · exact hm l
  · have := velocityStage_mem (psi true) (stop true) (candidates true) (fun l => (hm l).1.trans (ho l).1) l
    exact ⟨this.1, this.2.trans (ho l).2⟩
  · exact ⟨(hm l).1.trans (ho l).1, (ho l).2⟩
  · exact velocityStage_mem (psi true) (stop true) (candidates true) h l

end Rounded
end Ryujin
