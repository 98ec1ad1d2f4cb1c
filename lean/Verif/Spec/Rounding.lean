import Mathlib.Data.Int.Log
import Mathlib.Algebra.Order.Floor.Ring
import Mathlib.Algebra.Order.Round
import Mathlib.Algebra.Ring.Parity
import Mathlib.Algebra.Order.Archimedean.Real.Basic
import Mathlib.Algebra.Order.Field.Power
import Mathlib.Tactic.Linarith
import Mathlib.Tactic.Positivity
import Mathlib.Tactic.FieldSimp
import Mathlib.Tactic.Ring
import Mathlib.Tactic.NormNum

/-!
# Specification of floating point arithmetic

A `Rounding` is what is needed of the rounding of IEEE 754 arithmetic: the result of an operation is the exact result, rounded by a monotone
and idempotent function with a relative error of at most `u`.  `ieee p` is rounding to nearest, ties to even, with `p` binary digits
(`p = 53` for `double`, `p = 24` for `float`).  Overflow, underflow and NaN are not part of the specification.
-/

namespace Ryujin

noncomputable section

/-- Rounding of the results of arithmetic operations. -/
structure Rounding where
  fl : ℝ → ℝ
  /-- unit roundoff -/
  u : ℝ
  u_nonneg : 0 ≤ u
  mono : Monotone fl
  idem : ∀ x, fl (fl x) = fl x
  rel : ∀ x, |fl x - x| ≤ u * |x|

namespace Rounding

/-- Exact arithmetic. -/
def exact : Rounding where
  fl := id
  u := 0
  u_nonneg := le_refl _
  mono := monotone_id
  idem := fun _ => rfl
  rel := by simp

/-- The integer nearest to `x`; the even one of two nearest. -/
def nearestEven (x : ℝ) : ℤ :=
  if Int.fract x < 1 / 2 then ⌊x⌋ else if 1 / 2 < Int.fract x then ⌊x⌋ + 1 else if Even ⌊x⌋ then ⌊x⌋ else ⌊x⌋ + 1

/-- Distance of neighbouring numbers with `p` binary digits in the binade of `x`. -/
def ulp (p : ℕ) (x : ℝ) : ℝ := (2 : ℝ) ^ (Int.log 2 x - (p - 1))

/-- Rounding of positive numbers to `p` binary digits. -/
def nearestPos (p : ℕ) (x : ℝ) : ℝ := nearestEven (x / ulp p x) * ulp p x

/-- Rounding to nearest with ties to even, `p` binary digits. -/
def nearest (p : ℕ) (x : ℝ) : ℝ := if 0 < x then nearestPos p x else if x < 0 then -nearestPos p (-x) else 0

theorem nearestEven_cases (x : ℝ) : (nearestEven x = ⌊x⌋ ∧ Int.fract x ≤ 1 / 2) ∨ (nearestEven x = ⌊x⌋ + 1 ∧ 1 / 2 ≤ Int.fract x) := by
  unfold nearestEven
  split_ifs with h1 h2 h3
  · exact Or.inl ⟨rfl, h1.le⟩
  · exact Or.inr ⟨rfl, h2.le⟩
  · exact Or.inl ⟨rfl, not_lt.1 h2⟩
  · exact Or.inr ⟨rfl, not_lt.1 h1⟩

theorem nearestEven_err (x : ℝ) : |(nearestEven x : ℝ) - x| ≤ 1 / 2 := by
  have hx := Int.floor_add_fract x
  have h0 := Int.fract_nonneg x
  have h1 := Int.fract_lt_one x
  rcases nearestEven_cases x with ⟨h, hf⟩ | ⟨h, hf⟩
  · rw [h, abs_le]
    constructor <;> linarith
  · rw [h, abs_le]
    push_cast
    constructor <;> linarith

theorem nearestEven_mono {x y : ℝ} (h : x ≤ y) : nearestEven x ≤ nearestEven y := by
  have hx := Int.floor_add_fract x
  have hy := Int.floor_add_fract y
  rcases (Int.floor_mono h).lt_or_eq with hlt | heq
  · have : nearestEven x ≤ ⌊x⌋ + 1 := by rcases nearestEven_cases x with ⟨h, -⟩ | ⟨h, -⟩ <;> omega
    have : ⌊y⌋ ≤ nearestEven y := by rcases nearestEven_cases y with ⟨h, -⟩ | ⟨h, -⟩ <;> omega
    omega
  · have hf : Int.fract x ≤ Int.fract y := by
      rw [heq] at hx
      linarith
    unfold nearestEven
    rw [heq]
    split_ifs <;> first | omega | (exfalso; linarith)

theorem nearestEven_int (n : ℤ) : nearestEven (n : ℝ) = n := by
  unfold nearestEven
  rw [Int.fract_intCast, if_pos (by norm_num), Int.floor_intCast]

theorem ulp_pos (p : ℕ) (x : ℝ) : 0 < ulp p x := by unfold ulp; positivity

/-- The binade of a positive number. -/
theorem binade {x : ℝ} (hx : 0 < x) : (2 : ℝ) ^ Int.log 2 x ≤ x ∧ x < (2 : ℝ) ^ (Int.log 2 x + 1) :=
  ⟨Int.zpow_log_le_self (b := 2) one_lt_two hx, Int.lt_zpow_succ_log_self (b := 2) one_lt_two x⟩

theorem log_eq {x : ℝ} {e : ℤ} (h1 : (2 : ℝ) ^ e ≤ x) (h2 : x < (2 : ℝ) ^ (e + 1)) : Int.log 2 x = e := by
  have hx : 0 < x := lt_of_lt_of_le (by positivity) h1
  have a := binade hx
  apply le_antisymm
  · by_contra hc
    push Not at hc
    have : (2 : ℝ) ^ (e + 1) ≤ 2 ^ Int.log 2 x := zpow_le_zpow_right₀ (by norm_num) (by omega)
    linarith [a.1]
  · by_contra hc
    push Not at hc
    have : (2 : ℝ) ^ (Int.log 2 x + 1) ≤ 2 ^ e := zpow_le_zpow_right₀ (by norm_num) (by omega)
    linarith [a.2]

theorem two_zpow_nat (n : ℕ) : ((2 ^ n : ℤ) : ℝ) = (2 : ℝ) ^ (n : ℤ) := by push_cast; rw [zpow_natCast]

variable {p : ℕ}

/-- A rounded number stays in its binade, or reaches its upper end. -/
theorem nearestPos_binade (hp : 1 ≤ p) {x : ℝ} (hx : 0 < x) :
    (2 : ℝ) ^ Int.log 2 x ≤ nearestPos p x ∧ nearestPos p x ≤ (2 : ℝ) ^ (Int.log 2 x + 1) := by
  obtain ⟨h1, h2⟩ := binade hx
  have hu := ulp_pos p x
  have e1 : (2 : ℝ) ^ Int.log 2 x = ((2 ^ (p - 1) : ℤ) : ℝ) * ulp p x := by
    rw [two_zpow_nat, ulp, ← zpow_add₀ (by norm_num)]
    congr 1
    omega
  have e2 : (2 : ℝ) ^ (Int.log 2 x + 1) = ((2 ^ p : ℤ) : ℝ) * ulp p x := by
    rw [two_zpow_nat, ulp, ← zpow_add₀ (by norm_num)]
    congr 1
    omega
  constructor
  · rw [e1] at h1 ⊢
    have : (((2 ^ (p - 1) : ℤ)) : ℝ) ≤ x / ulp p x := by rwa [le_div_iff₀ hu]
    have := nearestEven_mono this
    rw [nearestEven_int] at this
    exact mul_le_mul_of_nonneg_right (by exact_mod_cast this) hu.le
  · rw [e2] at h2 ⊢
    have : x / ulp p x ≤ ((2 ^ p : ℤ) : ℝ) := by rw [div_le_iff₀ hu]; exact h2.le
    have := nearestEven_mono this
    rw [nearestEven_int] at this
    exact mul_le_mul_of_nonneg_right (by exact_mod_cast this) hu.le

theorem nearestPos_pos (hp : 1 ≤ p) {x : ℝ} (hx : 0 < x) : 0 < nearestPos p x :=
  lt_of_lt_of_le (by positivity) (nearestPos_binade hp hx).1

theorem nearestPos_mono (hp : 1 ≤ p) {x y : ℝ} (hx : 0 < x) (h : x ≤ y) : nearestPos p x ≤ nearestPos p y := by
  have hy : 0 < y := hx.trans_le h
  rcases (Int.log_mono_right hx h : Int.log 2 x ≤ Int.log 2 y).lt_or_eq with hlt | heq
  · refine (nearestPos_binade hp hx).2.trans (le_trans ?_ (nearestPos_binade hp hy).1)
    exact zpow_le_zpow_right₀ (by norm_num) (by omega)
  · have hu : ulp p x = ulp p y := by unfold ulp; rw [heq]
    unfold nearestPos
    rw [hu]
    have := nearestEven_mono (div_le_div_of_nonneg_right h (ulp_pos p y).le)
    exact mul_le_mul_of_nonneg_right (by exact_mod_cast this) (ulp_pos p y).le

theorem nearestPos_idem (hp : 1 ≤ p) {x : ℝ} (hx : 0 < x) : nearestPos p (nearestPos p x) = nearestPos p x := by
  obtain ⟨h1, h2⟩ := nearestPos_binade hp hx
  set y := nearestPos p x with hy
  have hypos : 0 < y := nearestPos_pos hp hx
  -- it is enough that `y` is an integer multiple of its own distance
  suffices h : ∃ n : ℤ, y = n * ulp p y by
    obtain ⟨n, hn⟩ := h
    have : y / ulp p y = n := by rw [div_eq_iff (ulp_pos p y).ne']; exact hn
    unfold nearestPos
    rw [this, nearestEven_int]
    exact hn.symm
  rcases h2.lt_or_eq with hlt | heq
  · have hlog : Int.log 2 y = Int.log 2 x := log_eq h1 hlt
    have hu : ulp p y = ulp p x := by unfold ulp; rw [hlog]
    exact ⟨nearestEven (x / ulp p x), by rw [hu, hy]; rfl⟩
  · have hlog : Int.log 2 y = Int.log 2 x + 1 := by
      apply log_eq heq.ge
      rw [heq]
      exact zpow_lt_zpow_right₀ (by norm_num) (by omega)
    refine ⟨2 ^ (p - 1), ?_⟩
    rw [two_zpow_nat, ulp, ← zpow_add₀ (by norm_num), hlog, heq]
    congr 1
    omega

theorem nearestPos_rel {x : ℝ} (hx : 0 < x) : |nearestPos p x - x| ≤ (2 : ℝ) ^ (-(p : ℤ)) * x := by
  have hu := ulp_pos p x
  have h := nearestEven_err (x / ulp p x)
  have e : nearestPos p x - x = (nearestEven (x / ulp p x) - x / ulp p x) * ulp p x := by
    unfold nearestPos
    field_simp
  rw [e, abs_mul, abs_of_pos hu]
  have h1 := (binade hx).1
  have e2 : ulp p x = 2 * ((2 : ℝ) ^ (-(p : ℤ)) * (2 : ℝ) ^ Int.log 2 x) := by
    rw [ulp, ← zpow_add₀ (by norm_num), ← zpow_one_add₀ (by norm_num)]
    congr 1
    ring
  have hpp : (0 : ℝ) < (2 : ℝ) ^ (-(p : ℤ)) := by positivity
  calc _ ≤ 1 / 2 * ulp p x := mul_le_mul_of_nonneg_right h hu.le
    _ = (2 : ℝ) ^ (-(p : ℤ)) * (2 : ℝ) ^ Int.log 2 x := by rw [e2]; ring
    _ ≤ _ := mul_le_mul_of_nonneg_left h1 hpp.le

theorem nearest_of_pos {x : ℝ} (hx : 0 < x) : nearest p x = nearestPos p x := if_pos hx

theorem nearest_neg (x : ℝ) : nearest p (-x) = -nearest p x := by
  unfold nearest
  rcases lt_trichotomy x 0 with h | h | h
  · rw [if_pos (by linarith : 0 < -x), if_neg (by linarith : ¬ 0 < x), if_pos h, neg_neg]
  · subst h; simp
  · rw [if_neg (by linarith : ¬ 0 < -x), if_pos (by linarith : -x < 0), if_pos h, neg_neg]

theorem nearest_zero : nearest p 0 = 0 := by unfold nearest; simp

/-- Rounding to nearest of IEEE 754 with `p` binary digits. -/
def ieee (p : ℕ) (hp : 1 ≤ p) : Rounding where
  fl := nearest p
  u := (2 : ℝ) ^ (-(p : ℤ))
  u_nonneg := by positivity
  mono := by
    intro x y h
    rcases lt_trichotomy x 0 with hx | hx | hx
    · have ex : nearest p x = -nearestPos p (-x) := by rw [← nearest_of_pos (by linarith), nearest_neg, neg_neg]
      rcases lt_trichotomy y 0 with hy | hy | hy
      · have ey : nearest p y = -nearestPos p (-y) := by rw [← nearest_of_pos (by linarith), nearest_neg, neg_neg]
        rw [ex, ey]
        exact neg_le_neg (nearestPos_mono hp (by linarith) (by linarith))
      · rw [ex, hy, nearest_zero]
        linarith [nearestPos_pos (p := p) hp (x := -x) (by linarith)]
      · rw [ex, nearest_of_pos hy]
        linarith [nearestPos_pos (p := p) hp (x := -x) (by linarith), nearestPos_pos (p := p) hp hy]
    · subst hx
      rw [nearest_zero]
      rcases h.lt_or_eq with hy | hy
      · rw [nearest_of_pos hy]; exact (nearestPos_pos hp hy).le
      · rw [← hy, nearest_zero]
    · rw [nearest_of_pos hx, nearest_of_pos (by linarith)]
      exact nearestPos_mono hp hx h
  idem := by
    intro x
    rcases lt_trichotomy x 0 with hx | hx | hx
    · have ex : nearest p x = -nearestPos p (-x) := by rw [← nearest_of_pos (by linarith), nearest_neg, neg_neg]
      rw [ex, nearest_neg, nearest_of_pos (nearestPos_pos hp (by linarith)), nearestPos_idem hp (by linarith)]
    · subst hx; rw [nearest_zero, nearest_zero]
    · rw [nearest_of_pos hx, nearest_of_pos (nearestPos_pos hp hx), nearestPos_idem hp hx]
  rel := by
    intro x
    rcases lt_trichotomy x 0 with hx | hx | hx
    · have ex : nearest p x = -nearestPos p (-x) := by rw [← nearest_of_pos (by linarith), nearest_neg, neg_neg]
      rw [ex, abs_of_neg hx, show -nearestPos p (-x) - x = -(nearestPos p (-x) - -x) by ring, abs_neg]
      exact nearestPos_rel (by linarith)
    · subst hx; rw [nearest_zero]; simp
    · rw [nearest_of_pos hx, abs_of_pos hx]
      exact nearestPos_rel hx

/-- Rounding to `double`. -/
def double : Rounding := ieee 53 (by norm_num)

/-- How to compute: the rounded value of a positive number, from its binade and the nearest integer. -/
theorem nearest_eq {x : ℝ} {e n : ℤ} (h1 : (2 : ℝ) ^ e ≤ x) (h2 : x < (2 : ℝ) ^ (e + 1))
    (h3 : (n : ℝ) - 1 / 2 < x / (2 : ℝ) ^ (e - ((p : ℤ) - 1))) (h4 : x / (2 : ℝ) ^ (e - ((p : ℤ) - 1)) < (n : ℝ) + 1 / 2) :
    nearest p x = n * (2 : ℝ) ^ (e - ((p : ℤ) - 1)) := by
  have hx : 0 < x := lt_of_lt_of_le (by positivity) h1
  have hlog : Int.log 2 x = e := log_eq h1 h2
  rw [nearest_of_pos hx, nearestPos, ulp, hlog]
  have h := nearestEven_err (x / (2 : ℝ) ^ (e - ((p : ℤ) - 1)))
  set y := x / (2 : ℝ) ^ (e - ((p : ℤ) - 1))
  have : nearestEven y = n := by
    obtain ⟨ha, hb⟩ := abs_le.1 h
    have a1 : (nearestEven y : ℝ) < n + 1 := by linarith
    have a2 : (n : ℝ) < nearestEven y + 1 := by linarith
    have a1' : nearestEven y < n + 1 := by exact_mod_cast a1
    have a2' : n < nearestEven y + 1 := by exact_mod_cast a2
    omega
  rw [this]

/-- How to compute a tie between an odd and an even number. -/
theorem nearest_tie {x : ℝ} {e n : ℤ} (h1 : (2 : ℝ) ^ e ≤ x) (h2 : x < (2 : ℝ) ^ (e + 1)) (hn : ¬ Even n)
    (h3 : x / (2 : ℝ) ^ (e - ((p : ℤ) - 1)) = (n : ℝ) + 1 / 2) : nearest p x = (n + 1) * (2 : ℝ) ^ (e - ((p : ℤ) - 1)) := by
  have hx : 0 < x := lt_of_lt_of_le (by positivity) h1
  have hlog : Int.log 2 x = e := log_eq h1 h2
  rw [nearest_of_pos hx, nearestPos, ulp, hlog, h3]
  have hf : ⌊(n : ℝ) + 1 / 2⌋ = n := by
    rw [Int.floor_eq_iff]
    constructor <;> linarith
  have hfr : Int.fract ((n : ℝ) + 1 / 2) = 1 / 2 := by
    rw [Int.fract, hf]
    ring
  have : nearestEven ((n : ℝ) + 1 / 2) = n + 1 := by
    unfold nearestEven
    rw [hfr, hf, if_neg (lt_irrefl _), if_neg (lt_irrefl _), if_neg hn]
  rw [this]
  push_cast
  ring

/-! ### Consequences -/

variable (R : Rounding)

theorem fl_zero : R.fl 0 = 0 := by
  have := R.rel 0
  simpa using this

theorem fl_nonneg {x : ℝ} (h : 0 ≤ x) : 0 ≤ R.fl x := by
  have := R.mono h
  rwa [R.fl_zero] at this

theorem fl_nonpos {x : ℝ} (h : x ≤ 0) : R.fl x ≤ 0 := by
  have := R.mono h
  rwa [R.fl_zero] at this

theorem fl_le (x : ℝ) : R.fl x ≤ x + R.u * |x| := by linarith [(abs_le.1 (R.rel x)).2]

theorem le_fl (x : ℝ) : x - R.u * |x| ≤ R.fl x := by linarith [(abs_le.1 (R.rel x)).1]

end Rounding
end
end Ryujin
