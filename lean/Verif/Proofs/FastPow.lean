import Mathlib.Analysis.Complex.ExponentialBounds
import Mathlib.Analysis.Calculus.MeanValue
import Mathlib.Analysis.SpecialFunctions.Log.Deriv
import Mathlib.Tactic.NormNum.Pow
import Mathlib.Tactic.Linarith
import Mathlib.Tactic.FieldSimp
import Mathlib.Tactic.LinearCombination
import Mathlib.Tactic.Positivity
import Verif.Model.FastPow

/-!
# Error analysis of the approximate power function

The logarithm polynomial is compared with the logarithm by bounding the derivative of the
difference: that derivative is a polynomial divided by `1 + u`, bounded on four intervals by its
expansion around the midpoint.  The exponential is compared with its Taylor polynomial.
-/

namespace Ryujin
namespace FastPow

/-- `1 - (1 + u) * (derivative of the logarithm polynomial)`. -/
noncomputable def remainder (u : ℝ) : ℝ := (3239/50000000000) * u ^ 2 + (-351/2000000000) * u ^ 3 + (-3597853/100000000000) * u ^ 4 + (954433/20000000000) * u ^ 5 + (263086481/100000000000) * u ^ 6 + (-384132741/100000000000) * u ^ 7 + (-1432965473/25000000000) * u ^ 8 + (251327861/2500000000) * u ^ 9 + (94328957947/250000000000) * u ^ 10 + (-193536299803/250000000000) * u ^ 11

theorem remainder_bound_0 {u : ℝ} (h1 : (-3/10) ≤ u) (h2 : u ≤ (-3/25)) :
    |remainder u| ≤ 1.1e-6 * (1 + u) := by
  obtain ⟨h, rfl⟩ : ∃ h, u = (-21/100) + h := ⟨u - (-21/100), by ring⟩
  have hh : |h| ≤ (9/100) := abs_le.2 ⟨by linarith, by linarith⟩
  have e : remainder ((-21/100) + h) = (8131450195239738265817163/2500000000000000000000000000000000) + (6426597118047673870254567/25000000000000000000000000000000) * h ^ 1 + (-443144556749397470160727/50000000000000000000000000000) * h ^ 2 + (19451413441232628821061/500000000000000000000000000) * h ^ 3 + (3299669075345302227659/2500000000000000000000000) * h ^ 4 + (-2746411874506152583853/125000000000000000000000) * h ^ 5 + (199330674869983439293/1250000000000000000000) * h ^ 6 + (-1660244975419579419/2500000000000000000) * h ^ 7 + (84220248509058539/50000000000000000) * h ^ 8 + (-1284760641521753/500000000000000) * h ^ 9 + (54139781049193/25000000000000) * h ^ 10 + (-193536299803/250000000000) * h ^ 11 := by
    unfold remainder; ring
  have b : ∀ k : ℕ, |h ^ k| ≤ (9/100) ^ k := fun k => by
    rw [abs_pow]; exact pow_le_pow_left₀ (abs_nonneg h) hh k
  have b2 := abs_le.1 (b 2)
  have b3 := abs_le.1 (b 3)
  have b4 := abs_le.1 (b 4)
  have b5 := abs_le.1 (b 5)
  have b6 := abs_le.1 (b 6)
  have b7 := abs_le.1 (b 7)
  have b8 := abs_le.1 (b 8)
  have b9 := abs_le.1 (b 9)
  have b10 := abs_le.1 (b 10)
  have b11 := abs_le.1 (b 11)
  norm_num at b2 b3 b4 b5 b6 b7 b8 b9 b10 b11
  have b1 := abs_le.1 hh
  rw [e]
  refine abs_le.2 ⟨?_, ?_⟩
  · linarith only [b1.1, b1.2, b2.1, b2.2, b3.1, b3.2, b4.1, b4.2, b5.1, b5.2, b6.1, b6.2, b7.1, b7.2, b8.1, b8.2, b9.1, b9.2, b10.1, b10.2, b11.1, b11.2, h1, h2]
  · linarith only [b1.1, b1.2, b2.1, b2.2, b3.1, b3.2, b4.1, b4.2, b5.1, b5.2, b6.1, b6.2, b7.1, b7.2, b8.1, b8.2, b9.1, b9.2, b10.1, b10.2, b11.1, b11.2, h1, h2]

theorem remainder_bound_1 {u : ℝ} (h1 : (-3/25) ≤ u) (h2 : u ≤ (3/50)) :
    |remainder u| ≤ 1.1e-6 * (1 + u) := by
  obtain ⟨h, rfl⟩ : ∃ h, u = (-3/100) + h := ⟨u - (-3/100), by ring⟩
  have hh : |h| ≤ (9/100) := abs_le.2 ⟨by linarith, by linarith⟩
  have e : remainder ((-3/100) + h) = (86752039741333839442341/2500000000000000000000000000000000) + (-16858391602514389541817/25000000000000000000000000000000) * h ^ 1 + (-4695291519370391912761/50000000000000000000000000000) * h ^ 2 + (1562465544196305739461/500000000000000000000000000) * h ^ 3 + (-18711174373080655387/2500000000000000000000000) * h ^ 4 + (-50510050653354649997/125000000000000000000000) * h ^ 5 + (2297477719121765299/1250000000000000000000) * h ^ 6 + (29357294756543781/2500000000000000000) * h ^ 7 + (-3286595992904827/50000000000000000) * h ^ 8 + (-25491896248697/500000000000000) * h ^ 9 + (15819593688199/25000000000000) * h ^ 10 + (-193536299803/250000000000) * h ^ 11 := by
    unfold remainder; ring
  have b : ∀ k : ℕ, |h ^ k| ≤ (9/100) ^ k := fun k => by
    rw [abs_pow]; exact pow_le_pow_left₀ (abs_nonneg h) hh k
  have b2 := abs_le.1 (b 2)
  have b3 := abs_le.1 (b 3)
  have b4 := abs_le.1 (b 4)
  have b5 := abs_le.1 (b 5)
  have b6 := abs_le.1 (b 6)
  have b7 := abs_le.1 (b 7)
  have b8 := abs_le.1 (b 8)
  have b9 := abs_le.1 (b 9)
  have b10 := abs_le.1 (b 10)
  have b11 := abs_le.1 (b 11)
  norm_num at b2 b3 b4 b5 b6 b7 b8 b9 b10 b11
  have b1 := abs_le.1 hh
  rw [e]
  refine abs_le.2 ⟨?_, ?_⟩
  · linarith only [b1.1, b1.2, b2.1, b2.2, b3.1, b3.2, b4.1, b4.2, b5.1, b5.2, b6.1, b6.2, b7.1, b7.2, b8.1, b8.2, b9.1, b9.2, b10.1, b10.2, b11.1, b11.2, h1, h2]
  · linarith only [b1.1, b1.2, b2.1, b2.2, b3.1, b3.2, b4.1, b4.2, b5.1, b5.2, b6.1, b6.2, b7.1, b7.2, b8.1, b8.2, b9.1, b9.2, b10.1, b10.2, b11.1, b11.2, h1, h2]

theorem remainder_bound_2 {u : ℝ} (h1 : (3/50) ≤ u) (h2 : u ≤ (6/25)) :
    |remainder u| ≤ 1.1e-6 * (1 + u) := by
  obtain ⟨h, rfl⟩ : ∃ h, u = (3/20) + h := ⟨u - (3/20), by ring⟩
  have hh : |h| ≤ (9/100) := abs_le.2 ⟨by linarith, by linarith⟩
  have e : remainder ((3/20) + h) = (18416244874526019/51200000000000000000000000) + (203351141190139383/2560000000000000000000000) * h ^ 1 + (30950872135161121/25600000000000000000000) * h ^ 2 + (-5681463235380219/1280000000000000000000) * h ^ 3 + (-5417627033557853/32000000000000000000) * h ^ 4 + (-5388965259620477/8000000000000000000) * h ^ 5 + (1576510848862901/400000000000000000) * h ^ 6 + (129155345523141/4000000000000000) * h ^ 7 + (11731439157667/400000000000000) * h ^ 8 + (-5829995838857/20000000000000) * h ^ 9 + (-4500118734559/5000000000000) * h ^ 10 + (-193536299803/250000000000) * h ^ 11 := by
    unfold remainder; ring
  have b : ∀ k : ℕ, |h ^ k| ≤ (9/100) ^ k := fun k => by
    rw [abs_pow]; exact pow_le_pow_left₀ (abs_nonneg h) hh k
  have b2 := abs_le.1 (b 2)
  have b3 := abs_le.1 (b 3)
  have b4 := abs_le.1 (b 4)
  have b5 := abs_le.1 (b 5)
  have b6 := abs_le.1 (b 6)
  have b7 := abs_le.1 (b 7)
  have b8 := abs_le.1 (b 8)
  have b9 := abs_le.1 (b 9)
  have b10 := abs_le.1 (b 10)
  have b11 := abs_le.1 (b 11)
  norm_num at b2 b3 b4 b5 b6 b7 b8 b9 b10 b11
  have b1 := abs_le.1 hh
  rw [e]
  refine abs_le.2 ⟨?_, ?_⟩
  · linarith only [b1.1, b1.2, b2.1, b2.2, b3.1, b3.2, b4.1, b4.2, b5.1, b5.2, b6.1, b6.2, b7.1, b7.2, b8.1, b8.2, b9.1, b9.2, b10.1, b10.2, b11.1, b11.2, h1, h2]
  · linarith only [b1.1, b1.2, b2.1, b2.2, b3.1, b3.2, b4.1, b4.2, b5.1, b5.2, b6.1, b6.2, b7.1, b7.2, b8.1, b8.2, b9.1, b9.2, b10.1, b10.2, b11.1, b11.2, h1, h2]

theorem remainder_bound_3 {u : ℝ} (h1 : (6/25) ≤ u) (h2 : u ≤ (21/50)) :
    |remainder u| ≤ 1.1e-6 * (1 + u) := by
  obtain ⟨h, rfl⟩ : ∃ h, u = (33/100) + h := ⟨u - (33/100), by ring⟩
  have hh : |h| ≤ (9/100) := abs_le.2 ⟨by linarith, by linarith⟩
  have e : remainder ((33/100) + h) = (-19870843755839131887296751/2500000000000000000000000000000000) + (30250486769304863831851983/25000000000000000000000000000000) * h ^ 1 + (1370365882060906162636451/50000000000000000000000000000) * h ^ 2 + (-11495731376712721789659/500000000000000000000000000) * h ^ 3 + (-12617093268442386456223/2500000000000000000000000) * h ^ 4 + (-7305877116657115880117/125000000000000000000000) * h ^ 5 + (-421951712382775607249/1250000000000000000000) * h ^ 6 + (-2908839895599220779/2500000000000000000) * h ^ 7 + (-125004006517418863/50000000000000000) * h ^ 8 + (-1645534640689937/500000000000000) * h ^ 9 + (-60820781033789/25000000000000) * h ^ 10 + (-193536299803/250000000000) * h ^ 11 := by
    unfold remainder; ring
  have b : ∀ k : ℕ, |h ^ k| ≤ (9/100) ^ k := fun k => by
    rw [abs_pow]; exact pow_le_pow_left₀ (abs_nonneg h) hh k
  have b2 := abs_le.1 (b 2)
  have b3 := abs_le.1 (b 3)
  have b4 := abs_le.1 (b 4)
  have b5 := abs_le.1 (b 5)
  have b6 := abs_le.1 (b 6)
  have b7 := abs_le.1 (b 7)
  have b8 := abs_le.1 (b 8)
  have b9 := abs_le.1 (b 9)
  have b10 := abs_le.1 (b 10)
  have b11 := abs_le.1 (b 11)
  norm_num at b2 b3 b4 b5 b6 b7 b8 b9 b10 b11
  have b1 := abs_le.1 hh
  rw [e]
  refine abs_le.2 ⟨?_, ?_⟩
  · linarith only [b1.1, b1.2, b2.1, b2.2, b3.1, b3.2, b4.1, b4.2, b5.1, b5.2, b6.1, b6.2, b7.1, b7.2, b8.1, b8.2, b9.1, b9.2, b10.1, b10.2, b11.1, b11.2, h1, h2]
  · linarith only [b1.1, b1.2, b2.1, b2.2, b3.1, b3.2, b4.1, b4.2, b5.1, b5.2, b6.1, b6.2, b7.1, b7.2, b8.1, b8.2, b9.1, b9.2, b10.1, b10.2, b11.1, b11.2, h1, h2]

theorem remainder_bound {u : ℝ} (h1 : -3 / 10 ≤ u) (h2 : u ≤ 42 / 100) :
    |remainder u| ≤ 1.1e-6 * (1 + u) := by
  rcases le_total u (-3 / 25) with h | h
  · exact remainder_bound_0 (by linarith) (by linarith)
  rcases le_total u (3 / 50) with h' | h'
  · exact remainder_bound_1 (by linarith) (by linarith)
  rcases le_total u (6 / 25) with h'' | h''
  · exact remainder_bound_2 (by linarith) (by linarith)
  · exact remainder_bound_3 (by linarith) (by linarith)

/-- The derivative of the logarithm polynomial. -/
noncomputable def dlg (u : ℝ) : ℝ :=
  1 - u + 3 * 3.3333331174E-1 * u ^ 2 + 4 * (-2.4999993993E-1) * u ^ 3
    + 5 * 2.0000714765E-1 * u ^ 4 + 6 * (-1.6668057665E-1) * u ^ 5
    + 7 * 1.4249322787E-1 * u ^ 6 + 8 * (-1.2420140846E-1) * u ^ 7 + 9 * 1.1676998740E-1 * u ^ 8
    + 10 * (-1.1514610310E-1) * u ^ 9 + 11 * 7.0376836292E-2 * u ^ 10

theorem hasDerivAt_lg (u : ℝ) : HasDerivAt lg (dlg u) u := by
  have e : lg = fun u : ℝ => u + (-1 / 2) * u ^ 2 + 3.3333331174E-1 * u ^ 3
      + (-2.4999993993E-1) * u ^ 4 + 2.0000714765E-1 * u ^ 5 + (-1.6668057665E-1) * u ^ 6
      + 1.4249322787E-1 * u ^ 7 + (-1.2420140846E-1) * u ^ 8 + 1.1676998740E-1 * u ^ 9
      + (-1.1514610310E-1) * u ^ 10 + 7.0376836292E-2 * u ^ 11 := by
    funext u; unfold lg lg1 logPoly; ring
  rw [e]
  have p : ∀ (c : ℝ) (n : ℕ), HasDerivAt (fun u : ℝ => c * u ^ n) (c * (n * u ^ (n - 1))) u :=
    fun c n => (hasDerivAt_pow n u).const_mul c
  have h := (((((((((((hasDerivAt_id u).fun_add (p (-1 / 2) 2)).fun_add (p 3.3333331174E-1 3)).fun_add
    (p (-2.4999993993E-1) 4)).fun_add (p 2.0000714765E-1 5)).fun_add (p (-1.6668057665E-1) 6)).fun_add
    (p 1.4249322787E-1 7)).fun_add (p (-1.2420140846E-1) 8)).fun_add (p 1.1676998740E-1 9)).fun_add
    (p (-1.1514610310E-1) 10)).fun_add (p 7.0376836292E-2 11))
  refine h.congr_deriv ?_
  unfold dlg
  push_cast
  norm_num
  ring

/-- The logarithm polynomial is accurate. -/
theorem lg_error {u : ℝ} (h1 : -3 / 10 ≤ u) (h2 : u ≤ 42 / 100) :
    |lg u - Real.log (1 + u)| ≤ 4.7e-7 := by
  have hd : ∀ s ∈ Set.Icc (-3 / 10 : ℝ) (42 / 100),
      HasDerivWithinAt (fun s => lg s - Real.log (1 + s)) (dlg s - 1 / (1 + s))
        (Set.Icc (-3 / 10 : ℝ) (42 / 100)) s := by
    intro s hs
    have hpos : (0 : ℝ) < 1 + s := by linarith [hs.1]
    have h1 : HasDerivAt (fun s : ℝ => 1 + s) 1 s := (hasDerivAt_id s).const_add 1
    exact ((hasDerivAt_lg s).sub (h1.log hpos.ne')).hasDerivWithinAt
  have hb : ∀ s ∈ Set.Icc (-3 / 10 : ℝ) (42 / 100), ‖dlg s - 1 / (1 + s)‖ ≤ 1.1e-6 := by
    intro s hs
    have hpos : (0 : ℝ) < 1 + s := by linarith [hs.1]
    have e : dlg s - 1 / (1 + s) = -(remainder s) / (1 + s) := by
      rw [eq_div_iff hpos.ne', sub_mul, div_mul_cancel₀ _ hpos.ne']
      unfold dlg remainder; ring
    rw [e, Real.norm_eq_abs, abs_div, abs_neg, abs_of_pos hpos, div_le_iff₀ hpos]
    exact remainder_bound hs.1 hs.2
  have h := Convex.norm_image_sub_le_of_norm_hasDerivWithin_le hd hb (convex_Icc _ _)
    (x := 0) (y := u) ⟨by norm_num, by norm_num⟩ ⟨h1, h2⟩
  have e0 : lg 0 = 0 := by unfold lg lg1; ring
  simp only [e0, add_zero, Real.log_one, sub_zero, Real.norm_eq_abs] at h
  refine h.trans ?_
  have : |u| ≤ 42 / 100 := abs_le.2 ⟨by linarith, h2⟩
  nlinarith

theorem roundEven_error (a : ℝ) : |a - roundEven a| ≤ 1 / 2 := by
  have h0 := Int.floor_le a
  have h1 := Int.lt_floor_add_one a
  unfold roundEven
  split_ifs with h h' h'' <;> push_cast <;> rw [abs_le] <;> constructor <;> linarith

theorem roundEven_eq {a : ℝ} {n : ℤ} (h : |a - n| < 1 / 2) : roundEven a = n := by
  have h1 := roundEven_error a
  have h2 : |((roundEven a - n : ℤ) : ℝ)| < 1 := by
    push_cast
    have := abs_sub_le (roundEven a : ℝ) a n
    rw [abs_sub_comm (roundEven a : ℝ) a] at this
    linarith
  have h3 : |roundEven a - n| < 1 := by exact_mod_cast h2
  have := Int.abs_lt_one_iff.1 h3
  omega

theorem fraction2_mem {x : ℝ} (hx : 0 < x) : 1 / 2 ≤ fraction2 x ∧ fraction2 x < 1 := by
  have h1 := Int.zpow_log_le_self (b := 2) (by norm_num) hx
  have h2 := Int.lt_zpow_succ_log_self (b := 2) (by norm_num) x
  push_cast at h1 h2
  have hp : (0 : ℝ) < 2 ^ (Int.log 2 x + 1) := by positivity
  unfold fraction2 exponentF
  rw [le_div_iff₀ hp, div_lt_one hp]
  refine ⟨?_, h2⟩
  rw [zpow_add_one₀ (by norm_num)]
  linarith

theorem reduced_spec {x : ℝ} (hx : 0 < x) :
    x = (1 + reduced x) * (2 : ℝ) ^ reducedExponent x := by
  have hp : (0 : ℝ) < 2 ^ (exponentF x + 1) := by positivity
  have h : x = fraction2 x * 2 ^ (exponentF x + 1) := by
    unfold fraction2; rw [div_mul_cancel₀ _ hp.ne']
  unfold reduced reducedExponent
  split_ifs
  · rw [add_sub_cancel]; exact h
  · rw [add_sub_cancel]
    rw [zpow_add_one₀ (by norm_num)] at h
    linarith

theorem sqrt_two_bounds : (1.41421356 : ℝ) < √2 ∧ √2 < 1.41421357 := by
  constructor
  · rw [Real.lt_sqrt (by norm_num)]; norm_num
  · rw [Real.sqrt_lt' (by norm_num)]; norm_num

/-- The reduced argument lies between `√2/2` and `√2`. -/
theorem reduced_mem {x : ℝ} (hx : 0 < x) :
    √2 / 2 ≤ 1 + reduced x ∧ 1 + reduced x ≤ √2 := by
  have h := fraction2_mem hx
  have hs := sqrt_two_bounds
  unfold reduced blend
  by_cases hb : √2 * 0.5 < fraction2 x
  · rw [decide_eq_true hb]
    simp only [if_true]
    constructor <;> linarith
  · rw [decide_eq_false hb]
    rw [not_lt] at hb
    simp only [Bool.false_eq_true, if_false]
    constructor <;> linarith

theorem reduced_range {x : ℝ} (hx : 0 < x) :
    -3 / 10 ≤ reduced x ∧ reduced x ≤ 42 / 100 := by
  have h := reduced_mem hx
  have hs := sqrt_two_bounds
  constructor <;> linarith [h.1, h.2]

theorem log_reduced_le {x : ℝ} (hx : 0 < x) : |Real.log (1 + reduced x)| ≤ Real.log 2 / 2 := by
  have h := reduced_mem hx
  have hs : (0 : ℝ) < √2 := by positivity
  have hl : Real.log √2 = Real.log 2 / 2 := Real.log_sqrt (by norm_num)
  have hl2 : Real.log (√2 / 2) = -(Real.log 2 / 2) := by
    rw [Real.log_div hs.ne' (by norm_num), hl]; ring
  have hpos : (0 : ℝ) < 1 + reduced x := lt_of_lt_of_le (by positivity) h.1
  rw [abs_le, ← hl2]
  refine ⟨Real.log_le_log (by positivity) h.1, ?_⟩
  rw [← hl]
  exact Real.log_le_log hpos h.2

theorem log_two_pos' : (0 : ℝ) < Real.log 2 := Real.log_pos (by norm_num)

theorem taylorArg_le (x y : ℝ) : |taylorArg x y| ≤ Real.log 2 / 2 := by
  have h := roundEven_error (v x y * (1 / Real.log 2))
  have hl := log_two_pos'
  have e : taylorArg x y = (v x y * (1 / Real.log 2) - e3 x y) * Real.log 2 := by
    unfold taylorArg
    field_simp
  rw [e, abs_mul, abs_of_pos hl]
  unfold e3
  nlinarith

/-- The Taylor polynomial is accurate. -/
theorem taylor_error {w : ℝ} (hw : |w| ≤ Real.log 2 / 2) :
    |taylor w - Real.exp w| ≤ 1e-8 * Real.exp w := by
  have hl := Real.log_two_lt_d9
  have hw' : |w| ≤ 0.3465735904 := by linarith
  have h := Real.exp_bound (x := w) (by linarith) (n := 8) (by norm_num)
  have e : ∑ m ∈ Finset.range 8, w ^ m / (m.factorial : ℝ) = taylor w := by
    simp only [Finset.sum_range_succ, Finset.sum_range_zero, Nat.factorial]
    unfold taylor expPoly
    push_cast
    ring
  rw [e, abs_sub_comm] at h
  have hp : |w| ^ 8 ≤ 0.3465735904 ^ 8 := pow_le_pow_left₀ (abs_nonneg w) hw' 8
  have hexp : (0.65 : ℝ) ≤ Real.exp w := by
    have := Real.add_one_le_exp w
    have := (abs_le.1 hw').1
    linarith
  refine h.trans ?_
  have hc : ((Nat.succ 8 : ℕ) : ℝ) / ((Nat.factorial 8 : ℕ) * ((8 : ℕ) : ℝ)) = 9 / 322560 := by
    simp only [Nat.factorial]; norm_num
  rw [hc]
  have : |w| ^ 8 * (9 / 322560) ≤ 0.3465735904 ^ 8 * (9 / 322560) :=
    mul_le_mul_of_nonneg_right hp (by norm_num)
  refine this.trans ?_
  norm_num
  linarith

theorem taylor_pos {w : ℝ} (hw : |w| ≤ Real.log 2 / 2) : 0 < taylor w := by
  have h := (abs_le.1 (taylor_error hw)).1
  have := Real.exp_pos w
  linarith

theorem log_taylor_error {w : ℝ} (hw : |w| ≤ Real.log 2 / 2) :
    |Real.log (taylor w) - w| ≤ 2e-8 := by
  have h := abs_le.1 (taylor_error hw)
  have hp := taylor_pos hw
  have he := Real.exp_pos w
  rw [abs_le]
  constructor
  · have : Real.exp (w - 2e-8) ≤ taylor w := by
      have h1 : Real.exp (-2e-8) ≤ 1 - 1e-8 := by
        have h2 : (1 : ℝ) + 2e-8 ≤ Real.exp 2e-8 := by
          have := Real.add_one_le_exp (2e-8 : ℝ); linarith
        rw [Real.exp_neg, inv_le_comm₀ (Real.exp_pos _) (by norm_num)]
        refine le_trans ?_ h2
        norm_num
      rw [sub_eq_add_neg, Real.exp_add]
      nlinarith
    have := (Real.le_log_iff_exp_le hp).2 this
    linarith
  · have : taylor w ≤ Real.exp (w + 2e-8) := by
      have h2 : (1 : ℝ) + 2e-8 ≤ Real.exp 2e-8 := by
        have := Real.add_one_le_exp (2e-8 : ℝ); linarith
      rw [Real.exp_add]
      nlinarith
    have := (Real.log_le_iff_le_exp hp).2 this
    linarith

/-- The value before the check for overflow and underflow. -/
noncomputable def rawPow (x1 y : ℝ) : ℝ := taylor (taylorArg x1 y) * (2 : ℝ) ^ ei x1 y

theorem rawPow_pos (x y : ℝ) : 0 < rawPow x y :=
  mul_pos (taylor_pos (taylorArg_le x y)) (by positivity)

/-- The logarithm of the computed value. -/
theorem log_rawPow {x : ℝ} (hx : 0 < x) (y : ℝ) :
    Real.log (rawPow x y) - y * Real.log x
      = y * (lg (reduced x) - Real.log (1 + reduced x)) + e2 x y * (Real.log 2 - ln2Hi)
        + (Real.log (taylor (taylorArg x y)) - taylorArg x y) := by
  have hx' : Real.log x = Real.log (1 + reduced x) + reducedExponent x * Real.log 2 := by
    have h := reduced_mem hx
    have hpos : (0 : ℝ) < 1 + reduced x := lt_of_lt_of_le (by positivity) h.1
    conv_lhs => rw [reduced_spec hx]
    rw [Real.log_mul hpos.ne' (by positivity), Real.log_zpow]
  unfold rawPow
  rw [Real.log_mul (taylor_pos (taylorArg_le x y)).ne' (by positivity), Real.log_zpow, hx']
  have e : taylorArg x y + ei x y * Real.log 2
      = lg (reduced x) * y + reducedExponent x * y * Real.log 2
        + e2 x y * (Real.log 2 - ln2Hi) := by
    unfold taylorArg v yr ei
    have : lgerr (reduced x) + x2err (reduced x) = 0 := by
      unfold lgerr x2err lg; ring
    rw [this]
    push_cast
    ring
  linear_combination e

theorem e2_error {x : ℝ} (hx : 0 < x) (y : ℝ) :
    |e2 x y * Real.log 2 - y * Real.log (1 + reduced x)| ≤ Real.log 2 / 2 + |y| * 4.7e-7 := by
  have h := roundEven_error (lg (reduced x) * y * (1 / Real.log 2))
  have hr := reduced_range hx
  have hg := lg_error hr.1 hr.2
  have hl := log_two_pos'
  have e : e2 x y * Real.log 2 - y * Real.log (1 + reduced x)
      = -((lg (reduced x) * y * (1 / Real.log 2) - e2 x y) * Real.log 2)
        + y * (lg (reduced x) - Real.log (1 + reduced x)) := by
    field_simp
    ring
  rw [e]
  refine (abs_add_le _ _).trans ?_
  rw [abs_neg, abs_mul, abs_mul, abs_of_pos hl]
  have h2 := mul_le_mul_of_nonneg_left hg (abs_nonneg y)
  have h3 := mul_le_mul_of_nonneg_right h hl.le
  unfold e2 at h ⊢
  linarith

/-- No overflow and no underflow if the value is moderate. -/
theorem fastPow_eq (b : Bias) {x y : ℝ} (hx : (2 : ℝ) ^ (-126 : ℤ) ≤ x)
    (h1 : |Real.log (rawPow x y)| ≤ 120 * Real.log 2) : fastPow b x y = .finite (rawPow x y) := by
  have hx0 : 0 < x := lt_of_lt_of_le (by positivity) hx
  have hl := log_two_pos'
  have hw := taylorArg_le x y
  have ht := taylor_pos hw
  have hte := log_taylor_error hw
  have hlog : Real.log (rawPow x y) = Real.log (taylor (taylorArg x y)) + ei x y * Real.log 2 := by
    unfold rawPow
    rw [Real.log_mul ht.ne' (by positivity), Real.log_zpow]
  have hl9 := Real.log_two_gt_d9
  have hlt : |Real.log (taylor (taylorArg x y))| < Real.log 2 := by
    have := abs_sub_abs_le_abs_sub (Real.log (taylor (taylorArg x y))) (taylorArg x y)
    linarith
  have hei : |(ei x y : ℝ)| < 122 := by
    have h3 : |(ei x y : ℝ) * Real.log 2| < 122 * Real.log 2 := by
      have e : (ei x y : ℝ) * Real.log 2
        = Real.log (rawPow x y) - Real.log (taylor (taylorArg x y)) := by rw [hlog]; ring
      rw [e]
      refine lt_of_le_of_lt (abs_sub _ _) ?_
      linarith
    rw [abs_mul, abs_of_pos hl] at h3
    exact lt_of_mul_lt_mul_right h3 hl.le
  have hei' : |ei x y| < 122 := by exact_mod_cast hei
  rw [abs_lt] at hei'
  have hlo : -1 ≤ Int.log 2 |taylor (taylorArg x y)| := by
    rw [abs_of_pos ht]
    refine (Int.zpow_le_iff_le_log (by norm_num) ht).1 ?_
    have : Real.log ((2 : ℝ) ^ (-1 : ℤ)) ≤ Real.log (taylor (taylorArg x y)) := by
      rw [Real.log_zpow]
      have := (abs_lt.1 hlt).1
      push_cast
      linarith
    have := (Real.log_le_log_iff (by positivity) ht).1 this
    exact_mod_cast this
  have hhi : Int.log 2 |taylor (taylorArg x y)| < 1 := by
    rw [abs_of_pos ht]
    refine (Int.lt_zpow_iff_log_lt (by norm_num) ht).1 ?_
    have : Real.log (taylor (taylorArg x y)) < Real.log ((2 : ℝ) ^ (1 : ℤ)) := by
      rw [zpow_one]
      exact (abs_lt.1 hlt).2
    have := (Real.log_lt_log_iff ht (by positivity)).1 this
    exact_mod_cast this
  unfold fastPow
  simp only [abs_of_pos hx0]
  rw [if_neg (not_lt.2 hx), if_neg, if_neg]
  · rfl
  · unfold ej; omega
  · unfold ej; omega

end FastPow
end Ryujin
