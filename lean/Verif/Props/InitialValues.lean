import Verif.Model.InitialValues
import Verif.Props.EulerSystem
import Mathlib.Tactic.Linarith
import Mathlib.Tactic.FieldSimp
import Mathlib.Tactic.LinearCombination

/-!
# The initial configuration transform (C47)

The configured direction `n` is a unit vector: `parse_parameters_callback` normalises it.  The theorems on inverses and
lengths do not need this.
-/

namespace Ryujin
namespace InitialValues

noncomputable section

/-! ### The plane rotations -/

theorem unit_of_norm {a b : ℝ} (h : Real.sqrt (a * a + b * b) > 1e-14) :
    (a / Real.sqrt (a * a + b * b)) ^ 2 + (b / Real.sqrt (a * a + b * b)) ^ 2 = 1 := by
  have hp : 0 < Real.sqrt (a * a + b * b) := lt_trans (by norm_num) h
  have hs : Real.sqrt (a * a + b * b) ^ 2 = a * a + b * b := Real.sq_sqrt (by nlinarith)
  rw [div_pow, div_pow, ← add_div, hs, ← sq, ← sq]
  apply div_self
  have := Real.sqrt_pos.1 hp
  nlinarith

theorem unroll_roll {d : ℕ} (k : Fin (d + 1)) (hk : k ≠ 0) (n v : Vec (d + 1)) : unroll k n (roll k n v) = v := by
  unfold roll unroll
  dsimp only
  split_ifs with h
  · have hu := unit_of_norm h
    generalize n 0 / Real.sqrt (n 0 * n 0 + n k * n k) = a at *
    generalize n k / Real.sqrt (n 0 * n 0 + n k * n k) = b at *
    funext i
    by_cases h0 : i = 0
    · subst h0
      simp only [if_true, hk, if_false]
      linear_combination v 0 * hu
    · by_cases hi : i = k
      · subst hi
        simp only [if_true, hk, if_false]
        linear_combination v i * hu
      · simp [h0, hi]
  · rfl

theorem roll_unroll {d : ℕ} (k : Fin (d + 1)) (hk : k ≠ 0) (n v : Vec (d + 1)) : roll k n (unroll k n v) = v := by
  unfold roll unroll
  dsimp only
  split_ifs with h
  · have hu := unit_of_norm h
    generalize n 0 / Real.sqrt (n 0 * n 0 + n k * n k) = a at *
    generalize n k / Real.sqrt (n 0 * n 0 + n k * n k) = b at *
    funext i
    by_cases h0 : i = 0
    · subst h0
      simp only [if_true, hk, if_false]
      linear_combination v 0 * hu
    · by_cases hi : i = k
      · subst hi
        simp only [if_true, hk, if_false]
        linear_combination v i * hu
      · simp [h0, hi]
  · rfl

theorem dot_roll {d : ℕ} (k : Fin (d + 1)) (hk : k ≠ 0) (n v w : Vec (d + 1)) : dot (roll k n v) (roll k n w) = dot v w := by
  unfold roll
  dsimp only
  split_ifs with h
  · have hu := unit_of_norm h
    generalize n 0 / Real.sqrt (n 0 * n 0 + n k * n k) = a at *
    generalize n k / Real.sqrt (n 0 * n 0 + n k * n k) = b at *
    unfold dot
    have hk' : k ∈ Finset.univ.erase (0 : Fin (d + 1)) := Finset.mem_erase.2 ⟨hk, Finset.mem_univ _⟩
    rw [← Finset.add_sum_erase _ _ (Finset.mem_univ (0 : Fin (d + 1))), ← Finset.add_sum_erase _ _ hk',
      ← Finset.add_sum_erase _ (fun i => v i * w i) (Finset.mem_univ (0 : Fin (d + 1))),
      ← Finset.add_sum_erase _ (fun i => v i * w i) hk']
    simp only [if_true, hk, if_false]
    have : ∀ i ∈ (Finset.univ.erase (0 : Fin (d + 1))).erase k,
        ((if i = 0 then a * v 0 + b * v k else if i = k then -b * v 0 + a * v k else v i) *
          if i = 0 then a * w 0 + b * w k else if i = k then -b * w 0 + a * w k else w i) = v i * w i := by
      intro i hi
      obtain ⟨h1, h2⟩ := Finset.mem_erase.1 hi
      obtain ⟨h3, -⟩ := Finset.mem_erase.1 h2
      rw [if_neg h3, if_neg h1, if_neg h3, if_neg h1]
    rw [Finset.sum_congr rfl this]
    linear_combination (v 0 * w 0 + v k * w k) * hu
  · rfl

theorem dot_unroll {d : ℕ} (k : Fin (d + 1)) (hk : k ≠ 0) (n v w : Vec (d + 1)) :
    dot (unroll k n v) (unroll k n w) = dot v w := by
  rw [← dot_roll k hk n (unroll k n v) (unroll k n w), roll_unroll k hk, roll_unroll k hk]

/-! ### C47 -/

/-- **C47 (inverse maps).**  Transforming the vector from the position to a point back gives the vector, and every
point of the configuration is hit: the two transforms are inverse to each other, in two and three dimensions. -/
theorem C47_inverse :
    (∀ n p x : Vec 2, transformVector2 n (transform2 n p x) = x - p) ∧
      (∀ n p y : Vec 2, transform2 n p (p + transformVector2 n y) = y) ∧
      (∀ n p x : Vec 3, transformVector3 n (transform3 n p x) = x - p) ∧
      ∀ n p y : Vec 3, transform3 n p (p + transformVector3 n y) = y := by
  refine ⟨fun n p x => unroll_roll 1 (by decide) n _, fun n p y => ?_, fun n p x => ?_, fun n p y => ?_⟩
  · unfold transform2 transformVector2
    rw [add_sub_cancel_left, roll_unroll 1 (by decide)]
  · unfold transform3 transformVector3
    rw [unroll_roll 1 (by decide), unroll_roll 2 (by decide)]
  · unfold transform3 transformVector3
    rw [add_sub_cancel_left, roll_unroll 2 (by decide), roll_unroll 1 (by decide)]

/-- **C47 (rigid motions).**  Both transforms preserve angles and lengths. -/
theorem C47_isometry :
    (∀ n p x y : Vec 2, vnorm (transform2 n p x - transform2 n p y) = vnorm (x - y)) ∧
      (∀ n v w : Vec 2, dot (transformVector2 n v) (transformVector2 n w) = dot v w) ∧
      (∀ n p x y : Vec 3, vnorm (transform3 n p x - transform3 n p y) = vnorm (x - y)) ∧
      ∀ n v w : Vec 3, dot (transformVector3 n v) (transformVector3 n w) = dot v w := by
  have lin : ∀ {d : ℕ} (k : Fin (d + 1)) (n v w : Vec (d + 1)), roll k n v - roll k n w = roll k n (v - w) := by
    intro d k n v w
    unfold roll
    dsimp only
    split_ifs
    · funext i
      simp only [Pi.sub_apply]
      split_ifs <;> ring
    · rfl
  have hn : ∀ {d : ℕ} (k : Fin (d + 1)), k ≠ 0 → ∀ n v : Vec (d + 1), vnorm (roll k n v) = vnorm v := by
    intro d k hk n v
    unfold vnorm
    rw [normSq_eq_dot, normSq_eq_dot, dot_roll k hk]
  refine ⟨fun n p x y => ?_, fun n v w => dot_unroll 1 (by decide) n v w, fun n p x y => ?_, fun n v w => ?_⟩
  · unfold transform2
    rw [lin, hn 1 (by decide), sub_sub_sub_cancel_right]
  · unfold transform3
    rw [lin, lin, hn 1 (by decide), hn 2 (by decide), sub_sub_sub_cancel_right]
  · unfold transformVector3
    rw [dot_unroll 2 (by decide), dot_unroll 1 (by decide)]

theorem roll_pair {d : ℕ} (k : Fin (d + 1)) (n v : Vec (d + 1)) (h : Real.sqrt (n 0 * n 0 + n k * n k) > 1e-14) (i : Fin (d + 1)) :
    roll k n v i = if i = 0 then (n 0 * v 0 + n k * v k) / Real.sqrt (n 0 * n 0 + n k * n k) else
      if i = k then (n 0 * v k - n k * v 0) / Real.sqrt (n 0 * n 0 + n k * n k) else v i := by
  unfold roll
  rw [if_pos h]
  split_ifs <;> ring

/-- **C47 (direction, two dimensions).**  The ray from the position in the configured direction is mapped to the
positive x axis, and conversely the x axis to the direction. -/
theorem C47_direction2 (n p : Vec 2) (hn : normSq n = 1) (s : ℝ) :
    transform2 n p (p + s • n) = ![s, 0] ∧ transformVector2 n ![s, 0] = s • n := by
  have hs : n 0 * n 0 + n 1 * n 1 = 1 := by
    have := hn
    simp only [normSq, Fin.sum_univ_two] at this
    exact this
  have h : transform2 n p (p + s • n) = ![s, 0] := by
    funext i
    unfold transform2
    rw [roll_pair 1 n _ (by rw [hs]; norm_num), hs, Real.sqrt_one]
    fin_cases i
    · simp only [add_sub_cancel_left, Pi.smul_apply, smul_eq_mul]
      simp
      linear_combination s * hs
    · simp only [add_sub_cancel_left, Pi.smul_apply, smul_eq_mul]
      simp
      ring
  refine ⟨h, ?_⟩
  have := C47_inverse.1 n p (p + s • n)
  rw [h, add_sub_cancel_left] at this
  exact this

/-- The image of the direction after the two rolls in three dimensions, if both have an effect. -/
theorem transform3_direction (n p : Vec 3) (h2 : Real.sqrt (n 0 * n 0 + n 2 * n 2) > 1e-14)
    (h1 : Real.sqrt (n 0 * n 0 + n 1 * n 1) > 1e-14) :
    transform3 n p (p + n) =
      ![(n 0 * Real.sqrt (n 0 * n 0 + n 2 * n 2) + n 1 * n 1) / Real.sqrt (n 0 * n 0 + n 1 * n 1),
        n 1 * (n 0 - Real.sqrt (n 0 * n 0 + n 2 * n 2)) / Real.sqrt (n 0 * n 0 + n 1 * n 1), 0] := by
  have hp : 0 < Real.sqrt (n 0 * n 0 + n 2 * n 2) := lt_trans (by norm_num) h2
  have hs : Real.sqrt (n 0 * n 0 + n 2 * n 2) * Real.sqrt (n 0 * n 0 + n 2 * n 2) = n 0 * n 0 + n 2 * n 2 :=
    Real.mul_self_sqrt (by nlinarith)
  have e0 : (n 0 * n 0 + n 2 * n 2) / Real.sqrt (n 0 * n 0 + n 2 * n 2) = Real.sqrt (n 0 * n 0 + n 2 * n 2) := by
    rw [div_eq_iff hp.ne', hs]
  have r0 : roll 2 n n 0 = Real.sqrt (n 0 * n 0 + n 2 * n 2) := by
    rw [roll_pair 2 n n h2, if_pos rfl, e0]
  have r1 : roll 2 n n 1 = n 1 := by
    rw [roll_pair 2 n n h2, if_neg (by decide), if_neg (by decide)]
  have r2 : roll 2 n n 2 = 0 := by
    rw [roll_pair 2 n n h2, if_neg (by decide), if_pos rfl]
    ring_nf
  funext i
  unfold transform3
  rw [add_sub_cancel_left, roll_pair 1 n _ h1, r0, r1]
  fin_cases i
  · rfl
  · simp only [show (⟨1, by norm_num⟩ : Fin 3) ≠ 0 by decide]
    simp
    congr 1
    ring
  · simp only [show (⟨2, by norm_num⟩ : Fin 3) ≠ 0 by decide, show (⟨2, by norm_num⟩ : Fin 3) ≠ 1 by decide, if_false]
    exact r2

/-- **C47 (direction, three dimensions, partial).**  The configured direction is mapped to the x axis if it lies in the
xy plane or in the xz plane and does not point to the left. -/
theorem C47_direction3_partial (n p : Vec 3) (hn : normSq n = 1) (hx : 0 ≤ n 0) (h : n 1 = 0 ∨ n 2 = 0)
    (hsmall : n 0 = 0 ∨ n 0 > 1e-14) :
    transform3 n p (p + n) = ![1, 0, 0] ∧ transformVector3 n ![1, 0, 0] = n := by
  have hs : n 0 * n 0 + n 1 * n 1 + n 2 * n 2 = 1 := by
    have := hn
    simp only [normSq, Fin.sum_univ_three] at this
    exact this
  have h : transform3 n p (p + n) = ![1, 0, 0] := by
    have sq0 : Real.sqrt (n 0 * n 0) = n 0 := Real.sqrt_mul_self hx
    rcases hsmall with h0 | h0
    · rcases h with h1 | h1
      · -- direction ± z
        have hz : n 2 * n 2 = 1 := by rw [h0, h1] at hs; linarith
        have e2 : Real.sqrt (n 0 * n 0 + n 2 * n 2) = 1 := by rw [h0, hz]; simp
        have e1 : ¬ Real.sqrt (n 0 * n 0 + n 1 * n 1) > 1e-14 := by rw [h0, h1]; norm_num
        unfold transform3
        rw [add_sub_cancel_left]
        have : ∀ v, roll 1 n v = v := by
          intro v; unfold roll; dsimp only; rw [if_neg e1]
        rw [this]
        funext i
        rw [roll_pair 2 n n (by rw [e2]; norm_num), e2]
        fin_cases i
        · simp [h0, hz]
        · simp [h1]
        · simp
          ring
      · -- direction ± y
        have hy : n 1 * n 1 = 1 := by rw [h0, h1] at hs; linarith
        have e1 : Real.sqrt (n 0 * n 0 + n 1 * n 1) = 1 := by rw [h0, hy]; simp
        have e2 : ¬ Real.sqrt (n 0 * n 0 + n 2 * n 2) > 1e-14 := by rw [h0, h1]; norm_num
        unfold transform3
        rw [add_sub_cancel_left]
        have : ∀ v, roll 2 n v = v := by
          intro v; unfold roll; dsimp only; rw [if_neg e2]
        rw [this]
        funext i
        rw [roll_pair 1 n n (by rw [e1]; norm_num), e1]
        fin_cases i
        · simp [h0, hy]
        · simp
          ring
        · simp [h1]
    · rcases h with h1 | h1
      · have hz : n 0 * n 0 + n 2 * n 2 = 1 := by rw [h1] at hs; linarith
        have e1 : Real.sqrt (n 0 * n 0 + n 1 * n 1) = n 0 := by rw [h1]; simp [sq0]
        rw [transform3_direction n p (by rw [hz]; norm_num) (by rw [e1]; exact h0), hz, e1, h1]
        have : n 0 ≠ 0 := by linarith
        simp [this]
      · have hy : n 0 * n 0 + n 1 * n 1 = 1 := by rw [h1] at hs; linarith
        have e2 : Real.sqrt (n 0 * n 0 + n 2 * n 2) = n 0 := by rw [h1]; simp [sq0]
        rw [transform3_direction n p (by rw [e2]; exact h0) (by rw [hy]; norm_num), hy, e2]
        simp [hy]
  refine ⟨h, ?_⟩
  have := C47_inverse.2.2.1 n p (p + n)
  rw [h, add_sub_cancel_left] at this
  exact this

/-- **C47 (violation in three dimensions).**  In all other cases with both rolls in effect the direction is *not*
mapped to the x axis: it is exactly if the direction has no y component and points to the right, or no z component and
points to the right. -/
theorem C47_direction3_violation (n p : Vec 3) (hn : normSq n = 1) (h2 : Real.sqrt (n 0 * n 0 + n 2 * n 2) > 1e-14)
    (h1 : Real.sqrt (n 0 * n 0 + n 1 * n 1) > 1e-14) :
    transform3 n p (p + n) = ![1, 0, 0] ↔ 0 < n 0 ∧ (n 1 = 0 ∨ n 2 = 0) := by
  have hs : n 0 * n 0 + n 1 * n 1 + n 2 * n 2 = 1 := by
    have := hn
    simp only [normSq, Fin.sum_univ_three] at this
    exact this
  have hp2 : 0 < Real.sqrt (n 0 * n 0 + n 2 * n 2) := lt_trans (by norm_num) h2
  have hp1 : 0 < Real.sqrt (n 0 * n 0 + n 1 * n 1) := lt_trans (by norm_num) h1
  have hs2 : Real.sqrt (n 0 * n 0 + n 2 * n 2) * Real.sqrt (n 0 * n 0 + n 2 * n 2) = n 0 * n 0 + n 2 * n 2 :=
    Real.mul_self_sqrt (by nlinarith)
  have hs1 : Real.sqrt (n 0 * n 0 + n 1 * n 1) * Real.sqrt (n 0 * n 0 + n 1 * n 1) = n 0 * n 0 + n 1 * n 1 :=
    Real.mul_self_sqrt (by nlinarith)
  rw [transform3_direction n p h2 h1]
  generalize Real.sqrt (n 0 * n 0 + n 2 * n 2) = r at *
  generalize Real.sqrt (n 0 * n 0 + n 1 * n 1) = s at *
  constructor
  · intro h
    have a0 := congrFun h 0
    have a1 := congrFun h 1
    simp only [Matrix.cons_val_zero, Matrix.cons_val_one] at a0 a1
    rw [div_eq_iff hp1.ne', one_mul] at a0
    rw [div_eq_iff hp1.ne', zero_mul] at a1
    rcases mul_eq_zero.1 a1 with b | b
    · have hn0 : 0 < n 0 := by
        rw [b] at a0
        have : 0 < n 0 * r := by linarith
        exact (pos_iff_pos_of_mul_pos this).2 hp2
      exact ⟨hn0, Or.inl b⟩
    · have hr : n 0 = r := by linarith
      refine ⟨by rw [hr]; exact hp2, Or.inr ?_⟩
      rw [← hr] at hs2
      have : n 2 * n 2 = 0 := by linarith
      simpa using this
  · rintro ⟨hpos, h | h⟩
    · have hr : r = 1 := by
        rw [h] at hs
        nlinarith
      have hs' : s = n 0 := by
        rw [h] at hs1
        nlinarith
      rw [h, hr, hs']
      simp [hpos.ne']
    · have hr : r = n 0 := by
        rw [h] at hs2
        nlinarith
      have hs' : s = 1 := by
        rw [h] at hs
        nlinarith
      have : n 0 * n 0 + n 1 * n 1 = 1 := by rw [h] at hs; linarith
      rw [hr, hs']
      simp [this]

/-- Two concrete directions for which the configuration points elsewhere: the diagonal of the xyz octant, and the
negative x axis, for which the two rolls cancel. -/
theorem C47_direction3_concrete_violation (p : Vec 3) :
    transform3 ![2 / 3, 1 / 3, 2 / 3] p (p + ![2 / 3, 1 / 3, 2 / 3]) ≠ ![1, 0, 0] ∧
      transform3 ![-1, 0, 0] p (p + ![-1, 0, 0]) = ![-1, 0, 0] := by
  constructor
  · intro h
    have e0 : (![2 / 3, 1 / 3, 2 / 3] : Vec 3) 0 = 2 / 3 := rfl
    have e1 : (![2 / 3, 1 / 3, 2 / 3] : Vec 3) 1 = 1 / 3 := rfl
    have e2 : (![2 / 3, 1 / 3, 2 / 3] : Vec 3) 2 = 2 / 3 := rfl
    rw [C47_direction3_violation, e0, e1, e2] at h
    · norm_num at h
    · simp only [normSq, Fin.sum_univ_three, e0, e1, e2]; norm_num
    · rw [e0, e2]
      exact Real.lt_sqrt_of_sq_lt (by norm_num)
    · rw [e0, e1]
      exact Real.lt_sqrt_of_sq_lt (by norm_num)
  · have e0 : (![-1, 0, 0] : Vec 3) 0 = -1 := rfl
    have e1 : (![-1, 0, 0] : Vec 3) 1 = 0 := rfl
    have e2 : (![-1, 0, 0] : Vec 3) 2 = 0 := rfl
    rw [transform3_direction, e0, e1, e2]
    · norm_num
    · rw [e0, e2]; norm_num
    · rw [e0, e1]; norm_num

/-! ### The initial state -/

/-- **C47 (thermodynamics).**  The transformed initial state has the density, total energy, internal energy and
pressure of the configuration at the transformed point; only the momentum is rotated. -/
theorem C47_initial_state {d : ℕ} (T Tv : Vec d → Vec d) (hT : ∀ v, normSq (Tv v) = normSq v)
    (compute : Vec d → ℝ → Euler.State d) (pr : Euler.Params) (x : Vec d) (t : ℝ) :
    Euler.density (initialState T Tv compute x t) = Euler.density (compute (T x) t) ∧
      Euler.momentum (initialState T Tv compute x t) = Tv (Euler.momentum (compute (T x) t)) ∧
      Euler.totalEnergy (initialState T Tv compute x t) = Euler.totalEnergy (compute (T x) t) ∧
      Euler.internalEnergy (initialState T Tv compute x t) = Euler.internalEnergy (compute (T x) t) ∧
      Euler.pressure pr (initialState T Tv compute x t) = Euler.pressure pr (compute (T x) t) := by
  have hd : Euler.density (initialState T Tv compute x t) = Euler.density (compute (T x) t) := by
    simp [initialState, Euler.applyGalileiTransform]
  have hm : Euler.momentum (initialState T Tv compute x t) = Tv (Euler.momentum (compute (T x) t)) := by
    simp [initialState, Euler.applyGalileiTransform]
  have hE : Euler.totalEnergy (initialState T Tv compute x t) = Euler.totalEnergy (compute (T x) t) := by
    simp [initialState, Euler.applyGalileiTransform]
  have hI : Euler.internalEnergy (initialState T Tv compute x t) = Euler.internalEnergy (compute (T x) t) := by
    unfold Euler.internalEnergy
    rw [hd, hm, hE, hT]
  exact ⟨hd, hm, hE, hI, by unfold Euler.pressure; rw [hI]⟩

/-- The hypothesis of `C47_initial_state` holds for the transforms in use. -/
example : (∀ n v : Vec 2, normSq (transformVector2 n v) = normSq v) ∧
    ∀ n v : Vec 3, normSq (transformVector3 n v) = normSq v := by
  refine ⟨fun n v => ?_, fun n v => ?_⟩
  · rw [normSq_eq_dot, normSq_eq_dot]; exact C47_isometry.2.1 n v v
  · rw [normSq_eq_dot, normSq_eq_dot]; exact C47_isometry.2.2.2 n v v

/-- The normalised direction is a unit vector: the hypothesis of the direction theorems. -/
theorem C47_normalized {d : ℕ} (n m : Vec d) (h : normalizeDirection n = some m) : normSq m = 1 := by
  classical
  unfold normalizeDirection at h
  split_ifs at h with h0
  obtain rfl := Option.some.inj h
  have hsq : vnorm n ^ 2 = normSq n := Real.sq_sqrt (normSq_nonneg n)
  have : normSq (fun i => n i / vnorm n) = normSq n / vnorm n ^ 2 := by
    unfold normSq
    rw [Finset.sum_div]
    refine Finset.sum_congr rfl fun i _ => ?_
    rw [div_mul_div_comm, sq]
  rw [this, hsq, div_self]
  intro h1
  rw [h1] at hsq
  exact h0 (by simpa using hsq)

/-- A direction that is normalised: (3,4). -/
example : normalizeDirection (![3, 4] : Vec 2) = some fun i => (![3, 4] : Vec 2) i / 5 := by
  have : vnorm (![3, 4] : Vec 2) = 5 := by
    unfold vnorm normSq
    rw [Fin.sum_univ_two]
    rw [show (![3, 4] : Vec 2) 0 * (![3, 4] : Vec 2) 0 + (![3, 4] : Vec 2) 1 * (![3, 4] : Vec 2) 1 = 5 * 5 by norm_num]
    exact Real.sqrt_mul_self (by norm_num)
  unfold normalizeDirection
  rw [this]
  norm_num

/-! ### The random perturbation (C78) -/

/-- C78: the analytic solution (`t > 0`) is never perturbed, and a zero perturbation changes nothing at any time. -/
theorem C78_perturbation_off {d k : ℕ} (perturbation : ℝ) (draw : Fin k → ℝ) (old : Vec d → ℝ → Fin k → ℝ) (x : Vec d)
    (t : ℝ) (h : 0 < t ∨ perturbation = 0) : perturbed perturbation draw old x t = old x t := by
  classical
  unfold perturbed
  rcases h with h | h
  · split_ifs
    · rfl
    · rfl
  · rw [if_pos h]

/-- C78: at the initial time every component is changed by at most the configured fraction of its absolute value, and in
the direction given by the drawn number. -/
theorem C78_perturbation_size {d k : ℕ} (perturbation : ℝ) (draw : Fin k → ℝ) (hdraw : ∀ i, |draw i| ≤ 1)
    (old : Vec d → ℝ → Fin k → ℝ) (x : Vec d) (t : ℝ) (ht : t ≤ 0) (i : Fin k) :
    perturbed perturbation draw old x t i - old x t i = perturbation * draw i * old x t i ∧
    |perturbed perturbation draw old x t i - old x t i| ≤ |perturbation| * |old x t i| := by
  classical
  have h : perturbed perturbation draw old x t i - old x t i = perturbation * draw i * old x t i := by
    unfold perturbed
    split_ifs with h0 h1
    · rw [h0]; ring
    · exact absurd h1 (not_lt.2 ht)
    · ring
  refine ⟨h, ?_⟩
  rw [h, abs_mul, abs_mul]
  have h1 : |perturbation| * |draw i| ≤ |perturbation| * 1 := mul_le_mul_of_nonneg_left (hdraw i) (abs_nonneg _)
  rw [mul_one] at h1
  exact mul_le_mul_of_nonneg_right h1 (abs_nonneg _)

/-- C78: a perturbation below 100% keeps the sign of every component, in particular densities and water depths stay
positive. -/
theorem C78_perturbation_positive {d k : ℕ} (perturbation : ℝ) (hp : |perturbation| < 1) (draw : Fin k → ℝ)
    (hdraw : ∀ i, |draw i| ≤ 1) (old : Vec d → ℝ → Fin k → ℝ) (x : Vec d) (t : ℝ) (i : Fin k) (h : 0 < old x t i) :
    0 < perturbed perturbation draw old x t i := by
  rcases le_or_gt t 0 with ht | ht
  · have := (abs_le.1 (C78_perturbation_size perturbation draw hdraw old x t ht i).2).1
    rw [abs_of_pos h] at this
    nlinarith
  · rw [C78_perturbation_off perturbation draw old x t (Or.inl ht)]
    exact h

/-- A perturbation that does change the state: 10% with extreme draws. -/
example : perturbed (d := 1) (1 / 10) (![1, -1, 1] : Fin 3 → ℝ) (fun _ _ => ![1, 2, 10]) 0 0 =
    ![11 / 10, 9 / 5, 11] ∧ ∀ i, |(![1, -1, 1] : Fin 3 → ℝ) i| ≤ 1 := by
  refine ⟨?_, fun i => ?_⟩
  · unfold perturbed
    rw [if_neg (by norm_num), if_neg (by norm_num)]
    funext i
    fin_cases i <;> norm_num
  · fin_cases i <;> norm_num

/-- C78 (violation): the internal energy is not protected.  However small the perturbation, there is an admissible state
of the Euler equations and a possible outcome of the drawing for which the perturbed initial state has negative internal
energy. -/
theorem C78_perturbation_violation (perturbation : ℝ) (hp : 0 < perturbation) :
    ∃ (U : Euler.State 1) (draw : Fin 3 → ℝ), (∀ i, |draw i| ≤ 1) ∧ 0 < Euler.density U ∧ 0 < Euler.internalEnergy U ∧
      ∀ x : Vec 1, Euler.internalEnergy (dim := 1) (perturbed perturbation draw (fun _ _ => U) x 0) < 0 := by
  refine ⟨![1, 1, 1 / 2 + perturbation / 4], ![0, 0, -1], fun i => ?_, ?_, ?_, fun x => ?_⟩
  · fin_cases i <;> norm_num
  · norm_num [Euler.density]
  · rw [show Euler.internalEnergy (dim := 1) (![1, 1, 1 / 2 + perturbation / 4]) = perturbation / 4 by
      simp [Euler.internalEnergy, Euler.density, Euler.momentum, Euler.totalEnergy, normSq]]
    linarith
  · have : perturbed perturbation (![0, 0, -1] : Fin 3 → ℝ) (fun _ _ => (![1, 1, 1 / 2 + perturbation / 4] : Euler.State 1))
        x 0 = ![1, 1, (1 / 2 + perturbation / 4) * (1 - perturbation)] := by
      unfold perturbed
      rw [if_neg hp.ne', if_neg (by norm_num)]
      funext i
      fin_cases i
      · norm_num
      · norm_num
      · simp [sub_eq_add_neg]
    rw [this, show Euler.internalEnergy (dim := 1) (![1, 1, (1 / 2 + perturbation / 4) * (1 - perturbation)]) =
      (1 / 2 + perturbation / 4) * (1 - perturbation) - 1 / 2 by
      simp [Euler.internalEnergy, Euler.density, Euler.momentum, Euler.totalEnergy, normSq]]
    nlinarith [sq_nonneg perturbation]

end

end InitialValues
end Ryujin
