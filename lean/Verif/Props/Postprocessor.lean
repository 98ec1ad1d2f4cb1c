import Verif.Model.Postprocessor
import Mathlib.Tactic.Linarith
import Mathlib.Tactic.NormNum
import Mathlib.Tactic.FieldSimp
import Mathlib.Analysis.Complex.ExponentialBounds

/-!
# Schlieren and vorticity output (C45)
-/

namespace Ryujin
namespace Postprocessor

noncomputable section

variable {n d : ℕ}

/-! ### Bounds -/

theorem foldl_max_le (l : List ℝ) (a x : ℝ) : x ∈ l ∨ x ≤ a → x ≤ l.foldl max a := by
  induction l generalizing a with
  | nil => simp
  | cons y l ih =>
    intro h
    rw [List.foldl_cons]
    apply ih
    rcases h with h | h
    · rcases List.mem_cons.1 h with rfl | h
      · exact Or.inr (le_max_right _ _)
      · exact Or.inl h
    · exact Or.inr (h.trans (le_max_left _ _))

theorem le_foldl_min (l : List ℝ) (a x : ℝ) : x ∈ l ∨ a ≤ x → l.foldl min a ≤ x := by
  induction l generalizing a with
  | nil => simp
  | cons y l ih =>
    intro h
    rw [List.foldl_cons]
    apply ih
    rcases h with h | h
    · rcases List.mem_cons.1 h with rfl | h
      · exact Or.inr (min_le_right _ _)
      · exact Or.inl h
    · exact Or.inr ((min_le_left _ _).trans h)

theorem foldl_map_max (q : Fin n → ℝ) (l : List (Fin n)) (a : ℝ) :
    l.foldl (fun m i => max m |q i|) a = (l.map fun i => |q i|).foldl max a := by
  rw [List.foldl_map]

theorem foldl_map_min (q : Fin n → ℝ) (l : List (Fin n)) (a : ℝ) :
    l.foldl (fun m i => min m |q i|) a = (l.map fun i => |q i|).foldl min a := by
  rw [List.foldl_map]

theorem foldl_min_mem (l : List ℝ) (a : ℝ) : l.foldl min a = a ∨ l.foldl min a ∈ l := by
  induction l generalizing a with
  | nil => simp
  | cons y l ih =>
    rw [List.foldl_cons]
    rcases ih (min a y) with h | h
    · rw [h]
      rcases min_choice a y with h' | h' <;> rw [h'] <;> simp
    · exact Or.inr (List.mem_cons_of_mem _ h)

theorem foldl_max_mem (l : List ℝ) (a : ℝ) : l.foldl max a = a ∨ l.foldl max a ∈ l := by
  induction l generalizing a with
  | nil => simp
  | cons y l ih =>
    rw [List.foldl_cons]
    rcases ih (max a y) with h | h
    · rw [h]
      rcases max_choice a y with h' | h' <;> rw [h'] <;> simp
    · exact Or.inr (List.mem_cons_of_mem _ h)

/-- **C45 (bounds).**  If every degree of freedom is owned by some rank, the bounds are the least and the greatest
magnitude of the quantity over all ranks. -/
theorem C45_bounds (p : Params) (ranks : List (List (Fin n))) (q : Fin n → ℝ)
    (hall : ∀ i, ∃ l ∈ ranks, i ∈ l) (hn : 0 < n) (hh : ∀ i, |q i| ≤ p.huge) :
    (∀ i, |q i| ≤ (bounds p ranks q).1) ∧ (∀ i, (bounds p ranks q).2 ≤ |q i|) ∧
      (∃ i, |q i| = (bounds p ranks q).1) ∧ ∃ i, |q i| = (bounds p ranks q).2 := by
  have hmax : ∀ i, |q i| ≤ (bounds p ranks q).1 := by
    intro i
    obtain ⟨l, hl, hi⟩ := hall i
    refine le_trans ?_ (foldl_max_le _ _ _ (Or.inl (List.mem_map.2 ⟨l, hl, rfl⟩)))
    rw [foldl_map_max]
    exact foldl_max_le _ _ _ (Or.inl (List.mem_map.2 ⟨i, hi, rfl⟩))
  have hmin : ∀ i, (bounds p ranks q).2 ≤ |q i| := by
    intro i
    obtain ⟨l, hl, hi⟩ := hall i
    refine le_trans (le_foldl_min _ _ _ (Or.inl (List.mem_map.2 ⟨l, hl, rfl⟩))) ?_
    rw [foldl_map_min]
    exact le_foldl_min _ _ _ (Or.inl (List.mem_map.2 ⟨i, hi, rfl⟩))
  refine ⟨hmax, hmin, ?_, ?_⟩
  · have i₀ : Fin n := ⟨0, hn⟩
    have zero : (bounds p ranks q).1 = 0 → ∃ i, |q i| = (bounds p ranks q).1 := by
      intro h
      refine ⟨i₀, le_antisymm (hmax i₀) ?_⟩
      rw [h]; exact abs_nonneg _
    rcases foldl_max_mem (ranks.map fun l => l.foldl (fun m i => max m |q i|) 0) 0 with h | h
    · exact zero h
    · obtain ⟨l, hl, h⟩ := List.mem_map.1 h
      rw [foldl_map_max] at h
      rcases foldl_max_mem (l.map fun i => |q i|) 0 with h' | h'
      · exact zero (h.symm.trans h')
      · obtain ⟨i, hi, e⟩ := List.mem_map.1 h'
        exact ⟨i, e.trans h⟩
  · have i₀ : Fin n := ⟨0, hn⟩
    have huge : (bounds p ranks q).2 = p.huge → ∃ i, |q i| = (bounds p ranks q).2 := by
      intro h
      refine ⟨i₀, le_antisymm ?_ (hmin i₀)⟩
      rw [h]; exact hh i₀
    rcases foldl_min_mem (ranks.map fun l => l.foldl (fun m i => min m |q i|) p.huge) p.huge with h | h
    · exact huge h
    · obtain ⟨l, hl, h⟩ := List.mem_map.1 h
      rw [foldl_map_min] at h
      rcases foldl_min_mem (l.map fun i => |q i|) p.huge with h' | h'
      · exact huge (h.symm.trans h')
      · obtain ⟨i, hi, e⟩ := List.mem_map.1 h'
        exact ⟨i, e.trans h⟩

/-! ### The exponential scale -/

theorem ratio_nonneg (p : Params) (b : ℝ × ℝ) (q : ℝ) (he : 0 < p.eps) :
    0 ≤ max 0 (|q| - b.2 - p.floor) / max (b.1 - b.2) p.eps :=
  div_nonneg (le_max_left _ _) (he.le.trans (le_max_right _ _))

theorem magnitude_range (p : Params) (b : ℝ × ℝ) (q : ℝ) (hb : 0 ≤ p.beta) (he : 0 < p.eps) :
    0 ≤ 1 - Real.exp (-p.beta * (max 0 (|q| - b.2 - p.floor) / max (b.1 - b.2) p.eps)) ∧
      1 - Real.exp (-p.beta * (max 0 (|q| - b.2 - p.floor) / max (b.1 - b.2) p.eps)) < 1 := by
  have h := ratio_nonneg p b q he
  constructor
  · have : Real.exp (-p.beta * (max 0 (|q| - b.2 - p.floor) / max (b.1 - b.2) p.eps)) ≤ 1 :=
      Real.exp_le_one_iff.2 (by nlinarith)
    linarith
  · have := Real.exp_pos (-p.beta * (max 0 (|q| - b.2 - p.floor) / max (b.1 - b.2) p.eps))
    linarith

theorem abs_normalize (p : Params) (b : ℝ × ℝ) (q : ℝ) (hb : 0 ≤ p.beta) (he : 0 < p.eps) :
    |normalize p b q| = 1 - Real.exp (-p.beta * (max 0 (|q| - b.2 - p.floor) / max (b.1 - b.2) p.eps)) := by
  have := (magnitude_range p b q hb he).1
  unfold normalize copysign
  dsimp only
  split_ifs
  · rw [abs_neg, abs_abs, abs_of_nonneg this]
  · rw [abs_abs, abs_of_nonneg this]

/-- **C45 (range).**  Normalised values are smaller than one in magnitude, whatever the bounds in use. -/
theorem C45_range (p : Params) (b : ℝ × ℝ) (q : ℝ) (hb : 0 ≤ p.beta) (he : 0 < p.eps) : |normalize p b q| < 1 := by
  rw [abs_normalize p b q hb he]
  exact (magnitude_range p b q hb he).2

/-- **C45 (sign).**  Normalised values have the sign of the quantity: nonnegative quantities stay nonnegative,
nonpositive ones nonpositive. -/
theorem C45_sign (p : Params) (b : ℝ × ℝ) (q : ℝ) (hb : 0 ≤ b.2) (he : 0 < p.eps) :
    (0 ≤ q → 0 ≤ normalize p b q) ∧ (q ≤ 0 → normalize p b q ≤ 0) := by
  unfold normalize copysign
  dsimp only
  constructor
  · intro h
    rw [if_neg (not_lt.2 h)]
    exact abs_nonneg _
  · intro h
    split_ifs with h'
    · exact neg_nonpos.2 (abs_nonneg _)
    · have h0 : q = 0 := le_antisymm h (not_lt.1 h')
      subst h0
      have hf : 0 < p.floor := lt_of_lt_of_le he (le_max_right _ _)
      have : max 0 (|(0 : ℝ)| - b.2 - p.floor) = 0 := by
        apply max_eq_left; rw [abs_zero]; linarith
      rw [this]
      simp

/-- **C45 (monotone).**  Larger magnitudes are mapped to larger magnitudes: strictly so for a positive factor beta and
magnitudes above the noise floor. -/
theorem C45_monotone (p : Params) (b : ℝ × ℝ) (q r : ℝ) (hb : 0 ≤ p.beta) (he : 0 < p.eps) :
    (|q| ≤ |r| → |normalize p b q| ≤ |normalize p b r|) ∧
      (|q| < |r| → 0 < p.beta → b.2 + p.floor < |r| → |normalize p b q| < |normalize p b r|) := by
  rw [abs_normalize p b q hb he, abs_normalize p b r hb he]
  have hd : 0 < max (b.1 - b.2) p.eps := lt_of_lt_of_le he (le_max_right _ _)
  constructor
  · intro h
    have : max 0 (|q| - b.2 - p.floor) / max (b.1 - b.2) p.eps ≤ max 0 (|r| - b.2 - p.floor) / max (b.1 - b.2) p.eps :=
      div_le_div_of_nonneg_right (max_le_max_left _ (by linarith)) hd.le
    have := Real.exp_le_exp.2 (show -p.beta * (max 0 (|r| - b.2 - p.floor) / max (b.1 - b.2) p.eps) ≤
      -p.beta * (max 0 (|q| - b.2 - p.floor) / max (b.1 - b.2) p.eps) by nlinarith)
    linarith
  · intro h hbeta hr
    have h1 : max 0 (|q| - b.2 - p.floor) < max 0 (|r| - b.2 - p.floor) := by
      rw [max_eq_right (show 0 ≤ |r| - b.2 - p.floor by linarith)]
      exact max_lt (by linarith) (by linarith)
    have : max 0 (|q| - b.2 - p.floor) / max (b.1 - b.2) p.eps < max 0 (|r| - b.2 - p.floor) / max (b.1 - b.2) p.eps :=
      div_lt_div_of_pos_right h1 hd
    have := Real.exp_lt_exp.2 (show -p.beta * (max 0 (|r| - b.2 - p.floor) / max (b.1 - b.2) p.eps) <
      -p.beta * (max 0 (|q| - b.2 - p.floor) / max (b.1 - b.2) p.eps) by nlinarith)
    linarith

/-- **C45 (minimum).**  A quantity whose magnitude exceeds the lower bound by at most the noise floor is mapped to
zero. -/
theorem C45_minimum (p : Params) (b : ℝ × ℝ) (q : ℝ) (h : |q| ≤ b.2 + p.floor) : normalize p b q = 0 := by
  unfold normalize copysign
  have : max 0 (|q| - b.2 - p.floor) = 0 := max_eq_left (by linarith)
  simp [this]

/-! ### The whole computation -/

/-- The bounds used by a call. -/
def usedBounds (p : Params) (ranks : List (List (Fin n))) (raw : Fin n → Option ℝ) (σ : State n) : ℝ × ℝ :=
  if p.recompute then bounds p ranks (store raw σ.quantity) else σ.bounds.getD (bounds p ranks (store raw σ.quantity))

/-- **C45 (output vector).**  After any number of calls, every entry of the output vector is smaller than one in
magnitude, provided the constraints interpolate: unconstrained entries with nonnegative weights of sum at most one. -/
theorem C45_output_range (p : Params) (ranks : List (List (Fin n))) (constraints : Fin n → Option (List (Fin n × ℝ)))
    (raw : Fin n → Option ℝ) (σ : State n) (hb : 0 ≤ p.beta) (he : 0 < p.eps)
    (hc : ∀ i line, constraints i = some line → (∀ e ∈ line, 0 ≤ e.2) ∧ (line.map Prod.snd).sum ≤ 1) (i : Fin n) :
    |(compute p ranks constraints raw σ).quantity i| < 1 := by
  unfold compute distribute
  dsimp only
  generalize (if p.recompute then bounds p ranks (store raw σ.quantity) else
    σ.bounds.getD (bounds p ranks (store raw σ.quantity))) = b
  cases h : constraints i with
  | none => exact C45_range p b _ hb he
  | some line =>
    obtain ⟨h1, h2⟩ := hc i line h
    dsimp only
    have key : ∀ l : List (Fin n × ℝ), (∀ e ∈ l, 0 ≤ e.2) →
        |(l.map fun e => e.2 * normalize p b (store raw σ.quantity e.1)).sum| ≤ (l.map Prod.snd).sum ∧
        (0 < (l.map Prod.snd).sum →
          |(l.map fun e => e.2 * normalize p b (store raw σ.quantity e.1)).sum| < (l.map Prod.snd).sum) := by
      intro l
      induction l with
      | nil => intro _; simp
      | cons e l ih =>
        intro hl
        have he' := hl e (List.mem_cons_self ..)
        have hr := C45_range p b (store raw σ.quantity e.1) hb he
        have hsum : 0 ≤ (l.map Prod.snd).sum :=
          List.sum_nonneg (by
            intro x hx
            obtain ⟨y, hy, rfl⟩ := List.mem_map.1 hx
            exact hl y (List.mem_cons_of_mem _ hy))
        obtain ⟨i1, i2⟩ := ih fun e he => hl e (List.mem_cons_of_mem _ he)
        simp only [List.map_cons, List.sum_cons]
        have ht := abs_add_le (e.2 * normalize p b (store raw σ.quantity e.1))
          ((l.map fun e => e.2 * normalize p b (store raw σ.quantity e.1)).sum)
        rw [abs_mul, abs_of_nonneg he'] at ht
        refine ⟨by nlinarith, fun hpos => ?_⟩
        rcases he'.lt_or_eq with hp | hp
        · nlinarith
        · rw [← hp] at ht hpos ⊢
          have := i2 (by linarith)
          linarith
    obtain ⟨k1, k2⟩ := key line h1
    rcases lt_or_ge 0 (line.map Prod.snd).sum with hs | hs
    · exact (k2 hs).trans_le h2
    · linarith

/-- **C45 (entries of unconstrained rows).**  The entry of an unconstrained degree of freedom is the normalised raw
value; it vanishes where the raw magnitude is smallest, and entries are ordered as the raw magnitudes are. -/
theorem C45_output (p : Params) (ranks : List (List (Fin n))) (constraints : Fin n → Option (List (Fin n × ℝ)))
    (raw : Fin n → Option ℝ) (σ : State n) (hb : 0 ≤ p.beta) (he : 0 < p.eps) (i j : Fin n) (x y : ℝ)
    (hi : raw i = some x) (hj : raw j = some y) (ci : constraints i = none) (cj : constraints j = none) :
    (compute p ranks constraints raw σ).quantity i = normalize p (usedBounds p ranks raw σ) x ∧
      (|x| ≤ |y| → |(compute p ranks constraints raw σ).quantity i| ≤ |(compute p ranks constraints raw σ).quantity j|) ∧
      ((∃ l ∈ ranks, i ∈ l) → p.recompute = true → (∀ k, |x| ≤ |store raw σ.quantity k|) → |x| ≤ p.huge →
        (compute p ranks constraints raw σ).quantity i = 0) := by
  have e : ∀ k z, raw k = some z → constraints k = none →
      (compute p ranks constraints raw σ).quantity k = normalize p (usedBounds p ranks raw σ) z := by
    intro k z hk ck
    unfold compute distribute
    dsimp only
    rw [ck]
    dsimp only
    unfold store
    rw [hk]
    rfl
  rw [e i x hi ci, e j y hj cj]
  refine ⟨rfl, (C45_monotone p _ x y hb he).1, ?_⟩
  intro hl hr hmin hh
  apply C45_minimum
  have hf : 0 < p.floor := lt_of_lt_of_le he (le_max_right _ _)
  unfold usedBounds
  rw [if_pos hr]
  have : |x| ≤ (bounds p ranks (store raw σ.quantity)).2 := by
    rcases foldl_min_mem (ranks.map fun l => l.foldl (fun m i => min m |store raw σ.quantity i|) p.huge) p.huge with h | h
    · unfold bounds; dsimp only; rw [h]; exact hh
    · obtain ⟨l, _, h⟩ := List.mem_map.1 h
      unfold bounds; dsimp only; rw [← h, foldl_map_min]
      rcases foldl_min_mem (l.map fun i => |store raw σ.quantity i|) p.huge with h' | h'
      · rw [h']; exact hh
      · obtain ⟨k, _, h'⟩ := List.mem_map.1 h'
        rw [← h']; exact hmin k
  linarith

/-- **C45 (history).**  Without skipped rows, and with bounds recomputed, the output depends only on the state at
hand, not on earlier calls. -/
theorem C45_history_partial (p : Params) (ranks : List (List (Fin n)))
    (constraints : Fin n → Option (List (Fin n × ℝ))) (raw : Fin n → Option ℝ) (σ σ' : State n)
    (hraw : ∀ i, (raw i).isSome) (hr : p.recompute = true) :
    compute p ranks constraints raw σ = compute p ranks constraints raw σ' := by
  have : store raw σ.quantity = store raw σ'.quantity := by
    funext i
    unfold store
    obtain ⟨x, hx⟩ := Option.isSome_iff_exists.1 (hraw i)
    rw [hx]; rfl
  unfold compute
  rw [this, hr]
  rfl

/-- The full statement is false: constrained rows are skipped, so that their entries still hold the *normalised* values
of the previous call when the bounds are computed.  Computing twice for one and the same state gives two different
results. (Three degrees of freedom with raw values 4, 8 and a hanging node between them: the first call sees the
minimum 0, the second one the minimum of 4 and a normalised value below one.) -/
theorem C45_history_violation :
    let p : Params := ⟨1, true, 1e-16, 1e300⟩
    let ranks : List (List (Fin 3)) := [[0, 1, 2]]
    let constraints : Fin 3 → Option (List (Fin 3 × ℝ)) := ![none, none, some [(0, 1 / 2), (1, 1 / 2)]]
    let raw : Fin 3 → Option ℝ := ![some 4, some 8, none]
    let first := compute p ranks constraints raw (initial 3)
    (compute p ranks constraints raw first).quantity ≠ first.quantity := by
  intro p ranks constraints raw first
  have hb : 0 ≤ p.beta := by norm_num [p]
  have he : 0 < p.eps := by norm_num [p]
  have hfl : p.floor = 1e-10 := by norm_num [p, Params.floor]
  have hbd : ∀ x : ℝ, 0 ≤ x → x < 1 → bounds p ranks ![4, 8, x] = (8, x) := by
    intro x h0 h1
    have hx1 : min (4 : ℝ) x = x := min_eq_right (by linarith)
    have hx2 : min (1e300 : ℝ) x = x := min_eq_right (by linarith)
    have hx3 : max (8 : ℝ) x = 8 := max_eq_left (by linarith)
    have hx4 : |x| = x := abs_of_nonneg h0
    simp only [bounds, ranks, p, List.map_cons, List.map_nil, List.foldl_cons, List.foldl_nil]
    norm_num [hx1, hx2, hx3, hx4]
    refine ⟨?_, ?_⟩
    · simp [show (![4, 8, x] : Fin 3 → ℝ) 2 = x from rfl, hx4]; linarith
    · simp [show (![4, 8, x] : Fin 3 → ℝ) 2 = x from rfl, hx4]; linarith
  have hst : ∀ f : Fin 3 → ℝ, store raw f = ![4, 8, f 2] := by
    intro f
    funext i
    fin_cases i <;> rfl
  have q0 : ∀ σ : State 3, 0 ≤ σ.quantity 2 → σ.quantity 2 < 1 →
      (compute p ranks constraints raw σ).quantity 0 = normalize p (8, σ.quantity 2) 4 ∧
      (compute p ranks constraints raw σ).quantity 1 = normalize p (8, σ.quantity 2) 8 ∧
      (compute p ranks constraints raw σ).quantity 2 =
        1 / 2 * normalize p (8, σ.quantity 2) 4 + 1 / 2 * normalize p (8, σ.quantity 2) 8 := by
    intro σ h0 h1
    unfold compute
    rw [hst]
    dsimp only
    rw [hbd _ h0 h1]
    refine ⟨rfl, rfl, ?_⟩
    simp only [distribute, show constraints 2 = some [(0, 1 / 2), (1, 1 / 2)] from rfl, List.map_cons, List.map_nil,
      List.sum_cons, List.sum_nil, add_zero]
    rfl
  have f0 := q0 (initial 3) (le_refl _) (by norm_num [initial])
  have e0 : (initial 3).quantity 2 = 0 := rfl
  rw [e0] at f0
  -- the normalised values of the first call
  have val : ∀ x y : ℝ, 0 ≤ x → x < 1 → 2 < y → y ≤ 8 →
      normalize p (8, x) y = 1 - Real.exp (-((y - x - 1e-10) / (8 - x))) := by
    intro x y h0 h1 h2 h3
    have := abs_normalize p (8, x) y hb he
    have hs := (C45_sign p (8, x) y h0 he).1 (by linarith)
    rw [abs_of_nonneg hs] at this
    rw [this, hfl, abs_of_pos (by linarith)]
    dsimp only
    rw [max_eq_right (show 0 ≤ y - x - 1e-10 by linarith), max_eq_left (show p.eps ≤ 8 - x by norm_num [p]; linarith)]
    simp only [p]
    congr 2
    ring
  have v4 := val 0 4 (le_refl _) (by norm_num) (by norm_num) (by norm_num)
  have v8 := val 0 8 (le_refl _) (by norm_num) (by norm_num) (by norm_num)
  have r4 : 0 < normalize p (8, 0) 4 ∧ normalize p (8, 0) 4 < 1 := by
    rw [v4]
    have h1 := Real.exp_pos (-((4 - 0 - 1e-10) / (8 - 0 : ℝ)))
    have h2 : Real.exp (-((4 - 0 - 1e-10) / (8 - 0 : ℝ))) < 1 := Real.exp_lt_one_iff.2 (by norm_num)
    constructor <;> linarith
  have r8 : 0 < normalize p (8, 0) 8 ∧ normalize p (8, 0) 8 < 1 := by
    rw [v8]
    have h1 := Real.exp_pos (-((8 - 0 - 1e-10) / (8 - 0 : ℝ)))
    have h2 : Real.exp (-((8 - 0 - 1e-10) / (8 - 0 : ℝ))) < 1 := Real.exp_lt_one_iff.2 (by norm_num)
    constructor <;> linarith
  have x0 : 0 < first.quantity 2 := by rw [f0.2.2]; linarith [r4.1, r8.1]
  have x1 : first.quantity 2 < 1 := by rw [f0.2.2]; linarith [r4.2, r8.2]
  intro h
  have h0 := congrFun h 0
  rw [(q0 first x0.le x1).1, show first.quantity 0 = normalize p (8, 0) 4 from f0.1, v4,
    val _ 4 x0.le x1 (by norm_num) (by norm_num)] at h0
  have h1 := Real.exp_injective (show Real.exp (-((4 - first.quantity 2 - 1e-10) / (8 - first.quantity 2))) =
    Real.exp (-((4 - 0 - 1e-10) / (8 - 0))) by linarith)
  have h2 : (4 - first.quantity 2 - 1e-10) / (8 - first.quantity 2) = (4 - 0 - 1e-10) / (8 - 0) := by linarith
  rw [div_eq_div_iff (by linarith) (by norm_num)] at h2
  nlinarith

/-! ### The raw quantities -/

theorem foldl_sub (l : List (Fin n × (Fin d → ℝ))) (q : Fin n → ℝ) (a : Fin d → ℝ) :
    l.foldl (fun acc c => acc - q c.1 • c.2) a = a - (l.map fun c => q c.1 • c.2).sum := by
  induction l generalizing a with
  | nil => simp
  | cons c l ih => rw [List.foldl_cons, ih]; simp [sub_sub]

/-- **C45 (schlieren).**  The raw schlieren value is the norm of the lumped discrete gradient
`(1/m_i) Σ_j c_ij q_j`; it is nonnegative, and zero for a constant field on rows with `Σ_j c_ij = 0`. -/
theorem C45_schlieren (row : Row n d) (q : Fin n → ℝ) (hm : 0 < row.mass) (x : ℝ) (h : schlieren row q = some x) :
    x = vnorm (row.columns.map fun c => q c.1 • c.2).sum / row.mass ∧ 0 ≤ x ∧
      ((∀ i j, q i = q j) → (row.columns.map Prod.snd).sum = 0 → x = 0) := by
  unfold schlieren at h
  split_ifs at h
  obtain rfl := Option.some.inj h
  rw [foldl_sub, zero_sub]
  have hneg : ∀ v : Fin d → ℝ, vnorm (-v) = vnorm v := by
    intro v; simp [vnorm, normSq]
  rw [hneg]
  refine ⟨rfl, div_nonneg (Real.sqrt_nonneg _) hm.le, ?_⟩
  intro hq hs
  have hsum : (row.columns.map fun c => q c.1 • c.2).sum = 0 := by
    cases hc : row.columns with
    | nil => simp
    | cons c₀ rest =>
      rw [← hc]
      have : ∀ l : List (Fin n × (Fin d → ℝ)), (l.map fun c => q c.1 • c.2).sum = q c₀.1 • (l.map Prod.snd).sum := by
        intro l
        induction l with
        | nil => simp
        | cons c l ih => simp [ih, hq c.1 c₀.1]
      rw [this, hs, smul_zero]
  rw [hsum]
  simp [vnorm, normSq]

/-- The hypotheses are met by a nontrivial row; the value is the gradient of a linear function. -/
example : schlieren (⟨[(0, ![-1 / 2]), (1, ![0]), (2, ![1 / 2])], 1⟩ : Row 3 1) ![1, 3, 5] = some 2 := by
  unfold schlieren
  norm_num [vnorm, normSq]
  rw [show (![1, 3, 5] : Fin 3 → ℝ) 2 = 5 from rfl]
  rw [Real.sqrt_mul_self_eq_abs]
  norm_num

end

end Postprocessor
end Ryujin
