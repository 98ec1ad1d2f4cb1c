import Verif.Model.VtuOutput
import Mathlib.Analysis.Convex.Combination
import Mathlib.Analysis.Convex.Topology
import Mathlib.Topology.Order.IntermediateValue
import Mathlib.Tactic.Linarith
import Mathlib.Tactic.IntervalCases
import Mathlib.Data.Nat.Digits.Lemmas

/-!
# C102: output restricted to level sets
-/

namespace Ryujin
namespace VtuOutput

noncomputable section

open Classical

theorem straddles_iff {dim : ℕ} (delta : ℝ) (f : Vec dim → ℝ) (vs : List (Vec dim)) (above below : ℕ)
    (h : ¬ (above > 0 ∧ below > 0)) :
    straddles delta f vs above below = true ↔
      (above > 0 ∨ ∃ v ∈ vs, -delta ≤ f v) ∧ (below > 0 ∨ ∃ v ∈ vs, f v ≤ delta) := by
  induction vs generalizing above below with
  | nil =>
    simp only [straddles, Bool.false_eq_true, List.not_mem_nil, false_and, exists_false, or_false, false_iff]
    exact h
  | cons v vs ih =>
    unfold straddles
    simp only [zero_sub, zero_add, ge_iff_le]
    by_cases h1 : -delta ≤ f v <;> by_cases h2 : f v ≤ delta
    · rw [if_pos h1, if_pos h2, if_pos ⟨by omega, by omega⟩]
      exact iff_of_true rfl ⟨Or.inr ⟨v, by simp, h1⟩, Or.inr ⟨v, by simp, h2⟩⟩
    · rw [if_pos h1, if_neg h2]
      by_cases h3 : above + 1 > 0 ∧ below > 0
      · rw [if_pos h3]
        exact iff_of_true rfl ⟨Or.inr ⟨v, by simp, h1⟩, Or.inl h3.2⟩
      · rw [if_neg h3, ih _ _ h3]
        simp only [List.mem_cons, exists_eq_or_imp, h1, h2, true_or, or_true, true_and, false_or,
          Nat.succ_pos, gt_iff_lt]
    · rw [if_neg h1, if_pos h2]
      by_cases h3 : above > 0 ∧ below + 1 > 0
      · rw [if_pos h3]
        exact iff_of_true rfl ⟨Or.inl h3.1, Or.inr ⟨v, by simp, h2⟩⟩
      · rw [if_neg h3, ih _ _ h3]
        simp only [List.mem_cons, exists_eq_or_imp, h1, h2, true_or, or_true, and_true, false_or,
          Nat.succ_pos, gt_iff_lt]
    · rw [if_neg h1, if_neg h2, if_neg h, ih _ _ h]
      simp only [List.mem_cons, exists_eq_or_imp, h1, h2, false_or]

/-- C102: a cell is selected exactly if it is active, not artificial, and for one of the functions has a vertex on or above
and a vertex on or below the level set, up to the tolerance. -/
theorem C102_selection {dim : ℕ} (delta : ℝ) (functions : List (Vec dim → ℝ)) (c : Cell dim) :
    selected delta functions c = true ↔ c.active = true ∧ c.status ≠ .artificial ∧
      ∃ f ∈ functions, (∃ v ∈ c.vertices, -delta ≤ f v) ∧ ∃ w ∈ c.vertices, f w ≤ delta := by
  unfold selected
  by_cases h : c.active = false ∨ c.status = .artificial
  · rw [if_pos h]
    refine iff_of_false (by simp) ?_
    rintro ⟨h1, h2, _⟩
    rcases h with h | h
    · rw [h] at h1; exact absurd h1 (by simp)
    · exact h2 h
  · rw [if_neg h]
    push Not at h
    rw [List.any_eq_true]
    simp only [straddles_iff delta _ c.vertices 0 0 (by simp), gt_iff_lt, lt_irrefl, false_or]
    have h1 : c.active = true := by simpa using h.1
    simp [h1, h.2]

/-- C102: only cells near the level set are written: for every continuous function a selected cell contains a point at which
the function vanishes up to the tolerance. -/
theorem C102_only_intersecting {dim : ℕ} {delta : ℝ} (hd : 0 ≤ delta) (f : Vec dim → ℝ) (hf : Continuous f) (c : Cell dim)
    (h : selected delta [f] c = true) : ∃ x ∈ convexHull ℝ {v | v ∈ c.vertices}, |f x| ≤ delta := by
  obtain ⟨_, _, f', hf', ⟨v, hv, h1⟩, w, hw, h2⟩ := (C102_selection delta [f] c).mp h
  rw [List.mem_singleton] at hf'
  subst hf'
  have hv' := subset_convexHull ℝ {v | v ∈ c.vertices} hv
  have hw' := subset_convexHull ℝ {v | v ∈ c.vertices} hw
  by_cases h3 : f' v ≤ delta
  · exact ⟨v, hv', abs_le.mpr ⟨h1, h3⟩⟩
  by_cases h4 : -delta ≤ f' w
  · exact ⟨w, hw', abs_le.mpr ⟨h4, h2⟩⟩
  push Not at h3 h4
  obtain ⟨x, hx, h0⟩ := (convex_convexHull ℝ {v | v ∈ c.vertices}).isPreconnected.intermediate_value hw' hv' hf.continuousOn
    (show (0 : ℝ) ∈ Set.Icc _ _ from ⟨by linarith, by linarith⟩)
  exact ⟨x, hx, by rw [h0, abs_zero]; exact hd⟩

/-- C102: for planes, the use the documentation names, the selection is exact: the active cells a rank knows about that are
written are those whose convex hull meets the plane up to the tolerance. -/
theorem C102_planes {dim : ℕ} {delta : ℝ} (hd : 0 ≤ delta) (a : Vec dim) (b : ℝ) (c : Cell dim) (hc : c.active = true)
    (hs : c.status ≠ .artificial) :
    selected delta [fun x => dot a x + b] c = true ↔
      ∃ x ∈ convexHull ℝ {v | v ∈ c.vertices}, |dot a x + b| ≤ delta := by
  have hcont : Continuous fun x : Vec dim => dot a x + b := by
    unfold dot
    fun_prop
  have hlin : ∀ x y : Vec dim, ∀ s t : ℝ, s + t = 1 →
      dot a (s • x + t • y) + b = s * (dot a x + b) + t * (dot a y + b) := by
    intro x y s t hst
    have : dot a (s • x + t • y) = s * dot a x + t * dot a y := by
      unfold dot
      rw [Finset.mul_sum, Finset.mul_sum, ← Finset.sum_add_distrib]
      refine Finset.sum_congr rfl fun i _ => ?_
      simp only [Pi.add_apply, Pi.smul_apply, smul_eq_mul]
      ring
    rw [this]
    linear_combination -b * hst
  refine ⟨C102_only_intersecting hd _ hcont c, ?_⟩
  rintro ⟨x, hx, habs⟩
  rw [abs_le] at habs
  rw [C102_selection]
  refine ⟨hc, hs, _, List.mem_singleton.mpr rfl, ?_, ?_⟩
  · by_contra hno
    push Not at hno
    have hsub : convexHull ℝ {v | v ∈ c.vertices} ⊆ {y | dot a y + b < -delta} := by
      refine convexHull_min (fun v hv => hno v hv) ?_
      intro y hy z hz s t hs' ht' hst
      show dot a (s • y + t • z) + b < -delta
      rw [hlin y z s t hst]
      have hy' : dot a y + b < -delta := hy
      have hz' : dot a z + b < -delta := hz
      rcases eq_or_lt_of_le hs' with h0 | h0
      · rw [← h0] at hst ⊢
        rw [zero_add] at hst
        rw [hst]; linarith
      · have h1 := mul_lt_mul_of_pos_left hy' h0
        have h2 := mul_le_mul_of_nonneg_left hz'.le ht'
        have h3 : s * -delta + t * -delta = -delta := by rw [← add_mul, hst, one_mul]
        linarith
    have := hsub hx
    have h' : dot a x + b < -delta := this
    linarith [habs.1]
  · by_contra hno
    push Not at hno
    have hsub : convexHull ℝ {v | v ∈ c.vertices} ⊆ {y | delta < dot a y + b} := by
      refine convexHull_min (fun v hv => hno v hv) ?_
      intro y hy z hz s t hs' ht' hst
      show delta < dot a (s • y + t • z) + b
      rw [hlin y z s t hst]
      have hy' : delta < dot a y + b := hy
      have hz' : delta < dot a z + b := hz
      rcases eq_or_lt_of_le hs' with h0 | h0
      · rw [← h0] at hst ⊢
        rw [zero_add] at hst
        rw [hst]; linarith
      · have h1 := mul_lt_mul_of_pos_left hy' h0
        have h2 := mul_le_mul_of_nonneg_left hz'.le ht'
        have h3 : s * delta + t * delta = delta := by rw [← add_mul, hst, one_mul]
        linarith
    have h' : delta < dot a x + b := hsub hx
    linarith [habs.2]

/-- C102: for curved level sets cells are missed: a level set that does not separate vertices of the cell, here a circle in
the interior of a square, is not found although it lies in the cell. -/
theorem C102_curved_violation {delta : ℝ} (h : delta < 3 / 4) :
    let f : Vec 2 → ℝ := fun x => x 0 ^ 2 + x 1 ^ 2 - 1 / 4
    let c : Cell 2 := ⟨true, .owned, [![-1, -1], ![1, -1], ![-1, 1], ![1, 1]]⟩
    (∃ x ∈ convexHull ℝ {v | v ∈ c.vertices}, f x = 0) ∧ selected delta [f] c = false := by
  intro f c
  constructor
  · refine ⟨![1 / 2, 0], ?_, by simp [f]; norm_num⟩
    have hc := convex_convexHull ℝ {v | v ∈ c.vertices}
    have m : ∀ v ∈ c.vertices, v ∈ convexHull ℝ {v | v ∈ c.vertices} := fun v hv => subset_convexHull ℝ _ hv
    have e1 : (![1, 0] : Vec 2) ∈ convexHull ℝ {v | v ∈ c.vertices} := by
      have := hc (m ![1, -1] (by simp [c])) (m ![1, 1] (by simp [c])) (a := 1 / 2) (b := 1 / 2) (by norm_num) (by norm_num)
        (by norm_num)
      convert this using 1
      ext i; fin_cases i <;> simp <;> norm_num
    have e2 : (![-1, 0] : Vec 2) ∈ convexHull ℝ {v | v ∈ c.vertices} := by
      have := hc (m ![-1, -1] (by simp [c])) (m ![-1, 1] (by simp [c])) (a := 1 / 2) (b := 1 / 2) (by norm_num) (by norm_num)
        (by norm_num)
      convert this using 1
      ext i; fin_cases i <;> simp <;> norm_num
    have := hc e1 e2 (a := 3 / 4) (b := 1 / 4) (by norm_num) (by norm_num) (by norm_num)
    convert this using 1
    ext i; fin_cases i <;> simp <;> norm_num
  · rw [Bool.eq_false_iff]
    intro hs
    obtain ⟨_, _, g, hg, _, w, hw, h2⟩ := (C102_selection _ _ _).mp hs
    rw [List.mem_singleton] at hg
    subst hg
    have hval : f w = 7 / 4 := by
      simp only [c, List.mem_cons, List.not_mem_nil, or_false] at hw
      rcases hw with rfl | rfl | rfl | rfl <;> simp [f] <;> norm_num
    rw [hval] at h2
    linarith

/-- The ranks agree on which cells are active and where their vertices are, every active cell is owned by exactly one. -/
def Distributed {dim N : ℕ} (mesh : Fin N → Bool × List (Vec dim)) (ranks : List (Fin N → Cell dim)) : Prop :=
  (∀ r ∈ ranks, ∀ k, (r k).active = (mesh k).1 ∧ (r k).vertices = (mesh k).2) ∧
    ∀ k, (mesh k).1 = true → (ranks.countP fun r => decide ((r k).status = .owned)) = 1

/-- C102: no cell is lost: every active cell of the distributed mesh the level set passes through (in the sense of the
vertices) is in the file, and no other one. -/
theorem C102_complete {dim N : ℕ} (delta : ℝ) (functions : List (Vec dim → ℝ)) (mesh : Fin N → Bool × List (Vec dim))
    (ranks : List (Fin N → Cell dim)) (hr : Distributed mesh ranks) (k : Fin N) :
    k ∈ levelsetFile delta functions ranks ↔ (mesh k).1 = true ∧
      ∃ f ∈ functions, (∃ v ∈ (mesh k).2, -delta ≤ f v) ∧ ∃ w ∈ (mesh k).2, f w ≤ delta := by
  unfold levelsetFile writtenBy
  rw [List.mem_flatMap]
  constructor
  · rintro ⟨r, hmem, hk⟩
    rw [List.mem_filter] at hk
    obtain ⟨h1, _, h2⟩ := (C102_selection _ _ _).mp hk.2
    have := hr.1 r hmem k
    rw [this.1] at h1
    rw [this.2] at h2
    exact ⟨h1, h2⟩
  · rintro ⟨h1, h2⟩
    have hc := hr.2 k h1
    obtain ⟨r, hmem, hown⟩ := List.countP_pos_iff.mp (by rw [hc]; exact Nat.one_pos :
      0 < ranks.countP fun r => decide ((r k).status = .owned))
    refine ⟨r, hmem, List.mem_filter.mpr ⟨List.mem_finRange k, (C102_selection _ _ _).mpr ?_⟩⟩
    have hrk := hr.1 r hmem k
    refine ⟨by rw [hrk.1]; exact h1, ?_, by rw [hrk.2]; exact h2⟩
    rw [of_decide_eq_true hown]
    simp

theorem count_finRange_filter {N : ℕ} (p : Fin N → Bool) (k : Fin N) :
    ((List.finRange N).filter p).count k = if p k = true then 1 else 0 := by
  by_cases h : p k = true
  · rw [if_pos h, List.count_filter h]
    exact List.count_eq_one_of_mem (List.nodup_finRange N) (List.mem_finRange k)
  · rw [if_neg h, List.count_eq_zero]
    intro hm
    exact h (List.mem_filter.mp hm).2

/-- C102: but a cell is written more than once: ghost cells are not excluded, so that a cell is in the file as many times as
there are ranks which own it or have it as a ghost cell. -/
theorem C102_ghost_violation {dim N : ℕ} (delta : ℝ) (functions : List (Vec dim → ℝ)) (mesh : Fin N → Bool × List (Vec dim))
    (ranks : List (Fin N → Cell dim)) (hr : Distributed mesh ranks) (k : Fin N) (hk : k ∈ levelsetFile delta functions ranks) :
    (levelsetFile delta functions ranks).count k = ranks.countP fun r => decide ((r k).status ≠ .artificial) := by
  rw [C102_complete delta functions mesh ranks hr k] at hk
  have hfile : ∀ l : List (Fin N → Cell dim), (∀ r ∈ l, r ∈ ranks) →
      (levelsetFile delta functions l).count k = l.countP fun r => decide ((r k).status ≠ .artificial) := by
    intro l
    induction l with
    | nil => intro _; rfl
    | cons r l ih =>
      intro hmem
      have hstep : levelsetFile delta functions (r :: l) = writtenBy delta functions r ++ levelsetFile delta functions l := rfl
      rw [hstep, List.count_append, ih (fun r' h => hmem r' (List.mem_cons_of_mem _ h)), List.countP_cons]
      have hw : (writtenBy delta functions r).count k = if selected delta functions (r k) = true then 1 else 0 :=
        count_finRange_filter _ k
      rw [hw, add_comm]
      congr 1
      have hrk := hr.1 r (hmem r (List.mem_cons_self ..)) k
      have hiff : selected delta functions (r k) = true ↔ (r k).status ≠ .artificial := by
        rw [C102_selection]
        refine ⟨fun h => h.2.1, fun h => ⟨by rw [hrk.1]; exact hk.1, h, by rw [hrk.2]; exact hk.2⟩⟩
      by_cases h : (r k).status ≠ .artificial
      · rw [if_pos (hiff.mpr h), if_pos (decide_eq_true h)]
      · rw [if_neg (fun h' => h (hiff.mp h')), if_neg (by simpa using h)]
  exact hfile ranks fun _ h => h

/-! ### File names -/

theorem digitChar_inj {a b : ℕ} (ha : a < 10) (hb : b < 10) (h : Nat.digitChar a = Nat.digitChar b) : a = b := by
  interval_cases a <;> interval_cases b <;> first | rfl | exact absurd h (by decide)

theorem sixDigits_injective {m n : ℕ} (h : sixDigits m = sixDigits n) : m = n := by
  unfold sixDigits at h
  have hlt : ∀ m : ℕ, ∀ d ∈ (Nat.digits 10 m ++ List.replicate (6 - (Nat.digits 10 m).length) 0).reverse, d < 10 := by
    intro m d hd
    rw [List.mem_reverse, List.mem_append] at hd
    rcases hd with hd | hd
    · exact Nat.digits_lt_base (by norm_num) hd
    · rw [List.eq_of_mem_replicate hd]; norm_num
  have key : ∀ l1 l2 : List ℕ, (∀ d ∈ l1, d < 10) → (∀ d ∈ l2, d < 10) →
      l1.map Nat.digitChar = l2.map Nat.digitChar → l1 = l2 := by
    intro l1
    induction l1 with
    | nil => intro l2 _ _ h; cases l2 with | nil => rfl | cons => simp at h
    | cons a l1 ih =>
      intro l2 h1 h2 h
      cases l2 with
      | nil => simp at h
      | cons b l2 =>
        simp only [List.map_cons, List.cons.injEq] at h
        rw [digitChar_inj (h1 a (by simp)) (h2 b (by simp)) h.1,
          ih l2 (fun d hd => h1 d (by simp [hd])) (fun d hd => h2 d (by simp [hd])) h.2]
  have h' := List.reverse_injective (key _ _ (hlt m) (hlt n) h)
  have hval : ∀ m : ℕ, Nat.ofDigits 10 (Nat.digits 10 m ++ List.replicate (6 - (Nat.digits 10 m).length) 0) = m := by
    intro m
    rw [Nat.ofDigits_append, Nat.ofDigits_digits]
    have : ∀ k, Nat.ofDigits 10 (List.replicate k 0) = 0 := by
      intro k
      induction k with
      | zero => rfl
      | succ k ih => rw [List.replicate_succ, Nat.ofDigits_cons, ih]
    rw [this]; simp
  rw [← hval m, ← hval n, h']

/-- C102: no output overwrites another one: the names of the files of different cycles, and of the full output and the level
sets, are different. -/
theorem C102_file_names (name : List Char) (m n : ℕ) :
    (fullName name m = fullName name n → m = n) ∧ (levelsetName name m = levelsetName name n → m = n) ∧
      fullName name m ≠ levelsetName name n := by
  refine ⟨fun h => ?_, fun h => ?_, fun h => ?_⟩
  · unfold fullName at h
    have h1 := List.append_cancel_right h
    exact sixDigits_injective (List.append_cancel_left h1)
  · unfold levelsetName at h
    have h1 := List.append_cancel_right h
    exact sixDigits_injective (List.append_cancel_left h1)
  · unfold fullName levelsetName at h
    simp only [List.append_assoc] at h
    have h1 := List.append_cancel_left h
    have h2 := congrArg List.head? h1
    simp at h2

/-! ### The hypotheses are satisfiable -/

/-- Two unit squares side by side, on two ranks; each has the other one as a ghost cell. -/
def twoSquares : Fin 2 → Bool × List (Vec 2) :=
  ![(true, [![0, 0], ![1, 0], ![0, 1], ![1, 1]]), (true, [![1, 0], ![2, 0], ![1, 1], ![2, 1]])]

/-- The view of the rank that owns the cell `k`. -/
def view (k : Fin 2) : Fin 2 → Cell 2 := fun j =>
  ⟨true, if j = k then .owned else .ghost, (twoSquares j).2⟩

/-- A plane through the first square: on two ranks that square is written twice. -/
example : Distributed twoSquares [view 0, view 1] ∧
    (levelsetFile 0 [fun x => x 0 - 1 / 2] [view 0, view 1]).count 0 = 2 := by
  have hd : Distributed twoSquares [view 0, view 1] := by
    constructor
    · intro r hr k
      simp only [List.mem_cons, List.not_mem_nil, or_false] at hr
      rcases hr with rfl | rfl <;> fin_cases k <;> simp [view, twoSquares]
    · intro k _
      fin_cases k <;> simp [view]
  refine ⟨hd, ?_⟩
  rw [C102_ghost_violation 0 _ twoSquares _ hd 0]
  · simp [view]
  · rw [C102_complete 0 _ twoSquares _ hd 0]
    refine ⟨rfl, _, List.mem_singleton.mpr rfl, ⟨![1, 0], by simp [twoSquares], ?_⟩, ![0, 0], by simp [twoSquares], ?_⟩
    · show -(0 : ℝ) ≤ 1 - 1 / 2
      norm_num
    · show (0 : ℝ) - 1 / 2 ≤ 0
      norm_num

end

end VtuOutput
end Ryujin
