import Verif.Spec.Adaptation
import Verif.Props.Runs
import Mathlib.Tactic.Ring
import Mathlib.Tactic.Linarith
import Mathlib.Tactic.NormNum
import Mathlib.Tactic.FieldSimp
import Mathlib.Tactic.Positivity
import Mathlib.Tactic.FinCases
import Mathlib.Tactic.Module
import Mathlib.Analysis.Convex.Combination
import Mathlib.Algebra.BigOperators.Ring.Finset

/-!
# C128 – mesh adaptation transfers the solution
-/

namespace Ryujin
namespace Adaptation

variable {d : ℕ} {ι ι' E : Type} [AddCommGroup E] [Module ℝ E]

/-- A sum over corners of a product is a product of sums of two terms. -/
theorem sum_corner_prod (f : Fin d → Bool → ℝ) : ∑ v : Corner d, ∏ k, f k (v k) = ∏ k, (f k true + f k false) := by
  have := Finset.prod_univ_sum (R := ℝ) (fun _ : Fin d => (Finset.univ : Finset Bool)) f
  simp only [Fintype.piFinset_univ, Fintype.sum_bool] at this
  exact this.symm

theorem shapeValue_nonneg {p : Fin d → ℝ} (h : ∀ k, 0 ≤ p k ∧ p k ≤ 1) (w : Corner d) : 0 ≤ shapeValue p w := by
  refine Finset.prod_nonneg fun k _ => ?_
  split_ifs
  · exact (h k).1
  · linarith [(h k).2]

theorem sum_shapeValue (p : Fin d → ℝ) : ∑ w : Corner d, shapeValue p w = 1 := by
  have := sum_corner_prod (fun k b => if b then p k else 1 - p k)
  simp only [if_true, Bool.false_eq_true, if_false] at this
  unfold shapeValue
  rw [this]
  exact Finset.prod_eq_one fun k _ => by ring

theorem shapeValue_corner (v w : Corner d) : shapeValue (cornerPoint v) w = if w = v then 1 else 0 := by
  unfold shapeValue cornerPoint
  by_cases h : w = v
  · subst h
    rw [if_pos rfl]
    exact Finset.prod_eq_one fun k _ => by cases w k <;> simp
  · rw [if_neg h]
    obtain ⟨k, hk⟩ := Function.ne_iff.1 h
    refine Finset.prod_eq_zero (Finset.mem_univ k) ?_
    cases hw : w k <;> cases hv : v k <;> simp_all

/-- Interpolation reproduces the values at the corners. -/
theorem cellFunction_corner (V : Corner d → E) (v : Corner d) : cellFunction V (cornerPoint v) = V v := by
  simp [cellFunction, shapeValue_corner]

/-- **C128 (refinement does not change the function).** The finite element function on a child is the one of the parent. -/
theorem C128_refinement_same_function (V : Corner d → E) (c : Corner d) (p : Fin d → ℝ) :
    cellFunction (fun v => cellFunction V (inParent c (cornerPoint v))) p = cellFunction V (inParent c p) := by
  simp only [cellFunction, Finset.smul_sum, smul_smul]
  rw [Finset.sum_comm]
  refine Finset.sum_congr rfl fun w _ => ?_
  rw [← Finset.sum_smul]
  congr 1
  simp only [shapeValue, ← Finset.prod_mul_distrib]
  have := sum_corner_prod (fun k b => (if b then p k else 1 - p k) *
    (if w k then inParent c (fun k => if b then (1 : ℝ) else 0) k else 1 - inParent c (fun k => if b then (1 : ℝ) else 0) k))
  have e : ∀ v : Corner d, (∏ k, (if v k then p k else 1 - p k) *
      if w k then inParent c (cornerPoint v) k else 1 - inParent c (cornerPoint v) k)
      = ∏ k, (if v k then p k else 1 - p k) * (if w k then inParent c (fun _ => if v k then (1 : ℝ) else 0) k
        else 1 - inParent c (fun _ => if v k then (1 : ℝ) else 0) k) := by
    intro v
    refine Finset.prod_congr rfl fun k _ => ?_
    simp [inParent, cornerPoint]
  rw [Finset.sum_congr rfl fun v _ => e v]
  rw [this]
  refine Finset.prod_congr rfl fun k _ => ?_
  simp only [inParent, if_true, Bool.false_eq_true, if_false]
  cases c k <;> cases w k <;> simp <;> ring

/-- The corner values of all children have the same mean as those of the parent. -/
theorem refine_mean (V : Corner d → E) : ∑ c : Corner d, (1 / 2 ^ d : ℝ) • ∑ v : Corner d,
    cellFunction V (inParent c (cornerPoint v)) = ∑ w, V w := by
  have key : ∀ w : Corner d, ∑ c : Corner d, ∑ v : Corner d, shapeValue (inParent c (cornerPoint v)) w = 2 ^ d := by
    intro w
    have h1 : ∀ c : Corner d, ∑ v : Corner d, shapeValue (inParent c (cornerPoint v)) w
        = ∏ k, ((fun b : Bool => if w k then (if b then (1 : ℝ) else 0) + 1 / 2 else 3 / 2 - (if b then (1 : ℝ) else 0)) (c k)) := by
      intro c
      unfold shapeValue
      have := sum_corner_prod (fun k b => if w k then (((if c k then 1 else 0) + (if b then 1 else 0)) / 2 : ℝ)
        else 1 - ((if c k then 1 else 0) + (if b then 1 else 0)) / 2)
      simp only [inParent, cornerPoint]
      rw [this]
      refine Finset.prod_congr rfl fun k _ => ?_
      cases c k <;> cases w k <;> norm_num
    rw [Finset.sum_congr rfl fun c _ => h1 c, sum_corner_prod (fun k (b : Bool) =>
      if w k then (if b then (1 : ℝ) else 0) + 1 / 2 else 3 / 2 - (if b then (1 : ℝ) else 0))]
    have : ∀ k, ((if w k then (if true then (1 : ℝ) else 0) + 1 / 2 else 3 / 2 - (if true then (1 : ℝ) else 0))
        + (if w k then (if false then (1 : ℝ) else 0) + 1 / 2 else 3 / 2 - (if false then (1 : ℝ) else 0))) = 2 := by
      intro k
      cases w k <;> norm_num
    rw [Finset.prod_congr rfl fun k _ => this k]
    simp
  have h2 : ∑ c : Corner d, ∑ v : Corner d, cellFunction V (inParent c (cornerPoint v)) = (2 ^ d : ℝ) • ∑ w, V w := by
    simp only [cellFunction]
    rw [Finset.smul_sum]
    calc _ = ∑ c : Corner d, ∑ w, (∑ v : Corner d, shapeValue (inParent c (cornerPoint v)) w) • V w := by
          refine Finset.sum_congr rfl fun c _ => ?_
          rw [Finset.sum_comm]
          exact Finset.sum_congr rfl fun w _ => by rw [Finset.sum_smul]
      _ = ∑ w, (∑ c : Corner d, ∑ v : Corner d, shapeValue (inParent c (cornerPoint v)) w) • V w := by
          rw [Finset.sum_comm]
          exact Finset.sum_congr rfl fun w _ => by rw [Finset.sum_smul]
      _ = _ := Finset.sum_congr rfl fun w _ => by rw [key]
  rw [← Finset.smul_sum, h2, smul_smul, one_div, inv_mul_cancel₀ (by positivity), one_smul]

omit [AddCommGroup E] [Module ℝ E] in
open Classical in
/-- What is written last stays; values that agree stay whatever the order. -/
theorem writeAll_fits (u : ι' → E) (l : List (ι' × E)) (h : ∀ x ∈ l, x.2 = u x.1) (start : ι' → E) (i : ι') :
    writeAll start l i = if i ∈ l.map Prod.fst then u i else start i := by
  unfold writeAll
  induction l generalizing start with
  | nil => simp
  | cons x l ih =>
    rw [List.foldl_cons, ih (fun y hy => h y (List.mem_cons_of_mem _ hy))]
    by_cases hi : i ∈ l.map Prod.fst
    · simp only [hi, if_true, List.map_cons, List.mem_cons, or_true]
    · by_cases hx : i = x.1
      · subst hx
        simp only [hi, if_false, List.map_cons, List.mem_cons, true_or, if_true, Function.update_self]
        exact h x List.mem_cons_self
      · simp [hi, hx]

theorem written_node (U : ι → E) (p : Patch d ι ι') (i : ι') :
    i ∈ (p.written U).map Prod.fst ↔ ∃ K ∈ p.newCells, ∃ v, K.dof v = i := by
  cases p <;> simp [Patch.written, Patch.newCells]

/-- **C128 (interpolation).** If the old function is continuous, the new vector has its values at all nodes of the new mesh,
whatever the order of the cells. -/
theorem C128_interpolates (patches : List (Patch d ι ι')) (U : ι → E) (u start : ι' → E) (h : Fits patches U u) (i : ι')
    (hi : IsNode patches i) : transfer patches U start i = u i := by
  classical
  unfold transfer
  rw [writeAll_fits u _ (by
    intro x hx
    obtain ⟨p, hp, hx⟩ := List.mem_flatMap.1 hx
    exact h p hp x hx), if_pos]
  obtain ⟨p, hp, hK⟩ := hi
  obtain ⟨x, hx, rfl⟩ := List.mem_map.1 ((written_node U p i).2 hK)
  exact List.mem_map.2 ⟨x, List.mem_flatMap.2 ⟨p, hp, hx⟩, rfl⟩

/-- The integral of a function that fits, over a patch that is not coarsened. -/
theorem patch_integral (U : ι → E) (u : ι' → E) (p : Patch d ι ι') (hr : p.Regular)
    (hc : ∀ old new, p ≠ .coarsen old new) (h : ∀ x ∈ p.written U, x.2 = u x.1) :
    integral p.newCells u = integral p.oldCells U := by
  cases p with
  | keep old new =>
    simp only [Patch.Regular] at hr
    simp only [integral, Patch.newCells, Patch.oldCells, List.map_cons, List.map_nil, List.sum_cons, List.sum_nil, add_zero, hr]
    congr 1
    refine Finset.sum_congr rfl fun v _ => ?_
    exact (h (new.dof v, U (old.dof v)) (by
      simp only [Patch.written, List.mem_map, Finset.mem_toList, Finset.mem_univ, true_and]
      exact ⟨v, rfl⟩)).symm
  | refine old new =>
    simp only [Patch.Regular] at hr
    simp only [integral, Patch.newCells, Patch.oldCells, List.map_cons, List.map_nil, List.sum_cons, List.sum_nil, add_zero,
      List.map_map]
    rw [← refine_mean, Finset.smul_sum, ← Finset.sum_map_toList]
    congr 1
    refine List.map_congr_left fun c _ => ?_
    simp only [Function.comp_apply, hr, smul_smul]
    congr 1
    · ring
    · refine Finset.sum_congr rfl fun v _ => ?_
      exact (h ((new c).dof v, cellFunction (fun w => U (old.dof w)) (inParent c (cornerPoint v)))
        (by simp only [Patch.written, List.mem_flatMap, Finset.mem_toList, Finset.mem_univ, true_and, List.mem_map]
            exact ⟨c, v, rfl⟩)).symm
  | coarsen old new => exact absurd rfl (hc old new)

theorem integral_flatMap {α : Type} (l : List α) (f : α → List (Cell d ι)) (U : ι → E) :
    integral (l.flatMap f) U = (l.map fun a => integral (f a) U).sum := by
  induction l with
  | nil => simp [integral]
  | cons a l ih =>
    rw [List.flatMap_cons, List.map_cons, List.sum_cons, ← ih]
    simp [integral, List.map_append, List.sum_append]

/-- **C128 (conservation under refinement).** If no cell is coarsened and the old function is continuous, the integral of
every conserved quantity is the same before and after the adaptation. -/
theorem C128_refinement_conserves (patches : List (Patch d ι ι')) (U : ι → E) (u start : ι' → E) (h : Fits patches U u)
    (hr : ∀ p ∈ patches, p.Regular) (hc : ∀ p ∈ patches, ∀ old new, p ≠ .coarsen old new) :
    integral (patches.flatMap Patch.newCells) (transfer patches U start) = integral (patches.flatMap Patch.oldCells) U := by
  rw [integral_flatMap, integral_flatMap]
  congr 1
  refine List.map_congr_left fun p hp => ?_
  rw [← patch_integral U u p (hr p hp) (hc p hp) (h p hp)]
  unfold integral
  congr 1
  refine List.map_congr_left fun K hK => ?_
  congr 1
  refine Finset.sum_congr rfl fun v _ => ?_
  exact C128_interpolates patches U u start h _ ⟨p, hp, K, hK, v, rfl⟩

/-- The integral is the sum of the values weighted with the lumped masses. -/
theorem integral_eq_lumped [Fintype ι] (cells : List (Cell d ι)) (U : ι → E) :
    integral cells U = ∑ i, lumped cells i • U i := by
  classical
  unfold integral lumped
  induction cells with
  | nil => simp
  | cons K l ih =>
    simp only [List.map_cons, List.sum_cons, add_smul, Finset.sum_add_distrib, ih]
    congr 1
    simp only [Finset.sum_smul]
    rw [Finset.sum_comm, Finset.smul_sum]
    refine Finset.sum_congr rfl fun v _ => ?_
    rw [Finset.sum_eq_single (K.dof v)]
    · simp
    · intro i _ hi
      simp [Ne.symm hi]
    · simp

/-- **C128 (invariant sets).** Whatever is refined and coarsened: if all values at the corners of old cells – including
those of constrained degrees of freedom – are in a convex set, so are all values at the nodes of the new mesh.  For scalar
equations this means bounds, for the Euler equations positive density and internal energy. -/
theorem C128_convex (patches : List (Patch d ι ι')) (U : ι → E) (start : ι' → E) (K : Set E) (hK : Convex ℝ K)
    (h : ∀ p ∈ patches, ∀ C ∈ p.oldCells, ∀ v, U (C.dof v) ∈ K) (i : ι') (hi : IsNode patches i) :
    transfer patches U start i ∈ K := by
  classical
  have hw : ∀ x ∈ patches.flatMap (Patch.written U), x.2 ∈ K := by
    intro x hx
    obtain ⟨p, hp, hx⟩ := List.mem_flatMap.1 hx
    have hp' := h p hp
    cases p with
    | keep old new =>
      simp only [Patch.written, List.mem_map] at hx
      obtain ⟨v, -, rfl⟩ := hx
      exact hp' old (by simp [Patch.oldCells]) v
    | refine old new =>
      simp only [Patch.written, List.mem_flatMap, List.mem_map] at hx
      obtain ⟨c, -, v, -, rfl⟩ := hx
      have hb : ∀ k, 0 ≤ inParent c (cornerPoint v) k ∧ inParent c (cornerPoint v) k ≤ 1 := by
        intro k
        simp only [inParent, cornerPoint]
        cases c k <;> cases v k <;> norm_num
      exact hK.sum_mem (fun w _ => shapeValue_nonneg hb w) (sum_shapeValue _)
        (fun w _ => hp' old (by simp [Patch.oldCells]) w)
    | coarsen old new =>
      simp only [Patch.written, List.mem_map] at hx
      obtain ⟨v, -, rfl⟩ := hx
      exact hp' (old v) (by simp [Patch.oldCells]) v
  have key : ∀ (l : List (ι' × E)) (start : ι' → E), (∀ x ∈ l, x.2 ∈ K) → (i ∈ l.map Prod.fst ∨ start i ∈ K) →
      writeAll start l i ∈ K := by
    intro l
    unfold writeAll
    induction l with
    | nil => intro start _ hs; simpa using hs
    | cons x l ih =>
      intro start hl hs
      rw [List.foldl_cons]
      refine ih _ (fun y hy => hl y (List.mem_cons_of_mem _ hy)) ?_
      by_cases hx : i = x.1
      · subst hx
        right
        rw [Function.update_self]
        exact hl x List.mem_cons_self
      · rcases hs with hs | hs
        · rw [List.map_cons, List.mem_cons] at hs
          exact Or.inl (hs.resolve_left hx)
        · right
          rwa [Function.update_of_ne hx]
  refine key _ start hw (Or.inl ?_)
  obtain ⟨p, hp, hC⟩ := hi
  obtain ⟨x, hx, rfl⟩ := List.mem_map.1 ((written_node U p i).2 hC)
  exact List.mem_map.2 ⟨x, List.mem_flatMap.2 ⟨p, hp, hx⟩, rfl⟩

/-- The two cells `[0, 1]` and `[1, 2]`; the first one is refined. -/
noncomputable def demoPatches : List (Patch 1 (Fin 3) (Fin 4)) :=
  [.refine ⟨1, fun v => if v 0 then 1 else 0⟩ fun c => ⟨1 / 2, fun v => if c 0 then (if v 0 then 2 else 1) else (if v 0 then 1 else 0)⟩,
    .keep ⟨1, fun v => if v 0 then 2 else 1⟩ ⟨1, fun v => if v 0 then 3 else 2⟩]

/-- The hypotheses are met: the values `a, b, c` at the nodes `0, 1, 2`. -/
theorem demo_fits (a b c : ℝ) : Fits demoPatches ![a, b, c] ![a, (a + b) / 2, b, c] := by
  have hs : ∀ f : Corner 1 → ℝ, ∑ w, f w = f (fun _ => true) + f (fun _ => false) := by
    intro f
    rw [Fintype.sum_equiv (Equiv.funUnique (Fin 1) Bool) f (fun b => f fun _ => b) (fun x => by
      congr 1; funext k; fin_cases k; rfl)]
    simp
  have hb : ∀ v : Corner 1, v = (fun _ => true) ∨ v = (fun _ => false) := by
    intro v
    cases h : v 0
    · right; funext k; fin_cases k; exact h
    · left; funext k; fin_cases k; exact h
  intro p hp x hx
  simp only [demoPatches, List.mem_cons, List.not_mem_nil, or_false] at hp
  rcases hp with rfl | rfl
  · simp only [Patch.written, List.mem_flatMap, List.mem_map] at hx
    obtain ⟨c, -, v, -, rfl⟩ := hx
    rcases hb c with rfl | rfl <;> rcases hb v with rfl | rfl <;>
      simp [cellFunction, hs, shapeValue, inParent, cornerPoint] <;> ring
  · simp only [Patch.written, List.mem_map] at hx
    obtain ⟨v, -, rfl⟩ := hx
    rcases hb v with rfl | rfl <;> simp

example (start : Fin 4 → ℝ) : integral (demoPatches.flatMap Patch.newCells) (transfer demoPatches ![1, 5, 2] start)
      = integral (demoPatches.flatMap Patch.oldCells) ![1, 5, 2] ∧ transfer demoPatches ![1, 5, 2] start 1 = 3 := by
  constructor
  · refine C128_refinement_conserves demoPatches _ _ start (demo_fits 1 5 2) ?_ ?_
    · intro p hp
      simp only [demoPatches, List.mem_cons, List.not_mem_nil, or_false] at hp
      rcases hp with rfl | rfl <;> simp [Patch.Regular]
    · intro p hp
      simp only [demoPatches, List.mem_cons, List.not_mem_nil, or_false] at hp
      rcases hp with rfl | rfl <;> simp
  · rw [C128_interpolates demoPatches _ _ start (demo_fits 1 5 2) 1]
    · norm_num
    · refine ⟨_, List.mem_cons_self, ⟨1 / 2, fun v => if v 0 then 1 else 0⟩, ?_, fun _ => true, by simp⟩
      simp only [Patch.newCells, List.mem_map, Finset.mem_toList, Finset.mem_univ, true_and]
      exact ⟨fun _ => false, by simp⟩

/-- **C128 is violated by coarsening.** In every dimension there is a continuous function – one at a single node, zero at
all other ones – whose integral is positive before and zero after four (in two dimensions) cells are replaced by one. -/
theorem C128_coarsening_violation (n : ℕ) : ∃ (p : Patch (n + 1) (Fin (n + 1) → ℕ) (Corner (n + 1))) (U : (Fin (n + 1) → ℕ) → ℝ)
    (u : Corner (n + 1) → ℝ), p.Regular ∧ Fits [p] U u ∧
    integral p.oldCells U = 1 / 2 ^ (n + 1) ∧ ∀ start, integral p.newCells (transfer [p] U start) = 0 := by
  classical
  let U : (Fin (n + 1) → ℕ) → ℝ := fun x => if ∀ k, x k = 1 then 1 else 0
  let old : Corner (n + 1) → Cell (n + 1) (Fin (n + 1) → ℕ) := fun c =>
    ⟨1 / 2 ^ (n + 1), fun v k => (if c k then 1 else 0) + (if v k then 1 else 0)⟩
  let p : Patch (n + 1) (Fin (n + 1) → ℕ) (Corner (n + 1)) := .coarsen old ⟨1, id⟩
  have hz : ∀ v : Corner (n + 1), U ((old v).dof v) = 0 := by
    intro v
    refine if_neg fun h => ?_
    have := h 0
    simp only [old] at this
    cases hv : v 0 <;> simp [hv] at this
  have hfit : Fits [p] U (fun _ => 0) := by
    intro q hq x hx
    obtain rfl : q = p := by simpa using hq
    simp only [p, Patch.written, List.mem_map] at hx
    obtain ⟨v, -, rfl⟩ := hx
    exact hz v
  refine ⟨p, U, fun _ => 0, fun c => by simp [old], hfit, ?_, ?_⟩
  · have h1 : ∀ c : Corner (n + 1), ∑ v : Corner (n + 1), U ((old c).dof v) = 1 := by
      intro c
      rw [Finset.sum_eq_single (fun k => !c k)]
      · refine if_pos fun k => ?_
        simp only [old]
        rcases Bool.eq_false_or_eq_true (c k) with h | h <;> simp [h]
      · intro v _ hv
        refine if_neg fun h => hv ?_
        funext k
        have := h k
        simp only [old] at this
        cases hc : c k <;> cases hv : v k <;> simp_all
      · simp
    simp only [integral, p, Patch.oldCells, List.map_map, Function.comp_def, h1]
    simp only [old, smul_eq_mul, mul_one, List.map_const', Finset.length_toList, Finset.card_univ, List.sum_replicate,
      Fintype.card_fun, Fintype.card_bool, Fintype.card_fin, nsmul_eq_mul]
    push_cast
    field_simp
  · intro start
    have h0 : ∀ v, transfer [p] U start v = 0 := fun v =>
      C128_interpolates [p] U _ start hfit v ⟨p, by simp, ⟨1, id⟩, by simp [p, Patch.newCells], v, rfl⟩
    simp [integral, p, Patch.newCells] 
    simp [p] at h0
    simp [h0]

/-- **C128 is violated by constrained degrees of freedom.** The values at the corners are read from the vector as it is, no
constraints are applied before.  In a cell whose right face is constrained (to the opposite face of a periodic domain, say) a
uniform state of density one does not stay uniform: the node in the middle gets `(1 + s) / 2`, where `s` is whatever the
vector contains at the constrained node. -/
theorem C128_constrained_violation (s : ℝ) (start : Fin 3 → ℝ) :
    transfer [Patch.refine ⟨1, fun v => if v 0 then (1 : Fin 2) else 0⟩ fun c : Corner 1 =>
      ⟨1 / 2, fun v => if c 0 then (if v 0 then (2 : Fin 3) else 1) else (if v 0 then 1 else 0)⟩] ![1, s] start 1 = (1 + s) / 2 := by
  have hs : ∀ f : Corner 1 → ℝ, ∑ w, f w = f (fun _ => true) + f (fun _ => false) := by
    intro f
    rw [Fintype.sum_equiv (Equiv.funUnique (Fin 1) Bool) f (fun b => f fun _ => b) (fun x => by
      congr 1; funext k; fin_cases k; rfl)]
    simp
  have hb : ∀ v : Corner 1, v = (fun _ => true) ∨ v = (fun _ => false) := by
    intro v
    cases h : v 0
    · right; funext k; fin_cases k; exact h
    · left; funext k; fin_cases k; exact h
  refine C128_interpolates _ _ ![1, (1 + s) / 2, s] start ?_ 1 ?_
  · intro p hp x hx
    simp only [List.mem_cons, List.not_mem_nil, or_false] at hp
    subst hp
    simp only [Patch.written, List.mem_flatMap, List.mem_map] at hx
    obtain ⟨c, -, v, -, rfl⟩ := hx
    rcases hb c with rfl | rfl <;> rcases hb v with rfl | rfl <;>
      simp [cellFunction, hs, shapeValue, inParent, cornerPoint] <;> ring
  · refine ⟨_, List.mem_cons_self, ⟨1 / 2, fun v => if v 0 then 1 else 0⟩, ?_, fun _ => true, by simp⟩
    simp only [Patch.newCells, List.mem_map, Finset.mem_toList, Finset.mem_univ, true_and]
    exact ⟨fun _ => false, by simp⟩

/-- **C128 is violated by elements of degree two.** Refinement produces negative values between positive ones. -/
theorem C128_degree_two_violation : ∃ a b c : ℝ, 0 < a ∧ 0 < b ∧ 0 < c ∧ quadraticFunction a b c 0 = a ∧
    quadraticFunction a b c (1 / 2) = b ∧ quadraticFunction a b c 1 = c ∧ quadraticFunction a b c (3 / 4) < 0 :=
  ⟨1, 1 / 100, 1 / 100, by norm_num, by norm_num, by norm_num, by norm_num [quadraticFunction],
    by norm_num [quadraticFunction], by norm_num [quadraticFunction], by norm_num [quadraticFunction]⟩

/-- **C128 (Euler equations).** If all states at the corners of old cells have positive density and internal energy, so have
all states at the nodes of the new mesh. -/
theorem C128_euler_admissible {dim : ℕ} (patches : List (Patch d ι ι')) (U : ι → Euler.State dim) (start : ι' → Euler.State dim)
    (h : ∀ p ∈ patches, ∀ C ∈ p.oldCells, ∀ v, Euler.Admissible (U (C.dof v))) (i : ι') (hi : IsNode patches i) :
    Euler.Admissible (transfer patches U start i) :=
  C128_convex patches U start {V | Euler.Admissible V} Euler.admissible_convex h i hi

/-- The hypotheses are met: a gas with a jump in the density. -/
example (start : Fin 4 → Euler.State 1) : Euler.Admissible (transfer demoPatches
    (fun i => if i = 1 then Euler.mkState 5 0 1 else Euler.mkState 1 0 1) start 1) := by
  refine C128_euler_admissible demoPatches _ start ?_ 1 ?_
  · intro p hp C hC v
    have h1 : ∀ r : ℝ, 0 < r → Euler.Admissible (Euler.mkState r (0 : Vec 1) 1) := by
      intro r hr
      refine ⟨by simpa using hr, ?_⟩
      simp [Euler.internalEnergy, normSq]
    by_cases h : C.dof v = 1
    · simp only [h, if_true]; exact h1 5 (by norm_num)
    · simp only [h, if_false]; exact h1 1 (by norm_num)
  · refine ⟨_, List.mem_cons_self, ⟨1 / 2, fun v => if v 0 then 1 else 0⟩, ?_, fun _ => true, by simp⟩
    simp only [Patch.newCells, List.mem_map, Finset.mem_toList, Finset.mem_univ, true_and]
    exact ⟨fun _ => false, by simp⟩

section stale

open Integrator Hyp

variable {κ Q S F B : Type} {dim : ℕ} [Fintype κ] [AddCommGroup S] [Module ℝ S]

/-- A hyperbolic update does not write constrained degrees of freedom. -/
theorem step_constrained {D : Hyp.Description κ Q S F B dim} {M : Hyp.Mesh κ dim} {par : Hyp.Params} {strategy : Strategy}
    {cnt : Counters} {lo : Leftover κ S} {old : StateVector κ Q S} {stages : List (ℝ × StateVector κ Q S)} {tau tau_max : ℝ}
    {U : κ → S} {t : ℝ} (h : (Hyp.step D M par strategy cnt lo old stages tau tau_max).1 = .done U t) (i : κ)
    (hi : M.nbrs i = []) : U i = lo.newU i := by
  classical
  have hact : ¬ M.active i := by simp [Mesh.active, hi]
  have main : ∀ tau, newStates D M par lo (stage4 D M par lo old stages tau) i = lo.newU i := by
    intro tau
    unfold newStates limiterLoop
    have key : ∀ (l : List ℕ) (n : ℕ) b p (st : LimiterLoop κ S), st.U i = lo.newU i →
        (l.foldl (fun st pass => limiterPass D M b p n pass st) st).U i = lo.newU i := by
      intro l n b p
      induction l with
      | nil => intro st h; exact h
      | cons x l ih =>
        intro st h
        rw [List.foldl_cons]
        refine ih _ ?_
        simp only [limiterPass, hact, if_false, h]
    refine key _ _ _ _ _ ?_
    simp only [newLow, hact, if_false]
  have hU : ∃ tau, U = newStates D M par lo (stage4 D M par lo old stages tau) := by
    unfold Hyp.step at h
    by_cases h0 : 0 < tauMax D M par lo.dij old tau_max
    · simp only [h0, not_true_eq_false, if_false] at h
      split_ifs at h with h1 h2
      all_goals (try (cases strategy <;> simp at h))
      all_goals exact ⟨_, h.1.symm⟩
    · simp [h0] at h
  obtain ⟨tau', rfl⟩ := hU
  exact main tau'

/-- **C128 (what constrained degrees of freedom contain).** After a forward Euler step the state vector contains, at every
constrained degree of freedom, what was in the temporary vector – zero after the first step, not the value prescribed by
the constraint – and this is what the next mesh adaptation reads. -/
theorem C128_stale_after_step (D : Hyp.Description κ Q S F B dim) (M : Hyp.Mesh κ dim) (par : Hyp.Params) (big : ℝ)
    (bc : ℝ → (κ → S) → κ → S) (pre : (κ → S) → Q) (lo : ℕ → Leftover κ S) (garbage : ℕ → κ → S)
    (parabolic : Ctx → ℕ → (κ → S) → ℝ → (κ → S) → ℝ → Res (κ → S)) (ctx : Ctx) (t tau_max tau : ℝ) (m m' : Mem (κ → S) Q)
    (calls n : ℕ) (h : singleStep (hyperbolicModules D M par big bc pre lo garbage parabolic) (program .erk_11) ctx t tau_max m
      calls = .returned m' tau n) (i : κ) (hi : M.nbrs i = []) : (m' .old).U i = (m (.temp 0)).U i := by
  obtain ⟨u, τ, h1, h2, -⟩ := erk11_returned h
  rw [h2]
  exact step_constrained (hyp_ok h1) i hi

/-- The ring with node `2` constrained. -/
noncomputable def brokenRing : Hyp.Mesh (Fin 3) 1 := { Hyp.ring with nbrs := fun i => if i = 2 then [] else if i = 0 then [1] else [0] }

/-- The hypotheses are met: the first step of Burgers' equation, with a temporary vector that is zero. -/
example (m : Mem (Fin 3 → Scalar.State) Unit) (hm : (m .old).U = demoOld.U) (h0 : (m (.temp 0)).U = 0)
    (garbage : ℕ → Fin 3 → Scalar.State) : ∃ m' tau n,
    singleStep (hyperbolicModules demo brokenRing demoPar 1000 (fun _ u => u) (fun _ => ()) (fun _ => demoLo) garbage
      fun _ _ _ _ _ _ => .crash) (program .erk_11) ⟨1 / 2, .warn, .warn⟩ 0 10 m 0 = .returned m' tau n ∧
      (m .old).U 2 0 = 3 ∧ (m' .old).U 2 0 = 0 := by
  obtain ⟨U, t, h⟩ := C18_warn_returns demo brokenRing demoPar ⟨0, 0⟩ { demoLo with newU := (m (.temp 0)).U } demoOld
    [] 0 10 (C11_step_tau demo brokenRing demoPar .warn ⟨0, 0⟩ demoLo demoOld [] 0 10
      (by norm_num [demoPar]) (by norm_num [demoPar]) (fun i => ring_closed.lumped i) (by norm_num)).1
  set Mo := hyperbolicModules demo brokenRing demoPar 1000 (fun _ u => u) (fun _ => ()) (fun _ => demoLo) garbage
    (fun _ _ _ _ _ _ => .crash) with hMo
  have hup : Mo.hyp ⟨1 / 2, .warn, .warn⟩ 0 ⟨Mo.bc 0 (m .old).U, Mo.pre (Mo.bc 0 (m .old).U)⟩ [] (m (.temp 0)).U 0
      (some 10) = .ok U t := by
    have h' : (Hyp.step demo brokenRing ⟨1 / 2, demoPar.tiny, demoPar.iterations⟩ .warn ⟨0, 0⟩
      { demoLo with newU := (m (.temp 0)).U } ⟨demoOld.U, ()⟩ [] 0 10).1 = .done U t := h
    simp only [hMo, hyperbolicModules, hm, Option.getD_some, List.map_nil, h']
  have e : (0 : ℝ) + 0 * 0 = 0 := by ring
  have hs : singleStep Mo (program .erk_11) ⟨1 / 2, .warn, .warn⟩ 0 10 m 0 =
      .returned (swapOld (setU (fun v' => if v' = .old then ⟨Mo.bc 0 (m .old).U, Mo.pre (Mo.bc 0 (m .old).U)⟩ else m v')
        (.temp 0) U) 0) (1 * t) (0 + 1) := by
    simp only [singleStep, program, erk11, run, exec, e, div_one, if_true, reduceCtorEq, if_false, hup, finish]
  refine ⟨_, _, _, hs, ?_, ?_⟩
  · rw [hm]; norm_num [demoOld]
  · rw [C128_stale_after_step demo brokenRing demoPar 1000 _ _ _ garbage _ _ _ _ _ m _ _ _ hs 2 (by simp [brokenRing]), h0]
    rfl

end stale

end Adaptation
end Ryujin
