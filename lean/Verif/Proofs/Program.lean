import Verif.Model.Program
import Verif.Props.Configuration
import Mathlib.Logic.Relation
import Mathlib.Data.List.Nodup
import Mathlib.Algebra.BigOperators.Group.Finset.Basic
import Mathlib.Algebra.Order.BigOperators.Group.Finset
import Mathlib.Tactic.FinCases
import Mathlib.Tactic.IntervalCases

/-!
# Start of the program: auxiliary statements (C118)
-/

namespace Ryujin
namespace Program

open Configuration

theorem keys_assign (prm : Prm) (k : Key) (v : String) : (assign prm k v).map Prod.fst = prm.map Prod.fst := by
  unfold assign
  rw [List.map_map]
  refine List.map_congr_left fun e _ => ?_
  simp only [Function.comp]
  split_ifs with h
  · exact h.symm
  · rfl

theorem value_cons (e : Key × String) (prm : Prm) (k : Key) : value (e :: prm) k = if k = e.1 then some e.2 else value prm k := by
  unfold value
  rw [List.lookup_cons]
  by_cases h : k = e.1
  · simp [h]
  · rw [show (k == e.1) = false by simpa using h]
    simp [h]

theorem value_assign (prm : Prm) (k : Key) (v : String) (k' : Key) :
    value (assign prm k v) k' = if k' = k ∧ k ∈ prm.map Prod.fst then some v else value prm k' := by
  induction prm with
  | nil => simp [assign, value]
  | cons e prm ih =>
    have : assign (e :: prm) k v = (if e.1 = k then (k, v) else e) :: assign prm k v := rfl
    rw [this, value_cons, value_cons, ih]
    simp only [List.map_cons, List.mem_cons]
    by_cases h1 : e.1 = k
    · subst h1
      by_cases h2 : k' = e.1 <;> simp [h2]
    · rw [if_neg h1]
      by_cases h2 : k' = e.1
      · have : ¬ (k' = k) := fun h => h1 (h2 ▸ h)
        simp [h2, h1]
      · by_cases h3 : k' = k
        · by_cases h4 : k ∈ prm.map Prod.fst
          · rw [if_neg h2, if_pos ⟨h3, h4⟩, if_pos ⟨h3, Or.inr h4⟩]
          · rw [if_neg h2, if_neg fun h => h4 h.2, if_neg fun h => h.2.elim (fun e' => h1 e'.symm) h4, if_neg h2]
        · rw [if_neg h2, if_neg fun h => h3 h.1, if_neg fun h => h3 h.1, if_neg h2]

theorem value_append (a b : Prm) (k : Key) : value (a ++ b) k = (value a k).or (value b k) := by
  induction a with
  | nil => simp [value]
  | cons e a ih =>
    rw [List.cons_append, value_cons, value_cons, ih]
    split_ifs <;> simp

theorem value_isSome (prm : Prm) (k : Key) : (value prm k).isSome = true ↔ k ∈ prm.map Prod.fst := by
  induction prm with
  | nil => simp [value]
  | cons e prm ih =>
    rw [value_cons, List.map_cons, List.mem_cons, ← ih]
    by_cases h : k = e.1 <;> simp [h]

theorem value_none {prm : Prm} {k : Key} (h : k ∉ prm.map Prod.fst) : value prm k = none := by
  cases hv : value prm k with
  | none => rfl
  | some v => exact absurd ((value_isSome prm k).1 (by rw [hv]; rfl)) h

theorem value_declare (prm : Prm) (k : Key) (v : String) (k' : Key) :
    value (declare prm k v) k' = if k' = k then some v else value prm k' := by
  unfold declare
  split_ifs with h1 h2 h2
  · rw [value_assign, if_pos ⟨h2, h1⟩]
  · rw [value_assign, if_neg (fun h => h2 h.1)]
  · rw [value_append, h2, value_none h1, value_cons]; simp
  · rw [value_append, value_cons, if_neg h2]
    cases value prm k' <;> simp [value]

theorem keys_declare (prm : Prm) (k : Key) (v : String) (k' : Key) :
    k' ∈ (declare prm k v).map Prod.fst ↔ k' = k ∨ k' ∈ prm.map Prod.fst := by
  unfold declare
  split_ifs with h1
  · rw [keys_assign]
    constructor
    · exact Or.inr
    · rintro (rfl | h)
      · exact h1
      · exact h
  · rw [List.map_append, List.mem_append]
    simp only [List.map_cons, List.map_nil, List.mem_singleton]
    exact or_comm

theorem nodup_declare (prm : Prm) (k : Key) (v : String) (h : (prm.map Prod.fst).Nodup) : ((declare prm k v).map Prod.fst).Nodup := by
  unfold declare
  split_ifs with h1
  · rwa [keys_assign]
  · rw [List.map_append, List.nodup_append]
    exact ⟨h, by simp, fun a ha b hb => by
      simp only [List.map_cons, List.map_nil, List.mem_singleton] at hb
      rintro rfl
      exact h1 (hb ▸ ha)⟩

theorem value_declareAll (entries : List (Key × String)) (prm : Prm) (k : Key) :
    value (declareAll prm entries) k = (value entries.reverse k).or (value prm k) := by
  unfold declareAll
  induction entries generalizing prm with
  | nil => simp [value]
  | cons e l ih =>
    rw [List.foldl_cons, ih, value_declare, List.reverse_cons, value_append, value_cons]
    by_cases h : k = e.1
    · cases value l.reverse k <;> simp [h]
    · cases value l.reverse k <;> simp [h, value]

theorem keys_declareAll (entries : List (Key × String)) (prm : Prm) (k : Key) :
    k ∈ (declareAll prm entries).map Prod.fst ↔ k ∈ entries.map Prod.fst ∨ k ∈ prm.map Prod.fst := by
  unfold declareAll
  induction entries generalizing prm with
  | nil => simp
  | cons e l ih =>
    rw [List.foldl_cons, ih, keys_declare, List.map_cons, List.mem_cons]
    tauto

theorem nodup_declareAll (entries : List (Key × String)) (prm : Prm) (h : (prm.map Prod.fst).Nodup) :
    ((declareAll prm entries).map Prod.fst).Nodup := by
  unfold declareAll
  induction entries generalizing prm with
  | nil => exact h
  | cons e l ih => exact ih _ (nodup_declare _ _ _ h)

/-- Reading a file: succeeds if unknown entries are skipped or there are none; the last entry for a declared key counts. -/
theorem parse_spec (skip : Bool) (prm file : Prm) :
    ((∃ p, parse skip prm file = some p) ↔ (skip = true ∨ ∀ k ∈ file.map Prod.fst, k ∈ prm.map Prod.fst)) ∧
    ∀ p, parse skip prm file = some p → p.map Prod.fst = prm.map Prod.fst ∧
      ∀ k ∈ prm.map Prod.fst, value p k = (value file.reverse k).or (value prm k) := by
  induction file generalizing prm with
  | nil =>
    refine ⟨⟨fun _ => Or.inr (by simp), fun _ => ⟨prm, rfl⟩⟩, ?_⟩
    intro p hp
    rw [parse, Option.some.injEq] at hp
    subst hp
    exact ⟨rfl, fun k _ => by simp [value]⟩
  | cons e file ih =>
    obtain ⟨k0, v0⟩ := e
    rw [parse]
    by_cases h : k0 ∈ prm.map Prod.fst
    · rw [if_pos h]
      obtain ⟨i1, i2⟩ := ih (assign prm k0 v0)
      rw [keys_assign] at i1
      refine ⟨?_, fun p hp => ?_⟩
      · rw [i1, List.map_cons]
        simp only [List.mem_cons, forall_eq_or_imp, h, true_and]
      · obtain ⟨j1, j2⟩ := i2 p hp
        rw [keys_assign] at j1 j2
        refine ⟨j1, fun k hk => ?_⟩
        rw [j2 k hk, value_assign, List.reverse_cons, value_append, value_cons]
        by_cases hkk : k = k0
        · subst hkk
          cases value file.reverse k <;> simp [h]
        · cases value file.reverse k <;> simp [hkk, value]
    · rw [if_neg h]
      cases skip with
      | true =>
        obtain ⟨i1, i2⟩ := ih prm
        simp only [if_true]
        refine ⟨by simpa using i1, fun p hp => ?_⟩
        obtain ⟨j1, j2⟩ := i2 p hp
        refine ⟨j1, fun k hk => ?_⟩
        rw [j2 k hk, List.reverse_cons, value_append, value_cons]
        have hkk : k ≠ k0 := fun hh => h (hh ▸ hk)
        cases value file.reverse k <;> simp [hkk, value]
      | false =>
        simp only [Bool.false_eq_true, if_false, reduceCtorEq, exists_false, false_or, false_iff, List.map_cons]
        refine ⟨fun hh => h (hh k0 List.mem_cons_self), fun p hp => by simp at hp⟩

/-! ### Names of template files -/

theorem digit {d : ℕ} (h1 : 1 ≤ d) (h3 : d ≤ 3) : ∃ c : Char, (toString d).toList = [c] ∧ ∀ d', 1 ≤ d' → d' ≤ 3 → (toString d').toList = [c] → d' = d := by
  have t1 : (toString 1).toList = ['1'] := by decide +kernel
  have t2 : (toString 2).toList = ['2'] := by decide +kernel
  have t3 : (toString 3).toList = ['3'] := by decide +kernel
  have aux : ∀ d' c, 1 ≤ d' → d' ≤ 3 → (toString d').toList = [c] → (c = '1' ∧ d' = 1) ∨ (c = '2' ∧ d' = 2) ∨ (c = '3' ∧ d' = 3) := by
    intro d' c h1' h3' h
    interval_cases d'
    · rw [t1] at h; exact Or.inl ⟨(List.head_eq_of_cons_eq h).symm, rfl⟩
    · rw [t2] at h; exact Or.inr (Or.inl ⟨(List.head_eq_of_cons_eq h).symm, rfl⟩)
    · rw [t3] at h; exact Or.inr (Or.inr ⟨(List.head_eq_of_cons_eq h).symm, rfl⟩)
  have one : ∃ c, (toString d).toList = [c] := by
    interval_cases d
    · exact ⟨_, t1⟩
    · exact ⟨_, t2⟩
    · exact ⟨_, t3⟩
  obtain ⟨c, hc⟩ := one
  refine ⟨c, hc, fun d' h1' h3' h' => ?_⟩
  rcases aux d c h1 h3 hc with ⟨a, b⟩ | ⟨a, b⟩ | ⟨a, b⟩ <;> rcases aux d' c h1' h3' h' with ⟨a', b'⟩ | ⟨a', b'⟩ | ⟨a', b'⟩ <;>
    first
    | omega
    | (rw [a] at a'; exact absurd a' (by decide))

theorem templateName_inj {n n' : String} {d d' : ℕ} {b b' : Bool} (h1 : 1 ≤ d) (h3 : d ≤ 3) (h1' : 1 ≤ d') (h3' : d' ≤ 3)
    (h : templateName n d b = templateName n' d' b') : baseName n = baseName n' ∧ d = d' ∧ b = b' := by
  obtain ⟨c, hc, hu⟩ := digit h1 h3
  obtain ⟨c', hc', -⟩ := digit h1' h3'
  have e := congrArg String.toList h
  unfold templateName at e
  simp only [String.toList_append, hc, hc', List.append_assoc] at e
  have e := List.append_cancel_left e
  have same : ∀ x : List Char, (baseName n).toList ++ ("-".toList ++ ([c] ++ ("d".toList ++ x))) =
      (baseName n').toList ++ ("-".toList ++ ([c'] ++ ("d".toList ++ x))) → baseName n = baseName n' ∧ d = d' := by
    intro x hx
    obtain ⟨q1, q2⟩ := List.append_inj' hx (by simp)
    refine ⟨String.toList_injective q1, ?_⟩
    have q2 := List.append_cancel_left q2
    have q3 : c = c' := by
      have := List.head_eq_of_cons_eq q2
      exact this
    exact (hu d' h1' h3' (by rw [hc', q3])).symm
  have differ : ∀ (y z : List Char), y ++ ("d".toList ++ ".prm".toList) ≠ z ++ "-description.prm".toList := by
    intro y z hyz
    have e1 : ("d".toList ++ ".prm".toList) = "d.prm".toList := by decide +kernel
    have e2 : "-description.prm".toList = "-descriptio".toList ++ "n.prm".toList := by decide +kernel
    rw [e1, e2, ← List.append_assoc] at hyz
    obtain ⟨-, q⟩ := List.append_inj' hyz (by decide +kernel)
    exact absurd q (by decide +kernel)
  cases b <;> cases b'
  · obtain ⟨q1, q2⟩ := same _ e
    exact ⟨q1, q2, rfl⟩
  · exfalso
    refine differ ((baseName n).toList ++ ("-".toList ++ [c])) ((baseName n').toList ++ ("-".toList ++ ([c'] ++ "d".toList))) ?_
    simpa [List.append_assoc] using e
  · exfalso
    refine differ ((baseName n').toList ++ ("-".toList ++ [c'])) ((baseName n).toList ++ ("-".toList ++ ([c] ++ "d".toList))) ?_
    simpa [List.append_assoc] using e.symm
  · obtain ⟨q1, q2⟩ := same _ e
    exact ⟨q1, q2, rfl⟩

/-- The content of a template. -/
def templatePrm (decl : List (Key × String)) (name : String) (dim : ℕ) : Prm :=
  assign (assign (declare (declare (declareAll (declareAll (declare [] ("A - TimeLoop", "basename") "test") dispatchEntries) decl)
    dimensionKey (toString dim)) equationKey name) dimensionKey (toString dim)) equationKey name

theorem mem_createFrom (S : Setup) (k : ℕ) (l : List String) (f : String) (c : Prm) :
    (f, c) ∈ createFrom S k l [] ↔ ∃ j name d b, l[j]? = some name ∧ 1 ≤ d ∧ d ≤ 3 ∧ (b = true → d = 2) ∧ f = templateName name d b ∧
      c = templatePrm (S.decl (k + j) d) name d := by
  induction l generalizing k with
  | nil => simp [createFrom]
  | cons n l ih =>
    have e : createFrom S k (n :: l) [] = [(templateName n 1 false, templatePrm (S.decl k 1) n 1), (templateName n 2 true, templatePrm (S.decl k 2) n 2),
        (templateName n 2 false, templatePrm (S.decl k 2) n 2), (templateName n 3 false, templatePrm (S.decl k 3) n 3)] ++ createFrom S (k + 1) l [] := rfl
    rw [e, List.mem_append, ih]
    constructor
    · rintro (h | ⟨j, name, d, b, h1, h2, h3, h4, h5, h6⟩)
      · simp only [List.mem_cons, Prod.mk.injEq, List.not_mem_nil, or_false] at h
        rcases h with ⟨rfl, rfl⟩ | ⟨rfl, rfl⟩ | ⟨rfl, rfl⟩ | ⟨rfl, rfl⟩
        · exact ⟨0, n, 1, false, rfl, le_rfl, by norm_num, by simp, rfl, rfl⟩
        · exact ⟨0, n, 2, true, rfl, by norm_num, by norm_num, by simp, rfl, rfl⟩
        · exact ⟨0, n, 2, false, rfl, by norm_num, by norm_num, by simp, rfl, rfl⟩
        · exact ⟨0, n, 3, false, rfl, by norm_num, by norm_num, by simp, rfl, rfl⟩
      · exact ⟨j + 1, name, d, b, by simpa using h1, h2, h3, h4, h5, by rw [h6]; congr 2; omega⟩
    · rintro ⟨j, name, d, b, h1, h2, h3, h4, h5, h6⟩
      cases j with
      | zero =>
        left
        simp only [List.getElem?_cons_zero, Option.some.injEq] at h1
        subst h1
        subst h5
        subst h6
        interval_cases d <;> cases b <;> simp_all
      | succ j =>
        right
        exact ⟨j, name, d, b, by simpa using h1, h2, h3, h4, h5, by rw [h6]; congr 2; omega⟩

/-- Writing a list of files. -/
def writeAll (fs : Files) (l : List (String × Prm)) : Files := l.foldl (fun fs e => Function.update fs e.1 (some e.2)) fs

theorem writeAll_other (l : List (String × Prm)) (fs : Files) (f : String) (h : f ∉ l.map Prod.fst) : writeAll fs l f = fs f := by
  unfold writeAll
  induction l generalizing fs with
  | nil => rfl
  | cons e l ih =>
    rw [List.map_cons, List.mem_cons, not_or] at h
    rw [List.foldl_cons, ih _ h.2, Function.update_of_ne h.1]

theorem writeAll_mem (l : List (String × Prm)) (fs : Files) (f : String) (c : Prm) (h : (f, c) ∈ l) (hu : ∀ c', (f, c') ∈ l → c' = c) :
    writeAll fs l f = some c := by
  induction l generalizing fs with
  | nil => cases h
  | cons e l ih =>
    by_cases hl : (f, c) ∈ l
    · exact ih _ hl fun c' hc' => hu c' (List.mem_cons_of_mem _ hc')
    · have he : (f, c) = e := (List.mem_cons.1 h).resolve_right hl
      subst he
      have hf : f ∉ l.map Prod.fst := by
        intro hf
        obtain ⟨⟨f', c'⟩, hm, rfl⟩ := List.mem_map.1 hf
        have := hu c' (List.mem_cons_of_mem _ hm)
        exact hl (this ▸ hm)
      have e1 : writeAll fs ((f, c) :: l) = writeAll (Function.update fs f (some c)) l := rfl
      rw [e1, writeAll_other _ _ _ hf, Function.update_self]

theorem writeAll_append (a b : List (String × Prm)) (fs : Files) : writeAll fs (a ++ b) = writeAll (writeAll fs a) b := List.foldl_append

end Program
end Ryujin
