import Verif.Model.SimdAccess
import Mathlib.Tactic.Linarith
import Mathlib.Tactic.FinCases
import Mathlib.Data.List.FinRange

/-!
# C130: vectorised access to vectors is access to their elements
-/

namespace Ryujin
namespace SimdAccess

open GeoTiff (Outcome)

variable {α β : Type} {n w dim : ℕ}

/-- C130: a vectorised read delivers in its lanes what `w` serial reads deliver, and is undefined exactly if one of them is. -/
theorem C130_read (conv : α → β) (v : Fin n → α) (i : ℕ) (hw : 0 < w) :
    (∀ x, getEntry w conv v i = .ok x ↔ ∀ k : Fin w, getEntry 1 conv v (i + k) = .ok fun _ => x k) ∧
    (getEntry w conv v i = .ub ↔ ∃ k : Fin w, getEntry 1 conv v (i + k) = .ub) := by
  constructor
  · intro x
    unfold getEntry
    constructor
    · intro h k
      split_ifs at h with hi
      have := k.isLt
      rw [dif_pos (by omega)]
      injection h with h
      subst h
      congr 1
      funext l
      have : l = 0 := Subsingleton.elim _ _
      subst this
      rfl
    · intro h
      have hi : i + w ≤ n := by
        have := h ⟨w - 1, by omega⟩
        split_ifs at this with h'
        simp only at h'
        omega
      rw [dif_pos hi]
      congr 1
      funext k
      have hk := h k
      have := k.isLt
      rw [dif_pos (by omega)] at hk
      injection hk with hk
      exact congrFun hk 0
  · unfold getEntry
    constructor
    · intro h
      split_ifs at h with hi
      refine ⟨⟨w - 1, by omega⟩, ?_⟩
      rw [dif_neg]
      simp only
      omega
    · rintro ⟨k, hk⟩
      split_ifs at hk with hi
      rw [dif_neg]
      have := k.isLt
      omega

/-- C130: gathering delivers in its lanes what serial reads at the given indices deliver. -/
theorem C130_gather (v : Fin n → α) (js : Fin w → ℕ) (x : Fin w → α) :
    gather v js = .ok x ↔ ∀ k, getEntry 1 id v (js k) = .ok fun _ => x k := by
  unfold gather getEntry
  constructor
  · intro h k
    split_ifs at h with hi
    injection h with h
    subst h
    rw [dif_pos (Nat.succ_le_of_lt (hi k))]
    congr 1
    funext l
    have : l = 0 := Subsingleton.elim _ _
    subst this
    rfl
  · intro h
    have hi : ∀ k, js k < n := by
      intro k
      have := h k
      split_ifs at this with h'
      omega
    rw [dif_pos hi]
    congr 1
    funext k
    have hk := h k
    rw [dif_pos (Nat.succ_le_of_lt (hi k))] at hk
    injection hk with hk
    exact congrFun hk 0

/-- C130: what was written is read back, and the other elements are left alone. -/
theorem C130_write (v : Fin n → α) (x : Fin w → α) (i : ℕ) (v' : Fin n → α) (h : writeEntry id v x i = .ok v') :
    getEntry w id v' i = .ok x ∧ ∀ j : Fin n, (j : ℕ) < i ∨ i + w ≤ j → v' j = v j := by
  unfold writeEntry at h
  split_ifs at h with hi
  injection h with h
  subst h
  constructor
  · unfold getEntry
    rw [dif_pos hi]
    congr 1
    funext k
    have := k.isLt
    simp only [id]
    rw [dif_pos ⟨by omega, by omega⟩]
    congr 1
    ext
    simp
  · intro j hj
    simp only
    rw [dif_neg (by omega)]

/-- A row a task handles. -/
def Task.has (t : Task) (j : ℕ) : Prop := t.start ≤ j ∧ j < t.start + t.width

open Classical in
/-- The effect of iterations that stay within the vector. -/
theorem run_eq (f : α → β) (src : Fin n → α) (l : List Task) (hl : ∀ t ∈ l, t.start + t.width ≤ n) (dst : Fin n → β) :
    run f src l dst = .ok fun j => if ∃ t ∈ l, t.has j then f (src j) else dst j := by
  induction l generalizing dst with
  | nil => simp [run]
  | cons t l ih =>
    have ht := hl t (List.mem_cons_self ..)
    rw [run]
    simp only [getEntry, dif_pos ht, andThen, writeEntry, if_pos ht]
    rw [ih fun s hs => hl s (List.mem_cons_of_mem _ hs)]
    congr 1
    funext j
    by_cases h1 : ∃ s ∈ l, s.has j
    · rw [if_pos h1, if_pos]
      obtain ⟨s, hs, h⟩ := h1
      exact ⟨s, List.mem_cons_of_mem _ hs, h⟩
    · rw [if_neg h1]
      by_cases h2 : t.start ≤ j ∧ (j : ℕ) < t.start + t.width
      · rw [dif_pos h2, if_pos ⟨t, List.mem_cons_self .., h2⟩]
        simp only [id]
        congr 2
        ext
        simp only
        omega
      · rw [dif_neg h2, if_neg]
        rintro ⟨s, hs, h⟩
        rcases List.mem_cons.1 hs with e | e
        · subst e; exact h2 h
        · exact h1 ⟨s, e, h⟩

/-- An iteration outside of the vector is undefined, whenever it is carried out. -/
theorem run_ub (f : α → β) (src : Fin n → α) (l : List Task) (hl : ∃ t ∈ l, n < t.start + t.width) (dst : Fin n → β) :
    run f src l dst = .ub := by
  induction l generalizing dst with
  | nil => obtain ⟨t, ht, -⟩ := hl; simp at ht
  | cons t l ih =>
    rw [run]
    by_cases ht : t.start + t.width ≤ n
    · simp only [getEntry, dif_pos ht, andThen, writeEntry, if_pos ht]
      refine ih ?_ _
      obtain ⟨s, hs, h⟩ := hl
      rcases List.mem_cons.1 hs with e | e
      · subst e; omega
      · exact ⟨s, e, h⟩
    · simp only [getEntry, dif_neg ht, andThen]

theorem mem_tasks {w left right : ℕ} (hw : 0 < w) {t : Task} :
    t ∈ tasks w left right ↔ t.width = w ∧ ∃ k, t.start = left + k * w ∧ t.start < right := by
  unfold tasks
  rw [List.mem_map]
  constructor
  · rintro ⟨k, hk, rfl⟩
    rw [List.mem_range, Nat.lt_div_iff_mul_lt hw] at hk
    refine ⟨rfl, k, rfl, ?_⟩
    simp only
    have e : k * w = w * k := Nat.mul_comm _ _
    omega
  · rintro ⟨h1, k, h2, h3⟩
    refine ⟨k, ?_, ?_⟩
    · rw [List.mem_range, Nat.lt_div_iff_mul_lt hw]
      have e : k * w = w * k := Nat.mul_comm _ _
      omega
    · cases t
      simp_all

open Classical in
/-- **C130 (loops).** Applying a function to every row with vectorised and serial iterations, in any order (any schedule of the
threads), yields the value of the function in every owned row and leaves all other rows alone: for every number of lanes the
number of internal rows is a multiple of. -/
theorem C130_loops (f : α → β) (src : Fin n → α) (dst : Fin n → β) (nInternal nOwned : ℕ) (hw : 0 < w)
    (hdvd : w ∣ nInternal) (h1 : nInternal ≤ nOwned) (h2 : nOwned ≤ n) (l : List Task)
    (hl : l.Perm (allTasks w nInternal nOwned)) :
    run f src l dst = .ok fun j => if (j : ℕ) < nOwned then f (src j) else dst j := by
  have hmem : ∀ t, t ∈ l ↔ (t.width = 1 ∧ ∃ k, t.start = nInternal + k * 1 ∧ t.start < nOwned) ∨
      (t.width = w ∧ ∃ k, t.start = 0 + k * w ∧ t.start < nInternal) := by
    intro t
    rw [hl.mem_iff, allTasks, List.mem_append, mem_tasks Nat.one_pos, mem_tasks hw]
  obtain ⟨q, hq⟩ := hdvd
  have hend : ∀ k, k * w < nInternal → k * w + w ≤ nInternal := by
    intro k hk
    have e : w * q = q * w := Nat.mul_comm _ _
    rw [hq, e] at hk ⊢
    have : k < q := lt_of_mul_lt_mul_right hk (Nat.zero_le _)
    calc k * w + w = (k + 1) * w := by ring
      _ ≤ q * w := Nat.mul_le_mul_right _ this
  rw [run_eq]
  · congr 1
    funext j
    congr 1
    apply propext
    constructor
    · rintro ⟨t, ht, hj1, hj2⟩
      rcases (hmem t).1 ht with ⟨e1, k, e2, e3⟩ | ⟨e1, k, e2, e3⟩
      · omega
      · have := hend k (by omega)
        omega
    · intro hj
      by_cases hji : (j : ℕ) < nInternal
      · refine ⟨⟨w, (j : ℕ) / w * w⟩, (hmem _).2 (Or.inr ⟨rfl, (j : ℕ) / w, by simp, ?_⟩), ?_, ?_⟩
        · exact lt_of_le_of_lt (Nat.div_mul_le_self _ _) hji
        · exact Nat.div_mul_le_self _ _
        · have a := Nat.div_add_mod (j : ℕ) w
          have b := Nat.mod_lt (j : ℕ) hw
          have c : w * ((j : ℕ) / w) = (j : ℕ) / w * w := Nat.mul_comm _ _
          simp only
          omega
      · exact ⟨⟨1, j⟩, (hmem _).2 (Or.inl ⟨rfl, (j : ℕ) - nInternal, by simp only; omega, hj⟩), le_rfl, Nat.lt_succ_self _⟩
  · intro t ht
    rcases (hmem t).1 ht with ⟨e1, k, e2, e3⟩ | ⟨e1, k, e2, e3⟩
    · omega
    · have := hend k (by omega)
      omega

/-- **C130 (number of lanes).** The result does not depend on the number of lanes and on the schedule. -/
theorem C130_width (f : α → β) (src : Fin n → α) (dst : Fin n → β) (nInternal nOwned nInternal' w' : ℕ) (hw : 0 < w) (hw' : 0 < w')
    (hdvd : w ∣ nInternal) (hdvd' : w' ∣ nInternal') (h1 : nInternal ≤ nOwned) (h1' : nInternal' ≤ nOwned) (h2 : nOwned ≤ n)
    (l l' : List Task) (hl : l.Perm (allTasks w nInternal nOwned)) (hl' : l'.Perm (allTasks w' nInternal' nOwned)) :
    run f src l dst = run f src l' dst := by
  rw [C130_loops f src dst nInternal nOwned hw hdvd h1 h2 l hl, C130_loops f src dst nInternal' nOwned hw' hdvd' h1' h2 l' hl']

/-- Without this the loops would be undefined: why the number of internal rows has to be a multiple of the number of lanes. -/
theorem C130_unaligned (f : α → β) (src : Fin n → α) (dst : Fin n → β) (nInternal nOwned : ℕ) (hw : 0 < w)
    (hdvd : ¬ w ∣ nInternal) (h2 : n < nInternal / w * w + w) (l : List Task)
    (hl : l.Perm (allTasks w nInternal nOwned)) : run f src l dst = .ub := by
  refine run_ub f src l ⟨⟨w, nInternal / w * w⟩, ?_, h2⟩ dst
  rw [hl.mem_iff, allTasks, List.mem_append]
  refine Or.inr ((mem_tasks hw).2 ⟨rfl, nInternal / w, by simp, ?_⟩)
  simp only
  have a := Nat.div_add_mod nInternal w
  have c : w * (nInternal / w) = nInternal / w * w := Nat.mul_comm _ _
  have : nInternal % w ≠ 0 := fun h => hdvd (Nat.dvd_of_mod_eq_zero h)
  omega

/-! ### Lanes of tensors -/

theorem serialize_assign_same (k : Fin w) (rank : ℕ) (x : Tensor dim rank (Fin w → α)) (s : Tensor dim rank α) :
    serializeLane k rank (assignLane k rank x s) = s := by
  induction rank with
  | zero => exact Function.update_self k (s : α) (x : Fin w → α)
  | succ r ih => funext d; exact ih (x d) (s d)

theorem serialize_assign_other {k l : Fin w} (h : l ≠ k) (rank : ℕ) (x : Tensor dim rank (Fin w → α)) (s : Tensor dim rank α) :
    serializeLane l rank (assignLane k rank x s) = serializeLane l rank x := by
  induction rank with
  | zero => exact Function.update_of_ne h (s : α) (x : Fin w → α)
  | succ r ih => funext d; exact ih (x d) (s d)

/-- C130: a tensor assigned to a lane is read back from this lane, the other lanes are unchanged. -/
theorem C130_tensor_lane (rank : ℕ) (x y : Tensor dim rank (Fin w → α)) (s : Tensor dim rank α) (k : ℕ)
    (h : assign rank x s k = .ok y) :
    serialize rank y k = .ok s ∧ ∀ l, l ≠ k → serialize rank y l = serialize rank x l := by
  unfold assign at h
  split_ifs at h with hk
  injection h with h
  subst h
  constructor
  · unfold serialize
    rw [dif_pos hk, serialize_assign_same]
  · intro l hl
    unfold serialize
    split_ifs with hl'
    · rw [serialize_assign_other]
      intro e
      exact hl (congrArg Fin.val e)
    · rfl

/-- C130: a vectorised tensor is determined by its lanes. -/
theorem C130_tensor_ext (rank : ℕ) (x y : Tensor dim rank (Fin w → α)) (h : ∀ k, k < w → serialize rank x k = serialize rank y k) :
    x = y := by
  have h' : ∀ k : Fin w, serializeLane k rank x = serializeLane k rank y := by
    intro k
    have := h k k.isLt
    unfold serialize at this
    rw [dif_pos k.isLt, dif_pos k.isLt] at this
    injection this
  clear h
  induction rank with
  | zero => exact funext fun k => h' k
  | succ r ih => funext d; exact ih (x d) (y d) fun k => congrFun (h' k) d

/-- C130: filling all lanes overwrites the tensor completely. -/
theorem C130_assemble (rank : ℕ) (x : Tensor dim rank (Fin w → α)) (s : Fin w → Tensor dim rank α) (k : Fin w) :
    serialize rank (assembleLanes rank x s) k = .ok (s k) := by
  unfold serialize assembleLanes
  rw [dif_pos k.isLt]
  congr 1
  have key : ∀ (l : List (Fin w)) (x : Tensor dim rank (Fin w → α)), l.Nodup →
      (k ∈ l → serializeLane k rank (l.foldl (fun x k => assignLane k rank x (s k)) x) = s k) ∧
      (k ∉ l → serializeLane k rank (l.foldl (fun x k => assignLane k rank x (s k)) x) = serializeLane k rank x) := by
    intro l
    induction l with
    | nil => intro x _; exact ⟨fun h => absurd h List.not_mem_nil, fun _ => rfl⟩
    | cons a l ih =>
      intro x hnd
      rw [List.nodup_cons] at hnd
      rw [List.foldl_cons]
      obtain ⟨i1, i2⟩ := ih (assignLane a rank x (s a)) hnd.2
      constructor
      · intro hk
        rcases List.mem_cons.1 hk with e | e
        · subst e
          rw [i2 hnd.1, serialize_assign_same]
        · exact i1 e
      · intro hk
        rw [List.mem_cons, not_or] at hk
        rw [i2 hk.2, serialize_assign_other hk.1]
  exact (key _ _ (List.nodup_finRange w)).1 (List.mem_finRange k)

/-- The hypotheses are met: four lanes, eight internal, eleven owned and twelve stored rows, the iterations in reverse order. -/
example (src : Fin 12 → ℕ) (dst : Fin 12 → ℕ) :
    run (· + 1) src (allTasks 4 8 11).reverse dst = .ok fun j => if (j : ℕ) < 11 then src j + 1 else dst j := by
  have := C130_loops (w := 4) (fun x => x + 1) src dst 8 11 (by norm_num) (by norm_num) (by norm_num) (by norm_num) _
    (List.reverse_perm _)
  convert this

example (src dst : Fin 6 → ℕ) : run id src (allTasks 4 6 6) dst = .ub :=
  C130_unaligned id src dst 6 6 (by norm_num) (by norm_num) (by norm_num) _ (List.Perm.refl _)

example : ∃ y, assign (dim := 2) (w := 4) 1 (fun _ _ => (0 : ℕ)) (fun d => (d : ℕ)) 3 = .ok y := ⟨_, rfl⟩

example : ∃ v', writeEntry (n := 5) id (fun _ => 0) (fun k : Fin 2 => (k : ℕ) + 1) 3 = .ok v' := ⟨_, rfl⟩

end SimdAccess
end Ryujin
