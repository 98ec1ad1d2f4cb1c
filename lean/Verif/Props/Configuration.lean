import Verif.Model.Configuration
import Mathlib.Tactic.Linarith
import Mathlib.Data.List.Nodup
import Mathlib.Tactic.FinCases

/-!
# C42, C43, C44 – dispatch, enumerations as strings, selected components
-/

namespace Ryujin
namespace Configuration

/-! ### C42 -/

/-- The callbacks keep what ran before; while no loop has run they start at most one, for the first driver with the
requested name. -/
theorem callbacks_spec (completes : ℕ → ℤ → Bool) (dimension : ℤ) (equation : String)
    (hd : dimension = 1 ∨ dimension = 2 ∨ dimension = 3) (k : ℕ) (l : List String) (ran : List Run)
    (executed : Bool) :
    let r := callbacks completes dimension equation k l ran executed
    (equation ∉ l → r = (ran, some executed)) ∧
    (equation ∈ l → executed = true → r = (ran, none)) ∧
    (equation ∈ l → executed = false → r.1 = ran ++ [⟨k + l.idxOf equation, dimension⟩] ∧
      (r.2 = some true ↔ l.count equation = 1 ∧ completes (k + l.idxOf equation) dimension = true) ∧
      r.2 ≠ some false) := by
  induction l generalizing k ran executed with
  | nil => exact ⟨fun _ => rfl, fun h => absurd h List.not_mem_nil, fun h => absurd h List.not_mem_nil⟩
  | cons name rest ih =>
    intro r
    by_cases hn : equation = name
    · subst hn
      have hr : r = if executed then (ran, none) else
          if completes k dimension then
            callbacks completes dimension equation (k + 1) rest (ran ++ [⟨k, dimension⟩]) true
          else (ran ++ [⟨k, dimension⟩], none) := by
        show callbacks _ _ _ _ _ _ _ = _
        rw [callbacks, if_neg (by simp), if_pos hd]
      refine ⟨fun h => absurd List.mem_cons_self h, fun _ he => by rw [hr, if_pos he], fun _ he => ?_⟩
      rw [hr, if_neg (by simp [he]), List.idxOf_cons_self, add_zero, List.count_cons_self]
      by_cases hc : completes k dimension = true
      · rw [if_pos hc]
        have h := ih (k + 1) (ran ++ [⟨k, dimension⟩]) true
        by_cases hm : equation ∈ rest
        · rw [h.2.1 hm rfl]
          have := List.count_pos_iff.2 hm
          refine ⟨rfl, ⟨fun h => by simp at h, fun h => by omega⟩, by simp⟩
        · rw [h.1 hm]
          refine ⟨rfl, ⟨fun _ => ⟨by rw [List.count_eq_zero_of_not_mem hm], hc⟩, fun _ => rfl⟩, by simp⟩
      · rw [if_neg hc]
        refine ⟨rfl, ⟨fun h => by simp at h, fun h => absurd h.2 hc⟩, by simp⟩
    · have hr : r = callbacks completes dimension equation (k + 1) rest ran executed := by
        show callbacks _ _ _ _ _ _ _ = _
        rw [callbacks, if_pos hn]
      have h := ih (k + 1) ran executed
      have hmem : equation ∈ name :: rest ↔ equation ∈ rest := by simp [hn]
      rw [hr, hmem, List.idxOf_cons_ne _ (Ne.symm hn), List.count_cons_of_ne (Ne.symm hn)]
      rw [show k + (rest.idxOf equation + 1) = k + 1 + rest.idxOf equation by omega]
      exact h

/-- **C42 (never two, and always the right one).** Whatever drivers are linked and whatever the parameter file says,
also if the call ends with an exception: at most one time loop is started, and only the one of a driver with
the requested name, in the requested dimension, between one and three. -/
theorem C42_never_two (completes : ℕ → ℤ → Bool) (registered : List String) (dimension : ℤ)
    (equation : String) (executed : Bool) :
    (dispatch completes registered dimension equation executed).runs = [] ∨
      ∃ k, registered[k]? = some equation ∧ 1 ≤ dimension ∧ dimension ≤ 3 ∧
        (dispatch completes registered dimension equation executed).runs = [⟨k, dimension⟩] := by
  unfold dispatch
  by_cases hd : dimension ≥ 1 ∧ dimension ≤ 3
  · by_cases hr : registered = []
    · left; simp [hd, hr, Dispatched.runs]
    · rw [if_neg (by simpa using hd), if_neg hr]
      have hd' : dimension = 1 ∨ dimension = 2 ∨ dimension = 3 := by omega
      have h := callbacks_spec completes dimension equation hd' 0 registered [] executed
      have hruns : ∀ x : List Run × Option Bool, (conclude x).runs = x.1 := by
        rintro ⟨ran, _ | _ | _⟩ <;> rfl
      rw [hruns]
      by_cases hm : equation ∈ registered
      · cases executed
        · right
          refine ⟨registered.idxOf equation, ?_, hd.1, hd.2, ?_⟩
          · rw [List.getElem?_eq_getElem (List.idxOf_lt_length_of_mem hm), List.getElem_idxOf]
          · have := (h.2.2 hm rfl).1
            simpa using this
        · left; rw [h.2.1 hm rfl]
      · left; rw [h.1 hm]
  · left; rw [if_pos hd]; rfl

/-- **C42 (never silently none; when it succeeds).** A new dispatcher returns normally if and only if the dimension is
one, two or three, exactly one driver with the requested name is linked and its time loop completes; then
exactly this time loop has run. -/
theorem C42_exactly_one (completes : ℕ → ℤ → Bool) (registered : List String) (dimension : ℤ)
    (equation : String) (ran : List Run) :
    dispatch completes registered dimension equation false = .ok ran ↔
      1 ≤ dimension ∧ dimension ≤ 3 ∧ registered.count equation = 1 ∧
        completes (registered.idxOf equation) dimension = true ∧
        ran = [⟨registered.idxOf equation, dimension⟩] := by
  unfold dispatch
  by_cases hd : dimension ≥ 1 ∧ dimension ≤ 3
  · by_cases hr : registered = []
    · simp [hd, hr]
    · rw [if_neg (by simpa using hd), if_neg hr]
      have hd' : dimension = 1 ∨ dimension = 2 ∨ dimension = 3 := by omega
      have h := callbacks_spec completes dimension equation hd' 0 registered [] false
      by_cases hm : equation ∈ registered
      · obtain ⟨h1, h2, h3⟩ := h.2.2 hm rfl
        revert h1 h2 h3
        generalize callbacks completes dimension equation 0 registered [] false = x
        rcases x with ⟨ran', _ | _ | _⟩
        · intro h1 h2 h3
          simp [conclude] at h1 h2 h3 ⊢
          intro a b c d
          rw [h2 c] at d; cases d
        · intro h1 h2 h3; simp at h3
        · intro h1 h2 h3
          simp [conclude] at h1 h2 ⊢
          subst h1
          constructor
          · rintro rfl; exact ⟨hd.1, hd.2, h2.1, h2.2, rfl⟩
          · rintro ⟨-, -, -, -, h⟩; exact h.symm
      · rw [h.1 hm]
        have := List.count_eq_zero_of_not_mem hm
        simp [this, conclude]
  · rw [if_pos hd]
    constructor
    · intro h; cases h
    · rintro ⟨h1, h2, -⟩; exact absurd ⟨h1, h2⟩ hd

/-- With the drivers of the repository every driver can be selected in every dimension. -/
theorem C42_drivers (completes : ℕ → ℤ → Bool) (hc : ∀ k d, completes k d = true) (order : List String)
    (ho : order.Perm drivers) (equation : String) (he : equation ∈ drivers) (d : ℤ) (h1 : 1 ≤ d) (h3 : d ≤ 3) :
    dispatch completes order d equation false = .ok [⟨order.idxOf equation, d⟩] := by
  refine (C42_exactly_one completes order d equation _).2 ⟨h1, h3, ?_, hc _ _, rfl⟩
  rw [ho.count_eq]
  exact List.count_eq_one_of_mem (by decide) he

example : dispatch (fun _ _ => true) drivers 2 "euler" false = .ok [⟨5, 2⟩] :=
  C42_drivers _ (fun _ _ => rfl) drivers (List.Perm.refl _) "euler" (by decide) 2 (by norm_num) (by norm_num)

example : dispatch (fun _ _ => true) drivers 2 "eulr" false = .error [] := rfl

/-! ### C43 -/

theorem alternatives_ne_nil (s : List Char) : alternatives s ≠ [] := by
  cases s with
  | nil => simp [alternatives]
  | cons c cs =>
    rw [alternatives]
    split
    · simp
    · split <;> simp

theorem alternatives_word (w : List Char) (h : '|' ∉ w) : alternatives w = [w] := by
  induction w with
  | nil => rfl
  | cons c cs ih =>
    have h1 : c ≠ '|' := fun e => h (e ▸ List.mem_cons_self)
    rw [alternatives, if_neg h1, ih fun h' => h (List.mem_cons_of_mem _ h')]

theorem alternatives_append (s w : List Char) (h : '|' ∉ w) :
    alternatives (s ++ '|' :: w) = alternatives s ++ [w] := by
  induction s with
  | nil => simp [alternatives, alternatives_word w h]
  | cons c cs ih =>
    rw [List.cons_append, alternatives, alternatives, ih]
    split
    · rfl
    · obtain ⟨a, l, e⟩ := List.exists_cons_of_ne_nil (alternatives_ne_nil cs)
      rw [e]; rfl

/-- A table from which strings can be read back: no name occurs twice, no value occurs twice, no name is empty and no
name contains the separator. -/
structure Unambiguous {T : Type} (table : Table T) : Prop where
  values : (table.map Prod.fst).Nodup
  names : (table.map Prod.snd).Nodup
  nonempty : ∀ it ∈ table, it.2.toList ≠ []
  bar : ∀ it ∈ table, '|' ∉ it.2.toList

theorem alternatives_pattern {T : Type} (table : Table T) (h : Unambiguous table) (hne : table ≠ []) :
    alternatives (toPattern table) = table.map fun it => it.2.toList := by
  have key : ∀ (l : Table T) (s : List Char), s ≠ [] → (∀ it ∈ l, '|' ∉ it.2.toList) →
      alternatives (l.foldl (fun s it => if s = [] then it.2.toList else s ++ '|' :: it.2.toList) s)
        = alternatives s ++ l.map fun it => it.2.toList := by
    intro l
    induction l with
    | nil => intro s _ _; simp
    | cons it l ih =>
      intro s hs hb
      rw [List.foldl_cons, if_neg hs, ih _ (by simp) fun it' h' => hb it' (List.mem_cons_of_mem _ h'),
        alternatives_append _ _ (hb it List.mem_cons_self)]
      simp
  cases table with
  | nil => exact absurd rfl hne
  | cons it l =>
    unfold toPattern
    rw [List.foldl_cons, if_pos rfl, key l _ (h.nonempty it List.mem_cons_self)
      (fun it' h' => h.bar it' (List.mem_cons_of_mem _ h')),
      alternatives_word _ (h.bar it List.mem_cons_self)]
    rfl

theorem find_unique {A B : Type} [DecidableEq B] (l : List A) (f : A → B) (h : (l.map f).Nodup) (x : A) (hx : x ∈ l) :
    l.find? (fun y => f y = f x) = some x := by
  induction l with
  | nil => exact absurd hx List.not_mem_nil
  | cons a l ih =>
    rw [List.map_cons, List.nodup_cons] at h
    rcases List.mem_cons.1 hx with rfl | hx'
    · simp
    · have : f a ≠ f x := fun e => h.1 (e ▸ List.mem_map_of_mem hx')
      rw [List.find?_cons_of_neg (by simpa using this)]
      exact ih h.2 hx'

/-- **C43.** For every unambiguous conversion table: writing a value and reading the string back yields the value;
reading an accepted string and writing it yields the string; and a string is accepted if and only if it is in
the table, so every other string is rejected. -/
theorem C43_round_trip {T : Type} [DecidableEq T] (table : Table T) (h : Unambiguous table) (hne : table ≠ []) :
    (∀ t, t ∈ table.map Prod.fst → ∃ s, toString' table t = some s ∧ toValue table s = some t) ∧
    (∀ s t, toValue table s = some t → toString' table t = some s) ∧
    (∀ s, s ∉ table.map Prod.snd → toValue table s = none) := by
  have hmatch : ∀ s : String, selectionMatch (toPattern table) s.toList = true ↔ s ∈ table.map Prod.snd := by
    intro s
    unfold selectionMatch
    rw [decide_eq_true_iff, alternatives_pattern table h hne]
    simp only [List.mem_map]
    constructor
    · rintro ⟨it, hit, e⟩; exact ⟨it, hit, String.toList_injective e⟩
    · rintro ⟨it, hit, e⟩; exact ⟨it, hit, by rw [e]⟩
  refine ⟨fun t ht => ?_, fun s t hs => ?_, fun s hs => ?_⟩
  · obtain ⟨it, hit, rfl⟩ := List.mem_map.1 ht
    refine ⟨it.2, ?_, ?_⟩
    · unfold toString'
      rw [find_unique table Prod.fst h.values it hit]; rfl
    · unfold toValue
      rw [if_pos ((hmatch _).2 (List.mem_map_of_mem hit)), find_unique table Prod.snd h.names it hit]; rfl
  · unfold toValue at hs
    split at hs
    · obtain ⟨it, hit, rfl⟩ := Option.map_eq_some_iff.1 hs
      have h1 := List.mem_of_find?_eq_some hit
      have h2 := List.find?_some hit
      simp only [decide_eq_true_eq] at h2
      unfold toString'
      rw [find_unique table Prod.fst h.values it h1, ← h2]; rfl
    · cases hs
  · unfold toValue
    rw [if_neg fun hm => hs ((hmatch s).1 hm)]

/-- **C43 (the declared enumerations).** All seven tables are unambiguous and list every value of their type, so
`C43_round_trip` applies to each of them. -/
theorem C43_tables :
    (Unambiguous cflTable ∧ ∀ t, t ∈ cflTable.map Prod.fst) ∧
    (Unambiguous schemeTable ∧ ∀ t, t ∈ schemeTable.map Prod.fst) ∧
    (Unambiguous adaptationTable ∧ ∀ t, t ∈ adaptationTable.map Prod.fst) ∧
    (Unambiguous markingTable ∧ ∀ t, t ∈ markingTable.map Prod.fst) ∧
    (Unambiguous timePointTable ∧ ∀ t, t ∈ timePointTable.map Prod.fst) ∧
    (Unambiguous boundaryTable ∧ ∀ t, t ∈ boundaryTable.map Prod.fst) ∧
    (Unambiguous ansatzTable ∧ ∀ t, t ∈ ansatzTable.map Prod.fst) := by
  refine ⟨⟨⟨by decide, by decide, by decide, by decide⟩, ?_⟩, ⟨⟨by decide, by decide, by decide, by decide⟩, ?_⟩,
    ⟨⟨by decide, by decide, by decide, by decide⟩, ?_⟩, ⟨⟨by decide, by decide, by decide, by decide⟩, ?_⟩,
    ⟨⟨by decide, by decide, by decide, by decide⟩, ?_⟩, ⟨⟨by decide, by decide, by decide, by decide⟩, ?_⟩,
    ⟨⟨by decide, by decide, by decide, by decide⟩, ?_⟩⟩ <;> intro t <;> cases t <;> decide

/-- In particular every time stepping scheme survives writing and reading the parameter file. -/
example (s : Integrator.Scheme) : ∃ w, toString' schemeTable s = some w ∧ toValue schemeTable w = some s :=
  (C43_round_trip schemeTable C43_tables.2.1.1 (by simp [schemeTable])).1 s (C43_tables.2.1.2 s)

/-! ### C44 -/

/-- **Specification.** The component a name denotes: conserved components take precedence over primitive ones, over
precomputed ones, over initial precomputed ones, over the indicator `alpha`. -/
inductive Denotes {V : Type} (names : Names) (src : Sources V) : String → V → Prop
  | conserved {s k} : names.conserved[k]? = some s → (∀ k' < k, names.conserved[k']? ≠ some s) →
      Denotes names src s (src.conserved k)
  | primitive {s k} : s ∉ names.conserved → names.primitive[k]? = some s →
      (∀ k' < k, names.primitive[k']? ≠ some s) → Denotes names src s (src.primitive k)
  | precomputed {s k} : s ∉ names.conserved → s ∉ names.primitive → names.precomputed[k]? = some s →
      (∀ k' < k, names.precomputed[k']? ≠ some s) → Denotes names src s (src.precomputed k)
  | initial {s k} : s ∉ names.conserved → s ∉ names.primitive → s ∉ names.precomputed →
      names.initial[k]? = some s → (∀ k' < k, names.initial[k']? ≠ some s) → Denotes names src s (src.initial k)
  | alpha {s} : s ∉ names.conserved → s ∉ names.primitive → s ∉ names.precomputed → s ∉ names.initial →
      s = "alpha" → Denotes names src s src.alpha


theorem idxOf_spec (l : List String) (s : String) (h : s ∈ l) :
    l[l.idxOf s]? = some s ∧ ∀ k < l.idxOf s, l[k]? ≠ some s := by
  constructor
  · rw [List.getElem?_eq_getElem (List.idxOf_lt_length_of_mem h), List.getElem_idxOf]
  · intro k hk he
    obtain ⟨hlt, e⟩ := List.getElem?_eq_some_iff.1 he
    exact absurd e (by
      have := List.not_of_lt_findIdx (p := fun x => x == s) (xs := l) (i := k) hk
      simpa using this)

/-- The positions recorded so far are below the counter. -/
structure Indices.Below (ix : Indices) : Prop where
  conserved : ∀ p ∈ ix.conserved, p.1 < ix.i
  primitive : ∀ p ∈ ix.primitive, p.1 < ix.i
  precomputed : ∀ p ∈ ix.precomputed, p.1 < ix.i
  initial : ∀ p ∈ ix.initial, p.1 < ix.i
  alpha : ∀ k ∈ ix.alpha, k < ix.i

theorem assign_snoc {V : Type} (source : ℕ → V) (l : List (ℕ × ℕ)) (p : ℕ × ℕ) (out : ℕ → V) :
    assign source (l ++ [p]) out = Function.update (assign source l out) p.1 (source p.2) := by
  simp [assign, List.foldl_append]

theorem assign_update {V : Type} (source : ℕ → V) (l : List (ℕ × ℕ)) (i : ℕ) (h : ∀ p ∈ l, p.1 < i) (v : V)
    (out : ℕ → V) : assign source l (Function.update out i v) = Function.update (assign source l out) i v := by
  induction l generalizing out with
  | nil => rfl
  | cons a l ih =>
    have h1 : a.1 ≠ i := (h a List.mem_cons_self).ne
    unfold assign
    rw [List.foldl_cons, List.foldl_cons, Function.update_comm h1.symm]
    exact ih (fun p hp => h p (List.mem_cons_of_mem _ hp)) _

theorem alpha_update {V : Type} (a : V) (l : List ℕ) (i : ℕ) (h : ∀ k ∈ l, k < i) (v : V) (out : ℕ → V) :
    l.foldl (fun out i => Function.update out i a) (Function.update out i v)
      = Function.update (l.foldl (fun out i => Function.update out i a) out) i v := by
  induction l generalizing out with
  | nil => rfl
  | cons b l ih =>
    have h1 : b ≠ i := (h b List.mem_cons_self).ne
    rw [List.foldl_cons, List.foldl_cons, Function.update_comm h1.symm]
    exact ih (fun p hp => h p (List.mem_cons_of_mem _ hp)) _

/-- The result of the copies for the recorded index pairs. -/
def copied {V : Type} (src : Sources V) (zero : V) (ix : Indices) : ℕ → V :=
  ix.alpha.foldl (fun out i => Function.update out i src.alpha)
    (assign src.initial ix.initial (assign src.precomputed ix.precomputed
      (assign src.primitive ix.primitive (assign src.conserved ix.conserved fun _ => zero))))

/-- One entry of the selection adds one assignment, at the position of the counter. -/
theorem record_step {V : Type} (names : Names) (src : Sources V) (zero : V) (ix ix' : Indices) (entry : String)
    (h : ix.Below) (hr : record names ix entry = some ix') :
    ix'.Below ∧ ix'.i = ix.i + 1 ∧ ∃ v, Denotes names src entry v ∧
      copied src zero ix' = Function.update (copied src zero ix) ix.i v := by
  have up : ∀ {l : List (ℕ × ℕ)}, (∀ p ∈ l, p.1 < ix.i) → ∀ p ∈ l, p.1 < ix.i + 1 :=
    fun hl p hp => Nat.lt_succ_of_lt (hl p hp)
  have up' : ∀ {l : List (ℕ × ℕ)} {n : ℕ}, (∀ p ∈ l, p.1 < ix.i) → ∀ p ∈ l ++ [(ix.i, n)], p.1 < ix.i + 1 := by
    intro l n hl p hp
    rcases List.mem_append.1 hp with hp | hp
    · exact Nat.lt_succ_of_lt (hl p hp)
    · rw [List.mem_singleton.1 hp]; exact Nat.lt_succ_self _
  have upa : ∀ k ∈ ix.alpha, k < ix.i + 1 := fun k hk => Nat.lt_succ_of_lt (h.alpha k hk)
  unfold record at hr
  split at hr
  · rename_i hm
    simp only [Option.some.injEq] at hr; subst hr
    obtain ⟨e1, e2⟩ := idxOf_spec _ _ hm
    refine ⟨⟨up' h.conserved, up h.primitive, up h.precomputed, up h.initial, upa⟩, rfl, _, .conserved e1 e2, ?_⟩
    unfold copied
    dsimp only
    rw [assign_snoc, assign_update _ _ _ h.primitive, assign_update _ _ _ h.precomputed,
      assign_update _ _ _ h.initial, alpha_update _ _ _ h.alpha]
  split at hr
  · rename_i h0 hm
    simp only [Option.some.injEq] at hr; subst hr
    obtain ⟨e1, e2⟩ := idxOf_spec _ _ hm
    refine ⟨⟨up h.conserved, up' h.primitive, up h.precomputed, up h.initial, upa⟩, rfl, _, .primitive h0 e1 e2, ?_⟩
    unfold copied
    dsimp only
    rw [assign_snoc, assign_update _ _ _ h.precomputed, assign_update _ _ _ h.initial, alpha_update _ _ _ h.alpha]
  split at hr
  · rename_i h0 h1 hm
    simp only [Option.some.injEq] at hr; subst hr
    obtain ⟨e1, e2⟩ := idxOf_spec _ _ hm
    refine ⟨⟨up h.conserved, up h.primitive, up' h.precomputed, up h.initial, upa⟩, rfl, _,
      .precomputed h0 h1 e1 e2, ?_⟩
    unfold copied
    dsimp only
    rw [assign_snoc, assign_update _ _ _ h.initial, alpha_update _ _ _ h.alpha]
  split at hr
  · rename_i h0 h1 h2 hm
    simp only [Option.some.injEq] at hr; subst hr
    obtain ⟨e1, e2⟩ := idxOf_spec _ _ hm
    refine ⟨⟨up h.conserved, up h.primitive, up h.precomputed, up' h.initial, upa⟩, rfl, _,
      .initial h0 h1 h2 e1 e2, ?_⟩
    unfold copied
    dsimp only
    rw [assign_snoc, alpha_update _ _ _ h.alpha]
  split at hr
  · rename_i h0 h1 h2 h3 hm
    simp only [Option.some.injEq] at hr; subst hr
    refine ⟨⟨up h.conserved, up h.primitive, up h.precomputed, up h.initial, ?_⟩, rfl, _,
      .alpha h0 h1 h2 h3 hm, ?_⟩
    · intro k hk
      rcases List.mem_append.1 hk with hk | hk
      · exact upa k hk
      · rw [List.mem_singleton.1 hk]; exact Nat.lt_succ_self _
    · unfold copied
      dsimp only
      rw [List.foldl_append]
      rfl
  · cases hr

theorem recordAll_spec {V : Type} (names : Names) (src : Sources V) (zero : V) (selected : List String)
    (ix ix' : Indices) (h : ix.Below) (hr : recordAll names ix selected = some ix') :
    (∀ k < ix.i, copied src zero ix' k = copied src zero ix k) ∧
    ∀ k s, selected[k]? = some s → Denotes names src s (copied src zero ix' (ix.i + k)) := by
  induction selected generalizing ix with
  | nil =>
    rw [recordAll, Option.some.injEq] at hr
    subst hr
    exact ⟨fun _ _ => rfl, fun k s hs => by simp at hs⟩
  | cons entry rest ih =>
    rw [recordAll, Option.bind_eq_some_iff] at hr
    obtain ⟨ix1, h1, h2⟩ := hr
    obtain ⟨hb, hi, v, hv, hc⟩ := record_step names src zero ix ix1 entry h h1
    obtain ⟨h3, h4⟩ := ih ix1 hb h2
    refine ⟨fun k hk => ?_, fun k s hs => ?_⟩
    · rw [h3 k (by omega), hc, Function.update_of_ne (by omega)]
    · cases k with
      | zero =>
        simp only [List.getElem?_cons_zero, Option.some.injEq] at hs
        subst hs
        rw [add_zero, h3 _ (by omega), hc, Function.update_self]
        exact hv
      | succ k =>
        rw [List.getElem?_cons_succ] at hs
        have := h4 k s hs
        rw [hi] at this
        rwa [show ix.i + (k + 1) = ix.i + 1 + k by omega]

theorem below_empty : ({} : Indices).Below :=
  ⟨by simp, by simp, by simp, by simp, by simp⟩

/-- **C44 (order and precedence).** For every selection, of any length and with repetitions, and all component name
lists: the `k`-th extracted vector is the component denoted by the `k`-th requested name. -/
theorem C44_extracted {V : Type} (names : Names) (src : Sources V) (zero : V) (selected : List String)
    (out : ℕ → V) (h : extract names src zero selected = some out) (k : ℕ) (s : String)
    (hk : selected[k]? = some s) : Denotes names src s (out k) := by
  obtain ⟨ix, hix, rfl⟩ := Option.map_eq_some_iff.1 h
  have := (recordAll_spec names src zero selected {} ix below_empty hix).2 k s hk
  rwa [show ({} : Indices).i + k = k from Nat.zero_add k] at this

/-- The denoted component computed. -/
def denote {V : Type} (names : Names) (src : Sources V) (s : String) : Option V :=
  if s ∈ names.conserved then some (src.conserved (names.conserved.idxOf s))
  else if s ∈ names.primitive then some (src.primitive (names.primitive.idxOf s))
  else if s ∈ names.precomputed then some (src.precomputed (names.precomputed.idxOf s))
  else if s ∈ names.initial then some (src.initial (names.initial.idxOf s))
  else if s = "alpha" then some src.alpha else none

theorem idxOf_unique (l : List String) (s : String) (k : ℕ) (h : l[k]? = some s)
    (h' : ∀ k' < k, l[k']? ≠ some s) : s ∈ l ∧ l.idxOf s = k := by
  have hm : s ∈ l := List.mem_of_getElem? h
  refine ⟨hm, ?_⟩
  obtain ⟨e1, e2⟩ := idxOf_spec l s hm
  rcases Nat.lt_trichotomy (l.idxOf s) k with hlt | he | hgt
  · exact absurd e1 (h' _ hlt)
  · exact he
  · exact absurd h (e2 k hgt)

theorem denotes_iff {V : Type} (names : Names) (src : Sources V) (s : String) (v : V) :
    Denotes names src s v ↔ denote names src s = some v := by
  constructor
  · intro h
    unfold denote
    cases h with
    | conserved h1 h2 =>
      obtain ⟨hm, e⟩ := idxOf_unique _ _ _ h1 h2
      rw [if_pos hm, e]
    | primitive h0 h1 h2 =>
      obtain ⟨hm, e⟩ := idxOf_unique _ _ _ h1 h2
      rw [if_neg h0, if_pos hm, e]
    | precomputed h0 h0' h1 h2 =>
      obtain ⟨hm, e⟩ := idxOf_unique _ _ _ h1 h2
      rw [if_neg h0, if_neg h0', if_pos hm, e]
    | initial h0 h0' h0'' h1 h2 =>
      obtain ⟨hm, e⟩ := idxOf_unique _ _ _ h1 h2
      rw [if_neg h0, if_neg h0', if_neg h0'', if_pos hm, e]
    | alpha h0 h1 h2 h3 h4 => rw [if_neg h0, if_neg h1, if_neg h2, if_neg h3, if_pos h4]
  · intro h
    unfold denote at h
    split at h
    · rename_i hm; cases h; obtain ⟨e1, e2⟩ := idxOf_spec _ _ hm; exact .conserved e1 e2
    split at h
    · rename_i h0 hm; cases h; obtain ⟨e1, e2⟩ := idxOf_spec _ _ hm; exact .primitive h0 e1 e2
    split at h
    · rename_i h0 h1 hm; cases h; obtain ⟨e1, e2⟩ := idxOf_spec _ _ hm; exact .precomputed h0 h1 e1 e2
    split at h
    · rename_i h0 h1 h2 hm; cases h; obtain ⟨e1, e2⟩ := idxOf_spec _ _ hm; exact .initial h0 h1 h2 e1 e2
    split at h
    · rename_i h0 h1 h2 h3 hm; cases h; exact .alpha h0 h1 h2 h3 hm
    · cases h

/-- **C44 (the denoted component is unique).** -/
theorem C44_denotes_unique {V : Type} (names : Names) (src : Sources V) (s : String) (v w : V)
    (hv : Denotes names src s v) (hw : Denotes names src s w) : v = w :=
  Option.some.inj (((denotes_iff names src s v).1 hv).symm.trans ((denotes_iff names src s w).1 hw))

theorem record_isSome {V : Type} (names : Names) (src : Sources V) (ix : Indices) (s : String) :
    (record names ix s).isSome = (denote names src s).isSome := by
  unfold record denote
  split_ifs <;> rfl

theorem recordAll_isSome {V : Type} (names : Names) (src : Sources V) (ix : Indices) (selected : List String) :
    (recordAll names ix selected).isSome = true ↔ ∀ s ∈ selected, (denote names src s).isSome = true := by
  induction selected generalizing ix with
  | nil => simp [recordAll]
  | cons s rest ih =>
    rw [recordAll, List.forall_mem_cons, ← record_isSome names src ix s]
    cases h : record names ix s with
    | none => simp
    | some ix' => simpa using ih ix'

/-- **C44 (check).** `check` accepts a selection exactly if every name denotes a component, and exactly then the
extraction does not throw; any other name is rejected. -/
theorem C44_check {V : Type} (names : Names) (src : Sources V) (zero : V) (selected : List String) :
    (check names selected = true ↔ ∀ s ∈ selected, ∃ v, Denotes names src s v) ∧
    (check names selected = true ↔ (extract names src zero selected).isSome = true) := by
  have hd : ∀ s, (denote names src s).isSome = true ↔ ∃ v, Denotes names src s v := by
    intro s
    rw [Option.isSome_iff_exists]
    exact exists_congr fun v => (denotes_iff names src s v).symm
  have h1 : check names selected = true ↔ ∀ s ∈ selected, (denote names src s).isSome = true := by
    unfold check
    rw [List.all_eq_true]
    refine forall₂_congr fun s _ => ?_
    unfold denote
    split_ifs <;> simp [*]
  refine ⟨h1.trans (forall₂_congr fun s _ => hd s), ?_⟩
  rw [h1, ← recordAll_isSome names src {} selected]
  unfold extract
  rw [Option.isSome_map]

/-- The names of the two-dimensional shallow water equations (shallow_water/hyperbolic_system.h). -/
def swNames : Names := ⟨["h", "m_1", "m_2"], ["h", "v_1", "v_2"], ["eta_m", "h_star"], ["bathymetry"]⟩

/-- The hypotheses of the three theorems are met by a selection with a repeated and an ambiguous name: `h` is the
conserved component. -/
example {V : Type} (src : Sources V) (zero : V) :
    ∃ out, extract swNames src zero ["v_2", "alpha", "h", "bathymetry", "v_2"] = some out ∧
      out 0 = src.primitive 2 ∧ out 1 = src.alpha ∧ out 2 = src.conserved 0 ∧ out 3 = src.initial 0 ∧
      out 4 = src.primitive 2 := ⟨_, rfl, rfl, rfl, rfl, rfl, rfl⟩

example : check swNames ["h", "rho"] = false := by decide

end Configuration
end Ryujin
