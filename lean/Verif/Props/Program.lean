import Verif.Proofs.Program

/-!
# C118: starting the program
-/

namespace Ryujin

/-- What a parameter file says about an entry: its last value. -/
def Spec.lastEntry (file : Program.Prm) (k : Program.Key) : Option String := file.reverse.lookup k

/-- The value of a parameter: that of the file, otherwise the (last declared) default. -/
def Spec.setting (declared file : Program.Prm) (k : Program.Key) : Option String :=
  match Spec.lastEntry file k with
  | some v => some v
  | none => Spec.lastEntry declared k

namespace Program

open Configuration

/-- Time loops find their parameters by name. -/
def Setup.ByName (S : Setup) : Prop :=
  ∀ k d p p', (∀ key, value p key = value p' key) → S.completes k d p = S.completes k d p'

theorem setting_eq (declared file : Prm) (k : Key) : Spec.setting declared file k = (value file.reverse k).or (value declared.reverse k) := by
  unfold Spec.setting Spec.lastEntry value
  cases file.reverse.lookup k <;> rfl

theorem lastEntry_isSome (prm : Prm) (k : Key) : (Spec.lastEntry prm k).isSome = true ↔ k ∈ prm.map Prod.fst := by
  have := value_isSome prm.reverse k
  rw [List.map_reverse, List.mem_reverse] at this
  exact this

/-- The first reading of the file. -/
theorem first_parse (file : Prm) : ∃ prm, parse true (declareAll [] dispatchEntries) file = some prm ∧
    prm.map Prod.fst = [dimensionKey, equationKey] ∧ value prm dimensionKey = some ((Spec.lastEntry file dimensionKey).getD "0") ∧
    value prm equationKey = some ((Spec.lastEntry file equationKey).getD "") := by
  obtain ⟨prm, hp⟩ := (parse_spec true (declareAll [] dispatchEntries) file).1.2 (Or.inl rfl)
  obtain ⟨h1, h2⟩ := (parse_spec true (declareAll [] dispatchEntries) file).2 prm hp
  have e : declareAll [] dispatchEntries = [(dimensionKey, "0"), (equationKey, "")] := by decide +kernel
  rw [e] at h1 h2
  refine ⟨prm, hp, h1, ?_, ?_⟩
  · rw [h2 dimensionKey (by simp)]
    unfold Spec.lastEntry value
    cases file.reverse.lookup dimensionKey <;> simp
  · rw [h2 equationKey (by simp)]
    have : equationKey ≠ dimensionKey := by decide
    unfold Spec.lastEntry value
    cases file.reverse.lookup equationKey <;> simp [List.lookup_cons, show (equationKey == dimensionKey) = false by decide]

/-- The parameters of the time loop. -/
theorem loop_parameters (S : Setup) (k : ℕ) (d : ℤ) (file prm : Prm) (hp : parse true (declareAll [] dispatchEntries) file = some prm) :
    ((∃ p, loopPrm S k d prm file = some p) ↔ ∀ key ∈ file.map Prod.fst, key ∈ (dispatchEntries ++ S.decl k d).map Prod.fst) ∧
    ∀ p, loopPrm S k d prm file = some p → ∀ key, value p key =
      if key ∈ (dispatchEntries ++ S.decl k d).map Prod.fst then Spec.setting (dispatchEntries ++ S.decl k d) file key else none := by
  obtain ⟨prm', hp', h1, h2, h3⟩ := first_parse file
  rw [hp] at hp'
  obtain rfl := Option.some.inj hp'
  have hk : ∀ key, key ∈ (declareAll prm (S.decl k d)).map Prod.fst ↔ key ∈ (dispatchEntries ++ S.decl k d).map Prod.fst := by
    intro key
    rw [keys_declareAll, h1, List.map_append, List.mem_append, or_comm]
    rfl
  obtain ⟨q1, q2⟩ := parse_spec false (declareAll prm (S.decl k d)) file
  unfold loopPrm
  refine ⟨?_, fun p hp key => ?_⟩
  · rw [q1]
    simp only [Bool.false_eq_true, false_or]
    exact forall_congr' fun key => imp_congr_right fun _ => hk key
  · obtain ⟨r1, r2⟩ := q2 p hp
    split_ifs with hkey
    · rw [r2 key ((hk key).2 hkey), value_declareAll, setting_eq, List.reverse_append, value_append]
      by_cases hd : key = dimensionKey
      · subst hd
        rw [h2]
        have : value dispatchEntries.reverse dimensionKey = some "0" := by decide +kernel
        rw [this]
        unfold Spec.lastEntry value
        cases file.reverse.lookup dimensionKey <;> simp
      · by_cases he : key = equationKey
        · subst he
          rw [h3]
          have : value dispatchEntries.reverse equationKey = some "" := by decide +kernel
          rw [this]
          unfold Spec.lastEntry value
          cases file.reverse.lookup equationKey <;> simp
        · have e1 : value prm key = none := value_none (by rw [h1]; simp [hd, he])
          have e2 : value dispatchEntries.reverse key = none := value_none (by
            rw [List.map_reverse, List.mem_reverse]
            simp [dispatchEntries, hd, he])
          rw [e1, e2]
    · exact value_none (by rw [r1, hk]; exact hkey)

/-- **C118 (the parameter file decides).** Starting with a parameter file ends normally if and only if the file selects a dimension from 1 to 3
and the name of exactly one registered driver, contains no entries unknown to that driver, and the time loop completes with the parameters of
the file and default values for all others.  Then exactly one time loop ran: that of the driver, in that dimension. -/
theorem C118_file (S : Setup) (hS : S.ByName) (file : Prm) (ran : List Run) :
    dispatchFile S file = .ok ran ↔ ∃ d p,
      readInt ((Spec.lastEntry file dimensionKey).getD "0") = some d ∧ 1 ≤ d ∧ d ≤ 3 ∧
      S.registered.count ((Spec.lastEntry file equationKey).getD "") = 1 ∧
      (let k := S.registered.idxOf ((Spec.lastEntry file equationKey).getD "")
       let declared := dispatchEntries ++ S.decl k d
       (∀ e ∈ file, e.1 ∈ declared.map Prod.fst) ∧
       (∀ key, value p key = if key ∈ declared.map Prod.fst then Spec.setting declared file key else none) ∧
       S.completes k d p = true ∧ ran = [⟨k, d⟩]) := by
  obtain ⟨prm, hp, h1, h2, h3⟩ := first_parse file
  unfold dispatchFile
  rw [hp]
  dsimp only
  rw [h2, h3, Option.bind_some]
  set eq := (Spec.lastEntry file equationKey).getD "" with heq
  cases hd : readInt ((Spec.lastEntry file dimensionKey).getD "0") with
  | none => simp
  | some d =>
    dsimp only
    rw [C42_exactly_one]
    obtain ⟨l1, l2⟩ := loop_parameters S (S.registered.idxOf eq) d file prm hp
    constructor
    · rintro ⟨a1, a2, a3, a4, a5⟩
      cases hl : loopPrm S (S.registered.idxOf eq) d prm file with
      | none => rw [hl] at a4; cases a4
      | some p =>
        rw [hl] at a4
        refine ⟨d, p, rfl, a1, a2, a3, ?_, l2 p hl, a4, a5⟩
        intro e he
        exact l1.1 ⟨p, hl⟩ e.1 (List.mem_map_of_mem he)
    · rintro ⟨d', p, e, a1, a2, a3, b1, b2, b3, b4⟩
      obtain rfl := Option.some.inj e
      refine ⟨a1, a2, a3, ?_, b4⟩
      obtain ⟨p', hp'⟩ := l1.2 fun key hk => by
        obtain ⟨e, he, rfl⟩ := List.mem_map.1 hk
        exact b1 e he
      rw [hp']
      dsimp only
      rw [hS _ _ p' p fun key => (l2 p' hp' key).trans (b2 key).symm]
      exact b3

/-- **C118 (never the wrong equation).** However it ends, at most one time loop was started, and if so that of a driver with the name and the
dimension of the parameter file. -/
theorem C118_never_wrong (S : Setup) (file : Prm) :
    (dispatchFile S file).runs = [] ∨ ∃ k d, S.registered[k]? = some ((Spec.lastEntry file equationKey).getD "") ∧
      readInt ((Spec.lastEntry file dimensionKey).getD "0") = some d ∧ 1 ≤ d ∧ d ≤ 3 ∧ (dispatchFile S file).runs = [⟨k, d⟩] := by
  obtain ⟨prm, hp, h1, h2, h3⟩ := first_parse file
  unfold dispatchFile
  rw [hp]
  dsimp only
  rw [h2, h3, Option.bind_some]
  cases hd : readInt ((Spec.lastEntry file dimensionKey).getD "0") with
  | none => exact Or.inl rfl
  | some d =>
    dsimp only
    rcases C42_never_two (fun k d => match loopPrm S k d prm file with | none => false | some p => S.completes k d p) S.registered d
      ((Spec.lastEntry file equationKey).getD "") false with h | ⟨k, a1, a2, a3, a4⟩
    · exact Or.inl h
    · exact Or.inr ⟨k, d, a1, rfl, a2, a3, a4⟩

/-! ### Templates -/

theorem template_value (decl : List (Key × String)) (name : String) (dim : ℕ) (key : Key) :
    value (templatePrm decl name dim) key = if key = equationKey then some name else if key = dimensionKey then some (toString dim)
      else (value decl.reverse key).or (if key = ("A - TimeLoop", "basename") then some "test" else none) := by
  have hne : dimensionKey ≠ equationKey := by decide
  unfold templatePrm
  rw [value_assign]
  by_cases h1 : key = equationKey
  · rw [if_pos ⟨h1, by rw [keys_assign, keys_declare]; exact Or.inl rfl⟩, if_pos h1]
  · rw [if_neg fun h => h1 h.1, if_neg h1, value_assign]
    by_cases h2 : key = dimensionKey
    · rw [if_pos ⟨h2, by rw [keys_declare, keys_declare]; exact Or.inr (Or.inl rfl)⟩, if_pos h2]
    · rw [if_neg fun h => h2 h.1, if_neg h2, value_declare, if_neg h1, value_declare, if_neg h2, value_declareAll, value_declareAll, value_declare]
      have : value dispatchEntries.reverse key = none := value_none (by
        rw [List.map_reverse, List.mem_reverse]
        simp [dispatchEntries, h1, h2])
      rw [this]
      rfl

theorem template_keys (decl : List (Key × String)) (name : String) (dim : ℕ) :
    ((templatePrm decl name dim).map Prod.fst).Nodup ∧ ∀ key, key ∈ (templatePrm decl name dim).map Prod.fst ↔
      key = ("A - TimeLoop", "basename") ∨ key ∈ (dispatchEntries ++ decl).map Prod.fst := by
  unfold templatePrm
  rw [keys_assign, keys_assign]
  refine ⟨nodup_declare _ _ _ (nodup_declare _ _ _ (nodup_declareAll _ _ (nodup_declareAll _ _ (nodup_declare _ _ _ (by simp))))), fun key => ?_⟩
  rw [keys_declare, keys_declare, keys_declareAll, keys_declareAll, keys_declare, List.map_append, List.mem_append]
  have : key ∈ dispatchEntries.map Prod.fst ↔ key = dimensionKey ∨ key = equationKey := by simp [dispatchEntries]
  rw [this]
  simp only [List.map_nil, List.not_mem_nil, or_false]
  tauto

theorem lookup_reverse {prm : Prm} (h : (prm.map Prod.fst).Nodup) (k : Key) : value prm.reverse k = value prm k := by
  induction prm with
  | nil => rfl
  | cons e prm ih =>
    rw [List.map_cons, List.nodup_cons] at h
    rw [List.reverse_cons, value_append, ih h.2, value_cons, value_cons]
    by_cases hk : k = e.1
    · subst hk
      rw [value_none h.1]; simp
    · cases value prm k <;> simp [hk, value]

/-- A parameter file that only selects equation and dimension. -/
def Spec.minimalFile (name : String) (dim : ℕ) : Prm := [(dimensionKey, toString dim), (equationKey, name)]

theorem readInt_toString {d : ℕ} (h1 : 1 ≤ d) (h3 : d ≤ 3) : readInt (toString d) = some (d : ℤ) := by
  interval_cases d <;> decide +kernel

open Classical in
/-- **C118 (templates).** A start without argument and without default parameter file leaves, for every registered driver and every dimension, a
template parameter file.  Starting with the template has the same effect as starting with a file that only selects the driver and the dimension;
so the time loop of this driver runs in this dimension, with default values for all parameters.  All other files are as before. -/
theorem C118_templates (S : Setup) (hS : S.ByName) (hb : (S.registered.map baseName).Nodup)
    (hname : ∀ k d, ("A - TimeLoop", "basename") ∈ (S.decl k d).map Prod.fst) (fs : Files) :
    (∀ k name d, S.registered[k]? = some name → 1 ≤ d → d ≤ 3 →
      ∃ c, writeAll fs (templates S) (templateName name d false) = some c ∧
        (∀ ran, dispatchFile S c = .ok ran ↔ dispatchFile S (Spec.minimalFile name d) = .ok ran) ∧
        ∀ ran, dispatchFile S c = .ok ran → ran = [⟨k, d⟩]) ∧
    ∀ f, (∀ name ∈ S.registered, ∀ d b, 1 ≤ d → d ≤ 3 → f ≠ templateName name d b) → writeAll fs (templates S) f = fs f := by
  constructor
  · intro k name d hk h1 h3
    have hcount : S.registered.count name = 1 :=
      List.count_eq_one_of_mem (List.Nodup.of_map _ hb) (List.mem_of_getElem? hk)
    have hidx : S.registered.idxOf name = k := by
      obtain ⟨hlt, he⟩ := List.getElem?_eq_some_iff.1 hk
      rw [← he]
      exact List.Nodup.idxOf_getElem (List.Nodup.of_map _ hb) k hlt
    refine ⟨templatePrm (S.decl k d) name d, ?_, ?_⟩
    · refine writeAll_mem _ _ _ _ ((mem_createFrom S 0 S.registered _ _).2 ⟨k, name, d, false, hk, h1, h3, by simp, rfl, by rw [Nat.zero_add]⟩) ?_
      intro c' hc'
      obtain ⟨j, n', d', b', g1, g2, g3, -, g5, g6⟩ := (mem_createFrom S 0 S.registered _ _).1 hc'
      obtain ⟨e1, e2, -⟩ := templateName_inj h1 h3 g2 g3 g5
      have ejk : j = k := by
        obtain ⟨hj, hj'⟩ := List.getElem?_eq_some_iff.1 g1
        obtain ⟨hk1, hk'⟩ := List.getElem?_eq_some_iff.1 hk
        refine (List.Nodup.getElem_inj_iff hb (hi := by simpa using hj) (hj := by simpa using hk1)).1 ?_
        rw [List.getElem_map, List.getElem_map, hj', hk', e1]
      subst ejk
      rw [hk] at g1
      obtain rfl := Option.some.inj g1
      subst e2
      rw [g6, Nat.zero_add]
    · obtain ⟨kn, km⟩ := template_keys (S.decl k d) name d
      have v1 : ∀ key, Spec.lastEntry (templatePrm (S.decl k d) name d) key = value (templatePrm (S.decl k d) name d) key :=
        fun key => lookup_reverse kn key
      have hne : dimensionKey ≠ equationKey := by decide
      have t1 : Spec.lastEntry (templatePrm (S.decl k d) name d) equationKey = some name := by
        rw [v1, template_value, if_pos rfl]
      have t2 : Spec.lastEntry (templatePrm (S.decl k d) name d) dimensionKey = some (toString d) := by
        rw [v1, template_value, if_neg hne, if_pos rfl]
      have mv : ∀ key, Spec.lastEntry (Spec.minimalFile name d) key = if key = equationKey then some name else
          if key = dimensionKey then some (toString d) else none := by
        intro key
        show value [(equationKey, name), (dimensionKey, toString d)] key = _
        rw [value_cons, value_cons]
        rfl
      have m1 : Spec.lastEntry (Spec.minimalFile name d) equationKey = some name := by rw [mv, if_pos rfl]
      have m2 : Spec.lastEntry (Spec.minimalFile name d) dimensionKey = some (toString d) := by rw [mv, if_neg hne, if_pos rfl]
      have key1 : ∀ e ∈ templatePrm (S.decl k d) name d, e.1 ∈ (dispatchEntries ++ S.decl k d).map Prod.fst := by
        intro e he
        rcases (km e.1).1 (List.mem_map_of_mem he) with h | h
        · rw [h, List.map_append, List.mem_append]
          exact Or.inr (hname k d)
        · exact h
      have key2 : ∀ e ∈ Spec.minimalFile name d, e.1 ∈ (dispatchEntries ++ S.decl k d).map Prod.fst := by
        intro e he
        rw [List.map_append, List.mem_append]
        left
        simp only [Spec.minimalFile, List.mem_cons, List.not_mem_nil, or_false] at he
        rcases he with rfl | rfl <;> simp [dispatchEntries]
      have key3 : ∀ key ∈ (dispatchEntries ++ S.decl k d).map Prod.fst,
          Spec.setting (dispatchEntries ++ S.decl k d) (templatePrm (S.decl k d) name d) key =
          Spec.setting (dispatchEntries ++ S.decl k d) (Spec.minimalFile name d) key := by
        intro key hkey
        have hs := (lastEntry_isSome (templatePrm (S.decl k d) name d) key).2 ((km key).2 (Or.inr hkey))
        unfold Spec.setting
        rw [mv]
        by_cases c1 : key = equationKey
        · rw [if_pos c1, c1, t1]
        · rw [if_neg c1]
          by_cases c2 : key = dimensionKey
          · rw [if_pos c2, c2, t2]
          · rw [if_neg c2]
            have hd : key ∈ (S.decl k d).map Prod.fst := by
              rw [List.map_append, List.mem_append] at hkey
              exact hkey.resolve_left (by simp [dispatchEntries, c1, c2])
            have hv : (value (S.decl k d).reverse key).isSome := by
              rw [value_isSome, List.map_reverse, List.mem_reverse]; exact hd
            have e1 : Spec.lastEntry (templatePrm (S.decl k d) name d) key = value (S.decl k d).reverse key := by
              rw [v1, template_value, if_neg c1, if_neg c2]
              obtain ⟨v, hv⟩ := Option.isSome_iff_exists.1 hv
              rw [hv]; rfl
            have e2 : Spec.lastEntry (dispatchEntries ++ S.decl k d) key = value (S.decl k d).reverse key := by
              show value (dispatchEntries ++ S.decl k d).reverse key = _
              rw [List.reverse_append, value_append]
              obtain ⟨v, hv⟩ := Option.isSome_iff_exists.1 hv
              rw [hv]; rfl
            obtain ⟨v, hv⟩ := Option.isSome_iff_exists.1 hv
            rw [e1, e2, hv]
      have main : ∀ ran, dispatchFile S (templatePrm (S.decl k d) name d) = .ok ran ↔ dispatchFile S (Spec.minimalFile name d) = .ok ran := by
        intro ran
        rw [C118_file S hS, C118_file S hS, t1, t2, m1, m2]
        simp only [Option.getD_some, hidx, readInt_toString h1 h3, Option.some.injEq]
        constructor
        · rintro ⟨d', p, rfl, a1, a2, a3, -, a5, a6, a7⟩
          refine ⟨d, p, rfl, a1, a2, a3, key2, fun key => ?_, a6, a7⟩
          rw [a5]
          split_ifs with hkey
          · exact key3 key hkey
          · rfl
        · rintro ⟨d', p, rfl, a1, a2, a3, -, a5, a6, a7⟩
          refine ⟨d, p, rfl, a1, a2, a3, key1, fun key => ?_, a6, a7⟩
          rw [a5]
          split_ifs with hkey
          · exact (key3 key hkey).symm
          · rfl
      refine ⟨main, fun ran hr => ?_⟩
      obtain ⟨d', p, a1, a2, a3, a4, a5, a6, a7, a8⟩ := (C118_file S hS _ ran).1 hr
      rw [t1, t2] at *
      simp only [Option.getD_some, hidx, readInt_toString h1 h3, Option.some.injEq] at a1 a8
      rw [a8, a1]
  · intro f hf
    refine writeAll_other _ _ _ fun hm => ?_
    obtain ⟨⟨f', c⟩, hc, rfl⟩ := List.mem_map.1 hm
    obtain ⟨j, n', d', b', g1, g2, g3, -, g5, -⟩ := (mem_createFrom S 0 S.registered _ _).1 hc
    exact hf n' (List.mem_of_getElem? g1) d' b' g2 g3 g5

/-! ### Several ranks -/

/-- How a start has to end, given the files that exist in the beginning. -/
def Spec.expected (S : Setup) (argv : List String) (fs : Files) : Ending :=
  if argv.length > 2 then .failed
  else match fs (parameterFile argv) with
    | none => .failed
    | some c => .dispatched (dispatchFile S c)

/-- The files a start leaves. -/
def Spec.leaves (S : Setup) (argv : List String) (fs : Files) : Files :=
  if argv.length = 1 ∧ fs (parameterFile argv) = none then writeAll fs (templates S) else fs

section ranks

variable {R : Type}

/-- States reached by the ranks of a program started with the files `fs`. -/
def Reached (S : Setup) (argv : List String) (zero : R) (fs : Files) (w : World R) : Prop :=
  Relation.ReflTransGen (Step S argv zero) ⟨fs, fun _ => .start⟩ w

/-- Remaining work of a rank. -/
def weight (n : ℕ) : Phase → ℕ
  | .start => n + 4
  | .ready _ => 1
  | .writing rest => rest.length + 2
  | .barrier => 1
  | .done _ => 0

theorem step_weight [Fintype R] {S : Setup} {argv : List String} {zero : R} {w w' : World R} (h : Step S argv zero w w') :
    ∑ r, weight (templates S).length (w'.phase r) < ∑ r, weight (templates S).length (w.phase r) := by
  classical
  have upd : ∀ (r : R) (p : Phase), weight (templates S).length p < weight (templates S).length (w.phase r) →
      ∑ q, weight (templates S).length (Function.update w.phase r p q) < ∑ q, weight (templates S).length (w.phase q) := by
    intro r p hp
    refine Finset.sum_lt_sum (fun q _ => ?_) ⟨r, Finset.mem_univ r, by rwa [Function.update_self]⟩
    by_cases hq : q = r
    · subst hq; rw [Function.update_self]; exact hp.le
    · rw [Function.update_of_ne hq]
  cases h with
  | check r h =>
    have : weight (templates S).length (afterCheck S argv (decide (r = zero)) w.fs) < weight (templates S).length (w.phase r) := by
      rw [h]
      unfold afterCheck
      split_ifs <;> simp [weight]
    convert upd r _ this
  | write r f c rest h =>
    have : weight (templates S).length (.writing rest) < weight (templates S).length (w.phase r) := by rw [h]; simp [weight]
    convert upd r _ this
  | written r h =>
    have : weight (templates S).length .barrier < weight (templates S).length (w.phase r) := by rw [h]; simp [weight]
    convert upd r _ this
  | leave h =>
    refine Finset.sum_lt_sum (fun q _ => by simp [weight]) ⟨zero, Finset.mem_univ _, ?_⟩
    rw [h zero]
    simp [weight]
  | run r f c h hc =>
    have : weight (templates S).length (.done (.dispatched (dispatchFile S c))) < weight (templates S).length (w.phase r) := by
      rw [h]; simp [weight]
    convert upd r _ this

/-- Reachable states. -/
inductive Inv (S : Setup) (argv : List String) (zero : R) (fs : Files) : World R → Prop
  | failing (phase : R → Phase) (hc : ∀ b, afterCheck S argv b fs = .done .failed) (he : Spec.expected S argv fs = .failed)
      (hl : Spec.leaves S argv fs = fs) (h : ∀ r, phase r = .start ∨ phase r = .done .failed) : Inv S argv zero fs ⟨fs, phase⟩
  | running (phase : R → Phase) (c : Prm) (hf : fs (parameterFile argv) = some c)
      (hc : ∀ b, afterCheck S argv b fs = .ready (parameterFile argv)) (he : Spec.expected S argv fs = .dispatched (dispatchFile S c))
      (hl : Spec.leaves S argv fs = fs)
      (h : ∀ r, phase r = .start ∨ phase r = .ready (parameterFile argv) ∨ phase r = .done (.dispatched (dispatchFile S c))) :
      Inv S argv zero fs ⟨fs, phase⟩
  | creating (phase : R → Phase) (before rest : List (String × Prm)) (ht : templates S = before ++ rest) (he : Spec.expected S argv fs = .failed)
      (hl : Spec.leaves S argv fs = writeAll fs (templates S))
      (hc : ∀ a b, templates S = a ++ b → afterCheck S argv true (writeAll fs a) = .writing (templates S) ∧
        afterCheck S argv false (writeAll fs a) = .barrier)
      (h0 : (before = [] ∧ phase zero = .start) ∨ phase zero = .writing rest ∨ (rest = [] ∧ phase zero = .barrier))
      (h : ∀ r, r ≠ zero → phase r = .start ∨ phase r = .barrier) : Inv S argv zero fs ⟨writeAll fs before, phase⟩
  | created (he : Spec.expected S argv fs = .failed) (hl : Spec.leaves S argv fs = writeAll fs (templates S)) :
      Inv S argv zero fs ⟨writeAll fs (templates S), fun _ => .done .failed⟩

theorem inv_start {S : Setup} (hreg : S.registered ≠ []) {argv : List String} (hargv : argv ≠ []) (zero : R) (fs : Files)
    (htemp : argv.length = 1 → parameterFile argv ∉ (templates S).map Prod.fst ∨ fs (parameterFile argv) ≠ none) :
    Inv S argv zero fs ⟨fs, fun _ => .start⟩ := by
  have hpos : 0 < argv.length := List.length_pos_of_ne_nil hargv
  by_cases h2 : argv.length > 2
  · refine .failing _ (fun b => ?_) ?_ ?_ fun r => Or.inl rfl
    · unfold afterCheck; rw [if_pos h2]
    · unfold Spec.expected; rw [if_pos h2]
    · unfold Spec.leaves; rw [if_neg fun h => by omega]
  · cases hf : fs (parameterFile argv) with
    | some c =>
      refine .running _ c hf (fun b => ?_) ?_ ?_ fun r => Or.inl rfl
      · unfold afterCheck; rw [if_neg h2, hf]; simp
      · unfold Spec.expected; rw [if_neg h2, hf]
      · unfold Spec.leaves; rw [hf]; simp
    | none =>
      by_cases h1 : argv.length = 2
      · refine .failing _ (fun b => ?_) ?_ ?_ fun r => Or.inl rfl
        · unfold afterCheck; rw [if_neg h2, hf]; simp [h1]
        · unfold Spec.expected; rw [if_neg h2, hf]
        · unfold Spec.leaves; rw [if_neg fun h => by omega]
      · have h1' : argv.length = 1 := by omega
        have hnt : parameterFile argv ∉ (templates S).map Prod.fst := (htemp h1').resolve_right fun h => h hf
        refine .creating (fun _ => .start) [] (templates S) rfl ?_ ?_ ?_ (Or.inl ⟨rfl, rfl⟩) fun r _ => Or.inl rfl
        · unfold Spec.expected; rw [if_neg h2, hf]
        · unfold Spec.leaves; rw [if_pos ⟨h1', hf⟩]
        · intro a b hab
          have hn : writeAll fs a (parameterFile argv) = none := by
            rw [writeAll_other _ _ _ ?_, hf]
            intro hm
            apply hnt
            rw [hab, List.map_append, List.mem_append]
            exact Or.inl hm
          unfold afterCheck
          rw [hn]
          simp [h1', hreg]

theorem inv_step {S : Setup} {argv : List String} {zero : R} {fs : Files} {w w' : World R} (h : Step S argv zero w w')
    (hi : Inv S argv zero fs w) : Inv S argv zero fs w' := by
  classical
  cases hi with
  | failing phase hc he hl hp =>
    cases h with
    | check r h =>
      refine .failing _ hc he hl fun q => ?_
      by_cases hq : q = r
      · subst hq; right; simp only [Function.update_self]; exact hc _
      · simp only [Function.update_of_ne hq]; exact hp q
    | write r f c rest h => rcases hp r with h' | h' <;> simp only [h'] at h <;> cases h
    | written r h => rcases hp r with h' | h' <;> simp only [h'] at h <;> cases h
    | leave h => have := h zero; rcases hp zero with h' | h' <;> simp only [h'] at this <;> cases this
    | run r f c h hc => rcases hp r with h' | h' <;> simp only [h'] at h <;> cases h
  | running phase c hf hc he hl hp =>
    cases h with
    | check r h =>
      refine .running _ c hf hc he hl fun q => ?_
      by_cases hq : q = r
      · subst hq; right; left; simp only [Function.update_self]; exact hc _
      · simp only [Function.update_of_ne hq]; exact hp q
    | write r f c rest h => rcases hp r with h' | h' | h' <;> simp only [h'] at h <;> cases h
    | written r h => rcases hp r with h' | h' | h' <;> simp only [h'] at h <;> cases h
    | leave h => have := h zero; rcases hp zero with h' | h' | h' <;> simp only [h'] at this <;> cases this
    | run r f c' h hc' =>
      refine .running _ c hf hc he hl fun q => ?_
      by_cases hq : q = r
      · subst hq
        right; right
        simp only [Function.update_self]
        have h : phase q = .ready f := h
        rcases hp q with h' | h' | h'
        · rw [h'] at h; cases h
        · rw [h'] at h
          cases h
          have hc' : fs (parameterFile argv) = some c' := hc'
          rw [hf] at hc'
          rw [Option.some.inj hc']
        · rw [h'] at h; cases h
      · simp only [Function.update_of_ne hq]; exact hp q
  | creating phase before rest ht he hl hc h0 hp =>
    cases h with
    | check r h =>
      have h : phase r = .start := h
      by_cases hr : r = zero
      · subst hr
        rcases h0 with ⟨rfl, h0⟩ | h0 | ⟨-, h0⟩
        · refine .creating _ [] rest ht he hl hc (Or.inr (Or.inl ?_)) fun q hq => ?_
          · simp only [Function.update_self, decide_true]
            rw [(hc [] rest ht).1, ht]
            rfl
          · simp only [Function.update_of_ne hq]; exact hp q hq
        · rw [h0] at h; cases h
        · rw [h0] at h; cases h
      · refine .creating _ before rest ht he hl hc ?_ fun q hq => ?_
        · simp only [Function.update_of_ne (Ne.symm hr)]; exact h0
        · by_cases hqr : q = r
          · subst hqr
            right
            simp only [Function.update_self, hr, decide_false]
            exact (hc before rest ht).2
          · simp only [Function.update_of_ne hqr]; exact hp q hq
    | write r f c rest' h =>
      have h : phase r = .writing ((f, c) :: rest') := h
      have hr : r = zero := by
        by_contra hr
        rcases hp r hr with h' | h' <;> rw [h'] at h <;> cases h
      subst hr
      have hrest : rest = (f, c) :: rest' := by
        rcases h0 with ⟨-, h0⟩ | h0 | ⟨-, h0⟩
        · rw [h0] at h; cases h
        · rw [h0] at h; cases h; rfl
        · rw [h0] at h; cases h
      subst hrest
      have e : Function.update (writeAll fs before) f (some c) = writeAll fs (before ++ [(f, c)]) := by
        rw [writeAll_append]; rfl
      have := Inv.creating (S := S) (argv := argv) (zero := r) (fs := fs) (Function.update phase r (.writing rest')) (before ++ [(f, c)]) rest'
        (by rw [ht]; simp) he hl hc (Or.inr (Or.inl (by rw [Function.update_self]))) fun q hq => by
          rw [Function.update_of_ne hq]; exact hp q hq
      convert this
    | written r h =>
      have h : phase r = .writing [] := h
      have hr : r = zero := by
        by_contra hr
        rcases hp r hr with h' | h' <;> rw [h'] at h <;> cases h
      subst hr
      have hrest : rest = [] := by
        rcases h0 with ⟨-, h0⟩ | h0 | ⟨h0, -⟩
        · rw [h0] at h; cases h
        · rw [h0] at h; cases h; rfl
        · exact h0
      refine .creating _ before rest ht he hl hc (Or.inr (Or.inr ⟨hrest, ?_⟩)) fun q hq => ?_
      · simp only [Function.update_self]
      · simp only [Function.update_of_ne hq]; exact hp q hq
    | leave h =>
      have h : phase zero = .barrier := h zero
      have hrest : rest = [] := by
        rcases h0 with ⟨-, h0⟩ | h0 | ⟨h0, -⟩
        · rw [h0] at h; cases h
        · rw [h0] at h; cases h
        · exact h0
      subst hrest
      have e : before = templates S := by rw [ht, List.append_nil]
      subst e
      exact .created he hl
    | run r f c h hc' =>
      have h : phase r = .ready f := h
      by_cases hr : r = zero
      · subst hr
        rcases h0 with ⟨-, h0⟩ | h0 | ⟨-, h0⟩ <;> rw [h0] at h <;> cases h
      · rcases hp r hr with h' | h' <;> rw [h'] at h <;> cases h
  | created he hl =>
    cases h with
    | check r h => cases h
    | write r f c rest h => cases h
    | written r h => cases h
    | leave h => have := h zero; cases this
    | run r f c h hc => cases h

/-- **C118 (several ranks).** However the ranks of a parallel start are scheduled: every rank that is done ended as one expects from the files
that existed in the beginning; the start cannot go on for ever; and when no rank can go on any more, then all of them are done – nobody waits for
ever – and the files are the expected ones.  The executable must not be named like a template, see `C118_ranks_violation`. -/
theorem C118_ranks [Fintype R] (S : Setup) (hreg : S.registered ≠ []) (argv : List String) (hargv : argv ≠ []) (zero : R) (fs : Files)
    (htemp : argv.length = 1 → parameterFile argv ∉ (templates S).map Prod.fst ∨ fs (parameterFile argv) ≠ none) :
    (∀ w, Reached S argv zero fs w → ∀ r e, w.phase r = .done e → e = Spec.expected S argv fs) ∧
    WellFounded (fun w' w : World R => Step S argv zero w w') ∧
    ∀ w, Reached S argv zero fs w → (∀ w', ¬ Step S argv zero w w') →
      (∀ r, w.phase r = .done (Spec.expected S argv fs)) ∧ w.fs = Spec.leaves S argv fs := by
  have inv : ∀ w, Reached S argv zero fs w → Inv S argv zero fs w := by
    intro w hw
    induction hw with
    | refl => exact inv_start hreg hargv zero fs htemp
    | tail _ hs ih => exact inv_step hs ih
  refine ⟨fun w hw r e he => ?_, ?_, fun w hw hstop => ?_⟩
  · cases inv w hw with
    | failing phase hc hx hl hp =>
      have he : phase r = .done e := he
      rcases hp r with h | h <;> rw [h] at he <;> cases he
      exact hx.symm
    | running phase c hf hc hx hl hp =>
      have he : phase r = .done e := he
      rcases hp r with h | h | h <;> rw [h] at he <;> cases he
      exact hx.symm
    | creating phase before rest ht hx hl hc h0 hp =>
      have he : phase r = .done e := he
      by_cases hr : r = zero
      · subst hr
        rcases h0 with ⟨-, h0⟩ | h0 | ⟨-, h0⟩ <;> rw [h0] at he <;> cases he
      · rcases hp r hr with h' | h' <;> rw [h'] at he <;> cases he
    | created hx hl =>
      cases he
      exact hx.symm
  · exact Subrelation.wf (fun h => step_weight h) (measure fun w : World R => ∑ r, weight (templates S).length (w.phase r)).wf
  · have nostart : ∀ r, w.phase r ≠ .start := fun r h => hstop _ (.check w r h)
    cases inv w hw with
    | failing phase hc hx hl hp =>
      refine ⟨fun r => ?_, hl.symm⟩
      rw [hx]
      exact (hp r).resolve_left (nostart r)
    | running phase c hf hc hx hl hp =>
      refine ⟨fun r => ?_, hl.symm⟩
      rw [hx]
      exact ((hp r).resolve_left (nostart r)).resolve_left fun h => hstop _ (.run _ r _ c h hf)
    | creating phase before rest ht hx hl hc h0 hp =>
      exfalso
      have hz : phase zero = .barrier := by
        rcases h0 with ⟨-, h0⟩ | h0 | ⟨-, h0⟩
        · exact absurd h0 (nostart zero)
        · cases rest with
          | nil => exact absurd (.written _ zero h0) (hstop _)
          | cons e rest => exact absurd (.write _ zero e.1 e.2 rest h0) (hstop _)
        · exact h0
      refine hstop _ (.leave _ fun r => ?_)
      by_cases hr : r = zero
      · subst hr; exact hz
      · exact (hp r hr).resolve_left (nostart r)
    | created hx hl =>
      exact ⟨fun r => by rw [hx], hl.symm⟩

open Classical in
theorem writes (S : Setup) (argv : List String) (zero : R) (phase : R → Phase) (rest : List (String × Prm)) (fs : Files) :
    Relation.ReflTransGen (Step S argv zero) ⟨fs, Function.update phase zero (.writing rest)⟩
      ⟨writeAll fs rest, Function.update phase zero (.writing [])⟩ := by
  induction rest generalizing fs with
  | nil => exact .refl
  | cons e rest ih =>
    refine .head ?_ (ih (Function.update fs e.1 (some e.2)))
    have := Step.write (S := S) (argv := argv) (zero := zero) ⟨fs, Function.update phase zero (.writing (e :: rest))⟩ zero e.1 e.2 rest
      (by simp only [Function.update_self])
    simpa using this

open Classical in
/-- **C118 (violation).** If the executable is named like a template, then two ranks can get stuck: the first one creates the templates and waits
for the second one, which finds its parameter file in the meantime and runs the time loop. -/
theorem C118_ranks_violation (S : Setup) (hS : S.registered = ["euler"]) (zero other : R) (hne : other ≠ zero) (hall : ∀ r, r = zero ∨ r = other) :
    ∃ w, Reached S ["default_parameters-euler-2d"] zero (fun _ => none) w ∧ (∀ w', ¬ Step S ["default_parameters-euler-2d"] zero w w') ∧
      w.phase zero = .barrier ∧ ∃ d, w.phase other = .done (.dispatched d) := by
  have hname : parameterFile ["default_parameters-euler-2d"] = templateName "euler" 2 false := by decide +kernel
  set c := templatePrm (S.decl 0 2) "euler" 2 with hc
  have hb : (S.registered.map baseName).Nodup := by rw [hS]; simp
  have hfs : writeAll (fun _ => none) (templates S) (templateName "euler" 2 false) = some c := by
    refine writeAll_mem _ _ _ _ ((mem_createFrom S 0 S.registered _ _).2 ⟨0, "euler", 2, false, by rw [hS]; rfl, by norm_num, by norm_num, by simp,
      rfl, rfl⟩) ?_
    intro c' hc'
    obtain ⟨j, n', d', b', g1, g2, g3, -, g5, g6⟩ := (mem_createFrom S 0 S.registered _ _).1 hc'
    obtain ⟨e1, e2, -⟩ := templateName_inj (by norm_num) (by norm_num) g2 g3 g5
    rw [hS] at g1
    cases j with
    | succ j => simp at g1
    | zero =>
      simp only [List.getElem?_cons_zero, Option.some.injEq] at g1
      subst g1
      subst e2
      exact g6
  set phase : R → Phase := fun _ => .start with hphase
  have e1 : afterCheck S ["default_parameters-euler-2d"] (decide (zero = zero)) (fun _ => none) = .writing (templates S) := by
    simp [afterCheck, hS]
  have s1 : Step S ["default_parameters-euler-2d"] zero ⟨fun _ => none, phase⟩ ⟨fun _ => none, Function.update phase zero (.writing (templates S))⟩ := by
    rw [← e1]
    exact Step.check ⟨fun _ => none, phase⟩ zero rfl
  have s2 := writes S ["default_parameters-euler-2d"] zero phase (templates S) fun _ => none
  set fs1 := writeAll (fun _ => none) (templates S) with hfs1
  have s3 : Step S ["default_parameters-euler-2d"] zero ⟨fs1, Function.update phase zero (.writing [])⟩
      ⟨fs1, Function.update (Function.update phase zero (.writing [])) zero .barrier⟩ :=
    Step.written ⟨fs1, Function.update phase zero (.writing [])⟩ zero (by simp only [Function.update_self])
  set ph3 := Function.update (Function.update phase zero (.writing [])) zero .barrier with hph3
  have e4 : afterCheck S ["default_parameters-euler-2d"] (decide (other = zero)) fs1 = .ready (templateName "euler" 2 false) := by
    unfold afterCheck
    rw [hname, hfs]
    simp
  have s4 : Step S ["default_parameters-euler-2d"] zero ⟨fs1, ph3⟩ ⟨fs1, Function.update ph3 other (.ready (templateName "euler" 2 false))⟩ := by
    rw [← e4]
    exact Step.check ⟨fs1, ph3⟩ other (by simp [hph3, hphase, hne])
  set ph4 := Function.update ph3 other (.ready (templateName "euler" 2 false)) with hph4
  have s5 : Step S ["default_parameters-euler-2d"] zero ⟨fs1, ph4⟩ ⟨fs1, Function.update ph4 other (.done (.dispatched (dispatchFile S c)))⟩ :=
    Step.run ⟨fs1, ph4⟩ other (templateName "euler" 2 false) c (by simp [hph4]) hfs
  set ph5 := Function.update ph4 other (.done (.dispatched (dispatchFile S c))) with hph5
  have z5 : ph5 zero = .barrier := by simp [hph5, hph4, hph3, hne.symm]
  have o5 : ph5 other = .done (.dispatched (dispatchFile S c)) := by simp [hph5]
  refine ⟨⟨fs1, ph5⟩, ((((Relation.ReflTransGen.single s1).trans s2).tail s3).tail s4).tail s5, ?_, z5, ⟨dispatchFile S c, o5⟩⟩
  intro w' h
  cases h with
  | check r h => have h : ph5 r = _ := h; rcases hall r with rfl | rfl <;> simp_all
  | write r f c rest h => have h : ph5 r = _ := h; rcases hall r with rfl | rfl <;> simp_all
  | written r h => have h : ph5 r = _ := h; rcases hall r with rfl | rfl <;> simp_all
  | leave h => have h : ph5 other = _ := h other; rw [o5] at h; cases h
  | run r f c h hc => have h : ph5 r = _ := h; rcases hall r with rfl | rfl <;> simp_all

end ranks

/-! ### The program of the repository -/

/-- The drivers of the repository, each with the parameters "basename" and "final time"; every run completes. -/
def shipped (order : List String) : Setup where
  registered := order
  decl := fun _ _ => [(("A - TimeLoop", "basename"), "cylinder"), (("A - TimeLoop", "final time"), "5")]
  completes := fun _ _ p => decide (value p ("A - TimeLoop", "final time") = some "5")

theorem shipped_byName (order : List String) : (shipped order).ByName := by
  intro k d p p' h
  simp only [shipped, h]

theorem drivers_base : (drivers.map baseName).Nodup := by decide +kernel

/-- In every order of registration: the templates of the shipped drivers run the driver they are named after. -/
example (order : List String) (ho : order.Perm drivers) (fs : Files) (name : String) (hn : name ∈ drivers) (d : ℕ) (h1 : 1 ≤ d) (h3 : d ≤ 3) :
    ∃ c k, order[k]? = some name ∧ writeAll fs (templates (shipped order)) (templateName name d false) = some c ∧
      dispatchFile (shipped order) c = .ok [⟨k, d⟩] := by
  have hb : (order.map baseName).Nodup := (ho.map baseName).nodup_iff.2 drivers_base
  obtain ⟨k, hk⟩ := List.mem_iff_getElem?.1 (ho.mem_iff.2 hn)
  obtain ⟨c, hc, hm, -⟩ := (C118_templates (shipped order) (shipped_byName order) hb (fun _ _ => by simp [shipped]) fs).1 k name d hk h1 h3
  refine ⟨c, k, hk, hc, (hm _).2 ((C118_file _ (shipped_byName order) _ _).2 ?_)⟩
  have hcount : order.count name = 1 := List.count_eq_one_of_mem (List.Nodup.of_map _ hb) (ho.mem_iff.2 hn)
  have hidx : order.idxOf name = k := by
    obtain ⟨hlt, he⟩ := List.getElem?_eq_some_iff.1 hk
    rw [← he]
    exact List.Nodup.idxOf_getElem (List.Nodup.of_map _ hb) k hlt
  have m1 : Spec.lastEntry (Spec.minimalFile name d) equationKey = some name := by
    show value [(equationKey, name), (dimensionKey, toString d)] equationKey = _
    rw [value_cons, if_pos rfl]
  have m2 : Spec.lastEntry (Spec.minimalFile name d) dimensionKey = some (toString d) := by
    show value [(equationKey, name), (dimensionKey, toString d)] dimensionKey = _
    rw [value_cons, if_neg (show dimensionKey ≠ equationKey by decide), value_cons, if_pos rfl]
  obtain ⟨prm, hp, -⟩ := first_parse (Spec.minimalFile name d)
  obtain ⟨l1, l2⟩ := loop_parameters (shipped order) k d (Spec.minimalFile name d) prm hp
  have hkeys : ∀ key ∈ (Spec.minimalFile name d).map Prod.fst, key ∈ (dispatchEntries ++ (shipped order).decl k d).map Prod.fst := by
    intro key hkey
    rw [List.map_append, List.mem_append]
    left
    exact hkey
  obtain ⟨p, hpp⟩ := l1.2 hkeys
  refine ⟨d, p, by rw [m2]; exact readInt_toString h1 h3, by exact_mod_cast h1, by exact_mod_cast h3, by rw [m1]; exact hcount, ?_⟩
  rw [m1, Option.getD_some, show (shipped order).registered.idxOf name = k from hidx]
  refine ⟨fun e he => hkeys e.1 (List.mem_map_of_mem he), l2 p hpp, ?_, rfl⟩
  have hv := l2 p hpp ("A - TimeLoop", "final time")
  have e1 : Spec.lastEntry (Spec.minimalFile name d) ("A - TimeLoop", "final time") = none := by
    show value [(equationKey, name), (dimensionKey, toString d)] ("A - TimeLoop", "final time") = _
    rw [value_cons, if_neg (show ("A - TimeLoop", "final time") ≠ equationKey by decide), value_cons,
      if_neg (show ("A - TimeLoop", "final time") ≠ dimensionKey by decide)]
    rfl
  rw [if_pos (by rw [List.map_append, List.mem_append]; right; simp [shipped]), Spec.setting, e1] at hv
  have e2 : Spec.lastEntry (dispatchEntries ++ [(("A - TimeLoop", "basename"), "cylinder"), (("A - TimeLoop", "final time"), "5")])
      ("A - TimeLoop", "final time") = some "5" := by decide +kernel
  have hv : value p ("A - TimeLoop", "final time") = some "5" := hv.trans e2
  simp only [shipped, decide_eq_true_eq]
  exact hv

/-- `mpirun -np 4 ./ryujin` in an empty directory: all ranks end with an error code, and the templates are there. -/
example (order : List String) (ho : order.Perm drivers) (w : World (Fin 4))
    (hw : Reached (shipped order) ["./ryujin"] 0 (fun _ => none) w) (hstop : ∀ w', ¬ Step (shipped order) ["./ryujin"] 0 w w') :
    (∀ r, w.phase r = .done .failed) ∧ w.fs = writeAll (fun _ => none) (templates (shipped order)) := by
  have hreg : (shipped order).registered ≠ [] := by
    intro h
    have : order = [] := h
    rw [this] at ho
    exact absurd ho.symm.eq_nil (by decide)
  have key := (C118_ranks (shipped order) hreg ["./ryujin"] (by simp) (0 : Fin 4) (fun _ => none) fun _ => Or.inl ?_).2.2 w hw hstop
  · simpa [Spec.expected, Spec.leaves] using key
  · have hname : parameterFile ["./ryujin"] = "ryujin.prm" := by decide +kernel
    rw [hname]
    intro hm
    obtain ⟨⟨f, c⟩, hc, hf⟩ := List.mem_map.1 hm
    obtain ⟨j, n', d', b', -, -, -, -, g5, -⟩ := (mem_createFrom _ 0 _ _ _).1 hc
    have hf : f = "ryujin.prm" := hf
    rw [hf] at g5
    have := congrArg String.toList g5
    unfold templateName at this
    simp only [String.toList_append, List.append_assoc] at this
    have e1 : "ryujin.prm".toList = 'r' :: "yujin.prm".toList := by decide +kernel
    have e2 : "default_parameters-".toList = 'd' :: "efault_parameters-".toList := by decide +kernel
    rw [e1, e2, List.cons_append] at this
    exact absurd (List.head_eq_of_cons_eq this) (by decide)

end Program
end Ryujin
