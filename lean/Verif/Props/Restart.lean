import Verif.Props.TimeLoop
import Verif.Props.MultiComponentVector
import Verif.Props.TimeIntegrator

/-!
# C25 – a restart resumes from the state that was saved

`E` relates state vectors that cannot be told apart (equality, or equality on the unconstrained degrees of
freedom).
-/

namespace Ryujin
namespace TimeLoop

variable {S W : Type}

/-- What the restart relies on: the modules cannot tell related state vectors apart, the result of a time step does not
depend on hidden data left behind by earlier steps (C21, C22), and applying the boundary conditions twice at the same
time is the same as applying them once. -/
structure Restartable (E : S → S → Prop) (e : Env S W) : Prop where
  equivalence : Equivalence E
  prep : ∀ t s s', E s s' → E (e.prep t s) (e.prep t s')
  idempotent : ∀ t s, E (e.prep t (e.prep t s)) (e.prep t s)
  adapt : ∀ s s', E s s' → E (e.adapt s) (e.adapt s')
  step : ∀ w w' t l s s', E s s' →
    (e.step w s t l = none ∧ e.step w' s' t l = none) ∨
    ∃ s₁ s₁' tau w₁ w₁', e.step w s t l = some (s₁, tau, w₁) ∧ e.step w' s' t l = some (s₁', tau, w₁') ∧ E s₁ s₁'

/-- The same output of the same state. -/
def EventRel (E : S → S → Prop) : Event S → Event S → Prop
  | .accumulate t s, .accumulate t' s' => t = t' ∧ E s s'
  | .vtu a k t s f l, .vtu a' k' t' s' f' l' => a = a' ∧ k = k' ∧ t = t' ∧ E s s' ∧ f = f' ∧ l = l'
  | .checkpoint k t s, .checkpoint k' t' s' => k = k' ∧ t = t' ∧ E s s'
  | .writeQuantities k t s, .writeQuantities k' t' s' => k = k' ∧ t = t' ∧ E s s'
  | .adapt t, .adapt t' => t = t'
  | _, _ => False

/-- Everything but the accumulation of statistics, which are not part of a checkpoint. -/
def outputs (ev : List (Event S)) : List (Event S) :=
  ev.filter fun x => match x with
    | .accumulate _ _ => false
    | _ => true

/-- The same time, timer cycle, state and, if meshes are adapted, the same outstanding time points. -/
def StateRel (c : Config) (E : S → S → Prop) (σ σ' : State S W) : Prop :=
  σ.t = σ'.t ∧ σ.timer_cycle = σ'.timer_cycle ∧ E σ.state σ'.state ∧ (c.adaptivity = true → σ.adaptor = σ'.adaptor)

/-- Two passes with the same outcome and the same outputs. -/
def IterRel (c : Config) (E : S → S → Prop) : Iter S W → Iter S W → Prop
  | .continue σ ev, .continue σ' ev' => StateRel c E σ σ' ∧ List.Forall₂ (EventRel E) (outputs ev) (outputs ev')
  | .break σ ev, .break σ' ev' => StateRel c E σ σ' ∧ List.Forall₂ (EventRel E) (outputs ev) (outputs ev')
  | .abort, .abort => True
  | _, _ => False

/-- The first part of the loop body. -/
noncomputable def ticked (c : Config) (e : Env S W) (σ : State S W) : Option (S × ℕ × List (Event S)) :=
  if σ.t ≥ σ.timer_cycle * c.granularity then
    (tick c e σ.state σ.t σ.timer_cycle).map fun r => (r.1, σ.timer_cycle + 1, r.2)
  else some (σ.state, σ.timer_cycle, [])

/-- Relation between the results of the first part. -/
def TickRel (E : S → S → Prop) : Option (S × ℕ × List (Event S)) → Option (S × ℕ × List (Event S)) → Prop
  | none, none => True
  | some (s, k, ev), some (s', k', ev') => E s s' ∧ k = k' ∧ List.Forall₂ (EventRel E) (outputs ev) (outputs ev')
  | _, _ => False

theorem outputs_append (a b : List (Event S)) : outputs (a ++ b) = outputs a ++ outputs b := List.filter_append ..

theorem outputs_accumulate (c : Config) (t : ℝ) (s : S) :
    outputs (if c.quantities then [Event.accumulate t s] else []) = [] := by
  split_ifs <;> simp [outputs]

theorem forall₂_append {α : Type} {R : α → α → Prop} {a b a' b' : List α} (h : List.Forall₂ R a a')
    (h' : List.Forall₂ R b b') : List.Forall₂ R (a ++ b) (a' ++ b') := by
  induction h with
  | nil => exact h'
  | cons h _ ih => exact List.Forall₂.cons h ih

theorem iteration_rel {E : S → S → Prop} {c : Config} {e : Env S W} (hE : Restartable E e) {σ σ' : State S W}
    (ht : σ.t = σ'.t) (ha : c.adaptivity = true → σ.adaptor = σ'.adaptor)
    (h : TickRel E (ticked c e σ) (ticked c e σ')) : IterRel c E (iteration c e σ) (iteration c e σ') := by
  have hunf : ∀ σ : State S W, iteration c e σ = match ticked c e σ with
      | none => .abort
      | some (s, k, ev₁) =>
        if σ.t ≥ threshold c then .break ⟨σ.t, k, s, σ.adaptor, σ.hidden⟩
          ((if c.quantities then [Event.accumulate σ.t σ.state] else []) ++ ev₁)
        else
          match e.step σ.hidden (adaptation c e s σ.adaptor σ.t).1 σ.t (if c.enforce then some c.tFinal else none) with
          | none => .abort
          | some (s', tau, w) => .continue ⟨σ.t + tau, k, s', (adaptation c e s σ.adaptor σ.t).2.1, w⟩
            ((if c.quantities then [Event.accumulate σ.t σ.state] else []) ++ ev₁ ++
              (adaptation c e s σ.adaptor σ.t).2.2) := fun σ => rfl
  rw [hunf σ, hunf σ', ← ht]
  revert h
  generalize ticked c e σ = x
  generalize ticked c e σ' = x'
  intro h
  rcases x with _ | ⟨s, k, ev⟩ <;> rcases x' with _ | ⟨s', k', ev'⟩ <;> simp only [TickRel] at h
  · trivial
  · obtain ⟨hs, rfl, hev⟩ := h
    simp only
    by_cases hth : σ.t ≥ threshold c
    · rw [if_pos hth, if_pos hth]
      simp only [IterRel, outputs_append, outputs_accumulate, List.nil_append]
      exact ⟨⟨rfl, rfl, hs, ha⟩, hev⟩
    · rw [if_neg hth, if_neg hth]
      have had : E (adaptation c e s σ.adaptor σ.t).1 (adaptation c e s' σ'.adaptor σ.t).1 ∧
          (c.adaptivity = true → (adaptation c e s σ.adaptor σ.t).2.1 = (adaptation c e s' σ'.adaptor σ.t).2.1) ∧
          List.Forall₂ (EventRel E) (outputs (adaptation c e s σ.adaptor σ.t).2.2)
            (outputs (adaptation c e s' σ'.adaptor σ.t).2.2) := by
        unfold adaptation
        by_cases hA : c.adaptivity = true
        · rw [if_pos hA, if_pos hA, ← ha hA]
          dsimp only
          split_ifs
          · refine ⟨hE.adapt _ _ (hE.prep _ _ _ hs), fun _ => rfl, ?_⟩
            simp [outputs, EventRel]
          · exact ⟨hs, fun _ => rfl, by simp [outputs]⟩
        · rw [if_neg hA, if_neg hA]
          exact ⟨hs, fun h => absurd h hA, by simp [outputs]⟩
      obtain ⟨h1, h2, h3⟩ := had
      rcases hE.step σ.hidden σ'.hidden σ.t (if c.enforce then some c.tFinal else none) _ _ h1 with
        ⟨h4, h5⟩ | ⟨s₁, s₁', tau, w₁, w₁', h4, h5, h6⟩
      · rw [h4, h5]
        trivial
      · rw [h4, h5]
        simp only [IterRel, outputs_append, outputs_accumulate, List.nil_append]
        exact ⟨⟨rfl, rfl, h6, h2⟩, forall₂_append hev h3⟩

theorem output_rel {E : S → S → Prop} {c : Config} {e : Env S W} (hE : Restartable E e) {a : Bool} {s s' : S} (t : ℝ)
    (k : ℕ) (hs : E s s') :
    (output c e a s t k = none ∧ output c e a s' t k = none) ∨
    ∃ u u' ev ev', output c e a s t k = some (u, ev) ∧ output c e a s' t k = some (u', ev') ∧ E u u' ∧
      List.Forall₂ (EventRel E) (outputs ev) (outputs ev') := by
  unfold output
  have hp := hE.prep t _ _ hs
  dsimp only
  split_ifs
  · exact Or.inl ⟨rfl, rfl⟩
  · exact Or.inr ⟨s, s', [], [], rfl, rfl, hs, by simp [outputs]⟩
  · exact Or.inl ⟨rfl, rfl⟩
  all_goals
    refine Or.inr ⟨_, _, _, _, rfl, rfl, hp, ?_⟩
    simp [outputs, EventRel, hp]

/-- The rest of a timer tick without the analytic solution. -/
theorem tick_of_output {c : Config} {e : Env S W} (he : c.error = false) (s : S) (t : ℝ) (k : ℕ) :
    tick c e s t k = match output c e false s t k with
      | none => none
      | some (u, ev) =>
        if c.quantities = true ∧ c.mQuantities = 0 then none
        else some (u, ev ++ if c.quantities = true ∧ k % c.mQuantities = 0 then [Event.writeQuantities k t u] else []) := by
  unfold tick
  cases output c e false s t k with
  | none => rfl
  | some r =>
    obtain ⟨u, ev⟩ := r
    simp only [he, Option.bind_eq_bind, Option.bind_some, Bool.false_eq_true, if_false]
    by_cases hq : c.quantities = true <;> by_cases hm : c.mQuantities = 0 <;> simp [hq, hm]

theorem tickRel_of_output {E : S → S → Prop} {c : Config} {e : Env S W} (he : c.error = false) {s s' : S} {t : ℝ} {k : ℕ}
    {u u' : S} {ev ev' : List (Event S)} (h : output c e false s t k = some (u, ev))
    (h' : output c e false s' t k = some (u', ev')) (hu : E u u')
    (hev : List.Forall₂ (EventRel E) (outputs ev) (outputs ev')) :
    TickRel E ((tick c e s t k).map fun r => (r.1, k + 1, r.2)) ((tick c e s' t k).map fun r => (r.1, k + 1, r.2)) := by
  rw [tick_of_output he, tick_of_output he, h, h']
  dsimp only
  by_cases hq : c.quantities = true ∧ c.mQuantities = 0
  · rw [if_pos hq, if_pos hq]; simp [TickRel]
  · rw [if_neg hq, if_neg hq]
    simp only [Option.map_some, TickRel, outputs_append]
    refine ⟨hu, trivial, forall₂_append hev ?_⟩
    split_ifs
    · simp [outputs, EventRel, hu]
    · simp [outputs]

theorem ticked_rel {E : S → S → Prop} {c : Config} {e : Env S W} (hE : Restartable E e) (he : c.error = false)
    {σ σ' : State S W} (h : StateRel c E σ σ') : TickRel E (ticked c e σ) (ticked c e σ') := by
  obtain ⟨ht, hk, hs, -⟩ := h
  unfold ticked
  rw [← ht, ← hk]
  split_ifs
  · rcases output_rel (c := c) (a := false) hE σ.t σ.timer_cycle hs with ⟨h1, h2⟩ | ⟨u, u', ev, ev', h1, h2, h3, h4⟩
    · rw [tick_of_output he, tick_of_output he, h1, h2]
      simp [TickRel]
    · exact tickRel_of_output he h1 h2 h3 h4
  · exact ⟨hs, rfl, by simp [outputs]⟩

/-- The only checkpoint written in a pass without analytic solution holds the current cycle, time and state. -/
theorem checkpoint_mem {c : Config} {e : Env S W} (he : c.error = false) {σ : State S W} {k : ℕ} {t : ℝ} {u : S}
    (h : Event.checkpoint k t u ∈ (iteration c e σ).events) :
    k = σ.timer_cycle ∧ t = σ.t ∧ u = e.prep t σ.state ∧ σ.timer_cycle * c.granularity ≤ σ.t ∧
      (k % c.mCheckpoint = 0 ∧ c.checkpointing = true) ∧
      ∃ ev, output c e false σ.state σ.t σ.timer_cycle = some (u, ev) := by
  have htick : ∀ {s0 k1 ev}, Ticked c e σ s0 k1 ev → Event.checkpoint k t u ∈ ev →
      k = σ.timer_cycle ∧ t = σ.t ∧ u = e.prep t σ.state ∧ σ.timer_cycle * c.granularity ≤ σ.t ∧
      (k % c.mCheckpoint = 0 ∧ c.checkpointing = true) ∧
      ∃ ev, output c e false σ.state σ.t σ.timer_cycle = some (u, ev) := by
    intro s0 k1 ev ht hm
    rcases ht with ⟨hg, ht, -⟩ | ⟨-, -, rfl, -⟩
    · obtain ⟨e1, e2, e3, h1, h2, h3, -, -, rfl⟩ := tick_events ht
      rw [if_neg (by simp [he])] at h2
      subst h2
      have hm1 : Event.checkpoint k t u ∈ e1 := by
        rcases List.mem_append.1 hm with hm | hm
        · simpa using hm
        · rcases h3 with rfl | rfl <;> simp at hm
      obtain ⟨-, -, -, -, h5, h6⟩ := output_events h1
      rw [h6] at hm1
      rcases List.mem_append.1 hm1 with hm1 | hm1
      · split_ifs at hm1 <;> simp at hm1
      · split_ifs at hm1 with hc
        · simp only [List.mem_singleton, Event.checkpoint.injEq] at hm1
          obtain ⟨rfl, rfl, rfl⟩ := hm1
          refine ⟨rfl, rfl, ?_, hg, hc, e1, h1⟩
          rcases h5 with ⟨-, h5⟩ | ⟨⟨-, -, h5⟩, -⟩
          · exact h5
          · exact absurd hc h5
        · simp at hm1
    · simp at hm
  cases hi : iteration c e σ with
  | «continue» σ' ev =>
    rw [hi] at h
    obtain ⟨s0, ev₁, tau, h1, -, -, -, -, rfl⟩ := iteration_continue hi
    simp only [Iter.events] at h
    rcases List.mem_append.1 h with h | h
    · rcases List.mem_append.1 h with h | h
      · split_ifs at h <;> simp at h
      · exact htick h1 h
    · unfold adaptation at h
      dsimp only at h
      split_ifs at h <;> simp at h
  | «break» σ' ev =>
    rw [hi] at h
    obtain ⟨ev₁, h1, -, -, -, -, rfl⟩ := iteration_break hi
    simp only [Iter.events] at h
    rcases List.mem_append.1 h with h | h
    · split_ifs at h <;> simp at h
    · exact htick h1 h
  | abort => rw [hi] at h; simp [Iter.events] at h

/-- The first pass after a restart. -/
theorem first_pass {E : S → S → Prop} {c : Config} {e : Env S W} (hE : Restartable E e) (he : c.error = false)
    {σ : State S W} {k : ℕ} {t : ℝ} {u u' : S} (h : Event.checkpoint k t u ∈ (iteration c e σ).events) (hu : E u u')
    (points : List ℝ) (w : W)
    (ha : c.adaptivity = true → σ.adaptor = (Adaptor.mk points false).prepare 0) :
    IterRel c E (iteration c e σ) (iteration c e (resumed false k t u' points w)) := by
  obtain ⟨rfl, rfl, hpu, hg, hc, ev, ho⟩ := checkpoint_mem he h
  apply iteration_rel hE
  · simp [resumed]
  · simpa [resumed] using ha
  · unfold ticked
    simp only [resumed, Bool.false_eq_true, if_false]
    rw [if_pos hg, if_pos hg]
    have hE' : E u (e.prep σ.t u') := by
      have h1 := hE.prep σ.t _ _ hu
      have h2 := hE.idempotent σ.t σ.state
      rw [← hpu] at h2
      exact hE.equivalence.trans (hE.equivalence.symm h2) h1
    obtain ⟨h1, h2, h3, h4, h5, h6⟩ := output_events ho
    have ho' : ∃ ev', output c e false u' σ.t σ.timer_cycle = some (e.prep σ.t u', ev') := by
      obtain ⟨r, hr⟩ : ∃ r, output c e false u' σ.t σ.timer_cycle = some r := by
        rcases hcase : output c e false u' σ.t σ.timer_cycle with _ | r
        · unfold output at hcase
          rw [if_neg (by tauto)] at hcase
          simp [hc.1, hc.2, h4 hc] at hcase
        · exact ⟨r, rfl⟩
      obtain ⟨s1, ev1⟩ := r
      rcases (output_events hr).2.2.2.2.1 with ⟨-, h7⟩ | ⟨⟨-, -, h7⟩, -⟩
      · exact ⟨ev1, by rw [hr, h7]⟩
      · exact absurd hc h7
    obtain ⟨ev', ho'⟩ := ho'
    refine tickRel_of_output he ho ho' hE' ?_
    rw [h6, (output_events ho').2.2.2.2.2, outputs_append, outputs_append]
    apply forall₂_append <;> split_ifs <;> simp [outputs, EventRel, hE']

/-- **C25.** Let pass `σ` of a run write the checkpoint `(k, t, u)`, and let a run resume from it (with an
indistinguishable state `u'`).  Then for every continuation of the original run there is a run of the resumed program
with the same times, the same timer cycles and the same outputs of indistinguishable states, starting with the
output number `k` which it repeats.  Missing in general: configurations that compute errors
(`C25_analytic_checkpoint_violation`) and runs in which a mesh adaptation has already taken place
(`C25_adaptation_repeated_violation`). -/
theorem C25_resume_partial {E : S → S → Prop} (c : Config) (e : Env S W) (hE : Restartable E e) (he : c.error = false)
    (st : ℕ → State S W) (N : ℕ) (hr : IsRun c e st N) {k : ℕ} {t : ℝ} {u u' : S}
    (h : Event.checkpoint k t u ∈ (iteration c e (st 0)).events) (hu : E u u') (points : List ℝ) (w : W)
    (ha : c.adaptivity = true → (st 0).adaptor = (Adaptor.mk points false).prepare 0) :
    ∃ st', st' 0 = resumed false k t u' points w ∧ IsRun c e st' N ∧
      (∀ i ≤ N, (st i).t = (st' i).t ∧ (st i).timer_cycle = (st' i).timer_cycle) ∧
      (∀ i, 0 < i → i ≤ N → E (st i).state (st' i).state) ∧
      ∀ i ≤ N, List.Forall₂ (EventRel E) (outputs (iteration c e (st i)).events)
        (outputs (iteration c e (st' i)).events) := by
  have hev : ∀ {a b : Iter S W}, IterRel c E a b → List.Forall₂ (EventRel E) (outputs a.events) (outputs b.events) := by
    intro a b h
    cases a <;> cases b <;> simp only [IterRel] at h <;> simp only [Iter.events]
    · exact h.2
    · exact h.2
    · simp [outputs]
  have hcont : ∀ {a b : Iter S W} {σ : State S W} {ev : List (Event S)}, IterRel c E a b → a = .continue σ ev →
      ∃ σ' ev', b = .continue σ' ev' ∧ StateRel c E σ σ' := by
    intro a b σ ev h ha
    subst ha
    cases b with
    | «continue» σ' ev' => exact ⟨σ', ev', rfl, h.1⟩
    | «break» => simp [IterRel] at h
    | abort => simp [IterRel] at h
  have h0 := first_pass hE he h hu points w ha
  have hcp := checkpoint_mem he h
  set σ' := resumed false k t u' points w with hσ'
  have ht0 : (st 0).t = σ'.t ∧ (st 0).timer_cycle = σ'.timer_cycle := by
    simp [hσ', resumed, hcp.1, hcp.2.1]
  have key : ∀ n ≤ N, ∃ st', st' 0 = σ' ∧ IsRun c e st' n ∧
      (∀ i ≤ n, (st i).t = (st' i).t ∧ (st i).timer_cycle = (st' i).timer_cycle) ∧
      (∀ i, 0 < i → i ≤ n → E (st i).state (st' i).state) ∧
      ∀ i ≤ n, IterRel c E (iteration c e (st i)) (iteration c e (st' i)) := by
    intro n
    induction n with
    | zero =>
      intro _
      refine ⟨fun _ => σ', rfl, fun i hi => absurd hi (by omega), ?_, fun i h1 h2 => absurd h1 (by omega), ?_⟩
      · intro i hi
        have : i = 0 := by omega
        subst this
        exact ht0
      · intro i hi
        have : i = 0 := by omega
        subst this
        exact h0
    | succ n ih =>
      intro hn
      obtain ⟨st', h1, h2, h3, h4, h5⟩ := ih (by omega)
      obtain ⟨ev, hi⟩ := hr n (by omega)
      obtain ⟨σ₁, ev', hi', hrel⟩ := hcont (h5 n (le_refl n)) hi
      refine ⟨fun i => if i ≤ n then st' i else σ₁, by simp [h1], ?_, ?_, ?_, ?_⟩
      · intro i hin
        by_cases hin' : i < n
        · obtain ⟨ev2, h6⟩ := h2 i hin'
          refine ⟨ev2, ?_⟩
          dsimp only
          rw [if_pos (by omega), if_pos (by omega)]; exact h6
        · have : i = n := by omega
          subst this
          refine ⟨ev', ?_⟩
          dsimp only
          rw [if_pos (le_refl i), if_neg (by omega)]; exact hi'
      · intro i hin
        by_cases hin' : i ≤ n
        · simp only [if_pos hin']; exact h3 i hin'
        · have : i = n + 1 := by omega
          subst this
          simp only [if_neg hin']
          exact ⟨hrel.1, hrel.2.1⟩
      · intro i hi0 hin
        by_cases hin' : i ≤ n
        · simp only [if_pos hin']; exact h4 i hi0 hin'
        · have : i = n + 1 := by omega
          subst this
          simp only [if_neg hin']
          exact hrel.2.2.1
      · intro i hin
        by_cases hin' : i ≤ n
        · simp only [if_pos hin']; exact h5 i hin'
        · have : i = n + 1 := by omega
          subst this
          simp only [if_neg hin']
          exact iteration_rel hE hrel.1 hrel.2.2.2 (ticked_rel hE he hrel)
  obtain ⟨st', h1, h2, h3, h4, h5⟩ := key N (le_refl N)
  exact ⟨st', h1, h2, h3, h4, fun i hi => hev (h5 i hi)⟩

/-- **C25 (state vector).** Loading the components saved from a state vector reproduces all locally owned values, for
any number of components and degrees of freedom.  (Ghost values are recomputed by `update_ghost_values`.) -/
theorem C25_state_vector {α : Type} (n n_owned : ℕ) (zero : α) (U : ℕ → α) :
    ∀ i < n_owned, ∀ d < n, Multi.get n (loadComponents n n_owned zero (saveComponents n n_owned zero U)) i d
      = Multi.get n U i d := by
  have key : ∀ m ≤ n, ∀ V : ℕ → α,
      (((List.range m).map fun d => Multi.extractComponent n n_owned U d (fun _ => zero)).foldl
        (fun (p : (ℕ → α) × ℕ) it => (Multi.insertComponent n n_owned it p.2 p.1, p.2 + 1)) (V, 0)).2 = m ∧
      ∀ i < n_owned, ∀ d < m, Multi.get n
        (((List.range m).map fun d => Multi.extractComponent n n_owned U d (fun _ => zero)).foldl
        (fun (p : (ℕ → α) × ℕ) it => (Multi.insertComponent n n_owned it p.2 p.1, p.2 + 1)) (V, 0)).1 i d
        = Multi.get n U i d := by
    intro m
    induction m with
    | zero => intro _ V; simp
    | succ m ih =>
      intro hm V
      obtain ⟨h1, h2⟩ := ih (by omega) V
      rw [List.range_succ, List.map_append, List.foldl_append]
      simp only [List.map_cons, List.map_nil, List.foldl_cons, List.foldl_nil]
      rw [h1]
      refine ⟨rfl, ?_⟩
      intro i hi d hd
      rw [Multi.C27_insert n_owned _ (show m < n by omega) _ i d (by omega)]
      by_cases hdm : d = m
      · rw [if_pos ⟨hi, hdm⟩, Multi.C27_extract, if_pos hi, hdm]
      · rw [if_neg (fun h => hdm h.2)]
        exact h2 i hi d (by omega)
  intro i hi d hd
  exact (key n (le_refl n) (fun _ => zero)).2 i hi d hd

/-- The checkpoint found on disk: the last one written. -/
def lastCheckpoint (ev : List (Event S)) : Option (ℕ × ℝ × S) :=
  ev.foldl (fun r x => match x with
    | .checkpoint k t s => some (k, t, s)
    | _ => r) none

/-- **C25 (violated if errors are computed).** With "enable compute error" every timer tick writes two checkpoints to
the same files, first that of the solution, then that of the *analytic* solution.  So a restart continues from the
analytic solution: the state is lost. -/
theorem C25_analytic_checkpoint_violation (c : Config) (e : Env S W) (s : S) (t : ℝ) (k : ℕ)
    (he : c.error = true) (hc : c.checkpointing = true) (hk : k % c.mCheckpoint = 0) {s' : S} {ev : List (Event S)}
    (h : tick c e s t k = some (s', ev)) :
    lastCheckpoint ev = some (k, t, e.prep t (e.analytic (e.prep t s) t)) := by
  obtain ⟨e1, e2, e3, h1, h2, h3, -, -, rfl⟩ := tick_events h
  rw [if_pos he] at h2
  obtain ⟨a', h2⟩ := h2
  have hs' : s' = e.prep t s := by
    rcases (output_events h1).2.2.2.2.1 with ⟨-, h4⟩ | ⟨⟨-, -, h4⟩, -⟩
    · exact h4
    · exact absurd ⟨hk, hc⟩ h4
  have ha' : a' = e.prep t (e.analytic s' t) := by
    rcases (output_events h2).2.2.2.2.1 with ⟨-, h4⟩ | ⟨⟨-, -, h4⟩, -⟩
    · exact h4
    · exact absurd ⟨hk, hc⟩ h4
  have h5 := (output_events h2).2.2.2.2.2
  rw [if_pos (show k % c.mCheckpoint = 0 ∧ c.checkpointing = true from ⟨hk, hc⟩)] at h5
  rw [h5]
  unfold lastCheckpoint
  rw [List.foldl_append, List.foldl_append, List.foldl_append]
  rcases h3 with rfl | rfl <;> simp [ha', hs']

/-- With the time integrator as the module that performs the steps. `W` holds the temporary vectors, the settings of
the modules and the number of calls.  (time_loop.template.h:365-369) -/
noncomputable def integratorEnv {X P : Type} [AddCommGroup X] [Module ℝ X] (Mo : Integrator.Modules X P)
    (sch : Integrator.Scheme) (rec : Integrator.Recovery) (cflMin cflMax big : ℝ) (adapt : X → X) (analytic : X → ℝ → X) :
    Env X (Integrator.Mem X P × Integrator.Ctx × ℕ) where
  prep := Mo.bc
  step := fun w u t l =>
    match Integrator.step Mo (Integrator.program sch) rec cflMin cflMax w.2.1 t (l.getD big)
        (Integrator.setU w.1 .old u) w.2.2 with
    | (.returned m tau n, ctx) => some ((m .old).U, tau, (m, ctx, n))
    | _ => none
  adapt := adapt
  analytic := analytic

/-- **C24 (no overshoot of the time integrator).** Time loop, time integrator and hyperbolic module together: with an
enforced final time no run of any scheme on any mesh passes the final time. -/
theorem C24_integrator_no_overshoot {X P : Type} [AddCommGroup X] [Module ℝ X] (Mo : Integrator.Modules X P)
    (hcap : ∀ ctx n src dst c u τ, Mo.hyp ctx n src [] dst 0 (some c) = .ok u τ → τ ≤ c)
    (sch : Integrator.Scheme) (rec : Integrator.Recovery) (cflMin cflMax big : ℝ) (adapt : X → X)
    (analytic : X → ℝ → X) (c : Config) (st : ℕ → State X (Integrator.Mem X P × Integrator.Ctx × ℕ)) (N : ℕ)
    (hr : IsRun c (integratorEnv Mo sch rec cflMin cflMax big adapt analytic) st N)
    (he : c.enforce = true) (h0 : (st 0).t ≤ c.tFinal) : ∀ i ≤ N, (st i).t ≤ c.tFinal := by
  refine C24_no_overshoot c _ st N hr he h0 ?_
  intro w s t T s' tau w' h
  simp only [integratorEnv, Option.getD_some] at h
  split at h
  · rename_i m tau' n ctx hs
    simp only [Option.some.injEq, Prod.mk.injEq] at h
    rw [← h.2.1]
    exact Integrator.C20_no_overshoot Mo hcap sch rec cflMin cflMax _ t T _ _ hs
  · simp at h

section
open Integrator

variable {X P : Type} [AddCommGroup X] [Module ℝ X]

/-- The modules do not count their calls. -/
structure Memoryless (Mo : Modules X P) : Prop where
  hyp : ∀ ctx n n', Mo.hyp ctx n = Mo.hyp ctx n'
  par : ∀ ctx n n', Mo.par ctx n = Mo.par ctx n'

theorem run_calls {Mo : Modules X P} (hM : Memoryless Mo) (ctx : Ctx) (t tau_max : ℝ) (code : List Instr)
    {s s' : Conf X P} (hm : s.mem = s'.mem) (ht : s.tau = s'.tau) :
    (∃ s₁ s₁', Integrator.run Mo ctx t tau_max code s = .done s₁ ∧ Integrator.run Mo ctx t tau_max code s' = .done s₁' ∧
      s₁.mem = s₁'.mem ∧ s₁.tau = s₁'.tau) ∨
    (∃ s₁ s₁', Integrator.run Mo ctx t tau_max code s = .restart s₁ ∧
      Integrator.run Mo ctx t tau_max code s' = .restart s₁' ∧ s₁.mem = s₁'.mem) ∨
    (Integrator.run Mo ctx t tau_max code s = .crash ∧ Integrator.run Mo ctx t tau_max code s' = .crash) := by
  induction code generalizing s s' with
  | nil => exact Or.inl ⟨s, s', rfl, rfl, hm, ht⟩
  | cons i is ih =>
    obtain ⟨mem, tau, n⟩ := s
    obtain ⟨mem', tau', n'⟩ := s'
    simp only at hm ht
    subst hm ht
    have hfin : ∀ d b r,
        (∃ s₁ s₁', (match finish ⟨mem, tau, n⟩ d b r with
            | .done s' => Integrator.run Mo ctx t tau_max is s' | .restart s' => .restart s' | .crash => .crash) = Out.done s₁ ∧
          (match finish ⟨mem, tau, n'⟩ d b r with
            | .done s' => Integrator.run Mo ctx t tau_max is s' | .restart s' => .restart s' | .crash => .crash) = Out.done s₁' ∧
          s₁.mem = s₁'.mem ∧ s₁.tau = s₁'.tau) ∨
        (∃ s₁ s₁', (match finish ⟨mem, tau, n⟩ d b r with
            | .done s' => Integrator.run Mo ctx t tau_max is s' | .restart s' => .restart s' | .crash => .crash) = Out.restart s₁ ∧
          (match finish ⟨mem, tau, n'⟩ d b r with
            | .done s' => Integrator.run Mo ctx t tau_max is s' | .restart s' => .restart s' | .crash => .crash) = Out.restart s₁' ∧
          s₁.mem = s₁'.mem) ∨
        ((match finish ⟨mem, tau, n⟩ d b r with
            | .done s' => Integrator.run Mo ctx t tau_max is s' | .restart s' => .restart s' | .crash => .crash) = Out.crash ∧
          (match finish ⟨mem, tau, n'⟩ d b r with
            | .done s' => Integrator.run Mo ctx t tau_max is s' | .restart s' => .restart s' | .crash => .crash)
            = (Out.crash : Out X P)) := by
      intro d b r
      cases r with
      | ok u τ => exact ih rfl rfl
      | restart g => exact Or.inr (Or.inl ⟨_, _, rfl, rfl, rfl⟩)
      | crash => exact Or.inr (Or.inr ⟨rfl, rfl⟩)
    simp only [Integrator.run]
    cases i with
    | prepare v c => exact ih rfl rfl
    | first src d div =>
      simp only [exec]
      rw [hM.hyp ctx n n']
      exact hfin _ _ _
    | hyp src st d =>
      simp only [exec]
      rw [hM.hyp ctx n n']
      exact hfin _ _ _
    | par src c st d f =>
      simp only [exec]
      rw [hM.par ctx n n']
      split_ifs
      · exact Or.inr (Or.inr ⟨rfl, rfl⟩)
      · exact hfin _ _ _
    | sadd d a b src => exact ih rfl rfl

/-- Attempts from related vectors, with arbitrary temporary vectors and call numbers. -/
theorem singleStep_rel {E : X → X → Prop} {Mo : Modules X P} (hE : Respects E Mo) (hM : Memoryless Mo) (sch : Scheme)
    (ctx : Ctx) (t tau_max : ℝ) (m m' : Mem X P) (n n' : ℕ) (h : E (Mo.bc t (m .old).U) (Mo.bc t (m' .old).U)) :
    (∃ m₁ m₁' tau k k', singleStep Mo (program sch) ctx t tau_max m n = .returned m₁ tau k ∧
      singleStep Mo (program sch) ctx t tau_max m' n' = .returned m₁' tau k' ∧ E (m₁ .old).U (m₁' .old).U) ∨
    (∃ m₁ m₁' k k', singleStep Mo (program sch) ctx t tau_max m n = .restart m₁ k ∧
      singleStep Mo (program sch) ctx t tau_max m' n' = .restart m₁' k') ∨
    (singleStep Mo (program sch) ctx t tau_max m n = .crash ∧
      singleStep Mo (program sch) ctx t tau_max m' n' = .crash) := by
  have h1 := singleStep_agree hE sch ctx t tau_max m m' n h
  have h2 : (∃ m₁ tau k k', singleStep Mo (program sch) ctx t tau_max m' n = .returned m₁ tau k ∧
      singleStep Mo (program sch) ctx t tau_max m' n' = .returned m₁ tau k') ∨
    (∃ m₁ m₁' k k', singleStep Mo (program sch) ctx t tau_max m' n = .restart m₁ k ∧
      singleStep Mo (program sch) ctx t tau_max m' n' = .restart m₁' k') ∨
    (singleStep Mo (program sch) ctx t tau_max m' n = .crash ∧
      singleStep Mo (program sch) ctx t tau_max m' n' = .crash) := by
    unfold singleStep
    rcases run_calls hM ctx t tau_max (program sch).code (s := ⟨m', 0, n⟩) (s' := ⟨m', 0, n'⟩) rfl rfl with
      ⟨s₁, s₁', e, e', hm, ht⟩ | ⟨s₁, s₁', e, e', hm⟩ | ⟨e, e'⟩ <;> rw [e, e']
    · exact Or.inl ⟨_, _, _, _, rfl, by rw [hm, ht]⟩
    · exact Or.inr (Or.inl ⟨_, _, _, _, rfl, rfl⟩)
    · exact Or.inr (Or.inr ⟨rfl, rfl⟩)
  revert h1
  rcases h2 with ⟨m₁, tau, k, k', e, e'⟩ | ⟨m₁, m₁', k, k', e, e'⟩ | ⟨e, e'⟩ <;> rw [e, e']
  · cases hs : singleStep Mo (program sch) ctx t tau_max m n with
    | returned a b c =>
      intro h1
      simp only [ResultRel] at h1
      obtain ⟨h3, rfl, h4⟩ := h1
      exact Or.inl ⟨_, _, _, _, _, rfl, rfl, h3⟩
    | restart => intro h1; simp [ResultRel] at h1
    | crash => intro h1; simp [ResultRel] at h1
  · cases hs : singleStep Mo (program sch) ctx t tau_max m n with
    | returned a b c => intro h1; simp [ResultRel] at h1
    | restart => intro _; exact Or.inr (Or.inl ⟨_, _, _, _, rfl, rfl⟩)
    | crash => intro h1; simp [ResultRel] at h1
  · cases hs : singleStep Mo (program sch) ctx t tau_max m n with
    | returned a b c => intro h1; simp [ResultRel] at h1
    | restart => intro h1; simp [ResultRel] at h1
    | crash => intro _; exact Or.inr (Or.inr ⟨rfl, rfl⟩)

/-- **C25 (hidden data).** The premise of `C25_resume_partial` holds for the time integrator with CFL recovery: what is
not part of a checkpoint, that is temporary vectors, CFL number, violation strategies and call counts, has no influence
on the time steps of the resumed run. -/
theorem C25_integrator_restartable {E : X → X → Prop} (hEq : Equivalence E) (Mo : Modules X P) (hE : Respects E Mo)
    (hM : Memoryless Mo) (hbc : ∀ t u, E (Mo.bc t (Mo.bc t u)) (Mo.bc t u)) (sch : Scheme) (cflMin cflMax big : ℝ)
    (adapt : X → X) (hadapt : ∀ u u', E u u' → E (adapt u) (adapt u')) (analytic : X → ℝ → X) :
    Restartable E (integratorEnv Mo sch .bang_bang_control cflMin cflMax big adapt analytic) where
  equivalence := hEq
  prep := hE.bc
  idempotent := hbc
  adapt := hadapt
  step := by
    intro w w' t l u u' hu
    simp only [integratorEnv, Integrator.step]
    have hold : ∀ (m : Mem X P) (v : X), (setU m .old v .old).U = v := fun m v => by simp [setU]
    rcases singleStep_rel hE hM sch ⟨cflMax, .raise_exception, .raise_exception⟩ t (l.getD big - t) (setU w.1 .old u)
      (setU w'.1 .old u') w.2.2 w'.2.2 (by rw [hold, hold]; exact hE.bc t _ _ hu) with
      ⟨m₁, m₁', tau, k, k', e, e', h⟩ | ⟨m₁, m₁', k, k', e, e'⟩ | ⟨e, e'⟩ <;> rw [e, e']
    · exact Or.inr ⟨_, _, _, _, _, rfl, rfl, h⟩
    · simp only
      have h1 := singleStep_restart_old sch e
      have h2 := singleStep_restart_old sch e'
      rw [hold] at h1 h2
      rcases singleStep_rel hE hM sch ⟨cflMin, .warn, .warn⟩ t (l.getD big - t) m₁ m₁' k k'
        (by rw [h1, h2]; exact hE.bc t _ _ (hE.bc t _ _ hu)) with
        ⟨m₂, m₂', tau, j, j', e, e', h⟩ | ⟨m₂, m₂', j, j', e, e'⟩ | ⟨e, e'⟩ <;> rw [e, e']
      · exact Or.inr ⟨_, _, _, _, _, rfl, rfl, h⟩
      · exact Or.inl ⟨rfl, rfl⟩
      · exact Or.inl ⟨rfl, rfl⟩
    · exact Or.inl ⟨rfl, rfl⟩

/-- The example modules of the time integrator satisfy the hypotheses. -/
example : Memoryless decay ∧ ∀ t u, decay.bc t (decay.bc t u) = decay.bc t u :=
  ⟨⟨fun _ _ _ => rfl, fun _ _ _ => rfl⟩, fun _ _ => rfl⟩

end

/-! ### A concrete restart -/

/-- The restart hypotheses hold for the example of `Props/TimeLoop.lean` without adaptivity. -/
theorem demo_restartable : Restartable Eq demoEnv where
  equivalence := eq_equivalence
  prep := fun _ _ _ h => h
  idempotent := fun _ _ => rfl
  adapt := fun _ _ h => h
  step := fun w w' t l s s' h => Or.inr ⟨s + 1, s' + 1, 1 / 4, w, w', rfl, rfl, by rw [h]⟩

/-- The checkpoint written in pass 2 of the example holds cycle 1, time 1/2 and the state 2. -/
example : Event.checkpoint 1 (1 / 2) 2 ∈ (iteration demoConfig demoEnv (demoState 2)).events := by
  norm_num [iteration, demoConfig, demoState, demoEnv, tick, output, threshold, adaptation, Adaptor.analyze,
    Adaptor.prepare, Iter.events]

/-- Nothing has been adapted before pass 2, so the theorem applies. -/
example : (demoState 2).adaptor = (Adaptor.mk [3 / 8] false).prepare 0 := by
  simp [demoState, Adaptor.prepare]
  norm_num

end TimeLoop
end Ryujin
