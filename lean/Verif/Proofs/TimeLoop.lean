import Verif.Model.TimeLoop
import Mathlib.Tactic.Linarith
import Mathlib.Data.List.Forall2

/-! Helper lemmas about the time loop model. -/

namespace Ryujin
namespace TimeLoop

variable {S W : Type}

/-- The effects of a pass through the loop body. -/
def Iter.events : Iter S W → List (Event S)
  | .continue _ ev => ev
  | .break _ ev => ev
  | .abort => []

/-- `st 0, …, st N` are the states at the beginning of consecutive passes through the loop body. -/
def IsRun (c : Config) (e : Env S W) (st : ℕ → State S W) (N : ℕ) : Prop :=
  ∀ i < N, ∃ ev, iteration c e (st i) = .continue (st (i + 1)) ev

theorem IsRun.mono {c : Config} {e : Env S W} {st : ℕ → State S W} {N M : ℕ} (h : IsRun c e st N) (hM : M ≤ N) :
    IsRun c e st M := fun i hi => h i (lt_of_lt_of_le hi hM)

/-- Is this a graphical output under the given name? -/
def Event.isVtu (analytic : Bool) : Event S → Bool
  | .vtu a _ _ _ _ _ => a == analytic
  | _ => false

/-- The effects of `output`. -/
theorem output_events {c : Config} {e : Env S W} {a : Bool} {s s' : S} {t : ℝ} {k : ℕ} {ev : List (Event S)}
    (h : output c e a s t k = some (s', ev)) :
    c.mFull ≠ 0 ∧ c.mLevelsets ≠ 0 ∧ c.mCheckpoint ≠ 0 ∧
    ((k % c.mCheckpoint = 0 ∧ c.checkpointing = true) → c.distributed = true) ∧
    ((((k % c.mFull = 0 ∧ c.full = true) ∨ (k % c.mLevelsets = 0 ∧ c.levelsets = true) ∨
      (k % c.mCheckpoint = 0 ∧ c.checkpointing = true)) ∧ s' = e.prep t s) ∨
      ((¬ (k % c.mFull = 0 ∧ c.full = true) ∧ ¬ (k % c.mLevelsets = 0 ∧ c.levelsets = true) ∧
      ¬ (k % c.mCheckpoint = 0 ∧ c.checkpointing = true)) ∧ s' = s)) ∧
    ev = (if (k % c.mFull = 0 ∧ c.full = true) ∨ (k % c.mLevelsets = 0 ∧ c.levelsets = true) then
        [Event.vtu a k t s' (decide (k % c.mFull = 0) && c.full) (decide (k % c.mLevelsets = 0) && c.levelsets)]
        else []) ++
      (if k % c.mCheckpoint = 0 ∧ c.checkpointing = true then [Event.checkpoint k t s'] else []) := by
  unfold output at h
  by_cases h0 : c.mFull = 0 ∨ c.mLevelsets = 0 ∨ c.mCheckpoint = 0
  · rw [if_pos h0] at h; simp at h
  · rw [if_neg h0] at h
    push Not at h0
    refine ⟨h0.1, h0.2.1, h0.2.2, ?_⟩
    by_cases h1 : k % c.mFull = 0 <;> by_cases h2 : k % c.mLevelsets = 0 <;> by_cases h3 : k % c.mCheckpoint = 0 <;>
      cases h4 : c.full <;> cases h5 : c.levelsets <;> cases h6 : c.checkpointing <;> cases h7 : c.distributed <;>
      simp [h1, h2, h3, h4, h5, h6, h7] at h ⊢ <;>
      first
        | exact ⟨h.1.symm, by rw [← h.2, h.1]⟩
        | exact ⟨h.1.symm, h.2.symm⟩
        | exact ⟨h.1.symm, h.2⟩

theorem output_isSome {c : Config} (e : Env S W) (a : Bool) (s : S) (t : ℝ) (k : ℕ)
    (h : c.mFull ≠ 0 ∧ c.mLevelsets ≠ 0 ∧ c.mCheckpoint ≠ 0) (hd : c.checkpointing = true → c.distributed = true) :
    ∃ r, output c e a s t k = some r := by
  unfold output
  rw [if_neg (by tauto)]
  dsimp only
  split_ifs with h1 h2
  · exact ⟨_, rfl⟩
  · simp only [Bool.and_eq_true, Bool.not_eq_true'] at h2
    rw [hd h2.1.2] at h2
    simp at h2
  all_goals exact ⟨_, rfl⟩

/-- The effects of a timer tick. -/
theorem tick_events {c : Config} {e : Env S W} {s s' : S} {t : ℝ} {k : ℕ} {ev : List (Event S)}
    (h : tick c e s t k = some (s', ev)) :
    ∃ ev₁ ev₂ ev₃, output c e false s t k = some (s', ev₁) ∧
      (if c.error then ∃ a', output c e true (e.analytic s' t) t k = some (a', ev₂) else ev₂ = []) ∧
      (ev₃ = [] ∨ ev₃ = [Event.writeQuantities k t s']) ∧
      (ev₃ = if c.quantities = true ∧ k % c.mQuantities = 0 then [Event.writeQuantities k t s'] else []) ∧
      (c.quantities = true → c.mQuantities ≠ 0) ∧
      ev = ev₁ ++ ev₂ ++ ev₃ := by
  unfold tick at h
  cases ho : output c e false s t k with
  | none => simp [ho] at h
  | some r =>
    obtain ⟨s1, ev₁⟩ := r
    simp only [ho, Option.bind_eq_bind, Option.bind_some] at h
    have key : ∀ ev₂, (if c.quantities = true then
        if c.mQuantities = 0 then none else
          some (if k % c.mQuantities = 0 then [Event.writeQuantities k t s1] else [])
        else some []).bind (fun ev₃ => some (s1, ev₁ ++ ev₂ ++ ev₃)) = some (s', ev) →
        s1 = s' ∧ ∃ ev₃, (ev₃ = [] ∨ ev₃ = [Event.writeQuantities k t s']) ∧
          (ev₃ = if c.quantities = true ∧ k % c.mQuantities = 0 then [Event.writeQuantities k t s'] else []) ∧
          (c.quantities = true → c.mQuantities ≠ 0) ∧ ev = ev₁ ++ ev₂ ++ ev₃ := by
      intro ev₂ h
      by_cases hq : c.quantities = true
      · by_cases hm : c.mQuantities = 0
        · simp [hq, hm] at h
        · by_cases hk : k % c.mQuantities = 0
          · simp only [hq, hm, hk, if_true, if_false, Option.bind_some, Option.some.injEq, Prod.mk.injEq] at h
            refine ⟨h.1, [Event.writeQuantities k t s1], Or.inr (by rw [h.1]), ?_, fun _ => hm, h.2.symm⟩
            rw [if_pos ⟨hq, hk⟩, h.1]
          · simp only [hq, hm, hk, if_true, if_false, Option.bind_some, Option.some.injEq, Prod.mk.injEq] at h
            refine ⟨h.1, [], Or.inl rfl, ?_, fun _ => hm, h.2.symm⟩
            rw [if_neg (fun h => hk h.2)]
      · simp only [hq, Bool.false_eq_true, if_false, Option.bind_some, Option.some.injEq, Prod.mk.injEq] at h
        refine ⟨h.1, [], Or.inl rfl, ?_, fun h => absurd h hq, h.2.symm⟩
        rw [if_neg (fun h => hq h.1)]
    by_cases he : c.error = true
    · simp only [he, if_true] at h
      cases ho2 : output c e true (e.analytic s1 t) t k with
      | none => simp [ho2] at h
      | some r2 =>
        simp only [ho2, Option.map_some, Option.bind_some] at h
        obtain ⟨rfl, ev₃, h3, h3', h3'', h4⟩ := key r2.2 (by rw [← h]; split_ifs <;> rfl)
        refine ⟨ev₁, r2.2, ev₃, rfl, ?_, h3, h3', h3'', h4⟩
        rw [if_pos he]
        exact ⟨r2.1, ho2⟩
    · simp only [he, Bool.false_eq_true, if_false] at h
      obtain ⟨rfl, ev₃, h3, h3', h3'', h4⟩ := key [] (by rw [← h]; split_ifs <;> rfl)
      refine ⟨ev₁, [], ev₃, rfl, ?_, h3, h3', h3'', h4⟩
      rw [if_neg he]

/-- What happens at the beginning of a pass: either nothing or a timer tick. -/
def Ticked (c : Config) (e : Env S W) (σ : State S W) (s : S) (k : ℕ) (ev : List (Event S)) : Prop :=
  (σ.timer_cycle * c.granularity ≤ σ.t ∧ tick c e σ.state σ.t σ.timer_cycle = some (s, ev) ∧ k = σ.timer_cycle + 1) ∨
  (σ.t < σ.timer_cycle * c.granularity ∧ s = σ.state ∧ ev = [] ∧ k = σ.timer_cycle)

theorem iteration_continue {c : Config} {e : Env S W} {σ σ' : State S W} {ev : List (Event S)}
    (h : iteration c e σ = .continue σ' ev) :
    ∃ s ev₁ tau, Ticked c e σ s σ'.timer_cycle ev₁ ∧ σ.t < threshold c ∧
      e.step σ.hidden (adaptation c e s σ.adaptor σ.t).1 σ.t (if c.enforce then some c.tFinal else none)
        = some (σ'.state, tau, σ'.hidden) ∧
      σ'.t = σ.t + tau ∧ σ'.adaptor = (adaptation c e s σ.adaptor σ.t).2.1 ∧
      ev = (if c.quantities then [Event.accumulate σ.t σ.state] else []) ++ ev₁ ++
        (adaptation c e s σ.adaptor σ.t).2.2 := by
  unfold iteration at h
  dsimp only at h
  have key : ∀ s k ev₁, (if σ.t ≥ threshold c then
      Iter.break ⟨σ.t, k, s, σ.adaptor, σ.hidden⟩
        ((if c.quantities then [Event.accumulate σ.t σ.state] else []) ++ ev₁)
      else match e.step σ.hidden (adaptation c e s σ.adaptor σ.t).1 σ.t (if c.enforce then some c.tFinal else none) with
      | none => .abort
      | some (s', tau, w) => .continue ⟨σ.t + tau, k, s', (adaptation c e s σ.adaptor σ.t).2.1, w⟩
        ((if c.quantities then [Event.accumulate σ.t σ.state] else []) ++ ev₁ ++ (adaptation c e s σ.adaptor σ.t).2.2))
      = Iter.continue σ' ev → ∃ tau, σ.t < threshold c ∧ σ'.timer_cycle = k ∧
        e.step σ.hidden (adaptation c e s σ.adaptor σ.t).1 σ.t (if c.enforce then some c.tFinal else none)
        = some (σ'.state, tau, σ'.hidden) ∧
      σ'.t = σ.t + tau ∧ σ'.adaptor = (adaptation c e s σ.adaptor σ.t).2.1 ∧
      ev = (if c.quantities then [Event.accumulate σ.t σ.state] else []) ++ ev₁ ++
        (adaptation c e s σ.adaptor σ.t).2.2 := by
    intro s k ev₁ h
    by_cases ht : σ.t ≥ threshold c
    · rw [if_pos ht] at h; simp at h
    · rw [if_neg ht] at h
      cases hs : e.step σ.hidden (adaptation c e s σ.adaptor σ.t).1 σ.t (if c.enforce then some c.tFinal else none) with
      | none => rw [hs] at h; simp at h
      | some r =>
        obtain ⟨s', tau, w⟩ := r
        rw [hs] at h
        simp only [Iter.continue.injEq] at h
        obtain ⟨h1, h2⟩ := h
        subst h1
        exact ⟨tau, not_le.1 ht, rfl, rfl, rfl, rfl, h2.symm⟩
  by_cases htk : σ.t ≥ σ.timer_cycle * c.granularity
  · rw [if_pos htk] at h
    cases hti : tick c e σ.state σ.t σ.timer_cycle with
    | none => simp [hti] at h
    | some r =>
      obtain ⟨s, ev₁⟩ := r
      simp only [hti, Option.map_some] at h
      obtain ⟨tau, h1, h2, h3, h4, h5, h6⟩ := key s _ ev₁ h
      exact ⟨s, ev₁, tau, Or.inl ⟨htk, hti, h2⟩, h1, h3, h4, h5, h6⟩
  · rw [if_neg htk] at h
    obtain ⟨tau, h1, h2, h3, h4, h5, h6⟩ := key _ _ _ h
    exact ⟨σ.state, [], tau, Or.inr ⟨not_le.1 htk, rfl, rfl, h2⟩, h1, h3, h4, h5, h6⟩

theorem iteration_break {c : Config} {e : Env S W} {σ σ' : State S W} {ev : List (Event S)}
    (h : iteration c e σ = .break σ' ev) :
    ∃ ev₁, Ticked c e σ σ'.state σ'.timer_cycle ev₁ ∧ threshold c ≤ σ.t ∧ σ'.t = σ.t ∧
      σ'.adaptor = σ.adaptor ∧ σ'.hidden = σ.hidden ∧
      ev = (if c.quantities then [Event.accumulate σ.t σ.state] else []) ++ ev₁ := by
  unfold iteration at h
  dsimp only at h
  by_cases htk : σ.t ≥ σ.timer_cycle * c.granularity
  · rw [if_pos htk] at h
    cases hti : tick c e σ.state σ.t σ.timer_cycle with
    | none => simp [hti] at h
    | some r =>
      obtain ⟨s, ev₁⟩ := r
      simp only [hti, Option.map_some] at h
      by_cases ht : σ.t ≥ threshold c
      · rw [if_pos ht] at h
        simp only [Iter.break.injEq] at h
        obtain ⟨h1, h2⟩ := h
        subst h1
        exact ⟨ev₁, Or.inl ⟨htk, hti, rfl⟩, ht, rfl, rfl, rfl, h2.symm⟩
      · rw [if_neg ht] at h
        split at h <;> simp at h
  · rw [if_neg htk] at h
    simp only at h
    by_cases ht : σ.t ≥ threshold c
    · rw [if_pos ht] at h
      simp only [Iter.break.injEq] at h
      obtain ⟨h1, h2⟩ := h
      subst h1
      exact ⟨[], Or.inr ⟨not_le.1 htk, rfl, rfl, rfl⟩, ht, rfl, rfl, rfl, h2.symm⟩
    · rw [if_neg ht] at h
      split at h <;> simp at h

/-- A pass that does not abort. -/
theorem iteration_total {c : Config} {e : Env S W} (σ : State S W)
    (hm : c.mFull ≠ 0 ∧ c.mLevelsets ≠ 0 ∧ c.mCheckpoint ≠ 0 ∧ c.mQuantities ≠ 0)
    (hd : c.checkpointing = true → c.distributed = true)
    (hstep : ∀ w s t l, ∃ r, e.step w s t l = some r) :
    if threshold c ≤ σ.t then ∃ σ' ev, iteration c e σ = .break σ' ev
    else ∃ σ' ev, iteration c e σ = .continue σ' ev := by
  have htick : ∃ r, tick c e σ.state σ.t σ.timer_cycle = some r := by
    unfold tick
    obtain ⟨r, hr⟩ := output_isSome e false σ.state σ.t σ.timer_cycle ⟨hm.1, hm.2.1, hm.2.2.1⟩ hd
    obtain ⟨r', hr'⟩ := output_isSome e true (e.analytic r.1 σ.t) σ.t σ.timer_cycle ⟨hm.1, hm.2.1, hm.2.2.1⟩ hd
    simp only [hr, hr', hm.2.2.2, Option.bind_eq_bind, Option.bind_some, if_false]
    split_ifs <;> simp
  obtain ⟨⟨s, ev₁⟩, hti⟩ := htick
  unfold iteration
  dsimp only
  rw [hti]
  by_cases htk : σ.t ≥ σ.timer_cycle * c.granularity
  · rw [if_pos htk]
    simp only [Option.map_some]
    by_cases ht : σ.t ≥ threshold c
    · rw [if_pos ht, if_pos ht]; exact ⟨_, _, rfl⟩
    · rw [if_neg ht, if_neg ht]
      obtain ⟨⟨s', tau, w⟩, hs⟩ := hstep σ.hidden (adaptation c e s σ.adaptor σ.t).1 σ.t
        (if c.enforce then some c.tFinal else none)
      rw [hs]
      exact ⟨_, _, rfl⟩
  · rw [if_neg htk]
    simp only
    by_cases ht : σ.t ≥ threshold c
    · rw [if_pos ht, if_pos ht]; exact ⟨_, _, rfl⟩
    · rw [if_neg ht, if_neg ht]
      obtain ⟨⟨s', tau, w⟩, hs⟩ := hstep σ.hidden (adaptation c e σ.state σ.adaptor σ.t).1 σ.t
        (if c.enforce then some c.tFinal else none)
      rw [hs]
      exact ⟨_, _, rfl⟩

/-- The graphical output in the effects of a pass. -/
theorem vtu_mem {c : Config} {e : Env S W} {σ : State S W} {a : Bool} {k : ℕ} {t : ℝ} {s : S} {f l : Bool}
    (h : Event.vtu a k t s f l ∈ (iteration c e σ).events) :
    k = σ.timer_cycle ∧ t = σ.t ∧ σ.timer_cycle * c.granularity ≤ σ.t ∧
      f = (decide (k % c.mFull = 0) && c.full) ∧ l = (decide (k % c.mLevelsets = 0) && c.levelsets) ∧
      (f || l) = true := by
  have houtput : ∀ {b s0 s' ev}, output c e b s0 σ.t σ.timer_cycle = some (s', ev) → Event.vtu a k t s f l ∈ ev →
      k = σ.timer_cycle ∧ t = σ.t ∧
      f = (decide (k % c.mFull = 0) && c.full) ∧ l = (decide (k % c.mLevelsets = 0) && c.levelsets) ∧
      (f || l) = true := by
    intro b s0 s' ev ho hm
    have := (output_events ho).2.2.2.2.2
    rw [this] at hm
    rcases List.mem_append.1 hm with hm | hm
    · split_ifs at hm with hc
      · simp only [List.mem_singleton, Event.vtu.injEq] at hm
        obtain ⟨-, rfl, rfl, -, rfl, rfl⟩ := hm
        refine ⟨rfl, rfl, rfl, rfl, ?_⟩
        simpa using hc
      · simp at hm
    · split_ifs at hm <;> simp at hm
  have htick : ∀ {s0 k1 ev}, Ticked c e σ s0 k1 ev → Event.vtu a k t s f l ∈ ev →
      k = σ.timer_cycle ∧ t = σ.t ∧ σ.timer_cycle * c.granularity ≤ σ.t ∧
      f = (decide (k % c.mFull = 0) && c.full) ∧ l = (decide (k % c.mLevelsets = 0) && c.levelsets) ∧
      (f || l) = true := by
    intro s0 k1 ev ht hm
    rcases ht with ⟨hg, ht, -⟩ | ⟨-, -, rfl, -⟩
    · obtain ⟨e1, e2, e3, h1, h2, h3, -, -, rfl⟩ := tick_events ht
      have : k = σ.timer_cycle ∧ t = σ.t ∧
          f = (decide (k % c.mFull = 0) && c.full) ∧ l = (decide (k % c.mLevelsets = 0) && c.levelsets) ∧
          (f || l) = true := by
        rcases List.mem_append.1 hm with hm | hm
        · rcases List.mem_append.1 hm with hm | hm
          · exact houtput h1 hm
          · split_ifs at h2 with he
            · obtain ⟨a', h2⟩ := h2
              exact houtput h2 hm
            · rw [h2] at hm; simp at hm
        · rcases h3 with rfl | rfl <;> simp at hm
      exact ⟨this.1, this.2.1, hg, this.2.2⟩
    · simp at hm
  cases hi : iteration c e σ with
  | «continue» σ' ev =>
    rw [hi] at h
    obtain ⟨s0, ev₁, tau, h1, -, -, -, -, rfl⟩ := iteration_continue hi
    simp only [Iter.events] at h
    rcases List.mem_append.1 h with h | h
    · rcases List.mem_append.1 h with h | h
      · split_ifs at h <;> simp at h
      · exact htick h1 h
    · unfold adaptation at h
      dsimp only at h
      split_ifs at h <;> simp at h
  | «break» σ' ev =>
    rw [hi] at h
    obtain ⟨ev₁, h1, -, -, -, -, rfl⟩ := iteration_break hi
    simp only [Iter.events] at h
    rcases List.mem_append.1 h with h | h
    · split_ifs at h <;> simp at h
    · exact htick h1 h
  | abort => rw [hi] at h; simp [Iter.events] at h

/-- At most one graphical output per name and pass. -/
theorem vtu_unique (c : Config) (e : Env S W) (σ : State S W) (a : Bool) :
    ((iteration c e σ).events.filter (Event.isVtu a)).length ≤ 1 := by
  have houtput : ∀ {b s0 s' ev}, output c e b s0 σ.t σ.timer_cycle = some (s', ev) →
      (ev.filter (Event.isVtu a)).length ≤ if b = a then 1 else 0 := by
    intro b s0 s' ev ho
    rw [(output_events ho).2.2.2.2.2]
    cases a <;> cases b <;> split_ifs <;> simp [Event.isVtu] at *
  have htick : ∀ {s0 k1 ev}, Ticked c e σ s0 k1 ev → (ev.filter (Event.isVtu a)).length ≤ 1 := by
    intro s0 k1 ev ht
    rcases ht with ⟨-, ht, -⟩ | ⟨-, -, rfl, -⟩
    · obtain ⟨e1, e2, e3, h1, h2, h3, -, -, rfl⟩ := tick_events ht
      have l1 := houtput h1
      have l2 : (e2.filter (Event.isVtu a)).length ≤ if true = a then 1 else 0 := by
        by_cases he : c.error = true
        · rw [if_pos he] at h2
          obtain ⟨a', h2⟩ := h2
          exact houtput h2
        · rw [if_neg he] at h2
          rw [h2]; simp
      have l3 : e3.filter (Event.isVtu a) = [] := by
        rcases h3 with rfl | rfl <;> simp [Event.isVtu]
      rw [List.filter_append, List.filter_append, l3, List.append_nil, List.length_append]
      cases a
      · rw [if_pos rfl] at l1; rw [if_neg (by decide)] at l2; omega
      · rw [if_neg (by decide)] at l1; rw [if_pos rfl] at l2; omega
    · simp
  have h0 : (if c.quantities = true then [Event.accumulate σ.t σ.state] else []).filter (Event.isVtu a) = [] := by
    split_ifs <;> simp [Event.isVtu]
  cases hi : iteration c e σ with
  | «continue» σ' ev =>
    obtain ⟨s0, ev₁, tau, h1, -, -, -, -, rfl⟩ := iteration_continue hi
    have h2 : (adaptation c e s0 σ.adaptor σ.t).2.2.filter (Event.isVtu a) = [] := by
      unfold adaptation
      dsimp only
      split_ifs <;> simp [Event.isVtu]
    simp only [Iter.events, List.filter_append, h0, h2, List.append_nil, List.nil_append]
    exact htick h1
  | «break» σ' ev =>
    obtain ⟨ev₁, h1, -, -, -, -, rfl⟩ := iteration_break hi
    simp only [Iter.events, List.filter_append, h0, List.nil_append]
    exact htick h1
  | abort => simp [Iter.events]

/-- A pass that does not abort and at which the timer tick is due produces the graphical output. -/
theorem vtu_emitted {c : Config} {e : Env S W} {σ : State S W} (hi : iteration c e σ ≠ .abort)
    (ht : σ.timer_cycle * c.granularity ≤ σ.t) (hf : c.full = true) (hk : c.mFull ∣ σ.timer_cycle) :
    ∃ s l, Event.vtu false σ.timer_cycle σ.t s true l ∈ (iteration c e σ).events := by
  have htick : ∀ {s0 k1 ev}, Ticked c e σ s0 k1 ev →
      ∃ s l, Event.vtu false σ.timer_cycle σ.t s true l ∈ ev := by
    intro s0 k1 ev h
    rcases h with ⟨-, h, -⟩ | ⟨h, -⟩
    · obtain ⟨e1, e2, e3, h1, -, -, -, -, rfl⟩ := tick_events h
      have := (output_events h1).2.2.2.2.2
      have hk0 := Nat.mod_eq_zero_of_dvd hk
      refine ⟨s0, decide (σ.timer_cycle % c.mLevelsets = 0) && c.levelsets,
        List.mem_append_left _ (List.mem_append_left _ ?_)⟩
      rw [this, if_pos (Or.inl ⟨hk0, hf⟩)]
      simp [hk0, hf]
    · exact absurd ht (not_le.2 h)
  cases hx : iteration c e σ with
  | «continue» σ' ev =>
    obtain ⟨s0, ev₁, tau, h1, -, -, -, -, rfl⟩ := iteration_continue hx
    obtain ⟨s, l, hm⟩ := htick h1
    exact ⟨s, l, List.mem_append_left _ (List.mem_append_right _ hm)⟩
  | «break» σ' ev =>
    obtain ⟨ev₁, h1, -, -, -, -, rfl⟩ := iteration_break hx
    obtain ⟨s, l, hm⟩ := htick h1
    exact ⟨s, l, List.mem_append_right _ hm⟩
  | abort => exact absurd hx hi

/-- How the timer cycle and the time change. -/
theorem run_succ {c : Config} {e : Env S W} {σ σ' : State S W} {ev : List (Event S)}
    (h : iteration c e σ = .continue σ' ev) :
    ((σ.timer_cycle * c.granularity ≤ σ.t ∧ σ'.timer_cycle = σ.timer_cycle + 1) ∨
      (σ.t < σ.timer_cycle * c.granularity ∧ σ'.timer_cycle = σ.timer_cycle)) := by
  obtain ⟨s0, ev₁, tau, h1, -⟩ := iteration_continue h
  rcases h1 with ⟨h1, -, h2⟩ | ⟨h1, -, -, h2⟩
  · exact Or.inl ⟨h1, h2⟩
  · exact Or.inr ⟨h1, h2⟩

theorem run_cycle_mono {c : Config} {e : Env S W} {st : ℕ → State S W} {N i j : ℕ} (h : IsRun c e st N)
    (hij : i ≤ j) (hj : j ≤ N) : (st i).timer_cycle ≤ (st j).timer_cycle := by
  induction j, hij using Nat.le_induction with
  | base => exact le_refl _
  | succ j hij ih =>
    obtain ⟨ev, he⟩ := h j (by omega)
    have := ih (by omega)
    rcases run_succ he with ⟨-, h2⟩ | ⟨-, h2⟩ <;> omega

end TimeLoop
end Ryujin
