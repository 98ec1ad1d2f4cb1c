import Verif.Model.Quantities
import Mathlib.Tactic.Linarith
import Mathlib.Tactic.Module
import Mathlib.Tactic.Ring
import Mathlib.Tactic.FieldSimp
import Mathlib.Tactic.NormNum
import Mathlib.Algebra.Order.BigOperators.Group.List

/-!
# Time and space averaged quantities (C46)
-/

namespace Ryujin
namespace Quantities

noncomputable section

variable {V A S : Type} [AddCommGroup V] [Module ℝ V]

/-! ### Specification -/

/-- The integral of the piecewise linear function through the given samples (trapezoidal rule). -/
def trapezoid : List (ℝ × V) → V
  | (t₀, v₀) :: (t₁, v₁) :: rest => ((t₁ - t₀) / 2) • (v₀ + v₁) + trapezoid ((t₁, v₁) :: rest)
  | _ => 0

/-- The samples taken since the statistics were last reset: by `prepare`, or by a write-out if statistics are cleared
on write-out. -/
def window (clearing : Bool) (ops : List (Op S)) : List (ℝ × S) :=
  ops.foldl (fun w o => match o with
    | .accumulate t s => w ++ [(t, s)]
    | .writeOut _ _ _ => if clearing then [] else w
    | .prepare => []) []

/-- At most one sample was taken at time zero. -/
def OnceAtZero {β : Type} (w : List (ℝ × β)) : Prop := w.Pairwise fun a b => ¬ (a.1 = 0 ∧ b.1 = 0)

/-- The samples taken since the time series were last written or discarded. -/
def unsaved (ops : List (Op S)) : List (ℝ × S) :=
  ops.foldl (fun w o => match o with
    | .accumulate t s => w ++ [(t, s)]
    | .writeOut _ _ _ => []
    | .prepare => []) []

/-- All samples taken. -/
def samples (ops : List (Op S)) : List (ℝ × S) :=
  ops.filterMap fun o => match o with
    | .accumulate t s => some (t, s)
    | _ => none

/-- The entries written to the time series file of manifold `k`. -/
def entries (k : ℕ) (ev : List (Event V A)) : List (ℝ × A) :=
  ev.flatMap fun e => match e with
    | .series k' _ _ l => if k' = k then l else []
    | _ => []

/-! ### Statistics -/

theorem trapezoid_append (w : List (ℝ × V)) (a b : ℝ × V) :
    trapezoid (w ++ [a, b]) = trapezoid (w ++ [a]) + ((b.1 - a.1) / 2) • (a.2 + b.2) := by
  induction w with
  | nil => simp [trapezoid]
  | cons c w ih =>
    cases w with
    | nil => simp [trapezoid]
    | cons d w =>
      simp only [List.cons_append, trapezoid] at ih ⊢
      rw [ih]; module

/-- The relation between samples and statistics. -/
def Tracks (w : List (ℝ × V)) (s : Stat V) : Prop :=
  (w = [] ∧ s = Stat.cleared) ∨
    ∃ first last, w.head? = some first ∧ w.getLast? = some last ∧ s.t_new = last.1 ∧ s.val_new = last.2 ∧
      s.t_sum = last.1 - first.1 ∧ s.val_sum = trapezoid w ∧
      (s.t_old = last.1 - 1 ∨ ∃ w' prev, w = w' ++ [prev, last] ∧ s.t_old = prev.1)

theorem tracks_accumulate (w : List (ℝ × V)) (s : Stat V) (t : ℝ) (v : V) (h : Tracks w s) (hz : OnceAtZero w) :
    Tracks (w ++ [(t, v)]) (s.accumulate t v) := by
  rcases h with ⟨rfl, rfl⟩ | ⟨first, last, hf, hl, h1, h2, h3, h4, h5⟩
  · refine Or.inr ⟨(t, v), (t, v), rfl, rfl, ?_⟩
    simp [Stat.accumulate, Stat.cleared, trapezoid]
  · have hne : ¬ (s.t_new = 0 ∧ s.t_old = 0) := by
      rintro ⟨a, b⟩
      rcases h5 with h5 | ⟨w', prev, rfl, h5⟩
      · rw [h5, ← h1, a] at b; norm_num at b
      · have : ([prev, last] : List (ℝ × V)).Pairwise fun a b => ¬ (a.1 = 0 ∧ b.1 = 0) :=
          (List.pairwise_append.1 hz).2.1
        simp only [List.pairwise_cons, List.mem_singleton, forall_eq] at this
        exact this.1 ⟨by rw [← h5, b], by rw [← h1, a]⟩
    obtain ⟨w', rfl⟩ : ∃ w', w = w' ++ [last] := by
      rw [List.getLast?_eq_some_iff] at hl
      exact hl
    have hhead : (w' ++ [last] ++ [(t, v)]).head? = some first := by
      cases w' with
      | nil => simpa using hf
      | cons => simpa using hf
    refine Or.inr ⟨first, (t, v), hhead, by simp, ?_⟩
    have e : s.accumulate t v = ⟨s.val_new, v, s.val_sum + (0.5 * (t - s.t_new)) • s.val_new + (0.5 * (t - s.t_new)) • v,
        s.t_new, t, s.t_sum + (t - s.t_new)⟩ := by
      unfold Stat.accumulate
      exact if_neg hne
    rw [e]
    refine ⟨rfl, rfl, ?_, ?_, Or.inr ⟨w', last, by simp, h1⟩⟩
    · dsimp only; rw [h3, h1]; ring
    · dsimp only
      rw [List.append_assoc, show [last] ++ [(t, v)] = [last, (t, v)] from rfl, trapezoid_append, ← h4, h1, h2]
      have : (0.5 : ℝ) = 1 / 2 := by norm_num
      rw [this]
      module

/-! ### The loop over the manifolds -/

/-- A manifold is averaged in space or in time. -/
def Options.averaged (o : Options) : Prop := o.time_averaged = true ∨ o.space_averaged = true

instance (o : Options) : Decidable o.averaged := inferInstanceAs (Decidable (_ ∨ _))

/-- What writing out does to one manifold. -/
theorem writeFields_spec (k cycle : ℕ) (m m' : Manifold V A) (t : ℝ) (v : V) (ev : List (Event V A))
    (h : m.writeFields k cycle t v = some (m', ev)) :
    m'.options = m.options ∧ m'.series = m.series ∧ (m.options.averaged → m'.stat = m.stat) ∧
      (∀ k' c' t₀ t₁ x, Event.timeAveraged k' c' t₀ t₁ x ∈ ev ↔
        k' = k ∧ c' = cycle ∧ m.options.time_averaged = true ∧ m.stat.t_sum ≠ 0 ∧ t₀ = m.stat.t_new - m.stat.t_sum ∧
          t₁ = m.stat.t_new ∧ x = (1 / m.stat.t_sum) • m.stat.val_sum) ∧
      (∀ k' c' t' x, Event.instantaneous k' c' t' x ∈ ev ↔
        k' = k ∧ c' = cycle ∧ m.options.instantaneous = true ∧ t' = t ∧
          x = if m.options.averaged then m.stat.val_new else v) ∧
      (∀ k' c' a e, Event.series k' c' a e ∉ ev) ∧
      (m.options.instantaneous = true → m.options.averaged → m.stat.t_new = t) := by
  classical
  unfold Manifold.writeFields at h
  obtain ⟨⟨ot, os, oi⟩, st, se⟩ := m
  dsimp only [Options.averaged] at h ⊢
  cases oi <;> cases ot <;> cases os <;>
    simp only [Bool.not_true, Bool.not_false, Bool.and_self, Bool.and_true, Bool.and_false,
      if_true, if_false, Bool.false_eq_true, false_and, true_and, Option.map_some, List.append_nil,
      Option.some.injEq, Prod.mk.injEq, List.nil_append] at h ⊢
  all_goals
    first
    | (obtain ⟨rfl, rfl⟩ := h
       refine ⟨rfl, rfl, by simp, ?_, ?_, ?_, by simp⟩
       · intro k' c' t₀ t₁ x
         split_ifs <;> simp_all
       · intro k' c' t' x
         split_ifs <;> simp_all
       · intro k' c' a e
         split_ifs <;> simp)
    | (obtain ⟨rfl, rfl⟩ := h
       refine ⟨rfl, rfl, by simp, ?_, ?_, ?_, by simp⟩
       · intro k' c' t₀ t₁ x
         simp
       · intro k' c' t' x
         simp
         try tauto
       · intro k' c' a e
         simp)
    | (split_ifs at h with h0
       · simp only [Option.map_some, Option.some.injEq, Prod.mk.injEq] at h
         obtain ⟨rfl, rfl⟩ := h
         refine ⟨rfl, rfl, by simp, ?_, ?_, ?_, by simp [h0]⟩
         · intro k' c' t₀ t₁ x
           (try split_ifs) <;> simp_all
         · intro k' c' t' x
           (try split_ifs) <;> simp_all
         · intro k' c' a e
           (try split_ifs) <;> simp
       · simp at h)

omit [AddCommGroup V] [Module ℝ V] in
/-- What flushing the time series does to one manifold. -/
theorem writeSeries_spec (k cycle : ℕ) (m : Manifold V A) (c : Option ℕ) :
    (m.writeSeries k cycle c).1.options = m.options ∧ (m.writeSeries k cycle c).1.stat = m.stat ∧
      (m.writeSeries k cycle c).1.series = (if m.options.space_averaged then [] else m.series) ∧
      (m.writeSeries k cycle c).2.1 = (if m.options.space_averaged then some (c.getD cycle) else c) ∧
      (m.writeSeries k cycle c).2.2 =
        (if m.options.space_averaged then [Event.series k (c.getD cycle) c.isSome m.series] else []) := by
  unfold Manifold.writeSeries
  cases hs : m.options.space_averaged <;> cases c <;> simp

/-- What one write-out does to all manifolds. -/
theorem writeLoop_spec (obs : ℕ → S → V × A) (t : ℝ) (s : S) (cycle : ℕ) :
    ∀ (ms : List (Manifold V A)) (k₀ : ℕ) (c : Option ℕ) (ms' : List (Manifold V A)) (c' : Option ℕ)
      (ev : List (Event V A)), writeLoop obs t s cycle k₀ ms c = some (ms', c', ev) →
      ms'.length = ms.length ∧
      (∀ (j : ℕ) m m', ms[j]? = some m → ms'[j]? = some m' → m'.options = m.options ∧
        (m.options.averaged → m'.stat = m.stat) ∧
        m'.series = (if m.options.space_averaged then [] else m.series)) ∧
      (∀ k cy t₀ t₁ x, Event.timeAveraged k cy t₀ t₁ x ∈ ev ↔ ∃ (j : ℕ) (m : Manifold V A), k = k₀ + j ∧
        ms[j]? = some m ∧ cy = cycle ∧ m.options.time_averaged = true ∧ m.stat.t_sum ≠ 0 ∧
          t₀ = m.stat.t_new - m.stat.t_sum ∧ t₁ = m.stat.t_new ∧ x = (1 / m.stat.t_sum) • m.stat.val_sum) ∧
      (∀ k cy t' x, Event.instantaneous k cy t' x ∈ ev ↔ ∃ (j : ℕ) (m : Manifold V A), k = k₀ + j ∧
        ms[j]? = some m ∧ cy = cycle ∧ m.options.instantaneous = true ∧ t' = t ∧
          x = if m.options.averaged then m.stat.val_new else (obs k s).1) ∧
      (∀ (j : ℕ) m, ms[j]? = some m → m.options.instantaneous = true → m.options.averaged → m.stat.t_new = t) := by
  intro ms
  induction ms with
  | nil =>
    intro k₀ c ms' c' ev h
    simp only [writeLoop, Option.some.injEq, Prod.mk.injEq] at h
    obtain ⟨rfl, rfl, rfl⟩ := h
    simp
  | cons m ms ih =>
    intro k₀ c ms' c' ev h
    simp only [writeLoop] at h
    rw [Option.bind_eq_some_iff] at h
    obtain ⟨⟨m₁, ev₁⟩, h1, h⟩ := h
    dsimp only at h
    rw [Option.map_eq_some_iff] at h
    obtain ⟨⟨ms₂, c₂, ev₂⟩, h2, h⟩ := h
    simp only [Prod.mk.injEq] at h
    obtain ⟨rfl, rfl, rfl⟩ := h
    obtain ⟨a1, a2, a3, a4, a5, a6, a7⟩ := writeFields_spec _ _ _ _ _ _ _ h1
    obtain ⟨b1, b2, b3, b4, b5⟩ := writeSeries_spec k₀ cycle m₁ c
    obtain ⟨i1, i2, i3, i4, i5⟩ := ih _ _ _ _ _ h2
    have noT : ∀ k cy t₀ t₁ x, Event.timeAveraged k cy t₀ t₁ x ∉ (m₁.writeSeries k₀ cycle c).2.2 := by
      intro k cy t₀ t₁ x; rw [b5]; split_ifs <;> simp
    have noI : ∀ k cy t₀ x, Event.instantaneous k cy t₀ x ∉ (m₁.writeSeries k₀ cycle c).2.2 := by
      intro k cy t₀ x; rw [b5]; split_ifs <;> simp
    refine ⟨by simp [i1], ?_, ?_, ?_, ?_⟩
    · intro j n n' hj hj'
      cases j with
      | zero =>
        simp only [List.getElem?_cons_zero, Option.some.injEq] at hj hj'
        subst hj hj'
        rw [b1, b2, b3, a1, a2]
        exact ⟨rfl, a3, rfl⟩
      | succ j =>
        simp only [List.getElem?_cons_succ] at hj hj'
        exact i2 j n n' hj hj'
    · intro k cy t₀ t₁ x
      simp only [List.mem_append, noT, or_false]
      rw [a4, i3]
      constructor
      · rintro (⟨rfl, h⟩ | ⟨j, n, rfl, hj, h⟩)
        · exact ⟨0, m, by simp, by simp, h⟩
        · exact ⟨j + 1, n, by omega, by simpa using hj, h⟩
      · rintro ⟨j, n, rfl, hj, h⟩
        cases j with
        | zero =>
          simp only [List.getElem?_cons_zero, Option.some.injEq] at hj
          subst hj
          exact Or.inl ⟨by simp, h⟩
        | succ j =>
          simp only [List.getElem?_cons_succ] at hj
          exact Or.inr ⟨j, n, by omega, hj, h⟩
    · intro k cy t₀ x
      simp only [List.mem_append, noI, or_false]
      rw [a5, i4]
      constructor
      · rintro (⟨rfl, h⟩ | ⟨j, n, rfl, hj, h⟩)
        · exact ⟨0, m, by simp, by simp, h⟩
        · exact ⟨j + 1, n, by omega, by simpa using hj, h⟩
      · rintro ⟨j, n, rfl, hj, h⟩
        cases j with
        | zero =>
          simp only [List.getElem?_cons_zero, Option.some.injEq] at hj
          subst hj
          exact Or.inl ⟨by simp, by simpa using h⟩
        | succ j =>
          simp only [List.getElem?_cons_succ] at hj
          exact Or.inr ⟨j, n, by omega, hj, h⟩
    · intro j n hj
      cases j with
      | zero =>
        simp only [List.getElem?_cons_zero, Option.some.injEq] at hj
        subst hj
        exact a7
      | succ j =>
        simp only [List.getElem?_cons_succ] at hj
        exact i5 j n hj

omit [AddCommGroup V] [Module ℝ V] in
theorem entries_append (k : ℕ) (a b : List (Event V A)) : entries k (a ++ b) = entries k a ++ entries k b := by
  simp [entries]

omit [AddCommGroup V] [Module ℝ V] in
theorem entries_of_no_series (k : ℕ) (ev : List (Event V A)) (h : ∀ k' c' a e, Event.series k' c' a e ∉ ev) :
    entries k ev = [] := by
  unfold entries
  rw [List.flatMap_eq_nil_iff]
  intro e he
  cases e with
  | series k' c' a l => exact absurd he (h _ _ _ _)
  | _ => rfl

theorem writeLoop_entries (obs : ℕ → S → V × A) (t : ℝ) (s : S) (cycle : ℕ) :
    ∀ (ms : List (Manifold V A)) (k₀ : ℕ) (c : Option ℕ) (ms' : List (Manifold V A)) (c' : Option ℕ)
      (ev : List (Event V A)), writeLoop obs t s cycle k₀ ms c = some (ms', c', ev) →
      (∀ (j : ℕ) m, ms[j]? = some m → entries (k₀ + j) ev = if m.options.space_averaged then m.series else []) ∧
      ∀ k < k₀, entries k ev = [] := by
  intro ms
  induction ms with
  | nil =>
    intro k₀ c ms' c' ev h
    simp only [writeLoop, Option.some.injEq, Prod.mk.injEq] at h
    obtain ⟨rfl, rfl, rfl⟩ := h
    simp [entries]
  | cons m ms ih =>
    intro k₀ c ms' c' ev h
    simp only [writeLoop] at h
    rw [Option.bind_eq_some_iff] at h
    obtain ⟨⟨m₁, ev₁⟩, h1, h⟩ := h
    dsimp only at h
    rw [Option.map_eq_some_iff] at h
    obtain ⟨⟨ms₂, c₂, ev₂⟩, h2, h⟩ := h
    simp only [Prod.mk.injEq] at h
    obtain ⟨rfl, rfl, rfl⟩ := h
    obtain ⟨a1, a2, a3, a4, a5, a6, a7⟩ := writeFields_spec _ _ _ _ _ _ _ h1
    obtain ⟨b1, b2, b3, b4, b5⟩ := writeSeries_spec k₀ cycle m₁ c
    obtain ⟨i1, i2⟩ := ih _ _ _ _ _ h2
    constructor
    · intro j n hj
      rw [entries_append, entries_append, entries_of_no_series _ _ a6, b5, a1, a2]
      cases j with
      | zero =>
        simp only [List.getElem?_cons_zero, Option.some.injEq] at hj
        subst hj
        rw [i2 _ (by omega)]
        split_ifs <;> simp [entries]
      | succ j =>
        simp only [List.getElem?_cons_succ] at hj
        rw [show k₀ + (j + 1) = k₀ + 1 + j by omega, i1 j n hj]
        have : k₀ ≠ k₀ + 1 + j := by omega
        split_ifs <;> simp [entries, this]
    · intro k hk
      rw [entries_append, entries_append, entries_of_no_series _ _ a6, b5, i2 k (by omega)]
      have : k₀ ≠ k := by omega
      split_ifs <;> simp [entries, this]

/-! ### Histories -/

/-- What holds after a history with the samples `w` since the last reset and `u` since the series were written. -/
structure Inv (obs : ℕ → S → V × A) (options : List Options) (w u : List (ℝ × S)) (σ : State V A) : Prop where
  length : σ.manifolds.length = options.length
  options : ∀ (j : ℕ) m, σ.manifolds[j]? = some m → options[j]? = some m.options
  tracks : ∀ (j : ℕ) m, σ.manifolds[j]? = some m → m.options.averaged → OnceAtZero w →
    Tracks (w.map fun p => (p.1, (obs j p.2).1)) m.stat
  series : ∀ (j : ℕ) m, σ.manifolds[j]? = some m → m.options.space_averaged = true →
    m.series = u.map fun p => (p.1, (obs j p.2).2)

omit [AddCommGroup V] [Module ℝ V] in
theorem onceAtZero_map (w : List (ℝ × S)) (f : S → V) (h : OnceAtZero w) :
    OnceAtZero (w.map fun p => (p.1, f p.2)) := by
  unfold OnceAtZero at *
  rw [List.pairwise_map]
  exact h

theorem inv_start (obs : ℕ → S → V × A) (options : List Options) : Inv obs options [] [] (start options : State V A) := by
  refine ⟨by simp [start], ?_, ?_, ?_⟩
  · intro j m h
    simp only [start, List.getElem?_map, Option.map_eq_some_iff] at h
    obtain ⟨o, h, rfl⟩ := h
    exact h
  · intro j m h _ _
    simp only [start, List.getElem?_map, Option.map_eq_some_iff] at h
    obtain ⟨o, h, rfl⟩ := h
    exact Or.inl ⟨rfl, rfl⟩
  · intro j m h _
    simp only [start, List.getElem?_map, Option.map_eq_some_iff] at h
    obtain ⟨o, h, rfl⟩ := h
    rfl

theorem inv_clear (obs : ℕ → S → V × A) (options : List Options) (w u : List (ℝ × S)) (σ : State V A)
    (h : Inv obs options w u σ) : Inv obs options [] [] σ.clear := by
  refine ⟨by simp [State.clear, h.length], ?_, ?_, ?_⟩
  · intro j m hj
    simp only [State.clear, List.getElem?_map, Option.map_eq_some_iff] at hj
    obtain ⟨n, hn, rfl⟩ := hj
    exact h.options j n hn
  · intro j m hj _ _
    simp only [State.clear, List.getElem?_map, Option.map_eq_some_iff] at hj
    obtain ⟨n, hn, rfl⟩ := hj
    exact Or.inl ⟨rfl, rfl⟩
  · intro j m hj _
    simp only [State.clear, List.getElem?_map, Option.map_eq_some_iff] at hj
    obtain ⟨n, hn, rfl⟩ := hj
    rfl

theorem inv_accumulate (obs : ℕ → S → V × A) (options : List Options) (w u : List (ℝ × S)) (σ : State V A) (t : ℝ) (s : S)
    (h : Inv obs options w u σ) : Inv obs options (w ++ [(t, s)]) (u ++ [(t, s)]) (σ.accumulate obs t s) := by
  have opt : ∀ (n : Manifold V A) v a, (n.accumulate t v a).options = n.options := by
    intro n v a; unfold Manifold.accumulate; split_ifs <;> rfl
  refine ⟨by simp [State.accumulate, h.length], ?_, ?_, ?_⟩
  · intro j m hj
    simp only [State.accumulate, List.getElem?_mapIdx, Option.map_eq_some_iff] at hj
    obtain ⟨n, hn, rfl⟩ := hj
    rw [opt]
    exact h.options j n hn
  · intro j m hj ha hz
    simp only [State.accumulate, List.getElem?_mapIdx, Option.map_eq_some_iff] at hj
    obtain ⟨n, hn, rfl⟩ := hj
    rw [opt] at ha
    have hz' : OnceAtZero w := (List.pairwise_append.1 hz).1
    have e : (n.accumulate t (obs j s).1 (obs j s).2).stat = n.stat.accumulate t (obs j s).1 := by
      unfold Manifold.accumulate
      rcases ha with ha | ha <;> simp [ha]
    rw [e, List.map_append]
    exact tracks_accumulate _ _ _ _ (h.tracks j n hn ha hz') (onceAtZero_map _ (fun s => (obs j s).1) hz')
  · intro j m hj ha
    simp only [State.accumulate, List.getElem?_mapIdx, Option.map_eq_some_iff] at hj
    obtain ⟨n, hn, rfl⟩ := hj
    rw [opt] at ha
    have e : (n.accumulate t (obs j s).1 (obs j s).2).series = n.series ++ [(t, (obs j s).2)] := by
      unfold Manifold.accumulate
      simp [ha]
    rw [e, h.series j n hn ha]
    simp

theorem inv_writeOut (obs : ℕ → S → V × A) (clearing : Bool) (options : List Options) (w u : List (ℝ × S))
    (σ σ' : State V A) (t : ℝ) (s : S) (cycle : ℕ) (ev : List (Event V A)) (h : Inv obs options w u σ)
    (hw : σ.writeOut obs clearing t s cycle = some (σ', ev)) :
    Inv obs options (if clearing then [] else w) [] σ' := by
  unfold State.writeOut at hw
  rw [Option.map_eq_some_iff] at hw
  obtain ⟨⟨ms', c', ev'⟩, hl, hw⟩ := hw
  simp only [Prod.mk.injEq] at hw
  obtain ⟨hσ, rfl⟩ := hw
  obtain ⟨l1, l2, -, -, -⟩ := writeLoop_spec _ _ _ _ _ _ _ _ _ _ hl
  have get : ∀ (j : ℕ) m', ms'[j]? = some m' → ∃ m, σ.manifolds[j]? = some m := by
    intro j m' hj
    have : j < ms'.length := (List.getElem?_eq_some_iff.1 hj).1
    exact ⟨σ.manifolds[j]'(by omega), List.getElem?_eq_getElem _⟩
  have key : Inv obs options w [] (⟨ms', c'⟩ : State V A) := by
    refine ⟨by simp [l1, h.length], ?_, ?_, ?_⟩
    · intro j m' hj
      obtain ⟨m, hm⟩ := get j m' hj
      obtain ⟨e1, -, -⟩ := l2 j m m' hm hj
      rw [e1]
      exact h.options j m hm
    · intro j m' hj ha hz
      obtain ⟨m, hm⟩ := get j m' hj
      obtain ⟨e1, e2, -⟩ := l2 j m m' hm hj
      rw [e1] at ha
      rw [e2 ha]
      exact h.tracks j m hm ha hz
    · intro j m' hj ha
      obtain ⟨m, hm⟩ := get j m' hj
      obtain ⟨e1, -, e3⟩ := l2 j m m' hm hj
      rw [e1] at ha
      rw [e3]
      simp [ha]
  subst hσ
  cases clearing
  · simpa using key
  · simpa using inv_clear _ _ _ _ _ key

theorem inv_calls (obs : ℕ → S → V × A) (clearing : Bool) (options : List Options) (ops : List (Op S)) :
    ∀ (w u : List (ℝ × S)) (σ σ' : State V A) (ev : List (Event V A)), Inv obs options w u σ →
      σ.calls obs clearing ops = some (σ', ev) →
      Inv obs options
        (ops.foldl (fun w o => match o with
          | .accumulate t s => w ++ [(t, s)]
          | .writeOut _ _ _ => if clearing then [] else w
          | .prepare => []) w)
        (ops.foldl (fun w o => match o with
          | .accumulate t s => w ++ [(t, s)]
          | .writeOut _ _ _ => []
          | .prepare => []) u) σ' := by
  induction ops with
  | nil =>
    intro w u σ σ' ev h hc
    simp only [State.calls, Option.some.injEq, Prod.mk.injEq] at hc
    obtain ⟨rfl, rfl⟩ := hc
    exact h
  | cons o os ih =>
    intro w u σ σ' ev h hc
    simp only [State.calls] at hc
    rw [Option.bind_eq_some_iff] at hc
    obtain ⟨⟨σ₁, ev₁⟩, h1, hc⟩ := hc
    rw [Option.map_eq_some_iff] at hc
    obtain ⟨⟨σ₂, ev₂⟩, h2, hc⟩ := hc
    simp only [Prod.mk.injEq] at hc
    obtain ⟨rfl, rfl⟩ := hc
    rw [List.foldl_cons, List.foldl_cons]
    refine ih _ _ _ _ _ ?_ h2
    cases o with
    | accumulate t s =>
      simp only [State.call, Option.some.injEq, Prod.mk.injEq] at h1
      rw [← h1.1]
      exact inv_accumulate _ _ _ _ _ _ _ h
    | writeOut t s cycle => exact inv_writeOut _ _ _ _ _ _ _ _ _ _ _ h h1
    | prepare =>
      simp only [State.call, Option.some.injEq, Prod.mk.injEq] at h1
      rw [← h1.1]
      have := inv_clear _ _ _ _ _ h
      exact ⟨this.length, this.options, this.tracks, this.series⟩

/-! ### Theorems -/

/-- **C46 (time averages).**  After any history of calls, a write-out writes a time average of a manifold exactly if
it was requested and at least two different times were sampled since the last reset; the file then is labelled with
the first and the last time of these samples, and holds the trapezoidal integral of the samples divided by
the length of this interval.  The samples may be arbitrary, but at most one of them was taken at time zero. -/
theorem C46_time_average (obs : ℕ → S → V × A) (clearing : Bool) (options : List Options) (ops : List (Op S))
    (σ σ' : State V A) (before ev : List (Event V A)) (t : ℝ) (s : S) (cycle : ℕ)
    (hrun : (start options : State V A).calls obs clearing ops = some (σ, before))
    (hw : σ.writeOut obs clearing t s cycle = some (σ', ev)) (hz : OnceAtZero (window clearing ops))
    (k : ℕ) (o : Options) (hk : options[k]? = some o) (c : ℕ) (t₀ t₁ : ℝ) (x : V) :
    Event.timeAveraged k c t₀ t₁ x ∈ ev ↔
      c = cycle ∧ o.time_averaged = true ∧
        ∃ s₀ s₁, (window clearing ops).head? = some (t₀, s₀) ∧ (window clearing ops).getLast? = some (t₁, s₁) ∧
          t₀ ≠ t₁ ∧ x = (1 / (t₁ - t₀)) • trapezoid ((window clearing ops).map fun p => (p.1, (obs k p.2).1)) := by
  have inv := inv_calls obs clearing options ops [] [] _ _ _ (inv_start obs options) hrun
  change Inv obs options (window clearing ops) (unsaved ops) σ at inv
  unfold State.writeOut at hw
  rw [Option.map_eq_some_iff] at hw
  obtain ⟨⟨ms', c', ev'⟩, hl, hw⟩ := hw
  simp only [Prod.mk.injEq] at hw
  obtain ⟨-, rfl⟩ := hw
  obtain ⟨-, -, l3, -, -⟩ := writeLoop_spec _ _ _ _ _ _ _ _ _ _ hl
  rw [l3]
  have hlen : k < σ.manifolds.length := by
    rw [inv.length]; exact (List.getElem?_eq_some_iff.1 hk).1
  have hm : σ.manifolds[k]? = some σ.manifolds[k] := List.getElem?_eq_getElem _
  have ho : σ.manifolds[k].options = o := by
    have := inv.options k _ hm
    rw [hk] at this
    exact (Option.some.inj this).symm
  have tr := inv.tracks k _ hm
  rw [ho] at tr
  generalize window clearing ops = w at *
  constructor
  · rintro ⟨j, m, hj, hm', rfl, h1, h2, rfl, rfl, rfl⟩
    simp only [Nat.zero_add] at hj
    subst hj
    rw [hm] at hm'
    obtain rfl := Option.some.inj hm'
    rw [ho] at h1
    refine ⟨rfl, h1, ?_⟩
    rcases tr (Or.inl h1) hz with ⟨_, e⟩ | ⟨first, last, hf, hla, e1, e2, e3, e4, -⟩
    · rw [e] at h2; exact absurd rfl h2
    · simp only [List.head?_map, Option.map_eq_some_iff] at hf
      simp only [List.getLast?_map, Option.map_eq_some_iff] at hla
      obtain ⟨⟨f1, f2⟩, hf, rfl⟩ := hf
      obtain ⟨⟨g1, g2⟩, hla, rfl⟩ := hla
      dsimp only at e1 e2 e3 e4
      refine ⟨f2, g2, ?_, ?_, ?_, ?_⟩
      · rw [hf, e1, e3]; simp
      · rw [hla, e1]
      · rw [e1, e3]; intro h; apply h2; rw [e3]; linarith
      · rw [e4, e1, e3]
        congr 2
        ring
  · rintro ⟨rfl, h1, s₀, s₁, hf, hla, hne, rfl⟩
    refine ⟨k, σ.manifolds[k], by simp, hm, rfl, by rw [ho]; exact h1, ?_⟩
    rcases tr (Or.inl h1) hz with ⟨e, _⟩ | ⟨first, last, hf', hla', e1, e2, e3, e4, -⟩
    · rw [List.map_eq_nil_iff] at e
      rw [e] at hf
      simp at hf
    · simp only [List.head?_map, hf, Option.map_some, Option.some.injEq] at hf'
      simp only [List.getLast?_map, hla, Option.map_some, Option.some.injEq] at hla'
      subst hf' hla'
      dsimp only at e1 e3
      refine ⟨?_, ?_, e1.symm, ?_⟩
      · rw [e3]; intro h; exact hne (by linarith)
      · rw [e1, e3]; ring
      · rw [e4, e3]

/-- **C46 (instantaneous values).**  An instantaneous file holds the values of the state at hand if the manifold is
not averaged, and otherwise those of the last sample, which was taken at the very time given in the file. -/
theorem C46_instantaneous (obs : ℕ → S → V × A) (clearing : Bool) (options : List Options) (ops : List (Op S))
    (σ σ' : State V A) (before ev : List (Event V A)) (t : ℝ) (s : S) (cycle : ℕ)
    (hrun : (start options : State V A).calls obs clearing ops = some (σ, before))
    (hw : σ.writeOut obs clearing t s cycle = some (σ', ev)) (hz : OnceAtZero (window clearing ops))
    (k : ℕ) (o : Options) (hk : options[k]? = some o) (ht : t ≠ 0) (c : ℕ) (t' : ℝ) (x : V) :
    Event.instantaneous k c t' x ∈ ev ↔
      c = cycle ∧ o.instantaneous = true ∧ t' = t ∧
        ((¬ o.averaged ∧ x = (obs k s).1) ∨
          (o.averaged ∧ ∃ s₁, (window clearing ops).getLast? = some (t, s₁) ∧ x = (obs k s₁).1)) := by
  have inv := inv_calls obs clearing options ops [] [] _ _ _ (inv_start obs options) hrun
  change Inv obs options (window clearing ops) (unsaved ops) σ at inv
  unfold State.writeOut at hw
  rw [Option.map_eq_some_iff] at hw
  obtain ⟨⟨ms', c', ev'⟩, hl, hw⟩ := hw
  simp only [Prod.mk.injEq] at hw
  obtain ⟨-, rfl⟩ := hw
  obtain ⟨-, -, -, l4, l5⟩ := writeLoop_spec _ _ _ _ _ _ _ _ _ _ hl
  rw [l4]
  have hlen : k < σ.manifolds.length := by
    rw [inv.length]; exact (List.getElem?_eq_some_iff.1 hk).1
  have hm : σ.manifolds[k]? = some σ.manifolds[k] := List.getElem?_eq_getElem _
  have ho : σ.manifolds[k].options = o := by
    have := inv.options k _ hm
    rw [hk] at this
    exact (Option.some.inj this).symm
  have tr := inv.tracks k _ hm
  have l5' := l5 k _ hm
  rw [ho] at tr l5'
  generalize window clearing ops = w at *
  have last : o.instantaneous = true → o.averaged → ∃ s₁, w.getLast? = some (t, s₁) ∧
      σ.manifolds[k].stat.val_new = (obs k s₁).1 := by
    intro hi ha
    rcases tr ha hz with ⟨_, e⟩ | ⟨first, last, hf, hla, e1, e2, e3, e4, -⟩
    · have := l5' hi ha
      rw [e] at this
      exact absurd this.symm ht
    · simp only [List.getLast?_map, Option.map_eq_some_iff] at hla
      obtain ⟨⟨g1, g2⟩, hla, rfl⟩ := hla
      refine ⟨g2, ?_, e2⟩
      have := l5' hi ha
      rw [e1] at this
      dsimp only at this
      rw [hla, this]
  constructor
  · rintro ⟨j, m, hj, hm', rfl, h1, rfl, rfl⟩
    simp only [Nat.zero_add] at hj
    subst hj
    rw [hm] at hm'
    obtain rfl := Option.some.inj hm'
    rw [ho] at h1 ⊢
    refine ⟨rfl, h1, rfl, ?_⟩
    by_cases ha : o.averaged
    · obtain ⟨s₁, e1, e2⟩ := last h1 ha
      exact Or.inr ⟨ha, s₁, e1, by rw [if_pos ha, e2]⟩
    · exact Or.inl ⟨ha, by rw [if_neg ha]⟩
  · rintro ⟨rfl, h1, rfl, h⟩
    refine ⟨k, σ.manifolds[k], by simp, hm, rfl, by rw [ho]; exact h1, rfl, ?_⟩
    rw [ho]
    rcases h with ⟨ha, rfl⟩ | ⟨ha, s₁, e, rfl⟩
    · rw [if_neg ha]
    · obtain ⟨s₂, e1, e2⟩ := last h1 ha
      rw [e] at e1
      obtain rfl : s₁ = s₂ := by simpa using e1
      rw [if_pos ha, e2]

/-- **C61 (space averages).**  Without a mesh adaptation, the entries written to the time series of a manifold,
followed by those waiting to be written, are all the samples taken, each exactly once and in order. -/
theorem C61_series_partial (obs : ℕ → S → V × A) (clearing : Bool) (options : List Options) (ops : List (Op S))
    (σ : State V A) (ev : List (Event V A))
    (hrun : (start options : State V A).calls obs clearing ops = some (σ, ev)) (hp : Op.prepare ∉ ops)
    (k : ℕ) (o : Options) (hk : options[k]? = some o) (hs : o.space_averaged = true) :
    entries k ev ++ (unsaved ops).map (fun p => (p.1, (obs k p.2).2)) =
      (samples ops).map (fun p => (p.1, (obs k p.2).2)) := by
  suffices H : ∀ (ops : List (Op S)) (w u : List (ℝ × S)) (σ σ' : State V A) (ev : List (Event V A)),
      Inv obs options w u σ → σ.calls obs clearing ops = some (σ', ev) → Op.prepare ∉ ops →
      entries k ev ++ (ops.foldl (fun w o => match o with
          | .accumulate t s => w ++ [(t, s)]
          | .writeOut _ _ _ => []
          | .prepare => []) u).map (fun p => (p.1, (obs k p.2).2)) =
        (u ++ samples ops).map (fun p => (p.1, (obs k p.2).2)) by
    have := H ops [] [] _ _ _ (inv_start obs options) hrun hp
    simpa [unsaved] using this
  intro ops
  induction ops with
  | nil =>
    intro w u σ σ' ev h hc _
    simp only [State.calls, Option.some.injEq, Prod.mk.injEq] at hc
    obtain ⟨rfl, rfl⟩ := hc
    simp [entries, samples]
  | cons op os ih =>
    intro w u σ σ' ev h hc hp
    simp only [State.calls] at hc
    rw [Option.bind_eq_some_iff] at hc
    obtain ⟨⟨σ₁, ev₁⟩, h1, hc⟩ := hc
    rw [Option.map_eq_some_iff] at hc
    obtain ⟨⟨σ₂, ev₂⟩, h2, hc⟩ := hc
    simp only [Prod.mk.injEq] at hc
    obtain ⟨rfl, rfl⟩ := hc
    simp only [List.mem_cons, not_or] at hp
    rw [List.foldl_cons, entries_append]
    cases op with
    | accumulate t s =>
      simp only [State.call, Option.some.injEq, Prod.mk.injEq] at h1
      obtain ⟨rfl, rfl⟩ := h1
      have := ih _ _ _ _ _ (inv_accumulate _ _ _ _ _ t s h) h2 hp.2
      rw [show entries k ([] : List (Event V A)) = [] from rfl, List.nil_append]
      rw [this]
      simp [samples]
    | writeOut t s cycle =>
      have hi := inv_writeOut _ _ _ _ _ _ _ _ _ _ _ h h1
      have := ih _ _ _ _ _ hi h2 hp.2
      simp only [State.call] at h1
      unfold State.writeOut at h1
      rw [Option.map_eq_some_iff] at h1
      obtain ⟨⟨ms', c', ev'⟩, hl, hw⟩ := h1
      simp only [Prod.mk.injEq] at hw
      obtain ⟨-, rfl⟩ := hw
      have hlen : k < σ.manifolds.length := by
        rw [h.length]; exact (List.getElem?_eq_some_iff.1 hk).1
      have hm : σ.manifolds[k]? = some σ.manifolds[k] := List.getElem?_eq_getElem _
      have ho : σ.manifolds[k].options = o := by
        have := h.options k _ hm
        rw [hk] at this
        exact (Option.some.inj this).symm
      have e := (writeLoop_entries _ _ _ _ _ _ _ _ _ _ hl).1 k _ hm
      rw [Nat.zero_add] at e
      rw [e, ho, if_pos hs, h.series k _ hm (by rw [ho]; exact hs), List.append_assoc, this]
      simp [samples]
    | prepare => exact absurd rfl hp.1

/-! ### What the averages mean -/

/-- **C46 (affine signals).**  The trapezoidal average of a quantity that depends affinely on time is its value at the
middle of the interval; in particular a constant is reproduced. -/
theorem C46_affine (a b : V) (ts : List ℝ) (t₀ t₁ : ℝ) (h₀ : ts.head? = some t₀) (h₁ : ts.getLast? = some t₁)
    (hne : t₀ ≠ t₁) :
    (1 / (t₁ - t₀)) • trapezoid (ts.map fun t => (t, a + t • b)) = a + ((t₀ + t₁) / 2) • b := by
  have key : ∀ (ts : List ℝ) (t₀ t₁ : ℝ), ts.head? = some t₀ → ts.getLast? = some t₁ →
      trapezoid (ts.map fun t => (t, a + t • b)) = (t₁ - t₀) • (a + ((t₀ + t₁) / 2) • b) := by
    intro ts
    induction ts with
    | nil => intro t₀ t₁ h; simp at h
    | cons x ts ih =>
      intro t₀ t₁ h0 h1
      simp only [List.head?_cons, Option.some.injEq] at h0
      subst h0
      cases ts with
      | nil =>
        simp only [List.getLast?_singleton, Option.some.injEq] at h1
        subst h1
        simp [trapezoid]
      | cons y ts =>
        have := ih y t₁ rfl (by simpa [List.getLast?_cons_cons] using h1)
        simp only [List.map_cons, trapezoid] at this ⊢
        rw [this]
        module
  rw [key ts t₀ t₁ h₀ h₁, smul_smul, one_div_mul_cancel (sub_ne_zero.2 hne.symm), one_smul]

/-- **C46 (range).**  If the times increase, the time average of a real quantity lies between any bounds of the samples. -/
theorem C46_between (w : List (ℝ × ℝ)) (lo hi : ℝ) (hw : ∀ p ∈ w, lo ≤ p.2 ∧ p.2 ≤ hi)
    (ht : (w.map Prod.fst).Pairwise (· < ·)) (t₀ t₁ v₀ v₁ : ℝ) (h₀ : w.head? = some (t₀, v₀))
    (h₁ : w.getLast? = some (t₁, v₁)) (hne : t₀ ≠ t₁) :
    lo ≤ (1 / (t₁ - t₀)) • trapezoid w ∧ (1 / (t₁ - t₀)) • trapezoid w ≤ hi := by
  have key : ∀ (w : List (ℝ × ℝ)), (∀ p ∈ w, lo ≤ p.2 ∧ p.2 ≤ hi) → (w.map Prod.fst).Pairwise (· < ·) →
      ∀ t₀ t₁ v₀ v₁ : ℝ, w.head? = some (t₀, v₀) → w.getLast? = some (t₁, v₁) →
      t₀ ≤ t₁ ∧ lo * (t₁ - t₀) ≤ trapezoid w ∧ trapezoid w ≤ hi * (t₁ - t₀) := by
    intro w
    induction w with
    | nil => intro _ _ t₀ t₁ v₀ v₁ h; simp at h
    | cons x w ih =>
      intro hw ht t₀ t₁ v₀ v₁ h0 h1
      simp only [List.head?_cons, Option.some.injEq] at h0
      subst h0
      cases w with
      | nil =>
        simp only [List.getLast?_singleton, Option.some.injEq, Prod.mk.injEq] at h1
        obtain ⟨rfl, rfl⟩ := h1
        simp [trapezoid]
      | cons y w =>
        obtain ⟨ty, vy⟩ := y
        simp only [List.map_cons, List.pairwise_cons, List.mem_cons, forall_eq_or_imp] at ht
        have hx := hw _ (List.mem_cons_self ..)
        have hy := hw (ty, vy) (by simp)
        obtain ⟨i1, i2, i3⟩ := ih (fun p hp => hw p (List.mem_cons_of_mem _ hp))
          (by simpa using ht.2) ty t₁ vy v₁ rfl (by simpa [List.getLast?_cons_cons] using h1)
        have htt : t₀ < ty := ht.1.1
        simp only [trapezoid, smul_eq_mul]
        refine ⟨by linarith, ?_, ?_⟩
        · nlinarith [mul_nonneg (sub_nonneg.2 htt.le) (sub_nonneg.2 hx.1), mul_nonneg (sub_nonneg.2 htt.le) (sub_nonneg.2 hy.1)]
        · nlinarith [mul_nonneg (sub_nonneg.2 htt.le) (sub_nonneg.2 hx.2), mul_nonneg (sub_nonneg.2 htt.le) (sub_nonneg.2 hy.2)]
  obtain ⟨k1, k2, k3⟩ := key w hw ht t₀ t₁ v₀ v₁ h₀ h₁
  have hpos : 0 < t₁ - t₀ := sub_pos.2 (lt_of_le_of_ne k1 hne)
  simp only [smul_eq_mul, one_div, inv_mul_eq_div]
  exact ⟨(le_div_iff₀ hpos).2 k2, (div_le_iff₀ hpos).2 k3⟩

omit [AddCommGroup V] [Module ℝ V] in
theorem foldl_sums {c : ℕ} (f : ℕ → Fin c → ℝ) (l : List (ℕ × ℝ)) :
    ∀ acc : ℝ × (Fin c → ℝ) × (Fin c → ℝ), l.foldl
      (fun (acc : ℝ × (Fin c → ℝ) × (Fin c → ℝ)) p =>
        (acc.1 + p.2, acc.2.1 + p.2 • f p.1, acc.2.2 + p.2 • (f p.1 * f p.1))) acc =
      (acc.1 + (l.map Prod.snd).sum, acc.2.1 + (l.map fun p => p.2 • f p.1).sum,
        acc.2.2 + (l.map fun p => p.2 • (f p.1 * f p.1)).sum) := by
  induction l with
  | nil => intro acc; simp
  | cons p l ih =>
    intro acc
    rw [List.foldl_cons, ih]
    simp [add_assoc]

/-- **C46 (spatial average).**  The spatial averages are the mass weighted means of the primitive state and of its
square over the points of all ranks, however these are distributed; the point values are those of the state, in
order. -/
theorem C46_spatial_average {c : ℕ} (points : List (List (ℕ × ℝ))) (prim : ℕ → ℕ → Fin c → ℝ) (d : Fin c) :
    let all : List (ℝ × ℝ) := points.zipIdx.flatMap fun r => r.1.map fun p => (p.2, prim r.2 p.1 d)
    (internalAccumulate points prim).2.1 d = (all.map fun p => p.1 * p.2).sum / (all.map Prod.fst).sum ∧
      (internalAccumulate points prim).2.2 d = (all.map fun p => p.1 * p.2 ^ 2).sum / (all.map Prod.fst).sum ∧
      (internalAccumulate points prim).1 =
        points.zipIdx.map fun r => r.1.map fun p => (prim r.2 p.1, fun e => prim r.2 p.1 e ^ 2) := by
  intro all
  have sum_app : ∀ (l : List (Fin c → ℝ)), l.sum d = (l.map fun x => x d).sum := by
    intro l
    induction l with
    | nil => simp
    | cons x l ih => simp [ih]
  have sum_flat : ∀ {β : Type} (l : List β) (g : β → List ℝ), (l.flatMap g).sum = (l.map fun x => (g x).sum).sum := by
    intro β l g
    induction l with
    | nil => simp
    | cons x l ih => simp [ih]
  have hm : (all.map Prod.fst).sum = (points.zipIdx.map fun r => (r.1.map Prod.snd).sum).sum := by
    simp only [all, List.map_flatMap, sum_flat, List.map_map]
    rfl
  have h1 : (all.map fun p => p.1 * p.2).sum =
      (points.zipIdx.map fun r => (r.1.map fun p => p.2 * prim r.2 p.1 d).sum).sum := by
    simp only [all, List.map_flatMap, sum_flat, List.map_map]
    rfl
  have h2 : (all.map fun p => p.1 * p.2 ^ 2).sum =
      (points.zipIdx.map fun r => (r.1.map fun p => p.2 * prim r.2 p.1 d ^ 2).sum).sum := by
    simp only [all, List.map_flatMap, sum_flat, List.map_map]
    rfl
  rw [hm, h1, h2]
  have hf : ∀ r : List (ℕ × ℝ) × ℕ, r.1.foldl
      (fun (acc : ℝ × (Fin c → ℝ) × (Fin c → ℝ)) p =>
        (acc.1 + p.2, acc.2.1 + p.2 • prim r.2 p.1, acc.2.2 + p.2 • (prim r.2 p.1 * prim r.2 p.1))) (0, 0, 0) =
      ((r.1.map Prod.snd).sum, (r.1.map fun p => p.2 • prim r.2 p.1).sum,
        (r.1.map fun p => p.2 • (prim r.2 p.1 * prim r.2 p.1)).sum) := by
    intro r
    rw [foldl_sums]
    simp
  unfold internalAccumulate
  simp only [hf, List.map_map, Function.comp_def]
  refine ⟨?_, ?_, ?_⟩
  · rw [Pi.smul_apply, sum_app, smul_eq_mul, one_div, inv_mul_eq_div]
    simp only [List.map_map, Function.comp_def, sum_app, Pi.smul_apply, smul_eq_mul]
  · rw [Pi.smul_apply, sum_app, smul_eq_mul, one_div, inv_mul_eq_div]
    simp only [List.map_map, Function.comp_def, sum_app, Pi.smul_apply, smul_eq_mul, Pi.mul_apply, sq]
  · refine List.map_congr_left fun r _ => List.map_congr_left fun p _ => ?_
    congr 1
    funext e
    simp [sq]

/-! ### Violations of the unrestricted property -/

/-- The hypothesis on samples at time zero cannot be dropped: if two samples are taken at time zero, the interval
following them is left out of the average (5, 5, 5 at times 0, 0, 1 and 1 at time 2: the file says "from 1 to 2" and
3, the average from 0 to 2 is 4). -/
theorem C46_repeated_zero_violation :
    ∃ (σ : State ℝ ℝ) (before : List (Event ℝ ℝ)),
      (start [⟨true, false, false⟩] : State ℝ ℝ).calls (fun _ s => (s, s)) true
        [.accumulate 0 5, .accumulate 0 5, .accumulate 1 5, .accumulate 2 1] = some (σ, before) ∧
      (∃ σ', σ.writeOut (fun _ s => (s, s)) true 2 (1 : ℝ) 7 = some (σ', [Event.timeAveraged 0 7 1 2 3])) ∧
      (1 / (2 - 0 : ℝ)) • trapezoid [((0 : ℝ), (5 : ℝ)), (0, 5), (1, 5), (2, 1)] = 4 := by
  refine ⟨⟨[⟨⟨true, false, false⟩, ⟨5, 1, 3, 1, 2, 1⟩, [(0, 5), (0, 5), (1, 5), (2, 1)]⟩], none⟩, [], ?_,
    ⟨⟨[⟨⟨true, false, false⟩, ⟨0, 0, 0, 0, 0, 0⟩, []⟩], none⟩, ?_⟩, ?_⟩
  · norm_num [start, State.calls, State.call, State.accumulate, Manifold.accumulate, Stat.accumulate, Stat.cleared]
  · norm_num [State.writeOut, writeLoop, Manifold.writeFields, Manifold.writeSeries, State.clear, Manifold.clear,
      Stat.cleared]
  · simp only [trapezoid]
    norm_num

/-- Mesh adaptation discards the samples of a time series that have not been written yet. -/
theorem C61_adaptation_loses_samples_violation :
    ∃ (σ : State ℝ ℝ) (ev : List (Event ℝ ℝ)),
      (start [⟨false, true, false⟩] : State ℝ ℝ).calls (fun _ s => (s, s)) true
        [.accumulate 1 5, .prepare, .accumulate 2 6, .writeOut 2 6 0] = some (σ, ev) ∧
      entries 0 ev = [(2, 6)] ∧ unsaved [.accumulate 1 5, .prepare, .accumulate 2 6, .writeOut 2 (6 : ℝ) 0] = [] ∧
      samples [.accumulate 1 5, .prepare, .accumulate 2 6, .writeOut 2 (6 : ℝ) 0] = [(1, 5), (2, 6)] := by
  refine ⟨_, _, rfl, ?_, rfl, rfl⟩
  simp [entries, State.prepare, State.clear, State.accumulate, start, Manifold.accumulate, Manifold.clear,
    Manifold.writeSeries]

/-- Only the first space averaged manifold starts a new time series file: the file of any other manifold is opened for
appending at its very first write-out, and therefore never gets a header, nor is a file left by an earlier run
replaced. -/
theorem C61_series_header_violation :
    ∃ (σ : State ℝ ℝ) (ev : List (Event ℝ ℝ)),
      (start [⟨false, true, false⟩, ⟨false, true, false⟩] : State ℝ ℝ).calls (fun _ s => (s, s)) true
        [.accumulate 1 5, .writeOut 1 5 0] = some (σ, ev) ∧
      ev = [Event.series 0 0 false [(1, 5)], Event.series 1 0 true [(1, 5)]] := by
  refine ⟨_, _, rfl, ?_⟩
  simp [State.accumulate, start, Manifold.accumulate, Manifold.writeSeries]

/-- With statistics cleared on write-out the averaging intervals do not follow one another: the time between a
write-out and the next sample belongs to none of them. -/
theorem C46_gap_violation :
    ∃ (σ : State ℝ ℝ) (ev : List (Event ℝ ℝ)),
      (start [⟨true, false, false⟩] : State ℝ ℝ).calls (fun _ s => (s, s)) true
        [.accumulate 0 4, .accumulate 1 4, .writeOut 1 4 0, .accumulate 3 8, .accumulate 4 8, .writeOut 4 8 1]
        = some (σ, ev) ∧
      ev = [Event.timeAveraged 0 0 0 1 4, Event.timeAveraged 0 1 3 4 8] := by
  refine ⟨⟨[⟨⟨true, false, false⟩, ⟨0, 0, 0, 0, 0, 0⟩, []⟩], none⟩, _, ?_, rfl⟩
  norm_num [start, State.calls, State.call, State.accumulate, Manifold.accumulate, Stat.accumulate, Stat.cleared,
    State.writeOut, writeLoop, Manifold.writeFields, Manifold.writeSeries, State.clear, Manifold.clear]

/-! ### A concrete case -/

/-- The hypotheses of `C46_time_average` are met, and the file contents are as expected. -/
example :
    ∃ (σ σ' : State ℝ ℝ) (before ev : List (Event ℝ ℝ)),
      (start [⟨true, true, true⟩] : State ℝ ℝ).calls (fun _ s => (s, s)) true
        [.accumulate 0 0, .accumulate 1 2, .accumulate 3 2] = some (σ, before) ∧
      σ.writeOut (fun _ s => (s, s)) true 3 (2 : ℝ) 7 = some (σ', ev) ∧
      OnceAtZero (window true [.accumulate 0 (0 : ℝ), .accumulate 1 2, .accumulate 3 2]) ∧
      Event.timeAveraged 0 7 0 3 (5 / 3) ∈ ev ∧ Event.instantaneous 0 7 3 2 ∈ ev ∧
      entries 0 ev = [(0, 0), (1, 2), (3, 2)] := by
  refine ⟨⟨[⟨⟨true, true, true⟩, ⟨2, 2, 5, 1, 3, 3⟩, [(0, 0), (1, 2), (3, 2)]⟩], none⟩,
    ⟨[⟨⟨true, true, true⟩, ⟨0, 0, 0, 0, 0, 0⟩, []⟩], some 7⟩, [],
    [Event.instantaneous 0 7 3 2, Event.timeAveraged 0 7 0 3 (5 / 3), Event.series 0 7 false [(0, 0), (1, 2), (3, 2)]],
    ?_, ?_, ?_, by simp, by simp, by simp [entries]⟩
  · norm_num [start, State.calls, State.call, State.accumulate, Manifold.accumulate, Stat.accumulate, Stat.cleared]
  · norm_num [State.writeOut, writeLoop, Manifold.writeFields, Manifold.writeSeries, State.clear, Manifold.clear,
      Stat.cleared]
  · norm_num [OnceAtZero, window]

end

end Quantities
end Ryujin
