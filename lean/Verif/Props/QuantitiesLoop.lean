import Verif.Props.Quantities
import Verif.Props.TimeLoop

/-!
# Time averages in the time loop (C46)

The calls of `Quantities` made by `TimeLoop::run` satisfy the hypotheses of `C46_time_average`, and never raise the
internal exception of `write_out`.
-/

namespace Ryujin
namespace Quantities

noncomputable section

variable {V A S W : Type} [AddCommGroup V] [Module ℝ V]

/-- The call of `Quantities` behind an effect of the time loop; a mesh adaptation calls `prepare_compute_kernels`,
which calls `quantities_.prepare` (time_loop.template.h:250-260). -/
def toOp : TimeLoop.Event S → Option (Op S)
  | .accumulate t s => some (.accumulate t s)
  | .writeQuantities cycle t s => some (.writeOut t s cycle)
  | .adapt _ => some .prepare
  | _ => none

/-- The calls made by one pass through the loop body. -/
def passOps (c : TimeLoop.Config) (e : TimeLoop.Env S W) (σ : TimeLoop.State S W) : List (Op S) :=
  (TimeLoop.iteration c e σ).events.filterMap toOp

/-- The calls made by the first `N` passes. -/
def loopOps (c : TimeLoop.Config) (e : TimeLoop.Env S W) (st : ℕ → TimeLoop.State S W) (N : ℕ) : List (Op S) :=
  (List.range N).flatMap fun i => passOps c e (st i)

omit [AddCommGroup V] [Module ℝ V] in
theorem output_toOp {c : TimeLoop.Config} {e : TimeLoop.Env S W} {a : Bool} {s s' : S} {t : ℝ} {k : ℕ}
    {ev : List (TimeLoop.Event S)} (h : TimeLoop.output c e a s t k = some (s', ev)) : ev.filterMap toOp = [] := by
  obtain ⟨-, -, -, -, -, rfl⟩ := TimeLoop.output_events h
  split_ifs <;> simp [toOp]

/-- The calls of a pass: one sample, possibly a write-out at the same time, possibly a mesh adaptation. -/
theorem passOps_shape {c : TimeLoop.Config} {e : TimeLoop.Env S W} {σ σ' : TimeLoop.State S W}
    {ev : List (TimeLoop.Event S)} (hq : c.quantities = true) (h : TimeLoop.iteration c e σ = .continue σ' ev) :
    ∃ (w p : List (Op S)), passOps c e σ = .accumulate σ.t σ.state :: (w ++ p) ∧
      (w = [] ∨ ∃ s k, w = [.writeOut σ.t s k]) ∧ (p = [] ∨ p = [.prepare]) := by
  obtain ⟨s, ev₁, tau, ht, -, -, -, -, rfl⟩ := TimeLoop.iteration_continue h
  have hw : ev₁.filterMap toOp = [] ∨ ∃ s' k, ev₁.filterMap toOp = [.writeOut σ.t s' k] := by
    rcases ht with ⟨-, ht, -⟩ | ⟨-, -, rfl, -⟩
    · obtain ⟨e1, e2, e3, h1, h2, h3, -, -, rfl⟩ := TimeLoop.tick_events ht
      have z1 := output_toOp h1
      have z2 : e2.filterMap toOp = [] := by
        split_ifs at h2
        · obtain ⟨a', h2⟩ := h2
          exact output_toOp h2
        · rw [h2]; rfl
      rcases h3 with rfl | rfl
      · left; simp [z1, z2]
      · right; exact ⟨s, σ.timer_cycle, by simp [z1, z2, toOp]⟩
    · left; rfl
  have hp : (TimeLoop.adaptation c e s σ.adaptor σ.t).2.2.filterMap toOp = [] ∨
      (TimeLoop.adaptation c e s σ.adaptor σ.t).2.2.filterMap toOp = [.prepare] := by
    unfold TimeLoop.adaptation
    split_ifs
    · dsimp only
      split_ifs
      · right; rfl
      · left; rfl
    · left; rfl
  refine ⟨_, _, ?_, hw, hp⟩
  rw [passOps, h]
  simp [TimeLoop.Iter.events, hq, toOp]

/-- A write-out directly after a sample at the same time does not raise an exception. -/
theorem writeOut_isSome (obs : ℕ → S → V × A) (clearing : Bool) (σ : State V A) (t : ℝ) (s : S) (cycle : ℕ)
    (ht : ∀ m ∈ σ.manifolds, m.options.averaged → m.stat.t_new = t) :
    ∃ r, σ.writeOut obs clearing t s cycle = some r := by
  suffices H : ∀ (ms : List (Manifold V A)) (k : ℕ) (c : Option ℕ),
      (∀ m ∈ ms, m.options.averaged → m.stat.t_new = t) → ∃ r, writeLoop obs t s cycle k ms c = some r by
    obtain ⟨r, hr⟩ := H σ.manifolds 0 σ.series_cycle ht
    unfold State.writeOut
    rw [hr]
    exact ⟨_, rfl⟩
  intro ms
  induction ms with
  | nil => intro k c _; exact ⟨_, rfl⟩
  | cons m ms ih =>
    intro k c h
    have h1 : ∃ r, m.writeFields k cycle t (obs k s).1 = some r := by
      have hm := h m (List.mem_cons_self ..)
      unfold Manifold.writeFields
      dsimp only
      obtain ⟨⟨ot, os, oi⟩, st, se⟩ := m
      cases oi
      · exact ⟨_, rfl⟩
      · cases ot <;> cases os
        · exact ⟨_, rfl⟩
        all_goals
          have := hm (by simp [Options.averaged])
          dsimp only at this ⊢
          simp [this]
    obtain ⟨r, hr⟩ := h1
    simp only [writeLoop]
    rw [hr, Option.bind_some]
    obtain ⟨q, hq⟩ := ih (k + 1) (r.1.writeSeries k cycle c).2.1 (fun m hm => h m (List.mem_cons_of_mem _ hm))
    rw [hq]
    exact ⟨_, rfl⟩

theorem accumulate_t_new (obs : ℕ → S → V × A) (σ : State V A) (t : ℝ) (s : S) :
    ∀ m ∈ (σ.accumulate obs t s).manifolds, m.options.averaged → m.stat.t_new = t := by
  intro m hm ha
  simp only [State.accumulate] at hm
  obtain ⟨i, hi, rfl⟩ := List.mem_mapIdx.1 hm
  have opt : ∀ (n : Manifold V A) v a, (n.accumulate t v a).options = n.options := by
    intro n v a; unfold Manifold.accumulate; split_ifs <;> rfl
  rw [opt] at ha
  unfold Manifold.accumulate
  rw [if_neg]
  · dsimp only
    unfold Stat.accumulate
    dsimp only
    split_ifs <;> rfl
  · rcases ha with ha | ha <;> simp [ha]

theorem calls_append (obs : ℕ → S → V × A) (clearing : Bool) (a b : List (Op S)) :
    ∀ σ : State V A, σ.calls obs clearing (a ++ b) =
      (σ.calls obs clearing a).bind fun r => (r.1.calls obs clearing b).map fun q => (q.1, r.2 ++ q.2) := by
  induction a with
  | nil => intro σ; simp [State.calls]
  | cons o a ih =>
    intro σ
    simp only [List.cons_append, State.calls]
    cases σ.call obs clearing o with
    | none => rfl
    | some r =>
      simp only [Option.bind_some, ih]
      cases r.1.calls obs clearing a with
      | none => rfl
      | some q =>
        simp only [Option.bind_some, Option.map_some]
        cases q.1.calls obs clearing b with
        | none => rfl
        | some p => simp

/-- **C46 (no internal error).**  In a run of the time loop the calls of `Quantities` never fail: `write_out` always
finds a sample taken at the time of the write-out. -/
theorem C46_time_loop_no_error (obs : ℕ → S → V × A) (clearing : Bool) (c : TimeLoop.Config) (e : TimeLoop.Env S W)
    (st : ℕ → TimeLoop.State S W) (N : ℕ) (hr : TimeLoop.IsRun c e st N) (hq : c.quantities = true) (σ : State V A) :
    ∃ r, σ.calls obs clearing (loopOps c e st N) = some r := by
  induction N with
  | zero => exact ⟨_, rfl⟩
  | succ N ih =>
    obtain ⟨r, h⟩ := ih (hr.mono (Nat.le_succ N))
    have e1 : loopOps c e st (N + 1) = loopOps c e st N ++ passOps c e (st N) := by
      simp [loopOps, List.range_succ]
    rw [e1, calls_append, h, Option.bind_some]
    suffices H : ∃ q, r.1.calls obs clearing (passOps c e (st N)) = some q by
      obtain ⟨q, hq⟩ := H
      rw [hq]; exact ⟨_, rfl⟩
    obtain ⟨ev, he⟩ := hr N (Nat.lt_succ_self N)
    obtain ⟨w, p, h1, h2, h3⟩ := passOps_shape hq he
    rw [h1]
    simp only [State.calls, State.call, Option.bind_some]
    suffices H : ∃ q, (r.1.accumulate obs (st N).t (st N).state).calls obs clearing (w ++ p) = some q by
      obtain ⟨q, hq⟩ := H
      rw [hq]; exact ⟨_, rfl⟩
    rw [calls_append]
    have hw : ∃ q, (r.1.accumulate obs (st N).t (st N).state).calls obs clearing w = some q := by
      rcases h2 with rfl | ⟨s, k, rfl⟩
      · exact ⟨_, rfl⟩
      · obtain ⟨q, hq⟩ := writeOut_isSome obs clearing (r.1.accumulate obs (st N).t (st N).state) (st N).t s k
          (accumulate_t_new _ _ _ _)
        simp only [State.calls, State.call]
        rw [hq]
        exact ⟨_, rfl⟩
    obtain ⟨q, hq⟩ := hw
    rw [hq, Option.bind_some]
    rcases h3 with rfl | rfl
    · exact ⟨_, rfl⟩
    · exact ⟨_, rfl⟩

omit [AddCommGroup V] [Module ℝ V] in
/-- The samples since the last reset are the most recent ones of all samples. -/
theorem window_suffix (clearing : Bool) (ops : List (Op S)) : window clearing ops <:+ samples ops := by
  suffices H : ∀ (ops : List (Op S)) (w : List (ℝ × S)),
      ops.foldl (fun w o => match o with
        | .accumulate t s => w ++ [(t, s)]
        | .writeOut _ _ _ => if clearing then [] else w
        | .prepare => []) w <:+ w ++ samples ops by
    exact H ops []
  intro ops
  induction ops with
  | nil => intro w; simp [samples]
  | cons o os ih =>
    intro w
    rw [List.foldl_cons]
    cases o with
    | accumulate t s =>
      have := ih (w ++ [(t, s)])
      simpa [samples] using this
    | writeOut t s k =>
      cases clearing
      · simpa [samples] using ih w
      · have := ih []
        simp only [List.nil_append] at this
        simpa [samples] using this.trans (List.suffix_append w _)
    | prepare =>
      have := ih []
      simp only [List.nil_append] at this
      simpa [samples] using this.trans (List.suffix_append w _)

/-- The samples taken by a run are those of the states at the beginning of the passes. -/
theorem samples_loopOps (c : TimeLoop.Config) (e : TimeLoop.Env S W) (st : ℕ → TimeLoop.State S W) (N : ℕ)
    (hr : TimeLoop.IsRun c e st N) (hq : c.quantities = true) :
    samples (loopOps c e st N) = (List.range N).map fun i => ((st i).t, (st i).state) := by
  induction N with
  | zero => rfl
  | succ N ih =>
    obtain ⟨ev, he⟩ := hr N (Nat.lt_succ_self N)
    obtain ⟨w, p, h1, h2, h3⟩ := passOps_shape hq he
    have e1 : loopOps c e st (N + 1) = loopOps c e st N ++ passOps c e (st N) := by
      simp [loopOps, List.range_succ]
    have e2 : ∀ a b : List (Op S), samples (a ++ b) = samples a ++ samples b := by intro a b; simp [samples]
    rw [e1, e2, ih (hr.mono (Nat.le_succ N)), h1, List.range_succ, List.map_append]
    congr 1
    rcases h2 with rfl | ⟨s, k, rfl⟩ <;> rcases h3 with rfl | rfl <;> rfl

/-- **C46 (time loop).**  If every time step has positive length, the samples since the last reset are taken at
strictly increasing times; in particular the hypothesis of `C46_time_average` is met, and with enabled statistics no
step of the run is left out: without resets the samples are those of all time steps. -/
theorem C46_time_loop (clearing : Bool) (c : TimeLoop.Config) (e : TimeLoop.Env S W)
    (st : ℕ → TimeLoop.State S W) (N : ℕ) (hr : TimeLoop.IsRun c e st N) (hq : c.quantities = true)
    (hpos : ∀ i < N, (st i).t < (st (i + 1)).t) :
    ((window clearing (loopOps c e st N)).map Prod.fst).Pairwise (· < ·) ∧
      OnceAtZero (window clearing (loopOps c e st N)) ∧
      samples (loopOps c e st N) = (List.range N).map fun i => ((st i).t, (st i).state) := by
  have hs := samples_loopOps c e st N hr hq
  have hmono : ∀ i j, i < j → j ≤ N → (st i).t < (st j).t := by
    intro i j hij hj
    induction j with
    | zero => omega
    | succ j ih =>
      rcases Nat.lt_succ_iff_lt_or_eq.1 hij with h | rfl
      · exact (ih h (by omega)).trans (hpos j (by omega))
      · exact hpos i (by omega)
  have hp : (samples (loopOps c e st N)).Pairwise fun a b => a.1 < b.1 := by
    rw [hs, List.pairwise_map]
    refine (List.pairwise_lt_range (n := N)).imp_of_mem ?_
    intro a b ha hb hab
    exact hmono a b hab (List.mem_range.1 hb).le
  have hw := hp.sublist (window_suffix clearing (loopOps c e st N)).sublist
  refine ⟨by rw [List.pairwise_map]; exact hw, hw.imp ?_, hs⟩
  rintro a b hab ⟨h1, h2⟩
  rw [h1, h2] at hab
  exact lt_irrefl _ hab

/-- The hypotheses are met: the run of `TimeLoop.demo_run` with quantities enabled. -/
example : ∃ (c : TimeLoop.Config) (e : TimeLoop.Env ℝ Unit) (st : ℕ → TimeLoop.State ℝ Unit),
    c.quantities = true ∧ TimeLoop.IsRun c e st 4 ∧ ∀ i < 4, (st i).t < (st (i + 1)).t := by
  refine ⟨{ TimeLoop.demoConfig with quantities := true, mQuantities := 1 }, TimeLoop.demoEnv, TimeLoop.demoState, rfl, ?_, ?_⟩
  · intro i hi
    refine ⟨(TimeLoop.iteration { TimeLoop.demoConfig with quantities := true, mQuantities := 1 } TimeLoop.demoEnv
      (TimeLoop.demoState i)).events, ?_⟩
    interval_cases i <;>
      norm_num [TimeLoop.iteration, TimeLoop.demoConfig, TimeLoop.demoState, TimeLoop.demoEnv, TimeLoop.tick,
        TimeLoop.output, TimeLoop.threshold, TimeLoop.adaptation, TimeLoop.Adaptor.analyze, TimeLoop.Adaptor.prepare,
        TimeLoop.Iter.events]
  · intro i _
    simp only [TimeLoop.demoState]
    push_cast
    linarith

end

end Quantities
end Ryujin
