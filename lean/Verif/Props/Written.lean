import Verif.Spec.Written
import Verif.Props.Restart
import Verif.Props.Runs

/-!
# C127 – everything a simulation writes obeys the guarantees

The guarantees for state vectors (C90, C92) hold for everything the program lets the outside world see: graphical output,
checkpoints and quantities, of a program and of all programs resumed from its checkpoints, wherever they were stopped.
-/

namespace Ryujin
namespace TimeLoop

variable {S W : Type}

/-- All effects of a completed pass that show a state vector are among the visible ones. -/
theorem visible_complete (c : Config) (e : Env S W) (σ : State S W) (ev : Event S) (h : ev ∈ (iteration c e σ).events)
    {s : S} (hs : ev.shows = some s) : ev ∈ visible c e σ := by
  classical
  have had : ∀ s a t, ev ∉ (adaptation c e s a t).2.2 := by
    intro s a t hm
    have : ev = Event.adapt t := by
      simp only [adaptation] at hm
      by_cases h1 : c.adaptivity = true
      · by_cases h2 : (a.analyze t).need = true
        · simpa [h1, h2] using hm
        · simp [h1, h2] at hm
      · simp [h1] at hm
    subst this
    simp [Event.shows] at hs
  have fin : ∀ (s : S) (k : ℕ) (A B : List (Event S)), ev ∈ (match e.step σ.hidden (adaptation c e s σ.adaptor σ.t).1 σ.t
        (if c.enforce = true then some c.tFinal else none) with
      | none => (Iter.abort : Iter S W)
      | some (s', tau, w) => Iter.continue ⟨σ.t + tau, k, s', (adaptation c e s σ.adaptor σ.t).2.1, w⟩
          (A ++ B ++ (adaptation c e s σ.adaptor σ.t).2.2)).events → ev ∈ A ++ B := by
    intro s k A B hm
    split at hm
    · simp [Iter.events] at hm
    · simp only [Iter.events] at hm
      rcases List.mem_append.1 hm with hm | hm
      · exact hm
      · exact absurd hm (had _ _ _)
  unfold iteration at h
  unfold visible
  by_cases ht : σ.t ≥ σ.timer_cycle * c.granularity
  · simp only [ht, if_true] at h ⊢
    cases hk : tick c e σ.state σ.t σ.timer_cycle with
    | none => rw [hk] at h; simp [Iter.events] at h
    | some r =>
      rw [hk] at h
      simp only [Option.map_some] at h
      by_cases hf : σ.t ≥ threshold c
      · simp only [hf, if_true, Iter.events] at h
        exact h
      · simp only [hf, if_false] at h
        exact fin _ _ _ _ h
  · simp only [ht, if_false] at h ⊢
    by_cases hf : σ.t ≥ threshold c
    · simp only [hf, if_true, Iter.events] at h
      exact h
    · simp only [hf, if_false] at h
      exact fin _ _ _ _ h

/-- What `output` leaves and shows is the old or the prepared state vector. -/
theorem output_shows {c : Config} {e : Env S W} {a : Bool} {s s' : S} {t : ℝ} {k : ℕ} {evs : List (Event S)}
    (h : output c e a s t k = some (s', evs)) :
    (s' = s ∨ s' = e.prep t s) ∧ ∀ ev ∈ evs, ∀ u, ev.shows = some u → u = s' := by
  simp only [output] at h
  split_ifs at h
  all_goals
    simp only [Option.some.injEq, Prod.mk.injEq] at h
    obtain ⟨rfl, rfl⟩ := h
    refine ⟨by first | exact Or.inl rfl | exact Or.inr rfl, fun ev hev u hu => ?_⟩
    simp only [List.append_nil, List.nil_append, List.cons_append, List.mem_cons, List.not_mem_nil, or_false] at hev
    try first
    | (subst hev; simpa [Event.shows] using hu.symm)
    | (rcases hev with hev | hev <;> (subst hev; simpa [Event.shows] using hu.symm))

/-- What the tasks of a timer tick leave and show is the old or the prepared state vector. -/
theorem tick_shows {c : Config} {e : Env S W} (he : c.error = false) {s s' : S} {t : ℝ} {k : ℕ} {evs : List (Event S)}
    (h : tick c e s t k = some (s', evs)) :
    (s' = s ∨ s' = e.prep t s) ∧ ∀ ev ∈ evs, ∀ u, ev.shows = some u → u = s' := by
  unfold tick at h
  cases ho : output c e false s t k with
  | none => rw [ho] at h; simp at h
  | some r =>
    obtain ⟨s1, ev1⟩ := r
    have h1 := output_shows ho
    rw [ho] at h
    simp only [he, Option.bind_eq_bind, Option.bind_some, Bool.false_eq_true, if_false] at h
    split_ifs at h
    · simp at h
    · simp only [Option.some.injEq, Prod.mk.injEq] at h
      obtain ⟨rfl, rfl⟩ := h
      refine ⟨h1.1, fun ev hev u hu => ?_⟩
      simp only [List.append_nil, List.mem_append, List.mem_singleton] at hev
      rcases hev with hev | hev
      · exact h1.2 ev hev u hu
      · subst hev
        simpa [Event.shows] using hu.symm
    · simp only [Option.some.injEq, Prod.mk.injEq, List.append_nil] at h
      obtain ⟨rfl, rfl⟩ := h
      exact h1
    · simp only [Option.some.injEq, Prod.mk.injEq, List.append_nil] at h
      obtain ⟨rfl, rfl⟩ := h
      exact h1

/-- What a pass shows is the state at its beginning or the prepared one. -/
theorem visible_shows {c : Config} {e : Env S W} (he : c.error = false) {σ : State S W} {ev : Event S}
    (h : ev ∈ visible c e σ) {u : S} (hu : ev.shows = some u) : u = σ.state ∨ u = e.prep σ.t σ.state := by
  classical
  unfold visible at h
  rw [List.mem_append] at h
  rcases h with h | h
  · split_ifs at h <;> simp at h
    subst h
    left
    simpa [Event.shows] using hu.symm
  · split_ifs at h
    · split at h
      · rename_i r hr
        have := tick_shows (s' := r.1) (evs := r.2) he hr
        rw [this.2 ev h u hu]
        exact this.1
      · simp at h
    · simp at h

/-- A pass that goes on makes a time step from the state at its beginning or the prepared one. -/
theorem iteration_step {c : Config} {e : Env S W} (he : c.error = false) (ha : c.adaptivity = false) {σ σ' : State S W}
    {ev : List (Event S)} (h : iteration c e σ = .continue σ' ev) : ∃ s tau, (s = σ.state ∨ s = e.prep σ.t σ.state) ∧
      e.step σ.hidden s σ.t (if c.enforce then some c.tFinal else none) = some (σ'.state, tau, σ'.hidden) ∧
      σ'.t = σ.t + tau := by
  classical
  unfold iteration at h
  have had : ∀ s, adaptation c e s σ.adaptor σ.t = (s, σ.adaptor, []) := fun s => by simp [adaptation, ha]
  simp only [had] at h
  by_cases ht : σ.t ≥ σ.timer_cycle * c.granularity
  · simp only [ht, if_true] at h
    cases hk : tick c e σ.state σ.t σ.timer_cycle with
    | none => rw [hk] at h; simp at h
    | some r =>
      have h1 := (tick_shows (s' := r.1) (evs := r.2) he hk).1
      rw [hk] at h
      simp only [Option.map_some] at h
      by_cases hf : σ.t ≥ threshold c
      · simp only [hf, if_true] at h; simp at h
      · simp only [hf, if_false] at h
        split at h
        · simp at h
        · rename_i s' tau w hs
          simp only [Iter.continue.injEq] at h
          obtain ⟨rfl, -⟩ := h
          exact ⟨_, tau, h1, hs, rfl⟩
  · simp only [ht, if_false] at h
    by_cases hf : σ.t ≥ threshold c
    · simp only [hf, if_true] at h; simp at h
    · simp only [hf, if_false] at h
      split at h
      · simp at h
      · rename_i s' tau w hs
        simp only [Iter.continue.injEq] at h
        obtain ⟨rfl, -⟩ := h
        exact ⟨_, tau, Or.inl rfl, hs, rfl⟩

/-- **C127 (invariants).** A property of state vectors that holds initially and is kept by the boundary pass and by time
steps holds for every state vector that a simulation ever lets the outside world see. -/
theorem C127_invariant (e : Env S W) (ok : State S W → State S W → Prop) (K : Set S) (s₀ : S) (h0 : s₀ ∈ K)
    (hprep : ∀ t, ∀ s ∈ K, e.prep t s ∈ K)
    (hstep : ∀ σ σ' s l tau, s ∈ K → (s = σ.state ∨ s = e.prep σ.t σ.state) → ok σ σ' →
      e.step σ.hidden s σ.t l = some (σ'.state, tau, σ'.hidden) → σ'.state ∈ K)
    (ev : Event S) (h : Written e ok s₀ ev) (s : S) (hs : ev.shows = some s) : s ∈ K := by
  have key : ∀ (c : Config) (st : ℕ → State S W) (N : ℕ), c.error = false → c.adaptivity = false → IsRun c e st N →
      (st 0).state ∈ K → (∀ k < N, ok (st k) (st (k + 1))) → ∀ i ≤ N, (st i).state ∈ K := by
    intro c st N he ha hr hi hside i
    induction i with
    | zero => intro _; exact hi
    | succ i ih =>
      intro hiN
      have hK := ih (by omega)
      obtain ⟨ev, hev⟩ := hr i (by omega)
      obtain ⟨s, tau, hs, h1, -⟩ := iteration_step he ha hev
      refine hstep _ _ s _ tau ?_ hs (hside i (by omega)) h1
      rcases hs with rfl | rfl
      · exact hK
      · exact hprep _ _ hK
  induction h generalizing s with
  | fresh he ha hr hfirst side hi hmem =>
    have := key _ _ _ he ha hr (by rw [hfirst]; exact h0) side _ hi
    rcases visible_shows he hmem hs with rfl | rfl
    · exact this
    · exact hprep _ _ this
  | resumed he ha saved hr hfirst side hi hmem ih =>
    rename_i atZero _ _ s1
    have h1 := ih s1 rfl
    have := key _ _ _ he ha hr (by rw [hfirst]; cases atZero <;> exact h1) side _ hi
    rcases visible_shows he hmem hs with rfl | rfl
    · exact this
    · exact hprep _ _ this

/-- Output of everything in every pass; the loop ends after time one. -/
noncomputable def everything : Config where
  tFinal := 1
  enforce := false
  eps := 0
  granularity := 0
  checkpointing := true
  full := true
  levelsets := false
  error := false
  quantities := true
  adaptivity := false
  mCheckpoint := 1
  mFull := 1
  mLevelsets := 1
  mQuantities := 1
  distributed := true

/-- A time step that succeeds is seen from outside. -/
theorem written_after_step {e : Env S W} {ok : State S W → State S W → Prop} {s₀ s' : S} {w w' : W} {tau : ℝ}
    (h : e.step w (e.prep 0 s₀) 0 none = some (s', tau, w'))
    (hok : ok (fresh s₀ [] w) ⟨0 + tau, 1, s', ⟨[], false⟩, w'⟩) :
    Written e ok s₀ (.checkpoint 0 0 (e.prep 0 s₀)) ∧ Written e ok s₀ (.accumulate (0 + tau) s') := by
  classical
  let st : ℕ → State S W := fun i => if i = 0 then fresh s₀ [] w else ⟨0 + tau, 1, s', ⟨[], false⟩, w'⟩
  have hrun : IsRun everything e st 1 := by
    intro i hi
    obtain rfl : i = 0 := by omega
    exact ⟨_, by
      have h2 : ¬ ((1 : ℝ) ≤ 0) := by norm_num
      simp [st, iteration, fresh, everything, tick, output, adaptation, threshold, h, Adaptor.prepare, h2]
      rfl⟩
  have hside : ∀ k < 1, ok (st k) (st (k + 1)) := by
    intro k hk
    obtain rfl : k = 0 := by omega
    simpa [st] using hok
  constructor
  · refine .fresh (i := 0) (N := 1) (st := st) rfl rfl hrun rfl hside (by norm_num) ?_
    simp [visible, st, fresh, everything, tick, output]
  · refine .fresh (i := 1) (N := 1) (st := st) rfl rfl hrun rfl hside (by norm_num) ?_
    simp [visible, st, everything]

section
open Integrator

variable {X P : Type} [AddCommGroup X] [Module ℝ X]

/-- A time step of the environment built from the time integrator. -/
theorem integratorEnv_step {Mo : Modules X P} {sch : Scheme} {rec : Recovery} {cflMin cflMax big : ℝ} {adapt : X → X}
    {analytic : X → ℝ → X} {w w' : Mem X P × Ctx × ℕ} {s s' : X} {t tau : ℝ} {l : Option ℝ}
    (h : (integratorEnv Mo sch rec cflMin cflMax big adapt analytic).step w s t l = some (s', tau, w')) :
    Integrator.step Mo (program sch) rec cflMin cflMax w.2.1 t (l.getD big) (setU w.1 .old s) w.2.2
      = (.returned w'.1 tau w'.2.2, w'.2.1) ∧ (w'.1 .old).U = s' := by
  simp only [integratorEnv] at h
  split at h
  · rename_i m tau' n ctx hs
    simp only [Option.some.injEq, Prod.mk.injEq] at h
    obtain ⟨rfl, rfl, rfl⟩ := h
    exact ⟨hs, rfl⟩
  · simp at h

/-- A time step of the environment is a run of one step. -/
theorem integratorEnv_run {Mo : Modules X P} {sch : Scheme} {rec : Recovery} {cflMin cflMax big : ℝ} {adapt : X → X}
    {analytic : X → ℝ → X} {w w' : Mem X P × Ctx × ℕ} {s s' : X} {t tau : ℝ} {l : Option ℝ} {ok : Ctx → X → Prop}
    (h : (integratorEnv Mo sch rec cflMin cflMax big adapt analytic).step w s t l = some (s', tau, w'))
    (side : ∀ u, u = Mo.bc t s ∨ u = Mo.bc t (Mo.bc t s) → ok w'.2.1 u) :
    Integrator.Run Mo sch rec cflMin cflMax ok (setU w.1 .old s) w'.1 ∧ (w'.1 .old).U = s' := by
  obtain ⟨h1, h2⟩ := integratorEnv_step h
  exact ⟨.next (.start _) h1 (by simpa [setU] using side), h2⟩

/-- A successful update is a time step of the environment with the forward Euler scheme. -/
theorem integratorEnv_erk11 {Mo : Modules X P} {cflMin cflMax big : ℝ} {adapt : X → X} {analytic : X → ℝ → X}
    {w : Mem X P} {ctx : Ctx} {n : ℕ} {s u : X} {t τ : ℝ} {l : Option ℝ}
    (h : Mo.hyp ctx n ⟨Mo.bc t s, Mo.pre (Mo.bc t s)⟩ [] (w (.temp 0)).U 0 (some (l.getD big - t)) = .ok u τ) :
    ∃ w', (integratorEnv Mo .erk_11 .none cflMin cflMax big adapt analytic).step (w, ctx, n) s t l = some (u, 1 * τ, w') ∧
      w'.2.1 = ctx := by
  have e : t + 0 * 0 = t := by ring
  refine ⟨(swapOld (setU (fun v' => if v' = Slot.old then ⟨Mo.bc t s, Mo.pre (Mo.bc t s)⟩ else setU w .old s v')
    (.temp 0) u) 0, ctx, n + 1), ?_, rfl⟩
  have h1 : (setU w .old s .old).U = s := by simp [setU]
  have h2 : (setU w .old s (.temp 0)).U = (w (.temp 0)).U := by simp [setU]
  simp only [integratorEnv, Integrator.step, singleStep, program, erk11, Integrator.run, exec, e, div_one, if_true,
    reduceCtorEq, if_false, h1, h2, h, finish]
  simp [swapOld, setU]

/-- **C127 (conservation).** On a mesh without boundary every state vector that a simulation ever writes – graphical
output, checkpoint or quantity, before and after any number of restarts – has exactly the totals of the initial state:
for all equations, schemes, output options, recoveries and stopping points. -/
theorem C127_conservation {ι Q S F B : Type} {dim : ℕ} [Fintype ι] [AddCommGroup S] [Module ℝ S]
    (D : Hyp.Description ι Q S F B dim) (M : Hyp.Mesh ι dim) (hM : M.WellFormed)
    (hC : M.Closed) (φ : S →ₗ[ℝ] ℝ) (hD : D.Conserves φ) (par : Hyp.Params) (big : ℝ) (pre : (ι → S) → Q)
    (lo : ℕ → Hyp.Leftover ι S) (garbage : ℕ → ι → S)
    (hrev : ∀ p i j U V n, D.riemann p i j U V n = D.riemann p j i V U (-n))
    (sch : Scheme) (rec : Recovery) (cflMin cflMax bigTime : ℝ) (adapt : (ι → S) → ι → S)
    (analytic : (ι → S) → ℝ → ι → S) (s₀ : ι → S) (ev : Event (ι → S))
    (h : Written (integratorEnv (hyperbolicModules D M par big (fun _ u => u) pre lo garbage fun _ _ _ _ _ _ => .crash)
      sch rec cflMin cflMax bigTime adapt analytic) (fun _ _ => True) s₀ ev)
    (s : ι → S) (hs : ev.shows = some s) :
    ∑ i ∈ Finset.univ.filter (fun i => M.nbrs i ≠ []), M.lumped i * φ (s i)
      = ∑ i ∈ Finset.univ.filter (fun i => M.nbrs i ≠ []), M.lumped i * φ (s₀ i) := by
  refine C127_invariant _ _ {u : ι → S | ∑ i ∈ Finset.univ.filter (fun i => M.nbrs i ≠ []), M.lumped i * φ (u i)
    = ∑ i ∈ Finset.univ.filter (fun i => M.nbrs i ≠ []), M.lumped i * φ (s₀ i)} s₀ rfl (fun _ _ h => h) ?_ ev h s hs
  intro σ σ' s l tau hK _ _ hstep
  obtain ⟨h1, h2⟩ := integratorEnv_run (ok := fun _ _ => True) hstep (fun _ _ => trivial)
  show _ = _
  rw [← h2, C90_hyperbolic_run_conserves D M hM hC φ hD par big pre lo garbage hrev sch rec cflMin cflMax _ _ _ h1]
  simpa [setU] using hK

/-- **C127 (maximum principle).** Scalar equations, any explicit scheme: if the completed time steps were accepted with
violations raising an exception, no value ever written leaves an interval that contains the initial values and the boundary
data. -/
theorem C127_scalar {ι : Type} {dim : ℕ} [Fintype ι] (fl : Scalar.Flux dim) (q : Scalar.StepParams)
    (draws : ι → ι → List ℝ) (lim : ι → ι → Scalar.Bounds → Scalar.State → Scalar.State → ℝ × Prop)
    (hlim : ∀ i j b U P, IsLaneOf (fun _ => Scalar.limit q.eps q.tiny) b U P (lim i j b U P))
    (M : Hyp.Mesh ι dim) (hM : M.WellFormed) (par : Hyp.Params)
    (hrelax : q.relaxation_factor = 0) (heps : q.eps = 0) (hqt : 0 < q.tiny) (ht : 0 < par.tiny)
    (hn0 : par.iterations ≠ 0) (hn : par.iterations ≤ 2)
    (hrev : ∀ i j, draws j i = (draws i j).map (1 - ·))
    (hskew : ∀ i, ∀ j ∈ M.nbrs i, ¬ (M.boundary i ∧ M.boundary j) → M.c j i = -M.c i j)
    (hroe : ∀ i j u v n, |(∑ k, fl.value u k * n k) - ∑ k, fl.value v k * n k|
      ≤ Scalar.riemann fl q.rp (draws i j) u v n * |u - v|)
    (a b : ℝ) (ha : |a| ≤ q.big) (hb : |b| ≤ q.big)
    (data : Vec dim → ℝ → Scalar.State) (map : List (Prepare.Entry ι Scalar.Boundary dim))
    (hdata : ∀ e ∈ map, ∀ t, a ≤ Scalar.state (data e.position t) ∧ Scalar.state (data e.position t) ≤ b)
    (big : ℝ) (lo : ℕ → Hyp.Leftover ι Scalar.State) (garbage : ℕ → ι → Scalar.State)
    (parabolic : Ctx → ℕ → (ι → Scalar.State) → ℝ → (ι → Scalar.State) → ℝ → Res (ι → Scalar.State))
    (sch : Scheme) (hsch : schemeAccepted true sch) (rec : Recovery) (cflMin cflMax bigTime : ℝ)
    (adapt : (ι → Scalar.State) → ι → Scalar.State) (analytic : (ι → Scalar.State) → ℝ → ι → Scalar.State)
    (s₀ : ι → Scalar.State) (h0 : ∀ i, M.nbrs i ≠ [] → a ≤ Scalar.state (s₀ i) ∧ Scalar.state (s₀ i) ≤ b)
    (ev : Event (ι → Scalar.State))
    (h : Written (integratorEnv (hyperbolicModules (Scalar.description fl q draws lim) M par big
        (passBc Prepare.scalar data map) (fun _ => ()) lo garbage parabolic) sch rec cflMin cflMax bigTime adapt analytic)
      (fun _ σ' => σ'.hidden.2.1.hyp = .raise_exception) s₀ ev)
    (s : ι → Scalar.State) (hs : ev.shows = some s) (i : ι) (hi : M.nbrs i ≠ []) :
    a ≤ Scalar.state (s i) ∧ Scalar.state (s i) ≤ b := by
  refine C127_invariant _ _ {u : ι → Scalar.State | ∀ i, M.nbrs i ≠ [] → a ≤ Scalar.state (u i) ∧ Scalar.state (u i) ≤ b}
    s₀ h0 ?_ ?_ ev h s hs i hi
  · intro t u hu i hi
    refine Integrator.passBc_keeps Prepare.scalar data map t u (fun V => a ≤ Scalar.state V ∧ Scalar.state V ≤ b) ?_ i (hu i hi)
    intro e he W W' hW hW'
    have hd := hdata e he t
    simp only [Prepare.scalar] at hW'
    unfold Scalar.applyBoundaryConditions at hW'
    split at hW' <;> first | (cases hW'; exact hd) | (cases hW'; exact hW) | (cases hW')
  · intro σ σ' s l tau hK _ hok hstep i hi
    obtain ⟨h1, h2⟩ := integratorEnv_run (ok := fun ctx _ => ctx.hyp = .raise_exception) hstep (fun _ _ => hok)
    rw [← h2]
    exact Scalar.C90_scalar_run fl q draws lim hlim M hM par hrelax heps hqt ht hn0 hn hrev hskew hroe a b ha hb data map
      hdata big lo garbage parabolic sch hsch rec cflMin cflMax _ _ h1 (by simpa [setU] using hK) i hi

/-- The hypotheses are met: Burgers' equation on the ring with the data `1, 2, 3`.  The time step is accepted although
violations raise an exception, and what is written after it is between `1` and `3`. -/
example (w : Mem (Fin 3 → Scalar.State) Unit) (garbage : ℕ → Fin 3 → Scalar.State) : ∃ s t,
    Written (integratorEnv (hyperbolicModules Hyp.demo Hyp.ring Hyp.demoPar 1000
        (passBc (dim := 1) Prepare.scalar (fun _ _ _ => 2) []) (fun _ => ()) (fun _ => Hyp.demoLo) garbage
        fun _ _ _ _ _ _ => .crash) .erk_11 .none 1 1 10 id fun s _ => s)
      (fun _ σ' => σ'.hidden.2.1.hyp = .raise_exception) Hyp.demoOld.U (.accumulate t s) ∧
      ∀ i, 1 ≤ Scalar.state (s i) ∧ Scalar.state (s i) ≤ 3 := by
  have hlim : ∀ (i j : Fin 3) b U P, IsLaneOf (fun _ => Scalar.limit (0 : ℝ) (1 / 1000)) b U P
      (Scalar.limitLane 0 (1 / 1000) b U P 0 1, Scalar.inBounds 0 b (Scalar.state U)) := fun i j b U P =>
    ⟨1, fun _ => b, fun _ => U, fun _ => P, 0, rfl, rfl, rfl, by simp [Scalar.limit]⟩
  have hroe : ∀ (i j : Fin 3) (u v : ℝ) (n : Vec 1), |(∑ k, (Scalar.burgers 1 (1 / 1000)).value u k * n k)
      - ∑ k, (Scalar.burgers 1 (1 / 1000)).value v k * n k|
        ≤ Scalar.riemann (Scalar.burgers 1 (1 / 1000)) ⟨false, false⟩ [] u v n * |u - v| :=
    fun i j u v n => Scalar.C09_scalar_roe_convex _ _ _ _ _ _ rfl (Scalar.C09_scalar_burgers_convex _ n).1
      (Scalar.C09_scalar_burgers_convex _ n).2
  have hpos : 0 < Hyp.tauMax Hyp.demo Hyp.ring Hyp.demoPar Hyp.demoLo.dij Hyp.demoOld 10 :=
    (Hyp.C11_step_tau Hyp.demo Hyp.ring Hyp.demoPar .warn ⟨0, 0⟩ Hyp.demoLo
    Hyp.demoOld [] 0 10 (by norm_num [Hyp.demoPar]) (by norm_num [Hyp.demoPar]) Hyp.ring_closed.lumped (by norm_num)).1
  obtain ⟨U, t, h⟩ := Scalar.C90_scalar_never_rejected (Scalar.burgers 1 (1 / 1000)) ⟨⟨false, false⟩, 1, 0, 1 / 1000, 100, 0⟩
    (fun _ _ => []) _ hlim Hyp.ring Hyp.ring_wf Hyp.demoPar .raise_exception ⟨0, 0⟩
    { Hyp.demoLo with newU := (w (.temp 0)).U } Hyp.demoOld [] 0 10
    rfl le_rfl (by norm_num) (by norm_num [Hyp.demoPar]) (by norm_num [Hyp.demoPar]) (by norm_num [Hyp.demoPar])
    (fun _ _ => rfl)
    (fun i j hj _ => Hyp.ring_closed.skew i j hj) hroe Hyp.ring_closed.lumped Scalar.ring_row_sum
    (fun i j hj => Or.inr (le_trans (by norm_num [Hyp.demoPar]) (Scalar.demo_dOff Hyp.demoLo.dij i j hj)))
    (fun i => by fin_cases i <;> simp [Scalar.state, Hyp.demoOld] <;> norm_num [abs_le]) (Or.inl rfl) le_rfl hpos.le hpos
    (fun t hin i j hj => by
      have := hin i (by simp [Hyp.ring])
      simpa [Scalar.inBounds] using this.symm)
  set Mo := hyperbolicModules Hyp.demo Hyp.ring Hyp.demoPar 1000 (passBc (dim := 1) Prepare.scalar (fun _ _ _ => 2) [])
    (fun _ => ()) (fun _ => Hyp.demoLo) garbage (fun _ _ _ _ _ _ => .crash) with hMo
  have hup : Mo.hyp ⟨1 / 2, .raise_exception, .raise_exception⟩ 0
      ⟨passBc (dim := 1) Prepare.scalar (fun _ _ _ => 2) [] 0 Hyp.demoOld.U, ()⟩ [] (w (.temp 0)).U 0 (some (10 - 0))
      = .ok U t := by
    have e : passBc Prepare.scalar (dim := 1) (fun _ _ _ => 2) [] 0 Hyp.demoOld.U = Hyp.demoOld.U := rfl
    have h' : (Hyp.step Hyp.demo Hyp.ring ⟨1 / 2, Hyp.demoPar.tiny, Hyp.demoPar.iterations⟩ .raise_exception ⟨0, 0⟩
      { Hyp.demoLo with newU := (w (.temp 0)).U } ⟨Hyp.demoOld.U, ()⟩ [] 0 10).1 = .done U t := h
    simp only [hMo, hyperbolicModules, e, sub_zero, Option.getD_some, List.map_nil, h']
  obtain ⟨w', hw', hc⟩ := integratorEnv_erk11 (Mo := Mo) (cflMin := 1) (cflMax := 1) (big := 10) (adapt := id)
    (analytic := fun s _ => s) (w := w) (s := Mo.bc 0 Hyp.demoOld.U) (t := 0) (l := none) (n := 0) hup
  have hw := (written_after_step (ok := fun _ σ' => σ'.hidden.2.1.hyp = .raise_exception) (s₀ := Hyp.demoOld.U) hw'
    (by simp only [hc])).2
  refine ⟨U, _, hw, fun i => ?_⟩
  exact C127_scalar (Scalar.burgers 1 (1 / 1000)) ⟨⟨false, false⟩, 1, 0, 1 / 1000, 100, 0⟩ (fun _ _ => []) _ hlim Hyp.ring
    Hyp.ring_wf Hyp.demoPar rfl rfl (by norm_num) (by norm_num [Hyp.demoPar]) (by norm_num [Hyp.demoPar])
    (by norm_num [Hyp.demoPar]) (fun _ _ => rfl)
    (fun i j hj _ => Hyp.ring_closed.skew i j hj) hroe 1 3 (by norm_num) (by norm_num [abs_le]) (fun _ _ _ => 2) []
    (fun e he => by cases he) 1000 _ garbage _ .erk_11 rfl .none 1 1 10 id (fun s _ => s) Hyp.demoOld.U
    (fun i _ => by fin_cases i <;> simp [Scalar.state, Hyp.demoOld] <;> norm_num) _ hw U rfl i (by simp [Hyp.ring])

/-- The hypotheses of the conservation theorem are met: the same run is stopped, resumed from its first checkpoint, and what
the resumed program shows has the totals of the initial state. -/
example (w : Mem (Fin 3 → Scalar.State) Unit) (garbage : ℕ → Fin 3 → Scalar.State) : ∃ s t,
    Written (integratorEnv (hyperbolicModules Hyp.demo Hyp.ring Hyp.demoPar 1000 (fun _ u => u) (fun _ => ())
        (fun _ => Hyp.demoLo) garbage fun _ _ _ _ _ _ => .crash) .erk_11 .none 1 1 10 id fun s _ => s)
      (fun _ _ => True) Hyp.demoOld.U (.accumulate t s) ∧
      ∑ i ∈ Finset.univ.filter (fun i => Hyp.ring.nbrs i ≠ []), Hyp.ring.lumped i * s i 0
        = ∑ i ∈ Finset.univ.filter (fun i => Hyp.ring.nbrs i ≠ []), Hyp.ring.lumped i * Hyp.demoOld.U i 0 := by
  obtain ⟨U, t, h⟩ := Hyp.C18_warn_returns Hyp.demo Hyp.ring Hyp.demoPar ⟨0, 0⟩
    { Hyp.demoLo with newU := (w (.temp 0)).U } Hyp.demoOld
    [] 0 10 (Hyp.C11_step_tau Hyp.demo Hyp.ring Hyp.demoPar .warn ⟨0, 0⟩ Hyp.demoLo Hyp.demoOld [] 0 10
      (by norm_num [Hyp.demoPar]) (by norm_num [Hyp.demoPar]) Hyp.ring_closed.lumped (by norm_num)).1
  set Mo := hyperbolicModules Hyp.demo Hyp.ring Hyp.demoPar 1000 (fun _ u => u) (fun _ => ()) (fun _ => Hyp.demoLo) garbage
    (fun _ _ _ _ _ _ => .crash) with hMo
  have hup : Mo.hyp ⟨1 / 2, .warn, .warn⟩ 0 ⟨Hyp.demoOld.U, ()⟩ [] (w (.temp 0)).U 0 (some (10 - 0)) = .ok U t := by
    have h' : (Hyp.step Hyp.demo Hyp.ring ⟨1 / 2, Hyp.demoPar.tiny, Hyp.demoPar.iterations⟩ .warn ⟨0, 0⟩
      { Hyp.demoLo with newU := (w (.temp 0)).U } ⟨Hyp.demoOld.U, ()⟩ [] 0 10).1 = .done U t := h
    simp only [hMo, hyperbolicModules, sub_zero, Option.getD_some, List.map_nil, h']
  obtain ⟨w', hw', -⟩ := integratorEnv_erk11 (Mo := Mo) (cflMin := 1) (cflMax := 1) (big := 10) (adapt := id)
    (analytic := fun s _ => s) (w := w) (s := Mo.bc 0 Hyp.demoOld.U) (t := 0) (l := none) (n := 0) hup
  have hw := written_after_step (ok := fun _ _ => True) (s₀ := Hyp.demoOld.U) hw' trivial
  have hr : Written (integratorEnv Mo .erk_11 .none 1 1 10 id fun s _ => s) (fun _ _ => True) Hyp.demoOld.U
      (.accumulate 0 Hyp.demoOld.U) :=
    .resumed (c := everything) (points := []) (w := w') (N := 0) (i := 0) (atZero := false) rfl rfl hw.1 (fun i hi => by omega)
      (st := fun _ => TimeLoop.resumed false 0 0 Hyp.demoOld.U [] w') rfl (fun k hk => by omega) le_rfl
      (by simp [visible, TimeLoop.resumed, everything])
  refine ⟨_, _, hr, ?_⟩
  exact C127_conservation Hyp.demo Hyp.ring Hyp.ring_wf Hyp.ring_closed (LinearMap.proj 0) ((Scalar.centralFlux _ _ _ _).conserves rfl _)
    Hyp.demoPar 1000 _ _ garbage Hyp.demo_rev .erk_11 .none 1 1 10 id (fun s _ => s) Hyp.demoOld.U _ hr _ rfl

/-- **C127 (water depth).** Shallow water equations with the forward Euler scheme and CFL numbers of at most `9/10` in
force: no depth ever written is negative. -/
theorem C127_depth {ι : Type} {dim : ℕ} [Fintype ι] (q : ShallowWater.StepParams) (Z : ι → ℝ)
    (lim : ι → ι → ShallowWater.Bounds → ShallowWater.State dim → ShallowWater.State dim → ℝ × Prop)
    (hlim : ∀ i j b U V, IsLaneOf (fun _ => ShallowWater.limit q.p q.lp) b U V (lim i j b U V))
    (M : Hyp.Mesh ι dim) (par : Hyp.Params) (H : ShallowWater.DepthHyp q M par) (hg : 0 ≤ q.p.gravity)
    (hthr : 10 * ShallowWater.cutoffSharp q.p ≤ ShallowWater.cutoffMollified q.p)
    (data : Vec dim → ℝ → ShallowWater.State dim) (map : List (Prepare.Entry ι ShallowWater.Boundary dim))
    (hdata : ∀ e ∈ map, ∀ t, 0 ≤ ShallowWater.waterDepth (data e.position t))
    (big : ℝ) (lo : ℕ → Hyp.Leftover ι (ShallowWater.State dim)) (garbage : ℕ → ι → ShallowWater.State dim)
    (parabolic : Ctx → ℕ → (ι → ShallowWater.State dim) → ℝ → (ι → ShallowWater.State dim) → ℝ →
      Res (ι → ShallowWater.State dim))
    (rec : Recovery) (cflMin cflMax bigTime : ℝ)
    (adapt : (ι → ShallowWater.State dim) → ι → ShallowWater.State dim)
    (analytic : (ι → ShallowWater.State dim) → ℝ → ι → ShallowWater.State dim)
    (s₀ : ι → ShallowWater.State dim) (h0 : ∀ i, M.nbrs i ≠ [] → 0 ≤ ShallowWater.waterDepth (s₀ i))
    (ev : Event (ι → ShallowWater.State dim))
    (h : Written (integratorEnv (hyperbolicModules (ShallowWater.description q Z lim) M par big
        (passBc (Prepare.shallowWater q.p) data map) (fun _ => ()) lo garbage parabolic) .erk_11 rec cflMin cflMax bigTime
        adapt analytic) (fun _ σ' => σ'.hidden.2.1.cfl ≤ 9 / 10) s₀ ev)
    (s : ι → ShallowWater.State dim) (hs : ev.shows = some s) (i : ι) (hi : M.nbrs i ≠ []) :
    0 ≤ ShallowWater.waterDepth (s i) := by
  refine C127_invariant _ _ {u : ι → ShallowWater.State dim | ∀ i, M.nbrs i ≠ [] → 0 ≤ ShallowWater.waterDepth (u i)}
    s₀ h0 ?_ ?_ ev h s hs i hi
  · intro t u hu i hi
    refine Integrator.passBc_keeps (Prepare.shallowWater q.p) data map t u (fun V => 0 ≤ ShallowWater.waterDepth V) ?_ i (hu i hi)
    intro e he W W' hW hW'
    cases hW'
    exact ShallowWater.boundary_depth_nonneg q.p hg _ _ _ _ hW (hdata e he t)
  · intro σ σ' s l tau hK _ hok hstep i hi
    obtain ⟨h1, h2⟩ := integratorEnv_run (ok := fun ctx _ => ctx.cfl ≤ 9 / 10) hstep (fun _ _ => hok)
    rw [← h2]
    exact ShallowWater.C90_sw_run_depth q Z lim hlim M par H hg hthr data map hdata big lo garbage parabolic rec cflMin cflMax
      _ _ h1 (by simpa [setU] using hK) i hi

/-- The hypotheses are met: water running up an island. -/
example (w : Mem (Fin 3 → ShallowWater.State 1) Unit) (lo : ℕ → Hyp.Leftover (Fin 3) (ShallowWater.State 1))
    (garbage : ℕ → Fin 3 → ShallowWater.State 1) : ∃ s t,
    Written (integratorEnv (hyperbolicModules (ShallowWater.description ShallowWater.runupParams ShallowWater.lakeZ
        ShallowWater.runupLim) Hyp.ring ⟨1, 1 / 100, 2⟩ 1000
        (passBc (Prepare.shallowWater ShallowWater.runupParams.p) (fun _ _ => ShallowWater.mkState 1 0)
          [⟨0, fun _ => 1, .slip, 0⟩]) (fun _ => ()) lo garbage fun _ _ _ _ _ _ => .crash) .erk_11 .none 1 1 10 id fun s _ => s)
      (fun _ σ' => σ'.hidden.2.1.cfl ≤ 9 / 10) ShallowWater.runupU (.accumulate t s) ∧
      ∀ i, 0 ≤ ShallowWater.waterDepth (s i) := by
  have H : ShallowWater.DepthHyp ShallowWater.runupParams Hyp.ring ⟨1, 1 / 100, 2⟩ :=
    { wf := Hyp.ring_wf
      skew := fun i j h _ => Hyp.ring_closed.skew i j h
      mass := Hyp.ring_closed.lumped
      omega := by norm_num [Hyp.ring]
      rowSum := fun i _ => Scalar.ring_row_sum i
      tiny := by norm_num
      cfl := le_rfl
      passes := le_rfl
      cutoff := by norm_num [ShallowWater.cutoffSharp, ShallowWater.runupParams, ShallowWater.lakeParams]
      eps := by norm_num [ShallowWater.runupParams, ShallowWater.lakeParams]
      ptiny := by norm_num [ShallowWater.runupParams, ShallowWater.lakeParams]
      relaxation := by norm_num [ShallowWater.runupParams, ShallowWater.lakeParams]
      dry := by norm_num [ShallowWater.runupParams, ShallowWater.lakeParams] }
  set Mo := hyperbolicModules (ShallowWater.description ShallowWater.runupParams ShallowWater.lakeZ ShallowWater.runupLim)
      Hyp.ring ⟨1, 1 / 100, 2⟩ 1000 (passBc (Prepare.shallowWater ShallowWater.runupParams.p)
        (fun _ _ => ShallowWater.mkState 1 0) [⟨0, fun _ => 1, .slip, 0⟩]) (fun _ => ()) lo
      garbage (fun _ _ _ _ _ _ => .crash) with hMo
  obtain ⟨U, t, h⟩ := Hyp.C18_warn_returns (ShallowWater.description ShallowWater.runupParams ShallowWater.lakeZ
      ShallowWater.runupLim) Hyp.ring ⟨9 / 10, 1 / 100, 2⟩ ⟨0, 0⟩
    { lo 0 with newU := (w (.temp 0)).U } ⟨Mo.bc 0 (Mo.bc 0 ShallowWater.runupU), ()⟩ [] 0 10
    (Hyp.C11_step_tau _ Hyp.ring ⟨9 / 10, 1 / 100, 2⟩ .warn ⟨0, 0⟩
      { lo 0 with newU := (w (.temp 0)).U } ⟨Mo.bc 0 (Mo.bc 0 ShallowWater.runupU), ()⟩ [] 0 10
      (by norm_num) (by norm_num) Hyp.ring_closed.lumped (by norm_num)).1
  have hup : Mo.hyp ⟨9 / 10, .warn, .warn⟩ 0 ⟨Mo.bc 0 (Mo.bc 0 ShallowWater.runupU),
      Mo.pre (Mo.bc 0 (Mo.bc 0 ShallowWater.runupU))⟩ [] (w (.temp 0)).U 0 (some (10 - 0)) = .ok U t := by
    simp only [hMo, hyperbolicModules] at h ⊢
    simp only [sub_zero, Option.getD_some, List.map_nil, h]
  obtain ⟨w', hw', hc⟩ := integratorEnv_erk11 (Mo := Mo) (cflMin := 1) (cflMax := 1) (big := 10) (adapt := id)
    (analytic := fun s _ => s) (w := w) (s := Mo.bc 0 ShallowWater.runupU) (t := 0) (l := none) (n := 0) hup
  have hw := (written_after_step (ok := fun _ σ' => σ'.hidden.2.1.cfl ≤ 9 / 10) (s₀ := ShallowWater.runupU) hw'
    (by simp only [hc]; norm_num)).2
  refine ⟨U, _, hw, fun i => ?_⟩
  exact C127_depth ShallowWater.runupParams ShallowWater.lakeZ ShallowWater.runupLim
    (fun i j b U P => ⟨1, fun _ => b, fun _ => U, fun _ => P, 0, rfl, rfl, rfl, rfl⟩) Hyp.ring ⟨1, 1 / 100, 2⟩ H
    (by norm_num [ShallowWater.runupParams, ShallowWater.lakeParams])
    (by norm_num [ShallowWater.cutoffSharp, ShallowWater.cutoffMollified, ShallowWater.runupParams, ShallowWater.lakeParams])
    (fun _ _ => ShallowWater.mkState 1 0) _ (fun _ _ _ => by simp [ShallowWater.waterDepth, ShallowWater.mkState]) 1000 lo
    garbage _ .none 1 1 10 id (fun s _ => s) ShallowWater.runupU
    (fun i _ => by fin_cases i <;> simp [ShallowWater.runupU, ShallowWater.waterDepth, ShallowWater.mkState]) _ hw U rfl i
    (by simp [Hyp.ring])

/-- The condition on the settings and the states of a time step of the Euler equations in C92. -/
def EulerResolved {ι : Type} {dim : ℕ} [Fintype ι] (p : Euler.Params) (lp : LimiterParams) (big : ℝ)
    (riem : ι → ι → Euler.State dim → Euler.State dim → Vec dim → ℝ)
    (ind : Euler.State dim → List (Euler.State dim × Vec dim) → ℝ → ℝ)
    (lim : ι → ι → Euler.Bounds → Euler.State dim → Euler.State dim → ℝ × Prop) (M : Hyp.Mesh ι dim) (par : Hyp.Params)
    (lo : ℕ → Hyp.Leftover ι (Euler.State dim)) (ctx : Ctx) (u : ι → Euler.State dim) : Prop :=
  ctx.cfl ≤ 1 ∧ ∀ n, ∀ i, ∀ j ∈ M.nbrs i,
    (100 * par.tiny ≤ Hyp.dOff (Euler.description p lp big riem ind lim) M (lo n).dij ⟨u, ()⟩ i j ∨
      (M.c i j = 0 ∧ Hyp.dOff (Euler.description p lp big riem ind lim) M (lo n).dij ⟨u, ()⟩ i j = 0)) ∧
    (M.c i j ≠ 0 → Euler.Dominates p (u i) (u j) (fun k => M.c i j k / vnorm (M.c i j))
      (riem i j (u i) (u j) (fun k => M.c i j k / vnorm (M.c i j))))

/-- **C127 (admissibility).** Euler equations with the forward Euler scheme: density and internal energy of every state
ever written are positive, and with relaxation switched off its specific entropy is not below the smallest initial or
boundary one.  Missing: as in C92 limiter tolerances (`eps = 0`) and the side conditions on the states that occur. -/
theorem C127_euler_partial {ι : Type} {dim : ℕ} [Fintype ι] (p : Euler.Params) (lp : LimiterParams) (big : ℝ)
    (rp : Euler.RiemannParams) (riem : ι → ι → Euler.State dim → Euler.State dim → Vec dim → ℝ)
    (ind : Euler.State dim → List (Euler.State dim × Vec dim) → ℝ → ℝ)
    (lim : ι → ι → Euler.Bounds → Euler.State dim → Euler.State dim → ℝ × Prop)
    (M : Hyp.Mesh ι dim) (par : Hyp.Params) (hg : 1 < p.gamma) (heps : p.eps = 0)
    (hriem : ∀ i j U V n, Euler.IsRiemannLane p rp U V n (riem i j U V n))
    (hlim : ∀ i j b U P, IsLaneOf (fun _ => Euler.limit p lp) b U P (lim i j b U P))
    (hM : M.WellFormed) (hskew : ∀ i, ∀ j ∈ M.nbrs i, ¬ (M.boundary i ∧ M.boundary j) → M.c j i = -M.c i j)
    (hmass : ∀ i, 0 < M.lumped i) (hrow : ∀ i, M.c i i + ((M.nbrs i).map (M.c i)).sum = 0) (ht : 0 < par.tiny)
    (hact : ∀ i, M.nbrs i ≠ [])
    (hf : 0 ≤ lp.relaxation_factor) (hbig : 0 < big) (hn : par.iterations ≤ 2) (r : ℝ) (hr1 : r < 1)
    (hr : ∀ i, Euler.relaxationRadius dim lp.relaxation_factor (M.lumped i * (1 / M.omega)) ≤ r)
    (bc : ℝ → (ι → Euler.State dim) → ι → Euler.State dim)
    (lo : ℕ → Hyp.Leftover ι (Euler.State dim)) (garbage : ℕ → ι → Euler.State dim)
    (parabolic : Ctx → ℕ → (ι → Euler.State dim) → ℝ → (ι → Euler.State dim) → ℝ → Res (ι → Euler.State dim)) (bigTau : ℝ)
    (sm : ℝ) (hsb : sm ≤ big) (hsr : sm = 0 ∨ r = 0)
    (hbc : ∀ t u, (∀ i, Euler.Admissible (u i) ∧ sm ≤ Euler.specificEntropy p (u i)) →
      ∀ i, Euler.Admissible (bc t u i) ∧ sm ≤ Euler.specificEntropy p (bc t u i))
    (rec : Recovery) (cflMin cflMax bigTime : ℝ)
    (adapt : (ι → Euler.State dim) → ι → Euler.State dim) (analytic : (ι → Euler.State dim) → ℝ → ι → Euler.State dim)
    (s₀ : ι → Euler.State dim) (h0 : ∀ i, Euler.Admissible (s₀ i) ∧ sm ≤ Euler.specificEntropy p (s₀ i))
    (ev : Event (ι → Euler.State dim))
    (h : Written (integratorEnv (hyperbolicModules (Euler.description p lp big riem ind lim) M par bigTau bc (fun _ => ())
        lo garbage parabolic) .erk_11 rec cflMin cflMax bigTime adapt analytic)
      (fun σ σ' => ∀ k ≤ 2, EulerResolved p lp big riem ind lim M par lo σ'.hidden.2.1 ((bc σ.t)^[k + 1] σ.state)) s₀ ev)
    (s : ι → Euler.State dim) (hs : ev.shows = some s) (i : ι) :
    Euler.Admissible (s i) ∧ sm ≤ Euler.specificEntropy p (s i) := by
  refine C127_invariant _ _ {u : ι → Euler.State dim | ∀ i, Euler.Admissible (u i) ∧ sm ≤ Euler.specificEntropy p (u i)}
    s₀ h0 ?_ ?_ ev h s hs i
  · exact fun t u hu => hbc t u hu
  intro σ σ' s l tau hK hpre hok hstep i
  obtain ⟨h1, h2⟩ := integratorEnv_run (ok := EulerResolved p lp big riem ind lim M par lo) hstep (by
    intro u hu
    rcases hpre with rfl | rfl <;> rcases hu with rfl | rfl
    · exact hok 0 (by norm_num)
    · exact hok 1 (by norm_num)
    · exact hok 1 (by norm_num)
    · exact hok 2 (by norm_num))
  rw [← h2]
  exact Euler.C92_euler_run_partial p lp big rp riem ind lim M par hg heps hriem hlim hM hskew hmass hrow ht hact hf hbig hn
    r hr1 hr bc lo garbage parabolic bigTau sm hsb hsr hbc rec cflMin cflMax _ _ h1 (by simpa [setU] using hK) i

/-- The hypotheses are met: a gas with a discontinuous density on the ring. -/
example (w : Mem (Fin 3 → Euler.State 1) Unit) (garbage : ℕ → Fin 3 → Euler.State 1) : ∃ s t ok,
    Written (integratorEnv (hyperbolicModules Euler.ringDescription Hyp.ring Hyp.demoPar 1000 (fun _ u => u)
      (fun _ => ()) (fun _ => Euler.ringLo) garbage fun _ _ _ _ _ _ => .crash) .erk_11 .none 1 1 10 id fun s _ => s)
      ok Euler.ringGas.U (.accumulate t s) ∧ ∀ i, Euler.Admissible (s i) := by
  obtain ⟨U, t, h⟩ := Hyp.C18_warn_returns Euler.ringDescription Hyp.ring Hyp.demoPar ⟨0, 0⟩
    { Euler.ringLo with newU := (w (.temp 0)).U } Euler.ringGas
    [] 0 10 (Hyp.C11_step_tau Euler.ringDescription Hyp.ring Hyp.demoPar .warn ⟨0, 0⟩ Euler.ringLo Euler.ringGas [] 0 10
      (by norm_num [Hyp.demoPar]) (by norm_num [Hyp.demoPar]) Hyp.ring_closed.lumped (by norm_num)).1
  set Mo := hyperbolicModules Euler.ringDescription Hyp.ring Hyp.demoPar 1000 (fun _ u => u) (fun _ => ())
    (fun _ => Euler.ringLo) garbage (fun _ _ _ _ _ _ => .crash) with hMo
  have hup : Mo.hyp ⟨1 / 2, .warn, .warn⟩ 0 ⟨Euler.ringGas.U, ()⟩ [] (w (.temp 0)).U 0 (some (10 - 0)) = .ok U t := by
    have h' : (Hyp.step Euler.ringDescription Hyp.ring ⟨1 / 2, Hyp.demoPar.tiny, Hyp.demoPar.iterations⟩ .warn ⟨0, 0⟩
      { Euler.ringLo with newU := (w (.temp 0)).U } ⟨Euler.ringGas.U, ()⟩ [] 0 10).1 = .done U t := h
    simp only [hMo, hyperbolicModules, sub_zero, Option.getD_some, List.map_nil, h']
  obtain ⟨w', hw', hc⟩ := integratorEnv_erk11 (Mo := Mo) (cflMin := 1) (cflMax := 1) (big := 10) (adapt := id)
    (analytic := fun s _ => s) (w := w) (s := Mo.bc 0 Euler.ringGas.U) (t := 0) (l := none) (n := 0) hup
  have hg : 1 < Euler.air.gamma := by norm_num [Euler.air]
  have hw := (written_after_step (ok := fun σ σ' => ∀ k ≤ 2, EulerResolved Euler.air Euler.ringLp 1000 Euler.ringRiem
      (fun _ _ _ => 1) Euler.ringLim Hyp.ring Hyp.demoPar (fun _ => Euler.ringLo) σ'.hidden.2.1
      (((fun _ u => u : ℝ → (Fin 3 → Euler.State 1) → Fin 3 → Euler.State 1) σ.t)^[k + 1] σ.state))
    (s₀ := Euler.ringGas.U) hw' (by
      intro k _
      have e : ((fun u => u : (Fin 3 → Euler.State 1) → Fin 3 → Euler.State 1))^[k + 1] Euler.ringGas.U = Euler.ringGas.U := by
        exact Function.iterate_fixed rfl _
      simp only [fresh, e, hc]
      refine ⟨by norm_num, fun _ i j hj => ⟨Euler.ringGas_stepHyp.resolved i j hj, fun hc => ?_⟩⟩
      exact Euler.C66_euler_dominates_partial Euler.air hg Euler.ringRp _ _ _ (Hyp.normSq_normal hc)
        (Euler.ringGas_admissible i)
        (Euler.ringGas_admissible j) _ (Euler.ringGas_lane i j _ _ _) 1 (Or.inl (Euler.ringGas_star i j _))
        (Or.inl ⟨(Euler.ringGas_pressure i).ge, (Euler.ringGas_pressure j).ge⟩))).2
  refine ⟨U, _, _, hw, fun i => ?_⟩
  have hs : ∀ i, Euler.Admissible (Euler.ringGas.U i) ∧ 0 ≤ Euler.specificEntropy Euler.air (Euler.ringGas.U i) := fun i =>
    ⟨Euler.ringGas_admissible i, mul_nonneg (Euler.ringGas_admissible i).2.le
      (Real.rpow_nonneg (one_div_nonneg.2 (Euler.ringGas_admissible i).1.le) _)⟩
  exact (C127_euler_partial Euler.air Euler.ringLp 1000 Euler.ringRp Euler.ringRiem _ Euler.ringLim Hyp.ring Hyp.demoPar hg rfl
    Euler.ringGas_lane
    (fun i j b U P => ⟨1, fun _ => b, fun _ => U, fun _ => P, 0, rfl, rfl, rfl, rfl⟩) Hyp.ring_wf
    (fun i j hj _ => Hyp.ring_closed.skew i j hj) Hyp.ring_closed.lumped Scalar.ring_row_sum (by norm_num [Hyp.demoPar])
    (fun i => by simp [Hyp.ring]) (le_refl (0 : ℝ)) (by norm_num) (by norm_num [Hyp.demoPar]) 0 one_pos
    (fun i => by simp [Euler.relaxationRadius, Euler.ringLp]) (fun _ u => u) (fun _ => Euler.ringLo) garbage _ 1000 0
    (by norm_num) (Or.inl rfl) (fun _ _ h => h) .none 1 1 10 id (fun s _ => s) Euler.ringGas.U hs _ hw U rfl i).1

end

end TimeLoop
end Ryujin
