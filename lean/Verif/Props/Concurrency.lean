import Verif.Proofs.Concurrency

/-!
# C12, C33, C34: the concurrent parts of the code, for every schedule

A schedule is any finite sequence of atomic actions.
-/

namespace Ryujin

/-! ### C12: the reduction of the time step -/

/-- C12: whatever the schedule and however many compare-and-swap operations fail, spuriously or not: once all threads
have left the loop the shared `tau_max` is the minimum of its initial value and all local values. -/
theorem C12_reduction_is_minimum {T : Type} (loc : T → ℝ) (tau0 : ℝ) (ks : List TauReduction.Kind)
    (s : TauReduction.Conf T) (hr : TauReduction.Run loc (TauReduction.init T tau0) ks s)
    (hd : ∀ t, s.pc t = .done) : IsLeast (insert tau0 (Set.range loc)) s.tau_max := by
  have hi := TauReduction.inv_run hr
  refine ⟨?_, ?_⟩
  · rcases hi.mem with h | ⟨t, h⟩
    · exact Or.inl h
    · exact Or.inr ⟨t, h.symm⟩
  · rintro x (rfl | ⟨t, rfl⟩)
    · exact hi.le_init
    · exact hi.done_le t (hd t)

/-- C12: two schedules of the same threads give the same `tau_max`. -/
theorem C12_schedule_independent {T : Type} (loc : T → ℝ) (tau0 : ℝ) (ks ks' : List TauReduction.Kind)
    (s s' : TauReduction.Conf T) (hr : TauReduction.Run loc (TauReduction.init T tau0) ks s)
    (hr' : TauReduction.Run loc (TauReduction.init T tau0) ks' s')
    (hd : ∀ t, s.pc t = .done) (hd' : ∀ t, s'.pc t = .done) : s.tau_max = s'.tau_max :=
  (C12_reduction_is_minimum loc tau0 ks s hr hd).unique (C12_reduction_is_minimum loc tau0 ks' s' hr' hd')

/-- C12: at every moment the shared value is at most its initial value and at most the local value of every thread
that has already left the loop; it never increases (a later thread cannot undo an earlier minimum). -/
theorem C12_never_increases {T : Type} (loc : T → ℝ) (tau0 : ℝ) (ks : List TauReduction.Kind) (k : TauReduction.Kind)
    (s s' : TauReduction.Conf T) (_hr : TauReduction.Run loc (TauReduction.init T tau0) ks s)
    (hs : TauReduction.Step loc s k s') : s'.tau_max ≤ s.tau_max := by
  cases hs with
  | success t c h hc heq => exact le_of_lt (by rw [heq]; exact hc)
  | _ => exact le_refl _

/-- C12: lock freedom.  With `n` threads no schedule contains more than `n (n + 2)` steps other than spurious
failures. -/
theorem C12_bounded_work {T : Type} [Fintype T] (loc : T → ℝ) (tau0 : ℝ) (ks : List TauReduction.Kind)
    (s : TauReduction.Conf T) (hr : TauReduction.Run loc (TauReduction.init T tau0) ks s) :
    (ks.filter (fun k => k ≠ .spurious)).length ≤ Fintype.card T * (Fintype.card T + 2) := by
  have h := TauReduction.potential_run hr
  have h0 : TauReduction.potential (TauReduction.init T tau0) = Fintype.card T * (Fintype.card T + 2) := by
    simp [TauReduction.potential, TauReduction.init, TauReduction.weight]
  omega

/-- C12: the reduction cannot get stuck: as long as a thread is not done it can make a step that is not a spurious
failure. -/
theorem C12_no_deadlock {T : Type} (loc : T → ℝ) (s : TauReduction.Conf T) (t : T) (h : s.pc t ≠ .done) :
    ∃ k s', k ≠ .spurious ∧ TauReduction.Step loc s k s' := by
  cases hp : s.pc t with
  | start => exact ⟨_, _, by simp, TauReduction.Step.load s t hp⟩
  | loop c =>
    by_cases hc : c > loc t
    · by_cases heq : s.tau_max = c
      · exact ⟨_, _, by simp, TauReduction.Step.success s t c hp hc heq⟩
      · exact ⟨_, _, by simp, TauReduction.Step.failure s t c hp hc heq⟩
    · exact ⟨_, _, by simp, TauReduction.Step.exit s t c hp hc⟩
  | done => exact absurd hp h

/-- Non-vacuity: two threads with local values 1 and 2, both load the initial value 5, the second succeeds, the
first fails, reloads and succeeds. -/
example : ∃ (ks : List TauReduction.Kind) (s : TauReduction.Conf Bool),
    TauReduction.Run (fun b : Bool => if b then (1 : ℝ) else 2) (TauReduction.init Bool 5) ks s
      ∧ (∀ t, s.pc t = .done) ∧ TauReduction.Kind.failure ∈ ks ∧ TauReduction.Kind.spurious ∈ ks
      ∧ s.tau_max = 1 := by
  classical
  let loc : Bool → ℝ := fun b => if b then (1 : ℝ) else 2
  have r0 : TauReduction.Run loc (TauReduction.init Bool 5) [] _ := .nil _
  have r1 := r0.snoc (.load _ true rfl)
  have r2 := r1.snoc (.load _ false (by simp [TauReduction.init]))
  have r3 := r2.snoc (.spurious _ false 5 (by simp [TauReduction.init]) (by simp [loc]; norm_num)
    (by simp [TauReduction.init]))
  have r4 := r3.snoc (.success _ false 5 (by simp [TauReduction.init]) (by simp [loc]; norm_num)
    (by simp [TauReduction.init]))
  have r5 := r4.snoc (.failure _ true 5 (by simp [TauReduction.init]) (by simp [loc])
    (by simp [loc]))
  have r6 := r5.snoc (.success _ true 2 (by simp [loc]) (by simp [loc])
    (by simp [loc]))
  refine ⟨_, _, r6, ?_, by simp, by simp, by simp [loc]⟩
  intro t
  cases t <;> simp

/-! ### C33: lazily created objects -/

/-- C33: for every number of threads and every schedule: at most one thread is inside the guarded section, the creator
succeeds at most once since the last `reset`, and once a caller is behind `ensure_initialized` it has succeeded
exactly once and the object is fully constructed. -/
theorem C33_created_once {T α : Type} (s : Lazy.Conf T α) (hr : Lazy.Reach (Lazy.init T α) s) :
    s.created ≤ 1
      ∧ (∀ t u, (s.pc t = .create ∨ s.pc t = .emplacing) → (s.pc u = .create ∨ s.pc u = .emplacing) → t = u)
      ∧ (∀ t, s.pc t = .ready → s.created = 1 ∧ ∃ v, s.object = .full v) := by
  have hi := Lazy.inv_reach hr
  refine ⟨?_, ?_, ?_⟩
  · rcases Lazy.mutex_cases s with hm | ⟨t, hm⟩
    · rcases hi.free hm with ⟨_, v, _, hc, _⟩ | ⟨_, _, hc, _⟩ <;> omega
    · have ho := hi.owned t hm
      have hq : Lazy.Quiet s → s.created ≤ 1 := by
        rintro (⟨_, v, _, hc, _⟩ | ⟨_, _, hc, _⟩) <;> omega
      generalize s.pc t = p at ho
      cases p with
      | create => exact hq ho.1
      | emplacing => have := ho.2.1; omega
      | store => have := ho.2.1; omega
      | unlock => exact hq ho.1
      | _ => exact hq ho
  · intro t u ht hu
    refine hi.mutual ?_ ?_
    · rcases ht with h | h <;> simp [h, Lazy.Inside]
    · rcases hu with h | h <;> simp [h, Lazy.Inside]
  · intro t ht
    have hf := hi.ready t ht
    have hq : Lazy.Quiet s → s.created = 1 ∧ ∃ v, s.object = .full v := by
      rintro (⟨_, v, hv, hc, _⟩ | ⟨hff, _⟩)
      · exact ⟨hc, v, hv⟩
      · rw [hf] at hff; cases hff
    rcases Lazy.mutex_cases s with hm | ⟨u, hm⟩
    · exact hq (hi.free hm)
    · have ho := hi.owned u hm
      generalize s.pc u = p at ho
      cases p with
      | create => exact hq ho.1
      | emplacing => have := ho.2.2.1; rw [hf] at this; cases this
      | store => have := ho.2.2.1; rw [hf] at this; cases this
      | unlock => exact hq ho.1
      | _ => exact hq ho

/-- C33: all callers of `value()` since the last `reset` got the same, fully constructed object: no caller saw an
empty or half constructed one, and no two callers saw different ones. -/
theorem C33_same_value {T α : Type} (s : Lazy.Conf T α) (hr : Lazy.Reach (Lazy.init T α) s) :
    ∃ o : Option α, (∀ x ∈ s.seen, x = o) ∧ (s.seen ≠ [] → o.isSome) := by
  have hi := Lazy.inv_reach hr
  have hq : Lazy.Quiet s → ∃ o : Option α, (∀ x ∈ s.seen, x = o) ∧ (s.seen ≠ [] → o.isSome) := by
    rintro (⟨_, v, _, _, hs⟩ | ⟨_, _, _, hs⟩)
    · exact ⟨some v, hs, fun _ => rfl⟩
    · exact ⟨none, by simp [hs], fun h => absurd hs h⟩
  have hn : s.seen = [] → ∃ o : Option α, (∀ x ∈ s.seen, x = o) ∧ (s.seen ≠ [] → o.isSome) :=
    fun h => ⟨none, by simp [h], fun h' => absurd h h'⟩
  rcases Lazy.mutex_cases s with hm | ⟨u, hm⟩
  · exact hq (hi.free hm)
  · have ho := hi.owned u hm
    generalize s.pc u = p at ho
    cases p with
    | create => exact hq ho.1
    | emplacing => exact hn ho.2.2.2
    | store => exact hn ho.2.2.2
    | unlock => exact hq ho.1
    | _ => exact hq ho

/-- C33: a creator that throws leaves the object uninitialised: when the mutex is free and no creator has succeeded,
the flag is false and the object is empty, however many creators have failed. -/
theorem C33_throw_leaves_uninitialised {T α : Type} (s : Lazy.Conf T α) (hr : Lazy.Reach (Lazy.init T α) s)
    (hm : s.mutex = none) (hc : s.created = 0) : s.flag = false ∧ s.object = .empty ∧ s.seen = [] := by
  rcases (Lazy.inv_reach hr).free hm with ⟨_, v, _, h, _⟩ | ⟨h1, h2, _, h3⟩
  · omega
  · exact ⟨h1, h2, h3⟩

/-- C33: and the next caller runs the creator again and can succeed. -/
theorem C33_retry {T α : Type} (s : Lazy.Conf T α) (hr : Lazy.Reach (Lazy.init T α) s)
    (hm : s.mutex = none) (hc : s.created = 0) (t : T) (ht : s.pc t = .idle) (v : α) :
    ∃ s', Lazy.Reach s s' ∧ s'.pc t = .idle ∧ s'.created = 1 ∧ s'.failed = s.failed ∧ s'.seen = [some v] := by
  classical
  obtain ⟨hf, ho, hs⟩ := C33_throw_leaves_uninitialised s hr hm hc
  have r0 : Lazy.Reach s s := .refl
  have r1 := r0.step (.call s t ht)
  have r2 := r1.step (.slow _ t (by simp) hf)
  have r3 := r2.step (.lock _ t (by simp) hm)
  have r4 := r3.step (.recheckFalse _ t (by simp) hf)
  have r5 := r4.step (.emplaceBegin _ t (by simp))
  have r6 := r5.step (.emplaceEnd _ t v (by simp))
  have r7 := r6.step (.store _ t (by simp))
  have r8 := r7.step (.unlock _ t (by simp))
  have r9 := r8.step (.value _ t (by simp))
  refine ⟨_, r9, ?_, ?_, rfl, ?_⟩ <;> simp [hc, hs]

/-- C33: `ensure_initialized` never dead-locks: from every reachable configuration some thread that has not returned
can make a step. -/
theorem C33_no_deadlock {T α : Type} (s : Lazy.Conf T α) (hr : Lazy.Reach (Lazy.init T α) s) (v : α) (t : T)
    (_ht : s.pc t ≠ .idle) : ∃ (u : T) (s' : Lazy.Conf T α), s.pc u ≠ .idle ∧ Lazy.Step s s' ∧ s'.pc u ≠ s.pc u := by
  classical
  have hi := Lazy.inv_reach hr
  have go : ∀ u, s.pc u ≠ .idle → (s.pc u = .wantLock → s.mutex = none) →
      ∃ (s' : Lazy.Conf T α), Lazy.Step s s' ∧ s'.pc u ≠ s.pc u := by
    intro u hu hw
    cases hp : s.pc u with
    | idle => exact absurd hp hu
    | entry =>
      cases hf : s.flag with
      | true => exact ⟨_, .fast s u hp hf, by simp⟩
      | false => exact ⟨_, .slow s u hp hf, by simp⟩
    | wantLock => exact ⟨_, .lock s u hp (hw hp), by simp⟩
    | recheck =>
      cases hf : s.flag with
      | true => exact ⟨_, .recheckTrue s u hp hf, by simp⟩
      | false => exact ⟨_, .recheckFalse s u hp hf, by simp⟩
    | create => exact ⟨_, .emplaceBegin s u hp, by simp⟩
    | emplacing => exact ⟨_, .emplaceEnd s u v hp, by simp⟩
    | store => exact ⟨_, .store s u hp, by simp⟩
    | unlock => exact ⟨_, .unlock s u hp, by simp⟩
    | unwind => exact ⟨_, .unwind s u hp, by simp⟩
    | ready => exact ⟨_, .value s u hp, by simp⟩
  rcases Lazy.mutex_cases s with hm | ⟨u, hm⟩
  · obtain ⟨s', h1, h2⟩ := go t _ht fun _ => hm
    exact ⟨t, s', _ht, h1, h2⟩
  · have hin := (hi.inside u).2 hm
    have hu : s.pc u ≠ .idle := fun h => by rw [h] at hin; exact hin
    obtain ⟨s', h1, h2⟩ := go u hu fun h => by rw [h] at hin; exact hin.elim
    exact ⟨u, s', hu, h1, h2⟩

/-- Non-vacuity: a schedule in which the first creator throws, a second thread waiting for the mutex then creates the
object, and both threads finally see it. -/
example : ∃ s : Lazy.Conf Bool ℕ, Lazy.Reach (Lazy.init Bool ℕ) s ∧ s.failed = 1 ∧ s.created = 1
    ∧ s.seen = [some 7, some 7] := by
  classical
  have r0 : Lazy.Reach (Lazy.init Bool ℕ) _ := .refl
  have r1 := r0.step (.call _ true rfl)
  have r2 := r1.step (.call _ false (by simp [Lazy.init]))
  have r3 := r2.step (.slow _ true (by simp) rfl)
  have r4 := r3.step (.slow _ false (by simp) rfl)
  have r5 := r4.step (.lock _ true (by simp) rfl)
  have r6 := r5.step (.recheckFalse _ true (by simp) rfl)
  have r7 := r6.step (.throws _ true (by simp))
  have r8 := r7.step (.unwind _ true (by simp))
  have r9 := r8.step (.lock _ false (by simp) rfl)
  have r10 := r9.step (.recheckFalse _ false (by simp) rfl)
  have r11 := r10.step (.emplaceBegin _ false (by simp))
  have r12 := r11.step (.call _ true (by simp))
  have r13 := r12.step (.slow _ true (by simp) rfl)
  have r14 := r13.step (.emplaceEnd _ false 7 (by simp))
  have r15 := r14.step (.store _ false (by simp))
  have r16 := r15.step (.unlock _ false (by simp))
  have r17 := r16.step (.lock _ true (by simp) rfl)
  have r18 := r17.step (.recheckTrue _ true (by simp) rfl)
  have r19 := r18.step (.unlock _ true (by simp))
  have r20 := r19.step (.value _ false (by simp))
  have r21 := r20.step (.value _ true (by simp))
  exact ⟨_, r21, rfl, rfl, rfl⟩

/-! ### C34: the asynchronous ghost exchange -/

/-- C34: for every number of threads, every distribution of the indices (each thread works in ascending order) and
every schedule: when the destructor has returned the payload has run exactly once, and at no time more than once. -/
theorem C34_payload_once {T : Type} [Fintype T] (nexp nint : ℕ) (work : T → List ℕ) (done : ℕ → Prop)
    (hsorted : ∀ t, (work t).Pairwise (· < ·)) (s : Dispatch.Conf T)
    (hr : Dispatch.Reach (Fintype.card T) nexp nint (Dispatch.init work done) s) :
    s.launched + s.inDestructor ≤ 1 ∧ (s.destroyed = true → s.launched + s.inDestructor = 1) := by
  have hi := Dispatch.inv_reach hsorted hr
  refine ⟨?_, fun h => (hi.dead h).1⟩
  cases hd : s.destroyed with
  | true => exact le_of_eq (hi.dead hd).1
  | false => have h1 := hi.alive hd; have h2 := hi.once; omega

/-- C34: whenever the payload starts, all exported indices of all threads, and all indices of the preceding scalar
loop, have been computed. -/
theorem C34_exported_before_payload {T : Type} [Fintype T] (nexp nint : ℕ) (work : T → List ℕ) (done : ℕ → Prop)
    (hsorted : ∀ t, (work t).Pairwise (· < ·)) (s : Dispatch.Conf T)
    (hr : Dispatch.Reach (Fintype.card T) nexp nint (Dispatch.init work done) s) (P : ℕ → Prop)
    (hP : s.atStart = some P) :
    (∀ k, done k → P k) ∧ ∀ t, ∀ k ∈ work t, k < nexp → P k :=
  (Dispatch.inv_reach hsorted hr).start P hP

/-- C34: the ghost record `atStart` is present exactly when the payload has been started. -/
theorem C34_start_recorded {T : Type} [Fintype T] (nexp nint : ℕ) (work : T → List ℕ) (done : ℕ → Prop)
    (hsorted : ∀ t, (work t).Pairwise (· < ·)) (s : Dispatch.Conf T)
    (hr : Dispatch.Reach (Fintype.card T) nexp nint (Dispatch.init work done) s) :
    s.atStart.isSome = true ↔ 0 < s.launched + s.inDestructor :=
  (Dispatch.inv_reach hsorted hr).started

/-- C34: an asynchronous start happens only after every thread has signalled. -/
theorem C34_all_signalled {T : Type} [Fintype T] (nexp nint : ℕ) (work : T → List ℕ) (done : ℕ → Prop)
    (hsorted : ∀ t, (work t).Pairwise (· < ·)) (s : Dispatch.Conf T)
    (hr : Dispatch.Reach (Fintype.card T) nexp nint (Dispatch.init work done) s) (h : 0 < s.launched) (t : T) :
    s.thread_ready t = true := by
  have hi := Dispatch.inv_reach hsorted hr
  exact Dispatch.all_ready (hi.count ▸ (hi.full h).1) t

/-- C34: when the destructor has returned all indices have been computed. -/
theorem C34_all_computed {T : Type} [Fintype T] (nexp nint : ℕ) (work : T → List ℕ) (done : ℕ → Prop)
    (hsorted : ∀ t, (work t).Pairwise (· < ·)) (s : Dispatch.Conf T)
    (hr : Dispatch.Reach (Fintype.card T) nexp nint (Dispatch.init work done) s) (h : s.destroyed = true) :
    ∀ t, ∀ k ∈ work t, s.computed k := by
  intro t k hk
  have hi := Dispatch.inv_reach hsorted hr
  obtain ⟨pre, h1, h2⟩ := hi.progress t
  rw [(hi.dead h).2 t] at h1
  simp [Dispatch.remaining] at h1
  exact h2 k (h1 ▸ hk)

/-- The ascending order is needed: a thread that works on an exported index after having signalled lets the payload
start too early.  (One thread, `nexp = 1`, indices 1, 0.) -/
theorem C34_needs_ascending_order : ∃ s : Dispatch.Conf Unit,
    Dispatch.Reach 1 1 2 (Dispatch.init (fun _ => [1, 0]) (fun _ => False)) s
      ∧ ∃ P, s.atStart = some P ∧ ¬ P 0 := by
  classical
  have r0 : Dispatch.Reach 1 1 2 (Dispatch.init (fun _ : Unit => [1, 0]) (fun _ => False)) _ := .refl
  have r1 := r0.step (.checkCount _ () 1 [0] rfl (by simp [Dispatch.init]))
  have r2 := r1.step (.launch _ () 1 1 [0] (by simp [Dispatch.init]) rfl)
  exact ⟨_, r2, _, rfl, by simp [Dispatch.init]⟩

/-- Non-vacuity: two threads, indices 0, 2 and 1, 3, `nexp = 2`; the payload starts asynchronously. -/
example : ∃ s : Dispatch.Conf Bool,
    Dispatch.Reach (Fintype.card Bool) 2 4
      (Dispatch.init (fun b : Bool => if b then [0, 2] else [1, 3]) (fun k => k = 4)) s
      ∧ s.destroyed = true ∧ s.launched = 1 := by
  classical
  have r0 : Dispatch.Reach (Fintype.card Bool) 2 4
      (Dispatch.init (fun b : Bool => if b then [0, 2] else [1, 3]) (fun k => k = 4)) _ := .refl
  have r1 := r0.step (.checkSkip _ true 0 [2] (by simp [Dispatch.init]) (by simp))
  have r2 := r1.step (.compute _ true 0 [2] (by simp))
  have r3 := r2.step (.checkCount _ true 2 [] (by simp) (by simp [Dispatch.init]))
  have r4 := r3.step (.noLaunch _ true 1 2 [] (by simp [Dispatch.init]) (by simp))
  have r5 := r4.step (.compute _ true 2 [] (by simp))
  have r6 := r5.step (.finish _ true (by simp))
  have r7 := r6.step (.checkSkip _ false 1 [3] (by simp [Dispatch.init]) (by simp))
  have r8 := r7.step (.compute _ false 1 [3] (by simp))
  have r9 := r8.step (.checkCount _ false 3 [] (by simp) (by simp [Dispatch.init]))
  have r10 := r9.step (.launch _ false 2 3 [] (by simp [Dispatch.init]) (by simp))
  have r11 := r10.step (.compute _ false 3 [] (by simp))
  have r12 := r11.step (.finish _ false (by simp))
  have r13 := r12.step (.destroyWait _ (by intro t; cases t <;> simp) rfl (by simp))
  exact ⟨_, r13, rfl, rfl⟩

end Ryujin
