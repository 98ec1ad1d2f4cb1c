import Verif.Proofs.ThreadStep
import Verif.Props.Distributed

/-!
# C111: threads

A time step gives the same result for every number of threads, every distribution of the rows over the threads and every interleaving of
the accesses of the threads to the memory they share.
-/

namespace Ryujin
namespace Hyp
namespace Threads

open Ryujin.Threads Classical

noncomputable section

variable {ι R P S F B T T' : Type} {dim : ℕ} {D : Description ι P S F B dim} {M : Mesh ι dim} {owner : ι → R} {par : Params}

section

variable [Fintype ι] [Fintype T] [Fintype T'] [Fintype R] [Nonempty R] [AddCommGroup S] [Module ℝ S]

/-- **C111 (one result, continuous elements).** Whatever the number of threads of the ranks, the distribution of the rows over the
threads in each loop and the interleaving of the accesses of the threads to the memory, a time step ends as computed row by row from the
old state vector (`Mpi.step`, where no row sees what another row of the same loop does).  The degrees of freedom are numbered such that those
of other ranks come after the own ones (`hbelow`), and `big`, the initial value of the local variable of a thread, is not below the cap. -/
theorem C111_step_partial (hM : M.WellFormed) (hG : M.dG = false)
    (hbelow : ∀ i j, j ∈ M.nbrs i → M.below i j → owner j = owner i) {big : ℝ} {strategy : Strategy} {cnt : R → Counters}
    {s : R → RankStore ι S B} {old : R → StateVector ι P S} {stages : R → List (ℝ × StateVector ι P S)} {tau tau_max : ℝ}
    (hbig : tau_max ≤ big) {out : R → Outcome ι S × Counters}
    (h : ThreadedStep T D M owner par big strategy cnt s old stages tau tau_max out) :
    out = Mpi.step D M owner par strategy cnt (fun r => toMemory (s r)) old stages tau tau_max := by
  obtain ⟨s2, s3, tau_max', h2, h3, h⟩ := h
  set mem : R → Mpi.Memory ι S B := fun r => toMemory (s r) with hmem
  obtain ⟨a2, d2, same2⟩ := region2 hM h2
  obtain ⟨a3, d3, dd3, same3, rfl⟩ := region3 (D := D) (par := par) hM hbelow hbig mem d2 h3
  have same := fun r => (same2 r).trans (same3 r)
  funext r
  unfold Mpi.step
  by_cases hpos : ¬ 0 < Mpi.tauGlobal D M owner par mem old tau_max
  · rw [if_pos hpos] at h
    rw [h]
    simp only
    rw [if_pos hpos]
  rw [if_neg hpos] at h
  obtain ⟨s4, s5, s6, tau', rfl, h4, h5, h6, rfl⟩ := h
  simp only
  rw [if_neg hpos]
  generalize (if tau = 0 then Mpi.tauGlobal D M owner par mem old tau_max else tau) = τ at *
  obtain ⟨u4, r4, b4, p4, l4, n4, f4⟩ := region4 (D := D) (par := par) hM hG mem (fun r => ⟨(same r).1, (same r).2.1, (same r).2.2.1⟩)
    (fun r i => (a3 r i).trans (a2 r i)) d3 dd3 h4
  set X := Mpi.stage4 D M owner par mem old stages τ with hX
  have hno : ∀ r, ¬ (s4 r).flag := fun r h => ((same r).2.2.2.2.2).1 ((f4 r).1 h)
  -- the final state and the flag
  have key : (∀ r i, (s6 r).mem (.newU i) = Mpi.newVec D M owner par mem X r i) ∧
      ∀ r, (s6 r).flag ↔ Mpi.restartLocal D M owner par mem X r := by
    by_cases hn : par.iterations = 0
    · rw [if_neg (fun h => h hn)] at h5
      rw [hn] at h6
      subst h5
      cases h6
      refine ⟨fun r i => ?_, fun r => ⟨fun h => (hno r h).elim, fun h => (h.1 hn).elim⟩⟩
      rw [Mpi.newVec, hn]
      exact u4 r i
    · rw [if_pos hn] at h5
      obtain ⟨u5, b5, p5, l5, n5, f5⟩ := region5 (D := D) (par := par) hM hG mem X (fun _ => rfl) u4 r4 b4 p4
        (fun r i j => (l4 r i j).trans ((same r).2.2.2.1 i j)) hn h5
      have hrep : Represents M owner (Mpi.boundsVec5 D M owner par mem X) (Mpi.pMat D M X (Mpi.rVec D M owner mem X)) s5
          (fun r => ⟨Mpi.lowVec D M owner mem X r, Mpi.lijMat D M owner par mem X r, (mem r).lijNext⟩) := by
        refine ⟨fun r i => (u5 r i).trans (u4 r i), l5, fun r i j => (n5 r i j).trans ((n4 r i j).trans ((same r).2.2.2.2.1 i j)),
          fun r i => ?_, p5⟩
        rw [b5, b4, Mpi.boundsVec5, boundsStep5, hG]
        simp
      obtain ⟨h7, h8⟩ := passes hM hrep h6
      refine ⟨fun r i => h7.U r i, fun r => (h8 r).trans ((f5 r).trans ?_)⟩
      exact ⟨fun h => h.elim (fun h => (hno r h).elim) id, Or.inr⟩
  obtain ⟨k1, k2⟩ := key
  have k1' : (fun i => (s6 r).mem (.newU i)) = Mpi.newVec D M owner par mem X r := funext fun i => k1 r i
  have k3 : (∃ q, (s6 q).flag) ↔ ∃ q, Mpi.restartLocal D M owner par mem X q := exists_congr k2
  rw [k1']
  by_cases hr : ∃ q, Mpi.restartLocal D M owner par mem X q
  · rw [if_pos (k3.2 hr), if_pos hr]
    cases strategy <;> rfl
  · rw [if_neg fun h => hr (k3.1 h), if_neg hr]

/-- **C111 (any two executions).** Two executions of the same time step with different numbers of threads, different distributions of the rows
and different interleavings end in the same way. -/
theorem C111_threads_partial (hM : M.WellFormed) (hG : M.dG = false)
    (hbelow : ∀ i j, j ∈ M.nbrs i → M.below i j → owner j = owner i) {big : ℝ} {strategy : Strategy} {cnt : R → Counters}
    {s : R → RankStore ι S B} {old : R → StateVector ι P S} {stages : R → List (ℝ × StateVector ι P S)} {tau tau_max : ℝ}
    (hbig : tau_max ≤ big) {out out' : R → Outcome ι S × Counters}
    (h : ThreadedStep T D M owner par big strategy cnt s old stages tau tau_max out)
    (h' : ThreadedStep T' D M owner par big strategy cnt s old stages tau tau_max out') : out = out' :=
  (C111_step_partial hM hG hbelow hbig h).trans (C111_step_partial hM hG hbelow hbig h').symm

/-- **C111 (threads and ranks).** Every execution on any number of ranks with any number of threads ends as one thread on one process does: the
same way, the same `tau`, the same counters, the same new states on the degrees of freedom of the rank. -/
theorem C111_one_process_partial {Q : Type} {view : P → ι → Q} (hD : D.Local view)
    (hM : M.WellFormed) (hG : M.dG = false)
    (hbelow : ∀ i j, j ∈ M.nbrs i → M.below i j → owner j = owner i) {big : ℝ} {strategy : Strategy} {cnt : Counters}
    {s : R → RankStore ι S B} {x : R → StateVector ι P S} {X : StateVector ι P S} (hx : Mpi.Copies view M owner x X)
    {st : R → List (ℝ × StateVector ι P S)} {Y : List (ℝ × StateVector ι P S)} (hst : Mpi.CopiesStages view M owner st Y) {tau tau_max : ℝ}
    (hbig : tau_max ≤ big) (lo : Leftover ι S) {out : R → Outcome ι S × Counters}
    (h : ThreadedStep T D M owner par big strategy (fun _ => cnt) s x st tau tau_max out) (r : R) :
    Mpi.SameOnRank M owner r (out r).1 (Hyp.step D M par strategy cnt lo X Y tau tau_max).1 ∧
      (out r).2 = (Hyp.step D M par strategy cnt lo X Y tau tau_max).2 := by
  rw [C111_step_partial hM hG hbelow hbig h]
  exact Mpi.C107_step_partial hD hM hG par strategy cnt _ lo x X hx st Y hst tau tau_max r

end

/-! ### No data races -/

section

variable {Loc β : Type} {Val : Loc → Type}

theorem reads_within {R W : Loc → Prop} {p : Prog Loc Val β} (hp : p.Within R W) {l : Loc} (h : p.Reads l) : R l := by
  induction p with
  | ret b => exact h.elim
  | read l' k ih =>
    rcases h with rfl | ⟨v, h⟩
    · exact hp.1
    · exact ih v (hp.2 v) h
  | write l' v k ih => exact ih hp.2 h
  | raise k ih => exact ih hp h

theorem writes_within {R W : Loc → Prop} {p : Prog Loc Val β} (hp : p.Within R W) {l : Loc} (h : p.Writes l) : W l := by
  induction p with
  | ret b => exact h.elim
  | read l' k ih =>
    obtain ⟨v, h⟩ := h
    exact ih v (hp.2 v) h
  | write l' v k ih =>
    rcases h with rfl | h
    · exact hp.1
    · exact ih hp.2 h
  | raise k ih => exact ih hp h

theorem no_race {α : Type} {R W : α → Loc → Prop} (hr : RaceFree R W) {f : α → Prog Loc Val β} (hf : ∀ a, (f a).Within (R a) (W a))
    {a b : α} (hab : a ≠ b) : ¬ DataRace (f a) (f b) := by
  rintro ⟨l, ⟨h1, h2⟩ | ⟨h1, h2⟩⟩
  · have := hr a b hab l (writes_within (hf a) h1)
    exact h2.elim (fun h => this.1 (reads_within (hf b) h)) fun h => this.2 (writes_within (hf b) h)
  · have := hr b a hab.symm l (writes_within (hf b) h1)
    exact h2.elim (fun h => this.1 (reads_within (hf a) h)) fun h => this.2 (writes_within (hf a) h)

end

/-- **C111 (no data race, continuous elements).** In none of the parallel loops of a time step does the iteration for one row write an entry that
the iteration for another row reads or writes. -/
theorem C111_race_free_partial [AddCommGroup S] [Module ℝ S] (hM : M.WellFormed) (hG : M.dG = false) (old : StateVector ι P S)
    (stages : List (ℝ × StateVector ι P S)) (tau b b' : ℝ) (last_round : Prop) {i j : ι} (hij : i ≠ j) :
    ¬ DataRace (row2 D M old i) (row2 D M old j : RowProg ι S B Unit) ∧
    (∀ k l, (i, k) ≠ (j, l) → ¬ DataRace (pair3 D M old (i, k)) (pair3 D M old (j, l) : RowProg ι S B Unit)) ∧
    ¬ DataRace (row3 M par b i) (row3 M par b' j : RowProg ι S B ℝ) ∧
    ¬ DataRace (row4 D M par.tiny old stages tau i) (row4 D M par.tiny old stages tau j : RowProg ι S B Unit) ∧
    ¬ DataRace (row5 D M tau i) (row5 D M tau j : RowProg ι S B Unit) ∧
    ¬ DataRace (row6 D M last_round i) (row6 D M last_round j : RowProg ι S B Unit) := by
  refine ⟨no_race (race2 (M := M)) (fun i => within2 old i) hij, fun k l h => no_race (race3a (M := M)) (fun e => within3a old e) h, ?_,
    no_race (race4 (M := M)) (fun i => within4 par.tiny old stages tau i) hij, no_race (race5 (M := M)) (fun i => within5 hG tau i) hij,
    no_race (race6 (M := M) last_round) (fun i => within6 last_round i) hij⟩
  have := no_race (α := ι) (race3 hM) (f := fun k => (row3 M par (if k = i then b else b') k : RowProg ι S B ℝ))
    (fun k => within3 par _ k) hij
  simpa [hij.symm] using this

/-- **C111 (violation, data race).** With discontinuous elements the rows of neighbouring degrees of freedom race in step 5. -/
theorem C111_dg_data_race_violation [AddCommGroup S] [Module ℝ S] [Inhabited B] (hM : M.WellFormed) (hG : M.dG = true) (tau : ℝ) {i j : ι}
    (hj : j ∈ M.nbrs i) : DataRace (row5 D M tau i) (row5 D M tau j : RowProg ι S B Unit) := by
  have bind_left : ∀ {β γ : Type} (p : RowProg ι S B β) (f : β → RowProg ι S B γ) (l : Loc ι), p.Reads l → (p.bind f).Reads l := by
    intro β γ p f l h
    induction p with
    | ret b => exact h.elim
    | read l' k ih => exact h.imp id fun ⟨v, h⟩ => ⟨v, ih v h⟩
    | write l' v k ih => exact ih h
    | raise k ih => exact ih h
  have bind_leftW : ∀ {β γ : Type} (p : RowProg ι S B β) (f : β → RowProg ι S B γ) (l : Loc ι), p.Writes l → (p.bind f).Writes l := by
    intro β γ p f l h
    induction p with
    | ret b => exact h.elim
    | read l' k ih => exact h.imp fun v h => ih v h
    | write l' v k ih => exact h.imp id ih
    | raise k ih => exact ih h
  have loop_reads : ∀ (l : List ι) (b : B), i ∈ l →
      (Prog.loop (fun (b : B) j => .read (.bounds j) fun (b_j : B) => .ret (D.combine b b_j)) b l : RowProg ι S B B).Reads (.bounds i) := by
    intro l
    induction l with
    | nil => intro b h; cases h
    | cons a l ih =>
      intro b h
      rcases List.mem_cons.1 h with rfl | h
      · exact Or.inl rfl
      · exact Or.inr ⟨(default : B), ih _ h⟩
  have loop_writes : ∀ (l : List ι) (b : B),
      ((Prog.loop (fun (b : B) j => .read (.bounds j) fun (b_j : B) => .ret (D.combine b b_j)) b l : RowProg ι S B B).bind fun b =>
        .write (.bounds i) b (.ret b) : RowProg ι S B B).Writes (.bounds i) := by
    intro l
    induction l with
    | nil => intro b; exact Or.inl rfl
    | cons a l ih =>
      intro b
      exact ⟨(default : B), ih _⟩
  refine ⟨.bounds i, Or.inl ⟨?_, Or.inl ?_⟩⟩
  · unfold row5
    rw [if_neg (List.ne_nil_of_mem hj)]
    simp only [hG, if_true]
    refine ⟨(default : B), ?_⟩
    exact bind_leftW _ _ _ (loop_writes _ _)
  · unfold row5
    rw [if_neg (List.ne_nil_of_mem (hM.symm i j hj))]
    simp only [hG, if_true]
    refine Or.inr ⟨(default : B), ?_⟩
    exact bind_left _ _ _ (bind_left _ _ _ (loop_reads _ _ (hM.symm i j hj)))

/-! ### Executions exist -/

section

theorem exists_chunk [Nonempty T] {α : Type} [Finite α] (own : α → Prop) : ∃ chunk : T → List α, Distributes chunk own := by
  cases nonempty_fintype α
  obtain ⟨t0⟩ := ‹Nonempty T›
  refine ⟨fun t => if t = t0 then (Finset.univ.filter own).toList else [], fun t => ?_, fun t u htu a ha ha' => ?_, fun a => ?_⟩
  · split_ifs
    · exact Finset.nodup_toList _
    · exact List.nodup_nil
  · split_ifs at ha ha' with h h'
    · exact htu (h.trans h'.symm)
    all_goals simp at ha ha'
  · constructor
    · intro h
      exact ⟨t0, by simpa using h⟩
    · rintro ⟨t, ht⟩
      split_ifs at ht
      · simpa using ht
      · simp at ht

theorem rows_exist [Finite T] [Nonempty T] [Finite ι] (owner : ι → R) (body : ι → RowProg ι S B Unit) (s : R → RankStore ι S B) :
    ∃ s', ParallelRows (T := T) owner body s s' := by
  have : ∀ r, ∃ s', ∃ chunk : T → List ι, Distributes chunk (fun i => owner i = r) ∧
      Executes (parallelFor (fun _ => body) () chunk) (s r) s' fun _ => () := by
    intro r
    obtain ⟨chunk, hc⟩ := exists_chunk (T := T) (fun i => owner i = r)
    obtain ⟨s', b, h⟩ := completes (s r) (parallelFor (fun _ => body) () chunk)
    exact ⟨s', chunk, hc, h⟩
  choose s' hs' using this
  exact ⟨s', hs'⟩

variable [Fintype ι] [Fintype T] [Nonempty T] [Fintype R] [Nonempty R] [AddCommGroup S] [Module ℝ S]

omit [Fintype R] [Nonempty R] in
theorem passes_exist (D : Description ι P S F B dim) (M : Mesh ι dim) (owner : ι → R) (n k : ℕ) (s : R → RankStore ι S B) :
    ∃ s', Passes T D M owner n k s s' := by
  induction k with
  | zero => exact ⟨s, rfl⟩
  | succ k ih =>
    obtain ⟨m, hm⟩ := ih
    obtain ⟨m', hm'⟩ := rows_exist (T := T) owner (row6 D M (k + 1 = n)) (fun r => if n = 2 ∧ k + 1 = n then swapLij (m r) else m r)
    exact ⟨_, m, hm, m', hm', rfl⟩

/-- **C111 (no deadlock).** Every time step with at least one thread, started with any memory, can be executed to its end; the theorems above are
about something. -/
theorem C111_completes (D : Description ι P S F B dim) (M : Mesh ι dim) (owner : ι → R) (par : Params) (big : ℝ) (strategy : Strategy)
    (cnt : R → Counters) (s : R → RankStore ι S B) (old : R → StateVector ι P S) (stages : R → List (ℝ × StateVector ι P S))
    (tau tau_max : ℝ) : ∃ out, ThreadedStep T D M owner par big strategy cnt s old stages tau tau_max out := by
  have r2 : ∃ s2, Region2 T D M owner old (fun r => { s r with flag := False }) s2 := by
    have : ∀ r, ∃ s', ∃ chunk : T → List ι, Distributes chunk (fun i => owner i = r) ∧
        Executes (parallelFor (fun _ => row2 D M (old r)) () chunk) { s r with flag := False } s' fun _ => () := by
      intro r
      obtain ⟨chunk, hc⟩ := exists_chunk (T := T) (fun i => owner i = r)
      obtain ⟨s', b, h⟩ := completes { s r with flag := False } (parallelFor (fun _ => row2 D M (old r)) () chunk)
      exact ⟨s', chunk, hc, h⟩
    choose m hm using this
    exact ⟨_, m, hm, rfl⟩
  obtain ⟨s2, h2⟩ := r2
  have r3 : ∃ s3 t, Region3 T D M owner par big old tau_max s2 s3 t := by
    have ha : ∀ r, ∃ s', ∃ chunk : T → List (ι × ι),
        Distributes chunk (fun e => owner e.1 = r ∧ e.2 ∈ M.nbrs e.1 ∧ M.boundary e.1 ∧ M.boundary e.2) ∧
        Executes (parallelFor (fun _ => pair3 D M (old r)) () chunk) (s2 r) s' fun _ => () := by
      intro r
      obtain ⟨chunk, hc⟩ := exists_chunk (T := T) (fun e : ι × ι => owner e.1 = r ∧ e.2 ∈ M.nbrs e.1 ∧ M.boundary e.1 ∧ M.boundary e.2)
      obtain ⟨s', b, h⟩ := completes (s2 r) (parallelFor (fun _ => pair3 D M (old r)) () chunk)
      exact ⟨s', chunk, hc, h⟩
    choose m hm using ha
    have hb : ∀ r, ∃ (s' : RankStore ι S B) (b : T → ℝ), ∃ chunk : T → List ι, Distributes chunk (fun i => owner i = r) ∧
        Executes (parallelFor (row3 M par) big chunk) (m r) s' b := by
      intro r
      obtain ⟨chunk, hc⟩ := exists_chunk (T := T) (fun i => owner i = r)
      obtain ⟨s', b, h⟩ := completes (m r) (parallelFor (row3 M par) big chunk)
      exact ⟨s', b, chunk, hc, h⟩
    choose s' b hs' using hb
    exact ⟨s', _, m, b, hm, hs', rfl⟩
  obtain ⟨s3, t, h3⟩ := r3
  by_cases hpos : ¬ 0 < t
  · exact ⟨_, s2, s3, t, h2, h3, by rw [if_pos hpos]⟩
  have r4 : ∃ s4, Region4 T D M owner par old stages (if tau = 0 then t else tau) s3 s4 := by
    have : ∀ r, ∃ s', ∃ chunk : T → List ι, Distributes chunk (fun i => owner i = r) ∧
        Executes (parallelFor (fun _ => row4 D M par.tiny (old r) (stages r) (if tau = 0 then t else tau)) () chunk) (s3 r) s' fun _ => () := by
      intro r
      obtain ⟨chunk, hc⟩ := exists_chunk (T := T) (fun i => owner i = r)
      obtain ⟨s', b, h⟩ := completes (s3 r) (parallelFor (fun _ => row4 D M par.tiny (old r) (stages r) (if tau = 0 then t else tau)) () chunk)
      exact ⟨s', chunk, hc, h⟩
    choose m hm using this
    exact ⟨_, m, hm, rfl⟩
  obtain ⟨s4, h4⟩ := r4
  have r5 : ∃ s5, if par.iterations ≠ 0 then Region5 T D M owner (if tau = 0 then t else tau) s4 s5 else s5 = s4 := by
    by_cases hn : par.iterations ≠ 0
    · simp only [if_pos hn]
      obtain ⟨m, hm⟩ := rows_exist (T := T) owner (row5 D M (if tau = 0 then t else tau)) s4
      exact ⟨_, m, hm, rfl⟩
    · exact ⟨s4, by rw [if_neg hn]⟩
  obtain ⟨s5, h5⟩ := r5
  obtain ⟨s6, h6⟩ := passes_exist (T := T) D M owner par.iterations par.iterations s5
  exact ⟨_, s2, s3, t, h2, h3, by rw [if_neg hpos]; exact ⟨s4, s5, s6, _, rfl, h4, h5, h6, rfl⟩⟩

end

/-! ### Discontinuous elements -/

section

variable [AddCommGroup S] [Module ℝ S]

/-- The threads may execute their parts one after the other, in any order. -/
theorem executes_in_order {Loc β : Type} {Val : Loc → Type} (p : T → Prog Loc Val β) (ts : List T) (hn : ts.Nodup) (s : Store Loc Val) :
    ∃ q : T → Prog Loc Val β, Relation.ReflTransGen Step (s, p) (ts.foldl (fun s t => ((p t).run s).1) s, q) ∧
      (∀ t ∈ ts, ∃ b, q t = .ret b) ∧ ∀ t, t ∉ ts → q t = p t := by
  have one : ∀ (q : Prog Loc Val β) (t : T) (s : Store Loc Val) (p : T → Prog Loc Val β), p t = q →
      Relation.ReflTransGen Step (s, p) ((q.run s).1, Function.update p t (.ret (q.run s).2)) := by
    intro q t
    induction q with
    | ret b =>
      intro s p h
      rw [show (Prog.ret b : Prog Loc Val β) = p t from h.symm]
      have : (p t).run s = (s, b) := by rw [h]; rfl
      rw [this, ← h, Function.update_eq_self]
    | read l k ih =>
      intro s p h
      have h' := ih (s.mem l) s (Function.update p t (k (s.mem l))) (Function.update_self ..)
      rw [Function.update_idem] at h'
      exact Relation.ReflTransGen.head (Step.read t l k h) h'
    | write l v k ih =>
      intro s p h
      have h' := ih (s.set l v) (Function.update p t k) (Function.update_self ..)
      rw [Function.update_idem] at h'
      exact Relation.ReflTransGen.head (Step.write t l v k h) h'
    | raise k ih =>
      intro s p h
      have h' := ih { s with flag := True } (Function.update p t k) (Function.update_self ..)
      rw [Function.update_idem] at h'
      exact Relation.ReflTransGen.head (Step.raise t k h) h'
  induction ts using List.reverseRecOn with
  | nil => exact ⟨p, Relation.ReflTransGen.refl, by simp, fun _ _ => rfl⟩
  | append_singleton ts t ih =>
    obtain ⟨q, h1, h2, h3⟩ := ih (List.nodup_append.1 hn).1
    have ht : t ∉ ts := by
      intro h
      exact (List.nodup_append.1 hn).2.2 t h t (List.mem_singleton.2 rfl) rfl
    rw [List.foldl_append]
    refine ⟨_, h1.trans (one (p t) t _ q (h3 t ht)), fun u hu => ?_, fun u hu => ?_⟩
    · by_cases hut : u = t
      · subst hut
        exact ⟨_, Function.update_self ..⟩
      · rw [Function.update_of_ne hut]
        refine h2 u ?_
        rcases List.mem_append.1 hu with h | h
        · exact h
        · exact (hut (List.mem_singleton.1 h)).elim
    · rw [Function.update_of_ne (fun h => hu (by simp [h]))]
      exact h3 u fun h => hu (by simp [h])

/-- What a row of step 5 does to the bounds. -/
theorem row5_bounds (hG : M.dG = true) (tau : ℝ) (i k : ι) (s : RankStore ι S B) :
    ((row5 D M tau i).run s).1.mem (.bounds k) =
      if k = i ∧ M.nbrs i ≠ [] then ((M.nbrs i).foldl (fun b j => D.combine b (s.mem (.bounds j))) (s.mem (.bounds i)) : B)
      else s.mem (.bounds k) := by
  unfold row5
  by_cases hn : M.nbrs i = []
  · rw [if_pos hn, if_neg (fun h => h.2 hn)]
    rfl
  rw [if_neg hn]
  simp only [hG, if_true]
  change ((Prog.bind _ _).run s).1.mem (.bounds k) = _
  rw [Prog.run_bind, Prog.run_bind, loop_readonly (fun _ _ _ => rfl)]
  have tail : ∀ (b : B) (s1 : RankStore ι S B), ((.read (.newU i) fun (U_i_new : S) =>
    .read (.r i) fun (F_iH : S) =>
    Prog.each (fun j =>
      .read (.pij i j) fun (P_ij : S) => .read (.r j) fun (F_jH : S) =>
        let P_ij : S := (tau * (M.lumped i)⁻¹ * ((M.nbrs i).length : ℝ)) • (P_ij + (bIJ M i j • F_jH - bJI M i j • F_iH))
        .write (.pij i j) P_ij <|
        .write (.lij i j) (D.limit i j b U_i_new P_ij).1 <|
        if (D.limit i j b U_i_new P_ij).2 then .ret () else .raise (.ret ())) (M.nbrs i) : RowProg ι S B Unit).run s1).1.mem (.bounds k) =
      s1.mem (.bounds k) := by
    intro b s1
    refine Prog.run_frame (R := fun _ => True) (W := W5 M i) ?_ s1 (fun h => h)
    refine ⟨trivial, fun U => ⟨trivial, fun F => Prog.Within.each ?_⟩⟩
    intro j hj
    refine ⟨trivial, fun _ => ⟨trivial, fun _ => ⟨⟨rfl, hj⟩, ⟨rfl, hj⟩, ?_⟩⟩⟩
    split_ifs <;> trivial
  rw [tail]
  change (Store.set s (.bounds i) _).mem (.bounds k) = _
  by_cases hk : k = i
  · subst hk
    rw [if_pos ⟨rfl, hn⟩, Store.set_self]
    rfl
  · rw [if_neg (fun h => hk h.1), Store.set_of_ne]
    intro h
    cases h
    exact hk rfl

/-- **C111 (violation, discontinuous elements).** With discontinuous elements step 5 replaces the bounds of a row by a combination with the
bounds of its neighbours, which other threads replace in the same loop: three degrees of freedom in a row, one thread for each, and
two executions that leave different bounds. -/
theorem C111_dg_race_violation (D : Description (Fin 3) P S F Scalar.Bounds 1) (hD : D.combine = Scalar.combineBounds) (tau : ℝ) :
    ∃ (s s1 s2 : RankStore (Fin 3) S Scalar.Bounds) (chunk : Fin 3 → List (Fin 3)),
      Distributes chunk (fun _ => True) ∧
      Executes (parallelFor (fun _ => row5 D (chain 2 true) tau) () chunk) s s1 (fun _ => ()) ∧
      Executes (parallelFor (fun _ => row5 D (chain 2 true) tau) () chunk) s s2 (fun _ => ()) ∧
      (s1.mem (.bounds 2) : Scalar.Bounds).u_min = -1 ∧ (s2.mem (.bounds 2) : Scalar.Bounds).u_min = 0 := by
  let s : RankStore (Fin 3) S Scalar.Bounds := ⟨fun l => match l with
    | .alpha _ => (0 : ℝ) | .dij _ _ => (0 : ℝ) | .newU _ => (0 : S) | .r _ => (0 : S)
    | .bounds i => if i = 0 then (⟨-1, 0⟩ : Scalar.Bounds) else ⟨0, 0⟩
    | .pij _ _ => (0 : S) | .lij _ _ => (0 : ℝ) | .lijNext _ _ => (0 : ℝ), False⟩
  have n1 : (chain 2 true).nbrs 1 = [0, 2] := by unfold chain; decide
  have n2 : (chain 2 true).nbrs 2 = [1] := by unfold chain; decide
  have n0 : (chain 2 true).nbrs 0 = [1] := by unfold chain; decide
  have ex : ∀ ts : List (Fin 3), ts.Nodup → (∀ t, t ∈ ts) →
      Executes (parallelFor (fun _ => row5 D (chain 2 true) tau) () fun t => [t]) s
        (ts.foldl (fun s t => ((row5 D (chain 2 true) tau t).run s).1) s) fun _ => () := by
    intro ts hn hc
    obtain ⟨q, h1, h2, _⟩ := executes_in_order (parallelFor (fun _ => row5 D (chain 2 true) tau) () fun t : Fin 3 => [t]) ts hn s
    have hq : q = fun _ => .ret () := funext fun t => by
      obtain ⟨b, hb⟩ := h2 t (hc t)
      exact hb
    rw [hq] at h1
    have hr : ∀ t (s : RankStore (Fin 3) S Scalar.Bounds),
        ((parallelFor (fun _ => row5 D (chain 2 true) tau) () (fun t : Fin 3 => [t]) t).run s).1 = ((row5 D (chain 2 true) tau t).run s).1 := by
      intro t s
      rw [parallelFor, Prog.run_loop_cons]
      rfl
    simp only [hr] at h1
    exact h1
  refine ⟨s, _, _, fun t => [t], ⟨by simp, ?_, by simp⟩, ex [1, 2, 0] (by decide) (by decide), ex [2, 1, 0] (by decide) (by decide), ?_, ?_⟩
  · intro t u h a ha hb
    exact h ((List.mem_singleton.1 ha).symm.trans (List.mem_singleton.1 hb))
  · simp only [List.foldl_cons, List.foldl_nil]
    simp [row5_bounds (show (chain 2 true).dG = true from rfl), n0, n1, n2, hD, Scalar.combineBounds, s]
  · simp only [List.foldl_cons, List.foldl_nil]
    simp [row5_bounds (show (chain 2 true).dG = true from rfl), n0, n1, n2, hD, Scalar.combineBounds, s]

end

/-! ### Non-vacuity -/

/-- A chain of ten degrees of freedom owned by three ranks, each of which numbers its own ones first. -/
def rankChain : Mesh (Fin 10) 1 := { chain 9 false with below := fun i j => i.val / 4 = j.val / 4 ∧ j < i }

theorem rankChain_wf : rankChain.WellFormed where
  symm := (chain_wf 9 false).symm
  irrefl := (chain_wf 9 false).irrefl
  nodup := (chain_wf 9 false).nodup
  asymm := fun _ _ h h' => absurd h.2 (not_lt.2 h'.2.le)
  skip_below := fun _ _ h => h.elim

/-- Burgers' equation on three ranks with one and with eight threads: executions exist, and all of them end in the same way. -/
example (s : Fin 3 → RankStore (Fin 10) Scalar.State Scalar.Bounds) (x : Fin 3 → StateVector (Fin 10) Unit Scalar.State)
    (cnt : Fin 3 → Counters) :
    let owner : Fin 10 → Fin 3 := fun i => ⟨i.val / 4, by omega⟩
    let D := Scalar.oneLane (ι := Fin 10) (dim := 1) (Scalar.burgers 1 (1 / 1000))
      ⟨⟨false, false⟩, 1, 1 / 1000, 1 / 1000, 100, 2⟩ fun _ _ => []
    ∃ out, ThreadedStep (Fin 1) D rankChain owner ⟨1 / 2, 1 / 1000, 2⟩ 1000 .raise_exception cnt s x (fun _ => []) 0 10 out ∧
      ∀ out', ThreadedStep (Fin 8) D rankChain owner ⟨1 / 2, 1 / 1000, 2⟩ 1000 .raise_exception cnt s x (fun _ => []) 0 10 out' →
        out' = out := by
  intro owner D
  obtain ⟨out, h⟩ := C111_completes (T := Fin 1) D rankChain owner ⟨1 / 2, 1 / 1000, 2⟩ 1000 .raise_exception cnt s x (fun _ => []) 0 10
  refine ⟨out, h, fun out' h' => C111_threads_partial rankChain_wf rfl ?_ (by norm_num) h' h⟩
  intro i j _ hb
  exact Fin.ext hb.1.symm

/-- Rows of the shallow water equations on this chain do not race. -/
example (D : Description (Fin 10) Unit (ShallowWater.State 1) (ShallowWater.FluxContribution 1) ShallowWater.Bounds 1)
    (old : StateVector (Fin 10) Unit (ShallowWater.State 1)) : ¬ DataRace (row5 D rankChain 1 2) (row5 D rankChain 1 3) :=
  (C111_race_free_partial (par := ⟨1 / 2, 1 / 1000, 2⟩) rankChain_wf rfl old [] 1 1 1 False (by decide)).2.2.2.2.1

/-- With discontinuous elements they do. -/
example (F : Type) (D : Description (Fin 10) Unit Scalar.State F Scalar.Bounds 1) :
    DataRace (row5 D (chain 9 true) 1 2) (row5 D (chain 9 true) 1 3) :=
  haveI : Inhabited Scalar.Bounds := ⟨⟨0, 0⟩⟩
  C111_dg_data_race_violation (chain_wf 9 true) rfl 1 (mem_chain.2 (Or.inl rfl))

/-- Burgers' equation and discontinuous elements meet the hypotheses of the violation. -/
example : ∃ (s s1 s2 : RankStore (Fin 3) Scalar.State Scalar.Bounds) (chunk : Fin 3 → List (Fin 3)),
      Distributes chunk (fun _ => True) ∧
      Executes (parallelFor (fun _ => row5 (Scalar.oneLane (dim := 1) (Scalar.burgers 1 (1 / 1000))
        ⟨⟨false, false⟩, 1, 1 / 1000, 1 / 1000, 100, 2⟩ fun _ _ => []) (chain 2 true) 1) () chunk) s s1 (fun _ => ()) ∧
      Executes (parallelFor (fun _ => row5 (Scalar.oneLane (dim := 1) (Scalar.burgers 1 (1 / 1000))
        ⟨⟨false, false⟩, 1, 1 / 1000, 1 / 1000, 100, 2⟩ fun _ _ => []) (chain 2 true) 1) () chunk) s s2 (fun _ => ()) ∧
      (s1.mem (.bounds 2) : Scalar.Bounds).u_min = -1 ∧ (s2.mem (.bounds 2) : Scalar.Bounds).u_min = 0 :=
  C111_dg_race_violation _ rfl 1

end

end Threads
end Hyp
end Ryujin
