import Verif.Model.Threads
import Mathlib.Logic.Relation

/-!
# Parallel loops without conflicting accesses

`parallelFor_deterministic`: if the iterations of a parallel loop only read and write within given sets of locations, and no iteration
writes what another one reads or writes, then every execution has the effect of running every iteration on the initial memory.
-/

namespace Ryujin
namespace Threads

open Classical

variable {Loc : Type} {Val : Loc → Type} {α β γ T : Type}

theorem Store.set_self (s : Store Loc Val) (l : Loc) (v : Val l) : (s.set l v).mem l = v := by
  change Function.update s.mem l v l = v
  rw [Function.update_self]

theorem Store.set_of_ne (s : Store Loc Val) {l l' : Loc} (h : l' ≠ l) (v : Val l) : (s.set l v).mem l' = s.mem l' := by
  change Function.update s.mem l v l' = s.mem l'
  rw [Function.update_of_ne h]

theorem Store.set_flag (s : Store Loc Val) (l : Loc) (v : Val l) : (s.set l v).flag = s.flag := rfl

namespace Prog

/-- All reads are in `R` and all writes in `W`, whatever values are read. -/
def Within (R W : Loc → Prop) : Prog Loc Val β → Prop
  | .ret _ => True
  | .read l k => R l ∧ ∀ v, (k v).Within R W
  | .write l _ k => W l ∧ k.Within R W
  | .raise k => k.Within R W

theorem Within.bind {R W : Loc → Prop} {p : Prog Loc Val β} {f : β → Prog Loc Val γ} (hp : p.Within R W)
    (hf : ∀ b, (f b).Within R W) : (p.bind f).Within R W := by
  induction p with
  | ret b => exact hf b
  | read l k ih => exact ⟨hp.1, fun v => ih v (hp.2 v)⟩
  | write l v k ih => exact ⟨hp.1, ih hp.2⟩
  | raise k ih => exact ih hp

theorem Within.loop {R W : Loc → Prop} {f : β → α → Prog Loc Val β} {as : List α}
    (hf : ∀ b, ∀ a ∈ as, (f b a).Within R W) (b : β) : (Prog.loop f b as).Within R W := by
  induction as generalizing b with
  | nil => trivial
  | cons a as ih =>
    exact Within.bind (hf b a List.mem_cons_self) fun b => ih (fun b a h => hf b a (List.mem_cons_of_mem _ h)) b

theorem Within.each {R W : Loc → Prop} {f : α → Prog Loc Val Unit} {as : List α}
    (hf : ∀ a ∈ as, (f a).Within R W) : (Prog.each f as).Within R W :=
  Within.loop (fun _ => hf) ()

theorem Within.mono {R W R' W' : Loc → Prop} (hR : ∀ l, R l → R' l) (hW : ∀ l, W l → W' l) {p : Prog Loc Val β}
    (hp : p.Within R W) : p.Within R' W' := by
  induction p with
  | ret b => trivial
  | read l k ih => exact ⟨hR l hp.1, fun v => ih v (hp.2 v)⟩
  | write l v k ih => exact ⟨hW l hp.1, ih hp.2⟩
  | raise k ih => exact ih hp

theorem run_bind (p : Prog Loc Val β) (f : β → Prog Loc Val γ) (s : Store Loc Val) :
    (p.bind f).run s = (f (p.run s).2).run (p.run s).1 := by
  induction p generalizing s with
  | ret b => rfl
  | read l k ih => exact ih _ s
  | write l v k ih => exact ih _
  | raise k ih => exact ih _

theorem run_loop_cons (f : β → α → Prog Loc Val β) (b : β) (a : α) (as : List α) (s : Store Loc Val) :
    (loop f b (a :: as)).run s = (loop f ((f b a).run s).2 as).run ((f b a).run s).1 :=
  run_bind _ _ _

/-- What is not in the write set is not changed. -/
theorem run_frame {R W : Loc → Prop} {p : Prog Loc Val β} (hp : p.Within R W) (s : Store Loc Val) {l : Loc} (hl : ¬ W l) :
    (p.run s).1.mem l = s.mem l := by
  induction p generalizing s with
  | ret b => rfl
  | read l' k ih => exact ih _ (hp.2 _) s
  | write l' v k ih =>
    rw [run, ih hp.2]
    have hne : l ≠ l' := by
      rintro rfl
      exact hl hp.1
    change Function.update s.mem l' v l = s.mem l
    rw [Function.update_of_ne hne]
  | raise k ih => rw [run, ih hp]

/-- The result depends only on what is read. -/
theorem run_congr {R W : Loc → Prop} {p : Prog Loc Val β} (hp : p.Within R W) {s s' : Store Loc Val}
    (hR : ∀ l, R l → s.mem l = s'.mem l) :
    (p.run s).2 = (p.run s').2 ∧ ∀ l, s.mem l = s'.mem l → (p.run s).1.mem l = (p.run s').1.mem l := by
  induction p generalizing s s' with
  | ret b => exact ⟨rfl, fun _ h => h⟩
  | read l' k ih =>
    have h := hR l' hp.1
    rw [run, run, ← h]
    exact ih _ (hp.2 _) hR
  | write l' v k ih =>
    have hu : ∀ l, s.mem l = s'.mem l → Function.update s.mem l' v l = Function.update s'.mem l' v l := by
      intro l h
      by_cases hl : l = l'
      · subst hl
        rw [Function.update_self, Function.update_self]
      · rwa [Function.update_of_ne hl, Function.update_of_ne hl]
    obtain ⟨h1, h2⟩ := ih hp.2 (s := (s.set l' v))
      (s' := (s'.set l' v)) (fun l h => hu l (hR l h))
    exact ⟨h1, fun l h => h2 l (hu l h)⟩
  | raise k ih => exact ih hp (s := { s with flag := True }) (s' := { s' with flag := True }) hR

/-- The program sets the flag when run from `s`. -/
def Raises : Prog Loc Val β → Store Loc Val → Prop
  | .ret _, _ => False
  | .read l k, s => (k (s.mem l)).Raises s
  | .write l v k, s => k.Raises (s.set l v)
  | .raise _, _ => True

theorem raises_congr {R W : Loc → Prop} {p : Prog Loc Val β} (hp : p.Within R W) {s s' : Store Loc Val}
    (hR : ∀ l, R l → s.mem l = s'.mem l) : p.Raises s ↔ p.Raises s' := by
  induction p generalizing s s' with
  | ret b => exact Iff.rfl
  | read l' k ih =>
    have h := hR l' hp.1
    rw [Raises, Raises, ← h]
    exact ih _ (hp.2 _) hR
  | write l' v k ih =>
    refine ih hp.2 (s := (s.set l' v))
      (s' := (s'.set l' v)) fun l h => ?_
    by_cases hl : l = l'
    · subst hl
      change Function.update s.mem l v l = Function.update s'.mem l v l
      rw [Function.update_self, Function.update_self]
    · change Function.update s.mem l' v l = Function.update s'.mem l' v l
      rw [Function.update_of_ne hl, Function.update_of_ne hl, hR l h]
  | raise k ih => exact Iff.rfl

theorem run_flag (p : Prog Loc Val β) (s : Store Loc Val) : (p.run s).1.flag ↔ s.flag ∨ p.Raises s := by
  induction p generalizing s with
  | ret b => simp [run, Raises]
  | read l' k ih => exact ih _ s
  | write l' v k ih => exact ih _
  | raise k ih =>
    rw [run, ih]
    simp [Raises]

theorem raises_bind (p : Prog Loc Val β) (f : β → Prog Loc Val γ) (s : Store Loc Val) :
    (p.bind f).Raises s ↔ p.Raises s ∨ (f (p.run s).2).Raises (p.run s).1 := by
  induction p generalizing s with
  | ret b => simp [bind, Raises, run]
  | read l k ih => exact ih _ s
  | write l v k ih => exact ih _
  | raise k ih => simp [bind, Raises]

end Prog

/-- No thread writes what another one reads or writes. -/
def RaceFree (R W : T → Loc → Prop) : Prop := ∀ t u, t ≠ u → ∀ l, W t l → ¬ R u l ∧ ¬ W u l

/-- What an execution preserves: the programs stay within their sets, and running the rest of a program alone on the current
memory gives the same value, the same entries in its write set and the same flag as running it alone from the beginning. -/
theorem steps_invariant {R W : T → Loc → Prop} (hrace : RaceFree R W) {s0 : Store Loc Val} {p0 : T → Prog Loc Val β}
    (hp0 : ∀ t, (p0 t).Within (R t) (W t)) {c : Store Loc Val × (T → Prog Loc Val β)}
    (h : Relation.ReflTransGen Step (s0, p0) c) :
    (∀ t, (c.2 t).Within (R t) (W t)) ∧
    (∀ t, ((c.2 t).run c.1).2 = ((p0 t).run s0).2) ∧
    (∀ t l, W t l → ((c.2 t).run c.1).1.mem l = ((p0 t).run s0).1.mem l) ∧
    (∀ l, (∀ t, ¬ W t l) → c.1.mem l = s0.mem l) ∧
    ((c.1.flag ∨ ∃ t, (c.2 t).Raises c.1) ↔ (s0.flag ∨ ∃ t, (p0 t).Raises s0)) := by
  induction h with
  | refl => exact ⟨hp0, fun _ => rfl, fun _ _ _ => rfl, fun _ _ => rfl, Iff.rfl⟩
  | tail _ hstep ih =>
    obtain ⟨i1, i2, i3, i4, i5⟩ := ih
    cases hstep with
    | @read s p t l k h =>
      simp only at i1 i2 i3 i4 i5 ⊢
      have ht := i1 t
      rw [h] at ht
      have hrun : ∀ u, ((Function.update p t (k (s.mem l))) u).run s = (p u).run s := by
        intro u
        by_cases hu : u = t
        · subst hu
          rw [Function.update_self, h]
          rfl
        · rw [Function.update_of_ne hu]
      have hraise : ∀ u, ((Function.update p t (k (s.mem l))) u).Raises s ↔ (p u).Raises s := by
        intro u
        by_cases hu : u = t
        · subst hu
          rw [Function.update_self, h]
          rfl
        · rw [Function.update_of_ne hu]
      refine ⟨fun u => ?_, fun u => by rw [hrun, i2], fun u l' hl' => by rw [hrun, i3 u l' hl'], i4, ?_⟩
      · by_cases hu : u = t
        · subst hu
          rw [Function.update_self]
          exact ht.2 _
        · rw [Function.update_of_ne hu]
          exact i1 u
      · rw [← i5]
        simp only [hraise]
    | @write s p t l v k h =>
      simp only at i1 i2 i3 i4 i5 ⊢
      have ht := i1 t
      rw [h] at ht
      have hl : W t l := ht.1
      have hother : ∀ u, u ≠ t → ∀ l', R u l' ∨ W u l' → s.mem l' = (s.set l v).mem l' := by
        intro u hu l' hl'
        rw [Store.set_of_ne]
        rintro rfl
        exact hl'.elim (hrace t u (Ne.symm hu) l' hl).1 (hrace t u (Ne.symm hu) l' hl).2
      refine ⟨fun u => ?_, fun u => ?_, fun u l' hl' => ?_, fun l' hl' => ?_, ?_⟩
      · by_cases hu : u = t
        · subst hu
          rw [Function.update_self]
          exact ht.2
        · rw [Function.update_of_ne hu]
          exact i1 u
      · by_cases hu : u = t
        · subst hu
          rw [Function.update_self, ← i2, h]
          rfl
        · rw [Function.update_of_ne hu, ← i2]
          exact ((Prog.run_congr (i1 u) (s := s) (s' := (s.set l v))
            fun l' h' => hother u hu l' (Or.inl h')).1).symm
      · by_cases hu : u = t
        · subst hu
          rw [Function.update_self, ← i3 u l' hl', h]
          rfl
        · rw [Function.update_of_ne hu, ← i3 u l' hl']
          exact ((Prog.run_congr (i1 u) (s := s) (s' := (s.set l v))
            fun l' h' => hother u hu l' (Or.inl h')).2 l' (hother u hu l' (Or.inr hl'))).symm
      · rw [Store.set_of_ne, i4 l' hl']
        rintro rfl
        exact hl' t hl
      · rw [← i5]
        have hraise : ∀ u, ((Function.update p t k) u).Raises (s.set l v) ↔ (p u).Raises s := by
          intro u
          by_cases hu : u = t
          · subst hu
            rw [Function.update_self, h]
            rfl
          · rw [Function.update_of_ne hu]
            exact (Prog.raises_congr (i1 u) (s := s) (s' := (s.set l v))
              fun l' h' => hother u hu l' (Or.inl h')).symm
        simp only [hraise, Store.set_flag]
    | @raise s p t k h =>
      simp only at i1 i2 i3 i4 i5 ⊢
      have ht := i1 t
      rw [h] at ht
      have hrun : ∀ u, (((Function.update p t k) u).run { s with flag := True }).2 = ((p u).run s).2 ∧
          ∀ l', (((Function.update p t k) u).run { s with flag := True }).1.mem l' = ((p u).run s).1.mem l' := by
        intro u
        by_cases hu : u = t
        · subst hu
          rw [Function.update_self, h]
          exact ⟨rfl, fun _ => rfl⟩
        · rw [Function.update_of_ne hu]
          have := Prog.run_congr (i1 u) (s := { s with flag := True }) (s' := s) (fun _ _ => rfl)
          exact ⟨this.1, fun l' => this.2 l' rfl⟩
      refine ⟨fun u => ?_, fun u => by rw [(hrun u).1, i2], fun u l' hl' => by rw [(hrun u).2, i3 u l' hl'], i4, ?_⟩
      · by_cases hu : u = t
        · subst hu
          rw [Function.update_self]
          exact ht
        · rw [Function.update_of_ne hu]
          exact i1 u
      · rw [← i5]
        refine iff_of_true (Or.inl trivial) (Or.inr ⟨t, ?_⟩)
        rw [h]
        trivial

/-- A race free parallel region has one result. -/
theorem executes_deterministic {R W : T → Loc → Prop} (hrace : RaceFree R W) {p : T → Prog Loc Val β}
    (hp : ∀ t, (p t).Within (R t) (W t)) {s s' : Store Loc Val} {b : T → β} (h : Executes p s s' b) :
    (∀ t, b t = ((p t).run s).2) ∧ (∀ t l, W t l → s'.mem l = ((p t).run s).1.mem l) ∧
    (∀ l, (∀ t, ¬ W t l) → s'.mem l = s.mem l) ∧ (s'.flag ↔ s.flag ∨ ∃ t, (p t).Raises s) := by
  obtain ⟨_, i2, i3, i4, i5⟩ := steps_invariant hrace hp h
  refine ⟨i2, i3, i4, ?_⟩
  rw [← i5]
  simp [Prog.Raises]

/-- Every execution of the first accesses of the threads can be continued to the end of the region. -/
theorem completes [Finite T] (s : Store Loc Val) (p : T → Prog Loc Val β) : ∃ s' b, Executes p s s' b := by
  have one : ∀ (q : Prog Loc Val β) (t : T) (s : Store Loc Val) (p : T → Prog Loc Val β), p t = q →
      ∃ s' b, Relation.ReflTransGen Step (s, p) (s', Function.update p t (.ret b)) := by
    intro q t
    induction q with
    | ret b =>
      intro s p h
      refine ⟨s, b, ?_⟩
      rw [← h, Function.update_eq_self]
    | read l k ih =>
      intro s p h
      obtain ⟨s', b, h'⟩ := ih (s.mem l) s (Function.update p t (k (s.mem l))) (Function.update_self ..)
      rw [Function.update_idem] at h'
      exact ⟨s', b, Relation.ReflTransGen.head (Step.read t l k h) h'⟩
    | write l v k ih =>
      intro s p h
      obtain ⟨s', b, h'⟩ := ih (s.set l v) (Function.update p t k) (Function.update_self ..)
      rw [Function.update_idem] at h'
      exact ⟨s', b, Relation.ReflTransGen.head (Step.write t l v k h) h'⟩
    | raise k ih =>
      intro s p h
      obtain ⟨s', b, h'⟩ := ih { s with flag := True } (Function.update p t k) (Function.update_self ..)
      rw [Function.update_idem] at h'
      exact ⟨s', b, Relation.ReflTransGen.head (Step.raise t k h) h'⟩
  cases nonempty_fintype T
  have many : ∀ ts : List T, ∃ s' q, Relation.ReflTransGen Step (s, p) (s', q) ∧ ∀ t ∈ ts, ∃ b, q t = .ret b := by
    intro ts
    induction ts with
    | nil => exact ⟨s, p, .refl, by simp⟩
    | cons t ts ih =>
      obtain ⟨s', q, h, hq⟩ := ih
      obtain ⟨s'', b, h'⟩ := one (q t) t s' q rfl
      refine ⟨s'', _, h.trans h', fun u hu => ?_⟩
      by_cases hut : u = t
      · subst hut
        exact ⟨b, Function.update_self ..⟩
      · rw [Function.update_of_ne hut]
        exact hq u ((List.mem_cons.1 hu).resolve_left hut)
  obtain ⟨s', q, h, hq⟩ := many Finset.univ.toList
  choose b hb using fun t => hq t (Finset.mem_toList.2 (Finset.mem_univ t))
  refine ⟨s', b, ?_⟩
  have : q = fun t => .ret (b t) := funext hb
  rwa [this] at h

/-! ### Parallel loops -/

section

variable {R W : α → Loc → Prop} {f : β → α → Prog Loc Val β}

theorem raises_iff (p : Prog Loc Val β) {R' W' : Loc → Prop} (hp : p.Within R' W') (s : Store Loc Val) :
    p.Raises s ↔ (p.run { s with flag := False }).1.flag := by
  rw [Prog.run_flag]
  simp only [false_or]
  exact Prog.raises_congr hp fun _ _ => rfl

theorem loop_within (hf : ∀ b a, (f b a).Within (R a) (W a)) (as : List α) (b : β) :
    (Prog.loop f b as).Within (fun l => ∃ a ∈ as, R a l) (fun l => ∃ a ∈ as, W a l) :=
  Prog.Within.loop (fun b a ha => (hf b a).mono (fun _ h => ⟨a, ha, h⟩) fun _ h => ⟨a, ha, h⟩) b

/-- One thread: every iteration sees the initial memory in its read set. -/
theorem loop_local (hrace : RaceFree R W) (hf : ∀ b a, (f b a).Within (R a) (W a))
    (hind : ∀ b b' a s, ((f b a).run s).1 = ((f b' a).run s).1) (as : List α) (hn : as.Nodup) (b : β) (s : Store Loc Val) :
    (∀ a ∈ as, ∀ l, W a l → ∀ b', ((Prog.loop f b as).run s).1.mem l = ((f b' a).run s).1.mem l) ∧
    ((Prog.loop f b as).run s).2 = as.foldl (fun b a => ((f b a).run s).2) b ∧
    ((Prog.loop f b as).Raises s ↔ ∃ a ∈ as, ∀ b', (f b' a).Raises s) := by
  have hraise : ∀ b b' a s, (f b a).Raises s ↔ (f b' a).Raises s := by
    intro b b' a s
    rw [raises_iff _ (hf b a), raises_iff _ (hf b' a), hind b b']
  induction as generalizing b s with
  | nil => exact ⟨by simp, rfl, by simp [Prog.loop, Prog.Raises]⟩
  | cons a as ih =>
    obtain ⟨ha, hn⟩ := List.nodup_cons.1 hn
    set s1 := ((f b a).run s).1 with hs1
    have hsame : ∀ a' ∈ as, ∀ l, R a' l ∨ W a' l → s1.mem l = s.mem l := by
      intro a' ha' l hl
      refine Prog.run_frame (hf b a) s fun hW => ?_
      have := hrace a a' (fun h => ha (h ▸ ha')) l hW
      exact hl.elim this.1 this.2
    obtain ⟨j1, j2, j3⟩ := ih hn ((f b a).run s).2 s1
    have hcongr : ∀ b' a', a' ∈ as → ((f b' a').run s1).2 = ((f b' a').run s).2 ∧
        (∀ l, W a' l → ((f b' a').run s1).1.mem l = ((f b' a').run s).1.mem l) ∧
        ((f b' a').Raises s1 ↔ (f b' a').Raises s) := by
      intro b' a' ha'
      have h := Prog.run_congr (hf b' a') (s := s1) (s' := s) fun l hl => hsame a' ha' l (Or.inl hl)
      exact ⟨h.1, fun l hl => h.2 l (hsame a' ha' l (Or.inr hl)),
        Prog.raises_congr (hf b' a') fun l hl => hsame a' ha' l (Or.inl hl)⟩
    refine ⟨?_, ?_, ?_⟩
    · intro a' ha' l hl b'
      rw [Prog.run_loop_cons]
      rcases List.mem_cons.1 ha' with rfl | ha'
      · rw [Prog.run_frame (loop_within hf as _), hind b' b]
        rintro ⟨a'', h'', hW⟩
        exact (hrace a' a'' (fun h => ha (h ▸ h'')) l hl).2 hW
      · rw [← hs1, j1 a' ha' l hl b', (hcongr b' a' ha').2.1 l hl]
    · rw [Prog.run_loop_cons, ← hs1, j2, List.foldl_cons]
      have : ∀ (l : List α), (∀ x ∈ l, x ∈ as) → ∀ b, l.foldl (fun b a => ((f b a).run s1).2) b =
          l.foldl (fun b a => ((f b a).run s).2) b := by
        intro l
        induction l with
        | nil => intro _ b; rfl
        | cons x l ihl =>
          intro hx b
          rw [List.foldl_cons, List.foldl_cons, (hcongr b x (hx x List.mem_cons_self)).1]
          exact ihl (fun y hy => hx y (List.mem_cons_of_mem _ hy)) _
      exact this as (fun _ h => h) _
    · rw [Prog.loop, Prog.raises_bind, ← hs1, j3]
      constructor
      · rintro (h | ⟨a', ha', h⟩)
        · exact ⟨a, List.mem_cons_self, fun b' => (hraise b b' a s).1 h⟩
        · exact ⟨a', List.mem_cons_of_mem _ ha', fun b' => (hcongr b' a' ha').2.2.1 (h b')⟩
      · rintro ⟨a', ha', h⟩
        rcases List.mem_cons.1 ha' with rfl | ha'
        · exact Or.inl (h b)
        · exact Or.inr ⟨a', ha', fun b' => (hcongr b' a' ha').2.2.2 (h b')⟩

/-- **A parallel loop whose iterations do not conflict** has the same effect for every distribution of the iterations over
threads and every interleaving: an entry in the write set of iteration `a` is what `a` computes from the memory before the loop, all
other entries are unchanged, and the local variable of a thread is what its iterations compute from the memory before the loop. -/
theorem parallelFor_deterministic (hrace : RaceFree R W) (hf : ∀ b a, (f b a).Within (R a) (W a))
    (hind : ∀ b b' a s, ((f b a).run s).1 = ((f b' a).run s).1) {chunk : T → List α} {own : α → Prop}
    (hn : ∀ t, (chunk t).Nodup) (hd : ∀ t u, t ≠ u → ∀ a ∈ chunk t, a ∉ chunk u) (hc : ∀ a, own a ↔ ∃ t, a ∈ chunk t)
    {b0 : β} {s s' : Store Loc Val} {b : T → β} (h : Executes (parallelFor f b0 chunk) s s' b) :
    (∀ a, own a → ∀ l, W a l → ∀ b', s'.mem l = ((f b' a).run s).1.mem l) ∧
    (∀ l, (∀ a, own a → ¬ W a l) → s'.mem l = s.mem l) ∧
    (∀ t, b t = (chunk t).foldl (fun b a => ((f b a).run s).2) b0) ∧
    (s'.flag ↔ s.flag ∨ ∃ a, own a ∧ ∀ b', (f b' a).Raises s) := by
  have hrace' : RaceFree (fun t l => ∃ a ∈ chunk t, R a l) fun t l => ∃ a ∈ chunk t, W a l := by
    rintro t u htu l ⟨a, ha, hW⟩
    have hne : ∀ a' ∈ chunk u, a ≠ a' := fun a' ha' h => hd t u htu a ha (h ▸ ha')
    exact ⟨fun ⟨a', ha', hR⟩ => (hrace a a' (hne a' ha') l hW).1 hR, fun ⟨a', ha', hW'⟩ => (hrace a a' (hne a' ha') l hW).2 hW'⟩
  obtain ⟨i1, i2, i3, i4⟩ := executes_deterministic hrace' (fun t => loop_within hf (chunk t) b0) h
  refine ⟨fun a ha l hl b' => ?_, fun l hl => i3 l ?_, fun t => ?_, ?_⟩
  · obtain ⟨t, ht⟩ := (hc a).1 ha
    rw [i2 t l ⟨a, ht, hl⟩]
    exact (loop_local hrace hf hind _ (hn t) b0 s).1 a ht l hl b'
  · rintro t ⟨a, ha, hW⟩
    exact hl a ((hc a).2 ⟨t, ha⟩) hW
  · rw [i1]
    exact (loop_local hrace hf hind _ (hn t) b0 s).2.1
  · rw [i4]
    refine or_congr Iff.rfl ?_
    constructor
    · rintro ⟨t, ht⟩
      obtain ⟨a, ha, h⟩ := (loop_local hrace hf hind _ (hn t) b0 s).2.2.1 ht
      exact ⟨a, (hc a).2 ⟨t, ha⟩, h⟩
    · rintro ⟨a, ha, h⟩
      obtain ⟨t, ht⟩ := (hc a).1 ha
      exact ⟨t, (loop_local hrace hf hind _ (hn t) b0 s).2.2.2 ⟨a, ht, h⟩⟩

end

end Threads
end Ryujin
