import Verif.Model.ThreadsPrecompute
import Verif.Proofs.Threads
import Verif.Proofs.ThreadRows
import Verif.Props.Threads
import Verif.Props.AeosPrecompute

/-!
# C112: the precomputed values do not depend on the schedule of the threads

In cycle 1 a row reads the pressures of its neighbours while other threads write them, always with the value they had before.
-/

namespace Ryujin

namespace Threads

open Classical

variable {T Loc β γ α : Type} {Val : Loc → Type}

/-- `q` is `p` without the reads whose value is not used, with the value `c l` for reads of the locations in `K`, and without
writes of `c l` to locations in `K`. -/
inductive Refines (K : Loc → Prop) (c : ∀ l, Val l) : Prog Loc Val β → Prog Loc Val β → Prop
  | ret (b : β) : Refines K c (.ret b) (.ret b)
  | unused {l : Loc} {k : Val l → Prog Loc Val β} {q : Prog Loc Val β} (h : ∀ v, Refines K c (k v) q) : Refines K c (.read l k) q
  | read {l : Loc} {k k' : Val l → Prog Loc Val β} (h : ∀ v, Refines K c (k v) (k' v)) : Refines K c (.read l k) (.read l k')
  | constant {l : Loc} {k : Val l → Prog Loc Val β} {q : Prog Loc Val β} (hl : K l) (h : Refines K c (k (c l)) q) :
      Refines K c (.read l k) q
  | same {l : Loc} {k q : Prog Loc Val β} (hl : K l) (h : Refines K c k q) : Refines K c (.write l (c l) k) q
  | write {l : Loc} {v : Val l} {k k' : Prog Loc Val β} (hl : ¬ K l) (h : Refines K c k k') : Refines K c (.write l v k) (.write l v k')
  | raise {k k' : Prog Loc Val β} (h : Refines K c k k') : Refines K c (.raise k) (.raise k')

theorem Refines.bind {K : Loc → Prop} {c : ∀ l, Val l} {p q : Prog Loc Val β} {f f' : β → Prog Loc Val γ} (h : Refines K c p q)
    (hf : ∀ b, Refines K c (f b) (f' b)) : Refines K c (p.bind f) (q.bind f') := by
  induction h with
  | ret b => exact hf b
  | unused _ ih => exact .unused ih
  | read _ ih => exact .read ih
  | constant hl _ ih => exact .constant hl ih
  | same hl _ ih => exact .same hl ih
  | write hl _ ih => exact .write hl ih
  | raise _ ih => exact .raise ih

theorem Refines.loop {K : Loc → Prop} {c : ∀ l, Val l} {f f' : β → α → Prog Loc Val β} (hf : ∀ b a, Refines K c (f b a) (f' b a))
    (l : List α) (b : β) : Refines K c (Prog.loop f b l) (Prog.loop f' b l) := by
  induction l generalizing b with
  | nil => exact .ret b
  | cons a l ih => exact (hf b a).bind fun b => ih b

theorem Refines.fold {K : Loc → Prop} {c : ∀ l, Val l} {f : β → α → Prog Loc Val β} {g : β → α → β}
    (hf : ∀ b a, Refines K c (f b a) (.ret (g b a))) (l : List α) (b : β) : Refines K c (Prog.loop f b l) (.ret (l.foldl g b)) := by
  induction l generalizing b with
  | nil => exact .ret b
  | cons a l ih => exact (hf b a).bind (f' := fun b => .ret (l.foldl g b)) fun b => ih b

/-- An execution of the programs `p` is one of the programs `q`. -/
theorem Refines.steps {K : Loc → Prop} {c : ∀ l, Val l} {p q : T → Prog Loc Val β} (h : ∀ t, Refines K c (p t) (q t))
    {s : Store Loc Val} (hs : ∀ l, K l → s.mem l = c l) {x : Store Loc Val × (T → Prog Loc Val β)}
    (hx : Relation.ReflTransGen Step (s, p) x) :
    ∃ q', Relation.ReflTransGen Step (s, q) (x.1, q') ∧ (∀ t, Refines K c (x.2 t) (q' t)) ∧ ∀ l, K l → x.1.mem l = c l := by
  induction hx with
  | refl => exact ⟨q, .refl, h, hs⟩
  | tail _ hstep ih =>
    obtain ⟨q', h1, h2, h3⟩ := ih
    cases hstep with
    | @read s1 p1 t l k hp =>
      simp only at h1 h2 h3 ⊢
      have ht := h2 t
      rw [hp] at ht
      have keep : ∀ r, Refines K c (k (s1.mem l)) r → ∀ u, Refines K c (Function.update p1 t (k (s1.mem l)) u) (Function.update q' t r u) := by
        intro r hr u
        by_cases hu : u = t
        · subst hu
          simpa using hr
        · simpa [hu] using h2 u
      generalize hq : q' t = r at ht
      cases ht with
      | unused h =>
        refine ⟨q', h1, ?_, h3⟩
        have := keep r (h _)
        rwa [← hq, Function.update_eq_self] at this
      | @read _ _ k' h => exact ⟨_, h1.tail (Step.read t l k' hq), keep _ (h _), h3⟩
      | constant hl h =>
        refine ⟨q', h1, ?_, h3⟩
        have := keep r (by rwa [h3 l hl])
        rwa [← hq, Function.update_eq_self] at this
    | @write s1 p1 t l v k hp =>
      simp only at h1 h2 h3 ⊢
      have ht := h2 t
      rw [hp] at ht
      have keep : ∀ r, Refines K c k r → ∀ u, Refines K c (Function.update p1 t k u) (Function.update q' t r u) := by
        intro r hr u
        by_cases hu : u = t
        · subst hu
          simpa using hr
        · simpa [hu] using h2 u
      generalize hq : q' t = r at ht
      cases ht with
      | same hl h =>
        have e : s1.set l (c l) = s1 := by
          rw [Store.set, ← h3 l hl, Function.update_eq_self]
        rw [e]
        refine ⟨q', h1, ?_, h3⟩
        have := keep r h
        rwa [← hq, Function.update_eq_self] at this
      | @write _ _ _ k' hl h =>
        refine ⟨_, h1.tail (Step.write t l v k' hq), keep _ h, fun l' hl' => ?_⟩
        have e : l' ≠ l := fun e => hl (e ▸ hl')
        rw [Store.set_of_ne _ e]
        exact h3 l' hl'
    | @raise s1 p1 t k hp =>
      simp only at h1 h2 h3 ⊢
      have ht := h2 t
      rw [hp] at ht
      generalize hq : q' t = r at ht
      cases ht with
      | @raise _ k' h =>
        refine ⟨_, h1.tail (Step.raise t k' hq), fun u => ?_, h3⟩
        by_cases hu : u = t
        · subst hu
          simpa using h
        · simpa [hu] using h2 u

theorem Refines.executes {K : Loc → Prop} {c : ∀ l, Val l} {p q : T → Prog Loc Val β} (h : ∀ t, Refines K c (p t) (q t))
    {s s' : Store Loc Val} (hs : ∀ l, K l → s.mem l = c l) {b : T → β} (hx : Executes p s s' b) : Executes q s s' b := by
  obtain ⟨q', h1, h2, _⟩ := Refines.steps h hs hx
  have : q' = fun t => .ret (b t) := funext fun t => by
    have := h2 t
    generalize hq : q' t = r at this
    cases this
    rfl
  rw [this] at h1
  exact h1

end Threads

namespace Eos
namespace Threads

open Euler (State density internalEnergy)
open Ryujin.Threads
open Ryujin.Hyp.Threads (Distributes)

noncomputable section

variable {dim : ℕ} {T : Type}

theorem content_ext {m : PStore} {i : ℕ} {v : Prec} (h1 : m.mem (.p i) = v.p) (h2 : m.mem (.gamma i) = v.gamma_min)
    (h3 : m.mem (.s i) = v.s) (h4 : m.mem (.eta i) = v.eta) : content m i = v := by
  rw [content, h1, h2, h3, h4]

/-- The row of cycle 1 with the pressures given. -/
def row1' (par : Aeos.Params) (cols : ℕ → List ℕ) (U : ℕ → State dim) (p : ℕ → ℝ) (i : ℕ) : PProg :=
  if (cols i).length = 1 then .ret ()
  else
    .read (.gamma i) fun gamma_min_i =>
      let g := (cols i).tail.foldl (fun g j => min g (Aeos.surrogateGamma par (U j) (p j))) gamma_min_i
      .write (.gamma i) g <| .write (.s i) (Aeos.surrogateSpecificEntropy par (U i) g) <|
        .write (.eta i) (Aeos.surrogateHartenEntropy par (U i) g) (.ret ())

/-- The locations cycle 1 does not change. -/
def isP : PLoc → Prop
  | .p _ => True
  | _ => False

theorem row1_refines (par : Aeos.Params) (cols : ℕ → List ℕ) (U : ℕ → State dim) (c : PLoc → ℝ) (i : ℕ) :
    Refines isP c (row1 par cols U i) (row1' par cols U (fun j => c (PLoc.p j)) i) := by
  unfold row1 row1'
  split_ifs
  · exact .ret ()
  · refine Refines.constant (l := PLoc.p i) trivial (.read fun g => .unused fun _ => .unused fun _ => ?_)
    refine (Refines.fold (Val := fun _ : PLoc => ℝ) (K := isP) (c := c) (g := fun g j => min g (Aeos.surrogateGamma par (U j) (c (PLoc.p j)))) ?_ _ _).bind (f' := fun g =>
      .write (PLoc.gamma i) g <| .write (PLoc.s i) (Aeos.surrogateSpecificEntropy par (U i) g) <|
        .write (PLoc.eta i) (Aeos.surrogateHartenEntropy par (U i) g) (.ret ())) ?_
    · intro g j
      exact Refines.constant (l := PLoc.p j) trivial (.unused fun _ => .unused fun _ => .unused fun _ => .ret _)
    · intro g
      exact Refines.same (l := PLoc.p i) trivial (.write (fun h => h) (.write (fun h => h) (.write (fun h => h) (.ret ()))))

/-- Entries a row of cycle 1 writes with new values. -/
def W1 (cols : ℕ → List ℕ) (i : ℕ) : PLoc → Prop
  | .p _ => False
  | .gamma j => j = i ∧ (cols i).length ≠ 1
  | .s j => j = i ∧ (cols i).length ≠ 1
  | .eta j => j = i ∧ (cols i).length ≠ 1

theorem race1 (cols : ℕ → List ℕ) : RaceFree (W1 cols) (W1 cols) := by
  intro i k hik l hl
  cases l <;> simp only [W1] at hl ⊢ <;> first
    | exact hl.elim
    | exact ⟨fun h => hik (hl.1.symm.trans h.1), fun h => hik (hl.1.symm.trans h.1)⟩

theorem within1 (par : Aeos.Params) (cols : ℕ → List ℕ) (U : ℕ → State dim) (p : ℕ → ℝ) (i : ℕ) :
    (row1' par cols U p i).Within (W1 cols i) (W1 cols i) := by
  unfold row1'
  split_ifs with h
  · trivial
  · exact ⟨⟨rfl, h⟩, fun _ => ⟨⟨rfl, h⟩, ⟨rfl, h⟩, ⟨rfl, h⟩, trivial⟩⟩

theorem row1'_run (par : Aeos.Params) (cols : ℕ → List ℕ) (U : ℕ → State dim) (m : PStore) {i : ℕ} (h : (cols i).length ≠ 1) :
    content ((row1' par cols U (fun j => m.mem (.p j)) i).run m).1 i = cycle1Row par cols U (content m) i i := by
  unfold row1' cycle1Row
  rw [if_neg h, if_neg h, Function.update_self]
  simp only [Prog.run]
  refine content_ext ?_ ?_ ?_ ?_
  · rw [Store.set_of_ne _ (by simp), Store.set_of_ne _ (by simp), Store.set_of_ne _ (by simp)]
    rfl
  · rw [Store.set_of_ne _ (by simp), Store.set_of_ne _ (by simp), Store.set_self]
    rfl
  · rw [Store.set_of_ne _ (by simp), Store.set_self]
    rfl
  · rw [Store.set_self]
    rfl

/-- **C112 (cycle 1).** For every number of threads, distribution of the rows `own` and interleaving of the accesses to single numbers, also those to the
same numbers, the loop leaves in every row of `own` the values computed from those before the loop, and all others unchanged. -/
theorem C112_cycle1 (par : Aeos.Params) (cols : ℕ → List ℕ) (U : ℕ → State dim) {own : ℕ → Prop} {chunk : T → List ℕ}
    (hc : Distributes chunk own) {m m' : PStore} (h : Executes (parallelFor (fun _ => row1 par cols U) () chunk) m m' fun _ => ()) (i : ℕ) :
    (own i → content m' i = cycle1Row par cols U (content m) i i) ∧ (¬ own i → content m' i = content m i) := by
  have h' : Executes (parallelFor (fun _ => row1' par cols U fun j => m.mem (.p j)) () chunk) m m' fun _ => () := by
    refine Refines.executes (K := isP) (c := m.mem) (fun t => ?_) (fun _ _ => rfl) h
    exact Refines.loop (fun _ i => row1_refines par cols U m.mem i) _ _
  obtain ⟨h1, h2, _, _⟩ := parallelFor_deterministic (race1 cols) (fun _ => within1 par cols U _) (fun _ _ _ _ => rfl)
    hc.nodup hc.disjoint hc.covers h'
  have hp : ∀ j, m'.mem (.p j) = m.mem (.p j) := fun j => h2 _ fun _ _ h => h
  have keep : (own i → (cols i).length = 1) → content m' i = content m i := by
    intro hn
    refine content_ext (hp i) (h2 _ ?_) (h2 _ ?_) (h2 _ ?_)
    all_goals
      rintro a ha ⟨rfl, hl⟩
      exact hl (hn ha)
  refine ⟨fun hi => ?_, fun hi => keep fun h => (hi h).elim⟩
  by_cases hl : (cols i).length = 1
  · rw [keep fun _ => hl, cycle1Row, if_pos hl]
  · rw [← row1'_run par cols U m hl]
    refine content_ext ?_ (h1 i hi _ ⟨rfl, hl⟩ ()) (h1 i hi _ ⟨rfl, hl⟩ ()) (h1 i hi _ ⟨rfl, hl⟩ ())
    rw [hp]
    exact (Prog.run_frame (within1 par cols U _ i) m (l := PLoc.p i) (fun h => h)).symm

/-- **C112 (cycle 1, meaning).** Every unconstrained row ends up with its pressure, the minimum of the surrogate gammas over its stencil and the
two surrogate entropies evaluated with that minimum. -/
theorem C112_minimum (par : Aeos.Params) (cols : ℕ → List ℕ) (U : ℕ → State dim) {own : ℕ → Prop} {chunk : T → List ℕ}
    (hc : Distributes chunk own) {m m' : PStore} (h : Executes (parallelFor (fun _ => row1 par cols U) () chunk) m m' fun _ => ())
    {i : ℕ} (hi : own i) (hlen : (cols i).length ≠ 1) (hdiag : (cols i).head? = some i)
    (h0 : m.mem (.gamma i) = Aeos.surrogateGamma par (U i) (m.mem (.p i))) :
    m'.mem (.p i) = m.mem (.p i) ∧
      IsLeast {g | ∃ j ∈ cols i, g = Aeos.surrogateGamma par (U j) (m.mem (.p j))} (m'.mem (.gamma i)) ∧
      m'.mem (.s i) = Aeos.surrogateSpecificEntropy par (U i) (m'.mem (.gamma i)) ∧
      m'.mem (.eta i) = Aeos.surrogateHartenEntropy par (U i) (m'.mem (.gamma i)) := by
  have := C50_cycle1 par cols U (content m) [i] (by simp) i (by simp) hlen hdiag h0
  rw [cycle1, List.foldl_cons, List.foldl_nil, ← (C112_cycle1 par cols U hc h i).1 hi] at this
  exact this

/-- Entries a row of cycle 0 writes. -/
def W0 (cols : ℕ → List ℕ) (i : ℕ) : PLoc → Prop
  | .p j => j = i ∧ (cols i).length ≠ 1
  | .gamma j => j = i ∧ (cols i).length ≠ 1
  | .s j => j = i ∧ (cols i).length ≠ 1
  | .eta j => j = i ∧ (cols i).length ≠ 1

/-- **C112 (cycle 0).** The first cycle writes pressure and surrogate gamma of every unconstrained row of `own`, whatever the schedule, without
any race. -/
theorem C112_cycle0 (eos : Interface) (par : Aeos.Params) (cols : ℕ → List ℕ) (U : ℕ → State dim) {own : ℕ → Prop} {chunk : T → List ℕ}
    (hc : Distributes chunk own) {m m' : PStore} (h : Executes (parallelFor (fun _ => row0 eos par cols U) () chunk) m m' fun _ => ()) (i : ℕ) :
    (own i → (cols i).length ≠ 1 → content m' i = precOf par (U i) (statePressure eos (U i))) ∧
    (¬ (own i ∧ (cols i).length ≠ 1) → content m' i = content m i) ∧
    ∀ k, i ≠ k → ¬ DataRace (row0 eos par cols U i) (row0 eos par cols U k) := by
  have hw : ∀ i, (row0 eos par cols U i).Within (fun _ => False) (W0 cols i) := by
    intro i
    unfold row0
    split_ifs with h
    · trivial
    · exact ⟨⟨rfl, h⟩, ⟨rfl, h⟩, ⟨rfl, h⟩, ⟨rfl, h⟩, trivial⟩
  have hr : RaceFree (fun (_ : ℕ) (_ : PLoc) => False) (W0 cols) := by
    intro i k hik l hl
    cases l <;> exact ⟨fun h => h, fun h => hik (hl.1.symm.trans h.1)⟩
  obtain ⟨h1, h2, _, _⟩ := parallelFor_deterministic hr (fun _ => hw) (fun _ _ _ _ => rfl) hc.nodup hc.disjoint hc.covers h
  refine ⟨fun hi hl => ?_, fun hn => ?_, fun k hik => Hyp.Threads.no_race hr hw hik⟩
  · have hrun : content ((row0 eos par cols U i).run m).1 i = precOf par (U i) (statePressure eos (U i)) := by
      unfold row0
      rw [if_neg hl]
      simp only [writeTensor, Prog.run]
      refine content_ext ?_ ?_ ?_ ?_
      · rw [Store.set_of_ne _ (by simp), Store.set_of_ne _ (by simp), Store.set_of_ne _ (by simp), Store.set_self]
      · rw [Store.set_of_ne _ (by simp), Store.set_of_ne _ (by simp), Store.set_self]
      · rw [Store.set_of_ne _ (by simp), Store.set_self]
      · rw [Store.set_self]
    rw [← hrun]
    exact content_ext (h1 i hi _ ⟨rfl, hl⟩ ()) (h1 i hi _ ⟨rfl, hl⟩ ()) (h1 i hi _ ⟨rfl, hl⟩ ()) (h1 i hi _ ⟨rfl, hl⟩ ())
  · refine content_ext (h2 _ ?_) (h2 _ ?_) (h2 _ ?_) (h2 _ ?_)
    all_goals
      rintro a ha ⟨rfl, hl⟩
      exact hn ⟨ha, hl⟩

/-- **C112 (violation).** In cycle 1 the iterations of neighbouring rows race: the pressure of a row is written (with the value it has) while others read it. -/
theorem C112_data_race_violation (par : Aeos.Params) (cols : ℕ → List ℕ) (U : ℕ → State dim) {i j : ℕ} (hi : (cols i).length ≠ 1)
    (hj : (cols j).length ≠ 1) (hij : j ∈ (cols i).tail) : DataRace (row1 par cols U i) (row1 par cols U j) := by
  have bindR : ∀ {β γ : Type} (p : Prog PLoc (fun _ => ℝ) β) (f : β → Prog PLoc (fun _ => ℝ) γ) (l : PLoc), p.Reads l → (p.bind f).Reads l := by
    intro β γ p f l h
    induction p with
    | ret b => exact h.elim
    | read l' k ih => exact h.imp id fun ⟨v, h⟩ => ⟨v, ih v h⟩
    | write l' v k ih => exact ih h
    | raise k ih => exact ih h
  refine ⟨.p j, Or.inr ⟨?_, Or.inl ?_⟩⟩
  · unfold row1
    rw [if_neg hj]
    have key : ∀ (l : List ℕ) (p g : ℝ), ((Prog.loop (fun (gamma_min_i : ℝ) j =>
        .read (.p j) fun p_j => .read (.gamma j) fun _ => .read (.s j) fun _ => .read (.eta j) fun _ =>
          .ret (min gamma_min_i (Aeos.surrogateGamma par (U j) p_j))) g l).bind fun gamma_min_i =>
        writeTensor j ⟨p, gamma_min_i, Aeos.surrogateSpecificEntropy par (U j) gamma_min_i,
          Aeos.surrogateHartenEntropy par (U j) gamma_min_i⟩ (.ret ()) : PProg).Writes (.p j) := by
      intro l p
      induction l with
      | nil => intro g; exact Or.inl rfl
      | cons a l ih => intro g; exact ⟨0, 0, 0, 0, ih _⟩
    exact ⟨0, 0, 0, 0, key _ _ _⟩
  · unfold row1
    rw [if_neg hi]
    refine Or.inr ⟨0, Or.inr ⟨0, Or.inr ⟨0, Or.inr ⟨0, bindR _ _ _ ?_⟩⟩⟩⟩
    generalize (0 : ℝ) = g
    generalize (cols i).tail = l at hij
    induction l generalizing g with
    | nil => cases hij
    | cons a l ih =>
      rcases List.mem_cons.1 hij with rfl | h
      · exact Or.inl rfl
      · exact Or.inr ⟨0, Or.inr ⟨0, Or.inr ⟨0, Or.inr ⟨0, ih _ h⟩⟩⟩⟩

/-! ### Non-vacuity -/

/-- Three rows, the middle one coupled to both others, on two threads: executions exist, and all leave the values of `cycle1Row`. -/
example (par : Aeos.Params) (U : ℕ → State dim) (m : PStore) :
    ∃ (chunk : Bool → List ℕ) (m' : PStore), Distributes chunk (fun i => i < 3) ∧
      Executes (parallelFor (fun _ => row1 par (fun i => if i = 1 then [1, 0, 2] else [i, 1]) U) () chunk) m m' (fun _ => ()) ∧
      content m' 1 = cycle1Row par (fun i => if i = 1 then [1, 0, 2] else [i, 1]) U (content m) 1 1 := by
  have hd : Distributes (fun t : Bool => if t then [0, 2] else [1]) (fun i => i < 3) := by
    refine ⟨by decide, ?_, ?_⟩
    · intro t u h a ha hb
      cases t <;> cases u <;> simp_all
    · intro a
      simp
      omega
  obtain ⟨m', b, h⟩ := completes m (parallelFor (fun _ => row1 par (fun i => if i = 1 then [1, 0, 2] else [i, 1]) U) ()
    fun t : Bool => if t then [0, 2] else [1])
  exact ⟨_, m', hd, h, (C112_cycle1 par _ U hd h 1).1 (by norm_num)⟩

/-- Rows 0 and 1 of this example race. -/
example (par : Aeos.Params) (U : ℕ → State dim) :
    DataRace (row1 par (fun i => if i = 1 then [1, 0, 2] else [i, 1]) U 0) (row1 par (fun i => if i = 1 then [1, 0, 2] else [i, 1]) U 1) :=
  C112_data_race_violation par _ U (by simp) (by simp) (by simp)

end

end Threads
end Eos
end Ryujin
