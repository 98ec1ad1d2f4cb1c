import Verif.Proofs.Threads
import Verif.Proofs.StepLocal
import Mathlib.Tactic.Ring

/-!
# The parallel loops of a time step have no conflicting accesses

For every loop body: the sets of entries it reads and writes, and what it computes.
-/

namespace Ryujin
namespace Threads

open Classical

variable {Loc : Type} {Val : Loc → Type} {α β : Type}

/-- A loop that only reads. -/
theorem loop_readonly {f : β → α → Prog Loc Val β} (hf : ∀ b a s, ((f b a).run s).1 = s) (as : List α) (b : β) (s : Store Loc Val) :
    (Prog.loop f b as).run s = (s, as.foldl (fun b a => ((f b a).run s).2) b) := by
  induction as generalizing b with
  | nil => rfl
  | cons a as ih => rw [Prog.run_loop_cons, hf, ih, List.foldl_cons]

theorem foldl_update {ι ρ : Type} (g : ι → ρ) (as : List ι) (x : ι → ρ) (j : ι) :
    as.foldl (fun x j => Function.update x j (g j)) x j = if j ∈ as then g j else x j := by
  induction as generalizing x with
  | nil => simp
  | cons a as ih =>
    rw [List.foldl_cons, ih]
    by_cases h : j ∈ as
    · simp [h]
    · by_cases ha : j = a
      · subst ha
        simp
      · simp [h, ha]

end Threads

namespace Hyp
namespace Threads

open Ryujin.Threads Classical

variable {ι R P S F B : Type} {dim : ℕ} {D : Description ι P S F B dim} {M : Mesh ι dim}

/-! ### Step 2 -/

def R2 (_ : ι) : Loc ι → Prop := fun _ => False

def W2 (M : Mesh ι dim) (i : ι) : Loc ι → Prop
  | .alpha k => k = i ∧ M.nbrs i ≠ []
  | .dij k j => k = i ∧ j ∈ M.nbrs i
  | _ => False

theorem race2 : RaceFree R2 (W2 M) := by
  intro i k hik l hl
  refine ⟨fun h => h, ?_⟩
  cases l <;> simp only [W2] at hl ⊢ <;> first | exact hl.elim | (rintro ⟨h, _⟩; exact hik (hl.1 ▸ h))

theorem within2 (old : StateVector ι P S) (i : ι) : (row2 D M old i).Within (R2 i) (W2 M i) := by
  unfold row2
  split_ifs with h
  · trivial
  · refine Prog.Within.bind (Prog.Within.each fun j hj => ?_) fun _ => ⟨⟨rfl, h⟩, trivial⟩
    split_ifs
    · trivial
    · exact ⟨⟨rfl, hj⟩, trivial⟩

theorem row2_alpha (old : StateVector ι P S) {i : ι} (h : M.nbrs i ≠ []) (s : RankStore ι S B) :
    ((row2 D M old i).run s).1.mem (.alpha i) = alpha D M old i := by
  rw [row2, if_neg h, Prog.run_bind]
  exact Store.set_self ..

theorem row2_dij (hM : M.WellFormed) (old : StateVector ι P S) {i j : ι} (hj : j ∈ M.nbrs i) (s : RankStore ι S B) :
    ((row2 D M old i).run s).1.mem (.dij i j) = dStep2 D M (fun i j => s.mem (.dij i j)) old i j := by
  have h : M.nbrs i ≠ [] := List.ne_nil_of_mem hj
  rw [row2, if_neg h, Prog.run_bind]
  have hne : (Loc.dij i j) ≠ Loc.alpha i := by simp
  refine (Store.set_of_ne _ hne _).trans ?_
  have hl := (loop_local (R := fun _ _ => False) (W := fun k l => l = Loc.dij i k)
    (f := fun (_ : Unit) j => if M.skip i j then .ret () else
      (.write (.dij i j) (viscosityEntry D M old i j) (.ret ()) : RowProg ι S B Unit))
    (by
      rintro a b hab l rfl
      exact ⟨id, by simp [hab]⟩)
    (by
      intro _ a
      split_ifs
      · trivial
      · exact ⟨rfl, trivial⟩)
    (fun _ _ _ _ => rfl) (M.nbrs i) (hM.nodup i) () s).1 j hj (.dij i j) rfl ()
  refine hl.trans ?_
  rw [dStep2]
  split_ifs
  · rfl
  · exact Store.set_self ..

/-! ### Step 3 -/

def R3a (M : Mesh ι dim) (e : ι × ι) : Loc ι → Prop
  | .dij i j => (i, j) = e ∧ ¬ M.below i j
  | _ => False

theorem race3a : RaceFree (R3a M) (R3a M) := by
  intro e f hef l hl
  cases l <;> simp only [R3a] at hl ⊢ <;> first
    | exact hl.elim
    | exact ⟨fun h => hef (hl.1.symm.trans h.1), fun h => hef (hl.1.symm.trans h.1)⟩

theorem within3a (old : StateVector ι P S) (e : ι × ι) : (pair3 D M old e).Within (R3a M e) (R3a M e) := by
  unfold pair3
  split_ifs with h
  · trivial
  · exact ⟨⟨rfl, h⟩, fun _ => ⟨⟨rfl, h⟩, trivial⟩⟩

theorem pair3_dij (old : StateVector ι P S) {i j : ι} (h : ¬ M.below i j) (s : RankStore ι S B) :
    ((pair3 D M old (i, j)).run s).1.mem (.dij i j) = max (s.mem (.dij i j) : ℝ) (viscosityEntry D M old j i) := by
  rw [pair3, if_neg h]
  exact Store.set_self ..

def R3 (M : Mesh ι dim) (i : ι) : Loc ι → Prop
  | .dij k j => (k = i ∧ j ∈ M.nbrs i) ∨ (j = i ∧ k ∈ M.nbrs i ∧ M.below i k)
  | _ => False

def W3 (M : Mesh ι dim) (i : ι) : Loc ι → Prop
  | .dij k j => k = i ∧ M.nbrs i ≠ [] ∧ (j = i ∨ j ∈ M.nbrs i ∧ M.below i j)
  | _ => False

theorem race3 (hM : M.WellFormed) : RaceFree (R3 M) (W3 M) := by
  intro i k hik l hl
  cases l <;> simp only [W3, R3] at hl ⊢
  obtain ⟨rfl, _, h⟩ := hl
  refine ⟨?_, fun h' => hik h'.1⟩
  rintro (h' | ⟨rfl, _, h'⟩)
  · exact hik h'.1
  · rcases h with h | ⟨_, h⟩
    · exact hik h.symm
    · exact hM.asymm _ _ h h'

theorem within3 (par : Params) (b : ℝ) (i : ι) : (row3 M par b i : RowProg ι S B ℝ).Within (R3 M i) (W3 M i) := by
  unfold row3
  split_ifs with h
  · trivial
  · refine Prog.Within.bind (Prog.Within.loop ?_ _) fun _ => ⟨⟨rfl, h, Or.inl rfl⟩, trivial⟩
    intro _ j hj
    refine Prog.Within.bind ?_ fun _ => ⟨Or.inl ⟨rfl, hj⟩, fun _ => trivial⟩
    split_ifs with hb
    · exact ⟨Or.inr ⟨rfl, hj, hb⟩, fun _ => ⟨⟨rfl, h, Or.inr ⟨hj, hb⟩⟩, trivial⟩⟩
    · trivial

/-- The memory effect does not depend on `local_tau_max`. -/
theorem row3_ind (par : Params) (b b' : ℝ) (i : ι) (s : RankStore ι S B) :
    ((row3 M par b i).run s).1 = ((row3 M par b' i).run s).1 := by
  unfold row3
  split_ifs with h
  · rfl
  · rw [Prog.run_bind, Prog.run_bind]
    rfl

/-- The viscosity after symmetrisation, as a function of the matrix before. -/
noncomputable def symm3 (M : Mesh ι dim) (d : ι → ι → ℝ) (i j : ι) : ℝ := if M.below i j then d j i else d i j

noncomputable def body3 (M : Mesh ι dim) (i : ι) (d_sum : ℝ) (j : ι) : RowProg ι S B ℝ :=
  (if M.below i j then
      .read (.dij j i) fun (d_ji : ℝ) => .write (.dij i j) d_ji (.ret ())
    else (.ret () : RowProg ι S B Unit)).bind fun _ =>
    .read (.dij i j) fun (d_ij : ℝ) => .ret (d_sum - d_ij)

theorem body3_run (i : ι) (d_sum : ℝ) (j : ι) (s : RankStore ι S B) :
    ((body3 M i d_sum j).run s).1.mem (.dij i j) = symm3 M (fun i j => s.mem (.dij i j)) i j ∧
    ((body3 M i d_sum j).run s).2 = d_sum - symm3 M (fun i j => s.mem (.dij i j)) i j := by
  unfold body3 symm3
  split_ifs
  · refine ⟨Store.set_self .., ?_⟩
    exact congrArg (fun x => d_sum - x) (Store.set_self ..)
  · exact ⟨rfl, rfl⟩

theorem body3_local (hM : M.WellFormed) (i : ι) (s : RankStore ι S B) :
    (∀ j ∈ M.nbrs i, ((Prog.loop (body3 M i) 0 (M.nbrs i)).run s).1.mem (.dij i j) = symm3 M (fun i j => s.mem (.dij i j)) i j) ∧
    ((Prog.loop (body3 M i) 0 (M.nbrs i)).run s).2 = -((M.nbrs i).map (symm3 M (fun i j => s.mem (.dij i j)) i)).sum := by
  obtain ⟨h1, h2, _⟩ := loop_local (R := fun j l => l = Loc.dij i j ∨ l = Loc.dij j i) (W := fun j l => l = Loc.dij i j)
    (f := body3 (S := S) (B := B) M i)
    (by
      rintro a b hab l rfl
      refine ⟨?_, by simp [hab]⟩
      rintro (h | h)
      · exact hab (Loc.dij.inj h).2
      · exact hab ((Loc.dij.inj h).2.trans (Loc.dij.inj h).1))
    (by
      intro _ a
      unfold body3
      refine Prog.Within.bind ?_ fun _ => ⟨Or.inl rfl, fun _ => trivial⟩
      split_ifs
      · exact ⟨Or.inr rfl, fun _ => ⟨rfl, trivial⟩⟩
      · trivial)
    (by
      intro b b' a s
      unfold body3
      rw [Prog.run_bind, Prog.run_bind]
      rfl) (M.nbrs i) (hM.nodup i) 0 s
  refine ⟨fun j hj => (h1 j hj _ rfl 0).trans (body3_run i 0 j s).1, h2.trans ?_⟩
  simp only [(body3_run i _ _ s).2]
  generalize symm3 M (fun i j => s.mem (.dij i j)) i = g
  have : ∀ (l : List ι) (x : ℝ), l.foldl (fun b a => b - g a) x = x - (l.map g).sum := by
    intro l
    induction l with
    | nil => simp
    | cons a l ih =>
      intro x
      rw [List.foldl_cons, ih, List.map_cons, List.sum_cons]
      ring
  rw [this]
  ring

theorem row3_dij (hM : M.WellFormed) (par : Params) (b : ℝ) {i j : ι} (hj : j ∈ M.nbrs i) (s : RankStore ι S B) :
    ((row3 M par b i).run s).1.mem (.dij i j) = symm3 M (fun i j => s.mem (.dij i j)) i j := by
  have h : M.nbrs i ≠ [] := List.ne_nil_of_mem hj
  rw [row3, if_neg h, Prog.run_bind]
  have hne : (Loc.dij i j) ≠ Loc.dij i i := by
    intro h
    exact hM.irrefl i ((Loc.dij.inj h).2 ▸ hj)
  refine (Store.set_of_ne _ hne _).trans ?_
  exact (body3_local hM i s).1 j hj

theorem row3_diag (hM : M.WellFormed) (par : Params) (b : ℝ) {i : ι} (h : M.nbrs i ≠ []) (s : RankStore ι S B) :
    ((row3 M par b i).run s).1.mem (.dij i i) =
      min (-((M.nbrs i).map (symm3 M (fun i j => s.mem (.dij i j)) i)).sum) (-1000000 * par.tiny) := by
  rw [row3, if_neg h, Prog.run_bind]
  refine (Store.set_self ..).trans ?_
  exact congrArg (fun x => min x _) (body3_local hM i s).2

theorem row3_tau (hM : M.WellFormed) (par : Params) (b : ℝ) {i : ι} (h : M.nbrs i ≠ []) (s : RankStore ι S B) :
    ((row3 M par b i).run s).2 = min b (par.cfl * M.lumped i /
      (-2 * min (-((M.nbrs i).map (symm3 M (fun i j => s.mem (.dij i j)) i)).sum) (-1000000 * par.tiny))) := by
  rw [row3, if_neg h, Prog.run_bind]
  exact congrArg (fun x => min b (par.cfl * M.lumped i / (-2 * min x (-1000000 * par.tiny)))) (body3_local hM i s).2

/-! ### Step 4 -/

variable [AddCommGroup S] [Module ℝ S]

def R4 (_ : ι) : Loc ι → Prop
  | .alpha _ => True
  | .dij _ _ => True
  | _ => False

def W4 (M : Mesh ι dim) (i : ι) : Loc ι → Prop
  | .pij k j => k = i ∧ j ∈ M.columns i ∧ M.nbrs i ≠ []
  | .newU k => k = i ∧ M.nbrs i ≠ []
  | .r k => k = i ∧ M.nbrs i ≠ []
  | .bounds k => k = i ∧ M.nbrs i ≠ []
  | _ => False

theorem race4 : RaceFree R4 (W4 M) := by
  intro i k hik l hl
  cases l <;> simp only [W4, R4] at hl ⊢ <;> first
    | exact hl.elim
    | (refine ⟨fun h => h, ?_⟩; rintro ⟨h, _⟩; exact hik (hl.1 ▸ h))

theorem within4 (tiny : ℝ) (old : StateVector ι P S) (stages : List (ℝ × StateVector ι P S)) (tau : ℝ) (i : ι) :
    (row4 D M tiny old stages tau i).Within (R4 i) (W4 M i) := by
  unfold row4
  split_ifs with h
  · trivial
  · refine Prog.Within.bind (Prog.Within.loop ?_ _) fun x => ?_
    · intro _ j hj
      exact ⟨trivial, fun _ => ⟨trivial, fun _ => trivial⟩⟩
    refine Prog.Within.bind (Prog.Within.each ?_) fun _ => ?_
    · intro j hj
      exact ⟨⟨rfl, hj, h⟩, trivial⟩
    exact ⟨⟨rfl, h⟩, ⟨rfl, h⟩, ⟨rfl, h⟩, trivial⟩

/-- The data a row of step 4 computes with: the entries it reads from the memory. -/
def stageOf (old : StateVector ι P S) (stages : List (ℝ × StateVector ι P S)) (tau : ℝ) (s : RankStore ι S B) : Stage4 ι P S :=
  ⟨old, stages, tau, fun i j => s.mem (.dij i j), fun i => s.mem (.alpha i)⟩

omit [AddCommGroup S] [Module ℝ S] in
theorem local_all : D.Local (fun (p : P) (_ : ι) => p) where
  riemann := fun _ _ _ _ h _ => by rw [show _ = _ from h]
  indicator := fun _ _ _ _ _ _ h _ => by rw [show _ = _ from h]
  flux := fun _ _ _ h => by rw [show _ = _ from h]
  source := fun _ _ _ h => by rw [show _ = _ from h]
  limiterBounds := fun _ _ _ _ _ _ _ h _ => by rw [show _ = _ from h]

omit [AddCommGroup S] [Module ℝ S] in
theorem stagesAt_refl {Q : Type} (get : P → ι → Q) (st : List (ℝ × StateVector ι P S)) (j : ι) : StagesAt get st st j := by
  induction st with
  | nil => exact .nil
  | cons a as ih => exact .cons ⟨rfl, rfl, rfl⟩ ih


omit [AddCommGroup S] [Module ℝ S] in
/-- The reading loop of step 4. -/
theorem read4_run (i : ι) (s : RankStore ι S B) :
    ∃ x : (ι → ℝ) × (ι → ℝ), (∀ j ∈ M.columns i, x.1 j = s.mem (.dij i j) ∧ x.2 j = s.mem (.alpha j)) ∧
    (Prog.loop (fun (x : (ι → ℝ) × (ι → ℝ)) j =>
      .read (.alpha j) fun (alpha_j : ℝ) => .read (.dij i j) fun (d_ij : ℝ) =>
        (.ret (Function.update x.1 j d_ij, Function.update x.2 j alpha_j) : RowProg ι S B ((ι → ℝ) × (ι → ℝ))))
      (fun _ => 0, fun _ => 0) (M.columns i)).run s = (s, x) := by
  refine ⟨_, ?_, loop_readonly (fun _ _ _ => rfl) _ _ s⟩
  intro j hj
  have : ∀ (l : List ι) (x : (ι → ℝ) × (ι → ℝ)), l.foldl (fun (b : (ι → ℝ) × (ι → ℝ)) a =>
      (Prog.run (.read (.alpha a) fun (alpha_j : ℝ) => .read (.dij i a) fun (d_ij : ℝ) =>
        (.ret (Function.update b.1 a d_ij, Function.update b.2 a alpha_j) : RowProg ι S B ((ι → ℝ) × (ι → ℝ)))) s).2) x =
      (l.foldl (fun x j => Function.update x j (s.mem (.dij i j))) x.1, l.foldl (fun x j => Function.update x j (s.mem (.alpha j))) x.2) := by
    intro l
    induction l with
    | nil => intro x; rfl
    | cons a l ih =>
      intro x
      rw [List.foldl_cons, ih]
      rfl
  rw [this]
  refine ⟨?_, ?_⟩
  · exact (foldl_update (fun j => (s.mem (.dij i j) : ℝ)) _ _ j).trans (if_pos hj)
  · exact (foldl_update (fun j => (s.mem (.alpha j) : ℝ)) _ _ j).trans (if_pos hj)

omit [AddCommGroup S] [Module ℝ S] in
theorem near_row4 (old : StateVector ι P S) (stages : List (ℝ × StateVector ι P S)) (tau : ℝ) {i : ι} (X : Stage4 ι P S)
    (hold : X.old = old) (hst : X.stages = stages) (htau : X.tau = tau) {d a : ι → ℝ}
    (h : ∀ j ∈ M.columns i, d j = X.d i j ∧ a j = X.alpha j) :
    Near4 (fun (p : P) (_ : ι) => p) M ⟨old, stages, tau, fun _ => d, a⟩ X i where
  old := fun j _ => by subst hold; exact ⟨rfl, rfl⟩
  stages := fun j _ => by subst hst; exact stagesAt_refl _ _ _
  tau := htau.symm
  d := fun j hj => (h j hj).1
  alpha := fun j hj => (h j hj).2

/-- What a row of step 4 stores, if the entries it reads are those of `X`. -/
theorem row4_run (hM : M.WellFormed) (tiny : ℝ) (old : StateVector ι P S) (stages : List (ℝ × StateVector ι P S)) (tau : ℝ) {i : ι}
    (h : M.nbrs i ≠ []) (s : RankStore ι S B) (X : Stage4 ι P S) (hold : X.old = old) (hst : X.stages = stages) (htau : X.tau = tau)
    (hd : ∀ j ∈ M.columns i, s.mem (.dij i j) = X.d i j) (ha : ∀ j ∈ M.columns i, s.mem (.alpha j) = X.alpha j) :
    ((row4 D M tiny old stages tau i).run s).1.mem (.newU i) = lowOrder D M X i ∧
    ((row4 D M tiny old stages tau i).run s).1.mem (.r i) = rhsH D M X i ∧
    ((row4 D M tiny old stages tau i).run s).1.mem (.bounds i) = boundsStep4 D M X tiny i ∧
    (∀ j ∈ M.columns i, ((row4 D M tiny old stages tau i).run s).1.mem (.pij i j) = pStep4 D M X i j) := by
  obtain ⟨x, hx, hrun⟩ := read4_run (M := M) (S := S) (B := B) i s
  have near := near_row4 (M := M) old stages tau X hold hst htau (d := x.1) (a := x.2)
    fun j hj => ⟨(hx j hj).1.trans (hd j hj), (hx j hj).2.trans (ha j hj)⟩
  rw [row4, if_neg h, Prog.run_bind, hrun]
  dsimp only
  rw [Prog.run_bind]
  refine ⟨?_, ?_, ?_, ?_⟩
  · refine (Store.set_of_ne _ (by simp) _).trans ((Store.set_of_ne _ (by simp) _).trans ((Store.set_self ..).trans ?_))
    exact lowOrder_at local_all near.toLow4
  · refine (Store.set_of_ne _ (by simp) _).trans ((Store.set_self ..).trans ?_)
    exact rhsH_at local_all near
  · refine (Store.set_self ..).trans ?_
    exact boundsStep4_at local_all tiny near.toLow4
  · intro j hj
    refine (Store.set_of_ne _ (by simp) _).trans ((Store.set_of_ne _ (by simp) _).trans ((Store.set_of_ne _ (by simp) _).trans ?_))
    have hn : (M.columns i).Nodup := List.nodup_cons.2 ⟨hM.irrefl i, hM.nodup i⟩
    refine ((loop_local (R := fun _ _ => False) (W := fun k l => l = Loc.pij i k)
      (f := fun (_ : Unit) j => (.write (.pij i j) (pStep4 D M (⟨old, stages, tau, fun _ => x.1, x.2⟩ : Stage4 ι P S) i j : S) (.ret ()) : RowProg ι S B Unit))
      ?_ ?_ (fun _ _ _ _ => rfl) (M.columns i) hn () s).1 j hj (.pij i j) rfl ()).trans ?_
    · rintro a b hab l rfl
      exact ⟨id, by simp [hab]⟩
    · intro _ a
      exact ⟨rfl, trivial⟩
    · refine (Store.set_self ..).trans ?_
      exact pStep4_at local_all near hj

/-! ### Step 5 -/

def R5 (M : Mesh ι dim) (i : ι) : Loc ι → Prop
  | .bounds k => k = i
  | .newU k => k = i
  | .r _ => True
  | .pij k j => k = i ∧ j ∈ M.nbrs i
  | _ => False

def W5 (M : Mesh ι dim) (i : ι) : Loc ι → Prop
  | .pij k j => k = i ∧ j ∈ M.nbrs i
  | .lij k j => k = i ∧ j ∈ M.nbrs i
  | _ => False

theorem race5 : RaceFree (R5 M) (W5 M) := by
  intro i k hik l hl
  cases l <;> simp only [W5, R5] at hl ⊢ <;> first
    | exact hl.elim
    | exact ⟨fun h => hik (hl.1.symm.trans h.1), fun h => hik (hl.1.symm.trans h.1)⟩
    | exact ⟨fun h => h, fun h => hik (hl.1.symm.trans h.1)⟩

theorem within5 (hG : M.dG = false) (tau : ℝ) (i : ι) : (row5 D M tau i).Within (R5 M i) (W5 M i) := by
  unfold row5
  split_ifs with h h'
  · trivial
  · rw [hG] at h'
    cases h'
  · refine ⟨rfl, fun bounds => ?_⟩
    refine Prog.Within.bind trivial fun b => ⟨rfl, fun U => ⟨trivial, fun F => Prog.Within.each ?_⟩⟩
    intro j hj
    refine ⟨⟨rfl, hj⟩, fun _ => ⟨trivial, fun _ => ⟨⟨rfl, hj⟩, ⟨rfl, hj⟩, ?_⟩⟩⟩
    split_ifs <;> trivial

/-- `P_ij` computed in row `i` of step 5 from the entries in memory. -/
noncomputable def p5 (M : Mesh ι dim) (tau : ℝ) (s : RankStore ι S B) (i j : ι) : S :=
  (tau * (M.lumped i)⁻¹ * ((M.nbrs i).length : ℝ)) •
    ((s.mem (.pij i j) : S) + (bIJ M i j • (s.mem (.r j) : S) - bJI M i j • (s.mem (.r i) : S)))

noncomputable def body5 (D : Description ι P S F B dim) (M : Mesh ι dim) (tau : ℝ) (i : ι) (bounds : B) (U_i_new F_iH : S) (j : ι) :
    RowProg ι S B Unit :=
  .read (.pij i j) fun (P_ij : S) => .read (.r j) fun (F_jH : S) =>
    let P_ij : S := (tau * (M.lumped i)⁻¹ * ((M.nbrs i).length : ℝ)) • (P_ij + (bIJ M i j • F_jH - bJI M i j • F_iH))
    .write (.pij i j) P_ij <|
    .write (.lij i j) (D.limit i j bounds U_i_new P_ij).1 <|
    if (D.limit i j bounds U_i_new P_ij).2 then .ret () else .raise (.ret ())

theorem row5_run (hM : M.WellFormed) (hG : M.dG = false) (tau : ℝ) {i : ι} (s : RankStore ι S B) :
    (∀ j ∈ M.nbrs i, ((row5 D M tau i).run s).1.mem (.pij i j) = p5 M tau s i j) ∧
    (∀ j ∈ M.nbrs i, ((row5 D M tau i).run s).1.mem (.lij i j) =
      (D.limit i j (s.mem (.bounds i)) (s.mem (.newU i)) (p5 M tau s i j)).1) ∧
    ((row5 D M tau i).Raises s ↔ ∃ j ∈ M.nbrs i, ¬ (D.limit i j (s.mem (.bounds i)) (s.mem (.newU i)) (p5 M tau s i j)).2) := by
  by_cases h : M.nbrs i = []
  · rw [row5, if_pos h, h]
    simp [Prog.Raises]
  have e : row5 D M tau i = .read (.bounds i) fun (bounds : B) => .read (.newU i) fun (U : S) => .read (.r i) fun (Fi : S) =>
      Prog.each (body5 D M tau i bounds U Fi) (M.nbrs i) := by
    rw [row5, if_neg h]
    simp only [hG, Bool.false_eq_true, if_false]
    rfl
  rw [e]
  obtain ⟨h1, _, h3⟩ := loop_local (R := fun j l => l = Loc.pij i j ∨ l = Loc.r j) (W := fun j l => l = Loc.pij i j ∨ l = Loc.lij i j)
    (f := fun (_ : Unit) => body5 D M tau i (s.mem (.bounds i)) (s.mem (.newU i)) (s.mem (.r i)))
    (by
      rintro a b hab l (rfl | rfl)
      · simp [hab]
      · simp [hab])
    (by
      intro _ a
      refine ⟨Or.inl rfl, fun _ => ⟨Or.inr rfl, fun _ => ⟨Or.inl rfl, Or.inr rfl, ?_⟩⟩⟩
      split_ifs <;> trivial)
    (fun _ _ _ _ => rfl) (M.nbrs i) (hM.nodup i) () s
  refine ⟨fun j hj => (h1 j hj (.pij i j) (Or.inl rfl) ()).trans ?_, fun j hj => (h1 j hj (.lij i j) (Or.inr rfl) ()).trans ?_,
    Iff.trans h3 ?_⟩
  · simp only [body5, Prog.run]
    split_ifs <;> exact (Store.set_of_ne _ (by simp) _).trans (Store.set_self ..)
  · simp only [body5, Prog.run]
    split_ifs <;> exact Store.set_self ..
  · refine exists_congr fun j => and_congr_right fun _ => ?_
    simp only [body5, Prog.Raises, p5, forall_const]
    split_ifs with hl
    · simp only [Prog.Raises, hl, not_true_eq_false]
    · simp only [Prog.Raises, hl, not_false_eq_true]

/-! ### Steps 6 and 7 -/

def R6 (M : Mesh ι dim) (i : ι) : Loc ι → Prop
  | .newU k => k = i
  | .bounds k => k = i
  | .lij _ _ => True
  | .pij k j => k = i ∧ j ∈ M.nbrs i
  | _ => False

def W6 (M : Mesh ι dim) (last_round : Prop) (i : ι) : Loc ι → Prop
  | .newU k => k = i ∧ M.nbrs i ≠ []
  | .lijNext k j => k = i ∧ j ∈ M.nbrs i ∧ ¬ last_round
  | _ => False

theorem race6 (last_round : Prop) : RaceFree (R6 M) (W6 M last_round) := by
  intro i k hik l hl
  cases l <;> simp only [W6, R6] at hl ⊢ <;> first
    | exact hl.elim
    | exact ⟨fun h => hik (hl.1.symm.trans h), fun h => hik (hl.1.symm.trans h.1)⟩
    | exact ⟨fun h => h, fun h => hik (hl.1.symm.trans h.1)⟩

theorem within6 (last_round : Prop) (i : ι) : (row6 D M last_round i).Within (R6 M i) (W6 M last_round i) := by
  unfold row6
  split_ifs with h h'
  · trivial
  · refine ⟨rfl, fun U => Prog.Within.bind (Prog.Within.loop ?_ _) fun x => ⟨⟨rfl, h⟩, trivial⟩⟩
    intro _ j hj
    exact ⟨trivial, fun _ => ⟨trivial, fun _ => ⟨⟨rfl, hj⟩, fun _ => trivial⟩⟩⟩
  · refine ⟨rfl, fun U => Prog.Within.bind (Prog.Within.loop ?_ _) fun x => ⟨⟨rfl, h⟩, rfl, fun b => Prog.Within.each ?_⟩⟩
    · intro _ j hj
      exact ⟨trivial, fun _ => ⟨trivial, fun _ => ⟨⟨rfl, hj⟩, fun _ => trivial⟩⟩⟩
    · intro j hj
      exact ⟨⟨rfl, hj⟩, fun _ => ⟨⟨rfl, hj, h'⟩, trivial⟩⟩

/-- The high-order update of row `i` computed from the entries in memory. -/
noncomputable def u6 (M : Mesh ι dim) (s : RankStore ι S B) (i : ι) : S :=
  (s.mem (.newU i) : S) + ((M.nbrs i).map fun j =>
    (symmetrized (fun i j => (s.mem (.lij i j) : ℝ)) i j * (1 / ((M.nbrs i).length : ℝ))) • (s.mem (.pij i j) : S)).sum

theorem read6_run (i : ι) (s : RankStore ι S B) :
    ∃ x : ι → ℝ, (∀ j ∈ M.nbrs i, x j = symmetrized (fun i j => (s.mem (.lij i j) : ℝ)) i j) ∧
    (Prog.loop (fun (x : S × (ι → ℝ)) j =>
      .read (.lij i j) fun (a : ℝ) => .read (.lij j i) fun (b : ℝ) => .read (.pij i j) fun (p_ij : S) =>
        (.ret (x.1 + (min a b * (1 / ((M.nbrs i).length : ℝ))) • p_ij, Function.update x.2 j (min a b)) : RowProg ι S B (S × (ι → ℝ))))
      ((s.mem (.newU i) : S), fun _ => 0) (M.nbrs i)).run s = (s, (u6 M s i, x)) := by
  have : ∀ (l : List ι) (x : S × (ι → ℝ)), l.foldl (fun (b : S × (ι → ℝ)) a =>
      (Prog.run (.read (.lij i a) fun (c : ℝ) => .read (.lij a i) fun (d : ℝ) => .read (.pij i a) fun (p_ij : S) =>
        (.ret (b.1 + (min c d * (1 / ((M.nbrs i).length : ℝ))) • p_ij, Function.update b.2 a (min c d)) : RowProg ι S B (S × (ι → ℝ)))) s).2) x =
      (x.1 + (l.map fun j => (symmetrized (fun i j => (s.mem (.lij i j) : ℝ)) i j * (1 / ((M.nbrs i).length : ℝ))) • (s.mem (.pij i j) : S)).sum,
        l.foldl (fun x j => Function.update x j (symmetrized (fun i j => (s.mem (.lij i j) : ℝ)) i j)) x.2) := by
    intro l
    induction l with
    | nil => intro x; simp
    | cons a l ih =>
      intro x
      rw [List.foldl_cons, ih, List.map_cons, List.sum_cons, ← add_assoc]
      rfl
  refine ⟨_, ?_, (loop_readonly (fun _ _ _ => rfl) _ _ s).trans (congrArg (fun x => (s, x)) (this _ _))⟩
  intro j hj
  exact (foldl_update (fun j => symmetrized (fun i j => (s.mem (.lij i j) : ℝ)) i j) _ _ j).trans (if_pos hj)

/-- The part of a row of steps 6 and 7 after the update has been written. -/
noncomputable def after6 (D : Description ι P S F B dim) (M : Mesh ι dim) (last_round : Prop) (i : ι) (x : S × (ι → ℝ)) :
    RowProg ι S B Unit :=
  if last_round then .ret ()
  else
    .read (.bounds i) fun (bounds : B) =>
    Prog.each (fun j => .read (.pij i j) fun (p_ij : S) =>
      .write (.lijNext i j) ((1 - x.2 j) * (D.limit i j bounds x.1 ((1 - x.2 j) • p_ij)).1 : ℝ) (.ret ())) (M.nbrs i)

theorem row6_run (hM : M.WellFormed) (last_round : Prop) {i : ι} (h : M.nbrs i ≠ []) (s : RankStore ι S B) :
    ((row6 D M last_round i).run s).1.mem (.newU i) = u6 M s i ∧
    (¬ last_round → ∀ j ∈ M.nbrs i, ((row6 D M last_round i).run s).1.mem (.lijNext i j) =
      (1 - symmetrized (fun i j => (s.mem (.lij i j) : ℝ)) i j) *
        (D.limit i j (s.mem (.bounds i)) (u6 M s i)
          ((1 - symmetrized (fun i j => (s.mem (.lij i j) : ℝ)) i j) • (s.mem (.pij i j) : S))).1) ∧
    ¬ (row6 D M last_round i).Raises s := by
  obtain ⟨x, hx, hrun⟩ := read6_run (M := M) i s
  have hnr : ¬ (Prog.loop (fun (x : S × (ι → ℝ)) j =>
      .read (.lij i j) fun (a : ℝ) => .read (.lij j i) fun (b : ℝ) => .read (.pij i j) fun (p_ij : S) =>
        (.ret (x.1 + (min a b * (1 / ((M.nbrs i).length : ℝ))) • p_ij, Function.update x.2 j (min a b)) : RowProg ι S B (S × (ι → ℝ))))
      ((s.mem (.newU i) : S), fun _ => 0) (M.nbrs i)).Raises s := by
    obtain ⟨x', _, hrun'⟩ := read6_run (M := M) i ({ s with flag := False } : RankStore ι S B)
    rw [raises_iff _ (R' := fun _ => True) (W' := fun _ => True)]
    · intro hf
      have := congrArg (fun z => z.1.flag) hrun'
      simp only at this
      rw [← this]
      exact hf
    · refine Prog.Within.loop ?_ _
      intro _ j hj
      exact ⟨trivial, fun _ => ⟨trivial, fun _ => ⟨trivial, fun _ => trivial⟩⟩⟩
  have e : row6 D M last_round i = .read (.newU i) fun (U_i_new : S) => (Prog.loop (fun (x : S × (ι → ℝ)) j =>
      .read (.lij i j) fun (a : ℝ) => .read (.lij j i) fun (b : ℝ) => .read (.pij i j) fun (p_ij : S) =>
        (.ret (x.1 + (min a b * (1 / ((M.nbrs i).length : ℝ))) • p_ij, Function.update x.2 j (min a b)) : RowProg ι S B (S × (ι → ℝ))))
      (U_i_new, fun _ => 0) (M.nbrs i)).bind fun x => (.write (.newU i) x.1 (after6 D M last_round i x)) := by
    rw [row6, if_neg h]
    rfl
  rw [e]
  refine ⟨?_, fun hl j hj => ?_, ?_⟩
  · change ((Prog.bind _ _).run s).1.mem _ = _
    rw [Prog.run_bind, hrun]
    change ((after6 D M last_round i (u6 M s i, x)).run (s.set (.newU i) (u6 M s i))).1.mem _ = _
    rw [Prog.run_frame (R := fun _ => True) (W := fun l => ∃ j, l = Loc.lijNext i j)]
    · exact Store.set_self ..
    · unfold after6
      split_ifs
      · trivial
      · refine ⟨trivial, fun _ => Prog.Within.each ?_⟩
        intro j _
        exact ⟨trivial, fun _ => ⟨⟨j, rfl⟩, trivial⟩⟩
    · simp
  · change ((Prog.bind _ _).run s).1.mem _ = _
    rw [Prog.run_bind, hrun]
    change ((after6 D M last_round i (u6 M s i, x)).run (s.set (.newU i) (u6 M s i))).1.mem _ = _
    rw [after6, if_neg hl]
    change ((Prog.loop _ _ _).run (s.set (.newU i) (u6 M s i))).1.mem _ = _
    refine ((loop_local (R := fun j l => l = Loc.pij i j) (W := fun j l => l = Loc.lijNext i j) ?_ ?_ (fun _ _ _ _ => rfl) (M.nbrs i)
      (hM.nodup i) () _).1 j hj (.lijNext i j) rfl ()).trans ?_
    · rintro a b hab l rfl
      simp [hab]
    · intro _ a
      exact ⟨rfl, fun _ => ⟨rfl, trivial⟩⟩
    · refine (Store.set_self ..).trans ?_
      rw [Store.set_of_ne _ (by simp), Store.set_of_ne _ (by simp)]
      simp only [hx j hj]
  · change ¬ (Prog.bind _ _).Raises s
    rw [Prog.raises_bind, hrun]
    rintro (h' | h')
    · exact hnr h'
    · change (after6 D M last_round i (u6 M s i, x)).Raises (s.set (.newU i) (u6 M s i)) at h'
      unfold after6 at h'
      split_ifs at h'
      · exact h'
      · change (Prog.loop _ _ _).Raises _ at h'
        generalize (s.set (.newU i) (u6 M s i)).mem (.bounds i) = bb at h'
        generalize (s.set (.newU i) (u6 M s i)) = s' at h'
        generalize M.nbrs i = l at h'
        induction l generalizing s' with
        | nil => exact h'
        | cons a l ih =>
          rw [Prog.loop, Prog.raises_bind] at h'
          rcases h' with h' | h'
          · exact h'
          · exact ih _ h'

end Threads
end Hyp
end Ryujin
