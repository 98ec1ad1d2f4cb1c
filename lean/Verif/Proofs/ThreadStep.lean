import Verif.Proofs.ThreadRows
import Verif.Model.Distributed

/-!
# Every execution of a threaded time step computes what `Model/Distributed` says
-/

namespace Ryujin
namespace Hyp
namespace Threads

open Ryujin.Threads Classical

variable {ι R P S F B T : Type} {dim : ℕ} {D : Description ι P S F B dim} {M : Mesh ι dim} {owner : ι → R} {par : Params}

/-- The content of the memory of one rank as used by `Model/Distributed`. -/
def toMemory (s : RankStore ι S B) : Mpi.Memory ι S B where
  alpha := fun i => s.mem (.alpha i)
  dij := fun i j => s.mem (.dij i j)
  newU := fun i => s.mem (.newU i)
  r := fun i => s.mem (.r i)
  bounds := fun i => s.mem (.bounds i)
  lij := fun i j => s.mem (.lij i j)
  lijNext := fun i j => s.mem (.lijNext i j)
  order := []

/-- The entries steps 2 and 3 do not touch. -/
def Same (s s' : RankStore ι S B) : Prop :=
  (∀ i, s'.mem (.newU i) = s.mem (.newU i)) ∧ (∀ i, s'.mem (.r i) = s.mem (.r i)) ∧
  (∀ i, s'.mem (.bounds i) = s.mem (.bounds i)) ∧ (∀ i j, s'.mem (.lij i j) = s.mem (.lij i j)) ∧
  (∀ i j, s'.mem (.lijNext i j) = s.mem (.lijNext i j)) ∧ (s'.flag ↔ s.flag)

theorem Same.trans {s s' s'' : RankStore ι S B} (h : Same s s') (h' : Same s' s'') : Same s s'' :=
  ⟨fun i => (h'.1 i).trans (h.1 i), fun i => (h'.2.1 i).trans (h.2.1 i), fun i => (h'.2.2.1 i).trans (h.2.2.1 i),
    fun i j => (h'.2.2.2.1 i j).trans (h.2.2.2.1 i j), fun i j => (h'.2.2.2.2.1 i j).trans (h.2.2.2.2.1 i j),
    h'.2.2.2.2.2.trans h.2.2.2.2.2⟩

theorem not_raises2 (old : StateVector ι P S) (i : ι) (s : RankStore ι S B) : ¬ (row2 D M old i).Raises s := by
  unfold row2
  split_ifs
  · exact id
  · rw [Prog.raises_bind]
    rintro (h | h)
    · revert h
      generalize M.nbrs i = l
      induction l generalizing s with
      | nil => exact id
      | cons a l ih =>
        rw [Prog.each, Prog.loop, Prog.raises_bind]
        rintro (h | h)
        · split_ifs at h <;> exact h
        · exact ih _ h
    · exact h

theorem region2 (hM : M.WellFormed) {old : R → StateVector ι P S} {s s' : R → RankStore ι S B} (h : Region2 T D M owner old s s') :
    (∀ r i, (s' r).mem (.alpha i) = Mpi.alphaVec D M owner (fun r => toMemory (s r)) old r i) ∧
    (∀ r i j, owner i = r → j ∈ M.nbrs i → (s' r).mem (.dij i j) = dStep2 D M (toMemory (s r)).dij (old r) i j) ∧
    (∀ r, Same (s r) (s' r)) := by
  obtain ⟨m, hm, rfl⟩ := h
  have key : ∀ r, (∀ i, (m r).mem (.alpha i) = Mpi.written M owner r (alpha D M (old r)) (toMemory (s r)).alpha i) ∧
      (∀ i j, owner i = r → j ∈ M.nbrs i → (m r).mem (.dij i j) = dStep2 D M (toMemory (s r)).dij (old r) i j) ∧
      Same (s r) (m r) := by
    intro r
    obtain ⟨chunk, hc, he⟩ := hm r
    obtain ⟨h1, h2, _, h4⟩ := parallelFor_deterministic (race2 (M := M)) (fun _ => within2 (old r)) (fun _ _ _ _ => rfl)
      hc.nodup hc.disjoint hc.covers he
    refine ⟨fun i => ?_, fun i j hi hj => ?_, fun i => h2 _ ?_, fun i => h2 _ ?_, fun i => h2 _ ?_, fun i j => h2 _ ?_,
      fun i j => h2 _ ?_, ?_⟩
    · rw [Mpi.written]
      split_ifs with hi
      · exact (h1 i hi.1 (.alpha i) ⟨rfl, hi.2⟩ ()).trans (row2_alpha (old r) hi.2 _)
      · refine h2 _ ?_
        rintro a ha ⟨rfl, h⟩
        exact hi ⟨ha, h⟩
    · exact (h1 i hi (.dij i j) ⟨rfl, hj⟩ ()).trans (row2_dij hM (old r) hj _)
    · exact fun _ _ h => h
    · exact fun _ _ h => h
    · exact fun _ _ h => h
    · exact fun _ _ h => h
    · exact fun _ _ h => h
    · rw [h4]
      refine ⟨?_, Or.inl⟩
      rintro (h | ⟨a, _, h⟩)
      · exact h
      · exact (not_raises2 (old r) a _ (h ())).elim
  refine ⟨fun r i => ?_, fun r i j hi hj => (key r).2.1 i j hi hj, fun r => (key r).2.2⟩
  change Mpi.exchange M owner (fun r => getAlpha (m r)) r i = _
  rw [Mpi.alphaVec]
  congr 1
  funext q k
  exact (key q).1 k

theorem foldl_min_le {α : Type} (f : ℝ → α → ℝ) (p : α → Prop) (g : α → ℝ) (l : List α)
    (hf : ∀ a ∈ l, ∀ b, f b a = if p a then min b (g a) else b) (b c : ℝ) :
    c ≤ l.foldl f b ↔ c ≤ b ∧ ∀ a ∈ l, p a → c ≤ g a := by
  induction l generalizing b with
  | nil => simp
  | cons a l ih =>
    rw [List.foldl_cons, ih fun x hx => hf x (List.mem_cons_of_mem _ hx), hf a List.mem_cons_self]
    by_cases hp : p a <;> simp [hp, and_assoc]

theorem not_raises3 (b : ℝ) (i : ι) (s : RankStore ι S B) : ¬ (row3 M par b i).Raises s := by
  unfold row3
  split_ifs
  · exact id
  · rw [Prog.raises_bind]
    rintro (h | h)
    · revert h
      generalize M.nbrs i = l
      generalize (0 : ℝ) = x
      induction l generalizing s x with
      | nil => exact id
      | cons a l ih =>
        rw [Prog.loop, Prog.raises_bind]
        rintro (h | h)
        · rw [Prog.raises_bind] at h
          rcases h with h | h
          · split_ifs at h <;> exact h
          · exact h
        · exact ih _ _ h
    · exact h

theorem region3 [Fintype ι] [Fintype T] [Fintype R] [Nonempty R] (hM : M.WellFormed)
    (hbelow : ∀ i j, j ∈ M.nbrs i → M.below i j → owner j = owner i) {big : ℝ} {old : R → StateVector ι P S} {tau_max tau_max' : ℝ}
    (hbig : tau_max ≤ big) (mem : R → Mpi.Memory ι S B) {s s' : R → RankStore ι S B} (hd : ∀ r i j, owner i = r → j ∈ M.nbrs i →
      (s r).mem (.dij i j) = dStep2 D M (mem r).dij (old r) i j)
    (h : Region3 T D M owner par big old tau_max s s' tau_max') :
    (∀ r i, (s' r).mem (.alpha i) = (s r).mem (.alpha i)) ∧
    (∀ r i j, owner i = r → j ∈ M.nbrs i → (s' r).mem (.dij i j) = dOff D M (mem r).dij (old r) i j) ∧
    (∀ r i, owner i = r → M.nbrs i ≠ [] → (s' r).mem (.dij i i) = dDiag D M par (mem r).dij (old r) i) ∧
    (∀ r, Same (s r) (s' r)) ∧
    tau_max' = Mpi.tauGlobal D M owner par mem old tau_max := by
  obtain ⟨m, tau, ha, hb, rfl⟩ := h
  have keyA : ∀ r, (∀ i, (m r).mem (.alpha i) = (s r).mem (.alpha i)) ∧
      (∀ i j, owner i = r → j ∈ M.nbrs i → ¬ M.below i j → (m r).mem (.dij i j) = dBoundary D M (mem r).dij (old r) i j) ∧
      Same (s r) (m r) := by
    intro r
    obtain ⟨chunk, hc, he⟩ := ha r
    obtain ⟨h1, h2, _, h4⟩ := parallelFor_deterministic (race3a (M := M)) (fun _ => within3a (old r)) (fun _ _ _ _ => rfl)
      hc.nodup hc.disjoint hc.covers he
    refine ⟨fun i => h2 _ fun _ _ h => h, fun i j hi hj hn => ?_, fun i => h2 _ fun _ _ h => h, fun i => h2 _ fun _ _ h => h,
      fun i => h2 _ fun _ _ h => h, fun i j => h2 _ fun _ _ h => h, fun i j => h2 _ fun _ _ h => h, ?_⟩
    · rw [dBoundary]
      split_ifs with hbd
      · refine (h1 (i, j) ⟨hi, hj, hbd.1, hbd.2.1⟩ (.dij i j) ⟨rfl, hn⟩ ()).trans ?_
        rw [pair3_dij (old r) hn]
        exact congrArg (fun x => max x _) (hd r i j hi hj)
      · refine (h2 _ ?_).trans (hd r i j hi hj)
        rintro ⟨a, b⟩ ⟨_, _, h, h'⟩ ⟨e, _⟩
        cases e
        exact hbd ⟨h, h', hn⟩
    · rw [h4]
      refine ⟨?_, Or.inl⟩
      rintro (h | ⟨a, _, h⟩)
      · exact h
      · have := h ()
        unfold pair3 at this
        split_ifs at this <;> exact this.elim
  have hsym : ∀ r i j, owner i = r → j ∈ M.nbrs i →
      symm3 M (fun i j => (m r).mem (.dij i j)) i j = dOff D M (mem r).dij (old r) i j := by
    intro r i j hi hj
    rw [symm3, dOff]
    split_ifs with hbe
    · exact (keyA r).2.1 j i ((hbelow i j hj hbe).trans hi) (hM.symm i j hj) (hM.asymm i j hbe)
    · exact (keyA r).2.1 i j hi hj hbe
  have hsum : ∀ r i, owner i = r → ((M.nbrs i).map (symm3 M (fun i j => (m r).mem (.dij i j)) i)).sum =
      ((M.nbrs i).map (dOff D M (mem r).dij (old r) i)).sum := by
    intro r i hi
    rw [List.map_congr_left fun j hj => hsym r i j hi hj]
  have keyB : ∀ r, (∀ i, (s' r).mem (.alpha i) = (m r).mem (.alpha i)) ∧
      (∀ i j, owner i = r → j ∈ M.nbrs i → (s' r).mem (.dij i j) = dOff D M (mem r).dij (old r) i j) ∧
      (∀ i, owner i = r → M.nbrs i ≠ [] → (s' r).mem (.dij i i) = dDiag D M par (mem r).dij (old r) i) ∧
      Same (m r) (s' r) ∧ Finset.univ.fold min tau_max (tau r) = Mpi.tauLocal D M owner par mem old tau_max r := by
    intro r
    obtain ⟨chunk, hc, he⟩ := hb r
    obtain ⟨h1, h2, h3, h4⟩ := parallelFor_deterministic (race3 hM) (fun b i => within3 par b i) (fun b b' i s => row3_ind par b b' i s)
      hc.nodup hc.disjoint hc.covers he
    refine ⟨fun i => h2 _ fun _ _ h => h, fun i j hi hj => ?_, fun i hi hn => ?_, ⟨fun i => h2 _ fun _ _ h => h, fun i => h2 _ fun _ _ h => h,
      fun i => h2 _ fun _ _ h => h, fun i j => h2 _ fun _ _ h => h, fun i j => h2 _ fun _ _ h => h, ?_⟩, ?_⟩
    · by_cases hbe : M.below i j
      · refine (h1 i hi (.dij i j) ⟨rfl, List.ne_nil_of_mem hj, Or.inr ⟨hj, hbe⟩⟩ 0).trans ?_
        rw [row3_dij hM par 0 hj]
        exact hsym r i j hi hj
      · rw [← hsym r i j hi hj, symm3, if_neg hbe]
        refine h2 _ ?_
        rintro a _ ⟨rfl, _, h | h⟩
        · exact hM.irrefl i (h ▸ hj)
        · exact hbe h.2
    · refine (h1 i hi (.dij i i) ⟨rfl, hn, Or.inl rfl⟩ 0).trans ?_
      rw [row3_diag hM par 0 hn, hsum r i hi, dDiag]
    · rw [h4]
      refine ⟨?_, Or.inl⟩
      rintro (h | ⟨a, _, h⟩)
      · exact h
      · exact (not_raises3 0 a _ (h 0)).elim
    · refine eq_of_forall_le_iff fun c => ?_
      rw [Mpi.tauLocal, Finset.le_fold_min, Finset.le_fold_min]
      simp only [Finset.mem_univ, true_implies, Finset.mem_filter, true_and]
      have hrow : ∀ t, ∀ a ∈ chunk t, ∀ b, ((row3 M par b a).run (m r)).2 =
          if M.active a then min b (tauRow D M par (mem r).dij (old r) a) else b := by
        intro t a hat b
        have hown : owner a = r := (hc.covers a).2 ⟨t, hat⟩
        by_cases hn : M.nbrs a = []
        · rw [if_neg (fun h => h hn), row3, if_pos hn]
          rfl
        · rw [if_pos (show M.active a from hn), row3_tau hM par b hn, hsum r a hown, tauRow, dDiag]
      have hle : ∀ t, c ≤ tau r t ↔ c ≤ big ∧ ∀ a ∈ chunk t, M.active a → c ≤ tauRow D M par (mem r).dij (old r) a := by
        intro t
        rw [h3 t]
        exact foldl_min_le _ _ _ _ (hrow t) big c
      constructor
      · rintro ⟨h, h'⟩
        refine ⟨h, fun a haa => ?_⟩
        obtain ⟨t, ht⟩ := (hc.covers a).1 haa.1
        exact ((hle t).1 (h' t)).2 a ht haa.2
      · rintro ⟨h, h'⟩
        exact ⟨h, fun t => (hle t).2 ⟨h.trans hbig, fun a haa hact => h' a ⟨(hc.covers a).2 ⟨t, haa⟩, hact⟩⟩⟩
  refine ⟨fun r i => ((keyB r).1 i).trans ((keyA r).1 i), fun r => (keyB r).2.1, fun r => (keyB r).2.2.1,
    fun r => (keyA r).2.2.trans (keyB r).2.2.2.1, ?_⟩
  rw [Mpi.tauGlobal]
  congr 1
  funext r
  exact (keyB r).2.2.2.2

variable [AddCommGroup S] [Module ℝ S]

theorem not_raises4 (tiny : ℝ) (old : StateVector ι P S) (stages : List (ℝ × StateVector ι P S)) (tau : ℝ) (i : ι)
    (s : RankStore ι S B) : ¬ (row4 D M tiny old stages tau i).Raises s := by
  unfold row4
  split_ifs
  · exact id
  · rw [Prog.raises_bind]
    rintro (h | h)
    · revert h
      generalize M.columns i = l
      generalize ((fun _ => 0, fun _ => 0) : (ι → ℝ) × (ι → ℝ)) = x
      induction l generalizing s x with
      | nil => exact id
      | cons a l ih =>
        rw [Prog.loop, Prog.raises_bind]
        rintro (h | h)
        · exact h
        · exact ih _ _ h
    · dsimp only at h
      rw [Prog.raises_bind] at h
      rcases h with h | h
      · revert h
        generalize (Prog.run _ s).1 = s1
        generalize (Prog.run _ s).2 = x
        have : ∀ (l : List ι) (s1 : RankStore ι S B), ¬ (Prog.each (fun j => (.write (.pij i j)
            (pStep4 D M (⟨old, stages, tau, fun _ => x.1, x.2⟩ : Stage4 ι P S) i j : S) (.ret ()) : RowProg ι S B Unit)) l).Raises s1 := by
          intro l
          induction l with
          | nil => exact fun _ => id
          | cons a l ih =>
            intro s1
            rw [Prog.each, Prog.loop, Prog.raises_bind]
            rintro (h | h)
            · exact h
            · exact ih _ h
        exact this _ _
      · exact h

theorem region4 (hM : M.WellFormed) (hG : M.dG = false) {old : R → StateVector ι P S} {stages : R → List (ℝ × StateVector ι P S)} {tau : ℝ}
    (mem : R → Mpi.Memory ι S B) {s s' : R → RankStore ι S B}
    (hmem : ∀ r, (∀ i, (s r).mem (.newU i) = (mem r).newU i) ∧ (∀ i, (s r).mem (.r i) = (mem r).r i) ∧
      (∀ i, (s r).mem (.bounds i) = (mem r).bounds i))
    (ha : ∀ r i, (s r).mem (.alpha i) = Mpi.alphaVec D M owner mem old r i)
    (hd : ∀ r i j, owner i = r → j ∈ M.nbrs i → (s r).mem (.dij i j) = dOff D M (mem r).dij (old r) i j)
    (hdd : ∀ r i, owner i = r → M.nbrs i ≠ [] → (s r).mem (.dij i i) = dDiag D M par (mem r).dij (old r) i)
    (h : Region4 T D M owner par old stages tau s s') :
    (∀ r i, (s' r).mem (.newU i) = Mpi.lowVec D M owner mem (Mpi.stage4 D M owner par mem old stages tau) r i) ∧
    (∀ r i, (s' r).mem (.r i) = Mpi.rVec D M owner mem (Mpi.stage4 D M owner par mem old stages tau) r i) ∧
    (∀ r i, (s' r).mem (.bounds i) = Mpi.boundsVec D M owner par mem (Mpi.stage4 D M owner par mem old stages tau) r i) ∧
    (∀ r i j, owner i = r → j ∈ M.nbrs i → (s' r).mem (.pij i j) = pStep4 D M (Mpi.stage4 D M owner par mem old stages tau r) i j) ∧
    (∀ r i j, (s' r).mem (.lij i j) = (s r).mem (.lij i j)) ∧ (∀ r i j, (s' r).mem (.lijNext i j) = (s r).mem (.lijNext i j)) ∧
    (∀ r, (s' r).flag ↔ (s r).flag) := by
  obtain ⟨m, hm, rfl⟩ := h
  simp only [hG, Bool.false_eq_true, if_false]
  set X := Mpi.stage4 D M owner par mem old stages tau with hX
  have key : ∀ r, (∀ i, (m r).mem (.newU i) = Mpi.lowVec D M owner mem X r i) ∧
      (∀ i, (m r).mem (.r i) = Mpi.written M owner r (rhsH D M (X r)) (mem r).r i) ∧
      (∀ i, (m r).mem (.bounds i) = Mpi.written M owner r (boundsStep4 D M (X r) par.tiny) (mem r).bounds i) ∧
      (∀ i j, owner i = r → j ∈ M.nbrs i → (m r).mem (.pij i j) = pStep4 D M (X r) i j) ∧
      (∀ i j, (m r).mem (.lij i j) = (s r).mem (.lij i j)) ∧ (∀ i j, (m r).mem (.lijNext i j) = (s r).mem (.lijNext i j)) ∧
      ((m r).flag ↔ (s r).flag) := by
    intro r
    obtain ⟨chunk, hc, he⟩ := hm r
    obtain ⟨h1, h2, _, h4⟩ := parallelFor_deterministic (race4 (M := M)) (fun _ => within4 par.tiny (old r) (stages r) tau)
      (fun _ _ _ _ => rfl) hc.nodup hc.disjoint hc.covers he
    have hrow : ∀ i, owner i = r → M.nbrs i ≠ [] → _ := fun i hi hn =>
      row4_run (D := D) hM par.tiny (old r) (stages r) tau hn (s r) (X r) rfl rfl rfl
        (by
          intro j hj
          rcases List.mem_cons.1 hj with rfl | hj
          · refine (hdd r j hi hn).trans ?_
            rw [hX]
            simp [Mpi.stage4]
          · refine (hd r i j hi hj).trans ?_
            have hne : i ≠ j := fun h => hM.irrefl i (by rw [← h] at hj; exact hj)
            rw [hX]
            simp [Mpi.stage4, hne])
        (fun j _ => ha r j)
    refine ⟨fun i => ?_, fun i => ?_, fun i => ?_, fun i j hi hj => ?_, fun i j => h2 _ fun _ _ h => h, fun i j => h2 _ fun _ _ h => h, ?_⟩
    · rw [Mpi.lowVec, Mpi.written]
      split_ifs with hi
      · exact (h1 i hi.1 (.newU i) ⟨rfl, hi.2⟩ ()).trans (hrow i hi.1 hi.2).1
      · refine (h2 _ ?_).trans ((hmem r).1 i)
        rintro a hown ⟨rfl, h⟩
        exact hi ⟨hown, h⟩
    · rw [Mpi.written]
      split_ifs with hi
      · exact (h1 i hi.1 (.r i) ⟨rfl, hi.2⟩ ()).trans (hrow i hi.1 hi.2).2.1
      · refine (h2 _ ?_).trans ((hmem r).2.1 i)
        rintro a hown ⟨rfl, h⟩
        exact hi ⟨hown, h⟩
    · rw [Mpi.written]
      split_ifs with hi
      · exact (h1 i hi.1 (.bounds i) ⟨rfl, hi.2⟩ ()).trans (hrow i hi.1 hi.2).2.2.1
      · refine (h2 _ ?_).trans ((hmem r).2.2 i)
        rintro a hown ⟨rfl, h⟩
        exact hi ⟨hown, h⟩
    · have hn := List.ne_nil_of_mem hj
      exact (h1 i hi (.pij i j) ⟨rfl, mem_nbr hj, hn⟩ ()).trans ((hrow i hi hn).2.2.2 j (mem_nbr hj))
    · rw [h4]
      refine ⟨?_, Or.inl⟩
      rintro (h | ⟨a, _, h⟩)
      · exact h
      · exact (not_raises4 par.tiny (old r) (stages r) tau a _ (h ())).elim
  refine ⟨fun r i => (key r).1 i, fun r i => ?_, fun r i => ?_, fun r i j hi hj => (key r).2.2.2.1 i j hi hj,
    fun r => (key r).2.2.2.2.1, fun r => (key r).2.2.2.2.2.1, fun r => (key r).2.2.2.2.2.2⟩
  · change Mpi.exchange M owner (fun r => getR (m r)) r i = _
    rw [Mpi.rVec]
    congr 1
    funext q k
    exact (key q).2.1 k
  · rw [Mpi.boundsVec]
    simp only [hG, Bool.false_eq_true, if_false]
    exact (key r).2.2.1 i

theorem region5 (hM : M.WellFormed) (hG : M.dG = false) {tau : ℝ} (mem : R → Mpi.Memory ι S B) (X : R → Stage4 ι P S)
    (hX : ∀ r, (X r).tau = tau) {s s' : R → RankStore ι S B}
    (hU : ∀ r i, (s r).mem (.newU i) = Mpi.lowVec D M owner mem X r i) (hr : ∀ r i, (s r).mem (.r i) = Mpi.rVec D M owner mem X r i)
    (hb : ∀ r i, (s r).mem (.bounds i) = Mpi.boundsVec D M owner par mem X r i)
    (hp : ∀ r i j, owner i = r → j ∈ M.nbrs i → (s r).mem (.pij i j) = pStep4 D M (X r) i j)
    (hl : ∀ r i j, (s r).mem (.lij i j) = (mem r).lij i j) (hn : par.iterations ≠ 0)
    (h : Region5 T D M owner tau s s') :
    (∀ r i, (s' r).mem (.newU i) = (s r).mem (.newU i)) ∧ (∀ r i, (s' r).mem (.bounds i) = (s r).mem (.bounds i)) ∧
    (∀ r i j, owner i = r → j ∈ M.nbrs i → (s' r).mem (.pij i j) = Mpi.pMat D M X (Mpi.rVec D M owner mem X) r i j) ∧
    (∀ r i j, (s' r).mem (.lij i j) = Mpi.lijMat D M owner par mem X r i j) ∧
    (∀ r i j, (s' r).mem (.lijNext i j) = (s r).mem (.lijNext i j)) ∧
    (∀ r, (s' r).flag ↔ (s r).flag ∨ Mpi.restartLocal D M owner par mem X r) := by
  obtain ⟨m, hm, rfl⟩ := h
  have hb5 : ∀ r i, Mpi.boundsVec5 D M owner par mem X r i = (s r).mem (.bounds i) := by
    intro r i
    rw [Mpi.boundsVec5, boundsStep5, hG, hb]
    simp
  have hp5 : ∀ r i j, owner i = r → j ∈ M.nbrs i → p5 M tau (s r) i j = Mpi.pMat D M X (Mpi.rVec D M owner mem X) r i j := by
    intro r i j hi hj
    rw [p5, Mpi.pMat, hX, hp r i j hi hj, hr, hr]
  have hl5 : ∀ r i j, owner i = r → j ∈ M.nbrs i → D.limit i j ((s r).mem (.bounds i)) ((s r).mem (.newU i)) (p5 M tau (s r) i j) =
      Mpi.limit5 D M owner par mem X r i j := by
    intro r i j hi hj
    rw [Mpi.limit5, hb5, hp5 r i j hi hj, hU]
  have key : ∀ r, (∀ i, (m r).mem (.newU i) = (s r).mem (.newU i)) ∧ (∀ i, (m r).mem (.bounds i) = (s r).mem (.bounds i)) ∧
      (∀ i j, owner i = r → j ∈ M.nbrs i → (m r).mem (.pij i j) = p5 M tau (s r) i j) ∧
      (∀ i j, (m r).mem (.lij i j) = Mpi.writtenRows M owner r (fun i j => (Mpi.limit5 D M owner par mem X r i j).1) (mem r).lij i j) ∧
      (∀ i j, (m r).mem (.lijNext i j) = (s r).mem (.lijNext i j)) ∧
      ((m r).flag ↔ (s r).flag ∨ Mpi.restartLocal D M owner par mem X r) := by
    intro r
    obtain ⟨chunk, hc, he⟩ := hm r
    obtain ⟨h1, h2, _, h4⟩ := parallelFor_deterministic (race5 (M := M)) (fun _ => within5 (D := D) hG tau)
      (fun _ _ _ _ => rfl) hc.nodup hc.disjoint hc.covers he
    refine ⟨fun i => h2 _ fun _ _ h => h, fun i => h2 _ fun _ _ h => h, fun i j hi hj => ?_, fun i j => ?_, fun i j => h2 _ fun _ _ h => h, ?_⟩
    · exact (h1 i hi (.pij i j) ⟨rfl, hj⟩ ()).trans ((row5_run hM hG tau (s r)).1 j hj)
    · rw [Mpi.writtenRows]
      split_ifs with hi
      · refine (h1 i hi.1 (.lij i j) ⟨rfl, hi.2.2⟩ ()).trans ?_
        rw [(row5_run hM hG tau (s r)).2.1 j hi.2.2]
        exact congrArg Prod.fst (hl5 r i j hi.1 hi.2.2)
      · refine (h2 _ ?_).trans (hl r i j)
        rintro a hown ⟨rfl, h⟩
        exact hi ⟨hown, List.ne_nil_of_mem h, h⟩
    · rw [h4]
      refine or_congr Iff.rfl ?_
      rw [Mpi.restartLocal]
      constructor
      · rintro ⟨i, hi, h⟩
        obtain ⟨j, hj, h'⟩ := (row5_run hM hG tau (s r)).2.2.1 (h ())
        rw [hl5 r i j hi hj] at h'
        exact ⟨hn, i, hi, j, hj, h'⟩
      · rintro ⟨_, i, hi, j, hj, h'⟩
        refine ⟨i, hi, fun _ => (row5_run hM hG tau (s r)).2.2.2 ⟨j, hj, ?_⟩⟩
        rwa [hl5 r i j hi hj]
  refine ⟨fun r => (key r).1, fun r => (key r).2.1, fun r i j hi hj => ((key r).2.2.1 i j hi hj).trans (hp5 r i j hi hj), fun r i j => ?_,
    fun r => (key r).2.2.2.2.1, fun r => (key r).2.2.2.2.2⟩
  change Mpi.exchangeRows M owner (fun r => getLij (m r)) r i j = _
  rw [Mpi.lijMat]
  congr 1
  funext q k l
  exact (key q).2.2.2.1 k l

/-- The memory represents a state of the limiter loop of `Model/Distributed`. -/
structure Represents (M : Mesh ι dim) (owner : ι → R) (b : R → ι → B) (p : R → ι → ι → S) (s : R → RankStore ι S B)
    (st : R → LimiterLoop ι S) : Prop where
  U : ∀ r i, (s r).mem (.newU i) = (st r).U i
  lij : ∀ r i j, (s r).mem (.lij i j) = (st r).lij i j
  lijNext : ∀ r i j, (s r).mem (.lijNext i j) = (st r).lijNext i j
  bounds : ∀ r i, (s r).mem (.bounds i) = b r i
  pij : ∀ r i j, owner i = r → j ∈ M.nbrs i → (s r).mem (.pij i j) = p r i j

theorem region6 (hM : M.WellFormed) {b : R → ι → B} {p : R → ι → ι → S} {n k : ℕ} {s s' : R → RankStore ι S B} {st : R → LimiterLoop ι S}
    (hs : Represents M owner b p s st) (h : Region6 T D M owner n k s s') :
    Represents M owner b p s' (Mpi.pass D M owner b p n k st) ∧ ∀ r, (s' r).flag ↔ (s r).flag := by
  obtain ⟨m, hm, rfl⟩ := h
  set s0 : R → RankStore ι S B := fun r => if n = 2 ∧ k + 1 = n then swapLij (s r) else s r with hs0
  set lij := fun r => if n = 2 ∧ k + 1 = n then (st r).lijNext else (st r).lij with hlij
  set lijN := fun r => if n = 2 ∧ k + 1 = n then (st r).lij else (st r).lijNext with hlijN
  have f1 : ∀ r i, (s0 r).mem (.newU i) = (st r).U i := by
    intro r i
    simp only [hs0]
    split_ifs
    · exact hs.U r i
    · exact hs.U r i
  have f2 : ∀ r i j, (s0 r).mem (.lij i j) = lij r i j := by
    intro r i j
    simp only [hs0, hlij]
    split_ifs
    · exact hs.lijNext r i j
    · exact hs.lij r i j
  have f3 : ∀ r i j, (s0 r).mem (.lijNext i j) = lijN r i j := by
    intro r i j
    simp only [hs0, hlijN]
    split_ifs
    · exact hs.lij r i j
    · exact hs.lijNext r i j
  have f4 : ∀ r i, (s0 r).mem (.bounds i) = b r i := by
    intro r i
    simp only [hs0]
    split_ifs
    · exact hs.bounds r i
    · exact hs.bounds r i
  have f5 : ∀ r i j, owner i = r → j ∈ M.nbrs i → (s0 r).mem (.pij i j) = p r i j := by
    intro r i j hi hj
    simp only [hs0]
    split_ifs
    · exact hs.pij r i j hi hj
    · exact hs.pij r i j hi hj
  have f6 : ∀ r, (s0 r).flag ↔ (s r).flag := by
    intro r
    simp only [hs0]
    split_ifs <;> exact Iff.rfl
  have g2 : ∀ r, (fun i j => ((s0 r).mem (.lij i j) : ℝ)) = lij r := fun r => funext fun i => funext fun j => f2 r i j
  set U := fun r => Mpi.written M owner r (fun i => (st r).U i + ((M.nbrs i).map fun j =>
    (symmetrized (lij r) i j * (1 / ((M.nbrs i).length : ℝ))) • p r i j).sum) (st r).U with hU
  have hu6 : ∀ r i, owner i = r → M.nbrs i ≠ [] → u6 M (s0 r) i = U r i := by
    intro r i hi ha
    simp only [hU]
    rw [u6, Mpi.written, if_pos ⟨hi, ha⟩, f1, g2]
    congr 2
    refine List.map_congr_left fun j hj => ?_
    rw [f5 r i j hi hj]
  have key : ∀ r, (∀ i, (m r).mem (.newU i) = U r i) ∧
      (∀ i j, (m r).mem (.lij i j) = lij r i j) ∧
      (∀ i j, (m r).mem (.lijNext i j) = if k + 1 = n then lijN r i j else Mpi.writtenRows M owner r (fun i j =>
        (1 - symmetrized (lij r) i j) * (D.limit i j (b r i) (U r i) ((1 - symmetrized (lij r) i j) • p r i j)).1) (lijN r) i j) ∧
      (∀ i, (m r).mem (.bounds i) = b r i) ∧ (∀ i j, owner i = r → j ∈ M.nbrs i → (m r).mem (.pij i j) = p r i j) ∧
      ((m r).flag ↔ (s r).flag) := by
    intro r
    obtain ⟨chunk, hc, he⟩ := hm r
    obtain ⟨h1, h2, _, h4⟩ := parallelFor_deterministic (race6 (M := M) (k + 1 = n)) (fun _ => within6 (D := D) (k + 1 = n))
      (fun _ _ _ _ => rfl) hc.nodup hc.disjoint hc.covers he
    refine ⟨fun i => ?_, fun i j => (h2 (.lij i j) fun _ _ h => h).trans (f2 r i j), fun i j => ?_, fun i => (h2 (.bounds i) fun _ _ h => h).trans (f4 r i),
      fun i j hi hj => (h2 (.pij i j) fun _ _ h => h).trans (f5 r i j hi hj), ?_⟩
    · by_cases hi : owner i = r ∧ M.active i
      · refine (h1 i hi.1 (.newU i) ⟨rfl, hi.2⟩ ()).trans ?_
        rw [(row6_run hM (k + 1 = n) hi.2 (s0 r)).1]
        exact hu6 r i hi.1 hi.2
      · simp only [hU, Mpi.written, if_neg hi]
        refine (h2 _ ?_).trans (f1 r i)
        rintro a hown ⟨rfl, h⟩
        exact hi ⟨hown, h⟩
    · by_cases hl : k + 1 = n
      · rw [if_pos hl]
        refine (h2 _ ?_).trans (f3 r i j)
        rintro a _ ⟨_, _, h⟩
        exact h hl
      · rw [if_neg hl, Mpi.writtenRows]
        split_ifs with hi
        · refine (h1 i hi.1 (.lijNext i j) ⟨rfl, hi.2.2, hl⟩ ()).trans ?_
          rw [(row6_run hM (k + 1 = n) hi.2.1 (s0 r)).2.1 hl j hi.2.2, g2, f4, hu6 r i hi.1 hi.2.1, f5 r i j hi.1 hi.2.2]
        · refine (h2 _ ?_).trans (f3 r i j)
          rintro a hown ⟨rfl, h, _⟩
          exact hi ⟨hown, List.ne_nil_of_mem h, h⟩
    · rw [h4, ← f6]
      refine ⟨?_, Or.inl⟩
      rintro (h | ⟨a, _, h⟩)
      · exact h
      · by_cases hn : M.nbrs a = []
        · have := h ()
          rw [row6, if_pos hn] at this
          exact this.elim
        · exact ((row6_run hM (k + 1 = n) hn (s0 r)).2.2 (h ())).elim
  refine ⟨⟨fun r i => ?_, fun r i j => ?_, fun r i j => ?_, fun r i => ?_, fun r i j hi hj => ?_⟩, fun r => ?_⟩
  · refine Eq.trans ?_ ((key r).1 i)
    split_ifs <;> rfl
  · refine Eq.trans ?_ ((key r).2.1 i j)
    split_ifs <;> rfl
  · simp only [Mpi.pass]
    by_cases hl : k + 1 = n
    · rw [if_pos hl, if_pos hl, (key r).2.2.1, if_pos hl]
    · rw [if_neg hl, if_neg hl]
      change Mpi.exchangeRows M owner (fun r => getLijNext (m r)) r i j = _
      congr 1
      funext q a c
      refine ((key q).2.2.1 a c).trans ?_
      rw [if_neg hl]
  · refine Eq.trans ?_ ((key r).2.2.2.1 i)
    split_ifs <;> rfl
  · refine Eq.trans ?_ ((key r).2.2.2.2.1 i j hi hj)
    split_ifs <;> rfl
  · refine Iff.trans ?_ (key r).2.2.2.2.2
    split_ifs <;> exact Iff.rfl

theorem passes (hM : M.WellFormed) {b : R → ι → B} {p : R → ι → ι → S} {n k : ℕ} {s s' : R → RankStore ι S B} {st : R → LimiterLoop ι S}
    (hs : Represents M owner b p s st) (h : Passes T D M owner n k s s') :
    Represents M owner b p s' ((List.range k).foldl (fun st k => Mpi.pass D M owner b p n k st) st) ∧ ∀ r, (s' r).flag ↔ (s r).flag := by
  induction k generalizing s' with
  | zero =>
    cases h
    exact ⟨hs, fun _ => Iff.rfl⟩
  | succ k ih =>
    obtain ⟨m, hm, h6⟩ := h
    obtain ⟨h1, h2⟩ := ih hm
    obtain ⟨h3, h4⟩ := region6 hM h1 h6
    rw [List.range_succ, List.foldl_append]
    exact ⟨h3, fun r => (h4 r).trans (h2 r)⟩

end Threads
end Hyp
end Ryujin
