import Verif.Model.Distributed
import Verif.Proofs.StepLocal
import Mathlib.Data.Finset.Fold

/-!
# Every exchange makes the ranks agree with a global computation
-/

namespace Ryujin
namespace Hyp
namespace Mpi

noncomputable section

open Classical

variable {ι R P Q S F B : Type} {dim : ℕ}

/-- The copies of a state vector on the ranks are copies of one global state vector, as far as the ranks can see: on their
own and on their ghost degrees of freedom.  Constrained degrees of freedom do not count. -/
def Copies (get : P → ι → Q) (M : Mesh ι dim) (owner : ι → R) (x : R → StateVector ι P S) (X : StateVector ι P S) : Prop :=
  ∀ r i, M.active i → owner i = r ∨ ghost M owner r i → At get (x r) X i

/-- The same for lists of stage vectors. -/
def CopiesStages (get : P → ι → Q) (M : Mesh ι dim) (owner : ι → R) (s : R → List (ℝ × StateVector ι P S))
    (T : List (ℝ × StateVector ι P S)) : Prop :=
  ∀ r i, M.active i → owner i = r ∨ ghost M owner r i → StagesAt get (s r) T i

variable {M : Mesh ι dim} {owner : ι → R}

theorem visible {r : R} {i j : ι} (hi : owner i = r) (hj : j ∈ M.columns i) : owner j = r ∨ ghost M owner r j := by
  rcases List.mem_cons.1 hj with rfl | hj
  · exact Or.inl hi
  · by_cases h : owner j = r
    · exact Or.inl h
    · exact Or.inr ⟨h, i, hi, hj⟩

theorem exchange_own {α : Type} (v : R → ι → α) {r : R} {i : ι} (hi : owner i = r) : exchange M owner v r i = v r i := by
  rw [exchange, if_neg fun h => h.1 hi]

/-- After an exchange a rank sees the values of the owners. -/
theorem exchange_visible {α : Type} {v : R → ι → α} {g : ι → α} {j : ι} (hv : v (owner j) j = g j) {r : R}
    (hj : owner j = r ∨ ghost M owner r j) : exchange M owner v r j = g j := by
  by_cases h : owner j = r
  · rw [exchange_own v h, ← h, hv]
  · rcases hj with hj | hj
    · exact absurd hj h
    · rw [exchange, if_pos hj, hv]

theorem exchangeRows_own {α : Type} {v : R → ι → ι → α} {g : ι → ι → α} {i j : ι} (hv : v (owner i) i j = g i j) {r : R}
    (hi : owner i = r) : exchangeRows M owner v r i j = g i j := by
  rw [exchangeRows, if_neg fun h => h.1.1 hi, ← hi, hv]

/-- ... and of a matrix the transposed entries of its rows. -/
theorem exchangeRows_transposed (hM : M.WellFormed) {α : Type} {v : R → ι → ι → α} {g : ι → ι → α} {i j : ι}
    (hj : j ∈ M.nbrs i) (hv : v (owner j) j i = g j i) {r : R} (hi : owner i = r) : exchangeRows M owner v r j i = g j i := by
  by_cases h : owner j = r
  · exact exchangeRows_own hv h
  · rw [exchangeRows, if_pos ⟨⟨h, i, hi, hj⟩, hi, hM.symm i j hj⟩, hv]

theorem written_own {α : Type} {value stale : ι → α} {r : R} {i : ι} (hi : owner i = r) (ha : M.active i) :
    written M owner r value stale i = value i := by
  rw [written, if_pos ⟨hi, ha⟩]

variable {get : P → ι → Q} {D : Description ι P S F B dim} (hD : D.Local get) (hM : M.WellFormed)
  {x : R → StateVector ι P S} {X : StateVector ι P S} (hx : Copies get M owner x X)
  {st : R → List (ℝ × StateVector ι P S)} {T : List (ℝ × StateVector ι P S)} (hst : CopiesStages get M owner st T)

include hD hM hx

theorem tau_visible [Fintype ι] [Fintype R] [Nonempty R] (par : Params) (mem : R → Memory ι S B) (st' : ι → ι → ℝ) (tau_max : ℝ) :
    tauGlobal D M owner par mem x tau_max = tauMax D M par st' X tau_max := by
  have row : ∀ i, M.active i → tauRow D M par (mem (owner i)).dij (x (owner i)) i = tauRow D M par st' X i := fun i ha =>
    tauRow_at hD hM par fun j hj => hx _ _ (col_active hM ha hj) (visible rfl hj)
  refine eq_of_forall_le_iff fun c => ?_
  rw [tauGlobal, tauMax, Finset.le_inf'_iff, Finset.le_fold_min]
  constructor
  · intro h
    obtain ⟨r0⟩ := (inferInstance : Nonempty R)
    refine ⟨((Finset.le_fold_min _).1 (h r0 (Finset.mem_univ _))).1, fun i hi => ?_⟩
    have := ((Finset.le_fold_min _).1 (h (owner i) (Finset.mem_univ _))).2 i
      (Finset.mem_filter.2 ⟨Finset.mem_univ _, rfl, (Finset.mem_filter.1 hi).2⟩)
    rwa [row _ (Finset.mem_filter.1 hi).2] at this
  · rintro ⟨h0, h⟩ r -
    refine (Finset.le_fold_min _).2 ⟨h0, fun i hi => ?_⟩
    obtain ⟨-, hr, ha⟩ := Finset.mem_filter.1 hi
    subst hr
    rw [row _ ha]
    exact h i (Finset.mem_filter.2 ⟨Finset.mem_univ _, ha⟩)

theorem alpha_own {mem : R → Memory ι S B} {i : ι} (ha : M.active i) :
    written M owner (owner i) (alpha D M (x (owner i))) (mem (owner i)).alpha i = alpha D M X i := by
  rw [written_own rfl ha]
  exact alpha_at hD fun j hj => hx _ _ (col_active hM ha hj) (visible rfl hj)

include hst

/-- Step 4 of a rank reads, for its own rows, the data of a global step 4. -/
theorem near4_visible [Fintype ι] [AddCommGroup S] [Module ℝ S] (par : Params) (mem : R → Memory ι S B) (lo : Leftover ι S) (tau : ℝ) {i : ι}
    (ha : M.active i) :
    Near4 get M (stage4 D M owner par mem x st tau (owner i)) (Hyp.stage4 D M par lo X T tau) i where
  old := fun j hj => hx _ _ (col_active hM ha hj) (visible rfl hj)
  stages := fun j hj => hst _ _ (col_active hM ha hj) (visible rfl hj)
  tau := rfl
  d := by
    intro j hj
    simp only [stage4, Hyp.stage4, dDiag_at hD hM par (st' := lo.dij) fun j hj =>
        hx (owner i) j (col_active hM ha hj) (visible rfl hj),
      dOff_at hD hM (st' := lo.dij) (hx (owner i) i ha (Or.inl rfl)) (hx (owner i) j (col_active hM ha hj) (visible rfl hj))]
  alpha := by
    intro j hj
    have haj := col_active hM ha hj
    exact exchange_visible (v := fun r => written M owner r (alpha D M (x r)) (mem r).alpha) (g := alpha D M X)
      (alpha_own hD hM hx (mem := mem) haj) (visible rfl hj)

variable [AddCommGroup S] [Module ℝ S] [Fintype ι] (par : Params) (mem : R → Memory ι S B) (lo : Leftover ι S) (tau : ℝ)

omit hst in
theorem low_own (hst : CopiesStages get M owner st T) {i : ι} (ha : M.active i) :
    lowVec D M owner mem (stage4 D M owner par mem x st tau) (owner i) i =
      lowOrder D M (Hyp.stage4 D M par lo X T tau) i := by
  rw [lowVec, written_own rfl ha]
  exact lowOrder_at hD (near4_visible hD hM hx hst par mem lo tau ha).toLow4

theorem r_visible {j : ι} (ha : M.active j) {r : R} (hj : owner j = r ∨ ghost M owner r j) :
    rVec D M owner mem (stage4 D M owner par mem x st tau) r j = rhsH D M (Hyp.stage4 D M par lo X T tau) j := by
  refine exchange_visible (v := fun r => written M owner r (rhsH D M (stage4 D M owner par mem x st tau r)) (mem r).r)
    (g := rhsH D M (Hyp.stage4 D M par lo X T tau)) ?_ hj
  rw [written_own rfl ha]
  exact rhsH_at hD (near4_visible hD hM hx hst par mem lo tau ha)

theorem p_own {i j : ι} (hj : j ∈ M.nbrs i) :
    pMat D M (stage4 D M owner par mem x st tau) (rVec D M owner mem (stage4 D M owner par mem x st tau)) (owner i) i j =
      pIJ D M (Hyp.stage4 D M par lo X T tau) i j := by
  have ha := self_active hj
  have hn := near4_visible hD hM hx hst par mem lo tau ha
  rw [pMat, pIJ, r_visible hD hM hx hst par mem lo tau ha (Or.inl rfl),
    r_visible hD hM hx hst par mem lo tau (nbr_active hM hj) (visible rfl (mem_nbr hj)), pStep4_at hD hn (mem_nbr hj), hn.tau]

theorem bounds4_own {i : ι} (ha : M.active i) :
    boundsVec D M owner par mem (stage4 D M owner par mem x st tau) (owner i) i =
      boundsStep4 D M (Hyp.stage4 D M par lo X T tau) par.tiny i := by
  have e : written M owner (owner i) (boundsStep4 D M (stage4 D M owner par mem x st tau (owner i)) par.tiny)
      (mem (owner i)).bounds i = boundsStep4 D M (Hyp.stage4 D M par lo X T tau) par.tiny i := by
    rw [written_own rfl ha]
    exact boundsStep4_at hD _ (near4_visible hD hM hx hst par mem lo tau ha).toLow4
  simp only [boundsVec]
  split_ifs
  · exact (exchange_own _ rfl).trans e
  · exact e

/-- For continuous elements the bounds of the rows of a rank are those of a global computation. -/
theorem bounds5_own (hG : M.dG = false) {i : ι} (ha : M.active i) :
    boundsVec5 D M owner par mem (stage4 D M owner par mem x st tau) (owner i) i =
      finalBounds D M par lo (Hyp.stage4 D M par lo X T tau) i := by
  have := bounds4_own hD hM hx hst par mem lo tau ha
  simp only [boundsVec5, finalBounds, boundsStep5, hG, Bool.false_eq_true, if_false]
  exact this

section

/-! For discontinuous elements the bounds `b` are whatever the ranks computed for their own rows. -/

variable {b : ι → B}
  (hb : ∀ i, M.active i → boundsVec5 D M owner par mem (stage4 D M owner par mem x st tau) (owner i) i = b i)

include hb

theorem limit5_own {i j : ι} (hj : j ∈ M.nbrs i) :
    limit5 D M owner par mem (stage4 D M owner par mem x st tau) (owner i) i j =
      D.limit i j (b i) (lowOrder D M (Hyp.stage4 D M par lo X T tau) i) (pIJ D M (Hyp.stage4 D M par lo X T tau) i j) := by
  have ha := self_active hj
  rw [limit5, hb i ha, low_own hD hM hx par mem lo tau hst ha, p_own hD hM hx hst par mem lo tau hj]

omit hD hM hx hst hb [AddCommGroup S] [Module ℝ S] [Fintype ι] in
/-- The ranks' copies agree with a global state of the limiter loop. -/
def LoopCopies (M : Mesh ι dim) (owner : ι → R) (n k : ℕ) (s : R → LimiterLoop ι S) (g : LimiterLoop ι S) : Prop :=
  (∀ i, M.active i → (s (owner i)).U i = g.U i) ∧
  (∀ i, ∀ j ∈ M.nbrs i, (s (owner i)).lij i j = g.lij i j ∧ (s (owner i)).lij j i = g.lij j i) ∧
  (n = 2 → 0 < k → ∀ i, ∀ j ∈ M.nbrs i, (s (owner i)).lijNext i j = g.lijNext i j ∧
    (s (owner i)).lijNext j i = g.lijNext j i)

theorem pass_visible (n k : ℕ) {s : R → LimiterLoop ι S} {g : LimiterLoop ι S} (h : LoopCopies M owner n k s g) :
    LoopCopies M owner n (k + 1)
      (pass D M owner (boundsVec5 D M owner par mem (stage4 D M owner par mem x st tau))
        (pMat D M (stage4 D M owner par mem x st tau) (rVec D M owner mem (stage4 D M owner par mem x st tau))) n k s)
      (limiterPass D M b (pIJ D M (Hyp.stage4 D M par lo X T tau)) n k g) := by
  obtain ⟨hU, hl, hln⟩ := h
  have hp := fun i j hj => p_own hD hM hx hst par mem lo tau (i := i) (j := j) hj
  generalize boundsVec5 D M owner par mem (stage4 D M owner par mem x st tau) = bb at hb
  generalize pMat D M (stage4 D M owner par mem x st tau) (rVec D M owner mem (stage4 D M owner par mem x st tau)) = pp at hp
  generalize pIJ D M (Hyp.stage4 D M par lo X T tau) = p at hp
  have hcur : ∀ i, ∀ j ∈ M.nbrs i,
      (if n = 2 ∧ k + 1 = n then (s (owner i)).lijNext else (s (owner i)).lij) i j =
        (if n = 2 ∧ k + 1 = n then g.lijNext else g.lij) i j ∧
      (if n = 2 ∧ k + 1 = n then (s (owner i)).lijNext else (s (owner i)).lij) j i =
        (if n = 2 ∧ k + 1 = n then g.lijNext else g.lij) j i := by
    intro i j hj
    split_ifs with hc
    · exact hln hc.1 (by omega) i j hj
    · exact hl i j hj
  have hsym : ∀ i, ∀ j ∈ M.nbrs i,
      symmetrized (if n = 2 ∧ k + 1 = n then (s (owner i)).lijNext else (s (owner i)).lij) i j =
        symmetrized (if n = 2 ∧ k + 1 = n then g.lijNext else g.lij) i j := by
    intro i j hj
    rw [symmetrized, symmetrized, (hcur i j hj).1, (hcur i j hj).2]
  have hcurU : ∀ i, M.active i → (pass D M owner bb pp n k s (owner i)).U i = (limiterPass D M b p n k g).U i := by
    intro i ha
    simp only [pass, limiterPass, written_own (owner := owner) rfl ha, ha, if_true, hU i ha]
    congr 2
    refine List.map_congr_left fun j hj => ?_
    rw [hp i j hj, hsym i j hj]
  refine ⟨hcurU, fun i j hj => hcur i j hj, fun h2 _ => ?_⟩
  by_cases hlast : k + 1 = n
  · intro i j hj
    simp only [pass, limiterPass, hlast, if_true, and_true, h2]
    exact hl i j hj
  · have entry : ∀ i, ∀ j ∈ M.nbrs i,
        writtenRows M owner (owner i) (fun i j => (1 - symmetrized (if n = 2 ∧ k + 1 = n then (s (owner i)).lijNext
            else (s (owner i)).lij) i j) * (D.limit i j (bb (owner i) i) ((pass D M owner bb pp n k s (owner i)).U i)
              ((1 - symmetrized (if n = 2 ∧ k + 1 = n then (s (owner i)).lijNext else (s (owner i)).lij) i j) • pp (owner i) i j)).1)
          (if n = 2 ∧ k + 1 = n then (s (owner i)).lij else (s (owner i)).lijNext) i j =
        (limiterPass D M b p n k g).lijNext i j := by
      intro i j hj
      have ha := self_active hj
      have hU' := hcurU i ha
      rw [writtenRows, if_pos ⟨rfl, ha, hj⟩, hU', hsym i j hj, hp i j hj, hb i ha]
      simp only [limiterPass, hlast, if_false]
    intro i j hj
    have e1 := entry i j hj
    have e2 := entry j i (hM.symm i j hj)
    have sh : ∀ r, (pass D M owner bb pp n k s r).lijNext = exchangeRows M owner (fun r =>
        writtenRows M owner r (fun i j => (1 - symmetrized (if n = 2 ∧ k + 1 = n then (s r).lijNext
            else (s r).lij) i j) * (D.limit i j (bb r i) ((pass D M owner bb pp n k s r).U i)
              ((1 - symmetrized (if n = 2 ∧ k + 1 = n then (s r).lijNext else (s r).lij) i j) • pp r i j)).1)
          (if n = 2 ∧ k + 1 = n then (s r).lij else (s r).lijNext)) r := by
      intro r
      simp only [pass, hlast, if_false]
    rw [sh]
    refine ⟨exchangeRows_own (v := fun r => writtenRows M owner r _ _) ?_ rfl,
      exchangeRows_transposed hM (v := fun r => writtenRows M owner r _ _) hj ?_ rfl⟩
    · convert e1 using 0
      simp only [writtenRows, self_active hj, hj, and_self, if_true]
    · convert e2 using 0
      simp only [writtenRows, nbr_active hM hj, hM.symm i j hj, and_self, if_true]

theorem new_visible {i : ι} (ha : M.active i) :
    newVec D M owner par mem (stage4 D M owner par mem x st tau) (owner i) i =
      (limiterLoop D M b (pIJ D M (Hyp.stage4 D M par lo X T tau)) par.iterations
        ⟨newLow D M lo (Hyp.stage4 D M par lo X T tau), fun i j => (D.limit i j (b i)
          (lowOrder D M (Hyp.stage4 D M par lo X T tau) i) (pIJ D M (Hyp.stage4 D M par lo X T tau) i j)).1, lo.lijNext⟩).U i := by
  unfold newVec limiterLoop
  have key : ∀ k, LoopCopies M owner par.iterations k
      ((List.range k).foldl (fun s k => pass D M owner (boundsVec5 D M owner par mem (stage4 D M owner par mem x st tau))
        (pMat D M (stage4 D M owner par mem x st tau) (rVec D M owner mem (stage4 D M owner par mem x st tau))) par.iterations k s)
        (fun r => ⟨lowVec D M owner mem (stage4 D M owner par mem x st tau) r,
          lijMat D M owner par mem (stage4 D M owner par mem x st tau) r, (mem r).lijNext⟩))
      ((List.range k).foldl (fun s k => limiterPass D M b (pIJ D M (Hyp.stage4 D M par lo X T tau)) par.iterations k s)
        ⟨newLow D M lo (Hyp.stage4 D M par lo X T tau), fun i j => (D.limit i j (b i)
          (lowOrder D M (Hyp.stage4 D M par lo X T tau) i) (pIJ D M (Hyp.stage4 D M par lo X T tau) i j)).1, lo.lijNext⟩) := by
    intro k
    induction k with
    | zero =>
      refine ⟨fun i ha => ?_, fun i j hj => ?_, fun _ h0 => absurd h0 (lt_irrefl _)⟩
      · simp only [List.range_zero, List.foldl_nil, newLow, ha, if_true]
        exact low_own hD hM hx par mem lo tau hst ha
      · have entry : ∀ i, ∀ j ∈ M.nbrs i, writtenRows M owner (owner i) (fun i j =>
            (limit5 D M owner par mem (stage4 D M owner par mem x st tau) (owner i) i j).1) (mem (owner i)).lij i j =
            (D.limit i j (b i) (lowOrder D M (Hyp.stage4 D M par lo X T tau) i) (pIJ D M (Hyp.stage4 D M par lo X T tau) i j)).1 := by
          intro i j hj
          rw [writtenRows, if_pos ⟨rfl, self_active hj, hj⟩, limit5_own hD hM hx hst par mem lo tau hb hj]
        simp only [List.range_zero, List.foldl_nil]
        refine ⟨exchangeRows_own (v := fun r => writtenRows M owner r (fun i j =>
            (limit5 D M owner par mem (stage4 D M owner par mem x st tau) r i j).1) (mem r).lij)
            (g := fun i j => (D.limit i j (b i) (lowOrder D M (Hyp.stage4 D M par lo X T tau) i)
              (pIJ D M (Hyp.stage4 D M par lo X T tau) i j)).1) ?_ rfl,
          exchangeRows_transposed hM (v := fun r => writtenRows M owner r (fun i j =>
            (limit5 D M owner par mem (stage4 D M owner par mem x st tau) r i j).1) (mem r).lij)
            (g := fun i j => (D.limit i j (b i) (lowOrder D M (Hyp.stage4 D M par lo X T tau) i)
              (pIJ D M (Hyp.stage4 D M par lo X T tau) i j)).1) hj ?_ rfl⟩
        · convert entry i j hj using 0
          simp only [writtenRows, self_active hj, hj, and_self, if_true]
        · convert entry j i (hM.symm i j hj) using 0
          simp only [writtenRows, nbr_active hM hj, hM.symm i j hj, and_self, if_true]
    | succ k ih =>
      rw [List.range_succ, List.foldl_append, List.foldl_append]
      exact pass_visible hD hM hx hst par mem lo tau hb _ k ih
  exact (key _).1 i ha

end

end

end Mpi
end Hyp
end Ryujin
