import Verif.Model.HyperbolicStep
import Mathlib.Data.Finset.Fold

/-!
# `step` reads only unconstrained rows and no leftover values
-/

namespace Ryujin
namespace Hyp

noncomputable section

variable {ι P S F B : Type} {dim : ℕ}

/-- Two state vectors agree on all unconstrained degrees of freedom and on the precomputed values. -/
structure Same (M : Mesh ι dim) (x y : StateVector ι P S) : Prop where
  U : ∀ i, M.active i → x.U i = y.U i
  prec : x.prec = y.prec

/-- Two lists of stages agree. -/
def SameStages (M : Mesh ι dim) : List (ℝ × StateVector ι P S) → List (ℝ × StateVector ι P S) → Prop :=
  List.Forall₂ fun p q => p.1 = q.1 ∧ Same M p.2 q.2

theorem map_congr₂ {α β γ : Type} {R : α → β → Prop} {l : List α} {l' : List β} (h : List.Forall₂ R l l')
    {f : α → γ} {g : β → γ} (hfg : ∀ a b, R a b → f a = g b) : l.map f = l'.map g := by
  induction h with
  | nil => rfl
  | cons hab _ ih => rw [List.map_cons, List.map_cons, hfg _ _ hab, ih]

theorem nbr_active {M : Mesh ι dim} (hM : M.WellFormed) {i j : ι} (hj : j ∈ M.nbrs i) : M.active j := by
  intro h
  have := hM.symm i j hj
  rw [h] at this
  cases this

theorem self_active {M : Mesh ι dim} {i j : ι} (hj : j ∈ M.nbrs i) : M.active i := by
  intro h
  rw [h] at hj
  cases hj

theorem col_active {M : Mesh ι dim} (hM : M.WellFormed) {i j : ι} (hi : M.active i) (hj : j ∈ M.columns i) :
    M.active j := by
  rcases List.mem_cons.1 hj with rfl | h
  · exact hi
  · exact nbr_active hM h

variable (D : Description ι P S F B dim) {M : Mesh ι dim} (hM : M.WellFormed)

include hM

theorem dOff_congr {st st' : ι → ι → ℝ} {x y : StateVector ι P S} (h : Same M x y) {i j : ι} (hi : M.active i)
    (hj : M.active j) : dOff D M st x i j = dOff D M st' y i j := by
  have v : ∀ a b, M.active a → M.active b → viscosityEntry D M x a b = viscosityEntry D M y a b := by
    intro a b ha hb
    simp only [viscosityEntry, h.U a ha, h.U b hb, h.prec]
  unfold dOff
  by_cases hb : M.below i j
  · have ns : ¬ M.skip j i := fun hs => hM.asymm _ _ hb (hM.skip_below _ _ hs)
    simp only [hb, if_true, dBoundary, dStep2, ns, if_false, v i j hi hj, v j i hj hi]
  · have ns : ¬ M.skip i j := fun hs => hb (hM.skip_below _ _ hs)
    simp only [hb, if_false, dBoundary, dStep2, ns, v i j hi hj, v j i hj hi]

theorem dDiag_congr (par : Params) {st st' : ι → ι → ℝ} {x y : StateVector ι P S} (h : Same M x y) {i : ι}
    (hi : M.active i) : dDiag D M par st x i = dDiag D M par st' y i := by
  unfold dDiag
  rw [List.map_congr_left fun j hj => dOff_congr D hM (st' := st') h hi (nbr_active hM hj)]

theorem tauMax_congr [Fintype ι] (par : Params) {st st' : ι → ι → ℝ} {x y : StateVector ι P S} (h : Same M x y)
    (tau_max : ℝ) : tauMax D M par st x tau_max = tauMax D M par st' y tau_max := by
  classical
  unfold tauMax
  refine Finset.fold_congr fun i hi => ?_
  have := (Finset.mem_filter.1 hi).2
  simp only [tauRow, dDiag_congr D hM par (st' := st') h this]

theorem alpha_congr {x y : StateVector ι P S} (h : Same M x y) {i : ι} (hi : M.active i) :
    alpha D M x i = alpha D M y i := by
  unfold alpha
  rw [h.prec, h.U i hi, List.map_congr_left fun j hj => by rw [h.U j (col_active hM hi hj)]]

omit hM in
/-- Two settings of step 4 agree on everything that is read in unconstrained rows. -/
structure Same4 (M : Mesh ι dim) (X Y : Stage4 ι P S) : Prop where
  old : Same M X.old Y.old
  stages : SameStages M X.stages Y.stages
  tau : X.tau = Y.tau
  d : ∀ i j, M.active i → M.active j → X.d i j = Y.d i j
  alpha : ∀ i, M.active i → X.alpha i = Y.alpha i

theorem stage4_congr [AddCommGroup S] [Module ℝ S] [Fintype ι] (par : Params) {lo lo' : Leftover ι S} {x y : StateVector ι P S} (h : Same M x y)
    {st st' : List (ℝ × StateVector ι P S)} (hs : SameStages M st st') (tau : ℝ) :
    Same4 M (stage4 D M par lo x st tau) (stage4 D M par lo' y st' tau) where
  old := h
  stages := hs
  tau := rfl
  d := by
    intro i j hi hj
    simp only [stage4, dDiag_congr D hM par (st' := lo'.dij) h hi, dOff_congr D hM (st' := lo'.dij) h hi hj]
  alpha := fun i hi => alpha_congr D hM h hi

section

variable [AddCommGroup S] [Module ℝ S] {X Y : Stage4 ι P S} (h : Same4 M X Y)

include h

omit hM [AddCommGroup S] [Module ℝ S] in
theorem weight_congr : X.weight = Y.weight := by
  have : ∀ a : ℝ, ∀ l l', SameStages M l l' →
      l.foldl (fun a (s : ℝ × StateVector ι P S) => a + s.1) a =
        l'.foldl (fun a (s : ℝ × StateVector ι P S) => a + s.1) a := by
    intro a l l' hl
    induction hl generalizing a with
    | nil => rfl
    | cons hab _ ih => simp only [List.foldl_cons, hab.1, ih]
  rw [Stage4.weight, Stage4.weight, this _ _ _ h.stages]

omit hM [AddCommGroup S] [Module ℝ S] in
theorem fluxAt_congr {i : ι} (hi : M.active i) : fluxAt D X i = fluxAt D Y i := by
  rw [fluxAt, fluxAt, h.old.prec, h.old.U i hi]

omit hM [AddCommGroup S] [Module ℝ S] in
theorem sourceAt_congr {i : ι} (hi : M.active i) : sourceAt D X i = sourceAt D Y i := by
  rw [sourceAt, sourceAt, h.old.prec, h.old.U i hi, h.tau]

omit hM in
theorem sourceH_congr {i : ι} (hi : M.active i) : sourceH D X i = sourceH D Y i := by
  rw [sourceH, sourceH, weight_congr h, sourceAt_congr D h hi, map_congr₂ h.stages]
  intro a b hab
  rw [stageSource, stageSource, hab.1, hab.2.prec, hab.2.U i hi, h.tau]

omit hM [Module ℝ S] in
theorem jump_congr {i j : ι} (hi : M.active i) (hj : M.active j) : jump D X i j = jump D Y i j := by
  simp only [jump, h.old.U i hi, h.old.U j hj, fluxAt_congr D h hi, fluxAt_congr D h hj]

omit hM [AddCommGroup S] [Module ℝ S] in
theorem dH_congr {i j : ι} (hi : M.active i) (hj : M.active j) : dH M X i j = dH M Y i j := by
  simp only [dH, h.alpha i hi, h.alpha j hj, h.d i j hi hj]

theorem lowOrder_congr {i : ι} (hi : M.active i) : lowOrder D M X i = lowOrder D M Y i := by
  rw [lowOrder, lowOrder, h.tau, h.old.U i hi, sourceAt_congr D h hi]
  congr 2
  refine List.map_congr_left fun j hj => ?_
  have hj := col_active hM hi hj
  rw [fluxIJ, fluxIJ, fluxAt_congr D h hi, fluxAt_congr D h hj, h.d i j hi hj, jump_congr D h hi hj]

omit hM in
theorem highOrderPart_congr {i j : ι} (hi : M.active i) (hj : M.active j) :
    highOrderPart D M X i j = highOrderPart D M Y i j := by
  rw [highOrderPart, highOrderPart, weight_congr h, highOrderIJ, highOrderIJ, fluxAt_congr D h hi,
    fluxAt_congr D h hj, sourceAt_congr D h hj, map_congr₂ h.stages]
  intro a b hab
  rw [stageSource, stageSource, stageFluxIJ, stageFluxIJ, hab.1, hab.2.prec, hab.2.U i hi, hab.2.U j hj, h.tau]

theorem rhsH_congr {i : ι} (hi : M.active i) : rhsH D M X i = rhsH D M Y i := by
  rw [rhsH, rhsH, sourceH_congr D h hi]
  congr 2
  refine List.map_congr_left fun j hj => ?_
  have hj := col_active hM hi hj
  rw [dH_congr h hi hj, jump_congr D h hi hj, highOrderPart_congr D h hi hj]

omit hM in
theorem pStep4_congr {i j : ι} (hi : M.active i) (hj : M.active j) : pStep4 D M X i j = pStep4 D M Y i j := by
  rw [pStep4, pStep4, fluxIJ, fluxIJ, fluxAt_congr D h hi, fluxAt_congr D h hj, h.d i j hi hj, dH_congr h hi hj,
    jump_congr D h hi hj, sourceAt_congr D h hi, highOrderPart_congr D h hi hj]

theorem pIJ_congr {i j : ι} (hi : M.active i) (hj : M.active j) : pIJ D M X i j = pIJ D M Y i j := by
  rw [pIJ, pIJ, h.tau, pStep4_congr D h hi hj, rhsH_congr D hM h hi, rhsH_congr D hM h hj]

theorem affineShiftAt_congr {i : ι} (hi : M.active i) : affineShiftAt D M X i = affineShiftAt D M Y i := by
  rw [affineShiftAt, affineShiftAt, h.tau, sourceAt_congr D h hi]
  congr 3
  refine List.map_congr_left fun j hj => ?_
  have hj := col_active hM hi hj
  rw [fluxAt_congr D h hi, fluxAt_congr D h hj, h.d i j hi hj]

theorem boundsStep4_congr (tiny : ℝ) {i : ι} (hi : M.active i) :
    boundsStep4 D M X tiny i = boundsStep4 D M Y tiny i := by
  rw [boundsStep4, boundsStep4, h.old.prec, h.old.U i hi, fluxAt_congr D h hi]
  congr 1
  refine List.map_congr_left fun j hj => ?_
  have hj := col_active hM hi hj
  simp only [limiterEntry, h.old.U i hi, h.old.U j hj, fluxAt_congr D h hi, fluxAt_congr D h hj, h.d i j hi hj,
    affineShiftAt_congr D hM h hi]

omit [AddCommGroup S] [Module ℝ S] h in
theorem boundsStep5_congr (order : List ι) {b b' : ι → B} (hb : ∀ i, M.active i → b i = b' i) :
    ∀ i, M.active i → boundsStep5 D M order b i = boundsStep5 D M order b' i := by
  classical
  unfold boundsStep5
  split_ifs with hd
  · induction order generalizing b b' with
    | nil => exact hb
    | cons k ks ih =>
      simp only [List.foldl_cons]
      refine ih fun i hi => ?_
      by_cases hk : M.active k
      · have ck : combineRow D M b k = combineRow D M b' k := by
          unfold combineRow
          rw [hb k hk]
          have : ∀ l : List ι, (∀ j ∈ l, M.active j) → ∀ a, l.foldl (fun acc j => D.combine acc (b j)) a =
              l.foldl (fun acc j => D.combine acc (b' j)) a := by
            intro l
            induction l with
            | nil => intro _ _; rfl
            | cons j js ihl =>
              intro hl a
              simp only [List.foldl_cons, hb j (hl j List.mem_cons_self)]
              exact ihl (fun x hx => hl x (List.mem_cons_of_mem _ hx)) _
          exact this _ (fun j hj => nbr_active hM hj) _
        simp only [hk, if_true]
        by_cases hik : i = k
        · subst hik; simp [ck]
        · simp [Function.update_of_ne hik, hb i hi]
      · simp only [hk, if_false]
        exact hb i hi
  · exact hb

theorem finalBounds_congr (par : Params) {lo lo' : Leftover ι S} (ho : lo.order = lo'.order) {i : ι}
    (hi : M.active i) : finalBounds D M par lo X i = finalBounds D M par lo' Y i := by
  rw [finalBounds, finalBounds, ho]
  exact boundsStep5_congr D hM _ (fun i hi => boundsStep4_congr D hM h _ hi) i hi

theorem l1_congr (par : Params) {lo lo' : Leftover ι S} (ho : lo.order = lo'.order) {i j : ι}
    (hi : M.active i) (hj : M.active j) : l1 D M par lo X i j = l1 D M par lo' Y i j := by
  rw [l1, l1, finalBounds_congr D hM h par ho hi, lowOrder_congr D hM h hi, pIJ_congr D hM h hi hj]

end

/-- Agreement of two states of the limiter loop. -/
def SameLoop (M : Mesh ι dim) (n pass : ℕ) (s s' : LimiterLoop ι S) : Prop :=
  (∀ i, M.active i → s.U i = s'.U i) ∧
  (∀ i j, M.active i → M.active j → s.lij i j = s'.lij i j) ∧
  (n = 2 → 0 < pass → ∀ i j, M.active i → M.active j → s.lijNext i j = s'.lijNext i j)

omit hM in
theorem limiterPass_congr [AddCommGroup S] [Module ℝ S] (hM : M.WellFormed) {b b' : ι → B}
    (hb : ∀ i, M.active i → b i = b' i) {p p' : ι → ι → S}
    (hp : ∀ i j, M.active i → M.active j → p i j = p' i j) (n pass : ℕ)
    {s s' : LimiterLoop ι S} (h : SameLoop M n pass s s') :
    SameLoop M n (pass + 1) (limiterPass D M b p n pass s) (limiterPass D M b' p' n pass s') := by
  obtain ⟨hU, hl, hln⟩ := h
  have hcur : ∀ i j, M.active i → M.active j →
      (if n = 2 ∧ pass + 1 = n then s.lijNext else s.lij) i j =
        (if n = 2 ∧ pass + 1 = n then s'.lijNext else s'.lij) i j := by
    intro i j hi hj
    split_ifs with hc
    · exact hln hc.1 (by omega) i j hi hj
    · exact hl i j hi hj
  have hcurU : ∀ i, M.active i →
      (limiterPass D M b p n pass s).U i = (limiterPass D M b' p' n pass s').U i := by
    intro i hi
    simp only [limiterPass, hi, if_true, hU i hi]
    congr 2
    refine List.map_congr_left fun j hj => ?_
    have hj := nbr_active hM hj
    rw [hp i j hi hj, symmetrized, symmetrized, hcur i j hi hj, hcur j i hj hi]
  refine ⟨hcurU, fun i j hi hj => hcur i j hi hj, fun h2 _ i j hi hj => ?_⟩
  have hU' := hcurU i hi
  simp only [limiterPass] at hU' ⊢
  split_ifs with hlast hc
  · exact hl i j hi hj
  · exact absurd ⟨h2, hlast⟩ hc
  · rename_i hc; exact absurd hc.2 hlast
  · have e1 : symmetrized s.lij i j = symmetrized s'.lij i j := by
      rw [symmetrized, symmetrized, hl i j hi hj, hl j i hj hi]
    simp only [hlast, and_false, if_false, hi, if_true] at hU'
    rw [e1, hU', hb i hi, hp i j hi hj]

theorem newStates_congr [AddCommGroup S] [Module ℝ S] (par : Params) {lo lo' : Leftover ι S}
    (ho : lo.order = lo'.order) {X Y : Stage4 ι P S} (h : Same4 M X Y) {i : ι} (hi : M.active i) :
    newStates D M par lo X i = newStates D M par lo' Y i := by
  unfold newStates limiterLoop
  have key : ∀ k ≤ par.iterations, SameLoop M par.iterations k
      ((List.range k).foldl (fun st pass => limiterPass D M (finalBounds D M par lo X) (pIJ D M X) par.iterations
        pass st) ⟨newLow D M lo X, fun i j => (l1 D M par lo X i j).1, lo.lijNext⟩)
      ((List.range k).foldl (fun st pass => limiterPass D M (finalBounds D M par lo' Y) (pIJ D M Y) par.iterations
        pass st) ⟨newLow D M lo' Y, fun i j => (l1 D M par lo' Y i j).1, lo'.lijNext⟩) := by
    intro k
    induction k with
    | zero =>
      intro _
      refine ⟨fun i hi => ?_, fun i j hi hj => ?_, fun _ h0 => absurd h0 (lt_irrefl _)⟩
      · simp only [List.range_zero, List.foldl_nil, newLow, hi, if_true, lowOrder_congr D hM h hi]
      · simp only [List.range_zero, List.foldl_nil, l1_congr D hM h par ho hi hj]
    | succ k ih =>
      intro hk
      rw [List.range_succ, List.foldl_append, List.foldl_append]
      exact limiterPass_congr D hM (fun i hi => finalBounds_congr D hM h par ho hi)
        (fun i j hi hj => pIJ_congr D hM h hi hj) _ k (ih (Nat.le_of_succ_le hk))
  exact (key _ le_rfl).1 i hi

/-- Agreement of two outcomes of `step` on the unconstrained degrees of freedom. -/
def SameOutcome (M : Mesh ι dim) : Outcome ι S → Outcome ι S → Prop
  | .crashed, .crashed => True
  | .restart, .restart => True
  | .done U t, .done U' t' => (∀ i, M.active i → U i = U' i) ∧ t = t'
  | _, _ => False

open Classical in
theorem step_congr [AddCommGroup S] [Module ℝ S] [Fintype ι] (par : Params) (strategy : Strategy) (cnt : Counters)
    {lo lo' : Leftover ι S} (ho : lo.order = lo'.order) {x y : StateVector ι P S} (h : Same M x y)
    {st st' : List (ℝ × StateVector ι P S)} (hs : SameStages M st st') (tau tau_max : ℝ) :
    SameOutcome M (step D M par strategy cnt lo x st tau tau_max).1
      (step D M par strategy cnt lo' y st' tau tau_max).1 ∧
    (step D M par strategy cnt lo x st tau tau_max).2 = (step D M par strategy cnt lo' y st' tau tau_max).2 := by
  unfold step
  simp only [tauMax_congr D hM par (st' := lo'.dij) h]
  generalize (if tau = 0 then tauMax D M par lo'.dij y tau_max else tau) = τ
  have h4 := stage4_congr D hM par (lo := lo) (lo' := lo') h hs τ
  have hr : restartNeeded D M par lo (stage4 D M par lo x st τ) ↔
      restartNeeded D M par lo' (stage4 D M par lo' y st' τ) := by
    unfold restartNeeded
    refine and_congr_right fun _ => exists_congr fun i => exists_congr fun j => and_congr_right fun hj => ?_
    rw [l1_congr D hM h4 par ho (self_active hj) (nbr_active hM hj)]
  have hn : ∀ i, M.active i → newStates D M par lo (stage4 D M par lo x st τ) i =
      newStates D M par lo' (stage4 D M par lo' y st' τ) i := fun i hi => newStates_congr D hM par ho h4 hi
  simp only [hr]
  split_ifs
  · cases strategy
    · exact ⟨⟨hn, rfl⟩, rfl⟩
    · exact ⟨trivial, rfl⟩
  · exact ⟨⟨hn, rfl⟩, rfl⟩
  · exact ⟨trivial, rfl⟩

end

end Hyp
end Ryujin
