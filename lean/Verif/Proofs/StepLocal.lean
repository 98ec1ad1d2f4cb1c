import Verif.Model.HyperbolicStep
import Verif.Proofs.StepCongr

/-!
# Which values each quantity of a time step reads

Local versions of the lemmas of `StepCongr`: a quantity of row `i` is the same in two settings that agree on the
columns of row `i` (or of row `i` and its neighbours).
-/

namespace Ryujin
namespace Hyp

noncomputable section

variable {ι P Q S F B : Type} {dim : ℕ}

/-- The operations of a `Description` read the precomputed values of the degrees of freedom they are given, and of no
other; `get` returns the precomputed values of one degree of freedom. -/
structure Description.Local (get : P → ι → Q) (D : Description ι P S F B dim) : Prop where
  riemann : ∀ p p' i j, get p i = get p' i → get p j = get p' j → D.riemann p i j = D.riemann p' i j
  indicator : ∀ p p' i U l hd, get p i = get p' i → (∀ e ∈ l, get p (e : ι × S × Vec dim).1 = get p' e.1) →
    D.indicator p i U l hd = D.indicator p' i U l hd
  flux : ∀ p p' i, get p i = get p' i → D.flux p i = D.flux p' i
  source : ∀ p p' i, get p i = get p' i → D.source p i = D.source p' i
  limiterBounds : ∀ p p' i U f l hd, get p i = get p' i →
    (∀ e ∈ l, get p (e : LimiterEntry ι S F dim).j = get p' e.j) →
    D.limiterBounds p i U f l hd = D.limiterBounds p' i U f l hd

/-- Two state vectors agree at degree of freedom `i`. -/
structure At (get : P → ι → Q) (x y : StateVector ι P S) (i : ι) : Prop where
  U : x.U i = y.U i
  prec : get x.prec i = get y.prec i

/-- Two lists of stages agree at `i`. -/
def StagesAt (get : P → ι → Q) (s t : List (ℝ × StateVector ι P S)) (i : ι) : Prop :=
  List.Forall₂ (fun p q => p.1 = q.1 ∧ At get p.2 q.2 i) s t

variable {get : P → ι → Q} {D : Description ι P S F B dim} (hD : D.Local get) {M : Mesh ι dim} (hM : M.WellFormed)

theorem mem_self (M : Mesh ι dim) (i : ι) : i ∈ M.columns i := List.mem_cons_self

theorem mem_nbr {M : Mesh ι dim} {i j : ι} (h : j ∈ M.nbrs i) : j ∈ M.columns i := List.mem_cons_of_mem _ h

include hD

theorem viscosityEntry_at {x y : StateVector ι P S} {i j : ι} (hi : At get x y i) (hj : At get x y j) :
    viscosityEntry D M x i j = viscosityEntry D M y i j := by
  simp only [viscosityEntry, hi.U, hj.U, hD.riemann _ _ i j hi.prec hj.prec]

include hM in
theorem dOff_at {st st' : ι → ι → ℝ} {x y : StateVector ι P S} {i j : ι} (hi : At get x y i) (hj : At get x y j) :
    dOff D M st x i j = dOff D M st' y i j := by
  have v := viscosityEntry_at hD (M := M) hi hj
  have v' := viscosityEntry_at hD (M := M) hj hi
  unfold dOff
  by_cases hb : M.below i j
  · have ns : ¬ M.skip j i := fun hs => hM.asymm _ _ hb (hM.skip_below _ _ hs)
    simp only [hb, if_true, dBoundary, dStep2, ns, if_false, v, v']
  · have ns : ¬ M.skip i j := fun hs => hb (hM.skip_below _ _ hs)
    simp only [hb, if_false, dBoundary, dStep2, ns, v, v']

include hM in
theorem dDiag_at (par : Params) {st st' : ι → ι → ℝ} {x y : StateVector ι P S} {i : ι}
    (h : ∀ j ∈ M.columns i, At get x y j) : dDiag D M par st x i = dDiag D M par st' y i := by
  unfold dDiag
  rw [List.map_congr_left fun j hj => dOff_at hD hM (st' := st') (h i (mem_self M i)) (h j (mem_nbr hj))]

include hM in
theorem tauRow_at (par : Params) {st st' : ι → ι → ℝ} {x y : StateVector ι P S} {i : ι}
    (h : ∀ j ∈ M.columns i, At get x y j) : tauRow D M par st x i = tauRow D M par st' y i := by
  unfold tauRow
  rw [dDiag_at hD hM par (st' := st') h]

theorem alpha_at {x y : StateVector ι P S} {i : ι} (h : ∀ j ∈ M.columns i, At get x y j) :
    alpha D M x i = alpha D M y i := by
  unfold alpha
  rw [(h i (mem_self M i)).U, List.map_congr_left fun j hj => by rw [(h j hj).U]]
  refine hD.indicator _ _ _ _ _ _ (h i (mem_self M i)).prec ?_
  intro e he
  obtain ⟨j, hj, rfl⟩ := List.mem_map.1 he
  exact (h j hj).prec

omit hD

/-- Two settings of step 4 agree on everything read by row `i`, except for the indicator. -/
structure Low4 (get : P → ι → Q) (M : Mesh ι dim) (X Y : Stage4 ι P S) (i : ι) : Prop where
  old : ∀ j ∈ M.columns i, At get X.old Y.old j
  stages : ∀ j ∈ M.columns i, StagesAt get X.stages Y.stages j
  tau : X.tau = Y.tau
  d : ∀ j ∈ M.columns i, X.d i j = Y.d i j

/-- ... including the indicator. -/
structure Near4 (get : P → ι → Q) (M : Mesh ι dim) (X Y : Stage4 ι P S) (i : ι) : Prop
    extends Low4 get M X Y i where
  alpha : ∀ j ∈ M.columns i, X.alpha j = Y.alpha j

section

variable [AddCommGroup S] [Module ℝ S] {X Y : Stage4 ι P S} {i : ι}

omit [AddCommGroup S] [Module ℝ S] in
theorem weight_at (h : StagesAt get X.stages Y.stages i) : X.weight = Y.weight := by
  have : ∀ a : ℝ, ∀ l l', StagesAt get l l' i →
      l.foldl (fun a (s : ℝ × StateVector ι P S) => a + s.1) a =
        l'.foldl (fun a (s : ℝ × StateVector ι P S) => a + s.1) a := by
    intro a l l' hl
    unfold StagesAt at hl
    induction hl generalizing a with
    | nil => rfl
    | cons hab _ ih => simp only [List.foldl_cons, hab.1, ih]
  rw [Stage4.weight, Stage4.weight, this _ _ _ h]

include hD

omit [AddCommGroup S] [Module ℝ S] in
theorem fluxAt_at {j : ι} (h : At get X.old Y.old j) : fluxAt D X j = fluxAt D Y j := by
  rw [fluxAt, fluxAt, hD.flux _ _ j h.prec, h.U]

omit [AddCommGroup S] [Module ℝ S] in
theorem sourceAt_at {j : ι} (ht : X.tau = Y.tau) (h : At get X.old Y.old j) : sourceAt D X j = sourceAt D Y j := by
  rw [sourceAt, sourceAt, hD.source _ _ j h.prec, h.U, ht]

theorem sourceH_at {j : ι} (ht : X.tau = Y.tau) (h : At get X.old Y.old j) (hs : StagesAt get X.stages Y.stages j) :
    sourceH D X j = sourceH D Y j := by
  rw [sourceH, sourceH, weight_at hs, sourceAt_at hD ht h, map_congr₂ hs]
  intro a b hab
  rw [stageSource, stageSource, hab.1, hD.source _ _ j hab.2.prec, hab.2.U, ht]

omit [Module ℝ S] in
theorem jump_at {j : ι} (hi : At get X.old Y.old i) (hj : At get X.old Y.old j) : jump D X i j = jump D Y i j := by
  simp only [jump, hi.U, hj.U, fluxAt_at hD hi, fluxAt_at hD hj]

omit hD [AddCommGroup S] [Module ℝ S] in
theorem dH_at (h : Near4 get M X Y i) {j : ι} (hj : j ∈ M.columns i) : dH M X i j = dH M Y i j := by
  simp only [dH, h.alpha i (mem_self M i), h.alpha j hj, h.d j hj]

theorem lowOrder_at (h : Low4 get M X Y i) : lowOrder D M X i = lowOrder D M Y i := by
  have hi := h.old i (mem_self M i)
  rw [lowOrder, lowOrder, h.tau, hi.U, sourceAt_at hD h.tau hi]
  congr 2
  refine List.map_congr_left fun j hj => ?_
  rw [fluxIJ, fluxIJ, fluxAt_at hD hi, fluxAt_at hD (h.old j hj), h.d j hj, jump_at hD hi (h.old j hj)]

theorem highOrderPart_at (h : Low4 get M X Y i) {j : ι} (hj : j ∈ M.columns i) :
    highOrderPart D M X i j = highOrderPart D M Y i j := by
  have hi := h.old i (mem_self M i)
  have hs := h.stages i (mem_self M i)
  have hsj := h.stages j hj
  rw [highOrderPart, highOrderPart, weight_at hs, highOrderIJ, highOrderIJ, fluxAt_at hD hi,
    fluxAt_at hD (h.old j hj), sourceAt_at hD h.tau (h.old j hj)]
  congr 2
  have both : List.Forall₂ (fun p q => (p.1 = q.1 ∧ At get p.2 q.2 i) ∧ At get p.2 q.2 j) X.stages Y.stages := by
    unfold StagesAt at hs hsj
    generalize X.stages = a at hs hsj
    generalize Y.stages = b at hs hsj
    induction hs with
    | nil => exact .nil
    | cons hab _ ih =>
      cases hsj with
      | cons h1 h2 => exact .cons ⟨hab, h1.2⟩ (ih h2)
  refine map_congr₂ both ?_
  rintro a b ⟨⟨h1, h2⟩, h3⟩
  rw [stageSource, stageSource, stageFluxIJ, stageFluxIJ, h1, hD.flux _ _ i h2.prec, hD.flux _ _ j h3.prec,
    hD.source _ _ j h3.prec, h2.U, h3.U, h.tau]

theorem rhsH_at (h : Near4 get M X Y i) : rhsH D M X i = rhsH D M Y i := by
  have hi := h.old i (mem_self M i)
  rw [rhsH, rhsH, sourceH_at hD h.tau hi (h.stages i (mem_self M i))]
  congr 2
  refine List.map_congr_left fun j hj => ?_
  rw [dH_at h hj, jump_at hD hi (h.old j hj), highOrderPart_at hD h.toLow4 hj]

theorem pStep4_at (h : Near4 get M X Y i) {j : ι} (hj : j ∈ M.columns i) :
    pStep4 D M X i j = pStep4 D M Y i j := by
  have hi := h.old i (mem_self M i)
  rw [pStep4, pStep4, fluxIJ, fluxIJ, fluxAt_at hD hi, fluxAt_at hD (h.old j hj), h.d j hj, dH_at h hj,
    jump_at hD hi (h.old j hj), sourceAt_at hD h.tau hi, highOrderPart_at hD h.toLow4 hj]

theorem pIJ_at (h : Near4 get M X Y i) {j : ι} (hj : j ∈ M.nbrs i) (h' : Near4 get M X Y j) :
    pIJ D M X i j = pIJ D M Y i j := by
  rw [pIJ, pIJ, h.tau, pStep4_at hD h (mem_nbr hj), rhsH_at hD h, rhsH_at hD h']

theorem affineShiftAt_at (h : Low4 get M X Y i) : affineShiftAt D M X i = affineShiftAt D M Y i := by
  have hi := h.old i (mem_self M i)
  rw [affineShiftAt, affineShiftAt, h.tau, sourceAt_at hD h.tau hi]
  congr 3
  refine List.map_congr_left fun j hj => ?_
  rw [fluxAt_at hD hi, fluxAt_at hD (h.old j hj), h.d j hj]

theorem boundsStep4_at (tiny : ℝ) (h : Low4 get M X Y i) :
    boundsStep4 D M X tiny i = boundsStep4 D M Y tiny i := by
  have hi := h.old i (mem_self M i)
  rw [boundsStep4, boundsStep4, hi.U, fluxAt_at hD hi]
  have e : (M.columns i).map (limiterEntry D M X tiny i) = (M.columns i).map (limiterEntry D M Y tiny i) := by
    refine List.map_congr_left fun j hj => ?_
    simp only [limiterEntry, hi.U, (h.old j hj).U, fluxAt_at hD hi, fluxAt_at hD (h.old j hj), h.d j hj,
      affineShiftAt_at hD h]
  rw [e]
  refine hD.limiterBounds _ _ _ _ _ _ _ hi.prec ?_
  intro en hen
  obtain ⟨j, hj, rfl⟩ := List.mem_map.1 hen
  exact (h.old j hj).prec

end

/-! ### Descriptions without precomputed values -/

omit hD in
/-- A description whose precomputed values carry no information is local. -/
theorem local_of_unit (D : Description ι Unit S F B dim) : D.Local (fun _ _ => ()) where
  riemann := fun _ _ _ _ _ _ => rfl
  indicator := fun _ _ _ _ _ _ _ _ => rfl
  flux := fun _ _ _ _ => rfl
  source := fun _ _ _ _ => rfl
  limiterBounds := fun _ _ _ _ _ _ _ _ _ => rfl

end

end Hyp
end Ryujin
