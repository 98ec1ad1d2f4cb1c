import Verif.Proofs.AeosFrames
import Verif.Props.Frames
import Verif.Props.FrameRuns
import Verif.Props.AeosRiemann

/-!
# C104, C105 for the Euler equations with arbitrary equation of state
-/

namespace Ryujin

open Hyp

noncomputable section

variable {ι κ : Type} {dim : ℕ}

/-! ### The precomputed values -/

/-- What `prepare_state_vector` stores: pressure, smallest surrogate gamma of the stencil, and the two surrogate entropies for that gamma,
at every unconstrained degree of freedom. -/
structure Spec.Precomputed (eos : Eos.Interface) (P : Aeos.Params) (M : Mesh ι dim) (U : ι → Euler.State dim) (prec : ι → Eos.Prec) :
    Prop where
  p : ∀ i, M.nbrs i ≠ [] → (prec i).p = Eos.statePressure eos (U i)
  gamma_min : ∀ i, M.nbrs i ≠ [] →
    IsLeast {g | ∃ j ∈ i :: M.nbrs i, g = Aeos.surrogateGamma P (U j) (Eos.statePressure eos (U j))} (prec i).gamma_min
  s : ∀ i, M.nbrs i ≠ [] → (prec i).s = Aeos.surrogateSpecificEntropy P (U i) (prec i).gamma_min
  eta : ∀ i, M.nbrs i ≠ [] → (prec i).eta = Aeos.surrogateHartenEntropy P (U i) (prec i).gamma_min

theorem Aeos.foldl_min_least {T : Type} (f : T → ℝ) (l : List T) (g : ℝ) :
    IsLeast {x | x = g ∨ ∃ j ∈ l, x = f j} (l.foldl (fun g j => min g (f j)) g) := by
  induction l generalizing g with
  | nil => simp [IsLeast, lowerBounds]
  | cons a l ih =>
    rw [List.foldl_cons]
    obtain ⟨h1, h2⟩ := ih (min g (f a))
    refine ⟨?_, ?_⟩
    · rcases h1 with h | ⟨j, hj, h⟩
      · rcases min_choice g (f a) with hm | hm
        · exact Or.inl (h.trans hm)
        · exact Or.inr ⟨a, List.mem_cons_self, h.trans hm⟩
      · exact Or.inr ⟨j, List.mem_cons_of_mem _ hj, h⟩
    · rintro x (rfl | ⟨j, hj, rfl⟩)
      · exact (h2 (Or.inl rfl)).trans (min_le_left _ _)
      · rcases List.mem_cons.1 hj with rfl | hj
        · exact (h2 (Or.inl rfl)).trans (min_le_right _ _)
        · exact h2 (Or.inr ⟨j, hj, rfl⟩)

open Classical in
/-- The two cycles of the code store these values. -/
theorem Aeos.precompute_precomputed (eos : Eos.Interface) (P : Aeos.Params) {M : Mesh ι dim} (hM : M.WellFormed)
    (U : ι → Euler.State dim) (q : ι → Eos.Prec) :
    Spec.Precomputed eos P M U (Mpi.precompute M (Aeos.preCycles eos P M) 2 U q) := by
  have e : Mpi.precompute M (Aeos.preCycles eos P M) 2 U q = fun i => if M.active i then
      Aeos.preCycles eos P M 1 U (fun i => if M.active i then Aeos.preCycles eos P M 0 U q i else q i) i
      else (if M.active i then Aeos.preCycles eos P M 0 U q i else q i) := by
    unfold Mpi.precompute
    rfl
  rw [e]
  have h0 : ∀ i, M.active i → (if M.active i then Aeos.preCycles eos P M 0 U q i else q i) =
      Eos.precOf P (U i) (Eos.statePressure eos (U i)) := by
    intro i hi
    rw [if_pos hi]
    simp [Aeos.preCycles]
  have h1 : ∀ i, M.active i → Aeos.preCycles eos P M 1 U (fun i => if M.active i then Aeos.preCycles eos P M 0 U q i else q i) i =
      let g := (M.nbrs i).foldl (fun g j => min g (Aeos.surrogateGamma P (U j) (Eos.statePressure eos (U j))))
        (Aeos.surrogateGamma P (U i) (Eos.statePressure eos (U i)))
      ⟨Eos.statePressure eos (U i), g, Aeos.surrogateSpecificEntropy P (U i) g, Aeos.surrogateHartenEntropy P (U i) g⟩ := by
    intro i hi
    have hf : ∀ (l : List ι) (g : ℝ), (∀ j ∈ l, M.active j) →
        l.foldl (fun g j => min g (Aeos.surrogateGamma P (U j)
          (if M.active j then Aeos.preCycles eos P M 0 U q j else q j).p)) g =
        l.foldl (fun g j => min g (Aeos.surrogateGamma P (U j) (Eos.statePressure eos (U j)))) g := by
      intro l
      induction l with
      | nil => intro _ _; rfl
      | cons j l ih =>
        intro g hl
        rw [List.foldl_cons, List.foldl_cons, h0 j (hl j List.mem_cons_self)]
        exact ih _ fun k hk => hl k (List.mem_cons_of_mem _ hk)
    unfold Aeos.preCycles
    rw [if_neg one_ne_zero]
    dsimp only
    have := hf (M.nbrs i) (if M.active i then Aeos.preCycles eos P M 0 U q i else q i).gamma_min fun j hj => nbr_active hM hj
    unfold Aeos.preCycles at this h0
    rw [this, h0 i hi]
    rfl
  refine ⟨?_, ?_, ?_, ?_⟩ <;> intro i hi <;> rw [if_pos (show M.active i from hi), h1 i hi]
  dsimp only
  have := Aeos.foldl_min_least (fun j => Aeos.surrogateGamma P (U j) (Eos.statePressure eos (U j))) (M.nbrs i)
    (Aeos.surrogateGamma P (U i) (Eos.statePressure eos (U i)))
  convert this using 1
  ext x
  simp

theorem Aeos.statePressure_rotate (eos : Eos.Interface) {A : Matrix (Fin dim) (Fin dim) ℝ} (hA : A * A.transpose = 1)
    (U : Euler.State dim) : Eos.statePressure eos (Euler.rotate A U) = Eos.statePressure eos U := by
  unfold Eos.statePressure
  rw [Euler.internalEnergy_rotate _ hA, Euler.density_rotate]

/-- The precomputed values are the same in every frame. -/
theorem Aeos.precomputed_frame (eos : Eos.Interface) (P : Aeos.Params) (e : ι ≃ κ) {A : Matrix (Fin dim) (Fin dim) ℝ}
    (hA : A * A.transpose = 1) {M : Mesh ι dim} {M' : Mesh κ dim} (hM : M.WellFormed) (hMM : Spec.SameMesh e A M M')
    {U : ι → Euler.State dim} {U' : κ → Euler.State dim} (hU : Spec.SameState e (Spec.moveGas A) M U U')
    {q : ι → Eos.Prec} {q' : κ → Eos.Prec} (h : Spec.Precomputed eos P M U q) (h' : Spec.Precomputed eos P M' U' q') (i : ι)
    (hi : M.active i) : q' (e i) = q i := by
  have act : ∀ {i}, M.nbrs i ≠ [] → M'.nbrs (e i) ≠ [] := by
    intro i hi h0
    have := hMM.stencil i
    rw [h0] at this
    exact hi (List.map_eq_nil_iff.1 (List.nil_perm.1 this))
  have hu : ∀ {i}, M.nbrs i ≠ [] → U' (e i) = Euler.rotate A (U i) := fun hi => hU _ hi
  have hp : ∀ {i}, M.nbrs i ≠ [] → Eos.statePressure eos (U' (e i)) = Eos.statePressure eos (U i) := by
    intro i hi
    rw [hu hi, Aeos.statePressure_rotate eos hA]
  have hg : (q' (e i)).gamma_min = (q i).gamma_min := by
    refine (h'.gamma_min _ (act hi)).unique ?_
    have hh := h.gamma_min i hi
    suffices hs : {g | ∃ j ∈ e i :: M'.nbrs (e i), g = Aeos.surrogateGamma P (U' j) (Eos.statePressure eos (U' j))} =
        {g | ∃ j ∈ i :: M.nbrs i, g = Aeos.surrogateGamma P (U j) (Eos.statePressure eos (U j))} by
      rw [hs]
      exact hh
    have key : ∀ j, j ∈ i :: M.nbrs i → Aeos.surrogateGamma P (U' (e j)) (Eos.statePressure eos (U' (e j))) =
        Aeos.surrogateGamma P (U j) (Eos.statePressure eos (U j)) := by
      intro j hj
      have hj' : M.nbrs j ≠ [] := col_active hM hi hj
      rw [hp hj', hu hj', Aeos.surrogateGamma_rotate _ hA]
    ext g
    constructor
    · rintro ⟨k, hk, rfl⟩
      obtain ⟨j, rfl⟩ := e.surjective k
      have hj : j ∈ i :: M.nbrs i := by
        rcases List.mem_cons.1 hk with h | h
        · exact List.mem_cons.2 (Or.inl (e.injective h))
        · rw [(hMM.stencil i).mem_iff, List.mem_map_of_injective e.injective] at h
          exact List.mem_cons_of_mem _ h
      exact ⟨j, hj, key j hj⟩
    · rintro ⟨j, hj, rfl⟩
      refine ⟨e j, ?_, (key j hj).symm⟩
      rcases List.mem_cons.1 hj with rfl | h
      · exact List.mem_cons_self
      · refine List.mem_cons_of_mem _ ?_
        rw [(hMM.stencil i).mem_iff, List.mem_map_of_injective e.injective]
        exact h
  have e1 : (q' (e i)).p = (q i).p := by rw [h'.p _ (act hi), h.p i hi, hp hi]
  have e2 : (q' (e i)).s = (q i).s := by
    rw [h'.s _ (act hi), h.s i hi, hg, hu hi, Aeos.surrogateSpecificEntropy_rotate _ hA]
  have e3 : (q' (e i)).eta = (q i).eta := by
    rw [h'.eta _ (act hi), h.eta i hi, hg, hu hi, Aeos.surrogateHartenEntropy_rotate _ hA]
  cases h1 : q' (e i)
  cases h2 : q i
  rw [h1, h2] at hg e1 e2 e3
  simp only at hg e1 e2 e3
  subst hg e1 e2 e3
  rfl

/-! ### The equations -/

/-- The frame of the equations. -/
def Aeos.frame (e : ι ≃ κ) (A : Matrix (Fin dim) (Fin dim) ℝ) :
    Frame ι κ (Euler.State dim) (Fin (dim + 2) → Vec dim) Aeos.Bounds dim :=
  ⟨e, A.mulVecLin, Euler.rotate A, moveFlux A (Euler.rotate A), id⟩

/-- Corresponding precomputed values. -/
def Aeos.SamePrec (e : ι ≃ κ) (M : Mesh ι dim) (q : ι → Eos.Prec) (q' : κ → Eos.Prec) : Prop :=
  ∀ i, M.active i → q' (e i) = q i

theorem Aeos.mapsDescription (M : Mesh ι dim) (e : ι ≃ κ) {A : Matrix (Fin dim) (Fin dim) ℝ} (hS : Spec.IsAxisSymmetry A)
    (P : Aeos.Params) (lp : LimiterParams) (strict : Bool) (big evc_factor : ℝ) :
    (Aeos.frame e A).MapsDescription (Aeos.SamePrec e M) M (Aeos.oneLane (ι := ι) (dim := dim) P lp strict big evc_factor)
      (Aeos.oneLane (ι := κ) P lp strict big evc_factor) := by
  have hA := Euler.axis_orthogonal hS
  refine { riemann := ?_, indicator := ?_, flux := ?_, fluxDiv := ?_, highOrder := ?_, source := ?_, stars := ?_, affineShift := ?_, limiterBounds := ?_, combine := ?_, combine_comm := ?_, limit := ?_ }
  · intro q q' hq i j hi hj U V n
    show Aeos.riemann P strict (Euler.rotate A U) (q' (e i)).p (Euler.rotate A V) (q' (e j)).p (A.mulVec n) =
      Aeos.riemann P strict U (q i).p V (q j).p n
    rw [hq i hi, hq j hj, Aeos.riemann_rotate _ _ hA]
  · intro q q' hq i hi U row row' h hrow
    show Aeos.IndicatorState.alpha (List.foldl _ (Aeos.IndicatorState.reset P (q' (e i)).gamma_min (q' (e i)).eta (Euler.rotate A U))
      (row'.map _)) _ _ = _
    rw [hq i hi]
    refine Aeos.indicator_rotate hS P evc_factor _ _ U _ _ h ?_
    refine (hrow.map _).trans (List.Perm.of_eq ?_)
    rw [List.map_map, List.map_map]
    rfl
  · intro q q' hq i hi U
    show Aeos.f (Euler.rotate A U) (q' (e i)).p = moveFlux A (Euler.rotate A) (Aeos.f U (q i).p)
    rw [hq i hi, Aeos.f_rotate _ hA]
  · intro f g c
    exact fluxDivergence_move hA _ f g c
  · intro f g c
    exact fluxDivergence_move hA _ f g c
  · intro _ _ _ i _ U tau
    exact (map_zero (Euler.rotate A)).symm
  · intro U f V g
    rfl
  · intro f g c d
    exact (map_zero (Euler.rotate A)).symm
  · intro q q' hq i hi U f row row' h hr hrow
    show Aeos.LimiterState.relaxedBounds dim P lp (row'.foldl _ (Aeos.LimiterState.reset big (q' (e i)).gamma_min)) h =
      Aeos.LimiterState.relaxedBounds dim P lp (row.foldl _ (Aeos.LimiterState.reset big (q i).gamma_min)) h
    rw [hq i hi]
    congr 1
    have hc : RightCommutative (fun (st : Aeos.LimiterState) (x : LimiterEntry κ (Euler.State dim) (Fin (dim + 2) → Vec dim) dim) =>
        st.accumulate P strict (Euler.rotate A U) (moveFlux A (Euler.rotate A) f) x.U_j (q' x.j).s x.flux_j x.scaled_c x.affine_shift) :=
      ⟨fun st a b => Aeos.accumulate_comm P strict _ _ st _ _ _ _ _ _ _ _ _ _⟩
    refine (List.Perm.foldl_eq (rcomm := hc) hrow _).trans ?_
    rw [List.foldl_map]
    generalize Aeos.LimiterState.reset big (q i).gamma_min = st
    clear hrow
    induction row generalizing st with
    | nil => rfl
    | cons x xs ih =>
      rw [List.foldl_cons, List.foldl_cons]
      have : st.accumulate P strict (Euler.rotate A U) (moveFlux A (Euler.rotate A) f) ((Aeos.frame e A).entry x).U_j
          (q' ((Aeos.frame e A).entry x).j).s ((Aeos.frame e A).entry x).flux_j ((Aeos.frame e A).entry x).scaled_c
          ((Aeos.frame e A).entry x).affine_shift =
          st.accumulate P strict U f x.U_j (q x.j).s x.flux_j x.scaled_c x.affine_shift := by
        show st.accumulate P strict (Euler.rotate A U) (moveFlux A (Euler.rotate A) f) (Euler.rotate A x.U_j)
          (q' (e x.j)).s (moveFlux A (Euler.rotate A) x.flux_j) (A.mulVec x.scaled_c) (Euler.rotate A x.affine_shift) = _
        rw [hq _ (hr x List.mem_cons_self), Aeos.accumulate_rotate _ _ hA]
      rw [this]
      exact ih (fun y hy => hr y (List.mem_cons_of_mem _ hy)) _
  · intro a b
    rfl
  · exact Aeos.combineBounds_comm
  · intro i j b U V
    have h := Aeos.limit_rotate hA P lp (fun _ : Fin 1 => b) (fun _ => U) (fun _ => V) (fun _ => 0) (fun _ => 1)
    exact congrArg (fun r : (Fin 1 → ℝ) × Prop => (r.1 0, r.2)) h

/-- Vectors for which the wave speed does not depend on the order of the two states: gases such that neighbouring states have different
pressures, or gammas of at most `5/3`, or bounds are strict and `p_∞ = 0`. -/
structure Spec.Exchangeable (eos : Eos.Interface) (P : Aeos.Params) (strict : Bool) (M : Mesh ι dim) (U : ι → Euler.State dim) : Prop where
  gas : ∀ i, M.nbrs i ≠ [] → Aeos.GasState P (U i) (Eos.statePressure eos (U i))
  pair : ∀ i, ∀ j ∈ M.nbrs i, Eos.statePressure eos (U i) ≠ Eos.statePressure eos (U j) ∨
    (Aeos.surrogateGamma P (U i) (Eos.statePressure eos (U i)) ≤ 5 / 3 ∧
      Aeos.surrogateGamma P (U j) (Eos.statePressure eos (U j)) ≤ 5 / 3) ∨ (strict = true ∧ P.pinf = 0)

theorem Aeos.reversible (eos : Eos.Interface) (P : Aeos.Params) (lp : LimiterParams) (strict : Bool) (big evc_factor : ℝ)
    {M : Mesh ι dim} (hM : M.WellFormed)
    (hskew : ∀ i, ∀ j ∈ M.nbrs i, ¬ (M.boundary i ∧ M.boundary j) → M.c j i = -M.c i j)
    {old : StateVector ι (ι → Eos.Prec) (Euler.State dim)} (hp : Spec.Precomputed eos P M old.U old.prec)
    (hx : Spec.Exchangeable eos P strict M old.U) :
    Reversible (Aeos.oneLane P lp strict big evc_factor) M old where
  rev := by
    intro i j hj _
    have hi' := self_active hj
    have hj' := nbr_active hM hj
    show Aeos.riemann P strict (old.U i) (old.prec i).p (old.U j) (old.prec j).p _ =
      Aeos.riemann P strict (old.U j) (old.prec j).p (old.U i) (old.prec i).p _
    rw [hp.p i hi', hp.p j hj']
    exact (Aeos.C10_aeos_swap_partial P strict _ _ _ _ _ (hx.gas i hi') (hx.gas j hj') (hx.pair i j hj)).symm
  skew := hskew

/-- The stages of a Runge-Kutta step in two frames; both have been prepared. -/
def Spec.SamePrepared (eos : Eos.Interface) (P : Aeos.Params) (e : ι ≃ κ) (R : Euler.State dim → Euler.State dim) (M : Mesh ι dim)
    (M' : Mesh κ dim) :
    List (ℝ × StateVector ι (ι → Eos.Prec) (Euler.State dim)) → List (ℝ × StateVector κ (κ → Eos.Prec) (Euler.State dim)) → Prop :=
  List.Forall₂ fun a b => b.1 = a.1 ∧ Spec.SameState e R M a.2.U b.2.U ∧ Spec.Precomputed eos P M a.2.U a.2.prec ∧
    Spec.Precomputed eos P M' b.2.U b.2.prec

/-! ### C105 -/

/-- **C105 (arbitrary equation of state).** Exchanging or reflecting coordinate axes (and renumbering, reordering and redistributing the
degrees of freedom) does not change what `step` computes from prepared state vectors, for every equation of state.  What is missing are
neighbouring states of equal pressure with gammas above `5/3`, see `C104_aeos_violation`. -/
theorem C105_aeos_axes_partial [Fintype ι] [Fintype κ] (eos : Eos.Interface) (P : Aeos.Params) (lp : LimiterParams) (strict : Bool)
    (big evc_factor : ℝ) (e : ι ≃ κ) (A : Matrix (Fin dim) (Fin dim) ℝ)
    (hA : Spec.IsAxisSymmetry A) (M : Mesh ι dim) (M' : Mesh κ dim) (hM : M.WellFormed) (hM' : M'.WellFormed)
    (hMM : Spec.SameMesh e A M M')
    (hskew : ∀ i, ∀ j ∈ M.nbrs i, ¬ (M.boundary i ∧ M.boundary j) → M.c j i = -M.c i j)
    (par : Params) (strategy : Strategy) (cnt : Counters) (lo : Leftover ι (Euler.State dim)) (lo' : Leftover κ (Euler.State dim))
    (ho : M.dG = true → lo'.order = lo.order.map e) (old : StateVector ι (ι → Eos.Prec) (Euler.State dim))
    (old' : StateVector κ (κ → Eos.Prec) (Euler.State dim))
    (hp : Spec.Precomputed eos P M old.U old.prec) (hp' : Spec.Precomputed eos P M' old'.U old'.prec)
    (hx : Spec.Exchangeable eos P strict M old.U)
    (hU : Spec.SameState e (Spec.moveGas A) M old.U old'.U)
    (stages : List (ℝ × StateVector ι (ι → Eos.Prec) (Euler.State dim)))
    (stages' : List (ℝ × StateVector κ (κ → Eos.Prec) (Euler.State dim)))
    (hs : Spec.SamePrepared eos P e (Spec.moveGas A) M M' stages stages') (tau tau_max : ℝ) :
    let r := step (Aeos.oneLane P lp strict big evc_factor) M par strategy cnt lo old stages tau tau_max
    let r' := step (Aeos.oneLane P lp strict big evc_factor) M' par strategy cnt lo' old' stages' tau tau_max
    Spec.SameResult e (Spec.moveGas A) M r.1 r'.1 ∧ r'.2 = r.2 := by
  have hA' := Euler.axis_orthogonal hA
  exact frame_sameResult_with (Φ := Aeos.frame e A) (pr := Aeos.SamePrec e M)
    (Aeos.mapsDescription M e hA P lp strict big evc_factor)
    (frame_mapsMesh _ hA' rfl hMM) hM hM' par strategy cnt lo lo' ho old old' hU
    (Aeos.precomputed_frame eos P e hA' hM hMM hU hp hp')
    (Aeos.reversible eos P lp strict big evc_factor hM hskew hp hx)
    (hs.imp fun a b h => ⟨h.1, h.2.1, Aeos.precomputed_frame eos P e hA' hM hMM h.2.1 h.2.2.1 h.2.2.2⟩) tau tau_max

/-- **C104 (arbitrary equation of state).** Renumbering, reordering and redistributing the degrees of freedom does not change what
`step` computes, under the same condition. -/
theorem C104_aeos_partial [Fintype ι] [Fintype κ] (eos : Eos.Interface) (P : Aeos.Params) (lp : LimiterParams) (strict : Bool)
    (big evc_factor : ℝ) (e : ι ≃ κ) (M : Mesh ι dim) (M' : Mesh κ dim) (hM : M.WellFormed) (hM' : M'.WellFormed)
    (hMM : Spec.Renumbered e M M')
    (hskew : ∀ i, ∀ j ∈ M.nbrs i, ¬ (M.boundary i ∧ M.boundary j) → M.c j i = -M.c i j)
    (par : Params) (strategy : Strategy) (cnt : Counters) (lo : Leftover ι (Euler.State dim)) (lo' : Leftover κ (Euler.State dim))
    (ho : M.dG = true → lo'.order = lo.order.map e) (old : StateVector ι (ι → Eos.Prec) (Euler.State dim))
    (old' : StateVector κ (κ → Eos.Prec) (Euler.State dim))
    (hp : Spec.Precomputed eos P M old.U old.prec) (hp' : Spec.Precomputed eos P M' old'.U old'.prec)
    (hx : Spec.Exchangeable eos P strict M old.U)
    (hU : Spec.SameState e id M old.U old'.U)
    (stages : List (ℝ × StateVector ι (ι → Eos.Prec) (Euler.State dim)))
    (stages' : List (ℝ × StateVector κ (κ → Eos.Prec) (Euler.State dim)))
    (hs : Spec.SamePrepared eos P e id M M' stages stages') (tau tau_max : ℝ) :
    let r := step (Aeos.oneLane P lp strict big evc_factor) M par strategy cnt lo old stages tau tau_max
    let r' := step (Aeos.oneLane P lp strict big evc_factor) M' par strategy cnt lo' old' stages' tau tau_max
    Spec.SameResult e id M r.1 r'.1 ∧ r'.2 = r.2 := by
  have key := C105_aeos_axes_partial eos P lp strict big evc_factor e 1 axis_one M M' hM hM' (renumbered_sameMesh hMM) hskew par
    strategy cnt lo lo' ho old old' hp hp' hx (by rw [moveGas_one]; exact hU) stages stages' (by rw [moveGas_one]; exact hs) tau tau_max
  rw [moveGas_one] at key
  exact key

/-- **C105 (boundary conditions, arbitrary equation of state).** Boundary conditions act in the same way in every rotated or reflected
frame; the unsupported id ends the program in every frame. -/
theorem C105_aeos_boundary {A : Matrix (Fin dim) (Fin dim) ℝ} (hA : A * A.transpose = 1) (id : Euler.Boundary)
    (U D : Euler.State dim) (n : Vec dim) :
    Aeos.applyBoundaryConditions id (Spec.moveGas A U) (A.mulVec n) (Spec.moveGas A D) =
      (Aeos.applyBoundaryConditions id U n D).map (Spec.moveGas A) := by
  cases id with
  | doNothing => rfl
  | other => rfl
  | dirichlet => rfl
  | dynamic => rfl
  | slip =>
    simp only [Aeos.applyBoundaryConditions, Euler.rotate_density, Euler.rotate_momentum, Euler.rotate_totalEnergy, frame_dot hA,
      Option.map_some]
    rw [Spec.moveGas, Euler.density_mkState, Euler.momentum_mkState, Euler.totalEnergy_mkState]
    congr 2
    have : (fun k => Euler.momentum U k - 1 * dot (Euler.momentum U) n * n k) =
      Euler.momentum U - (1 * dot (Euler.momentum U) n) • n := rfl
    rw [this, Matrix.mulVec_sub, Matrix.mulVec_smul]
    rfl
  | noSlip =>
    simp only [Aeos.applyBoundaryConditions, Euler.rotate_density, Euler.rotate_totalEnergy, Option.map_some]
    rw [Spec.moveGas, Euler.density_mkState, Euler.momentum_mkState, Euler.totalEnergy_mkState]
    congr 2
    exact (Matrix.mulVec_zero A).symm

/-! ### Complete runs -/

theorem Aeos.exchangeable_frame (eos : Eos.Interface) (P : Aeos.Params) (strict : Bool) (e : ι ≃ κ) {A : Matrix (Fin dim) (Fin dim) ℝ}
    (hA : A * A.transpose = 1) {M : Mesh ι dim} {M' : Mesh κ dim} (hM : M.WellFormed) (hMM : Spec.SameMesh e A M M')
    {U : ι → Euler.State dim} {U' : κ → Euler.State dim} (hU : Spec.SameState e (Spec.moveGas A) M U U') :
    Spec.Exchangeable eos P strict M U ↔ Spec.Exchangeable eos P strict M' U' := by
  have act : ∀ i, M'.nbrs (e i) ≠ [] ↔ M.nbrs i ≠ [] := by
    intro i
    rw [not_iff_not]
    constructor
    · intro h
      have := hMM.stencil i
      rw [h] at this
      exact List.map_eq_nil_iff.1 (List.nil_perm.1 this)
    · intro h
      have := hMM.stencil i
      rw [h] at this
      exact List.perm_nil.1 this
  have hu : ∀ {i}, M.nbrs i ≠ [] → U' (e i) = Euler.rotate A (U i) := fun hi => hU _ hi
  have hp : ∀ {i}, M.nbrs i ≠ [] → Eos.statePressure eos (U' (e i)) = Eos.statePressure eos (U i) := by
    intro i hi
    rw [hu hi, Aeos.statePressure_rotate eos hA]
  have hg : ∀ {i}, M.nbrs i ≠ [] → Aeos.surrogateGamma P (U' (e i)) (Eos.statePressure eos (U' (e i))) =
      Aeos.surrogateGamma P (U i) (Eos.statePressure eos (U i)) := by
    intro i hi
    rw [hp hi, hu hi, Aeos.surrogateGamma_rotate _ hA]
  have hgas : ∀ {i}, M.nbrs i ≠ [] → (Aeos.GasState P (U' (e i)) (Eos.statePressure eos (U' (e i))) ↔
      Aeos.GasState P (U i) (Eos.statePressure eos (U i))) := by
    intro i hi
    have h2 := hp hi
    have h3 : Euler.density (U' (e i)) = Euler.density (U i) := by rw [hu hi, Euler.density_rotate]
    have h4 : Euler.internalEnergy (U' (e i)) = Euler.internalEnergy (U i) := by rw [hu hi, Euler.internalEnergy_rotate _ hA]
    constructor
    · rintro ⟨a, b, c, d⟩
      refine ⟨?_, ?_, ?_, ?_⟩
      · rwa [h3] at a
      · rwa [h3] at b
      · rwa [h3, h4] at c
      · rwa [h2] at d
    · rintro ⟨a, b, c, d⟩
      refine ⟨?_, ?_, ?_, ?_⟩
      · rwa [h3]
      · rwa [h3]
      · rwa [h3, h4]
      · rwa [h2]
  have mem : ∀ {i j}, e j ∈ M'.nbrs (e i) ↔ j ∈ M.nbrs i := by
    intro i j
    rw [(hMM.stencil i).mem_iff, List.mem_map_of_injective e.injective]
  constructor
  · intro h
    refine ⟨fun k hk => ?_, fun k l hl => ?_⟩
    · obtain ⟨i, rfl⟩ := e.surjective k
      have hi := (act i).1 hk
      exact (hgas hi).2 (h.gas i hi)
    · obtain ⟨i, rfl⟩ := e.surjective k
      obtain ⟨j, rfl⟩ := e.surjective l
      have hj := mem.1 hl
      have hi' : M.nbrs i ≠ [] := self_active hj
      have hj' : M.nbrs j ≠ [] := nbr_active hM hj
      rw [hg hi', hg hj', hp hi', hp hj']
      exact h.pair i j hj
  · intro h
    refine ⟨fun i hi => (hgas hi).1 (h.gas _ ((act i).2 hi)), fun i j hj => ?_⟩
    have hi' : M.nbrs i ≠ [] := self_active hj
    have hj' : M.nbrs j ≠ [] := nbr_active hM hj
    rw [← hg hi', ← hg hj', ← hp hi', ← hp hj']
    exact h.pair _ _ (mem.2 hj)

section runs

open Integrator Integrator.Simulation

variable [Fintype ι] [Fintype κ] (eos : Eos.Interface) (P : Aeos.Params) (lp : LimiterParams) (strict : Bool)
    (big' evc_factor : ℝ) (e : ι ≃ κ) (A : Matrix (Fin dim) (Fin dim) ℝ)
    (hA : Spec.IsAxisSymmetry A) (M : Mesh ι dim) (M' : Mesh κ dim) (hM : M.WellFormed) (hM' : M'.WellFormed)
    (hMM : Spec.SameMesh e A M M')
    (hskew : ∀ i, ∀ j ∈ M.nbrs i, ¬ (M.boundary i ∧ M.boundary j) → M.c j i = -M.c i j)
    (par : Params) (big : ℝ)
    (pos : Vec dim → Vec dim) (data data' : Vec dim → ℝ → Euler.State dim)
    (hd : ∀ x t, data' (pos x) t = Spec.moveGas A (data x t))
    (map : List (Prepare.Entry ι Euler.Boundary dim)) (map' : List (Prepare.Entry κ Euler.Boundary dim))
    (hm : Spec.SameBoundary e A pos map map') (hmap : ∀ x ∈ map, M.nbrs x.i ≠ [])
    (q : ι → Eos.Prec) (q' : κ → Eos.Prec)
    (lo : ℕ → Leftover ι (Euler.State dim)) (lo' : ℕ → Leftover κ (Euler.State dim))
    (ho : M.dG = true → ∀ n, (lo' n).order = (lo n).order.map e)
    (g : ℕ → ι → Euler.State dim) (g' : ℕ → κ → Euler.State dim)

include hA hM hM' hMM hskew hd hm hmap ho in
theorem aeos_sim :
    Sim (guarded (Spec.Exchangeable eos P strict M) (hyperbolicModules (Aeos.oneLane P lp strict big' evc_factor) M par big
        (Integrator.passBc Prepare.aeos data map) (fun U => Mpi.precompute M (Aeos.preCycles eos P M) 2 U q) lo g noParabolic))
      (guarded (Spec.Exchangeable eos P strict M') (hyperbolicModules (Aeos.oneLane P lp strict big' evc_factor) M' par big
        (Integrator.passBc Prepare.aeos data' map') (fun U => Mpi.precompute M' (Aeos.preCycles eos P M') 2 U q') lo' g' noParabolic))
      (Spec.SameState e (Spec.moveGas A) M) fun s s' => Spec.SameState e (Spec.moveGas A) M s.U s'.U ∧
        Spec.Precomputed eos P M s.U s.prec ∧ Spec.Precomputed eos P M' s'.U s'.prec := by
  have hA' := Euler.axis_orthogonal hA
  exact frame_sim_with e (Euler.rotate A) (D := Aeos.oneLane P lp strict big' evc_factor) (D' := Aeos.oneLane P lp strict big' evc_factor)
    (M := M) (M' := M') _ _ (fun U U' hU => Aeos.exchangeable_frame eos P strict e hA' hM hMM hU) par big
    (Integrator.passBc Prepare.aeos data map) (Integrator.passBc Prepare.aeos data' map')
    (fun t U U' hU => passBc_frame e A pos (Spec.moveGas A) Prepare.aeos
      (fun id U n d => C105_aeos_boundary hA' id U d n) data data' hd map map' hm M hmap t U U' hU)
    _ _ (Spec.Precomputed eos P M) (Spec.Precomputed eos P M') (fun U => Aeos.precompute_precomputed eos P hM U q)
    (fun U => Aeos.precompute_precomputed eos P hM' U q') lo lo' g g'
    (fun par strategy cnt n dst dst' old old' stages stages' tau tau_max hpos hU hp hp' hs =>
      (C105_aeos_axes_partial eos P lp strict big' evc_factor e A hA M M' hM hM' hMM hskew par strategy cnt { lo n with newU := dst }
        { lo' n with newU := dst' } (fun h => ho h n) old old' hp hp' hpos hU stages stages' hs tau tau_max).1)

include hA hM hM' hMM hskew hd hm hmap ho in
/-- **C105 (complete runs, arbitrary equation of state).** Boundary conditions, precomputation and any number of time steps with any
explicit scheme, rejections and recoveries, as long as the vectors handed to `step` satisfy `Exchangeable`. -/
theorem C105_aeos_run_partial (sch : Scheme) (rec : Recovery) (cflMin cflMax : ℝ) (ok : Ctx → Prop)
    (m m1 : Mem (ι → Euler.State dim) (ι → Eos.Prec))
    (h : Run (guarded (Spec.Exchangeable eos P strict M) (hyperbolicModules (Aeos.oneLane P lp strict big' evc_factor) M par big
        (Integrator.passBc Prepare.aeos data map) (fun U => Mpi.precompute M (Aeos.preCycles eos P M) 2 U q) lo g noParabolic))
      sch rec cflMin cflMax (fun ctx _ => ok ctx) m m1)
    (m' : Mem (κ → Euler.State dim) (κ → Eos.Prec)) (h0 : Spec.SameState e (Spec.moveGas A) M (m Slot.old).U (m' Slot.old).U) :
    ∃ m1', Run (guarded (Spec.Exchangeable eos P strict M') (hyperbolicModules (Aeos.oneLane P lp strict big' evc_factor) M' par big
        (Integrator.passBc Prepare.aeos data' map') (fun U => Mpi.precompute M' (Aeos.preCycles eos P M') 2 U q') lo' g' noParabolic))
        sch rec cflMin cflMax (fun ctx _ => ok ctx) m' m1' ∧
      Spec.SameState e (Spec.moveGas A) M (m1 Slot.old).U (m1' Slot.old).U :=
  Integrator.Simulation.run_sim (aeos_sim eos P lp strict big' evc_factor e A hA M M' hM hM' hMM hskew par big pos data data' hd map map' hm
    hmap q q' lo lo' ho g g') sch rec cflMin cflMax ok m m1 h m' h0

end runs

/-- **C104 (complete runs, arbitrary equation of state).** -/
theorem C104_aeos_run_partial [Fintype ι] [Fintype κ] (eos : Eos.Interface) (P : Aeos.Params) (lp : LimiterParams) (strict : Bool)
    (big' evc_factor : ℝ) (e : ι ≃ κ) (M : Mesh ι dim) (M' : Mesh κ dim) (hM : M.WellFormed) (hM' : M'.WellFormed)
    (hMM : Spec.Renumbered e M M')
    (hskew : ∀ i, ∀ j ∈ M.nbrs i, ¬ (M.boundary i ∧ M.boundary j) → M.c j i = -M.c i j)
    (par : Params) (big : ℝ) (data : Vec dim → ℝ → Euler.State dim)
    (map : List (Prepare.Entry ι Euler.Boundary dim)) (map' : List (Prepare.Entry κ Euler.Boundary dim))
    (hm : Spec.RenumberedBoundary e map map') (hmap : ∀ x ∈ map, M.nbrs x.i ≠ [])
    (q : ι → Eos.Prec) (q' : κ → Eos.Prec)
    (lo : ℕ → Leftover ι (Euler.State dim)) (lo' : ℕ → Leftover κ (Euler.State dim))
    (ho : M.dG = true → ∀ n, (lo' n).order = (lo n).order.map e)
    (g : ℕ → ι → Euler.State dim) (g' : ℕ → κ → Euler.State dim)
    (sch : Integrator.Scheme) (rec : Integrator.Recovery) (cflMin cflMax : ℝ) (ok : Integrator.Ctx → Prop)
    (m m1 : Integrator.Mem (ι → Euler.State dim) (ι → Eos.Prec))
    (h : Integrator.Run (guarded (Spec.Exchangeable eos P strict M) (Integrator.hyperbolicModules
        (Aeos.oneLane P lp strict big' evc_factor) M par big
        (Integrator.passBc Prepare.aeos data map) (fun U => Mpi.precompute M (Aeos.preCycles eos P M) 2 U q) lo g noParabolic))
      sch rec cflMin cflMax (fun ctx _ => ok ctx) m m1)
    (m' : Integrator.Mem (κ → Euler.State dim) (κ → Eos.Prec))
    (h0 : ∀ i, M.nbrs i ≠ [] → (m' Integrator.Slot.old).U (e i) = (m Integrator.Slot.old).U i) :
    ∃ m1', Integrator.Run (guarded (Spec.Exchangeable eos P strict M') (Integrator.hyperbolicModules
        (Aeos.oneLane P lp strict big' evc_factor) M' par big
        (Integrator.passBc Prepare.aeos data map') (fun U => Mpi.precompute M' (Aeos.preCycles eos P M') 2 U q') lo' g' noParabolic))
        sch rec cflMin cflMax (fun ctx _ => ok ctx) m' m1' ∧
      ∀ i, M.nbrs i ≠ [] → (m1' Integrator.Slot.old).U (e i) = (m1 Integrator.Slot.old).U i := by
  have key := C105_aeos_run_partial eos P lp strict big' evc_factor e 1 axis_one M M' hM hM' (renumbered_sameMesh hMM) hskew par big
    (fun x => x) data data (fun x t => by rw [moveGas_one]; rfl) map map' hm.same hmap q q' lo lo' ho g g' sch rec cflMin cflMax ok
    m m1 h m' (by rw [moveGas_one]; exact h0)
  rw [moveGas_one] at key
  exact key

/-! ### The order of the two states matters -/

namespace Aeos

/-- An ideal gas with `γ = 9`. -/
def nine : Eos.Interface := (⟨9, 1, 1⟩ : Eos.PolytropicGas).interface

/-- Pressure `1` everywhere: a light gas moving towards a heavy gas at rest. -/
def impact (i : Fin 3) : Euler.State 1 := if i = 0 then fluid 1 5 (1 / 8) else fluid 4 0 (1 / 8)

theorem nine_pressure {rho : ℝ} (hr : 0 < rho) (u : ℝ) : Eos.statePressure nine (fluid rho u (1 / 8)) = 1 := by
  unfold Eos.statePressure
  rw [show Euler.density (fluid rho u (1 / 8)) = rho from fluid_density _ _ _,
    show Euler.internalEnergy (fluid rho u (1 / 8)) = 1 / 8 from fluid_internalEnergy hr.ne']
  show (9 - 1) * rho * (1 / 8 / rho) = 1
  field_simp
  norm_num

theorem impact_pressure (i : Fin 3) : Eos.statePressure nine (impact i) = 1 := by
  unfold impact
  split_ifs
  · exact nine_pressure one_pos 5
  · exact nine_pressure (by norm_num) 0

theorem impact_gas (i : Fin 3) : GasState ideal (impact i) 1 := by
  unfold impact
  split_ifs
  · exact (fluid_ideal one_pos 5).1
  · exact (fluid_ideal (by norm_num) 0).1

/-- Two equal states at rest. -/
theorem rest_value : riemann ideal false (fluid 4 0 (1 / 8)) 1 (fluid 4 0 (1 / 8)) 1 (fun _ => 1) = 3 / 2 := by
  have Gj := (fluid_ideal (by norm_num : (0 : ℝ) < 4) 0).1.gas (fun _ => 1)
  have sj := (riemannDataFromState_side ideal (fluid 4 0 (1 / 8)) 1 (fun _ => 1)).trans
    (fluid_ideal (by norm_num : (0 : ℝ) < 4) 0).2
  unfold riemann compute
  generalize riemannDataFromState ideal (fluid 4 0 (1 / 8)) 1 (fun _ => 1) = j at *
  obtain ⟨rj, uj, pj, gj, aj⟩ := j
  simp only [side, Spec.Side.mk.injEq] at sj
  obtain ⟨rfl, rfl, rfl, rfl⟩ := sj
  have haj : aj = 3 / 2 := by
    have := Gj.a_eq
    simp only [Spec.nasgSound, ideal] at this
    rw [this, show (9 : ℝ) * (1 + 0) / (4 * (1 - 0 * 4)) = (3 / 2) ^ 2 by norm_num, Real.sqrt_sq (by norm_num)]
  subst haj
  set J : RiemannData := ⟨4, 0, 1, 9, 3 / 2⟩
  have hphi : ¬ phiOfPMax ideal J J < 0 := by
    unfold phiOfPMax
    simp only [J, max_self, ideal]
    norm_num
  have hs : startP2 ideal false J J ≤ 1 := by
    unfold startP2 maskLt
    simp only [Bool.not_false, if_true]
    rw [if_neg hphi]
    refine (min_le_left _ _).trans ?_
    simp [J, ideal]
  rw [computeLambda_small ideal J J (q' := 1) hs hs le_rfl le_rfl (by simp [J, ideal]) (by simp [J, ideal])]
  unfold computeLambda lambda1Minus lambda3Plus
  simp only [J, positivePart_eq_max, negativePart_eq_max]
  norm_num

end Aeos

/-- Parameters of `HyperbolicModule`: a CFL number of one half. -/
def halfCfl : Params := ⟨1 / 2, 1 / 1000000000, 2⟩

/-- **C104 is violated for the arbitrary equation of state** with bounds that are not strict: for an ideal gas with `γ = 9` and states of
equal pressure on a periodic mesh with three nodes, a cyclic renumbering changes the size of the time step (and thus the result), for all
parameters of the limiter. -/
theorem C104_aeos_violation (lp : LimiterParams) (big evc_factor : ℝ) (cnt : Counters) (lo lo' : Leftover (Fin 3) (Euler.State 1))
    (q q' : Fin 3 → Eos.Prec) (hq : Spec.Precomputed Aeos.nine Aeos.ideal ring Aeos.impact q)
    (hq' : Spec.Precomputed Aeos.nine Aeos.ideal ringBack (fun i => Aeos.impact ((Equiv.addRight (1 : Fin 3)).symm i)) q') :
    ¬ Spec.SameResult (Equiv.addRight (1 : Fin 3)) id ring
      (step (Aeos.oneLane Aeos.ideal lp false big evc_factor) ring halfCfl .warn cnt lo ⟨Aeos.impact, q⟩ [] 0 10).1
      (step (Aeos.oneLane Aeos.ideal lp false big evc_factor) ringBack halfCfl .warn cnt lo'
        ⟨fun i => Aeos.impact ((Equiv.addRight (1 : Fin 3)).symm i), q'⟩ [] 0 10).1 := by
  set D := Aeos.oneLane (ι := Fin 3) (dim := 1) Aeos.ideal lp false big evc_factor with hD
  set U' : Fin 3 → Euler.State 1 := fun i => Aeos.impact ((Equiv.addRight (1 : Fin 3)).symm i) with hU'
  have hp : ∀ i, (q i).p = 1 := fun i => (hq.p i (by simp [ring])).trans (Aeos.impact_pressure i)
  have hp' : ∀ i, (q' i).p = 1 := fun i => (hq'.p i (by simp [ringBack])).trans (Aeos.impact_pressure _)
  set a := Aeos.riemann Aeos.ideal false (Aeos.fluid 1 5 (1 / 8)) 1 (Aeos.fluid 4 0 (1 / 8)) 1 (fun _ : Fin 1 => 1) with ha
  set a' := Aeos.riemann Aeos.ideal false (Aeos.fluid 4 0 (1 / 8)) 1 (Aeos.fluid 1 5 (1 / 8)) 1 (-fun _ : Fin 1 => 1) with ha'
  set c := Aeos.riemann Aeos.ideal false (Aeos.fluid 1 5 (1 / 8)) 1 (Aeos.fluid 4 0 (1 / 8)) 1 (-fun _ : Fin 1 => 1) with hc
  have haa : a' ≠ a := Aeos.swap_differs
  have g1 := (Aeos.fluid_ideal one_pos 5).1
  have g4 := (Aeos.fluid_ideal (by norm_num : (0 : ℝ) < 4) 0).1
  have gam : ∀ {rho : ℝ} (_ : 0 < rho) (u : ℝ), Aeos.surrogateGamma Aeos.ideal (Aeos.fluid rho u (1 / 8)) 1 = 9 := by
    intro rho hr u
    rw [← Aeos.stateSide_gamma _ _ _ (fun _ => 1), (Aeos.fluid_ideal hr u).2]
  have hs4 : √(Aeos.surrogateGamma Aeos.ideal (Aeos.fluid 4 0 (1 / 8)) 1 * (1 + Aeos.ideal.pinf) /
      (Euler.density (Aeos.fluid 4 0 (1 / 8)) * (1 - Aeos.ideal.b * Euler.density (Aeos.fluid 4 0 (1 / 8))))) = 3 / 2 := by
    rw [gam (by norm_num), show Euler.density (Aeos.fluid 4 0 (1 / 8)) = 4 from Aeos.fluid_density _ _ _]
    rw [show (9 : ℝ) * (1 + Aeos.ideal.pinf) / (4 * (1 - Aeos.ideal.b * 4)) = (3 / 2) ^ 2 by norm_num [Aeos.ideal],
      Real.sqrt_sq (by norm_num)]
  have hs1 : √(Aeos.surrogateGamma Aeos.ideal (Aeos.fluid 1 5 (1 / 8)) 1 * (1 + Aeos.ideal.pinf) /
      (Euler.density (Aeos.fluid 1 5 (1 / 8)) * (1 - Aeos.ideal.b * Euler.density (Aeos.fluid 1 5 (1 / 8))))) = 3 := by
    rw [gam (by norm_num), show Euler.density (Aeos.fluid 1 5 (1 / 8)) = 1 from Aeos.fluid_density _ _ _]
    rw [show (9 : ℝ) * (1 + Aeos.ideal.pinf) / (1 * (1 - Aeos.ideal.b * 1)) = 3 ^ 2 by norm_num [Aeos.ideal],
      Real.sqrt_sq (by norm_num)]
  have m4 : ∀ n : Vec 1, dot n (Euler.momentum (Aeos.fluid 4 0 (1 / 8))) / Euler.density (Aeos.fluid 4 0 (1 / 8)) = 0 := by
    intro n
    simp [Aeos.fluid, Euler.momentum_mkState, dot]
  have m1 : ∀ n : Vec 1, dot n (Euler.momentum (Aeos.fluid 1 5 (1 / 8))) / Euler.density (Aeos.fluid 1 5 (1 / 8)) = 5 * n 0 := by
    intro n
    simp [Aeos.fluid, Euler.momentum_mkState, Euler.density_mkState, dot]
    ring
  have ba : 3 / 2 ≤ a := by
    have := (Aeos.C09_aeos_characteristic Aeos.ideal false _ _ 1 1 (fun _ => 1) g1 g4).2.2
    rw [hs4, m4, ← ha] at this
    linarith
  have ba' : 3 / 2 ≤ a' := by
    have := (Aeos.C09_aeos_characteristic Aeos.ideal false _ _ 1 1 (-fun _ => 1) g4 g1).2.1
    rw [hs4, m4, ← ha'] at this
    linarith
  have bc : 8 ≤ c := by
    have := (Aeos.C09_aeos_characteristic Aeos.ideal false _ _ 1 1 (-fun _ => 1) g1 g4).2.1
    rw [hs1, m1, ← hc] at this
    simp only [Pi.neg_apply] at this
    linarith
  have vp : ∀ (M : Mesh (Fin 3) 1) (old : StateVector (Fin 3) (Fin 3 → Eos.Prec) (Euler.State 1)) (i j : Fin 3),
      M.c i j = (fun _ => 1 / 2) → (old.prec i).p = 1 → (old.prec j).p = 1 →
      viscosityEntry D M old i j = 1 / 2 * Aeos.riemann Aeos.ideal false (old.U i) 1 (old.U j) 1 (fun _ => 1) := by
    intro M old i j h h1 h2
    unfold viscosityEntry
    have hn : vnorm (fun _ : Fin 1 => (1 / 2 : ℝ)) = 1 / 2 := by
      rw [vnorm, show normSq (fun _ : Fin 1 => (1 / 2 : ℝ)) = (1 / 2) ^ 2 by simp [normSq]; norm_num, Real.sqrt_sq (by norm_num)]
    rw [h, hn]
    show 1 / 2 * Aeos.riemann Aeos.ideal false (old.U i) (old.prec i).p (old.U j) (old.prec j).p _ = _
    rw [h1, h2]
    congr 2
    ext k
    norm_num
  have vm : ∀ (M : Mesh (Fin 3) 1) (old : StateVector (Fin 3) (Fin 3 → Eos.Prec) (Euler.State 1)) (i j : Fin 3),
      M.c i j = (fun _ => -1 / 2) → (old.prec i).p = 1 → (old.prec j).p = 1 →
      viscosityEntry D M old i j = 1 / 2 * Aeos.riemann Aeos.ideal false (old.U i) 1 (old.U j) 1 (-fun _ => 1) := by
    intro M old i j h h1 h2
    unfold viscosityEntry
    have hn : vnorm (fun _ : Fin 1 => (-1 / 2 : ℝ)) = 1 / 2 := by
      rw [vnorm, show normSq (fun _ : Fin 1 => (-1 / 2 : ℝ)) = (1 / 2) ^ 2 by simp [normSq]; norm_num, Real.sqrt_sq (by norm_num)]
    rw [h, hn]
    show 1 / 2 * Aeos.riemann Aeos.ideal false (old.U i) (old.prec i).p (old.U j) (old.prec j).p _ = _
    rw [h1, h2]
    congr 2
    ext k
    norm_num
  have tau : ∀ (M : Mesh (Fin 3) 1) (st : Fin 3 → Fin 3 → ℝ) (old : StateVector (Fin 3) (Fin 3 → Eos.Prec) (Euler.State 1)) (x : ℝ)
      (i j k : Fin 3), 3 / 2 ≤ x → (∀ l, M.nbrs l ≠ []) → (∀ l, M.lumped l = 1) → (∀ l, l = i ∨ l = j ∨ l = k) →
      ((M.nbrs i).map (dOff D M st old i)).sum = (x + c) / 2 → ((M.nbrs j).map (dOff D M st old j)).sum = (3 / 2 + x) / 2 →
      ((M.nbrs k).map (dOff D M st old k)).sum = (c + 3 / 2) / 2 → tauMax D M halfCfl st old 10 = (1 / 2) / (x + c) := by
    intro M st old x i j k hx hact hlump hall hi hj hk
    have row : ∀ l s, ((M.nbrs l).map (dOff D M st old l)).sum = s / 2 → 1 ≤ s → tauRow D M halfCfl st old l = (1 / 2) / s := by
      intro l s hs h1
      unfold tauRow dDiag
      rw [hs, hlump, min_eq_left (by simp only [halfCfl]; norm_num; linarith)]
      simp only [halfCfl]
      congr 1 <;> ring
    have ri := row i _ hi (by linarith)
    have rj := row j _ hj (by linarith)
    have rk := row k _ hk (by linarith)
    unfold tauMax
    refine le_antisymm ((Finset.fold_min_le _).2 (Or.inr ⟨i, by simp [Mesh.active, hact], ri.le⟩)) ((Finset.le_fold_min _).2 ⟨?_, ?_⟩)
    · rw [div_le_iff₀ (by linarith)]
      linarith
    · intro l _
      rcases hall l with rfl | rfl | rfl
      · exact ri.ge
      · rw [rj]
        exact div_le_div_of_nonneg_left (by norm_num) (by linarith) (by linarith)
      · rw [rk]
        exact div_le_div_of_nonneg_left (by norm_num) (by linarith) (by linarith)
  have o1 : ∀ st i j, dOff D ring st ⟨Aeos.impact, q⟩ i j = if j < i then viscosityEntry D ring ⟨Aeos.impact, q⟩ j i else
      viscosityEntry D ring ⟨Aeos.impact, q⟩ i j := by
    intro st i j
    simp [dOff, dBoundary, dStep2, ring]
  have o2 : ∀ st i j, dOff D ringBack st ⟨U', q'⟩ i j = if i < j then viscosityEntry D ringBack ⟨U', q'⟩ j i else
      viscosityEntry D ringBack ⟨U', q'⟩ i j := by
    intro st i j
    by_cases hij : i < j
    · simp [dOff, dBoundary, dStep2, ring, ringBack, hij, not_lt.2 hij.le]
    · simp [dOff, dBoundary, dStep2, ring, ringBack, hij]
  have u0 : Aeos.impact 0 = Aeos.fluid 1 5 (1 / 8) := rfl
  have u1 : Aeos.impact 1 = Aeos.fluid 4 0 (1 / 8) := rfl
  have u2 : Aeos.impact 2 = Aeos.fluid 4 0 (1 / 8) := rfl
  have w0 : U' 0 = Aeos.fluid 4 0 (1 / 8) := by
    show Aeos.impact ((Equiv.addRight (1 : Fin 3)).symm 0) = _
    rw [show (Equiv.addRight (1 : Fin 3)).symm 0 = 2 by decide, u2]
  have w1 : U' 1 = Aeos.fluid 1 5 (1 / 8) := by
    show Aeos.impact ((Equiv.addRight (1 : Fin 3)).symm 1) = _
    rw [show (Equiv.addRight (1 : Fin 3)).symm 1 = 0 by decide, u0]
  have w2 : U' 2 = Aeos.fluid 4 0 (1 / 8) := by
    show Aeos.impact ((Equiv.addRight (1 : Fin 3)).symm 2) = _
    rw [show (Equiv.addRight (1 : Fin 3)).symm 2 = 1 by decide, u1]
  have d01 := vp ring ⟨Aeos.impact, q⟩ 0 1 (by simp [ring]) (hp _) (hp _)
  have d12 := vp ring ⟨Aeos.impact, q⟩ 1 2 (by simp [ring]) (hp _) (hp _)
  have d02 := vm ring ⟨Aeos.impact, q⟩ 0 2 (by simp [ring]) (hp _) (hp _)
  have e21 := vm ringBack ⟨U', q'⟩ 2 1 (by simp [ring, ringBack]) (hp' _) (hp' _)
  have e20 := vp ringBack ⟨U', q'⟩ 2 0 (by simp [ring, ringBack]) (hp' _) (hp' _)
  have e10 := vm ringBack ⟨U', q'⟩ 1 0 (by simp [ring, ringBack]) (hp' _) (hp' _)
  dsimp only at d01 d12 d02 e21 e20 e10
  rw [u0, u1, ← ha] at d01
  rw [u1, u2, Aeos.rest_value] at d12
  rw [u0, u2, ← hc] at d02
  rw [w1, w2, ← ha'] at e21
  rw [w0, w2, Aeos.rest_value] at e20
  rw [w0, w1, ← hc] at e10
  have t1 : tauMax D ring halfCfl lo.dij ⟨Aeos.impact, q⟩ 10 = (1 / 2) / (a + c) := by
    refine tau ring _ _ a 0 1 2 ba (by simp [ring]) (by simp [ring]) (by decide) ?_ ?_ ?_
    · show List.sum [dOff D ring _ _ 0 1, dOff D ring _ _ 0 2] = _
      rw [o1, o1, if_neg (by decide), if_neg (by decide), d01, d02]
      simp
      ring
    · show List.sum [dOff D ring _ _ 1 2, dOff D ring _ _ 1 0] = _
      rw [o1, o1, if_neg (by decide), if_pos (by decide), d01, d12]
      simp
      ring
    · show List.sum [dOff D ring _ _ 2 0, dOff D ring _ _ 2 1] = _
      rw [o1, o1, if_pos (by decide), if_pos (by decide), d12, d02]
      simp
      ring
  have t2 : tauMax D ringBack halfCfl lo'.dij ⟨U', q'⟩ 10 = (1 / 2) / (a' + c) := by
    refine tau ringBack _ _ a' 1 2 0 ba' (by simp [ringBack]) (by simp [ringBack, ring]) (by decide) ?_ ?_ ?_
    · show List.sum [dOff D ringBack _ _ 1 0, dOff D ringBack _ _ 1 2] = _
      rw [o2, o2, if_neg (by decide), if_pos (by decide), e10, e21]
      simp
      ring
    · show List.sum [dOff D ringBack _ _ 2 1, dOff D ringBack _ _ 2 0] = _
      rw [o2, o2, if_neg (by decide), if_neg (by decide), e21, e20]
      simp
      ring
    · show List.sum [dOff D ringBack _ _ 0 2, dOff D ringBack _ _ 0 1] = _
      rw [o2, o2, if_pos (by decide), if_pos (by decide), e20, e10]
      simp
      ring
  have done : ∀ (M : Mesh (Fin 3) 1) (lo : Leftover (Fin 3) (Euler.State 1)) (old : StateVector (Fin 3) (Fin 3 → Eos.Prec) (Euler.State 1))
      (t : ℝ), 0 < t → tauMax D M halfCfl lo.dij old 10 = t → ∃ V, (step D M halfCfl .warn cnt lo old [] 0 10).1 = .done V t := by
    intro M lo old t h0 ht
    unfold step
    rw [ht]
    dsimp only
    rw [if_neg (not_not.2 h0), if_pos rfl]
    split_ifs <;> exact ⟨_, rfl⟩
  obtain ⟨V, hV⟩ := done ring lo ⟨Aeos.impact, q⟩ _ (by positivity) t1
  obtain ⟨V', hV'⟩ := done ringBack lo' ⟨U', q'⟩ _ (by positivity) t2
  rw [hV, hV']
  intro h
  have : (1 / 2) / (a' + c) = (1 / 2) / (a + c) := h.2
  rw [div_eq_div_iff (by linarith) (by linarith)] at this
  exact haa (by linarith)

/-- The vectors of `C104_aeos_violation` exist: they are those of `prepare_state_vector`. -/
example (lp : LimiterParams) (big evc_factor : ℝ) (cnt : Counters) (lo lo' : Leftover (Fin 3) (Euler.State 1)) (q q' : Fin 3 → Eos.Prec) :=
  C104_aeos_violation lp big evc_factor cnt lo lo' _ _ (Aeos.precompute_precomputed Aeos.nine Aeos.ideal ring_wf Aeos.impact q)
    (Aeos.precompute_precomputed Aeos.nine Aeos.ideal ringBack_wf _ q')

/-! ### Examples -/

namespace Aeos

/-- Diatomic gas. -/
def air : Eos.Interface := (⟨7 / 5, 1, 1⟩ : Eos.PolytropicGas).interface

theorem mirrorGas_internalEnergy (i : Fin 3) : Euler.internalEnergy (mirrorGas.U i) = 1 := by
  simp only [mirrorGas, Euler.internalEnergy, Euler.momentum_mkState, Euler.totalEnergy_mkState]
  simp [normSq]

theorem mirrorGas_density (i : Fin 3) : 1 ≤ Euler.density (mirrorGas.U i) := by
  simp only [mirrorGas, Euler.density_mkState]
  split_ifs <;> norm_num

theorem mirrorGas_pressure (i : Fin 3) : Eos.statePressure air (mirrorGas.U i) = 2 / 5 := by
  unfold Eos.statePressure
  rw [mirrorGas_internalEnergy]
  have := mirrorGas_density i
  show (7 / 5 - 1) * Euler.density (mirrorGas.U i) * (1 / Euler.density (mirrorGas.U i)) = 2 / 5
  have h0 : Euler.density (mirrorGas.U i) ≠ 0 := by linarith
  field_simp
  norm_num

theorem mirrorGas_exchangeable (strict : Bool) : Spec.Exchangeable air ideal strict ring mirrorGas.U := by
  have hg : ∀ i, surrogateGamma ideal (mirrorGas.U i) (Eos.statePressure air (mirrorGas.U i)) = 7 / 5 := by
    intro i
    rw [mirrorGas_pressure]
    unfold surrogateGamma
    rw [show Euler.internalEnergy (mirrorGas.U i) = 1 from mirrorGas_internalEnergy i]
    norm_num [ideal, covolume]
  refine ⟨fun i _ => ⟨?_, ?_, ?_, ?_⟩, fun i j _ => Or.inr (Or.inl ⟨?_, ?_⟩)⟩
  · have := mirrorGas_density i
    linarith
  · simp [ideal]
  · rw [show Euler.internalEnergy (mirrorGas.U i) = 1 from mirrorGas_internalEnergy i]
    simp [ideal]
  · rw [mirrorGas_pressure]
    norm_num [ideal]
  · rw [hg]; norm_num
  · rw [hg]; norm_num

end Aeos

/-- The hypotheses of `C104_aeos_partial` for air on the ring, renumbered cyclically. -/
example (lp : LimiterParams) (strict : Bool) (big evc_factor : ℝ) (cnt : Counters) (lo lo' : Leftover (Fin 3) (Euler.State 1))
    (q q' : Fin 3 → Eos.Prec) :
    Spec.SameResult (Equiv.addRight (1 : Fin 3)) id ring
      (step (Aeos.oneLane Aeos.ideal lp strict big evc_factor) ring halfCfl .raise_exception cnt lo
        ⟨mirrorGas.U, Mpi.precompute ring (Aeos.preCycles Aeos.air Aeos.ideal ring) 2 mirrorGas.U q⟩ [] 0 10).1
      (step (Aeos.oneLane Aeos.ideal lp strict big evc_factor) ringBack halfCfl .raise_exception cnt lo'
        ⟨fun i => mirrorGas.U ((Equiv.addRight (1 : Fin 3)).symm i), Mpi.precompute ringBack
          (Aeos.preCycles Aeos.air Aeos.ideal ringBack) 2 (fun i => mirrorGas.U ((Equiv.addRight (1 : Fin 3)).symm i)) q'⟩ [] 0 10).1 :=
  (C104_aeos_partial Aeos.air Aeos.ideal lp strict big evc_factor (Equiv.addRight (1 : Fin 3)) ring ringBack ring_wf ringBack_wf
    ring_renumbered (fun i j hj _ => ring_closed.skew i j hj) halfCfl .raise_exception cnt lo lo' (fun h => by simp [ring] at h) _ _
    (Aeos.precompute_precomputed _ _ ring_wf _ q) (Aeos.precompute_precomputed _ _ ringBack_wf _ q') (Aeos.mirrorGas_exchangeable strict)
    (fun i _ => by simp) [] [] List.Forall₂.nil 0 10).1

/-- The hypotheses of `C105_aeos_axes_partial` for air on the reflected ring: symmetric data stay symmetric. -/
example (lp : LimiterParams) (strict : Bool) (big evc_factor : ℝ) (cnt : Counters) (lo lo' : Leftover (Fin 3) (Euler.State 1))
    (q q' : Fin 3 → Eos.Prec) :
    Spec.SameResult (Equiv.neg (Fin 3)) (Spec.moveGas (-1)) ring
      (step (Aeos.oneLane Aeos.ideal lp strict big evc_factor) ring halfCfl .raise_exception cnt lo
        ⟨mirrorGas.U, Mpi.precompute ring (Aeos.preCycles Aeos.air Aeos.ideal ring) 2 mirrorGas.U q⟩ [] 0 10).1
      (step (Aeos.oneLane Aeos.ideal lp strict big evc_factor) ring halfCfl .raise_exception cnt lo'
        ⟨mirrorGas.U, Mpi.precompute ring (Aeos.preCycles Aeos.air Aeos.ideal ring) 2 mirrorGas.U q'⟩ [] 0 10).1 :=
  (C105_aeos_axes_partial Aeos.air Aeos.ideal lp strict big evc_factor (Equiv.neg (Fin 3)) (-1) mirror_axis ring ring ring_wf ring_wf
    ring_mirror (fun i j hj _ => ring_closed.skew i j hj) halfCfl .raise_exception cnt lo lo' (fun h => by simp [ring] at h) _ _
    (Aeos.precompute_precomputed _ _ ring_wf _ q) (Aeos.precompute_precomputed _ _ ring_wf _ q') (Aeos.mirrorGas_exchangeable strict)
    mirror_sameState [] [] List.Forall₂.nil 0 10).1

end

end Ryujin
