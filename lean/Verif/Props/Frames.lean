import Verif.Proofs.Frames
import Verif.Proofs.StepEquivariance
import Verif.Model.OneLane
import Verif.Props.EulerRiemann
import Verif.Props.ShallowWater
import Verif.Props.Scalar
import Verif.Props.HyperbolicStep

/-!
# C104, C105: `step` does not depend on the numbering, nor on the frame of reference

The meshes `M` and `M'` may differ in the numbering of the degrees of freedom, in the order of the columns of a row, in
the distribution over ranks and the grouping of rows (`below`, `skip`: which of `d_ij`, `d_ji` is computed and which copied), and
in everything left over in the scratch memory.
-/

namespace Ryujin

open Hyp

noncomputable section

variable {ι κ : Type} {dim : ℕ}

/-! ### The frames of the three equations -/

/-- The frame of the gas dynamics equations. -/
def Euler.frame (e : ι ≃ κ) (A : Matrix (Fin dim) (Fin dim) ℝ) :
    Frame ι κ (Euler.State dim) (Fin (dim + 2) → Vec dim) Euler.Bounds dim :=
  ⟨e, A.mulVecLin, Euler.rotate A, moveFlux A (Euler.rotate A), id⟩

/-- The frame of the shallow water equations. -/
def ShallowWater.frame (e : ι ≃ κ) (A : Matrix (Fin dim) (Fin dim) ℝ) :
    Frame ι κ (ShallowWater.State dim) (ShallowWater.FluxContribution dim) ShallowWater.Bounds dim :=
  ⟨e, A.mulVecLin, ShallowWater.rotate A, ShallowWater.moveContribution A, id⟩

/-- The frame of the scalar equations, which have no frame dependent unknown: only the numbering changes. -/
def Scalar.frame (e : ι ≃ κ) : Frame ι κ Scalar.State (Fin 1 → Vec dim) Scalar.Bounds dim :=
  ⟨e, LinearMap.id, LinearMap.id, id, id⟩

theorem frame_mapsMesh {S F B : Type} [AddCommGroup S] [Module ℝ S] (Φ : Frame ι κ S F B dim) {A : Matrix (Fin dim) (Fin dim) ℝ}
    (hA : A * A.transpose = 1) (hQ : Φ.Q = A.mulVecLin) {M : Mesh ι dim} {M' : Mesh κ dim} (h : Spec.SameMesh Φ.e A M M') :
    Φ.MapsMesh M M' where
  norm := fun c => by rw [hQ]; exact frame_vnorm hA c
  nbrs := h.stencil
  boundary := h.boundary
  c := fun i j => by rw [hQ]; exact h.c i j
  mass := h.mass
  massInv := h.massInv
  lumped := h.lumped
  incidence := h.incidence
  dG := h.dG
  omega := h.omega

theorem renumbered_mapsMesh {S F B : Type} [AddCommGroup S] [Module ℝ S] (Φ : Frame ι κ S F B dim)
    (hQ : Φ.Q = LinearMap.id) {M : Mesh ι dim} {M' : Mesh κ dim} (h : Spec.Renumbered Φ.e M M') : Φ.MapsMesh M M' where
  norm := fun c => by rw [hQ]; rfl
  nbrs := h.stencil
  boundary := h.boundary
  c := fun i j => by rw [hQ]; exact h.c i j
  mass := h.mass
  massInv := h.massInv
  lumped := h.lumped
  incidence := h.incidence
  dG := h.dG
  omega := h.omega

theorem renumbered_sameMesh {e : ι ≃ κ} {M : Mesh ι dim} {M' : Mesh κ dim} (h : Spec.Renumbered e M M') :
    Spec.SameMesh e 1 M M' where
  stencil := h.stencil
  boundary := h.boundary
  c := fun i j => by rw [Matrix.one_mulVec]; exact h.c i j
  mass := h.mass
  massInv := h.massInv
  lumped := h.lumped
  incidence := h.incidence
  dG := h.dG
  omega := h.omega

theorem fluxDivergence_move {n : ℕ} {A : Matrix (Fin dim) (Fin dim) ℝ} (hA : A * A.transpose = 1) (R : Vec n →ₗ[ℝ] Vec n)
    (f g : Fin n → Vec dim) (c : Vec dim) :
    -contract (addFlux (moveFlux A R f) (moveFlux A R g)) (A.mulVec c) = R (-contract (addFlux f g) c) := by
  rw [contract_addFlux, contract_addFlux, contract_moveFlux hA, contract_moveFlux hA, map_neg, map_add]

theorem Euler.mapsDescription (M : Mesh ι dim) (e : ι ≃ κ) {A : Matrix (Fin dim) (Fin dim) ℝ} (hS : Spec.IsAxisSymmetry A) (p lp rp)
    (evc_factor big : ℝ) :
    (Euler.frame e A).MapsDescription (fun _ _ => True) M (Euler.oneLane (ι := ι) (dim := dim) p lp rp evc_factor big)
      (Euler.oneLane (ι := κ) p lp rp evc_factor big) := by
  have hA := Euler.axis_orthogonal hS
  refine { riemann := ?_, indicator := ?_, flux := ?_, fluxDiv := ?_, highOrder := ?_, source := ?_, stars := ?_, affineShift := ?_, limiterBounds := ?_, combine := ?_, combine_comm := ?_, limit := ?_ }
  · intro _ _ _ i j _ _ U V n
    exact congrFun (Euler.riemann_rotate hA p rp (fun _ : Fin 1 => U) (fun _ => V) (fun _ => n)) 0
  · intro _ _ _ i _ U row row' h hrow
    refine Euler.indicator_rotate hS p evc_factor U _ _ h ?_
    refine (hrow.map _).trans (List.Perm.of_eq ?_)
    rw [List.map_map, List.map_map]
    rfl
  · intro _ _ _ i _ U
    exact Euler.f_rotate U hA p
  · intro f g c
    exact fluxDivergence_move hA _ f g c
  · intro f g c
    exact fluxDivergence_move hA _ f g c
  · intro _ _ _ i _ U tau
    exact (map_zero (Euler.rotate A)).symm
  · intro U f V g
    rfl
  · intro f g c d
    exact (map_zero (Euler.rotate A)).symm
  · intro _ _ _ i _ U f row row' h _ hrow
    show Euler.LimiterState.relaxedBounds dim p lp (row'.foldl _ _) h = Euler.LimiterState.relaxedBounds dim p lp (row.foldl _ _) h
    congr 1
    have hc : RightCommutative (fun (st : Euler.LimiterState) (x : LimiterEntry κ (Euler.State dim) (Fin (dim + 2) → Vec dim) dim) =>
        st.accumulate p (Euler.rotate A U) x.U_j (Euler.specificEntropy p x.U_j) x.scaled_c x.affine_shift) :=
      ⟨fun st a b => Euler.accumulate_comm p _ st _ _ _ _ _ _ _ _⟩
    refine (List.Perm.foldl_eq (rcomm := hc) hrow _).trans ?_
    rw [List.foldl_map]
    congr 1
    funext st x
    show st.accumulate p (Euler.rotate A U) (Euler.rotate A x.U_j) (Euler.specificEntropy p (Euler.rotate A x.U_j))
      (A.mulVec x.scaled_c) (Euler.rotate A x.affine_shift) = _
    rw [Euler.specificEntropy_rotate _ hA, Euler.accumulate_rotate _ _ hA]
  · intro a b
    rfl
  · exact Euler.combineBounds_comm
  · intro i j b U V
    have h := Euler.limit_rotate hA p lp (fun _ : Fin 1 => b) (fun _ => U) (fun _ => V) (fun _ => 0) (fun _ => 1)
    exact congrArg (fun r : (Fin 1 → ℝ) × Prop => (r.1 0, r.2)) h

theorem ShallowWater.mapsDescription (M : Mesh ι dim) (e : ι ≃ κ) {A : Matrix (Fin dim) (Fin dim) ℝ} (hA : A * A.transpose = 1) (q)
    (Z : ι → ℝ) (Z' : κ → ℝ) (hZ : ∀ i, Z' (e i) = Z i) :
    (ShallowWater.frame e A).MapsDescription (fun _ _ => True) M (ShallowWater.oneLane (dim := dim) q Z)
      (ShallowWater.oneLane q Z') := by
  refine { riemann := ?_, indicator := ?_, flux := ?_, fluxDiv := ?_, highOrder := ?_, source := ?_, stars := ?_, affineShift := ?_, limiterBounds := ?_, combine := ?_, combine_comm := ?_, limit := ?_ }
  · intro _ _ _ i j _ _ U V n
    exact ShallowWater.riemann_rotate U V hA q.p n
  · intro _ _ _ i _ U row row' h hrow
    refine ShallowWater.indicator_rotate hA q.p q.evc_factor h U _ _ ?_
    refine (hrow.map _).trans (List.Perm.of_eq ?_)
    rw [List.map_map, List.map_map]
    rfl
  · intro _ _ _ i _ U
    show (⟨ShallowWater.rotate A U, Z' (e i)⟩ : ShallowWater.FluxContribution dim) = ⟨ShallowWater.rotate A U, Z i⟩
    rw [hZ]
  · intro f g c
    exact ShallowWater.fluxDivergence_rotate hA q.p f g c
  · intro f g c
    exact ShallowWater.highOrderFluxDivergence_rotate hA q.p f g c
  · intro _ _ _ i _ U tau
    exact ShallowWater.nodalSource_rotate U hA q.p tau
  · intro U f V g
    exact Prod.ext (ShallowWater.starState_rotate A f.U q.p f.Z g.Z) (ShallowWater.starState_rotate A g.U q.p g.Z f.Z)
  · intro f g c d
    exact ShallowWater.affineShift_rotate hA q.p f g c d
  · intro _ _ _ i _ U f row row' h _ hrow
    show ShallowWater.LimiterState.relaxedBounds dim q.p q.lp (row'.foldl _ _) h =
      ShallowWater.LimiterState.relaxedBounds dim q.p q.lp (row.foldl _ _) h
    congr 1
    have hc : RightCommutative (fun (st : ShallowWater.LimiterState)
        (x : LimiterEntry κ (ShallowWater.State dim) (ShallowWater.FluxContribution dim) dim) =>
        st.accumulate q.p (ShallowWater.rotate A U) x.U_j x.star_ij x.star_ji x.scaled_c x.affine_shift) :=
      ⟨fun st a b => ShallowWater.accumulate_comm q.p _ st _ _ _ _ _ _ _ _ _ _⟩
    refine (List.Perm.foldl_eq (rcomm := hc) hrow _).trans ?_
    rw [List.foldl_map]
    congr 1
    funext st x
    exact ShallowWater.accumulate_rotate _ _ hA q.p st _ _ _ _
  · intro a b
    rfl
  · exact ShallowWater.combineBounds_comm
  · intro i j b U V
    have h := ShallowWater.limit_rotate hA q.p q.lp (fun _ : Fin 1 => b) (fun _ => U) (fun _ => V) (fun _ => 0) (fun _ => 1)
    exact congrArg (fun r : (Fin 1 → ℝ) × Prop => (r.1 0, r.2)) h

theorem Scalar.mapsDescription (M : Mesh ι dim) (e : ι ≃ κ) (fl : Scalar.Flux dim) (q) (draws : ι → ι → List ℝ) (draws' : κ → κ → List ℝ)
    (hd : ∀ i j, draws' (e i) (e j) = draws i j) :
    (Scalar.frame (dim := dim) e).MapsDescription (fun _ _ => True) M (Scalar.oneLane fl q draws) (Scalar.oneLane fl q draws') := by
  refine { riemann := ?_, indicator := ?_, flux := ?_, fluxDiv := ?_, highOrder := ?_, source := ?_, stars := ?_, affineShift := ?_, limiterBounds := ?_, combine := ?_, combine_comm := ?_, limit := ?_ }
  · intro _ _ _ i j _ _ U V n
    show Scalar.riemann fl q.rp (draws' (e i) (e j)) _ _ _ = Scalar.riemann fl q.rp (draws i j) _ _ _
    rw [hd]; rfl
  · intro _ _ _ i _ U row row' h hrow
    show Scalar.IndicatorState.alpha (List.foldl _ _ (row'.map _)) _ _ _ = Scalar.IndicatorState.alpha (List.foldl _ _ (row.map _)) _ _ _
    congr 1
    have hc : RightCommutative (Scalar.IndicatorState.accumulate (dim := dim)) :=
      ⟨fun st a b => Scalar.indicatorAccumulate_comm st a b⟩
    refine ((hrow.map _).foldl_eq _).trans ?_
    rw [List.map_map]
    rfl
  · intro _ _ _ i _ U; rfl
  · intro f g c; rfl
  · intro f g c; rfl
  · intro _ _ _ i _ U tau; rfl
  · intro U f V g; rfl
  · intro f g c d; rfl
  · intro _ _ _ i _ U f row row' h _ hrow
    show Scalar.LimiterState.relaxedBounds dim _ _ (row'.foldl _ _) h = Scalar.LimiterState.relaxedBounds dim _ _ (row.foldl _ _) h
    congr 1
    have hc : RightCommutative (fun (st : Scalar.LimiterState) (x : LimiterEntry κ Scalar.State (Fin 1 → Vec dim) dim) =>
        st.accumulate U f x.U_j x.flux_j x.scaled_c x.affine_shift) :=
      ⟨fun st a b => Scalar.accumulate_comm _ _ st _ _ _ _ _ _ _ _⟩
    refine (List.Perm.foldl_eq (rcomm := hc) hrow _).trans ?_
    rw [List.foldl_map]
    rfl
  · intro a b; rfl
  · exact Scalar.combineBounds_comm
  · intro i j b U V; rfl

/-! ### From the specification to the frames -/

/-- `SameStages` together with corresponding precomputed values. -/
def SameStagesWith {S P P' : Type} (e : ι ≃ κ) (R : S → S) (M : Mesh ι dim) (pr : P → P' → Prop) :
    List (ℝ × StateVector ι P S) → List (ℝ × StateVector κ P' S) → Prop :=
  List.Forall₂ fun a b => b.1 = a.1 ∧ Spec.SameState e R M a.2.U b.2.U ∧ pr a.2.prec b.2.prec

theorem frame_sameResult_with {S F B P P' : Type} [AddCommGroup S] [Module ℝ S] [Fintype ι] [Fintype κ]
    {Φ : Frame ι κ S F B dim} {pr : P → P' → Prop} {M : Mesh ι dim} {M' : Mesh κ dim}
    {D : Description ι P S F B dim} {D' : Description κ P' S F B dim} (hD : Φ.MapsDescription pr M D D')
    (hΦ : Φ.MapsMesh M M') (hM : M.WellFormed) (hM' : M'.WellFormed) (par : Params)
    (strategy : Strategy) (cnt : Counters) (lo : Leftover ι S) (lo' : Leftover κ S)
    (ho : M.dG = true → lo'.order = lo.order.map Φ.e) (old : StateVector ι P S) (old' : StateVector κ P' S)
    (hU : Spec.SameState Φ.e Φ.R M old.U old'.U) (hp : pr old.prec old'.prec) (hrev : Reversible D M old)
    {stages : List (ℝ × StateVector ι P S)} {stages' : List (ℝ × StateVector κ P' S)}
    (hs : SameStagesWith Φ.e Φ.R M pr stages stages') (tau tau_max : ℝ) :
    Spec.SameResult Φ.e Φ.R M (step D M par strategy cnt lo old stages tau tau_max).1
      (step D' M' par strategy cnt lo' old' stages' tau tau_max).1 ∧
    (step D' M' par strategy cnt lo' old' stages' tau tau_max).2 = (step D M par strategy cnt lo old stages tau tau_max).2 := by
  have h := equi_step hΦ hD hM hM' par strategy cnt lo lo' ho (x := old) (x' := old') ⟨hU, hp⟩ hrev
    (st := stages) (st' := stages') (hs.imp fun a b hab => ⟨hab.1, hab.2.1, hab.2.2⟩) tau tau_max
  refine ⟨?_, h.2⟩
  have h1 := h.1
  generalize (step D M par strategy cnt lo old stages tau tau_max).1 = r at h1 ⊢
  generalize (step D' M' par strategy cnt lo' old' stages' tau tau_max).1 = r' at h1 ⊢
  cases r <;> cases r' <;> exact h1

theorem frame_sameResult {S F B : Type} [AddCommGroup S] [Module ℝ S] [Fintype ι] [Fintype κ] {Φ : Frame ι κ S F B dim}
    {M : Mesh ι dim} {M' : Mesh κ dim} {D : Description ι Unit S F B dim} {D' : Description κ Unit S F B dim}
    (hD : Φ.MapsDescription (fun _ _ => True) M D D')
    (hΦ : Φ.MapsMesh M M') (hM : M.WellFormed) (hM' : M'.WellFormed) (par : Params)
    (strategy : Strategy) (cnt : Counters) (lo : Leftover ι S) (lo' : Leftover κ S)
    (ho : M.dG = true → lo'.order = lo.order.map Φ.e) (old : StateVector ι Unit S) (old' : StateVector κ Unit S)
    (hU : Spec.SameState Φ.e Φ.R M old.U old'.U) (hrev : Reversible D M old)
    {stages : List (ℝ × StateVector ι Unit S)} {stages' : List (ℝ × StateVector κ Unit S)}
    (hs : Spec.SameStages Φ.e Φ.R M stages stages') (tau tau_max : ℝ) :
    Spec.SameResult Φ.e Φ.R M (step D M par strategy cnt lo old stages tau tau_max).1
      (step D' M' par strategy cnt lo' old' stages' tau tau_max).1 ∧
    (step D' M' par strategy cnt lo' old' stages' tau tau_max).2 = (step D M par strategy cnt lo old stages tau tau_max).2 :=
  frame_sameResult_with hD hΦ hM hM' par strategy cnt lo lo' ho old old' hU trivial hrev
    (hs.imp fun _ _ hab => ⟨hab.1, hab.2, trivial⟩) tau tau_max

theorem normal_normSq {c : Vec dim} (hc : c ≠ 0) : normSq (fun k => c k / vnorm c) = 1 := by
  have h0 : 0 < normSq c := by
    rcases (normSq_nonneg c).lt_or_eq with h | h
    · exact h
    · exfalso; apply hc; funext k
      have := (Finset.sum_eq_zero_iff_of_nonneg fun i _ => mul_self_nonneg (c i)).1 h.symm k (Finset.mem_univ k)
      exact mul_self_eq_zero.1 this
  have e : (fun k => c k / vnorm c) = (vnorm c)⁻¹ • c := by funext k; simp [div_eq_inv_mul]
  rw [e, Euler.normSq_smul, vnorm, inv_pow, Real.sq_sqrt h0.le, inv_mul_cancel₀ h0.ne']

theorem Euler.reversible (p : Euler.Params) (hg : 1 < p.gamma) (lp rp) (evc_factor big : ℝ) {M : Mesh ι dim} (hM : M.WellFormed)
    (hskew : ∀ i, ∀ j ∈ M.nbrs i, ¬ (M.boundary i ∧ M.boundary j) → M.c j i = -M.c i j)
    {old : StateVector ι Unit (Euler.State dim)}
    (hadm : ∀ i, M.nbrs i ≠ [] → 0 < Euler.density (old.U i) ∧ 0 < Euler.internalEnergy (old.U i)) :
    Reversible (Euler.oneLane p lp rp evc_factor big) M old where
  rev := by
    intro i j hj hc
    exact (congrFun (Euler.C10_euler_swap (L := 1) p hg rp (fun _ => old.U i) (fun _ => old.U j) (fun _ => _)
      (fun _ => normal_normSq hc) (fun _ => hadm i (List.ne_nil_of_mem hj))
      (fun _ => hadm j (List.ne_nil_of_mem (hM.symm i j hj)))) 0).symm
  skew := hskew

theorem ShallowWater.reversible (q : ShallowWater.StepParams) (Z : ι → ℝ) {M : Mesh ι dim}
    (hskew : ∀ i, ∀ j ∈ M.nbrs i, ¬ (M.boundary i ∧ M.boundary j) → M.c j i = -M.c i j)
    (old : StateVector ι Unit (ShallowWater.State dim)) : Reversible (ShallowWater.oneLane q Z) M old where
  rev := fun _ _ _ _ => ShallowWater.C10_sw_swap q.p _ _ _
  skew := hskew

theorem Scalar.reversible (fl : Scalar.Flux dim) (q : Scalar.StepParams) {M : Mesh ι dim}
    (hskew : ∀ i, ∀ j ∈ M.nbrs i, ¬ (M.boundary i ∧ M.boundary j) → M.c j i = -M.c i j)
    (old : StateVector ι Unit Scalar.State) : Reversible (Scalar.oneLane fl q fun _ _ => []) M old where
  rev := fun _ _ _ _ => (Scalar.C10_scalar_swap fl q.rp [] _ _ _).symm
  skew := hskew

/-! ### C105 -/

/-- **C105 (gas dynamics).** Exchanging or reflecting coordinate axes (and renumbering, reordering and redistributing the degrees of
freedom) does not change what `step` computes: the outcome, the step size and the counters are the same, and the new states are
those of the original computation seen in the new frame. -/
theorem C105_euler_axes [Fintype ι] [Fintype κ] (p : Euler.Params) (hg : 1 < p.gamma) (lp : LimiterParams)
    (rp : Euler.RiemannParams) (evc_factor big : ℝ) (e : ι ≃ κ) (A : Matrix (Fin dim) (Fin dim) ℝ)
    (hA : Spec.IsAxisSymmetry A) (M : Mesh ι dim) (M' : Mesh κ dim) (hM : M.WellFormed) (hM' : M'.WellFormed)
    (hMM : Spec.SameMesh e A M M')
    (hskew : ∀ i, ∀ j ∈ M.nbrs i, ¬ (M.boundary i ∧ M.boundary j) → M.c j i = -M.c i j)
    (par : Params) (strategy : Strategy) (cnt : Counters) (lo : Leftover ι (Euler.State dim)) (lo' : Leftover κ (Euler.State dim))
    (ho : M.dG = true → lo'.order = lo.order.map e) (old : StateVector ι Unit (Euler.State dim))
    (old' : StateVector κ Unit (Euler.State dim))
    (hadm : ∀ i, M.nbrs i ≠ [] → 0 < Euler.density (old.U i) ∧ 0 < Euler.internalEnergy (old.U i))
    (hU : Spec.SameState e (Spec.moveGas A) M old.U old'.U)
    (stages : List (ℝ × StateVector ι Unit (Euler.State dim))) (stages' : List (ℝ × StateVector κ Unit (Euler.State dim)))
    (hs : Spec.SameStages e (Spec.moveGas A) M stages stages') (tau tau_max : ℝ) :
    let r := step (Euler.oneLane p lp rp evc_factor big) M par strategy cnt lo old stages tau tau_max
    let r' := step (Euler.oneLane p lp rp evc_factor big) M' par strategy cnt lo' old' stages' tau tau_max
    Spec.SameResult e (Spec.moveGas A) M r.1 r'.1 ∧ r'.2 = r.2 :=
  frame_sameResult (Φ := Euler.frame e A) (Euler.mapsDescription M e hA p lp rp evc_factor big)
    (frame_mapsMesh _ (Euler.axis_orthogonal hA) rfl hMM) hM hM' par strategy cnt lo lo' ho old old' hU
    (Euler.reversible p hg lp rp evc_factor big hM hskew hadm) hs tau tau_max

/-- **C105 (shallow water).** The same for every rotation and reflection; the bathymetry is carried along. -/
theorem C105_sw [Fintype ι] [Fintype κ] (q : ShallowWater.StepParams) (e : ι ≃ κ) (A : Matrix (Fin dim) (Fin dim) ℝ)
    (hA : A * A.transpose = 1) (Z : ι → ℝ) (Z' : κ → ℝ) (hZ : ∀ i, Z' (e i) = Z i)
    (M : Mesh ι dim) (M' : Mesh κ dim) (hM : M.WellFormed) (hM' : M'.WellFormed) (hMM : Spec.SameMesh e A M M')
    (hskew : ∀ i, ∀ j ∈ M.nbrs i, ¬ (M.boundary i ∧ M.boundary j) → M.c j i = -M.c i j)
    (par : Params) (strategy : Strategy) (cnt : Counters) (lo : Leftover ι (ShallowWater.State dim))
    (lo' : Leftover κ (ShallowWater.State dim)) (ho : M.dG = true → lo'.order = lo.order.map e)
    (old : StateVector ι Unit (ShallowWater.State dim)) (old' : StateVector κ Unit (ShallowWater.State dim))
    (hU : Spec.SameState e (Spec.moveWater A) M old.U old'.U)
    (stages : List (ℝ × StateVector ι Unit (ShallowWater.State dim)))
    (stages' : List (ℝ × StateVector κ Unit (ShallowWater.State dim)))
    (hs : Spec.SameStages e (Spec.moveWater A) M stages stages') (tau tau_max : ℝ) :
    let r := step (ShallowWater.oneLane q Z) M par strategy cnt lo old stages tau tau_max
    let r' := step (ShallowWater.oneLane q Z') M' par strategy cnt lo' old' stages' tau tau_max
    Spec.SameResult e (Spec.moveWater A) M r.1 r'.1 ∧ r'.2 = r.2 :=
  frame_sameResult (Φ := ShallowWater.frame e A) (ShallowWater.mapsDescription M e hA q Z Z' hZ)
    (frame_mapsMesh _ hA rfl hMM) hM hM' par strategy cnt lo lo' ho old old' hU
    (ShallowWater.reversible q Z hskew old) hs tau tau_max

/-- **C105 (symmetric data stay symmetric).** If the mesh is mapped to itself by a symmetry of the axes and the data are
symmetric, then so is the result of a successful step, for every continuous ansatz. -/
theorem C105_euler_symmetric [Fintype ι] (p : Euler.Params) (hg : 1 < p.gamma) (lp : LimiterParams)
    (rp : Euler.RiemannParams) (evc_factor big : ℝ) (e : ι ≃ ι) (A : Matrix (Fin dim) (Fin dim) ℝ)
    (hA : Spec.IsAxisSymmetry A) (M : Mesh ι dim) (hM : M.WellFormed) (hMM : Spec.SameMesh e A M M) (hcG : M.dG = false)
    (hskew : ∀ i, ∀ j ∈ M.nbrs i, ¬ (M.boundary i ∧ M.boundary j) → M.c j i = -M.c i j)
    (par : Params) (strategy : Strategy) (cnt : Counters) (lo : Leftover ι (Euler.State dim))
    (old : StateVector ι Unit (Euler.State dim))
    (hadm : ∀ i, M.nbrs i ≠ [] → 0 < Euler.density (old.U i) ∧ 0 < Euler.internalEnergy (old.U i))
    (hU : Spec.SameState e (Spec.moveGas A) M old.U old.U)
    (stages : List (ℝ × StateVector ι Unit (Euler.State dim)))
    (hs : ∀ s ∈ stages, Spec.SameState e (Spec.moveGas A) M s.2.U s.2.U) (tau tau_max : ℝ)
    (U : ι → Euler.State dim) (t : ℝ)
    (h : (step (Euler.oneLane p lp rp evc_factor big) M par strategy cnt lo old stages tau tau_max).1 = .done U t) :
    Spec.SameState e (Spec.moveGas A) M U U := by
  have hs' : Spec.SameStages e (Spec.moveGas A) M stages stages :=
    List.forall₂_same.2 fun s hsm => ⟨rfl, hs s hsm⟩
  have := (C105_euler_axes p hg lp rp evc_factor big e A hA M M hM hM hMM hskew par strategy cnt lo lo
    (fun h => by rw [hcG] at h; cases h) old old hadm hU stages stages hs' tau tau_max).1
  rw [h] at this
  exact this.1

/-- The same for the shallow water equations and every orthogonal symmetry. -/
theorem C105_sw_symmetric [Fintype ι] (q : ShallowWater.StepParams) (e : ι ≃ ι) (A : Matrix (Fin dim) (Fin dim) ℝ)
    (hA : A * A.transpose = 1) (Z : ι → ℝ) (hZ : ∀ i, Z (e i) = Z i)
    (M : Mesh ι dim) (hM : M.WellFormed) (hMM : Spec.SameMesh e A M M) (hcG : M.dG = false)
    (hskew : ∀ i, ∀ j ∈ M.nbrs i, ¬ (M.boundary i ∧ M.boundary j) → M.c j i = -M.c i j)
    (par : Params) (strategy : Strategy) (cnt : Counters) (lo : Leftover ι (ShallowWater.State dim))
    (old : StateVector ι Unit (ShallowWater.State dim)) (hU : Spec.SameState e (Spec.moveWater A) M old.U old.U)
    (stages : List (ℝ × StateVector ι Unit (ShallowWater.State dim)))
    (hs : ∀ s ∈ stages, Spec.SameState e (Spec.moveWater A) M s.2.U s.2.U) (tau tau_max : ℝ)
    (U : ι → ShallowWater.State dim) (t : ℝ)
    (h : (step (ShallowWater.oneLane q Z) M par strategy cnt lo old stages tau tau_max).1 = .done U t) :
    Spec.SameState e (Spec.moveWater A) M U U := by
  have hs' : Spec.SameStages e (Spec.moveWater A) M stages stages :=
    List.forall₂_same.2 fun s hsm => ⟨rfl, hs s hsm⟩
  have := (C105_sw q e A hA Z Z hZ M M hM hM hMM hskew par strategy cnt lo lo
    (fun h => by rw [hcG] at h; cases h) old old hU stages stages hs' tau tau_max).1
  rw [h] at this
  exact this.1

/-! ### Examples for C105: a mirror symmetric gas on the ring -/

/-- Densities `1, 2, 2`, no momentum, energy `1`. -/
def mirrorGas : StateVector (Fin 3) Unit (Euler.State 1) :=
  ⟨fun i => Euler.mkState (if i = 0 then 1 else 2) 0 1, ()⟩

theorem mirrorGas_admissible (i : Fin 3) (_ : ring.nbrs i ≠ []) :
    0 < Euler.density (mirrorGas.U i) ∧ 0 < Euler.internalEnergy (mirrorGas.U i) := by
  constructor
  · simp only [mirrorGas, Euler.density_mkState]; split_ifs <;> norm_num
  · simp only [mirrorGas, Euler.internalEnergy, Euler.momentum_mkState, Euler.totalEnergy_mkState]
    simp [normSq]

theorem ring_mirror : Spec.SameMesh (Equiv.neg (Fin 3)) (-1) ring ring where
  stencil := by
    intro i
    fin_cases i <;> exact List.Perm.swap _ _ _
  boundary := fun _ => Iff.rfl
  c := by
    intro i j
    funext k
    have h1 : ∀ i j : Fin 3, (-j = -i + 1) ↔ j = i + 2 := by decide
    have h2 : ∀ i j : Fin 3, (-j = -i + 2) ↔ j = i + 1 := by decide
    have h3 : ∀ i j : Fin 3, j = i + 1 → ¬ j = i + 2 := by decide
    simp only [ring, Matrix.neg_mulVec, Matrix.one_mulVec, Pi.neg_apply, Equiv.neg_apply, h1, h2]
    by_cases a : j = i + 1
    · rw [if_neg (h3 i j a), if_pos a, if_pos a]; norm_num
    · by_cases b : j = i + 2
      · rw [if_pos b, if_neg a, if_pos b]; norm_num
      · rw [if_neg b, if_neg a, if_neg a, if_neg b]; norm_num
  mass := fun i j => by simp [ring]
  massInv := fun _ _ => rfl
  lumped := fun _ => rfl
  incidence := fun _ _ => rfl
  dG := rfl
  omega := rfl

theorem mirror_axis : Spec.IsAxisSymmetry (-1 : Matrix (Fin 1) (Fin 1) ℝ) :=
  ⟨Equiv.refl _, fun _ => -1, fun _ => by norm_num, fun v k => by simp [Matrix.neg_mulVec]⟩

theorem mirror_sameState : Spec.SameState (Equiv.neg (Fin 3)) (Spec.moveGas (-1)) ring mirrorGas.U mirrorGas.U := by
  intro i _
  fin_cases i <;> simp [mirrorGas, Spec.moveGas]

/-- A step with `warn` on the ring always returns: the symmetric gas stays symmetric, so the density at the two mirror
images agrees and the momentum on the axis of symmetry stays zero. -/
example (p : Euler.Params) (hg : 1 < p.gamma) (lp : LimiterParams) (rp : Euler.RiemannParams) (evc_factor big : ℝ) (cnt : Counters)
    (lo : Leftover (Fin 3) (Euler.State 1)) : ∃ U t,
    (step (Euler.oneLane p lp rp evc_factor big) ring demoPar .warn cnt lo mirrorGas [] 0 10).1 = .done U t ∧ 0 < t ∧
    Euler.density (U 1) = Euler.density (U 2) ∧ Euler.momentum (U 0) = 0 := by
  have h11 := C11_step_tau (Euler.oneLane p lp rp evc_factor big) ring demoPar .warn cnt lo mirrorGas [] 0 10
    (by norm_num [demoPar]) (by norm_num [demoPar]) (fun _ => by norm_num [ring]) (by norm_num)
  have hre : (step (Euler.oneLane p lp rp evc_factor big) ring demoPar .warn cnt lo mirrorGas [] 0 10).1 ≠ .restart := by
    unfold step
    simp only [h11.1, not_true_eq_false, if_false]
    rw [apply_ite Prod.fst, if_pos rfl]
    intro h
    split at h <;> cases h
  cases hr : (step (Euler.oneLane p lp rp evc_factor big) ring demoPar .warn cnt lo mirrorGas [] 0 10).1 with
  | crashed => exact absurd hr h11.2.1
  | restart => exact absurd hr hre
  | done U t =>
    have ht := h11.2.2 U t hr
    rw [if_pos rfl] at ht
    have hs := C105_euler_symmetric p hg lp rp evc_factor big (Equiv.neg (Fin 3)) (-1) mirror_axis ring ring_wf ring_mirror rfl
      (fun i j hj _ => ring_closed.skew i j hj) demoPar .warn cnt lo mirrorGas
      mirrorGas_admissible
      mirror_sameState [] (fun s hs => by simp at hs) 0 10 U t hr
    refine ⟨U, t, rfl, ht ▸ h11.1, ?_, ?_⟩
    · have h := congrArg Euler.density (hs 2 (by simp [ring]))
      rw [Spec.moveGas, Euler.density_mkState] at h
      exact h
    · have h := congrArg Euler.momentum (hs 0 (by simp [ring]))
      rw [Spec.moveGas, Euler.momentum_mkState] at h
      have h2 : Euler.momentum (U 0) = -Euler.momentum (U 0) := by
        simpa [Matrix.neg_mulVec] using h
      funext k
      have := congrFun h2 k
      simp only [Pi.neg_apply] at this
      show Euler.momentum (U 0) k = 0
      linarith

/-- Two lakes that are mirror images of each other: the hypotheses of `C105_sw` with a reflection and a bathymetry. -/
example (q : ShallowWater.StepParams) (cnt : Counters) (lo lo' : Leftover (Fin 3) (ShallowWater.State 1)) :
    let Z : Fin 3 → ℝ := fun i => if i = 1 then 1 else 0
    let Z' : Fin 3 → ℝ := fun i => if i = 2 then 1 else 0
    let old : StateVector (Fin 3) Unit (ShallowWater.State 1) := ⟨fun i => ShallowWater.mkState (3 - Z i) fun _ => 2, ()⟩
    let old' : StateVector (Fin 3) Unit (ShallowWater.State 1) := ⟨fun i => ShallowWater.mkState (3 - Z' i) fun _ => -2, ()⟩
    Spec.SameResult (Equiv.neg (Fin 3)) (Spec.moveWater (-1)) ring
      (step (ShallowWater.oneLane q Z) ring demoPar .warn cnt lo old [] 0 10).1
      (step (ShallowWater.oneLane q Z') ring demoPar .warn cnt lo' old' [] 0 10).1 := by
  intro Z Z' old old'
  have hZ : ∀ i, Z' (Equiv.neg (Fin 3) i) = Z i := by
    intro i; fin_cases i <;> simp [Z, Z'] <;> decide
  refine (C105_sw q (Equiv.neg (Fin 3)) (-1) (by simp) Z Z' hZ ring ring ring_wf ring_wf ring_mirror
    (fun i j hj _ => ring_closed.skew i j hj) demoPar .warn cnt lo lo' (fun h => by simp [ring] at h) old old' ?_ [] []
    List.Forall₂.nil 0 10).1
  intro i _
  show ShallowWater.mkState (3 - Z' (Equiv.neg (Fin 3) i)) (fun _ => -2) =
    Spec.moveWater (-1) (ShallowWater.mkState (3 - Z i) fun _ => 2)
  rw [hZ]
  simp only [Spec.moveWater, ShallowWater.waterDepth_mkState, ShallowWater.momentum_mkState]
  congr 1
  funext k
  simp [Matrix.neg_mulVec]

/-! ### The indicator of the gas dynamics equations and rotations -/

/-- A rotation of the plane that does not map axes to axes. -/
def tilt : Matrix (Fin 2) (Fin 2) ℝ := !![3 / 5, -4 / 5; 4 / 5, 3 / 5]

theorem tilt_orthogonal : tilt * tilt.transpose = 1 := by
  ext i j
  fin_cases i <;> fin_cases j <;> simp [tilt, Matrix.mul_apply, Fin.sum_univ_two] <;> norm_num

theorem tilt_mulVec (a b : ℝ) : tilt.mulVec ![a, b] = ![3 / 5 * a - 4 / 5 * b, 4 / 5 * a + 3 / 5 * b] := by
  funext i
  fin_cases i <;> simp [tilt, Matrix.mulVec, dotProduct, Fin.sum_univ_two] <;> ring

theorem Euler.indicator_single (p : Euler.Params) (U V : Euler.State 2) (c : Vec 2)
    (hU : Euler.hartenEntropy p U = 1) (hV : Euler.hartenEntropy p V = 1) (hdU : Euler.density U = 1)
    (hdV : Euler.density V = 1) (W R : Euler.State 2)
    (hW : Euler.hartenEntropyDerivative p U = W)
    (hR : contract (Euler.f p V) c - contract (Euler.f p U) c = R) :
    Euler.indicator p 1 U [(V, c)] 0 =
      min 1 (|-(dot W R - R 0)| / (|W 0 * R 0 - R 0| + |W 1 * R 1| + |W 2 * R 2| + |W 3 * R 3|)) := by
  have hR' : ∀ k, dot (fun d => Euler.f p V k d - Euler.f p U k d) c = R k := by
    intro k
    rw [← hR, ← contract_sub]; rfl
  have dot4 : ∀ a b : Euler.State 2, dot a b = a 0 * b 0 + a 1 * b 1 + a 2 * b 2 + a 3 * b 3 :=
    fun a b => Fin.sum_univ_four _
  have sum4 : ∀ g : Fin (2 + 2) → ℝ, ∑ k, g k = g 0 + g 1 + g 2 + g 3 := fun g => Fin.sum_univ_four g
  have n1 : (1 : Fin (2 + 2)) ≠ 0 := by decide
  have n2 : (2 : Fin (2 + 2)) ≠ 0 := by decide
  have n3 : (3 : Fin (2 + 2)) ≠ 0 := by decide
  unfold Euler.indicator Euler.IndicatorState.alpha
  rw [Euler.numerator_eq, Euler.denominator_eq]
  simp only [List.foldl_cons, List.foldl_nil, Euler.IndicatorState.accumulate, Euler.IndicatorState.reset, hU, hV, hdU, hdV,
    hW, hR', dot4, sum4, Function.update_self, Function.update_of_ne n1, Function.update_of_ne n2, Function.update_of_ne n3,
    Pi.zero_apply, zero_add, div_one, mul_one, one_mul, sub_self, zero_mul, abs_zero, add_zero, sub_mul, zero_sub]
  congr 4
  ring

/-- Polytropic gas with `gamma = 2`. -/
def tiltGas : Euler.Params := ⟨2, 1, 1, 1, 0⟩

theorem tilt_harten (a b : ℝ) (h : a * a + b * b = 1) : Euler.hartenEntropy tiltGas (Euler.mkState 1 ![a, b] (3 / 2)) = 1 := by
  unfold Euler.hartenEntropy
  rw [Euler.density_mkState, Euler.momentum_mkState, Euler.totalEnergy_mkState]
  have : normSq ![a, b] = 1 := by simp [normSq, Fin.sum_univ_two, h]
  rw [this]
  norm_num

theorem tilt_derivative (a b : ℝ) (h : a * a + b * b = 1) :
    Euler.hartenEntropyDerivative tiltGas (Euler.mkState 1 ![a, b] (3 / 2)) =
      Euler.mkState (1 / 2) ![-(1 / 3) * a, -(1 / 3) * b] (1 / 3) := by
  unfold Euler.hartenEntropyDerivative
  rw [Euler.density_mkState, Euler.momentum_mkState, Euler.totalEnergy_mkState]
  have : normSq ![a, b] = 1 := by simp [normSq, Fin.sum_univ_two, h]
  rw [this]
  have e : (1 * (3 / 2) - 1 / 2 * 1 : ℝ) = 1 := by norm_num
  simp only [e, Real.one_rpow, tiltGas]
  refine Euler.state_ext ?_ ?_ ?_
  · rw [Euler.density_mkState, Euler.density_mkState]; norm_num
  · rw [Euler.momentum_mkState, Euler.momentum_mkState]
    funext i; fin_cases i <;> norm_num
  · rw [Euler.totalEnergy_mkState, Euler.totalEnergy_mkState]; norm_num

theorem tilt_flux (a b c d : ℝ) (h : a * a + b * b = 1) :
    contract (Euler.f tiltGas (Euler.mkState 1 ![a, b] (3 / 2))) ![c, d] =
      Euler.mkState (a * c + b * d) ![(a * c + b * d) * a + c, (a * c + b * d) * b + d] ((a * c + b * d) * (5 / 2)) := by
  have hp : Euler.pressure tiltGas (Euler.mkState 1 ![a, b] (3 / 2)) = 1 := by
    unfold Euler.pressure Euler.internalEnergy
    rw [Euler.density_mkState, Euler.momentum_mkState, Euler.totalEnergy_mkState]
    have : normSq ![a, b] = 1 := by simp [normSq, Fin.sum_univ_two, h]
    rw [this]
    norm_num [tiltGas]
  rw [Euler.contract_f, hp, Euler.density_mkState, Euler.momentum_mkState, Euler.totalEnergy_mkState]
  have hd : dot ![a, b] ![c, d] = a * c + b * d := by simp [dot, Fin.sum_univ_two]
  rw [hd]
  refine Euler.state_ext ?_ ?_ ?_
  · rw [Euler.density_mkState, Euler.density_mkState]
  · rw [Euler.momentum_mkState, Euler.momentum_mkState]
    funext i; fin_cases i <;> simp
  · rw [Euler.totalEnergy_mkState, Euler.totalEnergy_mkState]; norm_num

theorem mkState_four (r a b E : ℝ) : (Euler.mkState r ![a, b] E : Euler.State 2) = ![r, a, b, E] := by
  funext k
  have h1 := congrFun (Euler.momentum_mkState r ![a, b] E) 0
  have h2 := congrFun (Euler.momentum_mkState r ![a, b] E) 1
  have h3 := Euler.totalEnergy_mkState r ![a, b] E
  have h0 := Euler.density_mkState r ![a, b] E
  fin_cases k
  · exact h0
  · exact h1
  · exact h2
  · exact h3

/-- The indicator of a row with one neighbour. -/
theorem tilt_indicator (a b c d x y : ℝ) (h : a * a + b * b = 1) (h' : c * c + d * d = 1) :
    Euler.indicator tiltGas 1 (Euler.mkState 1 ![a, b] (3 / 2)) [(Euler.mkState 1 ![c, d] (3 / 2), ![x, y])] 0 =
      (let s := a * x + b * y
       let t := c * x + d * y
       min 1 (|-(1 / 2 * (t - s) + -(1 / 3) * a * (t * c - s * a) + -(1 / 3) * b * (t * d - s * b)
            + 1 / 3 * ((t - s) * (5 / 2)) - (t - s))| /
          (|1 / 2 * (t - s) - (t - s)| + |-(1 / 3) * a * (t * c - s * a)| + |-(1 / 3) * b * (t * d - s * b)| +
            |1 / 3 * ((t - s) * (5 / 2))|))) := by
  rw [Euler.indicator_single tiltGas _ _ _ (tilt_harten a b h) (tilt_harten c d h') (Euler.density_mkState _ _ _)
    (Euler.density_mkState _ _ _) ![1 / 2, -(1 / 3) * a, -(1 / 3) * b, 1 / 3]
    ![(c * x + d * y) - (a * x + b * y), (c * x + d * y) * c - (a * x + b * y) * a,
      (c * x + d * y) * d - (a * x + b * y) * b, ((c * x + d * y) - (a * x + b * y)) * (5 / 2)] ?_ ?_]
  · have dot4 : ∀ a b : Euler.State 2, dot a b = a 0 * b 0 + a 1 * b 1 + a 2 * b 2 + a 3 * b 3 :=
      fun a b => Fin.sum_univ_four _
    rw [dot4]
    rfl
  · rw [tilt_derivative a b h, mkState_four]
  · rw [tilt_flux a b x y h, tilt_flux c d x y h', mkState_four, mkState_four]
    funext k
    fin_cases k <;> simp <;> ring

/-- **C105 is violated** for other rotations: the entropy viscosity indicator of the gas dynamics equations sums the
absolute values of the *components* of `eta'(U_i) : sum_j f(U_j) c_ij` (euler/indicator.h:249-252), which is not invariant.  In the
frame rotated by `tilt` the same data have the indicator 25/124 instead of 1/4, so the amount of viscosity depends on the orientation of
the mesh.  (Shallow water takes the absolute value of the sum, and `C105_sw` holds.) -/
theorem C105_euler_rotation_violation : ∃ (p : Euler.Params) (A : Matrix (Fin 2) (Fin 2) ℝ) (U V : Euler.State 2) (c : Vec 2),
    1 < p.gamma ∧ A * A.transpose = 1 ∧ 0 < Euler.density U ∧ 0 < Euler.internalEnergy U ∧ 0 < Euler.density V ∧
    0 < Euler.internalEnergy V ∧
    Euler.indicator p 1 U [(V, c)] 0 = 1 / 4 ∧
    Euler.indicator p 1 (Spec.moveGas A U) [(Spec.moveGas A V, A.mulVec c)] 0 = 25 / 124 := by
  have hie : ∀ a b : ℝ, a * a + b * b = 1 → 0 < Euler.internalEnergy (Euler.mkState 1 ![a, b] (3 / 2)) := by
    intro a b h
    unfold Euler.internalEnergy
    rw [Euler.density_mkState, Euler.momentum_mkState, Euler.totalEnergy_mkState]
    have : normSq ![a, b] = 1 := by simp [normSq, Fin.sum_univ_two, h]
    rw [this]; norm_num
  have hmv : ∀ a b : ℝ, Spec.moveGas tilt (Euler.mkState 1 ![a, b] (3 / 2)) =
      Euler.mkState 1 ![3 / 5 * a - 4 / 5 * b, 4 / 5 * a + 3 / 5 * b] (3 / 2) := by
    intro a b
    rw [Spec.moveGas, Euler.density_mkState, Euler.momentum_mkState, Euler.totalEnergy_mkState, tilt_mulVec]
  refine ⟨tiltGas, tilt, Euler.mkState 1 ![1, 0] (3 / 2), Euler.mkState 1 ![0, 1] (3 / 2), ![0, 1], by norm_num [tiltGas],
    tilt_orthogonal, by rw [Euler.density_mkState]; exact one_pos, hie 1 0 (by norm_num),
    by rw [Euler.density_mkState]; exact one_pos, hie 0 1 (by norm_num), ?_, ?_⟩
  · rw [tilt_indicator 1 0 0 1 0 1 (by norm_num) (by norm_num)]
    norm_num [abs_of_pos, abs_of_neg]
  · rw [hmv, hmv, tilt_mulVec, tilt_indicator _ _ _ _ _ _ (by norm_num) (by norm_num)]
    norm_num [abs_of_pos, abs_of_neg]

/-! ### C104 -/

theorem moveGas_one : Spec.moveGas (1 : Matrix (Fin dim) (Fin dim) ℝ) = id := by
  funext U
  simp only [Spec.moveGas, Matrix.one_mulVec, Euler.mkState_eta, id]

theorem moveWater_one : Spec.moveWater (1 : Matrix (Fin dim) (Fin dim) ℝ) = id := by
  funext U
  refine ShallowWater.state_ext ?_ ?_ <;> simp [Spec.moveWater]

theorem axis_one : Spec.IsAxisSymmetry (1 : Matrix (Fin dim) (Fin dim) ℝ) :=
  ⟨Equiv.refl _, fun _ => 1, fun _ => one_mul 1, fun v k => by simp⟩

/-- **C104 (scalar equations).** `step` does not depend on how the degrees of freedom are numbered, in which order the columns
of a row are stored, how rows are distributed over ranks and groups, and what is left over in the scratch memory: the outcome,
the step size, the counters and the states of corresponding degrees of freedom are the same.  (Discontinuous ansatz: for the
same order of the rows in step 5.) -/
theorem C104_scalar [Fintype ι] [Fintype κ] (fl : Scalar.Flux dim) (q : Scalar.StepParams) (e : ι ≃ κ) (M : Mesh ι dim)
    (M' : Mesh κ dim) (hM : M.WellFormed) (hM' : M'.WellFormed) (hMM : Spec.Renumbered e M M')
    (hskew : ∀ i, ∀ j ∈ M.nbrs i, ¬ (M.boundary i ∧ M.boundary j) → M.c j i = -M.c i j)
    (par : Params) (strategy : Strategy) (cnt : Counters) (lo : Leftover ι Scalar.State) (lo' : Leftover κ Scalar.State)
    (ho : M.dG = true → lo'.order = lo.order.map e) (old : StateVector ι Unit Scalar.State)
    (old' : StateVector κ Unit Scalar.State) (hU : Spec.SameState e id M old.U old'.U)
    (stages : List (ℝ × StateVector ι Unit Scalar.State)) (stages' : List (ℝ × StateVector κ Unit Scalar.State))
    (hs : Spec.SameStages e id M stages stages') (tau tau_max : ℝ) :
    let r := step (Scalar.oneLane fl q fun _ _ => []) M par strategy cnt lo old stages tau tau_max
    let r' := step (Scalar.oneLane fl q fun _ _ => []) M' par strategy cnt lo' old' stages' tau tau_max
    Spec.SameResult e id M r.1 r'.1 ∧ r'.2 = r.2 := by
  have hid : ⇑(Scalar.frame (dim := dim) e).R = id := rfl
  rw [← hid] at hU hs ⊢
  have hD := Scalar.mapsDescription M e fl q (fun _ _ => []) (fun _ _ => []) fun _ _ => rfl
  have hΦ : (Scalar.frame (dim := dim) e).MapsMesh M M' := renumbered_mapsMesh _ rfl hMM
  exact frame_sameResult hD hΦ hM hM' par strategy cnt lo lo' ho old old' hU
    (Scalar.reversible fl q hskew old) hs tau tau_max

/-- **C104 (gas dynamics).** -/
theorem C104_euler [Fintype ι] [Fintype κ] (p : Euler.Params) (hg : 1 < p.gamma) (lp : LimiterParams)
    (rp : Euler.RiemannParams) (evc_factor big : ℝ) (e : ι ≃ κ) (M : Mesh ι dim) (M' : Mesh κ dim)
    (hM : M.WellFormed) (hM' : M'.WellFormed) (hMM : Spec.Renumbered e M M')
    (hskew : ∀ i, ∀ j ∈ M.nbrs i, ¬ (M.boundary i ∧ M.boundary j) → M.c j i = -M.c i j)
    (par : Params) (strategy : Strategy) (cnt : Counters) (lo : Leftover ι (Euler.State dim)) (lo' : Leftover κ (Euler.State dim))
    (ho : M.dG = true → lo'.order = lo.order.map e) (old : StateVector ι Unit (Euler.State dim))
    (old' : StateVector κ Unit (Euler.State dim))
    (hadm : ∀ i, M.nbrs i ≠ [] → 0 < Euler.density (old.U i) ∧ 0 < Euler.internalEnergy (old.U i))
    (hU : Spec.SameState e id M old.U old'.U)
    (stages : List (ℝ × StateVector ι Unit (Euler.State dim))) (stages' : List (ℝ × StateVector κ Unit (Euler.State dim)))
    (hs : Spec.SameStages e id M stages stages') (tau tau_max : ℝ) :
    let r := step (Euler.oneLane p lp rp evc_factor big) M par strategy cnt lo old stages tau tau_max
    let r' := step (Euler.oneLane p lp rp evc_factor big) M' par strategy cnt lo' old' stages' tau tau_max
    Spec.SameResult e id M r.1 r'.1 ∧ r'.2 = r.2 := by
  rw [← moveGas_one] at hU hs ⊢
  exact C105_euler_axes p hg lp rp evc_factor big e 1 axis_one M M' hM hM' (renumbered_sameMesh hMM) hskew par strategy cnt
    lo lo' ho old old' hadm hU stages stages' hs tau tau_max

/-- **C104 (shallow water).** -/
theorem C104_sw [Fintype ι] [Fintype κ] (q : ShallowWater.StepParams) (e : ι ≃ κ)
    (Z : ι → ℝ) (Z' : κ → ℝ) (hZ : ∀ i, Z' (e i) = Z i) (M : Mesh ι dim) (M' : Mesh κ dim) (hM : M.WellFormed)
    (hM' : M'.WellFormed) (hMM : Spec.Renumbered e M M')
    (hskew : ∀ i, ∀ j ∈ M.nbrs i, ¬ (M.boundary i ∧ M.boundary j) → M.c j i = -M.c i j)
    (par : Params) (strategy : Strategy) (cnt : Counters) (lo : Leftover ι (ShallowWater.State dim))
    (lo' : Leftover κ (ShallowWater.State dim)) (ho : M.dG = true → lo'.order = lo.order.map e)
    (old : StateVector ι Unit (ShallowWater.State dim)) (old' : StateVector κ Unit (ShallowWater.State dim))
    (hU : Spec.SameState e id M old.U old'.U)
    (stages : List (ℝ × StateVector ι Unit (ShallowWater.State dim)))
    (stages' : List (ℝ × StateVector κ Unit (ShallowWater.State dim)))
    (hs : Spec.SameStages e id M stages stages') (tau tau_max : ℝ) :
    let r := step (ShallowWater.oneLane q Z) M par strategy cnt lo old stages tau tau_max
    let r' := step (ShallowWater.oneLane q Z') M' par strategy cnt lo' old' stages' tau tau_max
    Spec.SameResult e id M r.1 r'.1 ∧ r'.2 = r.2 := by
  rw [← moveWater_one] at hU hs ⊢
  exact C105_sw q e 1 (by simp) Z Z' hZ M M' hM hM' (renumbered_sameMesh hMM) hskew par strategy cnt lo lo' ho old old' hU
    stages stages' hs tau tau_max

/-- The ring with columns in the opposite order, numbered against the storage order, with all lower entries skipped. -/
def ringBack : Mesh (Fin 3) 1 :=
  { ring with
    nbrs := fun i => [i + 2, i + 1]
    below := fun i j => i < j
    skip := fun i j => i < j }

theorem ringBack_wf : ringBack.WellFormed where
  nodup := by intro i; fin_cases i <;> simp [ringBack]
  irrefl := by intro i; fin_cases i <;> simp [ringBack]
  symm := by intro i j; fin_cases i <;> fin_cases j <;> simp [ringBack]
  asymm := fun i j h => not_lt.2 (le_of_lt h)
  skip_below := fun _ _ h => h

theorem ring_renumbered : Spec.Renumbered (Equiv.addRight (1 : Fin 3)) ring ringBack where
  stencil := by
    intro i
    fin_cases i <;> exact List.Perm.swap _ _ _
  boundary := fun _ => Iff.rfl
  c := by
    intro i j
    fin_cases i <;> fin_cases j <;> simp [ring, ringBack]
  mass := fun i j => by simp [ring, ringBack]
  massInv := fun _ _ => rfl
  lumped := fun _ => rfl
  incidence := fun _ _ => rfl
  dG := rfl
  omega := rfl

/-- The hypotheses of `C104_scalar` hold for Burgers' equation on the ring, renumbered cyclically. -/
example (q : Scalar.StepParams) (cnt : Counters) (lo lo' : Leftover (Fin 3) Scalar.State) :
    Spec.SameResult (Equiv.addRight (1 : Fin 3)) id ring
      (step (Scalar.oneLane (Scalar.burgers 1 (1 / 1000)) q fun _ _ => []) ring demoPar .raise_exception cnt lo demoOld [] 0 10).1
      (step (Scalar.oneLane (Scalar.burgers 1 (1 / 1000)) q fun _ _ => []) ringBack demoPar .raise_exception cnt lo'
        ⟨fun i => demoOld.U ((Equiv.addRight (1 : Fin 3)).symm i), ()⟩ [] 0 10).1 :=
  (C104_scalar _ q (Equiv.addRight (1 : Fin 3)) ring ringBack ring_wf ringBack_wf ring_renumbered
    (fun i j hj _ => ring_closed.skew i j hj) demoPar .raise_exception cnt lo lo' (fun h => by simp [ring] at h) demoOld _
    (fun i _ => by simp) [] [] List.Forall₂.nil 0 10).1

/-- The same for a gas. -/
example (p : Euler.Params) (hg : 1 < p.gamma) (lp : LimiterParams) (rp : Euler.RiemannParams) (evc_factor big : ℝ) (cnt : Counters)
    (lo lo' : Leftover (Fin 3) (Euler.State 1)) :
    Spec.SameResult (Equiv.addRight (1 : Fin 3)) id ring
      (step (Euler.oneLane p lp rp evc_factor big) ring demoPar .raise_exception cnt lo mirrorGas [] 0 10).1
      (step (Euler.oneLane p lp rp evc_factor big) ringBack demoPar .raise_exception cnt lo'
        ⟨fun i => mirrorGas.U ((Equiv.addRight (1 : Fin 3)).symm i), ()⟩ [] 0 10).1 :=
  (C104_euler p hg lp rp evc_factor big (Equiv.addRight (1 : Fin 3)) ring ringBack ring_wf ringBack_wf ring_renumbered
    (fun i j hj _ => ring_closed.skew i j hj) demoPar .raise_exception cnt lo lo' (fun h => by simp [ring] at h) mirrorGas _
    mirrorGas_admissible (fun i _ => by simp) [] [] List.Forall₂.nil 0 10).1

/-! ### The discontinuous ansatz -/

/-- Three degrees of freedom in a row, discontinuous ansatz. -/
def chain : Mesh (Fin 3) 1 :=
  { ring with
    nbrs := fun i => if i = 0 then [1] else if i = 1 then [0, 2] else [1]
    dG := true }

theorem chain_wf : chain.WellFormed where
  nodup := by intro i; fin_cases i <;> simp [chain]
  irrefl := by intro i; fin_cases i <;> simp [chain]
  symm := by intro i j; fin_cases i <;> fin_cases j <;> simp [chain]
  asymm := fun i j h => not_lt.2 (le_of_lt h)
  skip_below := fun _ _ h => h.elim

/-- **C104 (violation, discontinuous ansatz).** The bounds are extended over the stencil in place, in a loop that runs in parallel over
the rows: with the bounds `[i, i]` of three degrees of freedom in a row, the bounds used to limit the first one are `[0, 1]` if the
rows are processed in increasing order and `[0, 2]` if they are processed in decreasing order. -/
theorem C104_dG_order_violation (fl : Scalar.Flux 1) (q : Scalar.StepParams) :
    let D := Scalar.oneLane (ι := Fin 3) fl q fun _ _ => []
    let b : Fin 3 → Scalar.Bounds := fun i => ⟨(i : ℕ), (i : ℕ)⟩
    boundsStep5 D chain [0, 1, 2] b 0 = ⟨0, 1⟩ ∧ boundsStep5 D chain [2, 1, 0] b 0 = ⟨0, 2⟩ := by
  intro D b
  have hd : chain.dG = true := rfl
  have ha : ∀ i, chain.active i := by intro i; fin_cases i <;> simp [chain, Mesh.active]
  have h0 : ∀ b : Fin 3 → Scalar.Bounds, combineRow D chain b 0 = Scalar.combineBounds (b 0) (b 1) := fun b => by
    simp [combineRow, chain]; rfl
  have h1 : ∀ b : Fin 3 → Scalar.Bounds,
      combineRow D chain b 1 = Scalar.combineBounds (Scalar.combineBounds (b 1) (b 0)) (b 2) := fun b => by
    simp [combineRow, chain]; rfl
  have h2 : ∀ b : Fin 3 → Scalar.Bounds, combineRow D chain b 2 = Scalar.combineBounds (b 2) (b 1) := fun b => by
    simp [combineRow, chain]; rfl
  constructor
  · simp only [boundsStep5, hd, if_true, List.foldl_cons, List.foldl_nil, ha, h0, h1, h2]
    simp [Function.update, Scalar.combineBounds, b]
  · simp only [boundsStep5, hd, if_true, List.foldl_cons, List.foldl_nil, ha, h0, h1, h2]
    simp [Function.update, Scalar.combineBounds, b]

end

end Ryujin
