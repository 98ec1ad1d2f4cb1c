import Verif.Proofs.StepCongr
import Verif.Proofs.HyperbolicStep

/-!
# `step` commutes with a change of the numbering and of the frame of reference
-/

namespace Ryujin
namespace Hyp

noncomputable section

variable {ι κ P P' S F B : Type} {dim : ℕ}

/-- A change of the numbering of the degrees of freedom (`e`) and of the frame of reference: `Q` acts on vectors, `R` on
states, `RF` on flux contributions, `RB` on limiter bounds. -/
structure Frame (ι κ S F B : Type) (dim : ℕ) [AddCommGroup S] [Module ℝ S] where
  e : ι ≃ κ
  Q : Vec dim →ₗ[ℝ] Vec dim
  R : S →ₗ[ℝ] S
  RF : F → F
  RB : B → B

variable [AddCommGroup S] [Module ℝ S]

/-- A column of the stencil in the new frame. -/
def Frame.entry (Φ : Frame ι κ S F B dim) (x : LimiterEntry ι S F dim) : LimiterEntry κ S F dim where
  j := Φ.e x.j
  U_j := Φ.R x.U_j
  flux_j := Φ.RF x.flux_j
  star_ij := Φ.R x.star_ij
  star_ji := Φ.R x.star_ji
  scaled_c := Φ.Q x.scaled_c
  affine_shift := Φ.R x.affine_shift

/-- The same mesh in another numbering and another frame.  Nothing is said about `below` and `skip`, which depend on the
distribution of the rows over ranks and SIMD groups, nor about the order of the columns in a row. -/
structure Frame.MapsMesh (Φ : Frame ι κ S F B dim) (M : Mesh ι dim) (M' : Mesh κ dim) : Prop where
  norm : ∀ c, vnorm (Φ.Q c) = vnorm c
  nbrs : ∀ i, (M'.nbrs (Φ.e i)).Perm ((M.nbrs i).map Φ.e)
  boundary : ∀ i, M'.boundary (Φ.e i) ↔ M.boundary i
  c : ∀ i j, M'.c (Φ.e i) (Φ.e j) = Φ.Q (M.c i j)
  mass : ∀ i j, M'.mass (Φ.e i) (Φ.e j) = M.mass i j
  massInv : ∀ i j, M'.massInv (Φ.e i) (Φ.e j) = M.massInv i j
  lumped : ∀ i, M'.lumped (Φ.e i) = M.lumped i
  incidence : ∀ i j, M'.incidence (Φ.e i) (Φ.e j) = M.incidence i j
  dG : M'.dG = M.dG
  omega : M'.omega = M.omega

/-- The equations in the new frame: every operation commutes with the change of frame, and those that work on a stencil
do not depend on the order of its columns.  `pr` relates the precomputed values, which are used on unconstrained rows of `M`. -/
structure Frame.MapsDescription (Φ : Frame ι κ S F B dim) (pr : P → P' → Prop) (M : Mesh ι dim) (D : Description ι P S F B dim)
    (D' : Description κ P' S F B dim) : Prop where
  riemann : ∀ p p', pr p p' → ∀ i j, M.active i → M.active j → ∀ U V n, D'.riemann p' (Φ.e i) (Φ.e j) (Φ.R U) (Φ.R V) (Φ.Q n) = D.riemann p i j U V n
  indicator : ∀ p p', pr p p' → ∀ i, M.active i → ∀ U row row' h, row'.Perm (row.map fun x => (Φ.e x.1, Φ.R x.2.1, Φ.Q x.2.2)) →
    D'.indicator p' (Φ.e i) (Φ.R U) row' h = D.indicator p i U row h
  flux : ∀ p p', pr p p' → ∀ i, M.active i → ∀ U, D'.flux p' (Φ.e i) (Φ.R U) = Φ.RF (D.flux p i U)
  fluxDiv : ∀ f g c, D'.fluxDiv (Φ.RF f) (Φ.RF g) (Φ.Q c) = Φ.R (D.fluxDiv f g c)
  highOrder : ∀ f g c, D'.highOrder (Φ.RF f) (Φ.RF g) (Φ.Q c) = Φ.R (D.highOrder f g c)
  source : ∀ p p', pr p p' → ∀ i, M.active i → ∀ U tau, D'.source p' (Φ.e i) (Φ.R U) tau = Φ.R (D.source p i U tau)
  stars : ∀ U f V g, D'.stars (Φ.R U) (Φ.RF f) (Φ.R V) (Φ.RF g) = (Φ.R (D.stars U f V g).1, Φ.R (D.stars U f V g).2)
  affineShift : ∀ f g c d, D'.affineShift (Φ.RF f) (Φ.RF g) (Φ.Q c) d = Φ.R (D.affineShift f g c d)
  limiterBounds : ∀ p p', pr p p' → ∀ i, M.active i → ∀ U f row row' h, (∀ x ∈ row, M.active x.j) → row'.Perm (row.map Φ.entry) →
    D'.limiterBounds p' (Φ.e i) (Φ.R U) (Φ.RF f) row' h = Φ.RB (D.limiterBounds p i U f row h)
  combine : ∀ a b, D'.combine (Φ.RB a) (Φ.RB b) = Φ.RB (D.combine a b)
  combine_comm : ∀ a b c, D'.combine (D'.combine a b) c = D'.combine (D'.combine a c) b
  limit : ∀ i j b U V, D'.limit (Φ.e i) (Φ.e j) (Φ.RB b) (Φ.R U) (Φ.R V) = D.limit i j b U V

/-- Two state vectors describe the same state in the two frames. -/
structure Frame.MapsState (Φ : Frame ι κ S F B dim) (pr : P → P' → Prop) (M : Mesh ι dim) (x : StateVector ι P S)
    (x' : StateVector κ P' S) : Prop where
  U : ∀ i, M.active i → x'.U (Φ.e i) = Φ.R (x.U i)
  prec : pr x.prec x'.prec

/-- Two lists of stages. -/
def Frame.MapsStages (Φ : Frame ι κ S F B dim) (pr : P → P' → Prop) (M : Mesh ι dim) :
    List (ℝ × StateVector ι P S) → List (ℝ × StateVector κ P' S) → Prop :=
  List.Forall₂ fun a b => b.1 = a.1 ∧ Φ.MapsState pr M a.2 b.2

/-- The viscosity does not depend on which of the two rows of a pair computes it (C10 and C11). -/
structure Reversible (D : Description ι P S F B dim) (M : Mesh ι dim) (old : StateVector ι P S) : Prop where
  rev : ∀ i, ∀ j ∈ M.nbrs i, M.c i j ≠ 0 →
      D.riemann old.prec i j (old.U i) (old.U j) (fun k => M.c i j k / vnorm (M.c i j)) =
        D.riemann old.prec j i (old.U j) (old.U i) (-fun k => M.c i j k / vnorm (M.c i j))
  skew : ∀ i, ∀ j ∈ M.nbrs i, ¬ (M.boundary i ∧ M.boundary j) → M.c j i = -M.c i j

theorem equi_map_sum {T : Type} (R : S →ₗ[ℝ] S) (f : T → S) (l : List T) :
    R (l.map f).sum = (l.map fun t => R (f t)).sum := by
  induction l with
  | nil => simp
  | cons a l ih => simp [ih]

section lemmas

variable {Φ : Frame ι κ S F B dim} {pr : P → P' → Prop} {M : Mesh ι dim} {M' : Mesh κ dim} (hΦ : Φ.MapsMesh M M')

include hΦ

theorem equi_mem {i j : ι} : Φ.e j ∈ M'.nbrs (Φ.e i) ↔ j ∈ M.nbrs i := by
  rw [(hΦ.nbrs i).mem_iff, List.mem_map_of_injective Φ.e.injective]

theorem equi_active {i : ι} : M'.active (Φ.e i) ↔ M.active i := by
  unfold Mesh.active
  have := (hΦ.nbrs i).length_eq
  rw [List.length_map] at this
  rw [← List.length_pos_iff, ← List.length_pos_iff, this]

theorem equi_length (i : ι) : (M'.nbrs (Φ.e i)).length = (M.nbrs i).length := by
  rw [(hΦ.nbrs i).length_eq, List.length_map]

theorem equi_columns (i : ι) : (M'.columns (Φ.e i)).Perm ((M.columns i).map Φ.e) := by
  unfold Mesh.columns
  rw [List.map_cons]
  exact (hΦ.nbrs i).cons _

theorem equi_sum_nbrs {i : ι} {f : ι → S} {f' : κ → S} (h : ∀ j ∈ M.nbrs i, f' (Φ.e j) = Φ.R (f j)) :
    ((M'.nbrs (Φ.e i)).map f').sum = Φ.R ((M.nbrs i).map f).sum := by
  rw [((hΦ.nbrs i).map f').sum_eq, equi_map_sum, List.map_map]
  congr 1
  exact List.map_congr_left h

theorem equi_sum_columns {i : ι} {f : ι → S} {f' : κ → S} (h : ∀ j ∈ M.columns i, f' (Φ.e j) = Φ.R (f j)) :
    ((M'.columns (Φ.e i)).map f').sum = Φ.R ((M.columns i).map f).sum := by
  rw [((equi_columns hΦ i).map f').sum_eq, equi_map_sum, List.map_map]
  congr 1
  exact List.map_congr_left h

theorem equi_normal {i j : ι} : (fun k => M'.c (Φ.e i) (Φ.e j) k / vnorm (M'.c (Φ.e i) (Φ.e j))) =
    Φ.Q (fun k => M.c i j k / vnorm (M.c i j)) := by
  have e1 : (fun k => M.c i j k / vnorm (M.c i j)) = (vnorm (M.c i j))⁻¹ • M.c i j := by
    funext k; simp [div_eq_inv_mul]
  rw [e1, map_smul, hΦ.c, hΦ.norm]
  funext k
  simp [div_eq_inv_mul]

variable {D : Description ι P S F B dim} {D' : Description κ P' S F B dim} (hD : Φ.MapsDescription pr M D D')
  {x : StateVector ι P S} {x' : StateVector κ P' S} (hx : Φ.MapsState pr M x x')

include hD hx

theorem equi_viscosityEntry {i j : ι} (hi : M.active i) (hj : M.active j) :
    viscosityEntry D' M' x' (Φ.e i) (Φ.e j) = viscosityEntry D M x i j := by
  unfold viscosityEntry
  simp only
  rw [equi_normal hΦ, hΦ.c, hΦ.norm, hx.U i hi, hx.U j hj, hD.riemann _ _ hx.prec _ _ hi hj]

theorem equi_reversible (hM : M.WellFormed) (h : Reversible D M x) : Reversible D' M' x' where
  rev := by
    intro i' j' hj hc
    obtain ⟨i, rfl⟩ := Φ.e.surjective i'
    obtain ⟨j, rfl⟩ := Φ.e.surjective j'
    rw [equi_mem hΦ] at hj
    have hi' := self_active hj
    have hj' := nbr_active hM hj
    rw [equi_normal hΦ, ← map_neg, hx.U i hi', hx.U j hj', hD.riemann _ _ hx.prec _ _ hi' hj', hD.riemann _ _ hx.prec _ _ hj' hi']
    refine h.rev i j hj fun h0 => hc ?_
    rw [hΦ.c, h0, map_zero]
  skew := by
    intro i' j' hj hb
    obtain ⟨i, rfl⟩ := Φ.e.surjective i'
    obtain ⟨j, rfl⟩ := Φ.e.surjective j'
    rw [equi_mem hΦ] at hj
    rw [hΦ.boundary, hΦ.boundary] at hb
    rw [hΦ.c, hΦ.c, h.skew i j hj hb, map_neg]

variable (hM : M.WellFormed) (hM' : M'.WellFormed) (hrev : Reversible D M x)

include hM hM' hrev

theorem equi_dOff (st : ι → ι → ℝ) (st' : κ → κ → ℝ) {i j : ι} (hj : j ∈ M.nbrs i) :
    dOff D' M' st' x' (Φ.e i) (Φ.e j) = dOff D M st x i j := by
  have h' := equi_reversible hΦ hD hx hM hrev
  rw [dOff_eq D M hM st x hrev.rev hrev.skew hj,
    dOff_eq D' M' hM' st' x' h'.rev h'.skew ((equi_mem hΦ).2 hj)]
  have hi' := self_active hj
  have hj' := nbr_active hM hj
  have e1 := equi_viscosityEntry hΦ hD hx hi' hj'
  have e2 := equi_viscosityEntry hΦ hD hx hj' hi'
  unfold viscosityEntry at e1 e2
  simp only at e1 e2
  first
    | rw [e1, e2]
    | (unfold viscosityEntry; simp only; rw [e1, e2])

theorem equi_dDiag (par : Params) (st : ι → ι → ℝ) (st' : κ → κ → ℝ) (i : ι) :
    dDiag D' M' par st' x' (Φ.e i) = dDiag D M par st x i := by
  unfold dDiag
  rw [((hΦ.nbrs i).map _).sum_eq, List.map_map]
  rw [List.map_congr_left (f := dOff D' M' st' x' (Φ.e i) ∘ Φ.e) (g := dOff D M st x i) fun j hj => equi_dOff hΦ hD hx hM hM' hrev st st' hj]

theorem equi_tauMax [Fintype ι] [Fintype κ] (par : Params) (st : ι → ι → ℝ) (st' : κ → κ → ℝ) (tau_max : ℝ) :
    tauMax D' M' par st' x' tau_max = tauMax D M par st x tau_max := by
  classical
  unfold tauMax
  have hset : (Finset.univ.filter M'.active) = (Finset.univ.filter M.active).map Φ.e.toEmbedding := by
    ext k
    obtain ⟨i, rfl⟩ := Φ.e.surjective k
    simp [equi_active hΦ]
  rw [hset, Finset.fold_map]
  refine Finset.fold_congr fun i _ => ?_
  simp only [Function.comp, Equiv.coe_toEmbedding, tauRow]
  rw [equi_dDiag hΦ hD hx hM hM' hrev par st st' i, hΦ.lumped]

omit hM' hrev in
theorem equi_alpha {i : ι} (hi : M.active i) : alpha D' M' x' (Φ.e i) = alpha D M x i := by
  unfold alpha
  rw [hΦ.lumped, hΦ.omega, hx.U i hi]
  refine hD.indicator _ _ hx.prec i hi (x.U i) _ _ _ ?_
  refine ((equi_columns hΦ i).map _).trans (List.Perm.of_eq ?_)
  rw [List.map_map, List.map_map]
  refine List.map_congr_left fun j hj => ?_
  simp only [Function.comp, hΦ.c, hx.U j (col_active hM hi hj)]

end lemmas

/-- Two settings of step 4 describe the same data in two frames. -/
structure Frame.Maps4 (Φ : Frame ι κ S F B dim) (pr : P → P' → Prop) (M : Mesh ι dim) (X : Stage4 ι P S)
    (X' : Stage4 κ P' S) : Prop where
  old : Φ.MapsState pr M X.old X'.old
  stages : Φ.MapsStages pr M X.stages X'.stages
  tau : X'.tau = X.tau
  d : ∀ i, ∀ j ∈ M.columns i, X'.d (Φ.e i) (Φ.e j) = X.d i j
  alpha : ∀ i, M.active i → X'.alpha (Φ.e i) = X.alpha i

section step4

variable {Φ : Frame ι κ S F B dim} {pr : P → P' → Prop} {M : Mesh ι dim} {M' : Mesh κ dim} (hΦ : Φ.MapsMesh M M')
  {D : Description ι P S F B dim} {D' : Description κ P' S F B dim} (hD : Φ.MapsDescription pr M D D')
  (hM : M.WellFormed)

theorem equi_stage4 [Fintype ι] [Fintype κ] (hΦ : Φ.MapsMesh M M') (hD : Φ.MapsDescription pr M D D') (hM : M.WellFormed)
    (hM' : M'.WellFormed) (par : Params) (lo : Leftover ι S) (lo' : Leftover κ S)
    {x : StateVector ι P S} {x' : StateVector κ P' S} (hx : Φ.MapsState pr M x x') (hrev : Reversible D M x)
    {st : List (ℝ × StateVector ι P S)} {st' : List (ℝ × StateVector κ P' S)} (hs : Φ.MapsStages pr M st st') (tau : ℝ) :
    Φ.Maps4 pr M (stage4 D M par lo x st tau) (stage4 D' M' par lo' x' st' tau) where
  old := hx
  stages := hs
  tau := rfl
  d := by
    intro i j hj
    simp only [stage4]
    by_cases hij : i = j
    · rw [if_pos hij, if_pos (congrArg Φ.e hij), equi_dDiag hΦ hD hx hM hM' hrev par lo.dij lo'.dij i]
    · rw [if_neg hij, if_neg (fun h => hij (Φ.e.injective h))]
      have : j ∈ M.nbrs i := (List.mem_cons.1 hj).resolve_left fun h => hij h.symm
      exact equi_dOff hΦ hD hx hM hM' hrev lo.dij lo'.dij this
  alpha := fun i hi => equi_alpha hΦ hD hx hM hi

variable {X : Stage4 ι P S} {X' : Stage4 κ P' S} (h : Φ.Maps4 pr M X X')

include h

theorem equi_weight : X'.weight = X.weight := by
  have : ∀ a : ℝ, ∀ l l', Φ.MapsStages pr M l l' →
      l'.foldl (fun a (s : ℝ × StateVector κ P' S) => a + s.1) a =
        l.foldl (fun a (s : ℝ × StateVector ι P S) => a + s.1) a := by
    intro a l l' hl
    induction hl generalizing a with
    | nil => rfl
    | cons hab _ ih => simp only [List.foldl_cons, hab.1, ih]
  rw [Stage4.weight, Stage4.weight, this _ _ _ h.stages]

theorem equi_sum_stages {f : ℝ × StateVector ι P S → S} {f' : ℝ × StateVector κ P' S → S}
    (hf : ∀ a b, b.1 = a.1 ∧ Φ.MapsState pr M a.2 b.2 → f' b = Φ.R (f a)) :
    (X'.stages.map f').sum = Φ.R (X.stages.map f).sum := by
  rw [equi_map_sum]
  congr 1
  exact (map_congr₂ h.stages fun a b hab => (hf a b hab).symm).symm

include hD

theorem equi_fluxAt {i : ι} (hi : M.active i) : fluxAt D' X' (Φ.e i) = Φ.RF (fluxAt D X i) := by
  rw [fluxAt, fluxAt, h.old.U i hi, hD.flux _ _ h.old.prec _ hi]

theorem equi_sourceAt {i : ι} (hi : M.active i) : sourceAt D' X' (Φ.e i) = Φ.R (sourceAt D X i) := by
  rw [sourceAt, sourceAt, h.old.U i hi, hD.source _ _ h.old.prec _ hi, h.tau]

theorem equi_stageSource {i : ι} (hi : M.active i) {a : ℝ × StateVector ι P S} {b : ℝ × StateVector κ P' S}
    (hab : Φ.MapsState pr M a.2 b.2) : stageSource D' X' b (Φ.e i) = Φ.R (stageSource D X a i) := by
  rw [stageSource, stageSource, hab.U i hi, hD.source _ _ hab.prec _ hi, h.tau]

theorem equi_sourceH {i : ι} (hi : M.active i) : sourceH D' X' (Φ.e i) = Φ.R (sourceH D X i) := by
  rw [sourceH, sourceH, map_add, map_smul, equi_weight h, equi_sourceAt hD h hi,
    equi_sum_stages h fun a b hab => ?_]
  rw [map_smul, hab.1, equi_stageSource hD h hi hab.2]

theorem equi_jump {i j : ι} (hi : M.active i) (hj : M.active j) : jump D' X' (Φ.e i) (Φ.e j) = Φ.R (jump D X i j) := by
  simp only [jump, h.old.U i hi, h.old.U j hj, equi_fluxAt hD h hi, equi_fluxAt hD h hj, hD.stars, map_sub]

include hΦ

theorem equi_fluxIJ {i j : ι} (hi : M.active i) (hj : M.active j) :
    fluxIJ D' M' X' (Φ.e i) (Φ.e j) = Φ.R (fluxIJ D M X i j) := by
  rw [fluxIJ, fluxIJ, equi_fluxAt hD h hi, equi_fluxAt hD h hj, hΦ.c, hD.fluxDiv]

omit hD in
theorem equi_dH {i j : ι} (hi : M.active i) (hj : M.active j) (hc : j ∈ M.columns i) :
    dH M' X' (Φ.e i) (Φ.e j) = dH M X i j := by
  simp only [dH, h.alpha i hi, h.alpha j hj, h.d i j hc, hΦ.dG, hΦ.incidence]

theorem equi_highOrderPart {i j : ι} (hi : M.active i) (hj : M.active j) :
    highOrderPart D' M' X' (Φ.e i) (Φ.e j) = Φ.R (highOrderPart D M X i j) := by
  rw [highOrderPart, highOrderPart, map_add, map_add, map_smul, map_smul, equi_weight h, highOrderIJ, highOrderIJ,
    equi_fluxAt hD h hi, equi_fluxAt hD h hj, hΦ.c, hD.highOrder, equi_sourceAt hD h hj, hΦ.mass,
    equi_sum_stages h fun a b hab => ?_]
  rw [map_add, map_smul, map_smul, hab.1, stageFluxIJ, stageFluxIJ, hab.2.U i hi, hab.2.U j hj, hD.flux _ _ hab.2.prec _ hi,
    hD.flux _ _ hab.2.prec _ hj, hΦ.c, hD.highOrder, equi_stageSource hD h hj hab.2]

theorem equi_pStep4 {i j : ι} (hi : M.active i) (hj : M.active j) (hc : j ∈ M.columns i) :
    pStep4 D' M' X' (Φ.e i) (Φ.e j) = Φ.R (pStep4 D M X i j) := by
  rw [pStep4, pStep4, equi_fluxIJ hΦ hD h hi hj, h.d i j hc, equi_dH hΦ h hi hj hc,
    equi_jump hD h hi hj, equi_sourceAt hD h hi, equi_highOrderPart hΦ hD h hi hj, hΦ.mass]
  simp only [map_add, map_sub, map_neg, map_smul]

include hM

theorem equi_lowOrder {i : ι} (hi : M.active i) : lowOrder D' M' X' (Φ.e i) = Φ.R (lowOrder D M X i) := by
  rw [lowOrder, lowOrder, map_add, map_add, map_smul, h.tau, h.old.U i hi, equi_sourceAt hD h hi]
  congr 1
  refine equi_sum_columns hΦ fun j hj => ?_
  have hj' := col_active hM hi hj
  rw [map_add, map_smul, map_smul, equi_fluxIJ hΦ hD h hi hj', h.d i j hj, equi_jump hD h hi hj', hΦ.lumped]

theorem equi_rhsH {i : ι} (hi : M.active i) : rhsH D' M' X' (Φ.e i) = Φ.R (rhsH D M X i) := by
  rw [rhsH, rhsH, map_add, map_smul, equi_sourceH hD h hi, hΦ.lumped]
  congr 1
  refine equi_sum_columns hΦ fun j hj => ?_
  have hj' := col_active hM hi hj
  rw [map_add, map_sub, map_smul, map_smul, equi_dH hΦ h hi hj' hj, equi_jump hD h hi hj',
    equi_highOrderPart hΦ hD h hi hj', hΦ.mass]

theorem equi_pIJ {i j : ι} (hj : j ∈ M.nbrs i) : pIJ D' M' X' (Φ.e i) (Φ.e j) = Φ.R (pIJ D M X i j) := by
  have hi := self_active hj
  have hj' := nbr_active hM hj
  rw [pIJ, pIJ, h.tau, equi_pStep4 hΦ hD h hi hj' (List.mem_cons_of_mem _ hj), equi_rhsH hΦ hD hM h hi,
    equi_rhsH hΦ hD hM h hj', equi_length hΦ, hΦ.lumped]
  simp only [bIJ, bJI, hΦ.dG, hΦ.lumped, hΦ.mass, hΦ.massInv, map_add, map_sub, map_smul]

theorem equi_affineShiftAt {i : ι} (hi : M.active i) :
    affineShiftAt D' M' X' (Φ.e i) = Φ.R (affineShiftAt D M X i) := by
  rw [affineShiftAt, affineShiftAt, map_add, map_smul, map_smul, h.tau, equi_sourceAt hD h hi, hΦ.lumped]
  congr 2
  refine equi_sum_columns hΦ fun j hj => ?_
  have hj' := col_active hM hi hj
  rw [equi_fluxAt hD h hi, equi_fluxAt hD h hj', h.d i j hj, hΦ.c, hD.affineShift]

theorem equi_boundsStep4 (tiny : ℝ) {i : ι} (hi : M.active i) :
    boundsStep4 D' M' X' tiny (Φ.e i) = Φ.RB (boundsStep4 D M X tiny i) := by
  rw [boundsStep4, boundsStep4, h.old.U i hi, equi_fluxAt hD h hi, hΦ.lumped, hΦ.omega]
  refine hD.limiterBounds _ _ h.old.prec i hi _ _ _ _ _ ?_ ?_
  · intro x hx
    obtain ⟨j, hj, rfl⟩ := List.mem_map.1 hx
    exact col_active hM hi hj
  refine ((equi_columns hΦ i).map _).trans (List.Perm.of_eq ?_)
  rw [List.map_map, List.map_map]
  refine List.map_congr_left fun j hj => ?_
  have hj' := col_active hM hi hj
  simp only [Function.comp, limiterEntry, Frame.entry, h.old.U i hi, h.old.U j hj', equi_fluxAt hD h hi,
    equi_fluxAt hD h hj', h.d i j hj, hD.stars, equi_affineShiftAt hΦ hD hM h hi, hΦ.c]
  congr 1
  have e1 : (fun k => M.c i j k / max (X.d i j) (100 * tiny)) = (max (X.d i j) (100 * tiny))⁻¹ • M.c i j := by
    funext k; simp [div_eq_inv_mul]
  rw [e1, map_smul]
  funext k
  simp [div_eq_inv_mul]

omit h in
theorem equi_combineRow {b : ι → B} {b' : κ → B} (hb : ∀ i, M.active i → b' (Φ.e i) = Φ.RB (b i)) {i : ι}
    (hi : M.active i) : combineRow D' M' b' (Φ.e i) = Φ.RB (combineRow D M b i) := by
  unfold combineRow
  have hc : RightCommutative (fun acc (j : κ) => D'.combine acc (b' j)) :=
    ⟨fun a j k => hD.combine_comm _ _ _⟩
  rw [(hΦ.nbrs i).foldl_eq, hb i hi, List.foldl_map]
  have : ∀ l : List ι, (∀ j ∈ l, M.active j) → ∀ a, l.foldl (fun acc j => D'.combine acc (b' (Φ.e j))) (Φ.RB a) =
      Φ.RB (l.foldl (fun acc j => D.combine acc (b j)) a) := by
    intro l
    induction l with
    | nil => intro _ _; rfl
    | cons j js ih =>
      intro hl a
      simp only [List.foldl_cons, hb j (hl j List.mem_cons_self), hD.combine]
      exact ih (fun x hx => hl x (List.mem_cons_of_mem _ hx)) _
  exact this _ (fun j hj => nbr_active hM hj) _

omit h in
theorem equi_boundsStep5 (order : List ι) {b : ι → B} {b' : κ → B} (hb : ∀ i, M.active i → b' (Φ.e i) = Φ.RB (b i)) :
    ∀ i, M.active i → boundsStep5 D' M' (order.map Φ.e) b' (Φ.e i) = Φ.RB (boundsStep5 D M order b i) := by
  classical
  unfold boundsStep5
  rw [hΦ.dG]
  split_ifs with hd
  · induction order generalizing b b' with
    | nil => exact hb
    | cons k ks ih =>
      simp only [List.map_cons, List.foldl_cons]
      refine ih fun i hi => ?_
      by_cases hk : M.active k
      · have hk' : M'.active (Φ.e k) := (equi_active hΦ).2 hk
        simp only [hk, hk', if_true]
        by_cases hik : i = k
        · subst hik
          simp [equi_combineRow hΦ hD hM hb hi]
        · rw [Function.update_of_ne hik, Function.update_of_ne (fun h => hik (Φ.e.injective h)), hb i hi]
      · have hk' : ¬ M'.active (Φ.e k) := fun h => hk ((equi_active hΦ).1 h)
        simp only [hk, hk', if_false]
        exact hb i hi
  · exact hb

theorem equi_finalBounds (par : Params) {lo : Leftover ι S} {lo' : Leftover κ S}
    (ho : M.dG = true → lo'.order = lo.order.map Φ.e) {i : ι} (hi : M.active i) :
    finalBounds D' M' par lo' X' (Φ.e i) = Φ.RB (finalBounds D M par lo X i) := by
  rw [finalBounds, finalBounds]
  cases hd : M.dG with
  | true =>
    rw [ho hd]
    exact equi_boundsStep5 hΦ hD hM _ (fun i hi => equi_boundsStep4 hΦ hD hM h _ hi) i hi
  | false =>
    simp only [boundsStep5, hΦ.dG, hd, Bool.false_eq_true, if_false]
    exact equi_boundsStep4 hΦ hD hM h _ hi

theorem equi_l1 (par : Params) {lo : Leftover ι S} {lo' : Leftover κ S}
    (ho : M.dG = true → lo'.order = lo.order.map Φ.e) {i j : ι} (hj : j ∈ M.nbrs i) :
    l1 D' M' par lo' X' (Φ.e i) (Φ.e j) = l1 D M par lo X i j := by
  have hi := self_active hj
  rw [l1, l1, equi_finalBounds hΦ hD hM h par ho hi, equi_lowOrder hΦ hD hM h hi, equi_pIJ hΦ hD hM h hj, hD.limit]

end step4

/-- Two states of the limiter loop in the two frames. -/
def Frame.MapsLoop (Φ : Frame ι κ S F B dim) (M : Mesh ι dim) (n pass : ℕ) (s : LimiterLoop ι S) (s' : LimiterLoop κ S) :
    Prop :=
  (∀ i, M.active i → s'.U (Φ.e i) = Φ.R (s.U i)) ∧
  (∀ i, ∀ j ∈ M.nbrs i, s'.lij (Φ.e i) (Φ.e j) = s.lij i j) ∧
  (n = 2 → 0 < pass → ∀ i, ∀ j ∈ M.nbrs i, s'.lijNext (Φ.e i) (Φ.e j) = s.lijNext i j)

section loop

variable {Φ : Frame ι κ S F B dim} {pr : P → P' → Prop} {M : Mesh ι dim} {M' : Mesh κ dim} (hΦ : Φ.MapsMesh M M')
  {D : Description ι P S F B dim} {D' : Description κ P' S F B dim} (hD : Φ.MapsDescription pr M D D')
  (hM : M.WellFormed)

include hΦ hD hM

theorem equi_limiterPass {b : ι → B} {b' : κ → B} (hb : ∀ i, M.active i → b' (Φ.e i) = Φ.RB (b i))
    {p : ι → ι → S} {p' : κ → κ → S} (hp : ∀ i, ∀ j ∈ M.nbrs i, p' (Φ.e i) (Φ.e j) = Φ.R (p i j)) (n pass : ℕ)
    {s : LimiterLoop ι S} {s' : LimiterLoop κ S} (h : Φ.MapsLoop M n pass s s') :
    Φ.MapsLoop M n (pass + 1) (limiterPass D M b p n pass s) (limiterPass D' M' b' p' n pass s') := by
  obtain ⟨hU, hl, hln⟩ := h
  have hcur : ∀ i, ∀ j ∈ M.nbrs i,
      (if n = 2 ∧ pass + 1 = n then s'.lijNext else s'.lij) (Φ.e i) (Φ.e j) =
        (if n = 2 ∧ pass + 1 = n then s.lijNext else s.lij) i j := by
    intro i j hj
    split_ifs with hc
    · exact hln hc.1 (by omega) i j hj
    · exact hl i j hj
  have hcurU : ∀ i, M.active i →
      (limiterPass D' M' b' p' n pass s').U (Φ.e i) = Φ.R ((limiterPass D M b p n pass s).U i) := by
    intro i hi
    have hi' : M'.active (Φ.e i) := (equi_active hΦ).2 hi
    simp only [limiterPass, hi, hi', if_true, hU i hi, map_add]
    congr 1
    refine equi_sum_nbrs hΦ fun j hj => ?_
    rw [map_smul, hp i j hj, symmetrized, symmetrized, hcur i j hj, hcur j i (hM.symm i j hj), equi_length hΦ]
  refine ⟨hcurU, fun i j hj => hcur i j hj, fun h2 _ i j hj => ?_⟩
  have hi := self_active hj
  have hi' : M'.active (Φ.e i) := (equi_active hΦ).2 hi
  have hU' := hcurU i hi
  simp only [limiterPass] at hU' ⊢
  split_ifs with hlast hc
  · exact hl i j hj
  · exact absurd ⟨h2, hlast⟩ hc
  · rename_i hc; exact absurd hc.2 hlast
  · have e1 : symmetrized s'.lij (Φ.e i) (Φ.e j) = symmetrized s.lij i j := by
      rw [symmetrized, symmetrized, hl i j hj, hl j i (hM.symm i j hj)]
    simp only [hlast, and_false, if_false, hi, hi', if_true] at hU'
    rw [e1, hU', hb i hi, hp i j hj, ← map_smul, hD.limit]

theorem equi_newStates (par : Params) {lo : Leftover ι S} {lo' : Leftover κ S}
    (ho : M.dG = true → lo'.order = lo.order.map Φ.e) {X : Stage4 ι P S} {X' : Stage4 κ P' S}
    (h : Φ.Maps4 pr M X X') {i : ι} (hi : M.active i) :
    newStates D' M' par lo' X' (Φ.e i) = Φ.R (newStates D M par lo X i) := by
  unfold newStates limiterLoop
  have key : ∀ k ≤ par.iterations, Φ.MapsLoop M par.iterations k
      ((List.range k).foldl (fun st pass => limiterPass D M (finalBounds D M par lo X) (pIJ D M X) par.iterations
        pass st) ⟨newLow D M lo X, fun i j => (l1 D M par lo X i j).1, lo.lijNext⟩)
      ((List.range k).foldl (fun st pass => limiterPass D' M' (finalBounds D' M' par lo' X') (pIJ D' M' X') par.iterations
        pass st) ⟨newLow D' M' lo' X', fun i j => (l1 D' M' par lo' X' i j).1, lo'.lijNext⟩) := by
    intro k
    induction k with
    | zero =>
      intro _
      refine ⟨fun i hi => ?_, fun i j hj => ?_, fun _ h0 => absurd h0 (lt_irrefl _)⟩
      · have hi' : M'.active (Φ.e i) := (equi_active hΦ).2 hi
        simp only [List.range_zero, List.foldl_nil, newLow, hi, hi', if_true, equi_lowOrder hΦ hD hM h hi]
      · simp only [List.range_zero, List.foldl_nil, equi_l1 hΦ hD hM h par ho hj]
    | succ k ih =>
      intro hk
      rw [List.range_succ, List.foldl_append, List.foldl_append]
      exact equi_limiterPass hΦ hD hM (fun i hi => equi_finalBounds hΦ hD hM h par ho hi)
        (fun i j hj => equi_pIJ hΦ hD hM h hj) _ k (ih (Nat.le_of_succ_le hk))
  exact (key _ le_rfl).1 i hi

/-- Two outcomes of `step` describe the same result in the two frames. -/
def Frame.MapsOutcome (Φ : Frame ι κ S F B dim) (M : Mesh ι dim) : Outcome ι S → Outcome κ S → Prop
  | .crashed, .crashed => True
  | .restart, .restart => True
  | .done U t, .done U' t' => (∀ i, M.nbrs i ≠ [] → U' (Φ.e i) = Φ.R (U i)) ∧ t' = t
  | _, _ => False

open Classical in
theorem equi_step [Fintype ι] [Fintype κ] (hM' : M'.WellFormed) (par : Params) (strategy : Strategy) (cnt : Counters)
    (lo : Leftover ι S) (lo' : Leftover κ S) (ho : M.dG = true → lo'.order = lo.order.map Φ.e)
    {x : StateVector ι P S} {x' : StateVector κ P' S} (hx : Φ.MapsState pr M x x') (hrev : Reversible D M x)
    {st : List (ℝ × StateVector ι P S)} {st' : List (ℝ × StateVector κ P' S)} (hs : Φ.MapsStages pr M st st')
    (tau tau_max : ℝ) :
    Φ.MapsOutcome M (step D M par strategy cnt lo x st tau tau_max).1
      (step D' M' par strategy cnt lo' x' st' tau tau_max).1 ∧
    (step D' M' par strategy cnt lo' x' st' tau tau_max).2 = (step D M par strategy cnt lo x st tau tau_max).2 := by
  unfold step
  simp only [equi_tauMax hΦ hD hx hM hM' hrev par lo.dij lo'.dij]
  generalize (if tau = 0 then tauMax D M par lo.dij x tau_max else tau) = τ
  have h4 := equi_stage4 hΦ hD hM hM' par lo lo' hx hrev hs τ
  have hr : restartNeeded D' M' par lo' (stage4 D' M' par lo' x' st' τ) ↔
      restartNeeded D M par lo (stage4 D M par lo x st τ) := by
    unfold restartNeeded
    refine and_congr_right fun _ => ?_
    constructor
    · rintro ⟨i', j', hj, hl⟩
      obtain ⟨i, rfl⟩ := Φ.e.surjective i'
      obtain ⟨j, rfl⟩ := Φ.e.surjective j'
      rw [equi_mem hΦ] at hj
      rw [equi_l1 hΦ hD hM h4 par ho hj] at hl
      exact ⟨i, j, hj, hl⟩
    · rintro ⟨i, j, hj, hl⟩
      refine ⟨Φ.e i, Φ.e j, (equi_mem hΦ).2 hj, ?_⟩
      rwa [equi_l1 hΦ hD hM h4 par ho hj]
  have hn : ∀ i, M.nbrs i ≠ [] → newStates D' M' par lo' (stage4 D' M' par lo' x' st' τ) (Φ.e i) =
      Φ.R (newStates D M par lo (stage4 D M par lo x st τ) i) := fun i hi => equi_newStates hΦ hD hM par ho h4 hi
  simp only [hr]
  split_ifs
  · cases strategy
    · exact ⟨⟨hn, rfl⟩, rfl⟩
    · exact ⟨trivial, rfl⟩
  · exact ⟨⟨hn, rfl⟩, rfl⟩
  · exact ⟨trivial, rfl⟩

end loop

end

end Hyp
end Ryujin
