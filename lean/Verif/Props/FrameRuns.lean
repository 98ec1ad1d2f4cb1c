import Verif.Props.Frames
import Verif.Props.Distributed
import Verif.Model.PrepareState

/-!
# C104, C105: boundary conditions and complete runs in another numbering and another frame of reference
-/

namespace Ryujin

/-! ### Boundary conditions -/

/-- Linear combinations of vectors in the new frame. -/
theorem frame_mix {dim : ℕ} (A : Matrix (Fin dim) (Fin dim) ℝ) (h v s w : ℝ) (m n : Vec dim) :
    (fun i => h * (v * A.mulVec n i + (A.mulVec m i * s - w * A.mulVec n i))) =
      A.mulVec fun i => h * (v * n i + (m i * s - w * n i)) := by
  have : (fun i => h * (v * n i + (m i * s - w * n i))) = h • (v • n + (s • m - w • n)) := by
    funext i; simp only [Pi.smul_apply, Pi.add_apply, Pi.sub_apply, smul_eq_mul]; ring
  rw [this, Matrix.mulVec_smul, Matrix.mulVec_add, Matrix.mulVec_sub, Matrix.mulVec_smul, Matrix.mulVec_smul, Matrix.mulVec_smul]
  funext i; simp only [Pi.smul_apply, Pi.add_apply, Pi.sub_apply, smul_eq_mul]; ring

namespace ShallowWater

variable {dim : ℕ}

theorem prescribe_rotate {A : Matrix (Fin dim) (Fin dim) ℝ} (hA : A * A.transpose = 1) (c : Euler.Characteristic) (p : Params)
    (U V : State dim) (n : Vec dim) : prescribeRiemannCharacteristic c p (Spec.moveWater A U) (Spec.moveWater A V) (A.mulVec n) =
      Spec.moveWater A (prescribeRiemannCharacteristic c p U V n) := by
  have s : ∀ W : State dim, inverseWaterDepthSharp p (Spec.moveWater A W) = inverseWaterDepthSharp p W := fun W => by
    simp only [inverseWaterDepthSharp, waterDepthSharp, rotate_waterDepth]
  simp only [prescribeRiemannCharacteristic, speedOfSound, rotate_waterDepth, rotate_momentum, s, frame_dot hA]
  rw [Spec.moveWater, waterDepth_mkState, momentum_mkState]
  congr 1
  exact frame_mix A _ _ _ _ _ _

/-- **C105 (boundary conditions, shallow water).** Boundary conditions act in the same way in every frame of reference. -/
theorem C105_sw_boundary {A : Matrix (Fin dim) (Fin dim) ℝ} (hA : A * A.transpose = 1) (p : Params) (id : Boundary)
    (U D : State dim) (n : Vec dim) :
    applyBoundaryConditions p id (Spec.moveWater A U) (A.mulVec n) (Spec.moveWater A D) =
      Spec.moveWater A (applyBoundaryConditions p id U n D) := by
  have s : ∀ W : State dim, inverseWaterDepthSharp p (Spec.moveWater A W) = inverseWaterDepthSharp p W := fun W => by
    simp only [inverseWaterDepthSharp, waterDepthSharp, rotate_waterDepth]
  have a : ∀ W : State dim, speedOfSound p (Spec.moveWater A W) = speedOfSound p W := fun W => by
    simp only [speedOfSound, rotate_waterDepth]
  cases id with
  | doNothing => rfl
  | other => rfl
  | dirichlet => rfl
  | dirichletMomentum =>
    simp only [applyBoundaryConditions, rotate_waterDepth, rotate_momentum]
    rw [Spec.moveWater, waterDepth_mkState, momentum_mkState]
  | slip =>
    simp only [applyBoundaryConditions, rotate_waterDepth, rotate_momentum, frame_dot hA]
    rw [Spec.moveWater, waterDepth_mkState, momentum_mkState]
    congr 1
    have : (fun k => momentum U k - 1 * dot (momentum U) n * n k) = momentum U - (1 * dot (momentum U) n) • n := rfl
    rw [this, Matrix.mulVec_sub, Matrix.mulVec_smul]
    rfl
  | noSlip =>
    simp only [applyBoundaryConditions, rotate_waterDepth]
    rw [Spec.moveWater, waterDepth_mkState, momentum_mkState]
    congr 1
    exact (Matrix.mulVec_zero A).symm
  | dynamic =>
    simp only [applyBoundaryConditions, a, s, rotate_momentum, frame_dot hA, prescribe_rotate hA]
    split_ifs <;> rfl

end ShallowWater

namespace Euler

variable {dim : ℕ}

theorem prescribe_rotate {A : Matrix (Fin dim) (Fin dim) ℝ} (hA : A * A.transpose = 1) (c : Euler.Characteristic) (p : Params)
    (U V : State dim) (n : Vec dim) : prescribeRiemannCharacteristic c p (Spec.moveGas A U) (Spec.moveGas A V) (A.mulVec n) =
      Spec.moveGas A (prescribeRiemannCharacteristic c p U V n) := by
  have pr : ∀ W : State dim, pressure p (Spec.moveGas A W) = pressure p W := fun W => pressure_rotate W hA p
  have a : ∀ W : State dim, speedOfSound p (Spec.moveGas A W) = speedOfSound p W := fun W => by
    simp only [speedOfSound, pr, rotate_density]
  have e : ∀ w r : ℝ, ∀ m : Vec dim, (fun i => A.mulVec m i / r - w * A.mulVec n i) = A.mulVec fun i => m i / r - w * n i := by
    intro w r m
    have := frame_mix A 1 0 r⁻¹ w m n
    simpa [div_eq_mul_inv] using this
  simp only [prescribeRiemannCharacteristic, a, pr, rotate_density, rotate_momentum, frame_dot hA, e, frame_normSq hA]
  rw [Spec.moveGas, density_mkState, momentum_mkState, totalEnergy_mkState]
  congr 1
  simp only [div_eq_mul_inv]
  rw [← frame_mix]

/-- **C105 (boundary conditions, gas dynamics).** Boundary conditions act in the same way in every rotated or reflected frame. -/
theorem C105_euler_boundary {A : Matrix (Fin dim) (Fin dim) ℝ} (hA : A * A.transpose = 1) (p : Params) (id : Boundary)
    (U D : State dim) (n : Vec dim) :
    applyBoundaryConditions p id (Spec.moveGas A U) (A.mulVec n) (Spec.moveGas A D) =
      Spec.moveGas A (applyBoundaryConditions p id U n D) := by
  have a : ∀ W : State dim, speedOfSound p (Spec.moveGas A W) = speedOfSound p W := fun W => by
    simp only [speedOfSound, show pressure p (Spec.moveGas A W) = pressure p W from pressure_rotate W hA p, rotate_density]
  cases id with
  | doNothing => rfl
  | other => rfl
  | dirichlet => rfl
  | slip =>
    simp only [applyBoundaryConditions, rotate_density, rotate_momentum, rotate_totalEnergy, frame_dot hA]
    rw [Spec.moveGas, density_mkState, momentum_mkState, totalEnergy_mkState]
    congr 1
    have : (fun k => momentum U k - 1 * dot (momentum U) n * n k) = momentum U - (1 * dot (momentum U) n) • n := rfl
    rw [this, Matrix.mulVec_sub, Matrix.mulVec_smul]
    rfl
  | noSlip =>
    simp only [applyBoundaryConditions, rotate_density, rotate_totalEnergy]
    rw [Spec.moveGas, density_mkState, momentum_mkState, totalEnergy_mkState]
    congr 1
    exact (Matrix.mulVec_zero A).symm
  | dynamic =>
    simp only [applyBoundaryConditions, a, rotate_density, rotate_momentum, frame_dot hA, prescribe_rotate hA]
    split_ifs <;> rfl

end Euler

/-! ### Runs -/

namespace Spec

variable {ι κ S Id : Type} {dim : ℕ}

/-- Entry of the boundary map in another numbering and frame: the normal is rotated, the position moved. -/
def moveEntry (e : ι ≃ κ) (A : Matrix (Fin dim) (Fin dim) ℝ) (pos : Vec dim → Vec dim) (x : Prepare.Entry ι Id dim) :
    Prepare.Entry κ Id dim := ⟨e x.i, A.mulVec x.normal, x.id, pos x.position⟩

open Classical in
/-- The boundary maps agree: every degree of freedom has the same entries, in the same order (deal.II numbers the degrees of freedom
differently, so the order of the whole map is another one). -/
def SameBoundary (e : ι ≃ κ) (A : Matrix (Fin dim) (Fin dim) ℝ) (pos : Vec dim → Vec dim) (map : List (Prepare.Entry ι Id dim))
    (map' : List (Prepare.Entry κ Id dim)) : Prop :=
  ∀ i, (map'.filter fun x => x.i = e i) = (map.filter fun x => x.i = i).map (moveEntry e A pos)

open Classical in
/-- The same if only the numbering is another one. -/
def RenumberedBoundary (e : ι ≃ κ) (map : List (Prepare.Entry ι Id dim)) (map' : List (Prepare.Entry κ Id dim)) : Prop :=
  ∀ i, (map'.filter fun x => x.i = e i) = (map.filter fun x => x.i = i).map fun x => ⟨e x.i, x.normal, x.id, x.position⟩

theorem RenumberedBoundary.same {e : ι ≃ κ} {map : List (Prepare.Entry ι Id dim)} {map' : List (Prepare.Entry κ Id dim)}
    (h : RenumberedBoundary e map map') : SameBoundary e 1 (fun x => x) map map' := by
  intro i
  rw [h i]
  refine List.map_congr_left fun x _ => ?_
  rw [moveEntry, Matrix.one_mulVec]

end Spec

namespace Hyp

noncomputable section

open Integrator (Modules SV Ctx Res Scheme Recovery Mem Run Result hyperbolicModules passBc program)
open Integrator.Simulation (Sim ResRel ResultRel)
open Integrator.Slot

variable {ι κ S F B Id : Type} {dim : ℕ}

open Classical in
/-- The boundary pass in another numbering and frame. -/
theorem passBc_frame (e : ι ≃ κ) (A : Matrix (Fin dim) (Fin dim) ℝ) (pos : Vec dim → Vec dim) (R : S → S)
    (Y : Prepare.System S Id dim) (hY : ∀ id U n d, Y.apply id (R U) (A.mulVec n) (R d) = (Y.apply id U n d).map R)
    (data data' : Vec dim → ℝ → S) (hd : ∀ x t, data' (pos x) t = R (data x t)) (map : List (Prepare.Entry ι Id dim))
    (map' : List (Prepare.Entry κ Id dim)) (hm : Spec.SameBoundary e A pos map map') (M : Mesh ι dim)
    (hmap : ∀ x ∈ map, M.nbrs x.i ≠ []) (t : ℝ) (U : ι → S) (U' : κ → S) (hU : Spec.SameState e R M U U') :
    Spec.SameState e R M (passBc Y data map t U) (passBc Y data' map' t U') := by
  have ent : ∀ (V : S) (x : Prepare.Entry ι Id dim), Prepare.applyEntry Y data' t (R V) (Spec.moveEntry e A pos x) =
      (Prepare.applyEntry Y data t V x).map R := by
    intro V x
    simp only [Prepare.applyEntry, Spec.moveEntry, hd, hY]
    split_ifs <;> rfl
  have row : ∀ (l : List (Prepare.Entry ι Id dim)) (V : S),
      (l.map (Spec.moveEntry e A pos)).foldlM (Prepare.applyEntry Y data' t) (R V) = (l.foldlM (Prepare.applyEntry Y data t) V).map R := by
    intro l
    induction l with
    | nil => intro V; rfl
    | cons x l ih =>
      intro V
      rw [List.map_cons, List.foldlM_cons, List.foldlM_cons, ent]
      cases Prepare.applyEntry Y data t V x with
      | none => rfl
      | some W => exact ih W
  have one : ∀ i, (map'.filter fun x => x.i = e i).foldlM (Prepare.applyEntry Y data' t) (R (U i)) =
      ((map.filter fun x => x.i = i).foldlM (Prepare.applyEntry Y data t) (U i)).map R := fun i => by rw [hm i, row]
  have empty : ∀ i, M.nbrs i = [] → (map.filter fun x => x.i = i) = [] := by
    intro i hi
    refine List.filter_eq_nil_iff.2 fun x hx h => hmap x hx ?_
    rw [show x.i = i by simpa using h]
    exact hi
  have iff : (Prepare.boundaryPass Y data' t map' U').isSome ↔ (Prepare.boundaryPass Y data t map U).isSome := by
    constructor
    · intro h
      obtain ⟨V, hV⟩ := Option.isSome_iff_exists.1 h
      refine Mpi.boundaryPass_isSome Y data t map U fun i => ?_
      by_cases hi : M.nbrs i = []
      · rw [empty i hi]; rfl
      · have h1 := Mpi.boundaryPass_at Y data' t map' U' V hV (e i)
        rw [hU i hi, one] at h1
        obtain ⟨W, hW, _⟩ := Option.map_eq_some_iff.1 h1
        rw [hW]; rfl
    · intro h
      obtain ⟨V, hV⟩ := Option.isSome_iff_exists.1 h
      refine Mpi.boundaryPass_isSome Y data' t map' U' fun k => ?_
      obtain ⟨i, rfl⟩ := e.surjective k
      by_cases hi : M.nbrs i = []
      · rw [hm i, empty i hi]; rfl
      · rw [hU i hi, one, Mpi.boundaryPass_at Y data t map U V hV i]; rfl
  unfold passBc
  intro i hi
  cases hV : Prepare.boundaryPass Y data t map U with
  | none =>
    have : Prepare.boundaryPass Y data' t map' U' = none := by
      rw [← Option.not_isSome_iff_eq_none, iff, hV]; simp
    rw [this]
    exact hU i hi
  | some V =>
    obtain ⟨V', hV'⟩ := Option.isSome_iff_exists.1 (iff.2 (by rw [hV]; rfl))
    rw [hV']
    have h1 := Mpi.boundaryPass_at Y data' t map' U' V' hV' (e i)
    rw [hU i hi, one, Mpi.boundaryPass_at Y data t map U V hV i] at h1
    exact (Option.some.inj h1).symm

variable [AddCommGroup S] [Module ℝ S] [Fintype ι] [Fintype κ]

/-- The program with an assertion: it ends if a vector handed to `step` is not `ok`. -/
def guarded {X P : Type} (ok : X → Prop) (Mo : Modules X P) : Modules X P :=
  { Mo with hyp := fun ctx n src st dst tau cap => open Classical in if ok src.U then Mo.hyp ctx n src st dst tau cap else .crash }

omit [AddCommGroup S] [Module ℝ S] [Fintype ι] [Fintype κ] in
theorem guarded_true {X P : Type} (Mo : Modules X P) : guarded (fun _ => True) Mo = Mo := by
  unfold guarded
  simp only [if_true]

/-- `hyperbolicModules` in another numbering and frame; `ok` are the vectors for which a step is known to be independent of it, `K` says
that the precomputed values belong to a vector. -/
theorem frame_sim_with {P P' : Type} (e : ι ≃ κ) (R : S →ₗ[ℝ] S) {D : Description ι P S F B dim} {D' : Description κ P' S F B dim}
    {M : Mesh ι dim} {M' : Mesh κ dim} (ok : (ι → S) → Prop) (ok' : (κ → S) → Prop)
    (hok : ∀ U U', Spec.SameState e R M U U' → (ok U ↔ ok' U'))
    (par : Params) (big : ℝ) (bc : ℝ → (ι → S) → ι → S) (bc' : ℝ → (κ → S) → κ → S)
    (hbc : ∀ t U U', Spec.SameState e R M U U' → Spec.SameState e R M (bc t U) (bc' t U'))
    (pre : (ι → S) → P) (pre' : (κ → S) → P') (K : (ι → S) → P → Prop) (K' : (κ → S) → P' → Prop)
    (hK : ∀ U, K U (pre U)) (hK' : ∀ U, K' U (pre' U))
    (lo : ℕ → Leftover ι S) (lo' : ℕ → Leftover κ S) (g : ℕ → ι → S) (g' : ℕ → κ → S)
    (hstep : ∀ (par : Params) strategy cnt (n : ℕ) dst dst' (old : StateVector ι P S) (old' : StateVector κ P' S)
      (stages : List (ℝ × StateVector ι P S)) (stages' : List (ℝ × StateVector κ P' S)) tau tau_max, ok old.U →
      Spec.SameState e R M old.U old'.U → K old.U old.prec → K' old'.U old'.prec →
      List.Forall₂ (fun a b => b.1 = a.1 ∧ Spec.SameState e R M a.2.U b.2.U ∧ K a.2.U a.2.prec ∧ K' b.2.U b.2.prec) stages stages' →
      Spec.SameResult e R M (step D M par strategy cnt { lo n with newU := dst } old stages tau tau_max).1
        (step D' M' par strategy cnt { lo' n with newU := dst' } old' stages' tau tau_max).1) :
    Sim (guarded ok (hyperbolicModules D M par big bc pre lo g fun _ _ _ _ _ _ => .crash))
      (guarded ok' (hyperbolicModules D' M' par big bc' pre' lo' g' fun _ _ _ _ _ _ => .crash)) (Spec.SameState e R M)
      fun s s' => Spec.SameState e R M s.U s'.U ∧ K s.U s.prec ∧ K' s'.U s'.prec where
  lin := by
    intro a b u u' v v' hu hv i hi
    simp only [Pi.add_apply, Pi.smul_apply, hu i hi, hv i hi, map_add, map_smul]
  prep := fun t u u' h => ⟨hbc t u u' h, hK _, hK' _⟩
  vec := fun s s' h => h.1
  hyp := by
    intro ctx n s s' st st' dst dst' tau cap hs hst
    have hst' : List.Forall₂ (fun a b => b.1 = a.1 ∧ Spec.SameState e R M a.2.U b.2.U ∧ K a.2.U a.2.prec ∧ K' b.2.U b.2.prec)
        (st.map fun p => (p.1, (⟨p.2.U, p.2.prec⟩ : StateVector ι P S)))
        (st'.map fun p => (p.1, (⟨p.2.U, p.2.prec⟩ : StateVector κ P' S))) := by
      rw [List.forall₂_map_left_iff, List.forall₂_map_right_iff]
      exact hst.imp fun p q hpq => ⟨hpq.1.symm, hpq.2⟩
    by_cases ho : ok s.U
    swap
    · simp only [guarded, ho, (hok _ _ hs.1).not.1 ho, if_false]
      trivial
    simp only [guarded, ho, (hok _ _ hs.1).1 ho, if_true]
    have key := hstep { par with cfl := ctx.cfl } ctx.hyp ⟨0, 0⟩ n dst dst' ⟨s.U, s.prec⟩ ⟨s'.U, s'.prec⟩ _ _ tau (cap.getD big)
      ho hs.1 hs.2.1 hs.2.2 hst'
    simp only [hyperbolicModules]
    generalize (step D M { par with cfl := ctx.cfl } ctx.hyp ⟨0, 0⟩ { lo n with newU := dst } ⟨s.U, s.prec⟩
      (st.map fun p => (p.1, ⟨p.2.U, p.2.prec⟩)) tau (cap.getD big)).1 = r at key
    generalize (step D' M' { par with cfl := ctx.cfl } ctx.hyp ⟨0, 0⟩ { lo' n with newU := dst' } ⟨s'.U, s'.prec⟩
      (st'.map fun p => (p.1, ⟨p.2.U, p.2.prec⟩)) tau (cap.getD big)).1 = r' at key
    cases r <;> cases r' <;> first | exact key.elim | trivial | exact ⟨key.2.symm, key.1⟩
  par := fun _ _ _ _ _ _ _ _ _ => trivial

/-- `hyperbolicModules` without precomputed values. -/
theorem frame_sim (e : ι ≃ κ) (R : S →ₗ[ℝ] S) {D : Description ι Unit S F B dim} {D' : Description κ Unit S F B dim} {M : Mesh ι dim}
    {M' : Mesh κ dim} (ok : (ι → S) → Prop) (ok' : (κ → S) → Prop) (hok : ∀ U U', Spec.SameState e R M U U' → (ok U ↔ ok' U'))
    (par : Params) (big : ℝ) (bc : ℝ → (ι → S) → ι → S) (bc' : ℝ → (κ → S) → κ → S)
    (hbc : ∀ t U U', Spec.SameState e R M U U' → Spec.SameState e R M (bc t U) (bc' t U'))
    (lo : ℕ → Leftover ι S) (lo' : ℕ → Leftover κ S) (g : ℕ → ι → S) (g' : ℕ → κ → S)
    (hstep : ∀ (par : Params) strategy cnt (n : ℕ) dst dst' (old : StateVector ι Unit S) (old' : StateVector κ Unit S)
      (stages : List (ℝ × StateVector ι Unit S)) (stages' : List (ℝ × StateVector κ Unit S)) tau tau_max, ok old.U →
      Spec.SameState e R M old.U old'.U → Spec.SameStages e R M stages stages' →
      Spec.SameResult e R M (step D M par strategy cnt { lo n with newU := dst } old stages tau tau_max).1
        (step D' M' par strategy cnt { lo' n with newU := dst' } old' stages' tau tau_max).1) :
    Sim (guarded ok (hyperbolicModules D M par big bc (fun _ => ()) lo g fun _ _ _ _ _ _ => .crash))
      (guarded ok' (hyperbolicModules D' M' par big bc' (fun _ => ()) lo' g' fun _ _ _ _ _ _ => .crash)) (Spec.SameState e R M)
      fun s s' => Spec.SameState e R M s.U s'.U := by
  have := frame_sim_with e R (M := M) (M' := M') ok ok' hok par big bc bc' hbc (fun _ => ()) (fun _ => ()) (fun _ _ => True)
    (fun _ _ => True) (fun _ => trivial) (fun _ => trivial) lo lo' g g'
    (D := D) (D' := D') (fun par strategy cnt n dst dst' old old' stages stages' tau tau_max ho hU _ _ hs =>
      hstep par strategy cnt n dst dst' old old' stages stages' tau tau_max ho hU (hs.imp fun a b h => ⟨h.1, h.2.1⟩))
  simpa using this

/-- A run of a system of modules that corresponds to itself keeps self-corresponding data. -/
theorem run_self {X P : Type} [AddCommGroup X] [Module ℝ X] {Mo : Modules X P} {E : X → X → Prop} {C : SV X P → SV X P → Prop}
    (hs : Sim Mo Mo E C) (sch : Scheme) (rec : Recovery) (cflMin cflMax : ℝ) (ok : Ctx → X → Prop) (m m1 : Mem X P)
    (h : Run Mo sch rec cflMin cflMax ok m m1) (h0 : E (m old).U (m old).U) :
    E (m1 old).U (m1 old).U := by
  induction h with
  | start => exact h0
  | @next m1 m2 ctx ctx' t tFinal tau calls n prev hstep side ih =>
    have := (Integrator.Simulation.step_rel hs sch rec cflMin cflMax ctx t tFinal m1 m1 calls ih).1
    rw [hstep] at this
    exact this.2.2

/-! ### The equations of the code -/

/-- No parabolic part. -/
abbrev noParabolic {X : Type} : Ctx → ℕ → X → ℝ → X → ℝ → Res X := fun _ _ _ _ _ _ => .crash

section shallowWater

variable (q : ShallowWater.StepParams) (e : ι ≃ κ) (A : Matrix (Fin dim) (Fin dim) ℝ)
    (hA : A * A.transpose = 1) (Z : ι → ℝ) (Z' : κ → ℝ) (hZ : ∀ i, Z' (e i) = Z i)
    (M : Mesh ι dim) (M' : Mesh κ dim) (hM : M.WellFormed) (hM' : M'.WellFormed) (hMM : Spec.SameMesh e A M M')
    (hskew : ∀ i, ∀ j ∈ M.nbrs i, ¬ (M.boundary i ∧ M.boundary j) → M.c j i = -M.c i j)
    (par : Params) (big : ℝ)
    (pos : Vec dim → Vec dim) (data data' : Vec dim → ℝ → ShallowWater.State dim)
    (hd : ∀ x t, data' (pos x) t = Spec.moveWater A (data x t))
    (map : List (Prepare.Entry ι ShallowWater.Boundary dim)) (map' : List (Prepare.Entry κ ShallowWater.Boundary dim))
    (hm : Spec.SameBoundary e A pos map map') (hmap : ∀ x ∈ map, M.nbrs x.i ≠ [])
    (lo : ℕ → Leftover ι (ShallowWater.State dim)) (lo' : ℕ → Leftover κ (ShallowWater.State dim))
    (ho : M.dG = true → ∀ n, (lo' n).order = (lo n).order.map e)
    (g : ℕ → ι → ShallowWater.State dim) (g' : ℕ → κ → ShallowWater.State dim)

include hA hZ hM hM' hMM hskew hd hm hmap ho in
theorem sw_sim :
    Sim (hyperbolicModules (ShallowWater.oneLane q Z) M par big (passBc (Prepare.shallowWater q.p) data map) (fun _ => ()) lo g noParabolic)
      (hyperbolicModules (ShallowWater.oneLane q Z') M' par big (passBc (Prepare.shallowWater q.p) data' map') (fun _ => ()) lo' g'
        noParabolic)
      (Spec.SameState e (Spec.moveWater A) M) fun s s' => Spec.SameState e (Spec.moveWater A) M s.U s'.U := by
  have := frame_sim e (ShallowWater.rotate A) (D := ShallowWater.oneLane q Z) (D' := ShallowWater.oneLane q Z') (M := M) (M' := M')
    (fun _ => True) (fun _ => True) (fun _ _ _ => Iff.rfl) par big (passBc (Prepare.shallowWater q.p) data map)
    (passBc (Prepare.shallowWater q.p) data' map')
    (fun t U U' hU => passBc_frame e A pos (Spec.moveWater A) (Prepare.shallowWater q.p)
      (fun id U n d => by
        show some _ = some _
        rw [ShallowWater.C105_sw_boundary hA]) data data' hd map map' hm M hmap t U U' hU)
    lo lo' g g'
    (fun par strategy cnt n dst dst' old old' stages stages' tau tau_max _ hU hs =>
      (C105_sw q e A hA Z Z' hZ M M' hM hM' hMM hskew par strategy cnt { lo n with newU := dst } { lo' n with newU := dst' }
        (fun h => ho h n) old old' hU stages stages' hs tau tau_max).1)
  rwa [guarded_true, guarded_true] at this

include hA hZ hM hM' hMM hskew hd hm hmap ho in
/-- **C105 (complete runs, shallow water).** After any number of time steps with any explicit scheme and any rejections and
recoveries, the computation on the rotated or reflected mesh with the data and boundary data carried along has the rotated states. -/
theorem C105_sw_run (sch : Scheme) (rec : Recovery) (cflMin cflMax : ℝ) (ok : Ctx → Prop)
    (m m1 : Mem (ι → ShallowWater.State dim) Unit)
    (h : Run (hyperbolicModules (ShallowWater.oneLane q Z) M par big (passBc (Prepare.shallowWater q.p) data map) (fun _ => ()) lo g
      noParabolic) sch rec cflMin cflMax (fun ctx _ => ok ctx) m m1)
    (m' : Mem (κ → ShallowWater.State dim) Unit) (h0 : Spec.SameState e (Spec.moveWater A) M (m old).U (m' old).U) :
    ∃ m1', Run (hyperbolicModules (ShallowWater.oneLane q Z') M' par big (passBc (Prepare.shallowWater q.p) data' map') (fun _ => ())
        lo' g' noParabolic) sch rec cflMin cflMax (fun ctx _ => ok ctx) m' m1' ∧
      Spec.SameState e (Spec.moveWater A) M (m1 old).U (m1' old).U :=
  Integrator.Simulation.run_sim (sw_sim q e A hA Z Z' hZ M M' hM hM' hMM hskew par big pos data data' hd map map' hm hmap lo lo' ho g g')
    sch rec cflMin cflMax ok m m1 h m' h0

end shallowWater

/-- **C105 (symmetric data stay symmetric, complete runs).** If mesh, bathymetry and boundary data have a symmetry and the initial
values have it, then so do the values after any number of time steps. -/
theorem C105_sw_symmetric_run (q : ShallowWater.StepParams) (e : ι ≃ ι) (A : Matrix (Fin dim) (Fin dim) ℝ)
    (hA : A * A.transpose = 1) (Z : ι → ℝ) (hZ : ∀ i, Z (e i) = Z i)
    (M : Mesh ι dim) (hM : M.WellFormed) (hMM : Spec.SameMesh e A M M) (hcG : M.dG = false)
    (hskew : ∀ i, ∀ j ∈ M.nbrs i, ¬ (M.boundary i ∧ M.boundary j) → M.c j i = -M.c i j)
    (par : Params) (big : ℝ)
    (pos : Vec dim → Vec dim) (data : Vec dim → ℝ → ShallowWater.State dim) (hd : ∀ x t, data (pos x) t = Spec.moveWater A (data x t))
    (map : List (Prepare.Entry ι ShallowWater.Boundary dim))
    (hm : Spec.SameBoundary e A pos map map) (hmap : ∀ x ∈ map, M.nbrs x.i ≠ [])
    (lo : ℕ → Leftover ι (ShallowWater.State dim)) (g : ℕ → ι → ShallowWater.State dim)
    (sch : Scheme) (rec : Recovery) (cflMin cflMax : ℝ) (m m1 : Mem (ι → ShallowWater.State dim) Unit)
    (h : Run (hyperbolicModules (ShallowWater.oneLane q Z) M par big (passBc (Prepare.shallowWater q.p) data map) (fun _ => ()) lo g
      noParabolic) sch rec cflMin cflMax (fun _ _ => True) m m1)
    (h0 : Spec.SameState e (Spec.moveWater A) M (m old).U (m old).U) :
    Spec.SameState e (Spec.moveWater A) M (m1 old).U (m1 old).U :=
  run_self (sw_sim q e A hA Z Z hZ M M hM hM hMM hskew par big pos data data hd map map hm hmap lo lo
    (fun h => by rw [hcG] at h; cases h) g g) sch rec cflMin cflMax _ m m1 h h0

/-- **C104 (complete runs, shallow water).** The numbering, the order of columns, the distribution of rows and leftover memory do not
change what any number of time steps computes. -/
theorem C104_sw_run (q : ShallowWater.StepParams) (e : ι ≃ κ)
    (Z : ι → ℝ) (Z' : κ → ℝ) (hZ : ∀ i, Z' (e i) = Z i) (M : Mesh ι dim) (M' : Mesh κ dim) (hM : M.WellFormed)
    (hM' : M'.WellFormed) (hMM : Spec.Renumbered e M M')
    (hskew : ∀ i, ∀ j ∈ M.nbrs i, ¬ (M.boundary i ∧ M.boundary j) → M.c j i = -M.c i j)
    (par : Params) (big : ℝ) (data : Vec dim → ℝ → ShallowWater.State dim)
    (map : List (Prepare.Entry ι ShallowWater.Boundary dim)) (map' : List (Prepare.Entry κ ShallowWater.Boundary dim))
    (hm : Spec.RenumberedBoundary e map map') (hmap : ∀ x ∈ map, M.nbrs x.i ≠ [])
    (lo : ℕ → Leftover ι (ShallowWater.State dim)) (lo' : ℕ → Leftover κ (ShallowWater.State dim))
    (ho : M.dG = true → ∀ n, (lo' n).order = (lo n).order.map e)
    (g : ℕ → ι → ShallowWater.State dim) (g' : ℕ → κ → ShallowWater.State dim)
    (sch : Scheme) (rec : Recovery) (cflMin cflMax : ℝ) (ok : Ctx → Prop) (m m1 : Mem (ι → ShallowWater.State dim) Unit)
    (h : Run (hyperbolicModules (ShallowWater.oneLane q Z) M par big (passBc (Prepare.shallowWater q.p) data map) (fun _ => ()) lo g
      noParabolic) sch rec cflMin cflMax (fun ctx _ => ok ctx) m m1)
    (m' : Mem (κ → ShallowWater.State dim) Unit) (h0 : ∀ i, M.nbrs i ≠ [] → (m' old).U (e i) = (m old).U i) :
    ∃ m1', Run (hyperbolicModules (ShallowWater.oneLane q Z') M' par big (passBc (Prepare.shallowWater q.p) data map') (fun _ => ())
        lo' g' noParabolic) sch rec cflMin cflMax (fun ctx _ => ok ctx) m' m1' ∧
      ∀ i, M.nbrs i ≠ [] → (m1' old).U (e i) = (m1 old).U i := by
  have key := C105_sw_run q e 1 (by rw [Matrix.transpose_one, mul_one]) Z Z' hZ M M' hM hM' (renumbered_sameMesh hMM) hskew par big (fun x => x) data data
    (fun x t => by rw [moveWater_one]; rfl) map map' hm.same hmap lo lo' ho g g' sch rec cflMin cflMax ok m m1 h m'
    (by rw [moveWater_one]; exact h0)
  rw [moveWater_one] at key
  exact key

/-- **C104 (complete runs, scalar equations).** -/
theorem C104_scalar_run (fl : Scalar.Flux dim) (q : Scalar.StepParams) (e : ι ≃ κ) (M : Mesh ι dim)
    (M' : Mesh κ dim) (hM : M.WellFormed) (hM' : M'.WellFormed) (hMM : Spec.Renumbered e M M')
    (hskew : ∀ i, ∀ j ∈ M.nbrs i, ¬ (M.boundary i ∧ M.boundary j) → M.c j i = -M.c i j)
    (par : Params) (big : ℝ) (data : Vec dim → ℝ → Scalar.State)
    (map : List (Prepare.Entry ι Scalar.Boundary dim)) (map' : List (Prepare.Entry κ Scalar.Boundary dim))
    (hm : Spec.RenumberedBoundary e map map') (hmap : ∀ x ∈ map, M.nbrs x.i ≠ [])
    (lo : ℕ → Leftover ι Scalar.State) (lo' : ℕ → Leftover κ Scalar.State)
    (ho : M.dG = true → ∀ n, (lo' n).order = (lo n).order.map e)
    (g : ℕ → ι → Scalar.State) (g' : ℕ → κ → Scalar.State)
    (sch : Scheme) (rec : Recovery) (cflMin cflMax : ℝ) (ok : Ctx → Prop) (m m1 : Mem (ι → Scalar.State) Unit)
    (h : Run (hyperbolicModules (Scalar.oneLane fl q fun _ _ => []) M par big (passBc Prepare.scalar data map) (fun _ => ()) lo g
      noParabolic) sch rec cflMin cflMax (fun ctx _ => ok ctx) m m1)
    (m' : Mem (κ → Scalar.State) Unit) (h0 : ∀ i, M.nbrs i ≠ [] → (m' old).U (e i) = (m old).U i) :
    ∃ m1', Run (hyperbolicModules (Scalar.oneLane fl q fun _ _ => []) M' par big (passBc Prepare.scalar data map') (fun _ => ())
        lo' g' noParabolic) sch rec cflMin cflMax (fun ctx _ => ok ctx) m' m1' ∧
      ∀ i, M.nbrs i ≠ [] → (m1' old).U (e i) = (m1 old).U i := by
  have := frame_sim e (LinearMap.id) (D := Scalar.oneLane fl q fun _ _ => []) (D' := Scalar.oneLane fl q fun _ _ => []) (M := M) (M' := M')
    (fun _ => True) (fun _ => True) (fun _ _ _ => Iff.rfl) par big (passBc Prepare.scalar data map)
    (passBc Prepare.scalar data map')
    (fun t U U' hU => passBc_frame e 1 (fun x => x) id Prepare.scalar
      (fun id U n d => by simp [Prepare.scalar]) data data (fun _ _ => rfl) map map' hm.same M hmap t U U' hU)
    lo lo' g g'
    (fun par strategy cnt n dst dst' old old' stages stages' tau tau_max _ hU hs =>
      (C104_scalar fl q e M M' hM hM' hMM hskew par strategy cnt { lo n with newU := dst } { lo' n with newU := dst' }
        (fun h => ho h n) old old' hU stages stages' hs tau tau_max).1)
  rw [guarded_true, guarded_true] at this
  exact Integrator.Simulation.run_sim this sch rec cflMin cflMax ok m m1 h m' h0

/-- Density and internal energy are positive at all unconstrained degrees of freedom. -/
def Positive (M : Mesh ι dim) (U : ι → Euler.State dim) : Prop :=
  ∀ i, M.nbrs i ≠ [] → 0 < Euler.density (U i) ∧ 0 < Euler.internalEnergy (U i)

section euler

variable (p : Euler.Params) (hg : 1 < p.gamma) (lp : LimiterParams)
    (rp : Euler.RiemannParams) (evc_factor big' : ℝ) (e : ι ≃ κ) (A : Matrix (Fin dim) (Fin dim) ℝ)
    (hA : Spec.IsAxisSymmetry A) (M : Mesh ι dim) (M' : Mesh κ dim) (hM : M.WellFormed) (hM' : M'.WellFormed)
    (hMM : Spec.SameMesh e A M M')
    (hskew : ∀ i, ∀ j ∈ M.nbrs i, ¬ (M.boundary i ∧ M.boundary j) → M.c j i = -M.c i j)
    (par : Params) (big : ℝ)
    (pos : Vec dim → Vec dim) (data data' : Vec dim → ℝ → Euler.State dim)
    (hd : ∀ x t, data' (pos x) t = Spec.moveGas A (data x t))
    (map : List (Prepare.Entry ι Euler.Boundary dim)) (map' : List (Prepare.Entry κ Euler.Boundary dim))
    (hm : Spec.SameBoundary e A pos map map') (hmap : ∀ x ∈ map, M.nbrs x.i ≠ [])
    (lo : ℕ → Leftover ι (Euler.State dim)) (lo' : ℕ → Leftover κ (Euler.State dim))
    (ho : M.dG = true → ∀ n, (lo' n).order = (lo n).order.map e)
    (g : ℕ → ι → Euler.State dim) (g' : ℕ → κ → Euler.State dim)

include hg hA hM hM' hMM hskew hd hm hmap ho in
theorem euler_sim :
    Sim (guarded (Positive M) (hyperbolicModules (Euler.oneLane p lp rp evc_factor big') M par big (passBc (Prepare.euler p) data map)
        (fun _ => ()) lo g noParabolic))
      (guarded (Positive M') (hyperbolicModules (Euler.oneLane p lp rp evc_factor big') M' par big (passBc (Prepare.euler p) data' map')
        (fun _ => ()) lo' g' noParabolic))
      (Spec.SameState e (Spec.moveGas A) M) fun s s' => Spec.SameState e (Spec.moveGas A) M s.U s'.U := by
  have hA' := Euler.axis_orthogonal hA
  refine frame_sim e (Euler.rotate A) (D := Euler.oneLane p lp rp evc_factor big') (D' := Euler.oneLane p lp rp evc_factor big')
    (M := M) (M' := M') (Positive M) (Positive M') ?_ par big (passBc (Prepare.euler p) data map)
    (passBc (Prepare.euler p) data' map')
    (fun t U U' hU => passBc_frame e A pos (Spec.moveGas A) (Prepare.euler p)
      (fun id U n d => by
        show some _ = some _
        rw [Euler.C105_euler_boundary hA']) data data' hd map map' hm M hmap t U U' hU)
    lo lo' g g'
    (fun par strategy cnt n dst dst' old old' stages stages' tau tau_max hpos hU hs =>
      (C105_euler_axes p hg lp rp evc_factor big' e A hA M M' hM hM' hMM hskew par strategy cnt { lo n with newU := dst }
        { lo' n with newU := dst' } (fun h => ho h n) old old' hpos hU stages stages' hs tau tau_max).1)
  intro U U' hU
  have act : ∀ i, M'.nbrs (e i) ≠ [] ↔ M.nbrs i ≠ [] := by
    intro i
    rw [not_iff_not]
    constructor
    · intro h
      have := hMM.stencil i
      rw [h] at this
      exact List.map_eq_nil_iff.1 (List.nil_perm.1 this)
    · intro h
      have := hMM.stencil i
      rw [h] at this
      exact List.perm_nil.1 this
  have same : ∀ i, M.nbrs i ≠ [] → Euler.density (U' (e i)) = Euler.density (U i) ∧
      Euler.internalEnergy (U' (e i)) = Euler.internalEnergy (U i) := by
    intro i hi
    rw [hU i hi]
    exact ⟨Euler.density_rotate A _, Euler.internalEnergy_rotate _ hA'⟩
  constructor
  · intro h k hk
    obtain ⟨i, rfl⟩ := e.surjective k
    have hi := (act i).1 hk
    rw [(same i hi).1, (same i hi).2]
    exact h i hi
  · intro h i hi
    rw [← (same i hi).1, ← (same i hi).2]
    exact h _ ((act i).2 hi)

include hg hA hM hM' hMM hskew hd hm hmap ho in
/-- **C105 (complete runs, gas dynamics).** The same for exchanges and reflections of axes, as long as the vectors handed to `step` have
positive density and internal energy. -/
theorem C105_euler_run (sch : Scheme) (rec : Recovery) (cflMin cflMax : ℝ) (ok : Ctx → Prop)
    (m m1 : Mem (ι → Euler.State dim) Unit)
    (h : Run (guarded (Positive M) (hyperbolicModules (Euler.oneLane p lp rp evc_factor big') M par big (passBc (Prepare.euler p) data map)
      (fun _ => ()) lo g noParabolic)) sch rec cflMin cflMax (fun ctx _ => ok ctx) m m1)
    (m' : Mem (κ → Euler.State dim) Unit) (h0 : Spec.SameState e (Spec.moveGas A) M (m old).U (m' old).U) :
    ∃ m1', Run (guarded (Positive M') (hyperbolicModules (Euler.oneLane p lp rp evc_factor big') M' par big
        (passBc (Prepare.euler p) data' map') (fun _ => ()) lo' g' noParabolic)) sch rec cflMin cflMax (fun ctx _ => ok ctx) m' m1' ∧
      Spec.SameState e (Spec.moveGas A) M (m1 old).U (m1' old).U :=
  Integrator.Simulation.run_sim (euler_sim p hg lp rp evc_factor big' e A hA M M' hM hM' hMM hskew par big pos data data' hd map map' hm
    hmap lo lo' ho g g') sch rec cflMin cflMax ok m m1 h m' h0

end euler

/-- **C105 (symmetric gas flow stays symmetric).** -/
theorem C105_euler_symmetric_run (p : Euler.Params) (hg : 1 < p.gamma) (lp : LimiterParams)
    (rp : Euler.RiemannParams) (evc_factor big' : ℝ) (e : ι ≃ ι) (A : Matrix (Fin dim) (Fin dim) ℝ)
    (hA : Spec.IsAxisSymmetry A) (M : Mesh ι dim) (hM : M.WellFormed) (hMM : Spec.SameMesh e A M M) (hcG : M.dG = false)
    (hskew : ∀ i, ∀ j ∈ M.nbrs i, ¬ (M.boundary i ∧ M.boundary j) → M.c j i = -M.c i j)
    (par : Params) (big : ℝ)
    (pos : Vec dim → Vec dim) (data : Vec dim → ℝ → Euler.State dim) (hd : ∀ x t, data (pos x) t = Spec.moveGas A (data x t))
    (map : List (Prepare.Entry ι Euler.Boundary dim))
    (hm : Spec.SameBoundary e A pos map map) (hmap : ∀ x ∈ map, M.nbrs x.i ≠ [])
    (lo : ℕ → Leftover ι (Euler.State dim)) (g : ℕ → ι → Euler.State dim)
    (sch : Scheme) (rec : Recovery) (cflMin cflMax : ℝ) (m m1 : Mem (ι → Euler.State dim) Unit)
    (h : Run (guarded (Positive M) (hyperbolicModules (Euler.oneLane p lp rp evc_factor big') M par big (passBc (Prepare.euler p) data map)
      (fun _ => ()) lo g noParabolic)) sch rec cflMin cflMax (fun _ _ => True) m m1)
    (h0 : Spec.SameState e (Spec.moveGas A) M (m old).U (m old).U) :
    Spec.SameState e (Spec.moveGas A) M (m1 old).U (m1 old).U :=
  run_self (euler_sim p hg lp rp evc_factor big' e A hA M M hM hM hMM hskew par big pos data data hd map map hm hmap lo lo
    (fun h => by rw [hcG] at h; cases h) g g) sch rec cflMin cflMax _ m m1 h h0

/-- **C104 (complete runs, gas dynamics).** -/
theorem C104_euler_run (p : Euler.Params) (hg : 1 < p.gamma) (lp : LimiterParams)
    (rp : Euler.RiemannParams) (evc_factor big' : ℝ) (e : ι ≃ κ) (M : Mesh ι dim) (M' : Mesh κ dim) (hM : M.WellFormed)
    (hM' : M'.WellFormed) (hMM : Spec.Renumbered e M M')
    (hskew : ∀ i, ∀ j ∈ M.nbrs i, ¬ (M.boundary i ∧ M.boundary j) → M.c j i = -M.c i j)
    (par : Params) (big : ℝ) (data : Vec dim → ℝ → Euler.State dim)
    (map : List (Prepare.Entry ι Euler.Boundary dim)) (map' : List (Prepare.Entry κ Euler.Boundary dim))
    (hm : Spec.RenumberedBoundary e map map') (hmap : ∀ x ∈ map, M.nbrs x.i ≠ [])
    (lo : ℕ → Leftover ι (Euler.State dim)) (lo' : ℕ → Leftover κ (Euler.State dim))
    (ho : M.dG = true → ∀ n, (lo' n).order = (lo n).order.map e)
    (g : ℕ → ι → Euler.State dim) (g' : ℕ → κ → Euler.State dim)
    (sch : Scheme) (rec : Recovery) (cflMin cflMax : ℝ) (ok : Ctx → Prop) (m m1 : Mem (ι → Euler.State dim) Unit)
    (h : Run (guarded (Positive M) (hyperbolicModules (Euler.oneLane p lp rp evc_factor big') M par big (passBc (Prepare.euler p) data map)
      (fun _ => ()) lo g noParabolic)) sch rec cflMin cflMax (fun ctx _ => ok ctx) m m1)
    (m' : Mem (κ → Euler.State dim) Unit) (h0 : ∀ i, M.nbrs i ≠ [] → (m' old).U (e i) = (m old).U i) :
    ∃ m1', Run (guarded (Positive M') (hyperbolicModules (Euler.oneLane p lp rp evc_factor big') M' par big
        (passBc (Prepare.euler p) data map') (fun _ => ()) lo' g' noParabolic)) sch rec cflMin cflMax (fun ctx _ => ok ctx) m' m1' ∧
      ∀ i, M.nbrs i ≠ [] → (m1' old).U (e i) = (m1 old).U i := by
  have key := C105_euler_run p hg lp rp evc_factor big' e 1 axis_one M M' hM hM' (renumbered_sameMesh hMM) hskew par big (fun x => x)
    data data (fun x t => by rw [moveGas_one]; rfl) map map' hm.same hmap lo lo' ho g g' sch rec cflMin cflMax ok m m1 h m'
    (by rw [moveGas_one]; exact h0)
  rw [moveGas_one] at key
  exact key

/-! ### Non-vacuity: a time step on the ring -/

section examples

omit [Fintype ι] [Fintype κ] in
/-- A time step with `warn` on the ring returns, for all equations and all boundary conditions. -/
theorem ring_runs (D : Description (Fin 3) Unit S F B 1) (ok : (Fin 3 → S) → Prop) (bc : ℝ → (Fin 3 → S) → Fin 3 → S)
    (lo : ℕ → Leftover (Fin 3) S) (g : ℕ → Fin 3 → S) (m : Mem (Fin 3 → S) Unit) (hok : ok (bc 0 (m old).U)) :
    ∃ m', Run (guarded ok (hyperbolicModules D ring demoPar 1000 bc (fun _ => ()) lo g noParabolic)) .erk_11 .none 1 1
      (fun ctx _ => ctx.hyp = .warn) m m' := by
  obtain ⟨U, t, h⟩ := C18_warn_returns D ring demoPar ⟨0, 0⟩ { lo 0 with newU := (m (temp 0)).U } ⟨bc 0 (m old).U, ()⟩
    [] 0 10 (C11_step_tau D ring demoPar .warn ⟨0, 0⟩ (lo 0) ⟨bc 0 (m old).U, ()⟩ [] 0 10
      (by norm_num [demoPar]) (by norm_num [demoPar]) ring_closed.lumped (by norm_num)).1
  have hup : (guarded ok (hyperbolicModules D ring demoPar 1000 bc (fun _ => ()) lo g noParabolic)).hyp ⟨1 / 2, .warn, .warn⟩ 0
      ⟨bc 0 (m old).U, ()⟩ [] (m (temp 0)).U 0 (some (10 - 0)) = .ok U t := by
    have h' : (Hyp.step D ring ⟨1 / 2, demoPar.tiny, demoPar.iterations⟩ .warn ⟨0, 0⟩
      { lo 0 with newU := (m (temp 0)).U } ⟨bc 0 (m old).U, ()⟩ [] 0 10).1 = .done U t := h
    simp only [guarded, hyperbolicModules, sub_zero, Option.getD_some, List.map_nil, h', hok, if_true]
  obtain ⟨m', hr, -⟩ := Integrator.run_of_update (ok := fun ctx _ => ctx.hyp = .warn) 1 1 hup fun _ _ => rfl
  exact ⟨m', hr⟩

/-- The symmetric gas on the ring, with a no slip wall in the middle: after a time step the density at mirror images agrees and the
momentum on the axis of symmetry is zero. -/
example (p : Euler.Params) (hg : 1 < p.gamma) (lp : LimiterParams) (rp : Euler.RiemannParams) (evc_factor big : ℝ)
    (lo : ℕ → Leftover (Fin 3) (Euler.State 1)) (g : ℕ → Fin 3 → Euler.State 1) (m : Mem (Fin 3 → Euler.State 1) Unit)
    (hm : (m old).U = mirrorGas.U) : ∃ m',
    Run (guarded (Positive ring) (hyperbolicModules (Euler.oneLane p lp rp evc_factor big) ring demoPar 1000
      (passBc (Prepare.euler p) (fun _ _ => Euler.mkState 1 0 1) [⟨0, 0, .noSlip, 0⟩]) (fun _ => ()) lo g noParabolic)) .erk_11 .none 1 1
      (fun _ _ => True) m m' ∧
    Euler.density ((m' old).U 1) = Euler.density ((m' old).U 2) ∧ Euler.momentum ((m' old).U 0) = 0 := by
  have hbc : passBc (Prepare.euler p) (fun _ _ => Euler.mkState 1 0 1) [⟨0, 0, .noSlip, 0⟩] 0 (m old).U = mirrorGas.U := by
    rw [hm]
    funext i
    simp only [passBc, Prepare.boundaryPass, List.foldlM_cons, List.foldlM_nil, Prepare.boundaryStep, Prepare.applyEntry, Prepare.euler,
      Euler.applyBoundaryConditions]
    by_cases hi : i = 0
    · subst hi
      simp [mirrorGas]
      rfl
    · simp [hi]
  obtain ⟨m', hr⟩ := ring_runs (Euler.oneLane p lp rp evc_factor big) (Positive ring)
    (passBc (Prepare.euler p) (fun _ _ => Euler.mkState 1 0 1) [⟨0, 0, .noSlip, 0⟩]) lo g m (by rw [hbc]; exact mirrorGas_admissible)
  have hr' : Run (guarded (Positive ring) (hyperbolicModules (Euler.oneLane p lp rp evc_factor big) ring demoPar 1000
      (passBc (Prepare.euler p) (fun _ _ => Euler.mkState 1 0 1) [⟨0, 0, .noSlip, 0⟩]) (fun _ => ()) lo g noParabolic)) .erk_11 .none 1 1
      (fun _ _ => True) m m' := by
    clear hbc hm
    induction hr with
    | start => exact .start _
    | next _ call _ ih => exact .next ih call fun _ _ => trivial
  refine ⟨m', hr', ?_⟩
  have key := C105_euler_symmetric_run p hg lp rp evc_factor big (Equiv.neg (Fin 3)) (-1) mirror_axis ring ring_wf ring_mirror rfl
    (fun i j hj _ => ring_closed.skew i j hj) demoPar 1000 (fun x => x) (fun _ _ => Euler.mkState 1 0 1)
    (fun _ _ => by simp [Spec.moveGas]) [⟨0, 0, .noSlip, 0⟩]
    (by
      intro i
      fin_cases i
      · simp [Spec.moveEntry]
      · simp
      · simp)
    (by simp [ring]) lo g .erk_11 .none 1 1 m m' hr' (by rw [hm]; exact mirror_sameState)
  have k1 := key 2 (by simp [ring])
  have k0 := key 0 (by simp [ring])
  refine ⟨?_, ?_⟩
  · have e : (Equiv.neg (Fin 3)) 2 = 1 := by decide
    rw [e] at k1
    rw [k1]
    exact Euler.rotate_density _ _
  · have e : (Equiv.neg (Fin 3)) 0 = 0 := by decide
    rw [e] at k0
    have := congrArg Euler.momentum k0
    rw [Euler.rotate_momentum, Matrix.neg_mulVec, Matrix.one_mulVec] at this
    exact self_eq_neg.1 this

/-- Shallow water on the ring, renumbered cyclically: the run exists and has a counterpart. -/
example (q : ShallowWater.StepParams) (data : Vec 1 → ℝ → ShallowWater.State 1)
    (lo lo' : ℕ → Leftover (Fin 3) (ShallowWater.State 1)) (g g' : ℕ → Fin 3 → ShallowWater.State 1)
    (m m' : Mem (Fin 3 → ShallowWater.State 1) Unit) (hm : ∀ i, (m' old).U (i + 1) = (m old).U i) : ∃ m1 m1',
    Run (hyperbolicModules (ShallowWater.oneLane q fun i => i.val) ring demoPar 1000
      (passBc (Prepare.shallowWater q.p) data [⟨0, fun _ => 1, .dynamic, 0⟩]) (fun _ => ()) lo g noParabolic) .erk_11 .none 1 1
      (fun ctx _ => ctx.hyp = .warn) m m1 ∧
    Run (hyperbolicModules (ShallowWater.oneLane q fun i => (i + 2 : Fin 3).val) ringBack demoPar 1000
      (passBc (Prepare.shallowWater q.p) data [⟨1, fun _ => 1, .dynamic, 0⟩]) (fun _ => ()) lo' g' noParabolic) .erk_11 .none 1 1
      (fun ctx _ => ctx.hyp = .warn) m' m1' ∧ ∀ i, (m1' old).U (i + 1) = (m1 old).U i := by
  obtain ⟨m1, hr⟩ := ring_runs (ShallowWater.oneLane q fun i : Fin 3 => (i.val : ℝ)) (fun _ => True)
    (passBc (Prepare.shallowWater q.p) data [⟨0, fun _ => 1, .dynamic, 0⟩]) lo g m trivial
  rw [guarded_true] at hr
  obtain ⟨m1', hr', h⟩ := C104_sw_run q (Equiv.addRight (1 : Fin 3)) (fun i => (i.val : ℝ)) (fun i => ((i + 2 : Fin 3).val : ℝ))
    (by intro i; fin_cases i <;> simp) ring ringBack ring_wf ringBack_wf ring_renumbered
    (fun i j hj _ => ring_closed.skew i j hj) demoPar 1000 data [⟨0, fun _ => 1, .dynamic, 0⟩] [⟨1, fun _ => 1, .dynamic, 0⟩]
    (by
      intro i
      fin_cases i <;> simp [List.filter])
    (by simp [ring]) lo lo' (fun h => by simp [ring] at h) g g' .erk_11 .none 1 1 _ m m1 hr m' (fun i _ => hm i)
  exact ⟨m1, m1', hr, hr', fun i => h i (by simp [ring])⟩

end examples

end

end Hyp

end Ryujin
