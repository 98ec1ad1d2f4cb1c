import Verif.Props.AeosRun
import Verif.Props.BalanceWalls

/-!
# Gases with arbitrary equation of state and water between walls: complete runs
-/

namespace Ryujin

namespace Aeos

noncomputable section

open Integrator Hyp Slot

variable {ι : Type} {dim : ℕ}

/-- Between walls the boundary pass returns; it keeps density and total energy and enforces the wall conditions. -/
theorem walls_pass (data : Vec dim → ℝ → Euler.State dim) (map : List (Prepare.Entry ι Euler.Boundary dim))
    (hwall : ∀ j, Prepare.WallNode (Prepare.aeos (dim := dim)) .slip .noSlip (Prepare.entriesAt map j)) (t : ℝ)
    (u : ι → Euler.State dim) (i : ι) :
    Euler.density (passBc Prepare.aeos data map t u i) = Euler.density (u i) ∧
    Euler.totalEnergy (passBc Prepare.aeos data map t u i) = Euler.totalEnergy (u i) ∧
    WallMomentum .slip .noSlip map i (Euler.momentum (passBc Prepare.aeos data map t u i)) := by
  obtain ⟨h0, h1⟩ := Prepare.C88_aeos data t map u
  cases hV : Prepare.boundaryPass Prepare.aeos data t map u with
  | none =>
    obtain ⟨e, he, hid⟩ := h0.2 hV
    rcases (hwall e.i).ids e (by simp [Prepare.entriesAt, he]) with h | h | h <;> rw [hid] at h <;> cases h
  | some V =>
    obtain ⟨a, b, c, d, -⟩ := (h1 V hV).1 i (hwall i)
    unfold passBc
    rw [hV, Option.getD_some]
    exact ⟨c, d, fun e he hi => ⟨a e he hi, b e he hi⟩⟩

/-- **C93 (arbitrary equation of state, complete runs).** As `C93_euler_run_walls`, for every equation of state and with the
precomputed values of the code. -/
theorem C93_aeos_run_walls [Fintype ι] (eos : Eos.Interface) (P : Params) (lp : LimiterParams) (strict : Bool) (big evc big' : ℝ)
    (lim : ι → ι → Bounds → Euler.State dim → Euler.State dim → ℝ × Prop)
    (M : Hyp.Mesh ι dim) (hM : M.WellFormed) (hS : M.Symmetric) (hact : ∀ i, M.nbrs i ≠ [])
    (hd : ∀ dij v, Hyp.SymmetricViscosity (solver P lp strict big evc lim) M dij v)
    (hrow : ∀ i, M.c i i + ((M.nbrs i).map (M.c i)).sum = 0)
    (data : Vec dim → ℝ → Euler.State dim) (map : List (Prepare.Entry ι Euler.Boundary dim))
    (hwall : ∀ j, Prepare.WallNode (Prepare.aeos (dim := dim)) .slip .noSlip (Prepare.entriesAt map j))
    (hnormal : ∀ j m, WallMomentum .slip .noSlip map j m → dot m (M.boundaryNormal j) = 0)
    (q : ι → Eos.Prec) (par : Hyp.Params) (lo : ℕ → Hyp.Leftover ι (Euler.State dim)) (garbage : ℕ → ι → Euler.State dim)
    (sch : Scheme) (hsch : stageFree sch) (rec : Recovery) (cflMin cflMax : ℝ) (ok : Ctx → (ι → Euler.State dim) → Prop)
    (m m' : Mem (ι → Euler.State dim) (ι → Eos.Prec))
    (h : Run (hyperbolicModules (solver P lp strict big evc lim) M par big' (passBc Prepare.aeos data map)
      (fun U => Mpi.precompute M (preCycles eos P M) 2 U q) lo garbage fun _ _ _ _ _ _ => .crash) sch rec cflMin cflMax ok m m') :
    ∑ i, M.lumped i * Euler.density ((m' old).U i) = ∑ i, M.lumped i * Euler.density ((m old).U i) ∧
    ∑ i, M.lumped i * Euler.totalEnergy ((m' old).U i) = ∑ i, M.lumped i * Euler.totalEnergy ((m old).U i) := by
  have hbc := walls_pass data map hwall
  have key : ∀ c : Fin (dim + 2), (c = 0 ∨ c = Fin.last (dim + 1)) →
      total M (LinearMap.proj c) (m' old).U = total M (LinearMap.proj c) (m old).U := by
    intro c hc
    refine run_walls_conserve _ (total M (LinearMap.proj c))
      (fun u => ∀ i, dot (Euler.momentum (u i)) (M.boundaryNormal i) = 0)
      (fun st => st = []) rfl ?_ ?_ ?_ sch (fun s st d hm _ => by rw [stageFree_code hsch s st d hm]; rfl)
      rec cflMin cflMax ok m m' h
    · intro t u
      refine ⟨?_, fun i => hnormal i _ (hbc t u i).2.2⟩
      rw [total_apply, total_apply]
      refine Finset.sum_congr rfl fun i _ => ?_
      rcases hc with rfl | rfl
      · exact congrArg _ (hbc t u i).1
      · exact congrArg _ (hbc t u i).2.1
    · intro ctx n src st dst tau cap u τ hJ _ hst h
      subst hst
      have hs := hyp_ok h
      have := C93_balance (solver P lp strict big evc lim) M hM hS contractLin (solver_centralFlux P lp strict big evc lim) rfl
        (LinearMap.proj c) _ _ _ _ ⟨src.U, src.prec⟩ _ _ (hd _ _) (fun i _ => hrow i) u τ hs
      simp only [hact, ne_eq, not_false_eq_true, Finset.filter_true, LinearMap.proj_apply] at this
      have hval : ∀ j k, contractLin ((solver P lp strict big evc lim).flux src.prec j (src.U j)) (M.boundaryNormal j) k =
          contract (Aeos.f (src.U j) (src.prec j).p) (M.boundaryNormal j) k := fun _ _ => rfl
      have hf := fun j => Aeos.fluxThrough_f (src.U j) (src.prec j).p (M.boundaryNormal j)
      rw [total_apply, total_apply]
      rcases hc with rfl | rfl
      · simp only [hval, (hf _).1, hJ, Finset.sum_const_zero, mul_zero, sub_zero] at this
        exact this
      · simp only [hval, (hf _).2.1, hJ, Finset.sum_const_zero, mul_zero, sub_zero] at this
        exact this
    · intro ctx n v t dst tau u τ h
      simp [hyperbolicModules] at h
  have k0 := key _ (Or.inl rfl)
  have k1 := key _ (Or.inr rfl)
  rw [total_apply, total_apply] at k0 k1
  exact ⟨k0, k1⟩

/-- **C93 (arbitrary equation of state, complete runs, flat walls).** As `C93_euler_run_flat_walls`. -/
theorem C93_aeos_run_flat_walls [Fintype ι] (eos : Eos.Interface) (P : Params) (lp : LimiterParams) (strict : Bool)
    (big evc big' : ℝ) (lim : ι → ι → Bounds → Euler.State dim → Euler.State dim → ℝ × Prop)
    (M : Hyp.Mesh ι dim) (hM : M.WellFormed) (hS : M.Symmetric) (hact : ∀ i, M.nbrs i ≠ [])
    (hd : ∀ dij v, Hyp.SymmetricViscosity (solver P lp strict big evc lim) M dij v)
    (data : Vec dim → ℝ → Euler.State dim) (map : List (Prepare.Entry ι Euler.Boundary dim))
    (hwall : ∀ j, Prepare.WallNode (Prepare.aeos (dim := dim)) .slip .noSlip (Prepare.entriesAt map j))
    (hflat : ∀ i m, WallMomentum .slip .noSlip map i m → ∀ j ∈ M.columns i, dot m (M.c i j + M.c j i) = 0)
    (q : ι → Eos.Prec) (par : Hyp.Params) (lo : ℕ → Hyp.Leftover ι (Euler.State dim)) (garbage : ℕ → ι → Euler.State dim)
    (sch : Scheme) (rec : Recovery) (cflMin cflMax : ℝ) (ok : Ctx → (ι → Euler.State dim) → Prop)
    (m m' : Mem (ι → Euler.State dim) (ι → Eos.Prec))
    (h : Run (hyperbolicModules (solver P lp strict big evc lim) M par big' (passBc Prepare.aeos data map)
      (fun U => Mpi.precompute M (preCycles eos P M) 2 U q) lo garbage fun _ _ _ _ _ _ => .crash) sch rec cflMin cflMax ok m m') :
    ∑ i, M.lumped i * Euler.density ((m' old).U i) = ∑ i, M.lumped i * Euler.density ((m old).U i) ∧
    ∑ i, M.lumped i * Euler.totalEnergy ((m' old).U i) = ∑ i, M.lumped i * Euler.totalEnergy ((m old).U i) := by
  have hbc := walls_pass data map hwall
  have hpair : ∀ w : StateVector ι (ι → Eos.Prec) (Euler.State dim), (PairImpermeable M fun i => Euler.momentum (w.U i)) →
      ∀ k, k = 0 ∨ k = Fin.last (dim + 1) →
      PairBalanced (solver P lp strict big evc lim) M (LinearMap.proj k) w := fun w hw k hk =>
    ⟨fun i j hj => hw.euler hM (fun i => w.U i) (fun i => (w.prec i).p) (fun _ => rfl) k hk i j hj,
      fun i j hj => hw.euler hM (fun i => w.U i) (fun i => (w.prec i).p) (fun _ => rfl) k hk i j hj⟩
  have key : ∀ c : Fin (dim + 2), (c = 0 ∨ c = Fin.last (dim + 1)) →
      total M (LinearMap.proj c) (m' old).U = total M (LinearMap.proj c) (m old).U := by
    intro c hc
    refine run_walls_conserve _ (total M (LinearMap.proj c)) (fun u => PairImpermeable M fun i => Euler.momentum (u i))
      (fun _ => True) trivial ?_ ?_ ?_ sch (fun _ _ _ _ _ => trivial) rec cflMin cflMax ok m m' h
    · intro t u
      refine ⟨?_, fun i => hflat i _ (hbc t u i).2.2⟩
      rw [total_apply, total_apply]
      refine Finset.sum_congr rfl fun i _ => ?_
      rcases hc with rfl | rfl
      · exact congrArg _ (hbc t u i).1
      · exact congrArg _ (hbc t u i).2.1
    · intro ctx n src st dst tau cap u τ hJ hJs _ h
      have hs := hyp_ok h
      have := pair_conserves (solver P lp strict big evc lim) M hM hS (LinearMap.proj c)
        (fun U f V g => by simp [solver]) (fun _ _ _ _ => by simp [solver])
        _ _ _ _ ⟨src.U, src.prec⟩ _ _ _ (hd _ _) (hpair ⟨src.U, src.prec⟩ hJ c hc)
        (fun s hs => by
          obtain ⟨q, hq, rfl⟩ := List.mem_map.1 hs
          exact hpair _ (hJs q hq) c hc) u τ hs
      simp only [hact, ne_eq, not_false_eq_true, Finset.filter_true, LinearMap.proj_apply] at this
      rw [total_apply, total_apply]
      exact this
    · intro ctx n v t dst tau u τ h
      simp [hyperbolicModules] at h
  have k0 := key _ (Or.inl rfl)
  have k1 := key _ (Or.inr rfl)
  rw [total_apply, total_apply] at k0 k1
  exact ⟨k0, k1⟩

/-! ### Boundary conditions keep states admissible -/

/-- A state with the same density and total energy and not more momentum is admissible if the old one is. -/
theorem admissible_of_momentum {P : Params} {U V : Euler.State dim} (h : Admissible P U) (hd : Euler.density V = Euler.density U)
    (hE : Euler.totalEnergy V = Euler.totalEnergy U) (hm : normSq (Euler.momentum V) ≤ normSq (Euler.momentum U)) :
    Admissible P V := by
  have hr : 0 ≤ 1 / Euler.density U := by have := h.rho_pos; positivity
  have hi : Euler.internalEnergy U ≤ Euler.internalEnergy V := by
    unfold Euler.internalEnergy
    rw [hd, hE]
    have := mul_le_mul_of_nonneg_right hm hr
    linarith
  refine ⟨by rw [hd]; exact h.rho_pos, by rw [hd]; exact h.cov_pos, ?_⟩
  rw [hd]
  have := h.shift_pos
  linarith

/-- **C88 (arbitrary equation of state, admissible states).** If the boundary data are admissible and the normals of the slip walls
have unit length, the boundary pass turns admissible states into admissible ones. -/
theorem C88_aeos_admissible (P : Params) (data : Vec dim → ℝ → Euler.State dim) (t : ℝ)
    (map : List (Prepare.Entry ι Euler.Boundary dim)) (U V : ι → Euler.State dim)
    (h : Prepare.boundaryPass Prepare.aeos data t map U = some V)
    (hunit : ∀ e ∈ map, e.id = .slip → normSq e.normal = 1)
    (hdata : ∀ e ∈ map, e.id = .dirichlet → Admissible P (data e.position t))
    (hU : ∀ i, Admissible P (U i)) : ∀ i, Admissible P (V i) := by
  intro i
  refine Prepare.pass_invariant Prepare.aeos data t map U V h (fun W W' => Admissible P W → Admissible P W') (fun _ h => h)
    (fun _ _ _ h1 h2 h => h2 (h1 h)) i (fun e he _ W W' hW hadm => ?_) (hU i)
  have hW' : applyBoundaryConditions e.id W e.normal (data e.position t) = some W' := hW
  rcases hid : e.id with _ | _ | _ | _ | _ | _ <;> rw [hid] at hW'
  all_goals first
    | exact (Option.some.inj hW') ▸ hadm
    | exact (Option.some.inj hW') ▸ hdata e he hid
    | (exfalso; simp [applyBoundaryConditions] at hW'; done)
    | skip
  · have hW' := Option.some.inj hW'
    refine admissible_of_momentum hadm (by rw [← hW']; exact Euler.density_mkState _ _ _)
      (by rw [← hW']; exact Euler.totalEnergy_mkState _ _ _) ?_
    have e2 : normSq (Euler.momentum W') = normSq (Euler.momentum W) - (dot (Euler.momentum W) e.normal) ^ 2 := by
      rw [← hW', Euler.momentum_mkState]
      have hn := hunit e he hid
      generalize hk : dot (Euler.momentum W) e.normal = k
      have : normSq (fun j => Euler.momentum W j - 1 * k * e.normal j) =
          normSq (Euler.momentum W) - 2 * k * dot (Euler.momentum W) e.normal + k ^ 2 * normSq e.normal := by
        simp only [normSq, dot, Finset.mul_sum, ← Finset.sum_sub_distrib, ← Finset.sum_add_distrib]
        exact Finset.sum_congr rfl fun j _ => by ring
      rw [this, hn, hk]
      ring
    rw [e2]
    nlinarith [sq_nonneg (dot (Euler.momentum W) e.normal)]
  · have hW' := Option.some.inj hW'
    refine admissible_of_momentum hadm (by rw [← hW']; exact Euler.density_mkState _ _ _)
      (by rw [← hW']; exact Euler.totalEnergy_mkState _ _ _) ?_
    rw [← hW', Euler.momentum_mkState]
    have : normSq (fun _ : Fin dim => (0 : ℝ)) = 0 := by simp [normSq]
    rw [this]
    exact normSq_nonneg _

/-- The boundary pass of the runs therefore satisfies the hypothesis of `C92_aeos_run_partial`. -/
theorem C92_aeos_boundary (P : Params) (data : Vec dim → ℝ → Euler.State dim) (map : List (Prepare.Entry ι Euler.Boundary dim))
    (hunit : ∀ e ∈ map, e.id = .slip → normSq e.normal = 1)
    (hdata : ∀ e ∈ map, e.id = .dirichlet → ∀ t, Admissible P (data e.position t)) (t : ℝ) (u : ι → Euler.State dim)
    (hu : ∀ i, Admissible P (u i)) (i : ι) : Admissible P (passBc Prepare.aeos data map t u i) := by
  unfold passBc
  cases hV : Prepare.boundaryPass Prepare.aeos data t map u with
  | none => exact hu i
  | some V => exact C88_aeos_admissible P data t map u V hV hunit (fun e he hid => hdata e he hid t) hu i

/-- A slip wall, a no-slip wall and an inflow boundary at nodes of the ring. -/
example (t : ℝ) : ∃ V, Prepare.boundaryPass Prepare.aeos (fun _ _ => ringState 2) t
      [⟨0, fun _ => -1, .slip, 0⟩, ⟨1, fun _ => 1, .noSlip, 0⟩, ⟨2, fun _ => 1, .dirichlet, 0⟩] ringState = some V ∧
    ∀ i, Admissible ringP (V i) := by
  have hadm : ∀ i, Admissible ringP (ringState i) := fun i =>
    ⟨(ringState_gas i).rho_pos, (ringState_gas i).cov_pos, (ringState_gas i).shift_pos⟩
  cases hV : Prepare.boundaryPass Prepare.aeos (fun _ _ => ringState 2) t
      [⟨0, fun _ => -1, .slip, 0⟩, ⟨1, fun _ => 1, .noSlip, 0⟩, ⟨2, fun _ => 1, .dirichlet, 0⟩] ringState with
  | none =>
    obtain ⟨e, he, hid⟩ := (Prepare.C88_aeos (fun _ _ => ringState 2) t _ ringState).1.2 hV
    simp only [List.mem_cons, List.not_mem_nil, or_false] at he
    rcases he with rfl | rfl | rfl <;> cases hid
  | some V =>
    refine ⟨V, rfl, C88_aeos_admissible ringP _ t _ _ V hV (fun e he hid => ?_) (fun _ _ _ => hadm 2) hadm⟩
    simp only [List.mem_cons, List.not_mem_nil, or_false] at he
    rcases he with rfl | rfl | rfl
    · simp [normSq]
    · cases hid
    · cases hid

end

end Aeos

namespace Assembly

noncomputable section

open Integrator Slot
open Classical

variable {κ : Type} {n s nq nf nfq nn dim : ℕ} {F : FeData κ n s nq nf nfq nn dim}

/-- **C93 (arbitrary equation of state on assembled meshes).** As `C93_assembled_euler_walls`: the boundary map built by `OfflineData`,
walls of any shape, schemes without stages. -/
theorem C93_assembled_aeos_walls [Fintype κ] (hP : BoundedSpace F)
    (ip : IncidenceParams) (below skip : Dof F → Dof F → Prop) (boundary : Dof F → Prop)
    (hasymm : ∀ i j, below i j → ¬ below j i) (hskip : ∀ i j, skip i j → below i j)
    (hone : ∀ i, ∀ j ∈ stencil F i, below i j ∨ below j i)
    (eos : Eos.Interface) (P : Aeos.Params) (lp : LimiterParams) (strict : Bool) (big' evc : ℝ)
    (lim : Dof F → Dof F → Aeos.Bounds → Euler.State dim → Euler.State dim → ℝ × Prop) (q : Dof F → Eos.Prec)
    (id : κ → Fin nf → ℕ) (position : κ → Fin s → Vec dim) (cells : List κ) (hn : cells.Nodup) (hall : ∀ K, K ∈ cells)
    (eps : ℝ) (heps : 0 ≤ eps)
    (hac : ∀ k : Dof F, (BoundaryMap.entriesAt k.1.val (BoundaryMap.contributions F id position cells)).Pairwise fun c c' =>
      c.id = c'.id → BoundaryMap.Acute c.normal c'.normal)
    (data : Vec dim → ℝ → Euler.State dim) (map : List (Prepare.Entry (Dof F) Euler.Boundary dim))
    (hmap : ∀ k : Dof F, ∀ d ∈ BoundaryMap.entriesAt k.1.val
      (BoundaryMap.boundaryMap eps (BoundaryMap.contributions F id position cells)),
      ∃ e ∈ map, e.i = k ∧ (∃ a : ℝ, d.normal = a • e.normal) ∧ (e.id = .slip ∨ e.id = .noSlip))
    (hwall : ∀ j, Prepare.WallNode (Prepare.aeos (dim := dim)) .slip .noSlip (Prepare.entriesAt map j))
    (par : Hyp.Params) (big : ℝ) (lo : ℕ → Hyp.Leftover (Dof F) (Euler.State dim)) (garbage : ℕ → Dof F → Euler.State dim)
    (sch : Scheme) (hsch : Integrator.stageFree sch) (rec : Recovery) (cflMin cflMax : ℝ)
    (ok : Ctx → (Dof F → Euler.State dim) → Prop) (m m' : Mem (Dof F → Euler.State dim) (Dof F → Eos.Prec))
    (h : Run (hyperbolicModules (Aeos.solver P lp strict big' evc lim) (assembled F ip below skip boundary) par big
      (passBc Prepare.aeos data map) (fun U => Hyp.Mpi.precompute (assembled F ip below skip boundary)
        (Aeos.preCycles eos P (assembled F ip below skip boundary)) 2 U q) lo garbage fun _ _ _ _ _ _ => .crash) sch rec cflMin cflMax ok m m') :
    integral F (fun k => Euler.density ((m' old).U k)) = integral F (fun k => Euler.density ((m old).U k)) ∧
    integral F (fun k => Euler.totalEnergy ((m' old).U k)) = integral F (fun k => Euler.totalEnergy ((m old).U k)) := by
  have hM := C87_assembled_wellFormed hP.conforming ip below skip boundary hasymm hskip
  simp only [integral_eq hP.consistent]
  refine Aeos.C93_aeos_run_walls eos P lp strict big' evc big lim (assembled F ip below skip boundary) hM
    (assembled_symmetric hP.consistent hP.conforming ip below skip boundary hP.integrals hP.weights hP.covered) hP.stencils
    (fun _ _ => .of_one_rank hM hone) (C87_assembled_rowSum hP.consistent ip below skip boundary) data map hwall ?_ q par lo garbage
    sch hsch rec cflMin cflMax ok m m' h
  intro k v hv
  refine BoundaryMap.C93_boundary_map hP.consistent hP.conforming ip below skip boundary id position cells hn hall hP.boundary eps
    heps k (hac k) v fun d hd => ?_
  obtain ⟨e, he, hi, ⟨a, hnm⟩, hid⟩ := hmap k d hd
  rw [hnm, dot_smul_right']
  rcases hid with hid | hid
  · rw [(hv e he hi).1 hid, mul_zero]
  · rw [(hv e he hi).2 hid]; simp [dot]

/-- **C93 (arbitrary equation of state on assembled meshes, flat walls).** As `C93_assembled_euler_flat_walls`, for all explicit
schemes. -/
theorem C93_assembled_aeos_flat_walls [Fintype κ] (hP : BoundedSpace F)
    (ip : IncidenceParams) (below skip : Dof F → Dof F → Prop) (boundary : Dof F → Prop)
    (hasymm : ∀ i j, below i j → ¬ below j i) (hskip : ∀ i j, skip i j → below i j)
    (hone : ∀ i, ∀ j ∈ stencil F i, below i j ∨ below j i)
    (eos : Eos.Interface) (P : Aeos.Params) (lp : LimiterParams) (strict : Bool) (big' evc : ℝ)
    (lim : Dof F → Dof F → Aeos.Bounds → Euler.State dim → Euler.State dim → ℝ × Prop) (q : Dof F → Eos.Prec)
    (data : Vec dim → ℝ → Euler.State dim) (map : List (Prepare.Entry (Dof F) Euler.Boundary dim))
    (hwall : ∀ j, Prepare.WallNode (Prepare.aeos (dim := dim)) .slip .noSlip (Prepare.entriesAt map j))
    (hflat : ∀ (k : Dof F) K f, F.neighbor K f = none → ∀ q, basisTrace F k K f q ≠ 0 →
      ∃ e ∈ map, e.i = k ∧ (∃ a : ℝ, F.normal K f q = a • e.normal) ∧ (e.id = .slip ∨ e.id = .noSlip))
    (par : Hyp.Params) (big : ℝ) (lo : ℕ → Hyp.Leftover (Dof F) (Euler.State dim)) (garbage : ℕ → Dof F → Euler.State dim)
    (sch : Scheme) (rec : Recovery) (cflMin cflMax : ℝ)
    (ok : Ctx → (Dof F → Euler.State dim) → Prop) (m m' : Mem (Dof F → Euler.State dim) (Dof F → Eos.Prec))
    (h : Run (hyperbolicModules (Aeos.solver P lp strict big' evc lim) (assembled F ip below skip boundary) par big
      (passBc Prepare.aeos data map) (fun U => Hyp.Mpi.precompute (assembled F ip below skip boundary)
        (Aeos.preCycles eos P (assembled F ip below skip boundary)) 2 U q) lo garbage fun _ _ _ _ _ _ => .crash) sch rec cflMin cflMax ok m m') :
    integral F (fun k => Euler.density ((m' old).U k)) = integral F (fun k => Euler.density ((m old).U k)) ∧
    integral F (fun k => Euler.totalEnergy ((m' old).U k)) = integral F (fun k => Euler.totalEnergy ((m old).U k)) := by
  have hM := C87_assembled_wellFormed hP.conforming ip below skip boundary hasymm hskip
  simp only [integral_eq hP.consistent]
  refine Aeos.C93_aeos_run_flat_walls eos P lp strict big' evc big lim (assembled F ip below skip boundary) hM
    (assembled_symmetric hP.consistent hP.conforming ip below skip boundary hP.integrals hP.weights hP.covered) hP.stencils
    (fun _ _ => .of_one_rank hM hone) data map hwall ?_ q par lo garbage sch rec cflMin cflMax ok m m' h
  intro k v hv l _
  refine C93_assembled_flat hP.conforming (k : Fin n) (l : Fin n) v fun K f hf x hb => ?_
  obtain ⟨e, he, hi, ⟨a, ha⟩, hid⟩ := hflat k K f hf x hb
  rw [ha, dot_smul_right']
  rcases hid with hid | hid
  · rw [(hv e he hi).1 hid, mul_zero]
  · rw [(hv e he hi).2 hid]; simp [dot]

theorem intervalWalls_wall_aeos (j : Dof intervalFe) :
    Prepare.WallNode (Prepare.aeos (dim := 1)) .slip .noSlip (Prepare.entriesAt intervalWalls j) :=
  ⟨fun e he => (intervalWalls_wall Euler.air j).ids e he, (intervalWalls_wall Euler.air j).unit,
    (intervalWalls_wall Euler.air j).orthogonal⟩

/-- Any gas between slip walls, discontinuous elements, any explicit scheme. -/
example (m m' : Mem (Dof intervalFe → Euler.State 1) (Dof intervalFe → Eos.Prec)) (lo : ℕ → Hyp.Leftover (Dof intervalFe) (Euler.State 1))
    (garbage : ℕ → Dof intervalFe → Euler.State 1) (data : Vec 1 → ℝ → Euler.State 1) (sch : Scheme) (rec : Recovery)
    (eos : Eos.Interface) (strict : Bool) (evc : ℝ) (q : Dof intervalFe → Eos.Prec)
    (lim : Dof intervalFe → Dof intervalFe → Aeos.Bounds → Euler.State 1 → Euler.State 1 → ℝ × Prop)
    (h : Run (hyperbolicModules (Aeos.solver Aeos.ringP Aeos.ringLp strict 1000 evc lim)
      (assembled intervalFe ⟨1, 1, false, 0⟩ (fun i j => j.1 < i.1) (fun _ _ => False) (fun _ => True)) Hyp.demoPar 1000
      (passBc Prepare.aeos data intervalWalls)
      (fun U => Hyp.Mpi.precompute (assembled intervalFe ⟨1, 1, false, 0⟩ (fun i j => j.1 < i.1) (fun _ _ => False) (fun _ => True))
        (Aeos.preCycles eos Aeos.ringP (assembled intervalFe ⟨1, 1, false, 0⟩ (fun i j => j.1 < i.1) (fun _ _ => False) (fun _ => True)))
        2 U q) lo garbage fun _ _ _ _ _ _ => .crash)
      sch rec 1 1 (fun _ _ => True) m m') :
    integral intervalFe (fun k => Euler.totalEnergy ((m' old).U k)) = integral intervalFe (fun k => Euler.totalEnergy ((m old).U k)) := by
  have hone : ∀ i, ∀ j ∈ stencil intervalFe i, j.1 < i.1 ∨ i.1 < j.1 := fun i j hj =>
    lt_or_gt_of_ne fun h => (mem_stencil.1 hj).1 (Subtype.ext h)
  refine (C93_assembled_aeos_flat_walls intervalFe_bounded ⟨1, 1, false, 0⟩ (fun i j => j.1 < i.1) (fun _ _ => False)
    (fun _ => True) (fun _ _ h h' => lt_asymm h h') (fun _ _ h => h.elim) hone eos Aeos.ringP Aeos.ringLp strict 1000 evc lim q
    data intervalWalls (intervalWalls_wall_aeos) ?_ Hyp.demoPar 1000 lo garbage sch rec 1 1 (fun _ _ => True) m m' h).2
  rintro ⟨k, hk⟩ K f hf x hb
  fin_cases K <;> fin_cases f <;> simp [intervalFe] at hf
  · have : k = 0 := by
      by_contra hne
      apply hb
      fin_cases k <;> simp [basisTrace, expand, intervalFe, Fin.sum_univ_two] at hne ⊢
    subst this
    exact ⟨_, List.mem_cons_self, rfl, ⟨1, by funext d; simp [intervalFe]⟩, Or.inl rfl⟩
  · have : k = 3 := by
      by_contra hne
      apply hb
      fin_cases k <;> simp [basisTrace, expand, intervalFe, Fin.sum_univ_two] at hne ⊢
    subst this
    exact ⟨_, List.mem_cons_of_mem _ List.mem_cons_self, rfl, ⟨1, by funext d; simp [intervalFe]⟩, Or.inl rfl⟩

/-- The same with the boundary map that `OfflineData` builds, for the schemes without stages. -/
example (m m' : Mem (Dof intervalFe → Euler.State 1) (Dof intervalFe → Eos.Prec)) (lo : ℕ → Hyp.Leftover (Dof intervalFe) (Euler.State 1))
    (garbage : ℕ → Dof intervalFe → Euler.State 1) (data : Vec 1 → ℝ → Euler.State 1) (rec : Recovery)
    (position : Fin 2 → Fin 2 → Vec 1) (id : Fin 2 → Fin 2 → ℕ)
    (eos : Eos.Interface) (strict : Bool) (evc : ℝ) (q : Dof intervalFe → Eos.Prec)
    (lim : Dof intervalFe → Dof intervalFe → Aeos.Bounds → Euler.State 1 → Euler.State 1 → ℝ × Prop)
    (h : Run (hyperbolicModules (Aeos.solver Aeos.ringP Aeos.ringLp strict 1000 evc lim)
      (assembled intervalFe ⟨1, 1, false, 0⟩ (fun i j => j.1 < i.1) (fun _ _ => False) (fun _ => True)) Hyp.demoPar 1000
      (passBc Prepare.aeos data intervalWalls)
      (fun U => Hyp.Mpi.precompute (assembled intervalFe ⟨1, 1, false, 0⟩ (fun i j => j.1 < i.1) (fun _ _ => False) (fun _ => True))
        (Aeos.preCycles eos Aeos.ringP (assembled intervalFe ⟨1, 1, false, 0⟩ (fun i j => j.1 < i.1) (fun _ _ => False) (fun _ => True)))
        2 U q) lo garbage fun _ _ _ _ _ _ => .crash)
      .erk_11 rec 1 1 (fun _ _ => True) m m') :
    integral intervalFe (fun k => Euler.density ((m' old).U k)) = integral intervalFe (fun k => Euler.density ((m old).U k)) := by
  have hone : ∀ i, ∀ j ∈ stencil intervalFe i, j.1 < i.1 ∨ i.1 < j.1 := fun i j hj =>
    lt_or_gt_of_ne fun h => (mem_stencil.1 hj).1 (Subtype.ext h)
  have hcontr : ∀ k : ℕ, (BoundaryMap.entriesAt k (BoundaryMap.contributions intervalFe id position [0, 1])).length ≤ 1 ∧
      (k ≠ 0 → k ≠ 3 → BoundaryMap.entriesAt k (BoundaryMap.contributions intervalFe id position [0, 1]) = []) := by
    intro k
    have e : BoundaryMap.contributions intervalFe id position [0, 1] =
        [(0, BoundaryMap.faceData intervalFe id position 0 0 0), (3, BoundaryMap.faceData intervalFe id position 1 1 1)] := by
      simp [BoundaryMap.contributions, BoundaryMap.faceContributions, List.finRange_succ, intervalFe]
    rw [e]
    by_cases h0 : k = 0
    · subst h0; simp [BoundaryMap.entriesAt]
    · by_cases h3 : k = 3
      · subst h3; simp [BoundaryMap.entriesAt]
      · have h0' : ¬ 0 = k := fun h => h0 h.symm
        have h3' : ¬ 3 = k := fun h => h3 h.symm
        simp [BoundaryMap.entriesAt, h0', h3']
  refine (C93_assembled_aeos_walls intervalFe_bounded ⟨1, 1, false, 0⟩ (fun i j => j.1 < i.1) (fun _ _ => False)
    (fun _ => True) (fun _ _ h h' => lt_asymm h h') (fun _ _ h => h.elim) hone eos Aeos.ringP Aeos.ringLp strict 1000 evc lim q
    id position [0, 1] (by simp) (fun K => by fin_cases K <;> simp) 0 le_rfl (fun k => ?_) data intervalWalls (fun k d hd => ?_)
    (intervalWalls_wall_aeos) Hyp.demoPar 1000 lo garbage .erk_11 (Or.inl rfl) rec 1 1 (fun _ _ => True) m m' h).1
  · have := (hcontr k.1.val).1
    match hl : BoundaryMap.entriesAt k.1.val (BoundaryMap.contributions intervalFe id position [0, 1]), this with
    | [], _ => exact List.Pairwise.nil
    | [_], _ => exact List.pairwise_singleton _ _
    | _ :: _ :: _, this => simp at this
  · obtain ⟨k, hk⟩ := k
    have hne : k = 0 ∨ k = 3 := by
      by_contra hcon
      push Not at hcon
      have hem := (hcontr k.val).2 (fun h => hcon.1 (Fin.ext h)) (fun h => hcon.2 (Fin.ext h))
      exact (BoundaryMap.C48_nonempty 0 _ k.val).1 (List.ne_nil_of_mem hd) hem
    rcases hne with rfl | rfl
    · exact ⟨_, List.mem_cons_self, rfl, ⟨-d.normal 0, by funext i; rw [Subsingleton.elim i 0]; simp⟩, Or.inl rfl⟩
    · exact ⟨_, List.mem_cons_of_mem _ List.mem_cons_self, rfl, ⟨d.normal 0, by funext i; rw [Subsingleton.elim i 0]; simp⟩,
        Or.inl rfl⟩

/-- **C93 (shallow water on assembled meshes, flat walls).** On every mesh with the matrices assembled by `OfflineData`: the water
volume between walls, for every bathymetry and all explicit schemes. -/
theorem C93_assembled_water_flat_walls [Fintype κ] (hP : BoundedSpace F)
    (ip : IncidenceParams) (below skip : Dof F → Dof F → Prop) (boundary : Dof F → Prop)
    (hasymm : ∀ i j, below i j → ¬ below j i) (hskip : ∀ i j, skip i j → below i j)
    (hbound : ∀ k : Dof F, ¬ boundary k → Interior F k) (p : ShallowWater.StepParams) (Z : Dof F → ℝ)
    (lim : Dof F → Dof F → ShallowWater.Bounds → ShallowWater.State dim → ShallowWater.State dim → ℝ × Prop)
    (data : Vec dim → ℝ → ShallowWater.State dim) (map : List (Prepare.Entry (Dof F) ShallowWater.Boundary dim))
    (hwall : ∀ j, Prepare.WallNode (Prepare.shallowWater (dim := dim) p.p) .slip .noSlip (Prepare.entriesAt map j))
    (hflat : ∀ (k : Dof F) K f, F.neighbor K f = none → ∀ q, basisTrace F k K f q ≠ 0 →
      ∃ e ∈ map, e.i = k ∧ (∃ a : ℝ, F.normal K f q = a • e.normal) ∧ (e.id = .slip ∨ e.id = .noSlip))
    (par : Hyp.Params) (big : ℝ) (lo : ℕ → Hyp.Leftover (Dof F) (ShallowWater.State dim))
    (garbage : ℕ → Dof F → ShallowWater.State dim) (sch : Scheme) (rec : Recovery) (cflMin cflMax : ℝ)
    (ok : Ctx → (Dof F → ShallowWater.State dim) → Prop) (m m' : Mem (Dof F → ShallowWater.State dim) Unit)
    (h : Run (hyperbolicModules (ShallowWater.description p Z lim) (assembled F ip below skip boundary) par big
      (passBc (Prepare.shallowWater p.p) data map) (fun _ => ()) lo garbage fun _ _ _ _ _ _ => .crash)
      sch rec cflMin cflMax ok m m') :
    integral F (fun k => ShallowWater.waterDepth ((m' old).U k)) = integral F (fun k => ShallowWater.waterDepth ((m old).U k)) := by
  have hM := C87_assembled_wellFormed hP.conforming ip below skip boundary hasymm hskip
  simp only [integral_eq hP.consistent]
  refine Integrator.C93_sw_run_flat_walls p Z big lim (assembled F ip below skip boundary) hM
    (assembled_symmetric hP.consistent hP.conforming ip below skip boundary hP.integrals hP.weights hP.covered) hP.stencils
    (fun i j _ hij => assembled_skew hP.conforming ip below skip boundary hbound i j hij) data map hwall ?_ par lo garbage sch rec
    cflMin cflMax ok m m' h
  intro k v hv l _
  refine C93_assembled_flat hP.conforming (k : Fin n) (l : Fin n) v fun K f hf x hb => ?_
  obtain ⟨e, he, hi, ⟨a, ha⟩, hid⟩ := hflat k K f hf x hb
  rw [ha, dot_smul_right']
  rcases hid with hid | hid
  · rw [(hv e he hi).1 hid, mul_zero]
  · rw [(hv e he hi).2 hid]; simp [dot]

/-- Water over any bottom in a basin with a slip wall and a no-slip wall. -/
example (m m' : Mem (Dof intervalFe → ShallowWater.State 1) Unit) (lo : ℕ → Hyp.Leftover (Dof intervalFe) (ShallowWater.State 1))
    (garbage : ℕ → Dof intervalFe → ShallowWater.State 1) (data : Vec 1 → ℝ → ShallowWater.State 1) (sch : Scheme) (rec : Recovery)
    (Z : Dof intervalFe → ℝ)
    (lim : Dof intervalFe → Dof intervalFe → ShallowWater.Bounds → ShallowWater.State 1 → ShallowWater.State 1 → ℝ × Prop)
    (h : Run (hyperbolicModules (ShallowWater.description ShallowWater.runupParams Z lim)
      (assembled intervalFe ⟨1, 1, false, 0⟩ (fun i j => j.1 < i.1) (fun _ _ => False) (fun _ => True)) Hyp.demoPar 1000
      (passBc (Prepare.shallowWater ShallowWater.runupParams.p) data
        [⟨⟨0, intervalFe_free 0⟩, fun _ => -1, .slip, 0⟩, ⟨⟨3, intervalFe_free 3⟩, fun _ => 1, .noSlip, 0⟩]) (fun _ => ()) lo garbage
      fun _ _ _ _ _ _ => .crash) sch rec 1 1 (fun _ _ => True) m m') :
    integral intervalFe (fun k => ShallowWater.waterDepth ((m' old).U k)) =
      integral intervalFe (fun k => ShallowWater.waterDepth ((m old).U k)) := by
  refine C93_assembled_water_flat_walls intervalFe_bounded ⟨1, 1, false, 0⟩ (fun i j => j.1 < i.1) (fun _ _ => False)
    (fun _ => True) (fun _ _ h h' => lt_asymm h h') (fun _ _ h => h.elim) (fun _ h => absurd trivial h) ShallowWater.runupParams Z
    lim data _ (fun j => ?_) ?_ Hyp.demoPar 1000 lo garbage sch rec 1 1 (fun _ _ => True) m m' h
  · refine ⟨fun e he => ?_, fun e he _ => ?_, fun e he e' he' h1 h2 => ?_⟩ <;>
      simp only [Prepare.entriesAt, List.mem_filter, List.mem_cons, List.not_mem_nil, or_false, decide_eq_true_eq] at *
    · rcases he.1 with h | h <;> simp [h]
    · rcases he.1 with h | h <;> simp [h, normSq]
    · obtain ⟨h3 | h3, rfl⟩ := he <;> obtain ⟨h4 | h4, h5⟩ := he' <;> subst h3 <;> subst h4 <;> simp_all
  rintro ⟨k, hk⟩ K f hf x hb
  fin_cases K <;> fin_cases f <;> simp [intervalFe] at hf
  · have : k = 0 := by
      by_contra hne
      apply hb
      fin_cases k <;> simp [basisTrace, expand, intervalFe, Fin.sum_univ_two] at hne ⊢
    subst this
    exact ⟨_, List.mem_cons_self, rfl, ⟨1, by funext d; simp [intervalFe]⟩, Or.inl rfl⟩
  · have : k = 3 := by
      by_contra hne
      apply hb
      fin_cases k <;> simp [basisTrace, expand, intervalFe, Fin.sum_univ_two] at hne ⊢
    subst this
    exact ⟨_, List.mem_cons_of_mem _ List.mem_cons_self, rfl, ⟨1, by funext d; simp [intervalFe]⟩, Or.inr rfl⟩

end

end Assembly

end Ryujin
