import Verif.Props.AeosFrames
import Verif.Props.AeosInvariantDomain
import Verif.Props.FreeStream
import Verif.Props.AssemblyRun

/-!
# Runs with precomputed values: uniform flow of a gas with arbitrary equation of state
-/

namespace Ryujin

namespace Integrator

noncomputable section

open Slot Instr

variable {X P : Type} [AddCommGroup X] [Module ℝ X]

/-- As `run_prepared`, with a property of the vector and its precomputed values. -/
theorem run_precomputed {Mo : Modules X P} {K : X → Prop} {J : SV X P → Prop} (ctx : Ctx) (t tau_max : ℝ)
    (hbc : ∀ t u, K u → K (Mo.bc t u) ∧ J ⟨Mo.bc t u, Mo.pre (Mo.bc t u)⟩)
    (hhyp : ∀ n (src : SV X P) (st : List (ℝ × SV X P)) dst tau cap u τ, K src.U → J src → (∀ p ∈ st, J p.2) →
      Mo.hyp ctx n src st dst tau cap = .ok u τ → K u)
    {code : List Instr}
    (hpar : ∀ s c st d f, Instr.par s c st d f ∈ code →
      ∀ n v t dst tau u τ, K v → Mo.par ctx n v t dst tau = .ok u τ → K u)
    (hadd : ∀ d a b s, Instr.sadd d a b s ∈ code → ∀ u v, K u → K v → K (a • u + b • v))
    {W Q : List Slot} (hv : Valid W Q code) {s s' : Conf X P} (h : ∀ v ∈ W, K (s.mem v).U) (hJ : ∀ v ∈ Q, J (s.mem v))
    (hs : run Mo ctx t tau_max code s = .done s') : ∀ v ∈ written code ++ W, K (s'.mem v).U := by
  induction code generalizing s W Q with
  | nil => simp only [run] at hs; cases hs; simpa [written] using h
  | cons i is ih =>
    have hpar' : ∀ s c st d f, Instr.par s c st d f ∈ is →
      ∀ n v t dst tau u τ, K v → Mo.par ctx n v t dst tau = .ok u τ → K u :=
      fun s c st d f hm => hpar s c st d f (List.mem_cons_of_mem _ hm)
    have hadd' : ∀ d a b s, Instr.sadd d a b s ∈ is → ∀ u v, K u → K v → K (a • u + b • v) :=
      fun d a b s hm => hadd d a b s (List.mem_cons_of_mem _ hm)
    have set : ∀ (d : Slot) (u : X), K u → ∀ v ∈ d :: W, K ((setU s.mem d u) v).U := by
      intro d u hu v hv
      by_cases hvd : v = d
      · simpa [hvd] using hu
      · simp only [List.mem_cons, hvd, false_or] at hv
        simpa [hvd] using h v hv
    have setJ : ∀ (d : Slot) (u : X), ∀ v ∈ Q.filter (· ≠ d), J ((setU s.mem d u) v) := by
      intro d u v hv
      simp only [List.mem_filter, decide_eq_true_eq] at hv
      rw [show setU s.mem d u v = s.mem v by simp [setU, hv.2]]
      exact hJ v hv.1
    have mono : ∀ d, i.dst = d → (∀ v ∈ written is ++ (d :: W), K (s'.mem v).U) →
        ∀ v ∈ written (i :: is) ++ W, K (s'.mem v).U := by
      intro d hd hk v hv
      refine hk v ?_
      simp only [written, List.map_cons, hd, List.cons_append, List.mem_cons, List.mem_append] at hv ⊢
      tauto
    cases i with
    | prepare v c =>
      simp only [run, exec] at hs
      have := ih hpar' hadd' hv.2 (s := ⟨_, s.tau, s.calls⟩) ?_ ?_ hs
      · intro w hw
        refine this w ?_
        simp only [written, List.map_cons, Instr.dst, List.cons_append, List.mem_cons, List.mem_append] at hw ⊢
        rcases hw with rfl | hw
        · exact Or.inr hv.1
        · exact hw
      · intro w hw
        by_cases hwv : w = v
        · simpa [hwv] using (hbc _ _ (h v hv.1)).1
        · simpa [hwv] using h w hw
      · intro w hw
        by_cases hwv : w = v
        · simpa [hwv] using (hbc _ _ (h v hv.1)).2
        · simp only [List.mem_cons, hwv, false_or] at hw
          simpa [hwv] using hJ w hw
    | first src d div =>
      simp only [run, exec] at hs
      have hk := hhyp s.calls (s.mem src) [] (s.mem d).U 0 (some (tau_max / div))
      generalize Mo.hyp _ _ _ _ _ _ _ = r at hs hk
      cases r with
      | ok u τ => exact mono d rfl (ih hpar' hadd' hv.2.2
          (set d u (hk u τ (h _ hv.1) (hJ _ hv.2.1) (by simp) rfl)) (setJ d u) hs)
      | restart => simp [finish] at hs
      | crash => simp [finish] at hs
    | hyp src st d =>
      simp only [run, exec] at hs
      have hk := hhyp s.calls (s.mem src) (stageArgs s.mem st) (s.mem d).U s.tau none
      have hst1 : ∀ p ∈ stageArgs s.mem st, J p.2 := by
        intro p hp
        simp only [stageArgs, List.mem_map] at hp
        obtain ⟨q, hq, rfl⟩ := hp
        exact hJ _ (hv.2.2.1 q hq).2
      generalize Mo.hyp _ _ _ _ _ _ _ = r at hs hk
      cases r with
      | ok u τ => exact mono d rfl (ih hpar' hadd' hv.2.2.2
          (set d u (hk u τ (h _ hv.1) (hJ _ hv.2.1) hst1 rfl)) (setJ d u) hs)
      | restart => simp [finish] at hs
      | crash => simp [finish] at hs
    | par src c st d f =>
      simp only [run, exec] at hs
      split_ifs at hs
      have hk := hpar src c st d f List.mem_cons_self s.calls (s.mem src).U (t + c * s.tau) (s.mem d).U (f * s.tau)
      generalize Mo.par _ _ _ _ _ _ = r at hs hk
      cases r with
      | ok u τ => exact mono d rfl (ih hpar' hadd' hv.2 (set d u (hk u τ (h _ hv.1) rfl)) (setJ d u) hs)
      | restart => simp [finish] at hs
      | crash => simp [finish] at hs
    | sadd d a b src =>
      simp only [run, exec] at hs
      have hk := hadd d a b src List.mem_cons_self _ _ (h d hv.1) (h src hv.2.1)
      have := ih hpar' hadd' hv.2.2 (s := ⟨_, s.tau, s.calls⟩)
        (fun w hw => set d _ hk w (List.mem_cons_of_mem _ hw)) (setJ d _) hs
      intro w hw
      refine this w ?_
      simp only [written, List.map_cons, Instr.dst, List.cons_append, List.mem_cons, List.mem_append] at hw ⊢
      rcases hw with rfl | hw
      · exact Or.inr hv.1
      · exact hw

/-- **C90 (invariant sets, precomputed values).** As `C90_run_invariant`; the updates may rely on precomputed values that belong to the
vectors they are handed: no update of any scheme reads values precomputed for another vector. -/
theorem C90_precomputed_invariant (Mo : Modules X P) (K : Set X) (hK : Convex ℝ K) (ok : Ctx → Prop)
    (hbc : ∀ t, ∀ u ∈ K, Mo.bc t u ∈ K)
    (hhyp : ∀ ctx, ok ctx → ∀ n (src : SV X P) st dst tau cap u τ, src.U ∈ K → src.prec = Mo.pre src.U →
      (∀ p ∈ st, p.2.U ∈ K ∧ p.2.prec = Mo.pre p.2.U) → Mo.hyp ctx n src st dst tau cap = .ok u τ → u ∈ K)
    (sch : Scheme) (hsch : schemeAccepted true sch) (rec : Recovery) (cflMin cflMax : ℝ) (m m' : Mem X P)
    (hm : (m old).U ∈ K) (h : Run Mo sch rec cflMin cflMax (fun ctx _ => ok ctx) m m') : (m' old).U ∈ K := by
  have single : ∀ ctx, ok ctx → ∀ t tau_max (m0 m2 : Mem X P) (k n : ℕ) tau, (m0 old).U ∈ K →
      singleStep Mo (program sch) ctx t tau_max m0 k = .returned m2 tau n → (m2 old).U ∈ K := by
    intro ctx hok t tau_max m0 m2 k n tau hm0 hs
    unfold singleStep at hs
    cases hr : run Mo ctx t tau_max (program sch).code ⟨m0, 0, k⟩ with
    | restart => rw [hr] at hs; simp at hs
    | crash => rw [hr] at hs; simp at hs
    | done s =>
      rw [hr] at hs
      simp only [Result.returned.injEq] at hs
      rw [← hs.1]
      refine run_precomputed (K := fun u => u ∈ K) (J := fun v => v.U ∈ K ∧ v.prec = Mo.pre v.U) ctx t tau_max ?_ ?_ ?_ ?_
        (program_valid sch) (by simpa using hm0) (by simp) hr _ (List.mem_append_left _ (program_result_written sch))
      · intro t u hu; exact ⟨hbc t u hu, hbc t u hu, rfl⟩
      · intro n src st dst tau cap u τ h1 h2 h3 h4; exact hhyp ctx hok n src st dst tau cap u τ h1 h2.2 h3 h4
      · intro s c st d f hi
        exact (program_convex sch hsch _ hi).elim
      · intro d a b s' hi u v hu hv
        obtain ⟨h1, h2, h3⟩ := program_convex sch hsch _ hi
        exact hK hu hv h1 h2 h3
  induction h with
  | start => exact hm
  | next prev call side ih =>
    obtain ⟨m0, k, hs, h0⟩ := step_returned sch call
    refine single _ (side _ (Or.inl rfl)) _ _ _ _ _ _ _ ?_ hs
    rcases h0 with h0 | h0
    · rw [h0]; exact ih
    · rw [h0]; exact hbc _ _ ih

end

end Integrator

open Hyp
open Integrator (Ctx Scheme Recovery Mem Run Res hyperbolicModules schemeAccepted passBc)
open Integrator.Slot

noncomputable section

variable {ι : Type} {dim : ℕ}

/-- **C103 (arbitrary equation of state, boundary conditions).** Every boundary condition that does not stop the program keeps a uniform
state with matching data that is tangential to slip walls and at rest at no-slip walls. -/
theorem Aeos.C103_aeos_boundary (U0 : Euler.State dim) (id : Euler.Boundary) (n : Vec dim)
    (hslip : id = .slip → dot (Euler.momentum U0) n = 0) (hnoslip : id = .noSlip → Euler.momentum U0 = 0) (W : Euler.State dim)
    (h : Aeos.applyBoundaryConditions id U0 n U0 = some W) : W = U0 := by
  cases id with
  | slip =>
    have := hslip rfl
    rw [← Option.some.inj h]
    apply Euler.state_ext <;> simp [this]
  | noSlip =>
    have := hnoslip rfl
    rw [← Option.some.inj h]
    apply Euler.state_ext <;> simp [this]; rfl
  | dynamic => cases h
  | _ => exact (Option.some.inj h).symm

/-- **C103 (arbitrary equation of state, complete runs).** The values that `prepare_state_vector` precomputes are uniform too, so uniform
flow with matching boundary data is the same after any number of time steps with any explicit scheme, for every equation of state and
whatever the precomputed vector contained before. -/
theorem C103_aeos_run [Fintype ι] (eos : Eos.Interface) (P : Aeos.Params) (lp : LimiterParams) (strict : Bool) (big' evc_factor : ℝ)
    (lim : ι → ι → Aeos.Bounds → Euler.State dim → Euler.State dim → ℝ × Prop) (M : Mesh ι dim) (hM : M.WellFormed)
    (hrow : ∀ i, M.nbrs i ≠ [] → M.c i i + ((M.nbrs i).map (M.c i)).sum = 0) (par : Hyp.Params) (U0 : Euler.State dim)
    (data : Vec dim → ℝ → Euler.State dim) (map : List (Prepare.Entry ι Euler.Boundary dim))
    (hdata : ∀ e ∈ map, (∀ t, data e.position t = U0) ∧
      (e.id = .slip → dot (Euler.momentum U0) e.normal = 0) ∧ (e.id = .noSlip → Euler.momentum U0 = 0))
    (q : ι → Eos.Prec) (big : ℝ) (lo : ℕ → Leftover ι (Euler.State dim)) (garbage : ℕ → ι → Euler.State dim)
    (parabolic : Ctx → ℕ → (ι → Euler.State dim) → ℝ → (ι → Euler.State dim) → ℝ → Res (ι → Euler.State dim))
    (sch : Scheme) (hsch : schemeAccepted true sch) (rec : Recovery) (cflMin cflMax : ℝ)
    (m m' : Mem (ι → Euler.State dim) (ι → Eos.Prec))
    (h : Run (hyperbolicModules (Aeos.solver P lp strict big' evc_factor lim) M par big (passBc Prepare.aeos data map)
      (fun U => Mpi.precompute M (Aeos.preCycles eos P M) 2 U q) lo garbage parabolic) sch rec cflMin cflMax (fun _ _ => True) m m')
    (h0 : ∀ i, M.nbrs i ≠ [] → (m old).U i = U0) (i : ι) (hi : M.nbrs i ≠ []) : (m' old).U i = U0 := by
  let K : Set (ι → Euler.State dim) := {u | ∀ i, M.nbrs i ≠ [] → u i = U0}
  have hK : Convex ℝ K := by
    intro x hx y hy α β _ _ hαβ i hi
    show α • x i + β • y i = U0
    rw [hx i hi, hy i hi, ← add_smul, hαβ, one_smul]
  have hu : ∀ u : ι → Euler.State dim, u ∈ K → Uniform (Aeos.solver P lp strict big' evc_factor lim) M U0
      (Aeos.f U0 (Eos.statePressure eos U0)) ⟨u, Mpi.precompute M (Aeos.preCycles eos P M) 2 u q⟩ := fun u hu =>
    { value := hu
      flux := fun i hi => by
        show Aeos.f U0 (Mpi.precompute M (Aeos.preCycles eos P M) 2 u q i).p = _
        rw [(Aeos.precompute_precomputed eos P hM u q).p i hi, hu i hi]
      source := fun _ _ _ => rfl }
  refine Integrator.C90_precomputed_invariant _ K hK (fun _ => True) ?_ ?_ sch hsch rec cflMin cflMax m m' h0 h i hi
  · intro t u hu i hi
    refine Integrator.passBc_keeps Prepare.aeos data map t u (fun V => V = U0) (fun e he W W' hW hW' => ?_) i (hu i hi)
    obtain ⟨hd, hs, hns⟩ := hdata e he
    rw [hd t, hW] at hW'
    exact Aeos.C103_aeos_boundary U0 e.id e.normal hs hns W' hW'
  · intro ctx _ n src st dst tau cap u τ hsrc hpre hst hh i hi
    refine uniform_step hM (D := Aeos.solver P lp strict big' evc_factor lim)
      (G := uniformFlux (Aeos.f U0 (Eos.statePressure eos U0))) ⟨fun _ => rfl, fun _ => rfl, rfl⟩ hrow
      (by rw [hpre]; exact hu src.U hsrc) ?_ (Integrator.hyp_ok hh) hi
    intro s hs
    obtain ⟨a, ha, rfl⟩ := List.mem_map.1 hs
    have := hst a ha
    rw [this.2]
    exact hu a.2.U this.1

/-- The hypotheses are met: supersonic flow of the gas `Aeos.air` on the ring, an inflow boundary and any leftovers. -/
example (lp : LimiterParams) (strict : Bool) (big' evc_factor : ℝ)
    (m : Mem (Fin 3 → Euler.State 1) (Fin 3 → Eos.Prec)) (hm : (m old).U = fun _ => Euler.mkState 1 (fun _ => 3) 7)
    (lo : ℕ → Leftover (Fin 3) (Euler.State 1)) (garbage : ℕ → Fin 3 → Euler.State 1) (q : Fin 3 → Eos.Prec) : ∃ m',
    Run (hyperbolicModules (Aeos.oneLane Aeos.ideal lp strict big' evc_factor) ring demoPar 1000
      (passBc Prepare.aeos (fun _ _ => Euler.mkState 1 (fun _ => 3) 7) [⟨0, fun _ => 1, .dirichlet, 0⟩])
      (fun U => Mpi.precompute ring (Aeos.preCycles Aeos.air Aeos.ideal ring) 2 U q) lo garbage fun _ _ _ _ _ _ => .crash)
      .erk_11 .none 1 1 (fun _ _ => True) m m' ∧ ∀ i, (m' old).U i = Euler.mkState 1 (fun _ => 3) 7 := by
  set Mo := hyperbolicModules (Aeos.oneLane Aeos.ideal lp strict big' evc_factor) ring demoPar 1000
      (passBc Prepare.aeos (fun _ _ => Euler.mkState 1 (fun _ => 3) 7) [⟨0, fun _ => 1, .dirichlet, 0⟩])
      (fun U => Mpi.precompute ring (Aeos.preCycles Aeos.air Aeos.ideal ring) 2 U q) lo garbage (fun _ _ _ _ _ _ => .crash) with hMo
  obtain ⟨U, t, h⟩ := C18_warn_returns (Aeos.oneLane Aeos.ideal lp strict big' evc_factor) ring
    ⟨1 / 2, demoPar.tiny, demoPar.iterations⟩ ⟨0, 0⟩
    { lo 0 with newU := (m (temp 0)).U } ⟨Mo.bc 0 (m old).U, Mo.pre (Mo.bc 0 (m old).U)⟩ [] 0 10
    (C11_step_tau (Aeos.oneLane Aeos.ideal lp strict big' evc_factor) ring ⟨1 / 2, demoPar.tiny, demoPar.iterations⟩ .warn ⟨0, 0⟩
      { lo 0 with newU := (m (temp 0)).U } ⟨Mo.bc 0 (m old).U, Mo.pre (Mo.bc 0 (m old).U)⟩ [] 0 10
      (by norm_num [demoPar]) (by norm_num) ring_closed.lumped (by norm_num)).1
  have hup : Mo.hyp ⟨1 / 2, .warn, .warn⟩ 0 ⟨Mo.bc 0 (m old).U, Mo.pre (Mo.bc 0 (m old).U)⟩ [] (m (temp 0)).U 0
      (some (10 - 0)) = .ok U t := by
    simp only [hMo, hyperbolicModules] at h ⊢
    simp only [sub_zero, Option.getD_some, List.map_nil, h]
  obtain ⟨m', hrun, -⟩ := Integrator.run_of_update (ok := fun _ _ => True) 1 1 hup (fun _ _ => trivial)
  refine ⟨m', hrun, fun i => ?_⟩
  exact C103_aeos_run Aeos.air Aeos.ideal lp strict big' evc_factor _ ring ring_wf (fun i _ => Scalar.ring_row_sum i) demoPar
    (Euler.mkState 1 (fun _ => 3) 7) (fun _ _ => Euler.mkState 1 (fun _ => 3) 7) _
    (fun e he => by rw [List.mem_singleton.1 he]; exact ⟨fun _ => rfl, by rintro ⟨⟩, by rintro ⟨⟩⟩) q 1000 lo garbage _ .erk_11 rfl
    .none 1 1 m m' hrun (fun i _ => by rw [hm]) i (by simp [ring])

namespace Assembly

open Classical

variable {κ : Type} {n s nq nf nfq nn dim : ℕ} {F : FeData κ n s nq nf nfq nn dim}

/-- **C90 (arbitrary equation of state on assembled meshes).** Mass, every component of the momentum and energy, for every equation of
state and with the precomputed values of the code. -/
theorem C90_assembled_aeos [Fintype κ] (hP : PeriodicSpace F)
    (ip : IncidenceParams) (below skip : Dof F → Dof F → Prop) (boundary : Dof F → Prop)
    (hasymm : ∀ i j, below i j → ¬ below j i) (hskip : ∀ i j, skip i j → below i j)
    (hone : ∀ i, ∀ j ∈ stencil F i, below i j ∨ below j i)
    (eos : Eos.Interface) (P : Aeos.Params) (lp : LimiterParams) (strict : Bool) (big' evc_factor : ℝ)
    (lim : Dof F → Dof F → Aeos.Bounds → Euler.State dim → Euler.State dim → ℝ × Prop)
    (q : Dof F → Eos.Prec) (par : Hyp.Params) (big : ℝ) (lo : ℕ → Hyp.Leftover (Dof F) (Euler.State dim))
    (garbage : ℕ → Dof F → Euler.State dim) (sch : Scheme) (rec : Recovery) (cflMin cflMax : ℝ)
    (ok : Ctx → (Dof F → Euler.State dim) → Prop) (m m' : Mem (Dof F → Euler.State dim) (Dof F → Eos.Prec))
    (h : Run (hyperbolicModules (Aeos.solver P lp strict big' evc_factor lim) (assembled F ip below skip boundary) par big
      (fun _ u => u) (fun U => Mpi.precompute (assembled F ip below skip boundary)
        (Aeos.preCycles eos P (assembled F ip below skip boundary)) 2 U q) lo garbage fun _ _ _ _ _ _ => .crash)
      sch rec cflMin cflMax ok m m') :
    integral F (fun k => Euler.density ((m' old).U k)) = integral F (fun k => Euler.density ((m old).U k)) ∧
    (∀ d, integral F (fun k => Euler.momentum ((m' old).U k) d) = integral F (fun k => Euler.momentum ((m old).U k) d)) ∧
    integral F (fun k => Euler.totalEnergy ((m' old).U k)) = integral F (fun k => Euler.totalEnergy ((m old).U k)) := by
  have key : ∀ c : Fin (dim + 2), integral F (fun k => (m' old).U k c) = integral F (fun k => (m old).U k c) := fun c =>
    C90_assembled_conserves hP ip below skip boundary hasymm hskip hone (Aeos.solver P lp strict big' evc_factor lim)
      (LinearMap.proj c) ((Aeos.solver_centralFlux P lp strict big' evc_factor lim).conserves rfl _) par big _ lo garbage sch rec
      cflMin cflMax ok m m' h
  exact ⟨key 0, fun d => key d.castSucc.succ, key (Fin.last (dim + 1))⟩

/-- **C103 (arbitrary equation of state on assembled meshes).** -/
theorem C103_assembled_aeos [Fintype κ] (hF : F.Consistent) (hG : F.Conforming)
    (ip : IncidenceParams) (below skip : Dof F → Dof F → Prop) (boundary : Dof F → Prop)
    (hasymm : ∀ i j, below i j → ¬ below j i) (hskip : ∀ i j, skip i j → below i j)
    (eos : Eos.Interface) (P : Aeos.Params) (lp : LimiterParams) (strict : Bool) (big' evc_factor : ℝ)
    (lim : Dof F → Dof F → Aeos.Bounds → Euler.State dim → Euler.State dim → ℝ × Prop) (par : Hyp.Params) (U0 : Euler.State dim)
    (data : Vec dim → ℝ → Euler.State dim) (map : List (Prepare.Entry (Dof F) Euler.Boundary dim))
    (hdata : ∀ e ∈ map, (∀ t, data e.position t = U0) ∧
      (e.id = .slip → dot (Euler.momentum U0) e.normal = 0) ∧ (e.id = .noSlip → Euler.momentum U0 = 0))
    (q : Dof F → Eos.Prec) (big : ℝ) (lo : ℕ → Hyp.Leftover (Dof F) (Euler.State dim)) (garbage : ℕ → Dof F → Euler.State dim)
    (parabolic : Ctx → ℕ → (Dof F → Euler.State dim) → ℝ → (Dof F → Euler.State dim) → ℝ → Res (Dof F → Euler.State dim))
    (sch : Scheme) (hsch : schemeAccepted true sch) (rec : Recovery) (cflMin cflMax : ℝ)
    (m m' : Mem (Dof F → Euler.State dim) (Dof F → Eos.Prec))
    (h : Run (hyperbolicModules (Aeos.solver P lp strict big' evc_factor lim) (assembled F ip below skip boundary) par big
      (passBc Prepare.aeos data map) (fun U => Mpi.precompute (assembled F ip below skip boundary)
        (Aeos.preCycles eos P (assembled F ip below skip boundary)) 2 U q) lo garbage parabolic)
      sch rec cflMin cflMax (fun _ _ => True) m m')
    (h0 : ∀ k, (m old).U k = U0) (k : Dof F) (hk : stencil F k ≠ []) : (m' old).U k = U0 :=
  C103_aeos_run eos P lp strict big' evc_factor lim (assembled F ip below skip boundary)
    (C87_assembled_wellFormed hG ip below skip boundary hasymm hskip)
    (fun i _ => C87_assembled_rowSum hF ip below skip boundary i) par U0 data map hdata q big lo garbage parabolic sch hsch rec
    cflMin cflMax m m' h (fun i _ => h0 i) k hk

/-- Any gas on the assembled ring. -/
example (eos : Eos.Interface) (P : Aeos.Params) (lp : LimiterParams) (strict : Bool) (big' evc_factor : ℝ)
    (lim : Dof ringFe → Dof ringFe → Aeos.Bounds → Euler.State 1 → Euler.State 1 → ℝ × Prop) (q : Dof ringFe → Eos.Prec)
    (lo : ℕ → Hyp.Leftover (Dof ringFe) (Euler.State 1)) (garbage : ℕ → Dof ringFe → Euler.State 1)
    (m : Mem (Dof ringFe → Euler.State 1) (Dof ringFe → Eos.Prec)) : ∃ m',
    Run (hyperbolicModules (Aeos.solver P lp strict big' evc_factor lim) ringMesh Hyp.demoPar 1000
      (fun _ u => u) (fun U => Mpi.precompute ringMesh (Aeos.preCycles eos P ringMesh) 2 U q) lo garbage fun _ _ _ _ _ _ => .crash)
      .erk_11 .none 1 1 (fun _ _ => True) m m' ∧
    integral ringFe (fun k => Euler.totalEnergy ((m' old).U k)) = integral ringFe (fun k => Euler.totalEnergy ((m old).U k)) := by
  have hC : ringMesh.Closed := C87_assembled_closed ringFe_consistent ringFe_conforming ringFe_periodic.noBoundary _ _ _ _
    ringFe_periodic.integrals ringFe_periodic.weights ringFe_periodic.covered
  set D := Aeos.solver P lp strict big' evc_factor lim with hD
  set Mo := hyperbolicModules D ringMesh Hyp.demoPar 1000 (fun _ u => u)
    (fun U => Mpi.precompute ringMesh (Aeos.preCycles eos P ringMesh) 2 U q) lo garbage (fun _ _ _ _ _ _ => .crash) with hMo
  obtain ⟨U, t, h⟩ := Hyp.C18_warn_returns D ringMesh ⟨1 / 2, Hyp.demoPar.tiny, Hyp.demoPar.iterations⟩ ⟨0, 0⟩
    { lo 0 with newU := (m (temp 0)).U } ⟨(m old).U, Mo.pre (m old).U⟩ [] 0 10
    (Hyp.C11_step_tau D ringMesh ⟨1 / 2, Hyp.demoPar.tiny, Hyp.demoPar.iterations⟩ .warn ⟨0, 0⟩
      { lo 0 with newU := (m (temp 0)).U } ⟨(m old).U, Mo.pre (m old).U⟩ [] 0 10
      (by norm_num [Hyp.demoPar]) (by norm_num) hC.lumped (by norm_num)).1
  have hup : Mo.hyp ⟨1 / 2, .warn, .warn⟩ 0 ⟨Mo.bc 0 (m old).U, Mo.pre (Mo.bc 0 (m old).U)⟩ [] (m (temp 0)).U 0
      (some (10 - 0)) = .ok U t := by
    simp only [hMo, hyperbolicModules] at h ⊢
    simp only [sub_zero, Option.getD_some, List.map_nil, h]
  obtain ⟨m', hrun, -⟩ := Integrator.run_of_update (ok := fun _ _ => True) 1 1 hup (fun _ _ => trivial)
  refine ⟨m', hrun, ?_⟩
  have hone : ∀ i, ∀ j ∈ stencil ringFe i, j.1 < i.1 ∨ i.1 < j.1 := fun i j hj =>
    lt_or_gt_of_ne fun h => (mem_stencil.1 hj).1 (Subtype.ext h)
  exact (C90_assembled_aeos ringFe_periodic ⟨1, 1, false, 0⟩ (fun i j => j.1 < i.1) (fun _ _ => False) (fun _ => False)
    (fun _ _ h h' => lt_asymm h h') (fun _ _ h => h.elim) hone eos P lp strict big' evc_factor lim q Hyp.demoPar
    1000 lo garbage .erk_11 .none 1 1 (fun _ _ => True) m m' hrun).2.2

/-- The hypotheses of `C103_assembled_aeos` for gas that streams through the interval. -/
example (eos : Eos.Interface) (P : Aeos.Params) (lp : LimiterParams) (strict : Bool) (big' evc_factor : ℝ)
    (lim : Dof intervalFe → Dof intervalFe → Aeos.Bounds → Euler.State 1 → Euler.State 1 → ℝ × Prop) (q : Dof intervalFe → Eos.Prec)
    (lo : ℕ → Hyp.Leftover (Dof intervalFe) (Euler.State 1)) (garbage : ℕ → Dof intervalFe → Euler.State 1) (rec : Recovery)
    (m m' : Mem (Dof intervalFe → Euler.State 1) (Dof intervalFe → Eos.Prec))
    (h : Run (hyperbolicModules (Aeos.solver P lp strict big' evc_factor lim)
      (assembled intervalFe ⟨1, 1, false, 0⟩ (fun i j => j.1 < i.1) (fun _ _ => False) (fun _ => True)) Hyp.demoPar 1000
      (passBc Prepare.aeos (fun _ _ => Euler.mkState 1 (fun _ => 3) 7) [⟨⟨0, intervalFe_free 0⟩, fun _ => -1, .dirichlet, 0⟩])
      (fun U => Mpi.precompute (assembled intervalFe ⟨1, 1, false, 0⟩ (fun i j => j.1 < i.1) (fun _ _ => False) (fun _ => True))
        (Aeos.preCycles eos P (assembled intervalFe ⟨1, 1, false, 0⟩ (fun i j => j.1 < i.1) (fun _ _ => False) (fun _ => True))) 2 U q)
      lo garbage fun _ _ _ _ _ _ => .crash) .erk_33 rec 1 1 (fun _ _ => True) m m')
    (h0 : ∀ k, (m old).U k = Euler.mkState 1 (fun _ => 3) 7) (k : Dof intervalFe) :
    (m' old).U k = Euler.mkState 1 (fun _ => 3) 7 :=
  C103_assembled_aeos intervalFe_consistent intervalFe_conforming ⟨1, 1, false, 0⟩ (fun i j => j.1 < i.1) (fun _ _ => False)
    (fun _ => True) (fun _ _ h h' => lt_asymm h h') (fun _ _ h => h.elim) eos P lp strict big' evc_factor lim Hyp.demoPar
    (Euler.mkState 1 (fun _ => 3) 7) _ _
    (fun e he => by rw [List.mem_singleton.1 he]; exact ⟨fun _ => rfl, by rintro ⟨⟩, by rintro ⟨⟩⟩) q 1000 lo garbage _ .erk_33 rfl
    rec 1 1 m m' h h0 k (intervalFe_bounded.stencils k)

end Assembly

end

end Ryujin
