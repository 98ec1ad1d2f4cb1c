import Verif.Props.AssemblyRun
import Verif.Props.LakeAtRest

/-!
# C38 over complete runs: a lake at rest stays at rest
-/

namespace Ryujin
namespace ShallowWater

open Hyp
open Integrator (Ctx Scheme Recovery Mem Run Res hyperbolicModules schemeAccepted passBc)
open Integrator.Slot

variable {ι : Type} {dim : ℕ}

/-- **C38 (complete runs).** A lake at rest over any bottom, with or without islands, enclosed by walls: every state is the initial
one after any number of time steps with any explicit scheme, with or without recovery, for every time-step size.  Missing: as in
`C38_step_partial` wet nodes must be at least as deep as the larger cut-off and one combination of limiter options is excluded for
discontinuous elements; no constrained degrees of freedom. -/
theorem C38_run_partial [Fintype ι] (q : StepParams) (Z : ι → ℝ) (lim : ι → ι → Bounds → State dim → State dim → ℝ × Prop)
    (hlim : ∀ i j b U P, IsLaneOf (fun _ => limit q.p q.lp) b U P (lim i j b U P))
    (M : Mesh ι dim) (hM : M.WellFormed) (hact : ∀ i, M.nbrs i ≠ []) (par : Hyp.Params) (hn : par.iterations ≤ 2)
    (heps : 0 ≤ q.p.eps) (hrow : ∀ i, M.c i i + ((M.nbrs i).map (M.c i)).sum = 0)
    (hcfg : M.dG = false ∨ q.lp.limit_on_square_velocity = true ∨ q.lp.limit_on_kinetic_energy = false)
    (data : Vec dim → ℝ → State dim) (map : List (Prepare.Entry ι Boundary dim))
    (hmap : ∀ e ∈ map, e.id = .doNothing ∨ e.id = .slip ∨ e.id = .noSlip)
    (big : ℝ) (lo : ℕ → Leftover ι (State dim)) (garbage : ℕ → ι → State dim)
    (parabolic : Ctx → ℕ → (ι → State dim) → ℝ → (ι → State dim) → ℝ → Res (ι → State dim))
    (sch : Scheme) (hsch : schemeAccepted true sch) (rec : Recovery) (cflMin cflMax : ℝ) (m m' : Mem (ι → State dim) Unit)
    (h : Run (hyperbolicModules (description q Z lim) M par big (passBc (Prepare.shallowWater q.p) data map) (fun _ => ()) lo
      garbage parabolic) sch rec cflMin cflMax (fun _ _ => True) m m')
    (η : ℝ) (hrest : LakeAtRest q.p Z η (m old).U) : (m' old).U = (m old).U := by
  have key : (m' old).U ∈ ({(m old).U} : Set (ι → State dim)) := by
    refine Integrator.C90_run_invariant _ _ (convex_singleton _) (fun _ => True) ?_ ?_ sch hsch rec cflMin cflMax m m' rfl h
    · rintro t u rfl
      refine Set.mem_singleton_iff.2 (funext fun i => ?_)
      refine Integrator.passBc_keeps (Prepare.shallowWater q.p) data map t (m old).U (fun V => V = (m old).U i) ?_ i rfl
      intro e he W W' hW hW'
      subst hW
      rw [← Option.some.inj hW']
      exact C38_walls q.p e.id (hmap e he) _ (hrest i).1 e.normal _
    · intro ctx _ n src st dst tau cap u τ hsrc _ hh
      have hsrc' : src.U = (m old).U := hsrc
      refine Set.mem_singleton_iff.2 (funext fun i => ?_)
      have := C38_step_partial q Z lim hlim M hM _ _ _ _ _ _ _ _ (by exact hn) heps hrow hcfg η (by rw [hsrc']; exact hrest) u τ
        (Integrator.hyp_ok hh) i (hact i)
      rw [this]
      exact congrFun hsrc' i
  exact key

/-- The hypotheses are met: the lake with an island, walls at one node. -/
example (m : Mem (Fin 3 → State 1) Unit) (hm : (m old).U = lakeU) (lo : ℕ → Leftover (Fin 3) (State 1))
    (garbage : ℕ → Fin 3 → State 1) : ∃ m',
    Run (hyperbolicModules (description lakeParams lakeZ lakeLim) ring ⟨1, 1 / 100, 2⟩ 1000
      (passBc (Prepare.shallowWater lakeParams.p) (fun _ _ => mkState 1 0) [⟨0, fun _ => 1, .slip, 0⟩]) (fun _ => ()) lo
      garbage fun _ _ _ _ _ _ => .crash) .erk_11 .none 1 1 (fun _ _ => True) m m' ∧ (m' old).U = lakeU := by
  set Mo := hyperbolicModules (description lakeParams lakeZ lakeLim) ring ⟨1, 1 / 100, 2⟩ 1000
      (passBc (Prepare.shallowWater lakeParams.p) (fun _ _ => mkState 1 0) [⟨0, fun _ => 1, .slip, 0⟩]) (fun _ => ()) lo
      garbage (fun _ _ _ _ _ _ => .crash) with hMo
  obtain ⟨U, t, h⟩ := C18_warn_returns (description lakeParams lakeZ lakeLim) ring ⟨9 / 10, 1 / 100, 2⟩ ⟨0, 0⟩
    { lo 0 with newU := (m (.temp 0)).U } ⟨Mo.bc 0 (m old).U, ()⟩ [] 0 10
    (C11_step_tau (description lakeParams lakeZ lakeLim) ring ⟨9 / 10, 1 / 100, 2⟩ .warn ⟨0, 0⟩
      { lo 0 with newU := (m (.temp 0)).U } ⟨Mo.bc 0 (m old).U, ()⟩ [] 0 10
      (by norm_num) (by norm_num) ring_closed.lumped (by norm_num)).1
  have hup : Mo.hyp ⟨9 / 10, .warn, .warn⟩ 0 ⟨Mo.bc 0 (m old).U, Mo.pre (Mo.bc 0 (m old).U)⟩ [] (m (.temp 0)).U 0
      (some (10 - 0)) = .ok U t := by
    simp only [hMo, hyperbolicModules] at h ⊢
    simp only [sub_zero, Option.getD_some, List.map_nil, h]
  obtain ⟨m', hrun, -⟩ := Integrator.run_of_update (ok := fun _ _ => True) 1 1 hup (fun _ _ => trivial)
  refine ⟨m', hrun, ?_⟩
  rw [← hm]
  exact C38_run_partial lakeParams lakeZ lakeLim
    (fun i j b U P => ⟨1, fun _ => b, fun _ => U, fun _ => P, 0, rfl, rfl, rfl, rfl⟩) ring ring_wf (fun i => by simp [ring])
    ⟨1, 1 / 100, 2⟩ le_rfl (by norm_num [lakeParams]) Scalar.ring_row_sum (Or.inl rfl) (fun _ _ => mkState 1 0) _
    (fun e he => by rw [List.mem_singleton.1 he]; exact Or.inr (Or.inl rfl)) 1000 lo garbage _ .erk_11 rfl .none 1 1 m m' hrun 1
    (by rw [hm]; exact lake_rest)

end ShallowWater

namespace Assembly

open Classical
open Integrator (Ctx Scheme Recovery Mem Run Res hyperbolicModules schemeAccepted passBc)
open Integrator.Slot

noncomputable section

variable {κ : Type} {n s nq nf nfq nn dim : ℕ} {F : FeData κ n s nq nf nfq nn dim}

/-- **C38 (assembled meshes).** A lake at rest, enclosed by walls, on the matrices that `OfflineData` assembles.  Missing: as in
`C38_run_partial`. -/
theorem C38_assembled_partial [Fintype κ] (hP : BoundedSpace F) (ip : IncidenceParams) (below skip : Dof F → Dof F → Prop)
    (boundary : Dof F → Prop) (hasymm : ∀ i j, below i j → ¬ below j i) (hskip : ∀ i j, skip i j → below i j)
    (q : ShallowWater.StepParams) (Z : Dof F → ℝ)
    (lim : Dof F → Dof F → ShallowWater.Bounds → ShallowWater.State dim → ShallowWater.State dim → ℝ × Prop)
    (hlim : ∀ i j b U V, IsLaneOf (fun _ => ShallowWater.limit q.p q.lp) b U V (lim i j b U V)) (par : Hyp.Params)
    (hn : par.iterations ≤ 2) (heps : 0 ≤ q.p.eps)
    (hcfg : F.dG = false ∨ q.lp.limit_on_square_velocity = true ∨ q.lp.limit_on_kinetic_energy = false)
    (data : Vec dim → ℝ → ShallowWater.State dim) (map : List (Prepare.Entry (Dof F) ShallowWater.Boundary dim))
    (hmap : ∀ e ∈ map, e.id = .doNothing ∨ e.id = .slip ∨ e.id = .noSlip)
    (big : ℝ) (lo : ℕ → Hyp.Leftover (Dof F) (ShallowWater.State dim)) (garbage : ℕ → Dof F → ShallowWater.State dim)
    (parabolic : Ctx → ℕ → (Dof F → ShallowWater.State dim) → ℝ → (Dof F → ShallowWater.State dim) → ℝ →
      Res (Dof F → ShallowWater.State dim))
    (sch : Scheme) (hsch : schemeAccepted true sch) (rec : Recovery) (cflMin cflMax : ℝ)
    (m m' : Mem (Dof F → ShallowWater.State dim) Unit)
    (h : Run (hyperbolicModules (ShallowWater.description q Z lim) (assembled F ip below skip boundary) par big
      (passBc (Prepare.shallowWater q.p) data map) (fun _ => ()) lo garbage parabolic) sch rec cflMin cflMax (fun _ _ => True) m m')
    (η : ℝ) (hrest : ShallowWater.LakeAtRest q.p Z η (m old).U) : (m' old).U = (m old).U :=
  ShallowWater.C38_run_partial q Z lim hlim (assembled F ip below skip boundary)
    (C87_assembled_wellFormed hP.conforming ip below skip boundary hasymm hskip) hP.stencils par hn heps
    (fun i => C87_assembled_rowSum hP.consistent ip below skip boundary i) hcfg data map hmap big lo garbage parabolic sch hsch rec
    cflMin cflMax m m' h η hrest

/-- A lake with an island at the right end of the interval, discontinuous elements and a third order scheme. -/
example (m m' : Mem (Dof intervalFe → ShallowWater.State 1) Unit) (lo : ℕ → Hyp.Leftover (Dof intervalFe) (ShallowWater.State 1))
    (garbage : ℕ → Dof intervalFe → ShallowWater.State 1) (rec : Recovery)
    (hm : (m old).U = fun k => ShallowWater.mkState (![1, 1 / 2, 1 / 2, 0] k.1) 0)
    (h : Run (hyperbolicModules (ShallowWater.description ShallowWater.lakeParams (fun k => ![0, 1 / 2, 1 / 2, 3] k.1)
      fun _ _ => ShallowWater.lakeLim 0 0)
      (assembled intervalFe ⟨1, 1, false, 0⟩ (fun i j => j.1 < i.1) (fun _ _ => False) (fun _ => True)) Hyp.demoPar 1000
      (passBc (Prepare.shallowWater ShallowWater.lakeParams.p) (fun _ _ => 0)
        [⟨⟨0, intervalFe_free 0⟩, fun _ => -1, .slip, 0⟩, ⟨⟨3, intervalFe_free 3⟩, fun _ => 1, .noSlip, 0⟩]) (fun _ => ()) lo garbage
      fun _ _ _ _ _ _ => .crash) .erk_33 rec 1 1 (fun _ _ => True) m m') : (m' old).U = (m old).U := by
  refine C38_assembled_partial intervalFe_bounded ⟨1, 1, false, 0⟩ (fun i j => j.1 < i.1) (fun _ _ => False) (fun _ => True)
    (fun _ _ h h' => lt_asymm h h') (fun _ _ h => h.elim) ShallowWater.lakeParams _ _
    (fun i j b U P => ⟨1, fun _ => b, fun _ => U, fun _ => P, 0, rfl, rfl, rfl, rfl⟩) Hyp.demoPar (by norm_num [Hyp.demoPar])
    (by norm_num [ShallowWater.lakeParams]) (Or.inr (Or.inl rfl)) (fun _ _ => 0) _ (fun e he => ?_) 1000 lo garbage _ .erk_33 rfl rec
    1 1 m m' h 1 ?_
  · simp only [List.mem_cons, List.not_mem_nil, or_false] at he
    rcases he with rfl | rfl
    · exact Or.inr (Or.inl rfl)
    · exact Or.inr (Or.inr rfl)
  · rw [hm]
    rintro ⟨k, hk⟩
    refine ⟨rfl, ?_⟩
    fin_cases k
    · left; simp [ShallowWater.lakeParams, ShallowWater.waterDepth, ShallowWater.mkState, ShallowWater.cutoffMollified]; norm_num
    · left; simp [ShallowWater.lakeParams, ShallowWater.waterDepth, ShallowWater.mkState, ShallowWater.cutoffMollified]; norm_num
    · left; simp [ShallowWater.lakeParams, ShallowWater.waterDepth, ShallowWater.mkState, ShallowWater.cutoffMollified]; norm_num
    · right; simp [ShallowWater.waterDepth, ShallowWater.mkState]

end

end Assembly
end Ryujin
