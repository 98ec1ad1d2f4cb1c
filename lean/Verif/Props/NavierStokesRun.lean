import Verif.Model.NavierStokesRun
import Verif.Props.NavierStokesExamples
import Verif.Props.Runs
import Verif.Props.BalanceWalls
import Verif.Props.EulerInvariantDomain

/-!
# C116: complete runs of the Navier-Stokes equations
-/

namespace Ryujin
namespace NavierStokes

open Euler (State density momentum totalEnergy internalEnergy mkState Boundary Admissible)
open Integrator (Ctx Res Modules hyperbolicModules Scheme Recovery Mem Run SV Instr program passBc)
open Integrator.Slot

noncomputable section

variable {ι Q : Type} {dim : ℕ} [Fintype ι] [Fintype Q]

/-- A parabolic sub step that returns is a completed backward Euler step from a state with nonvanishing density. -/
theorem parabolicStep_ok {c : Config ι Q dim} {solvers : ℕ → Solvers ι dim} {garbage : ℕ → ι → State dim} {ctx : Ctx}
    {n : ℕ} {v : ι → State dim} {t tau : ℝ} {dst u : ι → State dim} {τ : ℝ}
    (h : parabolicStep c solvers garbage ctx n v t dst tau = .ok u τ) :
    (∀ i, ¬ c.fe.constrained i → density (v i) ≠ 0) ∧
      ∃ w, backwardEulerStep { c with solvers := solvers n } (strategyOf ctx.par) v t tau = .done u w := by
  classical
  unfold parabolicStep at h
  split_ifs at h with h0
  push Not at h0
  refine ⟨h0, ?_⟩
  cases hb : backwardEulerStep { c with solvers := solvers n } (strategyOf ctx.par) v t tau with
  | done U w =>
    rw [hb] at h
    simp only [Res.ok.injEq] at h
    exact ⟨w, by rw [h.1]⟩
  | restart => rw [hb] at h; simp at h
  | noConvergence => rw [hb] at h; simp at h

open Classical in
/-- The total of component `k` over the unconstrained degrees of freedom is a linear functional. -/
def totalOf (c : Config ι Q dim) (k : Fin (dim + 2)) : (ι → State dim) →ₗ[ℝ] ℝ :=
  ∑ i ∈ Finset.univ.filter (fun i => ¬ c.fe.constrained i), c.m i •
    ((LinearMap.proj k : State dim →ₗ[ℝ] ℝ).comp (LinearMap.proj i : (ι → State dim) →ₗ[ℝ] State dim))

open Classical in
omit [Fintype Q] in
theorem totalOf_apply (c : Config ι Q dim) (k : Fin (dim + 2)) (u : ι → State dim) :
    totalOf c k u = total c fun i => u i k := by
  simp only [totalOf, total, LinearMap.sum_apply, Finset.sum_filter]
  refine Finset.sum_congr rfl fun i _ => ?_
  by_cases hi : c.fe.constrained i
  · rw [if_neg (not_not.2 hi), if_pos hi]; rfl
  · rw [if_pos hi, if_neg hi]; rfl

/-- Every component is the density, a momentum or the total energy. -/
theorem component_cases (k : Fin (dim + 2)) (P : Fin (dim + 2) → Prop) (h0 : P 0) (h1 : ∀ d : Fin dim, P d.castSucc.succ)
    (h2 : P (Fin.last (dim + 1))) : P k := by
  refine Fin.cases h0 (fun j => ?_) k
  refine Fin.lastCases ?_ (fun d => h1 d) j
  exact h2

/-- **C116**: on a mesh without boundary (all boundaries periodic; constraints allowed) total mass, every component of the
total momentum and the total energy are the same after any number of time steps with any scheme, whatever was rejected and
repeated, if the linear systems of the parabolic sub steps are solved exactly.  (The viscosities are symmetric on one rank
for every Riemann solver, `Hyp.SymmetricViscosity.of_one_rank`, and on several ranks by C10.) -/
theorem C116_conserves_partial (p : Euler.Params) (lp : LimiterParams) (big bigTau : ℝ)
    (riem : ι → ι → State dim → State dim → Vec dim → ℝ)
    (ind : State dim → List (State dim × Vec dim) → ℝ → ℝ)
    (lim : ι → ι → Euler.Bounds → State dim → State dim → ℝ × Prop) (M : Hyp.Mesh ι dim) (hM : M.WellFormed)
    (hC : M.Closed) (hd : ∀ dij u, Hyp.SymmetricViscosity (Euler.description p lp big riem ind lim) M dij ⟨u, ()⟩)
    (par : Hyp.Params) (lo : ℕ → Hyp.Leftover ι (State dim)) (garbage : ℕ → ι → State dim)
    (c : Config ι Q dim) (hfe : c.fe.Conforming) (hbc : c.bc = []) (hm : c.m = M.lumped)
    (hcon : ∀ i, c.fe.constrained i ↔ M.nbrs i = [])
    (solvers : ℕ → Solvers ι dim) (hx : ∀ n, (solvers n).AllExact)
    (sch : Scheme) (rec : Recovery) (cflMin cflMax : ℝ) (ok : Ctx → (ι → State dim) → Prop)
    (m m' : Mem (ι → State dim) Unit)
    (h : Run (modules p lp big bigTau riem ind lim M par (fun _ u => u) lo garbage c solvers) sch rec cflMin cflMax ok m m') :
    total c (fun i => density ((m' old).U i)) = total c (fun i => density ((m old).U i)) ∧
    (∀ d, total c (fun i => momentum ((m' old).U i) d) = total c (fun i => momentum ((m old).U i) d)) ∧
    total c (fun i => totalEnergy ((m' old).U i)) = total c (fun i => totalEnergy ((m old).U i)) := by
  classical
  have key : ∀ k : Fin (dim + 2), total c (fun i => (m' old).U i k) = total c (fun i => (m old).U i k) := by
    intro k
    rw [← totalOf_apply, ← totalOf_apply]
    refine Integrator.C90_run_conserves _ (totalOf c k) (fun _ _ => rfl) ?_ ?_ sch rec cflMin cflMax ok m m' h
    · intro ctx n src st dst tau cap u τ h
      have h1 := Hyp.C13_step_conserves_of_symmetric (Euler.description p lp big riem ind lim) M hM hC (LinearMap.proj k)
        ((Euler.centralFlux p lp big riem ind lim).conserves rfl _) _ _ _ _ _ _ _ _ (hd _ _) _ _ (Integrator.hyp_ok h)
      have e : ∀ v : ι → State dim, totalOf c k v =
          ∑ i ∈ Finset.univ.filter (fun i => M.nbrs i ≠ []), M.lumped i * (LinearMap.proj (R := ℝ) k) (v i) := by
        intro v
        rw [totalOf_apply, total, Finset.sum_filter]
        refine Finset.sum_congr rfl fun i _ => ?_
        rw [hm]
        by_cases hi : M.nbrs i = []
        · rw [if_pos ((hcon i).2 hi), if_neg (not_not.2 hi)]
        · rw [if_neg (fun hc => hi ((hcon i).1 hc)), if_pos hi]
          rfl
      rw [e, e]
      exact h1
    · intro ctx n v t dst tau u τ h
      obtain ⟨hrho, w, hd⟩ := parabolicStep_ok (dst := dst) h
      rw [totalOf_apply, totalOf_apply]
      have hs : SlipCompatible c.bc := by
        rw [hbc]
        exact ⟨fun _ h => (by cases h), fun _ _ => List.Pairwise.nil⟩
      refine component_cases k (fun k => total c (fun i => u i k) = total c (fun i => v i k)) ?_ ?_ ?_
      · have := C71_density _ _ _ _ _ _ _ hd
        exact congrArg (total c) (funext this)
      · intro d
        exact C72_momentum { c with solvers := solvers n } hfe (hx n) hbc _ _ _ _ _ _ hd d
      · exact C72_total_energy { c with solvers := solvers n } hfe hs (hx n) (by
          show ∀ b ∈ c.bc, _
          rw [hbc]; exact fun _ h => by cases h) _ _ _ _ _ _ hrho hd
  exact ⟨key 0, fun d => key _, key (Fin.last _)⟩

/-- The schemes with a parabolic sub step whose updates use no earlier stages. -/
def stageFreeParabolic (sch : Scheme) : Prop := sch = .imex_11 ∨ sch = .strang_ssprk_33_cn

theorem stageFreeParabolic_code {sch : Scheme} (h : stageFreeParabolic sch) (s : Integrator.Slot)
    (st : List (Integrator.Slot × ℝ)) (d : Integrator.Slot) (hm : Instr.hyp s st d ∈ (program sch).code) : st = [] := by
  rcases h with rfl | rfl <;> simp [program, Integrator.imex11, Integrator.strangSsprk33] at hm <;> tauto

/-- **C116**: in a domain with slip and no-slip walls total mass and total energy are the same after any number of time
steps of the first order scheme and of Strang splitting with the strong stability preserving method: what viscosity takes
from the kinetic energy is found in the internal energy, and nothing passes the walls.  Normals that meet at a degree of
freedom are orthogonal, momenta that satisfy the wall conditions are orthogonal to the boundary normal
(`C93_boundary_map`), linear systems are solved exactly. -/
theorem C116_walls_partial (p : Euler.Params) (lp : LimiterParams) (big bigTau : ℝ)
    (riem : ι → ι → State dim → State dim → Vec dim → ℝ) (ind : State dim → List (State dim × Vec dim) → ℝ → ℝ)
    (lim : ι → ι → Euler.Bounds → State dim → State dim → ℝ × Prop)
    (M : Hyp.Mesh ι dim) (hM : M.WellFormed) (hS : M.Symmetric) (hact : ∀ i, M.nbrs i ≠ [])
    (hd : ∀ dij u, Hyp.SymmetricViscosity (Euler.description p lp big riem ind lim) M dij ⟨u, ()⟩)
    (hrow : ∀ i, M.c i i + ((M.nbrs i).map (M.c i)).sum = 0)
    (data : Vec dim → ℝ → State dim) (map : List (Prepare.Entry ι Boundary dim))
    (hwall : ∀ j, Prepare.WallNode (Prepare.euler (dim := dim) p) .slip .noSlip (Prepare.entriesAt map j))
    (hnormal : ∀ j m, Integrator.WallMomentum .slip .noSlip map j m → dot m (M.boundaryNormal j) = 0)
    (par : Hyp.Params) (lo : ℕ → Hyp.Leftover ι (State dim)) (garbage : ℕ → ι → State dim)
    (c : Config ι Q dim) (hfe : c.fe.Conforming) (hcon : ∀ i, ¬ c.fe.constrained i) (hm : c.m = M.lumped)
    (hbc : c.bc = entries data map) (hslip : SlipCompatible c.bc)
    (solvers : ℕ → Solvers ι dim) (hx : ∀ n, (solvers n).AllExact)
    (sch : Scheme) (hsch : stageFreeParabolic sch) (rec : Recovery) (cflMin cflMax : ℝ)
    (ok : Ctx → (ι → State dim) → Prop) (m m' : Mem (ι → State dim) Unit)
    (h : Run (modules p lp big bigTau riem ind lim M par (passBc (Prepare.euler p) data map) lo garbage c solvers)
      sch rec cflMin cflMax ok m m') :
    ∑ i, M.lumped i * density ((m' old).U i) = ∑ i, M.lumped i * density ((m old).U i) ∧
    ∑ i, M.lumped i * totalEnergy ((m' old).U i) = ∑ i, M.lumped i * totalEnergy ((m old).U i) := by
  classical
  have hbc' : ∀ t u i, density (passBc (Prepare.euler p) data map t u i) = density (u i) ∧
      totalEnergy (passBc (Prepare.euler p) data map t u i) = totalEnergy (u i) ∧
      dot (momentum (passBc (Prepare.euler p) data map t u i)) (M.boundaryNormal i) = 0 := by
    intro t u i
    obtain ⟨V, hV, h1, -⟩ := Prepare.C88_euler p data t map u
    obtain ⟨a, b, c, d, -⟩ := h1 i (hwall i)
    unfold passBc
    rw [hV, Option.getD_some]
    exact ⟨c, d, hnormal i _ fun e he hi => ⟨a e he hi, b e he hi⟩⟩
  have htot : ∀ f : ι → ℝ, total c f = ∑ i, M.lumped i * f i := by
    intro f
    unfold total
    exact Finset.sum_congr rfl fun i _ => by rw [if_neg (hcon i), hm]
  have hdir : ∀ b ∈ c.bc, b.id ≠ .dirichlet := by
    intro b hb hid
    rw [hbc, entries, List.mem_map] at hb
    obtain ⟨e, he, rfl⟩ := hb
    have hid' : e.id = .dirichlet := hid
    have : e ∈ Prepare.entriesAt map e.i := by simp [Prepare.entriesAt, he]
    rcases (hwall e.i).ids e this with h | h | h <;> rw [hid'] at h <;> cases h
  have key : ∀ φ : State dim →ₗ[ℝ] ℝ, (φ = LinearMap.proj 0 ∨ φ = LinearMap.proj (Fin.last (dim + 1))) →
      Integrator.total M φ (m' old).U = Integrator.total M φ (m old).U := by
    intro φ hφ
    refine Integrator.run_walls_conserve _ (Integrator.total M φ)
      (fun u => ∀ i, dot (momentum (u i)) (M.boundaryNormal i) = 0)
      (fun st => st = []) rfl ?_ ?_ ?_ sch (fun s st d hm _ => by rw [stageFreeParabolic_code hsch s st d hm]; rfl)
      rec cflMin cflMax ok m m' h
    · intro t u
      refine ⟨?_, fun i => (hbc' t u i).2.2⟩
      rw [Integrator.total_apply, Integrator.total_apply]
      refine Finset.sum_congr rfl fun i _ => ?_
      rcases hφ with rfl | rfl
      · exact congrArg _ (hbc' t u i).1
      · exact congrArg _ (hbc' t u i).2.1
    · intro ctx n src st dst tau cap u τ hJ _ hst h
      subst hst
      have hs := Integrator.hyp_ok h
      obtain ⟨h1, h2, -⟩ := C93_euler_walls p lp big riem ind lim M hM hS hact _ _ _ _ ⟨src.U, src.prec⟩ _ _
        (hd _ _) hrow hJ u τ hs
      rw [Integrator.total_apply, Integrator.total_apply]
      rcases hφ with rfl | rfl
      · exact h1
      · exact h2
    · intro ctx n v t dst tau u τ h
      obtain ⟨hrho, w, hd⟩ := parabolicStep_ok (dst := dst) h
      rw [Integrator.total_apply, Integrator.total_apply]
      rcases hφ with rfl | rfl
      · refine Finset.sum_congr rfl fun i _ => ?_
        have h1 : (u i) 0 = (v i) 0 := C71_density _ _ _ _ _ _ _ hd i
        exact congrArg _ h1
      · have := C72_total_energy { c with solvers := solvers n } hfe hslip (hx n) hdir _ _ _ _ _ _ hrho hd
        exact (htot _).symm.trans (this.trans (htot _))
  have k0 := key _ (Or.inl rfl)
  have k1 := key _ (Or.inr rfl)
  rw [Integrator.total_apply, Integrator.total_apply] at k0 k1
  exact ⟨k0, k1⟩

/-- **C116 (walls).** After a parabolic sub step that returns, the velocity at the degrees of freedom of the boundary map is tangential to
slip walls, zero at no-slip walls, and velocity and specific internal energy are those of the boundary data, evaluated at the position of the degree of freedom and at the end of
the sub step, at Dirichlet boundaries.  Linear systems are solved exactly; normals of slip walls that meet at a degree of freedom are
orthogonal. -/
theorem C116_wall_velocity_partial (c : Config ι Q dim) (data : Vec dim → ℝ → State dim) (map : List (Prepare.Entry ι Boundary dim))
    (hbc : c.bc = entries data map) (hslip : SlipCompatible c.bc) (solvers : ℕ → Solvers ι dim) (garbage : ℕ → ι → State dim)
    (ctx : Ctx) (n : ℕ) (hx : (solvers n).AllExact) (U dst U' : ι → State dim) (t tau τ : ℝ)
    (h : parabolicStep c solvers garbage ctx n U t dst tau = .ok U' τ)
    (e : Prepare.Entry ι Boundary dim) (he : e ∈ map) (hi : ¬ c.fe.constrained e.i) :
    (e.id = .slip → (∀ e' ∈ map, e'.i = e.i → e'.id ≠ .dirichlet) → dot (velocity (U' e.i)) e.normal = 0) ∧
    (e.id = .noSlip → (∀ e' ∈ map, e'.i = e.i → e'.id ≠ .dirichlet) → velocity (U' e.i) = 0) ∧
    (e.id = .dirichlet → (∀ e' ∈ map, e'.i = e.i → e'.id ≠ .slip ∧ e'.id ≠ .noSlip ∧ e'.position = e.position) →
      velocity (U' e.i) = velocity (data e.position (t + tau)) ∧
      specificEnergy (U' e.i) = specificEnergy (data e.position (t + tau))) := by
  obtain ⟨hrho, w, hd⟩ := parabolicStep_ok (dst := dst) h
  have hb : (⟨e.i, e.normal, e.id, data e.position⟩ : Entry ι dim) ∈ c.bc := by
    rw [hbc]
    exact List.mem_map.2 ⟨e, he, rfl⟩
  have back : ∀ b ∈ c.bc, ∃ e' ∈ map, b = ⟨e'.i, e'.normal, e'.id, data e'.position⟩ := by
    intro b hb
    rw [hbc] at hb
    obtain ⟨e', he', rfl⟩ := List.mem_map.1 hb
    exact ⟨e', he', rfl⟩
  have walls := fun hdir => C75_walls { c with solvers := solvers n } hslip hx _ U U' t tau w hd _ hb hi (hrho _ hi) hdir
  refine ⟨fun hs hdir => (walls ?_).1 hs, fun hs hdir => (walls ?_).2 hs, fun hs hno => ?_⟩
  · intro b hb hbi
    obtain ⟨e', he', rfl⟩ := back b hb
    exact hdir e' he' hbi
  · intro b hb hbi
    obtain ⟨e', he', rfl⟩ := back b hb
    exact hdir e' he' hbi
  · refine C75_dirichlet { c with solvers := solvers n } hx _ U U' t tau w hd _ hb hs hi (hrho _ hi) ?_
    intro b hb hbi
    obtain ⟨e', he', rfl⟩ := back b hb
    obtain ⟨h1, h2, h3⟩ := hno e' he' hbi
    exact ⟨h1, h2, congrArg data h3⟩

section imex

variable {X P : Type} [AddCommGroup X] [Module ℝ X]

/-- What a step of the first order scheme returns is the result of a hyperbolic update of the prepared vector followed by a
parabolic one with the same time-step size. -/
theorem imex11_returned {Mo : Modules X P} {ctx : Ctx} {t tau_max tau : ℝ} {m m' : Mem X P} {calls n : ℕ}
    (h : Integrator.singleStep Mo (program .imex_11) ctx t tau_max m calls = .returned m' tau n) :
    ∃ u τ w τ', Mo.hyp ctx calls ⟨Mo.bc t (m old).U, Mo.pre (Mo.bc t (m old).U)⟩ [] (m (temp 0)).U 0 (some tau_max) = .ok u τ ∧
      Mo.par ctx (calls + 1) u t (m (temp 1)).U τ = .ok w τ' ∧ (m' old).U = w ∧ tau = τ := by
  have e : t + 0 * 0 = t := by ring
  simp only [Integrator.singleStep, program, Integrator.imex11, Integrator.run, Integrator.exec, e, div_one, if_true,
    reduceCtorEq, if_false] at h
  cases hh : Mo.hyp ctx calls ⟨Mo.bc t (m old).U, Mo.pre (Mo.bc t (m old).U)⟩ [] (m (temp 0)).U 0 (some tau_max) with
  | crash => rw [hh] at h; simp [Integrator.finish] at h
  | restart g => rw [hh] at h; simp [Integrator.finish] at h
  | ok u τ =>
    rw [hh] at h
    have e2 : t + 0 * τ = t := by ring
    simp only [Integrator.finish, Integrator.setU, if_true, ne_eq, not_true_eq_false, if_false, reduceCtorEq,
      Integrator.Slot.temp.injEq, one_ne_zero, e2, one_mul] at h
    cases hp : Mo.par ctx (calls + 1) u t (m (temp 1)).U τ with
    | crash => rw [hp] at h; simp at h
    | restart g => rw [hp] at h; simp at h
    | ok w τ' =>
      rw [hp] at h
      simp only [Integrator.Result.returned.injEq] at h
      refine ⟨u, τ, w, τ', rfl, hp, ?_, h.2.1.symm⟩
      rw [← h.1]
      simp [Integrator.swapOld]

/-- A set that the boundary pass, updates with the maximal time-step size and parabolic sub steps do not leave is not left
by any number of steps of the first order scheme. -/
theorem imex_run_invariant (Mo : Modules X P) (K : Set X) (ok : Ctx → X → Prop)
    (hbc : ∀ t, ∀ u ∈ K, Mo.bc t u ∈ K)
    (hhyp : ∀ ctx n v dst cap u τ, ok ctx v → v ∈ K → Mo.hyp ctx n ⟨v, Mo.pre v⟩ [] dst 0 (some cap) = .ok u τ → u ∈ K ∧ 0 ≤ τ)
    (hpar : ∀ ctx n v v' t dst tau u τ, ok ctx v' → v ∈ K → 0 ≤ tau → Mo.par ctx n v t dst tau = .ok u τ → u ∈ K)
    (rec : Recovery) (cflMin cflMax : ℝ) (m m' : Mem X P)
    (hm : (m old).U ∈ K) (h : Run Mo .imex_11 rec cflMin cflMax ok m m') : (m' old).U ∈ K := by
  induction h with
  | start => exact hm
  | next prev call side ih =>
    obtain ⟨m0, k, hs, h0⟩ := Integrator.step_returned .imex_11 call
    obtain ⟨u, τ, w, τ', h1, h2, h3, -⟩ := imex11_returned hs
    rw [h3]
    rcases h0 with h0 | h0
    · rw [h0] at h1
      have := hhyp _ _ _ _ _ _ _ (side _ (Or.inl rfl)) (hbc _ _ ih) h1
      exact hpar _ _ _ _ _ _ _ _ _ (side _ (Or.inl rfl)) this.1 this.2 h2
    · rw [h0] at h1
      have := hhyp _ _ _ _ _ _ _ (side _ (Or.inr rfl)) (hbc _ _ (hbc _ _ ih)) h1
      exact hpar _ _ _ _ _ _ _ _ _ (side _ (Or.inr rfl)) this.1 this.2 h2

end imex

omit [Fintype ι] [Fintype Q] in
/-- Positive specific energy means positive internal energy. -/
theorem admissible_iff (U : State dim) : Admissible U ↔ 0 < density U ∧ 0 < specificEnergy U := by
  unfold Admissible
  refine and_congr_right fun h => ?_
  rw [specificEnergy_eq]
  exact (div_pos_iff_of_pos_right h).symm

omit [Fintype Q] in
/-- A parabolic sub step that is accepted keeps density and internal energy positive: either violations raise an exception,
or the mesh is nonobtuse and the linear systems are solved exactly. -/
theorem C116_parabolic_admissible [Nonempty ι] [Fintype Q] (c : Config ι Q dim) (hcon : ∀ i, ¬ c.fe.constrained i)
    (heps : 1000 * c.eps < 1) (strategy : Strategy)
    (hcase : strategy = .raise ∨ (c.Physical ∧ c.fe.Conforming ∧ c.fe.NonObtuse ∧ c.solvers.AllExact))
    (U U' : ι → State dim) (t tau : ℝ) (htau : 0 ≤ tau) (w : Bool)
    (h : backwardEulerStep c strategy U t tau = .done U' w) (hU : ∀ i, Admissible (U i))
    (hb : ∀ b ∈ c.bc, b.id = .dirichlet → Admissible (b.data (t + tau))) (i : ι) : Admissible (U' i) := by
  rw [admissible_iff, C71_density c strategy U U' t tau w h i]
  refine ⟨(hU i).1, ?_⟩
  -- a positive lower bound of the old energies and of the boundary data
  obtain ⟨lower, h0, h1, h2⟩ : ∃ lower, 0 < lower ∧ (∀ i, lower ≤ specificEnergy (U i)) ∧
      ∀ b ∈ c.bc, b.id = .dirichlet → lower ≤ specificEnergy (b.data (t + tau)) := by
    obtain ⟨j, -, hj⟩ := Finset.exists_min_image Finset.univ (fun i => specificEnergy (U i)) ⟨i, Finset.mem_univ i⟩
    have hjpos := ((admissible_iff _).1 (hU j)).2
    have : ∀ l : List (Entry ι dim), (∀ b ∈ l, b.id = .dirichlet → Admissible (b.data (t + tau))) →
        ∃ lower, 0 < lower ∧ lower ≤ specificEnergy (U j) ∧
          ∀ b ∈ l, b.id = .dirichlet → lower ≤ specificEnergy (b.data (t + tau)) := by
      intro l
      induction l with
      | nil => exact fun _ => ⟨_, hjpos, le_rfl, fun _ h => by cases h⟩
      | cons a l ih =>
        intro hl
        obtain ⟨x, h0, h1, h2⟩ := ih fun b hb => hl b (List.mem_cons_of_mem _ hb)
        by_cases ha : a.id = .dirichlet
        · have := ((admissible_iff _).1 (hl a List.mem_cons_self ha)).2
          refine ⟨min x (specificEnergy (a.data (t + tau))), lt_min h0 this, (min_le_left _ _).trans h1, ?_⟩
          intro b hb hid
          rcases List.mem_cons.1 hb with rfl | hb
          · exact min_le_right _ _
          · exact (min_le_left _ _).trans (h2 b hb hid)
        · refine ⟨x, h0, h1, fun b hb hid => ?_⟩
          rcases List.mem_cons.1 hb with rfl | hb
          · exact absurd hid ha
          · exact h2 b hb hid
    obtain ⟨x, h0, h1, h2⟩ := this c.bc hb
    exact ⟨x, h0, fun i => h1.trans (hj i (Finset.mem_univ i)), h2⟩
  rcases hcase with rfl | ⟨hp, hfe, hn, hx⟩
  · obtain rfl := C73_raise c U U' t tau w h
    have := C73_minimum_partial c hcon heps.le .raise U U' t tau h lower h1 h2 i (hU i).1.ne'
    exact lt_of_lt_of_le (mul_pos h0 (by linarith)) this
  · exact lt_of_lt_of_le h0 (C73_nonobtuse_minimum c hp hfe hn hx strategy U U' (fun i _ => (hU i).1) t tau htau w h
      lower (fun i _ => h1 i) h2 i (hcon i))

open Hyp (Mesh Leftover dOff) in
open Euler (description IsRiemannLane limit Dominates relaxationRadius RiemannParams Bounds) in
/-- **C116**: with the first order scheme density and internal energy stay positive at all nodes after any number of time
steps, from every admissible initial state on every mesh without constrained degrees of freedom; either violations raise
exceptions in the parabolic module, or the mesh is nonobtuse.  Missing: as for C92 (limiter tolerances, side conditions on
the states that occur in the run). -/
theorem C116_admissible_partial [Nonempty ι] (p : Euler.Params) (lp : LimiterParams) (big : ℝ) (rp : RiemannParams)
    (riem : ι → ι → State dim → State dim → Vec dim → ℝ)
    (ind : State dim → List (State dim × Vec dim) → ℝ → ℝ) (lim : ι → ι → Bounds → State dim → State dim → ℝ × Prop)
    (M : Mesh ι dim) (par : Hyp.Params) (hg : 1 < p.gamma) (heps : p.eps = 0)
    (hriem : ∀ i j U V n, IsRiemannLane p rp U V n (riem i j U V n))
    (hlim : ∀ i j b U P, IsLaneOf (fun _ => limit p lp) b U P (lim i j b U P))
    (hM : M.WellFormed) (hskew : ∀ i, ∀ j ∈ M.nbrs i, ¬ (M.boundary i ∧ M.boundary j) → M.c j i = -M.c i j)
    (hmass : ∀ i, 0 < M.lumped i) (hrow : ∀ i, M.c i i + ((M.nbrs i).map (M.c i)).sum = 0) (ht : 0 < par.tiny)
    (hact : ∀ i, M.nbrs i ≠ [])
    (hf : 0 ≤ lp.relaxation_factor) (hbig : 0 < big) (hn : par.iterations ≤ 2) (r : ℝ) (hr1 : r < 1)
    (hr : ∀ i, relaxationRadius dim lp.relaxation_factor (M.lumped i * (1 / M.omega)) ≤ r)
    (bc : ℝ → (ι → State dim) → ι → State dim)
    (lo : ℕ → Leftover ι (State dim)) (garbage : ℕ → ι → State dim) (bigTau : ℝ)
    (hbc : ∀ t u, (∀ i, Admissible (u i)) → ∀ i, Admissible (bc t u i))
    (c : Config ι Q dim) (hcon : ∀ i, ¬ c.fe.constrained i) (hceps : 1000 * c.eps < 1)
    (hdir : ∀ b ∈ c.bc, b.id = .dirichlet → ∀ t, Admissible (b.data t)) (solvers : ℕ → Solvers ι dim)
    (rec : Recovery) (cflMin cflMax : ℝ) (m m' : Mem (ι → State dim) Unit)
    (h : Run (modules p lp big bigTau riem ind lim M par bc lo garbage c solvers)
      .imex_11 rec cflMin cflMax (fun ctx u => (ctx.par = .raise_exception ∨ (c.Physical ∧ c.fe.Conforming ∧ c.fe.NonObtuse ∧
          ∀ n, (solvers n).AllExact)) ∧ ctx.cfl ≤ 1 ∧ ∀ n, ∀ i, ∀ j ∈ M.nbrs i,
        (100 * par.tiny ≤ dOff (description p lp big riem ind lim) M (lo n).dij ⟨u, ()⟩ i j ∨
          (M.c i j = 0 ∧ dOff (description p lp big riem ind lim) M (lo n).dij ⟨u, ()⟩ i j = 0)) ∧
        (M.c i j ≠ 0 → Dominates p (u i) (u j) (fun k => M.c i j k / vnorm (M.c i j))
          (riem i j (u i) (u j) (fun k => M.c i j k / vnorm (M.c i j))))) m m')
    (h0 : ∀ i, Admissible ((m old).U i)) (i : ι) : Admissible ((m' old).U i) := by
  classical
  refine imex_run_invariant _ {u : ι → State dim | ∀ i, Admissible (u i)} _ ?_ ?_ ?_ rec cflMin cflMax m m' h0 h i
  · exact hbc
  · intro ctx n v dst cap u τ hok hv hh
    have hst := Integrator.hyp_ok hh
    have hpos := (Hyp.step_done hst).1
    refine ⟨fun i => ?_, ?_⟩
    · exact (Euler.C67_euler_step_invariant_domain_partial (rp := rp) (lo := { lo n with newU := dst }) (old := ⟨v, ()⟩)
        (par := { par with cfl := ctx.cfl }) hg
        { riemann := hriem, wf := hM, skew := hskew, mass := hmass, rowSum := hrow, tiny := ht, cfl := hok.2.1
          resolved := fun i j hj => (hok.2.2 n i j hj).1, admissible := hv }
        heps hlim hf hbig hn r hr1 hr (fun i j hj => (hok.2.2 n i j hj).2) _ _ _ 0 _ le_rfl hpos.le u τ hst i (hact i)).1
    · have := (Hyp.step_done hst).2.1
      rw [this, if_pos rfl]
      exact hpos.le
  · intro ctx n v v' t dst tau u τ hok hv htau hh i
    obtain ⟨-, w, hd⟩ := parabolicStep_ok (dst := dst) hh
    refine C116_parabolic_admissible { c with solvers := solvers n } hcon hceps _ ?_ v u t tau htau w hd hv
      (fun b hb hid => hdir b hb hid _) i
    rcases hok.1 with h | ⟨h1, h2, h3, h4⟩
    · left; rw [h]; rfl
    · exact Or.inr ⟨⟨h1.mu, h1.lam, h1.kappa, h1.dim_le, h1.mass⟩, h2, h3, h4 n⟩

/-! ### A gas on the ring -/

/-- Linear elements on a ring of three cells. -/
def ringFe : Fe (Fin 3) (Fin 3) 1 where
  phi := fun j q => (![![1 / 2, 0, 1 / 2], ![1 / 2, 1 / 2, 0], ![0, 1 / 2, 1 / 2]] : Fin 3 → Fin 3 → ℝ) j q
  grad := fun j q _ => (![![-1, 0, 1], ![1, -1, 0], ![0, 1, -1]] : Fin 3 → Fin 3 → ℝ) j q
  weight := fun _ => 1
  constrained := fun _ => False
  coef := fun _ _ => 0

theorem ringFe_conforming : ringFe.Conforming where
  weight_nonneg := fun _ => zero_le_one
  sum_phi := fun q => by fin_cases q <;> simp [ringFe, Fin.sum_univ_three] <;> norm_num
  sum_grad := fun q d => by fin_cases q <;> simp [ringFe, Fin.sum_univ_three]
  resolved := fun j k hj _ => hj.elim
  coef_sum := fun j hj => hj.elim

/-- Viscosities and conductivity one. -/
def ringConfig : Config (Fin 3) (Fin 3) 1 where
  p := ⟨1, 1, 1⟩
  fe := ringFe
  m := Hyp.ring.lumped
  bc := []
  solvers := idealSolvers ringFe true
  eps := 1 / 10000

theorem ringConfig_physical : ringConfig.Physical :=
  ⟨zero_le_one, zero_le_one, zero_le_one, by norm_num, Hyp.ring_closed.lumped⟩

theorem ringFe_nonObtuse : ringFe.NonObtuse where
  offdiag := by
    intro i j _ _ hij
    fin_cases i <;> fin_cases j <;>
      simp_all [stiffness, gradAtScalar, readDof, dot, ringFe, Fin.sum_univ_three]
  phi_nonneg := fun j q => by fin_cases j <;> fin_cases q <;> simp [ringFe]
  coef_nonneg := fun j k h => h.elim

/-- With the strategy that only warns, a step whose linear systems have been solved returns. -/
theorem warn_done (c : Config ι Q dim) (U : ι → State dim) (t tau : ℝ) (h : backwardEulerStep c .warn U t tau ≠ .noConvergence) :
    ∃ U' w, backwardEulerStep c .warn U t tau = .done U' w := by
  classical
  unfold backwardEulerStep at h ⊢
  split at h
  · exact absurd rfl h
  · split at h
    · exact absurd rfl h
    · split_ifs
      · exact ⟨_, _, rfl⟩
      · exact ⟨_, _, rfl⟩

open Hyp Euler in
/-- The modules of a gas on the ring. -/
def ringModules (garbage : ℕ → Fin 3 → State 1) : Modules (Fin 3 → State 1) Unit :=
  modules air ringLp 1000 1000 ringRiem (fun U row hd => indicator air 1 U row hd) ringLim ring demoPar (fun _ u => u)
    (fun _ => ringLo) garbage ringConfig (fun _ => idealSolvers ringFe true)

/-- Non-vacuity of `C116_wall_velocity_partial`: an inflow at one end of the bar and a slip wall at the other. -/
example (ctx : Ctx) (hctx : ctx.par = .raise_exception) (garbage : ℕ → Fin 3 → State 1) (dst : Fin 3 → State 1) :
    let data : Vec 1 → ℝ → State 1 := fun x t => if x 0 < 1 then barInlet.data t else 0
    let map : List (Prepare.Entry (Fin 3) Boundary 1) := [⟨0, fun _ => -1, .dirichlet, fun _ => 0⟩, ⟨2, fun _ => 1, .slip, fun _ => 1⟩]
    ∃ U', parabolicStep (barConfig False (entries data map)) (fun _ => idealSolvers (barFe False) true) garbage ctx 0 barState 0 dst 1 =
        .ok U' 1 ∧ specificEnergy (U' 0) = 2 ∧ velocity (U' 2) 0 = 0 := by
  intro data map
  have hbc : entries data map = [barInlet, barSlip] := by
    simp [entries, data, map, barInlet, barSlip]
  obtain ⟨U', h⟩ := bar_done' False [barInlet, barSlip] barSlip_compatible barState barState_density
    (fun i => zero_le_one.trans (barState_energy i)) .raise 0 1 zero_le_one (by
      intro b hb hd
      simp only [List.mem_cons, List.not_mem_nil, or_false] at hb
      rcases hb with rfl | rfl
      · rw [barInlet_energy]; norm_num
      · cases hd)
  have hstep : parabolicStep (barConfig False (entries data map)) (fun _ => idealSolvers (barFe False) true) garbage ctx 0 barState 0 dst 1 =
      .ok U' 1 := by
    classical
    unfold parabolicStep
    rw [if_neg (fun ⟨i, _, h⟩ => (barState_density i).ne' h), hctx, hbc]
    have h' : backwardEulerStep { barConfig False [barInlet, barSlip] with solvers := idealSolvers (barFe False) true }
      (strategyOf .raise_exception) barState 0 1 = .done U' false := h
    rw [h']
  have key := C116_wall_velocity_partial (barConfig False (entries data map)) data map rfl
    (by show SlipCompatible (entries data map); rw [hbc]; exact barSlip_compatible) _ garbage ctx 0 (idealSolvers_exact _ _) _ dst U' 0 1 1 hstep
  refine ⟨U', hstep, ?_, ?_⟩
  · have := (key ⟨0, fun _ => -1, .dirichlet, fun _ => 0⟩ (by simp [map]) (by simp [barConfig, barFe])).2.2 rfl (by simp [map])
    rw [this.2]
    simp only [data, zero_lt_one, if_true]
    exact barInlet_energy _
  · have := (key ⟨2, fun _ => 1, .slip, fun _ => 1⟩ (by simp [map]) (by simp [barConfig, barFe])).1 rfl (by simp [map])
    simpa [dot] using this

/-- The conditions on settings and states of `C116_admissible_partial`. -/
def ringOk (ctx : Ctx) (u : Fin 3 → State 1) : Prop :=
  (ctx.par = .raise_exception ∨ (ringConfig.Physical ∧ ringConfig.fe.Conforming ∧ ringConfig.fe.NonObtuse ∧
    ∀ _ : ℕ, (idealSolvers ringFe true : Solvers (Fin 3) 1).AllExact)) ∧ ctx.cfl ≤ 1 ∧ ∀ _ : ℕ, ∀ i, ∀ j ∈ Hyp.ring.nbrs i,
    (100 * Hyp.demoPar.tiny ≤ Hyp.dOff Euler.ringDescription Hyp.ring Euler.ringLo.dij ⟨u, ()⟩ i j ∨
      (Hyp.ring.c i j = 0 ∧ Hyp.dOff Euler.ringDescription Hyp.ring Euler.ringLo.dij ⟨u, ()⟩ i j = 0)) ∧
    (Hyp.ring.c i j ≠ 0 → Euler.Dominates Euler.air (u i) (u j) (fun k => Hyp.ring.c i j k / vnorm (Hyp.ring.c i j))
      (Euler.ringRiem i j (u i) (u j) (fun k => Hyp.ring.c i j k / vnorm (Hyp.ring.c i j))))

open Hyp Euler in
/-- A run with one time step of positive size exists. -/
theorem ring_run (m : Mem (Fin 3 → State 1) Unit) (hm : (m old).U = ringGas.U) (garbage : ℕ → Fin 3 → State 1) :
    ∃ m' tau n ctx, Integrator.step (ringModules garbage) (program .imex_11) .none 1 1 ⟨1 / 2, .warn, .warn⟩ 0 10 m 0 =
      (.returned m' tau n, ctx) ∧ 0 < tau ∧ Run (ringModules garbage) .imex_11 .none 1 1 ringOk m m' := by
  have hg : 1 < air.gamma := by norm_num [air]
  obtain ⟨U, t, h⟩ := C18_warn_returns ringDescription ring demoPar ⟨0, 0⟩ { ringLo with newU := (m (temp 0)).U } ringGas
    [] 0 10 (C11_step_tau ringDescription ring demoPar .warn ⟨0, 0⟩ ringLo ringGas [] 0 10
      (by norm_num [demoPar]) (by norm_num [demoPar]) ring_closed.lumped (by norm_num)).1
  have hpos := (Hyp.step_done h).1
  have htpos : 0 < t := by
    have := (Hyp.step_done h).2.1
    rw [this, if_pos rfl]; exact hpos
  have hok : ∀ u, u = ringGas.U → ringOk ⟨1 / 2, .warn, .warn⟩ u := by
    rintro u rfl
    refine ⟨Or.inr ⟨ringConfig_physical, ringFe_conforming, ringFe_nonObtuse, fun _ => idealSolvers_exact _ _⟩, by norm_num,
      fun _ i j hj => ⟨ringGas_stepHyp.resolved i j hj, fun hc => ?_⟩⟩
    exact C66_euler_dominates_partial air hg ringRp _ _ _ (normSq_normal hc) (ringGas_admissible i)
      (ringGas_admissible j) _ (ringGas_lane i j _ _ _) 1 (Or.inl (ringGas_star i j _))
      (Or.inl ⟨(ringGas_pressure i).ge, (ringGas_pressure j).ge⟩)
  have hadm : ∀ i, Admissible (U i) := fun i =>
    (Euler.C67_euler_step_invariant_domain_partial (rp := ringRp) (lo := { ringLo with newU := (m (temp 0)).U })
      (old := ringGas) (par := demoPar) (lp := ringLp) (big := 1000) hg
      { riemann := ringGas_lane, wf := ring_wf, skew := fun i j hj _ => ring_closed.skew i j hj, mass := ring_closed.lumped
        rowSum := Scalar.ring_row_sum, tiny := by norm_num [demoPar], cfl := by norm_num [demoPar]
        resolved := ringGas_stepHyp.resolved, admissible := ringGas_admissible }
      rfl (fun i j b U P => ⟨1, fun _ => b, fun _ => U, fun _ => P, 0, rfl, rfl, rfl, rfl⟩) (le_refl (0 : ℝ)) (by norm_num)
      (by norm_num [demoPar]) 0 one_pos (fun i => by simp [relaxationRadius, ringLp])
      (fun i j hj => ((hok _ rfl).2.2 0 i j hj).2) _ _ _ 0 _ le_rfl hpos.le U t h i (by simp [ring])).1
  obtain ⟨W, w, hW⟩ := warn_done ringConfig U 0 t (C74_step_completes ringConfig ringConfig_physical ringFe_conforming
    ⟨fun _ h => (by cases h), fun _ _ => List.Pairwise.nil⟩ true rfl .warn U (fun i _ => (hadm i).1) 0 t htpos.le)
  have hup : (ringModules garbage).hyp ⟨1 / 2, .warn, .warn⟩ 0 ⟨(m old).U, ()⟩ [] (m (temp 0)).U 0 (some 10) = .ok U t := by
    have h' : (Hyp.step ringDescription ring ⟨1 / 2, demoPar.tiny, demoPar.iterations⟩ .warn ⟨0, 0⟩
      { ringLo with newU := (m (temp 0)).U } ⟨ringGas.U, ()⟩ [] 0 10).1 = .done U t := h
    unfold ringDescription at h'
    simp only [ringModules, modules, hyperbolicModules, hm, Option.getD_some, List.map_nil, h']
  have hpa : (ringModules garbage).par ⟨1 / 2, .warn, .warn⟩ 1 U 0 (m (temp 1)).U t = .ok W t := by
    show parabolicStep ringConfig (fun _ => idealSolvers ringFe true) garbage ⟨1 / 2, .warn, .warn⟩ 1 U 0 (m (temp 1)).U t = _
    unfold parabolicStep
    rw [if_neg (by rintro ⟨i, -, h0⟩; exact (hadm i).1.ne' h0)]
    have hW' : backwardEulerStep { ringConfig with solvers := (fun _ : ℕ => idealSolvers ringFe true) 1 }
      (strategyOf (⟨1 / 2, .warn, .warn⟩ : Ctx).par) U 0 t = .done W w := hW
    rw [hW']
  have hs : Integrator.step (ringModules garbage) (program .imex_11) .none 1 1 ⟨1 / 2, .warn, .warn⟩ 0 10 m 0 =
      (.returned (Integrator.swapOld (Integrator.setU (Integrator.setU
        (fun v' => if v' = old then ⟨(m old).U, ()⟩ else m v') (temp 0) U) (temp 1) W) 1) (1 * t) 2,
        ⟨1 / 2, .warn, .warn⟩) := by
    have e1 : ∀ u, (ringModules garbage).bc 0 u = u := fun _ => rfl
    have e2 : (0 : ℝ) + 0 * 0 = 0 := by norm_num
    have e3 : (0 : ℝ) + 0 * t = 0 := by norm_num
    have e4 : (10 : ℝ) - 0 = 10 := by norm_num
    simp only [Integrator.step, Integrator.singleStep, program, Integrator.imex11, Integrator.run, Integrator.exec, e1, e2,
      e4, div_one, if_true, reduceCtorEq, if_false, hup, Integrator.finish, ne_eq, not_true_eq_false, Integrator.setU, e3,
      one_mul, zero_add, Integrator.Slot.temp.injEq, one_ne_zero, hpa]
  refine ⟨_, _, _, _, hs, by linarith, .next (.start m) hs ?_⟩
  intro u hu
  refine hok u ?_
  rcases hu with hu | hu <;> exact hu.trans hm

open Hyp Euler in
/-- The hypotheses of `C116_conserves_partial` and `C116_admissible_partial` are met by a run of a gas with a discontinuous
density on the ring. -/
example (m : Mem (Fin 3 → State 1) Unit) (hm : (m old).U = ringGas.U) (garbage : ℕ → Fin 3 → State 1) :
    ∃ m', Run (ringModules garbage) .imex_11 .none 1 1 ringOk m m' ∧ (∀ i, Admissible ((m' old).U i)) ∧
      total ringConfig (fun i => totalEnergy ((m' old).U i)) = total ringConfig (fun i => totalEnergy ((m old).U i)) := by
  obtain ⟨m', -, -, -, -, -, hrun⟩ := ring_run m hm garbage
  refine ⟨m', hrun, fun i => ?_, ?_⟩
  · exact C116_admissible_partial air ringLp 1000 ringRp ringRiem _ ringLim ring demoPar (by norm_num [air]) rfl ringGas_lane
      (fun i j b U P => ⟨1, fun _ => b, fun _ => U, fun _ => P, 0, rfl, rfl, rfl, rfl⟩) ring_wf
      (fun i j hj _ => ring_closed.skew i j hj) ring_closed.lumped Scalar.ring_row_sum (by norm_num [demoPar])
      (fun i => by simp [ring]) (le_refl (0 : ℝ)) (by norm_num) (by norm_num [demoPar]) 0 one_pos
      (fun i => by simp [relaxationRadius, ringLp]) (fun _ u => u) (fun _ => ringLo) garbage 1000 (fun _ _ h => h)
      ringConfig (fun _ h => h) (by norm_num [ringConfig]) (fun _ h => by cases h) _ .none 1 1 m m' hrun
      (fun i => by rw [hm]; exact ringGas_admissible i) i
  · exact (C116_conserves_partial air ringLp 1000 1000 ringRiem _ ringLim ring ring_wf ring_closed
      (fun _ _ => SymmetricViscosity.of_one_rank ring_wf fun i j hj => by
        have : i ≠ j := fun h => ring_wf.irrefl i (h ▸ hj)
        exact (lt_or_gt_of_ne this).symm) demoPar _ garbage ringConfig ringFe_conforming rfl rfl
      (fun i => ⟨fun h => h.elim, fun h => by simp [ring] at h⟩) _ (fun _ => idealSolvers_exact _ _) .imex_11 .none 1 1 _ m m'
      hrun).2.2

/-! ### Crank-Nicolson by extrapolation -/

/-- Gas at rest with density one and specific internal energies `1, 14, 1`. -/
def spotState (i : Fin 3) : State 1 := mkState 1 0 ((![1, 14, 1] : Fin 3 → ℝ) i)

theorem spotState_density (i : Fin 3) : density (spotState i) = 1 := Euler.density_mkState _ _ _

theorem spotState_velocity (i : Fin 3) : velocity (spotState i) = 0 := by
  funext d
  unfold velocity spotState
  rw [Euler.density_mkState, Euler.momentum_mkState]
  simp

theorem spotState_energy (i : Fin 3) : specificEnergy (spotState i) = (![1, 14, 1] : Fin 3 → ℝ) i := by
  unfold specificEnergy spotState
  rw [Euler.density_mkState, Euler.momentum_mkState, Euler.totalEnergy_mkState]
  have : normSq (0 : Vec 1) = 0 := dot_zero_left _
  rw [this]
  simp

/-- **C116, violation.** The Strang schemes turn the backward Euler sub step into a Crank-Nicolson step by the extrapolation
`2 U' - U` (`sadd(temp_[2], 2, -1, temp_[0])`), after the check of the internal energy.  Here a hot spot in a gas at rest
passes the sub step with exact linear solvers and without a warning, and the extrapolated state, with which the next
hyperbolic sub step starts, has a negative internal energy. -/
theorem C116_extrapolation_violation : ∃ U', backwardEulerStep (barConfig False []) .raise spotState 0 4 = .done U' false ∧
    (∀ i, Admissible (spotState i)) ∧ (∀ i, Admissible (U' i)) ∧
    density (((2 : ℝ) • U' + (-1 : ℝ) • spotState) 1) = 1 ∧ internalEnergy (((2 : ℝ) • U' + (-1 : ℝ) • spotState) 1) = -2 := by
  have hfe := barFe_conforming False
  have hphys := barConfig_physical False []
  have hs : SlipCompatible (barConfig False []).bc := slipCompatible_of_no_slip [] (by simp)
  have hx : (barConfig False []).solvers.AllExact := idealSolvers_exact _ _
  have hfree : ∀ i, ¬ (barConfig False []).fe.constrained i := fun i h => h.1
  have hrho : ∀ i, ¬ (barConfig False []).fe.constrained i → 0 < density (spotState i) := fun i _ => by
    rw [spotState_density]; norm_num
  have hadm : ∀ i, Admissible (spotState i) := fun i => by
    rw [admissible_iff, spotState_density, spotState_energy]
    fin_cases i <;> norm_num
  have hacc := C73_nonobtuse_accepted (barConfig False []) hphys hfe (barFe_nonObtuse False) hx
    (idealSolvers_keep _ _) (by norm_num [barConfig]) .raise spotState hrho 0 4 (by norm_num)
    (fun i _ => ((admissible_iff _).1 (hadm i)).2.le) (fun b hb => by cases hb)
  obtain ⟨U', hU'⟩ := hacc.resolve_left
    (C74_step_completes (barConfig False []) hphys hfe hs true rfl .raise spotState hrho 0 4 (by norm_num))
  obtain ⟨V, e, hV, he, rfl, -⟩ := step_done _ _ _ _ _ _ _ hU'
  have hV0 : V = 0 := by
    funext i
    have := velocity_unique_free (barConfig False []) hphys hfe hs spotState hrho 0 4 (by norm_num) V _
      (newVelocity_solved _ hx spotState 0 4 V hV)
      (steady_velocity (barConfig False []) hfe spotState (fun i hi => (hrho i hi).ne') 0 4 0 0
        (fun i _ => spotState_velocity i) (by intro b hb; cases hb)) i (hfree i)
    rw [this]; exact if_neg (hfree i)
  have hsol : EnergySolved (barConfig False []) spotState 0 4 V (![5, 6, 5] : Fin 3 → ℝ) := by
    have hh : heating (barConfig False []).p (barConfig False []).fe V = 0 := by
      have hg : ∀ q, gradAt (barConfig False []).fe V q = 0 :=
        gradAt_const (barConfig False []).fe hfe V 0 (fun i _ => by rw [hV0]; rfl)
      have hz : dissipation (barConfig False []).p (0 : Fin 1 → Fin 1 → ℝ) = 0 := by
        rw [dissipation_eq]; unfold ddot; simp
      funext i
      unfold heating
      simp only [hg, hz, zero_mul, mul_zero, Finset.sum_const_zero]
      exact scatter_zero _ i
    have hd : ∀ i, diffusionOp (barFe False) 4 (![5, 6, 5] : Fin 3 → ℝ) i = (![-4, 8, -4] : Fin 3 → ℝ) i := by
      intro i
      unfold diffusionOp
      fin_cases i <;>
        simp [scatter, gradAtScalar, readDof, barFe, Fin.sum_univ_three, Fin.sum_univ_two, dot] <;> norm_num
    funext i
    have hr : densityVector (barConfig False []).fe spotState i = 1 := by
      have : densityVector (barConfig False []).fe spotState i = density (spotState i) := if_neg (hfree i)
      rw [this, spotState_density]
    have hse : (setup (barConfig False []).fe (barConfig False []).m (barConfig False []).bc spotState (0 + 4)).energy i =
        (![1, 14, 1] : Fin 3 → ℝ) i := by
      have : (setup (barConfig False []).fe (barConfig False []).m (barConfig False []).bc spotState (0 + 4)).energy i =
          internalEnergy (spotState i) / density (spotState i) := if_neg (hfree i)
      rw [this, ← specificEnergy_eq, spotState_energy]
    have hlhs : energyMatrix (barConfig False []).fe (barConfig False []).m (densityVector (barConfig False []).fe spotState)
        (barConfig False []).bc (4 * (barConfig False []).p.kappa) (![5, 6, 5] : Fin 3 → ℝ) i =
        (![5, 6, 5] : Fin 3 → ℝ) i + (![-4, 8, -4] : Fin 3 → ℝ) i := by
      show 1 * densityVector (barConfig False []).fe spotState i * (![5, 6, 5] : Fin 3 → ℝ) i +
        diffusionOp (barFe False) (4 * 1) (![5, 6, 5] : Fin 3 → ℝ) i = _
      rw [hr, one_mul, one_mul, mul_one, hd]
    have hrhs : energyRhs (barConfig False []).p (barConfig False []).fe (barConfig False []).m (barConfig False []).bc
        spotState (setup (barConfig False []).fe (barConfig False []).m (barConfig False []).bc spotState (0 + 4)).energy V
        (0 + 4) 4 i = (![1, 14, 1] : Fin 3 → ℝ) i := by
      have : energyRhs (barConfig False []).p (barConfig False []).fe (barConfig False []).m (barConfig False []).bc
          spotState (setup (barConfig False []).fe (barConfig False []).m (barConfig False []).bc spotState (0 + 4)).energy V
          (0 + 4) 4 i = 1 * densityVector (barConfig False []).fe spotState i *
            ((setup (barConfig False []).fe (barConfig False []).m (barConfig False []).bc spotState (0 + 4)).energy i +
              1 / 2 * normSq ((fun d => momentum (spotState i) d / densityVector (barConfig False []).fe spotState i) - V i)) +
            4 * heating (barConfig False []).p (barConfig False []).fe V i := if_neg (hfree i)
      rw [this, hse, hr, hV0, ← hV0, hh]
      have hz : (fun d => momentum (spotState i) d / (1 : ℝ)) - V i = 0 := by
        have := spotState_velocity i
        unfold velocity at this
        rw [spotState_density] at this
        rw [this, hV0]; simp
      have hn : normSq (0 : Vec 1) = 0 := dot_zero_left _
      rw [hz, hn]
      simp
    rw [hlhs, hrhs]
    fin_cases i <;> norm_num
  have hev : e = (![5, 6, 5] : Fin 3 → ℝ) := by
    funext i
    exact energy_unique_free (barConfig False []) hphys hfe spotState hrho 0 4 (by norm_num) V e _
      (newEnergy_solved _ hx spotState V 0 4 e he) hsol i (hfree i)
  refine ⟨_, hU', hadm, fun i => ?_, ?_, ?_⟩
  · rw [admissible_iff, density_writeBack, spotState_density,
      specificEnergy_writeBack _ _ _ _ (by rw [spotState_density]; norm_num), hev]
    fin_cases i <;> norm_num
  · show (2 : ℝ) * density (writeBack spotState V e 1) + (-1) * density (spotState 1) = 1
    rw [density_writeBack, spotState_density]; norm_num
  · have h1 : writeBack spotState V e 1 = mkState 1 0 6 := by
      unfold writeBack
      rw [spotState_density, hV0, hev]
      simp [dot]
      rfl
    have h2 : ((2 : ℝ) • writeBack spotState V e + (-1 : ℝ) • spotState) 1 = mkState 1 0 (-2) := by
      rw [Pi.add_apply, Pi.smul_apply, Pi.smul_apply, h1]
      funext k
      fin_cases k
      · show (2 : ℝ) * 1 + (-1) * 1 = 1
        norm_num
      · show (2 : ℝ) * 0 + (-1) * 0 = 0
        norm_num
      · show (2 : ℝ) * 6 + (-1) * 14 = -2
        norm_num
    rw [h2]
    unfold internalEnergy
    rw [Euler.density_mkState, Euler.momentum_mkState, Euler.totalEnergy_mkState]
    have : normSq (0 : Vec 1) = 0 := dot_zero_left _
    rw [this]
    norm_num

end

end NavierStokes
end Ryujin
