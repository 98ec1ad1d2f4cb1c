import Verif.Props.TimeIntegrator
import Verif.Props.StepEquations
import Verif.Props.LimiterSuccess
import Verif.Props.ShallowWaterPositivity
import Verif.Props.EulerInvariantDomain
import Verif.Props.PrepareState

/-!
# Properties C90, C92: what single steps guarantee holds for complete runs

The time loop alternates the boundary pass, the hyperbolic updates of a Runge-Kutta scheme and – if the update was
rejected – the recovery with a smaller CFL number.  Here the theorems about a single update (C13, C16, C67, C91), about a
scheme (C57, C58) and about the boundary pass (C88) are put together: they hold for every number of time steps, whatever
was rejected and repeated on the way.
-/

namespace Ryujin
namespace Integrator

noncomputable section

open Slot Instr
open Hyp (Strategy)

variable {X P : Type} [AddCommGroup X] [Module ℝ X]

/-- A step of the integrator that returns is a step of the scheme with the settings left behind, started from the old
vector or, after a rejected attempt, from the old vector with boundary conditions applied. -/
theorem step_returned {Mo : Modules X P} (sch : Scheme) {rec : Recovery} {cflMin cflMax : ℝ} {ctx ctx' : Ctx}
    {t tFinal tau : ℝ} {m m' : Mem X P} {calls n : ℕ}
    (h : step Mo (program sch) rec cflMin cflMax ctx t tFinal m calls = (.returned m' tau n, ctx')) :
    ∃ m0 k, singleStep Mo (program sch) ctx' t (tFinal - t) m0 k = .returned m' tau n ∧
      ((m0 old).U = (m old).U ∨ (m0 old).U = Mo.bc t (m old).U) := by
  unfold step at h
  cases rec with
  | none =>
    simp only at h
    cases hr : singleStep Mo (program sch) ctx t (tFinal - t) m calls with
    | returned m1 tau1 n1 =>
      rw [hr] at h
      simp only [Prod.mk.injEq] at h
      refine ⟨m, calls, ?_, Or.inl rfl⟩
      rw [← h.2, hr, h.1]
    | restart m1 n1 => rw [hr] at h; simp at h
    | crash => rw [hr] at h; simp at h
  | bang_bang_control =>
    simp only at h
    cases hr : singleStep Mo (program sch) ⟨cflMax, .raise_exception, .raise_exception⟩ t (tFinal - t) m calls with
    | returned m1 tau1 n1 =>
      rw [hr] at h
      simp only [Prod.mk.injEq] at h
      refine ⟨m, calls, ?_, Or.inl rfl⟩
      rw [← h.2, hr, h.1]
    | restart m1 n1 =>
      rw [hr] at h
      simp only [Prod.mk.injEq] at h
      refine ⟨m1, n1, ?_, Or.inr (singleStep_restart_old sch hr)⟩
      rw [← h.2, h.1]
    | crash => rw [hr] at h; simp at h

/-- The vectors after some number of completed time steps (calls of `TimeIntegrator::step`) of one run; settings, times
and the number of calls made in between are arbitrary.  `ok ctx u` is a condition on the settings that were in force when
a step completed and on the state vectors it may have started from, after the boundary pass. -/
inductive Run (Mo : Modules X P) (sch : Scheme) (rec : Recovery) (cflMin cflMax : ℝ) (ok : Ctx → X → Prop) :
    Mem X P → Mem X P → Prop
  | start (m : Mem X P) : Run Mo sch rec cflMin cflMax ok m m
  | next {m m1 m2 : Mem X P} {ctx ctx' : Ctx} {t tFinal tau : ℝ} {calls n : ℕ}
      (prev : Run Mo sch rec cflMin cflMax ok m m1)
      (call : step Mo (program sch) rec cflMin cflMax ctx t tFinal m1 calls = (.returned m2 tau n, ctx'))
      (side : ∀ u, u = Mo.bc t (m1 old).U ∨ u = Mo.bc t (Mo.bc t (m1 old).U) → ok ctx' u) :
      Run Mo sch rec cflMin cflMax ok m m2

/-- **C90 (conserved quantities).** What boundary conditions and sub steps conserve is the same before and after any
number of time steps, with any scheme and any recoveries. -/
theorem C90_run_conserves (Mo : Modules X P) (φ : X →ₗ[ℝ] ℝ)
    (hbc : ∀ t u, φ (Mo.bc t u) = φ u)
    (hhyp : ∀ ctx n src st dst tau cap u τ, Mo.hyp ctx n src st dst tau cap = .ok u τ → φ u = φ src.U)
    (hpar : ∀ ctx n v t dst tau u τ, Mo.par ctx n v t dst tau = .ok u τ → φ u = φ v)
    (sch : Scheme) (rec : Recovery) (cflMin cflMax : ℝ) (ok : Ctx → X → Prop) (m m' : Mem X P)
    (h : Run Mo sch rec cflMin cflMax ok m m') : φ (m' old).U = φ (m old).U := by
  induction h with
  | start => rfl
  | next prev call _ ih =>
    obtain ⟨m0, k, hs, h0⟩ := step_returned sch call
    rw [C57_schemes_conserve Mo φ _ hbc (hhyp _) (hpar _) sch _ _ _ _ _ _ _ hs, ← ih]
    rcases h0 with h0 | h0
    · rw [h0]
    · rw [h0, hbc]

/-- **C90 (invariant sets).** A convex set of state vectors that the boundary pass and the sub steps do not leave is not
left by any number of time steps of an explicit scheme. -/
theorem C90_run_invariant (Mo : Modules X P) (K : Set X) (hK : Convex ℝ K) (ok : Ctx → Prop)
    (hbc : ∀ t, ∀ u ∈ K, Mo.bc t u ∈ K)
    (hhyp : ∀ ctx, ok ctx → ∀ n (src : SV X P) st dst tau cap u τ, src.U ∈ K → (∀ p ∈ st, p.2.U ∈ K) →
      Mo.hyp ctx n src st dst tau cap = .ok u τ → u ∈ K)
    (sch : Scheme) (hsch : schemeAccepted true sch) (rec : Recovery) (cflMin cflMax : ℝ) (m m' : Mem X P)
    (hm : (m old).U ∈ K) (h : Run Mo sch rec cflMin cflMax (fun ctx _ => ok ctx) m m') : (m' old).U ∈ K := by
  induction h with
  | start => exact hm
  | next prev call side ih =>
    obtain ⟨m0, k, hs, h0⟩ := step_returned sch call
    refine C58_schemes_invariant Mo K hK _ hbc (hhyp _ (side _ (Or.inl rfl))) sch hsch _ _ _ _ _ _ _ ?_ hs
    rcases h0 with h0 | h0
    · rw [h0]; exact ih
    · rw [h0]; exact hbc _ _ ih

/-- What a step of the forward Euler scheme returns is the result of a single update of the prepared vector with the
maximal time-step size. -/
theorem erk11_returned {Mo : Modules X P} {ctx : Ctx} {t tau_max tau : ℝ} {m m' : Mem X P} {calls n : ℕ}
    (h : singleStep Mo (program .erk_11) ctx t tau_max m calls = .returned m' tau n) :
    ∃ u τ, Mo.hyp ctx calls ⟨Mo.bc t (m old).U, Mo.pre (Mo.bc t (m old).U)⟩ [] (m (temp 0)).U 0 (some tau_max) = .ok u τ ∧
      (m' old).U = u ∧ tau = τ := by
  have e : t + 0 * 0 = t := by ring
  simp only [singleStep, program, erk11, run, exec, e, div_one, if_true, reduceCtorEq, if_false] at h
  cases hh : Mo.hyp ctx calls ⟨Mo.bc t (m old).U, Mo.pre (Mo.bc t (m old).U)⟩ [] (m (temp 0)).U 0 (some tau_max) with
  | crash => rw [hh] at h; simp [finish] at h
  | restart g => rw [hh] at h; simp [finish] at h
  | ok u τ =>
    rw [hh] at h
    simp only [finish, Result.returned.injEq, if_true] at h
    refine ⟨u, τ, rfl, ?_, by linarith [h.2.1]⟩
    rw [← h.1]
    simp [swapOld, setU]

/-- **C90 (forward Euler).** A set – convex or not – that the boundary pass and updates with the maximal time-step size do
not leave is not left by any number of forward Euler steps. -/
theorem C90_forward_euler_invariant (Mo : Modules X P) (K : Set X) (ok : Ctx → X → Prop)
    (hbc : ∀ t, ∀ u ∈ K, Mo.bc t u ∈ K)
    (hhyp : ∀ ctx n v dst cap u τ, ok ctx v → v ∈ K → Mo.hyp ctx n ⟨v, Mo.pre v⟩ [] dst 0 (some cap) = .ok u τ → u ∈ K)
    (rec : Recovery) (cflMin cflMax : ℝ) (m m' : Mem X P)
    (hm : (m old).U ∈ K) (h : Run Mo .erk_11 rec cflMin cflMax ok m m') : (m' old).U ∈ K := by
  induction h with
  | start => exact hm
  | next prev call side ih =>
    obtain ⟨m0, k, hs, h0⟩ := step_returned .erk_11 call
    obtain ⟨u, τ, h1, h2, -⟩ := erk11_returned hs
    rw [h2]
    rcases h0 with h0 | h0
    · rw [h0] at h1
      exact hhyp _ _ _ _ _ _ _ (side _ (Or.inl rfl)) (hbc _ _ ih) h1
    · rw [h0] at h1
      exact hhyp _ _ _ _ _ _ _ (side _ (Or.inr rfl)) (hbc _ _ (hbc _ _ ih)) h1

/-- Runs exist: an update that returns gives a run of one step. -/
theorem run_of_update {Mo : Modules X P} {ok : Ctx → X → Prop} {ctx : Ctx} {t tFinal τ : ℝ} {m : Mem X P} {calls : ℕ} {u : X}
    (cflMin cflMax : ℝ)
    (hh : Mo.hyp ctx calls ⟨Mo.bc t (m old).U, Mo.pre (Mo.bc t (m old).U)⟩ [] (m (temp 0)).U 0 (some (tFinal - t)) = .ok u τ)
    (side : ∀ u, u = Mo.bc t (m old).U ∨ u = Mo.bc t (Mo.bc t (m old).U) → ok ctx u) :
    ∃ m', Run Mo .erk_11 .none cflMin cflMax ok m m' ∧ (m' old).U = u := by
  have e : t + 0 * 0 = t := by ring
  have hs : step Mo (program .erk_11) .none cflMin cflMax ctx t tFinal m calls =
      (.returned (swapOld (setU (fun v' => if v' = old then ⟨Mo.bc t (m old).U, Mo.pre (Mo.bc t (m old).U)⟩ else m v')
        (temp 0) u) 0) (1 * τ) (calls + 1), ctx) := by
    simp only [step, singleStep, program, erk11, run, exec, e, div_one, if_true, reduceCtorEq, if_false, hh, finish]
  exact ⟨_, .next (.start m) hs side, by simp [swapOld, setU]⟩

section hyperbolic

variable {ι Q S F B : Type} {dim : ℕ} [Fintype ι] [AddCommGroup S] [Module ℝ S]

/-- A result of the hyperbolic module is that of a completed `HyperbolicModule::step`. -/
theorem hyp_ok {D : Hyp.Description ι Q S F B dim} {M : Hyp.Mesh ι dim} {par : Hyp.Params} {big : ℝ}
    {bc : ℝ → (ι → S) → ι → S} {pre : (ι → S) → Q} {lo : ℕ → Hyp.Leftover ι S} {garbage : ℕ → ι → S}
    {parabolic : Ctx → ℕ → (ι → S) → ℝ → (ι → S) → ℝ → Res (ι → S)} {ctx : Ctx} {n : ℕ} {src : SV (ι → S) Q}
    {st : List (ℝ × SV (ι → S) Q)} {dst : ι → S} {tau : ℝ} {cap : Option ℝ} {u : ι → S} {τ : ℝ}
    (h : (hyperbolicModules D M par big bc pre lo garbage parabolic).hyp ctx n src st dst tau cap = .ok u τ) :
    (Hyp.step D M { par with cfl := ctx.cfl } ctx.hyp ⟨0, 0⟩ { lo n with newU := dst } ⟨src.U, src.prec⟩
      (st.map fun p => (p.1, ⟨p.2.U, p.2.prec⟩)) tau (cap.getD big)).1 = .done u τ := by
  simp only [hyperbolicModules] at h
  split at h
  · simp at h
  · simp at h
  · rename_i U τ' hst
    simp only [Res.ok.injEq] at h
    rw [hst, h.1, h.2]

/-- **C90 (conservation on closed meshes).** On a mesh without boundary every conserved quantity of the equations has
exactly the same value after every number of time steps, for all schemes, settings, rejections and recoveries. -/
theorem C90_hyperbolic_run_conserves (D : Hyp.Description ι Q S F B dim) (M : Hyp.Mesh ι dim) (hM : M.WellFormed)
    (hC : M.Closed) (φ : S →ₗ[ℝ] ℝ) (hD : D.Conserves φ) (par : Hyp.Params) (big : ℝ) (pre : (ι → S) → Q)
    (lo : ℕ → Hyp.Leftover ι S) (garbage : ℕ → ι → S)
    (hrev : ∀ p i j U V n, D.riemann p i j U V n = D.riemann p j i V U (-n))
    (sch : Scheme) (rec : Recovery) (cflMin cflMax : ℝ) (ok : Ctx → (ι → S) → Prop) (m m' : Mem (ι → S) Q)
    (h : Run (hyperbolicModules D M par big (fun _ u => u) pre lo garbage fun _ _ _ _ _ _ => .crash) sch rec cflMin cflMax
      ok m m') :
    ∑ i ∈ Finset.univ.filter (fun i => M.nbrs i ≠ []), M.lumped i * φ ((m' old).U i)
      = ∑ i ∈ Finset.univ.filter (fun i => M.nbrs i ≠ []), M.lumped i * φ ((m old).U i) := by
  let Φ : (ι → S) →ₗ[ℝ] ℝ :=
    ∑ i ∈ Finset.univ.filter (fun i => M.nbrs i ≠ []), M.lumped i • (φ.comp (LinearMap.proj i))
  have hΦ : ∀ u, Φ u = ∑ i ∈ Finset.univ.filter (fun i => M.nbrs i ≠ []), M.lumped i * φ (u i) := by
    intro u
    simp only [Φ, LinearMap.sum_apply, LinearMap.smul_apply, LinearMap.comp_apply, LinearMap.proj_apply,
      smul_eq_mul]
  rw [← hΦ, ← hΦ]
  refine C90_run_conserves _ Φ (fun _ _ => rfl) ?_ ?_ sch rec cflMin cflMax ok m m' h
  · intro ctx n src st dst tau cap u τ h
    rw [hΦ, hΦ]
    exact Hyp.C13_step_conserves D M hM hC φ hD _ _ _ _ _ _ _ _ (fun i j _ _ => hrev _ i j _ _ _) _ _ (hyp_ok h)
  · intro ctx n v t dst tau u τ h
    simp [hyperbolicModules] at h

/-- **C90 (conservation, one rank).** If all degrees of freedom live on one rank this needs no symmetry of the Riemann
solver. -/
theorem C90_one_rank_run_conserves (D : Hyp.Description ι Q S F B dim) (M : Hyp.Mesh ι dim) (hM : M.WellFormed)
    (hC : M.Closed) (φ : S →ₗ[ℝ] ℝ) (hD : D.Conserves φ) (par : Hyp.Params) (big : ℝ) (pre : (ι → S) → Q)
    (lo : ℕ → Hyp.Leftover ι S) (garbage : ℕ → ι → S)
    (hone : ∀ i, ∀ j ∈ M.nbrs i, M.below i j ∨ M.below j i)
    (sch : Scheme) (rec : Recovery) (cflMin cflMax : ℝ) (ok : Ctx → (ι → S) → Prop) (m m' : Mem (ι → S) Q)
    (h : Run (hyperbolicModules D M par big (fun _ u => u) pre lo garbage fun _ _ _ _ _ _ => .crash) sch rec cflMin cflMax
      ok m m') :
    ∑ i ∈ Finset.univ.filter (fun i => M.nbrs i ≠ []), M.lumped i * φ ((m' old).U i)
      = ∑ i ∈ Finset.univ.filter (fun i => M.nbrs i ≠ []), M.lumped i * φ ((m old).U i) := by
  let Φ : (ι → S) →ₗ[ℝ] ℝ :=
    ∑ i ∈ Finset.univ.filter (fun i => M.nbrs i ≠ []), M.lumped i • (φ.comp (LinearMap.proj i))
  have hΦ : ∀ u, Φ u = ∑ i ∈ Finset.univ.filter (fun i => M.nbrs i ≠ []), M.lumped i * φ (u i) := by
    intro u
    simp only [Φ, LinearMap.sum_apply, LinearMap.smul_apply, LinearMap.comp_apply, LinearMap.proj_apply,
      smul_eq_mul]
  rw [← hΦ, ← hΦ]
  refine C90_run_conserves _ Φ (fun _ _ => rfl) ?_ ?_ sch rec cflMin cflMax ok m m' h
  · intro ctx n src st dst tau cap u τ h
    rw [hΦ, hΦ]
    exact Hyp.C13_step_conserves_of_symmetric D M hM hC φ hD _ _ _ _ _ _ _ _
      (fun i j hj => Hyp.C11_viscosity_symmetric_one_rank D M hM _ _ i j (hone i j hj)) _ _ (hyp_ok h)
  · intro ctx n v t dst tau u τ h
    simp [hyperbolicModules] at h

end hyperbolic

/-- The boundary pass of `prepare_state_vector` as the boundary conditions of the integrator.  If the pass throws
(unsupported id), the run ends; here the vector is then left as it is. -/
def passBc {ι S Id : Type} {dim : ℕ} (A : Prepare.System S Id dim) (data : Vec dim → ℝ → S)
    (map : List (Prepare.Entry ι Id dim)) (t : ℝ) (u : ι → S) : ι → S :=
  (Prepare.boundaryPass A data t map u).getD u

/-- The pass keeps what the boundary conditions of all its entries keep. -/
theorem passBc_keeps {ι S Id : Type} {dim : ℕ} (A : Prepare.System S Id dim) (data : Vec dim → ℝ → S)
    (map : List (Prepare.Entry ι Id dim)) (t : ℝ) (u : ι → S) (C : S → Prop)
    (h : ∀ e ∈ map, ∀ W W', C W → A.apply e.id W e.normal (data e.position t) = some W' → C W') (i : ι)
    (hi : C (u i)) : C (passBc A data map t u i) := by
  unfold passBc
  cases hp : Prepare.boundaryPass A data t map u with
  | none => exact hi
  | some V =>
    refine Prepare.pass_invariant A data t map u V hp (fun a b => C a → C b) (fun _ h => h)
      (fun _ _ _ h1 h2 h => h2 (h1 h)) i ?_ hi
    intro e he _ W W' hW hC
    exact h e he W W' hC hW

end

end Integrator

namespace Hyp

variable {ι P S F B : Type} {dim : ℕ} [Fintype ι] [AddCommGroup S] [Module ℝ S]

/-- A step that completes although violations raise an exception has found none. -/
theorem step_accepted {D : Description ι P S F B dim} {M : Mesh ι dim} {par : Params}
    {cnt : Counters} {lo : Leftover ι S} {old : StateVector ι P S}
    {stages : List (ℝ × StateVector ι P S)} {tau tau_max : ℝ} {U : ι → S} {t : ℝ}
    (h : (step D M par .raise_exception cnt lo old stages tau tau_max).1 = .done U t) :
    ¬ restartNeeded D M par lo (stage4 D M par lo old stages t) := by
  classical
  obtain ⟨h1, h2, -⟩ := step_done h
  intro hR
  rw [h2] at hR
  unfold step at h
  simp only [h1, not_true_eq_false, if_false, hR, if_true] at h
  cases h

end Hyp

namespace Scalar

open Hyp

variable {ι : Type} {dim : ℕ}

/-- **C90 (accepted updates, scalar equations).** If violations raise an exception and the limiter is used, then an update
that is *not* rejected satisfies the maximum principle – for every time-step size, beyond the CFL condition as well, every
set of stages and weights, and without any assumption on masses and row sums.  Relaxation switched off, exact
arithmetic. -/
theorem C90_scalar_accepted_step [Fintype ι] (fl : Flux dim) (q : StepParams)
    (draws : ι → ι → List ℝ) (lim : ι → ι → Bounds → State → State → ℝ × Prop)
    (hlim : ∀ i j b U P, IsLaneOf (fun _ => limit q.eps q.tiny) b U P (lim i j b U P))
    (M : Mesh ι dim) (hM : M.WellFormed) (par : Hyp.Params) (cnt : Counters)
    (lo : Leftover ι State) (old : StateVector ι Unit State) (stages : List (ℝ × StateVector ι Unit State))
    (tau tau_max : ℝ)
    (hrelax : q.relaxation_factor = 0) (heps : q.eps = 0) (hqt : 0 < q.tiny) (ht : 0 < par.tiny)
    (hn0 : par.iterations ≠ 0) (hn : par.iterations ≤ 2)
    (hrev : ∀ i j, draws j i = (draws i j).map (1 - ·))
    (hskew : ∀ i, ∀ j ∈ M.nbrs i, ¬ (M.boundary i ∧ M.boundary j) → M.c j i = -M.c i j)
    (hroe : ∀ i j u v n, |(∑ k, fl.value u k * n k) - ∑ k, fl.value v k * n k|
      ≤ riemann fl q.rp (draws i j) u v n * |u - v|)
    (hbig : ∀ i, M.nbrs i ≠ [] → |state (old.U i)| ≤ q.big)
    (U : ι → State) (t : ℝ)
    (h : (step (description fl q draws lim) M par .raise_exception cnt lo old stages tau tau_max).1 = .done U t)
    (i : ι) (hi : M.nbrs i ≠ []) (a b : ℝ)
    (hab : (M.dG = false ∧ ∀ j ∈ i :: M.nbrs i, a ≤ state (old.U j) ∧ state (old.U j) ≤ b) ∨
      ∀ j, M.nbrs j ≠ [] → a ≤ state (old.U j) ∧ state (old.U j) ≤ b) :
    a ≤ state (U i) ∧ state (U i) ≤ b := by
  obtain ⟨-, -, hU⟩ := step_done h
  have hacc := step_accepted h
  rw [hU]
  refine (scalar_step_core fl q draws lim hlim M hM par lo old stages hrelax heps.ge hqt ht hn hrev hskew hroe hbig
    (Or.inl heps) t ?_ i hi a b hab).2
  intro D X k hk _ _ _
  obtain ⟨j, hj⟩ := List.exists_mem_of_ne_nil _ hk
  have hflag : (l1 D M par lo X k j).2 := by
    by_contra hc
    exact hacc ⟨hn0, k, j, hj, hc⟩
  obtain ⟨L, bs, Us, Ps, l, e1, e2, e3, e4⟩ := hlim k j (finalBounds D M par lo X k) (lowOrder D M X k) (pIJ D M X k j)
  have hf2 : (lim k j (finalBounds D M par lo X k) (lowOrder D M X k) (pIJ D M X k j)).2 := hflag
  rw [e4] at hf2
  have := (C60_scalar_no_false_alarm q.eps q.tiny heps.ge bs Us Ps (fun _ => 0) (fun _ => 1)).2 heps hf2 l
  rw [e1, e2] at this
  exact this

/-- **C90 (never rejected).** Within the CFL condition no update of a scalar equation is rejected.  `hflag` says that a
limiter call succeeds if all rows are within their bounds; `C60_scalar_no_false_alarm` gives it for every grouping of
the rows into lanes. -/
theorem C90_scalar_never_rejected [Fintype ι] (fl : Flux dim) (q : StepParams)
    (draws : ι → ι → List ℝ) (lim : ι → ι → Bounds → State → State → ℝ × Prop)
    (hlim : ∀ i j b U P, IsLaneOf (fun _ => limit q.eps q.tiny) b U P (lim i j b U P))
    (M : Mesh ι dim) (hM : M.WellFormed) (par : Hyp.Params) (strategy : Strategy) (cnt : Counters)
    (lo : Leftover ι State) (old : StateVector ι Unit State) (stages : List (ℝ × StateVector ι Unit State))
    (tau tau_max : ℝ)
    (hrelax : q.relaxation_factor = 0) (heps : 0 ≤ q.eps) (hqt : 0 < q.tiny) (ht : 0 < par.tiny)
    (hcfl : par.cfl ≤ 1) (hn : par.iterations ≤ 2)
    (hrev : ∀ i j, draws j i = (draws i j).map (1 - ·))
    (hskew : ∀ i, ∀ j ∈ M.nbrs i, ¬ (M.boundary i ∧ M.boundary j) → M.c j i = -M.c i j)
    (hroe : ∀ i j u v n, |(∑ k, fl.value u k * n k) - ∑ k, fl.value v k * n k|
      ≤ riemann fl q.rp (draws i j) u v n * |u - v|)
    (hm : ∀ i, 0 < M.lumped i) (hc : ∀ i, M.c i i + ((M.nbrs i).map (M.c i)).sum = 0)
    (hres : ∀ i, ∀ j ∈ M.nbrs i, dOff (description fl q draws lim) M lo.dij old i j = 0 ∨
      100 * par.tiny ≤ dOff (description fl q draws lim) M lo.dij old i j)
    (hbig : ∀ i, |state (old.U i)| ≤ q.big) (hsign : q.eps = 0 ∨ ∀ i, 0 ≤ state (old.U i))
    (htau0 : 0 ≤ tau) (htau : tau ≤ tauMax (description fl q draws lim) M par lo.dij old tau_max)
    (hpos : 0 < tauMax (description fl q draws lim) M par lo.dij old tau_max)
    (hflag : ∀ t,
      let D := description fl q draws lim
      let X := stage4 D M par lo old stages t
      (∀ i, M.nbrs i ≠ [] → (finalBounds D M par lo X i).u_min ≤ state (lowOrder D M X i) ∧
        state (lowOrder D M X i) ≤ (finalBounds D M par lo X i).u_max) →
      ∀ i, ∀ j ∈ M.nbrs i, (lim i j (finalBounds D M par lo X i) (lowOrder D M X i) (pIJ D M X i j)).2) :
    ∃ U t, (step (description fl q draws lim) M par strategy cnt lo old stages tau tau_max).1 = .done U t := by
  classical
  set D := description fl q draws lim with hD
  set t := if tau = 0 then tauMax D M par lo.dij old tau_max else tau with htt
  have ht0' : 0 ≤ t := by rw [htt]; split_ifs; exacts [hpos.le, htau0]
  have ht1' : t ≤ tauMax D M par lo.dij old tau_max := by rw [htt]; split_ifs; exacts [le_rfl, htau]
  by_cases hrow : ∃ i, M.nbrs i ≠ []
  · obtain ⟨i, hi⟩ := hrow
    obtain ⟨B, hB⟩ : ∃ B, ∀ j, |state (old.U j)| ≤ B := ⟨q.big, hbig⟩
    have hlow := (scalar_step_core fl q draws lim hlim M hM par lo old stages hrelax heps hqt ht hn hrev hskew hroe
      (fun i _ => hbig i) (hsign.imp_right fun h i _ => h i) t
      (scalar_low_of_cfl fl q draws lim M hM par lo old stages tau_max ht hcfl hm hc hres t ht0' ht1') i hi (-B) B
      (Or.inr fun j _ => abs_le.1 (hB j))).1
    have hno : ¬ restartNeeded D M par lo (stage4 D M par lo old stages t) := by
      rintro ⟨-, i, j, hj, hf⟩
      exact hf (hflag t hlow i j hj)
    unfold step
    simp only [hpos, not_true_eq_false, if_false, ← htt, hno]
    exact ⟨_, _, rfl⟩
  · have hno : ¬ restartNeeded D M par lo (stage4 D M par lo old stages t) := by
      rintro ⟨-, i, j, hj, hf⟩
      exact hrow ⟨i, List.ne_nil_of_mem hj⟩
    unfold step
    simp only [hpos, not_true_eq_false, if_false, ← htt, hno]
    exact ⟨_, _, rfl⟩

open Integrator (Ctx Scheme Recovery Mem Run Res hyperbolicModules schemeAccepted passBc)
open Integrator.Slot in
/-- **C90 (maximum principle for runs, scalar equations).** With every explicit scheme, if the completed steps were
accepted with violations raising an exception, no value ever leaves an interval that contains the initial values and the
boundary data: after any number of time steps, of any size, with any rejected attempts in between. -/
theorem C90_scalar_run [Fintype ι] (fl : Flux dim) (q : StepParams)
    (draws : ι → ι → List ℝ) (lim : ι → ι → Bounds → State → State → ℝ × Prop)
    (hlim : ∀ i j b U P, IsLaneOf (fun _ => limit q.eps q.tiny) b U P (lim i j b U P))
    (M : Mesh ι dim) (hM : M.WellFormed) (par : Hyp.Params)
    (hrelax : q.relaxation_factor = 0) (heps : q.eps = 0) (hqt : 0 < q.tiny) (ht : 0 < par.tiny)
    (hn0 : par.iterations ≠ 0) (hn : par.iterations ≤ 2)
    (hrev : ∀ i j, draws j i = (draws i j).map (1 - ·))
    (hskew : ∀ i, ∀ j ∈ M.nbrs i, ¬ (M.boundary i ∧ M.boundary j) → M.c j i = -M.c i j)
    (hroe : ∀ i j u v n, |(∑ k, fl.value u k * n k) - ∑ k, fl.value v k * n k|
      ≤ riemann fl q.rp (draws i j) u v n * |u - v|)
    (a b : ℝ) (ha : |a| ≤ q.big) (hb : |b| ≤ q.big)
    (data : Vec dim → ℝ → State) (map : List (Prepare.Entry ι Boundary dim))
    (hdata : ∀ e ∈ map, ∀ t, a ≤ state (data e.position t) ∧ state (data e.position t) ≤ b)
    (big : ℝ) (lo : ℕ → Leftover ι State) (garbage : ℕ → ι → State)
    (parabolic : Ctx → ℕ → (ι → State) → ℝ → (ι → State) → ℝ → Res (ι → State))
    (sch : Scheme) (hsch : schemeAccepted true sch) (rec : Recovery) (cflMin cflMax : ℝ) (m m' : Mem (ι → State) Unit)
    (h : Run (hyperbolicModules (description fl q draws lim) M par big (passBc Prepare.scalar data map) (fun _ => ()) lo
      garbage parabolic) sch rec cflMin cflMax (fun ctx _ => ctx.hyp = .raise_exception) m m')
    (h0 : ∀ i, M.nbrs i ≠ [] → a ≤ state ((m old).U i) ∧ state ((m old).U i) ≤ b)
    (i : ι) (hi : M.nbrs i ≠ []) : a ≤ state ((m' old).U i) ∧ state ((m' old).U i) ≤ b := by
  let K : Set (ι → State) := {u | ∀ i, M.nbrs i ≠ [] → a ≤ state (u i) ∧ state (u i) ≤ b}
  have hK : Convex ℝ K := by
    intro x hx y hy α β hα hβ hαβ i hi
    have e : ∀ z : ℝ, z = α * z + β * z := fun z => by rw [← add_mul, hαβ, one_mul]
    show a ≤ α * state (x i) + β * state (y i) ∧ α * state (x i) + β * state (y i) ≤ b
    have hx := hx i hi
    have hy := hy i hi
    constructor
    · linarith [mul_le_mul_of_nonneg_left hx.1 hα, mul_le_mul_of_nonneg_left hy.1 hβ, e a]
    · linarith [mul_le_mul_of_nonneg_left hx.2 hα, mul_le_mul_of_nonneg_left hy.2 hβ, e b]
  have hbc : ∀ t, ∀ u ∈ K, passBc Prepare.scalar data map t u ∈ K := by
    intro t u hu i hi
    refine Integrator.passBc_keeps Prepare.scalar data map t u (fun V => a ≤ state V ∧ state V ≤ b) ?_ i (hu i hi)
    intro e he W W' hW hW'
    have hd := hdata e he t
    simp only [Prepare.scalar] at hW'
    unfold applyBoundaryConditions at hW'
    split at hW' <;> first | (cases hW'; exact hd) | (cases hW'; exact hW) | (cases hW')
  refine Integrator.C90_run_invariant _ K hK (fun ctx => ctx.hyp = .raise_exception) hbc ?_ sch hsch rec cflMin cflMax
    m m' h0 h i hi
  intro ctx hctx n src st dst tau cap u τ hsrc _ hh i hi
  have hst := Integrator.hyp_ok hh
  rw [hctx] at hst
  refine C90_scalar_accepted_step fl q draws lim hlim M hM { par with cfl := ctx.cfl } _ _ _ _ _ _ hrelax heps hqt ht hn0 hn
    hrev hskew hroe ?_ u τ hst i hi a b (Or.inr hsrc)
  intro i hi
  have h1 := hsrc i hi
  have h2 := abs_le.1 ha
  have h3 := abs_le.1 hb
  exact abs_le.2 ⟨by linarith [h1.1, h2.1], by linarith [h1.2, h3.2]⟩

/-- The hypotheses are met: Burgers' equation on the ring with the data `1, 2, 3`.  The update is accepted although
violations raise an exception, so there is a run, and its values are between `1` and `3`. -/
example (m : Mem (Fin 3 → State) Unit) (hm : (m .old).U = demoOld.U) (garbage : ℕ → Fin 3 → State) : ∃ m',
    Run (hyperbolicModules demo ring demoPar 1000 (passBc (dim := 1) Prepare.scalar (fun _ _ _ => 2) []) (fun _ => ()) (fun _ => demoLo)
      garbage fun _ _ _ _ _ _ => .crash) .erk_11 .none 1 1 (fun ctx _ => ctx.hyp = .raise_exception) m m' ∧
      ∀ i, 1 ≤ state ((m' .old).U i) ∧ state ((m' .old).U i) ≤ 3 := by
  have hlim : ∀ (i j : Fin 3) b U P, IsLaneOf (fun _ => limit (0 : ℝ) (1 / 1000)) b U P
      (limitLane 0 (1 / 1000) b U P 0 1, inBounds 0 b (state U)) := fun i j b U P =>
    ⟨1, fun _ => b, fun _ => U, fun _ => P, 0, rfl, rfl, rfl, by simp [limit]⟩
  have hroe : ∀ (i j : Fin 3) (u v : ℝ) (n : Vec 1), |(∑ k, (burgers 1 (1 / 1000)).value u k * n k)
      - ∑ k, (burgers 1 (1 / 1000)).value v k * n k| ≤ riemann (burgers 1 (1 / 1000)) ⟨false, false⟩ [] u v n * |u - v| :=
    fun i j u v n =>
      C09_scalar_roe_convex _ _ _ _ _ _ rfl (C09_scalar_burgers_convex _ n).1 (C09_scalar_burgers_convex _ n).2
  have hpos : 0 < tauMax demo ring demoPar demoLo.dij demoOld 10 := (C11_step_tau demo ring demoPar .warn ⟨0, 0⟩ demoLo
    demoOld [] 0 10 (by norm_num [demoPar]) (by norm_num [demoPar]) ring_closed.lumped (by norm_num)).1
  obtain ⟨U, t, h⟩ := C90_scalar_never_rejected (burgers 1 (1 / 1000)) ⟨⟨false, false⟩, 1, 0, 1 / 1000, 100, 0⟩
    (fun _ _ => []) _ hlim ring ring_wf demoPar .raise_exception ⟨0, 0⟩ { demoLo with newU := (m (.temp 0)).U } demoOld [] 0 10
    rfl le_rfl (by norm_num) (by norm_num [demoPar]) (by norm_num [demoPar]) (by norm_num [demoPar]) (fun _ _ => rfl)
    (fun i j hj _ => ring_closed.skew i j hj) hroe ring_closed.lumped ring_row_sum
    (fun i j hj => Or.inr (le_trans (by norm_num [demoPar]) (demo_dOff demoLo.dij i j hj)))
    (fun i => by fin_cases i <;> simp [state, demoOld] <;> norm_num [abs_le]) (Or.inl rfl) le_rfl hpos.le hpos
    (fun t hin i j hj => by
      have := hin i (by simp [ring])
      simpa [inBounds] using this.symm)
  have hup : (hyperbolicModules demo ring demoPar 1000 (passBc (dim := 1) Prepare.scalar (fun _ _ _ => 2) []) (fun _ => ())
      (fun _ => demoLo) garbage fun _ _ _ _ _ _ => .crash).hyp ⟨1 / 2, .raise_exception, .raise_exception⟩ 0
      ⟨passBc (dim := 1) Prepare.scalar (fun _ _ _ => 2) [] 0 (m .old).U, ()⟩ [] (m (.temp 0)).U 0 (some (10 - 0)) = .ok U t := by
    have e : passBc Prepare.scalar (dim := 1) (fun _ _ _ => 2) [] 0 (m .old).U = demoOld.U := hm
    have h' : (Hyp.step demo ring ⟨1 / 2, demoPar.tiny, demoPar.iterations⟩ .raise_exception ⟨0, 0⟩
      { demoLo with newU := (m (.temp 0)).U } ⟨demoOld.U, ()⟩ [] 0 10).1 = .done U t := h
    simp only [hyperbolicModules, e, sub_zero, Option.getD_some, List.map_nil, h']
  obtain ⟨m', hrun, -⟩ := Integrator.run_of_update (ok := fun ctx _ => ctx.hyp = .raise_exception) 1 1 hup (fun _ _ => rfl)
  refine ⟨m', hrun, fun i => ?_⟩
  exact C90_scalar_run (burgers 1 (1 / 1000)) ⟨⟨false, false⟩, 1, 0, 1 / 1000, 100, 0⟩ (fun _ _ => []) _ hlim ring ring_wf
    demoPar rfl rfl (by norm_num) (by norm_num [demoPar]) (by norm_num [demoPar]) (by norm_num [demoPar]) (fun _ _ => rfl)
    (fun i j hj _ => ring_closed.skew i j hj) hroe 1 3 (by norm_num) (by norm_num [abs_le]) (fun _ _ _ => 2) []
    (fun e he => by cases he) 1000 _ garbage _ .erk_11 rfl .none 1 1 m m' hrun
    (fun i _ => by rw [hm]; fin_cases i <;> simp [state, demoOld] <;> norm_num) i (by simp [ring])

end Scalar

namespace ShallowWater

open Hyp Integrator

variable {ι : Type} {dim : ℕ}

/-- Boundary conditions do not produce negative depths. -/
theorem boundary_depth_nonneg (p : Params) (hg : 0 ≤ p.gravity) (id : Boundary) (U : State dim) (n : Vec dim) (D : State dim)
    (hU : 0 ≤ waterDepth U) (hD : 0 ≤ waterDepth D) : 0 ≤ waterDepth (applyBoundaryConditions p id U n D) := by
  have key : ∀ (c : Euler.Characteristic) (V W : State dim),
      0 ≤ waterDepth (prescribeRiemannCharacteristic c p V W n) := by
    intro c V W
    unfold prescribeRiemannCharacteristic
    simp only [waterDepth_mkState]
    exact div_nonneg (sq_nonneg _) hg
  unfold applyBoundaryConditions
  cases id <;> simp only [waterDepth_mkState] <;> try assumption
  split_ifs <;> first | assumption | exact key _ _ _

/-- **C90 (depth in runs).** With the forward Euler scheme, CFL numbers of at most `9/10` in force and dry-state thresholds
a factor of ten apart (both as by default), no water depth ever becomes negative: from nonnegative initial depths and
boundary data, for every bathymetry, after any number of time steps, with or without rejected attempts. -/
theorem C90_sw_run_depth [Fintype ι] (q : StepParams) (Z : ι → ℝ)
    (lim : ι → ι → Bounds → State dim → State dim → ℝ × Prop)
    (hlim : ∀ i j b U V, IsLaneOf (fun _ => limit q.p q.lp) b U V (lim i j b U V))
    (M : Mesh ι dim) (par : Hyp.Params) (H : DepthHyp q M par) (hg : 0 ≤ q.p.gravity)
    (hthr : 10 * cutoffSharp q.p ≤ cutoffMollified q.p)
    (data : Vec dim → ℝ → State dim) (map : List (Prepare.Entry ι Boundary dim))
    (hdata : ∀ e ∈ map, ∀ t, 0 ≤ waterDepth (data e.position t))
    (big : ℝ) (lo : ℕ → Leftover ι (State dim)) (garbage : ℕ → ι → State dim)
    (parabolic : Ctx → ℕ → (ι → State dim) → ℝ → (ι → State dim) → ℝ → Res (ι → State dim))
    (rec : Recovery) (cflMin cflMax : ℝ) (m m' : Mem (ι → State dim) Unit)
    (h : Run (hyperbolicModules (description q Z lim) M par big (passBc (Prepare.shallowWater q.p) data map) (fun _ => ())
      lo garbage parabolic) .erk_11 rec cflMin cflMax (fun ctx _ => ctx.cfl ≤ 9 / 10) m m')
    (h0 : ∀ i, M.nbrs i ≠ [] → 0 ≤ waterDepth ((m .old).U i))
    (i : ι) (hi : M.nbrs i ≠ []) : 0 ≤ waterDepth ((m' .old).U i) := by
  classical
  refine Integrator.C90_forward_euler_invariant _ {u : ι → State dim | ∀ i, M.nbrs i ≠ [] → 0 ≤ waterDepth (u i)}
    (fun ctx _ => ctx.cfl ≤ 9 / 10) ?_ ?_ rec cflMin cflMax m m' h0 h i hi
  · intro t u hu i hi
    refine Integrator.passBc_keeps (Prepare.shallowWater q.p) data map t u (fun V => 0 ≤ waterDepth V) ?_ i (hu i hi)
    intro e he W W' hW hW'
    cases hW'
    exact boundary_depth_nonneg q.p hg _ _ _ _ hW (hdata e he t)
  · intro ctx n v dst cap u τ hok hv hh i hi
    have hst := Integrator.hyp_ok hh
    have H' : DepthHyp q M { par with cfl := ctx.cfl } :=
      { wf := H.wf, skew := H.skew, mass := H.mass, omega := H.omega, rowSum := H.rowSum, tiny := H.tiny,
        cfl := le_trans hok (by norm_num), passes := H.passes, cutoff := H.cutoff, eps := H.eps, ptiny := H.ptiny,
        relaxation := H.relaxation, dry := H.dry }
    exact C91_sw_step_depth_default q Z lim hlim M _ H' hok hthr _ _ _ _ _ 0 _ le_rfl
      (step_done hst).1.le hv u τ hst i hi

/-- Parameters with thresholds a factor of one hundred apart. -/
noncomputable def runupParams : StepParams :=
  { lakeParams with p := { lakeParams.p with dry_state_relaxation_large := 100 } }

/-- The limiter of one lane. -/
noncomputable def runupLim (_ _ : Fin 3) (b : Bounds) (U V : State 1) : ℝ × Prop :=
  let r := limit (L := 1) runupParams.p runupParams.lp (fun _ => b) (fun _ => U) (fun _ => V) (fun _ => 0) (fun _ => 1)
  (r.1 0, r.2)

/-- The hypotheses are met: water running up an island. -/
example (m : Mem (Fin 3 → State 1) Unit) (hm : (m .old).U = runupU) (lo : ℕ → Leftover (Fin 3) (State 1))
    (garbage : ℕ → Fin 3 → State 1) : ∃ m',
    Run (hyperbolicModules (description runupParams lakeZ runupLim) ring ⟨1, 1 / 100, 2⟩ 1000
      (passBc (Prepare.shallowWater runupParams.p) (fun _ _ => mkState 1 0) [⟨0, fun _ => 1, .slip, 0⟩]) (fun _ => ()) lo
      garbage fun _ _ _ _ _ _ => .crash) .erk_11 .none 1 1 (fun ctx _ => ctx.cfl ≤ 9 / 10) m m' ∧
      ∀ i, 0 ≤ waterDepth ((m' .old).U i) := by
  have H : DepthHyp runupParams ring ⟨1, 1 / 100, 2⟩ :=
    { wf := ring_wf
      skew := fun i j h _ => ring_closed.skew i j h
      mass := ring_closed.lumped
      omega := by norm_num [ring]
      rowSum := fun i _ => Scalar.ring_row_sum i
      tiny := by norm_num
      cfl := le_rfl
      passes := le_rfl
      cutoff := by norm_num [cutoffSharp, runupParams, lakeParams]
      eps := by norm_num [runupParams, lakeParams]
      ptiny := by norm_num [runupParams, lakeParams]
      relaxation := by norm_num [runupParams, lakeParams]
      dry := by norm_num [runupParams, lakeParams] }
  set Mo := hyperbolicModules (description runupParams lakeZ runupLim) ring ⟨1, 1 / 100, 2⟩ 1000
      (passBc (Prepare.shallowWater runupParams.p) (fun _ _ => mkState 1 0) [⟨0, fun _ => 1, .slip, 0⟩]) (fun _ => ()) lo
      garbage (fun _ _ _ _ _ _ => .crash) with hMo
  obtain ⟨U, t, h⟩ := C18_warn_returns (description runupParams lakeZ runupLim) ring ⟨9 / 10, 1 / 100, 2⟩ ⟨0, 0⟩
    { lo 0 with newU := (m (.temp 0)).U } ⟨Mo.bc 0 (m .old).U, ()⟩ [] 0 10
    (C11_step_tau (description runupParams lakeZ runupLim) ring ⟨9 / 10, 1 / 100, 2⟩ .warn ⟨0, 0⟩
      { lo 0 with newU := (m (.temp 0)).U } ⟨Mo.bc 0 (m .old).U, ()⟩ [] 0 10
      (by norm_num) (by norm_num) ring_closed.lumped (by norm_num)).1
  have hup : Mo.hyp ⟨9 / 10, .warn, .warn⟩ 0 ⟨Mo.bc 0 (m .old).U, Mo.pre (Mo.bc 0 (m .old).U)⟩ [] (m (.temp 0)).U 0
      (some (10 - 0)) = .ok U t := by
    simp only [hMo, hyperbolicModules] at h ⊢
    simp only [sub_zero, Option.getD_some, List.map_nil, h]
  obtain ⟨m', hrun, -⟩ := Integrator.run_of_update (ok := fun ctx _ => ctx.cfl ≤ 9 / 10) 1 1 hup (fun _ _ => le_rfl)
  refine ⟨m', hrun, fun i => ?_⟩
  exact C90_sw_run_depth runupParams lakeZ runupLim
    (fun i j b U P => ⟨1, fun _ => b, fun _ => U, fun _ => P, 0, rfl, rfl, rfl, rfl⟩) ring ⟨1, 1 / 100, 2⟩ H
    (by norm_num [runupParams, lakeParams]) (by norm_num [cutoffSharp, cutoffMollified, runupParams, lakeParams])
    (fun _ _ => mkState 1 0) _ (fun _ _ _ => by simp [waterDepth, mkState]) 1000 lo garbage _ .none 1 1 m m' hrun
    (fun i _ => by rw [hm]; fin_cases i <;> simp [runupU, waterDepth, mkState]) i (by simp [ring])

end ShallowWater

namespace Euler

open Hyp Integrator

variable {ι : Type} {dim : ℕ}

/-- **C92 (admissibility in runs of the Euler equations).** With the forward Euler scheme and no constrained degrees of
freedom, density and internal energy stay positive at all nodes after any number of time steps, with or without rejected
attempts, for every mesh and every admissible initial state; and with relaxation switched off the specific entropy never
falls below the smallest initial or boundary one.  Missing: limiter tolerances (`eps = 0`); the side conditions on the states that occur in
the run (`resolved`: no viscosity is lost to the regularisation; wave speeds as in C64). -/
theorem C92_euler_run_partial [Fintype ι] (p : Params) (lp : LimiterParams) (big : ℝ) (rp : RiemannParams)
    (riem : ι → ι → State dim → State dim → Vec dim → ℝ)
    (ind : State dim → List (State dim × Vec dim) → ℝ → ℝ) (lim : ι → ι → Bounds → State dim → State dim → ℝ × Prop)
    (M : Mesh ι dim) (par : Hyp.Params) (hg : 1 < p.gamma) (heps : p.eps = 0)
    (hriem : ∀ i j U V n, IsRiemannLane p rp U V n (riem i j U V n))
    (hlim : ∀ i j b U P, IsLaneOf (fun _ => limit p lp) b U P (lim i j b U P))
    (hM : M.WellFormed) (hskew : ∀ i, ∀ j ∈ M.nbrs i, ¬ (M.boundary i ∧ M.boundary j) → M.c j i = -M.c i j)
    (hmass : ∀ i, 0 < M.lumped i) (hrow : ∀ i, M.c i i + ((M.nbrs i).map (M.c i)).sum = 0) (ht : 0 < par.tiny)
    (hact : ∀ i, M.nbrs i ≠ [])
    (hf : 0 ≤ lp.relaxation_factor) (hbig : 0 < big) (hn : par.iterations ≤ 2) (r : ℝ) (hr1 : r < 1)
    (hr : ∀ i, relaxationRadius dim lp.relaxation_factor (M.lumped i * (1 / M.omega)) ≤ r)
    (bc : ℝ → (ι → State dim) → ι → State dim)
    (lo : ℕ → Leftover ι (State dim)) (garbage : ℕ → ι → State dim)
    (parabolic : Ctx → ℕ → (ι → State dim) → ℝ → (ι → State dim) → ℝ → Res (ι → State dim)) (bigTau : ℝ)
    (s : ℝ) (hsb : s ≤ big) (hsr : s = 0 ∨ r = 0)
    (hbc : ∀ t u, (∀ i, Admissible (u i) ∧ s ≤ specificEntropy p (u i)) →
      ∀ i, Admissible (bc t u i) ∧ s ≤ specificEntropy p (bc t u i))
    (rec : Recovery) (cflMin cflMax : ℝ) (m m' : Mem (ι → State dim) Unit)
    (h : Run (hyperbolicModules (description p lp big riem ind lim) M par bigTau bc (fun _ => ()) lo garbage parabolic)
      .erk_11 rec cflMin cflMax (fun ctx u => ctx.cfl ≤ 1 ∧ ∀ n, ∀ i, ∀ j ∈ M.nbrs i,
        (100 * par.tiny ≤ dOff (description p lp big riem ind lim) M (lo n).dij ⟨u, ()⟩ i j ∨
          (M.c i j = 0 ∧ dOff (description p lp big riem ind lim) M (lo n).dij ⟨u, ()⟩ i j = 0)) ∧
        (M.c i j ≠ 0 → Dominates p (u i) (u j) (fun k => M.c i j k / vnorm (M.c i j))
          (riem i j (u i) (u j) (fun k => M.c i j k / vnorm (M.c i j))))) m m')
    (h0 : ∀ i, Admissible ((m .old).U i) ∧ s ≤ specificEntropy p ((m .old).U i)) (i : ι) :
    Admissible ((m' .old).U i) ∧ s ≤ specificEntropy p ((m' .old).U i) := by
  classical
  refine Integrator.C90_forward_euler_invariant _ {u : ι → State dim | ∀ i, Admissible (u i) ∧ s ≤ specificEntropy p (u i)} _ ?_ ?_
    rec cflMin cflMax m m' h0 h i
  · exact hbc
  intro ctx n v dst cap u τ hok hv hh i
  have hst := Integrator.hyp_ok hh
  have key := C67_euler_step_invariant_domain_partial (rp := rp) (lo := { lo n with newU := dst }) (old := ⟨v, ()⟩)
    (par := { par with cfl := ctx.cfl }) hg
    { riemann := hriem, wf := hM, skew := hskew, mass := hmass, rowSum := hrow, tiny := ht, cfl := hok.1
      resolved := fun i j hj => (hok.2 n i j hj).1, admissible := fun i => (hv i).1 }
    heps hlim hf hbig hn r hr1 hr (fun i j hj => (hok.2 n i j hj).2) _ _ _ 0 _ le_rfl (step_done hst).1.le u τ hst i (hact i)
  refine ⟨key.1, ?_⟩
  have h2 := key.2 s hsb (Or.inr fun j => (hv j).2)
  rcases hsr with h3 | h3
  · rw [h3] at h2 ⊢; linarith
  · rw [h3] at h2; linarith

/-- The hypotheses are met: a gas with a discontinuous density on the ring. -/
example (m : Mem (Fin 3 → State 1) Unit) (hm : (m .old).U = ringGas.U) (garbage : ℕ → Fin 3 → State 1) : ∃ m',
    (∀ i, Admissible ((m' .old).U i)) ∧ ∃ ok, Run (hyperbolicModules ringDescription ring demoPar 1000 (fun _ u => u)
      (fun _ => ()) (fun _ => ringLo) garbage fun _ _ _ _ _ _ => .crash) .erk_11 .none 1 1 ok m m' := by
  obtain ⟨U, t, h⟩ := C18_warn_returns ringDescription ring demoPar ⟨0, 0⟩ { ringLo with newU := (m (.temp 0)).U } ringGas
    [] 0 10 (C11_step_tau ringDescription ring demoPar .warn ⟨0, 0⟩ ringLo ringGas [] 0 10
      (by norm_num [demoPar]) (by norm_num [demoPar]) ring_closed.lumped (by norm_num)).1
  have hup : (hyperbolicModules ringDescription ring demoPar 1000 (fun _ u => u) (fun _ => ()) (fun _ => ringLo) garbage
      fun _ _ _ _ _ _ => .crash).hyp ⟨1 / 2, .warn, .warn⟩ 0 ⟨(m .old).U, ()⟩ [] (m (.temp 0)).U 0 (some (10 - 0))
      = .ok U t := by
    have h' : (Hyp.step ringDescription ring ⟨1 / 2, demoPar.tiny, demoPar.iterations⟩ .warn ⟨0, 0⟩
      { ringLo with newU := (m (.temp 0)).U } ⟨ringGas.U, ()⟩ [] 0 10).1 = .done U t := h
    simp only [hyperbolicModules, hm, sub_zero, Option.getD_some, List.map_nil, h']
  have hg : 1 < air.gamma := by norm_num [air]
  obtain ⟨m', hrun, -⟩ := Integrator.run_of_update (ok := fun ctx u => ctx.cfl ≤ 1 ∧ ∀ _ : ℕ, ∀ i, ∀ j ∈ ring.nbrs i,
        (100 * demoPar.tiny ≤ dOff ringDescription ring ringLo.dij ⟨u, ()⟩ i j ∨
          (ring.c i j = 0 ∧ dOff ringDescription ring ringLo.dij ⟨u, ()⟩ i j = 0)) ∧
        (ring.c i j ≠ 0 → Dominates air (u i) (u j) (fun k => ring.c i j k / vnorm (ring.c i j))
          (ringRiem i j (u i) (u j) (fun k => ring.c i j k / vnorm (ring.c i j))))) 1 1 hup
    (fun u hu => by
      have e : u = ringGas.U := by rcases hu with hu | hu <;> exact hu.trans hm
      subst e
      refine ⟨by norm_num, fun _ i j hj => ⟨ringGas_stepHyp.resolved i j hj, fun hc => ?_⟩⟩
      exact C66_euler_dominates_partial air hg ringRp _ _ _ (normSq_normal hc) (ringGas_admissible i)
        (ringGas_admissible j) _ (ringGas_lane i j _ _ _) 1 (Or.inl (ringGas_star i j _))
        (Or.inl ⟨(ringGas_pressure i).ge, (ringGas_pressure j).ge⟩))
  refine ⟨m', fun i => ?_, _, hrun⟩
  have hs : ∀ i, Admissible (ringGas.U i) ∧ 0 ≤ specificEntropy air (ringGas.U i) := fun i =>
    ⟨ringGas_admissible i, mul_nonneg (ringGas_admissible i).2.le
      (Real.rpow_nonneg (one_div_nonneg.2 (ringGas_admissible i).1.le) _)⟩
  exact (C92_euler_run_partial air ringLp 1000 ringRp ringRiem _ ringLim ring demoPar hg rfl ringGas_lane
    (fun i j b U P => ⟨1, fun _ => b, fun _ => U, fun _ => P, 0, rfl, rfl, rfl, rfl⟩) ring_wf
    (fun i j hj _ => ring_closed.skew i j hj) ring_closed.lumped Scalar.ring_row_sum (by norm_num [demoPar])
    (fun i => by simp [ring]) (le_refl (0 : ℝ)) (by norm_num) (by norm_num [demoPar]) 0 one_pos
    (fun i => by simp [relaxationRadius, ringLp]) (fun _ u => u) (fun _ => ringLo) garbage _ 1000 0 (by norm_num)
    (Or.inl rfl) (fun _ _ h => h) .none 1 1 m m' hrun (fun i => by rw [hm]; exact hs i) i).1

end Euler

end Ryujin
