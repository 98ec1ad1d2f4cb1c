import Mathlib.Analysis.Convex.Basic
import Verif.Proofs.TimeIntegrator
import Verif.Proofs.StepCongr
import Verif.Props.HyperbolicStep

/-!
# Properties C19 - C22, C57, C58: the time integrator
-/

namespace Ryujin
namespace Integrator

noncomputable section

open Slot Instr
open Hyp (Strategy)

variable {X P : Type} [AddCommGroup X] [Module ℝ X]

theorem vec3_2 (a b c : ℝ) : ![a, b, c] 2 = c := rfl
theorem vec4_2 (a b c d : ℝ) : ![a, b, c, d] 2 = c := rfl
theorem vec4_3 (a b c d : ℝ) : ![a, b, c, d] 3 = d := rfl
theorem vec5_2 (a b c d e : ℝ) : ![a, b, c, d, e] 2 = c := rfl
theorem vec5_3 (a b c d e : ℝ) : ![a, b, c, d, e] 3 = d := rfl
theorem vec5_4 (a b c d e : ℝ) : ![a, b, c, d, e] 4 = e := rfl

/-! ### C19: the schemes are the Runge-Kutta methods they claim to be -/

/-- SSPRK(2,2): Heun's method, order two. -/
theorem C19_ssprk_22 : Realises .ssprk_22 RK.ssprk22 ∧ RK.ssprk22.Order 2 := ⟨realises_ssprk_22, RK.order_ssprk22⟩

/-- SSPRK(3,3): order three. -/
theorem C19_ssprk_33 : Realises .ssprk_33 RK.ssprk33 ∧ RK.ssprk33.Order 3 := ⟨realises_ssprk_33, RK.order_ssprk33⟩

/-- Forward Euler: order one. -/
theorem C19_erk_11 : Realises .erk_11 RK.erk11 ∧ RK.erk11.Order 1 := ⟨realises_erk_11, RK.order_erk11⟩

/-- ERK(2,2;1): order two, equidistant abscissae. -/
theorem C19_erk_22 : Realises .erk_22 RK.erk22 ∧ RK.erk22.Order 2 ∧ ∀ i, RK.erk22.c i = i / 2 := by
  refine ⟨realises_erk_22, RK.order_erk22, fun i => ?_⟩
  match i with
  | 0 => simp [RK.Tableau.c, RK.erk22, Fin.sum_univ_two]
  | 1 => simp [RK.Tableau.c, RK.erk22, Fin.sum_univ_two]

/-- ERK(3,3;1): order three, equidistant abscissae. -/
theorem C19_erk_33 : Realises .erk_33 RK.erk33 ∧ RK.erk33.Order 3 ∧ ∀ i, RK.erk33.c i = i / 3 := by
  refine ⟨realises_erk_33, RK.order_erk33, fun i => ?_⟩
  simp only [RK.Tableau.c, RK.erk33, Fin.sum_univ_three]
  fin_cases i <;> norm_num [vec3_2, vec4_2, vec4_3, vec5_2, vec5_3, vec5_4]

/-- ERK(4,3;1): order three, equidistant abscissae. -/
theorem C19_erk_43 : Realises .erk_43 RK.erk43 ∧ RK.erk43.Order 3 ∧ ∀ i, RK.erk43.c i = i / 4 := by
  refine ⟨realises_erk_43, RK.order_erk43, fun i => ?_⟩
  simp only [RK.Tableau.c, RK.erk43, Fin.sum_univ_four]
  fin_cases i <;> norm_num [vec3_2, vec4_2, vec4_3, vec5_2, vec5_3, vec5_4]

/-- ERK(5,4;1): the method realised has exactly equidistant abscissae, its coefficients differ from the rounded
coefficients in the code by less than `2e-16`, and all order conditions up to order four hold up to `1e-15`. -/
theorem C19_erk_54 : Realises .erk_54 RK.erk54eq ∧ RK.erk54eq.OrderUpTo 4 1e-15 ∧
    (∀ i, RK.erk54eq.c i = i / 5) ∧
    (∀ i j, |RK.erk54eq.A i j - RK.erk54.A i j| < 2e-16) ∧ (∀ i, |RK.erk54eq.b i - RK.erk54.b i| < 2e-16) := by
  refine ⟨realises_erk_54, RK.order_erk54, ?_, ?_, ?_⟩
  · intro i
    simp only [RK.Tableau.c, RK.erk54eq, Fin.sum_univ_five]
    fin_cases i <;> norm_num [vec3_2, vec4_2, vec4_3, vec5_2, vec5_3, vec5_4]
  · intro i j
    rw [abs_lt]
    fin_cases i <;> fin_cases j <;> norm_num [RK.erk54, RK.erk54eq]
  · intro i
    rw [abs_lt]
    fin_cases i <;> norm_num [RK.erk54, RK.erk54eq]

/-- The Strang schemes are the Strang splitting: half a step of the explicit method, one Crank-Nicolson step of
the implicit part, half a step of the explicit method, for the returned time step size. -/
theorem C19_strang : RealisesStrang .strang_ssprk_33_cn RK.ssprk33 ∧ RealisesStrang .strang_erk_33_cn RK.erk33 ∧
    RealisesStrang .strang_erk_43_cn RK.erk43 := ⟨strang_ssprk_33, strang_erk_33, strang_erk_43⟩

/-- Stage times: give every vector a hyperbolic and a parabolic clock, which the modules advance, and let the
modules misbehave in an arbitrary way whenever a vector is presented to them at a time that is not the time shown
by its clock.  Then every scheme still arrives, with both clocks, exactly at `t` plus the returned time step size.
(The parabolic clock of the explicit schemes stays at `t`; `imex_22` and `imex_33` do not get that far, see
`C19_imex_aborts`.) -/
theorem C19_stage_times {P : Type} (sch : Scheme) (hsch : sch ≠ .imex_22 ∧ sch ≠ .imex_33)
    (Mo : Modules (ℝ × ℝ) P)
    (dt : Ctx → SV (ℝ × ℝ) P → Option ℝ → ℝ) (hMo : Clocks Mo dt) (ctx : Ctx) (t tau_max : ℝ)
    (m : Mem (ℝ × ℝ) P) (calls : ℕ) (hm : (m old).U = (t, t))
    (hdt : dt ctx (prepared Mo t m) (some (tau_max / efficiency sch)) ≠ 0) :
    ∃ m' h n, singleStep Mo (program sch) ctx t tau_max m calls = .returned m' h n ∧
      (m' old).U = (t + h, if schemeAccepted true sch then t else t + h) := by
  obtain ⟨m', n, h1, h2⟩ := clocks sch hsch Mo dt hMo ctx t tau_max m calls hm hdt
  exact ⟨m', _, n, h1, h2⟩

/-- Exact forward Euler steps of `u' = -u` with step size `1/10`, and exact backward Euler steps of `u' = -u`. -/
def decay : Modules ℝ Unit where
  bc := fun _ u => u
  pre := fun _ => ()
  hyp := fun _ _ src st _ tau _ => .ok (src.U + (if tau = 0 then 1 / 10 else tau) •
      ((1 - (st.map fun p => p.1).sum) • (-src.U) + (st.map fun p => p.1 • (-p.2.U)).sum))
    (if tau = 0 then 1 / 10 else tau)
  par := fun _ _ u _ _ tau => .ok (u / (1 + tau)) tau

theorem decay_euler : EulerSteps decay (fun u => -u) (fun _ _ _ => 1 / 10) := ⟨fun _ _ => rfl, fun _ _ _ _ _ _ _ => rfl⟩

/-- `C19_erk_33` applied: one step of size `3/10` of the third order method for `u' = -u`. -/
example (ctx : Ctx) (m : Mem ℝ Unit) : ∃ m' n, singleStep decay (program .erk_33) ctx 0 1 m 0 =
    .returned m' (3 * (1 / 10)) n ∧ RK.IsStep RK.erk33 (fun u => -u) (3 * (1 / 10)) (m old).U (m' old).U :=
  C19_erk_33.1 ℝ Unit _ _ decay _ _ decay_euler ctx 0 1 m 0 (by norm_num)

/-- A clock that is destroyed by being prepared at the wrong time. -/
def fragileClock : Modules (ℝ × ℝ) Unit where
  bc := fun t x => by classical exact if t = x.1 then x else 0
  pre := fun _ => ()
  hyp := fun _ _ src _ _ tau _ => .ok (src.U.1 + (if tau = 0 then 1 else tau), src.U.2) (if tau = 0 then 1 else tau)
  par := fun _ _ x t _ tau => by classical exact if t = x.2 then .ok (x.1, x.2 + tau) tau else .crash

theorem fragileClock_clocks : Clocks fragileClock (fun _ _ _ => 1) :=
  ⟨fun x => by simp [fragileClock], fun _ _ _ _ _ _ _ => rfl, fun _ _ _ _ _ => by simp [fragileClock]⟩

/-- `C19_stage_times` applied: the default Navier-Stokes scheme, started at time `5`. -/
example (ctx : Ctx) (m : Mem (ℝ × ℝ) Unit) (hm : (m old).U = (5, 5)) :
    ∃ m' h n, singleStep fragileClock (program .strang_erk_33_cn) ctx 5 1 m 0 = .returned m' h n ∧
      (m' old).U = (5 + h, 5 + h) :=
  C19_stage_times .strang_erk_33_cn ⟨by decide, by decide⟩ fragileClock _ fragileClock_clocks ctx 5 1 m 0 hm
    one_ne_zero

/-! ### C20: no overshoot -/

theorem singleStep_tau {Mo : Modules X P} (sch : Scheme) (Ok : ℝ → Prop) {ctx : Ctx} {t tau_max : ℝ} {m m' : Mem X P}
    {calls n : ℕ} {h : ℝ}
    (hok : ∀ n src dst u τ, Mo.hyp ctx n src [] dst 0 (some (tau_max / efficiency sch)) = .ok u τ → Ok τ)
    (hs : singleStep Mo (program sch) ctx t tau_max m calls = .returned m' h n) :
    ∃ τ, Ok τ ∧ h = efficiency sch * τ := by
  obtain ⟨d, rest, hcode, hk, -, -, hfac⟩ := program_shape sch
  simp only [singleStep, hcode, run, exec, hfac] at hs
  have := hok calls
  generalize hr : Mo.hyp _ _ _ _ _ _ _ = r at hs
  cases r with
  | ok u τ =>
    simp only [finish, if_true] at hs
    cases hrun : run Mo ctx t tau_max rest
      ⟨setU (fun v' => if v' = old then ⟨Mo.bc (t + 0 * 0) (m old).U, Mo.pre (Mo.bc (t + 0 * 0) (m old).U)⟩
          else m v') (temp d) u, τ, calls + 1⟩ with
    | done s =>
      rw [hrun] at hs
      simp only [Result.returned.injEq] at hs
      refine ⟨τ, this _ _ _ _ hr, ?_⟩
      rw [← hs.2.1, run_tau hk hrun]
    | restart s => rw [hrun] at hs; simp at hs
    | crash => rw [hrun] at hs; simp at hs
  | restart => simp [finish] at hs
  | crash => simp [finish] at hs

/-- If the hyperbolic module respects the bound `tau_max` it is given, no scheme, with or without CFL recovery,
steps beyond the final time. -/
theorem C20_no_overshoot (Mo : Modules X P)
    (hcap : ∀ ctx n src dst c u τ, Mo.hyp ctx n src [] dst 0 (some c) = .ok u τ → τ ≤ c)
    (sch : Scheme) (rec : Recovery) (cflMin cflMax : ℝ) (ctx : Ctx) (t tFinal : ℝ) (m : Mem X P) (calls : ℕ)
    {m' : Mem X P} {tau : ℝ} {n : ℕ} {ctx' : Ctx}
    (hs : step Mo (program sch) rec cflMin cflMax ctx t tFinal m calls = (.returned m' tau n, ctx')) :
    t + tau ≤ tFinal := by
  have hpos : 0 < efficiency sch := by cases sch <;> norm_num [efficiency]
  have key : ∀ {c : Ctx} {m0 : Mem X P} {k : ℕ}, singleStep Mo (program sch) c t (tFinal - t) m0 k =
      .returned m' tau n → t + tau ≤ tFinal := by
    intro c m0 k h
    obtain ⟨τ, h1, h2⟩ := singleStep_tau sch (fun τ => τ ≤ (tFinal - t) / efficiency sch)
      (fun n src dst u τ => hcap c n src dst _ u τ) h
    have := (le_div_iff₀ hpos).1 h1
    rw [h2]; linarith
  unfold step at hs
  cases rec with
  | none =>
    simp only at hs
    cases hr : singleStep Mo (program sch) ctx t (tFinal - t) m calls with
    | returned a b c =>
      rw [hr] at hs; simp only [Prod.mk.injEq, Result.returned.injEq] at hs
      obtain ⟨⟨rfl, rfl, rfl⟩, -⟩ := hs
      exact key hr
    | restart => rw [hr] at hs; simp at hs
    | crash => rw [hr] at hs; simp at hs
  | bang_bang_control =>
    simp only at hs
    cases hr : singleStep Mo (program sch) ⟨cflMax, .raise_exception, .raise_exception⟩ t (tFinal - t) m calls with
    | returned a b c =>
      rw [hr] at hs; simp only [Prod.mk.injEq, Result.returned.injEq] at hs
      obtain ⟨⟨rfl, rfl, rfl⟩, -⟩ := hs
      exact key hr
    | restart m1 k =>
      rw [hr] at hs; simp only [Prod.mk.injEq] at hs
      exact key hs.1
    | crash => rw [hr] at hs; simp at hs

/-- Progress: if the hyperbolic module only returns positive time step sizes, every scheme returns a positive time
step size. -/
theorem C20_progress (Mo : Modules X P)
    (hpos : ∀ ctx n src dst c u τ, Mo.hyp ctx n src [] dst 0 (some c) = .ok u τ → 0 < τ)
    (sch : Scheme) (ctx : Ctx) (t tau_max : ℝ) (m : Mem X P) (calls : ℕ)
    {m' : Mem X P} {tau : ℝ} {n : ℕ} (hs : singleStep Mo (program sch) ctx t tau_max m calls = .returned m' tau n) :
    0 < tau := by
  have hp : 0 < efficiency sch := by cases sch <;> norm_num [efficiency]
  obtain ⟨τ, h1, h2⟩ := singleStep_tau sch (fun τ => 0 < τ) (fun n src dst u τ => hpos ctx n src dst _ u τ) hs
  rw [h2]; positivity

section hyperbolic

variable {ι Q S F B : Type} {dim : ℕ} [Fintype ι] [AddCommGroup S] [Module ℝ S]

/-- The hypothesis of `C20_no_overshoot` holds for the model of `HyperbolicModule::step`: for every mesh, equation
and state vector no explicit scheme steps beyond the final time. -/
theorem C20_hyperbolic_no_overshoot (D : Hyp.Description ι Q S F B dim) (M : Hyp.Mesh ι dim) (par : Hyp.Params)
    (big : ℝ) (bc : ℝ → (ι → S) → ι → S) (pre : (ι → S) → Q) (lo : ℕ → Hyp.Leftover ι S) (garbage : ℕ → ι → S)
    (parabolic : Ctx → ℕ → (ι → S) → ℝ → (ι → S) → ℝ → Res (ι → S))
    (sch : Scheme) (rec : Recovery) (cflMin cflMax : ℝ) (ctx : Ctx) (t tFinal : ℝ) (m : Mem (ι → S) Q) (calls : ℕ)
    {m' : Mem (ι → S) Q} {tau : ℝ} {n : ℕ} {ctx' : Ctx}
    (hs : step (hyperbolicModules D M par big bc pre lo garbage parabolic) (program sch) rec cflMin cflMax ctx t
      tFinal m calls = (.returned m' tau n, ctx')) :
    t + tau ≤ tFinal := by
  classical
  refine C20_no_overshoot _ ?_ sch rec cflMin cflMax ctx t tFinal m calls hs
  intro ctx n src dst c u τ h
  simp only [hyperbolicModules, Option.getD_some] at h
  split at h
  · simp at h
  · simp at h
  · rename_i U τ' hst
    simp only [Res.ok.injEq] at h
    obtain ⟨-, rfl⟩ := h
    unfold Hyp.step at hst
    have key : τ' = Hyp.tauMax D M { par with cfl := ctx.cfl } (lo n).dij ⟨src.U, src.prec⟩ c := by
      simp only [if_true] at hst
      split_ifs at hst <;> (try (cases hcs : ctx.hyp <;> rw [hcs] at hst)) <;> simp_all
    rw [key]
    exact ((Finset.le_fold_min _).1 (le_refl _)).1



/-- Positive parameters and masses make every explicit time step positive (progress towards the final time). -/
theorem C20_hyperbolic_progress (D : Hyp.Description ι Q S F B dim) (M : Hyp.Mesh ι dim) (par : Hyp.Params)
    (big : ℝ) (bc : ℝ → (ι → S) → ι → S) (pre : (ι → S) → Q) (lo : ℕ → Hyp.Leftover ι S) (garbage : ℕ → ι → S)
    (parabolic : Ctx → ℕ → (ι → S) → ℝ → (ι → S) → ℝ → Res (ι → S))
    (sch : Scheme) (ctx : Ctx) (t tau_max : ℝ) (m : Mem (ι → S) Q) (calls : ℕ)
    {m' : Mem (ι → S) Q} {tau : ℝ} {n : ℕ}
    (hs : singleStep (hyperbolicModules D M par big bc pre lo garbage parabolic) (program sch) ctx t tau_max m
      calls = .returned m' tau n) : 0 < tau := by
  classical
  refine C20_progress _ ?_ sch ctx t tau_max m calls hs
  intro ctx n src dst c u τ h
  simp only [hyperbolicModules, Option.getD_some] at h
  split at h
  · simp at h
  · simp at h
  · rename_i U τ' hst
    simp only [Res.ok.injEq] at h
    obtain ⟨-, rfl⟩ := h
    unfold Hyp.step at hst
    simp only [if_true] at hst
    by_cases hp : 0 < Hyp.tauMax D M { par with cfl := ctx.cfl } (lo n).dij ⟨src.U, src.prec⟩ c
    · have key : τ' = Hyp.tauMax D M { par with cfl := ctx.cfl } (lo n).dij ⟨src.U, src.prec⟩ c := by
        split_ifs at hst <;> (try (cases hcs : ctx.hyp <;> rw [hcs] at hst)) <;> simp_all
      rw [key]; exact hp
    · simp [hp] at hst

end hyperbolic

/-- Burgers' equation on the periodic three node ring as modules of the integrator. -/
def demoModules : Modules (Fin 3 → Scalar.State) Unit :=
  hyperbolicModules Hyp.demo Hyp.ring Hyp.demoPar 1000 (fun _ u => u) (fun _ => ()) (fun _ => Hyp.demoLo)
    (fun _ _ => 0) (fun _ _ _ _ _ _ => .crash)

/-- In warning mode every call of the hyperbolic module returns: `C20_no_overshoot` is not vacuous. -/
theorem demo_hyp_ok (ctx : Ctx) (hc : ctx.hyp = .warn) (hcfl : 0 < ctx.cfl) (n : ℕ)
    (src : SV (Fin 3 → Scalar.State) Unit) (st dst) (tau : ℝ) (cap : Option ℝ) (hcap : 0 < cap.getD 1000) :
    ∃ u τ, demoModules.hyp ctx n src st dst tau cap = .ok u τ := by
  have h := Hyp.C18_warn_returns Hyp.demo Hyp.ring { Hyp.demoPar with cfl := ctx.cfl } ⟨0, 0⟩
    { Hyp.demoLo with newU := dst } ⟨src.U, src.prec⟩ (st.map fun p => (p.1, ⟨p.2.U, p.2.prec⟩)) tau
    (cap.getD 1000) (Hyp.C11_step_tau Hyp.demo Hyp.ring { Hyp.demoPar with cfl := ctx.cfl } .warn ⟨0, 0⟩
      { Hyp.demoLo with newU := dst } ⟨src.U, src.prec⟩ (st.map fun p => (p.1, ⟨p.2.U, p.2.prec⟩)) tau
    (cap.getD 1000) (by norm_num [Hyp.demoPar]) hcfl Hyp.ring_closed.lumped hcap).1
  obtain ⟨U, t, h⟩ := h
  refine ⟨U, t, ?_⟩
  simp only [demoModules, hyperbolicModules, hc, h]

/-- A step of Heun's method for Burgers' equation returns, and does not overshoot. -/
example (m : Mem (Fin 3 → Scalar.State) Unit) :
    ∃ m' tau n, step demoModules (program .ssprk_22) .none 1 1 ⟨1, .warn, .warn⟩ 0 (1 / 100) m 0 =
      (.returned m' tau n, ⟨1, .warn, .warn⟩) ∧ 0 + tau ≤ 1 / 100 := by
  have key : ∃ m' tau n, step demoModules (program .ssprk_22) .none 1 1 ⟨1, .warn, .warn⟩ 0 (1 / 100) m 0 =
      (.returned m' tau n, ⟨1, .warn, .warn⟩) := by
    simp only [step, singleStep, program, ssprk22, run, exec]
    have h1 := demo_hyp_ok ⟨1, .warn, .warn⟩ rfl (by norm_num) 0
      ⟨demoModules.bc (0 + 0 * 0) (m old).U, demoModules.pre (demoModules.bc (0 + 0 * 0) (m old).U)⟩ []
      (m (temp 0)).U 0 (some ((1 / 100 - 0) / 1)) (by norm_num)
    obtain ⟨u, τ, h1⟩ := h1
    simp only [if_true, reduceCtorEq, if_false, h1, finish, setU]
    have h2 := demo_hyp_ok ⟨1, .warn, .warn⟩ rfl (by norm_num) (0 + 1)
      ⟨demoModules.bc (0 + 1 * τ) u, demoModules.pre (demoModules.bc (0 + 1 * τ) u)⟩ []
      (m (temp 1)).U τ none (by norm_num)
    obtain ⟨u', τ', h2⟩ := h2
    simp only [stageArgs, List.map_nil, temp.injEq, one_ne_zero, if_false, h2]
    exact ⟨_, _, _, rfl⟩
  obtain ⟨m', tau, n, h⟩ := key
  exact ⟨m', tau, n, h, C20_hyperbolic_no_overshoot _ _ _ _ _ _ _ _ _ _ _ _ _ _ _ _ _ _ h⟩

/-! ### C21: CFL recovery -/

/-- The result of a time step, up to a relation `E` between vectors. -/
def ResultRel (E : X → X → Prop) : Result X P → Result X P → Prop
  | .returned m tau n, .returned m' tau' n' => E (m old).U (m' old).U ∧ tau = tau' ∧ n = n'
  | .restart _ _, .restart _ _ => True
  | .crash, .crash => True
  | _, _ => False

/-- Two runs that start from vectors whose states agree once the boundary conditions are applied. -/
theorem singleStep_agree {E : X → X → Prop} {Mo : Modules X P} (hE : Respects E Mo) (sch : Scheme) (ctx : Ctx)
    (t tau_max : ℝ) (m m' : Mem X P) (calls : ℕ) (h : E (Mo.bc t (m old).U) (Mo.bc t (m' old).U)) :
    ResultRel E (singleStep Mo (program sch) ctx t tau_max m calls)
      (singleStep Mo (program sch) ctx t tau_max m' calls) := by
  obtain ⟨d, rest, hcode, -, -, -, -⟩ := program_shape sch
  have hv := program_valid sch
  have hres := program_result_written sch
  unfold singleStep
  rw [hcode] at hv hres ⊢
  simp only [Valid] at hv
  have hv' : Valid [old] [old] (first old (temp d) (program sch).factor :: rest) := by
    simp only [Valid]; exact hv.2
  have hstart : Agree E [old] [old]
      (⟨fun v' => if v' = old then ⟨Mo.bc (t + 0 * 0) (m old).U, Mo.pre (Mo.bc (t + 0 * 0) (m old).U)⟩ else m v',
        0, calls⟩ : Conf X P)
      ⟨fun v' => if v' = old then ⟨Mo.bc (t + 0 * 0) (m' old).U, Mo.pre (Mo.bc (t + 0 * 0) (m' old).U)⟩ else m' v',
        0, calls⟩ := by
    refine ⟨?_, ?_, rfl, rfl⟩
    · simpa using h
    · simpa using hE.pre _ _ h
  have ha := run_agree hE ctx t tau_max hv' hstart
  rw [run, run]
  simp only [exec]
  have hw : temp (program sch).result ∈ written (first old (temp d) (program sch).factor :: rest) := by
    simpa [written, Instr.dst] using hres
  revert ha
  generalize run Mo ctx t tau_max (first old (temp d) (program sch).factor :: rest) _ = o
  generalize run Mo ctx t tau_max (first old (temp d) (program sch).factor :: rest) _ = o'
  intro ha
  cases o <;> cases o' <;> simp only [OutRel] at ha <;> simp only [ResultRel]
  exact ⟨ha.1 _ (List.mem_append_left _ hw), by rw [ha.2.1], ha.2.2⟩

/-- After a failed attempt the state vector is the initial state vector with the boundary conditions applied. -/
theorem singleStep_restart_old {Mo : Modules X P} (sch : Scheme) {ctx : Ctx} {t tau_max : ℝ} {m m1 : Mem X P}
    {calls n : ℕ} (h : singleStep Mo (program sch) ctx t tau_max m calls = .restart m1 n) :
    (m1 old).U = Mo.bc t (m old).U := by
  obtain ⟨d, rest, hcode, -, hdst, -, -⟩ := program_shape sch
  unfold singleStep at h
  rw [hcode, run] at h
  simp only [exec] at h
  generalize hr : run Mo ctx t tau_max (first old (temp d) (program sch).factor :: rest) _ = o at h
  cases o with
  | done => simp at h
  | crash => simp at h
  | restart s =>
    simp only [Result.restart.injEq] at h
    rw [← h.1, run_other (v := old) (by
      intro i hi
      rcases List.mem_cons.1 hi with rfl | hi
      · simp [Instr.dst]
      · exact hdst i hi) (Or.inr hr)]
    simp

/-- A failed first attempt leads to exactly one further attempt, with the smaller CFL number and in warning mode,
and nothing of the failed attempt is visible in its result: it is the result of that attempt on the original
vectors, up to the boundary conditions, which are applied twice. -/
theorem C21_recovery_clean {E : X → X → Prop} (Mo : Modules X P) (hE : Respects E Mo) (sch : Scheme)
    (cflMin cflMax : ℝ) (ctx : Ctx) (t tFinal : ℝ) (m : Mem X P) (calls : ℕ)
    (hbc : E (Mo.bc t (Mo.bc t (m old).U)) (Mo.bc t (m old).U)) {m1 : Mem X P} {n : ℕ}
    (hfail : singleStep Mo (program sch) ⟨cflMax, .raise_exception, .raise_exception⟩ t (tFinal - t) m calls =
      .restart m1 n) :
    ∃ r, step Mo (program sch) .bang_bang_control cflMin cflMax ctx t tFinal m calls = (r, ⟨cflMin, .warn, .warn⟩) ∧
      ResultRel E r (singleStep Mo (program sch) ⟨cflMin, .warn, .warn⟩ t (tFinal - t) m n) := by
  refine ⟨singleStep Mo (program sch) ⟨cflMin, .warn, .warn⟩ t (tFinal - t) m1 n, ?_, ?_⟩
  · simp only [step, hfail]
  · apply singleStep_agree hE
    rw [singleStep_restart_old sch hfail]
    exact hbc

/-- Without a failure the step is one attempt with the larger CFL number. -/
theorem C21_no_recovery (Mo : Modules X P) (sch : Scheme) (cflMin cflMax : ℝ) (ctx : Ctx) (t tFinal : ℝ)
    (m : Mem X P) (calls : ℕ)
    (hok : ∀ m1 n, singleStep Mo (program sch) ⟨cflMax, .raise_exception, .raise_exception⟩ t (tFinal - t) m calls ≠
      .restart m1 n) :
    step Mo (program sch) .bang_bang_control cflMin cflMax ctx t tFinal m calls =
      (singleStep Mo (program sch) ⟨cflMax, .raise_exception, .raise_exception⟩ t (tFinal - t) m calls,
        ⟨cflMax, .raise_exception, .raise_exception⟩) := by
  unfold step
  simp only
  split <;> simp_all

theorem run_no_restart {Mo : Modules X P} {ctx : Ctx}
    (hhyp : ∀ n src st dst tau cap g, Mo.hyp ctx n src st dst tau cap ≠ .restart g)
    (hpar : ∀ n u t dst tau g, Mo.par ctx n u t dst tau ≠ .restart g) {t tau_max : ℝ} {code : List Instr}
    {s s' : Conf X P} : run Mo ctx t tau_max code s ≠ .restart s' := by
  have hf : ∀ (s : Conf X P) d b r s1, (∀ g, r ≠ Res.restart g) → finish s d b r ≠ .restart s1 := by
    intro s d b r s1 hr
    cases r with
    | restart g => exact absurd rfl (hr g)
    | ok => simp [finish]
    | crash => simp [finish]
  have he : ∀ (s s1 : Conf X P) i, exec Mo ctx t tau_max s i ≠ .restart s1 := by
    intro s s1 i
    cases i with
    | prepare => simp [exec]
    | first => exact hf _ _ _ _ _ (hhyp _ _ _ _ _ _)
    | hyp => exact hf _ _ _ _ _ (hhyp _ _ _ _ _ _)
    | par =>
      simp only [exec]
      split_ifs
      · simp
      · exact hf _ _ _ _ _ (hpar _ _ _ _ _)
    | sadd => simp [exec]
  induction code generalizing s with
  | nil => simp [run]
  | cons i is ih =>
    rw [run]
    cases h : exec Mo ctx t tau_max s i with
    | done s1 => exact ih
    | restart s1 => exact absurd h (he _ _ _)
    | crash => simp

/-- If the modules do not raise `Restart` in warning mode, no `Restart` ever leaves `step`, for every scheme, every
recovery strategy and every pattern of failures of the sub steps. -/
theorem C21_no_restart_escapes (Mo : Modules X P)
    (hhyp : ∀ ctx n src st dst tau cap g, ctx.hyp = .warn → Mo.hyp ctx n src st dst tau cap ≠ .restart g)
    (hpar : ∀ ctx n u t dst tau g, ctx.par = .warn → Mo.par ctx n u t dst tau ≠ .restart g)
    (sch : Scheme) (rec : Recovery) (cflMin cflMax : ℝ) (ctx : Ctx) (t tFinal : ℝ) (m m1 : Mem X P) (calls n : ℕ) :
    (step Mo (program sch) rec cflMin cflMax ctx t tFinal m calls).1 ≠ .restart m1 n := by
  have hw : ∀ (m m1 : Mem X P) (k n : ℕ),
      singleStep Mo (program sch) ⟨cflMin, .warn, .warn⟩ t (tFinal - t) m k ≠ .restart m1 n := by
    intro m m1 k n h
    unfold singleStep at h
    cases hr : run Mo ⟨cflMin, .warn, .warn⟩ t (tFinal - t) (program sch).code ⟨m, 0, k⟩ with
    | done => rw [hr] at h; simp at h
    | crash => rw [hr] at h; simp at h
    | restart s =>
      exact run_no_restart (fun n src st dst tau cap g => hhyp ⟨cflMin, .warn, .warn⟩ n src st dst tau cap g rfl)
        (fun n u t dst tau g => hpar ⟨cflMin, .warn, .warn⟩ n u t dst tau g rfl) hr
  unfold step
  cases rec with
  | none => simp only; split <;> simp
  | bang_bang_control =>
    simp only
    split
    · simp
    · simp
    · exact hw _ _ _ _

/-- With bang-bang control the settings left behind by earlier steps do not matter. -/
theorem C21_history_free (Mo : Modules X P) (sch : Scheme) (cflMin cflMax : ℝ) (ctx ctx' : Ctx) (t tFinal : ℝ)
    (m : Mem X P) (calls : ℕ) : step Mo (program sch) .bang_bang_control cflMin cflMax ctx t tFinal m calls =
      step Mo (program sch) .bang_bang_control cflMin cflMax ctx' t tFinal m calls := rfl

/-- Without recovery a failure of a sub step aborts the program. -/
theorem C21_none_aborts (Mo : Modules X P) (sch : Scheme) (cflMin cflMax : ℝ) (ctx : Ctx) (t tFinal : ℝ)
    (m : Mem X P) (calls : ℕ) {m1 : Mem X P} {n : ℕ}
    (hfail : singleStep Mo (program sch) ctx t (tFinal - t) m calls = .restart m1 n) :
    step Mo (program sch) .none cflMin cflMax ctx t tFinal m calls = (.crash, ctx) := by
  simp only [step, hfail]

section hyperbolic

variable {ι Q S F B : Type} {dim : ℕ} [Fintype ι] [AddCommGroup S] [Module ℝ S]

/-- Equality on the unconstrained degrees of freedom. -/
def EqActive (M : Hyp.Mesh ι dim) (u v : ι → S) : Prop := ∀ i, M.nbrs i ≠ [] → u i = v i

/-- The hyperbolic modules only see the unconstrained degrees of freedom. -/
theorem hyperbolicModules_respects (D : Hyp.Description ι Q S F B dim) (M : Hyp.Mesh ι dim) (hM : M.WellFormed)
    (par : Hyp.Params) (big : ℝ) (bc : ℝ → (ι → S) → ι → S) (pre : (ι → S) → Q) (lo : ℕ → Hyp.Leftover ι S)
    (garbage : ℕ → ι → S) (parabolic : Ctx → ℕ → (ι → S) → ℝ → (ι → S) → ℝ → Res (ι → S))
    (hbc : ∀ t u v, EqActive M u v → EqActive M (bc t u) (bc t v)) (hpre : ∀ u v, EqActive M u v → pre u = pre v)
    (hpar : ∀ ctx n u u' t dst dst' tau, EqActive M u u' →
      ResRel (EqActive M) (parabolic ctx n u t dst tau) (parabolic ctx n u' t dst' tau)) :
    Respects (EqActive M) (hyperbolicModules D M par big bc pre lo garbage parabolic) where
  bc := hbc
  pre := hpre
  hyp := by
    intro ctx n src src' st st' dst dst' tau cap hU hp hst
    have h := (Hyp.step_congr D hM { par with cfl := ctx.cfl } ctx.hyp ⟨0, 0⟩
      (lo := { lo n with newU := dst }) (lo' := { lo n with newU := dst' }) rfl
      (x := ⟨src.U, src.prec⟩) (y := ⟨src'.U, src'.prec⟩) ⟨hU, hp⟩
      (st := st.map fun p => (p.1, ⟨p.2.U, p.2.prec⟩)) (st' := st'.map fun p => (p.1, ⟨p.2.U, p.2.prec⟩)) (by
        induction hst with
        | nil => exact List.Forall₂.nil
        | cons hab _ ih => exact List.Forall₂.cons ⟨hab.1, hab.2.1, hab.2.2⟩ ih) tau (cap.getD big)).1
    revert h
    simp only [hyperbolicModules]
    generalize (Hyp.step D M _ ctx.hyp ⟨0, 0⟩ _ ⟨src.U, src.prec⟩ _ tau (cap.getD big)).1 = o
    generalize (Hyp.step D M _ ctx.hyp ⟨0, 0⟩ _ ⟨src'.U, src'.prec⟩ _ tau (cap.getD big)).1 = o'
    intro h
    cases o <;> cases o' <;> simp_all [Hyp.SameOutcome, ResRel]
    exact h.1
  par := hpar
  lin := by
    intro a b u u' v v' h1 h2 i hi
    simp only [Pi.add_apply, Pi.smul_apply, h1 i hi, h2 i hi]

/-- For the hyperbolic module the premise of `C21_no_restart_escapes` holds. -/
theorem C21_hyperbolic_no_restart_escapes (D : Hyp.Description ι Q S F B dim) (M : Hyp.Mesh ι dim)
    (par : Hyp.Params) (big : ℝ) (bc : ℝ → (ι → S) → ι → S) (pre : (ι → S) → Q) (lo : ℕ → Hyp.Leftover ι S)
    (garbage : ℕ → ι → S) (parabolic : Ctx → ℕ → (ι → S) → ℝ → (ι → S) → ℝ → Res (ι → S))
    (hpar : ∀ ctx n u t dst tau g, ctx.par = .warn → parabolic ctx n u t dst tau ≠ .restart g)
    (sch : Scheme) (rec : Recovery) (cflMin cflMax : ℝ) (ctx : Ctx) (t tFinal : ℝ) (m m1 : Mem (ι → S) Q)
    (calls n : ℕ) :
    (step (hyperbolicModules D M par big bc pre lo garbage parabolic) (program sch) rec cflMin cflMax ctx t tFinal m
      calls).1 ≠ .restart m1 n := by
  classical
  refine C21_no_restart_escapes _ ?_ hpar sch rec cflMin cflMax ctx t tFinal m m1 calls n
  intro ctx n src st dst tau cap g hw h
  simp only [hyperbolicModules] at h
  split at h
  · simp at h
  · rename_i hst
    rw [hw] at hst
    unfold Hyp.step at hst
    simp only at hst
    split_ifs at hst
  · simp at h

end hyperbolic

/-- Modules that fail in the first attempt: the sub step is the identity. -/
def failing (bc : ℝ → ℝ × ℝ → ℝ × ℝ) : Modules (ℝ × ℝ) Unit where
  bc := bc
  pre := fun _ => ()
  hyp := fun ctx _ src _ _ tau cap => match ctx.hyp with
    | .raise_exception => .restart (7, 7)
    | .warn => .ok src.U (if tau = 0 then cap.getD 0 else tau)
  par := fun _ _ _ _ _ _ => .crash

theorem failing_respects (bc : ℝ → ℝ × ℝ → ℝ × ℝ) : Respects Eq (failing bc) where
  bc := by rintro t u _ rfl; rfl
  pre := fun _ _ _ => rfl
  hyp := by
    rintro ctx n src src' st st' dst dst' tau cap h - -
    simp only [failing]
    cases ctx.hyp
    · exact ⟨h, rfl⟩
    · trivial
  par := fun _ _ _ _ _ _ _ _ _ => trivial
  lin := by rintro a b u _ v _ rfl rfl; rfl

/-- `C21_recovery_clean` applied: the premise that the first attempt fails is satisfiable. -/
example (m : Mem (ℝ × ℝ) Unit) : ∃ r, step (failing fun _ u => u) (program .erk_11) .bang_bang_control 1 2
      ⟨1, .warn, .warn⟩ 0 1 m 0 = (r, ⟨1, .warn, .warn⟩) ∧
    ResultRel Eq r (singleStep (failing fun _ u => u) (program .erk_11) ⟨1, .warn, .warn⟩ 0 (1 - 0) m 1) :=
  C21_recovery_clean _ (failing_respects _) .erk_11 1 2 _ 0 1 m 0 rfl rfl

/-- Slip conditions at a corner: remove the component in direction `(1, 0)`, then the component in direction
`(3/5, 4/5)`. -/
def cornerSlip (v : ℝ × ℝ) : ℝ × ℝ :=
  let w : ℝ × ℝ := (0, v.2)
  (w.1 - (w.1 * (3 / 5) + w.2 * (4 / 5)) * (3 / 5), w.2 - (w.1 * (3 / 5) + w.2 * (4 / 5)) * (4 / 5))

/-- The remaining dependence on the failed attempt is real: at a corner with two slip conditions the boundary
conditions are not idempotent, and the recovered step differs from the step that would have been performed with the
smaller CFL number in the first place. -/
theorem C21_boundary_applied_twice_violation : ∃ m m1 m2 : Mem (ℝ × ℝ) Unit, ∃ n n2 : ℕ,
    step (failing fun _ => cornerSlip) (program .erk_11) .bang_bang_control 1 2 ⟨1, .warn, .warn⟩ 0 1 m 0 =
      (.returned m1 1 n, ⟨1, .warn, .warn⟩) ∧
    singleStep (failing fun _ => cornerSlip) (program .erk_11) ⟨1, .warn, .warn⟩ 0 (1 - 0) m 1 =
      .returned m2 1 n2 ∧ (m1 old).U ≠ (m2 old).U := by
  have h1 : ∃ m1 n, step (failing fun _ => cornerSlip) (program .erk_11) .bang_bang_control 1 2 ⟨1, .warn, .warn⟩ 0 1
      (fun _ => ⟨(0, 1), ()⟩) 0 = (.returned m1 1 n, ⟨1, .warn, .warn⟩) ∧
      (m1 old).U = cornerSlip (cornerSlip (0, 1)) := by
    simp only [step, singleStep, program, erk11, run, exec, failing, finish, if_true, Option.getD_some, sub_zero,
      div_one, mul_one]
    exact ⟨_, _, rfl, rfl⟩
  have h2 : ∃ m2 n, singleStep (failing fun _ => cornerSlip) (program .erk_11) ⟨1, .warn, .warn⟩ 0 (1 - 0)
      (fun _ => ⟨(0, 1), ()⟩) 1 = .returned m2 1 n ∧ (m2 old).U = cornerSlip (0, 1) := by
    simp only [singleStep, program, erk11, run, exec, failing, finish, if_true, Option.getD_some, sub_zero, div_one,
      mul_one]
    exact ⟨_, _, rfl, rfl⟩
  obtain ⟨m1, n, e1, u1⟩ := h1
  obtain ⟨m2, n2, e2, u2⟩ := h2
  refine ⟨_, m1, m2, n, n2, e1, e2, ?_⟩
  rw [u1, u2]
  intro h
  have := congrArg Prod.fst h
  norm_num [cornerSlip] at this

/-! ### C22: scratch vectors -/

/-- Every statement touches only allocated scratch vectors, and no module call and no linear combination reads the
vector it writes from its argument list. -/
theorem C22_slots (sch : Scheme) : ∀ i ∈ (program sch).code,
    (∀ v ∈ i.dst :: i.inputs, v = old ∨ ∃ k < tempSize sch, v = temp k) ∧ i.dst ∉ i.inputs := by
  cases sch <;>
    simp [program, erk11, erk22, erk33, erk43, erk54, ssprk22, ssprk33, strangErk33, strangErk43, strangSsprk33,
        imex11, imex22, imex33, Instr.dst, Instr.inputs, tempSize]

/-- The result is swapped out of an allocated vector. -/
theorem C22_result (sch : Scheme) : (program sch).result < tempSize sch := by
  cases sch <;> simp [program, erk11, erk22, erk33, erk43, erk54, ssprk22, ssprk33, strangErk33, strangErk43,
    strangSsprk33, imex11, imex22, imex33, tempSize]

/-- Everything read has been written before in the same time step: the result does not depend on what the scratch
vectors and all precomputed values contained before the step (`E`: equality on unconstrained degrees of freedom). -/
theorem C22_no_stale_reads {E : X → X → Prop} (Mo : Modules X P) (hE : Respects E Mo) (sch : Scheme) (ctx : Ctx)
    (t tau_max : ℝ) (m m' : Mem X P) (calls : ℕ) (h : E (m old).U (m' old).U) :
    ResultRel E (singleStep Mo (program sch) ctx t tau_max m calls)
      (singleStep Mo (program sch) ctx t tau_max m' calls) :=
  singleStep_agree hE sch ctx t tau_max m m' calls (hE.bc t _ _ h)

/-- All vectors handed to the hyperbolic module have been prepared since they were last written: recomputing all
precomputed values at each call changes nothing. -/
theorem C22_prepared (Mo : Modules X P) (sch : Scheme) (ctx : Ctx) (t tau_max : ℝ) (m : Mem X P) (calls : ℕ) :
    singleStep (recomputing Mo) (program sch) ctx t tau_max m calls =
      singleStep Mo (program sch) ctx t tau_max m calls := by
  unfold singleStep
  rw [run_recomputing Mo ctx t tau_max (program_valid sch) (by simp)]

/-- `imex_22` and `imex_33` never complete a step: they pass stages to the parabolic module, which asserts that
there are none. -/
theorem C19_imex_aborts (sch : Scheme) (h : sch = .imex_22 ∨ sch = .imex_33) (Mo : Modules X P) (ctx : Ctx)
    (t tau_max : ℝ) (m m' : Mem X P) (calls n : ℕ) (tau : ℝ) :
    singleStep Mo (program sch) ctx t tau_max m calls ≠ .returned m' tau n := by
  have key : ∀ (code : List Instr) (s s' : Conf X P), run Mo ctx t tau_max code s = .done s' →
      ∀ a b c f st, par a c st b f ∈ code → st = [] := by
    intro code
    induction code with
    | nil => intro _ _ _ _ _ _ _ _ h; cases h
    | cons i is ih =>
      intro s s' hr a b c f st hi
      rw [run] at hr
      cases he : exec Mo ctx t tau_max s i with
      | done s1 =>
        rw [he] at hr
        rcases List.mem_cons.1 hi with rfl | hi
        · by_contra hst
          simp [exec, hst] at he
        · exact ih s1 s' hr a b c f st hi
      | restart s1 => rw [he] at hr; cases hr
      | crash => rw [he] at hr; cases hr
  intro hs
  unfold singleStep at hs
  cases hr : run Mo ctx t tau_max (program sch).code ⟨m, 0, calls⟩ with
  | restart => rw [hr] at hs; simp at hs
  | crash => rw [hr] at hs; simp at hs
  | done s =>
    rcases h with rfl | rfl
    · have := key _ _ _ hr (temp 2) (temp 3) 1 1 [(old, 1)] (by simp [program, imex22])
      simp at this
    · have := key _ _ _ hr (temp 0) (temp 1) 0 1 [(old, 1 - 3 * gamma33)] (by simp [program, imex33])
      simp at this

section hyperbolic

variable {ι Q S F B : Type} {dim : ℕ} [Fintype ι] [AddCommGroup S] [Module ℝ S]

/-- For the hyperbolic module: the new values of all unconstrained degrees of freedom do not depend on the scratch
vectors, on precomputed values of earlier steps or on constrained degrees of freedom. -/
theorem C22_hyperbolic_no_stale_reads (D : Hyp.Description ι Q S F B dim) (M : Hyp.Mesh ι dim) (hM : M.WellFormed)
    (par : Hyp.Params) (big : ℝ) (bc : ℝ → (ι → S) → ι → S) (pre : (ι → S) → Q) (lo : ℕ → Hyp.Leftover ι S)
    (garbage : ℕ → ι → S)
    (hbc : ∀ t u v, EqActive M u v → EqActive M (bc t u) (bc t v)) (hpre : ∀ u v, EqActive M u v → pre u = pre v)
    (sch : Scheme) (ctx : Ctx) (t tau_max : ℝ) (m m' : Mem (ι → S) Q) (calls : ℕ)
    (h : EqActive M (m old).U (m' old).U) :
    ResultRel (EqActive M)
      (singleStep (hyperbolicModules D M par big bc pre lo garbage fun _ _ _ _ _ _ => .crash) (program sch) ctx t
        tau_max m calls)
      (singleStep (hyperbolicModules D M par big bc pre lo garbage fun _ _ _ _ _ _ => .crash) (program sch) ctx t
        tau_max m' calls) :=
  C22_no_stale_reads _ (hyperbolicModules_respects D M hM par big bc pre lo garbage (fun _ _ _ _ _ _ => .crash) hbc hpre
    fun _ _ _ _ _ _ _ _ _ => trivial) sch ctx t tau_max m m' calls h

end hyperbolic

/-- `C22_hyperbolic_no_stale_reads` applied to Burgers' equation on the ring. -/
example (m m' : Mem (Fin 3 → Scalar.State) Unit) (h : (m old).U = (m' old).U) :
    ResultRel (EqActive Hyp.ring) (singleStep demoModules (program .erk_54) ⟨1, .warn, .warn⟩ 0 1 m 0)
      (singleStep demoModules (program .erk_54) ⟨1, .warn, .warn⟩ 0 1 m' 0) :=
  C22_hyperbolic_no_stale_reads Hyp.demo Hyp.ring Hyp.ring_wf Hyp.demoPar 1000 _ _ _ _
    (fun _ _ _ h => h) (fun _ _ _ => rfl) .erk_54 _ 0 1 m m' 0 (fun i _ => congrFun h i)

/-! ### C57: conserved quantities -/

/-- A linear functional conserved by boundary conditions and sub steps is conserved by every scheme. -/
theorem C57_schemes_conserve (Mo : Modules X P) (φ : X →ₗ[ℝ] ℝ) (ctx : Ctx)
    (hbc : ∀ t u, φ (Mo.bc t u) = φ u)
    (hhyp : ∀ n src st dst tau cap u τ, Mo.hyp ctx n src st dst tau cap = .ok u τ → φ u = φ src.U)
    (hpar : ∀ n v t dst tau u τ, Mo.par ctx n v t dst tau = .ok u τ → φ u = φ v)
    (sch : Scheme) (t tau_max : ℝ) (m m' : Mem X P) (calls n : ℕ) (tau : ℝ)
    (hs : singleStep Mo (program sch) ctx t tau_max m calls = .returned m' tau n) :
    φ (m' old).U = φ (m old).U := by
  unfold singleStep at hs
  cases hr : run Mo ctx t tau_max (program sch).code ⟨m, 0, calls⟩ with
  | restart => rw [hr] at hs; simp at hs
  | crash => rw [hr] at hs; simp at hs
  | done s =>
    rw [hr] at hs
    simp only [Result.returned.injEq] at hs
    rw [← hs.1]
    refine run_invariant (K := fun u => φ u = φ (m old).U) ctx t tau_max ?_ ?_ ?_ ?_ (program_valid sch)
      (by simp) hr _ (List.mem_append_left _ (program_result_written sch))
    · intro t u hu; rw [hbc, hu]
    · intro n src st dst tau cap u τ h1 _ h3; rw [hhyp _ _ _ _ _ _ _ _ h3, h1]
    · intro _ _ _ _ _ _ n v t dst tau u τ h1 h2; rw [hpar _ _ _ _ _ _ _ h2, h1]
    · intro d a b s' hi u v hu hv
      have hab : a + b = 1 := program_affine sch _ hi
      rw [map_add, map_smul, map_smul, hu, hv, smul_eq_mul, smul_eq_mul, ← add_mul, hab, one_mul]

section hyperbolic

variable {ι Q S F B : Type} {dim : ℕ} [Fintype ι] [AddCommGroup S] [Module ℝ S]

open Classical in
/-- On a mesh without boundary every explicit scheme conserves `Σ_i m_i φ(U_i)`. -/
theorem C57_hyperbolic_conserves (D : Hyp.Description ι Q S F B dim) (M : Hyp.Mesh ι dim) (hM : M.WellFormed)
    (hC : M.Closed) (φ : S →ₗ[ℝ] ℝ) (hD : D.Conserves φ) (par : Hyp.Params) (big : ℝ) (pre : (ι → S) → Q)
    (lo : ℕ → Hyp.Leftover ι S) (garbage : ℕ → ι → S)
    (hrev : ∀ p i j U V n, D.riemann p i j U V n = D.riemann p j i V U (-n))
    (sch : Scheme) (ctx : Ctx) (t tau_max : ℝ) (m m' : Mem (ι → S) Q) (calls n : ℕ) (tau : ℝ)
    (hs : singleStep (hyperbolicModules D M par big (fun _ u => u) pre lo garbage fun _ _ _ _ _ _ => .crash)
      (program sch) ctx t tau_max m calls = .returned m' tau n) :
    ∑ i ∈ Finset.univ.filter (fun i => M.nbrs i ≠ []), M.lumped i * φ ((m' old).U i)
      = ∑ i ∈ Finset.univ.filter (fun i => M.nbrs i ≠ []), M.lumped i * φ ((m old).U i) := by
  let Φ : (ι → S) →ₗ[ℝ] ℝ :=
    ∑ i ∈ Finset.univ.filter (fun i => M.nbrs i ≠ []), M.lumped i • (φ.comp (LinearMap.proj i))
  have hΦ : ∀ u, Φ u = ∑ i ∈ Finset.univ.filter (fun i => M.nbrs i ≠ []), M.lumped i * φ (u i) := by
    intro u
    simp only [Φ, LinearMap.sum_apply, LinearMap.smul_apply, LinearMap.comp_apply, LinearMap.proj_apply,
      smul_eq_mul]
  have := C57_schemes_conserve _ Φ ctx (fun _ _ => rfl) ?_ ?_ sch t tau_max m m' calls n tau hs
  · rw [← hΦ, ← hΦ]; exact this
  · intro n src st dst tau cap u τ h
    rw [hΦ, hΦ]
    simp only [hyperbolicModules] at h
    split at h
    · simp at h
    · simp at h
    · rename_i U τ' hst
      simp only [Res.ok.injEq] at h
      obtain ⟨rfl, rfl⟩ := h
      exact Hyp.C13_step_conserves D M hM hC φ hD _ _ _ _ _ _ _ _ (fun i j _ _ => hrev _ i j _ _ _) _ _ hst
  · intro n v t dst tau u τ h
    simp [hyperbolicModules] at h

end hyperbolic

/-! ### C58: invariant sets -/

/-- The explicit schemes stay in every convex set that is invariant under boundary conditions and sub steps. -/
theorem C58_schemes_invariant (Mo : Modules X P) (K : Set X) (hK : Convex ℝ K) (ctx : Ctx)
    (hbc : ∀ t, ∀ u ∈ K, Mo.bc t u ∈ K)
    (hhyp : ∀ n (src : SV X P) st dst tau cap u τ, src.U ∈ K → (∀ p ∈ st, p.2.U ∈ K) →
      Mo.hyp ctx n src st dst tau cap = .ok u τ → u ∈ K)
    (sch : Scheme) (hsch : schemeAccepted true sch) (t tau_max : ℝ) (m m' : Mem X P) (calls n : ℕ) (tau : ℝ)
    (hm : (m old).U ∈ K) (hs : singleStep Mo (program sch) ctx t tau_max m calls = .returned m' tau n) :
    (m' old).U ∈ K := by
  unfold singleStep at hs
  cases hr : run Mo ctx t tau_max (program sch).code ⟨m, 0, calls⟩ with
  | restart => rw [hr] at hs; simp at hs
  | crash => rw [hr] at hs; simp at hs
  | done s =>
    rw [hr] at hs
    simp only [Result.returned.injEq] at hs
    rw [← hs.1]
    refine run_invariant (K := fun u => u ∈ K) ctx t tau_max hbc hhyp ?_ ?_ (program_valid sch)
      (by simpa using hm) hr _ (List.mem_append_left _ (program_result_written sch))
    · intro s c st d f hi
      exact (program_convex sch hsch _ hi).elim
    · intro d a b s' hi u v hu hv
      obtain ⟨h1, h2, h3⟩ := program_convex sch hsch _ hi
      exact hK hu hv h1 h2 h3

/-- Sub steps that average with a constant: `[0, 1]` is invariant. -/
def averaging : Modules ℝ Unit where
  bc := fun _ u => u
  pre := fun _ => ()
  hyp := fun _ _ src _ _ tau _ => .ok ((src.U + 1) / 2) (if tau = 0 then 1 else tau)
  par := fun _ _ v _ _ tau => .ok (v / (1 + 3 * tau)) tau

/-- `C58_schemes_invariant` applied. -/
example (m m' : Mem ℝ Unit) (n : ℕ) (tau : ℝ) (hm : (m old).U ∈ Set.Icc (0 : ℝ) 1)
    (hs : singleStep averaging (program .ssprk_33) ⟨1, .warn, .warn⟩ 0 1 m 0 = .returned m' tau n) :
    (m' old).U ∈ Set.Icc (0 : ℝ) 1 := by
  refine C58_schemes_invariant averaging (Set.Icc 0 1) (convex_Icc 0 1) ⟨1, .warn, .warn⟩ (fun _ u h => h) ?_
    .ssprk_33 rfl 0 1 m m' 0 n tau hm hs
  intro n src st dst tau cap u τ h1 _ h3
  simp only [averaging, Res.ok.injEq] at h3
  rw [← h3.1, Set.mem_Icc]
  rw [Set.mem_Icc] at h1
  constructor <;> linarith [h1.1, h1.2]

/-- The Strang schemes do not have this property: the Crank-Nicolson extrapolation leaves convex sets that are
invariant under both sub steps.  Here the sub steps are the identity and backward Euler steps of
`u' = -3 u`, both keep `u ≥ 0`, and the splitting scheme makes `u` negative. -/
theorem C58_strang_violation : ∃ Mo : Modules ℝ Unit,
    (∀ ctx n (src : SV ℝ Unit) st dst tau cap u τ, 0 ≤ src.U → Mo.hyp ctx n src st dst tau cap = .ok u τ →
      0 ≤ u ∧ 0 < τ) ∧
    (∀ ctx n v t dst tau u τ, 0 < tau → 0 ≤ v → Mo.par ctx n v t dst tau = .ok u τ → 0 ≤ u) ∧
    ∃ m m' : Mem ℝ Unit, ∃ tau n, 0 ≤ (m old).U ∧
      singleStep Mo (program .strang_erk_33_cn) ⟨1, .warn, .warn⟩ 0 6 m 0 = .returned m' tau n ∧ (m' old).U < 0 := by
  refine ⟨⟨fun _ u => u, fun _ => (), fun _ _ src _ _ tau _ => .ok src.U (if 0 < tau then tau else 1),
    fun _ _ v _ _ tau => .ok (v / (1 + 3 * tau)) tau⟩, ?_, ?_, fun _ => ⟨1, ()⟩, ?_⟩
  · intro ctx n src st dst tau cap u τ h1 h2
    simp only [Res.ok.injEq] at h2
    obtain ⟨rfl, rfl⟩ := h2
    refine ⟨h1, ?_⟩
    split_ifs with h
    · exact h
    · exact one_pos
  · intro ctx n v t dst tau u τ ht h1 h2
    simp only [Res.ok.injEq] at h2
    rw [← h2.1]; positivity
  · simp only [singleStep, program, strangErk33, run, exec, finish, lt_irrefl, if_false, if_true, ne_eq,
      not_true_eq_false]
    refine ⟨_, _, _, zero_le_one, rfl, ?_⟩
    simp [swapOld, setU]
    norm_num

end

end Integrator
end Ryujin
