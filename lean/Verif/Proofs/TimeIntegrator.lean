import Mathlib.Tactic.Module
import Mathlib.Tactic.LinearCombination
import Mathlib.Tactic.NormNum.Abs
import Mathlib.Tactic.NormNum
import Mathlib.Tactic.Linarith
import Mathlib.Tactic.FieldSimp
import Mathlib.Tactic.FinCases
import Verif.Model.TimeIntegrator
import Verif.Spec.RungeKutta

/-!
# Lemmas about the time integrator model
-/

namespace Ryujin

namespace RK
variable {X : Type} [AddCommGroup X] [Module ℝ X]

theorem isStep_one {T : Tableau 1} {F : X → X} {h : ℝ} {u u' : X} (Y0 : X)
    (h0 : Y0 = u + h • (T.A 0 0 • F Y0)) (hu : u' = u + h • (T.b 0 • F Y0)) : IsStep T F h u u' :=
  ⟨![Y0], by simpa [Fin.forall_fin_one] using h0, by simpa using hu⟩


theorem isStep_two {T : Tableau 2} {F : X → X} {h : ℝ} {u u' : X} (Y0 Y1 : X)
    (h0 : Y0 = u + h • (T.A 0 0 • F Y0 + T.A 0 1 • F Y1))
    (h1 : Y1 = u + h • (T.A 1 0 • F Y0 + T.A 1 1 • F Y1))
    (hu : u' = u + h • (T.b 0 • F Y0 + T.b 1 • F Y1)) : IsStep T F h u u' := by
  refine ⟨![Y0, Y1], fun i => ?_, ?_⟩
  · rw [Fin.sum_univ_two]
    match i with
    | 0 => exact h0
    | 1 => exact h1
  · rw [Fin.sum_univ_two]; exact hu


theorem isStep_three {T : Tableau 3} {F : X → X} {h : ℝ} {u u' : X} (Y0 Y1 Y2 : X)
    (h0 : Y0 = u + h • (T.A 0 0 • F Y0 + T.A 0 1 • F Y1 + T.A 0 2 • F Y2))
    (h1 : Y1 = u + h • (T.A 1 0 • F Y0 + T.A 1 1 • F Y1 + T.A 1 2 • F Y2))
    (h2 : Y2 = u + h • (T.A 2 0 • F Y0 + T.A 2 1 • F Y1 + T.A 2 2 • F Y2))
    (hu : u' = u + h • (T.b 0 • F Y0 + T.b 1 • F Y1 + T.b 2 • F Y2)) : IsStep T F h u u' := by
  refine ⟨![Y0, Y1, Y2], fun i => ?_, ?_⟩
  · rw [Fin.sum_univ_three]
    match i with
    | 0 => exact h0
    | 1 => exact h1
    | 2 => exact h2
  · rw [Fin.sum_univ_three]; exact hu

theorem isStep_four {T : Tableau 4} {F : X → X} {h : ℝ} {u u' : X} (Y0 Y1 Y2 Y3 : X)
    (h0 : Y0 = u + h • (T.A 0 0 • F Y0 + T.A 0 1 • F Y1 + T.A 0 2 • F Y2 + T.A 0 3 • F Y3))
    (h1 : Y1 = u + h • (T.A 1 0 • F Y0 + T.A 1 1 • F Y1 + T.A 1 2 • F Y2 + T.A 1 3 • F Y3))
    (h2 : Y2 = u + h • (T.A 2 0 • F Y0 + T.A 2 1 • F Y1 + T.A 2 2 • F Y2 + T.A 2 3 • F Y3))
    (h3 : Y3 = u + h • (T.A 3 0 • F Y0 + T.A 3 1 • F Y1 + T.A 3 2 • F Y2 + T.A 3 3 • F Y3))
    (hu : u' = u + h • (T.b 0 • F Y0 + T.b 1 • F Y1 + T.b 2 • F Y2 + T.b 3 • F Y3)) : IsStep T F h u u' := by
  refine ⟨![Y0, Y1, Y2, Y3], fun i => ?_, ?_⟩
  · rw [Fin.sum_univ_four]
    match i with
    | 0 => exact h0
    | 1 => exact h1
    | 2 => exact h2
    | 3 => exact h3
  · rw [Fin.sum_univ_four]; exact hu

theorem isStep_five {T : Tableau 5} {F : X → X} {h : ℝ} {u u' : X} (Y0 Y1 Y2 Y3 Y4 : X)
    (h0 : Y0 = u + h • (T.A 0 0 • F Y0 + T.A 0 1 • F Y1 + T.A 0 2 • F Y2 + T.A 0 3 • F Y3 + T.A 0 4 • F Y4))
    (h1 : Y1 = u + h • (T.A 1 0 • F Y0 + T.A 1 1 • F Y1 + T.A 1 2 • F Y2 + T.A 1 3 • F Y3 + T.A 1 4 • F Y4))
    (h2 : Y2 = u + h • (T.A 2 0 • F Y0 + T.A 2 1 • F Y1 + T.A 2 2 • F Y2 + T.A 2 3 • F Y3 + T.A 2 4 • F Y4))
    (h3 : Y3 = u + h • (T.A 3 0 • F Y0 + T.A 3 1 • F Y1 + T.A 3 2 • F Y2 + T.A 3 3 • F Y3 + T.A 3 4 • F Y4))
    (h4 : Y4 = u + h • (T.A 4 0 • F Y0 + T.A 4 1 • F Y1 + T.A 4 2 • F Y2 + T.A 4 3 • F Y3 + T.A 4 4 • F Y4))
    (hu : u' = u + h • (T.b 0 • F Y0 + T.b 1 • F Y1 + T.b 2 • F Y2 + T.b 3 • F Y3 + T.b 4 • F Y4)) :
    IsStep T F h u u' := by
  refine ⟨![Y0, Y1, Y2, Y3, Y4], fun i => ?_, ?_⟩
  · rw [Fin.sum_univ_five]
    match i with
    | 0 => exact h0
    | 1 => exact h1
    | 2 => exact h2
    | 3 => exact h3
    | 4 => exact h4
  · rw [Fin.sum_univ_five]; exact hu

set_option linter.unusedSimpArgs false

theorem order_ssprk22 : ssprk22.Order 2 := by
  simp only [Tableau.Order, Tableau.OrderUpTo, Tableau.r1, Tableau.r2, Tableau.r3a, Tableau.r3b, Tableau.c, ssprk22,
    Fin.sum_univ_two, Matrix.cons_val]
  norm_num

theorem order_ssprk33 : ssprk33.Order 3 := by
  simp only [Tableau.Order, Tableau.OrderUpTo, Tableau.r1, Tableau.r2, Tableau.r3a, Tableau.r3b, Tableau.c, ssprk33,
    Fin.sum_univ_three, Matrix.cons_val]
  norm_num

theorem order_erk11 : erk11.Order 1 := by
  simp only [Tableau.Order, Tableau.OrderUpTo, Tableau.r1, Tableau.r2, Tableau.r3a, Tableau.r3b, Tableau.c, erk11,
    Finset.univ_unique, Finset.sum_singleton, Fin.default_eq_zero, Matrix.cons_val]
  norm_num

theorem order_erk22 : erk22.Order 2 := by
  simp only [Tableau.Order, Tableau.OrderUpTo, Tableau.r1, Tableau.r2, Tableau.r3a, Tableau.r3b, Tableau.c, erk22,
    Fin.sum_univ_two, Matrix.cons_val]
  norm_num

theorem order_erk33 : erk33.Order 3 := by
  simp only [Tableau.Order, Tableau.OrderUpTo, Tableau.r1, Tableau.r2, Tableau.r3a, Tableau.r3b, Tableau.c, erk33,
    Fin.sum_univ_three, Matrix.cons_val]
  norm_num

theorem order_erk43 : erk43.Order 3 := by
  simp only [Tableau.Order, Tableau.OrderUpTo, Tableau.r1, Tableau.r2, Tableau.r3a, Tableau.r3b, Tableau.c, erk43,
    Fin.sum_univ_four, Matrix.cons_val]
  norm_num

theorem order_erk54 : erk54eq.OrderUpTo 4 1e-15 := by
  simp only [Tableau.OrderUpTo, Tableau.r1, Tableau.r2, Tableau.r3a, Tableau.r3b, Tableau.c, erk54eq,
    Tableau.r4a, Tableau.r4b, Tableau.r4c, Tableau.r4d, Fin.sum_univ_five, Matrix.cons_val, abs_le]
  norm_num

end RK

namespace Integrator

noncomputable section

set_option linter.unusedSimpArgs false

open Slot Instr

variable {X P : Type} [AddCommGroup X] [Module ℝ X]

/-- The modules perform forward Euler steps of the semi-discretisation `F` without modification by boundary
conditions or limiter: the unlimited scheme (see `C17`).  `dt` is the time step size chosen by the hyperbolic
module when asked to choose one; the parabolic module is arbitrary. -/
structure EulerSteps (Mo : Modules X P) (F : X → X) (dt : Ctx → SV X P → Option ℝ → ℝ) : Prop where
  bc : ∀ t u, Mo.bc t u = u
  hyp : ∀ ctx n (src : SV X P) (st : List (ℝ × SV X P)) dst tau cap,
    Mo.hyp ctx n src st dst tau cap =
      .ok (src.U + (if tau = 0 then dt ctx src cap else tau) •
          ((1 - (st.map fun p => p.1).sum) • F src.U + (st.map fun p => p.1 • F p.2.U).sum))
        (if tau = 0 then dt ctx src cap else tau)

/-- The vector on which a scheme starts: the prepared `state_vector`. -/
def prepared (Mo : Modules X P) (t : ℝ) (m : Mem X P) : SV X P :=
  ⟨Mo.bc t (m old).U, Mo.pre (Mo.bc t (m old).U)⟩

/-- The scheme `sch`, run with modules that perform exact forward Euler steps of `F`, performs one step of the
Runge-Kutta method `T`: it returns normally, and the returned time step size is the step size of the method. -/
def Realises {s : ℕ} (sch : Scheme) (T : RK.Tableau s) : Prop :=
  ∀ (X P : Type) (_ : AddCommGroup X) (_ : Module ℝ X) (Mo : Modules X P) (F : X → X)
    (dt : Ctx → SV X P → Option ℝ → ℝ), EulerSteps Mo F dt →
  ∀ (ctx : Ctx) (t tau_max : ℝ) (m : Mem X P) (calls : ℕ),
    let tau := dt ctx (prepared Mo t m) (some (tau_max / efficiency sch))
    tau ≠ 0 →
    ∃ m' n, singleStep Mo (program sch) ctx t tau_max m calls = .returned m' (efficiency sch * tau) n ∧
      RK.IsStep T F (efficiency sch * tau) (m old).U (m' old).U

attribute [simp] setU swapOld stageArgs finish

/-! ### Structure of the programs -/

/-- The vector a statement writes. -/
def Instr.dst : Instr → Slot
  | .prepare v _ => v
  | .first _ d _ => d
  | .hyp _ _ d => d
  | .par _ _ _ d _ => d
  | .sadd d _ _ _ => d

/-- The vectors a statement reads (apart from the vector it writes). -/
def Instr.inputs : Instr → List Slot
  | .prepare _ _ => []
  | .first s _ _ => [s]
  | .hyp s st _ => s :: st.map Prod.fst
  | .par s _ st _ _ => s :: st.map Prod.fst
  | .sadd _ _ _ s => [s]

/-- The statement is not the one that chooses the time step size. -/
def Instr.keepsTau : Instr → Prop
  | .first _ _ _ => False
  | _ => True

theorem exec_tau {Mo : Modules X P} {ctx : Ctx} {t tau_max : ℝ} {s s' : Conf X P} {i : Instr} (hi : i.keepsTau)
    (h : exec Mo ctx t tau_max s i = .done s') : s'.tau = s.tau := by
  cases i with
  | prepare v c => simp only [exec] at h; cases h; rfl
  | first => exact hi.elim
  | hyp src st dst =>
    simp only [exec] at h
    generalize Mo.hyp _ _ _ _ _ _ _ = r at h
    cases r <;> simp [finish] at h
    rw [← h]
  | par src c st dst f =>
    simp only [exec] at h
    split_ifs at h
    generalize Mo.par _ _ _ _ _ _ = r at h
    cases r <;> simp [finish] at h
    rw [← h]
  | sadd => simp only [exec] at h; cases h; rfl

theorem run_tau {Mo : Modules X P} {ctx : Ctx} {t tau_max : ℝ} {code : List Instr}
    (hc : ∀ i ∈ code, i.keepsTau) {s s' : Conf X P} (h : run Mo ctx t tau_max code s = .done s') :
    s'.tau = s.tau := by
  induction code generalizing s with
  | nil => simp only [run] at h; cases h; rfl
  | cons i is ih =>
    simp only [run] at h
    cases he : exec Mo ctx t tau_max s i with
    | done s1 =>
      rw [he] at h
      rw [ih (fun j hj => hc j (List.mem_cons_of_mem _ hj)) h, exec_tau (hc i List.mem_cons_self) he]
    | restart s1 => rw [he] at h; simp at h
    | crash => rw [he] at h; simp at h

/-- Every scheme starts by preparing `state_vector` at time `t`, takes one step of automatic size, at most
`tau_max / factor`, into a scratch vector, and afterwards neither chooses another step size nor writes
`state_vector`. -/
theorem program_shape (sch : Scheme) : ∃ d rest, (program sch).code = prepare old 0 ::
      first old (temp d) (program sch).factor :: rest ∧ (∀ i ∈ rest, i.keepsTau) ∧
    (∀ i ∈ rest, i.dst ≠ old) ∧ 1 ≤ (program sch).factor ∧ (program sch).factor = efficiency sch := by
  cases sch <;>
    refine ⟨0, _, rfl, ?_, ?_, ?_, ?_⟩ <;>
    simp [program, erk11, erk22, erk33, erk43, erk54, ssprk22, ssprk33, strangErk33, strangErk43, strangSsprk33,
        imex11, imex22, imex33, Instr.keepsTau, Instr.dst, efficiency]

theorem exec_other {Mo : Modules X P} {ctx : Ctx} {t tau_max : ℝ} {s s' : Conf X P} {i : Instr} {v : Slot}
    (hi : i.dst ≠ v)
    (h : exec Mo ctx t tau_max s i = .done s' ∨ exec Mo ctx t tau_max s i = .restart s') :
    s'.mem v = s.mem v := by
  cases i with
  | prepare w c =>
    simp only [exec, reduceCtorEq, or_false] at h
    cases h
    simp [Ne.symm hi, Instr.dst] at hi ⊢
    exact fun hv => absurd hv.symm hi
  | first src dst d =>
    simp only [exec] at h
    generalize Mo.hyp _ _ _ _ _ _ _ = r at h
    cases r <;> simp [finish] at h <;> rw [← h] <;> simp [Instr.dst] at hi ⊢ <;> exact fun hv => absurd hv.symm hi
  | hyp src st dst =>
    simp only [exec] at h
    generalize Mo.hyp _ _ _ _ _ _ _ = r at h
    cases r <;> simp [finish] at h <;> rw [← h] <;> simp [Instr.dst] at hi ⊢ <;> exact fun hv => absurd hv.symm hi
  | par src c st dst f =>
    simp only [exec] at h
    split_ifs at h
    · simp at h
    · generalize Mo.par _ _ _ _ _ _ = r at h
      cases r <;> simp [finish] at h <;> rw [← h] <;> simp [Instr.dst] at hi ⊢ <;> exact fun hv => absurd hv.symm hi
  | sadd dst a b src =>
    simp only [exec, reduceCtorEq, or_false] at h
    cases h
    simp [Instr.dst] at hi ⊢
    exact fun hv => absurd hv.symm hi

theorem run_other {Mo : Modules X P} {ctx : Ctx} {t tau_max : ℝ} {v : Slot} {code : List Instr}
    (hc : ∀ i ∈ code, i.dst ≠ v) {s s' : Conf X P}
    (h : run Mo ctx t tau_max code s = .done s' ∨ run Mo ctx t tau_max code s = .restart s') :
    s'.mem v = s.mem v := by
  induction code generalizing s with
  | nil => simp only [run, reduceCtorEq, or_false] at h; cases h; rfl
  | cons i is ih =>
    simp only [run] at h
    cases he : exec Mo ctx t tau_max s i with
    | done s1 =>
      rw [he] at h
      rw [ih (fun j hj => hc j (List.mem_cons_of_mem _ hj)) h, exec_other (hc i List.mem_cons_self) (Or.inl he)]
    | restart s1 =>
      rw [he] at h
      simp only [reduceCtorEq, Out.restart.injEq, false_or] at h
      rw [← h, exec_other (hc i List.mem_cons_self) (Or.inr he)]
    | crash => rw [he] at h; simp at h

/-! ### Data flow -/

/-- Data flow check of a statement list: `W` are the vectors whose content is determined by the run so far, `Q`
those among them that are prepared and have not been written since. -/
def Valid : List Slot → List Slot → List Instr → Prop
  | _, _, [] => True
  | W, Q, .prepare v _ :: r => v ∈ W ∧ Valid W (v :: Q) r
  | W, Q, .first s d _ :: r => s ∈ W ∧ s ∈ Q ∧ Valid (d :: W) (Q.filter (· ≠ d)) r
  | W, Q, .hyp s st d :: r =>
    s ∈ W ∧ s ∈ Q ∧ (∀ p ∈ st, p.1 ∈ W ∧ p.1 ∈ Q) ∧ Valid (d :: W) (Q.filter (· ≠ d)) r
  | W, Q, .par s _ _ d _ :: r => s ∈ W ∧ Valid (d :: W) (Q.filter (· ≠ d)) r
  | W, Q, .sadd d _ _ s :: r => d ∈ W ∧ s ∈ W ∧ Valid W (Q.filter (· ≠ d)) r

theorem program_valid (sch : Scheme) : Valid [old] [] (program sch).code := by
  cases sch <;>
    simp [program, erk11, erk22, erk33, erk43, erk54, ssprk22, ssprk33, strangErk33, strangErk43, strangSsprk33,
        imex11, imex22, imex33, Valid]

/-- The vectors written by a statement list. -/
def written (code : List Instr) : List Slot := code.map Instr.dst

theorem program_result_written (sch : Scheme) : temp (program sch).result ∈ written (program sch).code := by
  cases sch <;>
    simp [program, erk11, erk22, erk33, erk43, erk54, ssprk22, ssprk33, strangErk33, strangErk43, strangSsprk33,
        imex11, imex22, imex33, written, Instr.dst]

/-- Two module results agree up to `E`. -/
def ResRel (E : X → X → Prop) : Res X → Res X → Prop
  | .ok u τ, .ok u' τ' => E u u' ∧ τ = τ'
  | .restart _, .restart _ => True
  | .crash, .crash => True
  | _, _ => False

/-- The modules see vectors only up to the relation `E` (for example: equal on all unconstrained degrees of
freedom), and their results do not depend on the old content of the output vector. -/
structure Respects (E : X → X → Prop) (Mo : Modules X P) : Prop where
  bc : ∀ t u u', E u u' → E (Mo.bc t u) (Mo.bc t u')
  pre : ∀ u u', E u u' → Mo.pre u = Mo.pre u'
  hyp : ∀ ctx n (src src' : SV X P) (st st' : List (ℝ × SV X P)) dst dst' tau cap,
    E src.U src'.U → src.prec = src'.prec →
    List.Forall₂ (fun p q => p.1 = q.1 ∧ E p.2.U q.2.U ∧ p.2.prec = q.2.prec) st st' →
    ResRel E (Mo.hyp ctx n src st dst tau cap) (Mo.hyp ctx n src' st' dst' tau cap)
  par : ∀ ctx n u u' t dst dst' tau, E u u' →
    ResRel E (Mo.par ctx n u t dst tau) (Mo.par ctx n u' t dst' tau)
  lin : ∀ (a b : ℝ) u u' v v', E u u' → E v v' → E (a • u + b • v) (a • u' + b • v')

/-- Agreement of two configurations on the determined vectors. -/
structure Agree (E : X → X → Prop) (W Q : List Slot) (s s' : Conf X P) : Prop where
  U : ∀ v ∈ W, E (s.mem v).U (s'.mem v).U
  prec : ∀ v ∈ Q, (s.mem v).prec = (s'.mem v).prec
  tau : s.tau = s'.tau
  calls : s.calls = s'.calls

/-- Agreement of two ends of a run. -/
def OutRel (E : X → X → Prop) (W : List Slot) : Out X P → Out X P → Prop
  | .done s, .done s' => (∀ v ∈ W, E (s.mem v).U (s'.mem v).U) ∧ s.tau = s'.tau ∧ s.calls = s'.calls
  | .restart _, .restart _ => True
  | .crash, .crash => True
  | _, _ => False

omit [AddCommGroup X] [Module ℝ X] in
theorem agree_finish {E : X → X → Prop} {W Q : List Slot} {s s' : Conf X P} (h : Agree E W Q s s') (d : Slot)
    (b : Bool) {r r' : Res X} (hr : ResRel E r r') :
    (∃ s1 s1', finish s d b r = .done s1 ∧ finish s' d b r' = .done s1' ∧
      Agree E (d :: W) (Q.filter (· ≠ d)) s1 s1') ∨
    (∃ s1 s1', finish s d b r = .restart s1 ∧ finish s' d b r' = .restart s1') ∨
    (finish s d b r = .crash ∧ finish s' d b r' = .crash) := by
  cases r with
  | ok u τ =>
    cases r' with
    | ok u' τ' =>
      obtain ⟨hu, rfl⟩ := hr
      refine Or.inl ⟨_, _, rfl, rfl, ⟨?_, ?_, ?_, ?_⟩⟩
      · intro v hv
        by_cases hvd : v = d
        · simp [hvd, hu]
        · simp only [List.mem_cons, hvd, false_or] at hv
          simpa [hvd] using h.U v hv
      · intro v hv
        simp only [ne_eq, decide_not, List.mem_filter, Bool.not_eq_eq_eq_not, Bool.not_true,
          decide_eq_false_iff_not] at hv
        simpa [hv.2] using h.prec v hv.1
      · cases b <;> simp [h.tau]
      · simp [h.calls]
    | restart => exact hr.elim
    | crash => exact hr.elim
  | restart g =>
    cases r' with
    | ok => exact hr.elim
    | restart g' => exact Or.inr (Or.inl ⟨_, _, rfl, rfl⟩)
    | crash => exact hr.elim
  | crash =>
    cases r' with
    | ok => exact hr.elim
    | restart g' => exact hr.elim
    | crash => exact Or.inr (Or.inr ⟨rfl, rfl⟩)

theorem run_agree {E : X → X → Prop} {Mo : Modules X P} (hE : Respects E Mo) (ctx : Ctx) (t tau_max : ℝ)
    {code : List Instr} {W Q : List Slot} (hv : Valid W Q code) {s s' : Conf X P} (h : Agree E W Q s s') :
    OutRel E (written code ++ W) (run Mo ctx t tau_max code s) (run Mo ctx t tau_max code s') := by
  induction code generalizing s s' W Q with
  | nil => exact ⟨fun v hv => h.U v (by simpa [written] using hv), h.tau, h.calls⟩
  | cons i is ih =>
    have mono : ∀ {d : Slot} {o o' : Out X P}, i.dst = d → OutRel E (written is ++ (d :: W)) o o' →
        OutRel E (written (i :: is) ++ W) o o' := by
      intro d o o' hd ho
      cases o <;> cases o' <;> try exact ho
      refine ⟨fun v hv => ho.1 v ?_, ho.2⟩
      simp only [written, List.map_cons, hd, List.cons_append, List.mem_cons, List.mem_append] at hv ⊢
      tauto
    have mono' : ∀ {o o' : Out X P}, i.dst ∈ W → OutRel E (written is ++ W) o o' →
        OutRel E (written (i :: is) ++ W) o o' := by
      intro o o' hd ho
      cases o <;> cases o' <;> try exact ho
      refine ⟨fun v hv => ho.1 v ?_, ho.2⟩
      simp only [written, List.map_cons, List.cons_append, List.mem_cons, List.mem_append] at hv ⊢
      rcases hv with rfl | hv
      · exact Or.inr hd
      · exact hv
    cases i with
    | prepare v c =>
      simp only [run, exec]
      refine mono' hv.1 (ih hv.2 ⟨?_, ?_, h.tau, h.calls⟩)
      · intro w hw
        by_cases hwv : w = v
        · simpa [hwv, h.tau] using hE.bc _ _ _ (h.U v hv.1)
        · simpa [hwv] using h.U w hw
      · intro w hw
        by_cases hwv : w = v
        · simpa [hwv, h.tau] using hE.pre _ _ (hE.bc _ _ _ (h.U v hv.1))
        · simp only [List.mem_cons, hwv, false_or] at hw
          simpa [hwv] using h.prec w hw
    | first src d div =>
      simp only [run, exec]
      have hr := hE.hyp ctx s.calls (s.mem src) (s'.mem src) [] [] (s.mem d).U (s'.mem d).U 0
        (some (tau_max / div)) (h.U _ hv.1) (h.prec _ hv.2.1) List.Forall₂.nil
      rw [← h.calls]
      rcases agree_finish h d true hr with ⟨s1, s1', e, e', ha⟩ | ⟨s1, s1', e, e'⟩ | ⟨e, e'⟩ <;> rw [e, e']
      · exact mono rfl (ih hv.2.2 ha)
      · trivial
      · trivial
    | hyp src st d =>
      simp only [run, exec]
      have hst : List.Forall₂ (fun p q : ℝ × SV X P => p.1 = q.1 ∧ E p.2.U q.2.U ∧ p.2.prec = q.2.prec)
          (stageArgs s.mem st) (stageArgs s'.mem st) := by
        have : ∀ p ∈ st, p.1 ∈ W ∧ p.1 ∈ Q := hv.2.2.1
        clear hv
        induction st with
        | nil => exact List.Forall₂.nil
        | cons p ps ih2 =>
          refine List.Forall₂.cons ⟨rfl, h.U _ (this p List.mem_cons_self).1, h.prec _ (this p List.mem_cons_self).2⟩
            (ih2 (fun {d o o'} hd ho => mono hd ho) (fun hd ho => mono' hd ho) fun q hq => this q (List.mem_cons_of_mem _ hq))
      have hr := hE.hyp ctx s.calls (s.mem src) (s'.mem src) _ _ (s.mem d).U (s'.mem d).U s.tau none
        (h.U _ hv.1) (h.prec _ hv.2.1) hst
      rw [← h.calls, ← h.tau]
      rcases agree_finish h d false hr with ⟨s1, s1', e, e', ha⟩ | ⟨s1, s1', e, e'⟩ | ⟨e, e'⟩ <;> rw [e, e']
      · exact mono rfl (ih hv.2.2.2 ha)
      · trivial
      · trivial
    | par src c st d f =>
      simp only [run, exec]
      split_ifs with hst
      · trivial
      · have hr := hE.par ctx s.calls (s.mem src).U (s'.mem src).U (t + c * s.tau) (s.mem d).U (s'.mem d).U
          (f * s.tau) (h.U _ hv.1)
        rw [← h.calls, ← h.tau]
        rcases agree_finish h d false hr with ⟨s1, s1', e, e', ha⟩ | ⟨s1, s1', e, e'⟩ | ⟨e, e'⟩ <;> rw [e, e']
        · exact mono rfl (ih hv.2 ha)
        · trivial
        · trivial
    | sadd d a b src =>
      simp only [run, exec]
      refine mono' hv.1 (ih hv.2.2 ⟨?_, ?_, h.tau, h.calls⟩)
      · intro w hw
        by_cases hwd : w = d
        · simpa [hwd] using hE.lin a b _ _ _ _ (h.U d hv.1) (h.U src hv.2.1)
        · simpa [hwd] using h.U w hw
      · intro w hw
        simp only [ne_eq, decide_not, List.mem_filter, Bool.not_eq_eq_eq_not, Bool.not_true,
          decide_eq_false_iff_not] at hw
        simpa [hw.2] using h.prec w hw.1

/-- The modules with a hyperbolic step that recomputes the precomputed values of all its inputs from their
states. -/
def recomputing (Mo : Modules X P) : Modules X P where
  bc := Mo.bc
  pre := Mo.pre
  hyp := fun ctx n src st dst tau cap =>
    Mo.hyp ctx n ⟨src.U, Mo.pre src.U⟩ (st.map fun p => (p.1, ⟨p.2.U, Mo.pre p.2.U⟩)) dst tau cap
  par := Mo.par

theorem run_recomputing (Mo : Modules X P) (ctx : Ctx) (t tau_max : ℝ) {code : List Instr} {W Q : List Slot}
    (hv : Valid W Q code) {s : Conf X P} (h : ∀ v ∈ Q, (s.mem v).prec = Mo.pre (s.mem v).U) :
    run (recomputing Mo) ctx t tau_max code s = run Mo ctx t tau_max code s := by
  have same : ∀ (x : SV X P), x.prec = Mo.pre x.U → (⟨x.U, Mo.pre x.U⟩ : SV X P) = x := by
    intro x hx; rw [← hx]
  induction code generalizing s W Q with
  | nil => rfl
  | cons i is ih =>
    have keep : ∀ (d : Slot) (u : X), ∀ v ∈ Q.filter (· ≠ d),
        ((setU s.mem d u) v).prec = Mo.pre ((setU s.mem d u) v).U := by
      intro d u v hv
      simp only [ne_eq, decide_not, List.mem_filter, Bool.not_eq_eq_eq_not, Bool.not_true,
        decide_eq_false_iff_not] at hv
      simpa [setU, hv.2] using h v hv.1
    cases i with
    | prepare v c =>
      simp only [run, exec, recomputing]
      refine ih hv.2 ?_
      intro w hw
      by_cases hwv : w = v
      · simp [hwv]
      · simp only [List.mem_cons, hwv, false_or] at hw
        simpa [hwv] using h w hw
    | first src d div =>
      have e : exec (recomputing Mo) ctx t tau_max s (.first src d div) = exec Mo ctx t tau_max s (.first src d div) := by
        simp only [exec, recomputing, List.map_nil]
        rw [same _ (h _ hv.2.1)]
      simp only [run, e]
      simp only [exec]
      generalize Mo.hyp _ _ _ _ _ _ _ = r
      cases r with
      | ok u τ => exact ih hv.2.2 (keep d u)
      | restart => rfl
      | crash => rfl
    | hyp src st d =>
      have e : exec (recomputing Mo) ctx t tau_max s (.hyp src st d) = exec Mo ctx t tau_max s (.hyp src st d) := by
        simp only [exec, recomputing]
        rw [same _ (h _ hv.2.1)]
        congr 2
        simp only [stageArgs, List.map_map]
        apply List.map_congr_left
        intro p hp
        simp only [Function.comp]
        rw [same _ (h _ (hv.2.2.1 p hp).2)]
      simp only [run, e]
      simp only [exec]
      generalize Mo.hyp _ _ _ _ _ _ _ = r
      cases r with
      | ok u τ => exact ih hv.2.2.2 (keep d u)
      | restart => rfl
      | crash => rfl
    | par src c st d f =>
      have e : exec (recomputing Mo) ctx t tau_max s (.par src c st d f) = exec Mo ctx t tau_max s (.par src c st d f) :=
        rfl
      simp only [run, e]
      simp only [exec]
      split_ifs
      · rfl
      · generalize Mo.par _ _ _ _ _ _ = r
        cases r with
        | ok u τ => exact ih hv.2 (keep d u)
        | restart => rfl
        | crash => rfl
    | sadd d a b src =>
      simp only [run, exec]
      exact ih hv.2.2 (keep d _)

/-! ### Conserved quantities and invariant sets -/

/-- A linear combination is affine: its coefficients sum to one. -/
def Instr.affine : Instr → Prop
  | .sadd _ a b _ => a + b = 1
  | _ => True

/-- A linear combination is convex, and the parabolic module is not called. -/
def Instr.convexExplicit : Instr → Prop
  | .sadd _ a b _ => 0 ≤ a ∧ 0 ≤ b ∧ a + b = 1
  | .par _ _ _ _ _ => False
  | _ => True

theorem program_affine (sch : Scheme) : ∀ i ∈ (program sch).code, i.affine := by
  cases sch <;>
    simp [program, erk11, erk22, erk33, erk43, erk54, ssprk22, ssprk33, strangErk33, strangErk43, strangSsprk33,
        imex11, imex22, imex33, Instr.affine] <;> norm_num

/-- The schemes for equations without parabolic part. -/
def Scheme.explicit : Scheme → Bool := schemeAccepted true

theorem program_convex (sch : Scheme) (h : sch.explicit) : ∀ i ∈ (program sch).code, i.convexExplicit := by
  cases sch <;>
    simp [program, erk11, erk22, erk33, erk43, erk54, ssprk22, ssprk33, Instr.convexExplicit,
      Scheme.explicit, schemeAccepted] at h ⊢ <;> norm_num

/-- A property of vectors kept by all statements of a list holds for all vectors they determine. -/
theorem run_invariant {Mo : Modules X P} {K : X → Prop} (ctx : Ctx) (t tau_max : ℝ)
    (hbc : ∀ t u, K u → K (Mo.bc t u))
    (hhyp : ∀ n (src : SV X P) (st : List (ℝ × SV X P)) dst tau cap u τ, K src.U → (∀ p ∈ st, K p.2.U) →
      Mo.hyp ctx n src st dst tau cap = .ok u τ → K u)
    {code : List Instr}
    (hpar : ∀ s c st d f, Instr.par s c st d f ∈ code →
      ∀ n v t dst tau u τ, K v → Mo.par ctx n v t dst tau = .ok u τ → K u)
    (hadd : ∀ d a b s, Instr.sadd d a b s ∈ code → ∀ u v, K u → K v → K (a • u + b • v))
    {W Q : List Slot} (hv : Valid W Q code) {s s' : Conf X P} (h : ∀ v ∈ W, K (s.mem v).U)
    (hs : run Mo ctx t tau_max code s = .done s') : ∀ v ∈ written code ++ W, K (s'.mem v).U := by
  induction code generalizing s W Q with
  | nil => simp only [run] at hs; cases hs; simpa [written] using h
  | cons i is ih =>
    have hpar' : ∀ s c st d f, Instr.par s c st d f ∈ is →
      ∀ n v t dst tau u τ, K v → Mo.par ctx n v t dst tau = .ok u τ → K u :=
      fun s c st d f hm => hpar s c st d f (List.mem_cons_of_mem _ hm)
    have hadd' : ∀ d a b s, Instr.sadd d a b s ∈ is → ∀ u v, K u → K v → K (a • u + b • v) :=
      fun d a b s hm => hadd d a b s (List.mem_cons_of_mem _ hm)
    have set : ∀ (d : Slot) (u : X), K u → ∀ v ∈ d :: W, K ((setU s.mem d u) v).U := by
      intro d u hu v hv
      by_cases hvd : v = d
      · simpa [hvd] using hu
      · simp only [List.mem_cons, hvd, false_or] at hv
        simpa [hvd] using h v hv
    have mono : ∀ d, i.dst = d → (∀ v ∈ written is ++ (d :: W), K (s'.mem v).U) →
        ∀ v ∈ written (i :: is) ++ W, K (s'.mem v).U := by
      intro d hd hk v hv
      refine hk v ?_
      simp only [written, List.map_cons, hd, List.cons_append, List.mem_cons, List.mem_append] at hv ⊢
      tauto
    cases i with
    | prepare v c =>
      simp only [run, exec] at hs
      have := ih hpar' hadd' hv.2 (s := ⟨_, s.tau, s.calls⟩) ?_ hs
      · intro w hw
        refine this w ?_
        simp only [written, List.map_cons, Instr.dst, List.cons_append, List.mem_cons, List.mem_append] at hw ⊢
        rcases hw with rfl | hw
        · exact Or.inr hv.1
        · exact hw
      · intro w hw
        by_cases hwv : w = v
        · simpa [hwv] using hbc _ _ (h v hv.1)
        · simpa [hwv] using h w hw
    | first src d div =>
      simp only [run, exec] at hs
      have hk := hhyp s.calls (s.mem src) [] (s.mem d).U 0 (some (tau_max / div))
      generalize Mo.hyp _ _ _ _ _ _ _ = r at hs hk
      cases r with
      | ok u τ => exact mono d rfl (ih hpar' hadd' hv.2.2 (set d u (hk u τ (h _ hv.1) (by simp) rfl)) hs)
      | restart => simp [finish] at hs
      | crash => simp [finish] at hs
    | hyp src st d =>
      simp only [run, exec] at hs
      have hk := hhyp s.calls (s.mem src) (stageArgs s.mem st) (s.mem d).U s.tau none
      have hst : ∀ p ∈ stageArgs s.mem st, K p.2.U := by
        intro p hp
        simp only [stageArgs, List.mem_map] at hp
        obtain ⟨q, hq, rfl⟩ := hp
        exact h _ (hv.2.2.1 q hq).1
      generalize Mo.hyp _ _ _ _ _ _ _ = r at hs hk
      cases r with
      | ok u τ => exact mono d rfl (ih hpar' hadd' hv.2.2.2 (set d u (hk u τ (h _ hv.1) hst rfl)) hs)
      | restart => simp [finish] at hs
      | crash => simp [finish] at hs
    | par src c st d f =>
      simp only [run, exec] at hs
      split_ifs at hs
      have hk := hpar src c st d f List.mem_cons_self s.calls (s.mem src).U (t + c * s.tau) (s.mem d).U (f * s.tau)
      generalize Mo.par _ _ _ _ _ _ = r at hs hk
      cases r with
      | ok u τ => exact mono d rfl (ih hpar' hadd' hv.2 (set d u (hk u τ (h _ hv.1) rfl)) hs)
      | restart => simp [finish] at hs
      | crash => simp [finish] at hs
    | sadd d a b src =>
      simp only [run, exec] at hs
      have hk := hadd d a b src List.mem_cons_self _ _ (h d hv.1) (h src hv.2.1)
      have := ih hpar' hadd' hv.2.2 (s := ⟨_, s.tau, s.calls⟩)
        (fun w hw => set d _ hk w (List.mem_cons_of_mem _ hw)) hs
      intro w hw
      refine this w ?_
      simp only [written, List.map_cons, Instr.dst, List.cons_append, List.mem_cons, List.mem_append] at hw ⊢
      rcases hw with rfl | hw
      · exact Or.inr hv.1
      · exact hw

/-! ### Clocks -/

/-- Clocks: a vector is its own hyperbolic and parabolic time.  Preparing a vector at a time that is not its own
hyperbolic time, or handing it to the parabolic module at a time that is not its own parabolic time, may do
anything. -/
structure Clocks {P : Type} (Mo : Modules (ℝ × ℝ) P) (dt : Ctx → SV (ℝ × ℝ) P → Option ℝ → ℝ) : Prop where
  bc : ∀ x, Mo.bc x.1 x = x
  hyp : ∀ ctx n (src : SV (ℝ × ℝ) P) st dst tau cap,
    Mo.hyp ctx n src st dst tau cap = .ok (src.U.1 + (if tau = 0 then dt ctx src cap else tau), src.U.2)
      (if tau = 0 then dt ctx src cap else tau)
  par : ∀ ctx n x dst tau, Mo.par ctx n x x.2 dst tau = .ok (x.1, x.2 + tau) tau

/-- The clocks after a statement, in units of `tau` after `t`. -/
def clockStep (ck : Slot → ℝ × ℝ) : Instr → Slot → ℝ × ℝ
  | .hyp s _ d, v => if v = d then ((ck s).1 + 1, (ck s).2) else ck v
  | .par s _ _ d f, v => if v = d then ((ck s).1, (ck s).2 + f) else ck v
  | .sadd d a b s, v => if v = d then (a * (ck d).1 + b * (ck s).1, a * (ck d).2 + b * (ck s).2) else ck v
  | _, v => ck v

/-- All times handed to the modules are right. -/
def ClockValid (ck : Slot → ℝ × ℝ) : List Instr → Prop
  | [] => True
  | .prepare v c :: r => c = (ck v).1 ∧ ClockValid ck r
  | .first _ _ _ :: _ => False
  | .hyp s st d :: r => ClockValid (clockStep ck (.hyp s st d)) r
  | .par s c st d f :: r => c = (ck s).2 ∧ st = [] ∧ ClockValid (clockStep ck (.par s c st d f)) r
  | .sadd d a b s :: r => a + b = 1 ∧ ClockValid (clockStep ck (.sadd d a b s)) r

theorem run_clock {P : Type} {Mo : Modules (ℝ × ℝ) P} {dt : Ctx → SV (ℝ × ℝ) P → Option ℝ → ℝ}
    (hMo : Clocks Mo dt) (ctx : Ctx) (t tau_max τ : ℝ) (hτ : τ ≠ 0) {code : List Instr} {ck : Slot → ℝ × ℝ}
    {W Q : List Slot} (hw : Valid W Q code)
    (hv : ClockValid ck code) {s : Conf (ℝ × ℝ) P} (hs : s.tau = τ)
    (hm : ∀ v ∈ W, (s.mem v).U = (t + (ck v).1 * τ, t + (ck v).2 * τ)) :
    ∃ s', run Mo ctx t tau_max code s = .done s' ∧ s'.tau = τ ∧
      ∀ v ∈ written code ++ W, (s'.mem v).U =
        (t + (code.foldl clockStep ck v).1 * τ, t + (code.foldl clockStep ck v).2 * τ) := by
  obtain ⟨hbc, hhyp, hpar⟩ := hMo
  have hbc' : ∀ s (x : ℝ × ℝ), s = x.1 → Mo.bc s x = x := fun s x h => h ▸ hbc x
  have hpar' : ∀ ctx n x s dst tau, s = x.2 → Mo.par ctx n x s dst tau = .ok (x.1, x.2 + tau) tau :=
    fun ctx n x s dst tau h => h ▸ hpar ctx n x dst tau
  induction code generalizing s ck W Q with
  | nil => exact ⟨s, rfl, hs, by simpa [written] using hm⟩
  | cons i is ih =>
    have mono : ∀ {d : Slot} {K : Slot → Prop}, i.dst = d → (∀ v ∈ written is ++ (d :: W), K v) →
        ∀ v ∈ written (i :: is) ++ W, K v := by
      intro d K hd hk v hv
      refine hk v ?_
      simp only [written, List.map_cons, hd, List.cons_append, List.mem_cons, List.mem_append] at hv ⊢
      tauto
    have mono' : ∀ {K : Slot → Prop}, i.dst ∈ W → (∀ v ∈ written is ++ W, K v) →
        ∀ v ∈ written (i :: is) ++ W, K v := by
      intro K hd hk v hv
      refine hk v ?_
      simp only [written, List.map_cons, List.cons_append, List.mem_cons, List.mem_append] at hv ⊢
      rcases hv with rfl | hv
      · exact Or.inr hd
      · exact hv
    cases i with
    | prepare v c =>
      simp only [run, exec]
      have hb : Mo.bc (t + c * s.tau) (s.mem v).U = (s.mem v).U := by
        apply hbc'; rw [hm v hw.1, hs, hv.1]
      rw [hb]
      obtain ⟨s', h1, h2, h3⟩ := ih hw.2 hv.2
        (s := ⟨fun v' => if v' = v then ⟨(s.mem v).U, Mo.pre (s.mem v).U⟩ else s.mem v', s.tau, s.calls⟩) hs (by
        intro w hww
        by_cases hwv : w = v
        · simpa [hwv] using hm v hw.1
        · simpa [hwv] using hm w hww)
      exact ⟨s', h1, h2, mono' hw.1 h3⟩
    | first => exact hv.elim
    | hyp src st d =>
      simp only [run, exec, hhyp, hs, hτ, if_false, finish]
      obtain ⟨s', h1, h2, h3⟩ := ih hw.2.2.2 hv
        (s := ⟨setU s.mem d ((s.mem src).U.1 + τ, (s.mem src).U.2), τ, s.calls + 1⟩) rfl (by
        intro w hww
        by_cases hwd : w = d
        · simp only [setU, hwd, if_true, hm src hw.1, clockStep, Prod.mk.injEq, and_true]; ring
        · simp only [List.mem_cons, hwd, false_or] at hww
          simpa [hwd, clockStep] using hm w hww)
      exact ⟨s', h1, h2, mono rfl h3⟩
    | par src c st d f =>
      obtain ⟨hc, rfl, hv⟩ := hv
      have hp : Mo.par ctx s.calls (s.mem src).U (t + c * s.tau) (s.mem d).U (f * s.tau) =
          .ok ((s.mem src).U.1, (s.mem src).U.2 + f * s.tau) (f * s.tau) := by
        apply hpar'; rw [hm src hw.1, hs, hc]
      simp only [run, exec, hp, ne_eq, not_true_eq_false, if_false, finish]
      obtain ⟨s', h1, h2, h3⟩ := ih hw.2 hv
        (s := ⟨setU s.mem d ((s.mem src).U.1, (s.mem src).U.2 + f * s.tau), s.tau, s.calls + 1⟩) hs (by
        intro w hww
        by_cases hwd : w = d
        · simp only [setU, hwd, if_true, hm src hw.1, clockStep, Prod.mk.injEq, true_and, hs]; ring
        · simp only [List.mem_cons, hwd, false_or] at hww
          simpa [hwd, clockStep] using hm w hww)
      exact ⟨s', h1, h2, mono rfl h3⟩
    | sadd d a b src =>
      simp only [run, exec]
      obtain ⟨s', h1, h2, h3⟩ := ih hw.2.2 hv.2
        (s := ⟨setU s.mem d (a • (s.mem d).U + b • (s.mem src).U), s.tau, s.calls⟩) hs (by
        intro w hww
        by_cases hwd : w = d
        · simp only [setU, hwd, if_true, hm src hw.2.1, hm d hw.1, clockStep, Prod.mk.injEq, Prod.smul_mk,
            Prod.mk_add_mk, smul_eq_mul]
          constructor <;> linear_combination t * hv.1
        · simpa [hwd, clockStep] using hm w hww)
      exact ⟨s', h1, h2, mono' hw.1 h3⟩

/-- The clocks after the first step. -/
def clock0 (d : ℕ) : Slot → ℝ × ℝ := fun v => if v = temp d then (1, 0) else (0, 0)

theorem clocks {P : Type} (sch : Scheme) (hsch : sch ≠ .imex_22 ∧ sch ≠ .imex_33) (Mo : Modules (ℝ × ℝ) P)
    (dt : Ctx → SV (ℝ × ℝ) P → Option ℝ → ℝ) (hMo : Clocks Mo dt) (ctx : Ctx) (t tau_max : ℝ)
    (m : Mem (ℝ × ℝ) P) (calls : ℕ) (hm : (m old).U = (t, t))
    (hdt : dt ctx (prepared Mo t m) (some (tau_max / efficiency sch)) ≠ 0) :
    ∃ m' n, singleStep Mo (program sch) ctx t tau_max m calls =
        .returned m' (efficiency sch * dt ctx (prepared Mo t m) (some (tau_max / efficiency sch))) n ∧
      (m' old).U = (t + efficiency sch * dt ctx (prepared Mo t m) (some (tau_max / efficiency sch)),
        if schemeAccepted true sch then t
        else t + efficiency sch * dt ctx (prepared Mo t m) (some (tau_max / efficiency sch))) := by
  have hbc' : ∀ s (x : ℝ × ℝ), s = x.1 → Mo.bc s x = x := fun s x h => h ▸ hMo.bc x
  have e : prepared Mo t m = ⟨(t, t), Mo.pre (t, t)⟩ := by rw [prepared, hm, hbc' t (t, t) rfl]
  obtain ⟨d, rest, hcode, -, -, -, hfac⟩ := program_shape sch
  have hval := program_valid sch
  have hres := program_result_written sch
  have hck : ClockValid (clock0 d) rest ∧
      rest.foldl clockStep (clock0 d) (temp (program sch).result) =
        (efficiency sch, if schemeAccepted true sch then 0 else efficiency sch) := by
    cases sch
    case imex_22 => exact absurd rfl hsch.1
    case imex_33 => exact absurd rfl hsch.2
    all_goals
      simp only [program, erk11, erk22, erk33, erk43, erk54, ssprk22, ssprk33, strangErk33,
        strangErk43, strangSsprk33, imex11, List.cons.injEq, true_and, first.injEq, temp.injEq, and_true] at hcode
      obtain ⟨rfl, rfl⟩ := hcode
      simp [ClockValid, clockStep, clock0, program, erk11, erk22, erk33, erk43, erk54, ssprk22, ssprk33,
        strangErk33, strangErk43, strangSsprk33, imex11, efficiency, schemeAccepted]
      try norm_num
  rw [e] at hdt ⊢
  generalize hτ : dt ctx ⟨(t, t), Mo.pre (t, t)⟩ (some (tau_max / efficiency sch)) = τ at hdt ⊢
  rw [hcode] at hval hres
  obtain ⟨s', h1, h2, h3⟩ := run_clock hMo ctx t tau_max τ hdt hval.2.2.2 hck.1
    (s := ⟨setU (fun v => if v = old then ⟨(t, t), Mo.pre (t, t)⟩ else m v) (temp d) (t + τ, t), τ, calls + 1⟩) rfl
    (by
      intro v hv
      simp only [List.mem_cons, List.not_mem_nil, or_false] at hv
      rcases hv with rfl | rfl
      · simp [clock0]
      · simp [clock0])
  have hrun : run Mo ctx t tau_max (program sch).code ⟨m, 0, calls⟩ = .done s' := by
    rw [hcode, ← h1]
    simp only [run, exec, zero_mul, add_zero, hm, hbc' t (t, t) rfl, hMo.hyp, if_true, hfac, hτ, finish]
  refine ⟨swapOld s'.mem (program sch).result, s'.calls, ?_, ?_⟩
  · simp only [singleStep, hrun, h2, hfac]
  · simp only [swapOld]
    rw [h3 _ (by
      simp only [written, List.map_cons, Instr.dst, List.mem_cons, List.mem_append, reduceCtorEq, false_or,
        List.not_mem_nil, or_false] at hres ⊢
      tauto), hck.2]
    split_ifs <;> simp

/-! ### The tableaux -/

theorem realises_ssprk_22 : Realises .ssprk_22 RK.ssprk22 := by
  intro X P _ _ Mo F dt ⟨hbc, hhyp⟩ ctx t tau_max m calls
  simp only [prepared, hbc, efficiency]
  intro hdt
  generalize hτ : dt ctx ⟨(m old).U, Mo.pre (m old).U⟩ (some (tau_max / 1)) = τ at *
  have hτ1 := hτ
  simp only [div_one] at hτ1
  simp [singleStep, program, ssprk22, run, exec, hbc, hhyp, hτ1, hdt]
  generalize (m old).U = u
  generalize h0 : u + τ • F u = T0
  apply RK.isStep_two u T0
  · change u = u + τ • ((0 : ℝ) • _ + (0 : ℝ) • _); module
  · change T0 = u + τ • ((1 : ℝ) • _ + (0 : ℝ) • _); rw [← h0]; module
  · change _ = u + τ • ((1 / 2 : ℝ) • _ + (1 / 2 : ℝ) • _); rw [← h0]; module

theorem realises_ssprk_33 : Realises .ssprk_33 RK.ssprk33 := by
  intro X P _ _ Mo F dt ⟨hbc, hhyp⟩ ctx t tau_max m calls
  simp only [prepared, hbc, efficiency]
  intro hdt
  generalize hτ : dt ctx ⟨(m old).U, Mo.pre (m old).U⟩ (some (tau_max / 1)) = τ at *
  have hτ1 := hτ
  simp only [div_one] at hτ1
  simp [singleStep, program, ssprk33, run, exec, hbc, hhyp, hτ1, hdt]
  generalize (m old).U = u
  generalize h0 : u + τ • F u = T0
  generalize h1 : (4⁻¹ : ℝ) • u + _ + _ + (3 / 4 : ℝ) • u = T1
  apply RK.isStep_three u T0 T1
  · change u = u + τ • ((0 : ℝ) • _ + (0 : ℝ) • _ + (0 : ℝ) • _); module
  · change T0 = u + τ • ((1 : ℝ) • _ + (0 : ℝ) • _ + (0 : ℝ) • _); rw [← h0]; module
  · change T1 = u + τ • ((1 / 4 : ℝ) • _ + (1 / 4 : ℝ) • _ + (0 : ℝ) • _); rw [← h1, ← h0]; module
  · change _ = u + τ • ((1 / 6 : ℝ) • _ + (1 / 6 : ℝ) • _ + (2 / 3 : ℝ) • _); rw [← h1, ← h0]; module

theorem realises_erk_11 : Realises .erk_11 RK.erk11 := by
  intro X P _ _ Mo F dt ⟨hbc, hhyp⟩ ctx t tau_max m calls
  simp only [prepared, hbc, efficiency]
  intro hdt
  generalize hτ : dt ctx ⟨(m old).U, Mo.pre (m old).U⟩ (some (tau_max / 1)) = τ at *
  have hτ1 := hτ
  simp only [div_one] at hτ1
  simp [singleStep, program, erk11, run, exec, hbc, hhyp, hτ1, hdt]
  generalize (m old).U = u
  apply RK.isStep_one u
  · change u = u + τ • ((0 : ℝ) • _); module
  · change _ = u + τ • ((1 : ℝ) • _); module

theorem realises_erk_22 : Realises .erk_22 RK.erk22 := by
  intro X P _ _ Mo F dt ⟨hbc, hhyp⟩ ctx t tau_max m calls
  simp only [prepared, hbc, efficiency]
  intro hdt
  generalize hτ : dt ctx ⟨(m old).U, Mo.pre (m old).U⟩ (some (tau_max / 2)) = τ at *
  simp [singleStep, program, erk22, run, exec, hbc, hhyp, hτ, hdt]
  generalize (m old).U = u
  generalize h0 : u + τ • F u = T0
  apply RK.isStep_two u T0
  · change u = u + (2 * τ) • ((0 : ℝ) • _ + (0 : ℝ) • _); module
  · change T0 = u + (2 * τ) • ((1 / 2 : ℝ) • _ + (0 : ℝ) • _); rw [← h0]; module
  · change _ = u + (2 * τ) • ((0 : ℝ) • _ + (1 : ℝ) • _); rw [← h0]; module

theorem realises_erk_33 : Realises .erk_33 RK.erk33 := by
  intro X P _ _ Mo F dt ⟨hbc, hhyp⟩ ctx t tau_max m calls
  simp only [prepared, hbc, efficiency]
  intro hdt
  generalize hτ : dt ctx ⟨(m old).U, Mo.pre (m old).U⟩ (some (tau_max / 3)) = τ at *
  simp [singleStep, program, erk33, run, exec, hbc, hhyp, hτ, hdt]
  generalize (m old).U = u
  generalize h0 : u + τ • F u = T0
  generalize h1 : T0 + _ = T1
  apply RK.isStep_three u T0 T1
  · change u = u + (3 * τ) • ((0 : ℝ) • _ + (0 : ℝ) • _ + (0 : ℝ) • _); module
  · change T0 = u + (3 * τ) • ((1 / 3 : ℝ) • _ + (0 : ℝ) • _ + (0 : ℝ) • _); rw [← h0]; module
  · change T1 = u + (3 * τ) • ((0 : ℝ) • _ + (2 / 3 : ℝ) • _ + (0 : ℝ) • _); rw [← h1, ← h0]; module
  · change _ = u + (3 * τ) • ((1 / 4 : ℝ) • _ + (0 : ℝ) • _ + (3 / 4 : ℝ) • _); rw [← h1, ← h0]; module

theorem realises_erk_43 : Realises .erk_43 RK.erk43 := by
  intro X P _ _ Mo F dt ⟨hbc, hhyp⟩ ctx t tau_max m calls
  simp only [prepared, hbc, efficiency]
  intro hdt
  generalize hτ : dt ctx ⟨(m old).U, Mo.pre (m old).U⟩ (some (tau_max / 4)) = τ at *
  simp [singleStep, program, erk43, run, exec, hbc, hhyp, hτ, hdt]
  generalize (m old).U = u
  generalize h0 : u + τ • F u = T0
  generalize h1 : T0 + _ = T1
  generalize h2 : T1 + _ = T2
  apply RK.isStep_four u T0 T1 T2
  · change u = u + (4 * τ) • ((0 : ℝ) • _ + (0 : ℝ) • _ + (0 : ℝ) • _ + (0 : ℝ) • _); module
  · change T0 = u + (4 * τ) • ((1 / 4 : ℝ) • _ + (0 : ℝ) • _ + (0 : ℝ) • _ + (0 : ℝ) • _); rw [← h0]; module
  · change T1 = u + (4 * τ) • ((0 : ℝ) • _ + (1 / 2 : ℝ) • _ + (0 : ℝ) • _ + (0 : ℝ) • _); rw [← h1, ← h0]; module
  · change T2 = u + (4 * τ) • ((0 : ℝ) • _ + (1 / 4 : ℝ) • _ + (1 / 2 : ℝ) • _ + (0 : ℝ) • _); rw [← h2, ← h1, ← h0]; module
  · change _ = u + (4 * τ) • ((0 : ℝ) • _ + (2 / 3 : ℝ) • _ + (-1 / 3 : ℝ) • _ + (2 / 3 : ℝ) • _); rw [← h2, ← h1, ← h0]; module

theorem realises_erk_54 : Realises .erk_54 RK.erk54eq := by
  intro X P _ _ Mo F dt ⟨hbc, hhyp⟩ ctx t tau_max m calls
  simp only [prepared, hbc, efficiency]
  intro hdt
  generalize hτ : dt ctx ⟨(m old).U, Mo.pre (m old).U⟩ (some (tau_max / 5)) = τ at *
  simp [singleStep, program, erk54, run, exec, hbc, hhyp, hτ, hdt]
  generalize (m old).U = u
  generalize h0 : u + τ • F u = T0
  generalize h1 : T0 + _ = T1
  generalize h2 : T1 + _ = T2
  generalize h3 : T2 + _ = T3
  have d4 : ∀ x : ℝ, x / c54 = 5 * x := fun x => by rw [c54]; norm_num; ring
  simp only [d4] at *
  have e21 : a21 = 1 / 5 := by norm_num [a21]
  have e31 : a31 = 26075582269554909 / 100000000000000000 := by norm_num [a31]
  have e32 : a32 = 13924417730445096 / 100000000000000000 := by norm_num [a32]
  have e41 : a41 = -25856517872570289 / 100000000000000000 := by norm_num [a41]
  have e42 : a42 = 91136274166280729 / 100000000000000000 := by norm_num [a42]
  have e43 : a43 = -5279756293710430 / 100000000000000000 := by norm_num [a43]
  have e51 : a51 = 21623276431503774 / 100000000000000000 := by norm_num [a51]
  have e52 : a52 = 51534223099602405 / 100000000000000000 := by norm_num [a52]
  have e53 : a53 = -81662794199265554 / 100000000000000000 := by norm_num [a53]
  have e54 : a54 = 88505294668159373 / 100000000000000000 := by norm_num [a54]
  have e61 : a61 = -10511678454691901 / 100000000000000000 := by norm_num [a61]
  have e62 : a62 = 87880047152100838 / 100000000000000000 := by norm_num [a62]
  have e63 : a63 = -58903404061484477 / 100000000000000000 := by norm_num [a63]
  have e64 : a64 = 46213380485434047 / 100000000000000000 := by norm_num [a64]
  apply RK.isStep_five u T0 T1 T2 T3
  · change u = u + (5 * τ) • ((0 : ℝ) • _ + (0 : ℝ) • _ + (0 : ℝ) • _ + (0 : ℝ) • _ + (0 : ℝ) • _); module
  · change T0 = u + (5 * τ) • ((0.2 : ℝ) • _ + (0 : ℝ) • _ + (0 : ℝ) • _ + (0 : ℝ) • _ + (0 : ℝ) • _)
    rw [← h0, show (0.2 : ℝ) = a21 by rw [a21], e21]; module
  · change T1 = u + (5 * τ) • ((0.26075582269554909 : ℝ) • _ + (0.13924417730445091 : ℝ) • _ + (0 : ℝ) • _ +
      (0 : ℝ) • _ + (0 : ℝ) • _)
    rw [show (0.26075582269554909 : ℝ) = 26075582269554909 / 100000000000000000 by norm_num,
      show (0.13924417730445091 : ℝ) = 13924417730445091 / 100000000000000000 by norm_num,
      ← h1, ← h0, e31, e21]
    module
  · change T2 = u + (5 * τ) • ((-0.25856517872570289 : ℝ) • _ + (0.91136274166280724 : ℝ) • _ +
      (-0.05279756293710435 : ℝ) • _ + (0 : ℝ) • _ + (0 : ℝ) • _)
    rw [show (-0.25856517872570289 : ℝ) = -25856517872570289 / 100000000000000000 by norm_num,
      show (0.91136274166280724 : ℝ) = 91136274166280724 / 100000000000000000 by norm_num,
      show (-0.05279756293710435 : ℝ) = -5279756293710435 / 100000000000000000 by norm_num,
      ← h2, ← h1, ← h0, e31, e21, e41, e42, e32]
    module
  · change T3 = u + (5 * τ) • ((0.21623276431503774 : ℝ) • _ + (0.515342230996024 : ℝ) • _ +
      (-0.81662794199265559 : ℝ) • _ + (0.88505294668159385 : ℝ) • _ + (0 : ℝ) • _)
    rw [show (0.21623276431503774 : ℝ) = 21623276431503774 / 100000000000000000 by norm_num,
      show (0.515342230996024 : ℝ) = 515342230996024 / 1000000000000000 by norm_num,
      show (-0.81662794199265559 : ℝ) = -81662794199265559 / 100000000000000000 by norm_num,
      show (0.88505294668159385 : ℝ) = 88505294668159385 / 100000000000000000 by norm_num,
      ← h3, ← h2, ← h1, ← h0, e31, e21, e41, e42, e32, e51, e52, e53, e43]
    module
  · change _ = u + (5 * τ) • ((-0.10511678454691901 : ℝ) • _ + (0.87880047152100833 : ℝ) • _ +
      (-0.58903404061484482 : ℝ) • _ + (0.46213380485434059 : ℝ) • _ + (0.35321654878641491 : ℝ) • _)
    rw [show (-0.10511678454691901 : ℝ) = -10511678454691901 / 100000000000000000 by norm_num,
      show (0.87880047152100833 : ℝ) = 87880047152100833 / 100000000000000000 by norm_num,
      show (-0.58903404061484482 : ℝ) = -58903404061484482 / 100000000000000000 by norm_num,
      show (0.46213380485434059 : ℝ) = 46213380485434059 / 100000000000000000 by norm_num,
      show (0.35321654878641491 : ℝ) = 35321654878641491 / 100000000000000000 by norm_num,
      ← h3, ← h2, ← h1, ← h0, e31, e21, e41, e42, e32, e51, e52, e53, e43, e61, e62, e63, e64, e54]
    module

/-- The parabolic module performs exact backward Euler steps `v ↦ w`, `w = v + τ G(w)`. -/
structure ImplicitSteps {X P : Type} [AddCommGroup X] [Module ℝ X] (Mo : Modules X P) (G : X → X)
    (be : ℝ → X → X) : Prop where
  par : ∀ ctx n v t dst tau, Mo.par ctx n v t dst tau = .ok (be tau v) tau
  be : ∀ tau v, be tau v = v + tau • G (be tau v)

/-- The scheme `sch` is the Strang splitting of the explicit method `T` for `F` and the implicit midpoint
(Crank-Nicolson) rule for `G`. -/
def RealisesStrang {s : ℕ} (sch : Scheme) (T : RK.Tableau s) : Prop :=
  ∀ (X P : Type) (_ : AddCommGroup X) (_ : Module ℝ X) (Mo : Modules X P) (F G : X → X)
    (dt : Ctx → SV X P → Option ℝ → ℝ) (be : ℝ → X → X), EulerSteps Mo F dt → ImplicitSteps Mo G be →
  ∀ (ctx : Ctx) (t tau_max : ℝ) (m : Mem X P) (calls : ℕ),
    let tau := dt ctx (prepared Mo t m) (some (tau_max / efficiency sch))
    let h := efficiency sch * tau
    tau ≠ 0 →
    ∃ m' n, singleStep Mo (program sch) ctx t tau_max m calls = .returned m' h n ∧
      ∃ v w, RK.IsStep T F (h / 2) (m old).U v ∧ w = v + h • G ((1 / 2 : ℝ) • (v + w)) ∧
        RK.IsStep T F (h / 2) w (m' old).U

theorem step_erk33 {X : Type} [AddCommGroup X] [Module ℝ X] (F : X → X) (τ : ℝ) (u T0 T1 u' : X)
    (h0 : T0 = u + τ • F u) (h1 : T1 = u + (2 * τ) • F T0) (h2 : u' = u + τ • ((3 / 4 : ℝ) • F u + (9 / 4 : ℝ) • F T1)) :
    RK.IsStep RK.erk33 F (3 * τ) u u' := by
  apply RK.isStep_three u T0 T1
  · change u = u + (3 * τ) • ((0 : ℝ) • _ + (0 : ℝ) • _ + (0 : ℝ) • _); module
  · change T0 = u + (3 * τ) • ((1 / 3 : ℝ) • _ + (0 : ℝ) • _ + (0 : ℝ) • _); rw [h0]; module
  · change T1 = u + (3 * τ) • ((0 : ℝ) • _ + (2 / 3 : ℝ) • _ + (0 : ℝ) • _); rw [h1]; module
  · change _ = u + (3 * τ) • ((1 / 4 : ℝ) • _ + (0 : ℝ) • _ + (3 / 4 : ℝ) • _); rw [h2]; module

theorem step_erk43 {X : Type} [AddCommGroup X] [Module ℝ X] (F : X → X) (τ : ℝ) (u T0 T1 T2 u' : X)
    (h0 : T0 = u + τ • F u) (h1 : T1 = u + (2 * τ) • F T0)
    (h2 : T2 = u + τ • (F T0 + (2 : ℝ) • F T1))
    (h3 : u' = u + τ • ((8 / 3 : ℝ) • F T0 - (4 / 3 : ℝ) • F T1 + (8 / 3 : ℝ) • F T2)) :
    RK.IsStep RK.erk43 F (4 * τ) u u' := by
  apply RK.isStep_four u T0 T1 T2
  · change u = u + (4 * τ) • ((0 : ℝ) • _ + (0 : ℝ) • _ + (0 : ℝ) • _ + (0 : ℝ) • _); module
  · change T0 = u + (4 * τ) • ((1 / 4 : ℝ) • _ + (0 : ℝ) • _ + (0 : ℝ) • _ + (0 : ℝ) • _); rw [h0]; module
  · change T1 = u + (4 * τ) • ((0 : ℝ) • _ + (1 / 2 : ℝ) • _ + (0 : ℝ) • _ + (0 : ℝ) • _); rw [h1]; module
  · change T2 = u + (4 * τ) • ((0 : ℝ) • _ + (1 / 4 : ℝ) • _ + (1 / 2 : ℝ) • _ + (0 : ℝ) • _); rw [h2]; module
  · change _ = u + (4 * τ) • ((0 : ℝ) • _ + (2 / 3 : ℝ) • _ + (-1 / 3 : ℝ) • _ + (2 / 3 : ℝ) • _); rw [h3]; module

theorem step_ssprk33 {X : Type} [AddCommGroup X] [Module ℝ X] (F : X → X) (τ : ℝ) (u T0 T1 u' : X)
    (h0 : T0 = u + τ • F u) (h1 : T1 = u + (τ / 4) • (F u + F T0))
    (h2 : u' = u + τ • ((1 / 6 : ℝ) • F u + (1 / 6 : ℝ) • F T0 + (2 / 3 : ℝ) • F T1)) :
    RK.IsStep RK.ssprk33 F τ u u' := by
  apply RK.isStep_three u T0 T1
  · change u = u + τ • ((0 : ℝ) • _ + (0 : ℝ) • _ + (0 : ℝ) • _); module
  · change T0 = u + τ • ((1 : ℝ) • _ + (0 : ℝ) • _ + (0 : ℝ) • _); rw [h0]; module
  · change T1 = u + τ • ((1 / 4 : ℝ) • _ + (1 / 4 : ℝ) • _ + (0 : ℝ) • _); rw [h1]; module
  · change _ = u + τ • ((1 / 6 : ℝ) • _ + (1 / 6 : ℝ) • _ + (2 / 3 : ℝ) • _); rw [h2]

theorem midpoint {X : Type} [AddCommGroup X] [Module ℝ X] (G : X → X) (τ : ℝ) (v B : X) (hB : B = v + τ • G B) :
    (2 : ℝ) • B + (-1 : ℝ) • v = v + (2 * τ) • G ((1 / 2 : ℝ) • (v + ((2 : ℝ) • B + (-1 : ℝ) • v))) := by
  have e : (1 / 2 : ℝ) • (v + ((2 : ℝ) • B + (-1 : ℝ) • v)) = B := by module
  rw [e]
  generalize G B = g at *
  rw [hB]; module

theorem strang_erk_33 : RealisesStrang .strang_erk_33_cn RK.erk33 := by
  intro X P _ _ Mo F G dt be ⟨hbc, hhyp⟩ ⟨hpar, hbe⟩ ctx t tau_max m calls
  simp only [prepared, hbc, efficiency]
  intro hdt
  generalize hτ : dt ctx ⟨(m old).U, Mo.pre (m old).U⟩ (some (tau_max / 6)) = τ at *
  simp only [singleStep, program, strangErk33, run, exec, hbc, hhyp, hτ, hdt, hpar, finish, setU, stageArgs,
    if_true, if_false, reduceCtorEq, List.map_cons, List.map_nil, List.sum_cons, List.sum_nil, temp.injEq,
    Nat.reduceEqDiff, OfNat.ofNat_ne_zero, OfNat.ofNat_ne_one, OfNat.zero_ne_ofNat, OfNat.one_ne_ofNat,
    one_ne_zero, zero_ne_one, ne_eq, not_true_eq_false, Bool.false_eq_true]
  refine ⟨_, _, rfl, ?_⟩
  simp only [setU, swapOld, if_true, if_false, reduceCtorEq, temp.injEq, Nat.reduceEqDiff,
    OfNat.ofNat_ne_zero, OfNat.ofNat_ne_one, OfNat.zero_ne_ofNat, OfNat.one_ne_ofNat, one_ne_zero, zero_ne_one]
  generalize (m old).U = u
  generalize h0 : u + _ = T0
  generalize h1 : T0 + _ = T1
  generalize h2 : T1 + _ = T2
  have hB := hbe (3 * τ) T2
  generalize be (3 * τ) T2 = B at *
  have hW := midpoint G (3 * τ) T2 B hB
  generalize (2 : ℝ) • B + (-1 : ℝ) • T2 = W at *
  generalize g0 : W + _ = S0
  generalize g1 : S0 + _ = S1
  generalize g2 : S1 + _ = S2
  have e : 6 * τ / 2 = 3 * τ := by ring
  rw [e]
  refine ⟨T2, W, step_erk33 F τ u T0 T1 T2 ?_ ?_ ?_, ?_, step_erk33 F τ W S0 S1 S2 ?_ ?_ ?_⟩
  · rw [← h0]; module
  · rw [← h1, ← h0]; module
  · rw [← h2, ← h1, ← h0]; module
  · rw [show (6 : ℝ) * τ = 2 * (3 * τ) by ring]; exact hW
  · rw [← g0]; module
  · rw [← g1, ← g0]; module
  · rw [← g2, ← g1, ← g0]; module

theorem strang_erk_43 : RealisesStrang .strang_erk_43_cn RK.erk43 := by
  intro X P _ _ Mo F G dt be ⟨hbc, hhyp⟩ ⟨hpar, hbe⟩ ctx t tau_max m calls
  simp only [prepared, hbc, efficiency]
  intro hdt
  generalize hτ : dt ctx ⟨(m old).U, Mo.pre (m old).U⟩ (some (tau_max / 8)) = τ at *
  simp only [singleStep, program, strangErk43, run, exec, hbc, hhyp, hτ, hdt, hpar, finish, setU, stageArgs,
    if_true, if_false, reduceCtorEq, List.map_cons, List.map_nil, List.sum_cons, List.sum_nil, temp.injEq,
    Nat.reduceEqDiff, OfNat.ofNat_ne_zero, OfNat.ofNat_ne_one, OfNat.zero_ne_ofNat, OfNat.one_ne_ofNat,
    one_ne_zero, zero_ne_one, ne_eq, not_true_eq_false, Bool.false_eq_true]
  refine ⟨_, _, rfl, ?_⟩
  simp only [setU, swapOld, if_true, if_false, reduceCtorEq, temp.injEq, Nat.reduceEqDiff,
    OfNat.ofNat_ne_zero, OfNat.ofNat_ne_one, OfNat.zero_ne_ofNat, OfNat.one_ne_ofNat, one_ne_zero, zero_ne_one]
  generalize (m old).U = u
  generalize h0 : u + _ = T0
  generalize h1 : T0 + _ = T1
  generalize h2 : T1 + _ = T2
  generalize h3 : T2 + _ = T3
  have hB := hbe (4 * τ) T3
  generalize be (4 * τ) T3 = B at *
  have hW := midpoint G (4 * τ) T3 B hB
  generalize (2 : ℝ) • B + (-1 : ℝ) • T3 = W at *
  generalize g0 : W + _ = S0
  generalize g1 : S0 + _ = S1
  generalize g2 : S1 + _ = S2
  generalize g3 : S2 + _ = S3
  have e : 8 * τ / 2 = 4 * τ := by ring
  rw [e]
  refine ⟨T3, W, step_erk43 F τ u T0 T1 T2 T3 ?_ ?_ ?_ ?_, ?_, step_erk43 F τ W S0 S1 S2 S3 ?_ ?_ ?_ ?_⟩
  · rw [← h0]; module
  · rw [← h1, ← h0]; module
  · rw [← h2, ← h1, ← h0]; module
  · rw [← h3, ← h2, ← h1, ← h0]; module
  · rw [show (8 : ℝ) * τ = 2 * (4 * τ) by ring]; exact hW
  · rw [← g0]; module
  · rw [← g1, ← g0]; module
  · rw [← g2, ← g1, ← g0]; module
  · rw [← g3, ← g2, ← g1, ← g0]; module

theorem strang_ssprk_33 : RealisesStrang .strang_ssprk_33_cn RK.ssprk33 := by
  intro X P _ _ Mo F G dt be ⟨hbc, hhyp⟩ ⟨hpar, hbe⟩ ctx t tau_max m calls
  simp only [prepared, hbc, efficiency]
  intro hdt
  generalize hτ : dt ctx ⟨(m old).U, Mo.pre (m old).U⟩ (some (tau_max / 2)) = τ at *
  simp only [singleStep, program, strangSsprk33, run, exec, hbc, hhyp, hτ, hdt, hpar, finish, setU, stageArgs,
    if_true, if_false, reduceCtorEq, List.map_cons, List.map_nil, List.sum_cons, List.sum_nil, temp.injEq,
    Nat.reduceEqDiff, OfNat.ofNat_ne_zero, OfNat.ofNat_ne_one, OfNat.zero_ne_ofNat, OfNat.one_ne_ofNat,
    one_ne_zero, zero_ne_one, ne_eq, not_true_eq_false, Bool.false_eq_true]
  refine ⟨_, _, rfl, ?_⟩
  simp only [setU, swapOld, if_true, if_false, reduceCtorEq, temp.injEq, Nat.reduceEqDiff,
    OfNat.ofNat_ne_zero, OfNat.ofNat_ne_one, OfNat.zero_ne_ofNat, OfNat.one_ne_ofNat, one_ne_zero, zero_ne_one]
  generalize (m old).U = u
  generalize h0 : u + _ = T0
  generalize h1 : (1 / 4 : ℝ) • (T0 + _) + (3 / 4 : ℝ) • u = T1
  generalize h2 : (2 / 3 : ℝ) • (T1 + _) + (1 / 3 : ℝ) • u = T2
  have hB := hbe (1 * τ) T2
  generalize be (1 * τ) T2 = B at *
  have hW := midpoint G (1 * τ) T2 B hB
  generalize (2 : ℝ) • B + (-1 : ℝ) • T2 = W at *
  generalize g0 : W + _ = S0
  generalize g1 : (1 / 4 : ℝ) • (S0 + _) + (3 / 4 : ℝ) • W = S1
  generalize g2 : (2 / 3 : ℝ) • (S1 + _) + (1 / 3 : ℝ) • W = S2
  have e : 2 * τ / 2 = τ := by ring
  rw [e]
  refine ⟨T2, W, step_ssprk33 F τ u T0 T1 T2 ?_ ?_ ?_, ?_, step_ssprk33 F τ W S0 S1 S2 ?_ ?_ ?_⟩
  · rw [← h0]; module
  · rw [← h1, ← h0]; module
  · rw [← h2, ← h1, ← h0]; module
  · rw [show (2 : ℝ) * τ = 2 * (1 * τ) by ring]; exact hW
  · rw [← g0]; module
  · rw [← g1, ← g0]; module
  · rw [← g2, ← g1, ← g0]; module


end

end Integrator
end Ryujin
