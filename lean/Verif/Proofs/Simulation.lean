import Verif.Model.TimeIntegrator
import Verif.Props.Runs

/-!
# Two sets of modules that correspond to each other give corresponding runs

If two hyperbolic and parabolic modules map corresponding vectors to corresponding vectors, with the same outcome and the same `tau`,
then so do all time stepping schemes with all recoveries, and complete runs.
-/

namespace Ryujin
namespace Integrator
namespace Simulation

noncomputable section

open Slot Instr

variable {X P Y Q : Type} [AddCommGroup X] [Module ℝ X] [AddCommGroup Y] [Module ℝ Y]

/-- Two calls of a module end in the same way, with the same `tau` and corresponding vectors. -/
def ResRel (E : X → Y → Prop) : Res X → Res Y → Prop
  | .ok u τ, .ok u' τ' => τ = τ' ∧ E u u'
  | .restart _, .restart _ => True
  | .crash, .crash => True
  | _, _ => False

/-- Corresponding modules: `E` relates state vectors, `C` state vectors with precomputed values and ghost values after
`prepare_state_vector`. -/
structure Sim (Mo : Modules X P) (No : Modules Y Q) (E : X → Y → Prop) (C : SV X P → SV Y Q → Prop) : Prop where
  lin : ∀ (a b : ℝ) u u' v v', E u u' → E v v' → E (a • u + b • v) (a • u' + b • v')
  prep : ∀ t u u', E u u' → C ⟨Mo.bc t u, Mo.pre (Mo.bc t u)⟩ ⟨No.bc t u', No.pre (No.bc t u')⟩
  vec : ∀ s s', C s s' → E s.U s'.U
  hyp : ∀ ctx n s s' st st' dst dst' tau cap, C s s' → List.Forall₂ (fun p q => p.1 = q.1 ∧ C p.2 q.2) st st' →
    ResRel E (Mo.hyp ctx n s st dst tau cap) (No.hyp ctx n s' st' dst' tau cap)
  par : ∀ ctx n v v' t dst dst' tau, E v v' → ResRel E (Mo.par ctx n v t dst tau) (No.par ctx n v' t dst' tau)

/-- Which vectors a statement reads and writes: `E` are the vectors that hold a state, `C` those that have been prepared. -/
def flow (E C : List Slot) : Instr → Option (List Slot × List Slot)
  | .prepare v _ => if v ∈ E then some (E, v :: C) else none
  | .first src dst _ => if src ∈ C ∧ dst ≠ old then some (dst :: E, C.filter (· ≠ dst)) else none
  | .hyp src st dst => if src ∈ C ∧ (∀ p ∈ st.map Prod.fst, p ∈ C) ∧ dst ≠ old then some (dst :: E, C.filter (· ≠ dst)) else none
  | .par src _ _ dst _ => if src ∈ E ∧ dst ≠ old then some (dst :: E, C.filter (· ≠ dst)) else none
  | .sadd dst _ _ src => if dst ∈ E ∧ src ∈ E ∧ dst ≠ old then some (E, C.filter (· ≠ dst)) else none

/-- The same for a list of statements. -/
def flows : List Slot → List Slot → List Instr → Option (List Slot × List Slot)
  | E, C, [] => some (E, C)
  | E, C, i :: is => (flow E C i).bind fun p => flows p.1 p.2 is

/-- Every scheme reads only vectors it has written and, as arguments of hyperbolic steps, prepared; none writes to the old vector. -/
theorem program_flows (sch : Scheme) : ∃ p, flows [old] [] (program sch).code = some p ∧ temp (program sch).result ∈ p.1 := by
  cases sch <;> exact ⟨_, rfl, by decide⟩

variable {Mo : Modules X P} {No : Modules Y Q} {E : X → Y → Prop} {C : SV X P → SV Y Q → Prop}

/-- Corresponding configurations. -/
structure ConfRel (E : X → Y → Prop) (C : SV X P → SV Y Q → Prop) (Es Cs : List Slot) (s : Conf X P) (s' : Conf Y Q) : Prop where
  tau : s.tau = s'.tau
  calls : s.calls = s'.calls
  vec : ∀ v ∈ Es, E (s.mem v).U (s'.mem v).U
  prepared : ∀ v ∈ Cs, C (s.mem v) (s'.mem v)

/-- Corresponding ends of a run of statements; after an exception the old vectors still correspond. -/
def OutRel (E : X → Y → Prop) (C : SV X P → SV Y Q → Prop) (Es Cs : List Slot) : Out X P → Out Y Q → Prop
  | .done s, .done s' => ConfRel E C Es Cs s s'
  | .restart s, .restart s' => s.calls = s'.calls ∧ E (s.mem old).U (s'.mem old).U
  | .crash, .crash => True
  | _, _ => False

omit [AddCommGroup X] [Module ℝ X] [AddCommGroup Y] [Module ℝ Y] in
theorem finish_rel {Es Cs : List Slot} {s : Conf X P} {s' : Conf Y Q} (hold : old ∈ Es) (h : ConfRel E C Es Cs s s')
    {dst : Slot} (hd : dst ≠ old) (b : Bool) {r : Res X} {r' : Res Y} (hr : ResRel E r r') :
    OutRel E C (dst :: Es) (Cs.filter (· ≠ dst)) (finish s dst b r) (finish s' dst b r') := by
  cases r <;> cases r' <;> try exact hr.elim
  · obtain ⟨rfl, hu⟩ := hr
    refine ⟨?_, ?_, fun v hv => ?_, fun v hv => ?_⟩
    · simp only [h.tau]
    · simp only [h.calls]
    · simp only [setU]
      by_cases hvd : v = dst
      · simp only [hvd, if_true]; exact hu
      · simp only [hvd, if_false]
        exact h.vec v ((List.mem_cons.1 hv).resolve_left hvd)
    · obtain ⟨hv, hvd⟩ := List.mem_filter.1 hv
      have hvd : v ≠ dst := by simpa using hvd
      simp only [setU, hvd, if_false]
      exact h.prepared v hv
  · refine ⟨?_, ?_⟩
    · simp only [h.calls]
    · simp only [setU, Ne.symm hd, if_false]
      exact h.vec old hold
  · trivial

theorem exec_rel (hs : Sim Mo No E C) (ctx : Ctx) (t tau_max : ℝ) {Es Cs Es' Cs' : List Slot} {s : Conf X P} {s' : Conf Y Q}
    (hold : old ∈ Es) (h : ConfRel E C Es Cs s s') (i : Instr) (hf : flow Es Cs i = some (Es', Cs')) :
    old ∈ Es' ∧ OutRel E C Es' Cs' (exec Mo ctx t tau_max s i) (exec No ctx t tau_max s' i) := by
  cases i with
  | prepare v c =>
    simp only [flow] at hf
    split_ifs at hf with hv
    simp only [Option.some.injEq, Prod.mk.injEq] at hf
    obtain ⟨rfl, rfl⟩ := hf
    have hc := hs.prep (t + c * s'.tau) _ _ (h.vec v hv)
    refine ⟨hold, ?_⟩
    simp only [exec, h.tau]
    refine ⟨rfl, h.calls, fun w hw => ?_, fun w hw => ?_⟩
    · by_cases hwv : w = v
      · simp only [hwv, if_true]; exact hs.vec _ _ hc
      · simp only [hwv, if_false]; exact h.vec w hw
    · by_cases hwv : w = v
      · simp only [hwv, if_true]; exact hc
      · simp only [hwv, if_false]; exact h.prepared w ((List.mem_cons.1 hw).resolve_left hwv)
  | first src dst div =>
    simp only [flow] at hf
    split_ifs at hf with hc
    simp only [Option.some.injEq, Prod.mk.injEq] at hf
    obtain ⟨rfl, rfl⟩ := hf
    refine ⟨List.mem_cons_of_mem _ hold, ?_⟩
    simp only [exec, h.calls]
    exact finish_rel hold h hc.2 true (hs.hyp _ _ _ _ _ _ _ _ _ _ (h.prepared src hc.1) .nil)
  | hyp src st dst =>
    simp only [flow] at hf
    split_ifs at hf with hc
    simp only [Option.some.injEq, Prod.mk.injEq] at hf
    obtain ⟨rfl, rfl⟩ := hf
    refine ⟨List.mem_cons_of_mem _ hold, ?_⟩
    simp only [exec, h.calls, h.tau]
    refine finish_rel hold h hc.2.2 false (hs.hyp _ _ _ _ _ _ _ _ _ _ (h.prepared src hc.1) ?_)
    unfold stageArgs
    rw [List.forall₂_map_left_iff, List.forall₂_map_right_iff, List.forall₂_same]
    exact fun p hp => ⟨rfl, h.prepared _ (hc.2.1 _ (List.mem_map_of_mem hp))⟩
  | par src c st dst f =>
    simp only [flow] at hf
    split_ifs at hf with hc
    simp only [Option.some.injEq, Prod.mk.injEq] at hf
    obtain ⟨rfl, rfl⟩ := hf
    refine ⟨List.mem_cons_of_mem _ hold, ?_⟩
    simp only [exec, h.calls, h.tau]
    split_ifs
    · trivial
    · exact finish_rel hold h hc.2 false (hs.par _ _ _ _ _ _ _ _ (h.vec src hc.1))
  | sadd dst a b src =>
    simp only [flow] at hf
    split_ifs at hf with hc
    simp only [Option.some.injEq, Prod.mk.injEq] at hf
    obtain ⟨rfl, rfl⟩ := hf
    refine ⟨hold, h.tau, h.calls, fun w hw => ?_, fun w hw => ?_⟩
    · simp only [setU]
      by_cases hwd : w = dst
      · simp only [hwd, if_true]; exact hs.lin _ _ _ _ _ _ (h.vec _ hc.1) (h.vec _ hc.2.1)
      · simp only [hwd, if_false]; exact h.vec w hw
    · obtain ⟨hw, hwd⟩ := List.mem_filter.1 hw
      have hwd : w ≠ dst := by simpa using hwd
      simp only [setU, hwd, if_false]
      exact h.prepared w hw

theorem run_rel (hs : Sim Mo No E C) (ctx : Ctx) (t tau_max : ℝ) (code : List Instr) {Es Cs Es' Cs' : List Slot} {s : Conf X P}
    {s' : Conf Y Q} (hold : old ∈ Es) (h : ConfRel E C Es Cs s s') (hf : flows Es Cs code = some (Es', Cs')) :
    OutRel E C Es' Cs' (run Mo ctx t tau_max code s) (run No ctx t tau_max code s') := by
  induction code generalizing Es Cs s s' with
  | nil =>
    simp only [flows, Option.some.injEq, Prod.mk.injEq] at hf
    obtain ⟨rfl, rfl⟩ := hf
    exact h
  | cons i is ih =>
    simp only [flows] at hf
    obtain ⟨⟨E1, C1⟩, h1, h2⟩ := Option.bind_eq_some_iff.1 hf
    obtain ⟨hold1, hr⟩ := exec_rel hs ctx t tau_max hold h i h1
    simp only [run]
    cases he : exec Mo ctx t tau_max s i <;> cases he' : exec No ctx t tau_max s' i <;> rw [he, he'] at hr <;>
      try exact hr.elim
    · exact ih hold1 hr h2
    · exact hr
    · trivial

/-- Corresponding ends of a time step: same kind of end, same `tau`, same number of calls, corresponding state vectors. -/
def ResultRel (E : X → Y → Prop) : Result X P → Result Y Q → Prop
  | .returned m tau n, .returned m' tau' n' => tau = tau' ∧ n = n' ∧ E (m old).U (m' old).U
  | .restart m n, .restart m' n' => n = n' ∧ E (m old).U (m' old).U
  | .crash, .crash => True
  | _, _ => False

theorem singleStep_rel (hs : Sim Mo No E C) (sch : Scheme) (ctx : Ctx) (t tau_max : ℝ) (m : Mem X P) (m' : Mem Y Q) (calls : ℕ)
    (h : E (m old).U (m' old).U) :
    ResultRel E (singleStep Mo (program sch) ctx t tau_max m calls) (singleStep No (program sch) ctx t tau_max m' calls) := by
  obtain ⟨⟨Es, Cs⟩, hf, hr⟩ := program_flows sch
  have h0 : ConfRel E C [old] [] (⟨m, 0, calls⟩ : Conf X P) (⟨m', 0, calls⟩ : Conf Y Q) :=
    ⟨rfl, rfl, fun v hv => by rw [List.mem_singleton.1 hv]; exact h, fun v hv => by cases hv⟩
  have := run_rel hs ctx t tau_max (program sch).code (List.mem_singleton.2 rfl) h0 hf
  unfold singleStep
  cases he : run Mo ctx t tau_max (program sch).code ⟨m, 0, calls⟩ <;>
    cases he' : run No ctx t tau_max (program sch).code ⟨m', 0, calls⟩ <;> rw [he, he'] at this <;> try exact this.elim
  · exact ⟨by rw [this.tau], this.calls, this.vec _ hr⟩
  · exact this
  · trivial

/-- **Time steps of corresponding modules correspond.** -/
theorem step_rel (hs : Sim Mo No E C) (sch : Scheme) (rec : Recovery) (cflMin cflMax : ℝ) (ctx : Ctx) (t tFinal : ℝ) (m : Mem X P)
    (m' : Mem Y Q) (calls : ℕ) (h : E (m old).U (m' old).U) :
    ResultRel E (step Mo (program sch) rec cflMin cflMax ctx t tFinal m calls).1
      (step No (program sch) rec cflMin cflMax ctx t tFinal m' calls).1 ∧
    (step Mo (program sch) rec cflMin cflMax ctx t tFinal m calls).2 =
      (step No (program sch) rec cflMin cflMax ctx t tFinal m' calls).2 := by
  unfold step
  cases rec with
  | none =>
    dsimp only
    have h1 := singleStep_rel hs sch ctx t (tFinal - t) m m' calls h
    cases he : singleStep Mo (program sch) ctx t (tFinal - t) m calls <;>
      cases he' : singleStep No (program sch) ctx t (tFinal - t) m' calls <;> rw [he, he'] at h1 <;> try exact h1.elim
    · exact ⟨h1, rfl⟩
    · exact ⟨trivial, rfl⟩
    · exact ⟨trivial, rfl⟩
  | bang_bang_control =>
    dsimp only
    have h1 := singleStep_rel hs sch ⟨cflMax, .raise_exception, .raise_exception⟩ t (tFinal - t) m m' calls h
    cases he : singleStep Mo (program sch) ⟨cflMax, .raise_exception, .raise_exception⟩ t (tFinal - t) m calls <;>
      cases he' : singleStep No (program sch) ⟨cflMax, .raise_exception, .raise_exception⟩ t (tFinal - t) m' calls <;>
      rw [he, he'] at h1 <;> try exact h1.elim
    · exact ⟨h1, rfl⟩
    · obtain ⟨hn, h2⟩ := h1
      subst hn
      exact ⟨singleStep_rel hs sch _ _ _ _ _ _ h2, rfl⟩
    · exact ⟨trivial, rfl⟩

/-- **Complete runs of corresponding modules correspond.** -/
theorem run_sim (hs : Sim Mo No E C) (sch : Scheme) (rec : Recovery) (cflMin cflMax : ℝ) (ok : Ctx → Prop) (m m1 : Mem X P)
    (h : Run Mo sch rec cflMin cflMax (fun ctx _ => ok ctx) m m1) (m' : Mem Y Q) (h0 : E (m old).U (m' old).U) :
    ∃ m1', Run No sch rec cflMin cflMax (fun ctx _ => ok ctx) m' m1' ∧ E (m1 old).U (m1' old).U := by
  induction h with
  | start => exact ⟨m', .start m', h0⟩
  | @next m1 m2 ctx ctx' t tFinal tau calls n prev call side ih =>
    obtain ⟨m1', hr, h1⟩ := ih
    obtain ⟨h2, h3⟩ := step_rel hs sch rec cflMin cflMax ctx t tFinal m1 m1' calls h1
    rw [call] at h2 h3
    cases he : (step No (program sch) rec cflMin cflMax ctx t tFinal m1' calls).1 with
    | returned m2' tau' n' =>
      rw [he] at h2
      have hc : step No (program sch) rec cflMin cflMax ctx t tFinal m1' calls = (.returned m2' tau' n', ctx') :=
        Prod.ext he h3.symm
      exact ⟨m2', .next hr hc fun u _ => side _ (Or.inl rfl), h2.2.2⟩
    | restart _ _ => rw [he] at h2; exact h2.elim
    | crash => rw [he] at h2; exact h2.elim

end

end Simulation
end Integrator
end Ryujin
