import Verif.Props.Dependence
import Verif.Props.Runs
import Verif.Props.Distributed

/-!
# Domain of dependence of complete runs: auxiliary statements (C106)
-/

namespace Ryujin
namespace Integrator

noncomputable section

open Slot Instr

section abstract

variable {X P : Type} [AddCommGroup X] [Module ℝ X]

/-- Modules whose calls extend the domain of dependence by `L` (a hyperbolic update) and `p` (the precomputed values) layers.
`E n` and `C n` relate (prepared) vectors that agree within `n` layers; only what happens within `K` layers matters. -/
structure Grows (Mo No : Modules X P) (K L p : ℕ) (E : ℕ → X → X → Prop) (C : ℕ → SV X P → SV X P → Prop) : Prop where
  size : ∀ ctx k s st dst tau cap u τ, Mo.hyp ctx k s st dst tau cap = .ok u τ → τ ≠ 0 ∧ (tau ≠ 0 → τ = tau)
  size' : ∀ ctx k s st dst tau cap u τ, No.hyp ctx k s st dst tau cap = .ok u τ → τ ≠ 0 ∧ (tau ≠ 0 → τ = tau)
  lin : ∀ n (a b : ℝ) u u' v v', E n u u' → E n v v' → E n (a • u + b • v) (a • u' + b • v')
  mono : ∀ n m u u', n ≤ m → E m u u' → E n u u'
  monoC : ∀ n m s s', n ≤ m → C m s s' → C n s s'
  bc : ∀ n t u u', n ≤ K → E n u u' → E n (Mo.bc t u) (No.bc t u')
  pre : ∀ n u u', E (n + p) u u' → C n ⟨u, Mo.pre u⟩ ⟨u', No.pre u'⟩
  hyp : ∀ n ctx k k' s s' st st' dst dst' tau tau' cap cap' u u' τ, C (n + L) s s' →
    List.Forall₂ (fun a b => a.1 = b.1 ∧ C (n + L) a.2 b.2) st st' →
    Mo.hyp ctx k s st dst tau cap = .ok u τ → No.hyp ctx k' s' st' dst' tau' cap' = .ok u' τ → E n u u'

/-- The number of hyperbolic updates the content of a vector depends on: all vectors (`Es`) and the prepared ones (`Cs`). -/
def depth (Es Cs : List (Slot × ℕ)) : Instr → Option (List (Slot × ℕ) × List (Slot × ℕ))
  | .prepare v _ => (Es.lookup v).map fun d => (Es, (v, d) :: Cs)
  | .hyp src st dst =>
    if dst = old then none
    else (Cs.lookup src).bind fun d => (st.mapM fun q => Cs.lookup q.1).map fun ds =>
      ((dst, ds.foldl max d + 1) :: Es, Cs.filter fun q => q.1 ≠ dst)
  | .sadd dst _ _ src =>
    if dst = old then none
    else (Es.lookup dst).bind fun d => (Es.lookup src).map fun d' => ((dst, max d d') :: Es, Cs.filter fun q => q.1 ≠ dst)
  | _ => none

/-- The same for a list of statements. -/
def depths : List (Slot × ℕ) → List (Slot × ℕ) → List Instr → Option (List (Slot × ℕ) × List (Slot × ℕ))
  | Es, Cs, [] => some (Es, Cs)
  | Es, Cs, i :: is => (depth Es Cs i).bind fun q => depths q.1 q.2 is

/-- The number of hyperbolic updates of a time step of an explicit scheme. -/
def subSteps : Scheme → ℕ
  | .erk_11 => 1
  | .ssprk_22 | .erk_22 => 2
  | .ssprk_33 | .erk_33 => 3
  | .erk_43 => 4
  | .erk_54 => 5
  | _ => 0

/-- The divisor of the first update of a scheme. -/
def firstDiv (sch : Scheme) : ℝ :=
  match (program sch).code with
  | _ :: .first _ _ d :: _ => d
  | _ => 1

/-- All explicit schemes begin in the same way. -/
theorem explicit_code {sch : Scheme} (h : schemeAccepted true sch = true) : ∃ d rest Es Cs,
    (program sch).code = prepare old 0 :: first old (temp 0) d :: rest ∧
    depths [(temp 0, 1), (old, 0)] [(old, 0)] rest = some (Es, Cs) ∧
    Es.lookup (temp (program sch).result) = some (subSteps sch) ∧ (program sch).factor ≠ 0 ∧
    0 < d ∧ d = firstDiv sch := by
  cases sch <;> first
    | exact absurd h (by decide)
    | exact ⟨_, _, _, _, rfl, rfl, by decide, by norm_num [program, ssprk22, ssprk33, erk11, erk22, erk33, erk43, erk54],
        by norm_num, by norm_num [firstDiv, program, ssprk22, ssprk33, erk11, erk22, erk33, erk43, erk54]⟩

variable {Mo No : Modules X P} {K L p : ℕ} {E : ℕ → X → X → Prop} {C : ℕ → SV X P → SV X P → Prop}

/-- Corresponding configurations of two executions. -/
structure Close (L p N : ℕ) (E : ℕ → X → X → Prop) (C : ℕ → SV X P → SV X P → Prop) (Es Cs : List (Slot × ℕ)) (s s' : Conf X P) : Prop where
  tau : s.tau = s'.tau
  ne : s.tau ≠ 0
  vec : ∀ v d, Es.lookup v = some d → ∀ n, n + d * (L + p) ≤ N → E n (s.mem v).U (s'.mem v).U
  prepared : ∀ v d, Cs.lookup v = some d → ∀ n, n + d * (L + p) + p ≤ N → C n (s.mem v) (s'.mem v)

theorem lookup_filter {v w : Slot} {d : ℕ} (l : List (Slot × ℕ)) (h : (l.filter fun q => q.1 ≠ w).lookup v = some d) :
    v ≠ w ∧ l.lookup v = some d := by
  induction l with
  | nil => cases h
  | cons a l ih =>
    obtain ⟨a, e⟩ := a
    by_cases ha : a = w
    · rw [List.filter_cons_of_neg (by simpa using ha)] at h
      obtain ⟨h1, h2⟩ := ih h
      refine ⟨h1, ?_⟩
      rw [List.lookup_cons, show (v == a) = false by rw [ha]; simpa using h1]
      exact h2
    · rw [List.filter_cons_of_pos (by simpa using ha)] at h
      rw [List.lookup_cons] at h ⊢
      by_cases hv : v = a
      · subst hv
        exact ⟨ha, by simpa using h⟩
      · rw [show (v == a) = false by simpa using hv] at h ⊢
        exact ih h

theorem foldl_max_le (ds : List ℕ) (d : ℕ) : d ≤ ds.foldl max d ∧ ∀ e ∈ ds, e ≤ ds.foldl max d := by
  induction ds generalizing d with
  | nil => simp
  | cons a ds ih =>
    rw [List.foldl_cons]
    obtain ⟨h1, h2⟩ := ih (max d a)
    refine ⟨(le_max_left _ _).trans h1, ?_⟩
    intro e he
    rcases List.mem_cons.1 he with rfl | he
    · exact (le_max_right _ _).trans h1
    · exact h2 e he

theorem mapM_lookup {Cs : List (Slot × ℕ)} {st : List (Slot × ℝ)} {ds : List ℕ} (h : (st.mapM fun q => Cs.lookup q.1) = some ds) :
    ∀ q ∈ st, ∃ d ∈ ds, Cs.lookup q.1 = some d := by
  induction st generalizing ds with
  | nil => intro q hq; cases hq
  | cons a st ih =>
    rw [List.mapM_cons] at h
    obtain ⟨d, hd, h⟩ := Option.bind_eq_some_iff.1 h
    obtain ⟨es, he, h⟩ := Option.bind_eq_some_iff.1 h
    obtain rfl := Option.some.inj h
    intro q hq
    rcases List.mem_cons.1 hq with rfl | hq
    · exact ⟨d, List.mem_cons_self, hd⟩
    · obtain ⟨e, h1, h2⟩ := ih he q hq
      exact ⟨e, List.mem_cons_of_mem _ h1, h2⟩

theorem lookup_cons_cases {v w : Slot} {d e : ℕ} {l : List (Slot × ℕ)} (h : ((w, e) :: l).lookup v = some d) :
    (v = w ∧ d = e) ∨ (v ≠ w ∧ l.lookup v = some d) := by
  rw [List.lookup_cons] at h
  by_cases hv : v = w
  · subst hv
    simp only [beq_self_eq_true, Option.some.injEq] at h
    exact Or.inl ⟨rfl, h.symm⟩
  · rw [show (v == w) = false by simpa using hv] at h
    exact Or.inr ⟨hv, h⟩

theorem exec_close (hg : Grows Mo No K L p E C) (ctx : Ctx) (t m m' : ℝ) {N : ℕ} (hK : N ≤ K) {Es Cs Es' Cs' : List (Slot × ℕ)} {s s' s1 s1' : Conf X P}
    (h : Close L p N E C Es Cs s s') (i : Instr) (hf : depth Es Cs i = some (Es', Cs'))
    (h1 : exec Mo ctx t m s i = .done s1) (h1' : exec No ctx t m' s' i = .done s1') : Close L p N E C Es' Cs' s1 s1' := by
  cases i with
  | prepare v c =>
    simp only [depth] at hf
    obtain ⟨d, hd, hf⟩ := Option.map_eq_some_iff.1 hf
    simp only [Prod.mk.injEq] at hf
    obtain ⟨rfl, rfl⟩ := hf
    simp only [exec, Out.done.injEq] at h1 h1'
    rw [← h1, ← h1']
    refine ⟨h.tau, h.ne, fun w e hw n hn => ?_, fun w e hw n hn => ?_⟩
    · by_cases hwv : w = v
      · subst hwv
        rw [hd] at hw
        obtain rfl := Option.some.inj hw
        simp only [if_true, h.tau]
        exact hg.bc _ _ _ _ (by omega) (h.vec w _ hd n hn)
      · simp only [hwv, if_false]
        exact h.vec w e hw n hn
    · rcases lookup_cons_cases hw with ⟨rfl, rfl⟩ | ⟨hwv, hw⟩
      · simp only [if_true, h.tau]
        exact hg.pre n _ _ (hg.bc _ _ _ _ (by omega) (h.vec w _ hd (n + p) (by omega)))
      · simp only [hwv, if_false]
        exact h.prepared w e hw n hn
  | first src dst div => cases hf
  | par src c st dst f => cases hf
  | sadd dst a b src =>
    simp only [depth] at hf
    split_ifs at hf with hdo
    obtain ⟨d, hd, hf⟩ := Option.bind_eq_some_iff.1 hf
    obtain ⟨d', hd', hf⟩ := Option.map_eq_some_iff.1 hf
    simp only [Prod.mk.injEq] at hf
    obtain ⟨rfl, rfl⟩ := hf
    simp only [exec, Out.done.injEq] at h1 h1'
    rw [← h1, ← h1']
    refine ⟨h.tau, h.ne, fun w e hw n hn => ?_, fun w e hw n hn => ?_⟩
    · simp only [setU]
      rcases lookup_cons_cases hw with ⟨rfl, rfl⟩ | ⟨hwv, hw⟩
      · simp only [if_true]
        refine hg.lin n _ _ _ _ _ _ (h.vec w _ hd n ?_) (h.vec src _ hd' n ?_)
        · exact (Nat.add_le_add_left (Nat.mul_le_mul_right _ (le_max_left _ _)) _).trans hn
        · exact (Nat.add_le_add_left (Nat.mul_le_mul_right _ (le_max_right _ _)) _).trans hn
      · simp only [hwv, if_false]
        exact h.vec w e hw n hn
    · obtain ⟨hwd, hw⟩ := lookup_filter _ hw
      simp only [setU, hwd, if_false]
      exact h.prepared w e hw n hn
  | hyp src st dst =>
    simp only [depth] at hf
    split_ifs at hf with hdo
    obtain ⟨d, hd, hf⟩ := Option.bind_eq_some_iff.1 hf
    obtain ⟨ds, hds, hf⟩ := Option.map_eq_some_iff.1 hf
    simp only [Prod.mk.injEq] at hf
    obtain ⟨rfl, rfl⟩ := hf
    simp only [exec] at h1 h1'
    cases hr : Mo.hyp ctx s.calls (s.mem src) (stageArgs s.mem st) (s.mem dst).U s.tau none with
    | crash => rw [hr] at h1; simp [finish] at h1
    | restart g => rw [hr] at h1; simp [finish] at h1
    | ok u τ =>
    cases hr' : No.hyp ctx s'.calls (s'.mem src) (stageArgs s'.mem st) (s'.mem dst).U s'.tau none with
    | crash => rw [hr'] at h1'; simp [finish] at h1'
    | restart g => rw [hr'] at h1'; simp [finish] at h1'
    | ok u' τ' =>
    rw [hr] at h1
    rw [hr'] at h1'
    simp only [finish, Out.done.injEq] at h1 h1'
    rw [← h1, ← h1']
    have hτ : τ = s.tau := (hg.size _ _ _ _ _ _ _ _ _ hr).2 h.ne
    have hτ' : τ' = s.tau := ((hg.size' _ _ _ _ _ _ _ _ _ hr').2 (h.tau ▸ h.ne)).trans h.tau.symm
    subst hτ
    subst hτ'
    refine ⟨h.tau, h.ne, fun w e hw n hn => ?_, fun w e hw n hn => ?_⟩
    · simp only [setU]
      rcases lookup_cons_cases hw with ⟨rfl, rfl⟩ | ⟨hwv, hw⟩
      · simp only [if_true]
        obtain ⟨m1, m2⟩ := foldl_max_le ds d
        refine hg.hyp n _ _ _ _ _ _ _ _ _ _ _ _ _ _ _ _ (h.prepared src d hd (n + L) ?_) ?_ hr hr'
        · have := Nat.mul_le_mul_right (L + p) m1
          rw [Nat.add_mul, Nat.one_mul] at hn
          omega
        · unfold stageArgs
          rw [List.forall₂_map_left_iff, List.forall₂_map_right_iff, List.forall₂_same]
          intro q hq
          obtain ⟨e, he, hl⟩ := mapM_lookup hds q hq
          refine ⟨rfl, h.prepared _ e hl (n + L) ?_⟩
          have := Nat.mul_le_mul_right (L + p) (m2 e he)
          rw [Nat.add_mul, Nat.one_mul] at hn
          omega
      · simp only [hwv, if_false]
        exact h.vec w e hw n hn
    · obtain ⟨hwd, hw⟩ := lookup_filter _ hw
      simp only [setU, hwd, if_false]
      exact h.prepared w e hw n hn

theorem run_close (hg : Grows Mo No K L p E C) (ctx : Ctx) (t m m' : ℝ) {N : ℕ} (hK : N ≤ K) (code : List Instr) {Es Cs Es' Cs' : List (Slot × ℕ)}
    {s s' s1 s1' : Conf X P} (h : Close L p N E C Es Cs s s') (hf : depths Es Cs code = some (Es', Cs'))
    (h1 : run Mo ctx t m code s = .done s1) (h1' : run No ctx t m' code s' = .done s1') : Close L p N E C Es' Cs' s1 s1' := by
  induction code generalizing Es Cs s s' with
  | nil =>
    simp only [depths, Option.some.injEq, Prod.mk.injEq] at hf
    obtain ⟨rfl, rfl⟩ := hf
    simp only [run, Out.done.injEq] at h1 h1'
    rw [← h1, ← h1']
    exact h
  | cons i is ih =>
    simp only [depths] at hf
    obtain ⟨⟨E1, C1⟩, hf1, hf2⟩ := Option.bind_eq_some_iff.1 hf
    simp only [run] at h1 h1'
    cases he : exec Mo ctx t m s i with
    | restart _ => rw [he] at h1; cases h1
    | crash => rw [he] at h1; cases h1
    | done s2 =>
    cases he' : exec No ctx t m' s' i with
    | restart _ => rw [he'] at h1'; cases h1'
    | crash => rw [he'] at h1'; cases h1'
    | done s2' =>
    rw [he] at h1
    rw [he'] at h1'
    exact ih (exec_close hg ctx t m m' hK h i hf1 he he') hf2 h1 h1'

/-- Statements with a depth do not change `tau`. -/
theorem run_keeps_tau (Mo : Modules X P) (ctx : Ctx) (t m : ℝ) (code : List Instr) {Es Cs Es' Cs' : List (Slot × ℕ)}
    {s s1 : Conf X P} (hf : depths Es Cs code = some (Es', Cs')) (h1 : run Mo ctx t m code s = .done s1) : s1.tau = s.tau := by
  induction code generalizing Es Cs s with
  | nil =>
    simp only [run, Out.done.injEq] at h1
    rw [← h1]
  | cons i is ih =>
    simp only [depths] at hf
    obtain ⟨⟨E1, C1⟩, hf1, hf2⟩ := Option.bind_eq_some_iff.1 hf
    simp only [run] at h1
    cases he : exec Mo ctx t m s i with
    | restart _ => rw [he] at h1; cases h1
    | crash => rw [he] at h1; cases h1
    | done s2 =>
      rw [he] at h1
      rw [ih hf2 h1]
      cases i with
      | prepare v c => simp only [exec, Out.done.injEq] at he; rw [← he]
      | first src dst div => cases hf1
      | par src c st dst f => cases hf1
      | sadd dst a b src => simp only [exec, Out.done.injEq] at he; rw [← he]
      | hyp src st dst =>
        simp only [exec] at he
        cases hr : Mo.hyp ctx s.calls (s.mem src) (stageArgs s.mem st) (s.mem dst).U s.tau none with
        | crash => rw [hr] at he; simp [finish] at he
        | restart g => rw [hr] at he; simp [finish] at he
        | ok u τ =>
          rw [hr] at he
          simp only [finish, Out.done.injEq] at he
          rw [← he]
          rfl

theorem run_cons {Mo : Modules X P} {ctx : Ctx} {t m : ℝ} {i : Instr} {is : List Instr} {s s1 : Conf X P}
    (h : run Mo ctx t m (i :: is) s = .done s1) : ∃ s2, exec Mo ctx t m s i = .done s2 ∧ run Mo ctx t m is s2 = .done s1 := by
  simp only [run] at h
  cases he : exec Mo ctx t m s i with
  | restart _ => rw [he] at h; cases h
  | crash => rw [he] at h; cases h
  | done s2 => rw [he] at h; exact ⟨s2, rfl, h⟩

omit [AddCommGroup X] [Module ℝ X] in
theorem finish_done {s s2 : Conf X P} {dst : Slot} {b : Bool} {r : Res X} (h : finish s dst b r = .done s2) :
    ∃ u τ, r = .ok u τ ∧ s2 = ⟨setU s.mem dst u, if b then τ else s.tau, s.calls + 1⟩ := by
  cases r with
  | ok u τ => exact ⟨u, τ, rfl, (Out.done.inj h).symm⟩
  | restart g => cases h
  | crash => cases h

/-- A time step of an explicit scheme depends on as many hyperbolic updates as the scheme has. -/
theorem singleStep_close (hg : Grows Mo No K L p E C) {sch : Scheme} (hsch : schemeAccepted true sch = true) (ctx : Ctx)
    (t tau_max tau_max' : ℝ) (m m' m1 m1' : Mem X P) (k k' n n' : ℕ) (tau : ℝ)
    (h1 : singleStep Mo (program sch) ctx t tau_max m k = .returned m1 tau n)
    (h1' : singleStep No (program sch) ctx t tau_max' m' k' = .returned m1' tau n') (N : ℕ)
    (hK : N + subSteps sch * (L + p) ≤ K) (h : E (N + subSteps sch * (L + p)) (m old).U (m' old).U) : E N (m1 old).U (m1' old).U := by
  obtain ⟨d, rest, Es, Cs, hc, hd, hl, hfac, -⟩ := explicit_code hsch
  unfold singleStep at h1 h1'
  cases hr : run Mo ctx t tau_max (program sch).code ⟨m, 0, k⟩ with
  | restart _ => rw [hr] at h1; cases h1
  | crash => rw [hr] at h1; cases h1
  | done s =>
  cases hr' : run No ctx t tau_max' (program sch).code ⟨m', 0, k'⟩ with
  | restart _ => rw [hr'] at h1'; cases h1'
  | crash => rw [hr'] at h1'; cases h1'
  | done s' =>
  rw [hr] at h1
  rw [hr'] at h1'
  simp only [Result.returned.injEq] at h1 h1'
  obtain ⟨e1, e2, -⟩ := h1
  obtain ⟨e1', e2', -⟩ := h1'
  have etau : s.tau = s'.tau := mul_left_cancel₀ hfac (e2.trans e2'.symm)
  rw [hc] at hr hr'
  obtain ⟨s0, h0, hr⟩ := run_cons hr
  obtain ⟨s0', h0', hr'⟩ := run_cons hr'
  obtain ⟨s1, h1, hr⟩ := run_cons hr
  obtain ⟨s1', h1', hr'⟩ := run_cons hr'
  set u0 := Mo.bc (t + 0 * 0) (m old).U with hu0
  set u0' := No.bc (t + 0 * 0) (m' old).U with hu0'
  set mem0 : Mem X P := fun v' => if v' = old then ⟨u0, Mo.pre u0⟩ else m v' with hmem0
  set mem0' : Mem X P := fun v' => if v' = old then ⟨u0', No.pre u0'⟩ else m' v' with hmem0'
  have q0 : s0 = ⟨mem0, 0, k⟩ := (Out.done.inj h0).symm
  have q0' : s0' = ⟨mem0', 0, k'⟩ := (Out.done.inj h0').symm
  subst q0
  subst q0'
  obtain ⟨u, τ, hy, q1⟩ := finish_done h1
  obtain ⟨u', τ', hy', q1'⟩ := finish_done h1'
  subst q1
  subst q1'
  simp only [if_true] at hr hr'
  have t1 : s.tau = τ := run_keeps_tau Mo ctx t tau_max rest hd hr
  have t2 : s'.tau = τ' := run_keeps_tau No ctx t tau_max' rest hd hr'
  have tt : τ' = τ := by rw [← t1, ← t2, etau]
  subst tt
  set T := N + subSteps sch * (L + p) with hT
  have hu : E T u0 u0' := hg.bc _ _ _ _ hK h
  have hcl : Close L p T E C [(temp 0, 1), (old, 0)] [(old, 0)] ⟨setU mem0 (temp 0) u, τ', k + 1⟩ ⟨setU mem0' (temp 0) u', τ', k' + 1⟩ := by
    have hC : ∀ n, n + p ≤ T → C n (mem0 old) (mem0' old) := by
      intro n hn
      simp only [hmem0, hmem0', if_true]
      exact hg.pre n _ _ (hg.mono _ _ _ _ hn hu)
    refine ⟨rfl, (hg.size _ _ _ _ _ _ _ _ _ hy).1, fun v e hv n hn => ?_, fun v e hv n hn => ?_⟩
    · rcases lookup_cons_cases hv with ⟨rfl, rfl⟩ | ⟨hne, hv⟩
      · simp only [setU, if_true]
        exact hg.hyp n _ _ _ _ _ _ _ _ _ _ _ _ _ _ _ _ (hC _ (by omega)) .nil hy hy'
      · rcases lookup_cons_cases hv with ⟨rfl, rfl⟩ | ⟨_, hv⟩
        · simp only [setU, hne, if_false, hmem0, hmem0', if_true]
          exact hg.mono _ _ _ _ (by omega) hu
        · cases hv
    · rcases lookup_cons_cases hv with ⟨rfl, rfl⟩ | ⟨_, hv⟩
      · have : (setU mem0 (temp 0) u) old = mem0 old := by simp [setU]
        have h' : (setU mem0' (temp 0) u') old = mem0' old := by simp [setU]
        simp only [this, h']
        exact hC n (by omega)
      · cases hv
  have := (run_close hg ctx t tau_max tau_max' hK rest hcl hd hr hr').vec _ _ hl N (by rw [hT])
  rw [← e1, ← e1']
  exact this

/-- Which vector the returned attempt started from. -/
theorem step_returned_from {Mo : Modules X P} (sch : Scheme) {rec : Recovery} {cflMin cflMax : ℝ} {ctx ctx' : Ctx}
    {t tFinal tau : ℝ} {m m' : Mem X P} {calls n : ℕ}
    (h : step Mo (program sch) rec cflMin cflMax ctx t tFinal m calls = (.returned m' tau n, ctx')) :
    ∃ m0 k, singleStep Mo (program sch) ctx' t (tFinal - t) m0 k = .returned m' tau n ∧
      (m0 old).U = if rec = .bang_bang_control ∧ ctx'.hyp = .warn then Mo.bc t (m old).U else (m old).U := by
  unfold step at h
  cases rec with
  | none =>
    simp only at h
    cases hr : singleStep Mo (program sch) ctx t (tFinal - t) m calls with
    | returned m1 tau1 n1 =>
      rw [hr] at h
      simp only [Prod.mk.injEq] at h
      refine ⟨m, calls, ?_, by simp⟩
      rw [← h.2, hr, h.1]
    | restart m1 n1 => rw [hr] at h; simp at h
    | crash => rw [hr] at h; simp at h
  | bang_bang_control =>
    simp only at h
    cases hr : singleStep Mo (program sch) ⟨cflMax, .raise_exception, .raise_exception⟩ t (tFinal - t) m calls with
    | returned m1 tau1 n1 =>
      rw [hr] at h
      simp only [Prod.mk.injEq] at h
      refine ⟨m, calls, ?_, by rw [← h.2]; simp⟩
      rw [← h.2, hr, h.1]
    | restart m1 n1 =>
      rw [hr] at h
      simp only [Prod.mk.injEq] at h
      refine ⟨m1, n1, ?_, by rw [← h.2]; simpa using singleStep_restart_old sch hr⟩
      rw [← h.2, h.1]
    | crash => rw [hr] at h; simp at h

theorem step_close (hg : Grows Mo No K L p E C) {sch : Scheme} (hsch : schemeAccepted true sch = true) (rec : Recovery) (cflMin cflMax : ℝ)
    (ctx₁ ctx₂ ctx : Ctx) (t tFinal tFinal' : ℝ) (m m' m1 m1' : Mem X P) (k k' n n' : ℕ) (tau : ℝ)
    (h1 : step Mo (program sch) rec cflMin cflMax ctx₁ t tFinal m k = (.returned m1 tau n, ctx))
    (h1' : step No (program sch) rec cflMin cflMax ctx₂ t tFinal' m' k' = (.returned m1' tau n', ctx)) (N : ℕ)
    (hK : N + subSteps sch * (L + p) ≤ K) (h : E (N + subSteps sch * (L + p)) (m old).U (m' old).U) : E N (m1 old).U (m1' old).U := by
  obtain ⟨m0, k0, h0, e0⟩ := step_returned_from sch h1
  obtain ⟨m0', k0', h0', e0'⟩ := step_returned_from sch h1'
  refine singleStep_close hg hsch ctx t _ _ m0 m0' m1 m1' k0 k0' n n' tau h0 h0' N hK ?_
  rw [e0, e0']
  split_ifs
  · exact hg.bc _ _ _ _ hK h
  · exact h

end abstract

end

end Integrator
end Ryujin
