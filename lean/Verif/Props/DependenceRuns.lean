import Verif.Proofs.DependenceRuns
import Verif.Props.AeosFrames

/-!
# C106: domain of dependence of complete runs
-/

namespace Ryujin

noncomputable section

namespace Hyp

variable {ι P S F B : Type} {dim : ℕ}

theorem Reach.mono {M : Mesh ι dim} {n m : ℕ} (hnm : n ≤ m) {i j : ι} (h : Reach M n i j) : Reach M m i j := by
  induction hnm with
  | refl => exact h
  | step _ ih => exact ih.succ

theorem Reach.trans {M : Mesh ι dim} {n m : ℕ} {i j k : ι} (h : Reach M n i j) (h' : Reach M m j k) : Reach M (n + m) i k := by
  induction n generalizing i with
  | zero => rw [show j = i from h] at h'; rwa [Nat.zero_add]
  | succ n ih =>
    rcases h with rfl | ⟨l, hl, h⟩
    · exact h'.mono (by omega)
    · rw [Nat.add_right_comm]
      exact Or.inr ⟨l, hl, ih h⟩

theorem Reach.active {M : Mesh ι dim} (hM : M.WellFormed) {n : ℕ} {i j : ι} (hi : M.nbrs i ≠ []) (h : Reach M n i j) : M.nbrs j ≠ [] := by
  induction n generalizing i with
  | zero => rw [show j = i from h]; exact hi
  | succ n ih =>
    rcases h with rfl | ⟨l, hl, h⟩
    · exact hi
    · exact ih (List.ne_nil_of_mem (hM.symm _ _ hl)) h

end Hyp

namespace Integrator

open Slot

/-- Two runs of `k` time steps side by side, with the same times `t`, step sizes `tau` and settings.  Everything else may differ:
equations of state vectors, temporary vectors, numbers of calls, final times, leftover memory. -/
inductive Twin {X P : Type} [AddCommGroup X] [Module ℝ X] (Mo No : Modules X P) (sch : Scheme) (rec : Recovery) (cflMin cflMax : ℝ) :
    ℕ → Mem X P → Mem X P → Mem X P → Mem X P → Prop
  | start (m m' : Mem X P) : Twin Mo No sch rec cflMin cflMax 0 m m' m m'
  | next {k : ℕ} {m m' m1 m1' m2 m2' : Mem X P} {ctx₁ ctx₂ ctx : Ctx} {t tFinal tFinal' tau : ℝ} {calls calls' n n' : ℕ}
      (h : Twin Mo No sch rec cflMin cflMax k m m' m1 m1')
      (h1 : step Mo (program sch) rec cflMin cflMax ctx₁ t tFinal m1 calls = (.returned m2 tau n, ctx))
      (h2 : step No (program sch) rec cflMin cflMax ctx₂ t tFinal' m1' calls' = (.returned m2' tau n', ctx)) :
      Twin Mo No sch rec cflMin cflMax (k + 1) m m' m2 m2'

theorem twin_close {X P : Type} [AddCommGroup X] [Module ℝ X] {Mo No : Modules X P} {K L p : ℕ} {E : ℕ → X → X → Prop}
    {C : ℕ → SV X P → SV X P → Prop} (hg : Grows Mo No K L p E C) {sch : Scheme} (hsch : schemeAccepted true sch = true)
    {rec : Recovery} {cflMin cflMax : ℝ} {k : ℕ} {m m' m1 m1' : Mem X P} (h : Twin Mo No sch rec cflMin cflMax k m m' m1 m1') (N : ℕ)
    (hK : N + k * (subSteps sch * (L + p)) ≤ K) (h0 : E (N + k * (subSteps sch * (L + p))) (m old).U (m' old).U) :
    E N (m1 old).U (m1' old).U := by
  induction h generalizing N with
  | start m m' => simpa using h0
  | next _ h1 h2 ih =>
    have e : ∀ k, N + (k + 1) * (subSteps sch * (L + p)) = N + subSteps sch * (L + p) + k * (subSteps sch * (L + p)) := by
      intro k; ring
    rw [e] at hK h0
    exact step_close hg hsch _ _ _ _ _ _ _ _ _ _ _ _ _ _ _ _ _ _ h1 h2 N (by omega) (ih (N + subSteps sch * (L + p)) hK h0)

section hyperbolic

variable {ι Q R S F B : Type} {dim : ℕ} [Fintype ι] [AddCommGroup S] [Module ℝ S]

theorem hyperbolic_grows {get : Q → ι → R} {D : Hyp.Description ι Q S F B dim} (hD : D.Local get) {M : Hyp.Mesh ι dim}
    (hM : M.WellFormed) (hG : M.dG = false) (par : Hyp.Params) (big big' : ℝ) (bc bc' : ℝ → (ι → S) → ι → S)
    (pre pre' : (ι → S) → Q) (lo lo' : ℕ → Hyp.Leftover ι S) (g g' : ℕ → ι → S)
    (parabolic parabolic' : Ctx → ℕ → (ι → S) → ℝ → (ι → S) → ℝ → Res (ι → S)) (K p : ℕ) (i : ι) (hi : M.nbrs i ≠ [])
    (hbc : ∀ t u u' j, Hyp.Reach M K i j → u j = u' j → bc t u j = bc' t u' j)
    (hpre : ∀ u u' j, M.nbrs j ≠ [] → (∀ l, Hyp.Reach M p j l → u l = u' l) → get (pre u) j = get (pre' u') j) :
    Grows (hyperbolicModules D M par big bc pre lo g parabolic) (hyperbolicModules D M par big' bc' pre' lo' g' parabolic') K
      (Hyp.layers par.iterations) p (fun n u u' => ∀ j, Hyp.Reach M n i j → u j = u' j)
      (fun n s s' => ∀ j, Hyp.Reach M n i j → s.U j = s'.U j ∧ get s.prec j = get s'.prec j) where
  size := by
    intro ctx k s st dst tau cap u τ h
    obtain ⟨h1, h2, -⟩ := Hyp.step_done (hyp_ok h)
    by_cases ht : tau = 0
    · rw [if_pos ht] at h2
      exact ⟨h2 ▸ h1.ne', fun h => absurd ht h⟩
    · rw [if_neg ht] at h2
      exact ⟨h2 ▸ ht, fun _ => h2⟩
  size' := by
    intro ctx k s st dst tau cap u τ h
    obtain ⟨h1, h2, -⟩ := Hyp.step_done (hyp_ok h)
    by_cases ht : tau = 0
    · rw [if_pos ht] at h2
      exact ⟨h2 ▸ h1.ne', fun h => absurd ht h⟩
    · rw [if_neg ht] at h2
      exact ⟨h2 ▸ ht, fun _ => h2⟩
  lin := by
    intro n a b u u' v v' h h' j hj
    simp only [Pi.add_apply, Pi.smul_apply, h j hj, h' j hj]
  mono := fun n m u u' hnm h j hj => h j (hj.mono hnm)
  monoC := fun n m u u' hnm h j hj => h j (hj.mono hnm)
  bc := fun n t u u' hn h j hj => hbc t u u' j (hj.mono hn) (h j hj)
  pre := fun n u u' h j hj => ⟨h j (hj.mono (by omega)), hpre u u' j (hj.active hM hi) fun l hl => h l (hj.trans hl)⟩
  hyp := by
    intro n ctx k k' s s' st st' dst dst' tau tau' cap cap' u u' τ h hst h1 h2 j hj
    refine Hyp.C106_domain_partial hD hM hG { par with cfl := ctx.cfl } ctx.hyp ctx.hyp ⟨0, 0⟩ ⟨0, 0⟩ _ _ _ _ _ _ τ u u'
      (hyp_ok h1) (hyp_ok h2) j (hj.active hM hi) ?_
    intro l hl
    have hr : Hyp.Reach M (n + Hyp.layers par.iterations) i l := hj.trans hl
    refine ⟨⟨(h l hr).1, (h l hr).2⟩, ?_⟩
    unfold Hyp.StagesAt
    rw [List.forall₂_map_left_iff, List.forall₂_map_right_iff]
    exact hst.imp fun a b hab => ⟨hab.1, (hab.2 l hr).1, (hab.2 l hr).2⟩

/-- **C106 (complete runs).** *Domain of dependence of a run.*  Two runs of `k` time steps with an explicit scheme, which use the same
times, time-step sizes and settings, have the same state at degree of freedom `i` in the end whenever the two initial vectors and the
boundary conditions agree on the degrees of freedom that are reached from `i` by going from neighbour to neighbour at most
`k * (stages * (layers + p))` times: `layers` is the number of `C106_domain_partial`, and `p` the number of layers the precomputed values
depend on.  All other initial and boundary data, the temporary vectors and leftover memory have no influence.  Missing for the full
statement: the step sizes are a hypothesis (they are minima over the mesh, see `C105`, `C107`), discontinuous elements (violated), and the
schemes with a parabolic part, whose implicit solve couples all degrees of freedom. -/
theorem C106_run_partial {get : Q → ι → R} {D : Hyp.Description ι Q S F B dim} (hD : D.Local get) {M : Hyp.Mesh ι dim}
    (hM : M.WellFormed) (hG : M.dG = false) (par : Hyp.Params) (big big' : ℝ) (bc bc' : ℝ → (ι → S) → ι → S)
    (pre pre' : (ι → S) → Q) (lo lo' : ℕ → Hyp.Leftover ι S) (g g' : ℕ → ι → S)
    (parabolic parabolic' : Ctx → ℕ → (ι → S) → ℝ → (ι → S) → ℝ → Res (ι → S)) (sch : Scheme)
    (hsch : schemeAccepted true sch = true) (rec : Recovery) (cflMin cflMax : ℝ) (k p : ℕ) (i : ι) (hi : M.nbrs i ≠ [])
    (hbc : ∀ t u u' j, Hyp.Reach M (k * (subSteps sch * (Hyp.layers par.iterations + p))) i j → u j = u' j → bc t u j = bc' t u' j)
    (hpre : ∀ u u' j, M.nbrs j ≠ [] → (∀ l, Hyp.Reach M p j l → u l = u' l) → get (pre u) j = get (pre' u') j)
    (m m' m1 m1' : Mem (ι → S) Q)
    (h : Twin (hyperbolicModules D M par big bc pre lo g parabolic) (hyperbolicModules D M par big' bc' pre' lo' g' parabolic')
      sch rec cflMin cflMax k m m' m1 m1')
    (h0 : ∀ j, Hyp.Reach M (k * (subSteps sch * (Hyp.layers par.iterations + p))) i j → (m old).U j = (m' old).U j) :
    (m1 old).U i = (m1' old).U i := by
  refine twin_close (hyperbolic_grows hD hM hG par big big' bc bc' pre pre' lo lo' g g' parabolic parabolic'
    (k * (subSteps sch * (Hyp.layers par.iterations + p))) p i hi hbc hpre) hsch h 0 (by omega) ?_ i rfl
  simpa using h0

end hyperbolic

open Classical in
/-- The boundary pass is local: what it does at `j` depends on the state and on the boundary data of the entries at `j` only. -/
theorem passBc_local {ι S Id : Type} {dim : ℕ} (A : Prepare.System S Id dim) (data data' : Vec dim → ℝ → S)
    (map map' : List (Prepare.Entry ι Id dim)) (hA : ∀ id U n V, id ∈ (map ++ map').map (·.id) → (A.apply id U n V).isSome)
    (t : ℝ) (u u' : ι → S) (j : ι)
    (hmap : (map.filter fun e => e.i = j) = map'.filter fun e => e.i = j)
    (hdata : ∀ e ∈ map, e.i = j → data e.position t = data' e.position t) (h : u j = u' j) :
    passBc A data map t u j = passBc A data' map' t u' j := by
  have tot : ∀ (data : Vec dim → ℝ → S) (l : List (Prepare.Entry ι Id dim)), (∀ e ∈ l, e.id ∈ (map ++ map').map (·.id)) → ∀ W : S,
      (l.foldlM (Prepare.applyEntry A data t) W).isSome := by
    intro data l
    induction l with
    | nil => intro _ W; rfl
    | cons e l ih =>
      intro hl W
      rw [List.foldlM_cons]
      have : (Prepare.applyEntry A data t W e).isSome := by
        unfold Prepare.applyEntry
        split_ifs
        · rfl
        · exact hA _ _ _ _ (hl e List.mem_cons_self)
      obtain ⟨W', hW⟩ := Option.isSome_iff_exists.1 this
      rw [hW]
      exact ih (fun e he => hl e (List.mem_cons_of_mem _ he)) W'
  have mem1 : ∀ e ∈ map, e.id ∈ (map ++ map').map (·.id) := fun e he => List.mem_map_of_mem (List.mem_append_left _ he)
  have mem2 : ∀ e ∈ map', e.id ∈ (map ++ map').map (·.id) := fun e he => List.mem_map_of_mem (List.mem_append_right _ he)
  obtain ⟨V, hV⟩ := Option.isSome_iff_exists.1 (Hyp.Mpi.boundaryPass_isSome A data t map u fun i =>
    tot data _ (fun e he => mem1 e (List.mem_filter.1 he).1) _)
  obtain ⟨V', hV'⟩ := Option.isSome_iff_exists.1 (Hyp.Mpi.boundaryPass_isSome A data' t map' u' fun i =>
    tot data' _ (fun e he => mem2 e (List.mem_filter.1 he).1) _)
  have e1 := Hyp.Mpi.boundaryPass_at A data t map u V hV j
  have e2 := Hyp.Mpi.boundaryPass_at A data' t map' u' V' hV' j
  unfold passBc
  rw [hV, hV', Option.getD_some, Option.getD_some]
  rw [← hmap, ← h] at e2
  have key : ∀ (l : List (Prepare.Entry ι Id dim)), (∀ e ∈ l, data e.position t = data' e.position t) → ∀ W : S,
      l.foldlM (Prepare.applyEntry A data t) W = l.foldlM (Prepare.applyEntry A data' t) W := by
    intro l
    induction l with
    | nil => intro _ W; rfl
    | cons e l ih =>
      intro hl W
      rw [List.foldlM_cons, List.foldlM_cons]
      have : Prepare.applyEntry A data t W e = Prepare.applyEntry A data' t W e := by
        unfold Prepare.applyEntry
        rw [hl e List.mem_cons_self]
      rw [this]
      congr 1
      funext W'
      exact ih (fun e he => hl e (List.mem_cons_of_mem _ he)) W'
  rw [key _ (fun e he => hdata e (List.mem_filter.1 he).1 (by simpa using (List.mem_filter.1 he).2)) _, e2] at e1
  exact (Option.some.inj e1).symm

/-! ### Such pairs of runs exist -/

section existence

variable {X P : Type} [AddCommGroup X] [Module ℝ X]

/-- A module whose updates always return, and whose time-step size is the requested one if that is small enough. -/
structure Returns (Mo : Modules X P) (ctx : Ctx) : Prop where
  first : ∀ k s dst, ∃ b > 0, ∀ cap, 0 < cap → cap ≤ b → ∃ u, Mo.hyp ctx k s [] dst 0 (some cap) = .ok u cap
  later : ∀ k s st dst tau, tau ≠ 0 → ∃ u, Mo.hyp ctx k s st dst tau none = .ok u tau

theorem run_returns {Mo : Modules X P} {ctx : Ctx} (hr : Returns Mo ctx) (t m : ℝ) (code : List Instr) (Es Cs Es' Cs' : List (Slot × ℕ))
    (hf : depths Es Cs code = some (Es', Cs')) (s : Conf X P) (hs : s.tau ≠ 0) : ∃ s1, run Mo ctx t m code s = .done s1 ∧ s1.tau = s.tau := by
  induction code generalizing Es Cs s with
  | nil => exact ⟨s, rfl, rfl⟩
  | cons i is ih =>
    simp only [depths] at hf
    obtain ⟨⟨E1, C1⟩, hf1, hf2⟩ := Option.bind_eq_some_iff.1 hf
    have key : ∃ s2, exec Mo ctx t m s i = .done s2 ∧ s2.tau = s.tau := by
      cases i with
      | prepare v c => exact ⟨_, rfl, rfl⟩
      | first src dst div => cases hf1
      | par src c st dst f => cases hf1
      | sadd dst a b src => exact ⟨_, rfl, rfl⟩
      | hyp src st dst =>
        obtain ⟨u, hu⟩ := hr.later s.calls (s.mem src) (stageArgs s.mem st) (s.mem dst).U s.tau hs
        simp only [exec, hu, finish]
        exact ⟨_, rfl, rfl⟩
    obtain ⟨s2, h2, e2⟩ := key
    obtain ⟨s1, h1, e1⟩ := ih E1 C1 hf2 s2 (by rw [e2]; exact hs)
    refine ⟨s1, ?_, e1.trans e2⟩
    simp only [run, h2]
    exact h1

theorem singleStep_returns {Mo : Modules X P} {ctx : Ctx} (hr : Returns Mo ctx) {sch : Scheme} (hsch : schemeAccepted true sch = true)
    (t : ℝ) (m : Mem X P) (k : ℕ) : ∃ b > 0, ∀ tau_max, 0 < tau_max → tau_max ≤ b → ∃ m1 n,
      singleStep Mo (program sch) ctx t tau_max m k = .returned m1 ((program sch).factor * (tau_max / firstDiv sch)) n := by
  obtain ⟨d, rest, Es, Cs, hc, hd, -, -, hd0, hdd⟩ := explicit_code hsch
  set u0 := Mo.bc (t + 0 * 0) (m old).U with hu0
  set mem0 : Mem X P := fun v' => if v' = old then ⟨u0, Mo.pre u0⟩ else m v' with hmem0
  obtain ⟨b, hb, h⟩ := hr.first k (mem0 old) (mem0 (temp 0)).U
  refine ⟨b * d, mul_pos hb hd0, fun tau_max h1 h2 => ?_⟩
  obtain ⟨u, hu⟩ := h (tau_max / d) (div_pos h1 hd0) ((div_le_iff₀ hd0).2 h2)
  obtain ⟨s1, hs, e⟩ := run_returns hr t tau_max rest _ _ _ _ hd ⟨setU mem0 (temp 0) u, tau_max / d, k + 1⟩ (div_pos h1 hd0).ne'
  have hrun : run Mo ctx t tau_max (program sch).code ⟨m, 0, k⟩ = .done s1 := by
    rw [hc, run]
    have e0 : exec Mo ctx t tau_max ⟨m, 0, k⟩ (.prepare old 0) = .done ⟨mem0, 0, k⟩ := rfl
    rw [e0]
    dsimp only
    rw [run]
    have e1 : exec Mo ctx t tau_max ⟨mem0, 0, k⟩ (.first old (temp 0) d) = .done ⟨setU mem0 (temp 0) u, tau_max / d, k + 1⟩ := by
      simp only [exec, hu, finish, if_true]
    rw [e1]
    exact hs
  refine ⟨swapOld s1.mem (program sch).result, s1.calls, ?_⟩
  unfold singleStep
  rw [hrun]
  dsimp only
  rw [e, ← hdd]

theorem twin_exists {Mo No : Modules X P} {ctx : Ctx} (hr : Returns Mo ctx) (hr' : Returns No ctx) {sch : Scheme}
    (hsch : schemeAccepted true sch = true) (cflMin cflMax : ℝ) (m m' : Mem X P) (k : ℕ) :
    ∃ m1 m1', Twin Mo No sch .none cflMin cflMax k m m' m1 m1' := by
  induction k with
  | zero => exact ⟨m, m', .start m m'⟩
  | succ k ih =>
    obtain ⟨m1, m1', h⟩ := ih
    obtain ⟨b, hb, hs⟩ := singleStep_returns hr hsch 0 m1 0
    obtain ⟨b', hb', hs'⟩ := singleStep_returns hr' hsch 0 m1' 0
    obtain ⟨m2, n, e⟩ := hs (min b b') (lt_min hb hb') (min_le_left _ _)
    obtain ⟨m2', n', e'⟩ := hs' (min b b') (lt_min hb hb') (min_le_right _ _)
    have h1 : step Mo (program sch) .none cflMin cflMax ctx 0 (min b b') m1 0 =
        (.returned m2 ((program sch).factor * (min b b' / firstDiv sch)) n, ctx) := by
      unfold step
      simp only [sub_zero, e]
    have h2 : step No (program sch) .none cflMin cflMax ctx 0 (min b b') m1' 0 =
        (.returned m2' ((program sch).factor * (min b b' / firstDiv sch)) n', ctx) := by
      unfold step
      simp only [sub_zero, e']
    exact ⟨m2, m2', .next h h1 h2⟩

end existence

open Classical in
/-- With warnings instead of exceptions every hyperbolic update returns. -/
theorem hyperbolic_returns {ι Q S F B : Type} {dim : ℕ} [Fintype ι] [AddCommGroup S] [Module ℝ S] (D : Hyp.Description ι Q S F B dim)
    (M : Hyp.Mesh ι dim) (par : Hyp.Params) (big : ℝ) (bc : ℝ → (ι → S) → ι → S) (pre : (ι → S) → Q) (lo : ℕ → Hyp.Leftover ι S)
    (g : ℕ → ι → S) (parabolic : Ctx → ℕ → (ι → S) → ℝ → (ι → S) → ℝ → Res (ι → S)) (cfl : ℝ) (s : Hyp.Strategy) (ht : 0 < par.tiny)
    (hcfl : 0 < cfl) (hm : ∀ i, 0 < M.lumped i) (hbig : 0 < big) :
    Returns (hyperbolicModules D M par big bc pre lo g parabolic) ⟨cfl, .warn, s⟩ where
  first := by
    intro k sv dst
    refine ⟨Hyp.tauMax D M { par with cfl := cfl } (lo k).dij ⟨sv.U, sv.prec⟩ 1, ?_, fun cap h1 h2 => ?_⟩
    · exact (Hyp.C11_step_tau D M { par with cfl := cfl } .warn ⟨0, 0⟩ (lo k) ⟨sv.U, sv.prec⟩ [] 0 1 ht hcfl hm one_pos).1
    · have e : Hyp.tauMax D M { par with cfl := cfl } (lo k).dij ⟨sv.U, sv.prec⟩ cap = cap := by
        unfold Hyp.tauMax at h2 ⊢
        refine le_antisymm ((Finset.fold_min_le _).2 (Or.inl le_rfl)) ((Finset.le_fold_min _).2 ⟨le_rfl, fun i hi => ?_⟩)
        exact ((Finset.le_fold_min _).1 h2).2 i hi
      refine ⟨Hyp.newStates D M { par with cfl := cfl } { lo k with newU := dst }
        (Hyp.stage4 D M { par with cfl := cfl } { lo k with newU := dst } ⟨sv.U, sv.prec⟩ [] cap), ?_⟩
      simp only [hyperbolicModules, Hyp.step, Option.getD_some, e, h1, not_true_eq_false, if_false, if_true, List.map_nil]
      split_ifs <;> rfl
  later := by
    intro k sv st dst tau h0
    have hp := (Hyp.C11_step_tau D M { par with cfl := cfl } .warn ⟨0, 0⟩ (lo k) ⟨sv.U, sv.prec⟩ [] 0 big ht hcfl hm hbig).1
    refine ⟨Hyp.newStates D M { par with cfl := cfl } { lo k with newU := dst }
      (Hyp.stage4 D M { par with cfl := cfl } { lo k with newU := dst } ⟨sv.U, sv.prec⟩ (st.map fun p => (p.1, ⟨p.2.U, p.2.prec⟩)) tau), ?_⟩
    simp only [hyperbolicModules, Hyp.step, Option.getD_none, hp, not_true_eq_false, if_false, h0]
    split_ifs <;> rfl

/-! ### The equations of the code -/

section equations

variable {ι S F B Id : Type} {dim : ℕ} [Fintype ι] [AddCommGroup S] [Module ℝ S]

/-- **C106 (complete runs, equations without precomputed values:** Euler with a polytropic gas, shallow water, scalar conservation).
Boundary data of the two runs need to agree at the boundary degrees of freedom of the domain of dependence only. -/
theorem C106_plain_run_partial (D : Hyp.Description ι Unit S F B dim) (M : Hyp.Mesh ι dim) (hM : M.WellFormed) (hG : M.dG = false)
    (par : Hyp.Params) (big : ℝ) (A : Prepare.System S Id dim) (data data' : Vec dim → ℝ → S) (map : List (Prepare.Entry ι Id dim))
    (hA : ∀ e ∈ map, ∀ U n V, (A.apply e.id U n V).isSome) (lo lo' : ℕ → Hyp.Leftover ι S) (g g' : ℕ → ι → S)
    (parabolic : Ctx → ℕ → (ι → S) → ℝ → (ι → S) → ℝ → Res (ι → S)) (sch : Scheme) (hsch : schemeAccepted true sch = true)
    (rec : Recovery) (cflMin cflMax : ℝ) (k : ℕ) (i : ι) (hi : M.nbrs i ≠ [])
    (hdata : ∀ e ∈ map, Hyp.Reach M (k * (subSteps sch * Hyp.layers par.iterations)) i e.i → ∀ t, data e.position t = data' e.position t)
    (m m' m1 m1' : Mem (ι → S) Unit)
    (h : Twin (hyperbolicModules D M par big (passBc A data map) (fun _ => ()) lo g parabolic)
      (hyperbolicModules D M par big (passBc A data' map) (fun _ => ()) lo' g' parabolic) sch rec cflMin cflMax k m m' m1 m1')
    (h0 : ∀ j, Hyp.Reach M (k * (subSteps sch * Hyp.layers par.iterations)) i j → (m old).U j = (m' old).U j) :
    (m1 old).U i = (m1' old).U i := by
  refine C106_run_partial (Hyp.local_of_unit D) hM hG par big big _ _ _ _ lo lo' g g' parabolic parabolic sch hsch rec cflMin cflMax k 0 i hi
    ?_ (fun _ _ _ _ _ => rfl) m m' m1 m1' h h0
  intro t u u' j hj hu
  refine passBc_local A data data' map map ?_ t u u' j rfl (fun e he hej => hdata e he (hej ▸ hj) t) hu
  intro id U n V hid
  obtain ⟨e, he, rfl⟩ := List.mem_map.1 hid
  exact hA e (by simpa using he) U n V

end equations

/-- The precomputed values at a degree of freedom are determined by the states of its stencil. -/
theorem precomputed_local {ι : Type} {dim : ℕ} (eos : Eos.Interface) (P : Aeos.Params) (M : Hyp.Mesh ι dim) (U U' : ι → Euler.State dim)
    (q q' : ι → Eos.Prec) (h : Spec.Precomputed eos P M U q) (h' : Spec.Precomputed eos P M U' q') (i : ι) (hi : M.nbrs i ≠ [])
    (hU : ∀ j ∈ i :: M.nbrs i, U j = U' j) : q i = q' i := by
  have e0 : U i = U' i := hU i List.mem_cons_self
  have ep : (q i).p = (q' i).p := by rw [h.p i hi, h'.p i hi, e0]
  have hset : {g | ∃ j ∈ i :: M.nbrs i, g = Aeos.surrogateGamma P (U j) (Eos.statePressure eos (U j))} =
      {g | ∃ j ∈ i :: M.nbrs i, g = Aeos.surrogateGamma P (U' j) (Eos.statePressure eos (U' j))} := by
    ext g
    constructor
    · rintro ⟨j, hj, rfl⟩
      exact ⟨j, hj, by rw [hU j hj]⟩
    · rintro ⟨j, hj, rfl⟩
      exact ⟨j, hj, by rw [hU j hj]⟩
  have eg : (q i).gamma_min = (q' i).gamma_min := by
    have := h.gamma_min i hi
    rw [hset] at this
    exact this.unique (h'.gamma_min i hi)
  have es : (q i).s = (q' i).s := by rw [h.s i hi, h'.s i hi, e0, eg]
  have ee : (q i).eta = (q' i).eta := by rw [h.eta i hi, h'.eta i hi, e0, eg]
  cases hq : q i
  cases hq' : q' i
  simp_all

/-- **C106 (complete runs, arbitrary equation of state).** The precomputed values add one layer to each update. -/
theorem C106_aeos_run_partial {ι : Type} {dim : ℕ} [Fintype ι] (eos : Eos.Interface) (P : Aeos.Params) (lp : LimiterParams)
    (strict : Bool) (big' evc_factor : ℝ) (M : Hyp.Mesh ι dim) (hM : M.WellFormed) (hG : M.dG = false)
    (par : Hyp.Params) (big : ℝ) (data data' : Vec dim → ℝ → Euler.State dim) (map : List (Prepare.Entry ι Euler.Boundary dim))
    (hmap : ∀ e ∈ map, e.id ≠ .dynamic) (q q' : ι → Eos.Prec) (lo lo' : ℕ → Hyp.Leftover ι (Euler.State dim))
    (g g' : ℕ → ι → Euler.State dim)
    (parabolic : Ctx → ℕ → (ι → Euler.State dim) → ℝ → (ι → Euler.State dim) → ℝ → Res (ι → Euler.State dim)) (sch : Scheme)
    (hsch : schemeAccepted true sch = true) (rec : Recovery) (cflMin cflMax : ℝ) (k : ℕ) (i : ι) (hi : M.nbrs i ≠ [])
    (hdata : ∀ e ∈ map, Hyp.Reach M (k * (subSteps sch * (Hyp.layers par.iterations + 1))) i e.i → ∀ t,
      data e.position t = data' e.position t)
    (m m' m1 m1' : Mem (ι → Euler.State dim) (ι → Eos.Prec))
    (h : Twin (hyperbolicModules (Aeos.oneLane P lp strict big' evc_factor) M par big (passBc Prepare.aeos data map)
        (fun U => Hyp.Mpi.precompute M (Aeos.preCycles eos P M) 2 U q) lo g parabolic)
      (hyperbolicModules (Aeos.oneLane P lp strict big' evc_factor) M par big (passBc Prepare.aeos data' map)
        (fun U => Hyp.Mpi.precompute M (Aeos.preCycles eos P M) 2 U q') lo' g' parabolic) sch rec cflMin cflMax k m m' m1 m1')
    (h0 : ∀ j, Hyp.Reach M (k * (subSteps sch * (Hyp.layers par.iterations + 1))) i j → (m old).U j = (m' old).U j) :
    (m1 old).U i = (m1' old).U i := by
  refine C106_run_partial (Aeos.solver_local P lp strict big' evc_factor _) hM hG par big big _ _ _ _ lo lo' g g' parabolic parabolic sch hsch
    rec cflMin cflMax k 1 i hi ?_ ?_ m m' m1 m1' h h0
  · intro t u u' j hj hu
    refine passBc_local Prepare.aeos data data' map map ?_ t u u' j rfl (fun e he hej => hdata e he (hej ▸ hj) t) hu
    intro id U n V hid
    obtain ⟨e, he, rfl⟩ := List.mem_map.1 hid
    have := hmap e (by simpa using he)
    revert this
    generalize e.id = id
    intro this
    cases id <;> first | rfl | exact absurd rfl this
  · intro u u' j hj hu
    refine precomputed_local eos P M u u' _ _ (Aeos.precompute_precomputed eos P hM u q) (Aeos.precompute_precomputed eos P hM u' q') j hj ?_
    intro l hl
    refine hu l ?_
    rcases List.mem_cons.1 hl with rfl | hl
    · exact Hyp.Reach.refl M 1 _
    · exact Or.inr ⟨l, hl, rfl⟩

/-- Two time steps of the third-order scheme for Burgers' equation with two limiter passes on a chain of 101 degrees of freedom: the result at
the first one does not depend on what is stored at the degrees of freedom after the 24th.  Such pairs of runs exist for every two initial
vectors. -/
example (lo lo' : ℕ → Hyp.Leftover (Fin 101) Scalar.State) (m m' : Mem (Fin 101 → Scalar.State) Unit)
    (hm : ∀ j : Fin 101, j.val ≤ 24 → (m old).U j = (m' old).U j) :
    let Mo := fun lo => hyperbolicModules (Scalar.oneLane (Scalar.burgers 1 (1 / 1000)) ⟨⟨false, false⟩, 1, 1 / 1000, 1 / 1000, 100, 2⟩
      fun _ _ => []) (Hyp.chain 100 false) ⟨1 / 2, 1 / 1000, 2⟩ 10 (passBc (dim := 1) Prepare.scalar (fun _ _ => fun _ => 0) []) (fun _ => ()) lo
      (fun _ => 0) fun _ _ _ _ _ _ => .crash
    (∃ m1 m1', Twin (Mo lo) (Mo lo') .ssprk_33 .none 0 0 2 m m' m1 m1') ∧
    ∀ m1 m1', Twin (Mo lo) (Mo lo') .ssprk_33 .none 0 0 2 m m' m1 m1' → (m1 old).U 0 = (m1' old).U 0 := by
  refine ⟨twin_exists (ctx := ⟨1 / 2, .warn, .warn⟩) ?_ ?_ rfl _ _ _ _ _, fun m1 m1' h => ?_⟩
  · exact hyperbolic_returns _ _ _ _ _ _ _ _ _ _ _ (by norm_num) (by norm_num) (fun i => one_pos) (by norm_num)
  · exact hyperbolic_returns _ _ _ _ _ _ _ _ _ _ _ (by norm_num) (by norm_num) (fun i => one_pos) (by norm_num)
  · refine C106_plain_run_partial _ _ (Hyp.chain_wf 100 false) rfl _ _ _ _ _ [] (fun e he => by cases he) lo lo' _ _ _ _ rfl _ _ _ 2 0 ?_
      (fun e he => by cases he) m m' m1 m1' h fun j hj => hm j ?_
    · exact List.ne_nil_of_mem (Hyp.mem_chain.2 (Or.inl rfl) : (1 : Fin 101) ∈ _)
    · have := Hyp.chain_reach hj
      simpa [subSteps, Hyp.layers] using this

end Integrator
end

end Ryujin
