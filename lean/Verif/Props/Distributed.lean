import Verif.Proofs.Distributed
import Verif.Props.Dependence
import Verif.Proofs.Simulation
import Verif.Model.AeosDescription

/-!
# C107: a time step on several MPI ranks is the time step of one process
-/

namespace Ryujin
namespace Hyp
namespace Mpi

noncomputable section

open Classical

variable {ι R P Q S F B Id : Type} {dim : ℕ}

/-- A call on one rank ended like the call on one process, with the same `tau`, and the rank holds the same states on its own
unconstrained degrees of freedom. -/
def SameOnRank (M : Mesh ι dim) (owner : ι → R) (r : R) : Outcome ι S → Outcome ι S → Prop
  | .crashed, .crashed => True
  | .restart, .restart => True
  | .done U t, .done U' t' => t = t' ∧ ∀ i, owner i = r → M.nbrs i ≠ [] → U i = U' i
  | _, _ => False

section

variable {M : Mesh ι dim} {owner : ι → R} {get : P → ι → Q} {D : Description ι P S F B dim}
  [AddCommGroup S] [Module ℝ S] [Fintype ι] [Fintype R] [Nonempty R]

/-- **C107 (one time step).** On any number of ranks, for every distribution of the degrees of freedom, every content of the
memory of the ranks and of the process we compare with: if the ranks hold copies of the old state vector and of the stage vectors
of one process on their own and ghost degrees of freedom, then `step` ends on every rank as on one process – crash, restart or
return – with the same `tau` and the same counters, and the new state vector of each rank agrees with that of one process on the
degrees of freedom the rank owns.  Continuous elements; for discontinuous ones see `C107_dg_partial` and `C107_dg_violation`. -/
theorem C107_step_partial (hD : D.Local get) (hM : M.WellFormed) (hG : M.dG = false) (par : Params) (strategy : Strategy)
    (cnt : Counters) (mem : R → Memory ι S B) (lo : Leftover ι S) (x : R → StateVector ι P S) (X : StateVector ι P S)
    (hx : Copies get M owner x X) (st : R → List (ℝ × StateVector ι P S)) (T : List (ℝ × StateVector ι P S))
    (hst : CopiesStages get M owner st T) (tau tau_max : ℝ) (r : R) :
    SameOnRank M owner r (step D M owner par strategy (fun _ => cnt) mem x st tau tau_max r).1
      (Hyp.step D M par strategy cnt lo X T tau tau_max).1 ∧
    (step D M owner par strategy (fun _ => cnt) mem x st tau tau_max r).2 =
      (Hyp.step D M par strategy cnt lo X T tau tau_max).2 := by
  unfold step Hyp.step
  simp only [tau_visible hD hM hx par mem lo.dij tau_max]
  generalize (if tau = 0 then tauMax D M par lo.dij X tau_max else tau) = τ
  have hb : ∀ i, M.active i → boundsVec5 D M owner par mem (stage4 D M owner par mem x st τ) (owner i) i =
      finalBounds D M par lo (Hyp.stage4 D M par lo X T τ) i := fun i ha => bounds5_own hD hM hx hst par mem lo τ hG ha
  have hr : (∃ q, restartLocal D M owner par mem (stage4 D M owner par mem x st τ) q) ↔
      restartNeeded D M par lo (Hyp.stage4 D M par lo X T τ) := by
    constructor
    · rintro ⟨q, hn, i, hq, j, hj, h⟩
      subst hq
      refine ⟨hn, i, j, hj, ?_⟩
      rwa [limit5_own hD hM hx hst par mem lo τ hb hj] at h
    · rintro ⟨hn, i, j, hj, h⟩
      refine ⟨owner i, hn, i, rfl, j, hj, ?_⟩
      rwa [limit5_own hD hM hx hst par mem lo τ hb hj]
  have hn : ∀ i, owner i = r → M.nbrs i ≠ [] → newVec D M owner par mem (stage4 D M owner par mem x st τ) r i =
      newStates D M par lo (Hyp.stage4 D M par lo X T τ) i := by
    intro i hi ha
    subst hi
    exact new_visible hD hM hx hst par mem lo τ hb ha
  simp only [hr]
  split_ifs
  · cases strategy
    · exact ⟨⟨rfl, hn⟩, rfl⟩
    · exact ⟨trivial, rfl⟩
  · exact ⟨⟨rfl, hn⟩, rfl⟩
  · exact ⟨trivial, rfl⟩

omit [Fintype R] [Nonempty R] in
/-- **C107 (discontinuous elements, partial).** For discontinuous elements the only difference is in the bounds: if the bounds the
ranks computed for their own rows are those of one process, then everything else is. -/
theorem C107_dg_partial (hD : D.Local get) (hM : M.WellFormed) (par : Params) (mem : R → Memory ι S B) (lo : Leftover ι S)
    (x : R → StateVector ι P S) (X : StateVector ι P S) (hx : Copies get M owner x X)
    (st : R → List (ℝ × StateVector ι P S)) (T : List (ℝ × StateVector ι P S)) (hst : CopiesStages get M owner st T) (tau : ℝ)
    (hb : ∀ i, M.nbrs i ≠ [] → boundsVec5 D M owner par mem (stage4 D M owner par mem x st tau) (owner i) i =
      finalBounds D M par lo (Hyp.stage4 D M par lo X T tau) i) (r : R) (i : ι) (hi : owner i = r) (ha : M.nbrs i ≠ []) :
    newVec D M owner par mem (stage4 D M owner par mem x st tau) r i =
      newStates D M par lo (Hyp.stage4 D M par lo X T tau) i := by
  subst hi
  exact new_visible hD hM hx hst par mem lo tau hb ha

end

/-! ### `prepare_state_vector` -/

/-- What the boundary pass does to one degree of freedom. -/
theorem boundaryPass_at (A : Prepare.System S Id dim) (data : Vec dim → ℝ → S) (t : ℝ) (map : List (Prepare.Entry ι Id dim))
    (U V : ι → S) (h : Prepare.boundaryPass A data t map U = some V) (i : ι) :
    (map.filter fun e => e.i = i).foldlM (Prepare.applyEntry A data t) (U i) = some (V i) := by
  induction map generalizing U with
  | nil =>
    rw [Prepare.boundaryPass, List.foldlM_nil] at h
    cases h
    rfl
  | cons e es ih =>
    rw [Prepare.boundaryPass, List.foldlM_cons] at h
    obtain ⟨W, hW, hrest⟩ := Option.bind_eq_some_iff.1 h
    have := ih W hrest
    obtain ⟨w, hw, rfl⟩ := Option.map_eq_some_iff.1 hW
    by_cases hi : e.i = i
    · subst hi
      rw [List.filter_cons_of_pos (by simp), List.foldlM_cons, hw]
      rw [Function.update_self] at this
      exact this
    · rw [List.filter_cons_of_neg (by simpa using hi)]
      rwa [Function.update_of_ne (Ne.symm hi)] at this

theorem boundaryPass_isSome (A : Prepare.System S Id dim) (data : Vec dim → ℝ → S) (t : ℝ)
    (map : List (Prepare.Entry ι Id dim)) (U : ι → S)
    (h : ∀ i, ((map.filter fun e => e.i = i).foldlM (Prepare.applyEntry A data t) (U i)).isSome) :
    (Prepare.boundaryPass A data t map U).isSome := by
  induction map generalizing U with
  | nil => rfl
  | cons e es ih =>
    rw [Prepare.boundaryPass, List.foldlM_cons]
    have he := h e.i
    rw [List.filter_cons_of_pos (by simp), List.foldlM_cons] at he
    cases hw : Prepare.applyEntry A data t (U e.i) e with
    | none => rw [hw] at he; cases he
    | some w =>
      rw [hw] at he
      rw [Prepare.boundaryStep, hw]
      refine ih (Function.update U e.i w) fun i => ?_
      by_cases hi : i = e.i
      · subst hi
        rw [Function.update_self]
        exact he
      · have := h i
        rw [List.filter_cons_of_neg (by simpa using Ne.symm hi)] at this
        rwa [Function.update_of_ne hi]

theorem filter_owner (map : List (Prepare.Entry ι Id dim)) (owner : ι → R) (i : ι) :
    (map.filter fun e => owner e.i = owner i).filter (fun e => e.i = i) = map.filter fun e => e.i = i := by
  rw [List.filter_filter]
  refine List.filter_congr fun e _ => ?_
  by_cases h : e.i = i
  · simp [h]
  · simp [h]

section

variable {M : Mesh ι dim} {owner : ι → R}

/-- What a precomputation cycle stores for a row depends on the states and precomputed values of its columns; the first cycle reads
states only. -/
structure PreLocal (M : Mesh ι dim) (pre : ℕ → (ι → S) → (ι → Q) → ι → Q) (cycles : ℕ) : Prop where
  stencil : ∀ k U U' p p' i, (∀ j ∈ M.columns i, U j = U' j) → (∀ j ∈ M.columns i, p j = p' j) →
    pre k U p i = pre k U' p' i
  fresh : ∀ U p p' i, pre 0 U p i = pre 0 U p' i
  cycles : 0 < cycles ∨ Subsingleton Q

theorem precompute_visible (hM : M.WellFormed) {pre : ℕ → (ι → S) → (ι → Q) → ι → Q} {cycles : ℕ} (hpre : PreLocal M pre cycles)
    {U : R → ι → S} {V : ι → S} (hU : ∀ r i, M.active i → owner i = r ∨ ghost M owner r i → U r i = V i)
    (p : R → ι → Q) (q : ι → Q) (r : R) (i : ι) (ha : M.active i) (hi : owner i = r ∨ ghost M owner r i) :
    precomputeMpi M owner pre cycles U p r i = precompute M pre cycles V q i := by
  rcases hpre.cycles with hc | hc
  swap
  · exact Subsingleton.elim _ _
  obtain ⟨n, rfl⟩ : ∃ n, cycles = n + 1 := ⟨cycles - 1, by omega⟩
  clear hc
  have main : ∀ n, ∀ r i, M.active i → owner i = r ∨ ghost M owner r i →
      precomputeMpi M owner pre (n + 1) U p r i = precompute M pre (n + 1) V q i := by
    intro n
    induction n with
    | zero =>
      intro r i ha hi
      simp only [precomputeMpi, precompute, zero_add, List.range_one, List.foldl_cons, List.foldl_nil, ha, if_true]
      refine exchange_visible (v := fun r => written M owner r (pre 0 (U r) (p r)) (p r)) (g := pre 0 V q) ?_ hi
      rw [written_own rfl ha, hpre.fresh _ _ q]
      exact hpre.stencil _ _ _ _ _ _ (fun j hj => hU _ _ (col_active hM ha hj) (visible rfl hj)) fun _ _ => rfl
    | succ n ih =>
      intro r i ha hi
      have e1 : precomputeMpi M owner pre (n + 1 + 1) U p = exchange M owner fun r => written M owner r
          (pre (n + 1) (U r) (precomputeMpi M owner pre (n + 1) U p r)) (precomputeMpi M owner pre (n + 1) U p r) := by
        unfold precomputeMpi
        rw [List.range_succ, List.foldl_append]
        rfl
      have e2 : precompute M pre (n + 1 + 1) V q i = pre (n + 1) V (precompute M pre (n + 1) V q) i := by
        unfold precompute
        rw [List.range_succ, List.foldl_append]
        simp only [List.foldl_cons, List.foldl_nil, ha, if_true]
      rw [e1, e2]
      refine exchange_visible (g := pre (n + 1) V (precompute M pre (n + 1) V q)) ?_ hi
      rw [written_own rfl ha]
      exact hpre.stencil _ _ _ _ _ _ (fun j hj => hU _ _ (col_active hM ha hj) (visible rfl hj))
        fun j hj => ih _ _ (col_active hM ha hj) (visible rfl hj)
  exact main n r i ha hi

/-- **C107 (`prepare_state_vector`).** If the ranks hold the states of one process on the degrees of freedom they own – nothing
is assumed about ghost values and precomputed values – then `prepare_state_vector` throws on some rank exactly if it throws on
one process, and otherwise leaves the ranks with copies of the state vector prepared by one process, including ghost and
precomputed values.  Boundary entries refer to unconstrained degrees of freedom (offline_data.template.h:1264-1268). -/
theorem C107_prepare (hM : M.WellFormed) (A : Prepare.System S Id dim) (data : Vec dim → ℝ → S)
    (pre : ℕ → (ι → S) → (ι → Q) → ι → Q) (cycles : ℕ) (hpre : PreLocal M pre cycles)
    (map : List (Prepare.Entry ι Id dim)) (hmap : ∀ e ∈ map, M.nbrs e.i ≠ []) (t : ℝ) (x : R → StateVector ι (ι → Q) S)
    (X : StateVector ι (ι → Q) S) (hx : ∀ i, M.nbrs i ≠ [] → (x (owner i)).U i = X.U i) :
    (prepareMpi M owner A data pre cycles map t x = none ↔ prepare M A data pre cycles map t X = none) ∧
    ∀ y Y, prepareMpi M owner A data pre cycles map t x = some y → prepare M A data pre cycles map t X = some Y →
      Copies (fun p i => p i) M owner y Y := by
  -- one degree of freedom
  have one : ∀ i, ((map.filter fun e => owner e.i = owner i).filter fun e => e.i = i).foldlM
      (Prepare.applyEntry A data t) ((x (owner i)).U i) =
      (map.filter fun e => e.i = i).foldlM (Prepare.applyEntry A data t) ((x (owner i)).U i) := fun i => by rw [filter_owner]
  have none_at : ∀ i, M.nbrs i = [] → (map.filter fun e => e.i = i) = [] := by
    intro i hi
    refine List.filter_eq_nil_iff.2 fun e he h => hmap e he ?_
    rw [show e.i = i by simpa using h]
    exact hi
  have same : ∀ i, ((map.filter fun e => e.i = i).foldlM (Prepare.applyEntry A data t) (X.U i)).isSome ↔
      ((map.filter fun e => e.i = i).foldlM (Prepare.applyEntry A data t) ((x (owner i)).U i)).isSome := by
    intro i
    by_cases hi : M.nbrs i = []
    · rw [none_at i hi]; exact Iff.rfl
    · rw [hx i hi]
  have some_iff : (∀ r, (Prepare.boundaryPass A data t (map.filter fun e => owner e.i = r) (x r).U).isSome) ↔
      (Prepare.boundaryPass A data t map X.U).isSome := by
    constructor
    · intro h
      refine boundaryPass_isSome A data t map X.U fun i => ?_
      obtain ⟨V, hV⟩ := Option.isSome_iff_exists.1 (h (owner i))
      have := boundaryPass_at A data t _ _ V hV i
      rw [one] at this
      rw [same, this]
      rfl
    · intro h r
      obtain ⟨V, hV⟩ := Option.isSome_iff_exists.1 h
      refine boundaryPass_isSome A data t _ _ fun i => ?_
      by_cases hr : owner i = r
      · subst hr
        rw [one, ← same, boundaryPass_at A data t map X.U V hV i]
        rfl
      · have e : (map.filter fun e => owner e.i = r).filter (fun e => e.i = i) = [] := by
          rw [List.filter_filter]
          refine List.filter_eq_nil_iff.2 fun e _ h => hr ?_
          simp only [Bool.and_eq_true, decide_eq_true_eq] at h
          rw [← h.1, h.2]
        rw [e]
        rfl
  constructor
  · unfold prepareMpi prepare
    by_cases h : ∀ r, (Prepare.boundaryPass A data t (map.filter fun e => owner e.i = r) (x r).U).isSome
    · have := some_iff.1 h
      obtain ⟨V, hV⟩ := Option.isSome_iff_exists.1 this
      simp only [h, implies_true, dite_true, hV, Option.map_some, reduceCtorEq]
    · have h' : Prepare.boundaryPass A data t map X.U = none := Option.not_isSome_iff_eq_none.1 fun h' => h (some_iff.2 h')
      rw [h', Option.map_none]
      simp only [h, dite_false]
  · intro y Y hy hY
    unfold prepareMpi at hy
    by_cases h : ∀ r, (Prepare.boundaryPass A data t (map.filter fun e => owner e.i = r) (x r).U).isSome
    swap
    · simp only [h, dite_false] at hy; cases hy
    simp only [h, implies_true, dite_true, Option.some.injEq] at hy
    obtain ⟨V, hV, rfl⟩ := Option.map_eq_some_iff.1 hY
    have hown : ∀ i, M.active i →
        (Prepare.boundaryPass A data t (map.filter fun e => owner e.i = owner i) (x (owner i)).U).get (h (owner i)) i = V i := by
      intro i ha
      have e1 := boundaryPass_at A data t _ _ _ (Option.some_get (h (owner i))).symm i
      have e2 := boundaryPass_at A data t map X.U V hV i
      rw [one, hx i ha, e2] at e1
      exact (Option.some.inj e1).symm
    have hU : ∀ r i, M.active i → owner i = r ∨ ghost M owner r i →
        exchange M owner (fun r => (Prepare.boundaryPass A data t (map.filter fun e => owner e.i = r) (x r).U).get (h r)) r i = V i :=
      fun r i ha hi => exchange_visible (g := V) (hown i ha) hi
    intro r i ha hi
    subst hy
    exact ⟨hU r i ha hi, precompute_visible hM hpre hU _ _ r i ha hi⟩

end

/-! ### Complete runs -/

section runs

open Integrator (Modules SV Ctx Res Scheme Recovery Mem Run Result hyperbolicModules passBc program)
open Integrator.Slot
open Integrator.Simulation (Sim ResRel ResultRel)

/-- The states a call of `step` left behind on a rank; `dst` is the old content of the vector. -/
def states (dst : ι → S) : Outcome ι S → ι → S
  | .done U _ => U
  | _ => dst

/-- The modules called by the time integrator on all ranks: vectors are vectors of all ranks.  `bc` is the boundary pass of each rank
followed by the exchange of ghost values (hyperbolic_module.template.h:118-148), `pre` computes the precomputed values of all ranks,
`hyp` is the step of all ranks; `tau` and the way the call ends are those of an arbitrary rank, they are the same on all of them
(`C107_step_partial`). -/
def mpiModules [Fintype ι] [Fintype R] [Nonempty R] [AddCommGroup S] [Module ℝ S] (D : Description ι P S F B dim) (M : Mesh ι dim)
    (owner : ι → R) (par : Params) (big : ℝ) (A : Prepare.System S Id dim) (data : Vec dim → ℝ → S)
    (map : List (Prepare.Entry ι Id dim)) (pre : (R → ι → S) → R → P) (mem : ℕ → R → Memory ι S B) (garbage : ℕ → R → ι → S) :
    Modules (R → ι → S) (R → P) where
  bc := fun t u => exchange M owner fun r => passBc A data (map.filter fun e => owner e.i = r) t (u r)
  pre := pre
  hyp := fun ctx n src st dst tau cap =>
    let out := step D M owner { par with cfl := ctx.cfl } ctx.hyp (fun _ => ⟨0, 0⟩) (fun r => { mem n r with newU := dst r })
      (fun r => ⟨src.U r, src.prec r⟩) (fun r => st.map fun p => (p.1, ⟨p.2.U r, p.2.prec r⟩)) tau (cap.getD big)
    match (out (Classical.arbitrary R)).1 with
    | .crashed => .crash
    | .restart => .restart (garbage n)
    | .done _ tau => .ok (fun r => states (dst r) (out r).1) tau
  par := fun _ _ _ _ _ _ => .crash

/-- The ranks hold, on their own degrees of freedom, the states of one process. -/
def Owned (M : Mesh ι dim) (owner : ι → R) (u : R → ι → S) (v : ι → S) : Prop :=
  ∀ i, M.nbrs i ≠ [] → u (owner i) i = v i

/-- Precomputed values of the ranks are those of one process wherever the states are. -/
def PreCopies (get : P → ι → Q) (M : Mesh ι dim) (owner : ι → R) (preR : (R → ι → S) → R → P) (pre : (ι → S) → P) : Prop :=
  ∀ u v, (∀ r i, M.active i → owner i = r ∨ ghost M owner r i → u r i = v i) →
    ∀ r i, M.active i → owner i = r ∨ ghost M owner r i → get (preR u r) i = get (pre v) i

variable [Fintype ι] [Fintype R] [Nonempty R] [AddCommGroup S] [Module ℝ S] {M : Mesh ι dim} {owner : ι → R} {get : P → ι → Q}
  {D : Description ι P S F B dim}

omit [Fintype ι] [Fintype R] [Nonempty R] [AddCommGroup S] [Module ℝ S] in
theorem passBc_visible (A : Prepare.System S Id dim) (data : Vec dim → ℝ → S) (map : List (Prepare.Entry ι Id dim))
    (hA : ∀ e ∈ map, ∀ U t, (A.apply e.id U e.normal (data e.position t)).isSome) (t : ℝ) (u : R → ι → S) (v : ι → S)
    (h : Owned M owner u v) (i : ι) (ha : M.nbrs i ≠ []) :
    passBc A data (map.filter fun e => owner e.i = owner i) t (u (owner i)) i = passBc A data map t v i := by
  have all : ∀ l : List (Prepare.Entry ι Id dim), (∀ e ∈ l, ∀ U t, (A.apply e.id U e.normal (data e.position t)).isSome) →
      ∀ w : S, (l.foldlM (Prepare.applyEntry A data t) w).isSome := by
    intro l
    induction l with
    | nil => intro _ _; rfl
    | cons e es ih =>
      intro hl w
      rw [List.foldlM_cons]
      have : (Prepare.applyEntry A data t w e).isSome := by
        unfold Prepare.applyEntry
        split_ifs
        · rfl
        · exact hl e List.mem_cons_self _ _
      obtain ⟨w', hw'⟩ := Option.isSome_iff_exists.1 this
      rw [hw']
      exact ih (fun e he => hl e (List.mem_cons_of_mem _ he)) w'
  have pass_some : ∀ l : List (Prepare.Entry ι Id dim), (∀ e ∈ l, ∀ U t, (A.apply e.id U e.normal (data e.position t)).isSome) →
      ∀ w : ι → S, ∃ V, Prepare.boundaryPass A data t l w = some V := fun l hl w =>
    Option.isSome_iff_exists.1 (boundaryPass_isSome A data t l w fun i =>
      all _ (fun e he => hl e (List.mem_of_mem_filter he)) _)
  obtain ⟨V, hV⟩ := pass_some map hA v
  obtain ⟨W, hW⟩ := pass_some (map.filter fun e => owner e.i = owner i) (fun e he => hA e (List.mem_of_mem_filter he)) (u (owner i))
  unfold passBc
  rw [hV, hW]
  have e1 := boundaryPass_at A data t _ _ W hW i
  have e2 := boundaryPass_at A data t map v V hV i
  rw [filter_owner, h i ha, e2] at e1
  exact (Option.some.inj e1).symm

/-- The modules on several ranks correspond to those of one process. -/
theorem mpi_sim (hD : D.Local get) (hM : M.WellFormed) (hG : M.dG = false) (par : Params) (big : ℝ) (A : Prepare.System S Id dim)
    (data : Vec dim → ℝ → S) (map : List (Prepare.Entry ι Id dim))
    (hA : ∀ e ∈ map, ∀ U t, (A.apply e.id U e.normal (data e.position t)).isSome)
    (preR : (R → ι → S) → R → P) (pre : (ι → S) → P) (hpre : PreCopies get M owner preR pre)
    (mem : ℕ → R → Memory ι S B) (lo : ℕ → Leftover ι S) (gR : ℕ → R → ι → S) (g : ℕ → ι → S) :
    Sim (mpiModules D M owner par big A data map preR mem gR)
      (hyperbolicModules D M par big (passBc A data map) pre lo g fun _ _ _ _ _ _ => .crash)
      (Owned M owner) fun s s' => Copies get M owner (fun r => ⟨s.U r, s.prec r⟩) ⟨s'.U, s'.prec⟩ where
  lin := by
    intro a b u u' v v' hu hv i hi
    simp only [Pi.add_apply, Pi.smul_apply, hu i hi, hv i hi]
  prep := by
    intro t u u' h
    have hU : ∀ r i, M.active i → owner i = r ∨ ghost M owner r i →
        exchange M owner (fun r => passBc A data (map.filter fun e => owner e.i = r) t (u r)) r i = passBc A data map t u' i :=
      fun r i ha hi => exchange_visible (v := fun r => passBc A data (map.filter fun e => owner e.i = r) t (u r))
        (passBc_visible A data map hA t u u' h i ha) hi
    exact fun r i ha hi => ⟨hU r i ha hi, hpre _ _ hU r i ha hi⟩
  vec := fun s s' h i hi => (h (owner i) i hi (Or.inl rfl)).U
  hyp := by
    intro ctx n s s' st st' dst dst' tau cap hs hst
    have hst' : CopiesStages get M owner (fun r => st.map fun p => (p.1, (⟨p.2.U r, p.2.prec r⟩ : StateVector ι P S)))
        (st'.map fun p => (p.1, (⟨p.2.U, p.2.prec⟩ : StateVector ι P S))) := by
      intro r i ha hi
      unfold StagesAt
      rw [List.forall₂_map_left_iff, List.forall₂_map_right_iff]
      exact hst.imp fun p q hpq => ⟨hpq.1, hpq.2 r i ha hi⟩
    have key := fun r => C107_step_partial hD hM hG { par with cfl := ctx.cfl } ctx.hyp ⟨0, 0⟩
      (fun r => { mem n r with newU := dst r }) { lo n with newU := dst' } _ _ hs _ _ hst' tau (cap.getD big) r
    simp only [mpiModules, hyperbolicModules]
    generalize hout : step D M owner { par with cfl := ctx.cfl } ctx.hyp (fun _ => ⟨0, 0⟩) (fun r => { mem n r with newU := dst r })
      (fun r => ⟨s.U r, s.prec r⟩) (fun r => st.map fun p => (p.1, ⟨p.2.U r, p.2.prec r⟩)) tau (cap.getD big) = out at key
    generalize (Hyp.step D M { par with cfl := ctx.cfl } ctx.hyp ⟨0, 0⟩ { lo n with newU := dst' } ⟨s'.U, s'.prec⟩
      (st'.map fun p => (p.1, ⟨p.2.U, p.2.prec⟩)) tau (cap.getD big)).1 = res at key
    cases res with
    | crashed =>
      have h0 := (key (Classical.arbitrary R)).1
      cases ho : (out (Classical.arbitrary R)).1 <;> rw [ho] at h0 <;> first | exact h0.elim | trivial
    | restart =>
      have h0 := (key (Classical.arbitrary R)).1
      cases ho : (out (Classical.arbitrary R)).1 <;> rw [ho] at h0 <;> first | exact h0.elim | trivial
    | done U t =>
      have h0 := (key (Classical.arbitrary R)).1
      cases ho : (out (Classical.arbitrary R)).1 with
      | crashed => rw [ho] at h0; exact h0.elim
      | restart => rw [ho] at h0; exact h0.elim
      | done U' t' =>
        rw [ho] at h0
        refine ⟨h0.1, fun i hi => ?_⟩
        have hi' := (key (owner i)).1
        cases ho' : (out (owner i)).1 with
        | crashed => rw [ho'] at hi'; exact hi'.elim
        | restart => rw [ho'] at hi'; exact hi'.elim
        | done V t'' =>
          rw [ho'] at hi'
          simp only [ho', states]
          exact hi'.2 i rfl hi
  par := fun _ _ _ _ _ _ _ _ _ => trivial

/-- **C107 (time steps of all schemes).** `TimeIntegrator::step` on any number of ranks, with any scheme, rejections and recoveries
ends as on one process, with the same time-step size and the same number of sub steps, and with the same states on the owned
degrees of freedom, provided this is so before – for any content of ghost ranges and of the memory of the modules. -/
theorem C107_time_step_partial (hD : D.Local get) (hM : M.WellFormed) (hG : M.dG = false) (par : Params) (big : ℝ)
    (A : Prepare.System S Id dim) (data : Vec dim → ℝ → S) (map : List (Prepare.Entry ι Id dim))
    (hA : ∀ e ∈ map, ∀ U t, (A.apply e.id U e.normal (data e.position t)).isSome)
    (preR : (R → ι → S) → R → P) (pre : (ι → S) → P) (hpre : PreCopies get M owner preR pre)
    (mem : ℕ → R → Memory ι S B) (lo : ℕ → Leftover ι S) (gR : ℕ → R → ι → S) (g : ℕ → ι → S)
    (sch : Scheme) (rec : Recovery) (cflMin cflMax : ℝ) (ctx : Ctx) (t tFinal : ℝ) (calls : ℕ)
    (m : Mem (R → ι → S) (R → P)) (m' : Mem (ι → S) P) (h : Owned M owner (m old).U (m' old).U) :
    ResultRel (Owned M owner)
      (Integrator.step (mpiModules D M owner par big A data map preR mem gR) (program sch) rec cflMin cflMax ctx t tFinal m calls).1
      (Integrator.step (hyperbolicModules D M par big (passBc A data map) pre lo g fun _ _ _ _ _ _ => .crash) (program sch) rec
        cflMin cflMax ctx t tFinal m' calls).1 :=
  (Integrator.Simulation.step_rel (mpi_sim hD hM hG par big A data map hA preR pre hpre mem lo gR g) sch rec cflMin cflMax ctx t
    tFinal m m' calls h).1

/-- **C107 (complete runs).** What any number of ranks computes in any number of time steps is what one process computes. -/
theorem C107_run_partial (hD : D.Local get) (hM : M.WellFormed) (hG : M.dG = false) (par : Params) (big : ℝ)
    (A : Prepare.System S Id dim) (data : Vec dim → ℝ → S) (map : List (Prepare.Entry ι Id dim))
    (hA : ∀ e ∈ map, ∀ U t, (A.apply e.id U e.normal (data e.position t)).isSome)
    (preR : (R → ι → S) → R → P) (pre : (ι → S) → P) (hpre : PreCopies get M owner preR pre)
    (mem : ℕ → R → Memory ι S B) (lo : ℕ → Leftover ι S) (gR : ℕ → R → ι → S) (g : ℕ → ι → S)
    (sch : Scheme) (rec : Recovery) (cflMin cflMax : ℝ) (ok : Ctx → Prop) (m m1 : Mem (R → ι → S) (R → P))
    (h : Run (mpiModules D M owner par big A data map preR mem gR) sch rec cflMin cflMax (fun ctx _ => ok ctx) m m1)
    (m' : Mem (ι → S) P) (h0 : Owned M owner (m old).U (m' old).U) :
    ∃ m1', Run (hyperbolicModules D M par big (passBc A data map) pre lo g fun _ _ _ _ _ _ => .crash) sch rec cflMin cflMax
      (fun ctx _ => ok ctx) m' m1' ∧ Owned M owner (m1 old).U (m1' old).U :=
  Integrator.Simulation.run_sim (mpi_sim hD hM hG par big A data map hA preR pre hpre mem lo gR g) sch rec cflMin cflMax ok m m1 h m' h0

omit [Fintype ι] [Fintype R] [Nonempty R] [AddCommGroup S] [Module ℝ S] in
/-- The precomputed values computed in cycles with exchanges (`C107_prepare`) satisfy the hypothesis of the theorems above. -/
theorem preCopies_cycles (hM : M.WellFormed) {pre : ℕ → (ι → S) → (ι → Q) → ι → Q} {cycles : ℕ} (hpre : PreLocal M pre cycles)
    (p : R → ι → Q) (q : ι → Q) :
    PreCopies (fun p i => p i) M owner (fun u => precomputeMpi M owner pre cycles u p) fun v => precompute M pre cycles v q :=
  fun _ _ hu r i ha hi => precompute_visible hM hpre hu p q r i ha hi

omit [Fintype ι] [Fintype R] [Nonempty R] [AddCommGroup S] [Module ℝ S] in
theorem preCopies_unit : PreCopies (S := S) (fun _ _ => ()) M owner (fun _ _ => ()) fun _ => () := fun _ _ _ _ _ _ _ => rfl

end runs

/-! ### Discontinuous elements: the result depends on the partition -/

/-- The lower bound after combining a row is not larger than that of any column. -/
theorem chain_combine_min {n : ℕ} (D : Description (Fin (n + 1)) P S F Scalar.Bounds 1) (hD : D.combine = Scalar.combineBounds)
    (b : Fin (n + 1) → Scalar.Bounds) (i j : Fin (n + 1)) (hj : j ∈ (chain n true).columns i) (v : ℝ) (h : (b j).u_min ≤ v) :
    (combineRow D (chain n true) b i).u_min ≤ v := by
  have aux : ∀ l : List (Fin (n + 1)), ∀ a : Scalar.Bounds, (a.u_min ≤ v ∨ j ∈ l) →
      (l.foldl (fun acc j => D.combine acc (b j)) a).u_min ≤ v := by
    intro l
    induction l with
    | nil =>
      rintro a (h | hj)
      · exact h
      · cases hj
    | cons k l ih =>
      rintro a h'
      rw [List.foldl_cons]
      refine ih _ ?_
      rw [hD]
      rcases h' with h' | hj
      · exact Or.inl (min_le_of_left_le h')
      · rcases List.mem_cons.1 hj with rfl | hj
        · exact Or.inl (min_le_of_right_le h)
        · exact Or.inr hj
  refine aux _ _ ?_
  rcases List.mem_cons.1 hj with rfl | hj
  · exact Or.inl h
  · exact Or.inr hj

/-- Bounds on four degrees of freedom: the first one has seen `-1`, the last one `1`. -/
def fourBounds : Fin 4 → Scalar.Bounds := ![⟨-1, 0⟩, ⟨0, 0⟩, ⟨0, 0⟩, ⟨0, 1⟩]

/-- After the rows of `order` have been combined one after the other: the row of the two inner ones that came last has seen what the
other one saw. -/
theorem four_rows (D : Description (Fin 4) P S F Scalar.Bounds 1) (hD : D.combine = Scalar.combineBounds) (order : List (Fin 4))
    (h1 : (1 : Fin 4) ∈ order) (h2 : (2 : Fin 4) ∈ order) :
    1 ≤ (boundsStep5 D (chain 3 true) order fourBounds 1).u_max ∨ (boundsStep5 D (chain 3 true) order fourBounds 2).u_min ≤ -1 := by
  have act : ∀ i : Fin 4, (chain 3 true).active i := by
    intro i
    by_cases hi : i.val = 3
    · exact List.ne_nil_of_mem (mem_chain.2 (Or.inr (by simp [hi])) : (2 : Fin 4) ∈ _)
    · exact List.ne_nil_of_mem (mem_chain.2 (Or.inl rfl) : (⟨i.val + 1, by omega⟩ : Fin 4) ∈ _)
  have key : ∀ (l : List (Fin 4)) (b : Fin 4 → Scalar.Bounds) (p1 p2 : Prop),
      (b 0).u_min ≤ -1 → 1 ≤ (b 3).u_max → (p1 → (b 1).u_min ≤ -1) → (p2 → 1 ≤ (b 2).u_max) →
      (p1 → p2 → 1 ≤ (b 1).u_max ∨ (b 2).u_min ≤ -1) → (1 ∈ l ∨ p1) → (2 ∈ l ∨ p2) →
      1 ≤ ((l.foldl (fun b i => if (chain 3 true).active i then Function.update b i (combineRow D (chain 3 true) b i) else b) b) 1).u_max ∨
      ((l.foldl (fun b i => if (chain 3 true).active i then Function.update b i (combineRow D (chain 3 true) b i) else b) b) 2).u_min
        ≤ -1 := by
    intro l
    induction l with
    | nil =>
      intro b p1 p2 _ _ _ _ h5 h6 h7
      exact h5 (h6.resolve_left (by simp)) (h7.resolve_left (by simp))
    | cons k l ih =>
      intro b p1 p2 a1 a2 a3 a4 a5 a6 a7
      rw [List.foldl_cons, if_pos (act k)]
      have nbr : ∀ i j : Fin 4, (j.val = i.val + 1 ∨ i.val = j.val + 1) → j ∈ (chain 3 true).columns i :=
        fun i j h => mem_nbr (mem_chain.2 h)
      have lo := fun i j hj v h => chain_combine_min (n := 3) D hD b i j hj v h
      have hi := fun i j hj v h => chain_combine (n := 3) D hD b i v ⟨j, hj, h⟩
      fin_cases k
      · refine ih _ p1 p2 ?_ a2 a3 a4 a5 (a6.imp_left ?_) (a7.imp_left ?_)
        · exact lo 0 0 (mem_self _ _) _ a1
        · intro h; exact (List.mem_cons.1 h).resolve_left (by decide)
        · intro h; exact (List.mem_cons.1 h).resolve_left (by decide)
      · refine ih _ True p2 a1 a2 ?_ a4 ?_ (Or.inr trivial) (a7.imp_left ?_)
        · intro _; exact lo 1 0 (nbr _ _ (Or.inr rfl)) _ a1
        · intro _ hp; exact Or.inl (hi 1 2 (nbr _ _ (Or.inl rfl)) _ (a4 hp))
        · intro h; exact (List.mem_cons.1 h).resolve_left (by decide)
      · refine ih _ p1 True a1 a2 a3 ?_ ?_ (a6.imp_left ?_) (Or.inr trivial)
        · intro _; exact hi 2 3 (nbr _ _ (Or.inl rfl)) _ a2
        · intro hp _; exact Or.inr (lo 2 1 (nbr _ _ (Or.inr rfl)) _ (a3 hp))
        · intro h; exact (List.mem_cons.1 h).resolve_left (by decide)
      · refine ih _ p1 p2 a1 ?_ a3 a4 a5 (a6.imp_left ?_) (a7.imp_left ?_)
        · exact hi 3 3 (mem_self _ _) _ a2
        · intro h; exact (List.mem_cons.1 h).resolve_left (by decide)
        · intro h; exact (List.mem_cons.1 h).resolve_left (by decide)
  have := key order fourBounds False False (by simp [fourBounds]) (by simp [fourBounds]) False.elim False.elim (fun h => h.elim)
    (Or.inl h1) (Or.inl h2)
  rw [boundsStep5, if_pos (show (chain 3 true).dG = true from rfl)]
  convert this

/-- **C107 (violation, discontinuous elements).** Four degrees of freedom in a row, each owned by another rank, and bounds of step 4
that are the same on all ranks: every rank combines its own row with the exchanged bounds of its neighbours; one process, in
whichever `order` its threads work on the rows, gets other bounds for one of the rows. -/
theorem C107_dg_violation (D : Description (Fin 4) P S F Scalar.Bounds 1) (hD : D.combine = Scalar.combineBounds) :
    ∃ b : Fin 4 → Scalar.Bounds, ∀ order : List (Fin 4), (∀ i, i ∈ order) →
      ∃ r : Fin 4, boundsStep5 D (chain 3 true) [r] (exchange (chain 3 true) id (fun _ => b) r) r ≠
        boundsStep5 D (chain 3 true) order b r := by
  refine ⟨fourBounds, fun order ho => ?_⟩
  have act : ∀ i : Fin 4, (chain 3 true).active i := by
    intro i
    by_cases hi : i.val = 3
    · exact List.ne_nil_of_mem (mem_chain.2 (Or.inr (by simp [hi])) : (2 : Fin 4) ∈ _)
    · exact List.ne_nil_of_mem (mem_chain.2 (Or.inl rfl) : (⟨i.val + 1, by omega⟩ : Fin 4) ∈ _)
  have ex : ∀ r, exchange (chain 3 true) id (fun _ : Fin 4 => fourBounds) r = fourBounds := by
    intro r
    funext i
    unfold exchange
    split_ifs <;> rfl
  have one : ∀ r, boundsStep5 D (chain 3 true) [r] fourBounds r = combineRow D (chain 3 true) fourBounds r := by
    intro r
    rw [boundsStep5, if_pos (show (chain 3 true).dG = true from rfl)]
    simp only [List.foldl_cons, List.foldl_nil, act, if_true, Function.update_self]
  have n1 : (chain 3 true).nbrs 1 = [0, 2] := by unfold chain; decide
  have n2 : (chain 3 true).nbrs 2 = [1, 3] := by unfold chain; decide
  by_contra hcon
  push Not at hcon
  rcases four_rows D hD order (ho 1) (ho 2) with h | h
  · rw [← hcon 1, ex, one, combineRow, n1, hD] at h
    simp [Scalar.combineBounds, fourBounds] at h
    norm_num at h
  · rw [← hcon 2, ex, one, combineRow, n2, hD] at h
    simp [Scalar.combineBounds, fourBounds] at h
    norm_num at h

/-! ### The solvers of the code -/

end

end Mpi
end Hyp

namespace Aeos

noncomputable section

open Euler (State)

open Hyp.Mpi

variable {ι R : Type} {dim : ℕ}

/-- The solver for arbitrary equations of state reads the precomputed values of the degrees of freedom it is given. -/
theorem solver_local (P : Params) (lp : LimiterParams) (strict : Bool) (big evc : ℝ)
    (lim : ι → ι → Bounds → State dim → State dim → ℝ × Prop) :
    (solver P lp strict big evc lim).Local fun (p : ι → Eos.Prec) i => p i where
  riemann := fun p p' i j hi hj => by simp only [solver, hi, hj]
  indicator := fun p p' i U l hd hi _ => by simp only [solver, hi]
  flux := fun p p' i hi => by simp only [solver, hi]
  source := fun p p' i hi => rfl
  limiterBounds := fun p p' i U f l hd hi hl => by
    simp only [solver, hi]
    congr 1
    generalize LimiterState.reset big (p' i).gamma_min = s
    induction l generalizing s with
    | nil => rfl
    | cons e es ih =>
      rw [List.foldl_cons, List.foldl_cons, hl e List.mem_cons_self]
      exact ih (fun e he => hl e (List.mem_cons_of_mem _ he)) _

/-- What the two cycles of `precomputation_loop` store for one row (euler_aeos/hyperbolic_system.h:843-976), see `Eos.precOf`,
`Eos.cycle1Row`. -/
def preCycles (eos : Eos.Interface) (P : Params) (M : Hyp.Mesh ι dim) (k : ℕ) (U : ι → State dim) (prec : ι → Eos.Prec) (i : ι) :
    Eos.Prec :=
  if k = 0 then Eos.precOf P (U i) (Eos.statePressure eos (U i))
  else
    let gamma_min_i := (M.nbrs i).foldl (fun g j => min g (surrogateGamma P (U j) (prec j).p)) (prec i).gamma_min
    ⟨(prec i).p, gamma_min_i, surrogateSpecificEntropy P (U i) gamma_min_i, surrogateHartenEntropy P (U i) gamma_min_i⟩

theorem preCycles_local (eos : Eos.Interface) (P : Params) (M : Hyp.Mesh ι dim) :
    PreLocal M (preCycles eos P M (dim := dim)) 2 where
  stencil := by
    intro k U U' p p' i hU hp
    have e : ∀ (l : List ι) (g : ℝ), (∀ j ∈ l, j ∈ M.columns i) →
        l.foldl (fun g j => min g (surrogateGamma P (U j) (p j).p)) g = l.foldl (fun g j => min g (surrogateGamma P (U' j) (p' j).p)) g := by
      intro l
      induction l with
      | nil => intro _ _; rfl
      | cons j l ih =>
        intro g hl
        rw [List.foldl_cons, List.foldl_cons, hU j (hl j List.mem_cons_self), hp j (hl j List.mem_cons_self)]
        exact ih _ fun k hk => hl k (List.mem_cons_of_mem _ hk)
    unfold preCycles
    rw [hU i (Hyp.mem_self M i), hp i (Hyp.mem_self M i), e _ _ fun j hj => Hyp.mem_nbr hj]
  fresh := fun U p p' i => rfl
  cycles := Or.inl (by norm_num)

/-- **C107 for the Euler equations with arbitrary equation of state.** Runs of any length, with the two precomputation cycles of the
code. -/
theorem C107_aeos_run_partial [Fintype ι] [Fintype R] [Nonempty R] {M : Hyp.Mesh ι dim} (hM : M.WellFormed) (hG : M.dG = false)
    (owner : ι → R) (eos : Eos.Interface) (P : Params) (lp : LimiterParams) (strict : Bool) (big evc : ℝ)
    (lim : ι → ι → Bounds → State dim → State dim → ℝ × Prop) (par : Hyp.Params) (tmax : ℝ) {Id : Type}
    (A : Prepare.System (State dim) Id dim)
    (data : Vec dim → ℝ → State dim) (map : List (Prepare.Entry ι Id dim))
    (hA : ∀ e ∈ map, ∀ U t, (A.apply e.id U e.normal (data e.position t)).isSome)
    (mem : ℕ → R → Memory ι (State dim) Bounds) (lo : ℕ → Hyp.Leftover ι (State dim)) (gR : ℕ → R → ι → State dim)
    (g : ℕ → ι → State dim) (p : R → ι → Eos.Prec) (q : ι → Eos.Prec)
    (sch : Integrator.Scheme) (rec : Integrator.Recovery) (cflMin cflMax : ℝ) (ok : Integrator.Ctx → Prop)
    (m m1 : Integrator.Mem (R → ι → State dim) (R → ι → Eos.Prec))
    (h : Integrator.Run (mpiModules (solver P lp strict big evc lim) M owner par tmax A data map
      (fun u => precomputeMpi M owner (preCycles eos P M) 2 u p) mem gR) sch rec cflMin cflMax (fun ctx _ => ok ctx) m m1)
    (m' : Integrator.Mem (ι → State dim) (ι → Eos.Prec))
    (h0 : ∀ i, M.nbrs i ≠ [] → (m .old).U (owner i) i = (m' .old).U i) :
    ∃ m1', Integrator.Run (Integrator.hyperbolicModules (solver P lp strict big evc lim) M par tmax (Integrator.passBc A data map)
      (fun v => precompute M (preCycles eos P M) 2 v q) lo g fun _ _ _ _ _ _ => .crash) sch rec cflMin cflMax
      (fun ctx _ => ok ctx) m' m1' ∧ ∀ i, M.nbrs i ≠ [] → (m1 .old).U (owner i) i = (m1' .old).U i :=
  C107_run_partial (solver_local P lp strict big evc lim) hM hG par tmax A data map hA _ _
    (preCopies_cycles hM (preCycles_local eos P M) p q) mem lo gR g sch rec cflMin cflMax ok m m1 h m' h0

end

end Aeos

namespace Hyp
namespace Mpi

noncomputable section

open Classical

/-- Burgers' equation on a chain of ten degrees of freedom owned by three ranks: four, four and two of them.  Every rank holds the
states it needs and zero elsewhere; the memory of the ranks is arbitrary. -/
example (X : Fin 10 → Scalar.State) (mem : Fin 3 → Memory (Fin 10) Scalar.State Scalar.Bounds) (lo : Leftover (Fin 10) Scalar.State)
    (cnt : Counters) (tau : ℝ) (r : Fin 3) :
    let owner : Fin 10 → Fin 3 := fun i => ⟨i.val / 4, by omega⟩
    let D := Scalar.oneLane (ι := Fin 10) (dim := 1) (Scalar.burgers 1 (1 / 1000))
      ⟨⟨false, false⟩, 1, 1 / 1000, 1 / 1000, 100, 2⟩ fun _ _ => []
    let x : Fin 3 → StateVector (Fin 10) Unit Scalar.State :=
      fun r => ⟨fun i => if owner i = r ∨ ghost (chain 9 false) owner r i then X i else 0, ()⟩
    SameOnRank (chain 9 false) owner r
      (step D (chain 9 false) owner ⟨1 / 2, 1 / 1000, 2⟩ .raise_exception (fun _ => cnt) mem x (fun _ => []) tau 10 r).1
      (Hyp.step D (chain 9 false) ⟨1 / 2, 1 / 1000, 2⟩ .raise_exception cnt lo ⟨X, ()⟩ [] tau 10).1 := by
  intro owner D x
  refine (C107_step_partial (local_of_unit D) (chain_wf 9 false) rfl _ _ cnt mem lo x ⟨X, ()⟩ ?_ _ [] ?_ tau 10 r).1
  · intro r i _ hi
    exact ⟨if_pos hi, rfl⟩
  · intro r i _ _
    exact List.Forall₂.nil

/-- Discontinuous elements and Burgers' equation meet the hypotheses of the violation. -/
example : ∃ b : Fin 4 → Scalar.Bounds, ∀ order : List (Fin 4), (∀ i, i ∈ order) →
    ∃ r : Fin 4, boundsStep5 (Scalar.oneLane (dim := 1) (Scalar.burgers 1 (1 / 1000)) ⟨⟨false, false⟩, 1, 1 / 1000, 1 / 1000, 100, 2⟩
        fun _ _ => []) (chain 3 true) [r] (exchange (chain 3 true) id (fun _ => b) r) r ≠
      boundsStep5 (Scalar.oneLane (dim := 1) (Scalar.burgers 1 (1 / 1000)) ⟨⟨false, false⟩, 1, 1 / 1000, 1 / 1000, 100, 2⟩
        fun _ _ => []) (chain 3 true) order b r :=
  C107_dg_violation _ rfl

/-- Runs of the shallow water equations on any number of ranks with the third order scheme: they exist trivially (no time step), and
the theorem lets them go on for as long as they do. -/
example (owner : Fin 10 → Fin 3) (D : Description (Fin 10) Unit (ShallowWater.State 1) (ShallowWater.FluxContribution 1)
      ShallowWater.Bounds 1) (par : Params)
    (A : Prepare.System (ShallowWater.State 1) Unit 1) (data : Vec 1 → ℝ → ShallowWater.State 1)
    (mem : ℕ → Fin 3 → Memory (Fin 10) (ShallowWater.State 1) ShallowWater.Bounds) (lo : ℕ → Leftover (Fin 10) (ShallowWater.State 1))
    (u : Fin 3 → Fin 10 → ShallowWater.State 1) (v : Fin 10 → ShallowWater.State 1) (huv : ∀ i, u (owner i) i = v i)
    (m1 : Integrator.Mem (Fin 3 → Fin 10 → ShallowWater.State 1) (Fin 3 → Unit))
    (h : Integrator.Run (mpiModules D (chain 9 false) owner par 10 A data [] (fun _ _ => ()) mem fun _ => u) .erk_33 .bang_bang_control 0 1
      (fun _ _ => True) (fun _ => ⟨u, fun _ => ()⟩) m1) :
    ∃ m1', Integrator.Run (Integrator.hyperbolicModules D (chain 9 false) par 10 (Integrator.passBc A data []) (fun _ => ()) lo (fun _ => v)
      fun _ _ _ _ _ _ => .crash) .erk_33 .bang_bang_control 0 1 (fun _ _ => True) (fun _ => ⟨v, ()⟩) m1' ∧
      Owned (chain 9 false) owner (m1 .old).U (m1' .old).U :=
  C107_run_partial (local_of_unit D) (chain_wf 9 false) rfl par 10 A data [] (by simp) _ _ preCopies_unit mem lo _ _ _ _ _ _ _ _ _ h _
    fun i _ => huv i

end

end Mpi
end Hyp
end Ryujin
