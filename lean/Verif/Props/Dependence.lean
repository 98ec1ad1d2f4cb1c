import Verif.Proofs.StepLocal
import Verif.Proofs.HyperbolicStep
import Verif.Props.HyperbolicStep
import Verif.Model.OneLane

/-!
# C106: domain of dependence of a time step
-/

namespace Ryujin
namespace Hyp

noncomputable section

variable {ι P Q S F B : Type} {dim : ℕ}

/-- `j` is reached from `i` by at most `n` steps from a degree of freedom to a column of its row. -/
def Reach (M : Mesh ι dim) : ℕ → ι → ι → Prop
  | 0, i, j => j = i
  | n + 1, i, j => j = i ∨ ∃ k ∈ M.nbrs i, Reach M n k j

/-- Two sets of arguments of `step` – old state vector and stage vectors – agree within `n` layers around `i`. -/
def AgreeWithin (get : P → ι → Q) (M : Mesh ι dim) (x y : StateVector ι P S) (st st' : List (ℝ × StateVector ι P S))
    (n : ℕ) (i : ι) : Prop :=
  ∀ j, Reach M n i j → At get x y j ∧ StagesAt get st st' j

theorem Reach.refl (M : Mesh ι dim) (n : ℕ) (i : ι) : Reach M n i i := by
  cases n with
  | zero => rfl
  | succ n => exact Or.inl rfl

theorem Reach.succ {M : Mesh ι dim} {n : ℕ} {i j : ι} (h : Reach M n i j) : Reach M (n + 1) i j := by
  induction n generalizing i with
  | zero => exact Or.inl h
  | succ n ih =>
    rcases h with h | ⟨k, hk, h⟩
    · exact Or.inl h
    · exact Or.inr ⟨k, hk, ih h⟩

variable {get : P → ι → Q} {D : Description ι P S F B dim} (hD : D.Local get) {M : Mesh ι dim} (hM : M.WellFormed)
  {x y : StateVector ι P S} {st st' : List (ℝ × StateVector ι P S)}

theorem AgreeWithin.pred {n : ℕ} {i : ι} (h : AgreeWithin get M x y st st' (n + 1) i) :
    AgreeWithin get M x y st st' n i := fun j hj => h j hj.succ

theorem AgreeWithin.mono {n m : ℕ} (hnm : n ≤ m) {i : ι} (h : AgreeWithin get M x y st st' m i) :
    AgreeWithin get M x y st st' n i := by
  induction hnm with
  | refl => exact h
  | step _ ih => exact ih h.pred

theorem AgreeWithin.nbr {n : ℕ} {i k : ι} (h : AgreeWithin get M x y st st' (n + 1) i) (hk : k ∈ M.nbrs i) :
    AgreeWithin get M x y st st' n k := fun j hj => h j (Or.inr ⟨k, hk, hj⟩)

theorem AgreeWithin.col {n : ℕ} {i k : ι} (h : AgreeWithin get M x y st st' (n + 1) i) (hk : k ∈ M.columns i) :
    AgreeWithin get M x y st st' n k := by
  rcases List.mem_cons.1 hk with rfl | hk
  · exact h.pred
  · exact h.nbr hk

theorem AgreeWithin.self {n : ℕ} {i : ι} (h : AgreeWithin get M x y st st' n i) :
    At get x y i ∧ StagesAt get st st' i := h i (Reach.refl M n i)

variable [AddCommGroup S] [Module ℝ S] [Fintype ι]

include hD hM

omit [AddCommGroup S] [Module ℝ S] in
theorem low4_within (par : Params) (lo lo' : Leftover ι S) (tau : ℝ) {i : ι}
    (h : AgreeWithin get M x y st st' 1 i) :
    Low4 get M (stage4 D M par lo x st tau) (stage4 D M par lo' y st' tau) i where
  old := fun _ hj => (h.col hj).self.1
  stages := fun _ hj => (h.col hj).self.2
  tau := rfl
  d := by
    intro j hj
    simp only [stage4, dDiag_at hD hM par (st' := lo'.dij) fun j hj => (h.col hj).self.1,
      dOff_at hD hM (st' := lo'.dij) h.self.1 (h.col hj).self.1]

omit [AddCommGroup S] [Module ℝ S] in
theorem near4_within (par : Params) (lo lo' : Leftover ι S) (tau : ℝ) {i : ι}
    (h : AgreeWithin get M x y st st' 2 i) :
    Near4 get M (stage4 D M par lo x st tau) (stage4 D M par lo' y st' tau) i :=
  { low4_within hD hM par lo lo' tau h.pred with
    alpha := fun _ hj => alpha_at hD fun _ hk => ((h.col hj).col hk).self.1 }

theorem bounds_within (hG : M.dG = false) (par : Params) (lo lo' : Leftover ι S) (tau : ℝ) {i : ι}
    (h : AgreeWithin get M x y st st' 1 i) :
    finalBounds D M par lo (stage4 D M par lo x st tau) i = finalBounds D M par lo' (stage4 D M par lo' y st' tau) i := by
  simp only [finalBounds, boundsStep5, hG, Bool.false_eq_true, if_false]
  exact boundsStep4_at hD _ (low4_within hD hM par lo lo' tau h)

theorem pIJ_within (par : Params) (lo lo' : Leftover ι S) (tau : ℝ) {i j : ι} (hj : j ∈ M.nbrs i)
    (h : AgreeWithin get M x y st st' 2 i) (h' : AgreeWithin get M x y st st' 2 j) :
    pIJ D M (stage4 D M par lo x st tau) i j = pIJ D M (stage4 D M par lo' y st' tau) i j :=
  pIJ_at hD (near4_within hD hM par lo lo' tau h) hj (near4_within hD hM par lo lo' tau h')

theorem l1_within (hG : M.dG = false) (par : Params) (lo lo' : Leftover ι S) (tau : ℝ) {i j : ι} (hj : j ∈ M.nbrs i)
    (h : AgreeWithin get M x y st st' 2 i) (h' : AgreeWithin get M x y st st' 2 j) :
    l1 D M par lo (stage4 D M par lo x st tau) i j = l1 D M par lo' (stage4 D M par lo' y st' tau) i j := by
  rw [l1, l1, bounds_within hD hM hG par lo lo' tau h.pred, pIJ_within hD hM par lo lo' tau hj h h',
    lowOrder_at hD (low4_within hD hM par lo lo' tau h.pred)]

omit hD hM [Fintype ι] in
/-- Agreement of two states of the limiter loop after `k` passes. -/
def LoopWithin (get : P → ι → Q) (M : Mesh ι dim) (x y : StateVector ι P S) (st st' : List (ℝ × StateVector ι P S))
    (n k : ℕ) (s s' : LimiterLoop ι S) : Prop :=
  (∀ i, M.active i → AgreeWithin get M x y st st' (k + 2) i → s.U i = s'.U i) ∧
  (∀ i, ∀ j ∈ M.nbrs i, AgreeWithin get M x y st st' (k + 2) i → AgreeWithin get M x y st st' (k + 2) j →
    s.lij i j = s'.lij i j) ∧
  (n = 2 → 0 < k → ∀ i, ∀ j ∈ M.nbrs i, AgreeWithin get M x y st st' (k + 2) i →
    AgreeWithin get M x y st st' (k + 2) j → s.lijNext i j = s'.lijNext i j)

theorem limiterPass_within (hG : M.dG = false) (par : Params) (lo lo' : Leftover ι S) (tau : ℝ) (n k : ℕ)
    {s s' : LimiterLoop ι S} (h : LoopWithin get M x y st st' n k s s') :
    LoopWithin get M x y st st' n (k + 1)
      (limiterPass D M (finalBounds D M par lo (stage4 D M par lo x st tau)) (pIJ D M (stage4 D M par lo x st tau)) n k s)
      (limiterPass D M (finalBounds D M par lo' (stage4 D M par lo' y st' tau)) (pIJ D M (stage4 D M par lo' y st' tau)) n k s') := by
  obtain ⟨hU, hl, hln⟩ := h
  have hcur : ∀ i, ∀ j ∈ M.nbrs i, AgreeWithin get M x y st st' (k + 2) i → AgreeWithin get M x y st st' (k + 2) j →
      (if n = 2 ∧ k + 1 = n then s.lijNext else s.lij) i j =
        (if n = 2 ∧ k + 1 = n then s'.lijNext else s'.lij) i j := by
    intro i j hj hi hj'
    split_ifs with hc
    · exact hln hc.1 (by omega) i j hj hi hj'
    · exact hl i j hj hi hj'
  have hsym : ∀ i, ∀ j ∈ M.nbrs i, AgreeWithin get M x y st st' (k + 2) i → AgreeWithin get M x y st st' (k + 2) j →
      symmetrized (if n = 2 ∧ k + 1 = n then s.lijNext else s.lij) i j =
        symmetrized (if n = 2 ∧ k + 1 = n then s'.lijNext else s'.lij) i j := by
    intro i j hj hi hj'
    rw [symmetrized, symmetrized, hcur i j hj hi hj', hcur j i (hM.symm i j hj) hj' hi]
  have hp : ∀ i, ∀ j ∈ M.nbrs i, AgreeWithin get M x y st st' (k + 2) i → AgreeWithin get M x y st st' (k + 2) j →
      pIJ D M (stage4 D M par lo x st tau) i j = pIJ D M (stage4 D M par lo' y st' tau) i j :=
    fun i j hj hi hj' => pIJ_within hD hM par lo lo' tau hj (hi.mono (by omega)) (hj'.mono (by omega))
  have hcurU : ∀ i, M.active i → AgreeWithin get M x y st st' (k + 1 + 2) i →
      (limiterPass D M (finalBounds D M par lo (stage4 D M par lo x st tau)) (pIJ D M (stage4 D M par lo x st tau)) n k s).U i =
      (limiterPass D M (finalBounds D M par lo' (stage4 D M par lo' y st' tau)) (pIJ D M (stage4 D M par lo' y st' tau)) n k s').U i := by
    intro i ha hi
    have hi2 : AgreeWithin get M x y st st' (k + 2) i := hi.pred
    simp only [limiterPass, ha, if_true, hU i ha hi2]
    congr 2
    refine List.map_congr_left fun j hj => ?_
    have hj2 : AgreeWithin get M x y st st' (k + 2) j := hi.nbr hj
    rw [hp i j hj hi2 hj2, hsym i j hj hi2 hj2]
  refine ⟨hcurU, fun i j hj hi hj' => hcur i j hj hi.pred hj'.pred, fun h2 _ i j hj hi hj' => ?_⟩
  have hi2 : AgreeWithin get M x y st st' (k + 2) i := hi.pred
  have hj2 : AgreeWithin get M x y st st' (k + 2) j := hj'.pred
  have hU' := hcurU i (self_active hj) hi
  have hs := hsym i j hj hi2 hj2
  simp only [limiterPass] at hU' ⊢
  by_cases hlast : k + 1 = n
  · rw [if_pos hlast, if_pos hlast, if_pos ⟨h2, hlast⟩, if_pos ⟨h2, hlast⟩]
    exact hl i j hj hi2 hj2
  · rw [if_neg hlast, if_neg hlast, hU', hs, hp i j hj hi2 hj2, bounds_within hD hM hG par lo lo' tau (hi.mono (by omega))]

/-- The number of layers on which the result at a degree of freedom depends, for `n` limiter passes. -/
def layers (n : ℕ) : ℕ := if n = 0 then 1 else n + 2

theorem newStates_within (hG : M.dG = false) (par : Params) (lo lo' : Leftover ι S) (tau : ℝ) {i : ι} (hi : M.active i)
    (h : AgreeWithin get M x y st st' (layers par.iterations) i) :
    newStates D M par lo (stage4 D M par lo x st tau) i = newStates D M par lo' (stage4 D M par lo' y st' tau) i := by
  unfold newStates limiterLoop
  have key : ∀ k, LoopWithin get M x y st st' par.iterations k
      ((List.range k).foldl (fun s pass => limiterPass D M (finalBounds D M par lo (stage4 D M par lo x st tau))
        (pIJ D M (stage4 D M par lo x st tau)) par.iterations pass s)
        ⟨newLow D M lo (stage4 D M par lo x st tau), fun i j => (l1 D M par lo (stage4 D M par lo x st tau) i j).1, lo.lijNext⟩)
      ((List.range k).foldl (fun s pass => limiterPass D M (finalBounds D M par lo' (stage4 D M par lo' y st' tau))
        (pIJ D M (stage4 D M par lo' y st' tau)) par.iterations pass s)
        ⟨newLow D M lo' (stage4 D M par lo' y st' tau), fun i j => (l1 D M par lo' (stage4 D M par lo' y st' tau) i j).1,
          lo'.lijNext⟩) := by
    intro k
    induction k with
    | zero =>
      refine ⟨fun i ha hi => ?_, fun i j hj hi hj' => ?_, fun _ h0 => absurd h0 (lt_irrefl _)⟩
      · simp only [List.range_zero, List.foldl_nil, newLow, ha, if_true]
        exact lowOrder_at hD (low4_within hD hM par lo lo' tau hi.pred)
      · simp only [List.range_zero, List.foldl_nil, l1_within hD hM hG par lo lo' tau hj hi hj']
    | succ k ih =>
      rw [List.range_succ, List.foldl_append, List.foldl_append]
      exact limiterPass_within hD hM hG par lo lo' tau _ k ih
  by_cases hn : par.iterations = 0
  · rw [layers, if_pos hn] at h
    simp only [hn, List.range_zero, List.foldl_nil, newLow, hi, if_true]
    exact lowOrder_at hD (low4_within hD hM par lo lo' tau h)
  · rw [layers, if_neg hn] at h
    exact (key _).1 i hi h

/-- **C106.** *Domain of dependence.*  Two time steps of the same size `t` return the same state at degree of freedom `i`
whenever their arguments – old state vector and stage vectors – agree on the degrees of freedom reached from `i` by going
from neighbour to neighbour at most once (no limiter pass), or `n + 2` times (`n ≥ 1` limiter passes).  What is stored at
any other degree of freedom, and all leftover values, have no influence.  The restriction to continuous elements is
necessary, see `C106_dg_violation`. -/
theorem C106_domain_partial (hG : M.dG = false) (par : Params) (strategy strategy' : Strategy) (cnt cnt' : Counters)
    (lo lo' : Leftover ι S) (tau tau' tau_max tau_max' t : ℝ) (U U' : ι → S)
    (h1 : (step D M par strategy cnt lo x st tau tau_max).1 = .done U t)
    (h2 : (step D M par strategy' cnt' lo' y st' tau' tau_max').1 = .done U' t)
    (i : ι) (hi : M.nbrs i ≠ []) (h : AgreeWithin get M x y st st' (layers par.iterations) i) : U i = U' i := by
  obtain ⟨-, -, e1⟩ := step_done h1
  obtain ⟨-, -, e2⟩ := step_done h2
  rw [e1, e2]
  exact newStates_within hD hM hG par lo lo' t hi h

end

/-! ### A chain of degrees of freedom -/

section

/-- A row of `n + 1` degrees of freedom, each coupled to the one before and the one after it. -/
noncomputable def chain (n : ℕ) (dG : Bool) : Mesh (Fin (n + 1)) 1 where
  nbrs := fun i => (List.finRange (n + 1)).filter fun j => decide (j.val = i.val + 1 ∨ i.val = j.val + 1)
  below := fun i j => j < i
  skip := fun _ _ => False
  boundary := fun _ => False
  c := fun i j => fun _ => if j.val = i.val + 1 then 1 / 2 else if i.val = j.val + 1 then -1 / 2 else 0
  mass := fun i j => if i = j then 2 / 3 else 1 / 6
  massInv := fun _ _ => 0
  lumped := fun _ => 1
  incidence := fun _ _ => 0
  dG := dG
  omega := n + 1

theorem mem_chain {n : ℕ} {dG : Bool} {i j : Fin (n + 1)} :
    j ∈ (chain n dG).nbrs i ↔ (j.val = i.val + 1 ∨ i.val = j.val + 1) := by
  simp [chain]

theorem chain_wf (n : ℕ) (dG : Bool) : (chain n dG).WellFormed where
  nodup := fun i => (List.nodup_finRange _).filter _
  irrefl := fun i h => by have := mem_chain.1 h; omega
  symm := fun i j h => by have := mem_chain.1 h; exact mem_chain.2 (by omega)
  asymm := fun i j h => not_lt.2 (le_of_lt h)
  skip_below := fun _ _ h => h.elim

theorem chain_reach {n : ℕ} {dG : Bool} {k : ℕ} {i j : Fin (n + 1)} (h : Reach (chain n dG) k i j) :
    j.val ≤ i.val + k := by
  induction k generalizing i with
  | zero => rw [show j = i from h]; simp
  | succ k ih =>
    rcases h with rfl | ⟨l, hl, h⟩
    · omega
    · have := ih h
      have := mem_chain.1 hl
      omega

/-- Burgers' equation on a chain of ten degrees of freedom with two limiter passes: the result at the first one does not
depend on the last five. -/
example (tau : ℝ) (x y : Fin 10 → Scalar.State) (hxy : ∀ j : Fin 10, j.val ≤ 4 → x j = y j)
    (lo lo' : Leftover (Fin 10) Scalar.State) (cnt : Counters) (U U' : Fin 10 → Scalar.State)
    (h1 : (step (Scalar.oneLane (Scalar.burgers 1 (1 / 1000)) ⟨⟨false, false⟩, 1, 1 / 1000, 1 / 1000, 100, 2⟩ fun _ _ => [])
      (chain 9 false) ⟨1 / 2, 1 / 1000, 2⟩ .warn cnt lo ⟨x, ()⟩ [] tau 10).1 = .done U tau)
    (h2 : (step (Scalar.oneLane (Scalar.burgers 1 (1 / 1000)) ⟨⟨false, false⟩, 1, 1 / 1000, 1 / 1000, 100, 2⟩ fun _ _ => [])
      (chain 9 false) ⟨1 / 2, 1 / 1000, 2⟩ .warn cnt lo' ⟨y, ()⟩ [] tau 10).1 = .done U' tau) : U 0 = U' 0 := by
  refine C106_domain_partial (local_of_unit _) (chain_wf 9 false) rfl _ _ _ _ _ _ _ _ _ _ _ _ U U' h1 h2 0 ?_ ?_
  · exact List.ne_nil_of_mem (mem_chain.2 (Or.inl rfl) : (1 : Fin 10) ∈ _)
  · intro j hj
    have := chain_reach hj
    exact ⟨⟨hxy j (by simpa [layers] using this), rfl⟩, List.Forall₂.nil⟩

open Classical in
/-- One row of the in-place combination of bounds on a chain, when the row above has been processed and the row below has not. -/
theorem chain_combine {n : ℕ} (D : Description (Fin (n + 1)) P S F Scalar.Bounds 1) (hD : D.combine = Scalar.combineBounds)
    (b : Fin (n + 1) → Scalar.Bounds) (i : Fin (n + 1)) (v : ℝ) (h : ∃ j ∈ (chain n true).columns i, v ≤ (b j).u_max) :
    v ≤ (combineRow D (chain n true) b i).u_max := by
  have aux : ∀ l : List (Fin (n + 1)), ∀ a : Scalar.Bounds, (v ≤ a.u_max ∨ ∃ j ∈ l, v ≤ (b j).u_max) →
      v ≤ (l.foldl (fun acc j => D.combine acc (b j)) a).u_max := by
    intro l
    induction l with
    | nil =>
      rintro a (h | ⟨j, hj, _⟩)
      · exact h
      · cases hj
    | cons k l ih =>
      rintro a h
      rw [List.foldl_cons]
      refine ih _ ?_
      rw [hD]
      rcases h with h | ⟨j, hj, h⟩
      · exact Or.inl (le_max_of_le_left h)
      · rcases List.mem_cons.1 hj with rfl | hj
        · exact Or.inl (le_max_of_le_right h)
        · exact Or.inr ⟨j, hj, h⟩
  refine aux _ _ ?_
  obtain ⟨j, hj, h⟩ := h
  rcases List.mem_cons.1 hj with rfl | hj
  · exact Or.inl h
  · exact Or.inr ⟨j, hj, h⟩

open Classical in
theorem chain_travels (n : ℕ) (D : Description (Fin (n + 1)) P S F Scalar.Bounds 1) (hD : D.combine = Scalar.combineBounds) (hn : 0 < n) :
    ∃ order : List (Fin (n + 1)), order.Nodup ∧ (∀ i, i ∈ order) ∧ ∀ v : ℝ, ∀ b : Fin (n + 1) → Scalar.Bounds,
      (b (Fin.last n)).u_max = v → v ≤ (boundsStep5 D (chain n true) order b 0).u_max := by
  refine ⟨(List.finRange (n + 1)).reverse, List.nodup_reverse.2 (List.nodup_finRange _),
    fun i => List.mem_reverse.2 (List.mem_finRange i), ?_⟩
  intro v b hb
  have hd : (chain n true).dG = true := rfl
  rw [boundsStep5, if_pos hd]
  have act : ∀ i : Fin (n + 1), (chain n true).active i := by
    intro i
    by_cases hi : i.val = n
    · exact List.ne_nil_of_mem (mem_chain.2 (Or.inr (by simp; omega)) : (⟨n - 1, by omega⟩ : Fin (n + 1)) ∈ _)
    · exact List.ne_nil_of_mem (mem_chain.2 (Or.inl rfl) : (⟨i.val + 1, by omega⟩ : Fin (n + 1)) ∈ _)
  -- process the rows `n, n - 1, …`
  have key : ∀ m (hm : m ≤ n) (b : Fin (n + 1) → Scalar.Bounds),
      (∃ j ∈ (chain n true).columns ⟨m, by omega⟩, v ≤ (b j).u_max) →
      v ≤ ((((List.finRange (n + 1)).take (m + 1)).reverse.foldl (fun b i => if (chain n true).active i then
        Function.update b i (combineRow D (chain n true) b i) else b) b) 0).u_max := by
    intro m
    induction m with
    | zero =>
      intro hm b h
      have e : ((List.finRange (n + 1)).take 1).reverse = [0] := by
        rw [List.finRange_succ]; rfl
      rw [zero_add, e]
      simp only [List.foldl_cons, List.foldl_nil, act, if_true, Function.update_self]
      exact chain_combine D hD b 0 v h
    | succ m ih =>
      intro hm b h
      have e : (List.finRange (n + 1)).take (m + 1 + 1) = (List.finRange (n + 1)).take (m + 1) ++ [⟨m + 1, by omega⟩] := by
        rw [List.take_add_one]
        congr 1
        rw [List.getElem?_eq_getElem (by rw [List.length_finRange]; omega)]
        simp
      rw [e, List.reverse_append, List.reverse_singleton, List.singleton_append, List.foldl_cons]
      refine ih (by omega) _ ⟨⟨m + 1, by omega⟩, mem_nbr (mem_chain.2 (Or.inl rfl)), ?_⟩
      simp only [act, if_true, Function.update_self]
      exact chain_combine D hD b _ v h
  have := key n le_rfl b ⟨Fin.last n, mem_self _ _, hb.ge⟩
  rw [List.take_of_length_le (by rw [List.length_finRange])] at this
  convert this

open Classical in
/-- **C106 (violation, discontinuous elements).** With discontinuous elements the bounds of the rows are extended in place while
other rows read them, and no number of layers suffices: on a chain of `n + 1` degrees of freedom processed from the far end,
whatever the bounds computed in step 4 are, a change of the bounds of the last degree of freedom, `n` layers away, changes
the bounds used to limit the update of the first one (`boundsStep5`, hyperbolic_module.template.h:930-948). -/
theorem C106_dg_violation (n : ℕ) (D : Description (Fin (n + 1)) P S F Scalar.Bounds 1) (hD : D.combine = Scalar.combineBounds)
    (hn : 0 < n) : ∃ order : List (Fin (n + 1)), order.Nodup ∧ (∀ i, i ∈ order) ∧ ∀ b : Fin (n + 1) → Scalar.Bounds,
      ∃ b', (∀ j, j ≠ Fin.last n → b' j = b j) ∧
        boundsStep5 D (chain n true) order b' 0 ≠ boundsStep5 D (chain n true) order b 0 := by
  obtain ⟨order, h1, h2, h3⟩ := chain_travels n D hD hn
  refine ⟨order, h1, h2, fun b => ?_⟩
  set r := (boundsStep5 D (chain n true) order b 0).u_max with hr
  refine ⟨Function.update b (Fin.last n) ⟨0, r + 1⟩, fun j hj => Function.update_of_ne hj _ _, fun h => ?_⟩
  have := h3 (r + 1) (Function.update b (Fin.last n) ⟨0, r + 1⟩) (by rw [Function.update_self])
  rw [h, ← hr] at this
  linarith

/-- Burgers' equation on ten degrees of freedom. -/
example : ∃ order : List (Fin 10), order.Nodup ∧ (∀ i, i ∈ order) ∧ ∀ b : Fin 10 → Scalar.Bounds,
    ∃ b', (∀ j, j ≠ Fin.last 9 → b' j = b j) ∧
      boundsStep5 (Scalar.oneLane (dim := 1) (Scalar.burgers 1 (1 / 1000)) ⟨⟨false, false⟩, 1, 1 / 1000, 1 / 1000, 100, 2⟩
        fun _ _ => []) (chain 9 true) order b' 0 ≠
      boundsStep5 (Scalar.oneLane (dim := 1) (Scalar.burgers 1 (1 / 1000)) ⟨⟨false, false⟩, 1, 1 / 1000, 1 / 1000, 100, 2⟩
        fun _ _ => []) (chain 9 true) order b 0 :=
  C106_dg_violation 9 _ rfl (by norm_num)

end

end Hyp
end Ryujin
