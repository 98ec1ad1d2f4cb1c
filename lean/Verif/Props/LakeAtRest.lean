import Verif.Props.ShallowWater
import Verif.Props.ShallowWaterLimiter
import Verif.Props.StepEquations

/-!
# C38 – a lake at rest stays at rest

`LakeAtRest` is the specification: zero momentum; wet nodes (depth above the mollification threshold) have
the free surface at level `η`; dry nodes have depth zero and their ground is not below `η`.
-/

namespace Ryujin
namespace ShallowWater

open Hyp
open scoped BigOperators

variable {ι : Type} {dim : ℕ}

/-- A lake at rest with free surface level `η` over the bathymetry `Z`: the fluid does not move; a wet node has
its free surface at `η`, a dry one has its ground above (or at) `η`. -/
def LakeAtRest (p : Params) (Z : ι → ℝ) (η : ℝ) (U : ι → State dim) : Prop :=
  ∀ i, momentum (U i) = 0 ∧
    ((0 < waterDepth (U i) ∧ cutoffMollified p ≤ waterDepth (U i) ∧ waterDepth (U i) + Z i = η) ∨
      (waterDepth (U i) = 0 ∧ η ≤ Z i))

/-! ### Functions of the hyperbolic system at rest -/

theorem waterDepth_sum (l : List (State dim)) : waterDepth l.sum = (l.map waterDepth).sum := by
  induction l with
  | nil => rfl
  | cons a l ih => rw [List.sum_cons, List.map_cons, List.sum_cons, ← ih]; rfl

theorem momentum_sum (l : List (State dim)) : momentum l.sum = (l.map momentum).sum := by
  induction l with
  | nil => rfl
  | cons a l ih => rw [List.sum_cons, List.map_cons, List.sum_cons, ← ih]; rfl

theorem g_rest (p : Params) {U : State dim} (h : momentum U = 0) : g p U = 0 := by
  funext k
  refine Fin.cases ?_ (fun i => ?_) k <;> funext d <;> simp [g, h]

/-- The depths of both equilibrated states of a pair of a lake at rest. -/
theorem star_depth (p : Params) (Z : ι → ℝ) (η : ℝ) (U : ι → State dim) (h : LakeAtRest p Z η U) (i j : ι) :
    waterDepth (starState p (U i) (Z i) (Z j)) = max 0 (η - max (Z i) (Z j)) := by
  rcases (h i).2 with ⟨h0, h1, h2⟩ | ⟨h0, h1⟩
  · rw [(C40_sw_star_state p (U i) (Z i) (Z j)).2.2.2.2 h0 h1, h2]
  · have : max 0 (η - max (Z i) (Z j)) = 0 := max_eq_left (by have := le_max_left (Z i) (Z j); linarith)
    rw [this]
    show (_ • U i : State dim) 0 = 0
    have : (U i) 0 = 0 := h0
    simp [this]

theorem star_momentum (p : Params) {U : State dim} (h : momentum U = 0) (a b : ℝ) :
    momentum (starState p U a b) = 0 := by
  unfold starState
  simp only
  rw [momentum_smul, h, smul_zero]

/-- Both equilibrated states of a pair coincide. -/
theorem star_eq (p : Params) (Z : ι → ℝ) (η : ℝ) (U : ι → State dim) (h : LakeAtRest p Z η U) (i j : ι) :
    starState p (U i) (Z i) (Z j) = starState p (U j) (Z j) (Z i) := by
  apply state_ext
  · rw [star_depth p Z η U h, star_depth p Z η U h, max_comm (Z i)]
  · rw [star_momentum p (h i).1, star_momentum p (h j).1]

/-- `subDiagonal 0 a` contracted with `c`. -/
theorem contract_subDiagonal_zero (a : ℝ) (c : Vec dim) :
    contract (subDiagonal (0 : Fin (dim + 1) → Vec dim) a) c = mkState 0 ((-a) • c) := by
  funext k
  refine Fin.cases ?_ (fun i => ?_) k
  · simp [contract, subDiagonal, dot, mkState]
  · simp [contract, subDiagonal, dot, mkState, Finset.sum_ite_eq']

theorem fluxDivergence_rest (p : Params) (Z : ι → ℝ) (η : ℝ) (U : ι → State dim)
    (h : LakeAtRest p Z η U) (i j : ι) (c : Vec dim) :
    fluxDivergence p ⟨U i, Z i⟩ ⟨U j, Z j⟩ c
      = mkState 0 ((-(waterDepth (U i) * waterDepth (U i) * p.gravity)) • c) := by
  unfold fluxDivergence equilibratedStates
  simp only
  rw [star_depth p Z η U h i j, star_depth p Z η U h j i, max_comm (Z j),
    g_rest p (star_momentum p (h i).1 _ _), g_rest p (star_momentum p (h j).1 _ _)]
  have e : -addFlux (0 : Fin (dim + 1) → Vec dim) 0 = 0 := by funext k d; simp [addFlux]
  rw [e, contract_subDiagonal_zero]
  congr 2
  ring

theorem manning_rest (p : Params) {U : State dim} (h : momentum U = 0) (a tau : ℝ) :
    manningFriction p U a tau = 0 := by
  unfold manningFriction
  simp only
  rw [h]
  funext k
  refine Fin.cases ?_ (fun i => ?_) k <;> simp [mkState]

theorem sum_mkState (l : List ι) (a : ℝ) (c : ι → Vec dim) :
    (l.map fun j => mkState 0 (a • c j)).sum = mkState 0 (a • (l.map c).sum) := by
  induction l with
  | nil => simp only [List.map_nil, List.sum_nil, smul_zero]; funext k; refine Fin.cases rfl (fun i => rfl) k
  | cons b l ih =>
    rw [List.map_cons, List.sum_cons, ih, List.map_cons, List.sum_cons, smul_add]
    funext k
    refine Fin.cases ?_ (fun i => ?_) k
    · simp [mkState]
    · simp [mkState]

theorem mkState_zero : mkState 0 (0 : Vec dim) = (0 : State dim) := by
  funext k; refine Fin.cases rfl (fun i => rfl) k

/-- **C38 (boundary conditions).** Do-nothing, slip and no-slip walls leave a state at rest unchanged, for every
normal and whatever the Dirichlet data. -/
theorem C38_walls (p : Params) (id : Boundary) (hid : id = .doNothing ∨ id = .slip ∨ id = .noSlip)
    (U : State dim) (h : momentum U = 0) (normal : Vec dim) (dirichlet : State dim) :
    applyBoundaryConditions p id U normal dirichlet = U := by
  rcases hid with rfl | rfl | rfl
  · rfl
  · apply state_ext
    · rfl
    · show (fun k => momentum U k - 1 * dot (momentum U) normal * normal k) = momentum U
      rw [h]; funext k; simp [dot]
  · apply state_ext
    · rfl
    · exact h.symm

example : applyBoundaryConditions ⟨10, 1, 1, 1, 1, 1, 0, 0⟩ .slip (mkState 2 0 : State 2) ![1, 0] 0 = mkState 2 0 :=
  C38_walls _ _ (Or.inr (Or.inl rfl)) _ rfl _ _

/-! ### The low-order update -/

/-- The data of the pair `(i, j)` in the description. -/
theorem jump_rest (q : StepParams) (Z : ι → ℝ) (lim) (X : Stage4 ι Unit (State dim)) (η : ℝ)
    (h : LakeAtRest q.p Z η X.old.U) (i j : ι) : jump (description q Z lim) X i j = 0 := by
  show starState q.p (X.old.U j) (Z j) (Z i) - starState q.p (X.old.U i) (Z i) (Z j) = 0
  rw [star_eq q.p Z η _ h i j, sub_self]

/-- **C38 (low-order update).** For every bathymetry, every mesh with zero row sums of `c_ij`, all viscosity
matrices and every time-step size: the low-order update of a lake at rest, possibly with dry nodes, is the lake
at rest. -/
theorem C38_low_order_partial (q : StepParams) (Z : ι → ℝ)
    (lim : ι → ι → Bounds → State dim → State dim → ℝ × Prop) (M : Mesh ι dim)
    (X : Stage4 ι Unit (State dim)) (η : ℝ) (h : LakeAtRest q.p Z η X.old.U) (i : ι)
    (hrow : M.c i i + ((M.nbrs i).map (M.c i)).sum = 0) :
    lowOrder (description q Z lim) M X i = X.old.U i := by
  have hs : sourceAt (description q Z lim) X i = 0 := manning_rest q.p (h i).1 _ _
  have hf : ∀ j, fluxIJ (description q Z lim) M X i j
      = mkState 0 ((-(waterDepth (X.old.U i) * waterDepth (X.old.U i) * q.p.gravity)) • M.c i j) :=
    fun j => fluxDivergence_rest q.p Z η _ h i j _
  unfold lowOrder
  have e : ((M.columns i).map fun j =>
      (X.tau * (M.lumped i)⁻¹) • fluxIJ (description q Z lim) M X i j +
      (X.tau * (M.lumped i)⁻¹ * X.d i j) • jump (description q Z lim) X i j)
      = (M.columns i).map fun j => mkState 0 (((X.tau * (M.lumped i)⁻¹) *
        (-(waterDepth (X.old.U i) * waterDepth (X.old.U i) * q.p.gravity))) • M.c i j) := by
    refine List.map_congr_left fun j _ => ?_
    rw [jump_rest q Z lim X η h, smul_zero, add_zero, hf j]
    funext k
    refine Fin.cases ?_ (fun d => ?_) k
    · simp [mkState]
    · simp [mkState, mul_assoc]
  have e2 : ((M.columns i).map (M.c i)).sum = 0 := by
    show (List.map (M.c i) (i :: M.nbrs i)).sum = 0
    rw [List.map_cons, List.sum_cons, hrow]
  rw [e, sum_mkState, e2, smul_zero, mkState_zero, hs, smul_zero, add_zero, add_zero]

/-! ### The limiter at rest -/

section limiter

variable {L : ℕ}

theorem normSq_zero_add {t : ℝ} (P : State dim) {U : State dim} (h : momentum U = 0) :
    momentum (U + t • P) = t • momentum P := by
  rw [momentum_add, h, zero_add, momentum_smul]

/-- A Newton step that starts at a root of the function and of its derivative does not move the left end. -/
theorem newton_stays {eps p1 p2 phi2 dphi2 sign : ℝ} (h : p1 ≤ p2) :
    (quadraticNewtonStep eps p1 p2 0 phi2 0 dphi2 sign).1 = p1 := by
  unfold quadraticNewtonStep
  simp only
  have e : newtonCandidate eps sign p1 0 0 (newtonDD112 eps p1 p2 0 phi2 0) = p1 := by
    simp [newtonCandidate, maskLt]
  rw [e]
  have e1 : newtonClamp p1 p2 p1 = p1 := by simp [newtonClamp, h]
  rw [e1]
  exact min_eq_left (newtonClamp_mem h _).1

theorem newtonOnce_stays (eps tol : ℝ) (psi dpsi lower : Fin L → ℝ → ℝ) (t_l t_r : Fin L → ℝ) (s : Prop)
    (l : Fin L) (h : t_l l ≤ t_r l) (h0 : psi l (t_l l) = 0) (h1 : dpsi l (t_l l) = 0) :
    (newtonOnce eps tol psi dpsi lower t_l t_r s).1 l = t_l l := by
  unfold newtonOnce
  simp only
  split
  · rfl
  · show (quadraticNewtonStep eps (t_l l) (t_r l) (psi l (t_l l)) (psi l (t_r l)) (dpsi l (t_l l))
      (dpsi l (t_r l)) (-1)).1 = t_l l
    rw [h0, h1]
    exact newton_stays h

theorem psiKin_rest (p : Params) {U : State dim} (P : State dim) (h : momentum U = 0) (t : ℝ) :
    psiKin p 0 U P t = -(1 / 2) * normSq (t • momentum P) := by
  simp only [psiKin, normSq_zero_add P h]; ring

theorem psiVel_rest (p : Params) {U : State dim} (P : State dim) (h : momentum U = 0) (t : ℝ) :
    psiVel p 0 U P t = -normSq (t • momentum P) := by
  simp only [psiVel, normSq_zero_add P h]; ring

theorem normSq_nonneg' (a : Vec dim) : 0 ≤ normSq a := Finset.sum_nonneg fun _ _ => mul_self_nonneg _

theorem kinStage_rest (p : Params) (lp : LimiterParams) (bounds : Fin L → Bounds)
    (U P : Fin L → State dim) (t_r : Fin L → ℝ) (s : Prop) (l : Fin L)
    (hU : momentum (U l) = 0) (hk : (bounds l).kin_max = 0) (ht : 0 ≤ t_r l) :
    (kinStage p lp bounds U P (fun _ => 0) t_r s).1 l = 0 := by
  have hmask : maskGt (psiKin p (bounds l).kin_max (U l) (P l) (t_r l)) 0 (t_r l) 0 = 0 := by
    unfold maskGt
    rw [if_neg]
    rw [hk, psiKin_rest p _ hU]
    have := normSq_nonneg' (t_r l • momentum (P l))
    linarith
  have := newtonOnce_stays p.eps lp.newton_tolerance (fun l => psiKin p (bounds l).kin_max (U l) (P l))
    (fun l => dpsiKin (bounds l).kin_max (U l) (P l))
    (fun l => lowerKin p (bounds l).kin_max (U l) (P l))
    (fun l => maskGt (psiKin p (bounds l).kin_max (U l) (P l) (t_r l)) 0 (t_r l) 0) t_r s l
    (by rw [hmask]; exact ht)
    (by rw [hmask, hk, psiKin_rest p _ hU]; simp [normSq])
    (by rw [hmask, hk]; simp [dpsiKin, hU, dot])
  exact this.trans hmask

theorem velocityStage_rest (p : Params) (lp : LimiterParams) (bounds : Fin L → Bounds)
    (U P : Fin L → State dim) (t_r : Fin L → ℝ) (s : Prop) (l : Fin L)
    (hU : momentum (U l) = 0) (hk : (bounds l).v2_max = 0) (ht : 0 ≤ t_r l) :
    (velocityStage p lp bounds U P (fun _ => 0) t_r s).1 l = 0 := by
  have hmask : maskGt (psiVel p (bounds l).v2_max (U l) (P l) (t_r l)) 0 (t_r l) 0 = 0 := by
    unfold maskGt
    rw [if_neg]
    rw [hk, psiVel_rest p _ hU]
    have := normSq_nonneg' (t_r l • momentum (P l))
    linarith
  unfold velocityStage
  simp only
  split
  · exact hmask
  · have := newtonOnce_stays p.eps lp.newton_tolerance (fun l => psiVel p (bounds l).v2_max (U l) (P l))
      (fun l => dpsiVel (bounds l).v2_max (U l) (P l))
      (fun l => lowerVel p (bounds l).v2_max (U l) (P l))
      (fun l => maskGt (psiVel p (bounds l).v2_max (U l) (P l) (t_r l)) 0 (t_r l) 0) t_r s l
      (by rw [hmask]; exact ht)
      (by rw [hmask, hk, psiVel_rest p _ hU]; simp [normSq])
      (by rw [hmask, hk]; simp [dpsiVel, hU, dot])
    exact this.trans hmask

/-- **C38 (limiter).** If the low-order state of a lane is at rest and the velocity bounds of the stencil are
zero, then the limiter returns exactly `0` in this lane, for every configuration, every rounding unit, every
antidiffusive flux `P` and whatever the other lanes contain. -/
theorem C38_limiter (p : Params) (lp : LimiterParams) (bounds : Fin L → Bounds)
    (U P : Fin L → State dim) (t_max : Fin L → ℝ) (l : Fin L) (h : 0 ≤ t_max l)
    (hU : momentum (U l) = 0) (hv : (bounds l).v2_max = 0)
    (hk : lp.limit_on_kinetic_energy = true → lp.limit_on_square_velocity = false → (bounds l).kin_max = 0) :
    (limit p lp bounds U P (fun _ => 0) t_max).1 l = 0 := by
  have hd : 0 ≤ depthLimits p bounds U P (fun _ => 0) t_max l :=
    (depthLimit_mem p (bounds l) (waterDepth (U l)) (waterDepth (P l)) h).1
  obtain ⟨h1, h2, h3, h4⟩ := limit_cases p lp bounds U P (fun _ => 0) t_max
  cases hv' : lp.limit_on_square_velocity <;> cases hk' : lp.limit_on_kinetic_energy
  · rw [h1 hv' hk']
  · rcases h4 hv' hk' with ⟨s, e⟩ | e <;> rw [e]
    · exact kinStage_rest p lp bounds U P _ s l hU (hk hk' hv') hd
    · show maskGt _ _ _ _ = _
      unfold maskGt
      rw [if_neg]
      rw [hk hk' hv', psiKin_rest p _ hU]
      have := normSq_nonneg' (depthLimits p bounds U P (fun _ => 0) t_max l • momentum (P l))
      linarith
  · obtain ⟨s, e⟩ := h2 hv' hk'
    rw [e]; exact velocityStage_rest p lp bounds U P _ s l hU hv hd
  · obtain ⟨s, s', e⟩ := h3 hv' hk'
    rw [e]
    exact velocityStage_rest p lp bounds U P _ s' l hU hv
      (kinStage_mem p lp bounds U P (fun _ => 0) _ s l hd).1

end limiter

/-! ### Bounds of a lake at rest -/

theorem mollified_rest (p : Params) {U : State dim} (h : momentum U = 0) :
    normSq (inverseWaterDepthMollified p U • momentum U) = 0 ∧ kineticEnergy p U = 0 := by
  constructor
  · rw [h, smul_zero]; simp [normSq]
  · unfold kineticEnergy; rw [h, smul_zero]; simp [normSq]

/-- The bounds of a row whose bar states are all at rest. -/
theorem foldl_rest (p : Params) (U_i : State dim) (row : List (LimiterEntry ι (State dim) (FluxContribution dim) dim))
    (h : ∀ e ∈ row, momentum (barState p e.star_ij e.star_ji e.scaled_c e.affine_shift) = 0)
    (st : LimiterState) (hv : st.bounds.v2_max = 0) (hk : st.bounds.kin_max = 0)
    (hd : 0 ≤ st.relaxation_denominator) :
    let r := row.foldl (fun st e => st.accumulate p U_i e.U_j e.star_ij e.star_ji e.scaled_c e.affine_shift) st
    r.bounds.v2_max = 0 ∧ r.bounds.kin_max = 0 ∧ 0 ≤ r.relaxation_denominator := by
  induction row generalizing st with
  | nil => exact ⟨hv, hk, hd⟩
  | cons e row ih =>
    rw [List.foldl_cons]
    refine ih (fun e' he' => h e' (List.mem_cons_of_mem _ he')) _ ?_ ?_ ?_
    · have := (mollified_rest p (h e List.mem_cons_self)).1
      show max _ _ = _
      rw [this, hv, max_self]
    · have := (mollified_rest p (h e List.mem_cons_self)).2
      show max _ _ = _
      rw [this, hk, max_self]
    · show 0 ≤ st.relaxation_denominator + |1|
      positivity

theorem relaxed_rest (p : Params) (lp : LimiterParams) (hd : ℝ) (st : LimiterState) (heps : 0 ≤ p.eps)
    (hv : st.bounds.v2_max = 0) (hk : st.bounds.kin_max = 0) (hden : 0 ≤ st.relaxation_denominator) :
    (st.relaxedBounds dim p lp hd).v2_max = 0 ∧ (st.relaxedBounds dim p lp hd).kin_max = 0 := by
  unfold LimiterState.relaxedBounds
  simp only
  rw [hv, hk, mul_zero, zero_add, zero_add]
  exact ⟨min_eq_left (by positivity), min_eq_left (by positivity)⟩

theorem contract_sub_self {k : ℕ} (F : Fin k → Vec dim) (c : Vec dim) : contract (addFlux F (-F)) c = 0 := by
  funext i; simp [contract, addFlux, dot]

theorem affineShift_rest (q : StepParams) (Z : ι → ℝ) (lim) (M : Mesh ι dim) (X : Stage4 ι Unit (State dim))
    (η : ℝ) (h : LakeAtRest q.p Z η X.old.U) (i : ι) :
    momentum (affineShiftAt (description q Z lim) M X i) = 0 := by
  unfold affineShiftAt
  have hs : sourceAt (description q Z lim) X i = 0 := manning_rest q.p (h i).1 _ _
  rw [hs, smul_zero, add_zero, momentum_smul, momentum_sum]
  have : ((M.columns i).map fun j => (description q Z lim).affineShift (fluxAt (description q Z lim) X i)
      (fluxAt (description q Z lim) X j) (M.c i j) (X.d i j)).map momentum = (M.columns i).map fun _ => 0 := by
    rw [List.map_map]
    refine List.map_congr_left fun j _ => ?_
    show momentum (affineShift q.p ⟨X.old.U i, Z i⟩ ⟨X.old.U j, Z j⟩ (M.c i j) (X.d i j)) = 0
    unfold affineShift
    simp only
    rw [momentum_smul, momentum_sub, star_momentum q.p (h i).1, (h i).1, sub_zero, smul_zero]
  rw [this]
  simp

theorem bar_rest (q : StepParams) (Z : ι → ℝ) (lim) (M : Mesh ι dim) (X : Stage4 ι Unit (State dim))
    (η : ℝ) (h : LakeAtRest q.p Z η X.old.U) (tiny : ℝ) (i j : ι) :
    let e := limiterEntry (description q Z lim) M X tiny i j
    momentum (barState q.p e.star_ij e.star_ji e.scaled_c e.affine_shift) = 0 := by
  intro e
  have e1 : e.star_ij = starState q.p (X.old.U i) (Z i) (Z j) := rfl
  have e2 : e.star_ji = starState q.p (X.old.U i) (Z i) (Z j) := (star_eq q.p Z η _ h i j).symm
  have e3 : momentum e.affine_shift = 0 := affineShift_rest q Z lim M X η h i
  unfold barState
  rw [momentum_add, e3, add_zero, momentum_smul, e1, e2, contract_sub_self, add_zero, momentum_add,
    star_momentum q.p (h i).1]
  simp

/-- **C38 (bounds).** The velocity bounds which step 4 collects for a lake at rest are exactly zero. -/
theorem C38_bounds (q : StepParams) (Z : ι → ℝ)
    (lim : ι → ι → Bounds → State dim → State dim → ℝ × Prop) (M : Mesh ι dim)
    (X : Stage4 ι Unit (State dim)) (η : ℝ) (h : LakeAtRest q.p Z η X.old.U) (tiny : ℝ) (heps : 0 ≤ q.p.eps)
    (i : ι) :
    (boundsStep4 (description q Z lim) M X tiny i).v2_max = 0 ∧
      (boundsStep4 (description q Z lim) M X tiny i).kin_max = 0 := by
  have := foldl_rest q.p (X.old.U i)
    ((M.columns i).map (limiterEntry (description q Z lim) M X tiny i))
    (fun e he => by
      obtain ⟨j, -, rfl⟩ := List.mem_map.1 he
      exact bar_rest q Z lim M X η h tiny i j)
    (LimiterState.reset q.big) rfl rfl le_rfl
  exact relaxed_rest q.p q.lp _ _ heps this.1 this.2.1 this.2.2

theorem combine_v2 (D : Description ι Unit (State dim) (FluxContribution dim) Bounds dim)
    (hD : D.combine = combineBounds) (M : Mesh ι dim) (b : ι → Bounds) (h : ∀ i, (b i).v2_max = 0) (i : ι) :
    (combineRow D M b i).v2_max = 0 := by
  unfold combineRow
  rw [hD]
  have key : ∀ (l : List ι) (a : Bounds), a.v2_max = 0 →
      (l.foldl (fun acc j => combineBounds acc (b j)) a).v2_max = 0 := by
    intro l
    induction l with
    | nil => exact fun a ha => ha
    | cons j l ih => exact fun a ha => ih _ (by show max _ _ = _; rw [ha, h j, max_self])
  exact key _ _ (h i)

theorem finalBounds_v2 (D : Description ι Unit (State dim) (FluxContribution dim) Bounds dim)
    (hD : D.combine = combineBounds) (M : Mesh ι dim) (order : List ι) (b : ι → Bounds)
    (h : ∀ i, (b i).v2_max = 0) (i : ι) : (boundsStep5 D M order b i).v2_max = 0 := by
  classical
  unfold boundsStep5
  split
  · induction order generalizing b with
    | nil => exact h i
    | cons k order ih =>
      rw [List.foldl_cons]
      refine ih _ fun j => ?_
      split
      · by_cases hj : j = k
        · subst hj; rw [Function.update_self]; exact combine_v2 D hD M b h _
        · rw [Function.update_of_ne hj]; exact h j
      · exact h j
  · exact h i

/-! ### The step -/

/-- If every limiter coefficient is zero, no pass changes the states. -/
theorem limiterLoop_zero {P S F B : Type} [AddCommGroup S] [Module ℝ S] (D : Description ι P S F B dim)
    (M : Mesh ι dim) (hM : M.WellFormed) (b : ι → B) (p : ι → ι → S) (n : ℕ) (hn : n ≤ 2) (st : LimiterLoop ι S)
    (h0 : ∀ i, M.active i → ∀ j, st.lij i j = 0)
    (hl : ∀ i, M.active i → ∀ j P, (D.limit i j (b i) (st.U i) P).1 = 0) (i : ι) :
    (limiterLoop D M b p n st).U i = st.U i := by
  classical
  have hact : ∀ i j, j ∈ M.nbrs i → M.active j := fun i j hj h => by
    have := hM.symm i j hj
    rw [h] at this
    exact List.not_mem_nil this
  have hact' : ∀ i j, j ∈ M.nbrs i → M.active i := fun i j hj h => by
    rw [h] at hj
    exact List.not_mem_nil hj
  have hsum : ∀ (l : ι → ι → ℝ), (∀ i, M.active i → ∀ j, l i j = 0) → ∀ i, ((M.nbrs i).map fun j =>
      (symmetrized l i j * (1 / ((M.nbrs i).length : ℝ))) • p i j).sum = 0 := by
    intro l hl i
    have : ((M.nbrs i).map fun j => (symmetrized l i j * (1 / ((M.nbrs i).length : ℝ))) • p i j)
        = (M.nbrs i).map fun _ => 0 := by
      refine List.map_congr_left fun j hj => ?_
      rw [symmetrized, hl i (hact' i j hj), hl j (hact i j hj), min_self, zero_mul, zero_smul]
    rw [this]; simp
  have hpass : ∀ (pass : ℕ) (st' : LimiterLoop ι S),
      (∀ i, M.active i → ∀ j, (if n = 2 ∧ pass + 1 = n then st'.lijNext else st'.lij) i j = 0) →
      (limiterPass D M b p n pass st').U = st'.U := by
    intro pass st' hz
    funext i
    show (if M.active i then _ else _) = _
    split
    · rw [hsum _ hz, add_zero]
    · rfl
  interval_cases n
  · rfl
  · show (limiterPass D M b p 1 0 st).U i = _
    rw [hpass 0 st (by simpa using h0)]
  · show (limiterPass D M b p 2 1 (limiterPass D M b p 2 0 st)).U i = _
    have e0 := hpass 0 st (by simpa using h0)
    rw [hpass 1, e0]
    intro i hi j
    have hU : (limiterPass D M b p 2 0 st).lijNext i j = (1 - symmetrized st.lij i j) *
        (D.limit i j (b i) ((limiterPass D M b p 2 0 st).U i) ((1 - symmetrized st.lij i j) • p i j)).1 := by
      simp [limiterPass]
    show (limiterPass D M b p 2 0 st).lijNext i j = 0
    rw [hU, e0, hl i hi, mul_zero]

/-- **C38 (full step).** A lake at rest, possibly with dry nodes, is a fixed point of the complete hyperbolic step
– low-order update, high-order antidiffusion of any stages, and zero to two limiter passes – for every
bathymetry, every mesh with zero row sums of `c_ij`, every time-step size and every limiter configuration.  For a
discontinuous ansatz the limiter must not be restricted to the kinetic energy: there `combine_bounds` mixes a
depth into the kinetic energy bound (`C07_sw_combine_violation`). -/
theorem C38_step_partial [Fintype ι] (q : StepParams) (Z : ι → ℝ)
    (lim : ι → ι → Bounds → State dim → State dim → ℝ × Prop)
    (hlim : ∀ i j b U P, IsLaneOf (fun _ => limit q.p q.lp) b U P (lim i j b U P))
    (M : Mesh ι dim) (hM : M.WellFormed) (par : Hyp.Params) (strategy : Strategy) (cnt : Counters)
    (lo : Leftover ι (State dim)) (old : StateVector ι Unit (State dim))
    (stages : List (ℝ × StateVector ι Unit (State dim))) (tau tau_max : ℝ)
    (hn : par.iterations ≤ 2) (heps : 0 ≤ q.p.eps)
    (hrow : ∀ i, M.c i i + ((M.nbrs i).map (M.c i)).sum = 0)
    (hcfg : M.dG = false ∨ q.lp.limit_on_square_velocity = true ∨ q.lp.limit_on_kinetic_energy = false)
    (η : ℝ) (hrest : LakeAtRest q.p Z η old.U) (U : ι → State dim) (t : ℝ)
    (h : (step (description q Z lim) M par strategy cnt lo old stages tau tau_max).1 = .done U t)
    (i : ι) (hi : M.nbrs i ≠ []) : U i = old.U i := by
  classical
  obtain ⟨τ, hU⟩ : ∃ τ, U = newStates (description q Z lim) M par lo
      (stage4 (description q Z lim) M par lo old stages τ) := ⟨t, (step_done h).2.2⟩
  set D := description q Z lim with hD
  set X := stage4 D M par lo old stages τ with hX
  have hr : LakeAtRest q.p Z η X.old.U := hrest
  have hlow : ∀ i, lowOrder D M X i = old.U i := fun i => C38_low_order_partial q Z lim M X η hr i (hrow i)
  have hb := C38_bounds q Z lim M X η hr par.tiny heps
  have hv : ∀ i, (finalBounds D M par lo X i).v2_max = 0 :=
    finalBounds_v2 D rfl M lo.order _ fun i => (hb i).1
  have hk : ∀ i, q.lp.limit_on_kinetic_energy = true → q.lp.limit_on_square_velocity = false →
      (finalBounds D M par lo X i).kin_max = 0 := by
    intro i h1 h2
    have hdG : M.dG = false := by
      rcases hcfg with hc | hc | hc
      · exact hc
      · rw [h2] at hc; cases hc
      · rw [h1] at hc; cases hc
    unfold finalBounds boundsStep5
    rw [hdG]
    exact (hb i).2
  have hlim0 : ∀ i j P, (D.limit i j (finalBounds D M par lo X i) (old.U i) P).1 = 0 := by
    intro i j P
    obtain ⟨L, bs, Us, Ps, l, h1, h2, -, h4⟩ := hlim i j (finalBounds D M par lo X i) (old.U i) P
    show (lim i j (finalBounds D M par lo X i) (old.U i) P).1 = 0
    rw [h4]
    exact C38_limiter q.p q.lp bs Us Ps (fun _ => 1) l zero_le_one (by rw [h2]; exact (hrest i).1)
      (by rw [h1]; exact hv i) (fun a b => by rw [h1]; exact hk i a b)
  rw [hU]
  unfold newStates
  have hnl : ∀ i, M.active i → newLow D M lo X i = old.U i := fun i hi => by
    unfold newLow
    rw [if_pos hi, hlow]
  refine (limiterLoop_zero D M hM _ _ _ hn _ (fun i _ j => ?_) (fun i hi j P => ?_) i).trans (hnl i hi)
  · show (l1 D M par lo X i j).1 = 0
    unfold l1
    rw [hlow]
    exact hlim0 i j _
  · show (D.limit i j (finalBounds D M par lo X i) (newLow D M lo X i) P).1 = 0
    rw [hnl i hi]
    exact hlim0 i j P

/-! ### The high-order update -/

/-- No wet node has a dry neighbour whose ground is above the free surface: then depth plus bathymetry is `η` at
every node of the stencil of a wet node. -/
def NoFront (M : Mesh ι dim) (Z : ι → ℝ) (η : ℝ) (U : ι → State dim) : Prop :=
  ∀ i, waterDepth (U i) ≠ 0 → ∀ j ∈ M.nbrs i, waterDepth (U j) + Z j = η

theorem highOrder_rest (p : Params) (Z : ι → ℝ) (η : ℝ) (U : ι → State dim) (h : LakeAtRest p Z η U)
    (i j : ι) (hij : waterDepth (U i) ≠ 0 → waterDepth (U j) + Z j = η) (c : Vec dim) :
    highOrderFluxDivergence p ⟨U i, Z i⟩ ⟨U j, Z j⟩ c
      = mkState 0 ((-(waterDepth (U i) * waterDepth (U i) * p.gravity)) • c) := by
  unfold highOrderFluxDivergence
  simp only
  rw [g_rest p (h i).1, g_rest p (h j).1]
  have e : -addFlux (0 : Fin (dim + 1) → Vec dim) 0 = 0 := by funext k d; simp [addFlux]
  rw [e, contract_subDiagonal_zero]
  congr 2
  by_cases h0 : waterDepth (U i) = 0
  · rw [h0]; ring
  · have h1 := hij h0
    have h2 : waterDepth (U i) + Z i = η := by
      rcases (h i).2 with ⟨-, -, h2⟩ | ⟨h2, -⟩
      · exact h2
      · exact absurd h2 h0
    rw [h1, ← h2]; ring

/-- The state of a lake at rest is determined by the bathymetry and the level. -/
theorem rest_unique (p : Params) (Z : ι → ℝ) (η : ℝ) (U V : ι → State dim) (hU : LakeAtRest p Z η U)
    (hV : LakeAtRest p Z η V) : U = V := by
  funext i
  apply state_ext
  · rcases (hU i).2 with ⟨h0, -, h1⟩ | ⟨h0, h1⟩ <;> rcases (hV i).2 with ⟨h2, -, h3⟩ | ⟨h2, h3⟩ <;> linarith
  · rw [(hU i).1, (hV i).1]

theorem sum_smul_const {S : Type} [AddCommGroup S] [Module ℝ S] {A : Type} (l : List (ℝ × A)) (x : S) :
    (l.map fun s => s.1 • x).sum = (l.map Prod.fst).sum • x := by
  induction l with
  | nil => simp
  | cons a l ih => simp only [List.map_cons, List.sum_cons, ih, add_smul]

/-- **C38 (high-order update).** If no wet node touches dry ground above the free surface, and all stages are the
same lake at rest, then every antidiffusive flux vanishes and the *unlimited* high-order update is the lake at
rest as well. -/
theorem C38_high_order_partial (q : StepParams) (Z : ι → ℝ)
    (lim : ι → ι → Bounds → State dim → State dim → ℝ × Prop) (M : Mesh ι dim)
    (X : Stage4 ι Unit (State dim)) (η : ℝ) (h : LakeAtRest q.p Z η X.old.U)
    (hst : ∀ s ∈ X.stages, LakeAtRest q.p Z η s.2.U) (hfront : NoFront M Z η X.old.U)
    (hrow : ∀ i, M.c i i + ((M.nbrs i).map (M.c i)).sum = 0) (i : ι) :
    (∀ j ∈ M.nbrs i, pIJ (description q Z lim) M X i j = 0) ∧
    lowOrder (description q Z lim) M X i + ((M.nbrs i).map fun j =>
      (1 / ((M.nbrs i).length : ℝ)) • pIJ (description q Z lim) M X i j).sum = X.old.U i := by
  set D := description q Z lim with hD
  have hsrc : ∀ i, sourceAt D X i = 0 := fun i => manning_rest q.p (h i).1 _ _
  have hssrc : ∀ s ∈ X.stages, ∀ i, stageSource D X s i = 0 := fun s hs i =>
    manning_rest q.p (hst s hs i).1 _ _
  have hwet : ∀ i, ∀ j ∈ M.columns i, waterDepth (X.old.U i) ≠ 0 → waterDepth (X.old.U j) + Z j = η := by
    intro i j hj h0
    rcases List.mem_cons.1 hj with rfl | hj
    · rcases (h j).2 with ⟨-, -, h2⟩ | ⟨h2, -⟩
      · exact h2
      · exact absurd h2 h0
    · exact hfront i h0 j hj
  have hho : ∀ i, ∀ j ∈ M.columns i, highOrderIJ D M X i j = fluxIJ D M X i j := fun i j hj =>
    (highOrder_rest q.p Z η _ h i j (hwet i j hj) _).trans (fluxDivergence_rest q.p Z η _ h i j _).symm
  have hsho : ∀ s ∈ X.stages, ∀ i, ∀ j ∈ M.columns i, stageFluxIJ D M s i j = fluxIJ D M X i j := by
    intro s hs i j hj
    have e : s.2.U = X.old.U := rest_unique q.p Z η _ _ (hst s hs) h
    show highOrderFluxDivergence q.p ⟨s.2.U i, Z i⟩ ⟨s.2.U j, Z j⟩ (M.c i j) = _
    rw [e]
    exact hho i j hj
  have hpart : ∀ i, ∀ j ∈ M.columns i, highOrderPart D M X i j = fluxIJ D M X i j := by
    intro i j hj
    unfold highOrderPart
    have e : (X.stages.map fun s => s.1 • stageFluxIJ D M s i j + (s.1 * M.mass i j) • stageSource D X s j)
        = X.stages.map fun s => s.1 • fluxIJ D M X i j := by
      refine List.map_congr_left fun s hs => ?_
      rw [hsho s hs i j hj, hssrc s hs j, smul_zero, add_zero]
    rw [e, hho i j hj, hsrc j, smul_zero, add_zero, sum_smul_const, ← add_smul]
    have hw : X.weight + (X.stages.map Prod.fst).sum = 1 := by
      unfold Stage4.weight
      have key : ∀ (l : List (ℝ × StateVector ι Unit (State dim))) (a : ℝ),
          l.foldl (fun a s => a + s.1) a = a + (l.map Prod.fst).sum := by
        intro l
        induction l with
        | nil => intro a; simp
        | cons b l ih => intro a; rw [List.foldl_cons, ih, List.map_cons, List.sum_cons]; ring
      rw [key]; ring
    rw [hw, one_smul]
  have hsH : ∀ i, sourceH D X i = 0 := by
    intro i
    unfold sourceH
    have e : (X.stages.map fun s => s.1 • stageSource D X s i) = X.stages.map fun _ => 0 := by
      refine List.map_congr_left fun s hs => ?_
      rw [hssrc s hs i, smul_zero]
    rw [e, hsrc, smul_zero]
    simp
  have hsum : ∀ i, ((M.columns i).map fun j => fluxIJ D M X i j).sum = 0 := by
    intro i
    have e : ((M.columns i).map fun j => fluxIJ D M X i j) = (M.columns i).map fun j => mkState 0
        ((-(waterDepth (X.old.U i) * waterDepth (X.old.U i) * q.p.gravity)) • M.c i j) :=
      List.map_congr_left fun j _ => fluxDivergence_rest q.p Z η _ h i j _
    have e2 : ((M.columns i).map (M.c i)).sum = 0 := by
      show (List.map (M.c i) (i :: M.nbrs i)).sum = 0
      rw [List.map_cons, List.sum_cons, hrow]
    rw [e, sum_mkState, e2, smul_zero, mkState_zero]
  have hrhs : ∀ i, rhsH D M X i = 0 := by
    intro i
    unfold rhsH
    have e : ((M.columns i).map fun j =>
        dH M X i j • jump D X i j - M.mass i j • sourceH D X i + highOrderPart D M X i j)
        = (M.columns i).map fun j => fluxIJ D M X i j := by
      refine List.map_congr_left fun j hj => ?_
      rw [hpart i j hj, jump_rest q Z lim X η h, hsH, smul_zero, smul_zero, sub_zero, zero_add]
    rw [e, hsum, hsH, smul_zero, add_zero]
  have hp : ∀ j ∈ M.nbrs i, pIJ D M X i j = 0 := by
    intro j hj
    unfold pIJ pStep4
    rw [hrhs, hrhs, jump_rest q Z lim X η h, hsrc, hpart i j (List.mem_cons_of_mem _ hj)]
    simp
  refine ⟨hp, ?_⟩
  have e : ((M.nbrs i).map fun j => (1 / ((M.nbrs i).length : ℝ)) • pIJ D M X i j)
      = (M.nbrs i).map fun _ => 0 := by
    refine List.map_congr_left fun j hj => ?_
    rw [hp j hj, smul_zero]
  rw [e, C38_low_order_partial q Z lim M X η h i (hrow i)]
  simp

/-! ### A concrete lake with an island -/

/-- Ground at `0`, `1/2` and `3`: two wet nodes and an island, free surface at level `1`. -/
noncomputable def lakeZ : Fin 3 → ℝ := ![0, 1 / 2, 3]

/-- The lake over `lakeZ`. -/
noncomputable def lakeU : Fin 3 → State 1 := fun i => mkState (![1, 1 / 2, 0] i) 0

noncomputable def lakeParams : StepParams := ⟨⟨10, 1, 1, 1, 1, 1, 1 / 100, 1 / 100⟩, ⟨1 / 10, 1, true, true⟩, 1, 100⟩

theorem lake_rest : LakeAtRest lakeParams.p lakeZ 1 lakeU := by
  intro i
  refine ⟨rfl, ?_⟩
  fin_cases i
  · left; simp [lakeU, lakeZ, lakeParams, waterDepth, mkState, cutoffMollified]; norm_num
  · left; simp [lakeU, lakeZ, lakeParams, waterDepth, mkState, cutoffMollified]; norm_num
  · right; simp [lakeU, lakeZ, waterDepth, mkState]

/-- **C38, high-order update at wet/dry fronts (finding).** At a shore the high-order flux is not well balanced:
the sum of the high-order fluxes of the wet node `0` next to the island does not vanish, so the *unlimited*
high-order update sets the lake in motion; only the limiter (`C38_limiter`) keeps it at rest. -/
theorem C38_high_order_front_violation : ∃ (Z : Fin 3 → ℝ) (U : Fin 3 → State 1) (p : Params),
    LakeAtRest p Z 1 U ∧
      ((ring.columns 0).map fun j => highOrderFluxDivergence p ⟨U 0, Z 0⟩ ⟨U j, Z j⟩ (ring.c 0 j)).sum ≠ 0 := by
  refine ⟨lakeZ, lakeU, lakeParams.p, lake_rest, fun h => ?_⟩
  have h1 := congrFun h 1
  have hho : ∀ j, highOrderFluxDivergence lakeParams.p ⟨lakeU 0, lakeZ 0⟩ ⟨lakeU j, lakeZ j⟩ (ring.c 0 j)
      = mkState 0 ((-(lakeParams.p.gravity * waterDepth (lakeU 0) *
        (waterDepth (lakeU j) + lakeZ j - lakeZ 0))) • ring.c 0 j) := by
    intro j
    unfold highOrderFluxDivergence
    simp only
    rw [g_rest _ (lake_rest 0).1, g_rest _ (lake_rest j).1]
    have e : -addFlux (0 : Fin (1 + 1) → Vec 1) 0 = 0 := by funext k d; simp [addFlux]
    rw [e, contract_subDiagonal_zero]
  simp only [hho] at h1
  simp [ring, Mesh.columns, mkState, lakeParams, lakeU, lakeZ, waterDepth] at h1
  norm_num at h1

/-- One lane of the shallow water limiter. -/
noncomputable def lakeLim : Fin 3 → Fin 3 → Bounds → State 1 → State 1 → ℝ × Prop := fun _ _ b U P =>
  let r := limit lakeParams.p lakeParams.lp (L := 1) (fun _ => b) (fun _ => U) (fun _ => P) (fun _ => 0) (fun _ => 1)
  (r.1 0, r.2)

/-- All hypotheses of `C38_step_partial` hold for the lake with an island, although the unlimited high-order update is not
balanced there: with two limiter passes the step returns the lake. -/
example (stages : List (ℝ × StateVector (Fin 3) Unit (State 1))) (lo : Leftover (Fin 3) (State 1)) : ∃ U t,
    (step (description lakeParams lakeZ lakeLim) ring ⟨1 / 2, 1 / 100, 2⟩ .warn ⟨0, 0⟩ lo ⟨lakeU, ()⟩ stages 0 10).1
      = .done U t ∧ U = lakeU ∧ waterDepth (U 1) = 1 / 2 := by
  obtain ⟨U, t, h⟩ := C18_warn_returns (description lakeParams lakeZ lakeLim) ring ⟨1 / 2, 1 / 100, 2⟩ ⟨0, 0⟩ lo
    ⟨lakeU, ()⟩ stages 0 10 (C11_step_tau _ ring ⟨1 / 2, 1 / 100, 2⟩ .warn ⟨0, 0⟩ lo ⟨lakeU, ()⟩ stages 0 10
    (by norm_num) (by norm_num) ring_closed.lumped (by norm_num)).1
  have hU : U = lakeU := funext fun i => C38_step_partial lakeParams lakeZ lakeLim
    (fun i j b U P => ⟨1, fun _ => b, fun _ => U, fun _ => P, 0, rfl, rfl, rfl, rfl⟩) ring ring_wf _ _ _ _ _ _ _ _
    le_rfl (by norm_num [lakeParams]) Scalar.ring_row_sum (Or.inr (Or.inl rfl)) 1 lake_rest U t h i (by simp [ring])
  exact ⟨U, t, h, hU, by rw [hU]; simp [lakeU, waterDepth, mkState]⟩

/-- The hypotheses of `C38_high_order_partial` hold for a lake whose ground does not reach the surface. -/
example : NoFront ring ![0, 1 / 2, 1 / 4] 1 (fun i => (mkState (![1, 1 / 2, 3 / 4] i) 0 : State 1)) ∧
    LakeAtRest lakeParams.p ![0, 1 / 2, 1 / 4] 1 (fun i => (mkState (![1, 1 / 2, 3 / 4] i) 0 : State 1)) := by
  constructor
  · intro i _ j _
    fin_cases j <;> simp [waterDepth, mkState] <;> norm_num
  · intro i
    refine ⟨rfl, Or.inl ?_⟩
    fin_cases i <;> simp [lakeParams, waterDepth, mkState, cutoffMollified] <;> norm_num

/-- **C38 fails for films thinner than the mollification threshold** (`reference depth * large * eps`): a node with
half the threshold depth next to deep water gains water in the low-order update, although the free surface is
constant. -/
theorem C38_thin_film_violation : ∃ (Z : Fin 3 → ℝ) (U : Fin 3 → State 1),
    (∀ i, momentum (U i) = 0 ∧ 0 < waterDepth (U i) ∧ waterDepth (U i) + Z i = 1 / 200) ∧
      ∀ X : Stage4 (Fin 3) Unit (State 1), X.old.U = U → 0 < X.tau → 0 < X.d 0 1 → 0 < X.d 0 2 →
        waterDepth (U 0) < waterDepth (lowOrder (description lakeParams Z lakeLim) ring X 0) := by
  refine ⟨![0, -1, -1], fun i => mkState (![1 / 200, 201 / 200, 201 / 200] i) 0, fun i => ?_, ?_⟩
  · refine ⟨rfl, ?_⟩
    fin_cases i <;> simp [waterDepth, mkState] <;> norm_num
  · intro X hX ht h1 h2
    set U : Fin 3 → State 1 := fun i => mkState (![1 / 200, 201 / 200, 201 / 200] i) 0 with hU
    set Z : Fin 3 → ℝ := ![0, -1, -1] with hZ
    have hm : ∀ i, momentum (U i) = 0 := fun i => rfl
    have hf : ∀ j, waterDepth (fluxIJ (description lakeParams Z lakeLim) ring X 0 j) = 0 := by
      intro j
      show waterDepth (fluxDivergence lakeParams.p ⟨X.old.U 0, Z 0⟩ ⟨X.old.U j, Z j⟩ (ring.c 0 j)) = 0
      rw [hX]
      unfold fluxDivergence equilibratedStates
      simp only
      rw [g_rest _ (star_momentum _ (hm 0) _ _), g_rest _ (star_momentum _ (hm j) _ _)]
      have e : -addFlux (0 : Fin (1 + 1) → Vec 1) 0 = 0 := by funext k d; simp [addFlux]
      rw [e, contract_subDiagonal_zero]
      rfl
    have hs : sourceAt (description lakeParams Z lakeLim) X 0 = 0 :=
      manning_rest _ (by rw [hX]; exact hm 0) _ _
    have hj : ∀ j, waterDepth (jump (description lakeParams Z lakeLim) X 0 j)
        = waterDepth (starState lakeParams.p (U j) (Z j) (Z 0)) - waterDepth (starState lakeParams.p (U 0) (Z 0) (Z j)) := by
      intro j
      show waterDepth (starState lakeParams.p (X.old.U j) (Z j) (Z 0) - starState lakeParams.p (X.old.U 0) (Z 0) (Z j)) = _
      rw [hX]; rfl
    have s0 : ∀ j : Fin 3, j ≠ 0 → waterDepth (starState lakeParams.p (U 0) (Z 0) (Z j)) = 1 / 500 := by
      intro j hj
      fin_cases j
      · exact absurd rfl hj
      · simp [starState, inverseWaterDepthMollified, positivePart, hU, hZ, waterDepth, mkState, lakeParams]; norm_num
      · simp [starState, inverseWaterDepthMollified, positivePart, hU, hZ, waterDepth, mkState, lakeParams]; norm_num
    have s1 : ∀ j : Fin 3, j ≠ 0 → waterDepth (starState lakeParams.p (U j) (Z j) (Z 0)) = 1 / 200 := by
      intro j hj
      fin_cases j
      · exact absurd rfl hj
      · simp [starState, inverseWaterDepthMollified, positivePart, hU, hZ, waterDepth, mkState, lakeParams]; norm_num
      · simp [starState, inverseWaterDepthMollified, positivePart, hU, hZ, waterDepth, mkState, lakeParams]; norm_num
    have e : waterDepth (lowOrder (description lakeParams Z lakeLim) ring X 0)
        = waterDepth (U 0) + X.tau * (ring.lumped 0)⁻¹ * (X.d 0 1 + X.d 0 2) * (3 / 1000) := by
      unfold lowOrder
      have a : ∀ V W : State 1, waterDepth (V + W) = waterDepth V + waterDepth W := fun V W => rfl
      have b : ∀ (r : ℝ) (V : State 1), waterDepth (r • V) = r * waterDepth V := fun r V => rfl
      rw [hs, smul_zero, add_zero, a, waterDepth_sum, hX, List.map_map]
      have c : ring.columns 0 = [0, 1, 2] := rfl
      rw [c]
      simp only [List.map_cons, List.map_nil, Function.comp_apply, List.sum_cons, List.sum_nil, a, b, hf, hj]
      rw [s0 1 (by decide), s0 2 (by decide), s1 1 (by decide), s1 2 (by decide)]
      ring
    rw [e]
    have hl := ring_closed.lumped 0
    have : 0 < X.tau * (ring.lumped 0)⁻¹ * (X.d 0 1 + X.d 0 2) * (3 / 1000) := by positivity
    linarith

end ShallowWater
end Ryujin
