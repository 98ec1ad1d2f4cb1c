import Verif.Model.PrepareState
import Verif.Props.EulerSystem
import Verif.Props.ShallowWater
import Verif.Props.EulerInvariantDomain

/-!
# C88: after preparing a state vector the boundary conditions hold
-/

namespace Ryujin
namespace Prepare

open Classical

variable {ι S Id : Type} {dim : ℕ}

/-! ### Every node only sees its own entries -/

/-- The entries of one degree of freedom, in the order of the map. -/
noncomputable def entriesAt (map : List (Entry ι Id dim)) (i : ι) : List (Entry ι Id dim) := map.filter fun e => e.i = i

/-- **C88 (locality).** If the pass succeeds, the new state of a degree of
freedom is the result of applying its own entries, in the order of the map, to its own old state. -/
theorem C88_local (A : System S Id dim) (data : Vec dim → ℝ → S) (t : ℝ) (map : List (Entry ι Id dim)) (U V : ι → S)
    (h : boundaryPass A data t map U = some V) (i : ι) :
    (entriesAt map i).foldlM (applyEntry A data t) (U i) = some (V i) := by
  induction map generalizing U with
  | nil =>
    simp only [boundaryPass, List.foldlM_nil] at h
    cases h
    rfl
  | cons e l ih =>
    simp only [boundaryPass, List.foldlM_cons, boundaryStep] at h
    rcases ha : applyEntry A data t (U e.i) e with _ | W
    · rw [ha] at h; cases h
    · rw [ha] at h
      have h2 := ih (Function.update U e.i W) h
      unfold entriesAt at h2 ⊢
      by_cases hi : e.i = i
      · subst hi
        rw [List.filter_cons_of_pos (by simp), List.foldlM_cons, ha]
        rw [Function.update_self] at h2
        exact h2
      · rw [List.filter_cons_of_neg (by simp [hi])]
        rw [Function.update_of_ne (fun e' => hi e'.symm)] at h2
        exact h2

/-- **C88 (interior).** States without boundary entries, or with `do_nothing` entries only, are not changed. -/
theorem C88_interior (A : System S Id dim) (data : Vec dim → ℝ → S) (t : ℝ) (map : List (Entry ι Id dim)) (U V : ι → S)
    (h : boundaryPass A data t map U = some V) (i : ι) (hi : ∀ e ∈ map, e.i = i → e.id = A.doNothing) : V i = U i := by
  have key := C88_local A data t map U V h i
  have hall : ∀ e ∈ entriesAt map i, e.id = A.doNothing := by
    intro e he
    unfold entriesAt at he
    obtain ⟨h1, h2⟩ := List.mem_filter.1 he
    exact hi e h1 (by simpa using h2)
  generalize entriesAt map i = l at key hall
  induction l with
  | nil => simp only [List.foldlM_nil] at key; exact (Option.some.inj key).symm
  | cons e l ih =>
    rw [List.foldlM_cons] at key
    have : applyEntry A data t (U i) e = some (U i) := if_pos (hall e (by simp))
    rw [this] at key
    exact ih key fun e he => hall e (by simp [he])

/-- **C88 (order).** Reordering entries of different degrees of freedom does not change the result. -/
theorem C88_order (A : System S Id dim) (data : Vec dim → ℝ → S) (t : ℝ) (map map' : List (Entry ι Id dim)) (U V V' : ι → S)
    (hp : ∀ i, entriesAt map i = entriesAt map' i) (h : boundaryPass A data t map U = some V)
    (h' : boundaryPass A data t map' U = some V') : V = V' := by
  funext i
  have h1 := C88_local A data t map U V h i
  have h2 := C88_local A data t map' U V' h' i
  rw [hp i, h2] at h1
  exact (Option.some.inj h1).symm

/-- **C88 (last entry).** The boundary condition of the last entry of a degree of freedom holds afterwards: its state is
the result of applying this condition to some state. -/
theorem C88_last (A : System S Id dim) (data : Vec dim → ℝ → S) (t : ℝ) (map : List (Entry ι Id dim)) (U V : ι → S)
    (h : boundaryPass A data t map U = some V) (i : ι) (l : List (Entry ι Id dim)) (e : Entry ι Id dim)
    (he : entriesAt map i = l ++ [e]) (hid : e.id ≠ A.doNothing) :
    ∃ W, A.apply e.id W e.normal (data e.position t) = some (V i) := by
  have key := C88_local A data t map U V h i
  rw [he, List.foldlM_append] at key
  rcases hl : l.foldlM (applyEntry A data t) (U i) with _ | W
  · rw [hl] at key; cases key
  · rw [hl] at key
    refine ⟨W, ?_⟩
    have : applyEntry A data t W e = some (V i) := by simpa using key
    rwa [applyEntry, if_neg hid] at this

/-- Invariants of single applications are invariants of the pass. -/
theorem pass_invariant (A : System S Id dim) (data : Vec dim → ℝ → S) (t : ℝ) (map : List (Entry ι Id dim)) (U V : ι → S)
    (h : boundaryPass A data t map U = some V) (R : S → S → Prop) (hrefl : ∀ U, R U U) (htrans : ∀ U V W, R U V → R V W → R U W)
    (i : ι) (hstep : ∀ e ∈ map, e.i = i → ∀ W W', A.apply e.id W e.normal (data e.position t) = some W' → R W W') :
    R (U i) (V i) := by
  have key := C88_local A data t map U V h i
  have hall : ∀ e ∈ entriesAt map i, ∀ W W', A.apply e.id W e.normal (data e.position t) = some W' → R W W' := by
    intro e he
    unfold entriesAt at he
    obtain ⟨h1, h2⟩ := List.mem_filter.1 he
    exact hstep e h1 (by simpa using h2)
  generalize entriesAt map i = l at key hall
  generalize U i = Ui at key
  induction l generalizing Ui with
  | nil => simp only [List.foldlM_nil] at key; cases key; exact hrefl _
  | cons e l ih =>
    rw [List.foldlM_cons] at key
    rcases ha : applyEntry A data t Ui e with _ | W
    · rw [ha] at key; cases key
    · rw [ha] at key
      refine htrans _ W _ ?_ (ih (fun e he => hall e (by simp [he])) W key)
      unfold applyEntry at ha
      split_ifs at ha with hd
      · cases ha; exact hrefl _
      · exact hall e (by simp) _ _ ha

/-! ### Walls -/

/-- Access to the momentum of a state. -/
structure Lens (S : Type) (dim : ℕ) where
  get : S → Vec dim
  set : S → Vec dim → S
  get_set : ∀ U m, get (set U m) = m
  set_set : ∀ U m m', set (set U m) m' = set U m'
  set_get : ∀ U, set U (get U) = U

/-- The equations implement slip and no-slip walls as projections of the momentum. -/
structure Walls (A : System S Id dim) (L : Lens S dim) (slip noSlip : Id) : Prop where
  slip_apply : ∀ U n D, A.apply slip U n D = some (L.set U (L.get U + (-dot (L.get U) n) • n))
  noSlip_apply : ∀ U n D, A.apply noSlip U n D = some (L.set U 0)
  slip_ne : slip ≠ A.doNothing
  noSlip_ne : noSlip ≠ A.doNothing
  ne : slip ≠ noSlip

/-- The entries describe walls whose slip normals are unit vectors, pairwise orthogonal or parallel. -/
structure WallNode (A : System S Id dim) (slip noSlip : Id) (l : List (Entry ι Id dim)) : Prop where
  ids : ∀ e ∈ l, e.id = A.doNothing ∨ e.id = slip ∨ e.id = noSlip
  unit : ∀ e ∈ l, e.id = slip → normSq e.normal = 1
  orthogonal : ∀ e ∈ l, ∀ e' ∈ l, e.id = slip → e'.id = slip →
    dot e.normal e'.normal = 0 ∨ e'.normal = e.normal ∨ e'.normal = -e.normal

/-- The effect of a wall entry on the momentum. -/
noncomputable def wallStep (slip noSlip : Id) (m : Vec dim) (e : Entry ι Id dim) : Vec dim :=
  if e.id = slip then m + (-dot m e.normal) • e.normal else if e.id = noSlip then 0 else m

theorem walls_fold (A : System S Id dim) (L : Lens S dim) {slip noSlip : Id} (hA : Walls A L slip noSlip)
    (data : Vec dim → ℝ → S) (t : ℝ) (l : List (Entry ι Id dim))
    (hid : ∀ e ∈ l, e.id = A.doNothing ∨ e.id = slip ∨ e.id = noSlip) (U : S) :
    l.foldlM (applyEntry A data t) U = some (L.set U (l.foldl (wallStep slip noSlip) (L.get U))) := by
  induction l generalizing U with
  | nil => simp [L.set_get]
  | cons e l ih =>
    rw [List.foldlM_cons, List.foldl_cons]
    have : applyEntry A data t U e = some (L.set U (wallStep slip noSlip (L.get U) e)) := by
      unfold applyEntry wallStep
      rcases hid e (by simp) with h | h | h
      · rw [if_pos h, if_neg (fun h' => hA.slip_ne (h'.symm.trans h)), if_neg (fun h' => hA.noSlip_ne (h'.symm.trans h)), L.set_get]
      · rw [if_neg (fun h' => hA.slip_ne (h.symm.trans h')), if_pos h, h, hA.slip_apply]
      · rw [if_neg (fun h' => hA.noSlip_ne (h.symm.trans h')), if_neg (fun h' => hA.ne (h'.symm.trans h)), if_pos h, h,
          hA.noSlip_apply]
    rw [this]
    show l.foldlM (applyEntry A data t) _ = _
    rw [ih (fun e he => hid e (by simp [he])), L.set_set, L.get_set]

theorem dot_neg_right (a b : Vec dim) : dot a (-b) = -dot a b := by
  simp only [dot, Pi.neg_apply, mul_neg, Finset.sum_neg_distrib]

theorem zero_dot (a : Vec dim) : dot (0 : Vec dim) a = 0 := by simp [dot]

/-- A condition that holds is kept by compatible walls. -/
theorem wallStep_keeps {slip noSlip : Id} {m : Vec dim} {e : Entry ι Id dim} {ν : Vec dim}
    (hc : e.id = slip → dot e.normal ν = 0 ∨ e.normal = ν ∨ e.normal = -ν) (h : dot m ν = 0) :
    dot (wallStep slip noSlip m e) ν = 0 := by
  unfold wallStep
  split_ifs with h1 h2
  · rw [dot_add_left, dot_smul_left, h]
    rcases hc h1 with h' | h' | h'
    · rw [h']; ring
    · rw [h', h]; ring
    · rw [h', dot_neg_right, h]; ring
  · exact zero_dot _
  · exact h

theorem fold_keeps {slip noSlip : Id} (l : List (Entry ι Id dim)) {m ν : Vec dim}
    (hc : ∀ e ∈ l, e.id = slip → dot e.normal ν = 0 ∨ e.normal = ν ∨ e.normal = -ν) (h : dot m ν = 0) :
    dot (l.foldl (wallStep slip noSlip) m) ν = 0 := by
  induction l generalizing m with
  | nil => exact h
  | cons e l ih => exact ih (fun e he => hc e (by simp [he])) (wallStep_keeps (hc e (by simp)) h)

theorem fold_slip {slip noSlip : Id} (l : List (Entry ι Id dim))
    (hu : ∀ e ∈ l, e.id = slip → normSq e.normal = 1)
    (ho : ∀ e ∈ l, ∀ e' ∈ l, e.id = slip → e'.id = slip →
      dot e.normal e'.normal = 0 ∨ e'.normal = e.normal ∨ e'.normal = -e.normal) (m : Vec dim) :
    ∀ e ∈ l, e.id = slip → dot (l.foldl (wallStep slip noSlip) m) e.normal = 0 := by
  induction l generalizing m with
  | nil => intro e he; cases he
  | cons a l ih =>
    intro e he hs
    rcases List.mem_cons.1 he with rfl | he
    · refine fold_keeps l (fun e' he' hs' => ?_) ?_
      · rcases ho e (by simp) e' (by simp [he']) hs hs' with h | h | h
        · left; rw [dot_comm]; exact h
        · right; left; exact h
        · right; right; exact h
      · rw [wallStep, if_pos hs, dot_add_left, dot_smul_left, ← normSq_eq_dot e.normal, hu e (by simp) hs]; ring
    · exact ih (fun e he => hu e (by simp [he])) (fun e he e' he' => ho e (by simp [he]) e' (by simp [he'])) _ e he hs

theorem fold_noSlip {slip noSlip : Id} (hne : slip ≠ noSlip) (l : List (Entry ι Id dim)) (m : Vec dim)
    (h : m = 0 ∨ ∃ e ∈ l, e.id = noSlip) : l.foldl (wallStep slip noSlip) m = 0 := by
  induction l generalizing m with
  | nil =>
    rcases h with h | ⟨e, he, -⟩
    · exact h
    · cases he
  | cons a l ih =>
    refine ih _ ?_
    rcases h with rfl | ⟨e, he, hs⟩
    · left
      unfold wallStep
      rw [zero_dot]
      simp
    · rcases List.mem_cons.1 he with rfl | he
      · left; rw [wallStep, if_neg (fun h => hne (h.symm.trans hs)), if_pos hs]
      · exact Or.inr ⟨e, he, hs⟩

theorem fold_normSq {slip noSlip : Id} (l : List (Entry ι Id dim))
    (hu : ∀ e ∈ l, e.id = slip → normSq e.normal = 1) (m : Vec dim) :
    normSq (l.foldl (wallStep slip noSlip) m) ≤ normSq m := by
  induction l generalizing m with
  | nil => exact le_rfl
  | cons a l ih =>
    refine (ih (fun e he => hu e (by simp [he])) _).trans ?_
    unfold wallStep
    split_ifs with h1 h2
    · rw [normSq_add_smul, hu a (by simp) h1]; nlinarith [sq_nonneg (dot m a.normal)]
    · have : normSq (0 : Vec dim) = 0 := by simp [normSq]
      rw [this]; exact normSq_nonneg m
    · exact le_rfl

theorem fold_fixed {slip noSlip : Id} (l : List (Entry ι Id dim)) (m : Vec dim)
    (hs : ∀ e ∈ l, e.id = slip → dot m e.normal = 0) (hn : ∀ e ∈ l, e.id = noSlip → m = 0) :
    l.foldl (wallStep slip noSlip) m = m := by
  induction l with
  | nil => rfl
  | cons a l ih =>
    have : wallStep slip noSlip m a = m := by
      unfold wallStep
      split_ifs with h1 h2
      · rw [hs a (by simp) h1]; simp
      · exact (hn a (by simp) h2).symm
      · rfl
    rw [List.foldl_cons, this]
    exact ih (fun e he => hs e (by simp [he])) fun e he => hn e (by simp [he])

/-- **C88 (walls).** At a degree of freedom with slip and no-slip entries whose slip normals are pairwise orthogonal or
parallel, all wall conditions hold after the pass, only the momentum is changed and its length does not grow, and a second
pass changes nothing. -/
theorem C88_walls (A : System S Id dim) (L : Lens S dim) {slip noSlip : Id} (hA : Walls A L slip noSlip)
    (data : Vec dim → ℝ → S) (t : ℝ) (map : List (Entry ι Id dim)) (U V : ι → S)
    (h : boundaryPass A data t map U = some V) (i : ι) (hw : WallNode A slip noSlip (entriesAt map i)) :
    (∀ e ∈ map, e.i = i → e.id = slip → dot (L.get (V i)) e.normal = 0) ∧
    (∀ e ∈ map, e.i = i → e.id = noSlip → L.get (V i) = 0) ∧
    V i = L.set (U i) (L.get (V i)) ∧ normSq (L.get (V i)) ≤ normSq (L.get (U i)) ∧
    ∀ t' V', boundaryPass A data t' map V = some V' → V' i = V i := by
  have key := C88_local A data t map U V h i
  rw [walls_fold A L hA data t _ hw.ids] at key
  have hV := (Option.some.inj key).symm
  have hm : L.get (V i) = (entriesAt map i).foldl (wallStep slip noSlip) (L.get (U i)) := by rw [hV, L.get_set]
  have hmem : ∀ e ∈ map, e.i = i → e ∈ entriesAt map i := fun e he hi => List.mem_filter.2 ⟨he, by simp [hi]⟩
  have h1 : ∀ e ∈ entriesAt map i, e.id = slip → dot (L.get (V i)) e.normal = 0 := by
    rw [hm]; exact fold_slip _ hw.unit hw.orthogonal _
  have h2 : ∀ e ∈ entriesAt map i, e.id = noSlip → L.get (V i) = 0 := fun e he hs => by
    rw [hm]; exact fold_noSlip hA.ne _ _ (Or.inr ⟨e, he, hs⟩)
  refine ⟨fun e he hi => h1 e (hmem e he hi), fun e he hi => h2 e (hmem e he hi), ?_, ?_, ?_⟩
  · rw [hm]; exact hV
  · rw [hm]; exact fold_normSq _ hw.unit _
  · intro t' V' h'
    have key' := C88_local A data t' map V V' h' i
    rw [walls_fold A L hA data t' _ hw.ids, fold_fixed _ _ h1 h2, L.set_get] at key'
    exact (Option.some.inj key').symm

/-! ### The equations -/

/-- Momentum of a compressible flow state. -/
noncomputable def eulerLens : Lens (Euler.State dim) dim where
  get := Euler.momentum
  set := fun U m => Euler.mkState (Euler.density U) m (Euler.totalEnergy U)
  get_set := fun _ _ => Euler.momentum_mkState _ _ _
  set_set := fun U m m' => by rw [Euler.density_mkState, Euler.totalEnergy_mkState]
  set_get := fun U => Euler.state_ext (Euler.density_mkState _ _ _) (Euler.momentum_mkState _ _ _) (Euler.totalEnergy_mkState _ _ _)

theorem slip_eq (m n : Vec dim) : (fun k => m k - 1 * dot m n * n k) = m + (-dot m n) • n := by
  funext k
  simp only [Pi.add_apply, Pi.smul_apply, smul_eq_mul]
  ring

theorem euler_walls (p : Euler.Params) : Walls (euler (dim := dim) p) eulerLens .slip .noSlip where
  slip_apply := fun U n D => by
    show some (Euler.mkState _ _ _) = some (Euler.mkState _ _ _)
    rw [slip_eq]; rfl
  noSlip_apply := fun _ _ _ => rfl
  slip_ne := by intro h; cases h
  noSlip_ne := by intro h; cases h
  ne := by intro h; cases h

theorem aeos_walls : Walls (aeos (dim := dim)) eulerLens .slip .noSlip where
  slip_apply := fun U n D => by
    show some (Euler.mkState _ _ _) = some (Euler.mkState _ _ _)
    rw [slip_eq]; rfl
  noSlip_apply := fun _ _ _ => rfl
  slip_ne := by intro h; cases h
  noSlip_ne := by intro h; cases h
  ne := by intro h; cases h

/-- Momentum of a shallow water state. -/
noncomputable def swLens : Lens (ShallowWater.State dim) dim where
  get := ShallowWater.momentum
  set := fun U m => ShallowWater.mkState (ShallowWater.waterDepth U) m
  get_set := fun _ _ => ShallowWater.momentum_mkState _ _
  set_set := fun U m m' => by rw [ShallowWater.waterDepth_mkState]
  set_get := fun U => ShallowWater.state_ext (ShallowWater.waterDepth_mkState _ _) (ShallowWater.momentum_mkState _ _)

theorem sw_walls (p : ShallowWater.Params) : Walls (shallowWater (dim := dim) p) swLens .slip .noSlip where
  slip_apply := fun U n D => by
    show some (ShallowWater.mkState _ _) = some (ShallowWater.mkState _ _)
    rw [slip_eq]; rfl
  noSlip_apply := fun _ _ _ => rfl
  slip_ne := by intro h; cases h
  noSlip_ne := by intro h; cases h
  ne := by intro h; cases h

/-- For the Euler equations (with either equation of state model) the pass never fails. -/
theorem euler_total (p : Euler.Params) (data : Vec dim → ℝ → Euler.State dim) (t : ℝ)
    (map : List (Entry ι Euler.Boundary dim)) (U : ι → Euler.State dim) : ∃ V, boundaryPass (euler p) data t map U = some V := by
  induction map generalizing U with
  | nil => exact ⟨U, rfl⟩
  | cons e l ih =>
    have : ∃ W, boundaryStep (euler p) data t U e = some W := by
      unfold boundaryStep applyEntry
      split_ifs
      · exact ⟨_, rfl⟩
      · exact ⟨_, rfl⟩
    obtain ⟨W, hW⟩ := this
    obtain ⟨V, hV⟩ := ih W
    exact ⟨V, by rw [boundaryPass, List.foldlM_cons, hW]; exact hV⟩

/-- **C88 (Euler).** The boundary pass never fails.  At nodes with walls (normals orthogonal or parallel) all wall
conditions hold afterwards, density and total energy are unchanged and the internal energy does not decrease, and the pass
is idempotent; at nodes whose last entry is a Dirichlet entry the state is the prescribed one at time `t`. -/
theorem C88_euler (p : Euler.Params) (data : Vec dim → ℝ → Euler.State dim) (t : ℝ)
    (map : List (Entry ι Euler.Boundary dim)) (U : ι → Euler.State dim) :
    ∃ V, boundaryPass (euler p) data t map U = some V ∧
      (∀ i, WallNode (euler (dim := dim) p) .slip .noSlip (entriesAt map i) →
        (∀ e ∈ map, e.i = i → e.id = .slip → dot (Euler.momentum (V i)) e.normal = 0) ∧
        (∀ e ∈ map, e.i = i → e.id = .noSlip → Euler.momentum (V i) = 0) ∧
        Euler.density (V i) = Euler.density (U i) ∧ Euler.totalEnergy (V i) = Euler.totalEnergy (U i) ∧
        (0 < Euler.density (U i) → Euler.internalEnergy (U i) ≤ Euler.internalEnergy (V i)) ∧
        ∀ t' V', boundaryPass (euler p) data t' map V = some V' → V' i = V i) ∧
      (∀ i l e, entriesAt map i = l ++ [e] → e.id = .dirichlet → V i = data e.position t) := by
  obtain ⟨V, hV⟩ := euler_total p data t map U
  refine ⟨V, hV, fun i hw => ?_, fun i l e he hid => ?_⟩
  · obtain ⟨h1, h2, h3, h4, h5⟩ := C88_walls (euler p) eulerLens (euler_walls p) data t map U V hV i hw
    have hd : Euler.density (V i) = Euler.density (U i) := by
      rw [h3]; exact Euler.density_mkState _ _ _
    have hE : Euler.totalEnergy (V i) = Euler.totalEnergy (U i) := by
      rw [h3]; exact Euler.totalEnergy_mkState _ _ _
    refine ⟨h1, h2, hd, hE, fun hpos => ?_, h5⟩
    unfold Euler.internalEnergy
    rw [hd, hE]
    have h4' : normSq (Euler.momentum (V i)) ≤ normSq (Euler.momentum (U i)) := h4
    have hr : 0 < 1 / Euler.density (U i) := by positivity
    nlinarith [mul_le_mul_of_nonneg_right h4' hr.le]
  · obtain ⟨W, hW⟩ := C88_last (euler p) data t map U V hV i l e he (by rw [hid]; intro h; cases h)
    rw [hid] at hW
    exact (Option.some.inj hW).symm

/-- The dynamic boundary condition maps admissible states to admissible states if `1 < γ < 3` and the data are admissible
and not too fast: `v·n ≤ 2 a / (γ - 1)`. -/
theorem dynamic_admissible (p : Euler.Params) (hg : 1 < p.gamma) (hg3 : p.gamma < 3) (U D : Euler.State dim) (n : Vec dim)
    (hn : normSq n = 1) (hU : Euler.Admissible U) (hD : Euler.Admissible D)
    (hR : Euler.riemannInvariant .first p D n ≤ 0) :
    Euler.Admissible (Euler.applyBoundaryConditions p .dynamic U n D) := by
  obtain ⟨h1, h2, h3, h4⟩ := Euler.C37_euler_dynamic p U D n
  have hpos : ∀ W : Euler.State dim, Euler.Admissible W → 0 < Euler.pressure p W := fun W hW =>
    mul_pos (by linarith) hW.2
  have hadm : ∀ W : Euler.State dim, 0 < Euler.density W → 0 < Euler.pressure p W → Euler.Admissible W := fun W hr hp =>
    ⟨hr, (pos_iff_pos_of_mul_pos hp).1 (by linarith)⟩
  set vn := Euler.normalVelocity U n with hvn
  set a := √(p.gamma * Euler.pressure p U / Euler.density U) with ha
  have ha0 : 0 < a := Real.sqrt_pos.2 (div_pos (mul_pos (by linarith) (hpos U hU)) hU.1)
  have hR2 : -a ≤ vn → 0 < Euler.riemannInvariant .second p U n := by
    intro hv
    have he : Euler.riemannInvariant .second p U n = vn + 2 * a / (p.gamma - 1) := rfl
    rw [he]
    have : a < 2 * a / (p.gamma - 1) := by
      rw [lt_div_iff₀ (by linarith)]; nlinarith
    linarith
  rcases lt_or_ge vn (-a) with hv | hv
  · rw [h1 hv]; exact hD
  · rcases le_or_gt vn 0 with hv0 | hv0
    · rw [h3 hv hv0]
      have := Euler.C37_euler_riemann_characteristic .second p D U n hn hg hD.1 (hpos D hD) (hR.trans_lt (hR2 hv))
      exact hadm _ this.1 this.2.1
    · rcases le_or_gt vn a with hva | hva
      · rw [h4 hv0 hva]
        have := Euler.C37_euler_riemann_characteristic .first p U D n hn hg hU.1 (hpos U hU) (hR.trans_lt (hR2 hv))
        exact hadm _ this.1 this.2.1
      · rw [h2 hva]; exact hU

/-- **C88 (admissibility).** If the normals of slip and dynamic entries are unit vectors, the prescribed states are
admissible and, at dynamic boundaries, `1 < γ < 3` and the prescribed normal velocity is at most `2 a / (γ - 1)`, then the
pass keeps all states admissible. -/
theorem C88_euler_admissible (p : Euler.Params) (data : Vec dim → ℝ → Euler.State dim) (t : ℝ)
    (map : List (Entry ι Euler.Boundary dim)) (U V : ι → Euler.State dim) (h : boundaryPass (euler p) data t map U = some V)
    (hunit : ∀ e ∈ map, e.id = .slip ∨ e.id = .dynamic → normSq e.normal = 1)
    (hdata : ∀ e ∈ map, e.id = .dirichlet ∨ e.id = .dynamic → Euler.Admissible (data e.position t))
    (hdyn : ∀ e ∈ map, e.id = .dynamic → 1 < p.gamma ∧ p.gamma < 3 ∧
      Euler.riemannInvariant .first p (data e.position t) e.normal ≤ 0)
    (hU : ∀ i, Euler.Admissible (U i)) : ∀ i, Euler.Admissible (V i) := by
  intro i
  refine pass_invariant (euler p) data t map U V h (fun W W' => Euler.Admissible W → Euler.Admissible W') (fun _ h => h)
    (fun _ _ _ h1 h2 h => h2 (h1 h)) i (fun e he _ W W' hW hadm => ?_) (hU i)
  have hW' : Euler.applyBoundaryConditions p e.id W e.normal (data e.position t) = W' := Option.some.inj hW
  rcases hid : e.id with _ | _ | _ | _ | _ | _
  · rw [hid] at hW'; rw [← hW']; exact hadm
  · rw [hid] at hW'; rw [← hW']; exact hdata e he (Or.inl hid)
  · rw [hid] at hW'
    have hie := (Euler.C36_euler_slip_internal_energy p W e.normal (data e.position t) (hunit e he (Or.inl hid)) hadm.1).1
    rw [hW'] at hie
    refine ⟨?_, hadm.2.trans_le hie⟩
    rw [← hW']
    exact lt_of_lt_of_eq hadm.1 (Euler.density_mkState _ _ _).symm
  · rw [hid] at hW'
    have hd : Euler.density W' = Euler.density W := by rw [← hW']; exact Euler.density_mkState _ _ _
    have hE : Euler.totalEnergy W' = Euler.totalEnergy W := by rw [← hW']; exact Euler.totalEnergy_mkState _ _ _
    have hm : normSq (Euler.momentum W') = 0 := by
      rw [← hW']
      show normSq (Euler.momentum (Euler.mkState _ (fun _ => 0) _)) = 0
      rw [Euler.momentum_mkState]; simp [normSq]
    refine ⟨hd ▸ hadm.1, ?_⟩
    have := hadm.2
    unfold Euler.internalEnergy at this ⊢
    rw [hd, hE, hm]
    have hr : 0 < 1 / Euler.density W := by have := hadm.1; positivity
    nlinarith [mul_nonneg (normSq_nonneg (Euler.momentum W)) hr.le]
  · rw [hid] at hW'; rw [← hW']
    obtain ⟨hg, hg3, hR⟩ := hdyn e he hid
    exact dynamic_admissible p hg hg3 W _ e.normal (hunit e he (Or.inr hid)) hadm (hdata e he (Or.inr hid)) hR
  · rw [hid] at hW'; rw [← hW']; exact hadm

/-- **C88 (arbitrary equation of state).** As for the Euler equations; the pass fails, by executing a trap, exactly if some
entry prescribes characteristics. -/
theorem C88_aeos (data : Vec dim → ℝ → Euler.State dim) (t : ℝ) (map : List (Entry ι Euler.Boundary dim))
    (U : ι → Euler.State dim) :
    ((∃ e ∈ map, e.id = .dynamic) ↔ boundaryPass aeos data t map U = none) ∧
    ∀ V, boundaryPass aeos data t map U = some V →
      (∀ i, WallNode (aeos (dim := dim)) .slip .noSlip (entriesAt map i) →
        (∀ e ∈ map, e.i = i → e.id = .slip → dot (Euler.momentum (V i)) e.normal = 0) ∧
        (∀ e ∈ map, e.i = i → e.id = .noSlip → Euler.momentum (V i) = 0) ∧
        Euler.density (V i) = Euler.density (U i) ∧ Euler.totalEnergy (V i) = Euler.totalEnergy (U i) ∧
        ∀ t' V', boundaryPass aeos data t' map V = some V' → V' i = V i) ∧
      (∀ i l e, entriesAt map i = l ++ [e] → e.id = .dirichlet → V i = data e.position t) := by
  constructor
  · induction map generalizing U with
    | nil => simp [boundaryPass]
    | cons e l ih =>
      rw [boundaryPass, List.foldlM_cons]
      by_cases hd : e.id = .dynamic
      · have : boundaryStep aeos data t U e = none := by
          unfold boundaryStep applyEntry
          rw [if_neg (by rw [hd]; intro h; cases h), hd]; rfl
        rw [this]
        exact ⟨fun _ => rfl, fun _ => ⟨e, by simp, hd⟩⟩
      · have : ∃ W, boundaryStep aeos data t U e = some W := by
          unfold boundaryStep applyEntry aeos
          rcases hid : e.id with _ | _ | _ | _ | _ | _ <;>
            simp_all [Aeos.applyBoundaryConditions]
        obtain ⟨W, hW⟩ := this
        rw [hW]
        show _ ↔ boundaryPass aeos data t l W = none
        rw [← ih W]
        simp [hd]
  · intro V hV
    refine ⟨fun i hw => ?_, fun i l e he hid => ?_⟩
    · obtain ⟨h1, h2, h3, -, h5⟩ := C88_walls aeos eulerLens aeos_walls data t map U V hV i hw
      refine ⟨h1, h2, ?_, ?_, h5⟩
      · rw [h3]; exact Euler.density_mkState _ _ _
      · rw [h3]; exact Euler.totalEnergy_mkState _ _ _
    · obtain ⟨W, hW⟩ := C88_last aeos data t map U V hV i l e he (by rw [hid]; intro h; cases h)
      rw [hid] at hW
      exact (Option.some.inj hW).symm

/-- **C88 (shallow water).** As for the Euler equations; walls do not change the water depth, and after a
`dirichlet_momentum` entry as last entry the momentum is the prescribed one. -/
theorem C88_shallow_water (p : ShallowWater.Params) (data : Vec dim → ℝ → ShallowWater.State dim) (t : ℝ)
    (map : List (Entry ι ShallowWater.Boundary dim)) (U V : ι → ShallowWater.State dim)
    (hV : boundaryPass (shallowWater p) data t map U = some V) :
    (∀ i, WallNode (shallowWater (dim := dim) p) .slip .noSlip (entriesAt map i) →
      (∀ e ∈ map, e.i = i → e.id = .slip → dot (ShallowWater.momentum (V i)) e.normal = 0) ∧
      (∀ e ∈ map, e.i = i → e.id = .noSlip → ShallowWater.momentum (V i) = 0) ∧
      ShallowWater.waterDepth (V i) = ShallowWater.waterDepth (U i) ∧
      normSq (ShallowWater.momentum (V i)) ≤ normSq (ShallowWater.momentum (U i)) ∧
      ∀ t' V', boundaryPass (shallowWater p) data t' map V = some V' → V' i = V i) ∧
    (∀ i l e, entriesAt map i = l ++ [e] → e.id = .dirichlet → V i = data e.position t) ∧
    (∀ i l e, entriesAt map i = l ++ [e] → e.id = .dirichletMomentum →
      ShallowWater.momentum (V i) = ShallowWater.momentum (data e.position t)) := by
  refine ⟨fun i hw => ?_, fun i l e he hid => ?_, fun i l e he hid => ?_⟩
  · obtain ⟨h1, h2, h3, h4, h5⟩ := C88_walls (shallowWater p) swLens (sw_walls p) data t map U V hV i hw
    refine ⟨h1, h2, ?_, h4, h5⟩
    rw [h3]; exact ShallowWater.waterDepth_mkState _ _
  · obtain ⟨W, hW⟩ := C88_last (shallowWater p) data t map U V hV i l e he (by rw [hid]; intro h; cases h)
    rw [hid] at hW
    exact (Option.some.inj hW).symm
  · obtain ⟨W, hW⟩ := C88_last (shallowWater p) data t map U V hV i l e he (by rw [hid]; intro h; cases h)
    rw [hid] at hW
    rw [← Option.some.inj hW]
    exact ShallowWater.momentum_mkState _ _

/-- **C88 (scalar equations).** The pass fails exactly if some entry has an unsupported id; otherwise the state of a node
with Dirichlet entries is the prescribed one and all other states are unchanged. -/
theorem C88_scalar (data : Vec dim → ℝ → Scalar.State) (t : ℝ) (map : List (Entry ι Scalar.Boundary dim)) (U : ι → Scalar.State) :
    ((∃ e ∈ map, e.id = .slip ∨ e.id = .no_slip ∨ e.id = .dynamic) ↔ boundaryPass scalar data t map U = none) ∧
    ∀ V, boundaryPass scalar data t map U = some V → ∀ i,
      ((∀ e ∈ map, e.i = i → e.id ≠ .dirichlet) → V i = U i) ∧
      ∀ D, (∃ e ∈ map, e.i = i ∧ e.id = .dirichlet) →
        (∀ e ∈ map, e.i = i → e.id = .dirichlet → data e.position t = D) → V i = D := by
  constructor
  · induction map generalizing U with
    | nil => simp [boundaryPass]
    | cons e l ih =>
      rw [boundaryPass, List.foldlM_cons]
      by_cases hd : e.id = .slip ∨ e.id = .no_slip ∨ e.id = .dynamic
      · have : boundaryStep scalar data t U e = none := by
          unfold boundaryStep applyEntry scalar
          rcases hd with hd | hd | hd <;> simp [hd, Scalar.applyBoundaryConditions]
        rw [this]
        exact ⟨fun _ => rfl, fun _ => ⟨e, by simp, hd⟩⟩
      · have : ∃ W, boundaryStep scalar data t U e = some W := by
          unfold boundaryStep applyEntry scalar
          rcases hid : e.id with _ | _ | _ | _ | _ | _ <;>
            simp_all [Scalar.applyBoundaryConditions]
        obtain ⟨W, hW⟩ := this
        rw [hW]
        show _ ↔ boundaryPass scalar data t l W = none
        rw [← ih W]
        simp [hd]
  · intro V hV i
    have key := C88_local scalar data t map U V hV i
    have hmem : ∀ e, e ∈ entriesAt map i ↔ e ∈ map ∧ e.i = i := fun e => by simp [entriesAt]
    have step : ∀ (e : Entry ι Scalar.Boundary dim) (u w : Scalar.State), applyEntry scalar data t u e = some w →
        (e.id = .dirichlet ∧ w = data e.position t) ∨ (e.id ≠ .dirichlet ∧ w = u) := by
      intro e u w h
      unfold applyEntry scalar at h
      rcases hid : e.id with _ | _ | _ | _ | _ | _ <;> simp_all [Scalar.applyBoundaryConditions]
    constructor
    · intro hno
      have hall : ∀ e ∈ entriesAt map i, e.id ≠ .dirichlet := fun e he => hno e ((hmem e).1 he).1 ((hmem e).1 he).2
      generalize entriesAt map i = l at key hall
      generalize U i = u at key ⊢
      induction l generalizing u with
      | nil => simp only [List.foldlM_nil] at key; cases key; rfl
      | cons e l ih =>
        rw [List.foldlM_cons] at key
        rcases ha : applyEntry scalar data t u e with _ | w
        · rw [ha] at key; cases key
        · rw [ha] at key
          rcases step e u w ha with ⟨h1, -⟩ | ⟨-, h2⟩
          · exact absurd h1 (hall e (by simp))
          · rw [← h2]; exact ih (fun e he => hall e (by simp [he])) w key
    · rintro D ⟨e₀, he₀, hi₀, hd₀⟩ hD
      have hall : ∀ e ∈ entriesAt map i, e.id = .dirichlet → data e.position t = D :=
        fun e he => hD e ((hmem e).1 he).1 ((hmem e).1 he).2
      have hex : U i = D ∨ ∃ e ∈ entriesAt map i, e.id = .dirichlet := Or.inr ⟨e₀, (hmem e₀).2 ⟨he₀, hi₀⟩, hd₀⟩
      generalize entriesAt map i = l at key hall hex
      generalize U i = u at key hex
      induction l generalizing u with
      | nil =>
        simp only [List.foldlM_nil] at key
        rcases hex with h | ⟨e, he, -⟩
        · cases key; exact h
        · cases he
      | cons e l ih =>
        rw [List.foldlM_cons] at key
        rcases ha : applyEntry scalar data t u e with _ | w
        · rw [ha] at key; cases key
        · rw [ha] at key
          refine ih (fun e he => hall e (by simp [he])) w key ?_
          rcases step e u w ha with ⟨h1, h2⟩ | ⟨h1, h2⟩
          · left; rw [h2]; exact hall e (by simp) h1
          · rcases hex with h | ⟨e', he', hd'⟩
            · left; rw [h2]; exact h
            · rcases List.mem_cons.1 he' with rfl | he'
              · exact absurd hd' h1
              · exact Or.inr ⟨e', he', hd'⟩

/-! ### Non-vacuity and violations -/

/-- Two orthogonal slip walls meeting at a node. -/
def cornerMap : List (Entry Unit Euler.Boundary 2) := [⟨(), ![1, 0], .slip, 0⟩, ⟨(), ![0, 1], .slip, 0⟩]

example (p : Euler.Params) : WallNode (euler (dim := 2) p) .slip .noSlip (entriesAt cornerMap ()) := by
  have : entriesAt cornerMap () = cornerMap := by simp [entriesAt, cornerMap]
  rw [this]
  refine ⟨?_, ?_, ?_⟩
  · intro e he; simp [cornerMap] at he; rcases he with rfl | rfl <;> simp
  · intro e he; simp [cornerMap] at he; rcases he with rfl | rfl <;> simp [normSq]
  · intro e he e' he'
    simp [cornerMap] at he he'
    rcases he with rfl | rfl <;> rcases he' with rfl | rfl <;> simp [dot]

private theorem vec3_two (a b c : ℝ) : (![a, b, c] : Fin 3 → ℝ) 2 = c := rfl

/-- Two slip walls that meet in an edge at an oblique angle (the cosine of the angle of the normals is 5/13, so the entries
are not merged). -/
noncomputable def obliqueMap : List (Entry Unit Euler.Boundary 3) :=
  [⟨(), ![1, 0, 0], .slip, 0⟩, ⟨(), ![5 / 13, 12 / 13, 0], .slip, 0⟩]

/-- **C88 violation (oblique edges in 3D).** A flow of momentum `(0, 169, 0)` along the first wall leaves the pass with
momentum `(-60, 25, 0)`: it does not satisfy the slip condition of the first wall, and the next pass changes it again. -/
theorem C88_oblique_violation (p : Euler.Params) (data : Vec 3 → ℝ → Euler.State 3) (t : ℝ) (rho E : ℝ) :
    ∃ V, boundaryPass (euler p) data t obliqueMap (fun _ => Euler.mkState rho ![0, 169, 0] E) = some V ∧
      Euler.momentum (V ()) = ![-60, 25, 0] ∧ dot (Euler.momentum (V ())) ![1, 0, 0] ≠ 0 ∧
      ∀ V', boundaryPass (euler p) data t obliqueMap V = some V' → V' ≠ V := by
  obtain ⟨V, hV⟩ := euler_total p data t obliqueMap (fun _ => Euler.mkState rho ![0, 169, 0] E)
  have he : entriesAt obliqueMap () = obliqueMap := by simp [entriesAt, obliqueMap]
  have hids : ∀ e ∈ obliqueMap, e.id = (euler (dim := 3) p).doNothing ∨ e.id = Euler.Boundary.slip ∨ e.id = Euler.Boundary.noSlip := by
    intro e he'; simp [obliqueMap] at he'; rcases he' with rfl | rfl <;> simp
  have hpass : ∀ U V : Unit → Euler.State 3, boundaryPass (euler p) data t obliqueMap U = some V →
      Euler.momentum (V ()) = obliqueMap.foldl (wallStep .slip .noSlip) (Euler.momentum (U ())) := by
    intro U V h
    have key := C88_local (euler p) data t obliqueMap U V h ()
    rw [he, walls_fold (euler p) eulerLens (euler_walls p) data t _ hids] at key
    rw [← Option.some.inj key]
    exact eulerLens.get_set _ _
  have hm : Euler.momentum (V ()) = ![-60, 25, 0] := by
    rw [hpass _ V hV, Euler.momentum_mkState]
    funext k
    fin_cases k <;> norm_num [obliqueMap, wallStep, dot, Fin.sum_univ_three, Matrix.vecHead, Matrix.vecTail, vec3_two]
  refine ⟨V, hV, hm, ?_, ?_⟩
  · rw [hm]; norm_num [dot, Fin.sum_univ_three, Matrix.vecHead, Matrix.vecTail, vec3_two]
  · rintro V' h' rfl
    have := hpass _ _ h'
    rw [hm] at this
    have h0 := congrFun this 0
    norm_num [obliqueMap, wallStep, dot, Fin.sum_univ_three, Matrix.vecHead, Matrix.vecTail, vec3_two] at h0

/-- A state at rest and a prescribed supersonic outflow, both admissible. -/
noncomputable def restState : Euler.State 1 := Euler.mkState 1 ![0] (1 / 2)
noncomputable def outflowData (v : ℝ) : Euler.State 1 := Euler.mkState 1 ![v] (1 / 2 + 1 / 2 * v ^ 2)

/-- **C88 violation (dynamic boundaries).** With admissible data that violate the bound on the normal velocity the pass
produces vacuum: gas at rest and prescribed data of Mach number 4 (outflow) give a state with density zero. -/
theorem C88_dynamic_violation :
    ∃ (p : Euler.Params) (data : Vec 1 → ℝ → Euler.State 1) (map : List (Entry Unit Euler.Boundary 1))
      (U V : Unit → Euler.State 1), 1 < p.gamma ∧ p.gamma < 3 ∧ (∀ e ∈ map, normSq e.normal = 1) ∧
      (∀ x t, Euler.Admissible (data x t)) ∧ (∀ i, Euler.Admissible (U i)) ∧
      boundaryPass (euler p) data 0 map U = some V ∧ Euler.density (V ()) = 0 := by
  obtain ⟨V, hV⟩ := euler_total ⟨2, 1, 1, 1, 0⟩ (fun _ _ => outflowData 4) 0 [(⟨(), ![1], .dynamic, 0⟩ : Entry Unit _ 1)]
    (fun _ => restState)
  refine ⟨⟨2, 1, 1, 1, 0⟩, fun _ _ => outflowData 4, [⟨(), ![1], .dynamic, 0⟩], fun _ => restState, V,
    by norm_num, by norm_num, ?_, ?_, ?_, hV, ?_⟩
  · intro e he; simp at he; rw [he]; simp [normSq]
  · intro x t
    constructor
    · norm_num [outflowData]
    · norm_num [outflowData, Euler.internalEnergy, normSq]
  · intro i
    constructor
    · norm_num [restState]
    · norm_num [restState, Euler.internalEnergy, normSq]
  · have hl := C88_local (euler _) _ 0 _ _ V hV ()
    simp only [entriesAt, List.filter_cons, decide_true, if_true, List.filter_nil, List.foldlM_cons, List.foldlM_nil,
      bind_pure] at hl
    rw [applyEntry, if_neg (by intro h; cases h)] at hl
    rw [← Option.some.inj hl]
    show Euler.density (Euler.applyBoundaryConditions _ .dynamic restState ![1] (outflowData 4)) = 0
    have hc : ∀ v, Euler.speedOfSound ⟨2, 1, 1, 1, 0⟩ (outflowData v) = 1 := by
      intro v
      rw [Euler.speedOfSound, Euler.pressure_eq, Real.sqrt_eq_one]
      norm_num [outflowData, normSq]
      ring
    have hr : Euler.speedOfSound ⟨2, 1, 1, 1, 0⟩ restState = 1 := by
      rw [Euler.speedOfSound, Euler.pressure_eq, Real.sqrt_eq_one]
      norm_num [restState, normSq]
    have hv : dot (Euler.momentum restState) ![1] / Euler.density restState = 0 := by simp [restState, dot]
    have hd : dot (Euler.momentum (outflowData 4)) ![1] / Euler.density (outflowData 4) = 4 := by
      simp [outflowData, dot]
    simp only [Euler.applyBoundaryConditions, hr, hv]
    norm_num [Euler.prescribeRiemannCharacteristic, hr, hv, hd, hc]

end Prepare
end Ryujin
