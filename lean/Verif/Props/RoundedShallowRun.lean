import Verif.Model.RoundedShallowRun
import Verif.Props.RoundedShallow
import Verif.Props.RoundedRun

/-!
# C125: the total water over complete runs in floating point arithmetic
-/

namespace Ryujin
namespace RoundedShallow

noncomputable section

open Hyp Integrator Rounded

variable {ι : Type} {dim : ℕ}

section

variable [Fintype ι] {R : Rounding} {M : Mesh ι dim} {passes : ℕ}

theorem effect_size_nonneg (hm : ∀ i, 0 < M.lumped i) {i : Instr} {m m' : RMem ι} {x : ℝ} (h : Effect R M passes i m m' x) : 0 ≤ x := by
  cases h with
  | prepare => exact le_rfl
  | first _ _ _ _ s X lij => exact total_nonneg hm fun i hi => (close_new (R := R) s (X := X) (fun _ => 0) hm hi lij).nonneg
  | hyp _ _ _ _ s X lij => exact total_nonneg hm fun i hi => (close_new (R := R) s (X := X) (fun _ => 0) hm hi lij).nonneg
  | sadd => exact total_nonneg hm fun i _ => by positivity

theorem effects_size_nonneg (hm : ∀ i, 0 < M.lumped i) {is : List Instr} {m m' : RMem ι} {x : ℝ} (h : Effects R M passes is m m' x) : 0 ≤ x := by
  induction h with
  | nil => exact le_rfl
  | cons h _ ih => exact add_nonneg (effect_size_nonneg hm h) ih

variable {N : ℕ}

theorem total_step (s : Contractions ι) (hM : M.WellFormed) (hC : M.Closed) (hN : ∀ i, (M.nbrs i).length ≤ N) (X : StepData ι dim)
    (hd : ∀ i, ∀ j ∈ M.nbrs i, X.d i j = X.d j i) (left : ι → ℝ) (lij : List (ι → ι → ℝ)) (hl : lij.length ≤ passes) (hs : X.stages.length ≤ 4) :
    |total M (newU R s M X left lij) - total M X.U| ≤ ((1 + R.u) ^ Rounded.depth dim passes N - 1) * total M (stepSize R s M X lij) := by
  refine (C123_shallow_water R s M hM hC X hd left lij N hN).trans (mul_le_mul_of_nonneg_right ?_
    (total_nonneg hC.lumped fun i hi => (close_new (R := R) s (X := X) (fun _ => 0) hC.lumped hi lij).nonneg))
  have h1 : dim + 14 + X.stages.length + (lij.length + 2) * N ≤ Rounded.depth dim passes N := by
    have := Nat.mul_le_mul_right N (Nat.add_le_add_right hl 2)
    unfold Rounded.depth
    omega
  have := pow_le_pow_right₀ (by linarith [R.u_nonneg] : 1 ≤ 1 + R.u) h1
  linarith

theorem effects_total (hM : M.WellFormed) (hC : M.Closed) (hN : ∀ i, (M.nbrs i).length ≤ N) {is : List Instr} {m m' : RMem ι} {x : ℝ}
    (h : Effects R M passes is m m' x) : ∀ (T E : ℝ) (W : List Slot), ready W is → (∀ v ∈ W, |total M (m v) - T| ≤ E) →
      ∀ v ∈ written W is, |total M (m' v) - T| ≤ E + ((1 + R.u) ^ Rounded.depth dim passes N - 1) * x := by
  have hg : 0 ≤ (1 + R.u) ^ Rounded.depth dim passes N - 1 := by
    have := one_le_grow (R := R) (Rounded.depth dim passes N)
    linarith
  induction h with
  | nil m =>
    intro T E W _ hW v hv
    rw [mul_zero, add_zero]
    exact hW v hv
  | @cons i is m m₁ m₂ x y h hs ih =>
    intro T E W hr hW
    have hx := effect_size_nonneg hC.lumped h
    have key : ∀ (W' : List Slot), ready W' is → (∀ v ∈ W', |total M (m₁ v) - T| ≤ E + ((1 + R.u) ^ Rounded.depth dim passes N - 1) * x) →
        ∀ v ∈ written W' is, |total M (m₂ v) - T| ≤ E + ((1 + R.u) ^ Rounded.depth dim passes N - 1) * (x + y) := by
      intro W' h1 h2 v hv
      have := ih T _ W' h1 h2 v hv
      rw [mul_add]
      linarith
    have grow : ∀ {a : ℝ}, a ≤ E → a ≤ E + ((1 + R.u) ^ Rounded.depth dim passes N - 1) * x := fun h => by
      have := mul_nonneg hg hx
      linarith
    -- a hyperbolic step
    have step : ∀ (src dst : Slot) (s : Contractions ι) (X : StepData ι dim) (lij : List (ι → ι → ℝ)), X.U = m src → X.stages.length ≤ 4 →
        (∀ i, ∀ j ∈ M.nbrs i, X.d i j = X.d j i) → lij.length ≤ passes → src ∈ W → m₁ = store m dst (newU R s M X (m dst) lij) →
        x = total M (stepSize R s M X lij) →
        ∀ v ∈ dst :: W, |total M (m₁ v) - T| ≤ E + ((1 + R.u) ^ Rounded.depth dim passes N - 1) * x := by
      intro src dst s X lij hU hst hd hl hsrc hm₁ hx' v hv
      rw [hm₁, store]
      split_ifs with hvd
      · have h1 := total_step (R := R) (N := N) s hM hC hN X hd (m dst) lij hl hst
        have h2 := hW src hsrc
        rw [hU] at h1
        rw [hx']
        calc _ = |(total M (newU R s M X (m dst) lij) - total M (m src)) + (total M (m src) - T)| := by congr 1; ring
          _ ≤ _ := abs_add_le _ _
          _ ≤ _ := by linarith
      · rcases List.mem_cons.1 hv with rfl | hv
        · exact absurd rfl hvd
        · exact grow (hW v hv)
    cases h with
    | prepare v c => exact key W hr fun v hv => grow (hW v hv)
    | first src dst div _ s X lij hU hst hd hl =>
      exact key _ hr.2.2 (step src dst s X lij hU (by simp [hst]) hd hl hr.1 rfl rfl)
    | hyp src stages dst _ s X lij hU hst hd hl =>
      exact key _ hr.2.2.2 (step src dst s X lij hU (hst ▸ hr.2.1) hd hl hr.1 rfl rfl)
    | sadd dst s b src _ fused =>
      obtain ⟨hdst, hsrc, _, hs0, hb0, hsb, hr⟩ := hr
      refine key _ hr fun v hv => ?_
      unfold store
      split_ifs with hvd
      · have h1 := total_sadd (R := R) (M := M) (passes := passes) (N := N) hC.lumped fused s b (m dst) (m src)
        have h2 := mul_le_mul_of_nonneg_left (hW dst hdst) hs0
        have h3 := mul_le_mul_of_nonneg_left (hW src hsrc) hb0
        have h4 : |(s * total M (m dst) + b * total M (m src)) - T| ≤ E := by
          calc _ = |s * (total M (m dst) - T) + b * (total M (m src) - T)| := by
                congr 1
                linear_combination T * hsb
            _ ≤ |s * (total M (m dst) - T)| + |b * (total M (m src) - T)| := abs_add_le _ _
            _ = s * |total M (m dst) - T| + b * |total M (m src) - T| := by rw [abs_mul, abs_mul, abs_of_nonneg hs0, abs_of_nonneg hb0]
            _ ≤ s * E + b * E := add_le_add h2 h3
            _ = E := by rw [← add_mul, hsb, one_mul]
        have h5 := abs_add_le (total M (fun i => saddEntry R (fused i) s b (m dst i) (m src i)) - (s * total M (m dst) + b * total M (m src)))
          ((s * total M (m dst) + b * total M (m src)) - T)
        rw [sub_add_sub_cancel] at h5
        linarith
      · exact grow (hW v hv)

theorem effects_old {is : List Instr} {m m' : RMem ι} {x : ℝ} (h : Effects R M passes is m m' x) :
    ∀ (W : List Slot), ready W is → m' .old = m .old := by
  induction h with
  | nil => intro _ _; rfl
  | @cons i is m m₁ m₂ x y h hs ih =>
    intro W hr
    cases h with
    | prepare => exact ih _ hr
    | first _ dst => rw [ih _ hr.2.2, store, if_neg (Ne.symm hr.2.1)]
    | hyp _ _ dst => rw [ih _ hr.2.2.2, store, if_neg (Ne.symm hr.2.2.1)]
    | sadd dst => rw [ih _ hr.2.2.2.2.2.2, store, if_neg (Ne.symm hr.2.2.1)]

end

/-- **C125 (shallow water, one step of the time integrator).** In floating point arithmetic a step of any explicit scheme for the shallow water
equations, over any bathymetry, on a mesh without boundary, with or without a restart, changes the total of the water depth by at most the size
of the numbers added up times the growth `(1 + u)^K - 1`; `K = dim + 18 + (passes + 2) N` for `passes` passes of the limiter and at most `N`
neighbours. -/
theorem C125_shallow_water_step [Fintype ι] (R : Rounding) (M : Mesh ι dim) (hM : M.WellFormed) (hC : M.Closed) (passes N : ℕ)
    (hN : ∀ i, (M.nbrs i).length ≤ N) (sch : Scheme) (hs : explicit sch) {m m' : RMem ι} {size : ℝ}
    (h : StepEffect R M passes (program sch) m m' size) :
    |total M (m' .old) - total M (m .old)| ≤ ((1 + R.u) ^ (dim + 18 + (passes + 2) * N) - 1) * size := by
  obtain ⟨h1, h2⟩ := program_ready sch hs
  have main : ∀ {m m' : RMem ι} {x : ℝ}, Effects R M passes (program sch).code m m' x →
      |total M (m' (.temp (program sch).result)) - total M (m .old)| ≤ ((1 + R.u) ^ (dim + 18 + (passes + 2) * N) - 1) * x := by
    intro m m' x h
    have := effects_total (R := R) (N := N) hM hC hN h (total M (m .old)) 0 [.old] h1 (by simp) _ h2
    rwa [zero_add] at this
  cases h with
  | once h => exact main h
  | twice k dst garbage h₁ h =>
    have e := effects_old h₁ [.old] (ready_take _ _ k h1)
    have := main h
    rwa [show store _ (Slot.temp dst) garbage .old = _ from if_neg (by simp), e] at this

/-- **C125 (shallow water, runs).** In floating point arithmetic `n` steps of any explicit scheme change the total of the water depth by at most the
size of all numbers added up during the run times `(1 + u)^K - 1`, with the `K` of a single step. -/
theorem C125_shallow_water_run [Fintype ι] (R : Rounding) (M : Mesh ι dim) (hM : M.WellFormed) (hC : M.Closed) (passes N : ℕ)
    (hN : ∀ i, (M.nbrs i).length ≤ N) (sch : Scheme) (hs : explicit sch) (n : ℕ) {m m' : RMem ι} {size : ℝ}
    (h : RunEffect R M passes (program sch) n m m' size) :
    |total M (m' .old) - total M (m .old)| ≤ ((1 + R.u) ^ (dim + 18 + (passes + 2) * N) - 1) * size := by
  induction h with
  | zero => simp
  | @succ n m m' m'' x y h hst ih =>
    have h1 := C125_shallow_water_step R M hM hC passes N hN sch hs hst
    have h2 := abs_add_le (total M (m'' .old) - total M (m' .old)) (total M (m' .old) - total M (m .old))
    rw [sub_add_sub_cancel] at h2
    rw [mul_add]
    linarith

/-- The same with a multiple of the unit roundoff. -/
theorem C125_shallow_water_run_linear [Fintype ι] (R : Rounding) (M : Mesh ι dim) (hM : M.WellFormed) (hC : M.Closed) (passes N : ℕ)
    (hN : ∀ i, (M.nbrs i).length ≤ N) (sch : Scheme) (hs : explicit sch) (n : ℕ) {m m' : RMem ι} {size : ℝ}
    (hu : (dim + 18 + (passes + 2) * N : ℕ) * R.u ≤ 1 / 2) (h : RunEffect R M passes (program sch) n m m' size) :
    |total M (m' .old) - total M (m .old)| ≤ 2 * (dim + 18 + (passes + 2) * N : ℕ) * R.u * size := by
  refine (C125_shallow_water_run R M hM hC passes N hN sch hs n h).trans (mul_le_mul_of_nonneg_right (grow_le _ hu) ?_)
  have hst : ∀ {m m' : RMem ι} {x : ℝ}, StepEffect R M passes (program sch) m m' x → 0 ≤ x := by
    intro m m' x h
    cases h with
    | once h => exact effects_size_nonneg hC.lumped h
    | twice _ _ _ _ h => exact effects_size_nonneg hC.lumped h
  clear hu hs
  induction h with
  | zero => exact le_rfl
  | succ _ h ih => exact add_nonneg ih (hst h)

/-! ### Without rounding -/

section exact

variable [Fintype ι]

/-- A hyperbolic step without rounding, as seen by one component. -/
theorem exact_depth (q : ShallowWater.StepParams) (Z : ι → ℝ)
    (lim : ι → ι → ShallowWater.Bounds → ShallowWater.State dim → ShallowWater.State dim → ℝ × Prop) (M : Mesh ι dim)
    (hM : M.WellFormed) (hm : ∀ j, 0 < M.lumped j) (par : Hyp.Params) (big : ℝ) (bc) (pre : (ι → ShallowWater.State dim) → Unit) (lo : ℕ → Leftover ι (ShallowWater.State dim)) (garbage : ℕ → ι → ShallowWater.State dim) (parabolic)
    (hsym : ∀ st old i, ∀ j ∈ M.nbrs i, dOff (ShallowWater.description q Z lim) M st old i j = dOff (ShallowWater.description q Z lim) M st old j i)
    (s : Contractions ι) (ctx : Ctx) (n : ℕ) (src : SV (ι → ShallowWater.State dim) Unit) (st : List (ℝ × SV (ι → ShallowWater.State dim) Unit)) (dst : ι → ShallowWater.State dim) (tau : ℝ) (cap : Option ℝ)
    (u : ι → ShallowWater.State dim) (τ : ℝ) (h : (hyperbolicModules (ShallowWater.description q Z lim) M par big bc pre lo garbage parabolic).hyp ctx n src st dst tau cap = .ok u τ) :
    ∃ (X : StepData ι dim) (lij : List (ι → ι → ℝ)), X.U = (fun i => depthOf (src.U i)) ∧ X.stages.length = st.length ∧
      (∀ i, ∀ j ∈ M.nbrs i, X.d i j = X.d j i) ∧ lij.length ≤ par.iterations ∧
      newU Rounding.exact s M X (fun i => depthOf (dst i)) lij = fun i => depthOf (u i) := by
  classical
  simp only [hyperbolicModules] at h
  split at h
  · simp at h
  · simp at h
  · rename_i U τ' hst
    simp only [Res.ok.injEq] at h
    obtain ⟨rfl, rfl⟩ := h
    obtain ⟨tau', hU⟩ := step_done _ _ _ _ _ _ _ _ _ _ _ _ hst
    set X := stage4 (ShallowWater.description q Z lim) M { par with cfl := ctx.cfl } { lo n with newU := dst } ⟨src.U, src.prec⟩ (st.map fun p => (p.1, ⟨p.2.U, p.2.prec⟩)) tau' with hX
    refine ⟨depth q Z X, coefficients (ShallowWater.description q Z lim) M (finalBounds (ShallowWater.description q Z lim) M { par with cfl := ctx.cfl } { lo n with newU := dst } X) (Hyp.pIJ (ShallowWater.description q Z lim) M X)
      par.iterations (List.range par.iterations) ⟨newLow (ShallowWater.description q Z lim) M { lo n with newU := dst } X,
        fun i j => (l1 (ShallowWater.description q Z lim) M { par with cfl := ctx.cfl } { lo n with newU := dst } X i j).1, (lo n).lijNext⟩, rfl, ?_, ?_, ?_, ?_⟩
    · simp [depth, hX, stage4]
    · intro i j hj
      have hne : i ≠ j := fun e => hM.irrefl i (e ▸ hj)
      simp only [depth, hX, stage4, hne, hne.symm, if_false]
      exact hsym _ _ i j hj
    · have : ∀ (b : ι → ShallowWater.Bounds) (p : ι → ι → ShallowWater.State dim) (k : ℕ) (L : List ℕ) (st : LimiterLoop ι (ShallowWater.State dim)), (coefficients (ShallowWater.description q Z lim) M b p k L st).length = L.length := by
        intro b p k L
        induction L with
        | nil => intro _; rfl
        | cons a L ih => intro st; simp [coefficients, ih]
      rw [this, List.length_range]
    · funext i
      have e := C123_shallow_water_exact_step q Z lim s M X hm { par with cfl := ctx.cfl } { lo n with newU := dst } i
      rw [hU]
      refine Eq.trans ?_ e
      by_cases hi : M.active i
      · simp only [newU, hi, if_true]
      · have hn : ∀ (L : List ℕ) (st : LimiterLoop ι (ShallowWater.State dim)) (b : ι → ShallowWater.Bounds) (k : ℕ),
            (L.foldl (fun st pass => limiterPass (ShallowWater.description q Z lim) M b (Hyp.pIJ (ShallowWater.description q Z lim) M X) k pass st) st).U i = st.U i := by
          intro L
          induction L with
          | nil => intro st b k; rfl
          | cons a L ih =>
            intro st b k
            rw [List.foldl_cons, ih]
            simp [limiterPass, hi]
        simp only [newU, hi, if_false, newStates, limiterLoop, hn, newLow]
        rfl

/-- **C125 (shallow water, no rounding).** Every execution of the statements of a scheme in the model over the real numbers is, seen by the water
depth, one of the executions `C125_shallow_water_step` speaks about, with exact arithmetic. -/
theorem C125_shallow_water_exact (q : ShallowWater.StepParams) (Z : ι → ℝ)
    (lim : ι → ι → ShallowWater.Bounds → ShallowWater.State dim → ShallowWater.State dim → ℝ × Prop) (M : Mesh ι dim)
    (hM : M.WellFormed) (hm : ∀ j, 0 < M.lumped j) (par : Hyp.Params) (big : ℝ) (pre : (ι → ShallowWater.State dim) → Unit) (lo : ℕ → Leftover ι (ShallowWater.State dim))
    (garbage : ℕ → ι → ShallowWater.State dim) (hsym : ∀ st old i, ∀ j ∈ M.nbrs i, dOff (ShallowWater.description q Z lim) M st old i j = dOff (ShallowWater.description q Z lim) M st old j i) (ctx : Ctx) (t tau_max : ℝ) :
    ∀ (code : List Instr) (c c' : Conf (ι → ShallowWater.State dim) Unit),
      run (hyperbolicModules (ShallowWater.description q Z lim) M par big (fun _ u => u) pre lo garbage fun _ _ _ _ _ _ => .crash) ctx t tau_max code c = .done c' →
      ∃ size, Effects Rounding.exact M par.iterations code (componentOf depthOf c.mem) (componentOf depthOf c'.mem) size
  | [], c, c', h => by
    simp only [run, Out.done.injEq] at h
    subst h
    exact ⟨0, .nil _⟩
  | .prepare v a :: is, c, c', h => by
    obtain ⟨x, hx⟩ := C125_shallow_water_exact q Z lim M hM hm par big pre lo garbage hsym ctx t tau_max is _ _ h
    refine ⟨0 + x, .cons (m' := componentOf depthOf c.mem) (.prepare v a _) ?_⟩
    convert hx using 1
    funext v' i
    simp only [componentOf, hyperbolicModules]
    split_ifs with hv
    · rw [hv]
    · rfl
  | .first src dst div :: is, c, c', h => by
    simp only [run, exec] at h
    cases hr : (hyperbolicModules (ShallowWater.description q Z lim) M par big (fun _ u => u) pre lo garbage fun _ _ _ _ _ _ => .crash).hyp ctx c.calls (c.mem src) []
        (c.mem dst).U 0 (some (tau_max / div)) with
    | restart g => rw [hr] at h; simp [finish] at h
    | crash => rw [hr] at h; simp [finish] at h
    | ok u τ =>
      rw [hr] at h
      simp only [finish] at h
      obtain ⟨x, hx⟩ := C125_shallow_water_exact q Z lim M hM hm par big pre lo garbage hsym ctx t tau_max is _ _ h
      obtain ⟨X, lij, h1, h2, h3, h4, h5⟩ := exact_depth q Z lim M hM hm par big _ pre lo garbage _ hsym (fun _ _ _ => false) _ _ _ _ _ _ _ _ _ hr
      rw [componentOf_setU, ← h5] at hx
      exact ⟨_, .cons (.first src dst div _ _ X lij h1 (List.eq_nil_of_length_eq_zero h2) h3 h4) hx⟩
  | .hyp src stages dst :: is, c, c', h => by
    simp only [run, exec] at h
    cases hr : (hyperbolicModules (ShallowWater.description q Z lim) M par big (fun _ u => u) pre lo garbage fun _ _ _ _ _ _ => .crash).hyp ctx c.calls (c.mem src)
        (stageArgs c.mem stages) (c.mem dst).U c.tau none with
    | restart g => rw [hr] at h; simp [finish] at h
    | crash => rw [hr] at h; simp [finish] at h
    | ok u τ =>
      rw [hr] at h
      simp only [finish] at h
      obtain ⟨x, hx⟩ := C125_shallow_water_exact q Z lim M hM hm par big pre lo garbage hsym ctx t tau_max is _ _ h
      obtain ⟨X, lij, h1, h2, h3, h4, h5⟩ := exact_depth q Z lim M hM hm par big _ pre lo garbage _ hsym (fun _ _ _ => false) _ _ _ _ _ _ _ _ _ hr
      rw [componentOf_setU, ← h5] at hx
      exact ⟨_, .cons (.hyp src stages dst _ _ X lij h1 (by rw [h2, stageArgs, List.length_map]) h3 h4) hx⟩
  | .par src a stages dst f :: is, c, c', h => by
    simp only [run, exec, hyperbolicModules] at h
    split_ifs at h <;> simp [finish] at h
  | .sadd dst a b src :: is, c, c', h => by
    obtain ⟨x, hx⟩ := C125_shallow_water_exact q Z lim M hM hm par big pre lo garbage hsym ctx t tau_max is _ _ h
    refine ⟨_, .cons (.sadd dst a b src _ fun _ => (false, false)) (?_ : Effects _ _ _ _ _ _ x)⟩
    rw [componentOf_setU] at hx
    convert hx using 2
    funext i
    simp [saddEntry, product, Rounding.exact, componentOf]

end exact

/-! ### Examples -/

/-- The vectors before a step of the lake. -/
def lakeVectors : RMem (Fin 3) := fun v => if v = .old then lake.U else fun _ => 17

/-- The first step has no stages. -/
def lakeFirst : StepData (Fin 3) 1 := { lake with stages := [], weight := 1 }

/-- The second stage of `ssprk_22`, from whatever the first one computed. -/
def lakeSecond (U : Fin 3 → ℝ) : StepData (Fin 3) 1 := { lakeFirst with U := U }

/-- There is such a step of `ssprk_22` in double precision. -/
theorem lake_step_exists (s : Contractions (Fin 3)) (l : Fin 3 → Fin 3 → ℝ) :
    ∃ m' size, StepEffect Rounding.double ring 2 (program .ssprk_22) lakeVectors m' size ∧
      m' .old = fun i => saddEntry Rounding.double (false, true) (1 / 2) (1 / 2)
        (newU Rounding.double s ring (lakeSecond (newU Rounding.double s ring lakeFirst (fun _ => 17) [l, l])) (fun _ => 17) [l] i)
        (lake.U i) := by
  refine ⟨_, _, .once (.cons (.prepare _ _ _) (.cons (.first _ _ _ _ s lakeFirst [l, l] ?_ rfl ?_ (by simp)) (.cons (.prepare _ _ _)
    (.cons (.hyp _ _ _ _ s (lakeSecond (newU Rounding.double s ring lakeFirst (fun _ => 17) [l, l])) [l] ?_ rfl ?_ (by simp))
      (.cons (.sadd _ _ _ _ _ fun _ => (false, true)) (.nil _)))))), ?_⟩
  · rfl
  · intro i j _; simp [lakeFirst, lake, eq_comm]
  · rfl
  · intro i j _; simp [lakeSecond, lakeFirst, lake, eq_comm]
  · funext i
    simp [program, ssprk22, swapVectors, store, lakeVectors]

/-- Its error of conservation, as one step and as a run of one step. -/
example (s : Contractions (Fin 3)) (l : Fin 3 → Fin 3 → ℝ) : ∃ m' size, StepEffect Rounding.double ring 2 (program .ssprk_22) lakeVectors m' size ∧
    |total ring (m' .old) - total ring lake.U| ≤ ((1 + Rounding.double.u) ^ (1 + 18 + (2 + 2) * 2) - 1) * size ∧
    |total ring (m' .old) - total ring lake.U| ≤ 2 * (1 + 18 + (2 + 2) * 2 : ℕ) * Rounding.double.u * (0 + size) := by
  obtain ⟨m', size, h, _⟩ := lake_step_exists s l
  exact ⟨m', size, h, C125_shallow_water_step Rounding.double ring ring_wf ring_closed 2 2 (by intro i; simp [ring]) .ssprk_22 trivial h,
    C125_shallow_water_run_linear Rounding.double ring ring_wf ring_closed 2 2 (by intro i; simp [ring]) .ssprk_22 trivial 1
      (by norm_num [Rounding.double, Rounding.ieee]) (.succ (.zero _) h)⟩

/-- Runs of the shallow water equations on the ring, all degrees of freedom on one rank. -/
example (q : ShallowWater.StepParams) (Z : Fin 3 → ℝ) (lim) (par : Hyp.Params) (lo : ℕ → Leftover (Fin 3) (ShallowWater.State 1))
    (garbage : ℕ → Fin 3 → ShallowWater.State 1) (ctx : Ctx) (c c' : Conf (Fin 3 → ShallowWater.State 1) Unit) (pre)
    (h : run (hyperbolicModules (ShallowWater.description q Z lim) ring par 1000 (fun _ u => u) pre lo garbage fun _ _ _ _ _ _ => .crash)
      ctx 0 1 (program .ssprk_33).code c = .done c') :
    ∃ size, Effects Rounding.exact ring par.iterations (program .ssprk_33).code (componentOf depthOf c.mem) (componentOf depthOf c'.mem) size :=
  C125_shallow_water_exact q Z lim ring ring_wf ring_closed.lumped par 1000 pre lo garbage
    (fun st old i j hj => C11_viscosity_symmetric_one_rank _ _ ring_wf st old i j
      (by fin_cases i <;> fin_cases j <;> simp_all [ring])) ctx 0 1 _ c c' h

end

end RoundedShallow
end Ryujin
