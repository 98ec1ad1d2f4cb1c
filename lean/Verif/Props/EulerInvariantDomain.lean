import Verif.Proofs.EulerFan
import Verif.Props.EulerRiemann
import Verif.Props.EulerLimiter
import Verif.Props.Bounds
import Verif.Props.StepEquations

/-!
# C65, C66 and C67 – the invariant domain of the Euler equations
-/

namespace Ryujin

open Hyp

variable {dim : ℕ} {ι : Type}

namespace Hyp

variable {P S F B : Type}

/-- The viscosity of a pair is at least `|c_ij|` times every lower bound of the wave speeds computed for the pair (in
both orientations). -/
theorem dOff_ge (D : Description ι P S F B dim) (M : Mesh ι dim) (hM : M.WellFormed) (stale : ι → ι → ℝ)
    (old : StateVector ι P S)
    (hskew : ∀ i, ∀ j ∈ M.nbrs i, ¬ (M.boundary i ∧ M.boundary j) → M.c j i = -M.c i j)
    {i j : ι} (hj : j ∈ M.nbrs i) {kappa : ℝ}
    (h1 : kappa ≤ D.riemann old.prec i j (old.U i) (old.U j) (fun k => M.c i j k / vnorm (M.c i j)))
    (h2 : M.c j i = -M.c i j →
      kappa ≤ D.riemann old.prec j i (old.U j) (old.U i) (-fun k => M.c i j k / vnorm (M.c i j))) :
    vnorm (M.c i j) * kappa ≤ dOff D M stale old i j := by
  classical
  have e1 : vnorm (M.c i j) * kappa ≤ viscosityEntry D M old i j := mul_le_mul_of_nonneg_left h1 (vnorm_nonneg _)
  by_cases hb : M.boundary i ∧ M.boundary j
  · unfold dOff
    split_ifs with h
    · rw [(dBoundary_upper D M hM stale old (hM.asymm i j h)).1 hb.symm]
      exact le_max_of_le_right e1
    · rw [(dBoundary_upper D M hM stale old h).1 hb]
      exact le_max_of_le_left e1
  · have hc := hskew i j hj hb
    have e2 : vnorm (M.c i j) * kappa ≤ viscosityEntry D M old j i := by
      have e3 : (fun k => M.c j i k / vnorm (M.c j i)) = -fun k => M.c i j k / vnorm (M.c i j) := by
        funext k
        rw [hc, vnorm_neg]
        simp [neg_div]
      unfold viscosityEntry
      simp only [e3]
      rw [hc, vnorm_neg]
      exact mul_le_mul_of_nonneg_left (h2 hc) (vnorm_nonneg _)
    unfold dOff
    split_ifs with h
    · rw [(dBoundary_upper D M hM stale old (hM.asymm i j h)).2 (fun hh => hb hh.symm)]
      exact e2
    · rw [(dBoundary_upper D M hM stale old h).2 hb]
      exact e1

theorem normSq_normal {c : Vec dim} (hc : c ≠ 0) : normSq (fun k => c k / vnorm c) = 1 := by
  have h0 : normSq c ≠ 0 := by
    intro h
    apply hc
    funext k
    have := (Finset.sum_eq_zero_iff_of_nonneg (fun k _ => mul_self_nonneg (c k))).1 h k (by simp)
    simpa using this
  have e : normSq (fun k => c k / vnorm c) = normSq c / vnorm c ^ 2 := by
    simp only [normSq]
    rw [Finset.sum_div]
    exact Finset.sum_congr rfl fun k _ => by ring
  rw [e, vnorm, Real.sq_sqrt (normSq_nonneg _), div_self h0]

theorem vnorm_pos {c : Vec dim} (hc : c ≠ 0) : 0 < vnorm c := by
  refine lt_of_le_of_ne (vnorm_nonneg c) fun h => ?_
  have := normSq_normal hc
  rw [← h] at this
  simp [normSq] at this

end Hyp

namespace Euler

/-- `x` is what one SIMD lane of the Riemann solver returns for the states `U`, `V` and the direction `n`, whatever the
other lanes hold. -/
def IsRiemannLane (p : Params) (rp : RiemannParams) (U V : State dim) (n : Vec dim) (x : ℝ) : Prop :=
  ∃ (L : ℕ) (Us Vs : Fin L → State dim) (ns : Fin L → Vec dim) (l : Fin L),
    Us l = U ∧ Vs l = V ∧ ns l = n ∧ x = riemann p rp Us Vs ns l

/-- Positive density and internal energy. -/
def Admissible (U : State dim) : Prop := 0 < density U ∧ 0 < internalEnergy U

/-! ### C65: positivity -/

/-- **C65 (bar states).** For every `γ > 1`, all admissible states, every number of Newton iterations of the Riemann
solver and every wave speed not below the computed one, the bar state is admissible. -/
theorem C65_euler_bar_admissible (p : Params) (hg : 1 < p.gamma) (rp : RiemannParams) (U V : State dim) (n : Vec dim)
    (hn : normSq n = 1) (hU : Admissible U) (hV : Admissible V) (x : ℝ) (hx : IsRiemannLane p rp U V n x)
    (lam : ℝ) (hl : 0 < lam) (h : x ≤ lam) : Admissible (barOf p U V n lam) := by
  obtain ⟨L, Us, Vs, ns, l, rfl, rfl, rfl, rfl⟩ := hx
  have := C09_euler_characteristic p hg rp Us Vs ns l hn hU.1 hU.2 hV.1 hV.2
  exact bar_positive p hg _ _ hn hU.1 hU.2 hV.1 hV.2 hl (this.2.1.trans h) (this.2.2.trans h)

theorem admissible_convex : Convex ℝ {V : State dim | Admissible V} := by
  intro x hx y hy α β hα hβ hαβ
  refine ⟨?_, ?_⟩
  · rw [density_add, density_smul, density_smul]
    rcases hα.eq_or_lt with h | h
    · rw [← h, zero_mul, zero_add]
      exact mul_pos (by linarith) hy.1
    · exact add_pos_of_pos_of_nonneg (mul_pos h hx.1) (mul_nonneg hβ hy.1.le)
  · refine lt_of_lt_of_le ?_ (internalEnergy_concave x y hx.1 hy.1 hα hβ hαβ)
    rcases hα.eq_or_lt with h | h
    · rw [← h, zero_mul, zero_add]
      exact mul_pos (by linarith) hy.2
    · exact add_pos_of_pos_of_nonneg (mul_pos h hx.2) (mul_nonneg hβ hy.2.le)

/-- The bar state of the step is the bar state of the Riemann problem for the wave speed `max(d_ij, 100 min()) / |c_ij|`. -/
theorem step_bar (p : Params) (lp : LimiterParams) (big : ℝ) (riem) (ind) (lim)
    (M : Mesh ι dim) (X : Stage4 ι Unit (State dim)) {tiny : ℝ} (ht : 0 < tiny) (i j : ι) :
    (M.c i j = 0 → Hyp.barState (description p lp big riem ind lim) M X contractLin tiny i j =
      (1 / 2 : ℝ) • X.old.U i + (1 / 2 : ℝ) • X.old.U j) ∧
    (M.c i j ≠ 0 → Hyp.barState (description p lp big riem ind lim) M X contractLin tiny i j =
      barOf p (X.old.U i) (X.old.U j) (fun k => M.c i j k / vnorm (M.c i j))
        (max (X.d i j) (100 * tiny) / vnorm (M.c i j))) := by
  have hD : 0 < max (X.d i j) (100 * tiny) := lt_max_of_lt_right (by linarith)
  have hs : (limiterEntry (description p lp big riem ind lim) M X tiny i j).scaled_c =
      fun k => M.c i j k / max (X.d i j) (100 * tiny) := rfl
  have hf : ∀ i, fluxAt (description p lp big riem ind lim) X i = f p (X.old.U i) := fun _ => rfl
  unfold Hyp.barState
  rw [hs, hf, hf]
  constructor
  · intro h
    rw [h]
    have e : (fun k => (0 : Vec dim) k / max (X.d i j) (100 * tiny)) = 0 := by funext k; simp
    rw [e, map_zero, map_zero, sub_self, smul_zero, sub_zero, smul_add]
  · intro h
    have hc := vnorm_pos h
    have e : (fun k => M.c i j k / max (X.d i j) (100 * tiny)) =
        (vnorm (M.c i j) / max (X.d i j) (100 * tiny)) • fun k => M.c i j k / vnorm (M.c i j) := by
      funext k
      simp only [Pi.smul_apply, smul_eq_mul]
      field_simp
    rw [e, map_smul, map_smul, ← smul_sub (vnorm (M.c i j) / max (X.d i j) (100 * tiny)), smul_smul]
    unfold barOf
    congr 2
    field_simp

/-- The hypotheses on mesh and parameters of a step under which the bar states are resolved. -/
structure StepHyp (p : Params) (rp : RiemannParams) (D : Description ι Unit (State dim) (Fin (dim + 2) → Vec dim) Bounds dim)
    (riem : ι → ι → State dim → State dim → Vec dim → ℝ) (M : Mesh ι dim) (par : Hyp.Params)
    (stale : ι → ι → ℝ) (old : StateVector ι Unit (State dim)) : Prop where
  /-- the wave speeds are those of the Riemann solver -/
  riemann : ∀ i j U V n, IsRiemannLane p rp U V n (riem i j U V n)
  wf : M.WellFormed
  skew : ∀ i, ∀ j ∈ M.nbrs i, ¬ (M.boundary i ∧ M.boundary j) → M.c j i = -M.c i j
  mass : ∀ i, 0 < M.lumped i
  rowSum : ∀ i, M.c i i + ((M.nbrs i).map (M.c i)).sum = 0
  tiny : 0 < par.tiny
  cfl : par.cfl ≤ 1
  /-- no viscosity is lost to the regularisation -/
  resolved : ∀ i, ∀ j ∈ M.nbrs i, 100 * par.tiny ≤ dOff D M stale old i j ∨
    (M.c i j = 0 ∧ dOff D M stale old i j = 0)
  admissible : ∀ i, Admissible (old.U i)

variable {p : Params} {lp : LimiterParams} {big : ℝ} {rp : RiemannParams}
  {riem : ι → ι → State dim → State dim → Vec dim → ℝ}
  {ind : State dim → List (State dim × Vec dim) → ℝ → ℝ} {lim : ι → ι → Bounds → State dim → State dim → ℝ × Prop}
  {M : Mesh ι dim} {par : Hyp.Params} {lo : Leftover ι (State dim)} {old : StateVector ι Unit (State dim)}

theorem StepHyp.pos (h : StepHyp p rp (description p lp big riem ind lim) riem M par lo.dij old) (i j U V n) :
    0 ≤ (description p lp big riem ind lim).riemann old.prec i j U V n := by
  obtain ⟨L, Us, Vs, ns, l, -, -, -, e⟩ := h.riemann i j U V n
  show 0 ≤ riem i j U V n
  rw [e]; exact C09_euler_nonneg p rp Us Vs ns l

theorem stage4_d [Fintype ι] (h : StepHyp p rp (description p lp big riem ind lim) riem M par lo.dij old) (stages) (tau : ℝ)
    {i j : ι} (hj : j ∈ M.nbrs i) :
    (stage4 (description p lp big riem ind lim) M par lo old stages tau).d i j =
      dOff (description p lp big riem ind lim) M lo.dij old i j := by
  classical
  have hne : i ≠ j := fun e => h.wf.irrefl i (e ▸ hj)
  simp only [stage4, hne, if_false]

/-- The viscosity of a pair over `|c_ij|` dominates the characteristic speeds. -/
theorem StepHyp.speed (hg : 1 < p.gamma) (h : StepHyp p rp (description p lp big riem ind lim) riem M par lo.dij old)
    {i j : ι} (hj : j ∈ M.nbrs i) (hc : M.c i j ≠ 0) {kappa : ℝ}
    (hk : kappa = -(velocityAlong (old.U i) (fun k => M.c i j k / vnorm (M.c i j)) - speedOfSound p (old.U i)) ∨
      kappa = velocityAlong (old.U j) (fun k => M.c i j k / vnorm (M.c i j)) + speedOfSound p (old.U j)) :
    vnorm (M.c i j) * kappa ≤ dOff (description p lp big riem ind lim) M lo.dij old i j := by
  have hn := normSq_normal hc
  set n := fun k => M.c i j k / vnorm (M.c i j) with hnn
  refine dOff_ge _ M h.wf lo.dij old h.skew hj ?_ fun _ => ?_
  · obtain ⟨L, Us, Vs, ns, l, a, b, c, e⟩ := h.riemann i j (old.U i) (old.U j) n
    have := C09_euler_characteristic p hg rp Us Vs ns l (by rw [c]; exact hn) (by rw [a]; exact (h.admissible i).1)
      (by rw [a]; exact (h.admissible i).2) (by rw [b]; exact (h.admissible j).1) (by rw [b]; exact (h.admissible j).2)
    rw [← e, a, b, c] at this
    show kappa ≤ riem i j (old.U i) (old.U j) n
    rcases hk with rfl | rfl
    · exact this.2.1
    · exact this.2.2
  · obtain ⟨L, Us, Vs, ns, l, a, b, c, e⟩ := h.riemann j i (old.U j) (old.U i) (-n)
    have := C09_euler_characteristic p hg rp Us Vs ns l (by rw [c, normSq_neg]; exact hn)
      (by rw [a]; exact (h.admissible j).1)
      (by rw [a]; exact (h.admissible j).2) (by rw [b]; exact (h.admissible i).1) (by rw [b]; exact (h.admissible i).2)
    rw [← e, a, b, c] at this
    have v := fun U : State dim => velocityAlong_neg U n
    unfold velocityAlong at v
    rw [v, v] at this
    show kappa ≤ riem j i (old.U j) (old.U i) (-n)
    unfold velocityAlong at hk
    rcases hk with rfl | rfl
    · linarith [this.2.2]
    · linarith [this.2.1]

/-- All bar states of the step are admissible. -/
theorem StepHyp.bar_admissible [Fintype ι] (hg : 1 < p.gamma)
    (h : StepHyp p rp (description p lp big riem ind lim) riem M par lo.dij old)
    (stages) (tau : ℝ) (i j : ι) (hj : j ∈ i :: M.nbrs i) :
    Admissible (Hyp.barState (description p lp big riem ind lim) M
      (stage4 (description p lp big riem ind lim) M par lo old stages tau) contractLin par.tiny i j) := by
  set X := stage4 (description p lp big riem ind lim) M par lo old stages tau with hX
  have hav : ∀ i j, Admissible ((1 / 2 : ℝ) • old.U i + (1 / 2 : ℝ) • old.U j) := fun i j =>
    admissible_convex (h.admissible i) (h.admissible j) (by norm_num) (by norm_num) (by norm_num)
  rcases List.mem_cons.1 hj with rfl | hj
  · have e : Hyp.barState (description p lp big riem ind lim) M X contractLin par.tiny j j =
        (1 / 2 : ℝ) • old.U j + (1 / 2 : ℝ) • old.U j := by
      unfold Hyp.barState
      rw [sub_self, smul_zero, sub_zero, smul_add]
      rfl
    rw [e]; exact hav j j
  by_cases hc : M.c i j = 0
  · rw [(step_bar p lp big riem ind lim M X h.tiny i j).1 hc]
    exact hav i j
  · rw [(step_bar p lp big riem ind lim M X h.tiny i j).2 hc]
    have hv := vnorm_pos hc
    have hD : 0 < max (X.d i j) (100 * par.tiny) := lt_max_of_lt_right (by linarith [h.tiny])
    have hle : ∀ kappa, vnorm (M.c i j) * kappa ≤ dOff (description p lp big riem ind lim) M lo.dij old i j →
        kappa ≤ max (X.d i j) (100 * par.tiny) / vnorm (M.c i j) := by
      intro kappa hk
      rw [le_div_iff₀ hv, mul_comm]
      refine hk.trans ?_
      rw [hX, stage4_d h stages tau hj]
      exact le_max_left _ _
    exact bar_positive p hg _ _ (normSq_normal hc) (h.admissible i).1 (h.admissible i).2 (h.admissible j).1
      (h.admissible j).2 (div_pos hD hv) (hle _ (h.speed hg hj hc (Or.inl rfl))) (hle _ (h.speed hg hj hc (Or.inr rfl)))

theorem StepHyp.isResolved [Fintype ι] (h : StepHyp p rp (description p lp big riem ind lim) riem M par lo.dij old)
    (stages) (tau : ℝ) (i : ι) : ∀ j ∈ M.nbrs i, Hyp.Resolved (description p lp big riem ind lim) M
      (stage4 (description p lp big riem ind lim) M par lo old stages tau) contractLin par.tiny i j := by
  intro j hj
  unfold Hyp.Resolved
  rw [stage4_d h stages tau hj]
  rcases h.resolved i j hj with h1 | ⟨h1, h2⟩
  · exact Or.inl h1
  · exact Or.inr ⟨h2, by rw [h1, map_zero, map_zero]⟩

/-- **C65 (low-order update).** If all old states are admissible and the time-step size is at most the maximal one
(`cfl ≤ 1`), the low-order update of every row is admissible, for all `γ > 1`. -/
theorem C65_euler_low_order_admissible [Fintype ι] (hg : 1 < p.gamma)
    (h : StepHyp p rp (description p lp big riem ind lim) riem M par lo.dij old)
    (stages : List (ℝ × StateVector ι Unit (State dim))) (tau tau_max : ℝ) (htau0 : 0 ≤ tau)
    (htau : tau ≤ tauMax (description p lp big riem ind lim) M par lo.dij old tau_max) (i : ι) (hi : M.nbrs i ≠ []) :
    Admissible (lowOrder (description p lp big riem ind lim) M
      (stage4 (description p lp big riem ind lim) M par lo old stages tau) i) := by
  have := C14_low_order_convex (description p lp big riem ind lim) M h.wf contractLin
    (Euler.centralFlux p lp big riem ind lim) par lo old stages tau tau_max h.pos h.tiny h.cfl htau0 htau i hi (h.mass i)
    (h.rowSum i) (h.isResolved stages tau i) {V | Admissible V} admissible_convex (h.admissible i)
    (fun j hj => h.bar_admissible hg stages tau i j (by simp [hj]))
  exact this

/-- The columns handed to the limiter in row `i`. -/
noncomputable def stepColumn (D : Description ι Unit (State dim) (Fin (dim + 2) → Vec dim) Bounds dim) (p : Params)
    (M : Mesh ι dim) (X : Stage4 ι Unit (State dim)) (tiny : ℝ) (i j : ι) : Column dim :=
  ⟨X.old.U j, specificEntropy p (X.old.U j), (limiterEntry D M X tiny i j).scaled_c,
    (limiterEntry D M X tiny i j).affine_shift⟩

theorem step_bounds4 (M : Mesh ι dim) (X : Stage4 ι Unit (State dim)) (tiny : ℝ) (i : ι) :
    boundsStep4 (description p lp big riem ind lim) M X tiny i =
      (accumulateRow p big (X.old.U i)
        ((M.columns i).map (stepColumn (description p lp big riem ind lim) p M X tiny i))).relaxedBounds dim p lp
        (M.lumped i * (1 / M.omega)) := by
  unfold boundsStep4 accumulateRow
  rw [List.foldl_map]
  show LimiterState.relaxedBounds _ _ _ (((M.columns i).map (limiterEntry (description p lp big riem ind lim) M X tiny
    i)).foldl (fun st e => st.accumulate p (X.old.U i) e.U_j (specificEntropy p e.U_j) e.scaled_c e.affine_shift)
      (LimiterState.reset big)) _ = _
  rw [List.foldl_map]
  rfl

theorem affineShift_zero (M : Mesh ι dim) (X : Stage4 ι Unit (State dim)) (i : ι) :
    affineShiftAt (description p lp big riem ind lim) M X i = 0 := by
  have : (M.columns i).map (fun j => (description p lp big riem ind lim).affineShift
      (fluxAt (description p lp big riem ind lim) X i) (fluxAt (description p lp big riem ind lim) X j) (M.c i j) (X.d i j))
        = (M.columns i).map fun _ => (0 : State dim) := rfl
  rw [affineShiftAt, this, show sourceAt (description p lp big riem ind lim) X i = 0 from rfl]
  simp

theorem density_contract (U : State dim) (c : Vec dim) : density (contract (f p U) c) = dot (momentum U) c := by
  rw [contract_f, density_mkState]

/-- The bar densities the limiter accumulates are those of the bar states. -/
theorem step_barDensity (M : Mesh ι dim) (X : Stage4 ι Unit (State dim)) (tiny : ℝ) (i j : ι) :
    barDensity (X.old.U i) (stepColumn (description p lp big riem ind lim) p M X tiny i j) =
      density (Hyp.barState (description p lp big riem ind lim) M X contractLin tiny i j) := by
  have h1 : (limiterEntry (description p lp big riem ind lim) M X tiny i j).affine_shift = 0 := affineShift_zero M X i
  have hf : ∀ i, fluxAt (description p lp big riem ind lim) X i = f p (X.old.U i) := fun _ => rfl
  have hsub : ∀ a b : State dim, density (a - b) = density a - density b := fun a b => rfl
  unfold barDensity Hyp.barState stepColumn
  rw [h1, hf, hf]
  set c := (limiterEntry (description p lp big riem ind lim) M X tiny i j).scaled_c
  rw [hsub, density_smul, density_smul, density_add, hsub]
  show _ = 1 / 2 * (density (X.old.U i) + density (X.old.U j)) -
    1 / 2 * (density (contract (f p (X.old.U j)) c) - density (contract (f p (X.old.U i)) c))
  rw [density_contract, density_contract]
  have h0 : density (0 : State dim) = 0 := rfl
  have hs : ∑ d, (momentum (X.old.U i) d - momentum (X.old.U j) d) * c d = dot (momentum (X.old.U i)) c - dot (momentum (X.old.U j)) c := by
    simp only [dot, ← Finset.sum_sub_distrib]
    exact Finset.sum_congr rfl fun k _ => by ring
  rw [h0, hs]
  ring

/-- Properties of the bounds after step 4. -/
theorem StepHyp.bounds4 [Fintype ι] (hg : 1 < p.gamma)
    (h : StepHyp p rp (description p lp big riem ind lim) riem M par lo.dij old) (heps : 0 ≤ p.eps)
    (hf : 0 ≤ lp.relaxation_factor) (hbig : 0 < big) (stages) (tau : ℝ) (i : ι)
    (hr : relaxationRadius dim lp.relaxation_factor (M.lumped i * (1 / M.omega)) < 1) :
    let X := stage4 (description p lp big riem ind lim) M par lo old stages tau
    let b := boundsStep4 (description p lp big riem ind lim) M X par.tiny i
    ∃ sig, 0 < sig ∧ (∀ j ∈ i :: M.nbrs i, sig ≤ specificEntropy p (old.U j)) ∧ b.s_min ≤ sig ∧
      (1 - relaxationRadius dim lp.relaxation_factor (M.lumped i * (1 / M.omega))) * sig ≤ b.s_min ∧
      (∀ s, s ≤ big → (∀ j ∈ i :: M.nbrs i, s ≤ specificEntropy p (old.U j)) → s ≤ sig) ∧
      0 < b.rho_min ∧
      ∀ j ∈ i :: M.nbrs i, b.rho_min ≤ density (Hyp.barState (description p lp big riem ind lim) M X contractLin par.tiny i j) ∧
        density (Hyp.barState (description p lp big riem ind lim) M X contractLin par.tiny i j) ≤ b.rho_max := by
  intro X b
  have hXo : X.old = old := rfl
  set row := (M.columns i).map (stepColumn (description p lp big riem ind lim) p M X par.tiny i) with hrow
  have hb : b = (accumulateRow p big (old.U i) row).relaxedBounds dim p lp (M.lumped i * (1 / M.omega)) :=
    step_bounds4 M X par.tiny i
  have hbd : ∀ j, barDensity (old.U i) (stepColumn (description p lp big riem ind lim) p M X par.tiny i j) =
      density (Hyp.barState (description p lp big riem ind lim) M X contractLin par.tiny i j) :=
    fun j => step_barDensity M X par.tiny i j
  have hent : ∀ j, 0 < specificEntropy p (old.U j) := by
    intro j
    unfold specificEntropy
    exact mul_pos (h.admissible j).2 (Real.rpow_pos_of_pos (one_div_pos.2 (h.admissible j).1) _)
  obtain ⟨e1, e2, e3, e4⟩ := C07_euler_accumulate_exact p big (old.U i) row
  have hbar0 : ∀ e ∈ row, 0 < barDensity (old.U i) e := by
    intro e he
    obtain ⟨j, hj, rfl⟩ := List.mem_map.1 he
    rw [hbd]
    exact (h.bar_admissible hg stages tau i j hj).1
  have hs0 : ∀ e ∈ row, 0 < e.s_j := by
    intro e he
    obtain ⟨j, hj, rfl⟩ := List.mem_map.1 he
    exact hent j
  obtain ⟨r1, r2, r3, -⟩ := C06_euler_bounds p lp big (M.lumped i * (1 / M.omega)) (old.U i) row heps hf hbig.le
    ⟨_, List.mem_map_of_mem (show i ∈ M.columns i from List.mem_cons_self), rfl, rfl⟩
    (fun e he => (hbar0 e he).le) (fun e he => (hs0 e he).le)
  set st := (accumulateRow p big (old.U i) row).bounds with hst
  have hrho : 0 < st.rho_min := by
    rcases e2 with e2 | ⟨e, he, e2⟩
    · rw [e2]; exact hbig
    · rw [e2]; exact hbar0 e he
  have hsig : 0 < st.s_min := by
    rcases e4 with e4 | ⟨e, he, e4⟩
    · rw [e4]; exact hbig
    · rw [e4]; exact hs0 e he
  refine ⟨st.s_min, hsig, ?_, ?_, ?_, ?_, ?_, ?_⟩
  · intro j hj
    exact (e1 _ (List.mem_map_of_mem hj)).2.2
  · rw [hb]; exact r3
  · rw [hb]; exact le_max_left _ _
  · intro s hs hall
    rcases e4 with e4 | ⟨e, he, e4⟩
    · rw [e4]; exact hs
    · rw [e4]
      obtain ⟨j, hj, rfl⟩ := List.mem_map.1 he
      exact hall j hj
  · rw [hb]
    exact lt_of_lt_of_le (mul_pos (by linarith) hrho) (le_max_left _ _)
  · intro j hj
    have := e1 _ (List.mem_map_of_mem hj)
    rw [hbd] at this
    rw [hb]
    exact ⟨r1.trans this.1, this.2.1.trans r2⟩

/-- **C65 (density after a complete step).** For every `γ > 1`, every `eps ≥ 0` and every number of Newton iterations of
Riemann solver and limiter: a completed step from admissible states leaves the density of every row positive and within
the bounds of the limiter. -/
theorem C65_euler_step_density [Fintype ι] (hg : 1 < p.gamma)
    (h : StepHyp p rp (description p lp big riem ind lim) riem M par lo.dij old) (heps : 0 ≤ p.eps)
    (hlim : ∀ i j b U P, IsLaneOf (fun _ => limit p lp) b U P (lim i j b U P))
    (hf : 0 ≤ lp.relaxation_factor) (hbig : 0 < big) (hn : par.iterations ≤ 2)
    (hr : ∀ i, relaxationRadius dim lp.relaxation_factor (M.lumped i * (1 / M.omega)) < 1)
    (strategy : Strategy) (cnt : Counters) (stages : List (ℝ × StateVector ι Unit (State dim))) (tau tau_max : ℝ)
    (htau0 : 0 ≤ tau) (htau : tau ≤ tauMax (description p lp big riem ind lim) M par lo.dij old tau_max)
    (U : ι → State dim) (t : ℝ)
    (hstep : (step (description p lp big riem ind lim) M par strategy cnt lo old stages tau tau_max).1 = .done U t)
    (i : ι) (hi : M.nbrs i ≠ []) :
    0 < density (U i) ∧
    let b := finalBounds (description p lp big riem ind lim) M par lo
      (stage4 (description p lp big riem ind lim) M par lo old stages t) i
    b.rho_min ≤ density (U i) ∧ density (U i) ≤ b.rho_max := by
  classical
  set D := description p lp big riem ind lim with hD
  obtain ⟨htm, htt, hU⟩ := step_done hstep
  have ht0' : 0 ≤ t := by rw [htt]; split_ifs; exacts [htm.le, htau0]
  have ht1' : t ≤ tauMax D M par lo.dij old tau_max := by rw [htt]; split_ifs; exacts [le_rfl, htau]
  set X := stage4 D M par lo old stages t with hX
  set b4 := boundsStep4 D M X par.tiny with hb4
  set bf := finalBounds D M par lo X with hbf
  have h4 := fun i => h.bounds4 hg heps hf hbig stages t i (hr i)
  have hwide : ∀ i, (bf i).rho_min ≤ (b4 i).rho_min ∧ (b4 i).rho_max ≤ (bf i).rho_max := by
    refine boundsStep5_induct D M lo.order b4 (fun i x => x.rho_min ≤ (b4 i).rho_min ∧ (b4 i).rho_max ≤ x.rho_max)
      (fun i => ⟨le_rfl, le_rfl⟩) ?_
    intro i x j y _ hx _
    exact ⟨(min_le_left _ _).trans hx.1, hx.2.trans (le_max_left _ _)⟩
  have hpos : ∀ i, 0 < (bf i).rho_min := by
    refine boundsStep5_induct D M lo.order b4 (fun i x => 0 < x.rho_min) (fun i => ?_) ?_
    · obtain ⟨_, _, _, _, _, _, a, _⟩ := h4 i
      exact a
    · intro i x j y _ hx hy
      exact lt_min hx hy
  have hbarIn : ∀ i, ∀ j ∈ i :: M.nbrs i, (bf i).rho_min ≤ density (Hyp.barState D M X contractLin par.tiny i j) ∧
      density (Hyp.barState D M X contractLin par.tiny i j) ≤ (bf i).rho_max := by
    intro i j hj
    obtain ⟨_, _, _, _, _, _, _, a⟩ := h4 i
    exact ⟨(hwide i).1.trans (a j hj).1, (a j hj).2.trans (hwide i).2⟩
  have hself : ∀ i, Hyp.barState D M X contractLin par.tiny i i = old.U i := by
    intro i
    unfold Hyp.barState
    rw [sub_self, smul_zero, sub_zero, ← two_smul ℝ, smul_smul]
    norm_num
    rfl
  let C : ι → Set (State dim) := fun i => {V | (bf i).rho_min ≤ density V ∧ density V ≤ (bf i).rho_max}
  have hconv : ∀ i, Convex ℝ (C i) := by
    intro i x hx y hy α β hα hβ hαβ
    have e : ∀ z : ℝ, z = α * z + β * z := fun z => by rw [← add_mul, hαβ, one_mul]
    show _ ≤ density (α • x + β • y) ∧ density (α • x + β • y) ≤ _
    rw [density_add, density_smul, density_smul]
    constructor
    · linarith [mul_le_mul_of_nonneg_left hx.1 hα, mul_le_mul_of_nonneg_left hy.1 hβ, e (bf i).rho_min]
    · linarith [mul_le_mul_of_nonneg_left hx.2 hα, mul_le_mul_of_nonneg_left hy.2 hβ, e (bf i).rho_max]
  have hlow : ∀ i, M.nbrs i ≠ [] → lowOrder D M X i ∈ C i := by
    intro i hi
    refine C14_low_order_convex D M h.wf contractLin (Euler.centralFlux p lp big riem ind lim) par lo old stages t tau_max
      h.pos h.tiny h.cfl ht0' ht1' i hi (h.mass i) (h.rowSum i) (h.isResolved stages t i) (C i) (hconv i) ?_ ?_
    · have := hbarIn i i (by simp)
      rw [hself] at this
      exact this
    · intro j hj
      exact hbarIn i j (by simp [hj])
  have hfin := C15_limited_update D M h.wf par lo X hn C hconv hlow ?_ i hi
  · rw [← hU] at hfin
    exact ⟨(hpos i).trans_le hfin.1, hfin⟩
  · intro i j hj V hV Q
    obtain ⟨L, bs, Us, Ps, l, e1, e2, e3, e4⟩ := hlim i j (bf i) V Q
    have hr := C02_euler_limit_range p lp bs Us Ps (fun _ => 0) (fun _ => 1) l zero_le_one
    have hval : D.limit i j (bf i) V Q = lim i j (bf i) V Q := rfl
    rw [hval, e4]
    refine ⟨hr.1, hr.2, fun s hs0 hs => ?_⟩
    have := C03_euler_limit_density p lp bs Us Ps (fun _ => 0) (fun _ => 1) l zero_le_one heps
      (by rw [e1]; linarith [hV.1, hV.2, hpos i]) (by rw [e1, e2]; exact hV) (by rw [e1, e2, zero_smul, add_zero]; exact hV) s hs0 hs
    rw [e1, e2, e3] at this
    exact this

/-! ### C66: minimum principle of the bar states -/

/-- **C66 (bar states).** For every `γ > 1` and all admissible states: if the wave speed is at least as large as those of
the exact solution of the Riemann problem (with or without vacuum), the specific entropy of the bar state is at least the
smaller one of the two states. -/
theorem C66_euler_bar_entropy (p : Params) (hg : 1 < p.gamma) (U V : State dim) (n : Vec dim) (hn : normSq n = 1)
    (hU : Admissible U) (hV : Admissible V) (lam : ℝ) (hl : 0 < lam) (h : Dominates p U V n lam) :
    min (specificEntropy p U) (specificEntropy p V) ≤ specificEntropy p (barOf p U V n lam) := by
  obtain ⟨ps, h1, h2, h3⟩ := h
  have hent : ∀ W : State dim, Admissible W → 0 ≤ specificEntropy p W := fun W hW => by
    unfold specificEntropy
    exact mul_nonneg hW.2.le (Real.rpow_nonneg (one_div_nonneg.2 hW.1.le) _)
  refine bar_entropy p hg U V hn hU.1 hU.2 hV.1 hV.2 (ps := ps) ?_ ?_ hl h2 h3 (le_min (hent U hU) (hent V hV))
    (min_le_left _ _) (min_le_right _ _)
  · rcases h1 with h1 | h1
    · exact h1.1.le
    · exact h1.1.ge
  · rcases h1 with h1 | ⟨h1, h4⟩
    · exact Or.inl h1.2
    · exact Or.inr ⟨h1, by rw [h1]; exact h4⟩

/-- **C66 (exact solutions exist).** The Riemann problem between two admissible states has an exact solution, with a star
region or with a vacuum; so the previous theorem is not vacuous. -/
theorem C66_euler_exact_solution_exists (p : Params) (hg : 1 < p.gamma) (U V : State dim) (n : Vec dim)
    (hU : Admissible U) (hV : Admissible V) :
    (∃ ps, IsFanPressure p U V n ps) ∧ ∃ lam, 0 < lam ∧ Dominates p U V n lam := by
  obtain ⟨ps, hps⟩ := exists_fanPressure p hg U V n hU.1 hU.2 hV.2
  refine ⟨⟨ps, hps⟩, max 1 (max (-leftSpeed p U n ps) (rightSpeed p V n ps)), lt_max_of_lt_left one_pos, ps, hps, ?_, ?_⟩
  · exact le_max_of_le_right (le_max_left _ _)
  · exact le_max_of_le_right (le_max_right _ _)

/-- **C66 (the computed wave speed).** The wave speed computed by the Riemann solver dominates those of the exact solution
if this consists of two rarefactions (with or without vacuum), for all `γ > 1`; and for `1 < γ ≤ 5/3` (exact arithmetic)
unless the solution consists of one shock and one rarefaction with a star pressure above the failsafe pressure.  What is
missing is this last case (see `C64_euler_wave_speed_mixed_violation`) and `γ > 5/3`. -/
theorem C66_euler_dominates_partial (p : Params) (hg : 1 < p.gamma) (rp : RiemannParams)
    (U V : State dim) (n : Vec dim) (hn : normSq n = 1) (hU : Admissible U) (hV : Admissible V) (x : ℝ)
    (hx : IsRiemannLane p rp U V n x) (ps : ℝ) (hps : IsFanPressure p U V n ps)
    (hcase : (ps ≤ pressure p U ∧ ps ≤ pressure p V) ∨
        (p.gamma ≤ 5 / 3 ∧ rp.eps = 0 ∧ ((pressure p U ≤ ps ∧ pressure p V ≤ ps) ∨
          ps ≤ pStarFailsafe p.gamma (riemannDataFromState p U n) (riemannDataFromState p V n)))) :
    Dominates p U V n x := by
  obtain ⟨L, Us, Vs, ns, l, rfl, rfl, rfl, rfl⟩ := hx
  refine ⟨ps, hps, ?_⟩
  have hchar : ps ≤ pressure p (Us l) → ps ≤ pressure p (Vs l) →
      -leftSpeed p (Us l) (ns l) ps ≤ riemann p rp Us Vs ns l ∧ rightSpeed p (Vs l) (ns l) ps ≤ riemann p rp Us Vs ns l := by
    intro h1 h2
    have h := C09_euler_characteristic p hg rp Us Vs ns l hn hU.1 hU.2 hV.1 hV.2
    unfold leftSpeed rightSpeed Spec.gasLeftSpeed Spec.gasRightSpeed Spec.gasSpeedFactor
    rw [if_pos h1, if_pos h2, mul_one, mul_one, gasSound_eq, gasSound_eq]
    exact h.2
  rcases hcase with ⟨h1, h2⟩ | ⟨hg2, heps, hcase⟩
  · exact hchar h1 h2
  · rcases hps with hps | ⟨h0, _⟩
    · rcases hcase with h1 | h1
      · exact C64_euler_wave_speed_partial p hg hg2 rp heps Us Vs ns l hn hU.1 hU.2 hV.1 hV.2 ps hps (Or.inl h1)
      · rcases le_total (min (pressure p (Us l)) (pressure p (Vs l))) ps with h2 | h2
        · exact (C64_euler_wave_speed_mixed_partial p hg rp Us Vs ns l hn hU.1 hU.2 hV.1 hV.2 ps hps).2.2 hg2 heps h2 h1
        · exact hchar (h2.trans (min_le_left _ _)) (h2.trans (min_le_right _ _))
    · have hpp : ∀ W : State dim, Admissible W → ps ≤ pressure p W := fun W hW => by
        rw [h0]; exact (mul_pos (by linarith) hW.2).le
      exact hchar (hpp _ hU) (hpp _ hV)

/-! ### C67: the complete step -/

/-- The viscosity of a pair dominates the computed wave speed of the pair in one of its two orientations. -/
theorem StepHyp.dominates (h : StepHyp p rp (description p lp big riem ind lim) riem M par lo.dij old)
    (hdom : ∀ i, ∀ j ∈ M.nbrs i, M.c i j ≠ 0 → Dominates p (old.U i) (old.U j) (fun k => M.c i j k / vnorm (M.c i j))
      (riem i j (old.U i) (old.U j) (fun k => M.c i j k / vnorm (M.c i j))))
    {i j : ι} (hj : j ∈ M.nbrs i) (hc : M.c i j ≠ 0) :
    Dominates p (old.U i) (old.U j) (fun k => M.c i j k / vnorm (M.c i j))
      (dOff (description p lp big riem ind lim) M lo.dij old i j / vnorm (M.c i j)) := by
  have hv := vnorm_pos hc
  set n := fun k => M.c i j k / vnorm (M.c i j) with hn
  have a := hdom i j hj hc
  rcases le_total (riem i j (old.U i) (old.U j) n) (riem j i (old.U j) (old.U i) (-n)) with hle | hle
  · refine a.mono ?_
    rw [le_div_iff₀ hv, mul_comm]
    exact dOff_ge (description p lp big riem ind lim) M h.wf lo.dij old h.skew hj le_rfl fun _ => hle
  · by_cases hsk : M.c j i = -M.c i j
    · have hc' : M.c j i ≠ 0 := by rw [hsk]; simpa using hc
      have hn' : (fun k => M.c j i k / vnorm (M.c j i)) = -n := by
        funext k
        rw [hsk, vnorm_neg]
        simp [hn, neg_div]
      have b := hdom j i (h.wf.symm i j hj) hc'
      rw [hn'] at b
      have b' := b.swap
      rw [neg_neg] at b'
      refine b'.mono ?_
      rw [le_div_iff₀ hv, mul_comm]
      exact dOff_ge (description p lp big riem ind lim) M h.wf lo.dij old h.skew hj hle fun _ => le_rfl
    · refine a.mono ?_
      rw [le_div_iff₀ hv, mul_comm]
      exact dOff_ge (description p lp big riem ind lim) M h.wf lo.dij old h.skew hj le_rfl fun e => absurd e hsk

/-- The entropy of every bar state of the step is at least every common lower bound of the entropies of the two states. -/
theorem StepHyp.bar_entropy [Fintype ι] (hg : 1 < p.gamma)
    (h : StepHyp p rp (description p lp big riem ind lim) riem M par lo.dij old)
    (hdom : ∀ i, ∀ j ∈ M.nbrs i, M.c i j ≠ 0 → Dominates p (old.U i) (old.U j) (fun k => M.c i j k / vnorm (M.c i j))
      (riem i j (old.U i) (old.U j) (fun k => M.c i j k / vnorm (M.c i j))))
    (stages) (tau : ℝ) {i j : ι} (hj : j ∈ M.nbrs i) {sig : ℝ} (hs : 0 ≤ sig) (hsi : sig ≤ specificEntropy p (old.U i))
    (hsj : sig ≤ specificEntropy p (old.U j)) :
    sig ≤ specificEntropy p (Hyp.barState (description p lp big riem ind lim) M
      (stage4 (description p lp big riem ind lim) M par lo old stages tau) contractLin par.tiny i j) := by
  set X := stage4 (description p lp big riem ind lim) M par lo old stages tau with hX
  by_cases hc : M.c i j = 0
  · rw [(step_bar p lp big riem ind lim M X h.tiny i j).1 hc]
    have hadm : Admissible ((1 / 2 : ℝ) • old.U i + (1 / 2 : ℝ) • old.U j) :=
      admissible_convex (h.admissible i) (h.admissible j) (by norm_num) (by norm_num) (by norm_num)
    refine (entropy_iff p sig _ hadm.1).2 ?_
    exact entropySet_convex hg.le hs (old.U i) (old.U j) (h.admissible i).1 (h.admissible j).1 (by norm_num) (by norm_num)
      (by norm_num) ((entropy_iff p sig _ (h.admissible i).1).1 hsi) ((entropy_iff p sig _ (h.admissible j).1).1 hsj)
  · rw [(step_bar p lp big riem ind lim M X h.tiny i j).2 hc]
    have hv := vnorm_pos hc
    have hD : 0 < max (X.d i j) (100 * par.tiny) := lt_max_of_lt_right (by linarith [h.tiny])
    have hd := (h.dominates hdom hj hc).mono (mu := max (X.d i j) (100 * par.tiny) / vnorm (M.c i j)) (by
      rw [hX, stage4_d h stages tau hj]
      exact div_le_div_of_nonneg_right (le_max_left _ _) hv.le)
    exact (le_min hsi hsj).trans (C66_euler_bar_entropy p hg _ _ _ (normSq_normal hc) (h.admissible i) (h.admissible j) _
      (div_pos hD hv) hd)

/-- **C67 (complete step).** A completed step from admissible states yields admissible states, and the specific entropy
of row `i` is at least `(1 - r) s` for every lower bound `s` of the old entropies – in the stencil of `i` for a continuous
ansatz, everywhere for a discontinuous one.  `r` bounds the relaxation radii; with relaxation switched off `r = 0`.
Exact arithmetic (`eps = 0` in the limiter); every number of Newton iterations.  The assumption `hdom` on the wave speeds
is C64; `C66_euler_dominates_partial` says when it is met by the Riemann solver. -/
theorem C67_euler_step_invariant_domain_partial [Fintype ι] (hg : 1 < p.gamma)
    (h : StepHyp p rp (description p lp big riem ind lim) riem M par lo.dij old) (heps : p.eps = 0)
    (hlim : ∀ i j b U P, IsLaneOf (fun _ => limit p lp) b U P (lim i j b U P))
    (hf : 0 ≤ lp.relaxation_factor) (hbig : 0 < big) (hn : par.iterations ≤ 2) (r : ℝ) (hr1 : r < 1)
    (hr : ∀ i, relaxationRadius dim lp.relaxation_factor (M.lumped i * (1 / M.omega)) ≤ r)
    (hdom : ∀ i, ∀ j ∈ M.nbrs i, M.c i j ≠ 0 → Dominates p (old.U i) (old.U j) (fun k => M.c i j k / vnorm (M.c i j))
      (riem i j (old.U i) (old.U j) (fun k => M.c i j k / vnorm (M.c i j))))
    (strategy : Strategy) (cnt : Counters) (stages : List (ℝ × StateVector ι Unit (State dim))) (tau tau_max : ℝ)
    (htau0 : 0 ≤ tau) (htau : tau ≤ tauMax (description p lp big riem ind lim) M par lo.dij old tau_max)
    (U : ι → State dim) (t : ℝ)
    (hstep : (step (description p lp big riem ind lim) M par strategy cnt lo old stages tau tau_max).1 = .done U t)
    (i : ι) (hi : M.nbrs i ≠ []) :
    Admissible (U i) ∧
    ∀ s, s ≤ big → ((M.dG = false ∧ ∀ j ∈ i :: M.nbrs i, s ≤ specificEntropy p (old.U j)) ∨
      ∀ j, s ≤ specificEntropy p (old.U j)) → (1 - r) * s ≤ specificEntropy p (U i) := by
  classical
  set D := description p lp big riem ind lim with hD
  obtain ⟨htm, htt, hU⟩ := step_done hstep
  have ht0' : 0 ≤ t := by rw [htt]; split_ifs; exacts [htm.le, htau0]
  have ht1' : t ≤ tauMax D M par lo.dij old tau_max := by rw [htt]; split_ifs; exacts [le_rfl, htau]
  set X := stage4 D M par lo old stages t with hX
  set b4 := boundsStep4 D M X par.tiny with hb4
  set bf := finalBounds D M par lo X with hbf
  have h4 := fun i => h.bounds4 hg heps.ge hf hbig stages t i ((hr i).trans_lt hr1)
  have hwide : ∀ i, (bf i).rho_min ≤ (b4 i).rho_min ∧ (b4 i).rho_max ≤ (bf i).rho_max ∧ (bf i).s_min ≤ (b4 i).s_min := by
    refine boundsStep5_induct D M lo.order b4 (fun i x => x.rho_min ≤ (b4 i).rho_min ∧ (b4 i).rho_max ≤ x.rho_max ∧
      x.s_min ≤ (b4 i).s_min) (fun i => ⟨le_rfl, le_rfl, le_rfl⟩) ?_
    intro i x j y _ hx _
    exact ⟨(min_le_left _ _).trans hx.1, hx.2.1.trans (le_max_left _ _), (min_le_left _ _).trans hx.2.2⟩
  have hpos : ∀ i, 0 < (bf i).rho_min ∧ 0 < (bf i).s_min := by
    refine boundsStep5_induct D M lo.order b4 (fun i x => 0 < x.rho_min ∧ 0 < x.s_min) (fun i => ?_) ?_
    · obtain ⟨sig, a1, _, _, a4, _, a6, _⟩ := h4 i
      refine ⟨a6, lt_of_lt_of_le (mul_pos ?_ a1) a4⟩
      linarith [hr i]
    · intro i x j y _ hx hy
      exact ⟨lt_min hx.1 hy.1, lt_min hx.2 hy.2⟩
  have hself : ∀ i, Hyp.barState D M X contractLin par.tiny i i = old.U i := by
    intro i
    unfold Hyp.barState
    rw [sub_self, smul_zero, sub_zero, ← two_smul ℝ, smul_smul]
    norm_num
    rfl
  let C : ι → Set (State dim) := fun i => {V | ((bf i).rho_min ≤ density V ∧ density V ≤ (bf i).rho_max) ∧
    (bf i).s_min ≤ specificEntropy p V}
  have hbarIn : ∀ i, ∀ j ∈ i :: M.nbrs i, Hyp.barState D M X contractLin par.tiny i j ∈ C i := by
    intro i j hj
    obtain ⟨sig, a1, a2, a3, _, _, _, a⟩ := h4 i
    refine ⟨⟨(hwide i).1.trans (a j hj).1, (a j hj).2.trans (hwide i).2.1⟩, ((hwide i).2.2.trans a3).trans ?_⟩
    rcases List.mem_cons.1 hj with rfl | hj'
    · rw [hself]; exact a2 _ hj
    · exact h.bar_entropy hg hdom stages t hj' a1.le (a2 i (by simp)) (a2 j hj)
  have hconv : ∀ i, Convex ℝ (C i) := by
    intro i x hx y hy α β hα hβ hαβ
    have e : ∀ z : ℝ, z = α * z + β * z := fun z => by rw [← add_mul, hαβ, one_mul]
    have px := (hpos i).1.trans_le hx.1.1
    have py := (hpos i).1.trans_le hy.1.1
    have hd : (bf i).rho_min ≤ density (α • x + β • y) ∧ density (α • x + β • y) ≤ (bf i).rho_max := by
      rw [density_add, density_smul, density_smul]
      constructor
      · linarith [mul_le_mul_of_nonneg_left hx.1.1 hα, mul_le_mul_of_nonneg_left hy.1.1 hβ, e (bf i).rho_min]
      · linarith [mul_le_mul_of_nonneg_left hx.1.2 hα, mul_le_mul_of_nonneg_left hy.1.2 hβ, e (bf i).rho_max]
    refine ⟨hd, (entropy_iff p _ _ ((hpos i).1.trans_le hd.1)).2 ?_⟩
    exact entropySet_convex hg.le (hpos i).2.le x y px py hα hβ hαβ ((entropy_iff p _ _ px).1 hx.2)
      ((entropy_iff p _ _ py).1 hy.2)
  have hlow : ∀ i, M.nbrs i ≠ [] → lowOrder D M X i ∈ C i := by
    intro i hi
    refine C14_low_order_convex D M h.wf contractLin (Euler.centralFlux p lp big riem ind lim) par lo old stages t tau_max
      h.pos h.tiny h.cfl ht0' ht1' i hi (h.mass i) (h.rowSum i) (h.isResolved stages t i) (C i) (hconv i) ?_ ?_
    · have := hbarIn i i (by simp)
      rw [hself] at this
      exact this
    · intro j hj
      exact hbarIn i j (by simp [hj])
  have hfin := C15_limited_update D M h.wf par lo X hn C hconv hlow ?_ i hi
  · rw [← hU] at hfin
    have hdU : 0 < density (U i) := (hpos i).1.trans_le hfin.1.1
    refine ⟨⟨hdU, ?_⟩, ?_⟩
    · have := (entropy_iff p _ _ hdU).1 hfin.2
      exact lt_of_lt_of_le (mul_pos (hpos i).2 (Real.rpow_pos_of_pos hdU _)) this
    · intro s hsb hs
      refine le_trans ?_ hfin.2
      have hall : ∀ k, (∀ j ∈ k :: M.nbrs k, s ≤ specificEntropy p (old.U j)) → (1 - r) * s ≤ (b4 k).s_min := by
        intro k hk
        obtain ⟨sig, a1, a2, a3, a4, a5, _⟩ := h4 k
        refine le_trans ?_ a4
        have h1 := a5 s hsb hk
        have h2 : (1 - r) * s ≤ (1 - r) * sig := mul_le_mul_of_nonneg_left h1 (by linarith)
        have h3 : (1 - r) * sig ≤
            (1 - relaxationRadius dim lp.relaxation_factor (M.lumped k * (1 / M.omega))) * sig :=
          mul_le_mul_of_nonneg_right (by linarith [hr k]) a1.le
        exact h2.trans h3
      rcases hs with ⟨hcg, hs⟩ | hs
      · have : bf = b4 := by
          show boundsStep5 D M lo.order b4 = b4
          simp [boundsStep5, hcg]
        rw [this]
        exact hall i hs
      · exact boundsStep5_induct D M lo.order b4 (fun _ x => (1 - r) * s ≤ x.s_min)
          (fun k => hall k fun j _ => hs j) (fun _ x _ y _ hx hy => le_min hx hy) i
  · intro i j hj V hV Q
    obtain ⟨L, bs, Us, Ps, l, e1, e2, e3, e4⟩ := hlim i j (bf i) V Q
    have hr := C02_euler_limit_range p lp bs Us Ps (fun _ => 0) (fun _ => 1) l zero_le_one
    have hval : D.limit i j (bf i) V Q = lim i j (bf i) V Q := rfl
    rw [hval, e4]
    refine ⟨hr.1, hr.2, fun s hs0 hs => ?_⟩
    have a := C03_euler_limit_density p lp bs Us Ps (fun _ => 0) (fun _ => 1) l zero_le_one heps.ge
      (by rw [e1]; linarith [hV.1.1, hV.1.2, (hpos i).1]) (by rw [e1, e2]; exact hV.1)
      (by rw [e1, e2, zero_smul, add_zero]; exact hV.1) s hs0 hs
    have b := C53_euler_limit_entropy_partial p lp bs Us Ps (fun _ => 1) l zero_le_one heps hg.le
      (by rw [e1]; exact (hpos i).1) (by rw [e1]; exact (hpos i).2.le) (by rw [e1, e2]; exact hV.1)
      (by rw [e1, e2]; exact hV.2) s hs0 hs
    rw [e1, e2, e3] at a b
    exact ⟨a, b⟩

/-! ### C13 with the Riemann solver of the code -/

/-- **C13 (Euler, the complete step).** With the Riemann solver of the code (no Newton iterations, the default; then the
lanes do not influence each other) a step from admissible states on a mesh without boundary conserves density, momentum
and total energy, for every indicator and limiter, every partition of the mesh and every row schedule.  With Newton
iterations the number of iterations depends on the other lanes of the SIMD group; then this is `C13_euler_step_conserves`
with the symmetry of the speeds as an assumption. -/
theorem C13_euler_solver_conserves [Fintype ι] (p : Params) (hg : 1 < p.gamma) (rp : RiemannParams)
    (h0 : rp.newton_max_iterations = 0) (lp : LimiterParams) (big : ℝ)
    (riem : ι → ι → State dim → State dim → Vec dim → ℝ) (hriem : ∀ i j U V n, IsRiemannLane p rp U V n (riem i j U V n))
    (ind : State dim → List (State dim × Vec dim) → ℝ → ℝ) (lim : ι → ι → Bounds → State dim → State dim → ℝ × Prop)
    (M : Mesh ι dim) (hM : M.WellFormed) (hC : M.Closed) (hact : ∀ i, M.nbrs i ≠ [])
    (par : Hyp.Params) (strategy : Strategy) (cnt : Counters) (lo : Leftover ι (State dim))
    (old : StateVector ι Unit (State dim)) (hold : ∀ i, Admissible (old.U i))
    (stages : List (ℝ × StateVector ι Unit (State dim))) (tau tau_max : ℝ) (U : ι → State dim) (t : ℝ)
    (h : (step (description p lp big riem ind lim) M par strategy cnt lo old stages tau tau_max).1 = .done U t) :
    ∑ i, M.lumped i * density (U i) = ∑ i, M.lumped i * density (old.U i) ∧
    (∀ d, ∑ i, M.lumped i * momentum (U i) d = ∑ i, M.lumped i * momentum (old.U i) d) ∧
    ∑ i, M.lumped i * totalEnergy (U i) = ∑ i, M.lumped i * totalEnergy (old.U i) := by
  have hone : ∀ {U V : State dim} {n : Vec dim} {x : ℝ}, IsRiemannLane p rp U V n x →
      x = riemann p rp (fun _ : Fin 1 => U) (fun _ => V) (fun _ => n) 0 := by
    intro U V n x hx
    obtain ⟨L, Us, Vs, ns, l, rfl, rfl, rfl, rfl⟩ := hx
    unfold riemann compute
    rw [if_pos h0, if_pos h0]
  have key := C13_euler_step_conserves p lp big riem ind lim M hM hC hact par strategy cnt lo old stages tau tau_max
    (fun i j hj hc => by
      rw [hone (hriem i j _ _ _), hone (hriem j i _ _ _)]
      exact (congrFun (C10_euler_swap p hg rp (fun _ : Fin 1 => old.U i) (fun _ => old.U j) _
        (fun _ => normSq_normal hc) (fun _ => hold i) (fun _ => hold j)) 0).symm) U t h
  exact ⟨key 0, fun d => key _, key (Fin.last _)⟩

/-! ### A gas on the ring -/

/-- Densities on the ring. -/
noncomputable def ringRho : Fin 3 → ℝ := ![1, 2, 4]

/-- A gas at rest with constant pressure and discontinuous density. -/
noncomputable def ringGas : StateVector (Fin 3) Unit (State 1) := ⟨fun i => gasState air (ringRho i) 0 1, ()⟩

noncomputable def ringRp : RiemannParams := ⟨0, 0, 0⟩

noncomputable def ringLp : LimiterParams := ⟨2, 0, 0⟩

/-- The Riemann solver, called with one lane. -/
noncomputable def ringRiem : Fin 3 → Fin 3 → State 1 → State 1 → Vec 1 → ℝ := fun _ _ U V n =>
  riemann air ringRp (fun _ : Fin 1 => U) (fun _ => V) (fun _ => n) 0

/-- The limiter, called with one lane. -/
noncomputable def ringLim : Fin 3 → Fin 3 → Bounds → State 1 → State 1 → ℝ × Prop := fun _ _ b U P =>
  ((limit air ringLp (fun _ : Fin 1 => b) (fun _ => U) (fun _ => P) (fun _ => 0) (fun _ => 1)).1 0,
    (limit air ringLp (fun _ : Fin 1 => b) (fun _ => U) (fun _ => P) (fun _ => 0) (fun _ => 1)).2)

noncomputable def ringDescription : Description (Fin 3) Unit (State 1) (Fin 3 → Vec 1) Bounds 1 :=
  description air ringLp 1000 ringRiem (fun U row hd => indicator air 1 U row hd) ringLim

noncomputable def ringLo : Leftover (Fin 3) (State 1) := ⟨fun _ _ => -7, fun _ _ => 5, fun _ => 0, [2, 0, 1]⟩

theorem ringRho_pos (i : Fin 3) : 0 < ringRho i ∧ ringRho i ≤ 4 := by
  fin_cases i <;> norm_num [ringRho]

theorem ringGas_admissible (i : Fin 3) : Admissible (ringGas.U i) := by
  refine ⟨by simpa [ringGas] using (ringRho_pos i).1, ?_⟩
  show 0 < internalEnergy (gasState air (ringRho i) 0 1)
  rw [gasState_internalEnergy air (ringRho_pos i).1.ne']
  norm_num [air]

theorem ringGas_velocity (i : Fin 3) (n : Vec 1) : velocityAlong (ringGas.U i) n = 0 := by
  simp [velocityAlong, ringGas, gasState, dot]

theorem ringGas_pressure (i : Fin 3) : pressure air (ringGas.U i) = 1 :=
  gasState_pressure air (by norm_num [air]) (ringRho_pos i).1.ne'

theorem ringGas_star (i j : Fin 3) (n : Vec 1) : IsStarPressure air (ringGas.U i) (ringGas.U j) n 1 := by
  have h : ∀ rho : ℝ, Spec.gasWave air.gamma rho 1 1 = 0 := fun rho => by simp [Spec.gasWave]
  unfold IsStarPressure
  rw [ringGas_velocity, ringGas_velocity, ringGas_pressure, ringGas_pressure]
  exact ⟨one_pos, by rw [h, h]; norm_num⟩

theorem ringGas_lane (i j : Fin 3) (U V : State 1) (n : Vec 1) : IsRiemannLane air ringRp U V n (ringRiem i j U V n) :=
  ⟨1, fun _ => U, fun _ => V, fun _ => n, 0, rfl, rfl, rfl, rfl⟩

theorem ringGas_speed (i j : Fin 3) (n : Vec 1) (hn : normSq n = 1) (a b : Fin 3) :
    1 / 2 ≤ ringRiem i j (ringGas.U a) (ringGas.U b) n := by
  have h := C09_euler_characteristic air (by norm_num [air]) ringRp (fun _ : Fin 1 => ringGas.U a) (fun _ => ringGas.U b)
    (fun _ => n) 0 hn (ringGas_admissible a).1 (ringGas_admissible a).2 (ringGas_admissible b).1 (ringGas_admissible b).2
  have hv := ringGas_velocity b n
  unfold velocityAlong at hv
  have h3 := h.2.2
  rw [hv, zero_add] at h3
  refine le_trans ?_ h3
  unfold speedOfSound
  rw [Real.le_sqrt' (by norm_num), ringGas_pressure]
  have hr := ringRho_pos b
  have hd : density (ringGas.U b) = ringRho b := by simp [ringGas]
  rw [hd]
  have : 1 / 4 ≤ 1 / ringRho b := one_div_le_one_div_of_le hr.1 hr.2
  have hg : air.gamma = 7 / 5 := rfl
  rw [hg]
  ring_nf at this ⊢
  nlinarith

theorem ringGas_stepHyp : StepHyp air ringRp ringDescription ringRiem ring demoPar ringLo.dij ringGas where
  riemann := fun i j U V n => ringGas_lane i j U V n
  wf := ring_wf
  skew := fun i j hj _ => ring_closed.skew i j hj
  mass := ring_closed.lumped
  rowSum := Scalar.ring_row_sum
  tiny := by norm_num [demoPar]
  cfl := by norm_num [demoPar]
  resolved := by
    intro i j hj
    left
    have hc : ring.c i j ≠ 0 := by
      intro h0
      have := ring_c i j hj
      rw [h0] at this
      simp [vnorm, normSq] at this
    have hn := normSq_normal hc
    have := dOff_ge ringDescription ring ring_wf ringLo.dij ringGas (fun i j hj _ => ring_closed.skew i j hj) hj
      (kappa := 1 / 2) (ringGas_speed i j _ hn i j) (fun _ => ringGas_speed j i _ (by rw [normSq_neg]; exact hn) j i)
    rw [ring_c i j hj] at this
    refine le_trans ?_ this
    norm_num [demoPar]
  admissible := ringGas_admissible

/-- All hypotheses of C13, C65 and C67 hold for a gas with a discontinuous density on the ring: the step is completed, the total energy is
the same, the new states are admissible, and their specific entropies are not below the smallest old one (that of the densest state). -/
example (stages : List (ℝ × StateVector (Fin 3) Unit (State 1))) : ∃ U t,
    (step ringDescription ring demoPar .warn ⟨0, 0⟩ ringLo ringGas stages 0 10).1 = .done U t ∧
      ∑ i : Fin 3, totalEnergy (U i) = ∑ i : Fin 3, totalEnergy (ringGas.U i) ∧
      ∀ i, Admissible (U i) ∧ specificEntropy air (ringGas.U 2) ≤ specificEntropy air (U i) := by
  have htau := (C11_step_tau ringDescription ring demoPar .warn ⟨0, 0⟩ ringLo ringGas stages 0 10
      (by norm_num [demoPar]) (by norm_num [demoPar]) ring_closed.lumped (by norm_num)).1
  obtain ⟨U, t, h⟩ := C18_warn_returns ringDescription ring demoPar ⟨0, 0⟩ ringLo ringGas stages 0 10 htau
  have hg : 1 < air.gamma := by norm_num [air]
  have hmono : ∀ j, specificEntropy air (ringGas.U 2) ≤ specificEntropy air (ringGas.U j) := by
    intro j
    have e : ∀ j, internalEnergy (ringGas.U j) = 5 / 2 := by
      intro j
      show internalEnergy (gasState air (ringRho j) 0 1) = _
      rw [gasState_internalEnergy air (ringRho_pos j).1.ne']
      norm_num [air]
    have hd : ∀ j, density (ringGas.U j) = ringRho j := fun j => by simp [ringGas]
    unfold specificEntropy
    rw [e, e, hd, hd]
    refine mul_le_mul_of_nonneg_left (Real.rpow_le_rpow ?_ ?_ (by linarith)) (by norm_num)
    · exact one_div_nonneg.2 (ringRho_pos 2).1.le
    · have h2 : ringRho 2 = 4 := rfl
      rw [h2]
      exact one_div_le_one_div_of_le (ringRho_pos j).1 (ringRho_pos j).2
  have hcons := (C13_euler_solver_conserves air hg ringRp rfl ringLp 1000 ringRiem ringGas_lane _ ringLim ring ring_wf
    ring_closed (fun i => by simp [ring]) demoPar .warn ⟨0, 0⟩ ringLo ringGas ringGas_admissible stages 0 10 U t h).2.2
  refine ⟨U, t, h, by simpa [ring] using hcons, fun i => ?_⟩
  have key := C67_euler_step_invariant_domain_partial hg ringGas_stepHyp rfl
    (fun i j b U P => ⟨1, fun _ => b, fun _ => U, fun _ => P, 0, rfl, rfl, rfl, rfl⟩) (le_refl (0 : ℝ)) (by norm_num)
    (by norm_num [demoPar]) 0 one_pos (fun i => by simp [relaxationRadius, ringLp])
    (fun i j hj hc => C66_euler_dominates_partial air hg ringRp _ _ _ (normSq_normal hc) (ringGas_admissible i)
      (ringGas_admissible j) _ (ringGas_lane i j _ _ _) 1 (Or.inl (ringGas_star i j _))
      (Or.inl ⟨(ringGas_pressure i).ge, (ringGas_pressure j).ge⟩))
    .warn ⟨0, 0⟩ stages 0 10 le_rfl htau.le U t h i (by simp [ring])
  refine ⟨key.1, ?_⟩
  have := key.2 (specificEntropy air (ringGas.U 2)) ?_ (Or.inr hmono)
  · simpa using this
  · have h2 : specificEntropy air (ringGas.U 2) ≤ specificEntropy air (ringGas.U 0) := hmono 0
    refine h2.trans ?_
    have : specificEntropy air (ringGas.U 0) = 5 / 2 := by
      unfold specificEntropy
      have e : internalEnergy (ringGas.U 0) = 5 / 2 := by
        show internalEnergy (gasState air (ringRho 0) 0 1) = _
        rw [gasState_internalEnergy air (ringRho_pos 0).1.ne']
        norm_num [air]
      have hd : density (ringGas.U 0) = 1 := by simp [ringGas, ringRho]
      rw [e, hd]; norm_num
    rw [this]; norm_num

end Euler

end Ryujin
