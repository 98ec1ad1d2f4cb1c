import Verif.Proofs.StepEquations

/-!
# C13, C14, C15, C16 for the equations of the code

The theorems of `Verif.Props.HyperbolicStep` hold for every description that satisfies their hypotheses; here they
are specialised to the scalar conservation equation, the Euler equations (both) and the shallow water equations.
-/

namespace Ryujin

open scoped BigOperators
open Hyp

variable {ι : Type} {dim : ℕ}

/-! ### C13: every component is conserved -/

/-- **C13 (Euler).** Density, every momentum component and total energy are conserved. -/
theorem C13_euler_step_conserves [Fintype ι] (p : Euler.Params) (lp : Ryujin.LimiterParams) (big : ℝ)
    (riem : ι → ι → Euler.State dim → Euler.State dim → Vec dim → ℝ)
    (ind : Euler.State dim → List (Euler.State dim × Vec dim) → ℝ → ℝ)
    (lim : ι → ι → Euler.Bounds → Euler.State dim → Euler.State dim → ℝ × Prop)
    (M : Mesh ι dim) (hM : M.WellFormed) (hC : M.Closed) (hact : ∀ i, M.nbrs i ≠ [])
    (par : Hyp.Params) (strategy : Strategy) (cnt : Counters) (lo : Leftover ι (Euler.State dim))
    (old : StateVector ι Unit (Euler.State dim)) (stages : List (ℝ × StateVector ι Unit (Euler.State dim)))
    (tau tau_max : ℝ)
    (hrev : ∀ i, ∀ j ∈ M.nbrs i, M.c i j ≠ 0 →
      riem i j (old.U i) (old.U j) (fun k => M.c i j k / vnorm (M.c i j)) =
        riem j i (old.U j) (old.U i) (-fun k => M.c i j k / vnorm (M.c i j)))
    (U : ι → Euler.State dim) (t : ℝ)
    (h : (step (Euler.description p lp big riem ind lim) M par strategy cnt lo old stages tau tau_max).1
      = .done U t) (k : Fin (dim + 2)) :
    ∑ i, M.lumped i * U i k = ∑ i, M.lumped i * old.U i k := by
  have := C13_step_conserves (Euler.description p lp big riem ind lim) M hM hC (LinearMap.proj k)
    ((Euler.centralFlux p lp big riem ind lim).conserves rfl _) par strategy cnt lo old stages tau tau_max
    hrev U t h
  simpa [hact] using this

/-- **C13 (Euler with arbitrary equation of state).** -/
theorem C13_aeos_step_conserves [Fintype ι] {B : Type}
    (riem : (ι → ℝ) → ι → ι → Euler.State dim → Euler.State dim → Vec dim → ℝ)
    (ind : (ι → ℝ) → ι → Euler.State dim → List (ι × Euler.State dim × Vec dim) → ℝ → ℝ)
    (bnds : (ι → ℝ) → ι → Euler.State dim → (Fin (dim + 2) → Vec dim) →
      List (LimiterEntry ι (Euler.State dim) (Fin (dim + 2) → Vec dim) dim) → ℝ → B)
    (comb : B → B → B) (lim : ι → ι → B → Euler.State dim → Euler.State dim → ℝ × Prop)
    (M : Mesh ι dim) (hM : M.WellFormed) (hC : M.Closed) (hact : ∀ i, M.nbrs i ≠ [])
    (par : Hyp.Params) (strategy : Strategy) (cnt : Counters) (lo : Leftover ι (Euler.State dim))
    (old : StateVector ι (ι → ℝ) (Euler.State dim))
    (stages : List (ℝ × StateVector ι (ι → ℝ) (Euler.State dim)))
    (tau tau_max : ℝ)
    (hrev : ∀ i, ∀ j ∈ M.nbrs i, M.c i j ≠ 0 →
      riem old.prec i j (old.U i) (old.U j) (fun k => M.c i j k / vnorm (M.c i j)) =
        riem old.prec j i (old.U j) (old.U i) (-fun k => M.c i j k / vnorm (M.c i j)))
    (U : ι → Euler.State dim) (t : ℝ)
    (h : (step (Aeos.description riem ind bnds comb lim) M par strategy cnt lo old stages tau tau_max).1
      = .done U t) (k : Fin (dim + 2)) :
    ∑ i, M.lumped i * U i k = ∑ i, M.lumped i * old.U i k := by
  have := C13_step_conserves (Aeos.description riem ind bnds comb lim) M hM hC (LinearMap.proj k)
    ((Aeos.centralFlux riem ind bnds comb lim).conserves rfl _) par strategy cnt lo old stages tau tau_max
    hrev U t h
  simpa [hact] using this

/-- **C13 (scalar).** Conservation for all fluxes; `hdraws`: no random Kružkov entropies (the default), or random
numbers that are consistent between the two rows of a pair. -/
theorem C13_scalar_step_conserves [Fintype ι] (fl : Scalar.Flux dim) (q : Scalar.StepParams)
    (draws : ι → ι → List ℝ) (hdraws : ∀ i j, draws j i = (draws i j).map (1 - ·))
    (lim : ι → ι → Scalar.Bounds → Scalar.State → Scalar.State → ℝ × Prop)
    (M : Mesh ι dim) (hM : M.WellFormed) (hC : M.Closed) (hact : ∀ i, M.nbrs i ≠ [])
    (par : Hyp.Params) (strategy : Strategy) (cnt : Counters) (lo : Leftover ι Scalar.State)
    (old : StateVector ι Unit Scalar.State) (stages : List (ℝ × StateVector ι Unit Scalar.State))
    (tau tau_max : ℝ) (U : ι → Scalar.State) (t : ℝ)
    (h : (step (Scalar.description fl q draws lim) M par strategy cnt lo old stages tau tau_max).1
      = .done U t) :
    ∑ i, M.lumped i * U i 0 = ∑ i, M.lumped i * old.U i 0 := by
  have := C13_step_conserves (Scalar.description fl q draws lim) M hM hC (LinearMap.proj 0)
    ((Scalar.centralFlux fl q draws lim).conserves rfl _) par strategy cnt lo old stages tau tau_max
    (fun i j _ _ => by
      have := Scalar.C10_scalar_swap fl q.rp (draws i j) (Scalar.state (old.U i)) (Scalar.state (old.U j))
        (fun k => M.c i j k / vnorm (M.c i j))
      rw [← hdraws i j] at this
      exact this.symm) U t h
  simpa [hact] using this

/-- The hypotheses hold for a step of Burgers' equation on the ring. -/
example (stages : List (ℝ × StateVector (Fin 3) Unit Scalar.State)) :
    ∃ U t, (step demo ring demoPar .warn ⟨0, 0⟩ demoLo demoOld stages 0 10).1 = .done U t ∧
      ∑ i : Fin 3, ring.lumped i * U i 0 = ∑ i : Fin 3, ring.lumped i * demoOld.U i 0 := by
  obtain ⟨U, t, h⟩ := demo_done stages
  exact ⟨U, t, h, C13_scalar_step_conserves _ _ _ (fun _ _ => rfl) _ ring ring_wf ring_closed
    (by intro i; simp [ring]) _ _ _ _ _ _ _ _ U t h⟩

/-- **C13 (shallow water).** The total water volume is conserved for every bathymetry, with friction. -/
theorem C13_sw_step_conserves_depth [Fintype ι] (q : ShallowWater.StepParams) (Z : ι → ℝ)
    (lim : ι → ι → ShallowWater.Bounds → ShallowWater.State dim → ShallowWater.State dim → ℝ × Prop)
    (M : Mesh ι dim) (hM : M.WellFormed) (hC : M.Closed) (hact : ∀ i, M.nbrs i ≠ [])
    (par : Hyp.Params) (strategy : Strategy) (cnt : Counters) (lo : Leftover ι (ShallowWater.State dim))
    (old : StateVector ι Unit (ShallowWater.State dim))
    (stages : List (ℝ × StateVector ι Unit (ShallowWater.State dim)))
    (tau tau_max : ℝ) (U : ι → ShallowWater.State dim) (t : ℝ)
    (h : (step (ShallowWater.description q Z lim) M par strategy cnt lo old stages tau tau_max).1
      = .done U t) :
    ∑ i, M.lumped i * ShallowWater.waterDepth (U i) = ∑ i, M.lumped i * ShallowWater.waterDepth (old.U i) := by
  have := C13_step_conserves (ShallowWater.description q Z lim) M hM hC (LinearMap.proj 0)
    (ShallowWater.conserves_depth q Z lim) par strategy cnt lo old stages tau tau_max
    (fun i j _ _ => ShallowWater.C10_sw_swap q.p _ _ _) U t h
  simpa [hact, ShallowWater.waterDepth] using this

/-! ### C13 is violated with random entropies on more than one rank -/

/-- The ring with one rank per degree of freedom: no index is below another one. -/
noncomputable def ringRanks : Mesh (Fin 3) 1 := { ring with below := fun _ _ => False }

theorem ringRanks_wf : ringRanks.WellFormed where
  nodup := ring_wf.nodup
  irrefl := ring_wf.irrefl
  symm := ring_wf.symm
  asymm := fun _ _ h => h.elim
  skip_below := fun _ _ h => h.elim

theorem ringRanks_closed : ringRanks.Closed where
  skew := ring_closed.skew
  diag := ring_closed.diag
  mass := ring_closed.mass
  massInv := ring_closed.massInv
  incidence := ring_closed.incidence
  lumped := ring_closed.lumped

/-- One random entropy per pair; the draws on the two ranks owning the pair `0, 1` differ. -/
noncomputable def badDraws : Fin 3 → Fin 3 → List ℝ := fun i j => if i = 1 ∧ j = 0 then [1] else [1 / 2]

/-- Burgers' equation with greedy wave speeds and one random entropy. -/
noncomputable def demoRandom : Description (Fin 3) Unit Scalar.State (Fin 1 → Vec 1) Scalar.Bounds 1 :=
  Scalar.description (Scalar.burgers 1 (1 / 1000)) ⟨⟨true, false⟩, 1, 0, 1 / 1000, 100, 0⟩ badDraws
    fun _ _ b U P => (Scalar.limitLane 0 (1 / 1000) b U P 0 1, Scalar.inBounds 0 b (Scalar.state U))

/-- The data `u = (-1, 1, 1)`. -/
noncomputable def demoRandomOld : StateVector (Fin 3) Unit Scalar.State :=
  ⟨fun i _ => if i = 0 then -1 else 1, ()⟩

theorem demoRandom_entry (i j : Fin 3) (hj : j ∈ ring.nbrs i) :
    viscosityEntry demoRandom ringRanks demoRandomOld i j
      = 1 / 2 * demoRandom.riemann () i j (demoRandomOld.U i) (demoRandomOld.U j) (fun k => ring.c i j k / (1 / 2)) := by
  have h := ring_c i j hj
  show vnorm (ring.c i j) * demoRandom.riemann () i j (demoRandomOld.U i) (demoRandomOld.U j)
    (fun k => ring.c i j k / vnorm (ring.c i j)) = _
  rw [h]

/-- **C13 is violated by the code** for the scalar equation with `random entropies > 0` on several ranks: the two
ranks owning a pair of degrees of freedom draw different random numbers, so `d_ij ≠ d_ji` and the total is not
conserved.  (Here: every degree of freedom on its own rank, no limiter pass.) -/
theorem C13_scalar_random_violation (tau : ℝ) (htau : 0 < tau) (lo : Leftover (Fin 3) Scalar.State) :
    ∃ U t, (step demoRandom ringRanks ⟨1 / 2, 1 / 1000, 0⟩ .warn ⟨0, 0⟩ lo demoRandomOld [] tau 10).1 = .done U t ∧
      ∑ i : Fin 3, ringRanks.lumped i * U i 0 ≠ ∑ i : Fin 3, ringRanks.lumped i * demoRandomOld.U i 0 := by
  classical
  have hpos := (C11_step_tau demoRandom ringRanks ⟨1 / 2, 1 / 1000, 0⟩ .warn ⟨0, 0⟩ lo demoRandomOld [] tau 10
    (by norm_num) (by norm_num) ringRanks_closed.lumped (by norm_num)).1
  set X := stage4 demoRandom ringRanks ⟨1 / 2, 1 / 1000, 0⟩ lo demoRandomOld [] tau with hX
  refine ⟨newStates demoRandom ringRanks ⟨1 / 2, 1 / 1000, 0⟩ lo X, tau, ?_, ?_⟩
  · unfold step
    simp only [hpos, not_true_eq_false, if_false, htau.ne']
    have : ¬ restartNeeded demoRandom ringRanks ⟨1 / 2, 1 / 1000, 0⟩ lo X := by simp [restartNeeded]
    rw [if_neg this]
  have hd : ∀ i j, i ≠ j → X.d i j = viscosityEntry demoRandom ringRanks demoRandomOld i j := by
    intro i j hij
    simp [hX, stage4, hij, dOff, dBoundary, dStep2, ringRanks, ring]
  have d01 : X.d 0 1 = 1 / 2 * (1000 / 2002) := by
    rw [hd 0 1 (by decide), demoRandom_entry 0 1 (by simp [ring])]
    simp [demoRandom, Scalar.description, Scalar.riemann, badDraws, Scalar.burgers, demoRandomOld, Scalar.state,
      dot, Scalar.fluxFunction, Scalar.fluxGradientFunction, ring, Scalar.enforceEntropy, Scalar.kruzkovEntropy,
      Scalar.kruzkovEntropyDerivative]
    norm_num
  have d10 : X.d 1 0 = 0 := by
    rw [hd 1 0 (by decide), demoRandom_entry 1 0 (by simp [ring])]
    simp [demoRandom, Scalar.description, Scalar.riemann, badDraws, Scalar.burgers, demoRandomOld, Scalar.state,
      dot, Scalar.fluxFunction, Scalar.fluxGradientFunction, ring, Scalar.enforceEntropy, Scalar.kruzkovEntropy,
      Scalar.kruzkovEntropyDerivative]
  have d02 : X.d 0 2 = X.d 2 0 := by
    rw [hd 0 2 (by decide), hd 2 0 (by decide), demoRandom_entry 0 2 (by simp [ring]), demoRandom_entry 2 0 (by simp [ring])]
    simp [demoRandom, Scalar.description, Scalar.riemann, badDraws, Scalar.burgers, demoRandomOld, Scalar.state,
      dot, Scalar.fluxFunction, Scalar.fluxGradientFunction, ring, Scalar.enforceEntropy, Scalar.kruzkovEntropy,
      Scalar.kruzkovEntropyDerivative]
    norm_num
  have hnew : ∀ i, newStates demoRandom ringRanks ⟨1 / 2, 1 / 1000, 0⟩ lo X i = lowOrder demoRandom ringRanks X i := by
    intro i
    have : ringRanks.active i := by simp [Mesh.active, ringRanks, ring]
    simp [newStates, limiterLoop, newLow, this]
  simp only [hnew]
  have hXo : X.old = demoRandomOld := rfl
  have hXt : X.tau = tau := rfl
  simp only [lowOrder, Mesh.columns, ringRanks, ring, fluxIJ, jump, sourceAt, fluxAt, hXo, hXt, demoRandom,
    Scalar.description, Scalar.fluxDivergence, Scalar.fluxContribution, contract, addFlux, dot,
    Scalar.fluxFunction, Scalar.burgers, Scalar.state, demoRandomOld, Fin.sum_univ_three, List.map_cons,
    List.map_nil, List.sum_cons, List.sum_nil, Pi.add_apply, Pi.smul_apply, Pi.neg_apply, Pi.sub_apply,
    Pi.zero_apply, smul_eq_mul, smul_zero]
  simp
  intro h
  rw [d01, d10, d02] at h
  linarith

/-! ### C16 -/

namespace Scalar

/-- A Roe-type estimate makes the bar states averages of the two states. -/
theorem bar_between {u v df d : ℝ} (h : |df| ≤ d * |v - u|) {x : ℝ} (hx : 0 < x) (hdx : d ≤ x) :
    min u v ≤ 1 / 2 * (u + v) - 1 / 2 * (df / x) ∧ 1 / 2 * (u + v) - 1 / 2 * (df / x) ≤ max u v := by
  have h1 : |df / x| ≤ |v - u| := by
    rw [abs_div, abs_of_pos hx, div_le_iff₀ hx]
    calc |df| ≤ d * |v - u| := h
      _ ≤ x * |v - u| := mul_le_mul_of_nonneg_right hdx (abs_nonneg _)
      _ = |v - u| * x := mul_comm _ _
  have h2 := abs_le.1 h1
  rcases le_total u v with h3 | h3
  · rw [abs_of_nonneg (by linarith)] at h2
    rw [min_eq_left h3, max_eq_right h3]
    exact ⟨by linarith [h2.2], by linarith [h2.1]⟩
  · rw [abs_of_nonpos (by linarith)] at h2
    rw [min_eq_right h3, max_eq_left h3]
    exact ⟨by linarith [h2.2], by linarith [h2.1]⟩

/-- The part of C16 and C90 that does not depend on the time-step size: if the low-order update respects the bounds of
the limiter whenever the bar states of the row do, the step does not leave the range of the old values. -/
theorem scalar_step_core [Fintype ι] (fl : Flux dim) (q : StepParams)
    (draws : ι → ι → List ℝ) (lim : ι → ι → Bounds → State → State → ℝ × Prop)
    (hlim : ∀ i j b U P, IsLaneOf (fun _ => limit q.eps q.tiny) b U P (lim i j b U P))
    (M : Mesh ι dim) (hM : M.WellFormed) (par : Hyp.Params)
    (lo : Leftover ι State) (old : StateVector ι Unit State) (stages : List (ℝ × StateVector ι Unit State))
    (hrelax : q.relaxation_factor = 0) (heps : 0 ≤ q.eps) (hqt : 0 < q.tiny) (ht : 0 < par.tiny)
    (hn : par.iterations ≤ 2)
    (hrev : ∀ i j, draws j i = (draws i j).map (1 - ·))
    (hskew : ∀ i, ∀ j ∈ M.nbrs i, ¬ (M.boundary i ∧ M.boundary j) → M.c j i = -M.c i j)
    (hroe : ∀ i j u v n, |(∑ k, fl.value u k * n k) - ∑ k, fl.value v k * n k|
      ≤ riemann fl q.rp (draws i j) u v n * |u - v|)
    (hbig : ∀ i, M.nbrs i ≠ [] → |state (old.U i)| ≤ q.big)
    (hsign : q.eps = 0 ∨ ∀ i, M.nbrs i ≠ [] → 0 ≤ state (old.U i)) (t : ℝ)
    (hlow : let D := description fl q draws lim
      let X := stage4 D M par lo old stages t
      ∀ i, M.nbrs i ≠ [] →
        (∀ j ∈ M.nbrs i, |dot (fluxFunction fl (state (old.U j))) (M.c i j)
            - dot (fluxFunction fl (state (old.U i))) (M.c i j)|
          ≤ dOff D M lo.dij old i j * |state (old.U j) - state (old.U i)|) →
        (∀ j ∈ i :: M.nbrs i, (finalBounds D M par lo X i).u_min ≤ Hyp.barState D M X contractLin par.tiny i j 0 ∧
          Hyp.barState D M X contractLin par.tiny i j 0 ≤ (finalBounds D M par lo X i).u_max) →
        Hyp.barState D M X contractLin par.tiny i i 0 = state (old.U i) →
        (finalBounds D M par lo X i).u_min ≤ state (lowOrder D M X i) ∧
          state (lowOrder D M X i) ≤ (finalBounds D M par lo X i).u_max)
    (i : ι) (hi : M.nbrs i ≠ []) (a b : ℝ)
    (hab : (M.dG = false ∧ ∀ j ∈ i :: M.nbrs i, a ≤ state (old.U j) ∧ state (old.U j) ≤ b) ∨
      ∀ j, M.nbrs j ≠ [] → a ≤ state (old.U j) ∧ state (old.U j) ≤ b) :
    let D := description fl q draws lim
    let X := stage4 D M par lo old stages t
    let U := newStates D M par lo X
    (∀ i, M.nbrs i ≠ [] → (finalBounds D M par lo X i).u_min ≤ state (lowOrder D M X i) ∧
      state (lowOrder D M X i) ≤ (finalBounds D M par lo X i).u_max) ∧ a ≤ state (U i) ∧ state (U i) ≤ b := by
  classical
  intro D X0 U
  have hrev' : ∀ i j U V n, D.riemann old.prec i j U V n = D.riemann old.prec j i V U (-n) := by
    intro i j U V n
    have := C10_scalar_swap fl q.rp (draws i j) (state U) (state V) n
    rw [← hrev i j] at this
    exact this.symm
  have hposR : ∀ i j U V n, 0 ≤ D.riemann old.prec i j U V n := fun i j U V n => C09_scalar_nonneg _ _ _ _ _ _
  set X := stage4 D M par lo old stages t with hX
  have hdX : ∀ i, ∀ j ∈ M.nbrs i, X.d i j = dOff D M lo.dij old i j := by
    intro i j hj
    have hne : i ≠ j := fun e => hM.irrefl i (e ▸ hj)
    simp only [hX, stage4, hne, if_false]
  have hf : ∀ i, fluxAt D X i = fun _ => fluxFunction fl (state (old.U i)) := fun i => rfl
  have hshift : ∀ i, affineShiftAt D M X i = 0 := by
    intro i
    have : (M.columns i).map (fun j => D.affineShift (fluxAt D X i) (fluxAt D X j) (M.c i j) (X.d i j))
        = (M.columns i).map fun _ => (0 : State) := rfl
    rw [affineShiftAt, this, show sourceAt D X i = 0 from rfl]
    simp
  -- flux differences are dominated by the viscosity
  have hflux : ∀ i, ∀ j ∈ M.nbrs i, |dot (fluxFunction fl (state (old.U j))) (M.c i j)
      - dot (fluxFunction fl (state (old.U i))) (M.c i j)|
      ≤ dOff D M lo.dij old i j * |state (old.U j) - state (old.U i)| := by
    intro i j hj
    have h1 := (C11_viscosity D M hM lo.dij old (fun i j _ _ => hrev' i j _ _ _) hskew i j hj).2
    have h2 := hroe i j (state (old.U i)) (state (old.U j)) (fun k => M.c i j k / vnorm (M.c i j))
    have h3 : ∀ u, ∑ k, fl.value u k * (M.c i j k / vnorm (M.c i j))
        = dot (fluxFunction fl u) (M.c i j) / vnorm (M.c i j) := fun u => dot_div _ _ _
    rw [h3, h3, ← sub_div, abs_div, abs_of_nonneg (vnorm_nonneg _)] at h2
    rcases (vnorm_nonneg (M.c i j)).eq_or_lt with h0 | h0
    · have hc0 : M.c i j = 0 := by
        have h4 : normSq (M.c i j) = 0 := by
          exact (Real.sqrt_eq_zero (normSq_nonneg _)).1 h0.symm
        funext k
        have := (Finset.sum_eq_zero_iff_of_nonneg (fun k _ => mul_self_nonneg (M.c i j k))).1 h4 k (by simp)
        simpa using this
      have : ∀ a : Vec dim, dot a (0 : Vec dim) = 0 := by intro a; simp [dot]
      rw [hc0, this, this, sub_zero, abs_zero]
      exact mul_nonneg (C11_viscosity_nonneg D M hM lo.dij old hposR i j) (abs_nonneg _)
    · rw [div_le_iff₀ h0] at h2
      rw [abs_sub_comm, abs_sub_comm (state (old.U j))]
      refine h2.trans ?_
      rw [mul_right_comm]
      refine mul_le_mul_of_nonneg_right ?_ (abs_nonneg _)
      rw [h1, mul_comm]
      exact le_max_left _ _
  -- the bar states
  have hbar0 : ∀ i j, Hyp.barState D M X contractLin par.tiny i j 0
      = 1 / 2 * (state (old.U i) + state (old.U j)) - 1 / 2 * ((dot (fluxFunction fl (state (old.U j))) (M.c i j)
        - dot (fluxFunction fl (state (old.U i))) (M.c i j)) / max (X.d i j) (100 * par.tiny)) := by
    intro i j
    show 1 / 2 * (state (old.U i) + state (old.U j)) - 1 / 2 * (dot (fluxFunction fl (state (old.U j)))
        (fun k => M.c i j k / max (X.d i j) (100 * par.tiny)) - dot (fluxFunction fl (state (old.U i)))
        (fun k => M.c i j k / max (X.d i j) (100 * par.tiny))) = _
    rw [dot_div, dot_div]; ring
  have hentry : ∀ i j, entryBar (old.U i) (fluxAt D X i) (limiterEntry D M X par.tiny i j)
      = Hyp.barState D M X contractLin par.tiny i j 0 := by
    intro i j
    rw [hbar0]
    have e1 : (limiterEntry D M X par.tiny i j).affine_shift = 0 := hshift i
    have e2 : (limiterEntry D M X par.tiny i j).U_j = old.U j := rfl
    have e3 : (limiterEntry D M X par.tiny i j).flux_j = fun _ => fluxFunction fl (state (old.U j)) := rfl
    have e4 : (limiterEntry D M X par.tiny i j).scaled_c
      = fun k => M.c i j k / max (X.d i j) (100 * par.tiny) := rfl
    rw [entryBar, e1, e2, e3, e4, hf]
    have e5 : contract (addFlux (fun _ : Fin 1 => fluxFunction fl (state (old.U j)))
        (-fun _ => fluxFunction fl (state (old.U i)))) (fun k => M.c i j k / max (X.d i j) (100 * par.tiny)) 0
        = (dot (fluxFunction fl (state (old.U j))) (M.c i j)
          - dot (fluxFunction fl (state (old.U i))) (M.c i j)) / max (X.d i j) (100 * par.tiny) := by
      rw [contract_addFlux, sub_div, ← dot_div, ← dot_div]
      simp [contract, dot, sub_eq_add_neg]
    simp only [barState, state, Pi.add_apply, Pi.sub_apply, Pi.smul_apply, smul_eq_mul, Pi.zero_apply, add_zero]
    simp only [state] at e5
    rw [e5]
  have hpt : 0 < 100 * par.tiny := by linarith
  have hbetween : ∀ i, ∀ j ∈ i :: M.nbrs i, min (state (old.U i)) (state (old.U j))
      ≤ Hyp.barState D M X contractLin par.tiny i j 0 ∧ Hyp.barState D M X contractLin par.tiny i j 0
      ≤ max (state (old.U i)) (state (old.U j)) := by
    intro i j hj
    rw [hbar0]
    rcases List.mem_cons.1 hj with rfl | hj
    · rw [sub_self, zero_div, min_self, max_self]
      constructor <;> linarith
    · refine bar_between (hflux i j hj) (lt_max_of_lt_right hpt) ?_
      rw [hdX i j hj]; exact le_max_left _ _
  have hself : ∀ i, Hyp.barState D M X contractLin par.tiny i i 0 = state (old.U i) := by
    intro i
    have := hbetween i i (by simp)
    rw [min_self, max_self] at this
    exact le_antisymm this.2 this.1
  -- bounds of step 4
  set b4 := boundsStep4 D M X par.tiny with hb4
  have hb4' : ∀ i, (∀ j ∈ i :: M.nbrs i, (b4 i).u_min ≤ Hyp.barState D M X contractLin par.tiny i j 0 ∧
        Hyp.barState D M X contractLin par.tiny i j 0 ≤ (b4 i).u_max) ∧
      (∀ m, m ≤ q.big → (∀ j ∈ i :: M.nbrs i, m ≤ Hyp.barState D M X contractLin par.tiny i j 0) → m ≤ (b4 i).u_min) ∧
      (∀ m, -q.big ≤ m → (∀ j ∈ i :: M.nbrs i, Hyp.barState D M X contractLin par.tiny i j 0 ≤ m) →
        (b4 i).u_max ≤ m) := by
    intro i
    have hfold := foldl_accumulate (old.U i) (fluxAt D X i) ((M.columns i).map (limiterEntry D M X par.tiny i))
      (LimiterState.reset q.big)
    have hb : b4 i = (((M.columns i).map (limiterEntry D M X par.tiny i)).foldl
        (fun st e => st.accumulate (old.U i) (fluxAt D X i) e.U_j e.flux_j e.scaled_c e.affine_shift)
        (LimiterState.reset q.big)).bounds := by
      show LimiterState.relaxedBounds dim q.eps q.relaxation_factor _ _ = _
      rw [hrelax]
      exact (C06_scalar_bounds dim q.eps 0 _ _ heps le_rfl).2.2
    rw [hb]
    obtain ⟨-, -, h3, h4, h5⟩ := hfold
    refine ⟨?_, ?_, ?_⟩
    · intro j hj
      have := h3 (limiterEntry D M X par.tiny i j) (List.mem_map_of_mem hj)
      rwa [hentry] at this
    · intro m hm hall
      refine h4 m hm fun e he => ?_
      obtain ⟨j, hj, rfl⟩ := List.mem_map.1 he
      rw [hentry]; exact hall j hj
    · intro m hm hall
      refine h5 m hm fun e he => ?_
      obtain ⟨j, hj, rfl⟩ := List.mem_map.1 he
      rw [hentry]; exact hall j hj
  -- final bounds
  set bf := finalBounds D M par lo X with hbf
  have hwide : ∀ i, (bf i).u_min ≤ (b4 i).u_min ∧ (b4 i).u_max ≤ (bf i).u_max := by
    refine boundsStep5_induct D M lo.order b4 (fun i x => x.u_min ≤ (b4 i).u_min ∧ (b4 i).u_max ≤ x.u_max)
      (fun i => ⟨le_rfl, le_rfl⟩) ?_
    intro i x j y _ hx _
    exact ⟨(min_le_left _ _).trans hx.1, hx.2.trans (le_max_left _ _)⟩
  have hab' : a ≤ (bf i).u_min ∧ (bf i).u_max ≤ b := by
    have key : ∀ k, M.nbrs k ≠ [] → (∀ j ∈ k :: M.nbrs k, a ≤ state (old.U j) ∧ state (old.U j) ≤ b) →
        a ≤ (b4 k).u_min ∧ (b4 k).u_max ≤ b := by
      intro k hk' hk
      have hk0 := hk k (by simp)
      have hbk := abs_le.1 (hbig k hk')
      refine ⟨(hb4' k).2.1 a (by linarith) fun j hj => ?_, (hb4' k).2.2 b (by linarith) fun j hj => ?_⟩
      · exact (le_min hk0.1 (hk j hj).1).trans (hbetween k j hj).1
      · exact (hbetween k j hj).2.trans (max_le hk0.2 (hk j hj).2)
    rcases hab with ⟨hcg, hab⟩ | hab
    · have : bf = b4 := by
        show boundsStep5 D M lo.order b4 = b4
        simp [boundsStep5, hcg]
      rw [this]; exact key i hi hab
    · refine boundsStep5_induct D M lo.order b4 (fun k x => M.nbrs k ≠ [] → a ≤ x.u_min ∧ x.u_max ≤ b)
        (fun k hk => key k hk fun j hj => ?_) (fun k x j y hj hx hy hk => ?_) i hi
      · rcases List.mem_cons.1 hj with rfl | hj
        · exact hab _ hk
        · exact hab j (List.ne_nil_of_mem (hM.symm k j hj))
      · have hy' := hy (List.ne_nil_of_mem (hM.symm k j hj))
        exact ⟨le_min (hx hk).1 hy'.1, max_le (hx hk).2 hy'.2⟩
  -- low-order update and limiting
  let C : ι → Set State := fun i => {V | (bf i).u_min ≤ state V ∧ state V ≤ (bf i).u_max}
  have hconv : ∀ i, Convex ℝ (C i) := by
    intro i x hx y hy α β hα hβ hαβ
    have e : ∀ z : ℝ, z = α * z + β * z := fun z => by rw [← add_mul, hαβ, one_mul]
    have h1 : (bf i).u_min ≤ α * state x + β * state y := by
      linarith [mul_le_mul_of_nonneg_left hx.1 hα, mul_le_mul_of_nonneg_left hy.1 hβ, e (bf i).u_min]
    have h2 : α * state x + β * state y ≤ (bf i).u_max := by
      linarith [mul_le_mul_of_nonneg_left hx.2 hα, mul_le_mul_of_nonneg_left hy.2 hβ, e (bf i).u_max]
    exact ⟨h1, h2⟩
  have hlow' : ∀ i, M.nbrs i ≠ [] → lowOrder D M X i ∈ C i := fun i hi =>
    hlow i hi (hflux i) (fun j hj =>
      ⟨(hwide i).1.trans ((hb4' i).1 j hj).1, ((hb4' i).1 j hj).2.trans (hwide i).2⟩) (hself i)
  have hfin := C15_limited_update D M hM par lo X hn C hconv hlow' ?_ i hi
  · exact ⟨hlow', hab'.1.trans hfin.1, hfin.2.trans hab'.2⟩
  · intro i j hj V hV Q
    have hl := lane_keeps_bounds heps hqt (hlim i j (bf i) V Q)
    refine ⟨hl.1, hl.2.1, hl.2.2 ?_ hV.1 hV.2⟩
    rcases hsign with h0 | h0
    · exact Or.inl h0
    · right
      have := ((hb4' i).1 i (by simp)).2
      rw [hself] at this
      exact (h0 i (List.ne_nil_of_mem hj)).trans (this.trans (hwide i).2)

/-- Within the CFL condition the low-order update of a row is a convex combination of its bar states, hence within the
bounds if they are. -/
theorem scalar_low_of_cfl [Fintype ι] (fl : Flux dim) (q : StepParams)
    (draws : ι → ι → List ℝ) (lim : ι → ι → Bounds → State → State → ℝ × Prop)
    (M : Mesh ι dim) (hM : M.WellFormed) (par : Hyp.Params)
    (lo : Leftover ι State) (old : StateVector ι Unit State) (stages : List (ℝ × StateVector ι Unit State))
    (tau_max : ℝ) (ht : 0 < par.tiny) (hcfl : par.cfl ≤ 1)
    (hm : ∀ i, 0 < M.lumped i) (hc : ∀ i, M.c i i + ((M.nbrs i).map (M.c i)).sum = 0)
    (hres : ∀ i, ∀ j ∈ M.nbrs i, dOff (description fl q draws lim) M lo.dij old i j = 0 ∨
      100 * par.tiny ≤ dOff (description fl q draws lim) M lo.dij old i j)
    (t : ℝ) (ht0' : 0 ≤ t) (ht1' : t ≤ tauMax (description fl q draws lim) M par lo.dij old tau_max) :
    let D := description fl q draws lim
    let X := stage4 D M par lo old stages t
    ∀ i, M.nbrs i ≠ [] →
      (∀ j ∈ M.nbrs i, |dot (fluxFunction fl (state (old.U j))) (M.c i j)
          - dot (fluxFunction fl (state (old.U i))) (M.c i j)|
        ≤ dOff D M lo.dij old i j * |state (old.U j) - state (old.U i)|) →
      (∀ j ∈ i :: M.nbrs i, (finalBounds D M par lo X i).u_min ≤ Hyp.barState D M X contractLin par.tiny i j 0 ∧
        Hyp.barState D M X contractLin par.tiny i j 0 ≤ (finalBounds D M par lo X i).u_max) →
      Hyp.barState D M X contractLin par.tiny i i 0 = state (old.U i) →
      (finalBounds D M par lo X i).u_min ≤ state (lowOrder D M X i) ∧
        state (lowOrder D M X i) ≤ (finalBounds D M par lo X i).u_max := by
  classical
  set D := description fl q draws lim with hD
  have hposR : ∀ i j U V n, 0 ≤ D.riemann old.prec i j U V n := fun i j U V n => C09_scalar_nonneg _ _ _ _ _ _
  intro D' X i hi hflux hin hself
  have hdX : ∀ i, ∀ j ∈ M.nbrs i, X.d i j = dOff D M lo.dij old i j := by
    intro i j hj
    have hne : i ≠ j := fun e => hM.irrefl i (e ▸ hj)
    simp only [X, D', stage4, hne, if_false]
  let C : Set State := {V | (finalBounds D M par lo X i).u_min ≤ state V ∧ state V ≤ (finalBounds D M par lo X i).u_max}
  have hconv : Convex ℝ C := by
    intro x hx y hy α β hα hβ hαβ
    have e : ∀ z : ℝ, z = α * z + β * z := fun z => by rw [← add_mul, hαβ, one_mul]
    have h1 : (finalBounds D M par lo X i).u_min ≤ α * state x + β * state y := by
      linarith [mul_le_mul_of_nonneg_left hx.1 hα, mul_le_mul_of_nonneg_left hy.1 hβ, e (finalBounds D M par lo X i).u_min]
    have h2 : α * state x + β * state y ≤ (finalBounds D M par lo X i).u_max := by
      linarith [mul_le_mul_of_nonneg_left hx.2 hα, mul_le_mul_of_nonneg_left hy.2 hβ, e (finalBounds D M par lo X i).u_max]
    exact ⟨h1, h2⟩
  refine C14_low_order_convex D M hM contractLin (Scalar.centralFlux fl q draws lim) par lo old stages t tau_max
    hposR ht hcfl ht0' ht1' i hi (hm i) (hc i) ?_ C hconv ?_ ?_
  · intro j hj
    rcases hres i j hj with h0 | h0
    · right
      refine ⟨(hdX i j hj).trans h0, ?_⟩
      have := hflux j hj
      rw [show dOff D' M lo.dij old i j = 0 from h0, zero_mul] at this
      have := sub_eq_zero.1 (abs_nonpos_iff.1 this)
      funext k
      have hk : k = 0 := Subsingleton.elim _ _
      subst hk
      exact this
    · left; exact h0.trans (hdX i j hj).ge
  · have := hin i (by simp)
    rw [hself] at this
    exact this
  · intro j hj
    exact hin j (by simp [hj])

/-- **C16.** Full step of the scalar conservation equation with relaxation switched off, `cfl ≤ 1` and a time-step
size of at most `tau_max`, any number of limiter passes the code allows and any stages: the new value of row `i` lies
between all `lo ≤ hi` that enclose the old values in the stencil of `i` (continuous ansatz), or all old values
(discontinuous ansatz, for which bounds are combined over neighbours).

Assumptions: the wave speed estimate dominates the Roe speed (`hroe`, C09; proved for convex fluxes and for states
that are not too close) and has the symmetry C10 (`hrev`); `Σ_j c_ij = 0` and positive masses; viscosities that are
not zero are at least `100 min()`; values are below `max()`; values are non-negative unless `eps = 0` (see
`C04_scalar_limit_violation`). -/
theorem C16_scalar_maximum_principle [Fintype ι] (fl : Flux dim) (q : StepParams)
    (draws : ι → ι → List ℝ) (lim : ι → ι → Bounds → State → State → ℝ × Prop)
    (hlim : ∀ i j b U P, IsLaneOf (fun _ => limit q.eps q.tiny) b U P (lim i j b U P))
    (M : Mesh ι dim) (hM : M.WellFormed) (par : Hyp.Params) (strategy : Strategy) (cnt : Counters)
    (lo : Leftover ι State) (old : StateVector ι Unit State) (stages : List (ℝ × StateVector ι Unit State))
    (tau tau_max : ℝ)
    (hrelax : q.relaxation_factor = 0) (heps : 0 ≤ q.eps) (hqt : 0 < q.tiny) (ht : 0 < par.tiny)
    (hcfl : par.cfl ≤ 1) (hn : par.iterations ≤ 2)
    (hrev : ∀ i j, draws j i = (draws i j).map (1 - ·))
    (hskew : ∀ i, ∀ j ∈ M.nbrs i, ¬ (M.boundary i ∧ M.boundary j) → M.c j i = -M.c i j)
    (hroe : ∀ i j u v n, |(∑ k, fl.value u k * n k) - ∑ k, fl.value v k * n k|
      ≤ riemann fl q.rp (draws i j) u v n * |u - v|)
    (hm : ∀ i, 0 < M.lumped i) (hc : ∀ i, M.c i i + ((M.nbrs i).map (M.c i)).sum = 0)
    (hres : ∀ i, ∀ j ∈ M.nbrs i, dOff (description fl q draws lim) M lo.dij old i j = 0 ∨
      100 * par.tiny ≤ dOff (description fl q draws lim) M lo.dij old i j)
    (hbig : ∀ i, |state (old.U i)| ≤ q.big) (hsign : q.eps = 0 ∨ ∀ i, 0 ≤ state (old.U i))
    (htau0 : 0 ≤ tau) (htau : tau ≤ tauMax (description fl q draws lim) M par lo.dij old tau_max)
    (U : ι → State) (t : ℝ)
    (h : (step (description fl q draws lim) M par strategy cnt lo old stages tau tau_max).1 = .done U t)
    (i : ι) (hi : M.nbrs i ≠ []) (a b : ℝ)
    (hab : (M.dG = false ∧ ∀ j ∈ i :: M.nbrs i, a ≤ state (old.U j) ∧ state (old.U j) ≤ b) ∨
      ∀ j, a ≤ state (old.U j) ∧ state (old.U j) ≤ b) :
    a ≤ state (U i) ∧ state (U i) ≤ b := by
  classical
  set D := description fl q draws lim with hD
  obtain ⟨htm, htt, hU⟩ := step_done h
  have ht0' : 0 ≤ t := by rw [htt]; split_ifs; exacts [htm.le, htau0]
  have ht1' : t ≤ tauMax D M par lo.dij old tau_max := by rw [htt]; split_ifs; exacts [le_rfl, htau]
  have := scalar_step_core fl q draws lim hlim M hM par lo old stages hrelax heps hqt ht hn hrev hskew hroe
    (fun i _ => hbig i) (hsign.imp_right fun h i _ => h i) t
    (scalar_low_of_cfl fl q draws lim M hM par lo old stages tau_max ht hcfl hm hc hres t ht0' ht1') i hi a b
    (hab.imp_right fun h j _ => h j)
  rw [hU]; exact this.2

/-- The row sums of `c_ij` on the ring vanish. -/
theorem ring_row_sum (i : Fin 3) : ring.c i i + ((ring.nbrs i).map (ring.c i)).sum = 0 := by
  funext k
  fin_cases i <;> simp [ring] <;> norm_num

theorem demo_dOff (stale : Fin 3 → Fin 3 → ℝ) (i j : Fin 3) (hj : j ∈ ring.nbrs i) :
    1 / 2 ≤ dOff demo ring stale demoOld i j := by
  have h := C11_viscosity demo ring ring_wf stale demoOld (fun i j _ _ => demo_rev _ i j _ _ _)
    (fun i j hj _ => ring_closed.skew i j hj) i j hj
  exact h.2 ▸ le_max_of_le_left (demo_d i j hj)

/-- All hypotheses hold for Burgers' equation on the ring: after a step with the maximal time-step size the values
`1, 2, 3` are still between `1` and `3`. -/
example (stages : List (ℝ × StateVector (Fin 3) Unit State)) : ∃ U t,
    (step demo ring demoPar .warn ⟨0, 0⟩ demoLo demoOld stages 0 10).1 = .done U t ∧
      ∀ i, 1 ≤ state (U i) ∧ state (U i) ≤ 3 := by
  obtain ⟨U, t, h⟩ := demo_done stages
  refine ⟨U, t, h, fun i => ?_⟩
  refine C16_scalar_maximum_principle (burgers 1 (1 / 1000)) ⟨⟨false, false⟩, 1, 0, 1 / 1000, 100, 0⟩ (fun _ _ => [])
    _ ?_ ring ring_wf demoPar .warn ⟨0, 0⟩ demoLo demoOld stages 0 10 rfl le_rfl (by norm_num)
    (by norm_num [demoPar]) (by norm_num [demoPar]) (by norm_num [demoPar]) (fun _ _ => rfl)
    (fun i j hj _ => ring_closed.skew i j hj) ?_ ring_closed.lumped ring_row_sum ?_ ?_ (Or.inl rfl) le_rfl ?_ U t h i
    (by simp [ring]) 1 3 (Or.inr ?_)
  · intro i j b U P
    exact ⟨1, fun _ => b, fun _ => U, fun _ => P, 0, rfl, rfl, rfl, by simp [limit]⟩
  · intro i j u v n
    exact C09_scalar_roe_convex _ _ _ _ _ _ rfl (C09_scalar_burgers_convex _ n).1 (C09_scalar_burgers_convex _ n).2
  · intro i j hj
    right
    refine le_trans ?_ (demo_dOff demoLo.dij i j hj)
    norm_num [demoPar]
  · intro i
    fin_cases i <;> simp [state, demoOld] <;> norm_num [abs_le]
  · exact (C11_step_tau demo ring demoPar .warn ⟨0, 0⟩ demoLo demoOld stages 0 10
      (by norm_num [demoPar]) (by norm_num [demoPar]) ring_closed.lumped (by norm_num)).1.le
  · intro j
    fin_cases j <;> simp [state, demoOld] <;> norm_num

end Scalar

end Ryujin
