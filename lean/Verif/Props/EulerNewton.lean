import Verif.Props.EulerRiemann

/-!
# C77: the Newton iteration of the Euler Riemann solver
-/

namespace Ryujin
namespace Euler

variable {dim L : ℕ}

/-- The bracket `[p_1, p_2]` of the star pressure in one lane after exactly `k` quadratic Newton steps, whatever the other
lanes do. -/
noncomputable def bracketAfter (gamma eps : ℝ) (i j : RiemannData) : ℕ → ℝ × ℝ
  | 0 => (startP1 gamma i j, startP2 gamma i j)
  | k + 1 =>
    let b := bracketAfter gamma eps i j k
    quadraticNewtonStep eps b.1 b.2 (phi gamma i j b.1) (phi gamma i j b.2) (dphi gamma i j b.1) (dphi gamma i j b.2) 1

/-- The state of all lanes after exactly `k` steps. -/
noncomputable def stateAfter (gamma : ℝ) (rp : RiemannParams) (i j : Fin L → RiemannData) (k : ℕ) (l : Fin L) :
    NewtonState :=
  let b := bracketAfter gamma rp.eps (i l) (j l) k
  ⟨b.1, b.2, (computeGap gamma (i l) (j l) b.1 b.2).1, (computeGap gamma (i l) (j l) b.1 b.2).2⟩

theorem newtonLoop_stateAfter (gamma : ℝ) (rp : RiemannParams) (i j : Fin L → RiemannData) (n : ℕ) :
    ∀ k, ∃ m, m ≤ n ∧ newtonLoop gamma rp i j n (stateAfter gamma rp i j k) = stateAfter gamma rp i j (k + m) ∧
      (m < n → ∀ l, (stateAfter gamma rp i j (k + m) l).gap ≤ rp.newton_tolerance) ∧
      (∀ m' < m, ∃ l, rp.newton_tolerance < (stateAfter gamma rp i j (k + m') l).gap) := by
  induction n with
  | zero => exact fun k => ⟨0, le_rfl, rfl, fun h => absurd h (lt_irrefl _), fun m' h => absurd h (Nat.not_lt_zero _)⟩
  | succ n ih =>
    intro k
    unfold newtonLoop
    split_ifs with h
    · refine ⟨0, Nat.zero_le _, rfl, fun _ l => ?_, fun m' h => absurd h (Nat.not_lt_zero _)⟩
      have := h l
      rw [max_eq_left_iff] at this
      exact sub_nonpos.1 this
    · obtain ⟨m, hm, h1, h2, h3⟩ := ih (k + 1)
      refine ⟨m + 1, Nat.succ_le_succ hm, ?_, fun hlt l => ?_, fun m' hm' => ?_⟩
      · rw [show k + (m + 1) = k + 1 + m by omega, ← h1]
        rfl
      · rw [show k + (m + 1) = k + 1 + m by omega]
        exact h2 (Nat.lt_of_succ_lt_succ hlt) l
      · rcases m' with _ | m'
        · push Not at h
          obtain ⟨l, hl⟩ := h
          refine ⟨l, ?_⟩
          by_contra hcon
          push Not at hcon
          exact hl (max_eq_left (sub_nonpos.2 hcon))
        · obtain ⟨l, hl⟩ := h3 m' (Nat.lt_of_succ_lt_succ hm')
          exact ⟨l, by rwa [show k + (m' + 1) = k + 1 + m' by omega]⟩

/-- The solver evaluates the wave speed after some number of steps: this number is the first one at which all lanes meet
the tolerance, or the maximal number. -/
theorem compute_stateAfter (gamma : ℝ) (rp : RiemannParams) (i j : Fin L → RiemannData) :
    ∃ m, m ≤ rp.newton_max_iterations ∧ compute gamma rp i j = (fun l => (stateAfter gamma rp i j m l).lambda_max) ∧
      (m < rp.newton_max_iterations → ∀ l, (stateAfter gamma rp i j m l).gap ≤ rp.newton_tolerance) ∧
      (∀ m' < m, ∃ l, rp.newton_tolerance < (stateAfter gamma rp i j m' l).gap) := by
  unfold compute
  split_ifs with h0
  · exact ⟨0, Nat.zero_le _, rfl, fun h => absurd h (by omega), fun m' h => absurd h (Nat.not_lt_zero _)⟩
  · obtain ⟨m, h1, h2, h3, h4⟩ := newtonLoop_stateAfter gamma rp i j rp.newton_max_iterations 0
    rw [Nat.zero_add] at h2 h3
    simp only [Nat.zero_add] at h4
    exact ⟨m, h1, funext fun l => congrArg (fun s => (s l).lambda_max) h2, h3, h4⟩

theorem bracketAfter_ordered (gamma eps : ℝ) (i j : RiemannData) (k : ℕ) :
    (bracketAfter gamma eps i j k).1 ≤ (bracketAfter gamma eps i j k).2 := by
  induction k with
  | zero =>
    show startP1 gamma i j ≤ startP2 gamma i j
    unfold startP1
    dsimp only
    split_ifs with h
    · exact h
    · exact le_rfl
  | succ k ih => exact (C01_newton_nested _ _ _ _ _ _ _ _ ih).2.1

theorem bracketAfter_anti (gamma eps : ℝ) (i j : RiemannData) {k m : ℕ} (h : k ≤ m) :
    (bracketAfter gamma eps i j m).2 ≤ (bracketAfter gamma eps i j k).2 := by
  induction m, h using Nat.le_induction with
  | base => exact le_rfl
  | succ m _ ih => exact (C01_newton_nested _ _ _ _ _ _ _ _ (bracketAfter_ordered gamma eps i j m)).2.2.trans ih

theorem computeLambda_mono {gamma : ℝ} {i j : RiemannData} (hg : 1 < gamma) (hi : Gas gamma i) (hj : Gas gamma j) {p q : ℝ}
    (h : p ≤ q) : computeLambda gamma i j p ≤ computeLambda gamma i j q := by
  unfold computeLambda
  simp only [positivePart_eq_max, negativePart_eq_max]
  have h1 := lambda1Minus_anti hg hi h
  have h3 := lambda3Plus_mono hg hj h
  exact max_le_max (max_le_max le_rfl h3) (max_le_max le_rfl (neg_le_neg h1))

/-- **C77.** Allowing more Newton iterations never increases the wave speed, in any lane: for all admissible states, all
`γ > 1`, all rounding constants and whatever the other lanes hold. -/
theorem C77_euler_newton_monotone (p : Params) (hg : 1 < p.gamma) (rp rp' : RiemannParams)
    (hn' : rp.newton_max_iterations ≤ rp'.newton_max_iterations) (htol : rp.newton_tolerance = rp'.newton_tolerance)
    (heps : rp.eps = rp'.eps) (U_i U_j : Fin L → State dim) (n : Fin L → Vec dim) (l : Fin L) (hn : normSq (n l) = 1)
    (hri : 0 < density (U_i l)) (hei : 0 < internalEnergy (U_i l))
    (hrj : 0 < density (U_j l)) (hej : 0 < internalEnergy (U_j l)) :
    riemann p rp' U_i U_j n l ≤ riemann p rp U_i U_j n l := by
  have gi := riemannDataFromState_gas p hg (U_i l) hn hri hei
  have gj := riemannDataFromState_gas p hg (U_j l) hn hrj hej
  obtain ⟨m, hm, h1, h2, h3⟩ := compute_stateAfter p.gamma rp (fun l => riemannDataFromState p (U_i l) (n l))
    (fun l => riemannDataFromState p (U_j l) (n l))
  obtain ⟨m', hm', h1', h2', h3'⟩ := compute_stateAfter p.gamma rp' (fun l => riemannDataFromState p (U_i l) (n l))
    (fun l => riemannDataFromState p (U_j l) (n l))
  have hst : ∀ k, stateAfter p.gamma rp (fun l => riemannDataFromState p (U_i l) (n l))
      (fun l => riemannDataFromState p (U_j l) (n l)) k = stateAfter p.gamma rp' (fun l => riemannDataFromState p (U_i l)
        (n l)) (fun l => riemannDataFromState p (U_j l) (n l)) k := by
    intro k
    unfold stateAfter
    rw [heps]
  have hle : m ≤ m' := by
    by_contra hlt
    push Not at hlt
    obtain ⟨l', hl'⟩ := h3 m' hlt
    have := h2' (hlt.trans_le (hm.trans hn')) l'
    rw [hst, htol] at hl'
    exact absurd this (not_le.2 hl')
  unfold riemann
  rw [h1, h1']
  dsimp only
  rw [hst]
  exact computeLambda_mono hg gi gj (bracketAfter_anti _ _ _ _ hle)

/-- The exact maximal wave speed of the Riemann problem with star pressure `ps`. -/
noncomputable def exactSpeed (p : Params) (U_i U_j : State dim) (n : Vec dim) (ps : ℝ) : ℝ :=
  max (max (rightSpeed p U_j n ps) 0) (max (-leftSpeed p U_i n ps) 0)

theorem computeLambda_gap {gamma : ℝ} {i j : RiemannData} (hg : 1 < gamma) (hi : Gas gamma i) (hj : Gas gamma j)
    {p_1 ps p_2 : ℝ} (h1 : p_1 ≤ ps) (h2 : ps ≤ p_2) :
    computeLambda gamma i j p_2 ≤ computeLambda gamma i j ps + (computeGap gamma i j p_1 p_2).1 := by
  have a1 := lambda1Minus_anti hg hi h1
  have a3 := lambda3Plus_mono hg hj h1
  unfold computeLambda computeGap
  simp only [positivePart_eq_max, negativePart_eq_max]
  have g1 : lambda3Plus gamma j p_2 - lambda3Plus gamma j p_1 ≤
      max |lambda3Plus gamma j p_2 - lambda3Plus gamma j p_1| |lambda1Minus gamma i p_1 - lambda1Minus gamma i p_2| :=
    (le_abs_self _).trans (le_max_left _ _)
  have g2 : lambda1Minus gamma i p_1 - lambda1Minus gamma i p_2 ≤
      max |lambda3Plus gamma j p_2 - lambda3Plus gamma j p_1| |lambda1Minus gamma i p_1 - lambda1Minus gamma i p_2| :=
    (le_abs_self _).trans (le_max_right _ _)
  have g0 : 0 ≤ max |lambda3Plus gamma j p_2 - lambda3Plus gamma j p_1| |lambda1Minus gamma i p_1 -
      lambda1Minus gamma i p_2| := (abs_nonneg _).trans (le_max_left _ _)
  generalize max |lambda3Plus gamma j p_2 - lambda3Plus gamma j p_1| |lambda1Minus gamma i p_1 -
      lambda1Minus gamma i p_2| = G at *
  set M := max (max 0 (lambda3Plus gamma j ps)) (max 0 (-lambda1Minus gamma i ps)) with hM
  have m0 : 0 ≤ M := (le_max_left _ _).trans (le_max_left _ _)
  have m1 : lambda3Plus gamma j ps ≤ M := (le_max_right _ _).trans (le_max_left _ _)
  have m2 : -lambda1Minus gamma i ps ≤ M := (le_max_right _ _).trans (le_max_right _ _)
  refine max_le (max_le ?_ ?_) (max_le ?_ ?_) <;> linarith

/-- **C77.** When the solver stops before the maximal number of iterations, the returned wave speed of *every* lane is
within the tolerance of the exact maximal wave speed, and never below it; otherwise it has performed the maximal number
of steps in every lane, and is not below the exact one either. This holds in every lane in which the solver's start
interval is sound, that is, in which the exact solution has two shocks or a star pressure between the smaller pressure and
the failsafe pressure.  (For `γ > 5/3` and for other solutions with one shock and one rarefaction the start interval is
not sound, see C64; for two rarefactions the start value is returned.) -/
theorem C77_euler_newton_accuracy_partial (p : Params) (hg : 1 < p.gamma) (hg2 : p.gamma ≤ 5 / 3) (rp : RiemannParams)
    (heps : rp.eps = 0) (U_i U_j : Fin L → State dim) (n : Fin L → Vec dim) :
    ∃ m, m ≤ rp.newton_max_iterations ∧
      (∀ l, riemann p rp U_i U_j n l = computeLambda p.gamma (riemannDataFromState p (U_i l) (n l))
        (riemannDataFromState p (U_j l) (n l)) (bracketAfter p.gamma 0 (riemannDataFromState p (U_i l) (n l))
        (riemannDataFromState p (U_j l) (n l)) m).2) ∧
      ∀ l, normSq (n l) = 1 → 0 < density (U_i l) → 0 < internalEnergy (U_i l) → 0 < density (U_j l) →
        0 < internalEnergy (U_j l) → ∀ ps, IsStarPressure p (U_i l) (U_j l) (n l) ps →
        min (pressure p (U_i l)) (pressure p (U_j l)) ≤ ps →
        (max (pressure p (U_i l)) (pressure p (U_j l)) ≤ ps ∨
          ps ≤ pStarFailsafe p.gamma (riemannDataFromState p (U_i l) (n l)) (riemannDataFromState p (U_j l) (n l))) →
        exactSpeed p (U_i l) (U_j l) (n l) ps ≤ riemann p rp U_i U_j n l ∧
          (m < rp.newton_max_iterations →
            riemann p rp U_i U_j n l ≤ exactSpeed p (U_i l) (U_j l) (n l) ps + rp.newton_tolerance) := by
  obtain ⟨m, hm, h1, h2, h3⟩ := compute_stateAfter p.gamma rp (fun l => riemannDataFromState p (U_i l) (n l))
    (fun l => riemannDataFromState p (U_j l) (n l))
  refine ⟨m, hm, fun l => ?_, fun l hn hri hei hrj hej ps hps hmin hcase => ?_⟩
  · unfold riemann
    rw [h1, ← heps]
    rfl
  have gi := riemannDataFromState_gas p hg (U_i l) hn hri hei
  have gj := riemannDataFromState_gas p hg (U_j l) hn hrj hej
  have ei := riemannDataFromState_eq p (U_i l) hn
  have ej := riemannDataFromState_eq p (U_j l) hn
  have hval : riemann p rp U_i U_j n l = computeLambda p.gamma (riemannDataFromState p (U_i l) (n l))
      (riemannDataFromState p (U_j l) (n l)) (bracketAfter p.gamma 0 (riemannDataFromState p (U_i l) (n l))
      (riemannDataFromState p (U_j l) (n l)) m).2 := by
    unfold riemann
    rw [h1, ← heps]
    rfl
  have hgap : m < rp.newton_max_iterations → (computeGap p.gamma (riemannDataFromState p (U_i l) (n l))
      (riemannDataFromState p (U_j l) (n l)) (bracketAfter p.gamma 0 (riemannDataFromState p (U_i l) (n l))
      (riemannDataFromState p (U_j l) (n l)) m).1 (bracketAfter p.gamma 0 (riemannDataFromState p (U_i l) (n l))
      (riemannDataFromState p (U_j l) (n l)) m).2).1 ≤ rp.newton_tolerance := by
    intro hlt
    have := h2 hlt l
    unfold stateAfter at this
    rw [heps] at this
    exact this
  have hexact : exactSpeed p (U_i l) (U_j l) (n l) ps = computeLambda p.gamma (riemannDataFromState p (U_i l) (n l))
      (riemannDataFromState p (U_j l) (n l)) ps := by
    unfold exactSpeed computeLambda
    simp only [positivePart_eq_max, negativePart_eq_max]
    rw [lambda1Minus_eq hg gi, lambda3Plus_eq hg gj, ei, ej, max_comm 0, max_comm 0]
    rfl
  have hstart := start_bracket hg hg2 gi gj (ps := ps) (by rw [ei, ej]; exact hps) (by rw [ei, ej]; exact hmin)
    (by rw [ei, ej] at hcase ⊢; exact hcase)
  have hstar : phi p.gamma (riemannDataFromState p (U_i l) (n l)) (riemannDataFromState p (U_j l) (n l)) ps = 0 := by
    rw [phi_eq gi gj, ei, ej]; exact hps.2
  rw [hval, hexact]
  generalize riemannDataFromState p (U_i l) (n l) = i at *
  generalize riemannDataFromState p (U_j l) (n l) = j at *
  have hinv : ∀ k, 0 < (bracketAfter p.gamma 0 i j k).1 ∧ (bracketAfter p.gamma 0 i j k).1 ≤ ps ∧
      ps ≤ (bracketAfter p.gamma 0 i j k).2 ∧
      (i.p ≤ (bracketAfter p.gamma 0 i j k).1 ∨ (bracketAfter p.gamma 0 i j k).2 ≤ i.p) ∧
      (j.p ≤ (bracketAfter p.gamma 0 i j k).1 ∨ (bracketAfter p.gamma 0 i j k).2 ≤ j.p) := by
    intro k
    induction k with
    | zero => exact hstart
    | succ k ih =>
      obtain ⟨a1, a2, a3, a4, a5⟩ := ih
      obtain ⟨b1, b2, b3, b4⟩ := newtonStep_keeps hg gi gj hstar a1 a2 a3 a4 a5
      exact ⟨a1.trans_le b1, b2, b3, a4.imp (fun h => h.trans b1) (fun h => b4.trans h),
        a5.imp (fun h => h.trans b1) (fun h => b4.trans h)⟩
  obtain ⟨-, c2, c3, -, -⟩ := hinv m
  refine ⟨computeLambda_mono hg gi gj c3, fun hlt => ?_⟩
  have := computeLambda_gap hg gi gj c2 c3
  have := hgap hlt
  linarith

/-- The two-rarefaction pressure is not above the pressure between two rarefactions (or zero, if there is a vacuum). -/
theorem twoRarefaction_le {gamma : ℝ} {i j : RiemannData} (hg : 1 < gamma) (hi : Gas gamma i) (hj : Gas gamma j) {p : ℝ}
    (hp : 0 ≤ p) (hpi' : p ≤ i.p) (hpj' : p ≤ j.p)
    (h0 : 0 ≤ Spec.gasWave gamma i.rho i.p p + Spec.gasWave gamma j.rho j.p p + (j.u - i.u)) :
    pStarTwoRarefaction gamma i j ≤ p := by
  rw [pStarTwoRarefaction_eq hg hi hj]
  have hai := hi.a_pos hg
  have haj := hj.a_pos hg
  have hpi := hi.p_pos
  have hpj := hj.p_pos
  have h1 : 0 < gamma - 1 := by linarith
  have h2 : 0 < gamma := by linarith
  unfold Spec.gasWave at h0
  rw [if_pos hpi', if_pos hpj', ← hi.a_eq, ← hj.a_eq, Real.div_rpow hp hpi.le, Real.div_rpow hp hpj.le] at h0
  rw [Real.rpow_neg hpi.le, Real.rpow_neg hpj.le]
  set e := (gamma - 1) / (2 * gamma) with he
  have hiE : 0 < i.p ^ e := Real.rpow_pos_of_pos hpi _
  have hjE : 0 < j.p ^ e := Real.rpow_pos_of_pos hpj _
  have hsum : i.a + j.a - (gamma - 1) / 2 * (j.u - i.u) ≤ p ^ e * (i.a * (i.p ^ e)⁻¹ + j.a * (j.p ^ e)⁻¹) := by
    have hm := mul_nonneg (by positivity : 0 ≤ (gamma - 1) / 2) h0
    have e1 : (gamma - 1) / 2 * (2 * i.a / (gamma - 1) * (p ^ e / i.p ^ e - 1) +
        2 * j.a / (gamma - 1) * (p ^ e / j.p ^ e - 1) + (j.u - i.u)) =
        p ^ e * (i.a * (i.p ^ e)⁻¹ + j.a * (j.p ^ e)⁻¹) - (i.a + j.a) + (gamma - 1) / 2 * (j.u - i.u) := by
      field_simp
      ring
    rw [e1] at hm
    linarith
  have hden : 0 < i.a * (i.p ^ e)⁻¹ + j.a * (j.p ^ e)⁻¹ := by positivity
  have hle : positivePart (i.a + j.a - (gamma - 1) / 2 * (j.u - i.u)) /
      (i.a * (i.p ^ e)⁻¹ + j.a * (j.p ^ e)⁻¹) ≤ p ^ e := by
    rw [div_le_iff₀ hden, positivePart_eq_max]
    exact max_le (mul_nonneg (Real.rpow_nonneg hp _) hden.le) hsum
  have hpow := Real.rpow_le_rpow (div_nonneg (positivePart_nonneg _) hden.le) hle
    (by positivity : 0 ≤ 2 * gamma / (gamma - 1))
  refine hpow.trans (le_of_eq ?_)
  rw [← Real.rpow_mul hp, show e * (2 * gamma / (gamma - 1)) = 1 by rw [he]; field_simp, Real.rpow_one]

theorem gasWave_mono_nonneg {gamma : ℝ} (hg : 1 < gamma) {rho pK p : ℝ} (hr : 0 < rho) (hK : 0 < pK) (hp : 0 ≤ p)
    {q : ℝ} (hpq : p ≤ q) : Spec.gasWave gamma rho pK p ≤ Spec.gasWave gamma rho pK q := by
  rcases hpq.eq_or_lt with e | hlt
  · rw [e]
  rcases hp.eq_or_lt with e | hpos
  · subst e
    have h1 : 0 < gamma - 1 := by linarith
    have h2 : 0 < gamma := by linarith
    have hexp : (gamma - 1) / (2 * gamma) ≠ 0 := by positivity
    have ha : 0 ≤ 2 * Spec.gasSound gamma rho pK / (gamma - 1) := by
      have := Real.sqrt_nonneg (gamma * pK / rho)
      unfold Spec.gasSound
      positivity
    have h0 : Spec.gasWave gamma rho pK 0 = 2 * Spec.gasSound gamma rho pK / (gamma - 1) * (0 - 1) := by
      unfold Spec.gasWave
      rw [if_pos hK.le, zero_div, Real.zero_rpow hexp]
    rw [h0]
    unfold Spec.gasWave
    split_ifs with hq
    · have : 0 ≤ (q / pK) ^ ((gamma - 1) / (2 * gamma)) := Real.rpow_nonneg (by positivity) _
      exact mul_le_mul_of_nonneg_left (by linarith) ha
    · have : 0 ≤ (q - pK) * √(2 / ((gamma + 1) * rho) / (q + (gamma - 1) / (gamma + 1) * pK)) :=
        mul_nonneg (by push Not at hq; linarith) (Real.sqrt_nonneg _)
      linarith
  · exact (gasWave_strictMono hg hr hK hpos hlt).le

/-- **C77.** If the exact solution consists of two rarefactions (with or without vacuum between them) the solver returns
exactly its maximal wave speed, for all `γ > 1`, all numbers of iterations and all rounding constants. -/
theorem C77_euler_rarefactions_exact (p : Params) (hg : 1 < p.gamma) (rp : RiemannParams)
    (U_i U_j : Fin L → State dim) (n : Fin L → Vec dim) (l : Fin L) (hn : normSq (n l) = 1)
    (hri : 0 < density (U_i l)) (hei : 0 < internalEnergy (U_i l))
    (hrj : 0 < density (U_j l)) (hej : 0 < internalEnergy (U_j l))
    (ps : ℝ) (hps : IsFanPressure p (U_i l) (U_j l) (n l) ps)
    (hi : ps ≤ pressure p (U_i l)) (hj : ps ≤ pressure p (U_j l)) :
    riemann p rp U_i U_j n l = exactSpeed p (U_i l) (U_j l) (n l) ps := by
  have gi := riemannDataFromState_gas p hg (U_i l) hn hri hei
  have gj := riemannDataFromState_gas p hg (U_j l) hn hrj hej
  have ei := riemannDataFromState_eq p (U_i l) hn
  have ej := riemannDataFromState_eq p (U_j l) hn
  obtain ⟨m, -, h1, -, -⟩ := compute_stateAfter p.gamma rp (fun l => riemannDataFromState p (U_i l) (n l))
    (fun l => riemannDataFromState p (U_j l) (n l))
  have hval : riemann p rp U_i U_j n l = computeLambda p.gamma (riemannDataFromState p (U_i l) (n l))
      (riemannDataFromState p (U_j l) (n l)) (bracketAfter p.gamma rp.eps (riemannDataFromState p (U_i l) (n l))
      (riemannDataFromState p (U_j l) (n l)) m).2 := by
    unfold riemann
    rw [h1]
    rfl
  have hexact : exactSpeed p (U_i l) (U_j l) (n l) ps = computeLambda p.gamma (riemannDataFromState p (U_i l) (n l))
      (riemannDataFromState p (U_j l) (n l)) ps := by
    unfold exactSpeed computeLambda
    simp only [positivePart_eq_max, negativePart_eq_max]
    rw [lambda1Minus_eq hg gi, lambda3Plus_eq hg gj, ei, ej, max_comm 0, max_comm 0]
    rfl
  have hp0 : 0 ≤ ps := hps.elim (fun h => h.1.le) (fun h => h.1.ge)
  have hwave : 0 ≤ Spec.gasWave p.gamma (density (U_i l)) (pressure p (U_i l)) ps +
      Spec.gasWave p.gamma (density (U_j l)) (pressure p (U_j l)) ps +
      (velocityAlong (U_j l) (n l) - velocityAlong (U_i l) (n l)) := by
    rcases hps with h | ⟨rfl, h⟩
    · exact h.2.ge
    · exact h
  rw [hval, hexact]
  have hwave' : 0 ≤ Spec.gasWave p.gamma (riemannDataFromState p (U_i l) (n l)).rho
      (riemannDataFromState p (U_i l) (n l)).p ps + Spec.gasWave p.gamma (riemannDataFromState p (U_j l) (n l)).rho
      (riemannDataFromState p (U_j l) (n l)).p ps +
      ((riemannDataFromState p (U_j l) (n l)).u - (riemannDataFromState p (U_i l) (n l)).u) := by
    rw [ei, ej]; exact hwave
  have hi' : ps ≤ (riemannDataFromState p (U_i l) (n l)).p := by rw [ei]; exact hi
  have hj' : ps ≤ (riemannDataFromState p (U_j l) (n l)).p := by rw [ej]; exact hj
  generalize riemannDataFromState p (U_i l) (n l) = i at *
  generalize riemannDataFromState p (U_j l) (n l) = j at *
  have hRR := twoRarefaction_le hg gi gj hp0 hi' hj' hwave'
  have hphi : ¬ phiOfPMax p.gamma i j < 0 := by
    rw [phiOfPMax_eq hg gi gj, not_lt]
    have w1 := gasWave_mono_nonneg hg gi.rho_pos gi.p_pos hp0 (hi'.trans (le_max_left i.p j.p))
    have w2 := gasWave_mono_nonneg hg gj.rho_pos gj.p_pos hp0 (hj'.trans (le_max_right i.p j.p))
    linarith
  have hstart : startP2 p.gamma i j ≤ ps := by
    unfold startP2 maskLt
    dsimp only
    rw [if_neg hphi]
    exact (min_le_right _ _).trans ((min_le_left _ _).trans hRR)
  have hq : (bracketAfter p.gamma rp.eps i j m).2 ≤ ps :=
    (bracketAfter_anti p.gamma rp.eps i j (Nat.zero_le m)).trans hstart
  generalize (bracketAfter p.gamma rp.eps i j m).2 = q at *
  have hf : ∀ d : RiemannData, ps ≤ d.p → Spec.gasSpeedFactor p.gamma d.p q = Spec.gasSpeedFactor p.gamma d.p ps := by
    intro d hd
    unfold Spec.gasSpeedFactor
    rw [if_pos (hq.trans hd), if_pos hd]
  unfold computeLambda
  dsimp only
  rw [lambda1Minus_eq hg gi, lambda3Plus_eq hg gj, lambda1Minus_eq hg gi, lambda3Plus_eq hg gj]
  unfold Spec.gasLeftSpeed Spec.gasRightSpeed
  rw [hf i hi', hf j hj']

/-- Two equal gases at rest: the "rarefactions" of strength zero move at the speed of sound. -/
example (rp : RiemannParams) (ρ pr : ℝ) (h1 : 0 < ρ) (h2 : 0 < pr) :
    riemann air rp (fun _ : Fin 2 => gasState air ρ 0 pr) (fun _ => gasState air ρ 0 pr) (fun _ _ => 1) 1 =
      exactSpeed air (gasState air ρ 0 pr) (gasState air ρ 0 pr) (fun _ => 1) pr := by
  have hg : 1 < air.gamma := by norm_num [air]
  refine C77_euler_rarefactions_exact air hg rp _ _ _ 1 (by simp [normSq]) (by simpa) ?_ (by simpa) ?_ pr (Or.inl ?_) ?_ ?_
  · rw [gasState_internalEnergy air h1.ne']; norm_num [air]; exact h2
  · rw [gasState_internalEnergy air h1.ne']; norm_num [air]; exact h2
  · unfold IsStarPressure
    rw [gasState_pressure air hg h1.ne', gasState_velocity air h1.ne', gasState_density]
    refine ⟨h2, ?_⟩
    unfold Spec.gasWave
    simp [h2.ne']
  · rw [gasState_pressure air hg h1.ne']
  · rw [gasState_pressure air hg h1.ne']

/-- Two colliding gas streams (two shocks, `p* = 4`): the solver with Newton iterations returns at least the exact wave
speed. -/
example (n : ℕ) (tol : ℝ) :
    exactSpeed air (gasState air 1 (3 / √5) 1) (gasState air 1 (-(3 / √5)) 1) (fun _ => 1) 4 ≤
      riemann air ⟨tol, n, 0⟩ (fun _ : Fin 1 => gasState air 1 (3 / √5) 1) (fun _ => gasState air 1 (-(3 / √5)) 1)
        (fun _ _ => 1) 0 := by
  have hg : 1 < air.gamma := by norm_num [air]
  obtain ⟨m, -, -, h⟩ := C77_euler_newton_accuracy_partial air hg (by norm_num [air]) ⟨tol, n, 0⟩ rfl
    (fun _ : Fin 1 => gasState air 1 (3 / √5) 1) (fun _ => gasState air 1 (-(3 / √5)) 1) (fun _ _ => 1)
  refine (h 0 (by simp [normSq]) (by simp) ?_ (by simp) ?_ 4 ?_ ?_ (Or.inl ?_)).1
  · rw [gasState_internalEnergy air one_ne_zero]; norm_num [air]
  · rw [gasState_internalEnergy air one_ne_zero]; norm_num [air]
  · unfold IsStarPressure
    rw [gasState_pressure air hg one_ne_zero, gasState_pressure air hg one_ne_zero, gasState_velocity air one_ne_zero,
      gasState_velocity air one_ne_zero, gasState_density, gasState_density]
    refine ⟨by norm_num, ?_⟩
    rw [show air.gamma = 7 / 5 from rfl, air_wave]
    ring
  · rw [gasState_pressure air hg one_ne_zero, gasState_pressure air hg one_ne_zero]; norm_num
  · rw [gasState_pressure air hg one_ne_zero, gasState_pressure air hg one_ne_zero]; norm_num

/-- More iterations, smaller speed, for a pair of different gases. -/
example : riemann air ⟨0, 3, 0⟩ (fun _ : Fin 2 => gasState air 1 0 1) (fun _ => gasState air 2 1 3) (fun _ _ => 1) 1 ≤
    riemann air ⟨0, 1, 0⟩ (fun _ : Fin 2 => gasState air 1 0 1) (fun _ => gasState air 2 1 3) (fun _ _ => 1) 1 :=
  C77_euler_newton_monotone air (by norm_num [air]) ⟨0, 1, 0⟩ ⟨0, 3, 0⟩ (by norm_num) rfl rfl _ _ _ 1 (by simp [normSq])
    (by simp) (by rw [gasState_internalEnergy air one_ne_zero]; norm_num [air])
    (by simp) (by rw [gasState_internalEnergy air two_ne_zero]; norm_num [air])

end Euler
end Ryujin
