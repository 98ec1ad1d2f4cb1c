import Verif.Proofs.EulerRiemann
import Verif.Props.Newton
import Mathlib.Analysis.Convex.SpecificFunctions.Basic

/-!
# The Newton iteration of the Riemann solver of the Euler equations keeps an upper bound of the star pressure
-/

namespace Ryujin
namespace Euler

variable {gamma : ℝ} {d i j : RiemannData}

theorem convexOn_rpow_neg {s a b : ℝ} (hs : s ≤ 0) (ha : 0 < a) : ConvexOn ℝ (Set.Icc a b) fun x : ℝ => x ^ s := by
  refine ⟨convex_Icc a b, ?_⟩
  intro x hx y hy u v hu hv huv
  have hx0 : 0 < x := ha.trans_le hx.1
  have hy0 : 0 < y := ha.trans_le hy.1
  have hxy : 0 < u * x + v * y := by
    rcases hu.eq_or_lt with h | h
    · have : v = 1 := by linarith
      subst this; rw [← h]; simpa using hy0
    · have := mul_pos h hx0
      have := mul_nonneg hv hy0.le
      linarith
  simp only [smul_eq_mul]
  rw [Real.rpow_def_of_pos hxy, Real.rpow_def_of_pos hx0, Real.rpow_def_of_pos hy0]
  have hlog := strictConcaveOn_log_Ioi.concaveOn.2 (Set.mem_Ioi.2 hx0) (Set.mem_Ioi.2 hy0) hu hv huv
  simp only [smul_eq_mul] at hlog
  have hexp := convexOn_exp.2 (Set.mem_univ (Real.log x * s)) (Set.mem_univ (Real.log y * s)) hu hv huv
  simp only [smul_eq_mul] at hexp
  refine le_trans (Real.exp_le_exp.2 ?_) hexp
  nlinarith [mul_le_mul_of_nonpos_right hlog hs]

/-- On an interval on which the wave of `d` is of one type, `f` and `df` are the value and the derivative of a function
with convex derivative. -/
theorem branch (hg : 1 < gamma) (h : Gas gamma d) {a b : ℝ} (ha : 0 < a) (hcase : d.p ≤ a ∨ b ≤ d.p) :
    ∃ F dF : ℝ → ℝ, (∀ t ∈ Set.Icc a b, F t = riemannF gamma d t ∧ dF t = riemannDF gamma d t ∧ HasDerivAt F (dF t) t) ∧
      ConvexOn ℝ (Set.Icc a b) dF := by
  have hp := h.p_pos
  have hr := h.rho_pos
  have h1 : 0 < gamma + 1 := by linarith
  have h2 : 0 < gamma - 1 := by linarith
  have h0 : 0 < gamma := by linarith
  rcases hcase with hs | hr'
  · -- shock
    set A := 2 / (d.rho * (gamma + 1)) with hA
    set B := (gamma - 1) / (gamma + 1) * d.p with hB
    have hApos : 0 < A := by positivity
    have hBpos : 0 < B := by positivity
    have hpos : ∀ t ∈ Set.Icc a b, 0 < t + B := fun t ht => by have := ht.1; linarith
    refine ⟨fun t => √A * ((t + B) ^ (1 / 2 : ℝ) - (d.p + B) * (t + B) ^ (-(1 / 2) : ℝ)),
      fun t => √A * (1 / 2 * (t + B) ^ (-(1 / 2) : ℝ) + 1 / 2 * (d.p + B) * (t + B) ^ (-(3 / 2) : ℝ)), ?_, ?_⟩
    · intro t ht
      have htB := hpos t ht
      have htp : d.p ≤ t := hs.trans ht.1
      have e1 : (t + B) ^ (1 / 2 : ℝ) = (t + B) * (t + B) ^ (-(1 / 2) : ℝ) := by
        rw [← Real.rpow_one_add' htB.le (by norm_num)]; norm_num
      have e3 : (t + B) ^ (-(1 / 2) : ℝ) = (t + B) * (t + B) ^ (-(3 / 2) : ℝ) := by
        rw [← Real.rpow_one_add' htB.le (by norm_num)]; norm_num
      have e2 : (t + B) ^ (-(1 / 2) : ℝ) = √(t + B)⁻¹ := by
        rw [Real.rpow_neg htB.le, ← Real.sqrt_eq_rpow, Real.sqrt_inv]
      refine ⟨?_, ?_, ?_⟩
      · unfold riemannF
        dsimp only
        rw [if_pos htp, e1, e2, ← hA, ← hB, div_eq_mul_inv A, Real.sqrt_mul hApos.le]
        ring
      · unfold riemannDF
        dsimp only
        rw [if_pos htp]
        have e4 : (gamma - 1) * (1 / (gamma + 1)) * d.p = B := by rw [hB]; ring
        rw [e4]
        have e5 : 1 / 2 * d.rho * ((gamma + 1) * t + (gamma - 1) * d.p) = (t + B) / A := by
          rw [hA, hB]; field_simp
        have e6 : (t + B) ^ (-(3 / 2) : ℝ) = (t + B) ^ (-(1 / 2) : ℝ) / (t + B) := by
          rw [e3]; field_simp
        rw [e5, Real.sqrt_div' _ hApos.le, e6, e2, Real.sqrt_inv]
        have hq : 0 < √(t + B) := Real.sqrt_pos.2 htB
        have hqA : 0 < √A := Real.sqrt_pos.2 hApos
        field_simp
        ring
      · have dl : HasDerivAt (fun t : ℝ => t + B) 1 t := (hasDerivAt_id t).add_const B
        have d1 := dl.rpow_const (p := 1 / 2) (Or.inl htB.ne')
        have d2 := dl.rpow_const (p := -(1 / 2)) (Or.inl htB.ne')
        have d3 := (d1.sub (d2.const_mul (d.p + B))).const_mul √A
        refine d3.congr_deriv ?_
        rw [show (1 / 2 : ℝ) - 1 = -(1 / 2) by norm_num, show (-(1 / 2) : ℝ) - 1 = -(3 / 2) by norm_num]
        ring
    · have hsub : ∀ s : ℝ, s ≤ 0 → ConvexOn ℝ (Set.Icc a b) fun t : ℝ => (t + B) ^ s := by
        intro s hs0
        have hc := convexOn_rpow_neg (s := s) (a := a + B) (b := b + B) hs0 (by linarith)
        refine ⟨convex_Icc a b, ?_⟩
        intro x hx y hy u v hu hv huv
        have := hc.2 (x := x + B) ⟨by linarith [hx.1], by linarith [hx.2]⟩ (y := y + B)
          ⟨by linarith [hy.1], by linarith [hy.2]⟩ hu hv huv
        simp only [smul_eq_mul] at this ⊢
        rw [show u * x + v * y + B = u * (x + B) + v * (y + B) by
          have : B = u * B + v * B := by rw [← add_mul, huv, one_mul]
          linarith]
        exact this
      have c1 := (hsub (-(1 / 2)) (by norm_num)).smul (by norm_num : (0 : ℝ) ≤ 1 / 2)
      have c2 := (hsub (-(3 / 2)) (by norm_num)).smul (by positivity : (0 : ℝ) ≤ 1 / 2 * (d.p + B))
      exact (c1.add c2).smul (Real.sqrt_nonneg A)
  · -- rarefaction
    set e := (gamma - 1) / (2 * gamma) with he
    have hapos : 0 < d.a := h.a_pos hg
    have hpos : ∀ t ∈ Set.Icc a b, 0 < t := fun t ht => ha.trans_le ht.1
    refine ⟨fun t => 2 * d.a / (gamma - 1) * ((d.p ^ e)⁻¹ * t ^ e - 1),
      fun t => 2 * d.a / (gamma - 1) * ((d.p ^ e)⁻¹ * (e * t ^ (e - 1))), ?_, ?_⟩
    · intro t ht
      have ht0 := hpos t ht
      have htp : t ≤ d.p := ht.2.trans hr'
      have hpe : 0 < d.p ^ e := Real.rpow_pos_of_pos hp _
      refine ⟨?_, ?_, ?_⟩
      · rw [riemannF_eq h]
        unfold Spec.gasWave
        rw [if_pos htp, ← h.a_eq, ← he, Real.div_rpow ht0.le hp.le, div_eq_inv_mul (t ^ e)]
      · rcases htp.lt_or_eq with hlt | heq
        · unfold riemannDF
          dsimp only
          rw [if_neg (by simpa using hlt), show (-1 - gamma) * (1 / 2) * (1 / gamma) = e - 1 by
            rw [he]; field_simp; ring, Real.div_rpow ht0.le hp.le, Real.rpow_sub_one hp.ne',
            show (gamma - 1) * (1 / 2) * (1 / gamma) = e by rw [he]; field_simp]
          field_simp
        · unfold riemannDF
          dsimp only
          rw [heq, if_pos le_rfl, Real.rpow_sub_one hp.ne']
          have ea := h.a_sq hg
          have e5 : 1 / 2 * d.rho * ((gamma + 1) * d.p + (gamma - 1) * d.p) = (d.rho * d.a) ^ 2 := by
            rw [mul_pow, ea]; field_simp; ring
          rw [e5, Real.sqrt_sq (by positivity)]
          have ed : d.p + (gamma - 1) * (1 / (gamma + 1)) * d.p = 2 * gamma / (gamma + 1) * d.p := by
            field_simp; ring
          rw [ed, he]
          have hrho : d.rho * d.a ^ 2 = gamma * d.p := by rw [ea]; field_simp
          field_simp
          nlinarith [hrho]
      · have d1 := (hasDerivAt_id t).rpow_const (p := e) (Or.inl ht0.ne')
        have d2 := ((d1.const_mul (d.p ^ e)⁻¹).sub_const 1).const_mul (2 * d.a / (gamma - 1))
        refine d2.congr_deriv ?_
        simp
    · have he0 : 0 ≤ e := by positivity
      have he1 : e - 1 ≤ 0 := by
        have : e ≤ 1 := by rw [he, div_le_one (by positivity)]; linarith
        linarith
      have c := ((((convexOn_rpow_neg (b := b) he1 ha).smul he0).smul
        (by positivity : (0 : ℝ) ≤ (d.p ^ e)⁻¹))).smul (by positivity : (0 : ℝ) ≤ 2 * d.a / (gamma - 1))
      exact c

/-- The wave function is strictly increasing. -/
theorem gasWave_strictMono (hg : 1 < gamma) {rho pK p q : ℝ} (hr : 0 < rho) (hK : 0 < pK) (hp : 0 < p)
    (hpq : p < q) : Spec.gasWave gamma rho pK p < Spec.gasWave gamma rho pK q := by
  have hrare : ∀ x y, 0 < x → x < y → y ≤ pK → Spec.gasWave gamma rho pK x < Spec.gasWave gamma rho pK y := by
    intro x y hx hxy hy
    unfold Spec.gasWave
    rw [if_pos (hxy.le.trans hy), if_pos hy]
    have ha : 0 < Spec.gasSound gamma rho pK := Real.sqrt_pos.2 (by have : 0 < gamma := by linarith
                                                                    positivity)
    have h1 : 0 < gamma - 1 := by linarith
    have h2 : 0 < gamma := by linarith
    have : (x / pK) ^ ((gamma - 1) / (2 * gamma)) < (y / pK) ^ ((gamma - 1) / (2 * gamma)) :=
      Real.rpow_lt_rpow (by positivity) (div_lt_div_of_pos_right hxy hK) (by positivity)
    have h3 : 0 < 2 * Spec.gasSound gamma rho pK / (gamma - 1) := by positivity
    nlinarith [mul_lt_mul_of_pos_left this h3]
  rcases le_total q pK with hq | hq
  · exact hrare p q hp hpq hq
  · rcases le_total pK p with hp' | hp'
    · exact gasWave_strictMono_shock hg hr hK hp' hpq
    · rcases hp'.eq_or_lt with h | h
      · exact gasWave_strictMono_shock hg hr hK h.ge hpq
      · rcases hq.eq_or_lt with h' | h'
        · exact hrare p q hp hpq h'.ge
        · exact (hrare p pK hp h le_rfl).trans (gasWave_strictMono_shock hg hr hK le_rfl h')

theorem phi_eq (hi : Gas gamma i) (hj : Gas gamma j) (p : ℝ) :
    phi gamma i j p = Spec.gasWave gamma i.rho i.p p + Spec.gasWave gamma j.rho j.p p + (j.u - i.u) := by
  unfold phi
  rw [riemannF_eq hi, riemannF_eq hj]
  ring

theorem phi_strictMono (hg : 1 < gamma) (hi : Gas gamma i) (hj : Gas gamma j) {p q : ℝ} (hp : 0 < p) (hpq : p < q) :
    phi gamma i j p < phi gamma i j q := by
  rw [phi_eq hi hj, phi_eq hi hj]
  have := gasWave_strictMono hg hi.rho_pos hi.p_pos hp hpq
  have := gasWave_strictMono hg hj.rho_pos hj.p_pos hp hpq
  linarith

/-- One Newton step with `eps = 0` keeps a bracket of the star pressure on which both waves do not change their type. -/
theorem newtonStep_keeps (hg : 1 < gamma) (hi : Gas gamma i) (hj : Gas gamma j) {ps p_1 p_2 : ℝ}
    (hstar : phi gamma i j ps = 0) (h1 : 0 < p_1) (hb1 : p_1 ≤ ps) (hb2 : ps ≤ p_2)
    (hci : i.p ≤ p_1 ∨ p_2 ≤ i.p) (hcj : j.p ≤ p_1 ∨ p_2 ≤ j.p) :
    let r := quadraticNewtonStep 0 p_1 p_2 (phi gamma i j p_1) (phi gamma i j p_2) (dphi gamma i j p_1)
      (dphi gamma i j p_2) 1
    p_1 ≤ r.1 ∧ r.1 ≤ ps ∧ ps ≤ r.2 ∧ r.2 ≤ p_2 := by
  intro r
  obtain ⟨hn1, hn2, hn3⟩ := C01_newton_nested 0 p_1 p_2 (phi gamma i j p_1) (phi gamma i j p_2) (dphi gamma i j p_1)
      (dphi gamma i j p_2) 1 (hb1.trans hb2)
  have hcand : ∀ (p dphi dd : ℝ), newtonCandidate 0 1 p 0 dphi dd = p := by
    intro p dphi dd
    unfold newtonCandidate maskLt
    simp
  rcases hb2.eq_or_lt with e2 | l2
  · -- the upper end is the root
    have ht2 : newtonClamp p_1 p_2 (newtonCandidate 0 1 p_2 (phi gamma i j p_2) (dphi gamma i j p_2)
        (newtonDD122 0 p_1 p_2 (phi gamma i j p_1) (phi gamma i j p_2) (dphi gamma i j p_2))) = p_2 := by
      have : phi gamma i j p_2 = 0 := e2 ▸ hstar
      rw [this, hcand, newtonClamp_of_mem (hb1.trans hb2) le_rfl]
    refine ⟨hn1, hn2.trans (hn3.trans e2.ge), ?_, hn3⟩
    rw [e2]
    exact le_trans ht2.ge (le_max_right _ _)
  rcases hb1.eq_or_lt with e1 | l1
  · have ht1 : newtonClamp p_1 p_2 (newtonCandidate 0 1 p_1 (phi gamma i j p_1) (dphi gamma i j p_1)
        (newtonDD112 0 p_1 p_2 (phi gamma i j p_1) (phi gamma i j p_2) (dphi gamma i j p_1))) = p_1 := by
      have : phi gamma i j p_1 = 0 := e1 ▸ hstar
      rw [this, hcand, newtonClamp_of_mem le_rfl (hb1.trans hb2)]
    refine ⟨hn1, ?_, ?_, hn3⟩
    · rw [← e1]
      exact le_trans (min_le_left _ _) ht1.le
    · rw [← e1]
      exact hn1.trans hn2
  obtain ⟨Fi, dFi, hFi, cFi⟩ := branch (b := p_2) hg hi h1 hci
  obtain ⟨Fj, dFj, hFj, cFj⟩ := branch (b := p_2) hg hj h1 hcj
  have l12 : p_1 < p_2 := l1.trans l2
  set F : ℝ → ℝ := fun t => Fi t + Fj t + (j.u - i.u) with hF
  set dF : ℝ → ℝ := fun t => dFi t + dFj t with hdF
  have hFe : ∀ t ∈ Set.Icc p_1 p_2, F t = phi gamma i j t := by
    intro t ht
    simp only [hF]
    rw [(hFi t ht).1, (hFj t ht).1]
    unfold phi; ring
  have hdFe : ∀ t ∈ Set.Icc p_1 p_2, dF t = dphi gamma i j t := by
    intro t ht
    simp only [hdF]
    rw [(hFi t ht).2.1, (hFj t ht).2.1]
    rfl
  have h3 : ThreeConvexOrConcave p_1 p_2 F dF :=
    ⟨fun t ht => ((hFi t ht).2.2.add (hFj t ht).2.2).add_const _, Or.inl (cFi.add cFj)⟩
  have m1 : p_1 ∈ Set.Icc p_1 p_2 := ⟨le_rfl, l12.le⟩
  have m2 : p_2 ∈ Set.Icc p_1 p_2 := ⟨l12.le, le_rfl⟩
  have s1 : F p_1 < 0 := by
    rw [hFe _ m1, ← hstar]; exact phi_strictMono hg hi hj h1 l1
  have s2 : 0 < F p_2 := by
    rw [hFe _ m2, ← hstar]; exact phi_strictMono hg hi hj (h1.trans l1) l2
  have hC := C01_newton_bracket_increasing p_1 p_2 F dF l12 h3 s1 s2
  dsimp only at hC
  rw [hFe _ m1, hFe _ m2, hdFe _ m1, hdFe _ m2] at hC
  have hr1 : r.1 ∈ Set.Icc p_1 p_2 := ⟨hn1, hn2.trans hn3⟩
  have hr2 : r.2 ∈ Set.Icc p_1 p_2 := ⟨hn1.trans hn2, hn3⟩
  rw [hFe _ hr1, hFe _ hr2] at hC
  refine ⟨hn1, ?_, ?_, hn3⟩
  · by_contra hlt
    push Not at hlt
    have := phi_strictMono hg hi hj (h1.trans l1) hlt
    linarith [hC.1]
  · by_contra hlt
    push Not at hlt
    have := phi_strictMono hg hi hj (h1.trans_le hr2.1) hlt
    linarith [hC.2]

/-- The start interval of the Newton iteration brackets the star pressure, and both waves keep their type on it. -/
theorem start_bracket (hg : 1 < gamma) (hg2 : gamma ≤ 5 / 3) (hi : Gas gamma i) (hj : Gas gamma j) {ps : ℝ}
    (h : Spec.IsStarPressure gamma i.rho i.u i.p j.rho j.u j.p ps) (hmin : min i.p j.p ≤ ps)
    (hcase : max i.p j.p ≤ ps ∨ ps ≤ pStarFailsafe gamma i j) :
    0 < startP1 gamma i j ∧ startP1 gamma i j ≤ ps ∧ ps ≤ startP2 gamma i j ∧
      (i.p ≤ startP1 gamma i j ∨ startP2 gamma i j ≤ i.p) ∧ (j.p ≤ startP1 gamma i j ∨ startP2 gamma i j ≤ j.p) := by
  have h2 := star_le_startP2 hg hg2 hi hj h hcase
  have hstar : phi gamma i j ps = 0 := by rw [phi_eq hi hj]; exact h.2
  have hpi := hi.p_pos
  have hpj := hj.p_pos
  have hphi := phiOfPMax_eq hg hi hj
  have hmaxpos : 0 < max i.p j.p := lt_of_lt_of_le hpi (le_max_left _ _)
  rw [← phi_eq hi hj] at hphi
  by_cases hneg : phiOfPMax gamma i j < 0
  · have hlt : max i.p j.p < ps := by
      by_contra hcon
      push Not at hcon
      rcases hcon.eq_or_lt with e | l
      · rw [← e, hstar] at hphi; linarith
      · have := phi_strictMono hg hi hj h.1 l
        linarith
    have e1 : startP1 gamma i j = max i.p j.p := by
      unfold startP1 maskLt
      dsimp only
      rw [if_pos hneg, if_pos (hlt.le.trans h2)]
    rw [e1]
    exact ⟨hmaxpos, hlt.le, h2, Or.inl (le_max_left _ _), Or.inl (le_max_right _ _)⟩
  · have hle : startP2 gamma i j ≤ max i.p j.p := by
      unfold startP2 maskLt
      dsimp only
      rw [if_neg hneg]
      exact min_le_left _ _
    have e1 : startP1 gamma i j = min i.p j.p := by
      unfold startP1 maskLt
      dsimp only
      rw [if_neg hneg, if_pos (hmin.trans h2)]
    rw [e1]
    refine ⟨lt_min hpi hpj, hmin, h2, ?_, ?_⟩
    · rcases le_total i.p j.p with hij | hij
      · exact Or.inl (min_eq_left hij).ge
      · exact Or.inr (hle.trans (max_eq_left hij).le)
    · rcases le_total i.p j.p with hij | hij
      · exact Or.inr (hle.trans (max_eq_right hij).le)
      · exact Or.inl (min_eq_right hij).ge

/-- For every number of Newton iterations, the pressure at which the wave speed is evaluated bounds the star pressure. -/
theorem compute_star {L : ℕ} (hg : 1 < gamma) (hg2 : gamma ≤ 5 / 3) (rp : RiemannParams) (heps : rp.eps = 0)
    (i j : Fin L → RiemannData) (l : Fin L) (hi : Gas gamma (i l)) (hj : Gas gamma (j l)) {ps : ℝ}
    (h : Spec.IsStarPressure gamma (i l).rho (i l).u (i l).p (j l).rho (j l).u (j l).p ps)
    (hmin : min (i l).p (j l).p ≤ ps)
    (hcase : max (i l).p (j l).p ≤ ps ∨ ps ≤ pStarFailsafe gamma (i l) (j l)) :
    ∃ q, ps ≤ q ∧ compute gamma rp i j l = computeLambda gamma (i l) (j l) q := by
  have h2 := star_le_startP2 hg hg2 hi hj h hcase
  have hstar : phi gamma (i l) (j l) ps = 0 := by rw [phi_eq hi hj]; exact h.2
  unfold compute
  split_ifs
  · exact ⟨_, h2, rfl⟩
  · dsimp only
    set Q : Fin L → ℝ → ℝ → Prop := fun l' p_1 p_2 => l' = l → 0 < p_1 ∧ p_1 ≤ ps ∧ ps ≤ p_2 ∧
      ((i l).p ≤ p_1 ∨ p_2 ≤ (i l).p) ∧ ((j l).p ≤ p_1 ∨ p_2 ≤ (j l).p) with hQ
    have hinv := newtonLoop_invariant gamma rp i j Q ?_ rp.newton_max_iterations
      (fun l => ⟨startP1 gamma (i l) (j l), startP2 gamma (i l) (j l),
        (computeGap gamma (i l) (j l) (startP1 gamma (i l) (j l)) (startP2 gamma (i l) (j l))).1,
        (computeGap gamma (i l) (j l) (startP1 gamma (i l) (j l)) (startP2 gamma (i l) (j l))).2⟩) ?_ l
    · exact ⟨_, (hinv.1 rfl).2.2.1, hinv.2⟩
    · intro l' p_1 p_2 hq e
      subst e
      obtain ⟨a1, a2, a3, a4, a5⟩ := hq rfl
      rw [heps]
      obtain ⟨b1, b2, b3, b4⟩ := newtonStep_keeps hg hi hj hstar a1 a2 a3 a4 a5
      exact ⟨a1.trans_le b1, b2, b3, a4.imp (fun h => h.trans b1) (fun h => b4.trans h),
        a5.imp (fun h => h.trans b1) (fun h => b4.trans h)⟩
    · intro l'
      refine ⟨fun e => ?_, rfl⟩
      subst e
      exact start_bracket hg hg2 hi hj h hmin hcase

end Euler
end Ryujin
