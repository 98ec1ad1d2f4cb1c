import Verif.Proofs.EulerLimiter

/-!
# C02, C03, C53 – the Euler convex limiter

`limit` receives `L` SIMD lanes at once.  `(limit …).1 l` is the coefficient returned in lane `l`.
-/

namespace Ryujin
namespace Euler

variable {dim L : ℕ}

/-- **C02 (Euler).** The returned coefficient lies in `[t_min, t_max]` in every lane, for every input. -/
theorem C02_euler_limit_range (p : Params) (lp : LimiterParams) (bounds : Fin L → Bounds)
    (U P : Fin L → State dim) (t_min t_max : Fin L → ℝ) (l : Fin L) (h : t_min l ≤ t_max l) :
    t_min l ≤ (limit p lp bounds U P t_min t_max).1 l ∧
      (limit p lp bounds U P t_min t_max).1 l ≤ t_max l := by
  have hd := densityLimit_mem p.eps (bounds l).rho_min (bounds l).rho_max (density (U l))
    (density (P l)) (t_min l) (t_max l) h
  have := newtonLoop_mem p.eps lp.newton_tolerance
    (fun l => psi p (bounds l).s_min (U l) (P l)) (fun l => dpsi p (bounds l).s_min (U l) (P l))
    (fun l => lowerBound p (bounds l).s_min (U l) (P l)) l lp.newton_max_iterations 0 t_min
    (fun l => densityLimit p.eps (bounds l).rho_min (bounds l).rho_max (density (U l))
      (density (P l)) (t_min l) (t_max l))
    (∀ l, densityInBounds p (bounds l).rho_min (bounds l).rho_max (density (U l))) hd.1
  exact ⟨this.1, this.2.trans hd.2⟩

/-- **C02 (Euler, no needless limiting).** If in a lane the full update `U + t_max P` respects the
density bounds and strictly satisfies the entropy inequality, and at least one iteration is allowed,
the lane returns `t_max`, whatever happens in the other lanes. -/
theorem C02_euler_limit_no_needless_limiting (p : Params) (lp : LimiterParams)
    (bounds : Fin L → Bounds) (U P : Fin L → State dim) (t_min t_max : Fin L → ℝ) (l : Fin L)
    (hit : 0 < lp.newton_max_iterations) (h : t_min l ≤ t_max l) (hs : 0 ≤ p.vacuum_small * p.eps)
    (hρ : 0 < density (U l + t_max l • P l)) (he : 0 ≤ internalEnergy (U l + t_max l • P l))
    (hmin : (bounds l).rho_min ≤ density (U l + t_max l • P l))
    (hmax : density (U l + t_max l • P l) ≤ (bounds l).rho_max)
    (hent : (bounds l).s_min < specificEntropy p (U l + t_max l • P l)) :
    (limit p lp bounds U P t_min t_max).1 l = t_max l := by
  unfold limit
  have e : densityLimit p.eps (bounds l).rho_min (bounds l).rho_max (density (U l))
      (density (P l)) (t_min l) (t_max l) = t_max l := densityLimit_noop h hmin hmax
  apply newtonLoop_right _ _ _ _ _ _ _ _ _ _ _ _ _ e (Or.inl hit)
  have h1 : (bounds l).s_min * density (U l + t_max l • P l) ^ p.gamma
      < internalEnergy (U l + t_max l • P l) := by
    by_contra hcon
    push Not at hcon
    unfold specificEntropy at hent
    rw [one_div, Real.inv_rpow hρ.le, ← div_eq_mul_inv, lt_div_iff₀ (Real.rpow_pos_of_pos hρ _)] at hent
    linarith
  unfold psi
  simp only
  have h2 := mul_pos hρ (sub_pos.2 h1)
  have h3 := mul_nonneg hs (mul_nonneg hρ.le he)
  nlinarith

/-- **C03 (Euler).** If the low-order density is within the (nonnegative) bounds and `t_min` is a good
value, then every convex update `U + s P`, `0 ≤ s ≤ t`, with the returned `t` keeps the density within
`[rho_min, rho_max]`, for any `eps ≥ 0`, any number of Newton iterations and any tolerance. -/
theorem C03_euler_limit_density (p : Params) (lp : LimiterParams) (bounds : Fin L → Bounds)
    (U P : Fin L → State dim) (t_min t_max : Fin L → ℝ) (l : Fin L) (h : t_min l ≤ t_max l)
    (heps : 0 ≤ p.eps) (h0 : 0 ≤ (bounds l).rho_max)
    (hU : (bounds l).rho_min ≤ density (U l) ∧ density (U l) ≤ (bounds l).rho_max)
    (htmin : (bounds l).rho_min ≤ density (U l + t_min l • P l) ∧
      density (U l + t_min l • P l) ≤ (bounds l).rho_max)
    (s : ℝ) (hs0 : 0 ≤ s) (hs : s ≤ (limit p lp bounds U P t_min t_max).1 l) :
    (bounds l).rho_min ≤ density (U l + s • P l) ∧ density (U l + s • P l) ≤ (bounds l).rho_max := by
  have hd := densityLimit_mem p.eps (bounds l).rho_min (bounds l).rho_max (density (U l))
    (density (P l)) (t_min l) (t_max l) h
  have := newtonLoop_mem p.eps lp.newton_tolerance
    (fun l => psi p (bounds l).s_min (U l) (P l)) (fun l => dpsi p (bounds l).s_min (U l) (P l))
    (fun l => lowerBound p (bounds l).s_min (U l) (P l)) l lp.newton_max_iterations 0 t_min
    (fun l => densityLimit p.eps (bounds l).rho_min (bounds l).rho_max (density (U l))
      (density (P l)) (t_min l) (t_max l))
    (∀ l, densityInBounds p (bounds l).rho_min (bounds l).rho_max (density (U l))) hd.1
  exact densityLimit_bounds heps h0 hU.1 hU.2 htmin hs0 (hs.trans this.2)

/-- **C53 (Euler minimum entropy principle; exact arithmetic, `eps = 0`).** If the low-order state
satisfies the density bounds and the minimum principle on the specific entropy, then every convex
update `U + s P`, `0 ≤ s ≤ t`, with the returned `t` has specific entropy at least `s_min`, for every
number of Newton iterations, tolerance and whatever the other lanes do.  Missing for the full
statement: the code runs with `eps = 2⁻⁵²`, where the Newton iterate is only approximate. -/
theorem C53_euler_limit_entropy_partial (p : Params) (lp : LimiterParams) (bounds : Fin L → Bounds)
    (U P : Fin L → State dim) (t_max : Fin L → ℝ) (l : Fin L) (h : 0 ≤ t_max l)
    (heps : p.eps = 0) (hg : 1 ≤ p.gamma) (hmin : 0 < (bounds l).rho_min)
    (hsmin : 0 ≤ (bounds l).s_min)
    (hU : (bounds l).rho_min ≤ density (U l) ∧ density (U l) ≤ (bounds l).rho_max)
    (hent : (bounds l).s_min ≤ specificEntropy p (U l))
    (s : ℝ) (hs0 : 0 ≤ s) (hs : s ≤ (limit p lp bounds U P (fun _ => 0) t_max).1 l) :
    (bounds l).s_min ≤ specificEntropy p (U l + s • P l) := by
  set tr := densityLimit p.eps (bounds l).rho_min (bounds l).rho_max (density (U l))
    (density (P l)) 0 (t_max l) with htr
  have hd := densityLimit_mem p.eps (bounds l).rho_min (bounds l).rho_max (density (U l))
    (density (P l)) 0 (t_max l) h
  have h0 : 0 ≤ (bounds l).rho_max := by linarith [hU.1, hU.2]
  have hpos : ∀ t, 0 ≤ t → t ≤ tr → 0 < density (U l + t • P l) := fun t ht0 ht =>
    lt_of_lt_of_le hmin (densityLimit_bounds heps.ge h0 hU.1 hU.2 (by simpa using hU) ht0 ht).1
  obtain ⟨b, hb⟩ := newtonLoop_inv p.eps lp.newton_tolerance
    (fun l => psi p (bounds l).s_min (U l) (P l)) (fun l => dpsi p (bounds l).s_min (U l) (P l))
    (fun l => lowerBound p (bounds l).s_min (U l) (P l)) l
    (fun a b => 0 ≤ a ∧ a ≤ b ∧ b ≤ tr ∧ 0 ≤ psi p (bounds l).s_min (U l) (P l) a)
    (fun a b ⟨h1, h2, h3, _⟩ hp => ⟨h1.trans h2, le_rfl, h3, le_of_lt hp⟩)
    (fun a b ⟨h1, h2, h3, h4⟩ hp => by
      have q := newtonStep_nested p.eps a b (psi p (bounds l).s_min (U l) (P l) a)
        (psi p (bounds l).s_min (U l) (P l) b) (dpsi p (bounds l).s_min (U l) (P l) a)
        (dpsi p (bounds l).s_min (U l) (P l) b) (-1) h2
      refine ⟨h1.trans q.1, q.2.1, q.2.2.trans h3, ?_⟩
      rcases hp with hp | hp
      · simp only [heps]
        have hnn : ∀ t ∈ Set.Icc a b, 0 < density (U l + t • P l) := fun t ht =>
          hpos t (h1.trans ht.1) (ht.2.trans h3)
        exact newton_step_left_good h2 (psi_threeConvex p heps hg hsmin (U l) (P l) hnn) h4 hp
          (fun hz => psi_interval p heps hg hsmin (U l) (P l) (hpos a h1 (h2.trans h3))
            (hpos b (h1.trans h2) h3) h4 hz.ge)
      · subst hp
        have : (quadraticNewtonStep p.eps a a (psi p (bounds l).s_min (U l) (P l) a)
          (psi p (bounds l).s_min (U l) (P l) a) (dpsi p (bounds l).s_min (U l) (P l) a)
          (dpsi p (bounds l).s_min (U l) (P l) a) (-1)).1 = a :=
          le_antisymm (q.2.1.trans q.2.2) q.1
        rw [this]; exact h4)
    lp.newton_max_iterations 0 (fun _ => 0)
    (fun l => densityLimit p.eps (bounds l).rho_min (bounds l).rho_max (density (U l))
      (density (P l)) 0 (t_max l))
    (∀ l, densityInBounds p (bounds l).rho_min (bounds l).rho_max (density (U l)))
    ⟨le_rfl, hd.1, le_rfl, by
      rw [psi_nonneg_iff p heps _ _ _ _ (hpos 0 le_rfl hd.1), zero_smul, add_zero]
      exact (entropy_iff p _ _ (lt_of_lt_of_le hmin hU.1)).1 hent⟩
  have hle : s ≤ tr := hs.trans (hb.2.1.trans hb.2.2.1)
  have hps := psi_interval p heps hg hsmin (U l) (P l) (a := 0) (hpos 0 le_rfl hd.1)
    (hpos _ hb.1 (hb.2.1.trans hb.2.2.1))
    (by rw [psi_nonneg_iff p heps _ _ _ _ (hpos 0 le_rfl hd.1), zero_smul, add_zero]
        exact (entropy_iff p _ _ (lt_of_lt_of_le hmin hU.1)).1 hent) hb.2.2.2 s ⟨hs0, hs⟩
  rw [entropy_iff p _ _ (hpos s hs0 hle)]
  exact (psi_nonneg_iff p heps _ _ _ _ (hpos s hs0 hle)).1 hps

/-- **C53 (positivity).** Under the same hypotheses with `s_min > 0` the limited update has positive
density and positive internal energy. -/
theorem C53_euler_limit_positivity_partial (p : Params) (lp : LimiterParams) (bounds : Fin L → Bounds)
    (U P : Fin L → State dim) (t_max : Fin L → ℝ) (l : Fin L) (h : 0 ≤ t_max l)
    (heps : p.eps = 0) (hg : 1 ≤ p.gamma) (hmin : 0 < (bounds l).rho_min)
    (hsmin : 0 < (bounds l).s_min)
    (hU : (bounds l).rho_min ≤ density (U l) ∧ density (U l) ≤ (bounds l).rho_max)
    (hent : (bounds l).s_min ≤ specificEntropy p (U l)) :
    let t := (limit p lp bounds U P (fun _ => 0) t_max).1 l
    0 < density (U l + t • P l) ∧ 0 < internalEnergy (U l + t • P l) := by
  intro t
  have ht0 := (C02_euler_limit_range p lp bounds U P (fun _ => 0) t_max l h).1
  have h1 := C03_euler_limit_density p lp bounds U P (fun _ => 0) t_max l h heps.ge
    (by linarith [hU.1, hU.2]) hU (by simpa using hU) t ht0 le_rfl
  have h2 := C53_euler_limit_entropy_partial p lp bounds U P t_max l h heps hg hmin hsmin.le hU hent t
    ht0 le_rfl
  have hr : 0 < density (U l + t • P l) := lt_of_lt_of_le hmin h1.1
  refine ⟨hr, ?_⟩
  rw [entropy_iff p _ _ hr] at h2
  exact lt_of_lt_of_le (mul_pos hsmin (Real.rpow_pos_of_pos hr _)) h2

/-- **C53 (relaxed acceptance).** With `eps > 0` the full update `U + t_max P` is accepted as soon as its specific entropy,
enlarged by the factor `1 + vacuum_small eps`, exceeds `s_min`; then all convex updates satisfy the minimum principle up
to this factor. -/
theorem C53_euler_limit_relaxed_partial (p : Params) (lp : LimiterParams) (bounds : Fin L → Bounds)
    (U P : Fin L → State dim) (t_max : Fin L → ℝ) (l : Fin L) (hit : 0 < lp.newton_max_iterations) (h : 0 ≤ t_max l)
    (hδ : 0 ≤ p.vacuum_small * p.eps) (hg : 1 ≤ p.gamma) (hmin : 0 < (bounds l).rho_min)
    (hsmin : 0 ≤ (bounds l).s_min)
    (hU : (bounds l).rho_min ≤ density (U l) ∧ density (U l) ≤ (bounds l).rho_max)
    (hent : (bounds l).s_min ≤ specificEntropy p (U l))
    (hV : (bounds l).rho_min ≤ density (U l + t_max l • P l) ∧ density (U l + t_max l • P l) ≤ (bounds l).rho_max)
    (hentV : (bounds l).s_min < (1 + p.vacuum_small * p.eps) * specificEntropy p (U l + t_max l • P l)) :
    (limit p lp bounds U P (fun _ => 0) t_max).1 l = t_max l ∧
      ∀ s, 0 ≤ s → s ≤ t_max l →
        (bounds l).s_min ≤ (1 + p.vacuum_small * p.eps) * specificEntropy p (U l + s • P l) := by
  have hδ1 : 0 < 1 + p.vacuum_small * p.eps := by linarith
  have hρV : 0 < density (U l + t_max l • P l) := lt_of_lt_of_le hmin hV.1
  constructor
  · unfold limit
    have e : densityLimit p.eps (bounds l).rho_min (bounds l).rho_max (density (U l))
        (density (P l)) 0 (t_max l) = t_max l := densityLimit_noop h hV.1 hV.2
    apply newtonLoop_right _ _ _ _ _ _ _ _ _ _ _ _ _ e (Or.inl hit)
    have h1 : (bounds l).s_min * density (U l + t_max l • P l) ^ p.gamma
        < (1 + p.vacuum_small * p.eps) * internalEnergy (U l + t_max l • P l) := by
      unfold specificEntropy at hentV
      rwa [one_div, Real.inv_rpow hρV.le, ← div_eq_mul_inv, ← mul_div_assoc,
        lt_div_iff₀ (Real.rpow_pos_of_pos hρV _)] at hentV
    have h2 := mul_pos hρV (sub_pos.2 h1)
    unfold psi
    simp only
    nlinarith
  · -- the same functional without relaxation and with the smaller bound `s_min / (1 + delta)`
    intro s hs0 hs
    have hpos : ∀ t, 0 ≤ t → t ≤ t_max l → 0 < density (U l + t • P l) := by
      intro t ht0 ht
      have e : ∀ r : ℝ, density (U l + r • P l) = density (U l) + r * density (P l) := fun r => rfl
      rw [e] at hρV ⊢
      have hρU : 0 < density (U l) := lt_of_lt_of_le hmin hU.1
      rcases le_total 0 (density (P l)) with hp | hp
      · have := mul_nonneg ht0 hp; linarith
      · have := mul_le_mul_of_nonpos_right ht hp; linarith
    set q : Params := { p with eps := 0 } with hq
    set σ := (bounds l).s_min / (1 + p.vacuum_small * p.eps) with hσ
    have hσ0 : 0 ≤ σ := div_nonneg hsmin hδ1.le
    have hσle : σ ≤ (bounds l).s_min := div_le_self hsmin (by linarith)
    have hsp : ∀ V : State dim, specificEntropy q V = specificEntropy p V := fun _ => rfl
    have key : ∀ t, 0 ≤ t → t ≤ t_max l →
        (0 ≤ psi q σ (U l) (P l) t ↔ σ ≤ specificEntropy p (U l + t • P l)) := by
      intro t h0 h1
      rw [psi_nonneg_iff q rfl _ _ _ _ (hpos t h0 h1), ← entropy_iff q _ _ (hpos t h0 h1), hsp]
    have hb : σ ≤ specificEntropy p (U l + t_max l • P l) := by
      rw [hσ, div_le_iff₀ hδ1, mul_comm]; exact hentV.le
    have ha : σ ≤ specificEntropy p (U l + (0 : ℝ) • P l) := by
      rw [zero_smul, add_zero]; exact hσle.trans hent
    have hps := psi_interval q rfl hg hσ0 (U l) (P l) (a := 0) (hpos 0 le_rfl h) (hpos _ h le_rfl)
      ((key 0 le_rfl h).2 ha) ((key _ h le_rfl).2 hb) s ⟨hs0, hs⟩
    have := (key s hs0 hs).1 hps
    rwa [hσ, div_le_iff₀ hδ1, mul_comm] at this

/-- **C53 (violation for `eps > 0`).** Whenever the relaxation is active the limiter accepts an update that violates the
minimum principle: a state at rest on the bound, from which energy is removed. -/
theorem C53_euler_limit_relaxation_violation (p : Params) (lp : LimiterParams) (hit : 0 < lp.newton_max_iterations)
    (heps : 0 < p.eps) (hsmall : 0 < p.vacuum_small) (hg : 1 ≤ p.gamma) :
    ∃ (b : Bounds) (U P : State dim), 0 < b.rho_min ∧ 0 < b.s_min ∧
      (b.rho_min ≤ density U ∧ density U ≤ b.rho_max) ∧ b.s_min ≤ specificEntropy p U ∧
      specificEntropy p (U + (limit (L := 1) p lp (fun _ => b) (fun _ => U) (fun _ => P) (fun _ => 0) fun _ => 1).1 0 • P)
        < b.s_min := by
  have hδ : 0 < p.vacuum_small * p.eps := mul_pos hsmall heps
  set δ := p.vacuum_small * p.eps with hδd
  set η := δ / (2 * (1 + δ)) with hη
  have hη0 : 0 < η := by positivity
  have hx : (1 + δ) * (1 - η) = 1 + δ / 2 := by
    rw [hη]; field_simp; ring
  have hS : ∀ E : ℝ, specificEntropy (dim := dim) p (mkState 1 (fun _ => 0) E) = E := by
    intro E
    simp [specificEntropy, internalEnergy, normSq]
  have hUP : (mkState 1 (fun _ => 0) 1 : State dim) + (1 : ℝ) • mkState 0 (fun _ => 0) (-η)
      = mkState 1 (fun _ => 0) (1 - η) := by
    refine state_ext (by simp) ?_ (by simp [sub_eq_add_neg])
    funext i
    simp
  refine ⟨⟨1, 1, 1⟩, mkState 1 (fun _ => 0) 1, mkState 0 (fun _ => 0) (-η), by norm_num, by norm_num,
    ⟨by simp, by simp⟩, by rw [hS], ?_⟩
  have ht := (C53_euler_limit_relaxed_partial (L := 1) p lp (fun _ => ⟨1, 1, 1⟩)
    (fun _ => (mkState 1 (fun _ => 0) 1 : State dim)) (fun _ => mkState 0 (fun _ => 0) (-η)) (fun _ => 1) 0 hit (by norm_num)
    hδ.le hg (by norm_num) (by norm_num) ⟨by simp, by simp⟩ (by rw [hS]) (by simp only [hUP]; simp)
    (by simp only [hUP, hS]; rw [← hδd, hx]; linarith)).1
  rw [ht, hUP, hS]
  linarith

/-- Non-vacuity: a state at rest with `rho = 1`, `rho e = 2`, bounds `rho ∈ [1/2, 3/2]`, `s_min = 1`,
`gamma = 1.4`, and an antidiffusive flux removing energy: the hypotheses of all theorems above are
met (with `rho (U + P)` in bounds and `t_min = 0 ≤ t_max = 1`). -/
example :
    let p : Params := ⟨7 / 5, 1, 100, 10000, 0⟩
    let b : Bounds := ⟨1 / 2, 3 / 2, 1⟩
    let U : State 2 := mkState 1 (fun _ => 0) 2
    let P : State 2 := mkState 1 (fun _ => 1) (-2)
    (0 : ℝ) ≤ 1 ∧ p.eps = 0 ∧ 1 ≤ p.gamma ∧ 0 < b.rho_min ∧ 0 < b.s_min ∧
      (b.rho_min ≤ density U ∧ density U ≤ b.rho_max) ∧ b.s_min ≤ specificEntropy p U ∧
      b.rho_max < density (U + (1 : ℝ) • P) := by
  refine ⟨by norm_num, rfl, by norm_num, by norm_num, by norm_num, ?_, ?_, ?_⟩
  · norm_num
  · norm_num [specificEntropy, internalEnergy, normSq]
  · norm_num

end Euler
end Ryujin
