import Verif.Proofs.AeosLimiter

/-!
# C02, C03, C53 – the convex limiter of the Euler equations with arbitrary equation of state
-/

namespace Ryujin
namespace Aeos

open Euler (State density momentum totalEnergy internalEnergy mkState)

variable {dim L : ℕ}

/-- **C02 (AEOS).** The returned coefficient lies in `[t_min, t_max]` in every lane. -/
theorem C02_aeos_limit_range (p : Params) (lp : LimiterParams) (bounds : Fin L → Bounds)
    (U P : Fin L → State dim) (t_min t_max : Fin L → ℝ) (l : Fin L) (h : t_min l ≤ t_max l) :
    t_min l ≤ (limit p lp bounds U P t_min t_max).1 l ∧
      (limit p lp bounds U P t_min t_max).1 l ≤ t_max l := by
  have hd := densityLimit_mem p.eps (bounds l).rho_min (bounds l).rho_max (density (U l))
    (density (P l)) (t_min l) (t_max l) h
  have := newtonLoop_mem p.eps lp.newton_tolerance
    (fun l => psi p (bounds l).gamma_min (bounds l).s_min (U l) (P l))
    (fun l => dpsi p (bounds l).gamma_min (bounds l).s_min (U l) (P l))
    (fun l => lowerBound p (bounds l).gamma_min (bounds l).s_min (U l) (P l)) l
    lp.newton_max_iterations 0 t_min
    (fun l => densityLimit p.eps (bounds l).rho_min (bounds l).rho_max (density (U l))
      (density (P l)) (t_min l) (t_max l))
    (∀ l, densityInBounds p (bounds l).rho_min (bounds l).rho_max (density (U l))) hd.1
  exact ⟨this.1, this.2.trans hd.2⟩

/-- **C03 (AEOS).** Every convex update `U + s P`, `0 ≤ s ≤ t`, keeps the density within its bounds. -/
theorem C03_aeos_limit_density (p : Params) (lp : LimiterParams) (bounds : Fin L → Bounds)
    (U P : Fin L → State dim) (t_min t_max : Fin L → ℝ) (l : Fin L) (h : t_min l ≤ t_max l)
    (heps : 0 ≤ p.eps) (h0 : 0 ≤ (bounds l).rho_max)
    (hU : (bounds l).rho_min ≤ density (U l) ∧ density (U l) ≤ (bounds l).rho_max)
    (htmin : (bounds l).rho_min ≤ density (U l + t_min l • P l) ∧
      density (U l + t_min l • P l) ≤ (bounds l).rho_max)
    (s : ℝ) (hs0 : 0 ≤ s) (hs : s ≤ (limit p lp bounds U P t_min t_max).1 l) :
    (bounds l).rho_min ≤ density (U l + s • P l) ∧ density (U l + s • P l) ≤ (bounds l).rho_max := by
  have hd := densityLimit_mem p.eps (bounds l).rho_min (bounds l).rho_max (density (U l))
    (density (P l)) (t_min l) (t_max l) h
  have := newtonLoop_mem p.eps lp.newton_tolerance
    (fun l => psi p (bounds l).gamma_min (bounds l).s_min (U l) (P l))
    (fun l => dpsi p (bounds l).gamma_min (bounds l).s_min (U l) (P l))
    (fun l => lowerBound p (bounds l).gamma_min (bounds l).s_min (U l) (P l)) l
    lp.newton_max_iterations 0 t_min
    (fun l => densityLimit p.eps (bounds l).rho_min (bounds l).rho_max (density (U l))
      (density (P l)) (t_min l) (t_max l))
    (∀ l, densityInBounds p (bounds l).rho_min (bounds l).rho_max (density (U l))) hd.1
  exact densityLimit_bounds heps h0 hU.1 hU.2 htmin hs0 (hs.trans this.2)

/-- **C53 (AEOS surrogate entropy minimum principle; exact arithmetic, `eps = 0`).** If the low-order
state satisfies the density bounds (with a positive covolume up to `rho_max`) and has surrogate specific
entropy at least `s_min`, so has every convex update `U + s P`, `0 ≤ s ≤ t`.  Missing for the full
statement: `eps > 0`. -/
theorem C53_aeos_limit_entropy_partial (p : Params) (lp : LimiterParams) (bounds : Fin L → Bounds)
    (U P : Fin L → State dim) (t_max : Fin L → ℝ) (l : Fin L) (h : 0 ≤ t_max l)
    (heps : p.eps = 0) (hb : 0 ≤ p.b) (hg : 1 ≤ (bounds l).gamma_min)
    (hmin : 0 < (bounds l).rho_min) (hcov : p.b * (bounds l).rho_max < 1)
    (hsmin : 0 ≤ (bounds l).s_min)
    (hU : (bounds l).rho_min ≤ density (U l) ∧ density (U l) ≤ (bounds l).rho_max)
    (hent : (bounds l).s_min ≤ surrogateSpecificEntropy p (U l) (bounds l).gamma_min)
    (s : ℝ) (hs0 : 0 ≤ s) (hs : s ≤ (limit p lp bounds U P (fun _ => 0) t_max).1 l) :
    (bounds l).s_min ≤ surrogateSpecificEntropy p (U l + s • P l) (bounds l).gamma_min := by
  set tr := densityLimit p.eps (bounds l).rho_min (bounds l).rho_max (density (U l))
    (density (P l)) 0 (t_max l) with htr
  set g := (bounds l).gamma_min with hgdef
  have hd := densityLimit_mem p.eps (bounds l).rho_min (bounds l).rho_max (density (U l))
    (density (P l)) 0 (t_max l) h
  have h0 : 0 ≤ (bounds l).rho_max := by linarith [hU.1, hU.2]
  have hok : ∀ r, (bounds l).rho_min ≤ r → r ≤ (bounds l).rho_max → DensityOk p r := by
    intro r h1 h2
    refine ⟨lt_of_lt_of_le hmin h1, ?_⟩
    have := mul_le_mul_of_nonneg_left h2 hb
    linarith
  have hpos : ∀ t, 0 ≤ t → t ≤ tr → DensityOk p (density (U l + t • P l)) := fun t ht0 ht => by
    have := densityLimit_bounds heps.ge h0 hU.1 hU.2 (by simpa using hU) ht0 ht
    exact hok _ this.1 this.2
  obtain ⟨b, hbb⟩ := newtonLoop_inv p.eps lp.newton_tolerance
    (fun l => psi p (bounds l).gamma_min (bounds l).s_min (U l) (P l))
    (fun l => dpsi p (bounds l).gamma_min (bounds l).s_min (U l) (P l))
    (fun l => lowerBound p (bounds l).gamma_min (bounds l).s_min (U l) (P l)) l
    (fun a b => 0 ≤ a ∧ a ≤ b ∧ b ≤ tr ∧ 0 ≤ psi p g (bounds l).s_min (U l) (P l) a)
    (fun a b ⟨h1, h2, h3, _⟩ hp => ⟨h1.trans h2, le_rfl, h3, le_of_lt hp⟩)
    (fun a b ⟨h1, h2, h3, h4⟩ hp => by
      have q := newtonStep_nested p.eps a b (psi p g (bounds l).s_min (U l) (P l) a)
        (psi p g (bounds l).s_min (U l) (P l) b) (dpsi p g (bounds l).s_min (U l) (P l) a)
        (dpsi p g (bounds l).s_min (U l) (P l) b) (-1) h2
      refine ⟨h1.trans q.1, q.2.1, q.2.2.trans h3, ?_⟩
      rcases hp with hp | hp
      · simp only [heps]
        have hnn : ∀ t ∈ Set.Icc a b, DensityOk p (density (U l + t • P l)) := fun t ht =>
          hpos t (h1.trans ht.1) (ht.2.trans h3)
        exact newton_step_left_good h2 (psi_threeConvex p heps hb hg hsmin (U l) (P l) hnn) h4 hp
          (fun hz => psi_interval p heps hb hg hsmin (U l) (P l) (hpos a h1 (h2.trans h3))
            (hpos b (h1.trans h2) h3) h4 hz.ge)
      · subst hp
        have : (quadraticNewtonStep p.eps a a (psi p g (bounds l).s_min (U l) (P l) a)
          (psi p g (bounds l).s_min (U l) (P l) a) (dpsi p g (bounds l).s_min (U l) (P l) a)
          (dpsi p g (bounds l).s_min (U l) (P l) a) (-1)).1 = a :=
          le_antisymm (q.2.1.trans q.2.2) q.1
        rw [this]; exact h4)
    lp.newton_max_iterations 0 (fun _ => 0)
    (fun l => densityLimit p.eps (bounds l).rho_min (bounds l).rho_max (density (U l))
      (density (P l)) 0 (t_max l))
    (∀ l, densityInBounds p (bounds l).rho_min (bounds l).rho_max (density (U l)))
    ⟨le_rfl, hd.1, le_rfl, by
      rw [psi_nonneg_iff p heps _ _ _ _ _ (hpos 0 le_rfl hd.1).1, zero_smul, add_zero]
      exact (entropy_iff p _ _ _ (hok _ hU.1 hU.2)).1 hent⟩
  have hle : s ≤ tr := hs.trans (hbb.2.1.trans hbb.2.2.1)
  have hps := psi_interval p heps hb hg hsmin (U l) (P l) (a := 0) (hpos 0 le_rfl hd.1)
    (hpos _ hbb.1 (hbb.2.1.trans hbb.2.2.1))
    (by rw [psi_nonneg_iff p heps _ _ _ _ _ (hpos 0 le_rfl hd.1).1, zero_smul, add_zero]
        exact (entropy_iff p _ _ _ (hok _ hU.1 hU.2)).1 hent) hbb.2.2.2 s ⟨hs0, hs⟩
  rw [entropy_iff p _ _ _ (hpos s hs0 hle)]
  exact (psi_nonneg_iff p heps _ _ _ _ _ (hpos s hs0 hle).1).1 hps

/-- Non-vacuity: a stiffened covolume gas `b = 1/10`, `pinf = 1`, `q = 1/2`, `gamma_min = 2`. -/
example :
    let p : Params := ⟨1 / 10, 1, 1 / 2, 1, 100, 10000, 0⟩
    let b : Bounds := ⟨1 / 2, 3 / 2, 1, 2⟩
    let U : State 2 := mkState 1 (fun _ => 0) 4
    let P : State 2 := mkState 1 (fun _ => 1) (-2)
    (0 : ℝ) ≤ 1 ∧ p.eps = 0 ∧ 0 ≤ p.b ∧ 1 ≤ b.gamma_min ∧ 0 < b.rho_min ∧ p.b * b.rho_max < 1 ∧
      0 ≤ b.s_min ∧ (b.rho_min ≤ density U ∧ density U ≤ b.rho_max) ∧
      b.s_min ≤ surrogateSpecificEntropy p U b.gamma_min ∧ b.rho_max < density (U + (1 : ℝ) • P) := by
  refine ⟨by norm_num, rfl, by norm_num, by norm_num, by norm_num, by norm_num, by norm_num, ?_, ?_, ?_⟩
  · norm_num
  · norm_num [surrogateSpecificEntropy, shift, covolume, internalEnergy, normSq]
  · norm_num

end Aeos
end Ryujin
