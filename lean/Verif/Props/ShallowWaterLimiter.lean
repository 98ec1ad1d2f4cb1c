import Verif.Proofs.ShallowWater
import Mathlib.Data.List.Perm.Basic
import Mathlib.Tactic.FinCases

/-!
# C02, C05, C06, C07, C55 – the shallow water limiter
-/

namespace Ryujin
namespace ShallowWater

variable {dim L : ℕ}

/-- **C02 (shallow water).** The returned coefficient lies in `[t_min, t_max]` in every lane, for every
configuration of the limiter and every input. -/
theorem C02_sw_limit_range (p : Params) (lp : LimiterParams) (bounds : Fin L → Bounds)
    (U P : Fin L → State dim) (t_min t_max : Fin L → ℝ) (l : Fin L) (h : t_min l ≤ t_max l) :
    t_min l ≤ (limit p lp bounds U P t_min t_max).1 l ∧
      (limit p lp bounds U P t_min t_max).1 l ≤ t_max l := by
  have hd : t_min l ≤ depthLimits p bounds U P t_min t_max l ∧
      depthLimits p bounds U P t_min t_max l ≤ t_max l :=
    depthLimit_mem p (bounds l) (waterDepth (U l)) (waterDepth (P l)) h
  obtain ⟨h1, h2, h3, h4⟩ := limit_cases p lp bounds U P t_min t_max
  cases hv : lp.limit_on_square_velocity <;> cases hk : lp.limit_on_kinetic_energy
  · rw [h1 hv hk]; exact ⟨le_rfl, h⟩
  · rcases h4 hv hk with ⟨s, e⟩ | e <;> rw [e]
    · have := kinStage_mem p lp bounds U P t_min _ s l hd.1
      exact ⟨this.1, this.2.trans hd.2⟩
    · have := mask_le (psi := psiKin p (bounds l).kin_max (U l) (P l)
        (depthLimits p bounds U P t_min t_max l)) hd.1
      exact ⟨this.1, this.2.trans hd.2⟩
  · obtain ⟨s, e⟩ := h2 hv hk
    have := velocityStage_mem p lp bounds U P t_min _ s l hd.1
    rw [e]; exact ⟨this.1, this.2.trans hd.2⟩
  · obtain ⟨s, s', e⟩ := h3 hv hk
    have h5 := kinStage_mem p lp bounds U P t_min _ s l hd.1
    have := velocityStage_mem p lp bounds U P t_min _ s' l h5.1
    rw [e]; exact ⟨this.1, this.2.trans (h5.2.trans hd.2)⟩

/-- The returned coefficient never exceeds the depth limit. -/
theorem C02_sw_limit_le_depthLimit (p : Params) (lp : LimiterParams) (bounds : Fin L → Bounds)
    (U P : Fin L → State dim) (t_min t_max : Fin L → ℝ) (l : Fin L) (h : t_min l ≤ t_max l) :
    (limit p lp bounds U P t_min t_max).1 l ≤
      depthLimit p (bounds l) (waterDepth (U l)) (waterDepth (P l)) (t_min l) (t_max l) := by
  have hd : t_min l ≤ depthLimits p bounds U P t_min t_max l :=
    (depthLimit_mem p (bounds l) (waterDepth (U l)) (waterDepth (P l)) h).1
  show _ ≤ depthLimits p bounds U P t_min t_max l
  obtain ⟨h1, h2, h3, h4⟩ := limit_cases p lp bounds U P t_min t_max
  cases hv : lp.limit_on_square_velocity <;> cases hk : lp.limit_on_kinetic_energy
  · rw [h1 hv hk]; exact hd
  · rcases h4 hv hk with ⟨s, e⟩ | e <;> rw [e]
    · exact (kinStage_mem p lp bounds U P t_min _ s l hd).2
    · exact (mask_le (psi := psiKin p (bounds l).kin_max (U l) (P l)
        (depthLimits p bounds U P t_min t_max l)) hd).2
  · obtain ⟨s, e⟩ := h2 hv hk
    rw [e]; exact (velocityStage_mem p lp bounds U P t_min _ s l hd).2
  · obtain ⟨s, s', e⟩ := h3 hv hk
    have h5 := kinStage_mem p lp bounds U P t_min _ s l hd
    rw [e]; exact (velocityStage_mem p lp bounds U P t_min _ s' l h5.1).2.trans h5.2

/-- **C02 (shallow water, no needless limiting).** If at least one of the two stages is on, and
`U + t_max P` respects the depth bounds (including the dry-state threshold `h_small`) and strictly
satisfies the velocity and kinetic energy bounds in force, then `t_max` is returned.  Missing for the full
statement: the configuration with both stages off, where it fails, see
`C02_sw_limit_needless_limiting_violation`. -/
theorem C02_sw_limit_no_needless_limiting_partial (p : Params) (lp : LimiterParams)
    (bounds : Fin L → Bounds) (U P : Fin L → State dim) (t_min t_max : Fin L → ℝ) (l : Fin L)
    (hon : lp.limit_on_square_velocity = true ∨ lp.limit_on_kinetic_energy = true)
    (h : t_min l ≤ t_max l) (hs : 0 ≤ p.dry_state_relaxation_small * p.eps)
    (hv2 : 0 ≤ (bounds l).v2_max) (hk0 : 0 ≤ (bounds l).kin_max)
    (hpos : 0 ≤ waterDepth (U l + t_max l • P l))
    (hmin : (bounds l).h_min ≤ waterDepth (U l + t_max l • P l))
    (hsmall : (bounds l).h_small ≤ waterDepth (U l + t_max l • P l))
    (hmax : waterDepth (U l + t_max l • P l) ≤ (bounds l).h_max)
    (hvel : lp.limit_on_square_velocity = true → normSq (momentum (U l + t_max l • P l))
      < waterDepth (U l + t_max l • P l) ^ 2 * (bounds l).v2_max)
    (hkin : lp.limit_on_kinetic_energy = true → (1 / 2) * normSq (momentum (U l + t_max l • P l))
      < waterDepth (U l + t_max l • P l) * (bounds l).kin_max) :
    (limit p lp bounds U P t_min t_max).1 l = t_max l := by
  have e : depthLimits p bounds U P t_min t_max l = t_max l := depthLimit_noop h hmin hsmall hmax
  have hpv : lp.limit_on_square_velocity = true →
      0 < psiVel p (bounds l).v2_max (U l) (P l) (t_max l) := by
    intro hv
    have := hvel hv
    have h1 : 0 ≤ p.dry_state_relaxation_small * p.eps *
        (waterDepth (U l + t_max l • P l) ^ 2 * (bounds l).v2_max) := by positivity
    unfold psiVel
    simp only
    linarith
  have hpk : lp.limit_on_kinetic_energy = true →
      0 < psiKin p (bounds l).kin_max (U l) (P l) (t_max l) := by
    intro hv
    have := hkin hv
    have h1 : 0 ≤ p.dry_state_relaxation_small * p.eps *
        (waterDepth (U l + t_max l • P l) * (bounds l).kin_max) := by positivity
    unfold psiKin
    simp only
    linarith
  -- a stage whose functional is positive at the right end point returns the right end point
  have key : ∀ (psi dpsi lower : Fin L → ℝ → ℝ) (t_l t_r : Fin L → ℝ) (s : Prop), 0 < psi l (t_r l) →
      (newtonOnce p.eps lp.newton_tolerance psi dpsi lower
        (fun l => maskGt (psi l (t_r l)) 0 (t_r l) (t_l l)) t_r s).1 l = t_r l := by
    intro psi dpsi lower t_l t_r s hp
    have hm : maskGt (psi l (t_r l)) 0 (t_r l) (t_l l) = t_r l := if_pos hp
    have := newtonOnce_mem p.eps lp.newton_tolerance psi dpsi lower
      (fun l => maskGt (psi l (t_r l)) 0 (t_r l) (t_l l)) t_r s l hm.le
    exact le_antisymm this.2 (hm.ge.trans this.1)
  have keyv : ∀ (t_r : Fin L → ℝ) (s : Prop), lp.limit_on_square_velocity = true → t_r l = t_max l →
      (velocityStage p lp bounds U P t_min t_r s).1 l = t_max l := by
    intro t_r s hv ht
    have hp : 0 < psiVel p (bounds l).v2_max (U l) (P l) (t_r l) := by rw [ht]; exact hpv hv
    unfold velocityStage
    simp only
    split
    · rename_i heq
      exact (congrFun heq l).trans ht
    · exact (key (fun l => psiVel p (bounds l).v2_max (U l) (P l)) _ _ _ _ _ hp).trans ht
  have keyk : ∀ s, lp.limit_on_kinetic_energy = true →
      (kinStage p lp bounds U P t_min (depthLimits p bounds U P t_min t_max) s).1 l = t_max l := by
    intro s hk
    have hp : 0 < psiKin p (bounds l).kin_max (U l) (P l) (depthLimits p bounds U P t_min t_max l) := by
      rw [e]; exact hpk hk
    exact (key (fun l => psiKin p (bounds l).kin_max (U l) (P l)) _ _ _ _ _ hp).trans e
  obtain ⟨-, h2, h3, h4⟩ := limit_cases p lp bounds U P t_min t_max
  cases hv : lp.limit_on_square_velocity <;> cases hk : lp.limit_on_kinetic_energy
  · simp [hv, hk] at hon
  · rcases h4 hv hk with ⟨s, e'⟩ | e' <;> rw [e']
    · exact keyk s hk
    · show maskGt _ _ _ _ = _
      rw [e]; exact if_pos (hpk hk)
  · obtain ⟨s, e'⟩ := h2 hv hk
    rw [e']; exact keyv _ _ hv e
  · obtain ⟨s, s', e'⟩ := h3 hv hk
    rw [e']; exact keyv _ _ hv (keyk s hk)

/-- **C02 (shallow water, finding).** If limiting on kinetic energy and on the square velocity are both
switched off, `limit` returns `t_min` (that is, `0`) for *every* input: all antidiffusion is discarded,
although only the water depth should be limited. -/
theorem C02_sw_limit_needless_limiting_violation (p : Params) (lp : LimiterParams)
    (bounds : Fin L → Bounds) (U P : Fin L → State dim) (t_min t_max : Fin L → ℝ)
    (hv : lp.limit_on_square_velocity = false) (hk : lp.limit_on_kinetic_energy = false) :
    (limit p lp bounds U P t_min t_max).1 = t_min := by
  simp [limit, hv, hk]

/-- **C05.** If the low-order water depth is within `[h_min, h_max]` then the depth of `U + s P` is
within `[h_min, h_max]` for all `0 ≤ s ≤ t`, with `t` the returned coefficient: in every lane, for every
limiter configuration, every Newton tolerance, every `eps ≥ 0` and every dry-state threshold. -/
theorem C05_sw_limit_depth (p : Params) (lp : LimiterParams) (bounds : Fin L → Bounds)
    (U P : Fin L → State dim) (t_max : Fin L → ℝ) (l : Fin L) (h : 0 ≤ t_max l)
    (heps : 0 ≤ p.eps) (htiny : 0 ≤ p.tiny) (h0 : 0 ≤ (bounds l).h_max)
    (hU : (bounds l).h_min ≤ waterDepth (U l) ∧ waterDepth (U l) ≤ (bounds l).h_max)
    (s : ℝ) (hs0 : 0 ≤ s) (hs : s ≤ (limit p lp bounds U P (fun _ => 0) t_max).1 l) :
    (bounds l).h_min ≤ waterDepth (U l + s • P l) ∧ waterDepth (U l + s • P l) ≤ (bounds l).h_max :=
  depthLimit_bounds (h_U := waterDepth (U l)) (h_P := waterDepth (P l)) heps htiny h0 hU.1 hU.2 (by simpa only [zero_mul, add_zero] using hU) hs0
    (hs.trans (C02_sw_limit_le_depthLimit p lp bounds U P _ t_max l h))

/-- **C05 (nonnegative depth).** In particular a nonnegative lower bound keeps the depth nonnegative. -/
theorem C05_sw_limit_nonneg (p : Params) (lp : LimiterParams) (bounds : Fin L → Bounds)
    (U P : Fin L → State dim) (t_max : Fin L → ℝ) (l : Fin L) (h : 0 ≤ t_max l)
    (heps : 0 ≤ p.eps) (htiny : 0 ≤ p.tiny) (h0 : 0 ≤ (bounds l).h_min)
    (hU : (bounds l).h_min ≤ waterDepth (U l) ∧ waterDepth (U l) ≤ (bounds l).h_max)
    (s : ℝ) (hs0 : 0 ≤ s) (hs : s ≤ (limit p lp bounds U P (fun _ => 0) t_max).1 l) :
    0 ≤ waterDepth (U l + s • P l) :=
  h0.trans (C05_sw_limit_depth p lp bounds U P t_max l h heps htiny
    (h0.trans (hU.1.trans hU.2)) hU s hs0 hs).1

/-- **C05 (dry threshold).** If `U + t_max P` would fall below the dry-state threshold `h_small` while
the low-order state is itself not above it, then the lane returns exactly `0`. -/
theorem C05_sw_limit_dry (p : Params) (lp : LimiterParams) (bounds : Fin L → Bounds)
    (U P : Fin L → State dim) (t_max : Fin L → ℝ) (l : Fin L) (h : 0 ≤ t_max l)
    (heps : 0 ≤ p.eps) (htiny : 0 ≤ p.tiny) (h0 : 0 ≤ (bounds l).h_max)
    (hU : waterDepth (U l) ≤ (bounds l).h_small)
    (hnew : waterDepth (U l + t_max l • P l) < (bounds l).h_small)
    (hnew' : waterDepth (U l + t_max l • P l) ≤ (bounds l).h_max) :
    (limit p lp bounds U P (fun _ => 0) t_max).1 l = 0 := by
  refine le_antisymm ?_ (C02_sw_limit_range p lp bounds U P (fun _ => 0) t_max l h).1
  refine (C02_sw_limit_le_depthLimit p lp bounds U P (fun _ => 0) t_max l h).trans ?_
  unfold depthLimit
  simp only
  have e1 : maskLt (bounds l).h_max (waterDepth (U l) + t_max l * waterDepth (P l))
      (((bounds l).h_max - waterDepth (U l)) *
        (1 / (|waterDepth (P l)| + p.eps * (bounds l).h_max + p.tiny))) (t_max l) = t_max l :=
    if_neg (not_lt.2 hnew')
  rw [e1]
  have e2 : waterDepth (U l) + t_max l * waterDepth (P l) < max (bounds l).h_small (bounds l).h_min :=
    lt_of_lt_of_le hnew (le_max_left _ _)
  rw [maskLt, if_pos e2]
  apply max_le _ le_rfl
  apply (min_le_left _ _).trans
  apply mul_nonpos_of_nonpos_of_nonneg
  · have := le_max_left (bounds l).h_small (bounds l).h_min; linarith
  · positivity

/-- **C55 (velocity bound; exact arithmetic).** With limiting on the square velocity (the default), if
the low-order state satisfies the nonnegative depth bounds and `|m|² ≤ h² v2_max`, then so does every
`U + s P`, `0 ≤ s ≤ t`, although the code passes a wrong derivative to the Newton step
(`dpsiVel` is not the derivative of `psiVel`).  Missing for the full statement: `eps > 0`. -/
theorem C55_sw_limit_velocity_partial (p : Params) (lp : LimiterParams) (bounds : Fin L → Bounds)
    (U P : Fin L → State dim) (t_max : Fin L → ℝ) (l : Fin L) (h : 0 ≤ t_max l)
    (hv : lp.limit_on_square_velocity = true) (heps : p.eps = 0) (htiny : 0 ≤ p.tiny)
    (hmin : 0 ≤ (bounds l).h_min) (hv2 : 0 ≤ (bounds l).v2_max)
    (hU : (bounds l).h_min ≤ waterDepth (U l) ∧ waterDepth (U l) ≤ (bounds l).h_max)
    (hvel : normSq (momentum (U l)) ≤ waterDepth (U l) ^ 2 * (bounds l).v2_max)
    (s : ℝ) (hs0 : 0 ≤ s) (hs : s ≤ (limit p lp bounds U P (fun _ => 0) t_max).1 l) :
    normSq (momentum (U l + s • P l)) ≤ waterDepth (U l + s • P l) ^ 2 * (bounds l).v2_max := by
  set t := (limit p lp bounds U P (fun _ => 0) t_max).1 l with ht
  have hh : ∀ x, 0 ≤ x → x ≤ depthLimit p (bounds l) (waterDepth (U l)) (waterDepth (P l)) 0 (t_max l) →
      0 ≤ waterDepth (U l + x • P l) := fun x hx0 hx =>
    hmin.trans (depthLimit_bounds heps.ge htiny (hmin.trans (hU.1.trans hU.2)) hU.1 hU.2
      (by simpa only [zero_mul, add_zero] using hU) hx0 hx).1
  have htd := C02_sw_limit_le_depthLimit p lp bounds U P (fun _ => 0) t_max l h
  have ht0 := (C02_sw_limit_range p lp bounds U P (fun _ => 0) t_max l h).1
  have psi0 : 0 ≤ psiVel p (bounds l).v2_max (U l) (P l) 0 := by
    rw [psiVel_eq heps]; linarith
  -- the velocity stage itself
  have stage : ∀ (t_r : Fin L → ℝ) (sc : Prop), 0 ≤ t_r l →
      t_r l ≤ depthLimit p (bounds l) (waterDepth (U l)) (waterDepth (P l)) 0 (t_max l) →
      0 ≤ psiVel p (bounds l).v2_max (U l) (P l)
        ((velocityStage p lp bounds U P (fun _ => 0) t_r sc).1 l) := by
    intro t_r sc h0 h1
    unfold velocityStage
    simp only
    split
    · rename_i heq
      show 0 ≤ psiVel p (bounds l).v2_max (U l) (P l)
        (maskGt (psiVel p (bounds l).v2_max (U l) (P l) (t_r l)) 0 (t_r l) 0)
      unfold maskGt
      split
      · rename_i hp; exact hp.le
      · exact psi0
    · exact stage_good p.eps lp.newton_tolerance (fun l => psiVel p (bounds l).v2_max (U l) (P l))
        (fun l => dpsiVel (bounds l).v2_max (U l) (P l))
        (fun l => lowerVel p (bounds l).v2_max (U l) (P l)) (fun _ => 0) t_r sc l psi0
        (vel_step heps hv2 (U l) (P l) h0 (hmin.trans hU.1) (hh _ h0 h1) psi0)
  have hfinal : 0 ≤ psiVel p (bounds l).v2_max (U l) (P l) t := by
    have hd : 0 ≤ depthLimits p bounds U P (fun _ => 0) t_max l :=
      (depthLimit_mem p (bounds l) (waterDepth (U l)) (waterDepth (P l)) h).1
    obtain ⟨-, h2, h3, -⟩ := limit_cases p lp bounds U P (fun _ => 0) t_max
    cases hk : lp.limit_on_kinetic_energy
    · obtain ⟨sc, e⟩ := h2 hv hk
      rw [ht, e]; exact stage _ _ hd le_rfl
    · obtain ⟨sc, sc', e⟩ := h3 hv hk
      have h5 := kinStage_mem p lp bounds U P (fun _ => 0) _ sc l hd
      rw [ht, e]; exact stage _ _ h5.1 h5.2
  have := psiVel_interval heps hv2 (U l) (P l) (hh 0 le_rfl (ht0.trans htd)) (hh t ht0 htd) psi0 hfinal ⟨hs0, hs⟩
  have e : psiVel p (bounds l).v2_max (U l) (P l) s = waterDepth (U l + s • P l) ^ 2 * (bounds l).v2_max
      - normSq (momentum (U l + s • P l)) := by
    simp only [psiVel, heps]; ring
  linarith

/-- **C55 (kinetic energy bound; exact arithmetic).** With limiting on the kinetic energy switched on
(with or without velocity limiting), if the low-order state satisfies `1/2 |m|² ≤ h kin_max`, so does
every `U + s P`, `0 ≤ s ≤ t`.  Missing for the full statement: `eps > 0`. -/
theorem C55_sw_limit_kinetic_partial (p : Params) (lp : LimiterParams) (bounds : Fin L → Bounds)
    (U P : Fin L → State dim) (t_max : Fin L → ℝ) (l : Fin L) (h : 0 ≤ t_max l)
    (hk : lp.limit_on_kinetic_energy = true) (heps : p.eps = 0)
    (hkin : (1 / 2) * normSq (momentum (U l)) ≤ waterDepth (U l) * (bounds l).kin_max)
    (s : ℝ) (hs0 : 0 ≤ s) (hs : s ≤ (limit p lp bounds U P (fun _ => 0) t_max).1 l) :
    (1 / 2) * normSq (momentum (U l + s • P l)) ≤ waterDepth (U l + s • P l) * (bounds l).kin_max := by
  have psi0 : 0 ≤ psiKin p (bounds l).kin_max (U l) (P l) 0 := by
    rw [psiKin_eq heps]; linarith
  have hd := depthLimit_mem p (bounds l) (waterDepth (U l)) (waterDepth (P l)) h
  -- there is a good value above the returned one
  have hgood : ∃ t, (limit p lp bounds U P (fun _ => 0) t_max).1 l ≤ t ∧
      0 ≤ psiKin p (bounds l).kin_max (U l) (P l) t := by
    have hd' : 0 ≤ depthLimits p bounds U P (fun _ => 0) t_max l := hd.1
    have hg : ∀ sc, 0 ≤ psiKin p (bounds l).kin_max (U l) (P l)
        ((kinStage p lp bounds U P (fun _ => 0) (depthLimits p bounds U P (fun _ => 0) t_max) sc).1 l) :=
      fun sc => stage_good p.eps lp.newton_tolerance
        (fun l => psiKin p (bounds l).kin_max (U l) (P l))
        (fun l => dpsiKin (bounds l).kin_max (U l) (P l))
        (fun l => lowerKin p (bounds l).kin_max (U l) (P l)) (fun _ => 0) _ sc l psi0
        (kin_step heps (U l) (P l) hd' psi0)
    obtain ⟨-, -, h3, h4⟩ := limit_cases p lp bounds U P (fun _ => 0) t_max
    cases hv : lp.limit_on_square_velocity
    · rcases h4 hv hk with ⟨sc, e⟩ | e <;> rw [e]
      · exact ⟨_, le_rfl, hg sc⟩
      · refine ⟨_, le_rfl, ?_⟩
        show 0 ≤ psiKin p (bounds l).kin_max (U l) (P l) (maskGt _ _ _ _)
        unfold maskGt
        split
        · rename_i hp; exact hp.le
        · exact psi0
    · obtain ⟨sc, sc', e⟩ := h3 hv hk
      have h5 := kinStage_mem p lp bounds U P (fun _ => 0) _ sc l hd'
      rw [e]
      exact ⟨_, (velocityStage_mem p lp bounds U P (fun _ => 0) _ sc' l h5.1).2, hg sc⟩
  obtain ⟨t, ht, hpt⟩ := hgood
  have := psiKin_interval heps (U l) (P l) psi0 hpt ⟨hs0, hs.trans ht⟩
  have e : psiKin p (bounds l).kin_max (U l) (P l) s = waterDepth (U l + s • P l) * (bounds l).kin_max
      - (1 / 2) * normSq (momentum (U l + s • P l)) := by
    simp only [psiKin, heps]; ring
  linarith

/-- The derivative used by the square velocity stage really is wrong: it differs from the derivative of
the limited functional (`eps = 0`), already for one-dimensional states. -/
theorem C55_sw_wrong_derivative : ∃ (U P : State 1) (v t : ℝ), ∀ p : Params, p.eps = 0 →
    ¬ HasDerivAt (psiVel p v U P) (dpsiVel v U P t) t := by
  refine ⟨mkState 1 ![0], mkState 1 ![0], 1, 0, fun p heps hd => ?_⟩
  have h1 : HasDerivAt (psiVel p 1 (mkState 1 ![0] : State 1) (mkState 1 ![0])) 2 0 := by
    have e : psiVel p 1 (mkState 1 ![0] : State 1) (mkState 1 ![0]) = fun t => 1 + 2 * t + 1 * t ^ 2 := by
      funext t
      rw [psiVel_eq heps]
      simp [normSq, dot]
    rw [e]
    have := (((hasDerivAt_id' (0:ℝ)).const_mul 2).const_add 1).add
      (((hasDerivAt_id' (0:ℝ)).pow 2).const_mul 1)
    exact this.congr_deriv (by simp)
  have := hd.unique h1
  simp [dpsiVel, dot] at this

/-! ### Bounds -/

/-- One column of a stencil as seen by `Limiter::accumulate`. -/
structure Column (dim : ℕ) where
  U_j : State dim
  U_star_ij : State dim
  U_star_ji : State dim
  scaled_c : Vec dim
  shift : State dim

/-- `reset` followed by `accumulate` over all columns (hyperbolic_module.template.h step 4). -/
noncomputable def accumulateRow (p : Params) (big : ℝ) (U_i : State dim) (row : List (Column dim)) :
    LimiterState :=
  row.foldl (fun st e => st.accumulate p U_i e.U_j e.U_star_ij e.U_star_ji e.scaled_c e.shift)
    (LimiterState.reset big)

/-- The shifted bar state of a column. -/
noncomputable def Column.bar (p : Params) (e : Column dim) : State dim :=
  barState p e.U_star_ij e.U_star_ji e.scaled_c e.shift

/-- The mollified square velocity of a state. -/
noncomputable def velocitySquare (p : Params) (U : State dim) : ℝ :=
  normSq (inverseWaterDepthMollified p U • momentum U)

/-- **C06/C07 (shallow water): what `accumulate` computes.** The strict bounds enclose the depth, the
kinetic energy and the square velocity of every shifted bar state of the row. -/
theorem C07_sw_accumulate_bounds (p : Params) (big : ℝ) (U_i : State dim) (row : List (Column dim)) :
    let b := (accumulateRow p big U_i row).bounds
    (∀ e ∈ row, b.h_min ≤ waterDepth (e.bar p) ∧ waterDepth (e.bar p) ≤ b.h_max ∧
      kineticEnergy p (e.bar p) ≤ b.kin_max ∧ velocitySquare p (e.bar p) ≤ b.v2_max) ∧
    (b.h_min = big ∨ ∃ e ∈ row, b.h_min = waterDepth (e.bar p)) ∧
    (b.h_max = 0 ∨ ∃ e ∈ row, b.h_max = waterDepth (e.bar p)) ∧
    (b.kin_max = 0 ∨ ∃ e ∈ row, b.kin_max = kineticEnergy p (e.bar p)) ∧
    (b.v2_max = 0 ∨ ∃ e ∈ row, b.v2_max = velocitySquare p (e.bar p)) ∧
    0 ≤ b.h_max ∧ 0 ≤ b.kin_max ∧ 0 ≤ b.v2_max := by
  have key : ∀ (row : List (Column dim)) (st : LimiterState),
      let b := (row.foldl (fun st e =>
        st.accumulate p U_i e.U_j e.U_star_ij e.U_star_ji e.scaled_c e.shift) st).bounds
      (b.h_min ≤ st.bounds.h_min ∧ st.bounds.h_max ≤ b.h_max ∧ st.bounds.kin_max ≤ b.kin_max ∧
        st.bounds.v2_max ≤ b.v2_max) ∧
      (∀ e ∈ row, b.h_min ≤ waterDepth (e.bar p) ∧ waterDepth (e.bar p) ≤ b.h_max ∧
        kineticEnergy p (e.bar p) ≤ b.kin_max ∧ velocitySquare p (e.bar p) ≤ b.v2_max) ∧
      (b.h_min = st.bounds.h_min ∨ ∃ e ∈ row, b.h_min = waterDepth (e.bar p)) ∧
      (b.h_max = st.bounds.h_max ∨ ∃ e ∈ row, b.h_max = waterDepth (e.bar p)) ∧
      (b.kin_max = st.bounds.kin_max ∨ ∃ e ∈ row, b.kin_max = kineticEnergy p (e.bar p)) ∧
      (b.v2_max = st.bounds.v2_max ∨ ∃ e ∈ row, b.v2_max = velocitySquare p (e.bar p)) := by
    intro row
    induction row with
    | nil => intro st; simp
    | cons a l ih =>
      intro st
      simp only [List.foldl_cons]
      set st' := st.accumulate p U_i a.U_j a.U_star_ij a.U_star_ji a.scaled_c a.shift with hst
      have e1 : st'.bounds.h_min = min st.bounds.h_min (waterDepth (a.bar p)) := rfl
      have e2 : st'.bounds.h_max = max st.bounds.h_max (waterDepth (a.bar p)) := rfl
      have e3 : st'.bounds.kin_max = max st.bounds.kin_max (kineticEnergy p (a.bar p)) := rfl
      have e4 : st'.bounds.v2_max = max st.bounds.v2_max (velocitySquare p (a.bar p)) := rfl
      obtain ⟨⟨h1, h2, h3, h4⟩, h5, h6, h7, h8, h9⟩ := ih st'
      rw [e1] at h1 h6; rw [e2] at h2 h7; rw [e3] at h3 h8; rw [e4] at h4 h9
      refine ⟨⟨h1.trans (min_le_left _ _), (le_max_left _ _).trans h2, (le_max_left _ _).trans h3,
        (le_max_left _ _).trans h4⟩, ?_, ?_, ?_, ?_, ?_⟩
      · intro e he
        rcases List.mem_cons.1 he with rfl | he
        · exact ⟨h1.trans (min_le_right _ _), (le_max_right _ _).trans h2, (le_max_right _ _).trans h3,
            (le_max_right _ _).trans h4⟩
        · exact h5 e he
      · rcases h6 with h | ⟨e, he, h⟩
        · rcases min_choice st.bounds.h_min (waterDepth (a.bar p)) with h' | h'
          · left; rw [h]; exact h'
          · right; exact ⟨a, List.mem_cons_self, by rw [h]; exact h'⟩
        · right; exact ⟨e, List.mem_cons_of_mem _ he, h⟩
      · rcases h7 with h | ⟨e, he, h⟩
        · rcases max_choice st.bounds.h_max (waterDepth (a.bar p)) with h' | h'
          · left; rw [h]; exact h'
          · right; exact ⟨a, List.mem_cons_self, by rw [h]; exact h'⟩
        · right; exact ⟨e, List.mem_cons_of_mem _ he, h⟩
      · rcases h8 with h | ⟨e, he, h⟩
        · rcases max_choice st.bounds.kin_max (kineticEnergy p (a.bar p)) with h' | h'
          · left; rw [h]; exact h'
          · right; exact ⟨a, List.mem_cons_self, by rw [h]; exact h'⟩
        · right; exact ⟨e, List.mem_cons_of_mem _ he, h⟩
      · rcases h9 with h | ⟨e, he, h⟩
        · rcases max_choice st.bounds.v2_max (velocitySquare p (a.bar p)) with h' | h'
          · left; rw [h]; exact h'
          · right; exact ⟨a, List.mem_cons_self, by rw [h]; exact h'⟩
        · right; exact ⟨e, List.mem_cons_of_mem _ he, h⟩
  obtain ⟨⟨-, k2, k3, k4⟩, k⟩ := key row (LimiterState.reset big)
  exact ⟨k.1, k.2.1, k.2.2.1, k.2.2.2.1, k.2.2.2.2, k2, k3, k4⟩

/-- **C07 (shallow water, order independence).** -/
theorem C07_sw_accumulate_perm (p : Params) (big : ℝ) (U_i : State dim)
    {row row' : List (Column dim)} (h : row.Perm row') :
    accumulateRow p big U_i row = accumulateRow p big U_i row' := by
  have : RightCommutative (fun (st : LimiterState) (e : Column dim) =>
      st.accumulate p U_i e.U_j e.U_star_ij e.U_star_ji e.scaled_c e.shift) := ⟨fun st a b => by
    simp only [LimiterState.accumulate, LimiterState.mk.injEq, Bounds.mk.injEq]
    exact ⟨⟨min_right_comm _ _ _, max_right_comm _ _ _, trivial, max_right_comm _ _ _,
      max_right_comm _ _ _⟩, add_right_comm _ _ _, add_right_comm _ _ _, add_right_comm _ _ _,
      trivial⟩⟩
  exact h.foldl_eq _

/-- **C06 (shallow water).** Relaxation widens the bounds on depth, kinetic energy and square velocity
for every row with nonnegative bar depths; with relaxation factor zero the strict bounds are returned.
(The dry-state threshold `h_small` is not a relaxed quantity.) -/
theorem C06_sw_bounds (p : Params) (lp : LimiterParams) (big hd_i : ℝ) (U_i : State dim)
    (row : List (Column dim)) (heps : 0 ≤ p.eps) (hf : 0 ≤ lp.relaxation_factor) (hbig : 0 ≤ big)
    (hbar : ∀ e ∈ row, 0 ≤ waterDepth (e.bar p)) :
    let st := accumulateRow p big U_i row
    let b := st.relaxedBounds dim p lp hd_i
    b.h_min ≤ st.bounds.h_min ∧ st.bounds.h_max ≤ b.h_max ∧ st.bounds.kin_max ≤ b.kin_max ∧
      st.bounds.v2_max ≤ b.v2_max ∧
      (lp.relaxation_factor = 0 → b = { st.bounds with h_small := b.h_small }) := by
  intro st b
  obtain ⟨-, h2, -, -, -, hM, hK, hV⟩ := C07_sw_accumulate_bounds p big U_i row
  have hm : 0 ≤ st.bounds.h_min := by
    rcases h2 with h | ⟨e, he, h⟩
    · exact h ▸ hbig
    · exact h ▸ hbar e he
  have hr := Euler.relaxationRadius_nonneg dim (hd := hd_i) hf
  have hden : 0 ≤ st.relaxation_denominator := by
    have : ∀ (row : List (Column dim)) (st : LimiterState), 0 ≤ st.relaxation_denominator →
        0 ≤ (row.foldl (fun st e => st.accumulate p U_i e.U_j e.U_star_ij e.U_star_ji e.scaled_c
          e.shift) st).relaxation_denominator := by
      intro row
      induction row with
      | nil => intro st h; exact h
      | cons a l ih =>
        intro st h
        refine ih _ ?_
        show 0 ≤ st.relaxation_denominator + |(1:ℝ)|
        positivity
    exact this row _ le_rfl
  have q : ∀ x : ℝ, 0 ≤ 2 * |x| / (st.relaxation_denominator + p.eps) := fun x => by positivity
  have q1 := q st.h_relaxation_numerator
  have q2 := q st.kin_relaxation_numerator
  have q3 := q st.v2_relaxation_numerator
  refine ⟨max_le (by nlinarith) (by linarith), le_min (by nlinarith) (by linarith),
    le_min (by nlinarith) (by linarith), le_min (by nlinarith) (by linarith), ?_⟩
  intro h0
  have hz : Euler.relaxationRadius dim lp.relaxation_factor hd_i = 0 := by
    rw [h0]; exact Euler.relaxationRadius_zero dim hd_i
  simp only [b, LimiterState.relaxedBounds, hz, sub_zero, add_zero, one_mul]
  congr 1
  · exact max_eq_left (by linarith)
  · exact min_eq_left (by linarith)
  · exact min_eq_left (by linarith)
  · exact min_eq_left (by linarith)

/-- What it means for a state to satisfy the bounds (specification; the kinetic energy bound only counts
if the limiter is configured to use it). -/
structure Bounds.Admits (kin : Bool) (b : Bounds) (U : State dim) : Prop where
  h_min : b.h_min ≤ waterDepth U
  h_max : waterDepth U ≤ b.h_max
  v2 : normSq (momentum U) ≤ waterDepth U ^ 2 * b.v2_max
  kin : kin = true → (1 / 2) * normSq (momentum U) ≤ waterDepth U * b.kin_max

/-- **C07 (shallow water, default configuration).** Without kinetic energy limiting, the combined bounds
admit every state admitted by either of the two. -/
theorem C07_sw_combine_admits_partial (a b : Bounds) (U : State dim)
    (h : a.Admits false U ∨ b.Admits false U) : (combineBounds a b).Admits false U := by
  rcases h with h | h
  · exact ⟨(min_le_left _ _).trans h.h_min, h.h_max.trans (le_max_left _ _),
      h.v2.trans (mul_le_mul_of_nonneg_left (le_max_left _ _) (sq_nonneg _)), by simp⟩
  · exact ⟨(min_le_right _ _).trans h.h_min, h.h_max.trans (le_max_right _ _),
      h.v2.trans (mul_le_mul_of_nonneg_left (le_max_right _ _) (sq_nonneg _)), by simp⟩

/-- **C07 (shallow water, finding).** With kinetic energy limiting the combined bounds do *not* admit a
state admitted by the second argument, and combining is not commutative: the code computes
`max(k_max_l, h_max_r)` instead of `max(k_max_l, k_max_r)`. -/
theorem C07_sw_combine_violation : ∃ (a b : Bounds) (U : State 1),
    b.Admits true U ∧ ¬ (combineBounds a b).Admits true U ∧ combineBounds a b ≠ combineBounds b a := by
  refine ⟨⟨0, 1, 0, 1, 10⟩, ⟨0, 1, 0, 5, 10⟩, mkState 1 ![3], ⟨?_, ?_, ?_, ?_⟩, fun h => ?_, fun h => ?_⟩
  · norm_num
  · norm_num
  · norm_num [normSq]
  · intro; norm_num [normSq]
  · have := h.kin rfl
    norm_num [normSq, combineBounds] at this
  · have := congrArg Bounds.kin_max h
    norm_num [combineBounds] at this

/-! ### The hypotheses are satisfiable -/

/-- Example parameters (exact arithmetic). -/
noncomputable def exampleParams : Params := ⟨9.81, 0, 1, 0.2, 100, 10000, 0, 0⟩

/-- Example: a two-lane call where one lane is limited by the velocity bound. -/
example : ∃ (b : Fin 2 → Bounds) (U P : Fin 2 → State 1),
    ∀ l, 0 ≤ (b l).h_min ∧ (b l).h_min ≤ waterDepth (U l) ∧ waterDepth (U l) ≤ (b l).h_max ∧
      normSq (momentum (U l)) ≤ waterDepth (U l) ^ 2 * (b l).v2_max ∧
      (l = 0 → (b l).v2_max * waterDepth (U l + (1:ℝ) • P l) ^ 2 < normSq (momentum (U l + (1:ℝ) • P l))) := by
  refine ⟨fun _ => ⟨1/2, 2, 0, 1, 1⟩, fun _ => mkState 1 ![1/2], fun _ => mkState (1/4) ![1], ?_⟩
  intro l
  refine ⟨?_, ?_, ?_, ?_, fun _ => ?_⟩ <;> norm_num [normSq]

/-- Without a direction the bar state is the average. -/
theorem barState_zero (p : Params) (U V : State dim) :
    waterDepth (barState p U V (fun _ => 0) 0) = (waterDepth U + waterDepth V) / 2 := by
  simp [barState, contract, waterDepth, dot]; ring

/-- Example: a row whose shifted bar states have nonnegative depth. -/
example : ∃ row : List (Column 1), row.length = 2 ∧
    ∀ e ∈ row, 0 ≤ waterDepth (e.bar exampleParams) := by
  refine ⟨[⟨mkState 1 ![0], mkState 1 ![0], mkState 1 ![0], fun _ => 0, 0⟩,
    ⟨mkState 2 ![1], mkState 1 ![0], mkState 2 ![1], fun _ => 0, 0⟩], rfl, ?_⟩
  intro e he
  simp only [List.mem_cons, List.not_mem_nil, or_false] at he
  rcases he with rfl | rfl
  · rw [Column.bar, barState_zero]; norm_num
  · rw [Column.bar, barState_zero]; norm_num

end ShallowWater
end Ryujin
