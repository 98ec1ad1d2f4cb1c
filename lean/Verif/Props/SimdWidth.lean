import Verif.Props.LimiterSuccess
import Verif.Props.AeosLimiter
import Verif.Props.EulerNewton
import Verif.Model.AeosRiemann
import Verif.Model.OneLane
import Mathlib.Algebra.Order.BigOperators.Group.List

/-!
# C121 – processing several rows at once

The time step handles most rows in groups of `L` rows (SIMD lanes).  The group shares the tests that end the Newton
iterations.  Every theorem compares what a row gets as a member of a group with what the same row gets when it is
processed alone (`Fin 1`).
-/

namespace Ryujin

/-- The joint Newton loop of the limiters against the loop of one of its lanes. -/
theorem newtonLoop_alone {L : ℕ} (eps tol : ℝ) (htol : 0 ≤ tol) (psi dpsi lower : Fin L → ℝ → ℝ) (l : Fin L)
    (fuel : ℕ) : ∀ (n : ℕ) (t_l t_r : Fin L → ℝ) (s s' : Prop), t_l l ≤ t_r l →
      (newtonLoop eps tol (fun _ : Fin 1 => psi l) (fun _ => dpsi l) (fun _ => lower l) fuel n (fun _ => t_l l)
          (fun _ => t_r l) s').1 0 ≤ (newtonLoop eps tol psi dpsi lower fuel n t_l t_r s).1 l ∧
        (newtonLoop eps tol psi dpsi lower fuel n t_l t_r s).1 l ≤
          (newtonLoop eps tol (fun _ : Fin 1 => psi l) (fun _ => dpsi l) (fun _ => lower l) fuel n (fun _ => t_l l)
            (fun _ => t_r l) s').1 0 + tol := by
  induction fuel with
  | zero => intro n t_l t_r s s' _; exact ⟨le_rfl, le_add_of_nonneg_right htol⟩
  | succ k ih =>
    intro n t_l t_r s s' h
    set a := maskGt (psi l (t_r l)) 0 (t_r l) (t_l l) with ha
    have hab : a ≤ t_r l := by
      rw [ha]; unfold maskGt; split_ifs
      · exact le_rfl
      · exact h
    -- where the group ends up
    have hmem : a ≤ (newtonLoop eps tol psi dpsi lower (k + 1) n t_l t_r s).1 l ∧
        (newtonLoop eps tol psi dpsi lower (k + 1) n t_l t_r s).1 l ≤ t_r l := by
      simp only [newtonLoop]
      split_ifs
      · exact ⟨le_rfl, hab⟩
      · exact ⟨le_rfl, hab⟩
      · have q := newtonStep_nested eps a (t_r l) (psi l a) (psi l (t_r l)) (dpsi l a) (dpsi l (t_r l)) (-1) hab
        have := newtonLoop_mem eps tol psi dpsi lower l k (n + 1)
          (fun l => (quadraticNewtonStep eps (maskGt (psi l (t_r l)) 0 (t_r l) (t_l l)) (t_r l)
            (psi l (maskGt (psi l (t_r l)) 0 (t_r l) (t_l l))) (psi l (t_r l))
            (dpsi l (maskGt (psi l (t_r l)) 0 (t_r l) (t_l l))) (dpsi l (t_r l)) (-1)).1)
          (fun l => (quadraticNewtonStep eps (maskGt (psi l (t_r l)) 0 (t_r l) (t_l l)) (t_r l)
            (psi l (maskGt (psi l (t_r l)) 0 (t_r l) (t_l l))) (psi l (t_r l))
            (dpsi l (maskGt (psi l (t_r l)) 0 (t_r l) (t_l l))) (dpsi l (t_r l)) (-1)).2)
          (s ∧ ¬ (n = 0 ∧ ¬ ∀ l, min 0 (psi l (maskGt (psi l (t_r l)) 0 (t_r l) (t_l l)) -
            lower l (maskGt (psi l (t_r l)) 0 (t_r l) (t_l l))) = 0)) q.2.1
        exact ⟨q.1.trans this.1, this.2.trans q.2.2⟩
    by_cases h1 : a = t_r l
    · -- alone: shortcut
      have e : (newtonLoop eps tol (fun _ : Fin 1 => psi l) (fun _ => dpsi l) (fun _ => lower l) (k + 1) n
          (fun _ => t_l l) (fun _ => t_r l) s').1 0 = a := by
        simp only [newtonLoop]
        rw [if_pos (by funext _; exact h1)]
      rw [e]
      exact ⟨hmem.1, by linarith [hmem.2]⟩
    · by_cases h2 : t_r l - a - tol ≤ 0
      · -- alone: within the tolerance
        have e : (newtonLoop eps tol (fun _ : Fin 1 => psi l) (fun _ => dpsi l) (fun _ => lower l) (k + 1) n
            (fun _ => t_l l) (fun _ => t_r l) s').1 0 = a := by
          simp only [newtonLoop]
          rw [if_neg (fun hc => h1 (congrFun hc 0)), if_pos (fun _ => max_eq_left h2)]
        rw [e]
        exact ⟨hmem.1, by linarith [hmem.2]⟩
      · -- neither the row alone nor the group stops
        have e1 : ¬ (fun _ : Fin 1 => maskGt (psi l (t_r l)) 0 (t_r l) (t_l l)) = fun _ => t_r l :=
          fun hc => h1 (congrFun hc 0)
        have e2 : ¬ ∀ _ : Fin 1, max 0 (t_r l - maskGt (psi l (t_r l)) 0 (t_r l) (t_l l) - tol) = 0 :=
          fun hc => h2 (max_eq_left_iff.1 (hc 0))
        have e3 : ¬ (fun l => maskGt (psi l (t_r l)) 0 (t_r l) (t_l l)) = t_r := fun hc => h1 (congrFun hc l)
        have e4 : ¬ ∀ l, max 0 (t_r l - maskGt (psi l (t_r l)) 0 (t_r l) (t_l l) - tol) = 0 :=
          fun hc => h2 (max_eq_left_iff.1 (hc l))
        simp only [newtonLoop]
        rw [if_neg e1, if_neg e2, if_neg e3, if_neg e4]
        have q := newtonStep_nested eps a (t_r l) (psi l a) (psi l (t_r l)) (dpsi l a) (dpsi l (t_r l)) (-1) hab
        exact ih (n + 1)
          (fun l => (quadraticNewtonStep eps (maskGt (psi l (t_r l)) 0 (t_r l) (t_l l)) (t_r l)
            (psi l (maskGt (psi l (t_r l)) 0 (t_r l) (t_l l))) (psi l (t_r l))
            (dpsi l (maskGt (psi l (t_r l)) 0 (t_r l) (t_l l))) (dpsi l (t_r l)) (-1)).1)
          (fun l => (quadraticNewtonStep eps (maskGt (psi l (t_r l)) 0 (t_r l) (t_l l)) (t_r l)
            (psi l (maskGt (psi l (t_r l)) 0 (t_r l) (t_l l))) (psi l (t_r l))
            (dpsi l (maskGt (psi l (t_r l)) 0 (t_r l) (t_l l))) (dpsi l (t_r l)) (-1)).2) _ _ q.2.1

namespace Euler

variable {dim L : ℕ}

/-- **C121 (Euler, limiter).** The coefficient a row gets in a group is not below the one it gets alone, and exceeds it by
at most the tolerance of the Newton iteration: for all states, updates, bounds, windows, group sizes and lanes. -/
theorem C121_euler_limit (p : Params) (lp : LimiterParams) (htol : 0 ≤ lp.newton_tolerance) (bounds : Fin L → Bounds)
    (U P : Fin L → State dim) (t_min t_max : Fin L → ℝ) (l : Fin L) :
    let alone := (limit p lp (fun _ : Fin 1 => bounds l) (fun _ => U l) (fun _ => P l) (fun _ => t_min l)
      (fun _ => t_max l)).1 0
    alone ≤ (limit p lp bounds U P t_min t_max).1 l ∧
      (limit p lp bounds U P t_min t_max).1 l ≤ alone + lp.newton_tolerance := by
  have hd : t_min l ≤ densityLimit p.eps (bounds l).rho_min (bounds l).rho_max (density (U l)) (density (P l)) (t_min l)
    (t_max l) := le_max_right _ _
  exact newtonLoop_alone p.eps lp.newton_tolerance htol
    (fun l => psi p (bounds l).s_min (U l) (P l)) (fun l => dpsi p (bounds l).s_min (U l) (P l))
    (fun l => lowerBound p (bounds l).s_min (U l) (P l)) l lp.newton_max_iterations 0 t_min
    (fun l => densityLimit p.eps (bounds l).rho_min (bounds l).rho_max (density (U l))
      (density (P l)) (t_min l) (t_max l)) _ _ hd

/-- **C121 (Euler, success flag).** If a group reports success, so does each of its rows when processed alone. -/
theorem C121_euler_success (p : Params) (lp : LimiterParams) (bounds : Fin L → Bounds)
    (U P : Fin L → State dim) (t_min t_max : Fin L → ℝ) (h : (limit p lp bounds U P t_min t_max).2) (l : Fin L) :
    (limit p lp (fun _ : Fin 1 => bounds l) (fun _ => U l) (fun _ => P l) (fun _ => t_min l) (fun _ => t_max l)).2 := by
  unfold limit at h ⊢
  dsimp only at h ⊢
  cases hn : lp.newton_max_iterations with
  | zero => rw [hn] at h; exact fun _ => h l
  | succ k =>
    rw [hn, newtonLoop_flag] at h
    rw [newtonLoop_flag]
    exact ⟨fun _ => h.1 l, h.2.imp (fun q _ => q l) fun q _ => q l⟩

/-- **C121 (Euler, success flag).** Conversely, if every row alone reports success, so does the group, provided that in
every row whose window is empty the entropy of the low-order state is not violated either (and the lower bound of the
check, a relaxation of a nonnegative quantity, is not positive). -/
theorem C121_euler_success_group (p : Params) (lp : LimiterParams) (bounds : Fin L → Bounds)
    (U P : Fin L → State dim) (t_min t_max : Fin L → ℝ)
    (h : ∀ l, (limit p lp (fun _ : Fin 1 => bounds l) (fun _ => U l) (fun _ => P l) (fun _ => t_min l)
      (fun _ => t_max l)).2)
    (hlow : ∀ l t, lowerBound p (bounds l).s_min (U l) (P l) t ≤ 0)
    (hwin : ∀ l, lowerBound p (bounds l).s_min (U l) (P l) (t_min l) ≤ psi p (bounds l).s_min (U l) (P l) (t_min l) ∨
      t_min l ≠ densityLimit p.eps (bounds l).rho_min (bounds l).rho_max (density (U l)) (density (P l)) (t_min l)
        (t_max l)) :
    (limit p lp bounds U P t_min t_max).2 := by
  unfold limit at h ⊢
  dsimp only at h ⊢
  cases hn : lp.newton_max_iterations with
  | zero => rw [hn] at h; exact fun l => h l 0
  | succ k =>
    rw [hn] at h
    simp only [newtonLoop_flag] at h
    rw [newtonLoop_flag]
    refine ⟨fun l => (h l).1 0, Or.inr fun l => ?_⟩
    set tr := densityLimit p.eps (bounds l).rho_min (bounds l).rho_max (density (U l)) (density (P l)) (t_min l)
      (t_max l) with htr
    by_cases hp : 0 < psi p (bounds l).s_min (U l) (P l) tr
    · exact Or.inl ⟨hp, (hlow l tr).trans hp.le⟩
    · refine Or.inr ⟨not_lt.1 hp, ?_⟩
      rcases hwin l with hw | hw
      · exact hw
      · rcases (h l).2 with q | q
        · rcases q 0 with q | q
          · exact absurd q hw
          · exact absurd q hp
        · rcases q 0 with q | q
          · exact absurd q.1 hp
          · exact q.2

end Euler

namespace Aeos

variable {dim L : ℕ}

/-- **C121 (arbitrary equation of state, limiter).** -/
theorem C121_aeos_limit (p : Params) (lp : LimiterParams) (htol : 0 ≤ lp.newton_tolerance) (bounds : Fin L → Bounds)
    (U P : Fin L → Euler.State dim) (t_min t_max : Fin L → ℝ) (l : Fin L) :
    let alone := (limit p lp (fun _ : Fin 1 => bounds l) (fun _ => U l) (fun _ => P l) (fun _ => t_min l)
      (fun _ => t_max l)).1 0
    alone ≤ (limit p lp bounds U P t_min t_max).1 l ∧
      (limit p lp bounds U P t_min t_max).1 l ≤ alone + lp.newton_tolerance := by
  have hd : t_min l ≤ densityLimit p.eps (bounds l).rho_min (bounds l).rho_max (Euler.density (U l)) (Euler.density (P l))
    (t_min l) (t_max l) := le_max_right _ _
  exact newtonLoop_alone p.eps lp.newton_tolerance htol
    (fun l => psi p (bounds l).gamma_min (bounds l).s_min (U l) (P l))
    (fun l => dpsi p (bounds l).gamma_min (bounds l).s_min (U l) (P l))
    (fun l => lowerBound p (bounds l).gamma_min (bounds l).s_min (U l) (P l)) l lp.newton_max_iterations 0 t_min
    (fun l => densityLimit p.eps (bounds l).rho_min (bounds l).rho_max (Euler.density (U l))
      (Euler.density (P l)) (t_min l) (t_max l)) _ _ hd

end Aeos

namespace ShallowWater

variable {dim L : ℕ}

/-- One stage of the shallow water limiter against the same stage of one of its lanes. -/
theorem stage_alone {L : ℕ} (eps tol : ℝ) (htol : 0 ≤ tol) (psi dpsi lower : Fin L → ℝ → ℝ) (l : Fin L)
    (t_l t_r : Fin L → ℝ) (s s' : Prop) (h : t_l l ≤ t_r l) (G S : ℝ)
    (hG : G = maskGt (psi l (t_r l)) 0 (t_r l) (t_l l) ∧ maskGt (psi l (t_r l)) 0 (t_r l) (t_l l) = t_r l ∨
      G = (newtonOnce eps tol psi dpsi lower (fun l => maskGt (psi l (t_r l)) 0 (t_r l) (t_l l)) t_r s).1 l)
    (hS : S = maskGt (psi l (t_r l)) 0 (t_r l) (t_l l) ∧ maskGt (psi l (t_r l)) 0 (t_r l) (t_l l) = t_r l ∨
      S = (newtonOnce eps tol (fun _ : Fin 1 => psi l) (fun _ => dpsi l) (fun _ => lower l)
        (fun _ => maskGt (psi l (t_r l)) 0 (t_r l) (t_l l)) (fun _ => t_r l) s').1 0) :
    S ≤ G ∧ G ≤ S + tol := by
  set a := maskGt (psi l (t_r l)) 0 (t_r l) (t_l l) with ha
  have hab : a ≤ t_r l := by
    rw [ha]; unfold maskGt; split_ifs
    · exact le_rfl
    · exact h
  have q := newtonStep_nested eps a (t_r l) (psi l a) (psi l (t_r l)) (dpsi l a) (dpsi l (t_r l)) (-1) hab
  have hGm : a ≤ G ∧ G ≤ t_r l := by
    rcases hG with ⟨hG, -⟩ | hG
    · rw [hG]; exact ⟨le_rfl, hab⟩
    · rw [hG]
      unfold newtonOnce
      dsimp only
      split_ifs
      · exact ⟨le_rfl, hab⟩
      · exact ⟨q.1, q.2.1.trans q.2.2⟩
  by_cases h1 : a = t_r l
  · have : S = a := by
      rcases hS with ⟨hS, -⟩ | hS
      · exact hS
      · rw [hS]
        unfold newtonOnce
        dsimp only
        split_ifs
        · rfl
        · exact le_antisymm ((q.2.1.trans q.2.2).trans h1.ge) q.1
    rw [this]
    exact ⟨hGm.1, by linarith [hGm.2]⟩
  · have hS' := hS.resolve_left fun hc => h1 hc.2
    by_cases h2 : t_r l - a - tol ≤ 0
    · have : S = a := by
        rw [hS']
        unfold newtonOnce
        dsimp only
        rw [if_pos (fun _ => max_eq_left h2)]
      rw [this]
      exact ⟨hGm.1, by linarith [hGm.2]⟩
    · have hG' := hG.resolve_left fun hc => h1 hc.2
      have : G = S := by
        rw [hG', hS']
        unfold newtonOnce
        dsimp only
        rw [if_neg fun hc => h2 (max_eq_left_iff.1 (hc l)), if_neg fun hc => h2 (max_eq_left_iff.1 (hc 0))]
      rw [this]
      exact ⟨le_rfl, le_add_of_nonneg_right htol⟩

/-- **C121 (shallow water, limiter).** With one of the two limiting stages switched off (the default switches off the
kinetic energy), or with both switched off, the coefficient a row gets in a group is not below the one it gets alone and
exceeds it by at most the tolerance. -/
theorem C121_sw_limit (p : Params) (lp : LimiterParams) (htol : 0 ≤ lp.newton_tolerance)
    (hone : lp.limit_on_square_velocity = false ∨ lp.limit_on_kinetic_energy = false) (bounds : Fin L → Bounds)
    (U P : Fin L → State dim) (t_min t_max : Fin L → ℝ) (l : Fin L) :
    let alone := (limit p lp (fun _ : Fin 1 => bounds l) (fun _ => U l) (fun _ => P l) (fun _ => t_min l)
      (fun _ => t_max l)).1 0
    alone ≤ (limit p lp bounds U P t_min t_max).1 l ∧
      (limit p lp bounds U P t_min t_max).1 l ≤ alone + lp.newton_tolerance := by
  have hd : t_min l ≤ depthLimit p (bounds l) (waterDepth (U l)) (waterDepth (P l)) (t_min l) (t_max l) :=
    le_max_right _ _
  intro alone
  by_cases hv : lp.limit_on_square_velocity = true
  · have hk : lp.limit_on_kinetic_energy = false := hone.resolve_left (by rw [hv]; simp)
    refine stage_alone p.eps lp.newton_tolerance htol (fun l => psiVel p (bounds l).v2_max (U l) (P l))
      (fun l => dpsiVel (bounds l).v2_max (U l) (P l)) (fun l => lowerVel p (bounds l).v2_max (U l) (P l)) l t_min
      (fun l => depthLimit p (bounds l) (waterDepth (U l)) (waterDepth (P l)) (t_min l) (t_max l))
      (∀ l, depthInBounds p (bounds l) (waterDepth (U l))) (∀ _ : Fin 1, depthInBounds p (bounds l) (waterDepth (U l)))
      hd _ _ ?_ ?_
    · simp only [limit, hv, hk, velocityStage, Bool.true_eq_false, false_and, if_false, Bool.false_eq_true]
      split_ifs with h1
      · exact Or.inl ⟨rfl, congrFun h1 l⟩
      · exact Or.inr rfl
    · simp only [alone, limit, hv, hk, velocityStage, Bool.true_eq_false, false_and, if_false, Bool.false_eq_true]
      split_ifs with h1
      · exact Or.inl ⟨rfl, congrFun h1 0⟩
      · exact Or.inr rfl
  · have hv : lp.limit_on_square_velocity = false := by simpa using hv
    by_cases hk : lp.limit_on_kinetic_energy = true
    · refine stage_alone p.eps lp.newton_tolerance htol (fun l => psiKin p (bounds l).kin_max (U l) (P l))
        (fun l => dpsiKin (bounds l).kin_max (U l) (P l)) (fun l => lowerKin p (bounds l).kin_max (U l) (P l)) l t_min
        (fun l => depthLimit p (bounds l) (waterDepth (U l)) (waterDepth (P l)) (t_min l) (t_max l))
        (∀ l, depthInBounds p (bounds l) (waterDepth (U l)))
        (∀ _ : Fin 1, depthInBounds p (bounds l) (waterDepth (U l))) hd _ _ ?_ ?_
      · simp only [limit, hv, hk, Bool.true_eq_false, and_false, if_false, Bool.false_eq_true, true_and, if_true]
        split_ifs with h1
        · exact Or.inl ⟨rfl, congrFun h1 l⟩
        · exact Or.inr rfl
      · simp only [alone, limit, hv, hk, Bool.true_eq_false, and_false, if_false, Bool.false_eq_true, true_and, if_true]
        split_ifs with h1
        · exact Or.inl ⟨rfl, congrFun h1 0⟩
        · exact Or.inr rfl
    · have hk : lp.limit_on_kinetic_energy = false := by simpa using hk
      simp only [alone, limit, hv, hk, and_self, if_true]
      exact ⟨le_rfl, le_add_of_nonneg_right htol⟩

end ShallowWater

namespace Scalar

variable {dim L : ℕ}

/-- **C121 (scalar equations, limiter).** Processing rows in groups changes nothing: every row gets the coefficient it
gets alone, and the group reports success if and only if every row does. -/
theorem C121_scalar_limit (eps tiny : ℝ) (b : Fin L → Bounds) (U P : Fin L → State) (t_min t_max : Fin L → ℝ) :
    (∀ l, (limit eps tiny b U P t_min t_max).1 l = (limit eps tiny (fun _ : Fin 1 => b l) (fun _ => U l) (fun _ => P l)
      (fun _ => t_min l) (fun _ => t_max l)).1 0) ∧
    ((limit eps tiny b U P t_min t_max).2 ↔ ∀ l, (limit eps tiny (fun _ : Fin 1 => b l) (fun _ => U l) (fun _ => P l)
      (fun _ => t_min l) (fun _ => t_max l)).2) :=
  ⟨fun _ => rfl, ⟨fun h l _ => h l, fun h l => h l 0⟩⟩

end Scalar

namespace Euler

variable {dim L : ℕ}

theorem computeGap_sandwich {gamma : ℝ} {i j : RiemannData} (hg : 1 < gamma) (hi : Gas gamma i) (hj : Gas gamma j) (eps : ℝ)
    {k m : ℕ} (h : k ≤ m) :
    (computeGap gamma i j (bracketAfter gamma eps i j k).1 (bracketAfter gamma eps i j k).2).2 ≤
      (computeGap gamma i j (bracketAfter gamma eps i j m).1 (bracketAfter gamma eps i j m).2).2 +
      (computeGap gamma i j (bracketAfter gamma eps i j k).1 (bracketAfter gamma eps i j k).2).1 := by
  have hin : ∀ m, k ≤ m → (bracketAfter gamma eps i j k).1 ≤ (bracketAfter gamma eps i j m).1 := by
    intro m hm
    induction m, hm using Nat.le_induction with
    | base => exact le_rfl
    | succ m _ ih => exact ih.trans (C01_newton_nested _ _ _ _ _ _ _ _ (bracketAfter_ordered gamma eps i j m)).1
  exact computeLambda_gap hg hi hj ((hin m h).trans (bracketAfter_ordered gamma eps i j m))
    (bracketAfter_anti gamma eps i j h)

/-- **C121 (Euler, wave speed).** The wave speed a row gets in a group is not above the one it gets alone and smaller by
at most the tolerance of the Newton iteration: for all groups, whatever the other rows hold (also inadmissible states). -/
theorem C121_euler_riemann (p : Params) (hg : 1 < p.gamma) (rp : RiemannParams) (htol : 0 ≤ rp.newton_tolerance)
    (U_i U_j : Fin L → State dim) (n : Fin L → Vec dim) (l : Fin L) (hn : normSq (n l) = 1)
    (hri : 0 < density (U_i l)) (hei : 0 < internalEnergy (U_i l))
    (hrj : 0 < density (U_j l)) (hej : 0 < internalEnergy (U_j l)) :
    let alone := riemann p rp (fun _ : Fin 1 => U_i l) (fun _ => U_j l) (fun _ => n l) 0
    riemann p rp U_i U_j n l ≤ alone ∧ alone ≤ riemann p rp U_i U_j n l + rp.newton_tolerance := by
  have gi := riemannDataFromState_gas p hg (U_i l) hn hri hei
  have gj := riemannDataFromState_gas p hg (U_j l) hn hrj hej
  obtain ⟨m, hm, h1, h2, h3⟩ := compute_stateAfter p.gamma rp (fun l => riemannDataFromState p (U_i l) (n l))
    (fun l => riemannDataFromState p (U_j l) (n l))
  obtain ⟨k, hk, h1', h2', h3'⟩ := compute_stateAfter p.gamma rp (fun _ : Fin 1 => riemannDataFromState p (U_i l) (n l))
    (fun _ => riemannDataFromState p (U_j l) (n l))
  have hle : k ≤ m := by
    by_contra hlt
    push Not at hlt
    obtain ⟨_, hl'⟩ := h3' m hlt
    exact absurd (h2 (hlt.trans_le hk) l) (not_le.2 hl')
  intro alone
  have ea : alone = (stateAfter p.gamma rp (fun _ : Fin 1 => riemannDataFromState p (U_i l) (n l))
    (fun _ => riemannDataFromState p (U_j l) (n l)) k 0).lambda_max := congrFun h1' 0
  have eg : riemann p rp U_i U_j n l = (stateAfter p.gamma rp (fun l => riemannDataFromState p (U_i l) (n l))
    (fun l => riemannDataFromState p (U_j l) (n l)) m l).lambda_max := congrFun h1 l
  rw [ea, eg]
  refine ⟨computeLambda_mono hg gi gj (bracketAfter_anti _ _ _ _ hle), ?_⟩
  rcases hle.eq_or_lt with rfl | hlt
  · exact le_add_of_nonneg_right htol
  · have hgap := h2' (hlt.trans_le hm) 0
    have := computeGap_sandwich hg gi gj rp.eps hle
    exact this.trans (add_le_add le_rfl hgap)

/-- **C121 (Euler, wave speed).** Without Newton iterations (the default) every row gets exactly the wave speed it gets
alone. -/
theorem C121_euler_riemann_start (p : Params) (rp : RiemannParams) (h0 : rp.newton_max_iterations = 0)
    (U_i U_j : Fin L → State dim) (n : Fin L → Vec dim) (l : Fin L) :
    riemann p rp U_i U_j n l = riemann p rp (fun _ : Fin 1 => U_i l) (fun _ => U_j l) (fun _ => n l) 0 := by
  unfold riemann compute
  rw [if_pos h0, if_pos h0]

/-- The data of `C121_violation`: `ψ` is a quadratic polynomial. -/
theorem psi_quadratic (e : ℝ) (r q t : ℝ) :
    psi ⟨7 / 5, 1, 100, 10000, 0⟩ 0 (mkState 1 (fun _ => 0) e : State 1) (mkState r (fun _ => 0) q) t =
      e + (q + r * e) * t + r * q * t ^ 2 := by
  unfold psi
  simp [internalEnergy, normSq]
  ring

theorem dpsi_quadratic (e : ℝ) (r q t : ℝ) :
    dpsi ⟨7 / 5, 1, 100, 10000, 0⟩ 0 (mkState 1 (fun _ => 0) e : State 1) (mkState r (fun _ => 0) q) t =
      (q + r * e) + 2 * (r * q) * t := by
  unfold dpsi
  simp [internalEnergy, normSq, dot_state, internalEnergyDerivative]
  simp [dot]
  ring

theorem densityLimit_example (tol : ℝ) (h0 : 0 < tol) (h1 : tol < 1) : densityLimit 0 0 (1 + tol) 1 1 0 1 = tol := by
  unfold densityLimit maskLt
  dsimp only
  have e : (1 + tol - 1) * (1 / (|1| + 0 * (1 + tol))) = tol := by norm_num
  rw [e, if_pos (show (1 + tol : ℝ) < 1 + 1 * 1 by linarith), if_neg (by linarith), min_eq_left h1.le, max_eq_left h0.le]

/-- **C121 (violation).** For every tolerance between 0 and 1 there are two rows such that the coefficient of the first one
depends on whether it is processed together with the second one: alone the tolerance is met at once and the update is
dropped altogether, in the group the second row demands a Newton step, which finds a better coefficient for both. -/
theorem C121_violation (tol : ℝ) (h0 : 0 < tol) (h1 : tol < 1) :
    ∃ (p : Params) (b : Fin 2 → Bounds) (U P : Fin 2 → State 1), 1 < p.gamma ∧ (∀ l, 0 < density (U l)) ∧
      (∀ l, 0 < internalEnergy (U l)) ∧ (∀ l, (b l).rho_min ≤ density (U l) ∧ density (U l) ≤ (b l).rho_max ∧
        (b l).s_min ≤ specificEntropy p (U l)) ∧
      (limit p ⟨2, tol, 1⟩ (fun _ : Fin 1 => b 0) (fun _ => U 0) (fun _ => P 0) (fun _ => 0) (fun _ => 1)).1 0 = 0 ∧
      tol / 2 ≤ (limit p ⟨2, tol, 1⟩ b U P (fun _ => 0) (fun _ => 1)).1 0 := by
  refine ⟨⟨7 / 5, 1, 100, 10000, 0⟩, ![⟨0, 1 + tol, 0⟩, ⟨0, 1, 0⟩], fun _ => mkState 1 (fun _ => 0) 1,
    ![mkState 1 (fun _ => 0) (-(2 / tol)), mkState 0 (fun _ => 0) (-2)], by norm_num, fun _ => by norm_num,
    fun _ => by norm_num [internalEnergy, normSq], fun l => ?_, ?_, ?_⟩
  · fin_cases l
    · norm_num [specificEntropy, internalEnergy, normSq]
      linarith
    · norm_num [specificEntropy, internalEnergy, normSq]
  · have hd := densityLimit_example tol h0 h1
    have hp : psi ⟨7 / 5, 1, 100, 10000, 0⟩ 0 (mkState 1 (fun _ => 0) 1 : State 1) (mkState 1 (fun _ => 0) (-(2 / tol))) tol
        = -(1 + tol) := by
      rw [psi_quadratic]; field_simp; ring
    unfold limit
    simp only [Matrix.cons_val_zero, density_mkState, hd, Ryujin.newtonLoop, hp]
    have hm : maskGt (-(1 + tol)) 0 tol 0 = 0 := by unfold maskGt; rw [if_neg (by linarith)]
    rw [hm, if_neg (fun hc => by have := congrFun hc 0; linarith), if_pos (fun _ => by norm_num)]
  · have hd : densityLimit 0 0 (1 + tol) 1 1 0 1 = tol := densityLimit_example tol h0 h1
    have hd' : densityLimit 0 0 1 1 0 0 1 = 1 := by
      unfold densityLimit maskLt
      norm_num
    set U : Fin 2 → State 1 := fun _ => mkState 1 (fun _ => 0) 1 with hU
    set Q : Fin 2 → State 1 := ![mkState 1 (fun _ => 0) (-(2 / tol)), mkState 0 (fun _ => 0) (-2)] with hQ
    set b : Fin 2 → Bounds := ![⟨0, 1 + tol, 0⟩, ⟨0, 1, 0⟩] with hb
    set par : Params := ⟨7 / 5, 1, 100, 10000, 0⟩ with hpar
    set tr : Fin 2 → ℝ := fun l => densityLimit par.eps (b l).rho_min (b l).rho_max (density (U l)) (density (Q l)) 0 1
      with htr
    have t0 : tr 0 = tol := by simpa [htr, hb, hU, hQ, hpar] using hd
    have t1 : tr 1 = 1 := by simpa [htr, hb, hU, hQ, hpar] using hd'
    have p0 : ∀ t, psi par (b 0).s_min (U 0) (Q 0) t = 1 + (1 - 2 / tol) * t + (-(2 / tol)) * t ^ 2 := by
      intro t
      have := psi_quadratic 1 1 (-(2 / tol)) t
      simp only [hb, hU, hQ, hpar, Matrix.cons_val_zero]
      rw [this]; ring
    have d0 : ∀ t, dpsi par (b 0).s_min (U 0) (Q 0) t = (1 - 2 / tol) + 2 * (-(2 / tol)) * t := by
      intro t
      have := dpsi_quadratic 1 1 (-(2 / tol)) t
      simp only [hb, hU, hQ, hpar, Matrix.cons_val_zero]
      rw [this]; ring
    have p1 : psi par (b 1).s_min (U 1) (Q 1) 1 = -1 := by
      have := psi_quadratic 1 0 (-2) 1
      simp only [hb, hU, hQ, hpar, Matrix.cons_val_one, Matrix.cons_val_zero]
      rw [this]; norm_num
    have n0 : psi par (b 0).s_min (U 0) (Q 0) tol < 0 := by
      rw [p0]
      have : 1 + (1 - 2 / tol) * tol + (-(2 / tol)) * tol ^ 2 = -(1 + tol) := by field_simp; ring
      linarith
    unfold limit
    show tol / 2 ≤ (Ryujin.newtonLoop par.eps tol (fun l => psi par (b l).s_min (U l) (Q l))
      (fun l => dpsi par (b l).s_min (U l) (Q l)) (fun l => lowerBound par (b l).s_min (U l) (Q l)) 2 0 (fun _ => 0) tr
      (∀ l, densityInBounds par (b l).rho_min (b l).rho_max (density (U l)))).1 0
    rw [Ryujin.newtonLoop]
    have m0 : maskGt (psi par (b 0).s_min (U 0) (Q 0) (tr 0)) 0 (tr 0) 0 = 0 := by
      unfold maskGt; rw [t0, if_neg (by linarith)]
    have m1 : maskGt (psi par (b 1).s_min (U 1) (Q 1) (tr 1)) 0 (tr 1) 0 = 0 := by
      unfold maskGt; rw [t1, p1, if_neg (by norm_num)]
    dsimp only
    rw [if_neg (fun hc => by have := congrFun hc 1; rw [m1, t1] at this; linarith),
      if_neg (fun hc => by
        have := hc 1
        rw [m1, t1] at this
        have := max_eq_left_iff.1 this
        linarith)]
    refine le_trans ?_ (newtonLoop_mem _ _ _ _ _ 0 1 _ _ _ _ ?_).1
    · rw [m0, t0, p0, p0, d0, d0]
      obtain ⟨e1, e2⟩ := C01_newton_exact_on_quadratics 0 tol 1 (1 - 2 / tol) (-(2 / tol)) h0 (by norm_num)
        (by rw [← p0]; exact n0)
      have q := (C01_newton_nested 0 0 tol (1 + (1 - 2 / tol) * 0 + (-(2 / tol)) * 0 ^ 2)
        (1 + (1 - 2 / tol) * tol + (-(2 / tol)) * tol ^ 2) (1 - 2 / tol + 2 * (-(2 / tol)) * 0)
        (1 - 2 / tol + 2 * (-(2 / tol)) * tol) (-1) h0.le).1
      show tol / 2 ≤ (quadraticNewtonStep 0 0 tol (1 + (1 - 2 / tol) * 0 + (-(2 / tol)) * 0 ^ 2)
        (1 + (1 - 2 / tol) * tol + (-(2 / tol)) * tol ^ 2) (1 - 2 / tol + 2 * (-(2 / tol)) * 0)
        (1 - 2 / tol + 2 * (-(2 / tol)) * tol) (-1)).1
      generalize (quadraticNewtonStep 0 0 tol (1 + (1 - 2 / tol) * 0 + (-(2 / tol)) * 0 ^ 2)
        (1 + (1 - 2 / tol) * tol + (-(2 / tol)) * tol ^ 2) (1 - 2 / tol + 2 * (-(2 / tol)) * 0)
        (1 - 2 / tol + 2 * (-(2 / tol)) * tol) (-1)).1 = r at *
      have e3 : (1 + r) * (1 - 2 / tol * r) = 0 := by linarith
      rcases mul_eq_zero.1 e3 with h | h
      · linarith
      · field_simp at h
        linarith
    · exact (C01_newton_nested _ _ _ _ _ _ _ _ (by rw [m0, t0]; exact h0.le)).2.1

/-- **C121 (violation, success flag).** A low-order state whose entropy is far below its bound goes unnoticed when its row
is processed alone (or with rows of its kind), and makes the step fail when another row of the group needs a Newton step. -/
theorem C121_success_violation :
    ∃ (p : Params) (b : Fin 2 → Bounds) (U P : Fin 2 → State 1), 0 < p.eps ∧
      (∀ l, (limit p ⟨2, 0, 1⟩ (fun _ : Fin 1 => b l) (fun _ => U l) (fun _ => P l) (fun _ => 0) (fun _ => 1)).2) ∧
      ¬ (limit p ⟨2, 0, 1⟩ b U P (fun _ => 0) (fun _ => 1)).2 := by
  refine ⟨⟨7 / 5, 1, 100, 10000, 1 / 10 ^ 6⟩, ![⟨1, 1, 100⟩, ⟨1, 1, 1⟩], fun _ => mkState 1 (fun _ => 0) 2,
    ![mkState 1 (fun _ => 0) 0, mkState 0 (fun _ => 0) (-4)], by norm_num, fun l => ?_, fun h => ?_⟩
  · unfold limit
    simp only
    rw [newtonLoop_flag]
    fin_cases l
    · refine ⟨fun l => ?_, Or.inl fun l => Or.inl ?_⟩
      · rw [densityInBounds_iff _ _ _ _ (by norm_num)]; norm_num
      · norm_num [densityLimit, maskLt]
    · refine ⟨fun l => ?_, Or.inr fun l => Or.inr ⟨?_, ?_⟩⟩
      · rw [densityInBounds_iff _ _ _ _ (by norm_num)]; norm_num
      · norm_num [densityLimit, maskLt, psi, internalEnergy, normSq]
      · norm_num [psi, lowerBound, internalEnergy, normSq]
  · unfold limit at h
    simp only at h
    rw [newtonLoop_flag] at h
    rcases h.2 with q | q
    · have := q 1
      norm_num [densityLimit, maskLt, psi, internalEnergy, normSq] at this
    · have := q 0
      norm_num [densityLimit, maskLt, psi, lowerBound, internalEnergy, normSq] at this

end Euler

namespace Hyp

variable {ι P F B : Type} {m dim : ℕ}

theorem list_sum_component (l : List ι) (f : ι → Fin m → ℝ) (k : Fin m) :
    (l.map f).sum k = (l.map fun j => f j k).sum := by
  induction l with
  | nil => rfl
  | cons a l ih => rw [List.map_cons, List.map_cons, List.sum_cons, List.sum_cons, Pi.add_apply, ih]

theorem list_sum_diff (l : List ι) (f g h : ι → ℝ) (c : ℝ) (hfg : ∀ j, |f j - g j| ≤ c * h j) :
    |(l.map f).sum - (l.map g).sum| ≤ c * (l.map h).sum := by
  induction l with
  | nil => simp
  | cons a l ih =>
    simp only [List.map_cons, List.sum_cons]
    have h1 := hfg a
    rw [abs_le] at ih h1 ⊢
    constructor <;> nlinarith

open Classical in
/-- **C121 (one pass).** If two limiters (for instance that of groups and that of single rows) return coefficients that
differ by at most `tol`, then the states after one limiter pass differ, in every component, by at most `tol` times the
mean modulus of the limited fluxes of the row: for every equation, mesh, data of the step and leftover memory. -/
theorem C121_one_pass (D : Description ι P (Fin m → ℝ) F B dim) (lim' : ι → ι → B → (Fin m → ℝ) → (Fin m → ℝ) → ℝ × Prop)
    (tol : ℝ) (hlim : ∀ i j b U Q, |(lim' i j b U Q).1 - (D.limit i j b U Q).1| ≤ tol) (M : Mesh ι dim) (par : Params)
    (hpar : par.iterations = 1) (lo : Leftover ι (Fin m → ℝ)) (X : Stage4 ι P (Fin m → ℝ)) (i : ι) (k : Fin m) :
    |newStates { D with limit := lim' } M par lo X i k - newStates D M par lo X i k| ≤
      tol * ((M.nbrs i).map fun j => |pIJ D M X i j k|).sum / (M.nbrs i).length := by
  have key : ∀ lim'' : ι → ι → B → (Fin m → ℝ) → (Fin m → ℝ) → ℝ × Prop,
      newStates { D with limit := lim'' } M par lo X i k = newLow D M lo X i k + if M.active i then
        ((M.nbrs i).map fun j => symmetrized (fun i j => (lim'' i j (finalBounds D M par lo X i) (lowOrder D M X i)
          (pIJ D M X i j)).1) i j * (1 / ((M.nbrs i).length : ℝ)) * pIJ D M X i j k).sum else 0 := by
    intro lim''
    unfold newStates limiterLoop
    rw [hpar]
    simp only [List.range_one, List.foldl_cons, List.foldl_nil, limiterPass]
    split_ifs with ha hc
    · exact absurd hc.1 (by norm_num)
    · rw [Pi.add_apply, list_sum_component]
      rfl
    · rw [add_zero]
      rfl
  rw [key lim', show newStates D M par lo X i k = _ from key D.limit, add_sub_add_left_eq_sub]
  split_ifs with ha
  · have := list_sum_diff (M.nbrs i) (fun j => symmetrized (fun i j => (lim' i j (finalBounds D M par lo X i)
        (lowOrder D M X i) (pIJ D M X i j)).1) i j * (1 / ((M.nbrs i).length : ℝ)) * pIJ D M X i j k)
      (fun j => symmetrized (fun i j => (D.limit i j (finalBounds D M par lo X i)
        (lowOrder D M X i) (pIJ D M X i j)).1) i j * (1 / ((M.nbrs i).length : ℝ)) * pIJ D M X i j k)
      (fun j => |pIJ D M X i j k|) (tol / (M.nbrs i).length) ?_
    · refine this.trans (le_of_eq (by ring))
    · intro j
      have hlen : (0 : ℝ) ≤ 1 / ((M.nbrs i).length : ℝ) := by positivity
      rw [← sub_mul, ← sub_mul, abs_mul, abs_mul, abs_of_nonneg hlen]
      have hs : |symmetrized (fun i j => (lim' i j (finalBounds D M par lo X i) (lowOrder D M X i) (pIJ D M X i j)).1) i j
          - symmetrized (fun i j => (D.limit i j (finalBounds D M par lo X i) (lowOrder D M X i)
            (pIJ D M X i j)).1) i j| ≤ tol :=
        (abs_min_sub_min_le_max _ _ _ _).trans (max_le (hlim _ _ _ _ _) (hlim _ _ _ _ _))
      rw [div_eq_mul_one_div tol]
      exact mul_le_mul_of_nonneg_right (mul_le_mul_of_nonneg_right hs hlen) (abs_nonneg _)
  · have : M.nbrs i = [] := by
      by_contra hc; exact ha hc
    rw [this]
    simp

end Hyp

namespace Euler

variable {ι : Type} {dim L : ℕ}

/-- **C121 (Euler, one pass).** A step of the Euler equations with one limiter pass and the default Riemann solver: whether
rows are processed one by one or in groups, the same step size is chosen and the new states differ, in every component, by
at most the Newton tolerance times the mean modulus of the limited fluxes of the row.  `lane`, `wave` and `lim` (what the
other rows of the groups hold) are arbitrary. -/
theorem C121_euler_one_pass [Fintype ι] (p : Params) (lp : LimiterParams) (htol : 0 ≤ lp.newton_tolerance) (rp : RiemannParams)
    (h0 : rp.newton_max_iterations = 0) (evc_factor big : ℝ) (lane : ι → Fin L)
    (wave : ι → ι → Fin L → State dim × State dim × Vec dim) (lim : ι → ι → Fin L → Bounds × State dim × State dim)
    (M : Hyp.Mesh ι dim) (par : Hyp.Params) (hpar : par.iterations = 1) (lo : Hyp.Leftover ι (State dim))
    (old : Hyp.StateVector ι Unit (State dim)) (stages : List (ℝ × Hyp.StateVector ι Unit (State dim))) (tau tau_max : ℝ) :
    let D := oneLane p lp rp evc_factor big
    let D' := grouped p lp rp evc_factor big lane wave lim
    let X := Hyp.stage4 D M par lo old stages tau
    Hyp.tauMax D' M par lo.dij old tau_max = Hyp.tauMax D M par lo.dij old tau_max ∧
      Hyp.stage4 D' M par lo old stages tau = X ∧
      ∀ i k, |Hyp.newStates D' M par lo X i k - Hyp.newStates D M par lo X i k| ≤
        lp.newton_tolerance * ((M.nbrs i).map fun j => |Hyp.pIJ D M X i j k|).sum / (M.nbrs i).length := by
  intro D D' X
  have hD' : D' = { D with limit := D'.limit } := by
    show description _ _ _ _ _ _ = _
    unfold description
    congr 1
    funext _ i j U V n
    show riemann p rp _ _ _ (lane i) = riemann p rp _ _ _ 0
    rw [C121_euler_riemann_start p rp h0]
    simp only [Function.update_self]
  refine ⟨by rw [hD']; rfl, by rw [hD']; rfl, fun i k => ?_⟩
  rw [hD']
  refine Hyp.C121_one_pass D D'.limit lp.newton_tolerance (fun i j b U Q => ?_) M par hpar lo X i k
  have := C121_euler_limit p lp htol (Function.update (fun l => (lim i j l).1) (lane i) b)
      (Function.update (fun l => (lim i j l).2.1) (lane i) U) (Function.update (fun l => (lim i j l).2.2) (lane i) Q)
      (fun _ => 0) (fun _ => 1) (lane i)
  simp only [Function.update_self] at this
  rw [abs_le]
  constructor
  · have h1 := this.1
    show _ ≤ (limit p lp _ _ _ _ _).1 (lane i) - (limit p lp _ _ _ _ _).1 0
    linarith
  · have h2 := this.2
    show (limit p lp _ _ _ _ _).1 (lane i) - (limit p lp _ _ _ _ _).1 0 ≤ _
    linarith

/-- Non-vacuity: the default parameters of the solver and of the limiter meet the hypotheses. -/
example : (0 : ℝ) ≤ (⟨2, 1 / 10 ^ 10, 1⟩ : LimiterParams).newton_tolerance ∧
    (⟨1 / 10 ^ 10, 0, 0⟩ : RiemannParams).newton_max_iterations = 0 := by norm_num

/-- Non-vacuity of `C121_euler_riemann`: two gases at rest with different pressures next to a lane with a negative density. -/
example : let U_i : Fin 2 → State 1 := ![mkState 1 (fun _ => 0) 2, mkState (-1) (fun _ => 0) 2]
    let U_j : Fin 2 → State 1 := ![mkState 1 (fun _ => 0) 1, mkState (-1) (fun _ => 0) 2]
    riemann ⟨7 / 5, 1, 100, 10000, 0⟩ ⟨1 / 10, 3, 0⟩ U_i U_j (fun _ _ => 1) 0 ≤
      riemann ⟨7 / 5, 1, 100, 10000, 0⟩ ⟨1 / 10, 3, 0⟩ (fun _ : Fin 1 => U_i 0) (fun _ => U_j 0) (fun _ _ => 1) 0 :=
  (C121_euler_riemann _ (by norm_num) _ (by norm_num) _ _ _ 0 (by norm_num [normSq]) (by norm_num)
    (by norm_num [internalEnergy, normSq]) (by norm_num) (by norm_num [internalEnergy, normSq])).1

/-- Non-vacuity of `C121_euler_success_group`: two rows with nonnegative densities and entropies. -/
example : (limit (dim := 1) ⟨7 / 5, 1, 100, 10000, 1 / 10 ^ 6⟩ ⟨2, 0, 1⟩ (fun _ : Fin 2 => ⟨1 / 2, 2, 1⟩)
    (fun _ => mkState 1 (fun _ => 0) 2) (fun _ => mkState 0 (fun _ => 1) 0) (fun _ => 0) (fun _ => 1)).2 := by
  apply C121_euler_success_group
  · intro l
    apply C60_euler_no_false_alarm <;> norm_num [internalEnergy, normSq, specificEntropy]
  · intro l t
    norm_num [lowerBound]
  · intro l
    left
    norm_num [lowerBound, psi, internalEnergy, normSq]

end Euler
end Ryujin
