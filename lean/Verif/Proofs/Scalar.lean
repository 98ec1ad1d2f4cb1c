import Verif.Model.Scalar
import Verif.Proofs.Limiter
import Mathlib.Analysis.Calculus.Deriv.MeanValue
import Mathlib.Analysis.SpecialFunctions.Trigonometric.Bounds

/-!
# Helper lemmas for the scalar conservation equation
-/

namespace Ryujin
namespace Scalar

variable {dim : ℕ}

theorem state_add_smul (U P : State) (t : ℝ) : state (U + t • P) = state U + t * state P := by
  simp [state]

theorem limitLane_mem (eps tiny : ℝ) (b : Bounds) (U P : State) {t_min t_max : ℝ}
    (h : t_min ≤ t_max) :
    t_min ≤ limitLane eps tiny b U P t_min t_max ∧ limitLane eps tiny b U P t_min t_max ≤ t_max := by
  unfold limitLane
  exact ⟨le_max_right _ _, max_le (min_le_right _ _) h⟩

/-- The relaxed bounds estimate: with `u_max ≥ 0` the defect vanishes. -/
theorem limitLane_bounds {eps tiny : ℝ} {b : Bounds} {U P : State} {t_max s : ℝ}
    (heps : 0 ≤ eps) (htiny : 0 < tiny)
    (hmin : b.u_min ≤ state U) (hmax : state U ≤ b.u_max) (hs0 : 0 ≤ s)
    (hs : s ≤ limitLane eps tiny b U P 0 t_max) :
    b.u_min - s * (eps * max 0 (-b.u_max)) ≤ state (U + s • P) ∧
      state (U + s • P) ≤ b.u_max + s * (eps * max 0 (-b.u_max)) := by
  rw [state_add_smul]
  set p := state P
  set u := state U
  set e := eps * max 0 (-b.u_max) with he
  have he0 : 0 ≤ e := mul_nonneg heps (le_max_left _ _)
  have hse : 0 ≤ s * e := mul_nonneg hs0 he0
  rcases eq_or_lt_of_le hs0 with h0 | hpos
  · rw [← h0]; constructor <;> linarith
  unfold limitLane at hs
  simp only at hs
  have hs1 := (le_max_iff.1 hs).resolve_right (not_le.2 hpos)
  obtain ⟨hs2, hs3⟩ := le_min_iff.1 hs1
  change s ≤ maskLt (u + maskLt b.u_max (u + t_max * p)
    ((b.u_max - u) * (1 / max (100 * tiny) (|p| + eps * b.u_max))) t_max * p) b.u_min _ _ at hs2
  set D := max (100 * tiny) (|p| + eps * b.u_max) with hD
  have hD0 : 0 < D := lt_of_lt_of_le (by positivity) (le_max_left _ _)
  have hpD : |p| ≤ D + e := by
    have h1 : |p| + eps * b.u_max ≤ D := le_max_right _ _
    have h2 : eps * (-b.u_max) ≤ e := mul_le_mul_of_nonneg_left (le_max_right _ _) heps
    linarith
  have quot : ∀ x, 0 ≤ x → s ≤ x * (1 / D) → s * |p| ≤ x + s * e := by
    intro x hx hsx
    have h1 : s * D ≤ x := by rwa [mul_one_div, le_div_iff₀ hD0] at hsx
    have h2 := mul_le_mul_of_nonneg_left hpD hs0
    linarith
  rcases le_total 0 p with hP | hP
  · have hsp := mul_nonneg hs0 hP
    refine ⟨by linarith, ?_⟩
    by_cases h1 : b.u_max < u + t_max * p
    · have e1 : maskLt b.u_max (u + t_max * p) ((b.u_max - u) * (1 / D)) t_max
          = (b.u_max - u) * (1 / D) := if_pos h1
      rw [e1] at hs2
      have hnn : 0 ≤ (b.u_max - u) * (1 / D) := mul_nonneg (by linarith) (one_div_nonneg.2 hD0.le)
      have h2 : ¬ (u + (b.u_max - u) * (1 / D) * p < b.u_min) := by
        have := mul_nonneg hnn hP
        intro h; linarith
      rw [maskLt, if_neg h2] at hs2
      have := quot _ (by linarith) hs2
      rw [abs_of_nonneg hP] at this
      linarith
    · have := mul_le_mul_of_nonneg_right hs3 hP
      linarith
  · have hsp := mul_nonpos_of_nonneg_of_nonpos hs0 hP
    refine ⟨?_, by linarith⟩
    have htmax : 0 ≤ t_max := hs0.trans hs3
    have h1 : ¬ (b.u_max < u + t_max * p) := by
      have := mul_nonpos_of_nonneg_of_nonpos htmax hP
      intro h; linarith
    have e1 : maskLt b.u_max (u + t_max * p) ((b.u_max - u) * (1 / D)) t_max = t_max := if_neg h1
    rw [e1] at hs2
    by_cases h2 : u + t_max * p < b.u_min
    · rw [maskLt, if_pos h2] at hs2
      have := quot _ (by linarith) hs2
      rw [abs_of_nonpos hP] at this
      linarith
    · have := mul_le_mul_of_nonpos_right hs3 hP
      linarith

/-! ### Riemann solver -/

theorem le_enforceEntropy (fl : Flux dim) (n : Vec dim) (u_i u_j f_i f_j lam k : ℝ) :
    lam ≤ enforceEntropy fl n u_i u_j f_i f_j lam k :=
  (le_max_left _ _).trans (le_max_left _ _)

theorem le_foldl_enforce (fl : Flux dim) (n : Vec dim) (u_i u_j f_i f_j : ℝ) (g : ℝ → ℝ)
    (draws : List ℝ) (lam : ℝ) :
    lam ≤ draws.foldl (fun lam factor => enforceEntropy fl n u_i u_j f_i f_j lam (g factor)) lam := by
  induction draws generalizing lam with
  | nil => exact le_rfl
  | cons a l ih => exact (le_enforceEntropy fl n u_i u_j f_i f_j lam (g a)).trans (ih _)

/-- The part of `riemann` before entropies are enforced is a lower bound of the result. -/
theorem le_riemann (fl : Flux dim) (rp : RiemannParams) (draws : List ℝ) (u_i u_j : ℝ) (n : Vec dim) :
    (if rp.use_greedy_wavespeed then
      if |u_i - u_j| ≥ 2 * fl.delta then
        |dot (fluxFunction fl u_i) n - dot (fluxFunction fl u_j) n| / max |u_i - u_j| (2 * fl.delta)
      else |(1 / 2) * (dot (fluxGradientFunction fl u_i) n + dot (fluxGradientFunction fl u_j) n)|
    else max (max (|dot (fluxFunction fl u_i) n - dot (fluxFunction fl u_j) n| /
        max |u_i - u_j| (2 * fl.delta)) |dot (fluxGradientFunction fl u_i) n|)
        |dot (fluxGradientFunction fl u_j) n|) ≤ riemann fl rp draws u_i u_j n := by
  unfold riemann
  refine le_trans ?_ (le_foldl_enforce fl n u_i u_j _ _
    (fun factor => factor * u_i + (1 - factor) * u_j) draws _)
  generalize (if rp.use_greedy_wavespeed = true then _ else _ : ℝ) = lam
  split
  · exact le_enforceEntropy _ _ _ _ _ _ _ _
  · exact le_rfl

theorem dot_neg_right {n : ℕ} (a b : Vec n) : dot a (-b) = -dot a b := by
  simp [dot, Finset.sum_neg_distrib]

theorem enforceEntropy_swap (fl : Flux dim) (n : Vec dim) (u_i u_j f_i f_j lam k : ℝ) :
    enforceEntropy fl (-n) u_j u_i (-f_j) (-f_i) lam k = enforceEntropy fl n u_i u_j f_i f_j lam k := by
  unfold enforceEntropy
  simp only [dot_neg_right]
  have h1 : ∀ x y : ℝ, x + y = y + x := add_comm
  congr 1
  · congr 2
    · congr 1; ring
    · rw [h1 (kruzkovEntropy k u_j)]; congr 2; ring
  · congr 1
    · congr 1; ring
    · rw [h1 (kruzkovEntropy k u_j)]; congr 2; ring

theorem foldl_enforce_swap (fl : Flux dim) (n : Vec dim) (u_i u_j f_i f_j : ℝ) (draws : List ℝ)
    (lam : ℝ) :
    (draws.map (1 - ·)).foldl (fun lam factor =>
        enforceEntropy fl (-n) u_j u_i (-f_j) (-f_i) lam (factor * u_j + (1 - factor) * u_i)) lam
      = draws.foldl (fun lam factor =>
        enforceEntropy fl n u_i u_j f_i f_j lam (factor * u_i + (1 - factor) * u_j)) lam := by
  induction draws generalizing lam with
  | nil => rfl
  | cons a l ih =>
    simp only [List.map_cons, List.foldl_cons]
    rw [enforceEntropy_swap, ih]
    congr 2; ring

end Scalar
end Ryujin
