import Mathlib.Analysis.Calculus.Deriv.Mul
import Mathlib.Analysis.Calculus.Deriv.Inv
import Mathlib.Analysis.Calculus.Deriv.Add
import Mathlib.Analysis.Calculus.Deriv.Slope
import Mathlib.Analysis.SpecialFunctions.Pow.Deriv
import Mathlib.Tactic.LinearCombination
import Verif.Spec.EntropyPair
import Verif.Proofs.EulerSystem

/-!
# Entropy pairs of gas dynamics (helpers for C89)
-/

namespace Ryujin
namespace EntropyPair

open Filter Topology

variable {n dim : ℕ}

theorem hasDerivAt_dot {m : ℝ → Vec dim} {m' : Vec dim} (hm : ∀ k, HasDerivAt (fun h => m h k) (m' k) 0) (d : Vec dim) :
    HasDerivAt (fun h => dot (m h) d) (dot m' d) 0 := by
  unfold dot
  exact HasDerivAt.fun_sum fun i _ => (hm i).mul_const (d i)

theorem hasDerivAt_normSq {m : ℝ → Vec dim} {m' : Vec dim} (hm : ∀ k, HasDerivAt (fun h => m h k) (m' k) 0) :
    HasDerivAt (fun h => normSq (m h)) (2 * dot (m 0) m') 0 := by
  unfold normSq dot
  rw [Finset.mul_sum]
  refine (HasDerivAt.fun_sum fun i _ => (hm i).mul (hm i)).congr_deriv ?_
  exact Finset.sum_congr rfl fun i _ => by ring

/-- Components of a differentiable curve of states. -/
theorem curve_components {c : ℝ → Euler.State dim} {c' : Euler.State dim} (hc : HasDerivAt c c' 0) :
    HasDerivAt (fun h => Euler.density (c h)) (Euler.density c') 0 ∧
    (∀ k, HasDerivAt (fun h => Euler.momentum (c h) k) (Euler.momentum c' k) 0) ∧
    HasDerivAt (fun h => Euler.totalEnergy (c h)) (Euler.totalEnergy c') 0 :=
  ⟨hasDerivAt_pi.1 hc _, fun _ => hasDerivAt_pi.1 hc _, hasDerivAt_pi.1 hc _⟩

theorem sum_mkState (a F b : ℝ) (m : Vec dim) (W : Euler.State dim) :
    ∑ k, Euler.mkState a (fun i => -F * m i) b k * W k =
      a * Euler.density W - F * dot m (Euler.momentum W) + b * Euler.totalEnergy W := by
  have h := Euler.dot_state (Euler.mkState a (fun i => -F * m i) b) W
  rw [Euler.density_mkState, Euler.momentum_mkState, Euler.totalEnergy_mkState] at h
  have h2 : dot (fun i => -F * m i) (Euler.momentum W) = -F * dot m (Euler.momentum W) :=
    dot_smul_left (-F) m _
  rw [h2] at h
  refine Eq.trans h ?_
  ring

/-- Gas dynamics with a pressure function: if the entropy gradient is `(g0, -F m, F ρ)` and
`g0 + F (E + p - |m|²/ρ) = η/ρ`, then `η v` is the entropy flux. -/
theorem gas_entropyFlux {eta pr : Euler.State dim → ℝ} {fl : Euler.State dim → Fin (dim + 2) → Vec dim}
    (hfl : ∀ (U : Euler.State dim) (d : Vec dim), contract (fl U) d = Euler.mkState (dot (Euler.momentum U) d)
      (fun i => dot (Euler.momentum U) d * (Euler.momentum U i / Euler.density U) + pr U * d i)
      (dot (Euler.momentum U) d * ((Euler.totalEnergy U + pr U) / Euler.density U)))
    {U : Euler.State dim} {g0 F : ℝ} (hr : Euler.density U ≠ 0)
    (hpr : ∀ (c : ℝ → Euler.State dim) (c' : Euler.State dim), c 0 = U → HasDerivAt c c' 0 →
      ∃ P', HasDerivAt (fun h => pr (c h)) P' 0)
    (hgrad : Spec.IsGradient eta U (Euler.mkState g0 (fun i => -F * Euler.momentum U i) (F * Euler.density U)))
    (hcomp : g0 + F * (Euler.totalEnergy U + pr U - normSq (Euler.momentum U) / Euler.density U) =
      eta U / Euler.density U) :
    Spec.IsEntropyFlux (fun U => fun d => eta U / Euler.density U * Euler.momentum U d) fl U
      (Euler.mkState g0 (fun i => -F * Euler.momentum U i) (F * Euler.density U)) := by
  intro c c' d hc0 hc
  obtain ⟨hrho, hm, hE⟩ := curve_components hc
  obtain ⟨P', hP⟩ := hpr c c' hc0 hc
  have heta := hgrad c c' hc0 hc
  rw [sum_mkState] at heta
  have hw := hasDerivAt_dot hm d
  have hr0 : Euler.density (c 0) ≠ 0 := by rw [hc0]; exact hr
  have hcomponent : ∀ (V : Euler.State dim) (k : Fin (dim + 2)), dot (fl V k) d = contract (fl V) d k := fun _ _ => rfl
  set w := dot (Euler.momentum U) d with hwdef
  set w' := dot (Euler.momentum c') d with hw'
  set r := Euler.density U with hrdef
  set r' := Euler.density c' with hr'
  set E := Euler.totalEnergy U with hEdef
  set E' := Euler.totalEnergy c' with hE'
  -- derivative of the flux
  have hquot : ∀ i, HasDerivAt (fun h => Euler.momentum (c h) i / Euler.density (c h))
      ((Euler.momentum c' i * r - Euler.momentum U i * r') / r ^ 2) 0 := by
    intro i
    have := (hm i).div hrho hr0
    rw [hc0] at this
    exact this
  have hmomf : ∀ i, HasDerivAt (fun h => dot (Euler.momentum (c h)) d * (Euler.momentum (c h) i / Euler.density (c h)) +
      pr (c h) * d i) (w' * (Euler.momentum U i / r) +
        w * ((Euler.momentum c' i * r - Euler.momentum U i * r') / r ^ 2) + P' * d i) 0 := by
    intro i
    have := (hw.mul (hquot i)).add (hP.mul_const (d i))
    rw [hc0] at this
    exact this
  have hEf : HasDerivAt (fun h => dot (Euler.momentum (c h)) d * ((Euler.totalEnergy (c h) + pr (c h)) / Euler.density (c h)))
      (w' * ((E + pr U) / r) + w * (((E' + P') * r - (E + pr U) * r') / r ^ 2)) 0 := by
    have := hw.mul ((hE.add hP).div hrho hr0)
    simp only [Pi.add_apply, Pi.div_apply] at this
    rw [hc0] at this
    exact this
  let F' : Euler.State dim := Euler.mkState w' (fun i => w' * (Euler.momentum U i / r) +
        w * ((Euler.momentum c' i * r - Euler.momentum U i * r') / r ^ 2) + P' * d i)
        (w' * ((E + pr U) / r) + w * (((E' + P') * r - (E + pr U) * r') / r ^ 2))
  have hF : HasDerivAt (fun h => contract (fl (c h)) d) F' 0 := by
    rw [hasDerivAt_pi]
    intro k
    simp only [hfl]
    refine Fin.cases ?_ (fun k => ?_) k
    · exact hw
    · refine Fin.lastCases ?_ (fun i => ?_) k
      · have e1 : ∀ (a b : ℝ) (m : Vec dim), Euler.mkState a m b (Fin.last dim).succ = b := fun a b m =>
          Euler.totalEnergy_mkState a m b
        simp only [e1, F']
        exact hEf
      · have e1 : ∀ (a b : ℝ) (m : Vec dim), Euler.mkState a m b i.castSucc.succ = m i := fun a b m =>
          congrFun (Euler.momentum_mkState a m b) i
        simp only [e1, F']
        exact hmomf i
  refine ⟨F', fun k => hasDerivAt_pi.1 hF k, ?_⟩
  have hq : HasDerivAt (fun h => eta (c h) / Euler.density (c h) * dot (Euler.momentum (c h)) d)
      ((((g0 * r' - F * dot (Euler.momentum U) (Euler.momentum c') + F * r * E') * r - eta U * r') / r ^ 2) * w +
        eta U / r * w') 0 := by
    have := (heta.div hrho hr0).mul hw
    simp only [Pi.div_apply] at this
    rw [hc0] at this
    exact this
  have hsum : ∑ k, Euler.mkState g0 (fun i => -F * Euler.momentum U i) (F * r) k * F' k =
      (((g0 * r' - F * dot (Euler.momentum U) (Euler.momentum c') + F * r * E') * r - eta U * r') / r ^ 2) * w +
        eta U / r * w' := by
    rw [sum_mkState]
    have hdm : dot (Euler.momentum U) (Euler.momentum F') = w' * (normSq (Euler.momentum U) / r) +
        w * ((dot (Euler.momentum U) (Euler.momentum c') * r - normSq (Euler.momentum U) * r') / r ^ 2) + P' * w := by
      have : Euler.momentum F' = (w' / r - w * r' / r ^ 2) • Euler.momentum U + (w / r) • Euler.momentum c' + P' • d := by
        simp only [F', Euler.momentum_mkState]
        funext i
        simp only [Pi.add_apply, Pi.smul_apply, smul_eq_mul]
        field_simp
        ring
      rw [this, dot_add_right, dot_add_right, dot_smul_right, dot_smul_right, dot_smul_right,
        normSq_eq_dot, hwdef]
      field_simp
      ring
    have h1 : Euler.density F' = w' := Euler.density_mkState _ _ _
    have h2 : Euler.totalEnergy F' = w' * ((E + pr U) / r) + w * (((E' + P') * r - (E + pr U) * r') / r ^ 2) :=
      Euler.totalEnergy_mkState _ _ _
    rw [hdm, h1, h2]
    have hc2 : eta U = r * g0 + F * (r * (E + pr U) - normSq (Euler.momentum U)) := by
      have := hcomp
      field_simp at this
      linarith
    rw [hc2]
    field_simp
    ring
  rw [hsum]
  refine hq.congr_of_eventuallyEq (Eventually.of_forall fun h => ?_)
  exact dot_smul_left (eta (c h) / Euler.density (c h)) (Euler.momentum (c h)) d

/-- The entropy production of an entropy pair is of higher order in the distance of the states. -/
theorem production_little_o {q : Vec n → Vec dim} {f : Vec n → Fin n → Vec dim} {U g : Vec n}
    (hq : Spec.IsEntropyFlux q f U g) (row : List ((ℝ → Vec n) × Vec dim))
    (h0 : ∀ e ∈ row, e.1 0 = U) (hd : ∀ e ∈ row, DifferentiableAt ℝ e.1 0) :
    Tendsto (fun h => Spec.entropyProduction q f U g (row.map fun e => (e.1 h, e.2)) / h) (𝓝[≠] 0) (𝓝 0) := by
  have key : HasDerivAt (fun h => Spec.entropyProduction q f U g (row.map fun e => (e.1 h, e.2))) 0 0 ∧
      Spec.entropyProduction q f U g (row.map fun e => (e.1 0, e.2)) = 0 := by
    induction row with
    | nil => exact ⟨by simpa [Spec.entropyProduction] using hasDerivAt_const (0 : ℝ) (0 : ℝ), by simp [Spec.entropyProduction]⟩
    | cons e l ih =>
      obtain ⟨ih1, ih2⟩ := ih (fun e he => h0 e (by simp [he])) (fun e he => hd e (by simp [he]))
      obtain ⟨F', hF, hQ⟩ := hq e.1 (deriv e.1 0) e.2 (h0 e (by simp)) (hd e (by simp)).hasDerivAt
      have hsplit : ∀ h, Spec.entropyProduction q f U g ((e :: l).map fun e => (e.1 h, e.2)) =
          (dot (q (e.1 h)) e.2 - dot (q U) e.2 - ∑ k, g k * (dot (f (e.1 h) k) e.2 - dot (f U k) e.2)) +
          Spec.entropyProduction q f U g (l.map fun e => (e.1 h, e.2)) := by
        intro h
        have hsub : ∀ a b c : Vec dim, dot (fun d => a d - b d) c = dot a c - dot b c := by
          intro a b c; unfold dot; rw [← Finset.sum_sub_distrib]
          exact Finset.sum_congr rfl fun i _ => by ring
        simp only [Spec.entropyProduction, List.map_cons, List.sum_cons, hsub]
      constructor
      · have h1 : HasDerivAt (fun h => dot (q (e.1 h)) e.2 - dot (q U) e.2 - ∑ k, g k * (dot (f (e.1 h) k) e.2 - dot (f U k) e.2))
            (∑ k, g k * F' k - ∑ k, g k * F' k) 0 :=
          (hQ.sub_const _).sub (HasDerivAt.fun_sum fun k _ => ((hF k).sub_const _).const_mul (g k))
        rw [sub_self] at h1
        have h2 := h1.add ih1
        rw [add_zero] at h2
        refine h2.congr_of_eventuallyEq (Eventually.of_forall fun h => ?_)
        exact hsplit h
      · rw [hsplit, ih2, h0 e (by simp)]
        simp
  have := key.1.tendsto_slope
  refine this.congr fun h => ?_
  rw [slope_def_field, key.2, sub_zero, sub_zero]

/-- Scaling the vectors `c_ij` scales the entropy production. -/
theorem production_smul (q : Vec n → Vec dim) (f : Vec n → Fin n → Vec dim) (U g : Vec n) (s : ℝ)
    (row : List (Vec n × Vec dim)) :
    Spec.entropyProduction q f U g (row.map fun e => (e.1, s • e.2)) = s * Spec.entropyProduction q f U g row := by
  induction row with
  | nil => simp [Spec.entropyProduction]
  | cons e l ih =>
    simp only [Spec.entropyProduction, List.map_cons, List.sum_cons] at ih ⊢
    rw [ih, mul_add, dot_smul_right, mul_sub, Finset.mul_sum]
    congr 2
    exact Finset.sum_congr rfl fun k _ => by rw [dot_smul_right]; ring

/-- A quotient of the form of the indicators vanishes in the limit. -/
theorem quotient_tendsto {P : ℝ → ℝ} (hP : Tendsto (fun h => P h / h) (𝓝[≠] 0) (𝓝 0)) {den : ℝ → ℝ} (hden : ∀ h, 0 ≤ den h)
    {evc kappa eta : ℝ} (hevc : 0 ≤ evc) (hk : 0 < kappa) (heta : 0 < eta) (a : ℕ) {al : ℝ → ℝ}
    (hal : ∀ h, 0 < h → al h = min 1 (evc * (|h ^ a * P h| / (den h + kappa * h ^ (a + 1) * eta)))) :
    Tendsto al (𝓝[>] 0) (𝓝 0) := by
  have h1 : Tendsto (fun h => evc / (kappa * eta) * |P h / h|) (𝓝[>] 0) (𝓝 0) := by
    have : Tendsto (fun h => P h / h) (𝓝[>] 0) (𝓝 0) := hP.mono_left (nhdsWithin_mono _ fun x hx => (ne_of_gt hx))
    simpa using (this.abs).const_mul (evc / (kappa * eta))
  refine tendsto_of_tendsto_of_tendsto_of_le_of_le' tendsto_const_nhds h1 ?_ ?_
  · filter_upwards [self_mem_nhdsWithin] with h hh
    have hh0 : 0 < h := hh
    rw [hal h hh0]
    exact le_min zero_le_one (mul_nonneg hevc (div_nonneg (abs_nonneg _)
      (add_nonneg (hden h) (mul_nonneg (mul_nonneg hk.le (pow_nonneg hh0.le _)) heta.le))))
  · filter_upwards [self_mem_nhdsWithin] with h hh
    have hh0 : 0 < h := hh
    rw [hal h hh0]
    refine (min_le_right _ _).trans ?_
    have hp : 0 < kappa * h ^ (a + 1) * eta := by positivity
    have h2 : |h ^ a * P h| / (den h + kappa * h ^ (a + 1) * eta) ≤ |h ^ a * P h| / (kappa * h ^ (a + 1) * eta) :=
      div_le_div_of_nonneg_left (abs_nonneg _) hp (by linarith [hden h])
    refine (mul_le_mul_of_nonneg_left h2 hevc).trans (le_of_eq ?_)
    rw [abs_mul, abs_div, abs_of_pos (pow_pos hh0 a), abs_of_pos hh0, pow_succ]
    field_simp

end EntropyPair
end Ryujin
