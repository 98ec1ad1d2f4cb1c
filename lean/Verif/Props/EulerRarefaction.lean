import Verif.Proofs.PlanarSolutions
import Mathlib.Analysis.SpecialFunctions.Pow.Continuity
import Mathlib.Tactic.Linarith

/-!
# The rarefaction wave and LeBlanc's shock tube (C80)
-/

namespace Ryujin
namespace InitialStates

open Euler (State mkState)
open Spec (fan SolvesAt SolvesEuler gasPressure RankineHugoniot eulerFlux)
open scoped BigOperators

variable {d : ℕ}

/-! ### Helpers -/

theorem SolvesAt.shift {n d : ℕ} {F : Vec n → Fin d → Vec n} {S : Vec n} {U : Vec d → ℝ → Vec n} {x : Vec d} {t0 t : ℝ}
    (h : SolvesAt F S U x (t0 + t)) : SolvesAt F S (fun x s => U x (t0 + s)) x t := by
  obtain ⟨Ut, Fx, h1, h2, h3⟩ := h
  exact ⟨Ut, Fx, h1.comp_const_add t0 t, h2, h3⟩

theorem continuous_mkState {X : Type*} [TopologicalSpace X] {s : Set X} {r E : X → ℝ} {m : X → Vec d}
    (hr : ContinuousOn r s) (hm : ∀ i, ContinuousOn (fun y => m y i) s) (hE : ContinuousOn E s) :
    ContinuousOn (fun y => (mkState (r y) (m y) (E y) : State d)) s := by
  refine continuousOn_pi.2 fun k => ?_
  refine Fin.cases ?_ (fun j => ?_) k
  · simpa [mkState] using hr
  · refine Fin.lastCases ?_ (fun i => ?_) j
    · simpa [mkState] using hE
    · simpa [mkState] using hm i

/-- The basis of the powers in `fan`. -/
noncomputable def fanBase (gamma uL cL chi : ℝ) : ℝ :=
  2 / (gamma + 1) + (gamma - 1) / ((gamma + 1) * cL) * (uL - chi)

theorem fan_continuous {X : Type*} [TopologicalSpace X] {s : Set X} {gamma rhoL uL pL cL : ℝ} {chi : X → ℝ}
    (hchi : ContinuousOn chi s) (hA : ∀ y ∈ s, 0 < fanBase gamma uL cL (chi y)) :
    ContinuousOn (fun y => ((fan gamma rhoL uL pL cL (chi y)).conserved gamma : State (d + 1))) s := by
  have hb : ContinuousOn (fun y => fanBase gamma uL cL (chi y)) s := by
    unfold fanBase
    fun_prop
  have hpow : ∀ e : ℝ, ContinuousOn (fun y => fanBase gamma uL cL (chi y) ^ e) s :=
    fun e => hb.rpow_const fun y hy => Or.inl (hA y hy).ne'
  have h1 : ContinuousOn (fun y => (fan gamma rhoL uL pL cL (chi y)).rho) s := continuousOn_const.mul (hpow _)
  have h2 : ContinuousOn (fun y => (fan gamma rhoL uL pL cL (chi y)).u) s :=
    continuousOn_const.mul (continuousOn_const.add hchi)
  have h3 : ContinuousOn (fun y => (fan gamma rhoL uL pL cL (chi y)).p) s := continuousOn_const.mul (hpow _)
  refine continuous_mkState h1 (fun i => ?_) ?_
  · by_cases hi : i = 0
    · simp only [hi, if_true]
      exact h1.mul h2
    · simpa [hi] using continuousOn_const
  · exact (h3.div_const _).add (((continuousOn_const.mul h1).mul h2).mul h2)

theorem conserved_density (gamma : ℝ) (s : Primitive) : Euler.density (s.conserved gamma : State (d + 1)) = s.rho := by
  unfold Primitive.conserved; rw [Euler.density_mkState]

theorem conserved_pressure {gamma : ℝ} (hg : gamma ≠ 1) (s : Primitive) :
    gasPressure gamma (s.conserved gamma : State (d + 1)) = s.p := by
  rw [Spec.primitive_conserved_eq, Spec.gasPressure_conserved _ hg]

theorem continuous_update_zero (x : Vec (d + 1)) (k : Fin (d + 1)) : Continuous fun s => Function.update x k s 0 := by
  by_cases h : (0 : Fin (d + 1)) = k
  · subst h; simp only [Function.update_self]; exact continuous_id
  · simpa [Function.update_of_ne h] using continuous_const

/-- A field that equals a solution of the first coordinate and time near a point. -/
theorem solves_of_eventually {n : ℕ} {F : Vec n → Fin (d + 1) → Vec n} {U : Vec (d + 1) → ℝ → Vec n}
    {W : Vec (d + 1) → ℝ → Vec n} {x : Vec (d + 1)} {t : ℝ} (C : ℝ → ℝ → Prop)
    (hC : ∀ x t, C (x 0) t → U x t = W x t) (ht : ∀ᶠ s in nhds t, C (x 0) s) (hx : ∀ᶠ y in nhds (x 0), C y t)
    (hW : SolvesAt F 0 W x t) : SolvesAt F 0 U x t := by
  refine hW.congr (ht.mono fun s hs => hC x s hs) fun k => ?_
  have h1 : Filter.Tendsto (fun s => Function.update x k s 0) (nhds (x k)) (nhds (x 0)) := by
    have := (continuous_update_zero x k).tendsto (x k)
    rwa [Function.update_eq_self] at this
  exact (h1.eventually hx).mono fun s hs => hC _ t hs

/-! ### The rarefaction wave -/

section
variable {gamma : ℝ}

theorem rarefactionData_facts (hg : 1 < gamma) :
    (rarefactionData gamma).c_right = (rarefactionData gamma).c_left * (1 / 6 : ℝ) ^ ((gamma - 1) / 2) ∧
      0 < (rarefactionData gamma).c_left ∧ 0 < (rarefactionData gamma).c_right ∧
      (rarefactionData gamma).c_right < (rarefactionData gamma).c_left := by
  have hp : (0 : ℝ) < (1 / 6 : ℝ) ^ ((gamma - 1) / 2) := Real.rpow_pos_of_pos (by norm_num) _
  have hlt : (1 / 6 : ℝ) ^ ((gamma - 1) / 2) < 1 := Real.rpow_lt_one (by norm_num) (by norm_num) (by linarith)
  have hcl : 0 < (rarefactionData gamma).c_left := by
    show 0 < Real.sqrt (gamma * 1 / 3)
    exact Real.sqrt_pos.2 (by linarith)
  have heq : (rarefactionData gamma).c_right = (rarefactionData gamma).c_left * (1 / 6 : ℝ) ^ ((gamma - 1) / 2) := by
    show Real.sqrt (gamma * ((0.5 / 3) ^ gamma * 1) / 0.5) = Real.sqrt (gamma * 1 / 3) * _
    have h6 : (0.5 / 3 : ℝ) = 1 / 6 := by norm_num
    rw [h6]
    have h1 : gamma * ((1 / 6 : ℝ) ^ gamma * 1) / 0.5 = (gamma * 1 / 3) * ((1 / 6 : ℝ) ^ ((gamma - 1) / 2)) ^ 2 := by
      have : ((1 / 6 : ℝ) ^ ((gamma - 1) / 2)) ^ 2 = (1 / 6 : ℝ) ^ gamma * 6 := by
        rw [← Real.rpow_natCast, ← Real.rpow_mul (by norm_num), Nat.cast_ofNat, div_mul_cancel₀ _ (by norm_num : (2 : ℝ) ≠ 0),
          Real.rpow_sub (by norm_num), Real.rpow_one]
        ring
      rw [this]; ring
    rw [h1, Real.sqrt_mul (by linarith), Real.sqrt_sq hp.le]
  refine ⟨heq, hcl, ?_, ?_⟩
  · rw [heq]; positivity
  · rw [heq]; nlinarith

theorem fanBase_right (hg : 1 < gamma) :
    fanBase gamma (rarefactionData gamma).u_left (rarefactionData gamma).c_left
      ((rarefactionData gamma).u_right - (rarefactionData gamma).c_right) =
      (rarefactionData gamma).c_right / (rarefactionData gamma).c_left := by
  obtain ⟨-, h1, -, -⟩ := rarefactionData_facts hg
  have hu : (rarefactionData gamma).u_right = (rarefactionData gamma).u_left +
    2 * ((rarefactionData gamma).c_left - (rarefactionData gamma).c_right) / (gamma - 1) := rfl
  unfold fanBase
  rw [hu]
  generalize (rarefactionData gamma).c_left = cL at *
  generalize (rarefactionData gamma).c_right = cR at *
  have : gamma - 1 ≠ 0 := by linarith
  have : gamma + 1 ≠ 0 := by linarith
  field_simp
  ring

/-- The state at `x` is the fan evaluated at the ray of `x`, truncated to the two edges. -/
theorem rarefaction_eq (hg : 1 < gamma) (x : Vec (d + 1)) (dt t : ℝ)
    (htdef : t = 0.2 / ((rarefactionData gamma).u_right - (rarefactionData gamma).u_left) + dt) (ht : 0 < t) :
    rarefaction gamma x dt = (fan gamma (rarefactionData gamma).rho_left (rarefactionData gamma).u_left
      (rarefactionData gamma).p_left (rarefactionData gamma).c_left
      (max 0 (min (x 0 / t) ((rarefactionData gamma).u_right - (rarefactionData gamma).c_right)))).conserved gamma := by
  obtain ⟨hcR, hcl, hcr, hlt⟩ := rarefactionData_facts hg
  have hright := fanBase_right hg
  have hul : (rarefactionData gamma).u_left = (rarefactionData gamma).c_left := rfl
  have hu : (rarefactionData gamma).u_right = (rarefactionData gamma).u_left +
    2 * ((rarefactionData gamma).c_left - (rarefactionData gamma).c_right) / (gamma - 1) := rfl
  have hg1 : 0 < gamma - 1 := by linarith
  have hpos : 0 < (rarefactionData gamma).u_right - (rarefactionData gamma).c_right := by
    rw [hu, hul]
    have : 0 < 2 * ((rarefactionData gamma).c_left - (rarefactionData gamma).c_right) / (gamma - 1) :=
      div_pos (by linarith) hg1
    linarith
  unfold rarefaction
  dsimp only
  rw [← htdef]
  congr 1
  split_ifs with h1 h2
  · have hx : x 0 / t ≤ 0 := by
      rw [hul, sub_self, mul_zero] at h1
      exact div_nonpos_of_nonpos_of_nonneg h1 ht.le
    rw [max_eq_left (le_trans (min_le_left _ _) hx)]
    have hb : 2 / (gamma + 1) + (gamma - 1) / ((gamma + 1) * (rarefactionData gamma).c_left) *
        ((rarefactionData gamma).u_left - 0) = 1 := by
      rw [hul]; field_simp; ring
    unfold Spec.fan
    dsimp only
    rw [hb, Real.one_rpow, Real.one_rpow, mul_one, mul_one, hul]
    congr 1
    field_simp; ring
  · have hx0 : 0 < x 0 := by
      rw [hul, sub_self, mul_zero] at h1
      exact not_le.1 h1
    rw [min_eq_left ((div_le_iff₀ ht).2 (by rw [mul_comm]; exact h2)), max_eq_right (div_pos hx0 ht).le]
    rfl
  · have hx : (rarefactionData gamma).u_right - (rarefactionData gamma).c_right ≤ x 0 / t := by
      rw [le_div_iff₀ ht, mul_comm]
      exact (not_le.1 h2).le
    rw [min_eq_right hx, max_eq_right hpos.le]
    unfold fanBase at hright
    unfold Spec.fan
    dsimp only
    rw [hright, hcR, mul_div_cancel_left₀ _ hcl.ne', ← Real.rpow_mul (by norm_num), ← Real.rpow_mul (by norm_num)]
    have e1 : (gamma - 1) / 2 * (2 / (gamma - 1)) = 1 := by field_simp
    have e2 : (gamma - 1) / 2 * (2 * gamma / (gamma - 1)) = gamma := by field_simp
    rw [e1, e2, Real.rpow_one]
    congr 1
    · show (0.5 : ℝ) = 3 * (1 / 6); norm_num
    · rw [← hcR, hu]
      field_simp
      ring
    · show (0.5 / 3 : ℝ) ^ gamma * 1 = 1 * (1 / 6 : ℝ) ^ gamma
      norm_num

/-- **C80.**  The rarefaction wave: at every time density and pressure are positive, the field is continuous, and away from
two planes (the head and the tail of the wave) it solves the Euler equations with the given `gamma`. -/
theorem C80_rarefaction (hg : 1 < gamma) (t : ℝ) (ht : 0 ≤ t) :
    (∀ x : Vec (d + 1), 0 < Euler.density (rarefaction gamma x t) ∧ 0 < gasPressure gamma (rarefaction gamma x t)) ∧
      Continuous (fun x : Vec (d + 1) => rarefaction gamma x t) ∧
      ∃ a b : ℝ, a < b ∧ ∀ x : Vec (d + 1), x 0 ≠ a → x 0 ≠ b → SolvesEuler gamma (rarefaction gamma) x t := by
  obtain ⟨hcR, hcl, hcr, hlt⟩ := rarefactionData_facts hg
  have hright := fanBase_right hg
  have hul : (rarefactionData gamma).u_left = (rarefactionData gamma).c_left := rfl
  have hu : (rarefactionData gamma).u_right = (rarefactionData gamma).u_left +
    2 * ((rarefactionData gamma).c_left - (rarefactionData gamma).c_right) / (gamma - 1) := rfl
  have hg1 : 0 < gamma - 1 := by linarith
  have hjump : 0 < (rarefactionData gamma).u_right - (rarefactionData gamma).u_left := by
    rw [hu]
    have : 0 < 2 * ((rarefactionData gamma).c_left - (rarefactionData gamma).c_right) / (gamma - 1) :=
      div_pos (by linarith) hg1
    linarith
  obtain ⟨t0, ht0⟩ : ∃ t0, t0 = 0.2 / ((rarefactionData gamma).u_right - (rarefactionData gamma).u_left) := ⟨_, rfl⟩
  have ht0pos : 0 < t0 := by rw [ht0]; exact div_pos (by norm_num) hjump
  obtain ⟨beta, hbeta⟩ : ∃ beta, beta = (rarefactionData gamma).u_right - (rarefactionData gamma).c_right := ⟨_, rfl⟩
  have hbpos : 0 < beta := by rw [hbeta]; linarith
  have heq : ∀ (x : Vec (d + 1)) s, 0 < t0 + s → rarefaction gamma x s = (fan gamma (rarefactionData gamma).rho_left
      (rarefactionData gamma).u_left (rarefactionData gamma).p_left (rarefactionData gamma).c_left
      (max 0 (min (x 0 / (t0 + s)) beta))).conserved gamma := by
    intro x s hs
    rw [hbeta]
    exact rarefaction_eq hg x s (t0 + s) (by rw [ht0]) hs
  have hbase : ∀ chi, chi ≤ beta → 0 < fanBase gamma (rarefactionData gamma).u_left (rarefactionData gamma).c_left chi := by
    intro chi hchi
    have h1 : 0 < (rarefactionData gamma).c_right / (rarefactionData gamma).c_left := div_pos hcr hcl
    rw [← hright, ← hbeta] at h1
    refine lt_of_lt_of_le h1 ?_
    unfold fanBase
    have : 0 ≤ (gamma - 1) / ((gamma + 1) * (rarefactionData gamma).c_left) := by positivity
    nlinarith
  have hclamp : ∀ y, max 0 (min y beta) ≤ beta := fun y => max_le hbpos.le (min_le_right _ _)
  have htt : 0 < t0 + t := by linarith
  refine ⟨fun x => ?_, ?_, 0, (t0 + t) * beta, by positivity, fun x hxa hxb => ?_⟩
  · rw [heq x t htt, conserved_density, conserved_pressure hg.ne']
    have := hbase _ (hclamp (x 0 / (t0 + t)))
    unfold fanBase at this
    exact ⟨mul_pos (by show (0 : ℝ) < 3; norm_num) (Real.rpow_pos_of_pos this _),
      mul_pos (by show (0 : ℝ) < 1; norm_num) (Real.rpow_pos_of_pos this _)⟩
  · have : (fun x : Vec (d + 1) => rarefaction gamma x t) = fun x => (fan gamma (rarefactionData gamma).rho_left
      (rarefactionData gamma).u_left (rarefactionData gamma).p_left (rarefactionData gamma).c_left
      (max 0 (min (x 0 / (t0 + t)) beta))).conserved gamma := funext fun x => heq x t htt
    rw [this, ← continuousOn_univ]
    refine fan_continuous ?_ fun y _ => hbase _ (hclamp _)
    refine Continuous.continuousOn ?_
    fun_prop
  · have htev : ∀ᶠ s in nhds t, 0 < t0 + s :=
      (continuous_const.add continuous_id).continuousAt.eventually (lt_mem_nhds htt)
    have hdivt : ContinuousAt (fun s => x 0 / (t0 + s)) t :=
      continuousAt_const.div (continuousAt_const.add continuousAt_id) htt.ne'
    have hdivx : ContinuousAt (fun y => y / (t0 + t)) (x 0) := continuousAt_id.div_const _
    rcases lt_or_gt_of_ne hxa with h1 | h1
    · refine solves_of_eventually (fun y s => 0 < t0 + s ∧ y / (t0 + s) < 0) (W := fun _ _ => (fan gamma
        (rarefactionData gamma).rho_left (rarefactionData gamma).u_left (rarefactionData gamma).p_left
        (rarefactionData gamma).c_left 0).conserved gamma) ?_ ?_ ?_ (Spec.solvesAt_const _ _ _ _)
      · intro x s hs
        rw [heq x s hs.1, max_eq_left (le_trans (min_le_left _ _) hs.2.le)]
      · exact htev.and (hdivt.eventually (gt_mem_nhds (div_neg_of_neg_of_pos h1 htt)))
      · exact (hdivx.eventually (gt_mem_nhds (div_neg_of_neg_of_pos h1 htt))).mono fun y hy => ⟨htt, hy⟩
    · rcases lt_or_gt_of_ne hxb with h2 | h2
      · have h3 : 0 < x 0 / (t0 + t) := div_pos h1 htt
        have h4 : x 0 / (t0 + t) < beta := (div_lt_iff₀ htt).2 (by rw [mul_comm]; exact h2)
        refine solves_of_eventually (fun y s => 0 < t0 + s ∧ 0 < y / (t0 + s) ∧ y / (t0 + s) < beta)
          (W := fun x s => (fan gamma (rarefactionData gamma).rho_left (rarefactionData gamma).u_left
            (rarefactionData gamma).p_left (rarefactionData gamma).c_left (x 0 / (t0 + s))).conserved gamma) ?_ ?_ ?_ ?_
        · intro x s hs
          rw [heq x s hs.1, min_eq_left hs.2.2.le, max_eq_right hs.2.1.le]
        · exact htev.and ((hdivt.eventually (lt_mem_nhds h3)).and (hdivt.eventually (gt_mem_nhds h4)))
        · exact ((hdivx.eventually (lt_mem_nhds h3)).and (hdivx.eventually (gt_mem_nhds h4))).mono fun y hy => ⟨htt, hy⟩
        · refine SolvesAt.shift (U := fun x s => (fan gamma (rarefactionData gamma).rho_left (rarefactionData gamma).u_left
            (rarefactionData gamma).p_left (rarefactionData gamma).c_left (x 0 / s)).conserved gamma) ?_
          refine Spec.fan_solves hg (by show (0 : ℝ) < 3; norm_num) hcl ?_ x _ htt.ne' (hbase _ h4.le)
          show (3 : ℝ) * Real.sqrt (gamma * 1 / 3) ^ 2 = gamma * 1
          rw [Real.sq_sqrt (by linarith)]
          ring
      · have h4 : beta < x 0 / (t0 + t) := (lt_div_iff₀ htt).2 (by rw [mul_comm]; exact h2)
        refine solves_of_eventually (fun y s => 0 < t0 + s ∧ beta < y / (t0 + s)) (W := fun _ _ => (fan gamma
          (rarefactionData gamma).rho_left (rarefactionData gamma).u_left (rarefactionData gamma).p_left
          (rarefactionData gamma).c_left beta).conserved gamma) ?_ ?_ ?_ (Spec.solvesAt_const _ _ _ _)
        · intro x s hs
          rw [heq x s hs.1, min_eq_right hs.2.le, max_eq_right hbpos.le]
        · exact htev.and (hdivt.eventually (lt_mem_nhds h4))
        · exact (hdivx.eventually (lt_mem_nhds h4)).mono fun y hy => ⟨htt, hy⟩

/-- The wave is not constant: the densities far to the left and far to the right differ. -/
example : Euler.density (rarefaction (7 / 5) (fun _ : Fin 1 => -1) 0) = 3 ∧
    Euler.density (rarefaction (7 / 5) (fun _ : Fin 1 => 1000000) 0) ≠ 3 := by
  obtain ⟨hcR, hcl, hcr, hlt⟩ := rarefactionData_facts (gamma := 7 / 5) (by norm_num)
  have hul : (rarefactionData (7 / 5)).u_left = (rarefactionData (7 / 5)).c_left := rfl
  constructor
  · unfold rarefaction
    dsimp only
    rw [if_pos (by rw [hul, sub_self, mul_zero]; norm_num), conserved_density]
    rfl
  · have hcl1 : (rarefactionData (7 / 5)).c_left < 1 := by
      show Real.sqrt _ < 1
      rw [Real.sqrt_lt' one_pos]; norm_num
    have hcr1 : (rarefactionData (7 / 5)).c_right * 4 ≤ (rarefactionData (7 / 5)).c_left * 3 := by
      rw [hcR]
      have h1 : (1 / 6 : ℝ) ^ (((7 / 5 : ℝ) - 1) / 2) ≤ 3 / 4 := by
        have : ((3 / 4 : ℝ) ^ (5 : ℕ)) ^ (((7 / 5 : ℝ) - 1) / 2) = 3 / 4 := by
          rw [← Real.rpow_natCast, ← Real.rpow_mul (by norm_num)]
          norm_num
        rw [← this]
        exact Real.rpow_le_rpow (by norm_num) (by norm_num) (by norm_num)
      nlinarith
    have hcl2 : 1 / 2 < (rarefactionData (7 / 5)).c_left := by
      show _ < Real.sqrt _
      rw [Real.lt_sqrt (by norm_num)]; norm_num
    have hu : (rarefactionData (7 / 5)).u_right = (rarefactionData (7 / 5)).u_left +
      2 * ((rarefactionData (7 / 5)).c_left - (rarefactionData (7 / 5)).c_right) / (7 / 5 - 1) := rfl
    have hd : 1 / 2 < (rarefactionData (7 / 5)).u_right - (rarefactionData (7 / 5)).u_left := by
      rw [hu]; norm_num; linarith
    have hu10 : (rarefactionData (7 / 5)).u_right ≤ 10 := by rw [hu, hul]; norm_num; linarith
    have ht : 0.2 / ((rarefactionData (7 / 5)).u_right - (rarefactionData (7 / 5)).u_left) + 0 ≤ 1 := by
      rw [add_zero, div_le_one (by linarith)]; norm_num; linarith
    have ht2 : 0 ≤ 0.2 / ((rarefactionData (7 / 5)).u_right - (rarefactionData (7 / 5)).u_left) + 0 := by
      rw [add_zero]; exact div_nonneg (by norm_num) (by linarith)
    unfold rarefaction
    dsimp only
    rw [if_neg (by rw [hul, sub_self, mul_zero]; norm_num), if_neg (by
      rw [not_le]
      refine lt_of_le_of_lt (mul_le_mul ht (by linarith : _ ≤ (10 : ℝ)) (by linarith) (by norm_num)) (by norm_num)),
      conserved_density]
    show (0.5 : ℝ) ≠ 3
    norm_num

end

end InitialStates
end Ryujin
