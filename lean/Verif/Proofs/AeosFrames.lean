import Verif.Proofs.Frames
import Verif.Proofs.AeosBar
import Verif.Proofs.StepEquivariance
import Verif.Model.AeosDescription
import Verif.Model.EquationOfState

/-!
# The Euler equations with arbitrary equation of state in another frame of reference
-/

namespace Ryujin
namespace Aeos

open Euler (State density momentum totalEnergy internalEnergy internalEnergyDerivative mkState rotate density_rotate
  momentum_rotate totalEnergy_rotate internalEnergy_rotate internalEnergyDerivative_rotate dot_rotate state_ext sum_abs_rotate)

noncomputable section

variable {dim : ℕ}

section

variable {A : Matrix (Fin dim) (Fin dim) ℝ} (U V : State dim) (hA : A * A.transpose = 1)

include hA

theorem shift_rotate (p : Params) : shift p (rotate A U) = shift p U := by
  unfold shift
  rw [internalEnergy_rotate _ hA, density_rotate]

theorem surrogateSpecificEntropy_rotate (p : Params) (g : ℝ) :
    surrogateSpecificEntropy p (rotate A U) g = surrogateSpecificEntropy p U g := by
  unfold surrogateSpecificEntropy
  rw [shift_rotate _ hA, density_rotate]

theorem surrogateHartenEntropy_rotate (p : Params) (g : ℝ) :
    surrogateHartenEntropy p (rotate A U) g = surrogateHartenEntropy p U g := by
  unfold surrogateHartenEntropy
  simp only [density_rotate, totalEnergy_rotate, momentum_rotate, frame_normSq hA]

theorem surrogateGamma_rotate (p : Params) (pr : ℝ) : surrogateGamma p (rotate A U) pr = surrogateGamma p U pr := by
  unfold surrogateGamma
  rw [internalEnergy_rotate _ hA, density_rotate]

theorem surrogatePressure_rotate (p : Params) (g : ℝ) : surrogatePressure p (rotate A U) g = surrogatePressure p U g := by
  unfold surrogatePressure
  rw [internalEnergy_rotate _ hA, density_rotate]

theorem surrogateHartenEntropyDerivative_rotate (p : Params) (eta g : ℝ) :
    surrogateHartenEntropyDerivative p (rotate A U) eta g = rotate A (surrogateHartenEntropyDerivative p U eta g) := by
  unfold surrogateHartenEntropyDerivative
  simp only [density_rotate, totalEnergy_rotate, momentum_rotate, frame_normSq hA]
  generalize (eta * (1 / covolume p (density U))) ^ (-g) * (1 / covolume p (density U)) ^ 2 / (g + 1) = q
  refine state_ext (by simp) ?_ (by simp)
  rw [Euler.momentum_mkState, momentum_rotate, Euler.momentum_mkState]
  have : (fun i => -q * covolume p (density U) * momentum U i) = (-q * covolume p (density U)) • momentum U := by
    funext i; simp
  rw [this, Matrix.mulVec_smul]
  funext i; simp

theorem f_rotate (pr : ℝ) : f (rotate A U) pr = moveFlux A (rotate A) (f U pr) := by
  refine flux_ext fun c => ?_
  obtain ⟨c, rfl⟩ := frame_surj hA c
  rw [contract_moveFlux hA, contract_f, contract_f, density_rotate, momentum_rotate, totalEnergy_rotate, frame_dot hA]
  refine state_ext (by simp) ?_ (by simp)
  rw [Euler.momentum_mkState, momentum_rotate, Euler.momentum_mkState]
  have : (fun i => dot (momentum U) c * (momentum U i / density U) + pr * c i) =
      (dot (momentum U) c / density U) • momentum U + pr • c := by
    funext i; simp only [Pi.add_apply, Pi.smul_apply, smul_eq_mul]; ring
  rw [this, Matrix.mulVec_add, Matrix.mulVec_smul, Matrix.mulVec_smul]
  funext i
  simp only [Pi.add_apply, Pi.smul_apply, smul_eq_mul]; ring

theorem riemann_rotate (p : Params) (strict : Bool) (p_i p_j : ℝ) (v : Vec dim) :
    riemann p strict (rotate A U) p_i (rotate A V) p_j (A.mulVec v) = riemann p strict U p_i V p_j v := by
  have h : ∀ (W : State dim) (pr : ℝ), riemannDataFromState p (rotate A W) pr (A.mulVec v) = riemannDataFromState p W pr v := by
    intro W pr
    unfold riemannDataFromState
    simp only [density_rotate, momentum_rotate, surrogateGamma_rotate _ hA, frame_dot hA]
  unfold riemann
  rw [h, h]

theorem limit_rotate {L : ℕ} (p : Params) (lp : LimiterParams) (b : Fin L → Bounds) (Us Ps : Fin L → State dim)
    (t_min t_max : Fin L → ℝ) :
    limit p lp b (fun l => rotate A (Us l)) (fun l => rotate A (Ps l)) t_min t_max = limit p lp b Us Ps t_min t_max := by
  have h1 : ∀ l, psi p (b l).gamma_min (b l).s_min (rotate A (Us l)) (rotate A (Ps l)) =
      psi p (b l).gamma_min (b l).s_min (Us l) (Ps l) := by
    intro l; funext t
    unfold psi
    simp only [← map_smul, ← map_add, internalEnergy_rotate _ hA, density_rotate]
  have h2 : ∀ l, dpsi p (b l).gamma_min (b l).s_min (rotate A (Us l)) (rotate A (Ps l)) =
      dpsi p (b l).gamma_min (b l).s_min (Us l) (Ps l) := by
    intro l; funext t
    unfold dpsi
    simp only [← map_smul, ← map_add, internalEnergy_rotate _ hA, density_rotate, internalEnergyDerivative_rotate _ hA,
      dot_rotate _ _ hA]
  have h3 : ∀ l, lowerBound p (b l).gamma_min (b l).s_min (rotate A (Us l)) (rotate A (Ps l)) =
      lowerBound p (b l).gamma_min (b l).s_min (Us l) (Ps l) := by
    intro l; funext t
    unfold lowerBound
    simp only [← map_smul, ← map_add, density_rotate]
  unfold limit
  simp only [h1, h2, h3, density_rotate]

theorem accumulate_rotate (p : Params) (strict : Bool) (st : LimiterState) (F G : Fin (dim + 2) → Vec dim) (s_j : ℝ) (c : Vec dim)
    (W : State dim) :
    st.accumulate p strict (rotate A U) (moveFlux A (rotate A) F) (rotate A V) s_j (moveFlux A (rotate A) G) (A.mulVec c)
      (rotate A W) = st.accumulate p strict U F V s_j G c W := by
  have e : (fun k => (rotate A U k + rotate A V k) * (1 / 2)) = rotate A (fun k => (U k + V k) * (1 / 2)) := by
    have : (fun k => (U k + V k) * (1 / 2)) = (1 / 2 : ℝ) • (U + V) := by funext k; simp [mul_comm]
    rw [this, map_smul, map_add]
    funext k; simp [mul_comm]
  have e' : (fun k => (1 / 2) * (rotate A U k + rotate A V k) -
      (1 / 2) * contract (addFlux (moveFlux A (rotate A) G) (fun r => -moveFlux A (rotate A) F r)) (A.mulVec c) k + rotate A W k) =
      rotate A (fun k => (1 / 2) * (U k + V k) - (1 / 2) * contract (addFlux G (fun r => -F r)) c k + W k) := by
    have h1 : ∀ (U V W : State dim) (F G : Fin (dim + 2) → Vec dim) (c : Vec dim),
        (fun k => (1 / 2) * (U k + V k) - (1 / 2) * contract (addFlux G (fun r => -F r)) c k + W k) =
        (1 / 2 : ℝ) • (U + V) - (1 / 2 : ℝ) • (contract G c - contract F c) + W := by
      intro U V W F G c
      have : contract (addFlux G (fun r => -F r)) c = contract G c - contract F c := by
        rw [contract_addFlux, show (fun r => -F r) = -F from rfl, contract_neg, sub_eq_add_neg]
      rw [this]
      rfl
    rw [h1, h1, contract_moveFlux hA, contract_moveFlux hA]
    simp only [map_add, map_sub, map_smul]
  unfold LimiterState.accumulate
  simp only [e, e', surrogateSpecificEntropy_rotate _ hA, density_rotate]

end

theorem accumulate_comm (p : Params) (strict : Bool) (U_i : State dim) (F : Fin (dim + 2) → Vec dim) (st : LimiterState)
    (U_j U_k : State dim) (s t : ℝ) (G H : Fin (dim + 2) → Vec dim) (c d : Vec dim) (W X : State dim) :
    (st.accumulate p strict U_i F U_j s G c W).accumulate p strict U_i F U_k t H d X =
      (st.accumulate p strict U_i F U_k t H d X).accumulate p strict U_i F U_j s G c W := by
  simp only [LimiterState.accumulate, LimiterState.mk.injEq, Bounds.mk.injEq, and_true]
  have h : ∀ a b c d e : ℝ, min (min (min (min a b) c) d) e = min (min (min (min a d) e) b) c := by
    intro a b c d e
    rw [min_right_comm (min a b) c d, min_right_comm a b d, min_right_comm (min (min a d) b) c e, min_right_comm (min a d) b e]
  exact ⟨⟨min_right_comm _ _ _, max_right_comm _ _ _, h _ _ _ _ _⟩, add_right_comm _ _ _, trivial, max_right_comm _ _ _⟩

theorem combineBounds_comm (a b c : Bounds) : combineBounds (combineBounds a b) c = combineBounds (combineBounds a c) b := by
  simp only [combineBounds, Bounds.mk.injEq]
  exact ⟨min_right_comm _ _ _, max_right_comm _ _ _, min_right_comm _ _ _, min_right_comm _ _ _⟩

theorem indicatorAccumulate_comm (p : Params) (st : IndicatorState dim) (U V : State dim) (c d : Vec dim) :
    (st.accumulate p U c).accumulate p V d = (st.accumulate p V d).accumulate p U c := by
  simp only [IndicatorState.accumulate, IndicatorState.mk.injEq, true_and]
  exact ⟨add_right_comm _ _ _, funext fun k => add_right_comm _ _ _⟩

theorem numerator_eq (st : IndicatorState dim) : st.numerator = st.left - dot st.d_eta_i st.right := by
  rw [IndicatorState.numerator, Euler.foldl_sub_eq, dot, Fin.sum_univ_def]

theorem denominator_eq (st : IndicatorState dim) :
    st.denominator = |st.left| + ∑ k, |st.d_eta_i k * st.right k| := by
  rw [IndicatorState.denominator, Euler.foldl_add_eq, Fin.sum_univ_def]

/-- The indicator data in the new frame. -/
def moveIndicator (A : Matrix (Fin dim) (Fin dim) ℝ) (st : IndicatorState dim) : IndicatorState dim :=
  { st with f_i := moveFlux A (rotate A) st.f_i, d_eta_i := rotate A st.d_eta_i, right := rotate A st.right }

theorem reset_rotate {A : Matrix (Fin dim) (Fin dim) ℝ} (hA : A * A.transpose = 1) (p : Params) (g eta : ℝ) (U : State dim) :
    IndicatorState.reset p g eta (rotate A U) = moveIndicator A (IndicatorState.reset p g eta U) := by
  unfold IndicatorState.reset moveIndicator
  simp only [density_rotate, surrogateHartenEntropyDerivative_rotate _ hA, surrogatePressure_rotate _ hA, f_rotate _ hA,
    map_zero, IndicatorState.mk.injEq, true_and, and_true]
  generalize surrogateHartenEntropyDerivative p U eta g = W
  have h : ∀ (W : State dim) (a : ℝ), Function.update W 0 a = mkState a (momentum W) (totalEnergy W) := by
    intro W a
    refine state_ext ?_ ?_ ?_
    · rw [Euler.density_mkState]; simp [density]
    · rw [Euler.momentum_mkState]; funext i
      simp only [momentum]
      rw [Function.update_of_ne (Fin.succ_ne_zero _)]
    · rw [Euler.totalEnergy_mkState]
      simp only [totalEnergy]
      rw [Function.update_of_ne (by rw [← Fin.succ_last]; exact Fin.succ_ne_zero _)]
  have h0 : rotate A W 0 = W 0 := density_rotate A W
  rw [h, h, h0]
  refine state_ext (by simp) (by simp) (by simp)

theorem indicatorAccumulate_rotate {A : Matrix (Fin dim) (Fin dim) ℝ} (hA : A * A.transpose = 1) (p : Params)
    (st : IndicatorState dim) (V : State dim) (c : Vec dim) :
    (moveIndicator A st).accumulate p (rotate A V) (A.mulVec c) = moveIndicator A (st.accumulate p V c) := by
  unfold IndicatorState.accumulate moveIndicator
  simp only [density_rotate, momentum_rotate, frame_dot hA, surrogateHartenEntropy_rotate _ hA,
    surrogatePressure_rotate _ hA, IndicatorState.mk.injEq, true_and]
  have e : ∀ (r : State dim) (F G : Fin (dim + 2) → Vec dim) (c : Vec dim),
      (fun k => r k + dot (fun d => F k d - G k d) c) = r + (contract F c - contract G c) := by
    intro r F G c
    rw [← contract_sub]; rfl
  rw [e, e, map_add, map_sub, f_rotate _ hA, contract_moveFlux hA, contract_moveFlux hA]

theorem indicator_rotate {A : Matrix (Fin dim) (Fin dim) ℝ} (hS : Spec.IsAxisSymmetry A) (p : Params) (evc_factor g eta : ℝ)
    (U : State dim) (row row' : List (State dim × Vec dim)) (hd : ℝ)
    (hrow : row'.Perm (row.map fun x => (rotate A x.1, A.mulVec x.2))) :
    (row'.foldl (fun st e => st.accumulate p e.1 e.2) (IndicatorState.reset p g eta (rotate A U))).alpha evc_factor hd =
      (row.foldl (fun st e => st.accumulate p e.1 e.2) (IndicatorState.reset p g eta U)).alpha evc_factor hd := by
  have hA := Euler.axis_orthogonal hS
  have hc : RightCommutative (fun (st : IndicatorState dim) (e : State dim × Vec dim) =>
      st.accumulate p e.1 e.2) := ⟨fun st a b => indicatorAccumulate_comm p st _ _ _ _⟩
  rw [hrow.foldl_eq, List.foldl_map, reset_rotate hA]
  have : ∀ st : IndicatorState dim, row.foldl (fun st e => st.accumulate p (rotate A e.1) (A.mulVec e.2))
      (moveIndicator A st) = moveIndicator A (row.foldl (fun st e => st.accumulate p e.1 e.2) st) := by
    clear hrow
    induction row with
    | nil => intro st; rfl
    | cons e es ih =>
      intro st
      simp only [List.foldl_cons]
      rw [indicatorAccumulate_rotate hA, ih]
  rw [this]
  generalize row.foldl _ _ = st
  unfold IndicatorState.alpha
  rw [numerator_eq, numerator_eq, denominator_eq, denominator_eq]
  simp only [moveIndicator, dot_rotate _ _ hA, sum_abs_rotate hS]

end

end Aeos
end Ryujin
