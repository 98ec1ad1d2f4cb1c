import Verif.Proofs.StepEquations
import Verif.Proofs.EulerSystem
import Verif.Proofs.ShallowWater
import Verif.Model.EulerRiemann
import Verif.Model.Descriptions
import Verif.Spec.Frames
import Mathlib.LinearAlgebra.Matrix.NonsingularInverse

/-!
# The equations in a rotated or reflected frame of reference
-/

namespace Ryujin

open scoped BigOperators

noncomputable section

variable {dim n : ℕ}

theorem frame_dot {A : Matrix (Fin dim) (Fin dim) ℝ} (hA : A * A.transpose = 1) (a b : Vec dim) :
    dot (A.mulVec a) (A.mulVec b) = dot a b := by
  have h : A.transpose * A = 1 := mul_eq_one_comm.1 hA
  show dotProduct (A.mulVec a) (A.mulVec b) = dotProduct a b
  rw [Matrix.dotProduct_mulVec, Matrix.vecMul_mulVec, h, Matrix.vecMul_one]

theorem frame_normSq {A : Matrix (Fin dim) (Fin dim) ℝ} (hA : A * A.transpose = 1) (a : Vec dim) :
    normSq (A.mulVec a) = normSq a := frame_dot hA a a

theorem frame_vnorm {A : Matrix (Fin dim) (Fin dim) ℝ} (hA : A * A.transpose = 1) (a : Vec dim) :
    vnorm (A.mulVec a) = vnorm a := by rw [vnorm, vnorm, frame_normSq hA]

theorem frame_surj {A : Matrix (Fin dim) (Fin dim) ℝ} (hA : A * A.transpose = 1) (c : Vec dim) :
    ∃ c', c = A.mulVec c' := ⟨A.transpose.mulVec c, by rw [Matrix.mulVec_mulVec, hA, Matrix.one_mulVec]⟩

/-- A rank two tensor in the new frame: `R` acts on the components of the state, `A` on those of the vectors. -/
def moveFlux (A : Matrix (Fin dim) (Fin dim) ℝ) (R : Vec n →ₗ[ℝ] Vec n) (F : Fin n → Vec dim) : Fin n → Vec dim :=
  fun k d => R (fun k' => A.mulVec (F k') d) k

theorem contract_moveFlux {A : Matrix (Fin dim) (Fin dim) ℝ} (hA : A * A.transpose = 1) (R : Vec n →ₗ[ℝ] Vec n)
    (F : Fin n → Vec dim) (c : Vec dim) : contract (moveFlux A R F) (A.mulVec c) = R (contract F c) := by
  have h : contract F c = ∑ d, A.mulVec c d • (fun k' => A.mulVec (F k') d) := by
    funext k
    rw [Finset.sum_apply]
    simp only [Pi.smul_apply, smul_eq_mul, contract]
    rw [← frame_dot hA]
    exact Finset.sum_congr rfl fun d _ => mul_comm _ _
  rw [h, map_sum]
  funext k
  rw [Finset.sum_apply]
  simp only [contract, dot, map_smul, Pi.smul_apply, smul_eq_mul, moveFlux]
  exact Finset.sum_congr rfl fun d _ => mul_comm _ _

theorem flux_ext {F G : Fin n → Vec dim} (h : ∀ c, contract F c = contract G c) : F = G := by
  funext k d
  have := congrFun (h (Pi.single d 1)) k
  simpa [contract, dot, Pi.single_apply] using this

theorem contract_neg {k : ℕ} (F : Fin k → Vec dim) (c : Vec dim) : contract (-F) c = -contract F c := by
  funext i; simp [contract, dot]

theorem contract_sub {k : ℕ} (F G : Fin k → Vec dim) (c : Vec dim) :
    contract (F - G) c = contract F c - contract G c := by
  funext i; simp [contract, dot, sub_mul]

/-! ### Euler -/

namespace Euler

/-- The state in the new frame: the momentum is rotated. -/
theorem rotate_density (A : Matrix (Fin dim) (Fin dim) ℝ) (U : State dim) : density (Spec.moveGas A U) = density U :=
  density_mkState _ _ _

theorem rotate_momentum (A : Matrix (Fin dim) (Fin dim) ℝ) (U : State dim) :
    momentum (Spec.moveGas A U) = A.mulVec (momentum U) := momentum_mkState _ _ _

theorem rotate_totalEnergy (A : Matrix (Fin dim) (Fin dim) ℝ) (U : State dim) :
    totalEnergy (Spec.moveGas A U) = totalEnergy U := totalEnergy_mkState _ _ _

/-- `Spec.moveGas` as a linear map. -/
def rotate (A : Matrix (Fin dim) (Fin dim) ℝ) : State dim →ₗ[ℝ] State dim where
  toFun := Spec.moveGas A
  map_add' U V := state_ext (by simp only [rotate_density, density_add])
    (by simp only [rotate_momentum, momentum_add, Matrix.mulVec_add])
    (by simp only [rotate_totalEnergy, totalEnergy_add])
  map_smul' t U := state_ext (by simp only [rotate_density, density_smul, RingHom.id_apply])
    (by simp only [rotate_momentum, momentum_smul, Matrix.mulVec_smul, RingHom.id_apply])
    (by simp only [rotate_totalEnergy, totalEnergy_smul, RingHom.id_apply])

section

variable (A : Matrix (Fin dim) (Fin dim) ℝ) (U V : State dim)

@[simp] theorem density_rotate : density (rotate A U) = density U := rotate_density A U
@[simp] theorem momentum_rotate : momentum (rotate A U) = A.mulVec (momentum U) := rotate_momentum A U
@[simp] theorem totalEnergy_rotate : totalEnergy (rotate A U) = totalEnergy U := rotate_totalEnergy A U

variable {A} (hA : A * A.transpose = 1)

include hA

theorem internalEnergy_rotate : internalEnergy (rotate A U) = internalEnergy U := by
  unfold internalEnergy
  rw [density_rotate, momentum_rotate, totalEnergy_rotate, frame_normSq hA]

theorem pressure_rotate (p : Params) : pressure p (rotate A U) = pressure p U := by
  rw [pressure, pressure, internalEnergy_rotate U hA]

theorem specificEntropy_rotate (p : Params) : specificEntropy p (rotate A U) = specificEntropy p U := by
  rw [specificEntropy, specificEntropy, internalEnergy_rotate U hA, density_rotate]

theorem hartenEntropy_rotate (p : Params) : hartenEntropy p (rotate A U) = hartenEntropy p U := by
  rw [hartenEntropy, hartenEntropy, density_rotate, totalEnergy_rotate, momentum_rotate, frame_normSq hA]

theorem hartenEntropyDerivative_rotate (p : Params) :
    hartenEntropyDerivative p (rotate A U) = rotate A (hartenEntropyDerivative p U) := by
  unfold hartenEntropyDerivative
  simp only [density_rotate, totalEnergy_rotate, momentum_rotate, frame_normSq hA]
  generalize 1 / (p.gamma + 1) * (density U * totalEnergy U - 1 / 2 * normSq (momentum U)) ^ (-p.gamma * (1 / (p.gamma + 1))) = q
  refine state_ext (by simp) ?_ (by simp)
  rw [momentum_mkState, momentum_rotate, momentum_mkState]
  have : (fun i => -q * momentum U i) = (-q) • momentum U := by funext i; simp
  rw [this, Matrix.mulVec_smul]
  funext i; simp

theorem internalEnergyDerivative_rotate :
    internalEnergyDerivative (rotate A U) = rotate A (internalEnergyDerivative U) := by
  unfold internalEnergyDerivative
  simp only [density_rotate, momentum_rotate]
  have e : (fun i => momentum U i * (1 / density U)) = (1 / density U) • momentum U := by
    funext i; simp [mul_comm]
  have e' : (fun i => A.mulVec (momentum U) i * (1 / density U)) = A.mulVec ((1 / density U) • momentum U) := by
    rw [Matrix.mulVec_smul]; funext i; simp [mul_comm]
  rw [e, e', frame_normSq hA]
  refine state_ext (by simp) ?_ (by simp)
  rw [momentum_mkState, momentum_rotate, momentum_mkState]
  have e1 : (fun i => -(momentum U i * (1 / density U))) = -((1 / density U) • momentum U) := by
    rw [← e]; rfl
  rw [e1, Matrix.mulVec_neg, ← e']
  rfl

theorem dot_rotate : dot (rotate A U) (rotate A V) = dot U V := by
  rw [dot_state, dot_state, density_rotate, density_rotate, momentum_rotate, momentum_rotate, frame_dot hA,
    totalEnergy_rotate, totalEnergy_rotate]

theorem contract_f_rotate (p : Params) (c : Vec dim) :
    contract (f p (rotate A U)) (A.mulVec c) = rotate A (contract (f p U) c) := by
  rw [contract_f, contract_f, pressure_rotate U hA, density_rotate, momentum_rotate, totalEnergy_rotate, frame_dot hA]
  refine state_ext (by simp) ?_ (by simp)
  rw [momentum_mkState, momentum_rotate, momentum_mkState]
  have : (fun i => dot (momentum U) c * (momentum U i / density U) + pressure p U * c i) =
      (dot (momentum U) c / density U) • momentum U + pressure p U • c := by
    funext i; simp only [Pi.add_apply, Pi.smul_apply, smul_eq_mul]; ring
  rw [this, Matrix.mulVec_add, Matrix.mulVec_smul, Matrix.mulVec_smul]
  funext i
  simp only [Pi.add_apply, Pi.smul_apply, smul_eq_mul]; ring

theorem f_rotate (p : Params) : f p (rotate A U) = moveFlux A (rotate A) (f p U) := by
  refine flux_ext fun c => ?_
  obtain ⟨c, rfl⟩ := frame_surj hA c
  rw [contract_f_rotate U hA, contract_moveFlux hA]

theorem riemannDataFromState_rotate (p : Params) (v : Vec dim) :
    riemannDataFromState p (rotate A U) (A.mulVec v) = riemannDataFromState p U v := by
  unfold riemannDataFromState
  simp only [density_rotate, momentum_rotate, totalEnergy_rotate, frame_dot hA]
  have : (fun k => A.mulVec (momentum U) k - dot v (momentum U) * A.mulVec v k) =
      A.mulVec (fun k => momentum U k - dot v (momentum U) * v k) := by
    have e : (fun k => momentum U k - dot v (momentum U) * v k) = momentum U - dot v (momentum U) • v := rfl
    rw [e, Matrix.mulVec_sub, Matrix.mulVec_smul]
    rfl
  rw [this, frame_normSq hA]

theorem riemann_rotate {L : ℕ} (p : Params) (rp : RiemannParams) (Us Vs : Fin L → State dim) (v : Fin L → Vec dim) :
    riemann p rp (fun l => rotate A (Us l)) (fun l => rotate A (Vs l)) (fun l => A.mulVec (v l)) =
      riemann p rp Us Vs v := by
  unfold riemann
  simp only [riemannDataFromState_rotate _ hA]

theorem limit_rotate {L : ℕ} (p : Params) (lp : LimiterParams) (b : Fin L → Bounds) (Us Ps : Fin L → State dim)
    (t_min t_max : Fin L → ℝ) :
    limit p lp b (fun l => rotate A (Us l)) (fun l => rotate A (Ps l)) t_min t_max = limit p lp b Us Ps t_min t_max := by
  have h1 : ∀ l, psi p (b l).s_min (rotate A (Us l)) (rotate A (Ps l)) = psi p (b l).s_min (Us l) (Ps l) := by
    intro l; funext t
    unfold psi
    simp only [← map_smul, ← map_add, internalEnergy_rotate _ hA, density_rotate]
  have h2 : ∀ l, dpsi p (b l).s_min (rotate A (Us l)) (rotate A (Ps l)) = dpsi p (b l).s_min (Us l) (Ps l) := by
    intro l; funext t
    unfold dpsi
    simp only [← map_smul, ← map_add, internalEnergy_rotate _ hA, density_rotate, internalEnergyDerivative_rotate _ hA,
      dot_rotate _ _ hA]
  have h3 : ∀ l, lowerBound p (b l).s_min (rotate A (Us l)) (rotate A (Ps l)) = lowerBound p (b l).s_min (Us l) (Ps l) := by
    intro l; funext t
    unfold lowerBound
    simp only [← map_smul, ← map_add, density_rotate]
  unfold limit
  simp only [h1, h2, h3, density_rotate]

theorem accumulate_rotate (p : Params) (st : LimiterState) (s_j : ℝ) (c : Vec dim) (W : State dim) :
    st.accumulate p (rotate A U) (rotate A V) s_j (A.mulVec c) (rotate A W) = st.accumulate p U V s_j c W := by
  unfold LimiterState.accumulate
  have e : (fun k => (rotate A U k + rotate A V k) * (1 / 2)) = rotate A (fun k => (U k + V k) * (1 / 2)) := by
    have : (fun k => (U k + V k) * (1 / 2)) = (1 / 2 : ℝ) • (U + V) := by funext k; simp [mul_comm]
    rw [this, map_smul, map_add]
    funext k; simp [mul_comm]
  rw [e, specificEntropy_rotate _ hA]
  simp only [density_rotate, momentum_rotate, ← Matrix.mulVec_sub, frame_dot hA]

end

theorem accumulate_comm (p : Params) (U_i : State dim) (st : LimiterState) (U_j U_k : State dim) (s t : ℝ)
    (c d : Vec dim) (W X : State dim) :
    (st.accumulate p U_i U_j s c W).accumulate p U_i U_k t d X =
      (st.accumulate p U_i U_k t d X).accumulate p U_i U_j s c W := by
  simp only [LimiterState.accumulate, LimiterState.mk.injEq, Bounds.mk.injEq]
  refine ⟨⟨min_right_comm _ _ _, max_right_comm _ _ _, min_right_comm _ _ _⟩, add_right_comm _ _ _,
    trivial, max_right_comm _ _ _⟩

theorem combineBounds_comm (a b c : Bounds) : combineBounds (combineBounds a b) c = combineBounds (combineBounds a c) b := by
  simp only [combineBounds, Bounds.mk.injEq]
  exact ⟨min_right_comm _ _ _, max_right_comm _ _ _, min_right_comm _ _ _⟩

theorem indicatorAccumulate_comm (p : Params) (st : IndicatorState dim) (a b : ℝ) (U V : State dim) (c d : Vec dim) :
    (st.accumulate p a U c).accumulate p b V d = (st.accumulate p b V d).accumulate p a U c := by
  simp only [IndicatorState.accumulate, IndicatorState.mk.injEq, true_and]
  exact ⟨add_right_comm _ _ _, funext fun k => add_right_comm _ _ _⟩

theorem foldl_sub_eq {T : Type} (g : T → ℝ) (l : List T) (a : ℝ) :
    l.foldl (fun acc k => acc - g k) a = a - (l.map g).sum := by
  induction l generalizing a with
  | nil => simp
  | cons x xs ih => simp only [List.foldl_cons, ih, List.map_cons, List.sum_cons]; ring

theorem foldl_add_eq {T : Type} (g : T → ℝ) (l : List T) (a : ℝ) :
    l.foldl (fun acc k => acc + g k) a = a + (l.map g).sum := by
  induction l generalizing a with
  | nil => simp
  | cons x xs ih => simp only [List.foldl_cons, ih, List.map_cons, List.sum_cons]; ring

theorem numerator_eq (st : IndicatorState dim) : st.numerator = st.left - dot st.d_eta_i st.right := by
  rw [IndicatorState.numerator, foldl_sub_eq, dot, Fin.sum_univ_def]

theorem denominator_eq (st : IndicatorState dim) :
    st.denominator = |st.left| + ∑ k, |st.d_eta_i k * st.right k| := by
  rw [IndicatorState.denominator, foldl_add_eq, Fin.sum_univ_def]

/-- The indicator data in the new frame. -/
def moveIndicator (A : Matrix (Fin dim) (Fin dim) ℝ) (st : IndicatorState dim) : IndicatorState dim :=
  { st with f_i := moveFlux A (rotate A) st.f_i, d_eta_i := rotate A st.d_eta_i, right := rotate A st.right }

theorem reset_rotate {A : Matrix (Fin dim) (Fin dim) ℝ} (hA : A * A.transpose = 1) (p : Params) (eta : ℝ) (U : State dim) :
    IndicatorState.reset p eta (rotate A U) = moveIndicator A (IndicatorState.reset p eta U) := by
  unfold IndicatorState.reset moveIndicator
  simp only [density_rotate, hartenEntropyDerivative_rotate _ hA, f_rotate _ hA, map_zero, IndicatorState.mk.injEq,
    true_and, and_true]
  generalize hartenEntropyDerivative p U = W
  have h : ∀ (W : State dim) (a : ℝ), Function.update W 0 a = mkState a (momentum W) (totalEnergy W) := by
    intro W a
    refine state_ext ?_ ?_ ?_
    · rw [density_mkState]; simp [density]
    · rw [momentum_mkState]; funext i
      simp only [momentum]
      rw [Function.update_of_ne (Fin.succ_ne_zero _)]
    · rw [totalEnergy_mkState]
      simp only [totalEnergy]
      rw [Function.update_of_ne (by rw [← Fin.succ_last]; exact Fin.succ_ne_zero _)]
  have h0 : rotate A W 0 = W 0 := density_rotate A W
  rw [h, h, h0]
  refine state_ext (by simp) (by simp) (by simp)

theorem indicatorAccumulate_rotate {A : Matrix (Fin dim) (Fin dim) ℝ} (hA : A * A.transpose = 1) (p : Params)
    (st : IndicatorState dim) (eta : ℝ) (V : State dim) (c : Vec dim) :
    (moveIndicator A st).accumulate p eta (rotate A V) (A.mulVec c) = moveIndicator A (st.accumulate p eta V c) := by
  unfold IndicatorState.accumulate moveIndicator
  simp only [density_rotate, momentum_rotate, frame_dot hA, IndicatorState.mk.injEq, true_and]
  have e : ∀ (r : State dim) (F G : Fin (dim + 2) → Vec dim) (c : Vec dim),
      (fun k => r k + dot (fun d => F k d - G k d) c) = r + (contract F c - contract G c) := by
    intro r F G c
    rw [← contract_sub]; rfl
  rw [e, e, map_add, map_sub, f_rotate _ hA, contract_moveFlux hA, contract_moveFlux hA]

theorem sum_abs_rotate {A : Matrix (Fin dim) (Fin dim) ℝ} (hS : Spec.IsAxisSymmetry A) (a b : State dim) :
    ∑ k, |rotate A a k * rotate A b k| = ∑ k, |a k * b k| := by
  obtain ⟨π, σ, hσ, hA⟩ := hS
  rw [sum_state (fun k => |rotate A a k * rotate A b k|), sum_state (fun k => |a k * b k|)]
  have h0 : ∀ U : State dim, rotate A U 0 = U 0 := fun U => density_rotate A U
  have h1 : ∀ U : State dim, rotate A U (Fin.last (dim + 1)) = U (Fin.last (dim + 1)) := fun U => totalEnergy_rotate A U
  have h2 : ∀ (U : State dim) (i : Fin dim), rotate A U i.castSucc.succ = σ i * U (π i).castSucc.succ := by
    intro U i
    have := congrFun (momentum_rotate A U) i
    rw [hA] at this
    exact this
  simp only [h0, h1, h2]
  congr 2
  rw [← Equiv.sum_comp π (fun i => |a i.castSucc.succ * b i.castSucc.succ|)]
  refine Finset.sum_congr rfl fun i _ => ?_
  have : σ i * a (π i).castSucc.succ * (σ i * b (π i).castSucc.succ) =
      (σ i * σ i) * (a (π i).castSucc.succ * b (π i).castSucc.succ) := by ring
  rw [this, hσ, one_mul]

theorem axis_orthogonal {A : Matrix (Fin dim) (Fin dim) ℝ} (hS : Spec.IsAxisSymmetry A) : A * A.transpose = 1 := by
  obtain ⟨π, σ, hσ, hA⟩ := hS
  have hentry : ∀ k l, A k l = if π k = l then σ k else 0 := by
    intro k l
    have := hA (Pi.single l 1) k
    rw [Matrix.mulVec_single_one] at this
    simp only [Matrix.col_apply, Pi.single_apply] at this
    rw [this]
    split_ifs <;> simp
  ext k l
  rw [Matrix.mul_apply, Matrix.one_apply]
  simp only [Matrix.transpose_apply, hentry]
  by_cases h : k = l
  · subst h
    simp [hσ]
  · rw [if_neg h]
    refine Finset.sum_eq_zero fun j _ => ?_
    by_cases h1 : π k = j
    · rw [if_neg (c := π l = j) (fun h2 => h (π.injective (h1.trans h2.symm))), mul_zero]
    · rw [if_neg h1, zero_mul]

theorem indicator_rotate {A : Matrix (Fin dim) (Fin dim) ℝ} (hS : Spec.IsAxisSymmetry A) (p : Params) (evc_factor : ℝ)
    (U : State dim) (row row' : List (State dim × Vec dim)) (hd : ℝ)
    (hrow : row'.Perm (row.map fun x => (rotate A x.1, A.mulVec x.2))) :
    indicator p evc_factor (rotate A U) row' hd = indicator p evc_factor U row hd := by
  have hA := axis_orthogonal hS
  unfold indicator
  have hc : RightCommutative (fun (st : IndicatorState dim) (e : State dim × Vec dim) =>
      st.accumulate p (hartenEntropy p e.1) e.1 e.2) := ⟨fun st a b => indicatorAccumulate_comm p st _ _ _ _ _ _⟩
  rw [hrow.foldl_eq, List.foldl_map, hartenEntropy_rotate _ hA, reset_rotate hA]
  have : ∀ st : IndicatorState dim, row.foldl (fun st e => st.accumulate p (hartenEntropy p (rotate A e.1)) (rotate A e.1) (A.mulVec e.2))
      (moveIndicator A st) = moveIndicator A (row.foldl (fun st e => st.accumulate p (hartenEntropy p e.1) e.1 e.2) st) := by
    clear hrow
    induction row with
    | nil => intro st; rfl
    | cons e es ih =>
      intro st
      simp only [List.foldl_cons]
      rw [hartenEntropy_rotate _ hA, indicatorAccumulate_rotate hA, ih]
  rw [this]
  generalize row.foldl _ _ = st
  unfold IndicatorState.alpha
  rw [numerator_eq, numerator_eq, denominator_eq, denominator_eq]
  simp only [moveIndicator, dot_rotate _ _ hA, sum_abs_rotate hS]

end Euler

/-! ### Shallow water -/

namespace ShallowWater

theorem rotate_waterDepth (A : Matrix (Fin dim) (Fin dim) ℝ) (U : State dim) :
    waterDepth (Spec.moveWater A U) = waterDepth U := waterDepth_mkState _ _

theorem rotate_momentum (A : Matrix (Fin dim) (Fin dim) ℝ) (U : State dim) :
    momentum (Spec.moveWater A U) = A.mulVec (momentum U) := momentum_mkState _ _

/-- `Spec.moveWater` as a linear map. -/
def rotate (A : Matrix (Fin dim) (Fin dim) ℝ) : State dim →ₗ[ℝ] State dim where
  toFun := Spec.moveWater A
  map_add' U V := state_ext (by simp only [rotate_waterDepth, waterDepth_add])
    (by simp only [rotate_momentum, momentum_add, Matrix.mulVec_add])
  map_smul' t U := state_ext (by simp only [rotate_waterDepth, waterDepth_smul, RingHom.id_apply])
    (by simp only [rotate_momentum, momentum_smul, Matrix.mulVec_smul, RingHom.id_apply])

/-- The flux contribution in the new frame. -/
def moveContribution (A : Matrix (Fin dim) (Fin dim) ℝ) (x : FluxContribution dim) : FluxContribution dim :=
  ⟨rotate A x.U, x.Z⟩

theorem contract_g (p : Params) (U : State dim) (c : Vec dim) :
    contract (g p U) c = (dot (momentum U) c * inverseWaterDepthSharp p U) • U := by
  refine state_ext ?_ ?_
  · simp only [waterDepth, contract, g, Fin.cons_zero, dot, Pi.smul_apply, smul_eq_mul, Finset.sum_mul]
    exact Finset.sum_congr rfl fun k _ => by ring
  · funext i
    simp only [momentum, contract, g, Fin.cons_succ, dot, Pi.smul_apply, smul_eq_mul, Finset.sum_mul]
    exact Finset.sum_congr rfl fun k _ => by ring

theorem contract_f (p : Params) (U : State dim) (c : Vec dim) :
    contract (f p U) c = (dot (momentum U) c * inverseWaterDepthSharp p U) • U + mkState 0 (pressure p U • c) := by
  refine state_ext ?_ ?_
  · rw [waterDepth_add, waterDepth_mkState, add_zero, ← contract_g]; rfl
  · rw [momentum_add, momentum_mkState, ← contract_g]
    funext i
    simp only [momentum, contract, f, g, Fin.cons_succ, dot, Pi.add_apply, Pi.smul_apply, smul_eq_mul, add_mul,
      Finset.sum_add_distrib, ite_mul, zero_mul, Finset.sum_ite_eq', Finset.mem_univ, if_true]

theorem contract_subDiagonal (F : Fin (dim + 1) → Vec dim) (a : ℝ) (c : Vec dim) :
    contract (subDiagonal F a) c = contract F c - mkState 0 (a • c) := by
  refine state_ext ?_ ?_
  · rw [waterDepth_sub, waterDepth_mkState, sub_zero]; rfl
  · rw [momentum_sub, momentum_mkState]
    funext i
    simp only [momentum, contract, subDiagonal, Fin.cons_succ, dot, Pi.sub_apply, Pi.smul_apply, smul_eq_mul, sub_mul,
      Finset.sum_sub_distrib, ite_mul, zero_mul, Finset.sum_ite_eq', Finset.mem_univ, if_true]

section

variable (A : Matrix (Fin dim) (Fin dim) ℝ) (U V : State dim)

@[simp] theorem waterDepth_rotate : waterDepth (rotate A U) = waterDepth U := rotate_waterDepth A U
@[simp] theorem momentum_rotate : momentum (rotate A U) = A.mulVec (momentum U) := rotate_momentum A U

theorem mollified_rotate (p : Params) : inverseWaterDepthMollified p (rotate A U) = inverseWaterDepthMollified p U := by
  simp only [inverseWaterDepthMollified, waterDepth_rotate]

theorem depthSharp_rotate (p : Params) : waterDepthSharp p (rotate A U) = waterDepthSharp p U := by
  simp only [waterDepthSharp, waterDepth_rotate]

theorem sharp_rotate (p : Params) : inverseWaterDepthSharp p (rotate A U) = inverseWaterDepthSharp p U := by
  simp only [inverseWaterDepthSharp, depthSharp_rotate]

theorem pressure_rotate (p : Params) : pressure p (rotate A U) = pressure p U := by
  simp only [pressure, waterDepth_rotate]

theorem starState_rotate (p : Params) (a b : ℝ) : starState p (rotate A U) a b = rotate A (starState p U a b) := by
  simp only [starState, waterDepth_rotate, mollified_rotate, map_smul]

theorem mkState_rotate (a : ℝ) (m : Vec dim) : rotate A (mkState a m) = mkState a (A.mulVec m) :=
  state_ext (by simp) (by simp)

variable {A} (hA : A * A.transpose = 1)

include hA

theorem kineticEnergy_rotate (p : Params) : kineticEnergy p (rotate A U) = kineticEnergy p U := by
  simp only [kineticEnergy, waterDepth_rotate, sharp_rotate, momentum_rotate, ← Matrix.mulVec_smul, frame_normSq hA]

theorem mathematicalEntropy_rotate (p : Params) : mathematicalEntropy p (rotate A U) = mathematicalEntropy p U := by
  rw [mathematicalEntropy, mathematicalEntropy, pressure_rotate, kineticEnergy_rotate U hA]

theorem dot_rotate : dot (rotate A U) (rotate A V) = dot U V := by
  have h : ∀ X Y : State dim, dot X Y = waterDepth X * waterDepth Y + dot (momentum X) (momentum Y) := by
    intro X Y
    rw [dot, Fin.sum_univ_succ]; rfl
  rw [h, h, waterDepth_rotate, waterDepth_rotate, momentum_rotate, momentum_rotate, frame_dot hA]

theorem mathematicalEntropyDerivative_rotate (p : Params) :
    mathematicalEntropyDerivative p (rotate A U) = rotate A (mathematicalEntropyDerivative p U) := by
  unfold mathematicalEntropyDerivative
  simp only [waterDepth_rotate, momentum_rotate, sharp_rotate, mkState_rotate, ← Matrix.mulVec_smul, frame_normSq hA]

theorem contract_g_rotate (p : Params) (c : Vec dim) :
    contract (g p (rotate A U)) (A.mulVec c) = rotate A (contract (g p U) c) := by
  rw [contract_g, contract_g, momentum_rotate, frame_dot hA, sharp_rotate, map_smul]

theorem contract_f_rotate (p : Params) (c : Vec dim) :
    contract (f p (rotate A U)) (A.mulVec c) = rotate A (contract (f p U) c) := by
  rw [contract_f, contract_f, momentum_rotate, frame_dot hA, sharp_rotate, map_add, map_smul, mkState_rotate,
    Matrix.mulVec_smul, pressure_rotate]

theorem f_rotate (p : Params) : f p (rotate A U) = moveFlux A (rotate A) (f p U) := by
  refine flux_ext fun c => ?_
  obtain ⟨c, rfl⟩ := frame_surj hA c
  rw [contract_f_rotate U hA, contract_moveFlux hA]

theorem fluxDivergence_rotate (p : Params) (x y : FluxContribution dim) (c : Vec dim) :
    fluxDivergence p (moveContribution A x) (moveContribution A y) (A.mulVec c) = rotate A (fluxDivergence p x y c) := by
  unfold fluxDivergence equilibratedStates moveContribution
  simp only [starState_rotate, waterDepth_rotate]
  rw [contract_subDiagonal, contract_subDiagonal, contract_neg, contract_neg, contract_addFlux, contract_addFlux,
    contract_g_rotate _ hA, contract_g_rotate _ hA, map_sub, map_neg, map_add, mkState_rotate, Matrix.mulVec_smul]

theorem highOrderFluxDivergence_rotate (p : Params) (x y : FluxContribution dim) (c : Vec dim) :
    highOrderFluxDivergence p (moveContribution A x) (moveContribution A y) (A.mulVec c) =
      rotate A (highOrderFluxDivergence p x y c) := by
  unfold highOrderFluxDivergence moveContribution
  simp only [waterDepth_rotate]
  rw [contract_subDiagonal, contract_subDiagonal, contract_neg, contract_neg, contract_addFlux, contract_addFlux,
    contract_g_rotate _ hA, contract_g_rotate _ hA, map_sub, map_neg, map_add, mkState_rotate, Matrix.mulVec_smul]

theorem affineShift_rotate (p : Params) (x y : FluxContribution dim) (c : Vec dim) (d : ℝ) :
    affineShift p (moveContribution A x) (moveContribution A y) (A.mulVec c) d = rotate A (affineShift p x y c d) := by
  unfold affineShift moveContribution
  simp only [starState_rotate, sharp_rotate, momentum_rotate, frame_dot hA, map_smul, map_sub]

theorem nodalSource_rotate (p : Params) (tau : ℝ) : nodalSource p (rotate A U) tau = rotate A (nodalSource p U tau) := by
  have e : precomputedHStar p (rotate A U) = precomputedHStar p U := by
    simp only [precomputedHStar, depthSharp_rotate]
  unfold nodalSource manningFriction
  simp only [e, mollified_rotate, momentum_rotate, ← Matrix.mulVec_smul, frame_vnorm hA, mkState_rotate]
  congr 1
  generalize (1 / (precomputedHStar p U + max (precomputedHStar p U) (tau * (2 * p.gravity * p.manning_friction_coefficient *
    p.manning_friction_coefficient * vnorm (inverseWaterDepthMollified p U • momentum U))))) = r
  generalize (2 * p.gravity * p.manning_friction_coefficient *
    p.manning_friction_coefficient * vnorm (inverseWaterDepthMollified p U • momentum U)) = q
  have : (fun d => -q * r * momentum U d) = (-q * r) • momentum U := by funext d; simp
  rw [this, Matrix.mulVec_smul]
  funext d; simp

theorem riemann_rotate (p : Params) (v : Vec dim) :
    riemann p (rotate A U) (rotate A V) (A.mulVec v) = riemann p U V v := by
  have h : ∀ W : State dim, riemannDataFromState p (rotate A W) (A.mulVec v) = riemannDataFromState p W v := by
    intro W
    unfold riemannDataFromState
    simp only [depthSharp_rotate, momentum_rotate]
    have e : (fun k => A.mulVec (momentum W) k / waterDepthSharp p W) =
        A.mulVec (fun k => momentum W k / waterDepthSharp p W) := by
      have e1 : (fun k => momentum W k / waterDepthSharp p W) = (waterDepthSharp p W)⁻¹ • momentum W := by
        funext k; simp [div_eq_inv_mul]
      rw [e1, Matrix.mulVec_smul]
      funext k; simp [div_eq_inv_mul]
    rw [e, frame_dot hA]
  rw [riemann, riemann, h, h]

theorem limit_rotate {L : ℕ} (p : Params) (lp : LimiterParams) (b : Fin L → Bounds) (Us Ps : Fin L → State dim)
    (t_min t_max : Fin L → ℝ) :
    limit p lp b (fun l => rotate A (Us l)) (fun l => rotate A (Ps l)) t_min t_max = limit p lp b Us Ps t_min t_max := by
  have h1 : ∀ (m : ℝ) (X Y : State dim), psiKin p m (rotate A X) (rotate A Y) = psiKin p m X Y := by
    intro m X Y; funext t
    unfold psiKin
    simp only [← map_smul, ← map_add, waterDepth_rotate, momentum_rotate, frame_normSq hA]
  have h2 : ∀ (m : ℝ) (X Y : State dim), dpsiKin m (rotate A X) (rotate A Y) = dpsiKin m X Y := by
    intro m X Y; funext t
    unfold dpsiKin
    simp only [waterDepth_rotate, momentum_rotate, frame_dot hA]
  have h3 : ∀ (m : ℝ) (X Y : State dim), lowerKin p m (rotate A X) (rotate A Y) = lowerKin p m X Y := by
    intro m X Y; funext t
    unfold lowerKin
    simp only [← map_smul, ← map_add, waterDepth_rotate]
  have h4 : ∀ (m : ℝ) (X Y : State dim), psiVel p m (rotate A X) (rotate A Y) = psiVel p m X Y := by
    intro m X Y; funext t
    unfold psiVel
    simp only [← map_smul, ← map_add, waterDepth_rotate, momentum_rotate, frame_normSq hA]
  have h5 : ∀ (m : ℝ) (X Y : State dim), dpsiVel m (rotate A X) (rotate A Y) = dpsiVel m X Y := by
    intro m X Y; funext t
    unfold dpsiVel
    simp only [waterDepth_rotate, momentum_rotate, frame_dot hA]
  have h6 : ∀ (m : ℝ) (X Y : State dim), lowerVel p m (rotate A X) (rotate A Y) = lowerVel p m X Y := by
    intro m X Y; funext t
    unfold lowerVel
    simp only [← map_smul, ← map_add, waterDepth_rotate]
  have h7 : ∀ t_l t_r s, velocityStage p lp b (fun l => rotate A (Us l)) (fun l => rotate A (Ps l)) t_l t_r s =
      velocityStage p lp b Us Ps t_l t_r s := by
    intro t_l t_r s
    unfold velocityStage
    simp only [h4, h5, h6]
  unfold limit
  simp only [h1, h2, h3, h7, waterDepth_rotate]

theorem barState_rotate (p : Params) (c : Vec dim) (W : State dim) :
    barState p (rotate A U) (rotate A V) (A.mulVec c) (rotate A W) = rotate A (barState p U V c W) := by
  unfold barState
  rw [contract_addFlux, contract_addFlux, contract_neg, contract_neg, contract_f_rotate _ hA, contract_f_rotate _ hA]
  simp only [map_add, map_smul, map_neg]

theorem accumulate_rotate (p : Params) (st : LimiterState) (X Y : State dim) (c : Vec dim) (W : State dim) :
    st.accumulate p (rotate A U) (rotate A V) (rotate A X) (rotate A Y) (A.mulVec c) (rotate A W) =
      st.accumulate p U V X Y c W := by
  unfold LimiterState.accumulate
  simp only [barState_rotate _ _ hA, waterDepth_rotate, momentum_rotate, kineticEnergy_rotate _ hA, mollified_rotate,
    ← Matrix.mulVec_smul, frame_normSq hA]

end

theorem accumulate_comm (p : Params) (U_i : State dim) (st : LimiterState) (U_j U_k X Y X' Y' : State dim)
    (c d : Vec dim) (W W' : State dim) :
    (st.accumulate p U_i U_j X Y c W).accumulate p U_i U_k X' Y' d W' =
      (st.accumulate p U_i U_k X' Y' d W').accumulate p U_i U_j X Y c W := by
  simp only [LimiterState.accumulate, LimiterState.mk.injEq, Bounds.mk.injEq, true_and, and_true]
  refine ⟨⟨min_right_comm _ _ _, max_right_comm _ _ _, max_right_comm _ _ _, max_right_comm _ _ _⟩,
    add_right_comm _ _ _, add_right_comm _ _ _, add_right_comm _ _ _⟩

theorem combineBounds_comm (a b c : Bounds) : combineBounds (combineBounds a b) c = combineBounds (combineBounds a c) b := by
  simp only [combineBounds, Bounds.mk.injEq]
  exact ⟨min_right_comm _ _ _, max_right_comm _ _ _, min_right_comm _ _ _, max_right_comm _ _ _, max_right_comm _ _ _⟩

theorem indicatorAccumulate_comm (p : Params) (st : IndicatorState dim) (U V : State dim) (c d : Vec dim) :
    (st.accumulate p U c).accumulate p V d = (st.accumulate p V d).accumulate p U c := by
  simp only [IndicatorState.accumulate, IndicatorState.mk.injEq, true_and]
  exact ⟨add_right_comm _ _ _, funext fun k => add_right_comm _ _ _⟩

/-- The indicator data in the new frame. -/
def moveIndicator (A : Matrix (Fin dim) (Fin dim) ℝ) (st : IndicatorState dim) : IndicatorState dim :=
  { st with f_i := moveFlux A (rotate A) st.f_i, d_eta_i := rotate A st.d_eta_i, right := rotate A st.right }

theorem indicator_rotate {A : Matrix (Fin dim) (Fin dim) ℝ} (hA : A * A.transpose = 1) (p : Params) (evc_factor hd : ℝ)
    (U : State dim) (row row' : List (State dim × Vec dim))
    (hrow : row'.Perm (row.map fun x => (rotate A x.1, A.mulVec x.2))) :
    indicator p evc_factor hd (rotate A U) row' = indicator p evc_factor hd U row := by
  unfold indicator
  have hc : RightCommutative (fun (st : IndicatorState dim) (e : State dim × Vec dim) => st.accumulate p e.1 e.2) :=
    ⟨fun st a b => indicatorAccumulate_comm p st _ _ _ _⟩
  have hr : IndicatorState.reset p (rotate A U) = moveIndicator A (IndicatorState.reset p U) := by
    unfold IndicatorState.reset moveIndicator
    rw [mathematicalEntropy_rotate _ hA, mathematicalEntropyDerivative_rotate _ hA, f_rotate _ hA, map_zero]
  have hacc : ∀ (st : IndicatorState dim) (V : State dim) (c : Vec dim),
      (moveIndicator A st).accumulate p (rotate A V) (A.mulVec c) = moveIndicator A (st.accumulate p V c) := by
    intro st V c
    unfold IndicatorState.accumulate moveIndicator
    simp only [mathematicalEntropy_rotate _ hA, pressure_rotate, sharp_rotate, momentum_rotate, ← Matrix.mulVec_smul,
      frame_dot hA, IndicatorState.mk.injEq, true_and]
    have e : ∀ (r : State dim) (F G : Fin (dim + 1) → Vec dim) (c : Vec dim),
        (fun k => r k + dot (F k - G k) c) = r + (contract F c - contract G c) := by
      intro r F G c
      rw [← contract_sub]; rfl
    rw [e, e, map_add, map_sub, f_rotate _ hA, contract_moveFlux hA, contract_moveFlux hA]
  rw [hrow.foldl_eq, List.foldl_map, hr]
  have : ∀ st : IndicatorState dim, row.foldl (fun st e => st.accumulate p (rotate A e.1) (A.mulVec e.2))
      (moveIndicator A st) = moveIndicator A (row.foldl (fun st e => st.accumulate p e.1 e.2) st) := by
    clear hrow
    induction row with
    | nil => intro st; rfl
    | cons e es ih =>
      intro st
      simp only [List.foldl_cons]
      rw [hacc, ih]
  rw [this]
  generalize row.foldl _ _ = st
  unfold IndicatorState.alpha
  have hd : ∑ k, (moveIndicator A st).d_eta_i k * (moveIndicator A st).right k = ∑ k, st.d_eta_i k * st.right k :=
    dot_rotate _ _ hA
  simp only [hd]
  rfl

end ShallowWater

/-! ### Scalar conservation equations -/

namespace Scalar

theorem accumulate_comm (U_i : State) (flux_i : Fin 1 → Vec dim) (st : LimiterState) (U_j U_k : State)
    (fj fk : Fin 1 → Vec dim) (c d : Vec dim) (W X : State) :
    (st.accumulate U_i flux_i U_j fj c W).accumulate U_i flux_i U_k fk d X =
      (st.accumulate U_i flux_i U_k fk d X).accumulate U_i flux_i U_j fj c W := by
  simp only [LimiterState.accumulate, LimiterState.mk.injEq, Bounds.mk.injEq, and_true]
  refine ⟨⟨min_right_comm _ _ _, max_right_comm _ _ _⟩, add_right_comm _ _ _⟩

theorem combineBounds_comm (a b c : Bounds) : combineBounds (combineBounds a b) c = combineBounds (combineBounds a c) b := by
  simp only [combineBounds, Bounds.mk.injEq]
  exact ⟨min_right_comm _ _ _, max_right_comm _ _ _⟩

theorem indicatorAccumulate_comm (st : IndicatorState dim) (x y : IndicatorEntry dim) :
    (st.accumulate x).accumulate y = (st.accumulate y).accumulate x := by
  simp only [IndicatorState.accumulate, IndicatorState.mk.injEq, true_and]
  refine ⟨max_right_comm _ _ _, add_right_comm _ _ _, add_right_comm _ _ _⟩

end Scalar

end

end Ryujin
