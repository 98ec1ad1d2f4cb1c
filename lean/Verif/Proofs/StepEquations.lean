import Verif.Proofs.HyperbolicStep
import Verif.Model.Descriptions
import Verif.Props.Scalar
import Verif.Props.ShallowWater
import Verif.Props.HyperbolicStep
import Mathlib.LinearAlgebra.Pi
import Mathlib.Algebra.BigOperators.Field

/-! # The equations satisfy the hypotheses of the theorems about the hyperbolic step -/

namespace Ryujin

open scoped BigOperators

variable {ι : Type} {dim : ℕ}

theorem dot_add_right' {n : ℕ} (a b c : Vec n) : dot a (b + c) = dot a b + dot a c := by
  simp [dot, mul_add, Finset.sum_add_distrib]

theorem dot_smul_right' {n : ℕ} (a c : Vec n) (r : ℝ) : dot a (r • c) = r * dot a c := by
  simp only [dot, Finset.mul_sum, Pi.smul_apply, smul_eq_mul]
  exact Finset.sum_congr rfl fun _ _ => by ring

/-- `c ↦ contract(flux, c)` as a linear map. -/
noncomputable def contractLin {k : ℕ} (f : Fin k → Vec dim) : Vec dim →ₗ[ℝ] Vec k where
  toFun := contract f
  map_add' := fun _ _ => funext fun _ => dot_add_right' _ _ _
  map_smul' := fun _ _ => funext fun _ => dot_smul_right' _ _ _

theorem contract_addFlux {k : ℕ} (f g : Fin k → Vec dim) (c : Vec dim) :
    contract (addFlux f g) c = contract f c + contract g c := by
  funext i; simp [contract, addFlux, dot, add_mul, Finset.sum_add_distrib]

theorem contract_neg_right {k : ℕ} (f : Fin k → Vec dim) (c : Vec dim) : contract f (-c) = -contract f c :=
  map_neg (contractLin f) c

namespace Hyp

variable {P S F B : Type} [AddCommGroup S] [Module ℝ S]

/-- Central fluxes are antisymmetric, so every linear functional is conserved. -/
theorem Description.CentralFlux.conserves {D : Description ι P S F B dim} {K : F → Vec dim →ₗ[ℝ] S}
    (hK : D.CentralFlux K) (hho : D.highOrder = D.fluxDiv) (φ : S →ₗ[ℝ] ℝ) : D.Conserves φ where
  fluxDiv := fun f g c => by
    rw [hK.fluxDiv, hK.fluxDiv]; simp only [map_neg, map_add]; ring
  highOrder := fun f g c => by
    rw [hho, hK.fluxDiv, hK.fluxDiv]; simp only [map_neg, map_add]; ring
  stars := fun U f V g => by rw [hK.stars, hK.stars]; simp only [map_sub]; ring
  source := fun p i U tau => by rw [hK.source, map_zero]

end Hyp

/-- The scalar conservation equation has central fluxes. -/
theorem Scalar.centralFlux (fl : Scalar.Flux dim) (q : Scalar.StepParams) (draws : ι → ι → List ℝ) (lim) :
    (Scalar.description fl q draws lim).CentralFlux contractLin where
  fluxDiv := fun f g c => by
    show -contract (addFlux f g) c = _
    rw [contract_addFlux]; rfl
  stars := fun _ _ _ _ => rfl
  source := fun _ _ _ _ => rfl
  affineShift := fun _ _ _ _ => rfl

/-- The Euler equations have central fluxes. -/
theorem Euler.centralFlux (p : Euler.Params) (lp big riem ind) (lim) :
    (Euler.description (ι := ι) (dim := dim) p lp big riem ind lim).CentralFlux contractLin where
  fluxDiv := fun f g c => by
    show -contract (addFlux f g) c = _
    rw [contract_addFlux]; rfl
  stars := fun _ _ _ _ => rfl
  source := fun _ _ _ _ => rfl
  affineShift := fun _ _ _ _ => rfl

/-- The Euler equations with arbitrary equation of state have central fluxes. -/
theorem Aeos.centralFlux {B : Type} (riem ind bnds) (comb : B → B → B) (lim) :
    (Aeos.description (ι := ι) (dim := dim) riem ind bnds comb lim).CentralFlux contractLin where
  fluxDiv := fun f g c => by
    show -contract (addFlux f g) c = _
    rw [contract_addFlux]; rfl
  stars := fun _ _ _ _ => rfl
  source := fun _ _ _ _ => rfl
  affineShift := fun _ _ _ _ => rfl

/-- The shallow water equations conserve the water depth. -/
theorem ShallowWater.conserves_depth (q : ShallowWater.StepParams) (Z : ι → ℝ) (lim) :
    (ShallowWater.description (dim := dim) q Z lim).Conserves (LinearMap.proj 0) where
  fluxDiv := fun f g c => by
    simp only [ShallowWater.description, LinearMap.proj_apply, ShallowWater.fluxDivergence,
      ShallowWater.equilibratedStates, contract_neg_right, Pi.neg_apply, neg_neg]
    simp only [contract, ShallowWater.subDiagonal, Fin.cons_zero, Pi.neg_apply, addFlux]
    rw [add_comm]
  highOrder := fun f g c => by
    simp only [ShallowWater.description, LinearMap.proj_apply, ShallowWater.highOrderFluxDivergence,
      contract_neg_right, Pi.neg_apply, neg_neg]
    simp only [contract, ShallowWater.subDiagonal, Fin.cons_zero, Pi.neg_apply, addFlux]
    rw [add_comm]
  stars := fun U f V g => by
    simp only [ShallowWater.description, LinearMap.proj_apply, ShallowWater.equilibratedStates, Pi.sub_apply]
    ring
  source := fun p i U tau => by
    simp [ShallowWater.description, ShallowWater.nodalSource, ShallowWater.manningFriction, ShallowWater.mkState]

/-! ### Scalar equations: bounds of the limiter -/

namespace Scalar

/-- The bar state of a limiter entry of row `(U_i, flux_i)`. -/
noncomputable def entryBar (U_i : State) (flux_i : Fin 1 → Vec dim)
    (e : Hyp.LimiterEntry ι State (Fin 1 → Vec dim) dim) : ℝ :=
  state (barState U_i e.U_j flux_i e.flux_j e.scaled_c e.affine_shift)

theorem foldl_accumulate (U_i : State) (flux_i : Fin 1 → Vec dim)
    (l : List (Hyp.LimiterEntry ι State (Fin 1 → Vec dim) dim)) (st : LimiterState) :
    let r := l.foldl (fun st e => st.accumulate U_i flux_i e.U_j e.flux_j e.scaled_c e.affine_shift) st
    r.bounds.u_min ≤ st.bounds.u_min ∧ st.bounds.u_max ≤ r.bounds.u_max ∧
    (∀ e ∈ l, r.bounds.u_min ≤ entryBar U_i flux_i e ∧ entryBar U_i flux_i e ≤ r.bounds.u_max) ∧
    (∀ m, m ≤ st.bounds.u_min → (∀ e ∈ l, m ≤ entryBar U_i flux_i e) → m ≤ r.bounds.u_min) ∧
    (∀ m, st.bounds.u_max ≤ m → (∀ e ∈ l, entryBar U_i flux_i e ≤ m) → r.bounds.u_max ≤ m) := by
  induction l generalizing st with
  | nil => simp
  | cons a t ih =>
    have h := ih (st.accumulate U_i flux_i a.U_j a.flux_j a.scaled_c a.affine_shift)
    simp only [List.foldl_cons]
    obtain ⟨h1, h2, h3, h4, h5⟩ := h
    have e1 : (st.accumulate U_i flux_i a.U_j a.flux_j a.scaled_c a.affine_shift).bounds.u_min
      = min st.bounds.u_min (entryBar U_i flux_i a) := rfl
    have e2 : (st.accumulate U_i flux_i a.U_j a.flux_j a.scaled_c a.affine_shift).bounds.u_max
      = max st.bounds.u_max (entryBar U_i flux_i a) := rfl
    rw [e1] at h1 h4
    rw [e2] at h2 h5
    refine ⟨h1.trans (min_le_left _ _), (le_max_left _ _).trans h2, ?_, ?_, ?_⟩
    · intro e he
      rcases List.mem_cons.1 he with rfl | he
      · exact ⟨h1.trans (min_le_right _ _), (le_max_right _ _).trans h2⟩
      · exact h3 e he
    · intro m hm hall
      exact h4 m (le_min hm (hall a (by simp))) fun e he => hall e (by simp [he])
    · intro m hm hall
      exact h5 m (max_le hm (hall a (by simp))) fun e he => hall e (by simp [he])

/-- One lane of the scalar limiter keeps `U + s P` within the bounds. -/
theorem lane_keeps_bounds {eps tiny : ℝ} (heps : 0 ≤ eps) (htiny : 0 < tiny) {b : Bounds} {U P : State}
    {r : ℝ × Prop} (h : IsLaneOf (fun _ => limit eps tiny) b U P r) :
    0 ≤ r.1 ∧ r.1 ≤ 1 ∧ ((eps = 0 ∨ 0 ≤ b.u_max) → b.u_min ≤ state U → state U ≤ b.u_max →
      ∀ s, 0 ≤ s → s ≤ r.1 → b.u_min ≤ state (U + s • P) ∧ state (U + s • P) ≤ b.u_max) := by
  obtain ⟨L, bs, Us, Ps, l, rfl, rfl, rfl, rfl⟩ := h
  have hr := C02_scalar_limit_range eps tiny bs Us Ps (fun _ => 0) (fun _ => 1) l zero_le_one
  refine ⟨hr.1, hr.2, ?_⟩
  intro hs hlo hhi s hs0 hs1
  have := C04_scalar_limit_bounds_relaxed eps tiny bs Us Ps (fun _ => 1) l heps htiny ⟨hlo, hhi⟩ s hs0 hs1
  rcases hs with h | h
  · simpa [h] using this
  · rw [max_eq_left (by linarith)] at this
    simpa using this

end Scalar

namespace Hyp

variable {P S F B : Type}

/-- Combination of bounds over rows in any order: every predicate of bounds that holds initially and is preserved
by combination holds finally. -/
theorem boundsStep5_induct (D : Description ι P S F B dim) (M : Mesh ι dim) (order : List ι) (b : ι → B)
    (Q : ι → B → Prop) (h0 : ∀ i, Q i (b i))
    (hstep : ∀ i x j y, j ∈ M.nbrs i → Q i x → Q j y → Q i (D.combine x y)) :
    ∀ i, Q i (boundsStep5 D M order b i) := by
  classical
  have hrow : ∀ (b : ι → B), (∀ i, Q i (b i)) → ∀ i, Q i (combineRow D M b i) := by
    intro b hb i
    unfold combineRow
    have : ∀ (l : List ι) (x : B), (∀ j ∈ l, j ∈ M.nbrs i) → Q i x →
        Q i (l.foldl (fun acc j => D.combine acc (b j)) x) := by
      intro l
      induction l with
      | nil => intro x _ hx; exact hx
      | cons a t ih =>
        intro x hl hx
        exact ih _ (fun j hj => hl j (by simp [hj])) (hstep i x a (b a) (hl a (by simp)) hx (hb a))
    exact this _ _ (fun _ h => h) (hb i)
  unfold boundsStep5
  split_ifs with hd
  · induction order generalizing b with
    | nil => exact h0
    | cons a t ih =>
      apply ih
      intro i
      dsimp only
      split_ifs with ha
      · by_cases hia : i = a
        · subst hia; rw [Function.update_self]; exact hrow b h0 i
        · rw [Function.update_of_ne hia]; exact h0 i
      · exact h0 i
  · exact h0

theorem dot_div {n : ℕ} (a c : Vec n) (r : ℝ) : dot a (fun k => c k / r) = dot a c / r := by
  simp only [dot, Finset.sum_div, mul_div_assoc]

end Hyp

end Ryujin
