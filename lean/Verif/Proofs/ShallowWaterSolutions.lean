import Verif.Model.ShallowWaterInitialStates
import Verif.Proofs.PlanarSolutions
import Verif.Proofs.ShallowWater

/-!
# Helper lemmas: solutions of the shallow water equations in terms of depth and velocity
-/

namespace Ryujin
namespace Spec

open ShallowWater (State mkState waterDepth momentum)
open scoped BigOperators

variable {d : ℕ}

theorem sw_depth_mk (h : ℝ) (m : Vec d) : waterDepth (mkState h m) = h := rfl
theorem sw_momentum_mk (h : ℝ) (m : Vec d) : momentum (mkState h m) = m := by funext i; rfl

theorem sw_ext {U W : State d} (h0 : waterDepth U = waterDepth W) (h1 : ∀ i, momentum U i = momentum W i) : U = W := by
  funext k
  refine Fin.cases ?_ (fun i => ?_) k
  · exact h0
  · exact h1 i

theorem sw_depth_sum {ι : Type*} (s : Finset ι) (F : ι → State d) : waterDepth (∑ k ∈ s, F k) = ∑ k ∈ s, waterDepth (F k) := by
  unfold waterDepth
  rw [Finset.sum_apply]

theorem sw_momentum_sum {ι : Type*} (s : Finset ι) (F : ι → State d) (i : Fin d) :
    momentum (∑ k ∈ s, F k) i = ∑ k ∈ s, momentum (F k) i := by
  unfold momentum
  rw [Finset.sum_apply]

theorem hasDerivAt_swState {r : ℝ → ℝ} {m : ℝ → Vec d} {r' s : ℝ} {m' : Vec d} (hr : HasDerivAt r r' s)
    (hm : ∀ i, HasDerivAt (fun y => m y i) (m' i) s) :
    HasDerivAt (fun y => (mkState (r y) (m y) : State d)) (mkState r' m') s := by
  rw [hasDerivAt_pi]
  intro k
  refine Fin.cases ?_ (fun i => ?_) k
  · exact hr
  · exact hm i

/-- The state with water depth `h` and velocity `v`. -/
noncomputable def waterState (h : ℝ) (v : Vec d) : State d := mkState h fun i => h * v i

theorem swFlux_waterState (g : ℝ) {h : ℝ} (hh : h ≠ 0) (v : Vec d) (k : Fin d) :
    shallowWaterFlux g (waterState h v) k = mkState (h * v k) fun i => h * v i * v k + if i = k then 1 / 2 * g * h ^ 2 else 0 := by
  unfold shallowWaterFlux waterState
  simp only [sw_depth_mk, sw_momentum_mk]
  congr 1
  funext i
  congr 1
  field_simp

/-- The shallow water equations in terms of depth and velocity, at a wet point. -/
theorem solvesShallowWater_iff (g nm : ℝ) (z : Vec d → ℝ) (h : Vec d → ℝ → ℝ) (v : Vec d → ℝ → Vec d) (x : Vec d) (t : ℝ)
    {ht : ℝ} {hx zx vt : Vec d} {vx : Fin d → Vec d} (h0 : h x t ≠ 0)
    (hht : HasDerivAt (fun s => h x s) ht t) (hvt : ∀ i, HasDerivAt (fun s => v x s i) (vt i) t)
    (hhx : ∀ k, HasDerivAt (fun s => h (Function.update x k s) t) (hx k) (x k))
    (hvx : ∀ k i, HasDerivAt (fun s => v (Function.update x k s) t i) (vx k i) (x k))
    (hzx : ∀ k, HasDerivAt (fun s => z (Function.update x k s)) (zx k) (x k)) :
    SolvesShallowWater g nm z (fun x t => waterState (h x t) (v x t)) x t ↔
      (ht + ∑ k, (v x t k * hx k + h x t * vx k k) = 0) ∧
      (∀ i, vt i + ∑ k, v x t k * vx k i + g * (hx i + zx i) + g * nm ^ 2 * vnorm (v x t) / h x t ^ ((4 : ℝ) / 3) * v x t i = 0) := by
  have hself : ∀ k, Function.update x k (x k) = x := fun k => Function.update_eq_self k x
  have hU : HasDerivAt (fun s => (waterState (h x s) (v x s) : State d))
      (mkState ht fun i => ht * v x t i + h x t * vt i) t := hasDerivAt_swState hht fun i => hht.mul (hvt i)
  have hF : ∀ k, HasDerivAt (fun s => shallowWaterFlux g (waterState (h (Function.update x k s) t) (v (Function.update x k s) t)) k)
      (mkState (hx k * v x t k + h x t * vx k k) fun i => (hx k * v x t i + h x t * vx k i) * v x t k +
        h x t * v x t i * vx k k + if i = k then g * h x t * hx k else 0) (x k) := by
    intro k
    have hne : ∀ᶠ s in nhds (x k), h (Function.update x k s) t ≠ 0 := by
      refine (hhx k).continuousAt.eventually_ne ?_
      rw [hself]; exact h0
    refine HasDerivAt.congr_of_eventuallyEq ?_ (hne.mono fun s hs => swFlux_waterState g hs _ k)
    refine hasDerivAt_swState ?_ fun i => ?_
    · have := (hhx k).mul (hvx k k)
      simp only [hself] at this
      exact this
    · have h1 : HasDerivAt (fun s => if i = k then 1 / 2 * g * h (Function.update x k s) t ^ 2 else 0)
          (if i = k then g * h x t * hx k else 0) (x k) := by
        by_cases hik : i = k
        · simp only [hik, if_true]
          have := ((hhx k).pow 2).const_mul (1 / 2 * g)
          refine this.congr_deriv ?_
          simp only [hself]
          norm_num
          ring
        · simpa [hik] using hasDerivAt_const (x k) (0 : ℝ)
      have h2 := (((hhx k).mul (hvx k i)).mul (hvx k k)).add h1
      simp only [Pi.mul_apply, hself] at h2
      exact h2
  have hvel : (fun j => momentum (waterState (h x t) (v x t)) j / waterDepth (waterState (h x t) (v x t))) = v x t := by
    funext j
    unfold waterState
    rw [sw_momentum_mk, sw_depth_mk]
    field_simp
  have hstep : ∀ zx' : Vec d, SolvesAt (shallowWaterFlux g)
      (mkState 0 fun i => -(g * h x t * zx' i) - g * nm ^ 2 * vnorm (v x t) / h x t ^ ((4 : ℝ) / 3) * (h x t * v x t i))
      (fun x t => waterState (h x t) (v x t)) x t ↔ (ht + ∑ k, (v x t k * hx k + h x t * vx k k) = 0) ∧
      (∀ i, vt i + ∑ k, v x t k * vx k i + g * (hx i + zx' i) + g * nm ^ 2 * vnorm (v x t) / h x t ^ ((4 : ℝ) / 3) * v x t i = 0) := by
    intro zx'
    rw [solvesAt_iff (F := shallowWaterFlux g) (U := fun x t => waterState (h x t) (v x t)) hU hF]
    generalize g * nm ^ 2 * vnorm (v x t) / h x t ^ ((4 : ℝ) / 3) = fr
    generalize h x t = H at *
    generalize v x t = V at *
    have c0 : ∀ P Q W : State d, P + Q = W ↔ waterDepth P + waterDepth Q = waterDepth W ∧
        ∀ i, momentum P i + momentum Q i = momentum W i := by
      intro P Q W
      constructor
      · rintro rfl
        exact ⟨rfl, fun i => rfl⟩
      · rintro ⟨h1, h2⟩
        exact sw_ext h1 h2
    rw [c0]
    simp only [sw_depth_mk, sw_momentum_mk, sw_depth_sum, sw_momentum_sum]
    have e1 : ∑ k, (hx k * V k + H * vx k k) = ∑ k, (V k * hx k + H * vx k k) :=
      Finset.sum_congr rfl fun k _ => by ring
    rw [e1]
    have e2 : ∀ i, ∑ k, ((hx k * V i + H * vx k i) * V k + H * V i * vx k k + if i = k then g * H * hx k else 0) =
        V i * ∑ k, (V k * hx k + H * vx k k) + H * ∑ k, V k * vx k i + g * H * hx i := by
      intro i
      have : g * H * hx i = ∑ k, if i = k then g * H * hx k else 0 := by simp
      rw [this, Finset.mul_sum, Finset.mul_sum, ← Finset.sum_add_distrib, ← Finset.sum_add_distrib]
      exact Finset.sum_congr rfl fun k _ => by ring
    simp only [e2]
    refine and_congr_right fun mass => forall_congr' fun i => ?_
    constructor
    · intro hm
      have : H * (vt i + ∑ k, V k * vx k i + g * (hx i + zx' i) + fr * V i) = 0 := by
        linear_combination hm - V i * mass
      exact (mul_eq_zero.1 this).resolve_left h0
    · intro hm
      linear_combination H * hm + V i * mass
  unfold SolvesShallowWater
  dsimp only
  rw [hvel]
  constructor
  · rintro ⟨zx', hz', hs⟩
    have : zx' = zx := funext fun k => (hz' k).unique (hzx k)
    rw [this] at hs
    exact (hstep zx).1 hs
  · intro hs
    exact ⟨zx, hzx, (hstep zx).2 hs⟩

/-- Being a solution depends only on the field near the point. -/
theorem SolvesShallowWater.congr {g nm : ℝ} {z : Vec d → ℝ} {U W : Vec d → ℝ → State d} {x : Vec d} {t : ℝ}
    (ht : ∀ᶠ s in nhds t, U x s = W x s)
    (hx : ∀ k, ∀ᶠ s in nhds (x k), U (Function.update x k s) t = W (Function.update x k s) t) :
    SolvesShallowWater g nm z U x t ↔ SolvesShallowWater g nm z W x t := by
  have h0 : U x t = W x t := ht.self_of_nhds
  unfold SolvesShallowWater
  dsimp only
  rw [h0]
  refine exists_congr fun zx => and_congr_right fun _ => ⟨fun h => ?_, fun h => ?_⟩
  · exact h.congr (ht.mono fun s hs => hs.symm) fun k => (hx k).mono fun s hs => hs.symm
  · exact h.congr ht hx

/-- Dry ground is a solution, whatever the bottom. -/
theorem dry_solves (g nm : ℝ) (z : Vec d → ℝ) (x : Vec d) (t : ℝ)
    (hz : ∃ zx : Vec d, ∀ k, HasDerivAt (fun s => z (Function.update x k s)) (zx k) (x k)) :
    SolvesShallowWater g nm z (fun _ _ => waterState 0 0) x t := by
  obtain ⟨zx, hzx⟩ := hz
  refine ⟨zx, hzx, ?_⟩
  have : (mkState 0 fun i => -(g * waterDepth (waterState 0 (0 : Vec d)) * zx i) -
      g * nm ^ 2 * vnorm (fun j => momentum (waterState 0 (0 : Vec d)) j / waterDepth (waterState 0 (0 : Vec d))) /
      waterDepth (waterState 0 (0 : Vec d)) ^ ((4 : ℝ) / 3) * momentum (waterState 0 (0 : Vec d)) i : State d) = 0 := by
    refine sw_ext rfl fun i => ?_
    rw [sw_momentum_mk]
    simp [waterState, sw_depth_mk, sw_momentum_mk]
    rfl
  rw [this]
  exact solvesAt_const _ _ _ _

end Spec
end Ryujin
