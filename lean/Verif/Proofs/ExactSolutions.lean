import Verif.Spec.ConservationLaw
import Verif.Proofs.EulerLimiter
import Mathlib.Analysis.Calculus.Deriv.Mul
import Mathlib.Analysis.Calculus.Deriv.Inv
import Mathlib.Analysis.Calculus.Deriv.Prod
import Mathlib.Analysis.Calculus.Deriv.Comp
import Mathlib.Tactic.FieldSimp
import Mathlib.Tactic.LinearCombination

/-!
# Helper lemmas: from primitive variables to conserved variables
-/

namespace Ryujin
namespace Spec

open scoped BigOperators

variable {d : ℕ}

theorem density_sum' (F : Fin d → Euler.State d) : Euler.density (∑ k, F k) = ∑ k, Euler.density (F k) := by
  unfold Euler.density
  rw [Finset.sum_apply]

theorem momentum_sum' (F : Fin d → Euler.State d) (i : Fin d) :
    Euler.momentum (∑ k, F k) i = ∑ k, Euler.momentum (F k) i := by
  unfold Euler.momentum
  rw [Finset.sum_apply]

theorem totalEnergy_sum' (F : Fin d → Euler.State d) : Euler.totalEnergy (∑ k, F k) = ∑ k, Euler.totalEnergy (F k) := by
  unfold Euler.totalEnergy
  rw [Finset.sum_apply]

theorem hasDerivAt_mkState {r E : ℝ → ℝ} {m : ℝ → Vec d} {r' E' s : ℝ} {m' : Vec d} (hr : HasDerivAt r r' s)
    (hm : ∀ i, HasDerivAt (fun y => m y i) (m' i) s) (hE : HasDerivAt E E' s) :
    HasDerivAt (fun y => (Euler.mkState (r y) (m y) (E y) : Euler.State d)) (Euler.mkState r' m' E') s := by
  rw [hasDerivAt_pi]
  intro k
  refine Fin.cases ?_ (fun j => ?_) k
  · simpa [Euler.mkState] using hr
  · refine Fin.lastCases ?_ (fun i => ?_) j
    · simpa [Euler.mkState] using hE
    · simpa [Euler.mkState] using hm i

theorem hasDerivAt_normSq {u : ℝ → Vec d} {u' : Vec d} {s : ℝ} (hu : ∀ i, HasDerivAt (fun y => u y i) (u' i) s) :
    HasDerivAt (fun y => normSq (u y)) (2 * ∑ i, u s i * u' i) s := by
  unfold normSq
  have := HasDerivAt.fun_sum (u := Finset.univ) fun i _ => (hu i).mul (hu i)
  refine this.congr_deriv ?_
  rw [Finset.mul_sum]
  refine Finset.sum_congr rfl fun i _ => ?_
  ring

theorem gasPressure_conserved (gamma : ℝ) (hg : gamma ≠ 1) (rho : ℝ) (u : Vec d) (p : ℝ) :
    gasPressure gamma (gasConserved gamma rho u p) = p := by
  have h1 : gamma - 1 ≠ 0 := sub_ne_zero.2 hg
  unfold gasPressure gasConserved
  simp only [Euler.density_mkState, Euler.momentum_mkState, Euler.totalEnergy_mkState]
  have : normSq (fun i => rho * u i) = rho * rho * normSq u := by
    unfold normSq
    rw [Finset.mul_sum]
    exact Finset.sum_congr rfl fun i _ => by ring
  rw [this]
  rcases eq_or_ne rho 0 with rfl | hr
  · field_simp
    simp
  · field_simp
    ring

/-- The energy of a state along a curve. -/
theorem hasDerivAt_energy {gamma : ℝ} {r p : ℝ → ℝ} {u : ℝ → Vec d} {r' p' s : ℝ} {u' : Vec d} (hr : HasDerivAt r r' s)
    (hu : ∀ i, HasDerivAt (fun y => u y i) (u' i) s) (hp : HasDerivAt p p' s) :
    HasDerivAt (fun y => p y / (gamma - 1) + 1 / 2 * r y * normSq (u y))
      (p' / (gamma - 1) + 1 / 2 * r' * normSq (u s) + r s * ∑ i, u s i * u' i) s := by
  have h1 := (hp.div_const (gamma - 1)).add ((hr.const_mul (1 / 2)).mul (hasDerivAt_normSq hu))
  refine h1.congr_deriv ?_
  ring

theorem hasDerivAt_conserved {gamma : ℝ} {r p : ℝ → ℝ} {u : ℝ → Vec d} {r' p' s : ℝ} {u' : Vec d} (hr : HasDerivAt r r' s)
    (hu : ∀ i, HasDerivAt (fun y => u y i) (u' i) s) (hp : HasDerivAt p p' s) :
    HasDerivAt (fun y => gasConserved gamma (r y) (u y) (p y))
      (Euler.mkState r' (fun i => r' * u s i + r s * u' i)
        (p' / (gamma - 1) + 1 / 2 * r' * normSq (u s) + r s * ∑ i, u s i * u' i)) s :=
  hasDerivAt_mkState hr (fun i => hr.mul (hu i)) (hasDerivAt_energy hr hu hp)

theorem eulerFlux_conserved (gamma : ℝ) (hg : gamma ≠ 1) {rho : ℝ} (hr : rho ≠ 0) (u : Vec d) (p : ℝ) (k : Fin d) :
    eulerFlux (gasPressure gamma) (gasConserved gamma rho u p) k =
      Euler.mkState (rho * u k) (fun i => rho * u i * u k + if i = k then p else 0)
        ((p / (gamma - 1) + 1 / 2 * rho * normSq u + p) * u k) := by
  unfold eulerFlux
  rw [gasPressure_conserved gamma hg]
  unfold gasConserved
  simp only [Euler.density_mkState, Euler.momentum_mkState, Euler.totalEnergy_mkState]
  congr 1
  · funext i
    congr 1
    field_simp
  · field_simp

theorem hasDerivAt_eulerFlux {gamma : ℝ} (hg : gamma ≠ 1) {r p : ℝ → ℝ} {u : ℝ → Vec d} {r' p' s : ℝ} {u' : Vec d}
    (h0 : r s ≠ 0) (hr : HasDerivAt r r' s) (hu : ∀ i, HasDerivAt (fun y => u y i) (u' i) s) (hp : HasDerivAt p p' s)
    (k : Fin d) :
    HasDerivAt (fun y => eulerFlux (gasPressure gamma) (gasConserved gamma (r y) (u y) (p y)) k)
      (Euler.mkState (r' * u s k + r s * u' k)
        (fun i => r' * u s i * u s k + r s * u' i * u s k + r s * u s i * u' k + if i = k then p' else 0)
        ((p' / (gamma - 1) + 1 / 2 * r' * normSq (u s) + r s * ∑ i, u s i * u' i + p') * u s k +
          (p s / (gamma - 1) + 1 / 2 * r s * normSq (u s) + p s) * u' k)) s := by
  have hne : ∀ᶠ y in nhds s, r y ≠ 0 := hr.continuousAt.eventually_ne h0
  refine HasDerivAt.congr_of_eventuallyEq ?_ (hne.mono fun y hy => eulerFlux_conserved gamma hg hy (u y) (p y) k)
  refine hasDerivAt_mkState (hr.mul (hu k)) (fun i => ?_) ?_
  · have h1 : HasDerivAt (fun y => if i = k then p y else 0) (if i = k then p' else 0) s := by
      by_cases h : i = k
      · simpa [h] using hp
      · simpa [h] using hasDerivAt_const s (0 : ℝ)
    have h2 := ((hr.mul (hu i)).mul (hu k)).add h1
    refine h2.congr_deriv ?_
    simp only [Pi.mul_apply]
    ring
  · have h3 := ((hasDerivAt_energy (gamma := gamma) hr hu hp).add hp).mul (hu k)
    exact h3

/-- With the derivatives at hand, being a solution is an equation. -/
theorem solvesAt_iff {n : ℕ} {F : Vec n → Fin d → Vec n} {S : Vec n} {U : Vec d → ℝ → Vec n} {x : Vec d} {t : ℝ}
    {Ut : Vec n} {Fx : Fin d → Vec n} (h1 : HasDerivAt (fun s => U x s) Ut t)
    (h2 : ∀ k, HasDerivAt (fun s => F (U (Function.update x k s) t) k) (Fx k) (x k)) :
    SolvesAt F S U x t ↔ Ut + ∑ k, Fx k = S := by
  constructor
  · rintro ⟨Ut', Fx', h1', h2', h⟩
    have e1 : Ut = Ut' := h1.unique h1'
    have e2 : Fx = Fx' := funext fun k => (h2 k).unique (h2' k)
    rw [e1, e2]; exact h
  · intro h
    exact ⟨Ut, Fx, h1, h2, h⟩

/-- The Euler equations in conserved variables are equivalent to those in primitive variables. -/
theorem solvesEuler_iff_primitive {gamma : ℝ} (hg : gamma ≠ 1) (r p : Vec d → ℝ → ℝ) (u : Vec d → ℝ → Vec d)
    (x : Vec d) (t : ℝ) {rt pt : ℝ} {rx px ut : Vec d} {ux : Fin d → Vec d} (h0 : r x t ≠ 0)
    (hrt : HasDerivAt (fun s => r x s) rt t) (hut : ∀ i, HasDerivAt (fun s => u x s i) (ut i) t)
    (hpt : HasDerivAt (fun s => p x s) pt t)
    (hrx : ∀ k, HasDerivAt (fun s => r (Function.update x k s) t) (rx k) (x k))
    (hux : ∀ k i, HasDerivAt (fun s => u (Function.update x k s) t i) (ux k i) (x k))
    (hpx : ∀ k, HasDerivAt (fun s => p (Function.update x k s) t) (px k) (x k)) :
    SolvesEuler gamma (fun x t => gasConserved gamma (r x t) (u x t) (p x t)) x t ↔
      (rt + ∑ k, (u x t k * rx k + r x t * ux k k) = 0) ∧
      (∀ i, r x t * (ut i + ∑ k, u x t k * ux k i) + px i = 0) ∧
      (pt + ∑ k, (u x t k * px k + gamma * p x t * ux k k) = 0) := by
  have h1 : gamma - 1 ≠ 0 := sub_ne_zero.2 hg
  have hself : ∀ k, Function.update x k (x k) = x := fun k => Function.update_eq_self k x
  unfold SolvesEuler
  rw [solvesAt_iff (F := eulerFlux (gasPressure gamma)) (U := fun x t => gasConserved gamma (r x t) (u x t) (p x t))
    (hasDerivAt_conserved (gamma := gamma) (r := fun s => r x s) (u := fun s => u x s) hrt hut hpt)
    fun k => hasDerivAt_eulerFlux (r := fun s => r (Function.update x k s) t) (u := fun s => u (Function.update x k s) t)
      (p := fun s => p (Function.update x k s) t) hg (by rw [hself k]; exact h0) (hrx k) (hux k) (hpx k) k]
  simp only [hself]
  generalize r x t = R at *
  generalize p x t = P at *
  generalize u x t = V at *
  rw [Finset.sum_add_distrib, Finset.sum_add_distrib]
  have hs1 : ∑ k, R * ux k k = R * ∑ k, ux k k := by rw [Finset.mul_sum]
  have hs2 : ∑ k, gamma * P * ux k k = gamma * P * ∑ k, ux k k := by rw [Finset.mul_sum]
  rw [hs1, hs2]
  obtain ⟨Sm, hSm⟩ : ∃ Sm : Euler.State d, Sm = ∑ k, (Euler.mkState (rx k * V k + R * ux k k)
      (fun i => rx k * V i * V k + R * ux k i * V k + R * V i * ux k k + if i = k then px k else 0)
      ((px k / (gamma - 1) + 1 / 2 * rx k * normSq V + R * ∑ i, V i * ux k i + px k) * V k +
        (P / (gamma - 1) + 1 / 2 * R * normSq V + P) * ux k k) : Euler.State d) := ⟨_, rfl⟩
  rw [← hSm]
  have c1 : Euler.density Sm = ∑ k, (V k * rx k) + R * ∑ k, ux k k := by
    rw [hSm, density_sum', Finset.mul_sum, ← Finset.sum_add_distrib]
    refine Finset.sum_congr rfl fun k _ => ?_
    rw [Euler.density_mkState]
    ring
  have c2 : ∀ i, Euler.momentum Sm i =
      V i * ∑ k, (V k * rx k) + R * ∑ k, V k * ux k i + R * V i * ∑ k, ux k k + px i := by
    intro i
    rw [hSm, momentum_sum', Finset.mul_sum, Finset.mul_sum, Finset.mul_sum, ← Finset.sum_add_distrib,
      ← Finset.sum_add_distrib]
    have hp : px i = ∑ k, if i = k then px k else 0 := by simp
    rw [hp, ← Finset.sum_add_distrib]
    refine Finset.sum_congr rfl fun k _ => ?_
    rw [Euler.momentum_mkState]
    ring
  have c3 : Euler.totalEnergy Sm =
      (1 / (gamma - 1) + 1) * ∑ k, V k * px k + 1 / 2 * normSq V * ∑ k, V k * rx k + R * ∑ k, V k * ∑ i, V i * ux k i +
        (P / (gamma - 1) + 1 / 2 * R * normSq V + P) * ∑ k, ux k k := by
    rw [hSm, totalEnergy_sum', Finset.mul_sum, Finset.mul_sum, Finset.mul_sum, Finset.mul_sum, ← Finset.sum_add_distrib,
      ← Finset.sum_add_distrib, ← Finset.sum_add_distrib]
    refine Finset.sum_congr rfl fun k _ => ?_
    rw [Euler.totalEnergy_mkState]
    ring
  have hcomm : ∑ k, V k * ∑ i, V i * ux k i = ∑ i, V i * ∑ k, V k * ux k i := by
    simp only [Finset.mul_sum]
    rw [Finset.sum_comm]
    exact Finset.sum_congr rfl fun i _ => Finset.sum_congr rfl fun k _ => by ring
  have e1 : P / (gamma - 1) + P = gamma * P / (gamma - 1) := by field_simp; ring
  have hmom : (∀ i, R * (ut i + ∑ k, V k * ux k i) + px i = 0) →
      R * (∑ i, V i * ut i + ∑ i, V i * ∑ k, V k * ux k i) + ∑ i, V i * px i = 0 := by
    intro mom
    rw [← Finset.sum_add_distrib, Finset.mul_sum, ← Finset.sum_add_distrib]
    refine Finset.sum_eq_zero fun i _ => ?_
    linear_combination V i * mom i
  constructor
  · intro h
    have k1 := congrArg Euler.density h
    have k2 := fun i => congrFun (congrArg Euler.momentum h) i
    have k3 := congrArg Euler.totalEnergy h
    rw [Euler.density_add, Euler.density_mkState, c1] at k1
    rw [Euler.totalEnergy_add, Euler.totalEnergy_mkState, c3] at k3
    have k1' : rt + (∑ k, (V k * rx k) + R * ∑ k, ux k k) = 0 := k1
    have mom : ∀ i, R * (ut i + ∑ k, V k * ux k i) + px i = 0 := by
      intro i
      have := k2 i
      rw [Euler.momentum_add, Pi.add_apply, Euler.momentum_mkState, c2] at this
      have this' : rt * V i + R * ut i + (V i * ∑ k, (V k * rx k) + R * ∑ k, V k * ux k i + R * V i * ∑ k, ux k k + px i) =
        0 := this
      linear_combination this' - V i * k1'
    refine ⟨k1', mom, ?_⟩
    have k3' : pt / (gamma - 1) + 1 / 2 * rt * normSq V + R * ∑ i, V i * ut i +
      ((1 / (gamma - 1) + 1) * ∑ k, V k * px k + 1 / 2 * normSq V * ∑ k, V k * rx k + R * ∑ k, V k * ∑ i, V i * ux k i +
        (P / (gamma - 1) + 1 / 2 * R * normSq V + P) * ∑ k, ux k k) = 0 := k3
    rw [hcomm] at k3'
    have hm := hmom mom
    have key : 1 / (gamma - 1) * (pt + (∑ k, V k * px k + gamma * P * ∑ k, ux k k)) = 0 := by
      linear_combination k3' - 1 / 2 * normSq V * k1' - hm - (∑ k, ux k k) * e1
    exact (mul_eq_zero.1 key).resolve_left (one_div_ne_zero h1)
  · rintro ⟨mass, mom, en⟩
    refine Euler.state_ext ?_ ?_ ?_
    · rw [Euler.density_add, Euler.density_mkState, c1]
      exact mass
    · rw [Euler.momentum_add, Euler.momentum_mkState]
      funext i
      show rt * V i + R * ut i + _ = Euler.momentum 0 i
      rw [c2]
      show _ = (0 : ℝ)
      linear_combination V i * mass + mom i
    · rw [Euler.totalEnergy_add, Euler.totalEnergy_mkState, c3, hcomm]
      show _ = (0 : ℝ)
      linear_combination (1 / (gamma - 1)) * en + 1 / 2 * normSq V * mass + hmom mom + (∑ k, ux k k) * e1

/-- A classical solution in primitive variables is one in conserved variables. -/
theorem solvesEuler_of_primitive {gamma : ℝ} (hg : gamma ≠ 1) (r p : Vec d → ℝ → ℝ) (u : Vec d → ℝ → Vec d)
    (x : Vec d) (t : ℝ) {rt pt : ℝ} {rx px ut : Vec d} {ux : Fin d → Vec d} (h0 : r x t ≠ 0)
    (hrt : HasDerivAt (fun s => r x s) rt t) (hut : ∀ i, HasDerivAt (fun s => u x s i) (ut i) t)
    (hpt : HasDerivAt (fun s => p x s) pt t)
    (hrx : ∀ k, HasDerivAt (fun s => r (Function.update x k s) t) (rx k) (x k))
    (hux : ∀ k i, HasDerivAt (fun s => u (Function.update x k s) t i) (ux k i) (x k))
    (hpx : ∀ k, HasDerivAt (fun s => p (Function.update x k s) t) (px k) (x k))
    (mass : rt + ∑ k, (u x t k * rx k + r x t * ux k k) = 0)
    (mom : ∀ i, r x t * (ut i + ∑ k, u x t k * ux k i) + px i = 0)
    (en : pt + ∑ k, (u x t k * px k + gamma * p x t * ux k k) = 0) :
    SolvesEuler gamma (fun x t => gasConserved gamma (r x t) (u x t) (p x t)) x t :=
  (solvesEuler_iff_primitive hg r p u x t h0 hrt hut hpt hrx hux hpx).2 ⟨mass, mom, en⟩

/-- The derivative of a coordinate in a coordinate direction. -/
theorem hasDerivAt_coord (x : Vec d) (k j : Fin d) :
    HasDerivAt (fun s => Function.update x k s j) (if j = k then 1 else 0) (x k) := by
  by_cases h : j = k
  · subst h
    simpa using hasDerivAt_id' (x j)
  · simpa [h] using hasDerivAt_const (x k) (x j)

end Spec
end Ryujin
