import Verif.Model.ElementaryStates
import Verif.Props.LakeAtRest
import Mathlib.Algebra.BigOperators.Fin
import Mathlib.Tactic.FieldSimp
import Mathlib.Tactic.Linarith
import Mathlib.Analysis.SpecialFunctions.Trigonometric.DerivHyp
import Mathlib.Analysis.Calculus.Deriv.Inv
import Mathlib.Analysis.Calculus.Deriv.Comp

/-!
# C95 – elementary initial configurations

Specification: `Gas p U rho v pr` says that the conserved state `U` of the Euler equations describes a gas of density
`rho`, velocity `v` and pressure `pr`; `RealGas eos U rho v pr` says the same for an arbitrary equation of state `eos`,
`Water U h v` for the shallow water equations.
-/

namespace Ryujin

namespace InitialStates

open Euler (State mkState density momentum totalEnergy)
open GeoTiff (Outcome)

variable {d : ℕ}

/-- The vector with the first component `a`. -/
def along (a : ℝ) : Vec (d + 1) := fun k => if k = 0 then a else 0

/-- A gas with density `rho`, velocity `v` and pressure `pr`. -/
structure Gas (p : Euler.Params) (U : State d) (rho : ℝ) (v : Vec d) (pr : ℝ) : Prop where
  density : Euler.density U = rho
  momentum : Euler.momentum U = rho • v
  pressure : Euler.pressure p U = pr

/-- A gas with density `rho`, velocity `v` and the specific internal energy which the equation of state assigns to the density
and the pressure `pr`. -/
structure RealGas (eos : ℝ → ℝ → ℝ) (U : State d) (rho : ℝ) (v : Vec d) (pr : ℝ) : Prop where
  density : Euler.density U = rho
  momentum : Euler.momentum U = rho • v
  energy : Euler.internalEnergy U = rho * eos rho pr

/-- A conversion of one-dimensional primitive states is correct for the description `Is` of a state, if the velocity points in
the first direction. -/
def Correct1 (Is : State (d + 1) → ℝ → Vec (d + 1) → ℝ → Prop) (convert : State 1 → State (d + 1)) : Prop :=
  ∀ s : Primitive, s.rho ≠ 0 → Is (convert s.state) s.rho (along s.u) s.p

/-- The same for states with two components of the velocity. -/
def Correct2 (Is : State (d + 2) → ℝ → Vec (d + 2) → ℝ → Prop) (convert : State 2 → State (d + 2)) : Prop :=
  ∀ rho u v p, rho ≠ 0 → Is (convert (mkState rho ![u, v] p)) rho (fun k => if k = 0 then u else if k = 1 then v else 0) p

/-- The same for states with all components of the velocity. -/
def CorrectFull (Is : State d → ℝ → Vec d → ℝ → Prop) (convert : State d → State d) : Prop :=
  ∀ rho v p, rho ≠ 0 → Is (convert (mkState rho v p)) rho v p

theorem energy_identity (rho e : ℝ) (v : Vec d) :
    e + (1 / 2) * rho * dot v v - (1 / 2) * normSq (fun i => v i * rho) * (1 / rho) = e := by
  have : normSq (fun i => v i * rho) = rho * rho * dot v v := by
    simp only [normSq, dot, Finset.mul_sum]
    exact Finset.sum_congr rfl fun i _ => by ring
  rw [this]
  field_simp
  ring

/-- **C95 (conversion).** `from_primitive_state` of the Euler equations yields a gas with the given density, velocity and
pressure. -/
theorem C95_euler_primitive (p : Euler.Params) (hg : p.gamma ≠ 1) :
    CorrectFull (Gas p) (Euler.fromPrimitiveState p : State d → State d) := by
  intro rho v pr hr
  have hg' : p.gamma - 1 ≠ 0 := sub_ne_zero.2 hg
  have e : ∀ k : Fin d, mkState rho v pr k.castSucc.succ = v k := fun k => congrFun (Euler.momentum_mkState rho v pr) k
  have e2 : Euler.fromPrimitiveState p (mkState rho v pr)
      = mkState rho (fun i => v i * rho) (pr / (p.gamma - 1) + (1 / 2) * rho * dot v v) := by
    simp only [Euler.fromPrimitiveState, Euler.density_mkState, Euler.momentum_mkState, Euler.totalEnergy_mkState, e]
  rw [e2]
  refine ⟨Euler.density_mkState _ _ _, ?_, ?_⟩
  · rw [Euler.momentum_mkState]; funext k; simp [mul_comm]
  · rw [Euler.pressure, Euler.internalEnergy, Euler.density_mkState, Euler.momentum_mkState, Euler.totalEnergy_mkState,
      energy_identity]
    field_simp

theorem expand1 (s : Primitive) : (Euler.expandState s.state : State (d + 1)) = mkState s.rho (along s.u) s.p := by
  unfold Euler.expandState Primitive.state
  rw [Euler.density_mkState, Euler.momentum_mkState, Euler.totalEnergy_mkState]
  congr 1
  funext k
  unfold along
  by_cases hk : k = 0
  · subst hk; simp
  · have : ¬k.1 < 1 := fun h1 => hk (Fin.ext (by rw [Fin.val_zero]; omega))
    rw [dif_neg this, if_neg hk]

theorem expand2 (rho u v p : ℝ) : (Euler.expandState (mkState rho ![u, v] p : State 2) : State (d + 2))
    = mkState rho (fun k => if k = 0 then u else if k = 1 then v else 0) p := by
  unfold Euler.expandState
  rw [Euler.density_mkState, Euler.momentum_mkState, Euler.totalEnergy_mkState]
  congr 1
  funext k
  by_cases hk : k = 0
  · subst hk; simp
  · by_cases hk1 : k = 1
    · subst hk1; simp
    · have : ¬k.1 < 2 := fun h1 => by
        have h0 : k.1 ≠ 0 := fun h => hk (Fin.ext h)
        have h1' : k.1 ≠ 1 := fun h => hk1 (Fin.ext (by rw [h]; simp))
        omega
      rw [dif_neg this, if_neg hk, if_neg hk1]

/-- **C95 (conversion, from one dimension).** -/
theorem C95_euler_initial (p : Euler.Params) (hg : p.gamma ≠ 1) :
    Correct1 (Gas p) (Euler.fromInitialState p : State 1 → State (d + 1)) := by
  intro s hr
  unfold Euler.fromInitialState
  rw [expand1]
  exact C95_euler_primitive p hg _ _ _ hr

/-- **C95 (conversion, from two dimensions).** -/
theorem C95_euler_initial2 (p : Euler.Params) (hg : p.gamma ≠ 1) :
    Correct2 (Gas p) (Euler.fromInitialState p : State 2 → State (d + 2)) := by
  intro rho u v pr hr
  unfold Euler.fromInitialState
  rw [expand2]
  exact C95_euler_primitive p hg _ _ _ hr

theorem aeos_primitive (e : ℝ) (rho : ℝ) (v : Vec d) :
    density (Aeos.fromPrimitiveState (mkState rho v e)) = rho ∧
      momentum (Aeos.fromPrimitiveState (mkState rho v e)) = rho • v ∧
      Euler.internalEnergy (Aeos.fromPrimitiveState (mkState rho v e)) = rho * e := by
  have e2 : Aeos.fromPrimitiveState (mkState rho v e)
      = mkState rho (fun i => v i * rho) (rho * e + (1 / 2) * rho * dot v v) := by
    simp only [Aeos.fromPrimitiveState, Euler.density_mkState, Euler.momentum_mkState, Euler.totalEnergy_mkState]
  rw [e2]
  refine ⟨Euler.density_mkState _ _ _, ?_, ?_⟩
  · rw [Euler.momentum_mkState]; funext k; simp [mul_comm]
  · rw [Euler.internalEnergy, Euler.density_mkState, Euler.momentum_mkState, Euler.totalEnergy_mkState, energy_identity]

/-- **C95 (conversion, arbitrary equation of state).** -/
theorem C95_aeos_initial (eos : ℝ → ℝ → ℝ) :
    Correct1 (RealGas eos) (Aeos.fromInitialState eos : State 1 → State (d + 1)) := by
  intro s _
  unfold Aeos.fromInitialState
  rw [expand1]
  simp only [Euler.density_mkState, Euler.momentum_mkState, Euler.totalEnergy_mkState]
  obtain ⟨h1, h2, h3⟩ := aeos_primitive (eos s.rho s.p) s.rho (along s.u : Vec (d + 1))
  exact ⟨h1, h2, h3⟩

/-- **C95 (conversion, arbitrary equation of state, two components).** -/
theorem C95_aeos_initial2 (eos : ℝ → ℝ → ℝ) :
    Correct2 (RealGas eos) (Aeos.fromInitialState eos : State 2 → State (d + 2)) := by
  intro rho u v p _
  unfold Aeos.fromInitialState
  rw [expand2]
  simp only [Euler.density_mkState, Euler.momentum_mkState, Euler.totalEnergy_mkState]
  obtain ⟨h1, h2, h3⟩ := aeos_primitive (eos rho p) rho (fun k : Fin (d + 2) => if k = 0 then u else if k = 1 then v else 0)
  exact ⟨h1, h2, h3⟩

/-- **C95 (conversion, negation).** The "function" state of the arbitrary equation of state passes density, velocity and
pressure to `from_primitive_state`, which takes the third argument for the specific internal energy: the state has the
internal energy `rho * pressure`, not `rho * e(rho, pressure)`. -/
theorem C95_aeos_function_violation (eos : ℝ → ℝ → ℝ) (density : Vec (d + 1) → ℝ → ℝ)
    (velocity : Fin (d + 1) → Vec (d + 1) → ℝ → ℝ) (pressure : Vec (d + 1) → ℝ → ℝ) (point : Vec (d + 1)) (t : ℝ)
    (hrho : density point t ≠ 0) (hne : eos (density point t) (pressure point t) ≠ pressure point t) :
    Euler.internalEnergy (function Aeos.fromPrimitiveState density velocity pressure point t)
        = density point t * pressure point t ∧
      ¬RealGas eos (function Aeos.fromPrimitiveState density velocity pressure point t) (density point t)
        (fun k => velocity k point t) (pressure point t) := by
  obtain ⟨h1, h2, h3⟩ := aeos_primitive (pressure point t) (density point t) (fun k => velocity k point t)
  refine ⟨h3, fun hh => hne ?_⟩
  have := hh.energy
  rw [show Euler.internalEnergy (function Aeos.fromPrimitiveState density velocity pressure point t) = _ from h3] at this
  exact (mul_left_cancel₀ hrho this).symm

/-- A primitive state holds in the sense `Is`. -/
def Holds (Is : State (d + 1) → ℝ → Vec (d + 1) → ℝ → Prop) (U : State (d + 1)) (s : Primitive) : Prop :=
  Is U s.rho (along s.u) s.p

/-- **C95 (uniform).** The state is the given one at all points and times. -/
theorem C95_uniform {Is : State (d + 1) → ℝ → Vec (d + 1) → ℝ → Prop} {convert} (hc : Correct1 Is convert) (s : Primitive)
    (hs : s.rho ≠ 0) (x : Vec (d + 1)) (t : ℝ) : Holds Is (uniform convert s x t) s := hc s hs

/-- **C95 (contrast).** The left state for nonpositive, the right state for positive first coordinates. -/
theorem C95_contrast {Is : State (d + 1) → ℝ → Vec (d + 1) → ℝ → Prop} {convert} (hc : Correct1 Is convert)
    (left right : Primitive) (hl : left.rho ≠ 0) (hr : right.rho ≠ 0) (x : Vec (d + 1)) (t : ℝ) :
    (x 0 ≤ 0 → Holds Is (contrast convert left right x t) left) ∧
      (0 < x 0 → Holds Is (contrast convert left right x t) right) := by
  refine ⟨fun h => ?_, fun h => ?_⟩ <;> unfold contrast
  · rw [if_neg (not_lt.2 h)]; exact hc _ hl
  · rw [if_pos h]; exact hc _ hr

/-- **C95 (three states).** With nonnegative length of the middle region: left of `left_length`, then a region of the length
`middle_length`, then the rest. -/
theorem C95_three_states {Is : State (d + 1) → ℝ → Vec (d + 1) → ℝ → Prop} {convert} (hc : Correct1 Is convert)
    (left middle right : Primitive) (hl : left.rho ≠ 0) (hm : middle.rho ≠ 0) (hr : right.rho ≠ 0)
    (left_length middle_length : ℝ) (hlen : 0 ≤ middle_length) (x : Vec (d + 1)) (t : ℝ) :
    (x 0 < left_length → Holds Is (threeStateContrast convert left middle right left_length middle_length x t) left) ∧
      (left_length ≤ x 0 → x 0 - left_length < middle_length →
        Holds Is (threeStateContrast convert left middle right left_length middle_length x t) middle) ∧
      (middle_length ≤ x 0 - left_length →
        Holds Is (threeStateContrast convert left middle right left_length middle_length x t) right) := by
  refine ⟨fun h => ?_, fun h h' => ?_, fun h => ?_⟩ <;> unfold threeStateContrast
  · rw [if_neg (not_le.2 (by linarith)), if_neg (not_le.2 h)]; exact hc _ hl
  · rw [if_neg (not_le.2 (by linarith)), if_pos h]; exact hc _ hm
  · rw [if_pos (by linarith : x 0 ≥ left_length + middle_length)]; exact hc _ hr

/-- **C95 (four states).** One state for each quadrant of the first two coordinates. -/
theorem C95_four_states {Is : State (d + 2) → ℝ → Vec (d + 2) → ℝ → Prop} {convert} (hc : Correct2 Is convert)
    (rho u v p : Bool → Bool → ℝ) (hr : ∀ a b, rho a b ≠ 0) (x : Vec (d + 2)) (t : ℝ) :
    ∃ U, fourStateContrast convert (mkState (rho false false) ![u false false, v false false] (p false false))
        (mkState (rho true false) ![u true false, v true false] (p true false))
        (mkState (rho false true) ![u false true, v false true] (p false true))
        (mkState (rho true true) ![u true true, v true true] (p true true)) x t = .ok U ∧
      ∀ is_right is_top : Bool, (is_right = true ↔ 0 ≤ x 0) → (is_top = true ↔ 0 ≤ x 1) →
        Is U (rho is_right is_top)
          (fun k => if k = 0 then u is_right is_top else if k = 1 then v is_right is_top else 0) (p is_right is_top) := by
  unfold fourStateContrast
  rw [dif_neg (by omega)]
  refine ⟨_, rfl, fun r a h0 h1 => ?_⟩
  have e1 : x ⟨1, by omega⟩ = x 1 := rfl
  cases r <;> cases a <;> simp only [Bool.false_eq_true, false_iff, true_iff] at h0 h1 <;>
    simp only [e1, ge_iff_le, h0, h1, if_true, if_false] <;> exact hc _ _ _ _ (hr _ _)

/-- **C95 (radial contrast).** The inner state in the closed ball of the given radius, the outer state outside. -/
theorem C95_radial {Is : State (d + 1) → ℝ → Vec (d + 1) → ℝ → Prop} {convert} (hc : Correct1 Is convert)
    (inner outer : Primitive) (hi : inner.rho ≠ 0) (ho : outer.rho ≠ 0) (radius : ℝ) (hR : 0 ≤ radius) (x : Vec (d + 1))
    (t : ℝ) :
    (∑ k, x k ^ 2 ≤ radius ^ 2 → Holds Is (radialContrast convert inner outer radius x t) inner) ∧
      (radius ^ 2 < ∑ k, x k ^ 2 → Holds Is (radialContrast convert inner outer radius x t) outer) := by
  have hn : vnorm x = Real.sqrt (∑ k, x k ^ 2) := by
    unfold vnorm normSq
    simp_rw [sq]
  refine ⟨fun h => ?_, fun h => ?_⟩ <;> unfold radialContrast
  · rw [if_neg]
    · exact hc _ hi
    · rw [hn, gt_iff_lt, not_lt]
      exact (Real.sqrt_le_left hR).2 h
  · rw [if_pos]
    · exact hc _ ho
    · rw [hn]
      exact Real.lt_sqrt_of_sq_lt h

/-- **C95 (astrophysical jet).** In two or more dimensions: the jet state at points left of (or at) the boundary `x = 0` and
not more than `jet_width` away from the axis, the ambient state everywhere else. -/
theorem C95_astro_jet {Is : State (d + 2) → ℝ → Vec (d + 2) → ℝ → Prop} {convert} (hc : Correct1 Is convert)
    (jet ambient : Primitive) (hj : jet.rho ≠ 0) (ha : ambient.rho ≠ 0) (width : ℝ) (x : Vec (d + 2)) (t : ℝ) :
    ∃ U, astroJet convert jet ambient width x t = .ok U ∧
      (x 0 ≤ 0 → |x 1| ≤ width → Holds Is U jet) ∧ (1 / 10 ^ 12 ≤ x 0 ∨ width < |x 1| → Holds Is U ambient) := by
  unfold astroJet
  by_cases h0 : x 0 < 1 / 10 ^ 12
  · rw [if_pos h0, dif_pos (by omega : 1 < d + 1 + 1)]
    have e1 : x ⟨1, by omega⟩ = x 1 := rfl
    refine ⟨_, rfl, fun _ h2 => ?_, fun h => ?_⟩
    · rw [e1, if_pos h2]; exact hc _ hj
    · rcases h with h | h
      · exact absurd h (not_le.2 h0)
      · rw [e1, if_neg (not_le.2 h)]; exact hc _ ha
  · rw [if_neg h0]
    refine ⟨_, rfl, fun h1 => absurd (lt_of_le_of_lt h1 (by norm_num)) h0, fun _ => hc _ ha⟩

/-- **C95 (astrophysical jet, negation).** In one dimension the second coordinate is accessed nevertheless: undefined
behaviour at all points that are not right of the boundary. -/
theorem C95_astro_jet_1d_violation (convert : State 1 → State 1) (jet ambient : Primitive) (width : ℝ) (x : Vec 1) (t : ℝ)
    (h : x 0 ≤ 0) : astroJet convert jet ambient width x t = .ub := by
  unfold astroJet
  rw [if_pos (lt_of_le_of_lt h (by norm_num)), dif_neg (by omega)]

/-- **C95 (user defined functions).** Density, velocity and pressure are the given functions of position and time. -/
theorem C95_function {Is : State (d + 1) → ℝ → Vec (d + 1) → ℝ → Prop} {convert} (hc : CorrectFull Is convert)
    (density : Vec (d + 1) → ℝ → ℝ) (velocity : Fin (d + 1) → Vec (d + 1) → ℝ → ℝ) (pressure : Vec (d + 1) → ℝ → ℝ)
    (x : Vec (d + 1)) (t : ℝ) (h : density x t ≠ 0) :
    Is (function convert density velocity pressure x t) (density x t) (fun k => velocity k x t) (pressure x t) :=
  hc _ _ _ h

/-- **C95 (admissibility).** A gas with positive density and pressure is an admissible state. -/
theorem C95_euler_admissible (p : Euler.Params) (hg : 1 < p.gamma) (U : State d) (rho : ℝ) (v : Vec d) (pr : ℝ)
    (h : Gas p U rho v pr) (hr : 0 < rho) (hp : 0 < pr) : 0 < Euler.density U ∧ 0 < Euler.internalEnergy U := by
  refine ⟨by rw [h.density]; exact hr, ?_⟩
  have := h.pressure
  unfold Euler.pressure at this
  exact (mul_pos_iff_of_pos_left (by linarith : 0 < p.gamma - 1)).1 (by rw [this]; exact hp)

/-- The Sod shock tube. -/
example : Gas ⟨1.4, 1, 1, 1, 0⟩ (contrast (Euler.fromInitialState ⟨1.4, 1, 1, 1, 0⟩) ⟨1, 0, 1⟩ ⟨0.125, 0, 0.1⟩ ![-0.2, 3] 0)
    1 (along 0 : Vec 2) 1 :=
  (C95_contrast (C95_euler_initial _ (by norm_num)) ⟨1, 0, 1⟩ ⟨0.125, 0, 0.1⟩ (by norm_num) (by norm_num) ![-0.2, 3] 0).1
    (by norm_num)

/-- The colliding blast waves, in the middle. -/
example : Gas ⟨1.4, 1, 1, 1, 0⟩
    (threeStateContrast (Euler.fromInitialState ⟨1.4, 1, 1, 1, 0⟩) ⟨1, 0, 1000⟩ ⟨1, 0, 0.01⟩ ⟨1, 0, 100⟩ 0.1 0.8 ![0.5] 0)
    1 (along 0 : Vec 1) 0.01 :=
  (C95_three_states (C95_euler_initial _ (by norm_num)) ⟨1, 0, 1000⟩ ⟨1, 0, 0.01⟩ ⟨1, 0, 100⟩ (by norm_num) (by norm_num)
    (by norm_num) 0.1 0.8 (by norm_num) ![0.5] 0).2.1 (by norm_num) (by norm_num)

example : RealGas (fun rho p => p / (0.4 * rho))
    (radialContrast (Aeos.fromInitialState fun rho p => p / (0.4 * rho)) ⟨2, 1, 3⟩ ⟨1, 0, 1⟩ 0.5 ![0.3, 0.4] 0)
    2 (along 1 : Vec 2) 3 :=
  (C95_radial (C95_aeos_initial _) ⟨2, 1, 3⟩ ⟨1, 0, 1⟩ (by norm_num) (by norm_num) 0.5 (by norm_num) ![0.3, 0.4] 0).1
    (by simp [Fin.sum_univ_two]; norm_num)

/-- An ideal gas as arbitrary equation of state: the "function" state with density 2 and pressure 1 does not have the
internal energy `1 / (gamma - 1)`. -/
example : Euler.internalEnergy (function Aeos.fromPrimitiveState (fun _ _ => 2) (fun _ _ _ => 3) (fun _ _ => 1) ![0] 0) = 2 ∧
    ¬RealGas (fun rho p => p / (0.4 * rho))
      (function Aeos.fromPrimitiveState (fun _ _ => 2) (fun _ _ _ => 3) (fun _ _ => 1) ![0] 0) 2 (fun _ => 3 : Vec 1) 1 := by
  have := C95_aeos_function_violation (d := 0) (fun rho p => p / (0.4 * rho)) (fun _ _ => 2) (fun _ _ _ => 3) (fun _ _ => 1)
    ![0] 0 (by norm_num) (by norm_num)
  simpa using this

end InitialStates

namespace ShallowWaterStates

open ShallowWater (State mkState waterDepth momentum)
open InitialStates (along)

variable {d : ℕ}

/-- Water of the depth `h` with the velocity `v`. -/
structure Water (U : State d) (h : ℝ) (v : Vec d) : Prop where
  depth : waterDepth U = h
  momentum : ShallowWater.momentum U = h • v

theorem water_primitive (h : ℝ) (v : Vec d) : Water (ShallowWater.fromPrimitiveState (mkState h v)) h v :=
  ⟨rfl, by funext k; exact mul_comm _ _⟩

theorem water_initial (h u : ℝ) : Water (ShallowWater.fromInitialState (pair h u) : State (d + 1)) h (along u) := by
  have : (ShallowWater.expandState (pair h u) : State (d + 1)) = mkState h (along u) := by
    unfold ShallowWater.expandState
    congr 1
    funext k
    unfold along
    by_cases hk : k = 0
    · subst hk; rfl
    · have : ¬k.1 < 1 := fun h1 => hk (Fin.ext (by rw [Fin.val_zero]; omega))
      rw [dif_neg this, if_neg hk]
  unfold ShallowWater.fromInitialState
  rw [this]
  exact water_primitive h _

/-- **C95 (shallow water, uniform and contrast).** -/
theorem C95_sw_contrast (hl ul hr ur : ℝ) (x : Vec (d + 1)) (t : ℝ) :
    Water (uniform hl ul x t) hl (along ul) ∧
      (x 0 ≤ 0 → Water (contrast (pair hl ul) (pair hr ur) x t) hl (along ul)) ∧
      (0 < x 0 → Water (contrast (pair hl ul) (pair hr ur) x t) hr (along ur)) := by
  refine ⟨water_initial _ _, fun h => ?_, fun h => ?_⟩
  · unfold contrast; rw [if_neg (not_lt.2 h)]; exact water_initial _ _
  · unfold contrast; rw [if_pos h]; exact water_initial _ _

/-- **C95 (shallow water, user defined functions).** -/
theorem C95_sw_function (depth : Vec (d + 1) → ℝ → ℝ) (velocity : Fin (d + 1) → Vec (d + 1) → ℝ → ℝ) (x : Vec (d + 1))
    (t : ℝ) : Water (function depth velocity x t) (depth x t) fun k => velocity k x t := water_primitive _ _

theorem planar_water (h m : ℝ) : waterDepth (planar h m : State (d + 1)) = h ∧
    momentum (planar h m : State (d + 1)) = along m := ⟨rfl, rfl⟩

/-- **C95 (Hou's test).** The water is at rest. Left of the dam at `x = -100` the free surface is at the given level, or at
the ground where it is higher; right of the dam it is dry. -/
theorem C95_hou (depth : ℝ) (x : Vec 2) (t : ℝ) :
    momentum (houTest depth x t) = 0 ∧ 0 ≤ waterDepth (houTest depth x t) ∧
      (x 0 < -100 → waterDepth (houTest depth x t) + houBathymetry x = max depth (houBathymetry x)) ∧
      (-100 ≤ x 0 → waterDepth (houTest depth x t) = 0) := by
  have e : ∀ a : ℝ, momentum (planar a 0 : State 2) = 0 := fun a => by
    rw [(planar_water a 0).2]; funext k; simp [along]
  unfold houTest
  by_cases h : x 0 < -100
  · simp only [h, if_true]
    refine ⟨e _, le_max_right _ _, fun _ => ?_, fun h' => absurd h (not_lt.2 h')⟩
    rw [(planar_water _ _).1, max_add, sub_add_cancel, zero_add]
  · simp only [h, if_false]
    exact ⟨e _, le_refl _, fun h' => absurd h' (by simp), fun _ => rfl⟩

/-- **C95 (Hou's test, at rest).** Upstream of the dam the state is a lake at rest. -/
theorem C95_hou_lake {ι : Type} (p : ShallowWater.Params) (X : ι → Vec 2) (hX : ∀ i, X i 0 < -100) (depth t : ℝ)
    (hthin : ∀ i, houBathymetry (X i) < depth → ShallowWater.cutoffMollified p ≤ depth - houBathymetry (X i)) :
    ShallowWater.LakeAtRest p (fun i => houBathymetry (X i)) depth fun i => houTest depth (X i) t := by
  intro i
  obtain ⟨h1, h2, h3, -⟩ := C95_hou depth (X i) t
  refine ⟨h1, ?_⟩
  have h3 := h3 (hX i)
  rcases lt_or_ge (houBathymetry (X i)) depth with h | h
  · rw [max_eq_left h.le] at h3
    exact Or.inl ⟨by linarith, by linarith [hthin i h], h3⟩
  · rw [max_eq_right h] at h3
    exact Or.inr ⟨by linarith, h⟩

/-- **C95 (tank experiments, states).** The flow states `(h, q)` to the left and to the right of the gate. -/
theorem C95_tank (hl ql hr qr : ℝ) (x : Vec 2) (t : ℝ) :
    (x 0 ≤ 0 → waterDepth (tank (pair hl ql) (pair hr qr) x t) = hl ∧
      momentum (tank (pair hl ql) (pair hr qr) x t) = along ql) ∧
    (1 / 10 ^ 8 < x 0 → waterDepth (tank (pair hl ql) (pair hr qr) x t) = hr ∧
      momentum (tank (pair hl ql) (pair hr qr) x t) = along qr) := by
  have key : ∀ h q : ℝ, waterDepth (ShallowWater.expandState (pair h q) : State 2) = h ∧
      momentum (ShallowWater.expandState (pair h q) : State 2) = along q := by
    intro h q
    refine ⟨rfl, ?_⟩
    funext k
    fin_cases k <;> rfl
  refine ⟨fun h => ?_, fun h => ?_⟩ <;> unfold tank
  · simp only
    rw [if_neg (not_lt.2 (h.trans (by norm_num)))]; exact key _ _
  · simp only
    rw [if_pos h]; exact key _ _

/-- **C95 (tank experiments, names).** Exactly the four documented names are accepted. -/
theorem C95_tank_names (s : String) : (parseTankCase s).isSome ↔ s = "G1" ∨ s = "G2" ∨ s = "G3" ∨ s = "none" := by
  unfold parseTankCase
  by_cases h1 : s = "G1"
  · simp [h1]
  · by_cases h2 : s = "G2"
    · simp [h2]
    · by_cases h3 : s = "G3"
      · simp [h3]
      · by_cases h4 : s = "none"
        · simp [h4]
        · simp [h1, h2, h3, h4]

/-- **C95 (tank experiments, obstacle).** The condition describes the rectangle of 16.3 cm × 8 cm with the given center. -/
theorem C95_tank_rectangle (xc x y : ℝ) :
    inRectangle xc x y ↔ |x - xc| ≤ 16.3 / 100 / 2 ∧ |y| ≤ 8 / 100 / 2 := by
  unfold inRectangle
  simp only
  have key : ∀ a b : ℝ, |a + b| + |a - b| ≤ 1 ↔ |a| ≤ 1 / 2 ∧ |b| ≤ 1 / 2 := by
    intro a b
    constructor
    · intro h
      constructor <;> rw [abs_le] <;>
        constructor <;> linarith [le_abs_self (a + b), neg_abs_le (a + b), le_abs_self (a - b), neg_abs_le (a - b)]
    · rintro ⟨ha, hb⟩
      rw [abs_le] at ha hb
      rcases abs_cases (a + b) with h | h <;> rcases abs_cases (a - b) with h' | h' <;> linarith
  have quot : ∀ a b : ℝ, 0 < b → (|a / b| ≤ 1 / 2 ↔ |a| ≤ b / 2) := by
    intro a b hb
    rw [abs_div, abs_of_pos hb, div_le_iff₀ hb]
    constructor <;> intro h <;> linarith
  rw [key, quot _ _ (by norm_num), quot _ _ (by norm_num)]

/-- **C95 (tank experiments, base).** The base of the channel is continuous, level upstream of the gate, and descends
downstream. -/
theorem C95_tank_base : Continuous tankBase ∧ (∀ x ≤ 0, tankBase x = 0) ∧ ∀ x y, 0 ≤ x → x < y → tankBase y < tankBase x := by
  have e : tankBase = fun x => min (-0.00092 * max x 0) (-0.0404 * (x - 326 / 100) - 0.00092 * 326 / 100) := by
    funext x
    unfold tankBase
    split
    · rename_i h
      rw [max_eq_left h.1, min_eq_left (by linarith [h.2])]
    · rename_i h
      split
      · rename_i h'
        rw [max_eq_left (by linarith), min_eq_right (by linarith)]
      · rename_i h'
        have : x < 0 := by
          by_contra hx
          exact h ⟨not_lt.1 hx, not_lt.1 h'⟩
        rw [max_eq_right this.le, mul_zero, min_eq_left (by linarith)]
  refine ⟨by rw [e]; fun_prop, fun x hx => ?_, fun x y hx hxy => ?_⟩
  · rw [e]
    simp only
    rw [max_eq_right hx, mul_zero, min_eq_left (by linarith)]
  · rw [e]
    simp only
    rw [max_eq_left hx, max_eq_left (by linarith)]
    rcases min_cases (-0.00092 * x) (-0.0404 * (x - 326 / 100) - 0.00092 * 326 / 100) with h | h
    · exact lt_of_le_of_lt (min_le_left _ _) (by rw [h.1]; linarith)
    · exact lt_of_le_of_lt (min_le_right _ _) (by rw [h.1]; linarith)

/-- **C95 (tank experiments, bathymetry).** The obstacles stand on the base: they do not lower it, and do not exceed 21 cm. -/
theorem C95_tank_obstacle (c : TankCase) (x : Vec 2) :
    tankBase (x 0) ≤ tankBathymetry c x ∧ tankBathymetry c x ≤ tankBase (x 0) + 21 / 100 := by
  have semi : ∀ a : ℝ, 0 ≤ 7.3 / 100 * Real.sqrt (positivePart (1 - a ^ 2)) ∧
      7.3 / 100 * Real.sqrt (positivePart (1 - a ^ 2)) ≤ 7.3 / 100 := by
    intro a
    have h0 := Real.sqrt_nonneg (positivePart (1 - a ^ 2))
    have h1 : Real.sqrt (positivePart (1 - a ^ 2)) ≤ 1 := by
      rw [Real.sqrt_le_left (by norm_num), positivePart_eq_max]
      exact max_le (by norm_num) (by nlinarith [sq_nonneg a])
    constructor <;> nlinarith
  have lift : ∀ (b a : ℝ), 0 ≤ a → a ≤ 21 / 100 → b ≤ b + a ∧ b + a ≤ b + 21 / 100 := fun b a h1 h2 => ⟨by linarith, by linarith⟩
  cases c with
  | none => exact ⟨le_refl _, by show tankBase (x 0) ≤ _; linarith⟩
  | G1 =>
    refine lift _ _ ?_ ?_ <;> split <;> norm_num
  | G2 =>
    have := semi ((x 0 - (184.5 / 100 + 31 / 2 / 100)) / (31 / 2 / 100))
    refine lift _ _ ?_ ?_ <;> split
    · norm_num
    · exact le_max_right _ _
    · norm_num
    · exact max_le (this.2.trans (by norm_num)) (by norm_num)
  | G3 =>
    refine lift _ _ ?_ ?_ <;> split
    · norm_num
    · split
      · norm_num
      · split <;> norm_num
    · norm_num
    · split
      · norm_num
      · split <;> norm_num

/-- **C95 (circular dam, negation).** The parameter "radius" is compared with the square of the distance: with the default
radius 2.5 the point at the distance 2 lies outside of the dam. -/
theorem C95_circular_dam_violation : ∃ (x : Vec 2), ∑ k, x k ^ 2 < 2.5 ^ 2 ∧
    waterDepth (circularDamBreak 0.5 2.5 2.5 x 0) = 0.5 := by
  refine ⟨![2, 0], by simp [Fin.sum_univ_two]; norm_num, ?_⟩
  unfold circularDamBreak
  have : ¬normSq (![2, 0] : Vec 2) ≤ 2.5 := by
    simp [normSq, Fin.sum_univ_two]; norm_num
  simp only [this, if_false]
  rfl

/-- **C95 (soliton).** For positive depth and nonnegative amplitude the wave has at least the depth of the water at rest, travels
without change of shape with the speed `sqrt (g (amplitude + depth))`, and conserves the mass:
`∂ₜ h + ∂ₓ (h v) = 0` at every point and time. -/
theorem C95_soliton (g D A : ℝ) (hD : 0 < D) (hA : 0 ≤ A) (x : Vec (d + 1)) (t : ℝ) :
    D ≤ waterDepth (soliton g D A x t) ∧
    (∀ s, soliton g D A (x + along (Real.sqrt (g * (A + D)) * s)) (t + s) = soliton g D A x t) ∧
    ∃ a, HasDerivAt (fun s => waterDepth (soliton g D A x s)) (-a) t ∧
      HasDerivAt (fun y => momentum (soliton g D A (x + along y) t) 0) a 0 := by
  set c := Real.sqrt (g * (A + D)) with hc
  set w := Real.sqrt (3 * A / (4 * D * D * (A + D))) with hw
  set P : ℝ → ℝ := fun ξ => D + A * (1 / Real.cosh (w * ξ) ^ 2) with hP
  have hpos : ∀ ξ, D ≤ P ξ := fun ξ => by
    have : 0 ≤ A * (1 / Real.cosh (w * ξ) ^ 2) := mul_nonneg hA (by positivity)
    simp only [hP]; linarith
  have hS : ∀ (y : Vec (d + 1)) (s : ℝ), soliton g D A y s = planar (P (y 0 - c * s)) (c * (P (y 0 - c * s) - D)) := by
    intro y s
    have h0 := hpos (y 0 - c * s)
    have h1 : 0 < P (y 0 - c * s) := lt_of_lt_of_le hD h0
    show planar (max (P (y 0 - c * s)) 0) (max (P (y 0 - c * s)) 0 * (c * (P (y 0 - c * s) - D) / P (y 0 - c * s))) = _
    rw [max_eq_left h1.le]
    congr 1
    field_simp
  have hdP : ∀ ξ, ∃ a, HasDerivAt P a ξ := by
    intro ξ
    have h1 : DifferentiableAt ℝ P ξ := by
      have hcosh : DifferentiableAt ℝ (fun ξ => Real.cosh (w * ξ)) ξ :=
        Real.differentiable_cosh.differentiableAt.comp ξ (by fun_prop)
      simp only [hP]
      refine DifferentiableAt.const_add _ (DifferentiableAt.const_mul ?_ _)
      exact (differentiableAt_const 1).div (hcosh.pow 2) (pow_ne_zero _ (Real.cosh_pos _).ne')
    exact ⟨_, h1.hasDerivAt⟩
  clear_value P
  refine ⟨?_, fun s => ?_, ?_⟩
  · rw [hS, (planar_water _ _).1]; exact hpos _
  · rw [hS, hS]
    have : (x + along (c * s) : Vec (d + 1)) 0 - c * (t + s) = x 0 - c * t := by
      show x 0 + c * s - c * (t + s) = _
      ring
    rw [this]
  · obtain ⟨a, ha⟩ := hdP (x 0 - c * t)
    refine ⟨c * a, ?_, ?_⟩
    · have e : (fun s => waterDepth (soliton g D A x s)) = fun s => P (x 0 - c * s) := by
        funext s; rw [hS]; rfl
      rw [e]
      have h2 : HasDerivAt (fun s => x 0 - c * s) (-c) t := by
        simpa using ((hasDerivAt_id t).const_mul c).const_sub (x 0)
      have h3 : HasDerivAt (fun s => P (x 0 - c * s)) (a * -c) t := HasDerivAt.comp t ha h2
      rw [show -(c * a) = a * -c by ring]
      exact h3
    · have e : (fun y => momentum (soliton g D A (x + along y) t) 0) = fun y => c * (P (x 0 + y - c * t) - D) := by
        funext y
        rw [hS]
        rfl
      rw [e]
      have h2 : HasDerivAt (fun y => x 0 + y - c * t) 1 0 := by
        simpa using ((hasDerivAt_id (0 : ℝ)).const_add (x 0)).sub_const (c * t)
      have h3 : HasDerivAt P a (x 0 + 0 - c * t) := by simpa using ha
      have h4 : HasDerivAt (fun y => P (x 0 + y - c * t)) (a * 1) 0 := HasDerivAt.comp (0 : ℝ) h3 h2
      rw [mul_one] at h4
      exact (h4.sub_const D).const_mul c

/-- The default soliton. -/
example : 2 ≤ waterDepth (soliton 9.81 2 0.5 ![3] 1) := (C95_soliton 9.81 2 0.5 (by norm_num) (by norm_num) ![3] 1).1

example : waterDepth (houTest 35 ![-150, 0] 0) + houBathymetry ![-150, 0] = 35 := by
  have := (C95_hou 35 ![-150, 0] 0).2.2.1 (by norm_num)
  rw [this]
  refine max_eq_left ?_
  unfold houBathymetry
  simp
  norm_num

/-- A corner of the obstacle of the configuration G1. -/
example : tankBathymetry .G1 ![2.05, 0.04] = tankBase 2.05 + 7 / 100 := by
  have : inRectangle (205 / 100 + 16.3 / 2 / 100) 2.05 0.04 := by
    rw [C95_tank_rectangle]
    constructor
    · rw [abs_of_neg (by norm_num)]; norm_num
    · rw [abs_of_pos (by norm_num)]; norm_num
  exact congrArg (tankBase 2.05 + ·) (if_pos this)

end ShallowWaterStates
end Ryujin
