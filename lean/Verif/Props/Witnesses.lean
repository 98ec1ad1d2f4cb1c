import Verif.Props.EquationOfState
import Verif.Props.PrepareState
import Verif.Props.SparseMatrix
import Verif.Props.ErrorNorms
import Verif.Props.Postprocessor
import Verif.Props.ShallowWaterLimiter
import Verif.Props.NavierStokesRun

/-!
# Further concrete cases that meet the hypotheses of the theorems

Cases with the constants the code ships with, and cases with non-trivial boundary maps, matrices and meshes.
-/

namespace Ryujin

/-! ### C51, C62, C63: equations of state with the constants set by the constructors -/

namespace Eos

/-- Air at standard conditions with the default polytropic gas. -/
example : InverseAt PolytropicGas.construct.interface 1.2 ∧
    IsSoundSpeed PolytropicGas.construct.interface.pressure 1.2 2e5
      (PolytropicGas.construct.interface.speedOfSound 1.2 2e5) :=
  ⟨C51_polytropic _ _ (by norm_num) (by norm_num [PolytropicGas.construct]),
    C62_polytropic _ _ _ (by norm_num) (by norm_num) (by norm_num [PolytropicGas.construct])⟩

/-- Liquid water as a Noble-Abel stiffened gas. -/
example : let s := NobleAbelStiffenedGas.construct.parse 1.19 3610 6.61e-4 (-1177788) 7.028e8
    InverseAt s.interface 1000 ∧
    IsSoundSpeed s.interface.pressure 1000 112000 (s.interface.speedOfSound 1000 112000) := by
  refine ⟨C51_nasg _ _ (by norm_num) ?_ ?_, C62_nasg _ _ _ (by norm_num) ?_ ?_ ?_⟩ <;>
    norm_num [NobleAbelStiffenedGas.construct, NobleAbelStiffenedGas.parse]

/-- A van der Waals fluid. -/
example : let s := VanDerWaals.construct.parse 1.4 1 (1 / 3) 0.4
    InverseAt s.interface 1 ∧ IsSoundSpeed s.interface.pressure 1 2 (s.interface.speedOfSound 1 2) := by
  refine ⟨C51_vdw _ _ (by norm_num) ?_ ?_, C62_vdw _ _ _ (by norm_num) ?_ ?_⟩ <;>
    norm_num [VanDerWaals.construct, VanDerWaals.parse]

/-- The explosive set by the default constructor of the JWL equation of state, at its reference density. -/
example : InverseAt JonesWilkinsLee.construct.interface 1895 ∧ ∀ e,
    JonesWilkinsLee.construct.interface.pressure 1895 e =
      6.3207e13 * Real.exp (-11.3 * 1895 / 1895) + -4.472e9 * Real.exp (-1.13 * 1895 / 1895) +
        0.8938 * 1895 * (2487 / 1895) * JonesWilkinsLee.construct.interface.temperature 1895 e := by
  refine ⟨C51_jwl_partial _ _ (by norm_num) ?_ rfl, fun e => C63_jwl _ _ _ (by norm_num) ?_ ?_ ?_ ?_⟩ <;>
    norm_num [JonesWilkinsLee.construct]

/-- With a nonzero offset `q_0` neither the inverse property nor the speed of sound survives. -/
example : let s : JonesWilkinsLee := ⟨0, 0, 4, 1, 1 / 2, 1, 1, 1⟩
    (∀ p, s.interface.pressure 2 (s.interface.specificInternalEnergy 2 p) ≠ p) ∧
    ¬ IsSoundSpeed s.interface.pressure 2 3 (s.interface.speedOfSound 2 3) :=
  ⟨(C51_jwl_violation _ _ (by norm_num) (by norm_num) (by norm_num)).1,
    C62_jwl_offset_violation _ _ _ (by norm_num) (by norm_num) (by norm_num) (by norm_num) (by norm_num) rfl rfl
      (by norm_num) (by norm_num)⟩

/-- The thermal equation of state with the gas constant and ratio of specific heats left at their defaults. -/
example : PolytropicGas.construct.interface.pressure 1.2 2e5 =
    1.2 * PolytropicGas.construct.R * PolytropicGas.construct.interface.temperature 1.2 2e5 :=
  (C63_thermal_partial 1.2 2e5 (by norm_num)).1 _ (by norm_num [PolytropicGas.construct])
    (by norm_num [PolytropicGas.construct]) rfl

end Eos

/-! ### C28: vectorised access to a matrix -/

namespace Sparse

/-- Writing the entries of rows 2 and 3 of the ring at once, with a vector of two lanes, and reading row 3 and row 5. -/
example (data : ℕ → ℕ) : ∃ S, reinit ringPattern 2 4 5 (fun _ => 77) = some S ∧
    S.get 2 3 (S.writeVec 2 3 (fun d k => 10 * d + k) 2 1 data) 3 1 2 = 21 ∧
    S.get 2 3 (S.writeVec 2 3 (fun d k => 10 * d + k) 2 1 data) 5 1 2 = S.get 2 3 data 5 1 2 := by
  obtain ⟨S, hS⟩ := (C28_reinit_some_iff ringPattern 2 4 5 fun _ => 77).2 (by decide)
  have h := C28_vectorised_write ringPattern_wf hS (nc := 3) (row := 2) (pos := 1) (by decide) (by decide)
    (by unfold IsEntry; decide) (fun d k => 10 * d + k) data
  refine ⟨S, hS, ?_, ?_⟩
  · simpa using h.1 2 (by decide) 1 (by decide)
  · have := h.2 5 1 2 (by unfold IsEntry; decide) (by decide) (by
      intro k hk e
      have := congrArg Prod.fst e
      simp at this
      omega)
    simpa using this

end Sparse

/-! ### C88: a channel with an inflow, a corner of two walls and an interior node -/

namespace Prepare

/-- Boundary map of three nodes: node 0 has prescribed data, node 1 is a corner of two slip walls, node 2 is interior. -/
def channelMap : List (Entry (Fin 3) Euler.Boundary 2) :=
  [⟨0, ![-1, 0], .dirichlet, 0⟩, ⟨1, ![1, 0], .slip, 0⟩, ⟨1, ![0, 1], .slip, 0⟩]

example (p : Euler.Params) : ∃ V : Fin 3 → Euler.State 2,
    boundaryPass (euler p) (fun _ _ => Euler.mkState 2 ![1, 0] 5) 0 channelMap
      (fun _ => Euler.mkState 1 ![1, 1] 3) = some V ∧
    V 0 = Euler.mkState 2 ![1, 0] 5 ∧ Euler.momentum (V 1) = 0 ∧ Euler.density (V 1) = 1 ∧
    V 2 = Euler.mkState 1 ![1, 1] 3 ∧ ∀ i, Euler.Admissible (V i) := by
  obtain ⟨V, hV, hw, hd⟩ := C88_euler p (fun _ _ => Euler.mkState 2 ![1, 0] 5) 0 channelMap
    (fun _ => Euler.mkState 1 ![1, 1] 3)
  have h1 := hw 1 (by
    have : entriesAt channelMap 1 = [⟨1, ![1, 0], .slip, 0⟩, ⟨1, ![0, 1], .slip, 0⟩] := by
      simp [entriesAt, channelMap]
    rw [this]
    refine ⟨?_, ?_, ?_⟩
    · intro e he; simp at he; rcases he with rfl | rfl <;> simp
    · intro e he; simp at he; rcases he with rfl | rfl <;> simp [normSq]
    · intro e he e' he'
      simp at he he'
      rcases he with rfl | rfl <;> rcases he' with rfl | rfl <;> simp [dot])
  refine ⟨V, hV, ?_, ?_, ?_, ?_, ?_⟩
  · exact hd 0 [] ⟨0, ![-1, 0], .dirichlet, 0⟩ (by simp [entriesAt, channelMap]) rfl
  · have a := h1.1 ⟨1, ![1, 0], .slip, 0⟩ (by simp [channelMap]) rfl rfl
    have b := h1.1 ⟨1, ![0, 1], .slip, 0⟩ (by simp [channelMap]) rfl rfl
    funext k
    fin_cases k
    · simpa [dot] using a
    · simpa [dot] using b
  · rw [h1.2.2.1]; simp
  · exact C88_interior _ _ _ _ _ _ hV 2 (by intro e he h2; simp [channelMap] at he; rcases he with rfl | rfl | rfl <;> simp at h2)
  · refine C88_euler_admissible p _ 0 channelMap _ V hV ?_ ?_ ?_ ?_
    · intro e he h; simp [channelMap] at he; rcases he with rfl | rfl | rfl <;> simp [normSq] at h ⊢
    · intro e he h
      constructor <;> norm_num [Euler.internalEnergy, normSq, Fin.sum_univ_two]
    · intro e he h; simp [channelMap] at he; rcases he with rfl | rfl | rfl <;> simp at h
    · intro i
      constructor <;> norm_num [Euler.internalEnergy, normSq, Fin.sum_univ_two]

end Prepare

/-! ### C101: normalised errors on one cell -/

namespace ErrorNorms

/-- One rank that owns one linear cell, an analytic solution equal to one and a computed density equal to three: all three
normalised errors are defined. -/
example : let ranks : List (Rank 2 (Fin 1 → Fin 3)) := [⟨[0, 1], [(linearCell, true)]⟩]
    ∃ a b c, computeError ranks (fun _ => none) ["rho", "m", "E"] ["rho"] true (fun _ _ => 3) (fun _ _ => 1) =
      .ok ⟨some a, some b, some c⟩ := by
  intro ranks
  have hJ : ∀ q, 0 < linearCell.JxW q := fun q => mul_pos two_pos (Finset.prod_pos fun d _ => gaussWeight_pos _)
  have hp : Partition ranks [0, 1] [linearCell] := ⟨by simp [ranks], by simp [ranks]⟩
  obtain ⟨n1, n2, n3⟩ := C101_norms hp (by intro K hK q; simp at hK; subst hK; exact (hJ q).le) (fun _ => (1 : ℝ))
  have he : ∀ q, linearCell.eval (fun _ => 1) q = 1 := by
    intro q
    simp [Cell.eval, linearCell, Fin.sum_univ_two]
  have hs : 0 < ∑ q, linearCell.JxW q := Finset.sum_pos (fun q _ => hJ q) Finset.univ_nonempty
  refine ⟨_, _, _, C101_normalized ranks _ _ _ _ _ (by simp) (fun q _ => ?_) (fun q _ => ?_) (fun q _ => ?_)⟩
  · have := n1.1 0 (by simp)
    simp only [abs_one] at this
    exact (lt_of_lt_of_le one_pos this).ne'
  · rw [n2]
    simp only [integralAbs, List.map_cons, List.map_nil, List.sum_cons, List.sum_nil, he, abs_one, one_mul, add_zero]
    exact hs.ne'
  · rw [n3]
    simp only [integralSq, List.map_cons, List.map_nil, List.sum_cons, List.sum_nil, he, one_pow, one_mul, add_zero]
    exact (Real.sqrt_pos.2 hs).ne'


end ErrorNorms

/-! ### C45: schlieren on two ranks with one hanging node -/

namespace Postprocessor

/-- Bounds over two ranks that share a degree of freedom. -/
example : (∀ i : Fin 3, |(![4, -8, 6] : Fin 3 → ℝ) i| ≤ (bounds ⟨10, true, 1e-16, 1e300⟩ [[0, 1], [1, 2]] ![4, -8, 6]).1) ∧
    (∃ i : Fin 3, |(![4, -8, 6] : Fin 3 → ℝ) i| = (bounds ⟨10, true, 1e-16, 1e300⟩ [[0, 1], [1, 2]] ![4, -8, 6]).2) := by
  have h := C45_bounds ⟨10, true, 1e-16, 1e300⟩ [[0, 1], [1, 2]] (![4, -8, 6] : Fin 3 → ℝ)
    (by intro i; fin_cases i <;> simp) (by norm_num)
    (by intro i; fin_cases i <;> norm_num [abs_le])
  exact ⟨h.1, h.2.2.2⟩

/-- Default parameters, a constrained third degree of freedom. -/
example (i : Fin 3) : |(compute ⟨10, true, 1e-16, 1e300⟩ [[0, 1, 2]] ![none, none, some [(0, 1 / 2), (1, 1 / 2)]]
    ![some 4, some 8, none] (initial 3)).quantity i| < 1 := by
  refine C45_output_range _ _ _ _ _ (by norm_num) (by norm_num) ?_ i
  intro j line hj
  fin_cases j
  · simp at hj
  · simp at hj
  · have : line = [(0, 1 / 2), (1, 1 / 2)] := by
      have h2 : some [((0 : Fin 3), (1 / 2 : ℝ)), (1, 1 / 2)] = some line := hj
      exact (Option.some.inj h2).symm
    subst this
    norm_num

end Postprocessor

/-! ### C02, C35, C37, C39, C56: shallow water with gravity one -/

namespace ShallowWater

/-- Gravity one, no friction, positive cut-off depth. -/
noncomputable def pond : Params := ⟨1, 0, 1, 1, 1, 1, 1e-16, 1e-300⟩

theorem pond_cutoff : cutoffSharp pond = 1e-16 := by norm_num [cutoffSharp, pond]

/-- Two columns of depth one move towards each other with speed `√(3/4)`: the depth between the two waves is two. -/
example : -riemann pond (mkState 1 ![√(3 / 4)] : State 1) (mkState 1 ![-√(3 / 4)]) ![1] ≤
    Spec.swLeftSpeed 1 1 (√(3 / 4)) 2 ∧
    Spec.swRightSpeed 1 1 (-√(3 / 4)) 2 ≤ riemann pond (mkState 1 ![√(3 / 4)] : State 1) (mkState 1 ![-√(3 / 4)]) ![1] := by
  have h : Spec.IsStarDepth 1 1 (√(3 / 4)) 1 (-√(3 / 4)) 2 := by
    refine ⟨by norm_num, ?_⟩
    norm_num [Spec.swWave]
  have := C56_sw_max_wavespeed pond (mkState 1 ![√(3 / 4)] : State 1) (mkState 1 ![-√(3 / 4)]) ![1]
    (by norm_num [pond]) (by norm_num) (by norm_num) (by rw [pond_cutoff]; norm_num) (by rw [pond_cutoff]; norm_num) 2
    (by simpa [dot, pond] using h)
  simpa [dot, pond] using this

/-- Still water on both sides: prescribing either characteristic is possible. -/
example (c : Euler.Characteristic) :
    0 < waterDepth (prescribeRiemannCharacteristic c pond (mkState 1 ![0, 0] : State 2) (mkState 4 ![0, 0]) ![3 / 5, 4 / 5]) := by
  refine (C37_sw_riemann_characteristic c pond (mkState 1 ![0, 0] : State 2) (mkState 4 ![0, 0]) ![3 / 5, 4 / 5]
    (by norm_num [normSq]) (by norm_num [pond]) ⟨by norm_num, by rw [pond_cutoff]; norm_num⟩
    ⟨by norm_num, by rw [pond_cutoff]; norm_num⟩ ?_).1
  have h4 : √(4 : ℝ) = 2 := by rw [show (4 : ℝ) = 2 ^ 2 by norm_num]; exact Real.sqrt_sq (by norm_num)
  cases c <;> norm_num [riemannInvariant, normalVelocity, dot, Fin.sum_univ_two, speedOfSound, pond, waterDepthSharp,
    inverseWaterDepthSharp, h4]

/-- Conserved and primitive states of a wet node. -/
example : toPrimitiveState pond (fromPrimitiveState (mkState 2 ![3, 4] : State 2)) = mkState 2 ![3, 4] :=
  (C35_sw_roundtrip_partial pond _ (by norm_num) (by rw [pond_cutoff]; norm_num)).1

/-- Friction slows a stream down and keeps its depth. -/
example : waterDepth ((mkState 2 ![3] : State 1) + (1 / 2 : ℝ) • nodalSource { pond with manning_friction_coefficient := 1 / 10 }
    (mkState 2 ![3]) (1 / 2)) = 2 := by
  rw [(C39_sw_friction _ (mkState 2 ![3] : State 1) (1 / 2) (by norm_num) (by norm_num [pond])
    (lt_of_lt_of_le (by norm_num : (0 : ℝ) < 2) (by simp [waterDepthSharp]))).1]
  norm_num

/-- A high-order correction that stays within all bounds is not limited. -/
example : (limit pond ⟨1e-10, 1, true, true⟩ (fun _ : Fin 4 => ⟨1 / 2, 2, 1e-10, 1, 1⟩)
    (fun _ => (mkState 1 ![1 / 2] : State 1)) (fun _ => mkState (1 / 4) ![1 / 4]) (fun _ => 0) (fun _ => 1)).1 3 = 1 := by
  refine C02_sw_limit_no_needless_limiting_partial _ _ _ _ _ _ _ 3 (Or.inl rfl) (by norm_num) (by norm_num [pond])
    (by norm_num) (by norm_num) ?_ ?_ ?_ ?_ (fun _ => ?_) (fun _ => ?_) <;> norm_num [normSq]

end ShallowWater

/-! ### C116: a viscous gas in a tube closed by slip walls -/

namespace NavierStokes

open Hyp Integrator Euler

/-- The viscous module of a tube with two cells whose ends are slip walls. -/
noncomputable def tubeConfig (data : Vec 1 → ℝ → State 1) : Config (Fin 3) (Fin 2) 1 :=
  { barConfig False (entries data tube) with m := interval.lumped }

theorem tube_compatible (data : Vec 1 → ℝ → State 1) : SlipCompatible (entries data tube) := by
  refine ⟨fun e he _ => ?_, fun i _ => ?_⟩
  · simp only [entries, tube, List.map_cons, List.map_nil, List.mem_cons, List.not_mem_nil, or_false] at he
    rcases he with rfl | rfl <;> simp [dot]
  · simp only [entries, tube, List.map_cons, List.map_nil, List.pairwise_cons, List.mem_cons, List.not_mem_nil, or_false,
      forall_eq, false_implies, implies_true, List.Pairwise.nil, and_true]
    intro h0 h2
    exact absurd (h0.trans h2.symm) (by decide)

/-- Mass and energy of any viscous gas in the tube stay the same over any number of steps. -/
example (m m' : Mem (Fin 3 → State 1) Unit) (lo : ℕ → Leftover (Fin 3) (State 1)) (garbage : ℕ → Fin 3 → State 1)
    (data : Vec 1 → ℝ → State 1) (rec : Recovery) (ok : Ctx → (Fin 3 → State 1) → Prop)
    (h : Run (modules air ringLp 1000 1000 ringRiem (fun _ _ _ => 1) ringLim interval demoPar
      (passBc (Prepare.euler air) data tube) lo garbage (tubeConfig data) fun _ => idealSolvers (barFe False) true)
      .imex_11 rec 1 1 ok m m') :
    ∑ i, interval.lumped i * totalEnergy ((m' .old).U i) = ∑ i, interval.lumped i * totalEnergy ((m .old).U i) := by
  refine (C116_walls_partial air ringLp 1000 1000 ringRiem (fun _ _ _ => 1) ringLim interval interval_wf interval_symmetric
    interval_act (fun _ _ => .of_one_rank interval_wf interval_one_rank) interval_row data tube (tube_wall _) ?_ demoPar lo
    garbage (tubeConfig data) (barFe_conforming False) (fun i h => h.1) rfl rfl (tube_compatible data) _
    (fun _ => idealSolvers_exact _ _) .imex_11 (by simp [stageFreeParabolic]) rec 1 1 ok m m' h).2
  intro j v hv
  by_cases hj : j = 1
  · subst hj; rw [interval_normal]; simp [dot]
  · rw [tube_momentum j v hv hj]; simp [dot]

end NavierStokes

end Ryujin
