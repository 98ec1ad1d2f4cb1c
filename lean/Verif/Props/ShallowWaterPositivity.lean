import Verif.Props.EulerInvariantDomain
import Verif.Props.ShallowWaterLimiter
import Verif.Props.ShallowWater
import Verif.Props.LakeAtRest

/-!
# C91 – the water depth stays nonnegative
-/

namespace Ryujin
namespace ShallowWater

open Hyp

variable {dim : ℕ} {ι : Type}

/-! ### Star states -/

/-- The regularised velocity along `c`, as the Riemann solver uses it. -/
noncomputable def sharpVelocity (p : Params) (U : State dim) (c : Vec dim) : ℝ :=
  dot (momentum U) c / waterDepthSharp p U

theorem mollified_nonneg (p : Params) (U : State dim) : 0 ≤ inverseWaterDepthMollified p U := by
  unfold inverseWaterDepthMollified
  simp only
  exact div_nonneg (mul_nonneg (by norm_num) (positivePart_nonneg _)) (add_nonneg (mul_self_nonneg _) (mul_self_nonneg _))

/-- The factor by which a star state scales the state. -/
noncomputable def starFactor (p : Params) (U : State dim) (Zl Zr : ℝ) : ℝ :=
  max 0 (waterDepth U + Zl - max Zl Zr) * inverseWaterDepthMollified p U

/-- The factor by which the velocity of the star state is reduced. -/
noncomputable def velocityFactor (p : Params) (U : State dim) (Zl Zr : ℝ) : ℝ :=
  starFactor p U Zl Zr * waterDepthSharp p U / waterDepthSharp p (starState p U Zl Zr)

theorem starState_eq (p : Params) (U : State dim) (Zl Zr : ℝ) : starState p U Zl Zr = starFactor p U Zl Zr • U := rfl

theorem starFactor_nonneg (p : Params) (U : State dim) (Zl Zr : ℝ) : 0 ≤ starFactor p U Zl Zr :=
  mul_nonneg (le_max_left _ _) (mollified_nonneg p U)

/-- The star state of a node with itself is the largest. -/
theorem starFactor_le_self (p : Params) (U : State dim) (Zl Zr : ℝ) : starFactor p U Zl Zr ≤ starFactor p U Zl Zl := by
  refine mul_le_mul_of_nonneg_right (max_le_max le_rfl ?_) (mollified_nonneg p U)
  rw [max_self]
  linarith [le_max_left Zl Zr]

theorem starFactor_le_one (p : Params) (U : State dim) (hU : 0 ≤ waterDepth U) (Zl Zr : ℝ) : starFactor p U Zl Zr ≤ 1 := by
  have h1 : max 0 (waterDepth U + Zl - max Zl Zr) ≤ waterDepth U := by
    apply max_le hU
    linarith [le_max_left Zl Zr]
  refine (mul_le_mul_of_nonneg_right h1 (mollified_nonneg p U)).trans ?_
  unfold inverseWaterDepthMollified
  simp only
  rw [positivePart_of_nonneg hU]
  set h := waterDepth U
  set x := max h (p.reference_water_depth * p.dry_state_relaxation_large * p.eps)
  have hx : h ≤ x := le_max_left _ _
  have hxx : h * h ≤ x * x := mul_self_le_mul_self hU hx
  rcases hU.eq_or_lt with h0 | h0
  · rw [← h0]; simp
  · have : 0 < h * h := mul_pos h0 h0
    rw [← mul_div_assoc, div_le_one (by positivity)]
    linarith

theorem star_nonneg (p : Params) (U : State dim) (hU : 0 ≤ waterDepth U) (Zl Zr : ℝ) :
    0 ≤ waterDepth (starState p U Zl Zr) := by
  rw [starState_eq, waterDepth_smul]
  exact mul_nonneg (starFactor_nonneg p U Zl Zr) hU

theorem star_le_self (p : Params) (U : State dim) (hU : 0 ≤ waterDepth U) (Zl Zr : ℝ) :
    waterDepth (starState p U Zl Zr) ≤ waterDepth (starState p U Zl Zl) := by
  rw [starState_eq, starState_eq, waterDepth_smul, waterDepth_smul]
  exact mul_le_mul_of_nonneg_right (starFactor_le_self p U Zl Zr) hU

theorem star_le (p : Params) (U : State dim) (hU : 0 ≤ waterDepth U) (Zl Zr : ℝ) :
    waterDepth (starState p U Zl Zr) ≤ waterDepth U := by
  rw [starState_eq, waterDepth_smul]
  exact mul_le_of_le_one_left hU (starFactor_le_one p U hU Zl Zr)

theorem sharp_pos {p : Params} (hc : 0 < cutoffSharp p) (V : State dim) : 0 < waterDepthSharp p V := lt_max_of_lt_right hc

theorem sharp_star (p : Params) (U : State dim) (Zl Zr : ℝ) :
    waterDepthSharp p (starState p U Zl Zr) = max (starFactor p U Zl Zr * waterDepth U) (cutoffSharp p) := rfl

theorem velocityFactor_nonneg {p : Params} (hc : 0 < cutoffSharp p) (U : State dim) (Zl Zr : ℝ) :
    0 ≤ velocityFactor p U Zl Zr :=
  div_nonneg (mul_nonneg (starFactor_nonneg p U Zl Zr) (sharp_pos hc U).le) (sharp_pos hc _).le

theorem velocityFactor_le_one {p : Params} (hc : 0 < cutoffSharp p) (U : State dim) (hU : 0 ≤ waterDepth U) (Zl Zr : ℝ) :
    velocityFactor p U Zl Zr ≤ 1 := by
  unfold velocityFactor
  rw [div_le_one (sharp_pos hc _), sharp_star]
  show _ * max (waterDepth U) (cutoffSharp p) ≤ _
  rw [mul_max_of_nonneg _ _ (starFactor_nonneg p U Zl Zr)]
  exact max_le_max le_rfl (mul_le_of_le_one_left hc.le (starFactor_le_one p U hU Zl Zr))

theorem velocityFactor_le_self {p : Params} (hc : 0 < cutoffSharp p) (U : State dim) (Zl Zr : ℝ) :
    velocityFactor p U Zl Zr ≤ velocityFactor p U Zl Zl := by
  unfold velocityFactor
  rw [div_le_div_iff₀ (sharp_pos hc _) (sharp_pos hc _), sharp_star, sharp_star]
  have a0 := starFactor_nonneg p U Zl Zr
  have hle := starFactor_le_self p U Zl Zr
  have a1 := starFactor_nonneg p U Zl Zl
  set a := starFactor p U Zl Zr
  set b := starFactor p U Zl Zl
  have key : a * max (b * waterDepth U) (cutoffSharp p) ≤ b * max (a * waterDepth U) (cutoffSharp p) := by
    rw [mul_max_of_nonneg _ _ a0, mul_max_of_nonneg _ _ a1]
    exact max_le_max (by linarith [mul_left_comm a b (waterDepth U)]) (mul_le_mul_of_nonneg_right hle hc.le)
  have := mul_le_mul_of_nonneg_right key (sharp_pos hc U).le
  linarith

theorem velocityFactor_wet {p : Params} (hc : 0 < cutoffSharp p) (U : State dim) (hU : 0 ≤ waterDepth U) (Zl Zr : ℝ)
    (h : cutoffSharp p ≤ waterDepth (starState p U Zl Zr)) : velocityFactor p U Zl Zr = 1 := by
  have h1 : cutoffSharp p ≤ waterDepth U := h.trans (star_le p U hU Zl Zr)
  rw [starState_eq, waterDepth_smul] at h
  unfold velocityFactor
  rw [sharp_star, max_eq_left h]
  have e : waterDepthSharp p U = waterDepth U := max_eq_left h1
  rw [e]
  exact div_self (hc.trans_le h).ne'

/-- The mass flux of a star state is its depth times the reduced velocity. -/
theorem starFlux {p : Params} (hc : 0 < cutoffSharp p) (U : State dim) (Zl Zr : ℝ) (c : Vec dim) :
    dot (g p (starState p U Zl Zr) 0) c =
      waterDepth (starState p U Zl Zr) * (velocityFactor p U Zl Zr * sharpVelocity p U c) := by
  have h0 := (sharp_pos hc U).ne'
  have h2 := (sharp_pos hc (starState p U Zl Zr)).ne'
  have h1 : dot (g p (starState p U Zl Zr) 0) c = dot (momentum U) c * (starFactor p U Zl Zr *
      (1 / waterDepthSharp p (starState p U Zl Zr)) * waterDepth (starState p U Zl Zr)) := by
    unfold dot
    rw [Finset.sum_mul]
    refine Finset.sum_congr rfl fun k _ => ?_
    simp only [g, Fin.cons_zero, inverseWaterDepthSharp]
    have : momentum (starState p U Zl Zr) k = starFactor p U Zl Zr * momentum U k := rfl
    rw [this]
    ring
  rw [h1]
  unfold sharpVelocity velocityFactor
  field_simp

/-! ### The low-order update -/

/-- What has to hold in a row for its low-order update to be nonnegative.  The diagonal entry of `c_ij` is the outward
normal of a boundary node: no water leaves through it – as in the interior and at walls –, or the CFL number is at most
`2/3`, or it is at most `1` up to a term in the quotient of the two dry-state thresholds (`0.9925` for the default
parameters, where it is `1/100`). -/
def RowOk (p : Params) (M : Mesh ι dim) (cfl : ℝ) (U : ι → State dim) (i : ι) : Prop :=
  dot (momentum (U i)) (M.c i i) ≤ 0 ∨ cfl ≤ 2 / 3 ∨
    0 ≤ cutoffMollified p ∧ cfl * (4 * cutoffMollified p + 3 * cutoffSharp p) ≤ 4 * cutoffMollified p

/-- A time step below the bound of row `i` makes the weights of the neighbours sum to at most the CFL number. -/
theorem weights_le_cfl {P S F B : Type} (D : Description ι P S F B dim) (M : Mesh ι dim) (par : Hyp.Params) (stale old) (i : ι)
    {tau : ℝ} (ht : 0 < par.tiny) (hm : 0 < M.lumped i) (htau0 : 0 ≤ tau)
    (htau : tau ≤ tauRow D M par stale old i) :
    2 * (tau * (M.lumped i)⁻¹) * ((M.nbrs i).map fun j => dOff D M stale old i j).sum ≤ par.cfl := by
  have hd := dDiag_neg D M par stale old i ht
  have hle := dDiag_le D M par stale old i
  have h1 : 2 * (tau * (M.lumped i)⁻¹) * ((M.nbrs i).map (dOff D M stale old i)).sum
      ≤ 2 * (tau * (M.lumped i)⁻¹) * -dDiag D M par stale old i := by
    apply mul_le_mul_of_nonneg_left hle
    positivity
  refine h1.trans ?_
  unfold tauRow at htau
  have hpos : 0 < -2 * dDiag D M par stale old i := by linarith
  rw [le_div_iff₀ hpos] at htau
  calc 2 * (tau * (M.lumped i)⁻¹) * -dDiag D M par stale old i
      = tau * (-2 * dDiag D M par stale old i) * (M.lumped i)⁻¹ := by ring
    _ ≤ par.cfl * M.lumped i * (M.lumped i)⁻¹ := by
        apply mul_le_mul_of_nonneg_right htau; positivity
    _ = par.cfl := by field_simp

/-- The viscosity dominates the speed of the water on both sides. -/
theorem viscosity_dominates [Fintype ι] (q : StepParams) (Z : ι → ℝ)
    (lim : ι → ι → Bounds → State dim → State dim → ℝ × Prop) (M : Mesh ι dim) (hM : M.WellFormed)
    (hskew : ∀ i, ∀ j ∈ M.nbrs i, ¬ (M.boundary i ∧ M.boundary j) → M.c j i = -M.c i j)
    (stale : ι → ι → ℝ) (old : StateVector ι Unit (State dim)) (hc : 0 < cutoffSharp q.p)
    {i j : ι} (hj : j ∈ M.nbrs i) :
    0 ≤ dOff (description q Z lim) M stale old i j ∧
    -sharpVelocity q.p (old.U i) (M.c i j) ≤ dOff (description q Z lim) M stale old i j ∧
    sharpVelocity q.p (old.U j) (M.c i j) ≤ dOff (description q Z lim) M stale old i j := by
  have hs : ∀ V : State dim, 0 < waterDepthSharp q.p V := fun V => lt_max_of_lt_right hc
  have hpos : ∀ i j U V n, 0 ≤ (description q Z lim).riemann old.prec i j U V n := fun i j U V n =>
    (C09_sw_characteristic q.p U V n (hs U) (hs V)).1
  have h0 := C11_viscosity_nonneg (description q Z lim) M hM stale old hpos i j
  refine ⟨h0, ?_⟩
  by_cases hcz : M.c i j = 0
  · have : ∀ V : State dim, sharpVelocity q.p V (M.c i j) = 0 := by
      intro V; rw [hcz]; simp [sharpVelocity, dot]
    rw [this, this, neg_zero]
    exact ⟨h0, h0⟩
  have hv := vnorm_pos hcz
  set n := fun k => M.c i j k / vnorm (M.c i j) with hn
  have hvel : ∀ (V : State dim), dot n (fun k => momentum V k / waterDepthSharp q.p V) =
      sharpVelocity q.p V (M.c i j) / vnorm (M.c i j) := by
    intro V
    unfold sharpVelocity dot
    rw [Finset.sum_div, Finset.sum_div]
    exact Finset.sum_congr rfl fun k _ => by simp only [hn]; ring
  have hneg : ∀ (V : State dim), dot (-n) (fun k => momentum V k / waterDepthSharp q.p V) =
      -(sharpVelocity q.p V (M.c i j) / vnorm (M.c i j)) := by
    intro V
    rw [← hvel V]
    simp [dot, Finset.sum_neg_distrib]
  have a1 := C09_sw_characteristic q.p (old.U i) (old.U j) n (hs _) (hs _)
  have a2 := C09_sw_characteristic q.p (old.U j) (old.U i) (-n) (hs _) (hs _)
  simp only [hvel, hneg] at a1 a2
  have r1 := Real.sqrt_nonneg (q.p.gravity * waterDepthSharp q.p (old.U i))
  have r2 := Real.sqrt_nonneg (q.p.gravity * waterDepthSharp q.p (old.U j))
  have key : ∀ kappa, kappa ≤ riemann q.p (old.U i) (old.U j) n → kappa ≤ riemann q.p (old.U j) (old.U i) (-n) →
      vnorm (M.c i j) * kappa ≤ dOff (description q Z lim) M stale old i j := fun kappa h1 h2 =>
    dOff_ge (description q Z lim) M hM stale old hskew hj h1 fun _ => h2
  have e : ∀ x : ℝ, vnorm (M.c i j) * (x / vnorm (M.c i j)) = x := fun x => by field_simp
  constructor
  · have := key (-(sharpVelocity q.p (old.U i) (M.c i j) / vnorm (M.c i j))) (by linarith [a1.2.1]) (by linarith [a2.2.2])
    rw [mul_neg, e] at this
    exact this
  · have := key (sharpVelocity q.p (old.U j) (M.c i j) / vnorm (M.c i j)) (by linarith [a1.2.2]) (by linarith [a2.2.1])
    rw [e] at this
    exact this

/-- The mass flux between two nodes. -/
theorem depth_fluxDivergence (p : Params) (a b : FluxContribution dim) (c : Vec dim) :
    waterDepth (fluxDivergence p a b c) = -(dot (g p (starState p a.U a.Z b.Z) 0) c + dot (g p (starState p b.U b.Z a.Z) 0) c) := by
  unfold waterDepth fluxDivergence equilibratedStates
  simp only [contract, subDiagonal, Fin.cons_zero, addFlux, dot, Pi.neg_apply, Pi.add_apply]
  rw [← Finset.sum_add_distrib, ← Finset.sum_neg_distrib]
  exact Finset.sum_congr rfl fun k _ => by ring

theorem sum_map_le {l : List ι} {f g : ι → ℝ} (h : ∀ j ∈ l, f j ≤ g j) : (l.map f).sum ≤ (l.map g).sum :=
  List.sum_le_sum h

/-- **C91 (low-order update).** From nonnegative depths the low-order update of a row never yields a negative depth: for
every bathymetry, dry or wet states, friction, and time-step sizes up to the maximal one (`cfl ≤ 1`). -/
theorem C91_sw_low_order_depth [Fintype ι] (q : StepParams) (Z : ι → ℝ)
    (lim : ι → ι → Bounds → State dim → State dim → ℝ × Prop) (M : Mesh ι dim) (hM : M.WellFormed)
    (hskew : ∀ i, ∀ j ∈ M.nbrs i, ¬ (M.boundary i ∧ M.boundary j) → M.c j i = -M.c i j)
    (par : Hyp.Params) (lo : Leftover ι (State dim)) (old : StateVector ι Unit (State dim))
    (stages : List (ℝ × StateVector ι Unit (State dim))) (tau tau_max : ℝ)
    (ht : 0 < par.tiny) (hcfl : par.cfl ≤ 1) (hc : 0 < cutoffSharp q.p)
    (htau0 : 0 ≤ tau) (htau : tau ≤ tauMax (description q Z lim) M par lo.dij old tau_max)
    (i : ι) (hi : M.nbrs i ≠ []) (hm : 0 < M.lumped i) (hrow : M.c i i + ((M.nbrs i).map (M.c i)).sum = 0)
    (hold : ∀ j ∈ i :: M.nbrs i, 0 ≤ waterDepth (old.U j)) (hok : RowOk q.p M par.cfl old.U i) :
    0 ≤ waterDepth (lowOrder (description q Z lim) M (stage4 (description q Z lim) M par lo old stages tau) i) := by
  classical
  set D := description q Z lim with hD
  set X := stage4 D M par lo old stages tau with hX
  have hi0 := hold i (by simp)
  set h := waterDepth (old.U i) with hh
  set kap := tau * (M.lumped i)⁻¹ with hkap
  have hk0 : 0 ≤ kap := mul_nonneg htau0 (inv_nonneg.2 hm.le)
  have hdX : ∀ j ∈ M.nbrs i, X.d i j = dOff D M lo.dij old i j := by
    intro j hj
    have hne : i ≠ j := fun e => hM.irrefl i (e ▸ hj)
    simp only [hX, stage4, hne, if_false]
  have hrowtau : tau ≤ tauRow D M par lo.dij old i :=
    htau.trans ((Finset.fold_min_le _).2 (Or.inr ⟨i, by simp [Mesh.active, hi], le_rfl⟩))
  set d := fun j => dOff D M lo.dij old i j with hd
  set s := fun c : Vec dim => sharpVelocity q.p (old.U i) c with hs
  set S := ((M.nbrs i).map fun j => s (M.c i j)).sum with hS
  have hSsum : S = -s (M.c i i) := by
    have e : ∀ l : List ι, (l.map fun j => s (M.c i j)).sum = s ((l.map (M.c i)).sum) := by
      intro l
      induction l with
      | nil => simp [hs, sharpVelocity, dot]
      | cons a l ih =>
        rw [List.map_cons, List.sum_cons, ih, List.map_cons, List.sum_cons]
        simp only [hs, sharpVelocity, dot_add_right, add_div]
    rw [hS, e, eq_neg_of_add_eq_zero_right hrow]
    simp only [hs, sharpVelocity, dot, Pi.neg_apply, mul_neg, Finset.sum_neg_distrib, neg_div]
  have hw : 2 * kap * ((M.nbrs i).map d).sum ≤ par.cfl := weights_le_cfl D M par lo.dij old i ht hm htau0 hrowtau
  -- depth of the low-order update
  have hdepth : waterDepth (lowOrder D M X i) = h + ((M.columns i).map fun j =>
      kap * waterDepth (fluxIJ D M X i j) + kap * X.d i j * waterDepth (jump D X i j)).sum := by
    unfold lowOrder
    rw [waterDepth_add, waterDepth_add, waterDepth_smul, waterDepth_sum]
    have e : waterDepth (sourceAt D X i) = 0 := rfl
    rw [e, mul_zero, add_zero, List.map_map]
    rfl
  have hflux : ∀ j, waterDepth (fluxIJ D M X i j) =
      -(dot (g q.p (starState q.p (old.U i) (Z i) (Z j)) 0) (M.c i j)
        + dot (g q.p (starState q.p (old.U j) (Z j) (Z i)) 0) (M.c i j)) := fun j =>
    depth_fluxDivergence q.p ⟨old.U i, Z i⟩ ⟨old.U j, Z j⟩ (M.c i j)
  have hjump : ∀ j, waterDepth (jump D X i j) = waterDepth (starState q.p (old.U j) (Z j) (Z i))
      - waterDepth (starState q.p (old.U i) (Z i) (Z j)) := fun j => rfl
  have hvis := fun j (hj : j ∈ M.nbrs i) => viscosity_dominates q Z lim M hM hskew lo.dij old hc hj
  have hdpos : ∀ j ∈ M.nbrs i, 0 ≤ d j := fun j hj => (hvis j hj).1
  have hds : ∀ j ∈ M.nbrs i, -s (M.c i j) ≤ d j := fun j hj => (hvis j hj).2.1
  set h0 := waterDepth (starState q.p (old.U i) (Z i) (Z i)) with hh0
  set th := velocityFactor q.p (old.U i) (Z i) (Z i) with hth
  have hh00 : 0 ≤ h0 := star_nonneg q.p _ hi0 _ _
  have hh01 : h0 ≤ h := star_le q.p _ hi0 _ _
  have th0 : 0 ≤ th := velocityFactor_nonneg hc _ _ _
  have th1 : th ≤ 1 := velocityFactor_le_one hc _ hi0 _ _
  -- off-diagonal terms: what flows in is nonnegative
  have hterm : ∀ j ∈ M.nbrs i,
      -(kap * ((d j + velocityFactor q.p (old.U i) (Z i) (Z j) * s (M.c i j)) *
        waterDepth (starState q.p (old.U i) (Z i) (Z j)))) ≤
      kap * waterDepth (fluxIJ D M X i j) + kap * X.d i j * waterDepth (jump D X i j) := by
    intro j hj
    have hj0 := hold j (by simp [hj])
    obtain ⟨v0, v1, v2⟩ := hvis j hj
    rw [hflux, hjump, starFlux hc, starFlux hc, hdX j hj]
    have b0 := velocityFactor_nonneg hc (old.U j) (Z j) (Z i)
    have b1 := velocityFactor_le_one hc (old.U j) hj0 (Z j) (Z i)
    have b3 := star_nonneg q.p (old.U j) hj0 (Z j) (Z i)
    have hle : velocityFactor q.p (old.U j) (Z j) (Z i) * sharpVelocity q.p (old.U j) (M.c i j) ≤ d j := by
      rcases le_total 0 (sharpVelocity q.p (old.U j) (M.c i j)) with h1 | h1
      · exact (mul_le_of_le_one_left h1 b1).trans v2
      · exact (mul_nonpos_of_nonneg_of_nonpos b0 h1).trans v0
    have := mul_nonneg hk0 (mul_nonneg b3 (sub_nonneg.2 hle))
    have e : d j = dOff D M lo.dij old i j := rfl
    rw [e] at this ⊢
    have e2 : s (M.c i j) = sharpVelocity q.p (old.U i) (M.c i j) := rfl
    rw [e2]
    linarith
  have hdiag : kap * waterDepth (fluxIJ D M X i i) + kap * X.d i i * waterDepth (jump D X i i) =
      -(2 * kap * (h0 * (th * s (M.c i i)))) := by
    rw [hflux, hjump, starFlux hc, sub_self]
    simp only [hs, hh0, hth]; ring
  have hsum0 : ∀ B : ι → ℝ, (∀ j ∈ M.nbrs i, (d j + velocityFactor q.p (old.U i) (Z i) (Z j) * s (M.c i j)) *
      waterDepth (starState q.p (old.U i) (Z i) (Z j)) ≤ B j) →
      h - kap * ((M.nbrs i).map B).sum - 2 * kap * (h0 * (th * s (M.c i i))) ≤ waterDepth (lowOrder D M X i) := by
    intro B hB
    rw [hdepth]
    unfold Mesh.columns
    rw [List.map_cons, List.sum_cons, hdiag]
    have h1 : ((M.nbrs i).map fun j => -(kap * B j)).sum ≤ _ := sum_map_le fun j hj =>
      (neg_le_neg (mul_le_mul_of_nonneg_left (hB j hj) hk0)).trans (hterm j hj)
    have h2 : ((M.nbrs i).map fun j => -(kap * B j)).sum = -(kap * ((M.nbrs i).map B).sum) := by
      induction M.nbrs i with
      | nil => simp
      | cons a l ih => rw [List.map_cons, List.sum_cons, ih, List.map_cons, List.sum_cons]; ring
    rw [h2] at h1
    linarith
  have hs0 : s (M.c i i) = dot (momentum (old.U i)) (M.c i i) / waterDepthSharp q.p (old.U i) := rfl
  have hsle : s (M.c i i) ≤ ((M.nbrs i).map d).sum := by
    have h1 : ((M.nbrs i).map fun j => -s (M.c i j)).sum ≤ ((M.nbrs i).map d).sum := sum_map_le hds
    have h2 : ((M.nbrs i).map fun j => -s (M.c i j)).sum = -S := by
      rw [hS]
      induction M.nbrs i with
      | nil => simp
      | cons a l ih => rw [List.map_cons, List.sum_cons, ih, List.map_cons, List.sum_cons]; ring
    rw [h2, hSsum, neg_neg] at h1
    exact h1
  have hSd : 0 ≤ ((M.nbrs i).map d).sum := List.sum_nonneg fun x hx => by
    obtain ⟨j, hj, rfl⟩ := List.mem_map.1 hx
    exact hdpos j hj
  set Sd := ((M.nbrs i).map d).sum with hSd'
  set s0 := s (M.c i i) with hs0'
  -- the coarse bound
  have coarse := hsum0 (fun j => ((1 + th) * d j + th * s (M.c i j)) * h0) fun j hj => by
    have a0 := velocityFactor_nonneg hc (old.U i) (Z i) (Z j)
    have a1 := velocityFactor_le_one hc (old.U i) hi0 (Z i) (Z j)
    have a2 : velocityFactor q.p (old.U i) (Z i) (Z j) ≤ th := velocityFactor_le_self hc (old.U i) (Z i) (Z j)
    have a3 := star_nonneg q.p (old.U i) hi0 (Z i) (Z j)
    have a4 : waterDepth (starState q.p (old.U i) (Z i) (Z j)) ≤ h0 := star_le_self q.p (old.U i) hi0 (Z i) (Z j)
    have v0 := hdpos j hj
    have v1 := hds j hj
    set t := velocityFactor q.p (old.U i) (Z i) (Z j)
    have hA : 0 ≤ d j + t * s (M.c i j) := by
      rcases le_total 0 (s (M.c i j)) with h1 | h1
      · linarith [mul_nonneg a0 h1]
      · have := mul_nonneg (sub_nonneg.2 a1) (neg_nonneg.2 h1)
        linarith
    refine (mul_le_mul_of_nonneg_left a4 hA).trans (mul_le_mul_of_nonneg_right ?_ hh00)
    rcases le_total 0 (s (M.c i j)) with h1 | h1
    · linarith [mul_le_mul_of_nonneg_right a2 h1, mul_nonneg th0 v0]
    · have h2 := mul_nonneg th0 (by linarith : 0 ≤ d j + s (M.c i j))
      linarith [mul_nonpos_of_nonneg_of_nonpos a0 h1]
  have hsumB : ((M.nbrs i).map fun j => ((1 + th) * d j + th * s (M.c i j)) * h0).sum = ((1 + th) * Sd - th * s0) * h0 := by
    rw [List.sum_map_mul_right, List.sum_map_add, List.sum_map_mul_left, List.sum_map_mul_left, ← hS, hSsum]; ring
  rw [hsumB] at coarse
  have hkS : 0 ≤ kap * Sd := mul_nonneg hk0 hSd
  have e1 := mul_nonneg (mul_nonneg hk0 hh00) (mul_nonneg th0 (sub_nonneg.2 hsle))
  have e2 := mul_nonneg (mul_nonneg hkS (sub_nonneg.2 th1)) hh00
  rcases hok with hneg | hcfl' | ⟨hH0, hH⟩
  · have hsneg : s0 ≤ 0 := by rw [hs0]; exact div_nonpos_of_nonpos_of_nonneg hneg (sharp_pos hc _).le
    refine le_trans ?_ coarse
    have e1 := mul_nonneg hk0 (mul_nonneg hh00 (mul_nonneg th0 (neg_nonneg.2 hsneg)))
    have e3 : 2 * kap * Sd * h0 ≤ 1 * h0 := mul_le_mul_of_nonneg_right (hw.trans hcfl) hh00
    linarith
  · refine le_trans ?_ coarse
    have e3 : 2 * kap * Sd * h0 ≤ 2 / 3 * h0 := mul_le_mul_of_nonneg_right (hw.trans hcfl') hh00
    linarith
  · set H := cutoffMollified q.p with hHdef
    have e3 : 2 * kap * Sd * h0 ≤ 1 * h0 := mul_le_mul_of_nonneg_right (hw.trans hcfl) hh00
    rcases lt_or_ge (2 * (h * h)) (H * H) with hlt | hge
    · -- a film: its star states are at most two thirds of it
      have hhH : h ≤ H := by
        by_contra hn
        push Not at hn
        have := mul_self_lt_mul_self hH0 hn
        linarith [mul_self_nonneg h]
      have h23 : h0 ≤ 2 / 3 * h := by
        have e : h0 = starFactor q.p (old.U i) (Z i) (Z i) * h := rfl
        rw [e]
        refine mul_le_mul_of_nonneg_right ?_ hi0
        have e' : starFactor q.p (old.U i) (Z i) (Z i) = max 0 (h + Z i - max (Z i) (Z i)) *
            (2 * positivePart h / (h * h + max h H * max h H)) := rfl
        rw [e', max_self, add_sub_cancel_right, max_eq_right hi0, positivePart_of_nonneg hi0, max_eq_right hhH]
        rcases hi0.eq_or_lt with hz | hz
        · rw [← hz]; norm_num
        · have : 0 < h * h := mul_pos hz hz
          rw [← mul_div_assoc, div_le_div_iff₀ (by linarith) (by norm_num)]
          linarith
      refine le_trans ?_ coarse
      linarith
    · have fine := hsum0 (fun j => (d j + th * s (M.c i j)) * h0 + d j * cutoffSharp q.p) fun j hj => by
        have a0 := velocityFactor_nonneg hc (old.U i) (Z i) (Z j)
        have a1 := velocityFactor_le_one hc (old.U i) hi0 (Z i) (Z j)
        have a2 : velocityFactor q.p (old.U i) (Z i) (Z j) ≤ th := velocityFactor_le_self hc (old.U i) (Z i) (Z j)
        have a3 := star_nonneg q.p (old.U i) hi0 (Z i) (Z j)
        have a4 : waterDepth (starState q.p (old.U i) (Z i) (Z j)) ≤ h0 := star_le_self q.p (old.U i) hi0 (Z i) (Z j)
        have v0 := hdpos j hj
        have v1 := hds j hj
        have hA : 0 ≤ d j + th * s (M.c i j) := by
          rcases le_total 0 (s (M.c i j)) with h1 | h1
          · linarith [mul_nonneg th0 h1]
          · have := mul_nonneg (sub_nonneg.2 th1) (neg_nonneg.2 h1)
            linarith
        rcases le_total (cutoffSharp q.p) (waterDepth (starState q.p (old.U i) (Z i) (Z j))) with h1 | h1
        · have e1 := velocityFactor_wet hc (old.U i) hi0 (Z i) (Z j) h1
          have e2 : th = 1 := le_antisymm th1 (e1 ▸ velocityFactor_le_self hc (old.U i) (Z i) (Z j))
          rw [e1]
          rw [e2] at hA ⊢
          exact le_add_of_le_of_nonneg (mul_le_mul_of_nonneg_left a4 hA) (mul_nonneg v0 hc.le)
        · set t := velocityFactor q.p (old.U i) (Z i) (Z j)
          have hb := mul_nonneg hA hh00
          rcases le_total 0 (s (M.c i j)) with h2 | h2
          · have h3 : d j + t * s (M.c i j) ≤ d j + th * s (M.c i j) := by linarith [mul_le_mul_of_nonneg_right a2 h2]
            have h4 := (mul_le_mul_of_nonneg_right h3 a3).trans (mul_le_mul_of_nonneg_left a4 hA)
            exact le_add_of_le_of_nonneg h4 (mul_nonneg v0 hc.le)
          · have h3 : d j + t * s (M.c i j) ≤ d j := by linarith [mul_nonpos_of_nonneg_of_nonpos a0 h2]
            have h4 := (mul_le_mul_of_nonneg_right h3 a3).trans (mul_le_mul_of_nonneg_left h1 v0)
            linarith
      have hsumC : ((M.nbrs i).map fun j => (d j + th * s (M.c i j)) * h0 + d j * cutoffSharp q.p).sum =
          (Sd - th * s0) * h0 + Sd * cutoffSharp q.p := by
        rw [List.sum_map_add, List.sum_map_mul_right, List.sum_map_mul_right, List.sum_map_add, List.sum_map_mul_left,
          ← hS, hSsum]; ring
      rw [hsumC] at fine
      refine le_trans ?_ fine
      have hx1 : 2 * (kap * Sd) ≤ par.cfl := by linarith
      have hH32 : H ≤ 3 / 2 * h := by
        by_contra hn
        push Not at hn
        have := mul_self_lt_mul_self (by linarith : 0 ≤ 3 / 2 * h) hn
        linarith [mul_self_nonneg h]
      have hx2 : 2 * (kap * Sd) * (4 * H + 3 * cutoffSharp q.p) ≤ 4 * H :=
        (mul_le_mul_of_nonneg_right hx1 (by linarith)).trans hH
      have hx3 : 0 ≤ (1 - 2 * (kap * Sd)) * (3 / 2 * h - H) := mul_nonneg (by linarith) (by linarith)
      have hx4 : 0 ≤ (1 - 2 * (kap * Sd)) * (h - h0) := mul_nonneg (by linarith) (by linarith)
      have hx5 : 0 ≤ (kap * Sd) * (h - h0) := mul_nonneg hkS (by linarith)
      linarith

/-! ### The limiter -/

/-- From a nonnegative depth the limiter never produces a negative one – whether or not the low-order state is within its
bounds – because the lower bound it enforces is at least the dry threshold. -/
theorem depthLimit_nonneg (p : Params) (b : Bounds) {hU hP tmax : ℝ} (heps : 0 ≤ p.eps) (htiny : 0 ≤ p.tiny)
    (hmax : 0 ≤ b.h_max) (hsmall : 0 ≤ b.h_small) (h0 : 0 ≤ hU) (s : ℝ) (hs0 : 0 ≤ s)
    (hs : s ≤ depthLimit p b hU hP 0 tmax) : 0 ≤ hU + s * hP := by
  rcases le_total 0 hP with h1 | h1
  · exact add_nonneg h0 (mul_nonneg hs0 h1)
  rcases hs0.eq_or_lt with h2 | h2
  · rw [← h2, zero_mul, add_zero]; exact h0
  have hm : 0 ≤ max b.h_small b.h_min := hsmall.trans (le_max_left _ _)
  unfold depthLimit at hs
  simp only at hs
  set den := 1 / (|hP| + p.eps * b.h_max + p.tiny) with hden
  set t1 := maskLt b.h_max (hU + tmax * hP) ((b.h_max - hU) * den) tmax with ht1
  set m := max b.h_small b.h_min
  have hs' : s ≤ maskLt (hU + t1 * hP) m ((hU - m) * den) t1 := by
    rcases le_max_iff.1 hs with h | h
    · exact h.trans (min_le_left _ _)
    · exact absurd h2 (not_lt.2 h)
  unfold maskLt at hs'
  split_ifs at hs' with h3
  · have hq : 0 ≤ |hP| + p.eps * b.h_max + p.tiny := by positivity
    have hle : -hP ≤ |hP| + p.eps * b.h_max + p.tiny := by
      have := neg_le_abs hP
      have := mul_nonneg heps hmax
      linarith
    rcases hq.eq_or_lt with h4 | h4
    · have : hP = 0 := by linarith
      rw [this, mul_zero, add_zero]; exact h0
    · rw [hden, mul_one_div, le_div_iff₀ h4] at hs'
      have := mul_le_mul_of_nonneg_left hle h2.le
      linarith
  · have := mul_le_mul_of_nonpos_right hs' h1
    linarith [not_lt.1 h3]

/-- The bounds the limiter is given in a step have a nonnegative dry threshold and maximum. -/
theorem finalBounds_nonneg [Fintype ι] (q : StepParams) (Z : ι → ℝ)
    (lim : ι → ι → Bounds → State dim → State dim → ℝ × Prop) (M : Mesh ι dim)
    (par : Hyp.Params) (lo : Leftover ι (State dim)) (X : Stage4 ι Unit (State dim))
    (heps : 0 ≤ q.p.eps) (hrel : 0 ≤ q.lp.relaxation_factor)
    (hdry : 0 ≤ q.p.reference_water_depth * q.p.dry_state_relaxation_factor)
    (hm : ∀ i, 0 ≤ M.lumped i) (homega : 0 ≤ M.omega) (i : ι) :
    0 ≤ (finalBounds (description q Z lim) M par lo X i).h_small ∧
      0 ≤ (finalBounds (description q Z lim) M par lo X i).h_max := by
  refine boundsStep5_induct (description q Z lim) M lo.order _ (fun _ b => 0 ≤ b.h_small ∧ 0 ≤ b.h_max) ?_ ?_ i
  · intro i
    have hacc : ∀ (row : List (LimiterEntry ι (State dim) (FluxContribution dim) dim)) (st : LimiterState),
        0 ≤ st.bounds.h_max → 0 ≤ st.relaxation_denominator →
        0 ≤ (row.foldl (fun st e => st.accumulate q.p (X.old.U i) e.U_j e.star_ij e.star_ji e.scaled_c e.affine_shift)
          st).bounds.h_max ∧
        0 ≤ (row.foldl (fun st e => st.accumulate q.p (X.old.U i) e.U_j e.star_ij e.star_ji e.scaled_c e.affine_shift)
          st).relaxation_denominator := by
      intro row
      induction row with
      | nil => intro st h1 h2; exact ⟨h1, h2⟩
      | cons a l ih =>
        intro st h1 h2
        refine ih _ (h1.trans (le_max_left _ _)) ?_
        show 0 ≤ st.relaxation_denominator + |(1:ℝ)|
        positivity
    have h1 := hacc ((M.columns i).map (limiterEntry (description q Z lim) M X par.tiny i)) (LimiterState.reset q.big)
      le_rfl le_rfl
    have hd : 0 ≤ M.lumped i * (1 / M.omega) := mul_nonneg (hm i) (one_div_nonneg.2 homega)
    have hr := Euler.relaxationRadius_nonneg dim (hd := M.lumped i * (1 / M.omega)) hrel
    constructor
    · show 0 ≤ q.p.reference_water_depth * ((if dim = 2 then Real.sqrt (M.lumped i * (1 / M.omega))
        else M.lumped i * (1 / M.omega)) * q.p.dry_state_relaxation_factor)
      rw [mul_left_comm]
      refine mul_nonneg ?_ hdry
      split_ifs
      · exact Real.sqrt_nonneg _
      · exact hd
    · refine le_min (mul_nonneg (by linarith) h1.1) (add_nonneg h1.1 (div_nonneg (by positivity) (by linarith [h1.2])))
  · intro i x j y _ hx hy
    exact ⟨le_min hx.1 hy.1, hx.2.trans (le_max_left _ _)⟩

/-- What is assumed of the mesh and the parameters: symmetric stencils, `c_ji = -c_ij` away from the boundary, positive
masses, zero row sums of `c_ij` (partition of unity), a CFL number of at most one and nonnegative parameters. -/
structure DepthHyp (q : StepParams) (M : Mesh ι dim) (par : Hyp.Params) : Prop where
  wf : M.WellFormed
  skew : ∀ i, ∀ j ∈ M.nbrs i, ¬ (M.boundary i ∧ M.boundary j) → M.c j i = -M.c i j
  mass : ∀ i, 0 < M.lumped i
  omega : 0 ≤ M.omega
  rowSum : ∀ i, M.nbrs i ≠ [] → M.c i i + ((M.nbrs i).map (M.c i)).sum = 0
  tiny : 0 < par.tiny
  cfl : par.cfl ≤ 1
  passes : par.iterations ≤ 2
  cutoff : 0 < cutoffSharp q.p
  eps : 0 ≤ q.p.eps
  ptiny : 0 ≤ q.p.tiny
  relaxation : 0 ≤ q.lp.relaxation_factor
  dry : 0 ≤ q.p.reference_water_depth * q.p.dry_state_relaxation_factor

/-- **C91 (complete step).** Started from nonnegative water depths, every step of the shallow water solver that is
completed with a time-step size up to the maximal one ends with nonnegative water depths: for every bathymetry, with dry
nodes, with friction, for continuous and discontinuous ansatz, every limiter configuration and number of passes, and
whatever the discarded stages and the leftover data are.  Each row has to satisfy `RowOk`, which the two corollaries below
discharge. -/
theorem C91_sw_step_depth_nonneg [Fintype ι] (q : StepParams) (Z : ι → ℝ)
    (lim : ι → ι → Bounds → State dim → State dim → ℝ × Prop)
    (hlim : ∀ i j b U V, IsLaneOf (fun _ => limit q.p q.lp) b U V (lim i j b U V))
    (M : Mesh ι dim) (par : Hyp.Params) (H : DepthHyp q M par)
    (strategy : Strategy) (cnt : Counters) (lo : Leftover ι (State dim)) (old : StateVector ι Unit (State dim))
    (stages : List (ℝ × StateVector ι Unit (State dim))) (tau tau_max : ℝ)
    (htau0 : 0 ≤ tau) (htau : tau ≤ tauMax (description q Z lim) M par lo.dij old tau_max)
    (hold : ∀ i, M.nbrs i ≠ [] → 0 ≤ waterDepth (old.U i))
    (hok : ∀ i, M.nbrs i ≠ [] → RowOk q.p M par.cfl old.U i)
    (U : ι → State dim) (t : ℝ)
    (hstep : (step (description q Z lim) M par strategy cnt lo old stages tau tau_max).1 = .done U t)
    (i : ι) (hi : M.nbrs i ≠ []) : 0 ≤ waterDepth (U i) := by
  classical
  set D := description q Z lim with hD
  obtain ⟨htm, htt, hU⟩ := step_done hstep
  have ht0' : 0 ≤ t := by rw [htt]; split_ifs; exacts [htm.le, htau0]
  have ht1' : t ≤ tauMax D M par lo.dij old tau_max := by rw [htt]; split_ifs; exacts [le_rfl, htau]
  have hact : ∀ i, ∀ j ∈ M.nbrs i, M.nbrs j ≠ [] := fun i j hj => List.ne_nil_of_mem (H.wf.symm i j hj)
  set X := stage4 D M par lo old stages t with hX
  have hconv : Convex ℝ {V : State dim | 0 ≤ waterDepth V} := by
    intro a ha b hb x y hx hy _
    show 0 ≤ waterDepth (x • a + y • b)
    rw [waterDepth_add, waterDepth_smul, waterDepth_smul]
    exact add_nonneg (mul_nonneg hx ha) (mul_nonneg hy hb)
  rw [hU]
  refine C15_limited_update D M H.wf par lo X H.passes (fun _ => {V : State dim | 0 ≤ waterDepth V}) (fun _ => hconv) ?_ ?_ i hi
  · intro i hi
    exact C91_sw_low_order_depth q Z lim M H.wf H.skew par lo old stages t tau_max H.tiny H.cfl H.cutoff ht0' ht1' i hi
      (H.mass i) (H.rowSum i hi) (fun j hj => by
        rcases List.mem_cons.1 hj with h | h
        · rw [h]; exact hold i hi
        · exact hold j (hact i j h)) (hok i hi)
  · intro i j hj V hV Q
    obtain ⟨L, bs, Us, Ps, l, e1, e2, e3, e4⟩ := hlim i j (finalBounds D M par lo X i) V Q
    have hr := C02_sw_limit_range q.p q.lp bs Us Ps (fun _ => 0) (fun _ => 1) l zero_le_one
    have hval : D.limit i j (finalBounds D M par lo X i) V Q = lim i j (finalBounds D M par lo X i) V Q := rfl
    rw [hval, e4]
    refine ⟨hr.1, hr.2, fun s hs0 hs => ?_⟩
    have hb := finalBounds_nonneg q Z lim M par lo X H.eps H.relaxation H.dry (fun i => (H.mass i).le) H.omega i
    have := hs.trans (C02_sw_limit_le_depthLimit q.p q.lp bs Us Ps (fun _ => 0) (fun _ => 1) l zero_le_one)
    rw [e1, e2, e3] at this
    show 0 ≤ waterDepth (V + s • Q)
    rw [waterDepth_add, waterDepth_smul]
    exact depthLimit_nonneg q.p _ H.eps H.ptiny hb.2 hb.1 hV s hs0 this

/-- **C91 (default parameters).** With a CFL number of at most `9/10` (the default of `cfl max`) and dry-state thresholds
that are a factor of ten apart (a hundred by default), every completed step from nonnegative depths ends with nonnegative
depths, at all rows and for every boundary. -/
theorem C91_sw_step_depth_default [Fintype ι] (q : StepParams) (Z : ι → ℝ)
    (lim : ι → ι → Bounds → State dim → State dim → ℝ × Prop)
    (hlim : ∀ i j b U V, IsLaneOf (fun _ => limit q.p q.lp) b U V (lim i j b U V))
    (M : Mesh ι dim) (par : Hyp.Params) (H : DepthHyp q M par)
    (hcfl : par.cfl ≤ 9 / 10) (hthr : 10 * cutoffSharp q.p ≤ cutoffMollified q.p)
    (strategy : Strategy) (cnt : Counters) (lo : Leftover ι (State dim)) (old : StateVector ι Unit (State dim))
    (stages : List (ℝ × StateVector ι Unit (State dim))) (tau tau_max : ℝ)
    (htau0 : 0 ≤ tau) (htau : tau ≤ tauMax (description q Z lim) M par lo.dij old tau_max)
    (hold : ∀ i, M.nbrs i ≠ [] → 0 ≤ waterDepth (old.U i)) (U : ι → State dim) (t : ℝ)
    (hstep : (step (description q Z lim) M par strategy cnt lo old stages tau tau_max).1 = .done U t)
    (i : ι) (hi : M.nbrs i ≠ []) : 0 ≤ waterDepth (U i) :=
  C91_sw_step_depth_nonneg q Z lim hlim M par H strategy cnt lo old stages tau tau_max htau0 htau hold
    (fun i _ => Or.inr (Or.inr ⟨by linarith [H.cutoff], by
      have := mul_le_mul_of_nonneg_right hcfl (by linarith [H.cutoff] : 0 ≤ 4 * cutoffMollified q.p + 3 * cutoffSharp q.p)
      linarith [H.cutoff]⟩)) U t hstep i hi

/-- **C91 (closed basin).** If no water leaves through a boundary node – its momentum is tangential, as after the slip
and no-slip conditions – then every CFL number up to one and all thresholds are covered. -/
theorem C91_sw_closed_basin [Fintype ι] (q : StepParams) (Z : ι → ℝ)
    (lim : ι → ι → Bounds → State dim → State dim → ℝ × Prop)
    (hlim : ∀ i j b U V, IsLaneOf (fun _ => limit q.p q.lp) b U V (lim i j b U V))
    (M : Mesh ι dim) (par : Hyp.Params) (H : DepthHyp q M par)
    (strategy : Strategy) (cnt : Counters) (lo : Leftover ι (State dim)) (old : StateVector ι Unit (State dim))
    (stages : List (ℝ × StateVector ι Unit (State dim))) (tau tau_max : ℝ)
    (htau0 : 0 ≤ tau) (htau : tau ≤ tauMax (description q Z lim) M par lo.dij old tau_max)
    (hold : ∀ i, M.nbrs i ≠ [] → 0 ≤ waterDepth (old.U i))
    (hwall : ∀ i, M.nbrs i ≠ [] → dot (momentum (old.U i)) (M.c i i) = 0) (U : ι → State dim) (t : ℝ)
    (hstep : (step (description q Z lim) M par strategy cnt lo old stages tau tau_max).1 = .done U t)
    (i : ι) (hi : M.nbrs i ≠ []) : 0 ≤ waterDepth (U i) :=
  C91_sw_step_depth_nonneg q Z lim hlim M par H strategy cnt lo old stages tau tau_max htau0 htau hold
    (fun i hi => Or.inl (hwall i hi).le) U t hstep i hi

/-! ### The hypotheses are met -/

/-- A current running towards an island with a dry node, on the ring with its three nodes. -/
noncomputable def runupU : Fin 3 → State 1 := fun i => mkState (![1, 1 / 2, 0] i) (fun _ => ![1, -1 / 3, 0] i)

theorem lake_depthHyp : DepthHyp lakeParams ring ⟨1, 1 / 100, 2⟩ where
  wf := ring_wf
  skew := fun i j h _ => ring_closed.skew i j h
  mass := ring_closed.lumped
  omega := by norm_num [ring]
  rowSum := fun i _ => Scalar.ring_row_sum i
  tiny := by norm_num
  cfl := le_rfl
  passes := le_rfl
  cutoff := by norm_num [cutoffSharp, lakeParams]
  eps := by norm_num [lakeParams]
  ptiny := by norm_num [lakeParams]
  relaxation := by norm_num [lakeParams]
  dry := by norm_num [lakeParams]

/-- The step exists, is completed with the maximal time-step size, and its depths are nonnegative. -/
example (stages : List (ℝ × StateVector (Fin 3) Unit (State 1))) (lo : Leftover (Fin 3) (State 1)) : ∃ U t,
    (step (description lakeParams lakeZ lakeLim) ring ⟨1, 1 / 100, 2⟩ .warn ⟨0, 0⟩ lo ⟨runupU, ()⟩ stages 0 10).1
      = .done U t ∧ 0 < t ∧ ∀ i, 0 ≤ waterDepth (U i) := by
  have h1 := C11_step_tau (description lakeParams lakeZ lakeLim) ring ⟨1, 1 / 100, 2⟩ .warn ⟨0, 0⟩ lo ⟨runupU, ()⟩ stages 0 10
    (by norm_num) (by norm_num) ring_closed.lumped (by norm_num)
  obtain ⟨U, t, h⟩ := C18_warn_returns (description lakeParams lakeZ lakeLim) ring ⟨1, 1 / 100, 2⟩ ⟨0, 0⟩ lo
    ⟨runupU, ()⟩ stages 0 10 h1.1
  refine ⟨U, t, h, ?_, fun i => ?_⟩
  · obtain ⟨htm, htt, -⟩ := step_done h
    rw [htt, if_pos rfl]; exact htm
  · refine C91_sw_closed_basin lakeParams lakeZ lakeLim
      (fun i j b U P => ⟨1, fun _ => b, fun _ => U, fun _ => P, 0, rfl, rfl, rfl, rfl⟩) ring ⟨1, 1 / 100, 2⟩ lake_depthHyp
      .warn ⟨0, 0⟩ lo ⟨runupU, ()⟩ stages 0 10 le_rfl h1.1.le ?_ ?_ U t h i (by simp [ring])
    · intro i _
      fin_cases i <;> simp [runupU, waterDepth, mkState]
    · intro i _
      fin_cases i <;> simp [ring, dot]

/-! ### The restriction on open boundaries is needed -/

/-- Two nodes, both at the boundary. -/
noncomputable def openPair : Mesh (Fin 2) 1 where
  nbrs := fun i => [1 - i]
  below := fun i j => j < i
  skip := fun _ _ => False
  boundary := fun _ => True
  c := fun _ j => fun _ => if j = 0 then -1 / 2 else 1 / 2
  mass := fun i j => if i = j then 2 / 3 else 1 / 3
  massInv := fun _ _ => 0
  lumped := fun _ => 1
  incidence := fun _ _ => 0
  dG := false
  omega := 2

theorem openPair_wf : openPair.WellFormed where
  nodup := by intro i; fin_cases i <;> simp [openPair]
  irrefl := by intro i; fin_cases i <;> simp [openPair]
  symm := by intro i j; fin_cases i <;> fin_cases j <;> simp [openPair]
  asymm := fun i j h => not_lt.2 (le_of_lt h)
  skip_below := fun _ _ h => h.elim

/-- Weak gravity and equal dry-state thresholds. -/
noncomputable def thinParams : StepParams :=
  ⟨⟨1 / 1000000, 0, 1, 1, 100, 100, 1 / 100, 1 / 100⟩, ⟨1 / 10, 1, true, true⟩, 1, 100⟩

/-- Water at the left boundary leaving the domain, next to a dry node on higher ground. -/
noncomputable def thinU : Fin 2 → State 1 := fun i => mkState (![1, 0] i) (fun _ => ![-1, 0] i)

theorem thin_sharp (i : Fin 2) : waterDepthSharp thinParams.p (thinU i) = 1 := by
  fin_cases i <;> norm_num [waterDepthSharp, thinParams, thinU, waterDepth, mkState]

/-- For states whose regularised depth is one and which move apart the estimated speed is at most that of the water plus
twice that of sound. -/
theorem thin_riemann (U V : State 1) (n : Vec 1) (hU : waterDepthSharp thinParams.p U = 1)
    (hV : waterDepthSharp thinParams.p V = 1) (huv : dot n (momentum U) ≤ dot n (momentum V))
    (h1 : -1 ≤ dot n (momentum U)) (h2 : dot n (momentum V) ≤ 1) :
    riemann thinParams.p U V n ≤ 1 + 2 / 1000 := by
  have ha : Real.sqrt (1 * (1 / 1000000)) = 1 / 1000 := by
    rw [show (1 : ℝ) * (1 / 1000000) = (1 / 1000) ^ 2 by norm_num]
    exact Real.sqrt_sq (by norm_num)
  have ha' : Real.sqrt (1 / 1000000 * 1) = 1 / 1000 := by rw [mul_comm, ha]
  unfold riemann riemannCompute riemannDataFromState
  simp only [hU, hV]
  have e : ∀ W : State 1, dot n (fun k => momentum W k / 1) = dot n (momentum W) := fun W => by simp [dot]
  rw [e, e]
  set u := dot n (momentum U)
  set v := dot n (momentum V)
  have hg : thinParams.p.gravity = 1 / 1000000 := rfl
  rw [hg, ha]
  set hs := computeHStar (1 / 1000000) ⟨1, u, 1 / 1000⟩ ⟨1, v, 1 / 1000⟩ with hhs
  have s2 : Real.sqrt 2 * Real.sqrt 2 = 2 := Real.mul_self_sqrt (by norm_num)
  have s20 := Real.sqrt_nonneg 2
  have hs2 : hs ≤ 2 := by
    rw [hhs]
    unfold computeHStar maskLt
    simp only
    split_ifs
    · unfold hStarMiddle
      simp only [min_self, max_self, ha', one_mul, Real.sqrt_one]
      have : Real.sqrt 2 * (u - v) / (1 / 1000 + 1 / 1000) ≤ 0 :=
        div_nonpos_of_nonpos_of_nonneg (mul_nonpos_of_nonneg_of_nonpos s20 (by linarith)) (by norm_num)
      linarith
    · unfold hStarRight
      simp only [min_self, max_self, mul_one, Real.sqrt_one]
      have h3 : Real.sqrt 2 * Real.sqrt (1 / (1 / 1000000)) * (u - v) ≤ 0 :=
        mul_nonpos_of_nonneg_of_nonpos (by positivity) (by linarith)
      set R := Real.sqrt (positivePart (3 + 2 * Real.sqrt 2 + Real.sqrt 2 * Real.sqrt (1 / (1 / 1000000)) * (u - v)))
      have hR0 : 0 ≤ R := Real.sqrt_nonneg _
      have hR : R ≤ 1 + Real.sqrt 2 := by
        refine Real.sqrt_le_iff.2 ⟨by positivity, ?_⟩
        rw [positivePart_eq_max]
        refine max_le (by positivity) ?_
        nlinarith
      have : |R - Real.sqrt 2| ≤ Real.sqrt 2 := by
        rw [abs_le]
        refine ⟨by linarith, ?_⟩
        have : 1 ≤ Real.sqrt 2 := Real.one_le_sqrt.2 (by norm_num)
        linarith
      have h4 := mul_self_le_mul_self (abs_nonneg _) this
      rw [abs_mul_abs_self, s2] at h4
      exact h4
  have hf : positivePart ((hs - 1) / 1) ≤ 1 := by
    rw [positivePart_eq_max]
    exact max_le (by norm_num) (by linarith)
  have hf0 := positivePart_nonneg ((hs - 1) / 1)
  have hq : Real.sqrt ((1 + 1 / 2 * positivePart ((hs - 1) / 1)) * (1 + positivePart ((hs - 1) / 1))) ≤ 2 := by
    refine Real.sqrt_le_iff.2 ⟨by norm_num, ?_⟩
    nlinarith
  unfold computeLambda lambda1Minus lambda3Plus
  simp only
  rw [negativePart_eq_max, positivePart_eq_max (_ + _)]
  exact max_le (max_le (by norm_num) (by linarith)) (max_le (by norm_num) (by linarith))

/-- **C91 fails at open boundaries if the two dry-state thresholds coincide and the CFL number is one**: next to a dry node
on higher ground the regularised mass flux towards it is reduced but the one out of the domain is not, and the low-order
update – with a time-step size within the CFL condition – takes out more water than there is. -/
theorem C91_open_boundary_violation : ∃ (q : StepParams) (M : Mesh (Fin 2) 1) (par : Hyp.Params) (Z : Fin 2 → ℝ)
    (U : Fin 2 → State 1) (tau : ℝ),
    DepthHyp q M par ∧ (∀ i, 0 ≤ waterDepth (U i)) ∧ ∀ lim lo stages,
      0 < tau ∧ tau ≤ tauMax (description q Z lim) M par lo.dij ⟨U, ()⟩ 10 ∧
      waterDepth (lowOrder (description q Z lim) M (stage4 (description q Z lim) M par lo ⟨U, ()⟩ stages tau) 0) < 0 := by
  classical
  have hskew : ∀ i, ∀ j ∈ openPair.nbrs i, ¬ (openPair.boundary i ∧ openPair.boundary j) →
      openPair.c j i = -openPair.c i j := fun i j _ h => absurd ⟨trivial, trivial⟩ h
  have hcut : 0 < cutoffSharp thinParams.p := by norm_num [cutoffSharp, thinParams]
  refine ⟨thinParams, openPair, ⟨1, 1 / 1000000000, 0⟩, ![0, 1 / 2], thinU, 1000 / 1002, ?_, ?_, ?_⟩
  · exact {
      wf := openPair_wf
      skew := hskew
      mass := fun i => by norm_num [openPair]
      omega := by norm_num [openPair]
      rowSum := fun i _ => by
        funext k
        fin_cases i <;> norm_num [openPair]
      tiny := by norm_num
      cfl := le_rfl
      passes := by norm_num
      cutoff := hcut
      eps := by norm_num [thinParams]
      ptiny := by norm_num [thinParams]
      relaxation := by norm_num [thinParams]
      dry := by norm_num [thinParams] }
  · intro i
    fin_cases i <;> norm_num [thinU, waterDepth, mkState]
  intro lim lo stages
  set Z : Fin 2 → ℝ := ![0, 1 / 2] with hZ
  set D := description thinParams Z lim with hD
  set old : StateVector (Fin 2) Unit (State 1) := ⟨thinU, ()⟩ with hold
  have hv : ∀ i j, vnorm (openPair.c i j) = 1 / 2 := by
    intro i j
    have : normSq (openPair.c i j) = (1 / 2) ^ 2 := by
      fin_cases j <;> norm_num [normSq, openPair]
    unfold vnorm
    rw [this]
    exact Real.sqrt_sq (by norm_num)
  have e01 : viscosityEntry D openPair old 0 1 ≤ 501 / 1000 := by
    unfold viscosityEntry
    simp only [hv]
    have := thin_riemann (thinU 0) (thinU 1) (fun k => openPair.c 0 1 k / (1 / 2)) (thin_sharp 0) (thin_sharp 1)
      (by norm_num [dot, openPair, thinU, momentum, mkState]) (by norm_num [dot, openPair, thinU, momentum, mkState])
      (by norm_num [dot, openPair, thinU, momentum, mkState])
    have e : D.riemann old.prec 0 1 (old.U 0) (old.U 1) (fun k => openPair.c 0 1 k / (1 / 2)) =
        riemann thinParams.p (thinU 0) (thinU 1) (fun k => openPair.c 0 1 k / (1 / 2)) := rfl
    rw [e]
    linarith
  have e10 : viscosityEntry D openPair old 1 0 ≤ 501 / 1000 := by
    unfold viscosityEntry
    simp only [hv]
    have := thin_riemann (thinU 1) (thinU 0) (fun k => openPair.c 1 0 k / (1 / 2)) (thin_sharp 1) (thin_sharp 0)
      (by norm_num [dot, openPair, thinU, momentum, mkState]) (by norm_num [dot, openPair, thinU, momentum, mkState])
      (by norm_num [dot, openPair, thinU, momentum, mkState])
    have e : D.riemann old.prec 1 0 (old.U 1) (old.U 0) (fun k => openPair.c 1 0 k / (1 / 2)) =
        riemann thinParams.p (thinU 1) (thinU 0) (fun k => openPair.c 1 0 k / (1 / 2)) := rfl
    rw [e]
    linarith
  have hd01 : dOff D openPair lo.dij old 0 1 ≤ 501 / 1000 := by
    unfold dOff dBoundary dStep2
    simp [openPair] at e01 e10 ⊢
    exact ⟨e01, e10⟩
  have hd10 : dOff D openPair lo.dij old 1 0 ≤ 501 / 1000 := by
    unfold dOff dBoundary dStep2
    simp [openPair] at e01 e10 ⊢
    exact ⟨e01, e10⟩
  have htau : (1000 : ℝ) / 1002 ≤ tauMax D openPair ⟨1, 1 / 1000000000, 0⟩ lo.dij old 10 := by
    unfold tauMax
    refine (Finset.le_fold_min _).2 ⟨by norm_num, fun i _ => ?_⟩
    have hdiag : -dDiag D openPair ⟨1, 1 / 1000000000, 0⟩ lo.dij old i ≤ 501 / 1000 := by
      unfold dDiag
      rw [neg_le, le_min_iff]
      constructor
      · apply neg_le_neg
        fin_cases i
        · simpa [openPair] using hd01
        · simpa [openPair] using hd10
      · norm_num
    have hneg := dDiag_neg D openPair ⟨1, 1 / 1000000000, 0⟩ lo.dij old i (by norm_num)
    unfold tauRow
    rw [le_div_iff₀ (by linarith)]
    have : openPair.lumped i = 1 := rfl
    rw [this]
    linarith
  refine ⟨by norm_num, htau, ?_⟩
  set X := stage4 D openPair ⟨1, 1 / 1000000000, 0⟩ lo old stages (1000 / 1002) with hX
  have hvis := viscosity_dominates thinParams Z lim openPair openPair_wf hskew lo.dij old hcut
    (i := 0) (j := 1) (by simp [openPair])
  have hXd : X.d 0 1 = dOff D openPair lo.dij old 0 1 := by
    simp only [hX, stage4]
    exact if_neg (by decide)
  have hdge : 1 / 2 ≤ X.d 0 1 := by
    rw [hXd]
    refine le_trans (le_of_eq ?_) hvis.2.1
    have : sharpVelocity thinParams.p (old.U 0) (openPair.c 0 1) = -1 / 2 := by
      unfold sharpVelocity
      rw [show old.U 0 = thinU 0 from rfl, thin_sharp]
      norm_num [dot, openPair, thinU, momentum, mkState]
    rw [this]; norm_num
  have hdepth : waterDepth (lowOrder D openPair X 0) = waterDepth (thinU 0) +
      (1000 / 1002 * waterDepth (fluxIJ D openPair X 0 0) + 1000 / 1002 * X.d 0 0 * waterDepth (jump D X 0 0)) +
      (1000 / 1002 * waterDepth (fluxIJ D openPair X 0 1) + 1000 / 1002 * X.d 0 1 * waterDepth (jump D X 0 1)) := by
    unfold lowOrder
    rw [waterDepth_add, waterDepth_add, waterDepth_smul]
    have e : waterDepth (sourceAt D X 0) = 0 := rfl
    rw [e, mul_zero, add_zero]
    have e' : openPair.columns 0 = [0, 1] := rfl
    rw [e', List.map_cons, List.map_cons, List.map_nil, List.sum_cons, List.sum_cons, List.sum_nil, add_zero,
      waterDepth_add, waterDepth_add, waterDepth_add, waterDepth_smul, waterDepth_smul, waterDepth_smul, waterDepth_smul]
    have e2 : openPair.lumped 0 = 1 := rfl
    have e3 : X.tau = 1000 / 1002 := rfl
    have e4 : X.old.U 0 = thinU 0 := rfl
    rw [e2, e3, e4]
    ring
  have hflux : ∀ j, waterDepth (fluxIJ D openPair X 0 j) =
      -(dot (g thinParams.p (starState thinParams.p (thinU 0) (Z 0) (Z j)) 0) (openPair.c 0 j)
        + dot (g thinParams.p (starState thinParams.p (thinU j) (Z j) (Z 0)) 0) (openPair.c 0 j)) := fun j =>
    depth_fluxDivergence thinParams.p ⟨thinU 0, Z 0⟩ ⟨thinU j, Z j⟩ (openPair.c 0 j)
  have hjump : ∀ j, waterDepth (jump D X 0 j) = waterDepth (starState thinParams.p (thinU j) (Z j) (Z 0))
      - waterDepth (starState thinParams.p (thinU 0) (Z 0) (Z j)) := fun j => rfl
  have hmoll : inverseWaterDepthMollified thinParams.p (thinU 0) = 1 := by
    norm_num [inverseWaterDepthMollified, thinParams, thinU, waterDepth, mkState, positivePart]
  have s00 : starState thinParams.p (thinU 0) (Z 0) (Z 0) = thinU 0 := by
    rw [starState_eq]
    unfold starFactor
    rw [hmoll]
    norm_num [hZ, thinU, waterDepth, mkState]
  have s01 : starState thinParams.p (thinU 0) (Z 0) (Z 1) = (1 / 2 : ℝ) • thinU 0 := by
    rw [starState_eq]
    unfold starFactor
    rw [hmoll]
    norm_num [hZ, thinU, waterDepth, mkState]
  have s10 : starState thinParams.p (thinU 1) (Z 1) (Z 0) = 0 := by
    rw [starState_eq]
    funext k
    fin_cases k <;> simp [thinU, mkState]
  have g0 : ∀ j, dot (g thinParams.p (0 : State 1) 0) (openPair.c 0 j) = 0 := by
    intro j; simp [g, dot, waterDepth]
  have g00 : dot (g thinParams.p (thinU 0) 0) (openPair.c 0 0) = 1 / 2 := by
    simp only [g, Fin.cons_zero, inverseWaterDepthSharp, thin_sharp]
    norm_num [dot, openPair, thinU, momentum, mkState, waterDepth]
  have g01 : dot (g thinParams.p ((1 / 2 : ℝ) • thinU 0) 0) (openPair.c 0 1) = -1 / 8 := by
    have : waterDepthSharp thinParams.p ((1 / 2 : ℝ) • thinU 0) = 1 := by
      norm_num [waterDepthSharp, thinParams, thinU, waterDepth, mkState]
    simp only [g, Fin.cons_zero, inverseWaterDepthSharp, this]
    norm_num [dot, openPair, thinU, momentum, mkState, waterDepth]
  have w0 : waterDepth (thinU 0) = 1 := rfl
  have w1 : waterDepth ((1 / 2 : ℝ) • thinU 0) = 1 / 2 := by rw [waterDepth_smul, w0]; norm_num
  have w2 : waterDepth (0 : State 1) = 0 := rfl
  rw [hdepth, hflux, hflux, hjump, hjump, s00, s01, s10, g00, g01, g0, w0, w1, w2]
  linarith

end ShallowWater
end Ryujin
