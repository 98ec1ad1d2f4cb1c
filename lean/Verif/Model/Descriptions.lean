import Verif.Model.HyperbolicStep
import Verif.Model.Scalar
import Verif.Model.ShallowWater
import Verif.Model.AeosSystem

/-!
# The `Description`s of the equations, as used by the model of the hyperbolic step

Each bundles the already modelled functions of one set of equations
(scalar_conservation/description.h, shallow_water/description.h, euler/description.h,
euler_aeos/description.h).  SIMD: `limit` is given as a function of the row and column, see
`IsLaneOf` for how it is related to the vectorised limiter.
-/

namespace Ryujin

noncomputable section

variable {ι : Type} {dim : ℕ}

/-- One lane of a vectorised limiter call: `lim` is the limiter on `L` lanes with `t_min = 0`, `t_max = 1`
(the default arguments of `Limiter::limit`); the coefficient used by the step for one row is that of one
lane of a call whose lane `l` holds the data of this row, whatever the other lanes hold; the success flag is
that of the whole call. (hyperbolic_module.template.h:1004, 1148) -/
def IsLaneOf {S B : Type}
    (lim : (L : ℕ) → (Fin L → B) → (Fin L → S) → (Fin L → S) → (Fin L → ℝ) → (Fin L → ℝ) → (Fin L → ℝ) × Prop)
    (b : B) (U P : S) (r : ℝ × Prop) : Prop :=
  ∃ (L : ℕ) (bs : Fin L → B) (Us Ps : Fin L → S) (l : Fin L), bs l = b ∧ Us l = U ∧ Ps l = P ∧
    r = ((lim L bs Us Ps (fun _ => 0) (fun _ => 1)).1 l, (lim L bs Us Ps (fun _ => 0) (fun _ => 1)).2)

namespace Scalar

/-- Parameters of the scalar conservation equation solver.
(scalar_conservation/limiter.h:25-60, scalar_conservation/indicator.h:25-60) -/
structure StepParams where
  rp : RiemannParams
  evc_factor : ℝ
  eps : ℝ
  tiny : ℝ
  big : ℝ
  relaxation_factor : ℝ

/-- `ScalarConservation::Description` (scalar_conservation/description.h).  `draws i j` are the random numbers
drawn when the Riemann problem of the pair is solved in row `i`; `lim` is the limiter as seen by one row. (lines 35-56) -/
def description (fl : Flux dim) (q : StepParams) (draws : ι → ι → List ℝ)
    (lim : ι → ι → Bounds → State → State → ℝ × Prop) :
    Hyp.Description ι Unit State (Fin 1 → Vec dim) Bounds dim where
  riemann := fun _ i j U_i U_j n => riemann fl q.rp (draws i j) (state U_i) (state U_j) n
  indicator := fun _ _ U_i row hd_i =>
    indicator q.tiny q.evc_factor hd_i (state U_i) (fluxFunction fl (state U_i))
      (row.map fun e => ⟨state e.2.1, fluxFunction fl (state e.2.1), e.2.2⟩)
  flux := fun _ _ U => fluxContribution fl U
  fluxDiv := fluxDivergence
  highOrder := fluxDivergence
  source := fun _ _ _ _ => 0
  stars := fun U_i _ U_j _ => (U_i, U_j)
  affineShift := fun _ _ _ _ => 0
  limiterBounds := fun _ _ U_i flux_i row hd_i =>
    (row.foldl (fun st e => st.accumulate U_i flux_i e.U_j e.flux_j e.scaled_c e.affine_shift)
      (LimiterState.reset q.big)).relaxedBounds dim q.eps q.relaxation_factor hd_i
  combine := combineBounds
  limit := lim

end Scalar

namespace ShallowWater

/-- Parameters of the shallow water solver. (shallow_water/limiter.h:25-100, shallow_water/indicator.h:25-60) -/
structure StepParams where
  p : Params
  lp : LimiterParams
  evc_factor : ℝ
  big : ℝ

/-- `ShallowWater::Description` (shallow_water/description.h).  `Z` is the bathymetry stored in
`initial_precomputed_`. (lines 32-53) -/
def description (q : StepParams) (Z : ι → ℝ)
    (lim : ι → ι → Bounds → State dim → State dim → ℝ × Prop) :
    Hyp.Description ι Unit (State dim) (FluxContribution dim) Bounds dim where
  riemann := fun _ _ _ U_i U_j n => riemann q.p U_i U_j n
  indicator := fun _ _ U_i row hd_i =>
    indicator q.p q.evc_factor hd_i U_i (row.map fun e => (e.2.1, e.2.2))
  flux := fun _ i U => ⟨U, Z i⟩
  fluxDiv := fluxDivergence q.p
  highOrder := highOrderFluxDivergence q.p
  source := fun _ _ U tau => nodalSource q.p U tau
  stars := fun _ flux_i _ flux_j => equilibratedStates q.p flux_i flux_j
  affineShift := affineShift q.p
  limiterBounds := fun _ _ U_i _ row hd_i =>
    (row.foldl (fun st e => st.accumulate q.p U_i e.U_j e.star_ij e.star_ji e.scaled_c e.affine_shift)
      (LimiterState.reset q.big)).relaxedBounds dim q.p q.lp hd_i
  combine := combineBounds
  limit := lim

end ShallowWater

namespace Euler

/-- `Euler::Description` (euler/description.h).  The precomputed specific entropies are those of the states;
the Riemann solver (as seen by one row and column) and the indicator are arguments. (lines 31-51) -/
def description (p : Params) (lp : LimiterParams) (big : ℝ)
    (riem : ι → ι → State dim → State dim → Vec dim → ℝ)
    (ind : State dim → List (State dim × Vec dim) → ℝ → ℝ)
    (lim : ι → ι → Bounds → State dim → State dim → ℝ × Prop) :
    Hyp.Description ι Unit (State dim) (Fin (dim + 2) → Vec dim) Bounds dim where
  riemann := fun _ i j U_i U_j n => riem i j U_i U_j n
  indicator := fun _ _ U_i row hd_i => ind U_i (row.map fun e => (e.2.1, e.2.2)) hd_i
  flux := fun _ _ U => f p U
  fluxDiv := fluxDivergence
  highOrder := fluxDivergence
  source := fun _ _ _ _ => 0
  stars := fun U_i _ U_j _ => (U_i, U_j)
  affineShift := fun _ _ _ _ => 0
  limiterBounds := fun _ _ U_i _ row hd_i =>
    (row.foldl (fun st e => st.accumulate p U_i e.U_j (specificEntropy p e.U_j) e.scaled_c e.affine_shift)
      (LimiterState.reset big)).relaxedBounds dim p lp hd_i
  combine := combineBounds
  limit := lim

end Euler

namespace Aeos

open Euler (State)

/-- `EulerAEOS::Description` (euler_aeos/description.h), reduced to what conservation depends on: the
pressure is the precomputed one; Riemann solver, indicator and limiter are arbitrary. (lines 32-52) -/
def description {B : Type} (riem : (ι → ℝ) → ι → ι → State dim → State dim → Vec dim → ℝ)
    (ind : (ι → ℝ) → ι → State dim → List (ι × State dim × Vec dim) → ℝ → ℝ)
    (bnds : (ι → ℝ) → ι → State dim → (Fin (dim + 2) → Vec dim) →
      List (Hyp.LimiterEntry ι (State dim) (Fin (dim + 2) → Vec dim) dim) → ℝ → B)
    (comb : B → B → B) (lim : ι → ι → B → State dim → State dim → ℝ × Prop) :
    Hyp.Description ι (ι → ℝ) (State dim) (Fin (dim + 2) → Vec dim) B dim where
  riemann := riem
  indicator := ind
  flux := fun prec i U => f U (prec i)
  fluxDiv := Euler.fluxDivergence
  highOrder := Euler.fluxDivergence
  source := fun _ _ _ _ => 0
  stars := fun U_i _ U_j _ => (U_i, U_j)
  affineShift := fun _ _ _ _ => 0
  limiterBounds := bnds
  combine := comb
  limit := lim

end Aeos

end

end Ryujin
