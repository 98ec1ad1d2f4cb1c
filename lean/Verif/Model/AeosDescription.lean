import Verif.Model.Descriptions
import Verif.Model.AeosRiemann
import Verif.Model.AeosPrecompute

/-!
# Model of the Euler equations with arbitrary equation of state as handed to the hyperbolic step

`Aeos.description` leaves Riemann solver, indicator and limiter bounds open (conservation does not depend on them); here
all of them are those of the code.
-/

namespace Ryujin
namespace Aeos

open Euler (State)

noncomputable section

variable {ι : Type} {dim : ℕ}

/-- `EulerAEOS::Description` (euler_aeos/description.h:32-51) with its Riemann solver (riemann_solver.template.h:656-674),
indicator (indicator.h:189-265), flux (hyperbolic_system.h:1393-1424) and limiter bounds (limiter.h:262-440).  All of
them read the pressure, `gamma_min`, surrogate entropy and Harten entropy of a row from the precomputed values.  `lim` is
the limiter as seen by one row and column, see `IsLaneOf`; `strict` is `compute_strict_bounds()`. -/
def solver (P : Params) (lp : LimiterParams) (strict : Bool) (big evc_factor : ℝ)
    (lim : ι → ι → Bounds → State dim → State dim → ℝ × Prop) :
    Hyp.Description ι (ι → Eos.Prec) (State dim) (Fin (dim + 2) → Vec dim) Bounds dim where
  riemann := fun prec i j U_i U_j n => riemann P strict U_i (prec i).p U_j (prec j).p n
  indicator := fun prec i U_i row hd_i => ((row.map fun e => (e.2.1, e.2.2)).foldl (fun st e => st.accumulate P e.1 e.2)
    (IndicatorState.reset P (prec i).gamma_min (prec i).eta U_i)).alpha evc_factor hd_i
  flux := fun prec i U => f U (prec i).p
  fluxDiv := Euler.fluxDivergence
  highOrder := Euler.fluxDivergence
  source := fun _ _ _ _ => 0
  stars := fun U_i _ U_j _ => (U_i, U_j)
  affineShift := fun _ _ _ _ => 0
  limiterBounds := fun prec i U_i flux_i row hd_i =>
    (row.foldl (fun st e => st.accumulate P strict U_i flux_i e.U_j (prec e.j).s e.flux_j e.scaled_c e.affine_shift)
      (LimiterState.reset big (prec i).gamma_min)).relaxedBounds dim P lp hd_i
  combine := combineBounds
  limit := lim

/-- `Aeos.solver` with one lane per call. (hyperbolic_module.template.h:418, 874-878, 1031-1035, 1176) -/
def oneLane (P : Params) (lp : LimiterParams) (strict : Bool) (big evc_factor : ℝ) :
    Hyp.Description ι (ι → Eos.Prec) (State dim) (Fin (dim + 2) → Vec dim) Bounds dim :=
  solver P lp strict big evc_factor fun _ _ b U Q =>
    let r := limit P lp (fun _ : Fin 1 => b) (fun _ => U) (fun _ => Q) (fun _ => 0) (fun _ => 1)
    (r.1 0, r.2)

end

end Aeos
end Ryujin
