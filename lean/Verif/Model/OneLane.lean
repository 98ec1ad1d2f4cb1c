import Verif.Model.Descriptions
import Verif.Model.EulerRiemann

/-!
# The equations without SIMD vectorisation

`HyperbolicModule::step` runs every loop twice (`loop(Number(), n_internal, n_owned)` and `loop(VA(), 0, n_internal)`,
e.g. hyperbolic_module.template.h:418-420): once for single rows and once for groups of rows.  The descriptions below are those of the
single rows: every call of the Riemann solver and of the limiter has one lane.
-/

namespace Ryujin

noncomputable section

variable {ι : Type} {dim : ℕ}

/-- `Scalar.description` with one lane per call. (hyperbolic_module.template.h:418, 874-878, 1031-1035, 1176) -/
def Scalar.oneLane (fl : Flux dim) (q : StepParams) (draws : ι → ι → List ℝ) :
    Hyp.Description ι Unit State (Fin 1 → Vec dim) Bounds dim :=
  description fl q draws fun _ _ b U P =>
    let r := limit q.eps q.tiny (fun _ : Fin 1 => b) (fun _ => U) (fun _ => P) (fun _ => 0) (fun _ => 1)
    (r.1 0, r.2)

/-- `ShallowWater.description` with one lane per call. (hyperbolic_module.template.h:418, 874-878, 1031-1035, 1176) -/
def ShallowWater.oneLane (q : StepParams) (Z : ι → ℝ) :
    Hyp.Description ι Unit (State dim) (FluxContribution dim) Bounds dim :=
  description q Z fun _ _ b U P =>
    let r := limit q.p q.lp (fun _ : Fin 1 => b) (fun _ => U) (fun _ => P) (fun _ => 0) (fun _ => 1)
    (r.1 0, r.2)

/-- `Euler.description` with one lane per call. (hyperbolic_module.template.h:418, 874-878, 1031-1035, 1176) -/
def Euler.oneLane (p : Params) (lp : LimiterParams) (rp : RiemannParams) (evc_factor big : ℝ) :
    Hyp.Description ι Unit (State dim) (Fin (dim + 2) → Vec dim) Bounds dim :=
  description p lp big (fun _ _ U V n => riemann p rp (fun _ : Fin 1 => U) (fun _ => V) (fun _ => n) 0)
    (indicator p evc_factor) fun _ _ b U P =>
    let r := limit p lp (fun _ : Fin 1 => b) (fun _ => U) (fun _ => P) (fun _ => 0) (fun _ => 1)
    (r.1 0, r.2)

/-- `Euler.description` with `L` rows per call: row `i` is lane `lane i` of its group, `wave i j` and `lim i j` hold what the
lanes of the group of row `i` contain when the column of `j` is processed; the entry of row `i` itself is replaced by the
arguments of the call. (hyperbolic_module.template.h:418-420, 874-878, 1031-1035, 1176-1178) -/
def Euler.grouped {L : ℕ} (p : Params) (lp : LimiterParams) (rp : RiemannParams) (evc_factor big : ℝ) (lane : ι → Fin L)
    (wave : ι → ι → Fin L → State dim × State dim × Vec dim) (lim : ι → ι → Fin L → Bounds × State dim × State dim) :
    Hyp.Description ι Unit (State dim) (Fin (dim + 2) → Vec dim) Bounds dim :=
  description p lp big
    (fun i j U V n => riemann p rp (Function.update (fun l => (wave i j l).1) (lane i) U)
      (Function.update (fun l => (wave i j l).2.1) (lane i) V) (Function.update (fun l => (wave i j l).2.2) (lane i) n) (lane i))
    (indicator p evc_factor) fun i j b U P =>
    let r := limit p lp (Function.update (fun l => (lim i j l).1) (lane i) b)
      (Function.update (fun l => (lim i j l).2.1) (lane i) U) (Function.update (fun l => (lim i j l).2.2) (lane i) P)
      (fun _ => 0) (fun _ => 1)
    (r.1 (lane i), r.2)

end

end Ryujin
