import Verif.Model.EulerSystem

/-!
# Model of `source/euler/limiter.h` and `source/euler/limiter.template.h`

The default build is modelled (`EXPENSIVE_BOUNDS_CHECK`, `DEBUG_OUTPUT` and debug assertions off).
SIMD: all arguments are families indexed by the lanes `Fin L`; the scalar instantiation is `L = 1`.
The `break` statements of the Newton loop and the returned `success` flag join the lanes, as
`VectorizedArray::operator==` does.
-/

namespace Ryujin

open scoped BigOperators

noncomputable section

/-- The run-time parameters of a limiter's Newton iteration and relaxation
(`LimiterParameters`, euler/limiter.h:24-60; the other equations declare the same ones). -/
structure LimiterParams where
  newton_max_iterations : ℕ
  newton_tolerance : ℝ
  relaxation_factor : ℝ

/-- The quadratic Newton loop shared verbatim by `euler/limiter.template.h:161-281` and
`euler_aeos/limiter.template.h` (entropy part).  `psi l`, `dpsi l` evaluate the lane's limiting
functional and its derivative along `U + t P`, `lower l t` is `lower_bound` computed at `t`.
`fuel` is the number of remaining iterations, `n` the loop counter. -/
def newtonLoop {L : ℕ} (eps tolerance : ℝ) (psi dpsi lower : Fin L → ℝ → ℝ) :
    ℕ → ℕ → (Fin L → ℝ) → (Fin L → ℝ) → Prop → (Fin L → ℝ) × Prop
  | 0, _, t_l, _, success => (t_l, success)
  | fuel + 1, n, t_l, t_r, success =>
    -- `t_l = compare_and_apply_mask<greater_than>(psi_r, 0, t_r, t_l)`
    let t_l' : Fin L → ℝ := fun l => maskGt (psi l (t_r l)) 0 (t_r l) (t_l l)
    open Classical in
    -- `if (t_l == t_r) break;`
    if t_l' = t_r then (t_l', success)
    else
      -- `if (n == 0 && !(min(0, psi_l - lower_bound) == 0)) success = false;`
      let success' : Prop :=
        success ∧ ¬ (n = 0 ∧ ¬ ∀ l, min 0 (psi l (t_l' l) - lower l (t_l' l)) = 0)
      -- `if (max(0, t_r - t_l - tolerance) == 0) break;`
      if ∀ l, max 0 (t_r l - t_l' l - tolerance) = 0 then (t_l', success')
      else
        let r : Fin L → ℝ × ℝ := fun l =>
          quadraticNewtonStep eps (t_l' l) (t_r l) (psi l (t_l' l)) (psi l (t_r l))
            (dpsi l (t_l' l)) (dpsi l (t_r l)) (-1)
        newtonLoop eps tolerance psi dpsi lower fuel (n + 1) (fun l => (r l).1) (fun l => (r l).2)
          success'

/-- The density part shared verbatim by euler/limiter.template.h:38-104 and
euler_aeos/limiter.template.h (density part), one lane: the value of `t_r`. -/
def densityLimit (eps rho_min rho_max rho_U rho_P t_min t_max : ℝ) : ℝ :=
  let t_r := t_max
  let denominator := 1 / (|rho_P| + eps * rho_max)
  let t_r := maskLt rho_max (rho_U + t_r * rho_P) ((rho_max - rho_U) * denominator) t_r
  let t_r := maskLt (rho_U + t_r * rho_P) rho_min ((rho_U - rho_min) * denominator) t_r
  let t_r := min t_r t_max
  max t_r t_min

namespace Euler

variable {dim : ℕ}

/-- `Limiter::Bounds` (euler/limiter.h:142-147): `{rho_min, rho_max, s_min}`. -/
structure Bounds where
  rho_min : ℝ
  rho_max : ℝ
  s_min : ℝ

/-- Accumulated limiter data (euler/limiter.h:241-247). -/
structure LimiterState where
  bounds : Bounds
  rho_relaxation_numerator : ℝ
  rho_relaxation_denominator : ℝ
  s_interp_max : ℝ

/-- `reset` (euler/limiter.h:256-277); `big` is `std::numeric_limits<ScalarNumber>::max()`. -/
def LimiterState.reset (big : ℝ) : LimiterState := ⟨⟨big, 0, big⟩, 0, 0, 0⟩

/-- `accumulate` (euler/limiter.h:280-330). `s_j` is the precomputed specific entropy of column `j`,
`scaled_c = c_ij / d_ij`; `affine_shift` is the state added to the bar state. -/
def LimiterState.accumulate (p : Params) (U_i : State dim) (st : LimiterState)
    (U_j : State dim) (s_j : ℝ) (scaled_c : Vec dim) (affine_shift : State dim) : LimiterState :=
  let rho_ij_bar := (1 / 2) * (density U_i + density U_j + dot (momentum U_i - momentum U_j) scaled_c)
    + density affine_shift
  let beta_ij := 1
  let s_interp := specificEntropy p (fun k => (U_i k + U_j k) * (1 / 2))
  { bounds :=
      { rho_min := min st.bounds.rho_min rho_ij_bar
        rho_max := max st.bounds.rho_max rho_ij_bar
        s_min := min st.bounds.s_min s_j }
    rho_relaxation_numerator := st.rho_relaxation_numerator + beta_ij * (density U_i + density U_j)
    rho_relaxation_denominator := st.rho_relaxation_denominator + |beta_ij|
    s_interp_max := max st.s_interp_max s_interp }

/-- euler/limiter.h:343-348 (identical in the other three limiters, and euler_aeos/limiter.h): the local
relaxation radius `r_i = factor * hd_i ^ (1.5 / dim)`. -/
def relaxationRadius (dim : ℕ) (factor hd_i : ℝ) : ℝ :=
  let r := Real.sqrt hd_i
  let r := if dim = 2 then Real.sqrt r ^ 3 else if dim = 1 then r ^ 3 else r
  r * factor

/-- `bounds(hd_i)` (euler/limiter.h:333-369). -/
def LimiterState.relaxedBounds (dim : ℕ) (p : Params) (lp : LimiterParams) (st : LimiterState)
    (hd_i : ℝ) : Bounds :=
  let r_i := relaxationRadius dim lp.relaxation_factor hd_i
  let rho_relaxation := |st.rho_relaxation_numerator| / (|st.rho_relaxation_denominator| + p.eps)
  let relaxation := 2 * lp.relaxation_factor * rho_relaxation
  let b := st.bounds
  let entropy_relaxation := lp.relaxation_factor * (st.s_interp_max - b.s_min)
  { rho_min := max ((1 - r_i) * b.rho_min) (b.rho_min - relaxation)
    rho_max := min ((1 + r_i) * b.rho_max) (b.rho_max + relaxation)
    s_min := max ((1 - r_i) * b.s_min) (b.s_min - entropy_relaxation) }

/-- `combine_bounds` (euler/limiter.h:366-378). -/
def combineBounds (l r : Bounds) : Bounds :=
  ⟨min l.rho_min r.rho_min, max l.rho_max r.rho_max, min l.s_min r.s_min⟩

/-- `psi` along `U + t P` (euler/limiter.template.h:163-169, 203-209):
`relax_small * rho * (rho e) - s_min * rho * rho ^ gamma`. -/
def psi (p : Params) (s_min : ℝ) (U P : State dim) (t : ℝ) : ℝ :=
  let V : State dim := U + t • P
  (1 + p.vacuum_small * p.eps) * density V * internalEnergy V
    - s_min * density V * density V ^ p.gamma

/-- `dpsi` along `U + t P` (euler/limiter.template.h:275-279). -/
def dpsi (p : Params) (s_min : ℝ) (U P : State dim) (t : ℝ) : ℝ :=
  let V : State dim := U + t • P
  density V * dot (internalEnergyDerivative V) P
    + (internalEnergy V - (p.gamma + 1) * s_min * density V ^ p.gamma) * density P

/-- `lower_bound` at `U + t P` (euler/limiter.template.h:231-232). -/
def lowerBound (p : Params) (s_min : ℝ) (U P : State dim) (t : ℝ) : ℝ :=
  let V : State dim := U + t • P
  (1 - (1 + p.vacuum_large * p.eps)) * s_min * density V * density V ^ p.gamma

/-- Low-order density check (euler/limiter.template.h:49-56), one lane. -/
def densityInBounds (p : Params) (rho_min rho_max rho_U : ℝ) : Prop :=
  filterVacuumDensity p (max 0 (rho_U - (1 + p.vacuum_large * p.eps) * rho_max)) = 0 ∧
  filterVacuumDensity p (max 0 (rho_min - (1 + p.vacuum_large * p.eps) * rho_U)) = 0

/-- `Limiter::limit` (euler/limiter.template.h:16-323) on `L` SIMD lanes; the second component is the
returned `success` flag. -/
def limit {L : ℕ} (p : Params) (lp : LimiterParams) (bounds : Fin L → Bounds)
    (U P : Fin L → State dim) (t_min t_max : Fin L → ℝ) : (Fin L → ℝ) × Prop :=
  let success : Prop := ∀ l, densityInBounds p (bounds l).rho_min (bounds l).rho_max (density (U l))
  let t_r : Fin L → ℝ := fun l => densityLimit p.eps (bounds l).rho_min (bounds l).rho_max
    (density (U l)) (density (P l)) (t_min l) (t_max l)
  newtonLoop p.eps lp.newton_tolerance
    (fun l => psi p (bounds l).s_min (U l) (P l))
    (fun l => dpsi p (bounds l).s_min (U l) (P l))
    (fun l => lowerBound p (bounds l).s_min (U l) (P l))
    lp.newton_max_iterations 0 t_min t_r success

end Euler

end

end Ryujin
