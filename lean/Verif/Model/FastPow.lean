import Mathlib.Analysis.SpecialFunctions.Pow.Real
import Mathlib.Analysis.SpecialFunctions.Log.Basic
import Mathlib.Data.Int.Log

/-!
# The approximate power function `fast_pow` (simd.h, simd_fast_pow.template.h)

The vectorised single precision implementation is modelled for one lane and in exact real
arithmetic: floating point rounding is not modelled, the decimal constants of the source are taken
literally, and `VM_LN2`, `VM_LOG2E` and `VM_SQRT2` (constants of the vector class library) are the
real numbers they approximate.  Infinities and NaNs as arguments are not modelled.
-/

namespace Ryujin
namespace FastPow

/-- `enum class Bias` (simd.h:178-195). -/
inductive Bias
  | none
  | max
  | min

/-- The value of a single precision number that is the result of a power: a real number or
positive infinity (simd_fast_pow.template.h:149-158). -/
inductive PowValue
  | finite (r : ℝ)
  | infinity

open Classical in
/-- `round` and `roundi` of the vector class library: round to nearest, ties to even, as used in
simd_fast_pow.template.h:103, 116, 127, 137. -/
noncomputable def roundEven (a : ℝ) : ℤ :=
  if a - ⌊a⌋ < 1 / 2 then ⌊a⌋
  else if 1 / 2 < a - ⌊a⌋ then ⌊a⌋ + 1
  else if Even ⌊a⌋ then ⌊a⌋ else ⌊a⌋ + 1

/-- `exponent_f`: the binary exponent of a positive normal number
(simd_fast_pow.template.h:98). -/
noncomputable def exponentF (x : ℝ) : ℤ := Int.log 2 x

/-- `fraction_2`: the mantissa times one half, a number in `[1/2, 1)`
(simd_fast_pow.template.h:84-85). -/
noncomputable def fraction2 (x : ℝ) : ℝ := x / (2 : ℝ) ^ (exponentF x + 1)

/-- The constant `ln2f_hi` (simd_fast_pow.template.h:44). -/
noncomputable def ln2Hi : ℝ := 0.693359375

/-- `polynomial_8` with the coefficients of the logarithm (simd_fast_pow.template.h:47-55, 94). -/
noncomputable def logPoly (u : ℝ) : ℝ :=
  3.3333331174E-1 + (-2.4999993993E-1) * u + 2.0000714765E-1 * u ^ 2 + (-1.6668057665E-1) * u ^ 3
    + 1.4249322787E-1 * u ^ 4 + (-1.2420140846E-1) * u ^ 5 + 1.1676998740E-1 * u ^ 6
    + (-1.1514610310E-1) * u ^ 7 + 7.0376836292E-2 * u ^ 8

/-- `polynomial_5` with the coefficients of the exponential (simd_fast_pow.template.h:57-62,
133). -/
noncomputable def expPoly (w : ℝ) : ℝ :=
  1 / 2 + 1 / 6 * w + 1 / 24 * w ^ 2 + 1 / 120 * w ^ 3 + 1 / 720 * w ^ 4 + 1 / 5040 * w ^ 5

open Classical in
/-- The condition `blend` (simd_fast_pow.template.h:88). -/
noncomputable def blend (x1 : ℝ) : Bool := decide (Real.sqrt 2 * 0.5 < fraction2 x1)

/-- The reduced argument minus one (simd_fast_pow.template.h:85-92). -/
noncomputable def reduced (x1 : ℝ) : ℝ :=
  (if blend x1 then fraction2 x1 else fraction2 x1 + fraction2 x1) - 1

/-- The exponent `ef` that belongs to the reduced argument (simd_fast_pow.template.h:98-99). -/
noncomputable def reducedExponent (x1 : ℝ) : ℤ :=
  if blend x1 then exponentF x1 + 1 else exponentF x1

/-- `lg1` (simd_fast_pow.template.h:94-95). -/
noncomputable def lg1 (u : ℝ) : ℝ := logPoly u * (u * u * u)

/-- `lg` (simd_fast_pow.template.h:107). -/
noncomputable def lg (u : ℝ) : ℝ := (u - 0.5 * (u * u)) + lg1 u

/-- `x2err` (simd_fast_pow.template.h:111). -/
noncomputable def x2err (u : ℝ) : ℝ := 0.5 * u * u - 0.5 * (u * u)

/-- `lgerr` (simd_fast_pow.template.h:113). -/
noncomputable def lgerr (u : ℝ) : ℝ := (0.5 * (u * u) + (lg u - u)) - lg1 u

/-- `e1` (simd_fast_pow.template.h:103). -/
noncomputable def e1 (x1 y : ℝ) : ℤ := roundEven (reducedExponent x1 * y)

/-- `yr` (simd_fast_pow.template.h:104). -/
noncomputable def yr (x1 y : ℝ) : ℝ := reducedExponent x1 * y - e1 x1 y

/-- `e2` (simd_fast_pow.template.h:116). -/
noncomputable def e2 (x1 y : ℝ) : ℤ := roundEven (lg (reduced x1) * y * (1 / Real.log 2))

/-- `v` after line 121 (simd_fast_pow.template.h:118-121). -/
noncomputable def v (x1 y : ℝ) : ℝ :=
  (lg (reduced x1) * y - e2 x1 y * ln2Hi)
    - ((lgerr (reduced x1) + x2err (reduced x1)) * y - yr x1 y * Real.log 2)

/-- `e3` (simd_fast_pow.template.h:126-127). -/
noncomputable def e3 (x1 y : ℝ) : ℤ := roundEven (v x1 y * (1 / Real.log 2))

/-- The argument of the Taylor polynomial (simd_fast_pow.template.h:129). -/
noncomputable def taylorArg (x1 y : ℝ) : ℝ := v x1 y - e3 x1 y * Real.log 2

/-- The Taylor polynomial (simd_fast_pow.template.h:132-133). -/
noncomputable def taylor (w : ℝ) : ℝ := expPoly w * (w * w) + w + 1

/-- `ee` and `ei` (simd_fast_pow.template.h:136-137); a sum of integers, so rounding it changes
nothing. -/
noncomputable def ei (x1 y : ℝ) : ℤ := e1 x1 y + e2 x1 y + e3 x1 y

/-- `ej`, the biased exponent of the result (simd_fast_pow.template.h:139): the exponent of `z`
plus 127 is the content of the exponent bits of a normal number. -/
noncomputable def ej (x1 y : ℝ) : ℤ :=
  ei x1 y + (Int.log 2 |taylor (taylorArg x1 y)| + 127)

open Classical in
/-- `fast_pow_impl` (simd_fast_pow.template.h:33-163) for one lane.  Adding `ei` to the exponent
bits of `z` multiplies `z` with `2^ei` as long as the exponent stays in range (lines 141-148).  The
`Bias` argument has no name in the source: it is ignored.  The last step is
`wm_pow_case_x0` of the vector class library: infinity, one, or zero for a zero (or subnormal)
base and a negative, zero, or positive exponent. -/
noncomputable def fastPow (_bias : Bias) (x0 y : ℝ) : PowValue :=
  let x1 := |x0|
  if x1 < (2 : ℝ) ^ (-126 : ℤ) then
    if y < 0 then .infinity else if y = 0 then .finite 1 else .finite 0
  else if 0xFF ≤ ej x1 y ∨ 300 < ei x1 y then .infinity
  else if ej x1 y ≤ 0 ∨ ei x1 y < -300 then .finite 0
  else .finite (taylor (taylorArg x1 y) * (2 : ℝ) ^ ei x1 y)

end FastPow
end Ryujin
