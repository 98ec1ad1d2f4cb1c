import Verif.Model.ShallowWater
import Mathlib.Algebra.Order.Floor.Ring
import Mathlib.Algebra.Order.Archimedean.Real.Basic

/-!
# Model of the bathymetry read from a GeoTIFF image (source/shallow_water/initial_state_geotiff.h)

`Number` and `double` are `ℝ`; the C++ integer types are represented with their ranges: multiplication of two `int`
that leaves the range and the conversion of a floating point number outside of the range of `unsigned int` have no defined
result (`Outcome.ub`), `unsigned int` arithmetic is modulo `2^32`.  GDAL is represented by what it delivers (`Dataset`).
Not modelled: rounding, including the conversion of the raster to `float`, and the function parser.
-/

namespace Ryujin
namespace GeoTiff

noncomputable section

/-- Result of a function that may throw an exception (`AssertThrow`) or have undefined behaviour.
(shallow_water/initial_state_geotiff.h:149, 202, 289) -/
inductive Outcome (α : Type) where
  | ub
  | exception
  | ok (a : α)

/-- The run-time parameters (initial_state_geotiff.h:50-76). -/
structure Parameters where
  transformation : Fin 6 → ℝ
  useGeotiff : Bool
  useGeotiffOrigin : Bool

/-- What GDAL reports about the file (initial_state_geotiff.h:148-221): number of rasters, size of the data set and of the
raster band, whether `RasterIO` succeeds, the pixel in the column `i` (from the left) and the row `j` (from the top), and
the affine transformation, if there is one. -/
structure Dataset where
  rasterCount : ℕ
  sizeX : ℕ
  sizeY : ℕ
  bandX : ℕ
  bandY : ℕ
  readable : Bool
  pixel : ℕ → ℕ → ℝ
  geoTransform : Option (Fin 6 → ℝ)

/-- The members set by `read_in_raster` (initial_state_geotiff.h:385-389).  `inverse` is `none` if the division by the
determinant does not yield finite numbers. -/
structure Loaded where
  affine : Fin 6 → ℝ
  inverse : Option (Fin 6 → ℝ)
  sizeX : ℕ
  sizeY : ℕ
  raster : List ℝ

/-- The buffer filled by `RasterIO` (initial_state_geotiff.h:188-200): row by row, from the top. -/
def readRaster (D : Dataset) : List ℝ :=
  (List.range (D.sizeX * D.sizeY)).map fun k => D.pixel (k % D.sizeX) (k / D.sizeX)

/-- The linear part of the affine transformation with the origin of the file or of the parameters
(initial_state_geotiff.h:216-227); `none` is the exception. -/
def linearPart (P : Parameters) (D : Dataset) : Option (Fin 6 → ℝ) :=
  if P.useGeotiff then D.geoTransform
  else
    let t := P.transformation
    some ![t 0, t 1, t 2 * (-1), t 3, t 4, t 5 * (-1)]

/-- The shift of the origin (initial_state_geotiff.h:233-240). -/
def shiftOrigin (P : Parameters) (D : Dataset) (at' : Fin 6 → ℝ) : Fin 6 → ℝ :=
  if P.useGeotiff = false ∨ P.useGeotiffOrigin = false then
    let j_max : ℝ := (D.sizeY : ℝ) - 1
    ![P.transformation 0 - j_max * at' 2, at' 1, at' 2, P.transformation 3 - j_max * at' 5, at' 4, at' 5]
  else at'

/-- The inverse transformation (initial_state_geotiff.h:252-262).  If the determinant is zero the four coefficients are
infinite or not a number; the code does not check this. -/
def invert (at' : Fin 6 → ℝ) : Option (Fin 6 → ℝ) :=
  open Classical in
  let determinant := at' 1 * at' 5 - at' 2 * at' 4
  if determinant = 0 then none
  else
    let inv := 1 / determinant
    some ![at' 0, inv * at' 5, inv * (-at' 2), at' 3, inv * (-at' 4), inv * at' 1]

/-- `read_in_raster` (initial_state_geotiff.h:145-264); `none` is a file that cannot be opened. -/
def readInRaster (P : Parameters) : Option Dataset → Outcome Loaded
  | none => .exception
  | some D =>
    if D.rasterCount ≠ 1 then .exception
    else if ¬(D.sizeX = D.bandX ∧ D.sizeY = D.bandY) then .exception
    else if 2 ^ 31 ≤ D.sizeX * D.sizeY then .ub
    else if D.readable = false then .exception
    else
      match linearPart P D with
      | none => .exception
      | some at0 =>
        let at1 := shiftOrigin P D at0
        .ok { affine := at1, inverse := invert at1, sizeX := D.sizeX, sizeY := D.sizeY, raster := readRaster D }

/-- `apply_transformation` (initial_state_geotiff.h:295-302). -/
def applyTransformation (at' : Fin 6 → ℝ) (i j : ℝ) : ℝ × ℝ :=
  (at' 0 + at' 1 * i + at' 2 * j, at' 3 + at' 4 * i + at' 5 * j)

/-- `apply_inverse_transformation` (initial_state_geotiff.h:305-312). -/
def applyInverseTransformation (iat : Fin 6 → ℝ) (x y : ℝ) : ℝ × ℝ :=
  (iat 1 * (x - iat 0) + iat 2 * (y - iat 3), iat 4 * (x - iat 0) + iat 5 * (y - iat 3))

/-- `static_cast<unsigned int>` of an integral floating point number: not defined outside of the range.
(shallow_water/initial_state_geotiff.h:333-336) -/
def toUnsigned (z : ℤ) : Option ℕ := if 0 ≤ z ∧ z < 2 ^ 32 then some z.toNat else none

/-- The conversion as compiled for x86-64: to a 64-bit integer whose lower half is taken.
(shallow_water/initial_state_geotiff.h:333-336) -/
def toUnsignedWrapping (z : ℤ) : Option ℕ := some (z % 2 ^ 32).toNat

/-- The conversion as compiled for ARM: saturating. (shallow_water/initial_state_geotiff.h:333-336) -/
def toUnsignedSaturating (z : ℤ) : Option ℕ := some (min (2 ^ 32 - 1) z).toNat

/-- `std::fmod(x, 1.)`: the sign is that of `x`. (shallow_water/initial_state_geotiff.h:349-350) -/
def fmod1 (x : ℝ) : ℝ := open Classical in if 0 ≤ x then x - ⌊x⌋ else x - ⌈x⌉

/-- `compute_bathymetry` (initial_state_geotiff.h:315-362), after the image is loaded, for the coordinates `x`, `y` of the
point; `cast` is the conversion of floating point numbers to `unsigned int`. -/
def bathymetryAt (cast : ℤ → Option ℕ) (L : Loaded) (x y : ℝ) : Outcome ℝ :=
  open Classical in
  match L.inverse with
  | none => .ub
  | some iat =>
    let di := (applyInverseTransformation iat x y).1
    let dj := (applyInverseTransformation iat x y).2
    match cast ⌊di⌋, cast ⌈di⌉, cast ⌊dj⌋, cast ⌈dj⌉ with
    | some i_left, some i_right, some j_left, some j_right =>
      if i_left ≤ i_right ∧ i_right < L.sizeX ∧ j_left ≤ j_right ∧ j_right < L.sizeY then
        let i_ratio := fmod1 di
        let j_ratio := fmod1 dj
        match L.raster[(i_left + j_left * L.sizeX) % 2 ^ 32]?, L.raster[(i_right + j_left * L.sizeX) % 2 ^ 32]?,
          L.raster[(i_left + j_right * L.sizeX) % 2 ^ 32]?, L.raster[(i_right + j_right * L.sizeX) % 2 ^ 32]? with
        | some v_iljl, some v_irjl, some v_iljr, some v_irjr =>
          let v_jl := v_iljl * (1 - i_ratio) + v_irjl * i_ratio
          let v_jr := v_iljr * (1 - i_ratio) + v_irjr * i_ratio
          .ok (v_jl * (1 - j_ratio) + v_jr * j_ratio)
        | _, _, _, _ => .ub
      else .exception
    | _, _, _, _ => .ub

/-- The two coordinates of a point (initial_state_geotiff.h:323-326): in one dimension `y = 0`. -/
def coordinates {d : ℕ} (point : Vec (d + 1)) : ℝ × ℝ :=
  (point 0, if h : 1 < d + 1 then point ⟨1, h⟩ else 0)

/-- `compute_bathymetry` (initial_state_geotiff.h:315-362) and `initial_precomputations` (initial_state_geotiff.h:133-139),
with the image loaded on first use. -/
def computeBathymetry {d : ℕ} (cast : ℤ → Option ℕ) (P : Parameters) (file : Option Dataset) (point : Vec (d + 1)) :
    Outcome ℝ :=
  match readInRaster P file with
  | .ub => .ub
  | .exception => .exception
  | .ok L => bathymetryAt cast L (coordinates point).1 (coordinates point).2

/-- `compute` (initial_state_geotiff.h:117-131); `height` and `velocity` are the parsed functions of the parameter file. -/
def compute {d : ℕ} (cast : ℤ → Option ℕ) (P : Parameters) (file : Option Dataset)
    (height velocity : Vec (d + 1) → ℝ → ℝ) (point : Vec (d + 1)) (t : ℝ) : Outcome (ShallowWater.State (d + 1)) :=
  match computeBathymetry cast P file point with
  | .ub => .ub
  | .exception => .exception
  | .ok z =>
    let primitive : ShallowWater.State 1 := ![max 0 (height point t - z), velocity point t]
    .ok (ShallowWater.fromInitialState primitive)

end

end GeoTiff
end Ryujin
