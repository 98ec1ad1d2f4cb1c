import Verif.Model.GeoTiff
import Verif.Props.LakeAtRest
import Mathlib.Algebra.BigOperators.Fin
import Mathlib.Algebra.BigOperators.Field
import Mathlib.Tactic.FieldSimp
import Mathlib.Tactic.IntervalCases
import Mathlib.Tactic.Linarith
import Mathlib.Tactic.LinearCombination
import Mathlib.Topology.Algebra.Order.Floor
import Mathlib.Topology.Instances.Real.Lemmas

/-!
# C94 – bathymetry from a GeoTIFF image

Specification: `documented` is the position of the pixel in column `i` from the left and row `j` from the bottom as the
parameter file describes it, `fromBottom` the image with rows counted from the bottom, `interpolant` the sum over all pixels
of the pixel value times the tent functions of the two coordinates.
-/

namespace Ryujin
namespace GeoTiff

open scoped BigOperators

/-- The tent function: one at zero, zero outside of `(-1, 1)`, linear in between. -/
noncomputable def tent (t : ℝ) : ℝ := max 0 (1 - |t|)

/-- Bilinear interpolation of the values `f i j` at the integer points of `[0, nx - 1] × [0, ny - 1]`. -/
noncomputable def interpolant (nx ny : ℕ) (f : ℕ → ℕ → ℝ) (u v : ℝ) : ℝ :=
  ∑ i ∈ Finset.range nx, ∑ j ∈ Finset.range ny, f i j * (tent (u - i) * tent (v - j))

/-- The image with rows counted from the bottom. -/
def fromBottom (D : Dataset) (i j : ℕ) : ℝ := D.pixel i (D.sizeY - 1 - j)

/-- Where the parameters place the image point with coordinates `i` (to the right) and `j` (up) counted from the bottom left:
by the formula of the parameter `transformation`; or by the transformation of the file, whose second index counts rows down
from the top, and whose origin is replaced by the position of the bottom left pixel given in the parameters unless the
origin of the file is to be used. -/
noncomputable def documented (P : Parameters) (D : Dataset) (i j : ℝ) : ℝ × ℝ :=
  let t := P.transformation
  match P.useGeotiff, D.geoTransform with
  | true, some g =>
    if P.useGeotiffOrigin then
      (g 0 + g 1 * i + g 2 * ((D.sizeY : ℝ) - 1 - j), g 3 + g 4 * i + g 5 * ((D.sizeY : ℝ) - 1 - j))
    else (t 0 + g 1 * i - g 2 * j, t 3 + g 4 * i - g 5 * j)
  | _, _ => (t 0 + t 1 * i + t 2 * j, t 3 + t 4 * i + t 5 * j)

/-- The image can be used: one band of the right size with at most `2^31 - 1` pixels, and a transformation if it is to be
read from the file. -/
structure Usable (P : Parameters) (D : Dataset) : Prop where
  one : D.rasterCount = 1
  bandX : D.sizeX = D.bandX
  bandY : D.sizeY = D.bandY
  small : D.sizeX * D.sizeY < 2 ^ 31
  readable : D.readable = true
  transformation : P.useGeotiff = true → ∃ g, D.geoTransform = some g

/-- The two edge vectors of a pixel are linearly independent. -/
def Regular (P : Parameters) (D : Dataset) : Prop :=
  let o := documented P D 0 0
  let a := documented P D 1 0
  let b := documented P D 0 1
  (a.1 - o.1) * (b.2 - o.2) - (b.1 - o.1) * (a.2 - o.2) ≠ 0

/-! ### Tent functions -/

theorem tent_nonneg (t : ℝ) : 0 ≤ tent t := le_max_left _ _

theorem tent_continuous : Continuous tent := by
  unfold tent
  fun_prop

/-- The sum over the tents has two terms. -/
theorem tent_sum (n : ℕ) (f : ℕ → ℝ) (u : ℝ) (h0 : 0 ≤ u) (h1 : u ≤ (n : ℝ) - 1) :
    ∑ i ∈ Finset.range n, f i * tent (u - i)
      = f ⌊u⌋.toNat * (1 - (u - ⌊u⌋)) + f ⌈u⌉.toNat * (u - ⌊u⌋) := by
  obtain ⟨k, hk⟩ : ∃ k : ℕ, ⌊u⌋ = (k : ℤ) := ⟨⌊u⌋.toNat, (Int.toNat_of_nonneg (Int.floor_nonneg.2 h0)).symm⟩
  have hk' : ((⌊u⌋ : ℤ) : ℝ) = (k : ℝ) := by rw [hk]; simp
  have hle : (k : ℝ) ≤ u := by rw [← hk']; exact Int.floor_le u
  have hlt : u < (k : ℝ) + 1 := by rw [← hk']; exact Int.lt_floor_add_one u
  have hkn : k < n := by
    have : (k : ℝ) < (n : ℝ) := by linarith
    exact_mod_cast this
  rw [hk', hk, Int.toNat_natCast]
  have hc : f ⌈u⌉.toNat * (u - k) = f (k + 1) * (u - k) := by
    rcases eq_or_lt_of_le hle with h | h
    · rw [← h]; simp
    · have : ⌈u⌉ = ((k + 1 : ℕ) : ℤ) := by
        rw [Int.ceil_eq_iff]
        push_cast
        exact ⟨by linarith, by linarith⟩
      rw [this, Int.toNat_natCast]
  rw [hc]
  have hzero : ∀ i ∈ Finset.range n, i ≠ k → i ≠ k + 1 → f i * tent (u - i) = 0 := by
    intro i _ h2 h3
    have : tent (u - i) = 0 := by
      unfold tent
      refine max_eq_left ?_
      rcases lt_or_gt_of_ne h2 with h | h
      · have : (i : ℝ) + 1 ≤ k := by exact_mod_cast h
        have := le_abs_self (u - i)
        linarith
      · have h4 : k + 2 ≤ i := by omega
        have : (k : ℝ) + 2 ≤ i := by exact_mod_cast h4
        have := neg_abs_le (u - i)
        linarith
    rw [this, mul_zero]
  have tk : tent (u - k) = 1 - (u - k) := by
    unfold tent
    rw [abs_of_nonneg (by linarith)]
    exact max_eq_right (by linarith)
  have tk1 : tent (u - (k + 1 : ℕ)) = u - k := by
    unfold tent
    push_cast
    rw [abs_of_nonpos (by linarith)]
    rw [max_eq_right (by linarith)]
    ring
  rw [← Finset.sum_erase_add _ _ (Finset.mem_range.2 hkn), tk, add_comm]
  congr 1
  by_cases hk1 : k + 1 < n
  · have hm : k + 1 ∈ (Finset.range n).erase k := by simp [hk1]
    rw [← Finset.sum_erase_add _ _ hm, tk1, Finset.sum_eq_zero, zero_add]
    intro i hi
    rw [Finset.mem_erase, Finset.mem_erase] at hi
    exact hzero i hi.2.2 hi.2.1 hi.1
  · have : (n : ℝ) ≤ k + 1 := by exact_mod_cast not_lt.1 hk1
    have hu : u - k = 0 := by linarith
    rw [hu, mul_zero]
    refine Finset.sum_eq_zero fun i hi => ?_
    rw [Finset.mem_erase, Finset.mem_range] at hi
    exact hzero i (Finset.mem_range.2 hi.2) hi.1 (by omega)

theorem tent_partition (n : ℕ) (u : ℝ) (h0 : 0 ≤ u) (h1 : u ≤ (n : ℝ) - 1) :
    ∑ i ∈ Finset.range n, tent (u - i) = 1 := by
  have := tent_sum n (fun _ => 1) u h0 h1
  simp only [one_mul] at this
  rw [this]; ring

theorem tent_linear (n : ℕ) (u : ℝ) (h0 : 0 ≤ u) (h1 : u ≤ (n : ℝ) - 1) :
    ∑ i ∈ Finset.range n, (i : ℝ) * tent (u - i) = u := by
  rw [tent_sum n (fun i => (i : ℝ)) u h0 h1]
  have hf : ((⌊u⌋.toNat : ℕ) : ℝ) = ⌊u⌋ := by
    have : ((⌊u⌋.toNat : ℤ) : ℝ) = ⌊u⌋ := by rw [Int.toNat_of_nonneg (Int.floor_nonneg.2 h0)]
    exact_mod_cast this
  have hc : ((⌈u⌉.toNat : ℕ) : ℝ) = ⌈u⌉ := by
    have : ((⌈u⌉.toNat : ℤ) : ℝ) = ⌈u⌉ := by rw [Int.toNat_of_nonneg (Int.ceil_nonneg h0)]
    exact_mod_cast this
  simp only [hf, hc]
  rcases eq_or_lt_of_le (Int.floor_le u) with h | h
  · rw [← h]; simp
  · have : (⌈u⌉ : ℝ) = ⌊u⌋ + 1 := by
      have : ⌈u⌉ = ⌊u⌋ + 1 := by
        rw [Int.ceil_eq_iff]
        push_cast
        exact ⟨by linarith, le_of_lt (Int.lt_floor_add_one u)⟩
      rw [this]; simp
    rw [this]; ring

theorem interpolant_continuous (nx ny : ℕ) (f : ℕ → ℕ → ℝ) :
    Continuous fun q : ℝ × ℝ => interpolant nx ny f q.1 q.2 := by
  unfold interpolant
  have := tent_continuous
  fun_prop

theorem interpolant_bounds (nx ny : ℕ) (f : ℕ → ℕ → ℝ) (a b u v : ℝ) (hu0 : 0 ≤ u) (hu1 : u ≤ (nx : ℝ) - 1) (hv0 : 0 ≤ v)
    (hv1 : v ≤ (ny : ℝ) - 1) (h : ∀ i < nx, ∀ j < ny, a ≤ f i j ∧ f i j ≤ b) :
    a ≤ interpolant nx ny f u v ∧ interpolant nx ny f u v ≤ b := by
  have one : ∀ c : ℝ, ∑ i ∈ Finset.range nx, ∑ j ∈ Finset.range ny, c * (tent (u - i) * tent (v - j)) = c := by
    intro c
    have : ∀ i : ℕ, ∑ j ∈ Finset.range ny, c * (tent (u - i) * tent (v - j)) = c * tent (u - i) := by
      intro i
      simp_rw [← mul_assoc]
      rw [← Finset.mul_sum, tent_partition ny v hv0 hv1, mul_one]
    simp_rw [this]
    rw [← Finset.mul_sum, tent_partition nx u hu0 hu1, mul_one]
  constructor
  · rw [← one a]
    exact Finset.sum_le_sum fun i hi => Finset.sum_le_sum fun j hj =>
      mul_le_mul_of_nonneg_right (h i (Finset.mem_range.1 hi) j (Finset.mem_range.1 hj)).1
        (mul_nonneg (tent_nonneg _) (tent_nonneg _))
  · rw [← one b]
    exact Finset.sum_le_sum fun i hi => Finset.sum_le_sum fun j hj =>
      mul_le_mul_of_nonneg_right (h i (Finset.mem_range.1 hi) j (Finset.mem_range.1 hj)).2
        (mul_nonneg (tent_nonneg _) (tent_nonneg _))

theorem tent_int (a b : ℕ) : tent ((a : ℝ) - b) = if a = b then 1 else 0 := by
  unfold tent
  split
  · rename_i h; subst h; simp
  · rename_i h
    have : (1 : ℝ) ≤ |(a : ℝ) - b| := by
      have h1 : (1 : ℤ) ≤ |(a : ℤ) - b| := Int.one_le_abs (by omega)
      exact_mod_cast h1
    exact max_eq_left (by linarith)

theorem interpolant_pixel (nx ny : ℕ) (f : ℕ → ℕ → ℝ) (i j : ℕ) (hi : i < nx) (hj : j < ny) :
    interpolant nx ny f i j = f i j := by
  unfold interpolant
  simp only [tent_int]
  simp [hi, hj]

theorem interpolant_affine (nx ny : ℕ) (a b c u v : ℝ) (hu0 : 0 ≤ u) (hu1 : u ≤ (nx : ℝ) - 1) (hv0 : 0 ≤ v)
    (hv1 : v ≤ (ny : ℝ) - 1) : interpolant nx ny (fun i j => a + b * i + c * j) u v = a + b * u + c * v := by
  unfold interpolant
  have : ∀ i : ℕ, ∑ j ∈ Finset.range ny, (a + b * i + c * j) * (tent (u - i) * tent (v - j))
      = (a + c * v) * tent (u - i) + b * (i * tent (u - i)) := by
    intro i
    have e : ∀ j : ℕ, (a + b * i + c * j) * (tent (u - i) * tent (v - j))
        = ((a + b * i) * tent (u - i)) * tent (v - j) + (c * tent (u - i)) * (j * tent (v - j)) := fun j => by ring
    simp_rw [e]
    rw [Finset.sum_add_distrib, ← Finset.mul_sum, ← Finset.mul_sum, tent_partition ny v hv0 hv1, tent_linear ny v hv0 hv1]
    ring
  simp_rw [this]
  rw [Finset.sum_add_distrib, ← Finset.mul_sum, ← Finset.mul_sum, tent_partition nx u hu0 hu1, tent_linear nx u hu0 hu1]
  ring

/-! ### The transformation -/

/-- The affine transformation used by the program, in image coordinates (rows from the top). -/
noncomputable def finalAffine (P : Parameters) (D : Dataset) : Fin 6 → ℝ :=
  shiftOrigin P D ((linearPart P D).getD 0)

theorem readInRaster_ok {P : Parameters} {D : Dataset} (h : Usable P D) :
    readInRaster P (some D) = .ok
      { affine := finalAffine P D, inverse := invert (finalAffine P D), sizeX := D.sizeX, sizeY := D.sizeY,
        raster := readRaster D } := by
  have hl : ∃ a, linearPart P D = some a := by
    unfold linearPart
    split
    · rename_i hg; exact h.transformation hg
    · exact ⟨_, rfl⟩
  obtain ⟨a, ha⟩ := hl
  unfold readInRaster finalAffine
  simp [h.one, h.bandX, h.bandY, h.readable, ha]
  have := h.small
  rw [h.bandX, h.bandY] at this
  omega

/-- The transformation places the pixels as documented. -/
theorem finalAffine_documented {P : Parameters} {D : Dataset} (h : Usable P D) (i j : ℝ) :
    applyTransformation (finalAffine P D) i ((D.sizeY : ℝ) - 1 - j) = documented P D i j := by
  unfold applyTransformation finalAffine shiftOrigin linearPart documented
  cases hg : P.useGeotiff with
  | false =>
    simp only [Bool.false_eq_true, if_false, true_or, if_true, Option.getD_some]
    refine Prod.ext ?_ ?_
    · show P.transformation 0 - ((D.sizeY : ℝ) - 1) * (P.transformation 2 * -1) + P.transformation 1 * i
        + P.transformation 2 * -1 * ((D.sizeY : ℝ) - 1 - j) = _
      simp only; ring
    · show P.transformation 3 - ((D.sizeY : ℝ) - 1) * (P.transformation 5 * -1) + P.transformation 4 * i
        + P.transformation 5 * -1 * ((D.sizeY : ℝ) - 1 - j) = _
      simp only; ring
  | true =>
    obtain ⟨g, hd⟩ := h.transformation hg
    rw [hd]
    cases ho : P.useGeotiffOrigin with
    | true => simp
    | false =>
      simp only [if_true, or_true, Option.getD_some, Bool.false_eq_true, if_false]
      refine Prod.ext ?_ ?_
      · show P.transformation 0 - ((D.sizeY : ℝ) - 1) * g 2 + g 1 * i + g 2 * ((D.sizeY : ℝ) - 1 - j) = _
        simp only; ring
      · show P.transformation 3 - ((D.sizeY : ℝ) - 1) * g 5 + g 4 * i + g 5 * ((D.sizeY : ℝ) - 1 - j) = _
        simp only; ring

theorem regular_determinant {P : Parameters} {D : Dataset} (h : Usable P D) :
    Regular P D ↔ finalAffine P D 1 * finalAffine P D 5 - finalAffine P D 2 * finalAffine P D 4 ≠ 0 := by
  unfold Regular
  simp only
  rw [← finalAffine_documented h, ← finalAffine_documented h, ← finalAffine_documented h]
  unfold applyTransformation
  simp only
  rw [not_iff_not]
  constructor <;> intro h <;> linear_combination -h

/-- The inverse transformation is the inverse. -/
theorem invert_apply {at' iat : Fin 6 → ℝ} (h : invert at' = some iat) (i j : ℝ) :
    applyInverseTransformation iat (applyTransformation at' i j).1 (applyTransformation at' i j).2 = (i, j) := by
  unfold invert at h
  simp only at h
  split at h
  · exact absurd h (by simp)
  · rename_i hd
    have := Option.some.inj h
    subst this
    unfold applyInverseTransformation applyTransformation
    refine Prod.ext ?_ ?_
    · show 1 / (at' 1 * at' 5 - at' 2 * at' 4) * at' 5 * (at' 0 + at' 1 * i + at' 2 * j - at' 0)
        + 1 / (at' 1 * at' 5 - at' 2 * at' 4) * -at' 2 * (at' 3 + at' 4 * i + at' 5 * j - at' 3) = i
      field_simp
      ring
    · show 1 / (at' 1 * at' 5 - at' 2 * at' 4) * -at' 4 * (at' 0 + at' 1 * i + at' 2 * j - at' 0)
        + 1 / (at' 1 * at' 5 - at' 2 * at' 4) * at' 1 * (at' 3 + at' 4 * i + at' 5 * j - at' 3) = j
      field_simp
      ring

theorem invert_some {at' : Fin 6 → ℝ} (h : at' 1 * at' 5 - at' 2 * at' 4 ≠ 0) : ∃ iat, invert at' = some iat := by
  unfold invert
  simp [h]

/-! ### The interpolation -/

theorem readRaster_get (D : Dataset) (i j : ℕ) (hi : i < D.sizeX) (hj : j < D.sizeY) (hs : D.sizeX * D.sizeY < 2 ^ 31) :
    (readRaster D)[(i + j * D.sizeX) % 2 ^ 32]? = some (D.pixel i j) := by
  have hlt : i + j * D.sizeX < D.sizeX * D.sizeY := by
    calc i + j * D.sizeX < D.sizeX + j * D.sizeX := by omega
      _ = (j + 1) * D.sizeX := by ring
      _ ≤ D.sizeY * D.sizeX := Nat.mul_le_mul_right _ hj
      _ = D.sizeX * D.sizeY := Nat.mul_comm _ _
  rw [Nat.mod_eq_of_lt (by omega)]
  unfold readRaster
  rw [List.getElem?_map, List.getElem?_range hlt]
  simp only [Option.map_some]
  rw [Nat.add_mul_mod_self_right, Nat.mod_eq_of_lt hi, Nat.add_mul_div_right _ _ (by omega), Nat.div_eq_of_lt hi, zero_add]

/-- A conversion to `unsigned int` that is correct whenever the result is representable. -/
def Correct (cast : ℤ → Option ℕ) : Prop := ∀ z : ℤ, 0 ≤ z → z < 2 ^ 32 → cast z = some z.toNat

theorem correct_strict : Correct toUnsigned := fun _ h0 h1 => if_pos ⟨h0, h1⟩

theorem correct_wrapping : Correct toUnsignedWrapping := fun z h0 h1 => by
  simp only [toUnsignedWrapping]
  rw [Int.emod_eq_of_lt h0 h1]

theorem correct_saturating : Correct toUnsignedSaturating := fun z h0 h1 => by
  simp only [toUnsignedSaturating]
  rw [min_eq_right (by omega)]

/-- In image coordinates (rows from the top). -/
theorem bathymetryAt_image (cast : ℤ → Option ℕ) (hcast : Correct cast) {P : Parameters} {D : Dataset} (h : Usable P D)
    (hr : Regular P D) (u v : ℝ) (hu0 : 0 ≤ u) (hu1 : u ≤ (D.sizeX : ℝ) - 1) (hv0 : 0 ≤ v) (hv1 : v ≤ (D.sizeY : ℝ) - 1) :
    bathymetryAt cast
        { affine := finalAffine P D, inverse := invert (finalAffine P D), sizeX := D.sizeX, sizeY := D.sizeY,
          raster := readRaster D }
        (applyTransformation (finalAffine P D) u v).1 (applyTransformation (finalAffine P D) u v).2
      = .ok (interpolant D.sizeX D.sizeY D.pixel u v) := by
  obtain ⟨iat, hi⟩ := invert_some ((regular_determinant h).1 hr)
  have hx : ∀ {w : ℝ} {n : ℕ}, 0 ≤ w → w ≤ (n : ℝ) - 1 → n < 2 ^ 32 → cast ⌊w⌋ = some ⌊w⌋.toNat ∧
      cast ⌈w⌉ = some ⌈w⌉.toNat ∧ ⌊w⌋.toNat ≤ ⌈w⌉.toNat ∧ ⌈w⌉.toNat < n := by
    intro w n h0 h1 hn
    have a0 : 0 ≤ ⌊w⌋ := Int.floor_nonneg.2 h0
    have a1 : ⌊w⌋ ≤ ⌈w⌉ := Int.floor_le_ceil w
    have a2 : ⌈w⌉ ≤ (n : ℤ) - 1 := Int.ceil_le.2 (by push_cast; exact h1)
    exact ⟨hcast _ a0 (by omega), hcast _ (by omega) (by omega), by omega, by omega⟩
  have posX : 1 ≤ D.sizeX := by
    have : (1 : ℝ) ≤ D.sizeX := by linarith
    exact_mod_cast this
  have posY : 1 ≤ D.sizeY := by
    have : (1 : ℝ) ≤ D.sizeY := by linarith
    exact_mod_cast this
  have smallX : D.sizeX < 2 ^ 31 := lt_of_le_of_lt (Nat.le_mul_of_pos_right _ posY) h.small
  have smallY : D.sizeY < 2 ^ 31 := lt_of_le_of_lt (Nat.le_mul_of_pos_left _ posX) h.small
  obtain ⟨b1, b2, b3, b4⟩ := hx hu0 hu1 (by omega)
  obtain ⟨c1, c2, c3, c4⟩ := hx hv0 hv1 (by omega)
  unfold bathymetryAt
  simp only [hi, invert_apply hi, b1, b2, c1, c2]
  rw [if_pos ⟨b3, b4, c3, c4⟩]
  rw [readRaster_get D _ _ (by omega) (by omega) h.small, readRaster_get D _ _ b4 (by omega) h.small,
    readRaster_get D _ _ (by omega) c4 h.small, readRaster_get D _ _ b4 c4 h.small]
  simp only [fmod1, hu0, hv0, if_true]
  congr 1
  unfold interpolant
  have : ∀ i : ℕ, ∑ j ∈ Finset.range D.sizeY, D.pixel i j * (tent (u - i) * tent (v - j))
      = (D.pixel i ⌊v⌋.toNat * (1 - (v - ⌊v⌋)) + D.pixel i ⌈v⌉.toNat * (v - ⌊v⌋)) * tent (u - i) := by
    intro i
    rw [← tent_sum D.sizeY (fun j => D.pixel i j) v hv0 hv1, Finset.sum_mul]
    exact Finset.sum_congr rfl fun j _ => by ring
  simp_rw [this]
  rw [tent_sum D.sizeX (fun i => D.pixel i ⌊v⌋.toNat * (1 - (v - ⌊v⌋)) + D.pixel i ⌈v⌉.toNat * (v - ⌊v⌋)) u hu0 hu1]
  ring

/-- Counting rows from the bottom instead of the top. -/
theorem interpolant_flip (D : Dataset) (i j : ℝ) :
    interpolant D.sizeX D.sizeY D.pixel i ((D.sizeY : ℝ) - 1 - j) = interpolant D.sizeX D.sizeY (fromBottom D) i j := by
  unfold interpolant
  refine Finset.sum_congr rfl fun a _ => ?_
  rw [← Finset.sum_range_reflect]
  refine Finset.sum_congr rfl fun b hb => ?_
  have hb := Finset.mem_range.1 hb
  have e : ((D.sizeY - 1 - b : ℕ) : ℝ) = (D.sizeY : ℝ) - 1 - b := by
    rw [Nat.cast_sub (by omega), Nat.cast_sub (by omega)]; simp
  rw [e]
  unfold fromBottom
  have t : tent ((D.sizeY : ℝ) - 1 - j - ((D.sizeY : ℝ) - 1 - b)) = tent (j - b) := by
    unfold tent
    rw [show (D.sizeY : ℝ) - 1 - j - ((D.sizeY : ℝ) - 1 - b) = -(j - b) by ring, abs_neg]
  rw [t]

/-! ### The properties -/

/-- The image point with coordinates `(i, j)` from the bottom left lies in the image: between the outermost pixels. -/
structure Inside (D : Dataset) (i j : ℝ) : Prop where
  left : 0 ≤ i
  right : i ≤ (D.sizeX : ℝ) - 1
  bottom : 0 ≤ j
  top : j ≤ (D.sizeY : ℝ) - 1

/-- **C94 (bathymetry).** At every point inside of the image the bathymetry is computed, without exception and undefined
behaviour, and is the bilinear interpolation of the pixels placed where the parameters say. -/
theorem C94_bathymetry {d : ℕ} (cast : ℤ → Option ℕ) (hcast : Correct cast) {P : Parameters} {D : Dataset}
    (h : Usable P D) (hr : Regular P D) (point : Vec (d + 1)) (i j : ℝ) (hin : Inside D i j)
    (hp : coordinates point = documented P D i j) :
    computeBathymetry cast P (some D) point = .ok (interpolant D.sizeX D.sizeY (fromBottom D) i j) := by
  unfold computeBathymetry
  rw [readInRaster_ok h]
  simp only
  rw [hp, ← finalAffine_documented h,
    bathymetryAt_image cast hcast h hr i _ hin.left hin.right (by linarith [hin.top]) (by linarith [hin.bottom]),
    interpolant_flip]

/-- **C94 (pixels).** At the position of a pixel the bathymetry is the value of the pixel. -/
theorem C94_pixel {d : ℕ} (cast : ℤ → Option ℕ) (hcast : Correct cast) {P : Parameters} {D : Dataset}
    (h : Usable P D) (hr : Regular P D) (point : Vec (d + 1)) (i j : ℕ) (hi : i < D.sizeX) (hj : j < D.sizeY)
    (hp : coordinates point = documented P D i j) :
    computeBathymetry cast P (some D) point = .ok (D.pixel i (D.sizeY - 1 - j)) := by
  have hi' : (i : ℝ) + 1 ≤ D.sizeX := by exact_mod_cast hi
  have hj' : (j : ℝ) + 1 ≤ D.sizeY := by exact_mod_cast hj
  rw [C94_bathymetry cast hcast h hr point i j
    ⟨Nat.cast_nonneg i, by linarith, Nat.cast_nonneg j, by linarith⟩ hp, interpolant_pixel _ _ _ _ _ hi hj]
  rfl

/-- **C94 (range).** The bathymetry lies between the smallest and the largest pixel. -/
theorem C94_range {d : ℕ} (cast : ℤ → Option ℕ) (hcast : Correct cast) {P : Parameters} {D : Dataset}
    (h : Usable P D) (hr : Regular P D) (point : Vec (d + 1)) (i j : ℝ) (hin : Inside D i j)
    (hp : coordinates point = documented P D i j) (a b : ℝ)
    (hab : ∀ k < D.sizeX, ∀ l < D.sizeY, a ≤ D.pixel k l ∧ D.pixel k l ≤ b) :
    ∃ z, computeBathymetry cast P (some D) point = .ok z ∧ a ≤ z ∧ z ≤ b :=
  ⟨_, C94_bathymetry cast hcast h hr point i j hin hp,
    interpolant_bounds _ _ _ a b i j hin.left hin.right hin.bottom hin.top fun k hk l hl =>
      hab k hk _ (by omega)⟩

/-- The image coordinates are affine functions of the position. -/
theorem image_coordinates {P : Parameters} {D : Dataset} (h : Usable P D) (hr : Regular P D) :
    ∃ w : ℝ × ℝ → ℝ × ℝ, Continuous w ∧ ∀ i j, w (documented P D i j) = (i, j) := by
  obtain ⟨iat, hi⟩ := invert_some ((regular_determinant h).1 hr)
  refine ⟨fun q => ((applyInverseTransformation iat q.1 q.2).1,
    (D.sizeY : ℝ) - 1 - (applyInverseTransformation iat q.1 q.2).2), ?_, fun i j => ?_⟩
  · unfold applyInverseTransformation
    fun_prop
  · simp only [← finalAffine_documented h, invert_apply hi]
    simp

/-- **C94 (continuity).** The bathymetry is a continuous function of the position: on the image it is the restriction of a
function that is continuous on the plane. -/
theorem C94_continuous {P : Parameters} {D : Dataset} (h : Usable P D) (hr : Regular P D) :
    ∃ Z : ℝ × ℝ → ℝ, Continuous Z ∧ ∀ (d : ℕ) (cast : ℤ → Option ℕ), Correct cast → ∀ (point : Vec (d + 1)) (i j : ℝ),
      Inside D i j → coordinates point = documented P D i j →
      computeBathymetry cast P (some D) point = .ok (Z (coordinates point)) := by
  obtain ⟨w, hw, hd⟩ := image_coordinates h hr
  refine ⟨fun q => interpolant D.sizeX D.sizeY (fromBottom D) (w q).1 (w q).2,
    (interpolant_continuous D.sizeX D.sizeY (fromBottom D)).comp hw, fun d cast hc point i j hin hp => ?_⟩
  simp only [hp, hd]
  exact C94_bathymetry cast hc h hr point i j hin hp

/-- **C94 (slopes).** An image of a plane – each pixel has the height of the plane at the position of the pixel – is
reproduced exactly at every point of the image. -/
theorem C94_slope {d : ℕ} (cast : ℤ → Option ℕ) (hcast : Correct cast) {P : Parameters} {D : Dataset}
    (h : Usable P D) (hr : Regular P D) (a b c : ℝ)
    (hpl : ∀ k < D.sizeX, ∀ l < D.sizeY, fromBottom D k l = a + b * (documented P D k l).1 + c * (documented P D k l).2)
    (point : Vec (d + 1)) (i j : ℝ) (hin : Inside D i j) (hp : coordinates point = documented P D i j) :
    computeBathymetry cast P (some D) point = .ok (a + b * (coordinates point).1 + c * (coordinates point).2) := by
  rw [C94_bathymetry cast hcast h hr point i j hin hp, hp]
  have aff : ∀ i j : ℝ, ∃ (_ : True), a + b * (documented P D i j).1 + c * (documented P D i j).2
      = (a + b * (documented P D 0 0).1 + c * (documented P D 0 0).2)
        + (b * ((documented P D 1 0).1 - (documented P D 0 0).1) + c * ((documented P D 1 0).2 - (documented P D 0 0).2)) * i
        + (b * ((documented P D 0 1).1 - (documented P D 0 0).1) + c * ((documented P D 0 1).2 - (documented P D 0 0).2)) * j := by
    intro i j
    refine ⟨trivial, ?_⟩
    simp only [← finalAffine_documented h, applyTransformation]
    ring
  congr 1
  rw [(aff i j).2, ← interpolant_affine D.sizeX D.sizeY _ _ _ i j hin.left hin.right hin.bottom hin.top]
  unfold interpolant
  refine Finset.sum_congr rfl fun k hk => Finset.sum_congr rfl fun l hl => ?_
  rw [hpl k (Finset.mem_range.1 hk) l (Finset.mem_range.1 hl), (aff k l).2]

/-- **C94 (files).** A missing file, more than one raster, a raster of another size, a failure to read and a missing
transformation are reported by an exception. -/
theorem C94_rejects {d : ℕ} (cast : ℤ → Option ℕ) (P : Parameters) (file : Option Dataset) (point : Vec (d + 1))
    (hs : ∀ D, file = some D → D.sizeX * D.sizeY < 2 ^ 31)
    (h : ∀ D, file = some D → ¬Usable P D) : computeBathymetry cast P file point = .exception := by
  have : readInRaster P file = .exception := by
    cases file with
    | none => rfl
    | some D =>
      have h := h D rfl
      have hs := hs D rfl
      by_cases h1 : D.rasterCount = 1
      · by_cases h2 : D.sizeX = D.bandX ∧ D.sizeY = D.bandY
        · by_cases h3 : D.readable = true
          · have hl : linearPart P D = none := by
              by_contra hne
              refine h ⟨h1, h2.1, h2.2, hs, h3, fun hg => ?_⟩
              unfold linearPart at hne
              rw [if_pos hg] at hne
              exact Option.ne_none_iff_exists'.1 hne
            unfold readInRaster
            simp only [hl]
            rw [if_neg (not_not.2 h1), if_neg (not_not.2 h2), if_neg (by omega)]
            split <;> rfl
          · unfold readInRaster
            simp only
            rw [if_neg (not_not.2 h1), if_neg (not_not.2 h2), if_neg (by omega), if_pos (by simpa using h3)]
        · unfold readInRaster
          simp only
          rw [if_neg (not_not.2 h1), if_pos h2]
      · unfold readInRaster
        simp only
        rw [if_pos h1]
  unfold computeBathymetry
  rw [this]

/-- **C94 (outside of the image, partial).** Above the last column or below the last row (rows counted from the top) an
exception is thrown – provided the other coordinate is not negative; see `C94_outside_violation`. -/
theorem C94_outside_partial {d : ℕ} (cast : ℤ → Option ℕ) (hcast : Correct cast) {P : Parameters} {D : Dataset}
    (h : Usable P D) (hr : Regular P D) (point : Vec (d + 1)) (i j : ℝ) (hout : ¬Inside D i j)
    (hi : 0 ≤ i) (hi' : i ≤ 2 ^ 32 - 1) (hj : j ≤ (D.sizeY : ℝ) - 1) (hj' : (D.sizeY : ℝ) - 2 ^ 32 ≤ j)
    (hp : coordinates point = documented P D i j) :
    computeBathymetry cast P (some D) point = .exception := by
  obtain ⟨iat, hinv⟩ := invert_some ((regular_determinant h).1 hr)
  unfold computeBathymetry
  rw [readInRaster_ok h]
  simp only
  rw [hp, ← finalAffine_documented h]
  have hx : ∀ {w : ℝ}, 0 ≤ w → w ≤ 2 ^ 32 - 1 → cast ⌊w⌋ = some ⌊w⌋.toNat ∧ cast ⌈w⌉ = some ⌈w⌉.toNat := by
    intro w h0 h1
    have a0 : 0 ≤ ⌊w⌋ := Int.floor_nonneg.2 h0
    have a1 : ⌊w⌋ ≤ ⌈w⌉ := Int.floor_le_ceil w
    have a2 : ⌈w⌉ ≤ (2 : ℤ) ^ 32 - 1 := Int.ceil_le.2 (by push_cast; linarith)
    exact ⟨hcast _ a0 (by omega), hcast _ (by omega) (by omega)⟩
  obtain ⟨b1, b2⟩ := hx hi hi'
  obtain ⟨c1, c2⟩ := hx (w := (D.sizeY : ℝ) - 1 - j) (by linarith) (by linarith)
  unfold bathymetryAt
  simp only [hinv, invert_apply hinv, b1, b2, c1, c2]
  rw [if_neg]
  rintro ⟨-, h1, -, h2⟩
  have ceil_lt : ∀ {w : ℝ} {n : ℕ}, ⌈w⌉.toNat < n → w ≤ (n : ℝ) - 1 := by
    intro w n hw
    have : ⌈w⌉ ≤ (n : ℤ) - 1 := by omega
    have := Int.ceil_le.1 this
    push_cast at this
    exact this
  exact hout ⟨hi, ceil_lt h1, by linarith [ceil_lt h2], hj⟩

/-- **C94 (outside of the image, negation).** Left of the first column, or above the first row, a negative number is
converted to `unsigned int`: by the C++ standard the behaviour is undefined. -/
theorem C94_outside_violation {d : ℕ} {P : Parameters} {D : Dataset} (h : Usable P D) (hr : Regular P D)
    (point : Vec (d + 1)) (i j : ℝ) (hout : i < 0 ∨ (D.sizeY : ℝ) - 1 < j) (hp : coordinates point = documented P D i j) :
    computeBathymetry toUnsigned P (some D) point = .ub := by
  obtain ⟨iat, hinv⟩ := invert_some ((regular_determinant h).1 hr)
  unfold computeBathymetry
  rw [readInRaster_ok h]
  simp only
  rw [hp, ← finalAffine_documented h]
  have neg : ∀ {w : ℝ}, w < 0 → toUnsigned ⌊w⌋ = none := by
    intro w hw
    have : ¬(0 ≤ ⌊w⌋ ∧ ⌊w⌋ < 2 ^ 32) := fun hh => absurd (Int.floor_nonneg.1 hh.1) (by linarith)
    exact if_neg this
  unfold bathymetryAt
  simp only [hinv, invert_apply hinv]
  rcases hout with h1 | h1
  · rw [neg h1]
  · rw [neg (w := (D.sizeY : ℝ) - 1 - j) (by linarith)]
    split <;> simp_all

/-- **C94 (outside of the image, x86-64).** With the conversion as compiled for x86-64 an exception is thrown at every point
outside of the image (up to `2^31` pixels away). -/
theorem C94_outside_wrapping {d : ℕ} {P : Parameters} {D : Dataset} (h : Usable P D) (hr : Regular P D)
    (hX : 0 < D.sizeX) (hY : 0 < D.sizeY)
    (point : Vec (d + 1)) (i j : ℝ) (hout : ¬Inside D i j)
    (hi : -2 ^ 31 ≤ i) (hi' : i ≤ 2 ^ 31) (hj : (D.sizeY : ℝ) - 1 - 2 ^ 31 ≤ j) (hj' : j ≤ (D.sizeY : ℝ) - 1 + 2 ^ 31)
    (hp : coordinates point = documented P D i j) :
    computeBathymetry toUnsignedWrapping P (some D) point = .exception := by
  obtain ⟨iat, hinv⟩ := invert_some ((regular_determinant h).1 hr)
  have smallX : D.sizeX < 2 ^ 31 := lt_of_le_of_lt (Nat.le_mul_of_pos_right _ hY) h.small
  have smallY : D.sizeY < 2 ^ 31 := lt_of_le_of_lt (Nat.le_mul_of_pos_left _ hX) h.small
  have key : ∀ {w : ℝ} {n : ℕ}, n < 2 ^ 31 → -2 ^ 31 ≤ w → w ≤ 2 ^ 31 →
      (⌊w⌋ % 2 ^ 32).toNat ≤ (⌈w⌉ % 2 ^ 32).toNat → (⌈w⌉ % 2 ^ 32).toNat < n → 0 ≤ w ∧ w ≤ (n : ℝ) - 1 := by
    intro w n hn h0 h1 h2 h3
    have a0 : -2 ^ 31 ≤ ⌊w⌋ := Int.le_floor.2 (by push_cast; linarith)
    have a1 : ⌊w⌋ ≤ ⌈w⌉ := Int.floor_le_ceil w
    have a2 : ⌈w⌉ ≤ (2 : ℤ) ^ 31 := Int.ceil_le.2 (by push_cast; linarith)
    have a3 : ⌈w⌉ ≤ ⌊w⌋ + 1 := Int.ceil_le_floor_add_one w
    have a4 : 0 ≤ ⌊w⌋ ∧ ⌈w⌉ ≤ (n : ℤ) - 1 := by omega
    refine ⟨Int.floor_nonneg.1 a4.1, ?_⟩
    have := Int.ceil_le.1 a4.2
    push_cast at this
    exact this
  unfold computeBathymetry
  rw [readInRaster_ok h]
  simp only
  rw [hp, ← finalAffine_documented h]
  unfold bathymetryAt
  simp only [hinv, invert_apply hinv, toUnsignedWrapping]
  rw [if_neg]
  rintro ⟨h1, h2, h3, h4⟩
  have e1 := key smallX hi hi' h1 h2
  have e2 := key (w := (D.sizeY : ℝ) - 1 - j) smallY (by linarith) (by linarith) h3 h4
  exact hout ⟨e1.1, e1.2, by linarith [e2.2], by linarith [e2.1]⟩

/-- **C94 (degenerate transformation, negation).** A transformation that maps the image to a line is not rejected: the
behaviour is undefined at every point. -/
theorem C94_degenerate_violation {d : ℕ} (cast : ℤ → Option ℕ) {P : Parameters} {D : Dataset} (h : Usable P D)
    (hr : ¬Regular P D) (point : Vec (d + 1)) : computeBathymetry cast P (some D) point = .ub := by
  have : invert (finalAffine P D) = none := by
    have := mt (regular_determinant h).2 hr
    unfold invert
    simp [not_not.1 this]
  unfold computeBathymetry
  rw [readInRaster_ok h]
  simp only [bathymetryAt, this]

/-- **C94 (initial state).** Wherever the bathymetry is computed, the initial state is computed from the same bathymetry: the
depth is not negative, the free surface is at the given height or at the ground where this is higher, the momentum is the
depth times the given velocity in the first direction. -/
theorem C94_state {d : ℕ} (cast : ℤ → Option ℕ) (P : Parameters) (file : Option Dataset)
    (height velocity : Vec (d + 1) → ℝ → ℝ) (point : Vec (d + 1)) (t z : ℝ)
    (h : computeBathymetry cast P file point = .ok z) :
    ∃ U, compute cast P file height velocity point t = .ok U ∧ 0 ≤ ShallowWater.waterDepth U ∧
      ShallowWater.waterDepth U + z = max (height point t) z ∧
      ShallowWater.momentum U = fun k => if k = 0 then ShallowWater.waterDepth U * velocity point t else 0 := by
  unfold compute
  rw [h]
  refine ⟨_, rfl, le_max_left _ _, ?_, ?_⟩
  · show max 0 (height point t - z) + z = _
    rw [max_add, zero_add, sub_add_cancel, max_comm]
  · funext k
    show (if hk : k.1 < 1 then (![max 0 (height point t - z), velocity point t] : Fin 2 → ℝ) (Fin.succ ⟨k.1, hk⟩) else 0)
      * max 0 (height point t - z) = if k = 0 then max 0 (height point t - z) * velocity point t else 0
    by_cases hk : k = 0
    · subst hk
      simp [mul_comm]
    · have : ¬k.1 < 1 := fun h1 => hk (Fin.ext (by rw [Fin.val_zero]; omega))
      rw [dif_neg this, if_neg hk, zero_mul]

/-- **C94 (lake at rest).** With a constant water height and without velocity the initial state is a lake at rest over the
bathymetry of the image – hence a fixed point of the scheme by `C38_step_partial` – unless the water is thinner than the
dry state cutoff. -/
theorem C94_lake {ι : Type} {d : ℕ} (cast : ℤ → Option ℕ) (P : Parameters) (file : Option Dataset)
    (position : ι → Vec (d + 1)) (η t : ℝ) (p : ShallowWater.Params) (Z : ι → ℝ) (U : ι → ShallowWater.State (d + 1))
    (hZ : ∀ i, computeBathymetry cast P file (position i) = .ok (Z i))
    (hU : ∀ i, compute cast P file (fun _ _ => η) (fun _ _ => 0) (position i) t = .ok (U i))
    (hthin : ∀ i, Z i < η → ShallowWater.cutoffMollified p ≤ η - Z i) : ShallowWater.LakeAtRest p Z η U := by
  intro i
  obtain ⟨V, hV, h0, h1, h2⟩ := C94_state cast P file (fun _ _ => η) (fun _ _ => 0) (position i) t (Z i) (hZ i)
  rw [hU i] at hV
  injection hV with hV
  subst hV
  refine ⟨?_, ?_⟩
  · rw [h2]; funext k; simp
  · rcases lt_or_ge (Z i) η with h | h
    · rw [max_eq_left h.le] at h1
      exact Or.inl ⟨by linarith, by linarith [hthin i h], h1⟩
    · rw [max_eq_right h] at h1
      exact Or.inr ⟨by linarith, h⟩

/-! ### Example: a sheared image of 3 × 2 pixels -/

/-- Pixel values `10 i + j`, rows from the top. -/
def exampleImage : Dataset :=
  { rasterCount := 1, sizeX := 3, sizeY := 2, bandX := 3, bandY := 2, readable := true,
    pixel := fun i j => 10 * i + j, geoTransform := some ![100, 2, 0, 50, 0, -2] }

/-- The pixels are parallelograms. -/
noncomputable def exampleManual : Parameters := ⟨![1, 2, 1, 5, 0, 3], false, false⟩

def exampleFile : Parameters := ⟨![1, 2, 1, 5, 0, 3], true, false⟩

theorem example_usable (P : Parameters) : Usable P exampleImage :=
  ⟨rfl, rfl, rfl, by norm_num [exampleImage], rfl, fun _ => ⟨_, rfl⟩⟩

theorem example_regular : Regular exampleManual exampleImage := by
  simp only [Regular, documented, exampleManual]
  show (![1, 2, 1, 5, 0, 3] 0 + ![1, 2, 1, 5, 0, 3] 1 * 1 + ![1, 2, 1, 5, 0, 3] 2 * 0 - _) * _ - _ ≠ (0 : ℝ)
  simp

theorem example_regular_file : Regular exampleFile exampleImage := by
  simp [Regular, documented, exampleFile, exampleImage]

/-- The pixel in column 2, row 1 from the bottom, at `x = 1 + 2 * 2 + 1`, `y = 5 + 3`. -/
example : computeBathymetry toUnsigned exampleManual (some exampleImage) (![6, 8] : Vec 2) = .ok 20 := by
  have := C94_pixel toUnsigned correct_strict (example_usable exampleManual) example_regular (![6, 8] : Vec 2) 2 1
    (by norm_num [exampleImage]) (by norm_num [exampleImage])
    (by simp [coordinates, documented, exampleManual]; norm_num)
  rw [this]
  norm_num [exampleImage]

/-- The centre of the bottom left pixel square, with the transformation of the file and the origin `(1, 5)`. -/
example : computeBathymetry toUnsigned exampleFile (some exampleImage) (![2, 6] : Vec 2) = .ok 5.5 := by
  have := C94_bathymetry toUnsigned correct_strict (example_usable exampleFile) example_regular_file (![2, 6] : Vec 2) 0.5 0.5
    ⟨by norm_num, by norm_num [exampleImage], by norm_num, by norm_num [exampleImage]⟩
    (by simp [coordinates, documented, exampleFile, exampleImage]; norm_num)
  rw [this]
  congr 1
  simp only [interpolant, exampleImage, Finset.sum_range_succ, Finset.sum_range_zero, fromBottom, tent]
  norm_num [abs_of_nonneg, abs_of_nonpos]

/-- The example image is a plane: `z = 1 + 5 (x - 1) - 2 (y - 5)` at `x = 1 + 2 i + j`, `y = 5 + 3 j`. -/
example : computeBathymetry toUnsigned exampleManual (some exampleImage) (![3, 6] : Vec 2) = .ok 9 := by
  have := C94_slope toUnsigned correct_strict (example_usable exampleManual) example_regular (1 - 5 + 10) 5 (-2)
    (fun k _ l hl => by
      have hl : l < 2 := hl
      have : fromBottom exampleImage k l = 10 * k + (1 - l) := by
        simp only [fromBottom, exampleImage]
        interval_cases l <;> simp
      rw [this]
      simp [documented, exampleManual]
      ring)
    (![3, 6] : Vec 2) (5 / 6) (1 / 3)
    ⟨by norm_num, by norm_num [exampleImage], by norm_num, by norm_num [exampleImage]⟩
    (by simp [coordinates, documented, exampleManual]; norm_num)
  rw [this]
  congr 1
  simp [coordinates]; norm_num

/-- A point left of the image. -/
example : computeBathymetry toUnsigned exampleManual (some exampleImage) (![0, 5] : Vec 2) = .ub :=
  C94_outside_violation (example_usable exampleManual) example_regular (![0, 5] : Vec 2) (-0.5) 0 (Or.inl (by norm_num))
    (by simp [coordinates, documented, exampleManual]; norm_num)

example : computeBathymetry toUnsignedWrapping exampleManual (some exampleImage) (![0, 5] : Vec 2) = .exception :=
  C94_outside_wrapping (example_usable exampleManual) example_regular (by norm_num [exampleImage])
    (by norm_num [exampleImage]) (![0, 5] : Vec 2) (-0.5) 0
    (fun h => absurd h.left (by norm_num)) (by norm_num) (by norm_num) (by norm_num [exampleImage])
    (by norm_num [exampleImage]) (by simp [coordinates, documented, exampleManual]; norm_num)

/-- **C94 (outside of the image, ARM, negation).** With a saturating conversion a value is returned for a point outside of the
image. -/
theorem C94_saturating_violation : ∃ (P : Parameters) (D : Dataset) (point : Vec 2) (i j z : ℝ), Usable P D ∧ Regular P D ∧
    ¬Inside D i j ∧ coordinates point = documented P D i j ∧
    computeBathymetry toUnsignedSaturating P (some D) point = .ok z := by
  refine ⟨exampleManual, exampleImage, ![0, 5], -0.5, 0, 1, example_usable _, example_regular,
    fun h => absurd h.left (by norm_num), by simp [coordinates, documented, exampleManual]; norm_num, ?_⟩
  obtain ⟨iat, hinv⟩ := invert_some ((regular_determinant (example_usable exampleManual)).1 example_regular)
  have hp : coordinates (![0, 5] : Vec 2) = documented exampleManual exampleImage (-0.5) 0 := by
    simp [coordinates, documented, exampleManual]; norm_num
  have f1 : ⌊(-0.5 : ℝ)⌋ = -1 := by rw [Int.floor_eq_iff]; norm_num
  have f2 : ⌈(-0.5 : ℝ)⌉ = 0 := by rw [Int.ceil_eq_iff]; norm_num
  have f3 : (exampleImage.sizeY : ℝ) - 1 - 0 = 1 := by norm_num [exampleImage]
  have f4 : ⌊(1 : ℝ)⌋ = 1 := Int.floor_one
  have f5 : ⌈(1 : ℝ)⌉ = 1 := Int.ceil_one
  have g1 : toUnsignedSaturating (-1) = some 0 := rfl
  have g2 : toUnsignedSaturating 0 = some 0 := rfl
  have g3 : toUnsignedSaturating 1 = some 1 := rfl
  unfold computeBathymetry
  rw [readInRaster_ok (example_usable exampleManual)]
  simp only
  rw [hp, ← finalAffine_documented (example_usable exampleManual), f3]
  unfold bathymetryAt
  simp only [hinv, invert_apply hinv, f1, f2, f4, f5, g1, g2, g3]
  rw [if_pos (by norm_num [exampleImage])]
  rw [readRaster_get exampleImage 0 1 (by norm_num [exampleImage]) (by norm_num [exampleImage]) (by norm_num [exampleImage])]
  simp only [exampleImage]
  congr 1
  norm_num

/-- A lake over the example image, with a wet and a dry node. -/
example : ∃ U : Fin 2 → ShallowWater.State 2,
    (∀ i : Fin 2, compute toUnsigned exampleManual (some exampleImage) (fun _ _ => 5) (fun _ _ => 0)
      (if i = 0 then ![1, 5] else ![5, 5]) 0 = .ok (U i)) ∧
    ShallowWater.LakeAtRest ⟨10, 0, 0, 1, 1, 1, 0, 0⟩ (fun i : Fin 2 => if i = 0 then (1 : ℝ) else 21) 5 U := by
  have hz : ∀ i : Fin 2, computeBathymetry toUnsigned exampleManual (some exampleImage)
      (if i = 0 then ![1, 5] else ![5, 5] : Vec 2) = .ok (if i = 0 then (1 : ℝ) else 21) := by
    intro i
    fin_cases i
    · have := C94_pixel toUnsigned correct_strict (example_usable exampleManual) example_regular (![1, 5] : Vec 2) 0 0
        (by norm_num [exampleImage]) (by norm_num [exampleImage]) (by simp [coordinates, documented, exampleManual])
      simpa [exampleImage] using this
    · have := C94_pixel toUnsigned correct_strict (example_usable exampleManual) example_regular (![5, 5] : Vec 2) 2 0
        (by norm_num [exampleImage]) (by norm_num [exampleImage])
        (by simp [coordinates, documented, exampleManual]; norm_num)
      simp [exampleImage] at this ⊢
      rw [this]; norm_num
  choose U hU _ using fun i => C94_state toUnsigned exampleManual (some exampleImage) (fun _ _ => 5) (fun _ _ => 0) _ 0 _ (hz i)
  refine ⟨U, hU, C94_lake _ _ _ _ 5 0 _ _ U hz hU fun i hi => ?_⟩
  have : ShallowWater.cutoffMollified ⟨10, 0, 0, 1, 1, 1, 0, 0⟩ = 0 := by
    simp [ShallowWater.cutoffMollified]
  rw [this]; linarith

end GeoTiff
end Ryujin
