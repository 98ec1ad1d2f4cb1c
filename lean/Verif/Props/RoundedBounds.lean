import Verif.Props.RoundedStep

/-!
# C119: the low-order update in floating point arithmetic

The limiter starts from the low-order update.  Without rounding the update is a convex combination of the old state and of the bar states, and
the bounds of the limiter are bounds of the bar states.
-/

namespace Ryujin
namespace Rounded

noncomputable section

open Hyp

variable {ι : Type} {dim : ℕ}

/-- The update without rounding, written with differences of fluxes. -/
theorem refLow_eq (M : Mesh ι dim) (X : StepData ι dim) (i : ι) :
    refLow M X i = X.U i + X.tau / M.lumped i * ((M.nbrs i).map fun j =>
        X.d i j * (X.U j - X.U i) - ∑ k, (X.f j k - X.f i k) * M.c i j k).sum
          - X.tau / M.lumped i * (2 * ∑ k, X.f i k * ((M.columns i).map fun j => M.c i j k).sum) := by
  have a1 : refLow M X i = X.U i + X.tau / M.lumped i * ((M.columns i).map fun j =>
      X.d i j * (X.U j - X.U i) - ∑ k, (X.f j k - X.f i k) * M.c i j k - 2 * ∑ k, X.f i k * M.c i j k).sum := by
    unfold refLow
    rw [← List.sum_map_mul_left]
    congr 3
    funext j
    rw [refFlux_sum]
    have : ∑ k, (X.f i k + X.f j k) * M.c i j k = ∑ k, (X.f j k - X.f i k) * M.c i j k + 2 * ∑ k, X.f i k * M.c i j k := by
      rw [Finset.mul_sum, ← Finset.sum_add_distrib]
      exact Finset.sum_congr rfl fun k _ => by ring
    rw [this]
    ring
  have a2 : ∀ (L : List ι) (g : ι → ℝ), (L.map fun j => g j - 2 * ∑ k, X.f i k * M.c i j k).sum
      = (L.map g).sum - 2 * ∑ k, X.f i k * (L.map fun j => M.c i j k).sum := by
    intro L g
    induction L with
    | nil => simp
    | cons j L ih =>
      simp only [List.map_cons, List.sum_cons, mul_add, Finset.sum_add_distrib]
      rw [ih]
      ring
  have a3 : ((M.columns i).map fun j => X.d i j * (X.U j - X.U i) - ∑ k, (X.f j k - X.f i k) * M.c i j k).sum
      = ((M.nbrs i).map fun j => X.d i j * (X.U j - X.U i) - ∑ k, (X.f j k - X.f i k) * M.c i j k).sum := by
    rw [Mesh.columns, List.map_cons, List.sum_cons]
    simp
  rw [a1, a2, a3]
  ring

/-- The bar state `(U_i + U_j) / 2 - (f_j - f_i) c_ij / (2 d_ij)` of one component. -/
def barState (M : Mesh ι dim) (X : StepData ι dim) (i j : ι) : ℝ :=
  (X.U i + X.U j) / 2 - (∑ k, (X.f j k - X.f i k) * M.c i j k) / (2 * X.d i j)

/-- **C119 (low-order update).** If the old state and all bar states of a row are in `[lo, hi]` and the time step satisfies the CFL condition, then
the low-order update computed in floating point arithmetic is in `[lo, hi]`, up to the rounding errors of `dim + 7 + 2 n` operations in a row on the
numbers that are added up, and up to what the row sum of the assembled `c_ij` contributes. -/
theorem C119_low_order (R : Rounding) (s : Contractions ι) (M : Mesh ι dim) (X : StepData ι dim) (i : ι) (lo hi : ℝ) (hm : 0 < M.lumped i)
    (htau0 : 0 ≤ X.tau) (hd : ∀ j ∈ M.nbrs i, 0 < X.d i j) (hU : X.U i ∈ Set.Icc lo hi) (hbar : ∀ j ∈ M.nbrs i, barState M X i j ∈ Set.Icc lo hi)
    (hcfl : 2 * X.tau * rowViscosity M X i ≤ M.lumped i) (hu : (dim + 7 + 2 * (M.nbrs i).length : ℕ) * R.u ≤ 1 / 2) :
    |lowOrder R s M X i - max lo (min hi (lowOrder R s M X i))|
      ≤ 2 * (dim + 7 + 2 * (M.nbrs i).length : ℕ) * R.u * lowSize M X i
        + X.tau / M.lumped i * (2 * |∑ k, X.f i k * ((M.columns i).map fun j => M.c i j k).sum|) := by
  have htm : 0 ≤ X.tau / M.lumped i := div_nonneg htau0 hm.le
  have h := close_low (R := R) s (X := X) hm
  have hg := grow_le (R := R) _ hu
  have herr : |lowOrder R s M X i - refLow M X i| ≤ 2 * (dim + 7 + 2 * (M.nbrs i).length : ℕ) * R.u * lowSize M X i :=
    h.err.trans (mul_le_mul_of_nonneg_right hg h.nonneg)
  have hrate : X.tau / M.lumped i * (2 * rowViscosity M X i) ≤ 1 := by
    rw [div_mul_eq_mul_div, div_le_one hm]
    linarith
  have hterm : ∀ j ∈ M.nbrs i, X.d i j * (X.U j - X.U i) - ∑ k, (X.f j k - X.f i k) * M.c i j k = 2 * X.d i j * (barState M X i j - X.U i) := by
    intro j hj
    have := (hd j hj).ne'
    unfold barState
    field_simp
    ring
  have hsum : ((M.nbrs i).map fun j => X.d i j * (X.U j - X.U i) - ∑ k, (X.f j k - X.f i k) * M.c i j k).sum
      = ((M.nbrs i).map fun j => 2 * X.d i j * (barState M X i j - X.U i)).sum := by
    congr 1
    exact List.map_congr_left hterm
  have hV : ∀ a : ℝ, ((M.nbrs i).map fun j => 2 * X.d i j * (a - X.U i)).sum = 2 * rowViscosity M X i * (a - X.U i) := by
    intro a
    rw [List.sum_map_mul_right, List.sum_map_mul_left]
    rfl
  have hlo : 2 * rowViscosity M X i * (lo - X.U i) ≤ ((M.nbrs i).map fun j => 2 * X.d i j * (barState M X i j - X.U i)).sum := by
    rw [← hV]
    refine List.sum_le_sum fun j hj => mul_le_mul_of_nonneg_left ?_ (by linarith [hd j hj])
    linarith [(hbar j hj).1]
  have hhi : ((M.nbrs i).map fun j => 2 * X.d i j * (barState M X i j - X.U i)).sum ≤ 2 * rowViscosity M X i * (hi - X.U i) := by
    rw [← hV]
    refine List.sum_le_sum fun j hj => mul_le_mul_of_nonneg_left ?_ (by linarith [hd j hj])
    linarith [(hbar j hj).2]
  set S := ((M.nbrs i).map fun j => 2 * X.d i j * (barState M X i j - X.U i)).sum
  set D := ∑ k, X.f i k * ((M.columns i).map fun j => M.c i j k).sum
  have href : refLow M X i = X.U i + X.tau / M.lumped i * S - X.tau / M.lumped i * (2 * D) := by rw [refLow_eq, hsum]
  have h1 := mul_le_mul_of_nonneg_left hlo htm
  have h2 := mul_le_mul_of_nonneg_left hhi htm
  have h3 := mul_le_mul_of_nonneg_right hrate (sub_nonneg.2 hU.1)
  have h4 := mul_le_mul_of_nonneg_right hrate (sub_nonneg.2 hU.2)
  have h5 : X.tau / M.lumped i * (2 * D) ≤ X.tau / M.lumped i * (2 * |D|) :=
    mul_le_mul_of_nonneg_left (by linarith [le_abs_self D]) htm
  have h6 : -(X.tau / M.lumped i * (2 * |D|)) ≤ X.tau / M.lumped i * (2 * D) := by
    rw [← mul_neg]
    exact mul_le_mul_of_nonneg_left (by linarith [neg_abs_le D]) htm
  have hin : lo ≤ X.U i + X.tau / M.lumped i * S ∧ X.U i + X.tau / M.lumped i * S ≤ hi := by
    constructor
    · nlinarith
    · nlinarith
  obtain ⟨e1, e2⟩ := abs_le.1 herr
  have hlohi : lo ≤ hi := hU.1.trans hU.2
  have hE : 0 ≤ 2 * ((dim + 7 + 2 * (M.nbrs i).length : ℕ) : ℝ) * R.u * lowSize M X i := (abs_nonneg _).trans herr
  have hD : 0 ≤ X.tau / M.lumped i * (2 * |D|) := mul_nonneg htm (by positivity)
  rw [abs_le]
  rcases le_total hi (lowOrder R s M X i) with c | c
  · rw [min_eq_left c, max_eq_right hlohi]
    constructor <;> linarith [hin.1, hin.2]
  · rw [min_eq_right c]
    rcases le_total lo (lowOrder R s M X i) with c' | c'
    · rw [max_eq_right c']
      constructor <;> linarith
    · rw [max_eq_left c']
      constructor <;> linarith [hin.1, hin.2]

/-- On the ring with `d_ij = 2` the bar states are in `[1, 4]`, so the low-order update is, up to about `10^-13`. -/
example (s : Contractions (Fin 3)) (i : Fin 3) :
    |lowOrder Rounding.double s ring ringData i - max 1 (min 4 (lowOrder Rounding.double s ring ringData i))|
      ≤ 2 * (1 + 7 + 2 * 2 : ℕ) * Rounding.double.u * lowSize ring ringData i := by
  have hV : rowViscosity ring ringData i = 4 := by fin_cases i <;> simp [rowViscosity, ring, ringData] <;> norm_num
  have h0 : ∀ k, ((ring.columns i).map fun j => ring.c i j k).sum = 0 := by
    intro k; fin_cases i <;> simp [Mesh.columns, ring] <;> norm_num
  have hlen : (ring.nbrs i).length = 2 := by simp [ring]
  have hu : Rounding.double.u = 1 / 2 ^ 53 := by
    show (2 : ℝ) ^ (-((53 : ℕ) : ℤ)) = _
    rw [zpow_neg, zpow_natCast, one_div]
  have h := C119_low_order Rounding.double s ring ringData i 1 4 (by norm_num [ring]) (by norm_num [ringData])
    (by intro j hj; simp only [ringData]; fin_cases i <;> fin_cases j <;> simp_all [ring])
    (by fin_cases i <;> norm_num [ringData])
    (by intro j hj; fin_cases i <;> fin_cases j <;> simp_all [ring, ringData, barState] <;> norm_num)
    (by rw [hV]; norm_num [ring, ringData]) (by rw [hlen, hu]; norm_num)
  rw [hlen] at h
  simpa [h0] using h

end

end Rounded
end Ryujin
