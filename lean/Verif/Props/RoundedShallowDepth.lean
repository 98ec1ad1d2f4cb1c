import Verif.Proofs.RoundedShallow
import Verif.Props.RoundedShallow

/-!
# C124: rounding errors do not make the water depth negative
-/

namespace Ryujin
namespace RoundedShallow

noncomputable section

open Hyp Rounded

variable {ι : Type} {dim : ℕ}

/-- Sum of the viscosities of a row. -/
def rowViscosity (M : Mesh ι dim) (X : StepData ι dim) (i : ι) : ℝ := ((M.nbrs i).map (X.d i)).sum

/-- The depth of the equilibrated state is not negative. -/
theorem C124_shallow_water_star_nonneg (R : Rounding) (hu : R.u < 1) (fused : Bool × Bool) (cutoff : ℝ) {h : ℝ} (hh : 0 ≤ h) (Z_left Z_right : ℝ) :
    0 ≤ starDepth R fused cutoff h Z_left Z_right := by
  have u0 := R.u_nonneg
  have nn : ∀ {x : ℝ}, 0 ≤ x → 0 ≤ R.fl x := fun {x} hx => (mul_nonneg hx (by linarith)).trans (fl_ge_of_nonneg R hx)
  have pn : ∀ (b : Bool) (x : ℝ), 0 ≤ product R b x x := by
    intro b x
    unfold product
    split_ifs
    · exact mul_self_nonneg x
    · exact nn (mul_self_nonneg x)
  unfold starDepth
  refine nn (mul_nonneg (nn (mul_nonneg hh (le_max_left _ _))) ?_)
  unfold mollifiedInverse positivePart
  refine nn (div_nonneg (nn (mul_nonneg (by norm_num) (nn (mul_nonneg (by norm_num) (nn (by positivity)))))) (nn (add_nonneg (pn _ _) (pn _ _))))

/-- The mollified inverse of the depth, times the depth, exceeds one only by rounding errors. -/
theorem mollified_le (R : Rounding) (hu : R.u < 1) (fused : Bool × Bool) (cutoff : ℝ) {h : ℝ} (hh : 0 < h) :
    h * mollifiedInverse R fused cutoff h ≤ (1 + R.u) ^ 4 / (1 - R.u) ^ 2 := by
  have u0 := R.u_nonneg
  have hp : 0 < 1 - R.u := by linarith
  have q1 : 0 < 1 + R.u := by linarith
  have prodge : ∀ (b : Bool) (x : ℝ), x * x * (1 - R.u) ≤ product R b x x := by
    intro b x
    unfold product
    split_ifs
    · nlinarith [mul_self_nonneg x]
    · exact fl_ge_of_nonneg R (mul_self_nonneg x)
  set g := max h cutoff with hg
  have hgh : h ≤ g := le_max_left _ _
  have h2 : h * h ≤ g * g := mul_self_le_mul_self hh.le hgh
  have hhpos : 0 < h * h := mul_pos hh hh
  set D := R.fl (product R fused.1 h h + product R fused.2 g g) with hD
  have hDge : 2 * (h * h) * (1 - R.u) ^ 2 ≤ D := by
    have a1 := prodge fused.1 h
    have a2 := prodge fused.2 g
    have a3 : h * h * (1 - R.u) ≤ g * g * (1 - R.u) := mul_le_mul_of_nonneg_right h2 hp.le
    have a4 : 2 * (h * h) * (1 - R.u) ≤ product R fused.1 h h + product R fused.2 g g := by linarith
    have a5 : 0 ≤ 2 * (h * h) * (1 - R.u) := by positivity
    have a6 := fl_ge_of_nonneg R (a5.trans a4)
    have a7 := mul_le_mul_of_nonneg_right a4 hp.le
    calc _ = 2 * (h * h) * (1 - R.u) * (1 - R.u) := by ring
      _ ≤ _ := a7.trans a6
  have hDpos : 0 < D := lt_of_lt_of_le (by positivity) hDge
  have nn : ∀ {x : ℝ}, 0 ≤ x → 0 ≤ R.fl x := fun {x} hx => (mul_nonneg hx hp.le).trans (fl_ge_of_nonneg R hx)
  have up : ∀ {x y : ℝ}, 0 ≤ x → x ≤ y → R.fl x ≤ y * (1 + R.u) := fun {x y} hx hxy =>
    (fl_le_of_nonneg R hx).trans (mul_le_mul_of_nonneg_right hxy q1.le)
  have b1 : R.fl (|h| + h) ≤ 2 * h * (1 + R.u) := up (by positivity) (by rw [abs_of_pos hh]; linarith)
  have b1' : 0 ≤ R.fl (|h| + h) := nn (by positivity)
  have b2 : positivePart R h ≤ h * (1 + R.u) * (1 + R.u) := up (mul_nonneg (by norm_num) b1') (by linarith)
  have b2' : 0 ≤ positivePart R h := nn (mul_nonneg (by norm_num) b1')
  have b3 : R.fl (2 * positivePart R h) ≤ 2 * (h * (1 + R.u) * (1 + R.u)) * (1 + R.u) := up (by linarith) (by linarith)
  have b3' : 0 ≤ R.fl (2 * positivePart R h) := nn (by linarith)
  have b4 : mollifiedInverse R fused cutoff h ≤ 2 * (h * (1 + R.u) * (1 + R.u)) * (1 + R.u) / D * (1 + R.u) :=
    up (div_nonneg b3' hDpos.le) (div_le_div_of_nonneg_right b3 hDpos.le)
  have b5 := mul_le_mul_of_nonneg_left b4 hh.le
  refine b5.trans ?_
  rw [show h * (2 * (h * (1 + R.u) * (1 + R.u)) * (1 + R.u) / D * (1 + R.u)) = (1 + R.u) ^ 4 * (2 * (h * h)) / D by ring,
    div_le_div_iff₀ hDpos (by positivity)]
  calc _ = (1 + R.u) ^ 4 * (2 * (h * h) * (1 - R.u) ^ 2) := by ring
    _ ≤ _ := mul_le_mul_of_nonneg_left hDge (by positivity)

/-- **C124 (equilibrated states).** The computed depth of the equilibrated state exceeds the depth of the state only by rounding errors, which are
small compared to the depth and to the height `h + Z` of the surface. -/
theorem C124_shallow_water_star (R : Rounding) (hu : R.u < 1) (fused : Bool × Bool) (cutoff : ℝ) {h : ℝ} (hh0 : 0 ≤ h) (Z_left Z_right : ℝ) :
    starDepth R fused cutoff h Z_left Z_right ≤ (1 + R.u) ^ 7 / (1 - R.u) ^ 2 * (h + R.u * |h + Z_left|) := by
  have u0 := R.u_nonneg
  have hp : 0 < 1 - R.u := by linarith
  have q1 : 0 < 1 + R.u := by linarith
  rcases hh0.eq_or_lt with rfl | hh
  · have z : R.fl 0 = 0 := by
      have := R.rel 0
      rw [sub_zero, abs_zero, mul_zero] at this
      exact abs_nonpos_iff.1 this
    simp only [starDepth, zero_mul, z]
    positivity
  have nn : ∀ {x : ℝ}, 0 ≤ x → 0 ≤ R.fl x := fun {x} hx => (mul_nonneg hx hp.le).trans (fl_ge_of_nonneg R hx)
  have up : ∀ {x y : ℝ}, 0 ≤ x → x ≤ y → R.fl x ≤ y * (1 + R.u) := fun {x y} hx hxy =>
    (fl_le_of_nonneg R hx).trans (mul_le_mul_of_nonneg_right hxy q1.le)
  set y := h + R.u * |h + Z_left| with hy
  have hy0 : 0 ≤ y := by positivity
  have h1 : R.fl (h + Z_left) - max Z_left Z_right ≤ y := by
    have a1 := (abs_le.1 (R.rel (h + Z_left))).2
    have a2 := le_max_left Z_left Z_right
    linarith
  have h2 : R.fl (R.fl (h + Z_left) - max Z_left Z_right) ≤ y * (1 + R.u) := (R.mono h1).trans (fl_le_of_nonneg R hy0)
  have h3 : max 0 (R.fl (R.fl (h + Z_left) - max Z_left Z_right)) ≤ y * (1 + R.u) := max_le (mul_nonneg hy0 q1.le) h2
  set H := max 0 (R.fl (R.fl (h + Z_left) - max Z_left Z_right)) with hH
  have hH0 : 0 ≤ H := le_max_left _ _
  have hm := mollified_le R hu fused cutoff hh
  have hI : 0 ≤ mollifiedInverse R fused cutoff h := by
    unfold mollifiedInverse positivePart
    refine nn (div_nonneg (nn (mul_nonneg (by norm_num) (nn (mul_nonneg (by norm_num) (nn (by positivity)))))) (nn (add_nonneg ?_ ?_))) <;>
      unfold product <;> split_ifs <;> first | exact mul_self_nonneg _ | exact nn (mul_self_nonneg _)
  set I := mollifiedInverse R fused cutoff h with hIdef
  have h4 : R.fl (h * H) ≤ h * H * (1 + R.u) := up (mul_nonneg hh.le hH0) le_rfl
  have h4' : 0 ≤ R.fl (h * H) := nn (mul_nonneg hh.le hH0)
  have h5 : starDepth R fused cutoff h Z_left Z_right ≤ h * H * (1 + R.u) * I * (1 + R.u) :=
    up (mul_nonneg h4' hI) (mul_le_mul_of_nonneg_right h4 hI)
  refine h5.trans ?_
  have h6 : H * (h * I) ≤ y * (1 + R.u) * ((1 + R.u) ^ 4 / (1 - R.u) ^ 2) := mul_le_mul h3 hm (mul_nonneg hh.le hI) (mul_nonneg hy0 q1.le)
  calc _ = H * (h * I) * (1 + R.u) ^ 2 := by ring
    _ ≤ y * (1 + R.u) * ((1 + R.u) ^ 4 / (1 - R.u) ^ 2) * (1 + R.u) ^ 2 := mul_le_mul_of_nonneg_right h6 (by positivity)
    _ = _ := by ring

/-- **C124 (shallow water).** The water depth of the low-order update in floating point arithmetic: if `d_ij` bounds the velocities of the equilibrated
states of a row, if the depth of an equilibrated state exceeds that of the state by at most `slack`, and if the time-step size satisfies
`2 tau Σ_j d_ij ≤ cfl' m_i`, then the new depth is at least `(1 - cfl')` times the old one, up to `slack`, to rounding errors that are small compared to
the largest depth of the stencil, and to what the diagonal entry `c_ii` contributes, which vanishes in exact arithmetic.  `κ` bounds the speed
of the flow, relative to the wave speeds. -/
theorem C124_shallow_water (R : Rounding) (s : Contractions ι) (M : Mesh ι dim) (X : StepData ι dim) (i : ι) (top κ cfl' slack : ℝ)
    (hm : 0 < M.lumped i) (htau0 : 0 ≤ X.tau) (hκ : 0 ≤ κ) (hd : ∀ j ∈ M.nbrs i, 0 ≤ X.d i j) (hdiag : |X.d i i| ≤ 2 * rowViscosity M X i)
    (hh : 0 ≤ X.U i ∧ X.U i ≤ top) (hslack : 0 ≤ slack) (hstar : ∀ j ∈ M.nbrs i, X.star i j ≤ X.U i + slack)
    (hrange : ∀ j ∈ M.columns i, (0 ≤ X.star i j ∧ X.star i j ≤ top) ∧ 0 ≤ X.star j i ∧ X.star j i ≤ top)
    (hwave : ∀ j ∈ M.nbrs i, ∑ k, X.fStar i j k * M.c i j k ≤ X.d i j * X.star i j ∧ ∑ k, X.fStar j i k * M.c i j k ≤ X.d i j * X.star j i)
    (hspeed : ∀ j ∈ M.columns i, fluxSize (X.fStar i j) (X.fStar j i) (M.c i j) ≤ κ * |X.d i j| * (X.star i j + X.star j i))
    (hcfl : 2 * X.tau * rowViscosity M X i ≤ cfl' * M.lumped i)
    (hu : (dim + 7 + 2 * (M.nbrs i).length : ℕ) * R.u ≤ 1 / 2) :
    (1 - cfl') * X.U i - cfl' * slack - 2 * (dim + 7 + 2 * (M.nbrs i).length : ℕ) * R.u * ((1 + 3 * (κ + 1) * cfl') * top)
      - X.tau / M.lumped i * (2 * ∑ k, X.fStar i i k * M.c i i k) ≤ lowOrder R s M X i := by
  have hV : 0 ≤ rowViscosity M X i := List.sum_nonneg (by
    intro x hx
    obtain ⟨j, hj, rfl⟩ := List.mem_map.1 hx
    exact hd j hj)
  have htm : 0 ≤ X.tau / M.lumped i := div_nonneg htau0 hm.le
  have hrate : X.tau / M.lumped i * (2 * rowViscosity M X i) ≤ cfl' := by
    rw [div_mul_eq_mul_div, div_le_iff₀ hm]
    linarith
  have htop : 0 ≤ top := hh.1.trans hh.2
  have h := close_low (R := R) s (X := X) hm
  have herr := (abs_le.1 h.err).1
  have hg := grow_le (R := R) _ hu
  -- the update without rounding
  have hlow : (1 - cfl') * X.U i - cfl' * slack - X.tau / M.lumped i * (2 * ∑ k, X.fStar i i k * M.c i i k) ≤ refLow M X i := by
    have e : refLow M X i = X.U i + X.tau / M.lumped i * ((M.nbrs i).map fun j =>
        X.d i j * (X.star j i - X.star i j) - ∑ k, (X.fStar i j k + X.fStar j i k) * M.c i j k).sum
          - X.tau / M.lumped i * (2 * ∑ k, X.fStar i i k * M.c i i k) := by
      unfold refLow
      rw [Mesh.columns, List.map_cons, List.sum_cons, sub_self, mul_zero, add_zero, refFlux_sum, ← List.sum_map_mul_left]
      have a : ∑ k, (X.fStar i i k + X.fStar i i k) * M.c i i k = 2 * ∑ k, X.fStar i i k * M.c i i k := by
        rw [Finset.mul_sum]
        exact Finset.sum_congr rfl fun k _ => by ring
      rw [a]
      have b : ((M.nbrs i).map fun j => X.tau * (1 / M.lumped i) * refFlux (X.fStar i j) (X.fStar j i) (M.c i j)
            + X.tau * (1 / M.lumped i) * X.d i j * (X.star j i - X.star i j))
          = (M.nbrs i).map fun j => X.tau / M.lumped i *
            (X.d i j * (X.star j i - X.star i j) - ∑ k, (X.fStar i j k + X.fStar j i k) * M.c i j k) := by
        refine List.map_congr_left fun j _ => ?_
        rw [refFlux_sum]
        ring
      rw [b]
      ring
    rw [e]
    have hterm : -(2 * rowViscosity M X i * (X.U i + slack))
        ≤ ((M.nbrs i).map fun j => X.d i j * (X.star j i - X.star i j) - ∑ k, (X.fStar i j k + X.fStar j i k) * M.c i j k).sum := by
      have : ((M.nbrs i).map fun j => -(2 * X.d i j * (X.U i + slack))).sum
          ≤ ((M.nbrs i).map fun j => X.d i j * (X.star j i - X.star i j) - ∑ k, (X.fStar i j k + X.fStar j i k) * M.c i j k).sum :=
        List.sum_le_sum fun j hj => by
          obtain ⟨w1, w2⟩ := hwave j hj
          have w3 := mul_le_mul_of_nonneg_left (hstar j hj) (hd j hj)
          have w4 : ∑ k, (X.fStar i j k + X.fStar j i k) * M.c i j k = ∑ k, X.fStar i j k * M.c i j k + ∑ k, X.fStar j i k * M.c i j k := by
            rw [← Finset.sum_add_distrib]
            exact Finset.sum_congr rfl fun k _ => by ring
          rw [w4]
          linarith
      refine le_trans (le_of_eq ?_) this
      unfold rowViscosity
      induction M.nbrs i with
      | nil => simp
      | cons j L ih => rw [List.map_cons, List.sum_cons, List.map_cons, List.sum_cons, ← ih]; ring
    have h1 := mul_le_mul_of_nonneg_left hterm htm
    have h2 := mul_le_mul_of_nonneg_right hrate (add_nonneg hh.1 hslack)
    linarith
  -- the size of the numbers
  have hsize : lowSize M X i ≤ (1 + 3 * (κ + 1) * cfl') * top := by
    unfold lowSize
    rw [abs_of_nonneg hh.1, abs_of_nonneg htau0]
    have hone : ∀ j ∈ M.columns i,
        X.tau / M.lumped i * fluxSize (X.fStar i j) (X.fStar j i) (M.c i j) + X.tau / M.lumped i * |X.d i j| * (|X.star j i| + |X.star i j|)
          ≤ X.tau / M.lumped i * (2 * (κ + 1) * top * |X.d i j|) := by
      intro j hj
      obtain ⟨⟨r1, r2⟩, r3, r4⟩ := hrange j hj
      have hs := hspeed j hj
      rw [abs_of_nonneg r1, abs_of_nonneg r3]
      have a0 : 0 ≤ κ * |X.d i j| := mul_nonneg hκ (abs_nonneg _)
      have a1 : κ * |X.d i j| * (X.star i j + X.star j i) ≤ κ * |X.d i j| * (2 * top) := mul_le_mul_of_nonneg_left (by linarith) a0
      have a2 : |X.d i j| * (X.star j i + X.star i j) ≤ |X.d i j| * (2 * top) := mul_le_mul_of_nonneg_left (by linarith) (abs_nonneg _)
      calc _ = X.tau / M.lumped i * (fluxSize (X.fStar i j) (X.fStar j i) (M.c i j) + |X.d i j| * (X.star j i + X.star i j)) := by ring
        _ ≤ _ := mul_le_mul_of_nonneg_left (by linarith) htm
    have hnb : ∀ L : List ι, (∀ j ∈ L, j ∈ M.nbrs i) →
        (L.map fun j => X.tau / M.lumped i * fluxSize (X.fStar i j) (X.fStar j i) (M.c i j)
            + X.tau / M.lumped i * |X.d i j| * (|X.star j i| + |X.star i j|)).sum
          ≤ X.tau / M.lumped i * (2 * (κ + 1) * top * (L.map (X.d i)).sum) := by
      intro L
      induction L with
      | nil => intro _; simp
      | cons j L ih =>
        intro hL
        have hj := hL j (by simp)
        have h1 := ih fun k hk => hL k (by simp [hk])
        have h2 := hone j (by simp [Mesh.columns, hj])
        rw [abs_of_nonneg (hd j hj)] at h2
        rw [List.map_cons, List.sum_cons, List.map_cons, List.sum_cons, abs_of_nonneg (hd j hj)]
        linarith
    have h1 := hone i (by simp [Mesh.columns])
    have h2 := hnb (M.nbrs i) fun _ h => h
    have h3 : X.tau / M.lumped i * (2 * (κ + 1) * top * |X.d i i|) ≤ X.tau / M.lumped i * (2 * (κ + 1) * top * (2 * rowViscosity M X i)) :=
      mul_le_mul_of_nonneg_left (mul_le_mul_of_nonneg_left hdiag (by positivity)) htm
    have h4 : 3 * (κ + 1) * top * (X.tau / M.lumped i * (2 * rowViscosity M X i)) ≤ 3 * (κ + 1) * top * cfl' :=
      mul_le_mul_of_nonneg_left hrate (by positivity)
    have h5 : ((M.nbrs i).map (X.d i)).sum = rowViscosity M X i := rfl
    rw [h5] at h2
    rw [Mesh.columns, List.map_cons, List.sum_cons]
    linarith [hh.2]
  have hK : 0 ≤ 2 * ((dim + 7 + 2 * (M.nbrs i).length : ℕ) : ℝ) * R.u := by
    have := R.u_nonneg
    positivity
  have h1 : ((1 + R.u) ^ (dim + 7 + 2 * (M.nbrs i).length) - 1) * lowSize M X i
      ≤ 2 * (dim + 7 + 2 * (M.nbrs i).length : ℕ) * R.u * lowSize M X i := mul_le_mul_of_nonneg_right hg h.nonneg
  have h2 := mul_le_mul_of_nonneg_left hsize hK
  linarith

/-- **C124 (shallow water, double precision).** With `double`, at most 30 neighbours, an effective CFL number of at most `0.9`, a flow not faster
than hundred times the wave speeds, a neighbour not deeper than `10^9` times the depth, surfaces not higher than `10^12` times the depth, and a
diagonal entry `c_ii` whose contribution is at most a twentieth of the depth, the low-order water depth is positive.  Neighbours may be dry, and
the bathymetry is arbitrary otherwise. -/
theorem C124_shallow_water_double (s : Contractions ι) (M : Mesh ι dim) (X : StepData ι dim) (Z : ι → ℝ) (fused : ι → ι → Bool × Bool) (cutoff : ℝ)
    (i : ι) (hdim : dim ≤ 3) (hnb : (M.nbrs i).length ≤ 30) (hm : 0 < M.lumped i) (htau0 : 0 ≤ X.tau) (hd : ∀ j ∈ M.nbrs i, 0 ≤ X.d i j)
    (hdiag : |X.d i i| ≤ 2 * rowViscosity M X i) (hh : 0 < X.U i)
    (hstar : ∀ i j, X.star i j = starDepth Rounding.double (fused i j) cutoff (X.U i) (Z i) (Z j))
    (hdepth : ∀ j ∈ M.columns i, 0 ≤ X.U j ∧ X.U j ≤ 10 ^ 9 * X.U i) (hsurface : ∀ j ∈ M.columns i, |X.U j + Z j| ≤ 10 ^ 12 * X.U i)
    (hc : X.tau / M.lumped i * (2 * ∑ k, X.fStar i i k * M.c i i k) ≤ 1 / 20 * X.U i)
    (hwave : ∀ j ∈ M.nbrs i, ∑ k, X.fStar i j k * M.c i j k ≤ X.d i j * X.star i j ∧ ∑ k, X.fStar j i k * M.c i j k ≤ X.d i j * X.star j i)
    (hspeed : ∀ j ∈ M.columns i, fluxSize (X.fStar i j) (X.fStar j i) (M.c i j) ≤ 100 * |X.d i j| * (X.star i j + X.star j i))
    (hcfl : 2 * X.tau * rowViscosity M X i ≤ 9 / 10 * M.lumped i) : 0 < lowOrder Rounding.double s M X i := by
  have hK : ((dim + 7 + 2 * (M.nbrs i).length : ℕ) : ℝ) ≤ 70 := by
    have : dim + 7 + 2 * (M.nbrs i).length ≤ 70 := by omega
    exact_mod_cast this
  have hu : Rounding.double.u = 1 / 2 ^ 53 := by
    show (2 : ℝ) ^ (-((53 : ℕ) : ℤ)) = _
    rw [zpow_neg, zpow_natCast, one_div]
  have hu0 := Rounding.double.u_nonneg
  have hu1 : Rounding.double.u < 1 := by rw [hu]; norm_num
  have h1 : ((dim + 7 + 2 * (M.nbrs i).length : ℕ) : ℝ) * Rounding.double.u ≤ 70 * (1 / 2 ^ 53) := by
    rw [hu]
    exact mul_le_mul_of_nonneg_right hK (by positivity)
  have hq : (1 + Rounding.double.u) ^ 7 / (1 - Rounding.double.u) ^ 2 ≤ 1 + 1 / 10 ^ 10 := by
    rw [hu]
    norm_num
  have hq0 : 0 ≤ (1 + Rounding.double.u) ^ 7 / (1 - Rounding.double.u) ^ 2 := by rw [hu]; norm_num
  have hself : i ∈ M.columns i := by simp [Mesh.columns]
  have bound : ∀ a ∈ M.columns i, ∀ b, 0 ≤ X.star a b ∧ X.star a b ≤ (1 + 1 / 10 ^ 10) * (X.U a + 1 / 10 ^ 3 * X.U i) := by
    intro a ha b
    rw [hstar]
    refine ⟨C124_shallow_water_star_nonneg _ hu1 _ _ (hdepth a ha).1 _ _, ?_⟩
    refine (C124_shallow_water_star _ hu1 (fused a b) cutoff (hdepth a ha).1 (Z a) (Z b)).trans ?_
    have b1 : Rounding.double.u * |X.U a + Z a| ≤ 1 / 10 ^ 3 * X.U i := by
      have := mul_le_mul_of_nonneg_left (hsurface a ha) hu0
      refine this.trans ?_
      rw [hu]
      nlinarith
    have b2 : 0 ≤ X.U a + Rounding.double.u * |X.U a + Z a| := add_nonneg (hdepth a ha).1 (by positivity)
    exact mul_le_mul hq (add_le_add le_rfl b1) b2 (by norm_num)
  have h := C124_shallow_water Rounding.double s M X i (2 * 10 ^ 9 * X.U i) 100 (9 / 10) (1 / 10 ^ 2 * X.U i) hm htau0 (by norm_num) hd hdiag
    ⟨hh.le, by linarith⟩ (by positivity) (fun j _ => by have := (bound i hself j).2; linarith)
    (fun j hj => ⟨⟨(bound i hself j).1, by have := (bound i hself j).2; linarith⟩, (bound j hj i).1, by
      have := (bound j hj i).2
      have := (hdepth j hj).2
      linarith⟩) hwave hspeed hcfl (h1.trans (by norm_num))
  have h2 : 2 * ((dim + 7 + 2 * (M.nbrs i).length : ℕ) : ℝ) * Rounding.double.u * ((1 + 3 * (100 + 1) * (9 / 10)) * (2 * 10 ^ 9 * X.U i))
      ≤ 2 * (70 * (1 / 2 ^ 53)) * ((1 + 3 * (100 + 1) * (9 / 10)) * (2 * 10 ^ 9 * X.U i)) := by
    rw [mul_assoc 2]
    exact mul_le_mul_of_nonneg_right (by linarith) (by positivity)
  nlinarith

/-! ### Without rounding -/

/-- **C124 (equilibrated states, no rounding).** Without rounding the depth of the equilibrated state is that of the model over the real numbers. -/
theorem C124_shallow_water_star_exact (p : ShallowWater.Params) (fused : Bool × Bool) (U : ShallowWater.State dim) (Z_left Z_right : ℝ) :
    starDepth Rounding.exact fused (p.reference_water_depth * p.dry_state_relaxation_large * p.eps) (ShallowWater.waterDepth U) Z_left Z_right
      = ShallowWater.waterDepth (ShallowWater.starState p U Z_left Z_right) := by
  have e : ∀ (b : Bool) (x y : ℝ), product Rounding.exact b x y = x * y := by
    intro b x y
    unfold product
    split_ifs <;> rfl
  have f : ∀ x, Rounding.exact.fl x = x := fun _ => rfl
  have w : ∀ (a : ℝ), ShallowWater.waterDepth (a • U) = a * ShallowWater.waterDepth U := fun a => rfl
  unfold starDepth mollifiedInverse positivePart ShallowWater.starState ShallowWater.inverseWaterDepthMollified
  simp only [e, f, w, Ryujin.positivePart]
  ring

/-! ### An example -/

/-- Water of different depths next to a dry hill, on the ring, flowing with speed `1 / 2`. -/
def shore : StepData (Fin 3) 1 :=
  let U : Fin 3 → ℝ := ![3, 0, 2]
  let Z : Fin 3 → ℝ := ![0, 5, 1]
  let star : Fin 3 → Fin 3 → ℝ := fun i j => starDepth Rounding.double (true, false) (1 / 10 ^ 8) (U i) (Z i) (Z j)
  { lake with U := U, star := star, fStar := fun i j _ => star i j * (1 / 2) }

/-- The depth of the wet node next to the hill stays positive in double precision. -/
example (s : Contractions (Fin 3)) : 0 < lowOrder Rounding.double s ring shore 0 := by
  have hV : rowViscosity ring shore 0 = 4 := by
    simp [rowViscosity, ring, shore, lake]
    norm_num
  have nonneg : ∀ i j, 0 ≤ shore.star i j := by
    intro i j
    have hu : Rounding.double.u < 1 := by norm_num [Rounding.double, Rounding.ieee]
    exact C124_shallow_water_star_nonneg Rounding.double hu _ _ (by fin_cases i <;> norm_num) _ _
  have hf : ∀ i j k, shore.fStar i j k = shore.star i j * (1 / 2) := fun _ _ _ => rfl
  have hdd : ∀ i j, shore.d i j = if i = j then -4 else 2 := fun _ _ => rfl
  refine C124_shallow_water_double s ring shore ![0, 5, 1] (fun _ _ => (true, false)) (1 / 10 ^ 8) 0 (by norm_num) (by simp [ring])
    (by norm_num [ring]) (by norm_num [shore, lake]) ?_ ?_ (by norm_num [shore]) (fun _ _ => rfl) ?_ ?_ ?_ ?_ ?_ ?_
  · intro j hj
    rw [hdd]
    fin_cases j <;> simp_all [ring]
  · rw [hV, hdd]
    norm_num
  · intro j _
    fin_cases j <;> norm_num [shore]
  · intro j _
    fin_cases j <;> norm_num [shore]
  · simp [ring]
    norm_num [shore]
  · intro j hj
    have h1 := nonneg 0 j
    have h2 := nonneg j 0
    simp only [hf, hdd, Finset.univ_unique, Finset.sum_singleton]
    fin_cases j <;> simp_all [ring] <;> constructor <;> linarith [nonneg 0 1, nonneg 1 0, nonneg 0 2, nonneg 2 0]
  · intro j hj
    have h1 := nonneg 0 j
    have h2 := nonneg j 0
    simp only [fluxSize, hf, hdd]
    rw [abs_mul, abs_mul, abs_of_nonneg h1, abs_of_nonneg h2]
    fin_cases j <;> simp_all [ring] <;> (try norm_num) <;> linarith [nonneg 0 1, nonneg 1 0, nonneg 0 2, nonneg 2 0]
  · rw [hV]
    norm_num [shore, lake, ring]

end

end RoundedShallow
end Ryujin
