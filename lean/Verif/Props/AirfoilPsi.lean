import Verif.Props.AirfoilCharts
import Verif.Props.AirfoilNaca

/-!
# C98: the parametrisations of the airfoil
-/

namespace Ryujin
namespace Airfoil

noncomputable section

/-- What is assumed of the spline: it takes the given values at the given points, if these are strictly increasing. -/
def Interpolates (spline : SplineMaker) : Prop :=
  ∀ points : List (ℝ × ℝ), points.Pairwise (fun a b => a.1 < b.1) → ∀ q ∈ points, spline points q.1 = q.2

/-- C98: behind the centre the parametrisation passes through the given sample points, shifted by the centre and scaled by
the length of the airfoil, and is constant past the trailing edge. -/
theorem C98_psi_samples {spline : SplineMaker} (hi : Interpolates spline) {upper lower : List (ℝ × ℝ)} {xc yc scaling : ℝ}
    (hs : 0 < scaling) :
    (upper.Pairwise (fun a b => a.1 < b.1) → ∀ q ∈ upper, q.1 ≤ 1 →
      (createPsi spline upper lower xc yc scaling).upper (scaling * (q.1 - xc)) = scaling * (q.2 - yc)) ∧
    (lower.Pairwise (fun a b => a.1 < b.1) → ∀ q ∈ lower, q.1 ≤ 1 →
      (createPsi spline upper lower xc yc scaling).lower (scaling * (q.1 - xc)) = scaling * (q.2 - yc)) ∧
    (∀ x, scaling * (1 - xc) ≤ x →
      (createPsi spline upper lower xc yc scaling).upper x =
        (createPsi spline upper lower xc yc scaling).upper (scaling * (1 - xc)) ∧
      (createPsi spline upper lower xc yc scaling).lower x =
        (createPsi spline upper lower xc yc scaling).lower (scaling * (1 - xc))) := by
  have side : ∀ (l : List (ℝ × ℝ)), l.Pairwise (fun a b => a.1 < b.1) → ∀ q ∈ l, q.1 ≤ 1 →
      psiSide (spline l) xc yc scaling (scaling * (q.1 - xc)) = scaling * (q.2 - yc) := by
    intro l hl q hq hq1
    unfold psiSide
    have : scaling * (q.1 - xc) / scaling = q.1 - xc := by field_simp
    dsimp only
    rw [this, if_neg (by linarith), sub_add_cancel, hi l hl q hq]
  have const : ∀ (e : ℝ → ℝ) x, scaling * (1 - xc) ≤ x →
      psiSide e xc yc scaling x = psiSide e xc yc scaling (scaling * (1 - xc)) := by
    intro e x hx
    have h1 : scaling * (1 - xc) / scaling = 1 - xc := by field_simp
    have h2 : 1 - xc ≤ x / scaling := by rw [le_div_iff₀ hs]; linarith
    unfold psiSide
    dsimp only
    rw [h1, if_neg (lt_irrefl (1 - xc)), sub_add_cancel]
    by_cases h3 : x / scaling > 1 - xc
    · rw [if_pos h3]
    · rw [if_neg h3, le_antisymm (not_lt.mp h3) h2, sub_add_cancel]
  exact ⟨fun h q hq h1 => side upper h q hq h1, fun h q hq h1 => side lower h q hq h1,
    fun x hx => ⟨const _ x hx, const _ x hx⟩⟩

theorem mem_fixLast {l : List (ℝ × ℝ)} {q : ℝ × ℝ} (h : q ∈ l.dropLast) : q ∈ fixLast l := by
  unfold fixLast
  split
  · split
    · exact List.mem_append_left _ h
    · exact List.mem_of_mem_dropLast h
  · exact List.mem_of_mem_dropLast h

theorem mem_polarSamples_upper {upper lower : List (ℝ × ℝ)} {eu el : ℝ → ℝ} {xc yc : ℝ} {q0 : ℝ × ℝ} {rest : List (ℝ × ℝ)}
    (hu : upper = q0 :: rest) (h0 : q0.1 < xc) : toPolar xc yc (xc, eu xc) ∈ polarSamples upper lower eu el xc yc := by
  unfold polarSamples
  apply mem_fixLast
  have hcomb : combined upper lower eu el xc =
      ((frontSamples upper eu xc).reverse.dropLast ++
        (lower.takeWhile fun q => !decide (q.1 ≥ xc)) ++ [(xc, el xc), (xc + 0.01, el (xc + 0.01))]) ++
          [(xc + 0.02, el (xc + 0.02))] := by
    simp [combined, frontSamples]
  rw [hcomb, List.map_append, List.map_singleton, List.dropLast_concat]
  apply List.mem_map_of_mem
  refine List.mem_append_left _ (List.mem_append_left _ ?_)
  subst hu
  have : (frontSamples (q0 :: rest) eu xc).reverse.dropLast =
      [(xc + 0.02, eu (xc + 0.02)), (xc + 0.01, eu (xc + 0.01)), (xc, eu xc)] ++
        (rest.takeWhile fun q => !decide (q.1 ≥ xc)).reverse := by
    unfold frontSamples
    rw [List.takeWhile_cons, if_pos (by simpa using h0), List.cons_append, List.reverse_cons, List.dropLast_concat,
      List.reverse_append]
    rfl
  rw [this]
  simp

theorem mem_polarSamples_lower {upper lower : List (ℝ × ℝ)} {eu el : ℝ → ℝ} {xc yc : ℝ} :
    toPolar xc yc (xc, el xc) ∈ polarSamples upper lower eu el xc yc := by
  unfold polarSamples
  apply mem_fixLast
  have hcomb : combined upper lower eu el xc =
      ((frontSamples upper eu xc).reverse.dropLast ++
        (lower.takeWhile fun q => !decide (q.1 ≥ xc)) ++ [(xc, el xc), (xc + 0.01, el (xc + 0.01))]) ++
          [(xc + 0.02, el (xc + 0.02))] := by
    simp [combined, frontSamples]
  rw [hcomb, List.map_append, List.map_singleton, List.dropLast_concat]
  apply List.mem_map_of_mem
  refine List.mem_append_right _ ?_
  simp

theorem mem_polarSamples_nose {upper lower : List (ℝ × ℝ)} {eu el : ℝ → ℝ} {xc yc : ℝ} {q0 : ℝ × ℝ} {rest : List (ℝ × ℝ)}
    (hl : lower = q0 :: rest) (h0 : q0.1 < xc) : toPolar xc yc q0 ∈ polarSamples upper lower eu el xc yc := by
  unfold polarSamples
  apply mem_fixLast
  have hcomb : combined upper lower eu el xc =
      ((frontSamples upper eu xc).reverse.dropLast ++
        (lower.takeWhile fun q => !decide (q.1 ≥ xc)) ++ [(xc, el xc), (xc + 0.01, el (xc + 0.01))]) ++
          [(xc + 0.02, el (xc + 0.02))] := by
    simp [combined, frontSamples]
  rw [hcomb, List.map_append, List.map_singleton, List.dropLast_concat]
  apply List.mem_map_of_mem
  refine List.mem_append_left _ (List.mem_append_right _ ?_)
  subst hl
  rw [List.takeWhile_cons, if_pos (by simpa using h0)]
  simp

theorem toPolar_above {xc yc y : ℝ} (h : yc < y) : toPolar xc yc (xc, y) = (1 / 2 * Real.pi, y - yc) := by
  have h1 := polarAngle_polar (r := y - yc) (φ := 1 / 2 * Real.pi) (by linarith) (by linarith [Real.pi_pos])
    (by linarith [Real.pi_pos])
  have e1 : Real.sin (1 / 2 * Real.pi) = 1 := by rw [one_div_mul_eq_div, Real.sin_pi_div_two]
  have e2 : Real.cos (1 / 2 * Real.pi) = 0 := by rw [one_div_mul_eq_div, Real.cos_pi_div_two]
  rw [e1, e2, mul_one, mul_zero] at h1
  unfold toPolar
  simp only [sub_self, h1, mul_zero, zero_add, Real.sqrt_mul_self (by linarith : 0 ≤ y - yc)]

theorem toPolar_below {xc yc y : ℝ} (h : y < yc) : toPolar xc yc (xc, y) = (3 / 2 * Real.pi, yc - y) := by
  have h1 := polarAngle_polar (r := yc - y) (φ := 3 / 2 * Real.pi) (by linarith) (by linarith [Real.pi_pos])
    (by linarith [Real.pi_pos])
  have e0 : 3 / 2 * Real.pi = Real.pi / 2 + Real.pi := by ring
  have e1 : Real.sin (3 / 2 * Real.pi) = -1 := by rw [e0, Real.sin_add_pi, Real.sin_pi_div_two]
  have e2 : Real.cos (3 / 2 * Real.pi) = 0 := by rw [e0, Real.cos_add_pi, Real.cos_pi_div_two, neg_zero]
  rw [e1, e2, mul_zero] at h1
  have e3 : (yc - y) * -1 = y - yc := by ring
  rw [e3] at h1
  unfold toPolar
  have e4 : (y - yc) * (y - yc) = (yc - y) * (yc - y) := by ring
  simp only [sub_self, h1, mul_zero, zero_add, e4, Real.sqrt_mul_self (by linarith : 0 ≤ yc - y)]

theorem toPolar_left {xc x y : ℝ} (h : x < xc) : toPolar xc y (x, y) = (Real.pi, xc - x) := by
  have h1 := polarAngle_polar (r := xc - x) (φ := Real.pi) (by linarith) (by linarith [Real.pi_pos])
    (by linarith [Real.pi_pos])
  rw [Real.sin_pi, Real.cos_pi, mul_zero] at h1
  have e3 : (xc - x) * -1 = x - xc := by ring
  rw [e3] at h1
  unfold toPolar
  have e4 : (x - xc) * (x - xc) = (xc - x) * (xc - x) := by ring
  simp only [sub_self, h1, mul_zero, add_zero, e4, Real.sqrt_mul_self (by linarith : 0 ≤ xc - x)]

/-- C98: nose and sides fit together: if the centre lies between the two sides, and the samples of the nose have increasing
angles, the radius of the nose at `π/2` and `3π/2` is the height of the upper and the depth of the lower side at the
centre. -/
theorem C98_psi_join {spline : SplineMaker} (hi : Interpolates spline) {upper lower : List (ℝ × ℝ)} {xc yc scaling : ℝ}
    (hc : xc ≤ 1) {q0 : ℝ × ℝ} {rest : List (ℝ × ℝ)} (hu : upper = q0 :: rest) (h0 : q0.1 < xc)
    (habove : yc < spline upper xc) (hbelow : spline lower xc < yc)
    (hsorted : (polarSamples upper lower (spline upper) (spline lower) xc yc).Pairwise (fun a b => a.1 < b.1)) :
    (createPsi spline upper lower xc yc scaling).upper 0 =
      (createPsi spline upper lower xc yc scaling).front (1 / 2 * Real.pi) ∧
    (createPsi spline upper lower xc yc scaling).lower 0 =
      -(createPsi spline upper lower xc yc scaling).front (3 / 2 * Real.pi) := by
  have hside : ∀ e : ℝ → ℝ, psiSide e xc yc scaling 0 = scaling * (e xc - yc) := by
    intro e
    unfold psiSide
    dsimp only
    rw [zero_div, if_neg (by linarith), zero_add]
  constructor
  · have h1 := hi _ hsorted _ (mem_polarSamples_upper (lower := lower) (eu := spline upper) (el := spline lower) (yc := yc) hu h0)
    rw [toPolar_above habove] at h1
    show psiSide (spline upper) xc yc scaling 0 = _
    rw [hside]
    unfold createPsi
    dsimp only
    rw [if_neg (by positivity), h1]
  · have h1 := hi _ hsorted _ (mem_polarSamples_lower (upper := upper) (lower := lower) (eu := spline upper)
      (el := spline lower) (yc := yc))
    rw [toPolar_below hbelow] at h1
    show psiSide (spline lower) xc yc scaling 0 = _
    rw [hside]
    unfold createPsi
    dsimp only
    rw [if_neg (by positivity), h1]
    ring

/-- C98: the meshed airfoil has the prescribed length: with the psi center on the chord, the distance from the nose to the
trailing edge along the chord is the parameter `airfoil length`, and the nose is at the height of the centre. -/
theorem C98_length {spline : SplineMaker} (hi : Interpolates spline) {upper lower : List (ℝ × ℝ)} {xc length : ℝ}
    (center : Pt) (hxc : 0 < xc) {rest : List (ℝ × ℝ)} (hl : lower = (0, 0) :: rest)
    (hsorted : (polarSamples upper lower (spline upper) (spline lower) xc 0).Pairwise (fun a b => a.1 < b.1)) :
    trailingUpper center (createPsi spline upper lower xc 0 length) 0 -
      nose center (createPsi spline upper lower xc 0 length) 0 = length ∧
    trailingLower center (createPsi spline upper lower xc 0 length) 0 =
      trailingUpper center (createPsi spline upper lower xc 0 length) 0 ∧
    nose center (createPsi spline upper lower xc 0 length) 1 = center 1 ∧
    nose center (createPsi spline upper lower xc 0 length) 0 = center 0 - length * xc := by
  have h1 := hi _ hsorted _ (mem_polarSamples_nose (upper := upper) (eu := spline upper) (el := spline lower) (yc := 0) hl hxc)
  rw [toPolar_left hxc] at h1
  have hpi : (createPsi spline upper lower xc 0 length).front Real.pi = length * xc := by
    unfold createPsi
    dsimp only
    rw [if_neg Real.pi_pos.ne', h1, sub_zero]
  have h0 : (createPsi spline upper lower xc 0 length).front 0 = length * (1 - xc) := by
    unfold createPsi
    dsimp only
    rw [if_pos rfl]
  refine ⟨?_, rfl, rfl, ?_⟩
  · simp [trailingUpper, nose, hpi, h0]; ring
  · simp [nose, hpi]

/-- C98: the trailing edge is treated as sharp exactly if the last samples agree up to the tolerance; it is refused if it is
blunt but thinner than a thousandth of the trailing length. -/
theorem C98_trailing_edge {spline : SplineMaker} (hi : Interpolates spline) {upper lower : List (ℝ × ℝ)}
    {xc yc scaling yu yl : ℝ} (hs : 0 < scaling) (hu : upper.Pairwise (fun a b => a.1 < b.1))
    (hl : lower.Pairwise (fun a b => a.1 < b.1)) (h1 : (1, yu) ∈ upper) (h2 : (1, yl) ∈ lower) :
    trailingEdge (createPsi spline upper lower xc yc scaling) =
      if scaling * |yu - yl| < 1 / 10 ^ 10 then .sharp
      else if scaling * |yu - yl| > 0.001 * (scaling * (1 - xc)) then .blunt else .exception := by
  obtain ⟨hU, hL, _⟩ := C98_psi_samples (upper := upper) (lower := lower) (xc := xc) (yc := yc) hi hs
  have e1 := hU hu _ h1 (le_refl _)
  have e2 := hL hl _ h2 (le_refl _)
  have h0 : (createPsi spline upper lower xc yc scaling).front 0 = scaling * (1 - xc) := by
    unfold createPsi
    dsimp only
    rw [if_pos rfl]
  unfold trailingEdge
  simp only [h0, e1, e2]
  have : |scaling * (yu - yc) - scaling * (yl - yc)| = scaling * |yu - yl| := by
    rw [← mul_sub, abs_mul, abs_of_pos hs]
    congr 2
    ring
  rw [this]

/-- A spline maker that interpolates: the value of the first sample point at that abscissa. -/
def lookup : SplineMaker := fun points x => ((points.find? fun q => decide (q.1 = x)).map Prod.snd).getD 0

theorem lookup_interpolates : Interpolates lookup := by
  intro points
  induction points with
  | nil => intro _ q hq; simp at hq
  | cons a l ih =>
    intro hp q hq
    rw [List.pairwise_cons] at hp
    rcases List.mem_cons.mp hq with rfl | hq'
    · simp [lookup]
    · have hne : ¬ a.1 = q.1 := (hp.1 q hq').ne
      have := ih hp.2 q hq'
      simp only [lookup, List.find?_cons, hne, decide_false] at this ⊢
      exact this

/-- A profile with a thick middle, and its mirror image. -/
def tipUpper : List (ℝ × ℝ) := [(0, 0), (1 / 2, 1), (1 / 2 + 0.01, 0.01), (1 / 2 + 0.02, 0), (1, 0)]

@[inherit_doc tipUpper]
def tipLower : List (ℝ × ℝ) := [(0, 0), (1 / 2, -1), (1 / 2 + 0.01, -0.01), (1 / 2 + 0.02, 0), (1, 0)]

theorem tip_sorted : tipUpper.Pairwise (fun a b => a.1 < b.1) ∧ tipLower.Pairwise (fun a b => a.1 < b.1) := by
  constructor <;> simp [tipUpper, tipLower] <;> norm_num

theorem tip_values : lookup tipUpper (1 / 2) = 1 ∧ lookup tipUpper (1 / 2 + 0.01) = 0.01 ∧
    lookup tipUpper (1 / 2 + 0.02) = 0 ∧ lookup tipLower (1 / 2) = -1 ∧ lookup tipLower (1 / 2 + 0.01) = -0.01 ∧
    lookup tipLower (1 / 2 + 0.02) = 0 := by
  have h := lookup_interpolates
  exact ⟨h _ tip_sorted.1 (1 / 2, 1) (by simp [tipUpper]),
    h _ tip_sorted.1 (1 / 2 + 0.01, 0.01) (by simp [tipUpper]), h _ tip_sorted.1 (1 / 2 + 0.02, 0) (by simp [tipUpper]),
    h _ tip_sorted.2 (1 / 2, -1) (by simp [tipLower]),
    h _ tip_sorted.2 (1 / 2 + 0.01, -0.01) (by simp [tipLower]), h _ tip_sorted.2 (1 / 2 + 0.02, 0) (by simp [tipLower])⟩

theorem tip_polar_sorted :
    (polarSamples tipUpper tipLower (lookup tipUpper) (lookup tipLower) (1 / 2) 0).Pairwise (fun a b => a.1 < b.1) := by
  obtain ⟨v1, v2, v3, v4, v5, v6⟩ := tip_values
  have hc : combined tipUpper tipLower (lookup tipUpper) (lookup tipLower) (1 / 2) =
      [(1 / 2 + 0.02, 0), (1 / 2 + 0.01, 0.01), (1 / 2, 1), (0, 0), (1 / 2, -1), (1 / 2 + 0.01, -0.01),
        (1 / 2 + 0.02, 0)] := by
    unfold combined frontSamples
    rw [v1, v2, v3, v4, v5, v6]
    simp [tipUpper, tipLower]
  have a1 : (toPolar (1 / 2) 0 (1 / 2 + 0.02, 0)).1 = 0 := by
    have := polarAngle_polar (r := 0.02) (φ := 0) (by norm_num) le_rfl (by linarith [Real.pi_pos])
    rw [Real.sin_zero, Real.cos_zero, mul_zero, mul_one] at this
    simp only [toPolar, sub_zero, add_sub_cancel_left, this]
  have hq : 0 < Real.sqrt 2 / 2 := by positivity
  have hq2 : Real.sqrt 2 * Real.sqrt 2 = 2 := Real.mul_self_sqrt (by norm_num)
  have a2 : (toPolar (1 / 2) 0 (1 / 2 + 0.01, 0.01)).1 = Real.pi / 4 := by
    have := polarAngle_polar (r := 0.01 * Real.sqrt 2) (φ := Real.pi / 4) (by positivity) (by linarith [Real.pi_pos])
      (by linarith [Real.pi_pos])
    rw [Real.sin_pi_div_four, Real.cos_pi_div_four] at this
    have e : (0.01 : ℝ) * Real.sqrt 2 * (Real.sqrt 2 / 2) = 0.01 := by linear_combination 0.005 * hq2
    rw [e] at this
    simp only [toPolar, sub_zero, add_sub_cancel_left, this]
  have a3 : (toPolar (1 / 2) 0 (1 / 2, 1)).1 = 1 / 2 * Real.pi := by rw [toPolar_above one_pos]
  have a4 : (toPolar (1 / 2) 0 ((0 : ℝ), (0 : ℝ))).1 = Real.pi := by rw [toPolar_left (by norm_num)]
  have a5 : (toPolar (1 / 2) 0 (1 / 2, -1)).1 = 3 / 2 * Real.pi := by rw [toPolar_below (by norm_num)]
  have a6 : (toPolar (1 / 2) 0 (1 / 2 + 0.01, -0.01)).1 = 7 / 4 * Real.pi := by
    have := polarAngle_polar (r := 0.01 * Real.sqrt 2) (φ := 7 / 4 * Real.pi) (by positivity) (by linarith [Real.pi_pos])
      (by linarith [Real.pi_pos])
    have e0 : 7 / 4 * Real.pi = 2 * Real.pi - Real.pi / 4 := by ring
    have e1 : Real.sin (7 / 4 * Real.pi) = -(Real.sqrt 2 / 2) := by
      rw [e0, Real.sin_two_pi_sub, Real.sin_pi_div_four]
    have e2 : Real.cos (7 / 4 * Real.pi) = Real.sqrt 2 / 2 := by
      rw [e0, Real.cos_two_pi_sub, Real.cos_pi_div_four]
    rw [e1, e2] at this
    have e : (0.01 : ℝ) * Real.sqrt 2 * (Real.sqrt 2 / 2) = 0.01 := by linear_combination 0.005 * hq2
    have e' : (0.01 : ℝ) * Real.sqrt 2 * -(Real.sqrt 2 / 2) = -0.01 := by linear_combination -0.005 * hq2
    rw [e, e'] at this
    simp only [toPolar, sub_zero, add_sub_cancel_left, this]
  unfold polarSamples
  rw [hc]
  simp only [List.map_cons, List.map_nil]
  unfold fixLast
  simp only [List.getLast?_cons_cons, List.getLast?_singleton, a1, if_pos, List.dropLast_cons_cons, List.dropLast_singleton,
    List.cons_append, List.nil_append]
  have hpi := Real.pi_pos
  simp only [List.pairwise_cons, List.mem_cons, List.not_mem_nil, or_false, forall_eq_or_imp, forall_eq, a1, a2, a3, a4, a5,
    a6, IsEmpty.forall_iff, implies_true, and_true, List.Pairwise.nil]
  refine ⟨⟨?_, ?_, ?_, ?_, ?_, ?_⟩, ⟨?_, ?_, ?_, ?_, ?_⟩, ⟨?_, ?_, ?_, ?_⟩, ⟨?_, ?_, ?_⟩, ⟨?_, ?_⟩, ?_⟩ <;> linarith

/-- The hypotheses of the theorems above are met by this profile. -/
example : (createPsi lookup tipUpper tipLower (1 / 2) 0 3).upper 0 =
      (createPsi lookup tipUpper tipLower (1 / 2) 0 3).front (1 / 2 * Real.pi) ∧
    (createPsi lookup tipUpper tipLower (1 / 2) 0 3).lower 0 =
      -(createPsi lookup tipUpper tipLower (1 / 2) 0 3).front (3 / 2 * Real.pi) ∧
    trailingUpper ![1, 1] (createPsi lookup tipUpper tipLower (1 / 2) 0 3) 0 -
      nose ![1, 1] (createPsi lookup tipUpper tipLower (1 / 2) 0 3) 0 = 3 ∧
    trailingEdge (createPsi lookup tipUpper tipLower (1 / 2) 0 3) = .sharp := by
  have h1 := C98_psi_join (scaling := 3) lookup_interpolates (xc := 1 / 2) (yc := 0) (by norm_num)
    (show tipUpper = (0, 0) :: [(1 / 2, 1), (1 / 2 + 0.01, 0.01), (1 / 2 + 0.02, 0), (1, 0)] from rfl) (by norm_num)
    (by rw [tip_values.1]; norm_num) (by rw [tip_values.2.2.2.1]; norm_num) tip_polar_sorted
  have h2 := C98_length (length := 3) lookup_interpolates ![1, 1] (by norm_num)
    (show tipLower = (0, 0) :: [(1 / 2, -1), (1 / 2 + 0.01, -0.01), (1 / 2 + 0.02, 0), (1, 0)] from rfl) tip_polar_sorted
  have h3 := C98_trailing_edge (xc := 1 / 2) (yc := 0) (scaling := 3) (yu := 0) (yl := 0) lookup_interpolates (by norm_num)
    tip_sorted.1 tip_sorted.2 (by simp [tipUpper]) (by simp [tipLower])
  refine ⟨h1.1, h1.2, h2.1, ?_⟩
  rw [h3, if_pos (by norm_num)]

end

end Airfoil
end Ryujin
