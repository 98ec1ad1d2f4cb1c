import Verif.Model.Airfoil
import Mathlib.Analysis.SpecialFunctions.Complex.Arg
import Mathlib.Analysis.Convex.SpecificFunctions.Basic
import Mathlib.Tactic.Linarith
import Mathlib.Tactic.LinearCombination
import Mathlib.Tactic.Positivity
import Mathlib.Tactic.FieldSimp
import Mathlib.Tactic.FinCases

/-!
# C98: the charts of the airfoil mesh
-/

namespace Ryujin
namespace Airfoil

open scoped BigOperators
open GeoTiff (Outcome)

noncomputable section

/-! ### Polar coordinates -/

theorem polarAngle_mem {x y : ℝ} (hx : x ≤ 0) (h : x ≠ 0 ∨ y ≠ 0) :
    1 / 2 * Real.pi ≤ polarAngle y x ∧ polarAngle y x ≤ 3 / 2 * Real.pi := by
  have hz : (⟨x, y⟩ : ℂ) ≠ 0 := by
    intro h0
    have h1 := congrArg Complex.re h0
    have h2 := congrArg Complex.im h0
    simp at h1 h2
    rcases h with h | h
    · exact h h1
    · exact h h2
  have h1 : ¬ |Complex.arg ⟨x, y⟩| < Real.pi / 2 := by
    rw [Complex.abs_arg_lt_pi_div_two_iff]
    rintro (h' | h')
    · exact absurd h' (not_lt.mpr hx)
    · exact hz h'
  push Not at h1
  have h2 := Complex.neg_pi_lt_arg ⟨x, y⟩
  have h3 := Complex.arg_le_pi ⟨x, y⟩
  unfold polarAngle atan2
  split
  · rename_i hn
    rw [abs_of_neg hn] at h1
    constructor <;> linarith
  · rename_i hn
    rw [abs_of_nonneg (not_lt.mp hn)] at h1
    constructor <;> linarith [Real.pi_pos]

theorem polar_push_pull (x y : ℝ) : polarPushForward (polarPullBack ![x, y]) = ![x, y] := by
  have hn : Real.sqrt (x * x + y * y) = ‖(⟨x, y⟩ : ℂ)‖ := by
    rw [Complex.norm_def, Complex.normSq_mk]
  have hc : Real.cos (polarAngle y x) = Real.cos (Complex.arg ⟨x, y⟩) := by
    unfold polarAngle atan2; split
    · rw [Real.cos_add_two_pi]
    · rfl
  have hs : Real.sin (polarAngle y x) = Real.sin (Complex.arg ⟨x, y⟩) := by
    unfold polarAngle atan2; split
    · rw [Real.sin_add_two_pi]
    · rfl
  ext d
  fin_cases d
  · simp [polarPushForward, polarPullBack, hn, hc]
  · simp [polarPushForward, polarPullBack, hn, hs]

theorem arg_polar {r φ : ℝ} (hr : 0 < r) (h : φ ∈ Set.Ioc (-Real.pi) Real.pi) :
    Complex.arg ⟨r * Real.cos φ, r * Real.sin φ⟩ = φ := by
  have h1 := Complex.arg_mul_cos_add_sin_mul_I hr h
  have h2 : (⟨r * Real.cos φ, r * Real.sin φ⟩ : ℂ) = r * (Complex.cos φ + Complex.sin φ * Complex.I) := by
    apply Complex.ext <;>
      simp [Complex.cos_ofReal_re, Complex.sin_ofReal_re, Complex.cos_ofReal_im, Complex.sin_ofReal_im]
  rw [h2, h1]

theorem polarAngle_polar {r φ : ℝ} (hr : 0 < r) (h1 : 0 ≤ φ) (h2 : φ < 2 * Real.pi) :
    polarAngle (r * Real.sin φ) (r * Real.cos φ) = φ := by
  unfold polarAngle atan2
  by_cases h : φ ≤ Real.pi
  · rw [arg_polar hr ⟨by linarith [Real.pi_pos], h⟩, if_neg (not_lt.mpr h1)]
  · push Not at h
    have e1 : Real.cos φ = Real.cos (φ - 2 * Real.pi) := by rw [Real.cos_sub_two_pi]
    have e2 : Real.sin φ = Real.sin (φ - 2 * Real.pi) := by rw [Real.sin_sub_two_pi]
    rw [e1, e2, arg_polar hr ⟨by linarith, by linarith [Real.pi_pos]⟩, if_pos (by linarith)]
    ring

theorem radius_polar {r φ : ℝ} (hr : 0 < r) :
    Real.sqrt (r * Real.cos φ * (r * Real.cos φ) + r * Real.sin φ * (r * Real.sin φ)) = r := by
  have : r * Real.cos φ * (r * Real.cos φ) + r * Real.sin φ * (r * Real.sin φ) = r ^ 2 := by
    linear_combination r ^ 2 * Real.sin_sq_add_cos_sq φ
  rw [this, Real.sqrt_sq hr.le]

/-! ### Specification -/

/-- The curve the mesh has to follow on one side of the airfoil: relative to the centre, the nose in polar coordinates
`r = psi_front(φ)`, `π/2 ≤ φ ≤ 3π/2`, and behind the centre the graph of the given side. -/
def OnProfile (center : Pt) (psiFront side : ℝ → ℝ) (p : Pt) : Prop :=
  (0 < p 0 - center 0 ∧ p 1 - center 1 = side (p 0 - center 0)) ∨
    ∃ φ, 1 / 2 * Real.pi ≤ φ ∧ φ ≤ 3 / 2 * Real.pi ∧
      p = ![center 0 + psiFront φ * Real.cos φ, center 1 + psiFront φ * Real.sin φ]

/-- The parametrisation of the side this chart belongs to. -/
def Manifold.side (M : Manifold) : ℝ → ℝ := if M.upperSide then M.psiUpper else M.psiLower

theorem cos_nonpos_mid {φ : ℝ} (h1 : 1 / 2 * Real.pi ≤ φ) (h2 : φ ≤ 3 / 2 * Real.pi) : Real.cos φ ≤ 0 :=
  Real.cos_nonpos_of_pi_div_two_le_of_le (by linarith) (by linarith)

/-- The chart coordinates of the points, case by case. -/
theorem pullBack_back_upper (M : Manifold) (p : Pt) (h : 0 < p 0 - M.center 0) (hs : M.upperSide = true) :
    M.pullBack p =
      ![1 + (p 1 - M.center 1) - M.psiUpper (p 0 - M.center 0), 1 / 2 * Real.pi - M.ratio * (p 0 - M.center 0)] := by
  unfold Manifold.pullBack
  dsimp only
  rw [if_pos h, if_pos hs]

theorem pullBack_back_lower (M : Manifold) (p : Pt) (h : 0 < p 0 - M.center 0) (hs : M.upperSide = false) :
    M.pullBack p =
      ![1 - (p 1 - M.center 1) + M.psiLower (p 0 - M.center 0), 3 / 2 * Real.pi + M.ratio * (p 0 - M.center 0)] := by
  unfold Manifold.pullBack
  dsimp only
  rw [if_pos h, if_neg (by simp [hs])]

theorem pullBack_front (M : Manifold) (p : Pt) (h : p 0 - M.center 0 ≤ 0) :
    M.pullBack p =
      ![1 + Real.sqrt ((p 0 - M.center 0) * (p 0 - M.center 0) + (p 1 - M.center 1) * (p 1 - M.center 1)) -
          M.psiFront (polarAngle (p 1 - M.center 1) (p 0 - M.center 0)),
        polarAngle (p 1 - M.center 1) (p 0 - M.center 0)] := by
  unfold Manifold.pullBack
  dsimp only
  rw [if_neg (not_lt.mpr h)]
  simp [polarPullBack]

theorem pushForward_upper (M : Manifold) (c : Pt) (h : c 1 < 1 / 2 * Real.pi) :
    M.pushForward c =
      ![(1 / 2 * Real.pi - c 1) / M.ratio + M.center 0,
        c 0 - 1 + M.psiUpper ((1 / 2 * Real.pi - c 1) / M.ratio) + M.center 1] := by
  unfold Manifold.pushForward
  dsimp only
  rw [if_pos h]
  simp

theorem pushForward_lower (M : Manifold) (c : Pt) (h : 3 / 2 * Real.pi < c 1) :
    M.pushForward c =
      ![(c 1 - 3 / 2 * Real.pi) / M.ratio + M.center 0,
        1 - c 0 + M.psiLower ((c 1 - 3 / 2 * Real.pi) / M.ratio) + M.center 1] := by
  unfold Manifold.pushForward
  dsimp only
  rw [if_neg (by linarith [Real.pi_pos]), if_pos h]
  simp

theorem pushForward_front (M : Manifold) (c : Pt) (h1 : 1 / 2 * Real.pi ≤ c 1) (h2 : c 1 ≤ 3 / 2 * Real.pi) :
    M.pushForward c =
      ![(c 0 - 1 + M.psiFront (c 1)) * Real.cos (c 1) + M.center 0,
        (c 0 - 1 + M.psiFront (c 1)) * Real.sin (c 1) + M.center 1] := by
  unfold Manifold.pushForward
  dsimp only
  rw [if_neg (not_lt.mpr h1), if_neg (not_lt.mpr h2)]
  simp [polarPushForward]

/-- C98: the chart is inverted exactly.  Pulling a point other than the centre back and pushing it forward again returns
the point: no matter what the parametrisations are, a mesh vertex is not moved by being expressed in the chart. -/
theorem C98_push_pull (M : Manifold) (hr : 0 < M.ratio) (p : Pt) (hp : p ≠ M.center) :
    M.pushForward (M.pullBack p) = p := by
  have hpe : p = ![p 0, p 1] := by ext d; fin_cases d <;> rfl
  by_cases h : 0 < p 0 - M.center 0
  · cases hs : M.upperSide
    · rw [pullBack_back_lower M p h hs]
      have h3 : 0 < M.ratio * (p 0 - M.center 0) := mul_pos hr h
      have hx : (3 / 2 * Real.pi + M.ratio * (p 0 - M.center 0) - 3 / 2 * Real.pi) / M.ratio = p 0 - M.center 0 := by
        field_simp; ring
      rw [pushForward_lower M _ (by simpa using h3)]
      ext d
      fin_cases d
      · show (3 / 2 * Real.pi + M.ratio * (p 0 - M.center 0) - 3 / 2 * Real.pi) / M.ratio + M.center 0 = p 0
        rw [hx]; ring
      · show 1 - (1 - (p 1 - M.center 1) + M.psiLower (p 0 - M.center 0)) +
          M.psiLower ((3 / 2 * Real.pi + M.ratio * (p 0 - M.center 0) - 3 / 2 * Real.pi) / M.ratio) + M.center 1 = p 1
        rw [hx]; ring
    · rw [pullBack_back_upper M p h hs]
      have h3 : 0 < M.ratio * (p 0 - M.center 0) := mul_pos hr h
      have hx : (1 / 2 * Real.pi - (1 / 2 * Real.pi - M.ratio * (p 0 - M.center 0))) / M.ratio = p 0 - M.center 0 := by
        field_simp; ring
      rw [pushForward_upper M _ (by simpa using h3)]
      ext d
      fin_cases d
      · show (1 / 2 * Real.pi - (1 / 2 * Real.pi - M.ratio * (p 0 - M.center 0))) / M.ratio + M.center 0 = p 0
        rw [hx]; ring
      · show 1 + (p 1 - M.center 1) - M.psiUpper (p 0 - M.center 0) - 1 +
          M.psiUpper ((1 / 2 * Real.pi - (1 / 2 * Real.pi - M.ratio * (p 0 - M.center 0))) / M.ratio) + M.center 1 = p 1
        rw [hx]; ring
  · push Not at h
    have hne : p 0 - M.center 0 ≠ 0 ∨ p 1 - M.center 1 ≠ 0 := by
      by_contra hc
      push Not at hc
      apply hp
      ext d
      fin_cases d
      · show p 0 = M.center 0; linarith [hc.1]
      · show p 1 = M.center 1; linarith [hc.2]
    obtain ⟨h1, h2⟩ := polarAngle_mem h hne
    rw [pullBack_front M p h]
    have hpp := polar_push_pull (p 0 - M.center 0) (p 1 - M.center 1)
    have e0 := congrFun hpp 0
    have e1 := congrFun hpp 1
    simp only [polarPushForward, polarPullBack] at e0 e1
    simp at e0 e1
    unfold Manifold.pushForward
    dsimp only
    have n1 : ¬ (polarAngle (p 1 - M.center 1) (p 0 - M.center 0) < 1 / 2 * Real.pi) := not_lt.mpr h1
    have n2 : ¬ (3 / 2 * Real.pi < polarAngle (p 1 - M.center 1) (p 0 - M.center 0)) := not_lt.mpr h2
    ext d
    fin_cases d
    · simp [-one_div, n1, n2, polarPushForward]
      linarith
    · simp [-one_div, n1, n2, polarPushForward]
      linarith

/-- C98: conversely every chart point that belongs to the side of the chart, and whose radius in the nose is positive, is
recovered from its image. -/
theorem C98_pull_push (M : Manifold) (hr : 0 < M.ratio) (c : Pt)
    (hc : (c 1 < 1 / 2 * Real.pi ∧ M.upperSide = true) ∨ (3 / 2 * Real.pi < c 1 ∧ M.upperSide = false) ∨
      (1 / 2 * Real.pi ≤ c 1 ∧ c 1 ≤ 3 / 2 * Real.pi ∧ 0 < c 0 - 1 + M.psiFront (c 1))) :
    M.pullBack (M.pushForward c) = c := by
  rcases hc with ⟨h, hs⟩ | ⟨h, hs⟩ | ⟨h1, h2, h3⟩
  · have hx : 0 < (1 / 2 * Real.pi - c 1) / M.ratio := div_pos (by linarith) hr
    have hp := pushForward_upper M c h
    rw [hp, pullBack_back_upper M _ (by simpa using hx) hs]
    ext d
    fin_cases d
    · simp; ring
    · simp; field_simp; ring
  · have hx : 0 < (c 1 - 3 / 2 * Real.pi) / M.ratio := div_pos (by linarith) hr
    have hp := pushForward_lower M c h
    rw [hp, pullBack_back_lower M _ (by simpa using hx) hs]
    ext d
    fin_cases d
    · simp; ring
    · simp; field_simp; ring
  · have hp := pushForward_front M c h1 h2
    have hle : (c 0 - 1 + M.psiFront (c 1)) * Real.cos (c 1) ≤ 0 :=
      mul_nonpos_of_nonneg_of_nonpos h3.le (cos_nonpos_mid h1 h2)
    have ha : polarAngle ((c 0 - 1 + M.psiFront (c 1)) * Real.sin (c 1)) ((c 0 - 1 + M.psiFront (c 1)) * Real.cos (c 1)) =
        c 1 := polarAngle_polar h3 (by linarith [Real.pi_pos]) (by linarith [Real.pi_pos])
    rw [hp, pullBack_front M _ (by simpa using hle)]
    ext d
    fin_cases d
    · simp [ha, radius_polar h3]; ring
    · simp [ha]

/-- C98: the first chart coordinate is one exactly on the profile (the nose parametrised by a positive radius). -/
theorem C98_profile (M : Manifold) (hpos : ∀ φ, 1 / 2 * Real.pi ≤ φ → φ ≤ 3 / 2 * Real.pi → 0 < M.psiFront φ) (p : Pt)
    (hp : p ≠ M.center) : M.pullBack p 0 = 1 ↔ OnProfile M.center M.psiFront M.side p := by
  by_cases h : 0 < p 0 - M.center 0
  · have hside : OnProfile M.center M.psiFront M.side p ↔ p 1 - M.center 1 = M.side (p 0 - M.center 0) := by
      constructor
      · rintro (⟨_, h2⟩ | ⟨φ, h1, h2, h3⟩)
        · exact h2
        · exfalso
          have h4 := congrFun h3 0
          simp at h4
          have := mul_nonpos_of_nonneg_of_nonpos (hpos φ h1 h2).le (cos_nonpos_mid h1 h2)
          linarith
      · exact fun h2 => Or.inl ⟨h, h2⟩
    rw [hside]
    cases hs : M.upperSide
    · rw [pullBack_back_lower M p h hs]
      simp [Manifold.side, hs]
      constructor <;> intro h' <;> linarith
    · rw [pullBack_back_upper M p h hs]
      simp [Manifold.side, hs]
      constructor <;> intro h' <;> linarith
  · push Not at h
    have hne : p 0 - M.center 0 ≠ 0 ∨ p 1 - M.center 1 ≠ 0 := by
      by_contra hc
      push Not at hc
      apply hp
      ext d
      fin_cases d
      · show p 0 = M.center 0; linarith [hc.1]
      · show p 1 = M.center 1; linarith [hc.2]
    obtain ⟨h1, h2⟩ := polarAngle_mem h hne
    rw [pullBack_front M p h]
    have hpp := polar_push_pull (p 0 - M.center 0) (p 1 - M.center 1)
    have e0 := congrFun hpp 0
    have e1 := congrFun hpp 1
    simp only [polarPushForward, polarPullBack] at e0 e1
    simp at e0 e1
    constructor
    · intro hh
      simp at hh
      right
      refine ⟨_, h1, h2, ?_⟩
      have hr : Real.sqrt ((p 0 - M.center 0) * (p 0 - M.center 0) + (p 1 - M.center 1) * (p 1 - M.center 1)) =
          M.psiFront (polarAngle (p 1 - M.center 1) (p 0 - M.center 0)) := by linarith
      rw [← hr]
      ext d
      fin_cases d
      · simp; linarith
      · simp; linarith
    · rintro (⟨h', _⟩ | ⟨φ, h3, h4, h5⟩)
      · exact absurd h' (not_lt.mpr h)
      · have hp0 : p 0 - M.center 0 = M.psiFront φ * Real.cos φ := by rw [h5]; simp
        have hp1 : p 1 - M.center 1 = M.psiFront φ * Real.sin φ := by rw [h5]; simp
        have hq := hpos φ h3 h4
        rw [hp0, hp1, polarAngle_polar hq (by linarith [Real.pi_pos]) (by linarith [Real.pi_pos]), radius_polar hq]
        simp

/-- C98: every vertex refinement inserts between vertices on the profile lies on the profile: an average, with any
nonnegative weights of sum one, of any number of points on the profile, computed with the chart of this side. -/
theorem C98_refined_vertex {n : ℕ} (M : Manifold) (hr : 0 < M.ratio)
    (hpos : ∀ φ, 1 / 2 * Real.pi ≤ φ → φ ≤ 3 / 2 * Real.pi → 0 < M.psiFront φ)
    (points : Fin n → Pt) (weights : Fin n → ℝ) (hw : ∀ i, 0 ≤ weights i) (hsum : ∑ i, weights i = 1)
    (hprof : ∀ i, OnProfile M.center M.psiFront M.side (points i)) (hne : ∀ i, points i ≠ M.center) :
    OnProfile M.center M.psiFront M.side (chartNewPoint M.pullBack M.pushForward points weights) := by
  have hc0 : ∑ i, weights i * M.pullBack (points i) 0 = 1 := by
    rw [← hsum]
    refine Finset.sum_congr rfl fun i _ => ?_
    rw [(C98_profile M hpos (points i) (hne i)).mpr (hprof i), mul_one]
  have hbound : (M.upperSide = true → ∀ i, M.pullBack (points i) 1 ≤ 3 / 2 * Real.pi) ∧
      (M.upperSide = false → ∀ i, 1 / 2 * Real.pi ≤ M.pullBack (points i) 1) := by
    constructor
    · intro hs i
      by_cases h : 0 < points i 0 - M.center 0
      · rw [pullBack_back_upper M _ h hs]
        have := mul_pos hr h
        simp
        linarith [Real.pi_pos]
      · push Not at h
        rw [pullBack_front M _ h]
        refine (polarAngle_mem h ?_).2
        by_contra hc
        push Not at hc
        apply hne i
        ext d
        fin_cases d
        · show points i 0 = M.center 0; linarith [hc.1]
        · show points i 1 = M.center 1; linarith [hc.2]
    · intro hs i
      by_cases h : 0 < points i 0 - M.center 0
      · rw [pullBack_back_lower M _ h hs]
        have := mul_pos hr h
        simp
        linarith [Real.pi_pos]
      · push Not at h
        rw [pullBack_front M _ h]
        refine (polarAngle_mem h ?_).1
        by_contra hc
        push Not at hc
        apply hne i
        ext d
        fin_cases d
        · show points i 0 = M.center 0; linarith [hc.1]
        · show points i 1 = M.center 1; linarith [hc.2]
  unfold chartNewPoint
  set c : Pt := fun d => ∑ i, weights i * M.pullBack (points i) d with hcdef
  have hc0' : c 0 = 1 := hc0
  have hup : M.upperSide = true → c 1 ≤ 3 / 2 * Real.pi := by
    intro hs
    calc c 1 = ∑ i, weights i * M.pullBack (points i) 1 := rfl
      _ ≤ ∑ i, weights i * (3 / 2 * Real.pi) :=
        Finset.sum_le_sum fun i _ => mul_le_mul_of_nonneg_left (hbound.1 hs i) (hw i)
      _ = 3 / 2 * Real.pi := by rw [← Finset.sum_mul, hsum, one_mul]
  have hlo : M.upperSide = false → 1 / 2 * Real.pi ≤ c 1 := by
    intro hs
    calc 1 / 2 * Real.pi = ∑ i, weights i * (1 / 2 * Real.pi) := by rw [← Finset.sum_mul, hsum, one_mul]
      _ ≤ ∑ i, weights i * M.pullBack (points i) 1 :=
        Finset.sum_le_sum fun i _ => mul_le_mul_of_nonneg_left (hbound.2 hs i) (hw i)
  clear_value c
  unfold Manifold.pushForward
  dsimp only
  by_cases h1 : c 1 < 1 / 2 * Real.pi
  · have hs : M.upperSide = true := by
      cases hs : M.upperSide
      · exact absurd (hlo hs) (not_le.mpr h1)
      · rfl
    left
    rw [if_pos h1]
    have hx : 0 < (1 / 2 * Real.pi - c 1) / M.ratio := div_pos (by linarith) hr
    simp only [Matrix.cons_val_zero, Matrix.cons_val_one, add_sub_cancel_right]
    exact ⟨hx, by simp [Manifold.side, hs, hc0']⟩
  · rw [if_neg h1]
    by_cases h2 : 3 / 2 * Real.pi < c 1
    · have hs : M.upperSide = false := by
        cases hs : M.upperSide
        · rfl
        · exact absurd (hup hs) (not_le.mpr h2)
      left
      rw [if_pos h2]
      have hx : 0 < (c 1 - 3 / 2 * Real.pi) / M.ratio := div_pos (by linarith) hr
      simp only [Matrix.cons_val_zero, Matrix.cons_val_one, add_sub_cancel_right]
      exact ⟨hx, by simp [Manifold.side, hs, hc0']⟩
    · rw [if_neg h2]
      right
      refine ⟨c 1, not_lt.mp h1, not_lt.mp h2, ?_⟩
      ext d
      fin_cases d
      · simp [polarPushForward, hc0']; ring
      · simp [polarPushForward, hc0']; ring

/-- C98: a copy of the manifold is the same chart, unless one of the two lengths in its ratio is zero. -/
theorem C98_clone (M : Manifold) (h0 : M.psiFront 0 ≠ 0) (h1 : M.psiFront Real.pi ≠ 0) : M.clone = M := by
  unfold Manifold.clone Manifold.construct
  have : M.ratio * M.psiFront Real.pi / M.psiFront 0 * M.psiFront 0 / M.psiFront Real.pi = M.ratio := by
    field_simp
  rw [this]

/-- A half disc of radius one with straight sides behind it. -/
def blunt (upper : Bool) : Manifold :=
  Manifold.construct ![0, 0] (fun φ => if φ = 0 then 4 else 1) (fun _ => 1) (fun _ => -1) upper 0.3

example : 0 < (blunt true).ratio ∧
    (∀ φ, 1 / 2 * Real.pi ≤ φ → φ ≤ 3 / 2 * Real.pi → 0 < (blunt true).psiFront φ) ∧
    (blunt true).psiFront 0 ≠ 0 ∧ (blunt true).psiFront Real.pi ≠ 0 ∧
    OnProfile (blunt true).center (blunt true).psiFront (blunt true).side ![3, 1] ∧
    OnProfile (blunt true).center (blunt true).psiFront (blunt true).side ![-1, 0] ∧
    (![3, 1] : Pt) ≠ (blunt true).center := by
  have hpi := Real.pi_pos
  refine ⟨?_, ?_, ?_, ?_, ?_, ?_, ?_⟩
  · simp [blunt, Manifold.construct, hpi.ne']; norm_num
  · intro φ _ _; simp only [blunt, Manifold.construct]; split <;> norm_num
  · simp [blunt, Manifold.construct]
  · simp [blunt, Manifold.construct, hpi.ne']
  · left; simp [blunt, Manifold.construct, Manifold.side]
  · right
    refine ⟨Real.pi, by linarith, by linarith, ?_⟩
    ext d
    fin_cases d <;> simp [blunt, Manifold.construct, hpi.ne']
  · intro h
    have := congrFun h 0
    simp [blunt, Manifold.construct] at this

end

end Airfoil
end Ryujin
