import Verif.Model.Geometries
import Mathlib.Tactic.Linarith
import Mathlib.Tactic.LinearCombination
import Mathlib.Tactic.Positivity
import Mathlib.Tactic.FieldSimp
import Mathlib.Tactic.FinCases
import Mathlib.Tactic.IntervalCases

/-!
# C100: the boundary conditions end up on the parts of the boundary they are configured for
-/

namespace Ryujin
namespace Geometries

open Configuration (Boundary)

noncomputable section

/-! ### The rectangular domain -/

theorem mid_ge {a b : ℝ} (hab : a ≤ b) (n k : ℕ) : a + (b - a) / n / 2 ≤ mid a b n k := by
  unfold mid
  have h : 0 ≤ (b - a) / n := div_nonneg (by linarith) (Nat.cast_nonneg n)
  have := mul_nonneg (Nat.cast_nonneg (α := ℝ) k) h
  linarith

theorem mid_le {a b : ℝ} (hab : a ≤ b) {n k : ℕ} (hk : k < n) : mid a b n k ≤ b - (b - a) / n / 2 := by
  unfold mid
  have hn : (0 : ℝ) < n := by exact_mod_cast (by omega : 0 < n)
  have h : 0 ≤ (b - a) / n := div_nonneg (by linarith) hn.le
  have hk' : (k : ℝ) + 1 ≤ n := by exact_mod_cast hk
  have h2 : ((n : ℝ) - (k + 1)) * ((b - a) / n) ≥ 0 := mul_nonneg (by linarith) h
  have h3 : (n : ℝ) * ((b - a) / n) = b - a := by field_simp
  nlinarith

theorem foldl_overwrite {dim : ℕ} {α : Type} (f : Fin dim → α → α) (d : Fin dim) (v : α)
    (hd : ∀ a, f d a = v) (hother : ∀ e, e ≠ d → ∀ a, f e a = a) (l : List (Fin dim)) (a : α) :
    l.foldl (fun id e => f e id) a = if d ∈ l then v else a := by
  induction l generalizing a with
  | nil => simp
  | cons e l ih =>
    rw [List.foldl_cons, ih]
    by_cases he : e = d
    · subst he
      simp [hd]
    · rw [hother e he]
      by_cases hl : d ∈ l
      · simp [hl]
      · simp [hl, Ne.symm he]

/-- C100: on a rectangular domain (a line, a rectangle, a box) whose corners are given in order and whose coarse cells are
not thinner than `2e-8`, every boundary face gets exactly the condition configured for the side it lies on. -/
theorem C100_rectangle {dim : ℕ} (R : Rectangle dim) (hlr : ∀ d, R.left d ≤ R.right d)
    (hcell : ∀ d, 2 / 10 ^ 8 ≤ (R.right d - R.left d) / R.subdivisions d) (d : Fin dim) (large : Bool) (k : Fin dim → ℕ)
    (hk : ∀ e, k e < R.subdivisions e) :
    R.boundaryId (R.faceCenter d large k) = if large then R.hi d else R.lo d := by
  classical
  have hlow : ∀ e, R.low e = R.left e := fun e => min_eq_left (hlr e)
  have hhigh : ∀ e, R.high e = R.right e := fun e => max_eq_right (hlr e)
  have hwide : ∀ e, 2 / 10 ^ 8 ≤ R.right e - R.left e := by
    intro e
    have hn : (1 : ℝ) ≤ R.subdivisions e := by exact_mod_cast (by have := hk e; omega : 1 ≤ R.subdivisions e)
    have h1 := hcell e
    have h2 : (R.right e - R.left e) / R.subdivisions e ≤ R.right e - R.left e :=
      div_le_self (by linarith [hlr e]) hn
    linarith
  unfold Rectangle.boundaryId
  have hpos : (1 : ℝ) / 10 ^ 8 > 0 := by positivity
  have htwo : (2 : ℝ) / 10 ^ 8 = 2 * (1 / 10 ^ 8) := by ring
  have := foldl_overwrite (α := Boundary)
    (fun e id =>
      let id1 := if R.faceCenter d large k e < R.left e + 1 / 10 ^ 8 then R.lo e else id
      if R.faceCenter d large k e > R.right e - 1 / 10 ^ 8 then R.hi e else id1)
    d (if large then R.hi d else R.lo d) ?_ ?_ (List.finRange dim) .do_nothing
  · rw [this, if_pos (List.mem_finRange d)]
  · intro a
    have hw := hwide d
    have hc : R.faceCenter d large k d = if large then R.right d else R.left d := by
      simp [Rectangle.faceCenter, hlow, hhigh]
    dsimp only
    rw [hc]
    cases large
    · simp only [Bool.false_eq_true, if_false]
      rw [if_neg (by linarith), if_pos (by linarith)]
    · simp only [if_true]
      rw [if_pos (by linarith)]
  · intro e he a
    have hc : R.faceCenter d large k e = mid (R.left e) (R.right e) (R.subdivisions e) (k e) := by
      simp [Rectangle.faceCenter, he, hlow, hhigh]
    have h1 := mid_ge (hlr e) (R.subdivisions e) (k e)
    have h2 := mid_le (hlr e) (hk e)
    have h3 := hcell e
    dsimp only
    rw [hc, if_neg (by linarith), if_neg (by linarith)]

/-- C100: the corners are not checked.  deal.II orders them, so that the mesh is the same if they are interchanged, but then
every boundary face gets the condition of the last side, top in two and front in three dimensions. -/
theorem C100_rectangle_swapped_violation {dim : ℕ} (R : Rectangle (dim + 1)) (hlr : ∀ d, R.right d < R.left d)
    (d : Fin (dim + 1)) (large : Bool) (k : Fin (dim + 1) → ℕ) :
    R.boundaryId (R.faceCenter d large k) = R.hi (Fin.last dim) := by
  classical
  unfold Rectangle.boundaryId
  rw [List.finRange_succ_last, List.foldl_append, List.foldl_cons, List.foldl_nil]
  dsimp only
  have hlow : ∀ e, R.low e = R.right e := fun e => min_eq_right (hlr e).le
  have hhigh : ∀ e, R.high e = R.left e := fun e => max_eq_left (hlr e).le
  have hge : R.right (Fin.last dim) ≤ R.faceCenter d large k (Fin.last dim) := by
    by_cases he : Fin.last dim = d
    · subst he
      simp only [Rectangle.faceCenter, if_true]
      cases large
      · simp [hlow]
      · simp [hhigh, (hlr _).le]
    · simp only [Rectangle.faceCenter, he, if_false, hlow, hhigh]
      have h1 := mid_ge (hlr (Fin.last dim)).le (R.subdivisions (Fin.last dim)) (k (Fin.last dim))
      have h2 : 0 ≤ (R.left (Fin.last dim) - R.right (Fin.last dim)) / R.subdivisions (Fin.last dim) :=
        div_nonneg (by linarith [hlr (Fin.last dim)]) (Nat.cast_nonneg _)
      linarith
  have hpos : (1 : ℝ) / 10 ^ 8 > 0 := by positivity
  rw [if_pos (by linarith)]

/-- C100: the tolerance is absolute.  On an interval shorter than `1e-8` the left end gets the condition of the right. -/
theorem C100_rectangle_small_violation (R : Rectangle 1) (h1 : R.left 0 < R.right 0) (h2 : R.right 0 - R.left 0 < 1 / 10 ^ 8)
    (k : Fin 1 → ℕ) : R.boundaryId (R.faceCenter 0 false k) = R.hi 0 := by
  classical
  unfold Rectangle.boundaryId
  have hc : R.faceCenter 0 false k 0 = R.left 0 := by
    simp [Rectangle.faceCenter, Rectangle.low, min_eq_left h1.le]
  simp only [List.finRange_succ, List.finRange_zero, List.map_nil, List.foldl_cons, List.foldl_nil]
  rw [hc, if_pos (by linarith)]

/-- C100: either the configuration is refused or periodic conditions come in pairs: if a side is periodic so is the opposite
one, and exactly these directions are made periodic. -/
theorem C100_periodic {dim : ℕ} (R : Rectangle dim) :
    (R.periodicDirections = none ↔ ∃ d, (R.lo d = .periodic ∨ R.hi d = .periodic) ∧ R.lo d ≠ R.hi d) ∧
    ∀ l, R.periodicDirections = some l →
      (∀ d, R.lo d = .periodic ↔ R.hi d = .periodic) ∧ l.Nodup ∧ ∀ d, d ∈ l ↔ R.lo d = .periodic := by
  unfold Rectangle.periodicDirections
  have hnone : ∀ l : List (Fin dim), l.foldl R.periodicStep none = none := by
    intro l; induction l with
    | nil => rfl
    | cons d l ih => rw [List.foldl_cons]; exact ih
  have key : ∀ (l : List (Fin dim)) (a : List (Fin dim)),
      l.foldl R.periodicStep (some a) =
        if ∃ d ∈ l, (R.lo d = .periodic ∨ R.hi d = .periodic) ∧ R.lo d ≠ R.hi d then none
        else some (a ++ l.filter fun d => R.lo d = .periodic) := by
    intro l
    induction l with
    | nil => intro a; simp
    | cons d l ih =>
      intro a
      rw [List.foldl_cons]
      by_cases hp : R.lo d = .periodic ∨ R.hi d = .periodic
      · by_cases he : R.lo d = R.hi d
        · have hlo : R.lo d = .periodic := by rcases hp with h | h; exacts [h, he.trans h]
          have hfd : R.periodicStep (some a) d = some (a ++ [d]) := by simp only [Rectangle.periodicStep]; rw [if_pos hp, if_pos he]
          rw [hfd, ih]
          have hiff : (∃ e ∈ d :: l, (R.lo e = .periodic ∨ R.hi e = .periodic) ∧ R.lo e ≠ R.hi e) ↔
              ∃ e ∈ l, (R.lo e = .periodic ∨ R.hi e = .periodic) ∧ R.lo e ≠ R.hi e := by
            constructor
            · rintro ⟨e, h1, h2, h3⟩
              rcases List.mem_cons.mp h1 with rfl | h
              · exact absurd he h3
              · exact ⟨e, h, h2, h3⟩
            · rintro ⟨e, h1, h2⟩
              exact ⟨e, List.mem_cons_of_mem _ h1, h2⟩
          simp only [hiff, List.filter_cons, hlo, decide_true, if_true, List.append_assoc, List.singleton_append]
        · have hfd : R.periodicStep (some a) d = none := by simp only [Rectangle.periodicStep]; rw [if_pos hp, if_neg he]
          rw [hfd, hnone, if_pos ⟨d, List.mem_cons_self, hp, he⟩]
      · have hfd : R.periodicStep (some a) d = some a := by simp only [Rectangle.periodicStep]; rw [if_neg hp]
        rw [hfd, ih]
        have hiff : (∃ e ∈ d :: l, (R.lo e = .periodic ∨ R.hi e = .periodic) ∧ R.lo e ≠ R.hi e) ↔
            ∃ e ∈ l, (R.lo e = .periodic ∨ R.hi e = .periodic) ∧ R.lo e ≠ R.hi e := by
          constructor
          · rintro ⟨e, h1, h2, h3⟩
            rcases List.mem_cons.mp h1 with rfl | h
            · exact absurd h2 hp
            · exact ⟨e, h, h2, h3⟩
          · rintro ⟨e, h1, h2⟩
            exact ⟨e, List.mem_cons_of_mem _ h1, h2⟩
        have hlo : ¬ R.lo d = .periodic := fun h => hp (Or.inl h)
        simp only [hiff, List.filter_cons, hlo, decide_false, Bool.false_eq_true, if_false]
  rw [key]
  constructor
  · constructor
    · intro h
      split at h
      · rename_i h'
        obtain ⟨d, _, hd⟩ := h'
        exact ⟨d, hd⟩
      · simp at h
    · rintro ⟨d, hd⟩
      rw [if_pos ⟨d, List.mem_finRange d, hd⟩]
  · intro l hl
    split at hl
    · simp at hl
    · rename_i h'
      have hl' := Option.some.inj hl
      simp only [List.nil_append] at hl'
      subst hl'
      have hno : ∀ d, ¬ ((R.lo d = .periodic ∨ R.hi d = .periodic) ∧ R.lo d ≠ R.hi d) :=
        fun d hd => h' ⟨d, List.mem_finRange d, hd⟩
      refine ⟨?_, (List.nodup_finRange dim).filter _, ?_⟩
      · intro d
        constructor
        · intro h
          by_contra hne
          exact hno d ⟨Or.inl h, fun he => hne (he ▸ h)⟩
        · intro h
          by_contra hne
          exact hno d ⟨Or.inr h, fun he => hne (he ▸ h)⟩
      · intro d
        simp [List.mem_filter]

/-! ### Wall, step, cylinder, tank -/

/-- What the comment in the function promises (geometry_wall.h:70-74). -/
def Wall.expected : WallFace → Boundary
  | .left _ => .dirichlet
  | .right _ => .do_nothing
  | .topFront => .dirichlet
  | .topBack _ => .dirichlet
  | .bottomFront => .dirichlet
  | .bottomBack _ => .slip

/-- C100: the wall: slip on the bottom behind the wall position, do nothing on the right, inflow elsewhere. -/
theorem C100_wall (W : Wall) (h0 : 0 < W.wallPosition) (h1 : 1 / 10 ^ 4 ≤ W.length - W.wallPosition)
    (h2 : 1 / 10 ^ 4 ≤ W.height) (f : WallFace) : W.boundaryId (W.center f) = Wall.expected f := by
  classical
  have t1 : (1 : ℝ) / 10 ^ 4 = 100 * (1 / 10 ^ 6) := by norm_num
  have tp : (0 : ℝ) < 1 / 10 ^ 6 := by positivity
  rw [t1] at h1 h2
  have unf : ∀ c : Vec 2, W.boundaryId c = (if c 0 > W.wallPosition ∧ c 1 < 1 / 10 ^ 6 then Boundary.slip
      else if c 0 > W.length - 1 / 10 ^ 6 then .do_nothing else .dirichlet) := fun _ => rfl
  generalize (1 : ℝ) / 10 ^ 6 = τ at *
  have hy : ∀ k : Fin 6, τ ≤ mid 0 W.height 6 k := by
    intro k
    have := mid_ge (a := 0) (b := W.height) (by linarith) 6 k
    norm_num at this
    linarith
  have hxb : ∀ i : Fin 18, W.wallPosition < mid W.wallPosition W.length 18 i ∧
      mid W.wallPosition W.length 18 i ≤ W.length - τ := by
    intro i
    have ha := mid_ge (a := W.wallPosition) (b := W.length) (by linarith) 18 i
    have hb := mid_le (a := W.wallPosition) (b := W.length) (by linarith) i.isLt
    norm_num at ha hb
    constructor <;> linarith
  have hxf : mid 0 W.wallPosition 1 0 = W.wallPosition / 2 := by unfold mid; norm_num; ring
  cases f with
  | left k =>
    rw [unf]
    show (if (0 : ℝ) > W.wallPosition ∧ mid 0 W.height 6 k < τ then Boundary.slip
      else if (0 : ℝ) > W.length - τ then .do_nothing else .dirichlet) = .dirichlet
    rw [if_neg (fun h => by linarith [h.1]), if_neg (by linarith)]
  | right k =>
    rw [unf]
    show (if W.length > W.wallPosition ∧ mid 0 W.height 6 k < τ then Boundary.slip
      else if W.length > W.length - τ then .do_nothing else .dirichlet) = .do_nothing
    rw [if_neg (fun h => by linarith [h.2, hy k]), if_pos (by linarith)]
  | topFront =>
    rw [unf]
    show (if mid 0 W.wallPosition 1 0 > W.wallPosition ∧ W.height < τ then Boundary.slip
      else if mid 0 W.wallPosition 1 0 > W.length - τ then .do_nothing else .dirichlet) = .dirichlet
    rw [hxf, if_neg (fun h => by linarith [h.2]), if_neg (by linarith)]
  | topBack i =>
    rw [unf]
    show (if mid W.wallPosition W.length 18 i > W.wallPosition ∧ W.height < τ then Boundary.slip
      else if mid W.wallPosition W.length 18 i > W.length - τ then .do_nothing else .dirichlet) = .dirichlet
    rw [if_neg (fun h => by linarith [h.2]), if_neg (by linarith [(hxb i).2])]
  | bottomFront =>
    rw [unf]
    show (if mid 0 W.wallPosition 1 0 > W.wallPosition ∧ (0 : ℝ) < τ then Boundary.slip
      else if mid 0 W.wallPosition 1 0 > W.length - τ then .do_nothing else .dirichlet) = .dirichlet
    rw [hxf, if_neg (fun h => by linarith [h.1]), if_neg (by linarith)]
  | bottomBack i =>
    rw [unf]
    show (if mid W.wallPosition W.length 18 i > W.wallPosition ∧ (0 : ℝ) < τ then Boundary.slip
      else if mid W.wallPosition W.length 18 i > W.length - τ then .do_nothing else .dirichlet) = .slip
    rw [if_pos ⟨(hxb i).1, tp⟩]

/-- C100: the documentation of the geometry promises "do nothing" on the part of the bottom in front of the wall
(geometry_wall.h:17-21); it gets inflow conditions. -/
theorem C100_wall_documentation_violation (W : Wall) (h0 : 0 < W.wallPosition) (h1 : 1 / 10 ^ 4 ≤ W.length - W.wallPosition)
    (h2 : 1 / 10 ^ 4 ≤ W.height) : W.boundaryId (W.center .bottomFront) = .dirichlet ∧
      W.boundaryId (W.center .bottomFront) ≠ .do_nothing := by
  rw [C100_wall W h0 h1 h2]
  exact ⟨rfl, by simp [Wall.expected]⟩

/-- What the comment in the function promises (geometry_step.h:70-75). -/
def Step.expected : StepFace → Boundary
  | .leftUpper _ => .dirichlet
  | .leftLower => .dirichlet
  | .right _ => .do_nothing
  | .top _ => .slip
  | .bottom _ => .slip
  | .stepFront => .slip
  | .stepTop _ => .slip

/-- C100: the Mach step: inflow on the left, nothing on the right, slip elsewhere, including both sides of the step. -/
theorem C100_step (S : Step) (h2 : 1 / 10 ^ 4 ≤ S.stepPosition)
    (h3 : S.stepPosition ≤ S.length - 1 / 10 ^ 4) (f : StepFace) : S.boundaryId (S.center f) = Step.expected f := by
  classical
  have t1 : (1 : ℝ) / 10 ^ 4 = 100 * (1 / 10 ^ 6) := by norm_num
  have tp : (0 : ℝ) < 1 / 10 ^ 6 := by positivity
  rw [t1] at h2 h3
  have unf : ∀ c : Vec 2, S.boundaryId c = (if c 0 < 0 + 1 / 10 ^ 6 then Boundary.dirichlet else
      if c 0 > 0 + 1 / 10 ^ 6 ∧ c 0 < S.length - 1 / 10 ^ 6 then Boundary.slip else .do_nothing) := fun _ => rfl
  generalize (1 : ℝ) / 10 ^ 6 = τ at *
  have inner : ∀ c : Vec 2, τ < c 0 → c 0 < S.length - τ → S.boundaryId c = .slip := by
    intro c ha hb
    rw [unf, if_neg (by linarith), if_pos ⟨by linarith, hb⟩]
  have hx : ∀ i, i < 15 → τ < mid 0 S.length 15 i ∧ mid 0 S.length 15 i < S.length - τ := by
    intro i hi
    have ha := mid_ge (a := 0) (b := S.length) (by linarith) 15 i
    have hb := mid_le (a := 0) (b := S.length) (by linarith) hi
    norm_num at ha hb
    constructor <;> linarith
  cases f with
  | leftUpper k => rw [unf]; exact if_pos (by show (0 : ℝ) < 0 + τ; linarith)
  | leftLower => rw [unf]; exact if_pos (by show (0 : ℝ) < 0 + τ; linarith)
  | right k =>
    rw [unf, if_neg (by show ¬ S.length < 0 + τ; linarith), if_neg]
    · rfl
    · rintro ⟨_, h⟩
      have : S.length < S.length - τ := h
      linarith
  | top i => exact inner _ (hx i i.isLt).1 (hx i i.isLt).2
  | bottom i =>
    have ha := mid_ge (a := 0) (b := S.stepPosition) (by linarith) 3 i
    have hb := mid_le (a := 0) (b := S.stepPosition) (by linarith) i.isLt
    norm_num at ha hb
    exact inner _ (by show τ < mid 0 S.stepPosition 3 i; linarith) (by show mid 0 S.stepPosition 3 i < _; linarith)
  | stepFront => exact inner _ (by show τ < S.stepPosition; linarith) (by show S.stepPosition < _; linarith)
  | stepTop i =>
    have := hx (i + 3) (by omega)
    exact inner _ this.1 this.2

/-- C100: the two blocks of the Mach step only fit together if the step is at a fifth of the length: otherwise a vertex of
the lower block is not a vertex of the upper one, and merging the meshes leaves a slit. -/
theorem C100_step_conforming_violation (S : Step) :
    (∀ j, j < 3 → ∃ i, i < 15 ∧ S.lowerVertex j = S.upperVertex i ∧ S.lowerVertex (j + 1) = S.upperVertex (i + 1)) ↔
      S.stepPosition = S.length / 5 := by
  constructor
  · intro h
    obtain ⟨i, _, h1, h2⟩ := h 0 (by norm_num)
    unfold Step.lowerVertex Step.upperVertex at h1 h2
    push_cast at h1 h2
    linarith
  · intro h j hj
    refine ⟨j, by omega, ?_, ?_⟩ <;> unfold Step.lowerVertex Step.upperVertex <;> rw [h] <;> push_cast <;> ring

/-- C100: the corner of the step is rounded off: the corner vertex is moved onto the circle of radius `0.0125` that touches
both sides of the step. -/
theorem C100_step_corner (S : Step) :
    (S.moveVertex ![S.stepPosition, S.stepHeight] 0 - (S.stepPosition + 0.0125)) ^ 2 +
      (S.moveVertex ![S.stepPosition, S.stepHeight] 1 - (S.stepHeight - 0.0125)) ^ 2 = 0.0125 ^ 2 := by
  classical
  have hs : 0 ≤ Real.sqrt (1 / 2) := Real.sqrt_nonneg _
  have hq : Real.sqrt (1 / 2) ^ 2 = 1 / 2 := Real.sq_sqrt (by norm_num)
  have hs1 : 0.7 < Real.sqrt (1 / 2) := by
    rw [Real.lt_sqrt (by norm_num)]; norm_num
  have hm : S.moveVertex ![S.stepPosition, S.stepHeight] =
      ![S.stepPosition + 0.0125 * (1 - Real.sqrt (1 / 2)), S.stepHeight - 0.0125 * (1 - Real.sqrt (1 / 2))] := by
    unfold Step.moveVertex
    dsimp only
    have e0 : (![S.stepPosition, S.stepHeight] : Vec 2) 0 = S.stepPosition := rfl
    have e1 : (![S.stepPosition, S.stepHeight] : Vec 2) 1 = S.stepHeight := rfl
    rw [e0, e1, sub_self, sub_self, abs_zero, if_pos ⟨by positivity, by
      have : (0 : ℝ) < 1 / 10 ^ 6 := by positivity
      linarith⟩, if_pos ⟨by positivity, by linarith⟩]
  rw [hm]
  simp only [Matrix.cons_val_zero, Matrix.cons_val_one]
  linear_combination 2 * 0.0125 ^ 2 * hq

/-- C100: the other end of the rounded edge is a vertex of the refined mesh on the top of the step, at the distance of
`length/240` from the corner.  If the domain is shorter than `1.2` that vertex, a point of the straight wall, is moved as
well, below the surface of the step. -/
theorem C100_step_short_violation (S : Step) (h0 : 1 / 1000 < S.length) (h1 : S.length < 1.2) :
    S.moveVertex ![S.stepPosition + S.length / 240, S.stepHeight] 0 = S.stepPosition + S.length / 240 ∧
    S.moveVertex ![S.stepPosition + S.length / 240, S.stepHeight] 1 < S.stepHeight := by
  classical
  have hs1 : Real.sqrt (1 / 2) < 0.8 := by
    rw [Real.sqrt_lt' (by norm_num)]; norm_num
  have hm : S.moveVertex ![S.stepPosition + S.length / 240, S.stepHeight] =
      ![S.stepPosition + S.length / 240, S.stepHeight - 0.0125 * (1 - Real.sqrt (1 / 2))] := by
    unfold Step.moveVertex
    dsimp only
    have e0 : (![S.stepPosition + S.length / 240, S.stepHeight] : Vec 2) 0 = S.stepPosition + S.length / 240 := rfl
    have e1 : (![S.stepPosition + S.length / 240, S.stepHeight] : Vec 2) 1 = S.stepHeight := rfl
    have t : (1 : ℝ) / 10 ^ 6 < S.length / 240 := by norm_num; linarith
    rw [e0, e1, if_neg, if_pos]
    · refine ⟨by rw [sub_self, abs_zero]; positivity, ?_⟩
      have : (0.005 : ℝ) = 1.2 / 240 := by norm_num
      rw [this]
      linarith
    · rintro ⟨h, _⟩
      rw [add_sub_cancel_left, abs_of_pos (by linarith)] at h
      linarith
  rw [hm]
  refine ⟨rfl, ?_⟩
  show S.stepHeight - 0.0125 * (1 - Real.sqrt (1 / 2)) < S.stepHeight
  linarith

/-- What the documentation promises (geometry_cylinder.h:18-21). -/
def Cylinder.expected : CylinderFace → Boundary
  | .left _ => .dirichlet
  | .right _ => .do_nothing
  | .channelFront _ _ => .slip
  | .channelBack _ _ => .slip
  | .cylinder _ => .slip

/-- C100: the cylinder, in the plane and extruded: inflow on the left, nothing on the right, slip on the channel and on the
cylinder. -/
theorem C100_cylinder {dim : ℕ} (C : Cylinder) (h0 : 1 / 10 ^ 4 ≤ C.diameter) (h1 : C.diameter / 2 + 1 / 10 ^ 4 ≤ C.position)
    (h2 : C.diameter + 1 / 10 ^ 4 ≤ C.length - C.position) (f : CylinderFace) (c : Vec (dim + 1))
    (hc : c 0 = C.centerX f) : C.boundaryId c = Cylinder.expected f := by
  classical
  have t1 : (1 : ℝ) / 10 ^ 4 = 100 * (1 / 10 ^ 6) := by norm_num
  have tp : (0 : ℝ) < 1 / 10 ^ 6 := by positivity
  rw [t1] at h0 h1 h2
  have hfix : C.fixLeft (-C.diameter) = -C.position := by
    unfold Cylinder.fixLeft
    rw [if_pos (by linarith)]
  have unf : C.boundaryId c = (if c 0 > C.length - C.position - 1 / 10 ^ 6 then Boundary.do_nothing
    else if c 0 < -C.position + 1 / 10 ^ 6 then .dirichlet else .slip) := rfl
  generalize (1 : ℝ) / 10 ^ 6 = τ at *
  have inner : c 0 ≤ C.length - C.position - τ → -C.position + τ ≤ c 0 → C.boundaryId c = .slip := by
    intro ha hb
    rw [unf, if_neg (by linarith), if_neg (by linarith)]
  cases f with
  | left y =>
    have : c 0 = -C.position := by rw [hc]; exact hfix
    rw [unf, this, if_neg (by linarith), if_pos (by linarith)]; rfl
  | right y =>
    have : c 0 = C.length - C.position := hc
    rw [unf, this, if_pos (by linarith)]; rfl
  | channelFront second top =>
    cases second
    · have : c 0 = (-C.position + 0) / 2 := by rw [hc]; simp [Cylinder.centerX, hfix]
      exact inner (by linarith) (by linarith)
    · have : c 0 = C.diameter / 2 := by rw [hc]; simp [Cylinder.centerX]
      exact inner (by linarith) (by linarith)
  | channelBack i top =>
    have h3 : c 0 = mid C.diameter (C.length - C.position) 6 i := hc
    have ha := mid_ge (a := C.diameter) (b := C.length - C.position) (by linarith) 6 i
    have hb := mid_le (a := C.diameter) (b := C.length - C.position) (by linarith) i.isLt
    norm_num at ha hb
    exact inner (by linarith) (by linarith)
  | cylinder k =>
    have h3 : c 0 = (C.diameter / 2 * Real.cos (k * (Real.pi / 4)) +
      C.diameter / 2 * Real.cos ((k + 1) * (Real.pi / 4))) / 2 := hc
    have hd : 0 ≤ C.diameter / 2 := by linarith
    have a1 := mul_le_mul_of_nonneg_left (Real.cos_le_one (k * (Real.pi / 4))) hd
    have a2 := mul_le_mul_of_nonneg_left (Real.cos_le_one ((k + 1) * (Real.pi / 4))) hd
    have b1 := mul_le_mul_of_nonneg_left (Real.neg_one_le_cos (k * (Real.pi / 4))) hd
    have b2 := mul_le_mul_of_nonneg_left (Real.neg_one_le_cos ((k + 1) * (Real.pi / 4))) hd
    exact inner (by linarith) (by linarith)

/-- What the documentation promises (geometry_tank.h:21-22). -/
def Tank.expected {n : ℕ} : TankFace n → Boundary
  | .reservoir _ _ => .slip
  | .flume _ _ => .slip
  | .finish _ => .dynamic

/-- C100: the wave tank: slip on all walls but the end of the flume. -/
theorem C100_tank (T : Tank) {n : ℕ} (h1 : 2 / 10 ^ 8 ≤ T.flumeLength / n) (hn : 0 < n) (f : TankFace n)
    (hf : ∀ x y, f = .reservoir x y → x ≤ 0) : T.boundaryId (T.center f) = Tank.expected f := by
  classical
  have tp : (0 : ℝ) < 1 / 10 ^ 8 := by positivity
  have t2 : (2 : ℝ) / 10 ^ 8 = 2 * (1 / 10 ^ 8) := by ring
  rw [t2] at h1
  have hn' : (1 : ℝ) ≤ n := by exact_mod_cast hn
  have hL : 2 * (1 / 10 ^ 8) ≤ T.flumeLength := by
    rw [le_div_iff₀ (by linarith)] at h1
    have : 2 * ((1 : ℝ) / 10 ^ 8) ≤ 2 * (1 / 10 ^ 8) * n := le_mul_of_one_le_right (by positivity) hn'
    linarith
  have unf : ∀ c : Vec 2, T.boundaryId c = (if c 0 > T.flumeLength - 1 / 10 ^ 8 then Boundary.dynamic else .slip) :=
    fun _ => rfl
  cases f with
  | reservoir x y =>
    have := hf x y rfl
    rw [unf, if_neg (by show ¬ x > _; linarith)]; rfl
  | flume i top =>
    have hb := mid_le (a := 0) (b := T.flumeLength) (by linarith) i.isLt
    rw [sub_zero] at hb
    rw [unf, if_neg (by show ¬ mid 0 T.flumeLength n i > _; linarith)]; rfl
  | finish y =>
    rw [unf, if_pos (by show T.flumeLength > _; linarith)]; rfl

/-- C100: the default parameters of the wave tank do not satisfy the condition the function asserts: the reservoir is
narrower than the flume, and the number of subdivisions of the parts beside it, `-8`, is converted to an unsigned number. -/
theorem C100_tank_defaults_violation : ¬ defaultTank.Admissible ∧
    round ((defaultTank.reservoirWidth - defaultTank.flumeWidth) / 2 * 100) = -8 := by
  constructor
  · unfold Tank.Admissible defaultTank
    norm_num
  · unfold defaultTank
    rw [round_eq, Int.floor_eq_iff]
    norm_num

/-! ### The airfoil -/

/-- C100: the airfoil in two dimensions: a face gets the dynamic condition if it lies on the outer boundary, no slip if it
lies on the airfoil; a face with one vertex of either kind stops the program. -/
theorem C100_airfoil (A : AirfoilDomain) (v w : Vec 2) :
    (A.Outer (dim := 0) v → A.Outer (dim := 0) w → A.boundaryId2 [v, w] = some .dynamic) ∧
    (¬ A.Outer (dim := 0) v → ¬ A.Outer (dim := 0) w → A.boundaryId2 [v, w] = some .no_slip) ∧
    ((A.Outer (dim := 0) v ↔ ¬ A.Outer (dim := 0) w) → A.boundaryId2 [v, w] = none) := by
  classical
  unfold AirfoilDomain.boundaryId2
  simp only [List.mem_cons, List.not_mem_nil, or_false, forall_eq_or_imp, forall_eq]
  refine ⟨fun h1 h2 => if_pos ⟨h1, h2⟩, fun h1 h2 => ?_, fun h => ?_⟩
  · rw [if_neg (fun h => h1 h.1), if_pos ⟨h1, h2⟩]
  · rw [if_neg (fun h' => (h.mp h'.1) h'.2), if_neg (fun h' => h'.1 (h.mpr h'.2))]

/-- C100: extruded, the faces in the two planes bounding the domain are periodic, the others as in the plane. -/
theorem C100_airfoil_extruded (A : AirfoilDomain) (v w : Vec 2) (z : ℝ) :
    A.boundaryId3 [![v 0, v 1, 0], ![w 0, w 1, 0]] = some .periodic ∧
    A.boundaryId3 [![v 0, v 1, A.width], ![w 0, w 1, A.width]] = some .periodic ∧
    ∀ z', z < z' → 0 ≤ z → z' ≤ A.width → 1 / 10 ^ 10 < z' - z →
      A.boundaryId3 [![v 0, v 1, z], ![w 0, w 1, z], ![v 0, v 1, z'], ![w 0, w 1, z']] = A.boundaryId2 [v, w] := by
  classical
  have tp : (0 : ℝ) < 1 / 10 ^ 10 := by positivity
  refine ⟨?_, ?_, ?_⟩
  · unfold AirfoilDomain.boundaryId3
    rw [if_pos]
    rintro ⟨⟨u, hu, h⟩, _⟩
    simp only [List.mem_cons, List.not_mem_nil, or_false] at hu
    rcases hu with rfl | rfl <;> (have : (0 : ℝ) > 1 / 10 ^ 10 := h; linarith)
  · unfold AirfoilDomain.boundaryId3
    rw [if_pos]
    rintro ⟨_, ⟨u, hu, h⟩⟩
    simp only [List.mem_cons, List.not_mem_nil, or_false] at hu
    rcases hu with rfl | rfl <;> (have : A.width < A.width - 1 / 10 ^ 10 := h; linarith)
  · intro z' hz h0 h1 h2
    unfold AirfoilDomain.boundaryId3 AirfoilDomain.boundaryId2
    have hn : ¬ ¬ ((∃ u ∈ [![v 0, v 1, z], ![w 0, w 1, z], ![v 0, v 1, z'], ![w 0, w 1, z']], (u : Vec 3) 2 > 1 / 10 ^ 10) ∧
        ∃ u ∈ [![v 0, v 1, z], ![w 0, w 1, z], ![v 0, v 1, z'], ![w 0, w 1, z']], (u : Vec 3) 2 < A.width - 1 / 10 ^ 10) := by
      rw [not_not]
      refine ⟨⟨![v 0, v 1, z'], by simp, ?_⟩, ⟨![v 0, v 1, z], by simp, ?_⟩⟩
      · show z' > 1 / 10 ^ 10
        linarith
      · show z < A.width - 1 / 10 ^ 10
        linarith
    rw [if_neg hn]
    have ho : ∀ (u : Vec 2) (y : ℝ), A.Outer (dim := 1) ![u 0, u 1, y] ↔ A.Outer (dim := 0) u := fun u y => Iff.rfl
    simp only [List.mem_cons, List.not_mem_nil, or_false, forall_eq_or_imp, forall_eq, ho]
    have e1 : (A.Outer (dim := 0) v ∧ A.Outer (dim := 0) w ∧ A.Outer (dim := 0) v ∧ A.Outer (dim := 0) w) ↔
        (A.Outer (dim := 0) v ∧ A.Outer (dim := 0) w) := by tauto
    have e2 : (¬ A.Outer (dim := 0) v ∧ ¬ A.Outer (dim := 0) w ∧ ¬ A.Outer (dim := 0) v ∧ ¬ A.Outer (dim := 0) w) ↔
        (¬ A.Outer (dim := 0) v ∧ ¬ A.Outer (dim := 0) w) := by tauto
    simp only [e1, e2]

/-- C100: the straight part of the outer boundary behind the airfoil runs from `R (1/2, √3/2)` to `R (1, 1/2)`
(geometry_airfoil.h:1030-1034) and dips below the radius `R`, so that its vertices are recognised by their abscissa only.
With the default refinement of the trailing edge the first of them divides it in the ratio 1 : 7.  If the airfoil extends
beyond the abscissa of this vertex, `9/16 R`, the id of the first face cannot be determined and the program is stopped. -/
theorem C100_airfoil_long_violation (A : AirfoilDomain) (hR : 1 / 1000 < A.outerRadius)
    (hb : 9 / 16 * A.outerRadius ≤ A.centerX + 1.001 * A.backLength) :
    A.boundaryId2
      [![1 / 2 * A.outerRadius, Real.sqrt 3 / 2 * A.outerRadius],
        ![7 / 8 * (1 / 2 * A.outerRadius) + 1 / 8 * A.outerRadius,
          7 / 8 * (Real.sqrt 3 / 2 * A.outerRadius) + 1 / 8 * (1 / 2 * A.outerRadius)]] = none := by
  have h3 : Real.sqrt 3 * Real.sqrt 3 = 3 := Real.mul_self_sqrt (by norm_num)
  have h3' : Real.sqrt 3 < 1.74 := by rw [Real.sqrt_lt' (by norm_num)]; norm_num
  have tp : (0 : ℝ) < 1 / 10 ^ 10 := by positivity
  refine (C100_airfoil A _ _).2.2 ⟨fun _ => ?_, fun _ => ?_⟩
  · rintro (h | h)
    · have h' : (7 / 8 * (1 / 2 * A.outerRadius) + 1 / 8 * A.outerRadius) *
          (7 / 8 * (1 / 2 * A.outerRadius) + 1 / 8 * A.outerRadius) +
          (7 / 8 * (Real.sqrt 3 / 2 * A.outerRadius) + 1 / 8 * (1 / 2 * A.outerRadius)) *
          (7 / 8 * (Real.sqrt 3 / 2 * A.outerRadius) + 1 / 8 * (1 / 2 * A.outerRadius)) ≥
          A.outerRadius * A.outerRadius - 1 / 10 ^ 10 := h
      have e : (7 / 8 * (1 / 2 * A.outerRadius) + 1 / 8 * A.outerRadius) *
          (7 / 8 * (1 / 2 * A.outerRadius) + 1 / 8 * A.outerRadius) +
          (7 / 8 * (Real.sqrt 3 / 2 * A.outerRadius) + 1 / 8 * (1 / 2 * A.outerRadius)) *
          (7 / 8 * (Real.sqrt 3 / 2 * A.outerRadius) + 1 / 8 * (1 / 2 * A.outerRadius)) =
          (229 + 14 * Real.sqrt 3) / 256 * (A.outerRadius * A.outerRadius) := by
        linear_combination 49 / 256 * (A.outerRadius * A.outerRadius) * h3
      rw [e] at h'
      have hRR : (1 : ℝ) / 1000 * (1 / 1000) ≤ A.outerRadius * A.outerRadius :=
        mul_le_mul hR.le hR.le (by norm_num) (by linarith)
      have hc : (229 + 14 * Real.sqrt 3) / 256 ≤ (0.99 : ℝ) := by linarith
      have := mul_le_mul_of_nonneg_right hc (by positivity : 0 ≤ A.outerRadius * A.outerRadius)
      norm_num at h' hRR
      linarith
    · have h' : 7 / 8 * (1 / 2 * A.outerRadius) + 1 / 8 * A.outerRadius > A.centerX + 1.001 * A.backLength := h
      linarith
  · left
    show (1 / 2 * A.outerRadius) * (1 / 2 * A.outerRadius) +
      (Real.sqrt 3 / 2 * A.outerRadius) * (Real.sqrt 3 / 2 * A.outerRadius) ≥ A.outerRadius * A.outerRadius - 1 / 10 ^ 10
    have : (1 / 2 * A.outerRadius) * (1 / 2 * A.outerRadius) +
      (Real.sqrt 3 / 2 * A.outerRadius) * (Real.sqrt 3 / 2 * A.outerRadius) = A.outerRadius * A.outerRadius := by
      linear_combination 1 / 4 * (A.outerRadius * A.outerRadius) * h3
    linarith

/-! ### The hypotheses are satisfiable -/

/-- A periodic channel with the corners in order. -/
def channel : Rectangle 2 where
  left := ![0, 0]
  right := ![4, 1]
  subdivisions := ![8, 2]
  lo := ![.periodic, .slip]
  hi := ![.periodic, .slip]

example : (∀ d, channel.left d ≤ channel.right d) ∧
    (∀ d, 2 / 10 ^ 8 ≤ (channel.right d - channel.left d) / channel.subdivisions d) ∧
    channel.boundaryId (channel.faceCenter 1 true fun _ => 0) = .slip := by
  have h1 : ∀ d, channel.left d ≤ channel.right d := by intro d; fin_cases d <;> simp [channel]
  have h2 : ∀ d, 2 / 10 ^ 8 ≤ (channel.right d - channel.left d) / channel.subdivisions d := by
    intro d; fin_cases d <;> simp [channel] <;> norm_num
  refine ⟨h1, h2, ?_⟩
  rw [C100_rectangle channel h1 h2 1 true _ (fun e => by fin_cases e <;> simp [channel])]
  rfl

/-- The default parameters of wall, step and cylinder. -/
example : ∃ (W : Wall) (S : Step) (C : Cylinder), W = ⟨3.2, 1, 1 / 6⟩ ∧ S = ⟨3, 1, 0.6, 0.2⟩ ∧ C = ⟨4, 2, 0.6, 0.5⟩ ∧
    (0 < W.wallPosition ∧ 1 / 10 ^ 4 ≤ W.length - W.wallPosition ∧ 1 / 10 ^ 4 ≤ W.height) ∧
    (1 / 10 ^ 4 ≤ S.length ∧ 1 / 10 ^ 4 ≤ S.stepPosition ∧ S.stepPosition ≤ S.length - 1 / 10 ^ 4 ∧
      S.stepPosition = S.length / 5) ∧
    (1 / 10 ^ 4 ≤ C.diameter ∧ C.diameter / 2 + 1 / 10 ^ 4 ≤ C.position ∧
      C.diameter + 1 / 10 ^ 4 ≤ C.length - C.position) := by
  refine ⟨_, _, _, rfl, rfl, rfl, ?_, ?_, ?_⟩ <;> norm_num

/-- The default airfoil (length 2, height 6, center -0.5, psi center 0.05) ends before the vertex in question; one of length
3 does not. -/
example : ¬ (9 / 16 * (3 : ℝ) ≤ -0.5 + 1.001 * (2 * (1 - 0.05))) ∧ 9 / 16 * (3 : ℝ) ≤ -0.5 + 1.001 * (3 * (1 - 0.05)) := by
  norm_num

end

end Geometries
end Ryujin
