import Verif.Model.Transfinite
import Mathlib.Tactic.LinearCombination
import Mathlib.Tactic.FinCases
import Mathlib.Tactic.Linarith
import Mathlib.Tactic.Positivity

/-!
# Property C96: the transfinite interpolation reproduces the boundary of a curved cell

Specification: the lines and the faces of a cell as parametrised curves and surfaces, straight segments and Coons patches
where the mesh does not prescribe another manifold.  The code never forms them: it collects weights of the vertices.
-/

namespace Ryujin
namespace Transfinite

noncomputable section

/-! ## Specification in two dimensions -/

/-- The line `l` is given by the cell itself: it is straight. -/
def Cell2.Straight {n : ℕ} (c : Cell2 n) (l : Fin 4) : Prop :=
  c.lineManifold l = c.manifoldId ∨ c.lineManifold l = flatManifoldId

open Classical in
/-- The line `l` of the cell as a curve: the segment between its vertices, or what the manifold of the line says. -/
def Cell2.curve {n : ℕ} (c : Cell2 n) (l : Fin 4) (s : ℝ) : Vec n :=
  if c.Straight l then (1 - s) • c.vertex (lineVertices2 l 0) + s • c.vertex (lineVertices2 l 1)
  else c.manifold (c.lineManifold l) [c.vertex (lineVertices2 l 0), c.vertex (lineVertices2 l 1)] [1 - s, s]

/-- The curves of the lines end in the vertices. -/
def Cell2.Consistent {n : ℕ} (c : Cell2 n) : Prop :=
  ∀ l, ¬c.Straight l → c.curve l 0 = c.vertex (lineVertices2 l 0) ∧ c.curve l 1 = c.vertex (lineVertices2 l 1)

/-- The point with the coordinate `s` on the side `l` of the unit square: left, right, bottom, top. -/
def side : Fin 4 → ℝ → Vec 2
  | 0, s => ![0, s]
  | 1, s => ![1, s]
  | 2, s => ![s, 0]
  | 3, s => ![s, 1]

/-- The corners of the unit square. -/
def corner2 : Fin 4 → Vec 2 := ![![0, 0], ![1, 0], ![0, 1], ![1, 1]]

/-- The Coons patch with the sides `left`, `right`, `bottom`, `top` and the corners `p00`, `p10`, `p01`, `p11`. -/
def coons {n : ℕ} (left right bottom top : ℝ → Vec n) (p00 p10 p01 p11 : Vec n) (u v : ℝ) : Vec n :=
  (1 - v) • bottom u + v • top u + (1 - u) • left v + u • right v
    - ((1 - u) * (1 - v)) • p00 - (u * (1 - v)) • p10 - ((1 - u) * v) • p01 - (u * v) • p11

/-! ## Two dimensions -/

theorem sum_addAt {m : ℕ} (a : Fin m → ℝ) (k : Fin m) (x : ℝ) (V : Fin m → ℝ) :
    ∑ j, addAt a k x j * V j = ∑ j, a j * V j + x * V k := by
  have h : ∀ j, addAt a k x j * V j = a j * V j + (if j = k then x * V k else 0) := by
    intro j
    unfold addAt
    split
    · rename_i h; rw [h]; ring
    · ring
  simp [h, Finset.sum_add_distrib]

theorem foldl_add_smul {n m : ℕ} (w : Fin m → ℝ) (V : Fin m → Vec n) (ls : List (Fin m)) (p : Vec n) (i : Fin n) :
    (ls.foldl (fun p v => p + w v • V v) p) i = p i + (ls.map fun v => w v * V v i).sum := by
  induction ls generalizing p with
  | nil => simp
  | cons v t ih => simp [ih]; ring

theorem foldl_sub_smul {n m : ℕ} (w : Fin m → ℝ) (V : Fin m → Vec n) (ls : List (Fin m)) (p : Vec n) (i : Fin n) :
    (ls.foldl (fun p v => p - w v • V v) p) i = p i - (ls.map fun v => w v * V v i).sum := by
  induction ls generalizing p with
  | nil => simp
  | cons v t ih => simp [ih]; ring

theorem sum_finRange {m : ℕ} (f : Fin m → ℝ) : ((List.finRange m).map f).sum = ∑ v, f v := by
  rw [← List.ofFn_eq_map, List.sum_ofFn]

theorem isFlat2_iff {n : ℕ} (c : Cell2 n) : c.isFlat = true ↔ ∀ l, c.Straight l := by
  have key : ∀ (ls : List (Fin 4)) (b : Bool), (ls.foldl (fun flat l =>
      if c.lineManifold l ≠ c.manifoldId ∧ c.lineManifold l ≠ flatManifoldId then false else flat) b) = true
      ↔ b = true ∧ ∀ l ∈ ls, c.Straight l := by
    intro ls
    induction ls with
    | nil => simp
    | cons a t ih =>
      intro b
      rw [List.foldl_cons, ih]
      unfold Cell2.Straight
      by_cases h : c.lineManifold a ≠ c.manifoldId ∧ c.lineManifold a ≠ flatManifoldId
      · rw [if_pos h]
        simp only [Bool.false_eq_true, false_and, List.mem_cons, forall_eq_or_imp, false_iff, not_and]
        rintro _ (h' | h')
        · exact absurd h' h.1
        · exact absurd h' h.2
      · rw [if_neg h]
        have h' : c.lineManifold a = c.manifoldId ∨ c.lineManifold a = flatManifoldId := by
          by_contra hh
          push Not at hh
          exact h hh
        simp [h']
  unfold Cell2.isFlat
  rw [key]
  simp

/-- The weight of the side `l`. -/
def sideWeight (x : Vec 2) : Fin 4 → ℝ := ![1 - x 0, x 0, 1 - x 1, x 1]

/-- The coordinate along the side `l`. -/
def sidePoint (x : Vec 2) : Fin 4 → ℝ := ![x 1, x 1, x 0, x 0]

theorem line2_value {n : ℕ} (c : Cell2 n) (x : Vec 2) (s : Vec n × (Fin 4 → ℝ)) (l : Fin 4) (i : Fin n) :
    (line2 c x s l).1 i - ∑ v, (line2 c x s l).2 v * c.vertex v i
      = s.1 i - ∑ v, s.2 v * c.vertex v i + sideWeight x l * c.curve l (sidePoint x l) i := by
  classical
  by_cases h : c.Straight l
  · have hc := h
    unfold Cell2.Straight at hc
    unfold line2 Cell2.curve
    simp only [if_pos hc, if_pos h, sum_addAt]
    fin_cases l <;> simp [sideWeight, sidePoint, lineVertices2] <;> ring
  · have hc := h
    unfold Cell2.Straight at hc
    unfold line2 Cell2.curve
    simp only [if_neg hc, if_neg h]
    fin_cases l <;> simp [sideWeight, sidePoint, lineVertices2] <;> ring

/-- `push_forward` is the Coons patch of the four lines of the cell, whichever of the two branches is taken. -/
theorem C96_coons {n : ℕ} (c : Cell2 n) (u v : ℝ) :
    c.pushForward ![u, v] = coons (c.curve 0) (c.curve 1) (c.curve 2) (c.curve 3)
      (c.vertex 0) (c.vertex 1) (c.vertex 2) (c.vertex 3) u v
    ∧ interpolate2 c ![u, v] false = c.pushForward ![u, v] := by
  classical
  have general : interpolate2 c ![u, v] false = coons (c.curve 0) (c.curve 1) (c.curve 2) (c.curve 3)
      (c.vertex 0) (c.vertex 1) (c.vertex 2) (c.vertex 3) u v := by
    funext i
    unfold interpolate2
    simp only [Bool.false_eq_true, if_false]
    rw [foldl_sub_smul, sum_finRange]
    have e : List.finRange 4 = [0, 1, 2, 3] := by rfl
    rw [e]
    simp only [List.foldl_cons, List.foldl_nil]
    rw [line2_value, line2_value, line2_value, line2_value]
    simp [coons, Fin.sum_univ_four, bilinearWeights, sideWeight, sidePoint]
    ring
  have flat : c.isFlat = true → interpolate2 c ![u, v] true = coons (c.curve 0) (c.curve 1) (c.curve 2) (c.curve 3)
      (c.vertex 0) (c.vertex 1) (c.vertex 2) (c.vertex 3) u v := by
    intro h
    have hs := (isFlat2_iff c).1 h
    funext i
    unfold interpolate2
    simp only [if_true]
    rw [foldl_add_smul, sum_finRange]
    simp [coons, Cell2.curve, hs, Fin.sum_univ_four, bilinearWeights, lineVertices2]
    ring
  have main : c.pushForward ![u, v] = coons (c.curve 0) (c.curve 1) (c.curve 2) (c.curve 3)
      (c.vertex 0) (c.vertex 1) (c.vertex 2) (c.vertex 3) u v := by
    unfold Cell2.pushForward
    cases h : c.isFlat with
    | true => exact flat h
    | false => exact general
  exact ⟨main, general.trans main.symm⟩

theorem curve_ends {n : ℕ} {c : Cell2 n} (h : c.Consistent) (l : Fin 4) :
    c.curve l 0 = c.vertex (lineVertices2 l 0) ∧ c.curve l 1 = c.vertex (lineVertices2 l 1) := by
  classical
  by_cases hl : c.Straight l
  · unfold Cell2.curve
    simp only [if_pos hl]
    constructor <;> funext i <;> simp
  · exact h l hl

/-- Each side of the unit square is mapped to the line of the cell with the same number. -/
theorem C96_boundary {n : ℕ} {c : Cell2 n} (h : c.Consistent) (l : Fin 4) (s : ℝ) :
    c.pushForward (side l s) = c.curve l s := by
  have e := curve_ends h
  have e0 := e 0
  have e1 := e 1
  have e2 := e 2
  have e3 := e 3
  simp only [lineVertices2, Matrix.cons_val_zero, Matrix.cons_val_one, Matrix.cons_val] at e0 e1 e2 e3
  fin_cases l
  · show c.pushForward ![0, s] = c.curve 0 s
    rw [(C96_coons c 0 s).1]
    funext i
    simp [coons, e2.1, e3.1]
    ring
  · show c.pushForward ![1, s] = c.curve 1 s
    rw [(C96_coons c 1 s).1]
    funext i
    simp [coons, e2.2, e3.2]
    ring
  · show c.pushForward ![s, 0] = c.curve 2 s
    rw [(C96_coons c s 0).1]
    funext i
    simp [coons, e0.1, e1.1]
    ring
  · show c.pushForward ![s, 1] = c.curve 3 s
    rw [(C96_coons c s 1).1]
    funext i
    simp [coons, e0.2, e1.2]
    ring

/-- The corners of the unit square are mapped to the vertices of the cell. -/
theorem C96_vertices {n : ℕ} {c : Cell2 n} (h : c.Consistent) (v : Fin 4) :
    c.pushForward (corner2 v) = c.vertex v := by
  have e0 := curve_ends h 0
  have e1 := curve_ends h 1
  simp only [lineVertices2, Matrix.cons_val_zero, Matrix.cons_val_one] at e0 e1
  fin_cases v
  · exact (C96_boundary h 0 0).trans e0.1
  · exact (C96_boundary h 1 0).trans e1.1
  · exact (C96_boundary h 0 1).trans e0.2
  · exact (C96_boundary h 1 1).trans e1.2

/-- Two cells that share a line map it to the same points: with the same numbering of the two vertices, and with the
opposite one if the manifold of the line does not depend on the order of the points. The mesh has no gaps. -/
theorem C96_conforming {n : ℕ} {c c' : Cell2 n} (h : c.Consistent) (h' : c'.Consistent) {l l' : Fin 4}
    (hid : c.lineManifold l = c'.lineManifold l') (hm : c.manifold = c'.manifold)
    (hs : c.Straight l ↔ c'.Straight l') (s : ℝ) :
    (c.vertex (lineVertices2 l 0) = c'.vertex (lineVertices2 l' 0) →
      c.vertex (lineVertices2 l 1) = c'.vertex (lineVertices2 l' 1) →
      c.pushForward (side l s) = c'.pushForward (side l' s))
    ∧ (c.vertex (lineVertices2 l 0) = c'.vertex (lineVertices2 l' 1) →
      c.vertex (lineVertices2 l 1) = c'.vertex (lineVertices2 l' 0) →
      (∀ id p q a b, c.manifold id [p, q] [a, b] = c.manifold id [q, p] [b, a]) →
      c.pushForward (side l s) = c'.pushForward (side l' (1 - s))) := by
  classical
  rw [C96_boundary h, C96_boundary h', C96_boundary h']
  unfold Cell2.curve
  refine ⟨fun h0 h1 => ?_, fun h0 h1 hsym => ?_⟩
  · by_cases hl : c.Straight l
    · rw [if_pos hl, if_pos (hs.1 hl), h0, h1]
    · rw [if_neg hl, if_neg (fun hh => hl (hs.2 hh)), h0, h1, hid, hm]
  · by_cases hl : c.Straight l
    · rw [if_pos hl, if_pos (hs.1 hl), h0, h1]
      funext i
      simp
      ring
    · rw [if_neg hl, if_neg (fun hh => hl (hs.2 hh)), h0, h1, hsym, hid, hm]
      simp

/-- If all lines are straight then the map is bilinear; if, in addition, the cell is a parallelogram then it is affine. -/
theorem C96_flat {n : ℕ} {c : Cell2 n} (hs : ∀ l, c.Straight l) (x : Vec 2) :
    c.pushForward x = ∑ v, bilinearWeights x v • c.vertex v
    ∧ (∀ (a b t : Vec n), c.vertex 0 = t → c.vertex 1 = t + a → c.vertex 2 = t + b → c.vertex 3 = t + a + b →
      c.pushForward x = t + x 0 • a + x 1 • b) := by
  classical
  have hx : x = ![x 0, x 1] := by
    funext d
    fin_cases d <;> rfl
  have main : c.pushForward x = ∑ v, bilinearWeights x v • c.vertex v := by
    rw [hx, (C96_coons c (x 0) (x 1)).1]
    funext i
    simp [coons, Cell2.curve, hs, Fin.sum_univ_four, bilinearWeights, lineVertices2]
    ring
  refine ⟨main, fun a b t h0 h1 h2 h3 => ?_⟩
  rw [main]
  funext i
  simp [Fin.sum_univ_four, bilinearWeights, h0, h1, h2, h3]
  ring

/-- The unit square with the lower side bent: the manifold with the id `7` lifts the midpoint. -/
def bentSquare : Cell2 2 where
  vertex := corner2
  manifoldId := 3
  lineManifold := ![3, flatManifoldId, 7, 3]
  manifold := fun _ ps ws => ps.getD 0 0 + ws.getD 1 0 • (ps.getD 1 0 - ps.getD 0 0) - (ws.getD 0 0 * ws.getD 1 0) • ![0, 1]

/-- The hypotheses are met by a cell with a curved side, and the map of this cell is not bilinear. -/
example : bentSquare.Consistent ∧ ¬bentSquare.Straight 2 ∧ bentSquare.pushForward ![1 / 2, 0] = ![1 / 2, -1 / 4] := by
  have h2 : ¬bentSquare.Straight 2 := by
    simp [Cell2.Straight, bentSquare, flatManifoldId]
  have hc : bentSquare.Consistent := by
    intro l hl
    fin_cases l
    · exact absurd (Or.inl rfl) hl
    · exact absurd (Or.inr rfl) hl
    · unfold Cell2.curve
      constructor
      · rw [if_neg hl]
        funext i
        fin_cases i <;> simp [bentSquare, lineVertices2, corner2]
      · rw [if_neg hl]
        funext i
        fin_cases i <;> simp [bentSquare, lineVertices2, corner2]
    · exact absurd (Or.inl rfl) hl
  refine ⟨hc, h2, ?_⟩
  have := C96_boundary hc 2 (1 / 2)
  rw [show ![(1 / 2 : ℝ), 0] = side 2 (1 / 2) from rfl, this]
  unfold Cell2.curve
  rw [if_neg h2]
  funext i
  fin_cases i
  · simp [bentSquare, lineVertices2, corner2]
  · simp [bentSquare, lineVertices2, corner2]
    norm_num

end

end Transfinite
end Ryujin
