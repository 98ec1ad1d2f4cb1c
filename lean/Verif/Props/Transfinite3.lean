import Verif.Props.Transfinite2

/-!
# Property C96 in three dimensions

The faces and the lines of a hexahedron are reproduced.  The code drops contributions with a weight below `1e-13`, so this
is exact only if no weight is that small without being zero (`Resolved`); in general the deviation is at most `1.8e-12`
times the size of the coordinates.
-/

namespace Ryujin
namespace Transfinite

noncomputable section

/-! ## Specification -/

/-- The line `l` is given by the cell itself: it is straight. -/
def Cell3.Straight {n : ℕ} (c : Cell3 n) (l : Fin 12) : Prop :=
  c.lineManifold l = c.manifoldId ∨ c.lineManifold l = flatManifoldId

/-- The face `f` is given by the cell itself: it is spanned by its lines. -/
def Cell3.Spanned {n : ℕ} (c : Cell3 n) (f : Fin 6) : Prop :=
  c.faceManifold f = c.manifoldId ∨ c.faceManifold f = flatManifoldId

open Classical in
/-- The line `l` of the cell as a curve. -/
def Cell3.curve {n : ℕ} (c : Cell3 n) (l : Fin 12) (s : ℝ) : Vec n :=
  if c.Straight l then (1 - s) • c.vertex (lineVertices3 l 0) + s • c.vertex (lineVertices3 l 1)
  else c.manifold (c.lineManifold l) [c.vertex (lineVertices3 l 0), c.vertex (lineVertices3 l 1)] [1 - s, s]

open Classical in
/-- The face `f` of the cell as a surface: the Coons patch of its four lines, or what the manifold of the face says. -/
def Cell3.surface {n : ℕ} (c : Cell3 n) (f : Fin 6) (a b : ℝ) : Vec n :=
  if c.Spanned f then
    coons (c.curve (faceLines f 0)) (c.curve (faceLines f 1)) (c.curve (faceLines f 2)) (c.curve (faceLines f 3))
      (c.vertex (faceVertices f 0)) (c.vertex (faceVertices f 1)) (c.vertex (faceVertices f 2))
      (c.vertex (faceVertices f 3)) a b
  else c.manifold (c.faceManifold f)
    [c.vertex (faceVertices f 0), c.vertex (faceVertices f 1), c.vertex (faceVertices f 2), c.vertex (faceVertices f 3)]
    [(1 - a) * (1 - b), a * (1 - b), (1 - a) * b, a * b]

/-- The lines end in the vertices, and the surfaces given by another manifold contain the lines around them. -/
def Cell3.Consistent {n : ℕ} (c : Cell3 n) : Prop :=
  (∀ l, ¬c.Straight l → c.curve l 0 = c.vertex (lineVertices3 l 0) ∧ c.curve l 1 = c.vertex (lineVertices3 l 1))
  ∧ ∀ f, ¬c.Spanned f → ∀ s,
    c.surface f 0 s = c.curve (faceLines f 0) s ∧ c.surface f 1 s = c.curve (faceLines f 1) s
      ∧ c.surface f s 0 = c.curve (faceLines f 2) s ∧ c.surface f s 1 = c.curve (faceLines f 3) s

/-- The point with the coordinates `a`, `b` on the face `f` of the unit cube (deal.II's numbering of the faces, cyclic
numbering of the coordinates). -/
def facePoint : Fin 6 → ℝ → ℝ → Vec 3
  | 0, a, b => ![0, a, b]
  | 1, a, b => ![1, a, b]
  | 2, a, b => ![b, 0, a]
  | 3, a, b => ![b, 1, a]
  | 4, a, b => ![a, b, 0]
  | 5, a, b => ![a, b, 1]

/-- The point with the coordinate `s` on the edge `l` of the unit cube. -/
def edgePoint : Fin 12 → ℝ → Vec 3
  | 0, s => ![0, s, 0]
  | 1, s => ![1, s, 0]
  | 2, s => ![s, 0, 0]
  | 3, s => ![s, 1, 0]
  | 4, s => ![0, s, 1]
  | 5, s => ![1, s, 1]
  | 6, s => ![s, 0, 1]
  | 7, s => ![s, 1, 1]
  | 8, s => ![0, 0, s]
  | 9, s => ![1, 0, s]
  | 10, s => ![0, 1, s]
  | 11, s => ![1, 1, s]

/-- The corners of the unit cube. -/
def corner3 : Fin 8 → Vec 3 :=
  ![![0, 0, 0], ![1, 0, 0], ![0, 1, 0], ![1, 1, 0], ![0, 0, 1], ![1, 0, 1], ![0, 1, 1], ![1, 1, 1]]

/-- The distance of the point from the face opposite to `f`, the weight of the face. -/
def wf (x : Vec 3) : Fin 6 → ℝ := ![1 - x 0, x 0, 1 - x 1, x 1, 1 - x 2, x 2]

/-- The weight of a line. -/
def wl (x : Vec 3) : Fin 12 → ℝ :=
  ![(1 - x 0) * (1 - x 2), x 0 * (1 - x 2), (1 - x 1) * (1 - x 2), x 1 * (1 - x 2),
    (1 - x 0) * x 2, x 0 * x 2, (1 - x 1) * x 2, x 1 * x 2,
    (1 - x 0) * (1 - x 1), x 0 * (1 - x 1), (1 - x 0) * x 1, x 0 * x 1]

/-- The weight of a vertex. -/
def wv (x : Vec 3) : Fin 8 → ℝ :=
  ![(1 - x 0) * (1 - x 1) * (1 - x 2), x 0 * (1 - x 1) * (1 - x 2), (1 - x 0) * x 1 * (1 - x 2), x 0 * x 1 * (1 - x 2),
    (1 - x 0) * (1 - x 1) * x 2, x 0 * (1 - x 1) * x 2, (1 - x 0) * x 1 * x 2, x 0 * x 1 * x 2]

/-- The projection of `x` to the line `l` and to the face `f`, in their coordinates. -/
def onLine (x : Vec 3) : Fin 12 → ℝ := ![x 1, x 1, x 0, x 0, x 1, x 1, x 0, x 0, x 2, x 2, x 2, x 2]
def onFace (x : Vec 3) : Fin 6 → ℝ × ℝ :=
  ![(x 1, x 2), (x 1, x 2), (x 2, x 0), (x 2, x 0), (x 0, x 1), (x 0, x 1)]

/-- The interpolation of Gordon and Hall: faces minus lines plus vertices. -/
def Cell3.gordon {n : ℕ} (c : Cell3 n) (x : Vec 3) : Vec n :=
  ∑ f, wf x f • c.surface f (onFace x f).1 (onFace x f).2 - ∑ l, wl x l • c.curve l (onLine x l)
    + ∑ v, wv x v • c.vertex v

/-- No weight is below the threshold `1e-13` unless it is zero. -/
def Resolved (x : Vec 3) : Prop :=
  (∀ f, wf x f = 0 ∨ 1e-13 ≤ |wf x f|) ∧ ∀ l, wl x l = 0 ∨ 1e-13 ≤ |wl x l|

/-! ## The weights of the code -/

theorem linearShapes_face (x : Vec 3) (f : Fin 6) : linearShapes x f = wf x f := by
  fin_cases f <;> simp [linearShapes, wf]

theorem trilinearWeights_eq (x : Vec 3) (v : Fin 8) : trilinearWeights x v = wv x v := by
  fin_cases v <;> simp [trilinearWeights, linearShapes, wv] <;> ring

theorem lineWeight3_eq (x : Vec 3) (l : Fin 12) : lineWeight3 x l = wl x l := by
  fin_cases l <;> simp [lineWeight3, linearShapes, wl]

theorem linePoint3_eq (x : Vec 3) (l : Fin 12) : linePoint3 x l = onLine x l := by
  fin_cases l <;> simp [linePoint3, onLine]

theorem faceWeights_eq (x : Vec 3) (f : Fin 6) : (List.finRange 4).map (faceWeights x f)
    = [(1 - (onFace x f).1) * (1 - (onFace x f).2), (onFace x f).1 * (1 - (onFace x f).2),
      (1 - (onFace x f).1) * (onFace x f).2, (onFace x f).1 * (onFace x f).2] := by
  have e : List.finRange 4 = [0, 1, 2, 3] := by rfl
  rw [e]
  fin_cases f <;> simp [faceWeights, linearShapes, onFace]

/-- The quantity followed through the loop over the faces. -/
def potential {n : ℕ} (c : Cell3 n) (x : Vec 3) (i : Fin n) (s : State3 n) : ℝ :=
  s.point i + ∑ v, s.vertices v * c.vertex v i + ∑ l, s.lines l * c.curve l (onLine x l) i

theorem face3_value {n : ℕ} (c : Cell3 n) (x : Vec 3) (s : State3 n) (f : Fin 6) (i : Fin n) :
    potential c x i (face3 c x s f) = potential c x i s
      + (if |wf x f| < 1e-13 then 0 else wf x f * c.surface f (onFace x f).1 (onFace x f).2 i) := by
  classical
  have e4 : List.finRange 4 = [0, 1, 2, 3] := by rfl
  unfold potential face3
  simp only [linearShapes_face]
  by_cases hw : |wf x f| < 1e-13
  · simp only [if_pos hw, add_zero]
  · by_cases hs : c.Spanned f
    · have hs' := hs
      unfold Cell3.Spanned at hs'
      unfold Cell3.surface
      simp only [if_neg hw, if_pos hs', if_pos hs, sum_addAt, e4, List.foldl_cons, List.foldl_nil]
      fin_cases f <;>
        simp [coons, onFace, onLine, linearShapes, faceLines, faceVertices, wf] <;> ring
    · have hs' := hs
      unfold Cell3.Spanned at hs'
      unfold Cell3.surface
      simp only [if_neg hw, if_neg hs', if_neg hs, faceWeights_eq]
      simp only [e4, List.map_cons, List.map_nil, Pi.add_apply, Pi.smul_apply, smul_eq_mul]
      ring

theorem line3_value {n : ℕ} (c : Cell3 n) (x : Vec 3) (s : State3 n) (l : Fin 12) (i : Fin n) :
    (line3 c x s l).point i + ∑ v, (line3 c x s l).vertices v * c.vertex v i
      = s.point i + ∑ v, s.vertices v * c.vertex v i
        - (if |wl x l - s.lines l| < 1e-13 then 0 else (wl x l - s.lines l) * c.curve l (onLine x l) i) := by
  classical
  unfold line3 Cell3.curve
  simp only [lineWeight3_eq, linePoint3_eq]
  by_cases hw : |wl x l - s.lines l| < 1e-13
  · simp only [if_pos hw, sub_zero]
  · by_cases hs : c.Straight l
    · have hs' := hs
      unfold Cell3.Straight at hs'
      simp only [if_neg hw, if_pos hs', if_pos hs, sum_addAt, Pi.add_apply, Pi.smul_apply, smul_eq_mul]
      ring
    · have hs' := hs
      unfold Cell3.Straight at hs'
      simp only [if_neg hw, if_neg hs', if_neg hs, Pi.sub_apply, Pi.smul_apply, smul_eq_mul]
      ring

theorem line3_lines {n : ℕ} (c : Cell3 n) (x : Vec 3) (s : State3 n) (l : Fin 12) : (line3 c x s l).lines = s.lines := by
  unfold line3
  dsimp only
  split
  · rfl
  · split <;> rfl

theorem faces_value {n : ℕ} (c : Cell3 n) (x : Vec 3) (i : Fin n) (fs : List (Fin 6)) (s : State3 n) :
    potential c x i (fs.foldl (face3 c x) s) = potential c x i s
      + (fs.map fun f => if |wf x f| < 1e-13 then 0 else wf x f * c.surface f (onFace x f).1 (onFace x f).2 i).sum := by
  induction fs generalizing s with
  | nil => simp
  | cons f t ih => rw [List.foldl_cons, ih, face3_value, List.map_cons, List.sum_cons]; ring

theorem lines_value {n : ℕ} (c : Cell3 n) (x : Vec 3) (i : Fin n) (ls : List (Fin 12)) (s : State3 n) :
    (ls.foldl (line3 c x) s).point i + ∑ v, (ls.foldl (line3 c x) s).vertices v * c.vertex v i
      = s.point i + ∑ v, s.vertices v * c.vertex v i
        - (ls.map fun l => if |wl x l - s.lines l| < 1e-13 then 0
            else (wl x l - s.lines l) * c.curve l (onLine x l) i).sum := by
  induction ls generalizing s with
  | nil => simp
  | cons l t ih =>
    rw [List.foldl_cons, ih, line3_value, List.map_cons, List.sum_cons, line3_lines]
    ring

/-- The code of the curved case is the interpolation of Gordon and Hall up to the contributions it drops. -/
theorem interpolate3_value {n : ℕ} (c : Cell3 n) (x : Vec 3) (i : Fin n) :
    interpolate3 c x false i = c.gordon x i
      - (∑ f, if |wf x f| < 1e-13 then wf x f * c.surface f (onFace x f).1 (onFace x f).2 i else 0)
      + ∑ l, (if |wl x l - ((List.finRange 6).foldl (face3 c x) ⟨0, trilinearWeights x, fun _ => 0⟩).lines l| < 1e-13
          then (wl x l - ((List.finRange 6).foldl (face3 c x) ⟨0, trilinearWeights x, fun _ => 0⟩).lines l)
            * c.curve l (onLine x l) i else 0) := by
  unfold interpolate3
  simp only [Bool.false_eq_true, if_false]
  rw [foldl_add_smul, sum_finRange, lines_value, sum_finRange]
  have hf := faces_value c x i (List.finRange 6) ⟨0, trilinearWeights x, fun _ => 0⟩
  generalize ((List.finRange 6).foldl (face3 c x) ⟨0, trilinearWeights x, fun _ => 0⟩) = s at *
  rw [sum_finRange] at hf
  unfold potential at hf
  simp only [trilinearWeights_eq, Pi.zero_apply, zero_mul, Finset.sum_const_zero, add_zero, zero_add] at hf
  have h1 : ∑ f, (if |wf x f| < 1e-13 then (0 : ℝ) else wf x f * c.surface f (onFace x f).1 (onFace x f).2 i)
      = ∑ f, wf x f * c.surface f (onFace x f).1 (onFace x f).2 i
        - ∑ f, (if |wf x f| < 1e-13 then wf x f * c.surface f (onFace x f).1 (onFace x f).2 i else 0) := by
    rw [← Finset.sum_sub_distrib]
    refine Finset.sum_congr rfl fun f _ => ?_
    split <;> ring
  have h2 : ∑ l, (if |wl x l - s.lines l| < 1e-13 then (0 : ℝ) else (wl x l - s.lines l) * c.curve l (onLine x l) i)
      = ∑ l, wl x l * c.curve l (onLine x l) i - ∑ l, s.lines l * c.curve l (onLine x l) i
        - ∑ l, (if |wl x l - s.lines l| < 1e-13 then (wl x l - s.lines l) * c.curve l (onLine x l) i else 0) := by
    rw [← Finset.sum_sub_distrib, ← Finset.sum_sub_distrib]
    refine Finset.sum_congr rfl fun l _ => ?_
    split <;> ring
  have h3 : c.gordon x i = ∑ f, wf x f * c.surface f (onFace x f).1 (onFace x f).2 i
      - ∑ l, wl x l * c.curve l (onLine x l) i + ∑ v, wv x v * c.vertex v i := by
    unfold Cell3.gordon
    simp only [Pi.add_apply, Pi.sub_apply, Finset.sum_apply, Pi.smul_apply, smul_eq_mul]
  rw [h2, h3]
  rw [h1] at hf
  linarith

open Classical in
/-- What a face contributes to the weight of a line. -/
theorem face3_lines {n : ℕ} (c : Cell3 n) (x : Vec 3) (s : State3 n) (f : Fin 6) (l : Fin 12) :
    (face3 c x s f).lines l = s.lines l
      + (if ¬|wf x f| < 1e-13 ∧ c.Spanned f
          ∧ (l = faceLines f 0 ∨ l = faceLines f 1 ∨ l = faceLines f 2 ∨ l = faceLines f 3) then wl x l else 0) := by
  have e4 : List.finRange 4 = [0, 1, 2, 3] := by rfl
  unfold face3
  simp only [linearShapes_face]
  by_cases hw : |wf x f| < 1e-13
  · simp only [hw, if_true, not_true, false_and, if_false, add_zero]
  · by_cases hs : c.Spanned f
    · have hs' := hs
      unfold Cell3.Spanned at hs'
      simp only [e4, List.foldl_cons, List.foldl_nil, if_neg hw, if_pos hs']
      by_cases hm : l = faceLines f 0 ∨ l = faceLines f 1 ∨ l = faceLines f 2 ∨ l = faceLines f 3
      · rw [if_pos ⟨hw, hs, hm⟩]
        fin_cases f <;> rcases hm with h | h | h | h <;> subst h <;>
          simp [addAt, faceLines, linearShapes, wl, wf] <;> ring
      · rw [if_neg (fun h => hm h.2.2)]
        push Not at hm
        simp only [addAt, hm.1, hm.2.1, hm.2.2.1, hm.2.2.2, if_false, add_zero]
    · have hs' := hs
      unfold Cell3.Spanned at hs'
      simp only [if_neg hw, if_neg hs', hs, false_and, and_false, if_false, add_zero]

/-- After the loop over the faces the weight of a line is a multiple of the weight it has in the formula. -/
theorem faces_lines {n : ℕ} (c : Cell3 n) (x : Vec 3) (fs : List (Fin 6)) (s : State3 n)
    (hs : ∀ l, ∃ k : ℕ, s.lines l = k * wl x l) (l : Fin 12) :
    ∃ k : ℕ, (fs.foldl (face3 c x) s).lines l = k * wl x l := by
  induction fs generalizing s with
  | nil => exact hs l
  | cons f t ih =>
    rw [List.foldl_cons]
    refine ih _ fun l => ?_
    obtain ⟨k, hk⟩ := hs l
    rw [face3_lines, hk]
    split
    · exact ⟨k + 1, by push_cast; ring⟩
    · exact ⟨k, by ring⟩

theorem isFlat3_iff {n : ℕ} (c : Cell3 n) : c.isFlat = true ↔ (∀ l, c.Straight l) ∧ ∀ f, c.Spanned f := by
  have key : ∀ {m : ℕ} (id : Fin m → ℕ) (ls : List (Fin m)) (b : Bool), (ls.foldl (fun flat l =>
      if id l ≠ c.manifoldId ∧ id l ≠ flatManifoldId then false else flat) b) = true
      ↔ b = true ∧ ∀ l ∈ ls, id l = c.manifoldId ∨ id l = flatManifoldId := by
    intro m id ls
    induction ls with
    | nil => simp
    | cons a t ih =>
      intro b
      rw [List.foldl_cons, ih]
      by_cases h : id a ≠ c.manifoldId ∧ id a ≠ flatManifoldId
      · rw [if_pos h]
        simp only [Bool.false_eq_true, false_and, List.mem_cons, forall_eq_or_imp, false_iff, not_and]
        rintro _ (h' | h')
        · exact absurd h' h.1
        · exact absurd h' h.2
      · rw [if_neg h]
        have h' : id a = c.manifoldId ∨ id a = flatManifoldId := by
          by_contra hh
          push Not at hh
          exact h hh
        simp [h']
  unfold Cell3.isFlat
  rw [key, key]
  simp [Cell3.Straight, Cell3.Spanned]

theorem gordon_flat {n : ℕ} {c : Cell3 n} (hl : ∀ l, c.Straight l) (hf : ∀ f, c.Spanned f) (x : Vec 3) :
    c.gordon x = ∑ v, wv x v • c.vertex v := by
  classical
  funext i
  unfold Cell3.gordon Cell3.surface Cell3.curve
  simp only [if_pos (hl _), if_pos (hf _)]
  simp only [Fin.sum_univ_succ, Finset.univ_unique, Finset.sum_singleton]
  simp [coons, wf, wl, onFace, onLine, faceLines, faceVertices, lineVertices3, wv]
  ring

theorem flat3_value {n : ℕ} (c : Cell3 n) (x : Vec 3) : interpolate3 c x true = ∑ v, wv x v • c.vertex v := by
  funext i
  unfold interpolate3
  simp only [if_true]
  rw [foldl_add_smul, sum_finRange]
  simp [trilinearWeights_eq]

/-- `push_forward` is the interpolation of Gordon and Hall, exactly if no weight is below the threshold, and up to
`1.8e-12` times the size of the coordinates in any case. -/
theorem C96_gordon {n : ℕ} (c : Cell3 n) (x : Vec 3) :
    (Resolved x → c.pushForward x = c.gordon x)
    ∧ ∀ (i : Fin n) (R : ℝ), (∀ f, |c.surface f (onFace x f).1 (onFace x f).2 i| ≤ R) →
      (∀ l, |c.curve l (onLine x l) i| ≤ R) → |c.pushForward x i - c.gordon x i| ≤ 1.8e-12 * R := by
  have hflat : c.isFlat = true → c.pushForward x = c.gordon x := by
    intro h
    obtain ⟨hl, hf⟩ := (isFlat3_iff c).1 h
    unfold Cell3.pushForward
    rw [h, flat3_value, gordon_flat hl hf]
  constructor
  · intro hr
    cases h : c.isFlat with
    | true => exact hflat h
    | false =>
      unfold Cell3.pushForward
      rw [h]
      funext i
      rw [interpolate3_value]
      have h1 : (∑ f, if |wf x f| < 1e-13 then wf x f * c.surface f (onFace x f).1 (onFace x f).2 i else 0) = 0 := by
        refine Finset.sum_eq_zero fun f _ => ?_
        split
        · rename_i hw
          rcases hr.1 f with h0 | h0
          · rw [h0, zero_mul]
          · exact absurd hw (not_lt.2 h0)
        · rfl
      have h2 : ∑ l, (if |wl x l - ((List.finRange 6).foldl (face3 c x) ⟨0, trilinearWeights x, fun _ => 0⟩).lines l| < 1e-13
          then (wl x l - ((List.finRange 6).foldl (face3 c x) ⟨0, trilinearWeights x, fun _ => 0⟩).lines l)
            * c.curve l (onLine x l) i else 0) = 0 := by
        refine Finset.sum_eq_zero fun l _ => ?_
        obtain ⟨k, hk⟩ := faces_lines c x (List.finRange 6) ⟨0, trilinearWeights x, fun _ => 0⟩
          (fun l => ⟨0, by simp⟩) l
        rw [hk]
        split
        · rename_i hw
          rcases hr.2 l with h0 | h0
          · rw [h0]; ring
          · by_cases hk1 : k = 1
            · rw [hk1]; push_cast; ring
            · exfalso
              have e : wl x l - k * wl x l = (1 - k) * wl x l := by ring
              rw [e, abs_mul] at hw
              have hge : (1 : ℝ) ≤ |1 - (k : ℝ)| := by
                rcases Nat.lt_or_ge k 1 with h' | h'
                · have : k = 0 := by omega
                  rw [this]; norm_num
                · have : 2 ≤ k := by omega
                  have h2 : (2 : ℝ) ≤ k := by exact_mod_cast this
                  rw [abs_sub_comm, abs_of_nonneg (by linarith)]
                  linarith
              have := mul_le_mul hge h0 (by norm_num) (by positivity)
              linarith
        · rfl
      rw [h1, h2]
      ring
  · intro i R hR1 hR2
    have hR0 : 0 ≤ R := (abs_nonneg _).trans (hR1 0)
    cases h : c.isFlat with
    | true =>
      rw [hflat h, sub_self, abs_zero]
      positivity
    | false =>
      unfold Cell3.pushForward
      rw [h, interpolate3_value]
      set s := (List.finRange 6).foldl (face3 c x) ⟨0, trilinearWeights x, fun _ => 0⟩
      have b1 : |∑ f, if |wf x f| < 1e-13 then wf x f * c.surface f (onFace x f).1 (onFace x f).2 i else 0|
          ≤ 6 * (1e-13 * R) := by
        refine (Finset.abs_sum_le_sum_abs _ _).trans ?_
        have : ∀ f ∈ (Finset.univ : Finset (Fin 6)),
            |if |wf x f| < 1e-13 then wf x f * c.surface f (onFace x f).1 (onFace x f).2 i else 0| ≤ 1e-13 * R := by
          intro f _
          split
          · rename_i hw
            rw [abs_mul]
            exact mul_le_mul hw.le (hR1 f) (abs_nonneg _) (by norm_num)
          · rw [abs_zero]; positivity
        have := Finset.sum_le_sum this
        simpa using this
      have b2 : |∑ l, (if |wl x l - s.lines l| < 1e-13 then (wl x l - s.lines l) * c.curve l (onLine x l) i else 0)|
          ≤ 12 * (1e-13 * R) := by
        refine (Finset.abs_sum_le_sum_abs _ _).trans ?_
        have : ∀ l ∈ (Finset.univ : Finset (Fin 12)),
            |if |wl x l - s.lines l| < 1e-13 then (wl x l - s.lines l) * c.curve l (onLine x l) i else 0|
              ≤ 1e-13 * R := by
          intro l _
          split
          · rename_i hw
            rw [abs_mul]
            exact mul_le_mul hw.le (hR2 l) (abs_nonneg _) (by norm_num)
          · rw [abs_zero]; positivity
        have := Finset.sum_le_sum this
        simpa using this
      have b1' := abs_le.1 b1
      have b2' := abs_le.1 b2
      refine abs_le.2 ⟨?_, ?_⟩
      · linarith [b1'.1, b1'.2, b2'.1, b2'.2]
      · linarith [b1'.1, b1'.2, b2'.1, b2'.2]

theorem curve3_ends {n : ℕ} {c : Cell3 n} (h : c.Consistent) (l : Fin 12) :
    c.curve l 0 = c.vertex (lineVertices3 l 0) ∧ c.curve l 1 = c.vertex (lineVertices3 l 1) := by
  classical
  by_cases hl : c.Straight l
  · unfold Cell3.curve
    simp only [if_pos hl]
    constructor <;> funext i <;> simp
  · exact h.1 l hl

theorem surface_edges {n : ℕ} {c : Cell3 n} (h : c.Consistent) (f : Fin 6) (s : ℝ) :
    c.surface f 0 s = c.curve (faceLines f 0) s ∧ c.surface f 1 s = c.curve (faceLines f 1) s
      ∧ c.surface f s 0 = c.curve (faceLines f 2) s ∧ c.surface f s 1 = c.curve (faceLines f 3) s := by
  classical
  by_cases hf : c.Spanned f
  · have e := curve3_ends h
    unfold Cell3.surface
    simp only [if_pos hf]
    refine ⟨?_, ?_, ?_, ?_⟩
    all_goals
      funext i
      fin_cases f <;> simp [coons, faceLines, faceVertices, e, lineVertices3] <;> ring
  · exact h.2 f hf s

theorem gordon_face {n : ℕ} {c : Cell3 n} (h : c.Consistent) (f : Fin 6) (a b : ℝ) :
    c.gordon (facePoint f a b) = c.surface f a b := by
  have E := surface_edges h
  have e := curve3_ends h
  have hG : ∀ x i, c.gordon x i = ∑ f, wf x f * c.surface f (onFace x f).1 (onFace x f).2 i
      - ∑ l, wl x l * c.curve l (onLine x l) i + ∑ v, wv x v * c.vertex v i := by
    intro x i
    unfold Cell3.gordon
    simp only [Pi.add_apply, Pi.sub_apply, Finset.sum_apply, Pi.smul_apply, smul_eq_mul]
  funext i
  rw [hG]
  fin_cases f
  all_goals
    simp [Fin.sum_univ_succ, facePoint, wf, wl, wv, onFace, onLine, E, e, faceLines, lineVertices3]
    try ring

/-- Each face of the unit cube is mapped to the face of the cell with the same number: exactly if no weight is below the
threshold, and up to `1.8e-12` times the size of the coordinates in any case. -/
theorem C96_faces {n : ℕ} {c : Cell3 n} (h : c.Consistent) (f : Fin 6) (a b : ℝ) :
    (Resolved (facePoint f a b) → c.pushForward (facePoint f a b) = c.surface f a b)
    ∧ ∀ (i : Fin n) (R : ℝ),
      (∀ g, |c.surface g (onFace (facePoint f a b) g).1 (onFace (facePoint f a b) g).2 i| ≤ R) →
      (∀ l, |c.curve l (onLine (facePoint f a b) l) i| ≤ R) →
      |c.pushForward (facePoint f a b) i - c.surface f a b i| ≤ 1.8e-12 * R := by
  rw [← gordon_face h f a b]
  exact C96_gordon c (facePoint f a b)

theorem resolved_edge {l : Fin 12} {s : ℝ} (h0 : s = 0 ∨ 1e-13 ≤ |s|) (h1 : 1 - s = 0 ∨ 1e-13 ≤ |1 - s|) :
    Resolved (edgePoint l s) := by
  have hz : (0 : ℝ) = 0 ∨ 1e-13 ≤ |(0 : ℝ)| := Or.inl rfl
  have ho : (1 : ℝ) = 0 ∨ 1e-13 ≤ |(1 : ℝ)| := Or.inr (by norm_num)
  constructor
  · intro f
    fin_cases l <;> fin_cases f <;> simp only [edgePoint, wf, Matrix.cons_val_zero, Matrix.cons_val_one, Matrix.cons_val,
      sub_zero, sub_self] <;> first | exact hz | exact ho | exact h0 | exact h1
  · intro k
    fin_cases l <;> fin_cases k <;> simp only [edgePoint, wl, Matrix.cons_val_zero, Matrix.cons_val_one, Matrix.cons_val,
      sub_zero, sub_self, mul_zero, zero_mul, mul_one, one_mul] <;> first | exact hz | exact ho | exact h0 | exact h1

/-- Each edge of the unit cube is mapped to the line of the cell with the same number. -/
theorem C96_lines {n : ℕ} {c : Cell3 n} (h : c.Consistent) (l : Fin 12) {s : ℝ} (h0 : s = 0 ∨ 1e-13 ≤ |s|)
    (h1 : 1 - s = 0 ∨ 1e-13 ≤ |1 - s|) : c.pushForward (edgePoint l s) = c.curve l s := by
  have hr := resolved_edge (l := l) h0 h1
  rw [(C96_gordon c (edgePoint l s)).1 hr]
  have E := surface_edges h
  fin_cases l
  · exact (gordon_face h 0 s 0).trans (E 0 s).2.2.1
  · exact (gordon_face h 1 s 0).trans (E 1 s).2.2.1
  · exact (gordon_face h 2 0 s).trans (E 2 s).1
  · exact (gordon_face h 3 0 s).trans (E 3 s).1
  · exact (gordon_face h 0 s 1).trans (E 0 s).2.2.2
  · exact (gordon_face h 1 s 1).trans (E 1 s).2.2.2
  · exact (gordon_face h 2 1 s).trans (E 2 s).2.1
  · exact (gordon_face h 3 1 s).trans (E 3 s).2.1
  · exact (gordon_face h 0 0 s).trans (E 0 s).1
  · exact (gordon_face h 1 0 s).trans (E 1 s).1
  · exact (gordon_face h 0 1 s).trans (E 0 s).2.1
  · exact (gordon_face h 1 1 s).trans (E 1 s).2.1

/-- The corners of the unit cube are mapped to the vertices of the cell. -/
theorem C96_corners {n : ℕ} {c : Cell3 n} (h : c.Consistent) (v : Fin 8) : c.pushForward (corner3 v) = c.vertex v := by
  have hz : (0 : ℝ) = 0 ∨ 1e-13 ≤ |(0 : ℝ)| := Or.inl rfl
  have ho : (1 : ℝ) = 0 ∨ 1e-13 ≤ |(1 : ℝ)| := Or.inr (by norm_num)
  have h10 : (1 : ℝ) - 0 = 0 ∨ 1e-13 ≤ |(1 : ℝ) - 0| := Or.inr (by norm_num)
  have h11 : (1 : ℝ) - 1 = 0 ∨ 1e-13 ≤ |(1 : ℝ) - 1| := Or.inl (by norm_num)
  have e := curve3_ends h
  fin_cases v
  · exact (C96_lines h 0 hz h10).trans (e 0).1
  · exact (C96_lines h 1 hz h10).trans (e 1).1
  · exact (C96_lines h 0 ho h11).trans (e 0).2
  · exact (C96_lines h 1 ho h11).trans (e 1).2
  · exact (C96_lines h 4 hz h10).trans (e 4).1
  · exact (C96_lines h 5 hz h10).trans (e 5).1
  · exact (C96_lines h 4 ho h11).trans (e 4).2
  · exact (C96_lines h 5 ho h11).trans (e 5).2

/-- If all lines are straight and all faces are spanned by their lines then the map is trilinear; if, in addition, the cell
is a parallelepiped then it is affine. -/
theorem C96_flat3 {n : ℕ} {c : Cell3 n} (hl : ∀ l, c.Straight l) (hf : ∀ f, c.Spanned f) (x : Vec 3) :
    c.pushForward x = ∑ v, wv x v • c.vertex v
    ∧ ∀ (t a b d : Vec n), (∀ v, c.vertex v = t + corner3 v 0 • a + corner3 v 1 • b + corner3 v 2 • d) →
      c.pushForward x = t + x 0 • a + x 1 • b + x 2 • d := by
  have main : c.pushForward x = ∑ v, wv x v • c.vertex v := by
    unfold Cell3.pushForward
    rw [(isFlat3_iff c).2 ⟨hl, hf⟩, flat3_value]
  refine ⟨main, fun t a b d hv => ?_⟩
  rw [main]
  funext i
  simp [Fin.sum_univ_succ, hv, wv, corner3]
  ring

/-- The unit cube with a bump on the face `x = 1` (manifold `7`), the other faces spanned and the lines straight. -/
def bumpCube : Cell3 3 where
  vertex := corner3
  manifoldId := 3
  lineManifold := fun l => if l = 0 then flatManifoldId else 3
  faceManifold := fun f => if f = 1 then 7 else 3
  manifold := fun _ ps ws => ws.getD 0 0 • ps.getD 0 0 + ws.getD 1 0 • ps.getD 1 0 + ws.getD 2 0 • ps.getD 2 0
    + ws.getD 3 0 • ps.getD 3 0 + (ws.getD 0 0 * ws.getD 3 0) • ![1, 0, 0]

/-- The hypotheses are met by a cell with a curved face; the center of this face is not where a flat one would have it. -/
example : bumpCube.Consistent ∧ bumpCube.pushForward ![1, 1 / 2, 1 / 2] = ![17 / 16, 1 / 2, 1 / 2] := by
  classical
  have hl : ∀ l, bumpCube.Straight l := by
    intro l
    by_cases h : l = 0
    · exact Or.inr (by simp [bumpCube, h])
    · exact Or.inl (by simp [bumpCube, h])
  have h1 : ¬bumpCube.Spanned 1 := by
    simp [Cell3.Spanned, bumpCube, flatManifoldId]
  have hc : bumpCube.Consistent := by
    refine ⟨fun l h => absurd (hl l) h, fun f hf s => ?_⟩
    have hf1 : f = 1 := by
      by_contra h
      exact hf (Or.inl (by simp [bumpCube, h]))
    subst hf1
    unfold Cell3.surface Cell3.curve
    simp only [if_neg h1, if_pos (hl _)]
    refine ⟨?_, ?_, ?_, ?_⟩ <;> funext i <;>
      fin_cases i <;> simp [bumpCube, faceVertices, faceLines, lineVertices3, corner3]
  refine ⟨hc, ?_⟩
  have hr : Resolved (facePoint 1 (1 / 2) (1 / 2)) := by
    constructor
    · intro f
      fin_cases f <;> simp [facePoint, wf] <;> norm_num
    · intro l
      fin_cases l <;> simp [facePoint, wl] <;> norm_num
  have := (C96_faces hc 1 (1 / 2) (1 / 2)).1 hr
  rw [show ![(1 : ℝ), 1 / 2, 1 / 2] = facePoint 1 (1 / 2) (1 / 2) from rfl, this]
  unfold Cell3.surface
  rw [if_neg h1]
  funext i
  fin_cases i <;> simp [bumpCube, faceVertices, corner3] <;> norm_num

/-- A cell that is a single point, with one face on a manifold of its own. -/
def pointCell : Cell3 1 where
  vertex := fun _ _ => 1
  manifoldId := 3
  lineManifold := fun _ => 3
  faceManifold := fun f => if f = 1 then 7 else 3
  manifold := fun _ _ _ _ => 1

/-- The threshold is visible: a cell all of whose vertices, lines and faces are the point `1` is not mapped to `1`. -/
theorem C96_threshold_violation :
    pointCell.Consistent ∧ (∀ x, pointCell.gordon x = fun _ => 1)
    ∧ pointCell.pushForward ![1e-14, 1 / 2, 1 / 2] = fun _ => 1 - 1e-14 := by
  classical
  have hl : ∀ l, pointCell.Straight l := fun l => Or.inl rfl
  have h1 : ¬pointCell.Spanned 1 := by
    simp [Cell3.Spanned, pointCell, flatManifoldId]
  have hs : ∀ f, f ≠ 1 → pointCell.Spanned f := fun f hf => Or.inl (by simp [pointCell, hf])
  have hv : pointCell.vertex = fun _ _ => 1 := rfl
  have hcv : ∀ l s, pointCell.curve l s = fun _ => 1 := by
    intro l s
    unfold Cell3.curve
    rw [if_pos (hl l)]
    funext i
    simp [hv]
  have hsf : ∀ f a b, pointCell.surface f a b = fun _ => 1 := by
    intro f a b
    unfold Cell3.surface
    by_cases hf : f = 1
    · subst hf
      rw [if_neg h1]
      rfl
    · rw [if_pos (hs f hf)]
      funext i
      simp [coons, hcv, hv]
      ring
  have hc : pointCell.Consistent := by
    refine ⟨fun l h => absurd (hl l) h, fun f _ s => ?_⟩
    simp only [hsf, hcv, and_self]
  have hg : ∀ x, pointCell.gordon x = fun _ => 1 := by
    intro x
    funext i
    unfold Cell3.gordon
    simp [hsf, hcv, Fin.sum_univ_succ, wf, wl, wv, hv]
    ring
  refine ⟨hc, hg, ?_⟩
  have hflat : pointCell.isFlat = false := by
    cases h : pointCell.isFlat with
    | false => rfl
    | true => exact absurd (((isFlat3_iff _).1 h).2 1) h1
  funext i
  unfold Cell3.pushForward
  rw [hflat, interpolate3_value, hg]
  have a1 : (∑ f, if |wf ![1e-14, 1 / 2, 1 / 2] f| < 1e-13
      then wf ![1e-14, 1 / 2, 1 / 2] f * pointCell.surface f (onFace ![1e-14, 1 / 2, 1 / 2] f).1
        (onFace ![1e-14, 1 / 2, 1 / 2] f).2 i else 0) = 1e-14 := by
    simp only [hsf, Fin.sum_univ_succ, Finset.univ_unique, Finset.sum_singleton]
    simp [wf]
    norm_num [abs_lt]
  have a2 : ∑ l, (if |wl ![1e-14, 1 / 2, 1 / 2] l - ((List.finRange 6).foldl (face3 pointCell ![1e-14, 1 / 2, 1 / 2])
        ⟨0, trilinearWeights ![1e-14, 1 / 2, 1 / 2], fun _ => 0⟩).lines l| < 1e-13
      then (wl ![1e-14, 1 / 2, 1 / 2] l - ((List.finRange 6).foldl (face3 pointCell ![1e-14, 1 / 2, 1 / 2])
        ⟨0, trilinearWeights ![1e-14, 1 / 2, 1 / 2], fun _ => 0⟩).lines l)
        * pointCell.curve l (onLine ![1e-14, 1 / 2, 1 / 2] l) i else 0) = 0 := by
    have e6 : List.finRange 6 = [0, 1, 2, 3, 4, 5] := by rfl
    have k0 : ¬|wf ![1e-14, 1 / 2, 1 / 2] 0| < 1e-13 := by
      rw [not_lt, le_abs]; left; simp [wf]; norm_num
    have k1 : |wf ![1e-14, 1 / 2, 1 / 2] 1| < 1e-13 := by
      rw [abs_lt]; simp [wf]; norm_num
    have k2 : ¬|wf ![1e-14, 1 / 2, 1 / 2] 2| < 1e-13 := by
      rw [not_lt, le_abs]; left; simp [wf]; norm_num
    have k3 : ¬|wf ![1e-14, 1 / 2, 1 / 2] 3| < 1e-13 := by
      rw [not_lt, le_abs]; left; simp [wf]; norm_num
    have k4 : ¬|wf ![1e-14, 1 / 2, 1 / 2] 4| < 1e-13 := by
      rw [not_lt, le_abs]; left; simp [wf]; norm_num
    have k5 : ¬|wf ![1e-14, 1 / 2, 1 / 2] 5| < 1e-13 := by
      rw [not_lt, le_abs]; left; simp [wf]; norm_num
    refine Finset.sum_eq_zero fun l _ => ?_
    rw [e6]
    simp only [List.foldl_cons, List.foldl_nil, face3_lines, k0, k1, k2, k3, k4, k5, hs 0 (by decide), hs 2 (by decide),
      hs 3 (by decide), hs 4 (by decide), hs 5 (by decide), h1, hcv]
    fin_cases l <;> simp [faceLines, wl] <;> norm_num [lt_abs, le_abs]
  rw [a1, a2]
  ring

end

end Transfinite
end Ryujin
