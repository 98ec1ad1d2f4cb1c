import Mathlib.Data.Real.Basic
import Mathlib.Algebra.BigOperators.Fin
import Mathlib.Algebra.Module.Basic
import Mathlib.Data.Fin.VecNotation

/-!
# Runge-Kutta methods

Textbook definitions, independent of the code: Butcher tableaux, the step they define, and the order
conditions up to order four (Hairer, Nørsett, Wanner, *Solving Ordinary Differential Equations I*, II.2).
The tableaux of the seven explicit schemes offered by the code are listed as in the literature.
-/

namespace Ryujin
namespace RK

noncomputable section

/-- A Butcher tableau with `s` stages. -/
structure Tableau (s : ℕ) where
  A : Fin s → Fin s → ℝ
  b : Fin s → ℝ

variable {s : ℕ}

/-- The abscissae. -/
def Tableau.c (T : Tableau s) (i : Fin s) : ℝ := ∑ j, T.A i j

/-- The tableau is explicit. -/
def Tableau.Explicit (T : Tableau s) : Prop := ∀ i j, i ≤ j → T.A i j = 0

/-- `u'` is the result of one step of size `h` of the method `T` for `u' = F u`, started at `u`. -/
def IsStep {X : Type} [AddCommGroup X] [Module ℝ X] (T : Tableau s) (F : X → X) (h : ℝ) (u u' : X) : Prop :=
  ∃ Y : Fin s → X, (∀ i, Y i = u + h • ∑ j, T.A i j • F (Y j)) ∧ u' = u + h • ∑ i, T.b i • F (Y i)

/-- The residuals of the order conditions; the elementary weights of the rooted trees with at most four
vertices minus `1 / γ(tree)`. -/
def Tableau.r1 (T : Tableau s) : ℝ := ∑ i, T.b i - 1
/-- order 2 -/
def Tableau.r2 (T : Tableau s) : ℝ := ∑ i, T.b i * T.c i - 1 / 2
/-- order 3, bushy tree -/
def Tableau.r3a (T : Tableau s) : ℝ := ∑ i, T.b i * T.c i ^ 2 - 1 / 3
/-- order 3, tall tree -/
def Tableau.r3b (T : Tableau s) : ℝ := ∑ i, T.b i * ∑ j, T.A i j * T.c j - 1 / 6
/-- order 4 -/
def Tableau.r4a (T : Tableau s) : ℝ := ∑ i, T.b i * T.c i ^ 3 - 1 / 4
/-- order 4 -/
def Tableau.r4b (T : Tableau s) : ℝ := ∑ i, T.b i * (T.c i * ∑ j, T.A i j * T.c j) - 1 / 8
/-- order 4 -/
def Tableau.r4c (T : Tableau s) : ℝ := ∑ i, T.b i * ∑ j, T.A i j * T.c j ^ 2 - 1 / 12
/-- order 4 -/
def Tableau.r4d (T : Tableau s) : ℝ := ∑ i, T.b i * ∑ j, T.A i j * ∑ k, T.A j k * T.c k - 1 / 24

/-- The order conditions up to order `p ≤ 4` hold up to the tolerance `eps`. -/
def Tableau.OrderUpTo (T : Tableau s) (p : ℕ) (eps : ℝ) : Prop :=
  (1 ≤ p → |T.r1| ≤ eps) ∧ (2 ≤ p → |T.r2| ≤ eps) ∧
  (3 ≤ p → |T.r3a| ≤ eps ∧ |T.r3b| ≤ eps) ∧
  (4 ≤ p → |T.r4a| ≤ eps ∧ |T.r4b| ≤ eps ∧ |T.r4c| ≤ eps ∧ |T.r4d| ≤ eps)

/-- The order conditions up to order `p ≤ 4` hold exactly. -/
def Tableau.Order (T : Tableau s) (p : ℕ) : Prop := T.OrderUpTo p 0

/-- Heun's method, SSPRK(2,2). -/
def ssprk22 : Tableau 2 := ⟨![![0, 0], ![1, 0]], ![1 / 2, 1 / 2]⟩
/-- SSPRK(3,3) of Shu and Osher. -/
def ssprk33 : Tableau 3 := ⟨![![0, 0, 0], ![1, 0, 0], ![1 / 4, 1 / 4, 0]], ![1 / 6, 1 / 6, 2 / 3]⟩
/-- Forward Euler. -/
def erk11 : Tableau 1 := ⟨![![0]], ![1]⟩
/-- The explicit midpoint rule, ERK(2,2;1). -/
def erk22 : Tableau 2 := ⟨![![0, 0], ![1 / 2, 0]], ![0, 1]⟩
/-- Heun's third order method, ERK(3,3;1). -/
def erk33 : Tableau 3 := ⟨![![0, 0, 0], ![1 / 3, 0, 0], ![0, 2 / 3, 0]], ![1 / 4, 0, 3 / 4]⟩
/-- ERK(4,3;1) of Ern and Guermond. -/
def erk43 : Tableau 4 :=
  ⟨![![0, 0, 0, 0], ![1 / 4, 0, 0, 0], ![0, 1 / 2, 0, 0], ![0, 1 / 4, 1 / 2, 0]], ![0, 2 / 3, -1 / 3, 2 / 3]⟩
/-- ERK(5,4;1) of Ern and Guermond, rounded to 17 digits. -/
def erk54 : Tableau 5 :=
  ⟨![![0, 0, 0, 0, 0],
     ![0.2, 0, 0, 0, 0],
     ![0.26075582269554909, 0.13924417730445096, 0, 0, 0],
     ![-0.25856517872570289, 0.91136274166280729, -0.05279756293710430, 0, 0],
     ![0.21623276431503774, 0.51534223099602405, -0.81662794199265554, 0.88505294668159373, 0]],
   ![-0.10511678454691901, 0.87880047152100838, -0.58903404061484477, 0.46213380485434047,
     0.35321654878641495]⟩
/-- ERK(5,4;1) with the last entry of every row adjusted so that the abscissae are exactly equidistant. -/
def erk54eq : Tableau 5 :=
  ⟨![![0, 0, 0, 0, 0],
     ![0.2, 0, 0, 0, 0],
     ![0.26075582269554909, 0.13924417730445091, 0, 0, 0],
     ![-0.25856517872570289, 0.91136274166280724, -0.05279756293710435, 0, 0],
     ![0.21623276431503774, 0.515342230996024, -0.81662794199265559, 0.88505294668159385, 0]],
   ![-0.10511678454691901, 0.87880047152100833, -0.58903404061484482, 0.46213380485434059,
     0.35321654878641491]⟩

end

end RK
end Ryujin
