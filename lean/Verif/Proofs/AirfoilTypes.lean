import Verif.Model.AirfoilTypes
import Verif.Spec.AirfoilTypes

/-!
# Checks of the tables of airfoils
-/

namespace Ryujin
namespace Airfoil

/-! ### The tables, as whole numbers -/

/-- `SideAdmissible` for whole numbers. -/
def sideCheck (digits : ℕ) (x y : List ℤ) : Bool :=
  decide (2 ≤ x.length) && decide (y.length = x.length) && (x.zip x.tail).all (fun e => decide (e.1 < e.2)) &&
    decide (x.head? = some 0) && decide (x.getLast? = some (10 ^ digits)) && decide (y.head? = some 0)

/-- `Admissible` for whole numbers. -/
def tableCheck (T : Table) : Bool :=
  sideCheck T.digits T.xUpper T.yUpper && sideCheck T.digits T.xLower T.yLower &&
    (match T.yUpper.getLast?, T.yLower.getLast? with
      | some u, some l => decide (l < u)
      | _, _ => false) &&
    (T.xUpper.zip T.yUpper).all (fun q => decide (q.1 ≤ 0) || ((T.xLower.zip T.yLower).zip (T.xLower.zip T.yLower).tail).all (fun e =>
      !decide (e.1.1 ≤ q.1) || !decide (q.1 ≤ e.2.1) ||
        decide (e.1.2 * (e.2.1 - q.1) + e.2.2 * (q.1 - e.1.1) < q.2 * (e.2.1 - e.1.1)))) &&
    (T.xLower.zip T.yLower).all (fun q => decide (q.1 ≤ 0) || ((T.xUpper.zip T.yUpper).zip (T.xUpper.zip T.yUpper).tail).all (fun e =>
      !decide (e.1.1 ≤ q.1) || !decide (q.1 ≤ e.2.1) ||
        decide (q.2 * (e.2.1 - e.1.1) < e.1.2 * (e.2.1 - q.1) + e.2.2 * (q.1 - e.1.1))))

theorem nasaSc2_check : tableCheck nasaSc2Table = true := by decide +kernel
theorem onera_check : tableCheck oneraTable = true := by decide +kernel
theorem bell_check : tableCheck bellTable = true := by decide +kernel

end Airfoil
end Ryujin
