import Mathlib.Analysis.SpecialFunctions.Exp
import Mathlib.Analysis.Real.Sqrt

/-!
# Specification: formulas of a parameter file

The language of the formulas that the program hands to the muParser library, restricted to the four operations, brackets,
a leading minus sign, decimal numbers without exponent, variables, `sqrt`, `exp` and `abs`.
-/

namespace Ryujin
namespace Formulas

/-- Abstract syntax.  `number m d` is `m / 10 ^ d`. -/
inductive Formula
  | number (m d : ℕ)
  | var (name : List Char)
  | neg (a : Formula)
  | add (a b : Formula)
  | sub (a b : Formula)
  | mul (a b : Formula)
  | div (a b : Formula)
  | sqrt (a : Formula)
  | exp (a : Formula)
  | abs (a : Formula)
  deriving DecidableEq

/-- The value of a formula. -/
noncomputable def Formula.eval (env : List Char → ℝ) : Formula → ℝ
  | .number m d => m / 10 ^ d
  | .var x => env x
  | .neg a => -a.eval env
  | .add a b => a.eval env + b.eval env
  | .sub a b => a.eval env - b.eval env
  | .mul a b => a.eval env * b.eval env
  | .div a b => a.eval env / b.eval env
  | .sqrt a => Real.sqrt (a.eval env)
  | .exp a => Real.exp (a.eval env)
  | .abs a => |a.eval env|

/-- The variables that occur in a formula. -/
def Formula.vars : Formula → List (List Char)
  | .number _ _ => []
  | .var x => [x]
  | .neg a | .sqrt a | .exp a | .abs a => a.vars
  | .add a b | .sub a b | .mul a b | .div a b => a.vars ++ b.vars

/-- Lexical units. -/
inductive Token
  | number (m d : ℕ)
  | name (x : List Char)
  | sign (c : Char)
  deriving DecidableEq

/-- The value of a list of digits. -/
def digits (cs : List Char) : ℕ := cs.foldl (fun n c => 10 * n + (c.toNat - '0'.toNat)) 0

/-- Splitting a string into lexical units. -/
def tokens : ℕ → List Char → Option (List Token)
  | 0, _ => none
  | _, [] => some []
  | n + 1, c :: cs =>
    if c = ' ' then tokens n cs
    else if c.isDigit then
      let whole := (c :: cs).takeWhile Char.isDigit
      let rest := (c :: cs).dropWhile Char.isDigit
      match rest with
      | '.' :: rest' =>
        let part := rest'.takeWhile Char.isDigit
        (tokens n (rest'.dropWhile Char.isDigit)).map (Token.number (digits (whole ++ part)) part.length :: ·)
      | _ => (tokens n rest).map (Token.number (digits whole) 0 :: ·)
    else if c.isAlpha then
      (tokens n ((c :: cs).dropWhile Char.isAlphanum)).map (Token.name ((c :: cs).takeWhile Char.isAlphanum) :: ·)
    else if c ∈ ['+', '-', '*', '/', '(', ')'] then (tokens n cs).map (Token.sign c :: ·)
    else none

mutual

/-- `sum = product { ("+" | "-") product }`. -/
def parseSum : ℕ → List Token → Option (Formula × List Token)
  | 0, _ => none
  | n + 1, ts => (parseProduct n ts).bind fun r => sumTail n r.1 r.2

def sumTail : ℕ → Formula → List Token → Option (Formula × List Token)
  | 0, _, _ => none
  | n + 1, a, .sign '+' :: ts => (parseProduct n ts).bind fun r => sumTail n (.add a r.1) r.2
  | n + 1, a, .sign '-' :: ts => (parseProduct n ts).bind fun r => sumTail n (.sub a r.1) r.2
  | _ + 1, a, ts => some (a, ts)

/-- `product = factor { ("*" | "/") factor }`. -/
def parseProduct : ℕ → List Token → Option (Formula × List Token)
  | 0, _ => none
  | n + 1, ts => (parseFactor n ts).bind fun r => productTail n r.1 r.2

def productTail : ℕ → Formula → List Token → Option (Formula × List Token)
  | 0, _, _ => none
  | n + 1, a, .sign '*' :: ts => (parseFactor n ts).bind fun r => productTail n (.mul a r.1) r.2
  | n + 1, a, .sign '/' :: ts => (parseFactor n ts).bind fun r => productTail n (.div a r.1) r.2
  | _ + 1, a, ts => some (a, ts)

/-- `factor = number | variable | "-" factor | "(" sum ")" | function "(" sum ")"`. -/
def parseFactor : ℕ → List Token → Option (Formula × List Token)
  | 0, _ => none
  | n + 1, .sign '-' :: ts => (parseFactor n ts).map fun r => (.neg r.1, r.2)
  | n + 1, .sign '(' :: ts => (parseSum n ts).bind closing
  | _ + 1, .number m d :: ts => some (.number m d, ts)
  | n + 1, .name f :: .sign '(' :: ts =>
    ((parseSum n ts).bind closing).bind fun r =>
      if f = ['s', 'q', 'r', 't'] then some (.sqrt r.1, r.2)
      else if f = ['e', 'x', 'p'] then some (.exp r.1, r.2)
      else if f = ['a', 'b', 's'] then some (.abs r.1, r.2)
      else none
  | _ + 1, .name x :: ts => some (.var x, ts)
  | _ + 1, _ => none

/-- A closing bracket is consumed. -/
def closing : Formula × List Token → Option (Formula × List Token)
  | (a, .sign ')' :: ts) => some (a, ts)
  | _ => none

end

/-- The formula written in a string, if it is one. -/
def parse (s : List Char) : Option Formula :=
  (tokens (s.length + 1) s).bind fun ts =>
    match parseSum (6 * ts.length + 6) ts with
    | some (a, []) => some a
    | _ => none

/-- What muParser makes of a string in the variables `names`: a function of their values, unless the string is not a formula
or mentions an unknown variable. -/
noncomputable def muParser (names : List (List Char)) (s : List Char) : Option (List ℝ → ℝ) :=
  match parse s with
  | some f =>
    if ∀ x ∈ f.vars, x ∈ names then
      some fun values => f.eval fun x => (values[names.idxOf x]?).getD 0
    else none
  | none => none

end Formulas
end Ryujin
