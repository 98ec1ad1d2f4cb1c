import Verif.Model.Tensor
import Mathlib.Analysis.SpecialFunctions.Exp

/-!
# Model of `Postprocessor` (source/postprocessor.template.h)

One scalar quantity (a schlieren or a vorticity) at a time: the code treats all quantities independently of one another.
Degrees of freedom of all MPI ranks are numbered `Fin n`; `ranks` lists for every rank its locally owned ones.

Simplifications: `Number` is `ℝ`; selection of the component by name is modelled in `Configuration`; the state enters
through the values `q_j` of the selected component.  Ghost values are exact copies of the owner's values.
-/

namespace Ryujin
namespace Postprocessor

noncomputable section

variable {n d : ℕ}

/-- A row of the stencil: column indices and `c_ij` (postprocessor.template.h:165-175), and the lumped mass. -/
structure Row (n d : ℕ) where
  columns : List (Fin n × (Fin d → ℝ))
  mass : ℝ

/-- The schlieren value of a row (postprocessor.template.h:158-207): subtract `c_ij * q_j` over the row, take the norm,
divide by the mass.  `none` for rows of length one, which are skipped. -/
def schlieren (row : Row n d) (q : Fin n → ℝ) : Option ℝ :=
  if row.columns.length = 1 then none
  else some (vnorm (row.columns.foldl (fun acc c => acc - q c.1 • c.2) 0) / row.mass)

/-- The vorticity of a row in two dimensions (postprocessor.template.h:184-213): `cross_product_2d(c) = (c_1, -c_0)`,
the value keeps its sign. -/
def vorticity2 (row : Row n 2) (q : Fin n → Fin 2 → ℝ) : Option ℝ :=
  if row.columns.length = 1 then none
  else some ((row.columns.foldl (fun acc c => acc - (c.2 1 * q c.1 0 - c.2 0 * q c.1 1)) 0) / row.mass)

/-- `cross_product_3d`. (postprocessor.template.h:190) -/
def cross (a b : Fin 3 → ℝ) : Fin 3 → ℝ :=
  ![a 1 * b 2 - a 2 * b 1, a 2 * b 0 - a 0 * b 2, a 0 * b 1 - a 1 * b 0]

/-- The vorticity of a row in three dimensions (postprocessor.template.h:184-213): the norm of the sum. -/
def vorticity3 (row : Row n 3) (q : Fin n → Fin 3 → ℝ) : Option ℝ :=
  if row.columns.length = 1 then none
  else some (vnorm (row.columns.foldl (fun acc c => acc - cross c.2 (q c.1)) 0) / row.mass)

/-- Parameters: "schlieren beta", "schlieren recompute bounds", `std::numeric_limits<Number>::epsilon()` and
`std::numeric_limits<Number>::max()`. (postprocessor.template.h:30-55) -/
structure Params where
  beta : ℝ
  recompute : Bool
  eps : ℝ
  huge : ℝ

/-- `floor` (postprocessor.template.h:250). -/
def Params.floor (p : Params) : ℝ := max 1e-10 p.eps

/-- Step 1 (postprocessor.template.h:134-222): rows of length one keep what is stored in the vector. -/
def store (raw : Fin n → Option ℝ) (old : Fin n → ℝ) (i : Fin n) : ℝ := (raw i).getD (old i)

/-- Step 2 (postprocessor.template.h:232-245): maximum and minimum of the magnitudes, over the locally owned degrees of
freedom and then over the ranks. -/
def bounds (p : Params) (ranks : List (List (Fin n))) (q : Fin n → ℝ) : ℝ × ℝ :=
  ((ranks.map fun l => l.foldl (fun m i => max m |q i|) 0).foldl max 0,
    (ranks.map fun l => l.foldl (fun m i => min m |q i|) p.huge).foldl min p.huge)

/-- `std::copysign`. (postprocessor.template.h:266) -/
def copysign (m q : ℝ) : ℝ := if q < 0 then -|m| else |m|

/-- Step 3 (postprocessor.template.h:252-264): the exponential scale. -/
def normalize (p : Params) (b : ℝ × ℝ) (q : ℝ) : ℝ :=
  let ratio := max 0 (|q| - b.2 - p.floor) / max (b.1 - b.2) p.eps
  let magnitude := 1 - Real.exp (-p.beta * ratio)
  copysign magnitude q

/-- Step 4 (postprocessor.template.h:271-274): `affine_constraints.distribute` replaces the constrained entries by linear
combinations of unconstrained ones. -/
def distribute (constraints : Fin n → Option (List (Fin n × ℝ))) (q : Fin n → ℝ) (i : Fin n) : ℝ :=
  match constraints i with
  | none => q i
  | some line => (line.map fun e => e.2 * q e.1).sum

/-- The members that persist between calls: the output vector and the bounds. (postprocessor.h:144-165) -/
structure State (n : ℕ) where
  quantity : Fin n → ℝ
  bounds : Option (ℝ × ℝ)

/-- After `prepare` (postprocessor.template.h:63-104): zero vectors and no bounds. -/
def initial (n : ℕ) : State n := ⟨fun _ => 0, none⟩

/-- `compute` (postprocessor.template.h:108-276); `raw` is the result of the stencil loop for the state at hand. -/
def compute (p : Params) (ranks : List (List (Fin n))) (constraints : Fin n → Option (List (Fin n × ℝ)))
    (raw : Fin n → Option ℝ) (σ : State n) : State n :=
  let q := store raw σ.quantity
  let b := if p.recompute then bounds p ranks q else σ.bounds.getD (bounds p ranks q)
  ⟨distribute constraints fun i => normalize p b (q i), some b⟩

end

end Postprocessor
end Ryujin
