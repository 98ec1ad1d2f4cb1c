import Verif.Model.Threads
import Verif.Model.AeosPrecompute

/-!
# The precomputation loops of the arbitrary equation of state solver, executed by several threads
(euler_aeos/hyperbolic_system.h:918-974)

The vector of precomputed values is shared by the threads; an access to the four values of a row is four accesses to single
numbers.  The states are only read; the exchange of ghost values started by `dispatch_check` writes entries of ghost rows, which the rows
processed after it do not read (C31), and is not part of the model.  The variant with one call on whole vectors is treated in `Model/AeosPrecompute`.
-/

namespace Ryujin
namespace Eos
namespace Threads

open Euler (State density internalEnergy)
open Ryujin.Threads

noncomputable section

variable {dim : ℕ}

/-- The numbers stored in `precomputed` (euler_aeos/hyperbolic_system.h:364-369). -/
inductive PLoc : Type
  | p (i : ℕ)
  | gamma (i : ℕ)
  | s (i : ℕ)
  | eta (i : ℕ)

/-- The memory the loops modify. (euler_aeos/hyperbolic_system.h:853) -/
abbrev PStore := Store PLoc fun _ => ℝ

/-- A program of a thread. (euler_aeos/hyperbolic_system.h:843-976) -/
abbrev PProg := Prog PLoc (fun _ => ℝ) Unit

/-- `precomputed.write_tensor(prec, i)` (multicomponent_vector.h:328-362). -/
def writeTensor (i : ℕ) (v : Prec) (k : PProg) : PProg :=
  .write (.p i) v.p <| .write (.gamma i) v.gamma_min <| .write (.s i) v.s <| .write (.eta i) v.eta k

/-- The content of the memory as a vector. (euler_aeos/hyperbolic_system.h:853) -/
def content (m : PStore) (i : ℕ) : Prec := ⟨m.mem (.p i), m.mem (.gamma i), m.mem (.s i), m.mem (.eta i)⟩

/-- Body of the loop of cycle 0 (euler_aeos/hyperbolic_system.h:923-938). -/
def row0 (eos : Interface) (par : Aeos.Params) (cols : ℕ → List ℕ) (U : ℕ → State dim) (i : ℕ) : PProg :=
  if (cols i).length = 1 then .ret ()
  else writeTensor i (precOf par (U i) (statePressure eos (U i))) (.ret ())

/-- Body of the loop of cycle 1 (euler_aeos/hyperbolic_system.h:945-974). -/
def row1 (par : Aeos.Params) (cols : ℕ → List ℕ) (U : ℕ → State dim) (i : ℕ) : PProg :=
  if (cols i).length = 1 then .ret ()
  else
    .read (.p i) fun p_i => .read (.gamma i) fun gamma_min_i => .read (.s i) fun _ => .read (.eta i) fun _ =>
    (Prog.loop (fun (gamma_min_i : ℝ) j =>
      .read (.p j) fun p_j => .read (.gamma j) fun _ => .read (.s j) fun _ => .read (.eta j) fun _ =>
        .ret (min gamma_min_i (Aeos.surrogateGamma par (U j) p_j))) gamma_min_i (cols i).tail).bind fun gamma_min_i =>
    writeTensor i ⟨p_i, gamma_min_i, Aeos.surrogateSpecificEntropy par (U i) gamma_min_i,
      Aeos.surrogateHartenEntropy par (U i) gamma_min_i⟩ (.ret ())

end

end Threads
end Eos
end Ryujin
