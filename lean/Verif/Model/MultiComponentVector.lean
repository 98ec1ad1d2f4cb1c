import Verif.Model.SparseExchange

/-!
# Model of `source/multicomponent_vector.{h,cc}`

`data` is the local storage of the underlying `dealii::LinearAlgebra::distributed::Vector` (owned part
followed by the ghost part), `n` the number of components per entry and `s` the SIMD length.
-/

namespace Ryujin
namespace Multi

variable {α : Type}

/-- `get_tensor(i)`, scalar (multicomponent_vector.h:265-269). -/
def get (n : ℕ) (data : ℕ → α) (i d : ℕ) : α := data (i * n + d)

/-- `get_tensor(i)`, vectorised (multicomponent_vector.h:271-279): lane `k` of component `d` is read at
`begin() + i * n_comp` with offset `k * n_comp`. -/
def getVec (n : ℕ) (data : ℕ → α) (i d k : ℕ) : α := data (i * n + (k * n + d))

/-- `get_tensor(js)`, scalar (multicomponent_vector.h:304-308). -/
def getIndirect (n : ℕ) (data : ℕ → α) (js : ℕ → ℕ) (d : ℕ) : α := data (js 0 * n + d)

/-- `get_tensor(js)`, vectorised (multicomponent_vector.h:310-318). -/
def getIndirectVec (n : ℕ) (data : ℕ → α) (js : ℕ → ℕ) (d k : ℕ) : α := data (js k * n + d)

/-- `write_tensor`, scalar (multicomponent_vector.h:342-346). -/
def write (n : ℕ) (tensor : ℕ → α) (i : ℕ) (data : ℕ → α) : ℕ → α :=
  (List.range n).foldl (fun data d => Function.update data (i * n + d) (tensor d)) data

/-- `write_tensor`, vectorised (multicomponent_vector.h:348-359); `vectorized_transpose_and_store` stores
entry `d` of lane `k` at offset `k * n_comp + d`. -/
def writeVec (n s : ℕ) (tensor : ℕ → ℕ → α) (i : ℕ) (data : ℕ → α) : ℕ → α :=
  (List.range n).foldl (fun data d => (List.range s).foldl (fun data k =>
    Function.update data (i * n + (k * n + d)) (tensor d k)) data) data

/-- `add_tensor`, scalar (multicomponent_vector.h:382-386). -/
def add [Add α] (n : ℕ) (tensor : ℕ → α) (i : ℕ) (data : ℕ → α) : ℕ → α :=
  (List.range n).foldl (fun data d =>
    Function.update data (i * n + d) (data (i * n + d) + tensor d)) data

/-- `add_tensor`, vectorised (multicomponent_vector.h:388-399). -/
def addVec [Add α] (n s : ℕ) (tensor : ℕ → ℕ → α) (i : ℕ) (data : ℕ → α) : ℕ → α :=
  (List.range n).foldl (fun data d => (List.range s).foldl (fun data k =>
    Function.update data (i * n + (k * n + d)) (data (i * n + (k * n + d)) + tensor d k)) data) data

/-- `extract_component` (multicomponent_vector.h:206-226), the owned part; the call of
`update_ghost_values()` at the end is not modelled. -/
def extractComponent (n n_owned : ℕ) (data : ℕ → α) (component : ℕ) (scalar : ℕ → α) : ℕ → α :=
  (List.range n_owned).foldl (fun scalar i =>
    Function.update scalar i (data (i * n + component))) scalar

/-- `insert_component` (multicomponent_vector.h:229-247). -/
def insertComponent (n n_owned : ℕ) (scalar : ℕ → α) (component : ℕ) (data : ℕ → α) : ℕ → α :=
  (List.range n_owned).foldl (fun data i =>
    Function.update data (i * n + component) (scalar i)) data

/-- `dealii::IndexSet` as its list of intervals `[first, last]`, given by `first` and the number of
elements. (multicomponent_vector.h:39-49) -/
abbrev IndexSet := List (ℕ × ℕ)

/-- The elements of an index set. (multicomponent_vector.h:39-49) -/
def IndexSet.elements (I : IndexSet) : List ℕ := I.flatMap fun t => List.range' t.1 t.2

/-- The loops of `create_vector_partitioner` (multicomponent_vector.cc:18-35):
`add_range(*begin * n, (last + 1) * n)` for every interval.  (`compress()` merges adjacent intervals, which
does not change the elements.) -/
def scaleSet (n : ℕ) (I : IndexSet) : IndexSet :=
  I.map fun t => (t.1 * n, (t.1 + t.2) * n - t.1 * n)

/-- `create_vector_partitioner` (multicomponent_vector.cc:12-43), applied to a partitioner with owned range
`[first, first + n_owned)` and ghost set `ghosts`. -/
def vectorPartitioner (n first n_owned : ℕ) (ghosts : IndexSet) : Sparse.Partitioner where
  first := first * n
  n_owned := (first + n_owned) * n - first * n
  ghosts := (scaleSet n ghosts).elements

/-- The scalar partitioner. (multicomponent_vector.h:39-49) -/
def scalarPartitioner (first n_owned : ℕ) (ghosts : IndexSet) : Sparse.Partitioner where
  first := first
  n_owned := n_owned
  ghosts := ghosts.elements

end Multi
end Ryujin
