import Verif.Model.Distributed

/-!
# The parallel loops of a time step at the level of memory accesses

`Model/HyperbolicStep` and `Model/Distributed` describe the result of a loop over the rows as a function of the memory before
the loop.  Here the same loops are programs that read and write single entries of the member vectors and matrices, and the
threads of a parallel region (openmp.h:47-75) execute these programs concurrently: after every single access any other thread may
go on.  The memory model is sequentially consistent; entries of a vector or a matrix (including the tensors stored for a degree
of freedom) are read and written as a whole.  Since the theorems show that there are no conflicting accesses, neither of the two is a
restriction for programs to which they apply.

A vectorised loop executes the rows of a SIMD group in lock step.  This is one particular interleaving of the programs of
the rows if every row of the group is given to a thread of its own, so it is covered: the number of threads is arbitrary.
-/

namespace Ryujin
namespace Threads

open Classical

/-- The part of the state of a process that a parallel region modifies: the vectors and matrices, and the atomic flag
`restart_needed` (hyperbolic_module.template.h:313). -/
structure Store (Loc : Type) (Val : Loc → Type) where
  mem : ∀ l, Val l
  flag : Prop

/-- The store after writing `v` to location `l`: `write_entry`, `write_tensor` (hyperbolic_module.template.h:415, 421). -/
noncomputable def Store.set {Loc : Type} {Val : Loc → Type} (s : Store Loc Val) (l : Loc) (v : Val l) : Store Loc Val :=
  { s with mem := Function.update s.mem l v }

/-- A program of one thread, as the sequence of its accesses to shared memory; thread local variables are arguments of the
continuations.  `raise` is the assignment `restart_needed = true` (hyperbolic_module.template.h:1017-1018). -/
inductive Prog (Loc : Type) (Val : Loc → Type) (β : Type) : Type
  | ret (b : β)
  | read (l : Loc) (k : Val l → Prog Loc Val β)
  | write (l : Loc) (v : Val l) (k : Prog Loc Val β)
  | raise (k : Prog Loc Val β)

variable {Loc : Type} {Val : Loc → Type} {α β γ : Type}

namespace Prog

/-- One program after the other (sequencing of C++ statements, e.g. hyperbolic_module.template.h:383-421). -/
def bind : Prog Loc Val β → (β → Prog Loc Val γ) → Prog Loc Val γ
  | .ret b, f => f b
  | .read l k, f => .read l fun v => (k v).bind f
  | .write l v k, f => .write l v (k.bind f)
  | .raise k, f => .raise (k.bind f)

/-- A loop with a thread local variable `b` (for example hyperbolic_module.template.h:499-554). -/
def loop (f : β → α → Prog Loc Val β) : β → List α → Prog Loc Val β
  | b, [] => .ret b
  | b, a :: as => (f b a).bind fun b => loop f b as

/-- A loop without thread local variable (for example hyperbolic_module.template.h:955-1019). -/
def each (f : α → Prog Loc Val Unit) (as : List α) : Prog Loc Val Unit :=
  loop (fun _ a => f a) () as

/-- Running a program without interference by other threads: what a single thread does
(hyperbolic_module.template.h:352-430, compiled without OpenMP). -/
noncomputable def run : Prog Loc Val β → Store Loc Val → Store Loc Val × β
  | .ret b, s => (s, b)
  | .read l k, s => (k (s.mem l)).run s
  | .write l v k, s => k.run (s.set l v)
  | .raise k, s => k.run { s with flag := True }

/-- In some execution, with some values read, the program reads location `l` (`get_entry`, `get_tensor`, for example
hyperbolic_module.template.h:503, 964). -/
def Reads (l : Loc) : Prog Loc Val β → Prop
  | .ret _ => False
  | .read l' k => l' = l ∨ ∃ v, (k v).Reads l
  | .write _ _ k => k.Reads l
  | .raise k => k.Reads l

/-- In some execution, with some values read, the program writes location `l` (`write_entry`, `write_tensor`, for example
hyperbolic_module.template.h:415, 991). -/
def Writes (l : Loc) : Prog Loc Val β → Prop
  | .ret _ => False
  | .read _ k => ∃ v, (k v).Writes l
  | .write l' _ k => l' = l ∨ k.Writes l
  | .raise k => k.Writes l

end Prog

/-- Two programs executed by different threads in the same parallel region race: one of them writes an entry the other one reads
or writes, undefined behaviour in C++.  The flag is atomic (hyperbolic_module.template.h:313) and does not race. -/
def DataRace (p q : Prog Loc Val β) : Prop :=
  ∃ l, (p.Writes l ∧ (q.Reads l ∨ q.Writes l)) ∨ (q.Writes l ∧ (p.Reads l ∨ p.Writes l))

/-- One access to the memory by thread `t`, between accesses of other threads. (openmp.h:47-75) -/
inductive Step {T : Type} : Store Loc Val × (T → Prog Loc Val β) → Store Loc Val × (T → Prog Loc Val β) → Prop
  | read {s : Store Loc Val} {p : T → Prog Loc Val β} (t : T) (l : Loc) (k : Val l → Prog Loc Val β) (h : p t = .read l k) :
      Step (s, p) (s, Function.update p t (k (s.mem l)))
  | write {s : Store Loc Val} {p : T → Prog Loc Val β} (t : T) (l : Loc) (v : Val l) (k : Prog Loc Val β)
      (h : p t = .write l v k) :
      Step (s, p) (s.set l v, Function.update p t k)
  | raise {s : Store Loc Val} {p : T → Prog Loc Val β} (t : T) (k : Prog Loc Val β) (h : p t = .raise k) :
      Step (s, p) ({ s with flag := True }, Function.update p t k)

/-- Some execution of a parallel region started with store `s` and the programs `p` of the threads reaches the implicit
barrier at its end with store `s'`; `b t` is the final value of the local variable of thread `t`. (openmp.h:47-75) -/
def Executes {T : Type} (p : T → Prog Loc Val β) (s s' : Store Loc Val) (b : T → β) : Prop :=
  Relation.ReflTransGen Step (s, p) (s', fun t => .ret (b t))

/-- `RYUJIN_OMP_FOR` (openmp.h:69-75): the iterations are distributed over the threads, thread `t` executes the list `chunk t`.  `f` is
the loop body and the local variable has the initial value `b`. -/
def parallelFor {T : Type} (f : β → α → Prog Loc Val β) (b : β) (chunk : T → List α) (t : T) : Prog Loc Val β :=
  Prog.loop f b (chunk t)

end Threads

namespace Hyp
namespace Threads

open Ryujin.Threads Classical

/-- The entries of the member vectors and matrices of `HyperbolicModule` and of `new_U` (hyperbolic_module.h:319-333). -/
inductive Loc (ι : Type) : Type
  | alpha (i : ι)
  | dij (i j : ι)
  | newU (i : ι)
  | r (i : ι)
  | bounds (i : ι)
  | pij (i j : ι)
  | lij (i j : ι)
  | lijNext (i j : ι)

/-- What is stored in an entry (hyperbolic_module.h:319-333). -/
abbrev Val (ι S B : Type) : Loc ι → Type
  | .alpha _ => ℝ
  | .dij _ _ => ℝ
  | .newU _ => S
  | .r _ => S
  | .bounds _ => B
  | .pij _ _ => S
  | .lij _ _ => ℝ
  | .lijNext _ _ => ℝ

noncomputable section

variable {ι R P S F B : Type} {dim : ℕ}

/-- A program on the memory of one rank. (hyperbolic_module.h:319-333) -/
abbrev RowProg (ι S B β : Type) := Prog (Loc ι) (Val ι S B) β

section

variable (D : Description ι P S F B dim) (M : Mesh ι dim)

/-- The body of the loop of step 2 (hyperbolic_module.template.h:372-421): the state vectors and the matrices of the offline
data are not modified by the step and are therefore no memory locations. -/
def row2 (old : StateVector ι P S) (i : ι) : RowProg ι S B Unit :=
  if M.nbrs i = [] then .ret ()
  else
    (Prog.each (fun j => if M.skip i j then .ret ()
      else .write (.dij i j) (viscosityEntry D M old i j) (.ret ())) (M.nbrs i)).bind fun _ =>
    .write (.alpha i) (alpha D M old i) (.ret ())

/-- The body of the loop over `coupling_boundary_pairs` (hyperbolic_module.template.h:461-491). -/
def pair3 (old : StateVector ι P S) (e : ι × ι) : RowProg ι S B Unit :=
  if M.below e.1 e.2 then .ret ()
  else .read (.dij e.1 e.2) fun (d_ij : ℝ) =>
    .write (.dij e.1 e.2) (max d_ij (viscosityEntry D M old e.2 e.1) : ℝ) (.ret ())

/-- The body of the loop that symmetrises `dij_matrix_` (hyperbolic_module.template.h:495-554); the local variable is
`local_tau_max`. -/
def row3 (M : Mesh ι dim) (par : Params) (local_tau_max : ℝ) (i : ι) : RowProg ι S B ℝ :=
  if M.nbrs i = [] then .ret local_tau_max
  else
    (Prog.loop (fun (d_sum : ℝ) j =>
      (if M.below i j then
        .read (.dij j i) fun (d_ji : ℝ) => .write (.dij i j) d_ji (.ret ())
      else (.ret () : RowProg ι S B Unit)).bind fun _ =>
      .read (.dij i j) fun (d_ij : ℝ) => .ret (d_sum - d_ij)) 0 (M.nbrs i)).bind fun d_sum =>
    let d_sum := min d_sum (-1000000 * par.tiny)
    .write (.dij i i) d_sum (.ret (min local_tau_max (par.cfl * M.lumped i / (-2 * d_sum))))

variable [AddCommGroup S] [Module ℝ S]

/-- The body of the loop of step 4 (hyperbolic_module.template.h:643-863).  The reads of `d_ij` and `alpha_j` are put before the writes
of `P_ij`, which are to other matrices.  The local variables `d` and `a` hold the values read. -/
def row4 (tiny : ℝ) (old : StateVector ι P S) (stages : List (ℝ × StateVector ι P S)) (tau : ℝ) (i : ι) :
    RowProg ι S B Unit :=
  if M.nbrs i = [] then .ret ()
  else
    (Prog.loop (fun (x : (ι → ℝ) × (ι → ℝ)) j =>
      .read (.alpha j) fun (alpha_j : ℝ) => .read (.dij i j) fun (d_ij : ℝ) =>
        .ret (Function.update x.1 j d_ij, Function.update x.2 j alpha_j)) (fun _ => 0, fun _ => 0) (M.columns i)).bind fun x =>
    let X : Stage4 ι P S := ⟨old, stages, tau, fun _ => x.1, x.2⟩
    (Prog.each (fun j => .write (.pij i j) (pStep4 D M X i j : S) (.ret ())) (M.columns i)).bind fun _ =>
    .write (.newU i) (lowOrder D M X i : S) <|
    .write (.r i) (rhsH D M X i : S) <|
    .write (.bounds i) (boundsStep4 D M X tiny i) (.ret ())

/-- The body of the loop of step 5 (hyperbolic_module.template.h:918-1019). -/
def row5 (tau : ℝ) (i : ι) : RowProg ι S B Unit :=
  if M.nbrs i = [] then .ret ()
  else
    .read (.bounds i) fun (bounds : B) =>
    (if M.dG then
      (Prog.loop (fun (b : B) j => .read (.bounds j) fun (b_j : B) => .ret (D.combine b b_j)) bounds (M.nbrs i)).bind fun b =>
        .write (.bounds i) b (.ret b)
    else (.ret bounds : RowProg ι S B B)).bind fun bounds =>
    .read (.newU i) fun (U_i_new : S) =>
    .read (.r i) fun (F_iH : S) =>
    Prog.each (fun j =>
      .read (.pij i j) fun (P_ij : S) => .read (.r j) fun (F_jH : S) =>
        let P_ij : S := (tau * (M.lumped i)⁻¹ * ((M.nbrs i).length : ℝ)) • (P_ij + (bIJ M i j • F_jH - bJI M i j • F_iH))
        .write (.pij i j) P_ij <|
        .write (.lij i j) (D.limit i j bounds U_i_new P_ij).1 <|
        if (D.limit i j bounds U_i_new P_ij).2 then .ret () else .raise (.ret ())) (M.nbrs i)

/-- The body of the loop of steps 6 and 7 (hyperbolic_module.template.h:1088-1165); the second component of the local variable is
`lij_row`. -/
def row6 (last_round : Prop) (i : ι) : RowProg ι S B Unit :=
  if M.nbrs i = [] then .ret ()
  else
    .read (.newU i) fun (U_i_new : S) =>
    (Prog.loop (fun (x : S × (ι → ℝ)) j =>
      .read (.lij i j) fun (a : ℝ) => .read (.lij j i) fun (b : ℝ) => .read (.pij i j) fun (p_ij : S) =>
        .ret (x.1 + (min a b * (1 / ((M.nbrs i).length : ℝ))) • p_ij, Function.update x.2 j (min a b)))
      (U_i_new, fun _ => 0) (M.nbrs i)).bind fun x =>
    .write (.newU i) x.1 <|
    if last_round then .ret ()
    else
      .read (.bounds i) fun (bounds : B) =>
      Prog.each (fun j => .read (.pij i j) fun (p_ij : S) =>
        .write (.lijNext i j) ((1 - x.2 j) * (D.limit i j bounds x.1 ((1 - x.2 j) • p_ij)).1 : ℝ) (.ret ())) (M.nbrs i)

end

/-- The memory of one rank. (hyperbolic_module.h:319-333) -/
abbrev RankStore (ι S B : Type) := Store (Loc ι) (Val ι S B)

/-- Exchange of the ghost values of a vector stored at the locations `loc` (hyperbolic_module.template.h:344-347, 601-613).
`setVec s v` is the store with the values `v` in these locations. -/
def exchangeVec {α : Type} (M : Mesh ι dim) (owner : ι → R) (get : RankStore ι S B → ι → α)
    (set : RankStore ι S B → (ι → α) → RankStore ι S B) (s : R → RankStore ι S B) (r : R) : RankStore ι S B :=
  set (s r) (Mpi.exchange M owner (fun r => get (s r)) r)

/-- The content of `alpha_`. (hyperbolic_module.h:319) -/
def getAlpha (s : RankStore ι S B) (i : ι) : ℝ := s.mem (.alpha i)

/-- Replaces the content of `alpha_`. (hyperbolic_module.h:319) -/
def setAlpha (s : RankStore ι S B) (v : ι → ℝ) : RankStore ι S B :=
  ⟨fun l => match l with | .alpha i => v i | l => s.mem l, s.flag⟩

/-- The content of `r_`. (hyperbolic_module.h:327) -/
def getR (s : RankStore ι S B) (i : ι) : S := s.mem (.r i)

/-- Replaces the content of `r_`. (hyperbolic_module.h:327) -/
def setR (s : RankStore ι S B) (v : ι → S) : RankStore ι S B :=
  ⟨fun l => match l with | .r i => v i | l => s.mem l, s.flag⟩

/-- The content of `bounds_`. (hyperbolic_module.h:323) -/
def getBounds (s : RankStore ι S B) (i : ι) : B := s.mem (.bounds i)

/-- Replaces the content of `bounds_`. (hyperbolic_module.h:323) -/
def setBounds (s : RankStore ι S B) (v : ι → B) : RankStore ι S B :=
  ⟨fun l => match l with | .bounds i => v i | l => s.mem l, s.flag⟩

/-- The content of `lij_matrix_`. (hyperbolic_module.h:330) -/
def getLij (s : RankStore ι S B) (i j : ι) : ℝ := s.mem (.lij i j)

/-- Replaces the content of `lij_matrix_`. (hyperbolic_module.h:330) -/
def setLij (s : RankStore ι S B) (v : ι → ι → ℝ) : RankStore ι S B :=
  ⟨fun l => match l with | .lij i j => v i j | l => s.mem l, s.flag⟩

/-- The content of `lij_matrix_next_`. (hyperbolic_module.h:331) -/
def getLijNext (s : RankStore ι S B) (i j : ι) : ℝ := s.mem (.lijNext i j)

/-- Replaces the content of `lij_matrix_next_`. (hyperbolic_module.h:331) -/
def setLijNext (s : RankStore ι S B) (v : ι → ι → ℝ) : RankStore ι S B :=
  ⟨fun l => match l with | .lijNext i j => v i j | l => s.mem l, s.flag⟩

/-- `std::swap(lij_matrix_, lij_matrix_next_)` (hyperbolic_module.template.h:1062-1064). -/
def swapLij (s : RankStore ι S B) : RankStore ι S B :=
  setLijNext (setLij s (getLijNext s)) (getLij s)


/-- A distribution of the iterations of a loop over threads: every iteration once.  OpenMP may use another distribution for every
loop. (openmp.h:69-75; hyperbolic_module.template.h:425-427) -/
structure Distributes {T α : Type} (chunk : T → List α) (own : α → Prop) : Prop where
  nodup : ∀ t, (chunk t).Nodup
  disjoint : ∀ t u, t ≠ u → ∀ a ∈ chunk t, a ∉ chunk u
  covers : ∀ a, own a ↔ ∃ t, a ∈ chunk t

/-- A loop over the rows of all ranks, each executed by the threads of the rank, with some distribution of the rows and some
interleaving (hyperbolic_module.template.h:425-427, 873-883, 1028-1038, 1169-1172). -/
def ParallelRows {T : Type} (owner : ι → R) (body : ι → RowProg ι S B Unit) (s s' : R → RankStore ι S B) : Prop :=
  ∀ r, ∃ chunk : T → List ι, Distributes chunk (fun i => owner i = r) ∧
    Executes (parallelFor (fun _ => body) () chunk) (s r) (s' r) fun _ => ()

section

variable (T : Type) (D : Description ι P S F B dim) (M : Mesh ι dim) (owner : ι → R) (par : Params)

/-- Step 2 (hyperbolic_module.template.h:338-430). -/
def Region2 (old : R → StateVector ι P S) (s s' : R → RankStore ι S B) : Prop :=
  ∃ m : R → RankStore ι S B, (∀ r, ∃ chunk : T → List ι, Distributes chunk (fun i => owner i = r) ∧
    Executes (parallelFor (fun _ => row2 D M (old r)) () chunk) (s r) (m r) fun _ => ()) ∧
  s' = exchangeVec M owner getAlpha setAlpha m

/-- Step 3 (hyperbolic_module.template.h:436-571); `big` is `numeric_limits::max()`.  The reduction over the threads is C12, the reduction over
the ranks the minimum. -/
def Region3 [Fintype T] [Fintype R] [Nonempty R] (big : ℝ) (old : R → StateVector ι P S) (tau_max : ℝ)
    (s s' : R → RankStore ι S B) (tau_max' : ℝ) : Prop :=
  ∃ (m : R → RankStore ι S B) (tau : R → T → ℝ),
    (∀ r, ∃ chunk : T → List (ι × ι),
      Distributes chunk (fun e => owner e.1 = r ∧ e.2 ∈ M.nbrs e.1 ∧ M.boundary e.1 ∧ M.boundary e.2) ∧
      Executes (parallelFor (fun _ => pair3 D M (old r)) () chunk) (s r) (m r) fun _ => ()) ∧
    (∀ r, ∃ chunk : T → List ι, Distributes chunk (fun i => owner i = r) ∧
      Executes (parallelFor (row3 M par) big chunk) (m r) (s' r) (tau r)) ∧
    tau_max' = Finset.univ.inf' Finset.univ_nonempty fun r => Finset.univ.fold min tau_max (tau r)

variable [AddCommGroup S] [Module ℝ S]

/-- Step 4 (hyperbolic_module.template.h:588-888). -/
def Region4 (old : R → StateVector ι P S) (stages : R → List (ℝ × StateVector ι P S)) (tau : ℝ)
    (s s' : R → RankStore ι S B) : Prop :=
  ∃ m : R → RankStore ι S B, (∀ r, ∃ chunk : T → List ι, Distributes chunk (fun i => owner i = r) ∧
    Executes (parallelFor (fun _ => row4 D M par.tiny (old r) (stages r) tau) () chunk) (s r) (m r) fun _ => ()) ∧
  s' = if M.dG then exchangeVec M owner getBounds setBounds (exchangeVec M owner getR setR m) else exchangeVec M owner getR setR m

/-- Step 5 (hyperbolic_module.template.h:890-1042). -/
def Region5 (tau : ℝ) (s s' : R → RankStore ι S B) : Prop :=
  ∃ m : R → RankStore ι S B, ParallelRows (T := T) owner (row5 D M tau) s m ∧
  s' = fun r => setLij (m r) (Mpi.exchangeRows M owner (fun r => getLij (m r)) r)

/-- One pass of steps 6 and 7 (hyperbolic_module.template.h:1054-1182). -/
def Region6 (n pass : ℕ) (s s' : R → RankStore ι S B) : Prop :=
  ∃ m : R → RankStore ι S B,
    ParallelRows (T := T) owner (row6 D M (pass + 1 = n)) (fun r => if n = 2 ∧ pass + 1 = n then swapLij (s r) else s r) m ∧
  s' = fun r => if pass + 1 = n then m r else setLijNext (m r) (Mpi.exchangeRows M owner (fun r => getLijNext (m r)) r)

/-- The loop over the passes (hyperbolic_module.template.h:1054-1055). -/
def Passes (n : ℕ) : ℕ → (R → RankStore ι S B) → (R → RankStore ι S B) → Prop
  | 0, s, s' => s = s'
  | k + 1, s, s' => ∃ m, Passes n k s m ∧ Region6 T D M owner n k m s'

/-- `HyperbolicModule::step` on all ranks with the threads `T` (hyperbolic_module.template.h:234-1214): `out` is a possible way in which the call ends.
The flag `restart_needed` is false at the beginning (line 313). -/
def ThreadedStep [Fintype T] [Fintype R] [Nonempty R] (big : ℝ) (strategy : Strategy) (cnt : R → Counters)
    (s : R → RankStore ι S B) (old : R → StateVector ι P S) (stages : R → List (ℝ × StateVector ι P S)) (tau tau_max : ℝ)
    (out : R → Outcome ι S × Counters) : Prop :=
  ∃ (s2 s3 : R → RankStore ι S B) (tau_max' : ℝ),
    Region2 T D M owner old (fun r => { s r with flag := False }) s2 ∧ Region3 T D M owner par big old tau_max s2 s3 tau_max' ∧
    if ¬ 0 < tau_max' then out = fun r => (.crashed, cnt r)
    else ∃ (s4 s5 s6 : R → RankStore ι S B) (tau' : ℝ), tau' = (if tau = 0 then tau_max' else tau) ∧
      Region4 T D M owner par old stages tau' s3 s4 ∧
      (if par.iterations ≠ 0 then Region5 T D M owner tau' s4 s5 else s5 = s4) ∧
      Passes T D M owner par.iterations par.iterations s5 s6 ∧
      out = fun r =>
        if ∃ q, (s6 q).flag then
          match strategy with
          | .warn => (.done (fun i => (s6 r).mem (.newU i)) tau', { cnt r with warnings := (cnt r).warnings + 1 })
          | .raise_exception => (.restart, { cnt r with restarts := (cnt r).restarts + 1 })
        else (.done (fun i => (s6 r).mem (.newU i)) tau', cnt r)

end

end

end Threads
end Hyp
end Ryujin
