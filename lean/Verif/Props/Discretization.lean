import Verif.Model.Discretization
import Mathlib.Algebra.Polynomial.Degree.Lemmas
import Mathlib.Data.List.Nodup
import Mathlib.Tactic.Ring
import Mathlib.Analysis.Real.Sqrt
import Mathlib.Algebra.Polynomial.Derivative
import Mathlib.Data.List.Rotate
import Mathlib.Tactic.Linarith
import Mathlib.Tactic.NormNum
import Mathlib.Tactic.FinCases

/-!
# C114: mesh and finite element space are determined by the parameters
-/

namespace Ryujin
namespace Discretize

variable {k n : ℕ} {P : Type}

/-! ### The geometry is chosen by its name -/

theorem lookup_eq_some {name : String} {list : List (GeometryEntry n k P)} {g : GeometryEntry n k P}
    (h : lookup name list = some g) : g ∈ list ∧ g.name = name := by
  induction list with
  | nil => simp [lookup] at h
  | cons a l ih =>
    unfold lookup at h
    by_cases e : a.name = name
    · rw [if_pos e] at h
      obtain rfl := Option.some.inj h
      exact ⟨List.mem_cons_self, e⟩
    · rw [if_neg e] at h
      exact ⟨List.mem_cons_of_mem _ (ih h).1, (ih h).2⟩

theorem lookup_eq_none {name : String} {list : List (GeometryEntry n k P)} :
    lookup name list = none ↔ ∀ g ∈ list, g.name ≠ name := by
  induction list with
  | nil => simp [lookup]
  | cons a l ih =>
    unfold lookup
    by_cases e : a.name = name
    · rw [if_pos e]; simp [e]
    · rw [if_neg e, ih]; simp [e]

theorem lookup_unique {name : String} {list : List (GeometryEntry n k P)} (hn : (list.map (·.name)).Nodup)
    {g : GeometryEntry n k P} (hg : g ∈ list) (e : g.name = name) : lookup name list = some g := by
  cases h : lookup name list with
  | none => exact absurd e (lookup_eq_none.1 h g hg)
  | some g' =>
    have h' := lookup_eq_some h
    rw [List.inj_on_of_nodup_map hn h'.1 hg (h'.2.trans e.symm)]

/-- **C114**: `prepare` throws exactly when no geometry of the library has the name given in the parameter file. If one has,
then this one is used, whatever the order in which the library (a set sorted by memory addresses) is searched; the names
in ryujin's library are distinct. The file with the coarse mesh is written by the first MPI rank only, and all ranks get
the same triangulation. -/
theorem C114_geometry (split : (Fin k → P) → Fin k → Fin k → P) (noise : ℚ → ℕ → Mesh n k P → P → P)
    (list : List (GeometryEntry n k P)) (hl : (list.map (·.name)).Perm geometryNames) (p : Parameters) (base : String) :
    (∀ rank seed, prepare split noise list p base rank seed = none ↔ p.geometry ∉ geometryNames) ∧
    (∀ g ∈ list, g.name = p.geometry → ∀ rank seed, ∃ q, prepare split noise list p base rank seed = some q ∧
      (|p.distortion| ≤ 1 / 10000000000 → q.mesh = (coarseMesh g.create).refineGlobal split p.refinement) ∧
      (q.file = if p.writeout = true ∧ rank = 0 then some (base ++ "-coarse_grid.msh", coarseMesh g.create) else none)) ∧
    (∀ list', list'.Perm list → ∀ rank seed,
      prepare split noise list' p base rank seed = prepare split noise list p base rank seed) ∧
    (∀ rank rank' seed, (prepare split noise list p base rank seed).map (·.mesh)
      = (prepare split noise list p base rank' seed).map (·.mesh)) := by
  have hnd : (list.map (·.name)).Nodup := hl.nodup_iff.2 (by decide)
  refine ⟨fun rank seed => ?_, fun g hg e rank seed => ?_, fun list' hp rank seed => ?_, fun rank rank' seed => ?_⟩
  · unfold prepare
    rw [Option.map_eq_none_iff, lookup_eq_none, ← hl.mem_iff]
    simp
  · refine ⟨_, by unfold prepare; rw [lookup_unique hnd hg e]; rfl, fun hd => ?_, ?_⟩
    · dsimp only
      rw [if_neg (not_lt.2 hd)]
    · dsimp only
      by_cases h : p.writeout = true ∧ rank = 0
      · rw [if_pos h, if_pos (by simp [h.1, h.2])]
      · rw [if_neg h, if_neg (by simpa using h)]
  · unfold prepare
    congr 1
    cases h : lookup p.geometry list with
    | none =>
      rw [lookup_eq_none] at h ⊢
      exact fun g hg => h g (hp.mem_iff.1 hg)
    | some g =>
      have h' := lookup_eq_some h
      exact lookup_unique ((hp.map _).nodup_iff.2 hnd) (hp.mem_iff.2 h'.1) h'.2
  · unfold prepare
    cases lookup p.geometry list <;> rfl

/-- **C114**: without a mesh distortion every execution of the program creates the same triangulation: the result does not
depend on the random device. -/
theorem C114_reproducible (split : (Fin k → P) → Fin k → Fin k → P) (noise : ℚ → ℕ → Mesh n k P → P → P)
    (list : List (GeometryEntry n k P)) (p : Parameters) (hd : |p.distortion| ≤ 1 / 10000000000) (base : String)
    (rank seed seed' : ℕ) :
    prepare split noise list p base rank seed = prepare split noise list p base rank seed' := by
  unfold prepare
  simp only [if_neg (not_lt.2 hd)]

/-! ### Number of cells -/

theorem Cell.leaves_execute_all (hk : 0 < k) (split : (Fin k → P) → Fin k → Fin k → P) (C : Cell k P) :
    (C.execute split fun _ => .refine).leaves.length = k * C.leaves.length := by
  induction C with
  | leaf c => simp [Cell.execute, Cell.leaves, List.length_flatMap]
  | node c ch ih =>
    unfold Cell.execute
    rw [if_neg fun h => absurd (h ⟨0, hk⟩).2 (by decide)]
    simp only [Cell.leaves, List.length_flatMap, List.length_map, ih, List.sum_map_mul_left]

theorem Mesh.active_execute_all (hk : 0 < k) (split : (Fin k → P) → Fin k → Fin k → P) (M : Mesh n k P) :
    (M.execute split markAll).active.length = k * M.active.length := by
  have key : ∀ c, ((M.execute split markAll) c).leaves.length = k * (M c).leaves.length :=
    fun c => Cell.leaves_execute_all hk split (M c)
  simp only [Mesh.active, List.length_flatMap, List.length_map, key, List.sum_map_mul_left]

/-- **C114**: the global refinement parameter `r` gives `2^(dim r)` active cells per cell of the coarse mesh, and every
adaptation cycle with the strategy "global refinement" multiplies the number of active cells by `2^dim`, on any mesh. -/
theorem C114_number_of_cells {dim : ℕ} (split : (Fin (2 ^ dim) → P) → Fin (2 ^ dim) → Fin (2 ^ dim) → P) :
    (∀ (corners : Fin n → Fin (2 ^ dim) → P) (r : ℕ),
      ((coarseMesh corners).refineGlobal split r).active.length = n * (2 ^ dim) ^ r) ∧
    (∀ (a : AdaptorParameters) (stream : ℕ → ℚ) (drawn : ℕ) (M : Mesh n (2 ^ dim) P),
      a.strategy = .global_refinement →
      (adapt split a stream (drawn, M)).2.active.length = 2 ^ dim * M.active.length) := by
  have hk : 0 < 2 ^ dim := by positivity
  constructor
  · intro corners r
    induction r with
    | zero => simp [Mesh.refineGlobal, Mesh.active, coarseMesh, Cell.leaves, List.length_flatMap]
    | succ r ih =>
      unfold Mesh.refineGlobal at ih ⊢
      rw [Function.iterate_succ_apply', Mesh.active_execute_all hk, ih, pow_succ]
      ring
  · intro a stream drawn M ha
    unfold adapt
    rw [ha]
    exact Mesh.active_execute_all hk split M

/-! ### Resuming -/

theorem grow_shape_execute (split : (Fin k → P) → Fin k → Fin k → P) (C : Cell k P) (flags : List (Fin k) → Flag)
    (h : grow split C.shape C.corners = C) :
    grow split (C.execute split flags).shape (C.execute split flags).corners = C.execute split flags ∧
      (C.execute split flags).corners = C.corners := by
  induction C generalizing flags with
  | leaf c =>
    unfold Cell.execute
    by_cases e : flags [] = .refine
    · rw [if_pos e]; exact ⟨rfl, rfl⟩
    · rw [if_neg e]; exact ⟨rfl, rfl⟩
  | node c ch ih =>
    unfold Cell.execute
    by_cases e : ∀ i, (ch i).isLeaf = true ∧ flags [i] = .coarsen
    · rw [if_pos e]; exact ⟨rfl, rfl⟩
    · rw [if_neg e]
      refine ⟨?_, rfl⟩
      have h' : ∀ i, grow split (ch i).shape (split c i) = ch i := by
        have := (Cell.node.injEq _ _ _ _).mp h
        exact fun i => congrFun this.2 i
      have hc : ∀ i, (ch i).corners = split c i := by
        intro i
        rw [← h' i]
        cases (ch i).shape <;> rfl
      change Cell.node c _ = Cell.node c _
      congr 1
      funext i
      have := ih i (fun p => flags (i :: p)) (by rw [hc i]; exact h' i)
      rw [← this.1]
      conv_rhs => rw [this.1]
      rw [this.2, hc i] at this
      exact this.1

/-- **C114**: after resuming from a checkpoint the program has the triangulation that was saved, if meshes are not
distorted: for every history of adaptation cycles before the checkpoint, and although the parameter "mesh refinement" is
ignored and the random device may deliver something else. -/
theorem C114_resume_partial (split : (Fin k → P) → Fin k → Fin k → P) (noise : ℚ → ℕ → Mesh n k P → P → P)
    (list : List (GeometryEntry n k P)) (p : Parameters) (hd : |p.distortion| ≤ 1 / 10000000000)
    (base : String) (rank seed seed' : ℕ) (q : Prepared n k P)
    (hq : prepare split noise list p base rank seed = some q) (history : List (Flags n k)) :
    let saved := history.foldl (fun M f => M.execute split f) q.mesh
    resume split noise list p base rank seed' saved.save = some saved := by
  intro saved
  obtain ⟨g, hg, rfl⟩ := Option.map_eq_some_iff.1 hq
  have inv : ∀ (l : List (Flags n k)) (M : Mesh n k P),
      (∀ c, grow split (M c).shape (M c).corners = M c ∧ (M c).corners = g.create c) →
      ∀ c, grow split ((l.foldl (fun M f => M.execute split f) M) c).shape
          ((l.foldl (fun M f => M.execute split f) M) c).corners = (l.foldl (fun M f => M.execute split f) M) c ∧
        ((l.foldl (fun M f => M.execute split f) M) c).corners = g.create c := by
    intro l
    induction l with
    | nil => intro M h; exact h
    | cons f l ih =>
      intro M h
      refine ih _ fun c => ?_
      have := grow_shape_execute split (M c) (f c) (h c).1
      exact ⟨this.1, this.2.trans (h c).2⟩
  have start : ∀ r c, grow split (((coarseMesh g.create).refineGlobal split r) c).shape
        (((coarseMesh g.create).refineGlobal split r) c).corners = ((coarseMesh g.create).refineGlobal split r) c ∧
      (((coarseMesh g.create).refineGlobal split r) c).corners = g.create c := by
    intro r
    induction r with
    | zero => exact fun c => ⟨rfl, rfl⟩
    | succ r ih =>
      intro c
      unfold Mesh.refineGlobal at ih ⊢
      rw [Function.iterate_succ_apply']
      have := grow_shape_execute split _ (markAll c) (ih c).1
      exact ⟨this.1, this.2.trans (ih c).2⟩
  have hs : ∀ c, grow split (saved c).shape (saved c).corners = saved c ∧ (saved c).corners = g.create c := by
    refine inv history _ ?_
    dsimp only
    rw [if_neg (not_lt.2 hd)]
    exact start p.refinement
  unfold resume prepare
  dsimp only
  rw [hg]
  simp only [Option.map_some, if_neg (not_lt.2 hd)]
  congr 1
  funext c
  have := hs c
  rw [this.2] at this
  exact this.1

/-- **C114** (violation): with a mesh distortion the triangulation is not determined by the parameters, and a resumed run
does not work on the mesh that was saved: the checkpoint does not contain the displaced vertices and the coarse mesh is
displaced anew. Witness: the interval `[0, 1]`, one refinement, where the random displacement moves the midpoint by less
than half the permitted distance; here the resumed mesh differs from the saved one whatever the random device delivers. -/
theorem C114_distortion_violation :
    ∃ (split : (Fin 2 → ℚ) → Fin 2 → Fin 2 → ℚ) (noise : ℚ → ℕ → Mesh 1 2 ℚ → ℚ → ℚ)
      (list : List (GeometryEntry 1 2 ℚ)) (p : Parameters),
      (∀ a s M x, |noise a s M x - x| ≤ |a| / 2) ∧
      (prepare split noise list p "" 0 0).map (·.mesh) ≠ (prepare split noise list p "" 0 1).map (·.mesh) ∧
      ∃ q, prepare split noise list p "" 0 1 = some q ∧
        ∀ seed', resume split noise list p "" 0 seed' q.mesh.save ≠ some q.mesh := by
  let split : (Fin 2 → ℚ) → Fin 2 → Fin 2 → ℚ := fun c i j => (c i + c j) / 2
  let noise : ℚ → ℕ → Mesh 1 2 ℚ → ℚ → ℚ := fun a s _ x => if x = 1 / 2 then x + a * ((s % 2 : ℕ) : ℚ) / 2 else x
  let list : List (GeometryEntry 1 2 ℚ) := [⟨"rectangular domain", fun _ i => (i.val : ℚ)⟩]
  let p : Parameters := ⟨.cg_q1, "rectangular domain", 1, false, 1 / 10⟩
  have hd : |p.distortion| > 1 / 10000000000 := by norm_num [p, abs_of_pos]
  let mid : Mesh 1 2 ℚ → Option ℚ := fun M => match M 0 with
    | .leaf _ => none
    | .node _ ch => some ((ch 0).corners 1)
  have hp : ∀ seed, ∃ q, prepare split noise list p "" 0 seed = some q ∧
      mid q.mesh = some (1 / 2 + 1 / 10 * ((seed % 2 : ℕ) : ℚ) / 2) ∧
      q.mesh.save = fun _ => .node fun _ => .leaf := by
    intro seed
    refine ⟨_, rfl, ?_, ?_⟩
    · dsimp only
      rw [if_pos hd]
      change some (noise (1 / 10) seed ((coarseMesh fun _ i => (i.val : ℚ)).refineGlobal split 1)
        ((((0 : ℕ) : ℚ) + ((1 : ℕ) : ℚ)) / 2)) = _
      simp [noise]
    · dsimp only
      rw [if_pos hd]
      rfl
  refine ⟨split, noise, list, p, ?_, ?_, ?_⟩
  · intro a s M x
    by_cases e : x = 1 / 2
    · have h2 : s % 2 = 0 ∨ s % 2 = 1 := by omega
      rcases h2 with h2 | h2
      · simp only [noise, e, h2, if_true]; norm_num; positivity
      · simp [noise, e, h2, abs_div]
    · simp only [noise, if_neg e, sub_self, abs_zero]; positivity
  · intro h
    obtain ⟨q0, e0, m0, -⟩ := hp 0
    obtain ⟨q1, e1, m1, -⟩ := hp 1
    rw [e0, e1] at h
    have h' : q0.mesh = q1.mesh := Option.some.inj h
    rw [h', m1] at m0
    norm_num at m0
  · obtain ⟨q1, e1, m1, s1⟩ := hp 1
    refine ⟨q1, e1, fun seed' h => ?_⟩
    rw [s1] at h
    have hr : ∃ M, resume split noise list p "" 0 seed' (fun _ => .node fun _ => .leaf) = some M ∧
        mid M = some (1 / 2) := by
      refine ⟨_, rfl, ?_⟩
      dsimp only
      rw [if_pos hd]
      change some (((noise (1 / 10) seed' (coarseMesh fun _ i => (i.val : ℚ)) ((0 : ℕ) : ℚ))
        + (noise (1 / 10) seed' (coarseMesh fun _ i => (i.val : ℚ)) ((1 : ℕ) : ℚ))) / 2) = _
      simp [noise]
    obtain ⟨M, hM, mM⟩ := hr
    rw [hM] at h
    obtain rfl := Option.some.inj h
    rw [m1] at mM
    norm_num at mM

/-! ### Adaptation cycles after resuming -/

/-- **C114**: with the strategy "global refinement" all adaptation cycles after resuming produce the meshes of the
uninterrupted run. -/
theorem C114_adaptation_partial (split : (Fin k → P) → Fin k → Fin k → P) (a : AdaptorParameters)
    (ha : a.strategy = .global_refinement) (stream : ℕ → ℚ) (drawn drawn' : ℕ) (M : Mesh n k P) (cycles : ℕ) :
    ((adapt split a stream)^[cycles] (drawn, M)).2 = ((adapt split a stream)^[cycles] (drawn', M)).2 := by
  induction cycles with
  | zero => rfl
  | succ c ih =>
    rw [Function.iterate_succ_apply', Function.iterate_succ_apply']
    unfold adapt at ih ⊢
    simp only [ha] at ih ⊢
    rw [ih]

/-- **C114** (violation): with the strategy "random adaptation" it does not. The checkpoint does not contain the state of the
random number generator, a resumed run starts with its first number again. Witness: two quadrilaterals, refinement
fraction one half; the second adaptation cycle refines other cells if the program was restarted in between. -/
theorem C114_random_adaptation_violation :
    ∃ (a : AdaptorParameters) (stream : ℕ → ℚ), a.strategy = .random_adaptation ∧
      (∀ i, 0 ≤ stream i ∧ stream i ≤ 10) ∧
      let split : (Fin 4 → ℚ × ℚ) → Fin 4 → Fin 4 → ℚ × ℚ := fun c i j => ((c i).1 / 2 + (c j).1 / 2, (c i).2 / 2 + (c j).2 / 2)
      let corners : Fin 2 → Fin 4 → ℚ × ℚ := fun c i => (((c.val + i.val % 2 : ℕ) : ℚ), ((i.val / 2 : ℕ) : ℚ))
      let first := adapt split a stream (0, coarseMesh corners)
      (adapt split a stream first).2 ≠ (adapt split a stream (0, first.2)).2 := by
  refine ⟨⟨.random_adaptation, 1 / 2, 0⟩, fun i => if i = 0 then 5 else if i = 1 then 4 else if i = 5 then 9 else
    if i = 6 then 10 else 0, rfl, fun i => ?_, ?_⟩
  · dsimp only
    split_ifs <;> norm_num
  · intro split corners first h
    have h' := congrArg (fun M => (M 1).isLeaf) h
    revert h'
    decide +kernel

/-! ### Finite element and quadratures -/

/-- **C114**: the name of an ansatz in the parameter file says what is used: "cG Qk" selects continuous and "dG Qk"
discontinuous elements of degree `k`, `have_discontinuous_ansatz` tells them apart, and the nodal quadrature has one
point per node. -/
theorem C114_ansatz (a : Configuration.Ansatz) (name : String) (h : (a, name) ∈ Configuration.ansatzTable) :
    name = (if isDGQ a then "dG Q" else "cG Q") ++ toString (degree a) ∧ haveDiscontinuousAnsatz a = isDGQ a ∧
      nodalPoints a = degree a + 1 ∧ mappingDegree a = max 1 (degree a) := by
  revert h
  simp only [Configuration.ansatzTable, List.mem_cons, Prod.mk.injEq, List.not_mem_nil, or_false]
  rintro (⟨rfl, rfl⟩ | ⟨rfl, rfl⟩ | ⟨rfl, rfl⟩ | ⟨rfl, rfl⟩ | ⟨rfl, rfl⟩ | ⟨rfl, rfl⟩ | ⟨rfl, rfl⟩) <;> decide

open Polynomial in
/-- **C114**: for every ansatz the quadrature is accurate enough: with any rule that integrates polynomials of degree less
than `2 n` exactly (as a Gauss rule with `n` points does), the entries `∫ φ_i φ_j` of the mass matrix and
`∫ φ_i φ_j'` of the gradient matrices are exact for all shape functions of the ansatz (stated in one direction, as the
rules are tensor products). -/
theorem C114_quadrature (a : Configuration.Ansatz) (rule integral : ℝ[X] → ℝ)
    (exact : ∀ p : ℝ[X], p.natDegree < 2 * gaussPoints a → rule p = integral p) (f g : ℝ[X])
    (hf : f.natDegree ≤ degree a) (hg : g.natDegree ≤ degree a) :
    rule (f * g) = integral (f * g) ∧ rule (f * derivative g) = integral (f * derivative g) := by
  have key : gaussPoints a = degree a + 1 := by cases a <;> rfl
  have h1 := natDegree_mul_le (p := f) (q := g)
  have h2 := natDegree_mul_le (p := f) (q := derivative g)
  have h3 := natDegree_derivative_le g
  constructor
  · exact exact _ (by omega)
  · exact exact _ (by omega)

/-! ### Non-vacuity -/

/-- The library of ryujin (with one coarse cell each), in another order. -/
def sampleLibrary : List (GeometryEntry 1 4 ℚ) :=
  (geometryNames.rotate 3).map fun s => ⟨s, fun _ i => (i.val : ℚ)⟩

example : (sampleLibrary.map (·.name)).Perm geometryNames := by
  have : sampleLibrary.map (·.name) = geometryNames.rotate 3 := rfl
  rw [this]
  exact List.rotate_perm _ _

example : "rectangular domain" ∈ geometryNames ∧ "sphere" ∉ geometryNames := by decide

/-- Refining all cells, then coarsening one group of siblings: the hypotheses of `C114_resume_partial` are met with a
mesh of two levels. -/
example : ∃ q, prepare (fun c i j => (c i + c j) / 2) (fun _ _ _ x => x) sampleLibrary
    ⟨.cg_q2, "disk", 2, true, 0⟩ "test" 0 17 = some q ∧ q.mesh.active.length = 16 ∧
    (q.mesh.execute (fun c i j => (c i + c j) / 2)
      (fun _ p => if p.head? = some 2 then .coarsen else .none)).active.length = 13 := by
  refine ⟨_, rfl, ?_, ?_⟩
  · dsimp only
    rw [if_neg (by norm_num)]
    rfl
  · dsimp only
    rw [if_neg (by norm_num)]
    rfl

open Polynomial in
/-- The Gauss rule with two points on `[-1, 1]` meets the hypothesis of `C114_quadrature` for "cG Q1". -/
example : ∀ p : ℝ[X], p.natDegree < 2 * gaussPoints .cg_q1 →
    p.eval (1 / √3) + p.eval (-(1 / √3)) = 2 * p.coeff 0 + 2 / 3 * p.coeff 2 := by
  intro p hp
  have h3 : (√3 : ℝ) ^ 2 = 3 := Real.sq_sqrt (by norm_num)
  have hp' : p.natDegree < 4 := hp
  rw [eval_eq_sum_range' hp', eval_eq_sum_range' hp']
  simp only [Finset.sum_range_succ, Finset.sum_range_zero]
  have hi : (1 / √3 : ℝ) ^ 2 = 1 / 3 := by rw [div_pow, h3]; norm_num
  have e : ∀ x : ℝ, (-x) ^ 2 = x ^ 2 := fun x => by ring
  rw [e, hi]
  ring

end Discretize
end Ryujin
