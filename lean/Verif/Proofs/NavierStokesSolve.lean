import Verif.Proofs.NavierStokes
import Mathlib.LinearAlgebra.FiniteDimensional.Basic
import Mathlib.LinearAlgebra.FiniteDimensional.Lemmas
import Mathlib.Tactic.Module

/-!
# The linear systems of the parabolic step are uniquely solvable
-/

namespace Ryujin
namespace NavierStokes

open Euler (State density momentum totalEnergy internalEnergy mkState Boundary)

noncomputable section

variable {ι Q : Type} {dim : ℕ} [Fintype ι] [Fintype Q]

omit [Fintype Q] in
theorem gradAt_add (fe : Fe ι Q dim) (V W : Field ι dim) (q : Q) : gradAt fe (V + W) q = gradAt fe V q + gradAt fe W q := by
  funext d e
  unfold gradAt
  have : ∀ j, readDof fe (fun i => (V + W) i d) j = readDof fe (fun i => V i d) j + readDof fe (fun i => W i d) j :=
    fun j => readDof_add fe (fun i => V i d) (fun i => W i d) j
  simp only [this]
  simp only [add_mul, Finset.sum_add_distrib, Pi.add_apply]

omit [Fintype Q] in
theorem gradAt_smul (fe : Fe ι Q dim) (r : ℝ) (V : Field ι dim) (q : Q) : gradAt fe (r • V) q = r • gradAt fe V q := by
  funext d e
  unfold gradAt
  have : ∀ j, readDof fe (fun i => (r • V) i d) j = r * readDof fe (fun i => V i d) j :=
    fun j => readDof_smul fe r (fun i => V i d) j
  simp only [this]
  simp only [mul_assoc, ← Finset.mul_sum, Pi.smul_apply, smul_eq_mul]

omit [Fintype ι] [Fintype Q] in
theorem stress_add (p : Params) (G H : Fin dim → Fin dim → ℝ) : stress p (G + H) = stress p G + stress p H := by
  unfold stress
  by_cases hd : dim = 1
  · simp only [if_pos hd]; funext d e; simp only [Pi.add_apply]; ring
  · simp only [if_neg hd]
    have : ∀ d e, symGrad (G + H) d e = symGrad G d e + symGrad H d e := fun d e => by
      simp only [symGrad, Pi.add_apply]; ring
    funext d e
    simp only [this, Finset.sum_add_distrib, Pi.add_apply]
    split_ifs <;> ring

omit [Fintype ι] [Fintype Q] in
theorem stress_smul (p : Params) (r : ℝ) (G : Fin dim → Fin dim → ℝ) : stress p (r • G) = r • stress p G := by
  unfold stress
  by_cases hd : dim = 1
  · simp only [if_pos hd]; funext d e; simp only [Pi.smul_apply, smul_eq_mul]; ring
  · simp only [if_neg hd]
    have : ∀ d e, symGrad (r • G) d e = r * symGrad G d e := fun d e => by
      simp only [symGrad, Pi.smul_apply, smul_eq_mul]; ring
    funext d e
    simp only [this, ← Finset.mul_sum, Pi.smul_apply, smul_eq_mul]
    split_ifs <;> ring

theorem stressOp_add (p : Params) (fe : Fe ι Q dim) (tau : ℝ) (V W : Field ι dim) :
    stressOp p fe tau (V + W) = stressOp p fe tau V + stressOp p fe tau W := by
  funext k d
  unfold stressOp
  simp only [Pi.add_apply]
  rw [← scatter_add]
  congr 1
  funext j
  rw [← Finset.sum_add_distrib]
  refine Finset.sum_congr rfl fun q _ => ?_
  rw [gradAt_add, stress_add, ← mul_add, ← Finset.sum_add_distrib]
  congr 1
  exact Finset.sum_congr rfl fun e _ => by simp only [Pi.add_apply]; ring

theorem stressOp_smul (p : Params) (fe : Fe ι Q dim) (tau r : ℝ) (V : Field ι dim) :
    stressOp p fe tau (r • V) = r • stressOp p fe tau V := by
  funext k d
  unfold stressOp
  simp only [Pi.smul_apply, smul_eq_mul]
  rw [← scatter_smul]
  congr 1
  funext j
  rw [Finset.mul_sum]
  refine Finset.sum_congr rfl fun q _ => ?_
  rw [gradAt_smul, stress_smul, mul_left_comm]
  congr 1
  rw [Finset.mul_sum]
  exact Finset.sum_congr rfl fun e _ => by simp only [Pi.smul_apply, smul_eq_mul]; ring

omit [Fintype ι] in
theorem foldl_fixRow_add (i : ι) (x y : Vec dim) (bc : List (Entry ι dim)) (D E : Vec dim) :
    bc.foldl (fixRow i (x + y)) (D + E) = bc.foldl (fixRow i x) D + bc.foldl (fixRow i y) E := by
  induction bc generalizing D E with
  | nil => rfl
  | cons e l ih =>
    rw [List.foldl_cons, List.foldl_cons, List.foldl_cons, ← ih]
    congr 1
    unfold fixRow
    split_ifs
    · cases e.id <;> simp only [dot_add_left']
      module
    · rfl

omit [Fintype ι] in
theorem foldl_fixRow_smul (i : ι) (r : ℝ) (x : Vec dim) (bc : List (Entry ι dim)) (D : Vec dim) :
    bc.foldl (fixRow i (r • x)) (r • D) = r • bc.foldl (fixRow i x) D := by
  induction bc generalizing D with
  | nil => rfl
  | cons e l ih =>
    rw [List.foldl_cons, List.foldl_cons, ← ih]
    congr 1
    unfold fixRow
    split_ifs
    · cases e.id <;> simp only [dot_smul_left']
      module
    · rfl

theorem velocityMatrix_apply (p : Params) (fe : Fe ι Q dim) (m rho : ι → ℝ) (bc : List (Entry ι dim)) (tau : ℝ)
    (V : Field ι dim) (i : ι) : velocityMatrix p fe m rho bc tau V i =
      bc.foldl (fixRow i (V i)) ((m i * rho i) • V i + stressOp p fe tau V i) := by
  unfold velocityMatrix
  rw [foldl_fixVelocity]
  rfl

theorem velocityMatrix_add (p : Params) (fe : Fe ι Q dim) (m rho : ι → ℝ) (bc : List (Entry ι dim)) (tau : ℝ)
    (V W : Field ι dim) : velocityMatrix p fe m rho bc tau (V + W) =
      velocityMatrix p fe m rho bc tau V + velocityMatrix p fe m rho bc tau W := by
  funext i
  simp only [Pi.add_apply, velocityMatrix_apply]
  rw [← foldl_fixRow_add, stressOp_add]
  congr 1
  simp only [Pi.add_apply]
  module

theorem velocityMatrix_smul (p : Params) (fe : Fe ι Q dim) (m rho : ι → ℝ) (bc : List (Entry ι dim)) (tau r : ℝ)
    (V : Field ι dim) : velocityMatrix p fe m rho bc tau (r • V) = r • velocityMatrix p fe m rho bc tau V := by
  funext i
  simp only [Pi.smul_apply, velocityMatrix_apply]
  rw [← foldl_fixRow_smul, stressOp_smul]
  congr 1
  simp only [Pi.smul_apply]
  module

/-- A linear endomorphism of a finite dimensional space that maps a subspace into itself and has no kernel in it is a
bijection of the subspace. -/
theorem unique_solution {X : Type} [AddCommGroup X] [Module ℝ X] [FiniteDimensional ℝ X] (A : X → X)
    (hadd : ∀ x y, A (x + y) = A x + A y) (hsmul : ∀ (r : ℝ) x, A (r • x) = r • A x) (S : Submodule ℝ X)
    (hS : ∀ x ∈ S, A x ∈ S) (hker : ∀ x ∈ S, A x = 0 → x = 0) (b : X) (hb : b ∈ S) : ∃! x, x ∈ S ∧ A x = b := by
  let T : S →ₗ[ℝ] S :=
    { toFun := fun x => ⟨A x.1, hS x.1 x.2⟩
      map_add' := fun x y => Subtype.ext (hadd x.1 y.1)
      map_smul' := fun r x => Subtype.ext (hsmul r x.1) }
  have hinj : Function.Injective T := by
    rw [injective_iff_map_eq_zero]
    intro x hx
    exact Subtype.ext (hker x.1 x.2 (congrArg Subtype.val hx))
  obtain ⟨x, hx⟩ := (LinearMap.injective_iff_surjective.1 hinj) ⟨b, hb⟩
  refine ⟨x.1, ⟨x.2, congrArg Subtype.val hx⟩, ?_⟩
  rintro y ⟨hy, hyb⟩
  have : T ⟨y, hy⟩ = T x := by rw [hx]; exact Subtype.ext hyb
  exact congrArg Subtype.val (hinj this)

/-- Fields that vanish at constrained degrees of freedom. -/
def freeFields (fe : Fe ι Q dim) : Submodule ℝ (Field ι dim) where
  carrier := {V | ∀ i, fe.constrained i → V i = 0}
  add_mem' := fun {a b} ha hb i hi => by rw [Pi.add_apply, ha i hi, hb i hi, add_zero]
  zero_mem' := fun _ _ => rfl
  smul_mem' := fun r a ha i hi => by rw [Pi.smul_apply, ha i hi, smul_zero]

/-- Scalar vectors that vanish at constrained degrees of freedom. -/
def freeScalars (fe : Fe ι Q dim) : Submodule ℝ (ι → ℝ) where
  carrier := {V | ∀ i, fe.constrained i → V i = 0}
  add_mem' := fun {a b} ha hb i hi => by rw [Pi.add_apply, ha i hi, hb i hi, add_zero]
  zero_mem' := fun _ _ => rfl
  smul_mem' := fun r a ha i hi => by rw [Pi.smul_apply, ha i hi, smul_zero]

theorem velocityMatrix_free (c : Config ι Q dim) (hfe : c.fe.Conforming) (rho : ι → ℝ) (tau : ℝ)
    (V : Field ι dim) (hV : V ∈ freeFields c.fe) :
    velocityMatrix c.p c.fe c.m rho c.bc tau V ∈ freeFields c.fe := by
  intro i hi
  rw [velocityMatrix_apply, hV i hi, stressOp_constrained c.p c.fe hfe tau V i hi, smul_zero, add_zero,
    foldl_fixRow_self]

theorem velocityMatrix_kernel (c : Config ι Q dim) (hp : c.Physical) (hfe : c.fe.Conforming) (hs : SlipCompatible c.bc)
    (rho : ι → ℝ) (hrho : ∀ i, ¬ c.fe.constrained i → 0 < rho i) (tau : ℝ) (htau : 0 ≤ tau)
    (V : Field ι dim) (hV : V ∈ freeFields c.fe) (h : velocityMatrix c.p c.fe c.m rho c.bc tau V = 0) : V = 0 := by
  classical
  have hrow : ∀ i, dot (V i) ((c.m i * rho i) • V i + stressOp c.p c.fe tau V i) = 0 := by
    intro i
    have h1 := congrFun h i
    rw [velocityMatrix_apply] at h1
    by_cases hn : ∃ e ∈ c.bc, e.i = i ∧ Prescribes e
    · rw [foldl_fixRow_prescribed i (V i) c.bc _ hn] at h1
      rw [h1]
      exact dot_zero_left _
    · push Not at hn
      have h2 : c.bc.foldl (rhsRow i (0 : ℝ)) 0 = 0 :=
        foldl_rhsRow_zero i 0 c.bc fun e he hei hd => hn e he hei (Or.inr hd)
      have h3 := row_key i (V i) 0 c.bc ((c.m i * rho i) • V i + stressOp c.p c.fe tau V i) 0 hn hs.unit
        (hs.orth i fun e he hei => ⟨fun h => hn e he hei (Or.inl h), fun h => hn e he hei (Or.inr h)⟩)
        (h1.trans h2.symm)
      have h4 := h3.2 (V i) h3.1
      rwa [sub_zero] at h4
  have hsum : ∑ i, c.m i * rho i * dot (V i) (V i) + tau * ∑ q, c.fe.weight q * dissipation c.p (gradAt c.fe V q) = 0 := by
    rw [← sum_stressOp, ← Finset.sum_add_distrib]
    refine Finset.sum_eq_zero fun i _ => ?_
    have := hrow i
    rw [dot_add_right', dot_smul_right'] at this
    exact this
  have hterm : ∀ i, 0 ≤ c.m i * rho i * dot (V i) (V i) := by
    intro i
    by_cases hi : c.fe.constrained i
    · rw [hV i hi, dot_zero_left, mul_zero]
    · exact mul_nonneg (mul_nonneg (hp.mass i).le (hrho i hi).le) (dot_self_nonneg _)
  have hdiss : 0 ≤ tau * ∑ q, c.fe.weight q * dissipation c.p (gradAt c.fe V q) :=
    mul_nonneg htau (Finset.sum_nonneg fun q _ => mul_nonneg (hfe.weight_nonneg q)
      (dissipation_nonneg c.p hp.mu hp.lam hp.dim_le _))
  have hz : ∑ i, c.m i * rho i * dot (V i) (V i) = 0 :=
    le_antisymm (by linarith) (Finset.sum_nonneg fun i _ => hterm i)
  funext i
  by_cases hi : c.fe.constrained i
  · exact hV i hi
  · have := (Finset.sum_eq_zero_iff_of_nonneg fun i _ => hterm i).1 hz i (Finset.mem_univ i)
    have hpos : c.m i * rho i ≠ 0 := (mul_pos (hp.mass i) (hrho i hi)).ne'
    exact dot_self_eq_zero _ ((mul_eq_zero.1 this).resolve_left hpos)

/-! ## Energy -/

omit [Fintype Q] in
theorem gradAtScalar_add (fe : Fe ι Q dim) (x y : ι → ℝ) (q : Q) :
    gradAtScalar fe (x + y) q = gradAtScalar fe x q + gradAtScalar fe y q := by
  funext d
  unfold gradAtScalar
  simp only [readDof_add, add_mul, Finset.sum_add_distrib, Pi.add_apply]

omit [Fintype Q] in
theorem gradAtScalar_smul (fe : Fe ι Q dim) (r : ℝ) (x : ι → ℝ) (q : Q) :
    gradAtScalar fe (r • x) q = r • gradAtScalar fe x q := by
  funext d
  unfold gradAtScalar
  simp only [readDof_smul, mul_assoc, ← Finset.mul_sum, Pi.smul_apply, smul_eq_mul]

open Classical in
theorem diffusionOp_eq (fe : Fe ι Q dim) (factor : ℝ) (e : ι → ℝ) (i : ι) :
    diffusionOp fe factor e i =
      factor * ∑ q, fe.weight q * dot (gradAtScalar fe (Pi.single i 1) q) (gradAtScalar fe e q) := by
  rw [← sum_test_diffusionOp, Finset.sum_eq_single i]
  · simp
  · intro k _ hk; rw [Pi.single_eq_of_ne hk, zero_mul]
  · exact fun h => absurd (Finset.mem_univ i) h

theorem diffusionOp_add (fe : Fe ι Q dim) (factor : ℝ) (x y : ι → ℝ) :
    diffusionOp fe factor (x + y) = diffusionOp fe factor x + diffusionOp fe factor y := by
  classical
  funext i
  simp only [Pi.add_apply, diffusionOp_eq, gradAtScalar_add, dot_add_right', mul_add, Finset.sum_add_distrib]

theorem diffusionOp_smul (fe : Fe ι Q dim) (factor r : ℝ) (x : ι → ℝ) :
    diffusionOp fe factor (r • x) = r • diffusionOp fe factor x := by
  classical
  funext i
  simp only [Pi.smul_apply, smul_eq_mul, diffusionOp_eq, gradAtScalar_smul, dot_smul_right', Finset.mul_sum]
  exact Finset.sum_congr rfl fun q _ => by ring

theorem energyMatrix_add (fe : Fe ι Q dim) (m rho : ι → ℝ) (bc : List (Entry ι dim)) (factor : ℝ) (x y : ι → ℝ) :
    energyMatrix fe m rho bc factor (x + y) = energyMatrix fe m rho bc factor x + energyMatrix fe m rho bc factor y := by
  classical
  funext i
  unfold energyMatrix
  by_cases h : ∃ e ∈ bc, e.i = i ∧ e.id = .dirichlet
  · simp only [Pi.add_apply, foldl_fixEnergy_some _ _ _ _ h]
  · push Not at h
    simp only [Pi.add_apply, foldl_fixEnergy_none _ _ _ _ h, diffusionOp_add]
    ring

theorem energyMatrix_smul (fe : Fe ι Q dim) (m rho : ι → ℝ) (bc : List (Entry ι dim)) (factor r : ℝ) (x : ι → ℝ) :
    energyMatrix fe m rho bc factor (r • x) = r • energyMatrix fe m rho bc factor x := by
  classical
  funext i
  unfold energyMatrix
  by_cases h : ∃ e ∈ bc, e.i = i ∧ e.id = .dirichlet
  · simp only [Pi.smul_apply, foldl_fixEnergy_some _ _ _ _ h]
  · push Not at h
    simp only [Pi.smul_apply, foldl_fixEnergy_none _ _ _ _ h, diffusionOp_smul, smul_eq_mul]
    ring

theorem energyMatrix_free (c : Config ι Q dim) (hfe : c.fe.Conforming) (rho : ι → ℝ) (factor : ℝ)
    (x : ι → ℝ) (hx : x ∈ freeScalars c.fe) : energyMatrix c.fe c.m rho c.bc factor x ∈ freeScalars c.fe := by
  intro i hi
  unfold energyMatrix
  by_cases h : ∃ e ∈ c.bc, e.i = i ∧ e.id = .dirichlet
  · rw [foldl_fixEnergy_some _ _ _ _ h, hx i hi]
  · push Not at h
    rw [foldl_fixEnergy_none _ _ _ _ h, hx i hi, diffusionOp_constrained c.fe hfe _ x i hi]
    ring

theorem energyMatrix_kernel (c : Config ι Q dim) (hm : ∀ i, 0 < c.m i) (hfe : c.fe.Conforming)
    (rho : ι → ℝ) (hrho : ∀ i, ¬ c.fe.constrained i → 0 < rho i) (factor : ℝ) (hfac : 0 ≤ factor)
    (x : ι → ℝ) (hx : x ∈ freeScalars c.fe) (h : energyMatrix c.fe c.m rho c.bc factor x = 0) : x = 0 := by
  have hrow : ∀ i, x i * (c.m i * rho i * x i + diffusionOp c.fe factor x i) = 0 := by
    intro i
    have h1 := congrFun h i
    unfold energyMatrix at h1
    by_cases hd : ∃ e ∈ c.bc, e.i = i ∧ e.id = .dirichlet
    · rw [foldl_fixEnergy_some _ _ _ _ hd] at h1
      rw [h1]
      simp
    · push Not at hd
      rw [foldl_fixEnergy_none _ _ _ _ hd] at h1
      rw [h1]
      simp
  have hsum : ∑ i, c.m i * rho i * (x i * x i) +
      factor * ∑ q, c.fe.weight q * dot (gradAtScalar c.fe x q) (gradAtScalar c.fe x q) = 0 := by
    rw [← sum_test_diffusionOp, ← Finset.sum_add_distrib]
    refine Finset.sum_eq_zero fun i _ => ?_
    have := hrow i
    linarith
  have hterm : ∀ i, 0 ≤ c.m i * rho i * (x i * x i) := by
    intro i
    by_cases hi : c.fe.constrained i
    · rw [hx i hi]; simp
    · exact mul_nonneg (mul_nonneg (hm i).le (hrho i hi).le) (mul_self_nonneg _)
  have hdiss : 0 ≤ factor * ∑ q, c.fe.weight q * dot (gradAtScalar c.fe x q) (gradAtScalar c.fe x q) :=
    mul_nonneg hfac (Finset.sum_nonneg fun q _ => mul_nonneg (hfe.weight_nonneg q) (dot_self_nonneg _))
  have hz : ∑ i, c.m i * rho i * (x i * x i) = 0 :=
    le_antisymm (by linarith) (Finset.sum_nonneg fun i _ => hterm i)
  funext i
  by_cases hi : c.fe.constrained i
  · exact hx i hi
  · have := (Finset.sum_eq_zero_iff_of_nonneg fun i _ => hterm i).1 hz i (Finset.mem_univ i)
    have hpos : c.m i * rho i ≠ 0 := (mul_pos (hm i) (hrho i hi)).ne'
    exact mul_self_eq_zero.1 ((mul_eq_zero.1 this).resolve_left hpos)

/-! ## Nonobtuse meshes -/

open Classical in
/-- At a minimum over the unconstrained degrees of freedom the diffusion operator is not positive. -/
theorem diffusionOp_at_min (fe : Fe ι Q dim) (hfe : fe.Conforming) (hn : fe.NonObtuse) (factor : ℝ) (hfac : 0 ≤ factor)
    (e : ι → ℝ) (i : ι) (hi : ¬ fe.constrained i) (hmin : ∀ j, ¬ fe.constrained j → e i ≤ e j) :
    diffusionOp fe factor e i ≤ 0 := by
  have hgrad : ∀ q, gradAtScalar fe e q =
      ∑ j, (if fe.constrained j then 0 else e j - e i) • gradAtScalar fe (Pi.single j 1) q := by
    intro q
    have h1 : gradAtScalar fe e q = gradAtScalar fe (fun j => if fe.constrained j then 0 else e j - e i) q := by
      have h2 : gradAtScalar fe e q = gradAtScalar fe (fun j => if fe.constrained j then 0 else e j) q := by
        funext d
        unfold gradAtScalar
        refine Finset.sum_congr rfl fun j _ => ?_
        rw [readDof_congr fe hfe e (fun j => if fe.constrained j then 0 else e j) fun k hk => by rw [if_neg hk]]
      have h3 : (fun j => if fe.constrained j then 0 else e j) =
          (fun j => if fe.constrained j then 0 else e j - e i) + (fun j => if fe.constrained j then 0 else e i) := by
        funext j
        simp only [Pi.add_apply]
        split_ifs <;> ring
      rw [h2, h3, gradAtScalar_add,
        gradAtScalar_const fe hfe (fun j => if fe.constrained j then 0 else e i) (e i) (fun k hk => if_neg hk), add_zero]
    have hsum : ∀ (s : Finset ι) (x : ι → ℝ), gradAtScalar fe (∑ j ∈ s, x j • (Pi.single j 1 : ι → ℝ)) q =
        ∑ j ∈ s, x j • gradAtScalar fe (Pi.single j 1) q := by
      intro s x
      induction s using Finset.induction_on with
      | empty =>
        rw [Finset.sum_empty, Finset.sum_empty]
        exact gradAtScalar_const fe hfe 0 0 (fun _ _ => rfl) q
      | insert a s ha ih => rw [Finset.sum_insert ha, Finset.sum_insert ha, gradAtScalar_add, gradAtScalar_smul, ih]
    rw [h1, ← hsum Finset.univ]
    congr 1
    funext k
    rw [Finset.sum_apply, Finset.sum_eq_single k]
    · simp
    · intro b _ hb; simp [Pi.single_apply, hb.symm]
    · exact fun h => absurd (Finset.mem_univ k) h
  rw [diffusionOp_eq]
  have hdot : ∀ q, dot (gradAtScalar fe (Pi.single i 1) q) (gradAtScalar fe e q) =
      ∑ j, (if fe.constrained j then 0 else e j - e i) *
        dot (gradAtScalar fe (Pi.single i 1) q) (gradAtScalar fe (Pi.single j 1) q) := by
    intro q
    rw [hgrad q]
    have : ∀ (s : Finset ι) (x : ι → ℝ) (v : ι → Vec dim) (a : Vec dim),
        dot a (∑ j ∈ s, x j • v j) = ∑ j ∈ s, x j * dot a (v j) := by
      intro s x v a
      induction s using Finset.induction_on with
      | empty => rw [Finset.sum_empty, Finset.sum_empty, dot_zero_right]
      | insert b s hb ih => rw [Finset.sum_insert hb, Finset.sum_insert hb, dot_add_right', dot_smul_right', ih]
    exact this _ _ _ _
  have heq : ∑ q, fe.weight q * dot (gradAtScalar fe (Pi.single i 1) q) (gradAtScalar fe e q) =
      ∑ j, (if fe.constrained j then 0 else e j - e i) * stiffness fe i j := by
    simp only [hdot, stiffness, Finset.mul_sum]
    rw [Finset.sum_comm]
    exact Finset.sum_congr rfl fun j _ => Finset.sum_congr rfl fun q _ => by ring
  rw [heq]
  refine mul_nonpos_of_nonneg_of_nonpos hfac (Finset.sum_nonpos fun j _ => ?_)
  by_cases hj : fe.constrained j
  · rw [if_pos hj, zero_mul]
  · rw [if_neg hj]
    by_cases hij : i = j
    · rw [hij, sub_self, zero_mul]
    · exact mul_nonpos_of_nonneg_of_nonpos (sub_nonneg.2 (hmin j hj)) (hn.offdiag i j hi hj hij)

theorem heating_nonneg (p : Params) (fe : Fe ι Q dim) (hw : ∀ q, 0 ≤ fe.weight q) (hn : fe.NonObtuse)
    (hmu : 0 ≤ p.mu) (hlam : 0 ≤ p.lam) (hdim : dim ≤ 3) (V : Field ι dim) (i : ι) : 0 ≤ heating p fe V i :=
  scatter_nonneg fe hn.coef_nonneg _ (fun j => Finset.sum_nonneg fun q _ =>
    mul_nonneg (hw q) (mul_nonneg (dissipation_nonneg p hmu hlam hdim _) (hn.phi_nonneg j q))) i

end

end NavierStokes
end Ryujin
