import Verif.Spec.NavierStokes
import Verif.Proofs.EulerLimiter
import Mathlib.Algebra.BigOperators.Field
import Mathlib.Algebra.Order.Chebyshev
import Mathlib.Algebra.BigOperators.Ring.Finset
import Mathlib.Tactic.Linarith
import Mathlib.Tactic.LinearCombination
import Mathlib.Tactic.Ring
import Mathlib.Tactic.FieldSimp

/-!
# Lemmas on the parabolic step
-/

namespace Ryujin
namespace NavierStokes

open Euler (State density momentum totalEnergy internalEnergy mkState Boundary)

noncomputable section

variable {ι Q : Type} {dim : ℕ}

/-! ## Vectors -/

theorem dot_comm' (a b : Vec dim) : dot a b = dot b a := by
  unfold dot; exact Finset.sum_congr rfl fun i _ => mul_comm _ _

theorem dot_add_right' (a b c : Vec dim) : dot a (b + c) = dot a b + dot a c := by
  unfold dot; rw [← Finset.sum_add_distrib]; exact Finset.sum_congr rfl fun i _ => by simp only [Pi.add_apply]; ring

theorem dot_sub_right' (a b c : Vec dim) : dot a (b - c) = dot a b - dot a c := by
  unfold dot; rw [← Finset.sum_sub_distrib]; exact Finset.sum_congr rfl fun i _ => by simp only [Pi.sub_apply]; ring

theorem dot_smul_right' (a b : Vec dim) (r : ℝ) : dot a (r • b) = r * dot a b := by
  unfold dot; rw [Finset.mul_sum]; exact Finset.sum_congr rfl fun i _ => by simp only [Pi.smul_apply, smul_eq_mul]; ring

theorem dot_smul_left' (a b : Vec dim) (r : ℝ) : dot (r • a) b = r * dot a b := by
  rw [dot_comm', dot_smul_right', dot_comm']

theorem dot_add_left' (a b c : Vec dim) : dot (a + b) c = dot a c + dot b c := by
  rw [dot_comm', dot_add_right', dot_comm' c, dot_comm' c]

theorem dot_sub_left' (a b c : Vec dim) : dot (a - b) c = dot a c - dot b c := by
  rw [dot_comm', dot_sub_right', dot_comm' c, dot_comm' c]

theorem dot_self_nonneg (a : Vec dim) : 0 ≤ dot a a := Finset.sum_nonneg fun i _ => mul_self_nonneg _

theorem dot_self_eq_zero (a : Vec dim) (h : dot a a = 0) : a = 0 := by
  funext i
  have := (Finset.sum_eq_zero_iff_of_nonneg fun i _ => mul_self_nonneg (a i)).1 h i (Finset.mem_univ i)
  exact mul_self_eq_zero.1 this

theorem dot_zero_left (a : Vec dim) : dot 0 a = 0 := Finset.sum_eq_zero fun i _ => by simp

theorem dot_zero_right (a : Vec dim) : dot a 0 = 0 := Finset.sum_eq_zero fun i _ => by simp

/-! ## Constraints -/

section Constraints
variable [Fintype ι]

theorem sum_mul_scatter (fe : Fe ι Q dim) (x loc : ι → ℝ) :
    ∑ k, x k * scatter fe loc k = ∑ j, readDof fe x j * loc j := by
  classical
  unfold scatter readDof
  simp only [Finset.mul_sum]
  rw [Finset.sum_comm]
  refine Finset.sum_congr rfl fun j _ => ?_
  split_ifs with hj
  · rw [Finset.sum_mul]
    exact Finset.sum_congr rfl fun k _ => by ring
  · rw [Finset.sum_eq_single j]
    · simp
    · intro k _ hk
      rw [if_neg (fun h => hk h.symm)]
      ring
    · exact fun h => absurd (Finset.mem_univ j) h

theorem scatter_constrained (fe : Fe ι Q dim) (hfe : fe.Conforming) (loc : ι → ℝ) (k : ι) (hk : fe.constrained k) :
    scatter fe loc k = 0 := by
  unfold scatter
  refine Finset.sum_eq_zero fun j _ => ?_
  split_ifs with hj hjk
  · rw [hfe.resolved j k hj hk, zero_mul]
  · exact absurd (hjk ▸ hk) hj
  · rw [zero_mul]

theorem scatter_nonneg (fe : Fe ι Q dim) (hcoef : ∀ j k, fe.constrained j → 0 ≤ fe.coef j k) (loc : ι → ℝ)
    (h : ∀ j, 0 ≤ loc j) (k : ι) : 0 ≤ scatter fe loc k := by
  unfold scatter
  refine Finset.sum_nonneg fun j _ => mul_nonneg ?_ (h j)
  split_ifs with hj
  · exact hcoef j k hj
  · exact zero_le_one
  · exact le_rfl

theorem readDof_const (fe : Fe ι Q dim) (hfe : fe.Conforming) (x : ι → ℝ) (r : ℝ)
    (hx : ∀ k, ¬ fe.constrained k → x k = r) (j : ι) : readDof fe x j = r := by
  unfold readDof
  split_ifs with hj
  · calc ∑ k, fe.coef j k * x k = ∑ k, fe.coef j k * r := by
          refine Finset.sum_congr rfl fun k _ => ?_
          by_cases hk : fe.constrained k
          · rw [hfe.resolved j k hj hk]; ring
          · rw [hx k hk]
      _ = r := by rw [← Finset.sum_mul, hfe.coef_sum j hj, one_mul]
  · exact hx j hj

theorem readDof_congr (fe : Fe ι Q dim) (hfe : fe.Conforming) (x y : ι → ℝ)
    (hx : ∀ k, ¬ fe.constrained k → x k = y k) (j : ι) : readDof fe x j = readDof fe y j := by
  unfold readDof
  split_ifs with hj
  · refine Finset.sum_congr rfl fun k _ => ?_
    by_cases hk : fe.constrained k
    · rw [hfe.resolved j k hj hk]; ring
    · rw [hx k hk]
  · exact hx j hj

theorem readDof_add (fe : Fe ι Q dim) (x y : ι → ℝ) (j : ι) :
    readDof fe (x + y) j = readDof fe x j + readDof fe y j := by
  unfold readDof
  split_ifs
  · rw [← Finset.sum_add_distrib]; exact Finset.sum_congr rfl fun k _ => by simp only [Pi.add_apply]; ring
  · rfl

theorem readDof_smul (fe : Fe ι Q dim) (r : ℝ) (x : ι → ℝ) (j : ι) :
    readDof fe (r • x) j = r * readDof fe x j := by
  unfold readDof
  split_ifs
  · rw [Finset.mul_sum]; exact Finset.sum_congr rfl fun k _ => by simp only [Pi.smul_apply, smul_eq_mul]; ring
  · rfl

theorem scatter_add (fe : Fe ι Q dim) (x y : ι → ℝ) (k : ι) :
    scatter fe (fun j => x j + y j) k = scatter fe x k + scatter fe y k := by
  unfold scatter
  rw [← Finset.sum_add_distrib]; exact Finset.sum_congr rfl fun k _ => by ring

theorem scatter_smul (fe : Fe ι Q dim) (r : ℝ) (x : ι → ℝ) (k : ι) :
    scatter fe (fun j => r * x j) k = r * scatter fe x k := by
  unfold scatter
  rw [Finset.mul_sum]; exact Finset.sum_congr rfl fun k _ => by ring

theorem scatter_zero (fe : Fe ι Q dim) (k : ι) : scatter fe (fun _ => 0) k = 0 :=
  Finset.sum_eq_zero fun j _ => mul_zero _

end Constraints

/-! ## Stress -/

theorem stress_symm (p : Params) (G : Fin dim → Fin dim → ℝ) (d e : Fin dim) : stress p G d e = stress p G e d := by
  unfold stress
  split_ifs with hd
  · have : d = e := by subst hd; exact Subsingleton.elim _ _
    rw [this]
  · dsimp only [symGrad]
    by_cases hde : d = e
    · rw [hde]
    · rw [if_neg hde, if_neg fun h => hde h.symm]; ring

theorem ddot_symm_right (G S : Fin dim → Fin dim → ℝ) (hS : ∀ d e, S d e = S e d) :
    ddot (symGrad G) S = ddot G S := by
  have hsw : ∑ d, ∑ e, G e d * S d e = ∑ d, ∑ e, G d e * S d e := by
    rw [Finset.sum_comm]
    exact Finset.sum_congr rfl fun d _ => Finset.sum_congr rfl fun e _ => by rw [hS]
  calc ddot (symGrad G) S = ∑ d, ∑ e, (G d e * S d e + G e d * S d e) / 2 := by
        unfold ddot symGrad
        exact Finset.sum_congr rfl fun d _ => Finset.sum_congr rfl fun e _ => by ring
    _ = (∑ d, ∑ e, G d e * S d e + ∑ d, ∑ e, G e d * S d e) / 2 := by
        simp only [← Finset.sum_div, Finset.sum_add_distrib]
    _ = ddot G S := by rw [hsw]; unfold ddot; ring

theorem dissipation_eq (p : Params) (G : Fin dim → Fin dim → ℝ) : dissipation p G = ddot G (stress p G) := by
  unfold dissipation
  split_ifs with hd
  · rfl
  · exact ddot_symm_right _ _ (stress_symm p G)

theorem trace_sq_le (s : Fin dim → Fin dim → ℝ) : (∑ d, s d d) ^ 2 ≤ dim * ddot s s := by
  have h1 : (∑ d, s d d) ^ 2 ≤ (Finset.univ : Finset (Fin dim)).card * ∑ d, s d d ^ 2 := sq_sum_le_card_mul_sum_sq
  rw [Finset.card_univ, Fintype.card_fin] at h1
  refine h1.trans (mul_le_mul_of_nonneg_left ?_ (Nat.cast_nonneg _))
  unfold ddot
  refine Finset.sum_le_sum fun d _ => ?_
  have := Finset.single_le_sum (f := fun e => s d e * s d e) (fun e _ => mul_self_nonneg _) (Finset.mem_univ d)
  calc s d d ^ 2 = s d d * s d d := by ring
    _ ≤ _ := this

theorem dissipation_nonneg (p : Params) (hmu : 0 ≤ p.mu) (hlam : 0 ≤ p.lam) (hdim : dim ≤ 3)
    (G : Fin dim → Fin dim → ℝ) : 0 ≤ dissipation p G := by
  unfold dissipation
  split_ifs with hd
  · unfold ddot stress
    rw [if_pos hd]
    refine Finset.sum_nonneg fun d _ => Finset.sum_nonneg fun e _ => ?_
    have : 0 ≤ (4 / 3 * p.mu + p.lam) * (G d e * G d e) := mul_nonneg (by linarith) (mul_self_nonneg _)
    linarith
  · have hS : ddot (symGrad G) (stress p G) =
        2 * p.mu * ddot (symGrad G) (symGrad G) + (p.lam - 2 / 3 * p.mu) * (∑ d, symGrad G d d) ^ 2 := by
      unfold ddot stress
      rw [if_neg hd]
      have : ∀ d e, symGrad G d e * (2 * p.mu * symGrad G d e +
          if d = e then (p.lam - 2 / 3 * p.mu) * ∑ d, symGrad G d d else 0) =
          2 * p.mu * (symGrad G d e * symGrad G d e) +
          if d = e then (p.lam - 2 / 3 * p.mu) * (∑ d, symGrad G d d) * symGrad G d e else 0 := by
        intro d e; split_ifs <;> ring
      simp only [this, Finset.sum_add_distrib, ← Finset.mul_sum, Finset.sum_ite_eq, Finset.mem_univ, if_true]
      ring
    rw [hS]
    have h1 := trace_sq_le (symGrad G)
    have h2 : 0 ≤ ddot (symGrad G) (symGrad G) :=
      Finset.sum_nonneg fun d _ => Finset.sum_nonneg fun e _ => mul_self_nonneg _
    have h3 : (dim : ℝ) * ddot (symGrad G) (symGrad G) ≤ 3 * ddot (symGrad G) (symGrad G) :=
      mul_le_mul_of_nonneg_right (by exact_mod_cast hdim) h2
    nlinarith [mul_nonneg hmu (sub_nonneg.2 (h1.trans h3)), mul_nonneg hlam (sq_nonneg (∑ d, symGrad G d d))]

/-! ## Bilinear forms -/

section Forms
variable [Fintype ι] [Fintype Q]

theorem sum_test_stressOp (p : Params) (fe : Fe ι Q dim) (tau : ℝ) (V W : Field ι dim) :
    ∑ k, dot (W k) (stressOp p fe tau V k) =
      tau * ∑ q, fe.weight q * ddot (gradAt fe W q) (stress p (gradAt fe V q)) := by
  unfold dot stressOp
  rw [Finset.sum_comm]
  simp only [sum_mul_scatter]
  calc ∑ d, ∑ j, readDof fe (fun i => W i d) j * ∑ q, fe.weight q * ∑ e, tau * stress p (gradAt fe V q) d e * fe.grad j q e
      = ∑ d, ∑ q, ∑ j, readDof fe (fun i => W i d) j * (fe.weight q * ∑ e, tau * stress p (gradAt fe V q) d e * fe.grad j q e) := by
        refine Finset.sum_congr rfl fun d _ => ?_
        simp only [Finset.mul_sum (s := (Finset.univ : Finset Q))]
        exact Finset.sum_comm
    _ = ∑ q, tau * (fe.weight q * ddot (gradAt fe W q) (stress p (gradAt fe V q))) := by
        rw [Finset.sum_comm]
        refine Finset.sum_congr rfl fun q _ => ?_
        unfold ddot gradAt
        simp only [Finset.mul_sum, Finset.sum_mul]
        refine Finset.sum_congr rfl fun d _ => ?_
        rw [Finset.sum_comm]
        exact Finset.sum_congr rfl fun e _ => Finset.sum_congr rfl fun j _ => by ring
    _ = _ := by rw [Finset.mul_sum]

theorem sum_stressOp (p : Params) (fe : Fe ι Q dim) (tau : ℝ) (V : Field ι dim) :
    ∑ k, dot (V k) (stressOp p fe tau V k) = tau * ∑ q, fe.weight q * dissipation p (gradAt fe V q) := by
  rw [sum_test_stressOp]
  simp only [dissipation_eq]

theorem sum_heating (p : Params) (fe : Fe ι Q dim) (hfe : fe.Conforming) (V : Field ι dim) :
    ∑ k, heating p fe V k = ∑ q, fe.weight q * dissipation p (gradAt fe V q) := by
  have h := sum_mul_scatter fe (fun _ => 1) (fun j => ∑ q, fe.weight q * (dissipation p (gradAt fe V q) * fe.phi j q))
  simp only [one_mul] at h
  unfold heating
  rw [h]
  simp only [readDof_const fe hfe (fun _ => 1) 1 (fun _ _ => rfl), one_mul]
  rw [Finset.sum_comm]
  refine Finset.sum_congr rfl fun q _ => ?_
  rw [← Finset.mul_sum, ← Finset.mul_sum, hfe.sum_phi q, mul_one]

theorem sum_test_diffusionOp (fe : Fe ι Q dim) (factor : ℝ) (e w : ι → ℝ) :
    ∑ k, w k * diffusionOp fe factor e k =
      factor * ∑ q, fe.weight q * dot (gradAtScalar fe w q) (gradAtScalar fe e q) := by
  unfold diffusionOp
  rw [sum_mul_scatter]
  simp only [Finset.mul_sum (s := (Finset.univ : Finset Q))]
  rw [Finset.sum_comm]
  refine Finset.sum_congr rfl fun q _ => ?_
  unfold dot gradAtScalar
  simp only [Finset.mul_sum, Finset.sum_mul, Pi.smul_apply, smul_eq_mul]
  rw [Finset.sum_comm]
  refine Finset.sum_congr rfl fun d _ => ?_
  rw [Finset.sum_comm]
  exact Finset.sum_congr rfl fun k _ => Finset.sum_congr rfl fun j _ => by ring

omit [Fintype Q] in
theorem gradAtScalar_const (fe : Fe ι Q dim) (hfe : fe.Conforming) (x : ι → ℝ) (r : ℝ)
    (hx : ∀ k, ¬ fe.constrained k → x k = r) (q : Q) : gradAtScalar fe x q = 0 := by
  funext d
  unfold gradAtScalar
  simp only [readDof_const fe hfe x r hx, ← Finset.mul_sum, hfe.sum_grad q d, mul_zero, Pi.zero_apply]

theorem sum_diffusionOp (fe : Fe ι Q dim) (hfe : fe.Conforming) (factor : ℝ) (e : ι → ℝ) :
    ∑ k, diffusionOp fe factor e k = 0 := by
  have h := sum_test_diffusionOp fe factor e (fun _ => 1)
  simp only [one_mul, gradAtScalar_const fe hfe (fun _ => 1) 1 (fun _ _ => rfl), dot_zero_left, mul_zero,
    Finset.sum_const_zero] at h
  exact h

omit [Fintype Q] in
theorem gradAt_const (fe : Fe ι Q dim) (hfe : fe.Conforming) (V : Field ι dim) (v : Vec dim)
    (hx : ∀ k, ¬ fe.constrained k → V k = v) (q : Q) : gradAt fe V q = 0 := by
  funext d e
  unfold gradAt
  simp only [readDof_const fe hfe (fun i => V i d) (v d) (fun k hk => by rw [hx k hk]), ← Finset.mul_sum,
    hfe.sum_grad q e, mul_zero, Pi.zero_apply]

end Forms

/-! ## Rows of the velocity system -/

open Classical in
/-- The effect of `fixVelocity` on row `i`. -/
def fixRow (i : ι) (x D : Vec dim) (e : Entry ι dim) : Vec dim :=
  if e.i = i then
    match e.id with
    | .slip => (D - dot D e.normal • e.normal) + dot x e.normal • e.normal
    | .noSlip => x
    | .dirichlet => x
    | _ => D
  else D

open Classical in
/-- The effect of `setupBoundary` on row `i` of the right hand side or of the velocity. -/
def rhsRow (i : ι) (t1 : ℝ) (R : Vec dim) (e : Entry ι dim) : Vec dim :=
  if e.i = i then
    match e.id with
    | .slip => R - dot R e.normal • e.normal
    | .noSlip => 0
    | .dirichlet => velocity (e.data t1)
    | _ => R
  else R

theorem fixVelocity_apply (src dst : Field ι dim) (e : Entry ι dim) (i : ι) :
    fixVelocity src dst e i = fixRow i (src i) (dst i) e := by
  classical
  unfold fixVelocity fixRow
  by_cases h : e.i = i
  · subst h
    rw [if_pos rfl]
    cases e.id <;> simp only [Function.update_self]
    funext d
    simp only [Pi.add_apply, Pi.sub_apply, Pi.smul_apply, smul_eq_mul]
    ring
  · rw [if_neg h]
    cases e.id <;> simp only [Function.update_of_ne (fun h' : i = e.i => h h'.symm)]

theorem foldl_fixVelocity (src : Field ι dim) (bc : List (Entry ι dim)) (dst : Field ι dim) (i : ι) :
    bc.foldl (fixVelocity src) dst i = bc.foldl (fixRow i (src i)) (dst i) := by
  induction bc generalizing dst with
  | nil => rfl
  | cons e l ih => rw [List.foldl_cons, List.foldl_cons, ih, fixVelocity_apply]

theorem setupBoundary_rhs (t1 : ℝ) (s : Setup ι dim) (e : Entry ι dim) (i : ι) :
    (setupBoundary t1 s e).rhs i = rhsRow i t1 (s.rhs i) e := by
  classical
  unfold setupBoundary rhsRow
  by_cases h : e.i = i
  · subst h
    rw [if_pos rfl]
    cases e.id <;> simp only [Function.update_self]
    · rfl
    · funext d
      simp only [Pi.sub_apply, Pi.smul_apply, smul_eq_mul]
      ring
  · rw [if_neg h]
    cases e.id <;> simp only [Function.update_of_ne (fun h' : i = e.i => h h'.symm)]

theorem foldl_setup_rhs (t1 : ℝ) (bc : List (Entry ι dim)) (s : Setup ι dim) (i : ι) :
    (bc.foldl (setupBoundary t1) s).rhs i = bc.foldl (rhsRow i t1) (s.rhs i) := by
  induction bc generalizing s with
  | nil => rfl
  | cons e l ih => rw [List.foldl_cons, List.foldl_cons, ih, setupBoundary_rhs]

theorem setupBoundary_velocity (t1 : ℝ) (s : Setup ι dim) (e : Entry ι dim) (i : ι) :
    (setupBoundary t1 s e).velocity i = rhsRow i t1 (s.velocity i) e := by
  classical
  unfold setupBoundary rhsRow
  by_cases h : e.i = i
  · subst h
    rw [if_pos rfl]
    cases e.id <;> simp only [Function.update_self]
    · rfl
    · funext d
      simp only [Pi.sub_apply, Pi.smul_apply, smul_eq_mul]
      ring
  · rw [if_neg h]
    cases e.id <;> simp only [Function.update_of_ne (fun h' : i = e.i => h h'.symm)]

theorem foldl_setup_velocity (t1 : ℝ) (bc : List (Entry ι dim)) (s : Setup ι dim) (i : ι) :
    (bc.foldl (setupBoundary t1) s).velocity i = bc.foldl (rhsRow i t1) (s.velocity i) := by
  induction bc generalizing s with
  | nil => rfl
  | cons e l ih => rw [List.foldl_cons, List.foldl_cons, ih, setupBoundary_velocity]

/-- The velocity is prescribed completely. -/
def Prescribes (e : Entry ι dim) : Prop := e.id = .noSlip ∨ e.id = .dirichlet

theorem foldl_fixRow_self (i : ι) (x : Vec dim) (bc : List (Entry ι dim)) : bc.foldl (fixRow i x) x = x := by
  induction bc with
  | nil => rfl
  | cons e l ih =>
    have : fixRow i x x e = x := by
      unfold fixRow
      split_ifs
      · cases e.id <;> simp
      · rfl
    rw [List.foldl_cons, this, ih]

theorem foldl_fixRow_prescribed (i : ι) (x : Vec dim) (bc : List (Entry ι dim)) (D : Vec dim)
    (h : ∃ e ∈ bc, e.i = i ∧ Prescribes e) : bc.foldl (fixRow i x) D = x := by
  induction bc generalizing D with
  | nil => obtain ⟨e, he, -⟩ := h; cases he
  | cons a l ih =>
    rw [List.foldl_cons]
    by_cases ha : a.i = i ∧ Prescribes a
    · have : fixRow i x D a = x := by
        unfold fixRow
        rw [if_pos ha.1]
        rcases ha.2 with h' | h' <;> rw [h']
      rw [this, foldl_fixRow_self]
    · apply ih
      obtain ⟨e, he, hei⟩ := h
      rcases List.mem_cons.1 he with rfl | he
      · exact absurd hei ha
      · exact ⟨e, he, hei⟩

theorem row_key (i : ι) (x : Vec dim) (t1 : ℝ) (bc : List (Entry ι dim)) (D R : Vec dim)
    (hfree : ∀ e ∈ bc, e.i = i → ¬ Prescribes e)
    (hunit : ∀ e ∈ bc, e.id = .slip → dot e.normal e.normal = 1)
    (horth : bc.Pairwise fun a b => a.i = i → b.i = i → a.id = .slip → b.id = .slip → dot a.normal b.normal = 0)
    (h : bc.foldl (fixRow i x) D = bc.foldl (rhsRow i t1) R) :
    (∀ e ∈ bc, e.i = i → e.id = .slip → dot x e.normal = 0) ∧
      ∀ z : Vec dim, (∀ e ∈ bc, e.i = i → e.id = .slip → dot z e.normal = 0) → dot z (D - R) = 0 := by
  induction bc generalizing D R with
  | nil =>
    refine ⟨fun e he => (by cases he), fun z _ => ?_⟩
    have : D = R := h
    rw [this, sub_self, dot_zero_right]
  | cons a l ih =>
    rw [List.foldl_cons, List.foldl_cons] at h
    rw [List.pairwise_cons] at horth
    have hl := ih (fixRow i x D a) (rhsRow i t1 R a) (fun e he => hfree e (List.mem_cons_of_mem _ he))
      (fun e he => hunit e (List.mem_cons_of_mem _ he)) horth.2 h
    by_cases hi : a.i = i
    · by_cases hs : a.id = .slip
      · have hD : fixRow i x D a = (D - dot D a.normal • a.normal) + dot x a.normal • a.normal := by
          unfold fixRow; rw [if_pos hi, hs]
        have hR : rhsRow i t1 R a = R - dot R a.normal • a.normal := by
          unfold rhsRow; rw [if_pos hi, hs]
        rw [hD, hR] at hl
        have hn : dot a.normal a.normal = 1 := hunit a List.mem_cons_self hs
        have key : ∀ z : Vec dim, dot z ((D - dot D a.normal • a.normal) + dot x a.normal • a.normal -
            (R - dot R a.normal • a.normal)) =
            dot z (D - R) - dot (D - R) a.normal * dot z a.normal + dot x a.normal * dot z a.normal := by
          intro z
          simp only [dot_sub_right', dot_add_right', dot_smul_right', dot_sub_left']
          ring
        have hx : dot x a.normal = 0 := by
          have h1 := hl.2 a.normal fun e he hei hes => by
            exact horth.1 e he hi hei hs hes
          rw [key, hn, dot_comm' a.normal (D - R)] at h1
          linarith
        refine ⟨?_, ?_⟩
        · intro e he hei hes
          rcases List.mem_cons.1 he with rfl | he
          · exact hx
          · exact hl.1 e he hei hes
        · intro z hz
          have h1 := hl.2 z fun e he => hz e (List.mem_cons_of_mem _ he)
          rw [key, hz a List.mem_cons_self hi hs] at h1
          linarith
      · have hp := hfree a List.mem_cons_self hi
        have hD : fixRow i x D a = D := by
          unfold fixRow; rw [if_pos hi]
          unfold Prescribes at hp
          cases hid : a.id <;> simp_all
        have hR : rhsRow i t1 R a = R := by
          unfold rhsRow; rw [if_pos hi]
          unfold Prescribes at hp
          cases hid : a.id <;> simp_all
        rw [hD, hR] at hl
        refine ⟨?_, ?_⟩
        · intro e he hei hes
          rcases List.mem_cons.1 he with rfl | he
          · exact absurd hes hs
          · exact hl.1 e he hei hes
        · exact fun z hz => hl.2 z fun e he => hz e (List.mem_cons_of_mem _ he)
    · have hD : fixRow i x D a = D := by unfold fixRow; rw [if_neg hi]
      have hR : rhsRow i t1 R a = R := by unfold rhsRow; rw [if_neg hi]
      rw [hD, hR] at hl
      refine ⟨?_, ?_⟩
      · intro e he hei hes
        rcases List.mem_cons.1 he with rfl | he
        · exact absurd hei hi
        · exact hl.1 e he hei hes
      · exact fun z hz => hl.2 z fun e he => hz e (List.mem_cons_of_mem _ he)

theorem foldl_rhsRow_zero (i : ι) (t1 : ℝ) (bc : List (Entry ι dim))
    (h : ∀ e ∈ bc, e.i = i → e.id ≠ .dirichlet) : bc.foldl (rhsRow i t1) 0 = 0 := by
  induction bc with
  | nil => rfl
  | cons a l ih =>
    have : rhsRow i t1 0 a = 0 := by
      unfold rhsRow
      split_ifs with hi
      · have := h a List.mem_cons_self hi
        cases hid : a.id <;> simp_all [dot_zero_left]
      · rfl
    rw [List.foldl_cons, this, ih fun e he => h e (List.mem_cons_of_mem _ he)]

theorem foldl_rhsRow_noSlip (i : ι) (t1 : ℝ) (bc : List (Entry ι dim)) (R : Vec dim)
    (hd : ∀ e ∈ bc, e.i = i → e.id ≠ .dirichlet) (h : ∃ e ∈ bc, e.i = i ∧ e.id = .noSlip) :
    bc.foldl (rhsRow i t1) R = 0 := by
  induction bc generalizing R with
  | nil => obtain ⟨e, he, -⟩ := h; cases he
  | cons a l ih =>
    rw [List.foldl_cons]
    by_cases ha : a.i = i ∧ a.id = .noSlip
    · have : rhsRow i t1 R a = 0 := by unfold rhsRow; rw [if_pos ha.1, ha.2]
      rw [this, foldl_rhsRow_zero i t1 l fun e he => hd e (List.mem_cons_of_mem _ he)]
    · obtain ⟨e, he, hei⟩ := h
      rcases List.mem_cons.1 he with rfl | he
      · exact absurd hei ha
      · exact ih _ (fun e he => hd e (List.mem_cons_of_mem _ he)) ⟨e, he, hei⟩

/-! ## Rows of the energy system -/

open Classical in
/-- The effect of `energyBoundary` on row `i`. -/
def dirichletRow (i : ι) (t1 : ℝ) (x : ℝ) (e : Entry ι dim) : ℝ :=
  if e.i = i ∧ e.id = .dirichlet then internalEnergy (e.data t1) / density (e.data t1) else x

theorem foldl_energyBoundary (t1 : ℝ) (bc : List (Entry ι dim)) (x : ι → ℝ) (i : ι) :
    bc.foldl (energyBoundary t1) x i = bc.foldl (dirichletRow i t1) (x i) := by
  classical
  induction bc generalizing x with
  | nil => rfl
  | cons e l ih =>
    rw [List.foldl_cons, List.foldl_cons, ih]
    congr 1
    unfold energyBoundary dirichletRow
    by_cases h : e.i = i
    · subst h
      cases e.id <;> simp
    · cases e.id <;> simp [Function.update_of_ne (fun h' : i = e.i => h h'.symm), h]

theorem foldl_setup_energy (t1 : ℝ) (bc : List (Entry ι dim)) (s : Setup ι dim) (i : ι) :
    (bc.foldl (setupBoundary t1) s).energy i = bc.foldl (dirichletRow i t1) (s.energy i) := by
  classical
  induction bc generalizing s with
  | nil => rfl
  | cons e l ih =>
    rw [List.foldl_cons, List.foldl_cons, ih]
    congr 1
    unfold setupBoundary dirichletRow
    by_cases h : e.i = i
    · subst h
      cases e.id <;> simp
    · cases e.id <;> simp [Function.update_of_ne (fun h' : i = e.i => h h'.symm), h]

theorem foldl_dirichletRow_none (i : ι) (t1 : ℝ) (bc : List (Entry ι dim)) (x : ℝ)
    (h : ∀ e ∈ bc, e.i = i → e.id ≠ .dirichlet) : bc.foldl (dirichletRow i t1) x = x := by
  induction bc with
  | nil => rfl
  | cons e l ih =>
    rw [List.foldl_cons]
    have : dirichletRow i t1 x e = x := if_neg fun h' => h e List.mem_cons_self h'.1 h'.2
    rw [this, ih fun e he => h e (List.mem_cons_of_mem _ he)]

theorem foldl_dirichletRow_some (i : ι) (t1 : ℝ) (bc : List (Entry ι dim)) (x y : ℝ)
    (h : ∃ e ∈ bc, e.i = i ∧ e.id = .dirichlet) :
    bc.foldl (dirichletRow i t1) x = bc.foldl (dirichletRow i t1) y := by
  induction bc generalizing x y with
  | nil => obtain ⟨e, he, -⟩ := h; cases he
  | cons a l ih =>
    rw [List.foldl_cons, List.foldl_cons]
    by_cases ha : a.i = i ∧ a.id = .dirichlet
    · unfold dirichletRow; rw [if_pos ha, if_pos ha]
    · obtain ⟨e, he, hei⟩ := h
      rcases List.mem_cons.1 he with rfl | he
      · exact absurd hei ha
      · exact ih _ _ ⟨e, he, hei⟩

theorem foldl_fixEnergy_none (src : ι → ℝ) (bc : List (Entry ι dim)) (dst : ι → ℝ) (i : ι)
    (h : ∀ e ∈ bc, e.i = i → e.id ≠ .dirichlet) : bc.foldl (fixEnergy src) dst i = dst i := by
  classical
  induction bc generalizing dst with
  | nil => rfl
  | cons e l ih =>
    rw [List.foldl_cons, ih _ fun e he => h e (List.mem_cons_of_mem _ he)]
    have := h e List.mem_cons_self
    unfold fixEnergy
    by_cases hi : e.i = i
    · have := this hi
      cases hid : e.id <;> simp_all
    · cases e.id <;> simp [Function.update_of_ne (fun h' : i = e.i => hi h'.symm)]

theorem foldl_fixEnergy_some (src : ι → ℝ) (bc : List (Entry ι dim)) (dst : ι → ℝ) (i : ι)
    (h : ∃ e ∈ bc, e.i = i ∧ e.id = .dirichlet) : bc.foldl (fixEnergy src) dst i = src i := by
  classical
  have stay : ∀ (l : List (Entry ι dim)) (d : ι → ℝ), d i = src i → l.foldl (fixEnergy src) d i = src i := by
    intro l
    induction l with
    | nil => exact fun d hd => hd
    | cons e l ih =>
      intro d hd
      rw [List.foldl_cons]
      apply ih
      unfold fixEnergy
      by_cases hi : e.i = i
      · cases e.id <;> simp [hi, hd]
      · cases e.id <;> simp [Function.update_of_ne (fun h' : i = e.i => hi h'.symm), hd]
  induction bc generalizing dst with
  | nil => obtain ⟨e, he, -⟩ := h; cases he
  | cons a l ih =>
    rw [List.foldl_cons]
    by_cases ha : a.i = i ∧ a.id = .dirichlet
    · apply stay
      unfold fixEnergy
      rw [ha.2, ha.1]
      simp
    · obtain ⟨e, he, hei⟩ := h
      rcases List.mem_cons.1 he with rfl | he
      · exact absurd hei ha
      · exact ih _ ⟨e, he, hei⟩

/-! ## Solved systems -/

section Solved
variable [Fintype ι] [Fintype Q]

/-- The velocity system is solved. -/
def VelocitySolved (c : Config ι Q dim) (U : ι → State dim) (t tau : ℝ) (V : Field ι dim) : Prop :=
  velocityMatrix c.p c.fe c.m (densityVector c.fe U) c.bc tau V = (setup c.fe c.m c.bc U (t + tau)).rhs

/-- The energy system is solved. -/
def EnergySolved (c : Config ι Q dim) (U : ι → State dim) (t tau : ℝ) (V : Field ι dim) (e : ι → ℝ) : Prop :=
  energyMatrix c.fe c.m (densityVector c.fe U) c.bc (tau * c.p.kappa) e =
    energyRhs c.p c.fe c.m c.bc U (setup c.fe c.m c.bc U (t + tau)).energy V (t + tau) tau

theorem solve_exact {X : Type} (b : Bool) (gmg cg : Solver X) (h1 : Exact gmg) (h2 : Exact cg) (A : X → X) (x0 r x : X)
    (h : solve b gmg cg A x0 r = some x) : A x = r := by
  unfold solve at h
  split_ifs at h with hb hg hc hc
  · cases h; exact h1 A x0 r hg
  · cases h; exact h2 A _ r hc
  · cases h; exact h2 A _ r hc

theorem solve_keeps {α : Type} (constrained : ι → Prop) (b : Bool) (gmg cg : Solver (ι → α))
    (h1 : KeepsConstrained constrained gmg) (h2 : KeepsConstrained constrained cg)
    (A : (ι → α) → ι → α) (x0 r x : ι → α) (h : solve b gmg cg A x0 r = some x) (i : ι) (hi : constrained i) :
    x i = x0 i := by
  unfold solve at h
  split_ifs at h with hb hg hc hc
  · cases h; exact h1 A x0 r i hi
  · cases h; rw [h2 A _ r i hi, h1 A x0 r i hi]
  · cases h; exact h2 A _ r i hi

theorem velocity_row (c : Config ι Q dim) (U : ι → State dim) (t tau : ℝ) (V : Field ι dim)
    (hV : VelocitySolved c U t tau V) (i : ι) (hi : ¬ c.fe.constrained i) :
    c.bc.foldl (fixRow i (V i)) (fun d => c.m i * density (U i) * V i d + stressOp c.p c.fe tau V i d) =
      c.bc.foldl (rhsRow i (t + tau)) (fun d => c.m i * momentum (U i) d) := by
  have h := congrFun hV i
  unfold velocityMatrix at h
  rw [foldl_fixVelocity] at h
  have hr : (setup c.fe c.m c.bc U (t + tau)).rhs i =
      c.bc.foldl (rhsRow i (t + tau)) (fun d => c.m i * momentum (U i) d) := by
    unfold setup setZeroField
    dsimp only
    rw [if_neg hi, foldl_setup_rhs]
    rfl
  have hrho : densityVector c.fe U i = density (U i) := by
    unfold densityVector setZero; rw [if_neg hi]
  rw [hr, hrho] at h
  exact h

/-- The residual of the momentum equation without boundary conditions. -/
def momentumDefect (c : Config ι Q dim) (U : ι → State dim) (tau : ℝ) (V : Field ι dim) (i : ι) : Vec dim :=
  fun d => c.m i * density (U i) * V i d + stressOp c.p c.fe tau V i d - c.m i * momentum (U i) d

theorem velocity_row_free (c : Config ι Q dim) (hs : SlipCompatible c.bc) (U : ι → State dim) (t tau : ℝ)
    (V : Field ι dim) (hV : VelocitySolved c U t tau V) (i : ι) (hi : ¬ c.fe.constrained i)
    (hfree : ∀ e ∈ c.bc, e.i = i → ¬ Prescribes e) :
    (∀ e ∈ c.bc, e.i = i → e.id = .slip → dot (V i) e.normal = 0) ∧
      ∀ z : Vec dim, (∀ e ∈ c.bc, e.i = i → e.id = .slip → dot z e.normal = 0) →
        dot z (momentumDefect c U tau V i) = 0 :=
  row_key i (V i) (t + tau) c.bc _ _ hfree hs.unit
    (hs.orth i fun e he hei => ⟨fun h => hfree e he hei (Or.inl h), fun h => hfree e he hei (Or.inr h)⟩)
    (velocity_row c U t tau V hV i hi)

theorem velocity_row_prescribed (c : Config ι Q dim) (U : ι → State dim) (t tau : ℝ)
    (V : Field ι dim) (hV : VelocitySolved c U t tau V) (i : ι) (hi : ¬ c.fe.constrained i)
    (h : ∃ e ∈ c.bc, e.i = i ∧ Prescribes e) :
    V i = c.bc.foldl (rhsRow i (t + tau)) (fun d => c.m i * momentum (U i) d) := by
  rw [← velocity_row c U t tau V hV i hi, foldl_fixRow_prescribed i (V i) c.bc _ h]

theorem velocity_test (c : Config ι Q dim) (hs : SlipCompatible c.bc) (U : ι → State dim) (t tau : ℝ)
    (V : Field ι dim) (hV : VelocitySolved c U t tau V) (i : ι) (hi : ¬ c.fe.constrained i)
    (hd : ∀ e ∈ c.bc, e.i = i → e.id ≠ .dirichlet) : dot (V i) (momentumDefect c U tau V i) = 0 := by
  by_cases hn : ∃ e ∈ c.bc, e.i = i ∧ Prescribes e
  · have h1 := velocity_row_prescribed c U t tau V hV i hi hn
    have hn' : ∃ e ∈ c.bc, e.i = i ∧ e.id = .noSlip := by
      obtain ⟨e, he, hei, hp⟩ := hn
      exact ⟨e, he, hei, hp.resolve_right (hd e he hei)⟩
    rw [foldl_rhsRow_noSlip i (t + tau) c.bc _ hd hn'] at h1
    rw [h1, dot_zero_left]
  · push Not at hn
    obtain ⟨h1, h2⟩ := velocity_row_free c hs U t tau V hV i hi hn
    exact h2 (V i) h1

theorem stressOp_constrained (p : Params) (fe : Fe ι Q dim) (hfe : fe.Conforming) (tau : ℝ) (V : Field ι dim) (i : ι)
    (hi : fe.constrained i) : stressOp p fe tau V i = 0 := by
  funext d
  exact scatter_constrained fe hfe _ i hi

theorem energy_row (c : Config ι Q dim) (U : ι → State dim) (t tau : ℝ) (V : Field ι dim) (e : ι → ℝ)
    (he : EnergySolved c U t tau V e) (i : ι) (hi : ¬ c.fe.constrained i)
    (hd : ∀ b ∈ c.bc, b.i = i → b.id ≠ .dirichlet) :
    c.m i * density (U i) * e i + diffusionOp c.fe (tau * c.p.kappa) e i =
      c.m i * density (U i) * (internalEnergy (U i) / density (U i) + 1 / 2 * normSq (velocity (U i) - V i)) +
        tau * heating c.p c.fe V i := by
  have h := congrFun he i
  have hrho : densityVector c.fe U i = density (U i) := by
    unfold densityVector setZero; rw [if_neg hi]
  have hs : (setup c.fe c.m c.bc U (t + tau)).energy i = internalEnergy (U i) / density (U i) := by
    unfold setup setZero
    dsimp only
    rw [if_neg hi, foldl_setup_energy, foldl_dirichletRow_none i _ _ _ hd]
    rfl
  unfold energyMatrix energyRhs at h
  rw [foldl_fixEnergy_none _ _ _ _ hd] at h
  dsimp only at h
  unfold setZero at h
  rw [if_neg hi, foldl_energyBoundary, foldl_dirichletRow_none i _ _ _ hd, hs, hrho] at h
  exact h

theorem energy_row_dirichlet (c : Config ι Q dim) (U : ι → State dim) (t tau : ℝ) (V : Field ι dim) (e : ι → ℝ)
    (he : EnergySolved c U t tau V e) (i : ι) (hi : ¬ c.fe.constrained i)
    (hd : ∃ b ∈ c.bc, b.i = i ∧ b.id = .dirichlet) :
    e i = (setup c.fe c.m c.bc U (t + tau)).energy i := by
  have h := congrFun he i
  unfold energyMatrix energyRhs at h
  rw [foldl_fixEnergy_some _ _ _ _ hd] at h
  rw [h]
  unfold setup setZero
  dsimp only
  rw [if_neg hi, if_neg hi, foldl_setup_energy, foldl_energyBoundary]
  exact foldl_dirichletRow_some i _ _ _ _ hd

theorem diffusionOp_constrained (fe : Fe ι Q dim) (hfe : fe.Conforming) (factor : ℝ) (e : ι → ℝ) (i : ι)
    (hi : fe.constrained i) : diffusionOp fe factor e i = 0 := scatter_constrained fe hfe _ i hi

theorem heating_constrained (p : Params) (fe : Fe ι Q dim) (hfe : fe.Conforming) (V : Field ι dim) (i : ι)
    (hi : fe.constrained i) : heating p fe V i = 0 := scatter_constrained fe hfe _ i hi

end Solved

end

end NavierStokes
end Ryujin
