import Verif.Props.Balance
import Verif.Props.Runs
import Verif.Props.BoundaryMap
import Verif.Model.BoundaryFaces
import Mathlib.Tactic.FinCases

/-!
# C93: walls on assembled meshes and in complete runs
-/

namespace Ryujin

open scoped BigOperators

namespace Assembly

open Classical

variable {κ : Type} {n s nq nf nfq nn dim : ℕ} {F : FeData κ n s nq nf nfq nn dim}

/-- `∫ φ_k n` over the faces without neighbour. -/
noncomputable def boundaryMoment [Fintype κ] (F : FeData κ n s nq nf nfq nn dim) (k : Fin n) : Vec dim := fun d =>
  ∑ K, ∑ f, if (F.neighbor K f).isNone then ∑ q, F.faceJxW K f q * F.normal K f q d * basisTrace F k K f q else 0

theorem list_sum_apply {A : Type} (l : List A) (g : A → Vec dim) (d : Fin dim) :
    (l.map g).sum d = (l.map fun a => g a d).sum := by
  induction l with
  | nil => rfl
  | cons a t ih => simp only [List.map_cons, List.sum_cons]; rw [Pi.add_apply, ih]

theorem inPattern_symm (hG : F.Conforming) {k l : Fin n} (h : inPattern F k l) : inPattern F l k := by
  rcases h with ⟨K, hc⟩ | ⟨hd, K, f, K', f', hn, hc⟩
  · exact Or.inl ⟨K, couples_symm hc⟩
  · exact Or.inr ⟨hd, K', f', K, f, hG.back _ _ _ _ hn, couples_symm hc⟩

/-- **C93 (boundary normals).** On an assembled mesh the boundary normal `Σ_i c_ij` is the integral of `φ_j n` over the
boundary of the domain. -/
theorem C93_assembled_normal [Fintype κ] (hF : F.Consistent) (hG : F.Conforming) (ip : IncidenceParams)
    (below skip : Dof F → Dof F → Prop) (boundary : Dof F → Prop) (k : Dof F) :
    (assembled F ip below skip boundary).boundaryNormal k = boundaryMoment F k := by
  funext d
  have hout : ∀ l : Dof F, l ≠ k → ¬ inPattern F k l → cMatrix F l k d = 0 := by
    intro l _ hl
    have := (C87_stencil_complete hF ⟨0, 0, false, 0⟩ le_rfl l k (fun h => hl (inPattern_symm hG h))).2.2.1
    rw [this]; rfl
  have h1 : (assembled F ip below skip boundary).boundaryNormal k d = ∑ l, cMatrix F l k d * ones F l := by
    rw [← stencil_sum k (fun l => cMatrix F l k d) hout]
    show cMatrix F k k d + ((stencil F k).map fun l : Dof F => cMatrix F l k).sum d = _
    rw [list_sum_apply]
  have h2 : ∑ l, cMatrix F k l d * ones F l = 0 := by
    rw [← stencil_sum k (fun l => cMatrix F k l d) (fun l _ hl => by
      rw [(C87_stencil_complete hF ⟨0, 0, false, 0⟩ le_rfl k l hl).2.2.1]; rfl)]
    exact C87_row_sum hF k d
  have h3 : ∀ l, cMatrix F l k d = boundaryIntegral F k l d - cMatrix F k l d := by
    intro l
    have := congrFun (C87_integration_by_parts hG (k : Fin n) l) d
    rw [← this]
    show _ = cMatrix F k l d + cMatrix F l k d - cMatrix F k l d
    ring
  rw [h1]
  simp only [h3, sub_mul, Finset.sum_sub_distrib, h2, sub_zero]
  unfold boundaryIntegral boundaryMoment
  simp only [Finset.sum_mul]
  rw [Finset.sum_comm]
  refine Finset.sum_congr rfl fun K _ => ?_
  rw [Finset.sum_comm]
  refine Finset.sum_congr rfl fun f _ => ?_
  split_ifs
  · simp only [Finset.sum_mul]
    rw [Finset.sum_comm]
    refine Finset.sum_congr rfl fun q _ => ?_
    simp only [mul_assoc]
    rw [← Finset.mul_sum, ← Finset.mul_sum, ← Finset.mul_sum, basisTrace_unity hF, mul_one]
  · simp

/-- **C93 (flat walls).** A vector orthogonal to the normals of the boundary faces in the support of `φ_k` – for a flat wall
there is only one – is orthogonal to all `c_kl + c_lk`. -/
theorem C93_assembled_flat [Fintype κ] (hG : F.Conforming) (k l : Fin n) (m : Vec dim)
    (h : ∀ K f, F.neighbor K f = none → ∀ q, basisTrace F k K f q ≠ 0 → dot m (F.normal K f q) = 0) :
    dot m (cMatrix F k l + cMatrix F l k) = 0 := by
  rw [C87_integration_by_parts hG]
  unfold dot boundaryIntegral
  simp only [Finset.mul_sum]
  rw [Finset.sum_comm]
  refine Finset.sum_eq_zero fun K _ => ?_
  rw [Finset.sum_comm]
  refine Finset.sum_eq_zero fun f _ => ?_
  by_cases hf : (F.neighbor K f).isNone
  · simp only [hf, if_true, Finset.mul_sum]
    rw [Finset.sum_comm]
    refine Finset.sum_eq_zero fun q _ => ?_
    by_cases hb : basisTrace F k K f q = 0
    · simp [hb]
    · have := h K f (by simpa using hf) q hb
      unfold dot at this
      have e : ∑ d, m d * (F.faceJxW K f q * F.normal K f q d * basisTrace F k K f q * basisTrace F l K f q) =
          (∑ d, m d * F.normal K f q d) * (F.faceJxW K f q * basisTrace F k K f q * basisTrace F l K f q) := by
        rw [Finset.sum_mul]
        exact Finset.sum_congr rfl fun d _ => by ring
      rw [e, this, zero_mul]
  · simp [hf]

end Assembly

namespace BoundaryMap

open Classical

variable {κ : Type} {n s nq nf nfq nn dim : ℕ} {F : Assembly.FeData κ n s nq nf nfq nn dim}

theorem normalSum_append (l l' : List (Data dim)) : normalSum (l ++ l') = normalSum l + normalSum l' := by
  simp [normalSum]

theorem normalSum_flatMap {A : Type} (k : ℕ) (l : List A) (g : A → List (ℕ × Data dim)) :
    normalSum (entriesAt k (l.flatMap g)) = (l.map fun a => normalSum (entriesAt k (g a))).sum := by
  induction l with
  | nil => rfl
  | cons a t ih =>
    rw [List.flatMap_cons, entriesAt_append, normalSum_append, ih, List.map_cons, List.sum_cons]

theorem normalSum_filter {A : Type} (k : ℕ) (l : List A) (P : A → Bool) (key : A → ℕ) (dat : A → Data dim) :
    normalSum (entriesAt k ((l.filter P).map fun a => (key a, dat a))) =
      (l.map fun a => if P a ∧ key a = k then (dat a).normal else 0).sum := by
  induction l with
  | nil => rfl
  | cons a t ih =>
    rw [List.map_cons, List.sum_cons, ← ih]
    by_cases hP : P a
    · rw [List.filter_cons_of_pos hP, List.map_cons]
      by_cases hk : key a = k
      · rw [if_pos ⟨hP, hk⟩]
        simp [entriesAt, normalSum, hk]
      · rw [if_neg (fun h => hk h.2), zero_add]
        simp [entriesAt, hk]
    · rw [List.filter_cons_of_neg hP, if_neg (fun h => hP h.1), zero_add]

theorem sum_list_finRange (m : ℕ) (g : Fin m → Vec dim) : ((List.finRange m).map g).sum = ∑ a, g a := by
  rw [← List.ofFn_eq_map, List.sum_ofFn]

theorem sum_list_univ [Fintype κ] (cells : List κ) (hn : cells.Nodup) (hall : ∀ K, K ∈ cells) (g : κ → Vec dim) :
    (cells.map g).sum = ∑ K, g K := by
  rw [← List.sum_toFinset g hn]
  exact Finset.sum_congr (by ext K; simp [hall K]) fun _ _ => rfl

/-- **C93 (nodal normals).** If no constrained degree of freedom lives on the boundary, the contributions collected for
a degree of freedom sum up to `∫ φ_k n` over the boundary – with the quadrature of the assembly. -/
theorem C93_nodal_normals [Fintype κ] (hF : F.Consistent) (id : κ → Fin nf → ℕ) (position : κ → Fin s → Vec dim)
    (cells : List κ) (hn : cells.Nodup) (hall : ∀ K, K ∈ cells)
    (hcon : ∀ K f j, F.neighbor K f = none → F.supportOnFace j f → ¬ F.constrained (F.dofs K j))
    (k : Assembly.Dof F) :
    normalSum (entriesAt k.1.val (contributions F id position cells)) = Assembly.boundaryMoment F k := by
  unfold contributions
  rw [normalSum_flatMap, sum_list_univ cells hn hall]
  funext d
  rw [Finset.sum_apply]
  unfold Assembly.boundaryMoment
  refine Finset.sum_congr rfl fun K _ => ?_
  rw [normalSum_flatMap, sum_list_finRange, Finset.sum_apply]
  refine Finset.sum_congr rfl fun f _ => ?_
  unfold faceContributions
  by_cases hs : (F.neighbor K f).isSome
  · rw [if_pos hs, if_neg (by rw [Option.isNone_iff_eq_none]; intro h; simp [h] at hs)]
    rfl
  · have hnone : F.neighbor K f = none := by simpa using hs
    rw [if_neg hs, if_pos (by simp [hnone]), normalSum_filter, sum_list_finRange, Finset.sum_apply]
    have e : ∀ q, F.faceJxW K f q * F.normal K f q d * Assembly.basisTrace F k K f q =
        ∑ j, F.faceJxW K f q * F.normal K f q d * (Assembly.expand F (F.dofs K j) k * F.faceValue K f q j) := by
      intro q
      unfold Assembly.basisTrace
      rw [Finset.mul_sum]
    simp only [e]
    rw [Finset.sum_comm]
    refine Finset.sum_congr rfl fun j _ => ?_
    by_cases hj : F.supportOnFace j f
    · have hc := hcon K f j hnone hj
      by_cases hk : F.dofs K j = k.1
      · rw [if_pos ⟨by simp [hj, hc], by rw [hk]⟩]
        simp only [faceData]
        refine Finset.sum_congr rfl fun q _ => ?_
        rw [hk]
        unfold Assembly.expand
        rw [if_neg k.2, if_pos rfl]
        ring
      · rw [if_neg (fun h => hk (Fin.ext h.2)), Pi.zero_apply]
        refine (Finset.sum_eq_zero fun q _ => ?_).symm
        unfold Assembly.expand
        rw [if_neg hc, if_neg hk]
        ring
    · rw [if_neg (fun h => hj (by simpa using (of_decide_eq_true h.1).1)), Pi.zero_apply]
      refine (Finset.sum_eq_zero fun q _ => ?_).symm
      rw [hF.support K f q j hj]
      ring

/-- The contributions, collected by id. -/
theorem normalSum_ofId (l : List (Data dim)) (ids : List ℕ) (hn : ids.Nodup) (hall : ∀ c ∈ l, c.id ∈ ids) :
    (ids.map fun a => normalSum (ofId a l)).sum = normalSum l := by
  induction l with
  | nil =>
    have : ∀ a, normalSum (ofId a ([] : List (Data dim))) = 0 := fun a => by simp [ofId, normalSum]
    simp only [this]
    simp [normalSum]
  | cons c l ih =>
    have h1 := ih fun c hc => hall c (List.mem_cons_of_mem _ hc)
    have e : ∀ a, normalSum (ofId a (c :: l)) = (if c.id = a then c.normal else 0) + normalSum (ofId a l) := by
      intro a
      unfold ofId
      by_cases h : c.id = a
      · simp [h, normalSum]
      · simp [h]
    simp only [e]
    rw [List.sum_map_add, h1]
    have h2 : ∀ ids : List ℕ, ids.Nodup → c.id ∈ ids → (ids.map fun a => if c.id = a then c.normal else 0).sum = c.normal := by
      intro ids
      induction ids with
      | nil => intro _ h; cases h
      | cons a t iht =>
        intro hn hm
        rw [List.nodup_cons] at hn
        rw [List.map_cons, List.sum_cons]
        by_cases h : c.id = a
        · rw [if_pos h]
          have hz : (t.map fun a => if c.id = a then c.normal else 0).sum = 0 := by
            refine List.sum_eq_zero fun x hx => ?_
            obtain ⟨b, hb, rfl⟩ := List.mem_map.1 hx
            exact if_neg fun hb' : c.id = b => hn.1 (by rw [← h, hb']; exact hb)
          rw [hz, add_zero]
        · rw [if_neg h, zero_add]
          rcases List.mem_cons.1 hm with h' | h'
          · exact absurd h' h
          · exact iht hn.2 h'
    rw [h2 ids hn (hall c List.mem_cons_self)]
    simp [normalSum]

/-- **C93 (boundary map).** A vector that is orthogonal to the normals of all entries of the boundary map of a degree of
freedom is orthogonal to its boundary normal `∂n_k = ∫ φ_k n`: a state that satisfies the wall conditions of all its
entries lets nothing through.  (Contributions of the same id describe an angle of less than 60 degrees, and no constrained
degree of freedom lives on the boundary.) -/
theorem C93_boundary_map [Fintype κ] (hF : F.Consistent) (hG : F.Conforming) (ip : Assembly.IncidenceParams)
    (below skip : Assembly.Dof F → Assembly.Dof F → Prop) (boundary : Assembly.Dof F → Prop)
    (id : κ → Fin nf → ℕ) (position : κ → Fin s → Vec dim)
    (cells : List κ) (hn : cells.Nodup) (hall : ∀ K, K ∈ cells)
    (hcon : ∀ K f j, F.neighbor K f = none → F.supportOnFace j f → ¬ F.constrained (F.dofs K j))
    (eps : ℝ) (heps : 0 ≤ eps) (k : Assembly.Dof F)
    (hac : (entriesAt k.1.val (contributions F id position cells)).Pairwise fun c c' => c.id = c'.id →
      Acute c.normal c'.normal)
    (m : Vec dim)
    (hm : ∀ d ∈ entriesAt k.1.val (boundaryMap eps (contributions F id position cells)), dot m d.normal = 0) :
    dot m ((Assembly.assembled F ip below skip boundary).boundaryNormal k) = 0 := by
  obtain ⟨h1, h2, h3⟩ := C48_single_entry_partial eps heps (contributions F id position cells) k.1.val hac
  rw [Assembly.C93_assembled_normal hF hG, ← C93_nodal_normals hF id position cells hn hall hcon k,
    ← normalSum_ofId _ _ h1 fun c hc => by
      obtain ⟨d, hd, he⟩ := h2 c hc
      exact List.mem_map.2 ⟨d, hd, he⟩, List.map_map]
  have : ∀ l : List (Data dim), (∀ d ∈ l, dot m d.normal = 0 ∧
      d.normal_mass • d.normal = normalSum (ofId d.id (entriesAt k.1.val (contributions F id position cells)))) →
      dot m (l.map ((fun a => normalSum (ofId a (entriesAt k.1.val (contributions F id position cells)))) ∘ Data.id)).sum = 0 := by
    intro l
    induction l with
    | nil => intro _; simp [dot]
    | cons d t ih =>
      intro hl
      rw [List.map_cons, List.sum_cons, dot_add_right, ih fun d hd => hl d (List.mem_cons_of_mem _ hd)]
      obtain ⟨ha, hb⟩ := hl d List.mem_cons_self
      rw [Function.comp_apply, ← hb, dot_smul_right', ha, mul_zero, add_zero]
  exact this _ fun d hd => ⟨hm d hd, (h3 d hd).1⟩

end BoundaryMap

namespace Integrator

noncomputable section

open Slot Instr

variable {X P : Type} [AddCommGroup X] [Module ℝ X]

/-- A property `K` of vectors kept by all statements of a list, where the hyperbolic updates may rely on a property `J`
that holds after the boundary pass and on a property `T` of the stages. -/
theorem run_prepared {Mo : Modules X P} {K J : X → Prop} {T : List (ℝ × SV X P) → Prop} (ctx : Ctx) (t tau_max : ℝ)
    (hbc : ∀ t u, K u → K (Mo.bc t u) ∧ J (Mo.bc t u)) (hT : T [])
    (hhyp : ∀ n (src : SV X P) (st : List (ℝ × SV X P)) dst tau cap u τ, K src.U → J src.U → (∀ p ∈ st, J p.2.U) → T st →
      Mo.hyp ctx n src st dst tau cap = .ok u τ → K u)
    {code : List Instr}
    (hst : ∀ s st d, Instr.hyp s st d ∈ code → ∀ m, T (stageArgs m st))
    (hpar : ∀ s c st d f, Instr.par s c st d f ∈ code →
      ∀ n v t dst tau u τ, K v → Mo.par ctx n v t dst tau = .ok u τ → K u)
    (hadd : ∀ d a b s, Instr.sadd d a b s ∈ code → ∀ u v, K u → K v → K (a • u + b • v))
    {W Q : List Slot} (hv : Valid W Q code) {s s' : Conf X P} (h : ∀ v ∈ W, K (s.mem v).U) (hJ : ∀ v ∈ Q, J (s.mem v).U)
    (hs : run Mo ctx t tau_max code s = .done s') : ∀ v ∈ written code ++ W, K (s'.mem v).U := by
  induction code generalizing s W Q with
  | nil => simp only [run] at hs; cases hs; simpa [written] using h
  | cons i is ih =>
    have hst' : ∀ s st d, Instr.hyp s st d ∈ is → ∀ m, T (stageArgs m st) :=
      fun s st d hm => hst s st d (List.mem_cons_of_mem _ hm)
    have hpar' : ∀ s c st d f, Instr.par s c st d f ∈ is →
      ∀ n v t dst tau u τ, K v → Mo.par ctx n v t dst tau = .ok u τ → K u :=
      fun s c st d f hm => hpar s c st d f (List.mem_cons_of_mem _ hm)
    have hadd' : ∀ d a b s, Instr.sadd d a b s ∈ is → ∀ u v, K u → K v → K (a • u + b • v) :=
      fun d a b s hm => hadd d a b s (List.mem_cons_of_mem _ hm)
    have set : ∀ (d : Slot) (u : X), K u → ∀ v ∈ d :: W, K ((setU s.mem d u) v).U := by
      intro d u hu v hv
      by_cases hvd : v = d
      · simpa [hvd] using hu
      · simp only [List.mem_cons, hvd, false_or] at hv
        simpa [hvd] using h v hv
    have setJ : ∀ (d : Slot) (u : X), ∀ v ∈ Q.filter (· ≠ d), J ((setU s.mem d u) v).U := by
      intro d u v hv
      simp only [List.mem_filter, decide_eq_true_eq] at hv
      simpa [hv.2] using hJ v hv.1
    have mono : ∀ d, i.dst = d → (∀ v ∈ written is ++ (d :: W), K (s'.mem v).U) →
        ∀ v ∈ written (i :: is) ++ W, K (s'.mem v).U := by
      intro d hd hk v hv
      refine hk v ?_
      simp only [written, List.map_cons, hd, List.cons_append, List.mem_cons, List.mem_append] at hv ⊢
      tauto
    cases i with
    | prepare v c =>
      simp only [run, exec] at hs
      have := ih hst' hpar' hadd' hv.2 (s := ⟨_, s.tau, s.calls⟩) ?_ ?_ hs
      · intro w hw
        refine this w ?_
        simp only [written, List.map_cons, Instr.dst, List.cons_append, List.mem_cons, List.mem_append] at hw ⊢
        rcases hw with rfl | hw
        · exact Or.inr hv.1
        · exact hw
      · intro w hw
        by_cases hwv : w = v
        · simpa [hwv] using (hbc _ _ (h v hv.1)).1
        · simpa [hwv] using h w hw
      · intro w hw
        by_cases hwv : w = v
        · simpa [hwv] using (hbc _ _ (h v hv.1)).2
        · simp only [List.mem_cons, hwv, false_or] at hw
          simpa [hwv] using hJ w hw
    | first src d div =>
      simp only [run, exec] at hs
      have hk := hhyp s.calls (s.mem src) [] (s.mem d).U 0 (some (tau_max / div))
      generalize Mo.hyp _ _ _ _ _ _ _ = r at hs hk
      cases r with
      | ok u τ => exact mono d rfl (ih hst' hpar' hadd' hv.2.2
          (set d u (hk u τ (h _ hv.1) (hJ _ hv.2.1) (by simp) hT rfl)) (setJ d u) hs)
      | restart => simp [finish] at hs
      | crash => simp [finish] at hs
    | hyp src st d =>
      simp only [run, exec] at hs
      have hk := hhyp s.calls (s.mem src) (stageArgs s.mem st) (s.mem d).U s.tau none
      have hst1 : ∀ p ∈ stageArgs s.mem st, J p.2.U := by
        intro p hp
        simp only [stageArgs, List.mem_map] at hp
        obtain ⟨q, hq, rfl⟩ := hp
        exact hJ _ (hv.2.2.1 q hq).2
      generalize Mo.hyp _ _ _ _ _ _ _ = r at hs hk
      cases r with
      | ok u τ => exact mono d rfl (ih hst' hpar' hadd' hv.2.2.2
          (set d u (hk u τ (h _ hv.1) (hJ _ hv.2.1) hst1 (hst _ _ _ List.mem_cons_self _) rfl)) (setJ d u) hs)
      | restart => simp [finish] at hs
      | crash => simp [finish] at hs
    | par src c st d f =>
      simp only [run, exec] at hs
      split_ifs at hs
      have hk := hpar src c st d f List.mem_cons_self s.calls (s.mem src).U (t + c * s.tau) (s.mem d).U (f * s.tau)
      generalize Mo.par _ _ _ _ _ _ = r at hs hk
      cases r with
      | ok u τ => exact mono d rfl (ih hst' hpar' hadd' hv.2 (set d u (hk u τ (h _ hv.1) rfl)) (setJ d u) hs)
      | restart => simp [finish] at hs
      | crash => simp [finish] at hs
    | sadd d a b src =>
      simp only [run, exec] at hs
      have hk := hadd d a b src List.mem_cons_self _ _ (h d hv.1) (h src hv.2.1)
      have := ih hst' hpar' hadd' hv.2.2 (s := ⟨_, s.tau, s.calls⟩)
        (fun w hw => set d _ hk w (List.mem_cons_of_mem _ hw)) (setJ d _) hs
      intro w hw
      refine this w ?_
      simp only [written, List.map_cons, Instr.dst, List.cons_append, List.mem_cons, List.mem_append] at hw ⊢
      rcases hw with rfl | hw
      · exact Or.inr hv.1
      · exact hw

/-- The schemes whose updates use no earlier stages. -/
def stageFree (sch : Scheme) : Prop := sch = .erk_11 ∨ sch = .ssprk_22 ∨ sch = .ssprk_33

theorem stageFree_code {sch : Scheme} (h : stageFree sch) (s : Slot) (st : List (Slot × ℝ)) (d : Slot)
    (hm : Instr.hyp s st d ∈ (program sch).code) : st = [] := by
  rcases h with rfl | rfl | rfl <;> simp [program, erk11, ssprk22, ssprk33] at hm <;> tauto

/-- What the boundary pass does not change, and updates of vectors that went through the boundary pass conserve, has the
same value after every number of time steps.  `T` restricts the stages that may occur. -/
theorem run_walls_conserve (Mo : Modules X P) (φ : X →ₗ[ℝ] ℝ) (J : X → Prop) (T : List (ℝ × SV X P) → Prop) (hT : T [])
    (hbc : ∀ t u, φ (Mo.bc t u) = φ u ∧ J (Mo.bc t u))
    (hhyp : ∀ ctx n src st dst tau cap u τ, J src.U → (∀ p ∈ st, J p.2.U) → T st →
      Mo.hyp ctx n src st dst tau cap = .ok u τ → φ u = φ src.U)
    (hpar : ∀ ctx n v t dst tau u τ, Mo.par ctx n v t dst tau = .ok u τ → φ u = φ v)
    (sch : Scheme) (hsch : ∀ s st d, Instr.hyp s st d ∈ (program sch).code → ∀ m : Mem X P, T (stageArgs m st))
    (rec : Recovery) (cflMin cflMax : ℝ) (ok : Ctx → X → Prop) (m m' : Mem X P)
    (h : Run Mo sch rec cflMin cflMax ok m m') : φ (m' old).U = φ (m old).U := by
  have single : ∀ ctx t tau_max (m0 m2 : Mem X P) (k n : ℕ) tau,
      singleStep Mo (program sch) ctx t tau_max m0 k = .returned m2 tau n → φ (m2 old).U = φ (m0 old).U := by
    intro ctx t tau_max m0 m2 k n tau hs
    unfold singleStep at hs
    cases hr : run Mo ctx t tau_max (program sch).code ⟨m0, 0, k⟩ with
    | restart => rw [hr] at hs; simp at hs
    | crash => rw [hr] at hs; simp at hs
    | done s =>
      rw [hr] at hs
      simp only [Result.returned.injEq] at hs
      rw [← hs.1]
      refine run_prepared (K := fun u => φ u = φ (m0 old).U) (J := J) (T := T) ctx t tau_max ?_ hT ?_ hsch ?_ ?_
        (program_valid sch) (by simp) (by simp) hr _ (List.mem_append_left _ (program_result_written sch))
      · intro t u hu; exact ⟨by rw [(hbc t u).1, hu], (hbc t u).2⟩
      · intro n src st dst tau cap u τ h1 h2 h3 h4 h5; rw [hhyp _ _ _ _ _ _ _ _ _ h2 h3 h4 h5, h1]
      · intro _ _ _ _ _ _ n v t dst tau u τ h1 h2; rw [hpar _ _ _ _ _ _ _ _ h2, h1]
      · intro d a b s' hi u v hu hv
        have hab : a + b = 1 := program_affine sch _ hi
        rw [map_add, map_smul, map_smul, hu, hv, smul_eq_mul, smul_eq_mul, ← add_mul, hab, one_mul]
  induction h with
  | start => rfl
  | next prev call _ ih =>
    obtain ⟨m0, k, hs, h0⟩ := step_returned sch call
    rw [single _ _ _ _ _ _ _ _ hs, ← ih]
    rcases h0 with h0 | h0
    · rw [h0]
    · rw [h0, (hbc _ _).1]

/-- `Σ_i m_i φ(U_i)` as a linear functional of the state vector. -/
def total {ι S : Type} {dim : ℕ} [Fintype ι] [AddCommGroup S] [Module ℝ S] (M : Hyp.Mesh ι dim) (φ : S →ₗ[ℝ] ℝ) :
    (ι → S) →ₗ[ℝ] ℝ := ∑ i, M.lumped i • (φ.comp (LinearMap.proj i))

theorem total_apply {ι S : Type} {dim : ℕ} [Fintype ι] [AddCommGroup S] [Module ℝ S] (M : Hyp.Mesh ι dim) (φ : S →ₗ[ℝ] ℝ)
    (u : ι → S) : total M φ u = ∑ i, M.lumped i * φ (u i) := by
  simp only [total, LinearMap.sum_apply, LinearMap.smul_apply, LinearMap.comp_apply, LinearMap.proj_apply, smul_eq_mul]

/-- A momentum satisfies the wall conditions of all entries of node `j`. -/
def WallMomentum {ι Id : Type} {dim : ℕ} (slip noSlip : Id) (map : List (Prepare.Entry ι Id dim)) (j : ι) (m : Vec dim) :
    Prop :=
  ∀ e ∈ map, e.i = j → (e.id = slip → dot m e.normal = 0) ∧ (e.id = noSlip → m = 0)

/-- **C93 (Euler, complete runs).** A domain with slip and no-slip walls: every boundary node is a wall node, and momenta
that satisfy the wall conditions are orthogonal to the boundary normal (`C93_boundary_map`).  Then total mass and total
energy are the same after every number of forward Euler or strong stability preserving Runge-Kutta steps, whatever was
rejected and repeated. -/
theorem C93_euler_run_walls {ι : Type} {dim : ℕ} [Fintype ι] (p : Euler.Params) (lp : Ryujin.LimiterParams) (big big' : ℝ)
    (riem : ι → ι → Euler.State dim → Euler.State dim → Vec dim → ℝ)
    (ind : Euler.State dim → List (Euler.State dim × Vec dim) → ℝ → ℝ)
    (lim : ι → ι → Euler.Bounds → Euler.State dim → Euler.State dim → ℝ × Prop)
    (M : Hyp.Mesh ι dim) (hM : M.WellFormed) (hS : M.Symmetric) (hact : ∀ i, M.nbrs i ≠ [])
    (hd : ∀ dij u, Hyp.SymmetricViscosity (Euler.description p lp big riem ind lim) M dij ⟨u, ()⟩)
    (hrow : ∀ i, M.c i i + ((M.nbrs i).map (M.c i)).sum = 0)
    (data : Vec dim → ℝ → Euler.State dim) (map : List (Prepare.Entry ι Euler.Boundary dim))
    (hwall : ∀ j, Prepare.WallNode (Prepare.euler (dim := dim) p) .slip .noSlip (Prepare.entriesAt map j))
    (hnormal : ∀ j m, WallMomentum .slip .noSlip map j m → dot m (M.boundaryNormal j) = 0)
    (par : Hyp.Params) (lo : ℕ → Hyp.Leftover ι (Euler.State dim)) (garbage : ℕ → ι → Euler.State dim)
    (sch : Scheme) (hsch : stageFree sch) (rec : Recovery) (cflMin cflMax : ℝ) (ok : Ctx → (ι → Euler.State dim) → Prop)
    (m m' : Mem (ι → Euler.State dim) Unit)
    (h : Run (hyperbolicModules (Euler.description p lp big riem ind lim) M par big' (passBc (Prepare.euler p) data map)
      (fun _ => ()) lo garbage fun _ _ _ _ _ _ => .crash) sch rec cflMin cflMax ok m m') :
    ∑ i, M.lumped i * Euler.density ((m' old).U i) = ∑ i, M.lumped i * Euler.density ((m old).U i) ∧
    ∑ i, M.lumped i * Euler.totalEnergy ((m' old).U i) = ∑ i, M.lumped i * Euler.totalEnergy ((m old).U i) := by
  have hbc : ∀ t u i, Euler.density (passBc (Prepare.euler p) data map t u i) = Euler.density (u i) ∧
      Euler.totalEnergy (passBc (Prepare.euler p) data map t u i) = Euler.totalEnergy (u i) ∧
      dot (Euler.momentum (passBc (Prepare.euler p) data map t u i)) (M.boundaryNormal i) = 0 := by
    intro t u i
    obtain ⟨V, hV, h1, -⟩ := Prepare.C88_euler p data t map u
    obtain ⟨a, b, c, d, -⟩ := h1 i (hwall i)
    unfold passBc
    rw [hV, Option.getD_some]
    exact ⟨c, d, hnormal i _ fun e he hi => ⟨a e he hi, b e he hi⟩⟩
  have key : ∀ φ : Euler.State dim →ₗ[ℝ] ℝ, (φ = LinearMap.proj 0 ∨ φ = LinearMap.proj (Fin.last (dim + 1))) →
      total M φ (m' old).U = total M φ (m old).U := by
    intro φ hφ
    refine run_walls_conserve _ (total M φ) (fun u => ∀ i, dot (Euler.momentum (u i)) (M.boundaryNormal i) = 0)
      (fun st => st = []) rfl ?_ ?_ ?_ sch (fun s st d hm _ => by rw [stageFree_code hsch s st d hm]; rfl)
      rec cflMin cflMax ok m m' h
    · intro t u
      refine ⟨?_, fun i => (hbc t u i).2.2⟩
      rw [total_apply, total_apply]
      refine Finset.sum_congr rfl fun i _ => ?_
      rcases hφ with rfl | rfl
      · exact congrArg _ (hbc t u i).1
      · exact congrArg _ (hbc t u i).2.1
    · intro ctx n src st dst tau cap u τ hJ _ hst h
      subst hst
      have hs := hyp_ok h
      obtain ⟨h1, h2, -⟩ := C93_euler_walls p lp big riem ind lim M hM hS hact _ _ _ _ ⟨src.U, src.prec⟩ _ _
        (hd _ _) hrow hJ u τ hs
      rw [total_apply, total_apply]
      rcases hφ with rfl | rfl
      · exact h1
      · exact h2
    · intro ctx n v t dst tau u τ h
      simp [hyperbolicModules] at h
  have k0 := key _ (Or.inl rfl)
  have k1 := key _ (Or.inr rfl)
  rw [total_apply, total_apply] at k0 k1
  exact ⟨k0, k1⟩

/-- **C93 (Euler, complete runs, flat walls).** If momenta that satisfy the wall conditions are orthogonal to all
`c_ij + c_ji`, the same holds for all explicit schemes. -/
theorem C93_euler_run_flat_walls {ι : Type} {dim : ℕ} [Fintype ι] (p : Euler.Params) (lp : Ryujin.LimiterParams) (big big' : ℝ)
    (riem : ι → ι → Euler.State dim → Euler.State dim → Vec dim → ℝ)
    (ind : Euler.State dim → List (Euler.State dim × Vec dim) → ℝ → ℝ)
    (lim : ι → ι → Euler.Bounds → Euler.State dim → Euler.State dim → ℝ × Prop)
    (M : Hyp.Mesh ι dim) (hM : M.WellFormed) (hS : M.Symmetric) (hact : ∀ i, M.nbrs i ≠ [])
    (hd : ∀ dij u, Hyp.SymmetricViscosity (Euler.description p lp big riem ind lim) M dij ⟨u, ()⟩)
    (data : Vec dim → ℝ → Euler.State dim) (map : List (Prepare.Entry ι Euler.Boundary dim))
    (hwall : ∀ j, Prepare.WallNode (Prepare.euler (dim := dim) p) .slip .noSlip (Prepare.entriesAt map j))
    (hflat : ∀ i m, WallMomentum .slip .noSlip map i m → ∀ j ∈ M.columns i, dot m (M.c i j + M.c j i) = 0)
    (par : Hyp.Params) (lo : ℕ → Hyp.Leftover ι (Euler.State dim)) (garbage : ℕ → ι → Euler.State dim)
    (sch : Scheme) (rec : Recovery) (cflMin cflMax : ℝ) (ok : Ctx → (ι → Euler.State dim) → Prop)
    (m m' : Mem (ι → Euler.State dim) Unit)
    (h : Run (hyperbolicModules (Euler.description p lp big riem ind lim) M par big' (passBc (Prepare.euler p) data map)
      (fun _ => ()) lo garbage fun _ _ _ _ _ _ => .crash) sch rec cflMin cflMax ok m m') :
    ∑ i, M.lumped i * Euler.density ((m' old).U i) = ∑ i, M.lumped i * Euler.density ((m old).U i) ∧
    ∑ i, M.lumped i * Euler.totalEnergy ((m' old).U i) = ∑ i, M.lumped i * Euler.totalEnergy ((m old).U i) := by
  have hbc : ∀ t u i, Euler.density (passBc (Prepare.euler p) data map t u i) = Euler.density (u i) ∧
      Euler.totalEnergy (passBc (Prepare.euler p) data map t u i) = Euler.totalEnergy (u i) ∧
      ∀ j ∈ M.columns i, dot (Euler.momentum (passBc (Prepare.euler p) data map t u i)) (M.c i j + M.c j i) = 0 := by
    intro t u i
    obtain ⟨V, hV, h1, -⟩ := Prepare.C88_euler p data t map u
    obtain ⟨a, b, c, d, -⟩ := h1 i (hwall i)
    unfold passBc
    rw [hV, Option.getD_some]
    exact ⟨c, d, hflat i _ fun e he hi => ⟨a e he hi, b e he hi⟩⟩
  have key : ∀ φ : Euler.State dim →ₗ[ℝ] ℝ, (φ = LinearMap.proj 0 ∨ φ = LinearMap.proj (Fin.last (dim + 1))) →
      total M φ (m' old).U = total M φ (m old).U := by
    intro φ hφ
    refine run_walls_conserve _ (total M φ) (fun u => PairImpermeable M fun i => Euler.momentum (u i))
      (fun _ => True) trivial ?_ ?_ ?_ sch (fun _ _ _ _ _ => trivial) rec cflMin cflMax ok m m' h
    · intro t u
      refine ⟨?_, fun i => (hbc t u i).2.2⟩
      rw [total_apply, total_apply]
      refine Finset.sum_congr rfl fun i _ => ?_
      rcases hφ with rfl | rfl
      · exact congrArg _ (hbc t u i).1
      · exact congrArg _ (hbc t u i).2.1
    · intro ctx n src st dst tau cap u τ hJ hJs _ h
      have hs := hyp_ok h
      obtain ⟨h1, h2⟩ := C93_euler_flat_walls p lp big riem ind lim M hM hS hact _ _ _ _ ⟨src.U, src.prec⟩ _ _ _
        (hd _ _) hJ (fun s hs => by
          obtain ⟨q, hq, rfl⟩ := List.mem_map.1 hs
          exact hJs q hq) u τ hs
      rw [total_apply, total_apply]
      rcases hφ with rfl | rfl
      · exact h1
      · exact h2
    · intro ctx n v t dst tau u τ h
      simp [hyperbolicModules] at h
  have k0 := key _ (Or.inl rfl)
  have k1 := key _ (Or.inr rfl)
  rw [total_apply, total_apply] at k0 k1
  exact ⟨k0, k1⟩

/-- **C93 (shallow water, complete runs, flat walls).** The total water volume is the same after every number of time
steps of every explicit scheme, for every bathymetry. -/
theorem C93_sw_run_flat_walls {ι : Type} {dim : ℕ} [Fintype ι] (q : ShallowWater.StepParams) (Z : ι → ℝ) (big : ℝ)
    (lim : ι → ι → ShallowWater.Bounds → ShallowWater.State dim → ShallowWater.State dim → ℝ × Prop)
    (M : Hyp.Mesh ι dim) (hM : M.WellFormed) (hS : M.Symmetric) (hact : ∀ i, M.nbrs i ≠ [])
    (hskew : ∀ i, ∀ j ∈ M.nbrs i, ¬ (M.boundary i ∧ M.boundary j) → M.c j i = -M.c i j)
    (data : Vec dim → ℝ → ShallowWater.State dim) (map : List (Prepare.Entry ι ShallowWater.Boundary dim))
    (hwall : ∀ j, Prepare.WallNode (Prepare.shallowWater (dim := dim) q.p) .slip .noSlip (Prepare.entriesAt map j))
    (hflat : ∀ i m, WallMomentum .slip .noSlip map i m → ∀ j ∈ M.columns i, dot m (M.c i j + M.c j i) = 0)
    (par : Hyp.Params) (lo : ℕ → Hyp.Leftover ι (ShallowWater.State dim)) (garbage : ℕ → ι → ShallowWater.State dim)
    (sch : Scheme) (rec : Recovery) (cflMin cflMax : ℝ) (ok : Ctx → (ι → ShallowWater.State dim) → Prop)
    (m m' : Mem (ι → ShallowWater.State dim) Unit)
    (h : Run (hyperbolicModules (ShallowWater.description q Z lim) M par big (passBc (Prepare.shallowWater q.p) data map)
      (fun _ => ()) lo garbage fun _ _ _ _ _ _ => .crash) sch rec cflMin cflMax ok m m') :
    ∑ i, M.lumped i * ShallowWater.waterDepth ((m' old).U i) =
      ∑ i, M.lumped i * ShallowWater.waterDepth ((m old).U i) := by
  have hbc : ∀ t u i, ShallowWater.waterDepth (passBc (Prepare.shallowWater q.p) data map t u i) =
        ShallowWater.waterDepth (u i) ∧ ∀ j ∈ M.columns i,
      dot (ShallowWater.momentum (passBc (Prepare.shallowWater q.p) data map t u i)) (M.c i j + M.c j i) = 0 := by
    intro t u i
    obtain ⟨V, hV⟩ : ∃ V, Prepare.boundaryPass (Prepare.shallowWater q.p) data t map u = some V := by
      clear hwall hflat h
      unfold Prepare.boundaryPass
      induction map generalizing u with
      | nil => exact ⟨u, rfl⟩
      | cons e l ih =>
        rw [List.foldlM_cons]
        have : ∃ W, Prepare.boundaryStep (Prepare.shallowWater q.p) data t u e = some W := by
          unfold Prepare.boundaryStep Prepare.applyEntry Prepare.shallowWater
          dsimp only
          split_ifs <;> exact ⟨_, rfl⟩
        obtain ⟨W, hW⟩ := this
        rw [hW]
        exact ih W
    obtain ⟨h1, -, -⟩ := Prepare.C88_shallow_water q.p data t map u V hV
    obtain ⟨a, b, c, -, -⟩ := h1 i (hwall i)
    unfold passBc
    rw [hV, Option.getD_some]
    exact ⟨c, hflat i _ fun e he hi => ⟨a e he hi, b e he hi⟩⟩
  have key : total M (LinearMap.proj 0) (m' old).U = total M (LinearMap.proj 0) (m old).U := by
    refine run_walls_conserve _ (total M (LinearMap.proj 0)) (fun u => PairImpermeable M fun i => ShallowWater.momentum (u i))
      (fun _ => True) trivial ?_ ?_ ?_ sch (fun _ _ _ _ _ => trivial) rec cflMin cflMax ok m m' h
    · intro t u
      refine ⟨?_, fun i => (hbc t u i).2⟩
      rw [total_apply, total_apply]
      exact Finset.sum_congr rfl fun i _ => congrArg _ (hbc t u i).1
    · intro ctx n src st dst tau cap u τ hJ hJs _ h
      have hs := hyp_ok h
      have := C93_sw_flat_walls q Z lim M hM hS hact _ _ _ _ ⟨src.U, src.prec⟩ _ _ _ hskew hJ (fun s hs => by
          obtain ⟨q, hq, rfl⟩ := List.mem_map.1 hs
          exact hJs q hq) u τ hs
      rw [total_apply, total_apply]
      exact this
    · intro ctx n v t dst tau u τ h
      simp [hyperbolicModules] at h
  rw [total_apply, total_apply] at key
  exact key

end

end Integrator


/-! ### Examples -/

namespace Hyp

/-- Linear elements on an interval with two cells. -/
noncomputable def interval : Mesh (Fin 3) 1 where
  nbrs := fun i => if i = 0 then [1] else if i = 1 then [0, 2] else [1]
  below := fun i j => j < i
  skip := fun _ _ => False
  boundary := fun i => i ≠ 1
  c := fun i j => fun _ => if i = j then (if i = 0 then -1 / 2 else if i = 1 then 0 else 1 / 2)
    else if j.val = i.val + 1 then 1 / 2 else if i.val = j.val + 1 then -1 / 2 else 0
  mass := fun i j => if i = j then (if i = 1 then 2 / 3 else 1 / 3) else 1 / 6
  massInv := fun _ _ => 0
  lumped := fun i => if i = 1 then 1 else 1 / 2
  incidence := fun _ _ => 0
  dG := false
  omega := 2

theorem interval_wf : interval.WellFormed := by
  refine ⟨fun i => ?_, fun i => ?_, fun i j h => ?_, fun i j h h' => lt_asymm h h', fun i j h => h.elim⟩
  · fin_cases i <;> simp [interval]
  · fin_cases i <;> simp [interval]
  · fin_cases i <;> fin_cases j <;> simp [interval] at h ⊢

theorem interval_symmetric : interval.Symmetric := by
  refine ⟨fun i j _ => ?_, fun i j _ => rfl, fun i j _ => rfl, fun i => ?_⟩
  · fin_cases i <;> fin_cases j <;> simp [interval]
  · fin_cases i <;> simp [interval]

theorem interval_act (i : Fin 3) : interval.nbrs i ≠ [] := by fin_cases i <;> simp [interval]

theorem interval_row (i : Fin 3) : interval.c i i + ((interval.nbrs i).map (interval.c i)).sum = 0 := by
  funext k
  fin_cases i <;> simp [interval] <;> norm_num

theorem interval_skew (i j : Fin 3) (h : j ∈ interval.nbrs i) : interval.c j i = -interval.c i j := by
  funext k
  fin_cases i <;> fin_cases j <;> simp [interval] at h ⊢ <;> norm_num

theorem interval_one_rank (i j : Fin 3) (h : j ∈ interval.nbrs i) : interval.below i j ∨ interval.below j i := by
  fin_cases i <;> fin_cases j <;> simp [interval] at h ⊢

theorem interval_normal (j : Fin 3) : interval.boundaryNormal j = fun _ => ![-1, 0, 1] j := by
  funext k
  fin_cases j <;> simp [interval, Mesh.boundaryNormal] <;> norm_num

/-- The hypotheses of the balance law are met: Burgers' equation on an interval with inflow and outflow; the flux through
the boundary is that of the end points. -/
example : ∃ U t, (step demo interval demoPar .warn ⟨0, 0⟩ demoLo demoOld [] 0 10).1 = .done U t ∧ 0 < t ∧
    ∑ i, interval.lumped i * U i 0 = ∑ i, interval.lumped i * demoOld.U i 0 - t * (3 ^ 2 / 2 - 1 ^ 2 / 2) := by
  classical
  have h1 := C11_step_tau demo interval demoPar .warn ⟨0, 0⟩ demoLo demoOld [] 0 10
    (by norm_num [demoPar]) (by norm_num [demoPar]) interval_symmetric.lumped (by norm_num)
  obtain ⟨U, t, h⟩ := C18_warn_returns demo interval demoPar ⟨0, 0⟩ demoLo demoOld [] 0 10 h1.1
  refine ⟨U, t, h, ?_, ?_⟩
  · rw [h1.2.2 U t h, if_pos rfl]; exact h1.1
  · have key := C93_scalar_balance (Scalar.burgers 1 (1 / 1000)) ⟨⟨false, false⟩, 1, 0, 1 / 1000, 100, 0⟩ (fun _ _ => [])
      (fun _ _ => rfl) (fun _ _ b U P => (Scalar.limitLane 0 (1 / 1000) b U P 0 1, Scalar.inBounds 0 b (Scalar.state U)))
      interval interval_wf interval_symmetric interval_act demoPar .warn ⟨0, 0⟩ demoLo demoOld 0 10
      (fun i j hj _ => interval_skew i j hj) interval_row U t h
    rw [key]
    congr 2
    rw [Fin.sum_univ_three, interval_normal, interval_normal, interval_normal]
    simp [dot, Scalar.fluxFunction, Scalar.burgers, demoOld]
    norm_num

end Hyp

namespace Integrator

open Hyp

/-- A tube closed by slip walls. -/
noncomputable def tube : List (Prepare.Entry (Fin 3) Euler.Boundary 1) :=
  [⟨0, fun _ => -1, .slip, 0⟩, ⟨2, fun _ => 1, .slip, fun _ => 2⟩]

theorem tube_wall (p : Euler.Params) (j : Fin 3) :
    Prepare.WallNode (Prepare.euler (dim := 1) p) .slip .noSlip (Prepare.entriesAt tube j) := by
  refine ⟨fun e he => ?_, fun e he _ => ?_, fun e he e' he' _ _ => ?_⟩ <;>
    simp only [Prepare.entriesAt, tube, List.mem_filter, List.mem_cons, List.not_mem_nil, or_false, decide_eq_true_eq] at *
  · rcases he.1 with h | h <;> simp [h]
  · rcases he.1 with h | h <;> simp [h, normSq]
  · obtain ⟨h1 | h1, rfl⟩ := he <;> obtain ⟨h2 | h2, h3⟩ := he' <;> subst h1 <;> subst h2 <;> simp_all

theorem tube_momentum (j : Fin 3) (m : Vec 1) (h : WallMomentum .slip .noSlip tube j m) (hj : j ≠ 1) : m = 0 := by
  funext k
  have : k = 0 := Subsingleton.elim _ _
  subst this
  fin_cases j
  · have := (h _ List.mem_cons_self rfl).1 rfl
    simpa [dot] using this
  · exact absurd rfl hj
  · have := (h _ (List.mem_cons_of_mem _ List.mem_cons_self) rfl).1 rfl
    simpa [dot] using this

/-- The hypotheses are met: any gas in a tube closed by slip walls. -/
example (m : Mem (Fin 3 → Euler.State 1) Unit) (lo : ℕ → Leftover (Fin 3) (Euler.State 1))
    (garbage : ℕ → Fin 3 → Euler.State 1) (data : Vec 1 → ℝ → Euler.State 1) : ∃ m' ok,
    Run (hyperbolicModules (Euler.description Euler.air Euler.ringLp 1000 Euler.ringRiem (fun _ _ _ => 1) Euler.ringLim)
      interval demoPar 1000 (passBc (Prepare.euler Euler.air) data tube) (fun _ => ()) lo garbage fun _ _ _ _ _ _ => .crash)
      .erk_11 .none 1 1 ok m m' ∧
    ∑ i, interval.lumped i * Euler.density ((m' .old).U i) = ∑ i, interval.lumped i * Euler.density ((m .old).U i) ∧
    ∑ i, interval.lumped i * Euler.totalEnergy ((m' .old).U i) = ∑ i, interval.lumped i * Euler.totalEnergy ((m .old).U i) := by
  set D := Euler.description Euler.air Euler.ringLp 1000 Euler.ringRiem (fun _ _ _ => 1) Euler.ringLim with hD
  set Mo := hyperbolicModules D interval demoPar 1000 (passBc (Prepare.euler Euler.air) data tube) (fun _ => ()) lo garbage
    (fun _ _ _ _ _ _ => .crash) with hMo
  obtain ⟨U, t, h⟩ := C18_warn_returns D interval ⟨1 / 2, demoPar.tiny, demoPar.iterations⟩ ⟨0, 0⟩
    { lo 0 with newU := (m (.temp 0)).U } ⟨Mo.bc 0 (m .old).U, ()⟩ [] 0 10
    (C11_step_tau D interval ⟨1 / 2, demoPar.tiny, demoPar.iterations⟩ .warn ⟨0, 0⟩
      { lo 0 with newU := (m (.temp 0)).U } ⟨Mo.bc 0 (m .old).U, ()⟩ [] 0 10
      (by norm_num [demoPar]) (by norm_num) interval_symmetric.lumped (by norm_num)).1
  have hup : Mo.hyp ⟨1 / 2, .warn, .warn⟩ 0 ⟨Mo.bc 0 (m .old).U, Mo.pre (Mo.bc 0 (m .old).U)⟩ [] (m (.temp 0)).U 0
      (some (10 - 0)) = .ok U t := by
    simp only [hMo, hyperbolicModules] at h ⊢
    simp only [sub_zero, Option.getD_some, List.map_nil, h]
  obtain ⟨m', hrun, -⟩ := run_of_update (ok := fun _ _ => True) 1 1 hup (fun _ _ => trivial)
  refine ⟨m', _, hrun, ?_⟩
  refine C93_euler_run_walls Euler.air Euler.ringLp 1000 1000 Euler.ringRiem (fun _ _ _ => 1) Euler.ringLim interval interval_wf
    interval_symmetric interval_act (fun _ _ => .of_one_rank interval_wf interval_one_rank) interval_row data tube
    (tube_wall _) ?_ demoPar lo garbage .erk_11 (Or.inl rfl) .none 1 1 _ m m' hrun
  · intro j v hv
    by_cases hj : j = 1
    · subst hj; rw [interval_normal]; simp [dot]
    · rw [tube_momentum j v hv hj]; simp [dot]

/-- All explicit schemes: the two ends of the tube are flat walls. -/
example (m m' : Mem (Fin 3 → Euler.State 1) Unit) (lo : ℕ → Leftover (Fin 3) (Euler.State 1))
    (garbage : ℕ → Fin 3 → Euler.State 1) (data : Vec 1 → ℝ → Euler.State 1) (sch : Scheme) (rec : Recovery)
    (ok : Ctx → (Fin 3 → Euler.State 1) → Prop)
    (h : Run (hyperbolicModules (Euler.description Euler.air Euler.ringLp 1000 Euler.ringRiem (fun _ _ _ => 1) Euler.ringLim)
      interval demoPar 1000 (passBc (Prepare.euler Euler.air) data tube) (fun _ => ()) lo garbage fun _ _ _ _ _ _ => .crash)
      sch rec 1 1 ok m m') :
    ∑ i, interval.lumped i * Euler.density ((m' .old).U i) = ∑ i, interval.lumped i * Euler.density ((m .old).U i) := by
  refine (C93_euler_run_flat_walls Euler.air Euler.ringLp 1000 1000 Euler.ringRiem (fun _ _ _ => 1) Euler.ringLim interval
    interval_wf interval_symmetric interval_act (fun _ _ => .of_one_rank interval_wf interval_one_rank) data tube
    (tube_wall _) ?_ demoPar lo garbage sch rec 1 1 _ m m' h).1
  intro i v hv j hj
  by_cases hi : i = 1
  · subst hi
    have : interval.c 1 j + interval.c j 1 = 0 := by
      funext k
      fin_cases j <;> simp [interval] <;> norm_num
    rw [this]; simp [dot]
  · rw [tube_momentum i v hv hi]; simp [dot]

/-- A basin closed by slip walls. -/
noncomputable def basin : List (Prepare.Entry (Fin 3) ShallowWater.Boundary 1) :=
  [⟨0, fun _ => -1, .slip, 0⟩, ⟨2, fun _ => 1, .slip, fun _ => 2⟩]

theorem basin_wall (p : ShallowWater.Params) (j : Fin 3) :
    Prepare.WallNode (Prepare.shallowWater (dim := 1) p) .slip .noSlip (Prepare.entriesAt basin j) := by
  refine ⟨fun e he => ?_, fun e he _ => ?_, fun e he e' he' _ _ => ?_⟩ <;>
    simp only [Prepare.entriesAt, basin, List.mem_filter, List.mem_cons, List.not_mem_nil, or_false, decide_eq_true_eq] at *
  · rcases he.1 with h | h <;> simp [h]
  · rcases he.1 with h | h <;> simp [h, normSq]
  · obtain ⟨h1 | h1, rfl⟩ := he <;> obtain ⟨h2 | h2, h3⟩ := he' <;> subst h1 <;> subst h2 <;> simp_all

theorem basin_momentum (j : Fin 3) (m : Vec 1) (h : WallMomentum .slip .noSlip basin j m) (hj : j ≠ 1) : m = 0 := by
  funext k
  have : k = 0 := Subsingleton.elim _ _
  subst this
  fin_cases j
  · have := (h _ List.mem_cons_self rfl).1 rfl
    simpa [dot] using this
  · exact absurd rfl hj
  · have := (h _ (List.mem_cons_of_mem _ List.mem_cons_self) rfl).1 rfl
    simpa [dot] using this

/-- The hypotheses are met: water in a basin with an island, all explicit schemes. -/
example (m m' : Mem (Fin 3 → ShallowWater.State 1) Unit) (lo : ℕ → Leftover (Fin 3) (ShallowWater.State 1))
    (garbage : ℕ → Fin 3 → ShallowWater.State 1) (data : Vec 1 → ℝ → ShallowWater.State 1) (sch : Scheme) (rec : Recovery)
    (ok : Ctx → (Fin 3 → ShallowWater.State 1) → Prop)
    (h : Run (hyperbolicModules (ShallowWater.description ShallowWater.runupParams ShallowWater.lakeZ ShallowWater.runupLim)
      interval demoPar 1000 (passBc (Prepare.shallowWater ShallowWater.runupParams.p) data basin) (fun _ => ()) lo garbage
      fun _ _ _ _ _ _ => .crash) sch rec 1 1 ok m m') :
    ∑ i, interval.lumped i * ShallowWater.waterDepth ((m' .old).U i) =
      ∑ i, interval.lumped i * ShallowWater.waterDepth ((m .old).U i) := by
  refine C93_sw_run_flat_walls ShallowWater.runupParams ShallowWater.lakeZ 1000 ShallowWater.runupLim interval
    interval_wf interval_symmetric interval_act (fun i j hj _ => interval_skew i j hj) data basin
    (basin_wall _) ?_ demoPar lo garbage sch rec 1 1 _ m m' h
  intro i v hv j hj
  by_cases hi : i = 1
  · subst hi
    have : interval.c 1 j + interval.c j 1 = 0 := by
      funext k
      fin_cases j <;> simp [interval] <;> norm_num
    rw [this]; simp [dot]
  · rw [basin_momentum i v hv hi]; simp [dot]

end Integrator

namespace BoundaryMap

open Assembly

/-- The hypotheses are met: discontinuous elements on an interval, the normals at the end points. -/
example (id : Fin 2 → Fin 2 → ℕ) (position : Fin 2 → Fin 2 → Vec 1) (ip : IncidenceParams)
    (below skip : Dof intervalFe → Dof intervalFe → Prop) (boundary : Dof intervalFe → Prop) :
    (assembled intervalFe ip below skip boundary).boundaryNormal ⟨0, by simp [intervalFe]⟩ = (fun _ => -1) ∧
    normalSum (entriesAt 3 (contributions intervalFe id position [0, 1])) = fun _ => 1 := by
  have e : ∀ k : Dof intervalFe, boundaryMoment intervalFe k = fun _ => if k.1 = 0 then -1 else if k.1 = 3 then 1 else 0 := by
    rintro ⟨k, hk⟩
    funext d
    fin_cases k <;> simp [boundaryMoment, basisTrace, expand, intervalFe, Fin.sum_univ_two]
  refine ⟨by rw [C93_assembled_normal intervalFe_consistent intervalFe_conforming, e]; simp, ?_⟩
  have := C93_nodal_normals intervalFe_consistent id position [0, 1] (by simp) (fun K => by fin_cases K <;> simp)
    (fun _ _ _ _ _ => by simp [intervalFe]) ⟨3, by simp [intervalFe]⟩
  rw [e] at this
  exact this.trans (by simp)

end BoundaryMap

end Ryujin
