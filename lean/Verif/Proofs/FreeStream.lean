import Verif.Proofs.StepCongr
import Verif.Proofs.HyperbolicStep
import Mathlib.Algebra.Module.LinearMap.Defs
import Mathlib.Algebra.BigOperators.Group.List.Basic

/-!
# Uniform states: what `step` computes from them
-/

namespace Ryujin
namespace Hyp

variable {ι P S F B : Type} {dim : ℕ} [AddCommGroup S] [Module ℝ S]

/-- The state vector has the value `U0` in all unconstrained rows, with the same flux contribution `f0` and without source. -/
structure Uniform (D : Description ι P S F B dim) (M : Mesh ι dim) (U0 : S) (f0 : F) (x : StateVector ι P S) : Prop where
  value : ∀ i, M.active i → x.U i = U0
  flux : ∀ i, M.active i → D.flux x.prec i U0 = f0
  source : ∀ i, M.active i → ∀ tau, D.source x.prec i U0 tau = 0

/-- What the equations do with two equal states. -/
structure Steady (D : Description ι P S F B dim) (U0 : S) (f0 : F) (G : Vec dim →ₗ[ℝ] S) : Prop where
  low : ∀ c, D.fluxDiv f0 f0 c = G c
  high : ∀ c, D.highOrder f0 f0 c = G c
  star : (D.stars U0 f0 U0 f0).2 = (D.stars U0 f0 U0 f0).1

theorem list_sum_map_linear {T : Type} (G : Vec dim →ₗ[ℝ] S) (l : List T) (f : T → Vec dim) :
    (l.map fun j => G (f j)).sum = G (l.map f).sum := by
  induction l with
  | nil => simp
  | cons a l ih => simp [ih]

omit [Module ℝ S] in
theorem map_sum_zero {T : Type} (l : List T) (f : T → S) (h : ∀ j ∈ l, f j = 0) : (l.map f).sum = 0 := by
  rw [List.map_congr_left h]
  simp

omit [AddCommGroup S] [Module ℝ S] in
theorem foldl_weights (st : List (ℝ × StateVector ι P S)) (a : ℝ) :
    st.foldl (fun a s => a + s.1) a = a + (st.map Prod.fst).sum := by
  induction st generalizing a with
  | nil => simp
  | cons x st ih => simp [ih, add_assoc]

section

variable {D : Description ι P S F B dim} {M : Mesh ι dim} (hM : M.WellFormed) {U0 : S} {f0 : F} {G : Vec dim →ₗ[ℝ] S}
  (hD : Steady D U0 f0 G) {X : Stage4 ι P S} (hx : Uniform D M U0 f0 X.old)
  (hs : ∀ s ∈ X.stages, Uniform D M U0 f0 s.2)

include hx

omit [Module ℝ S] in
theorem uniform_fluxAt {i : ι} (hi : M.active i) : fluxAt D X i = f0 := by
  unfold fluxAt; rw [hx.value i hi, hx.flux i hi]

omit [Module ℝ S] in
theorem uniform_sourceAt {i : ι} (hi : M.active i) : sourceAt D X i = 0 := by
  unfold sourceAt; rw [hx.value i hi, hx.source i hi]

include hD in
theorem uniform_jump {i j : ι} (hi : M.active i) (hj : M.active j) : jump D X i j = 0 := by
  simp only [jump]
  rw [hx.value i hi, hx.value j hj, uniform_fluxAt hx hi, uniform_fluxAt hx hj, hD.star, sub_self]

include hD in
theorem uniform_fluxIJ {i j : ι} (hi : M.active i) (hj : M.active j) : fluxIJ D M X i j = G (M.c i j) := by
  unfold fluxIJ; rw [uniform_fluxAt hx hi, uniform_fluxAt hx hj, hD.low]

include hM hD in
/-- The low-order update does not change a uniform state. -/
theorem uniform_lowOrder {i : ι} (hi : M.active i) (hrow : M.c i i + ((M.nbrs i).map (M.c i)).sum = 0) :
    lowOrder D M X i = U0 := by
  unfold lowOrder
  rw [hx.value i hi, uniform_sourceAt hx hi, smul_zero, add_zero]
  have e : ((M.columns i).map fun j => (X.tau * (M.lumped i)⁻¹) • fluxIJ D M X i j +
      (X.tau * (M.lumped i)⁻¹ * X.d i j) • jump D X i j) =
      (M.columns i).map fun j => ((X.tau * (M.lumped i)⁻¹) • G) (M.c i j) := by
    refine List.map_congr_left fun j hj => ?_
    have hj := col_active hM hi hj
    rw [uniform_fluxIJ hD hx hi hj, uniform_jump hD hx hi hj, smul_zero, add_zero]
    rfl
  rw [e, list_sum_map_linear]
  have : ((M.columns i).map (M.c i)).sum = 0 := by simpa [Mesh.columns] using hrow
  rw [this, map_zero, add_zero]

include hs in
theorem uniform_sourceH {i : ι} (hi : M.active i) : sourceH D X i = 0 := by
  unfold sourceH
  rw [uniform_sourceAt hx hi, smul_zero, add_zero]
  refine map_sum_zero _ _ fun s h => ?_
  unfold stageSource
  rw [(hs s h).value i hi, (hs s h).source i hi, smul_zero]

include hD hs in
/-- The weights of the stages add up to one, so the high-order flux is that of the uniform state. -/
theorem uniform_highOrderPart {i j : ι} (hi : M.active i) (hj : M.active j) :
    highOrderPart D M X i j = G (M.c i j) := by
  unfold highOrderPart highOrderIJ
  rw [uniform_fluxAt hx hi, uniform_fluxAt hx hj, hD.high, uniform_sourceAt hx hj, smul_zero, add_zero]
  have e : (X.stages.map fun s => s.1 • stageFluxIJ D M s i j + (s.1 * M.mass i j) • stageSource D X s j) =
      X.stages.map fun s => s.1 • G (M.c i j) := by
    refine List.map_congr_left fun s h => ?_
    unfold stageFluxIJ stageSource
    rw [(hs s h).value i hi, (hs s h).value j hj, (hs s h).flux i hi, (hs s h).flux j hj, hD.high, (hs s h).source j hj,
      smul_zero, add_zero]
  have e2 : (X.stages.map fun s => s.1 • G (M.c i j)).sum = (X.stages.map Prod.fst).sum • G (M.c i j) := by
    generalize X.stages = l
    induction l with
    | nil => simp
    | cons a l ih => simp [ih, add_smul]
  rw [e, e2, ← add_smul]
  have : X.weight + (X.stages.map Prod.fst).sum = 1 := by
    unfold Stage4.weight
    rw [foldl_weights]
    ring
  rw [this, one_smul]

include hM hD hs in
theorem uniform_rhsH {i : ι} (hi : M.active i) (hrow : M.c i i + ((M.nbrs i).map (M.c i)).sum = 0) : rhsH D M X i = 0 := by
  unfold rhsH
  rw [uniform_sourceH hx hs hi, smul_zero, zero_add]
  have e : ((M.columns i).map fun j => dH M X i j • jump D X i j - M.mass i j • (0 : S) + highOrderPart D M X i j) =
      (M.columns i).map fun j => G (M.c i j) := by
    refine List.map_congr_left fun j hj => ?_
    have hj := col_active hM hi hj
    rw [uniform_jump hD hx hi hj, uniform_highOrderPart hD hx hs hi hj, smul_zero, smul_zero, sub_zero, zero_add]
  rw [e, list_sum_map_linear]
  have : ((M.columns i).map (M.c i)).sum = 0 := by simpa [Mesh.columns] using hrow
  rw [this, map_zero]

include hM hD hs in
/-- There is nothing to limit. -/
theorem uniform_pIJ (hrow : ∀ i, M.active i → M.c i i + ((M.nbrs i).map (M.c i)).sum = 0) {i j : ι} (hi : M.active i)
    (hj : M.active j) : pIJ D M X i j = 0 := by
  unfold pIJ pStep4
  rw [uniform_rhsH hM hD hx hs hi (hrow i hi), uniform_rhsH hM hD hx hs hj (hrow j hj), uniform_fluxIJ hD hx hi hj,
    uniform_jump hD hx hi hj, uniform_sourceAt hx hi, uniform_highOrderPart hD hx hs hi hj]
  simp

include hM hD hs in
/-- The new state is the uniform state. -/
theorem uniform_newStates (hrow : ∀ i, M.active i → M.c i i + ((M.nbrs i).map (M.c i)).sum = 0) (par : Params)
    (lo : Leftover ι S) {i : ι} (hi : M.active i) : newStates D M par lo X i = U0 := by
  unfold newStates limiterLoop
  have key : ∀ (b : ι → B) (n : ℕ) (passes : List ℕ) (st : LimiterLoop ι S), (∀ i, M.active i → st.U i = U0) →
      ∀ i, M.active i →
        (passes.foldl (fun st pass => limiterPass D M b (pIJ D M X) n pass st) st).U i = U0 := by
    intro b n passes
    induction passes with
    | nil => exact fun st h => h
    | cons a l ih =>
      intro st h
      refine ih _ ?_
      intro i hi
      simp only [limiterPass]
      rw [if_pos hi, h i hi, map_sum_zero, add_zero]
      intro j hj
      rw [uniform_pIJ hM hD hx hs hrow hi (nbr_active hM hj), smul_zero]
  refine key _ _ _ _ ?_ i hi
  intro i hi
  show newLow D M lo X i = U0
  unfold newLow
  rw [if_pos hi]
  exact uniform_lowOrder hM hD hx hi (hrow i hi)

end

omit [AddCommGroup S] [Module ℝ S] in
/-- Bounds with a property that is kept when bounds are combined keep it in step 5, in whichever order rows are processed. -/
theorem boundsStep5_keeps {D : Description ι P S F B dim} {M : Mesh ι dim} (hM : M.WellFormed) (order : List ι)
    (Adm : B → Prop) (hc : ∀ a b, Adm a → Adm b → Adm (D.combine a b)) (b : ι → B) (hb : ∀ i, M.active i → Adm (b i)) :
    ∀ i, M.active i → Adm (boundsStep5 D M order b i) := by
  classical
  have hrow : ∀ b : ι → B, (∀ i, M.active i → Adm (b i)) → ∀ i, M.active i → Adm (combineRow D M b i) := by
    intro b hb i hi
    unfold combineRow
    have : ∀ (l : List ι), (∀ j ∈ l, M.active j) → ∀ acc, Adm acc → Adm (l.foldl (fun acc j => D.combine acc (b j)) acc) := by
      intro l
      induction l with
      | nil => exact fun _ acc h => h
      | cons a l ih =>
        intro hl acc h
        exact ih (fun j hj => hl j (List.mem_cons_of_mem _ hj)) _ (hc _ _ h (hb a (hl a List.mem_cons_self)))
    exact this _ (fun j hj => nbr_active hM hj) _ (hb i hi)
  unfold boundsStep5
  split_ifs
  · induction order generalizing b with
    | nil => exact hb
    | cons a l ih =>
      refine ih _ ?_
      intro i hi
      dsimp only
      split_ifs with ha
      · by_cases h : i = a
        · subst h; simpa using hrow b hb i hi
        · simpa [Function.update, h] using hb i hi
      · exact hb i hi
  · exact hb

section

variable [Fintype ι] {D : Description ι P S F B dim} {M : Mesh ι dim} (hM : M.WellFormed) {U0 : S} {f0 : F} {G : Vec dim →ₗ[ℝ] S}
  (hD : Steady D U0 f0 G) (hrow : ∀ i, M.active i → M.c i i + ((M.nbrs i).map (M.c i)).sum = 0)
  {old : StateVector ι P S} (hx : Uniform D M U0 f0 old) {stages : List (ℝ × StateVector ι P S)}
  (hs : ∀ s ∈ stages, Uniform D M U0 f0 s.2)

include hM hD hrow hx hs

/-- A step that returns leaves a uniform state as it is. -/
theorem uniform_step {par : Params} {strategy : Strategy} {cnt : Counters} {lo : Leftover ι S} {tau tau_max : ℝ}
    {U : ι → S} {t : ℝ} (h : (step D M par strategy cnt lo old stages tau tau_max).1 = .done U t) {i : ι} (hi : M.active i) :
    U i = U0 := by
  obtain ⟨-, -, hU⟩ := step_done h
  rw [hU]
  exact uniform_newStates hM hD (X := stage4 D M par lo old stages t) hx hs hrow par lo hi

/-- If the uniform state is accepted against every set of bounds that can come up, no step is rejected. -/
theorem uniform_not_rejected (Adm : B → Prop) (hc : ∀ a b, Adm a → Adm b → Adm (D.combine a b)) {par : Params}
    {strategy : Strategy} {cnt : Counters} {lo : Leftover ι S} {tau tau_max : ℝ}
    (hb : ∀ t i, M.active i → Adm (boundsStep4 D M (stage4 D M par lo old stages t) par.tiny i))
    (hl : ∀ i j b, Adm b → (D.limit i j b U0 0).2)
    (hpos : 0 < tauMax D M par lo.dij old tau_max) :
    ∃ U, step D M par strategy cnt lo old stages tau tau_max =
      (.done U (if tau = 0 then tauMax D M par lo.dij old tau_max else tau), cnt) := by
  classical
  have hno : ∀ t, ¬ restartNeeded D M par lo (stage4 D M par lo old stages t) := by
    rintro t ⟨-, i, j, hj, hf⟩
    refine hf ?_
    have hi : M.active i := self_active hj
    unfold l1
    rw [uniform_lowOrder hM hD (X := stage4 D M par lo old stages t) hx hi (hrow i hi),
      uniform_pIJ hM hD (X := stage4 D M par lo old stages t) hx hs hrow hi (nbr_active hM hj)]
    exact hl i j _ (boundsStep5_keeps hM _ Adm hc _ (hb t) i hi)
  unfold step
  simp only [hpos, not_true_eq_false, if_false, hno]
  exact ⟨_, rfl⟩

end

end Hyp
end Ryujin
