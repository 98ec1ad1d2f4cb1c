import Verif.Model.AeosPrecompute
import Mathlib.Order.Bounds.Basic
import Mathlib.Tactic.Linarith

/-!
# C50: the two variants of the equation of state precomputation
-/

namespace Ryujin
namespace Eos

open Euler (State density internalEnergy mkState)

variable {dim : ℕ}

/-! ### Specification -/

/-- First row of the (vectorised) iteration that treats row `j`. -/
def blockStart (stride left j : ℕ) : ℕ := left + (j - left) / stride * stride

open Classical in
/-- What cycle 0 has to compute: pressure and surrogate gamma of every row in `[left, right)` that is not
constrained, everything else unchanged. -/
noncomputable def cycle0Spec (eos : Interface) (par : Aeos.Params) (rowLength : ℕ → ℕ) (U : ℕ → State dim)
    (stride left right : ℕ) (prec : ℕ → Prec) (j : ℕ) : Prec :=
  if left ≤ j ∧ j < right ∧ rowLength (blockStart stride left j) ≠ 1 then
    precOf par (U j) (statePressure eos (U j))
  else prec j

/-! ### Helper lemmas -/

theorem applyActions_of_value (j : ℕ) (v : Prec) (l : List Action) (hall : ∀ v', Action.write j v' ∈ l → v' = v) :
    ∀ prec : ℕ → Prec, prec j = v → applyActions prec l j = v := by
  induction l with
  | nil => exact fun _ h => h
  | cons a l ih =>
    intro prec h
    have hall' : ∀ v', Action.write j v' ∈ l → v' = v := fun v' hv => hall v' (List.mem_cons_of_mem _ hv)
    cases a with
    | check i => exact ih hall' prec h
    | write row w =>
      refine ih hall' _ ?_
      by_cases hr : j = row
      · subst hr
        rw [Function.update_self]
        exact hall w List.mem_cons_self
      · rw [Function.update_of_ne hr]; exact h

theorem applyActions_of_mem (j : ℕ) (v : Prec) (l : List Action) (hall : ∀ v', Action.write j v' ∈ l → v' = v)
    (hmem : Action.write j v ∈ l) : ∀ prec : ℕ → Prec, applyActions prec l j = v := by
  induction l with
  | nil => cases hmem
  | cons a l ih =>
    intro prec
    have hall' : ∀ v', Action.write j v' ∈ l → v' = v := fun v' hv => hall v' (List.mem_cons_of_mem _ hv)
    rcases List.mem_cons.1 hmem with rfl | h
    · exact applyActions_of_value j v l hall' _ (Function.update_self ..)
    · cases a with
      | check i => exact ih hall' h prec
      | write row w => exact ih hall' h _

theorem applyActions_of_not_mem (j : ℕ) (l : List Action) (hno : ∀ v', Action.write j v' ∉ l) :
    ∀ prec : ℕ → Prec, applyActions prec l j = prec j := by
  induction l with
  | nil => exact fun _ => rfl
  | cons a l ih =>
    intro prec
    have hno' : ∀ v', Action.write j v' ∉ l := fun v' hv => hno v' (List.mem_cons_of_mem _ hv)
    cases a with
    | check i => exact ih hno' prec
    | write row w =>
      rw [show applyActions prec (Action.write row w :: l) = applyActions (Function.update prec row w) l from rfl,
        ih hno', Function.update_of_ne]
      rintro rfl
      exact hno w List.mem_cons_self

/-- The common shape of both variants. -/
theorem mem_blocks (n stride base : ℕ) (skip : ℕ → Prop) [DecidablePred skip] (chk : ℕ → ℕ) (val : ℕ → Prec)
    (j : ℕ) (v : Prec) (hs : 0 < stride) :
    Action.write j v ∈ (List.range n).flatMap (fun k => if skip k then [] else
      Action.check (chk k) :: (List.range stride).map fun l => .write (base + k * stride + l)
        (val (base + k * stride + l))) ↔
    (base ≤ j ∧ j < base + n * stride ∧ ¬ skip ((j - base) / stride)) ∧ v = val j := by
  simp only [List.mem_flatMap, List.mem_range]
  constructor
  · rintro ⟨k, hk, hm⟩
    by_cases hsk : skip k
    · rw [if_pos hsk] at hm; cases hm
    · rw [if_neg hsk] at hm
      rcases List.mem_cons.1 hm with h | h
      · cases h
      · obtain ⟨l, hl, h⟩ := List.mem_map.1 h
        rw [List.mem_range] at hl
        injection h with h1 h2
        subst h1
        have hdiv : (base + k * stride + l - base) / stride = k := by
          rw [show base + k * stride + l - base = l + stride * k by rw [Nat.mul_comm]; omega,
            Nat.add_mul_div_left _ _ hs, Nat.div_eq_of_lt hl, Nat.zero_add]
        refine ⟨⟨by omega, ?_, by rw [hdiv]; exact hsk⟩, h2.symm⟩
        have : (k + 1) * stride ≤ n * stride := Nat.mul_le_mul_right _ hk
        have h3 : (k + 1) * stride = k * stride + stride := by ring
        omega
  · rintro ⟨⟨h1, h2, h3⟩, rfl⟩
    refine ⟨(j - base) / stride, ?_, ?_⟩
    · rw [Nat.div_lt_iff_lt_mul hs]; omega
    · rw [if_neg h3]
      refine List.mem_cons_of_mem _ (List.mem_map.2 ⟨(j - base) % stride, ?_, ?_⟩)
      · exact List.mem_range.2 (Nat.mod_lt _ hs)
      · have : base + (j - base) / stride * stride + (j - base) % stride = j := by
          have := Nat.div_add_mod (j - base) stride
          rw [Nat.mul_comm] at this
          omega
        rw [this]

theorem iterations_mul (stride left right : ℕ) (hs : 0 < stride) (hd : stride ∣ right - left) :
    iterations stride left right * stride = right - left := by
  obtain ⟨m, hm⟩ := hd
  unfold iterations
  rw [hm, show stride * m + stride - 1 = (stride - 1) + stride * m by omega, Nat.add_mul_div_left _ _ hs,
    Nat.div_eq_of_lt (by omega), Nat.zero_add, Nat.mul_comm]

theorem mem_scalarVariant (eos : Interface) (par : Aeos.Params) (rowLength : ℕ → ℕ) (U : ℕ → State dim)
    (stride left right j : ℕ) (v : Prec) (hs : 0 < stride) (hd : stride ∣ right - left) :
    Action.write j v ∈ scalarVariant eos par rowLength U stride left right ↔
      (left ≤ j ∧ j < right ∧ rowLength (blockStart stride left j) ≠ 1) ∧
        v = precOf par (U j) (statePressure eos (U j)) := by
  have := mem_blocks (iterations stride left right) stride left (fun k => rowLength (left + k * stride) = 1)
    (fun k => left + k * stride) (fun i => precOf par (U i) (statePressure eos (U i))) j v hs
  unfold scalarVariant
  refine this.trans (and_congr_left fun _ => and_congr_right fun h => ?_)
  rw [iterations_mul _ _ _ hs hd]
  refine and_congr_left fun _ => ?_
  omega

theorem mem_vectorVariant (eos : Interface) (par : Aeos.Params) (rowLength : ℕ → ℕ) (U : ℕ → State dim)
    (stride left right j : ℕ) (v : Prec) (hs : 0 < stride) (hd : stride ∣ right - left) :
    Action.write j v ∈ vectorVariant eos par rowLength U stride left right ↔
      (left ≤ j ∧ j < right ∧ rowLength (blockStart stride left j - left) ≠ 1) ∧
        v = precOf par (U j) (statePressure eos (U j)) := by
  set size := right - left with hsize
  set p := arrayVariant eos.pressure ((List.range size).map fun i => density (U (left + i)))
    ((List.range size).map fun i => internalEnergy (U (left + i)) / density (U (left + i))) with hp
  have hv : ∀ i, left ≤ i → i < right → p.getD (i - left) 0 = statePressure eos (U i) := by
    intro i h1 h2
    have hi : i - left < size := by omega
    have h3 : left + (i - left) = i := by omega
    simp [hp, arrayVariant, List.getD_eq_getElem?_getD, hi, h3, statePressure]
  have := mem_blocks (iterations stride 0 size) stride left (fun k => rowLength (k * stride) = 1)
    (fun k => k * stride) (fun i => precOf par (U i) (p.getD (i - left) 0)) j v hs
  have hshape : vectorVariant eos par rowLength U stride left right =
      (List.range (iterations stride 0 size)).flatMap (fun k => if rowLength (k * stride) = 1 then [] else
        Action.check (k * stride) :: (List.range stride).map fun l => .write (left + k * stride + l)
          (precOf par (U (left + k * stride + l)) (p.getD (left + k * stride + l - left) 0))) := by
    unfold vectorVariant
    dsimp only
    congr 1
    funext k
    congr 1
    congr 1
    refine List.map_congr_left fun l _ => ?_
    rw [show left + k * stride + l - left = k * stride + l by omega]
  rw [hshape]
  refine this.trans ?_
  have hit : iterations stride 0 size * stride = size := by
    have := iterations_mul stride 0 size hs (by simpa using hd)
    simpa using this
  rw [hit]
  have hb : blockStart stride left j - left = (j - left) / stride * stride := by
    unfold blockStart; omega
  rw [hb]
  constructor
  · rintro ⟨⟨h1, h2, h3⟩, h4⟩
    have h5 : j < right := by omega
    exact ⟨⟨h1, h5, h3⟩, by rw [h4, hv j h1 h5]⟩
  · rintro ⟨⟨h1, h2, h3⟩, h4⟩
    exact ⟨⟨h1, by omega, h3⟩, by rw [h4, hv j h1 h2]⟩

/-! ### C50 -/

/-- **C50** The variant that calls the equation of state for every degree of freedom computes pressure and
surrogate gamma of every unconstrained row of its range and touches nothing else. -/
theorem C50_scalar_variant (eos : Interface) (par : Aeos.Params) (rowLength : ℕ → ℕ) (U : ℕ → State dim)
    (stride left right : ℕ) (hs : 0 < stride) (hd : stride ∣ right - left) (prec : ℕ → Prec) :
    applyActions prec (scalarVariant eos par rowLength U stride left right) =
      cycle0Spec eos par rowLength U stride left right prec := by
  funext j
  unfold cycle0Spec
  by_cases h : left ≤ j ∧ j < right ∧ rowLength (blockStart stride left j) ≠ 1
  · rw [if_pos h]
    exact applyActions_of_mem _ _ _
      (fun v' hv => ((mem_scalarVariant eos par rowLength U stride left right j v' hs hd).1 hv).2)
      ((mem_scalarVariant eos par rowLength U stride left right j _ hs hd).2 ⟨h, rfl⟩) prec
  · rw [if_neg h]
    exact applyActions_of_not_mem _ _
      (fun v' hv => h ((mem_scalarVariant eos par rowLength U stride left right j v' hs hd).1 hv).1) prec

/-- **C50** (partial: the range starts at zero, or the pattern of constrained rows does not change when it is
shifted by the offset) The variant with one call on whole vectors computes the same. -/
theorem C50_vector_variant_partial (eos : Interface) (par : Aeos.Params) (rowLength : ℕ → ℕ) (U : ℕ → State dim)
    (stride left right : ℕ) (hs : 0 < stride) (hd : stride ∣ right - left)
    (hshift : ∀ i, left ≤ i → i < right → (rowLength (i - left) = 1 ↔ rowLength i = 1)) (prec : ℕ → Prec) :
    applyActions prec (vectorVariant eos par rowLength U stride left right) =
      applyActions prec (scalarVariant eos par rowLength U stride left right) := by
  rw [C50_scalar_variant eos par rowLength U stride left right hs hd]
  funext j
  unfold cycle0Spec
  have hiff : left ≤ j → j < right → (rowLength (blockStart stride left j - left) = 1 ↔
      rowLength (blockStart stride left j) = 1) := by
    intro h1 h2
    refine hshift _ (by unfold blockStart; omega) ?_
    have := Nat.div_mul_le_self (j - left) stride
    unfold blockStart
    omega
  by_cases h : left ≤ j ∧ j < right ∧ rowLength (blockStart stride left j) ≠ 1
  · rw [if_pos h]
    exact applyActions_of_mem _ _ _
      (fun v' hv => ((mem_vectorVariant eos par rowLength U stride left right j v' hs hd).1 hv).2)
      ((mem_vectorVariant eos par rowLength U stride left right j _ hs hd).2
        ⟨⟨h.1, h.2.1, fun hr => h.2.2 ((hiff h.1 h.2.1).1 hr)⟩, rfl⟩) prec
  · rw [if_neg h]
    refine applyActions_of_not_mem _ _ (fun v' hv => h ?_) prec
    have h' := ((mem_vectorVariant eos par rowLength U stride left right j v' hs hd).1 hv).1
    exact ⟨h'.1, h'.2.1, fun hr => h'.2.2 ((hiff h'.1 h'.2.1).2 hr)⟩

/-- The vectorised part `[0, n_internal)` is therefore right. -/
theorem C50_vector_variant_zero_partial (eos : Interface) (par : Aeos.Params) (rowLength : ℕ → ℕ)
    (U : ℕ → State dim) (stride right : ℕ) (hs : 0 < stride) (hd : stride ∣ right) (prec : ℕ → Prec) :
    applyActions prec (vectorVariant eos par rowLength U stride 0 right) =
      applyActions prec (scalarVariant eos par rowLength U stride 0 right) :=
  C50_vector_variant_partial eos par rowLength U stride 0 right hs (by simpa using hd) (fun i _ _ => by simp) prec

/-- **C50 is false** for ranges that do not start at zero, as the range `[n_internal, n_owned)`: wherever a row
`i` of the range is unconstrained but row `i - left` is constrained, the precomputed values of row `i` are not
computed: they keep their previous content, whatever it is. -/
theorem C50_offset_violation (eos : Interface) (par : Aeos.Params) (rowLength : ℕ → ℕ) (U : ℕ → State dim)
    (left right i : ℕ) (h1 : left ≤ i) (h2 : i < right) (hc : rowLength (i - left) = 1) (hu : rowLength i ≠ 1)
    (prec : ℕ → Prec) :
    applyActions prec (vectorVariant eos par rowLength U 1 left right) i = prec i ∧
      applyActions prec (scalarVariant eos par rowLength U 1 left right) i =
        precOf par (U i) (statePressure eos (U i)) := by
  have hb : blockStart 1 left i = i := by
    unfold blockStart
    rw [Nat.div_one, Nat.mul_one]
    omega
  constructor
  · refine applyActions_of_not_mem _ _ (fun v' hv => ?_) prec
    have := ((mem_vectorVariant eos par rowLength U 1 left right i v' one_pos (one_dvd _)).1 hv).1.2.2
    rw [hb] at this
    exact this hc
  · rw [C50_scalar_variant _ _ _ _ _ _ _ one_pos (one_dvd _), cycle0Spec, if_pos ⟨h1, h2, by rw [hb]; exact hu⟩]

/-- The hypotheses are met by a small mesh: rows 0 and 1 constrained and vectorised, row 2 unconstrained. -/
example : ∃ (rowLength : ℕ → ℕ) (left right i : ℕ), left ≤ i ∧ i < right ∧ rowLength (i - left) = 1 ∧
    rowLength i ≠ 1 := ⟨fun i => if i < 2 then 1 else 3, 2, 3, 2, by decide⟩

/-- **C50** Both loops together, variant with one call per degree of freedom: pressure and surrogate gamma of every
unconstrained owned row. -/
theorem C50_cycle0 (eos : Interface) (par : Aeos.Params) (rowLength : ℕ → ℕ) (U : ℕ → State dim)
    (simd n_internal n_owned : ℕ) (hs : 0 < simd) (hd : simd ∣ n_internal) (hle : n_internal ≤ n_owned)
    (hcons : ∀ i < n_internal, rowLength (i / simd * simd) = rowLength i) (prec : ℕ → Prec) (j : ℕ) :
    applyActions prec (cycle0 (scalarVariant eos par rowLength U) simd n_internal n_owned) j =
      if j < n_owned ∧ rowLength j ≠ 1 then precOf par (U j) (statePressure eos (U j)) else prec j := by
  have happ : ∀ (l l' : List Action) (q : ℕ → Prec), applyActions q (l ++ l') = applyActions (applyActions q l) l' := by
    intro l l'
    induction l with
    | nil => exact fun _ => rfl
    | cons a l ih =>
      intro q
      cases a with
      | check i => exact ih q
      | write row w => exact ih _
  unfold cycle0
  rw [happ, C50_scalar_variant _ _ _ _ _ _ _ one_pos (one_dvd _),
    C50_scalar_variant _ _ _ _ _ _ _ hs (by simpa using hd)]
  have hb1 : n_internal ≤ j → blockStart 1 n_internal j = j := by
    intro h; unfold blockStart; rw [Nat.div_one, Nat.mul_one]; omega
  have hb2 : j < n_internal → rowLength (blockStart simd 0 j) = rowLength j := by
    intro h; unfold blockStart; simpa using hcons j h
  unfold cycle0Spec
  by_cases hj : j < n_internal
  · have h1 : ¬ (n_internal ≤ j) := by omega
    rw [hb2 hj]
    by_cases hr : rowLength j = 1
    · simp [hr, hj, h1]
    · simp [hr, hj, lt_of_lt_of_le hj hle]
  · have h1 : n_internal ≤ j := by omega
    rw [hb1 h1]
    by_cases hr : rowLength j = 1
    · simp [hr, hj, h1]
    · simp [hr, hj, h1]

/-! ### C50: the exchange of ghost values -/

/-- **C50** With the variant that calls the equation of state for every degree of freedom the exchange starts only
after all exported rows have been computed. -/
theorem C50_exchange_complete (eos : Interface) (par : Aeos.Params) (rowLength : ℕ → ℕ) (U : ℕ → State dim)
    (simd n_internal n_owned n_export j : ℕ) (hs : 0 < simd) (hd : simd ∣ n_internal) (hx : simd ∣ n_export)
    (hle : n_export ≤ n_internal) (hj : j < n_export) (hu : rowLength (j / simd * simd) ≠ 1) :
    Action.write j (precOf par (U j) (statePressure eos (U j))) ∈
      beforeExchange n_export n_internal (cycle0 (scalarVariant eos par rowLength U) simd n_internal n_owned) := by
  have hno1 : ∀ a ∈ scalarVariant eos par rowLength U 1 n_internal n_owned,
      (!a.fires n_export n_internal) = true := by
    intro a ha
    unfold scalarVariant at ha
    obtain ⟨k, -, hk⟩ := List.mem_flatMap.1 ha
    dsimp only at hk
    split_ifs at hk
    · cases hk
    · rcases List.mem_cons.1 hk with rfl | h
      · simp [Action.fires]
      · obtain ⟨l, -, rfl⟩ := List.mem_map.1 h
        rfl
  obtain ⟨m, hm⟩ := hx
  obtain ⟨n, hn⟩ := hd
  have hmn : m ≤ n := by
    rw [hm, hn] at hle
    exact Nat.le_of_mul_le_mul_left hle hs
  have hit : iterations simd 0 n_internal = n := by
    have := iterations_mul simd 0 n_internal hs (by simpa using ⟨n, hn⟩)
    rw [hn, Nat.sub_zero, Nat.mul_comm] at this
    rw [hn]
    exact Nat.eq_of_mul_eq_mul_left hs this
  have hitm : iterations simd 0 n_export = m := by
    have := iterations_mul simd 0 n_export hs (by simpa using ⟨m, hm⟩)
    rw [hm, Nat.sub_zero, Nat.mul_comm] at this
    rw [hm]
    exact Nat.eq_of_mul_eq_mul_left hs this
  have hsplit : ∃ rest, scalarVariant eos par rowLength U simd 0 n_internal =
      scalarVariant eos par rowLength U simd 0 n_export ++ rest := by
    unfold scalarVariant
    rw [hit, hitm, show n = m + (n - m) by omega, List.range_add, List.flatMap_append]
    exact ⟨_, rfl⟩
  obtain ⟨rest, hrest⟩ := hsplit
  have hno2 : ∀ a ∈ scalarVariant eos par rowLength U simd 0 n_export,
      (!a.fires n_export n_internal) = true := by
    intro a ha
    unfold scalarVariant at ha
    obtain ⟨k, hkr, hk⟩ := List.mem_flatMap.1 ha
    dsimp only at hk
    split_ifs at hk
    · cases hk
    · rcases List.mem_cons.1 hk with rfl | h
      · rw [List.mem_range, hitm] at hkr
        have : k * simd < m * simd := Nat.mul_lt_mul_of_pos_right hkr hs
        rw [hm, Nat.mul_comm simd m]
        simp [Action.fires, this]
      · obtain ⟨l, -, rfl⟩ := List.mem_map.1 h
        rfl
  unfold beforeExchange cycle0
  rw [List.takeWhile_append_of_pos hno1, hrest, List.takeWhile_append_of_pos hno2]
  refine List.mem_append_right _ (List.mem_append_left _ ?_)
  rw [mem_scalarVariant eos par rowLength U simd 0 n_export j _ hs (by simpa using ⟨m, hm⟩)]
  refine ⟨⟨Nat.zero_le _, hj, ?_⟩, rfl⟩
  unfold blockStart
  simpa using hu

/-- **C50 is false** for the exchange with the vector variant: `dispatch_check` is called with the index counted from
zero, so while the rows `[n_internal, n_owned)` are processed the exchange is already started and none of the exported
rows has been computed: they are sent with their previous content. -/
theorem C50_early_exchange_violation (eos : Interface) (par : Aeos.Params) (U : ℕ → State dim) :
    ∃ (rowLength : ℕ → ℕ) (simd n_internal n_owned n_export : ℕ), 0 < simd ∧ simd ∣ n_internal ∧ simd ∣ n_export ∧
      0 < n_export ∧ n_export ≤ n_internal ∧ n_internal ≤ n_owned ∧ (∀ i, rowLength i ≠ 1) ∧
      ∀ j < n_export, ∀ v, Action.write j v ∉
        beforeExchange n_export n_internal (cycle0 (vectorVariant eos par rowLength U) simd n_internal n_owned) := by
  refine ⟨fun _ => 3, 1, 2, 5, 1, by decide, by decide, by decide, by decide, by decide, by decide,
    fun _ => by simp, ?_⟩
  intro j hj v hv
  have hj0 : j = 0 := by omega
  subst hj0
  have hit : iterations 1 0 3 = 3 := rfl
  have h3 : List.range 3 = [0, 1, 2] := rfl
  have h1 : List.range 1 = [0] := rfl
  simp [beforeExchange, cycle0, vectorVariant, hit, h3, h1, Action.fires] at hv

/-! ### C50: the minimum over the stencil -/

theorem cycle1Row_p (par : Aeos.Params) (cols : ℕ → List ℕ) (U : ℕ → State dim) (prec : ℕ → Prec) (i j : ℕ) :
    (cycle1Row par cols U prec i j).p = (prec j).p := by
  unfold cycle1Row
  split_ifs
  · rfl
  · by_cases h : j = i
    · subst h; rw [Function.update_self]
    · rw [Function.update_of_ne h]

theorem cycle1Row_ne (par : Aeos.Params) (cols : ℕ → List ℕ) (U : ℕ → State dim) (prec : ℕ → Prec) (i j : ℕ)
    (h : j ≠ i) : cycle1Row par cols U prec i j = prec j := by
  unfold cycle1Row
  split_ifs
  · rfl
  · rw [Function.update_of_ne h]

theorem cycle1_p (par : Aeos.Params) (cols : ℕ → List ℕ) (U : ℕ → State dim) (order : List ℕ) :
    ∀ (prec : ℕ → Prec) (j : ℕ), (cycle1 par cols U prec order j).p = (prec j).p := by
  induction order with
  | nil => exact fun _ _ => rfl
  | cons i l ih => exact fun prec j => (ih _ j).trans (cycle1Row_p par cols U prec i j)

theorem cycle1_not_mem (par : Aeos.Params) (cols : ℕ → List ℕ) (U : ℕ → State dim) (order : List ℕ) :
    ∀ (prec : ℕ → Prec) (j : ℕ), j ∉ order → cycle1 par cols U prec order j = prec j := by
  induction order with
  | nil => exact fun _ _ _ => rfl
  | cons i l ih =>
    intro prec j hj
    refine (ih _ j (fun h => hj (List.mem_cons_of_mem _ h))).trans
      (cycle1Row_ne par cols U prec i j fun h => hj (h ▸ List.mem_cons_self))

theorem cycle1Row_congr (par : Aeos.Params) (cols : ℕ → List ℕ) (U : ℕ → State dim) (prec prec' : ℕ → Prec) (i : ℕ)
    (hp : ∀ j, (prec j).p = (prec' j).p) (hi : prec i = prec' i) :
    cycle1Row par cols U prec i i = cycle1Row par cols U prec' i i := by
  unfold cycle1Row
  split_ifs
  · exact hi
  · simp only [Function.update_self, hp, hi]

theorem foldl_min_isLeast (f : ℕ → ℝ) (l : List ℕ) (g : ℝ) :
    IsLeast (insert g {x | ∃ j ∈ l, x = f j}) (l.foldl (fun g j => min g (f j)) g) := by
  induction l generalizing g with
  | nil => simp [IsLeast, lowerBounds]
  | cons a l ih =>
    have := ih (min g (f a))
    refine ⟨?_, ?_⟩
    · rcases this.1 with h | ⟨j, hj, h⟩
      · rw [List.foldl_cons, h]
        rcases min_choice g (f a) with h | h
        · exact Or.inl h
        · exact Or.inr ⟨a, List.mem_cons_self, h⟩
      · exact Or.inr ⟨j, List.mem_cons_of_mem _ hj, h⟩
    · rintro x (rfl | ⟨j, hj, rfl⟩)
      · exact (this.2 (Set.mem_insert _ _)).trans (min_le_left _ _)
      · rcases List.mem_cons.1 hj with rfl | hj
        · exact (this.2 (Set.mem_insert _ _)).trans (min_le_right _ _)
        · exact this.2 (Or.inr ⟨j, hj, rfl⟩)

/-- **C50** Cycle 1, in whatever order the rows are processed: every unconstrained row ends up with its pressure, the
minimum of the surrogate gammas over its stencil, and the two surrogate entropies evaluated with that minimum,
computed from the values the vector had before the loop. -/
theorem C50_cycle1 (par : Aeos.Params) (cols : ℕ → List ℕ) (U : ℕ → State dim) (prec : ℕ → Prec) (order : List ℕ)
    (hnodup : order.Nodup) (i : ℕ) (hi : i ∈ order) (hlen : (cols i).length ≠ 1) (hdiag : (cols i).head? = some i)
    (h0 : (prec i).gamma_min = Aeos.surrogateGamma par (U i) (prec i).p) :
    let r := cycle1 par cols U prec order i
    r.p = (prec i).p ∧
      IsLeast {g | ∃ j ∈ cols i, g = Aeos.surrogateGamma par (U j) (prec j).p} r.gamma_min ∧
      r.s = Aeos.surrogateSpecificEntropy par (U i) r.gamma_min ∧
      r.eta = Aeos.surrogateHartenEntropy par (U i) r.gamma_min := by
  have key : cycle1 par cols U prec order i = cycle1Row par cols U prec i i := by
    induction order generalizing prec with
    | nil => cases hi
    | cons a l ih =>
      rw [List.nodup_cons] at hnodup
      by_cases ha : i = a
      · subst ha
        exact cycle1_not_mem par cols U l _ i hnodup.1
      · have hi' : i ∈ l := (List.mem_cons.1 hi).resolve_left ha
        have hrow : cycle1Row par cols U prec a i = prec i := cycle1Row_ne par cols U prec a i ha
        exact (ih _ hnodup.2 hi' (by rw [hrow]; exact h0)).trans (cycle1Row_congr par cols U _ _ i
          (fun j => cycle1Row_p par cols U prec a j) hrow)
  intro r
  have hr : r = cycle1Row par cols U prec i i := key
  rw [hr]
  unfold cycle1Row
  rw [if_neg hlen]
  rw [Function.update_self]
  refine ⟨rfl, ?_, rfl, rfl⟩
  have hset : {g | ∃ j ∈ cols i, g = Aeos.surrogateGamma par (U j) (prec j).p} =
      insert (prec i).gamma_min {g | ∃ j ∈ (cols i).tail, g = Aeos.surrogateGamma par (U j) (prec j).p} := by
    obtain ⟨t, ht⟩ : ∃ t, cols i = i :: t := by
      cases h : cols i with
      | nil => rw [h] at hdiag; cases hdiag
      | cons a t =>
        rw [h] at hdiag
        injection hdiag with h'
        exact ⟨t, by rw [h']⟩
    ext g
    simp only [ht, List.tail_cons, List.mem_cons, Set.mem_ofPred_eq, Set.mem_insert_iff, h0]
    constructor
    · rintro ⟨j, rfl | hj, rfl⟩
      · exact Or.inl rfl
      · exact Or.inr ⟨j, hj, rfl⟩
    · rintro (rfl | ⟨j, hj, rfl⟩)
      · exact ⟨i, Or.inl rfl, rfl⟩
      · exact ⟨j, Or.inr hj, rfl⟩
  rw [hset]
  exact foldl_min_isLeast (fun j => Aeos.surrogateGamma par (U j) (prec j).p) _ _

/-- **C50** In particular the result of cycle 1 does not depend on the order in which the threads process the rows. -/
theorem C50_cycle1_order (par : Aeos.Params) (cols : ℕ → List ℕ) (U : ℕ → State dim) (prec : ℕ → Prec)
    (order order' : List ℕ) (hperm : order.Perm order') (hnodup : order.Nodup) :
    cycle1 par cols U prec order = cycle1 par cols U prec order' := by
  have key : ∀ (l : List ℕ) (prec : ℕ → Prec) (i : ℕ), l.Nodup → i ∈ l →
      cycle1 par cols U prec l i = cycle1Row par cols U prec i i := by
    intro l
    induction l with
    | nil => intro _ _ _ h; cases h
    | cons a l ih =>
      intro prec i hn hi
      rw [List.nodup_cons] at hn
      by_cases ha : i = a
      · subst ha
        exact cycle1_not_mem par cols U l _ i hn.1
      · have hi' : i ∈ l := (List.mem_cons.1 hi).resolve_left ha
        exact (ih _ i hn.2 hi').trans (cycle1Row_congr par cols U _ _ i
          (fun j => cycle1Row_p par cols U prec a j) (cycle1Row_ne par cols U prec a i ha))
  funext i
  by_cases hi : i ∈ order
  · rw [key order prec i hnodup hi, key order' prec i (hperm.nodup_iff.1 hnodup) (hperm.mem_iff.1 hi)]
  · rw [cycle1_not_mem par cols U order prec i hi,
      cycle1_not_mem par cols U order' prec i (fun h => hi (hperm.mem_iff.2 h))]

/-- The hypotheses of `C50_cycle1` hold after cycle 0: a ring of three rows and any states. -/
example (eos : Interface) (par : Aeos.Params) (U : ℕ → State dim) (prec : ℕ → Prec) (i : ℕ) (hi : i < 3) :
    let cols : ℕ → List ℕ := fun i => [i, (i + 1) % 3, (i + 2) % 3]
    let prec0 := applyActions prec (scalarVariant eos par (fun i => (cols i).length) U 1 0 3)
    (cols i).length ≠ 1 ∧ (cols i).head? = some i ∧ i ∈ [2, 0, 1] ∧
      (prec0 i).gamma_min = Aeos.surrogateGamma par (U i) (prec0 i).p := by
  intro cols prec0
  refine ⟨by simp [cols], rfl, by simp; omega, ?_⟩
  have : prec0 i = precOf par (U i) (statePressure eos (U i)) := by
    simp only [prec0]
    rw [C50_scalar_variant _ _ _ _ _ _ _ one_pos (one_dvd _), cycle0Spec, if_pos]
    exact ⟨Nat.zero_le _, hi, by simp [cols]⟩
  rw [this]
  rfl

end Eos
end Ryujin
