import Verif.Model.InitialInterpolation
import Verif.Props.InitialValues
import Verif.Props.MultiComponentVector
import Verif.Proofs.ShallowWater
import Mathlib.Algebra.Order.BigOperators.Group.Finset
import Mathlib.Algebra.BigOperators.Field
import Mathlib.Data.List.Perm.Basic

/-!
# C131: choice and interpolation of the initial values
-/

namespace Ryujin
namespace InitialValues

open GeoTiff (Outcome)

/-- The list of configurations of an equation: the configurations of the library, in any order (the list is a set of
pointers). -/
def IsLibrary {d k m : ℕ} (e : Equation) (list : List (Configuration d k m)) : Prop :=
  (list.map (·.name)).Perm (libraryNames e)

theorem libraryNames_nodup (e : Equation) : (libraryNames e).Nodup := by
  cases e <;> decide +kernel

/-! ### The choice -/

theorem find_of_nodup {d k m : ℕ} {list : List (Configuration d k m)} (h : (list.map (·.name)).Nodup)
    {it : Configuration d k m} (hit : it ∈ list) : (list.find? fun c => c.name = it.name) = some it := by
  induction list with
  | nil => simp at hit
  | cons c cs ih =>
    rw [List.map_cons, List.nodup_cons] at h
    rw [List.find?_cons]
    by_cases e : c.name = it.name
    · rcases List.mem_cons.1 hit with rfl | hm
      · simp
      · exact absurd (e ▸ List.mem_map.2 ⟨it, hm, rfl⟩) h.1
    · rcases List.mem_cons.1 hit with rfl | hm
      · exact absurd rfl e
      · simp only [e, decide_false]
        exact ih h.2 hm

/-- C131 (choice): for every equation, and wherever the objects of the library happen to lie in memory, the name of a
configuration of the library selects the configuration of this name, and every other name raises the exception.  In
particular a configuration is never hidden by another one of the same name. -/
theorem C131_choice {d k m : ℕ} (e : Equation) (list : List (Configuration d k m)) (h : IsLibrary e list) (name : String) :
    (name ∈ libraryNames e → ∃ it ∈ list, it.name = name ∧ (∀ it' ∈ list, it'.name = name → it' = it) ∧
      selectConfiguration list name = .ok it) ∧
    (name ∉ libraryNames e → selectConfiguration list name = .exception) := by
  have hn : (list.map (·.name)).Nodup := h.nodup_iff.2 (libraryNames_nodup e)
  refine ⟨fun hm => ?_, fun hm => ?_⟩
  · obtain ⟨it, hit, rfl⟩ := List.mem_map.1 (h.mem_iff.2 hm)
    have hf := find_of_nodup hn hit
    refine ⟨it, hit, rfl, fun it' hit' he => ?_, ?_⟩
    · have h2 := find_of_nodup hn hit'
      rw [he, hf] at h2
      exact (Option.some.inj h2).symm
    · unfold selectConfiguration
      rw [hf]
  · unfold selectConfiguration
    rw [List.find?_eq_none.2]
    intro it hit he
    exact hm (h.mem_iff.1 (List.mem_map.2 ⟨it, hit, of_decide_eq_true he⟩))

/-- C131 (order): two runs in which the objects of the library lie at different addresses select the same configuration. -/
theorem C131_order {d k m : ℕ} (e : Equation) (list list' : List (Configuration d k m)) (h : IsLibrary e list)
    (hp : list.Perm list') (name : String) : selectConfiguration list name = selectConfiguration list' name := by
  have h' : IsLibrary e list' := ((hp.map _).symm.trans h)
  by_cases hm : name ∈ libraryNames e
  · obtain ⟨it, hit, hn, hu, hs⟩ := (C131_choice e list h name).1 hm
    obtain ⟨it', hit', hn', hu', hs'⟩ := (C131_choice e list' h' name).1 hm
    rw [hs, hs', hu' it (hp.mem_iff.1 hit) hn]
  · rw [(C131_choice e list h name).2 hm, (C131_choice e list' h' name).2 hm]

/-- C131 (default): the default `uniform` of the parameter is available for every equation. -/
theorem C131_default {d k m : ℕ} (e : Equation) (list : List (Configuration d k m)) (h : IsLibrary e list) :
    ∃ it, selectConfiguration list "uniform" = .ok it ∧ it.name = "uniform" := by
  have hm : "uniform" ∈ libraryNames e := by cases e <;> decide +kernel
  obtain ⟨it, -, hn, -, hs⟩ := (C131_choice e list h "uniform").1 hm
  exact ⟨it, hs, hn⟩

/-- C131 (violation): the shallow water configuration `circular dam break` has a class but is never put on the list.  A
parameter file that asks for it ends in the exception, whatever the parameters; it is the only such class. -/
theorem C131_circular_dam_break_violation {d k m : ℕ} (S : Setting d k) (list : List (Configuration d k m))
    (h : IsLibrary .shallowWater list) (q : Parameters d) (hq : q.configuration = "circular dam break") :
    "circular dam break" ∈ shallowWaterClasses ∧ parse S list q = .exception ∧
      ∀ name ∈ shallowWaterClasses, name ≠ "circular dam break" → name ∈ libraryNames .shallowWater := by
  refine ⟨by decide +kernel, ?_, by decide +kernel⟩
  have hx := (C131_choice .shallowWater list h "circular dam break").2 (by decide +kernel)
  unfold parse
  rw [hq, hx]
  cases normalizeDirection q.direction <;> rfl

/-- A library of the skeleton equations, and one of the scalar conservation laws in two orders. -/
example (f : Vec 2 → ℝ → Fin 1 → ℝ) (g : Vec 2 → Fin 0 → ℝ) :
    IsLibrary .skeleton [⟨"uniform", f, g⟩] ∧
    IsLibrary .scalarConservation [⟨"uniform", f, g⟩, ⟨"function", fun _ _ _ => 7, g⟩] ∧
    IsLibrary .scalarConservation [⟨"function", fun _ _ _ => 7, g⟩, ⟨"uniform", f, g⟩] := by
  refine ⟨List.Perm.refl _, List.Perm.swap _ _ _, List.Perm.refl _⟩

/-- A library of the shallow water equations. -/
example : IsLibrary .shallowWater ((libraryNames .shallowWater).map fun n =>
    (⟨n, fun _ _ => ![1, 0, 0], fun _ => ![0]⟩ : Configuration 2 3 1)) := by
  unfold IsLibrary
  rw [List.map_map]
  exact List.Perm.of_eq (List.map_id _)

/-! ### The interpolation -/

theorem interpolateScalar_const (count : ℕ → ℕ) {i : ℕ} (hc : 0 < count i) (f : ℕ → ℕ → ℝ) (v : ℝ) (h : ∀ e, f i e = v) :
    interpolateScalar count f i = v := by
  unfold interpolateScalar
  rw [Finset.sum_congr rfl fun e _ => h e, Finset.sum_const, Finset.card_range, nsmul_eq_mul]
  have : (count i : ℝ) ≠ 0 := Nat.cast_ne_zero.2 hc.ne'
  field_simp

theorem interpolateScalar_near (count : ℕ → ℕ) {i : ℕ} (hc : 0 < count i) (f : ℕ → ℕ → ℝ) (v r : ℝ)
    (h : ∀ e, |f i e - v| ≤ r) : |interpolateScalar count f i - v| ≤ r := by
  have hp : (0 : ℝ) < count i := Nat.cast_pos.2 hc
  have e1 : interpolateScalar count f i - v = (∑ e ∈ Finset.range (count i), (f i e - v)) / count i := by
    unfold interpolateScalar
    rw [Finset.sum_sub_distrib, Finset.sum_const, Finset.card_range, nsmul_eq_mul]
    field_simp
  rw [e1, abs_div, abs_of_pos hp, div_le_iff₀ hp]
  calc |∑ e ∈ Finset.range (count i), (f i e - v)| ≤ ∑ e ∈ Finset.range (count i), |f i e - v| :=
        Finset.abs_sum_le_sum_abs _ _
    _ ≤ ∑ _e ∈ Finset.range (count i), r := Finset.sum_le_sum fun e _ => h e
    _ = r * count i := by rw [Finset.sum_const, Finset.card_range, nsmul_eq_mul, mul_comm]

theorem insert_all {k n_owned : ℕ} (g : Fin k → ℕ → ℝ) (V : ℕ → ℝ) (l : List (Fin k)) (hl : l.Nodup) {i : ℕ} (hi : i < n_owned)
    (c : Fin k) :
    Multi.get k (l.foldl (fun U (c : Fin k) => Multi.insertComponent k n_owned (g c) c.1 U) V) i c.1 =
      if c ∈ l then g c i else Multi.get k V i c.1 := by
  induction l generalizing V with
  | nil => simp
  | cons a l ih =>
    rw [List.foldl_cons, ih _ (List.nodup_cons.1 hl).2, Multi.C27_insert n_owned _ a.2 _ i c.1 c.2]
    by_cases h1 : c ∈ l
    · rw [if_pos h1, if_pos (List.mem_cons_of_mem _ h1)]
    · rw [if_neg h1]
      by_cases h2 : c = a
      · subst h2
        rw [if_pos ⟨hi, rfl⟩, if_pos List.mem_cons_self]
      · rw [if_neg fun h => h2 (Fin.ext h.2), if_neg]
        intro h
        rcases List.mem_cons.1 h with h | h
        · exact h2 h
        · exact h1 h

theorem get_interpolateState {d k m : ℕ} (F : Functions d k m) {n_owned : ℕ} (points : ℕ → Vec d) (count : ℕ → ℕ)
    (draw : ℕ → ℕ → ℕ → Fin k → ℝ) (t : ℝ) {i : ℕ} (hi : i < n_owned) (c : Fin k) :
    Multi.get k (interpolateState F n_owned points count draw t) i c.1 =
      interpolateScalar count (fun i e => F.state (draw c.1 i e) (points i) t c) i := by
  unfold interpolateState
  rw [insert_all (fun c => interpolateScalar count fun i e => F.state (draw c.1 i e) (points i) t c) _ _
    (List.nodup_finRange k) hi c, if_pos (List.mem_finRange c)]

theorem get_interpolatePrecomputed {d k m : ℕ} (F : Functions d k m) {n_owned : ℕ} (points : ℕ → Vec d) (count : ℕ → ℕ)
    {i : ℕ} (hi : i < n_owned) (c : Fin m) :
    Multi.get m (interpolatePrecomputed F n_owned points count) i c.1 =
      interpolateScalar count (fun i _ => F.precomputed (points i) c) i := by
  unfold interpolatePrecomputed
  rw [insert_all (fun c => interpolateScalar count fun i _ => F.precomputed (points i) c) _ _
    (List.nodup_finRange m) hi c, if_pos (List.mem_finRange c)]

theorem parse_ok {d k m : ℕ} {S : Setting d k} {list : List (Configuration d k m)} {q : Parameters d} {F : Functions d k m}
    (h : parse S list q = .ok F) : ∃ n it, normalizeDirection q.direction = some n ∧
      selectConfiguration list q.configuration = .ok it ∧
      (F.state = fun draw => perturbed q.perturbation draw
          fun x t => S.galilei (it.compute (S.transform n q.position x) t) (S.transformVector n)) ∧
      F.precomputed = fun x => it.precompute (S.transform n q.position x) := by
  unfold parse at h
  cases hn : normalizeDirection q.direction with
  | none => rw [hn] at h; cases h
  | some n =>
    rw [hn] at h
    cases hs : selectConfiguration list q.configuration with
    | ok it =>
      rw [hs] at h
      cases h
      exact ⟨n, it, rfl, rfl, rfl, rfl⟩
    | exception => rw [hs] at h; cases h
    | ub => rw [hs] at h; cases h

/-- C131 (exceptions): the parameters are rejected exactly if the direction is zero or the library has no configuration of the
given name. -/
theorem C131_rejected {d k m : ℕ} (S : Setting d k) (e : Equation) (list : List (Configuration d k m))
    (h : IsLibrary e list) (q : Parameters d) :
    ((∃ F, parse S list q = .ok F) ↔ vnorm q.direction ≠ 0 ∧ q.configuration ∈ libraryNames e) ∧
    ((¬ ∃ F, parse S list q = .ok F) → parse S list q = .exception) := by
  by_cases h0 : vnorm q.direction = 0
  · have hn : normalizeDirection q.direction = none := by unfold normalizeDirection; exact if_pos h0
    have hx : parse S list q = .exception := by unfold parse; rw [hn]
    exact ⟨⟨fun ⟨F, hF⟩ => (by rw [hx] at hF; cases hF), fun ⟨h1, _⟩ => absurd h0 h1⟩, fun _ => hx⟩
  · have hn : normalizeDirection q.direction = some fun i => q.direction i / vnorm q.direction := by
      unfold normalizeDirection; exact if_neg h0
    by_cases hm : q.configuration ∈ libraryNames e
    · obtain ⟨it, -, -, -, hs⟩ := (C131_choice e list h q.configuration).1 hm
      have hx : ∃ F, parse S list q = .ok F := by
        unfold parse; rw [hn, hs]; exact ⟨_, rfl⟩
      exact ⟨⟨fun _ => ⟨h0, hm⟩, fun _ => hx⟩, fun h => absurd hx h⟩
    · have hx : parse S list q = .exception := by
        unfold parse; rw [hn, (C131_choice e list h q.configuration).2 hm]
      exact ⟨⟨fun ⟨F, hF⟩ => (by rw [hx] at hF; cases hF), fun ⟨_, h1⟩ => absurd h1 hm⟩, fun _ => hx⟩

/-- C131 (values): the vector of initial values holds, in every component of every owned entry, the value of the chosen
configuration at the support point of the entry, moved to the given position and turned into the given direction: without
perturbation, and for all times after the initial one (analytic solution) also with perturbation.  It does not matter how
many cells share the entry. -/
theorem C131_values {d k m : ℕ} (S : Setting d k) (list : List (Configuration d k m)) (q : Parameters d)
    (F : Functions d k m) (h : parse S list q = .ok F) (n_owned : ℕ) (points : ℕ → Vec d) (count : ℕ → ℕ)
    (hc : ∀ i < n_owned, 0 < count i) (draw : ℕ → ℕ → ℕ → Fin k → ℝ) (t : ℝ) (ht : 0 < t ∨ q.perturbation = 0) :
    ∃ n it, normalizeDirection q.direction = some n ∧ selectConfiguration list q.configuration = .ok it ∧
      ∀ i < n_owned, ∀ c : Fin k, Multi.get k (interpolateState F n_owned points count draw t) i c =
        S.galilei (it.compute (S.transform n q.position (points i)) t) (S.transformVector n) c := by
  obtain ⟨n, it, hn, hs, hF, -⟩ := parse_ok h
  refine ⟨n, it, hn, hs, fun i hi c => ?_⟩
  rw [get_interpolateState F points count draw t hi c]
  refine interpolateScalar_const count (hc i hi) _ _ fun e => ?_
  rw [hF]
  dsimp only
  rw [C78_perturbation_off _ _ _ _ _ ht]

/-- C131 (perturbed values): with a perturbation, every component of every entry differs from the unperturbed value by at most
the configured fraction of its absolute value, although an entry is evaluated several times, with new random numbers for every
cell and every component. -/
theorem C131_perturbed {d k m : ℕ} (S : Setting d k) (list : List (Configuration d k m)) (q : Parameters d)
    (F : Functions d k m) (h : parse S list q = .ok F) (n_owned : ℕ) (points : ℕ → Vec d) (count : ℕ → ℕ)
    (hc : ∀ i < n_owned, 0 < count i) (draw : ℕ → ℕ → ℕ → Fin k → ℝ) (hdraw : ∀ c i e j, |draw c i e j| ≤ 1) (t : ℝ) :
    ∃ n it, normalizeDirection q.direction = some n ∧ selectConfiguration list q.configuration = .ok it ∧
      ∀ i < n_owned, ∀ c : Fin k,
        let u := S.galilei (it.compute (S.transform n q.position (points i)) t) (S.transformVector n) c
        |Multi.get k (interpolateState F n_owned points count draw t) i c - u| ≤ |q.perturbation| * |u| := by
  obtain ⟨n, it, hn, hs, hF, -⟩ := parse_ok h
  refine ⟨n, it, hn, hs, fun i hi c => ?_⟩
  dsimp only
  rw [get_interpolateState F points count draw t hi c]
  refine interpolateScalar_near count (hc i hi) _ _ _ fun e => ?_
  rw [hF]
  dsimp only
  rcases le_or_gt t 0 with ht | ht
  · exact (C78_perturbation_size q.perturbation _ (hdraw c.1 i e)
      (fun x t => S.galilei (it.compute (S.transform n q.position x) t) (S.transformVector n)) (points i) t ht c).2
  · rw [C78_perturbation_off _ _ _ _ _ (Or.inl ht), sub_self, abs_zero]
    positivity

/-- C131 (precomputed values): the precomputed values (the bathymetry) are those of the same configuration at the same
transformed point; they are never perturbed. -/
theorem C131_precomputed {d k m : ℕ} (S : Setting d k) (list : List (Configuration d k m)) (q : Parameters d)
    (F : Functions d k m) (h : parse S list q = .ok F) (n_owned : ℕ) (points : ℕ → Vec d) (count : ℕ → ℕ)
    (hc : ∀ i < n_owned, 0 < count i) :
    ∃ n it, normalizeDirection q.direction = some n ∧ selectConfiguration list q.configuration = .ok it ∧
      ∀ i < n_owned, ∀ c : Fin m, Multi.get m (interpolatePrecomputed F n_owned points count) i c =
        it.precompute (S.transform n q.position (points i)) c := by
  obtain ⟨n, it, hn, hs, -, hF⟩ := parse_ok h
  refine ⟨n, it, hn, hs, fun i hi c => ?_⟩
  rw [get_interpolatePrecomputed F points count hi c]
  refine interpolateScalar_const count (hc i hi) _ _ fun e => ?_
  rw [hF]

theorem select_mem {d k m : ℕ} {list : List (Configuration d k m)} {name : String} {it : Configuration d k m}
    (hs : selectConfiguration list name = .ok it) : it ∈ list ∧ it.name = name := by
  unfold selectConfiguration at hs
  cases hf : list.find? fun it => it.name = name with
  | none => rw [hf] at hs; cases hs
  | some it' =>
    rw [hf] at hs
    cases hs
    exact ⟨List.mem_of_find?_eq_some hf, by simpa using List.find?_some hf⟩

/-- The state in entry `i` of a vector (what `get_tensor(i)` returns). -/
def entry (k : ℕ) (U : ℕ → ℝ) (i : ℕ) : Fin k → ℝ := fun c => Multi.get k U i c

/-- C131 (Euler): if the chosen configuration has positive density and positive internal energy everywhere, then so has the
vector of initial values in every owned entry, for every direction and position, with the same density, internal energy and
pressure as the configuration at the transformed point.  (In two and three dimensions, see the example below.) -/
theorem C131_euler {d : ℕ} (S : Setting d (d + 2)) (hg : S.galilei = fun U lam => Euler.applyGalileiTransform U lam)
    (hiso : ∀ n v, normSq (S.transformVector n v) = normSq v) (pr : Euler.Params) (list : List (Configuration d (d + 2) 0))
    (q : Parameters d) (F : Functions d (d + 2) 0) (h : parse S list q = .ok F) (n_owned : ℕ) (points : ℕ → Vec d)
    (count : ℕ → ℕ) (hc : ∀ i < n_owned, 0 < count i) (draw : ℕ → ℕ → ℕ → Fin (d + 2) → ℝ) (t : ℝ)
    (ht : 0 < t ∨ q.perturbation = 0)
    (hcfg : ∀ it ∈ list, it.name = q.configuration → ∀ x,
      0 < Euler.density (it.compute x t) ∧ 0 < Euler.internalEnergy (it.compute x t)) :
    ∃ n, ∃ it ∈ list, normalizeDirection q.direction = some n ∧ it.name = q.configuration ∧ ∀ i < n_owned,
      let U := entry (d + 2) (interpolateState F n_owned points count draw t) i
      let V := it.compute (S.transform n q.position (points i)) t
      0 < Euler.density U ∧ 0 < Euler.internalEnergy U ∧ Euler.density U = Euler.density V ∧
        Euler.internalEnergy U = Euler.internalEnergy V ∧ Euler.pressure pr U = Euler.pressure pr V := by
  obtain ⟨n, it, hn, hs, hv⟩ := C131_values S list q F h n_owned points count hc draw t ht
  have hmem := select_mem hs
  refine ⟨n, it, hmem.1, hn, hmem.2, fun i hi => ?_⟩
  have he : entry (d + 2) (interpolateState F n_owned points count draw t) i =
      initialState (S.transform n q.position) (S.transformVector n) it.compute (points i) t := by
    funext c
    refine (hv i hi c).trans ?_
    rw [hg]
    rfl
  obtain ⟨e1, -, -, e4, e5⟩ := C47_initial_state (S.transform n q.position) (S.transformVector n) (hiso n) it.compute pr
    (points i) t
  obtain ⟨p1, p2⟩ := hcfg it hmem.1 hmem.2 (S.transform n q.position (points i))
  dsimp only
  rw [he]
  exact ⟨e1 ▸ p1, e4 ▸ p2, e1, e4, e5⟩

/-- C131 (Euler in two dimensions): with the transformations of the code. -/
theorem C131_euler2 (pr : Euler.Params) (list : List (Configuration 2 4 0))
    (q : Parameters 2) (F : Functions 2 4 0) (h : parse euler2 list q = .ok F) (n_owned : ℕ) (points : ℕ → Vec 2)
    (count : ℕ → ℕ) (hc : ∀ i < n_owned, 0 < count i) (draw : ℕ → ℕ → ℕ → Fin 4 → ℝ) (t : ℝ)
    (ht : 0 < t ∨ q.perturbation = 0)
    (hcfg : ∀ it ∈ list, it.name = q.configuration → ∀ x,
      0 < Euler.density (dim := 2) (it.compute x t) ∧ 0 < Euler.internalEnergy (dim := 2) (it.compute x t)) :
    ∃ n, ∃ it ∈ list, normalizeDirection q.direction = some n ∧ it.name = q.configuration ∧ ∀ i < n_owned,
      let U : Euler.State 2 := entry 4 (interpolateState F n_owned points count draw t) i
      let V : Euler.State 2 := it.compute (transform2 n q.position (points i)) t
      0 < Euler.density U ∧ 0 < Euler.internalEnergy U ∧ Euler.density U = Euler.density V ∧
        Euler.internalEnergy U = Euler.internalEnergy V ∧ Euler.pressure pr U = Euler.pressure pr V :=
  C131_euler (d := 2) euler2 rfl (fun n v => by
    rw [normSq_eq_dot, normSq_eq_dot]; exact C47_isometry.2.1 n v v) pr list q F h n_owned points count hc draw t ht hcfg

/-- C131 (Euler in three dimensions): with the transformations of the code. -/
theorem C131_euler3 (pr : Euler.Params) (list : List (Configuration 3 5 0))
    (q : Parameters 3) (F : Functions 3 5 0) (h : parse euler3 list q = .ok F) (n_owned : ℕ) (points : ℕ → Vec 3)
    (count : ℕ → ℕ) (hc : ∀ i < n_owned, 0 < count i) (draw : ℕ → ℕ → ℕ → Fin 5 → ℝ) (t : ℝ)
    (ht : 0 < t ∨ q.perturbation = 0)
    (hcfg : ∀ it ∈ list, it.name = q.configuration → ∀ x,
      0 < Euler.density (dim := 3) (it.compute x t) ∧ 0 < Euler.internalEnergy (dim := 3) (it.compute x t)) :
    ∃ n, ∃ it ∈ list, normalizeDirection q.direction = some n ∧ it.name = q.configuration ∧ ∀ i < n_owned,
      let U : Euler.State 3 := entry 5 (interpolateState F n_owned points count draw t) i
      let V : Euler.State 3 := it.compute (transform3 n q.position (points i)) t
      0 < Euler.density U ∧ 0 < Euler.internalEnergy U ∧ Euler.density U = Euler.density V ∧
        Euler.internalEnergy U = Euler.internalEnergy V ∧ Euler.pressure pr U = Euler.pressure pr V :=
  C131_euler (d := 3) euler3 rfl (fun n v => by
    rw [normSq_eq_dot, normSq_eq_dot]; exact C47_isometry.2.2.2 n v v) pr list q F h n_owned points count hc draw t ht hcfg

/-- A moving gas with a density gradient, a direction and a position: the hypotheses of `C131_euler2`. -/
example : let list : List (Configuration 2 4 0) := [⟨"uniform", fun x _ => ![1 + x 0 ^ 2, 1, 0, 3], fun _ => ![]⟩]
    let q : Parameters 2 := ⟨"uniform", ![3, 4], ![1, 0], 0⟩
    (∃ F, parse euler2 list q = .ok F) ∧
    ∀ it ∈ list, it.name = q.configuration → ∀ x,
      0 < Euler.density (dim := 2) (it.compute x 0) ∧ 0 < Euler.internalEnergy (dim := 2) (it.compute x 0) := by
  dsimp only
  refine ⟨?_, fun it hit _ x => ?_⟩
  · have hn : normalizeDirection (![3, 4] : Vec 2) = some fun i => (![3, 4] : Vec 2) i / vnorm ![3, 4] := by
      unfold normalizeDirection
      refine if_neg ?_
      unfold vnorm
      rw [show normSq (![3, 4] : Vec 2) = 25 by norm_num [normSq, Fin.sum_univ_two]]
      exact (Real.sqrt_pos.2 (by norm_num)).ne'
    unfold parse selectConfiguration
    rw [hn]
    exact ⟨_, rfl⟩
  · rw [List.mem_singleton] at hit
    subst hit
    have h1 : (0 : ℝ) < 1 + x 0 ^ 2 := by positivity
    refine ⟨h1, ?_⟩
    have e : Euler.internalEnergy (dim := 2) ![1 + x 0 ^ 2, 1, 0, 3] = 3 - 1 / (2 * (1 + x 0 ^ 2)) := by
      simp only [Euler.internalEnergy, Euler.totalEnergy, Euler.density, Euler.momentum, normSq, Fin.sum_univ_two]
      simp
      field_simp
    show 0 < Euler.internalEnergy (dim := 2) ![1 + x 0 ^ 2, 1, 0, 3]
    rw [e, sub_pos, div_lt_iff₀ (by positivity)]
    nlinarith [sq_nonneg (x 0)]

/-- C131 (lake at rest): a shallow water configuration in which the water does not move and the free surface (depth plus
bathymetry) has the same height everywhere is a lake at rest in every owned entry of the vectors the simulation starts with,
for every direction and position. -/
theorem C131_lake_at_rest (list : List (Configuration 2 3 1)) (q : Parameters 2) (F : Functions 2 3 1)
    (h : parse shallowWater2 list q = .ok F) (n_owned : ℕ) (points : ℕ → Vec 2) (count : ℕ → ℕ)
    (hc : ∀ i < n_owned, 0 < count i) (draw : ℕ → ℕ → ℕ → Fin 3 → ℝ) (t : ℝ) (ht : 0 < t ∨ q.perturbation = 0) (level : ℝ)
    (hcfg : ∀ it ∈ list, it.name = q.configuration → ∀ x, ShallowWater.momentum (dim := 2) (it.compute x t) = 0 ∧
      ShallowWater.waterDepth (dim := 2) (it.compute x t) + it.precompute x 0 = level) :
    ∀ i < n_owned,
      ShallowWater.momentum (dim := 2) (entry 3 (interpolateState F n_owned points count draw t) i) = 0 ∧
      ShallowWater.waterDepth (dim := 2) (entry 3 (interpolateState F n_owned points count draw t) i) +
        entry 1 (interpolatePrecomputed F n_owned points count) i 0 = level := by
  intro i hi
  obtain ⟨n, it, hn, hs, hv⟩ := C131_values shallowWater2 list q F h n_owned points count hc draw t ht
  obtain ⟨n', it', hn', hs', hv'⟩ := C131_precomputed shallowWater2 list q F h n_owned points count hc
  obtain rfl : n = n' := Option.some.inj (hn.symm.trans hn')
  have : it = it' := by rw [hs] at hs'; cases hs'; rfl
  subst this
  have hmem := select_mem hs
  obtain ⟨m0, hl⟩ := hcfg it hmem.1 hmem.2 (transform2 n q.position (points i))
  have he : entry 3 (interpolateState F n_owned points count draw t) i =
      ShallowWater.applyGalileiTransform (dim := 2) (it.compute (transform2 n q.position (points i)) t)
        (transformVector2 n) := by
    funext c
    exact hv i hi c
  have hz : transformVector2 n 0 = 0 := by
    unfold transformVector2 unroll
    dsimp only
    split_ifs
    · funext j; simp
    · rfl
  rw [he]
  refine ⟨?_, ?_⟩
  · simp only [ShallowWater.applyGalileiTransform]
    rw [m0, hz]
    funext j
    simp [ShallowWater.momentum, ShallowWater.mkState]
  · have e2 : entry 1 (interpolatePrecomputed F n_owned points count) i 0 =
        it.precompute (transform2 n q.position (points i)) 0 := hv' i hi 0
    rw [e2, ← hl]
    rfl

/-- A lake with a bump, a direction and a position: the hypotheses of `C131_lake_at_rest`. -/
example : let list : List (Configuration 2 3 1) := [⟨"uniform", fun x _ => ![2 - x 0, 0, 0], fun x => ![x 0]⟩]
    let q : Parameters 2 := ⟨"uniform", ![3, 4], ![1, 0], 0⟩
    (∃ F, parse shallowWater2 list q = .ok F) ∧
    ∀ it ∈ list, it.name = q.configuration → ∀ x, ShallowWater.momentum (dim := 2) (it.compute x 0) = 0 ∧
      ShallowWater.waterDepth (dim := 2) (it.compute x 0) + it.precompute x 0 = 2 := by
  dsimp only
  refine ⟨?_, fun it hit _ x => ?_⟩
  · have hn : normalizeDirection (![3, 4] : Vec 2) = some fun i => (![3, 4] : Vec 2) i / vnorm ![3, 4] := by
      unfold normalizeDirection
      refine if_neg ?_
      unfold vnorm
      rw [show normSq (![3, 4] : Vec 2) = 25 by norm_num [normSq, Fin.sum_univ_two]]
      exact (Real.sqrt_pos.2 (by norm_num)).ne'
    unfold parse selectConfiguration
    rw [hn]
    exact ⟨_, rfl⟩
  · rw [List.mem_singleton] at hit
    subst hit
    refine ⟨?_, ?_⟩
    · funext j
      fin_cases j <;> simp [ShallowWater.momentum]
    · simp [ShallowWater.waterDepth]

end InitialValues
end Ryujin
