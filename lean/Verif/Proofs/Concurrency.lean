import Verif.Model.Concurrency
import Mathlib.Algebra.Order.BigOperators.Group.Finset
import Mathlib.Data.Fintype.Card
import Mathlib.Order.Bounds.Basic
import Mathlib.Tactic.Linarith

/-! # Invariants of the concurrent models -/

namespace Ryujin

namespace TauReduction

variable {T : Type}

/-- Invariant of the reduction. -/
structure Inv (loc : T → ℝ) (tau0 : ℝ) (s : Conf T) : Prop where
  le_init : s.tau_max ≤ tau0
  mem : s.tau_max = tau0 ∨ ∃ t, s.tau_max = loc t
  loop_ge : ∀ t c, s.pc t = .loop c → s.tau_max ≤ c
  done_le : ∀ t, s.pc t = .done → s.tau_max ≤ loc t

theorem inv_init (loc : T → ℝ) (tau0 : ℝ) : Inv loc tau0 (init T tau0) :=
  ⟨le_refl _, Or.inl rfl, fun t c h => by simp [init] at h, fun t h => by simp [init] at h⟩

theorem inv_step {loc : T → ℝ} {tau0 : ℝ} {s s' : Conf T} {k : Kind} (hi : Inv loc tau0 s)
    (hs : Step loc s k s') : Inv loc tau0 s' := by
  classical
  cases hs with
  | load t h =>
    refine ⟨hi.le_init, hi.mem, ?_, ?_⟩
    · intro u c hu
      rcases eq_or_ne u t with rfl | hne
      · simp at hu; simp [hu]
      · simp [hne] at hu; exact hi.loop_ge u c hu
    · intro u hu
      rcases eq_or_ne u t with rfl | hne
      · simp at hu
      · simp [hne] at hu; exact hi.done_le u hu
  | exit t c h hc =>
    refine ⟨hi.le_init, hi.mem, ?_, ?_⟩
    · intro u c' hu
      rcases eq_or_ne u t with rfl | hne
      · simp at hu
      · simp [hne] at hu; exact hi.loop_ge u c' hu
    · intro u hu
      rcases eq_or_ne u t with rfl | hne
      · exact le_trans (hi.loop_ge u c h) (not_lt.mp hc)
      · simp [hne] at hu; exact hi.done_le u hu
  | success t c h hc heq =>
    have hlt : loc t < s.tau_max := by rw [heq]; exact hc
    refine ⟨le_trans hlt.le hi.le_init, Or.inr ⟨t, rfl⟩, ?_, ?_⟩
    · intro u c' hu
      rcases eq_or_ne u t with rfl | hne
      · simp at hu
      · simp [hne] at hu; exact le_trans hlt.le (hi.loop_ge u c' hu)
    · intro u hu
      rcases eq_or_ne u t with rfl | hne
      · exact le_refl _
      · simp [hne] at hu; exact le_trans hlt.le (hi.done_le u hu)
  | failure t c h hc hne' =>
    refine ⟨hi.le_init, hi.mem, ?_, ?_⟩
    · intro u c hu
      rcases eq_or_ne u t with rfl | hne
      · simp at hu; simp [hu]
      · simp [hne] at hu; exact hi.loop_ge u c hu
    · intro u hu
      rcases eq_or_ne u t with rfl | hne
      · simp at hu
      · simp [hne] at hu; exact hi.done_le u hu
  | spurious t c h hc heq =>
    refine ⟨hi.le_init, hi.mem, ?_, ?_⟩
    · intro u c hu
      rcases eq_or_ne u t with rfl | hne
      · simp at hu; simp [hu]
      · simp [hne] at hu; exact hi.loop_ge u c hu
    · intro u hu
      rcases eq_or_ne u t with rfl | hne
      · simp at hu
      · simp [hne] at hu; exact hi.done_le u hu

theorem inv_run {loc : T → ℝ} {tau0 : ℝ} {s : Conf T} {ks : List Kind}
    (hr : Run loc (init T tau0) ks s) : Inv loc tau0 s := by
  induction hr with
  | nil => exact inv_init loc tau0
  | snoc _ hs ih => exact inv_step ih hs

open Classical in
/-- Work left for one thread. -/
noncomputable def weight (n : ℕ) (tau : ℝ) : Pc → ℕ
  | .start => n + 2
  | .loop c => if c = tau then n + 1 else n + 2
  | .done => 0

/-- Work left for all threads. -/
noncomputable def potential [Fintype T] (s : Conf T) : ℕ :=
  ∑ t, weight (Fintype.card T) s.tau_max (s.pc t)

theorem weight_change (n : ℕ) (tau tau' : ℝ) (p : Pc) : weight n tau' p ≤ weight n tau p + 1 := by
  cases p <;> simp only [weight] <;> (try split_ifs) <;> omega

theorem potential_step [Fintype T] {loc : T → ℝ} {s s' : Conf T} {k : Kind} (hs : Step loc s k s') :
    potential s' + (if k = .spurious then 0 else 1) ≤ potential s := by
  classical
  have upd : ∀ (t : T) (p : Pc) (tau : ℝ),
      (∑ u, weight (Fintype.card T) tau (Function.update s.pc t p u))
        = weight (Fintype.card T) tau p
          + ∑ u ∈ Finset.univ.erase t, weight (Fintype.card T) tau (s.pc u) := by
    intro t p tau
    rw [← Finset.add_sum_erase _ _ (Finset.mem_univ t)]
    congr 1
    · simp
    · refine Finset.sum_congr rfl fun u hu => ?_
      rw [Function.update_of_ne (Finset.ne_of_mem_erase hu)]
  have old : ∀ t : T, potential s = weight (Fintype.card T) s.tau_max (s.pc t)
      + ∑ u ∈ Finset.univ.erase t, weight (Fintype.card T) s.tau_max (s.pc u) := by
    intro t
    rw [potential, ← Finset.add_sum_erase _ _ (Finset.mem_univ t)]
  cases hs with
  | load t h =>
    rw [old t, h]; simp only [potential]; rw [upd]; simp [weight]; omega
  | exit t c h hc =>
    rw [old t, h]; simp only [potential]; rw [upd]; simp [weight]; split_ifs <;> omega
  | success t c h hc heq =>
    rw [old t, h]; simp only [potential]; rw [upd]
    have hb : ∑ u ∈ Finset.univ.erase t, weight (Fintype.card T) (loc t) (s.pc u)
        ≤ ∑ u ∈ Finset.univ.erase t, (weight (Fintype.card T) s.tau_max (s.pc u) + 1) :=
      Finset.sum_le_sum fun u _ => weight_change _ _ _ _
    rw [Finset.sum_add_distrib, Finset.sum_const, Finset.card_erase_of_mem (Finset.mem_univ t),
      Finset.card_univ, smul_eq_mul, mul_one] at hb
    have h1 : weight (Fintype.card T) s.tau_max (.loop c) = Fintype.card T + 1 := by simp [weight, heq]
    have h2 : weight (Fintype.card T) (loc t) .done = 0 := rfl
    have h3 : (if Kind.success = Kind.spurious then 0 else 1) = 1 := rfl
    rw [h1, h2, h3]
    omega
  | failure t c h hc hne =>
    rw [old t, h]; simp only [potential]; rw [upd]
    have : ¬ c = s.tau_max := fun h => hne h.symm
    simp [weight, this]; omega
  | spurious t c h hc heq =>
    rw [old t, h]; simp only [potential]; rw [upd]; simp [weight, heq]

theorem potential_run [Fintype T] {loc : T → ℝ} {s s' : Conf T} {ks : List Kind} (hr : Run loc s ks s') :
    potential s' + (ks.filter (fun k => k ≠ .spurious)).length ≤ potential s := by
  induction hr with
  | nil => simp
  | @snoc u v ks k _ hs ih =>
    have := potential_step hs
    rw [List.filter_append, List.length_append]
    by_cases hk : k = .spurious
    · simp [hk] at this ⊢
      simp at ih
      omega
    · simp [hk] at this ⊢
      simp at ih
      omega

end TauReduction

namespace Lazy

variable {T α : Type}

/-- Program counters inside the critical section. -/
def Inside : Pc → Prop
  | .recheck | .create | .emplacing | .store | .unlock | .unwind => True
  | _ => False

/-- Nobody is between `emplace` and the release store: either initialised or untouched. -/
def Quiet (s : Conf T α) : Prop :=
  (s.flag = true ∧ ∃ v, s.object = .full v ∧ s.created = 1 ∧ ∀ x ∈ s.seen, x = some v)
    ∨ (s.flag = false ∧ s.object = .empty ∧ s.created = 0 ∧ s.seen = [])

/-- What holds of the shared variables while the owner of the mutex is at the given place. -/
def Phase (s : Conf T α) : Pc → Prop
  | .create => Quiet s ∧ s.flag = false
  | .emplacing => s.object = .constructing ∧ s.created = 0 ∧ s.flag = false ∧ s.seen = []
  | .store => (∃ v, s.object = .full v) ∧ s.created = 1 ∧ s.flag = false ∧ s.seen = []
  | .unlock => Quiet s ∧ s.flag = true
  | _ => Quiet s

/-- Invariant of `Lazy`. -/
structure Inv (s : Conf T α) : Prop where
  inside : ∀ t, Inside (s.pc t) ↔ s.mutex = some t
  free : s.mutex = none → Quiet s
  owned : ∀ t, s.mutex = some t → Phase s (s.pc t)
  ready : ∀ t, s.pc t = .ready → s.flag = true

theorem inv_init : Inv (init T α) := by
  refine ⟨?_, ?_, ?_, ?_⟩ <;> simp [init, Inside, Quiet]

theorem Inv.mutual {s : Conf T α} (hi : Inv s) {t u : T} (ht : Inside (s.pc t)) (hu : Inside (s.pc u)) :
    t = u := by
  have h1 := (hi.inside t).1 ht
  have h2 := (hi.inside u).1 hu
  rw [h1] at h2
  exact Option.some.inj h2

theorem phase_pc (s : Conf T α) (f : T → Pc) (q : Pc) : Phase { s with pc := f } q ↔ Phase s q := by
  cases q <;> exact Iff.rfl

theorem mutex_cases (s : Conf T α) : s.mutex = none ∨ ∃ t, s.mutex = some t := by
  cases s.mutex <;> simp

/-- A step of a thread outside the critical section that stays outside and does not change shared variables. -/
theorem inv_outside {s : Conf T α} (hi : Inv s) {t : T} {p : Pc} (h : ¬ Inside (s.pc t)) (hp : ¬ Inside p)
    (hr : p = .ready → s.flag = true) [DecidableEq T] :
    Inv { s with pc := Function.update s.pc t p } := by
  have hne : s.mutex ≠ some t := fun hm => h ((hi.inside t).2 hm)
  refine ⟨fun u => ?_, hi.free, fun u hu => ?_, fun u hu => ?_⟩
  · rcases eq_or_ne u t with rfl | hu
    · simp [hp, hne]
    · simpa [hu] using hi.inside u
  · have hut : u ≠ t := fun e => hne (e ▸ hu)
    rw [phase_pc]
    simpa [hut] using hi.owned u hu
  · rcases eq_or_ne u t with rfl | hut
    · simp at hu; exact hr hu
    · simp [hut] at hu; exact hi.ready u hu

/-- A step of the owner of the mutex that stays inside the critical section. -/
theorem inv_inside {s s' : Conf T α} (hi : Inv s) {t : T} {p : Pc} [DecidableEq T] (h : Inside (s.pc t))
    (hp : Inside p) (hpc : s'.pc = Function.update s.pc t p) (hm : s'.mutex = s.mutex)
    (hph : Phase s' p) (hf : s.flag = true → s'.flag = true) : Inv s' := by
  have hmt := (hi.inside t).1 h
  refine ⟨fun u => ?_, fun hn => ?_, fun u hu => ?_, fun u hu => ?_⟩
  · rw [hpc, hm]
    rcases eq_or_ne u t with rfl | hu
    · simp [hp, hmt]
    · simpa [hu] using hi.inside u
  · rw [hm, hmt] at hn; cases hn
  · rw [hm, hmt] at hu
    cases hu
    rw [hpc]; simpa using hph
  · rw [hpc] at hu
    rcases eq_or_ne u t with rfl | hut
    · simp at hu; rw [hu] at hp; exact hp.elim
    · simp [hut] at hu; exact hf (hi.ready u hu)

/-- The owner releases the mutex. -/
theorem inv_release {s : Conf T α} (hi : Inv s) {t : T} {p : Pc} [DecidableEq T] (h : Inside (s.pc t))
    (hp : ¬ Inside p) (hq : Quiet s) (hf : p = .ready → s.flag = true) :
    Inv { s with mutex := none, pc := Function.update s.pc t p } := by
  have hmt := (hi.inside t).1 h
  refine ⟨fun u => ?_, fun _ => hq, fun u hu => (by cases hu), fun u hu => ?_⟩
  · rcases eq_or_ne u t with rfl | hu
    · simp [hp]
    · have := hi.inside u
      rw [hmt] at this
      have hn : ¬ Inside (s.pc u) := fun hh => hu (Option.some.inj (this.1 hh)).symm
      simp [hu, hn]
  · rcases eq_or_ne u t with rfl | hut
    · simp at hu; exact hf hu
    · simp [hut] at hu; exact hi.ready u hu

theorem inv_step {s s' : Conf T α} (hi : Inv s) (hs : Step s s') : Inv s' := by
  classical
  have key : ∀ t, Inside (s.pc t) → Phase s (s.pc t) := fun t ht => hi.owned t ((hi.inside t).1 ht)
  cases hs with
  | call t h => exact inv_outside hi (by simp [h, Inside]) (by simp [Inside]) (by simp)
  | fast t h hf => exact inv_outside hi (by simp [h, Inside]) (by simp [Inside]) (fun _ => hf)
  | slow t h hf => exact inv_outside hi (by simp [h, Inside]) (by simp [Inside]) (by simp)
  | lock t h hm =>
    refine ⟨fun u => ?_, fun hn => ?_, fun u hu => ?_, fun u hu => ?_⟩
    · rcases eq_or_ne u t with rfl | hu
      · simp [Inside]
      · have := hi.inside u
        rw [hm] at this
        have hn : ¬ Inside (s.pc u) := fun hh => by cases this.1 hh
        simp [hu, hn, Ne.symm hu]
    · cases hn
    · have : u = t := by simpa using hu.symm
      subst this
      have := hi.free hm
      simpa [Phase, Quiet] using this
    · rcases eq_or_ne u t with rfl | hut
      · simp at hu
      · simp [hut] at hu; exact hi.ready u hu
  | recheckTrue t h hf =>
    have hin : Inside (s.pc t) := by simp [h, Inside]
    have hk := key t hin
    rw [h] at hk
    exact inv_inside hi hin (p := .unlock) trivial rfl rfl ⟨hk, hf⟩ id
  | recheckFalse t h hf =>
    have hin : Inside (s.pc t) := by simp [h, Inside]
    have hk := key t hin
    rw [h] at hk
    exact inv_inside hi hin (p := .create) trivial rfl rfl ⟨hk, hf⟩ id
  | throws t h =>
    have hin : Inside (s.pc t) := by simp [h, Inside]
    have hk := key t hin
    rw [h] at hk
    exact inv_inside hi hin (p := .unwind) trivial rfl rfl hk.1 id
  | emplaceBegin t h =>
    have hin : Inside (s.pc t) := by simp [h, Inside]
    have hk := key t hin
    rw [h] at hk
    obtain ⟨hq, hf⟩ := hk
    rcases hq with ⟨hq, _⟩ | ⟨_, _, hc, hn⟩
    · rw [hf] at hq; cases hq
    · exact inv_inside hi hin (p := .emplacing) trivial rfl rfl ⟨rfl, hc, hf, hn⟩ id
  | emplaceEnd t v h =>
    have hin : Inside (s.pc t) := by simp [h, Inside]
    have hk := key t hin
    rw [h] at hk
    obtain ⟨_, hc, hf, hn⟩ := hk
    exact inv_inside hi hin (p := .store) trivial rfl rfl ⟨⟨v, rfl⟩, by simp [hc], hf, hn⟩ id
  | emplaceThrows t h =>
    have hin : Inside (s.pc t) := by simp [h, Inside]
    have hk := key t hin
    rw [h] at hk
    obtain ⟨_, hc, hf, hn⟩ := hk
    exact inv_inside hi hin (p := .unwind) trivial rfl rfl (Or.inr ⟨hf, rfl, hc, hn⟩) id
  | store t h =>
    have hin : Inside (s.pc t) := by simp [h, Inside]
    have hk := key t hin
    rw [h] at hk
    obtain ⟨⟨v, hv⟩, hc, hf, hn⟩ := hk
    refine inv_inside hi hin (p := .unlock) trivial rfl rfl ⟨Or.inl ⟨rfl, v, hv, hc, ?_⟩, rfl⟩ fun _ => rfl
    intro x hx
    simp only [hn] at hx
    cases hx
  | unlock t h =>
    have hin : Inside (s.pc t) := by simp [h, Inside]
    have hk := key t hin
    rw [h] at hk
    exact inv_release hi hin (by simp [Inside]) hk.1 fun _ => hk.2
  | unwind t h =>
    have hin : Inside (s.pc t) := by simp [h, Inside]
    have hk := key t hin
    rw [h] at hk
    exact inv_release hi hin (by simp [Inside]) hk (by simp)
  | value t h =>
    have hf := hi.ready t h
    have hnin : ¬ Inside (s.pc t) := by simp [h, Inside]
    have hb := inv_outside hi (p := .idle) hnin (by simp [Inside]) (by simp)
    have hq : ∀ x : Conf T α, Quiet x → x.flag = true →
        Quiet { x with seen := x.seen ++ [match x.object with | .full v => some v | _ => none] } := by
      intro x hx hxf
      rcases hx with ⟨_, v, hv, hc, hs⟩ | ⟨hff, _⟩
      · refine Or.inl ⟨hxf, v, hv, hc, ?_⟩
        intro y hy
        simp only [hv, List.mem_append, List.mem_singleton] at hy
        rcases hy with hy | hy
        · exact hs y hy
        · exact hy
      · rw [hxf] at hff; cases hff
    refine ⟨hb.inside, fun hn => hq _ (hb.free hn) hf, fun u hu => ?_, hb.ready⟩
    have ho := hb.owned u hu
    have hIn := (hb.inside u).2 hu
    revert ho hIn
    generalize hp : (Function.update s.pc t Pc.idle) u = p
    intro ho hIn
    show Phase _ (Function.update s.pc t Pc.idle u)
    rw [hp]
    simp only [hp] at ho
    cases p with
    | recheck => exact hq _ ho hf
    | unwind => exact hq _ ho hf
    | unlock => exact ⟨hq _ ho.1 hf, hf⟩
    | create => have := ho.2; simp only [hf] at this; cases this
    | emplacing => have := ho.2.2.1; simp only [hf] at this; cases this
    | store => have := ho.2.2.1; simp only [hf] at this; cases this
    | _ => simp only [hp] at hIn; exact hIn.elim
  | reset h =>
    have hm : s.mutex = none := by
      rcases mutex_cases s with hm | ⟨t, hm⟩
      · exact hm
      · have := (hi.inside t).2 hm
        rw [h t] at this; exact this.elim
    refine ⟨hi.inside, fun _ => Or.inr ⟨rfl, rfl, rfl, rfl⟩, fun u hu => ?_, fun u hu => ?_⟩
    · simp only [hm] at hu; cases hu
    · simp only [h u] at hu; cases hu

theorem inv_reach {s : Conf T α} (hr : Reach (init T α) s) : Inv s := by
  induction hr with
  | refl => exact inv_init
  | step _ hs ih => exact inv_step ih hs

end Lazy

namespace Dispatch

variable {T : Type} [Fintype T]

/-- The indices a thread has not computed yet. -/
def remaining : Pc → List ℕ
  | .loop l => l
  | .counted _ i l => i :: l
  | .work i l => i :: l
  | .finished => []

/-- Invariant of the dispatch. -/
structure Inv (nexp : ℕ) (work : T → List ℕ) (done : ℕ → Prop) (s : Conf T) : Prop where
  count : s.n_threads_ready = ∑ t, if s.thread_ready t = true then 1 else 0
  counted : ∀ t k i l, s.pc t = .counted k i l → k ≤ s.n_threads_ready
  unique : ∀ t u i l i' l', s.pc t = .counted (Fintype.card T) i l → s.pc u = .counted (Fintype.card T) i' l' →
    t = u
  once : s.launched ≤ 1
  full : 0 < s.launched → s.n_threads_ready = Fintype.card T
    ∧ ∀ t i l, s.pc t ≠ .counted (Fintype.card T) i l
  progress : ∀ t, ∃ pre, work t = pre ++ remaining (s.pc t) ∧ ∀ k ∈ pre, s.computed k
  past : ∀ t, s.thread_ready t = true → ∀ k ∈ remaining (s.pc t), nexp ≤ k
  kept : ∀ k, done k → s.computed k
  alive : s.destroyed = false → s.inDestructor = 0
  dead : s.destroyed = true → s.launched + s.inDestructor = 1 ∧ ∀ t, s.pc t = .finished
  start : ∀ P, s.atStart = some P → (∀ k, done k → P k) ∧ ∀ t, ∀ k ∈ work t, k < nexp → P k
  started : s.atStart.isSome = true ↔ 0 < s.launched + s.inDestructor

theorem inv_init (nexp : ℕ) (work : T → List ℕ) (done : ℕ → Prop) :
    Inv nexp work done (init work done) := by
  refine ⟨?_, ?_, ?_, ?_, ?_, ?_, ?_, ?_, ?_, ?_, ?_, ?_⟩ <;> simp [init, remaining]

theorem ready_le (s : Conf T) : (∑ t, if s.thread_ready t = true then 1 else 0) ≤ Fintype.card T := by
  calc (∑ t, if s.thread_ready t = true then 1 else 0) ≤ ∑ _t : T, 1 :=
        Finset.sum_le_sum fun t _ => by split_ifs <;> omega
    _ = Fintype.card T := by simp

theorem all_ready {s : Conf T} (h : (∑ t, if s.thread_ready t = true then 1 else 0) = Fintype.card T) (t : T) :
    s.thread_ready t = true := by
  classical
  by_contra hn
  have h1 := Finset.add_sum_erase Finset.univ (fun t => if s.thread_ready t = true then 1 else 0)
    (Finset.mem_univ t)
  have h2 : (∑ u ∈ Finset.univ.erase t, if s.thread_ready u = true then 1 else 0)
      ≤ ∑ _u ∈ Finset.univ.erase t, 1 := Finset.sum_le_sum fun t _ => by split_ifs <;> omega
  have h3 : 0 < Fintype.card T := Fintype.card_pos_iff.2 ⟨t⟩
  rw [Finset.sum_const, Finset.card_erase_of_mem (Finset.mem_univ t), Finset.card_univ, smul_eq_mul, mul_one] at h2
  rw [if_neg hn] at h1
  omega

/-- All exported indices are computed once every thread has signalled. -/
theorem Inv.exported {nexp : ℕ} {work : T → List ℕ} {done : ℕ → Prop} {s : Conf T}
    (hi : Inv nexp work done s) (hc : s.n_threads_ready = Fintype.card T) :
    ∀ t, ∀ k ∈ work t, k < nexp → s.computed k := by
  intro t k hk hlt
  obtain ⟨pre, hw, hp⟩ := hi.progress t
  rw [hw] at hk
  rcases List.mem_append.1 hk with h | h
  · exact hp k h
  · have := hi.past t (all_ready (hi.count ▸ hc) t) k h
    omega

/-- A step that only moves thread `t` without changing its remaining indices. -/
theorem inv_move {nexp : ℕ} {work : T → List ℕ} {done : ℕ → Prop} {s : Conf T} [DecidableEq T]
    (hi : Inv nexp work done s) (t : T) (p : Pc) (hr : remaining p = remaining (s.pc t))
    (hp : ∀ k i l, p ≠ .counted k i l) (hf : s.pc t ≠ .finished) :
    Inv nexp work done { s with pc := Function.update s.pc t p } := by
  have hrem : ∀ u, remaining (Function.update s.pc t p u) = remaining (s.pc u) := by
    intro u
    rcases eq_or_ne u t with rfl | hu
    · simp [hr]
    · simp [hu]
  have hcnt : ∀ u k i l, Function.update s.pc t p u = .counted k i l → s.pc u = .counted k i l := by
    intro u k i l h
    rcases eq_or_ne u t with rfl | hu
    · simp at h; exact absurd h (hp k i l)
    · simpa [hu] using h
  refine ⟨hi.count, ?_, ?_, hi.once, ?_, ?_, ?_, hi.kept, hi.alive, ?_, hi.start, hi.started⟩
  · intro u k i l h; exact hi.counted u k i l (hcnt u k i l h)
  · intro u v i l i' l' h h'
    exact hi.unique u v i l i' l' (hcnt _ _ _ _ h) (hcnt _ _ _ _ h')
  · intro h
    refine ⟨(hi.full h).1, fun u i l hu => (hi.full h).2 u i l (hcnt _ _ _ _ hu)⟩
  · intro u
    obtain ⟨pre, h1, h2⟩ := hi.progress u
    exact ⟨pre, by simpa [hrem u] using h1, h2⟩
  · intro u hu k hk
    exact hi.past u hu k (by simpa [hrem u] using hk)
  · intro hd
    exact absurd ((hi.dead hd).2 t) hf

theorem inv_step {nexp nint : ℕ} {work : T → List ℕ} {done : ℕ → Prop}
    (hsorted : ∀ t, (work t).Pairwise (· < ·)) {s s' : Conf T}
    (hi : Inv nexp work done s) (hs : Step (Fintype.card T) nexp nint s s') : Inv nexp work done s' := by
  classical
  cases hs with
  | checkSkip t i l h hc =>
    exact inv_move hi t _ (by rw [h]; rfl) (by simp) (by simp [h])
  | noLaunch t k i l h hk =>
    exact inv_move hi t _ (by rw [h]; rfl) (by simp) (by simp [h])
  | finish t h =>
    exact inv_move hi t _ (by rw [h]; rfl) (by simp) (by simp [h])
  | checkCount t i l h hc =>
    obtain ⟨hr, hge, _⟩ := hc
    have hcnt : s.n_threads_ready + 1
        = ∑ u, if Function.update s.thread_ready t true u = true then 1 else 0 := by
      rw [hi.count, ← Finset.add_sum_erase Finset.univ
          (fun u => if Function.update s.thread_ready t true u = true then 1 else 0) (Finset.mem_univ t),
        ← Finset.add_sum_erase Finset.univ
          (fun u => if s.thread_ready u = true then 1 else 0) (Finset.mem_univ t)]
      have : ∑ u ∈ Finset.univ.erase t, (if Function.update s.thread_ready t true u = true then 1 else 0)
          = ∑ u ∈ Finset.univ.erase t, (if s.thread_ready u = true then 1 else 0) :=
        Finset.sum_congr rfl fun u hu => by rw [Function.update_of_ne (Finset.ne_of_mem_erase hu)]
      rw [this]
      simp [hr]
      omega
    have hlt : s.n_threads_ready + 1 ≤ Fintype.card T := by
      rw [hcnt]
      exact ready_le { s with thread_ready := Function.update s.thread_ready t true }
    have hl0 : s.launched = 0 := by
      by_contra hne
      have := (hi.full (Nat.pos_of_ne_zero hne)).1
      omega
    have hrem : ∀ u, remaining (Function.update s.pc t (.counted (s.n_threads_ready + 1) i l) u)
        = remaining (s.pc u) := by
      intro u
      rcases eq_or_ne u t with rfl | hu
      · simp [h, remaining]
      · simp [hu]
    have hold : ∀ u k i' l', u ≠ t →
        Function.update s.pc t (.counted (s.n_threads_ready + 1) i l) u = .counted k i' l' →
        k ≤ s.n_threads_ready := by
      intro u k i' l' hu hh
      rw [Function.update_of_ne hu] at hh
      exact hi.counted u k i' l' hh
    refine ⟨hcnt, ?_, ?_, hi.once, ?_, ?_, ?_, hi.kept, hi.alive, ?_, hi.start, hi.started⟩
    · intro u k i' l' hu
      rcases eq_or_ne u t with rfl | hut
      · simp at hu; show k ≤ s.n_threads_ready + 1; omega
      · have := hold u k i' l' hut hu
        show k ≤ s.n_threads_ready + 1; omega
    · intro u v i1 l1 i2 l2 h1 h2
      rcases eq_or_ne u t with rfl | hut
      · rcases eq_or_ne v u with rfl | hvt
        · rfl
        · have := hold v _ _ _ hvt h2; omega
      · have := hold u _ _ _ hut h1; omega
    · intro hp; simp [hl0] at hp
    · intro u
      obtain ⟨pre, h1, h2⟩ := hi.progress u
      exact ⟨pre, by simpa [hrem u] using h1, h2⟩
    · intro u hu k hk
      simp only [hrem u] at hk
      rcases eq_or_ne u t with rfl | hut
      · rw [h] at hk
        obtain ⟨pre, h1, _⟩ := hi.progress u
        have hso := hsorted u
        rw [h1, h] at hso
        have h3 := (List.pairwise_append.1 hso).2.1
        simp only [remaining] at h3 hk
        rcases List.mem_cons.1 hk with rfl | hk
        · exact hge
        · have := (List.pairwise_cons.1 h3).1 k hk
          omega
      · simp [hut] at hu
        exact hi.past u hu k hk
    · intro hd
      have := (hi.dead hd).2 t
      rw [h] at this; cases this
  | launch t k i l h hk =>
    subst hk
    have hle := hi.counted t _ i l h
    have hge := ready_le s
    rw [← hi.count] at hge
    have hfull : s.n_threads_ready = Fintype.card T := le_antisymm hge hle
    have hl0 : s.launched = 0 := by
      by_contra hne
      exact (hi.full (Nat.pos_of_ne_zero hne)).2 t i l h
    have hm := inv_move hi t (.work i l) (by rw [h]; rfl) (by simp) (by simp [h])
    have hd0 : s.destroyed = false := by
      cases hd : s.destroyed with
      | false => rfl
      | true => have := (hi.dead hd).2 t; rw [h] at this; cases this
    have hnone : s.atStart = none := by
      have := hi.started
      rw [hl0, hi.alive hd0] at this
      cases hs : s.atStart with
      | none => rfl
      | some P => rw [hs] at this; simp at this
    refine ⟨hm.count, hm.counted, hm.unique, ?_, ?_, hm.progress, hm.past, hm.kept, hm.alive, ?_, ?_, ?_⟩
    · show s.launched + 1 ≤ 1; omega
    · intro _
      refine ⟨hfull, ?_⟩
      intro u i' l' hu
      rcases eq_or_ne u t with rfl | hut
      · simp at hu
      · simp [hut] at hu
        exact hut (hi.unique u t _ _ _ _ hu h)
    · intro hd
      simp only [hd0] at hd; cases hd
    · intro P hP
      simp only [hnone, Option.getD_none, Option.some.injEq] at hP
      subst hP
      exact ⟨hi.kept, hi.exported hfull⟩
    · simp
  | compute t i l h =>
    refine ⟨hi.count, ?_, ?_, hi.once, ?_, ?_, ?_, fun k hk => Or.inr (hi.kept k hk), hi.alive, ?_, hi.start,
      hi.started⟩
    · intro u k i' l' hu
      rcases eq_or_ne u t with rfl | hut
      · simp at hu
      · simp [hut] at hu; exact hi.counted u k i' l' hu
    · intro u v i1 l1 i2 l2 h1 h2
      rcases eq_or_ne u t with rfl | hut
      · simp at h1
      · rcases eq_or_ne v t with rfl | hvt
        · simp at h2
        · simp [hut] at h1; simp [hvt] at h2
          exact hi.unique _ _ _ _ _ _ h1 h2
    · intro hp
      refine ⟨(hi.full hp).1, ?_⟩
      intro u i' l' hu
      rcases eq_or_ne u t with rfl | hut
      · simp at hu
      · simp [hut] at hu
        exact (hi.full hp).2 u i' l' hu
    · intro u
      obtain ⟨pre, h1, h2⟩ := hi.progress u
      rcases eq_or_ne u t with rfl | hut
      · rw [h] at h1
        refine ⟨pre ++ [i], by simp [h1, remaining], ?_⟩
        intro k hk
        rcases List.mem_append.1 hk with hk | hk
        · exact Or.inr (h2 k hk)
        · exact Or.inl (by simpa using hk)
      · exact ⟨pre, by simpa [hut] using h1, fun k hk => Or.inr (h2 k hk)⟩
    · intro u hu k hk
      rcases eq_or_ne u t with rfl | hut
      · simp [remaining] at hk
        exact hi.past u hu k (by rw [h]; exact List.mem_cons_of_mem _ hk)
      · simp [hut] at hk; exact hi.past u hu k hk
    · intro hd
      have := (hi.dead hd).2 t
      rw [h] at this; cases this
  | destroyWait h hd hv =>
    have hi0 := hi.alive hd
    refine ⟨hi.count, hi.counted, hi.unique, hi.once, hi.full, hi.progress, hi.past, hi.kept, ?_, ?_, hi.start,
      hi.started⟩
    · intro h; cases h
    · intro _
      have := hi.once
      refine ⟨?_, h⟩
      show s.launched + s.inDestructor = 1
      omega
  | destroyRun h hd hv =>
    have hi0 := hi.alive hd
    have hl0 : s.launched = 0 := by omega
    have hnone : s.atStart = none := by
      have := hi.started
      rw [hl0, hi0] at this
      cases hs : s.atStart with
      | none => rfl
      | some P => rw [hs] at this; simp at this
    refine ⟨hi.count, hi.counted, hi.unique, hi.once, hi.full, hi.progress, hi.past, hi.kept, ?_, ?_, ?_, ?_⟩
    · intro h; cases h
    · intro _
      refine ⟨?_, h⟩
      show s.launched + (s.inDestructor + 1) = 1
      omega
    · intro P hP
      simp only [hnone, Option.getD_none, Option.some.injEq] at hP
      subst hP
      refine ⟨hi.kept, ?_⟩
      intro t k hk _
      obtain ⟨pre, h1, h2⟩ := hi.progress t
      rw [h t] at h1
      simp [remaining] at h1
      exact h2 k (h1 ▸ hk)
    · simp

theorem inv_reach {nexp nint : ℕ} {work : T → List ℕ} {done : ℕ → Prop}
    (hsorted : ∀ t, (work t).Pairwise (· < ·)) {s : Conf T}
    (hr : Reach (Fintype.card T) nexp nint (init work done) s) : Inv nexp work done s := by
  induction hr with
  | refl => exact inv_init nexp work done
  | step _ hs ih => exact inv_step hsorted ih hs

end Dispatch
end Ryujin
