import Verif.Model.TimeLoop

/-!
# C26 – crashes while a checkpoint is written

A set of four files is usable if all of them are complete and stem from the same call of `write_checkpoint`.
-/

namespace Ryujin
namespace TimeLoop

/-- The set of files is complete and was written by call number `v`. -/
def CompleteSet (files : File → Option Content) (v : ℕ) : Prop := ∀ f, files f = some ⟨v, true⟩

/-- One of the two sets of files is usable. -/
def Usable (d : Disk) : Prop := (∃ v, CompleteSet d.current v) ∨ ∃ v, CompleteSet d.backup v

/-- Operations that do not rename leave the backup alone. -/
theorem backup_of_no_rename {v : ℕ} {l : List Op} (h : ∀ f, Op.rename f ∉ l) (d : Disk) :
    (l.foldl (Op.apply v) d).backup = d.backup := by
  induction l generalizing d with
  | nil => rfl
  | cons op l ih =>
    rw [List.foldl_cons, ih (fun f hf => h f (List.mem_cons_of_mem _ hf))]
    cases op with
    | rename f => exact absurd (List.mem_cons_self ..) (h f)
    | create f => rfl
    | finish f => rfl

/-- Operations that touch neither the current file `f`. -/
theorem current_of_untouched {v : ℕ} {l : List Op} {f : File} (h1 : Op.rename f ∉ l) (h2 : Op.create f ∉ l)
    {x : Content} {d : Disk} (hx : x = ⟨v, true⟩) (hd : d.current f = some x) :
    (l.foldl (Op.apply v) d).current f = some x := by
  induction l generalizing d with
  | nil => exact hd
  | cons op l ih =>
    rw [List.foldl_cons]
    apply ih (fun h => h1 (List.mem_cons_of_mem _ h)) (fun h => h2 (List.mem_cons_of_mem _ h))
    cases op with
    | rename g =>
      have hg : f ≠ g := fun h => h1 (h ▸ List.mem_cons_self ..)
      simp only [Op.apply]
      cases d.current g with
      | none => exact hd
      | some y => simp only [Function.update_of_ne hg, hd]
    | create g =>
      have hg : f ≠ g := fun h => h2 (h ▸ List.mem_cons_self ..)
      simp only [Op.apply, Function.update_of_ne hg, hd]
    | finish g =>
      simp only [Op.apply]
      by_cases hg : f = g
      · rw [hg, Function.update_self, hx]
      · rw [Function.update_of_ne hg, hd]

theorem SaveOrder.no_rename {save : List Op} (h : SaveOrder save) (f : File) : Op.rename f ∉ save := by
  intro hm
  obtain ⟨g, -, h | h⟩ := h.only _ hm <;> simp at h

/-- The four renames, applied to an existing complete set. -/
theorem renames_backup {v w : ℕ} {d : Disk} (h : CompleteSet d.current v) :
    CompleteSet (([Op.rename .mesh, .rename .meshFixedData, .rename .meshInfo, .rename .metadata]).foldl
      (Op.apply w) d).backup v := by
  intro f
  simp only [List.foldl_cons, List.foldl_nil, Op.apply, h .mesh, ne_eq, reduceCtorEq, not_false_eq_true,
    Function.update_of_ne, h .meshFixedData, h .meshInfo, h .metadata]
  cases f <;> simp [Function.update]

/-- **C26 (a call that is not interrupted).** Whatever is on disk, an uninterrupted call leaves a usable current set
written by this call. -/
theorem C26_uninterrupted (v : ℕ) (save : List Op) (hs : SaveOrder save) (d : Disk) :
    CompleteSet (writeAll v save d).current v := by
  intro f
  unfold writeAll writeOps
  by_cases hf : f = .metadata
  · subst hf
    rw [List.foldl_append]
    simp [Op.apply]
  · obtain ⟨l₁, l₂, hl⟩ := List.append_of_mem (hs.all f hf)
    have hc := hs.order f l₁ l₂ hl
    have hr : Op.rename f ∉ l₂ := fun h => hs.no_rename f (by rw [hl]; simp [h])
    rw [List.foldl_append, List.foldl_append]
    apply current_of_untouched
    · simp
    · simp [hf]
    · rfl
    · rw [hl, List.foldl_append, List.foldl_cons]
      apply current_of_untouched hr hc rfl
      simp [Op.apply]

/-- **C26, partial.** Suppose that the previous call was not interrupted, so that the current set of files is usable
(`v`); the backup may be anything.  If the next call `w` is interrupted at any point `n`, every file of the previous
checkpoint is still on disk and complete, as current file or as backup.  Unless the crash falls between the four
renames (`n = 1, 2, 3`), one of the two sets is usable as it is.  Missing: the renames
(`C26_mixed_sets_violation`) and calls that follow an interrupted call (`C26_second_crash_violation`). -/
theorem C26_crash_partial (v w : ℕ) (save : List Op) (hs : SaveOrder save) (d : Disk) (h : CompleteSet d.current v)
    (n : ℕ) :
    (∀ f, (writeUntil w save n d).current f = some ⟨v, true⟩ ∨ (writeUntil w save n d).backup f = some ⟨v, true⟩) ∧
    (n = 0 ∨ 4 ≤ n → Usable (writeUntil w save n d)) ∧
    (4 ≤ n → CompleteSet (writeUntil w save n d).backup v) := by
  have h4 : 4 ≤ n → CompleteSet (writeUntil w save n d).backup v := by
    intro hn
    unfold writeUntil writeOps
    rw [List.append_assoc, List.take_append, List.take_of_length_le (by simpa using hn), List.foldl_append]
    intro f
    rw [backup_of_no_rename]
    · exact renames_backup h f
    · intro g hg
      have := List.mem_of_mem_take hg
      rcases List.mem_append.1 this with h | h
      · exact hs.no_rename g h
      · simp at h
  refine ⟨?_, ?_, h4⟩
  · intro f
    by_cases hn : 4 ≤ n
    · exact Or.inr (h4 hn f)
    · have : n = 0 ∨ n = 1 ∨ n = 2 ∨ n = 3 := by omega
      rcases this with rfl | rfl | rfl | rfl
      · exact Or.inl (h f)
      · unfold writeUntil writeOps
        cases f <;> simp [Op.apply, h .mesh, h .meshFixedData, h .meshInfo, h .metadata, Function.update]
      · unfold writeUntil writeOps
        cases f <;> simp [Op.apply, h .mesh, h .meshFixedData, h .meshInfo, h .metadata, Function.update]
      · unfold writeUntil writeOps
        cases f <;> simp [Op.apply, h .mesh, h .meshFixedData, h .meshInfo, h .metadata, Function.update]
  · rintro (rfl | hn)
    · exact Or.inl ⟨v, h⟩
    · exact Or.inr ⟨v, h4 hn⟩

/-- The order in which deal.II writes the files of `triangulation.save`. -/
def dealOrder : List Op :=
  [.create .meshInfo, .finish .meshInfo, .create .meshFixedData, .finish .meshFixedData, .create .mesh, .finish .mesh]

theorem dealOrder_valid : SaveOrder dealOrder where
  only := by
    intro op hop
    simp only [dealOrder, List.mem_cons, List.not_mem_nil, or_false] at hop
    rcases hop with rfl | rfl | rfl | rfl | rfl | rfl
    · exact ⟨.meshInfo, by decide, Or.inl rfl⟩
    · exact ⟨.meshInfo, by decide, Or.inr rfl⟩
    · exact ⟨.meshFixedData, by decide, Or.inl rfl⟩
    · exact ⟨.meshFixedData, by decide, Or.inr rfl⟩
    · exact ⟨.mesh, by decide, Or.inl rfl⟩
    · exact ⟨.mesh, by decide, Or.inr rfl⟩
  all := by intro f hf; cases f <;> first | decide | exact absurd rfl hf
  order := by
    intro f l₁ l₂ h hc
    have hd : dealOrder.Nodup := by decide
    have hlt : dealOrder.idxOf (.finish f) < dealOrder.idxOf (.create f) := by
      rw [h] at hd ⊢
      rw [List.nodup_append, List.nodup_cons] at hd
      have h1 : Op.finish f ∉ l₁ := fun hm => hd.2.2 _ hm _ (List.mem_cons_self ..) rfl
      have h2 : Op.create f ∉ l₁ := fun hm => hd.2.2 _ hm _ (List.mem_cons_of_mem _ hc) rfl
      rw [List.idxOf_append_of_notMem h1, List.idxOf_append_of_notMem h2]
      simp
    cases f <;> revert hlt <;> decide

/-- Nothing on disk. -/
def emptyDisk : Disk := ⟨fun _ => none, fun _ => none⟩

/-- The theorem applies after one uninterrupted call. -/
example : CompleteSet (writeAll 1 dealOrder emptyDisk).current 1 := C26_uninterrupted 1 dealOrder dealOrder_valid emptyDisk

/-- **C26 (violated between the renames).** After two uninterrupted calls, a crash after the first rename of the third
call leaves no usable set of files: the current set lacks the mesh, the backup set mixes the mesh of call 2 with the
metadata of call 1. -/
theorem C26_mixed_sets_violation (save : List Op) (hs : SaveOrder save) :
    ¬ Usable (writeUntil 3 save 1 (writeAll 2 save (writeAll 1 save emptyDisk))) := by
  have h1 := C26_uninterrupted 1 save hs emptyDisk
  have h2 := C26_uninterrupted 2 save hs (writeAll 1 save emptyDisk)
  have hb : CompleteSet (writeAll 2 save (writeAll 1 save emptyDisk)).backup 1 := by
    have := (C26_crash_partial 1 2 save hs _ h1 ((writeOps save).length + 4)).2.2 (by omega)
    unfold writeUntil at this
    rw [List.take_of_length_le (by omega)] at this
    exact this
  have hd : writeUntil 3 save 1 (writeAll 2 save (writeAll 1 save emptyDisk)) =
      ⟨Function.update (writeAll 2 save (writeAll 1 save emptyDisk)).current .mesh none,
        Function.update (writeAll 2 save (writeAll 1 save emptyDisk)).backup .mesh (some ⟨2, true⟩)⟩ := by
    unfold writeUntil writeOps
    simp [Op.apply, h2 .mesh]
  rw [hd]
  rintro (⟨v, h⟩ | ⟨v, h⟩)
  · have := h .mesh
    simp at this
  · have e1 := h .mesh
    have e2 := h .metadata
    simp only [Function.update_self, Option.some.injEq, Content.mk.injEq, and_true] at e1
    simp only [ne_eq, reduceCtorEq, not_false_eq_true, Function.update_of_ne, hb .metadata, Option.some.injEq,
      Content.mk.injEq, and_true] at e2
    omega

/-- **C26 (violated by a second crash).** Call 1 is not interrupted. Call 2 crashes after it has created the file with
the mesh information. The program is started again without repairing the directory, and call 3 crashes at the same
place. Then no usable set is left, and the file with the mesh information of call 1, the last good checkpoint, is
gone altogether. -/
theorem C26_second_crash_violation :
    ¬ Usable (writeUntil 3 dealOrder 5 (writeUntil 2 dealOrder 5 (writeAll 1 dealOrder emptyDisk))) ∧
    (writeUntil 3 dealOrder 5 (writeUntil 2 dealOrder 5 (writeAll 1 dealOrder emptyDisk))).current .meshInfo ≠
      some ⟨1, true⟩ ∧
    (writeUntil 3 dealOrder 5 (writeUntil 2 dealOrder 5 (writeAll 1 dealOrder emptyDisk))).backup .meshInfo ≠
      some ⟨1, true⟩ := by
  have h1 : (writeUntil 3 dealOrder 5 (writeUntil 2 dealOrder 5 (writeAll 1 dealOrder emptyDisk))).current .meshInfo =
      some ⟨3, false⟩ := by decide
  have h2 : (writeUntil 3 dealOrder 5 (writeUntil 2 dealOrder 5 (writeAll 1 dealOrder emptyDisk))).backup .meshInfo =
      some ⟨2, false⟩ := by decide
  refine ⟨?_, by rw [h1]; decide, by rw [h2]; decide⟩
  rintro (⟨v, h⟩ | ⟨v, h⟩)
  · have := h .meshInfo
    rw [h1] at this
    simp at this
  · have := h .meshInfo
    rw [h2] at this
    simp at this

end TimeLoop
end Ryujin
