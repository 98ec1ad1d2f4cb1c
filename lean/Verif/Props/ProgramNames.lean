import Verif.Model.Program

/-!
# C118: names and numbers read and written at the start of the program
-/

namespace Ryujin
namespace Program

theorem readInt_digits (n : ℕ) : readInt (String.ofList (Nat.toDigits 10 n)) = some (n : ℤ) ∧
    readInt ("-" ++ String.ofList (Nat.toDigits 10 n)) = some (-(n : ℤ)) := by
  have hd : ∀ c ∈ Nat.toDigits 10 n, c.isDigit := fun c hc => Nat.isDigit_of_mem_toDigits (by norm_num) le_rfl hc
  have hne : Nat.toDigits 10 n ≠ [] := Nat.toDigits_ne_nil
  have hf : (Nat.toDigits 10 n).foldl (fun n c => 10 * n + (c.toNat - '0'.toNat)) 0 = n := by
    rw [← Nat.ofDigitChars_eq_foldl]; exact Nat.ofDigitChars_ten_toDigits
  constructor
  · unfold readInt
    rw [String.toList_ofList]
    cases hl : Nat.toDigits 10 n with
    | nil => exact absurd hl hne
    | cons c l =>
      have hc : c ≠ '-' := fun e => by
        have := hd c (by rw [hl]; exact List.mem_cons_self)
        rw [e] at this
        exact absurd this (by decide)
      rw [hl] at hd hf
      simp only
      split
      · rename_i l' e
        exact absurd (List.cons.inj e).1 hc
      · rename_i l' e
        rw [if_pos ⟨by simp, by rw [List.all_eq_true]; exact hd⟩]
        show some ((_ : ℕ) : ℤ) = _
        rw [hf]
  · unfold readInt
    rw [String.toList_append, show "-".toList = ['-'] by decide]
    simp only [List.cons_append, List.nil_append, String.toList_ofList]
    rw [if_pos ⟨hne, by rw [List.all_eq_true]; exact hd⟩, hf]
    rfl

/-- **C118 (dimension).** Every integer written in decimal notation is read as this integer. -/
theorem C118_dimension_text (z : ℤ) : readInt (toString z) = some z := by
  rcases z with n | n
  · show readInt (toString n) = some (n : ℤ)
    rw [Nat.toString_eq_ofList_toDigits]
    exact (readInt_digits n).1
  · show readInt ("-" ++ toString (n + 1)) = some (Int.negSucc n)
    rw [Nat.toString_eq_ofList_toDigits, (readInt_digits (n + 1)).2]
    rfl

/-- **C118 (dimension).** Text with anything but digits after an optional minus sign is no dimension. -/
theorem C118_dimension_rejected (s : String) (h : ∃ c ∈ s.toList.tail, ¬ c.isDigit) : readInt s = none := by
  obtain ⟨c, hc, hd⟩ := h
  have hall : ∀ l : List Char, c ∈ l → ¬ (l ≠ [] ∧ l.all Char.isDigit = true) := fun l hl h =>
    hd (List.all_eq_true.1 h.2 c hl)
  unfold readInt
  cases hs : s.toList with
  | nil => rw [hs] at hc; simp at hc
  | cons a l =>
    rw [hs, List.tail_cons] at hc
    simp only
    split
    · rename_i l' e
      rw [(List.cons.inj e).2] at hc
      rw [if_neg (hall _ hc)]; rfl
    · rw [if_neg (hall _ (List.mem_cons_of_mem _ hc))]; rfl

/-- **C118 (default parameter file).** Started as `directory/program` or `program` without arguments, the parameter file is
`program.prm` in the current directory; with arguments it is the first one. -/
theorem C118_parameter_file (directory program : String) (h : '/' ∉ program.toList) :
    parameterFile [directory ++ "/" ++ program] = program ++ ".prm" ∧ parameterFile [program] = program ++ ".prm" ∧
      ∀ name file rest, parameterFile (name :: file :: rest) = file := by
  have hall : ∀ c ∈ program.toList.reverse, (decide (c ≠ '/')) = true := fun c hc => by
    simp only [decide_eq_true_eq]
    exact fun e => h (e ▸ List.mem_reverse.1 hc)
  refine ⟨?_, ?_, fun _ _ _ => rfl⟩
  · simp only [parameterFile, fileName]
    rw [String.toList_append, String.toList_append, List.reverse_append, List.reverse_append,
      List.takeWhile_append_of_pos hall, show "/".toList.reverse = ['/'] by decide]
    simp
  · simp only [parameterFile, fileName]
    rw [← List.append_nil program.toList.reverse, List.takeWhile_append_of_pos hall]
    simp

theorem file_ending : "d" ++ ".prm" = "d.prm" := by decide +kernel

theorem file_ending_description : "d" ++ "-description.prm" = "d-description.prm" := by decide +kernel

/-- **C118 (names of the templates).** Templates are named after the driver, with every blank replaced by one other character,
and the dimension. -/
theorem C118_template_name (name : String) (dim : ℕ) :
    (' ' ∉ name.toList → templateName name dim false = "default_parameters-" ++ name ++ "-" ++ toString dim ++ "d.prm" ∧
      templateName name dim true = "default_parameters-" ++ name ++ "-" ++ toString dim ++ "d-description.prm") ∧
      (' ' ∉ (baseName name).toList) ∧ (baseName name).length = name.length := by
  refine ⟨fun h => ?_, ?_, ?_⟩
  · have hb : baseName name = name := by
      unfold baseName
      have : (name.toList.map fun c => if c = ' ' then '_' else c) = name.toList := by
        conv_rhs => rw [← List.map_id name.toList]
        refine List.map_congr_left fun c hc => ?_
        rw [if_neg (fun e => h (by rw [← e]; exact hc))]
        rfl
      rw [this, String.ofList_toList]
    unfold templateName
    rw [hb, if_neg (by decide), if_pos rfl, ← file_ending, ← file_ending_description]
    constructor <;> simp only [String.append_assoc]
  · unfold baseName
    rw [String.toList_ofList]
    intro hm
    obtain ⟨c, _, hc⟩ := List.mem_map.1 hm
    split_ifs at hc with e
    · exact absurd hc (by decide)
    · exact e hc
  · unfold baseName
    rw [← String.length_toList, String.toList_ofList, List.length_map, String.length_toList]

/-- Non-vacuity. -/
example : parameterFile ["/usr/bin/ryujin"] = "ryujin.prm" ∧ readInt (toString (-3 : ℤ)) = some (-3) ∧
    readInt "2d" = none ∧ templateName "euler" 2 false = "default_parameters-euler-2d.prm" :=
  ⟨(C118_parameter_file "/usr/bin" "ryujin" (by decide)).1, C118_dimension_text _,
    C118_dimension_rejected _ ⟨'d', by decide, by decide⟩, ((C118_template_name "euler" 2).1 (by decide)).1⟩

end Program
end Ryujin
