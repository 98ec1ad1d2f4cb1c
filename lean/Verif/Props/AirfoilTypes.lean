import Verif.Proofs.AirfoilTypes
import Verif.Props.AirfoilPsi

/-!
# C132: choosing an airfoil by name
-/

namespace Ryujin
namespace Airfoil

noncomputable section

theorem sorted_of_zip : ∀ l : List ℤ, (∀ e ∈ l.zip l.tail, e.1 < e.2) → l.Pairwise (· < ·)
  | [], _ => List.Pairwise.nil
  | [a], _ => by simp
  | a :: b :: l, h => by
    have hab : a < b := h (a, b) (by simp)
    have ih := sorted_of_zip (b :: l) fun e he => h e (by
      simp only [List.tail_cons, List.zip_cons_cons, List.mem_cons] at he ⊢
      exact Or.inr he)
    refine List.pairwise_cons.2 ⟨fun c hc => ?_, ih⟩
    rcases List.mem_cons.1 hc with rfl | hc
    · exact hab
    · exact hab.trans ((List.pairwise_cons.1 ih).1 c hc)

theorem scaled_lt {n : ℕ} {a b : ℤ} (h : a < b) : scaled n a < scaled n b :=
  div_lt_div_of_pos_right (by exact_mod_cast h) (by positivity)

theorem le_of_scaled {n : ℕ} {a b : ℤ} (h : scaled n a ≤ scaled n b) : a ≤ b := by
  by_contra hc
  exact absurd h (not_le.2 (scaled_lt (not_le.1 hc)))

theorem scaled_zero (n : ℕ) : scaled n 0 = 0 := by simp [scaled]

theorem lt_of_scaled_pos {n : ℕ} {k : ℤ} (h : 0 < scaled n k) : 0 < k := by
  by_contra hc
  have : (k : ℝ) ≤ 0 := by exact_mod_cast not_lt.1 hc
  exact absurd h (not_lt.2 (div_nonpos_of_nonpos_of_nonneg this (by positivity)))

theorem side_admissible {n : ℕ} {x y : List ℤ} (h : sideCheck n x y = true) : SideAdmissible (x.map (scaled n)) (y.map (scaled n)) := by
  simp only [sideCheck, Bool.and_eq_true, decide_eq_true_eq, List.all_eq_true] at h
  obtain ⟨⟨⟨⟨⟨h1, h2⟩, h3⟩, h4⟩, h5⟩, h6⟩ := h
  refine ⟨by simpa using h1, by simpa using h2, ?_, ?_, ?_, ?_⟩
  · exact List.pairwise_map.2 ((sorted_of_zip x h3).imp fun h => scaled_lt h)
  · rw [List.head?_map, h4]; simp [scaled]
  · rw [List.getLast?_map, h5]; simp [scaled]
  · rw [List.head?_map, h6]; simp [scaled]

theorem mem_scaled {n : ℕ} {x y : List ℤ} {q : ℝ × ℝ} (h : q ∈ (x.map (scaled n)).zip (y.map (scaled n))) :
    ∃ k ∈ x.zip y, q = (scaled n k.1, scaled n k.2) := by
  rw [List.zip_map] at h
  obtain ⟨k, hk, rfl⟩ := List.mem_map.1 h
  exact ⟨k, hk, rfl⟩

theorem consecutive_scaled {n : ℕ} {x y : List ℤ} {a b : ℝ × ℝ} (h : Consecutive ((x.map (scaled n)).zip (y.map (scaled n))) a b) :
    ∃ e ∈ (x.zip y).zip (x.zip y).tail, a = (scaled n e.1.1, scaled n e.1.2) ∧ b = (scaled n e.2.1, scaled n e.2.2) := by
  unfold Consecutive at h
  rw [List.zip_map, ← List.map_tail, List.zip_map] at h
  obtain ⟨e, he, h2⟩ := List.mem_map.1 h
  obtain ⟨rfl, rfl⟩ := Prod.mk.inj h2
  exact ⟨e, he, rfl, rfl⟩

theorem line_scaled {n : ℕ} {a1 a2 b1 b2 t v : ℤ} (h : a2 * (b1 - t) + b2 * (t - a1) < v * (b1 - a1)) :
    scaled n a2 * (scaled n b1 - scaled n t) + scaled n b2 * (scaled n t - scaled n a1) < scaled n v * (scaled n b1 - scaled n a1) := by
  have h' : (a2 : ℝ) * (b1 - t) + b2 * (t - a1) < v * (b1 - a1) := by exact_mod_cast h
  have hp : (0 : ℝ) < 1 / (10 ^ n * 10 ^ n) := by positivity
  have := mul_lt_mul_of_pos_right h' hp
  unfold scaled
  calc _ = ((a2 : ℝ) * (b1 - t) + b2 * (t - a1)) * (1 / (10 ^ n * 10 ^ n)) := by field_simp
    _ < _ := this
    _ = _ := by field_simp

theorem line_scaled' {n : ℕ} {a1 a2 b1 b2 t v : ℤ} (h : v * (b1 - a1) < a2 * (b1 - t) + b2 * (t - a1)) :
    scaled n v * (scaled n b1 - scaled n a1) < scaled n a2 * (scaled n b1 - scaled n t) + scaled n b2 * (scaled n t - scaled n a1) := by
  have h' : (v : ℝ) * (b1 - a1) < a2 * (b1 - t) + b2 * (t - a1) := by exact_mod_cast h
  have hp : (0 : ℝ) < 1 / (10 ^ n * 10 ^ n) := by positivity
  have := mul_lt_mul_of_pos_right h' hp
  unfold scaled
  calc _ = ((v : ℝ) * (b1 - a1)) * (1 / (10 ^ n * 10 ^ n)) := by field_simp
    _ < _ := this
    _ = _ := by field_simp

theorem table_admissible {T : Table} (h : tableCheck T = true) : Admissible T.samples := by
  simp only [tableCheck, Bool.and_eq_true, List.all_eq_true, Bool.or_eq_true, decide_eq_true_eq, Bool.not_eq_true', decide_eq_false_iff_not] at h
  obtain ⟨⟨⟨⟨h1, h2⟩, h3⟩, h4⟩, h5⟩ := h
  refine ⟨side_admissible h1, side_admissible h2, ?_, ?_, ?_⟩
  · show ∃ u l, (T.yUpper.map (scaled T.digits)).getLast? = some u ∧ (T.yLower.map (scaled T.digits)).getLast? = some l ∧ l < u
    rw [List.getLast?_map, List.getLast?_map]
    cases hu : T.yUpper.getLast? with
    | none => simp [hu] at h3
    | some u =>
      cases hl : T.yLower.getLast? with
      | none => simp [hu, hl] at h3
      | some l =>
        simp only [hu, hl, decide_eq_true_eq] at h3
        exact ⟨_, _, rfl, rfl, scaled_lt h3⟩
  · intro q hq hq0 a b hab ha hb
    obtain ⟨k, hk, rfl⟩ := mem_scaled (n := T.digits) hq
    obtain ⟨e, he, rfl, rfl⟩ := consecutive_scaled (n := T.digits) hab
    rcases h4 k hk with h | h
    · exact absurd (lt_of_scaled_pos hq0) (not_lt.2 h)
    · rcases h e he with (h | h) | h
      · exact absurd (le_of_scaled ha) h
      · exact absurd (le_of_scaled hb) h
      · exact line_scaled h
  · intro q hq hq0 a b hab ha hb
    obtain ⟨k, hk, rfl⟩ := mem_scaled (n := T.digits) hq
    obtain ⟨e, he, rfl, rfl⟩ := consecutive_scaled (n := T.digits) hab
    rcases h5 k hk with h | h
    · exact absurd (lt_of_scaled_pos hq0) (not_lt.2 h)
    · rcases h e he with (h | h) | h
      · exact absurd (le_of_scaled ha) h
      · exact absurd (le_of_scaled hb) h
      · exact line_scaled' h

/-! ### The choice -/

theorem prefix_drop {p l : List Char} (h : p <+: l) : l = p ++ l.drop p.length := by
  obtain ⟨r, rfl⟩ := h
  simp

theorem nasa_not_naca : ¬ "NACA ".toList <+: "NASA SC(2) 0714".toList := by decide +kernel
theorem onera_not_naca : ¬ "NACA ".toList <+: "ONERA OAT15a".toList := by decide +kernel
theorem bell_not_naca : ¬ "NACA ".toList <+: "BELL NLR-1T".toList := by decide +kernel
theorem nasa_prefix : "NASA SC(2) ".toList <+: "NASA SC(2) 0714".toList := by decide +kernel
theorem onera_prefix : ¬ "NASA SC(2) ".toList <+: "ONERA OAT15a".toList ∧ "ONERA ".toList <+: "ONERA OAT15a".toList := by decide +kernel
theorem bell_prefix : ¬ "NASA SC(2) ".toList <+: "BELL NLR-1T".toList ∧ ¬ "ONERA ".toList <+: "BELL NLR-1T".toList ∧
    "BELL ".toList <+: "BELL NLR-1T".toList := by decide +kernel
theorem name_lists : "NASA SC(2) ".toList ++ "0714".toList = "NASA SC(2) 0714".toList ∧ "ONERA ".toList ++ "OAT15a".toList = "ONERA OAT15a".toList ∧
    "BELL ".toList ++ "NLR-1T".toList = "BELL NLR-1T".toList ∧ ("NASA SC(2) ".toList.length = 11 ∧ "ONERA ".toList.length = 6 ∧
    "BELL ".toList.length = 5 ∧ "NACA ".toList.length = 5) ∧ "NASA SC(2) 0714".toList.drop 11 = "0714".toList ∧
    "ONERA OAT15a".toList.drop 6 = "OAT15a".toList ∧ "BELL NLR-1T".toList.drop 5 = "NLR-1T".toList := by decide +kernel

/-- **C132 (names).** `NACA ` followed by a serial number gives the computed profiles of the four digit series (C99).  Of all other names exactly
three are accepted, and each gives its own table. -/
theorem C132_names (n : ℕ) :
    (∀ serial, airfoilSamples ("NACA ".toList ++ serial) n = nacaPoints serial n) ∧
    airfoilSamples "NASA SC(2) 0714".toList n = .ok nasaSc2Table.samples ∧
    airfoilSamples "ONERA OAT15a".toList n = .ok oneraTable.samples ∧
    airfoilSamples "BELL NLR-1T".toList n = .ok bellTable.samples ∧
    (∀ type, ¬ "NACA ".toList <+: type → type ≠ "NASA SC(2) 0714".toList → type ≠ "ONERA OAT15a".toList → type ≠ "BELL NLR-1T".toList →
      airfoilSamples type n = .exception) := by
  obtain ⟨e1, e2, e3, ⟨l1, l2, l3, _⟩, d1, d2, d3⟩ := name_lists
  refine ⟨fun serial => ?_, ?_, ?_, ?_, fun type h0 h1 h2 h3 => ?_⟩
  · unfold airfoilSamples
    rw [if_pos (List.prefix_append _ _)]
    congr 1
  · unfold airfoilSamples nasaSc2
    rw [if_neg nasa_not_naca, if_pos nasa_prefix, d1, if_pos rfl]
  · unfold airfoilSamples onera
    rw [if_neg onera_not_naca, if_neg onera_prefix.1, if_pos onera_prefix.2, d2, if_pos rfl]
  · unfold airfoilSamples bell
    rw [if_neg bell_not_naca, if_neg bell_prefix.1, if_neg bell_prefix.2.1, if_pos bell_prefix.2.2, d3, if_pos rfl]
  · unfold airfoilSamples
    rw [if_neg h0]
    by_cases p1 : "NASA SC(2) ".toList <+: type
    · rw [if_pos p1]
      unfold nasaSc2
      refine if_neg fun h => h1 ?_
      rw [prefix_drop p1, l1, h, e1]
    rw [if_neg p1]
    by_cases p2 : "ONERA ".toList <+: type
    · rw [if_pos p2]
      unfold onera
      refine if_neg fun h => h2 ?_
      rw [prefix_drop p2, l2, h, e2]
    rw [if_neg p2]
    by_cases p3 : "BELL ".toList <+: type
    · rw [if_pos p3]
      unfold bell
      refine if_neg fun h => h3 ?_
      rw [prefix_drop p3, l3, h, e3]
    rw [if_neg p3]

/-- **C132 (tables).** Whenever a name that does not begin with `NACA ` is accepted, the samples meet all conditions of the parametrisation: as many
ordinates as abscissae, strictly increasing from the nose at 0 to 1, a blunt trailing edge, and the two sides do not touch behind the nose. -/
theorem C132_tables (type : List Char) (n : ℕ) (s : Samples) (h0 : ¬ "NACA ".toList <+: type) (h : airfoilSamples type n = .ok s) : Admissible s := by
  obtain ⟨_, c1, c2, c3, c4⟩ := C132_names n
  by_cases h1 : type = "NASA SC(2) 0714".toList
  · rw [h1, c1] at h
    injection h with h
    rw [← h]
    exact table_admissible nasaSc2_check
  by_cases h2 : type = "ONERA OAT15a".toList
  · rw [h2, c2] at h
    injection h with h
    rw [← h]
    exact table_admissible onera_check
  by_cases h3 : type = "BELL NLR-1T".toList
  · rw [h3, c3] at h
    injection h with h
    rw [← h]
    exact table_admissible bell_check
  rw [c4 type h0 h1 h2 h3] at h
  exact absurd h (by simp)

theorem scaled_le {n : ℕ} {a b : ℤ} (h : a ≤ b) : scaled n a ≤ scaled n b :=
  div_le_div_of_nonneg_right (by exact_mod_cast h) (by positivity)

theorem streamlined_of_table (T : Table) (k i j : ℕ) (hij : i < j) (h1 : (T.yUpper.take (k + 1)).Pairwise (· < ·))
    (h2 : (T.yUpper.drop k).Pairwise (· > ·)) (h3 : (T.yLower.take (i + 1)).Pairwise (· ≥ ·))
    (h4 : ((T.yLower.take (j + 1)).drop i).Pairwise (· ≤ ·)) (h5 : (T.yLower.drop j).Pairwise (· ≥ ·)) : Streamlined T.samples := by
  refine ⟨⟨k, ?_, ?_⟩, i, j, hij, ?_, ?_, ?_⟩ <;> simp only [Table.samples, ← List.map_take, ← List.map_drop, List.pairwise_map]
  · exact h1.imp fun h => scaled_lt h
  · exact h2.imp fun h => scaled_lt h
  · exact h3.imp fun h => scaled_le h
  · exact h4.imp fun h => scaled_le h
  · exact h5.imp fun h => scaled_le h

/-- **C132 (shape).** The upper side of every tabulated profile has one crest, and its lower side one trough followed by at
most one hollow: a number with a wrong sign or at a wrong place would show up as a dent. -/
theorem C132_shape (type : List Char) (n : ℕ) (s : Samples) (h0 : ¬ "NACA ".toList <+: type) (h : airfoilSamples type n = .ok s) :
    Streamlined s := by
  obtain ⟨_, c1, c2, c3, c4⟩ := C132_names n
  by_cases h1 : type = "NASA SC(2) 0714".toList
  · rw [h1, c1] at h
    injection h with h
    rw [← h]
    exact streamlined_of_table nasaSc2Table 20 19 41 (by decide) (by decide +kernel) (by decide +kernel) (by decide +kernel) (by decide +kernel) (by decide +kernel)
  by_cases h2 : type = "ONERA OAT15a".toList
  · rw [h2, c2] at h
    injection h with h
    rw [← h]
    exact streamlined_of_table oneraTable 102 83 163 (by decide) (by decide +kernel) (by decide +kernel) (by decide +kernel) (by decide +kernel) (by decide +kernel)
  by_cases h3 : type = "BELL NLR-1T".toList
  · rw [h3, c3] at h
    injection h with h
    rw [← h]
    exact streamlined_of_table bellTable 14 16 32 (by decide) (by decide +kernel) (by decide +kernel) (by decide +kernel) (by decide +kernel) (by decide +kernel)
  rw [c4 type h0 h1 h2 h3] at h
  exact absurd h (by simp)

example (n : ℕ) : ∃ s, airfoilSamples "BELL NLR-1T".toList n = .ok s ∧ Streamlined s :=
  ⟨_, (C132_names n).2.2.2.1, C132_shape _ n _ bell_not_naca (C132_names n).2.2.2.1⟩

theorem zip_pairwise {x y : List ℝ} (h : x.Pairwise (· < ·)) : (x.zip y).Pairwise (fun a b => a.1 < b.1) := by
  induction x generalizing y with
  | nil => simp
  | cons a x ih =>
    cases y with
    | nil => simp
    | cons b y =>
      rw [List.zip_cons_cons]
      rw [List.pairwise_cons] at h ⊢
      exact ⟨fun q hq => h.1 _ (List.of_mem_zip hq).1, ih h.2⟩

theorem last_zip : ∀ {x y : List ℝ} {a b : ℝ}, y.length = x.length → x.getLast? = some a → y.getLast? = some b → (a, b) ∈ x.zip y
  | [], _, _, _, _, h, _ => by simp at h
  | _ :: _, [], _, _, hl, _, _ => by simp at hl
  | [x], [y], a, b, _, h1, h2 => by simp at h1 h2; simp [h1, h2]
  | [x], _ :: _ :: _, _, _, hl, _, _ => by simp at hl
  | _ :: _ :: _, [_], _, _, hl, _, _ => by simp at hl
  | x :: x' :: xs, y :: y' :: ys, a, b, hl, h1, h2 => by
    have := last_zip (x := x' :: xs) (y := y' :: ys) (by simpa using hl) (by simpa [List.getLast?_cons_cons] using h1)
      (by simpa [List.getLast?_cons_cons] using h2)
    rw [List.zip_cons_cons]
    exact List.mem_cons_of_mem _ this

/-- The ends of the tables are at least 0.002 apart. -/
theorem table_gap (T : Table) (hT : T = nasaSc2Table ∨ T = oneraTable ∨ T = bellTable) :
    ∃ u l, T.samples.yUpper.getLast? = some u ∧ T.samples.yLower.getLast? = some l ∧ 0.002 ≤ u - l ∧ tableCheck T = true := by
  rcases hT with rfl | rfl | rfl
  · exact ⟨scaled 4 (-104), scaled 4 (-163), rfl, rfl, by norm_num [scaled], nasaSc2_check⟩
  · exact ⟨scaled 10 24997000, scaled 10 (-24967000), rfl, rfl, by norm_num [scaled], onera_check⟩
  · exact ⟨scaled 5 104, scaled 5 (-104), rfl, rfl, by norm_num [scaled], bell_check⟩

/-- **C132 (trailing edge).** For every tabulated airfoil, every interpolating spline, every centre not farther than the length of the airfoil in
front of the nose and every length of at least a millionth, the trailing edge is meshed as a blunt one; the program does not stop. -/
theorem C132_trailing_edge {spline : SplineMaker} (hi : Interpolates spline) (type : List Char) (n : ℕ) (s : Samples)
    (h0 : ¬ "NACA ".toList <+: type) (h : airfoilSamples type n = .ok s) {xc yc length : ℝ} (hx : -(9 / 10) ≤ xc) (hl : 1 / 10 ^ 6 ≤ length) :
    trailingEdge (createPsi spline (s.xUpper.zip s.yUpper) (s.xLower.zip s.yLower) xc yc length) = .blunt := by
  obtain ⟨_, c1, c2, c3, c4⟩ := C132_names n
  have key : ∃ T, (T = nasaSc2Table ∨ T = oneraTable ∨ T = bellTable) ∧ T.samples = s := by
    by_cases h1 : type = "NASA SC(2) 0714".toList
    · rw [h1, c1] at h
      exact ⟨_, Or.inl rfl, by injection h⟩
    by_cases h2 : type = "ONERA OAT15a".toList
    · rw [h2, c2] at h
      exact ⟨_, Or.inr (Or.inl rfl), by injection h⟩
    by_cases h3 : type = "BELL NLR-1T".toList
    · rw [h3, c3] at h
      exact ⟨_, Or.inr (Or.inr rfl), by injection h⟩
    rw [c4 type h0 h1 h2 h3] at h
    exact absurd h (by simp)
  obtain ⟨T, hT, rfl⟩ := key
  obtain ⟨u, l, hu, hll, hg, hc⟩ := table_gap T hT
  have hA := table_admissible hc
  have hpos : 0 < length := lt_of_lt_of_le (by norm_num) hl
  rw [C98_trailing_edge hi hpos (zip_pairwise hA.upper.sorted) (zip_pairwise hA.lower.sorted)
    (last_zip hA.upper.length hA.upper.last hu) (last_zip hA.lower.length hA.lower.last hll)]
  have habs : 0.002 ≤ |u - l| := hg.trans (le_abs_self _)
  have h1 : length * 0.002 ≤ length * |u - l| := mul_le_mul_of_nonneg_left habs hpos.le
  rw [if_neg (by norm_num at h1 hl ⊢; linarith), if_pos]
  have h2 : 0.001 * (length * (1 - xc)) ≤ length * 0.0019 := by
    have := mul_le_mul_of_nonneg_left (show 1 - xc ≤ 1.9 by norm_num at hx ⊢; linarith) hpos.le
    norm_num at this ⊢
    linarith
  norm_num at h1 h2 ⊢
  linarith

/-- The default airfoil with the default parameters. -/
example : trailingEdge (createPsi lookup (nasaSc2Table.samples.xUpper.zip nasaSc2Table.samples.yUpper)
    (nasaSc2Table.samples.xLower.zip nasaSc2Table.samples.yLower) 0.05 0 2) = .blunt :=
  C132_trailing_edge lookup_interpolates "NASA SC(2) 0714".toList 100 _ nasa_not_naca (C132_names 100).2.1 (by norm_num) (by norm_num)

/-- Names are case sensitive; other members of the families are not available. -/
example : airfoilSamples "Bell NLR-1T".toList 100 = .exception ∧ airfoilSamples "ONERA M6".toList 100 = .exception :=
  ⟨(C132_names 100).2.2.2.2 _ (by decide +kernel) (by decide +kernel) (by decide +kernel) (by decide +kernel),
    (C132_names 100).2.2.2.2 _ (by decide +kernel) (by decide +kernel) (by decide +kernel) (by decide +kernel)⟩

end

end Airfoil
end Ryujin
