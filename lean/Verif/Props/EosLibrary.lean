import Verif.Model.EosLibrary
import Verif.Props.EquationOfState

/-!
# C126: the chosen equation of state is the one that is used; formulas mean what they say

A user of the solver for arbitrary equations of state selects one by name, or writes down four formulas.
-/

namespace Ryujin
namespace Formulas

/-! ### Formulas mean what they say -/

/-- A formula with a bracket around every operation, as lexical units. -/
def written : Formula → List Token
  | .number m d => [.number m d]
  | .var x => [.name x]
  | .neg a => .sign '-' :: written a
  | .add a b => .sign '(' :: (written a ++ .sign '+' :: (written b ++ [.sign ')']))
  | .sub a b => .sign '(' :: (written a ++ .sign '-' :: (written b ++ [.sign ')']))
  | .mul a b => .sign '(' :: (written a ++ .sign '*' :: (written b ++ [.sign ')']))
  | .div a b => .sign '(' :: (written a ++ .sign '/' :: (written b ++ [.sign ')']))
  | .sqrt a => .name ['s', 'q', 'r', 't'] :: .sign '(' :: (written a ++ [.sign ')'])
  | .exp a => .name ['e', 'x', 'p'] :: .sign '(' :: (written a ++ [.sign ')'])
  | .abs a => .name ['a', 'b', 's'] :: .sign '(' :: (written a ++ [.sign ')'])

/-- Nesting depth. -/
def depth : Formula → ℕ
  | .number _ _ | .var _ => 1
  | .neg a => depth a + 1
  | .sqrt a | .exp a | .abs a => depth a + 4
  | .add a b | .sub a b | .mul a b | .div a b => max (depth a) (depth b) + 5

/-- What can follow a formula: not an opening bracket (which would turn a variable into a function). -/
def Follows (ts : List Token) : Prop := ts.head? ≠ some (.sign '(')

theorem productTail_stop (n : ℕ) (a : Formula) (c : Char) (ts : List Token) (h1 : c ≠ '*') (h2 : c ≠ '/') :
    productTail (n + 1) a (.sign c :: ts) = some (a, .sign c :: ts) := by
  unfold productTail
  split <;> simp_all

theorem sumTail_stop (n : ℕ) (a : Formula) (c : Char) (ts : List Token) (h1 : c ≠ '+') (h2 : c ≠ '-') :
    sumTail (n + 1) a (.sign c :: ts) = some (a, .sign c :: ts) := by
  unfold sumTail
  split <;> simp_all

/-- A bracketed formula is a factor of a sum that ends at a closing bracket. -/
theorem sum_closing (a : Formula) (n : ℕ) (ts : List Token)
    (h : parseFactor n (written a ++ .sign ')' :: ts) = some (a, .sign ')' :: ts)) :
    (parseSum (n + 2) (written a ++ .sign ')' :: ts)).bind closing = some (a, ts) := by
  obtain ⟨k, rfl⟩ : ∃ k, n = k + 1 := by
    cases n with
    | zero => simp [parseFactor] at h
    | succ k => exact ⟨k, rfl⟩
  rw [parseSum, parseProduct, h]
  simp only [Option.bind_some]
  rw [productTail_stop _ _ _ _ (by decide) (by decide)]
  simp only [Option.bind_some]
  rw [sumTail_stop _ _ _ _ (by decide) (by decide)]
  rfl

/-- Brackets around every operation determine the formula. -/
theorem factor_written (f : Formula) : ∀ (n : ℕ) (ts : List Token), depth f ≤ n → Follows ts →
    parseFactor n (written f ++ ts) = some (f, ts) := by
  induction f with
  | number m d =>
    intro n ts hn _
    obtain ⟨k, rfl⟩ := Nat.exists_eq_succ_of_ne_zero (show n ≠ 0 by simp [depth] at hn; omega)
    rfl
  | var x =>
    intro n ts hn ht
    obtain ⟨k, rfl⟩ := Nat.exists_eq_succ_of_ne_zero (show n ≠ 0 by simp [depth] at hn; omega)
    simp only [written, List.cons_append, List.nil_append]
    cases ts with
    | nil => rfl
    | cons t ts =>
      cases t with
      | number m d => rfl
      | name y => rfl
      | sign c =>
        have hc : c ≠ '(' := fun e => ht (by rw [e]; rfl)
        unfold parseFactor
        split <;> simp_all
  | neg a ih =>
    intro n ts hn ht
    simp only [depth] at hn
    obtain ⟨k, rfl⟩ := Nat.exists_eq_succ_of_ne_zero (show n ≠ 0 by omega)
    simp only [written, List.cons_append]
    rw [parseFactor, ih k ts (by omega) ht]
    rfl
  | add a b iha ihb =>
    intro n ts hn _
    simp only [depth] at hn
    obtain ⟨k, rfl⟩ : ∃ k, n = k + 5 := ⟨n - 5, by omega⟩
    have ha := le_max_left (depth a) (depth b)
    have hb := le_max_right (depth a) (depth b)
    simp only [written, List.cons_append, List.append_assoc, List.nil_append]
    rw [parseFactor, parseSum, parseProduct, iha (k + 2) _ (by omega) (by simp [Follows])]
    simp only [Option.bind_some]
    rw [productTail_stop _ _ _ _ (by decide) (by decide)]
    simp only [Option.bind_some]
    rw [sumTail, parseProduct, ihb (k + 1) _ (by omega) (by simp [Follows])]
    simp only [Option.bind_some]
    rw [productTail_stop _ _ _ _ (by decide) (by decide)]
    simp only [Option.bind_some]
    rw [sumTail_stop _ _ _ _ (by decide) (by decide)]
    rfl
  | sub a b iha ihb =>
    intro n ts hn _
    simp only [depth] at hn
    obtain ⟨k, rfl⟩ : ∃ k, n = k + 5 := ⟨n - 5, by omega⟩
    have ha := le_max_left (depth a) (depth b)
    have hb := le_max_right (depth a) (depth b)
    simp only [written, List.cons_append, List.append_assoc, List.nil_append]
    rw [parseFactor, parseSum, parseProduct, iha (k + 2) _ (by omega) (by simp [Follows])]
    simp only [Option.bind_some]
    rw [productTail_stop _ _ _ _ (by decide) (by decide)]
    simp only [Option.bind_some]
    rw [sumTail, parseProduct, ihb (k + 1) _ (by omega) (by simp [Follows])]
    simp only [Option.bind_some]
    rw [productTail_stop _ _ _ _ (by decide) (by decide)]
    simp only [Option.bind_some]
    rw [sumTail_stop _ _ _ _ (by decide) (by decide)]
    rfl
  | mul a b iha ihb =>
    intro n ts hn _
    simp only [depth] at hn
    obtain ⟨k, rfl⟩ : ∃ k, n = k + 5 := ⟨n - 5, by omega⟩
    have ha := le_max_left (depth a) (depth b)
    have hb := le_max_right (depth a) (depth b)
    simp only [written, List.cons_append, List.append_assoc, List.nil_append]
    rw [parseFactor, parseSum, parseProduct, iha (k + 2) _ (by omega) (by simp [Follows])]
    simp only [Option.bind_some]
    rw [productTail, ihb (k + 1) _ (by omega) (by simp [Follows])]
    simp only [Option.bind_some]
    rw [productTail_stop _ _ _ _ (by decide) (by decide)]
    simp only [Option.bind_some]
    rw [sumTail_stop _ _ _ _ (by decide) (by decide)]
    rfl
  | div a b iha ihb =>
    intro n ts hn _
    simp only [depth] at hn
    obtain ⟨k, rfl⟩ : ∃ k, n = k + 5 := ⟨n - 5, by omega⟩
    have ha := le_max_left (depth a) (depth b)
    have hb := le_max_right (depth a) (depth b)
    simp only [written, List.cons_append, List.append_assoc, List.nil_append]
    rw [parseFactor, parseSum, parseProduct, iha (k + 2) _ (by omega) (by simp [Follows])]
    simp only [Option.bind_some]
    rw [productTail, ihb (k + 1) _ (by omega) (by simp [Follows])]
    simp only [Option.bind_some]
    rw [productTail_stop _ _ _ _ (by decide) (by decide)]
    simp only [Option.bind_some]
    rw [sumTail_stop _ _ _ _ (by decide) (by decide)]
    rfl
  | sqrt a ih =>
    intro n ts hn _
    simp only [depth] at hn
    obtain ⟨k, rfl⟩ : ∃ k, n = k + 3 := ⟨n - 3, by omega⟩
    simp only [written, List.cons_append, List.append_assoc, List.nil_append]
    rw [parseFactor, sum_closing a k ts (ih k _ (by omega) (by simp [Follows]))]
    simp
  | exp a ih =>
    intro n ts hn _
    simp only [depth] at hn
    obtain ⟨k, rfl⟩ : ∃ k, n = k + 3 := ⟨n - 3, by omega⟩
    simp only [written, List.cons_append, List.append_assoc, List.nil_append]
    rw [parseFactor, sum_closing a k ts (ih k _ (by omega) (by simp [Follows]))]
    simp
  | abs a ih =>
    intro n ts hn _
    simp only [depth] at hn
    obtain ⟨k, rfl⟩ : ∃ k, n = k + 3 := ⟨n - 3, by omega⟩
    simp only [written, List.cons_append, List.append_assoc, List.nil_append]
    rw [parseFactor, sum_closing a k ts (ih k _ (by omega) (by simp [Follows]))]
    simp

/-- The fuel of `parse` suffices. -/
theorem depth_le (f : Formula) : depth f ≤ 5 * (written f).length := by
  induction f <;> simp only [depth, written, List.length_cons, List.length_append, List.length_nil] <;> omega

theorem product_alone (f : Formula) (n : ℕ) (h : depth f < n) (c : Char) (ts : List Token) (h1 : c ≠ '*') (h2 : c ≠ '/')
    (h3 : c ≠ '(') : parseProduct (n + 1) (written f ++ .sign c :: ts) = some (f, .sign c :: ts) := by
  obtain ⟨k, rfl⟩ : ∃ k, n = k + 1 := ⟨n - 1, by omega⟩
  rw [parseProduct, factor_written f (k + 1) _ (by omega) (by simpa [Follows] using h3)]
  simp only [Option.bind_some]
  exact productTail_stop _ _ _ _ h1 h2

theorem product_end (f : Formula) (n : ℕ) (h : depth f < n) : parseProduct (n + 1) (written f) = some (f, []) := by
  obtain ⟨k, rfl⟩ : ∃ k, n = k + 1 := ⟨n - 1, by omega⟩
  have := factor_written f (k + 1) [] (by omega) (by simp [Follows])
  rw [List.append_nil] at this
  rw [parseProduct, this]
  rfl

/-- **C126 (brackets).** A formula written with brackets around every operation is read as this formula. -/
theorem C126_brackets (f : Formula) : parseSum (6 * (written f).length + 6) (written f) = some (f, []) := by
  have := depth_le f
  rw [show 6 * (written f).length + 6 = (6 * (written f).length + 4 + 1) + 1 by omega, parseSum,
    product_end f (6 * (written f).length + 4) (by omega)]
  rfl

/-- **C126 (order of operations).** Without brackets products come before sums, and operations of the same kind are
evaluated from the left. -/
theorem C126_precedence (a b c : Formula) (n : ℕ) (hn : depth a + depth b + depth c + 10 ≤ n) :
    parseSum n (written a ++ .sign '+' :: (written b ++ .sign '*' :: written c)) = some (.add a (.mul b c), []) ∧
    parseSum n (written a ++ .sign '*' :: (written b ++ .sign '+' :: written c)) = some (.add (.mul a b) c, []) ∧
    parseSum n (written a ++ .sign '-' :: (written b ++ .sign '-' :: written c)) = some (.sub (.sub a b) c, []) ∧
    parseSum n (written a ++ .sign '/' :: (written b ++ .sign '/' :: written c)) = some (.div (.div a b) c, []) ∧
    parseSum n (written a ++ .sign '/' :: (written b ++ .sign '*' :: written c)) = some (.mul (.div a b) c, []) := by
  obtain ⟨k, rfl⟩ : ∃ k, n = k + 10 := ⟨n - 10, by omega⟩
  have fa : ∀ (m : ℕ) (x : Char) (ts : List Token), x ≠ '(' → k ≤ m →
      parseFactor m (written a ++ .sign x :: ts) = some (a, .sign x :: ts) := fun m x ts hx hm =>
    factor_written a m _ (by omega) (by simpa [Follows] using hx)
  have fb : ∀ (m : ℕ) (x : Char) (ts : List Token), x ≠ '(' → k ≤ m →
      parseFactor m (written b ++ .sign x :: ts) = some (b, .sign x :: ts) := fun m x ts hx hm =>
    factor_written b m _ (by omega) (by simpa [Follows] using hx)
  have fc : ∀ m : ℕ, k ≤ m → parseFactor m (written c) = some (c, []) := fun m hm => by
    have := factor_written c m [] (by omega) (by simp [Follows])
    rwa [List.append_nil] at this
  have pt : ∀ m f, productTail (m + 1) f [] = some (f, []) := fun m f => rfl
  have st : ∀ m f, sumTail (m + 1) f [] = some (f, []) := fun m f => rfl
  refine ⟨?_, ?_, ?_, ?_, ?_⟩
  · rw [parseSum, parseProduct, fa _ _ _ (by decide) (by omega)]
    simp only [Option.bind_some]
    rw [productTail_stop _ _ _ _ (by decide) (by decide)]
    simp only [Option.bind_some]
    rw [sumTail, parseProduct, fb _ _ _ (by decide) (by omega)]
    simp only [Option.bind_some]
    rw [productTail, fc _ (by omega)]
    simp only [Option.bind_some, pt, st]
  · rw [parseSum, parseProduct, fa _ _ _ (by decide) (by omega)]
    simp only [Option.bind_some]
    rw [productTail, fb _ _ _ (by decide) (by omega)]
    simp only [Option.bind_some]
    rw [productTail_stop _ _ _ _ (by decide) (by decide)]
    simp only [Option.bind_some]
    rw [sumTail, parseProduct, fc _ (by omega)]
    simp only [Option.bind_some, pt, st]
  · rw [parseSum, parseProduct, fa _ _ _ (by decide) (by omega)]
    simp only [Option.bind_some]
    rw [productTail_stop _ _ _ _ (by decide) (by decide)]
    simp only [Option.bind_some]
    rw [sumTail, parseProduct, fb _ _ _ (by decide) (by omega)]
    simp only [Option.bind_some]
    rw [productTail_stop _ _ _ _ (by decide) (by decide)]
    simp only [Option.bind_some]
    rw [sumTail, parseProduct, fc _ (by omega)]
    simp only [Option.bind_some, pt, st]
  · rw [parseSum, parseProduct, fa _ _ _ (by decide) (by omega)]
    simp only [Option.bind_some]
    rw [productTail, fb _ _ _ (by decide) (by omega)]
    simp only [Option.bind_some]
    rw [productTail, fc _ (by omega)]
    simp only [Option.bind_some, pt, st]
  · rw [parseSum, parseProduct, fa _ _ _ (by decide) (by omega)]
    simp only [Option.bind_some]
    rw [productTail, fb _ _ _ (by decide) (by omega)]
    simp only [Option.bind_some]
    rw [productTail, fc _ (by omega)]
    simp only [Option.bind_some, pt, st]

end Formulas

namespace Eos

open GeoTiff (Outcome)
open Formulas

/-! ### Selection -/

theorem member_cases (mu : MuParser2) (q : LibraryParameters) (list : List Member) (h : list.Perm (eosList mu q))
    (name : String) (m : Member) (hm : m ∈ eosList mu q) (hn : m.name = name)
    (huniq : ∀ m' ∈ eosList mu q, m'.name = name → m' = m) : selectEos list name = .ok m := by
  unfold selectEos
  cases hf : list.find? (fun it => it.name = name) with
  | none =>
    rw [List.find?_eq_none] at hf
    exact absurd (decide_eq_true hn) (by simpa using hf m (h.mem_iff.2 hm))
  | some it =>
    have h1 := List.find?_some hf
    simp only [decide_eq_true_eq] at h1
    rw [huniq it (h.mem_iff.1 (List.mem_of_find?_eq_some hf)) h1]

/-- **C126 (selection).** Whatever the order of the library: a name selects the equation of state of this name with the
parameters of its own section; any other name throws. -/
theorem C126_selection (mu : MuParser2) (q : LibraryParameters) (list : List Member) (h : list.Perm (eosList mu q)) :
    selectEos list "function" = .ok (.function (UserFunction.setUp mu q.function)) ∧
    selectEos list "jones wilkins lee" = .ok (.jonesWilkinsLee q.jonesWilkinsLee) ∧
    selectEos list "noble abel stiffened gas" = .ok (.nobleAbelStiffenedGas q.nobleAbel) ∧
    selectEos list "polytropic gas" = .ok (.polytropicGas q.polytropic) ∧
    selectEos list "van der waals" = .ok (.vanDerWaals q.vanDerWaals) ∧
    (∀ i, q.tables = some i → selectEos list "sesame" = .ok (.sesame (some i))) ∧
    (q.tables = none → selectEos list "sesame" = .exception) ∧
    ∀ name, name ∉ ["function", "jones wilkins lee", "noble abel stiffened gas", "polytropic gas", "van der waals",
      "sesame", "Sesame"] → selectEos list name = .exception := by
  have hnone : ∀ name, (∀ m ∈ eosList mu q, m.name ≠ name) → selectEos list name = .exception := by
    intro name hno
    unfold selectEos
    rw [List.find?_eq_none.2 (fun m hm => by simpa using hno m (h.mem_iff.1 hm))]
  rcases ht : q.tables with _ | i
  · refine ⟨?_, ?_, ?_, ?_, ?_, fun i hi => (by simp at hi), fun _ => hnone _ ?_, fun name hname => hnone _ ?_⟩
    iterate 5
      exact member_cases mu q list h _ _ (by simp [eosList]) rfl (by simp [eosList, ht, Member.name])
    · simp [eosList, ht, Member.name]
    · simp only [List.mem_cons, List.not_mem_nil, or_false, not_or] at hname
      simp only [eosList, ht, List.forall_mem_cons, Member.name]
      tauto
  · refine ⟨?_, ?_, ?_, ?_, ?_, fun i' hi => ?_, fun hn => (by simp at hn), fun name hname => hnone _ ?_⟩
    iterate 5
      exact member_cases mu q list h _ _ (by simp [eosList]) rfl (by simp [eosList, ht, Member.name])
    · obtain rfl := Option.some.inj hi
      exact member_cases mu q list h _ _ (by simp [eosList, ht]) rfl (by simp [eosList, ht, Member.name])
    · simp only [List.mem_cons, List.not_mem_nil, or_false, not_or] at hname
      simp only [eosList, ht, List.forall_mem_cons, Member.name]
      tauto

/-- **C126 (name of the tables).** Without EOSPAC the tabulated equation of state has a different name, and all its functions
throw. -/
theorem C126_sesame_name_violation (mu : MuParser2) (q : LibraryParameters) (list : List Member)
    (h : list.Perm (eosList mu q)) (hq : q.tables = none) :
    selectEos list "sesame" = .exception ∧ selectEos list "Sesame" = .ok (.sesame none) ∧
      ∀ rho e, (Member.sesame none).access.pressure rho e = .exception := by
  refine ⟨(C126_selection mu q list h).2.2.2.2.2.2.1 hq, ?_, fun _ _ => rfl⟩
  exact member_cases mu q list h _ _ (by simp [eosList, hq]) rfl (by simp [eosList, hq, Member.name])

/-- **C126 (built-in equations of state).** Through the base class the functions and interpolation constants are those of
the selected class. -/
theorem C126_access (s1 : JonesWilkinsLee) (s2 : NobleAbelStiffenedGas) (s3 : PolytropicGas) (s4 : VanDerWaals)
    (rho x : ℝ) :
    ((Member.jonesWilkinsLee s1).access.pressure rho x = .ok (s1.pressure rho x) ∧
      (Member.jonesWilkinsLee s1).access.specificInternalEnergy rho x = .ok (s1.specificInternalEnergy rho x) ∧
      (Member.jonesWilkinsLee s1).access.temperature rho x = .ok (s1.temperature rho x) ∧
      (Member.jonesWilkinsLee s1).access.speedOfSound rho x = .ok (s1.speedOfSound rho x)) ∧
    ((Member.nobleAbelStiffenedGas s2).access.pressure rho x = .ok (s2.pressure rho x) ∧
      (Member.nobleAbelStiffenedGas s2).access.specificInternalEnergy rho x = .ok (s2.specificInternalEnergy rho x) ∧
      (Member.nobleAbelStiffenedGas s2).access.temperature rho x = .ok (s2.temperature rho x) ∧
      (Member.nobleAbelStiffenedGas s2).access.speedOfSound rho x = .ok (s2.speedOfSound rho x)) ∧
    ((Member.polytropicGas s3).access.pressure rho x = .ok (s3.pressure rho x) ∧
      (Member.polytropicGas s3).access.specificInternalEnergy rho x = .ok (s3.specificInternalEnergy rho x) ∧
      (Member.polytropicGas s3).access.temperature rho x = .ok (s3.temperature rho x) ∧
      (Member.polytropicGas s3).access.speedOfSound rho x = .ok (s3.speedOfSound rho x)) ∧
    ((Member.vanDerWaals s4).access.pressure rho x = .ok (s4.pressure rho x) ∧
      (Member.vanDerWaals s4).access.specificInternalEnergy rho x = .ok (s4.specificInternalEnergy rho x) ∧
      (Member.vanDerWaals s4).access.temperature rho x = .ok (s4.temperature rho x) ∧
      (Member.vanDerWaals s4).access.speedOfSound rho x = .ok (s4.speedOfSound rho x)) :=
  ⟨⟨rfl, rfl, rfl, rfl⟩, ⟨rfl, rfl, rfl, rfl⟩, ⟨rfl, rfl, rfl, rfl⟩, rfl, rfl, rfl, rfl⟩

/-- **C126 (interpolation constants).** Through the base class the constants of the pressure interpolation after reading a parameter file are zero
for the Jones-Wilkins-Lee equation and polytropic gases, the parameters `b`, `pinf` and `q` for Noble-Abel stiffened gases, `b`, `a / b^2` and zero
for van der Waals gases, and the parameters of the user for formulas.  For van der Waals gases with `b = 0` the second constant keeps the value
it had before. -/
theorem C126_constants (s1 : JonesWilkinsLee) (s2 : NobleAbelStiffenedGas) (s3 : PolytropicGas) (s4 : VanDerWaals) (mu : MuParser2)
    (s5 : UserFunction) (f : FunctionParameters) (gamma R a b q pinf : ℝ) :
    let constants := fun m : Member => (m.access.b, m.access.pinfty, m.access.q)
    constants (.jonesWilkinsLee s1) = (0, 0, 0) ∧ constants (.polytropicGas (s3.parse gamma R)) = (0, 0, 0) ∧
      constants (.nobleAbelStiffenedGas (s2.parse gamma R b q pinf)) = (b, pinf, q) ∧
      (0 < b → constants (.vanDerWaals (s4.parse gamma a b R)) = (b, a / b ^ 2, 0)) ∧
      (b ≤ 0 → constants (.vanDerWaals (s4.parse gamma a b R)) = (b, s4.interpolation_pinfty, 0)) ∧
      constants (.function (UserFunction.parse mu s5 f)) = (f.b, f.pinfty, f.q) := by
  refine ⟨rfl, rfl, rfl, fun hb => ?_, fun hb => ?_, rfl⟩
  · show (b, (if b > 0 then a / (b * b) else s4.interpolation_pinfty), (0 : ℝ)) = _
    rw [if_pos hb, pow_two]
  · show (b, (if b > 0 then a / (b * b) else s4.interpolation_pinfty), (0 : ℝ)) = _
    rw [if_neg (not_lt.2 hb)]

/-- A van der Waals gas with covolume 1/2 and attraction 1. -/
example (s4 : VanDerWaals) : (Member.vanDerWaals (s4.parse 1.4 1 (1 / 2) 1)).access.pinfty = 4 := by
  have h := (C126_constants JonesWilkinsLee.construct NobleAbelStiffenedGas.construct PolytropicGas.construct s4 muParser
    (UserFunction.construct muParser) UserFunction.defaults 1.4 1 1 (1 / 2) 0 0).2.2.2.1 (by norm_num)
  rw [show (Member.vanDerWaals (s4.parse 1.4 1 (1 / 2) 1)).access.pinfty = 1 / (1 / 2) ^ 2 from congrArg (fun x => x.2.1) h]
  norm_num

/-! ### Formulas of the user -/

/-- The values of the variables in the formulas for pressure, temperature and speed of sound. -/
noncomputable def valuesRhoE (rho e : ℝ) (x : List Char) : ℝ :=
  if x = "rho".toList then rho else if x = "e".toList then e else 0

/-- The values of the variables in the formula for the specific internal energy. -/
noncomputable def valuesRhoP (rho p : ℝ) (x : List Char) : ℝ :=
  if x = "rho".toList then rho else if x = "p".toList then p else 0

theorem valuesRhoE_rho (rho e : ℝ) : valuesRhoE rho e ['r', 'h', 'o'] = rho :=
  if_pos (by decide +kernel)

theorem valuesRhoE_e (rho e : ℝ) : valuesRhoE rho e ['e'] = e :=
  (if_neg (by decide +kernel)).trans (if_pos (by decide +kernel))

theorem valuesRhoP_rho (rho p : ℝ) : valuesRhoP rho p ['r', 'h', 'o'] = rho :=
  if_pos (by decide +kernel)

theorem valuesRhoP_p (rho p : ℝ) : valuesRhoP rho p ['p'] = p :=
  (if_neg (by decide +kernel)).trans (if_pos (by decide +kernel))

theorem eval_congr (f : Formula) (env env' : List Char → ℝ) (h : ∀ x ∈ f.vars, env x = env' x) :
    f.eval env = f.eval env' := by
  induction f <;> simp_all [Formula.eval, Formula.vars]

theorem evaluate_eq (names : List (List Char)) (env : List Char → ℝ) (x y : ℝ) (s : List Char) (f : Formula)
    (hs : Formulas.parse s = some f) (hv : ∀ v ∈ f.vars, v ∈ names)
    (henv : ∀ v ∈ names, ([x, y][names.idxOf v]?).getD 0 = env v) :
    UserFunction.evaluate (muParser names s) x y = .ok (f.eval env) := by
  unfold muParser UserFunction.evaluate
  rw [hs]
  simp only [if_pos hv]
  rw [eval_congr f _ env (fun v h => henv v (hv v h))]

/-- **C126 (formulas).** Whatever has been read before: after reading the parameters the four functions are the values of
the four formulas, at the density and the second argument under the documented names `e` and `p`. -/
theorem C126_formulas (q : FunctionParameters) (s : UserFunction) (fp fe ft fc : Formula)
    (hp : Formulas.parse q.pressure = some fp) (he : Formulas.parse q.specificInternalEnergy = some fe)
    (ht : Formulas.parse q.temperature = some ft) (hc : Formulas.parse q.speedOfSound = some fc)
    (vp : ∀ v ∈ fp.vars, v = "rho".toList ∨ v = "e".toList) (ve : ∀ v ∈ fe.vars, v = "rho".toList ∨ v = "p".toList)
    (vt : ∀ v ∈ ft.vars, v = "rho".toList ∨ v = "e".toList) (vc : ∀ v ∈ fc.vars, v = "rho".toList ∨ v = "e".toList)
    (rho x : ℝ) :
    let t := UserFunction.parse muParser s q
    t.pressure rho x = .ok (fp.eval (valuesRhoE rho x)) ∧
      t.specificInternalEnergy rho x = .ok (fe.eval (valuesRhoP rho x)) ∧
      t.temperature rho x = .ok (ft.eval (valuesRhoE rho x)) ∧
      t.speedOfSound rho x = .ok (fc.eval (valuesRhoE rho x)) := by
  have r1 : "rho".toList = ['r', 'h', 'o'] := by decide +kernel
  have r2 : "e".toList = ['e'] := by decide +kernel
  have r3 : "p".toList = ['p'] := by decide +kernel
  have hE : ∀ v ∈ namesRhoE, ([rho, x][namesRhoE.idxOf v]?).getD 0 = valuesRhoE rho x v := by
    intro v hv
    simp only [namesRhoE, List.mem_cons, List.not_mem_nil, or_false] at hv
    rcases hv with rfl | rfl <;> simp [namesRhoE, valuesRhoE, r1, r2, List.idxOf, List.findIdx, List.findIdx.go]
  have hP : ∀ v ∈ namesRhoP, ([rho, x][namesRhoP.idxOf v]?).getD 0 = valuesRhoP rho x v := by
    intro v hv
    simp only [namesRhoP, List.mem_cons, List.not_mem_nil, or_false] at hv
    rcases hv with rfl | rfl <;> simp [namesRhoP, valuesRhoP, r1, r3, List.idxOf, List.findIdx, List.findIdx.go]
  rw [r1, r2] at vp vt vc
  rw [r1, r3] at ve
  exact ⟨evaluate_eq _ _ _ _ _ _ hp (fun v hv => by simpa [namesRhoE] using vp v hv) hE,
    evaluate_eq _ _ _ _ _ _ he (fun v hv => by simpa [namesRhoP] using ve v hv) hP,
    evaluate_eq _ _ _ _ _ _ ht (fun v hv => by simpa [namesRhoE] using vt v hv) hE,
    evaluate_eq _ _ _ _ _ _ hc (fun v hv => by simpa [namesRhoE] using vc v hv) hE⟩

/-- **C126 (unknown variables).** A formula with any other variable is not evaluated: the call throws.  In particular the
pressure cannot be given as a function of `p`, nor the specific internal energy as a function of `e`. -/
theorem C126_unknown_variable (q : FunctionParameters) (s : UserFunction) (f : Formula) (v : List Char) (hv : v ∈ f.vars)
    (rho x : ℝ) :
    (Formulas.parse q.pressure = some f → v ≠ "rho".toList → v ≠ "e".toList →
      (UserFunction.parse muParser s q).pressure rho x = .exception) ∧
    (Formulas.parse q.specificInternalEnergy = some f → v ≠ "rho".toList → v ≠ "p".toList →
      (UserFunction.parse muParser s q).specificInternalEnergy rho x = .exception) := by
  have r1 : "rho".toList = ['r', 'h', 'o'] := by decide +kernel
  have r2 : "e".toList = ['e'] := by decide +kernel
  have r3 : "p".toList = ['p'] := by decide +kernel
  rw [r1, r2, r3]
  constructor
  · intro h h1 h2
    have hno : ¬ ∀ x ∈ f.vars, x ∈ namesRhoE := fun hall => by
      have := hall v hv
      simp only [namesRhoE, List.mem_cons, List.not_mem_nil, or_false] at this
      tauto
    simp only [UserFunction.parse, UserFunction.pressure, UserFunction.setUp, UserFunction.evaluate, muParser, h,
      if_neg hno]
  · intro h h1 h2
    have hno : ¬ ∀ x ∈ f.vars, x ∈ namesRhoP := fun hall => by
      have := hall v hv
      simp only [namesRhoP, List.mem_cons, List.not_mem_nil, or_false] at this
      tauto
    simp only [UserFunction.parse, UserFunction.specificInternalEnergy, UserFunction.setUp, UserFunction.evaluate, muParser,
      h, if_neg hno]

/-- **C126 (history).** Only the parameters read last matter. -/
theorem C126_last (mu : MuParser2) (s s' : UserFunction) (history history' : List FunctionParameters)
    (q : FunctionParameters) :
    (history ++ [q]).foldl (UserFunction.parse mu) s = (history' ++ [q]).foldl (UserFunction.parse mu) s' := by
  simp [List.foldl_append, UserFunction.parse]

theorem default_formulas :
    Formulas.parse "(1.4 - 1.0) * rho * e".toList
        = some (.mul (.mul (.sub (.number 14 1) (.number 10 1)) (.var ['r', 'h', 'o'])) (.var ['e'])) ∧
      Formulas.parse "p / (rho * (1.4 - 1.0))".toList
        = some (.div (.var ['p']) (.mul (.var ['r', 'h', 'o']) (.sub (.number 14 1) (.number 10 1)))) ∧
      Formulas.parse "e / 718.".toList = some (.div (.var ['e']) (.number 718 0)) ∧
      Formulas.parse "sqrt(1.4 * (1.4 - 1.0) * e)".toList
        = some (.sqrt (.mul (.mul (.number 14 1) (.sub (.number 14 1) (.number 10 1))) (.var ['e']))) := by
  refine ⟨?_, ?_, ?_, ?_⟩ <;> decide +kernel

attribute [local irreducible] Formulas.parse

/-- **C126 (default formulas).** Without any parameters the user-defined equation of state is that of a polytropic gas with
`gamma = 7/5`, and the temperature is `e / 718`; interpolation constants vanish. -/
theorem C126_default (R cv rho x : ℝ) :
    let s := UserFunction.construct muParser
    let gas : PolytropicGas := ⟨7 / 5, R, cv⟩
    s.pressure rho x = .ok (gas.pressure rho x) ∧
      s.specificInternalEnergy rho x = .ok (gas.specificInternalEnergy rho x) ∧
      s.temperature rho x = .ok (x / 718) ∧ s.speedOfSound rho x = .ok (gas.speedOfSound rho x) ∧
      (Member.function s).access.b = 0 ∧ (Member.function s).access.pinfty = 0 ∧ (Member.function s).access.q = 0 := by
  intro s gas
  have r1 : "rho".toList = ['r', 'h', 'o'] := by decide +kernel
  have r2 : "e".toList = ['e'] := by decide +kernel
  have r3 : "p".toList = ['p'] := by decide +kernel
  have h := C126_formulas UserFunction.defaults s _ _ _ _ default_formulas.1 default_formulas.2.1 default_formulas.2.2.1
    default_formulas.2.2.2 (by simp [Formula.vars, r1, r2]) (by simp [Formula.vars, r1, r3]) (by simp [Formula.vars, r2])
    (by simp [Formula.vars, r2]) rho x
  have hs : UserFunction.parse muParser s UserFunction.defaults = s := rfl
  simp only [hs] at h
  obtain ⟨h1, h2, h3, h4⟩ := h
  refine ⟨?_, ?_, ?_, ?_, rfl, rfl, rfl⟩
  · rw [h1]
    congr 1
    simp only [Formula.eval, valuesRhoE_rho, valuesRhoE_e, valuesRhoP_rho, valuesRhoP_p, gas, PolytropicGas.pressure]
    norm_num
  · rw [h2]
    congr 1
    simp only [Formula.eval, valuesRhoE_rho, valuesRhoE_e, valuesRhoP_rho, valuesRhoP_p, gas, PolytropicGas.specificInternalEnergy]
    norm_num
  · rw [h3]
    congr 1
    simp only [Formula.eval, valuesRhoE_rho, valuesRhoE_e, valuesRhoP_rho, valuesRhoP_p]
    norm_num
  · rw [h4]
    congr 1
    refine congrArg Real.sqrt ?_
    simp only [Formula.eval, valuesRhoE_rho, valuesRhoE_e, valuesRhoP_rho, valuesRhoP_p, gas]
    norm_num

/-- **C126 (lanes).** A call for vectorised numbers returns lane by lane what the scalar call returns, and throws only if a
scalar call throws. -/
theorem C126_lanes (f : ℝ → ℝ → Outcome ℝ) (xs ys : List ℝ) :
    (∀ g : ℝ → ℝ → ℝ, (∀ p ∈ xs.zip ys, f p.1 p.2 = .ok (g p.1 p.2)) → lanes f xs ys = .ok (List.zipWith g xs ys)) ∧
      ∀ vs, lanes f xs ys = .ok vs → List.Forall₂ (fun p v => f p.1 p.2 = .ok v) (xs.zip ys) vs := by
  induction xs generalizing ys with
  | nil => exact ⟨fun g _ => by simp [lanes], fun vs h => by simp [lanes] at h; subst h; simp⟩
  | cons x xs ih =>
    cases ys with
    | nil => exact ⟨fun g _ => by simp [lanes], fun vs h => by simp [lanes] at h; subst h; simp⟩
    | cons y ys =>
      constructor
      · intro g hg
        have h1 := hg (x, y) (by simp)
        have h2 := (ih ys).1 g (fun p hp => hg p (by simp [hp]))
        simp only at h1
        simp only [lanes, h1, h2, List.zipWith_cons_cons]
      · intro vs h
        simp only [lanes] at h
        cases hf : f x y with
        | ub => simp [hf] at h
        | exception => simp [hf] at h
        | ok v =>
          cases hl : lanes f xs ys with
          | ub => simp [hf, hl] at h
          | exception => simp [hf, hl] at h
          | ok ws =>
            simp only [hf, hl] at h
            obtain rfl := (Outcome.ok.inj h)
            exact List.Forall₂.cons hf ((ih ys).2 ws hl)

/-- **C126 (inconsistent formulas).** The four formulas are not checked against each other: if only the formula of the
pressure is changed to that of another polytropic gas, then the pressure of the energy belonging to a prescribed pressure
is a different one. -/
theorem C126_inconsistent_violation (s : UserFunction) (rho p : ℝ) (hrho : 0 < rho) (hp : 0 < p) :
    let t := UserFunction.parse muParser s
      { UserFunction.defaults with pressure := "(1.6 - 1.0) * rho * e".toList }
    ∃ e p', t.specificInternalEnergy rho p = .ok e ∧ t.pressure rho e = .ok p' ∧ p' ≠ p := by
  intro t
  have r1 : "rho".toList = ['r', 'h', 'o'] := by decide +kernel
  have r2 : "e".toList = ['e'] := by decide +kernel
  have r3 : "p".toList = ['p'] := by decide +kernel
  have hf : Formulas.parse "(1.6 - 1.0) * rho * e".toList
      = some (.mul (.mul (.sub (.number 16 1) (.number 10 1)) (.var ['r', 'h', 'o'])) (.var ['e'])) := by decide +kernel
  have h := fun x => C126_formulas { UserFunction.defaults with pressure := "(1.6 - 1.0) * rho * e".toList } s _ _ _ _ hf
    default_formulas.2.1 default_formulas.2.2.1 default_formulas.2.2.2 (by simp [Formula.vars, r1, r2])
    (by simp [Formula.vars, r1, r3]) (by simp [Formula.vars, r2]) (by simp [Formula.vars, r2]) rho x
  refine ⟨_, _, (h p).2.1, (h _).1, ?_⟩
  simp only [Formula.eval, valuesRhoE_rho, valuesRhoE_e, valuesRhoP_rho, valuesRhoP_p]
  have : ((16 : ℕ) / 10 ^ 1 - (10 : ℕ) / 10 ^ 1 : ℝ) * rho * (p / (rho * ((14 : ℕ) / 10 ^ 1 - (10 : ℕ) / 10 ^ 1)))
      = 3 / 2 * p := by
    norm_num
    field_simp
  rw [this]
  intro e
  linarith

/-! ### Non-vacuity -/

/-- A van der Waals type law written by a user. -/
example (s : UserFunction) (rho e : ℝ) :
    (UserFunction.parse muParser s { UserFunction.defaults with
      pressure := "0.4 * (rho*e + 2*rho*rho)/(1 - 0.1*rho) - 2*rho*rho".toList }).pressure rho e
      = .ok (4 / 10 * (rho * e + 2 * rho * rho) / (1 - 1 / 10 * rho) - 2 * rho * rho) := by
  have r1 : "rho".toList = ['r', 'h', 'o'] := by decide +kernel
  have r2 : "e".toList = ['e'] := by decide +kernel
  have r3 : "p".toList = ['p'] := by decide +kernel
  have hf : Formulas.parse "0.4 * (rho*e + 2*rho*rho)/(1 - 0.1*rho) - 2*rho*rho".toList
      = some (.sub (.div (.mul (.number 4 1) (.add (.mul (.var ['r', 'h', 'o']) (.var ['e']))
        (.mul (.mul (.number 2 0) (.var ['r', 'h', 'o'])) (.var ['r', 'h', 'o']))))
        (.sub (.number 1 0) (.mul (.number 1 1) (.var ['r', 'h', 'o']))))
        (.mul (.mul (.number 2 0) (.var ['r', 'h', 'o'])) (.var ['r', 'h', 'o']))) := by decide +kernel
  rw [(C126_formulas _ s _ _ _ _ hf default_formulas.2.1 default_formulas.2.2.1 default_formulas.2.2.2
    (by simp [Formula.vars, r1, r2]) (by simp [Formula.vars, r1, r3]) (by simp [Formula.vars, r2])
    (by simp [Formula.vars, r2]) rho e).1]
  congr 1
  simp only [Formula.eval, valuesRhoE_rho, valuesRhoE_e, valuesRhoP_rho, valuesRhoP_p]
  norm_num

/-- The library in reverse order. -/
example (i : Interface) : selectEos (eosList muParser ⟨"sesame", UserFunction.defaults, JonesWilkinsLee.construct,
    NobleAbelStiffenedGas.construct, PolytropicGas.construct, some i, VanDerWaals.construct⟩).reverse "sesame"
      = .ok (.sesame (some i)) :=
  (C126_selection muParser _ _ (List.reverse_perm _)).2.2.2.2.2.1 i rfl

/-- Two lanes of the default formulas. -/
example : lanes (UserFunction.construct muParser).pressure [1, 2] [5, 10] = .ok [2, 8] := by
  rw [(C126_lanes _ _ _).1 (fun rho e => (7 / 5 - 1) * rho * e) (fun p _ => (C126_default 0 0 p.1 p.2).1)]
  norm_num

end Eos
end Ryujin
