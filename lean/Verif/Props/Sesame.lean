import Verif.Model.Sesame
import Mathlib.Tactic.NormNum
import Mathlib.Tactic.Ring
import Mathlib.Tactic.FieldSimp
import Mathlib.Tactic.Linarith

/-!
# C117: the tabulated equation of state
-/

namespace Ryujin
namespace Eos
namespace Sesame

noncomputable section

/-! ### Specification -/

/-- The tables of material `m` tabulate the laws `P` (pressure in Pa for density in kg/m^3 and specific internal energy in
J/kg) and `E` (specific internal energy in J/kg for density in kg/m^3 and pressure in Pa) in the units of the database, which
are Mg/m^3, MJ/kg and GPa. -/
structure Tabulates (lib : Library) (m : ℤ) (P E : ℝ → ℝ → ℝ) : Prop where
  pressure : ∀ rho e, 10 ^ 9 * lib.value (m, .p_rho_e) rho e = P (10 ^ 3 * rho) (10 ^ 6 * e)
  energy : ∀ rho p, 10 ^ 6 * lib.value (m, .e_rho_p) rho p = E (10 ^ 3 * rho) (10 ^ 9 * p)

/-- Both tables of material `m` can be created, configured and loaded. -/
def Loadable (lib : Library) (m : ℤ) : Prop := ∀ ty, lib.createOk (m, ty) ∧ lib.optionOk (m, ty) ∧ lib.loadOk (m, ty)

/-- No parameters are parsed in a history. -/
def NoParse (h : List Event) : Prop := ∀ ev ∈ h, ∀ m, ev ≠ .parse m

/-! ### The database -/

theorem setUpDatabase_ok {lib : Library} {file : Bool} {m : ℤ} {d : List Table} (h : setUpDatabase lib file m = .ok d) :
    d = [(m, .p_rho_e), (m, .e_rho_p)] ∧ file = true ∧ Loadable lib m := by
  unfold setUpDatabase at h
  by_cases hf : file = true
  · rw [if_pos hf] at h
    simp only [interface, check] at h
    by_cases h1 : lib.createOk (m, .p_rho_e) = true <;> by_cases h2 : lib.createOk (m, .e_rho_p) = true <;>
    by_cases h3 : lib.optionOk (m, .p_rho_e) = true <;> by_cases h4 : lib.optionOk (m, .e_rho_p) = true <;>
    by_cases h5 : lib.loadOk (m, .p_rho_e) = true <;> by_cases h6 : lib.loadOk (m, .e_rho_p) = true <;>
    simp [h1, h2, h3, h4, h5, h6, bind, Except.bind, pure, Except.pure] at h
    refine ⟨h.symm, hf, fun ty => ?_⟩
    cases ty <;> simp [*]
  · rw [if_neg hf] at h
    cases h

theorem setUpDatabase_of_loadable {lib : Library} {m : ℤ} (h : Loadable lib m) :
    setUpDatabase lib true m = .ok [(m, .p_rho_e), (m, .e_rho_p)] := by
  obtain ⟨a, b, c⟩ := h .p_rho_e
  obtain ⟨a', b', c'⟩ := h .e_rho_p
  simp [setUpDatabase, interface, check, a, b, c, a', b', c', bind, Except.bind, pure, Except.pure]

/-- The database of a state is that of material `m`, or it has not been set up and `m` is the chosen material. -/
def Holds (m : ℤ) (s : Object) : Prop :=
  s.material = m ∧ (s.database = none ∨ s.database = some [(m, .p_rho_e), (m, .e_rho_p)])

theorem ensure_holds {lib : Library} {file : Bool} {s s' : Object} {m : ℤ} {d : List Table} (hs : Holds m s)
    (h : ensure lib file s = .ok (s', d)) : d = [(m, .p_rho_e), (m, .e_rho_p)] ∧ Holds m s' ∧ s'.database = some d := by
  unfold ensure at h
  obtain ⟨hm, hd | hd⟩ := hs
  · rw [hd] at h
    dsimp only at h
    cases hq : setUpDatabase lib file s.material with
    | error f => rw [hq] at h; cases h
    | ok d' =>
      rw [hq] at h
      cases h
      obtain ⟨e, -⟩ := setUpDatabase_ok hq
      rw [hm] at e
      exact ⟨e, ⟨hm, Or.inr (by rw [e])⟩, rfl⟩
  · rw [hd] at h
    cases h
    exact ⟨rfl, ⟨hm, Or.inr hd⟩, hd⟩

theorem finish_holds {α : Type} {s : Object} {m : ℤ} (hs : Holds m s) (x : Except Failure (Object × α))
    (h : ∀ s' a, x = .ok (s', a) → Holds m s') : Holds m (finish s x).1 := by
  cases x with
  | error f => exact hs
  | ok a => exact h _ _ rfl

theorem bind_ok {α β ε : Type} {x : Except ε α} {f : α → Except ε β} {b : β} (h : (x >>= f) = .ok b) :
    ∃ a, x = .ok a ∧ f a = .ok b := by
  cases x with
  | error e => cases h
  | ok a => exact ⟨a, rfl, h⟩

theorem after_holds {lib : Library} {st : Object × Bool} {m : ℤ} (hs : Holds m st.1) (ev : Event)
    (hp : ∀ m, ev ≠ .parse m) : Holds m (after lib st ev).1 := by
  have hn : Holds m (notImplemented lib st.2 st.1).1 := by
    unfold notImplemented
    cases hq : ensure lib st.2 st.1 with
    | error f => exact hs
    | ok q => exact (ensure_holds (d := q.2) hs hq).2.1
  cases ev with
  | parse m' => exact absurd rfl (hp m')
  | file b => exact hs
  | pressure rho e =>
    refine finish_holds hs _ fun s' a h => ?_
    obtain ⟨⟨s1, d⟩, h1, h2⟩ := bind_ok h
    obtain ⟨p, h3, h4⟩ := bind_ok h2
    split at h4 <;> cases h4
    exact (ensure_holds hs h1).2.1
  | energy rho p =>
    refine finish_holds hs _ fun s' a h => ?_
    obtain ⟨⟨s1, d⟩, h1, h2⟩ := bind_ok h
    obtain ⟨p, h3, h4⟩ := bind_ok h2
    split at h4 <;> cases h4
    exact (ensure_holds hs h1).2.1
  | pressureArray rho e =>
    refine finish_holds hs _ fun s' a h => ?_
    obtain ⟨⟨s1, d⟩, h1, h2⟩ := bind_ok h
    obtain ⟨p, h3, h4⟩ := bind_ok h2
    cases h4
    exact (ensure_holds hs h1).2.1
  | energyArray rho p =>
    refine finish_holds hs _ fun s' a h => ?_
    obtain ⟨⟨s1, d⟩, h1, h2⟩ := bind_ok h
    obtain ⟨p, h3, h4⟩ := bind_ok h2
    cases h4
    exact (ensure_holds hs h1).2.1
  | temperature rho e => exact hn
  | speedOfSound rho e => exact hn

theorem foldl_holds {lib : Library} {m : ℤ} (h : List Event) (hp : NoParse h) (st : Object × Bool) (hs : Holds m st.1) :
    Holds m (h.foldl (after lib) st).1 := by
  induction h generalizing st with
  | nil => exact hs
  | cons ev h ih =>
    exact ih (fun e he => hp e (List.mem_cons_of_mem _ he)) _ (after_holds hs ev (hp ev List.mem_cons_self))

theorem history_holds {lib : Library} {m : ℤ} (file : Bool) (h : List Event) (hp : NoParse h) :
    Holds m (history lib file (.parse m :: h)).1 := foldl_holds h hp _ ⟨rfl, Or.inl rfl⟩

/-! ### Values -/

/-- **C117** Whatever has been called before, a call that returns gives the values of the laws tabulated for the material of
the parameter file, in SI units; the variants for arrays give them for every entry. -/
theorem C117_values (lib : Library) (m : ℤ) (P E : ℝ → ℝ → ℝ) (htab : Tabulates lib m P E) (file : Bool) (h : List Event)
    (hp : NoParse h) (file' : Bool) :
    let s := (history lib file (.parse m :: h)).1
    (∀ rho e v, (pressure lib file' s rho e).2 = .ok v → v = P rho e) ∧
    (∀ rho p v, (specificInternalEnergy lib file' s rho p).2 = .ok v → v = E rho p) ∧
    (∀ rho e v, (pressureArray lib file' s rho e).2 = .ok v → v.result = List.zipWith P rho e) ∧
    (∀ rho p v, (specificInternalEnergyArray lib file' s rho p).2 = .ok v → v.result = List.zipWith E rho p) := by
  intro s
  have hs : Holds m s := history_holds file h hp
  have fin : ∀ {α : Type} {x : Except Failure (Object × α)} {v : α}, (finish s x).2 = .ok v → ∃ s', x = .ok (s', v) := by
    intro α x v hx
    cases x with
    | error f => cases hx
    | ok a =>
      have hx' : Except.ok (ε := Failure) a.2 = .ok v := hx
      cases hx'
      exact ⟨a.1, rfl⟩
  have hP : ∀ rho e, lib.value (m, .p_rho_e) (rho / 1000) (e / 1000000) * 1000000000 = P rho e := by
    intro rho e
    have := htab.pressure (rho / 1000) (e / 1000000)
    rw [show (10 : ℝ) ^ 3 * (rho / 1000) = rho by ring, show (10 : ℝ) ^ 6 * (e / 1000000) = e by ring] at this
    linarith
  have hE : ∀ rho p, lib.value (m, .e_rho_p) (rho / 1000) (p / 1000000000) * 1000000 = E rho p := by
    intro rho p
    have := htab.energy (rho / 1000) (p / 1000000000)
    rw [show (10 : ℝ) ^ 3 * (rho / 1000) = rho by ring, show (10 : ℝ) ^ 9 * (p / 1000000000) = p by ring] at this
    linarith
  refine ⟨fun rho e v hv => ?_, fun rho p v hv => ?_, fun rho e v hv => ?_, fun rho p v hv => ?_⟩
  · obtain ⟨s', hx⟩ := fin hv
    obtain ⟨⟨s1, d⟩, h1, h2⟩ := bind_ok hx
    obtain ⟨q, h3, h4⟩ := bind_ok h2
    obtain ⟨rfl, -⟩ := ensure_holds hs h1
    cases h3
    cases h4
    rw [mul_comm, hP]
  · obtain ⟨s', hx⟩ := fin hv
    obtain ⟨⟨s1, d⟩, h1, h2⟩ := bind_ok hx
    obtain ⟨q, h3, h4⟩ := bind_ok h2
    obtain ⟨rfl, -⟩ := ensure_holds hs h1
    cases h3
    cases h4
    rw [mul_comm, hE]
  · obtain ⟨s', hx⟩ := fin hv
    obtain ⟨⟨s1, d⟩, h1, h2⟩ := bind_ok hx
    obtain ⟨q, h3, h4⟩ := bind_ok h2
    obtain ⟨rfl, -⟩ := ensure_holds hs h1
    cases h3
    cases h4
    show (List.zipWith (lib.value (m, .p_rho_e)) (rho.map (· / 1000)) (e.map (· / 1000000))).map (· * 1000000000) = _
    rw [List.zipWith_map, List.map_zipWith]
    simp only [hP]
  · obtain ⟨s', hx⟩ := fin hv
    obtain ⟨⟨s1, d⟩, h1, h2⟩ := bind_ok hx
    obtain ⟨q, h3, h4⟩ := bind_ok h2
    obtain ⟨rfl, -⟩ := ensure_holds hs h1
    cases h3
    cases h4
    show (List.zipWith (lib.value (m, .e_rho_p)) (rho.map (· / 1000)) (p.map (· / 1000000000))).map (· * 1000000) = _
    rw [List.zipWith_map, List.map_zipWith]
    simp only [hE]

/-- What the precomputation of the hyperbolic module takes from the database are the pressures of the law, so that
`C50_vector_variant_partial` applies with the law as equation of state. -/
theorem C117_precomputed_pressures (lib : Library) (m : ℤ) (P E : ℝ → ℝ → ℝ) (htab : Tabulates lib m P E) (file : Bool)
    (h : List Event) (hp : NoParse h) (file' : Bool) (rho e v : List ℝ)
    (hv : (precomputedPressures lib file' (history lib file (.parse m :: h)).1 rho e).2 = .ok v) :
    v = arrayVariant P rho e := by
  unfold precomputedPressures at hv
  dsimp only at hv
  cases hq : (pressureArray lib file' (history lib file (.parse m :: h)).1 rho e).2 with
  | error f => rw [hq] at hv; cases hv
  | ok a =>
    rw [hq] at hv
    cases hv
    exact (C117_values lib m P E htab file h hp file').2.2.1 rho e a hq

/-! ### Availability -/

/-- Which calls return, given a database: all of those that are implemented. -/
theorem returns_of_ensure {lib : Library} {file : Bool} {s s' : Object} {m : ℤ}
    (h : ensure lib file s = .ok (s', [(m, .p_rho_e), (m, .e_rho_p)])) :
    (∀ rho e, ∃ v, pressure lib file s rho e = (s', .ok v)) ∧
    (∀ rho p, ∃ v, specificInternalEnergy lib file s rho p = (s', .ok v)) ∧
    (∀ rho e, ∃ v, pressureArray lib file s rho e = (s', .ok v)) ∧
    (∀ rho p, ∃ v, specificInternalEnergyArray lib file s rho p = (s', .ok v)) := by
  refine ⟨fun rho e => ⟨1000000000 * lib.value (m, .p_rho_e) (rho / 1000) (e / 1000000), ?_⟩,
    fun rho p => ⟨1000000 * lib.value (m, .e_rho_p) (rho / 1000) (p / 1000000000), ?_⟩,
    fun rho e => ⟨⟨(List.zipWith (lib.value (m, .p_rho_e)) (rho.map (· / 1000)) (e.map (· / 1000000))).map (· * 1000000000),
      rho.map (· / 1000), e.map (· / 1000000)⟩, ?_⟩,
    fun rho p => ⟨⟨(List.zipWith (lib.value (m, .e_rho_p)) (rho.map (· / 1000)) (p.map (· / 1000000000))).map (· * 1000000),
      rho.map (· / 1000), p.map (· / 1000000000)⟩, ?_⟩⟩
  · unfold pressure; rw [h]; rfl
  · unfold specificInternalEnergy; rw [h]; rfl
  · unfold pressureArray; rw [h]; rfl
  · unfold specificInternalEnergyArray; rw [h]; rfl

/-- **C117** If the file with the directories exists and the tables of the material can be loaded, every call returns,
whatever has happened before (also calls that failed because the file was missing). -/
theorem C117_available (lib : Library) (m : ℤ) (hl : Loadable lib m) (file : Bool) (h : List Event) (hp : NoParse h) :
    let s := (history lib file (.parse m :: h)).1
    (∀ rho e, ∃ v, (pressure lib true s rho e).2 = .ok v) ∧
    (∀ rho p, ∃ v, (specificInternalEnergy lib true s rho p).2 = .ok v) ∧
    (∀ rho e, ∃ v, (pressureArray lib true s rho e).2 = .ok v) ∧
    (∀ rho p, ∃ v, (specificInternalEnergyArray lib true s rho p).2 = .ok v) := by
  intro s
  have hs : Holds m s := history_holds file h hp
  have he : ∃ s', ensure lib true s = .ok (s', [(m, .p_rho_e), (m, .e_rho_p)]) := by
    unfold ensure
    obtain ⟨hm, hd | hd⟩ := hs
    · rw [hd]
      dsimp only
      rw [hm, setUpDatabase_of_loadable hl]
      exact ⟨_, rfl⟩
    · rw [hd]
      exact ⟨_, rfl⟩
  obtain ⟨s', he⟩ := he
  obtain ⟨a, b, c, d⟩ := returns_of_ensure he
  exact ⟨fun x y => (a x y).imp fun v hv => by rw [hv], fun x y => (b x y).imp fun v hv => by rw [hv],
    fun x y => (c x y).imp fun v hv => by rw [hv], fun x y => (d x y).imp fun v hv => by rw [hv]⟩

/-- **C117** As long as the file is missing or a table cannot be loaded, no call returns a value: every call throws, and so
does every later call. -/
theorem C117_missing_throws (lib : Library) (m : ℤ) (file : Bool) (h : List Event) (hp : NoParse h)
    (hbad : ¬ Loadable lib m ∨ (file = false ∧ ∀ ev ∈ h, ∀ b, ev ≠ .file b)) (file' : Bool)
    (hfile' : file' = true → ¬ Loadable lib m) :
    let s := (history lib file (.parse m :: h)).1
    (∀ rho e v, (pressure lib file' s rho e).2 ≠ .ok v) ∧
    (∀ rho p v, (specificInternalEnergy lib file' s rho p).2 ≠ .ok v) ∧
    (∀ rho e v, (pressureArray lib file' s rho e).2 ≠ .ok v) ∧
    (∀ rho p v, (specificInternalEnergyArray lib file' s rho p).2 ≠ .ok v) := by
  intro s
  -- the database is never set up
  have hens : ∀ (st : Object) (f : Bool), Holds m st → st.database = none → (f = true → ¬ Loadable lib m) →
      ∃ fl, ensure lib f st = .error fl := by
    intro st f hst hd hf
    cases hq : ensure lib f st with
    | error fl => exact ⟨fl, rfl⟩
    | ok q =>
      exfalso
      unfold ensure at hq
      rw [hd] at hq
      dsimp only at hq
      obtain ⟨d, hd', -⟩ := bind_ok hq
      rw [hst.1] at hd'
      obtain ⟨-, h1, h2⟩ := setUpDatabase_ok hd'
      exact hf h1 h2
  have hstep : ∀ (st : Object × Bool) (ev : Event), Holds m st.1 → st.1.database = none →
      (st.2 = true → ¬ Loadable lib m) → (∀ m, ev ≠ .parse m) → (after lib st ev).1.database = none := by
    intro st ev hst hd hf hev
    obtain ⟨fl, hfl⟩ := hens st.1 st.2 hst hd hf
    cases ev with
    | parse m' => exact absurd rfl (hev m')
    | file b => exact hd
    | pressure rho e => show (pressure lib st.2 st.1 rho e).1.database = none; unfold pressure; rw [hfl]; exact hd
    | energy rho p =>
      show (specificInternalEnergy lib st.2 st.1 rho p).1.database = none
      unfold specificInternalEnergy; rw [hfl]; exact hd
    | pressureArray rho e =>
      show (pressureArray lib st.2 st.1 rho e).1.database = none; unfold pressureArray; rw [hfl]; exact hd
    | energyArray rho p =>
      show (specificInternalEnergyArray lib st.2 st.1 rho p).1.database = none
      unfold specificInternalEnergyArray; rw [hfl]; exact hd
    | temperature rho e =>
      show (notImplemented lib st.2 st.1).1.database = none; unfold notImplemented; rw [hfl]; exact hd
    | speedOfSound rho e =>
      show (notImplemented lib st.2 st.1).1.database = none; unfold notImplemented; rw [hfl]; exact hd
  have hdb : ∀ (h : List Event) (st : Object × Bool), NoParse h →
      (¬ Loadable lib m ∨ (st.2 = false ∧ ∀ ev ∈ h, ∀ b, ev ≠ .file b)) → Holds m st.1 → st.1.database = none →
      (h.foldl (after lib) st).1.database = none := by
    intro h
    induction h with
    | nil => intro st _ _ _ hd; exact hd
    | cons ev h ih =>
      intro st hp hbad hst hd
      have hp1 := hp ev List.mem_cons_self
      refine ih _ (fun e he => hp e (List.mem_cons_of_mem _ he)) ?_ (after_holds hst ev hp1)
        (hstep st ev hst hd ?_ hp1)
      · rcases hbad with hb | ⟨hb, hc⟩
        · exact Or.inl hb
        · refine Or.inr ⟨?_, fun e he => hc e (List.mem_cons_of_mem _ he)⟩
          cases ev with
          | file b => exact absurd rfl (hc _ List.mem_cons_self b)
          | _ => exact hb
      · rcases hbad with hb | ⟨hb, -⟩
        · exact fun _ => hb
        · intro h'; rw [hb] at h'; cases h'
  have hs : Holds m s := history_holds file h hp
  have hd : s.database = none := hdb h (⟨m, none⟩, file) hp hbad ⟨rfl, Or.inl rfl⟩ rfl
  obtain ⟨fl, hfl⟩ := hens s file' hs hd hfile'
  refine ⟨fun rho e v => ?_, fun rho p v => ?_, fun rho e v => ?_, fun rho p v => ?_⟩
  · unfold pressure; rw [hfl]; intro h; cases h
  · unfold specificInternalEnergy; rw [hfl]; intro h; cases h
  · unfold pressureArray; rw [hfl]; intro h; cases h
  · unfold specificInternalEnergyArray; rw [hfl]; intro h; cases h

/-! ### Consistency of the two tables -/

/-- **C117** If the tabulated laws are inverse to each other, the energy obtained from a pressure has that pressure again. -/
theorem C117_inverse (lib : Library) (m : ℤ) (P E : ℝ → ℝ → ℝ) (htab : Tabulates lib m P E)
    (hinv : ∀ rho p, P rho (E rho p) = p) (file : Bool) (h : List Event) (hp : NoParse h) (file' file'' : Bool)
    (rho p e p' : ℝ)
    (he : (specificInternalEnergy lib file' (history lib file (.parse m :: h)).1 rho p).2 = .ok e)
    (hp' : (pressure lib file'' (specificInternalEnergy lib file' (history lib file (.parse m :: h)).1 rho p).1 rho e).2 =
      .ok p') : p' = p := by
  have h1 := (C117_values lib m P E htab file h hp file').2.1 rho p e he
  have hh : (history lib file (.parse m :: (h ++ [.file file', .energy rho p]))).1 =
      (specificInternalEnergy lib file' (history lib file (.parse m :: h)).1 rho p).1 := by
    unfold history
    rw [← List.cons_append, List.foldl_append]
    rfl
  have hp2 : NoParse (h ++ [.file file', .energy rho p]) := by
    intro ev hev m'
    rcases List.mem_append.1 hev with hev | hev
    · exact hp ev hev m'
    · simp only [List.mem_cons, List.not_mem_nil, or_false] at hev
      rcases hev with rfl | rfl <;> exact fun h => by cases h
  have h2 := (C117_values lib m P E htab file _ hp2 file'').1 rho e p'
  rw [hh] at h2
  rw [h2 hp', h1, hinv]

/-- A library whose tables hold the law of a polytropic gas. -/
def idealLibrary (gamma : ℝ) : Library where
  createOk _ := true
  optionOk _ := true
  loadOk _ := true
  value t x y := match t.2 with
    | .p_rho_e => (gamma - 1) * x * y
    | .e_rho_p => y / (x * (gamma - 1))
  inTable _ x y := 0 < x ∧ x < 10 ∧ 0 < y ∧ y < 10

/-- **C117** The conversions of units are coherent: tables with the law of a polytropic gas, which has the same form in both
systems of units, give exactly the built-in polytropic gas. -/
theorem C117_ideal_gas (g : PolytropicGas) (m : ℤ) :
    Tabulates (idealLibrary g.gamma) m g.pressure g.specificInternalEnergy := by
  refine ⟨fun rho e => ?_, fun rho p => ?_⟩
  · show 10 ^ 9 * ((g.gamma - 1) * rho * e) = (g.gamma - 1) * (10 ^ 3 * rho) * (10 ^ 6 * e)
    ring
  · show 10 ^ 6 * (p / (rho * (g.gamma - 1))) = 10 ^ 9 * p / (10 ^ 3 * rho * (g.gamma - 1))
    rw [show 10 ^ 9 * p / (10 ^ 3 * rho * (g.gamma - 1)) = (10 ^ 3 * (10 ^ 6 * p)) / (10 ^ 3 * (rho * (g.gamma - 1))) by
      ring_nf, mul_div_mul_left _ _ (by norm_num)]
    ring

theorem idealLibrary_loadable (gamma : ℝ) (m : ℤ) : Loadable (idealLibrary gamma) m := fun _ => ⟨rfl, rfl, rfl⟩

/-- The hypotheses are met: a first call that fails for want of the file, a second one that returns. -/
example : ∃ v, (pressure (idealLibrary (7 / 5)) true
      (history (idealLibrary (7 / 5)) false [.parse 5030, .pressure 1 1, .temperature 1 1]).1 2 100).2 = .ok v ∧
    v = (PolytropicGas.construct).pressure 2 100 := by
  have hp : NoParse [.pressure 1 1, .temperature 1 1] := by
    intro ev hev m
    simp only [List.mem_cons, List.not_mem_nil, or_false] at hev
    rcases hev with rfl | rfl <;> exact fun h => by cases h
  obtain ⟨v, hv⟩ := (C117_available (idealLibrary (7 / 5)) 5030 (idealLibrary_loadable _ _) false _ hp).1 2 100
  exact ⟨v, hv, (C117_values _ 5030 _ _ (C117_ideal_gas PolytropicGas.construct 5030) false _ hp true).1 2 100 v hv⟩

/-- The hypotheses of `C117_missing_throws` are met by a directory without the file, and by a library without the tables. -/
example : (∀ rho e v, (pressure (idealLibrary (7 / 5)) false
    (history (idealLibrary (7 / 5)) false [.parse 5030, .pressure 1 1]).1 rho e).2 ≠ .ok v) :=
  (C117_missing_throws (idealLibrary (7 / 5)) 5030 false [.pressure 1 1]
    (by intro ev hev m; simp only [List.mem_singleton] at hev; subst hev; exact fun h => by cases h)
    (Or.inr ⟨rfl, by intro ev hev b; simp only [List.mem_singleton] at hev; subst hev; exact fun h => by cases h⟩) false
    (fun h => by cases h)).1

/-! ### Deviations -/

/-- **C117, violation.** The variants for arrays leave the converted values in the arrays of the arguments: a second call with
the same arrays returns other pressures.  (The note in the interface says that the arguments may be overwritten.) -/
theorem C117_arguments_violation : ∃ (lib : Library) (s : Object) (rho e : List ℝ) (s' s'' : Object) (a a' : Arrays),
    pressureArray lib true s rho e = (s', .ok a) ∧ pressureArray lib true s' a.first a.second = (s'', .ok a') ∧
    a.result ≠ a'.result := by
  refine ⟨idealLibrary (7 / 5), construct, [1000], [1000000], ⟨5030, some [(5030, .p_rho_e), (5030, .e_rho_p)]⟩,
    ⟨5030, some [(5030, .p_rho_e), (5030, .e_rho_p)]⟩,
    ⟨[(7 / 5 - 1) * (1000 / 1000) * (1000000 / 1000000) * 1000000000], [1000 / 1000], [1000000 / 1000000]⟩,
    ⟨[(7 / 5 - 1) * (1000 / 1000 / 1000) * (1000000 / 1000000 / 1000000) * 1000000000], [1000 / 1000 / 1000],
      [1000000 / 1000000 / 1000000]⟩, rfl, rfl, ?_⟩
  simp only [ne_eq, List.cons.injEq, and_true]
  norm_num

/-- **C117, violation.** The error code of an interpolation is not looked at: for a state outside of the tables the call
returns the number the library has left in the result, and no error is raised. -/
theorem C117_outside_violation : ∃ (lib : Library) (s : Object) (rho e : ℝ),
    Loadable lib s.material ∧ lib.inTable (s.material, .p_rho_e) (rho / 10 ^ 3) (e / 10 ^ 6) = false ∧
    ∃ v, (pressure lib true s rho e).2 = .ok v := by
  refine ⟨idealLibrary (7 / 5), construct, 100000, 1, idealLibrary_loadable _ _, ?_, _, rfl⟩
  show decide (_ ∧ _) = false
  rw [decide_eq_false_iff_not]
  rintro ⟨-, h, -⟩
  norm_num at h

/-- **C117, violation.** Temperature and speed of sound of the interface of an equation of state are never returned. -/
theorem C117_not_implemented_violation (lib : Library) (file : Bool) (s : Object) :
    ∃ f, (notImplemented lib file s).2 = .error f := by
  unfold notImplemented
  split
  · exact ⟨_, rfl⟩
  · exact ⟨_, rfl⟩

/-- **C117, violation.** A material id that is parsed after the first call has no effect. -/
theorem C117_second_parse_violation (lib : Library) (m m' : ℤ) (hl : Loadable lib m) (rho e rho' e' : ℝ) :
    (pressure lib true (history lib true [.parse m, .pressure rho e, .parse m']).1 rho' e').2 =
      (pressure lib true (history lib true [.parse m, .pressure rho e]).1 rho' e').2 ∧
    (history lib true [.parse m, .pressure rho e, .parse m']).1.material = m' := by
  have h1 : ensure lib true ⟨m, none⟩ =
      .ok (⟨m, some [(m, .p_rho_e), (m, .e_rho_p)]⟩, [(m, .p_rho_e), (m, .e_rho_p)]) := by
    unfold ensure
    dsimp only
    rw [setUpDatabase_of_loadable hl]
    rfl
  obtain ⟨v, hv⟩ := (returns_of_ensure h1).1 rho e
  have h2 : (history lib true [.parse m, .pressure rho e]).1 = ⟨m, some [(m, .p_rho_e), (m, .e_rho_p)]⟩ := by
    show (pressure lib true ⟨m, none⟩ rho e).1 = _
    rw [hv]
  have h3 : (history lib true [.parse m, .pressure rho e, .parse m']).1 =
      ⟨m', some [(m, .p_rho_e), (m, .e_rho_p)]⟩ := by
    show parse (history lib true [.parse m, .pressure rho e]).1 m' = _
    rw [h2]
    rfl
  rw [h2, h3]
  exact ⟨rfl, rfl⟩

end

end Sesame
end Eos
end Ryujin
