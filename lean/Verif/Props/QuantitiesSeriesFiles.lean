import Verif.Props.QuantitiesFiles

/-!
# C113: the files of the time series
-/

namespace Ryujin
namespace Quantities
namespace Files

noncomputable section

variable {P W A V S' : Type}

/-! ### Specification -/

/-- All samples taken. -/
def allSamples (ops : List (FOp P W)) : List (ℝ × (ℕ → ℕ → W)) :=
  ops.filterMap fun o => match o with
    | .accumulate t u => some (t, u)
    | _ => none

/-- The samples taken since the last write-out. -/
def sinceWriteOut (ops : List (FOp P W)) : List (ℝ × (ℕ → ℕ → W)) :=
  ops.foldl (fun w o => match o with
    | .accumulate t u => w ++ [(t, u)]
    | _ => []) []

/-! ### Events of a write-out -/

/-- An event of the time series of manifold `k`. -/
def ofSeries (k : ℕ) : Event V A → Bool
  | .series k' _ _ _ => k' = k
  | _ => false

section core

variable [AddCommGroup V] [Module ℝ V]

theorem writeLoop_series (obs : ℕ → S' → V × A) (t : ℝ) (s : S') (cycle : ℕ) :
    ∀ (ms : List (Manifold V A)) (k₀ : ℕ) (c : Option ℕ) (ms' : List (Manifold V A)) (c' : Option ℕ)
      (ev : List (Event V A)), writeLoop obs t s cycle k₀ ms c = some (ms', c', ev) →
      (∀ (j : ℕ) m, ms[j]? = some m → ∃ b, (c ≠ none → b = true) ∧ ev.filter (ofSeries (k₀ + j)) =
        if m.options.space_averaged then [Event.series (k₀ + j) (c.getD cycle) b m.series] else []) ∧
      (∀ k, k < k₀ ∨ k₀ + ms.length ≤ k → ev.filter (ofSeries k) = []) ∧
      (c' = c ∨ c' = some (c.getD cycle)) ∧
      ((∃ (j : ℕ) (m : Manifold V A), ms[j]? = some m ∧ m.options.space_averaged = true) → c' = some (c.getD cycle)) := by
  intro ms
  induction ms with
  | nil =>
    intro k₀ c ms' c' ev h
    simp only [writeLoop, Option.some.injEq, Prod.mk.injEq] at h
    obtain ⟨rfl, rfl, rfl⟩ := h
    simp
  | cons m ms ih =>
    intro k₀ c ms' c' ev h
    simp only [writeLoop] at h
    rw [Option.bind_eq_some_iff] at h
    obtain ⟨⟨m₁, ev₁⟩, h1, h⟩ := h
    dsimp only at h
    rw [Option.map_eq_some_iff] at h
    obtain ⟨⟨ms₂, c₂, ev₂⟩, h2, h⟩ := h
    simp only [Prod.mk.injEq] at h
    obtain ⟨rfl, rfl, rfl⟩ := h
    obtain ⟨a1, a2, a3, a4, a5, a6, a7⟩ := writeFields_spec _ _ _ _ _ _ _ h1
    obtain ⟨b1, b2, b3, b4, b5⟩ := writeSeries_spec k₀ cycle m₁ c
    obtain ⟨i1, i2, i3, i4⟩ := ih _ _ _ _ _ h2
    rw [b4, a1] at i1 i3 i4
    have hget : (if m.options.space_averaged then some (c.getD cycle) else c).getD cycle = c.getD cycle := by
      split_ifs <;> rfl
    rw [hget] at i1 i3 i4
    have e1 : ∀ k, ev₁.filter (ofSeries k) = [] := by
      intro k
      refine List.filter_eq_nil_iff.2 fun e he => ?_
      cases e with
      | series k' c' a l => exact absurd he (a6 _ _ _ _)
      | _ => simp [ofSeries]
    refine ⟨?_, ?_, ?_, ?_⟩
    · intro j n hj
      cases j with
      | zero =>
        simp only [List.getElem?_cons_zero, Option.some.injEq] at hj
        subst hj
        refine ⟨c.isSome, fun hc => by cases c <;> simp at hc ⊢, ?_⟩
        rw [List.filter_append, List.filter_append, e1, b5, a1, a2, i2 _ (Or.inl (by omega))]
        split_ifs <;> simp [ofSeries]
      | succ j =>
        simp only [List.getElem?_cons_succ] at hj
        obtain ⟨b, hb, hf⟩ := i1 j n hj
        refine ⟨b, fun hc => hb ?_, ?_⟩
        · split_ifs
          · simp
          · exact hc
        · rw [List.filter_append, List.filter_append, e1, b5, show k₀ + (j + 1) = k₀ + 1 + j by omega, hf]
          have : k₀ ≠ k₀ + 1 + j := by omega
          split_ifs <;> simp [ofSeries, this]
    · intro k hk
      rw [List.filter_append, List.filter_append, e1, b5, i2 k (by
        rw [List.length_cons] at hk
        omega)]
      have : k₀ ≠ k := by
        rw [List.length_cons] at hk
        omega
      split_ifs <;> simp [ofSeries, this]
    · rcases i3 with h | h
      · rw [h]
        split_ifs
        · exact Or.inr rfl
        · exact Or.inl rfl
      · exact Or.inr h
    · rintro ⟨j, n, hj, hn⟩
      cases j with
      | zero =>
        simp only [List.getElem?_cons_zero, Option.some.injEq] at hj
        subst hj
        rcases i3 with h | h
        · rw [h, if_pos hn]
        · exact h
      | succ j =>
        simp only [List.getElem?_cons_succ] at hj
        exact i4 ⟨j, n, hj, hn⟩

end core

/-! ### Effect on the disk -/

/-- Only events of the time series of the manifold change its file. -/
theorem fold_series (S : Setup) (hn : (S.manifolds.map Prod.fst).Nodup) (mesh : Mesh P) {k : ℕ} {name : String} {o : Options}
    (hk : S.manifolds[k]? = some (name, o)) (c : ℕ) (es : List (Event (ℕ → ℕ → W) A)) :
    ∀ d d' : Disk P W A, (∀ k', S.manifolds.length ≤ k' → es.filter (ofSeries k') = []) →
      d (fileName S.base name c .series) = d' (fileName S.base name c .series) →
      es.foldl (apply S mesh) d (fileName S.base name c .series) =
        (es.filter (ofSeries k)).foldl (apply S mesh) d' (fileName S.base name c .series) := by
  induction es with
  | nil => intro d d' _ h; exact h
  | cons e es ih =>
    intro d d' hr h
    have hr' : ∀ k', S.manifolds.length ≤ k' → es.filter (ofSeries k') = [] := by
      intro k' hk'
      have := hr k' hk'
      rw [List.filter_cons] at this
      split_ifs at this
      exact this
    rw [List.foldl_cons]
    have other : ∀ {path : String} (l : List (Line P W A)), fileName S.base name c .series ≠ path →
        d.put path l (fileName S.base name c .series) = d' (fileName S.base name c .series) := by
      intro path l hne
      rw [put_of_ne d hne, h]
    cases e with
    | instantaneous k' cy t x =>
      rw [List.filter_cons_of_neg (by simp [ofSeries])]
      refine ih _ _ hr' (other _ fun e => ?_)
      simpa using ((C113_file_names _ _ _ _ _ _ _).1 e).2.2
    | timeAveraged k' cy t₀ t₁ x =>
      rw [List.filter_cons_of_neg (by simp [ofSeries])]
      refine ih _ _ hr' (other _ fun e => ?_)
      simpa using ((C113_file_names _ _ _ _ _ _ _).1 e).2.2
    | series k' cy b l =>
      by_cases hkk : k' = k
      · subst hkk
        rw [List.filter_cons_of_pos (by simp [ofSeries]), List.foldl_cons]
        refine ih _ _ hr' ?_
        unfold apply
        dsimp only
        rw [name_eq hk]
        by_cases hc : c = cy
        · subst hc
          split_ifs
          · rw [put_self, put_self, h]
          · rw [put_self, put_self]
        · have hne : fileName S.base name c .series ≠ fileName S.base name cy .series := fun e =>
            hc ((C113_file_names _ _ _ _ _ _ _).1 e).2.1
          split_ifs
          · rw [put_of_ne d hne, put_of_ne d' hne, h]
          · rw [put_of_ne d hne, put_of_ne d' hne, h]
      · rw [List.filter_cons_of_neg (by simpa [ofSeries] using hkk)]
        refine ih _ _ hr' ?_
        have hlt : k' < S.manifolds.length := by
          by_contra hge
          have := hr k' (not_lt.1 hge)
          rw [List.filter_cons_of_pos (by simp [ofSeries])] at this
          cases this
        have hne : fileName S.base name c .series ≠ fileName S.base (S.name k') cy .series := by
          intro e
          have e' := ((C113_file_names _ _ _ _ _ _ _).1 e).1
          obtain ⟨⟨name', o'⟩, hk'⟩ : ∃ x, S.manifolds[k']? = some x := ⟨_, List.getElem?_eq_getElem hlt⟩
          rw [name_eq hk'] at e'
          subst e'
          exact hkk (index_eq hn hk' hk)
        unfold apply
        dsimp only
        split_ifs
        · exact other _ hne
        · exact other _ hne

theorem data_append (a b : List (Line P W A)) : data (a ++ b) = data a ++ data b := List.filter_append ..

theorem data_samples (l : List (ℝ × A)) : data (l.map fun e => (Line.sample e.1 e.2 : Line P W A)) = l.map fun e => Line.sample e.1 e.2 := by
  unfold data
  rw [List.filter_eq_self]
  intro x hx
  obtain ⟨e, -, rfl⟩ := List.mem_map.1 hx
  rfl

/-! ### Histories -/

variable [AddCommGroup W] [Module ℝ W]

/-- What is known between two meshes. -/
structure SeriesInv (S : Setup) (k : ℕ) (name : String) (o : Options) (mesh : Mesh P) (average : ℕ → Mesh P → (ℕ → ℕ → W) → A)
    (disk₀ : Disk P W A) (ops : List (FOp P W)) (σ : FState P W A) : Prop where
  mesh_eq : σ.mesh = mesh
  length : σ.core.manifolds.length = S.manifolds.length
  series : ∃ m, σ.core.manifolds[k]? = some m ∧ m.options = o ∧
    m.series = (sinceWriteOut ops).map fun s => (s.1, average k mesh s.2)
  cycle : σ.core.series_cycle = meshCycle ops
  before : meshCycle ops = none → sinceWriteOut ops = allSamples ops ∧
    ∀ c, σ.disk (fileName S.base name c .series) = disk₀ (fileName S.base name c .series)
  after : ∀ c, meshCycle ops = some c → disk₀ (fileName S.base name c .series) = none →
    ∃ lines, σ.disk (fileName S.base name c .series) = some lines ∧
      data lines ++ (sinceWriteOut ops).map (fun s => Line.sample s.1 (average k mesh s.2)) =
        (allSamples ops).map fun s => Line.sample s.1 (average k mesh s.2)

theorem series_calls (S : Setup) (clearing : Bool) (index : P → ℕ) (average : ℕ → Mesh P → (ℕ → ℕ → W) → A)
    (hn : (S.manifolds.map Prod.fst).Nodup) {k : ℕ} {name : String} {o : Options} (hk : S.manifolds[k]? = some (name, o))
    (ho : o.space_averaged = true) (σ₀ : FState P W A) (h0 : SeriesInv S k name o σ₀.mesh average σ₀.disk [] σ₀)
    (ops : List (FOp P W)) : (∀ m, FOp.prepare m ∉ ops) →
      ∀ σ, σ₀.calls S clearing index average ops = some σ → SeriesInv S k name o σ₀.mesh average σ₀.disk ops σ := by
  induction ops using List.reverseRecOn with
  | nil =>
    intro _ σ h
    simp only [FState.calls, Option.some.injEq] at h
    rw [← h]
    exact h0
  | append_singleton ops op ih =>
    intro hp σ h
    rw [fcalls_append, Option.bind_eq_some_iff] at h
    obtain ⟨σ₁, h1, h⟩ := h
    have I := ih (fun m hm => hp m (by simp [hm])) σ₁ h1
    simp only [FState.calls] at h
    rw [Option.bind_eq_some_iff] at h
    obtain ⟨σ₂, h2, h⟩ := h
    obtain rfl := Option.some.inj h
    obtain ⟨m, hm, hmo, hms⟩ := I.series
    cases op with
    | prepare m => exact absurd (by simp) (hp m)
    | accumulate t u =>
      simp only [FState.call, Option.some.injEq] at h2
      have es : sinceWriteOut (ops ++ [.accumulate t u]) = sinceWriteOut ops ++ [(t, u)] := by
        unfold sinceWriteOut
        rw [List.foldl_append]
        rfl
      have ea : allSamples (ops ++ [.accumulate t u]) = allSamples ops ++ [(t, u)] := by
        unfold allSamples
        rw [List.filterMap_append]
        rfl
      have ec : meshCycle (ops ++ [.accumulate t u]) = meshCycle ops := meshCycle_append ops _
      rw [← h2]
      refine ⟨I.mesh_eq, ?_, ?_, ?_, ?_, ?_⟩
      · show (σ₁.core.accumulate _ t (σ₁.mesh, u)).manifolds.length = _
        rw [State.accumulate, List.length_mapIdx]
        exact I.length
      · refine ⟨m.accumulate t (observe index average k (σ₁.mesh, u)).1 (observe index average k (σ₁.mesh, u)).2, ?_, ?_, ?_⟩
        · show (State.accumulate _ _ _ _).manifolds[k]? = _
          rw [State.accumulate, List.getElem?_mapIdx, hm]
          rfl
        · unfold Manifold.accumulate
          rw [if_neg (by rw [hmo, ho]; simp)]
          exact hmo
        · unfold Manifold.accumulate
          rw [if_neg (by rw [hmo, ho]; simp)]
          dsimp only
          rw [es, hms, List.map_append, I.mesh_eq]
          rfl
      · rw [ec]
        exact I.cycle
      · rw [ec]
        intro hc
        obtain ⟨b1, b2⟩ := I.before hc
        exact ⟨by rw [es, ea, b1], b2⟩
      · rw [ec]
        intro c hc hd
        obtain ⟨lines, l1, l2⟩ := I.after c hc hd
        refine ⟨lines, l1, ?_⟩
        rw [es, ea, List.map_append, List.map_append, ← List.append_assoc, l2]
    | writeOut t u cycle =>
      simp only [FState.call] at h2
      rw [Option.map_eq_some_iff] at h2
      obtain ⟨⟨core', ev⟩, hw, h2⟩ := h2
      dsimp only at h2
      have es : sinceWriteOut (ops ++ [.writeOut t u cycle]) = [] := by
        unfold sinceWriteOut
        rw [List.foldl_append]
        rfl
      have ea : allSamples (ops ++ [.writeOut t u cycle]) = allSamples ops := by
        unfold allSamples
        rw [List.filterMap_append]
        simp
      have ec : meshCycle (ops ++ [.writeOut t u cycle]) = (meshCycle ops).or (some cycle) := meshCycle_append ops _
      unfold State.writeOut at hw
      rw [Option.map_eq_some_iff] at hw
      obtain ⟨⟨ms', c', ev'⟩, hl, hw⟩ := hw
      simp only [Prod.mk.injEq] at hw
      obtain ⟨hcore, rfl⟩ := hw
      obtain ⟨l1, l2, -, -, -⟩ := writeLoop_spec _ _ _ _ _ _ _ _ _ _ hl
      obtain ⟨s1, s2, -, s4⟩ := writeLoop_series _ _ _ _ _ _ _ _ _ _ hl
      have hc' : c' = (meshCycle ops).or (some cycle) := by
        rw [s4 ⟨k, m, hm, by rw [hmo, ho]⟩, I.cycle]
        cases meshCycle ops <;> rfl
      obtain ⟨m', hm'⟩ : ∃ m', ms'[k]? = some m' := by
        refine ⟨_, List.getElem?_eq_getElem ?_⟩
        rw [l1]
        exact (List.getElem?_eq_some_iff.1 hm).1
      obtain ⟨o1, -, o3⟩ := l2 k m m' hm hm'
      rw [if_pos (by rw [hmo, ho])] at o3
      have hcore1 : core'.series_cycle = c' ∧ core'.manifolds.length = ms'.length ∧
          ∃ n, core'.manifolds[k]? = some n ∧ n.options = o ∧ n.series = [] := by
        rw [← hcore]
        cases clearing
        · exact ⟨rfl, rfl, m', hm', o1.trans hmo, o3⟩
        · refine ⟨rfl, by simp [State.clear], m'.clear, ?_, o1.trans hmo, rfl⟩
          simp [State.clear, hm']
      obtain ⟨q1, q2, n, q3, q4, q5⟩ := hcore1
      rw [← h2]
      -- the events of the time series
      obtain ⟨b, hb, hf⟩ := s1 k m hm
      rw [Nat.zero_add, hmo, if_pos ho, I.cycle] at hf
      rw [I.cycle] at hb
      have hd : ∀ c, (if σ₁.mesh_files_have_been_written then σ₁.disk else writeMeshFiles S σ₁.mesh cycle σ₁.disk)
          (fileName S.base name c .series) = σ₁.disk (fileName S.base name c .series) := by
        intro c
        split_ifs
        · rfl
        · exact writeMeshFiles_keep S _ _ _ _ _ _ (Or.inr (by simp))
      have hfold := fun c => fold_series S hn σ₁.mesh hk c ev' _ σ₁.disk
        (fun k' hk' => s2 k' (Or.inr (by rw [Nat.zero_add, I.length]; exact hk'))) (hd c)
      rw [hf] at hfold
      refine ⟨I.mesh_eq, by rw [q2, l1, I.length], ⟨n, q3, q4, by rw [q5, es]; rfl⟩, by rw [q1, hc', ec], ?_, ?_⟩
      · rw [ec]
        intro hc
        cases hmc : meshCycle ops <;> rw [hmc] at hc <;> cases hc
      · rw [ec, es, ea]
        intro c hc hdisk
        dsimp only
        rw [hfold c]
        cases hmc : meshCycle ops with
        | none =>
          rw [hmc] at hc
          simp only [Option.none_or, Option.some.injEq] at hc
          subst hc
          obtain ⟨b1, b2⟩ := I.before hmc
          simp only [List.foldl_cons, List.foldl_nil, apply, Option.getD_none, name_eq hk]
          have hempty : σ₁.disk (fileName S.base name cycle .series) = none := (b2 _).trans hdisk
          rw [hempty]
          cases b
          · refine ⟨_, put_self _ _ _, ?_⟩
            rw [show data (Line.header :: m.series.map fun e => Line.sample e.1 e.2) =
              data (m.series.map fun e => (Line.sample e.1 e.2 : Line P W A)) from rfl, data_samples, hms, List.map_map,
              List.map_nil, List.append_nil, b1]
            rfl
          · refine ⟨_, put_self _ _ _, ?_⟩
            rw [Option.getD_none, List.nil_append, data_samples, hms, List.map_map, List.map_nil, List.append_nil, b1]
            rfl
        | some c₀ =>
          rw [hmc] at hc
          simp only [Option.some_or, Option.some.injEq] at hc
          subst hc
          obtain ⟨lines, l1, l2⟩ := I.after c₀ hmc hdisk
          rw [hb (by rw [hmc]; simp)]
          simp only [List.foldl_cons, List.foldl_nil, apply, Option.getD_some, name_eq hk, if_true]
          refine ⟨_, put_self _ _ _, ?_⟩
          rw [l1, Option.getD_some, data_append, data_samples, hms, List.map_map, List.map_nil, List.append_nil, ← l2]
          rfl

/-- **C113 (time series).**  As long as the mesh does not change, at any time the file of the time series of a manifold, whose name
contains the cycle of the first write-out, has exactly the samples taken before the last write-out, each of them once and in the order in
which they were taken, if there was no such file before the run.  (If there was one, all manifolds except for the first one append to it,
see C61.) -/
theorem C113_time_series (S : Setup) (clearing : Bool) (index : P → ℕ) (average : ℕ → Mesh P → (ℕ → ℕ → W) → A)
    (hn : (S.manifolds.map Prod.fst).Nodup) (mesh : Mesh P) (disk : Disk P W A) (ops : List (FOp P W)) (σ : FState P W A)
    (hrun : (begin S mesh disk).calls S clearing index average ops = some σ) (hp : ∀ m, FOp.prepare m ∉ ops)
    (k : ℕ) (name : String) (o : Options) (hk : S.manifolds[k]? = some (name, o)) (ho : o.space_averaged = true)
    (c : ℕ) (hc : meshCycle ops = some c) (hd : disk (fileName S.base name c .series) = none) :
    ∃ lines, σ.disk (fileName S.base name c .series) = some lines ∧
      data lines ++ (sinceWriteOut ops).map (fun s => Line.sample s.1 (average k mesh s.2)) =
        (allSamples ops).map fun s => Line.sample s.1 (average k mesh s.2) := by
  refine (series_calls S clearing index average hn hk ho (begin S mesh disk) ?_ ops hp σ hrun).after c hc hd
  refine ⟨rfl, by simp [begin, start], ⟨⟨o, Stat.cleared, []⟩, ?_, rfl, rfl⟩, rfl, fun _ => ⟨rfl, fun _ => rfl⟩, fun c h => by cases h⟩
  simp [begin, start, hk]

/-- **C113 (time series after a change of the mesh).**  After every call of `prepare` a new file is started, with the same properties. -/
theorem C113_time_series_adapted (S : Setup) (clearing : Bool) (index : P → ℕ) (average : ℕ → Mesh P → (ℕ → ℕ → W) → A)
    (hn : (S.manifolds.map Prod.fst).Nodup) (σ₀ : FState P W A) (hl : σ₀.core.manifolds.map Manifold.options = S.manifolds.map Prod.snd)
    (mesh : Mesh P) (ops : List (FOp P W)) (σ : FState P W A)
    (hrun : σ₀.calls S clearing index average (.prepare mesh :: ops) = some σ) (hp : ∀ m, FOp.prepare m ∉ ops)
    (k : ℕ) (name : String) (o : Options) (hk : S.manifolds[k]? = some (name, o)) (ho : o.space_averaged = true)
    (c : ℕ) (hc : meshCycle ops = some c) (hd : σ₀.disk (fileName S.base name c .series) = none) :
    ∃ lines, σ.disk (fileName S.base name c .series) = some lines ∧
      data lines ++ (sinceWriteOut ops).map (fun s => Line.sample s.1 (average k mesh s.2)) =
        (allSamples ops).map fun s => Line.sample s.1 (average k mesh s.2) := by
  have hrun' : (⟨σ₀.core.prepare, mesh, false, σ₀.disk⟩ : FState P W A).calls S clearing index average ops = some σ := hrun
  refine (series_calls S clearing index average hn hk ho ⟨σ₀.core.prepare, mesh, false, σ₀.disk⟩ ?_ ops hp σ hrun').after c hc hd
  have hm : ∃ m, σ₀.core.manifolds[k]? = some m ∧ m.options = o := by
    have := congrArg (fun l => l[k]?) hl
    simp only [List.getElem?_map, hk, Option.map_some] at this
    exact Option.map_eq_some_iff.1 this
  obtain ⟨m, hm, hmo⟩ := hm
  refine ⟨rfl, ?_, ⟨m.clear, ?_, hmo, rfl⟩, rfl, fun _ => ⟨rfl, fun _ => rfl⟩, fun c h => by cases h⟩
  · have := congrArg List.length hl
    simpa [State.prepare, State.clear] using this
  · simp [State.prepare, State.clear, hm]

/-- Two manifolds, three samples, two write-outs: the file of the second manifold. -/
example (u₀ u₁ u₂ : ℕ → ℕ → ℝ) : ∃ (σ : FState ℕ ℝ ℝ) (lines : List (Line ℕ ℝ ℝ)),
    (begin ⟨"run", [("a", ⟨false, true, false⟩), ("b", ⟨false, true, false⟩)]⟩ (fun _ => [[0, 1]]) fun _ => none).calls
      ⟨"run", [("a", ⟨false, true, false⟩), ("b", ⟨false, true, false⟩)]⟩ true id (fun k _ u => u 0 k)
      [.accumulate 0 u₀, .writeOut 0 u₀ 3, .accumulate 1 u₁, .accumulate 2 u₂, .writeOut 2 u₂ 4] = some σ ∧
    σ.disk (fileName "run" "b" 3 .series) = some lines ∧
    data lines = [Line.sample 0 (u₀ 0 1), Line.sample 1 (u₁ 0 1), Line.sample 2 (u₂ 0 1)] := by
  obtain ⟨σ, hσ⟩ : ∃ σ, (begin ⟨"run", [("a", ⟨false, true, false⟩), ("b", ⟨false, true, false⟩)]⟩ (fun _ => [[0, 1]]) fun _ => none).calls
      ⟨"run", [("a", ⟨false, true, false⟩), ("b", ⟨false, true, false⟩)]⟩ true id (fun k (_ : Mesh ℕ) (u : ℕ → ℕ → ℝ) => u 0 k)
      [.accumulate 0 u₀, .writeOut 0 u₀ 3, .accumulate 1 u₁, .accumulate 2 u₂, .writeOut 2 u₂ 4] = some σ := ⟨_, rfl⟩
  obtain ⟨lines, l1, l2⟩ := C113_time_series _ true id _ (by decide) _ _ _ σ hσ (by simp) 1 "b" ⟨false, true, false⟩ rfl rfl 3 rfl rfl
  exact ⟨σ, lines, hσ, l1, by simpa [sinceWriteOut, allSamples] using l2⟩

end

end Files
end Quantities
end Ryujin
