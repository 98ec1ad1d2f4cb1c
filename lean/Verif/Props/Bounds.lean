import Verif.Proofs.EulerLimiter
import Verif.Proofs.AeosLimiter
import Mathlib.Data.List.Perm.Basic

/-!
# C06, C07, C54 – accumulating, relaxing and combining bounds (Euler, Euler with arbitrary EOS)
-/

namespace Ryujin

/-- Common part of the relaxation of a lower bound. -/
theorem lower_relax {r d x : ℝ} (hr : 0 ≤ r) (hd : 0 ≤ d) (hx : 0 ≤ x) :
    max ((1 - r) * x) (x - d) ≤ x := max_le (by nlinarith) (by linarith)

/-- Common part of the relaxation of an upper bound. -/
theorem upper_relax {r d x : ℝ} (hr : 0 ≤ r) (hd : 0 ≤ d) (hx : 0 ≤ x) :
    x ≤ min ((1 + r) * x) (x + d) := le_min (by nlinarith) (by linarith)

namespace Euler

variable {dim : ℕ}

/-- One column of a stencil as seen by `Limiter::accumulate`. -/
structure Column (dim : ℕ) where
  U_j : State dim
  s_j : ℝ
  scaled_c : Vec dim
  shift : State dim

/-- `reset` followed by `accumulate` over all columns (as in hyperbolic_module.template.h step 4). -/
noncomputable def accumulateRow (p : Params) (big : ℝ) (U_i : State dim) (row : List (Column dim)) :
    LimiterState :=
  row.foldl (fun st e => st.accumulate p U_i e.U_j e.s_j e.scaled_c e.shift) (LimiterState.reset big)

/-- The density of the bar state of a column. -/
noncomputable def barDensity (U_i : State dim) (e : Column dim) : ℝ :=
  (density U_i + density e.U_j + ∑ d, (momentum U_i d - momentum e.U_j d) * e.scaled_c d) / 2
    + density e.shift

theorem accumulate_bar (p : Params) (U_i : State dim) (st : LimiterState) (e : Column dim) :
    (st.accumulate p U_i e.U_j e.s_j e.scaled_c e.shift).bounds =
      ⟨min st.bounds.rho_min (barDensity U_i e), max st.bounds.rho_max (barDensity U_i e),
        min st.bounds.s_min e.s_j⟩ := by
  have : (1 / 2) * (density U_i + density e.U_j + dot (momentum U_i - momentum e.U_j) e.scaled_c)
      + density e.shift = barDensity U_i e := by
    simp only [barDensity, dot, Pi.sub_apply]; ring
  simp only [LimiterState.accumulate, this]

/-- **C06/C07 (Euler): what `accumulate` computes.** The strict bounds of a row are the minimum and
maximum of the bar densities and the minimum of the neighbours' entropies: they bound every column, and
each is attained by a column (or is the initial value of `reset`). -/
theorem C07_euler_accumulate_exact (p : Params) (big : ℝ) (U_i : State dim) (row : List (Column dim)) :
    let b := (accumulateRow p big U_i row).bounds
    (∀ e ∈ row, b.rho_min ≤ barDensity U_i e ∧ barDensity U_i e ≤ b.rho_max ∧ b.s_min ≤ e.s_j) ∧
    (b.rho_min = big ∨ ∃ e ∈ row, b.rho_min = barDensity U_i e) ∧
    (b.rho_max = 0 ∨ ∃ e ∈ row, b.rho_max = barDensity U_i e) ∧
    (b.s_min = big ∨ ∃ e ∈ row, b.s_min = e.s_j) := by
  have key : ∀ (row : List (Column dim)) (st : LimiterState),
      let b := (row.foldl (fun st e => st.accumulate p U_i e.U_j e.s_j e.scaled_c e.shift) st).bounds
      (b.rho_min ≤ st.bounds.rho_min ∧ st.bounds.rho_max ≤ b.rho_max ∧ b.s_min ≤ st.bounds.s_min) ∧
      (∀ e ∈ row, b.rho_min ≤ barDensity U_i e ∧ barDensity U_i e ≤ b.rho_max ∧ b.s_min ≤ e.s_j) ∧
      (b.rho_min = st.bounds.rho_min ∨ ∃ e ∈ row, b.rho_min = barDensity U_i e) ∧
      (b.rho_max = st.bounds.rho_max ∨ ∃ e ∈ row, b.rho_max = barDensity U_i e) ∧
      (b.s_min = st.bounds.s_min ∨ ∃ e ∈ row, b.s_min = e.s_j) := by
    intro row
    induction row with
    | nil => intro st; simp
    | cons a l ih =>
      intro st
      simp only [List.foldl_cons]
      obtain ⟨⟨h1, h2, h3⟩, h4, h5, h6, h7⟩ := ih (st.accumulate p U_i a.U_j a.s_j a.scaled_c a.shift)
      rw [accumulate_bar] at h1 h2 h3 h5 h6 h7
      refine ⟨⟨h1.trans (min_le_left _ _), (le_max_left _ _).trans h2, h3.trans (min_le_left _ _)⟩,
        ?_, ?_, ?_, ?_⟩
      · intro e he
        rcases List.mem_cons.1 he with rfl | he
        · exact ⟨h1.trans (min_le_right _ _), (le_max_right _ _).trans h2, h3.trans (min_le_right _ _)⟩
        · exact h4 e he
      · rcases h5 with h5 | ⟨e, he, h5⟩
        · rcases min_choice st.bounds.rho_min (barDensity U_i a) with h | h
          · left; rw [h5]; exact h
          · right; exact ⟨a, List.mem_cons_self, by rw [h5]; exact h⟩
        · right; exact ⟨e, List.mem_cons_of_mem _ he, h5⟩
      · rcases h6 with h6 | ⟨e, he, h6⟩
        · rcases max_choice st.bounds.rho_max (barDensity U_i a) with h | h
          · left; rw [h6]; exact h
          · right; exact ⟨a, List.mem_cons_self, by rw [h6]; exact h⟩
        · right; exact ⟨e, List.mem_cons_of_mem _ he, h6⟩
      · rcases h7 with h7 | ⟨e, he, h7⟩
        · rcases min_choice st.bounds.s_min a.s_j with h | h
          · left; rw [h7]; exact h
          · right; exact ⟨a, List.mem_cons_self, by rw [h7]; exact h⟩
        · right; exact ⟨e, List.mem_cons_of_mem _ he, h7⟩
  have := key row (LimiterState.reset big)
  exact ⟨this.2.1, this.2.2.1, this.2.2.2.1, this.2.2.2.2⟩

/-- **C07 (Euler, order independence).** The accumulated limiter data – bounds and relaxation data – do
not depend on the order in which the neighbours are visited. -/
theorem C07_euler_accumulate_perm (p : Params) (big : ℝ) (U_i : State dim)
    {row row' : List (Column dim)} (h : row.Perm row') :
    accumulateRow p big U_i row = accumulateRow p big U_i row' := by
  have : RightCommutative (fun (st : LimiterState) (e : Column dim) =>
      st.accumulate p U_i e.U_j e.s_j e.scaled_c e.shift) := ⟨fun st a b => by
    simp only [LimiterState.accumulate, LimiterState.mk.injEq, Bounds.mk.injEq]
    exact ⟨⟨min_right_comm _ _ _, max_right_comm _ _ _, min_right_comm _ _ _⟩, add_right_comm _ _ _,
      trivial, max_right_comm _ _ _⟩⟩
  exact h.foldl_eq _

/-- **C06 (Euler).** For every row that contains its own diagonal entry, with nonnegative bar densities
and entropies, relaxation widens the strict bounds, for every mesh size and relaxation factor; and
factor zero returns the strict bounds. -/
theorem C06_euler_bounds (p : Params) (lp : LimiterParams) (big hd_i : ℝ) (U_i : State dim)
    (row : List (Column dim)) (heps : 0 ≤ p.eps) (hf : 0 ≤ lp.relaxation_factor) (hbig : 0 ≤ big)
    (hdiag : ∃ e ∈ row, e.U_j = U_i ∧ e.s_j = specificEntropy p U_i)
    (hbar : ∀ e ∈ row, 0 ≤ barDensity U_i e) (hs : ∀ e ∈ row, 0 ≤ e.s_j) :
    let st := accumulateRow p big U_i row
    let b := st.relaxedBounds dim p lp hd_i
    b.rho_min ≤ st.bounds.rho_min ∧ st.bounds.rho_max ≤ b.rho_max ∧ b.s_min ≤ st.bounds.s_min ∧
      (lp.relaxation_factor = 0 → b = st.bounds) := by
  intro st b
  obtain ⟨h1, h2, h3, h4⟩ := C07_euler_accumulate_exact p big U_i row
  have hr := relaxationRadius_nonneg dim (hd := hd_i) hf
  have hq : 0 ≤ |st.rho_relaxation_numerator| / (|st.rho_relaxation_denominator| + p.eps) := by
    positivity
  have hq2 : 0 ≤ 2 * lp.relaxation_factor *
      (|st.rho_relaxation_numerator| / (|st.rho_relaxation_denominator| + p.eps)) := by positivity
  have hm : 0 ≤ st.bounds.rho_min := by
    rcases h2 with h | ⟨e, he, h⟩
    · exact h ▸ hbig
    · exact h ▸ hbar e he
  have hM : 0 ≤ st.bounds.rho_max := by
    rcases h3 with h | ⟨e, he, h⟩
    · exact h.ge
    · exact h ▸ hbar e he
  have hS : 0 ≤ st.bounds.s_min := by
    rcases h4 with h | ⟨e, he, h⟩
    · exact h ▸ hbig
    · exact h ▸ hs e he
  have hint : ∀ (row : List (Column dim)) (st : LimiterState),
      st.s_interp_max ≤ (row.foldl (fun st e => st.accumulate p U_i e.U_j e.s_j e.scaled_c e.shift)
        st).s_interp_max ∧
      ∀ e ∈ row, specificEntropy p (fun k => (U_i k + e.U_j k) * (1 / 2)) ≤
        (row.foldl (fun st e => st.accumulate p U_i e.U_j e.s_j e.scaled_c e.shift) st).s_interp_max := by
    intro row
    induction row with
    | nil => intro st; simp
    | cons a l ih =>
      intro st
      simp only [List.foldl_cons]
      obtain ⟨i1, i2⟩ := ih (st.accumulate p U_i a.U_j a.s_j a.scaled_c a.shift)
      refine ⟨(le_max_left _ _).trans i1, fun e he => ?_⟩
      rcases List.mem_cons.1 he with rfl | he
      · exact (le_max_right _ _).trans i1
      · exact i2 e he
  have hSI : st.bounds.s_min ≤ st.s_interp_max := by
    obtain ⟨e, he, hU, hse⟩ := hdiag
    have i1 := (hint row (LimiterState.reset big)).2 e he
    have : (fun k => (U_i k + e.U_j k) * (1 / 2)) = U_i := by
      funext k; rw [hU]; ring
    rw [this, ← hse] at i1
    exact (h1 e he).2.2.trans i1
  refine ⟨lower_relax hr hq2 hm, upper_relax hr hq2 hM,
    lower_relax hr (mul_nonneg hf (by linarith)) hS, fun h0 => ?_⟩
  simp only [b, LimiterState.relaxedBounds, h0, relaxationRadius_zero]
  simp

/-- Non-vacuity: a two-column stencil (the row itself and one neighbour). -/
example : let p : Params := ⟨7 / 5, 1, 100, 10000, 0⟩
    let U_i : State 1 := mkState 1 (fun _ => 0) 2
    let row : List (Column 1) :=
      [⟨U_i, specificEntropy p U_i, 0, 0⟩, ⟨mkState 2 (fun _ => 0) 2, 1, fun _ => 1, 0⟩]
    (∃ e ∈ row, e.U_j = U_i ∧ e.s_j = specificEntropy p U_i) ∧
    (∀ e ∈ row, 0 ≤ barDensity U_i e) ∧ (∀ e ∈ row, 0 ≤ e.s_j) := by
  refine ⟨⟨_, List.mem_cons_self, rfl, rfl⟩, ?_, ?_⟩
  · intro e he
    simp only [List.mem_cons, List.not_mem_nil, or_false] at he
    rcases he with rfl | rfl <;> norm_num [barDensity, density, momentum, mkState]
  · intro e he
    simp only [List.mem_cons, List.not_mem_nil, or_false] at he
    rcases he with rfl | rfl <;> norm_num [specificEntropy, internalEnergy, normSq]

/-- A state is admitted by bounds: density and specific entropy. -/
def Admits (p : Params) (b : Bounds) (U : State dim) : Prop :=
  b.rho_min ≤ density U ∧ density U ≤ b.rho_max ∧ b.s_min ≤ specificEntropy p U

/-- **C07 (Euler).** `combine_bounds` is the least bounds admitting what either side admits;
commutative, associative, idempotent. -/
theorem C07_euler_combine (p : Params) (a b c : Bounds) :
    (∀ U : State dim, Admits p a U → Admits p (combineBounds a b) U) ∧
    (∀ U : State dim, Admits p b U → Admits p (combineBounds a b) U) ∧
    combineBounds a b = combineBounds b a ∧
    combineBounds (combineBounds a b) c = combineBounds a (combineBounds b c) ∧
    combineBounds a a = a ∧
    ((c.rho_min ≤ a.rho_min ∧ a.rho_max ≤ c.rho_max ∧ c.s_min ≤ a.s_min) →
      (c.rho_min ≤ b.rho_min ∧ b.rho_max ≤ c.rho_max ∧ c.s_min ≤ b.s_min) →
      c.rho_min ≤ (combineBounds a b).rho_min ∧ (combineBounds a b).rho_max ≤ c.rho_max ∧
        c.s_min ≤ (combineBounds a b).s_min) := by
  refine ⟨fun u hu => ⟨(min_le_left _ _).trans hu.1, hu.2.1.trans (le_max_left _ _),
      (min_le_left _ _).trans hu.2.2⟩,
    fun u hu => ⟨(min_le_right _ _).trans hu.1, hu.2.1.trans (le_max_right _ _),
      (min_le_right _ _).trans hu.2.2⟩, ?_, ?_, ?_, ?_⟩
  · simp [combineBounds, min_comm, max_comm]
  · simp [combineBounds, min_assoc, max_assoc]
  · simp [combineBounds]
  · intro h1 h2
    exact ⟨le_min h1.1 h2.1, max_le h1.2.1 h2.2.1, le_min h1.2.2 h2.2.2⟩

example : Admits (dim := 1) ⟨7 / 5, 1, 100, 10000, 0⟩ (combineBounds ⟨1, 2, 1⟩ ⟨3, 4, 2⟩)
    (mkState 1 (fun _ => 0) 2) := by
  norm_num [Admits, combineBounds, specificEntropy, internalEnergy, normSq]

end Euler

namespace Aeos

variable {dim : ℕ}

/-- **C06 (AEOS).** Provided the strict bounds are physical (`0 ≤ rho_min`, `0 < rho_max`,
`b * rho_max ≤ 1`, `gamma_min > 1`, `0 ≤ s_min ≤ s_interp_max`), relaxation widens them, and factor zero
returns them unchanged. -/
theorem C06_aeos_bounds (p : Params) (lp : LimiterParams) (hd_i : ℝ) (st : LimiterState)
    (heps : 0 ≤ p.eps) (hf : 0 ≤ lp.relaxation_factor) (hb : 0 ≤ p.b)
    (hm : 0 ≤ st.bounds.rho_min) (hM : 0 < st.bounds.rho_max) (hbM : p.b * st.bounds.rho_max ≤ 1)
    (hg : 1 < st.bounds.gamma_min) (hS : 0 ≤ st.bounds.s_min)
    (hSI : st.bounds.s_min ≤ st.s_interp_max) :
    let b := st.relaxedBounds dim p lp hd_i
    b.rho_min ≤ st.bounds.rho_min ∧ st.bounds.rho_max ≤ b.rho_max ∧ b.s_min ≤ st.bounds.s_min ∧
      b.gamma_min = st.bounds.gamma_min ∧ (lp.relaxation_factor = 0 → b = st.bounds) := by
  intro b
  have hr := Euler.relaxationRadius_nonneg dim (hd := hd_i) hf
  have hq2 : 0 ≤ 2 * lp.relaxation_factor *
      (|st.rho_relaxation_numerator| / (|st.rho_relaxation_denominator| + p.eps)) := by positivity
  have key : ∀ r, st.bounds.rho_max ≤ r → st.bounds.rho_max ≤
      (st.bounds.gamma_min + 1) * r / (st.bounds.gamma_min - 1 + 2 * p.b * r) := by
    intro r hr'
    have hr0 : 0 < r := lt_of_lt_of_le hM hr'
    have hden : 0 < st.bounds.gamma_min - 1 + 2 * p.b * r := by
      have := mul_nonneg hb hr0.le
      nlinarith
    rw [le_div_iff₀ hden]
    nlinarith [mul_le_mul_of_nonneg_right hbM hr0.le,
      mul_le_mul_of_nonneg_left hr' (by linarith : (0:ℝ) ≤ st.bounds.gamma_min - 1)]
  have hup := Ryujin.upper_relax hr hq2 hM.le
  refine ⟨Ryujin.lower_relax hr hq2 hm, le_min (key _ hup) hup,
    Ryujin.lower_relax hr (mul_nonneg hf (by linarith)) hS, rfl, fun h0 => ?_⟩
  have hk := key _ le_rfl
  simp only [b, LimiterState.relaxedBounds, h0, Euler.relaxationRadius_zero]
  simp [hk]

/-- Non-vacuity of C06 for AEOS. -/
example : let st : LimiterState := ⟨⟨1 / 2, 3 / 2, 1, 7 / 5⟩, 5, 3, 2⟩
    0 ≤ st.bounds.rho_min ∧ 0 < st.bounds.rho_max ∧ (1 / 3 : ℝ) * st.bounds.rho_max ≤ 1 ∧
    1 < st.bounds.gamma_min ∧ 0 ≤ st.bounds.s_min ∧ st.bounds.s_min ≤ st.s_interp_max := by
  norm_num

/-- The relaxed upper density bound before the compressibility correction. -/
noncomputable def relaxedRhoMax (dim : ℕ) (p : Params) (lp : LimiterParams) (st : LimiterState)
    (hd_i : ℝ) : ℝ :=
  min ((1 + Euler.relaxationRadius dim lp.relaxation_factor hd_i) * st.bounds.rho_max)
    (st.bounds.rho_max + 2 * lp.relaxation_factor *
      (|st.rho_relaxation_numerator| / (|st.rho_relaxation_denominator| + p.eps)))

/-- **C54 (AEOS, what the correction achieves).** The upper density bound returned by `bounds()` stays
below the maximal compressible density `1 / b` if and only if the relaxed bound was so already before
the compressibility correction, and in that case the correction changes nothing. -/
theorem C54_aeos_rho_max_partial (p : Params) (lp : LimiterParams) (hd_i : ℝ) (st : LimiterState)
    (hb : 0 < p.b) (hg : 1 < st.bounds.gamma_min) (hr : 0 < relaxedRhoMax dim p lp st hd_i) :
    ((st.relaxedBounds dim p lp hd_i).rho_max ≤ 1 / p.b ↔ relaxedRhoMax dim p lp st hd_i ≤ 1 / p.b) ∧
    (relaxedRhoMax dim p lp st hd_i ≤ 1 / p.b →
      (st.relaxedBounds dim p lp hd_i).rho_max = relaxedRhoMax dim p lp st hd_i) := by
  have e : (st.relaxedBounds dim p lp hd_i).rho_max =
      min ((st.bounds.gamma_min + 1) * relaxedRhoMax dim p lp st hd_i /
        (st.bounds.gamma_min - 1 + 2 * p.b * relaxedRhoMax dim p lp st hd_i))
        (relaxedRhoMax dim p lp st hd_i) := rfl
  rw [e]
  generalize relaxedRhoMax dim p lp st hd_i = r at *
  generalize st.bounds.gamma_min = g at *
  have hbr : 0 < p.b * r := mul_pos hb hr
  have hden : 0 < g - 1 + 2 * p.b * r := by nlinarith
  have h1 : r ≤ 1 / p.b → min ((g + 1) * r / (g - 1 + 2 * p.b * r)) r = r := by
    intro h
    rw [le_div_iff₀ hb] at h
    apply min_eq_right
    rw [le_div_iff₀ hden]
    nlinarith
  refine ⟨⟨fun h => ?_, fun h => (h1 h).le.trans h⟩, h1⟩
  by_contra hcon
  push Not at hcon
  rw [div_lt_iff₀ hb] at hcon
  rcases min_le_iff.1 h with h | h
  · rw [div_le_div_iff₀ hden hb] at h
    nlinarith
  · rw [le_div_iff₀ hb] at h
    linarith

/-- **C54 is violated by the code**: with relaxation enabled there is a limiter state whose strict upper
bound is physical (`b * rho_max < 1`) and whose relaxed upper bound exceeds `1 / b`. -/
theorem C54_aeos_rho_max_violation :
    ∃ (p : Params) (lp : LimiterParams) (hd_i : ℝ) (st : LimiterState), 0 < p.b ∧ 0 ≤ p.eps ∧
      1 < st.bounds.gamma_min ∧ 0 < st.bounds.rho_min ∧ st.bounds.rho_min ≤ st.bounds.rho_max ∧
      p.b * st.bounds.rho_max < 1 ∧ 1 / p.b < (st.relaxedBounds 1 p lp hd_i).rho_max := by
  refine ⟨⟨1, 0, 0, 1, 100, 10000, 0⟩, ⟨2, 0, 1⟩, 1, ⟨⟨1 / 2, 3 / 4, 1, 2⟩, 3, 2, 1⟩, ?_⟩
  refine ⟨by norm_num, by norm_num, by norm_num, by norm_num, by norm_num, by norm_num, ?_⟩
  simp only [LimiterState.relaxedBounds, Euler.relaxationRadius]
  norm_num

/-- **C07 (AEOS).** `combine_bounds` widens every component, is commutative, associative and
idempotent. -/
theorem C07_aeos_combine (a b c : Bounds) :
    ((combineBounds a b).rho_min ≤ a.rho_min ∧ a.rho_max ≤ (combineBounds a b).rho_max ∧
      (combineBounds a b).s_min ≤ a.s_min ∧ (combineBounds a b).gamma_min ≤ a.gamma_min) ∧
    ((combineBounds a b).rho_min ≤ b.rho_min ∧ b.rho_max ≤ (combineBounds a b).rho_max ∧
      (combineBounds a b).s_min ≤ b.s_min ∧ (combineBounds a b).gamma_min ≤ b.gamma_min) ∧
    combineBounds a b = combineBounds b a ∧
    combineBounds (combineBounds a b) c = combineBounds a (combineBounds b c) ∧
    combineBounds a a = a := by
  refine ⟨⟨min_le_left _ _, le_max_left _ _, min_le_left _ _, min_le_left _ _⟩,
    ⟨min_le_right _ _, le_max_right _ _, min_le_right _ _, min_le_right _ _⟩, ?_, ?_, ?_⟩
  · simp [combineBounds, min_comm, max_comm]
  · simp [combineBounds, min_assoc, max_assoc]
  · simp [combineBounds]

open Euler (State density internalEnergy mkState)

/-- A state is admitted by AEOS bounds: density, and surrogate entropy evaluated with `gamma_min`. -/
def Admits (p : Params) (b : Bounds) (U : State dim) : Prop :=
  b.rho_min ≤ density U ∧ density U ≤ b.rho_max ∧
    b.s_min ≤ surrogateSpecificEntropy p U b.gamma_min

/-- **C07 (AEOS, admissibility, partial).** States with specific covolume `0 < 1/rho - b ≤ 1` (and
nonnegative shifted internal energy) admitted by either side are admitted by the combination.  Without
`1/rho - b ≤ 1` this is false for the code, see `C07_aeos_combine_admits_violation`. -/
theorem C07_aeos_combine_admits_partial (p : Params) (a b : Bounds) (U : State dim)
    (hx0 : 0 < 1 / density U - p.b) (hx1 : 1 / density U - p.b ≤ 1) (hsh : 0 ≤ shift p U)
    (hcov : 0 < covolume p (density U)) (h : Admits p a U ∨ Admits p b U) :
    Admits p (combineBounds a b) U := by
  have mono : ∀ g g', g' ≤ g →
      surrogateSpecificEntropy p U g ≤ surrogateSpecificEntropy p U g' := by
    intro g g' hg
    unfold surrogateSpecificEntropy
    apply div_le_div_of_nonneg_right _ hcov.le
    exact mul_le_mul_of_nonneg_left (Real.rpow_le_rpow_of_exponent_ge hx0 hx1 hg) hsh
  rcases h with h | h
  · exact ⟨(min_le_left _ _).trans h.1, h.2.1.trans (le_max_left _ _),
      ((min_le_left _ _).trans h.2.2).trans (mono _ _ (min_le_left _ _))⟩
  · exact ⟨(min_le_right _ _).trans h.1, h.2.1.trans (le_max_right _ _),
      ((min_le_right _ _).trans h.2.2).trans (mono _ _ (min_le_right _ _))⟩

example : let p : Params := ⟨1 / 4, 0, 0, 1, 100, 10000, 0⟩
    let U : State 1 := mkState 1 (fun _ => 0) 2
    0 < 1 / density U - p.b ∧ 1 / density U - p.b ≤ 1 ∧ 0 ≤ shift p U ∧ 0 < covolume p (density U) := by
  norm_num [shift, covolume, internalEnergy, normSq]

/-- **C07 (AEOS) is violated by the code**: taking the minimum of the two `gamma_min` reinterprets the
entropy bound; a rarefied state (`1/rho - b > 1`) admitted by one side need not be admitted by the
combined bounds. -/
theorem C07_aeos_combine_admits_violation :
    ∃ (p : Params) (a b : Bounds) (U : State 1), Admits p a U ∧ ¬ Admits p (combineBounds a b) U := by
  refine ⟨⟨0, 0, 0, 1, 100, 10000, 0⟩, ⟨0, 1, 16, 2⟩, ⟨0, 1, 16, 1⟩, mkState (1 / 4) (fun _ => 0) 1,
    ?_, ?_⟩
  · refine ⟨by norm_num, by norm_num, ?_⟩
    norm_num [surrogateSpecificEntropy, shift, covolume, internalEnergy, normSq]
  · intro h
    have := h.2.2
    norm_num [surrogateSpecificEntropy, shift, covolume, internalEnergy, normSq, combineBounds] at this

example : combineBounds ⟨1, 2, 3, 7 / 5⟩ ⟨2, 3, 1, 5 / 3⟩ = ⟨1, 3, 1, 7 / 5⟩ := by
  norm_num [combineBounds]

end Aeos
end Ryujin
