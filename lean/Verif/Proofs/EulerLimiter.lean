import Verif.Proofs.Limiter
import Mathlib.Analysis.Convex.SpecificFunctions.Basic
import Mathlib.Analysis.SpecialFunctions.Pow.Deriv
import Mathlib.Algebra.BigOperators.Field

/-!
# Helper lemmas: the Euler limiting functional along a line
-/

namespace Ryujin

open scoped BigOperators

namespace Euler

variable {dim : ℕ}

@[simp] theorem density_mkState (r : ℝ) (m : Vec dim) (E : ℝ) : density (mkState r m E) = r := by
  simp [density, mkState]

@[simp] theorem momentum_mkState (r : ℝ) (m : Vec dim) (E : ℝ) : momentum (mkState r m E) = m := by
  funext i; simp [momentum, mkState]

@[simp] theorem totalEnergy_mkState (r : ℝ) (m : Vec dim) (E : ℝ) :
    totalEnergy (mkState r m E) = E := by
  simp [totalEnergy, mkState, ← Fin.succ_last]

theorem state_ext {U V : State dim} (h1 : density U = density V) (h2 : momentum U = momentum V)
    (h3 : totalEnergy U = totalEnergy V) : U = V := by
  funext k
  refine Fin.cases h1 (fun j => ?_) k
  refine Fin.lastCases ?_ (fun i => ?_) j
  · have := h3; simpa [totalEnergy, ← Fin.succ_last] using this
  · exact congrFun h2 i

theorem mkState_eta (U : State dim) : mkState (density U) (momentum U) (totalEnergy U) = U :=
  state_ext (by simp) (by simp) (by simp)

@[simp] theorem density_add (U V : State dim) : density (U + V) = density U + density V := rfl
@[simp] theorem momentum_add (U V : State dim) : momentum (U + V) = momentum U + momentum V := rfl
@[simp] theorem totalEnergy_add (U V : State dim) :
    totalEnergy (U + V) = totalEnergy U + totalEnergy V := rfl
@[simp] theorem density_smul (t : ℝ) (V : State dim) : density (t • V) = t * density V := rfl
@[simp] theorem momentum_smul (t : ℝ) (V : State dim) : momentum (t • V) = t • momentum V := rfl
@[simp] theorem totalEnergy_smul (t : ℝ) (V : State dim) :
    totalEnergy (t • V) = t * totalEnergy V := rfl

theorem sum_state (g : Fin (dim + 2) → ℝ) :
    ∑ k, g k = g 0 + ∑ i : Fin dim, g i.castSucc.succ + g (Fin.last (dim + 1)) := by
  rw [Fin.sum_univ_succ, Fin.sum_univ_castSucc, ← Fin.succ_last]
  ring

theorem dot_state (A B : State dim) :
    dot A B = density A * density B + dot (momentum A) (momentum B) + totalEnergy A * totalEnergy B :=
  sum_state (fun k => A k * B k)

end Euler

theorem normSq_eq_dot {n : ℕ} (a : Vec n) : normSq a = dot a a := rfl

theorem normSq_nonneg {n : ℕ} (a : Vec n) : 0 ≤ normSq a :=
  Finset.sum_nonneg fun i _ => mul_self_nonneg (a i)

theorem dot_comm {n : ℕ} (a b : Vec n) : dot a b = dot b a :=
  Finset.sum_congr rfl fun _ _ => mul_comm _ _

theorem dot_add_left {n : ℕ} (a b c : Vec n) : dot (a + b) c = dot a c + dot b c := by
  simp [dot, add_mul, Finset.sum_add_distrib]

theorem dot_add_right {n : ℕ} (a b c : Vec n) : dot a (b + c) = dot a b + dot a c := by
  simp [dot, mul_add, Finset.sum_add_distrib]

theorem dot_smul_left {n : ℕ} (t : ℝ) (a b : Vec n) : dot (t • a) b = t * dot a b := by
  simp [dot, Finset.mul_sum, mul_assoc]

theorem dot_smul_right {n : ℕ} (t : ℝ) (a b : Vec n) : dot a (t • b) = t * dot a b := by
  rw [dot_comm, dot_smul_left, dot_comm]

theorem normSq_add_smul {n : ℕ} (a b : Vec n) (t : ℝ) :
    normSq (a + t • b) = normSq a + 2 * t * dot a b + t ^ 2 * normSq b := by
  simp only [normSq_eq_dot, dot_add_left, dot_add_right, dot_smul_left, dot_smul_right, dot_comm b a]
  ring

/-- Quadratic over linear is convex: the vector form of Titu's inequality. -/
theorem normSq_div_convex {n : ℕ} (a b : Vec n) {ra rb la lb : ℝ} (hra : 0 < ra) (hrb : 0 < rb)
    (hla : 0 ≤ la) (hlb : 0 ≤ lb) (hsum : la + lb = 1) :
    normSq (la • a + lb • b) / (la * ra + lb * rb) ≤ la * (normSq a / ra) + lb * (normSq b / rb) := by
  have hpos : 0 < la * ra + lb * rb := by
    rcases eq_or_lt_of_le hla with h | h
    · have : lb = 1 := by linarith
      rw [← h, this]; linarith
    · have := mul_pos h hra
      have := mul_nonneg hlb hrb.le
      linarith
  have key : ∀ i, (la * a i + lb * b i) * (la * a i + lb * b i) / (la * ra + lb * rb) ≤
      la * (a i * a i / ra) + lb * (b i * b i / rb) := by
    intro i
    rw [div_le_iff₀ hpos]
    have e : (la * (a i * a i / ra) + lb * (b i * b i / rb)) * (la * ra + lb * rb)
        - (la * a i + lb * b i) * (la * a i + lb * b i)
        = la * lb * (ra * rb) * (a i / ra - b i / rb) ^ 2 := by
      field_simp
      ring
    have : 0 ≤ la * lb * (ra * rb) * (a i / ra - b i / rb) ^ 2 := by positivity
    linarith
  have h := Finset.sum_le_sum (s := Finset.univ) fun i _ => key i
  calc normSq (la • a + lb • b) / (la * ra + lb * rb)
      = ∑ i, (la * a i + lb * b i) * (la * a i + lb * b i) / (la * ra + lb * rb) := by
        simp [normSq, Finset.sum_div]
    _ ≤ ∑ i, (la * (a i * a i / ra) + lb * (b i * b i / rb)) := h
    _ = la * (normSq a / ra) + lb * (normSq b / rb) := by
        simp [normSq, Finset.sum_div, Finset.mul_sum, Finset.sum_add_distrib]

namespace Euler

variable {dim : ℕ}

/-- The internal energy is a concave function of the conserved state on `rho > 0`. -/
theorem internalEnergy_concave (U V : State dim) {la lb : ℝ} (hU : 0 < density U)
    (hV : 0 < density V) (hla : 0 ≤ la) (hlb : 0 ≤ lb) (hsum : la + lb = 1) :
    la * internalEnergy U + lb * internalEnergy V ≤ internalEnergy (la • U + lb • V) := by
  have h := normSq_div_convex (momentum U) (momentum V) hU hV hla hlb hsum
  simp only [internalEnergy, density_add, density_smul, momentum_add, momentum_smul, totalEnergy_add,
    totalEnergy_smul, mul_one_div]
  have e1 : ∀ x y : ℝ, 1 / 2 * x / y = 1 / 2 * (x / y) := fun x y => by ring
  simp only [e1]
  nlinarith

/-- `rho ^ gamma` is convex on `rho > 0` for `gamma ≥ 1`. -/
theorem rpow_convex {g x y la lb : ℝ} (hg : 1 ≤ g) (hx : 0 < x) (hy : 0 < y) (hla : 0 ≤ la)
    (hlb : 0 ≤ lb) (hsum : la + lb = 1) : (la * x + lb * y) ^ g ≤ la * x ^ g + lb * y ^ g := by
  have := (convexOn_rpow hg).2 (Set.mem_Ici.2 hx.le) (Set.mem_Ici.2 hy.le) hla hlb hsum
  simpa using this

/-- The set of states with positive density and specific entropy at least `s` is convex. -/
theorem entropySet_convex {g s : ℝ} (hg : 1 ≤ g) (hs : 0 ≤ s) (U V : State dim) {la lb : ℝ}
    (hU : 0 < density U) (hV : 0 < density V) (hla : 0 ≤ la) (hlb : 0 ≤ lb) (hsum : la + lb = 1)
    (hU' : s * density U ^ g ≤ internalEnergy U) (hV' : s * density V ^ g ≤ internalEnergy V) :
    s * density (la • U + lb • V) ^ g ≤ internalEnergy (la • U + lb • V) := by
  have h1 := internalEnergy_concave U V hU hV hla hlb hsum
  have h2 := rpow_convex hg hU hV hla hlb hsum
  have h3 := mul_le_mul_of_nonneg_left h2 hs
  have h4 := mul_le_mul_of_nonneg_left hU' hla
  have h5 := mul_le_mul_of_nonneg_left hV' hlb
  simp only [density_add, density_smul] at *
  nlinarith

theorem density_line (U P : State dim) (t : ℝ) : density (U + t • P) = density U + t * density P := rfl

/-- `rho * (rho e)` is a quadratic polynomial along lines. -/
theorem rho_rhoe (U : State dim) (h : density U ≠ 0) :
    density U * internalEnergy U = density U * totalEnergy U - 1 / 2 * normSq (momentum U) := by
  unfold internalEnergy; field_simp

theorem psi_line (p : Params) (heps : p.eps = 0) (s : ℝ) (U P : State dim) (t : ℝ)
    (h : 0 < density (U + t • P)) :
    psi p s U P t = (density U + t * density P) * (totalEnergy U + t * totalEnergy P)
      - 1 / 2 * (normSq (momentum U) + 2 * t * dot (momentum U) (momentum P)
        + t ^ 2 * normSq (momentum P))
      - s * (density U + t * density P) ^ (p.gamma + 1) := by
  have h1 := rho_rhoe (U + t • P) h.ne'
  have h2 : (density U + t * density P) ^ (p.gamma + 1) =
      (density U + t * density P) * (density U + t * density P) ^ p.gamma := by
    rw [Real.rpow_add_one (by simpa [density_line] using h.ne'), mul_comm]
  unfold psi
  simp only [heps, mul_zero, add_zero, one_mul]
  rw [h1, h2]
  simp only [density_line, momentum_add, momentum_smul, totalEnergy_add, totalEnergy_smul,
    normSq_add_smul]
  ring

theorem dpsi_line (p : Params) (s : ℝ) (U P : State dim) (t : ℝ)
    (h : 0 < density (U + t • P)) :
    dpsi p s U P t = density P * (totalEnergy U + t * totalEnergy P)
      + (density U + t * density P) * totalEnergy P
      - (dot (momentum U) (momentum P) + t * normSq (momentum P))
      - s * ((p.gamma + 1) * (density U + t * density P) ^ p.gamma * density P) := by
  have hne : density (U + t • P) ≠ 0 := h.ne'
  unfold dpsi
  simp only [dot_state, internalEnergyDerivative, density_mkState, momentum_mkState,
    totalEnergy_mkState, internalEnergy]
  have e1 : normSq (fun i => momentum (U + t • P) i * (1 / density (U + t • P)))
      = normSq (momentum (U + t • P)) * (1 / density (U + t • P)) ^ 2 := by
    simp only [normSq, Finset.sum_mul]
    exact Finset.sum_congr rfl fun i _ => by ring
  have e2 : dot (fun i => -(momentum (U + t • P) i * (1 / density (U + t • P)))) (momentum P)
      = -(dot (momentum (U + t • P)) (momentum P)) * (1 / density (U + t • P)) := by
    simp only [dot, Finset.sum_mul, ← Finset.sum_neg_distrib]
    exact Finset.sum_congr rfl fun i _ => by ring
  rw [e1, e2]
  have e3 : dot (momentum (U + t • P)) (momentum P)
      = dot (momentum U) (momentum P) + t * normSq (momentum P) := by
    rw [momentum_add, momentum_smul, dot_add_left, dot_smul_left, normSq_eq_dot]
  rw [e3]
  rw [density_line] at hne
  simp only [density_line, totalEnergy_add, totalEnergy_smul]
  field_simp
  ring

theorem psi_hasDeriv (p : Params) (heps : p.eps = 0) (hg : 1 ≤ p.gamma) (s : ℝ) (U P : State dim)
    (t : ℝ) (h : 0 < density (U + t • P)) : HasDerivAt (psi p s U P) (dpsi p s U P t) t := by
  have hcont : Continuous fun x : ℝ => density U + x * density P := by fun_prop
  have hev : ∀ᶠ x in nhds t, 0 < density (U + x • P) :=
    hcont.continuousAt.eventually (lt_mem_nhds h)
  have hpsi : psi p s U P =ᶠ[nhds t] fun x =>
      (density U + x * density P) * (totalEnergy U + x * totalEnergy P)
      - 1 / 2 * (normSq (momentum U) + 2 * x * dot (momentum U) (momentum P)
        + x ^ 2 * normSq (momentum P))
      - s * (density U + x * density P) ^ (p.gamma + 1) :=
    hev.mono fun x hx => psi_line p heps s U P x hx
  refine HasDerivAt.congr_of_eventuallyEq ?_ hpsi
  have hr : HasDerivAt (fun x : ℝ => density U + x * density P) (density P) t := by
    simpa using ((hasDerivAt_id t).mul_const (density P)).const_add (density U)
  have hE : HasDerivAt (fun x : ℝ => totalEnergy U + x * totalEnergy P) (totalEnergy P) t := by
    simpa using ((hasDerivAt_id t).mul_const (totalEnergy P)).const_add (totalEnergy U)
  have hm : HasDerivAt (fun x : ℝ => normSq (momentum U) + 2 * x * dot (momentum U) (momentum P)
        + x ^ 2 * normSq (momentum P))
      (2 * dot (momentum U) (momentum P) + 2 * t * normSq (momentum P)) t := by
    have h1 := ((((hasDerivAt_id t).const_mul 2).mul_const (dot (momentum U) (momentum P))).const_add
      (normSq (momentum U))).add (((hasDerivAt_id t).pow 2).mul_const (normSq (momentum P)))
    refine (h1.congr_of_eventuallyEq (Filter.Eventually.of_forall fun x => ?_)).congr_deriv ?_
    · simp
    · simp
  have hp : HasDerivAt (fun x : ℝ => (density U + x * density P) ^ (p.gamma + 1))
      (density P * (p.gamma + 1) * (density U + t * density P) ^ (p.gamma + 1 - 1)) t :=
    hr.rpow_const (Or.inr (by linarith))
  have := ((hr.mul hE).sub (hm.const_mul (1 / 2))).sub (hp.const_mul s)
  refine this.congr_deriv ?_
  rw [dpsi_line p s U P t h]
  simp only [add_sub_cancel_right]
  ring

theorem psi_threeConvex (p : Params) (heps : p.eps = 0) (hg : 1 ≤ p.gamma) {s : ℝ} (hs : 0 ≤ s)
    (U P : State dim) {a b : ℝ} (h : ∀ t ∈ Set.Icc a b, 0 < density (U + t • P)) :
    ThreeConvexOrConcave a b (psi p s U P) (dpsi p s U P) := by
  refine ⟨fun t ht => psi_hasDeriv p heps hg s U P t (h t ht), ?_⟩
  -- the nonlinear part of the derivative
  have hc : ConvexOn ℝ (Set.Icc a b) fun t : ℝ => (density U + t * density P) ^ p.gamma := by
    refine ⟨convex_Icc a b, fun x hx y hy la lb hla hlb hsum => ?_⟩
    have := rpow_convex hg (h x hx) (h y hy) hla hlb hsum
    simp only [density_line, smul_eq_mul] at this ⊢
    refine le_trans (le_of_eq ?_) this
    congr 1
    have : density U = (la + lb) * density U := by rw [hsum, one_mul]
    linear_combination this
  have key : ∀ t ∈ Set.Icc a b, dpsi p s U P t =
      (density P * totalEnergy U + density U * totalEnergy P - dot (momentum U) (momentum P)) +
        t * (2 * density P * totalEnergy P - normSq (momentum P)) +
        (-(s * (p.gamma + 1) * density P)) * (density U + t * density P) ^ p.gamma := by
    intro t ht
    rw [dpsi_line p s U P t (h t ht)]
    ring
  have hk : 0 ≤ s * (p.gamma + 1) := mul_nonneg hs (by linarith)
  set A := density P * totalEnergy U + density U * totalEnergy P - dot (momentum U) (momentum P)
  set B := 2 * density P * totalEnergy P - normSq (momentum P)
  set C := -(s * (p.gamma + 1) * density P) with hC
  rcases le_total (density P) 0 with hP | hP
  · left
    have hC0 : 0 ≤ C := by rw [hC]; nlinarith
    refine ⟨convex_Icc a b, fun x hx y hy la lb hla hlb hsum => ?_⟩
    have hz := (convex_Icc a b) hx hy hla hlb hsum
    have := mul_le_mul_of_nonneg_left (hc.2 hx hy hla hlb hsum) hC0
    rw [key _ hz, key x hx, key y hy]
    simp only [smul_eq_mul] at this ⊢
    have e : A = (la + lb) * A := by rw [hsum, one_mul]
    nlinarith
  · right
    have hC0 : C ≤ 0 := by rw [hC]; nlinarith
    refine ⟨convex_Icc a b, fun x hx y hy la lb hla hlb hsum => ?_⟩
    have hz := (convex_Icc a b) hx hy hla hlb hsum
    have := mul_le_mul_of_nonpos_left (hc.2 hx hy hla hlb hsum) hC0
    rw [key _ hz, key x hx, key y hy]
    simp only [smul_eq_mul] at this ⊢
    have e : A = (la + lb) * A := by rw [hsum, one_mul]
    nlinarith

/-- Sign of `psi` versus the entropy inequality. -/
theorem psi_nonneg_iff (p : Params) (heps : p.eps = 0) (s : ℝ) (U P : State dim) (t : ℝ)
    (h : 0 < density (U + t • P)) :
    0 ≤ psi p s U P t ↔ s * density (U + t • P) ^ p.gamma ≤ internalEnergy (U + t • P) := by
  unfold psi
  simp only [heps, mul_zero, add_zero, one_mul]
  constructor
  · intro h'
    have : 0 ≤ density (U + t • P) *
        (internalEnergy (U + t • P) - s * density (U + t • P) ^ p.gamma) := by linarith
    have := nonneg_of_mul_nonneg_right this h
    linarith
  · intro h'
    have := mul_nonneg h.le (sub_nonneg.2 h')
    linarith

theorem entropy_iff (p : Params) (s : ℝ) (U : State dim) (h : 0 < density U) :
    s ≤ specificEntropy p U ↔ s * density U ^ p.gamma ≤ internalEnergy U := by
  unfold specificEntropy
  rw [one_div, Real.inv_rpow h.le, ← div_eq_mul_inv, le_div_iff₀ (Real.rpow_pos_of_pos h _)]

/-- The good set along a line is an interval. -/
theorem psi_interval (p : Params) (heps : p.eps = 0) (hg : 1 ≤ p.gamma) {s : ℝ} (hs : 0 ≤ s)
    (U P : State dim) {a b : ℝ} (ha : 0 < density (U + a • P)) (hb : 0 < density (U + b • P))
    (ha' : 0 ≤ psi p s U P a) (hb' : 0 ≤ psi p s U P b) (t : ℝ) (ht : t ∈ Set.Icc a b) :
    0 ≤ psi p s U P t := by
  rcases eq_or_lt_of_le (ht.1.trans ht.2) with hab | hab
  · have : t = a := le_antisymm (ht.2.trans hab.ge) ht.1
    rw [this]; exact ha'
  · set lb := (t - a) / (b - a) with hlb
    set la := (b - t) / (b - a) with hla
    have hba : 0 < b - a := sub_pos.2 hab
    have h1 : 0 ≤ la := div_nonneg (sub_nonneg.2 ht.2) hba.le
    have h2 : 0 ≤ lb := div_nonneg (sub_nonneg.2 ht.1) hba.le
    have h3 : la + lb = 1 := by rw [hla, hlb]; field_simp; ring
    have ht' : la * a + lb * b = t := by rw [hla, hlb]; field_simp; ring
    have hV : la • (U + a • P) + lb • (U + b • P) = U + t • P := by
      rw [← ht']
      have : U = (la + lb) • U := by rw [h3, one_smul]
      conv_rhs => rw [this]
      module
    have hd : 0 < density (U + t • P) := by
      rw [← hV]
      simp only [density_add, density_smul] at ha hb ⊢
      rcases eq_or_lt_of_le h1 with h | h
      · have : lb = 1 := by linarith
        rw [← h, this]; linarith
      · have := mul_pos h ha
        have := mul_nonneg h2 hb.le
        linarith
    rw [psi_nonneg_iff p heps s U P _ hd]
    rw [psi_nonneg_iff p heps s U P _ ha] at ha'
    rw [psi_nonneg_iff p heps s U P _ hb] at hb'
    have := entropySet_convex hg hs (U + a • P) (U + b • P) ha hb h1 h2 h3 ha' hb'
    rwa [hV] at this

end Euler

end Ryujin
