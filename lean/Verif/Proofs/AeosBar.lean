import Verif.Proofs.AeosRiemann
import Verif.Proofs.EulerFan
import Verif.Proofs.AeosLimiter
import Verif.Spec.AeosWaves

/-!
# The bar states of the Euler equations with arbitrary equation of state
-/

namespace Ryujin
namespace Aeos

open Euler (State density momentum totalEnergy internalEnergy mkState)

variable {dim : ℕ}

/-- The normal flux of a state, component-wise. -/
theorem contract_f (U : State dim) (pr : ℝ) (n : Vec dim) :
    contract (f U pr) n = mkState (dot (momentum U) n)
      (fun i => dot (momentum U) n * (momentum U i / density U) + pr * n i)
      (dot (momentum U) n * ((totalEnergy U + pr) / density U)) := by
  apply Euler.state_ext
  · rw [Euler.density_mkState]; rfl
  · rw [Euler.momentum_mkState]
    funext i
    show dot (f U pr i.castSucc.succ) n = _
    simp only [f, Fin.cons_succ, Fin.snoc_castSucc, dot]
    simp only [add_mul, Finset.sum_add_distrib, ite_mul, zero_mul, Finset.sum_ite_eq', Finset.mem_univ,
      if_true, Finset.sum_mul]
    congr 1
    exact Finset.sum_congr rfl (fun k _ => by ring)
  · rw [Euler.totalEnergy_mkState]
    show dot (f U pr (Fin.last (dim + 1))) n = _
    rw [show (Fin.last (dim + 1)) = (Fin.last dim).succ from rfl]
    simp only [f, Fin.cons_succ, Fin.snoc_last, dot, Finset.sum_mul]
    exact Finset.sum_congr rfl (fun k _ => by ring)

/-! ### Two inequalities for one wave of an ideal gas -/

/-- A wave moves faster than the gas behind it, and does not exhaust the internal energy. -/
theorem wave_positive {g rho pK ps mu : ℝ} (hg : 1 < g) (hr : 0 < rho) (hp : 0 < pK) (hps : 0 ≤ ps)
    (hmu : Spec.gasSound g rho pK * Spec.gasSpeedFactor g pK ps ≤ mu) :
    0 < mu ∧ 0 < mu - Spec.gasWave g rho pK ps ∧
      0 < mu * (pK / (g - 1)) + ps * Spec.gasWave g rho pK ps - (ps - pK) ^ 2 / (2 * rho * mu) := by
  have hg1 : 0 < g - 1 := by linarith
  have hg0 : 0 < g := by linarith
  set a := Spec.gasSound g rho pK with ha
  have ha0 : 0 < a := Real.sqrt_pos.2 (by positivity)
  have ha2 : a ^ 2 = g * pK / rho := Real.sq_sqrt (by positivity)
  -- monotonicity in the speed
  have hmono : ∀ c, 0 < c → c ≤ mu → c * (pK / (g - 1)) + ps * Spec.gasWave g rho pK ps - (ps - pK) ^ 2 / (2 * rho * c) ≤
      mu * (pK / (g - 1)) + ps * Spec.gasWave g rho pK ps - (ps - pK) ^ 2 / (2 * rho * mu) := by
    intro c hc hcm
    have h1 : c * (pK / (g - 1)) ≤ mu * (pK / (g - 1)) := mul_le_mul_of_nonneg_right hcm (by positivity)
    have h2 : (ps - pK) ^ 2 / (2 * rho * mu) ≤ (ps - pK) ^ 2 / (2 * rho * c) :=
      div_le_div_of_nonneg_left (sq_nonneg _) (by positivity) (by nlinarith)
    linarith
  unfold Spec.gasSpeedFactor at hmu
  by_cases h : ps ≤ pK
  · rw [if_pos h, mul_one] at hmu
    have hmu0 : 0 < mu := ha0.trans_le hmu
    set z := (g - 1) / (2 * g) with hz
    have hz0 : 0 < z := by positivity
    have hz1 : z ≤ 1 / 2 := by rw [hz, div_le_div_iff₀ (by positivity) (by norm_num)]; linarith
    set y := ps / pK with hy
    have hy0 : 0 ≤ y := by positivity
    have hy1 : y ≤ 1 := by rw [hy, div_le_one hp]; exact h
    have hps' : ps = y * pK := by rw [hy]; field_simp
    have hF : Spec.gasWave g rho pK ps = 2 * a / (g - 1) * (y ^ z - 1) := by
      unfold Spec.gasWave; rw [if_pos h]
    have hyz1 : y ^ z ≤ 1 := Real.rpow_le_one hy0 hy1 hz0.le
    have hyz : √y ≤ y ^ z := by
      rw [Real.sqrt_eq_rpow]
      exact Real.rpow_le_rpow_of_exponent_ge_of_imp hy0 hy1 hz1 (by intro _ h; linarith)
    refine ⟨hmu0, ?_, lt_of_lt_of_le ?_ (hmono a ha0 hmu)⟩
    · rw [hF]
      have : 2 * a / (g - 1) * (y ^ z - 1) ≤ 0 := mul_nonpos_of_nonneg_of_nonpos (by positivity) (by linarith)
      linarith
    · have e : a * (pK / (g - 1)) + ps * Spec.gasWave g rho pK ps - (ps - pK) ^ 2 / (2 * rho * a) =
          a * pK * ((1 - 2 * (y * (1 - y ^ z))) / (g - 1) - (1 - y) ^ 2 / (2 * g)) := by
        have hq : (ps - pK) ^ 2 / (2 * rho * a) = a * pK * ((1 - y) ^ 2 / (2 * g)) := by
          rw [hps', div_eq_iff (by positivity)]
          have : a * pK * ((1 - y) ^ 2 / (2 * g)) * (2 * rho * a) = a ^ 2 * rho / g * pK * (1 - y) ^ 2 := by
            field_simp
          rw [this, ha2]
          field_simp
          ring
        rw [hq, hF, hps']
        field_simp
        ring
      rw [e]
      refine mul_pos (by positivity) ?_
      have h1 : y * (1 - y ^ z) ≤ 1 / 4 := by
        have hs0 := Real.sqrt_nonneg y
        have hs2 := Real.sq_sqrt hy0
        have hs1 : √y ≤ 1 := Real.sqrt_le_one.2 hy1
        have : y * (1 - y ^ z) ≤ √y * (1 - √y) := by
          have h2 : y ≤ √y := by nlinarith
          exact mul_le_mul h2 (by linarith) (by linarith) hs0
        nlinarith [sq_nonneg (√y - 1 / 2)]
      have h2 : (1 - y) ^ 2 ≤ 1 := by nlinarith
      have h3 : (1 - y) ^ 2 / (2 * g) ≤ 1 / (2 * g) := div_le_div_of_nonneg_right h2 (by positivity)
      have h4 : 1 / (2 * g) < 1 / (2 * (g - 1)) := by
        apply one_div_lt_one_div_of_lt <;> linarith
      have h5 : 1 / (2 * (g - 1)) ≤ (1 - 2 * (y * (1 - y ^ z))) / (g - 1) := by
        rw [div_le_div_iff₀ (by positivity) hg1]
        nlinarith
      linarith
  · rw [if_neg h] at hmu
    push Not at h
    set c := a * √((g + 1) / (2 * g) * (ps / pK) + (g - 1) / (2 * g)) with hc
    set Q := (g + 1) * ps + (g - 1) * pK with hQ
    have hQ0 : 0 < Q := by positivity
    have hc2 : c ^ 2 = Q / (2 * rho) := by
      rw [hc, mul_pow, ha2, Real.sq_sqrt (by positivity), hQ]
      field_simp
    have hc0 : 0 < c := mul_pos ha0 (Real.sqrt_pos.2 (by positivity))
    have hF : Spec.gasWave g rho pK ps = (ps - pK) / (rho * c) := by
      unfold Spec.gasWave
      rw [if_neg (not_le.2 h), div_eq_mul_inv (ps - pK)]
      congr 1
      rw [← Real.sqrt_sq (by positivity : 0 ≤ (rho * c)⁻¹)]
      congr 1
      rw [inv_pow, mul_pow, hc2]
      field_simp
      ring
    have hD : 0 < ps - pK := by linarith
    refine ⟨hc0.trans_le hmu, ?_, lt_of_lt_of_le ?_ (hmono c hc0 hmu)⟩
    · refine lt_of_lt_of_le ?_ (sub_le_sub_right hmu _)
      rw [hF]
      have e : c - (ps - pK) / (rho * c) = (rho * c ^ 2 - (ps - pK)) / (rho * c) := by field_simp
      rw [e, hc2]
      refine div_pos ?_ (by positivity)
      have : rho * (Q / (2 * rho)) = Q / 2 := by field_simp
      rw [this, hQ]
      nlinarith
    · rw [hF]
      have e : c * (pK / (g - 1)) + ps * ((ps - pK) / (rho * c)) - (ps - pK) ^ 2 / (2 * rho * c) =
          c * (pK / (g - 1)) + (ps - pK) * (ps + pK) / (2 * (rho * c)) := by
        field_simp
        ring
      rw [e]
      have : 0 < (ps - pK) * (ps + pK) / (2 * (rho * c)) := by positivity
      positivity

/-- The same for a Nobel-Abel stiffened gas. -/
theorem nasg_wave_positive {b pinf : ℝ} {s : Spec.Side} (hs : s.Valid b pinf) {ps sig : ℝ} (hps : 0 ≤ ps + pinf)
    (hsig : Spec.nasgSound b pinf s.gamma s.rho s.p * Spec.nasgSpeedFactor pinf s.gamma s.p ps ≤ sig) :
    0 < sig ∧ 0 < (1 - b * s.rho) * sig - Spec.nasgWave b pinf s.gamma s.rho s.p ps ∧
      0 < sig * ((s.p + pinf) * (1 - b * s.rho) / (s.gamma - 1)) +
        (ps + pinf) * Spec.nasgWave b pinf s.gamma s.rho s.p ps - (ps - s.p) ^ 2 / (2 * s.rho * sig) := by
  have hr := hs.rho_pos
  have hx := hs.covolume
  have hp := hs.p_pos
  have hg := hs.gamma_gt
  have h := wave_positive (rho := s.rho / (1 - b * s.rho)) (mu := (1 - b * s.rho) * sig) hg (div_pos hr hx) hp hps
    (by
      rw [nasgSound_eq hr hx hp hg, ← nasgSpeedFactor_eq]
      have := mul_le_mul_of_nonneg_left hsig hx.le
      linarith)
  rw [← nasgWave_eq hr hx hp hg, show ps + pinf - (s.p + pinf) = ps - s.p by ring] at h
  have hsig0 : 0 < sig := pos_of_mul_pos_right h.1 hx.le
  refine ⟨hsig0, h.2.1, lt_of_lt_of_eq h.2.2 ?_⟩
  have hg1 : s.gamma - 1 ≠ 0 := by linarith
  generalize 1 - b * s.rho = x at *
  have e : (ps - s.p) ^ 2 / (2 * (s.rho / x) * (x * sig)) = (ps - s.p) ^ 2 / (2 * s.rho * sig) := by
    field_simp
  rw [e]
  ring

/-! ### Half of a bar state -/

/-- The state behind a wave of speed `-lam` up to the exchange with the star region: `U + f(U) n / lam` minus the flux of
a contact with pressure `ps` and velocity `v`. -/
noncomputable def half (U : State dim) (pr : ℝ) (n : Vec dim) (lam ps v : ℝ) : State dim :=
  U + (1 / lam) • contract (f U pr) n - (1 / lam) • mkState 0 (ps • n) (ps * v)

theorem density_sub (U V : State dim) : density (U - V) = density U - density V := rfl

theorem momentum_sub (U V : State dim) : momentum (U - V) = momentum U - momentum V := rfl

theorem totalEnergy_sub (U V : State dim) : totalEnergy (U - V) = totalEnergy U - totalEnergy V := rfl

theorem density_half (U : State dim) (pr : ℝ) (n : Vec dim) {lam : ℝ} (ps v : ℝ) (hr : 0 < density U) (hl : 0 < lam) :
    density (half U pr n lam ps v) = density U * (lam + dot n (momentum U) / density U) / lam := by
  unfold half
  rw [contract_f, density_sub, Euler.density_add, Euler.density_smul, Euler.density_smul, Euler.density_mkState,
    Euler.density_mkState, dot_comm]
  field_simp
  ring

theorem internalEnergy_half (U : State dim) (pr : ℝ) {n : Vec dim} (hn : normSq n = 1) {lam : ℝ} (ps F : ℝ)
    (hr : 0 < density U) (hl : 0 < lam) (hs : 0 < lam + dot n (momentum U) / density U) :
    lam * internalEnergy (half U pr n lam ps (dot n (momentum U) / density U - F)) =
      (lam + dot n (momentum U) / density U) * internalEnergy U + ps * F -
        (ps - pr) ^ 2 / (2 * density U * (lam + dot n (momentum U) / density U)) := by
  set u := dot n (momentum U) / density U with hu
  have hmn : dot (momentum U) n = density U * u := by rw [hu, dot_comm]; field_simp
  have hE : totalEnergy U = internalEnergy U + 1 / 2 * normSq (momentum U) / density U := by
    unfold internalEnergy; ring
  have hden := density_half U pr n ps (u - F) hr hl
  rw [← hu] at hden
  have hmom : momentum (half U pr n lam ps (u - F)) =
      ((lam + u) / lam) • momentum U + ((pr - ps) / lam) • n := by
    unfold half
    rw [contract_f, momentum_sub, Euler.momentum_add, Euler.momentum_smul, Euler.momentum_smul, Euler.momentum_mkState,
      Euler.momentum_mkState, hmn]
    funext k
    simp only [Pi.add_apply, Pi.sub_apply, Pi.smul_apply, smul_eq_mul]
    field_simp
    ring
  have hen : totalEnergy (half U pr n lam ps (u - F)) =
      (lam + u) / lam * totalEnergy U + (pr * u - ps * (u - F)) / lam := by
    unfold half
    rw [contract_f, totalEnergy_sub, Euler.totalEnergy_add, Euler.totalEnergy_smul, Euler.totalEnergy_smul,
      Euler.totalEnergy_mkState, Euler.totalEnergy_mkState, hmn]
    field_simp
    ring
  have hie : internalEnergy (half U pr n lam ps (u - F)) = totalEnergy (half U pr n lam ps (u - F)) -
      1 / 2 * normSq (momentum (half U pr n lam ps (u - F))) * (1 / density (half U pr n lam ps (u - F))) := rfl
  rw [hie, hden, hmom, hen, Euler.normSq_add, Euler.normSq_smul, Euler.normSq_smul, dot_smul_left, dot_smul_right, hn,
    hmn, hE]
  generalize hq : lam + u = q at *
  have hu' : u = q - lam := by linarith
  rw [hu']
  field_simp
  ring

theorem barOf_half (U_i : State dim) (p_i : ℝ) (U_j : State dim) (p_j : ℝ) (n : Vec dim) {lam : ℝ} (ps v_i v_j : ℝ) :
    barOf U_i p_i U_j p_j n lam = (1 / 2 : ℝ) • half U_i p_i n lam ps v_i + (1 / 2 : ℝ) • half U_j p_j (-n) lam ps v_j +
      mkState 0 0 (ps * (v_i + v_j) / (2 * lam)) := by
  unfold barOf half
  rw [Euler.contract_neg_normal]
  apply Euler.state_ext
  · simp only [density_sub, Euler.density_add, Euler.density_smul, Euler.density_mkState, Pi.neg_apply]
    rw [show density (-contract (f U_j p_j) n) = -density (contract (f U_j p_j) n) from rfl]
    ring
  · simp only [momentum_sub, Euler.momentum_add, Euler.momentum_smul, Euler.momentum_mkState]
    rw [show momentum (-contract (f U_j p_j) n) = -momentum (contract (f U_j p_j) n) from rfl]
    funext k
    simp only [Pi.add_apply, Pi.sub_apply, Pi.smul_apply, Pi.neg_apply, smul_eq_mul, Pi.zero_apply]
    ring
  · simp only [totalEnergy_sub, Euler.totalEnergy_add, Euler.totalEnergy_smul, Euler.totalEnergy_mkState]
    rw [show totalEnergy (-contract (f U_j p_j) n) = -totalEnergy (contract (f U_j p_j) n) from rfl]
    ring

theorem internalEnergy_add_energy (U : State dim) (e : ℝ) :
    internalEnergy (U + mkState 0 0 e) = internalEnergy U + e := by
  unfold internalEnergy
  rw [Euler.density_add, Euler.momentum_add, Euler.totalEnergy_add, Euler.density_mkState, Euler.momentum_mkState,
    Euler.totalEnergy_mkState, add_zero, add_zero]
  ring

theorem side_shift {P : Params} {U : State dim} {pr : ℝ} (h : GasState P U pr) (n : Vec dim) :
    (pr + P.pinf) * (1 - P.b * density U) / ((stateSide P U pr n).gamma - 1) =
      internalEnergy U - density U * P.q - P.pinf * (1 - P.b * density U) := by
  have h1 := h.cov_pos
  have h2 := h.shift_pos
  have h3 := h.p_pos
  unfold stateSide
  dsimp only
  rw [add_sub_cancel_left]
  field_simp

theorem stateSide_valid {P : Params} {U : State dim} {pr : ℝ} (h : GasState P U pr) (n : Vec dim) :
    (stateSide P U pr n).Valid P.b P.pinf := by
  refine ⟨h.rho_pos, h.cov_pos, h.p_pos, ?_⟩
  have := div_pos (mul_pos h.p_pos h.cov_pos) h.shift_pos
  unfold stateSide
  dsimp only
  linarith

/-- Bar states of two gases are admissible if the wave speed dominates the speeds of the exact solution of the extended
Riemann problem. -/
theorem bar_admissible {P : Params} {U_i U_j : State dim} {p_i p_j : ℝ} {n : Vec dim} (hn : normSq n = 1)
    (hi : GasState P U_i p_i) (hj : GasState P U_j p_j) {lam : ℝ} (hl : 0 < lam)
    (h : Spec.NasgDominates P.b P.pinf (stateSide P U_i p_i n) (stateSide P U_j p_j n) lam) :
    Admissible P (barOf U_i p_i U_j p_j n lam) := by
  obtain ⟨ps, hfan, h1, h2⟩ := h
  have hps : 0 ≤ ps + P.pinf := by
    rcases hfan with h | h
    · exact h.1.le
    · exact h.1.ge
  set F_i := Spec.nasgWave P.b P.pinf (stateSide P U_i p_i n).gamma (stateSide P U_i p_i n).rho (stateSide P U_i p_i n).p ps
    with hFi
  set F_j := Spec.nasgWave P.b P.pinf (stateSide P U_j p_j n).gamma (stateSide P U_j p_j n).rho (stateSide P U_j p_j n).p ps
    with hFj
  set u_i := dot n (momentum U_i) / density U_i with hui
  set u_j := dot n (momentum U_j) / density U_j with huj
  have huj' : dot (-n) (momentum U_j) / density U_j = -u_j := by
    rw [huj, show dot (-n) (momentum U_j) = -dot n (momentum U_j) by simp [dot]]; ring
  have hgap : 0 ≤ F_i + F_j + (u_j - u_i) ∧ (ps + P.pinf) * (F_i + F_j + (u_j - u_i)) = 0 := by
    rcases hfan with h | h
    · have : F_i + F_j + (u_j - u_i) = 0 := h.2
      rw [this, mul_zero]; exact ⟨le_rfl, rfl⟩
    · exact ⟨h.2, by rw [h.1, zero_mul]⟩
  obtain ⟨hsi, hci, hei⟩ := nasg_wave_positive (stateSide_valid hi n) hps (sig := lam + u_i) (by
    have : -(u_i - _) ≤ lam := h1
    linarith)
  obtain ⟨hsj, hcj, hej⟩ := nasg_wave_positive (stateSide_valid hj n) hps (sig := lam - u_j) (by
    have : u_j + _ ≤ lam := h2
    linarith)
  have e1 : (stateSide P U_i p_i n).rho = density U_i := rfl
  have e2 : (stateSide P U_j p_j n).rho = density U_j := rfl
  have e3 : (stateSide P U_i p_i n).p = p_i := rfl
  have e4 : (stateSide P U_j p_j n).p = p_j := rfl
  rw [← hFi] at hci hei
  rw [← hFj] at hcj hej
  rw [e1] at hci hei
  rw [e2] at hcj hej
  rw [e3, side_shift hi n] at hei
  rw [e4, side_shift hj n] at hej
  have hri := hi.rho_pos
  have hrj := hj.rho_pos
  set H_i := half U_i p_i n lam ps (u_i - F_i) with hHi
  set H_j := half U_j p_j (-n) lam ps (-u_j - F_j) with hHj
  have dHi : density H_i = density U_i * (lam + u_i) / lam := density_half U_i p_i n ps _ hri hl
  have dHj : density H_j = density U_j * (lam - u_j) / lam := by
    rw [hHj, density_half U_j p_j (-n) ps _ hrj hl, huj', sub_eq_add_neg]
  have iHi : lam * internalEnergy H_i = _ := internalEnergy_half U_i p_i hn ps F_i hri hl hsi
  have iHj : lam * internalEnergy H_j = (lam - u_j) * internalEnergy U_j + ps * F_j -
      (ps - p_j) ^ 2 / (2 * density U_j * (lam - u_j)) := by
    have := internalEnergy_half U_j p_j (n := -n) (by rw [Euler.normSq_neg, hn]) (lam := lam) ps F_j hrj hl
      (by rw [huj']; linarith)
    rw [huj'] at this
    rw [hHj, this, sub_eq_add_neg lam]
  rw [← hui] at iHi
  have pHi : 0 < density H_i := by rw [dHi]; positivity
  have pHj : 0 < density H_j := by rw [dHj]; positivity
  have hbar := barOf_half U_i p_i U_j p_j n (lam := lam) ps (u_i - F_i) (-u_j - F_j)
  rw [← hHi, ← hHj] at hbar
  have hdB : 2 * lam * density (barOf U_i p_i U_j p_j n lam) = density U_i * (lam + u_i) + density U_j * (lam - u_j) := by
    rw [hbar, Euler.density_add, Euler.density_add, Euler.density_smul, Euler.density_smul, Euler.density_mkState, dHi, dHj]
    field_simp
    ring
  have hiB : (lam + u_i) * internalEnergy U_i + ps * F_i - (ps - p_i) ^ 2 / (2 * density U_i * (lam + u_i)) +
      ((lam - u_j) * internalEnergy U_j + ps * F_j - (ps - p_j) ^ 2 / (2 * density U_j * (lam - u_j))) +
      ps * (u_i - F_i + (-u_j - F_j)) ≤ 2 * lam * internalEnergy (barOf U_i p_i U_j p_j n lam) := by
    rw [hbar, internalEnergy_add_energy]
    have := Euler.internalEnergy_concave H_i H_j pHi pHj (la := 1 / 2) (lb := 1 / 2) (by norm_num) (by norm_num) (by norm_num)
    have h3 := mul_le_mul_of_nonneg_left this (by linarith : 0 ≤ 2 * lam)
    have e : 2 * lam * (ps * (u_i - F_i + (-u_j - F_j)) / (2 * lam)) = ps * (u_i - F_i + (-u_j - F_j)) := by field_simp
    rw [mul_add (2 * lam), e]
    linarith
  set B := barOf U_i p_i U_j p_j n lam with hB
  have h2l : 0 < 2 * lam := by linarith
  have hcB : 2 * lam * (1 - P.b * density B) = ((1 - P.b * density U_i) * (lam + u_i) - F_i) +
      ((1 - P.b * density U_j) * (lam - u_j) - F_j) + (F_i + F_j + (u_j - u_i)) := by
    linear_combination (-P.b) * hdB
  refine ⟨pos_of_mul_pos_right (a := 2 * lam) ?_ h2l.le, pos_of_mul_pos_right (a := 2 * lam) ?_ h2l.le,
    pos_of_mul_pos_right (a := 2 * lam) ?_ h2l.le⟩
  · rw [hdB]; positivity
  · rw [hcB]; linarith [hgap.1]
  · have e : 2 * lam * (internalEnergy B - density B * P.q - P.pinf * (1 - P.b * density B)) =
        2 * lam * internalEnergy B - P.q * (2 * lam * density B) - P.pinf * (2 * lam * (1 - P.b * density B)) := by ring
    rw [e, hcB, hdB]
    nlinarith [hgap.2]

end Aeos
end Ryujin
