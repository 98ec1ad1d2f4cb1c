import Verif.Props.PrepareState
import Verif.Props.BalanceWalls

/-!
# Boundary conditions keep the minimum principle of the specific entropy
-/

namespace Ryujin

namespace Euler

noncomputable section

open Integrator

variable {ι : Type} {dim : ℕ}

/-- Walls do not lower the specific entropy: at the same density it grows with the internal energy. -/
theorem specificEntropy_mono (p : Params) {U V : State dim} (hr : 0 < density U) (hd : density V = density U)
    (hi : internalEnergy U ≤ internalEnergy V) : specificEntropy p U ≤ specificEntropy p V := by
  unfold specificEntropy
  rw [hd]
  exact mul_le_mul_of_nonneg_right hi (Real.rpow_nonneg (by positivity) _)

theorem pressure_div (p : Params) (U : State dim) (hr : 0 < density U) :
    pressure p U / density U ^ p.gamma = (p.gamma - 1) * specificEntropy p U := by
  unfold pressure specificEntropy
  rw [one_div, Real.inv_rpow hr.le]
  ring

/-- Dynamic boundaries return a state with the specific entropy of the old state or with the one of the data. -/
theorem dynamic_entropy (p : Params) (hg : 1 < p.gamma) (hg3 : p.gamma < 3) (U D : State dim) (n : Vec dim) (hn : normSq n = 1)
    (hU : Admissible U) (hD : Admissible D) (hR : riemannInvariant .first p D n ≤ 0) :
    specificEntropy p (applyBoundaryConditions p .dynamic U n D) = specificEntropy p U ∨
    specificEntropy p (applyBoundaryConditions p .dynamic U n D) = specificEntropy p D := by
  obtain ⟨h1, h2, h3, h4⟩ := C37_euler_dynamic p U D n
  have hpos : ∀ W : State dim, Admissible W → 0 < pressure p W := fun W hW => mul_pos (by linarith) hW.2
  have hs : ∀ V W : State dim, 0 < density V → 0 < density W →
      pressure p V / density V ^ p.gamma = pressure p W / density W ^ p.gamma → specificEntropy p V = specificEntropy p W := by
    intro V W hV hW h
    rw [pressure_div p V hV, pressure_div p W hW] at h
    exact mul_left_cancel₀ (by linarith : p.gamma - 1 ≠ 0) h
  set vn := normalVelocity U n with hvn
  set a := √(p.gamma * pressure p U / density U) with ha
  have ha0 : 0 < a := Real.sqrt_pos.2 (div_pos (mul_pos (by linarith) (hpos U hU)) hU.1)
  have hR2 : -a ≤ vn → 0 < riemannInvariant .second p U n := by
    intro hv
    have he : riemannInvariant .second p U n = vn + 2 * a / (p.gamma - 1) := rfl
    rw [he]
    have : a < 2 * a / (p.gamma - 1) := by
      rw [lt_div_iff₀ (by linarith)]; nlinarith
    linarith
  rcases lt_or_ge vn (-a) with hv | hv
  · right; rw [h1 hv]
  · rcases le_or_gt vn 0 with hv0 | hv0
    · right
      rw [h3 hv hv0]
      have := C37_euler_riemann_characteristic .second p D U n hn hg hD.1 (hpos D hD) (hR.trans_lt (hR2 hv))
      exact hs _ _ this.1 hD.1 this.2.2.2.2.1
    · left
      rcases le_or_gt vn a with hva | hva
      · rw [h4 hv0 hva]
        have := C37_euler_riemann_characteristic .first p U D n hn hg hU.1 (hpos U hU) (hR.trans_lt (hR2 hv))
        exact hs _ _ this.1 hU.1 this.2.2.2.2.1
      · rw [h2 hva]

/-- **C88 (entropy).** If the prescribed states are admissible with specific entropy at least `σ`, the normals of slip and dynamic entries have
unit length and, at dynamic boundaries, `1 < γ < 3` and the prescribed normal velocity is at most `2 a / (γ - 1)`, then the boundary pass keeps
states admissible with specific entropy at least `σ`. -/
theorem C88_euler_entropy (p : Params) (data : Vec dim → ℝ → State dim) (t : ℝ) (map : List (Prepare.Entry ι Boundary dim))
    (U V : ι → State dim) (h : Prepare.boundaryPass (Prepare.euler p) data t map U = some V) (σ : ℝ)
    (hunit : ∀ e ∈ map, e.id = .slip ∨ e.id = .dynamic → normSq e.normal = 1)
    (hdyn : ∀ e ∈ map, e.id = .dynamic → 1 < p.gamma ∧ p.gamma < 3 ∧ riemannInvariant .first p (data e.position t) e.normal ≤ 0)
    (hdata : ∀ e ∈ map, e.id = .dirichlet ∨ e.id = .dynamic → Admissible (data e.position t) ∧ σ ≤ specificEntropy p (data e.position t))
    (hU : ∀ i, Admissible (U i) ∧ σ ≤ specificEntropy p (U i)) : ∀ i, Admissible (V i) ∧ σ ≤ specificEntropy p (V i) := by
  intro i
  refine Prepare.pass_invariant (Prepare.euler p) data t map U V h
    (fun W W' => Admissible W ∧ σ ≤ specificEntropy p W → Admissible W' ∧ σ ≤ specificEntropy p W') (fun _ h => h)
    (fun _ _ _ h1 h2 h => h2 (h1 h)) i (fun e he _ W W' hW hadm => ?_) (hU i)
  have hW' : applyBoundaryConditions p e.id W e.normal (data e.position t) = W' := Option.some.inj hW
  have wall : density W' = density W → internalEnergy W ≤ internalEnergy W' → Admissible W' ∧ σ ≤ specificEntropy p W' :=
    fun hd hi => ⟨⟨hd ▸ hadm.1.1, hadm.1.2.trans_le hi⟩, hadm.2.trans (specificEntropy_mono p hadm.1.1 hd hi)⟩
  rcases hid : e.id with _ | _ | _ | _ | _ | _ <;> rw [hid] at hW'
  · rw [← hW']; exact hadm
  · rw [← hW']; exact hdata e he (Or.inl hid)
  · refine wall (by rw [← hW']; exact density_mkState _ _ _) ?_
    rw [← hW']
    exact (C36_euler_slip_internal_energy p W e.normal (data e.position t) (hunit e he (Or.inl hid)) hadm.1.1).1
  · refine wall (by rw [← hW']; exact density_mkState _ _ _) ?_
    have hm : normSq (momentum W') = 0 := by
      rw [← hW']
      show normSq (momentum (mkState _ (fun _ => 0) _)) = 0
      rw [momentum_mkState]; simp [normSq]
    have hd : density W' = density W := by rw [← hW']; exact density_mkState _ _ _
    have hE : totalEnergy W' = totalEnergy W := by rw [← hW']; exact totalEnergy_mkState _ _ _
    have hr : 0 ≤ 1 / density W := by have := hadm.1.1; positivity
    unfold internalEnergy
    rw [hd, hE, hm]
    have := mul_nonneg (normSq_nonneg (momentum W)) hr
    linarith
  · rw [← hW']
    obtain ⟨hg, hg3, hR⟩ := hdyn e he hid
    obtain ⟨hD, hDs⟩ := hdata e he (Or.inr hid)
    refine ⟨Prepare.dynamic_admissible p hg hg3 W _ e.normal (hunit e he (Or.inr hid)) hadm.1 hD hR, ?_⟩
    rcases dynamic_entropy p hg hg3 W _ e.normal (hunit e he (Or.inr hid)) hadm.1 hD hR with h | h <;> rw [h]
    · exact hadm.2
    · exact hDs
  · rw [← hW']; exact hadm

/-- **C92 (boundaries).** Runs with walls, inflow, do-nothing and dynamic boundaries therefore satisfy the hypothesis on the boundary conditions of
`C92_euler_run_partial` and `C92_assembled_euler_partial`. -/
theorem C92_euler_boundary (p : Params) (data : Vec dim → ℝ → State dim) (map : List (Prepare.Entry ι Boundary dim)) (σ : ℝ)
    (hunit : ∀ e ∈ map, e.id = .slip ∨ e.id = .dynamic → normSq e.normal = 1)
    (hdyn : ∀ e ∈ map, e.id = .dynamic → 1 < p.gamma ∧ p.gamma < 3 ∧ ∀ t, riemannInvariant .first p (data e.position t) e.normal ≤ 0)
    (hdata : ∀ e ∈ map, e.id = .dirichlet ∨ e.id = .dynamic → ∀ t, Admissible (data e.position t) ∧ σ ≤ specificEntropy p (data e.position t)) (t : ℝ)
    (u : ι → State dim) (hu : ∀ i, Admissible (u i) ∧ σ ≤ specificEntropy p (u i)) (i : ι) :
    Admissible (passBc (Prepare.euler p) data map t u i) ∧ σ ≤ specificEntropy p (passBc (Prepare.euler p) data map t u i) := by
  unfold passBc
  cases hV : Prepare.boundaryPass (Prepare.euler p) data t map u with
  | none => exact hu i
  | some V =>
    exact C88_euler_entropy p data t map u V hV σ hunit
      (fun e he hid => ⟨(hdyn e he hid).1, (hdyn e he hid).2.1, (hdyn e he hid).2.2 t⟩) (fun e he hid => hdata e he hid t) hu i

/-- A gas of density 1 with specific entropies at least 1 between a slip wall, a no-slip wall, an inflow boundary and a dynamic boundary. -/
example (t : ℝ) (i : Fin 4) :
    1 ≤ specificEntropy air (passBc (Prepare.euler air) (fun _ _ => mkState 1 (fun _ => 0) 4)
      [⟨0, fun _ => -1, .slip, 0⟩, ⟨1, fun _ => 1, .noSlip, 0⟩, ⟨2, fun _ => 1, .dirichlet, 0⟩, ⟨3, fun _ => 1, .dynamic, 0⟩] t
      (fun k : Fin 4 => mkState 1 (fun _ : Fin 1 => -1) (2 + ((k : ℕ) : ℝ))) i) := by
  have key : ∀ m E : ℝ, 1 ≤ E - 1 / 2 * (m * m) →
      Admissible (mkState 1 (fun _ : Fin 1 => m) E) ∧ 1 ≤ specificEntropy air (mkState 1 (fun _ : Fin 1 => m) E) := by
    intro m E h
    have hi : internalEnergy (mkState 1 (fun _ : Fin 1 => m) E) = E - 1 / 2 * (m * m) := by
      simp [internalEnergy, normSq]
    refine ⟨⟨by simp, by rw [hi]; linarith⟩, ?_⟩
    simp only [specificEntropy, hi]
    simpa using h
  have hg : air.gamma = 7 / 5 := rfl
  refine (C92_euler_boundary air (fun _ _ => mkState 1 (fun _ => 0) 4)
    [⟨0, fun _ => -1, .slip, 0⟩, ⟨1, fun _ => 1, .noSlip, 0⟩, ⟨2, fun _ => 1, .dirichlet, 0⟩, ⟨3, fun _ => 1, .dynamic, 0⟩] 1
    (fun e he hid => ?_) (fun e he hid => ⟨by rw [hg]; norm_num, by rw [hg]; norm_num, fun t => ?_⟩)
    (fun _ _ _ _ => key 0 4 (by norm_num)) t
    (fun k : Fin 4 => mkState 1 (fun _ : Fin 1 => -1) (2 + ((k : ℕ) : ℝ))) (fun k => ?_) i).2
  · simp only [List.mem_cons, List.not_mem_nil, or_false] at he
    rcases he with rfl | rfl | rfl | rfl <;> simp [normSq]
  · have h0 : normalVelocity (mkState 1 (fun _ : Fin 1 => (0 : ℝ)) 4) e.normal = 0 := by simp [normalVelocity, dot]
    simp only [riemannInvariant, h0, hg, zero_sub]
    have := Real.sqrt_nonneg (7 / 5 * pressure air (mkState 1 (fun _ : Fin 1 => (0 : ℝ)) 4) / density (mkState 1 (fun _ : Fin 1 => (0 : ℝ)) 4))
    rw [neg_nonpos]
    exact div_nonneg (by linarith) (by norm_num)
  · exact key (-1) (2 + ((k : ℕ) : ℝ)) (by have : (0 : ℝ) ≤ ((k : ℕ) : ℝ) := Nat.cast_nonneg _; linarith)

end

end Euler
end Ryujin
