import Verif.Props.AssemblyStep
import Verif.Props.FreeStream
import Verif.Props.BalanceWalls

/-!
# C87, C90, C103: complete runs on assembled meshes

The theorems about complete runs with the hypotheses on the matrices replaced by hypotheses on the finite element space: what
`OfflineData` assembles satisfies them (C87).
-/

namespace Ryujin
namespace Assembly

open Classical
open Integrator (Ctx Scheme Recovery Mem Run Res hyperbolicModules schemeAccepted passBc)
open Integrator.Slot

noncomputable section

variable {κ : Type} {n s nq nf nfq nn dim : ℕ} {F : FeData κ n s nq nf nfq nn dim}

/-- The integral of the finite element function with values `u` at the unconstrained degrees of freedom, by quadrature. -/
def integral [Fintype κ] (F : FeData κ n s nq nf nfq nn dim) (u : Dof F → ℝ) : ℝ :=
  ∑ K, ∑ q, F.JxW K q * ∑ k : Dof F, basis F k K q * u k

theorem integral_eq [Fintype κ] (hF : F.Consistent) (u : Dof F → ℝ) : integral F u = ∑ k : Dof F, lumpedMass F k * u k := by
  have hl : ∀ k : Dof F, lumpedMass F k * u k = ∑ K, ∑ q, F.JxW K q * (basis F k K q * u k) := by
    intro k
    rw [lumped_eq hF k.2]
    simp only [Finset.sum_mul, mul_assoc]
  unfold integral
  simp only [hl, Finset.mul_sum]
  refine Eq.symm ?_
  rw [Finset.sum_comm]
  refine Finset.sum_congr rfl fun K _ => ?_
  rw [Finset.sum_comm]

/-- A finite element space on a mesh without boundary, e.g. a fully periodic one, as the conservation theorems need it. -/
structure PeriodicSpace [Fintype κ] (F : FeData κ n s nq nf nfq nn dim) : Prop where
  consistent : F.Consistent
  conforming : F.Conforming
  noBoundary : NoBoundary F
  integrals : ∀ K i, 0 < ∑ q, F.JxW K q * F.value K q i
  weights : ∀ i k, F.constrained i → 0 ≤ F.coef i k
  covered : ∀ k : Dof F, ∃ K i, F.dofs K i = k
  stencils : ∀ k : Dof F, stencil F k ≠ []

/-- **C90 (conservation on assembled meshes).** On one rank, on every periodic mesh, with continuous or discontinuous elements and
the matrices assembled by `OfflineData`, the integral of every quantity whose fluxes cancel between neighbours is the same after
any number of steps with any explicit scheme, any limiter and any recovery. -/
theorem C90_assembled_conserves [Fintype κ] {Q S Fl B : Type} [AddCommGroup S] [Module ℝ S] (hP : PeriodicSpace F)
    (ip : IncidenceParams) (below skip : Dof F → Dof F → Prop) (boundary : Dof F → Prop)
    (hasymm : ∀ i j, below i j → ¬ below j i) (hskip : ∀ i j, skip i j → below i j)
    (hone : ∀ i, ∀ j ∈ stencil F i, below i j ∨ below j i)
    (D : Hyp.Description (Dof F) Q S Fl B dim) (φ : S →ₗ[ℝ] ℝ) (hD : D.Conserves φ)
    (par : Hyp.Params) (big : ℝ) (pre : (Dof F → S) → Q) (lo : ℕ → Hyp.Leftover (Dof F) S) (garbage : ℕ → Dof F → S)
    (sch : Scheme) (rec : Recovery) (cflMin cflMax : ℝ) (ok : Ctx → (Dof F → S) → Prop) (m m' : Mem (Dof F → S) Q)
    (h : Run (hyperbolicModules D (assembled F ip below skip boundary) par big (fun _ u => u) pre lo garbage
      fun _ _ _ _ _ _ => .crash) sch rec cflMin cflMax ok m m') :
    integral F (fun k => φ ((m' old).U k)) = integral F (fun k => φ ((m old).U k)) := by
  have key := Integrator.C90_one_rank_run_conserves D (assembled F ip below skip boundary)
    (C87_assembled_wellFormed hP.conforming ip below skip boundary hasymm hskip)
    (C87_assembled_closed hP.consistent hP.conforming hP.noBoundary ip below skip boundary hP.integrals hP.weights hP.covered)
    φ hD par big pre lo garbage hone sch rec cflMin cflMax ok m m' h
  have hall : Finset.univ.filter (fun k => (assembled F ip below skip boundary).nbrs k ≠ []) = Finset.univ :=
    Finset.filter_true_of_mem fun k _ => hP.stencils k
  rw [hall] at key
  rw [integral_eq hP.consistent, integral_eq hP.consistent]
  exact key

/-- **C90 (Euler on assembled meshes).** Mass, every component of the momentum and energy. -/
theorem C90_assembled_euler [Fintype κ] (hP : PeriodicSpace F)
    (ip : IncidenceParams) (below skip : Dof F → Dof F → Prop) (boundary : Dof F → Prop)
    (hasymm : ∀ i j, below i j → ¬ below j i) (hskip : ∀ i j, skip i j → below i j)
    (hone : ∀ i, ∀ j ∈ stencil F i, below i j ∨ below j i)
    (p : Euler.Params) (lp : LimiterParams) (big' : ℝ) (riem : Dof F → Dof F → Euler.State dim → Euler.State dim → Vec dim → ℝ)
    (ind : Euler.State dim → List (Euler.State dim × Vec dim) → ℝ → ℝ)
    (lim : Dof F → Dof F → Euler.Bounds → Euler.State dim → Euler.State dim → ℝ × Prop)
    (par : Hyp.Params) (big : ℝ) (lo : ℕ → Hyp.Leftover (Dof F) (Euler.State dim)) (garbage : ℕ → Dof F → Euler.State dim)
    (sch : Scheme) (rec : Recovery) (cflMin cflMax : ℝ) (ok : Ctx → (Dof F → Euler.State dim) → Prop)
    (m m' : Mem (Dof F → Euler.State dim) Unit)
    (h : Run (hyperbolicModules (Euler.description p lp big' riem ind lim) (assembled F ip below skip boundary) par big
      (fun _ u => u) (fun _ => ()) lo garbage fun _ _ _ _ _ _ => .crash) sch rec cflMin cflMax ok m m') :
    integral F (fun k => Euler.density ((m' old).U k)) = integral F (fun k => Euler.density ((m old).U k)) ∧
    (∀ d, integral F (fun k => Euler.momentum ((m' old).U k) d) = integral F (fun k => Euler.momentum ((m old).U k) d)) ∧
    integral F (fun k => Euler.totalEnergy ((m' old).U k)) = integral F (fun k => Euler.totalEnergy ((m old).U k)) := by
  have key : ∀ c : Fin (dim + 2), integral F (fun k => (m' old).U k c) = integral F (fun k => (m old).U k c) := fun c =>
    C90_assembled_conserves hP ip below skip boundary hasymm hskip hone (Euler.description p lp big' riem ind lim)
      (LinearMap.proj c) ((Euler.centralFlux p lp big' riem ind lim).conserves rfl _) par big (fun _ => ()) lo garbage sch rec
      cflMin cflMax ok m m' h
  exact ⟨key 0, fun d => key d.castSucc.succ, key (Fin.last (dim + 1))⟩

/-- **C90 (shallow water on assembled meshes).** The volume of the water, over any bottom and with friction. -/
theorem C90_assembled_water [Fintype κ] (hP : PeriodicSpace F)
    (ip : IncidenceParams) (below skip : Dof F → Dof F → Prop) (boundary : Dof F → Prop)
    (hasymm : ∀ i j, below i j → ¬ below j i) (hskip : ∀ i j, skip i j → below i j)
    (hone : ∀ i, ∀ j ∈ stencil F i, below i j ∨ below j i) (q : ShallowWater.StepParams) (Z : Dof F → ℝ)
    (lim : Dof F → Dof F → ShallowWater.Bounds → ShallowWater.State dim → ShallowWater.State dim → ℝ × Prop)
    (par : Hyp.Params) (big : ℝ) (lo : ℕ → Hyp.Leftover (Dof F) (ShallowWater.State dim))
    (garbage : ℕ → Dof F → ShallowWater.State dim) (sch : Scheme) (rec : Recovery) (cflMin cflMax : ℝ)
    (ok : Ctx → (Dof F → ShallowWater.State dim) → Prop) (m m' : Mem (Dof F → ShallowWater.State dim) Unit)
    (h : Run (hyperbolicModules (ShallowWater.description q Z lim) (assembled F ip below skip boundary) par big
      (fun _ u => u) (fun _ => ()) lo garbage fun _ _ _ _ _ _ => .crash) sch rec cflMin cflMax ok m m') :
    integral F (fun k => ShallowWater.waterDepth ((m' old).U k)) = integral F (fun k => ShallowWater.waterDepth ((m old).U k)) :=
  C90_assembled_conserves hP ip below skip boundary hasymm hskip hone (ShallowWater.description q Z lim)
    (LinearMap.proj 0) (ShallowWater.conserves_depth q Z lim) par big (fun _ => ()) lo garbage sch rec cflMin cflMax ok m m' h

/-- **C103 (Euler on assembled meshes).** On every conforming mesh – any boundaries, hanging nodes, continuous or discontinuous
elements – and with the matrices assembled by `OfflineData` a uniform flow with matching boundary data stays uniform. -/
theorem C103_assembled_euler [Fintype κ] (hF : F.Consistent) (hG : F.Conforming)
    (ip : IncidenceParams) (below skip : Dof F → Dof F → Prop) (boundary : Dof F → Prop)
    (hasymm : ∀ i j, below i j → ¬ below j i) (hskip : ∀ i j, skip i j → below i j)
    (p : Euler.Params) (hg : 1 < p.gamma) (lp : LimiterParams) (big' : ℝ)
    (riem : Dof F → Dof F → Euler.State dim → Euler.State dim → Vec dim → ℝ)
    (ind : Euler.State dim → List (Euler.State dim × Vec dim) → ℝ → ℝ)
    (lim : Dof F → Dof F → Euler.Bounds → Euler.State dim → Euler.State dim → ℝ × Prop) (par : Hyp.Params)
    (U0 : Euler.State dim) (hρ : 0 < Euler.density U0) (hpr : 0 < Euler.pressure p U0)
    (data : Vec dim → ℝ → Euler.State dim) (map : List (Prepare.Entry (Dof F) Euler.Boundary dim))
    (hdata : ∀ e ∈ map, (∀ t, data e.position t = U0) ∧ normSq e.normal = 1 ∧
      (e.id = .slip → dot (Euler.momentum U0) e.normal = 0) ∧ (e.id = .noSlip → Euler.momentum U0 = 0))
    (big : ℝ) (lo : ℕ → Hyp.Leftover (Dof F) (Euler.State dim)) (garbage : ℕ → Dof F → Euler.State dim)
    (parabolic : Ctx → ℕ → (Dof F → Euler.State dim) → ℝ → (Dof F → Euler.State dim) → ℝ → Res (Dof F → Euler.State dim))
    (sch : Scheme) (hsch : schemeAccepted true sch) (rec : Recovery) (cflMin cflMax : ℝ)
    (m m' : Mem (Dof F → Euler.State dim) Unit)
    (h : Run (hyperbolicModules (Euler.description p lp big' riem ind lim) (assembled F ip below skip boundary) par big
      (passBc (Prepare.euler p) data map) (fun _ => ()) lo garbage parabolic) sch rec cflMin cflMax (fun _ _ => True) m m')
    (h0 : ∀ k, (m old).U k = U0) (k : Dof F) (hk : stencil F k ≠ []) : (m' old).U k = U0 :=
  C103_euler_run p hg lp big' riem ind lim (assembled F ip below skip boundary)
    (C87_assembled_wellFormed hG ip below skip boundary hasymm hskip)
    (fun i _ => C87_assembled_rowSum hF ip below skip boundary i) par U0 hρ hpr data map hdata big lo garbage parabolic sch hsch
    rec cflMin cflMax m m' h (fun i _ => h0 i) k hk

/-- **C103 (shallow water on assembled meshes).** The same for a wet uniform flow over a flat bottom. -/
theorem C103_assembled_water [Fintype κ] (hF : F.Consistent) (hG : F.Conforming)
    (ip : IncidenceParams) (below skip : Dof F → Dof F → Prop) (boundary : Dof F → Prop)
    (hasymm : ∀ i j, below i j → ¬ below j i) (hskip : ∀ i j, skip i j → below i j)
    (q : ShallowWater.StepParams) (hg : 0 < q.p.gravity) (Z : Dof F → ℝ)
    (lim : Dof F → Dof F → ShallowWater.Bounds → ShallowWater.State dim → ShallowWater.State dim → ℝ × Prop) (par : Hyp.Params)
    (U0 : ShallowWater.State dim) (hw : ShallowWater.FlowingWater q.p U0) (z : ℝ) (hZ : ∀ i, Z i = z)
    (hs : q.p.manning_friction_coefficient = 0 ∨ ShallowWater.momentum U0 = 0)
    (data : Vec dim → ℝ → ShallowWater.State dim) (map : List (Prepare.Entry (Dof F) ShallowWater.Boundary dim))
    (hdata : ∀ e ∈ map, (∀ t, data e.position t = U0) ∧
      (e.id = .slip → dot (ShallowWater.momentum U0) e.normal = 0) ∧ (e.id = .noSlip → ShallowWater.momentum U0 = 0))
    (big : ℝ) (lo : ℕ → Hyp.Leftover (Dof F) (ShallowWater.State dim)) (garbage : ℕ → Dof F → ShallowWater.State dim)
    (parabolic : Ctx → ℕ → (Dof F → ShallowWater.State dim) → ℝ → (Dof F → ShallowWater.State dim) → ℝ →
      Res (Dof F → ShallowWater.State dim))
    (sch : Scheme) (hsch : schemeAccepted true sch) (rec : Recovery) (cflMin cflMax : ℝ)
    (m m' : Mem (Dof F → ShallowWater.State dim) Unit)
    (h : Run (hyperbolicModules (ShallowWater.description q Z lim) (assembled F ip below skip boundary) par big
      (passBc (Prepare.shallowWater q.p) data map) (fun _ => ()) lo garbage parabolic) sch rec cflMin cflMax (fun _ _ => True) m m')
    (h0 : ∀ k, (m old).U k = U0) (k : Dof F) (hk : stencil F k ≠ []) : (m' old).U k = U0 :=
  C103_sw_run q hg Z lim (assembled F ip below skip boundary)
    (C87_assembled_wellFormed hG ip below skip boundary hasymm hskip)
    (fun i _ => C87_assembled_rowSum hF ip below skip boundary i) par U0 hw z (fun i _ => hZ i) hs data map hdata big lo garbage
    parabolic sch hsch rec cflMin cflMax m m' h (fun i _ => h0 i) k hk

/-- The assembled matrices are symmetric, whatever the boundary. -/
theorem assembled_symmetric [Fintype κ] (hF : F.Consistent) (hG : F.Conforming) (ip : IncidenceParams)
    (below skip : Dof F → Dof F → Prop) (boundary : Dof F → Prop)
    (hint : ∀ K i, 0 < ∑ q, F.JxW K q * F.value K q i) (hcoef : ∀ i k, F.constrained i → 0 ≤ F.coef i k)
    (hdof : ∀ k : Dof F, ∃ K i, F.dofs K i = k) : (assembled F ip below skip boundary).Symmetric :=
  ⟨fun k l _ => (C87_mass_matrix hF k).1 l, fun _ _ _ => massInv_symm _ _, fun k l _ => (C87_incidence hG ip k l).1,
    fun k => C87_lumped_pos hF hint hcoef k (hdof k)⟩

/-- A finite element space on a mesh with boundary. -/
structure BoundedSpace [Fintype κ] (F : FeData κ n s nq nf nfq nn dim) : Prop where
  consistent : F.Consistent
  conforming : F.Conforming
  integrals : ∀ K i, 0 < ∑ q, F.JxW K q * F.value K q i
  weights : ∀ i k, F.constrained i → 0 ≤ F.coef i k
  covered : ∀ k : Dof F, ∃ K i, F.dofs K i = k
  stencils : ∀ k : Dof F, stencil F k ≠ []
  /-- no constrained degree of freedom lives on the boundary -/
  boundary : ∀ K f j, F.neighbor K f = none → F.supportOnFace j f → ¬ F.constrained (F.dofs K j)

/-- **C93 (Euler on assembled meshes, walls).** A domain of any shape whose boundary consists of slip and no-slip walls, the
matrices assembled by `OfflineData` and the boundary map built by `OfflineData`: the integrals of density and total energy are the
same after any number of forward Euler or strong stability preserving Runge-Kutta steps.  (Faces of the same wall that meet at a
degree of freedom enclose less than 60 degrees, different walls are orthogonal.  The normals of the map have length one here; the
code divides by the length plus the machine epsilon, `C48_normal_length`.) -/
theorem C93_assembled_euler_walls [Fintype κ] (hP : BoundedSpace F)
    (ip : IncidenceParams) (below skip : Dof F → Dof F → Prop) (boundary : Dof F → Prop)
    (hasymm : ∀ i j, below i j → ¬ below j i) (hskip : ∀ i j, skip i j → below i j)
    (hone : ∀ i, ∀ j ∈ stencil F i, below i j ∨ below j i)
    (p : Euler.Params) (lp : LimiterParams) (big' : ℝ) (riem : Dof F → Dof F → Euler.State dim → Euler.State dim → Vec dim → ℝ)
    (ind : Euler.State dim → List (Euler.State dim × Vec dim) → ℝ → ℝ)
    (lim : Dof F → Dof F → Euler.Bounds → Euler.State dim → Euler.State dim → ℝ × Prop)
    (id : κ → Fin nf → ℕ) (position : κ → Fin s → Vec dim) (cells : List κ) (hn : cells.Nodup) (hall : ∀ K, K ∈ cells)
    (eps : ℝ) (heps : 0 ≤ eps)
    (hac : ∀ k : Dof F, (BoundaryMap.entriesAt k.1.val (BoundaryMap.contributions F id position cells)).Pairwise fun c c' =>
      c.id = c'.id → BoundaryMap.Acute c.normal c'.normal)
    (data : Vec dim → ℝ → Euler.State dim) (map : List (Prepare.Entry (Dof F) Euler.Boundary dim))
    (hmap : ∀ k : Dof F, ∀ d ∈ BoundaryMap.entriesAt k.1.val
      (BoundaryMap.boundaryMap eps (BoundaryMap.contributions F id position cells)),
      ∃ e ∈ map, e.i = k ∧ (∃ a : ℝ, d.normal = a • e.normal) ∧ (e.id = .slip ∨ e.id = .noSlip))
    (hwall : ∀ j, Prepare.WallNode (Prepare.euler (dim := dim) p) .slip .noSlip (Prepare.entriesAt map j))
    (par : Hyp.Params) (big : ℝ) (lo : ℕ → Hyp.Leftover (Dof F) (Euler.State dim)) (garbage : ℕ → Dof F → Euler.State dim)
    (sch : Scheme) (hsch : Integrator.stageFree sch) (rec : Recovery) (cflMin cflMax : ℝ)
    (ok : Ctx → (Dof F → Euler.State dim) → Prop) (m m' : Mem (Dof F → Euler.State dim) Unit)
    (h : Run (hyperbolicModules (Euler.description p lp big' riem ind lim) (assembled F ip below skip boundary) par big
      (passBc (Prepare.euler p) data map) (fun _ => ()) lo garbage fun _ _ _ _ _ _ => .crash) sch rec cflMin cflMax ok m m') :
    integral F (fun k => Euler.density ((m' old).U k)) = integral F (fun k => Euler.density ((m old).U k)) ∧
    integral F (fun k => Euler.totalEnergy ((m' old).U k)) = integral F (fun k => Euler.totalEnergy ((m old).U k)) := by
  have hM := C87_assembled_wellFormed hP.conforming ip below skip boundary hasymm hskip
  simp only [integral_eq hP.consistent]
  refine Integrator.C93_euler_run_walls p lp big' big riem ind lim (assembled F ip below skip boundary) hM
    (assembled_symmetric hP.consistent hP.conforming ip below skip boundary hP.integrals hP.weights hP.covered) hP.stencils
    (fun _ _ => .of_one_rank hM hone) (C87_assembled_rowSum hP.consistent ip below skip boundary) data map hwall ?_ par lo garbage
    sch hsch rec cflMin cflMax ok m m' h
  intro k v hv
  refine BoundaryMap.C93_boundary_map hP.consistent hP.conforming ip below skip boundary id position cells hn hall hP.boundary eps
    heps k (hac k) v fun d hd => ?_
  obtain ⟨e, he, hi, ⟨a, hnm⟩, hid⟩ := hmap k d hd
  rw [hnm, dot_smul_right']
  rcases hid with hid | hid
  · rw [(hv e he hi).1 hid, mul_zero]
  · rw [(hv e he hi).2 hid]; simp [dot]

/-- **C93 (Euler on assembled meshes, flat walls).** If all boundary faces in the support of a degree of freedom are parallel to
walls of the boundary map, this holds for all explicit schemes. -/
theorem C93_assembled_euler_flat_walls [Fintype κ] (hP : BoundedSpace F)
    (ip : IncidenceParams) (below skip : Dof F → Dof F → Prop) (boundary : Dof F → Prop)
    (hasymm : ∀ i j, below i j → ¬ below j i) (hskip : ∀ i j, skip i j → below i j)
    (hone : ∀ i, ∀ j ∈ stencil F i, below i j ∨ below j i)
    (p : Euler.Params) (lp : LimiterParams) (big' : ℝ) (riem : Dof F → Dof F → Euler.State dim → Euler.State dim → Vec dim → ℝ)
    (ind : Euler.State dim → List (Euler.State dim × Vec dim) → ℝ → ℝ)
    (lim : Dof F → Dof F → Euler.Bounds → Euler.State dim → Euler.State dim → ℝ × Prop)
    (data : Vec dim → ℝ → Euler.State dim) (map : List (Prepare.Entry (Dof F) Euler.Boundary dim))
    (hwall : ∀ j, Prepare.WallNode (Prepare.euler (dim := dim) p) .slip .noSlip (Prepare.entriesAt map j))
    (hflat : ∀ (k : Dof F) K f, F.neighbor K f = none → ∀ q, basisTrace F k K f q ≠ 0 →
      ∃ e ∈ map, e.i = k ∧ (∃ a : ℝ, F.normal K f q = a • e.normal) ∧ (e.id = .slip ∨ e.id = .noSlip))
    (par : Hyp.Params) (big : ℝ) (lo : ℕ → Hyp.Leftover (Dof F) (Euler.State dim)) (garbage : ℕ → Dof F → Euler.State dim)
    (sch : Scheme) (rec : Recovery) (cflMin cflMax : ℝ)
    (ok : Ctx → (Dof F → Euler.State dim) → Prop) (m m' : Mem (Dof F → Euler.State dim) Unit)
    (h : Run (hyperbolicModules (Euler.description p lp big' riem ind lim) (assembled F ip below skip boundary) par big
      (passBc (Prepare.euler p) data map) (fun _ => ()) lo garbage fun _ _ _ _ _ _ => .crash) sch rec cflMin cflMax ok m m') :
    integral F (fun k => Euler.density ((m' old).U k)) = integral F (fun k => Euler.density ((m old).U k)) ∧
    integral F (fun k => Euler.totalEnergy ((m' old).U k)) = integral F (fun k => Euler.totalEnergy ((m old).U k)) := by
  have hM := C87_assembled_wellFormed hP.conforming ip below skip boundary hasymm hskip
  simp only [integral_eq hP.consistent]
  refine Integrator.C93_euler_run_flat_walls p lp big' big riem ind lim (assembled F ip below skip boundary) hM
    (assembled_symmetric hP.consistent hP.conforming ip below skip boundary hP.integrals hP.weights hP.covered) hP.stencils
    (fun _ _ => .of_one_rank hM hone) data map hwall ?_ par lo garbage sch rec cflMin cflMax ok m m' h
  intro k v hv l _
  refine C93_assembled_flat hP.conforming (k : Fin n) (l : Fin n) v fun K f hf q hb => ?_
  obtain ⟨e, he, hi, ⟨a, ha⟩, hid⟩ := hflat k K f hf q hb
  rw [ha, dot_smul_right']
  rcases hid with hid | hid
  · rw [(hv e he hi).1 hid, mul_zero]
  · rw [(hv e he hi).2 hid]; simp [dot]

/-- The entries `c_ij` of an assembled mesh are antisymmetric unless both degrees of freedom are at the boundary. -/
theorem assembled_skew [Fintype κ] (hG : F.Conforming) (ip : IncidenceParams) (below skip : Dof F → Dof F → Prop)
    (boundary : Dof F → Prop) (hb : ∀ k : Dof F, ¬ boundary k → Interior F k) (i j : Dof F)
    (hij : ¬ (boundary i ∧ boundary j)) :
    (assembled F ip below skip boundary).c j i = -(assembled F ip below skip boundary).c i j := by
  refine C87_skew hG (i : Fin n) j ?_
  rcases not_and_or.1 hij with h | h
  · exact Or.inl (hb i h)
  · exact Or.inr (hb j h)

/-- **C90 (maximum principle on assembled meshes).** On every conforming mesh, with the matrices assembled by `OfflineData` and the
degrees of freedom whose basis functions do not vanish on the boundary marked as boundary degrees of freedom, scalar values never
leave an interval that contains the initial values and the boundary data. -/
theorem C90_assembled_scalar [Fintype κ] (hG : F.Conforming)
    (ip : IncidenceParams) (below skip : Dof F → Dof F → Prop) (boundary : Dof F → Prop)
    (hasymm : ∀ i j, below i j → ¬ below j i) (hskip : ∀ i j, skip i j → below i j)
    (hbound : ∀ k : Dof F, ¬ boundary k → Interior F k)
    (fl : Scalar.Flux dim) (q : Scalar.StepParams) (draws : Dof F → Dof F → List ℝ)
    (lim : Dof F → Dof F → Scalar.Bounds → Scalar.State → Scalar.State → ℝ × Prop)
    (hlim : ∀ i j b U P, IsLaneOf (fun _ => Scalar.limit q.eps q.tiny) b U P (lim i j b U P)) (par : Hyp.Params)
    (hrelax : q.relaxation_factor = 0) (heps : q.eps = 0) (hqt : 0 < q.tiny) (ht : 0 < par.tiny)
    (hn0 : par.iterations ≠ 0) (hn : par.iterations ≤ 2)
    (hrev : ∀ i j, draws j i = (draws i j).map (1 - ·))
    (hroe : ∀ i j u v n, |(∑ k, fl.value u k * n k) - ∑ k, fl.value v k * n k|
      ≤ Scalar.riemann fl q.rp (draws i j) u v n * |u - v|)
    (a b : ℝ) (ha : |a| ≤ q.big) (hb : |b| ≤ q.big)
    (data : Vec dim → ℝ → Scalar.State) (map : List (Prepare.Entry (Dof F) Scalar.Boundary dim))
    (hdata : ∀ e ∈ map, ∀ t, a ≤ Scalar.state (data e.position t) ∧ Scalar.state (data e.position t) ≤ b)
    (big : ℝ) (lo : ℕ → Hyp.Leftover (Dof F) Scalar.State) (garbage : ℕ → Dof F → Scalar.State)
    (parabolic : Ctx → ℕ → (Dof F → Scalar.State) → ℝ → (Dof F → Scalar.State) → ℝ → Res (Dof F → Scalar.State))
    (sch : Scheme) (hsch : schemeAccepted true sch) (rec : Recovery) (cflMin cflMax : ℝ) (m m' : Mem (Dof F → Scalar.State) Unit)
    (h : Run (hyperbolicModules (Scalar.description fl q draws lim) (assembled F ip below skip boundary) par big
      (passBc Prepare.scalar data map) (fun _ => ()) lo garbage parabolic) sch rec cflMin cflMax
      (fun ctx _ => ctx.hyp = .raise_exception) m m')
    (h0 : ∀ k, a ≤ Scalar.state ((m old).U k) ∧ Scalar.state ((m old).U k) ≤ b) (k : Dof F) (hk : stencil F k ≠ []) :
    a ≤ Scalar.state ((m' old).U k) ∧ Scalar.state ((m' old).U k) ≤ b :=
  Scalar.C90_scalar_run fl q draws lim hlim (assembled F ip below skip boundary)
    (C87_assembled_wellFormed hG ip below skip boundary hasymm hskip) par hrelax heps hqt ht hn0 hn hrev
    (fun i j _ hij => assembled_skew hG ip below skip boundary hbound i j hij) hroe a b ha hb data map hdata big lo garbage parabolic
    sch hsch rec cflMin cflMax m m' h (fun i _ => h0 i) k hk

/-- **C90 (water depth on assembled meshes).** Nonnegative depths stay nonnegative over complete runs with forward Euler steps. -/
theorem C90_assembled_depth [Fintype κ] (hP : BoundedSpace F)
    (ip : IncidenceParams) (below skip : Dof F → Dof F → Prop) (boundary : Dof F → Prop)
    (hasymm : ∀ i j, below i j → ¬ below j i) (hskip : ∀ i j, skip i j → below i j)
    (hbound : ∀ k : Dof F, ¬ boundary k → Interior F k)
    (q : ShallowWater.StepParams) (Z : Dof F → ℝ)
    (lim : Dof F → Dof F → ShallowWater.Bounds → ShallowWater.State dim → ShallowWater.State dim → ℝ × Prop)
    (hlim : ∀ i j b U V, IsLaneOf (fun _ => ShallowWater.limit q.p q.lp) b U V (lim i j b U V)) (par : Hyp.Params)
    (ht : 0 < par.tiny) (hcfl : par.cfl ≤ 1) (hn : par.iterations ≤ 2) (hcut : 0 < ShallowWater.cutoffSharp q.p)
    (heps : 0 ≤ q.p.eps) (htiny : 0 ≤ q.p.tiny) (hrelax : 0 ≤ q.lp.relaxation_factor)
    (hdry : 0 ≤ q.p.reference_water_depth * q.p.dry_state_relaxation_factor) (hg : 0 ≤ q.p.gravity)
    (hthr : 10 * ShallowWater.cutoffSharp q.p ≤ ShallowWater.cutoffMollified q.p)
    (data : Vec dim → ℝ → ShallowWater.State dim) (map : List (Prepare.Entry (Dof F) ShallowWater.Boundary dim))
    (hdata : ∀ e ∈ map, ∀ t, 0 ≤ ShallowWater.waterDepth (data e.position t))
    (big : ℝ) (lo : ℕ → Hyp.Leftover (Dof F) (ShallowWater.State dim)) (garbage : ℕ → Dof F → ShallowWater.State dim)
    (parabolic : Ctx → ℕ → (Dof F → ShallowWater.State dim) → ℝ → (Dof F → ShallowWater.State dim) → ℝ →
      Res (Dof F → ShallowWater.State dim))
    (rec : Recovery) (cflMin cflMax : ℝ) (m m' : Mem (Dof F → ShallowWater.State dim) Unit)
    (h : Run (hyperbolicModules (ShallowWater.description q Z lim) (assembled F ip below skip boundary) par big
      (passBc (Prepare.shallowWater q.p) data map) (fun _ => ()) lo garbage parabolic) .erk_11 rec cflMin cflMax
      (fun ctx _ => ctx.cfl ≤ 9 / 10) m m')
    (h0 : ∀ k, 0 ≤ ShallowWater.waterDepth ((m old).U k)) (k : Dof F) : 0 ≤ ShallowWater.waterDepth ((m' old).U k) := by
  have hmass : ∀ k : Dof F, 0 < lumpedMass F k := fun k => C87_lumped_pos hP.consistent hP.integrals hP.weights k (hP.covered k)
  refine ShallowWater.C90_sw_run_depth q Z lim hlim (assembled F ip below skip boundary) par
    { wf := C87_assembled_wellFormed hP.conforming ip below skip boundary hasymm hskip
      skew := fun i j _ hij => assembled_skew hP.conforming ip below skip boundary hbound i j hij
      mass := hmass
      omega := ?_
      rowSum := fun i _ => C87_assembled_rowSum hP.consistent ip below skip boundary i
      tiny := ht, cfl := hcfl, passes := hn, cutoff := hcut, eps := heps, ptiny := htiny, relaxation := hrelax, dry := hdry }
    hg hthr data map hdata big lo garbage parabolic rec cflMin cflMax m m' h (fun i _ => h0 i) k (hP.stencils k)
  show 0 ≤ measure F
  rw [← C87_total_mass hP.consistent]
  exact Finset.sum_nonneg fun k _ => (hmass k).le

/-- **C92 (Euler on assembled meshes).** On every mesh with any boundary and with the matrices assembled by `OfflineData`, density
and internal energy stay positive over complete runs with forward Euler steps, and without relaxation the specific entropy never
falls below the smallest initial or boundary one.  Missing: as in `C92_euler_run_partial`. -/
theorem C92_assembled_euler_partial [Fintype κ] (hP : BoundedSpace F)
    (ip : IncidenceParams) (below skip : Dof F → Dof F → Prop) (boundary : Dof F → Prop)
    (hasymm : ∀ i j, below i j → ¬ below j i) (hskip : ∀ i j, skip i j → below i j)
    (hbound : ∀ k : Dof F, ¬ boundary k → Interior F k)
    (p : Euler.Params) (lp : LimiterParams) (big : ℝ) (rp : Euler.RiemannParams)
    (riem : Dof F → Dof F → Euler.State dim → Euler.State dim → Vec dim → ℝ)
    (ind : Euler.State dim → List (Euler.State dim × Vec dim) → ℝ → ℝ)
    (lim : Dof F → Dof F → Euler.Bounds → Euler.State dim → Euler.State dim → ℝ × Prop) (par : Hyp.Params)
    (hg : 1 < p.gamma) (heps : p.eps = 0) (hriem : ∀ i j U V n, Euler.IsRiemannLane p rp U V n (riem i j U V n))
    (hlim : ∀ i j b U P, IsLaneOf (fun _ => Euler.limit p lp) b U P (lim i j b U P)) (ht : 0 < par.tiny)
    (hf : 0 ≤ lp.relaxation_factor) (hbig : 0 < big) (hn : par.iterations ≤ 2) (r : ℝ) (hr1 : r < 1)
    (hr : ∀ k : Dof F, Euler.relaxationRadius dim lp.relaxation_factor (lumpedMass F k * (1 / measure F)) ≤ r)
    (bc : ℝ → (Dof F → Euler.State dim) → Dof F → Euler.State dim)
    (lo : ℕ → Hyp.Leftover (Dof F) (Euler.State dim)) (garbage : ℕ → Dof F → Euler.State dim)
    (parabolic : Ctx → ℕ → (Dof F → Euler.State dim) → ℝ → (Dof F → Euler.State dim) → ℝ → Res (Dof F → Euler.State dim))
    (bigTau : ℝ) (σ : ℝ) (hsb : σ ≤ big) (hsr : σ = 0 ∨ r = 0)
    (hbc : ∀ t u, (∀ i, Euler.Admissible (u i) ∧ σ ≤ Euler.specificEntropy p (u i)) →
      ∀ i, Euler.Admissible (bc t u i) ∧ σ ≤ Euler.specificEntropy p (bc t u i))
    (rec : Recovery) (cflMin cflMax : ℝ) (m m' : Mem (Dof F → Euler.State dim) Unit)
    (h : Run (hyperbolicModules (Euler.description p lp big riem ind lim) (assembled F ip below skip boundary) par bigTau bc
      (fun _ => ()) lo garbage parabolic) .erk_11 rec cflMin cflMax (fun ctx u => ctx.cfl ≤ 1 ∧ ∀ n, ∀ i, ∀ j ∈ stencil F i,
        (100 * par.tiny ≤ Hyp.dOff (Euler.description p lp big riem ind lim) (assembled F ip below skip boundary) (lo n).dij ⟨u, ()⟩ i j ∨
          ((assembled F ip below skip boundary).c i j = 0 ∧
            Hyp.dOff (Euler.description p lp big riem ind lim) (assembled F ip below skip boundary) (lo n).dij ⟨u, ()⟩ i j = 0)) ∧
        ((assembled F ip below skip boundary).c i j ≠ 0 → Euler.Dominates p (u i) (u j)
          (fun d => (assembled F ip below skip boundary).c i j d / vnorm ((assembled F ip below skip boundary).c i j))
          (riem i j (u i) (u j)
            (fun d => (assembled F ip below skip boundary).c i j d / vnorm ((assembled F ip below skip boundary).c i j))))) m m')
    (h0 : ∀ k, Euler.Admissible ((m old).U k) ∧ σ ≤ Euler.specificEntropy p ((m old).U k)) (k : Dof F) :
    Euler.Admissible ((m' old).U k) ∧ σ ≤ Euler.specificEntropy p ((m' old).U k) :=
  Euler.C92_euler_run_partial p lp big rp riem ind lim (assembled F ip below skip boundary) par hg heps hriem hlim
    (C87_assembled_wellFormed hP.conforming ip below skip boundary hasymm hskip)
    (fun i j _ hij => assembled_skew hP.conforming ip below skip boundary hbound i j hij)
    (fun k => C87_lumped_pos hP.consistent hP.integrals hP.weights k (hP.covered k))
    (fun i => C87_assembled_rowSum hP.consistent ip below skip boundary i) ht hP.stencils hf hbig hn r hr1 hr bc lo garbage
    parabolic bigTau σ hsb hsr hbc rec cflMin cflMax m m' h h0 k

/-! ### A concrete case: linear elements on a periodic interval -/

theorem ringFe_stencil (k : Dof ringFe) : stencil ringFe k ≠ [] := by
  have hmem : ∀ k l : Dof ringFe, l ≠ k → (∃ K i j, ringFe.dofs K i = k ∧ ringFe.dofs K j = l) → stencil ringFe k ≠ [] := by
    rintro k l hne ⟨K, i, j, hi, hj⟩
    refine List.ne_nil_of_mem (a := l) (mem_stencil.2 ⟨hne, Or.inl ⟨K, i, j, trivial, trivial, ?_, ?_⟩⟩)
    · rw [hi]; unfold expand; rw [if_neg k.2, if_pos rfl]; exact one_ne_zero
    · rw [hj]; unfold expand; rw [if_neg l.2, if_pos rfl]; exact one_ne_zero
  obtain ⟨k, hk⟩ := k
  have hk' : k ≠ 3 := hk
  have h1 : ¬ ringFe.constrained 1 := by simp [ringFe]
  have h0 : ¬ ringFe.constrained 0 := by simp [ringFe]
  fin_cases k
  · exact hmem _ ⟨1, h1⟩ (by simp) ⟨0, 0, 1, rfl, rfl⟩
  · exact hmem _ ⟨0, h0⟩ (by simp) ⟨0, 1, 0, rfl, rfl⟩
  · exact hmem _ ⟨1, h1⟩ (by simp) ⟨1, 1, 0, rfl, rfl⟩
  · exact absurd rfl hk'

theorem ringFe_periodic : PeriodicSpace ringFe where
  consistent := ringFe_consistent
  conforming := ringFe_conforming
  noBoundary := fun K f => by fin_cases K <;> fin_cases f <;> rfl
  integrals := by intro K i; fin_cases i <;> norm_num [ringFe, Fin.sum_univ_three]
  weights := by
    intro i k _
    show (0 : ℝ) ≤ if k = 0 then 1 else 0
    split_ifs <;> norm_num
  covered := by
    rintro ⟨k, hk⟩
    have hk' : k ≠ 3 := hk
    fin_cases k
    · exact ⟨0, 0, rfl⟩
    · exact ⟨1, 0, rfl⟩
    · exact ⟨2, 0, rfl⟩
    · exact absurd rfl hk'
  stencils := ringFe_stencil

/-- A step of any gas on the assembled ring returns and conserves the integral of the density. -/
example (lo : ℕ → Hyp.Leftover (Dof ringFe) (Euler.State 1)) (garbage : ℕ → Dof ringFe → Euler.State 1)
    (riem : Dof ringFe → Dof ringFe → Euler.State 1 → Euler.State 1 → Vec 1 → ℝ)
    (lim : Dof ringFe → Dof ringFe → Euler.Bounds → Euler.State 1 → Euler.State 1 → ℝ × Prop)
    (m : Mem (Dof ringFe → Euler.State 1) Unit) : ∃ m',
    Run (hyperbolicModules (Euler.description Euler.air Euler.ringLp 1000 riem (fun _ _ _ => 1) lim)
      (assembled ringFe ⟨1, 1, false, 0⟩ (fun i j => j.1 < i.1) (fun _ _ => False) (fun _ => False)) Hyp.demoPar 1000
      (fun _ u => u) (fun _ => ()) lo garbage fun _ _ _ _ _ _ => .crash) .erk_11 .none 1 1 (fun _ _ => True) m m' ∧
    integral ringFe (fun k => Euler.density ((m' old).U k)) = integral ringFe (fun k => Euler.density ((m old).U k)) := by
  set M := assembled ringFe ⟨1, 1, false, 0⟩ (fun i j => j.1 < i.1) (fun _ _ => False) (fun _ => False) with hM
  set D := Euler.description Euler.air Euler.ringLp 1000 riem (fun _ _ _ => 1) lim with hD
  have hC : M.Closed := C87_assembled_closed ringFe_consistent ringFe_conforming ringFe_periodic.noBoundary _ _ _ _
    ringFe_periodic.integrals ringFe_periodic.weights ringFe_periodic.covered
  set Mo := hyperbolicModules D M Hyp.demoPar 1000 (fun _ u => u) (fun _ => ()) lo garbage (fun _ _ _ _ _ _ => .crash) with hMo
  obtain ⟨U, t, h⟩ := Hyp.C18_warn_returns D M ⟨1 / 2, Hyp.demoPar.tiny, Hyp.demoPar.iterations⟩ ⟨0, 0⟩
    { lo 0 with newU := (m (temp 0)).U } ⟨(m old).U, ()⟩ [] 0 10
    (Hyp.C11_step_tau D M ⟨1 / 2, Hyp.demoPar.tiny, Hyp.demoPar.iterations⟩ .warn ⟨0, 0⟩
      { lo 0 with newU := (m (temp 0)).U } ⟨(m old).U, ()⟩ [] 0 10
      (by norm_num [Hyp.demoPar]) (by norm_num) hC.lumped (by norm_num)).1
  have hup : Mo.hyp ⟨1 / 2, .warn, .warn⟩ 0 ⟨Mo.bc 0 (m old).U, Mo.pre (Mo.bc 0 (m old).U)⟩ [] (m (temp 0)).U 0
      (some (10 - 0)) = .ok U t := by
    simp only [hMo, hyperbolicModules] at h ⊢
    simp only [sub_zero, Option.getD_some, List.map_nil, h]
  obtain ⟨m', hrun, -⟩ := Integrator.run_of_update (ok := fun _ _ => True) 1 1 hup (fun _ _ => trivial)
  refine ⟨m', hrun, ?_⟩
  have hone : ∀ i, ∀ j ∈ stencil ringFe i, j.1 < i.1 ∨ i.1 < j.1 := fun i j hj =>
    lt_or_gt_of_ne fun h => (mem_stencil.1 hj).1 (Subtype.ext h)
  exact (C90_assembled_euler ringFe_periodic ⟨1, 1, false, 0⟩ (fun i j => j.1 < i.1) (fun _ _ => False) (fun _ => False)
    (fun _ _ h h' => lt_asymm h h') (fun _ _ h => h.elim) hone Euler.air Euler.ringLp 1000 riem (fun _ _ _ => 1) lim Hyp.demoPar
    1000 lo garbage .erk_11 .none 1 1 (fun _ _ => True) m m' hrun).1

/-- The hypotheses of C103 for discontinuous elements on an interval with two boundary points. -/
example (m m' : Mem (Dof intervalFe → Euler.State 1) Unit) (lo : ℕ → Hyp.Leftover (Dof intervalFe) (Euler.State 1))
    (garbage : ℕ → Dof intervalFe → Euler.State 1) (rec : Recovery)
    (h : Run (hyperbolicModules (Euler.description Euler.air Euler.ringLp 1000 (fun _ _ _ _ _ => 1) (fun _ _ _ => 1)
      fun _ _ _ _ _ => (1, True)) (assembled intervalFe ⟨1, 1, false, 0⟩ (fun i j => j.1 < i.1) (fun _ _ => False) (fun _ => True))
      Hyp.demoPar 1000 (passBc (Prepare.euler Euler.air) (fun _ _ => Euler.mkState 1 (fun _ => 3) 7)
        [⟨⟨0, id⟩, fun _ => -1, .dirichlet, 0⟩, ⟨⟨3, id⟩, fun _ => 1, .dynamic, 0⟩]) (fun _ => ()) lo garbage
      fun _ _ _ _ _ _ => .crash) .erk_33 rec 1 1 (fun _ _ => True) m m')
    (h0 : ∀ k, (m old).U k = Euler.mkState 1 (fun _ => 3) 7) (k : Dof intervalFe) (hk : stencil intervalFe k ≠ []) :
    (m' old).U k = Euler.mkState 1 (fun _ => 3) 7 := by
  refine C103_assembled_euler intervalFe_consistent intervalFe_conforming _ _ _ _ (fun _ _ h h' => lt_asymm h h')
    (fun _ _ h => h.elim) Euler.air (by norm_num [Euler.air]) _ _ _ _ _ _ (Euler.mkState 1 (fun _ => 3) 7) (by simp) ?_ _ _ ?_ 1000 lo
    garbage _ .erk_33 rfl rec 1 1 m m' h h0 k hk
  · rw [Euler.pressure_eq]
    simp only [Euler.totalEnergy_mkState, Euler.momentum_mkState, Euler.density_mkState]
    norm_num [Euler.air, normSq]
  · intro e he
    simp only [List.mem_cons, List.not_mem_nil, or_false] at he
    rcases he with rfl | rfl <;> exact ⟨fun _ => rfl, by norm_num [normSq], by rintro ⟨⟩, by rintro ⟨⟩⟩

theorem intervalFe_free (k : Fin 4) : ¬ intervalFe.constrained k := fun h => h

theorem intervalFe_bounded : BoundedSpace intervalFe where
  consistent := intervalFe_consistent
  conforming := intervalFe_conforming
  integrals := by intro K i; fin_cases i <;> norm_num [intervalFe, Fin.sum_univ_three]
  weights := fun _ _ h => h.elim
  covered := by
    rintro ⟨k, hk⟩
    fin_cases k
    · exact ⟨0, 0, rfl⟩
    · exact ⟨0, 1, rfl⟩
    · exact ⟨1, 0, rfl⟩
    · exact ⟨1, 1, rfl⟩
  stencils := by
    have hmem : ∀ k l : Dof intervalFe, l ≠ k → (∃ K i j, intervalFe.dofs K i = k ∧ intervalFe.dofs K j = l) →
        stencil intervalFe k ≠ [] := by
      rintro k l hne ⟨K, i, j, hi, hj⟩
      refine List.ne_nil_of_mem (a := l) (mem_stencil.2 ⟨hne, Or.inl ⟨K, i, j, trivial, trivial, ?_, ?_⟩⟩)
      · rw [hi]; unfold expand; rw [if_neg k.2, if_pos rfl]; exact one_ne_zero
      · rw [hj]; unfold expand; rw [if_neg l.2, if_pos rfl]; exact one_ne_zero
    rintro ⟨k, hk⟩
    fin_cases k
    · exact hmem _ ⟨1, intervalFe_free 1⟩ (by simp) ⟨0, 0, 1, rfl, rfl⟩
    · exact hmem _ ⟨0, intervalFe_free 0⟩ (by simp) ⟨0, 1, 0, rfl, rfl⟩
    · exact hmem _ ⟨3, intervalFe_free 3⟩ (by simp) ⟨1, 0, 1, rfl, rfl⟩
    · exact hmem _ ⟨2, intervalFe_free 2⟩ (by simp) ⟨1, 1, 0, rfl, rfl⟩
  boundary := fun _ _ _ _ _ h => h

/-- Slip walls at both ends of the interval. -/
def intervalWalls : List (Prepare.Entry (Dof intervalFe) Euler.Boundary 1) :=
  [⟨⟨0, intervalFe_free 0⟩, fun _ => -1, .slip, 0⟩, ⟨⟨3, intervalFe_free 3⟩, fun _ => 1, .slip, fun _ => 2⟩]

theorem intervalWalls_wall (p : Euler.Params) (j : Dof intervalFe) :
    Prepare.WallNode (Prepare.euler (dim := 1) p) .slip .noSlip (Prepare.entriesAt intervalWalls j) := by
  refine ⟨fun e he => ?_, fun e he _ => ?_, fun e he e' he' _ _ => ?_⟩ <;>
    simp only [Prepare.entriesAt, intervalWalls, List.mem_filter, List.mem_cons, List.not_mem_nil, or_false, decide_eq_true_eq] at *
  · rcases he.1 with h | h <;> simp [h]
  · rcases he.1 with h | h <;> simp [h, normSq]
  · obtain ⟨h1 | h1, rfl⟩ := he <;> obtain ⟨h2 | h2, h3⟩ := he' <;> subst h1 <;> subst h2 <;> simp_all

/-- Any gas between slip walls, discontinuous elements, any explicit scheme. -/
example (m m' : Mem (Dof intervalFe → Euler.State 1) Unit) (lo : ℕ → Hyp.Leftover (Dof intervalFe) (Euler.State 1))
    (garbage : ℕ → Dof intervalFe → Euler.State 1) (data : Vec 1 → ℝ → Euler.State 1) (sch : Scheme) (rec : Recovery)
    (riem : Dof intervalFe → Dof intervalFe → Euler.State 1 → Euler.State 1 → Vec 1 → ℝ)
    (lim : Dof intervalFe → Dof intervalFe → Euler.Bounds → Euler.State 1 → Euler.State 1 → ℝ × Prop)
    (h : Run (hyperbolicModules (Euler.description Euler.air Euler.ringLp 1000 riem (fun _ _ _ => 1) lim)
      (assembled intervalFe ⟨1, 1, false, 0⟩ (fun i j => j.1 < i.1) (fun _ _ => False) (fun _ => True)) Hyp.demoPar 1000
      (passBc (Prepare.euler Euler.air) data intervalWalls) (fun _ => ()) lo garbage fun _ _ _ _ _ _ => .crash)
      sch rec 1 1 (fun _ _ => True) m m') :
    integral intervalFe (fun k => Euler.totalEnergy ((m' old).U k)) = integral intervalFe (fun k => Euler.totalEnergy ((m old).U k)) := by
  have hone : ∀ i, ∀ j ∈ stencil intervalFe i, j.1 < i.1 ∨ i.1 < j.1 := fun i j hj =>
    lt_or_gt_of_ne fun h => (mem_stencil.1 hj).1 (Subtype.ext h)
  refine (C93_assembled_euler_flat_walls intervalFe_bounded ⟨1, 1, false, 0⟩ (fun i j => j.1 < i.1) (fun _ _ => False)
    (fun _ => True) (fun _ _ h h' => lt_asymm h h') (fun _ _ h => h.elim) hone Euler.air Euler.ringLp 1000 riem (fun _ _ _ => 1) lim
    data intervalWalls (intervalWalls_wall _) ?_ Hyp.demoPar 1000 lo garbage sch rec 1 1 (fun _ _ => True) m m' h).2
  rintro ⟨k, hk⟩ K f hf q hb
  fin_cases K <;> fin_cases f <;> simp [intervalFe] at hf
  · have : k = 0 := by
      by_contra hne
      apply hb
      fin_cases k <;> simp [basisTrace, expand, intervalFe, Fin.sum_univ_two] at hne ⊢
    subst this
    exact ⟨_, List.mem_cons_self, rfl, ⟨1, by funext d; simp [intervalFe]⟩, Or.inl rfl⟩
  · have : k = 3 := by
      by_contra hne
      apply hb
      fin_cases k <;> simp [basisTrace, expand, intervalFe, Fin.sum_univ_two] at hne ⊢
    subst this
    exact ⟨_, List.mem_cons_of_mem _ List.mem_cons_self, rfl, ⟨1, by funext d; simp [intervalFe]⟩, Or.inl rfl⟩

/-- The same with the boundary map that `OfflineData` builds, for the schemes without stages. -/
example (m m' : Mem (Dof intervalFe → Euler.State 1) Unit) (lo : ℕ → Hyp.Leftover (Dof intervalFe) (Euler.State 1))
    (garbage : ℕ → Dof intervalFe → Euler.State 1) (data : Vec 1 → ℝ → Euler.State 1) (rec : Recovery)
    (position : Fin 2 → Fin 2 → Vec 1) (id : Fin 2 → Fin 2 → ℕ)
    (riem : Dof intervalFe → Dof intervalFe → Euler.State 1 → Euler.State 1 → Vec 1 → ℝ)
    (lim : Dof intervalFe → Dof intervalFe → Euler.Bounds → Euler.State 1 → Euler.State 1 → ℝ × Prop)
    (h : Run (hyperbolicModules (Euler.description Euler.air Euler.ringLp 1000 riem (fun _ _ _ => 1) lim)
      (assembled intervalFe ⟨1, 1, false, 0⟩ (fun i j => j.1 < i.1) (fun _ _ => False) (fun _ => True)) Hyp.demoPar 1000
      (passBc (Prepare.euler Euler.air) data intervalWalls) (fun _ => ()) lo garbage fun _ _ _ _ _ _ => .crash)
      .erk_11 rec 1 1 (fun _ _ => True) m m') :
    integral intervalFe (fun k => Euler.density ((m' old).U k)) = integral intervalFe (fun k => Euler.density ((m old).U k)) := by
  have hone : ∀ i, ∀ j ∈ stencil intervalFe i, j.1 < i.1 ∨ i.1 < j.1 := fun i j hj =>
    lt_or_gt_of_ne fun h => (mem_stencil.1 hj).1 (Subtype.ext h)
  have hcontr : ∀ k : ℕ, (BoundaryMap.entriesAt k (BoundaryMap.contributions intervalFe id position [0, 1])).length ≤ 1 ∧
      (k ≠ 0 → k ≠ 3 → BoundaryMap.entriesAt k (BoundaryMap.contributions intervalFe id position [0, 1]) = []) := by
    intro k
    have e : BoundaryMap.contributions intervalFe id position [0, 1] =
        [(0, BoundaryMap.faceData intervalFe id position 0 0 0), (3, BoundaryMap.faceData intervalFe id position 1 1 1)] := by
      simp [BoundaryMap.contributions, BoundaryMap.faceContributions, List.finRange_succ, intervalFe]
    rw [e]
    by_cases h0 : k = 0
    · subst h0; simp [BoundaryMap.entriesAt]
    · by_cases h3 : k = 3
      · subst h3; simp [BoundaryMap.entriesAt]
      · have h0' : ¬ 0 = k := fun h => h0 h.symm
        have h3' : ¬ 3 = k := fun h => h3 h.symm
        simp [BoundaryMap.entriesAt, h0', h3']
  refine (C93_assembled_euler_walls intervalFe_bounded ⟨1, 1, false, 0⟩ (fun i j => j.1 < i.1) (fun _ _ => False)
    (fun _ => True) (fun _ _ h h' => lt_asymm h h') (fun _ _ h => h.elim) hone Euler.air Euler.ringLp 1000 riem (fun _ _ _ => 1) lim
    id position [0, 1] (by simp) (fun K => by fin_cases K <;> simp) 0 le_rfl (fun k => ?_) data intervalWalls (fun k d hd => ?_)
    (intervalWalls_wall _) Hyp.demoPar 1000 lo garbage .erk_11 (Or.inl rfl) rec 1 1 (fun _ _ => True) m m' h).1
  · have := (hcontr k.1.val).1
    match hl : BoundaryMap.entriesAt k.1.val (BoundaryMap.contributions intervalFe id position [0, 1]), this with
    | [], _ => exact List.Pairwise.nil
    | [_], _ => exact List.pairwise_singleton _ _
    | _ :: _ :: _, this => simp at this
  · obtain ⟨k, hk⟩ := k
    have hne : k = 0 ∨ k = 3 := by
      by_contra hcon
      push Not at hcon
      have hem := (hcontr k.val).2 (fun h => hcon.1 (Fin.ext h)) (fun h => hcon.2 (Fin.ext h))
      exact (BoundaryMap.C48_nonempty 0 _ k.val).1 (List.ne_nil_of_mem hd) hem
    rcases hne with rfl | rfl
    · exact ⟨_, List.mem_cons_self, rfl, ⟨-d.normal 0, by funext i; rw [Subsingleton.elim i 0]; simp⟩, Or.inl rfl⟩
    · exact ⟨_, List.mem_cons_of_mem _ List.mem_cons_self, rfl, ⟨d.normal 0, by funext i; rw [Subsingleton.elim i 0]; simp⟩,
        Or.inl rfl⟩

/-- Burgers' equation on the interval with inflow data between `1` and `3`. -/
example (m m' : Mem (Dof intervalFe → Scalar.State) Unit) (lo : ℕ → Hyp.Leftover (Dof intervalFe) Scalar.State)
    (garbage : ℕ → Dof intervalFe → Scalar.State) (rec : Recovery)
    (h : Run (hyperbolicModules (Scalar.description (Scalar.burgers 1 (1 / 1000)) ⟨⟨false, false⟩, 1, 0, 1 / 1000, 100, 0⟩
      (fun _ _ => []) fun _ _ b U P => (Scalar.limitLane 0 (1 / 1000) b U P 0 1, Scalar.inBounds 0 b (Scalar.state U)))
      (assembled intervalFe ⟨1, 1, false, 0⟩ (fun i j => j.1 < i.1) (fun _ _ => False) (fun _ => True)) Hyp.demoPar 1000
      (passBc (dim := 1) Prepare.scalar (fun _ _ _ => 2) [⟨⟨0, intervalFe_free 0⟩, fun _ => -1, .dirichlet, 0⟩]) (fun _ => ()) lo garbage
      fun _ _ _ _ _ _ => .crash) .erk_33 rec 1 1 (fun ctx _ => ctx.hyp = .raise_exception) m m')
    (h0 : ∀ k, 1 ≤ Scalar.state ((m old).U k) ∧ Scalar.state ((m old).U k) ≤ 3) (k : Dof intervalFe) :
    1 ≤ Scalar.state ((m' old).U k) ∧ Scalar.state ((m' old).U k) ≤ 3 :=
  C90_assembled_scalar intervalFe_conforming ⟨1, 1, false, 0⟩ (fun i j => j.1 < i.1) (fun _ _ => False) (fun _ => True)
    (fun _ _ h h' => lt_asymm h h') (fun _ _ h => h.elim) (fun _ h => absurd trivial h) (Scalar.burgers 1 (1 / 1000))
    ⟨⟨false, false⟩, 1, 0, 1 / 1000, 100, 0⟩ (fun _ _ => []) _
    (fun i j b U P => ⟨1, fun _ => b, fun _ => U, fun _ => P, 0, rfl, rfl, rfl, by simp [Scalar.limit]⟩) Hyp.demoPar rfl rfl
    (by norm_num) (by norm_num [Hyp.demoPar]) (by norm_num [Hyp.demoPar]) (by norm_num [Hyp.demoPar]) (fun _ _ => rfl)
    (fun i j u v n => Scalar.C09_scalar_roe_convex _ _ _ _ _ _ rfl (Scalar.C09_scalar_burgers_convex _ n).1
      (Scalar.C09_scalar_burgers_convex _ n).2)
    1 3 (by norm_num) (by norm_num [abs_le]) (fun _ _ _ => 2) _ (fun e _ t => by norm_num [Scalar.state]) 1000 lo garbage _
    .erk_33 rfl rec 1 1 m m' h h0 k (intervalFe_bounded.stencils k)

/-- Water running up a beach with walls at both ends. -/
example (m m' : Mem (Dof intervalFe → ShallowWater.State 1) Unit) (lo : ℕ → Hyp.Leftover (Dof intervalFe) (ShallowWater.State 1))
    (garbage : ℕ → Dof intervalFe → ShallowWater.State 1) (rec : Recovery) (Z : Dof intervalFe → ℝ)
    (h : Run (hyperbolicModules (ShallowWater.description ShallowWater.runupParams Z fun _ _ b U V =>
      ((ShallowWater.limit (L := 1) ShallowWater.runupParams.p ShallowWater.runupParams.lp (fun _ => b) (fun _ => U) (fun _ => V)
        (fun _ => 0) (fun _ => 1)).1 0, (ShallowWater.limit (L := 1) ShallowWater.runupParams.p ShallowWater.runupParams.lp
        (fun _ => b) (fun _ => U) (fun _ => V) (fun _ => 0) (fun _ => 1)).2))
      (assembled intervalFe ⟨1, 1, false, 0⟩ (fun i j => j.1 < i.1) (fun _ _ => False) (fun _ => True)) ⟨1, 1 / 100, 2⟩ 1000
      (passBc (Prepare.shallowWater ShallowWater.runupParams.p) (fun _ _ => ShallowWater.mkState 1 0)
        [⟨⟨0, intervalFe_free 0⟩, fun _ => -1, .slip, 0⟩, ⟨⟨3, intervalFe_free 3⟩, fun _ => 1, .dirichlet, 0⟩]) (fun _ => ()) lo garbage
      fun _ _ _ _ _ _ => .crash) .erk_11 rec 1 1 (fun ctx _ => ctx.cfl ≤ 9 / 10) m m')
    (h0 : ∀ k, 0 ≤ ShallowWater.waterDepth ((m old).U k)) (k : Dof intervalFe) : 0 ≤ ShallowWater.waterDepth ((m' old).U k) :=
  C90_assembled_depth intervalFe_bounded ⟨1, 1, false, 0⟩ (fun i j => j.1 < i.1) (fun _ _ => False) (fun _ => True)
    (fun _ _ h h' => lt_asymm h h') (fun _ _ h => h.elim) (fun _ h => absurd trivial h) ShallowWater.runupParams Z _
    (fun i j b U P => ⟨1, fun _ => b, fun _ => U, fun _ => P, 0, rfl, rfl, rfl, rfl⟩) ⟨1, 1 / 100, 2⟩ (by norm_num) le_rfl le_rfl
    (by norm_num [ShallowWater.cutoffSharp, ShallowWater.runupParams, ShallowWater.lakeParams])
    (by norm_num [ShallowWater.runupParams, ShallowWater.lakeParams]) (by norm_num [ShallowWater.runupParams, ShallowWater.lakeParams])
    (by norm_num [ShallowWater.runupParams, ShallowWater.lakeParams]) (by norm_num [ShallowWater.runupParams, ShallowWater.lakeParams])
    (by norm_num [ShallowWater.runupParams, ShallowWater.lakeParams])
    (by norm_num [ShallowWater.cutoffSharp, ShallowWater.cutoffMollified, ShallowWater.runupParams, ShallowWater.lakeParams])
    (fun _ _ => ShallowWater.mkState 1 0) _ (fun _ _ _ => by simp [ShallowWater.waterDepth, ShallowWater.mkState]) 1000 lo garbage _
    rec 1 1 m m' h h0 k

/-- A stream with depth `2` and momentum `1` over a flat bottom that enters and leaves through the ends. -/
example (m m' : Mem (Dof intervalFe → ShallowWater.State 1) Unit) (lo : ℕ → Hyp.Leftover (Dof intervalFe) (ShallowWater.State 1))
    (garbage : ℕ → Dof intervalFe → ShallowWater.State 1) (rec : Recovery)
    (lim : Dof intervalFe → Dof intervalFe → ShallowWater.Bounds → ShallowWater.State 1 → ShallowWater.State 1 → ℝ × Prop)
    (h : Run (hyperbolicModules (ShallowWater.description
      ⟨⟨10, 0, 1, 1, 100, 10000, 1 / 10 ^ 6, 1 / 1000⟩, ⟨0, 1, true, true⟩, 1, 1000⟩ (fun _ => 4) lim)
      (assembled intervalFe ⟨1, 1, false, 0⟩ (fun i j => j.1 < i.1) (fun _ _ => False) (fun _ => True)) Hyp.demoPar 1000
      (passBc (Prepare.shallowWater ⟨10, 0, 1, 1, 100, 10000, 1 / 10 ^ 6, 1 / 1000⟩)
        (fun _ _ => ShallowWater.mkState 2 (fun _ => 1))
        [⟨⟨0, intervalFe_free 0⟩, fun _ => -1, .dirichlet, 0⟩, ⟨⟨3, intervalFe_free 3⟩, fun _ => 1, .dynamic, 0⟩]) (fun _ => ()) lo garbage
      fun _ _ _ _ _ _ => .crash) .erk_33 rec 1 1 (fun _ _ => True) m m')
    (h0 : ∀ k, (m old).U k = ShallowWater.mkState 2 (fun _ => 1)) (k : Dof intervalFe) :
    (m' old).U k = ShallowWater.mkState 2 (fun _ => 1) := by
  refine C103_assembled_water intervalFe_consistent intervalFe_conforming ⟨1, 1, false, 0⟩ (fun i j => j.1 < i.1) (fun _ _ => False)
    (fun _ => True) (fun _ _ h h' => lt_asymm h h') (fun _ _ h => h.elim) _ (by norm_num) (fun _ => 4) lim Hyp.demoPar
    (ShallowWater.mkState 2 (fun _ => 1)) ⟨by simp [ShallowWater.waterDepth, ShallowWater.mkState],
      by norm_num [ShallowWater.waterDepth, ShallowWater.mkState, ShallowWater.cutoffMollified],
      by norm_num [ShallowWater.waterDepth, ShallowWater.mkState, ShallowWater.cutoffSharp]⟩ 4 (fun _ => rfl) (Or.inl rfl) _ _
    (fun e he => ?_) 1000 lo garbage _ .erk_33 rfl rec 1 1 m m' h h0 k (intervalFe_bounded.stencils k)
  simp only [List.mem_cons, List.not_mem_nil, or_false] at he
  rcases he with rfl | rfl <;> exact ⟨fun _ => rfl, by rintro ⟨⟩, by rintro ⟨⟩⟩

theorem ringFe_c (k l : Dof ringFe) (h : l ≠ k) : vnorm (cMatrix ringFe k l) = 1 / 2 := by
  have hd : cMatrix ringFe k l 0 = 1 / 2 ∨ cMatrix ringFe k l 0 = -(1 / 2) := by
    obtain ⟨k, hk⟩ := k
    obtain ⟨l, hl⟩ := l
    have hk' : k ≠ 3 := hk
    have hl' : l ≠ 3 := hl
    have hne : l ≠ k := fun e => h (Subtype.ext e)
    fin_cases k <;> fin_cases l <;> first | exact absurd rfl hne | exact absurd rfl hk' | exact absurd rfl hl' | skip
    all_goals
      simp [cMatrix, distribute, expand, cellC, ringFe, Fin.sum_univ_three, Fin.sum_univ_two]
      norm_num
  have e : normSq (cMatrix ringFe k l) = (1 / 2) ^ 2 := by
    simp only [normSq, Finset.univ_unique, Fin.default_eq_zero, Finset.sum_singleton]
    rcases hd with hd | hd <;> rw [hd] <;> norm_num
  rw [vnorm, e, Real.sqrt_sq (by norm_num)]

theorem ringFe_bounded : BoundedSpace ringFe where
  consistent := ringFe_periodic.consistent
  conforming := ringFe_periodic.conforming
  integrals := ringFe_periodic.integrals
  weights := ringFe_periodic.weights
  covered := ringFe_periodic.covered
  stencils := ringFe_periodic.stencils
  boundary := fun K f _ h => absurd (ringFe_periodic.noBoundary K f) (by simp [h])

/-- Air on the assembled ring, with the Riemann solver and the limiter of the code called with one lane. -/
def ringAir : Hyp.Description (Dof ringFe) Unit (Euler.State 1) (Fin 3 → Vec 1) Euler.Bounds 1 :=
  Euler.description Euler.air Euler.ringLp 1000 (fun _ _ => Euler.ringRiem 0 0) (fun _ _ _ => 1) (fun _ _ => Euler.ringLim 0 0)

/-- The assembled ring. -/
def ringMesh : Hyp.Mesh (Dof ringFe) 1 :=
  assembled ringFe ⟨1, 1, false, 0⟩ (fun i j => j.1 < i.1) (fun _ _ => False) (fun _ => False)

/-- A gas with a discontinuous density on the assembled ring: a run exists and keeps the gas admissible. -/
example (lo : ℕ → Hyp.Leftover (Dof ringFe) (Euler.State 1)) (garbage : ℕ → Dof ringFe → Euler.State 1)
    (m : Mem (Dof ringFe → Euler.State 1) Unit) (hm : (m old).U = fun k => Euler.ringGas.U (Fin.ofNat 3 k.1.val)) :
    ∃ m', (∀ k, Euler.Admissible ((m' old).U k)) ∧ ∃ ok, Run (hyperbolicModules ringAir ringMesh Hyp.demoPar 1000 (fun _ u => u)
      (fun _ => ()) lo garbage fun _ _ _ _ _ _ => .crash) .erk_11 .none 1 1 ok m m' := by
  have hwf : ringMesh.WellFormed := C87_assembled_wellFormed ringFe_conforming _ _ _ _ (fun _ _ h h' => lt_asymm h h')
    (fun _ _ h => h.elim)
  have hC : ringMesh.Closed := C87_assembled_closed ringFe_consistent ringFe_conforming ringFe_periodic.noBoundary _ _ _ _
    ringFe_periodic.integrals ringFe_periodic.weights ringFe_periodic.covered
  have hg : 1 < Euler.air.gamma := by norm_num [Euler.air]
  set Mo := hyperbolicModules ringAir ringMesh Hyp.demoPar 1000 (fun _ u => u) (fun _ => ()) lo garbage
    (fun _ _ _ _ _ _ => .crash) with hMo
  obtain ⟨U, t, h⟩ := Hyp.C18_warn_returns ringAir ringMesh ⟨1 / 2, Hyp.demoPar.tiny, Hyp.demoPar.iterations⟩ ⟨0, 0⟩
    { lo 0 with newU := (m (temp 0)).U } ⟨(m old).U, ()⟩ [] 0 10
    (Hyp.C11_step_tau ringAir ringMesh ⟨1 / 2, Hyp.demoPar.tiny, Hyp.demoPar.iterations⟩ .warn ⟨0, 0⟩
      { lo 0 with newU := (m (temp 0)).U } ⟨(m old).U, ()⟩ [] 0 10
      (by norm_num [Hyp.demoPar]) (by norm_num) hC.lumped (by norm_num)).1
  have hup : Mo.hyp ⟨1 / 2, .warn, .warn⟩ 0 ⟨Mo.bc 0 (m old).U, Mo.pre (Mo.bc 0 (m old).U)⟩ [] (m (temp 0)).U 0
      (some (10 - 0)) = .ok U t := by
    simp only [hMo, hyperbolicModules] at h ⊢
    simp only [sub_zero, Option.getD_some, List.map_nil, h]
  have hlane : ∀ (i j : Dof ringFe) (U V : Euler.State 1) (n : Vec 1),
      Euler.IsRiemannLane Euler.air Euler.ringRp U V n (Euler.ringRiem 0 0 U V n) := fun i j U V n => Euler.ringGas_lane 0 0 U V n
  have hstep : ∀ n : ℕ, ∀ i, ∀ j ∈ stencil ringFe i,
      (100 * Hyp.demoPar.tiny ≤ Hyp.dOff ringAir ringMesh (lo n).dij ⟨(m old).U, ()⟩ i j ∨
        (ringMesh.c i j = 0 ∧ Hyp.dOff ringAir ringMesh (lo n).dij ⟨(m old).U, ()⟩ i j = 0)) ∧
      (ringMesh.c i j ≠ 0 → Euler.Dominates Euler.air ((m old).U i) ((m old).U j)
        (fun d => ringMesh.c i j d / vnorm (ringMesh.c i j))
        (Euler.ringRiem 0 0 ((m old).U i) ((m old).U j) (fun d => ringMesh.c i j d / vnorm (ringMesh.c i j)))) := by
    intro n i j hj
    have hv : vnorm (ringMesh.c i j) = 1 / 2 := ringFe_c i j (mem_stencil.1 hj).1
    have hc : ringMesh.c i j ≠ 0 := by
      intro h0
      rw [h0] at hv
      simp [vnorm, normSq] at hv
    have hn := Hyp.normSq_normal hc
    rw [hm]
    refine ⟨Or.inl ?_, fun _ => Euler.C66_euler_dominates_partial Euler.air hg Euler.ringRp _ _ _ hn (Euler.ringGas_admissible _)
      (Euler.ringGas_admissible _) _ (hlane i j _ _ _) 1 (Or.inl (Euler.ringGas_star _ _ _))
      (Or.inl ⟨(Euler.ringGas_pressure _).ge, (Euler.ringGas_pressure _).ge⟩)⟩
    have := Hyp.dOff_ge ringAir ringMesh hwf (lo n).dij ⟨fun k => Euler.ringGas.U (Fin.ofNat 3 k.1.val), ()⟩
      (fun i j hj _ => hC.skew i j hj) hj (kappa := 1 / 2) (Euler.ringGas_speed 0 0 _ hn _ _)
      (fun _ => Euler.ringGas_speed 0 0 _ (by rw [Euler.normSq_neg]; exact hn) _ _)
    rw [hv] at this
    refine le_trans ?_ this
    norm_num [Hyp.demoPar]
  obtain ⟨m', hrun, -⟩ := Integrator.run_of_update (ok := fun ctx u => ctx.cfl ≤ 1 ∧ ∀ n : ℕ, ∀ i, ∀ j ∈ stencil ringFe i,
      (100 * Hyp.demoPar.tiny ≤ Hyp.dOff ringAir ringMesh (lo n).dij ⟨u, ()⟩ i j ∨
        (ringMesh.c i j = 0 ∧ Hyp.dOff ringAir ringMesh (lo n).dij ⟨u, ()⟩ i j = 0)) ∧
      (ringMesh.c i j ≠ 0 → Euler.Dominates Euler.air (u i) (u j) (fun d => ringMesh.c i j d / vnorm (ringMesh.c i j))
        (Euler.ringRiem 0 0 (u i) (u j) (fun d => ringMesh.c i j d / vnorm (ringMesh.c i j))))) 1 1 hup
    (fun u hu => ⟨by norm_num, by rcases hu with hu | hu <;> (rw [hu]; exact hstep)⟩)
  refine ⟨m', fun k => ?_, _, hrun⟩
  have hs : ∀ i, Euler.Admissible (Euler.ringGas.U i) ∧ 0 ≤ Euler.specificEntropy Euler.air (Euler.ringGas.U i) := fun i =>
    ⟨Euler.ringGas_admissible i, mul_nonneg (Euler.ringGas_admissible i).2.le
      (Real.rpow_nonneg (one_div_nonneg.2 (Euler.ringGas_admissible i).1.le) _)⟩
  exact (C92_assembled_euler_partial ringFe_bounded ⟨1, 1, false, 0⟩ (fun i j => j.1 < i.1) (fun _ _ => False) (fun _ => False)
    (fun _ _ h h' => lt_asymm h h') (fun _ _ h => h.elim) (fun _ _ K f h => absurd (ringFe_periodic.noBoundary K f) (by simp [h])) Euler.air Euler.ringLp 1000 Euler.ringRp
    (fun _ _ => Euler.ringRiem 0 0) (fun _ _ _ => 1) (fun _ _ => Euler.ringLim 0 0) Hyp.demoPar hg rfl hlane
    (fun i j b U P => ⟨1, fun _ => b, fun _ => U, fun _ => P, 0, rfl, rfl, rfl, rfl⟩) (by norm_num [Hyp.demoPar])
    (by norm_num [Euler.ringLp]) (by norm_num) (by norm_num [Hyp.demoPar]) 0 one_pos
    (fun k => by simp [Euler.relaxationRadius, Euler.ringLp]) (fun _ u => u) lo garbage _ 1000 0 (by norm_num) (Or.inr rfl)
    (fun _ _ h => h) .none 1 1 m m' hrun (fun k => by rw [hm]; exact hs _) k).1

end

end Assembly
end Ryujin
