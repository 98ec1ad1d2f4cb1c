# Formal model of ryujin in Lean 4

## Layout

* `lean/Verif/Model/*.lean`: the model, function by function. Every definition cites the file and lines of `/repo/source` it models, and names every simplification.
* `lean/Verif/Spec/*.lean`: specifications that do not mention the model: three-convex functions, the exact shallow water Riemann problem, Runge-Kutta tableaux and their order conditions, classical solutions of conservation laws and of the Navier-Stokes equations with the jump conditions (`ConservationLaw`, `ViscousLaw`), the waves of the Euler equations. Smaller specifications (for example `InverseAt`, `IsSoundSpeed`, `IsRun`, `Acute`, `IsMerger`) stand at the top of the file of property theorems that uses them.
* `lean/Verif/Proofs/*.lean`: helper lemmas.
* `lean/Verif/Props/*.lean`: the property theorems (names start with the property id), with `example`s that exhibit concrete non-trivial instances of the hypotheses. Theorems with the same hypotheses share an example; further ones are in `Props/NavierStokesExamples` and `Props/Witnesses`.
* `properties.jsonl`, `MANIFEST.json`, `seeded/LOG.jsonl`: property list, claim status, log of mutation experiments.
* `AXIOMS.txt`: output of `#print axioms` for every theorem named in the manifest.

Naming: `Cxx_..._partial` proves a part of the property, the comment at the theorem says which part. `Cxx_..._violation` proves, with a concrete witness, that the code does *not* have the property in general.

## Trusted base

* Lean 4.33.0's kernel and the Mathlib modules imported. Every property theorem depends on at most the axioms `propext`, `Classical.choice`, `Quot.sound` (see `AXIOMS.txt`). There is no `sorry`, no axiom of our own, no `native_decide` and no `bv_decide`.
* The reading of the C++ text. The code is never executed; fidelity rests on the citations.
* **Floating point is idealised, except in the modules `Model/Rounded*`** (limiters, time, time step and complete runs for the density and the water depth; see their rows below), where every result is rounded according to `Spec/Rounding`; overflow, underflow and NaN are not modelled there. Everywhere else `Number` (double/float) is modelled by the real numbers (or an arbitrary ordered field where no root or power is taken). Constants such as `eps = numeric_limits<Number>::epsilon()` and `numeric_limits<Number>::min()` stay in the model as parameters. Rounding, NaN, infinities and signed zeros are not modelled elsewhere. `ryujin::pow` is `Real.rpow`, `std::sqrt` is `Real.sqrt`. Where the code can divide by zero or read out of bounds, the model has a separate outcome or the theorem a hypothesis.
* SIMD: a `VectorizedArray` of width `L` is a function `Fin L → ℝ`; lane-wise operations are applied per lane, lane-coupled branches (`if (t_l == t_r) break;`, `all_below_diagonal`) are modelled as such.
* Concurrency: interleavings of atomic actions (sequential consistency for the atomics involved, plus the happens-before edges of lock/acquire/release pairs as documented per model). Weak-memory reorderings beyond this are not modelled.
* MPI and deal.II: `Partitioner`, `AffineConstraints`, `IndexSet`, `Triangulation`, quadrature, the point-to-point message primitives, `SolutionTransfer`, VTK output and `ParameterHandler` are external; what is assumed about them is stated where it is used.
* Build configuration: the default one (no `DEBUG`, no `DEBUG_EXPENSIVE_BOUNDS_CHECK`, no `DEBUG_SYMMETRY_CHECK`, no `CHECK_BOUNDS`), so `Assert` does nothing and `AssertThrow` throws.

## What is modelled

| module | code |
|--------|------|
| `Model/Tensor`, `Model/Newton` | `dealii::Tensor` arithmetic as used; `newton.h` |
| `Model/EulerSystem` | `euler/hyperbolic_system.h`: state functions, entropies, fluxes, boundary conditions, conversions, linearised eigenvectors |
| `Model/EulerLimiter` | `euler/limiter.h`, `limiter.template.h` |
| `Model/EulerRiemann` | `euler/riemann_solver.template.h`, `euler/indicator.h` |
| `Model/AeosSystem`, `Model/AeosPrecompute` | `euler_aeos/hyperbolic_system.h`, `limiter.h`, `limiter.template.h`, both precomputation cycles in both variants |
| `Model/AeosRiemann` | `euler_aeos/riemann_solver.template.h`, `euler_aeos/indicator.h` |
| `Model/AeosDescription` | `euler_aeos/description.h` (the description handed to the step; `oneLane`: one row per SIMD call) |
| `Model/EquationOfState` | `euler_aeos/equation_of_state_{polytropic_gas,noble_abel_stiffened_gas,van_der_waals,jones_wilkins_lee}.h`, `equation_of_state.h` |
| `Model/Scalar` | `scalar_conservation/{hyperbolic_system,riemann_solver,indicator,limiter}*.h` with the flux as a parameter, and the Burgers and KPP fluxes |
| `Model/ShallowWater` | `shallow_water/{hyperbolic_system,riemann_solver,indicator,limiter}*.h` |
| `Model/HyperbolicStep`, `Model/Descriptions` | `hyperbolic_module.template.h`: `step()` with all passes, for cG and dG, any number of stages; the four equations as instances |
| `Model/Concurrency` | the CAS loop for `tau_max`, `lazy.h`, `SynchronizationDispatch` |
| `Model/TimeIntegrator` | `time_integrator.template.h`: all 13 schemes, CFL recovery, `prepare()` |
| `Model/TimeLoop` | `time_loop.template.h`: `run()`, `output()`, checkpointing and restarting; `mesh_adaptor.template.h`: the schedule |
| `Model/SparseMatrix`, `Model/SparseExchange` | `sparse_matrix_simd*.h` |
| `Model/MultiComponentVector`, `Model/Renumbering` | `multicomponent_vector.h`, `local_index_handling.h`, the range computations of `offline_data.template.h` |
| `Model/Assembly`, `Spec/Assembly` | `offline_data.template.h`: `assemble` (mass, inverse mass, lumped mass, `c_ij`, incidence matrix, measure), sparsity patterns; deal.II's shape values, quadrature and constraints are data |
| `Model/BoundaryMap` | `offline_data.template.h`: `construct_boundary_map`, `collect_coupling_boundary_pairs` after quadrature |
| `Model/BoundaryFaces` | `offline_data.template.h`: the loop over boundary faces in `construct_boundary_map` (with quadrature) |
| `Model/Configuration` | `equation_dispatch.h`, `patterns_conversion.h`, `state_vector.h`/`convenience_macros` component selection |
| `Model/Quantities`, `Model/Postprocessor`, `Model/InitialValues` | `quantities.template.h`, `postprocessor.template.h`, `initial_values.template.h` (transform, perturbation) |
| `Model/NavierStokes` | `navier_stokes/parabolic_solver.template.h`: `backward_euler_step`; `parabolic_solver_gmg_operators.h`: `VelocityMatrix`, `EnergyMatrix` |
| `Model/EulerInitialStates` | `euler/initial_state_{isentropic_vortex,leblanc,noh,rarefaction,shock_front,smooth_wave,icf_like,ramp_up,becker_solution}.h`: `compute` and what it calls |
| `Model/ShallowWaterInitialStates` | `shallow_water/initial_state_{paraboloid,ritter_dam_break,smooth_vortex,sloping_friction,flow_over_bump,soliton,three_bumps_dam_break}.h`: `compute`, `compute_bathymetry` |
| `Model/GeoTiff` | `shallow_water/initial_state_geotiff.h`: `read_in_raster`, `apply_transformation`, `apply_inverse_transformation`, `compute_bathymetry`, `compute`, `initial_precomputations` |
| `Model/ElementaryStates` | `euler/initial_state_{uniform,contrast,three_state_contrast,four_state_contrast,radial_contrast,astro_jet,function}.h`, `shallow_water/initial_state_{uniform,contrast,function,hou_test,transient,circular_dam_break}.h`: `compute`, `compute_bathymetry` |
| `Model/Transfinite` | `transfinite_interpolation.template.h`: `initialize` (flat cells), `compute_transfinite_interpolation` (1D, 2D, 3D), `push_forward`, `push_forward_gradient`, `pull_back`, `get_possible_cells_around_points`, `compute_chart_points`, `get_new_point`, `get_new_points`; not modelled: copying the triangulation, `clone` |
| `Model/Airfoil` | `geometry_airfoil.h`: the charts of `AirfoilManifold`, `GradingManifold` and `ExtrudedManifold` with their `get_new_point`, `naca_4digit_points`, `create_psi` (the spline is an arbitrary function of the samples), the positions of nose and trailing edge; not modelled: the vertices, cells and manifold ids of the coarse mesh |
| `Model/AirfoilTypes` | the choice of the airfoil by the parameter `airfoil type` and the three tabulated profiles of `geometry_airfoil.h`, as decimal fractions |
| `Model/ErrorNorms` | `time_loop.template.h`: `compute_error`, with `integrate_difference`, norms and reductions of deal.II by their formulas; not modelled: preparation of the state (`Model/PrepareState`), printing |
| `Model/VtuOutput` | `vtu_output.template.h`: the cell selection of the level set output, the file names; not modelled: patches, postprocessed quantities (`Model/Postprocessor`), the writing of files |
| `Model/OneLane` | the complete descriptions of the scalar, shallow water and Euler equations as seen by single rows (one SIMD lane per call); for the Euler equations also as seen by rows of a group with arbitrary other rows (`grouped`) |
| `Model/Distributed` | `prepare_state_vector` and `step` on any number of MPI ranks: every rank has its own vectors and matrices, exchanges copy owned values (and transposed matrix entries) to ghosts, `tau_max` and the restart flag are reduced over ranks (hyperbolic_module.template.h:97-1214) |
| `Model/FastPow` | `fast_pow_impl`: range reduction, logarithm polynomial, exponent arithmetic, Taylor polynomial, overflow and underflow, zero base (one lane, exact arithmetic) |
| `Model/ParabolicPreconditioner` | `DiagonalMatrix`, `VelocityMatrix::compute_diagonal`, `EnergyMatrix::compute_diagonal` |
| `Model/ProgressReport` | `print_throughput` with its static variables, the estimated time and the padded header lines |
| `Model/Threads` | the parallel loops of `step` as programs reading and writing entries of shared memory, executed by any number of threads of every rank in any interleaving (`RYUJIN_OMP_FOR`); the scalar and the vectorized loop over the rows are one loop, which has more interleavings than the two with a barrier between them (openmp.h, hyperbolic_module.template.h:313-1214) |
| `Model/ThreadsPrecompute` | the two precomputation loops of the arbitrary equation of state solver executed by threads, with accesses to the single numbers of the vector of precomputed values (euler_aeos/hyperbolic_system.h:918-974) |
| `Model/QuantitiesFiles` | points of the manifolds on every rank, file names, content of the files, the calls of the class with its files (`quantities.template.h`:112-226, 249-336, 427-490, 565-682); not modelled: formatting of numbers |
| `Model/Discretization` | choice of the geometry, global refinement, distortion, coarse mesh file, finite element, mapping and quadratures (`discretization.template.h`:81-192, `discretization.h`:247-270), marking of cells (`mesh_adaptor.template.h`:149-203), mesh part of resume (`time_loop.template.h`:463-465); the triangulation of deal.II is a forest of cells with corners, flags are those after smoothing, `refine_and_coarsen_fixed_number` by counting |
| `Model/Skeleton` | the skeleton equations: Riemann solver, indicator, limiter, flux, boundary conditions (`skeleton/*.h`) as a description for the generic hyperbolic step |
| `Model/NavierStokesRun` | `ParabolicModule::step` with the Navier-Stokes solver as a module of the time integrator, together with the hyperbolic step of the Euler equations (`parabolic_module.template.h`, `navier_stokes/description.h`); a zero density or a linear solver that does not converge ends the run |
| `Model/Sesame` | the tabulated equation of state (`euler_aeos/equation_of_state_sesame.h`): set-up of the database on the first call, conversion of units, variants for arrays; EOSPAC enters through the values and error codes it returns |
| `Model/Program` | `main.cc`: arguments, default parameter file, templates, barrier; `equation_dispatch.h`: both readings of the parameter file; not modelled: LIKWID, deal.II set-up of MPI and threads, formatting of parameter files |
| `Model/Rounded` | the limiters of all equations and the row updates of both rounds with every result rounded, contraction optional at every place; over-approximated: values of psi, Newton candidates, tests for the end of the iteration |
| `Model/RoundedTime` | `t`, `tau`, `tau_max`, relaxed final time and ticks of `TimeLoop::run` and `TimeIntegrator::step`, rounded |
| `Model/ScalarFlux` | flux library of the scalar equation (Burgers, KPP, expressions), selection by name, evaluation by direction with exceptions and accesses out of bounds, precomputed fluxes; muParser is a partial function |
| `Model/RoundedStep` | steps 3 to 7 of the time step for one component with every operation rounded and arbitrary contractions |
| `Model/RoundedShallow` | steps 4 to 7 of the time step for the water depth of the shallow water equations with every operation rounded and arbitrary contractions; equilibrated states and their fluxes are arbitrary numbers, the same in the rows of both degrees of freedom; the depth of the equilibrated states themselves (`star_state`, `inverse_water_depth_mollified`) with every operation rounded |
| `Model/RoundedShallowRun` | the explicit time integrators for the water depth with every operation rounded, as `Model/RoundedRun`, with the hyperbolic steps of `Model/RoundedShallow` |
| `Model/RoundedRun` | the statements of the explicit schemes, restarts and the time loop for one component with every operation rounded |
| `Model/EosLibrary` | equation of state given by formulas, list of equations of state, selection by name, access through the base class and for vectorised numbers; `Spec/Formula` stands for muParser (four operations, brackets, `sqrt`, `exp`, `abs`) |
| `Model/Adaptation` | `time_loop.template.h`: `adapt_mesh_and_transfer_state_vector` with the part of `dealii::SolutionTransfer` it uses (cells of degree one, one process); degree two only in one direction |
| `Model/Annulus` | `geometry_annulus.h`: the refined ring of cells and the decision which cells are removed (the meshes are those of deal.II's `hyper_shell`; merging and manifolds are not modelled) |
| `Model/SimdAccess` | `simd.h`: `get_entry`, `write_entry` (all overloads that compile), `serialize_tensor`, `assign_serial_tensor`; the shape of the loops over rows in `postprocessor.template.h` and `parabolic_solver.template.h` (the function applied to the lanes is arbitrary) |
| `Model/PartitionSetup` | `offline_data.template.h`: exchange of the rows of the sparsity pattern, enlargement of the locally relevant indices, partitioners (deal.II's index sets and `distribute_sparsity_pattern` by their specification) |
| `Model/InitialInterpolation` | `initial_values.template.h`: choice of the configuration, the function objects, interpolation (`VectorTools::interpolate` by its specification); the names in the initial state libraries of all equations |
| `Model/Geometries` | the assignment of boundary ids and the moving of vertices in `geometry_rectangular_domain.h`, `geometry_wall.h`, `geometry_step.h`, `geometry_cylinder.h`, `geometry_tank.h`, `geometry_airfoil.h`, on the boundary faces of the coarse meshes; not modelled: deal.II's mesh generation, merging and flattening; `geometry_disk.h`, `geometry_annulus.h`, `geometry_reader.h` |

Not modelled: the multigrid and CG algorithms behind the linear solves of `navier_stokes` (arbitrary functions in the model, assumed exact where a theorem says so; the operators, right hand sides and diagonal preconditioners are modelled), the creation and refinement of coarse meshes by deal.II, shape functions, quadrature and constraints (they enter the models of assembly and of the Navier-Stokes solver as data with stated hypotheses), GSL splines, GDAL, EOSPAC and the function parser (represented by the values they return), the formatting of output, timers and memory statistics, rounding errors (numbers are real numbers, except for the bit patterns of the approximate power function in C108), and everything else inside deal.II, p4est, MPI and OpenMP.

## Plan per property

| id | model | how it is proved |
|----|-------|------------------|
| C01 | `newton.h` over ℝ, `eps` a parameter | case analysis on the clamps; bracketing for three-convex functions with eps = 0 |
| C02–C05, C53, C55, C60 | the four `limit` functions, lanes `Fin L`, Newton loop as fuel recursion with joint break | invariant t_min ≤ t_l ≤ t_r ≤ t_max and t_r ≤ density bound through the loop; three-convexity of ψ for the entropy |
| C06, C54 | the four `bounds(hd_i)` | order arithmetic |
| C07 | the four `combine_bounds` and the accumulation over the stencil | lattice laws, permutation invariance by induction |
| C08 | indicators as list folds | triangle inequality over the fold |
| C09, C10, C56 | Riemann solvers over ℝ | monotonicity and case analysis; symmetry; C56 against a specification of the exact Riemann solution |
| C64 | Riemann solver including the Newton iteration, against `Spec/EulerRiemann` | monotonicity of the wave curves, `shock ≥ rarefaction` for γ ≤ 5/3, invariant of the Newton iteration; counterexamples for the remaining cases |
| C68 | `Model/AeosRiemann` against `Spec/AeosRiemann` | shift by p_∞ and covolume reduce the wave curves to those of a polytropic gas; `shock ≥ c(γ) · rarefaction` for all γ > 1 (`Proofs/AeosShock`); algebra of the exponents; counterexample for p_∞ > 0 |
| C65 | complete step of the Euler equations with Riemann solver and limiter lanes | a bar state is the mean of two half states; each has positive internal energy because `λ ± u ≥ a`; convexity (C14), limiter (C03) |
| C66 | bar states of two Euler states, exact Riemann solution as in `Spec/EulerRiemann`, `Spec/EulerWaves` | supporting hyperplanes of the entropy set; one inequality per wave (shock: entropy increases across the Hugoniot curve; rarefaction: Bernoulli-type convexity), valid for all γ > 1, including vacuum |
| C67 | as C65 | C66 + C14 + C53 + C15 |
| C69 | `Model/AeosRiemann`, fluxes of `Model/AeosSystem`, against `Spec/AeosWaves` | each half of the bar state is one side of the Riemann fan: positivity of the averaged wave with the covolume contraction; existence of the exact solution by the intermediate value theorem; C68 |
| C70 | `Model/AeosDescription` (all parts of the AEOS description) inside `Model/HyperbolicStep` | C69 + C14 + C06 + C53 + C15 |
| C71–C76 | `Model/NavierStokes`: both linear systems, boundary conditions, right-hand sides, solver fallback, minimum check and write-back of `backward_euler_step`; finite element space given by values, gradients, weights and constraints at quadrature points; linear solvers are parameters | testing the rows with the velocity and with rigid motions; symmetry and positivity of the stress form; injectivity ⇒ bijectivity in finite dimension; M-matrix argument at the minimum; counterexamples on small meshes |
| C77 | `Model/EulerRiemann`, `Model/Newton`: the loop over Newton iterations with its early stop for all lanes | the bracket after k iterations is nested; `λ` is monotone in the right end point; on early stop the gap bounds the error against the exact speed of `Spec/EulerWaves` |
| C78 | `Model/InitialValues.perturbed`: the drawn numbers are a parameter | case split on `t`; counterexample for the internal energy |
| C79 | `Model/EulerInitialStates` (`isentropicVortex`, `smoothWave`); `Spec/ConservationLaw`: classical solution at a point by `HasDerivAt` | primitive form of the equations implies the conservative one; derivatives computed; `y⁺³` is differentiable at 0 |
| C80 | `rarefaction`, `leblanc`; `Spec.fan` | centred rarefaction solves the equations; both states are the fan evaluated at a truncated ray, hence continuous; decimal constants by rational arithmetic |
| C81 | `shockState`, `shockFront`, `icfLike`; `Spec.RankineHugoniot` | algebra in the shock frame; the energy jump is affine in `1/(γ-1)` with nonzero slope, so it fixes `γ` |
| C82 | `noh` | derivatives of `\|x\|`; equivalence of primitive and conservative form gives the exact criterion ahead of the shock; jump conditions along the radius |
| C83 | `Model/ShallowWaterInitialStates` (`paraboloid1`, `paraboloid2`, `ritter`, `smoothVortex`); `Spec.SolvesShallowWater` | equations in depth and velocity at a wet point are equivalent to the conservative form; derivatives computed; agreement near a point by continuity |
| C84 | `becker`, `beckerPsi`, `beckerLoop`, `beckerFindVelocity`; `Spec/ViscousLaw` | intermediate value theorem and strict monotonicity for the root, inverse function theorem for its derivative; a travelling wave solves the equations if flux minus speed times state is constant; induction over the loop, mean value theorem for the error; termination: the derivative is monotone on either side of sqrt(v_L v_R), so that the iteration does not cross the root from one side and every step from the other side has a minimal length |
| C85 | `rampUp` | derivative computed piecewise, one-sided derivatives glued at both ends; convexity of the admissible set |
| C86 | `slopingFriction`, `flowOverBump`, `threeBumps` | the trigonometric formula gives a root of `h³ - c h² + e`, hence Bernoulli's law near the point, whose derivative is the momentum equation; `LakeAtRest` of C38 |
| C87 | `massMatrix`, `cMatrix`, `massInvMatrix`, `incidenceMatrix`, `assembled` | distribute-and-sum equals quadrature of global basis functions; partition of unity; involution of the interior faces; feeds C13 |
| C88 | `Model/PrepareState`: the loop over the boundary map as a monadic fold over an arbitrary list of entries, with the four `apply_boundary_conditions`; `Props/WallsRun`: admissible states for any equation of state; `Props/BoundaryEntropy`: lower bounds of the specific entropy | the fold at one node only sees its own entries; momentum as a lens; orthogonal projections commute and are idempotent; C37 for dynamic boundaries |
| C89 | the entropy derivatives and indicators of `Model/Euler`, `Model/Aeos`, `Model/ShallowWater`, `Model/Scalar`; `Spec/EntropyPair` for gradients, entropy fluxes and the discrete entropy production | derivatives along curves; chain rule for a gas with arbitrary pressure law; fold of the indicator as a sum; first-order expansion of the production at the node |
| C90 | `Run`: any number of calls of `Model/TimeIntegrator`'s `step` with `hyperbolicModules` and the boundary pass of `Model/PrepareState` | induction over the run; a returned step is a step of the scheme from the (prepared) old vector; flags of the limiter (C60) instead of the CFL condition for accepted updates; `Props/AssemblyRun`: the mesh hypotheses follow from C87 for assembled matrices |
| C91 | the complete step of `Model/HyperbolicStep` with `ShallowWater.description` | the Riemann solver's viscosity dominates the regularised velocities, so that each neighbour contributes a nonnegative weight and the own depth keeps at least `1 - cfl·(…)`; the limiter bound on the depth stays nonnegative; convexity |
| C92 | as C90 with the Euler equations; `Props/AeosRun`: with any equation of state; `Props/WallsRun`, `Props/BoundaryEntropy`: the boundary pass satisfies the hypotheses of the run theorems | C67 in every step; C70 in every step, with the precomputed values of the code; the pressure laws of three equations of state |
| C93 | the complete step on a mesh with boundary, the boundary map of `Model/BoundaryFaces` and complete runs | limited corrections cancel pair by pair; summation by parts moves the flux to the column sums `Σ_i c_ij = ∫ φ_j n`; the boundary map's normals add up to the same integral; induction over runs with the property "went through the boundary pass"; `Props/AssemblyRun`: with the assembled matrices and the boundary map built from the same finite element space; `Props/WallsRun`: with any equation of state, and water on assembled meshes |
| C94 | `Model/GeoTiff`: reading the image (GDAL = the data it delivers), the two affine maps, the interpolation with C++ integer conversions as explicit outcomes | the interpolation equals a sum over tent functions, from which range, continuity and exactness on planes follow; the inverse map by field arithmetic |
| C95 | `Model/ElementaryStates` | case analysis on the regions; the conversions recover density, velocity and pressure; the soliton by differentiation |
| C96 | `Model/Transfinite` | a quantity that every pass of the loops over faces and lines changes by exactly its contribution to the Gordon–Hall formula, then the formula on the boundary |
| C97 | `Model/Transfinite` | invariant of the quasi-Newton iteration (chart point inside 1.2 times the cell, residual decreasing); affine maps keep the exact inverse Jacobian; specification of the sorted candidates |
| C98 | `Model/Airfoil`: charts, grading, extrusion | case analysis on upper side, lower side and nose; polar angle by `Complex.arg`; averages in a convex chart domain; real powers and Bernoulli's inequality for the offset |
| C99 | `Model/Airfoil`: `naca_4digit_points` | factorisation of the thickness in the square root of x; derivative of the camber line; estimate of the abscissa near the nose for the violation |
| C100 | `Model/Geometries` | comparison of the face centers with the tolerances, for all faces |
| C101 | `Model/ErrorNorms` | sums and maxima over a partition; zeros of polynomials on a product grid for definiteness; moments of the Gauss formula and product integrals for exactness; Lagrange basis and alternating Legendre polynomial for the violation |
| C102 | `Model/VtuOutput` | counting loop equals an existence statement; intermediate value theorem; convexity; injectivity of the decimal representation |
| C103 | `Model/HyperbolicStep`, `Model/Descriptions`, `Model/TimeIntegrator` | for a uniform state all flux terms are one linear map of `c_ij`, so sums over rows vanish and there is nothing to limit (`Proofs/FreeStream`); the bounds always contain the state (C06, C07), so the limiter accepts it (C60); runs by C90; on assembled matrices by C87 (`Props/AssemblyRun`); arbitrary equation of state: no update reads values precomputed for another vector (`Props/AeosUniformRun`) |
| C104 | `Model/HyperbolicStep`, `Model/OneLane`; `Spec/Frames`: renumbered meshes | every intermediate quantity of the step commutes with the renumbering (`Proofs/StepEquivariance`); accumulation over columns is commutative; the Riemann solvers are symmetric under swapping the states; runs by the simulation theorem of C107; for the arbitrary equation of state the precomputed values are characterised by `Spec.Precomputed` and are the same in every numbering (`Proofs/AeosFrames`) |
| C105 | the same; `Spec/Frames`: rotated and reflected states and meshes | the same theorem with a linear map of states; invariance of Riemann solver, indicator, limiter and fluxes under orthogonal maps (`Proofs/Frames`); boundary conditions commute with orthogonal maps; runs by the simulation theorem of C107; arbitrary equation of state as in C104 |
| C106 | `Model/HyperbolicStep`; distance in the sparsity graph (`Reach`) in the property file | every quantity of the step is the same in two settings that agree on the columns of its row (`Proofs/StepLocal`), induction over the limiter passes; violation on a chain of any length; complete runs: the number of updates each vector of a scheme depends on is computed from its program (`Proofs/DependenceRuns`), induction over the steps of two runs side by side (`Twin`, `Props/DependenceRuns`), which exist for all initial vectors |
| C107 | `Model/Distributed`, `Model/PrepareState`, `Model/TimeIntegrator` | invariant: after every exchange ranks agree with one process on own and ghost entries (`Proofs/Distributed`); runs by a simulation theorem between two instances of the modules called by the integrator (`Proofs/Simulation`: a check of the data flow of all schemes, then induction) |
| C108 | `Model/FastPow` | derivative of (polynomial - log) bounded on four intervals by expansion at the midpoints, Taylor remainder of exp; the logarithm of the result is computed exactly (`Proofs/FastPow`) |
| C109 | `Model/ParabolicPreconditioner`, `Model/NavierStokes` | the diagonal entry is what `vmult` returns for a unit vector; induction over the boundary map |
| C110 | `Model/ProgressReport` | state machine over two consecutive reports; induction over the list of reports for the estimate |
| C111 | `Model/Threads`, `Model/Distributed` | footprints (entries read and written) of the loop bodies, race freedom, an invariant over the steps of an interleaving (`Proofs/Threads`): running the rest of each program alone gives what running it alone from the start gives; then the values of each loop (`Proofs/ThreadRows`, `Proofs/ThreadStep`) are those of `Mpi.step` |
| C112 | `Model/ThreadsPrecompute` | a simulation: every execution of the loop is one of a loop without the reads whose value is not used and without the accesses to the pressures, which keep their value; that loop is free of races, so `Proofs/Threads` applies |
| C113 | `Model/QuantitiesFiles` | the interior map is a filtered range (induction over the traversal of the cells), hence over all ranks a permutation of the points of the mesh; file names are injective (split at the last `R`); induction over the calls for the points file of the current mesh, C46 for the values, and a frame argument for all later calls; for the time series an invariant of the calls since the last change of the mesh: saved lines plus unsaved samples are all samples |
| C114 | `Model/Discretization` | lookup in a list with distinct names; counting of leaves by structural induction; invariant of `execute_coarsening_and_refinement`: the tree is the one grown from its shape on the corners of its coarse cell; degrees of polynomials; two concrete violations |
| C115 | `Model/Skeleton` | without flux and with vanishing indicator, limited fluxes with coefficient one cancel the low order diffusion; the set of vectors equal to the initial one is convex and kept by all modules (C90) |
| C116 | `Model/NavierStokesRun`, `Model/Integrator` | the totals of C11 and C72/C74 as linear functionals kept by both modules, combined by C58; positivity by an invariant of the runs of imex_11 (C92 for the hyperbolic and C73 for the parabolic sub step); a concrete bar with a hot spot for the violation |
| C117 | `Model/Sesame` | invariant over histories of calls: the database is missing or that of the material; conversion of units by computation; four concrete violations |
| C118 | `Model/Program`, `Model/Configuration` | the entries of a parsed file by induction over declarations and entries; template names are injective; the templates are parsed back; invariant over the interleavings of the ranks and a decreasing weight for the absence of deadlocks; one concrete deadlock |
| C119 | `Spec/Rounding`, `Model/Rounded` | error analysis of the largest coefficient by cases on the masks, of a row by induction over its entries, of both rounds; agreement with the exact limiters for every equation; one concrete computation in double precision; `C119_low_order`: the calculus of C123 for the low-order update, which is a convex combination of bar states without rounding; `C119_complete_step`: the passes of `Model/RoundedStep` are the rounds of `Model/Rounded`, with coefficients of neighbours combined by the symmetry of the stencil |
| C120 | `Spec/Rounding`, `Model/RoundedTime`, `Model/TimeIntegrator` | relative errors of the capped step for all schemes; induction over the steps; two concrete runs in double precision |
| C121 | `Model/OneLane` (`grouped`), limiters and Riemann solvers with `L` lanes | the joint stopping test can only continue the iteration; a Newton step moves the lower end of the bracket up and the joint test of a single lane stops it within the tolerance (induction over iterations); propagation to the new states over the columns of a row |
| C122 | `Model/ScalarFlux`, `Model/Scalar` | selection by cases on the library in any order; round trip of splitting and joining; mean value theorem for the difference quotients; induction over the rows for the precomputed values and over the random entropies for the upper bound |
| C123 | `Model/RoundedStep`, `Spec/RoundedStep` | a calculus of rounding errors (number of roundings in a row, sum of absolute values) closed under the operations of the step; the step without rounding, with the same fluxes, viscosity, indicator and coefficients, conserves by antisymmetry; `C123_assembled` drops the exact (anti)symmetry of the matrices by comparison with repaired matrices and adds the size of the repair; `C123_shallow_water`: the same for the water depth with the equilibrated states (`Model/RoundedShallow`, `Spec/RoundedShallow`), agreement with the model over the real numbers without rounding |
| C124 | `Model/RoundedStep` | induction over the neighbours for the sum of the viscosities; the same calculus for the low-order update; without rounding the density is bounded from below with the wave speed bound of every edge; `C124_density_assembled` keeps the row sums of `c_ij`, multiplied with the flux of the state; for the water depth (`Model/RoundedShallow`) the flux of each equilibrated state is bounded by its depth, so no row sums are needed |
| C125 | `Model/RoundedRun`, `Model/RoundedShallowRun`, the programs of `Model/TimeIntegrator` | relation between vectors before and after every statement; invariant: all vectors written so far have the initial total up to the accumulated bound; induction over statements and steps, for matrices that are antisymmetric or symmetric up to a relative error; simulation of the exact model |
| C126 | `Model/EosLibrary`, `Spec/Formula` | selection by cases on the library in any order; round trip of a formula with brackets by induction over the formula; default formulas parsed by the kernel and evaluated; induction over lanes |
| C127 | `Model/TimeLoop` with `Model/TimeIntegrator` and `Model/HyperbolicStep`; `Spec/Written`: the effects of a program and of all programs resumed from its checkpoints, each stopped after any number of passes | what a pass shows is the state at its beginning or the prepared one; induction over passes and restarts; C90 and C92 for a run of one step |
| C128 | `Model/Adaptation`, `Spec/Adaptation` | products of sums over the directions for the weights of the corners; values that fit together are independent of the order in which cells are written; convex combinations; what constrained degrees of freedom contain from `Model/HyperbolicStep` and `Model/TimeIntegrator` |
| C129 | `Model/Annulus` | positions of the vertices of the ring in polar coordinates; the norm of the centre of a face; bounds of `cos (π/128)`; linearity of the test within a half plane |
| C130 | `Model/SimdAccess` | effect of a list of iterations by induction over the list, hence independent of their order; division with remainder for the rows a vectorised iteration covers; induction over the rank of tensors |
| C131 | `Model/InitialInterpolation` | names in every library are distinct, hence the first match is the only one in every order; induction over the inserted components; means of values in an interval; C47 for the rotation |
| C132 | `Model/AirfoilTypes`, `Spec/AirfoilTypes` | prefixes of strings for all names; the tables, which are finite data, are checked by the kernel as whole numbers and the result carried over to real numbers; the trailing edge with C98 for every spline, centre and length |
| C11–C18, C59 | `HyperbolicModule::step` as folds over stencils (lists) with the `Description` (flux, Riemann solver, indicator, limiter) as parameter, exactly as the C++ template | finite sum algebra, convexity, induction over passes and stages |
| C12, C33, C34 | small-step interleaving semantics | inductive invariants over all schedules |
| C19–C22, C57, C58 | schemes as programs over temp vectors, interpreted over an arbitrary module | `ring`/`norm_num` on tableaux; C21 by case analysis over all outcomes; invariants over programs |
| C23, C24, C41 | `TimeLoop::run` as a recursion, runs as an inductive relation over histories | induction over histories |
| C25, C26 | checkpoint files as a map from names to contents, a crash point after every file operation | induction; simulation between resumed and uninterrupted run |
| C27–C29 | index functions over `Nat`, memory as functions | `omega`, induction over the construction loops |
| C30 | ranks as families of local structures, messages as lists | refinement to "entry of the owner"; the contract of partitioners and pattern from the exchange of rows and the enlargement of the relevant indices (`Model/PartitionSetup`) |
| C31, C32 | the renumbering loops as list recursions | permutation invariants by induction |
| C35–C37, C39, C40, C49, C51, C52, C62, C63 | state transformations over ℝ, any dimension `Fin dim` | field algebra, derivatives with `HasDerivAt` |
| C38 | the complete step with the shallow water description; complete runs between walls | invariance of every pass on lakes at rest; runs by C90, assembled matrices by C87 (`Props/LakeRun`) |
| C42–C46, C50, C61 | list and state-machine models | induction over lists and histories |
| C47 | rotations in dimensions 2 and 3 | algebra |
| C48 | multimap as a sorted list, contributions as a list | reduction to one degree of freedom, induction over contributions |

Later properties are listed in `properties.jsonl` with their statement; their model and proof follow the same patterns.

Properties about the accuracy of floating point results beyond C119 and C120, about absence of data races in the C++ memory-model sense, and about deal.II internals cannot be expressed in this model.

## Findings: where the code and the English property disagree

Each is proved with a concrete witness by the theorem named; the corresponding claim is `partial` unless the property's statement already excludes the case.

| what | theorem |
|------|---------|
| The scalar limiter leaves [u_min,u_max] when u_max < 0: the bound is relaxed by the factor (1 + eps), which tightens a negative bound. | `C04_scalar_limit_violation` |
| The shallow water `combine_bounds` returns `max(k_max_l, h_max_r)` for the kinetic energy bound. | `C07_sw_combine_violation` |
| The AEOS combined bounds do not admit every state admitted by both (the minimal gamma enters the entropy). | `C07_aeos_combine_admits_violation` |
| With both limiter stages for velocity and kinetic energy disabled, the shallow water limiter returns t_min. | `C02_sw_limit_needless_limiting_violation` |
| For the nonconvex KPP flux the wave speed of nearby states is not an upper bound. | `C09_scalar_kpp_violation` |
| The wave speed of the scalar Riemann solver with random averages is not symmetric, so the scheme is not conservative. | `C13_scalar_random_violation` |
| With stages, rows coupled to themselves miss the diagonal contribution of the high-order flux. | `C17_unlimited_step_partial` (exact formula), `C17_boundary_row_violation` |
| With stages, mass is not conserved at curved walls although neither the old state nor a stage flows through the wall: the pairwise flux corrections of two boundary nodes do not cancel and the diagonal one is dropped. | `C93_curved_wall_violation` |
| `initial state = function` of the arbitrary equation of state: the pressure expression is used as specific internal energy, because `Function::compute` calls `from_primitive_state` instead of `from_initial_state`. | `C95_aeos_function_violation` |
| `astro jet` in one dimension reads the second coordinate of a point. | `C95_astro_jet_1d_violation` |
| `CircularDamBreak` (not registered in the list of states) compares the radius with the square of the distance. | `C95_circular_dam_violation` |
| `pull_back` of the transfinite manifold: `must_recompute_jacobian` is reset before it is tested, so the exit with the best estimate (residual below the square root of the tolerance) is unreachable and stalled iterations report that the point is not in the cell. | `C97_best_estimate_violation` |
| The transfinite manifold looks at no more than 20 candidate cells. | `C97_twenty_violation` |
| The three-dimensional transfinite interpolation drops faces and lines with a weight below 1e-13: constants are not reproduced there. | `C96_threshold_violation` |
| The two maps of the grading manifold add 1e-14 each instead of cancelling: points drift. | `C98_grading_violation` |
| `get_new_point` of the grading manifold reads `weights[1]` although there may be a single point. | `C98_single_point_violation` |
| `ExtrudedManifold::get_new_point` writes through `begin()` of an empty small vector with room for 100 points. | `C98_extruded_violation` |
| NACA sections with camber: the abscissae handed to the spline are not sorted once there are enough samples. | `C99_unsorted_violation` |
| NACA sections have a sharp trailing edge, which the assertion in `create_psi` forbids. | `C99_trailing_edge_violation` |
| NACA: position digit 0 with camber, and fewer than two samples, are not rejected. | `C99_validation_violation` |
| Rectangular domain: corners in the wrong order are not rejected, all faces get the id of the last side; absolute tolerance 1e-8. | `C100_rectangle_swapped_violation`, `C100_rectangle_small_violation` |
| Wall: the documentation promises do-nothing in front of the wall on the bottom, the code sets Dirichlet. | `C100_wall_documentation_violation` |
| Mach step: the parameter `step position` yields a conforming mesh only if it is a fifth of `length`; for lengths below 1.2 a vertex of the wall is moved into the step. | `C100_step_conforming_violation`, `C100_step_short_violation` |
| Wave tank: the default parameters violate the function's own condition, a negative number of cells is converted to unsigned. | `C100_tank_defaults_violation` |
| Airfoil: vertices of the outer boundary are recognised by radius or abscissa; for long airfoils a face behind the airfoil is of neither kind and the program stops. | `C100_airfoil_long_violation` |
| `compute_error`: with `error normalize` (the default) a component of the exact solution that vanishes, like the transversal momentum of a one-dimensional flow, makes all results non-finite. | `C101_vanishing_component_violation` |
| `compute_error` uses `QGauss(3)` for every degree: for cubic elements there are nonzero errors with L1 and L2 norm zero. | `C101_cubic_violation` |
| Level set output: cells that are cut by a curved level set without separating vertices are missed; ghost cells are written by every rank that knows them. | `C102_curved_violation`, `C102_ghost_violation` |
| Discontinuous ansatz: `bounds_` is extended over the stencil in place inside a parallel loop (hyperbolic_module.template.h:938-948): a data race, the bounds depend on the order of the rows. | `C104_dG_order_violation` |
| Euler (and Euler with arbitrary equation of state): the indicator sums absolute values of the momentum components (euler/indicator.h:249-252), so it is not invariant under rotations. | `C105_euler_rotation_violation` |
| Discontinuous ansatz: because of the in-place extension of `bounds_` (hyperbolic_module.template.h:930-948) values arbitrarily far away can influence a degree of freedom in one time step, and the result depends on the distribution over MPI ranks even if a single thread works on each of them. | `C106_dg_violation`, `C107_dg_violation` |
| GeoTIFF: points left of or above the image lead to the conversion of a negative number to `unsigned int` before the range check; on platforms with saturating conversion a value is returned. | `C94_outside_violation`, `C94_saturating_violation` |
| GeoTIFF: a degenerate transformation (zero determinant) is not rejected; every query has undefined behaviour. | `C94_degenerate_violation` |
| `imex_22` and `imex_33` always abort. | `C19_imex_aborts` |
| After a restart boundary conditions are applied to a vector to which they have already been applied. | `C21_boundary_applied_twice_violation` |
| With error computation enabled the checkpoint contains the analytic solution. | `C25_analytic_checkpoint_violation` |
| A resumed run repeats a mesh adaptation. | `C25_adaptation_repeated_violation` |
| A crash between the renames of the checkpoint files mixes old and new sets; a second crash destroys the backup. | `C26_mixed_sets_violation`, `C26_second_crash_violation` |
| Diagonals of ghost rows may stay stale; a receive may have no matching send. | `C30_stale_diagonal_violation`, `C30_unmatched_receive_violation` |
| `n_export_indices` ignores import ranges straddling the internal range. | `C32_straddling_violation` |
| Below the dry cutoff the shallow water conversions do not round trip. | `C35_sw_roundtrip_violation` |
| The unlimited high-order shallow water update moves a lake at rest at a wet/dry front; thin films move. | `C38_high_order_front_violation`, `C38_thin_film_violation` |
| Stale constrained rows enter the bounds of the next schlieren output. | `C45_history_violation` |
| Two samples at t = 0, or a reset between samples, drop a time interval from the averages. | `C46_repeated_zero_violation`, `C46_gap_violation` |
| Mesh adaptation loses unwritten time series samples; only the first manifold gets a header. | `C61_adaptation_loses_samples_violation`, `C61_series_header_violation` |
| In 3D the initial configuration transform does not map the direction to the x axis. | `C47_direction3_violation`, `C47_direction3_concrete_violation` |
| A boundary contribution within 60 degrees of two entries is counted twice; the map depends on the order of cells. | `C48_double_count_violation`, `C48_order_violation` |
| The vector variant of the AEOS precomputation reads and writes with a missing offset and starts the ghost exchange early. | `C50_offset_violation`, `C50_early_exchange_violation` |
| With its default parameters the Jones-Wilkins-Lee equation of state returns negative pressures for admissible states, for which the surrogate gamma is below one: the solver's guarantees (C69, C70, C92) do not cover it. | `C92_aeos_pressure_jwl_negative` |
| The Jones-Wilkins-Lee energy inverse misses q_0; its speed of sound has a wrong exponent. | `C51_jwl_violation`, `C62_jwl_default_violation`, `C62_jwl_offset_violation` |
| The relaxed AEOS density bound exceeds the maximal compressible density. | `C54_aeos_rho_max_violation` |
| The velocity limiter of the shallow water equations uses a wrong derivative (harmless by C01). | `C55_sw_wrong_derivative` |
| Strang schemes leave convex invariant sets (extrapolation). | `C58_strang_violation` |
| The Euler limiter skips the entropy check on its early exit. | `C60_euler_unreported_violation` |
| Heat capacities are computed before the parameters are parsed. | `C63_stale_heat_capacity_violation` |
| The Euler wave speed is no upper bound for one shock and one rarefaction (the failsafe pressure may be below the star pressure). | `C64_euler_wave_speed_mixed_violation` |
| With p_∞ > 0 the arbitrary equation of state solver mistakes two shocks for a shock and a rarefaction (`phi_of_p_max` subtracts unshifted pressures) and underestimates the wave speed. | `C68_aeos_wave_speed_violation` |
| `bounds()` of the arbitrary equation of state limiter caps the density with the already relaxed maximum, so with a covolume the bound can exceed `1/b`. | `C70_aeos_covolume_violation` |
| Constrained degrees of freedom are set to zero before the minimum of the old internal energy is taken, so with hanging nodes or periodic boundaries the minimum check of the parabolic step only ensures nonnegativity. | `C73_constraint_violation` |
| Where two slip boundaries meet at an oblique 3D edge, the successive projections of the velocity operator and right-hand side do not produce a tangential velocity, and energy is not conserved. | `C75_oblique_edge_violation` |
| The random perturbation of the initial values multiplies all conserved components independently, so the perturbed internal energy can be negative for every positive amplitude. | `C78_perturbation_violation` |
| `ICFLike` for the Euler system never reads `γ` of the system (`ShockFront` does), its shock is computed with 1.4: the jump conditions fail for every other `γ` and every speed. | `C81_icf_like_violation` |
| `ShockFront` with covolume `b ≠ 0` uses `b` in the speed of sound only: the jump conditions fail for every speed. | `C81_shock_front_violation` |
| `Noh` uses the density `ρ₀ (1 + t/r)^(dim-1)`; the exact solution is `ρ₀ (1 + u₀ t/r)^(dim-1)`. For the run-time parameter "reference velocity" other than 1 the state is no solution in 2D and 3D. | `C82_noh_violation` |
| `BeckerSolution` does not check that the velocity ratio is at most `(γ+1)/(γ-1)`; beyond it the specific internal energy is negative near the left limit. | `C84_becker_admissible` |
| `Paraboloid` in 1D is the solution for the linear drag `-k m`, but passes the Manning coefficient as `k`, whose term in the system is `-g k² |v| m / h^(4/3)`: with friction it is no solution. | `C83_paraboloid_1d_violation` |
| `SmoothVortex` "with bathymetry" keeps the bottom fixed while the vortex travels with the Mach number (default 2): no solution. | `C83_smooth_vortex_violation` |
| `FlowOverBump` (transcritical) returns a constant depth for `11.7 < x < 12`, where the bottom is not flat, and at `x = 11.7` exactly the subcritical upstream depth. | `C86_bump_transcritical_violation`, `C86_bump_jump_violation` |
| Where two slip walls meet at an oblique edge in 3D (not merged by the boundary map), the momentum after the boundary pass violates the wall condition applied first, and every further pass changes it again. | `C88_oblique_violation` |
| The dynamic boundary condition squares the difference of the Riemann invariants without checking its sign: admissible fast outflow data produce vacuum. | `C88_dynamic_violation` |
| With equal dry-state thresholds and CFL number one, the low-order update at an open boundary next to a dry node on higher ground produces a negative water depth within the CFL condition. | `C91_open_boundary_violation` |
| For equal pressures the arbitrary equation of state solver is not symmetric (tie broken by position, non-strict bounds, γ > 5/3). | `C10_aeos_swap_violation` |
| For γ > 5/3 the two-rarefaction pressure is no upper bound. | `C64_euler_wave_speed_gamma_violation` |
| `fast_pow` ignores its `Bias` argument and lacks the correction by the low part of log(2) (2.1e-4 per unit of the rounded exponent): with `Bias::max` the result can be too small, with `Bias::min` too large. The recorded output of `tests/common/fast_pow` shows the error; nothing else calls the function. | `C108_upper_bias_violation`, `C108_lower_bias_violation` |
| The diagonal of the velocity preconditioner subtracts `n_d (n · d^{-1})` of the already inverted diagonal at slip boundaries: for an oblique normal and a large inverse diagonal, entries are negative and the preconditioner is indefinite. | `C109_slip_negative_violation` |
| After a restart the first and the final progress report attribute the time simulated before the restart to this run. The first estimated remaining time is five times too long. With final time zero a non-finite number is converted to an integer. | `C110_resumed_run_violation`, `C110_first_eta_violation`, `C110_eta_undefined_violation` |
| With discontinuous elements step 5 combines the bounds of a row in place with those of its neighbours, which other threads replace in the same loop: a data race, and bounds that depend on the schedule. | `C111_dg_data_race_violation`, `C111_dg_race_violation` |
| The second precomputation cycle of the arbitrary equation of state solver writes the four values of a row while other threads read them for the rows next to it: a data race, harmless only because the one value used, the pressure, is written unchanged. | `C112_data_race_violation`, `C112_cycle1` |
| An interior and a boundary manifold of the same name write to the same files; the points and values of the interior one are lost. | `C113_same_name_violation` |
| With a mesh distortion the mesh depends on `std::random_device`; a restarted run does not get the displaced vertices back (they are not part of the checkpoint) and displaces the coarse mesh instead. | `C114_distortion_violation` |
| The state of the random number generator of "random adaptation" is not part of the checkpoint: a restarted run refines other cells than the uninterrupted one. | `C114_random_adaptation_violation` |
| Without limiter passes, and with discontinuous elements for any number of passes, the skeleton equations diffuse their states with wave speed one, although they have no flux. | `C115_low_order_violation`, `C115_dg_violation` |
| The Strang schemes extrapolate `2 U' - U` after the check of the internal energy: a parabolic sub step that passes the check can be followed by a state with negative internal energy. | `C116_extrapolation_violation` |
| The tabulated equation of state does not look at the error code of an interpolation (states outside of the tables are not reported), overwrites the arrays of its arguments, throws for temperature and speed of sound, and ignores a material id parsed after the first call. | `C117_outside_violation`, `C117_arguments_violation`, `C117_not_implemented_violation`, `C117_second_parse_violation` |
| A step with the arbitrary equation of state depends on the numbering of the degrees of freedom: for neighbouring states of equal pressure whose surrogate gamma exceeds 5/3 (and bounds that are not strict) the Riemann solver takes the branch of the first state, and which state is first is decided by the numbering; viscosity and step size change. | `C104_aeos_violation` (ideal gas, gamma = 9, periodic mesh with three nodes) |
| If the executable is named like one of the templates (so that its default parameter file is a template), two ranks can get stuck: rank zero finds no file, writes the templates and waits at the barrier, the other one finds the file just written and runs. | `C118_ranks_violation`; `C118_ranks` proves termination and equal endings otherwise |
| Every start without parameter file overwrites existing templates, edited ones included. | `C118_templates` holds for every content of the file system at start |
| Bounds are not respected to the last bit: with bounds `[2^-100, 1]`, value `1` and update `-5` the limited scalar is negative (the reciprocal of `5` is rounded up). For the Euler and shallow water equations such a coefficient is only used if `psi` is positive there. | `C119_violation`; the excess is bounded by `C119_first_round`, `C119_second_round` |
| Final time `0.3`, timer granularity `0.1`: `3 * 0.1` is larger than `0.3` in double precision, and the test for a tick is not relaxed (the test for the final time is). The run ends at the final time without the last output. | `C120_tick_violation` |
| A step below half a unit in the last place of the current time leaves the time unchanged: the loop never ends. | `C120_stuck_violation` |
| The Newton loops of limiter and Riemann solver stop when all lanes of a SIMD group have converged. Coefficients therefore depend on which rows share a group, by up to the tolerance, and results differ between machines, numbers of ranks and numberings beyond rounding errors. | `C121_violation`; the difference is bounded by `C121_euler_limit`, `C121_euler_riemann`, `C121_euler_one_pass` |
| Whether a low order state below its entropy bound is reported (and the step repeated or counted as a violation) depends on the other rows of its SIMD group: the check is inside the Newton iteration, which is skipped if all windows are empty. | `C121_success_violation` |
| A user defined scalar flux with fewer parts than space dimensions is accepted (the number of parts is compared with nothing, in debug builds with three). The default expression in two and three dimensions reads a component that does not exist. | `C122_dimension_violation` |
| The wave speed estimate is documented as the maximal speed for convex fluxes. With an expression the gradients are difference quotients, and the estimate can be too small by a term of the order of the step size. | `C122_convex_violation`; bounded by `C122_roe` |
| The lambda that draws random entropies is `thread_local`, its generator is a function-local `static` shared by all threads and advanced without synchronisation (scalar_conservation/riemann_solver.template.h:107-113). Noted while reading, not modelled. | – |
| The Euler limiter accepts a full update whose specific entropy is below the bound by less than the factor `1 + vacuum_small eps`; for every such `eps > 0` there is an accepted update violating the minimum principle. | `C53_euler_limit_relaxation_violation` |
| The tabulated equation of state is called `sesame` or `Sesame`, depending on whether the program was built with EOSPAC. | `C126_sesame_name_violation` |
| The four formulas of a user-defined equation of state are not checked against each other: if only the pressure is changed, initial states do not have the prescribed pressure. | `C126_inconsistent_violation` |
| A mesh adaptation reads the values of constrained degrees of freedom (periodic boundaries, hanging nodes) as they are; after a time step they contain leftovers of temporary vectors (zero after the first step), and refinement averages them into the solution. Output distributes the constraints first, the transfer does not. | `C128_constrained_violation`, `C128_stale_after_step` |
| Coarsening a mesh does not conserve the totals; with elements of degree two refinement produces negative densities. | `C128_coarsening_violation`, `C128_degree_two_violation` |
| Annulus: a cell is removed if one of its faces is covered by the angle, so the obstacle is one cell too long on every end (47.8 instead of 45 degrees with the default parameters); the tolerance 1e-3 is absolute, for outer radii of 4 and more cells around the obstacle are removed as well; nothing is removed for angles between 90 and 135 degrees. | `C129_next_cell_violation`, `C129_large_violation`, `C129_obtuse_violation` |
| The overload of `get_entry` for a `std::vector` and a list of indices calls `VectorizedArray::load` with two arguments, it cannot be instantiated for vectorised types (not used). | reading, `Model/SimdAccess` |
| The shallow water configuration `circular dam break` has a class (`initial_state_circular_dam_break.h`) that no file includes and no library registers: it cannot be chosen. | `C131_circular_dam_break_violation` |
| The root finder of the 'becker solution' checks with strict inequalities whether a Newton step leaves the interval of the limit velocities; a step that ends exactly at one of them leads to infinite values and to a result that is not a number. Such a position exists for all limit velocities that do not nearly agree. | `C84_becker_nan_violation` |

Observations without a theorem of their own: the parabolic step writes constrained degrees of freedom back as (ρ, 0, 0); it dereferences `std::min_element` of a possibly empty owned range; `newton_max_iterations == 0` makes the Euler limiter return t_min; `compute_h_star` contains a dead mask (harmless, C56); the van der Waals parameter call back leaves a stale reference pressure when parsed twice; the timer granularity is used as a modulus before it is checked against zero; step 5 of the dG variant combines bounds in place, so that its result depends on the row schedule (C59 fixes the schedule).
