{"id": "C01", "title": "Safeguarded Newton step never leaves its bracket", "statement": "Calling the quadratic Newton step on a bracket [p_1,p_2] with p_1 <= p_2 always leaves an ordered bracket that is contained in the one passed in, whatever function values and derivatives are supplied (including wrong derivatives, zero denominators and negative discriminants). For a function whose two quadratic interpolants enclose it (any 3-convex or 3-concave function) and exact arithmetic, the new bracket still encloses the root.", "quantifier": "every bracket, every pair of function values, every pair of derivatives, either sign argument", "why_tests_cant": "the inputs are six unconstrained real numbers; the callers feed it with derivatives that are only approximate, so the failure region is a thin set of degenerate denominators no finite sample has to hit", "anchors": ["source/newton.h: quadratic_newton_step"]}
{"id": "C02", "title": "The limiter coefficient always lies in the admissible window", "statement": "For every equation the value returned by limit(bounds, U, P, t_min, t_max) satisfies t_min <= t <= t_max (with the defaults: 0 <= l <= 1), even when the low-order state is already outside its bounds, for every number of SIMD lanes and every number of Newton iterations.", "quantifier": "all bounds, all states U, all update directions P, all t_min <= t_max, all lane counts, all iteration limits", "why_tests_cant": "depends on unbounded data and on a lane-coupled early exit of an iteration", "anchors": ["source/euler/limiter.template.h: Limiter::limit", "source/euler_aeos/limiter.template.h: Limiter::limit", "source/shallow_water/limiter.template.h: Limiter::limit", "source/scalar_conservation/limiter.template.h: Limiter::limit"]}
{"id": "C03", "title": "Limited compressible-flow update stays within the density bounds", "statement": "If the low-order density is within [rho_min, rho_max] (rho_max >= 0), the state U + t P with the coefficient t returned by the Euler (and arbitrary-EOS Euler) limiter, and every state U + s P with 0 <= s <= t, has its density within [rho_min, rho_max]; in particular it is positive if rho_min is.", "quantifier": "all bounds, states, directions, Newton settings, lanes and symmetrised coefficients s below the returned one", "why_tests_cant": "must hold for each of an unbounded number of state/direction pairs; the coefficient is further reduced afterwards by symmetrisation, which is a property of all s <= t", "anchors": ["source/euler/limiter.template.h: Limiter::limit", "source/euler_aeos/limiter.template.h: Limiter::limit"]}
{"id": "C04", "title": "Limited scalar update stays within the bounds", "statement": "For the scalar conservation equation, if u lies in [u_min,u_max] then u + s p lies in [u_min,u_max] for every 0 <= s <= t where t is the returned limiter coefficient.", "quantifier": "all bounds, states, directions and all s below the returned coefficient", "why_tests_cant": "the counterexamples need the sign of u_max to be negative together with a specific ratio of u_max to the update", "anchors": ["source/scalar_conservation/limiter.template.h: Limiter::limit"]}
{"id": "C05", "title": "Limited shallow-water update keeps the water depth within bounds", "statement": "If the low-order water depth lies in [h_min,h_max] then the depth of U + s P lies in [h_min,h_max] for all 0 <= s <= t where t is the returned coefficient; in particular water depths never become negative.", "quantifier": "all bounds, states, directions, Newton settings and all s below the returned coefficient", "why_tests_cant": "unbounded real inputs; dry states make the quotient degenerate", "anchors": ["source/shallow_water/limiter.template.h: Limiter::limit"]}
{"id": "C06", "title": "Relaxing bounds only ever widens them", "statement": "bounds(hd_i) returns, for every equation, bounds that contain the strict local bounds accumulated over the stencil (lower bounds do not increase, upper bounds do not decrease) and with relaxation factor 0 returns exactly the strict bounds.", "quantifier": "all accumulated bounds, all mesh sizes hd_i >= 0 and all relaxation factors >= 0", "why_tests_cant": "sign combinations of the accumulated minimum/maximum; unbounded data", "anchors": ["source/euler/limiter.h: Limiter::bounds", "source/euler_aeos/limiter.h: Limiter::bounds", "source/shallow_water/limiter.h: Limiter::bounds", "source/scalar_conservation/limiter.h: Limiter::bounds"]}
{"id": "C07", "title": "Combining bounds yields a common superset", "statement": "combine_bounds(a,b) admits every state admitted by a and every state admitted by b, is commutative and associative, so that the result over a stencil does not depend on the order of the neighbours.", "quantifier": "all pairs of bounds", "why_tests_cant": "a swapped component is only visible for particular orderings of the four numbers involved", "anchors": ["source/euler/limiter.h: combine_bounds", "source/euler_aeos/limiter.h: combine_bounds", "source/shallow_water/limiter.h: combine_bounds", "source/scalar_conservation/limiter.h: combine_bounds"]}
{"id": "C08", "title": "The indicator is a number between zero and one", "statement": "For every equation, state stencil and evc factor >= 0 the smoothness indicator alpha_i satisfies 0 <= alpha_i <= 1.", "quantifier": "all stencils (any length), all states, all c_ij, all non-negative factors", "why_tests_cant": "stencils have unbounded length and arbitrary data, including the 0/0 prone constant state", "anchors": ["source/euler/indicator.h: Indicator::alpha", "source/scalar_conservation/indicator.h: Indicator::alpha", "source/shallow_water/indicator.h: Indicator::alpha"]}
{"id": "C09", "title": "The wave speed estimate dominates the characteristic speeds of both states", "statement": "The maximal wave speed returned by the (approximate) Riemann solver is non-negative and at least as large as the extreme characteristic speeds of the data: (u_i - a_i)^- and (u_j + a_j)^+ for Euler, AEOS and shallow water; the Roe speed and, with averaged entropies, the entropy slopes for scalar equations.", "quantifier": "all pairs of states and directions", "why_tests_cant": "a lower bound for a function on a continuum of state pairs", "anchors": ["source/euler/riemann_solver.template.h: RiemannSolver::compute", "source/shallow_water/riemann_solver.template.h: RiemannSolver::compute", "source/scalar_conservation/riemann_solver.template.h: RiemannSolver::compute", "source/euler_aeos/riemann_solver.template.h: RiemannSolver::compute"]}
{"id": "C10", "title": "Swapping the two states of a Riemann problem reverses it", "statement": "The wave speed computed for (U_i, U_j, n) equals the one computed for (U_j, U_i, -n), so that computing only the upper triangular part of the viscosity matrix is sound.", "quantifier": "all pairs of states and directions", "why_tests_cant": "equality of a function with itself on a continuum", "anchors": ["source/scalar_conservation/riemann_solver.template.h", "source/shallow_water/riemann_solver.template.h", "source/euler/riemann_solver.template.h", "source/hyperbolic_module.template.h: step (Step 2/3)"]}
{"id": "C11", "title": "The graph viscosity is symmetric, non-negative and has zero row sums; the time-step bound is the CFL bound of the worst row", "statement": "After the viscosity computation d_ij = d_ji >= 0 for all stencil pairs, the diagonal equals minus the sum of the off-diagonal entries (up to the regularisation of a vanishing row), and tau_max is positive and equals the minimum over the rows of cfl * m_i / (2 |d_ii|).", "quantifier": "all meshes, stencils, states and wave speed functions", "why_tests_cant": "meshes and stencils of unbounded size", "anchors": ["source/hyperbolic_module.template.h: step (Steps 2 and 3)"]}
{"id": "C12", "title": "The time-step reduction is independent of the thread schedule", "statement": "For every number of threads, every interleaving of their loads and compare-and-swap operations and every pattern of spurious compare-and-swap failures, once all threads have left the reduction loop the shared tau_max equals the minimum of its initial value and all thread local minima.", "quantifier": "all thread counts, all local values, all schedules, all spurious failures", "why_tests_cant": "exponentially many interleavings; spurious failures cannot be provoked on x86", "anchors": ["source/hyperbolic_module.template.h: step (atomic tau_max)"]}
{"id": "C13", "title": "A hyperbolic update conserves the total of every conserved quantity", "statement": "For skew-symmetric c_ij, symmetric mass matrix and any Riemann solver, indicator, limiter and number of limiter passes, one call of step leaves sum_i m_i U_i unchanged, for every stage configuration.", "quantifier": "all meshes, states, stages, weights, limiter outcomes, 0, 1 or 2 limiter passes", "why_tests_cant": "quantifies over every mesh and every limiter outcome", "anchors": ["source/hyperbolic_module.template.h: step"]}
{"id": "C14", "title": "Under the CFL condition the low-order update is a convex combination of bar states", "statement": "If tau <= tau_max and cfl <= 1 then the low-order update of every row is a convex combination of the old state and of the bar states of its stencil, hence lies in every convex set containing those.", "quantifier": "all meshes, states, fluxes, viscosities, time steps below the bound", "why_tests_cant": "unbounded stencils and arbitrary convex sets", "anchors": ["source/hyperbolic_module.template.h: step (Step 4)", "source/scalar_conservation/limiter.h: accumulate", "source/euler/limiter.h: accumulate"]}
{"id": "C15", "title": "Limited high-order updates remain in every convex set the limiter certifies", "statement": "If for every row and neighbour the limiter returns a coefficient whose limited states remain in a convex set B_i, then after each of the limiter passes the updated state of row i is in B_i, although coefficients are symmetrised by taking a minimum and the second pass works with the residual correction.", "quantifier": "all meshes, limiters, convex sets, and one or two passes", "why_tests_cant": "unbounded stencils, arbitrary convex sets", "anchors": ["source/hyperbolic_module.template.h: step (Steps 5-7)"]}
{"id": "C16", "title": "Local maximum principle of the full step for scalar conservation laws", "statement": "With cfl <= 1 and relaxation disabled, one full explicit Euler step of the scalar solver (graph viscosity, low-order update, limiting in one or two passes) yields values between the minimum and the maximum of the old values on the stencil.", "quantifier": "all meshes, all fluxes, all non-negative states, all tau <= tau_max", "why_tests_cant": "composition of all previous properties on unbounded data", "anchors": ["source/hyperbolic_module.template.h: step", "source/scalar_conservation/"]}
{"id": "C17", "title": "Without limiting the step is the unlimited high-order update", "statement": "If all limiter coefficients are one, a step returns U_i + tau/m_i (F_i^H + sum_j (b_ij F_j^H - b_ji F_i^H)), i.e. exactly the high-order method with the (approximate or exact) mass matrix inverse.", "quantifier": "all meshes, states, stage weights", "why_tests_cant": "equality of two algorithms on unbounded data", "anchors": ["source/hyperbolic_module.template.h: step (Steps 4-7)"]}
{"id": "C18", "title": "Invariant domain violations are never silently dropped", "statement": "A step that detected a low-order bounds violation in any row either raises a restart (and counts it) or increments the warning counter by exactly one, depending on the strategy; a step without violation does neither; the counters never decrease.", "quantifier": "all histories of steps, all strategies, all violation patterns", "why_tests_cant": "histories of unbounded length", "anchors": ["source/hyperbolic_module.template.h: step (restart handling)"]}
{"id": "C19", "title": "Each explicit scheme reproduces its Butcher tableau and its order conditions", "statement": "For every right-hand side F, each explicit scheme applied to exact forward Euler sub steps is a Runge-Kutta method whose tableau satisfies the order conditions of the advertised order (ERK(5,4): up to 1e-15, its coefficients being rounded decimals), with equidistant abscissae for the ERK family, and advances by the time step it returns; the Strang schemes are the Strang splitting with a Crank-Nicolson step; every vector is presented to the modules at the time it belongs to.", "quantifier": "all right-hand sides F on all vector spaces, all initial states, all step sizes", "why_tests_cant": "quantifies over every vector field", "anchors": ["source/time_integrator.template.h: step_ssprk_22, step_ssprk_33, step_erk_11, step_erk_22, step_erk_33, step_erk_43, step_erk_54"]}
{"id": "C20", "title": "A time step never overshoots the final time", "statement": "If the final time is enforced then for every scheme t + tau <= t_final, because the admissible sub step is limited to the remaining time divided by the number of sub steps.", "quantifier": "all schemes, all times, all step sizes computed by the hyperbolic module", "why_tests_cant": "real arithmetic over all data", "anchors": ["source/time_integrator.template.h: step and all step_* functions"]}
{"id": "C21", "title": "CFL recovery retries exactly once and never lets a first failure escape", "statement": "With bang-bang control the integrator first runs with cfl_max and exceptions enabled; a failure on the first attempt leads to exactly one re-run with cfl_min in warning mode; no restart exception ever leaves a time step, and the returned state is that of the re-run on the original vectors, unaffected by the failed run except that the boundary conditions have been applied a second time.", "quantifier": "all sequences of success/failure outcomes of the sub steps and all schemes", "why_tests_cant": "all failure points inside a multi-stage scheme", "anchors": ["source/time_integrator.template.h: step"]}
{"id": "C22", "title": "Schemes use only allocated scratch vectors and never read a vector they are writing", "statement": "Every scheme touches only temp_[k] with k below the number of scratch vectors allocated in prepare(), every sub step's output is distinct from its inputs, and every vector read has been written (and prepared, where needed) before in the same time step, so that the result does not depend on what the scratch vectors contained.", "quantifier": "all schemes", "why_tests_cant": "out-of-bounds and stale reads do not necessarily change observable test output", "anchors": ["source/time_integrator.template.h: prepare, step_*"]}
{"id": "C23", "title": "Output ticks are emitted in order, exactly once, and never early", "statement": "In a run the output cycle numbers emitted are consecutive, each cycle k is emitted exactly once, at the first loop iteration with t >= k * granularity at which all previous cycles have been emitted; and if no time step exceeds the granularity no output lags by a full granule.", "quantifier": "all sequences of time steps, all granularities, all final times", "why_tests_cant": "histories of unbounded length", "anchors": ["source/time_loop.template.h: run"]}
{"id": "C24", "title": "The time loop terminates and ends at the final time", "statement": "If every time step is at least some delta > 0 the loop stops; when it stops t >= t_final (up to the relaxation 10 eps), with enforcement t is never larger than t_final, and the number of cycles is bounded by ceil(t_final/delta)+1.", "quantifier": "all step size sequences bounded below", "why_tests_cant": "termination for all histories", "anchors": ["source/time_loop.template.h: run"]}
{"id": "C25", "title": "A restart resumes from the state that was saved", "statement": "read_checkpoint after write_checkpoint restores time, output cycle and state; the resumed run emits exactly those outputs the uninterrupted run would have emitted after the checkpoint.", "quantifier": "all states, all times, all continuations", "why_tests_cant": "all histories and interruption points", "anchors": ["source/time_loop.template.h: read_checkpoint, write_checkpoint, run"]}
{"id": "C26", "title": "A crash while writing a checkpoint never destroys the last good checkpoint", "statement": "At every point at which the process may be killed during write_checkpoint, either the current or the backup set of checkpoint files is a complete set written by one call.", "quantifier": "all crash points, all numbers of previous successful or crashed writes", "why_tests_cant": "crash points between file system operations and repeated crashes", "anchors": ["source/time_loop.template.h: write_checkpoint"]}
{"id": "C27", "title": "Vector of states behaves like an array of tensors", "statement": "write_tensor/get_tensor on a MultiComponentVector round-trip; writes to one index or one component do not affect others; vectorised access equals lane-wise scalar access; insert_component/extract_component are inverse; the partitioner of the multicomponent vector maps index i, component d to i*n+d with ownership inherited from i.", "quantifier": "all sizes, indices, component counts, lane counts", "why_tests_cant": "index arithmetic for every size", "anchors": ["source/multicomponent_vector.h: MultiComponentVector", "source/multicomponent_vector.cc: create_vector_partitioner"]}
{"id": "C28", "title": "The SIMD sparse matrix behaves like a sparse matrix", "statement": "For every sparsity pattern, SIMD width and component count, an entry written with write_entry(value,row,col_idx) is returned by get_tensor(row,col_idx), is not affected by writes to other entries, and vectorised reads/writes of a stride equal scalar reads/writes of its rows; no access is out of bounds.", "quantifier": "all sparsity patterns with consistent strides, all SIMD widths and component counts", "why_tests_cant": "index arithmetic over unbounded patterns", "anchors": ["source/sparse_matrix_simd.h", "source/sparse_matrix_simd.template.h: SparsityPatternSIMD::reinit"]}
{"id": "C29", "title": "Transposed access reads the mirrored entry", "statement": "get_transposed_tensor(row,col_idx) returns the entry stored at (col,row) where col = columns(row)[col_idx], for internal, non-internal and ghost rows.", "quantifier": "all structurally symmetric sparsity patterns, SIMD widths, component counts", "why_tests_cant": "index arithmetic over unbounded patterns", "anchors": ["source/sparse_matrix_simd.template.h: reinit (indices_transposed)", "source/sparse_matrix_simd.h: get_transposed_tensor"]}
{"id": "C30", "title": "Ghost row exchange delivers the owner's values", "statement": "After update_ghost_rows every ghost row entry needed by transposed access equals the entry on the owning rank, for every partition into ranks and every message delivery order.", "quantifier": "all partitions, all patterns, all delivery orders", "why_tests_cant": "all rank counts and message orders", "anchors": ["source/sparse_matrix_simd.template.h: reinit (entries_to_be_sent, receive_targets)", "source/sparse_matrix_simd.h: update_ghost_rows_start/finish"]}
{"id": "C31", "title": "Degree of freedom renumberings are permutations with the advertised layout", "statement": "export_indices_first, inconsistent_strides_last and internal_range each produce a permutation of the locally owned indices; afterwards the groups containing exported (consistent) indices come first and the returned counter is exactly the size of this leading block; every internal group has uniform row length.", "quantifier": "all index ranges, export sets, row lengths and group sizes", "why_tests_cant": "combinatorial over unbounded index sets", "anchors": ["source/local_index_handling.h"]}
{"id": "C32", "title": "The async exchange range covers all exported indices", "statement": "Every exported locally internal index is smaller than n_export_indices, so that the asynchronous exchange is never started before all exported values have been computed.", "quantifier": "all partitioner import ranges", "why_tests_cant": "depends on how import ranges straddle the internal/owned boundary", "anchors": ["source/offline_data.template.h: setup (n_export_indices)"]}
{"id": "C33", "title": "Lazily computed objects are created exactly once", "statement": "For any number of threads and any schedule the creator of a Lazy object runs exactly once until reset, every caller of value() sees the fully constructed object, and a throwing creator leaves the object uninitialised so that a later call retries.", "quantifier": "all thread counts and interleavings", "why_tests_cant": "interleavings", "anchors": ["source/lazy.h: Lazy"]}
{"id": "C34", "title": "The ghost exchange payload runs exactly once", "statement": "For every number of threads and every order in which threads pass check() the payload of a SynchronizationDispatch runs exactly once before the destructor returns, and if started asynchronously not before every thread has signalled that its exported indices are done.", "quantifier": "all thread counts, schedules and condition patterns", "why_tests_cant": "interleavings", "anchors": ["source/openmp.h: SynchronizationDispatch"]}
{"id": "C35", "title": "Conserved and primitive variables convert losslessly", "statement": "from_primitive_state and to_primitive_state are inverse to each other on states with positive density (water depth), for Euler, Euler with arbitrary EOS and shallow water.", "quantifier": "all states with positive density / wet states, all space dimensions", "why_tests_cant": "continuum of states", "anchors": ["source/euler/hyperbolic_system.h", "source/euler_aeos/hyperbolic_system.h", "source/shallow_water/hyperbolic_system.h: from_primitive_state, to_primitive_state"]}
{"id": "C36", "title": "Slip and no-slip conditions remove exactly the normal (all) momentum", "statement": "For a unit normal the slip condition yields momentum orthogonal to the normal, keeps the tangential part, density and energy, and is idempotent; no-slip zeroes the momentum and keeps the rest.", "quantifier": "all states, all unit normals, all dimensions", "why_tests_cant": "continuum of states", "anchors": ["source/euler/hyperbolic_system.h: apply_boundary_conditions", "source/euler_aeos/hyperbolic_system.h", "source/shallow_water/hyperbolic_system.h"]}
{"id": "C37", "title": "Prescribing a Riemann characteristic keeps the other one", "statement": "The state built for dynamic boundary conditions has the incoming Riemann invariant of the boundary data and the outgoing Riemann invariant of the interior state, together with the tangential velocity and entropy of the upstream one of the two (boundary data at inflow, interior state at outflow); at supersonic inflow it is the boundary data and at supersonic outflow the interior state.", "quantifier": "all admissible states and unit normals", "why_tests_cant": "continuum of states", "anchors": ["source/euler/hyperbolic_system.h: prescribe_riemann_characteristic", "source/shallow_water/hyperbolic_system.h: prescribe_riemann_characteristic"]}
{"id": "C38", "title": "A lake at rest stays at rest", "statement": "For the shallow water equations with arbitrary bathymetry, the low-order update, the high-order update and the limited update of a state with zero momentum and constant free surface leave it unchanged, and so does any number of time steps between walls.", "quantifier": "all bathymetries, all meshes with zero row sums of c_ij", "why_tests_cant": "all meshes and bathymetries", "anchors": ["source/shallow_water/hyperbolic_system.h: star_state, flux_divergence, high_order_flux_divergence, affine_shift", "source/hyperbolic_module.template.h: step"]}
{"id": "C39", "title": "Bottom friction never reverses or amplifies the flow", "statement": "The Manning friction source keeps the depth unchanged and an explicit update with it yields a momentum that is a multiple in [0,1] of the old momentum.", "quantifier": "all states, time steps and Manning coefficients >= 0", "why_tests_cant": "continuum of states including dry ones", "anchors": ["source/shallow_water/hyperbolic_system.h: manning_friction"]}
{"id": "C40", "title": "Hydrostatic reconstruction never creates water", "statement": "Equilibrated star states have a water depth between 0 and the depth of the state they are built from, and vanish when the neighbouring bottom is above the water surface.", "quantifier": "all depths and bathymetries", "why_tests_cant": "continuum", "anchors": ["source/shallow_water/hyperbolic_system.h: star_state, equilibrated_states"]}
{"id": "C41", "title": "Every scheduled mesh adaptation happens once and not early", "statement": "With fixed adaptation time points every time point triggers at most one adaptation, no adaptation happens before the earliest outstanding time point, and an adaptation is requested at the first step at or past an outstanding time point.", "quantifier": "all time point lists and all sequences of step times", "why_tests_cant": "histories", "anchors": ["source/mesh_adaptor.template.h: prepare, analyze", "source/time_loop.template.h: run"]}
{"id": "C42", "title": "Exactly one equation is dispatched", "statement": "Running with a parameter file executes exactly one time loop, that of the equation and dimension selected, or raises an error; it never runs two and never exits silently having run none.", "quantifier": "all registered equation lists, all parameter values", "why_tests_cant": "all registration lists", "anchors": ["source/equation_dispatch.h: EquationDispatch::dispatch, Dispatch"]}
{"id": "C43", "title": "Enum valued parameters survive a write/read cycle", "statement": "For each declared parameter enumeration, converting to a string and back yields the same value, every accepted string converts to exactly one value, and any string not in the table is rejected.", "quantifier": "all enumeration values and all strings", "why_tests_cant": "all strings", "anchors": ["source/patterns_conversion.h", "source/time_integrator.h", "source/discretization.h", "source/mesh_adaptor.h: DECLARE_ENUM"]}
{"id": "C44", "title": "Selected output components are written in the order requested", "statement": "The k-th extracted vector is the k-th requested component; if a name exists in several categories conserved wins over primitive, over precomputed, over initial precomputed, over alpha; unknown names are rejected by check.", "quantifier": "all selections and all component name lists", "why_tests_cant": "lists of unbounded length", "anchors": ["source/selected_components_extractor.h"]}
{"id": "C45", "title": "Schlieren output is normalised", "statement": "Postprocessed schlieren quantities lie in [0,1) in magnitude, keep the sign of the raw quantity, are monotone in its magnitude and vanish at the minimum.", "quantifier": "all vectors, all beta >= 0", "why_tests_cant": "vectors of unbounded length", "anchors": ["source/postprocessor.template.h: compute"]}
{"id": "C46", "title": "Time averages are trapezoidal averages of the accumulated samples", "statement": "The time-averaged statistics written are the trapezoidal rule integral of the accumulated space averages divided by the length of the accumulation window.", "quantifier": "all sequences of accumulation times and values, all positions of write-outs", "why_tests_cant": "histories", "anchors": ["source/quantities.template.h: accumulate, write_out, clear_statistics"]}
{"id": "C47", "title": "The initial configuration transform is a rigid motion", "statement": "The point transform and the vector transform of the initial state are inverse rotations, preserve lengths, and map the configured direction to the x axis.", "quantifier": "all directions, positions and points, dimensions 2 and 3", "why_tests_cant": "continuum of directions", "anchors": ["source/initial_values.template.h: affine_transform, affine_transform_vector"]}
{"id": "C48", "title": "Boundary map entries are consistent after merging", "statement": "After merging the face contributions, a degree of freedom has a boundary entry exactly if it had a contribution; every contributed boundary id survives and none is invented (in 2D slip may become no-slip); every entry is the sum of the contributions merged into it, with a normal of length just below one; every contribution is counted exactly once, entries with the same id are never within 60 degrees of each other, and the result does not depend on the order in which cells are visited; in 2D a degree of freedom never keeps two slip conditions unless it is no-slip anyway. The coupling boundary pairs are exactly the stencil entries between boundary degrees of freedom.", "quantifier": "all lists of face contributions, all degrees of freedom, all dimensions", "why_tests_cant": "lists of unbounded length, continuum of normals", "anchors": ["source/offline_data.template.h: construct_boundary_map, collect_coupling_boundary_pairs"]}
{"id": "C49", "title": "The surrogate gamma reproduces the pressure of the equation of state", "statement": "For the arbitrary equation of state solver, evaluating the surrogate pressure with the surrogate gamma of (U,p) gives back p for every covolume b, reference pressure p_inf and reference energy q with 1 - b rho > 0 and positive shifted internal energy.", "quantifier": "all admissible states and interpolation parameters", "why_tests_cant": "continuum", "anchors": ["source/euler_aeos/hyperbolic_system.h: surrogate_gamma, surrogate_pressure"]}
{"id": "C50", "title": "Constrained degrees of freedom are skipped consistently by the vectorised equation of state interface", "statement": "The variant of the precomputation loop that calls the equation of state on whole vectors computes the same precomputed values, on the same set of degrees of freedom, as the variant that calls it for every degree of freedom.", "quantifier": "all index ranges [left,right), all patterns of constrained rows", "why_tests_cant": "depends on the offset of the range and the pattern of constrained rows", "anchors": ["source/euler_aeos/hyperbolic_system.h: precomputation_loop"]}
{"id": "C51", "title": "The equation-of-state surrogates are internally consistent", "statement": "For the built-in equations of state, pressure(rho, specific_internal_energy(rho,p)) = p and specific_internal_energy(rho, pressure(rho,e)) = e wherever density and covolume are admissible.", "quantifier": "all densities, pressures and energies in the admissible range", "why_tests_cant": "continuum", "anchors": ["source/euler_aeos/equation_of_state_polytropic_gas.h", "source/euler_aeos/equation_of_state_noble_abel_stiffened_gas.h", "source/euler_aeos/equation_of_state_van_der_waals.h", "source/euler_aeos/equation_of_state_jones_wilkins_lee.h"]}
{"id": "C52", "title": "The linearised eigenvectors and fluxes are consistent with the Euler flux", "statement": "The flux returned for a state is the Euler flux of its density, momentum and energy (rotationally equivariant, Galilei covariant) and the flux divergence between two states is antisymmetric under exchanging the states together with reversing c_ij.", "quantifier": "all states, vectors c_ij, dimensions", "why_tests_cant": "continuum", "anchors": ["source/euler/hyperbolic_system.h: f, flux_divergence"]}
{"id": "C53", "title": "Limited compressible-flow updates satisfy the minimum principle on the specific entropy", "statement": "If the low-order state respects the density bounds and has specific entropy at least s_min, then U + s P for every 0 <= s <= t, with t the coefficient returned by the Euler limiter, has specific entropy at least s_min (in particular positive density and internal energy if the bounds are positive), independent of the number of Newton iterations, the tolerance and the other SIMD lanes. (Violated with a positive machine epsilon: the limiter accepts updates that miss the bound by the factor 1 + vacuum_small eps.)", "quantifier": "all bounds, states, directions, Newton settings, lanes, and all coefficients below the returned one", "why_tests_cant": "relies on a Newton iteration approaching the root of a nonlinear function from the good side for every 3-convex profile", "anchors": ["source/euler/limiter.template.h: Limiter::limit", "source/newton.h: quadratic_newton_step"]}
{"id": "C54", "title": "The relaxed upper density bound respects the maximal compressible density", "statement": "The upper density bound returned by the arbitrary equation of state limiter's bounds(hd_i) never exceeds the maximal compressible density 1/b of the interpolatory co-volume equation of state.", "quantifier": "all accumulated bounds, mesh sizes hd_i, relaxation factors and co-volumes b > 0", "why_tests_cant": "depends on the interplay of two relaxation formulas for every real value of the accumulated bounds", "anchors": ["source/euler_aeos/limiter.h: Limiter::bounds"]}
{"id": "C55", "title": "Limited shallow-water updates respect the velocity and kinetic energy bounds", "statement": "If the low-order state has depth within [h_min,h_max], h_min >= 0, and satisfies |m|^2 <= v2_max h^2 (respectively |m|^2/2 <= kin_max h), then so does U + s P for every 0 <= s <= t where t is the coefficient returned by the shallow water limiter with limiting on the square velocity (respectively the kinetic energy) switched on.", "quantifier": "all bounds, states, directions, Newton tolerances, lanes, and all coefficients below the returned one", "why_tests_cant": "the limiter takes one Newton step with a derivative that does not match the limited function; that the step is nevertheless conservative is a statement about all quadratics", "anchors": ["source/shallow_water/limiter.template.h: Limiter::limit", "source/newton.h: quadratic_newton_step"]}
{"id": "C56", "title": "The shallow-water wave speed estimate bounds every wave of the exact Riemann solution", "statement": "For every pair of wet states and every unit direction, the value returned by the shallow water Riemann solver is at least the modulus of the speed of the left-most wave (if it moves to the left) and of the right-most wave (if it moves to the right) of the exact solution of the Riemann problem.", "quantifier": "all wet states, directions, gravity constants, and the depth of the star region", "why_tests_cant": "compares a closed-form estimate with the root of a transcendental equation for all real data, including the branch that is dead code", "anchors": ["source/shallow_water/riemann_solver.template.h: compute_h_star, compute_lambda, compute"]}
{"id": "C57", "title": "Every time stepping scheme conserves what its sub steps conserve", "statement": "If boundary conditions, hyperbolic and parabolic sub steps leave a linear functional of the state vector unchanged, then so does one time step of every scheme; in particular on a mesh without boundary every explicit scheme conserves total mass, momentum and energy exactly for every CFL number and time step size.", "quantifier": "all schemes, all linear functionals, all state vectors and step sizes", "why_tests_cant": "holds because all linear combinations in the schemes are affine; a coefficient off in the last digits is not visible in a test", "anchors": ["source/time_integrator.template.h: step_*"]}
{"id": "C58", "title": "Explicit time stepping schemes stay in every convex invariant set of the sub step", "statement": "If a convex set is invariant under the boundary conditions and the hyperbolic sub step, then one time step of every explicit scheme stays in it. (False for the Strang schemes, whose Crank-Nicolson extrapolation is not a convex combination.)", "quantifier": "all explicit schemes, all convex sets, all state vectors", "why_tests_cant": "quantifies over all convex sets and histories of sub steps", "anchors": ["source/time_integrator.template.h: step_*"]}
{"id": "C59", "title": "A hyperbolic step depends on nothing but its arguments", "statement": "The result of a hyperbolic step on the unconstrained degrees of freedom, its time step size, and whether a restart or a warning is raised depend only on the values of the old and stage vectors at unconstrained degrees of freedom and on their precomputed values: not on scratch matrices left over from earlier steps, not on the previous content of the output vector, not on constrained degrees of freedom.", "quantifier": "all meshes, equations, states, stages, scratch contents", "why_tests_cant": "a stale read shows only for particular histories of steps", "anchors": ["source/hyperbolic_module.template.h: step"]}
{"id": "C60", "title": "The limiter's success flag means what it says", "statement": "The flag returned next to the limiter coefficient is cleared whenever the low-order density, water depth or scalar value of any lane violates its bounds by more than the documented tolerance, and it is set whenever all low-order states respect the bounds and the entropy inequality. (The entropy inequality is not checked if the density alone already forces the coefficient down to t_min.)", "quantifier": "all bounds, low-order states, antidiffusive updates, lanes, tolerances, iteration numbers", "why_tests_cant": "a flag that is never cleared looks like a perfectly stable scheme in every test", "anchors": ["source/euler/limiter.template.h: Limiter::limit", "source/euler_aeos/limiter.template.h: Limiter::limit", "source/shallow_water/limiter.template.h: Limiter::limit", "source/scalar_conservation/limiter.template.h: Limiter::limit"]}
{"id": "C61", "title": "Space averaged time series are complete", "statement": "The entries written to the time series file of a space averaged manifold, followed by those not yet written, are the samples of all time steps, each exactly once and in order, in a file that starts with a header. (False: a mesh adaptation discards unwritten samples, and only the first manifold gets a fresh file.)", "quantifier": "all histories of samples, write-outs and mesh adaptations, any number of manifolds", "why_tests_cant": "depends on the interleaving of samples, write-outs and adaptations", "anchors": ["source/quantities.template.h: accumulate, write_out, prepare, clear_statistics"]}
{"id": "C62", "title": "The speed of sound belongs to the pressure", "statement": "For every built-in equation of state the value returned by speed_of_sound(rho,e) is the thermodynamic speed of sound of its pressure function: c^2 = dp/drho + (p/rho^2) dp/de. (False for Jones-Wilkins-Lee already with the default parameters.)", "quantifier": "all densities, energies and material parameters with a nonnegative radicand", "why_tests_cant": "a statement about derivatives at every point of a continuum and for every material parameter", "anchors": ["source/euler_aeos/equation_of_state_polytropic_gas.h: speed_of_sound", "source/euler_aeos/equation_of_state_noble_abel_stiffened_gas.h: speed_of_sound", "source/euler_aeos/equation_of_state_van_der_waals.h: speed_of_sound", "source/euler_aeos/equation_of_state_jones_wilkins_lee.h: speed_of_sound"]}
{"id": "C63", "title": "The temperature satisfies the thermal equation of state with the configured constants", "statement": "For every built-in equation of state pressure and temperature satisfy the thermal equation of state (p = rho R T for the polytropic gas and its analogues) with the constants given in the parameter file. (False: the heat capacity is computed from the default constants before the parameter file is read.)", "quantifier": "all parameter files, densities and energies", "why_tests_cant": "depends on the order of construction and parameter parsing, for every parameter value", "anchors": ["source/euler_aeos/equation_of_state_polytropic_gas.h: PolytropicGas, temperature", "source/euler_aeos/equation_of_state_noble_abel_stiffened_gas.h: temperature", "source/euler_aeos/equation_of_state_van_der_waals.h: temperature", "source/euler_aeos/equation_of_state_jones_wilkins_lee.h: temperature"]}
{"id": "C64", "title": "The Euler wave speed bounds the exact wave speeds", "statement": "For any two admissible states and any unit normal the wave speed estimate returned by the Riemann solver of the Euler equations is at least as large as the speed of the left-most and of the right-most wave of the exact solution of the Riemann problem. (False with the default parameters when the solution has one shock and one rarefaction, and for gamma > 5/3.)", "quantifier": "all pairs of admissible states, unit normals, gamma > 1, numbers of Newton iterations and contents of the other SIMD lanes", "why_tests_cant": "an inequality against the root of a transcendental equation, over a continuum of states", "anchors": ["source/euler/riemann_solver.template.h: compute, p_star_two_rarefaction, p_star_failsafe, compute_lambda, newton"]}
{"id": "C65", "title": "The Euler update keeps density and internal energy positive", "statement": "If all states are admissible (positive density and internal energy) and the time-step size is at most the one computed for cfl <= 1, every bar state and the low-order update of every degree of freedom are admissible, and after the complete step with limiting the density of every degree of freedom is positive and within the bounds of the limiter.", "quantifier": "all meshes, partitions, admissible states, gamma > 1, time-step sizes up to the maximal one, rounding constants eps, numbers of Newton iterations and contents of other SIMD lanes", "why_tests_cant": "positivity must hold for every state near vacuum and every mesh; tests see only a few flows", "anchors": ["source/hyperbolic_module.template.h: step", "source/euler/riemann_solver.template.h: compute", "source/euler/limiter.h: accumulate, bounds", "source/euler/limiter.template.h: limit"]}
{"id": "C66", "title": "The bar states of the Euler equations satisfy a minimum principle for the specific entropy", "statement": "For two admissible states and a wave speed that is at least as large as the speeds of the exact solution of the Riemann problem, the specific entropy of the bar state is at least the smaller of the specific entropies of the two states, so the entropy bound of the limiter is met by the low-order update. The wave speed returned by the Riemann solver is large enough for this.", "quantifier": "all pairs of admissible states, with and without vacuum formation, unit normals, gamma > 1", "why_tests_cant": "an inequality over a continuum of states involving the exact solution of the Riemann problem", "anchors": ["source/euler/hyperbolic_system.h: f, specific_entropy", "source/euler/limiter.h: accumulate", "source/euler/riemann_solver.template.h: compute"]}
{"id": "C67", "title": "A complete Euler step preserves the invariant domain and the local minimum principle of the specific entropy", "statement": "A completed step from admissible states yields admissible states; with relaxation switched off the specific entropy of every degree of freedom is at least the minimum of the old specific entropies in its stencil (continuous ansatz), with relaxation it is at least (1-r) times this minimum, where r is the relaxation radius.", "quantifier": "all meshes, partitions, admissible states, time-step sizes up to the maximal one, indicators, stages and weights, up to two limiter passes", "why_tests_cant": "a property of the composition of Riemann solver, bounds, low-order update and limiter on every mesh", "anchors": ["source/hyperbolic_module.template.h: step", "source/euler/limiter.h: accumulate, bounds, combine_bounds", "source/euler/limiter.template.h: limit", "source/euler/riemann_solver.template.h: compute"]}
{"id": "C68", "title": "The wave speed for an arbitrary equation of state bounds the exact wave speeds", "statement": "For any two admissible states and any unit normal the wave speed estimate returned by the Riemann solver of the Euler equations with arbitrary equation of state is at least as large as the speed of the left-most and of the right-most wave of the exact solution of the extended Riemann problem, in which each state follows its own Nobel-Abel stiffened gas law. (False for a reference pressure p_infty > 0 when the solution has two shocks.)", "quantifier": "all pairs of admissible states with their own gamma > 1, covolume constants, reference pressures, unit normals, strict and non-strict bounds", "why_tests_cant": "an inequality against the root of a transcendental equation, over a continuum of states", "anchors": ["source/euler_aeos/riemann_solver.template.h: compute, p_star_RS_full, p_star_SS_full, p_star_failsafe, p_star_interpolated, phi_of_p_max, c, compute_lambda"]}
{"id": "C69", "title": "Bar states for an arbitrary equation of state are admissible", "statement": "For any two gases and any unit normal, the bar state built with the wave speed returned by the Riemann solver (or a larger one) has positive density, a density below the one the covolume constant permits, and positive internal energy after subtraction of the reference energy and pressure.", "quantifier": "all pairs of states with pressures above -p_infty, covolume constants, reference energies and pressures, unit normals, strict and non-strict mode, all larger speeds", "why_tests_cant": "an inequality over a continuum of states and equations of state, involving the exact solution of the extended Riemann problem", "anchors": ["source/euler_aeos/riemann_solver.template.h: compute", "source/euler_aeos/limiter.h: accumulate", "source/euler_aeos/hyperbolic_system.h: f, flux_contribution"]}
{"id": "C70", "title": "A complete step with an arbitrary equation of state preserves the invariant domain", "statement": "A completed step from gases keeps the density of every degree of freedom positive and within the limiter bounds; the new states respect the covolume constant, have positive shifted internal energy, and their surrogate entropy is not below the (positive) entropy bound of the limiter. (With a covolume and relaxation the density bound itself can exceed the covolume.)", "quantifier": "all meshes, partitions, gases, equations of state, time-step sizes up to the maximal one, indicators, stages and weights, up to two limiter passes", "why_tests_cant": "a property of the composition of precomputed values, Riemann solver, bounds, low-order update and limiter on every mesh", "anchors": ["source/hyperbolic_module.template.h: step", "source/euler_aeos/limiter.h: accumulate, bounds", "source/euler_aeos/limiter.template.h: limit", "source/euler_aeos/riemann_solver.template.h: compute", "source/euler_aeos/description.h: Description"]}
{"id": "C71", "title": "The parabolic step leaves the density alone", "statement": "A completed viscous step does not change the density of any degree of freedom, so mass is conserved exactly.", "quantifier": "all meshes, states, time-step sizes, boundary conditions, linear solvers and restart strategies", "why_tests_cant": "must hold for every mesh and state, also when a solver falls back or a warning is issued", "anchors": ["source/navier_stokes/parabolic_solver.template.h: backward_euler_step"]}
{"id": "C72", "title": "The parabolic step conserves total energy and momentum", "statement": "If the linear systems are solved, a completed viscous step conserves the total energy on every mesh whose boundaries are periodic, do-nothing, no-slip or slip, although velocity and internal energy are updated separately. On periodic meshes it conserves every component of total momentum and of angular momentum; with slip boundaries the momentum along every rigid motion that is tangential to them. If the systems are not solved exactly, the energy error is the tested sum of the residuals. (False at a 3D edge where two slip boundaries meet obliquely.)", "quantifier": "all conforming finite element spaces with hanging node and periodic constraints, states of nonzero density, viscosities, time-step sizes of either sign", "why_tests_cant": "an identity between two discretisations (stress and heating) for every mesh and every state", "anchors": ["source/navier_stokes/parabolic_solver.template.h: backward_euler_step", "source/navier_stokes/parabolic_solver_gmg_operators.h: VelocityMatrix, EnergyMatrix"]}
{"id": "C73", "title": "The parabolic step keeps the internal energy above its minimum or restarts", "statement": "A viscous step that is accepted without a warning has not lowered the minimum of the specific internal energy (of the old state and the Dirichlet data) by more than the relative tolerance, whatever the linear solvers did; with the exception strategy nothing else is ever accepted. On nonobtuse meshes the minimum never decreases and no restart occurs, for every time-step size. (False on meshes with constrained degrees of freedom, where only nonnegativity is ensured.)", "quantifier": "all meshes, states, time-step sizes, boundary data, linear solvers", "why_tests_cant": "a lower bound for every state and every outcome of an iterative solver", "anchors": ["source/navier_stokes/parabolic_solver.template.h: backward_euler_step"]}
{"id": "C74", "title": "The linear systems of the parabolic step always have exactly one solution", "statement": "For every time-step size, positive density and nonnegative viscosity the velocity system and the internal energy system with their boundary conditions have exactly one solution, so a failure to converge is never due to the system itself, and the result of a step does not depend on which of the two solver paths produced it.", "quantifier": "all conforming meshes with constraints, positive densities, nonnegative time-step sizes, right-hand sides, boundary conditions", "why_tests_cant": "solvability for every time-step size and every mesh", "anchors": ["source/navier_stokes/parabolic_solver.template.h: backward_euler_step", "source/navier_stokes/parabolic_solver_gmg_operators.h: VelocityMatrix, EnergyMatrix"]}
{"id": "C75", "title": "The parabolic step dissipates kinetic energy and respects walls", "statement": "A completed viscous step never increases the kinetic energy unless there are Dirichlet boundaries, for every time-step size. The new velocity is zero at no-slip walls and tangential at slip walls, and Dirichlet boundaries carry velocity and internal energy of the prescribed state at the new time. (False at a 3D edge where two slip boundaries meet obliquely.)", "quantifier": "all conforming meshes, states of positive density, nonnegative time-step sizes, viscosities", "why_tests_cant": "stability for every time-step size and mesh", "anchors": ["source/navier_stokes/parabolic_solver.template.h: backward_euler_step", "source/navier_stokes/parabolic_solver_gmg_operators.h: VelocityMatrix"]}
{"id": "C76", "title": "Uniform flow is not changed by the parabolic step", "statement": "A state with constant velocity and constant specific internal energy (and any density) that satisfies the boundary conditions is left unchanged at all unconstrained degrees of freedom by a viscous step of any size whose linear systems are solved, provided slip boundaries meet at right angles only.", "quantifier": "all conforming meshes with constraints, densities, constant velocities and energies, time-step sizes", "why_tests_cant": "a steady state must be steady for every mesh, viscosity and time-step size", "anchors": ["source/navier_stokes/parabolic_solver.template.h: backward_euler_step"]}
{"id": "C77", "title": "Iterations of the Euler wave speed estimate only sharpen it", "statement": "More Newton iterations in the Euler Riemann solver never increase the computed wave speed. If the iteration stops early because the tolerance is met, the wave speed of every SIMD lane lies above the exact one by at most the tolerance. If both waves are rarefactions, the computed speed is the exact one whatever the number of iterations.", "quantifier": "all pairs of admissible states, iteration counts, tolerances and SIMD widths", "why_tests_cant": "accuracy of an iterative estimate over all pairs of states and all lane combinations", "anchors": ["source/euler/riemann_solver.template.h: compute, compute_lambda, compute_gap", "source/newton.h: quadratic_newton_step"]}
{"id": "C78", "title": "Random perturbation of the initial values stays within its bounds", "statement": "The configured random perturbation is applied only at the initial time, never to the analytic solution at later times. It changes each conserved component by at most the configured fraction, and below 100% it keeps density and water depth positive. (It does not protect the internal energy.)", "quantifier": "all initial configurations, points, times, perturbation amplitudes and drawn numbers", "why_tests_cant": "the drawn numbers are random", "anchors": ["source/initial_values.template.h: parse_parameters_callback"]}
{"id": "C79", "title": "Isentropic vortex and smooth wave are solutions of the equations being solved", "statement": "The analytic solutions returned by the 'isentropic vortex' and 'smooth wave' initial states satisfy the compressible Euler equations at every point and time, with positive density and pressure; the smooth wave does so for every equation of state whose energy and pressure functions are inverse to each other.", "quantifier": "all points, times and dimensions (2D/3D for the vortex), all gamma > 1 and vortex strengths below the vacuum limit, all wave parameters and equations of state", "why_tests_cant": "convergence studies compare against these functions; whether they satisfy a differential equation everywhere is not testable at sample points", "anchors": ["source/euler/initial_state_isentropic_vortex.h: compute", "source/euler/initial_state_smooth_wave.h: compute"]}
{"id": "C80", "title": "Rarefaction wave and LeBlanc shock tube are weak solutions", "statement": "The 'rarefaction' initial state is, for every gamma > 1 and all nonnegative times, continuous with positive density and pressure, and solves the Euler equations away from head and tail of the wave. The 'leblanc' state solves them for gamma = 5/3 away from its four wave fronts, is continuous at the head of the rarefaction and satisfies the jump conditions at the contact, and at the other two fronts up to the precision of its decimal constants.", "quantifier": "all points, nonnegative (LeBlanc: positive) times, dimensions, gamma > 1", "why_tests_cant": "a reference solution must satisfy the equations at all points and times", "anchors": ["source/euler/initial_state_rarefaction.h: compute", "source/euler/initial_state_leblanc.h: compute"]}
{"id": "C81", "title": "Shock fronts satisfy the jump conditions", "statement": "The 'shock front' initial state consists of two constant states that satisfy the Rankine-Hugoniot conditions with the speed at which the front is moved; if the front is supersonic with respect to the gas ahead it is an admissible compression shock. The same holds for the incoming shock of the 'icf like' state. (False for equations of state with covolume, and for 'icf like' with a gamma other than 1.4.)", "quantifier": "all pre-shock states, Mach numbers, gamma > 1, points, times and dimensions", "why_tests_cant": "algebraic identities over all configurations", "anchors": ["source/euler/initial_state_shock_front.h: compute", "source/euler/initial_state_icf_like.h: compute"]}
{"id": "C82", "title": "The Noh problem", "statement": "The 'noh' initial state solves the Euler equations behind the shock, and the states on both sides of the shock satisfy the jump conditions with the speed at which the shock moves; ahead of the shock it solves the equations for cold gas. (In two and three dimensions true only for reference velocity 1: the density lacks the velocity factor.)", "quantifier": "all points, positive times, dimensions, gamma > 1, reference densities, velocities and pressures", "why_tests_cant": "a reference solution must satisfy the equations at all points and times", "anchors": ["source/euler/initial_state_noh.h: compute"]}
{"id": "C84", "title": "Becker's viscous shock solves the compressible Navier-Stokes equations", "statement": "The 'becker solution' initial state is, with the exact solution of its velocity equation, a classical solution of the compressible Navier-Stokes equations at every point and time, for Prandtl number 3/4 and no bulk viscosity; that equation has exactly one solution for every position. The limits satisfy the inviscid jump conditions. The root finder ends for every position and returns a velocity within stated bounds of the exact one. (Violated: for some positions a Newton step ends exactly at a limit velocity, and the result is not a number.)", "quantifier": "all points, times, dimensions, gamma > 1, viscosities, left and right velocities; all iteration counts of the root finder", "why_tests_cant": "verification studies of the viscous solver compare against this function everywhere", "anchors": ["source/euler/initial_state_becker_solution.h: compute, find_velocity, psi"]}
{"id": "C85", "title": "The ramp-up state moves monotonically between admissible states", "statement": "The 'ramp up' state equals the initial state until the initial time and the final state from the final time on. In between it is a convex combination of both whose weight is nondecreasing and continuously differentiable in time; so it is admissible whenever both given states are.", "quantifier": "all states, ramp times and times", "why_tests_cant": "boundary data are evaluated at arbitrary times chosen by the time-step control", "anchors": ["source/euler/initial_state_ramp_up.h: compute"]}
{"id": "C83", "title": "Time-dependent shallow water reference solutions solve the equations", "statement": "The states 'paraboloid' (1D and 2D), 'ritter dam break' and 'smooth vortex' are, together with the bathymetry they prescribe, classical solutions of the frictionless shallow water equations at every wet point and in the interior of the dry region; the dam break is continuous with nonnegative depth. (With friction the 1D paraboloid is built for a linear drag term and solves the equations with Manning friction only where both terms agree; the travelling smooth vortex with bathymetry is no solution.)", "quantifier": "all points and times, gravities, friction coefficients, basin, dam break and vortex parameters", "why_tests_cant": "a reference solution must satisfy the equations at all points and times", "anchors": ["source/shallow_water/initial_state_paraboloid.h: compute, compute_bathymetry", "source/shallow_water/initial_state_ritter_dam_break.h: compute", "source/shallow_water/initial_state_smooth_vortex.h: compute, compute_bathymetry"]}
{"id": "C86", "title": "Steady shallow water reference states are steady", "statement": "'Sloping friction' is a uniform flow in which gravity and friction balance, for positive discharge. 'Flow over bump' satisfies the steady frictionless equations: everywhere with Froude number below one for the subsonic case, and for the transcritical case with a subcritical flow upstream of the crest, the critical depth on the crest and a supercritical flow between the crest and the jump. 'Three bumps' with well-balancing validation and equal depths is a lake at rest for every set of nodes. (The transcritical state is no solution between the jump and the end of the bump.)", "quantifier": "all points, later times, gravities (at least 8 m/s^2 in the subsonic case), friction coefficients, slopes, discharges, node sets", "why_tests_cant": "the formulas involve trigonometric roots of a cubic; exactness at all points is not testable", "anchors": ["source/shallow_water/initial_state_sloping_friction.h: compute", "source/shallow_water/initial_state_flow_over_bump.h: compute, compute_bathymetry", "source/shallow_water/initial_state_three_bumps_dam_break.h: compute, compute_bathymetry"]}
{"id": "C87", "title": "The assembled matrices satisfy the identities the scheme relies on", "statement": "For every mesh, partition into cells, set of hanging-node or periodicity constraints and ansatz: the lumped masses sum up to the measure of the domain; the mass matrix is symmetric and its rows, over the stored stencil, sum up to the lumped masses, which are positive for positive shape-function integrals; the rows of c_ij sum up to zero; c_ij applied to a linear function gives the lumped mass times its gradient; c_ij + c_ji is the boundary integral of phi_i phi_j n, so it vanishes unless both nodes lie on the boundary; no entry is lost outside of the stencil; for a discontinuous ansatz the stored inverse is the inverse of the mass matrix and the incidence matrix is symmetric and nonnegative. Consequently on a mesh whose faces all have neighbours a step of the Euler equations conserves the integrals of density, momentum and energy.", "quantifier": "all meshes, numbers of cells, polynomial degrees, constraints, quadrature formulas that are exact for products of shape functions, cG and dG", "why_tests_cant": "debug assertions check the identities on the meshes that happen to be run, and only up to a tolerance", "anchors": ["source/offline_data.template.h: assemble, create_constraints_and_sparsity_pattern", "source/local_index_handling.h: make_extended_sparsity_pattern_dg", "source/scratch_data.h"]}
{"id": "C88", "title": "Boundary conditions are enforced exactly by the preparation of a state vector", "statement": "The boundary pass changes a state only through the boundary entries of its own degree of freedom, in the order of the map. Where slip and no-slip walls meet with orthogonal normals, afterwards the momentum satisfies all of them, density (or depth) and total energy are unchanged, internal energy has not decreased, and repeating the pass changes nothing. Where the last entry is a Dirichlet entry, the state equals the prescribed data at the given time. Admissible states stay admissible for admissible data; with dynamic boundaries for 1 < gamma < 3 and prescribed normal velocities of at most 2 a / (gamma - 1). Lower bounds of the specific entropy that hold for states and data are kept. Unsupported boundary ids are reported. (Oblique 3D edges violate the first wall; fast outflow data at dynamic boundaries produce vacuum.)", "quantifier": "all boundary maps, states, data, times, normals; all equations", "why_tests_cant": "the result depends on the number, order and angles of the walls that meet at a node of an arbitrary mesh", "anchors": ["source/hyperbolic_module.template.h: HyperbolicModule::prepare_state_vector", "source/euler/hyperbolic_system.h: apply_boundary_conditions, prescribe_riemann_characteristic", "source/shallow_water/hyperbolic_system.h: apply_boundary_conditions", "source/scalar_conservation/hyperbolic_system.h: apply_boundary_conditions"]}
{"id": "C89", "title": "The smoothness indicator measures entropy production", "statement": "The entropy derivatives offered by the interface (Harten and mathematical entropy and internal energy of the Euler equations, the surrogate Harten entropy of the arbitrary equation of state, the total energy of the shallow water equations) are the gradients of the corresponding entropies, and each entropy with its flux is an entropy pair. The numerator of the indicator accumulated over a stencil is the discrete entropy production of that pair around the state at the node (for shallow water on stencils whose c_ij sum to zero; for scalar equations of the Kruzkov entropy at the node). Hence for samples of a smooth flow the indicator tends to zero with the mesh size, so the method reduces to its high-order part (for scalar equations on stencils for which the first-order terms cancel, e.g. point-symmetric ones, and a nonzero state).", "quantifier": "all admissible states, all stencils and flux functions, all differentiable families of neighbouring states", "why_tests_cant": "whether a formula is the gradient of another, and a limit under refinement, cannot be settled on samples", "anchors": ["source/euler/indicator.h: reset, accumulate, alpha", "source/euler/hyperbolic_system.h: harten_entropy_derivative, mathematical_entropy_derivative, internal_energy_derivative", "source/euler_aeos/indicator.h", "source/euler_aeos/hyperbolic_system.h: surrogate_harten_entropy_derivative", "source/shallow_water/indicator.h", "source/shallow_water/hyperbolic_system.h: mathematical_entropy_derivative", "source/scalar_conservation/indicator.h", "source/scalar_conservation/hyperbolic_system.h: kruzkov_entropy_derivative"]}
{"id": "C91", "title": "The shallow water solver never produces a negative water depth", "statement": "From nonnegative water depths, every completed step with a time-step size of at most the maximal one ends with nonnegative water depths at every degree of freedom: for every bathymetry, with dry nodes and moving shorelines, with friction, for continuous and discontinuous ansatz, for every limiter setting and number of limiter passes. It suffices that the CFL number is at most 0.9 with dry-state thresholds that are at least a factor of ten apart (defaults: 0.9 and 100), or that the CFL number is at most one and no water leaves through the boundary, or that it is at most 2/3. (With equal thresholds, CFL number one and an open boundary the low-order depth can become negative.)", "quantifier": "all meshes, bathymetries, states with nonnegative depth, parameters, stages, strategies", "why_tests_cant": "wetting and drying fronts over arbitrary bathymetry cannot be enumerated; a single negative depth is not recoverable", "anchors": ["source/hyperbolic_module.template.h: HyperbolicModule::step", "source/shallow_water/riemann_solver.template.h: compute", "source/shallow_water/hyperbolic_system.h: star_state, equilibrated_states, affine_shift, inverse_water_depth_mollified, inverse_water_depth_sharp", "source/shallow_water/limiter.h, limiter.template.h"]}
{"id": "C90", "title": "Guarantees of single updates carry over to complete runs", "statement": "After any number of time steps, with any scheme, any rejected attempts and recoveries in between: conserved quantities on a mesh without boundary have exactly their initial value; a convex set of state vectors that the boundary pass and the updates do not leave is not left by the explicit schemes. For scalar equations (relaxation off, at least one limiter pass) an update that is not rejected satisfies the maximum principle for every time-step size, so every run with an explicit scheme whose steps were accepted with violations raising an exception stays within the range of initial values and boundary data; within the CFL condition no update is rejected. For the shallow water equations the forward Euler scheme with CFL number at most 0.9 and the default dry-state thresholds never produces a negative depth, whatever the bathymetry and the boundary conditions.", "quantifier": "all meshes, all numbers of time steps, all histories of rejections, schemes, settings, initial states, boundary maps and data", "why_tests_cant": "a run is an unbounded history of updates, rejections and recoveries", "anchors": ["source/time_integrator.template.h: TimeIntegrator::step, step_erk_11, step_*", "source/hyperbolic_module.template.h: HyperbolicModule::step, prepare_state_vector", "source/scalar_conservation/limiter.h", "source/shallow_water/hyperbolic_system.h: apply_boundary_conditions"]}
{"id": "C92", "title": "Runs of the Euler equations stay admissible", "statement": "From admissible initial states and with boundary conditions that keep admissibility, density and internal energy are positive at all nodes after any number of forward Euler time steps, with or without rejected attempts; without relaxation the specific entropy never falls below its smallest initial or boundary value. For a gas with an arbitrary equation of state whose shifted pressure is positive on admissible states, the density stays positive and below the limit set by the covolume and the shifted internal energy stays positive.", "quantifier": "all meshes, all equations of state, all numbers of time steps, all histories of rejections, all admissible initial states", "why_tests_cant": "a run is an unbounded history of updates, rejections and recoveries", "anchors": ["source/time_integrator.template.h: TimeIntegrator::step, step_erk_11", "source/hyperbolic_module.template.h: HyperbolicModule::step", "source/euler/limiter.template.h", "source/euler/riemann_solver.template.h", "source/euler_aeos/hyperbolic_system.h: precomputation_loop", "source/euler_aeos/limiter.template.h", "source/euler_aeos/riemann_solver.template.h"]}
{"id": "C93", "title": "On a domain with boundary, totals change by exactly the flux through the boundary", "statement": "Between the start and the end of an update the total of every conserved quantity changes by minus the time-step size times its flux through the boundary, evaluated with the integrals of phi_j n. With slip or no-slip walls on the whole boundary nothing flows out: total mass and total energy of the Euler equations with any equation of state, and the total water volume for every bathymetry, are the same after any number of time steps, with any history of rejected steps; the total momentum changes by the pressure force on the walls. (Holds for all schemes on flat walls and for the forward Euler and strong stability preserving schemes on curved walls; the other schemes do not conserve mass on curved walls.)", "quantifier": "all meshes with boundary, boundary maps made of slip and no-slip walls, states, limiters, numbers of time steps, histories of rejections", "why_tests_cant": "conservation has to hold for every mesh geometry, every flow and after every number of steps; a test sees one of them up to a tolerance", "anchors": ["source/hyperbolic_module.template.h: HyperbolicModule::step, prepare_state_vector", "source/offline_data.template.h: assemble, construct_boundary_map", "source/time_integrator.template.h: TimeIntegrator::step", "source/euler/hyperbolic_system.h: apply_boundary_conditions, f", "source/shallow_water/hyperbolic_system.h: apply_boundary_conditions, equilibrated_states"]}
{"id": "C94", "title": "Bathymetry read from a GeoTIFF image is placed and interpolated as documented", "statement": "At every point inside of the image the bathymetry is computed without exception and undefined behaviour and equals the bilinear interpolation of the pixels, which are placed by the documented transformation: by the formula of the parameter file with indices from the bottom left, or by the transformation stored in the file, with the bottom left pixel moved to the given origin unless the origin of the file is used. Hence pixels are reproduced, the bathymetry is continuous and within the range of the pixels, and images of inclined planes are reproduced exactly. Outside of the image an exception is thrown. Files that cannot be used are rejected. Water depth is nonnegative with the free surface at the given height or at the ground; constant height without velocity is a lake at rest. (Violated: left of and above the image a negative number is converted to unsigned, which is undefined; a degenerate transformation is not rejected.)", "quantifier": "all images up to 2^31 - 1 pixels, all transformations, parameter combinations and points", "why_tests_cant": "image sizes, transformations and points are unbounded; reads out of bounds need not show up in a test", "anchors": ["source/shallow_water/initial_state_geotiff.h: GeoTIFF::compute_bathymetry, read_in_raster, apply_transformation, apply_inverse_transformation, compute, initial_precomputations"]}
{"id": "C95", "title": "Elementary initial configurations describe the documented states", "statement": "Uniform, contrast, three and four state, radial contrast, astrophysical jet and user defined initial states have, at every point and time, the density, velocity and pressure given in the parameter file for the documented region, for the Euler equations and (internal energy by the equation of state) for an arbitrary equation of state; likewise depth and velocity for the shallow water equations; positive density and pressure yield admissible states. Hou's test is at rest with a level surface behind the dam and dry land in front of it; the tank experiments have a continuous channel base with obstacles of the documented size; the soliton travels with its celerity and conserves mass. (Violated: the user defined state of the arbitrary equation of state takes the pressure for the internal energy; astro jet in 1D is undefined; the radius of the circular dam is compared with a square.)", "quantifier": "all parameters, points, times, user functions and equations of state", "why_tests_cant": "functions of arbitrary parameters, points and user-supplied expressions", "anchors": ["source/euler/initial_state_uniform.h, initial_state_contrast.h, initial_state_three_state_contrast.h, initial_state_four_state_contrast.h, initial_state_radial_contrast.h, initial_state_astro_jet.h, initial_state_function.h", "source/shallow_water/initial_state_uniform.h, initial_state_contrast.h, initial_state_function.h, initial_state_hou_test.h, initial_state_transient.h, initial_state_soliton.h, initial_state_circular_dam_break.h"]}
{"id": "C96", "title": "Curved coarse cells reproduce their boundary", "statement": "The map from the unit square or cube to a coarse cell takes each vertex to the vertex, each edge to the line and each face to the face of the cell: to the curve or surface of the manifold prescribed for it, to the straight segment or the Coons patch of the four lines otherwise. It is the transfinite interpolation of Gordon and Hall; cells marked as flat give the same map as the general formula, parallelograms and parallelepipeds an affine one. Two cells with a common line agree on it, so the mesh has no gaps. (In three dimensions contributions with a weight below 1e-13 are dropped: exact if no weight is that small without being zero, otherwise up to 1.8e-12 times the size of the coordinates.)", "quantifier": "all cells, all combinations of manifold ids of lines and faces, all manifolds, all points", "why_tests_cant": "2^18 combinations of manifold ids in 3D times arbitrary manifolds and points; gaps between cells show up only for particular orientations", "anchors": ["source/transfinite_interpolation.template.h: compute_transfinite_interpolation, initialize, push_forward"]}
{"id": "C97", "title": "New mesh points are placed in a cell that contains their neighbours", "statement": "Inverting the map of a cell yields either the sentinel for 'not in this cell' or a point of 1.2 times the unit cell that is mapped to the given point up to the tolerance (before one last linear correction) and is no worse than the guess; for affine cells the inversion is exact. New points are placed in the nearest candidate cell in which all surrounding points lie; an exception is thrown exactly if there is none; no cell outside of the mesh is read. Several new points at once agree with one at a time; in meshes of parallelograms or parallelepipeds new points are the weighted means of the surrounding ones. (Violated: only 20 candidates are looked at; an iteration that stalls close to the solution is reported as 'not in this cell' although the code intends to return the best estimate.)", "quantifier": "all maps, points, guesses, meshes, weights", "why_tests_cant": "a quasi-Newton iteration with line search over arbitrary maps and meshes", "anchors": ["source/transfinite_interpolation.template.h: pull_back, push_forward_gradient, get_possible_cells_around_points, compute_chart_points, get_new_point, get_new_points"]}
{"id": "C98", "title": "Refining the airfoil mesh keeps its vertices on the airfoil", "statement": "The chart of the airfoil manifold is inverted exactly, its first coordinate is one exactly on the profile, and hence every vertex that refinement inserts between vertices on one side of the profile lies on the profile, for every profile. The parametrisations made from the samples pass through the samples, join at the two ends of the nose, and have the requested length; the trailing edge lies where both sides end. The grading manifold keeps the order of the layers and moves points by no more than a multiple of its offset of 1e-14; extrusion works in the plane and averages the height. (Violated: the grading maps are not inverse to each other; the average of a single point reads a weight that does not exist; more than 100 points overrun a buffer in the extruded manifold.)", "quantifier": "all parametrisations of the two sides and the nose, all points, weights and numbers of points, all gradings", "why_tests_cant": "every refinement level and every profile produces other points", "anchors": ["source/geometry_airfoil.h: Manifolds::AirfoilManifold, GradingManifold, ExtrudedManifold, create_psi, airfoil"]}
{"id": "C99", "title": "Airfoil sections of the NACA series are generated as defined", "statement": "For a serial number of four digits with positive thickness and at least two samples, the samples are those of the section: the points of upper and lower side at the abscissa x are at the distance of the prescribed thickness distribution on the normal of the camber line, which starts and ends on the chord and has the prescribed maximum at the prescribed position; the thickness is positive between the two ends and zero there. Sections without camber are symmetric with increasing abscissae. Serial numbers with zero thickness are rejected. (Violated: with camber and many samples the abscissae are not increasing; the trailing edge is sharp, which an assertion forbids; a first digit without second digit, and fewer than two samples, are not rejected.)", "quantifier": "all serial numbers and numbers of samples", "why_tests_cant": "the number of samples is unbounded, and whether the abscissae increase depends on it", "anchors": ["source/geometry_airfoil.h: naca_4digit_points, create_psi"]}
{"id": "C100", "title": "Boundary ids of the built-in geometries are the documented ones", "statement": "Every boundary face of the coarse mesh of the rectangular domain, wall, Mach step, cylinder, wave tank and airfoil gets the boundary condition the documentation names for it, also after extrusion; a rectangular domain is accepted exactly if periodic sides come in pairs, and these are the directions made periodic; the corner of the step is rounded off by the circle touching both sides. (Violated: corners in the wrong order, or a cell size below 1e-8, give wrong ids silently; the wall's front part of the bottom is documented as do-nothing; the step's mesh has a slit unless the step is at a fifth of the length, and is dented for lengths below 1.2; the default wave tank is inadmissible; the faces behind a long airfoil cannot be classified.)", "quantifier": "all parameters of the geometries, all faces, numbers of subdivisions and dimensions", "why_tests_cant": "parameters and subdivisions are unbounded; absolute tolerances fail for particular combinations only", "anchors": ["source/geometry_rectangular_domain.h", "source/geometry_wall.h", "source/geometry_step.h", "source/geometry_cylinder.h", "source/geometry_tank.h", "source/geometry_airfoil.h"]}
{"id": "C101", "title": "Reported errors are the norms of the difference to the exact solution", "statement": "For every distribution of the mesh over ranks, the three error norms reported at the end of a run are the sums, over the requested components, of the largest coefficient, the integral of the absolute value and the root of the integral of the square of the difference between computed and exact solution on the whole mesh, relative to the same norm of the exact solution if normalisation is on; the number of ranks does not matter. The exact solution has no error. For elements of degree at most two on parallelepipeds the L2 norm is exact, and on all meshes a vanishing L1 or L2 error means there is no error. Requesting a quantity that is no conserved component is reported as an exception. (Violated: with normalisation, the default, the errors are not finite if a component of the exact solution vanishes; for cubic elements the quadrature formula is too weak: there are nonzero errors reported as zero on every uniform mesh.)", "quantifier": "all meshes, distributions over ranks, solutions, lists of error quantities", "why_tests_cant": "the norms are sums over arbitrary meshes and distributions; that a norm does not vanish for any nonzero error cannot be sampled", "anchors": ["source/time_loop.template.h: TimeLoop::compute_error"]}
{"id": "C102", "title": "Level set output contains the cells the level sets pass through, under distinct file names", "statement": "A cell is in the level set output exactly if it is active, known to the rank and one of the level set functions has vertices of the cell on both sides up to the tolerance; so only cells near the level set are written, for planes exactly those whose convex hull comes within the tolerance of the plane, and no active cell of the distributed mesh is lost. Files of different cycles and of the two kinds of output have different names. (Violated: curved level sets that do not separate vertices are missed; ghost cells are not excluded, so a cell is written once per rank that has it as its own or as a ghost cell.)", "quantifier": "all meshes, level set functions, tolerances, distributions over ranks, cycles", "why_tests_cant": "level set functions and meshes are arbitrary; duplicates only occur in parallel runs", "anchors": ["source/vtu_output.template.h: VTUOutput::schedule_output"]}
{"id": "C104", "title": "The result of a time step does not depend on numbering, storage order, partition and leftover memory", "statement": "Renumbering the degrees of freedom, storing the columns of the rows in another order, distributing rows over other ranks or SIMD groups (which decides for every pair which of the two viscosities is computed and which is copied) and arbitrary leftover content of scratch memory and of the output vector do not change a time step in exact arithmetic: it ends in the same way, with the same step size and the same counters, and corresponding degrees of freedom get the same states; so do complete runs of any length with any explicit scheme, rejections and recoveries, including boundary conditions. (Violated for discontinuous elements: the limiter bounds are extended over the stencil in place inside a parallel loop, so they depend on the order in which threads process rows. Also violated for the Euler equations with arbitrary equation of state: its Riemann solver is not symmetric for two states of equal pressure with surrogate gamma above 5/3, and which of the two is first depends on the numbering. Excluded: random entropies of the scalar Riemann solver; the Newton iterations of rows grouped in one SIMD call stop jointly, the statement is for one row per call.)", "quantifier": "all meshes, renumberings, column orders, partitions, leftovers, states, stages, tau; scalar, Euler (also with arbitrary equation of state) and shallow water equations", "why_tests_cant": "partitions, numberings and schedules are combinatorially many; differences show up only for particular ones", "anchors": ["source/hyperbolic_module.template.h: HyperbolicModule::step"]}
{"id": "C105", "title": "Results do not depend on the frame of reference; symmetric data stay symmetric", "statement": "Rotating or reflecting mesh, bathymetry and data rotates or reflects the result of a time step: the outcome, the step size and the counters are the same and the new states are the rotated ones. For the shallow water equations this holds for every orthogonal transformation; for the Euler equations for every exchange and reflection of coordinate axes. In particular, if a mesh is symmetric and the data are, the new states are symmetric too (the momentum normal to a mirror plane stays zero on it). Boundary conditions act in the same way in every frame, so this also holds for complete runs of any length with any explicit scheme, rejections and recoveries. (Violated for other rotations of the Euler equations: the entropy viscosity indicator sums the absolute values of the components of the momentum equations, so the same flow seen in a rotated frame gets another viscosity.)", "quantifier": "all meshes, orthogonal transformations, states, stages, tau", "why_tests_cant": "symmetry must hold for all meshes, data and transformations", "anchors": ["source/hyperbolic_module.template.h: HyperbolicModule::step", "source/euler/indicator.h: Indicator::alpha", "source/shallow_water/indicator.h: Indicator::alpha"]}
{"id": "C103", "title": "Uniform flow stays uniform", "statement": "If all unconstrained values of the old vector and of the stages are the same, a time step leaves them exactly as they are: for scalar equations with any flux, for the compressible Euler equations with any state, for any equation of state with uniform pressures, and for water deeper than the dry-state thresholds over a flat bottom without friction or at rest; for all meshes whose vectors c_ij add up to zero in every row (C87), in particular unstructured ones, for all viscosities, indicators and limiters, weights of the stages and time-step sizes. With a row per call such a step is never rejected. After any number of time steps with any explicit scheme, with any rejections and recoveries, and with boundary data equal to that state (tangential to slip boundaries, at rest with no-slip boundaries) the solution is still that state.", "quantifier": "all meshes with vanishing row sums, uniform states, stages, weights, step sizes, limiter passes, schemes, numbers of time steps", "why_tests_cant": "meshes, weights and numbers of steps are unbounded; a violation on particular unstructured meshes shows up as spurious waves of the size of the discretisation error", "anchors": ["source/hyperbolic_module.template.h: HyperbolicModule::step", "source/time_integrator.template.h: TimeIntegrator::step", "source/shallow_water/hyperbolic_system.h: star_state, flux_divergence, high_order_flux_divergence", "source/euler/hyperbolic_system.h: apply_boundary_conditions, prescribe_riemann_characteristic"]}
{"id": "C106", "title": "A time step reads only a bounded neighbourhood", "statement": "With continuous elements the new value at a degree of freedom after one forward Euler or Runge-Kutta stage depends only on the old values (and stage values) at most n + 2 layers of the stencil away, where n is the number of limiter passes (one layer without limiting), apart from the common time-step size: two runs with the same step size whose data agree there get the same value, whatever the data and leftover memory elsewhere are. For a run of k time steps of an explicit scheme with s stages the number of layers is multiplied by k s (precomputed values that read the stencil add one layer per stage), and boundary data outside of these layers have no influence either. (Violated for discontinuous elements: limiter bounds are extended in place while other rows read them, so the last of arbitrarily many degrees of freedom in a row can influence the first.)", "quantifier": "all meshes, states, stages, numbers of limiter passes and time steps, explicit schemes, boundary data, leftovers, equations whose operations read precomputed values of the given degrees of freedom only", "why_tests_cant": "distances and meshes are unbounded; an unwanted dependence shows up only for particular data far away", "anchors": ["source/hyperbolic_module.template.h: HyperbolicModule::step"]}
{"id": "C107", "title": "Running on several MPI ranks gives the result of one process", "statement": "For every distribution of the degrees of freedom over any number of ranks and every content of ghost ranges and scratch memory: preparing a state vector throws on some rank exactly if it throws on one process, and leaves every rank with copies of the prepared vector; a time step ends on all ranks in the same way, with the same step size and counters as on one process, and every rank holds the same new states on the degrees of freedom it owns; so do time steps of all explicit schemes with rejections and recoveries, and complete runs of any length (exact arithmetic, continuous elements). (Violated for discontinuous elements: the limiter bounds of own rows are extended in place, those of ghost rows are not, and there are partitions whose result no order of processing on one process gives.)", "quantifier": "all meshes, distributions over ranks, states, stages, ghost values, leftovers, schemes, numbers of time steps", "why_tests_cant": "partitions are combinatorially many; a forgotten exchange shows up only if stale ghost values differ", "anchors": ["source/hyperbolic_module.template.h: HyperbolicModule::prepare_state_vector, HyperbolicModule::step", "source/openmp.h: SynchronizationDispatch", "source/sparse_matrix_simd.template.h: SparseMatrixSIMD::update_ghost_rows"]}
{"id": "C108", "title": "The approximate power function is accurate and respects the requested bias", "statement": "fast_pow(x, b, bias) approximates the power of every positive normal x for every exponent b with a relative error of the order of single precision, is exact for x = 1, returns infinity, one or zero for x = 0, and with Bias::max (Bias::min) is never smaller (larger) than the power. (Violated: for |b| < 1 the relative error is at most 1e-6, for larger exponents there is a systematic error of 2.1e-4 per unit of the binary exponent of the mantissa's power, because the correction by the low part of log(2) is missing; the bias is ignored: with Bias::max the result is too small and with Bias::min too large for whole ranges of arguments.)", "quantifier": "all positive bases, exponents, biases (exact arithmetic)", "why_tests_cant": "the arguments are a continuum and the existing test records two values, one of which shows the error", "anchors": ["source/simd.h: fast_pow, Bias", "source/simd_fast_pow.template.h: fast_pow_impl"]}
{"id": "C109", "title": "The preconditioners of the parabolic step are positive inverse diagonals", "statement": "The diagonal preconditioner of the multigrid smoother for the velocity and the internal energy is, entry by entry, the inverse of the diagonal of the operator it preconditions, and positive, for every mesh, density, viscosity, step size and boundary map; the preconditioner without multigrid is the inverse of lumped mass times density. (Violated for the velocity at slip boundaries whose normal is not a coordinate direction: entries become negative as soon as the inverse diagonal is large, that is, on fine meshes.)", "quantifier": "all meshes, densities, viscosities, boundary maps, step sizes", "why_tests_cant": "a wrong preconditioner does not change the converged result, only whether and how fast the solver converges; entries turn negative only on fine meshes with oblique slip boundaries", "anchors": ["source/navier_stokes/parabolic_solver_gmg_operators.h: VelocityMatrix::compute_diagonal, EnergyMatrix::compute_diagonal, DiagonalMatrix"]}
{"id": "C110", "title": "Progress reports say what happened since the last report", "statement": "Every report printed during a run gives the average step size, the simulated time per second and the cycles per second since the report before, and the final report those of the complete run; the estimated remaining time approaches the true one if the simulation advances at a constant rate, and is printed as days, hours and minutes. (Violated: after a restart the first and the final report count the time simulated before the restart; the first estimate is five times too long; if nothing is simulated the estimate is undefined behaviour.)", "quantifier": "all sequences of reports, times, cycle numbers, timer values", "why_tests_cant": "reports depend on wall clock times that tests cannot reproduce, and on the history of earlier reports", "anchors": ["source/time_loop.template.h: TimeLoop::print_throughput, TimeLoop::print_head"]}
{"id": "C111", "title": "A time step does not depend on the number of threads nor on their schedule", "statement": "For every number of threads on every rank, every distribution of the rows over the threads in each parallel loop and every interleaving of their accesses to the shared vectors and matrices, a time step ends in the same way (crash, restart request, return), with the same step size, counters and new states; no two threads access the same entry at the same time unless both read; every time step reaches its end under every schedule. (Violated for discontinuous elements: the loop that combines the bounds of a row with those of its neighbours replaces them in place, so that neighbouring rows race and the bounds depend on the schedule.)", "quantifier": "all numbers of ranks and threads, distributions, interleavings, meshes, states, equations, contents of the memory before the step", "why_tests_cant": "the number of interleavings is exponential and a test sees the few its machine produces", "anchors": ["source/openmp.h: RYUJIN_PARALLEL_REGION_BEGIN, RYUJIN_OMP_FOR", "source/hyperbolic_module.template.h: HyperbolicModule::step"]}
{"id": "C112", "title": "The precomputed values of the arbitrary equation of state solver do not depend on the schedule of the threads", "statement": "For every number of threads, every distribution of the rows over the threads and every interleaving of their accesses to single numbers, the preparation of a state leaves in every unconstrained row its pressure, the minimum of the surrogate gammas over its stencil and the two surrogate entropies evaluated with that minimum, and leaves all other rows as they were; no two threads access the same number at the same time unless both read. (Violated: in the second cycle a row reads the pressures of its neighbours while other threads write them; the result does not depend on it only because they are written with the value they have.)", "quantifier": "all numbers of threads, distributions, interleavings, sparsity patterns, states, equations of state, contents of the memory before", "why_tests_cant": "the number of interleavings is exponential and a test sees the few its machine produces; whether a race is harmless depends on all of them", "anchors": ["source/euler_aeos/hyperbolic_system.h: HyperbolicSystemView::precomputation_loop", "source/openmp.h: RYUJIN_OMP_FOR", "source/multicomponent_vector.h: MultiComponentVector::write_tensor"]}
{"id": "C113", "title": "The files of quantities of interest list every point of a manifold once, and values line up with points", "statement": "All MPI ranks together select exactly the unconstrained degrees of freedom on the level set of an interior manifold, each once, with its mass and position. For every history of samples, write-outs and mesh changes, at the end of the run the data lines of a file of instantaneous or time averaged values match the lines of the points file of the mesh they were computed on: line k is the value (or the trapezoidal average of the samples) at the point in line k. The file of the time series has every sample taken before the last write-out once and in order. No file is overwritten by another manifold, cycle or type of file. (Violated: an interior and a boundary manifold of the same name overwrite each other's files.)", "quantifier": "all meshes, partitions, level sets, lists of manifolds with distinct names, histories of calls with distinct cycles", "why_tests_cant": "the correspondence must hold for every partition and every history of mesh changes and write-outs", "anchors": ["source/quantities.template.h: Quantities::prepare, write_mesh_files, internal_write_out, write_out"]}
{"id": "C114", "title": "Mesh, finite element and quadratures are determined by the parameters, also after a restart", "statement": "The geometry is the one named in the parameter file, whatever the order in which the library is searched, and a name that does not exist is an error; the parameter r for the refinement gives 2^(dim r) cells per coarse cell; every execution of the program creates the same mesh; after a restart the program has the mesh that was saved, for every history of adaptations; the adaptation cycles after a restart are those of the uninterrupted run; the name of an ansatz selects the degree and continuity it says, with quadratures that integrate mass and gradient matrices exactly. (Violated: with a mesh distortion the mesh depends on a random device, and a restarted run does not get the displaced vertices back; with random adaptation the restarted run begins with the first random number again.)", "quantifier": "all libraries of geometries, parameters, coarse meshes, manifolds, histories of adaptation cycles, values of the random device", "why_tests_cant": "the space of histories of adaptation cycles is unbounded; the defects show only for runs that are restarted with certain parameters", "anchors": ["source/discretization.template.h: Discretization::prepare", "source/mesh_adaptor.template.h: MeshAdaptor::mark_cells_for_coarsening_and_refinement", "source/time_loop.template.h: TimeLoop::read_checkpoint", "source/geometry_library.h: populate_geometry_list"]}
{"id": "C115", "title": "The skeleton equations leave every state unchanged", "statement": "With the skeleton equations, which have no flux, a time step is never rejected and returns the old state, although the low order update diffuses with a maximal wave speed of one; after any number of time steps with any explicit scheme, boundary ids and boundary data the states are the initial ones. (Violated: without limiter passes the low order update is returned, which changes the states; with discontinuous elements the incidence matrix adds a diffusion across faces to the high order update, which changes the states as well.)", "quantifier": "all meshes with continuous elements, states, time-step sizes, schemes, boundary maps, numbers of steps", "why_tests_cant": "the cancellation between low order update and limited fluxes must hold for every mesh, state and step size", "anchors": ["source/skeleton/hyperbolic_system.h: HyperbolicSystemView", "source/skeleton/riemann_solver.h", "source/skeleton/limiter.h", "source/skeleton/indicator.h", "source/hyperbolic_module.template.h: HyperbolicModule::step"]}
{"id": "C116", "title": "Complete runs of the Navier-Stokes equations conserve mass, momentum and energy and keep states admissible", "statement": "On a closed mesh, for every scheme (operator splitting and implicit-explicit), number of time steps and sequence of step sizes, a run that returns has the initial total mass, momentum and energy; with slip and no-slip walls total mass and energy are kept by the first order implicit-explicit and the second order Strang scheme; a run of the first order implicit-explicit scheme keeps density and internal energy positive. (Violated: the Strang schemes obtain Crank-Nicolson steps by extrapolation, which can lead to a negative internal energy although the sub step has passed the check. Missing: linear solvers with a tolerance; walls for other schemes.)", "quantifier": "all meshes, states, schemes, step sizes, numbers of steps, physical parameters, boundary maps as stated", "why_tests_cant": "the statement concerns every sequence of coupled hyperbolic and parabolic sub steps", "anchors": ["source/parabolic_module.template.h: ParabolicModule::step", "source/navier_stokes/parabolic_solver.template.h: ParabolicSolver::backward_euler_step", "source/time_integrator.template.h: TimeIntegrator::step_imex_11, step_strang_ssprk_33_cn", "source/navier_stokes/description.h"]}
{"id": "C117", "title": "The tabulated equation of state returns the tabulated laws in SI units", "statement": "Pressure and specific internal energy returned by the tabulated equation of state are, in SI units, those tabulated by the database for the material of the parameter file, for single values and for every entry of arrays, whatever has been called before; the database is set up by the first call that finds it, a call without database throws; tables of a polytropic gas give exactly the built-in polytropic gas; if the tables are inverse to each other so are the functions. (Violated: arrays of arguments are overwritten by converted values; states outside of the tables are not reported; temperature and speed of sound are not implemented; a material id parsed after the first call is ignored.)", "quantifier": "all libraries of tables, materials, states, arrays and histories of calls", "why_tests_cant": "a test can only compare a few states of a few tables; the guarantee is about all states and histories of calls, and the library is proprietary", "anchors": ["source/euler_aeos/equation_of_state_sesame.h: Sesame, eospac::Interface", "source/lazy.h: Lazy::ensure_initialized", "source/euler_aeos/hyperbolic_system.h: precomputation_loop"]}
{"id": "C118", "title": "Starting the program runs exactly the chosen equation, or nothing", "statement": "Started with a parameter file, the program ends normally if and only if the file selects a dimension from 1 to 3 and the name of exactly one registered equation driver and has no entry unknown to that driver's time loop and that time loop completes; then exactly this one time loop was run, with the file's last value for every entry that is in the file and the default otherwise. However it ends, at most one time loop was started, never one of another equation or dimension. Started without a parameter file, it writes for every registered driver and every dimension a short and a detailed template that behave exactly like a file that selects just this driver and dimension, and changes no other file. All ranks of a parallel start end alike for every schedule, and none waits forever.", "quantifier": "all parameter files, sets and orders of registered drivers, declarations of parameters, files present at start, numbers of ranks and interleavings of the ranks", "why_tests_cant": "a test starts the program with a few parameter files on one machine; the guarantee is about every parameter file, order of registration and interleaving of the ranks on the file system", "anchors": ["source/main.cc: main, create_prm_files, baseline", "source/equation_dispatch.h: EquationDispatch::dispatch, EquationDispatch::create_parameter_files"]}
{"id": "C119", "title": "Rounding errors cannot push limited states out of bounds by more than a few units of roundoff", "statement": "In floating point arithmetic, for every rounding of IEEE type and every choice of contracted operations: the limiter never returns a coefficient outside of the interval it was asked for; a density (water depth, scalar quantity) that is within its bounds before the limited updates of n neighbours are added up is within them up to 2n+22 units of roundoff of the upper bound after the first round of limiting, and up to 6n+72 units after the second round, although the second round starts from a state that may already be out of bounds; positivity is kept unless the bounds are about 14 orders of magnitude apart; the errors of the first round do not trigger the bounds test of the second one if the bounds differ by a moderate factor. The low-order update from which the limiter starts is within the range of the old state and the intermediate states, up to the rounding errors of the numbers that are added up and the defect of the row sums of the assembled matrices. Without rounding the limiters are those of the other properties. (The bounds themselves are not respected to the last bit: a scalar quantity with a positive lower bound may become negative.)", "quantifier": "all roundings, precisions, contractions, numbers of neighbours, bounds, states, updates, SIMD widths, and all values of the entropy functions and Newton iterates", "why_tests_cant": "rounding errors depend on all bits of the data; a test sees a few of them", "anchors": ["source/euler/limiter.template.h: Limiter::limit", "source/euler_aeos/limiter.template.h: Limiter::limit", "source/shallow_water/limiter.template.h: Limiter::limit", "source/scalar_conservation/limiter.template.h: Limiter::limit", "source/hyperbolic_module.template.h: HyperbolicModule::step (limiter passes)", "source/newton.h: quadratic_newton_step"]}
{"id": "C120", "title": "The final time and the ticks of the timer survive rounding errors", "statement": "In floating point arithmetic and for every time stepping scheme, with the final time enforced: no step ends more than six units of roundoff after the final time; the step that is cut short by the final time is the last one; the loop does not end earlier than 11 eps before the final time; it ends after finitely many steps if every step can be resolved at the final time; every tick of the timer up to the final time produces its output. (Violated: final time 0.3 with a granularity of 0.1 ends without the third output; steps below the resolution of the current time never end.)", "quantifier": "all roundings, schemes, final times and sequences of step sizes", "why_tests_cant": "rounding errors depend on all bits of the step sizes, and termination is about all histories", "anchors": ["source/time_loop.template.h: TimeLoop::run", "source/time_integrator.template.h: TimeIntegrator::step"]}
{"id": "C121", "title": "The result of a step does not depend on how rows are grouped for vector instructions", "statement": "Processing several rows at once changes nothing but the last Newton iterations: the limiter coefficient of a row processed within any group is at least the one of the row processed alone and at most the Newton tolerance larger; the wave speed estimate is at most the Newton tolerance smaller, and equal with the default parameters; scalar equations give the same values exactly; with one limiter pass the new states differ by at most the Newton tolerance times the mean modulus of the limited fluxes and the chosen step size is the same; a group that reports no violation consists of rows that report none alone. (Violated as an equality: two rows can be chosen such that the coefficient is zero alone and half the tolerance in the group; and a low order state below its entropy bound goes unreported alone, but fails the step if a neighbouring row needs a Newton iteration. Missing: more than one limiter pass, shallow water with both stages of the limiter.)", "quantifier": "all numbers of lanes, positions in the group, contents of the other lanes, states, bounds, updates, Newton parameters and meshes", "why_tests_cant": "the groups depend on the numbering of the unknowns, the number of ranks and the width of the vector unit of the machine; a test sees one machine and a few meshes", "anchors": ["source/hyperbolic_module.template.h: HyperbolicModule::step (loops over SIMD groups and single rows)", "source/newton.h: quadratic_newton_step", "source/euler/limiter.template.h: Limiter::limit", "source/euler_aeos/limiter.template.h: Limiter::limit", "source/shallow_water/limiter.template.h: Limiter::limit", "source/scalar_conservation/limiter.template.h: Limiter::limit", "source/euler/riemann_solver.template.h: RiemannSolver::compute"]}
{"id": "C122", "title": "Scalar equations are solved with the chosen flux and its derivative", "statement": "The name in the parameter file selects exactly the flux of this name, any other name throws. The built-in fluxes are evaluated together with their exact derivatives, KPP throws in three dimensions. An expression with one part for every direction gives the flux with these components in the order they are written; its derivative is taken with an error of at most delta^2/6 times a bound on the third derivative and exactly for quadratic fluxes, so that the default expression is Burgers' equation. The flux and the derivative used for a row are those of the state of this row, in one, two and three dimensions. For every user defined flux and all settings the wave speed estimate is a bound for the speed of propagation between two states up to 2 delta times a Lipschitz constant of the derivative, and it never exceeds the largest speed between them, whatever random entropies are drawn. (Violated: an expression with fewer parts than space dimensions - the default in two and three dimensions - is accepted and a component that does not exist is read; for convex user defined fluxes the documented bound fails by a term of the order of delta.)", "quantifier": "all names, orders of the library, expressions, parsers, step sizes, states, directions, settings of the Riemann solver, random numbers, rows and meshes", "why_tests_cant": "fluxes are arbitrary expressions of the user and the guarantees are about all states", "anchors": ["source/scalar_conservation/flux_library.cc: populate_flux_list", "source/scalar_conservation/flux_function.h: Function", "source/scalar_conservation/flux_burgers.h: Burgers", "source/scalar_conservation/flux_kpp.h: KPP", "source/scalar_conservation/hyperbolic_system.h: HyperbolicSystem, flux_function, flux_gradient_function, precomputation_loop, construct_flux_tensor, construct_flux_gradient_tensor", "source/scalar_conservation/riemann_solver.template.h: RiemannSolver::compute"]}
{"id": "C123", "title": "Totals are conserved up to rounding errors", "statement": "In floating point arithmetic one time step on a mesh without boundary changes the total of every conserved quantity (scalar equations, Euler equations with either equation of state, water depth of the shallow water equations over arbitrary bathymetry) by at most a small multiple of the unit roundoff times the sum of the absolute values of everything that is added up; the multiple depends only on the dimension, the number of stages, limiter passes and neighbours. Errors in fluxes, viscosity, indicator and limiter coefficients, however large, do not contribute. Entries of constrained degrees of freedom are not written. Without rounding the step is the one of the exact model.", "quantifier": "all roundings with bounded relative error, choices of contracted multiply-add operations, meshes, states, fluxes, symmetric viscosities, indicators, limiter coefficients, stages, weights and step sizes", "why_tests_cant": "rounding errors depend on all bits of the data; a test sees a few of them", "anchors": ["source/hyperbolic_module.template.h: HyperbolicModule::step (steps 4 to 7)", "source/convenience_macros.h: contract, add", "source/offline_data.template.h: lumped_mass_matrix_inverse", "source/shallow_water/hyperbolic_system.h: equilibrated_states, flux_divergence, high_order_flux_divergence"]}
{"id": "C124", "title": "Rounding errors do not make the density or the water depth negative", "statement": "In floating point arithmetic: the computed time-step size exceeds the CFL bound of no row by more than the errors of n + 4 roundings (n neighbours); the density after the low-order update is at least (1 - CFL) times the old one, up to rounding errors which are small compared to the largest density of the stencil. In double precision it is positive if the densities of a stencil differ by a factor of at most 10^9 and the flow is at most hundred times faster than the wave speeds. The same for the water depth of the shallow water equations over arbitrary bathymetry: the computed equilibrated depths exceed the depth of the state only by rounding errors, and in double precision the low-order depth of a wet node is positive if its neighbours (which may be dry) are at most 10^9 times deeper and the surface is at most 10^12 depths high. After the complete step with two passes of the limiter the result is positive in double precision if the bounds of the limiter contain the low-order updates and are at most 10^12 apart, however inaccurate the high-order fluxes are.", "quantifier": "all roundings with bounded relative error, contractions, meshes with vanishing row sums, rows, densities, momenta, viscosities that bound the wave speeds, and step sizes within the CFL bound", "why_tests_cant": "the guarantee is about all states, in particular nearly vacuum next to dense gas, where tests do not look", "anchors": ["source/hyperbolic_module.template.h: HyperbolicModule::step (steps 3 and 4)", "source/shallow_water/hyperbolic_system.h: star_state, equilibrated_states, inverse_water_depth_mollified"]}
{"id": "C125", "title": "Over a whole run rounding errors change the totals no faster than the number of steps", "statement": "In floating point arithmetic any number of time steps of any explicit scheme (including convex combinations with rounded coefficients, and steps repeated after a restart) on a mesh without boundary changes the total of every conserved quantity by at most a fixed small multiple of the unit roundoff times the sum of the absolute values of everything that was added up during the run. The multiple is that of a single step: it does not grow with the number of steps. A first attempt that ended with a restart does not contribute. Without rounding every run of the exact model is among the runs described.", "quantifier": "all roundings with bounded relative error, contractions, meshes, schemes, numbers of steps, restarts, states, fluxes, symmetric viscosities, indicators and limiter coefficients", "why_tests_cant": "rounding errors accumulate over histories of arbitrary length and depend on all bits of the data", "anchors": ["source/time_integrator.template.h: step_ssprk_22, step_ssprk_33, step_erk_11, step_erk_22, step_erk_33, step_erk_43, step_erk_54, sadd", "source/hyperbolic_module.template.h: HyperbolicModule::step"]}
{"id": "C126", "title": "The chosen equation of state is used, and its formulas mean what they say", "statement": "With the solver for arbitrary equations of state, the name in the parameter file selects the equation of state of this name with the parameters of its own section, in whatever order the library is stored; an unknown name throws. Formulas given by the user are evaluated as written (brackets, products before sums, from left to right) at the density rho and the energy e, or the pressure p for the specific internal energy; formulas in other variables throw; only the formulas read last count; the default formulas are those of a polytropic gas with gamma 7/5. Vectorised calls agree lane by lane with scalar ones. (Violated: without EOSPAC the name of the tabulated equation of state is spelled differently; formulas that are not inverse to each other are accepted.)", "quantifier": "all formulas, parameters, orders of the library, names, histories of parameter files, states and numbers of lanes", "why_tests_cant": "the formulas and their values are arbitrary; tests evaluate a few of them", "anchors": ["source/euler_aeos/equation_of_state_function.h: Function", "source/euler_aeos/equation_of_state_library.cc: populate_equation_of_state_list", "source/euler_aeos/hyperbolic_system.h: HyperbolicSystem, eos_pressure, eos_specific_internal_energy, eos_temperature, eos_speed_of_sound"]}
{"id": "C127", "title": "Everything a simulation writes obeys the guarantees", "statement": "Every state vector that a program lets the outside world see - graphical output, checkpoints, quantities - and every one shown by programs resumed from its checkpoints, by programs resumed from theirs, and so on, obeys the guarantees of the scheme: on a mesh without boundary its totals are exactly those of the initial state; for scalar equations its values stay between the smallest and the largest initial or boundary value; for shallow water its depths are nonnegative; for the Euler equations its density and internal energy are positive and its specific entropy is not below the smallest initial one. Output options, output times, stopping and crash points, rejected attempts and restarts do not matter. (Without mesh adaptation.)", "quantifier": "all equations, meshes, schemes, output options, recoveries, numbers of time steps, stopping points and chains of restarts", "why_tests_cant": "the outputs of all possible programs, stopped anywhere and resumed any number of times, cannot be enumerated", "anchors": ["source/time_loop.template.h: run, output, write_checkpoint, read_checkpoint", "source/time_integrator.template.h: step", "source/hyperbolic_module.template.h: step, prepare_state_vector"]}
{"id": "C128", "title": "Mesh adaptation transfers the solution", "statement": "When the mesh is adapted, the new state vector represents the old finite element function: with elements of degree one, refinement does not change the function, the values at the nodes of the new mesh are those of the old function, in whatever order the cells are processed; refinement conserves the integrals of all conserved quantities; refinement and coarsening do not leave convex sets (bounds; positive density and internal energy). (Violated: the values of constrained degrees of freedom are read without applying the constraints, and after a time step they contain leftovers; coarsening does not conserve; elements of degree two do not keep signs.)", "quantifier": "all dimensions, meshes, patterns of refinement and coarsening, state vectors, orders of cells and convex sets", "why_tests_cant": "meshes, patterns of adaptation and solutions are arbitrary; what constrained degrees of freedom contain depends on the whole history", "anchors": ["source/time_loop.template.h: adapt_mesh_and_transfer_state_vector", "source/mesh_adaptor.template.h: mark_cells_for_coarsening_and_refinement", "source/hyperbolic_module.template.h: step", "source/multicomponent_vector.h: extract_component, insert_component"]}
{"id": "C129", "title": "The annulus geometry removes the covered part of the ring", "statement": "The mesh of the annulus geometry has an obstacle that consists of the cells between the inner and the outer radius that lie within the configured coverage angle of the horizontal axis: every cell of the ring that is covered is removed, every other cell of the ring and all cells inside and outside of the ring are kept.", "quantifier": "all radii, angles and cells of the ring", "why_tests_cant": "radii and angles are arbitrary real numbers; the decision compares positions of faces with absolute tolerances", "anchors": ["source/geometry_annulus.h: GridGenerator::annulus, Geometries::Annulus"]}
{"id": "C130", "title": "Vectorised access to vectors is access to their elements", "statement": "Reading several consecutive or gathered elements of a vector into the lanes of a vectorised number delivers what serial reads deliver, and is undefined only if one of these is; what is written is read back and other elements are left alone; applying a function to all rows with vectorised and serial iterations gives the value of the function in every owned row and leaves the others alone, for every number of lanes and in every order; tensors assigned to a lane are read back from it, without effect on other lanes.", "quantifier": "all vectors, indices, numbers of lanes, numbers of internal and owned rows, schedules of the iterations, ranks and dimensions of tensors", "why_tests_cant": "the number of lanes is fixed when the tests are compiled, the schedule and the number of rows are arbitrary", "anchors": ["source/simd.h: get_entry, write_entry, serialize_tensor, assign_serial_tensor", "source/postprocessor.template.h: compute", "source/navier_stokes/parabolic_solver.template.h: backward_euler_step"]}
{"id": "C131", "title": "The simulation starts from the configuration asked for", "statement": "Every initial configuration that is implemented for an equation can be chosen by its name, the choice does not depend on where the objects lie in memory, and an unknown name or a zero direction is rejected with an exception. The vectors the simulation starts with hold in every degree of freedom the chosen configuration at its support point, moved and turned as configured, for the state and the precomputed values (bathymetry) alike and however many cells share the degree of freedom; a perturbation changes every entry by at most the configured fraction. Consequently admissible configurations give admissible vectors, and a lake at rest gives a lake at rest.", "quantifier": "all equations, orders of the library, names, directions, positions, perturbations and drawn numbers, meshes, numbers of components, times", "why_tests_cant": "the order of the library depends on the memory allocator, and the drawn numbers, points and directions are arbitrary", "anchors": ["source/initial_values.template.h: parse_parameters_callback, interpolate_hyperbolic_vector, interpolate_initial_precomputed_vector", "source/initial_state_library.h: InitialStateLibrary", "source/euler/initial_state_library_euler.h: populate_initial_state_list", "source/shallow_water/initial_state_library_shallow_water.h: populate_initial_state_list"]}
{"id": "C132", "title": "Airfoils chosen by name can be meshed", "statement": "The parameter 'airfoil type' accepts 'NACA ' followed by a serial number of the four digit series (C99) and exactly three other names; every other string ends with an exception. For each of the three tabulated profiles the sample points meet all conditions of the parametrisation: as many ordinates as abscissae, abscissae strictly increasing from 0 to 1, beginning at the nose, upper end above the lower end, and the upper and lower polygons do not touch behind the nose; the upper side has one crest and the lower side one trough followed by at most one hollow. For every interpolating spline, every centre and every length the trailing edge is then accepted as a blunt one.", "quantifier": "all strings, numbers of samples, interpolating splines, centres up to nine tenths of the length in front of the nose and lengths of at least a millionth", "why_tests_cant": "the checks of the samples are assertions that are active in debug builds only, and whether the trailing edge is accepted depends on all parameters", "anchors": ["source/geometry_airfoil.h: Airfoil::create_triangulation, nasa_sc2, onera, bell, create_psi"]}
