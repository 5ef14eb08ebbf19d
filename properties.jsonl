{"id": "C01", "title": "Builder options are last-write-wins", "statement": "After OdeIntegratorBuilder::default and any sequence of option setters, every option of the integrator returned by build() equals the last value given to its setter, or the algorithm's default if the setter was never called. DormandPrince5 leaves all options as set; Radau5 rewrites only reltol, abstol (and fnewt when it was <= 0).", "quantifier": "all sequences of setter calls with all values, both algorithms", "why_tests_cant": "The sequences of setter calls are unbounded; a test only samples a few.", "anchors": ["src/ode/integrator.rs:OdeIntegratorBuilder", "src/ode/options.rs:OdeIntegratorOpts", "src/dorm_prince/dp5/algorithm.rs:default_opts", "src/radau/algorithm.rs:default_opts,new_cache"]}
{"id": "C02", "title": "State of a freshly built integrator", "statement": "build() returns an integrator whose solution contains exactly the initial point (t0,u0), whose return code is Continue, whose statistics are all zero, whose t,tprev are t0, whose u,uprev are u0, whose dt is 1e-6 and whose tdir is 1 with the sign of tfinal-t0. The right-hand side has been evaluated at (t0,u0).", "quantifier": "all right-hand sides, initial vectors of any dimension, time spans, parameters, options", "why_tests_cant": "Quantifies over all problems and dimensions.", "anchors": ["src/ode/integrator.rs:build", "src/ode/solution.rs:OdeSolution::new", "src/ode/statistics.rs:OdeStatistics::new"]}
{"id": "C03", "title": "Radau5 keeps the ratio of the tolerances", "statement": "The tolerances Radau5 works with are reltol' = 0.1*reltol^(2/3) and abstol' = reltol'*(abstol/reltol); for nonzero reltol the ratio abstol'/reltol' equals the ratio the user asked for, both are positive when the user's are, and the error scale of a component is the user's scale times reltol'/reltol.", "quantifier": "all positive tolerances and all component values (exact arithmetic)", "why_tests_cant": "Infinite real domain.", "anchors": ["src/radau/algorithm.rs:new_cache"]}
{"id": "C04", "title": "Options documented but ignored never influence a run", "statement": "dtstart (documented as 'Initial step value') and hess have no influence whatsoever: two integrators that differ only in these options produce, call by call, the same results, solutions, statistics and right-hand-side evaluations; the first step attempted is always 1e-6. For DormandPrince5 the same holds for modern_pred, quot1, quot2, fnewt, use_ext_col, max_newt_iter and for the user-supplied Jacobians; for Radau5 it holds for max_stiff, beta and dfdt.", "quantifier": "all problems, all option values, all histories of step() calls", "why_tests_cant": "Non-interference is a statement about pairs of unbounded runs.", "anchors": ["src/ode/options.rs:OdeIntegratorOpts", "src/ode/integrator.rs:default,build", "src/dorm_prince/dp5/algorithm.rs", "src/radau/algorithm.rs"]}
{"id": "C05", "title": "step() result and integrate()", "statement": "step() returns Some(stats.steps) exactly when the return code after the call is Continue, None otherwise; integrate() returns exactly in the state reached by calling step() until the first None, and the return code is then not Continue.", "quantifier": "all algorithms, states, callbacks and run lengths", "why_tests_cant": "Unbounded run length.", "anchors": ["src/ode/integrator.rs:step,integrate"]}
{"id": "C06", "title": "History is append-only, ts and us stay in step", "statement": "After any number of step() calls (callback not touching sol), sol.ts and sol.us have the same length, the first entry is (t0,u0), and no earlier entry is ever changed or removed.", "quantifier": "all problems, both algorithms, all histories of step() calls, any arithmetic (including NaN and overflow)", "why_tests_cant": "Unbounded histories.", "anchors": ["src/dorm_prince/dp5/algorithm.rs:step", "src/radau/step_size_control.rs", "src/ode/solution.rs"]}
{"id": "C07", "title": "What one step() call records", "statement": "A DormandPrince5 step() that returns appends exactly one point, equal to the integrator's (t,u) at that moment. A Radau5 step() of a run started by build() appends one point equal to (t,u) if the call accepted a step and nothing otherwise, and it accepted exactly when stats.accepts grew by one.", "quantifier": "all problems, states, callbacks not touching sol, any arithmetic", "why_tests_cant": "All states reachable by any history.", "anchors": ["src/dorm_prince/dp5/algorithm.rs:step", "src/radau/algorithm.rs:step", "src/radau/step_size_control.rs"]}
{"id": "C08", "title": "Iterating a solution enumerates its points", "statement": "Both solution iterators yield exactly the pairs (ts[i],us[i]) in order for i below min(len ts, len us), then None forever after the vectors are exhausted.", "quantifier": "all solutions of any length", "why_tests_cant": "Unbounded length.", "anchors": ["src/ode/solution.rs:OdeSolutionIterator,OdeSolutionMutIterator"]}
{"id": "C09", "title": "Iterating an integrator yields every interior point but not the final one", "statement": "For DormandPrince5 without callback, the pairs yielded by `for (t,u) in integrator` are exactly the recorded points with the first (initial) and the last (terminal) removed, so the value at tfinal is never yielded; for Radau5 the pairs yielded are the recorded points without the first, and without the last if the run ended with Success. The consuming and the &mut iterator yield the same sequence and exhausting them leaves the integrator in the state integrate() leaves it in.", "quantifier": "all problems and runs", "why_tests_cant": "Unbounded runs.", "anchors": ["src/ode/integrator.rs:OdeIntegratorIterator,OdeIntegratorMutIterator"]}
{"id": "C10", "title": "Possible return codes", "statement": "DormandPrince5 runs end with Success, MaxIters or DtLessThanMin only; Radau5 runs with Success, MaxIters, DtLessThanMin or SingularMatrix only. Stiff and Failure are never produced.", "quantifier": "all problems, all histories of step() calls without callback, any arithmetic", "why_tests_cant": "All histories.", "anchors": ["src/ode/code.rs:OdeRetCode", "src/dorm_prince/dp5/algorithm.rs:step", "src/radau/algorithm.rs:step", "src/radau/dec.rs"]}
{"id": "C11", "title": "max_steps bounds the run", "statement": "integrate() with DormandPrince5 makes at most max_steps+1 step() calls and records at most max_steps+2 points; with Radau5 at most max(1,max_steps) attempts are made in total and at most max(1,max_steps) points are recorded.", "quantifier": "all problems and options, any arithmetic", "why_tests_cant": "Must hold for every right-hand side and every max_steps.", "anchors": ["src/dorm_prince/dp5/algorithm.rs:step", "src/radau/algorithm.rs:step"]}
{"id": "C12", "title": "Radau5 integrate() always terminates", "statement": "For a system of dimension at least one, every Radau5 step() and integrate() call without callback returns, whatever the right-hand side computes (including NaN and infinities), with an amount of work bounded by max_steps and max_newt_iter.", "quantifier": "all right-hand sides, states, options, any arithmetic", "why_tests_cant": "Non-termination cannot be observed by testing.", "anchors": ["src/radau/algorithm.rs:step", "src/radau/newton.rs:newton", "src/radau/dec.rs:perform_decompositions"]}
{"id": "C13", "title": "DormandPrince5 step() returns for locally bounded right-hand sides", "statement": "In exact arithmetic, if the right-hand side is bounded near (t,u), abstol > 0, reltol >= 0 and the controller options are sane (0<safe<1, 0<facl<1, facr>0, nonnegative error exponent), then step() returns after finitely many rejected attempts.", "quantifier": "all such right-hand sides, states and options (exact arithmetic)", "why_tests_cant": "Termination for every right-hand side.", "anchors": ["src/dorm_prince/dp5/algorithm.rs:step", "src/dorm_prince/dp5/prepare.rs:prepare_next_step", "src/dorm_prince/dp5/error.rs:error"]}
{"id": "C14", "title": "DormandPrince5 step() never returns when the error estimate is never <= 1", "statement": "If every attempt's error estimate fails `<= 1` (for instance because the right-hand side returns NaN, or because the system has dimension zero), step() does not return although DtLessThanMin has been stored; the too-small-step exit is ineffective.", "quantifier": "all right-hand sides producing NaN, all states, any rounding", "why_tests_cant": "Non-termination cannot be observed by testing.", "anchors": ["src/dorm_prince/dp5/algorithm.rs:step lines 65-75"]}
{"id": "C15", "title": "Every recorded DormandPrince5 step is a genuine Dormand-Prince Runge-Kutta step", "statement": "Without callback and for a right-hand side that overwrites its output, consecutive recorded points (t,u),(t',u') satisfy t'=t+h and u' = the explicit Runge-Kutta step with the published Dormand-Prince tableau of size h from (t,u): the reused last stage (first-same-as-last) is always the derivative at the current point.", "quantifier": "all right-hand sides, histories of step() calls, rejected or not", "why_tests_cant": "All histories, including every pattern of rejections.", "anchors": ["src/dorm_prince/dp5/stages.rs:compute_stages", "src/dorm_prince/dp5/prepare.rs", "src/dorm_prince/dp5/constants.rs"]}
{"id": "C16", "title": "Accepted points meet the tolerance", "statement": "Every point DormandPrince5 records after the first was produced by an attempt whose scaled error sqrt(1/n sum((e_i/(abstol+reltol*max(|u_i|,|u'_i|)))^2)) is <= 1, where e is the difference between the 5th order result and the embedded 4th order result of the published pair; every point Radau5 records was produced by an attempt with error estimate < 1.", "quantifier": "all problems and histories", "why_tests_cant": "All histories.", "anchors": ["src/dorm_prince/dp5/error.rs:error", "src/dorm_prince/dp5/prepare.rs", "src/radau/error_estimate.rs", "src/radau/step_size_control.rs"]}
{"id": "C17", "title": "Rejected attempts leave no trace in the solution", "statement": "A rejected attempt changes none of t, u, tprev, uprev, sol.ts, sol.us, stats.accepts, opts, params, tfinal, tdir; in both algorithms only the step size, flags, counters and work arrays change.", "quantifier": "all problems, states, any arithmetic", "why_tests_cant": "All states.", "anchors": ["src/dorm_prince/dp5/prepare.rs lines 78-90", "src/radau/step_size_control.rs lines 120-144", "src/radau/newton.rs"]}
{"id": "C18", "title": "The Dormand-Prince tableau has order 5 with an embedded order 4 method", "statement": "The coefficients satisfy the row-sum conditions, all 17 rooted-tree order conditions up to order 5 for the propagated weights, all 8 up to order 4 for the embedded weights (propagated minus error coefficients), and the embedded method violates an order-5 condition, so the error estimate is not identically of higher order.", "quantifier": "all order conditions of the method (exact arithmetic)", "why_tests_cant": "A mistyped coefficient changes accuracy only asymptotically; tests with loose tolerances still pass.", "anchors": ["src/dorm_prince/dp5/constants.rs"]}
{"id": "C19", "title": "DormandPrince5 integrates polynomials exactly", "statement": "In exact arithmetic, for u' = p(t) with p a vector of polynomials of degree <= 4, one step of any size returns exactly the integral; the error estimate is exactly zero for degree <= 3, so the step is accepted.", "quantifier": "all polynomials, all t, step sizes, dimensions (exact arithmetic)", "why_tests_cant": "Infinite family.", "anchors": ["src/dorm_prince/dp5/stages.rs", "src/dorm_prince/dp5/constants.rs"]}
{"id": "C20", "title": "DormandPrince5 on linear systems is the degree-6 stability polynomial", "statement": "In exact arithmetic, for u' = L u one step of size h returns (sum_{k<=5} (hL)^k/k! + (hL)^6/600) u, for every matrix L, and the error estimate is the corresponding polynomial starting with the fifth power of hL; every recorded step of a run is of this form.", "quantifier": "all matrices of all sizes, all h and u (exact arithmetic)", "why_tests_cant": "Infinite family.", "anchors": ["src/dorm_prince/dp5/stages.rs"]}
{"id": "C21", "title": "DormandPrince5 conserves linear invariants", "statement": "In exact arithmetic, if w.f(t,u)=0 for all t,u then w.u has the same value at every recorded point.", "quantifier": "all w, right-hand sides, histories (exact arithmetic)", "why_tests_cant": "All histories.", "anchors": ["src/dorm_prince/dp5/stages.rs"]}
{"id": "C22", "title": "Equilibria are preserved by DormandPrince5", "statement": "In exact arithmetic, if f(t,u0)=0 for all t then every recorded point equals u0 and no attempt is ever rejected.", "quantifier": "all right-hand sides vanishing at u0, all histories (exact arithmetic)", "why_tests_cant": "All histories.", "anchors": ["src/dorm_prince/dp5/stages.rs", "src/dorm_prince/dp5/error.rs"]}
{"id": "C23", "title": "Time-translation equivariance of DormandPrince5", "statement": "In exact arithmetic, integrating f(t - c, u) from t0+c to tf+c produces the same recorded vectors as f from t0 to tf with all times shifted by c (as long as the too-small-step code is not raised).", "quantifier": "all right-hand sides, shifts and histories (exact arithmetic)", "why_tests_cant": "Statement about pairs of unbounded runs.", "anchors": ["src/dorm_prince/dp5/algorithm.rs", "src/dorm_prince/dp5/stages.rs"]}
{"id": "C24", "title": "Forward DormandPrince5 runs move monotonically inside the time span", "statement": "In exact arithmetic, for t0 < tfinal and sane options, the recorded times are strictly increasing up to the point where Success is reported and none exceeds tfinal.", "quantifier": "all right-hand sides, sane options, histories (exact arithmetic)", "why_tests_cant": "All histories, all rejection patterns.", "anchors": ["src/dorm_prince/dp5/algorithm.rs:step", "src/dorm_prince/dp5/prepare.rs"]}
{"id": "C25", "title": "Success means tfinal was reached", "statement": "In exact arithmetic, without callback, when the return code becomes Success the current time and the last recorded time equal tfinal, for both directions of integration and all options; with DormandPrince5 and sane options this stays true for all later step() calls as well.", "quantifier": "all problems, options and histories (exact arithmetic)", "why_tests_cant": "All histories.", "anchors": ["src/dorm_prince/dp5/algorithm.rs:step", "src/radau/algorithm.rs:step", "src/radau/step_size_control.rs"]}
{"id": "C26", "title": "Backward integration with DormandPrince5 starts in the wrong direction", "statement": "A user expects a run with tfinal < t0 to move towards tfinal. The code's first step always uses a positive dt of 1e-6, i.e. moves away from tfinal, so the first recorded time is greater than t0; as long as no attempt is rejected and dtmax is infinite every step keeps moving away, so such a run can only end with MaxIters.", "quantifier": "all backward problems, all run lengths", "why_tests_cant": "The wrong behaviour lasts for arbitrarily many steps.", "anchors": ["src/ode/integrator.rs:default line 112", "src/dorm_prince/dp5/algorithm.rs:step line 61", "src/dorm_prince/dp5/prepare.rs"]}
{"id": "C27", "title": "Step-size ratio limits", "statement": "After an accepted DormandPrince5 step the proposed step divided by the accepted one lies in [facl, facr] (before the dtmax and after-reject caps); after an accepted Radau5 step which does not end the run the old step divided by the proposal lies in [facr, max(facr, facl)], and the next step is that proposal capped by dtmax, capped by the old step after a rejection, shortened or stretched to tfinal, or replaced by the old step, which happens only if the proposal is between quot1 and quot2 times the old step. The bounds hold whatever the error estimate is, including NaN, infinite or zero, and whatever the stored previous error is.", "quantifier": "all error estimates, options with 0<facl, 0<facr, all states", "why_tests_cant": "All floating-point values of the estimate, including special ones.", "anchors": ["src/dorm_prince/dp5/prepare.rs lines 14-24", "src/radau/step_size_control.rs lines 10-20", "src/ode/options.rs lines 24-27"]}
{"id": "C28", "title": "dtmax limits the proposed step", "statement": "After every accepted DormandPrince5 step, and after every accepted step of a forward Radau5 run with sane options which does not end the run, the next proposed |dt| is at most dtmax; the step actually taken by DormandPrince5 may exceed dtmax only through the stretch to tfinal, by at most a factor 1.01, and the first step (1e-6) ignores dtmax.", "quantifier": "all problems, options and histories", "why_tests_cant": "All histories.", "anchors": ["src/dorm_prince/dp5/prepare.rs lines 70-75", "src/dorm_prince/dp5/algorithm.rs line 61", "src/radau/step_size_control.rs lines 86-96"]}
{"id": "C29", "title": "No growth right after a rejection", "statement": "If a DormandPrince5 step, or a step of a forward Radau5 run with sane options, is accepted after at least one rejected attempt in the same call, the next proposed step is not larger in magnitude than the accepted one.", "quantifier": "all problems and states", "why_tests_cant": "All states.", "anchors": ["src/dorm_prince/dp5/prepare.rs line 73", "src/radau/step_size_control.rs line 88"]}
{"id": "C30", "title": "The right-hand side is only evaluated inside the time span", "statement": "In exact arithmetic, for a forward run with sane options, DormandPrince5 evaluates the right-hand side only at times in [t0, tfinal].", "quantifier": "all right-hand sides and histories (exact arithmetic)", "why_tests_cant": "All evaluations of all histories.", "anchors": ["src/dorm_prince/dp5/stages.rs", "src/dorm_prince/dp5/algorithm.rs"]}
{"id": "C31", "title": "DormandPrince5 statistics", "statement": "At all times steps = accepts = number of recorded points minus one, function_evals is six per attempt and equals the number of actual right-hand-side calls minus the one made by build(), rejects counts exactly the rejected attempts made after the first accepted step, and jacobian_evals, decompositions and linear_solves are zero.", "quantifier": "all problems and histories without callback, any arithmetic", "why_tests_cant": "All histories.", "anchors": ["src/ode/statistics.rs", "src/dorm_prince/dp5/stages.rs line 105", "src/dorm_prince/dp5/prepare.rs lines 30,82"]}
{"id": "C32", "title": "Radau5 statistics", "statement": "At all times accepts + 1 = number of recorded points, accepts + rejects <= steps, each attempt does at most max_newt_iter linear solves, and jacobian_evals stays 0 although Jacobians are evaluated.", "quantifier": "all problems and histories without callback, any arithmetic", "why_tests_cant": "All histories.", "anchors": ["src/radau/newton.rs", "src/radau/step_size_control.rs", "src/radau/dec.rs", "src/ode/statistics.rs"]}
{"id": "C33", "title": "Calling step() after the end", "statement": "After Success, any number of further DormandPrince5 step() calls append copies of the final point and keep Success (exact arithmetic); after a forward Radau5 run with Success, further step() calls return, record nothing, leave t and u alone, and change the return code away from Success, to MaxIters if the step limit is reached and to DtLessThanMin otherwise.", "quantifier": "all problems and numbers of extra calls", "why_tests_cant": "All histories.", "anchors": ["src/dorm_prince/dp5/algorithm.rs:step", "src/radau/algorithm.rs:step"]}
{"id": "C34", "title": "Real LU solve is correct", "statement": "For every n >= 1 and every real n x n matrix with nonzero first column on which the real decomposition reports success, the subsequent solve returns, for every right-hand side b, a vector x with A x = b (exact arithmetic). This is what every Radau5 Newton iteration and error estimate relies on.", "quantifier": "all sizes, matrices and right-hand sides (exact arithmetic)", "why_tests_cant": "All sizes and pivoting patterns.", "anchors": ["src/linalg/dec.rs:dec", "src/linalg/sol.rs:sol"]}
{"id": "C35", "title": "Return code of the real decomposition", "statement": "The decomposition returns 0 exactly when the matrix is nonsingular or it has size >= 2 and a zero first column: a singular matrix whose first column is zero is wrongly reported as decomposed, contradicting the documentation.", "quantifier": "all sizes and matrices (exact arithmetic)", "why_tests_cant": "All sizes and matrices.", "anchors": ["src/linalg/dec.rs:dec lines 30-34"]}
{"id": "C36", "title": "Partial pivoting and determinant bookkeeping", "statement": "After a successful decomposition with nonzero first column all stored multipliers have absolute value <= 1, pivot indices satisfy k <= ip[k] < n, and det A = ip[n-1] * product of the stored diagonal, ip[n-1] being +1 or -1.", "quantifier": "all sizes and matrices (exact arithmetic)", "why_tests_cant": "All sizes and pivoting patterns.", "anchors": ["src/linalg/dec.rs:dec"]}
{"id": "C37", "title": "Complex LU solve is correct", "statement": "For every n >= 1 and every complex matrix with nonzero first column on which the complex decomposition reports success, the complex solve returns z with A z = b (exact arithmetic), for all three arithmetic special cases of the elimination.", "quantifier": "all sizes, matrices and right-hand sides (exact arithmetic)", "why_tests_cant": "All sizes and pivoting patterns.", "anchors": ["src/linalg/dec.rs:decc", "src/linalg/sol.rs:solc"]}
{"id": "C38", "title": "Return code of the complex decomposition", "statement": "The complex decomposition returns 0 exactly when the matrix is nonsingular or n >= 2 and the first column is zero.", "quantifier": "all sizes and matrices (exact arithmetic)", "why_tests_cant": "All sizes and matrices.", "anchors": ["src/linalg/dec.rs:decc lines 154-158"]}
{"id": "C39", "title": "Hessenberg LU solve is correct", "statement": "For matrices with zero entries below the lb-th subdiagonal and nonzero first column, a reported success of the Hessenberg decomposition implies the Hessenberg solve returns x with A x = b (exact arithmetic).", "quantifier": "all sizes, bandwidths, such matrices and right-hand sides", "why_tests_cant": "All sizes and pivoting patterns.", "anchors": ["src/linalg/dec.rs:dech", "src/linalg/sol.rs:solh"]}
{"id": "C40", "title": "The complex Hessenberg solve is wrong", "statement": "A user of the complex Hessenberg pair would rely on A z = b; the back substitution skips one row, so the property fails already for 2 x 2 upper triangular matrices.", "quantifier": "all sizes (a counterexample family for every off-diagonal entry)", "why_tests_cant": "Found by proof attempt; the repository has no test for it.", "anchors": ["src/linalg/sol.rs:solhc lines 155-160", "src/linalg/dec.rs:dechc"]}
{"id": "C41", "title": "Finite-difference Jacobian", "statement": "Without a user Jacobian, the Jacobian used by Radau5 is exact for every affine right-hand side (exact arithmetic), is built from n+1 evaluations at the current time which differ from the current state in at most one component, and never divides by zero; with a user Jacobian exactly the user's values are used and the right-hand side is not called.", "quantifier": "all right-hand sides, states, dimensions", "why_tests_cant": "All dimensions and states.", "anchors": ["src/ode/jacobian.rs:jacobian_u"]}
{"id": "C42", "title": "Finite-difference time derivative is always zero", "statement": "A user of dfdt-free problems relies on an approximation of df/dt; the code evaluates the right-hand side twice at the same time, so the result is identically zero for every right-hand side.", "quantifier": "all right-hand sides, states and times (exact arithmetic)", "why_tests_cant": "Universal statement.", "anchors": ["src/ode/jacobian.rs:jacobian_t"]}
{"id": "C43", "title": "Radau5 Newton fixed points are the collocation equations", "statement": "In exact arithmetic every accepted Radau5 step is the result of simplified Newton passes for the transformed Radau IIA stage equations, started from the predicted stage values; if a pass produces a zero increment, the stage values satisfy the Radau IIA collocation equations z = h (A x I) f(u+z) up to the rounding of the published constants, and for a linear right-hand side with exact Jacobian they do so after every pass; the constants satisfy the defining identities T*TI = I and TI*A^-1*T = block(U1; ALPHA,BETA) to about 1e-13.", "quantifier": "all right-hand sides, states and step sizes (exact arithmetic)", "why_tests_cant": "Infinite family.", "anchors": ["src/radau/newton.rs", "src/radau/linear_solve.rs:linear_solve", "src/radau/constants.rs"]}
{"id": "C44", "title": "Radau5 factorization freshness", "statement": "A user relies on each Newton iteration using the factorization of the iteration matrix for the current step size. In every accepted step either the matrix was decomposed anew, with the step size of this step and the Jacobian at a recorded point, or nothing was decomposed and the step size and the Jacobian used are those of the step before. The latter are wrong when the step was cut or stretched to reach tfinal or repeated with a smaller size after a failed Newton iteration: u' = 1 on [0, 2.00005e-6] with dtmax = 1e-6 ends with Success, but the second increment is 1e-6 instead of 1.00005e-6.", "quantifier": "all histories of attempts", "why_tests_cant": "Depends on a specific sequence of internal events over several steps.", "anchors": ["src/radau/algorithm.rs lines 105-134", "src/radau/step_size_control.rs lines 98-106", "src/radau/newton.rs"]}
{"id": "C45", "title": "tprev and uprev", "statement": "For DormandPrince5 without callback, after every step() tprev and uprev are the previous recorded point. For Radau5 tprev is the previous recorded time but uprev, documented as the previous solution vector, stays at the initial value forever.", "quantifier": "all problems and histories, any arithmetic", "why_tests_cant": "All histories.", "anchors": ["src/dorm_prince/dp5/prepare.rs lines 64-68", "src/radau/step_size_control.rs lines 40-42", "src/ode/integrator.rs lines 47-52"]}
{"id": "C46", "title": "DormandPrince5 dense output interpolates", "statement": "In exact arithmetic, after an accepted step of nonzero size, the continuous extension of the last step equals the previous point at its start and the current point at its end, has the right-hand side values as one-sided derivatives there, and is the fourth-order continuous Runge-Kutta extension; it reproduces the exact solution everywhere in the step for u'=p(t), deg p <= 3.", "quantifier": "all right-hand sides, states, step sizes, interpolation points (exact arithmetic)", "why_tests_cant": "Infinite domain.", "anchors": ["src/dorm_prince/dp5/dense.rs"]}
{"id": "C47", "title": "Radau5 dense output is not the collocation polynomial", "statement": "A user relies on the continuous extension to reproduce the stage values; the stored coefficients do, when evaluated as in the reference formula, but the evaluation multiplies the quadratic coefficient by an extra factor s, so at the interior stage and at the start of the step it returns a wrong value unless that coefficient is zero.", "quantifier": "all stage values and step sizes (exact arithmetic)", "why_tests_cant": "Infinite domain.", "anchors": ["src/radau/continuous_output.rs lines 23-26", "src/radau/step_size_control.rs lines 46-56"]}
{"id": "C48", "title": "Stiffness detection never stops a run; max_stiff = 0 panics", "statement": "max_stiff is documented as the maximum number of stiff detections allowed, but no value of it, and no number of detections, makes a run end with Stiff; max_stiff = 0 makes the first accepted DormandPrince5 step panic (remainder by zero).", "quantifier": "all problems, histories and option values", "why_tests_cant": "All histories.", "anchors": ["src/dorm_prince/dp5/prepare.rs lines 33-59"]}
{"id": "C49", "title": "Callback discipline", "statement": "With a callback, each step() runs it exactly once, after the point of that step was recorded: recorded points are the values before the callback of the same step, and the value step() returns reflects the state after the callback.", "quantifier": "all callbacks, problems and histories", "why_tests_cant": "All callbacks.", "anchors": ["src/ode/integrator.rs:step"]}
{"id": "C50", "title": "A callback that changes u leaves a stale derivative", "statement": "A user (and the repository's own ball-drop test) relies on the next step starting from the modified state. The first stage derivative is not recomputed: the next step uses the derivative at the state before the callback as its first stage. For the falling ball whose velocity is changed from v to w the next position is off by 35/384*h*(w-v). The step is the right one when the right-hand side agrees at the old and the new state.", "quantifier": "all callbacks changing u", "why_tests_cant": "All callbacks and right-hand sides.", "anchors": ["src/ode/integrator.rs:step", "src/dorm_prince/dp5/stages.rs", "src/dorm_prince/dp5.rs:test_balldrop"]}
{"id": "C51", "title": "Radau5 conserves linear invariants", "statement": "In exact arithmetic, if w.f(t,u)=0 for all t,u and the user's Jacobian, if one is given, satisfies w^T J = 0, then every point Radau5 records is finite and w.u has the same value at all of them; provided the first unit vector is not an eigenvector of the Jacobians used for a nonzero (for forward runs with sane options: positive) eigenvalue, which is only possible if w has a zero first component.", "quantifier": "all w, right-hand sides, histories (exact arithmetic)", "why_tests_cant": "All histories.", "anchors": ["src/radau/newton.rs", "src/radau/linear_solve.rs:linear_solve", "src/radau/step_size_control.rs"]}
{"id": "C52", "title": "Equilibria are preserved by Radau5", "statement": "In exact arithmetic, if f(t,u0)=0 for all t then every point Radau5 records equals u0, provided the first unit vector is not an eigenvector of the Jacobians used for a nonzero (for forward runs with sane options: positive) eigenvalue (for such Jacobians the factorization does nothing, see C35).", "quantifier": "all right-hand sides vanishing at u0, all histories (exact arithmetic)", "why_tests_cant": "All histories.", "anchors": ["src/radau/newton.rs", "src/radau/error_estimate.rs"]}
{"id": "C53", "title": "Radau5 never succeeds with max_newt_iter = 0", "statement": "With max_newt_iter = 0 no step is ever accepted; integrate() ends with DtLessThanMin, MaxIters or SingularMatrix and only the initial point.", "quantifier": "all problems, any arithmetic", "why_tests_cant": "All problems.", "anchors": ["src/radau/newton.rs line 66"]}
{"id": "C54", "title": "DAE problem builder validation", "statement": "After any chain of builder calls each datum is the last value given for it. build() of the problem builder returns Ok exactly when the index counts add up to n, 2*m1 <= n and the mass bandwidths do not exceed the Jacobian ones; the m2 given by the user is ignored (m1 is used in its place), so invalid second-order parameters are accepted; with a mass matrix, m1 > 0 and default mass bandwidths every problem is rejected.", "quantifier": "all parameter combinations", "why_tests_cant": "Unbounded parameters.", "anchors": ["src/dae/problem.rs:build"]}
{"id": "C55", "title": "Rodas cannot be built", "statement": "Every build() with the Rodas algorithm panics: no integrator for it exists, whatever the problem and the options.", "quantifier": "all problems and options", "why_tests_cant": "Universal.", "anchors": ["src/rodas/algorithm.rs"]}
{"id": "C56", "title": "The first accepted step is always followed by the largest possible cut", "statement": "With beta > 0 and facl <= facr, after a first DormandPrince5 step accepted at the first attempt the proposed step is exactly facl times the accepted one (unless dtmax is smaller), however small its error estimate was, because the stored previous error starts at zero.", "quantifier": "all problems and options with beta > 0 and facl <= facr (exact arithmetic with IEEE special values)", "why_tests_cant": "All problems and options.", "anchors": ["src/dorm_prince/dp5/algorithm.rs:step", "src/dorm_prince/dp5/prepare.rs"]}
{"id": "C57", "title": "Relabelling the components", "statement": "Renumbering, duplicating, sign-changing or rescaling (together with abstol) the components of the state, and the right-hand side accordingly, does the same to the recorded vectors of a DormandPrince5 run and changes neither times nor statistics nor step sizes; the return code is the same unless one of the runs reports DtLessThanMin.", "quantifier": "all problems, relabellings and numbers of steps (exact arithmetic)", "why_tests_cant": "All relabellings and problems.", "anchors": ["src/dorm_prince/dp5/algorithm.rs:step"]}
{"id": "C58", "title": "Forward Radau5 runs move monotonically inside the time span", "statement": "In exact arithmetic, for t0 <= tfinal and sane options (safe <= 1, facl >= 1, quot1 >= 1), the times Radau5 records are strictly increasing and lie in [t0, tfinal], whatever the right-hand side and the Jacobian return (including NaN and infinities).", "quantifier": "all problems, options, runs, numbers of steps", "why_tests_cant": "All right-hand sides and all controller decisions.", "anchors": ["src/radau/algorithm.rs:step", "src/radau/step_size_control.rs:step_size_control", "src/radau/newton.rs:newton"]}
{"id": "C59", "title": "Radau5 evaluates user code only inside the time span", "statement": "In exact arithmetic, for a forward run with sane options, Radau5 calls the right-hand side and the Jacobian only at times in [t0, tfinal], including calls made by rejected attempts and by failed Newton iterations.", "quantifier": "all problems, options, runs, calls", "why_tests_cant": "All right-hand sides and all controller decisions.", "anchors": ["src/radau/newton.rs:newton", "src/radau/error_estimate.rs:error_estimate", "src/ode/jacobian.rs:jacobian_u"]}
{"id": "C60", "title": "Radau5 damps linear modes like the Radau IIA method", "statement": "On a linear problem u' = J (u - ue), in exact arithmetic, a forward Radau5 step for which the iteration matrix was decomposed multiplies every eigen-component of u - ue whose eigenvalue lam has Re lam <= 0 by the Radau IIA stability function R(h lam), with a relative error of at most 1e-10 whatever h lam and the number of Newton passes. R is A-stable (|R| <= 1), tends to 0 like 1/|h lam|, and approximates exp(h lam) with an error of sixth order. Components with real lam <= 0 are multiplied by a number in [-1e-12, 1].", "quantifier": "all linear problems of any dimension, step sizes, options, numbers of Newton passes", "why_tests_cant": "Stability is a statement about the whole left half-plane and all step sizes.", "anchors": ["src/radau/newton.rs:newton", "src/radau/linear_solve.rs:linear_solve", "src/radau/dec.rs:decomp_real", "src/radau/dec.rs:decomp_complex"]}
{"id": "C61", "title": "Radau5 converges with order five on linear problems", "statement": "On a linear problem u' = J (u - ue), in exact arithmetic, if every step is decomposed anew or has the step size proposed before (no reuse of the decomposition of another step size) and the recorded steps satisfy h |lam| <= eps <= 1, every eigen-component (Re lam <= 0) of the recorded states differs from the exact solution by at most eps^5 |lam| (t - t0) / 100 relative to its initial value, plus 1e-10 per step for the digits of the method's constants.", "quantifier": "all linear problems, options, runs, recorded points", "why_tests_cant": "Convergence quantifies over all problems and all step-size sequences chosen by the controller.", "anchors": ["src/radau/algorithm.rs:step", "src/radau/newton.rs:newton", "src/radau/step_size_control.rs:step_size_control"]}
{"id": "C62", "title": "The time at which Success is reported", "statement": "With rounding and whatever the arithmetic: when integrate() returns with Success the final time is t + (tfinal - t), evaluated in this order, where t is the time recorded before it. In double precision this is exactly tfinal if 0 <= t0 and tfinal has at most 52 significant bits (forward span, options within their ranges); in general it is not, and there is a run with default options that reports Success at a time beyond tfinal.", "quantifier": "all problems, options and runs; first part for every arithmetic", "why_tests_cant": "A test samples a few time spans; the claim is about rounding for all of them, and the bad spans are rare.", "anchors": ["src/dorm_prince/dp5/algorithm.rs:step", "src/radau/algorithm.rs:step", "src/radau/step_size_control.rs:step_size_control"]}
{"id": "C63", "title": "Forward DormandPrince5 runs with rounding stay in the time span", "statement": "In floating-point arithmetic with rounding, overflow and NaN, for a forward span and options within their ranges: as long as no recorded time exceeds tfinal, the next recorded time and all times at which the right-hand side is called meanwhile are not before the current time t and exceed tfinal at most as far as the rounded t + (tfinal - t) does. In double precision with 0 <= t0 and tfinal of at most 52 significant bits, recorded times never decrease and all recorded times and evaluation times lie in [t0, tfinal].", "quantifier": "all arithmetics satisfying the rounding laws, all right-hand sides (also NaN-valued), options, runs", "why_tests_cant": "Rounding errors of all spans, steps and problems.", "anchors": ["src/dorm_prince/dp5/algorithm.rs:step", "src/dorm_prince/dp5/algorithm.rs"]}
{"id": "C64", "title": "Forward Radau5 runs with rounding stay in the time span", "statement": "In floating-point arithmetic with rounding, overflow and NaN, for a forward span and options within their ranges: as long as no recorded time exceeds tfinal, the next recorded time and all times at which the right-hand side or the Jacobian is called meanwhile (also by rejected attempts and failed Newton iterations) are not before the current time t and exceed tfinal at most as far as the rounded t + (tfinal - t) does. In double precision with 0 <= t0 and tfinal of at most 52 significant bits, recorded times never decrease and all recorded times and evaluation times lie in [t0, tfinal].", "quantifier": "all arithmetics satisfying the rounding laws, all right-hand sides and Jacobians (also NaN-valued), options, runs", "why_tests_cant": "Rounding errors of all spans, steps and problems, and every pattern of rejections and failed Newton iterations.", "anchors": ["src/radau/algorithm.rs:step", "src/radau/step_size_control.rs:step_size_control", "src/radau/newton.rs:newton"]}
{"id": "C65", "title": "Only finite states are recorded", "statement": "Started at a finite state, both solvers record finite states only, whatever the right-hand side (and for Radau5 the Jacobian) returns, NaN and infinities included; DormandPrince5 also records finite times only. If the right-hand side never returns a finite vector, Radau5 records nothing but the initial point and does not report Success. (Arithmetic without overflow: reals with infinities and NaN. For Radau5: positive relative tolerance, finite fnewt.)", "quantifier": "all right-hand sides and Jacobians returning arbitrary reals, infinities or NaN anywhere, all options (Radau5: reltol > 0), all runs", "why_tests_cant": "The places at which a right-hand side can fail to return a number, and the ways a NaN or infinity travels through stages, linear solves and norms, cannot be enumerated.", "anchors": ["src/dorm_prince/dp5/error.rs:error", "src/dorm_prince/dp5/algorithm.rs:step", "src/radau/newton.rs:newton", "src/radau/algorithm.rs:step"]}
{"id": "C66", "title": "Linear solver indices stay in range", "statement": "Given pivots that are row indices, dec and decc leave pivots that are row indices, also when they report a singular matrix; with such pivots sol and solc read and write nothing outside the n x n matrix and the first n entries of the right-hand side. In every run of Radau5 all pivots handed to sol and solc are row indices, so the solves never index out of bounds. Holds for any arithmetic.", "quantifier": "all arithmetics, sizes, matrices (also with NaN), pivots, right-hand sides, and all Radau5 runs", "why_tests_cant": "An out-of-range pivot would need a particular matrix, failure pattern and stale pivot vector from an earlier step.", "anchors": ["src/linalg/dec.rs:dec", "src/linalg/dec.rs:decc", "src/linalg/sol.rs:sol", "src/linalg/sol.rs:solc", "src/radau/linear_solve.rs:linear_solve"]}
{"id": "C67", "title": "Tolerances that are zero", "statement": "With reltol = 0, whatever abstol is, Radau5 accepts no step on any problem: only the initial point is recorded and Success is never reported. The same holds with abstol = 0 when a component of the initial state is zero. With abstol = 0, DormandPrince5's step() never returns when a component of the state is zero and its derivative vanishes whenever it is zero.", "quantifier": "all problems, Jacobians, remaining options, runs and iteration bounds", "why_tests_cant": "Both are claims about every problem and every later step; non-termination has no finite witness.", "anchors": ["src/radau/algorithm.rs:new_cache", "src/radau/newton.rs:newton", "src/dorm_prince/dp5/error.rs:error"]}
{"id": "C68", "title": "DormandPrince5 converges with order five on smooth problems", "statement": "In exact arithmetic, let the right-hand side have five continuous derivatives (linear or not) and let y be a solution on [t0, tfinal]. There is K, depending on the problem only, such that one step of size h which starts on the solution ends within K h^6 of it (h below some h1 > 0). Let L and M be a Lipschitz constant and a bound of the right-hand side near the solution, and T = tfinal - t0. In every forward run started at y(t0), whatever the tolerances and the other (sane) options are, if no recorded step is longer than h, every recorded state differs from y at its time by at most K T exp(4 L T) h^5 in each component, provided h <= h1, 25 M h <= 1, 50 L h <= 1 and this bound is at most one. With dtmax = m this holds with h = 1.01 max(m, 1e-6), and for the state at tfinal when Success is reported.", "quantifier": "all right-hand sides of class C^5, all solutions, tolerances, options, numbers of steps and step sequences", "why_tests_cant": "A rate of convergence is a statement about arbitrarily small steps and all smooth problems; tests see one problem at a few step sizes, and a coefficient that lowers the order may pass at a fixed tolerance.", "anchors": ["src/dorm_prince/dp5/algorithm.rs:step", "src/dorm_prince/dp5/constants.rs", "src/ode/integrator.rs:integrate"]}
{"id": "C69", "title": "DormandPrince5 reaches tfinal", "statement": "In exact arithmetic, a forward run ends with Success at tfinal, after at most (tfinal - t0)/d + 1 steps, whenever max_steps >= (tfinal - t0)/d, for every d > 0 below facl^2 1e-6, dtmax and facl^2 abstol small / (M + 1) and above the spacing of doubles at t0 and tfinal (small depends on safe and beta only). This holds for every right-hand side bounded by M, continuous or not, and for every continuous right-hand side with constants M, L, K as in C68 near the solution if dtmax is as small as required there (then also d <= facl^2 / (25 (M + 1))); in the second case the state at tfinal is within the error bound of C68 of the solution. Options: safe < 1, facl < 1 <= facr, positive exponent 0.2 - beta^0.75 (the defaults qualify).", "quantifier": "all bounded right-hand sides and all problems with constants as in C68, initial states, spans, tolerances and options in the stated range", "why_tests_cant": "Success on every problem needs that the controller cannot reduce the step for ever, that no step is so small that DtLessThanMin or MaxIters is raised, and that the last step is taken exactly; a test shows this for the problems it runs.", "anchors": ["src/dorm_prince/dp5/algorithm.rs:step", "src/ode/integrator.rs:integrate", "src/dorm_prince/dp5/error.rs:error"]}
{"id": "C70", "title": "dense does not change a run and max_steps only cuts it short", "statement": "With DormandPrince5 and Radau5, in any arithmetic: building with dense on or off gives the same calls, returns and public data. If only max_steps differs, then as long as step() returns Some under the smaller limit it does the same under the larger one; if integrate() ends with a code other than MaxIters under the smaller limit it ends the same way, with the same public data, under the larger one; and in every case the points recorded under the smaller limit are the first ones of those recorded under the larger one.", "quantifier": "all problems, options, limits and numbers of calls, in any arithmetic", "why_tests_cant": "Non-interference relates all pairs of runs; a test compares a few.", "anchors": ["src/dorm_prince/dp5/algorithm.rs:step", "src/dorm_prince/dp5/prepare.rs", "src/radau/algorithm.rs:step", "src/ode/integrator.rs:integrate"]}
{"id": "C71", "title": "A longer span repeats the run on a shorter one", "statement": "Two forward runs of DormandPrince5 or Radau5 with rounding (in particular in doubles) that differ only in tfinal take the same steps and leave the same public data (except tfinal itself) as long as the steps to be tried stay short of the earlier tfinal: by one hundredth of the step before each call for DormandPrince5; by one ten thousandth of the step, and without being the rest of the shorter span, before and after each call for Radau5.", "quantifier": "all problems, options, pairs of final times and numbers of calls", "why_tests_cant": "Relates all pairs of runs with different final times.", "anchors": ["src/dorm_prince/dp5/algorithm.rs:step", "src/radau/algorithm.rs:step", "src/radau/step_size_control.rs"]}
{"id": "C72", "title": "The banded solvers and the Hessenberg reduction are unusable", "statement": "A developer of the crate relies on decb/solb, decbc/solbc and elmhes being the banded solvers and the reduction to Hessenberg form they are documented to be. They are not. In any arithmetic, solb and solbc panic (with overflow checks) exactly if the band is narrower than the matrix, lb + ub < n - 1, or lb + ub = 0; solbc returns the right-hand side of a single equation as its solution; for a tridiagonal matrix without zeros on the diagonal decb reports success without interchanging or eliminating anything (diagonal and superdiagonal are returned as given), and decbc returns the matrix as given. In exact arithmetic, for 2 x 2 matrices a b; c d with nonzero diagonal, decb and solb solve the system exactly if b c (a r2 - c r1) = 0, decbc and solbc exactly if c (x1 + r1) = 0; and elmhes changes the trace of a 3 x 3 matrix (|a20| <= |a10|, a20 nonzero) by -(a20/a10) a12.", "quantifier": "all sizes, bandwidths, matrices, right-hand sides and pivot vectors", "why_tests_cant": "Infinite domain of matrices and sizes; the crate has no test for these routines.", "anchors": ["src/linalg/dec.rs:decb", "src/linalg/dec.rs:decbc", "src/linalg/dec.rs:elmhes", "src/linalg/sol.rs:solb", "src/linalg/sol.rs:solbc"]}
{"id": "C73", "title": "DormandPrince5 is the adaptive Dormand-Prince method with its controller", "statement": "On a well-posed problem in exact arithmetic (with 0 <= 1/5 - beta^(3/4)), integrate() of DormandPrince5 without a callback returns with given recorded points and a given code if and only if the adaptive algorithm in textbook form ends with these points and this code: each call tries a step (the rest of the span if one percent more than the proposed step goes beyond tfinal), divides it by min(1/facl, err^(1/5-beta^(3/4))/safe) as long as the scaled embedded error exceeds one, accepts it otherwise, and proposes the step divided by the PI controller factor max(1/facr, min(1/facl, err^(1/5-beta^(3/4))/olderr^beta/safe)), limited by dtmax and, after a rejection, by the accepted step; the codes are Success at the end, MaxIters after more than max_steps calls, DtLessThanMin if a reduced step is lost in the rounding of t. Likewise for single calls of step().", "quantifier": "all problems, right-hand sides, options, dimensions, numbers of calls, point lists and codes", "why_tests_cant": "A refinement in both directions over all problems and runs; a test compares single runs.", "anchors": ["src/dorm_prince/dp5/algorithm.rs:step", "src/dorm_prince/dp5/prepare.rs:prepare_next_step", "src/dorm_prince/dp5/error.rs:error", "src/dorm_prince/dp5/stages.rs:compute_stages", "src/ode/integrator.rs:integrate"]}
{"id": "C74", "title": "The step sizes of Radau5 follow the published rules", "statement": "In exact arithmetic, for any right-hand side and any finite positive controller options: a call of step() of Radau5 during a run without a callback which returns Some first tries the proposed step (the rest of the span if t + 1.0001 dt - tfinal * tdir >= 0); after each failed attempt the step is halved (singular matrices or divergence of the Newton iteration), multiplied by 0.8 q^(-1/(N+3-j)) with 1 <= q <= 20 (slow convergence, N = max_newt_iter), by one tenth (error too large, no step accepted yet), or divided by the quotient of the classical controller (error too large); it accepts an attempt of error e with 1e-10 <= e < 1 after m <= N Newton iterations. The next step is the accepted step divided by the classical quotient clip(e^(1/4) / min(safe, safe (1+2N)/(m+2N))) or, with modern_pred and after the first accepted step, by the larger one of this and the predictive quotient clip(hp/h (e^2/max(1e-2, ep))^(1/4) / safe), hp and ep the size and the error of the accepted step before; clip limits to [facr, facl]; limited by dtmax and, exactly if an attempt failed, by the accepted step; replaced by the rest of the span if it reaches tfinal, and by the old step if the Newton iteration converged fast and the change is between quot1 and quot2.", "quantifier": "all problems, options, dimensions, runs and calls", "why_tests_cant": "The rules couple all earlier steps, iteration counts and errors; a test sees single step sequences.", "anchors": ["src/radau/step_size_control.rs:step_size_control", "src/radau/algorithm.rs:step", "src/radau/newton.rs:newton", "src/radau/dec.rs:perform_decompositions"]}
{"id": "C75", "title": "The dense output of DormandPrince5 converges between the recorded points", "statement": "In exact arithmetic, let the right-hand side have five continuous derivatives (linear or not) and let y be a solution on [t0, tfinal]. There are C and hmax > 0, depending on the problem only, such that after every step of every forward run started at y(t0) with dense output enabled, whatever the tolerances and the other (sane) options are, if no recorded step is longer than h <= hmax, then dense_output(x, dtprev) differs from y(x) by at most C h^5 in each component, for every x in the last step (of nonzero size), not only at its ends. With dtmax = m this holds with h = 1.01 max(m, 1e-6).", "quantifier": "all right-hand sides of class C^5, all solutions, tolerances, options, numbers of steps, step sequences and interpolation points", "why_tests_cant": "A rate of convergence, uniform in the interpolation point, is a statement about arbitrarily small steps, all smooth problems and a continuum of points; a wrong interpolation weight agrees at both ends of the step and is visible between them only.", "anchors": ["src/dorm_prince/dp5/dense.rs", "src/dorm_prince/dp5/constants.rs", "src/dorm_prince/dp5/algorithm.rs:step"]}
{"id": "C76", "title": "How the Newton iteration of Radau5 starts and is counted", "statement": "In exact arithmetic, for every problem, every accepted step of a run of Radau5 without a callback is the result of a simplified Newton iteration with at least one and at most max_newt_iter passes, and the pass counter of the integrator is their number. The iteration starts with zero stage increments in the first step of a run, and in every step if use_ext_col is not set. With use_ext_col, in a step of size h' which follows an accepted step of size h from (t, u) with stage increments z, it starts in each component with the values at t + h + c_k h' of the polynomial of degree at most three through (t, u) and (t + c_k h, u + z_k), k = 1, 2, 3, minus the state u + z_3.", "quantifier": "all problems, Jacobians, options, dimensions, runs and accepted steps", "why_tests_cant": "Wrong starting values only cost passes, the accepted states still satisfy the tolerances; and the rule relates each step to the accepted attempt of the call before, over all runs.", "anchors": ["src/radau/newton.rs:prepare_newton", "src/radau/newton.rs:newton", "src/radau/step_size_control.rs:step_size_control", "src/radau/algorithm.rs:step"]}
{"id": "C77", "title": "Radau5 converges on nonlinear problems", "statement": "In exact arithmetic, let the right-hand side have five continuous derivatives (linear or not), let y be a solution on [t0, tfinal], and let the Jacobian supplied or computed be bounded near it (it need not be correct). For every lower bound of facr there are C and hmax > 0 such that in every forward run started at y(t0) in which each accepted step was decomposed anew or has the proposed size, whatever the tolerances and other (sane) options are, if each accepted step was made with at least m passes of the Newton iteration (1 <= m <= 5) and no recorded step is longer than h <= hmax, all recorded states differ from y by at most C h^m + d in each component. Here d = 1e-16 (M+1) T exp(2 L T), T the length of the span, M and L a bound and a Lipschitz constant of the right-hand side; d comes from the decimal constants of the method and has to be at most 1/2. Every accepted step is made with at least one pass; with quot2 < quot1 every step is decomposed anew; with dtmax = m no recorded step is longer than 1.0001 max(m, 1e-6).", "quantifier": "all right-hand sides of class C^5, all bounded Jacobian functions, solutions, tolerances, options, numbers of steps and step sequences", "why_tests_cant": "A rate of convergence is a statement about arbitrarily small steps and all smooth problems; it combines the constants of the method, the transformation, the starting values, the Newton iteration with an inexact Jacobian, and the step sequence.", "anchors": ["src/radau/newton.rs:newton", "src/radau/constants.rs", "src/radau/linear_solve.rs", "src/radau/dec.rs:perform_decompositions", "src/radau/algorithm.rs:step"]}
{"id": "C78", "title": "DormandPrince5 is accurate in double precision", "statement": "In IEEE double precision (round to nearest, overflow and underflow included), let the right-hand side have five continuous derivatives and let y be a solution on [t0, tfinal], where 0 <= t0 < tfinal, tfinal >= 2^-900 has at most 52 significant bits. There are constants C, hmax, kappa > 0 and R such that the following holds for every forward run of k steps, whatever the tolerances and the other options within their ranges are. If the supplied function evaluates the right-hand side within the span, for states bounded by R + 2, with an absolute error of at most delta, the initial value is off by at most e0, no recorded step is longer than h (2^-53 tfinal <= h <= hmax), and e0 + delta + (k+1) 2^-53 <= kappa, then all recorded times lie in the span, all recorded states are finite, and the j-th one differs from y by at most C (e0 + h^5 + delta + (j+1) 2^-53) in each component; if the run ends with Success, the final state is at tfinal exactly and obeys this bound. There is also an explicit form of the bound in terms of bounds and Lipschitz constants of the right-hand side.", "quantifier": "all right-hand sides of class C^5, all implementations of them with error delta, initial values, tolerances, options, numbers of steps and step sequences", "why_tests_cant": "The bound covers every rounding error of every operation of every run; a test sees one run, whose errors may cancel, and can not tell whether they grow like the number of steps or faster.", "anchors": ["src/dorm_prince/dp5/algorithm.rs:step", "src/dorm_prince/dp5/constants.rs"]}
{"id": "C79", "title": "Radau5 reaches tfinal on bounded problems", "statement": "In exact arithmetic with the IEEE special values, a forward Radau5 run returns Success with its current and last recorded time equal to tfinal, after at most S (K+1) attempts, provided max_steps is larger than that. The conditions: the right-hand side is bounded by M, the row sums of the Jacobian function are bounded by B (it need not be the derivative), and neither gamma/h nor (alpha + i beta)/h is an eigenvalue of a Jacobian for any step h up to the span. Every Newton iteration starts from zero (use_ext_col = false) and every step is factorized anew (quot2 < quot1). A step size hs is small enough, compared with the tolerances, that one Newton iteration suffices and the error is small; K failures in a row reduce the span below hs; and delta, a lower bound of the steps, is at most 1e-6 and rho^2 hs (rho <= 0.1, rho max(facl, facr) <= 1), the span is at most S delta, and 0.1 min(1e-4, 1-sigma) delta is above the spacing of the doubles at the ends of the span, where sigma < 1 bounds the factor of a failed attempt.", "quantifier": "all bounded right-hand sides and Jacobian functions meeting the conditions, all dimensions >= 1, initial values, tolerances and controller options", "why_tests_cant": "A run may fail by a step that becomes too small, a singular matrix, or an endless sequence of rejected attempts; a test sees that one run did not. The statement bounds the number of attempts of every run.", "anchors": ["src/radau/algorithm.rs:step", "src/radau/step_size_control.rs", "src/radau/newton.rs:newton"]}
{"id": "C80", "title": "A Radau5 run is a run of the RADAU5 algorithm", "statement": "In exact arithmetic with the IEEE special values: for finite positive abstol and reltol, finite fnewt and theta, and Jacobians for which, in dimension two or more, the first unit vector is not an eigenvector with a nonzero (in forward runs: positive) eigenvalue (this excludes the matrices on which the factorization goes wrong, C35), after k calls of step() that returned Some, the time, the state, the next step size and the stored Jacobian are those that the algorithm of Hairer and Wanner (section IV.8) reaches in k steps from the initial value with first step 1e-6; if integrate() ends with Success, the final time and state are the result of the algorithm's last step. The algorithm is written down as a transition system on real numbers: tolerances derived from reltol^(2/3), starting values of the Newton iteration, convergence rate theta (geometric mean of two quotients), factor eta = theta/(1-theta), initial eta max(eta, eps)^0.8, stop when eta * norm <= fnewt, halving at theta >= 0.99 or after the last pass, reduction by 0.8 q^(-1/(N+3-m)) when the predicted error is not below the tolerance, halving after a singular matrix, error estimate with its second form, both step-size controllers, reuse of the Jacobian when theta <= the option, reuse of the factorization when the new step is close. This transition system is deterministic, so every point of a run is the one prescribed by it. The code departs from the published one in three places, which the specification states as they are: the test for the last step has lost its parentheses, the Jacobian is not evaluated again after slow convergence, and after a failed Newton iteration a kept factorization is kept.", "quantifier": "all right-hand sides and Jacobians on the reals meeting the condition, all dimensions >= 1, initial values, times, tolerances, controller options, numbers of steps", "why_tests_cant": "A wrong stopping rule of the Newton iteration or a wrong reuse of the Jacobian changes the iterates only within the tolerance and the cost of the run; results still look right in a test. The statement fixes every decision of every run.", "anchors": ["src/radau/newton.rs:newton", "src/radau/algorithm.rs:step", "src/radau/step_size_control.rs:step_size_control", "src/radau/error_estimate.rs"]}
{"id": "C81", "title": "User code matters only where it is called", "statement": "Replace the right-hand side (and, for Radau5, the user's Jacobian) by functions with the same values at the calls made during a run, whatever the output buffer holds: then the run is the same, with the same states, times, recorded solution, statistics, return codes and calls, for any number of step() calls and for integrate(). In double precision, for 0 <= t0 < tfinal, tfinal of at most 52 significant bits and options within their ranges, it is therefore enough that the functions agree at times in [t0, tfinal]: a right-hand side or Jacobian that is wrong, NaN or undefined outside of the time span does not change anything.", "quantifier": "all arithmetics, problems, options, runs, replacement functions (second part: double precision)", "why_tests_cant": "A test compares two chosen functions; the statement is about every pair of functions and every decision the controller may take.", "anchors": ["src/ode/integrator.rs", "src/ode/jacobian.rs:jacobian_u", "src/dorm_prince/dp5/stages.rs:compute_stages", "src/radau/newton.rs:newton", "src/radau/error_estimate.rs:error_estimate", "src/radau/step_size_control.rs:step_size_control"]}
{"id": "C82", "title": "Radau5 backwards in time: right way for times above zero, first step the wrong way below", "statement": "In exact arithmetic with the IEEE special values, for tfinal < t0, options with safe <= 1, facl >= 1 and quot1 = 1 (the defaults) and any right-hand side: if t0 + tfinal >= -1.0001e-6 (for example because no time is negative), the recorded times of a Radau5 run decrease strictly and lie in [tfinal, t0], and user code is called at times in [tfinal, t0] only. If t0 + tfinal < -1.0001e-6, the first accepted step leads to a time in (t0, t0 + 1e-6], outside the interval; from there the recorded times decrease strictly and stay above tfinal, and user code is called in [tfinal, t0 + 1e-6] only. The reason is the initial step +1e-6, which has no sign, together with the test for the last step, which has lost its parentheses: in the first case it replaces the initial step by the whole interval.", "quantifier": "all right-hand sides and Jacobians (values may be NaN or infinite), all times with tfinal < t0, options in the stated ranges, numbers of steps", "why_tests_cant": "A backward test on positive times passes, and on negative times the error is one extra point at distance 1e-6; a test with a tolerance does not see it. The statement separates the two cases for all problems.", "anchors": ["src/radau/algorithm.rs:step", "src/radau/step_size_control.rs:step_size_control", "src/ode/integrator.rs:build"]}
{"id": "C83", "title": "Failing return codes of Radau5 have their cause", "statement": "In exact arithmetic a forward Radau5 run never ends with SingularMatrix if no Jacobian has an eigenvalue with positive real part, in particular if every Jacobian J is dissipative (v.Jv <= 0 for all v); the run then ends with Success, MaxIters or DtLessThanMin. In any arithmetic: a run that ends with MaxIters has reached the step limit; one that ends with DtLessThanMin has not, and 0.1|dt| <= |t| eps for its final dt and t; one that ends with Success has not reached the limit and its last step satisfies not 0.1|dt| <= |t| eps.", "quantifier": "all problems of dimension at least one (Jacobians without growing modes for the first claim), initial states, spans, tolerances, options with 0 < facr, safe < 1, facl > 1, run lengths", "why_tests_cant": "The matrices factorised depend on every step size the controller ever chooses and on Jacobians kept from earlier steps; a test meets finitely many of them.", "anchors": ["src/radau/dec.rs", "src/radau/algorithm.rs:step", "src/ode/integrator.rs:integrate"]}
{"id": "C84", "title": "Results do not depend on the units of the state", "statement": "Multiply the state of a problem by c != 0: right-hand side, initial state and abstol (by |c|) accordingly, with the same user-supplied Jacobian for Radau5. In exact arithmetic (including infinite and NaN values) every number of step() calls, and integrate(), then takes the same steps: same recorded times, step size, statistics and return code, while recorded states, current state and dense output are multiplied by c. In double precision the same holds for the change of sign c = -1. DormandPrince5 and Radau5, no callback.", "quantifier": "all problems, dimensions, factors c != 0, initial states, spans, options, run lengths", "why_tests_cant": "A test compares two runs for one factor and one problem; every norm, scaling vector, extrapolation and linear solve of every step has to be homogeneous.", "anchors": ["src/radau/newton.rs", "src/radau/error_estimate.rs", "src/radau/linear_solve.rs", "src/radau/step_size_control.rs", "src/dorm_prince/dp5/stages.rs", "src/dorm_prince/dp5/error.rs", "src/dorm_prince/dp5/prepare.rs"]}
{"id": "C85", "title": "Radau5 does not depend on numbering, signs and the origin of time", "statement": "Renumber the components of a problem, change the signs of some of them, and set the clock forward by c; give Radau5 the right-hand side, the Jacobian, the initial state and the times in the new coordinates, and the same options. For forward integrations in exact arithmetic: after k step() calls which returned Some the two solvers are at the same point (in the respective coordinates) with the same next step size and the same Jacobian; if both integrations end with Success they do so after the same number of steps with the same result; if one succeeds, the other does not take more steps. Without a user-supplied Jacobian this holds for renumbering and shifts of time.", "quantifier": "all problems with real values, dimensions, permutations, signs, shifts, tolerances, controller options, run lengths", "why_tests_cant": "A test compares two runs of one problem; pivoting in the linear solvers, norms, extrapolation, step control and the last step all have to be free of hidden dependencies on the order of the components and on absolute times.", "anchors": ["src/radau/newton.rs", "src/radau/dec.rs", "src/radau/linear_solve.rs", "src/radau/step_size_control.rs", "src/radau/algorithm.rs"]}
{"id": "C86", "title": "DormandPrince5 does not blow up on decaying components, however stiff", "statement": "Let every component relax towards a value g_i with a rate lambda_i >= 0: f_i(t,u) = -lambda_i (u_i - g_i). Integrate forwards with DormandPrince5, with any rates (also far beyond the stability limit of the step size), any controller options and tolerances with sqrt(n) reltol < 0.65. In exact arithmetic no recorded state is ever farther from g, in any component, than the larger of the initial distance and sqrt(n) (abstol + reltol |g_i|) / (0.65 - sqrt(n) reltol): the error test rejects every step which would amplify the distance beyond the size of the tolerance.", "quantifier": "all dimensions, rates, equilibria, initial states, tolerances, controller options, step sizes, run lengths", "why_tests_cant": "Explicit methods are unstable when the step size times the rate exceeds about 3.3; a test tries some rates and a few step size sequences, while the claim is about all products of rate and step size the controller may try.", "anchors": ["src/dorm_prince/dp5/stages.rs", "src/dorm_prince/dp5/error.rs", "src/dorm_prince/dp5/constants.rs", "src/dorm_prince/dp5/algorithm.rs"]}
{"id": "C87", "title": "The tolerance of DormandPrince5 controls the global error on decaying components", "statement": "Let every component relax towards a value g_i with a rate lambda_i >= 0, however large: f_i(t,u) = -lambda_i (u_i - g_i). In a forward run of DormandPrince5 in exact arithmetic, with sqrt(n) reltol < 0.65, the j-th recorded state differs from the exact solution in component i by at most j sqrt(n) (abstol + reltol M_i) / 0.65, where M_i = |g_i| + the bound of C86. With the default tolerances the j-th recorded value of u' = -lambda u, u(0) = 1, differs from exp(-lambda t) by at most 0.0016 j, for every lambda.", "quantifier": "all dimensions, rates, equilibria, initial states, tolerances, controller options, step sizes, run lengths", "why_tests_cant": "The error test only sees the difference of two approximations; that it bounds the true error for every product of rate and step size, including steps far outside the region of stability, is an inequality on a half-line.", "anchors": ["src/dorm_prince/dp5/stages.rs", "src/dorm_prince/dp5/error.rs", "src/dorm_prince/dp5/constants.rs", "src/dorm_prince/dp5/algorithm.rs"]}
{"id": "C88", "title": "The tolerance of DormandPrince5 controls the global error on dissipative linear systems", "statement": "Integrate u' = -A (u - g) forwards with DormandPrince5, where w . A w >= 0 for all vectors w: diffusion, advection, oscillations, damped or not, of any stiffness and with any coupling. In exact arithmetic the j-th recorded state differs from the exact solution, in the Euclidean norm, by at most j * 9.41 sqrt(n) (abstol + reltol M), where M bounds the recorded values; with reltol = 0 no M is needed, and if K reltol < 1 with K = 9.41 sqrt(n), there is the bound j K (abstol + reltol (G + |u0 - g|)) / (1 - K reltol)^j, G = max |g_i|, in terms of the data alone. In particular, when integrate() returns with Success, the final state is within stats.accepts * 9.41 sqrt(n) (abstol + reltol M) of the exact solution at tfinal. If A is also symmetric the factor 9.41 can be replaced by 1/0.65.", "quantifier": "all dimensions, matrices with w . A w >= 0, equilibria, initial states, tolerances, controller options, step sizes, run lengths", "why_tests_cant": "A test compares a few systems with a few tolerances; that the error estimate of every accepted step bounds its true error, for all matrices and all step sizes, is an inequality between polynomials in an arbitrary matrix and its exponential.", "anchors": ["src/dorm_prince/dp5/stages.rs", "src/dorm_prince/dp5/error.rs", "src/dorm_prince/dp5/constants.rs", "src/dorm_prince/dp5/algorithm.rs"]}
{"id": "C89", "title": "The constants prepared for Rodas are those of a stiffly accurate method of order four", "statement": "Rodas cannot be built yet (C55), but its constants are compiled into the crate. Used in the standard way for Rosenbrock methods in transformed variables (the sixth stage starts from the fifth plus its correction, the new value is the argument of the sixth stage plus the last correction) they determine exactly one Rosenbrock method. Its nodes are C2, C3, C4 and 1, its time-derivative coefficients D1 to D4 and 0; its weights satisfy all conditions of order four, the embedded weights all conditions of order three and not those of order four, up to 1e-14.", "quantifier": "all constants A, C, D, GAMMA and nodes of the table, all order conditions", "why_tests_cant": "No solver uses the constants, so no test of the crate can reach them; a wrong digit would show up only as a loss of order in a future implementation.", "anchors": ["src/rodas/constants.rs"]}
