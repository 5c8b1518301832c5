{"id": "C01", "title": "Periodic half-space is a linear map", "statement": "For a periodic half-space, evaluate_disp and evaluate_force are linear: evaluate_disp(a*f1+b*f2) = a*evaluate_disp(f1)+b*evaluate_disp(f2) at every grid point, and the same for evaluate_force.", "quantifier": "every grid size, modulus, Poisson number, physical size, Gamma-point option, all real fields and scalars", "why_tests_cant": "Tests superpose a few random fields on a few grids; superposition must hold for all fields and all grid parities.", "anchors": ["ContactMechanics/FFTElasticHalfSpace.py::PeriodicFFTElasticHalfSpace.evaluate_disp", "ContactMechanics/FFTElasticHalfSpace.py::PeriodicFFTElasticHalfSpace.evaluate_force"]}
{"id": "C02", "title": "Displacement and force evaluation are mutually inverse", "statement": "On a periodic half-space whose Gamma-point stiffness is nonzero, evaluate_force(evaluate_disp(f)) = f and evaluate_disp(evaluate_force(u)) = u at every grid point. With stiffness_q0=0.0 both round trips return the field minus its mean.", "quantifier": "every grid nx,ny (even or odd), positive modulus and sizes, every Gamma-point option, all real fields", "why_tests_cant": "The round trip depends on half-spectrum storage, Nyquist handling and the zero mode for every parity of the grid; tests use four sizes and mean-free fields.", "anchors": ["ContactMechanics/FFTElasticHalfSpace.py::PeriodicFFTElasticHalfSpace.evaluate_disp", "ContactMechanics/FFTElasticHalfSpace.py::PeriodicFFTElasticHalfSpace.evaluate_force", "ContactMechanics/FFTElasticHalfSpace.py::PeriodicFFTElasticHalfSpace._compute_surface_stiffness"]}
{"id": "C03", "title": "Reciprocity of the periodic half-space", "statement": "The work of forces f1 on the displacement caused by f2 equals the work of f2 on the displacement caused by f1: sum f1*evaluate_disp(f2) = sum f2*evaluate_disp(f1); likewise for evaluate_force.", "quantifier": "every grid, material and pair of fields", "why_tests_cant": "Symmetry of an operator is a statement over all pairs of inputs.", "anchors": ["ContactMechanics/FFTElasticHalfSpace.py::PeriodicFFTElasticHalfSpace.evaluate_disp", "ContactMechanics/FFTElasticHalfSpace.py::PeriodicFFTElasticHalfSpace.evaluate_force"]}
{"id": "C04", "title": "Elastic energy is nonnegative and vanishes only for rigid motion", "statement": "evaluate(disp)[0] >= 0 for every displacement field; it is zero only for the zero field (nonzero Gamma stiffness) or for uniform fields (stiffness_q0=0.0).", "quantifier": "every grid, positive material constants, every displacement field", "why_tests_cant": "Positive definiteness quantifies over all fields.", "anchors": ["ContactMechanics/FFTElasticHalfSpace.py::PeriodicFFTElasticHalfSpace.evaluate", "ContactMechanics/FFTElasticHalfSpace.py::PeriodicFFTElasticHalfSpace.evaluate_elastic_energy"]}
{"id": "C05", "title": "Real-space and Fourier-space energies agree", "statement": "evaluate(disp, pot=True, forces=True)[0] equals evaluate(disp, pot=True, forces=False)[0] although the second is computed from the half spectrum, for all grid parities.", "quantifier": "all displacement fields, all nx, ny including 1, 2, even and odd", "why_tests_cant": "The half-spectrum weights (first row, Nyquist row) must be right for every size; tests check four sizes.", "anchors": ["ContactMechanics/FFTElasticHalfSpace.py::PeriodicFFTElasticHalfSpace.evaluate", "ContactMechanics/FFTElasticHalfSpace.py::PeriodicFFTElasticHalfSpace.evaluate_scalar_product_k_space"]}
{"id": "C06", "title": "Fourier-space scalar product does not depend on the MPI decomposition", "statement": "evaluate_scalar_product_k_space(fft(a), fft(b)) returns sum(a*b) whatever way the half spectrum is cut into per-process blocks, including empty blocks and blocks one row wide.", "quantifier": "all real fields a,b, all grids and all decompositions of the Fourier grid into boxes", "why_tests_cant": "The number of ranks and slab boundaries in the test suite is fixed; the boundary weights depend on both.", "anchors": ["ContactMechanics/FFTElasticHalfSpace.py::PeriodicFFTElasticHalfSpace.evaluate_scalar_product_k_space"]}
{"id": "C07", "title": "Translation invariance of the periodic half-space", "statement": "Cyclically shifting the force field by any number of grid points shifts the displacement field by the same amount and changes nothing else; same for evaluate_force.", "quantifier": "all shifts, fields and grids", "why_tests_cant": "Quantifies over all shifts and fields.", "anchors": ["ContactMechanics/FFTElasticHalfSpace.py::PeriodicFFTElasticHalfSpace.evaluate_disp"]}
{"id": "C08", "title": "Gamma-point response is the requested one", "statement": "A uniform displacement u0 yields the uniform force -u0*K0*area_per_pt, where K0 is stiffness_q0 if given and nonzero, 0 if stiffness_q0=0.0, the oedometric stiffness E(1-nu)/((1-2nu)(1+nu)h) for a layer of thickness h, and otherwise the mean of the two lowest axis stiffnesses.", "quantifier": "all grids, materials, Gamma options and uniform displacements", "why_tests_cant": "Only two options on a single grid are tested.", "anchors": ["ContactMechanics/FFTElasticHalfSpace.py::PeriodicFFTElasticHalfSpace._compute_greens_function"]}
{"id": "C09", "title": "Each plane wave has stiffness E*|q|/2", "statement": "For the infinitely deep half-space, a displacement cos(q.x+phi) with any admissible nonzero wavevector gives the force field -(E*/2)|q| area_per_pt cos(q.x+phi), with q the minimum-image wavevector and E*=E/(1-nu^2).", "quantifier": "all grids, sizes, materials, wavevectors kx,ky and phases", "why_tests_cant": "There are nx*ny wavevectors per grid and arbitrarily many grids.", "anchors": ["ContactMechanics/FFTElasticHalfSpace.py::PeriodicFFTElasticHalfSpace._compute_greens_function", "ContactMechanics/FFTElasticHalfSpace.py::PeriodicFFTElasticHalfSpace.evaluate_force"]}
{"id": "C10", "title": "A finite layer is stiffer than the half-space and stable", "statement": "With thickness given and 0<=nu<1/2 every wavevector's stiffness is positive and strictly larger than that of the infinite half-space with the same E*; hence every energy is at least the half-space energy on mean-free fields.", "quantifier": "all thicknesses h>0, Poisson numbers in [0,1/2), grids and wavevectors", "why_tests_cant": "Continuous parameter range.", "anchors": ["ContactMechanics/FFTElasticHalfSpace.py::PeriodicFFTElasticHalfSpace._compute_greens_function"]}
{"id": "C11", "title": "Thick layers converge to the half-space", "statement": "As thickness tends to infinity every non-Gamma stiffness of the layer tends to the half-space stiffness.", "quantifier": "all grids, materials, wavevectors", "why_tests_cant": "A limit statement.", "anchors": ["ContactMechanics/FFTElasticHalfSpace.py::PeriodicFFTElasticHalfSpace._compute_greens_function"]}
{"id": "C12", "title": "The Gamma-point stiffness of a layer is the long-wavelength limit", "statement": "The layer stiffness as a function of the wavevector tends, for q to 0, to the value the code assigns at the Gamma point.", "quantifier": "all thicknesses and Poisson numbers in [0,1/2)", "why_tests_cant": "A limit statement.", "anchors": ["ContactMechanics/FFTElasticHalfSpace.py::PeriodicFFTElasticHalfSpace._compute_greens_function"]}
{"id": "C13", "title": "Constructor validation of half-spaces", "statement": "PeriodicFFTElasticHalfSpace(...) raises Error unless the dimension is 1 or 2 and at most one of stiffness_q0/thickness is given, raises ZeroDivisionError iff it passes these checks and a grid size is zero or the Poisson number is +-1, and otherwise expands physical_sizes by repeating its last entry so that each dimension gets its grid spacing.", "quantifier": "all argument combinations", "why_tests_cant": "Argument space is unbounded.", "anchors": ["ContactMechanics/FFTElasticHalfSpace.py::PeriodicFFTElasticHalfSpace.__init__"]}
{"id": "C14", "title": "Unit neutrality of the half-space", "statement": "Rescaling lengths by l and forces by F (moduli by F/l^2) maps evaluate_force(l*u) to F times the original result and evaluate_disp(F*f) to l times the original result, for the periodic half-space with default or rescaled Gamma stiffness.", "quantifier": "all scale factors, grids, materials and fields", "why_tests_cant": "Continuous family of unit systems.", "anchors": ["ContactMechanics/FFTElasticHalfSpace.py::PeriodicFFTElasticHalfSpace"]}
{"id": "C15", "title": "Force fields are gradients of the energy", "statement": "E(u+v) = E(u) - sum evaluate_force(u)*v + E(v) exactly, so -evaluate_force is the gradient of the elastic energy, and the energy is convex.", "quantifier": "all grids, materials, displacement fields u and increments v", "why_tests_cant": "Tests use a finite-difference check at one random point of a 2x2 grid.", "anchors": ["ContactMechanics/FFTElasticHalfSpace.py::PeriodicFFTElasticHalfSpace.evaluate", "ContactMechanics/Substrates.py::ElasticSubstrate.compute"]}
{"id": "C16", "title": "Shape mismatches are rejected", "statement": "evaluate_disp, evaluate_force, evaluate_k_disp, evaluate_k_force on a periodic half-space raise Error exactly when the array shape differs from the local grid shape (no silent broadcasting).", "quantifier": "all shapes", "why_tests_cant": "Shapes are unbounded.", "anchors": ["ContactMechanics/FFTElasticHalfSpace.py::PeriodicFFTElasticHalfSpace.evaluate_disp", "ContactMechanics/FFTElasticHalfSpace.py::PeriodicFFTElasticHalfSpace.evaluate_k_force"]}
{"id": "C17", "title": "Gamma-point option zero works in every supported dimension", "statement": "stiffness_q0=0.0 removes the zero-wavevector response for one- and two-dimensional substrates alike.", "quantifier": "all grids in 1 and 2 dimensions", "why_tests_cant": "The 1D branch with this option is not covered; the code indexes a 1D array with two indices.", "anchors": ["ContactMechanics/FFTElasticHalfSpace.py::PeriodicFFTElasticHalfSpace._compute_greens_function"]}
{"id": "C18", "title": "One-dimensional periodic half-space", "statement": "The 1D substrate is linear, evaluate_force and evaluate_disp are mutually inverse (nonzero Gamma stiffness), reciprocal, and each cosine of wavenumber k has stiffness E*|q|/2 per point; finite thickness is honoured.", "quantifier": "all nx>=2, materials and fields", "why_tests_cant": "All fields and parities.", "anchors": ["ContactMechanics/FFTElasticHalfSpace.py::PeriodicFFTElasticHalfSpace._compute_greens_function"]}
{"id": "C19", "title": "Free half-space equals the direct aperiodic sum", "statement": "FreeFFTElasticHalfSpace.evaluate_disp(f) for a force field on the (unpadded) topography grid returns u_ij = -sum_kl G((i-k)dx,(j-l)dy) f_kl/(dx dy) with Love's pixel Green's function G and no contribution from periodic images.", "quantifier": "all grid sizes, spacings, moduli, force fields", "why_tests_cant": "Wrap-around contamination depends on padding and index conventions for all sizes.", "anchors": ["ContactMechanics/FFTElasticHalfSpace.py::FreeFFTElasticHalfSpace.evaluate_disp", "ContactMechanics/FFTElasticHalfSpace.py::FreeFFTElasticHalfSpace._compute_greens_function"]}
{"id": "C20", "title": "Padded and unpadded inputs are equivalent", "statement": "Calling evaluate_disp of a free half-space with an unpadded force field or with the same field embedded in a zero padded array gives the same displacements on the topography region, and bIncludePadding only controls the returned region.", "quantifier": "all grids and force fields", "why_tests_cant": "All fields.", "anchors": ["ContactMechanics/FFTElasticHalfSpace.py::FreeFFTElasticHalfSpace.evaluate_disp"]}
{"id": "C21", "title": "Reciprocity and mirror symmetry of the free half-space", "statement": "The pixel Green's function is even in x and in y, and sum f1*evaluate_disp(f2) = sum f2*evaluate_disp(f1) for unpadded force fields.", "quantifier": "all grids, spacings, force fields", "why_tests_cant": "All pairs of fields.", "anchors": ["ContactMechanics/FFTElasticHalfSpace.py::FreeFFTElasticHalfSpace._compute_greens_function"]}
{"id": "C22", "title": "Pressing on a free half-space moves every surface point in the same direction", "statement": "The pixel Green's function is strictly positive, so non-positive (compressive) forces that are not all zero displace every grid point by a strictly positive amount.", "quantifier": "all grids, spacings, moduli, one-signed force fields", "why_tests_cant": "Positivity of a transcendental expression for all positions.", "anchors": ["ContactMechanics/FFTElasticHalfSpace.py::FreeFFTElasticHalfSpace._compute_greens_function"]}
{"id": "C23", "title": "Boundary check is sound and complete", "statement": "check_boundaries(force) raises FreeBoundaryError iff some force on the outermost ring of the topography grid exceeds the tolerance, no matter how the grid is distributed over processes.", "quantifier": "all grids, force fields, tolerances and decompositions", "why_tests_cant": "Ring geometry and decomposition are unbounded.", "anchors": ["ContactMechanics/FFTElasticHalfSpace.py::FreeFFTElasticHalfSpace.check_boundaries", "ContactMechanics/FFTElasticHalfSpace.py::FreeFFTElasticHalfSpace.domain_boundary_mask"]}
{"id": "C24", "title": "Topography subdomains tile the topography", "statement": "The local topography subdomains of all processes (free half-space) partition the topography grid exactly, and each lies inside the process' padded subdomain.", "quantifier": "all grids and all slab/box decompositions of the padded grid", "why_tests_cant": "All process counts.", "anchors": ["ContactMechanics/FFTElasticHalfSpace.py::FreeFFTElasticHalfSpace.topography_nb_subdomain_grid_pts", "ContactMechanics/FFTElasticHalfSpace.py::PeriodicFFTElasticHalfSpace.topography_subdomain_slices"]}
{"id": "C25", "title": "spawn_child keeps physical resolution and material", "statement": "FreeFFTElasticHalfSpace.spawn_child(n) has the same modulus and the same grid spacing in each direction as its parent.", "quantifier": "all parent and child grids", "why_tests_cant": "All sizes.", "anchors": ["ContactMechanics/FFTElasticHalfSpace.py::FreeFFTElasticHalfSpace.spawn_child"]}
{"id": "C26", "title": "Accepted force shapes of the free half-space", "statement": "evaluate_disp accepts exactly the padded local shape and the local topography shape; every other shape raises Error; the explicit serial padding branch can never be reached.", "quantifier": "all shapes and decompositions", "why_tests_cant": "All shapes.", "anchors": ["ContactMechanics/FFTElasticHalfSpace.py::FreeFFTElasticHalfSpace.evaluate_disp"]}
{"id": "C27", "title": "Force evaluation is a generalised inverse for every substrate", "statement": "For free and periodic half-spaces alike, evaluate_disp(evaluate_force(evaluate_disp(f))) = evaluate_disp(f) on padded fields, and evaluate_force(evaluate_disp(f)) = f whenever no Green's function entry vanishes.", "quantifier": "all grids, materials and fields", "why_tests_cant": "All fields.", "anchors": ["ContactMechanics/FFTElasticHalfSpace.py::PeriodicFFTElasticHalfSpace._compute_surface_stiffness"]}
{"id": "C28", "title": "Semi-periodic half-space with no periodic direction equals the free half-space", "statement": "SemiPeriodicFFTElasticHalfSpace(periodicity=(False,False)) gives the same evaluate_disp on the topography region as FreeFFTElasticHalfSpace although it pads to 2n-1 instead of 2n.", "quantifier": "all grids, n_images, materials and force fields", "why_tests_cant": "All sizes and fields.", "anchors": ["ContactMechanics/FFTElasticHalfSpace.py::SemiPeriodicFFTElasticHalfSpace._compute_greens_function_inner"]}
{"id": "C29", "title": "Semi-periodic half-space is translation invariant along periodic directions", "statement": "evaluate_disp commutes with cyclic shifts along a direction flagged periodic, and equals the direct sum over forces and the 2*n_images+1 images.", "quantifier": "all grids, image counts, fields and shifts", "why_tests_cant": "All shifts and fields.", "anchors": ["ContactMechanics/FFTElasticHalfSpace.py::SemiPeriodicFFTElasticHalfSpace._compute_greens_function"]}
{"id": "C30", "title": "get_G_real returns the kernel in spatial order", "statement": "get_G_real()[i,j] is the real-space Green's function at offset ((i-floor(n/2))dx, (j-floor(m/2))dy): monotone coordinates with the origin at the central element, for even and odd computational grids, and get_G_real_slices returns the two lines through the origin.", "quantifier": "all grids and periodicities", "why_tests_cant": "Ordering depends on parity for every size.", "anchors": ["ContactMechanics/FFTElasticHalfSpace.py::SemiPeriodicFFTElasticHalfSpace.get_G_real", "ContactMechanics/FFTElasticHalfSpace.py::SemiPeriodicFFTElasticHalfSpace.get_G_real_slices"]}
{"id": "C31", "title": "Semi-periodic evaluate_force zero-pads small inputs", "statement": "evaluate_force on an array smaller than the computational grid equals evaluate_force on the array embedded in zeros; reciprocity holds for every periodicity flag combination.", "quantifier": "all shapes up to the computational grid, all flags", "why_tests_cant": "All shapes.", "anchors": ["ContactMechanics/FFTElasticHalfSpace.py::SemiPeriodicFFTElasticHalfSpace.evaluate_force"]}
{"id": "C32", "title": "No force outside the topography", "statement": "At every iteration (as seen by the callback) and in the returned result the solver's forces vanish exactly on padding points and on masked (undefined) topography points.", "quantifier": "all substrates, topographies, masks, options and iteration counts", "why_tests_cant": "Invariant over all iterates of all problems.", "anchors": ["ContactMechanics/Optimization/ConstrainedConjugateGradients.py::constrained_conjugate_gradients"]}
{"id": "C33", "title": "Returned displacements are the elastic response to the returned forces", "statement": "result.x = evaluate_disp(-jac) (jac embedded in zeros) exactly, on success and on maxiter alike, and result.fun = 1/2 sum jac*x over the topography.", "quantifier": "all problems and options, elastic or plastic, fixed offset or load", "why_tests_cant": "All problems.", "anchors": ["ContactMechanics/Optimization/ConstrainedConjugateGradients.py::constrained_conjugate_gradients"]}
{"id": "C34", "title": "Load control meets the prescribed load", "statement": "With external_force F, success implies |sum(jac)-F| < thermotol*|sum(jac)|; if no contact point was added in the final iteration and there is no hardness, sum(jac)=F exactly.", "quantifier": "all substrates, topographies, loads, tolerances", "why_tests_cant": "All problems.", "anchors": ["ContactMechanics/Optimization/ConstrainedConjugateGradients.py::constrained_conjugate_gradients"]}
{"id": "C35", "title": "Converged solutions do not penetrate", "statement": "success=True implies that at every topography point the substrate penetrates the rigid surface by less than pentol.", "quantifier": "all substrates, topographies, offsets, initial guesses", "why_tests_cant": "Needs all initial states; the exit test only inspects points that were in contact at the start of the last iteration.", "anchors": ["ContactMechanics/Optimization/ConstrainedConjugateGradients.py::constrained_conjugate_gradients"]}
{"id": "C36", "title": "Converged contacting points have small gap (complementarity)", "statement": "success=True implies that every point of the returned active set has gap between -pentol and (1+sqrt(A))*pentol, A the number of active points (elastic, fixed offset).", "quantifier": "all substrates, topographies, offsets, tolerances", "why_tests_cant": "All problems.", "anchors": ["ContactMechanics/Optimization/ConstrainedConjugateGradients.py::constrained_conjugate_gradients"]}
{"id": "C37", "title": "Forces are never tensile", "statement": "jac >= 0 everywhere in any returned result (hard-wall contact cannot pull).", "quantifier": "all substrates, topographies, iteration counts", "why_tests_cant": "Invariant over all iterates.", "anchors": ["ContactMechanics/Optimization/ConstrainedConjugateGradients.py::constrained_conjugate_gradients"]}
{"id": "C38", "title": "Forces never exceed the hardness", "statement": "With hardness H given, every returned contact force is at most H.", "quantifier": "all substrates, topographies, iteration counts", "why_tests_cant": "Invariant over all iterates.", "anchors": ["ContactMechanics/Optimization/ConstrainedConjugateGradients.py::constrained_conjugate_gradients", "ContactMechanics/PlasticSystemSpecialisations.py::PlasticNonSmoothContactSystem.minimize_proxy"]}
{"id": "C39", "title": "Iteration accounting and termination", "statement": "The solver performs at most maxiter iterations; nit is the number performed; an elastic run evaluates the substrate exactly 1+2*nit times; without success nit = maxiter; success is reported only through the convergence test.", "quantifier": "all problems and maxiter", "why_tests_cant": "All problems; termination.", "anchors": ["ContactMechanics/Optimization/ConstrainedConjugateGradients.py::constrained_conjugate_gradients"]}
{"id": "C40", "title": "maxiter=0 yields an unconverged result", "statement": "Calling the solver with maxiter=0 returns a result with success=False.", "quantifier": "all problems", "why_tests_cant": "Boundary value not covered; the code reads a variable assigned only inside the loop.", "anchors": ["ContactMechanics/Optimization/ConstrainedConjugateGradients.py::constrained_conjugate_gradients"]}
{"id": "C41", "title": "Offset handling", "statement": "Without external_force the returned offset is exactly the given offset (0 if None), whatever the iterations do; with external_force the given offset has no influence on the iterates when pentol is given and forces are initialised explicitly.", "quantifier": "all problems", "why_tests_cant": "All problems.", "anchors": ["ContactMechanics/Optimization/ConstrainedConjugateGradients.py::constrained_conjugate_gradients"]}
{"id": "C42", "title": "Separated surfaces are detected", "statement": "If the rigid surface nowhere reaches the undeformed substrate (h+offset<=0 everywhere), the cold-started solver succeeds in one iteration with zero force and zero displacement.", "quantifier": "all substrates, topographies below the surface, offsets, positive tolerances", "why_tests_cant": "All topographies.", "anchors": ["ContactMechanics/Optimization/ConstrainedConjugateGradients.py::constrained_conjugate_gradients"]}
{"id": "C43", "title": "Zero-load convergence at fixed offset is only possible in the first iteration", "statement": "At fixed offset, success in iteration 2 or later implies a nonzero total force: a warm start from contact to separation cannot be reported converged.", "quantifier": "all problems", "why_tests_cant": "All problems; the 0/0 in the relative force change.", "anchors": ["ContactMechanics/Optimization/ConstrainedConjugateGradients.py::constrained_conjugate_gradients"]}
{"id": "C44", "title": "The CG step is an exact line search", "statement": "In every elastic fixed-offset iteration the step length minimises the dual energy 1/2 f.Cf - f.(h+offset) along the search direction, so the pre-clipping energy never increases.", "quantifier": "all symmetric positive substrates, iterates and directions", "why_tests_cant": "All iterates.", "anchors": ["ContactMechanics/Optimization/ConstrainedConjugateGradients.py::constrained_conjugate_gradients"]}
{"id": "C45", "title": "Exact fixed points solve the contact problem", "statement": "If an elastic fixed-offset iteration ends with gap zero on all loaded points, no tensile force and no penetration, the displacement field is the unique minimiser of the elastic energy among all fields with u>=h+offset and the forces are the unique minimiser of the dual energy among nonnegative forces.", "quantifier": "all symmetric positive definite substrates and topographies", "why_tests_cant": "Optimality over all competitors.", "anchors": ["ContactMechanics/Optimization/ConstrainedConjugateGradients.py::constrained_conjugate_gradients", "ContactMechanics/Systems.py::NonSmoothContactSystem.primal_objective", "ContactMechanics/Systems.py::NonSmoothContactSystem.dual_objective"]}
{"id": "C46", "title": "Array-valued hardness is accepted", "statement": "hardness may be a per-pixel array (as documented).", "quantifier": "all arrays", "why_tests_cant": "Not tested; `if hardness:` is ambiguous for arrays.", "anchors": ["ContactMechanics/Optimization/ConstrainedConjugateGradients.py::constrained_conjugate_gradients"]}
{"id": "C47", "title": "Default penetration tolerance is usable", "statement": "With pentol=None the derived tolerance is positive, for every topography and offset, in load and displacement control.", "quantifier": "all topographies and offsets", "why_tests_cant": "Flat surfaces with negative offset or load control are not covered.", "anchors": ["ContactMechanics/Optimization/ConstrainedConjugateGradients.py::constrained_conjugate_gradients"]}
{"id": "C48", "title": "Gap convention", "statement": "compute_gap(disp, offset) = disp - heights - offset on the topography region; the lower bounds produced for bound-constrained minimisers admit a displacement field iff all gaps are >= 0 (padding unconstrained).", "quantifier": "all fields, offsets, topographies", "why_tests_cant": "All fields.", "anchors": ["ContactMechanics/Systems.py::SystemBase.compute_gap", "ContactMechanics/Systems.py::SystemBase._lbounds_from_heights", "ContactMechanics/Systems.py::SystemBase._reshape_bounds"]}
{"id": "C49", "title": "Primal objective and gradient are consistent", "statement": "primal_objective(offset) returns (E(u), -force(u)) with u = gap+h+offset; the gradient is the exact derivative and primal_hessian_product is the exact change of the gradient.", "quantifier": "all gaps, offsets, topographies on periodic substrates", "why_tests_cant": "All fields.", "anchors": ["ContactMechanics/Systems.py::NonSmoothContactSystem.primal_objective", "ContactMechanics/Systems.py::NonSmoothContactSystem.primal_hessian_product", "ContactMechanics/Systems.py::NonSmoothContactSystem.hessian_product"]}
{"id": "C50", "title": "Dual objective and gradient are consistent", "statement": "dual_objective(offset) returns (q(f), gap) with q(f)=1/2 f.u-f.(h+offset); its gradient is the exact derivative, and dual_hessian_product the exact change of the gradient, for periodic and free substrates.", "quantifier": "all force fields, offsets, topographies", "why_tests_cant": "All fields.", "anchors": ["ContactMechanics/Systems.py::NonSmoothContactSystem.dual_objective", "ContactMechanics/Systems.py::NonSmoothContactSystem.evaluate_dual", "ContactMechanics/Systems.py::NonSmoothContactSystem.dual_hessian_product"]}
{"id": "C51", "title": "Strong duality", "statement": "For compatible primal/dual pairs satisfying complementarity, the primal energy plus the dual objective is zero, and for all feasible pairs it is nonnegative.", "quantifier": "all feasible pairs", "why_tests_cant": "All pairs.", "anchors": ["ContactMechanics/Systems.py::NonSmoothContactSystem.primal_objective", "ContactMechanics/Systems.py::NonSmoothContactSystem.dual_objective"]}
{"id": "C52", "title": "Failed minimisations expose no stale solution", "statement": "After minimize_proxy/primal_minimize_proxy/dual_minimize_proxy without success, system.disp, system.force and system.contact_zone are None, and every result derived from the system reflects the last successful calculation or raises.", "quantifier": "all histories of calls", "why_tests_cant": "All histories.", "anchors": ["ContactMechanics/Systems.py::NonSmoothContactSystem.minimize_proxy", "ContactMechanics/Systems.py::NonSmoothContactSystem.compute_normal_force"]}
{"id": "C53", "title": "Contact area bookkeeping", "statement": "compute_contact_area = number of points with positive force times area_per_pt; 0 <= relative contact area <= 1, equal to the fraction of points in contact; compute_normal_force = sum of returned forces, after every successful minimize_proxy.", "quantifier": "all results", "why_tests_cant": "All results.", "anchors": ["ContactMechanics/Systems.py::SystemBase.compute_contact_area", "ContactMechanics/Systems.py::SystemBase.compute_relative_contact_area", "ContactMechanics/Systems.py::NonSmoothContactSystem.compute_normal_force"]}
{"id": "C54", "title": "Normal force has one sign convention", "statement": "compute_normal_force has the same sign after evaluate(forces=True) as after minimize_proxy for the same physical state.", "quantifier": "all states", "why_tests_cant": "All histories; evaluate stores substrate forces, minimize_proxy stores their negatives.", "anchors": ["ContactMechanics/Systems.py::NonSmoothContactSystem.evaluate", "ContactMechanics/Systems.py::NonSmoothContactSystem.minimize_proxy"]}
{"id": "C55", "title": "Minimisation input/output reshaping is lossless", "statement": "shape_minimisation_output(shape_minimisation_input(a)) = a for arrays with the right number of elements and IncompatibleResolutionError otherwise.", "quantifier": "all arrays", "why_tests_cant": "All shapes.", "anchors": ["ContactMechanics/Systems.py::SystemBase.shape_minimisation_input", "ContactMechanics/Systems.py::SystemBase.shape_minimisation_output"]}
{"id": "C56", "title": "Incompatible resolutions are rejected", "statement": "Constructing a contact system raises IncompatibleResolutionError iff the grids of substrate and topography differ; compare_containers compares content regardless of container type.", "quantifier": "all grids", "why_tests_cant": "All grids.", "anchors": ["ContactMechanics/Systems.py::NonSmoothContactSystem.__init__", "ContactMechanics/Tools/common.py::compare_containers"]}
{"id": "C57", "title": "evaluate stores exactly what it returns", "statement": "evaluate(disp, offset, pot, forces) stores and returns energy iff pot and force iff forces, None otherwise, independent of history.", "quantifier": "all call histories and flag combinations", "why_tests_cant": "All histories.", "anchors": ["ContactMechanics/Systems.py::NonSmoothContactSystem.evaluate", "ContactMechanics/Substrates.py::ElasticSubstrate.compute"]}
{"id": "C58", "title": "Plastic deformation updates only yielding points and closes their gap", "statement": "After a successful plastic minimisation plastic_displ changes only at points flagged plastic and the recomputed gap there is zero; after failure it is unchanged; over any history of minimisations the accumulated displacement is the sum of the successful updates.", "quantifier": "all histories of minimisations", "why_tests_cant": "All histories.", "anchors": ["ContactMechanics/PlasticSystemSpecialisations.py::PlasticNonSmoothContactSystem.minimize_proxy"]}
{"id": "C59", "title": "contact_mechanics argument validation", "statement": "contact_mechanics raises ValueError unless exactly one of nsteps, offsets, pressures is given.", "quantifier": "all argument combinations", "why_tests_cant": "All combinations.", "anchors": ["ContactMechanics/PipelineFunction.py::contact_mechanics"]}
{"id": "C60", "title": "contact_mechanics returns one aligned record per step in order", "statement": "For offsets/pressures lists of length n the five returned arrays have length n, entry i belongs to the i-th requested offset/pressure (offsets are returned unchanged), and the callback is called once per step in the same order with matching scalars.", "quantifier": "all lists and solver behaviours, topographies with at least two grid points in each direction", "why_tests_cant": "All list lengths.", "anchors": ["ContactMechanics/PipelineFunction.py::contact_mechanics", "ContactMechanics/PipelineFunction.py::_contact_calculation"]}
{"id": "C61", "title": "Elastic results are independent of calculation order", "statement": "In an elastic calculation the record of step i depends only on offsets[i]: permuting the offsets permutes the results; in auto mode plastic displacements are reset so each step starts from the undeformed topography.", "quantifier": "all offset lists and permutations", "why_tests_cant": "All permutations.", "anchors": ["ContactMechanics/PipelineFunction.py::contact_mechanics", "ContactMechanics/PipelineFunction.py::_next_contact_step"]}
{"id": "C62", "title": "Automatic offsets refine the area gap or extend the range", "statement": "In auto mode each new offset is either the midpoint between two offsets that are neighbours in area order with the largest log-area gap or the documented extrapolation; the index never leaves the history.", "quantifier": "all histories", "why_tests_cant": "All histories.", "anchors": ["ContactMechanics/PipelineFunction.py::_next_contact_step"]}
{"id": "C63", "title": "Zero steps return empty results", "statement": "contact_mechanics(nsteps=0) (or empty lists) returns five empty arrays.", "quantifier": "all topographies", "why_tests_cant": "Boundary case; history stays None and is unpacked.", "anchors": ["ContactMechanics/PipelineFunction.py::contact_mechanics"]}
{"id": "C64", "title": "Reported fields are physical", "statement": "In every callback gap >= 0, contacting_points = (pressure>0), fractional area in [0,1], mean pressure = sum(pressure)*area_per_pt/A; under load control mean pressure agrees with the requested pressure within thermotol on convergence.", "quantifier": "all solver results", "why_tests_cant": "All results.", "anchors": ["ContactMechanics/PipelineFunction.py::_contact_calculation"]}
{"id": "C65", "title": "Command line history stays aligned and sorted by area", "statement": "After any number of automatic CLI steps the history columns are sorted by area and are a permutation of the per-step records (rows stay together).", "quantifier": "all sequences of solver results", "why_tests_cant": "All histories.", "anchors": ["ContactMechanics/CommandLineInterface/HardWall.py::next_step"]}
{"id": "C66", "title": "Command line displacement mode runs", "statement": "ce_hard_wall --displacement computes the requested displacement(s).", "quantifier": "all displacement arguments", "why_tests_cant": "Not covered by tests; unknown keyword 'kind' is passed to the solver.", "anchors": ["ContactMechanics/CommandLineInterface/HardWall.py::main"]}
{"id": "C67", "title": "Every exported map carries the macroscopic data header", "statement": "Each of the contact, pressure, displacement and gap files written for one step carries the same macroscopic data in its header.", "quantifier": "all combinations of requested outputs", "why_tests_cant": "Needs pairs of outputs; dump returns a one-shot iterator.", "anchors": ["ContactMechanics/CommandLineInterface/HardWall.py::dump", "ContactMechanics/CommandLineInterface/HardWall.py::save_pressure", "ContactMechanics/CommandLineInterface/HardWall.py::save_contact", "ContactMechanics/CommandLineInterface/HardWall.py::save_gap"]}
{"id": "C68", "title": "Logger prints every outevery-th record and every forced record", "statement": "After any sequence of st calls the printed records are exactly the forced ones and every outevery-th call, in call order, and a header line precedes the first record and every sepevery-th one.", "quantifier": "all call sequences and settings", "why_tests_cant": "All sequences.", "anchors": ["ContactMechanics/Tools/Logger.py::Logger.st"]}
{"id": "C69", "title": "Nothing logged before a log file is set is lost or reordered", "statement": "Lines logged while no file is attached appear in the file attached later, exactly once, in order, before later lines.", "quantifier": "all histories", "why_tests_cant": "All histories.", "anchors": ["ContactMechanics/Tools/Logger.py::Logger.set_logfile", "ContactMechanics/Tools/Logger.py::Logger._print"]}
{"id": "C70", "title": "Logger never overwrites an existing log when using a template name", "statement": "Opening an iteration log file with a templated name renames an existing file to the first free backup name; no existing file content is destroyed.", "quantifier": "all file system states and iteration histories", "why_tests_cant": "All file systems.", "anchors": ["ContactMechanics/Tools/Logger.py::Logger.__open_logfile"]}
{"id": "C71", "title": "The quiet logger uses bounded memory", "statement": "Logging to the default quiet logger does not accumulate data.", "quantifier": "all histories", "why_tests_cant": "Growth over long histories.", "anchors": ["ContactMechanics/Tools/Logger.py::quiet", "ContactMechanics/Tools/Logger.py::Logger._print"]}
{"id": "C72", "title": "Convergence logs can be read back", "statement": "read_convergence_log recovers the column names and values written by Logger.st.", "quantifier": "all headers and records", "why_tests_cant": "All header texts; names containing blanks break the header parser.", "anchors": ["ContactMechanics/Tools/Logger.py::read_convergence_log", "ContactMechanics/Tools/Logger.py::Logger.st"]}
{"id": "C73", "title": "Log header and record have the same number of columns", "statement": "For scalar, string and (nested) vector values the header line has exactly one column label per printed value.", "quantifier": "all header/value lists", "why_tests_cant": "All nestings.", "anchors": ["ContactMechanics/Tools/Logger.py::hdr_str", "ContactMechanics/Tools/Logger.py::flatten", "ContactMechanics/Tools/Logger.py::Logger.st"]}
{"id": "C74", "title": "NetCDF frames read back what was written", "statement": "After any sequence of frame writes, reading a (frame, variable) returns the last value written to it, independent of writes to other frames or variables, up to the storage precision fixed at the first write of the variable.", "quantifier": "all write histories", "why_tests_cant": "All histories.", "anchors": ["ContactMechanics/IO/NetCDF.py::NetCDFContainerFrame.__setattr__", "ContactMechanics/IO/NetCDF.py::NetCDFContainerFrame.__getattr__"]}
{"id": "C75", "title": "Scalars keep their value in NetCDF frames", "statement": "A real value written to a frame variable is read back unchanged also if an earlier frame stored an integer in that variable.", "quantifier": "all histories", "why_tests_cant": "Type fixed by first write.", "anchors": ["ContactMechanics/IO/NetCDF.py::NetCDFContainerFrame._create_if_missing"]}
{"id": "C76", "title": "Frame cursor and negative indices", "statement": "get_next_frame returns consecutive frames and advances the cursor by one; negative frame indices count from the end; slices enumerate the frames in range; len counts them, and grows only by writing further frames.", "quantifier": "all histories", "why_tests_cant": "All histories.", "anchors": ["ContactMechanics/IO/NetCDF.py::NetCDFContainer.get_next_frame", "ContactMechanics/IO/NetCDF.py::NetCDFContainer.__getitem__"]}
{"id": "C77", "title": "Grid shape of a container is fixed once", "statement": "set_shape defines the grid on first use and afterwards raises unless the same shape is given; the stored shape never changes.", "quantifier": "all histories", "why_tests_cant": "All histories.", "anchors": ["ContactMechanics/IO/NetCDF.py::NetCDFContainer.set_shape"]}
{"id": "C78", "title": "open parses frame selectors", "statement": "open('file@n') yields frame n of file, open(file, frame=n) the same, names without @ the container; a text behind @ that is no whole number raises ValueError.", "quantifier": "all names and frame numbers", "why_tests_cant": "All strings.", "anchors": ["ContactMechanics/IO/NetCDF.py::open"]}
{"id": "C79", "title": "Isotropic surface Green's function is Hermitian and positive definite", "statement": "For mu>0, -1<nu<1/2 (and q!=0) greens_function(qx,qy) is Hermitian positive definite and stiffness is its inverse.", "quantifier": "all wavevectors and material constants", "why_tests_cant": "Continuous family.", "anchors": ["ContactMechanics/GreensFunctions/Isotropic.py::IsotropicGreensFunction"]}
{"id": "C80", "title": "Normal component agrees with the periodic half-space", "statement": "The zz component of the isotropic Green's function equals 2/(E*|q|) with E*=2mu/(1-nu), i.e. the Green's function used by PeriodicFFTElasticHalfSpace.", "quantifier": "all wavevectors and material constants", "why_tests_cant": "Continuous family.", "anchors": ["ContactMechanics/GreensFunctions/Isotropic.py::IsotropicGreensFunction._greens_function", "ContactMechanics/FFTElasticHalfSpace.py::PeriodicFFTElasticHalfSpace._compute_greens_function"]}
{"id": "C81", "title": "Homogeneity of the isotropic Green's function", "statement": "greens_function(s*q)=greens_function(q)/s and stiffness(s*q)=s*stiffness(q) for all s>0.", "quantifier": "all scale factors and wavevectors", "why_tests_cant": "Absolute cut-off 1e-6 breaks the stiffness for small wavevectors.", "anchors": ["ContactMechanics/GreensFunctions/Isotropic.py::IsotropicGreensFunction._stiffness"]}
{"id": "C82", "title": "Elasticity tensor symmetries and Voigt round trip", "statement": "elasticity_tensor has minor and major symmetries, Voigt/tensor conversion round-trips, and rotation by any cubic symmetry leaves the constants unchanged; isotropic constants are invariant under every rotation.", "quantifier": "all constants and rotations", "why_tests_cant": "Continuous family.", "anchors": ["ContactMechanics/GreensFunctions/Anisotropic.py::AnisotropicGreensFunction.__init__", "ContactMechanics/GreensFunctions/Anisotropic.py::AnisotropicGreensFunction.elasticity_tensor", "ContactMechanics/GreensFunctions/Anisotropic.py::AnisotropicGreensFunction.voigt_from_tensor"]}
{"id": "C83", "title": "The bulk determinant is an even cubic in qz^2", "statement": "det(bulkop(qx,qy,i*Q)) = c0+c2Q^2+c4Q^4+c6Q^6 and find_eigenvalues recovers c0..c6 exactly from four samples.", "quantifier": "all wavevectors, constants and rotations", "why_tests_cant": "Polynomial identity; fails for generic rotations.", "anchors": ["ContactMechanics/GreensFunctions/Anisotropic.py::AnisotropicGreensFunction.find_eigenvalues", "ContactMechanics/GreensFunctions/Anisotropic.py::AnisotropicGreensFunction.bulkop"]}
{"id": "C84", "title": "Only proper rotations are accepted", "statement": "AnisotropicGreensFunction raises ValueError for every matrix R that is not a proper rotation.", "quantifier": "all 3x3 matrices", "why_tests_cant": "Only det(R) is inspected.", "anchors": ["ContactMechanics/GreensFunctions/Anisotropic.py::AnisotropicGreensFunction.__init__"]}
{"id": "C85", "title": "Scalar wavevectors are accepted by the anisotropic Green's function", "statement": "greens_function(qx,qy) and stiffness(qx,qy) accept scalar arguments.", "quantifier": "all scalars", "why_tests_cant": "Scalar branch unreachable: item assignment on a scalar.", "anchors": ["ContactMechanics/GreensFunctions/Anisotropic.py::AnisotropicGreensFunction.greens_function"]}
{"id": "C86", "title": "Hertz relations are mutually consistent", "statement": "normal_load(penetration(N))=N, penetration(normal_load(d))=d, contact radius a^2=R d, max_pressure__penetration(d) equals the peak pressure of radius_and_pressure(normal_load(d)).", "quantifier": "all positive loads, radii, moduli", "why_tests_cant": "Continuous family.", "anchors": ["ContactMechanics/ReferenceSolutions/Hertz.py::penetration", "ContactMechanics/ReferenceSolutions/Hertz.py::normal_load", "ContactMechanics/ReferenceSolutions/Hertz.py::radius_and_pressure", "ContactMechanics/ReferenceSolutions/Hertz.py::max_pressure__penetration"]}
{"id": "C87", "title": "Hertz energy is the work of the load", "statement": "d/dd elastic_energy(d,R,Es) = normal_load(d,R,Es) for all d>0, and elastic_energy(0)=0.", "quantifier": "all penetrations, radii, moduli", "why_tests_cant": "Derivative statement.", "anchors": ["ContactMechanics/ReferenceSolutions/Hertz.py::elastic_energy", "ContactMechanics/ReferenceSolutions/Hertz.py::normal_load"]}
{"id": "C88", "title": "Hertz surface fields are continuous at the contact edge", "statement": "surface_displacements and surface_stress are continuous at r=1, pressure vanishes outside, and the pressure integrates to the load.", "quantifier": "all radii and Poisson numbers", "why_tests_cant": "Continuity.", "anchors": ["ContactMechanics/ReferenceSolutions/Hertz.py::surface_displacements", "ContactMechanics/ReferenceSolutions/Hertz.py::surface_stress"]}
{"id": "C89", "title": "Hertz interior stresses agree between formulations", "statement": "stress evaluated on the axis r=0 agrees with centerline_stress, and stress_Cartesian on the axis agrees with both.", "quantifier": "all depths and Poisson numbers", "why_tests_cant": "Continuous family.", "anchors": ["ContactMechanics/ReferenceSolutions/Hertz.py::stress", "ContactMechanics/ReferenceSolutions/Hertz.py::centerline_stress", "ContactMechanics/ReferenceSolutions/Hertz.py::stress_Cartesian"]}
{"id": "C90", "title": "Westergaard contact radius and mean pressure are inverse", "statement": "contact_radius(mean_pressure(a))=a for 0<=a<=1/2, mean_pressure(contact_radius(p))=p for 0<=p<=1, and elastic_energy_a(a)=elastic_energy(mean_pressure(a)).", "quantifier": "all a, p in range", "why_tests_cant": "Continuous family.", "anchors": ["ContactMechanics/ReferenceSolutions/Westergaard.py::contact_radius", "ContactMechanics/ReferenceSolutions/Westergaard.py::mean_pressure", "ContactMechanics/ReferenceSolutions/Westergaard.py::elastic_energy", "ContactMechanics/ReferenceSolutions/Westergaard.py::elastic_energy_a"]}
{"id": "C91", "title": "Westergaard contact conditions", "statement": "gap(x,a)=0 for |x|<=a modulo 1, gap>0 elsewhere, pressure>=0 and zero outside, displacements are 1-periodic and even.", "quantifier": "all positions and contact radii 0<a<1/2", "why_tests_cant": "Continuous family.", "anchors": ["ContactMechanics/ReferenceSolutions/Westergaard.py::gap", "ContactMechanics/ReferenceSolutions/Westergaard.py::displacements", "ContactMechanics/ReferenceSolutions/Westergaard.py::_pressure"]}
{"id": "C92", "title": "Westergaard energy is the work of the mean pressure", "statement": "along the equilibrium curve dE = -p d(mean displacement).", "quantifier": "all a in (0,1/2)", "why_tests_cant": "Derivative statement.", "anchors": ["ContactMechanics/ReferenceSolutions/Westergaard.py::elastic_energy_a", "ContactMechanics/ReferenceSolutions/Westergaard.py::mean_displacement"]}
{"id": "C93", "title": "Westergaard mean pressure has one normalisation", "statement": "_pressure(x, mean_pressure=p) equals _pressure(x, contact_radius=contact_radius(p)).", "quantifier": "all p in (0,1), x", "why_tests_cant": "The two functions normalise by different factors.", "anchors": ["ContactMechanics/ReferenceSolutions/Westergaard.py::_pressure", "ContactMechanics/ReferenceSolutions/Westergaard.py::contact_radius"]}
{"id": "C94", "title": "Cone contact area is pi times the squared radius", "statement": "contact_radius_and_area(alpha) returns A/D^2 = pi*(R/D)^2.", "quantifier": "all cone angles", "why_tests_cant": "Formula check at one angle passes when the ratio is 1.", "anchors": ["ContactMechanics/ReferenceSolutions/Cone.py::contact_radius_and_area"]}
{"id": "C95", "title": "Cone fields are continuous at the contact edge", "statement": "deformation and pressure are continuous at the contact radius, and load = mean pressure times area.", "quantifier": "all cone angles", "why_tests_cant": "Continuity.", "anchors": ["ContactMechanics/ReferenceSolutions/Cone.py::deformation", "ContactMechanics/ReferenceSolutions/Cone.py::pressure", "ContactMechanics/ReferenceSolutions/Cone.py::load_and_mean_pressure"]}
{"id": "C96", "title": "Central-difference gradients are exact for quadratics", "statement": "evaluate_gradient(f,x,delta) returns the exact gradient of every quadratic function for every delta!=0.", "quantifier": "all quadratics, dimensions, points, steps", "why_tests_cant": "All functions.", "anchors": ["ContactMechanics/Tools/common.py::evaluate_gradient"]}
{"id": "C97", "title": "fftn and ifftn are inverse", "statement": "ifftn(fftn(a,I),I)=a for every array and every nonzero I.", "quantifier": "all arrays", "why_tests_cant": "All arrays.", "anchors": ["ContactMechanics/Tools/common.py::fftn", "ContactMechanics/Tools/common.py::ifftn"]}
{"id": "C98", "title": "mean_err is a metric on same-shaped arrays and rejects others", "statement": "mean_err(a,b) raises for different shapes, is nonnegative, symmetric, zero iff equal and satisfies the triangle inequality.", "quantifier": "all arrays", "why_tests_cant": "All arrays.", "anchors": ["ContactMechanics/Tools/common.py::mean_err"]}
{"id": "C99", "title": "Wavelength/wavevector conversion is order-reversing", "statement": "get_q_from_lambda(l1,l2) returns q_min<=q_max for 0<=l1<=l2 with the documented infinity for 0, and compute_wavevectors lists 2*pi*m/L with m in fftfreq order.", "quantifier": "all wavelengths, grids", "why_tests_cant": "All values.", "anchors": ["ContactMechanics/Tools/common.py::get_q_from_lambda", "ContactMechanics/Tools/common.py::compute_wavevectors"]}
{"id": "C100", "title": "Factory chooses the substrate from the topography", "statement": "make_system without substrate builds a periodic substrate iff the topography is periodic, with the topography's grid and the given or stored physical sizes; missing sizes raise ValueError; a given substrate is used as is.", "quantifier": "all argument combinations, topographies with at least two grid points in each direction", "why_tests_cant": "All combinations.", "anchors": ["ContactMechanics/Factory.py::_make_system_args"]}
{"id": "C101", "title": "Factory rejects substrates of different physical size", "statement": "make_system raises if a given substrate has physical sizes different from the topography's.", "quantifier": "all sizes", "why_tests_cant": "Only grid counts are compared.", "anchors": ["ContactMechanics/Factory.py::make_system", "ContactMechanics/Systems.py::NonSmoothContactSystem.__init__"]}
{"id": "C102", "title": "Distributed Green's functions equal the serial one", "statement": "The part of the Green's function a process computes from the location and extent of its block of wavevectors is the corresponding part of the Green's function of a serial run, for every decomposition.", "quantifier": "all grids, materials and decompositions", "why_tests_cant": "The number of decompositions is unbounded; tests run on a few.", "anchors": ["ContactMechanics/FFTElasticHalfSpace.py::PeriodicFFTElasticHalfSpace._compute_greens_function"]}
{"id": "C103", "title": "evaluate never broadcasts silently", "statement": "PeriodicFFTElasticHalfSpace.evaluate raises for displacement arrays of a shape other than the grid, whichever of pot and forces are requested.", "quantifier": "all shapes and flags", "why_tests_cant": "All shapes.", "anchors": ["ContactMechanics/FFTElasticHalfSpace.py::PeriodicFFTElasticHalfSpace.evaluate"]}
{"id": "C104", "title": "The periodic substrate satisfies the solver's assumptions", "statement": "For every valid two-dimensional periodic substrate with positive Gamma stiffness, evaluate_disp with the sign convention of the constrained conjugate-gradient solver is a linear, symmetric, negative definite map, so that every theorem about the solver applies to it.", "quantifier": "all substrates and force fields", "why_tests_cant": "A statement about all fields linking two modules.", "anchors": ["ContactMechanics/FFTElasticHalfSpace.py::PeriodicFFTElasticHalfSpace.evaluate_disp", "ContactMechanics/Optimization/ConstrainedConjugateGradients.py::constrained_conjugate_gradients"]}
{"id": "C105", "title": "The tabulated pixel Green's function is Boussinesq's", "statement": "The closed form the free half-space tabulates equals 1/(pi*E) times the double integral of 1/r over the pixel, at every grid offset, including the pixel itself where the integrand is singular.", "quantifier": "all moduli, spacings and integer offsets", "why_tests_cant": "An identity between a transcendental closed form and an improper integral for all offsets.", "anchors": ["ContactMechanics/FFTElasticHalfSpace.py::FreeFFTElasticHalfSpace._compute_greens_function"]}
{"id": "C106", "title": "Free half-spaces need two dimensions", "statement": "Constructing a one-dimensional free half-space always fails with TypeError rather than producing a wrong substrate.", "quantifier": "all grid sizes, lengths and moduli", "why_tests_cant": "All argument combinations.", "anchors": ["ContactMechanics/FFTElasticHalfSpace.py::FreeFFTElasticHalfSpace._compute_greens_function"]}
{"id": "C107", "title": "Boundary mask marks exactly the ring", "statement": "domain_boundary_mask of every process is true exactly at its points on the outermost ring of the topography grid.", "quantifier": "all grids and decompositions", "why_tests_cant": "All decompositions; like check_boundaries it misses a row if a block starts exactly on it.", "anchors": ["ContactMechanics/FFTElasticHalfSpace.py::FreeFFTElasticHalfSpace.domain_boundary_mask"]}
{"id": "C108", "title": "Exact solutions are fixed points of the solver", "statement": "Restarting the solver from the displacements (fixed offset) or from the forces (at the load they carry) of an exact solution of the contact problem succeeds in one iteration and returns the same displacements, forces and offset.", "quantifier": "all elastic substrates, topographies, masks and exact solutions", "why_tests_cant": "A statement about all solutions of all problems.", "anchors": ["ContactMechanics/Optimization/ConstrainedConjugateGradients.py::constrained_conjugate_gradients"]}
{"id": "C109", "title": "Finite termination on a fixed contact set", "statement": "At fixed offset, counted from an iteration that restarts the conjugate directions, the gap is exactly closed on every contact point after at most as many iterations as there are contact points, as long as the contact set does not change (exact arithmetic).", "quantifier": "all symmetric definite substrates, topographies, iterates", "why_tests_cant": "Conjugacy of all search directions, an invariant of the whole history.", "anchors": ["ContactMechanics/Optimization/ConstrainedConjugateGradients.py::constrained_conjugate_gradients"]}
{"id": "C110", "title": "Only the height of the rigid surface matters", "statement": "Raising the topography by c and lowering the offset by c leaves the whole calculation at fixed offset unchanged: same outcome, displacements, forces and log; the returned offset is lower by c.", "quantifier": "all substrates, topographies, offsets, options, c", "why_tests_cant": "A relation between two whole runs.", "anchors": ["ContactMechanics/Optimization/ConstrainedConjugateGradients.py::constrained_conjugate_gradients"]}
{"id": "C111", "title": "Primal and dual formulations have the same solution", "statement": "A gap satisfies the optimality conditions of primal_objective (gap >= 0, gradient >= 0, complementary) iff its gradient, taken as pressures, satisfies those of dual_objective; the dual gradient is then the gap, the objectives are opposite, and both are the unique global minimum of their problem.", "quantifier": "all gaps, pressures, offsets, topographies on periodic substrates with positive Gamma stiffness", "why_tests_cant": "A statement about all solutions of two optimisation problems.", "anchors": ["ContactMechanics/Systems.py::NonSmoothContactSystem.primal_objective", "ContactMechanics/Systems.py::NonSmoothContactSystem.dual_objective"]}
{"id": "C112", "title": "Fields stored by the primal and dual proxies fit together", "statement": "After a successful primal_minimize_proxy or dual_minimize_proxy the stored gap is what compute_gap returns for the stored displacement and offset, the contact zone is where the gap vanishes (primal) or the pressure is positive (dual), and the normal force is the sum of the stored forces.", "quantifier": "all optimiser runs, histories and offsets", "why_tests_cant": "The optimiser's trajectory is arbitrary.", "anchors": ["ContactMechanics/Systems.py::NonSmoothContactSystem.primal_minimize_proxy", "ContactMechanics/Systems.py::NonSmoothContactSystem.dual_minimize_proxy"]}
{"id": "C113", "title": "Command line and function choose the same steps", "statement": "With the same elastic settings the automatic mode of ce_hard_wall and contact_mechanics(nsteps=n) either raise the same exception or compute the same offsets, mean pressures and areas in the same order; the command line history is that table sorted by area.", "quantifier": "all topographies, solvers and numbers of steps", "why_tests_cant": "All histories, including ties in the area, on which the two sort differently (incrementally or at once).", "anchors": ["ContactMechanics/CommandLineInterface/HardWall.py::next_step", "ContactMechanics/PipelineFunction.py::_next_contact_step"]}
{"id": "C114", "title": "Pressure mode writes one complete output per pressure", "statement": "ce_hard_wall --pressure/--pressure-from-file writes, in order, one log line, NetCDF frame and set of map files per requested pressure, belonging to the solver's answer for that pressure; a range a,b,n has n values from a to b; different steps write different files; after an exception the previous output is complete.", "quantifier": "all pressure lists and solver behaviours", "why_tests_cant": "All lists.", "anchors": ["ContactMechanics/CommandLineInterface/HardWall.py::main"]}
{"id": "C115", "title": "Log lines are consistent", "statement": "In every log line mean gap = mean elastic - mean rigid, load = mean pressure x apparent area, area = fractional area x apparent area, the fractional area lies in [0,1] and equals that of the NetCDF frame.", "quantifier": "all runs and steps", "why_tests_cant": "All solver results.", "anchors": ["ContactMechanics/CommandLineInterface/HardWall.py::dump", "ContactMechanics/CommandLineInterface/HardWall.py::dump_nc"]}
{"id": "C116", "title": "Command line arguments that cannot be honoured are refused", "statement": "Unknown boundary kinds, a thickness with nonperiodic boundaries and displacements together with pressures raise ValueError before anything is computed or written; every other combination of admissible elastic constants on a grid of at least 2x2 points sets up a system.", "quantifier": "all argument combinations", "why_tests_cant": "All combinations.", "anchors": ["ContactMechanics/CommandLineInterface/HardWall.py::main"]}
{"id": "C117", "title": "set_grid changes only the part", "statement": "set_grid(name, value, x0, y0) stores the value in the part of the grid that starts at (x0, y0) and leaves every other point, frame and variable as it was.", "quantifier": "all grids, parts, frames and values", "why_tests_cant": "All parts and contents.", "anchors": ["ContactMechanics/IO/NetCDF.py::NetCDFContainerFrame.set_grid"]}
{"id": "C118", "title": "The rigid surface is stored exactly", "statement": "A surface accepted by set_rigid_surface is read back exactly by get_rigid_surface, also in single precision containers, after any later calls that do not store another surface.", "quantifier": "all surfaces and histories", "why_tests_cant": "All histories.", "anchors": ["ContactMechanics/IO/NetCDF.py::NetCDFContainer.set_rigid_surface", "ContactMechanics/IO/NetCDF.py::NetCDFContainer.get_rigid_surface"]}
{"id": "C119", "title": "Reopened containers are the same", "statement": "A container that is closed and opened again shows the same frames, values and shape.", "quantifier": "all histories", "why_tests_cant": "All histories.", "anchors": ["ContactMechanics/IO/NetCDF.py::NetCDFContainer.__init__"]}
{"id": "C120", "title": "Opposite wavevectors are complex conjugate", "statement": "greens_function(-qx,-qy) and stiffness(-qx,-qy) are the complex conjugates of those at (qx,qy), so real loads give real displacements.", "quantifier": "all wavevectors and constants", "why_tests_cant": "Continuous family.", "anchors": ["ContactMechanics/GreensFunctions/Isotropic.py::IsotropicGreensFunction"]}
{"id": "C121", "title": "Isotropy about the surface normal", "statement": "Turning the wavevector about the surface normal by any angle turns the isotropic Green's function: G(Rq) = R G(q) R^T.", "quantifier": "all angles, wavevectors and constants", "why_tests_cant": "Continuous family.", "anchors": ["ContactMechanics/GreensFunctions/Isotropic.py::IsotropicGreensFunction.greens_function"]}
{"id": "C122", "title": "Vectors of wavevectors", "statement": "With vectors, entry k of the result belongs to wavevector (qx[k], qy[k]); vectors of different lengths are refused.", "quantifier": "all vectors", "why_tests_cant": "All lengths.", "anchors": ["ContactMechanics/GreensFunctions/Isotropic.py::IsotropicGreensFunction.greens_function", "ContactMechanics/GreensFunctions/Isotropic.py::IsotropicGreensFunction.stiffness"]}
{"id": "C123", "title": "The isotropic Green's function solves the equations of elasticity", "statement": "The surface displacement of every elastic half-space in equilibrium under a surface traction with wavevector q, with displacements and strains that die out with depth, is given by greens_function (transposed); such a solution exists for every traction; for frictionless normal loads it is what the periodic half-space computes.", "quantifier": "all tractions, wavevectors and constants", "why_tests_cant": "A statement about all solutions of a differential equation.", "anchors": ["ContactMechanics/GreensFunctions/Isotropic.py::IsotropicGreensFunction.greens_function", "ContactMechanics/FFTElasticHalfSpace.py::PeriodicFFTElasticHalfSpace._compute_greens_function"]}
{"id": "C124", "title": "Elastic waves below the surface of a stable crystal die out", "statement": "The bulk operator of an elastically stable cubic crystal in any orientation, given by floating-point constants, is invertible for every nonzero real wavevector, and every value returned by find_eigenvalues has a positive real part.", "quantifier": "all stable constants, orientations and wavevectors", "why_tests_cant": "Continuous family.", "anchors": ["ContactMechanics/GreensFunctions/Anisotropic.py::AnisotropicGreensFunction.bulkop", "ContactMechanics/GreensFunctions/Anisotropic.py::AnisotropicGreensFunction.find_eigenvalues"]}
{"id": "C125", "title": "Elastic constants are stored exactly", "statement": "The elastic constants of the object are the (rotated) constants that were passed, whether they are passed as integers or floats.", "quantifier": "all constants and rotations", "why_tests_cant": "Depends on the type of the constants.", "anchors": ["ContactMechanics/GreensFunctions/Anisotropic.py::AnisotropicGreensFunction.__init__"]}
{"id": "C126", "title": "The anisotropic Green's function is the response of the crystal", "statement": "For an infinitely thick substrate greens_function is Hermitian and (transposed) the unique response of the crystal to surface tractions; for a layer it is the response of a layer bonded to a rigid base.", "quantifier": "all tractions, wavevectors, stable floating-point constants", "why_tests_cant": "A statement about all solutions of a differential equation.", "anchors": ["ContactMechanics/GreensFunctions/Anisotropic.py::AnisotropicGreensFunction.greens_function", "ContactMechanics/GreensFunctions/Anisotropic.py::AnisotropicGreensFunction._make_F"]}
{"id": "C127", "title": "Anisotropic stiffness and Green's function are inverse", "statement": "stiffness and greens_function are inverse to each other, for half-spaces and layers; at the zero wavevector the stiffness of a layer is that of a uniformly sheared and compressed layer.", "quantifier": "all wavevectors, constants, thicknesses", "why_tests_cant": "Continuous family.", "anchors": ["ContactMechanics/GreensFunctions/Anisotropic.py::AnisotropicGreensFunction.stiffness", "ContactMechanics/GreensFunctions/Anisotropic.py::AnisotropicGreensFunction._gamma_stiffness"]}
{"id": "C128", "title": "Homogeneity of the anisotropic Green's function", "statement": "For an infinitely thick substrate greens_function(s*q)=greens_function(q)/s and stiffness(s*q)=s*stiffness(q) for all s>0, without cut-off.", "quantifier": "all scale factors and vectors of wavevectors", "why_tests_cant": "Continuous family.", "anchors": ["ContactMechanics/GreensFunctions/Anisotropic.py::AnisotropicGreensFunction.greens_function", "ContactMechanics/GreensFunctions/Anisotropic.py::AnisotropicGreensFunction.stiffness"]}
{"id": "C129", "title": "Hertz fields satisfy the contact conditions", "statement": "For every penetration, with the contact radius and peak pressure of radius_and_pressure, the gap (parabola minus penetration plus surface_displacements, scaled) vanishes inside the contact radius and is positive outside, the pressure is positive inside and vanishes outside; far away the displacements decay like those of a point force carrying the load.", "quantifier": "all penetrations, radii, moduli, positions", "why_tests_cant": "Continuous family.", "anchors": ["ContactMechanics/ReferenceSolutions/Hertz.py::surface_displacements", "ContactMechanics/ReferenceSolutions/Hertz.py::surface_stress", "ContactMechanics/ReferenceSolutions/Hertz.py::radius_and_pressure"]}
{"id": "C130", "title": "Hertz interior stress solves the equations of elasticity", "statement": "stress_Cartesian is the stress (Hooke's law) of a displacement field, is in equilibrium, that field vanishes far away, its surface value is surface_displacements and the tractions at the surface are the Hertz pressure; the stress is continuous below the surface, also across the axis.", "quantifier": "all Poisson numbers and positions", "why_tests_cant": "Partial differential equations at every point.", "anchors": ["ContactMechanics/ReferenceSolutions/Hertz.py::stress_Cartesian"]}
{"id": "C131", "title": "Hertz tangential stress solves the equations of elasticity", "statement": "stress_for_tangential_loading is the stress of a displacement field, is in equilibrium, that field vanishes far away and the tractions at the surface are those of the tangential load with the profile of the Hertz pressure; the stress is continuous below the surface, also across the axis.", "quantifier": "all Poisson numbers and positions", "why_tests_cant": "Partial differential equations at every point.", "anchors": ["ContactMechanics/ReferenceSolutions/Hertz.py::stress_for_tangential_loading"]}
{"id": "C132", "title": "Westergaard pressure has unit mean", "statement": "_pressure(x, contact_radius=a) integrates to one over a period.", "quantifier": "all contact radii in (0,1/2)", "why_tests_cant": "Integral over a continuous family.", "anchors": ["ContactMechanics/ReferenceSolutions/Westergaard.py::_pressure"]}
{"id": "C133", "title": "Westergaard mean displacement is the mean of the displacements", "statement": "mean_displacement(a) equals the integral of displacements(x, a) over one period.", "quantifier": "all contact radii in (0,1/2)", "why_tests_cant": "Integral over a continuous family.", "anchors": ["ContactMechanics/ReferenceSolutions/Westergaard.py::mean_displacement", "ContactMechanics/ReferenceSolutions/Westergaard.py::displacements"]}
{"id": "C134", "title": "Westergaard energy is the work stored by the pressure", "statement": "elastic_energy_a(a) is half the integral of pressure times displacement relative to the mean displacement.", "quantifier": "all contact radii in (0,1/2)", "why_tests_cant": "Integral over a continuous family.", "anchors": ["ContactMechanics/ReferenceSolutions/Westergaard.py::elastic_energy_a"]}
{"id": "C135", "title": "Cone pressure has unit mean and carries the load", "statement": "pressure integrates to the contact area pi R^2; the normalized load is that of Sneddon's solution and of the normalized mean pressure times the area.", "quantifier": "all cone angles and penetrations", "why_tests_cant": "Integral over a continuous family.", "anchors": ["ContactMechanics/ReferenceSolutions/Cone.py::pressure", "ContactMechanics/ReferenceSolutions/Cone.py::load_and_mean_pressure"]}
{"id": "C136", "title": "Reference solutions do not depend on the type of the positions", "statement": "Positions given as integers or as equal floating point numbers give the same fields.", "quantifier": "all positions", "why_tests_cant": "Depends on the type of the array.", "anchors": ["ContactMechanics/ReferenceSolutions/Hertz.py::surface_displacements", "ContactMechanics/ReferenceSolutions/Hertz.py::surface_stress", "ContactMechanics/ReferenceSolutions/Cone.py::deformation"]}
{"id": "C137", "title": "The anisotropic Green's function is defined and positive", "statement": "For every stable cubic crystal whose surface is normal to a cube axis or to a face diagonal, turned by any angle about the normal, and every non-zero wavevector for which the three eigenvalues differ, greens_function and stiffness return (no exception), for half-spaces and layers of any positive thickness; both matrices are Hermitian and inverse to each other and every non-zero load does positive work.", "quantifier": "all stable floating-point constants, angles, wavevectors, thicknesses", "why_tests_cant": "Continuous family; existence of a solution of a boundary value problem.", "anchors": ["ContactMechanics/GreensFunctions/Anisotropic.py::AnisotropicGreensFunction.greens_function", "ContactMechanics/GreensFunctions/Anisotropic.py::AnisotropicGreensFunction.stiffness", "ContactMechanics/GreensFunctions/Anisotropic.py::AnisotropicGreensFunction.find_eigenvectors"]}
{"id": "C138", "title": "Isotropic constants are refused by the anisotropic class", "statement": "As documented, the anisotropic class does not work for isotropic constants: every call with a non-zero first wavevector raises RuntimeError; it never returns a matrix.", "quantifier": "all isotropic floating-point constants, rotations, thicknesses, wavevectors", "why_tests_cant": "Continuous family.", "anchors": ["ContactMechanics/GreensFunctions/Anisotropic.py::AnisotropicGreensFunction.find_eigenvectors"]}
{"id": "C139", "title": "Greenwood-Williamson integrals", "statement": "For Gaussian heights Fn(h, n) is finite and positive for every n > -1, strictly decreasing in the separation h for n > 0, and Fn(h, n+1) = n Fn(h, n-1) - h Fn(h, n).", "quantifier": "all separations and exponents", "why_tests_cant": "Improper integral over a continuous family.", "anchors": ["ContactMechanics/ReferenceSolutions/GreenwoodTripp.py::Fn"]}
{"id": "C140", "title": "Greenwood-Tripp kernel", "statement": "s(x) increases strictly for non-negative arguments, across both cut-offs and the change of formula at one; the asymptotic expressions agree with the exact ones to 1e-10; numbers, integer vectors and float vectors are treated alike.", "quantifier": "all arguments", "why_tests_cant": "Continuous family.", "anchors": ["ContactMechanics/ReferenceSolutions/GreenwoodTripp.py::s"]}
{"id": "C141", "title": "Inverse of the Greenwood-Tripp kernel", "statement": "s(ξ(x)) = x for all non-negative x.", "quantifier": "all arguments", "why_tests_cant": "Continuous family.", "anchors": ["ContactMechanics/ReferenceSolutions/GreenwoodTripp.py::ξ"]}
{"id": "C142", "title": "Greenwood-Tripp solver", "statement": "If GreenwoodTripp returns, the returned pressure is exactly the asperity pressure at the returned displacement, positive, the displacement vanishes on the axis and is that of an iterate whose change in the last step was at most tol; it stops after at most maxiter+1 passes, never extrapolates, and otherwise raises RuntimeError.", "quantifier": "all parameters and iteration histories", "why_tests_cant": "Histories of an iteration of unbounded length.", "anchors": ["ContactMechanics/ReferenceSolutions/GreenwoodTripp.py::GreenwoodTripp"]}
{"id": "C143", "title": "make_contact_system forwards its arguments", "statement": "topography.make_contact_system(*args, **kwargs) and make_plastic_contact_system behave as make_system / make_plastic_system with the topography as surface, for positional and keyword arguments.", "quantifier": "all argument lists", "why_tests_cant": "All argument combinations.", "anchors": ["ContactMechanics/Factory.py::make_contact_system", "ContactMechanics/Factory.py::make_system"]}
{"id": "C144", "title": "Children of semi-periodic half-spaces", "statement": "A semi-periodic half-space can be built on every non-empty two-dimensional grid (one-dimensional grids raise IndexError); spawn_child returns one with the modulus, grid spacing, periodicity and number of images of its parent.", "quantifier": "all grids, flags and image counts", "why_tests_cant": "All combinations.", "anchors": ["ContactMechanics/FFTElasticHalfSpace.py::SemiPeriodicFFTElasticHalfSpace.__init__", "ContactMechanics/FFTElasticHalfSpace.py::FreeFFTElasticHalfSpace.spawn_child"]}
{"id": "C145", "title": "Semi-periodic half-spaces in parallel", "statement": "A semi-periodic half-space can be constructed on several processes.", "quantifier": "all decompositions of all grids", "why_tests_cant": "All decompositions.", "anchors": ["ContactMechanics/FFTElasticHalfSpace.py::SemiPeriodicFFTElasticHalfSpace._compute_greens_function"]}
{"id": "C146", "title": "Role of the number of images", "statement": "Compressive forces move the whole surface of a semi-periodic half-space in the positive direction, more so with more images; with a periodic direction the absolute displacement exceeds every bound once there are enough images, while all differences of displacements converge, so that n_images is a convergence parameter for relative displacements only.", "quantifier": "all grids, flags, image counts and force fields", "why_tests_cant": "A limit over unbounded image counts.", "anchors": ["ContactMechanics/FFTElasticHalfSpace.py::SemiPeriodicFFTElasticHalfSpace._compute_greens_function"]}
{"id": "C147", "title": "Reported displacements are the response to the reported pressures", "statement": "Every callback of contact_mechanics -- converged or not, elastic or plastic, whichever way the steps are prescribed, even if a later step raises -- reports displacements that are exactly what the substrate answers to the reported pressures times the pixel area.", "quantifier": "all surfaces, arguments and steps", "why_tests_cant": "All solver histories.", "anchors": ["ContactMechanics/PipelineFunction.py::contact_mechanics", "ContactMechanics/Optimization/ConstrainedConjugateGradients.py::constrained_conjugate_gradients"]}
{"id": "C148", "title": "Separated surfaces", "statement": "In an elastic calculation with offsets, every offset at which no height plus offset is positive gives a converged row with zero pressure and area whose mean gap is the distance of the undeformed surfaces; if this holds for all offsets the calculation returns.", "quantifier": "all surfaces (at least two grid points in each direction) and offsets", "why_tests_cant": "All surfaces.", "anchors": ["ContactMechanics/PipelineFunction.py::contact_mechanics", "ContactMechanics/Optimization/ConstrainedConjugateGradients.py::constrained_conjugate_gradients"]}
{"id": "C149", "title": "Flat surfaces", "statement": "A flat periodic surface pressed elastically with positive pressures and at least three allowed iterations is solved: every step converges, carries exactly the pressure asked for and is in full contact; callbacks see uniform pressures p and displacements 2p/(pi(1/sx+1/sy)).", "quantifier": "all grids with at least two points in each direction, sizes, heights and pressures", "why_tests_cant": "All sizes.", "anchors": ["ContactMechanics/PipelineFunction.py::contact_mechanics", "ContactMechanics/Optimization/ConstrainedConjugateGradients.py::constrained_conjugate_gradients"]}
{"id": "C150", "title": "The solver does not depend on the numbering of grid points", "statement": "With the grid points renamed the solver takes the same iterations, ends the same way and returns the same fields under the new names; a permutation of the grid under which the substrate is invariant carries the solution for a surface to the solution for the permuted surface.", "quantifier": "all problems, options, permutations", "why_tests_cant": "All problems and runs.", "anchors": ["ContactMechanics/Optimization/ConstrainedConjugateGradients.py::constrained_conjugate_gradients"]}
{"id": "C151", "title": "The solver does not depend on the units", "statement": "With lengths and forces (including tolerances) measured in other units the solver takes the same iterations and every number it returns is the original one in the new units, provided the penetration tolerance is given or follows from a surface that is not flat.", "quantifier": "all problems, options, units", "why_tests_cant": "All problems and runs.", "anchors": ["ContactMechanics/Optimization/ConstrainedConjugateGradients.py::constrained_conjugate_gradients"]}
{"id": "C152", "title": "A moved surface gives the moved solution", "statement": "contact_mechanics on a surface that is shifted cyclically on its grid (periodic substrates), mirrored in either direction or transposed together with its lengths (periodic and nonperiodic substrates) raises the same exception or returns the same mean pressures, areas, displacements, gaps and flags, and every callback receives the shifted, mirrored or transposed fields.", "quantifier": "all surfaces, arguments, shifts, solver options", "why_tests_cant": "A relation between two whole calculations.", "anchors": ["ContactMechanics/PipelineFunction.py::contact_mechanics", "ContactMechanics/FFTElasticHalfSpace.py::PeriodicFFTElasticHalfSpace", "ContactMechanics/FFTElasticHalfSpace.py::FreeFFTElasticHalfSpace"]}
{"id": "C153", "title": "The reference height of a surface does not matter", "statement": "contact_mechanics on a surface raised by c, with prescribed offsets lowered by c, gives the same mean pressures, areas, gaps and flags and displacements lower by c; with automatic steps it chooses the offsets lower by c, and with prescribed pressures it finds the offsets lower by c.", "quantifier": "all surfaces, heights c, arguments", "why_tests_cant": "A relation between two whole calculations.", "anchors": ["ContactMechanics/PipelineFunction.py::contact_mechanics", "ContactMechanics/PipelineFunction.py::_next_contact_step"]}
{"id": "C154", "title": "Values at undefined points are ignored", "statement": "The solver does not depend on the values stored at undefined (masked or padded) points of the rigid surface; and, if the penetration tolerance is given, not on the statistics of the heights.", "quantifier": "all problems, options and values", "why_tests_cant": "All values at all points.", "anchors": ["ContactMechanics/Optimization/ConstrainedConjugateGradients.py::constrained_conjugate_gradients"]}
{"id": "C155", "title": "Calculations do not depend on the unit of length", "statement": "The same surface with all its lengths (and prescribed offsets) in another unit of length gives the same exception or the same pressures, areas and convergence flags, with displacements and gaps in the new unit; so do the callbacks.", "quantifier": "all surfaces, units, arguments", "why_tests_cant": "A relation between two whole calculations.", "anchors": ["ContactMechanics/PipelineFunction.py::contact_mechanics", "ContactMechanics/Optimization/ConstrainedConjugateGradients.py::constrained_conjugate_gradients"]}
{"id": "C156", "title": "The contact problem has a solution", "statement": "For every surface and substrate that contact_mechanics accepts there are, at every offset, compressive pressures whose displacements do not penetrate the surface and touch it wherever there is pressure; and for every positive mean pressure there is an offset with such pressures of that mean. They are unique, and the mean pressure determines the offset: a step asked of contact_mechanics has exactly one correct answer.", "quantifier": "all surfaces, grids, offsets and pressures", "why_tests_cant": "Existence of a solution of a constrained problem.", "anchors": ["ContactMechanics/PipelineFunction.py::contact_mechanics", "ContactMechanics/FFTElasticHalfSpace.py::PeriodicFFTElasticHalfSpace.evaluate_disp", "ContactMechanics/FFTElasticHalfSpace.py::FreeFFTElasticHalfSpace.evaluate_disp"]}
{"id": "C157", "title": "Error bars of the reported fields", "statement": "For every callback of an elastic calculation whose pressures are not tensile, the work of the errors (reported minus exact pressures times reported minus exact displacements, on average) is at most the average of reported pressure times reported gap plus the largest penetration times the exact mean pressure; with a periodic substrate this bounds the error of the mean pressure and the mean square error of the displacements. Two calculations on the same surface differ by at most the sum of their defects. Fields without tension, penetration or pressure across an open gap are the exact solution.", "quantifier": "all surfaces, arguments, solver histories, converged or not", "why_tests_cant": "Compares with a solution that is not computed.", "anchors": ["ContactMechanics/PipelineFunction.py::contact_mechanics", "ContactMechanics/Optimization/ConstrainedConjugateGradients.py::constrained_conjugate_gradients"]}
{"id": "C158", "title": "Load-displacement curve", "statement": "Pressing deeper never lowers the exact mean pressure, and raises it whenever any pressure changes; with a periodic substrate it raises it at most at the rate of full contact, pi (1/sx + 1/sy)/2 per unit of offset.", "quantifier": "all surfaces and pairs of offsets", "why_tests_cant": "A relation between solutions at all pairs of offsets.", "anchors": ["ContactMechanics/PipelineFunction.py::contact_mechanics", "ContactMechanics/FFTElasticHalfSpace.py::PeriodicFFTElasticHalfSpace.evaluate_disp"]}
{"id": "C159", "title": "Nonperiodic half-spaces are positive definite", "statement": "On a nonperiodic half-space forces on the topography that are not all zero, whatever their signs, do work on the displacements they cause, so that different forces cause different displacements.", "quantifier": "all grids, pixel shapes, moduli and force fields", "why_tests_cant": "All force fields on all grids; Love's kernel must be positive definite.", "anchors": ["ContactMechanics/FFTElasticHalfSpace.py::FreeFFTElasticHalfSpace.evaluate_disp", "ContactMechanics/FFTElasticHalfSpace.py::FreeFFTElasticHalfSpace._compute_greens_function"]}
{"id": "C160", "title": "Full contact", "statement": "In an elastic calculation with offsets on a periodic substrate, at every offset where the surface is nowhere below the undeformed substrate and the exact solution is in full contact, the calculation reports exactly this solution: converged, contact area one, no gap, mean pressure pi (1/sx + 1/sy)/2 times (mean height + offset). Every surface is in full contact at all large enough offsets.", "quantifier": "all surfaces and offsets", "why_tests_cant": "All surfaces.", "anchors": ["ContactMechanics/PipelineFunction.py::contact_mechanics", "ContactMechanics/Optimization/ConstrainedConjugateGradients.py::constrained_conjugate_gradients", "ContactMechanics/FFTElasticHalfSpace.py::PeriodicFFTElasticHalfSpace.evaluate_force"]}
{"id": "C161", "title": "Calculations return", "statement": "contact_mechanics with at least one step, at least one allowed iteration and a known substrate returns and never raises, whatever the surface, unless it is plastic and under load control.", "quantifier": "all surfaces (at least two grid points in each direction), arguments and solver histories", "why_tests_cant": "All runs of an iteration.", "anchors": ["ContactMechanics/PipelineFunction.py::contact_mechanics", "ContactMechanics/Optimization/ConstrainedConjugateGradients.py::constrained_conjugate_gradients"]}
{"id": "C162", "title": "Units of heights on the command line", "statement": "Heights given in the unit of --height-unit and multiplied by --height-fac enter the calculation in the unit of the topography: number times length of the unit is preserved up to the factor; without --height-unit heights are multiplied by the factor; the only exception is KeyError for unknown names.", "quantifier": "all files, units and factors", "why_tests_cant": "All combinations of options and units.", "anchors": ["ContactMechanics/CommandLineInterface/HardWall.py::main"]}
{"id": "C163", "title": "A stiffer substrate", "statement": "On a periodic half-space or layer or a nonperiodic half-space with c times the contact modulus the same forces cause displacements c times smaller, and (periodic) the same displacements need forces c times larger.", "quantifier": "all grids, sizes, materials, factors and fields", "why_tests_cant": "A relation between two evaluations on every grid.", "anchors": ["ContactMechanics/FFTElasticHalfSpace.py::PeriodicFFTElasticHalfSpace", "ContactMechanics/FFTElasticHalfSpace.py::FreeFFTElasticHalfSpace"]}
{"id": "C164", "title": "Stated contact modulus", "statement": "The contact modulus that the headers of the files written by the command line state is that of the half-space that was simulated.", "quantifier": "all moduli, Poisson numbers and boundary conditions", "why_tests_cant": "All materials.", "anchors": ["ContactMechanics/CommandLineInterface/HardWall.py::main", "ContactMechanics/CommandLineInterface/HardWall.py::dump", "ContactMechanics/CommandLineInterface/HardWall.py::save_pressure"]}
{"id": "C165", "title": "Command line and library agree under load control", "statement": "ce_hard_wall with pressures (and the corresponding options) takes the same steps as contact_mechanics(pressures=...), elastic or plastic: same exception, or per step the same displacement, area, mean pressure, (elastic) gap, and the same fields.", "quantifier": "all surfaces, pressures, solvers and histories", "why_tests_cant": "A relation between two programs.", "anchors": ["ContactMechanics/CommandLineInterface/HardWall.py::main", "ContactMechanics/PipelineFunction.py::contact_mechanics"]}
{"id": "C166", "title": "Map files agree with the log", "statement": "Every map file of a step written by the command line has one entry per point of the topography; the mean of the pressure map is the mean pressure of the log line and its fraction of positive entries the fractional contact area, the mean of the displacement map the mean elastic displacement, the mean of the gap map the mean gap; fields agree with the NetCDF frame; the contact map marks the points that carry force.", "quantifier": "all runs, modes, solvers", "why_tests_cant": "All runs.", "anchors": ["ContactMechanics/CommandLineInterface/HardWall.py::main", "ContactMechanics/CommandLineInterface/HardWall.py::save_contact", "ContactMechanics/CommandLineInterface/HardWall.py::dump_nc"]}
{"id": "C167", "title": "Active set of a solution", "statement": "The active set that the solver returns with a converged result is the set of points that carry force.", "quantifier": "all problems and runs", "why_tests_cant": "All problems and runs.", "anchors": ["ContactMechanics/Optimization/ConstrainedConjugateGradients.py::constrained_conjugate_gradients"]}
{"id": "C168", "title": "Contact of a stiffer substrate", "statement": "On a substrate c times as stiff, with external force, hardness and force tolerance c times larger, the solver raises the same exception or returns the same displacements, offset, active set and convergence flag and c times the forces.", "quantifier": "all surfaces, substrates, arguments, factors", "why_tests_cant": "A relation between two runs of an iteration.", "anchors": ["ContactMechanics/Optimization/ConstrainedConjugateGradients.py::constrained_conjugate_gradients", "ContactMechanics/FFTElasticHalfSpace.py::PeriodicFFTElasticHalfSpace", "ContactMechanics/FFTElasticHalfSpace.py::FreeFFTElasticHalfSpace"]}
{"id": "C169", "title": "The command line writes mechanical states", "statement": "In every output of every run of ce_hard_wall, converged or not, even if a later step raises, the displacements in the NetCDF frame are exactly the answer of the substrate to the forces in the frame; the forces of a converged step under load control carry the pressure asked for, which is the load recorded.", "quantifier": "all surfaces, options and runs", "why_tests_cant": "All solver histories.", "anchors": ["ContactMechanics/CommandLineInterface/HardWall.py::main", "ContactMechanics/CommandLineInterface/HardWall.py::dump_nc", "ContactMechanics/Optimization/ConstrainedConjugateGradients.py::constrained_conjugate_gradients"]}
{"id": "C170", "title": "Command line runs return", "statement": "With at least one allowed iteration and a known boundary condition ce_hard_wall runs to its end: twenty steps in automatic mode (elastic or plastic), one per pressure in a run under load control (elastic, or plastic with a hardness that can carry the load).", "quantifier": "all surfaces (at least two grid points in each direction), options and solver histories", "why_tests_cant": "All runs of an iteration.", "anchors": ["ContactMechanics/CommandLineInterface/HardWall.py::main", "ContactMechanics/Optimization/ConstrainedConjugateGradients.py::constrained_conjugate_gradients"]}
{"id": "C171", "title": "Primal and dual minimisation solve the same contact problem", "statement": "After a successful primal_minimize_proxy (over gaps) or dual_minimize_proxy (over pressures) whose result satisfies the optimality conditions, the forces and displacements of the system are the solution of the contact problem at this offset; there is exactly one, so both agree; an inexact dual result is off by no more than its violation of the conditions; both report the same contact area; both work for nonperiodic substrates.", "quantifier": "all surfaces, substrates, offsets, solvers and histories", "why_tests_cant": "Relates two constrained minimisations over all surfaces.", "anchors": ["ContactMechanics/Systems.py::NonSmoothContactSystem.primal_minimize_proxy", "ContactMechanics/Systems.py::NonSmoothContactSystem.dual_minimize_proxy"]}
{"id": "C172", "title": "Objective of the displacements", "statement": "objective(offset, gradient=True) returns the energy and minus the substrate forces of the displacements on the grid of the substrate (padding included); gradient and hessian_product are exact: E(u+v) = E(u) + G.v + v.Hv/2 and G(u+v) = G(u) + Hv, with a symmetric Hessian.", "quantifier": "all grids, displacement fields and changes, periodic and nonperiodic", "why_tests_cant": "All fields on all grids.", "anchors": ["ContactMechanics/Systems.py::NonSmoothContactSystem.objective", "ContactMechanics/Systems.py::NonSmoothContactSystem.hessian_product"]}
{"id": "C173", "title": "Bounded minimisation over displacements", "statement": "SystemBase.minimize_proxy(lbounds='auto') with an optimiser that keeps its promise leaves the system in the solution of the contact problem, without forces in the padding; calls it cannot serve raise and leave the system as it was; the bounds are always respected; a failed minimisation is not recorded.", "quantifier": "all surfaces, substrates, offsets, starts, methods", "why_tests_cant": "All optimiser histories on all surfaces.", "anchors": ["ContactMechanics/Systems.py::SystemBase.minimize_proxy", "ContactMechanics/Systems.py::SystemBase._update_state", "ContactMechanics/Systems.py::SystemBase._lbounds_from_heights"]}
{"id": "C174", "title": "The solver on several processes", "statement": "constrained_conjugate_gradients called on every process with its part of the arrays and the same numbers never blocks: all processes take part in the same collective calls in the same order, and each returns its part of what a single process would return (the same numbers, iterations and flags) or raises the same exception; its callback receives its part of the fields.", "quantifier": "all problems, decompositions (also processes without points), arguments, numbers of iterations", "why_tests_cant": "All decompositions and all interleavings; a missed collective call blocks for ever.", "anchors": ["ContactMechanics/Optimization/ConstrainedConjugateGradients.py::constrained_conjugate_gradients"]}
{"id": "C175", "title": "Substrates on several processes", "statement": "evaluate_disp, evaluate_force, evaluate_k_disp, evaluate_k_force and evaluate_elastic_energy of a two-dimensional half-space whose grid is distributed return on every process its block of what a single process returns for the whole array (the energy: the same number); for nonperiodic half-spaces also with forces on the topography; construction succeeds on all processes where it succeeds on one.", "quantifier": "all grids, materials, decompositions of grid and spectrum, fields", "why_tests_cant": "All decompositions of all grids.", "anchors": ["ContactMechanics/FFTElasticHalfSpace.py::PeriodicFFTElasticHalfSpace.evaluate_disp", "ContactMechanics/FFTElasticHalfSpace.py::PeriodicFFTElasticHalfSpace.evaluate_force", "ContactMechanics/FFTElasticHalfSpace.py::FreeFFTElasticHalfSpace.evaluate_disp", "ContactMechanics/FFTElasticHalfSpace.py::FreeFFTElasticHalfSpace._compute_greens_function"]}
{"id": "C176", "title": "Data of the whole NetCDF file", "statement": "A number or an array of the grid assigned to a name of a container is read back exactly from that name, in double precision, until something else is assigned to that name of the container; it is kept apart from the variables of the frames, and arrays of the grid are accepted whatever the number of degrees of freedom.", "quantifier": "all names, values and histories of calls", "why_tests_cant": "All histories.", "anchors": ["ContactMechanics/IO/NetCDF.py::NetCDFContainer.__setattr__", "ContactMechanics/IO/NetCDF.py::NetCDFContainer.__getattr__", "ContactMechanics/IO/NetCDF.py::NetCDFContainer.__getitem__"]}
{"id": "C177", "title": "The elastic surface is stored exactly", "statement": "A surface accepted by set_elastic_surface is read back exactly through get_elastic_surface after any later calls that do not store another one; what get_elastic_surface returned does not change afterwards.", "quantifier": "all surfaces and histories of calls", "why_tests_cant": "All histories.", "anchors": ["ContactMechanics/IO/NetCDF.py::NetCDFContainer.set_elastic_surface", "ContactMechanics/IO/NetCDF.py::NetCDFContainer.get_elastic_surface"]}
{"id": "C178", "title": "Closed containers", "statement": "What a container holds when it is closed stays in the file whatever is tried on the closed object; every call on it that reads or stores data raises; closing twice is harmless; the file opened again shows the frames, variables, attributes and surfaces there were; the reported size is that of the file.", "quantifier": "all containers and histories of calls", "why_tests_cant": "All histories.", "anchors": ["ContactMechanics/IO/NetCDF.py::NetCDFContainer.close", "ContactMechanics/IO/NetCDF.py::NetCDFContainer.get_size"]}
{"id": "C179", "title": "Objectives without gradient and with a logger", "statement": "objective(offset, gradient=False) and primal_objective(offset, gradient=False) return the energy that is returned with gradient=True, for periodic and nonperiodic substrates; with a logger every evaluation returns the same and logs one record with the energy and the total of the gradient, with or without gradient; minimize_proxy with a logger gives the same result and state as without and logs its evaluations in order; after minimize_proxy(gradient=False) the system knows its forces.", "quantifier": "all grids, displacement fields, offsets, loggers and optimiser histories", "why_tests_cant": "Two different formulas on all grids; all histories.", "anchors": ["ContactMechanics/Systems.py::NonSmoothContactSystem.objective", "ContactMechanics/Systems.py::NonSmoothContactSystem.primal_objective", "ContactMechanics/Systems.py::NonSmoothContactSystem.logger_input", "ContactMechanics/Systems.py::SystemBase.minimize_proxy", "ContactMechanics/FFTElasticHalfSpace.py::PeriodicFFTElasticHalfSpace.evaluate"]}
{"id": "C180", "title": "Plastic contacts under load", "statement": "A plastic calculation under a positive load returns, or raises because no bearing area carries the load: ValueError only if the points other than the most distant ones cannot carry it at the hardness, RuntimeError only on gaps varying by 1e18 lengths. In a run that converged while mixing forces the points reported as plastic are those that penetrate the rigid surface, and at the hardness they carry the load, up to points within the tolerances of touching. Every load below hardness times number of points can be carried.", "quantifier": "all surfaces, substrates, loads, hardnesses and solver histories", "why_tests_cant": "All runs of an iteration with an inner root search.", "anchors": ["ContactMechanics/Optimization/ConstrainedConjugateGradients.py::constrained_conjugate_gradients", "ContactMechanics/PipelineFunction.py::contact_mechanics"]}
{"id": "C181", "title": "Contact systems on several processes, contact coordinates", "statement": "minimize_proxy called on all processes never blocks and leaves on every process its blocks of the state a single process would have (or the same exception); normal force, number of contact points, contact area and relative contact area are on every process those of the whole system. After a successful minimisation compute_contact_coordinates lists exactly the grid points with repulsive force, each once, as many as compute_nb_contact_pts says, on several processes together as on one; without a result it raises like the other summaries.", "quantifier": "all surfaces, substrates, distributions of the grid, arguments and histories", "why_tests_cant": "All distributions of all grids.", "anchors": ["ContactMechanics/Systems.py::NonSmoothContactSystem.minimize_proxy", "ContactMechanics/Systems.py::NonSmoothContactSystem.compute_contact_coordinates", "ContactMechanics/Systems.py::NonSmoothContactSystem.compute_normal_force", "ContactMechanics/Systems.py::NonSmoothContactSystem.compute_nb_contact_pts", "ContactMechanics/Systems.py::SystemBase.compute_contact_area"]}
{"id": "C182", "title": "Westergaard displacements are the elastic response to the Westergaard pressure", "statement": "For a half-space with contact modulus E* and a wave of amplitude h and wavelength lambda, every Fourier coefficient other than the mean of the pressure (mean_pressure times _pressure, in units of pi E* h/lambda) is E*|q|/2 times that of displacements (in units of 2h), the stiffness of the simulated half-space.", "quantifier": "all contact radii in (0,1/2), amplitudes, wavelengths, moduli and wavenumbers", "why_tests_cant": "A singular integral equation for a continuous family of functions.", "anchors": ["ContactMechanics/ReferenceSolutions/Westergaard.py::displacements", "ContactMechanics/ReferenceSolutions/Westergaard.py::_pressure", "ContactMechanics/ReferenceSolutions/Westergaard.py::mean_pressure"]}
{"id": "C183", "title": "Hertz displacements are the elastic response to the Hertz pressure", "statement": "surface_displacements, in units of p0 a/E*, is at every point of the surface (inside and outside the contact) minus the displacement that Boussinesq's solution gives for the pressure p0 sqrt(1-r^2/a^2); for the pressure that surface_stress returns, which is replaced by p0 within 1e-6 contact radii of the axis, up to 2e-18 units.", "quantifier": "all radii, penetrations, moduli and surface points", "why_tests_cant": "A singular double integral at every point.", "anchors": ["ContactMechanics/ReferenceSolutions/Hertz.py::surface_displacements", "ContactMechanics/ReferenceSolutions/Hertz.py::surface_stress", "ContactMechanics/ReferenceSolutions/Hertz.py::max_pressure__penetration"]}
{"id": "C184", "title": "Cone displacements are the elastic response to the cone pressure", "statement": "For a cone pressed D deep into a half-space of contact modulus E, Boussinesq's displacement under the pressure of pressure and load_and_mean_pressure is Sneddon's solution at every point; at distances that include the contact radius, deformation returns exactly this response in units of D.", "quantifier": "all cone angles, penetrations, moduli and surface points", "why_tests_cant": "A singular double integral at every point.", "anchors": ["ContactMechanics/ReferenceSolutions/Cone.py::deformation", "ContactMechanics/ReferenceSolutions/Cone.py::pressure", "ContactMechanics/ReferenceSolutions/Cone.py::load_and_mean_pressure"]}
{"id": "C185", "title": "The number of simulated periods does not matter", "statement": "Simulating k by l periods of a periodic surface instead of one, with the load multiplied by k l (or at the same offset), gives the result of one period repeated: the substrate answers repeated forces (displacements) with the repeated displacements (forces), the exact solution is the repeated one, and the solver with a given penetration tolerance takes the same iterations and raises the same exception or returns the repeated forces, displacements and plastic flags with the same offset and success flag.", "quantifier": "all grids, sizes, materials, numbers of periods, surfaces, fields and solver histories", "why_tests_cant": "A relation between runs on grids of different sizes, for all sizes.", "anchors": ["ContactMechanics/FFTElasticHalfSpace.py::PeriodicFFTElasticHalfSpace", "ContactMechanics/Optimization/ConstrainedConjugateGradients.py::constrained_conjugate_gradients", "ContactMechanics/PipelineFunction.py::contact_mechanics"]}
{"id": "C186", "title": "Numbers in logs", "statement": "A log written by Logger.st and read by read_convergence_log gives back the names, and in every row integers exactly and real numbers up to half a unit of the thirteenth significant digit, with their sign and in their order; columns of real numbers stay twenty characters wide for exponents of up to three digits. (Names and strings without blanks, #, : and repetitions, C72.)", "quantifier": "all numbers and histories of records and messages", "why_tests_cant": "All real numbers; all histories.", "anchors": ["ContactMechanics/Tools/Logger.py::hdrfmt_str", "ContactMechanics/Tools/Logger.py::numfmt_str", "ContactMechanics/Tools/Logger.py::Logger.st", "ContactMechanics/Tools/Logger.py::read_convergence_log"]}
{"id": "C187", "title": "Numbers in map files", "statement": "Reading a map file as a table of numbers (comments begin with #) gives the rows and columns of the map: pressures, gaps and displacements up to half a unit of the nineteenth digit, so that every double is recovered exactly, and contact maps exactly; whatever version, command line, unit and data stand in the header.", "quantifier": "all fields, headers, units", "why_tests_cant": "All numbers and texts.", "anchors": ["ContactMechanics/CommandLineInterface/HardWall.py::save_pressure", "ContactMechanics/CommandLineInterface/HardWall.py::save_gap", "ContactMechanics/CommandLineInterface/HardWall.py::save_contact"]}
{"id": "C188", "title": "Data in the headers of map files", "statement": "Every macroscopic datum in the header of a map file can be read: a line of the header reads name = number.", "quantifier": "all data, units and texts", "why_tests_cant": "All numbers and texts.", "anchors": ["ContactMechanics/CommandLineInterface/HardWall.py::save_pressure", "ContactMechanics/CommandLineInterface/HardWall.py::save_gap", "ContactMechanics/CommandLineInterface/HardWall.py::save_contact", "ContactMechanics/CommandLineInterface/HardWall.py::dump"]}
{"id": "C189", "title": "Discretisation error of the nonperiodic half-space", "statement": "For a pressure on the simulated part of the surface, the displacements evaluate_disp returns for its values at the grid points (times the pixel area) differ from the displacements of the continuous half-space (Boussinesq) at every grid point by at most 2 w D/E, w the variation of the pressure within a pixel, D the diagonal of the surface, E the contact modulus; for continuous pressures the error vanishes as the grid is refined.", "quantifier": "all pressures, grids, sizes and moduli", "why_tests_cant": "A limit, and singular integrals of all functions.", "anchors": ["ContactMechanics/FFTElasticHalfSpace.py::FreeFFTElasticHalfSpace.evaluate_disp", "ContactMechanics/FFTElasticHalfSpace.py::FreeFFTElasticHalfSpace._compute_greens_function"]}
{"id": "C190", "title": "Hertz contacts are reproduced by the simulated half-space", "statement": "Given the pressure of surface_stress at the grid points, a nonperiodic half-space answers at every grid point with the displacements of surface_displacements up to 2 D (sqrt(pixel diagonal / contact radius) + 1e-12) p0/E plus 2e-18 contact radii times p0/E, which vanishes as the grid is refined but for the cut-off near the axis.", "quantifier": "all radii, penetrations, moduli, grids, positions of the sphere", "why_tests_cant": "A limit over grids; continuous families.", "anchors": ["ContactMechanics/FFTElasticHalfSpace.py::FreeFFTElasticHalfSpace.evaluate_disp", "ContactMechanics/ReferenceSolutions/Hertz.py::surface_displacements", "ContactMechanics/ReferenceSolutions/Hertz.py::surface_stress"]}
{"id": "C191", "title": "Indentation of a sphere follows Hertz' law", "statement": "A sphere pressed into the nonperiodic half-space of contact_mechanics, its contact circle inside the simulated surface: as the grid is refined and the tolerance shrinks, the load at a given offset converges to normal_load, the displacements in the mean square to surface_displacements, and the offset under a given load to penetration; for the exact solution on the grid and for every step of a calculation whose reported fields satisfy the contact conditions within the tolerance. The same holds for every rigid surface for which the continuous half-space has continuous solutions at neighbouring offsets.", "quantifier": "all radii, offsets, loads, positions, sizes, grids, solver histories", "why_tests_cant": "A limit over grids of all sizes.", "anchors": ["ContactMechanics/PipelineFunction.py::contact_mechanics", "ContactMechanics/FFTElasticHalfSpace.py::FreeFFTElasticHalfSpace.evaluate_disp", "ContactMechanics/ReferenceSolutions/Hertz.py::normal_load", "ContactMechanics/ReferenceSolutions/Hertz.py::penetration", "ContactMechanics/ReferenceSolutions/Hertz.py::surface_displacements"]}
{"id": "C192", "title": "What is typed on the command line is what the program uses", "statement": "For options written as --name=value or --name value, with names in full or shortened to a beginning no other option has, in any order, before and behind the file name, ce_hard_wall uses the value given for every option (the last one if repeated) and the documented default of every other one; order and form do not matter. Words that are no option, options without a proper value, missing or surplus file names end the program at once, with nothing computed or written.", "quantifier": "all command lines", "why_tests_cant": "All sequences of words.", "anchors": ["ContactMechanics/CommandLineInterface/HardWall.py::main", "ContactMechanics/CommandLineInterface/HardWall.py::tuple2"]}
{"id": "C193", "title": "Results of a command line run belong to what was typed", "statement": "A command line with an accepted set of options runs exactly the calculation it describes: the surface in the file with the sizes and height factor given, on a half-space with the constants given, with the tolerance, iteration limit, hardness and map files given. With pressures p or a,b,n or those of a file it runs to the end, one step per pressure, and the k-th NetCDF frame records the k-th pressure as its load.", "quantifier": "all command lines, surfaces, numbers of steps", "why_tests_cant": "All sequences of words, all surfaces, all runs of the solver.", "anchors": ["ContactMechanics/CommandLineInterface/HardWall.py::main", "ContactMechanics/CommandLineInterface/HardWall.py::tuple2", "ContactMechanics/CommandLineInterface/HardWall.py::dump_nc"]}
{"id": "C194", "title": "Discretisation error of the periodic substrate", "statement": "For a pressure on the periodic cell that is a sum of plane waves with summable amplitudes, evaluate_disp of its values at the grid points (times the pixel area) differs at every grid point from the displacement of the continuous substrate (E* q/2 per wave, times the layer's factor) by at most twice the largest compliance times the sum of the amplitudes of the waves with less than two points per period; pressures made of resolved waves are answered exactly; the error vanishes as the grid is refined.", "quantifier": "all spectra, grids, sizes, half-spaces, layers, stiffnesses of the uniform field", "why_tests_cant": "A limit over grids; all fields.", "anchors": ["ContactMechanics/FFTElasticHalfSpace.py::PeriodicFFTElasticHalfSpace.evaluate_disp", "ContactMechanics/FFTElasticHalfSpace.py::PeriodicFFTElasticHalfSpace._compute_surface_stiffness"]}
{"id": "C195", "title": "Line pressures on the periodic substrate", "statement": "If the continuous substrate answers a continuous periodic line pressure with a continuous displacement (Fourier coefficient by Fourier coefficient, no summability), the displacements evaluate_disp returns for its values at the grid points converge to this displacement, uniformly over the grid points, as the grid is refined along x, whatever the number of points along y.", "quantifier": "all continuous line pressures, grids, sizes, half-spaces, layers", "why_tests_cant": "A limit over grids; all functions.", "anchors": ["ContactMechanics/FFTElasticHalfSpace.py::PeriodicFFTElasticHalfSpace.evaluate_disp", "ContactMechanics/FFTElasticHalfSpace.py::PeriodicFFTElasticHalfSpace._compute_surface_stiffness"]}
{"id": "C196", "title": "Contact with a sine wave follows Westergaard's solution", "statement": "A sine wave whose wavelength is the length of the periodic substrate of contact_mechanics: at the offset that belongs to a contact radius (mean_displacement, plus the displacement of the uniform mean pressure), as the grid is refined along the wave and the tolerance shrinks, the mean pressure converges to mean_pressure and the displacements in the mean square to displacements; pressed with a mean pressure, the offset converges to that of contact_radius of this pressure; for every step of a calculation whose reported fields satisfy the contact conditions within the tolerance. The same holds for every profile for which the continuous periodic half-space has continuous solutions at neighbouring offsets.", "quantifier": "all amplitudes, sizes, contact radii in (0,1/2), pressures below full contact, grids, solver histories", "why_tests_cant": "A limit over grids of all sizes.", "anchors": ["ContactMechanics/PipelineFunction.py::contact_mechanics", "ContactMechanics/FFTElasticHalfSpace.py::PeriodicFFTElasticHalfSpace.evaluate_disp", "ContactMechanics/ReferenceSolutions/Westergaard.py::displacements", "ContactMechanics/ReferenceSolutions/Westergaard.py::mean_displacement", "ContactMechanics/ReferenceSolutions/Westergaard.py::mean_pressure", "ContactMechanics/ReferenceSolutions/Westergaard.py::contact_radius"]}
{"id": "C197", "title": "Energies of one-dimensional substrates, plane strain", "statement": "For line contacts the energy evaluated in real space (with forces) equals that from the half spectrum, is minus half the work of the forces on the displacements, is not negative and zero only for the undeformed line (if the uniform field has a positive stiffness), and has minus the forces as gradient; moving the forces along the line moves the displacements, and conversely. A two-dimensional half-space of the same length, modulus and stiffness of the uniform field (by default: if it is square) answers fields that do not vary across it like the line, forces of the line counted per width of a grid point.", "quantifier": "all numbers of grid points of either parity, sizes, materials, fields", "why_tests_cant": "All grids and fields.", "anchors": ["ContactMechanics/FFTElasticHalfSpace.py::PeriodicFFTElasticHalfSpace.evaluate", "ContactMechanics/FFTElasticHalfSpace.py::PeriodicFFTElasticHalfSpace.evaluate_force", "ContactMechanics/FFTElasticHalfSpace.py::PeriodicFFTElasticHalfSpace.evaluate_disp", "ContactMechanics/FFTElasticHalfSpace.py::PeriodicFFTElasticHalfSpace._compute_surface_stiffness"]}
{"id": "C198", "title": "Contact systems on one-dimensional substrates", "statement": "For systems on lines, as for two-dimensional ones: primal and dual objective are the energies they are meant to be, with exact gradients and Hessian products; for admissible gaps and pressures their sum is not negative and vanishes exactly for compatible complementary pairs; points satisfying the optimality conditions are unique global minima and primal and dual ones belong to each other; the problem has a solution at every offset; evaluate_disp is linear, reciprocal and definite, as the theorems on the solver assume.", "quantifier": "all lines, heights, offsets, gaps, pressures", "why_tests_cant": "All grids and fields.", "anchors": ["ContactMechanics/Systems.py::NonSmoothContactSystem.primal_objective", "ContactMechanics/Systems.py::NonSmoothContactSystem.dual_objective", "ContactMechanics/Systems.py::NonSmoothContactSystem.primal_hessian_product", "ContactMechanics/Systems.py::NonSmoothContactSystem.dual_hessian_product", "ContactMechanics/FFTElasticHalfSpace.py::PeriodicFFTElasticHalfSpace.evaluate_disp"]}
{"id": "C199", "title": "Periodic contacts converge to the continuum", "statement": "For every rigid periodic surface whose contact with the continuous periodic half-space (every plane wave answered with its stiffness, uniform field with the default stiffness) has a continuous solution at an offset: as the grid is refined in both directions and the tolerance shrinks, simulated contacts on a periodic substrate at this offset have loads that converge to the continuous load, displacements that converge in the mean square and pressures that converge weakly; pressed with the load, the offset converges to the continuous one; this holds for every step of a calculation whose reported fields satisfy the contact conditions within the tolerance. The continuous solution at an offset is unique, and a positive load determines the offset.", "quantifier": "all surfaces with a continuous solution, sizes, offsets, grids, tolerances, solver histories", "why_tests_cant": "A limit over grids of all sizes.", "anchors": ["ContactMechanics/PipelineFunction.py::contact_mechanics", "ContactMechanics/FFTElasticHalfSpace.py::PeriodicFFTElasticHalfSpace.evaluate_disp", "ContactMechanics/FFTElasticHalfSpace.py::PeriodicFFTElasticHalfSpace._compute_surface_stiffness"]}
{"id": "C200", "title": "Nonperiodic contacts converge to the continuum", "statement": "For every rigid surface whose contact with the continuous half-space (Boussinesq) has a continuous solution at an offset, its contact inside the simulated surface: as the grid is refined and the tolerance shrinks, simulated contacts on a nonperiodic substrate at this offset have loads that converge to the continuous load, displacements that converge in the mean square, and pressures that converge weakly; pressed with the load, if it is positive, the offset converges to the continuous one; this holds for every step of a calculation whose reported fields satisfy the contact conditions within the tolerance. In the continuum there is at most one continuous solution at an offset, and a positive load determines the offset and the pressures.", "quantifier": "all surfaces, offsets, sizes, grids, solver histories", "why_tests_cant": "A limit over grids; all surfaces.", "anchors": ["ContactMechanics/FFTElasticHalfSpace.py::FreeFFTElasticHalfSpace.evaluate_disp", "ContactMechanics/FFTElasticHalfSpace.py::FreeFFTElasticHalfSpace._compute_greens_function", "ContactMechanics/PipelineFunction.py::contact_mechanics", "ContactMechanics/Optimization/ConstrainedConjugateGradients.py::constrained_conjugate_gradients"]}
{"id": "C201", "title": "Command line runs converge to the continuum of the material given", "statement": "For every elastic run of ce_hard_wall on a half-space of Young's modulus Y and Poisson number nu, periodic or nonperiodic: as the grid is refined and the tolerance shrinks, a written step whose displacements and forces satisfy the contact conditions within the tolerance, at the offset of a continuous solution of the contact with the continuous half-space of this material (contact modulus Y/(1-nu^2)), has in the log the load of the continuous contact, in the NetCDF frame its displacements (in the mean square) and its forces (weakly); if the load in the log is, up to the tolerance, the positive load of the continuous contact, the offset in the frame converges to that of the continuous contact as well.", "quantifier": "all surfaces with a continuous solution, materials, sizes, offsets, loads, grids, modes of operation, solver histories", "why_tests_cant": "A limit over grids; all surfaces and materials.", "anchors": ["ContactMechanics/CommandLineInterface/HardWall.py::main", "ContactMechanics/CommandLineInterface/HardWall.py::next_step", "ContactMechanics/CommandLineInterface/HardWall.py::dump_nc", "ContactMechanics/FFTElasticHalfSpace.py::PeriodicFFTElasticHalfSpace.evaluate_disp", "ContactMechanics/FFTElasticHalfSpace.py::FreeFFTElasticHalfSpace.evaluate_disp", "ContactMechanics/Optimization/ConstrainedConjugateGradients.py::constrained_conjugate_gradients"]}
{"id": "C202", "title": "Arrays given to and taken from the solver", "statement": "constrained_conjugate_gradients writes into no array that existed before the call, in particular not into initial_displacements and initial_forces, even if its callback writes into the array it is given; with a callback that only reads, every call shows the forces of that iteration, and the arrays x and jac of the result are new, different from one another and from every array the callback was given.", "quantifier": "all problems, options, memories, callbacks", "why_tests_cant": "Aliasing over all histories of iterations and all callbacks.", "anchors": ["ContactMechanics/Optimization/ConstrainedConjugateGradients.py::constrained_conjugate_gradients"]}
{"id": "C203", "title": "Arrays kept from the solver's callback keep what they held", "statement": "An array that the callback of constrained_conjugate_gradients keeps holds the forces of that iteration, and what the callback does with it does not change the calculation.", "quantifier": "all problems, options, callbacks", "why_tests_cant": "Aliasing over all histories of iterations.", "anchors": ["ContactMechanics/Optimization/ConstrainedConjugateGradients.py::constrained_conjugate_gradients"]}
{"id": "C204", "title": "Calculations can be extended", "statement": "A calculation of contact_mechanics that asks for further offsets, further pressures or a larger number of automatic steps begins with the steps of the shorter one: if it returns, the shorter one returns the first entries of all five arrays and makes the first calls of the callback; if the shorter one raises, the longer one raises the same exception after the same calls. This holds for elastic and plastic calculations.", "quantifier": "all surfaces, arguments, lists, solver behaviours", "why_tests_cant": "A relation between all pairs of calls; histories of any length.", "anchors": ["ContactMechanics/PipelineFunction.py::contact_mechanics", "ContactMechanics/PipelineFunction.py::_next_contact_step"]}
{"id": "C205", "title": "Logged lines survive a crash", "statement": "If the process dies at any point, even in the middle of a call, every log file is found with all lines that completed calls of pr, warn and st printed to it, complete and in order, followed at most by part of the lines of later calls. (Provided no call named an existing file to be overwritten and no file was set while lines waited for one; once a line has been logged to a file, all lines of the file are safe in any case.)", "quantifier": "all histories of calls, all crash points, all file systems", "why_tests_cant": "All crash points of all histories.", "anchors": ["ContactMechanics/Tools/Logger.py::Logger.flush", "ContactMechanics/Tools/Logger.py::Logger.pr", "ContactMechanics/Tools/Logger.py::Logger.st", "ContactMechanics/Tools/Logger.py::Logger._print"]}
{"id": "C206", "title": "Lines that waited for a log file survive a crash", "statement": "Lines logged before a log file was set are in the file when set_logfile has returned, even if the process dies then.", "quantifier": "all histories of calls, all crash points", "why_tests_cant": "All crash points.", "anchors": ["ContactMechanics/Tools/Logger.py::Logger.set_logfile"]}
{"id": "C207", "title": "Command line runs can be extended", "statement": "ce_hard_wall with the pressures of a file: a run with further pressures at the end of the file writes, step by step, first what the run without them writes (log line, NetCDF frame, map files; a run with one pressure names its map files without number), then the further steps; if the shorter run raises, the longer one raises the same exception after the same output.", "quantifier": "all surfaces, options, lists of pressures, solver behaviours", "why_tests_cant": "A relation between all pairs of runs; histories of any length.", "anchors": ["ContactMechanics/CommandLineInterface/HardWall.py::main"]}
{"id": "C208", "title": "Rounding errors cannot break the solver's exact guarantees", "statement": "constrained_conjugate_gradients computed with floating point numbers (any monotone rounding after each operation, any order of summation): forces are exactly zero outside the topography, in the result and in every callback; the displacements returned are, bit for bit, the substrate's response to the forces returned; the offset returned at fixed offset is the given one; iterations, evaluations and callbacks are counted as in exact arithmetic; where exact arithmetic guarantees forces that are not tensile or not above the hardness (see C37, C38), floating point arithmetic does too. Exact arithmetic is the special case without rounding.", "quantifier": "all problems, options, substrates, roundings, orders of summation", "why_tests_cant": "Rounding errors accumulate over histories of any length.", "anchors": ["ContactMechanics/Optimization/ConstrainedConjugateGradients.py::constrained_conjugate_gradients"]}
{"id": "C209", "title": "Rounding errors shift the solver's converged quantities by bounded amounts", "statement": "In floating point arithmetic with relative error eps per operation, absolute error eta on underflow and summation error delta: if the solver reports success under load control, the exact sum of the returned forces differs from the prescribed load by no more than the tolerance plus an explicit bound in eps, eta, delta; without hardness and underflow, and if the last iteration added no contact points, it lies between (1-eps)^2/(1+delta) and (1+eps)^2/(1-delta) times the load even without convergence; and where C35 guarantees a penetration below pentol, it is below pentol plus an explicit bound proportional to the numbers compared, whatever the number of iterations.", "quantifier": "all problems, options, substrates, roundings, numbers of iterations", "why_tests_cant": "Rounding errors accumulate over histories of any length.", "anchors": ["ContactMechanics/Optimization/ConstrainedConjugateGradients.py::constrained_conjugate_gradients"]}
{"id": "C210", "title": "A reported success contains no nan", "statement": "If constrained_conjugate_gradients reports success, the displacements, forces and energy it returns contain no nan, whatever the arguments; if the last iteration was no mixing step (always so without hardness), the heights and the offset contain none either. If no argument is nan and the substrate turns numbers into numbers, no nan arises during the calculation.", "quantifier": "all problems, options, positions of nan in heights, offset, forces, displacements, tolerances; substrates that do not lose nan", "why_tests_cant": "nan propagates through histories of any length; comparisons with nan are false.", "anchors": ["ContactMechanics/Optimization/ConstrainedConjugateGradients.py::constrained_conjugate_gradients"]}
{"id": "C211", "title": "A plastic calculation with nan heights or offset does not succeed", "statement": "constrained_conjugate_gradients with a hardness does not report success if the heights or the prescribed offset are nan.", "quantifier": "all problems, options", "why_tests_cant": "nan propagates through histories of any length.", "anchors": ["ContactMechanics/Optimization/ConstrainedConjugateGradients.py::constrained_conjugate_gradients"]}
{"id": "C212", "title": "nan in an elastic calculation raises", "statement": "constrained_conjugate_gradients without hardness raises RuntimeError within three iterations if the heights, the prescribed offset, the external force, the initial displacements or the initial forces contain a nan; it never runs on with nan until maxiter.", "quantifier": "all problems, options, positions of nan; substrates that spread nan, as a Fourier transform does", "why_tests_cant": "nan propagates through comparisons, masks and sums; the code resets G to zero in some of these states, and hides the nan from its test for nan.", "anchors": ["ContactMechanics/Optimization/ConstrainedConjugateGradients.py::constrained_conjugate_gradients"]}
{"id": "C213", "title": "Files of the command line show what converged", "statement": "The files ce_hard_wall writes (log, NetCDF container, map files) tell steps that converged from steps that did not.", "quantifier": "all surfaces, options, solver behaviours", "why_tests_cant": "A relation between all pairs of runs; histories of any length.", "anchors": ["ContactMechanics/CommandLineInterface/HardWall.py::main", "ContactMechanics/CommandLineInterface/HardWall.py::dump", "ContactMechanics/CommandLineInterface/HardWall.py::dump_nc"]}
{"id": "C214", "title": "Automatic plastic steps are calculations of the undeformed surface", "statement": "In automatic mode, contact_mechanics and ce_hard_wall with a hardness compute every step for the undeformed surface: the output does not depend on what the solver does with a surface deformed in an earlier step (the steps are not in the order of the loads).", "quantifier": "all surfaces, options, solver behaviours", "why_tests_cant": "Plastic deformation over all histories of steps.", "anchors": ["ContactMechanics/PipelineFunction.py::_next_contact_step", "ContactMechanics/CommandLineInterface/HardWall.py::next_step", "ContactMechanics/PlasticSystemSpecialisations.py::PlasticNonSmoothContactSystem.minimize_proxy"]}
{"id": "C215", "title": "Synchronised frames survive a crash", "statement": "What can be read of a frame of a NetCDF container when sync is called is read from the file after a crash, up to the storage type of a value written, whatever is done between sync and the crash as long as that frame of that variable is not written again. A crash right after sync loses nothing. Once the grid shape is set, the file can be opened with that shape after a crash.", "quantifier": "all histories of calls before and after sync, all crash points, all mixtures of old and new entries on disk", "why_tests_cant": "All crash points and partial writes.", "anchors": ["ContactMechanics/IO/NetCDF.py::NetCDFContainer.sync", "ContactMechanics/IO/NetCDF.py::NetCDFContainerFrame.sync", "ContactMechanics/IO/NetCDF.py::NetCDFContainer._define_file_structure"]}
{"id": "C216", "title": "Frames of completed command line steps survive a crash", "statement": "When the command line is killed, the NetCDF file contains the frames of the steps whose output (log line, maps) was complete.", "quantifier": "all runs, all crash points", "why_tests_cant": "All crash points.", "anchors": ["ContactMechanics/CommandLineInterface/HardWall.py::dump_nc", "ContactMechanics/CommandLineInterface/HardWall.py::main", "ContactMechanics/IO/NetCDF.py::NetCDFContainer.sync"]}
{"id": "C217", "title": "A minimisation is returned whatever the method", "statement": "SystemBase.minimize_proxy(offset, method=...) returns the result of the optimiser, with the optimised displacements on the grid, for every method of scipy.optimize.minimize, also for those that do not know a gradient; the system then has these displacements, their elastic forces and the offset.", "quantifier": "all systems on periodic and nonperiodic half-spaces, methods, starts, bounds, results of the optimiser", "why_tests_cant": "All methods and results.", "anchors": ["ContactMechanics/Systems.py::SystemBase.minimize_proxy", "ContactMechanics/Systems.py::SystemBase._update_state"]}
{"id": "C218", "title": "Plastic contacts do not depend on the number of processes", "statement": "Plastic calculations on a grid distributed among processes give what a single process gives: from surfaces and systems that hold the blocks of the grid, every minimize_proxy ends on all processes with the blocks of the same result, or the same exception, and surfaces and systems hold the blocks of the new heights and fields; so over any sequence of calculations the height of every point is the one the last successful calculation that flagged it pressed it to.", "quantifier": "all distributions of the grid (also processes without points), surfaces, substrates, arguments, numbers of calculations", "why_tests_cant": "All distributions, schedules and histories.", "anchors": ["ContactMechanics/PlasticSystemSpecialisations.py::PlasticNonSmoothContactSystem.minimize_proxy", "ContactMechanics/Systems.py::NonSmoothContactSystem.minimize_proxy", "ContactMechanics/Systems.py::SystemBase.compute_gap", "ContactMechanics/Optimization/ConstrainedConjugateGradients.py::constrained_conjugate_gradients"]}
{"id": "C219", "title": "Trajectories in the AMBER convention", "statement": "A trajectory in the AMBER convention whose number of atoms is a square can be opened whatever library is installed; frame.u and frame.f of every frame are coordinates and forces of the atoms, row by row on the grid; what was read can be written again, all variables can be read, frames can be counted from the end.", "quantifier": "all trajectories, frames, variables, arrays, both libraries", "why_tests_cant": "All files and arrays.", "anchors": ["ContactMechanics/IO/NetCDF.py::NetCDFContainer.__init__", "ContactMechanics/IO/NetCDF.py::NetCDFContainerFrame._mangle_name", "ContactMechanics/IO/NetCDF.py::NetCDFContainerFrame.__getattr__", "ContactMechanics/IO/NetCDF.py::NetCDFContainerFrame.__setattr__"]}
{"id": "C220", "title": "The mean gap of the table is the mean of the gap field", "statement": "The mean gap contact_mechanics returns for a step and the gap field its callback receives for that step agree: the mean of the field is at least the mean gap, and exceeds it by no more than the deepest penetration the solver left; without penetration they are equal.", "quantifier": "all surfaces, numbers of steps, lists of offsets or pressures, substrates, elastic and plastic, solver behaviours", "why_tests_cant": "Sums over grids of any size and any history of steps; all solver behaviours.", "anchors": ["ContactMechanics/PipelineFunction.py::_contact_calculation", "ContactMechanics/PipelineFunction.py::contact_mechanics"]}
{"id": "C221", "title": "Map files stay as written", "statement": "Every map ce_hard_wall writes is found in its file when the run is over, also when it ends with an exception, and other files are untouched; when the process dies in the middle, all maps of completed steps are complete. The map files found after a run belong to that run.", "quantifier": "all runs, contents of the directory before, crash points, sequences of runs", "why_tests_cant": "All histories and crash points; a statement about names of any number of files.", "anchors": ["ContactMechanics/CommandLineInterface/HardWall.py::main", "ContactMechanics/CommandLineInterface/HardWall.py::save_contact", "ContactMechanics/CommandLineInterface/HardWall.py::save_pressure", "ContactMechanics/CommandLineInterface/HardWall.py::save_gap"]}
{"id": "C222", "title": "Plastic systems of the factory respect the hardness", "statement": "In a system built by make_plastic_system, with or without physical_sizes, no pressure of a result exceeds the hardness of the surface when the solver keeps its forces below the hardness it is given.", "quantifier": "all surfaces, hardnesses, physical sizes, solver behaviours", "why_tests_cant": "Two conversions between force and pressure have to agree for all sizes.", "anchors": ["ContactMechanics/Factory.py::make_plastic_system", "ContactMechanics/Factory.py::_make_system_args", "ContactMechanics/PlasticSystemSpecialisations.py::PlasticNonSmoothContactSystem.minimize_proxy"]}
{"id": "C223", "title": "What a half-space remembers of its calculations", "statement": "After compute(disp, pot, forces) the substrate's energy and force are those of evaluate for these displacements, present iff asked for; after compute_k its energy and force_k are those of evaluate_k. Refused calculations change nothing. check() without argument judges the forces of the last calculation: it raises FreeBoundaryError iff one of them on the boundary of the domain is not zero. Energy and forces stored belong to the same displacements.", "quantifier": "all half-spaces, all histories of calculations in real and Fourier space, all flags", "why_tests_cant": "All histories of calls.", "anchors": ["ContactMechanics/Substrates.py::ElasticSubstrate.compute", "ContactMechanics/Substrates.py::ElasticSubstrate.compute_k", "ContactMechanics/FFTElasticHalfSpace.py::PeriodicFFTElasticHalfSpace.evaluate_k", "ContactMechanics/FFTElasticHalfSpace.py::FreeFFTElasticHalfSpace.check", "ContactMechanics/FFTElasticHalfSpace.py::FreeFFTElasticHalfSpace.check_boundaries"]}
{"id": "C224", "title": "Semi-periodic half-spaces: superposition, material, units", "statement": "Displacements of a semi-periodic half-space superpose; with c times the contact modulus the same forces cause displacements smaller by the factor c; with l times the lengths, smaller by the factor l. A number of images that is accepted gives a half-space that forces displace.", "quantifier": "all grids, sizes, periodicities, numbers of images, forces, factors", "why_tests_cant": "Sums over grids and images of any number.", "anchors": ["ContactMechanics/FFTElasticHalfSpace.py::SemiPeriodicFFTElasticHalfSpace.__init__", "ContactMechanics/FFTElasticHalfSpace.py::SemiPeriodicFFTElasticHalfSpace._compute_greens_function", "ContactMechanics/FFTElasticHalfSpace.py::SemiPeriodicFFTElasticHalfSpace.evaluate_disp"]}
{"id": "C225", "title": "The boundary check of semi-periodic half-spaces", "statement": "On a semi-periodic half-space with check_boundaries=True, check(force) raises FreeBoundaryError iff a force next to the end of a nonperiodic direction is not zero.", "quantifier": "all grids, periodicities, force fields", "why_tests_cant": "All force fields and grids.", "anchors": ["ContactMechanics/FFTElasticHalfSpace.py::SemiPeriodicFFTElasticHalfSpace.__init__", "ContactMechanics/FFTElasticHalfSpace.py::FreeFFTElasticHalfSpace.check_boundaries", "ContactMechanics/FFTElasticHalfSpace.py::FreeFFTElasticHalfSpace.check"]}
