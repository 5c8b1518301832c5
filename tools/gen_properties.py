#!/usr/bin/env python3
"""Regenerates /verif/properties.jsonl (ids are stable: only append)."""
import json, os
HS="ContactMechanics/FFTElasticHalfSpace.py"; SY="ContactMechanics/Systems.py"
CG="ContactMechanics/Optimization/ConstrainedConjugateGradients.py"
PI="ContactMechanics/PipelineFunction.py"; HW="ContactMechanics/CommandLineInterface/HardWall.py"
LG="ContactMechanics/Tools/Logger.py"; NC="ContactMechanics/IO/NetCDF.py"; TC="ContactMechanics/Tools/common.py"
FA="ContactMechanics/Factory.py"; PL="ContactMechanics/PlasticSystemSpecialisations.py"; SU="ContactMechanics/Substrates.py"
IS="ContactMechanics/GreensFunctions/Isotropic.py"; AN="ContactMechanics/GreensFunctions/Anisotropic.py"
HZ="ContactMechanics/ReferenceSolutions/Hertz.py"; WE="ContactMechanics/ReferenceSolutions/Westergaard.py"; CO="ContactMechanics/ReferenceSolutions/Cone.py"
GT="ContactMechanics/ReferenceSolutions/GreenwoodTripp.py"
P=[]
def p(title, statement, quantifier, why, *anchors):
    P.append(dict(id="C%02d"%(len(P)+1), title=title, statement=statement, quantifier=quantifier, why_tests_cant=why, anchors=list(anchors)))

# ---- periodic half-space
p("Periodic half-space is a linear map",
  "For a periodic half-space, evaluate_disp and evaluate_force are linear: evaluate_disp(a*f1+b*f2) = a*evaluate_disp(f1)+b*evaluate_disp(f2) at every grid point, and the same for evaluate_force.",
  "every grid size, modulus, Poisson number, physical size, Gamma-point option, all real fields and scalars",
  "Tests superpose a few random fields on a few grids; superposition must hold for all fields and all grid parities.",
  HS+"::PeriodicFFTElasticHalfSpace.evaluate_disp", HS+"::PeriodicFFTElasticHalfSpace.evaluate_force")
p("Displacement and force evaluation are mutually inverse",
  "On a periodic half-space whose Gamma-point stiffness is nonzero, evaluate_force(evaluate_disp(f)) = f and evaluate_disp(evaluate_force(u)) = u at every grid point. With stiffness_q0=0.0 both round trips return the field minus its mean.",
  "every grid nx,ny (even or odd), positive modulus and sizes, every Gamma-point option, all real fields",
  "The round trip depends on half-spectrum storage, Nyquist handling and the zero mode for every parity of the grid; tests use four sizes and mean-free fields.",
  HS+"::PeriodicFFTElasticHalfSpace.evaluate_disp", HS+"::PeriodicFFTElasticHalfSpace.evaluate_force", HS+"::PeriodicFFTElasticHalfSpace._compute_surface_stiffness")
p("Reciprocity of the periodic half-space",
  "The work of forces f1 on the displacement caused by f2 equals the work of f2 on the displacement caused by f1: sum f1*evaluate_disp(f2) = sum f2*evaluate_disp(f1); likewise for evaluate_force.",
  "every grid, material and pair of fields", "Symmetry of an operator is a statement over all pairs of inputs.",
  HS+"::PeriodicFFTElasticHalfSpace.evaluate_disp", HS+"::PeriodicFFTElasticHalfSpace.evaluate_force")
p("Elastic energy is nonnegative and vanishes only for rigid motion",
  "evaluate(disp)[0] >= 0 for every displacement field; it is zero only for the zero field (nonzero Gamma stiffness) or for uniform fields (stiffness_q0=0.0).",
  "every grid, positive material constants, every displacement field", "Positive definiteness quantifies over all fields.",
  HS+"::PeriodicFFTElasticHalfSpace.evaluate", HS+"::PeriodicFFTElasticHalfSpace.evaluate_elastic_energy")
p("Real-space and Fourier-space energies agree",
  "evaluate(disp, pot=True, forces=True)[0] equals evaluate(disp, pot=True, forces=False)[0] although the second is computed from the half spectrum, for all grid parities.",
  "all displacement fields, all nx, ny including 1, 2, even and odd", "The half-spectrum weights (first row, Nyquist row) must be right for every size; tests check four sizes.",
  HS+"::PeriodicFFTElasticHalfSpace.evaluate", HS+"::PeriodicFFTElasticHalfSpace.evaluate_scalar_product_k_space")
p("Fourier-space scalar product does not depend on the MPI decomposition",
  "evaluate_scalar_product_k_space(fft(a), fft(b)) returns sum(a*b) whatever way the half spectrum is cut into per-process blocks, including empty blocks and blocks one row wide.",
  "all real fields a,b, all grids and all decompositions of the Fourier grid into boxes", "The number of ranks and slab boundaries in the test suite is fixed; the boundary weights depend on both.",
  HS+"::PeriodicFFTElasticHalfSpace.evaluate_scalar_product_k_space")
p("Translation invariance of the periodic half-space",
  "Cyclically shifting the force field by any number of grid points shifts the displacement field by the same amount and changes nothing else; same for evaluate_force.",
  "all shifts, fields and grids", "Quantifies over all shifts and fields.", HS+"::PeriodicFFTElasticHalfSpace.evaluate_disp")
p("Gamma-point response is the requested one",
  "A uniform displacement u0 yields the uniform force -u0*K0*area_per_pt, where K0 is stiffness_q0 if given and nonzero, 0 if stiffness_q0=0.0, the oedometric stiffness E(1-nu)/((1-2nu)(1+nu)h) for a layer of thickness h, and otherwise the mean of the two lowest axis stiffnesses.",
  "all grids, materials, Gamma options and uniform displacements", "Only two options on a single grid are tested.",
  HS+"::PeriodicFFTElasticHalfSpace._compute_greens_function")
p("Each plane wave has stiffness E*|q|/2",
  "For the infinitely deep half-space, a displacement cos(q.x+phi) with any admissible nonzero wavevector gives the force field -(E*/2)|q| area_per_pt cos(q.x+phi), with q the minimum-image wavevector and E*=E/(1-nu^2).",
  "all grids, sizes, materials, wavevectors kx,ky and phases", "There are nx*ny wavevectors per grid and arbitrarily many grids.",
  HS+"::PeriodicFFTElasticHalfSpace._compute_greens_function", HS+"::PeriodicFFTElasticHalfSpace.evaluate_force")
p("A finite layer is stiffer than the half-space and stable",
  "With thickness given and 0<=nu<1/2 every wavevector's stiffness is positive and strictly larger than that of the infinite half-space with the same E*; hence every energy is at least the half-space energy on mean-free fields.",
  "all thicknesses h>0, Poisson numbers in [0,1/2), grids and wavevectors", "Continuous parameter range.",
  HS+"::PeriodicFFTElasticHalfSpace._compute_greens_function")
p("Thick layers converge to the half-space",
  "As thickness tends to infinity every non-Gamma stiffness of the layer tends to the half-space stiffness.",
  "all grids, materials, wavevectors", "A limit statement.", HS+"::PeriodicFFTElasticHalfSpace._compute_greens_function")
p("The Gamma-point stiffness of a layer is the long-wavelength limit",
  "The layer stiffness as a function of the wavevector tends, for q to 0, to the value the code assigns at the Gamma point.",
  "all thicknesses and Poisson numbers in [0,1/2)", "A limit statement.", HS+"::PeriodicFFTElasticHalfSpace._compute_greens_function")
p("Constructor validation of half-spaces",
  "PeriodicFFTElasticHalfSpace(...) raises Error unless the dimension is 1 or 2 and at most one of stiffness_q0/thickness is given, raises ZeroDivisionError iff it passes these checks and a grid size is zero or the Poisson number is +-1, and otherwise expands physical_sizes by repeating its last entry so that each dimension gets its grid spacing.",
  "all argument combinations", "Argument space is unbounded.", HS+"::PeriodicFFTElasticHalfSpace.__init__")
p("Unit neutrality of the half-space",
  "Rescaling lengths by l and forces by F (moduli by F/l^2) maps evaluate_force(l*u) to F times the original result and evaluate_disp(F*f) to l times the original result, for the periodic half-space with default or rescaled Gamma stiffness.",
  "all scale factors, grids, materials and fields", "Continuous family of unit systems.", HS+"::PeriodicFFTElasticHalfSpace")
p("Force fields are gradients of the energy",
  "E(u+v) = E(u) - sum evaluate_force(u)*v + E(v) exactly, so -evaluate_force is the gradient of the elastic energy, and the energy is convex.",
  "all grids, materials, displacement fields u and increments v", "Tests use a finite-difference check at one random point of a 2x2 grid.",
  HS+"::PeriodicFFTElasticHalfSpace.evaluate", SU+"::ElasticSubstrate.compute")
p("Shape mismatches are rejected",
  "evaluate_disp, evaluate_force, evaluate_k_disp, evaluate_k_force on a periodic half-space raise Error exactly when the array shape differs from the local grid shape (no silent broadcasting).",
  "all shapes", "Shapes are unbounded.", HS+"::PeriodicFFTElasticHalfSpace.evaluate_disp", HS+"::PeriodicFFTElasticHalfSpace.evaluate_k_force")
p("Gamma-point option zero works in every supported dimension",
  "stiffness_q0=0.0 removes the zero-wavevector response for one- and two-dimensional substrates alike.",
  "all grids in 1 and 2 dimensions", "The 1D branch with this option is not covered; the code indexes a 1D array with two indices.",
  HS+"::PeriodicFFTElasticHalfSpace._compute_greens_function")
p("One-dimensional periodic half-space",
  "The 1D substrate is linear, evaluate_force and evaluate_disp are mutually inverse (nonzero Gamma stiffness), reciprocal, and each cosine of wavenumber k has stiffness E*|q|/2 per point; finite thickness is honoured.",
  "all nx>=2, materials and fields", "All fields and parities.", HS+"::PeriodicFFTElasticHalfSpace._compute_greens_function")
# ---- free
p("Free half-space equals the direct aperiodic sum",
  "FreeFFTElasticHalfSpace.evaluate_disp(f) for a force field on the (unpadded) topography grid returns u_ij = -sum_kl G((i-k)dx,(j-l)dy) f_kl/(dx dy) with Love's pixel Green's function G and no contribution from periodic images.",
  "all grid sizes, spacings, moduli, force fields", "Wrap-around contamination depends on padding and index conventions for all sizes.",
  HS+"::FreeFFTElasticHalfSpace.evaluate_disp", HS+"::FreeFFTElasticHalfSpace._compute_greens_function")
p("Padded and unpadded inputs are equivalent",
  "Calling evaluate_disp of a free half-space with an unpadded force field or with the same field embedded in a zero padded array gives the same displacements on the topography region, and bIncludePadding only controls the returned region.",
  "all grids and force fields", "All fields.", HS+"::FreeFFTElasticHalfSpace.evaluate_disp")
p("Reciprocity and mirror symmetry of the free half-space",
  "The pixel Green's function is even in x and in y, and sum f1*evaluate_disp(f2) = sum f2*evaluate_disp(f1) for unpadded force fields.",
  "all grids, spacings, force fields", "All pairs of fields.", HS+"::FreeFFTElasticHalfSpace._compute_greens_function")
p("Pressing on a free half-space moves every surface point in the same direction",
  "The pixel Green's function is strictly positive, so non-positive (compressive) forces that are not all zero displace every grid point by a strictly positive amount.",
  "all grids, spacings, moduli, one-signed force fields", "Positivity of a transcendental expression for all positions.", HS+"::FreeFFTElasticHalfSpace._compute_greens_function")
p("Boundary check is sound and complete",
  "check_boundaries(force) raises FreeBoundaryError iff some force on the outermost ring of the topography grid exceeds the tolerance, no matter how the grid is distributed over processes.",
  "all grids, force fields, tolerances and decompositions", "Ring geometry and decomposition are unbounded.",
  HS+"::FreeFFTElasticHalfSpace.check_boundaries", HS+"::FreeFFTElasticHalfSpace.domain_boundary_mask")
p("Topography subdomains tile the topography",
  "The local topography subdomains of all processes (free half-space) partition the topography grid exactly, and each lies inside the process' padded subdomain.",
  "all grids and all slab/box decompositions of the padded grid", "All process counts.", HS+"::FreeFFTElasticHalfSpace.topography_nb_subdomain_grid_pts", HS+"::PeriodicFFTElasticHalfSpace.topography_subdomain_slices")
p("spawn_child keeps physical resolution and material",
  "FreeFFTElasticHalfSpace.spawn_child(n) has the same modulus and the same grid spacing in each direction as its parent.",
  "all parent and child grids", "All sizes.", HS+"::FreeFFTElasticHalfSpace.spawn_child")
p("Accepted force shapes of the free half-space",
  "evaluate_disp accepts exactly the padded local shape and the local topography shape; every other shape raises Error; the explicit serial padding branch can never be reached.",
  "all shapes and decompositions", "All shapes.", HS+"::FreeFFTElasticHalfSpace.evaluate_disp")
p("Force evaluation is a generalised inverse for every substrate",
  "For free and periodic half-spaces alike, evaluate_disp(evaluate_force(evaluate_disp(f))) = evaluate_disp(f) on padded fields, and evaluate_force(evaluate_disp(f)) = f whenever no Green's function entry vanishes.",
  "all grids, materials and fields", "All fields.", HS+"::PeriodicFFTElasticHalfSpace._compute_surface_stiffness")
# ---- semiperiodic
p("Semi-periodic half-space with no periodic direction equals the free half-space",
  "SemiPeriodicFFTElasticHalfSpace(periodicity=(False,False)) gives the same evaluate_disp on the topography region as FreeFFTElasticHalfSpace although it pads to 2n-1 instead of 2n.",
  "all grids, n_images, materials and force fields", "All sizes and fields.", HS+"::SemiPeriodicFFTElasticHalfSpace._compute_greens_function_inner")
p("Semi-periodic half-space is translation invariant along periodic directions",
  "evaluate_disp commutes with cyclic shifts along a direction flagged periodic, and equals the direct sum over forces and the 2*n_images+1 images.",
  "all grids, image counts, fields and shifts", "All shifts and fields.", HS+"::SemiPeriodicFFTElasticHalfSpace._compute_greens_function")
p("get_G_real returns the kernel in spatial order",
  "get_G_real()[i,j] is the real-space Green's function at offset ((i-floor(n/2))dx, (j-floor(m/2))dy): monotone coordinates with the origin at the central element, for even and odd computational grids, and get_G_real_slices returns the two lines through the origin.",
  "all grids and periodicities", "Ordering depends on parity for every size.", HS+"::SemiPeriodicFFTElasticHalfSpace.get_G_real", HS+"::SemiPeriodicFFTElasticHalfSpace.get_G_real_slices")
p("Semi-periodic evaluate_force zero-pads small inputs",
  "evaluate_force on an array smaller than the computational grid equals evaluate_force on the array embedded in zeros; reciprocity holds for every periodicity flag combination.",
  "all shapes up to the computational grid, all flags", "All shapes.", HS+"::SemiPeriodicFFTElasticHalfSpace.evaluate_force")
# ---- CCG
p("No force outside the topography",
  "At every iteration (as seen by the callback) and in the returned result the solver's forces vanish exactly on padding points and on masked (undefined) topography points.",
  "all substrates, topographies, masks, options and iteration counts", "Invariant over all iterates of all problems.", CG+"::constrained_conjugate_gradients")
p("Returned displacements are the elastic response to the returned forces",
  "result.x = evaluate_disp(-jac) (jac embedded in zeros) exactly, on success and on maxiter alike, and result.fun = 1/2 sum jac*x over the topography.",
  "all problems and options, elastic or plastic, fixed offset or load", "All problems.", CG+"::constrained_conjugate_gradients")
p("Load control meets the prescribed load",
  "With external_force F, success implies |sum(jac)-F| < thermotol*|sum(jac)|; if no contact point was added in the final iteration and there is no hardness, sum(jac)=F exactly.",
  "all substrates, topographies, loads, tolerances", "All problems.", CG+"::constrained_conjugate_gradients")
p("Converged solutions do not penetrate",
  "success=True implies that at every topography point the substrate penetrates the rigid surface by less than pentol.",
  "all substrates, topographies, offsets, initial guesses", "Needs all initial states; the exit test only inspects points that were in contact at the start of the last iteration.", CG+"::constrained_conjugate_gradients")
p("Converged contacting points have small gap (complementarity)",
  "success=True implies that every point of the returned active set has gap between -pentol and (1+sqrt(A))*pentol, A the number of active points (elastic, fixed offset).",
  "all substrates, topographies, offsets, tolerances", "All problems.", CG+"::constrained_conjugate_gradients")
p("Forces are never tensile",
  "jac >= 0 everywhere in any returned result (hard-wall contact cannot pull).",
  "all substrates, topographies, iteration counts", "Invariant over all iterates.", CG+"::constrained_conjugate_gradients")
p("Forces never exceed the hardness",
  "With hardness H given, every returned contact force is at most H.",
  "all substrates, topographies, iteration counts", "Invariant over all iterates.", CG+"::constrained_conjugate_gradients", PL+"::PlasticNonSmoothContactSystem.minimize_proxy")
p("Iteration accounting and termination",
  "The solver performs at most maxiter iterations; nit is the number performed; an elastic run evaluates the substrate exactly 1+2*nit times; without success nit = maxiter; success is reported only through the convergence test.",
  "all problems and maxiter", "All problems; termination.", CG+"::constrained_conjugate_gradients")
p("maxiter=0 yields an unconverged result",
  "Calling the solver with maxiter=0 returns a result with success=False.",
  "all problems", "Boundary value not covered; the code reads a variable assigned only inside the loop.", CG+"::constrained_conjugate_gradients")
p("Offset handling",
  "Without external_force the returned offset is exactly the given offset (0 if None), whatever the iterations do; with external_force the given offset has no influence on the iterates when pentol is given and forces are initialised explicitly.",
  "all problems", "All problems.", CG+"::constrained_conjugate_gradients")
p("Separated surfaces are detected",
  "If the rigid surface nowhere reaches the undeformed substrate (h+offset<=0 everywhere), the cold-started solver succeeds in one iteration with zero force and zero displacement.",
  "all substrates, topographies below the surface, offsets, positive tolerances", "All topographies.", CG+"::constrained_conjugate_gradients")
p("Zero-load convergence at fixed offset is only possible in the first iteration",
  "At fixed offset, success in iteration 2 or later implies a nonzero total force: a warm start from contact to separation cannot be reported converged.",
  "all problems", "All problems; the 0/0 in the relative force change.", CG+"::constrained_conjugate_gradients")
p("The CG step is an exact line search",
  "In every elastic fixed-offset iteration the step length minimises the dual energy 1/2 f.Cf - f.(h+offset) along the search direction, so the pre-clipping energy never increases.",
  "all symmetric positive substrates, iterates and directions", "All iterates.", CG+"::constrained_conjugate_gradients")
p("Exact fixed points solve the contact problem",
  "If an elastic fixed-offset iteration ends with gap zero on all loaded points, no tensile force and no penetration, the displacement field is the unique minimiser of the elastic energy among all fields with u>=h+offset and the forces are the unique minimiser of the dual energy among nonnegative forces.",
  "all symmetric positive definite substrates and topographies", "Optimality over all competitors.", CG+"::constrained_conjugate_gradients", SY+"::NonSmoothContactSystem.primal_objective", SY+"::NonSmoothContactSystem.dual_objective")
p("Array-valued hardness is accepted",
  "hardness may be a per-pixel array (as documented).",
  "all arrays", "Not tested; `if hardness:` is ambiguous for arrays.", CG+"::constrained_conjugate_gradients")
p("Default penetration tolerance is usable",
  "With pentol=None the derived tolerance is positive, for every topography and offset, in load and displacement control.",
  "all topographies and offsets", "Flat surfaces with negative offset or load control are not covered.", CG+"::constrained_conjugate_gradients")
# ---- systems
p("Gap convention",
  "compute_gap(disp, offset) = disp - heights - offset on the topography region; the lower bounds produced for bound-constrained minimisers admit a displacement field iff all gaps are >= 0 (padding unconstrained).",
  "all fields, offsets, topographies", "All fields.", SY+"::SystemBase.compute_gap", SY+"::SystemBase._lbounds_from_heights", SY+"::SystemBase._reshape_bounds")
p("Primal objective and gradient are consistent",
  "primal_objective(offset) returns (E(u), -force(u)) with u = gap+h+offset; the gradient is the exact derivative and primal_hessian_product is the exact change of the gradient.",
  "all gaps, offsets, topographies on periodic substrates", "All fields.", SY+"::NonSmoothContactSystem.primal_objective", SY+"::NonSmoothContactSystem.primal_hessian_product", SY+"::NonSmoothContactSystem.hessian_product")
p("Dual objective and gradient are consistent",
  "dual_objective(offset) returns (q(f), gap) with q(f)=1/2 f.u-f.(h+offset); its gradient is the exact derivative, and dual_hessian_product the exact change of the gradient, for periodic and free substrates.",
  "all force fields, offsets, topographies", "All fields.", SY+"::NonSmoothContactSystem.dual_objective", SY+"::NonSmoothContactSystem.evaluate_dual", SY+"::NonSmoothContactSystem.dual_hessian_product")
p("Strong duality",
  "For compatible primal/dual pairs satisfying complementarity, the primal energy plus the dual objective is zero, and for all feasible pairs it is nonnegative.",
  "all feasible pairs", "All pairs.", SY+"::NonSmoothContactSystem.primal_objective", SY+"::NonSmoothContactSystem.dual_objective")
p("Failed minimisations expose no stale solution",
  "After minimize_proxy/primal_minimize_proxy/dual_minimize_proxy without success, system.disp, system.force and system.contact_zone are None, and every result derived from the system reflects the last successful calculation or raises.",
  "all histories of calls", "All histories.", SY+"::NonSmoothContactSystem.minimize_proxy", SY+"::NonSmoothContactSystem.compute_normal_force")
p("Contact area bookkeeping",
  "compute_contact_area = number of points with positive force times area_per_pt; 0 <= relative contact area <= 1, equal to the fraction of points in contact; compute_normal_force = sum of returned forces, after every successful minimize_proxy.",
  "all results", "All results.", SY+"::SystemBase.compute_contact_area", SY+"::SystemBase.compute_relative_contact_area", SY+"::NonSmoothContactSystem.compute_normal_force")
p("Normal force has one sign convention",
  "compute_normal_force has the same sign after evaluate(forces=True) as after minimize_proxy for the same physical state.",
  "all states", "All histories; evaluate stores substrate forces, minimize_proxy stores their negatives.", SY+"::NonSmoothContactSystem.evaluate", SY+"::NonSmoothContactSystem.minimize_proxy")
p("Minimisation input/output reshaping is lossless",
  "shape_minimisation_output(shape_minimisation_input(a)) = a for arrays with the right number of elements and IncompatibleResolutionError otherwise.",
  "all arrays", "All shapes.", SY+"::SystemBase.shape_minimisation_input", SY+"::SystemBase.shape_minimisation_output")
p("Incompatible resolutions are rejected",
  "Constructing a contact system raises IncompatibleResolutionError iff the grids of substrate and topography differ; compare_containers compares content regardless of container type.",
  "all grids", "All grids.", SY+"::NonSmoothContactSystem.__init__", TC+"::compare_containers")
p("evaluate stores exactly what it returns",
  "evaluate(disp, offset, pot, forces) stores and returns energy iff pot and force iff forces, None otherwise, independent of history.",
  "all call histories and flag combinations", "All histories.", SY+"::NonSmoothContactSystem.evaluate", SU+"::ElasticSubstrate.compute")
p("Plastic deformation updates only yielding points and closes their gap",
  "After a successful plastic minimisation plastic_displ changes only at points flagged plastic and the recomputed gap there is zero; after failure it is unchanged; over any history of minimisations the accumulated displacement is the sum of the successful updates.",
  "all histories of minimisations", "All histories.", PL+"::PlasticNonSmoothContactSystem.minimize_proxy")
# ---- pipeline
p("contact_mechanics argument validation",
  "contact_mechanics raises ValueError unless exactly one of nsteps, offsets, pressures is given.",
  "all argument combinations", "All combinations.", PI+"::contact_mechanics")
p("contact_mechanics returns one aligned record per step in order",
  "For offsets/pressures lists of length n the five returned arrays have length n, entry i belongs to the i-th requested offset/pressure (offsets are returned unchanged), and the callback is called once per step in the same order with matching scalars.",
  "all lists and solver behaviours, topographies with at least two grid points in each direction", "All list lengths.", PI+"::contact_mechanics", PI+"::_contact_calculation")
p("Elastic results are independent of calculation order",
  "In an elastic calculation the record of step i depends only on offsets[i]: permuting the offsets permutes the results; in auto mode plastic displacements are reset so each step starts from the undeformed topography.",
  "all offset lists and permutations", "All permutations.", PI+"::contact_mechanics", PI+"::_next_contact_step")
p("Automatic offsets refine the area gap or extend the range",
  "In auto mode each new offset is either the midpoint between two offsets that are neighbours in area order with the largest log-area gap or the documented extrapolation; the index never leaves the history.",
  "all histories", "All histories.", PI+"::_next_contact_step")
p("Zero steps return empty results",
  "contact_mechanics(nsteps=0) (or empty lists) returns five empty arrays.",
  "all topographies", "Boundary case; history stays None and is unpacked.", PI+"::contact_mechanics")
p("Reported fields are physical",
  "In every callback gap >= 0, contacting_points = (pressure>0), fractional area in [0,1], mean pressure = sum(pressure)*area_per_pt/A; under load control mean pressure agrees with the requested pressure within thermotol on convergence.",
  "all solver results", "All results.", PI+"::_contact_calculation")
p("Command line history stays aligned and sorted by area",
  "After any number of automatic CLI steps the history columns are sorted by area and are a permutation of the per-step records (rows stay together).",
  "all sequences of solver results", "All histories.", HW+"::next_step")
p("Command line displacement mode runs",
  "ce_hard_wall --displacement computes the requested displacement(s).",
  "all displacement arguments", "Not covered by tests; unknown keyword 'kind' is passed to the solver.", HW+"::main")
p("Every exported map carries the macroscopic data header",
  "Each of the contact, pressure, displacement and gap files written for one step carries the same macroscopic data in its header.",
  "all combinations of requested outputs", "Needs pairs of outputs; dump returns a one-shot iterator.", HW+"::dump", HW+"::save_pressure", HW+"::save_contact", HW+"::save_gap")
# ---- logger
p("Logger prints every outevery-th record and every forced record",
  "After any sequence of st calls the printed records are exactly the forced ones and every outevery-th call, in call order, and a header line precedes the first record and every sepevery-th one.",
  "all call sequences and settings", "All sequences.", LG+"::Logger.st")
p("Nothing logged before a log file is set is lost or reordered",
  "Lines logged while no file is attached appear in the file attached later, exactly once, in order, before later lines.",
  "all histories", "All histories.", LG+"::Logger.set_logfile", LG+"::Logger._print")
p("Logger never overwrites an existing log when using a template name",
  "Opening an iteration log file with a templated name renames an existing file to the first free backup name; no existing file content is destroyed.",
  "all file system states and iteration histories", "All file systems.", LG+"::Logger.__open_logfile")
p("The quiet logger uses bounded memory",
  "Logging to the default quiet logger does not accumulate data.",
  "all histories", "Growth over long histories.", LG+"::quiet", LG+"::Logger._print")
p("Convergence logs can be read back",
  "read_convergence_log recovers the column names and values written by Logger.st.",
  "all headers and records", "All header texts; names containing blanks break the header parser.", LG+"::read_convergence_log", LG+"::Logger.st")
p("Log header and record have the same number of columns",
  "For scalar, string and (nested) vector values the header line has exactly one column label per printed value.",
  "all header/value lists", "All nestings.", LG+"::hdr_str", LG+"::flatten", LG+"::Logger.st")
# ---- netcdf
p("NetCDF frames read back what was written",
  "After any sequence of frame writes, reading a (frame, variable) returns the last value written to it, independent of writes to other frames or variables, up to the storage precision fixed at the first write of the variable.",
  "all write histories", "All histories.", NC+"::NetCDFContainerFrame.__setattr__", NC+"::NetCDFContainerFrame.__getattr__")
p("Scalars keep their value in NetCDF frames",
  "A real value written to a frame variable is read back unchanged also if an earlier frame stored an integer in that variable.",
  "all histories", "Type fixed by first write.", NC+"::NetCDFContainerFrame._create_if_missing")
p("Frame cursor and negative indices",
  "get_next_frame returns consecutive frames and advances the cursor by one; negative frame indices count from the end; slices enumerate the frames in range; len counts them, and grows only by writing further frames.",
  "all histories", "All histories.", NC+"::NetCDFContainer.get_next_frame", NC+"::NetCDFContainer.__getitem__")
p("Grid shape of a container is fixed once",
  "set_shape defines the grid on first use and afterwards raises unless the same shape is given; the stored shape never changes.",
  "all histories", "All histories.", NC+"::NetCDFContainer.set_shape")
p("open parses frame selectors",
  "open('file@n') yields frame n of file, open(file, frame=n) the same, names without @ the container; a text behind @ that is no whole number raises ValueError.",
  "all names and frame numbers", "All strings.", NC+"::open")
# ---- Green's functions
p("Isotropic surface Green's function is Hermitian and positive definite",
  "For mu>0, -1<nu<1/2 (and q!=0) greens_function(qx,qy) is Hermitian positive definite and stiffness is its inverse.",
  "all wavevectors and material constants", "Continuous family.", IS+"::IsotropicGreensFunction")
p("Normal component agrees with the periodic half-space",
  "The zz component of the isotropic Green's function equals 2/(E*|q|) with E*=2mu/(1-nu), i.e. the Green's function used by PeriodicFFTElasticHalfSpace.",
  "all wavevectors and material constants", "Continuous family.", IS+"::IsotropicGreensFunction._greens_function", HS+"::PeriodicFFTElasticHalfSpace._compute_greens_function")
p("Homogeneity of the isotropic Green's function",
  "greens_function(s*q)=greens_function(q)/s and stiffness(s*q)=s*stiffness(q) for all s>0.",
  "all scale factors and wavevectors", "Absolute cut-off 1e-6 breaks the stiffness for small wavevectors.", IS+"::IsotropicGreensFunction._stiffness")
p("Elasticity tensor symmetries and Voigt round trip",
  "elasticity_tensor has minor and major symmetries, Voigt/tensor conversion round-trips, and rotation by any cubic symmetry leaves the constants unchanged; isotropic constants are invariant under every rotation.",
  "all constants and rotations", "Continuous family.", AN+"::AnisotropicGreensFunction.__init__", AN+"::AnisotropicGreensFunction.elasticity_tensor", AN+"::AnisotropicGreensFunction.voigt_from_tensor")
p("The bulk determinant is an even cubic in qz^2",
  "det(bulkop(qx,qy,i*Q)) = c0+c2Q^2+c4Q^4+c6Q^6 and find_eigenvalues recovers c0..c6 exactly from four samples.",
  "all wavevectors, constants and rotations", "Polynomial identity; fails for generic rotations.", AN+"::AnisotropicGreensFunction.find_eigenvalues", AN+"::AnisotropicGreensFunction.bulkop")
p("Only proper rotations are accepted",
  "AnisotropicGreensFunction raises ValueError for every matrix R that is not a proper rotation.",
  "all 3x3 matrices", "Only det(R) is inspected.", AN+"::AnisotropicGreensFunction.__init__")
p("Scalar wavevectors are accepted by the anisotropic Green's function",
  "greens_function(qx,qy) and stiffness(qx,qy) accept scalar arguments.",
  "all scalars", "Scalar branch unreachable: item assignment on a scalar.", AN+"::AnisotropicGreensFunction.greens_function")
# ---- reference solutions
p("Hertz relations are mutually consistent",
  "normal_load(penetration(N))=N, penetration(normal_load(d))=d, contact radius a^2=R d, max_pressure__penetration(d) equals the peak pressure of radius_and_pressure(normal_load(d)).",
  "all positive loads, radii, moduli", "Continuous family.", HZ+"::penetration", HZ+"::normal_load", HZ+"::radius_and_pressure", HZ+"::max_pressure__penetration")
p("Hertz energy is the work of the load",
  "d/dd elastic_energy(d,R,Es) = normal_load(d,R,Es) for all d>0, and elastic_energy(0)=0.",
  "all penetrations, radii, moduli", "Derivative statement.", HZ+"::elastic_energy", HZ+"::normal_load")
p("Hertz surface fields are continuous at the contact edge",
  "surface_displacements and surface_stress are continuous at r=1, pressure vanishes outside, and the pressure integrates to the load.",
  "all radii and Poisson numbers", "Continuity.", HZ+"::surface_displacements", HZ+"::surface_stress")
p("Hertz interior stresses agree between formulations",
  "stress evaluated on the axis r=0 agrees with centerline_stress, and stress_Cartesian on the axis agrees with both.",
  "all depths and Poisson numbers", "Continuous family.", HZ+"::stress", HZ+"::centerline_stress", HZ+"::stress_Cartesian")
p("Westergaard contact radius and mean pressure are inverse",
  "contact_radius(mean_pressure(a))=a for 0<=a<=1/2, mean_pressure(contact_radius(p))=p for 0<=p<=1, and elastic_energy_a(a)=elastic_energy(mean_pressure(a)).",
  "all a, p in range", "Continuous family.", WE+"::contact_radius", WE+"::mean_pressure", WE+"::elastic_energy", WE+"::elastic_energy_a")
p("Westergaard contact conditions",
  "gap(x,a)=0 for |x|<=a modulo 1, gap>0 elsewhere, pressure>=0 and zero outside, displacements are 1-periodic and even.",
  "all positions and contact radii 0<a<1/2", "Continuous family.", WE+"::gap", WE+"::displacements", WE+"::_pressure")
p("Westergaard energy is the work of the mean pressure",
  "along the equilibrium curve dE = -p d(mean displacement).",
  "all a in (0,1/2)", "Derivative statement.", WE+"::elastic_energy_a", WE+"::mean_displacement")
p("Westergaard mean pressure has one normalisation",
  "_pressure(x, mean_pressure=p) equals _pressure(x, contact_radius=contact_radius(p)).",
  "all p in (0,1), x", "The two functions normalise by different factors.", WE+"::_pressure", WE+"::contact_radius")
p("Cone contact area is pi times the squared radius",
  "contact_radius_and_area(alpha) returns A/D^2 = pi*(R/D)^2.",
  "all cone angles", "Formula check at one angle passes when the ratio is 1.", CO+"::contact_radius_and_area")
p("Cone fields are continuous at the contact edge",
  "deformation and pressure are continuous at the contact radius, and load = mean pressure times area.",
  "all cone angles", "Continuity.", CO+"::deformation", CO+"::pressure", CO+"::load_and_mean_pressure")
# ---- tools & factory
p("Central-difference gradients are exact for quadratics",
  "evaluate_gradient(f,x,delta) returns the exact gradient of every quadratic function for every delta!=0.",
  "all quadratics, dimensions, points, steps", "All functions.", TC+"::evaluate_gradient")
p("fftn and ifftn are inverse",
  "ifftn(fftn(a,I),I)=a for every array and every nonzero I.",
  "all arrays", "All arrays.", TC+"::fftn", TC+"::ifftn")
p("mean_err is a metric on same-shaped arrays and rejects others",
  "mean_err(a,b) raises for different shapes, is nonnegative, symmetric, zero iff equal and satisfies the triangle inequality.",
  "all arrays", "All arrays.", TC+"::mean_err")
p("Wavelength/wavevector conversion is order-reversing",
  "get_q_from_lambda(l1,l2) returns q_min<=q_max for 0<=l1<=l2 with the documented infinity for 0, and compute_wavevectors lists 2*pi*m/L with m in fftfreq order.",
  "all wavelengths, grids", "All values.", TC+"::get_q_from_lambda", TC+"::compute_wavevectors")
p("Factory chooses the substrate from the topography",
  "make_system without substrate builds a periodic substrate iff the topography is periodic, with the topography's grid and the given or stored physical sizes; missing sizes raise ValueError; a given substrate is used as is.",
  "all argument combinations, topographies with at least two grid points in each direction", "All combinations.", FA+"::_make_system_args")
p("Factory rejects substrates of different physical size",
  "make_system raises if a given substrate has physical sizes different from the topography's.",
  "all sizes", "Only grid counts are compared.", FA+"::make_system", SY+"::NonSmoothContactSystem.__init__")
p("Distributed Green's functions equal the serial one",
  "The part of the Green's function a process computes from the location and extent of its block of wavevectors is the corresponding part of the Green's function of a serial run, for every decomposition.",
  "all grids, materials and decompositions", "The number of decompositions is unbounded; tests run on a few.", HS+"::PeriodicFFTElasticHalfSpace._compute_greens_function")
p("evaluate never broadcasts silently",
  "PeriodicFFTElasticHalfSpace.evaluate raises for displacement arrays of a shape other than the grid, whichever of pot and forces are requested.",
  "all shapes and flags", "All shapes.", HS+"::PeriodicFFTElasticHalfSpace.evaluate")
p("The periodic substrate satisfies the solver's assumptions",
  "For every valid two-dimensional periodic substrate with positive Gamma stiffness, evaluate_disp with the sign convention of the constrained conjugate-gradient solver is a linear, symmetric, negative definite map, so that every theorem about the solver applies to it.",
  "all substrates and force fields", "A statement about all fields linking two modules.", HS+"::PeriodicFFTElasticHalfSpace.evaluate_disp", CG+"::constrained_conjugate_gradients")
p("The tabulated pixel Green's function is Boussinesq's",
  "The closed form the free half-space tabulates equals 1/(pi*E) times the double integral of 1/r over the pixel, at every grid offset, including the pixel itself where the integrand is singular.",
  "all moduli, spacings and integer offsets", "An identity between a transcendental closed form and an improper integral for all offsets.", HS+"::FreeFFTElasticHalfSpace._compute_greens_function")
p("Free half-spaces need two dimensions",
  "Constructing a one-dimensional free half-space always fails with TypeError rather than producing a wrong substrate.",
  "all grid sizes, lengths and moduli", "All argument combinations.", HS+"::FreeFFTElasticHalfSpace._compute_greens_function")
p("Boundary mask marks exactly the ring",
  "domain_boundary_mask of every process is true exactly at its points on the outermost ring of the topography grid.",
  "all grids and decompositions", "All decompositions; like check_boundaries it misses a row if a block starts exactly on it.", HS+"::FreeFFTElasticHalfSpace.domain_boundary_mask")
p("Exact solutions are fixed points of the solver",
  "Restarting the solver from the displacements (fixed offset) or from the forces (at the load they carry) of an exact solution of the contact problem succeeds in one iteration and returns the same displacements, forces and offset.",
  "all elastic substrates, topographies, masks and exact solutions", "A statement about all solutions of all problems.", CG+"::constrained_conjugate_gradients")
p("Finite termination on a fixed contact set",
  "At fixed offset, counted from an iteration that restarts the conjugate directions, the gap is exactly closed on every contact point after at most as many iterations as there are contact points, as long as the contact set does not change (exact arithmetic).",
  "all symmetric definite substrates, topographies, iterates", "Conjugacy of all search directions, an invariant of the whole history.", CG+"::constrained_conjugate_gradients")
p("Only the height of the rigid surface matters",
  "Raising the topography by c and lowering the offset by c leaves the whole calculation at fixed offset unchanged: same outcome, displacements, forces and log; the returned offset is lower by c.",
  "all substrates, topographies, offsets, options, c", "A relation between two whole runs.", CG+"::constrained_conjugate_gradients")
p("Primal and dual formulations have the same solution",
  "A gap satisfies the optimality conditions of primal_objective (gap >= 0, gradient >= 0, complementary) iff its gradient, taken as pressures, satisfies those of dual_objective; the dual gradient is then the gap, the objectives are opposite, and both are the unique global minimum of their problem.",
  "all gaps, pressures, offsets, topographies on periodic substrates with positive Gamma stiffness", "A statement about all solutions of two optimisation problems.", SY+"::NonSmoothContactSystem.primal_objective", SY+"::NonSmoothContactSystem.dual_objective")
p("Fields stored by the primal and dual proxies fit together",
  "After a successful primal_minimize_proxy or dual_minimize_proxy the stored gap is what compute_gap returns for the stored displacement and offset, the contact zone is where the gap vanishes (primal) or the pressure is positive (dual), and the normal force is the sum of the stored forces.",
  "all optimiser runs, histories and offsets", "The optimiser's trajectory is arbitrary.", SY+"::NonSmoothContactSystem.primal_minimize_proxy", SY+"::NonSmoothContactSystem.dual_minimize_proxy")
p("Command line and function choose the same steps","With the same elastic settings the automatic mode of ce_hard_wall and contact_mechanics(nsteps=n) either raise the same exception or compute the same offsets, mean pressures and areas in the same order; the command line history is that table sorted by area.",
  "all topographies, solvers and numbers of steps","All histories, including ties in the area, on which the two sort differently (incrementally or at once).", HW+"::next_step", PI+"::_next_contact_step")
p("Pressure mode writes one complete output per pressure","ce_hard_wall --pressure/--pressure-from-file writes, in order, one log line, NetCDF frame and set of map files per requested pressure, belonging to the solver's answer for that pressure; a range a,b,n has n values from a to b; different steps write different files; after an exception the previous output is complete.",
  "all pressure lists and solver behaviours","All lists.", HW+"::main")
p("Log lines are consistent","In every log line mean gap = mean elastic - mean rigid, load = mean pressure x apparent area, area = fractional area x apparent area, the fractional area lies in [0,1] and equals that of the NetCDF frame.",
  "all runs and steps","All solver results.", HW+"::dump", HW+"::dump_nc")
p("Command line arguments that cannot be honoured are refused","Unknown boundary kinds, a thickness with nonperiodic boundaries and displacements together with pressures raise ValueError before anything is computed or written; every other combination of admissible elastic constants on a grid of at least 2x2 points sets up a system.",
  "all argument combinations","All combinations.", HW+"::main")
p("set_grid changes only the part", "set_grid(name, value, x0, y0) stores the value in the part of the grid that starts at (x0, y0) and leaves every other point, frame and variable as it was.", "all grids, parts, frames and values", "All parts and contents.", NC+"::NetCDFContainerFrame.set_grid")
p("The rigid surface is stored exactly", "A surface accepted by set_rigid_surface is read back exactly by get_rigid_surface, also in single precision containers, after any later calls that do not store another surface.", "all surfaces and histories", "All histories.", NC+"::NetCDFContainer.set_rigid_surface", NC+"::NetCDFContainer.get_rigid_surface")
p("Reopened containers are the same", "A container that is closed and opened again shows the same frames, values and shape.", "all histories", "All histories.", NC+"::NetCDFContainer.__init__")
p("Opposite wavevectors are complex conjugate", "greens_function(-qx,-qy) and stiffness(-qx,-qy) are the complex conjugates of those at (qx,qy), so real loads give real displacements.", "all wavevectors and constants", "Continuous family.", IS+"::IsotropicGreensFunction")
p("Isotropy about the surface normal", "Turning the wavevector about the surface normal by any angle turns the isotropic Green's function: G(Rq) = R G(q) R^T.", "all angles, wavevectors and constants", "Continuous family.", IS+"::IsotropicGreensFunction.greens_function")
p("Vectors of wavevectors", "With vectors, entry k of the result belongs to wavevector (qx[k], qy[k]); vectors of different lengths are refused.", "all vectors", "All lengths.", IS+"::IsotropicGreensFunction.greens_function", IS+"::IsotropicGreensFunction.stiffness")
p("The isotropic Green's function solves the equations of elasticity", "The surface displacement of every elastic half-space in equilibrium under a surface traction with wavevector q, with displacements and strains that die out with depth, is given by greens_function (transposed); such a solution exists for every traction; for frictionless normal loads it is what the periodic half-space computes.", "all tractions, wavevectors and constants", "A statement about all solutions of a differential equation.", IS+"::IsotropicGreensFunction.greens_function", HS+"::PeriodicFFTElasticHalfSpace._compute_greens_function")
p("Elastic waves below the surface of a stable crystal die out", "The bulk operator of an elastically stable cubic crystal in any orientation, given by floating-point constants, is invertible for every nonzero real wavevector, and every value returned by find_eigenvalues has a positive real part.", "all stable constants, orientations and wavevectors", "Continuous family.", AN+"::AnisotropicGreensFunction.bulkop", AN+"::AnisotropicGreensFunction.find_eigenvalues")
p("Elastic constants are stored exactly", "The elastic constants of the object are the (rotated) constants that were passed, whether they are passed as integers or floats.", "all constants and rotations", "Depends on the type of the constants.", AN+"::AnisotropicGreensFunction.__init__")
p("The anisotropic Green's function is the response of the crystal", "For an infinitely thick substrate greens_function is Hermitian and (transposed) the unique response of the crystal to surface tractions; for a layer it is the response of a layer bonded to a rigid base.", "all tractions, wavevectors, stable floating-point constants", "A statement about all solutions of a differential equation.", AN+"::AnisotropicGreensFunction.greens_function", AN+"::AnisotropicGreensFunction._make_F")
p("Anisotropic stiffness and Green's function are inverse", "stiffness and greens_function are inverse to each other, for half-spaces and layers; at the zero wavevector the stiffness of a layer is that of a uniformly sheared and compressed layer.", "all wavevectors, constants, thicknesses", "Continuous family.", AN+"::AnisotropicGreensFunction.stiffness", AN+"::AnisotropicGreensFunction._gamma_stiffness")
p("Homogeneity of the anisotropic Green's function", "For an infinitely thick substrate greens_function(s*q)=greens_function(q)/s and stiffness(s*q)=s*stiffness(q) for all s>0, without cut-off.", "all scale factors and vectors of wavevectors", "Continuous family.", AN+"::AnisotropicGreensFunction.greens_function", AN+"::AnisotropicGreensFunction.stiffness")
p("Hertz fields satisfy the contact conditions", "For every penetration, with the contact radius and peak pressure of radius_and_pressure, the gap (parabola minus penetration plus surface_displacements, scaled) vanishes inside the contact radius and is positive outside, the pressure is positive inside and vanishes outside; far away the displacements decay like those of a point force carrying the load.", "all penetrations, radii, moduli, positions", "Continuous family.", HZ+"::surface_displacements", HZ+"::surface_stress", HZ+"::radius_and_pressure")
p("Hertz interior stress solves the equations of elasticity", "stress_Cartesian is the stress (Hooke's law) of a displacement field, is in equilibrium, that field vanishes far away, its surface value is surface_displacements and the tractions at the surface are the Hertz pressure; the stress is continuous below the surface, also across the axis.", "all Poisson numbers and positions", "Partial differential equations at every point.", HZ+"::stress_Cartesian")
p("Hertz tangential stress solves the equations of elasticity", "stress_for_tangential_loading is the stress of a displacement field, is in equilibrium, that field vanishes far away and the tractions at the surface are those of the tangential load with the profile of the Hertz pressure; the stress is continuous below the surface, also across the axis.", "all Poisson numbers and positions", "Partial differential equations at every point.", HZ+"::stress_for_tangential_loading")
p("Westergaard pressure has unit mean", "_pressure(x, contact_radius=a) integrates to one over a period.", "all contact radii in (0,1/2)", "Integral over a continuous family.", WE+"::_pressure")
p("Westergaard mean displacement is the mean of the displacements", "mean_displacement(a) equals the integral of displacements(x, a) over one period.", "all contact radii in (0,1/2)", "Integral over a continuous family.", WE+"::mean_displacement", WE+"::displacements")
p("Westergaard energy is the work stored by the pressure", "elastic_energy_a(a) is half the integral of pressure times displacement relative to the mean displacement.", "all contact radii in (0,1/2)", "Integral over a continuous family.", WE+"::elastic_energy_a")
p("Cone pressure has unit mean and carries the load", "pressure integrates to the contact area pi R^2; the normalized load is that of Sneddon's solution and of the normalized mean pressure times the area.", "all cone angles and penetrations", "Integral over a continuous family.", CO+"::pressure", CO+"::load_and_mean_pressure")
p("Reference solutions do not depend on the type of the positions", "Positions given as integers or as equal floating point numbers give the same fields.", "all positions", "Depends on the type of the array.", HZ+"::surface_displacements", HZ+"::surface_stress", CO+"::deformation")
p("The anisotropic Green's function is defined and positive", "For every stable cubic crystal whose surface is normal to a cube axis or to a face diagonal, turned by any angle about the normal, and every non-zero wavevector for which the three eigenvalues differ, greens_function and stiffness return (no exception), for half-spaces and layers of any positive thickness; both matrices are Hermitian and inverse to each other and every non-zero load does positive work.", "all stable floating-point constants, angles, wavevectors, thicknesses", "Continuous family; existence of a solution of a boundary value problem.", AN+"::AnisotropicGreensFunction.greens_function", AN+"::AnisotropicGreensFunction.stiffness", AN+"::AnisotropicGreensFunction.find_eigenvectors")
p("Isotropic constants are refused by the anisotropic class", "As documented, the anisotropic class does not work for isotropic constants: every call with a non-zero first wavevector raises RuntimeError; it never returns a matrix.", "all isotropic floating-point constants, rotations, thicknesses, wavevectors", "Continuous family.", AN+"::AnisotropicGreensFunction.find_eigenvectors")
p("Greenwood-Williamson integrals", "For Gaussian heights Fn(h, n) is finite and positive for every n > -1, strictly decreasing in the separation h for n > 0, and Fn(h, n+1) = n Fn(h, n-1) - h Fn(h, n).", "all separations and exponents", "Improper integral over a continuous family.", GT+"::Fn")
p("Greenwood-Tripp kernel", "s(x) increases strictly for non-negative arguments, across both cut-offs and the change of formula at one; the asymptotic expressions agree with the exact ones to 1e-10; numbers, integer vectors and float vectors are treated alike.", "all arguments", "Continuous family.", GT+"::s")
p("Inverse of the Greenwood-Tripp kernel", "s(ξ(x)) = x for all non-negative x.", "all arguments", "Continuous family.", GT+"::ξ")
p("Greenwood-Tripp solver", "If GreenwoodTripp returns, the returned pressure is exactly the asperity pressure at the returned displacement, positive, the displacement vanishes on the axis and is that of an iterate whose change in the last step was at most tol; it stops after at most maxiter+1 passes, never extrapolates, and otherwise raises RuntimeError.", "all parameters and iteration histories", "Histories of an iteration of unbounded length.", GT+"::GreenwoodTripp")
p("make_contact_system forwards its arguments", "topography.make_contact_system(*args, **kwargs) and make_plastic_contact_system behave as make_system / make_plastic_system with the topography as surface, for positional and keyword arguments.", "all argument lists", "All argument combinations.", FA+"::make_contact_system", FA+"::make_system")
p("Children of semi-periodic half-spaces", "A semi-periodic half-space can be built on every non-empty two-dimensional grid (one-dimensional grids raise IndexError); spawn_child returns one with the modulus, grid spacing, periodicity and number of images of its parent.", "all grids, flags and image counts", "All combinations.", HS+"::SemiPeriodicFFTElasticHalfSpace.__init__", HS+"::FreeFFTElasticHalfSpace.spawn_child")
p("Semi-periodic half-spaces in parallel", "A semi-periodic half-space can be constructed on several processes.", "all decompositions of all grids", "All decompositions.", HS+"::SemiPeriodicFFTElasticHalfSpace._compute_greens_function")
p("Role of the number of images", "Compressive forces move the whole surface of a semi-periodic half-space in the positive direction, more so with more images; with a periodic direction the absolute displacement exceeds every bound once there are enough images, while all differences of displacements converge, so that n_images is a convergence parameter for relative displacements only.", "all grids, flags, image counts and force fields", "A limit over unbounded image counts.", HS+"::SemiPeriodicFFTElasticHalfSpace._compute_greens_function")
p("Reported displacements are the response to the reported pressures", "Every callback of contact_mechanics -- converged or not, elastic or plastic, whichever way the steps are prescribed, even if a later step raises -- reports displacements that are exactly what the substrate answers to the reported pressures times the pixel area.", "all surfaces, arguments and steps", "All solver histories.", PI+"::contact_mechanics", CG+"::constrained_conjugate_gradients")
p("Separated surfaces", "In an elastic calculation with offsets, every offset at which no height plus offset is positive gives a converged row with zero pressure and area whose mean gap is the distance of the undeformed surfaces; if this holds for all offsets the calculation returns.", "all surfaces (at least two grid points in each direction) and offsets", "All surfaces.", PI+"::contact_mechanics", CG+"::constrained_conjugate_gradients")
p("Flat surfaces", "A flat periodic surface pressed elastically with positive pressures and at least three allowed iterations is solved: every step converges, carries exactly the pressure asked for and is in full contact; callbacks see uniform pressures p and displacements 2p/(pi(1/sx+1/sy)).", "all grids with at least two points in each direction, sizes, heights and pressures", "All sizes.", PI+"::contact_mechanics", CG+"::constrained_conjugate_gradients")
p("The solver does not depend on the numbering of grid points", "With the grid points renamed the solver takes the same iterations, ends the same way and returns the same fields under the new names; a permutation of the grid under which the substrate is invariant carries the solution for a surface to the solution for the permuted surface.", "all problems, options, permutations", "All problems and runs.", CG+"::constrained_conjugate_gradients")
p("The solver does not depend on the units", "With lengths and forces (including tolerances) measured in other units the solver takes the same iterations and every number it returns is the original one in the new units, provided the penetration tolerance is given or follows from a surface that is not flat.", "all problems, options, units", "All problems and runs.", CG+"::constrained_conjugate_gradients")
p("A moved surface gives the moved solution", "contact_mechanics on a surface that is shifted cyclically on its grid (periodic substrates), mirrored in either direction or transposed together with its lengths (periodic and nonperiodic substrates) raises the same exception or returns the same mean pressures, areas, displacements, gaps and flags, and every callback receives the shifted, mirrored or transposed fields.", "all surfaces, arguments, shifts, solver options", "A relation between two whole calculations.", PI+"::contact_mechanics", HS+"::PeriodicFFTElasticHalfSpace", HS+"::FreeFFTElasticHalfSpace")
p("The reference height of a surface does not matter", "contact_mechanics on a surface raised by c, with prescribed offsets lowered by c, gives the same mean pressures, areas, gaps and flags and displacements lower by c; with automatic steps it chooses the offsets lower by c, and with prescribed pressures it finds the offsets lower by c.", "all surfaces, heights c, arguments", "A relation between two whole calculations.", PI+"::contact_mechanics", PI+"::_next_contact_step")
p("Values at undefined points are ignored", "The solver does not depend on the values stored at undefined (masked or padded) points of the rigid surface; and, if the penetration tolerance is given, not on the statistics of the heights.", "all problems, options and values", "All values at all points.", CG+"::constrained_conjugate_gradients")
p("Calculations do not depend on the unit of length", "The same surface with all its lengths (and prescribed offsets) in another unit of length gives the same exception or the same pressures, areas and convergence flags, with displacements and gaps in the new unit; so do the callbacks.", "all surfaces, units, arguments", "A relation between two whole calculations.", PI+"::contact_mechanics", CG+"::constrained_conjugate_gradients")
p("The contact problem has a solution", "For every surface and substrate that contact_mechanics accepts there are, at every offset, compressive pressures whose displacements do not penetrate the surface and touch it wherever there is pressure; and for every positive mean pressure there is an offset with such pressures of that mean. They are unique, and the mean pressure determines the offset: a step asked of contact_mechanics has exactly one correct answer.", "all surfaces, grids, offsets and pressures", "Existence of a solution of a constrained problem.", PI+"::contact_mechanics", HS+"::PeriodicFFTElasticHalfSpace.evaluate_disp", HS+"::FreeFFTElasticHalfSpace.evaluate_disp")
p("Error bars of the reported fields", "For every callback of an elastic calculation whose pressures are not tensile, the work of the errors (reported minus exact pressures times reported minus exact displacements, on average) is at most the average of reported pressure times reported gap plus the largest penetration times the exact mean pressure; with a periodic substrate this bounds the error of the mean pressure and the mean square error of the displacements. Two calculations on the same surface differ by at most the sum of their defects. Fields without tension, penetration or pressure across an open gap are the exact solution.", "all surfaces, arguments, solver histories, converged or not", "Compares with a solution that is not computed.", PI+"::contact_mechanics", CG+"::constrained_conjugate_gradients")
p("Load-displacement curve", "Pressing deeper never lowers the exact mean pressure, and raises it whenever any pressure changes; with a periodic substrate it raises it at most at the rate of full contact, pi (1/sx + 1/sy)/2 per unit of offset.", "all surfaces and pairs of offsets", "A relation between solutions at all pairs of offsets.", PI+"::contact_mechanics", HS+"::PeriodicFFTElasticHalfSpace.evaluate_disp")
p("Nonperiodic half-spaces are positive definite", "On a nonperiodic half-space forces on the topography that are not all zero, whatever their signs, do work on the displacements they cause, so that different forces cause different displacements.", "all grids, pixel shapes, moduli and force fields", "All force fields on all grids; Love's kernel must be positive definite.", HS+"::FreeFFTElasticHalfSpace.evaluate_disp", HS+"::FreeFFTElasticHalfSpace._compute_greens_function")
p("Full contact", "In an elastic calculation with offsets on a periodic substrate, at every offset where the surface is nowhere below the undeformed substrate and the exact solution is in full contact, the calculation reports exactly this solution: converged, contact area one, no gap, mean pressure pi (1/sx + 1/sy)/2 times (mean height + offset). Every surface is in full contact at all large enough offsets.", "all surfaces and offsets", "All surfaces.", PI+"::contact_mechanics", CG+"::constrained_conjugate_gradients", HS+"::PeriodicFFTElasticHalfSpace.evaluate_force")
p("Calculations return", "contact_mechanics with at least one step, at least one allowed iteration and a known substrate returns and never raises, whatever the surface, unless it is plastic and under load control.", "all surfaces (at least two grid points in each direction), arguments and solver histories", "All runs of an iteration.", PI+"::contact_mechanics", CG+"::constrained_conjugate_gradients")
p("Units of heights on the command line", "Heights given in the unit of --height-unit and multiplied by --height-fac enter the calculation in the unit of the topography: number times length of the unit is preserved up to the factor; without --height-unit heights are multiplied by the factor; the only exception is KeyError for unknown names.", "all files, units and factors", "All combinations of options and units.", HW+"::main")
p("A stiffer substrate", "On a periodic half-space or layer or a nonperiodic half-space with c times the contact modulus the same forces cause displacements c times smaller, and (periodic) the same displacements need forces c times larger.", "all grids, sizes, materials, factors and fields", "A relation between two evaluations on every grid.", HS+"::PeriodicFFTElasticHalfSpace", HS+"::FreeFFTElasticHalfSpace")
p("Stated contact modulus", "The contact modulus that the headers of the files written by the command line state is that of the half-space that was simulated.", "all moduli, Poisson numbers and boundary conditions", "All materials.", HW+"::main", HW+"::dump", HW+"::save_pressure")
p("Command line and library agree under load control", "ce_hard_wall with pressures (and the corresponding options) takes the same steps as contact_mechanics(pressures=...), elastic or plastic: same exception, or per step the same displacement, area, mean pressure, (elastic) gap, and the same fields.", "all surfaces, pressures, solvers and histories", "A relation between two programs.", HW+"::main", PI+"::contact_mechanics")
p("Map files agree with the log", "Every map file of a step written by the command line has one entry per point of the topography; the mean of the pressure map is the mean pressure of the log line and its fraction of positive entries the fractional contact area, the mean of the displacement map the mean elastic displacement, the mean of the gap map the mean gap; fields agree with the NetCDF frame; the contact map marks the points that carry force.", "all runs, modes, solvers", "All runs.", HW+"::main", HW+"::save_contact", HW+"::dump_nc")
p("Active set of a solution", "The active set that the solver returns with a converged result is the set of points that carry force.", "all problems and runs", "All problems and runs.", CG+"::constrained_conjugate_gradients")
p("Contact of a stiffer substrate", "On a substrate c times as stiff, with external force, hardness and force tolerance c times larger, the solver raises the same exception or returns the same displacements, offset, active set and convergence flag and c times the forces.", "all surfaces, substrates, arguments, factors", "A relation between two runs of an iteration.", CG+"::constrained_conjugate_gradients", HS+"::PeriodicFFTElasticHalfSpace", HS+"::FreeFFTElasticHalfSpace")
p("The command line writes mechanical states", "In every output of every run of ce_hard_wall, converged or not, even if a later step raises, the displacements in the NetCDF frame are exactly the answer of the substrate to the forces in the frame; the forces of a converged step under load control carry the pressure asked for, which is the load recorded.", "all surfaces, options and runs", "All solver histories.", HW+"::main", HW+"::dump_nc", CG+"::constrained_conjugate_gradients")
p("Command line runs return", "With at least one allowed iteration and a known boundary condition ce_hard_wall runs to its end: twenty steps in automatic mode (elastic or plastic), one per pressure in a run under load control (elastic, or plastic with a hardness that can carry the load).", "all surfaces (at least two grid points in each direction), options and solver histories", "All runs of an iteration.", HW+"::main", CG+"::constrained_conjugate_gradients")
p("Primal and dual minimisation solve the same contact problem", "After a successful primal_minimize_proxy (over gaps) or dual_minimize_proxy (over pressures) whose result satisfies the optimality conditions, the forces and displacements of the system are the solution of the contact problem at this offset; there is exactly one, so both agree; an inexact dual result is off by no more than its violation of the conditions; both report the same contact area; both work for nonperiodic substrates.", "all surfaces, substrates, offsets, solvers and histories", "Relates two constrained minimisations over all surfaces.", SY+"::NonSmoothContactSystem.primal_minimize_proxy", SY+"::NonSmoothContactSystem.dual_minimize_proxy")
p("Objective of the displacements", "objective(offset, gradient=True) returns the energy and minus the substrate forces of the displacements on the grid of the substrate (padding included); gradient and hessian_product are exact: E(u+v) = E(u) + G.v + v.Hv/2 and G(u+v) = G(u) + Hv, with a symmetric Hessian.", "all grids, displacement fields and changes, periodic and nonperiodic", "All fields on all grids.", SY+"::NonSmoothContactSystem.objective", SY+"::NonSmoothContactSystem.hessian_product")
p("Bounded minimisation over displacements", "SystemBase.minimize_proxy(lbounds='auto') with an optimiser that keeps its promise leaves the system in the solution of the contact problem, without forces in the padding; calls it cannot serve raise and leave the system as it was; the bounds are always respected; a failed minimisation is not recorded.", "all surfaces, substrates, offsets, starts, methods", "All optimiser histories on all surfaces.", SY+"::SystemBase.minimize_proxy", SY+"::SystemBase._update_state", SY+"::SystemBase._lbounds_from_heights")
p("The solver on several processes", "constrained_conjugate_gradients called on every process with its part of the arrays and the same numbers never blocks: all processes take part in the same collective calls in the same order, and each returns its part of what a single process would return (the same numbers, iterations and flags) or raises the same exception; its callback receives its part of the fields.", "all problems, decompositions (also processes without points), arguments, numbers of iterations", "All decompositions and all interleavings; a missed collective call blocks for ever.", CG+"::constrained_conjugate_gradients")
p("Substrates on several processes", "evaluate_disp, evaluate_force, evaluate_k_disp, evaluate_k_force and evaluate_elastic_energy of a two-dimensional half-space whose grid is distributed return on every process its block of what a single process returns for the whole array (the energy: the same number); for nonperiodic half-spaces also with forces on the topography; construction succeeds on all processes where it succeeds on one.", "all grids, materials, decompositions of grid and spectrum, fields", "All decompositions of all grids.", HS+"::PeriodicFFTElasticHalfSpace.evaluate_disp", HS+"::PeriodicFFTElasticHalfSpace.evaluate_force", HS+"::FreeFFTElasticHalfSpace.evaluate_disp", HS+"::FreeFFTElasticHalfSpace._compute_greens_function")
p("Data of the whole NetCDF file", "A number or an array of the grid assigned to a name of a container is read back exactly from that name, in double precision, until something else is assigned to that name of the container; it is kept apart from the variables of the frames, and arrays of the grid are accepted whatever the number of degrees of freedom.", "all names, values and histories of calls", "All histories.", NC+"::NetCDFContainer.__setattr__", NC+"::NetCDFContainer.__getattr__", NC+"::NetCDFContainer.__getitem__")
p("The elastic surface is stored exactly", "A surface accepted by set_elastic_surface is read back exactly through get_elastic_surface after any later calls that do not store another one; what get_elastic_surface returned does not change afterwards.", "all surfaces and histories of calls", "All histories.", NC+"::NetCDFContainer.set_elastic_surface", NC+"::NetCDFContainer.get_elastic_surface")
p("Closed containers", "What a container holds when it is closed stays in the file whatever is tried on the closed object; every call on it that reads or stores data raises; closing twice is harmless; the file opened again shows the frames, variables, attributes and surfaces there were; the reported size is that of the file.", "all containers and histories of calls", "All histories.", NC+"::NetCDFContainer.close", NC+"::NetCDFContainer.get_size")
p("Objectives without gradient and with a logger", "objective(offset, gradient=False) and primal_objective(offset, gradient=False) return the energy that is returned with gradient=True, for periodic and nonperiodic substrates; with a logger every evaluation returns the same and logs one record with the energy and the total of the gradient, with or without gradient; minimize_proxy with a logger gives the same result and state as without and logs its evaluations in order; after minimize_proxy(gradient=False) the system knows its forces.", "all grids, displacement fields, offsets, loggers and optimiser histories", "Two different formulas on all grids; all histories.", SY+"::NonSmoothContactSystem.objective", SY+"::NonSmoothContactSystem.primal_objective", SY+"::NonSmoothContactSystem.logger_input", SY+"::SystemBase.minimize_proxy", HS+"::PeriodicFFTElasticHalfSpace.evaluate")
p("Plastic contacts under load", "A plastic calculation under a positive load returns, or raises because no bearing area carries the load: ValueError only if the points other than the most distant ones cannot carry it at the hardness, RuntimeError only on gaps varying by 1e18 lengths. In a run that converged while mixing forces the points reported as plastic are those that penetrate the rigid surface, and at the hardness they carry the load, up to points within the tolerances of touching. Every load below hardness times number of points can be carried.", "all surfaces, substrates, loads, hardnesses and solver histories", "All runs of an iteration with an inner root search.", CG+"::constrained_conjugate_gradients", PI+"::contact_mechanics")
p("Contact systems on several processes, contact coordinates", "minimize_proxy called on all processes never blocks and leaves on every process its blocks of the state a single process would have (or the same exception); normal force, number of contact points, contact area and relative contact area are on every process those of the whole system. After a successful minimisation compute_contact_coordinates lists exactly the grid points with repulsive force, each once, as many as compute_nb_contact_pts says, on several processes together as on one; without a result it raises like the other summaries.", "all surfaces, substrates, distributions of the grid, arguments and histories", "All distributions of all grids.", SY+"::NonSmoothContactSystem.minimize_proxy", SY+"::NonSmoothContactSystem.compute_contact_coordinates", SY+"::NonSmoothContactSystem.compute_normal_force", SY+"::NonSmoothContactSystem.compute_nb_contact_pts", SY+"::SystemBase.compute_contact_area")
p("Westergaard displacements are the elastic response to the Westergaard pressure", "For a half-space with contact modulus E* and a wave of amplitude h and wavelength lambda, every Fourier coefficient other than the mean of the pressure (mean_pressure times _pressure, in units of pi E* h/lambda) is E*|q|/2 times that of displacements (in units of 2h), the stiffness of the simulated half-space.", "all contact radii in (0,1/2), amplitudes, wavelengths, moduli and wavenumbers", "A singular integral equation for a continuous family of functions.", WE+"::displacements", WE+"::_pressure", WE+"::mean_pressure")
p("Hertz displacements are the elastic response to the Hertz pressure", "surface_displacements, in units of p0 a/E*, is at every point of the surface (inside and outside the contact) minus the displacement that Boussinesq's solution gives for the pressure p0 sqrt(1-r^2/a^2); for the pressure that surface_stress returns, which is replaced by p0 within 1e-6 contact radii of the axis, up to 2e-18 units.", "all radii, penetrations, moduli and surface points", "A singular double integral at every point.", HZ+"::surface_displacements", HZ+"::surface_stress", HZ+"::max_pressure__penetration")
p("Cone displacements are the elastic response to the cone pressure", "For a cone pressed D deep into a half-space of contact modulus E, Boussinesq's displacement under the pressure of pressure and load_and_mean_pressure is Sneddon's solution at every point; at distances that include the contact radius, deformation returns exactly this response in units of D.", "all cone angles, penetrations, moduli and surface points", "A singular double integral at every point.", CO+"::deformation", CO+"::pressure", CO+"::load_and_mean_pressure")
p("The number of simulated periods does not matter", "Simulating k by l periods of a periodic surface instead of one, with the load multiplied by k l (or at the same offset), gives the result of one period repeated: the substrate answers repeated forces (displacements) with the repeated displacements (forces), the exact solution is the repeated one, and the solver with a given penetration tolerance takes the same iterations and raises the same exception or returns the repeated forces, displacements and plastic flags with the same offset and success flag.", "all grids, sizes, materials, numbers of periods, surfaces, fields and solver histories", "A relation between runs on grids of different sizes, for all sizes.", HS+"::PeriodicFFTElasticHalfSpace", CG+"::constrained_conjugate_gradients", PI+"::contact_mechanics")
p("Numbers in logs", "A log written by Logger.st and read by read_convergence_log gives back the names, and in every row integers exactly and real numbers up to half a unit of the thirteenth significant digit, with their sign and in their order; columns of real numbers stay twenty characters wide for exponents of up to three digits. (Names and strings without blanks, #, : and repetitions, C72.)", "all numbers and histories of records and messages", "All real numbers; all histories.", LG+"::hdrfmt_str", LG+"::numfmt_str", LG+"::Logger.st", LG+"::read_convergence_log")
p("Numbers in map files", "Reading a map file as a table of numbers (comments begin with #) gives the rows and columns of the map: pressures, gaps and displacements up to half a unit of the nineteenth digit, so that every double is recovered exactly, and contact maps exactly; whatever version, command line, unit and data stand in the header.", "all fields, headers, units", "All numbers and texts.", HW+"::save_pressure", HW+"::save_gap", HW+"::save_contact")
p("Data in the headers of map files", "Every macroscopic datum in the header of a map file can be read: a line of the header reads name = number.", "all data, units and texts", "All numbers and texts.", HW+"::save_pressure", HW+"::save_gap", HW+"::save_contact", HW+"::dump")
p("Discretisation error of the nonperiodic half-space", "For a pressure on the simulated part of the surface, the displacements evaluate_disp returns for its values at the grid points (times the pixel area) differ from the displacements of the continuous half-space (Boussinesq) at every grid point by at most 2 w D/E, w the variation of the pressure within a pixel, D the diagonal of the surface, E the contact modulus; for continuous pressures the error vanishes as the grid is refined.", "all pressures, grids, sizes and moduli", "A limit, and singular integrals of all functions.", HS+"::FreeFFTElasticHalfSpace.evaluate_disp", HS+"::FreeFFTElasticHalfSpace._compute_greens_function")
p("Hertz contacts are reproduced by the simulated half-space", "Given the pressure of surface_stress at the grid points, a nonperiodic half-space answers at every grid point with the displacements of surface_displacements up to 2 D (sqrt(pixel diagonal / contact radius) + 1e-12) p0/E plus 2e-18 contact radii times p0/E, which vanishes as the grid is refined but for the cut-off near the axis.", "all radii, penetrations, moduli, grids, positions of the sphere", "A limit over grids; continuous families.", HS+"::FreeFFTElasticHalfSpace.evaluate_disp", HZ+"::surface_displacements", HZ+"::surface_stress")
p("Indentation of a sphere follows Hertz' law", "A sphere pressed into the nonperiodic half-space of contact_mechanics, its contact circle inside the simulated surface: as the grid is refined and the tolerance shrinks, the load at a given offset converges to normal_load, the displacements in the mean square to surface_displacements, and the offset under a given load to penetration; for the exact solution on the grid and for every step of a calculation whose reported fields satisfy the contact conditions within the tolerance. The same holds for every rigid surface for which the continuous half-space has continuous solutions at neighbouring offsets.", "all radii, offsets, loads, positions, sizes, grids, solver histories", "A limit over grids of all sizes.", PI+"::contact_mechanics", HS+"::FreeFFTElasticHalfSpace.evaluate_disp", HZ+"::normal_load", HZ+"::penetration", HZ+"::surface_displacements")

p("What is typed on the command line is what the program uses", "For options written as --name=value or --name value, with names in full or shortened to a beginning no other option has, in any order, before and behind the file name, ce_hard_wall uses the value given for every option (the last one if repeated) and the documented default of every other one; order and form do not matter. Words that are no option, options without a proper value, missing or surplus file names end the program at once, with nothing computed or written.", "all command lines", "All sequences of words.", HW+"::main", HW+"::tuple2")
p("Results of a command line run belong to what was typed", "A command line with an accepted set of options runs exactly the calculation it describes: the surface in the file with the sizes and height factor given, on a half-space with the constants given, with the tolerance, iteration limit, hardness and map files given. With pressures p or a,b,n or those of a file it runs to the end, one step per pressure, and the k-th NetCDF frame records the k-th pressure as its load.", "all command lines, surfaces, numbers of steps", "All sequences of words, all surfaces, all runs of the solver.", HW+"::main", HW+"::tuple2", HW+"::dump_nc")

p("Discretisation error of the periodic substrate", "For a pressure on the periodic cell that is a sum of plane waves with summable amplitudes, evaluate_disp of its values at the grid points (times the pixel area) differs at every grid point from the displacement of the continuous substrate (E* q/2 per wave, times the layer's factor) by at most twice the largest compliance times the sum of the amplitudes of the waves with less than two points per period; pressures made of resolved waves are answered exactly; the error vanishes as the grid is refined.", "all spectra, grids, sizes, half-spaces, layers, stiffnesses of the uniform field", "A limit over grids; all fields.", HS+"::PeriodicFFTElasticHalfSpace.evaluate_disp", HS+"::PeriodicFFTElasticHalfSpace._compute_surface_stiffness")
p("Line pressures on the periodic substrate", "If the continuous substrate answers a continuous periodic line pressure with a continuous displacement (Fourier coefficient by Fourier coefficient, no summability), the displacements evaluate_disp returns for its values at the grid points converge to this displacement, uniformly over the grid points, as the grid is refined along x, whatever the number of points along y.", "all continuous line pressures, grids, sizes, half-spaces, layers", "A limit over grids; all functions.", HS+"::PeriodicFFTElasticHalfSpace.evaluate_disp", HS+"::PeriodicFFTElasticHalfSpace._compute_surface_stiffness")

p("Contact with a sine wave follows Westergaard's solution", "A sine wave whose wavelength is the length of the periodic substrate of contact_mechanics: at the offset that belongs to a contact radius (mean_displacement, plus the displacement of the uniform mean pressure), as the grid is refined along the wave and the tolerance shrinks, the mean pressure converges to mean_pressure and the displacements in the mean square to displacements; pressed with a mean pressure, the offset converges to that of contact_radius of this pressure; for every step of a calculation whose reported fields satisfy the contact conditions within the tolerance. The same holds for every profile for which the continuous periodic half-space has continuous solutions at neighbouring offsets.", "all amplitudes, sizes, contact radii in (0,1/2), pressures below full contact, grids, solver histories", "A limit over grids of all sizes.", PI+"::contact_mechanics", HS+"::PeriodicFFTElasticHalfSpace.evaluate_disp", WE+"::displacements", WE+"::mean_displacement", WE+"::mean_pressure", WE+"::contact_radius")

p("Energies of one-dimensional substrates, plane strain", "For line contacts the energy evaluated in real space (with forces) equals that from the half spectrum, is minus half the work of the forces on the displacements, is not negative and zero only for the undeformed line (if the uniform field has a positive stiffness), and has minus the forces as gradient; moving the forces along the line moves the displacements, and conversely. A two-dimensional half-space of the same length, modulus and stiffness of the uniform field (by default: if it is square) answers fields that do not vary across it like the line, forces of the line counted per width of a grid point.", "all numbers of grid points of either parity, sizes, materials, fields", "All grids and fields.", HS+"::PeriodicFFTElasticHalfSpace.evaluate", HS+"::PeriodicFFTElasticHalfSpace.evaluate_force", HS+"::PeriodicFFTElasticHalfSpace.evaluate_disp", HS+"::PeriodicFFTElasticHalfSpace._compute_surface_stiffness")

p("Contact systems on one-dimensional substrates", "For systems on lines, as for two-dimensional ones: primal and dual objective are the energies they are meant to be, with exact gradients and Hessian products; for admissible gaps and pressures their sum is not negative and vanishes exactly for compatible complementary pairs; points satisfying the optimality conditions are unique global minima and primal and dual ones belong to each other; the problem has a solution at every offset; evaluate_disp is linear, reciprocal and definite, as the theorems on the solver assume.", "all lines, heights, offsets, gaps, pressures", "All grids and fields.", SY+"::NonSmoothContactSystem.primal_objective", SY+"::NonSmoothContactSystem.dual_objective", SY+"::NonSmoothContactSystem.primal_hessian_product", SY+"::NonSmoothContactSystem.dual_hessian_product", HS+"::PeriodicFFTElasticHalfSpace.evaluate_disp")

p("Periodic contacts converge to the continuum", "For every rigid periodic surface whose contact with the continuous periodic half-space (every plane wave answered with its stiffness, uniform field with the default stiffness) has a continuous solution at an offset: as the grid is refined in both directions and the tolerance shrinks, simulated contacts on a periodic substrate at this offset have loads that converge to the continuous load, displacements that converge in the mean square and pressures that converge weakly; pressed with the load, the offset converges to the continuous one; this holds for every step of a calculation whose reported fields satisfy the contact conditions within the tolerance. The continuous solution at an offset is unique, and a positive load determines the offset.", "all surfaces with a continuous solution, sizes, offsets, grids, tolerances, solver histories", "A limit over grids of all sizes.", PI+"::contact_mechanics", HS+"::PeriodicFFTElasticHalfSpace.evaluate_disp", HS+"::PeriodicFFTElasticHalfSpace._compute_surface_stiffness")

p("Nonperiodic contacts converge to the continuum", "For every rigid surface whose contact with the continuous half-space (Boussinesq) has a continuous solution at an offset, its contact inside the simulated surface: as the grid is refined and the tolerance shrinks, simulated contacts on a nonperiodic substrate at this offset have loads that converge to the continuous load, displacements that converge in the mean square, and pressures that converge weakly; pressed with the load, if it is positive, the offset converges to the continuous one; this holds for every step of a calculation whose reported fields satisfy the contact conditions within the tolerance. In the continuum there is at most one continuous solution at an offset, and a positive load determines the offset and the pressures.", "all surfaces, offsets, sizes, grids, solver histories", "A limit over grids; all surfaces.", HS+"::FreeFFTElasticHalfSpace.evaluate_disp", HS+"::FreeFFTElasticHalfSpace._compute_greens_function", PI+"::contact_mechanics", CG+"::constrained_conjugate_gradients")

p("Command line runs converge to the continuum of the material given", "For every elastic run of ce_hard_wall on a half-space of Young's modulus Y and Poisson number nu, periodic or nonperiodic: as the grid is refined and the tolerance shrinks, a written step whose displacements and forces satisfy the contact conditions within the tolerance, at the offset of a continuous solution of the contact with the continuous half-space of this material (contact modulus Y/(1-nu^2)), has in the log the load of the continuous contact, in the NetCDF frame its displacements (in the mean square) and its forces (weakly); if the load in the log is, up to the tolerance, the positive load of the continuous contact, the offset in the frame converges to that of the continuous contact as well.", "all surfaces with a continuous solution, materials, sizes, offsets, loads, grids, modes of operation, solver histories", "A limit over grids; all surfaces and materials.", HW+"::main", HW+"::next_step", HW+"::dump_nc", HS+"::PeriodicFFTElasticHalfSpace.evaluate_disp", HS+"::FreeFFTElasticHalfSpace.evaluate_disp", CG+"::constrained_conjugate_gradients")

p("Arrays given to and taken from the solver",
  "constrained_conjugate_gradients writes into no array that existed before the call, in particular not into initial_displacements and initial_forces, even if its callback writes into the array it is given; with a callback that only reads, every call shows the forces of that iteration, and the arrays x and jac of the result are new, different from one another and from every array the callback was given.",
  "all problems, options, memories, callbacks", "Aliasing over all histories of iterations and all callbacks.", CG+"::constrained_conjugate_gradients")
p("Arrays kept from the solver's callback keep what they held",
  "An array that the callback of constrained_conjugate_gradients keeps holds the forces of that iteration, and what the callback does with it does not change the calculation.",
  "all problems, options, callbacks", "Aliasing over all histories of iterations.", CG+"::constrained_conjugate_gradients")
p("Calculations can be extended",
  "A calculation of contact_mechanics that asks for further offsets, further pressures or a larger number of automatic steps begins with the steps of the shorter one: if it returns, the shorter one returns the first entries of all five arrays and makes the first calls of the callback; if the shorter one raises, the longer one raises the same exception after the same calls. This holds for elastic and plastic calculations.",
  "all surfaces, arguments, lists, solver behaviours", "A relation between all pairs of calls; histories of any length.", PI+"::contact_mechanics", PI+"::_next_contact_step")
p("Logged lines survive a crash",
  "If the process dies at any point, even in the middle of a call, every log file is found with all lines that completed calls of pr, warn and st printed to it, complete and in order, followed at most by part of the lines of later calls. (Provided no call named an existing file to be overwritten and no file was set while lines waited for one; once a line has been logged to a file, all lines of the file are safe in any case.)",
  "all histories of calls, all crash points, all file systems", "All crash points of all histories.", LG+"::Logger.flush", LG+"::Logger.pr", LG+"::Logger.st", LG+"::Logger._print")
p("Lines that waited for a log file survive a crash",
  "Lines logged before a log file was set are in the file when set_logfile has returned, even if the process dies then.",
  "all histories of calls, all crash points", "All crash points.", LG+"::Logger.set_logfile")
p("Command line runs can be extended",
  "ce_hard_wall with the pressures of a file: a run with further pressures at the end of the file writes, step by step, first what the run without them writes (log line, NetCDF frame, map files; a run with one pressure names its map files without number), then the further steps; if the shorter run raises, the longer one raises the same exception after the same output.",
  "all surfaces, options, lists of pressures, solver behaviours", "A relation between all pairs of runs; histories of any length.", HW+"::main")
p("Rounding errors cannot break the solver's exact guarantees",
  "constrained_conjugate_gradients computed with floating point numbers (any monotone rounding after each operation, any order of summation): forces are exactly zero outside the topography, in the result and in every callback; the displacements returned are, bit for bit, the substrate's response to the forces returned; the offset returned at fixed offset is the given one; iterations, evaluations and callbacks are counted as in exact arithmetic; where exact arithmetic guarantees forces that are not tensile or not above the hardness (see C37, C38), floating point arithmetic does too. Exact arithmetic is the special case without rounding.",
  "all problems, options, substrates, roundings, orders of summation", "Rounding errors accumulate over histories of any length.", CG+"::constrained_conjugate_gradients")
p("Rounding errors shift the solver's converged quantities by bounded amounts",
  "In floating point arithmetic with relative error eps per operation, absolute error eta on underflow and summation error delta: if the solver reports success under load control, the exact sum of the returned forces differs from the prescribed load by no more than the tolerance plus an explicit bound in eps, eta, delta; without hardness and underflow, and if the last iteration added no contact points, it lies between (1-eps)^2/(1+delta) and (1+eps)^2/(1-delta) times the load even without convergence; and where C35 guarantees a penetration below pentol, it is below pentol plus an explicit bound proportional to the numbers compared, whatever the number of iterations.",
  "all problems, options, substrates, roundings, numbers of iterations", "Rounding errors accumulate over histories of any length.", CG+"::constrained_conjugate_gradients")
p("A reported success contains no nan",
  "If constrained_conjugate_gradients reports success, the displacements, forces and energy it returns contain no nan, whatever the arguments; if the last iteration was no mixing step (always so without hardness), the heights and the offset contain none either. If no argument is nan and the substrate turns numbers into numbers, no nan arises during the calculation.",
  "all problems, options, positions of nan in heights, offset, forces, displacements, tolerances; substrates that do not lose nan", "nan propagates through histories of any length; comparisons with nan are false.", CG+"::constrained_conjugate_gradients")
p("A plastic calculation with nan heights or offset does not succeed",
  "constrained_conjugate_gradients with a hardness does not report success if the heights or the prescribed offset are nan.",
  "all problems, options", "nan propagates through histories of any length.", CG+"::constrained_conjugate_gradients")
p("nan in an elastic calculation raises",
  "constrained_conjugate_gradients without hardness raises RuntimeError within three iterations if the heights, the prescribed offset, the external force, the initial displacements or the initial forces contain a nan; it never runs on with nan until maxiter.",
  "all problems, options, positions of nan; substrates that spread nan, as a Fourier transform does", "nan propagates through comparisons, masks and sums; the code resets G to zero in some of these states, and hides the nan from its test for nan.", CG+"::constrained_conjugate_gradients")
p("Files of the command line show what converged",
  "The files ce_hard_wall writes (log, NetCDF container, map files) tell steps that converged from steps that did not.",
  "all surfaces, options, solver behaviours", "A relation between all pairs of runs; histories of any length.", HW+"::main", HW+"::dump", HW+"::dump_nc")
p("Automatic plastic steps are calculations of the undeformed surface",
  "In automatic mode, contact_mechanics and ce_hard_wall with a hardness compute every step for the undeformed surface: the output does not depend on what the solver does with a surface deformed in an earlier step (the steps are not in the order of the loads).",
  "all surfaces, options, solver behaviours", "Plastic deformation over all histories of steps.", PI+"::_next_contact_step", HW+"::next_step", PL+"::PlasticNonSmoothContactSystem.minimize_proxy")
p("Synchronised frames survive a crash",
  "What can be read of a frame of a NetCDF container when sync is called is read from the file after a crash, up to the storage type of a value written, whatever is done between sync and the crash as long as that frame of that variable is not written again. A crash right after sync loses nothing. Once the grid shape is set, the file can be opened with that shape after a crash.",
  "all histories of calls before and after sync, all crash points, all mixtures of old and new entries on disk", "All crash points and partial writes.", NC+"::NetCDFContainer.sync", NC+"::NetCDFContainerFrame.sync", NC+"::NetCDFContainer._define_file_structure")
p("Frames of completed command line steps survive a crash",
  "When the command line is killed, the NetCDF file contains the frames of the steps whose output (log line, maps) was complete.",
  "all runs, all crash points", "All crash points.", HW+"::dump_nc", HW+"::main", NC+"::NetCDFContainer.sync")
p("A minimisation is returned whatever the method",
  "SystemBase.minimize_proxy(offset, method=...) returns the result of the optimiser, with the optimised displacements on the grid, for every method of scipy.optimize.minimize, also for those that do not know a gradient; the system then has these displacements, their elastic forces and the offset.",
  "all systems on periodic and nonperiodic half-spaces, methods, starts, bounds, results of the optimiser", "All methods and results.", SY+"::SystemBase.minimize_proxy", SY+"::SystemBase._update_state")
p("Plastic contacts do not depend on the number of processes",
  "Plastic calculations on a grid distributed among processes give what a single process gives: from surfaces and systems that hold the blocks of the grid, every minimize_proxy ends on all processes with the blocks of the same result, or the same exception, and surfaces and systems hold the blocks of the new heights and fields; so over any sequence of calculations the height of every point is the one the last successful calculation that flagged it pressed it to.",
  "all distributions of the grid (also processes without points), surfaces, substrates, arguments, numbers of calculations", "All distributions, schedules and histories.", PL+"::PlasticNonSmoothContactSystem.minimize_proxy", SY+"::NonSmoothContactSystem.minimize_proxy", SY+"::SystemBase.compute_gap", CG+"::constrained_conjugate_gradients")
p("Trajectories in the AMBER convention",
  "A trajectory in the AMBER convention whose number of atoms is a square can be opened whatever library is installed; frame.u and frame.f of every frame are coordinates and forces of the atoms, row by row on the grid; what was read can be written again, all variables can be read, frames can be counted from the end.",
  "all trajectories, frames, variables, arrays, both libraries", "All files and arrays.", NC+"::NetCDFContainer.__init__", NC+"::NetCDFContainerFrame._mangle_name", NC+"::NetCDFContainerFrame.__getattr__", NC+"::NetCDFContainerFrame.__setattr__")
p("The mean gap of the table is the mean of the gap field",
  "The mean gap contact_mechanics returns for a step and the gap field its callback receives for that step agree: the mean of the field is at least the mean gap, and exceeds it by no more than the deepest penetration the solver left; without penetration they are equal.",
  "all surfaces, numbers of steps, lists of offsets or pressures, substrates, elastic and plastic, solver behaviours", "Sums over grids of any size and any history of steps; all solver behaviours.", PI+"::_contact_calculation", PI+"::contact_mechanics")
p("Map files stay as written",
  "Every map ce_hard_wall writes is found in its file when the run is over, also when it ends with an exception, and other files are untouched; when the process dies in the middle, all maps of completed steps are complete. The map files found after a run belong to that run.",
  "all runs, contents of the directory before, crash points, sequences of runs", "All histories and crash points; a statement about names of any number of files.", HW+"::main", HW+"::save_contact", HW+"::save_pressure", HW+"::save_gap")
p("Plastic systems of the factory respect the hardness",
  "In a system built by make_plastic_system, with or without physical_sizes, no pressure of a result exceeds the hardness of the surface when the solver keeps its forces below the hardness it is given.",
  "all surfaces, hardnesses, physical sizes, solver behaviours", "Two conversions between force and pressure have to agree for all sizes.", FA+"::make_plastic_system", FA+"::_make_system_args", PL+"::PlasticNonSmoothContactSystem.minimize_proxy")
p("What a half-space remembers of its calculations",
  "After compute(disp, pot, forces) the substrate's energy and force are those of evaluate for these displacements, present iff asked for; after compute_k its energy and force_k are those of evaluate_k. Refused calculations change nothing. check() without argument judges the forces of the last calculation: it raises FreeBoundaryError iff one of them on the boundary of the domain is not zero. Energy and forces stored belong to the same displacements.",
  "all half-spaces, all histories of calculations in real and Fourier space, all flags", "All histories of calls.", "ContactMechanics/Substrates.py::ElasticSubstrate.compute", "ContactMechanics/Substrates.py::ElasticSubstrate.compute_k", HS+"::PeriodicFFTElasticHalfSpace.evaluate_k", HS+"::FreeFFTElasticHalfSpace.check", HS+"::FreeFFTElasticHalfSpace.check_boundaries")
p("Semi-periodic half-spaces: superposition, material, units",
  "Displacements of a semi-periodic half-space superpose; with c times the contact modulus the same forces cause displacements smaller by the factor c; with l times the lengths, smaller by the factor l. A number of images that is accepted gives a half-space that forces displace.",
  "all grids, sizes, periodicities, numbers of images, forces, factors", "Sums over grids and images of any number.", HS+"::SemiPeriodicFFTElasticHalfSpace.__init__", HS+"::SemiPeriodicFFTElasticHalfSpace._compute_greens_function", HS+"::SemiPeriodicFFTElasticHalfSpace.evaluate_disp")
p("The boundary check of semi-periodic half-spaces",
  "On a semi-periodic half-space with check_boundaries=True, check(force) raises FreeBoundaryError iff a force next to the end of a nonperiodic direction is not zero.",
  "all grids, periodicities, force fields", "All force fields and grids.", HS+"::SemiPeriodicFFTElasticHalfSpace.__init__", HS+"::FreeFFTElasticHalfSpace.check_boundaries", HS+"::FreeFFTElasticHalfSpace.check")
if __name__=="__main__":
    out=os.path.join(os.path.dirname(os.path.abspath(__file__)),"..","properties.jsonl")
    with open(out,"w") as f:
        for x in P: f.write(json.dumps(x,ensure_ascii=False)+"\n")
    for x in P: print(x["id"],x["title"])
