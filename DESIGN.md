# Design of the formal model of ContactMechanics

## 1. What this is

`/verif/lean` is a Lean 4 + Mathlib project with a hand-written model of the Python package
`/repo/ContactMechanics`.

* `Verif/Model/*` -- the model: one definition per Python function or code block, each with a comment
  citing the file and lines it models and the simplifications made.  Python exceptions are values
  (`Except PyErr`), so that "raises `ValueError`" is a statement about the result.
* `Verif/Spec/*` -- the small specifications used in statements.  They do not mention the model's
  helpers (exception: they may name the model's record types and array type).
* `Verif/Lemmas/*` -- mathematical facts (orthogonality of characters, folding of half spectra, ...).
* `Verif/Props/*` -- the property theorems `Cnn_*`; next to them `example`s that meet their
  hypotheses with concrete, non-trivial values.
* `properties.jsonl` -- the properties in English; `MANIFEST.json` -- property -> theorems, status, note.
* `seeded/LOG.jsonl` -- the wrong programs tried against the theorems (written by `tools/mutate.py`,
  which edits a scratch copy of the model and rebuilds).

If the code does **not** have a property, the claim is `partial`, its note says `REFUTED`, and the
theorem is the negation, for all inputs to which it extends and with a concrete witness, together with
the strongest true variant (suffix `_partial`).

## 2. Trusted base

* The Lean 4.33.0 kernel; axioms `propext`, `Classical.choice`, `Quot.sound` (Mathlib's usual three).
  No own axioms and no compiled-evaluation tactics.  `decide +kernel` occurs only for closed concrete
  counterexamples and examples (kernel reduction).
* The correspondence between model and Python, which is by reading: no Python is executed.

### Idealisations that apply everywhere

* Floating-point numbers are exact reals (in the solver: an arbitrary linearly ordered field with an
  abstract square root).  Rounding is modelled for the solver `constrained_conjugate_gradients` only (C208, C209); elsewhere rounding, and everywhere overflow and signed zeros, are not modelled.  Division by zero is
  explicit wherever the code can reach it: a Python `ZeroDivisionError` is an error value; a NumPy
  `nan` is a value of the model for the solver (C210-C212); elsewhere `nan`/`inf` is either an explicit value of the model or excluded by a hypothesis named in the theorem.
* Integer truncation when NumPy writes into integer arrays *is* modelled (C75, C96, C125, C136, C140).
* `muGrid`'s FFT engine by its contract: the forward r2c transform stores the half spectrum `nx//2+1`
  along axis 0, the backward c2r transform reads only that half, counts interior rows twice and divides
  by `nx*ny` (`Model/FFT`, `Model/HalfSpace`).
* MPI: a family of disjoint boxes covering the global index set; reductions are finite sums, maxima and
  conjunctions over the family.  Collective calls are atomic and reliable; deadlocks (a process waits in
  a call that another one never enters) are modelled for the solver (C174); messages and process failure
  are not modelled.
* SciPy (`quad`, `ellipk`, `ellipe`, `simpson`, `interp1d`, `bisect`, bound-constrained minimisers),
  NumPy/LAPACK (`roots`, `null_space`, `solve`, `inv`, `argsort`), SurfaceTopography (readers, writers,
  `rms_height`), netCDF4, pandas, the file system: each by the part of its documented contract the
  code uses, either as a function argument with hypotheses or as a small state machine.
  `lapack_exists` (C137) shows that the hypotheses on LAPACK can be met.

### Not modelled

Plotting, timers, the texts of help messages and exit codes; `fftengine` and `communicator` arguments; the
parallel NetCDF path beyond disjoint part-writes (C117); Amber trajectories beyond C219;
the bound-constrained minimisers themselves (only objective, gradient, bounds and what the proxies do
with a result); `/repo` tests, examples and build scripts.

## 3. Files of the model

| Model file | Python |
|---|---|
| `Model/Py`, `Model/Array` | exceptions; NumPy arrays (`shape` + entries), broadcasting, reshape, max/min/mean |
| `Model/FFT` | r2c/c2r contract of muGrid, MPI blocks |
| `Model/HalfSpace` | `FFTElasticHalfSpace.py`: `PeriodicFFTElasticHalfSpace` (1D and 2D, layer, Gamma point, energies, parallel blocks) |
| `Model/FreeHalfSpace` | class `FreeFFTElasticHalfSpace` (padding, Love's kernel, boundary check, mask, children) |
| `Model/SemiPeriodic` | class `SemiPeriodicFFTElasticHalfSpace` |
| `Model/ParallelSubstrate` | periodic (2D) and free half-spaces on several processes: blocks of Green's functions, evaluations, energy |
| `Model/CCG` | `Optimization/ConstrainedConjugateGradients.py`: initialisation, one iteration, loop, result |
| `Model/ParallelCCG` | the same as the program every process runs: all collective calls in order, local computations on the local part |
| `Model/ParallelSystems` | `NonSmoothContactSystem` on several processes (constructor, `minimize_proxy`, normal force, contact points and areas), `compute_contact_coordinates` |
| `Model/Bisect` | SciPy's `bisect` with its defaults, as called by the solver (used in C180; elsewhere the bisection is a parameter) |
| `Model/SystemsBase`, `Model/SystemsLogged` | `SystemBase.minimize_proxy`, `_update_state`; arguments `gradient` and `logger`, `logger_input` |
| `Model/Systems` | `Systems.py`, `PlasticSystemSpecialisations.py` |
| `Model/Pipeline` | `PipelineFunction.py` (`contact_mechanics`), over an abstract solver |
| `Model/EndToEnd` | the same with `NonSmoothContactSystem.minimize_proxy` and the CCG solver plugged in; `optimizer_kwargs` (`forcetol`, `thermotol`, `mixfac`, `mixdecfac`, `minmixsteps`) are an argument |
| `Model/CLI`, `Model/CLIRun` | `CommandLineInterface/HardWall.py`: modes, steps, files; units, stated modulus, run with the package's own solver |
| `Model/CLIText` | the same from the words typed on: option table, `argparse`, `tuple2`, surface, `main` |
| `Model/MapDisk` | the map files of a command line run on disk, killed processes |
| `Model/Factory` | `Factory.py` |
| `Model/FactoryPlastic` | `make_plastic_system` |
| `Model/SubstrateState` | `ElasticSubstrate.compute`, `compute_k`, `check` without argument and of semi-periodic half-spaces |
| `Model/Logger`, `Model/NetCDF`, `Model/NetCDFContainer` | `Tools/Logger.py`, `IO/NetCDF.py` (frames; data of the whole file, closing) |
| `Model/Numbers`, `Model/MapFiles` | texts of numbers (`str`, `{:>8}`, `{:>20.12e}`, `%.18e`), `np.savetxt` as called by `save_contact`, `save_pressure`, `save_gap` |
| `Model/Tools` | `Tools/common.py` and the Fourier/gradient helpers |
| `Model/Greens` | `GreensFunctions/Isotropic.py`, `GreensFunctions/Anisotropic.py` |
| `Model/Reference` | `ReferenceSolutions/Hertz.py`, `Westergaard.py`, `Cone.py` |
| `Model/GreenwoodTripp` | `ReferenceSolutions/GreenwoodTripp.py` |

## 4. What is modelled and how it is proved, per property

Periodic half-space (fields on an `nx x ny` grid, all `nx, ny`, all material parameters admitted by the constructor):

* C01 linearity of rfft -> multiply -> irfft by sum manipulation.  C02 orthogonality of characters, folding of Hermitian half-spectrum sums, `K*G = 1`; up to the mean if the Gamma stiffness is zero.
* C03 convolution with an even real kernel.  C04 Parseval on the half spectrum, positivity of the stiffness.  C05/C06 Parseval with row weights; sums over the boxes of a tiling.
* C07 shift theorem.  C08/C09 explicit eigenfunctions.  C10-C12 real analysis of the layer factor (monotonicity, limits).
* C13, C16 total constructor/guards with exceptions as values, case analysis.  C14 scaling.  C15 quadratic expansion.
* C17 (refuted in 1D), C18 (last part refuted), 1D instance of the same lemmas.  C102 per-block formula equals the global one; refuted for thin first blocks.  C103 guards of `evaluate`.  C104 packages C01-C04 as the hypothesis of the solver theorems.

Free and semi-periodic half-spaces:

* C19 zero-padding theorem; C105 Love's expression is the integral of Boussinesq's kernel over a pixel (fundamental theorem of calculus in two variables).  C20-C22 corollaries; positivity of the integral.
* C23, C24, C107 index arithmetic over all decompositions (C23, C107 refuted for blocks that begin at the last row).  C25, C26, C106 case analysis.  C27 pseudo-inverse of spectral multipliers.
* C28-C31, C144-C146: the kernel with images as a finite sum, same lemmas with padded size `2n-1`; C30 is index arithmetic of `argsort`; C146 monotone and unbounded in the number of images (comparison with the harmonic series), differences converge (opposite images pair up to second differences, summable over the lattice).
* C175 (`Props/ParallelSubstrate`): every process holds a block of the serial spectrum (C102); the array put together from blocks of a tiling is the array.  Supplies the contract of the substrate calls that C174 assumes.

Constrained conjugate gradients (`Model/CCG`, generic finite index type, ordered field, every input and every number of iterations):

* C32, C33, C37-C39, C41: invariants by induction over iterations.  C34-C36, C43: analysis of the convergence test.  C35-C38 and C40, C46, C47 are false of the code: general or kernel-checked counterexamples, and the variants that hold.
* C42, C44, C45, C108: direct computation, quadratic along a line, KKT conditions of a convex quadratic programme.  C109 finite termination of conjugate gradients on a fixed contact set (conjugacy invariant).
* C110 (rigid shift), C149 (flat surface under load), C150 (renumbering of the grid points and symmetries), C151 (units), C154 (values at undefined points): simulation relation between two runs of the same loop.
* C174 (`Props/ParallelCCG`, `Props/ParallelCCG2`): big-step execution of all processes, which leave collective calls together; a blocked execution has no outcome.  Simulation with the serial loop by induction over the iterations: every reduction of the parts is the reduction of the whole.

Systems:

* C48-C51, C111: quadratic forms with self-adjoint substrate operators, duality.  C52, C57, C58, C112: state machine over all histories of calls (C52 refuted for two of the three solvers).  C53-C56: counting, reshaping, guards (C54, C56 refuted in part).

Pipeline and command line:

* C59-C63, C65: fold over the steps with an abstract solver, induction on the steps; C62 arithmetic of the largest area gap.  C64, C147, C148, C149: the pipeline with the real solver and substrate plugged in.  C152, C153: simulation relation between two whole calculations (`Spec/Symmetry`), the substrates being convolutions on tori that the moves preserve; C153 refuted for automatic steps; under load control (`Props/Symmetry4`) the exact solution is unchanged, two calculations differ at most by their defects (C157), an identity is refuted.  C155 (unit of length): the same kind of simulation (`Spec/Scale`) on top of the scaling of the kernels and of C151; refuted for the built-in absolute tolerances.  C66, C67 refuted.  C113-C116: text of files, names, argument checks.

Logger, NetCDF:

* C68-C73: logger as a state machine over a file system (map from names to texts), rendering and parsing of lines; C71 refuted, C69, C72, C73 refuted in part.  C74-C78 (`Props/NetCDF7` with `Spec/IntText` for complete reading of selectors), C117-C119, C176-C178: container as a map from names to typed arrays, induction over histories of writes; refuted in part as noted.

Green's functions:

* C79-C81, C120-C122: 3x3 complex matrices.  C123 (isotropic), C126 (anisotropic, half-space and layer): the returned matrix applied to a traction is the surface displacement of the decaying solution of the equations of elasticity (defined in `Spec/Elastic`), with uniqueness.  C82, C83, C125: tensor identities.  C124: ellipticity of stable crystals and decay (`Props/GreensDecay`: the real parts of the recovered coefficients are those of the even part of the determinant, which has no zero on the imaginary axis by the intermediate value theorem).  C127, C128: inverse, homogeneity.  `Props/GreensMirror`: the supported orientations are exactly those with a cube axis or face diagonal as normal.  C137: the eigenvectors of the waves are independent (energy argument), so that the inverse exists and is positive.  C138: double roots of isotropic constants.  C84, C85 refuted.

Contact problem:

* C156-C158 (`Spec/ContactProblem`, `Props/HardWall*`): the discrete Signorini problem of the substrates that `contact_mechanics` builds.  Existence by minimising the complementary energy (compactness: the substrates are linear, reciprocal and positive definite), uniqueness and error bounds from the two-state identity, the constants from the spectrum of the periodic substrate.  The error bounds are stated in the fields handed to the callback; the exact solution is the one of `Spec/ContactProblem`.

* C159 (`Lemmas/GaussPos`, `Lemmas/LovePos`, `Props/LoveWork`): `1/r` is a mixture of Gaussians, `1/r = c * int exp(-t^2 r^2) dt`; the integral of a Gaussian over a pixel is a Fourier integral with a positive weight, so that the quadratic form of Love's kernel is a mixture of squares of trigonometric polynomials, which vanish only for zero forces.  With C159 the solver theorems (C44, C45, C109; hypothesis `ElasticOn`) apply to nonperiodic substrates too (`C104_every_substrate_elastic`).
* C160, C161 (`Props/FullContact`): the first iteration started from the lifted surface is examined when the force of the surface imposed everywhere is not tensile (`solution_step`); `evaluate_force` inverts `evaluate_disp` on the periodic substrate; the mean pressure follows by reciprocity with a uniform pressure. Totality: no step of the solver raises without hardness, nor with a scalar hardness at fixed offset.

Stiffness of the substrate:

* C180 (`Props/Plastic2`, `Props/Plastic3`): induction over the bisections with the sign change as invariant; monotone counting function of the gaps; the last iteration moves displacements by less than the penetration tolerance.
* C181 (`Props/ParallelSystems`): the relation "the processes hold the blocks of the serial state" is established by the constructors and preserved by every `minimize_proxy` (C174 for the solver, C23 for the check); sums over blocks are sums over the grid.
* C182 (`Props/WestergaardResponse`): Cauchy's formula for `(1+z) sqrt(1-e^(2 pi i a) z) sqrt(1-e^(-2 pi i a) z)` on the unit disc; its boundary values are the pressure inside and the slope of the gap outside the contact; integration by parts.
* C183, C184 (`Spec/Boussinesq`, `Props/Boussinesq`): polar coordinates about the field point turn the potential into the mean over directions of integrals along chords, `pi/2 (1-b^2)` for Hertz and `pi (1-b)` for the cone at distance `b` from the axis.
* C185 (`Spec/Tiling`, `Lemmas/Tiling`, `Props/Tiling`, `Props/Tiling2`, `Props/Tiling3`): the spectrum of a repeated field lives on the waves of one period, where the stiffnesses agree but for the uniform field; every quantity of one solver iteration is equal or multiplied by the number of copies, by induction the whole run (SciPy's bisection is modelled and looks at signs only); the refutation compares two flat calculations (C149).
* C186-C188 (`Spec/Numbers`, `Spec/MapFiles`, `Lemmas/Numbers`, `Props/Numbers`, `Props/MapFiles`): decimal notation specified as a partial function from texts to numbers, independent of printing; digits by induction, rounding error from the floor, the carry over the first digit as a case; C186 on top of C72; the texts of numbers in C68-C73 are parameters, here they are those Python makes.  `str` of a number in a header is a parameter of which only double precision is assumed.
* C189, C190 (`Spec/Discretisation`, `Props/Discretisation`): the tabulated Green's function is the integral of the point-force kernel over a pixel (C19), so that the direct sum is Boussinesq's integral of the piecewise constant pressure; the difference is bounded by the potential of a uniform disc around the grid (C183's disc lemma). Convergence by uniform continuity; Hertz pressure is Hoelder continuous with exponent 1/2, and its exact displacements are C183.
* C191 (`Spec/Continuum`, `Props/Continuum`, `Props/Indentation`, `Props/HertzSteps`): the continuous solution at a neighbouring offset, taken at the grid points, is by C189 nearly a solution on the grid; the substrate does non-negative work on the difference of two near solutions (C157), which orders their loads by their offsets and squeezes the load on the grid between those of the continuous contact at offsets `o - d` and `o + d`. Mean square displacements from Schur's bound for the kernel (row sums bounded on all grids). Hertz' solution solves the continuous problem by C129 and C183; its load by polar coordinates.
* C192, C193 (`Model/CLIText`, `Spec/CommandLine`, `Props/CommandLine`, `Props/CommandLine2`): `argparse` as a classification of words and a loop over them, with the option table of `main`; induction over the options given, the meaning of the options by their documented names in the specification; C193 puts this in front of the theorems on runs (C114, C169, C170).
* C194 (`Spec/Spectral`, `Props/Spectral`): a wave sampled on the grid is a character of the grid; resolved waves have the stiffness of the continuous substrate, the compliance of every other one is at most the largest compliance; sums of both differ by the unresolved amplitudes.
* C195 (`Spec/LineContact`, `Lemmas/LineSeries`, `Props/LineContact`): trigonometric polynomials are dense (Fejer/Stone-Weierstrass); the grid answers a small line pressure by a small displacement, uniformly in the grid, by Cauchy-Schwarz and the sum of the squared compliances (`sum 1/n^2`), and so does the continuous substrate; polynomials are exact on fine grids (C194).
* C196 (`Spec/LineContinuum`, `Props/LineContinuum`, `Props/LineWestergaard`, `Props/HertzSteps`): as C191, with C195 in place of C189, for families of solutions parametrised by the contact radius; Westergaard's solution solves the continuous problem by C91, C132, C133 and C182; its offset increases with the radius (`s - s log s`).
* C197 (`Props/Line1D`, `Props/PlaneStrain`): C04, C05, C07, C15 on one-dimensional grids by the Fourier pairing of `ZMod nx`; fields constant along y have only the rows `(k, 0)` of the two-dimensional spectrum, whose stiffnesses are those of the line.
* C198 (`Props/SystemsLine`): C49-C51, C111, C104 and C171 on one-dimensional grids, on top of C18 and C197.
* C199 (`Spec/CellContinuum`, `Lemmas/Smoothing`, `Lemmas/CellSmoothing`, `Props/CellWork`, `Props/CellContinuum`, `Props/CellExamples`): the displacement of the continuum is approximated uniformly by finite sums of waves (products of even trigonometric kernels that are positive, have mean one and concentrate at zero); these are answered exactly by C194; the work of the differences bounds load and displacements as in C191. Examples: full contact of `cos cos` waves, Westergaard's profiles as constant fields along y.
* C200 (`Props/FreeTest`, `Props/FreeContinuum`, `Props/FreeContinuum2`, `Lemmas/Potentials`, `Props/FreePressures`): as C191, but from a solution at a single offset: the work of the difference of simulated and sampled pressure on its displacements is bounded by the discretisation error (C189); Cauchy's inequality for this work turns it into bounds on the load (tested with the pressure that displaces the surface by a constant: the difference of two Hertz pressures on a larger grid) and on the work on other displacements; these are dense in the continuous functions (bumps of pressure cause all powers of the squared distance, hence Gaussians, which span an algebra: Stone–Weierstrass); offsets and uniqueness from these.
* C201 (`Spec/MaterialContinuum`, `Props/CliContinuum`): the substrate of the command line answers forces like that of `contact_mechanics` forces divided by the contact modulus (C163), and so does the
* C202, C203 (`Model/SolverMemory`, `Spec/SolverMemory`, `Props/SolverMemory`): the statements of the solver once more with its arrays as objects in memory (which statements write into an array, which make a new one); refinement of `Model/CCG` for callbacks that only read, by induction over the iterations with the invariant that `f_r`, `u_r`, `t_r` are three different arrays made since the call.  C203 is false: the callback gets `f_r` itself.
* C204 (`Spec/Extension`, `Props/Extension`): induction over the steps; the loop over a longer list is the loop over the shorter one followed by the rest, and every step only appends to the history.
* C205, C206 (`Model/LoggerCrash`, `Spec/LoggerCrash`, `Props/LoggerCrash`): every call is taken apart into its file operations (rename, open, write, flush) in order; a refinement proof that together they do what the call does in `Model/Logger`; a crash is a prefix of the operations of a history, and a file may then hold anything between what was flushed and what was printed. Invariants: nothing waits in a buffer after a completed call; flushed lines stay (no operation opens an existing file). C206 is refuted: `set_logfile` does not flush.
* C207 (`Spec/CliExtension`, `Props/CliExtension`): as C204 for the loop over pressures of the command line; the number of steps enters only through the names of the map files.
* C208, C209 (`Model/CCGRounded`, `Spec/Rounding`, `Lemmas/Rounding`, `Lemmas/CCGRounded`, `Props/CCGRounded`): the solver once more with a rounding after every elementary operation and an arbitrary sum; reachable states and invariants as for C32-C47 (signs from monotonicity, zeros from `rnd 0 = 0`); error bounds from the last iteration only, so that they do not grow with the number of iterations. Exact arithmetic and chopped binary numbers with sequential sums are proved instances. Overflow and `nan` are excluded; comparisons, changes of sign, maxima and products with masks are exact as in IEEE arithmetic.
* C210 - C212 (`Model/CCGNan`, `Spec/NanInputs`, `Lemmas/CCGNan`, `Props/CCGNan`, `Props/CCGNanFree`, `Props/CCGNanPlastic`): the solver a third time with floats that are a number or `nan`; masks multiply as in the code (`False * nan` is `nan`), comparisons with `nan` are false, Python's `max(0.0, nan)` is `0.0`. Success means that `maxdu` was a number, hence all displacements. C210_without_nan: refinement of the model of C32-C47, which shows that leaving out `nan` there loses nothing. C212: a `nan` in the force of a topography point reaches all displacements in the same iteration, all forces in the next, `G` in the third. C211 refuted.
* C213 (`Spec/FlagBlind`, `Props/FlagBlind`): relation between a run and the run with other convergence flags, step by step (elastic systems that differ in the stored state only; histories that differ in the flags only). Refuted: both write the same. Plastic runs are left out, because there the plastic displacements depend on convergence.
* C214 (`Spec/FreshSurface`, `Props/FreshSurface`): noninterference, stated with two solvers that agree on the undeformed surface only. `contact_mechanics`: induction over the steps. Command line refuted on every surface, with solvers that report plastic points in the first step.
* C215, C216 (`Model/NetCDFCrash`, `Spec/NetCDFCrash`, `Props/NetCDFCrash`): the data set is tracked together with its state at the last `sync` and the states since; what is on disk after a crash is any entrywise mixture of those (`OnDisk`), reopened with `reopen` (C119). Induction over the calls after `sync` with the frame rules of C74. C216 is refuted for every run: the file with the grid and no frame is such a mixture.
* C217 (`Model/SystemsScipy`, `Props/SystemsScipy`): the optimiser's result may lack `jac` (as SciPy's gradient-free methods do; specified); the state before that attribute is read is computed as in C179.
* C218 (`Model/ParallelPlastic`, `Props/ParallelPlastic`): C181 with surfaces; the update of the plastic displacement of a block is the block of the update; induction over the calculations; the solver of a process sees the heights of its surface (`SplitIn`), heights of a history by C58.
* C219 (`Model/NetCDFAmber`, `Props/NetCDFAmber`): the two libraries are specified; reading is a reshape (`unflatIndex (flatIndex ...)` computed), writing NumPy's assignment with broadcasting.
* C220 (`Props/MeanGap`, on `Model/Pipeline`): from C60/C62 every row has its step; gap field minus `x - h - o` is the positive part of the penetration, summed over the grid. Refutation for plastic steps: a solver that flattens everything, one offset.
* C221 (`Model/MapDisk`, `Props/MapDisk`): a directory of files and the writes of a run in order; all names of a run differ (the number behind the last dot decides), so that writes commute; death of the process after any number of closed files.
* C222 (`Model/FactoryPlastic`, `Props/FactoryPlastic`): the system the factory returns (C100) and one calculation (C58); the two areas per point side by side.
* C223 (`Model/SubstrateState`, `Props/SubstrateState`): state machine over histories of calculations, each attribute is determined by the last successful call of its kind (induction); the check by C23; refutations by C02 and the guards.
* C224 (`Props/SemiScaling`): the direct sum of C29; homogeneity of the integral of `1/r` by substitution; the images of a negative number are the empty set.
* C225 (`Model/SubstrateState`, `Props/SemiCheck`): the check depends on the part of the computational grid that holds the topography only (C23); refutation by C29, a force moved along the period.
  continuum; written displacements and forces, in units of the contact modulus, are approximate solutions in the sense of C199 and C200, whose theorems are applied with the bounds scaled by the modulus.
* C163, C168 (`Spec/Modulus`, `Props/Modulus`): the spectra of two substrates differ by the factor; C168 on top of C151 (units of force).  C167 (`Props/CCG9`): one step of the solver examined; the counterexamples are evaluated by the kernel.

Command line with the package's own solver (`Props/CLI3`, `Props/CLI4`, `Props/CLI5`):

* C162, C164 case analysis of the options, C163 for the ratio of the displacements.  C165 simulation: both loops call the solver with the same arguments on the same state, by induction over the pressures.  C166, C169 from the characterisation of every output (`outputs_steps`) and of the solver (C33, C34).  C170 from the characterisation of failed runs (C65, C114) and totality of the solver (C46, C47, C161); plastic load control from C180.

Minimisation of the systems (`Model/SystemsBase`, `Props/Systems4`, `Props/Systems5`):

* C171: the optimality conditions of either objective are the contact conditions of `Spec/ContactProblem` for the `answer` of the substrate; existence, uniqueness and error bounds from C156-C158.  C172: linearity and symmetry of `evaluate_force` on the grid of the substrate (the spectrum is real, for the padded grid because Love's kernel is even).  C173: optimality under `_lbounds_from_heights` bounds; the bound is minus infinity in the padding, so the gradient vanishes there and the forces live on the topography.  C179: half-spectrum energy by Parseval's identity for every real spectrum; induction over the evaluations.

Reference solutions:

* C86-C89, C129-C131: Hertz; the interior stress solves the equilibrium and compatibility equations with the stated boundary values (oblate spheroidal coordinates, symbolic derivatives in `Lemmas/Symbolic`).  C90-C93, C132-C134: Westergaard; integrals by substitution.  C94, C95, C135: Cone.  C136 refuted.  C139-C142: Greenwood-Tripp; integrals over the half line and the fixpoint iteration for all discretisations.

Tools, factory:

* C96-C99 elementary; C97 orthogonality in any number of dimensions.  C100, C101, C143 case analysis (C101 refuted).

No listed property is `not_applicable`; parts that are not expressed (rounding, the MPI library) are excluded in section 2.

## 5. Status

The status of every property is in `MANIFEST.json`; what is missing from a partial one is in its note.

## 6. Findings: what the code does not do

Half-spaces: `stiffness_q0=0` raises `IndexError` in 1D (C17); `thickness` is ignored in 1D (C18); default Gamma stiffness raises `IndexError` if the first block has one row, and a periodic direction with one point raises `IndexError` (C102); in 1D every process overwrites its block with the global array (C102); `evaluate(pot=True, forces=False)` broadcasts silently (C103); `check_boundaries` and `domain_boundary_mask` miss the last row of a block that begins there (C23, C107); 1D free half-spaces raise `TypeError` (C106).  Semi-periodic: children lose periodicity and image count (C144), cannot be built in parallel (C145), absolute displacements diverge with the number of images (C146).

Number of periods: a default half-space takes the stiffness of the uniform field from the cell size, so that displacements and offsets depend on how many periods of the surface are simulated (C185); so does the default penetration tolerance of the solver, which is divided by the number of grid points per direction.

Solver: success at once for zero initial forces whatever the penetration (C35); false convergence when the search direction cancels after clipping (C36); tensile forces from a negative step length (C37); hardness exceeded under load control and on added points (C38); `UnboundLocalError` for `maxiter=0` (C40); array-valued hardness raises (C46); default tolerance unusable for flat surfaces (C47); arrays of hardnesses block parallel runs in which one process has a single point and another has not (C174); absolute default tolerances (C151); the returned active set is not the set of points that carry force (C167).

Plastic contacts under load: surfaces that do not rise above height zero raise `ValueError` in the first step if the load exceeds what the points above the lowest ones carry at the hardness, e.g. every flat surface of height at most zero (C180).
Contact coordinates: on several processes they count from the corner of the block of the process; before a calculation and after a failed one an empty array is returned where the other summaries raise (C181).

Solver callbacks: the array they receive is the solver's own; kept arrays change afterwards, and writing into them changes the result (C203).

Systems: `minimize_proxy` of the base class raises `AttributeError` with methods without gradient (C217); the two normal forces have opposite signs (C54); `objective(gradient=False, logger=...)` always raises, and `minimize_proxy(gradient=False)` leaves no forces (C179); stale forces after failed primal/dual minimisations (C52); `compare_containers` raises on vectors (C56); contact areas of primal and dual minimisation differ on just-touching surfaces, and the primal objective raises for every nonperiodic substrate (C171); `SystemBase.minimize_proxy` drops bounds silently for methods other than three, and records results of failed minimisations (C173).

Pipeline and command line: zero steps raise `TypeError` (C63); displacement mode unusable (C66); the automatically chosen offsets depend on the reference height of the surface, and so does the initial guess under load control (C153); force tolerance and minimal penetration tolerance are absolute numbers, in small units convergence is reported with displacement zero (C155); only the first exported map carries the macroscopic data (C67); `--height-unit` raises `KeyError` for files without a unit (C162); for periodic half-spaces the headers call Young's modulus the contact modulus (C164); the contact map of nonperiodic calculations shows the padded grid, four times the surface (C166); load control on a flat surface raises `TypeError`, plastic load control on a surface that does not rise above zero `ValueError` (C170); negative numbers with an exponent are refused as separate words (C192). In a plastic step with prescribed load the mean gap of the table subtracts the mean height of the surface before the step, while gap map and gap field use the deformed surface: they can differ by the whole plastic displacement (C220_plastic_partial).

AMBER trajectories: with netCDF4 `sqrt(self._data.dimensions['atom'])` is `sqrt` of an object and raises `TypeError`; with SciPy `frame.u` has shape (n, n, 3) when read but only (n*n, 3) can be written; every variable is reshaped, so the time cannot be read (C219).

Map files: nothing removes or marks the maps of an earlier run with the same names; after a shorter run the numbered files are a mixture of both (C221_stale_partial).

Factory, plastic: `make_plastic_system(surface, physical_sizes=...)` with other sizes than those of the surface gives a system in which the hardness is off by the quotient of the areas (C222_physical_sizes_partial).

Substrate: `check()` after `compute(disp, pot=True, forces=False)` raises `TypeError`; `compute_k(pot=True, forces=False)` stores forces that were not asked for; after `compute_k` the energy is that of the new displacements while `force` is still that of earlier ones (C223).

Semi-periodic: a negative `n_images` is accepted and leaves no image, not even the domain itself: displacements vanish for all forces (C224). With `check_boundaries=True` forces on the first or last row of a periodic direction, where nothing ends, raise `FreeBoundaryError` (C225).

NetCDF after a crash: the command line never synchronises its NetCDF file; if it is killed, all frames may be missing while the maps and log lines of the same steps are there (C216).

Plasticity on the command line: automatic steps start from the surface deformed by earlier steps (C214).

Logger: lines that waited for a file are printed by `set_logfile` without flushing, so that a crash can lose them (C206); `set_logfile(None)` discards the buffer and buffered warnings appear twice (C69); quiet loggers grow without bound (C71); solver logs, names with blanks and the command line's own log and files beginning with a message cannot be read back (C72); the last datum in the header of every map file runs into the text behind it (C188); nested or empty vectors break the header (C73).

NetCDF: names used by the class are shadowed (C74); real numbers after an integer are truncated (C75); one-entry shapes are accepted by square grids (C77); `ndof` is lost on reopening (C119); `@` in a directory name is taken for a selector (C78); a number assigned to the container under the name of a variable cannot be read, frame writes overwrite rows of arrays of the file, no arrays of the file with several degrees of freedom (C176); `get_elastic_surface` returns a live object (C177); a closed container reports sizes it never had (C178).

Green's functions: absolute cut-off `1e-6` (C79, C81); determinant-only check of rotations (C84); scalar wavevectors raise (C85); surplus wavevectors dropped (C122); rotations that do not keep the surface a mirror plane break the assumption of an even determinant (C83); rotated integer constants are truncated (C125); isotropic constants raise (C138). Layers of strongly anisotropic crystals are taken for half-spaces because the largest decay rate is compared with the threshold: the normal compliance is overestimated by an arbitrary factor (C126; negligible for common crystals).

`nan` in the solver: `if x > 0.0` is false of `nan` and its `else` sets `G = 0.0`, which hides the `nan` from the test `isnan(G)` that follows (C212: one to two iterations later the contact is empty and the test fires). `max(0.0, nan)` makes `max_pen` zero. A mixing step compares only, and a plastic calculation whose offset or heights are `nan` is reported as a success without contact (C211).

Reference solutions: jump at the cut-off of `surface_stress` (C88); `nan` at `a=0` (C90); `_pressure` is normalised by another factor than its callers (C93); cone area (C94); cone deformation depends on the sampling (C95); integer positions truncate (C136); `GreenwoodTripp` xi and s raise on numbers (C140, C141), `maxiter+1` passes and a tolerance on pressures rather than displacements (C142).

Tools and factory: `evaluate_gradient` truncates for integer points (C96); physical sizes are never compared (C101); keyword arguments are ignored with a substrate object (C100); positional arguments of `make_contact_system` raise (C143).
