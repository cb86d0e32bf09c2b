# Design

Subject: alsvinn (finite volume solver `alsfvm`, uncertainty quantification driver `alsuq`, utilities `alsutils`), read as text in `/repo`.
Nothing of it is built or run. The model is Lean 4 under `lean/Verif`, hand-written from the C++ source.

## Modelling decisions

* **Numbers.** `real` (double) is modelled by an exact linearly ordered field (any field `K`, or the real numbers where square roots and
  logarithms occur). Rounding, NaN and infinity are outside the model except where a definition says otherwise (C64 carries NaN/inf explicitly).
  Integers are unbounded `Nat`/`Int`; overflow is not modelled unless a definition says so. C++ `/` and `%` on `int` are `Int.tdiv`, `Int.tmod`.
* **Undefined behaviour.** Functions that touch memory return `Except Err _`; `Err.ub` is an out-of-bounds access or null dereference,
  `Err.thrown` is a C++ exception. Theorems say explicitly that the outcome is `ok`, or which error it is.
* **Memory.** A memory area is a size and a flat buffer. Field-level models address cells by coordinates with a range check;
  C01 justifies going back and forth.
* **Volumes.** Struct-of-arrays storage (one memory area per variable) is modelled as one field with vector values where the code does the
  same thing to each variable; C94 proves that kernels on separate memory areas refine kernels on such fields.
* **Loops.** Nested loops are folds over the list of index triples in the order of the code. OpenMP loops are modelled sequentially;
  the iterations write disjoint cells, which is part of what the loop lemmas need.
* **MPI, NetCDF, HDF5, boost property trees, std::string/stream formatting** are modelled by their documented behaviour (messages matched by
  sender, receiver, tag; row-major hyperslabs; put/get by key).

## Trusted base

* The Lean 4 kernel and the axioms `propext`, `Classical.choice`, `Quot.sound` (checked with `#print axioms`; no others are used).
* The hand translation from C++ to Lean: every definition cites file and lines. Code not cited by any definition is not modelled.
* **Graphics card.** A kernel launch is a set of threads, each a program of single reads and writes of global memory; an execution is any
  interleaving (`Verif/Gpu.lean`). A result is claimed only if every interleaving ends with it and none leaves the allocated memory.
  Trusted: accesses to one element are atomic and sequentially consistent, launches on the default stream run one after the other,
  `thrust::reduce` computes the fold it documents, launch failures (too many threads, no device) do not happen.
* Not modelled: floating point, the Python embedding itself, XML parsing (C95 starts from the parsed tree), logging, timers, the command line programs,
  the code inside plug-in libraries, real thread scheduling except where a property is about interleavings (C12, C41).

## Layout

* `lean/Verif/*.lean` — model definitions and helper lemmas per area.
* `lean/Verif/Props/*.lean` — the property theorems, each followed by an `example` meeting its hypotheses.
* `MANIFEST.json` — which theorem settles which property. `seeded/LOG.jsonl` — seeded-bug experiments.

## Plan per property

| id | where | how |
|----|-------|-----|
| C01 | `Verif/Memory.lean` | Flat index of View/calculateIndex; prove in-bounds, injective, surjective by division with remainder. |
| C02 | `Verif/Memory.lean`, `Verif/Volume.lean` | Three nested loops writing a flat buffer with bounds checks as UB; loop invariant. The code has no size check: expect a violation of the 'refuses' part (witness) and a partial theorem for sufficiently large buffers. |
| C03 | `Verif/Memory.lean` | Every HostMemory operator as a loop over the flat buffer; aliasing versions modelled by passing the same memory. `+=` lacks the size check of the other operators: witness of out-of-bounds read. |
| C04 | `Verif/Volume.lean` | copyTo/setVolume raw copies; correct for equal ghost widths, witness for unequal ones. |
| C05 | `Verif/Volume.lean` | interpolate<1,2,3>; witnesses for 3D factor and for ghost misalignment; positive theorem for no-ghost 1D/2D. |
| C06 | `Verif/Memory.lean` | getTotalVariation loops as sums over the visited cells. |
| C07 | `Verif/Boundary.lean` | applyBoundary loops over a field with range-checked accesses (range error = UB); invariants direction by direction. |
| C08 | `Verif/Boundary.lean` | as C07. |
| C09 | `Verif/Boundary.lean` | makePositive loop + C remainder; clamp. |
| C10 | `Verif/NetFlux.lean` | computeNetFlux two loops, arbitrary face flux; telescoping sum by induction along a line, then sum over lines. |
| C11 | `Verif/NetFlux.lean` | computeFlux on inner region then on the side slabs, compare with one call on the whole region. |
| C12 | `Verif/NetFlux.lean` | the inner phase as a function of the input volume; two inputs agreeing on interior cells give the same output. |
| C13 | `Verif/Flux.lean`, `Verif/EulerFlux.lean` | each flux function over a generic ordered field (or reals where sqrt/log appear); witnesses for linear Roe and HLL/HLL3. |
| C14 | `Verif/NetFlux.lean` | corollary of the loop characterisation. |
| C15 | `Verif/Flux.lean` | order arguments. |
| C16 | `Verif/Flux.lean` | nonlinear arithmetic. |
| C17 | `Verif/Flux.lean` | field identity; witness for equations reusing Burgers' potential. |
| C18 | `Verif/Flux.lean` | linear identities over a module. |
| C19 | `Verif/Euler.lean` | real algebra. |
| C20 | `Verif/Euler.lean` | real algebra with log. |
| C21 | `Verif/Euler.lean` | Jacobian computed as derivative of the modelled flux along a direction; matrix identities; witness for the rotated directions if they fail. |
| C22 | `Verif/EulerFlux.lean` | log-mean algebra; witness for the equal-argument branch. |
| C23 | `Verif/EulerFlux.lean` | branch analysis. |
| C24 | `Verif/Diffusion.lean`, `Verif/DiffusionTotals.lean` | telescoping and quadratic form; witness for one ghost cell. |
| C25 | `Verif/Limiter.lean` | case analysis on signs. |
| C26 | `Verif/Eno.lean`, `Verif/EnoLemmas.lean` | the loops with their divided difference arrays in closed form, coefficient tables against cell averages of polynomials, refinement to the pure record used by C10-C14 (`C26_refines_record`). Partial: order 1 is undefined (see Findings). |
| C27 | `Verif/Eno.lean` | order 2 positive; orders 3 and 4 partial (constant on the right or on the central stencil) with witness. |
| C28 | `Verif/Weno.lean` | positivity of weights, interpolating polynomials as independent specification, full order for linear weights, agreement of WENO2. |
| C29 | `Verif/Weno.lean` | real inequalities with sqrt. |
| C30 | `Verif/Integrator.lean`, `Verif/IntegratorLemmas.lean`, `Verif/Step.lean` | in-place operations on a module over a field, abstract right hand side; `C30_modelled_solver` instantiates it with the modelled boundary conditions and conserved system. |
| C31 | `Verif/Integrator.lean` | convex combinations of Euler steps. |
| C32 | `Verif/Integrator.lean` | fold of minima. |
| C33 | `Verif/Step.lean` | witness with different cell lengths; partial theorem for equal cell lengths. |
| C34 | `Verif/Simulator.lean`, `Verif/SimulatorLemmas.lean` | state machine with an event trace; induction over steps; `C34_whole_run` adds the call before the first step. |
| C35 | `Verif/Simulator.lean`, `Verif/SimulatorLemmas.lean` | the outcome of a step, and of a run, is unchanged if the right hand side is replaced by any other that agrees on outputs of the boundary conditions. |
| C36 | `Verif/Simulator.lean`, `Verif/Writers.lean` | witness of overshoot; partial theorem: with a fixed-interval adjuster whose interval divides the end time. Any number of outputs at once: C86. |
| C37 | `Verif/Writers.lean` | state machine over arbitrary proposed steps; invariant; witness for late start. |
| C38 | `Verif/Writers.lean` | as C37. |
| C39 | `Verif/Writers.lean` | fold over the history; null dereference is UB; witness. |
| C40 | `Verif/Writers.lean`, `Verif/Functionals.lean` | every functional modelled on volumes; those that add weight times something are integrated in time by a fold over the history; negations for the two structure functions (unweighted sum, last call), no call at all, and snapshots. |
| C41 | `Verif/Queue.lean`, `Props/Queue.lean` | transition system of critical sections with any number of producers and consumers; invariant over all interleavings. Right for queues of size one, counts and progress for all sizes; wrong content for every size of at least two, because `nextIndex` never changes. |
| C42 | `Verif/Output.lean`, `Props/Output.lean` | decimal digits contain no underscore and determine the number, so the last underscore splits the name. Counter not bounded, "C" locale. |
| C43 | `Verif/Output.lean`, `OutputLemmas`, `Props/Output.lean` | row-major file model (library semantics trusted). Serial writers: closed form of the layout, and the exact set of sizes for which entry and cell coordinates agree. Parallel netCDF writer: equal to the serial one for every decomposition and order when the exchanged sizes agree, an exception in all other cases; witnesses for flat parts and for parallel HDF5. |
| C44 | `Verif/Cartesian.lean` | div/mod: both round trips, positions differ, wrap around. Precondition: at least one process per direction. |
| C45 | `Verif/Cartesian.lean` | div/mod plus field identities for midpoints; real arithmetic. Precondition: at least one process per direction (zero is a division by zero, excluded by the process count check of the command line program). Partial: the stated range includes every count. `C45_cells` gives lengths and midpoints of the cells of a grid in closed form. |
| C46 | `Verif/Cartesian.lean` | case analysis per side. The two sides of a direction have the same condition, which is what `createGrid` (SimulatorSetup.cpp:260-287) always produces. Partial: mixed sides are excluded (see Findings). The sides of a process are given by `HasSide`, independently of the model's count of dimensions. |
| C47 | `Verif/Halo.lean`, `Props/Halo.lean` | the lists of posted sends and receives of every rank; for each send exactly one receive on the partner with the same tag and number of elements and conversely; partners are ranks. |
| C48 | `Verif/Halo.lean`, `HaloLemmas`, `HaloField`, `Props/Halo.lean` | displacement recurrences solved in closed form by induction: the type maps list the interior and ghost slabs in the same order and in bounds. Delivery is proved for every complete schedule of the memory reads and writes the MPI library may perform. Precondition: subdomains at least as wide as the ghost layer; volumes with one layer in y and several in z are excluded because `Volume::getDimensions` calls them one-dimensional. |
| C49 | `Verif/ParallelRun.lean`, `Props/ParallelRun.lean` | boundary conditions, exchange (C48) and right hand side (C11) on all ranks against one process, in one, two and three dimensions; wave speeds through the maximum over ranks, so all ranks compute the serial time step. The first phase runs during the exchange: its volume is arbitrary in the ghost cells. Preconditions: parts at least as wide as the ghost layer and with as many dimensions as the grid. Real arithmetic. |
| C50 | `Verif/UQ.lean`, `Props/UQ.lean` | every sample number is taken by exactly one group (`C50_every_number_once`); explicit member lists of both communicators (color and key of `MPI_Comm_split`), the slices of the sample list, their concatenation, and the rejected configurations. `MPI_Comm_split` orders by key and then old rank (trusted). |
| C51 | `Verif/UQ.lean`, `Props/UQ.lean` | generator as one stream with a shared position; closed form for one random parameter and increasing samples, for every distribution over processes; false for two random parameters and for other orders. |
| C52 | `Verif/UQ.lean`, `Props/UQ.lean` | property tree `put`/`get`: for every configuration the bounds are overwritten by 0 and 1 (so the property is false); with the bounds actually used: uniform values lie between them (stream in [0,1]), equidistant values are cell midpoints. |
| C53 | `Verif/Stats.lean`, `StatsLemmas`, `Props/Stats.lean` | every rank processes its samples into snapshots keyed by time and name, then the snapshots are summed over the ranks and divided by the number of samples. Induction over the operations of a rank, sum over ranks with at least one sample; one theorem per statistic. Two statistics overwrite instead of adding and one throws (witnesses). Every sample is evaluated at the same time keys (C55). Real arithmetic. |
| C54 | `Verif/Stats.lean`, `Props/Stats.lean` | the two means of C53 and the subtraction in `finalizeStatistics`, against mean and biased variance written as sums over the samples. Real arithmetic. |
| C55 | `Verif/Stats.lean`, `Props/StatsTimes.lean` | state machine over samples with a rounding parameter; the list of evaluation times in closed form for exact arithmetic, a witness with 53-bit rounding (overflow and underflow not modelled). |
| C56 | `Verif/Structure.lean` | loops enumerating the cube surface: each shift of max norm h visited once, and the computed value is the sum over shifts and cells. |
| C57 | `Verif/Structure.lean` | closed forms of the three structure functions; positive with equal boundary conditions and no ghost cells; witnesses for mixed boundaries, ghost cells and two directions. |
| C58 | `Verif/AlsMath.lean` | recurrence as coded; right for degrees 0 and 1 and in parity; wrong at one for every higher degree. `C58_supported_degrees`: exactly the degrees up to eleven are accepted. |
| C59 | `Verif/Structure.lean` | induction on the exponent for the unrolled power; case distinction for the dispatch. |
| C60 | `Verif/AlsMath.lean` | loops against Mathlib matrices; vectors componentwise for up to five components; the sixth component is lost. |
| C61 | `Verif/Params.lean` | property tree with paths; join and split on lists of characters; round trip for lists with at least one word. |
| C62 | `Verif/Iterate.lean` | loops in size_t arithmetic equal to a duplicate-free list of interior cells; the filled arrays and the strided script arrays against the flat index. |
| C63 | `Verif/Iterate.lean` | visited indices as lists: no duplicates, membership iff the cell is in the region; witnesses for a zero margin and for the default ghost layer. |
| C64 | `Verif/CellComputer.lean` | fold over all cells with a value type that has NaN and infinities; ghost cells are included, so the statement about interior cells needs ghost cells to be copies, which boundary conditions ensure; Euler and scalar constraints spelled out. |
| C65 | `Verif/Params.lean` | finite map histories. |
| C66 | `Verif/TecnoEno.lean` | closed form of the loops with flat difference arrays; order 2 in the first direction positive and composed with C24; witnesses for orders 3, 4 and for the other directions at any distance from the edge. |
| C67 | `Verif/Params.lean` | walk along a path against a search among the children of the root. |
| C68 | `Verif/CellComputer.lean` | the generic fill loop of C62. |
| C69 | `Verif/Gpu.lean`, `Verif/CudaBoundary.lean` | data-race-free launches are deterministic (`yields_of_fits`); the launches of all sides compose to the loops of C07/C08. |
| C70 | `Verif/CudaMemory.lean`, `Verif/CudaCells.lean`, `Verif/CudaTotalVariation.lean` | element-wise kernels against the loops of the host memory (C03); total variation as kernel plus sum against C06. |
| C71 | `Verif/CudaCellComputer.lean` | kernels of the extra variables, wave speeds and constraints against the CPU cell computer (C64); the reductions over all orders of combination. |
| C72 | `Verif/GpuGrid.lean`, `Verif/CudaNetFlux.lean`, `Verif/CudaNetFluxSplit.lean` | the kernels of NumericalFluxCUDA.cu in any interleaving against the net flux of C10 and against `computeFlux` / `conservedSystem` on the processor. Preconditions: the region has at least one cell (an empty region gives negative counts which the code converts to `size_t`; not modelled), wave speeds are not negative (the processor starts its maximum at 0, the card does not: `C72_negative_wave_speeds_differ`), all volumes have the same size. |
| C73 | `Verif/CudaRecon.lean`, `Verif/CudaReconLemmas.lean` | no reconstruction, fixed stencils and ENO on the card in any interleaving, against `Recon.perform` and `Eno.perform`. The factory refuses third order WENO on the card (ReconstructionFactory.cpp:270-271). The card deduces the dimension from the numbers of interior cells of the volume: with a single interior layer in a direction of the grid (as a process may own) the kernel reads outside, `C73_single_layer`. |
| C74 | `Verif/GpuStreams.lean`, `Verif/CudaHalo.lean`, `Verif/CudaHaloLemmas.lean` | kernels on several streams in any interleaving; packing and unpacking against the message types of C47; one exchange of all ranks against the exchange of C48; a protocol of repeated exchanges for the send buffers. Partial: one exchange, no volume with one layer in y and several in z (the CPU exchanger of such a volume is wrong already). |
| C75 | `Verif/GpuLoop.lean`, `Verif/CudaTecno.lean`, `Verif/CudaTecnoLemmas.lean` | a launch whose threads do not disturb each other is the sequential loop of the threads, so the kernels of the reconstruction are compared with the loops of C24 on the processor; the outcomes of racing kernels are the runs in some order. Partial: the reconstructions are equal; the second kernel agrees only where the matrices at three means agree; the operator as a whole does not agree (three findings). For Burgers' equation without reconstruction the sum over all directions the card adds is proved (`C75_burgers_partial`). |
| C76 | `Verif/CudaFunctionals.lean`, `Verif/CudaFunctionalsLemmas.lean` | volumes are allocations of one heap; a functional is a list of launches and processor steps, and `does` requires the same final memory in every interleaving. The additions of the card are computed and compared with those of the processor (C40). Partial: identity, logarithmic entropy and structure cube are equal; the pointwise Legendre polynomials only for degrees 0 and 1 and on grids the processor accepts (findings). |
| C77 | the same files, `Verif/Props/CudaStructure.lean` | the same for the statistics of alsuq. Partial: the cube statistics are equal; the statistics in a direction only without ghost cells and for exponents other than zero (findings). |
| C78 | `Verif/WholeRun.lean` (induction over the steps of a run), `Verif/Props/WholeRun.lean` | every step of the modelled solver is the textbook scheme (C30) and the periodic right hand side has total zero (C10); the total of the final state and of every state a writer sees is that of the initial data. Exact arithmetic. |
| C79 | the same files | the right hand side vanishes on uniform states, for both boundary conditions. |
| C80 | `Verif/ScalarRun.lean`, `Verif/Punctual.lean`, `Verif/PunctualWriters.lean`, `Verif/Props/WholeRun.lean`, `Verif/Props/RunBounds.lean` | the fluxes are monotone, so an update is largest when both neighbours are; there the incremental form, whose coefficients add up to at most the wave speed, bounds it for CFL numbers up to one. The Runge-Kutta schemes are convex combinations of Euler steps, and the wave speeds of later stages are bounded by those of the first because the speed is quasi-convex. Partial: Burgers, cubic and linear with the fluxes `rusanov`, `godunov`, `roe`, `upwind`; cubes as cells; Buckley-Leverett with `rusanov` and `godunov` and data on one side of one half, where the flux is convex or concave and increasing (`C80_buckley_leverett_partial`, `Verif/BuckleyRun.lean`, `Verif/Props/BuckleyRun.lean`), false with data on both sides; false for the fluxes `central`, `tecno1`, `godunov4` and `godunov6` (findings, `Verif/Props/RunCombined.lean`). The Runge-Kutta scheme of order four is no convex combination of Euler steps in general (`Verif/Props/RunFourth.lean`, finding), but for the linear equation it is one: 3/8, 1/3, 1/4 and 1/24 of no, one, two and four Euler steps. The interval writers must never ask for a step back in time, an invariant of the writers (`Punctual`) that is proved for the writers of a configuration (`punctual_writers`), so that `C80_program_partial` speaks about whole programs with output. |
| C81 | `Verif/Variation.lean` (Harten's lemma), `Verif/Props/WholeRun.lean` | as C80, with the set of states of bounded variation as convex set. Partial and false for Buckley-Leverett (but see `C81_buckley_leverett_partial`), `central` and `tecno1` as C80. Whole programs: `C81_program_partial`. |
| C82 | `Verif/LimitedRun.lean`, `Verif/Props/WholeRun.lean` | the update is split at the two face values of a cell, whose average is the cell value (C25), into two first order updates; the largest speeds are seen because the limiters are flat at extrema. Partial: as C80; Buckley-Leverett: `C82_buckley_leverett_partial`. The bound one half on the CFL number covers the automatic choice 0.475 (SimulatorSetup.cpp:305-319). Whole programs: `C82_program_partial`. |
| C83 | `Verif/Factories.lean`, `FactoriesSpec.lean`, `FactoriesLemmas.lean`, `Props/Factories.lean` | every factory is a function from the strings to a description of the object (class, equation, dimension, platform, ghost cells) or an exception, in the order of the code; the specification consists of tables of names (which class a name stands for) that do not mention the factories. `C83_as_described` is an equivalence: offered names give the described simulator, others throw; `C83_no_choice` shows that the description determines the simulator. Partial: a grid with more directions than the Euler equation is accepted, and then a component of the momentum is accessed that does not exist (`C83_components_partial`). |
| C84 | the same and `Verif/CudaGhosts.lean` | the simulator of C83 meets the conditions of C11 (processor) and C72 (card) whenever `Wide` holds, which compares the cells read by the flux with the ghost cells beyond those of the reconstruction; `C84_wide_is_needed` shows that this condition is exact. Partial: not `Wide`, grids flat in `y` only, diffusion operators that get only the ghost cells they ask for, and on the card diffusion operators that ask for more ghost cells than the flux; each with a counterexample. |
| C85 | `Verif/Setup.lean` (all of `SimulatorSetup.cpp` from the parsed property tree on), meaning in `Verif/SetupSpec.lean` (first child of a key, texts, trimmed words, three numbers, files filled in, writers and functionals by cases) | equivalence of reading and description, uniqueness, refusal of everything else. The XML parser, the conversions of text, the files and the creators of functionals are parameters. Partial: the vectors of the grid need three words each, otherwise an access behind the end of a vector (`C85_short_vector`). The description records what the code does with `timeRadius` alone (see C86). |
| C86 | `Verif/RunSetup.lean` (the writer objects of a configuration composed from the models of C35 to C41, the simulator with them, `finalize`, the program), what is asked in `Verif/RunSetupSpec.lean`, schedules with any number of adjusters in `Verif/Schedule.lean` | the program ends at the end time, every step is one of the textbook scheme, and each file holds what was asked; which configurations this leaves out is `C86_kinds`. Partial: some output must save at the end time (C36); nothing positive is said about snapshots, where C86 is false. The functionals are a function that adds to an output, files always succeed. That the time steps have a lower bound is a hypothesis (`Schedule.Stable`: a set of states that steps within the CFL condition do not leave, with bounded wave speeds); C109 proves it for scalar equations. |
| C87 | as C86 | the files of writers of solutions are finalised exactly once; false for functionals. |
| C88 | `Verif/EulerPositivity.lean`, `Verif/EulerPositivity3.lean`, `Verif/EulerRun.lean`, `Verif/EulerStages.lean`, `Verif/Props/EulerRun.lean`, `Verif/Props/EulerStages.lean` | the states with positive density and pressure are those whose energy is positive in every moving frame, a convex cone given by linear inequalities. What a cell keeps after exchanging HLL fluxes with two neighbours is a combination, with coefficients that are not negative, of `t u ± f(u)` for a `t` above the fastest wave, which lies in the cone. Partial: flux `hll`, forward Euler, reconstruction `none`, cubes as cells; false for `central`. For `hll3` (`C88_hll3_partial`: `euler1`, CFL number below 1/2, `γ ≤ 2`) the flux is split, at each face, into the flux of the cell and states of the cone; the middle states lie in it because the outer waves differ from the gas by at least half a sound speed, whatever the order of the estimates. In two dimensions `hll3` loses positivity for every CFL number. The second half says that the run with the check of the simulator is the same as the one without. Whole programs: `C88_program_partial`. For `rungekutta2` and `rungekutta3` (`C88_stages_partial`: as many dimensions of the grid as of the equation, CFL number times `reduction` below one) the same combinations show that the energy per mass grows by at most three quarters in a stage; it bounds the velocity and the sound speed, and so the wave speeds of the later stages, and the wave speeds of the first stage bound it. |
| C89 | `Verif/EntropyTotals.lean`, `Verif/Props/EntropyRun.lean` | stated as the derivative of the total entropy (defined in the property file) along the computed right hand side, after the periodic boundary condition has been applied by the modelled code. Summation by parts: a two-point flux with the identity of C17/C22 between cells any distance apart contributes `H(p - k) - H(p)`, which telescopes over the period; `tecno4` is a combination of distances 1 and 2. The diffusion operator adds the dissipation of C24 per direction. Partial: reconstruction `none`, `tecno1` and `tecno4`, Burgers in up to three and Euler in one and two dimensions, `r + 2` ghost cells; `C89_fails_for_tecno6` |
| C90 | `Verif/UQRun.lean`, `Verif/UQRunLemmas.lean`, `Verif/Props/UQRun.lean` | the runner with samples, built from the models of the load balancer (C50), the parameters (C51), the simulator with its writers (C86), the fixed interval statistics (C56) and the combination of statistics (C53, C54). The adjusters of all statistics and writers make every sample pass through every save time; the statistics of one process are the evaluations of its samples one after another. `Trajectory` and `Shows` in the property file are the specification. Partial: at most one parameter may use the random number generator (C51), statistics at fixed intervals, at least one sample, one process per sample, the conditions of C86; `C90_fails_for_windows`, `C90_no_samples` |
| C91 | `Verif/UQSetup.lean`, `Verif/UQSetupSpec.lean`, `Verif/UQSetupLemmas.lean`, `Verif/Props/UQSetup.lean` | the readers of alsuq/src/config/Setup.cpp on property trees, with the distributions of C52 and the tree of C61. `UQDescribed` says what a file says without the readers; reading succeeds exactly for such files and gives this. Trusted: parsing of XML, conversions between numbers and text (parameters; 0 and 1 survive), the creators of statistics and of distributions in libraries (parameters; the latter do not look at the bounds put into their parameters). Partial: no parameter with bounds of its own (`C91_fails_for_bounds`), every statistic with its times (`C91_statistic_dropped`), for refusal a number of samples that fits (`C91_undefined_number`) |
| C92 | `Verif/IntegratedStatistics.lean`, `Verif/IntegratedStatisticsLemmas.lean`, `Verif/Props/IntegratedStatistics.lean` | `computeStatistics` of the statistic with its member `lastTime`, over all samples of a rank, with the snapshots and the reduction of C32. `C92_riemann_sums` says exactly what is computed (the full length of every step that ends in the window). Partial: equal to the average of the integrals if the window starts at or before time 0 and does not end inside a step; otherwise it fails (`C92_fails`). Simplification: real numbers; the calls of a sample start at time 0 and have increasing times (the timer that calls the statistic, C57). |
| C93 | `Verif/ParallelSim.lean`, `Verif/RunAgree.lean`, `Verif/ParallelSimLemmas.lean`, `Verif/ParallelEuler.lean`, `Verif/Props/ParallelSim.lean` | the simulator of C86 with a state that holds the volumes of all ranks: boundary conditions per rank, right hand side with the exchange in any order of messages (a different one in each evaluation), maximum of the wave speeds over the ranks. `RunAgree` compares two runs whose right hand sides compute the same function of the cells, by induction over the steps. Partial: preconditions of C49; the check of the states must depend on the cells of the grid alone (it also examines ghost cells that are not filled, see `C93_fails_for_euler`). Simplifications: real arithmetic; the ranks run in step, one evaluation of the right hand side at a time (they meet in the `MPI_Allreduce` of the time step and exchange halos in every substep); a writer is a function of the volumes of all ranks. |
| C94 | `Verif/Views.lean`, `Verif/ViewsSpec.lean`, `Verif/ViewsLemmas.lean`, `Verif/Props/Views.lean` | volumes as lists of names and memory areas, views found by name, `get(var)`, `get<var>()`, fetch, set, add; kernels as sequences of reads and writes. Refinement to fields with vector values (`C94_kernels`), which justifies the other properties' fields; every well formed volume is covered (`C94_all_volumes`). Partial: `get<var>()` except the energy in one dimension. The extra views (pressure, velocity) and the ghost cell and size data of volumes are left out |
| C95 | `Verif/PyConfig.lean`, `Verif/PyConfigSpec.lean`, `Verif/PyConfigLemmas.lean`, `Verif/Props/PyConfig.lean` | the class `Alsvinn` of `python/alsvinn/alsvinn.py`: reading elements into dictionaries, lists and texts, the adjustments made after reading, writing them again. `content` says what an element means independently of the driver; round trip for every element of a form described by `Good`, then for whole files (`C95_run_partial`). Trusted: `xml.dom.minidom` and `dicttoxml` by their documented behaviour; a Python exception is `Err.thrown` |
| C96 | `Verif/PyRun.lean`, `Verif/PyRunLemmas.lean`, `Verif/Props/PyRun.lean` | `run`, the setters and the removal of files. One theorem per way an argument is used, for every combination of arguments (`Uses`: the setting is the argument if given, else what it was); `C96_defaults` for runs without a base file, with the defaults. `_partial`: the grid with two of three arguments, parameters of initial data |
| C97 | `Verif/Related.lean`, `Verif/Symmetry.lean`, `Verif/Props/Symmetry.lean` | Two runs side by side (`run_rel`: related steps give related runs, exceptions and writer calls included). The right hand side commutes with moving the interior values round the domain, for any reconstruction and flux that fit into the ghost cells; hence so do whole runs |
| C98 | `Verif/Symmetry.lean`, `Verif/SymmetrySchemes.lean`, `Verif/SymmetryExamples.lean`, `Verif/Props/Symmetry.lean` | Maps of the grid (`GridMap`) and fluxes along a line that are fair to them (`Fair`) give mirrored runs (`run_map`). Fairness is proved for each flux and reconstruction. `_partial`: `hll` at speed zero and ENO at ties are not fair (counterexamples), entropy stable fluxes of higher order and `wenof2` are left out |
| C99 | the same files | The map of the grid exchanges two axes. Scalar equations: any scheme that is the same in all directions. Euler: `hll`, `hll3`, `central`, `tecno1` in two dimensions, all reconstructions. `_partial`: `tecno1` in three dimensions is not fair (counterexample) |
| C100 | `Verif/Plugin.lean`, `Verif/PluginSpec.lean`, `Verif/Props/Plugin.lean` | A library is its exported functions and its answers; the program is the list of calls it makes, also when it ends with an exception. The calls of a whole life are shown to be a list written down from the documentation. `_partial`: writers never delete their data, quasi Monte Carlo generators lose their parameters first (both for every library); also "none" for the creating function, no communicator, exceptions in the constructor, entries that occur twice. The loops of the example library are shown to write the interior cells |
| C101 | `Verif/Report.lean`, `Verif/ReportSpec.lean`, `Verif/Props/Report.lean` | The disk may be different at each load. The texts the program gets and the attributes of the file are both compared with the text at the first successful load. `_partial`: file names with `_dash` or `_DOT` in them may collide, of repeated entries of a configuration only the last is kept (both shown by counterexamples). |
| C102 | `Verif/PyInit.lean`, `Verif/PyInitSpec.lean`, `Verif/Props/PyInit.lean` | A Python program is any function of the global (and local) names; whoever uses the interpreter in between may change all names in any way. Shown: for programs that use no names but those set for them each sample gives what a new interpreter gives. `_partial` for the parameters: those with the name of an object of `math` or `numpy` are replaced, which includes `gamma`. |
| C103 | `Verif/PyScript.lean`, `Verif/PyScriptSpec.lean`, `Verif/Props/PyScript.lean` | Arrays are objects on a heap with addresses, so that kept arrays and changes by the script can be expressed; the copy is that of C02. |
| C104 | `Verif/Timer.lean`, `Verif/TimerSpec.lean`, `Verif/Props/Timer.lean` | A program is a tree of work and named blocks; the model runs it on a clock and the database of timers. Times are exact, names are identifiers; the conversion of the percentage to `int` is undefined for 0/0 and out of range. Threads are described by the maps they modify. How numbers, dates and durations in words are printed is left open. |
| C105 | `Verif/Standalone.lean`, `Verif/StandaloneSpec.lean`, `Verif/Props/Standalone.lean` | A variable of a file is its dimensions, its type and its values in the order of the library; `getSample` with its checks in order, the division of the samples among the ranks, then the statistic of C53 and C56 and `combineStatistics`. The round trip goes through the writers of C43. Sizes are natural numbers without overflow; the attributes copied from the input file and the log are not modelled. |
| C106 | `Verif/SampleFiles.lean`, `Verif/Props/SampleFiles.lean` | A file is its time and the list of its variables; the collective calls of the writers are modelled for all processes at once, with the data in any order, and processes that do not make the same calls are undefined behaviour. The samples of the processes come from `loadBalance` (C50), the names of the files from C42, what is stored in one variable is a parameter (C43). The second theorem puts the runs of C86 in. Attributes, dimensions and the HDF5 writer are not modelled. |
| C107 | `Verif/Devices.lean`, `Verif/Props/Devices.lean` | The environment variable is a text or missing, read by a model of `atoi` in which a number too large for `int` is undefined behaviour; every call of the CUDA runtime may succeed or fail. The number of processes of each card is counted for processes started by Open MPI. Missing: other launchers and failing calls, for which the property is false. |
| C108 | `Verif/Table.lean`, `Verif/Props/Table.lean` | The file is a tree of elements, texts and comments (the nodes of C96); `named` is the search of the Python library at any depth, `parse` the property tree boost makes of the same file. What the program uses is given by the model of reading the configuration (C85), not by this model. Missing: options that come earlier inside another element, white space around the reconstruction, comments inside an option (for all of them the property is false) and options loaded from files. |
| C109 | `Verif/ScalarProgram.lean` (the program with the objects and numbers of the file: sizes of the volumes, cell lengths, CFL number, flux, reconstruction, integrator, boundary condition), `Verif/ScalarOutput.lean`, `Verif/Props/ScalarOutput.lean` | joins C85 (reading), C83 (making the objects), C80 and C82 (bounds), C86 (output): nothing is left open between the file and the output but the initial data, the functionals, the writers of files and exact arithmetic. The values stay between the bounds of the initial data, so the wave speeds are bounded and the time steps have a lower bound: the run ends. For the linear equation and Buckley-Leverett the wave speeds are bounded anyway (`C109_bounded_speeds_partial`: every flux, reconstruction, integrator, CFL number), and with data on one side of one half the bounds are kept for Buckley-Leverett as well (`C109_buckley_leverett_partial`). Partial: what C80 and C82 leave out, diffusion, graphics cards, outputs C86 leaves out; Euler's equations, where no lower bound of the time steps is known. |
| C110 | `Verif/UQProgram.lean` (the statistics made from the entries of the file, what the samples have in common, their initial data, the program), `Verif/Props/UQOutput.lean` (`Solution`, `ShowsCell`, `Usual`, `Delivers`, `Asks`, `Statistics` are the specification) | joins C109 (solutions), C85 and the reader of the part `uq`, C51 (random parameters), C50, C90, C53 and C54 (statistics): `C110_statistics_read` says that the statistics made are those asked for, `C110_initial_data` which parameters the initial data of a sample get, `C110_file_partial`, `C110_buckley_leverett_partial` and `C110_bounded_speeds_partial` that the run ends with them, `C110_bounds` that means and variances lie within the bounds (Popoviciu's inequality). Partial: what C109 leaves out, statistics other than `meanvar` and `onepointmoment`, windows of time (false, C90), more than one parameter with random numbers (C51), several processes per sample. |
| C111 | `Verif/WriterParams.lean` (the parameters the factories hand over, the dictionary for scripts, `__init__` of the script of an example), `Verif/WriterParamsLemmas.lean`, `Verif/Props/WriterParams.lean` | what the script reads is stated as the numbers and the name. Partial: true for runs with samples (`C111_samples_partial`, `C111_own_sample_partial`), false without (`C111_fails_without_samples`). Libraries get the same parameters (C100). |
| C112 | `Verif/Plotting.lean` (`write`, `afterMPISync`, `combine_images`, `delete_files` on a disk of pictures), `Verif/PlottingLemmas.lean`, `Verif/Props/Plotting.lean` (`Shows` is the specification) | pictures are known by the parts of the domain they show; numbers are those of Python 2. Partial: true on one process (`C112_one_process_partial`), and for one column of processes the first picture is right; on several processes an exception is raised (`C112_raises`) and the columns are mirrored (`C112_fails_for_columns`). |
| C113 | `Verif/Registration.lean` (the map of maps with the insertion by `operator[]`, the lists of all lines with REGISTER_STATISTICS and REGISTER_FUNCTIONAL), `Verif/RegistrationLemmas.lean`, `Verif/Props/Registration.lean` | starting for any list of lines (`C113_starts`), lookup for any order of the lines of the code and after any requests (`C113_lookup`), every name of a card is one of the processor (`C113_portable_partial`). Partial: the converse is false, and `structure_surface` is of no use (findings). The linker is assumed to keep all the static objects. |
| C114 | `Verif/NewClass.lean` (the scripts that add a class: names of the files, texts, directories that are made, exceptions), `Verif/NewClassLemmas.lean`, `Verif/Props/NewClass.lean` | a file is only written where nothing is after the directories have been made, and directories are only made where nothing is; joining and splitting names are inverse for names without colons and slashes. Partial: the line with `#include` for namespaces whose names end in `include` (finding). Not in the model: `git add`, links, the names `.` and `..`. |
| C115 | `Verif/Examples.lean` (the scripts of the examples as functions of point and parameters), `Verif/ExamplesLemmas.lean`, `Verif/Props/Examples.lean` | sums of cosines are at most the sum of their non-negative factors; a harmonic number and `log 2` bound the Brownian data; the exponential of the vortex is at most 3. Partial: findings. Not in the model: rounding; examples/fractional_brownian, which calls another package. |
| C116 | `Verif/Brownian.lean` (the script examples/euler_brownian: recursion, loops, counter of the numbers), `Verif/BrownianLemmas.lean`, `Verif/Props/Brownian.lean` | induction over both loops with the value of every point after each pass; even points are never written; the numbers used are counted exactly. Partial: findings. Not in the model: rounding, the distribution of the numbers. |
| C117 | `Verif/Units.lean`, `Verif/Props/Units.lean` | the machinery of C98 and C99 with the identity of the grid and multiplication by a number as the map of the values: each reconstruction and flux is shown to be homogeneous (`Unitless`, `Follows`), the rest is the same for all schemes. Partial: WENO (its epsilon has a unit, counterexample), `roe` of the linear equation for the opposite sign (counterexample), `tecno1` of the Euler equations (its logarithmic mean at states without pressure depends on the conventions for the logarithm of zero) and `wenof2` |
| C118 | `Verif/UnitsRun.lean`, `Verif/Props/UnitsRun.lean` | two runs in different units of time (`Scaled`, the analogue of `Related.Alike` with a factor of the times): the right hand side is divided by the factor, the time step multiplied by it, so each stage of the textbook schemes corresponds. Complete for the unit of length, for any scheme; with other values for the fluxes and reconstructions that are homogeneous. Writers and time step adjusters are to do the same in the other unit; shown for the writer at fixed intervals. Partial: WENO (C117), `tecno1` of Burgers (its entropy is for values between 0 and 2, counterexample), `tecno1` of the Euler equations and `wenof2` |
| C119 | `Verif/Props/FirstSave.lean` | the readers of C85 (`createWriter_iff`, `createFunctional_iff`) say which writer a node gives; the first call of this writer, at time 0 in its fresh state, is evaluated. Holds for writers with a number of saves and without coarse saves, and for statistics in whatever state the previous sample left them (`C119_statistics`); the other writers and the functionals ignore the setting. The model of the calls is that of C85 and C98; nothing new is trusted |
| C120 | `Verif/PyPlot.lean` (`get_line_segment`, `get_2d_grid`, `get_dimension`, the end of `get_data`, `plot`), `Verif/Props/PyPlot.lean` (`midpoint`, `LineAt`, `MeshAt` are the specification) | all values are drawn in their order; the points are computed exactly and compared with the midpoints. Trusted: what numpy (`linspace`, `mgrid`, slices) and matplotlib (`plot`, `pcolormesh`) do with arrays, as stated at the definitions; finding the file and the variable, titles and the time in them are left out |

## Findings (places where the unchanged code violates a property)

Each entry names the theorem that proves the violation on the modelled code; the matching `_partial` theorem states what does hold.

| property | what goes wrong | theorem |
|---|---|---|
| C02 | `copyToHost`/`copyFromHost` style buffer copies do not check the caller's buffer size | see `Props/Memory.lean` |
| C03 | `+=`, `addPower` and friends read the other array without comparing sizes | see `Props/Memory.lean` |
| C04 | `copyInternalCells`/internal copies between volumes with different ghost widths misalign | see `Props/Memory.lean` |
| C05 | coarsening in three dimensions divides by 16 instead of 8 and misaligns ghost cells | see `Props/Memory.lean` |
| C08 | a ghost layer wider than the interior reads ghost cells not yet set | see `Props/Boundary.lean` |
| C11 | fewer interior than ghost cells: the top slab reads outside the buffer | `C11_small_subdomain_overruns` |
| C12 | the reconstructions `none` and WENO run over the whole volume and read ghost cells during the exchange | see `Props/NetFlux.lean` |
| C13 | linear Roe flux is not consistent; HLL and HLL3 return zero flux at states with a zero wave speed | `C13_…` in `Props/Flux.lean`, `C13_euler_hll_inconsistent_at_sonic_states` |
| C18 | `stencil` of Tecno6 drops its last offset (six-argument `vec6` constructor) | see `Props/Flux.lean` |
| C21 | eigenvectors in directions 1 and 2 are not rotated back | `C21_two_dimensions_direction_one_fails`, `C21_three_dimensions_other_directions_fail` |
| C22 | three dimensional Tecno1 has no z-momentum flux and no direction 2 | `C22_three_dimensions_fails`, `C22_three_dimensions_fails_in_x` |
| C23 | HLL returns zero flux when the left speed is exactly zero | `C23_hll_fails_when_left_speed_is_zero` |
| C24 | one ghost cell too few: the last face of each grid line uses entropy variables never computed | `C24_one_ghost_cell_is_not_conservative` |
| C26 | order 1 (instantiated, not reachable from the factory) indexes an empty array | `C26_order_one_is_undefined` |
| C27 | ENO of order 3 and 4 overshoots next to a step although a constant stencil is available | `C27_fails_at_a_step` |
| C66 | orders 3 and 4 choose the stencil without following the earlier shift and lose the sign property | `C66_fails_for_order_three`, `C66_fails_for_order_four` |
| C66 | in directions 1 and 2 the differences to the left and right are read along x (flat index plus or minus one) | `C66_fails_in_other_directions` |
| C33 | all directions are scaled with `dt / dx` of the first direction | `C33_fails_for_cells_that_are_not_cubes` |
| C36 | nothing limits the last step: without a writer asking for the end time the run goes past it | `C36_overshoots_without_writer` |
| C37 | an initial save with a positive start time is late, and the adjuster then asks for a negative time step | `C37_fails_for_delayed_initial_save` |
| C38 | overlapping clusters are accepted and give negative time steps | `C38_fails_for_overlapping_clusters` |
| C39 | no step inside the window: null pointer dereference | `C39_fails_without_step_in_window` |
| C39 | inside a fixed interval writer (`numberOfSnapshots`) the first weight counts from time zero | `C39_fails_with_snapshots` |
| C40 | `StructureBase` ignores the weight: the result is the number of calls times the structure function instead of its time integral | `C40_structure_base_ignores_weight`, `C40_fails_for_structure_base` |
| C40 | `StructureCube` zeroes its output and ignores the weight: only the last call in the window is kept | `C40_structure_cube_keeps_last_call`, `C40_fails_for_structure_cube` |
| C40 | a functional that was never called dereferences a null pointer at the end | `C40_fails_without_call` |
| C40 | with `numberOfSnapshots` the first weight counts from time zero | `C40_fails_with_snapshots` |
| C51 | all random parameters share one generator but skip as if each were alone: with two parameters the value of a sample depends on the samples before it, and processes reuse random numbers | `C51_fails_for_two_parameters` |
| C51 | a sample generated after a later one gets a new random number | `C51_fails_for_other_orders` |
| C52 | the bounds (and mean, deviation) of the configuration are overwritten by 0 and 1 | `C52_bounds_are_overwritten`, `C52_fails` |
| C52 | the equidistant distribution does not subtract the first sample number: later samples lie beyond the upper bound | `C52_fails_for_later_samples` |
| C57 | `StructureBasic` passes the direction where the side number is expected, so direction 1 uses the boundary condition of the right x side | `C57_basic_fails_with_mixed_boundaries` |
| C57 | `StructureBase` and `StructureTwoPoints` subtract the ghost cells from a size that already excludes them | `C57_base_fails_with_ghost_cells`, `C57_two_points_fails_with_ghost_cells` |
| C57 | `StructureTwoPoints` uses the first direction for both shifts | `C57_two_points_fails_in_two_directions` |
| C63 | neighbour iteration with the default offsets of zero passes wrapped-around indices as neighbours | `C63_fails_without_margin` |
| C63 | the overload without ghost layer uses the ghost width of the x direction in every direction | `C63_default_layer_fails` |
| C58 | the Legendre recurrence lacks the factor 2n-1 | `C58_fails_for_every_higher_degree` |
| C60 | the constructor of `vec6` with six arguments sets the last component to zero; `operator+` of `vec4` and `vec6` does not compile when used | `C60_six_components_fail` |
| C61 | an empty list is read back as a list with one empty word | `C61_fails_for_the_empty_list` |
| C64 | the check includes ghost cells; a NaN wave speed is ignored by the maximum | `C64_fails_for_bad_ghost_cells`, `C64_max_wave_speed_ignores_nan` |
| C67 | `contains` does not split the name at dots, reading does | `C67_fails_for_names_with_dots` |
| C45 | two negative process counts are accepted and give a grid of negative size (outside the range of the property) | `C45_negative_process_counts_are_accepted` |
| C46 | different conditions on the two sides of a direction (accepted by the grid class, not produced by the configuration reader) make the neighbour relation asymmetric | `C46_fails_for_mixed_boundaries` |
| C48 | a subdomain with fewer interior cells than ghost cells sends its own stale ghost cells to its neighbour | `C48_fails_for_thin_subdomains` |
| C48 | corner ghost cells receive values that depend on the order in which the MPI library moves the data (the fluxes never read them) | `C48_corner_cells_depend_on_the_order` |
| C49 | a grid cut so that the parts are one cell thick in y (or z) is computed without fluxes in that direction, since each process takes its part as one of fewer dimensions | `C49_fails_for_flat_parts` |
| C53 | `BoundedVariationDirection` assigns instead of adding, so each rank keeps only its last sample | `C53_fails_for_bv_direction` |
| C53 | `FunctionalStatistics` with `StructureCube`: the functional sets the result to zero first, so each rank keeps only its last sample | `C53_fails_for_functional_structure_cube` |
| C53 | `FunctionalStatistics` with `Moment` throws for every volume with ghost cells, because the sizes differ | `C53_fails_for_functional_moment` |
| C55 | in double precision `t + (next - t)` can differ from `next`, so samples with different step histories are saved under different times and each average lacks samples | `C55_fails_in_double` |
| C41 | `nextIndex` is never advanced: all entries of the queue point to the same volume, so with a queue of two or more earlier volumes are lost and later ones delivered repeatedly | `C41_fails_for_larger_queues`, `C41_pop_gives_last_push` |
| C41 | with queue size zero every write waits forever | `C41_size_zero_never_writes` |
| C43 | the serial writers declare the dimensions x, y, z for a buffer in which x varies fastest: coordinates are wrong for every grid with two or more directions | `C43_serial_iff` |
| C43 | the parallel netCDF writer exchanges coordinates to get around this and therefore throws for every grid with different sizes in x and y (2D) or x and z (3D) | `C43_parallel_fails_unless_square` |
| C43 | the parallel netCDF writer decides on the exchange by the local grid: parts one cell thick give a different file | `C43_parallel_differs_for_flat_parts` |
| C43 | the parallel HDF5 writer gives the dataset the size of one part, and all parts are written to the same place | `C43_hdf5_parallel_keeps_one_part` |
| C69 | volumes with one cell in y but several in z count as one-dimensional: the processor leaves the z ghost cells alone, the card fills them | `C69_fails_for_volumes_flat_in_y` |
| C69 | the card has no size check: where the volume has too few interior cells for its ghost cells the processor throws and the threads write outside the memory | `C69_no_size_check` |
| C70 | `+=`, `-=`, `*=`, `/=` with an operand in host memory are not refused; the kernel follows a host pointer | `C70_host_operand_is_not_refused` |
| C70 | total variation in one dimension: the kernel tests `ny > 0` instead of `ny > 1` and reads before the start of the area | `C70_total_variation_fails_in_one_dimension` |
| C70 | the directional variation is refused in three dimensions, where the processor computes it | `C70_direction_refused_in_three_dimensions` |
| C71 | the verdicts of the cells are combined with the maximum, so one good cell hides all bad ones | `C71_constraints_fail` |
| C71 | with NaN wave speeds the reported maximum depends on the order of the reduction | `C71_wave_speed_depends_on_order` |
| C72 | a negative wave speed: the processor starts its maximum at 0, the card does not | `C72_negative_wave_speeds_differ` |
| C73 | the fixed stencil kernels deduce the dimension from the interior cells of the volume (ReconstructionCUDA.cu:192-193); with a single layer in a direction of the grid, as a process may own, the kernel for that direction reads outside the volume | `C73_single_layer` |
| C74 | the card does not wait until its messages are sent; the next exchange may overwrite the buffers first, so the neighbour gets data of the wrong exchange (CudaCartesianCellExchanger.cu:104, 121, 192-196; the processor waits for all requests) | `C74_fails_for_consecutive_exchanges` |
| C74 | the corner ghost cells are written by kernels on different streams; their values depend on the interleaving (the fluxes never read them) | `C74_corner_cells_race` |
| C75 | the view for the right entropy variables is made from the left volume (TecnoDiffusionCUDA.cu:160), so the right volume is never written and the reconstruction reads stale values | `C75_right_values_never_computed`, `C75_fails` |
| C75 | because of that view both threads next to a cell write its entropy variables, scaled with different eigenvectors; the result depends on the interleaving | `C75_race` |
| C75 | the diffusion lambda uses the captured neighbours of the cell instead of its arguments (TecnoDiffusionCUDA.cu:130-133), so the two faces of a cell use the matrix at the wrong state and totals change | `C75_fails`, `C75_total_changes` |
| C76 | the card uses the wrong recurrence of C58, the processor the library, so every degree from 2 to 11 differs where the state has the maximal value | `C76_legendre_fails_for_higher_degrees` |
| C76 | from degree 12 on the card throws and the processor computes | `C76_legendre_fails_from_degree_twelve` |
| C76 | the processor rejects grids by the length of their cells (LegendrePointWise.cpp), the card does not look at the grid | `C76_legendre_fails_for_rejected_grids` |
| C77 | StructureBasicCUDA subtracts the ghost cells from the number of inner cells (StructureBasicCUDA.cu:126-128), so it averages over a part of the domain and takes the boundary condition there; with as many inner cells as ghost cells the average is 0/0 | `C77_basic_fails_with_ghost_cells` |
| C77 | StructureBasicCUDA leaves out the distance zero, which the processor computes; visible for the exponent zero | `C77_basic_fails_for_exponent_zero` |
| C80 | the wave speed of the Buckley-Leverett fluxes is the larger one of the speeds of the two states, which is zero for the states 0 and 1; the CFL condition does not see the shock between them, and a run from data between 0 and 1 leaves that interval in its first step, with `rusanov` and with `godunov` | `C80_fails_for_buckley_leverett`, `C80_fails_for_buckley_leverett_godunov` |
| C80 | with the flux `central`, which the code offers for every equation, a forward Euler step with the CFL number one half leaves the range of the initial data | `C80_fails_for_central` |
| C80 | the scheme `rungekutta4` leaves the range of the initial data even with a monotone flux and a CFL number of one: cubic equation, flux `rusanov`, data 1, 1, -1, 1 | `C80_fails_for_rungekutta4` |
| C80 | on cells that are not cubes a first order run leaves the range of the initial data although the CFL condition holds, since fluxes in all directions are scaled with `dt / dx` (C33) | `C80_fails_for_cells_that_are_not_cubes` |
| C80, C81 | with the flux `tecno1` of the Burgers equation, which has no diffusion, a forward Euler step with the CFL number one half leaves the range of the initial data and increases the total variation; `tecno4` and `tecno6` do too | `C80_fails_for_tecno1`, `C81_fails_for_tecno1`, `C80_fails_for_tecno4`, `C81_fails_for_tecno4` |
| C80 | with the fluxes `godunov4` and `godunov6` of the Burgers equation the data 1, 0, 0, 0 have a negative value after a forward Euler step with the CFL number one half | `C80_fails_for_godunov4` |
| C81 | with the flux `central` the total variation grows in the first step of a forward Euler run | `C81_fails_for_central` |
| C81 | for the same reason a Buckley-Leverett run increases the total variation in its first step | `C81_fails_for_buckley_leverett`, `C81_fails_for_buckley_leverett_godunov` |
| C83 | nothing compares the number of directions of the grid with that of the equation: `euler1` on a two dimensional grid is accepted, and the flux in the second direction accesses component 1 of a momentum with one component (Euler.hpp:173-180, vec1.hpp:76-79) | `C83_accepts_too_many_directions` |
| C84 | the ghost cells of flux and reconstruction are combined by the maximum although a flux with a wide stencil reads reconstructed values: `tecno4` with `eno3`, `eno4` or `weno3` and `tecno6` with `eno4` read values in the work arrays that this evaluation has not computed | `C84_wide_is_needed` |
| C84 | a grid with one cell in the second direction and several in the third gets no ghost cells in the second one while the flux works in three directions | `C84_flat_in_y` |
| C84 | the diffusion operator asks for one ghost cell too few; with a two-point flux nobody else asks for more, and periodic totals change (see C24) | `C84_diffusion_too_narrow` |
| C84 | on the card the volumes inside the flux object keep the ghost cells of the flux (NumericalFluxCUDA.cu:243-259); if the diffusion operator asks for more, the last interior cells never receive a flux | `C84_card_last_cells` |
| C85 | `parseVector` takes three words of the text without looking how many there are: `<lowerCorner>0 0</lowerCorner>` reads behind the end of a vector (SimulatorSetup.cpp:73-83) | `C85_short_vector` |
| C86 | `time` and `timeRadius` without `numberOfSnapshots` give a writer of every step, no average (SimulatorSetup.cpp:394-415), though examples/kelvinhelmholtz_time asks for exactly that | `C86_average_without_snapshots` |
| C86 | with snapshots the first one counts with the time since 0 and the last one is left out: the average of the solution 1 over the times 9 to 11 is written as 5 (TimeIntegratedWriter.cpp:28-66 inside FixedIntervalWriter) | `C86_average_of_a_constant` |
| C86 | the same for functionals: the integral of 1 over the times 9 to 11 is written as 11 (TimeIntegrationFunctional.cpp:33-49) | `C86_integral_of_a_constant` |
| C86 | a functional with snapshots starting after the end: `finalize` dereferences a null pointer (TimeIntegrationFunctional.cpp:51-62) | `C86_window_after_the_end` |
| C87 | `IntervalFunctionalWriter` has no `finalize` and `TimeIntegrationFunctional::finalize` does not finalise its writer: python and library writers of functionals are never finalised | `C87_functionals_not_finalised` |
| C88 | the flux `central` with forward Euler, the automatic integrator for first order runs, loses positivity: gas at rest with a small density between gas streaming to both sides has a negative density after one step with the automatic CFL number | `C88_fails_for_central` |
| C88 | the flux `hll3` in two or three dimensions gives the middle states a common velocity along the face without its energy: it carries momentum along the face and no energy, and gas at rest next to gas of the same density and pressure that slides past it has a negative pressure after one step, for every CFL number if it slides fast enough | `C88_fails_for_hll3` |
| C88 | the Runge-Kutta schemes use the time step of the first stage in all stages. With `rungekutta2`, the flux `hll` and the reconstruction `none`, gas that slides along the faces of a one dimensional grid heats up in the first stage, the sound speed becomes much larger than the one the time step was computed from, and after the step a cell has a negative pressure, for every CFL number up to one except 2/3. Forward Euler keeps the same data positive | `C88_fails_for_rungekutta2` |
| C89 | with the flux `tecno6` of Burgers' equation the total entropy can grow: because of the constructor of `vec6` (C18) the sixth value is that of the wrong cell | `C89_fails_for_tecno6` |
| C90 | `stats::TimeIntegratedWriter` does not use its time and radius: a statistic in a window of time is evaluated at every step of every sample. The samples take different steps, so the snapshots mix different numbers of samples (divided by the number of all samples); on several processes the numbers of snapshots differ and the reductions do not match. | `C90_fails_for_windows` |
| C90 | with zero samples `Runner::run` writes the statistics with the grid of the last sample, a null pointer | `C90_no_samples` |
| C91 | `makeSampleGenerator` writes 0 and 1 over the bounds of the file before it creates the distribution: a file that asks for values between 1 and 2 gets values between 0 and 1 (C52 for the whole reading) | `C91_fails_for_bounds` |
| C91 | a statistic with neither `numberOfSaves` nor `time` is created and dropped without a message | `C91_statistic_dropped` |
| C91 | the number of samples is read as a real number and converted: undefined behaviour if it is negative or too large; `12.7` samples are 12 | `C91_undefined_number`, `Truncated` in `UQDescribed` |
| C91 | of several random parameters with one name only the last is used; an unknown generator is accepted if there are no random parameters | `ByName` and `UQMeant.parameters` in `UQDescribed` |
| C92 | the time-integrated statistic gives a step that ends in the window its full length, also if it starts before the window, and even if it ends exactly at the start of the window; a step that crosses the end of the window is missing. For the window from 1 to 2 and steps of length 1 the constant 1 has the integral 2 | `C92_fails`, `C92_riemann_sums` |
| C93 | the check of the states examines ghost cells next to other processes before they are exchanged; they hold a multiple of 42, which new memory is filled with, plus the old value. For the Euler equations in three dimensions this has negative pressure: a run of gas at rest that one process finishes is refused on two processes, for every order of messages | `C93_fails_for_euler` |
| C94 | `Views<1>::get<2>()` of the Euler equations compares with 3 where it means 2: it gives the density instead of the energy (after a failed assertion in builds with assertions). The code only uses `get(var)`, which is right. The `static_assert`s of `ViewsExtra` in two and three dimensions admit one number too many | `C94_fails_for_energy` |
| C95 | comments inside a section make reading fail; a section `uq` without parameters makes it fail although the code means to take those of the initial data (the section `fvm` has not been read yet); an empty element among repeated ones makes it fail | `C95_comments`, `C95_uq_without_parameters`, `C95_empty_item` |
| C95 | repeated elements are renamed after the element around them without its last letter; repeated elements among others: the last one wins (the C++ programs use the first) | `C95_renames`, `C95_repeated` |
| C95 | a configuration given as a dictionary is stored under a name nothing reads: running it fails for every dictionary | `C95_configuration_not_run` |
| C96 | the upper corner is ignored if both corners are given without the number of cells; one corner given with the number of cells is ignored | `C96_corner_lost`, `C96_corners_lost` |
| C96 | `set_initial_data` uses a name that does not exist: parameters of the initial data always make it fail | `C96_initial_parameters_fail` |
| C96 | the temporary file made for a run without a base file is left behind, the copy used for the run is removed | `C96_temporary_file_left` |
| C98 | `hll` returns a zero flux where the left wave speed is exactly zero, but not where the right one is: mirrored data give a different run | `C98_fails_for_hll` |
| C98 | ENO takes the neighbour to the right where the differences to both neighbours are equal: mirrored data give a different run | `C98_fails_for_eno` |
| C99 | `tecno1` in three dimensions has no flux in the last direction: gas is set in motion by a pressure difference along the first axis, not along the last | `C99_fails_for_tecno1` |
| C100 | `DLLWriter` never imports `delete_function`: the data of the library is not deleted, whatever the configuration | `C100_writer_never_deletes` |
| C100 | The documentation allows "NONE" for the function that creates the data of a writer; the writer looks for a function of this name and throws | `C100_writer_needs_create` |
| C100 | `WriterFactory` gives the writer no configuration of the processes; with a function for the communicator a null pointer is dereferenced | `C100_writer_without_communicator` |
| C100 | The members of `QMCDistribution` are destroyed in reverse order: the parameters before the data made from them | `C100_qmc_deletes_parameters_first` |
| C100 | If the constructor of `DLLDistribution` throws, parameters and data made so far are not deleted | `C100_failed_construction_keeps_objects` |
| C100 | Of an entry that occurs twice the library gets the first value twice | `C100_fails_for_repeated_entries` |
| C101 | Slashes and dots in file names are spelled `_dash_` and `_DOT_` in the report: `a.py` and `a_DOT_py` have the same name, one of the texts is lost | `C101_fails_for_similar_names` |
| C101 | Entries of the configuration with the same keys, such as several parameters or functionals, become one attribute with the last value | `C101_fails_for_repeated_entries` |
| C102 | The equation parameter `gamma` is given to the initial data, but `from math import *` runs after it and replaces it by the function `math.gamma`; a program that uses it as a number throws. The same holds for every parameter with a name from `math` or `numpy` (`e`, `pi`, `tau`, ...) | `C102_gamma_is_a_function` |
| C102 | Parameters named like an argument of the function (`x`, `i`, `output`) or like a variable are hidden | `C102_argument_hides_parameter` |
| C103 | The arrays are made once and overwritten at each output: what a script keeps from an earlier output changes | `C103_kept_arrays_change` |
| C103 | An exception in `write` skips the barrier at which the other processes wait | `C103_failing_script` |
| C104 | `alsuqcli` times its setup before the outermost block, so that the setup can have any percentage, e.g. 200 | `C104_fails_for_the_setup` |
| C104 | Without timers (`ALSVINN_USE_TIMERS` off) the run report converts 0/0 to `int`, which is undefined | `C104_fails_without_timers` |
| C104 | On several processes the thread that exchanges cells and the main thread look up timers in the same maps at the same time without a lock: a data race in every step | `C104_threads_race` |
| C105 | `structure_standalone` only prints a message if the number of processors does not divide the number of samples, and goes on: the last samples are not read, but counted in the mean; with more processors than samples nothing is written | `C105_samples_lost` |
| C105 | The option `boundary-condition` of `structure_standalone` is not used: the structure functions are always periodic | `C105_boundary_condition_ignored` |
| C105 | Variables of other types than `double` and `float` are read as zeros without a message | `C105_other_types_read_as_zero` |
| C105 | A file with two dimensions is to be refused, but its third length is read before the check | `C105_two_dimensions_undefined` |
| C106 | Without `numberOfSaves` the solution of every time step is written; the samples of a run take different numbers of steps, so that processes make different collective calls (they wait for each other for ever), or a later sample opens a file that does not exist | `C106_every_step`, `C106_every_step_one_process` |
| C106 | Only the times of the samples that come first are written: a solution at another time is added to the same file | `C106_every_step_one_process` |
| C106 | Files are only replaced for the first samples: a later sample with more writes is added to files of an earlier run | `C106_old_file` |
| C107 | Only the environment variable of Open MPI is read: with other launchers all processes of a node use card 0, without a warning | `C107_fails_for_other_launchers` |
| C107 | A call of the CUDA runtime that fails is logged as a warning, and the process goes on with card 0, shared with another process | `C107_failures_move_to_the_first_card` |
| C108 | The table takes the first element of a name at any depth: with `<diffusion>` before `<reconstruction>` it shows the reconstruction of the diffusion and wrong automatic choices | `C108_fails_for_diffusion` |
| C108 | The program removes white space around the reconstruction before the automatic choices, the script for the table does not | `C108_fails_for_white_space` |
| C108 | A comment at the beginning of an option is printed as its value | `C108_fails_for_comments` |
| C111 | `MpiWriterFactory::createWriter` adds `mpi_rank` and `mpi_size` to a copy of the parameters and hands over the original: without samples every script and library takes itself for process 0 | `C111_fails_without_samples` |
| C112 | `plotting.py` of the example does not empty `files_to_delete` between colour maps: on several processes the second colour map deletes files that are gone, which raises an exception | `C112_raises` |
| C112 | `plotting.py` puts the parts beside each other from the last column to the first | `C112_fails_for_columns` |
| C113 | Two functionals (`legendre`, `structure_base`) and two statistics (`structure_2pt`, `structure_surface`) exist on the processor only; without graphics cards the platform `cuda` is still there with a part of the names | `C113_fails_on_cards` |
| C113 | The statistic `structure_surface` can be named in a configuration, but throws whenever it is computed | `C113_structure_surface_unusable` |
| C114 | the source of a class in a namespace called `include` includes another header than the one written, since every `include/` is taken out of the path | `C114_include_lost` |
| C114 | the script is not all or nothing: if only the source exists already, it stops with an exception after it has written the header | `C114_half_done` |
| C114 | a class whose name begins with that of the library (`alsfvmFoo`) is not put into the namespace of the library, and its source is the file `src.cpp` beside the directory of sources, for all such classes | `C114_name_begins_with_library` |
| C115 | the interfaces of the shear layers leave the stated distance for numbers of both signs, which the example with the normal distribution asks for | `C115_fails_for_signed_numbers` |
| C115 | the shear layer in three dimensions divides sums by the normalizations of other sums; for some numbers between 0 and 1 there is no layer at all | `C115_fails_in_three_dimensions` |
| C115 | the tube of examples/kelvinhelmholtz_3d_tube always stops with an exception under Python 3, since `len(a)/6` is not an integer | `C115_fails_tube` |
| C115 | examples/richtmeyermeshkov works for 0, 1, 19, 20 or 21 numbers only; its file for single runs asks for 40 | `C115_richtmyer_meshkov_partial` |
| C115 | examples/kelvinhelmholtz uses points that are not the midpoints of the cells and that depend on the number of processes | `C115_fails_points`, `C115_fails_several_processes` |
| C115 | the velocities of the vortex are not numbers in its centre (a midpoint only if the number of cells is odd in the second direction) | `C115_fails_vortex`, `C115_vortex_cells` |
| C115 | the pressure of examples/taylorgreen has `z` where it should have `y` and is not symmetric | `C115_fails_taylor_green` |
| C115 | the data of examples/brownian_bl are negative for some normally distributed numbers | `C115_fails_brownian` |
| C116 | the Brownian velocities are zero at the far ends and not at the near ends, although the boundaries of the example are periodic | `C116_fails_periodic`, `C116_far_ends` |
| C116 | the Brownian example fails for grids that are not square, for parts of a grid divided in one direction, and for more than 1024 cells in a direction | `C116_fails_not_square`, `C116_fails_large` |
| C116 | on several processes every process gets the same small field instead of its part of the large one | `C116_fails_several_processes` |
| C116 | if the size is odd the last row and column have velocity zero, whatever the numbers | `C116_far_ends` |
| C117 | WENO adds a fixed constant to squares of differences of values: with data in another unit the run is not the same up to the unit | `C117_fails_for_weno` |
| C117 | `roe` of the linear equation replaces negative values by zero: a single cell with a negative value stays where it is instead of moving | `C117_fails_for_linear_roe` |
| C118 | `tecno1` of Burgers is made from an entropy with the fixed bounds 0 and 2 of the values: also within these bounds runs depend on the unit of the values, which the equation does not | `C118_fails_for_tecno1` |
| C119 | `writeInitialTimestep` is read and not used for a writer with coarse saves, and not read for a writer without a number of saves and for functionals: the initial data are written although the setting says no | `C119_fails`, `C119_ignored_with_coarse_saves`, `C119_ignored_without_saves`, `C119_ignored_by_functionals` |
| C120 | `get_line_segment` divides by the number of cells minus one: no value of a one-dimensional run is drawn at the midpoint of its cell, the last one is drawn outside the domain | `C120_fails`, `C120_line_misplaced` |
| C120 | `get_2d_grid` spreads the points over the domain with both ends: only the cell in the middle of a direction is drawn at its midpoint | `C120_mesh_misplaced` |
| C120 | A run with several cells in the first and third direction is drawn as a line, without the values of the other third indices; a run with one cell in the first direction is not drawn | `C120_third_direction_lost`, `C120_first_direction_needed` |
| C85, C108 | An XML comment between the options of `<fvm>` is refused as an unsupported option | `C108_comments_are_refused` |
