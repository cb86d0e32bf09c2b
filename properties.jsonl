{"id": "C01", "title": "Cell addressing is a bijection", "statement": "Addressing a cell of an nx*ny*nz memory area by its coordinates always lands inside the allocated buffer, two different cells never share storage, and every slot of the buffer belongs to exactly one cell.", "quantifier": "for every size (nx,ny,nz) and every pair of in-range cell coordinates", "why_tests_cant": "A unit test samples a few grid sizes; injectivity and exhaustiveness over all sizes needs an argument.", "anchors": ["alsfvm/include/alsfvm/memory/View.hpp: View::index, View::at", "alsfvm/include/alsfvm/memory/index.hpp: calculateIndex"]}
{"id": "C02", "title": "Interior extraction and read-back", "statement": "Copying the interior of a volume into a flat buffer yields exactly the interior cells, each once, x fastest then y then z, touches no ghost cell, never writes past the buffer, and refuses a buffer that is too small.", "quantifier": "for every grid size, every ghost width, every content and every buffer length", "why_tests_cant": "Off-by-one errors in the ghost offsets only show for particular combinations of sizes and ghost widths.", "anchors": ["alsfvm/src/volume/Volume.cpp: Volume::copyInternalCells", "alsfvm/src/memory/HostMemory.cpp: HostMemory::copyInternalCells"]}
{"id": "C03", "title": "Volume arithmetic acts cell by cell", "statement": "The in-place volume operations used by the integrators and statistics (+=, -=, *=, /=, scalar versions, linear combination with four other volumes, add/subtract power) change every cell to exactly the stated combination of the same cell in the operands, for every variable, and nothing else; two operands of different size never lead to a silent partial result.", "quantifier": "for every size, every content of every operand and every coefficient", "why_tests_cant": "The result has to be right for every cell of every size, including operands that alias the destination.", "anchors": ["alsfvm/src/memory/HostMemory.cpp: operator+=, operator*=, addLinearCombination, addPower, subtractPower", "alsfvm/src/volume/Volume.cpp: Volume::addLinearCombination, Volume::addPower"]}
{"id": "C04", "title": "Volume assignment copies the interior", "statement": "After assigning one volume to another of the same interior size the interior cells of the destination equal those of the source, also when the two volumes were created with different numbers of ghost cells.", "quantifier": "for every interior size, every pair of ghost widths and every content", "why_tests_cant": "Tests only use equal ghost widths, the failure appears only for unequal ones.", "anchors": ["alsfvm/src/volume/Volume.cpp: Volume::copyTo, Volume::setVolume", "alsfvm/include/alsfvm/volume/interpolate.hpp: interpolate"]}
{"id": "C05", "title": "Coarsening keeps constants and cell averages", "statement": "When a fine volume is assigned to a volume of half the resolution, every coarse interior cell is the arithmetic mean of the 2^d fine interior cells it covers; in particular constants stay constant and the mean over the domain is unchanged.", "quantifier": "for every even grid size in one, two and three dimensions, every ghost width and every content", "why_tests_cant": "A test on one grid in one dimension does not exercise the other dimension counts or ghost widths.", "anchors": ["alsfvm/include/alsfvm/volume/interpolate.hpp: interpolate<dim>", "alsfvm/src/volume/Volume.cpp: Volume::setVolume"]}
{"id": "C06", "title": "Total variation is exact over the interior", "statement": "The total variation reported for a memory area with given interior bounds is the sum over interior cells of the p-th power of the (isotropic) difference to the previous cell; it is non-negative, it is zero exactly on data constant over the cells it visits, and it never reads outside the buffer.", "quantifier": "for every size, bounds and content", "why_tests_cant": "Bounds errors only appear for particular start/end vectors.", "anchors": ["alsfvm/src/memory/HostMemory.cpp: HostMemory::getTotalVariation"]}
{"id": "C07", "title": "Periodic ghost cells wrap around", "statement": "After applying the periodic boundary condition in a direction every ghost cell holds the value of the interior cell one period away, interior cells are untouched, and no access leaves the buffer. When all directions have been done this also holds for edge and corner ghost cells.", "quantifier": "for every grid size, every ghost width not exceeding the interior size, every dimension and content; what happens for wider ghost layers is stated separately", "why_tests_cant": "Corner cells and wide ghost layers are exercised only by particular combinations.", "anchors": ["alsfvm/src/boundary/BoundaryCPU.cpp: applyBoundary", "alsfvm/include/alsfvm/boundary/Periodic.hpp: Periodic::applyBoundary"]}
{"id": "C08", "title": "Neumann ghost cells mirror the interior", "statement": "After applying the Neumann boundary condition every ghost cell at distance k from the edge holds the value of the interior cell at distance k from the edge on the inside, interior cells are untouched and no access leaves the buffer.", "quantifier": "for every grid size, ghost width not exceeding the interior size, dimension and content", "why_tests_cant": "The mirror has to hold for each ghost layer on both sides in each direction, including corners.", "anchors": ["alsfvm/src/boundary/BoundaryCPU.cpp", "alsfvm/include/alsfvm/boundary/Neumann.hpp: Neumann::applyBoundary"]}
{"id": "C09", "title": "Offset lookups across the boundary are always in range", "statement": "Looking up a value at an arbitrary integer offset from a cell wraps modulo the period for periodic boundaries and clamps to the nearest edge cell for Neumann boundaries; the cell read is always an interior cell.", "quantifier": "for every cell, every (also arbitrarily large or negative) offset, every number of cells and ghost cells", "why_tests_cant": "Negative modulo and large offsets are infinite cases.", "anchors": ["alsfvm/include/alsfvm/boundary/ValueAtBoundary.hpp"]}
{"id": "C10", "title": "Conservation", "statement": "One evaluation of the semi-discrete flux on a grid with periodic ghost cells changes the total amount of every conserved variable by exactly zero, and in general by exactly (inflow at the left face minus outflow at the right face) per grid line.", "quantifier": "for every numerical flux function, every reconstruction, every grid size and every state", "why_tests_cant": "Telescoping has to hold for all data and all flux functions, a test checks one example up to rounding.", "anchors": ["alsfvm/src/numflux/NumericalFluxCPU.cpp: computeNetFlux, computeFlux", "alsfvm/src/simulator/ConservedSystem.cpp"]}
{"id": "C11", "title": "Splitting the domain does not change the update", "statement": "Computing the flux first on the inner region while halo exchange is running and then on the side slabs gives, in every interior cell, the same value as computing it on the whole domain in one go; no interior cell is counted twice or missed; the maximal wave speed is the same.", "quantifier": "for every grid size with at least the ghost width the code assumes, every ghost width, dimension and state", "why_tests_cant": "Overlap or gap errors appear only for particular sizes (small subdomains).", "anchors": ["alsfvm/src/simulator/ConservedSystem.cpp: operator()", "alsfvm/src/numflux/NumericalFluxCPU.cpp"]}
{"id": "C12", "title": "Computation overlapping the halo exchange does not depend on the halo", "statement": "The values produced for the inner region while the neighbours' data is still in flight do not depend on what is in the ghost cells.", "quantifier": "for every content of the ghost cells at every point of the exchange, every reconstruction", "why_tests_cant": "It is a statement about all interleavings of exchange and computation.", "anchors": ["alsfvm/src/simulator/ConservedSystem.cpp: operator()", "alsfvm/src/reconstruction/WENOCPU.cpp", "alsfvm/src/reconstruction/NoReconstruction.cpp", "alsfvm/src/reconstruction/ReconstructionCPU.cpp"]}
{"id": "C13", "title": "Numerical fluxes are consistent", "statement": "Every numerical flux a user can select returns the physical flux f(u) when both states equal u.", "quantifier": "for every equation, every flux and every admissible state u", "why_tests_cant": "The equality has to hold at every state; failures sit at isolated states such as sonic points.", "anchors": ["alsfvm/include/alsfvm/numflux/Central.hpp", "alsfvm/include/alsfvm/numflux/Rusanov.hpp", "alsfvm/include/alsfvm/numflux/burgers/Godunov.hpp", "alsfvm/include/alsfvm/numflux/burgers/Roe.hpp", "alsfvm/include/alsfvm/numflux/cubic/Roe.hpp", "alsfvm/include/alsfvm/numflux/linear/Roe.hpp", "alsfvm/include/alsfvm/numflux/linear/Upwind.hpp", "alsfvm/include/alsfvm/numflux/buckleyleverett/Godunov.hpp", "alsfvm/include/alsfvm/numflux/euler/HLL.hpp", "alsfvm/include/alsfvm/numflux/euler/HLL3.hpp", "alsfvm/include/alsfvm/numflux/TecnoCombined4.hpp", "alsfvm/include/alsfvm/numflux/TecnoCombined6.hpp", "alsfvm/include/alsfvm/numflux/euler/Tecno1.hpp"]}
{"id": "C14", "title": "Uniform states are steady", "statement": "If all cells including ghost cells hold the same state, the computed update is exactly zero in every interior cell.", "quantifier": "for every flux, reconstruction, grid size and state", "why_tests_cant": "Must hold for each state and each scheme combination.", "anchors": ["alsfvm/src/numflux/NumericalFluxCPU.cpp: computeNetFlux"]}
{"id": "C15", "title": "Godunov fluxes solve the Riemann problem", "statement": "The Godunov fluxes for Burgers (all states) and Buckley-Leverett (saturations in [0,1]) equal the minimum of the physical flux over the states between left and right when left<=right and the maximum otherwise; consequently they are non-decreasing in the left state and non-increasing in the right state.", "quantifier": "for every pair of states", "why_tests_cant": "It is an extremum over a continuum of states.", "anchors": ["alsfvm/include/alsfvm/numflux/burgers/Godunov.hpp", "alsfvm/include/alsfvm/numflux/buckleyleverett/Godunov.hpp"]}
{"id": "C16", "title": "Rusanov flux is monotone under its own wave speed", "statement": "For Burgers' equation the Rusanov flux is non-decreasing in the left and non-increasing in the right state on the range of states bounded by the dissipation coefficient; the returned wave speed bounds the characteristic speeds of both states.", "quantifier": "for every pair of states and perturbation", "why_tests_cant": "Monotonicity is universally quantified over pairs of states.", "anchors": ["alsfvm/include/alsfvm/numflux/Rusanov.hpp", "alsfvm/include/alsfvm/equation/burgers/Burgers.hpp"]}
{"id": "C17", "title": "Scalar entropy-conservative flux conserves entropy", "statement": "The entropy-conservative flux F satisfies (v(uR)-v(uL))*F(uL,uR) = psi(uR)-psi(uL) for the entropy variable v and potential psi of the equation, and the potential belongs to the flux of that equation.", "quantifier": "for every pair of admissible states of every scalar equation that offers it", "why_tests_cant": "An identity for all pairs of reals.", "anchors": ["alsfvm/include/alsfvm/numflux/ScalarEntropyConservativeFlux.hpp", "alsfvm/include/alsfvm/equation/burgers/Burgers.hpp", "alsfvm/include/alsfvm/equation/linear/Linear.hpp", "alsfvm/include/alsfvm/equation/cubic/Cubic.hpp", "alsfvm/include/alsfvm/equation/buckleyleverett/BuckleyLeverett.hpp"]}
{"id": "C18", "title": "High-order entropy-conservative combinations are consistent and entropy conservative", "statement": "The fourth and sixth order linear combinations of a two-point entropy conservative flux are consistent, symmetric, preserve uniform states, satisfy the order conditions for fourth and sixth order, and report the largest wave speed of the pairs of states they are made of.", "quantifier": "for every symmetric consistent two-point flux and every stencil of states", "why_tests_cant": "Stencil identities over all states.", "anchors": ["alsfvm/include/alsfvm/numflux/TecnoCombined4.hpp", "alsfvm/include/alsfvm/numflux/TecnoCombined6.hpp"]}
{"id": "C19", "title": "Euler: conserved and primitive variables round-trip", "statement": "Converting primitive variables (density, velocity, pressure) to conserved and back yields the original values, and states built from positive density and pressure pass the admissibility check; the sound speed of every state that passes the check is well defined.", "quantifier": "for every density>0, pressure>0, velocity in 1, 2 and 3 dimensions and every gamma>1", "why_tests_cant": "Algebraic identity over a continuum.", "anchors": ["alsfvm/include/alsfvm/equation/euler/Euler.hpp: computeConserved, computePrimitive, computeExtra, obeysConstraints"]}
{"id": "C20", "title": "Euler: entropy variables, potential and flux fit together", "statement": "The inner product of the entropy variables with the physical flux minus the entropy flux equals the potential reported by the equation, in every direction.", "quantifier": "for every admissible state and direction", "why_tests_cant": "Identity involving logarithms over a continuum of states.", "anchors": ["alsfvm/include/alsfvm/equation/euler/Euler.hpp: computeEntropyVariables, computeEntropyPotential, computePointFlux"]}
{"id": "C21", "title": "Euler: eigenvectors diagonalise the flux", "statement": "The columns of the eigenvector matrix returned for a direction are right eigenvectors of the flux Jacobian in that direction with the eigenvalues returned in the same order.", "quantifier": "for every admissible state, each dimension and direction", "why_tests_cant": "Identity over a continuum; failures are in directions that one-dimensional tests do not touch.", "anchors": ["alsfvm/include/alsfvm/equation/euler/Euler.hpp: computeEigenVectorMatrix, computeEigenValues"]}
{"id": "C22", "title": "Tecno1 flux conserves entropy", "statement": "The entropy-conservative Euler flux satisfies the discrete entropy identity against the jump of entropy variables and potential.", "quantifier": "for every pair of admissible states", "why_tests_cant": "Identity with logarithmic means over pairs of states; the equal-state branch is a measure-zero set.", "anchors": ["alsfvm/include/alsfvm/numflux/euler/Tecno1.hpp", "alsfvm/include/alsfvm/numflux/tecno_utils.hpp"]}
{"id": "C23", "title": "HLL lies between its one-sided fluxes", "statement": "The HLL flux returns the left physical flux when all waves move right, the right physical flux when all waves move left, and otherwise the unique flux of the conservative three-state approximation.", "quantifier": "for every pair of admissible states", "why_tests_cant": "Branch boundaries are measure-zero sets of states.", "anchors": ["alsfvm/include/alsfvm/numflux/euler/HLL.hpp", "alsfvm/include/alsfvm/numflux/euler/HLL3.hpp"]}
{"id": "C24", "title": "Tecno diffusion is conservative and dissipative", "statement": "The diffusion operator added for entropy-stable schemes telescopes (adds zero to the total with periodic ghost cells), and with a Roe or Rusanov type matrix it never produces entropy: the entropy-variable jump times the diffusion flux is non-negative whenever the reconstructed jump has the sign of the original jump.", "quantifier": "for every state, every reconstruction with the sign property, every grid size", "why_tests_cant": "Quadratic-form inequality over all states.", "anchors": ["alsfvm/src/diffusion/TecnoDiffusionCPU.cpp", "alsfvm/include/alsfvm/diffusion/RoeMatrix.hpp", "alsfvm/include/alsfvm/diffusion/RusanovMatrix.hpp"]}
{"id": "C25", "title": "Limited second-order reconstruction creates no new extrema", "statement": "The minmod and MC reconstructions return face values that lie between the cell and its neighbour on that side, average to the cell value, and are flat at local extrema.", "quantifier": "for every triple of cell values", "why_tests_cant": "Inequality over all triples of reals with many sign cases.", "anchors": ["alsfvm/include/alsfvm/reconstruction/MC.hpp", "alsfvm/include/alsfvm/reconstruction/MM.hpp", "alsfvm/include/alsfvm/reconstruction/minmod.hpp"]}
{"id": "C26", "title": "ENO reconstruction is exact on polynomials", "statement": "The ENO reconstruction of order k reproduces the face values of every polynomial of degree below k from its cell averages, whichever stencil is selected, and the stencil always contains the cell and stays within the ghost layer.", "quantifier": "for every order 1..4, every stencil choice, every polynomial and cell", "why_tests_cant": "Infinitely many polynomials; the stencil choice depends on data.", "anchors": ["alsfvm/src/reconstruction/ENOCPU.cpp", "alsfvm/src/reconstruction/ENOCoefficients.cpp"]}
{"id": "C27", "title": "ENO picks the smoother stencil", "statement": "When a stencil containing the cell is free of jumps (the data on it is constant) the ENO reconstruction does not use a stencil crossing a jump: the face values equal that constant.", "quantifier": "for every order and every data with a constant stencil around the cell", "why_tests_cant": "The failing data patterns are specific to the third and fourth order.", "anchors": ["alsfvm/src/reconstruction/ENOCPU.cpp: performReconstruction"]}
{"id": "C28", "title": "WENO weights are convex and reconstruction is exact where it must be", "statement": "The WENO weights are positive and sum to one, constants are reproduced exactly, the face value is a convex combination of the ENO face values, and the specialised second order implementation agrees with the general one.", "quantifier": "for every data on the stencil", "why_tests_cant": "Rational function identities and inequalities over all real data.", "anchors": ["alsfvm/src/reconstruction/WENOCPU.cpp", "alsfvm/src/reconstruction/WENOCoefficients.cpp", "alsfvm/include/alsfvm/reconstruction/WENO2.hpp"]}
{"id": "C29", "title": "WENOF2 keeps density and pressure positive", "statement": "The positivity-limited reconstruction for Euler returns face states with positive density and pressure whenever the cell state has them.", "quantifier": "for every admissible cell state and arbitrary neighbours", "why_tests_cant": "Inequality over a continuum of states including wild neighbours.", "anchors": ["alsfvm/include/alsfvm/reconstruction/WENOF2.hpp"]}
{"id": "C30", "title": "Runge-Kutta integrators compute the textbook scheme", "statement": "The sequence of in-place volume operations in each integrator produces the documented scheme: forward Euler, SSP-RK2, SSP-RK3 and classical RK4, as a function of the right hand side operator.", "quantifier": "for every right hand side operator, state and time step", "why_tests_cant": "In-place reuse of buffers must be right for every operator.", "anchors": ["alsfvm/src/integrator/ForwardEuler.cpp", "alsfvm/src/integrator/RungeKutta2.cpp", "alsfvm/src/integrator/RungeKutta3.cpp", "alsfvm/src/integrator/RungeKutta4.cpp"]}
{"id": "C31", "title": "SSP integrators preserve convex invariants", "statement": "If a forward Euler step keeps the solution in a convex set (bounds, positivity, convex functional not increasing), so does a step of the second and third order integrators with the same time step.", "quantifier": "for every convex set, operator and state", "why_tests_cant": "Quantifies over all convex sets and operators.", "anchors": ["alsfvm/src/integrator/RungeKutta2.cpp", "alsfvm/src/integrator/RungeKutta3.cpp"]}
{"id": "C32", "title": "Time step obeys the CFL condition and every adjuster", "statement": "The computed time step dt satisfies dt * sum over directions of (max wave speed / cell length) <= CFL and is not larger than what any registered adjuster asks for; it is positive if all adjusters return positive steps and some wave speed is positive.", "quantifier": "for every grid, wave speed vector, list of adjusters", "why_tests_cant": "Lists of adjusters of any length and order.", "anchors": ["alsfvm/src/integrator/Integrator.cpp: computeTimestep, adjustTimestep"]}
{"id": "C33", "title": "Update is scaled with the cell length of its own direction", "statement": "The update of a cell in one step is dt times the sum over the directions of (flux difference in that direction / cell length in that direction).", "quantifier": "for every grid including cells that are not cubes", "why_tests_cant": "Tests use square cells where the scalings coincide.", "anchors": ["alsfvm/src/integrator/ForwardEuler.cpp", "alsfvm/src/integrator/RungeKutta4.cpp", "alsfvm/src/numflux/NumericalFluxCPU.cpp"]}
{"id": "C34", "title": "Simulator: time, steps and writers stay in lock-step", "statement": "After n steps the simulation time is the sum of the n accepted time steps and the step counter is n; every registered writer has been called exactly once per step, in registration order, with the state and time of that step; no writer is called on a step whose state failed the admissibility check. A whole run writes the initial state once before the first step.", "quantifier": "for every number of steps, every set of writers, every integrator and every sequence of time steps", "why_tests_cant": "A statement about all histories.", "anchors": ["alsfvm/src/simulator/Simulator.cpp: performStep, callWriters, checkConstraints, incrementSolution", "alsfvm/src/simulator/TimestepInformation.cpp"]}
{"id": "C35", "title": "Boundary data is current whenever the right hand side is evaluated", "statement": "Every evaluation of the right hand side in a time step (first or later substep) sees a volume on which the boundary condition has been applied after its interior was last written, and after a step the volume exposed to the writers is the new solution.", "quantifier": "for every integrator, number of substeps and number of steps", "why_tests_cant": "A statement about all histories of buffer rotations.", "anchors": ["alsfvm/src/simulator/Simulator.cpp: incrementSolution, setInitialValue"]}
{"id": "C36", "title": "Simulation ends at the end time", "statement": "The simulation terminates, and at termination the simulation time is the configured end time.", "quantifier": "for every configuration with positive time steps bounded below", "why_tests_cant": "Depends on the writers configured; a statement about all histories.", "anchors": ["alsfvm/src/simulator/Simulator.cpp: atEnd", "alsfvm/src/config/SimulatorSetup.cpp"]}
{"id": "C37", "title": "Fixed-interval output hits every save time exactly once", "statement": "With its time step adjuster registered, a fixed-interval writer saves at exactly the times start+k*interval (including 0 if requested), once each, missing none up to the current time, and never asks for a negative time step.", "quantifier": "for every interval, start, initial-save flag and every sequence of proposed time steps", "why_tests_cant": "Quantifies over all time step sequences.", "anchors": ["alsfvm/src/io/FixedIntervalWriter.cpp: write, adjustTimestep"]}
{"id": "C38", "title": "Coarse-graining output saves the full cluster at every interval", "statement": "The coarse-graining writer saves at the initial time and, around every multiple of the interval, at the 2m+1 times spaced by (skips+1)*dx, each once, in increasing order.", "quantifier": "for every interval, cluster size, spacing and every sequence of proposed time steps", "why_tests_cant": "Quantifies over all histories.", "anchors": ["alsfvm/src/io/CoarseGrainingIntervalWriter.cpp"]}
{"id": "C39", "title": "Time-integrated output is the time average over the window", "statement": "The time-integrated writer emits exactly one field, the sum of dt*state over the steps inside the window divided by the window length, after the window has passed; it never fails when no step fell into the window.", "quantifier": "for every sequence of step times, window centre and radius", "why_tests_cant": "Quantifies over all histories.", "anchors": ["alsfvm/src/io/TimeIntegratedWriter.cpp"]}
{"id": "C40", "title": "Time-integrated functionals accumulate with the step length as weight", "statement": "A functional wrapped for time integration ends up as the sum over all steps in the window of (time since the previous step) times the functional of the state at that step.", "quantifier": "for every functional offered, every sequence of step times", "why_tests_cant": "Quantifies over functionals and histories.", "anchors": ["alsfvm/src/functional/TimeIntegrationFunctional.cpp", "alsfvm/src/functional/StructureCube.cpp", "alsfvm/src/functional/StructureBase.cpp"]}
{"id": "C41", "title": "Queued output is delivered in order and unmodified", "statement": "Every volume pushed to the queue writer is popped exactly once, in order, with the contents it had when it was pushed.", "quantifier": "for every interleaving of producer and consumer and every queue size", "why_tests_cant": "Quantifies over all interleavings.", "anchors": ["alsfvm/src/io/QueueWriter.cpp"]}
{"id": "C42", "title": "Output names never collide", "statement": "The names derived from a base name and a snapshot number are different for different (base name, snapshot number) pairs, so snapshots never overwrite each other.", "quantifier": "for every pair of base names and snapshot numbers", "why_tests_cant": "Quantifies over all strings and numbers.", "anchors": ["alsfvm/src/io/io_utils.cpp: getOutputname"]}
{"id": "C43", "title": "File layout identifies cells by their coordinates", "statement": "In a written file the entry at index (x,y,z) of the declared (x,y,z) dimensions is the value of cell (x,y,z), and the parallel writer writes the same file as the serial writer.", "quantifier": "for every grid size, decomposition and content", "why_tests_cant": "Square test grids hide transpositions.", "anchors": ["alsfvm/src/io/NetCDFWriter.cpp", "alsfvm/src/io/NetCDFMPIWriter.cpp", "alsfvm/src/io/HDF5Writer.cpp"]}
{"id": "C44", "title": "Ranks and Cartesian positions are in bijection", "statement": "Converting a rank to its Cartesian position and back gives the rank; positions of different ranks differ; every position of the process grid belongs to a rank; a position one off the grid wraps around.", "quantifier": "for every process grid and rank", "why_tests_cant": "All process grids.", "anchors": ["alsfvm/include/alsfvm/mpi/cartesian/rank_component.hpp", "alsfvm/include/alsfvm/mpi/cartesian/rank_index.hpp"]}
{"id": "C45", "title": "Domain decomposition tiles the grid", "statement": "When the decomposition accepts a process grid, the subdomains of the ranks are disjoint, cover all cells, have equal size, and each local cell has the midpoint and cell length of the global cell it stands for; otherwise it reports an error.", "quantifier": "for every grid and process grid", "why_tests_cant": "All grids and process grids.", "anchors": ["alsfvm/src/mpi/domain/CartesianDecomposition.cpp: decompose", "alsfvm/src/grid/Grid.cpp"]}
{"id": "C46", "title": "Neighbour relation is symmetric", "statement": "If rank a has rank b as neighbour on a side then b has a as neighbour on the opposite side; physical boundaries keep the user's boundary condition exactly on the outermost ranks and get no neighbour.", "quantifier": "for every process grid, boundary type, rank and side", "why_tests_cant": "All process grids, including one or two processes per direction.", "anchors": ["alsfvm/src/mpi/domain/CartesianDecomposition.cpp: decompose"]}
{"id": "C47", "title": "Halo messages match and cannot deadlock or cross", "statement": "In one exchange every posted send has exactly one matching posted receive (same pair of ranks, tag and element count) and vice versa; no two messages between the same ranks share a tag.", "quantifier": "for every process grid, number of variables and boundary configuration", "why_tests_cant": "All process grids; two processes per periodic direction is the delicate case.", "anchors": ["alsfvm/src/mpi/CartesianCellExchanger.cpp: exchangeCells"]}
{"id": "C48", "title": "Halo exchange delivers the neighbours' cells", "statement": "The memory segments sent are exactly the interior slab adjacent to the side and those received are exactly the ghost slab of that side, listed in the same order, in bounds; after the exchange each face ghost cell holds the value of the global cell it stands for.", "quantifier": "for every subdomain size, ghost width, dimension, side", "why_tests_cant": "Displacement arithmetic over all sizes.", "anchors": ["alsfvm/include/alsfvm/mpi/cartesian/displacements.hpp", "alsfvm/include/alsfvm/mpi/cartesian/lengths.hpp", "alsfvm/include/alsfvm/mpi/cartesian/number_of_segments.hpp", "alsfvm/src/mpi/CartesianCellExchanger.cpp"]}
{"id": "C49", "title": "Parallel run equals serial run", "statement": "One flux evaluation on decomposed subdomains after halo exchange gives in each cell the value the undecomposed run computes, and all processes use the same time step.", "quantifier": "for every state, flux, process grid", "why_tests_cant": "All decompositions and states.", "anchors": ["alsfvm/src/simulator/ConservedSystem.cpp", "alsfvm/src/mpi/CartesianCellExchanger.cpp", "alsfvm/src/mpi/CellExchanger.cpp", "alsfvm/src/integrator/Integrator.cpp"]}
{"id": "C50", "title": "Samples are partitioned over the processes", "statement": "Load balancing gives each sample to exactly one statistical group, all groups get the same number, all spatial ranks of a group get the same samples in the same order, and configurations that do not divide evenly are rejected; the two sub-communicators split the ranks into complementary groups.", "quantifier": "for every list of samples, process count and distribution", "why_tests_cant": "All counts.", "anchors": ["alsuq/src/mpi/SimpleLoadBalancer.cpp: loadBalance"]}
{"id": "C51", "title": "Random parameters do not depend on the parallel distribution", "statement": "The value of each random parameter of sample number s depends only on s (and the parameter), not on which samples the process has generated before or how the samples are distributed.", "quantifier": "for every set of parameters, every partition of the samples and every order of generation", "why_tests_cant": "Quantifies over call histories of a shared generator.", "anchors": ["alsuq/src/generator/STLMersenne.cpp: generate", "alsuq/src/samples/SampleGenerator.cpp", "alsuq/src/run/Runner.cpp"]}
{"id": "C52", "title": "Distribution parameters given by the user are used", "statement": "The lower and upper end (or mean and deviation) given in the configuration are the ones the samples are drawn with; uniform samples lie in [lower,upper]; the one dimensional equidistant samples are the midpoints of N equal cells of [a,b].", "quantifier": "for every configuration and every sample", "why_tests_cant": "Quantifies over configurations and samples.", "anchors": ["alsuq/src/config/Setup.cpp: makeSampleGenerator", "alsuq/src/distribution/Uniform.cpp", "alsuq/src/distribution/Uniform1D.cpp", "alsutils/src/parameters/Parameters.cpp"]}
{"id": "C53", "title": "Statistics do not depend on how samples are spread over processes", "statement": "The combined statistic equals the sum over all samples of the per-sample contribution divided by the number of samples, whatever the assignment of samples to processes.", "quantifier": "for every assignment of samples, every sample content", "why_tests_cant": "All assignments and contents.", "anchors": ["alsuq/src/stats/StatisticsHelper.cpp: combineStatistics", "alsuq/src/stats/MeanVariance.cpp", "alsuq/src/stats/OnePointMoment.cpp", "alsuq/src/stats/BoundedVariation.cpp", "alsuq/src/stats/BoundedVariationDirection.cpp", "alsuq/src/stats/FunctionalStatistics.cpp"]}
{"id": "C54", "title": "Mean and variance are right and variance is non-negative", "statement": "The mean-variance statistic gives the arithmetic mean and the (biased) variance of the samples in every cell; the variance is never negative.", "quantifier": "for every number of samples and content", "why_tests_cant": "All sample sets.", "anchors": ["alsuq/src/stats/MeanVariance.cpp"]}
{"id": "C55", "title": "Every sample contributes at every save time of a statistic", "statement": "A statistic saved at fixed intervals is evaluated for every sample at the same save times, although the same object is reused for one sample after another.", "quantifier": "for every number of samples and every time step history per sample", "why_tests_cant": "Quantifies over sequences of histories.", "anchors": ["alsuq/src/stats/FixedIntervalStatistics.cpp", "alsuq/src/run/Runner.cpp"]}
{"id": "C56", "title": "Structure function visits each lattice shift of the cube surface once", "statement": "The structure function at distance h sums the p-th power of the increments over exactly the lattice shifts whose maximum norm is h, each once, in one, two and three dimensions.", "quantifier": "for every h, dimension, grid size and content", "why_tests_cant": "All h; edges and corners of the cube are easily double counted.", "anchors": ["alsfvm/include/alsfvm/functional/structure_common.hpp: forEachPointInComputeStructureCube", "alsfvm/src/functional/StructureCube.cpp", "alsuq/src/stats/StructureCube.cpp"]}
{"id": "C57", "title": "Directional structure functions average over the whole interior", "statement": "The one-direction (and two-point) structure functions equal the average over all interior cells of the p-th power of the increment(s), and are zero for constant data.", "quantifier": "for every grid size, ghost width, shift and content", "why_tests_cant": "Grid sizes with ghost layers other than those of the tests.", "anchors": ["alsfvm/src/functional/StructureBase.cpp", "alsuq/src/stats/StructureBasic.cpp", "alsuq/src/stats/StructureTwoPoints.cpp"]}
{"id": "C58", "title": "Legendre polynomials satisfy the three-term recurrence", "statement": "The Legendre polynomial evaluator returns the Legendre polynomial of the requested degree (Bonnet recurrence; value 1 at 1).", "quantifier": "for every degree and argument", "why_tests_cant": "All degrees.", "anchors": ["alsutils/include/alsutils/math/legendre.hpp"]}
{"id": "C59", "title": "Fast integer power equals the power", "statement": "The unrolled power used in structure functions equals the p-th power.", "quantifier": "for every p and argument", "why_tests_cant": "All exponents.", "anchors": ["alsutils/include/alsutils/math/FastPower.hpp"]}
{"id": "C60", "title": "Vectors and matrices do componentwise and textbook linear algebra", "statement": "Fixed-size vectors keep all components given at construction through arithmetic; matrix product, transpose and matrix-vector product agree with linear algebra.", "quantifier": "for every content", "why_tests_cant": "All contents; a dropped component shows only when it is non-zero.", "anchors": ["alsutils/include/alsutils/vec6.hpp", "alsutils/include/alsutils/mat.hpp"]}
{"id": "C61", "title": "Parameter lists round-trip", "statement": "A list of words stored as a parameter and read back is the same list.", "quantifier": "for every list of non-empty words without blanks", "why_tests_cant": "All lists of strings.", "anchors": ["alsutils/src/parameters/Parameters.cpp: addVectorParameter, getStringVectorFromString"]}
{"id": "C62", "title": "Initial data is evaluated once per interior cell at its midpoint", "statement": "Initial data functions are evaluated for each interior cell exactly once with that cell's midpoint, and the strided arrays handed to Python scripts address exactly the interior cells.", "quantifier": "for every grid size, ghost width, dimension", "why_tests_cant": "All sizes.", "anchors": ["alsfvm/include/alsfvm/volume/volume_foreach.hpp: for_each_midpoint", "alsfvm/src/init/PythonInitialData.cpp", "alsfvm/src/grid/Grid.cpp"]}
{"id": "C63", "title": "Parallel iteration visits each cell exactly once", "statement": "The iteration helpers (internal volume indices, with direction, with start/end offsets) visit each cell of the documented region exactly once and pass the indices of its true left/right neighbours in the direction.", "quantifier": "for every size, ghost width, direction, start and end", "why_tests_cant": "All sizes.", "anchors": ["alsfvm/include/alsfvm/volume/volume_foreach.hpp"]}
{"id": "C64", "title": "Inadmissible states are reported", "statement": "The admissibility check of a volume succeeds exactly when every interior cell is finite and satisfies the equation's constraint; the maximal wave speed returned bounds the wave speed of every interior cell and is attained.", "quantifier": "for every size and content", "why_tests_cant": "The violation may sit in any single cell.", "anchors": ["alsfvm/src/equation/CPUCellComputer.cpp"]}
{"id": "C65", "title": "Factories and parameters fail loudly", "statement": "Requesting an unknown name from a registry reports an error, registering a name twice reports an error, and otherwise the creator registered under a name is the one that is called.", "quantifier": "for every history of registrations", "why_tests_cant": "All histories.", "anchors": ["alsutils/include/alsutils/base/impl/FactoryRegistry.hpp", "alsfvm/src/init/Parameters.cpp"]}
{"id": "C66", "title": "Entropy-stable ENO reconstruction has the sign property", "statement": "At every face the jump of the values reconstructed by the entropy-variable ENO reconstruction has the same sign as the jump of the cell values it was computed from.", "quantifier": "for every order 2..4 and all data", "why_tests_cant": "Inequality over all data and stencil choices.", "anchors": ["alsfvm/src/reconstruction/tecno/ENOCPU.cpp"]}
{"id": "C67", "title": "A parameter is reported present exactly when it can be read", "statement": "Asking whether a parameter exists answers yes exactly when reading it succeeds.", "quantifier": "for every parameter set and every name", "why_tests_cant": "All names, including ones with structure characters.", "anchors": ["alsutils/src/parameters/Parameters.cpp: contains, getString"]}
{"id": "C68", "title": "Cell by cell conversions convert every cell", "statement": "Computing extra variables from conserved ones, or conserved from primitive ones, stores in every cell the conversion of that cell's state and nothing else.", "quantifier": "for every size, number of variables and content", "why_tests_cant": "All sizes and contents.", "anchors": ["alsfvm/include/alsfvm/volume/volume_foreach.hpp: transform_volume", "alsfvm/src/equation/CPUCellComputer.cpp"]}
{"id": "C69", "title": "Boundary conditions on the graphics card equal those on the processor", "statement": "Applying a boundary condition with the CUDA implementation leaves the volume in exactly the state the CPU implementation gives, however the threads of the kernels are interleaved, and never touches memory outside the volume.", "quantifier": "for every volume large enough for its ghost cells, every ghost width, both boundary conditions, every choice of sides handled by message passing, and every interleaving of the threads", "why_tests_cant": "Thread interleavings and sizes are unbounded; races show up only on some hardware.", "anchors": ["alsfvm/src/boundary/BoundaryCUDA.cu", "alsfvm/src/boundary/BoundaryCPU.cpp"]}
{"id": "C70", "title": "Memory operations on the graphics card equal those on the processor", "statement": "Every arithmetic operation of CudaMemory (sum, difference, product, quotient with a memory area or a scalar, linear combination, powers) changes every element as the corresponding operation of HostMemory does, however the threads are interleaved, and the total variation is the same number.", "quantifier": "for all sizes, contents, scalars, aliasing operands and interleavings", "why_tests_cant": "All sizes around the block size and all interleavings.", "anchors": ["alsfvm/src/cuda/vector_operations.cu", "alsfvm/src/cuda/CudaMemory.cpp", "alsfvm/src/memory/HostMemory.cpp"]}
{"id": "C71", "title": "The cell computer on the graphics card answers for all cells", "statement": "The CUDA cell computer computes the extra variables of every cell, reports that the constraints are obeyed exactly when every cell obeys them, and its maximal wave speed is the maximum over all cells, as the CPU cell computer does.", "quantifier": "for every equation, size and content", "why_tests_cant": "A single bad cell anywhere must be noticed.", "anchors": ["alsfvm/src/equation/CUDACellComputer.cu", "alsfvm/src/equation/CPUCellComputer.cpp"]}
{"id": "C72", "title": "Net fluxes on the graphics card equal those on the processor", "statement": "The CUDA flux computation stores the same net flux in every cell and reports the same maximal wave speed per direction as the CPU implementation, however the threads are interleaved and also when the domain is computed in several regions (inner region, then the slabs at the sides), for flux functions whose wave speeds are not negative.", "quantifier": "for every flux function with nonnegative wave speeds, reconstruction, contents, volume size, non-empty region and interleaving", "why_tests_cant": "All sizes, regions and interleavings.", "anchors": ["alsfvm/src/numflux/NumericalFluxCUDA.cu", "alsfvm/src/numflux/NumericalFluxCPU.cpp", "alsfvm/src/simulator/ConservedSystem.cpp"]}
{"id": "C73", "title": "Reconstructions on the graphics card equal those on the processor", "statement": "The CUDA reconstructions (none; ENO of order 2, 3 and 4; the limiters and second order WENO reconstructions, which are fixed stencils) store in every cell the CPU implementations fill the same left and right values, however the threads are interleaved, and change neither input nor output.", "quantifier": "for every input, order, direction, size and interleaving", "why_tests_cant": "All data, stencil choices, sizes and interleavings.", "anchors": ["alsfvm/src/reconstruction/ENOCUDA.cu", "alsfvm/src/reconstruction/ReconstructionCUDA.cu", "alsfvm/src/reconstruction/NoReconstructionCUDA.cu", "alsfvm/src/reconstruction/ENOCPU.cpp"]}
{"id": "C74", "title": "Packing and unpacking of halos on the graphics card moves the same cells as the message types on the processor", "statement": "The CUDA cell exchanger sends for every side exactly the cells, in the same order, that the message types of the CPU exchanger stand for, and writes what it receives into the same ghost cells, however kernels, copies and messages are interleaved, also when exchanges follow each other.", "quantifier": "for all sizes, ghost widths, sides, interleavings and numbers of exchanges", "why_tests_cant": "All sizes, sides and interleavings.", "anchors": ["alsfvm/src/mpi/CudaCartesianCellExchanger.cu", "alsfvm/src/mpi/CartesianCellExchanger.cpp"]}
{"id": "C75", "title": "Entropy-stable diffusion on the graphics card equals that on the processor", "statement": "The CUDA diffusion adds to every cell the same diffusion term as the CPU implementation and changes no total, however the threads are interleaved.", "quantifier": "for every state, reconstruction, direction, size and interleaving", "why_tests_cant": "All data, sizes and interleavings.", "anchors": ["alsfvm/src/diffusion/TecnoDiffusionCUDA.cu", "alsfvm/src/reconstruction/tecno/ENOCUDA_tecno.cu", "alsfvm/src/diffusion/TecnoDiffusionCPU.cpp"]}
{"id": "C76", "title": "Functionals on the graphics card equal those on the processor", "statement": "Every functional with a CUDA implementation (identity, pointwise Legendre, logarithmic entropy, structure cube) adds to its output the same numbers as the CPU implementation of the same name.", "quantifier": "for all volumes, weights, parameters and interleavings", "why_tests_cant": "All sizes, contents and interleavings.", "anchors": ["alsfvm/src/functional/IdentityCUDA.cu", "alsfvm/src/functional/LegendrePointWiseCUDA.cu", "alsfvm/src/functional/LogEntropyCUDA.cu", "alsfvm/src/functional/StructureCubeCUDA.cu"]}
{"id": "C77", "title": "Structure functions on the graphics card equal those on the processor", "statement": "The CUDA statistics for structure functions add to every shift length the same number as the CPU statistics of the same name.", "quantifier": "for all volumes, exponents, shift counts, directions, boundary conditions and interleavings", "why_tests_cant": "All sizes, contents and interleavings.", "anchors": ["alsuq/src/stats/StructureBasicCUDA.cu", "alsuq/src/stats/StructureCubeCUDA.cu", "alsfvm/include/alsfvm/functional/structure_common_cuda.hpp"]}
{"id": "C78", "title": "A run on a periodic domain conserves the total of every variable", "statement": "With periodic boundaries, a run that comes to its end leaves the sum over the interior cells of every conserved variable equal to that of the initial data; the same holds for every state handed to a writer on the way.", "quantifier": "for all integrators, fluxes, reconstructions, grids, initial data, writers, time step adjusters and numbers of steps", "why_tests_cant": "A test runs a few configurations for a few steps and in floating point can only see the drift up to round-off.", "anchors": ["alsfvm/src/simulator/Simulator.cpp", "alsfvm/src/simulator/ConservedSystem.cpp", "alsfvm/src/numflux/NumericalFluxCPU.cpp", "alsfvm/src/integrator"]}
{"id": "C79", "title": "A run from uniform data stays uniform", "statement": "A run whose initial data have one and the same value in all interior cells keeps that value in all interior cells, in the final state and in every state handed to a writer.", "quantifier": "for all integrators, boundary conditions, fluxes, reconstructions, values, writers, time step adjusters and numbers of steps", "why_tests_cant": "All values, schemes and numbers of steps.", "anchors": ["alsfvm/src/simulator/Simulator.cpp", "alsfvm/src/numflux/NumericalFluxCPU.cpp", "alsfvm/src/boundary", "alsfvm/src/integrator"]}
{"id": "C80", "title": "First order runs of scalar equations create no new extrema", "statement": "With the reconstruction `none`, a strong stability preserving integrator and a CFL number of at most one (the automatic choice is 0.9), all values of the final state and of every state handed to a writer lie between the smallest and the largest value of the initial data.", "quantifier": "for all scalar equations and monotone fluxes offered, boundary conditions, grids, initial data, writers and numbers of steps", "why_tests_cant": "The bound is a statement about all initial data; a test sees the ones it tries.", "anchors": ["alsfvm/include/alsfvm/numflux", "alsfvm/src/integrator/Integrator.cpp", "alsfvm/src/simulator/Simulator.cpp"]}
{"id": "C81", "title": "First order runs in one dimension do not increase the total variation", "statement": "With the reconstruction `none`, a strong stability preserving integrator and a CFL number of at most one, the sum of the jumps between neighbouring cells of the final state and of every state handed to a writer is at most that of the initial data.", "quantifier": "for all scalar equations and monotone fluxes offered, both boundary conditions, numbers of cells, initial data, writers and numbers of steps", "why_tests_cant": "A statement about all initial data and all numbers of steps.", "anchors": ["alsfvm/include/alsfvm/numflux", "alsfvm/src/integrator/Integrator.cpp", "alsfvm/src/boundary", "alsfvm/src/simulator/Simulator.cpp"]}
{"id": "C82", "title": "Second order limited runs of scalar equations create no new extrema", "statement": "With the reconstructions `mm` and `mc`, a strong stability preserving integrator and a CFL number of at most one half (the automatic choice is 0.475), all values of the final state and of every state handed to a writer lie between the smallest and the largest value of the initial data.", "quantifier": "for all scalar equations and monotone fluxes offered, boundary conditions, grids, initial data, writers and numbers of steps", "why_tests_cant": "The bound is a statement about all initial data; limiters are tested on single stencils only.", "anchors": ["alsfvm/include/alsfvm/reconstruction/MC.hpp", "alsfvm/include/alsfvm/reconstruction/MM.hpp", "alsfvm/src/reconstruction/ReconstructionCPU.cpp", "alsfvm/src/integrator/Integrator.cpp"]}
{"id": "C83", "title": "A configuration gives the simulator it describes or an exception", "statement": "From the names in a configuration (platform, equation, flux, reconstruction, integrator, boundary condition, diffusion operator and its reconstruction) the factories build a simulator in which every part is of the class the name stands for, made for one and the same platform and equation, with one volume per stage and one more and with the larger of the two numbers of ghost cells asked for; a configuration with a name that is not offered is refused with an exception. There is no third outcome.", "quantifier": "for all strings in the places of the names, all grid sizes, and for programs built with and without support for graphics cards", "why_tests_cant": "The tests create a handful of combinations; there are several thousand accepted ones and infinitely many that have to be refused.", "anchors": ["alsfvm/src/numflux/NumericalFluxFactory.cpp", "alsfvm/src/reconstruction/ReconstructionFactory.cpp", "alsfvm/src/diffusion/DiffusionFactory.cpp", "alsfvm/src/integrator/IntegratorFactory.cpp", "alsfvm/src/boundary/BoundaryFactory.cpp", "alsfvm/src/volume/VolumeFactory.cpp"]}
{"id": "C84", "title": "Whatever is accepted has enough ghost cells", "statement": "For every accepted configuration the ghost cells the simulator creates suffice: one evaluation of the right hand side accesses no cell outside the volumes, its result in every interior cell is the difference of the fluxes at its faces computed from the current values (and not from stale work arrays), and the diffusion operator conserves on periodic data.", "quantifier": "for all accepted configurations, grids, reconstructions and fluxes with the stencils of the classes chosen, data and contents of the work arrays, on the processor and on the graphics card", "why_tests_cant": "Whether the ghost cells suffice depends on the combination of flux, reconstruction and diffusion operator; the tests run few combinations, and stale values often look plausible.", "anchors": ["alsfvm/src/simulator/ConservedSystem.cpp", "alsfvm/src/numflux/NumericalFluxCPU.cpp", "alsfvm/src/numflux/NumericalFluxCUDA.cu", "alsfvm/src/diffusion/TecnoDiffusionCPU.cpp", "alsfvm/src/simulator/SimulatorFactory.cpp"]}
{"id": "C85", "title": "A configuration file is read as it says", "statement": "Reading a configuration file succeeds exactly if the file describes a simulation: every required entry is there and can be read, every option is known, the names are offered and the files it names can be loaded. The settings are then those of the file: corners and cells of the grid, boundary condition, end time, CFL number and integrator (with the automatic choices), adiabatic exponent, initial data with the parameters of the equation and its own, diffusion operator, name, writer and functionals with their intervals, in order. Every other file is refused with an exception.", "quantifier": "for every property tree, every conversion of text to numbers, every set of files beside it, every set of registered functionals, with and without CUDA and MPI", "why_tests_cant": "The tests read one or two fixed files; entries that are missing, repeated, unknown, empty or too short, and the interplay of optional entries, form an unlimited space.", "anchors": ["alsfvm/src/config/SimulatorSetup.cpp", "alsfvm/src/io/WriterFactory.cpp", "alsfvm/src/io/MpiWriterFactory.cpp", "alsfvm/src/init/Parameters.cpp", "alsfvm/src/functional/FunctionalFactory.cpp"]}
{"id": "C86", "title": "A run leaves the output its configuration asks for", "statement": "The program ends at the end time, and then the files hold what the configuration asks for: a writer with N saves has the solutions at the times k T / N (with the initial one if asked), a functional with N saves its values at those times, a functional with a time window its integral over the window, a writer with time and radius the average over that time, a writer without any of these every step; several outputs do not disturb each other.", "quantifier": "for every number and order of writers and functionals, every number of saves, every window, integrator, solution and CFL number", "why_tests_cant": "Each writer is tested alone with a few calls; the interplay of several writers, which all shorten the time steps, with the loop of the simulator and the choices made when the configuration is read is never tested.", "anchors": ["alsvinncli/src/main.cpp", "alsfvm/src/config/SimulatorSetup.cpp", "alsfvm/src/simulator/Simulator.cpp", "alsfvm/src/io/FixedIntervalWriter.cpp", "alsfvm/src/io/TimeIntegratedWriter.cpp", "alsfvm/src/functional/TimeIntegrationFunctional.cpp", "alsfvm/src/functional/IntervalFunctionalWriter.cpp"]}
{"id": "C87", "title": "Every output is finalised once", "statement": "At the end of the program every file writer behind an output, of solutions as of functionals, has been finalised exactly once, after everything was written.", "quantifier": "for every number and kind of writers and functionals and every run", "why_tests_cant": "The tests never run a whole program with an output that needs to be finalised (python scripts, shared libraries); whether the call is passed on through all layers depends on the combination of writers.", "anchors": ["alsfvm/src/simulator/Simulator.cpp", "alsfvm/include/alsfvm/io/Writer.hpp", "alsfvm/src/functional/IntervalFunctionalWriter.cpp", "alsfvm/src/functional/TimeIntegrationFunctional.cpp"]}
{"id": "C88", "title": "Density and pressure stay positive", "statement": "If density and pressure of the initial data are positive in every cell, they are positive in every later state of a first order run of the Euler equations, and the check of the simulator never refuses such a run.", "quantifier": "for every flux of the Euler equations, every grid, dimension, boundary condition, adiabatic exponent, CFL number up to the automatic choice, writers, adjusters, initial data and number of steps", "why_tests_cant": "Tests run a few smooth or standard shock tube data; whether density and pressure stay positive depends on near-vacuum states and on the wave speed estimates at every face.", "anchors": ["alsfvm/include/alsfvm/numflux/euler/HLL.hpp", "alsfvm/include/alsfvm/numflux/euler/HLL3.hpp", "alsfvm/include/alsfvm/equation/euler/Euler.hpp", "alsfvm/src/simulator/Simulator.cpp", "alsfvm/src/integrator/Integrator.cpp", "alsfvm/src/equation/CPUCellComputer.cpp"]}
{"id": "C89", "title": "The TeCNO schemes do not produce entropy", "statement": "With periodic boundary conditions the right hand side computed with a TeCNO flux changes the total entropy at rate zero, and with a TeCNO diffusion operator at a rate that is not positive.", "quantifier": "for every equation offering the fluxes, every flux of the family, every grid, dimension, number of ghost cells, diffusion matrix and reconstruction of the operator, and every admissible state", "why_tests_cant": "Tests compare fluxes at a few states or run a few steps, where a wrong entropy balance hides behind the truncation error; the claim is an exact identity for every state on every grid.", "anchors": ["alsfvm/include/alsfvm/numflux/TecnoCombined4.hpp", "alsfvm/include/alsfvm/numflux/TecnoCombined6.hpp", "alsfvm/include/alsfvm/numflux/ScalarEntropyConservativeFlux.hpp", "alsfvm/include/alsfvm/numflux/euler/Tecno1.hpp", "alsfvm/src/diffusion/TecnoDiffusionCPU.cpp", "alsfvm/src/simulator/ConservedSystem.cpp"]}
{"id": "C90", "title": "A whole run with samples writes the statistics of the solutions", "statement": "The program with samples writes, for every statistic and every save time, the average over all samples (or mean and variance) of the solutions of the samples at that time, where the solution of a sample is the one the configured scheme computes from the initial data with the sample's parameter values; the result does not depend on the number of processes.", "quantifier": "for every configuration of solver, statistics and random parameters, every number of samples, every first sample and every number of processes that divides the number of samples", "why_tests_cant": "Tests run a few samples on one process; a sample that is counted twice, evaluated at a wrong time, or influenced by another sample changes the numbers by a little only for certain time steps, saves and process counts.", "anchors": ["alsuq/src/run/Runner.cpp", "alsuq/src/config/Setup.cpp", "alsuq/src/stats/FixedIntervalStatistics.cpp", "alsuq/src/stats/TimeIntegratedWriter.cpp", "alsuq/src/stats/StatisticsHelper.cpp", "alsuq/src/mpi/SimpleLoadBalancer.cpp", "alsfvm/src/simulator/Simulator.cpp"]}
{"id": "C91", "title": "The configuration of a run with samples is read as it says", "statement": "Reading the part of a configuration file for runs with samples gives the number of samples, the first sample, the random parameters with their distributions (by name, the last of several with one name), the name and the statistics with their files and save times exactly as the file says; a file that does not describe such a run is refused with an exception. The initial data of a sample get the drawn values for the random parameters and the configured values for all others.", "quantifier": "for every property tree, every conversion between numbers and text that keeps 0 and 1, every set of statistics and distributions of libraries", "why_tests_cant": "Tests read two or three fixed files; options that are ignored, overwritten, dropped or converted wrongly only show for files with those options.", "anchors": ["alsuq/src/config/Setup.cpp", "alsuq/src/generator/GeneratorFactory.cpp", "alsuq/src/distribution/DistributionFactory.cpp", "alsuq/src/samples/SampleGenerator.cpp", "alsfvm/src/init/PythonInitialData.cpp"]}
{"id": "C92", "title": "The time-integrated functional statistic is the average over the samples of the integral over the window", "statement": "The statistic time_integrated_functional holds after combining all ranks, at the time of the window, the average over all samples of all ranks of the integral of the functional over the window of time, where the integral uses the value at the end of every time step.", "quantifier": "for every functional that accumulates, every window, every number and distribution of samples over ranks, every sequence of time steps of each sample", "why_tests_cant": "The member lastTime is carried from one sample to the next and the window cuts time steps; tests with one sample and one window do not see what happens at the ends of the window or between samples.", "anchors": ["alsuq/src/stats/TimeIntegratedFunctionalStatistics.cpp", "alsuq/include/alsuq/stats/TimeIntegratedFunctionalStatistics.hpp", "alsuq/src/run/Runner.cpp"]}
{"id": "C93", "title": "A whole run on several processes does what the run on one process does", "statement": "A run on several processes and the run of the same configuration on one process either both fail with the same error or both finish with the same time, number of steps, calls of writers and cells.", "quantifier": "for every process grid that divides the grid, every initial state, flux, reconstruction, integrator, end time, number of steps, list of writers and adjusters, and every order in which the messages arrive, different in every evaluation of the right hand side", "why_tests_cant": "The equality must hold for every interleaving of the messages in every substep and for any left over contents of ghost cells; a test sees a few interleavings on a few small grids.", "anchors": ["alsfvm/src/simulator/Simulator.cpp", "alsfvm/src/simulator/ConservedSystem.cpp", "alsfvm/src/integrator/Integrator.cpp", "alsfvm/src/mpi/CartesianCellExchanger.cpp", "alsfvm/src/memory/HostMemory.cpp"]}
{"id": "C94", "title": "Views address the variables their names say, and kernels on separate memory areas compute what they compute on vector fields", "statement": "The views of an equation show the memory areas with the names of its variables, in the order in which the equation stores them, also when selected by number. A kernel that reads and writes through views leaves the volumes that store the fields with vector values the same kernel would leave, and accesses memory outside of the cells exactly when that one does.", "quantifier": "for every equation, every volume that contains its variables in any order, every sequence of reads and writes of any cells of any number of volumes", "why_tests_cant": "A wrong name or number in one view mixes up two variables only for one equation, one dimension and one way of access; tests run a few kernels for a few equations.", "anchors": ["alsfvm/include/alsfvm/equation/euler/Views.hpp", "alsfvm/include/alsfvm/equation/euler/Euler.hpp", "alsfvm/include/alsfvm/equation/burgers/Views.hpp", "alsfvm/src/volume/Volume.cpp", "alsfvm/include/alsfvm/reconstruction/MC.hpp"]}
{"id": "C95", "title": "The Python driver runs the configuration it read", "statement": "A configuration file that the Python driver reads into nested dictionaries and writes again for the run says the same in every section as the file that was read; numbers of the grid and the end time may be printed differently, and the file of the initial data may be renamed after the run.", "quantifier": "for every configuration file, every nesting and every text in it", "why_tests_cant": "Which elements survive depends on their nesting, repetition and names; the examples of the project use a few files that happen to be of the right form.", "anchors": ["python/alsvinn/alsvinn.py"]}
{"id": "C96", "title": "Every argument of the Python driver takes effect", "statement": "Every argument given to run changes the setting it names to the given value, a setting without an argument keeps its value from the base file, and the files made for the run are removed afterwards.", "quantifier": "for every combination of arguments, every base file and every set of existing files", "why_tests_cant": "There are about thirty optional arguments; the failures need particular combinations (two of three grid arguments, parameters of initial data), of which tests try a few.", "anchors": ["python/alsvinn/alsvinn.py"]}
{"id": "C97", "title": "Runs on a periodic domain do not depend on where the domain begins", "statement": "If the initial data of a run with periodic boundary conditions are moved by any number of cells round the domain, the whole run is the same run moved by as many cells: the same time steps, the same calls of the writers, the same exceptions.", "quantifier": "for every reconstruction, numerical flux, integrator, size of the domain, initial data, distance and length of the run", "why_tests_cant": "A wrong index near the boundary shows only for data that are not constant there; tests compare a few profiles that vanish at the boundary.", "anchors": ["alsfvm/src/boundary/BoundaryCPU.cpp", "alsfvm/src/numflux/NumericalFluxCPU.cpp", "alsfvm/src/simulator/Simulator.cpp", "alsfvm/src/integrator/Integrator.cpp"]}
{"id": "C98", "title": "Runs from mirrored data are mirrored runs", "statement": "If the cells of the initial data are put in the opposite order in some directions, and the velocities in these directions get the opposite sign (for Burgers' equation: all directions, and the value itself), the whole run is the mirror image of the original run.", "quantifier": "for every numerical flux and reconstruction, boundary condition, integrator, size of the domain, initial data and length of the run", "why_tests_cant": "The preference for one side occurs only where two values are exactly equal or a wave speed is exactly zero; random data never hit it.", "anchors": ["alsfvm/include/alsfvm/numflux/euler/HLL.hpp", "alsfvm/include/alsfvm/numflux/euler/Tecno1.hpp", "alsfvm/include/alsfvm/numflux/burgers/Godunov.hpp", "alsfvm/src/reconstruction/ENOCPU.cpp", "alsfvm/include/alsfvm/reconstruction/MC.hpp"]}
{"id": "C99", "title": "Runs do not prefer an axis", "statement": "If two axes of the domain and of the initial data are exchanged, together with the components of the velocity, and the cells have the same length in both, the whole run is the original run with the axes exchanged.", "quantifier": "for every numerical flux and reconstruction, boundary condition, integrator, size of the domain, pair of axes, initial data and length of the run", "why_tests_cant": "Each direction is treated by its own code; tests in three dimensions are few, and most of them vary in one direction only.", "anchors": ["alsfvm/src/numflux/NumericalFluxCPU.cpp", "alsfvm/include/alsfvm/numflux/euler/Tecno1.hpp", "alsfvm/include/alsfvm/numflux/euler/HLL.hpp", "alsfvm/include/alsfvm/equation/euler/Euler.hpp", "alsfvm/src/boundary/BoundaryCPU.cpp"]}
{"id": "C100", "title": "Plug-in libraries are called as documented", "statement": "A plug-in library (of a writer, of a distribution or of a quasi Monte Carlo generator) receives exactly the documented calls in the documented order: its parameter object is made and filled with every entry of the configuration, its data is created from it, the solution is handed over at every output time with sizes and domain (or every sample is asked for), and in the end the data and then the parameters are deleted, each once.", "quantifier": "for every library, configuration node, choice of functions (functions given as \"none\" are left out), sequence of outputs or samples", "why_tests_cant": "The calls go to foreign code; a test uses one library with one set of functions, and a deletion that is missing or out of order shows up only as a leak or a crash at the end.", "anchors": ["alsfvm/src/io/DLLWriter.cpp", "alsfvm/include/alsfvm/io/DLLWriter.hpp", "alsuq/src/distribution/DLLDistribution.cpp", "alsuq/include/alsuq/distribution/DLLDistribution.hpp", "addons/qmc/src/alsuq/addons/qmc_generators/QMCDistribution.cpp", "library_examples/dlls/writer/src/dll_writer_example.cpp"]}
{"id": "C101", "title": "Output files carry the texts the run has used", "statement": "Every output file has attributes from which the run can be reproduced: for each text file that the run has read, the text exactly as the run has used it (also if the file has been changed since), and for each entry of the configuration its value.", "quantifier": "for every sequence of loads, states of the disk at each of them, names of files, configuration, and entries about machine and build", "why_tests_cant": "A test writes one report for one set of file names; names that collide after escaping, files that change during the run and entries that occur several times are not tried, and a text that is lost is not noticed until somebody needs it.", "anchors": ["alsutils/src/io/TextFileCache.cpp", "alsutils/src/make_basic_report.cpp", "alsfvm/src/io/netcdf_write_attributes.cpp", "alsfvm/src/io/netcdf_write_report.cpp", "alsfvm/src/io/NetCDFWriter.cpp"]}
{"id": "C102", "title": "Python initial data sees its parameters, and samples do not influence each other", "statement": "Initial data given as a Python program finds every parameter of the equation, of the configuration and of the sample under its name, and gives for each sample what it would give in a new interpreter: neither earlier samples nor Python scripts that write output have an influence.", "quantifier": "for every program (snippet or with init_global), installation of Python, list of parameters, sequence of samples, and changes of the global names in between", "why_tests_cant": "The interpreter and its global names live as long as the program; tests run one sample with harmless parameter names, and what remains of earlier code depends on everything that ran before.", "anchors": ["alsfvm/src/init/PythonInitialData.cpp", "alsfvm/src/python/PythonInterpreter.cpp", "alsuq/src/run/FiniteVolumeSimulatorCreator.cpp", "alsfvm/src/config/SimulatorSetup.cpp"]}
{"id": "C103", "title": "Python scripts get every solution", "statement": "A Python script that receives the output is called at each output once with write, then all processes wait for each other, then once with afterMPISync; the dictionary given to write shows for every variable the cells of this solution without ghost cells, x fastest.", "quantifier": "for every sequence of solutions of one size, number of variables, with and without several processes, and whatever the script does to the arrays it has been given", "why_tests_cant": "The script shares memory with the simulation: whether what it sees is right depends on all earlier outputs and on what the script has kept or changed.", "anchors": ["alsfvm/src/io/PythonScript.cpp", "alsfvm/include/alsfvm/io/PythonScript.hpp", "alsfvm/src/volume/Volume.cpp"]}
{"id": "C104", "title": "The timings in the run report add up", "statement": "The run report gives for every timed block the sum of the durations of all its runs, for a group of blocks that is not timed itself the sum over its outermost blocks, and for both the percentage of the time of the program, which lies between 0 and 100; besides the timings it has the program, the name, the durations, the number of time steps and the command line of the run.", "quantifier": "for every program with nested and repeated timed blocks, all durations, names and command lines", "why_tests_cant": "Blocks can be nested and repeated in any way, also in threads; tests measure a few fixed blocks and times that differ from run to run.", "anchors": ["alsutils/src/timer/TimerData.cpp", "alsutils/src/timer/TimerDatabase.cpp", "alsutils/src/timer/Timer.cpp", "alsutils/include/alsutils/timer/Timer.hpp", "alsutils/src/write_run_report.cpp", "alsfvm/src/simulator/ConservedSystem.cpp", "alsuq/src/config/Setup.cpp"]}
{"id": "C105", "title": "Structure functions computed from a file of samples", "statement": "The program structure_standalone accepts a variable if the requested grid is a refinement of that of the file by the same factor in all directions used, and refuses others; every cell gets the value of the cell of the file that contains it, so that reading what a run has written gives the cells of the run; and it writes for every variable the mean over all samples of the structure functions for the boundary condition given, on any number of processors.", "quantifier": "for all grids and files, all field values, all numbers of samples and processors, all powers and numbers of shifts", "why_tests_cant": "There are no tests for the example programs; a layout of the file that is wrong shows only for different numbers of cells per direction, and lost samples only if the number of processors does not divide the number of samples.", "anchors": ["library_examples/alsuq/structure_standalone/src/main.cpp", "alsuq/src/stats/StructureCube.cpp", "alsfvm/src/io/NetCDFMPIWriter.cpp", "alsuq/src/stats/StatisticsHelper.cpp"]}
{"id": "C106", "title": "Output files of a run with several samples", "statement": "In a run with several samples on any number of processes, file number k of the solution contains for every sample and every variable of the solution exactly one variable, named sample_<number>_<name>, with the k-th saved solution of this sample, and nothing else; its time is the time of the k-th save, and no other file is touched.", "quantifier": "for all numbers of samples and processes, all sample numbers, all numbers of saves and variables, all orders in which the data of the processes arrive, all contents of the disk before", "why_tests_cant": "The files are filled step by step by processes that run different samples; whether their collective calls match depends on the time steps of the samples, and the tests of the writers use one group and one write.", "anchors": ["alsuq/src/run/FiniteVolumeSimulatorCreator.cpp", "alsuq/src/io/MPIWriterFactory.cpp", "alsfvm/src/io/NetCDFMPIWriter.cpp", "alsuq/src/run/Runner.cpp", "alsfvm/src/config/SimulatorSetup.cpp"]}
{"id": "C107", "title": "Processes on a node are spread evenly over its graphics cards", "statement": "With k processes and n graphics cards on a node, every process is given one of the cards and every card gets k/n processes, rounded down or up; with at most as many processes as cards no two processes share a card; this holds for every launcher of the processes, and a card that cannot be used ends the program or is reported.", "quantifier": "for all numbers of cards and of processes on the node, all launchers, all results of the calls of the CUDA runtime", "why_tests_cant": "The function reads the environment of a launcher and the cards of the machine; the unit tests start one process on one machine and never call it.", "anchors": ["alsutils/include/alsutils/mpi/set_cuda_device.hpp", "alsvinncli/src/main.cpp", "alsuqcli/src/main.cpp"]}
{"id": "C108", "title": "The table of a configuration file says what the run uses", "statement": "For every configuration file the program accepts, the LaTeX table made of it shows in one line the equation, the numerical flux, the reconstruction, the time integrator, the CFL number and the end time that the program uses for the run, with the automatic choices of the integrator and the CFL number filled in.", "quantifier": "for all trees of elements, texts and comments of a configuration file, all contents of other files, all settings", "why_tests_cant": "The script has no tests and reads the file with another library and another way of searching than the program; the automatic choices are written a second time in it, and the order of the options matters only for some files.", "anchors": ["utils/make_table.py", "alsfvm/src/config/SimulatorSetup.cpp", "alsfvm/src/config/XMLParser.cpp"]}
{"id": "C109", "title": "A configuration of a scalar equation gives the output it asks for, within the bounds of the initial data", "statement": "Every configuration file of a scalar equation that the program accepts leads to a run that ends exactly at the end time given, has in every output what was asked for there (every solution, or the solutions at the given number of equidistant times), and whose solutions are those of the textbook scheme for the flux, the reconstruction, the integrator, the boundary condition and the grid of the file, with all values between the smallest and the largest initial value.", "quantifier": "for all configuration files (property trees), all contents of other files, all conversions of text, all initial data, all contents of work arrays, all numbers of outputs", "why_tests_cant": "Whether a run ends, and with which output, depends on all parts at once: the reader, the factories, the time steps, the adjusters of all outputs. Tests look at one part, or at one file with one initial state; none could show that the time steps do not become smaller and smaller.", "anchors": ["alsfvm/src/config/SimulatorSetup.cpp", "alsfvm/src/simulator/Simulator.cpp", "alsfvm/src/integrator/Integrator.cpp", "alsfvm/src/io/FixedIntervalWriter.cpp"]}
{"id": "C110", "title": "A configuration with random initial data gives the statistics it asks for, within the bounds of the initial data", "statement": "Every configuration file of a scalar equation with a part for uncertainty quantification that the program accepts leads to a run that ends on every number of processes dividing the number of samples, and whose files hold, at every save time of every statistic and in every cell, mean and variance (or the moment with the power given) over all samples of the solutions of the textbook scheme; the number of processes has no influence on them. The means lie between the smallest and the largest initial value of all samples, the variances between zero and a quarter of the square of their distance.", "quantifier": "for all configuration files (property trees), all random numbers, all initial data depending on the random parameters, all numbers of samples and of processes dividing it, all contents of work arrays", "why_tests_cant": "Tests can neither go through all files nor through all random numbers, and the mean and variance of a run are not known beforehand. Whether every sample passes through every save time on every process depends on the reader, the sample generator, the time steps of all samples and the combination of the statistics at once.", "anchors": ["alsuq/src/config/Setup.cpp", "alsuq/src/run/Runner.cpp", "alsuq/src/run/FiniteVolumeSimulatorCreator.cpp", "alsuq/src/stats/MeanVariance.cpp", "alsuq/src/stats/OnePointMoment.cpp"]}
{"id": "C111", "title": "Scripts used as writers are told where they run", "statement": "A script or library that is used as a writer on several processes is told the number of its process, the number of all processes and, in a run with samples, the name of its sample, and it gets every other entry of its configuration.", "quantifier": "for all configurations of the writer, all numbers of processes, all names and numbers of samples", "why_tests_cant": "The tests make writers on one process, where the default values of the scripts are right.", "anchors": ["alsfvm/src/io/MpiWriterFactory.cpp", "alsuq/src/io/MPIWriterFactory.cpp", "alsfvm/src/io/PythonScript.cpp", "examples/kelvinhelmholtz_plot_python/plotting.py"]}
{"id": "C112", "title": "The plotting example combines the pictures of all processes", "statement": "After every output the script of the Kelvin-Helmholtz example leaves for every colour map one picture of the whole domain, with the part of every process in its place, deletes the pictures of the parts and raises no exception.", "quantifier": "for all numbers of processes in both directions, all sizes of the parts, all contents of the pictures, all orders in which the processes write, all other files", "why_tests_cant": "No test runs the script, and on one process nothing is combined or deleted.", "anchors": ["examples/kelvinhelmholtz_plot_python/plotting.py", "alsfvm/src/io/PythonScript.cpp"]}
{"id": "C113", "title": "The statistics and functionals that a configuration can name", "statement": "In whatever order the static objects of the program are constructed, the program starts and the tables of statistics and functionals give for every platform and name the class registered for it, whatever has been asked for before, and an exception for other names. The same names can be used on both platforms, and every statistic that can be named can be computed.", "quantifier": "for all orders of initialisation, all earlier requests, all platforms, names and parameters; for programs built with and without graphics cards", "why_tests_cant": "The order of initialisation across files is that of one linker, tests ask for one name each in a fresh table, and nobody tests names that are not there or that nobody has finished.", "anchors": ["alsuq/src/stats/StatisticsFactory.cpp", "alsfvm/src/functional/FunctionalFactory.cpp", "alsuq/include/alsuq/stats/stats_util.hpp", "alsfvm/include/alsfvm/functional/register_functional.hpp", "alsuq/src/stats/StructureSurface.cpp"]}
{"id": "C114", "title": "The script for new classes writes a header and a source and loses nothing", "statement": "For every argument of the scripts make_class.py and every state of the disk, whatever was on the disk is still there afterwards with the same contents, also if the script ends with an exception. If the names are identifiers, the two files do not exist and none of their directories is a file, then the header include/lib/path/name.hpp and the source src/path/name.cpp are written and nothing else is new but directories; the braces of both texts are properly nested; the source begins with the line that includes its header; different classes have different files.", "quantifier": "for all libraries, namespaces, class names, arguments and states of the disk", "why_tests_cant": "The names, their number and the state of the disk are arbitrary; a test tries a few names on a clean disk.", "anchors": ["alsfvm/make_class.py:19-39", "alsfvm/make_class.py:46-111", "alsfvm/make_class.py:113-128", "alsuq/make_class.py:113-128", "alsutils/make_class.py:113-128"]}
{"id": "C115", "title": "The initial data of the shipped examples are admissible", "statement": "For every point, every grid and all values of the random parameters an example asks for, its script gives initial data and fails nowhere; the density and pressure of a gas are positive; interfaces are within the stated perturbation of their unperturbed place, with the stated state on each side; data of scalar equations are within the range in which their flux is used; data filled in at once are those of the midpoints of the cells and do not depend on the number of processes.", "quantifier": "for all points, grids, numbers of processes and values of the random parameters", "why_tests_cant": "The parameters are forty or more real numbers and the points are arbitrary; a test draws a few samples on one grid, and the scripts divide by sums that are only rarely small.", "anchors": ["examples/kelvinhelmholtz/kelvinhelmholtz.py", "examples/kelvinhelmholtz_time/kelvinhelmholtz_time.py", "examples/kelvinhelmholtz_3d/kelvinhelmholtz_3d.py", "examples/kelvinhelmholtz_3d_tube/kelvinhelmholtz_3d_tube.py", "examples/cloudshock/cloudshock.py", "examples/shockvortex/shockvortex.py", "examples/richtmeyermeshkov/richtmeyermeshkov.py", "examples/taylorgreen/taylorgreen.py", "examples/brownian_bl/brownian_bl.py", "alsfvm/src/init/PythonInitialData.cpp:95-160"]}
{"id": "C116", "title": "The random velocities of the Brownian example are made by midpoint displacement", "statement": "For every size of the grid and all random numbers the velocities of examples/euler_brownian are made by midpoint displacement: the field on a grid has at its even points the values of the field on the grid of half the size, and at every other point the mean of its neighbours plus the deviation of fractional Brownian motion times a random number that no other point uses. The numbers of the configuration suffice, density and pressure are positive, the field fits the periodic boundaries of the configuration and does not depend on the number of processes.", "quantifier": "for all sizes of the grid, numbers of processes, Hurst exponents below one and random numbers", "why_tests_cant": "The field depends on up to two million real numbers, and a wrong or shared number is invisible in one random sample.", "anchors": ["examples/euler_brownian/euler_brownian.py:1-77", "examples/euler_brownian/euler_brownian.xml", "alsfvm/src/init/PythonInitialData.cpp:220-250"]}
{"id": "C117", "title": "Runs do not depend on the unit of the values", "statement": "If all values of the initial data are multiplied by the same positive number (for the linear equation; for the Euler equations density, momentum and energy together, which is another unit of mass), the whole run is the original run multiplied by this number: same times, same calls of the writers, same exceptions. For the linear and the cubic equation the same holds for the opposite sign.", "quantifier": "for every positive number, numerical flux and reconstruction, boundary condition, integrator, size of the domain, initial data and length of the run", "why_tests_cant": "Tests use data of the size of one; constants with a unit hidden in the code, and branches on the sign of a value, change the result only for data of another size or sign.", "anchors": ["alsfvm/include/alsfvm/reconstruction/WENOCoefficients.hpp: ALSFVM_WENO_EPSILON", "alsfvm/include/alsfvm/numflux/linear/Roe.hpp", "alsfvm/include/alsfvm/numflux/euler/HLL3.hpp", "alsfvm/include/alsfvm/reconstruction/minmod.hpp", "alsfvm/src/reconstruction/ENOCPU.cpp"]}
{"id": "C118", "title": "Runs do not depend on the units of length, time and velocity", "statement": "If the lengths of the cells are multiplied by a positive number and the end time and the times of the writers by the same number, the run is the original run at times multiplied by this number, for every equation and scheme: same numbers of steps, same values, same calls of the writers, same exceptions. If moreover the values are multiplied by a number (for equations whose flux function is a power of the value) or density, momentum and energy are given in other units of mass and velocity (for the Euler equations), and times are divided by the factor of the velocities, the run is the original run in the other units.", "quantifier": "for all positive factors, numerical fluxes and reconstructions, boundary conditions, integrators, sizes of the domain, initial data and lengths of the run", "why_tests_cant": "Tests use a domain of length one, times and velocities of the size of one; a length, time or tolerance fixed in the code is invisible there.", "anchors": ["alsfvm/src/integrator/Integrator.cpp:20-60", "alsfvm/src/simulator/Simulator.cpp", "alsfvm/src/io/FixedIntervalWriter.cpp:33-53", "alsfvm/include/alsfvm/numflux/burgers/Godunov.hpp", "alsfvm/include/alsfvm/numflux/cubic/Roe.hpp", "alsfvm/include/alsfvm/numflux/euler/HLL3.hpp", "alsfvm/src/reconstruction/ENOCPU.cpp"]}
{"id": "C119", "title": "writeInitialTimestep decides whether the initial data are written", "statement": "A writer made from a configuration file is called with the initial data at time 0 before the first step. The initial data reach its file if and only if the setting writeInitialTimestep of the node of the writer is true; the setting need not be there and is false then. The same holds for functionals, and for statistics with every sample.", "quantifier": "for all configuration files with a writer or functional, end times, numbers of saves, and initial data", "why_tests_cant": "The test of the number of saves covers one kind of writer; the setting is silently ignored by the other kinds, whose files merely have one entry more.", "anchors": ["alsfvm/src/config/SimulatorSetup.cpp:356-419", "alsfvm/src/config/SimulatorSetup.cpp:567-634", "alsfvm/src/io/FixedIntervalWriter.cpp:23-43", "alsfvm/src/io/CoarseGrainingIntervalWriter.cpp:36-75", "alsuq/src/config/Setup.cpp:261-283", "alsuq/src/stats/FixedIntervalStatistics.cpp:22-86"]}
{"id": "C120", "title": "The driver draws every value at the midpoint of its cell", "statement": "The method plot of the Python driver draws the value of every cell of a one- or two-dimensional run once, at the midpoint of the cell.", "quantifier": "for all domains, numbers of cells and values", "why_tests_cant": "Pictures are looked at, not compared; with many cells the displacement is less than the width of a line.", "anchors": ["python/alsvinn/alsvinn.py:202-210", "python/alsvinn/alsvinn.py:212-224", "python/alsvinn/alsvinn.py:225-232", "python/alsvinn/alsvinn.py:289-302", "python/alsvinn/alsvinn.py:322-347"]}
