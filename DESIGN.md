# Formal model of lambdapic — design

The model lives in `lean/Verif/`. For each topic `X` there are up to three files:

* `Verif/Model/X.lean` — definitions that follow the code in `/repo` function by function; every
  definition cites file and lines and says what was simplified;
* `Verif/Proofs/X.lean` — helper lemmas;
* `Verif/Props/X.lean` — the property theorems, their small specification vocabulary and an
  `example` beside each one showing that a concrete non-trivial case meets the hypotheses.

Where the code does not have the property, the file contains a theorem `..._fails` (negation with a
concrete witness evaluated on the model) and a `..._partial` theorem with the part that does hold.

## Trusted base

* Lean 4.33.0's kernel and the Mathlib it is built with. Every claimed theorem depends on at most the axioms
  `propext`, `Classical.choice` and `Quot.sound`; `AXIOMS.txt` lists them theorem by theorem, as printed by
  `#print axioms`. No axiom is added, and there is no `sorry`, `native_decide` or `bv_decide`.
* The translation of Python and C into Lean was done by hand and is not checked by any tool. The code was never run:
  nothing here compares the model with an execution of lambdapic.
* `float64` is replaced by exact arithmetic (ℚ, an ordered field, or ℝ where roots and exponentials occur), so rounding,
  overflow and loss of significance are outside every theorem. NaN and infinity appear only where the code branches on them.
* Integers are unbounded, except in properties about ids and tags.
* OpenMP loops are iterations in any order with barriers between phases. One iteration is indivisible, except in the
  race theorems of C30. MPI is reliable delivery matched by tag.
* numpy, numba, h5py, METIS, scipy, dill and the file system are parameters or assumptions named where they are used.

### Modelled

| code (under src/lambdapic) | model files |
|---|---|
| core/particles.py | Particles, Resume (`__setstate__`) |
| simulation.py 700-717 and every `spawn` of a random generator; order of the draws in core/patch/cpu.py | Rng |
| core/mpi/load_balancer.py (threshold, loads, decision over a run) | Balance |
| core/collision/utils.py 423-478 | Insert |
| core/patch/sync_particles_2d.c, _3d.c (one rank) | Exchange, Boundaries, Geometry, Interleave |
| core/mpi/sync_particles_2d.c, _3d.c (between ranks) | MpiExchange |
| memory, requests and capsules of core/mpi/*.c; who starts, waits and drops in simulation.py | Capsule, CapsuleSim |
| constructors of the lasers; the half step of the electric field behind the plane of injection | LaserRun |
| core/patch/patch.py: neighbours, bounds, filling; simulation create_patches | Neighbors, Geometry, Fill |
| core/patch/cpu.py, hilbert.py, metis.py (METIS itself is a parameter) | Fill, Hilbert, Rank |
| core/patch/sync_fields2d.c, 3d.c; core/mpi/sync_fields2d.c, 3d.c | SyncFields, MpiFields |
| core/mpi/load_balancer.py; tags of mpi_manager.py and the MPI C files | LoadBalance, Message, Tags |
| core/maxwell/cpu.py, solver.py; core/boundary/cpml.py | Maxwell, Cpml |
| core/current/*.c, current_deposit.h | Deposit |
| core/interpolation/*.c; core/pusher/*, unified/*.c | Pusher, Photon |
| simulation/_mask_simulation.py; cli/auto_reload.py | Mask; Reload |
| core/species.py; set-up of species in simulation/simulation.py | Setup |
| core/sort/*.c | Sort |
| core/collision/*.py | Pairing, Coulomb, Debye, Collide |
| core/qed/*.py (tables are parameters) | Qed, Chi |
| callback/laser.py, restart.py, callback.py, hdf5.py; parts of callback/utils.py | Laser, Restart, Resume, RunLoop, Output, Density, MovingWindow, Load, Momenta |
| simulation/simulation.py: run loop, current sync, list updates; simulation/utils.py; cli/stat.py | RunLoop, PicStep, WholeRun, Kicks, CpmlRun, WholePml, Collective, CurrentSync, Lists, AutoPatch, Names, Stat |
| core/utils/logger.py, timer.py, cli/main.py timer-stat; core/mpi/utils.py abort_on_mpi_error | Log, Job |

### Not modelled

* The SIMD form of the unified pushers beyond the strip structure in Pusher.
* The display of the progress bar on a terminal, spinner, the command line apart from `timer-stat` and `autoreload`.
* The range checks of pydantic in core/species.py, the byte format of pickles.
* The heap, except for the blocks, requests and capsules of the exchanges between ranks (Capsule, C77): `AUTOFREE` in the other C functions, reference counts of Python objects other than capsules, `malloc` that fails.
* Memory-model effects inside one OpenMP iteration, and timing.

## Plan per property

| id | model | proof idea |
|----|-------|------------|
| C01 | `_generate_ids` on naturals with `|||`/`<<<`, container counter, call history as list | injectivity by div/mod decoding, invariant "handed out ids = [0,counter)" by induction on history |
| C02 | history machine: migrate copies id, create re-uses dead slot id | witness history refutes; partial: uniqueness for histories without creation |
| C03 | prune over lists, argsort = any permutation sorting the dead flag | permutation reasoning |
| C04 | extend for base and QED containers with Python negative slices | list algebra; `extend(0)` on QED containers refutes |
| C05–C09 | 2D exchange: count, extend, index lists, buffers, slot fill, mark dead | refinement to an abstract "route every particle" specification; permutation of attributes lists |
| C10 | same with 26 directions | generic exchange parametrised by direction type, instantiated twice |
| C11 | returned count | witness; partial formula |
| C12 | neighbour index tables 2D/3D | arithmetic on indices |
| C13, C14 | field arrays with guard cells as functions on ℤ-indexed cells | pointwise equality with global periodic field / sum exchange |
| C15 | FDTD on patches vs. on global torus | simulation relation, induction on steps |
| C16, C17 | FDTD updates as functions on index grids over a field | ring identities, induction on steps |
| C18–C21 | shape factors, deposition loops as folds | telescoping sums, ring identities |
| C22 | gather | convex combination |
| C23 | Boris over ℝ | algebra |
| C24 | split vs unified sequence | equality in 2D, witness in 3D |
| C25 | bucket sort over lists | counting sort invariants |
| C26 | gilbert2d recursion (with fuel/termination proof) | induction on area |
| C27, C28 | rank maps, sort by diagonal maximum, patch exchange | permutation lemmas |
| C29, C30 | tags as arithmetic functions; accumulate as interleaving of load/store | injectivity; witness race |
| C31–C33 | run loop as a state machine emitting events | induction on steps |
| C34, C35 | directory states, dump as sequence of file-system steps with crash points | invariants; witness for names beyond 10^6 |
| C36–C38 | number theory and list functions | induction; witnesses |
| C39–C42 | pairing iterators as list functions; scattering kinematics over ℝ | counting; algebra |
| C43–C45, C56 | QED creation in dead slots, table bisection, optical depth | list invariants; witness for non-termination |
| C46–C49 | slice arithmetic, offsets, assembly, density difference | integer arithmetic; witnesses |
| C50, C51 | moving window state machine | invariant by induction; witness |
| C52–C58 | small functions | direct |
| C59 | local and remote field exchange for any rank map | refinement to the one-process exchange |
| C60 | laser profiles over ℝ | bounds on sin, cos and the envelope; witness for oblique pulses |
| C61 | chi over ℝ, NaN as `none`; loop over slots and patches | Cauchy-Schwarz; chi² as the invariant square of the field tensor applied to the four-momentum, so every Lorentz matrix leaves it alone; induction over the patches in any order |
| C62 | Debye length of one cell, call history as list | sums over the living, induction on calls; failing cases |
| C63 | counts, extension, index arrays, send, mark, receive of mpi/sync_particles, for all ranks at once with the neighbours on other ranks; then the exchange of C05 with the neighbours on the same rank | closed form of each loop, multiset of living particles as the image under one hop; composition with C05; far-moving witness |
| C64 | the run loop of C31 on every rank as the list of its blocking MPI calls; a machine that says when a call returns | the rank least far along can always go on; a finished run has equal lists of collective calls, induction on steps; witness with signals seen in different steps |
| C65 | one complete step of all patches: solver, deposition of every species, current exchange; specification by macro particles and their charge density on the undivided grid | folding the guard cells of one axis is the reduction modulo the number of cells, products of axes, sum over particles and patches; continuity of the deposit and the run theorem of C17; witness with two guard cells |
| C66 | all of a time step together: solver, field exchange inside and between ranks, sorter, species loop on either path, current exchange, particle exchange, balancer; specification by one undivided periodic grid and one list of particles per species (`Spec/WholeRun.lean`) | one simulation relation for a step (fields of all stored cells, particles up to order and whole periods, particles inside their patches), kept by every part of the step with the theorems of C02, C06, C08, C09, C16, C19, C24, C63, C65; induction over steps; existence of a next state from the same facts; the states a run may start from are characterised without the undivided simulation (`Props/Begin.lean`) |
| C67 | the field halves of a time step with absorbing layers on all patches and all ranks (`Model/CpmlRun.lean`); specification by one undivided grid with one layer at every absorbing end (`Spec/CpmlRun.lean`). Both ends of an axis carry the same condition, the currents are given | relation between the cells and auxiliary fields of the patches and of the grid, kept by both updates (solver theorems of C53, layer coefficients moved by the cells below the patch) and by the exchange (C06, C19); induction over steps. 3D needs two patches on absorbing axes; a witness shows that it fails with one |
| C68 | the complete time step of C66; charge density of all living particles by the particle shape (`Spec/PicStep.lean`), divergences of C16 and C17 | the undivided simulation of C66 satisfies continuity in every step (C65's sum over particles, with the speeds the Boris rotation leaves), so div E - rho/eps0 is constant there; a state shows the same divergences, and the density does not depend on order and whole lengths. div B in 3D also for the split path: own cells of any currents lie on one periodic grid |
| C69 | the complete time step of C66 with the absorbing layers of C67 (`Model/WholePml.lean`): neighbour tables that end at absorbing ends, patch bounds without the cells of the layers; specification by one undivided simulation with layers (`Spec/WholePml.lean`). Both ends of an axis carry the same condition | the relation of C67 for fields and layers and of C66 for particles is kept by every step: on an absorbing axis a particle within one cell of its patch stays, goes to the next patch, or is removed exactly if it is in a layer (`Proofs/WholePmlParts.lean`); the fold of the deposited currents on an axis with ends is the deposit on an array with three more cells at each end. 3D `_partial` for the two defects of C66 and C67 |
| C70 | species as records of their settings, `initialize` with its refusals, and the list of acts a step carries out on each species (`Model/Setup.lean`) | induction over the list of species; the acts on one species are filtered out of the step's list and compared with what its settings ask for |
| C71 | the three callbacks on lists of slots per patch, with stored values that may not be numbers; the generator, the gamma distribution and the density are parameters with stated laws (`Model/Momenta.lean`) | invariant of the rejection loops (accepted energies are at least 1, as many as asked), then induction over living slots; two runs with the same random numbers show the wrong stretch |
| C72 | the split sequence of the species loop with the photon pusher, folded over any list of fields (`Model/Photon.lean`) | induction over steps for the positions; all factors of the deposition are 0 for charge 0 |
| C73 | the collision kernel of C41 | a change of units acts on every intermediate quantity; exchange of the partners turns the momenta of the centre of mass round; the code's impact parameter is compared with the documented formula |
| C74 | `create_patches`, `_init_pml` and `domain_mask` of the masked simulation on the tables of C12 and the layers of C53, output through C48 (`Model/Mask.lean`) | the loop's list is the filtered list of places with their positions as indices; the table and the layers then follow from C12 and C53 |
| C75 | the loop of `autoreload` with reload, check and the steps of a run; the file system and all moments are chosen by the environment (`Model/Reload.lean`) | invariant between rounds: the simulation of the module was read at a moment r, and unless a change is pending the remembered time is at most that of the file at r; so a check that finds no change has seen the script that runs |
| C76 | `Collision.__call__` on the sorted arrays of a patch: pairs of C40, kernel of C41, buckets of C25; `add_collision`, `_init_sorter`, `_decide_reverse_x` as a machine of calls (`Model/Collide.lean`) | the list of collisions has only living slots of one bucket and touches all that have a partner; every collision keeps the two sums; buckets are cells by C25 |
| C77 | `malloc`, `free`, request slots, messages in flight, NumPy arrays and capsules of the `_start`, `_wait` and destructor functions as a machine of operations, `none` for undefined behaviour (`Model/Capsule.lean`); the calls of the simulation with its handles and local variables (`Model/CapsuleSim.lean`) | invariant over histories: every live block belongs to one capsule, every message to an unfinished one; each C function shown to run and its effect computed; the calls of the simulation shown to follow the rules of `Spec/Capsule.lean` |
| C78 | The plane of injection after laser, any synchronisation of the guard cells and half a step of E; specification: the forward part `Ey + cBz`, `Ez - cBy` of the field. Proved by solving the boundary condition of the model against the update of E (`Props/LaserRun.lean`). |
| C79 | Mean over the phase and integral over the plane of the square of the source; polar coordinates, orthogonality of Laguerre polynomials on `(0, ∞)` with a weight (`Proofs/Beam.lean`, `Props/Beam.lean`). `scipy.special.genlaguerre` is taken from its documentation. |
| C80 | Specification: the complex beam `q`-parameter solution, shown to solve the paraxial wave equation (`beam_paraxial`). The source is shown to be this beam up to the Gouy phase (`Props/Paraxial.lean`). |
| C81 | Source of a simple laser against a plane wave with a round profile (`Props/SimpleBeam.lean`). |
| C82 | `_init_pml`, `add_pml_boundary` and the constructor of a layer: exactly which patches are accepted; sum of the conductivities over a layer (`Props/CpmlSetup.lean`). |
| C83 | Runs of C66; energy E² + c²B² less the term of the leap-frog, summed over the own cells of all patches: adjoint curls and the bound of the curl by 4(1/dx²+…) on the undivided grid, carried to the patches (`Props/Energy.lean`). |
| C84 | A generator is its entropy, spawn key and counter of children; every `spawn` of the code as a use, histories of uses on all ranks; the draws of the fill loop interleaved by a schedule (`Model/Rng.lean`, `Props/Rng.lean`). Invariant: what a patch has drawn and will draw is one reading of its own stream. |
| C85 | One threshold per rank, steps with arbitrary loads before and after; the collective is `none` if ranks disagree (`Model/Balance.lean`, `Props/Balance.lean`). Induction over the steps; an imbalance is below the number of ranks, which bounds the threshold. |
| C86 | The blocked search with the eight-byte view, the write, the count (`Model/Insert.lean`, `Props/Insert.lean`). Strong induction on the rest of the array. |
| C87 | Changes of the view of a simulation (`Spec/Symmetry.lean`), proved to commute with one step of the undivided simulation of C66: the Yee scheme, sampling, the Boris rotation and the deposited current (`Proofs/Symmetry*.lean`); induction over the steps and over the sequence of changes; C66 carries it to the runs of the program (`Props/Symmetry.lean`). |
| C88 | `Model/Resume.lean`: arrays held by containers and modules after unpickling (on the lists of C55), the effect of pushes on a memory of arrays, and the files of the ranks. Freshness of all calls after a restart by a simulation argument against C55; the schedule by splitting the run loop of C31; the fields and particles by C66 applied before and after the dump (`Props/Resume.lean`). |
| C89 | `Model/Kicks.lean`: the step of C66 with any change of the particles by collisions (before the push) and emission (after it) that moves nobody and creates particles only where one is. Each step is a step of the undivided simulation between two changes of its particles, so the balance of C68 gains one term per change; runs in which one collision or one recoil breaks the law are constructed (`Props/Kicks.lean`). |
| C90 | `Model/Enable.lean`: the flag of `EnableMixin` over a history of calls; the step of C66 with a species loop that skips disabled species; the two paths of the push with the flags of pusher, interpolator and depositor. Runs with flags are refined to the undivided simulation of `Spec/Enable.lean` in which only the enabled species move (`Props/Enable.lean`). All ranks are taken to set the same flags. |
| C91 | `Model/Rates.lean`: one particle, step after step, as a program that draws random numbers; a program is given by the mean of what it ends in, every `random.rand()` is a Lebesgue integral over [0, 1). By induction on the steps it is equal to `ideal` of `Props/Rates.lean`, in which every step is a new throw with probability 1 - exp(-lam). The step is memorylessness of the exponential law (`Proofs/Rates.lean`). What happens between the calls is an arbitrary measurable function of the state. That `np.random` is uniform and independent is assumed. |
| C92 | `Model/Tables.lean`: generation of the tables with the Airy functions as parameters, and the lookup of the sigmoid tables (the logarithmic ones are in `Model/Qed.lean`). The law of the fraction is stated through the random numbers that give at most L (`Props/Tables.lean`). `quad` is a parameter (`first`). |
| C93 | `Model/Juttner.lean`: the sampling as a program that draws random numbers, given by the mean of what it ends in. `Proofs/Juttner.lean` proves for every rejection loop of this form, by induction on the rounds, that it ends with probability one and leaves independent numbers with the law of the proposals weighted by the odds to be accepted (`loop_law`); `Props/Juttner.lean` computes these laws and their mean energies (integration by parts). The laws of `uniform` and of `scipy.stats.gamma` are assumed; the Bessel function and the result of the optimiser are parameters. |
| C94 | the collision of `Model/Coulomb.lean`, averaged over its three random numbers (`Props/Scattering.lean`). The mean cosine is an elementary integral; that it is near exp(-s) follows on each of 400 intervals from monotony and rational bounds of the exponential function at their ends, which the kernel evaluates (`Proofs/Scattering.lean`); these 400 intervals cover [0, 4), above 4 the angle is uniform. The momentum transfer is linear in the scattered momentum. |
| C95 | `push` of one particle as a map of position and momentum over any field of numbers (`Model/Liouville.lean`); over the rationals it is what the driver of `Model/Pusher.lean` does with every live particle (`driver_pushes`). Over the reals the volume is kept because the push is a composition of maps of a product space that keep one factor and move the other by a translation or a rotation; the angle of the rotation depends on the length of the momentum, so it is handled in polar coordinates (`radial_rotation`, `Proofs/Liouville.lean`). |
| C96 | the same `push` in a uniform magnetic field (`Props/Gyration.lean`): the momentum step is a rotation (Rodrigues) with tan(angle/2) = omega dt / 2; the centre is an invariant by the half-angle identities; the true motion is any solution of the differential equation. |
| C97 | complete runs of `Model/WholeRun.lean` without particles (`Props/Waves.lean`). The second difference of two steps is the curl of the curl (`Proofs/Waves.lean`), which for fields without divergence is the Laplace operator; sums over the patches are sums over the undivided grid, where a shift multiplies an amplitude by a phase, so amplitudes obey a two-term recurrence (`Proofs/Dispersion.lean`). That no wave is faster than light is Jensen's inequality for sin² as a function of the square. |
| C98 | complete runs of `Model/WholeRun.lean`; the reversed state is `TurnedBack` (`Props/Reverse.lean`), its undivided counterpart `turned` (`Spec/Reverse.lean`). One step is undone by the next after the reversal (`Proofs/Reverse.lean`): the half steps of E and B in opposite order, the rotation by the opposite field, and the deposit, whose two end points exchange; that the running sums of the deposit change their sign follows from their differences and their total. |
| C99 | complete runs of `Model/WholeRun.lean`; the factors and the particles in the other scale are in `Spec/Scale.lean`, the relation of two states is `Scaled` (`Props/Scale.lean`). Each law of the step is shown to commute with the change of scale (`Scales`, `Proofs/Scale.lean`): the curl by its cell sizes, the momentum update because it uses fields only times `q dt / m`, the shape functions because they see only positions in cells, the deposit by its prefactors. |
| C100 | complete runs of `Model/WholeRun.lean` and `Model/WholePml.lean`; `Spec/Track.lean` says when a list of particles is another one later (`Along`, `Later`, `Tracked`). One step of the undivided simulation moves each particle by at most `c dt β` per axis and removes those in a layer (`Proofs/Track.lean`); the relation is transitive with radii that add, and the exchange keeps particles up to order and lengths of the domain (C66, C69). |
| C101 | complete runs of `Model/WholeRun.lean`; regions, cells inside of them and agreement on a region are in `Spec/Causal.lean`. Each law of the step is shown to look at near cells and particles only (`Near`, `Proofs/Causal.lean`, `Proofs/Causal2.lean`): half a step of the fields one cell, a particle the cells up to three from its own, its currents the cells up to three from its own; the pushed particles in the inner region are those of the region. |
| C102 | complete runs of `Model/WholeRun.lean`; the matter of a set of macro particles is given by the totals of all quantities of real particles, i.e. by its distribution function (`Spec/Matter.lean`). The push of a particle is shown not to depend on its weight and its currents to be proportional to it, so both are integrals over the distribution (`Proofs/Matter.lean`); induction over the steps of the undivided simulation, and C66 for the program. `can_recut` shows that every state has others of the same matter. |
| C103 | complete runs of `Model/WholeRun.lean` in 2D and 3D; `Spec/Planar.lean` says when a 3D simulation is a 2D one drawn out along z. The 3D field updates and gathers on fields that do not depend on z are those of 2D, and the 3D currents of a particle, summed over the cells along z, are its 2D currents per cell length (`Proofs/Planar.lean`: the shape functions along z sum to one); induction over the steps of the undivided simulations, and C66 for both programs. |
| C104 | the constructor of a simulation with its validators and the automatic choice of patches (`Model/Config.lean`, over C36); `Documented` says what the documentation asks for. Equivalence by unfolding the validators; the time step from any values of `s**-0.5` that are exact or rounded down; the conditions of C66 from what is accepted, and counterexamples where they do not follow (`Props/Config.lean`). |
| C105 | complete runs with layers (C69): the state that begins with the sum shows the undivided grid that is the sum; every part of a step of that grid is linear, and without particles there are no currents (`Spec/Superpose.lean`, `Proofs/Superpose.lean`, `Props/Superpose.lean`). |
| C106 | complete periodic runs (C66, C102): `SameCharged` compares the totals of all quantities that vanish for charge zero; the push keeps it and the currents depend on nothing else, since the current of a particle has its charge as a factor (`Spec/Neutral.lean`, `Proofs/Neutral.lean`, `Props/Neutral.lean`). |
| C107 | `ProgressBar` with arbitrary readings of the clock, in lockstep with the loop of `run` (`Model/Progress.lean`, `Props/Progress.lean`); induction on the steps left with the invariant "fewer than `interval` steps since the last line". |
| C108 | two configurations, the larger with `m a` times as many cells along axis `a`; `Tiles` compares totals of arbitrary quantities over the larger box with totals over all copies of the smaller one (`Spec/Tiled.lean`). The currents of all copies of a particle on the large ring add up to its current on the small ring (`Proofs/Tiled.lean`); induction on the steps; hypothesis and conclusion are about states of the program (`Props/Tiled.lean`). |
| C109 | `PlotFields` on every rank with the registry of colour maps and the directory as state (`Model/Plot.lean`); what matplotlib does with the arrays is left out beyond what `imshow` accepts. Induction over the calls of a run; a failing call leaves the registry as it was while drawing (`Props/Plot.lean`). |
| C110 | Specification of what a state shows in a window of cells of its box (`Spec/Window.lean`, `SameWindow` in `Props/Window.lean`). Both boxes are continued by copies to the common box whose number of cells is the product of theirs; the copies of a run are the run of the copies (`tile_run`, with the currents of C108), the two runs in the common box agree inside the window by C101, and exactly one copy of a particle lies in the window (`seen_copies`). |
| C111 | Ranks as processes with steps that wait for other ranks or raise, the wrapper of `run` as the handler (`Model/Job.lean`). Invariant over all schedules; the rank that has made the fewest steps can always proceed; the number of steps made is a measure (`Props/Job.lean`). |
| C112 | A world of files, consoles, and per process the sinks of its logger and the timer switch; histories of events of all ranks in any interleaving (`Model/Log.lean`). Invariant: a rank that has made its simulation has its sinks; induction over the history; the statistics by C58 (`Props/Log.lean`). |
| C113 | Differences of a periodic array sum to nothing, so a curl does; the closed form of one particle's current sums to charge times velocity; both lifted to runs of the program by C66 and the sum over patches of C83 (`Proofs/Mean.lean`, `Props/Mean.lean`). |
| C114 | The undivided simulation with layers of C69 is repeated along the absorbing axes; in cells without a layer one step of it is one step of the periodic simulation (stretching 1, no auxiliary field, currents of the larger array equal to those of the periodic one away from the ends), so the locality of C101 applies to both runs (`Spec/Away.lean`, `Proofs/Away.lean`, `Props/Away.lean`). |

Properties that cannot be expressed: none known. Allocation is modelled for the exchanges between ranks (C77); the
`AUTOFREE` macro of the other C functions is outside the model.

## Defects the model shows

Read from the text of the code and proved of the model; none was reproduced by running the code. The theorem named
`..._fails` beside each property has the witness.

* Ids: reused slots keep their id, so ids of living particles can repeat (C02); containers default to rank 0 (C01).
* `extend(0)` on QED containers clears every event flag, a negative size shortens the flag array (C04); the published living
  count includes particles that left (C11).
* Neighbours: mixed boundary conditions give one-sided neighbours, 3D neighbour ranks ignore the rank map (C12).
* 3D: a callback that forces the split path changes the positions (C24).
* Rebalancing: a rank without patches leaves the decision while the others wait in it (C28).
* Two guard cells or fewer are accepted, but a particle near the edge of its patch then deposits outside them (C65).
* A signal seen by the ranks in different steps hangs the run instead of writing a checkpoint (C64).
* After a requested dump, `run` in the same process executes the dumped step again (C31).
* Messages: several ranks can race on `+=` of currents (C30); a lone `sync_currents_start` in a callback
  leaves later deposits unfolded (C33); only particle tags are checked against TAG_UB (C29).
* Checkpoints: names from step 10^6 on sort wrongly, a rollback rotates away the newest, a torn directory counts as a
  checkpoint, overwriting in place is not crash safe (C34, C35).
* Automatic patching of primes and thin patches (C36); species renaming (C37); zero particles per cell and patches of one
  cell (C38).
* Collisions: shares of an odd number of particles (C39) and of the larger side (C40), flip at angle zero (C41), density for the screening length never
  reset (C62).
* QED: table bisection can hang, values above the table read out of bounds (C45), an exact optical depth is lost (C56).
* Output: 3D plane of a remote patch (C48), density callback with a stale or missing previous density (C49).
* Moving window: lags when moving backwards, does not go with periodic boundaries, recycled patches keep particles (C50, C51), lists and bucket bounds go stale (C55).
* Lasers: a centre at 0 is taken as unset, separate lasers overwrite each other (C52), oblique pulses are cut (C60).
* CPML: kappa is lost with two layers on one axis in 3D, so that the fields depend on the cut into patches (C67), sigma_max = 0 divides by zero, which only a direct call of the constructor reaches (C53).
* Loading: `inv_gamma` is stored as gamma, absent momenta stay NaN, attributes come from species 0 (C54); chi of such
  particles is NaN (C61).
* Set-up: `boris+tbmt` has no pusher and shifts those of later species, `radiation="ll"` is always refused, the momentum profile is never read (C70).
* Temperatures: unequal ones are applied as a ratio of momenta instead of its square root, 0 gives NaN, photons stop the run or become slower than light (C71).
* 3D: photons and all species on the split path stand still (C66, C72).
* the impact parameter in the Coulomb logarithm is too large by the Lorentz factor of the centre of mass, so the logarithm of a moving pair is too small (C73).
* a mask with a patch open at both ends of an axis stops the start, and ExtractSpeciesDensity with a slice stops in a masked simulation (C74).
* C75: `AutoReload.reload` swallows the error of a script that fails while it is reloaded and leaves the old simulation in place; `initialized = False` sets its fields and particles up anew but not `itime`, so it is run from its initial state for only the remaining steps, with the wrong times (`half_run_fails`).
* C76: `add_collision` after the start keeps the sorters made without collisions, which have one bucket per column of cells: particles of different cells collide (`late_rows_fails`), and the check of the ordering passes because nothing was sorted yet, so species that drift against each other are paired mirror-wise (`late_mirrored_fails`); the check itself is modelled: it is sound once every colliding species has been sorted (`check_guards_partial`) and accepts anything before (`check_early_fails`).
* C77: no `_wait` looks at the `finalized` flag it sets, so waiting twice for an exchange uses freed memory (`second_wait_fails`); `fill_particles_from_boundary_*_start` returns its `ValueError` without freeing its tables (`failed_start_leaks`); after an exception between `sync_currents_start` and `sync_currents_wait` the old handle stays in the simulation, so the next step starts nothing, adds the old buffers and counts its currents as synchronised (`stale_exchange_fails`).
* C78: the laser reads `bx` in guard cells before the synchronisation of the step, so the lowest cells of the plane in each patch get the field of half a step earlier (`laser_stale_fails`); in a patch with one cell behind the layer the laser writes guard cells only and is lost (`laser_lost_fails`).
* C79: a 2D Gaussian laser has the amplitude factor `w0/w` of a 3D beam; off focus its power is too small (`beam_power2_fails`).
* C80: the Gouy phase enters with the wrong sign, so the carrier envelope phase at the focus is not `cep` (`gouy_fails`).
* C81: an oblique simple laser divides the distance from the axis by the cosine instead of multiplying, and its amplitude does not belong to the boundary condition (`oblique_waist_fails`, `oblique_amplitude_fails`).
* C82: all layers use `dx` for their conductivity, also those along y and z (`cpml_damping_fails`); one patch along an axis with absorbing ends cannot be set up in 2D, and not with four or more layers in 3D (`pml_one_patch_fails`).
* C83: `dt_cfl = 1` is accepted (`le=1`) and documented, but not stable: the alternating field of an even grid grows linearly (`cfl_one_fails`).
* C84: the initial particles of a seed depend on the number of ranks (`seed_ranks_fails`): streams are numbered by rank and place on the rank, not by patch. Loading a checkpoint gives the collisions new streams (`restart_collisions_fails`).
* C85: after a failed redistribution the threshold is multiplied by e/2 and then by 3/π until it is at or below the configured one, so it ends below it (`threshold_fails`): patches are moved at an imbalance the user allowed.
* C88: `ParticlesBase.__setstate__` copies all particle arrays, and `RestartDump.load` calls `update_lists`, which refreshes only containers flagged as extended. After a restart the typed lists of the pushers and QED modules hold the arrays of the dump: a species on the split path stands still until its container is extended or patches are rebalanced (`restart_stale_fails`, `restarted_split_stands_still_fails`); `update_patches` in the loader would repair it (`restart_repaired`). Loading with fewer ranks loses the patches of the other ranks without an error (`restart_fewer_ranks_fails`). `MovingWindow` keeps its counters outside the dump, so a new one shifts at its first call (`restarted_window_fails`).
* C89: the deposition of a step covers the motion from half a step before to half a step after the new position with the new velocity, so the next half push has to use the same velocity. Collisions (`simulation.py` 974-979), recoil and pair creation (1052-1065) change velocities or add particles in between and deposit nothing. Gauss's law is off from then on by the charge they displace (`collision_gauss_fails`, `radiation_gauss_fails`), and the code has no correction of div E.
* C90: `current_depositor.disable()` and `interpolator.disable()` have no effect on species that take the unified path, which interpolates and deposits itself (`depositor_disable_fails`); whether a species takes it depends on which callbacks are registered. `pusher.disable()` on the split path stops the particles but not the deposition, which deposits the current of the motion they do not make (`pusher_disable_fails`). The load balancer inherits `enable`/`disable` too, but nothing asks its flag.
* C91: `create_photon_inline_*` and `create_pair_inline_*` do not write `tau`. A new particle starts with the optical depth left in its slot (`new_particle_depth_fails`). If a particle has gone from there to another patch it has taken the same depth with it, and the two have their events together (`same_depth_fails`).
* C92: fractions below the first column are never drawn, although the first column holds their probability (`below_first_fails`); in the sigmoid lookup the branch meant for them, `r < cdf_min`, cannot be taken. `prob_` is 0 at fraction 1, so the last interval of the logarithmic tables is never drawn either (`last_column_fails`). An electron of a pair so never gets less than the first column, a positron never less than 1 minus the last but one.
* C93: between `mc²/100` and `mc²/2` no energies above `1 + 10 theta` are drawn, although the distribution has some there (`warm_energies_fails`), and the particles are colder than asked for (`warm_temperature_fails`). Below `mc²/100` they are too, because a factor is left out of the distribution (`cold_temperature_fails`).
* C94: the fit of the scattering angle has the slope 0.37 at s = 0 where 3/8 would be right, so many weak collisions turn a particle by 74/75 of what they should, however short the time step (`small_angle_fails`). For a pair whose first particle moves against the z axis the mean momentum after the collision has the wrong sign (`mean_momentum_fails`; the cause is that of C41).

## What the seeded-bug log shows

`seeded/LOG.jsonl` records edits of the model made in a scratch copy. Its first 120 lines were made by
stopping at the first module that failed. In 87 of them only a helper lemma under `Verif/Proofs` failed,
and the property theorems under `Verif/Props` were not rebuilt against the edit. Several of those lemmas
nearly restate the edited definition, so their failure says little. Those 87 lines show that a proof broke.
They do not show that a property theorem rejects the edited program.

The later lines come from a harness that goes on past failed lemmas, and each carries an `outcome`. The first 120
edits were not run again with it, except for a few.

- `property`: a theorem named in MANIFEST.json, other than the `_fails` witnesses, itself fails (`rejected_by`) even with
  the failed lemmas assumed.
- `lemma`: only helper lemmas, examples or `_fails` witnesses fail. `affected` lists the property theorems whose proof rests on one of them.
  Their proof is lost, but they are not shown to be false of the edited program.
- `survived`: no property theorem is affected. Either the edit is harmless or a theorem must be tightened.
- `invalid`: the edited model does not compile, so nothing was tested.
- `unresolved`: the harness could not get past a failed declaration. Nothing is concluded.

Of the 92 edits of the first such batch, 19 end as `property`, 62 as `lemma`, 8 as `unresolved` and 3 survived.
Two survivors led to new theorems (`load_columns`, `sync_currents_once2/3`). The third concerns look-ups beyond the QED
table, where the claim is already shown false of the code.
Batches four to six are 89 edits of the models behind C57 to C68. 14 end as `property`, 71 as `lemma`, 3 as `unresolved` and
one survived: the sum over the species in the screening length begun anew at every species. It led to
`Verif.Debye.value_partial`.
Batches seven to nine are 234 edits made by a script (operators, branches, boundaries and arguments of every definition
exchanged) of the models behind C40 to C96. 45 end as `property`, 162 as `lemma` and 27 survived. 19 survivors led to new or
stronger theorems, which are named in `tightened`; the `note` of the other 8 says why the edited program is not wrong.
The last 172 lines are further edits by the script and some by hand, of helpers that the statements of theorems share with the
model. 42 end as `property`, 112 as `lemma` and 18 survived. 6 survivors led to new or stronger theorems (`load_right_patch`,
`rate_lookup_below`, `report_refused`, the ranges of the laser, the intervals of callbacks). The `note` of each of the other 12
says why: most are equivalent programs, one edit changed the specification, and for `RunLoop.ratMod` the module with the theorem
was not among those built. Six more lines follow: four repeat an edit with the new theorem or the missing module in place, two are
of the edges of the domain. 2 end as `property` and 4 as `lemma`.
The harness goes on past failed lemmas under `Verif/Proofs`, not past a failed example under `Verif/Props`. Modules that import
such a file are then not rebuilt, so `failed` can be incomplete.
