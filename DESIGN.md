# Design of the formal model of SLIDE

This directory contains a Lean 4 model of parts of the battery simulator SLIDE
(`/repo`), a list of semantic properties (`properties.jsonl`) and machine-checked proofs.

## Ground rules

* Numbers. `double` is modelled by exact rationals `ℚ` (every finite double is rational),
  or by `ℝ` / an arbitrary ordered field where a square root or a transcendental function occurs.
  Rounding, NaN and infinities are **not** modelled: every theorem is about the algorithm in
  exact arithmetic.
* Exceptions (`throw 10;`) and undefined behaviour (out-of-bounds access, division by an empty
  range, non-termination) are separate outcomes of a model function (`Outcome.throw`, `Outcome.ub`),
  never a silent default.
* The status codes are the integers of `src/types/Status.hpp`.
* A property that is false of the code is *not* weakened silently: the full statement is kept as a
  `def` (a `Prop`), its negation is proved with a concrete witness, and the strongest part that
  does hold is proved under the name `…_partial`.
* Specifications (`Verif/Spec/*.lean`) are written without reference to the model's helper functions.

## Layout

* `lean/Verif/Model/*.lean` – the model, function by function, with file/line references.
* `lean/Verif/Spec/*.lean`  – independent specifications.
* `lean/Verif/Lemmas/*.lean` – helper lemmas.
* `lean/Verif/Props/*.lean` – one section per property: theorem(s) + `example`s that the hypotheses
  can be met by a non-trivial case.

## Trusted base

* The Lean kernel (4.33.0) and Mathlib definitions used in statements.
* Axioms: at most `propext`, `Classical.choice`, `Quot.sound`.
* The hand translation C++ → Lean (checked only by reading, and by mutation testing of the theorems, see
  `seeded/LOG.jsonl`).

## Plan per property

| id | modelled as | how proved |
|----|-------------|------------|
| C01 | `Cell_ECM` record over ℚ, n RC pairs | case analysis of setCurrent |
| C02 | tree of modules, setCurrent loop with rollback as written | negation by witness (first child not restored); positive part by induction over the children |
| C03 | Module_p::setCurrent loop | negation by witness; partial: structure/other states unchanged |
| C04 | same | negation by witness (non-convergence returns Success); partial: total current preserved |
| C05 | Module::setStates with rollback as written | negation by witness; partial for first-child failure |
| C06 | getStates / setStates on trees | mutual induction on tree |
| C07 | series of cells, operation sequences | invariant by induction |
| C08 | Module_s::V | induction on list |
| C09 | getVall double loop with array writes | loop invariant |
| C10 | sums, getRtot ladder | induction |
| C11 | operation sequences | induction |
| C12 | iterate | induction |
| C13 | Outcome | cases |
| C14 | RC recursion | induction / nlinarith |
| C15 | check_voltage | decision over ordered field |
| C16 | checkVoltage on trees | mutual induction |
| C17, C18 | interpolation incl. index arithmetic with UB outcome | loop invariants; C18 negation by witness |
| C19 | histogram | induction over samples |
| C20 | strided partition; interleavings as permutations | counting; hw = 0 negation |
| C21–C25 | Cycler loops as well-founded recursion over an abstract unit | invariants |
| C26, C27 | containers with explicit UB | induction |
| C28 | heap with addresses and parent pointers | negation for parent pointers, frame theorem |
| C29 | buffer + file trace | induction; row format negation |
| C30 | Status | decide / induction over lists |
| C31 | Battery | algebra |
| C32 | Converter | piecewise algebra, witnesses |
| C33, C34 | CoolSystem control state machine, cooling trees | induction |
| C35–C37 | SPM cache protocol, constructor | witnesses + partial invariants |
| C38 | degradation rates with abstract positive functions | sign analysis + induction |
| C39 | coupled thermal model | sums |
| C40 | linspace | algebra |
| C41 | tokeniser of the CSV reader | witness + partial |
| C42 | cholUpdate | witness + corrected version |
| C43 | diffusion step | linear algebra |
| C44 | getVhigh/getVlow | witness + partial |
| C45 | contact heat | witness + series part |
| C46, C50 | trees | induction |
| C47 | setVoltage | algebra |
| C48 | cached tree refines uncached tree | invariant + witness |
| C49 | cycleAge | induction/witness |
| C50 | tree of named units | injectivity of the joined name |
| C51 | table of messages | decision |
| C52 | series/parallel setCurrent with the local array of 100 entries | loop writes past the array: UB outcome |
| C53, C54 | frame theorems on trees | mutual induction |
| C55, C56 | Cycler::CC / CV | loop invariants; witness |
| C57 | DEG_ID text | injectivity of the printed form |
| C58, C59, C69 | Battery | algebra, witnesses |
| C60 | Module::setSUs on objects with addresses | case analysis; null-pointer witness |
| C61 | Cap of modules | induction |
| C62 | Cell_ECM with a partial OCV curve | case analysis |
| C63–C65 | thermal tree (`T_MODEL == 2`) | mutual induction; witnesses |
| C66 | cooling meters | induction over steps |
| C67 | Procedure::cycleAge throughput rows | induction; witness |
| C68 | setVoltage_iterative, Module_p::setVoltage | loop invariant, convergence; witnesses |
| C70 | S_update / cholUpdate over ℝ | matrix algebra |
| C71 | loadCSV_2col cache | induction over characters; witness |
| C72–C75 | Cell_SPM | case analysis of the state functions, induction over operations, witnesses |
| C76 | one particle with arrays indexed by `Fin`, quadrature matrix as parameter | sums over the mirrored nodes; witness |
| C77 | validOCV, readOCVinput on the curves read from the files | induction over the loop; equivalence with the documented format |
| C78 | cost_OCV with the accumulated fractions | closed form of the accumulation, uniqueness of the predicted voltages |
| C79 | grid search and refinement of the four search spaces | minimum of a scan, invariant "room to refine" over the levels; witness run |
| C80 | discharge with a number of iterations | invariant over time steps; termination by the cathode fraction; witness run |
| C81 | calculateError (mean square) | induction over the measured points |
| C82 | the check-up calls of cycleAge with their arguments | list of calls in the state; induction over the loop |
| C83 | useCaseAge over an arbitrary storage unit | phases as data; a day as nine metered phases, induction over days; witness cells whose rests are evaluated analytically |
| C84 | rebalance on units nested to any depth, cells arbitrary | mutual induction over units and lists of children |
| C85 | the three setBlockDegAndTherm, balancing in balanceCheckup | case analysis per class; flags kept by induction; witnesses |
| C86 | checkUp and checkUp_prep over an arbitrary unit; document as list of lines of fields | induction over the cells; witness run |
| C87 | checkMod on the objects of a system | fold over the traversal of C46 |
| C88 | default constructor with the numbers of the data files; curves, discretisation, profiles of C43 | slopes of the polygons; evaluation in the kernel; induction over the profile |
| C89 | checkModelparam | case analysis; concrete witness |
| C90 | rest as unchecked current 0 and time steps | factors of the modes by induction; geometric decay; divergence of a concrete run |
| C91 | time step against a blocked twin | case analysis of the heat; commutation of the diffusion loop with the blocking flag |
| C92 | setTenv, stand-alone thermal model inside the time step | case analysis |
| C93 | the six factories, objects with addresses, electrical values, cell class and generator as parameters | induction over the loops; composition of series and parallel readings; path names |
| C94 | the same, with the constructor of the single-particle cell | corollary of the draws of C93; concrete witness |
| C95 | names of the packs | parsing at the first underscore, finite case analysis of the switches |
| C96 | getH over the reals; systems reachable from the constructors | invariant of the design; algebra with the square root |
| C97 | energy of the air conditioning in a heat exchange | the same invariant; algebra |
| C98 | cooling systems with recording, all histories of calls | simulation of the system without recording; histogram lemmas of C19 |
| C99 | the same, files as lists of tokens | the same invariant; concrete witnesses |
| C100 | recording of any storage unit as a module | induction over calls; concrete witnesses |
| C101 | likelihood over the (extended) reals; prior densities and cost function are parameters | induction over the parameters; algebra of exp and log |
| C102 | SPM | case analysis of setCurrent; lemma: the second reading equals the first |
| C103 | SPM; the voltages of single steps are those of a blocked twin | induction over the steps and over sequences of operations |
| C104 | SPM; scripts with readings in between | simulation relation (equal, or equal up to a fresh voltage memory), induction over the script |
| C105 | `free::setVoltage_iterative` on the SPM; `Va = Vb` is undefined | induction over the iterations |
| C106 | `Cell_SPM` as an instance of the interface of storage units, on cells without voltage memory | the laws of lawful children for the instance; a simulation between a cell with memory and its unit |
| C107 | constructor and `operator()` of `GammaDensityFunctor` over ℝ | the gamma integral of Mathlib; logarithm inequality for the mode |
| C108 | the throwing branches of `timeStep_CC`, the thermal and the degradation part of `Cell_SPM` | decomposition of the step into diffusion, heat and ageing; induction over the diffusion steps |
| C109 | `Cycler` on trees of single-particle cells (`SpmUnit`) | laws of cells (`CellLaws`), shared with the equivalent-circuit cells, from which time and charge of all phases follow by the induction over nesting and loop iterations; lithium content as an additive observation |
| C110 | the same on trees of ageing cells (`AgedUnit`) | the ageing cells obey `CellLaws`, whose laws of time steps hold for accepted steps only; refinement of the cell model by `SpmAlike`; one-way quantities as a transitive relation kept by every call, lifted over nesting, loops and sequences of phases, for any outcome |
| C111 | the thermal model of each cell on its own (`T_MODEL` 1) on trees of modules | mutual induction over trees and lists of children: success, failure and what each cell has afterwards; heat balance as an equation of its own |
| C112 | cycleAge and useCaseAge with their balancing and check-ups on trees of ageing single-particle cells | what currents, voltages, time steps and the checks preserve, every study preserves (induction over cycles, days, phases and trees); the relation to the pack at the start is such a thing |
| C113 | diffusion, heat and degradation of one time step, whole studies on packs | each part of a step changes the amounts by stated charges whatever its outcome; induction over diffusion steps, operations and (via the relation `SameLithium`) studies |
| C114 | one time step at rest, the stress memory, the rates of all ageing models | invariant over rest operations (still, relaxed, settled); every rate of a cyclic model vanishes for it; counterexample: the first step of a new cell |
| C115 | setStates and validStates of the single-particle cell, all ageing models | invariant over ordinary operations (spheres, resistances unchanged, ageing one way); counterexample: model 4 for loss of active material |
| C116 | estimateOCVparameters with its files as rows of fields; setInitialConcentration | composition of the search (C79), the simulated discharge (C80) and the lithium balance (C113); the printed search settings refuted by a witness |
| C117 | the recording loop of the drive-cycle example | induction over the profile; every prefix of a recording is the recording of the prefix; refused current as counterexample for the current column |
| C118 | the pulse test example: two cells, rows of the file | logs compose (append); induction over seconds and pulses |
| C119 | all potentials of the single-particle cell, all ageing models | the shifted cell is carried along: every formula of the model commutes with the shift; induction over operations |
| C120 | SEI growth, rates of ageing, time integration | the closed formulas are the unique solution of the published equations; invariant for the square of the thickness over operations; counterexample: a thicker layer on charge |
| C121 | crack growth and cathode dissolution | rates by case distinction over models, induction over operations; counterexamples: two crack models, one long call |
| C122 | ageing part of a step of the single-particle cell, all models | published laws as relations in Spec, matched model by model; sums over selected models by induction; courses by induction over steps; counterexample: entropic coefficient at the cathode's fraction |
| C123 | multiplication of the ageing parameters | linearity of each model at the reference temperature (for SEI models 2-4 through uniqueness of the solution); counterexamples: activation energy, largest crack surface |
| C124 | the log of the cycler (storeData, writeData) in the loops of rest, CC, CV, CCCV | every run is a sequence of ticks (step, count, record); induction over ticks gives the spacing, a relation kept by all calls gives order and export; counterexample for rest by a run |
| C125 | the same loops with two intervals | simulation relation: same unit, variables equal except for the count of steps since the last record; counterexample by a run |
| C126 | concentrations at the nodes and the centre, diffusion steps | profiles as polynomials; the hypothesis on the tables gives a profile for every state; the Euler sequence of the amplitudes (induction over steps) is mapped to profiles; uniqueness by counting roots |
| C127 | clocks of the thermal model of nested modules | mutual induction over the tree for codes and clocks, induction over the list of intervals; counterexample: a failing cell followed by another one |
| C128 | losses of the converter | the code's formula equals the data sheet plus an explicit excess; counterexample at zero current |
| C129 | as C35 (`SPM.V`, `calcV`); libm as parameters | Butler–Volmer equation, exchange current and active surface written from the textbook; the overpotentials of the code solve it (asinh inverts sinh), and it has one solution because exp increases; signs from monotonicity |
| C130 | as C14 and C43 (`ECM.timeStep`, `SPM.timeStep`) | differential equations over ℝ as specification; general bound for explicit Euler on x' = lx + b (solution by an integrating factor, telescoping, 1-h ≤ exp(-h) ≤ 1-h+h²/2); iterates of the code are these Euler steps |
| C131 | as C46 and C17 (`Battery`, `Cyc.CC`, `Cyc.rest`) | simulation relation between a cycler on the battery and one on its module, kept by every iteration; induction on the loop |
| C132 | as C11 (`ECM.run`) | storage function: integral of a monotone curve over ℝ (subgradient inequality) and quadratic energy of the RC pairs (sum of squares when dt ≤ 2 tau); induction over steps and calls; monotone extension of the table to ℝ |
| C133 | as C22, C24 (`Cyc.CC`, `Cyc.testCapacity` on `ECM n`) | loop invariant: current applied, RC currents bounded by it, limit not yet passed; open-circuit voltage within the drop of the voltage; slope turns voltage errors into charge errors |
| C134 | as C22, C130 (`Cyc.CC`, `ECM.timeStep` on `ECM n`) | closed form of the RC currents from rest; the mean of the first terms of a falling geometric sequence falls; the cycling loop is exactly K + k steps of dt with k ≤ 2, not beyond the limit after K |
| C135 | `Model/EcmNew.lean`: the constructors of `Cell_ECM`, the default curve from `linspace_fix` and `XYdata`, `getIr` as an entry of the array of states | unfolding and the closed forms of charge and RC currents (C130); witnesses: 0 Ah is accepted, `Cell_Bucket::getIr` reads the time |
| C136 | as C08, C09 (`ModuleS.V`, `ModuleP.V`, `Tree`) | Tellegen: induction over the ladder of contacts (shifting the terminal voltage by the first drop), then over the depth of the tree; cell meters by C54 |
| C137 | the ageing models of Model/SPM.lean, packs and studies as in C112 | per mechanism: its rate is zero if not selected; induction over histories; studies by the preservation lemmas of C112 |
| C138 | `CC` with `diagnostic` on trees of cells, `checkVoltage` of modules | invariant of the loop: an iteration that does not return early ended with a successful check of the whole unit; the worst status of a tree bounds the statuses of its cells; induction over the number of iterations |
| C139 | `ModuleS`, `ModuleP` (setCurrent with equalisation, timeStep with redistribution, all readings) on trees of copies of one cell | refinement: the relation "the tree consists of copies of the cell" is kept by every operation; induction over the depth of the tree, over the number of children and over the history |
| C140 | `Cycler::CC`, `Cycler::rest`, `Cycler::setCurrent` on `ModuleS` of copies of one unit | refinement: every step of the loop commutes with replacing the unit by the string (voltages and limits scaled); induction over the iterations |
| C141 | `Cell_ECM::setSOC`, `Cell_SPM::setSOC` | case analysis against a specification shown to determine the result; frame conditions for the single-particle cell; two negations with witnesses |
| C142 | `Cycler::testCapacity` on `ModuleS` of copies of one unit, with `Module::getStates`/`setStates` | from C140, the round trip of states and C133 |
| C143 | `CC` with `diagnostic` on trees of copies of one cell | refinement: the relation of C139, extended to the cycler with its records, is kept by every iteration; the invariant that the next checked request succeeds follows from the check after the step; induction over the number of iterations. The full statement is false (requests between operating and safety limits) |
| C144 | `CC` in both modes on cells, `ModuleP` | a cell that carries the current keeps it whatever it answers; the answers to the first request are classified; counterexamples for requests answered with `V_not_calculated` |
| C145 | `CV` on trees of cells | meaning of the status (C23), scaled readings of packs of copies (C139); counterexample for an unbalanced string |
| C146 | `CV`, `setVoltage` and `timeStep` of the ECM cell | invariant of the loop: the current never reverses and the charge left shrinks by at least the limit current per step |
| C147 | `CC`, `CV`, `CCCV_with_tlim` on the ECM cell | forward execution of the adaptive loop with a bound on its iterations from the charge left; hand-over of the invariant to C146 |
| C148 | `CC` on the ECM cell, for two cells | closed form of both voltages after k steps, term-by-term comparison; both runs reduced to numbers of steps (C134) |
| C149 | `Module_p::timeStep_CC`, `redistributeCurrent`, `setCurrent` on ECM cells | current difference from equal voltages, contraction of the difference in one step, induction over the history |
| C150 | `Cell_ECM`, phases of the cycler on it | a map between units that commutes with every call, carried through every loop of the cycler |
| C151 | `Module_s`, `Module_p`, `setVoltage_iterative`, phases of the cycler, `Cell_ECM`, `Cell_SPM` | the map of C150 lifted to modules, by induction to packs; the relation of C73 as such a map for single-particle cells; C139 for equal cells in parallel |
| C152 | `Cell_SPM` with heat, stress and ageing; constructor with capacity factor; packs and cycler as in C151 | a map from each state to that of the larger cell; commutes with every call and with diffusion, heat and each ageing model that has no absolute size; induction over histories; concrete runs against the full statement |
| C153 | `Cycler::CC`, `CV`, `CCCV`, `rest` with the reported throughput, `Cell_ECM`, `Module_s` | a batch of steps at the voltage after the batch is covered by the fall of the stored energy (integral of the open-circuit curve, energy in the RC pairs by Bernoulli from both sides); carried through every loop of the cycler for any unit with such an energy; sums over strings; concrete run against the full statement |
| C154 | `Cycler::CC`, `setCurrent` with individual checks, `Module_s::setCurrent`, `checkVoltage`, `Cell_ECM` | invariant of the loop: every cell of the string carries the requested current, has passed its last check and has moved by the reported charge; the check and the rising curve bound the state of charge; concrete run against the full statement |
| C155 | `Module_p::timeStep_CC`, `redistributeCurrent`, `getVall`, `getRtot`, `V`, `Module_s::V`, `Cell_ECM::V` | power balance of the difference of two current distributions (induction along the ladder) bounds the largest difference by the voltage error over the smallest resistance; existence by Thevenin reduction; uniqueness as the case of no error |
| C156 | `Module_p::setCurrent`, `redistributeCurrent`, `timeStep_CC`, `getVall`, `Cell_ECM::setCurrent` | a correction sweep is a projected gradient step on the power of the deviation from the circuit's currents: it preserves the total and shrinks the power by `1 - c R` (symmetric bilinear form of the ladder, by induction); the power bounds the voltage error and the room the cells need; strings and strings of strings are steered like cells (closure of `Steerable` under series connection) |
| C157 | `Cycler::CC`, `rest`, `CCCV_with_tlim`, `testCapacity`, `Module_s::setCurrent`, `Module_p::setCurrent`, `redistributeCurrent`, `timeStep_CC` | each iteration adds at least `dt` or reaches the time limit; `setCurrent` and `timeStep_CC` of every tree with at most 100 children per module are defined and keep its shape (induction over the tree and over the loops); negative steps are refused in the first iteration; false for `dt = 0` |
| C158 | `Module_s` getters, `setCurrent`, `timeStep_CC`, `Module::checkVoltage`, `Cycler::CC`, `rest` | every getter is a sum, minimum, maximum or worst of the children and so invariant under permutations; accepted calls act on each child separately (`List.Perm.map`); a simulation relation is carried through the loops of the cycler; false after a refused call |
| C159 | `Cycler::CC`, `rest`, `Cycler::setCurrent`, `timeStep_CC` of cells and strings | closed form of the unit after a phase (`courseOf`), by induction over the iterations with the batching law of C12 and the fact that setting the same current again changes nothing; the closed forms compose; false when the voltage limit ends the phase |
| C160 | `thermalModel` of cells, modules and batteries | comparison principle: the energy a body receives, plus its heat capacity times its temperature, is monotone in its own temperature (when the step is short compared with its time constant) and in the temperatures around it; mutual induction over both trees; false for long steps, where the explicit step overshoots (as for C65) |
| C161 | `thermalModel` of cells and modules | Jensen's inequality for each body: when the step is short its new temperature is a weighted mean of the old temperatures around it; what the children gain in a convex function of the temperature the coolant loses, exactly as for the heat (C39); mutual induction; false for long steps |
| C162 | the calls of trees of modules | definedness by induction over the depth; the build of a pack is kept by all calls (C06), so at most 100 children stay at most 100; a refused write gives child i the saved states of children 0..i: defined if they are of the same build, by the round trip of C06; concrete witness (failed assertion) for unequal children |
| C163 | `StateStorage`, memory as a function of the address | refinement to an abstract storage with one saved value per address; `restore` of an appended span is `restore` followed by one copy; induction over the history |
| C164 | `ArrayVec` with the allocations of its buffer, `Interval`, `PtrInterval` | induction over the calls: defined and right exactly if the elements fit into the reserved room; direct for the intervals; witnesses for the negation |
| C165 | `thermalModel` of cells and modules, repeated | the weighted sum of squares of the temperatures falls in each update at least by half of the conductance-weighted squared differences between each unit and its coolant (Cauchy-Schwarz for each body, mutual induction); being bounded below it converges, so the differences tend to 0 (bounding the spread by these differences gives a geometric rate); the conserved energy (C39) fixes the limit; a battery takes the steps of a module with one child (simulation); false for long intervals |
| C166 | `thermalModel` of cells and modules, `CoolSystem::setT` | induction over the history with the heat balance of C39; after an update that succeeds every body is at most at its limit (mutual induction), so the stored energy is bounded; a battery takes the steps of a module with one child whose contacts produce the losses of the converter |

## Which code is modelled

| model file (`lean/Verif/Model/`) | code (`/repo/src/`) |
|---|---|
| `Status`, `Voltage` | `types/Status.hpp`, `check_voltage`, `check_safety`, `check_SOC` of `utility/free_functions.hpp`, `cells/cell_limits.hpp` |
| `Interp` | `utility/interpolation.hpp`, look-up of `types/XYdata.hpp` |
| `Unit` | the interface `StorageUnit.hpp` as a type class |
| `ECM` | `cells/Cell_ECM/Cell_ECM.hpp`, `State_ECM.hpp`, the shared part `cells/Cell.hpp` |
| `SPM` | `cells/Cell_SPM/Cell_SPM.cpp`, `_dstate.cpp`, `_diffusion.cpp`, `_degradation.cpp`, `_thermal.cpp` (single cell), `_fitting.cpp` (setters), `State_SPM.hpp` |
| `Dai` | `Cell_SPM::getDaiStress`, `updateDaiStress` of `cells/Cell_SPM/Cell_SPM_degradation.cpp` |
| `Modules`, `ContactHeat`, `Cached`, `SetVoltage` | `modules/Module.cpp`, `Module_s.{hpp,cpp}`, `Module_p.{hpp,cpp}` (electrical part, contact heat, voltage cache, `setVoltage`) |
| `Structure` | parents, ownership, identifiers, cell counts: `StorageUnit.hpp`, `Module::setSUs`, `types/Deep_ptr.hpp`, `procedures/procedure_util.hpp` |
| `Thermal` | coupled thermal model: `Cell_SPM_thermal.cpp`, `Module::thermalModel*`, `Battery::thermalModel*` |
| `Cooling` | `cooling/CoolSystem.cpp`, `CoolSystem_HVAC.cpp`, `CoolSystem_open.hpp` |
| `Converter`, `Battery` | `power_conversion/Converter.cpp`, `system/Battery.{hpp,cpp}` |
| `Cycler`, `Procedure` | `procedures/Cycler.cpp`, `cycleAge` and throughput files of `procedures/Procedure.cpp` |
| `Run` | `utility/parallelisation.hpp` |
| `Containers`, `DegId` | `types/SmallVector.hpp`, `DynamicMatrix.hpp`, `FixedData.hpp`, `Histogram.hpp`, `linspace`, `param/DEG_ID.hpp` |
| `StateStorage` | `types/data_storage/StateStorage.hpp`, `types/ArrayVec.hpp`, `types/Interval.hpp`, `types/PtrInterval.hpp` |
| `DataStorage` | `types/data_storage/CellData*.hpp`, `Cycler::storeData/writeData`, `Module::storeData/writeData` |
| `Csv` | `utility/io/read_CSVfiles.hpp` |
| `Cholesky` | `cholUpdate` of `types/matrix.hpp`, `S_update` of `optimisation/MCMC.hpp` |
| `OcvFit` | procedures/determine_OCV.cpp: validOCV, the checks of readOCVinput, cost_OCV, fitAMnAndStartingPoints, hierarchicalOCVfit, calculateError, discharge_noexcept (version with electrode potentials); not estimateOCVparameters and file output |
| `UseCase` | procedures/Procedure.cpp: useCaseAge; not the module check-up at the end |
| `Balance` | procedures/Procedure.cpp: rebalance, the balancing part of balanceCheckup; setBlockDegAndTherm of StorageUnit, Module and Battery |
| `CheckUp` | procedures/Procedure.cpp: checkUp, checkUp_prep, checkMod (overall document); not the histograms and the printing |
| `DefaultCell` | Cell_SPM default constructor with param_default.hpp and the tables of data/ (open-circuit curves, entropic coefficients, discretisation matrices); checkModelparam |
| `Pack` | factories/makeBattery.cpp: all six factories; not the printing except for the number of cells |
| `CoolFan` | cooling/CoolSystem.cpp: getH; CoolSystem_open.cpp: getH (over the reals) |
| `CoolData` | cooling/data_storage/*; storeData and writeData of CoolSystem and CoolSystem_HVAC; the histogram document of Procedure::checkMod |
| `ModuleData` | modules/Module.hpp: storeData, writeData (own data of a module) |
| `MCMC` | optimisation/MCMC.hpp: MCMC_Input, Prior, LL, MCMC_Record |
| `SpmVoltage` | utility/free_functions.hpp: setVoltage_iterative, on a Cell_SPM |
| `SpmUnit` | cells/Cell_SPM: the interface of storage units (for modules of SPM cells) |
| `AgedUnit` (in `SpmUnit`) | the same for cells with ageing, their voltage memory included; heat exchange between cells left out |
| `GammaPrior` | utility/slide_aux.hpp: GammaDensityFunctor |
| `ThermalCell` | Cell_SPM_thermal.cpp: thermalModel_cell; Module.cpp: thermalModel_cell (`T_MODEL` 1) |
| `Study` | Procedure.cpp: balanceCheckup, rebalance, checkUp on trees of modules of single-particle cells |
| `OcvEstimate` | procedures/determine_OCV.cpp: estimateOCVparameters, writeOCVParam; Cell_SPM_fitting.cpp: setInitialConcentration |
| `Recording` | examples/drive_cycles.hpp: experiment in drive_cycle_artemis; examples/cell_tests.hpp: GITT_test (after the preparation of the cells) |
| `EcmNew` | cells/Cell_ECM/Cell_ECM.hpp: constructors, getIr; not IDs and the data recorder |

**Not modelled**: `main.cpp`, `paperCode.cpp` (programs built from the modelled API), the parameter sets
`Cell_KokamNMC.hpp` (calls an undefined `validState`, so a program that uses it cannot be linked) and
`Cell_LGChemNMC.hpp` (does not compile), `procedures/degradation.cpp` and `determine_characterisation.cpp` (not in any
CMake target), `utility/util_error.hpp` and `types/VecState.hpp` (do not compile), `types/Span.hpp` (comments only),
printing and timing, random number generation, `std::thread` itself (only the distribution of the work and
the interleavings).

## Simplifications

* `double` → ℚ (ℝ for Cholesky): no rounding, NaN, infinities.  Where C++ would divide by zero, the outcome is `ub`.
* `int`, `size_t` are unbounded, except where a conversion is the point of the property (histogram index).
* Loops without a bound get fuel; running out is the separate outcome `ub "out of fuel"`, and where the property is about
  termination, termination is a theorem.
* Calls through `StorageUnit*` are type-class methods; modules are polymorphic in the type of their children, so theorems
  about modules hold for modules of modules by instantiation (`Tree C d`).
* libm functions (`exp`, `sqrt`, `asinh`, `pow`) are parameters; hypotheses state what is needed of them
  (e.g. `exp` positive).
* OCV curves are partial functions ℚ → Option ℚ (`none` = the interpolation throws); the table look-up itself is C17/C18.
* The voltage cache of modules is modelled separately (`Cached`), the electrical theorems are about the uncached module;
  the caching theorem C48 connects the two.
* The header comment of each model file lists what that file leaves out.

## Where code and property disagree

Each entry is a property that is false of the code as written.  The full statement is a `def … : Prop`, a theorem `not_…`
(or a witness theorem) proves that it fails, and the part that holds carries the suffix `_partial`.

* **C02** (A series string sets its current all-or-nothing; `src/modules/Module_s.cpp:Module_s::setCurrent`): False of the code (the roll-back loop does not restore the children): witness proved; SeriesSetCurrentAtomic is the full statement. Success case and rejection by the first child are proved.
* **C03** (A parallel block sets its current all-or-nothing; `src/modules/Module_p.cpp:Module_p::setCurrent`): False of the code: witness proved; ParallelSetCurrentAtomic is the full statement.
* **C04** (An accepted parallel current is the requested one and is equalised; `src/modules/Module_p.cpp:Module_p::setCurrent`): False of the code: for branches of different capacity the total current is wrong (witness), oscillating branches are accepted unequalised (witness). ParallelSetCurrentExact is the full statement. Proved for alike branches with R*C<=1, by convergence of the loop; redistributeCurrent's Success implies pairwise agreement to 1e-10. Witness: `parallel_setCurrent_wrong_total`.
* **C05** (A rejected module state vector leaves the module untouched; `src/modules/Module.cpp:Module::setStates`): False of the code: witness proved; ModuleSetStatesAtomic is the full statement. True for cells and when the first child rejects. Witness: `ecm_setStates_short_ub`.
* **C07** (All members of a series string always carry the same current; `src/modules/Module_s.cpp:Module_s::setCurrent`): False of the code after a rejected current: witness proved; SeriesCurrentsStayEqual is the full statement. True for sequences in which no setCurrent is rejected.
* **C100** (The recorded data of a module describe the module over time; `src/modules/Module.hpp:storeData,writeData`): ModuleTimeRecorded and ModuleFileReadable are the full statement; both are false of the code: the time (and charge and energy) throughput of a module is never updated, so that these columns are always 0, and a second export continues the last row of the first without separator. Rows, order, current, voltage and temperature are proved, and reading a file written once. Witness: `not_moduleTimeRecorded`, `not_moduleFileReadable`.
* **C101** (The likelihood of a parameter set is the one of Bayes' rule; `src/optimisation/MCMC.hpp:MCMC_Input,Prior,LL,MCMC_Record`): Likelihood proved in full over the extended reals (densities not negative, at least as many priors as parameters; fewer are undefined behaviour, LL_short). RecordReadable is the rest of the full statement; false of the code for more than one noise variance (index N_PARAM+1 throws 123511); the others are also ignored by the likelihood. Proved for one variance. Witness: `not_recordReadable`.
* **C104** (Looking at the voltage of a single-particle cell has no effect; `src/cells/Cell_SPM/Cell_SPM.cpp:V`): Full statement: Spec.SpmReadingNoEffect; false of the code: setting the temperature keeps a stored voltage, so that a reading before it changes the reading after it (the same for overwriteCharacterisationStates, overwriteGeometricStates and setCharacterisationParam, see C35). Proved for sequences without these four and with at least one step per time step, ageing and heat included. Witness: `not_spmReadingNoEffect`.
* **C105** (Setting a voltage on a single-particle cell reaches it or is refused; `src/utility/free_functions.hpp:setVoltage_iterative`): Full statement: Spec.SpmSetVoltageOrRefuse; false of the code: the iteration ignores refused currents; the two voltages it then compares are equal, it divides by zero, and the cell keeps the current of the last trial (0.01 C away). Proved: Success means the voltage is reached, and nothing but the current changes. Witness: `not_spmSetVoltageOrRefuse`.
* **C107** (The gamma density functor is a probability density; `src/utility/slide_aux.hpp:GammaDensityFunctor`): GammaFunctorIsDensity is the full statement; false of the code for negative arguments, for which the formula is used as well (exponential distribution: e at -1; for other shapes NaN). The estimation refuses such parameters before it evaluates the prior. Proved for positive arguments over the real numbers. Witness: `not_gammaFunctorIsDensity`.
* **C108** (A failing time step of a single-particle cell leaves it as it was; `src/cells/Cell_SPM/Cell_SPM_dstate.cpp:timeStep_CC`): Full statement: Spec.SpmFailedStepNoEffect; false of the code: the diffusion steps are applied before the voltage, heat and ageing are computed, so that a step that throws has advanced clock, charge counters and concentrations (by at least one step). Proved: what is kept, how far the cell has advanced, and the reason behind every code thrown. Witness: `not_spmFailedStepNoEffect`.
* **C111** (With the thermal model of each cell on its own, a cell in a pack warms as if it were alone; `src/cells/Cell_SPM/Cell_SPM_thermal.cpp:Cell_SPM::thermalModel_cell`): Full statement: Spec.EachOnItsOwn; false of the code: if one cell would leave its range the update throws, and the cells before it have lost their pending heat without getting warmer. Proved: the full claim whenever the update succeeds, and that it succeeds or throws 9 exactly as the cells require, for modules of at most 100 children with coolants between 0 and 75 degrees. Witness: `not_eachOnItsOwn`.
* **C114** (Ageing by cycling needs cycling; `src/cells/Cell_SPM/Cell_SPM_dstate.cpp:timeStep_CC,dState_degradation`): Full statement: RestNeverAges; false of the code: a cell remembers the stress of its previous step only, and a new cell remembers none (0), so that its first step of rest looks like a change from no stress to the stress it has and cracks the particles. Proved: nothing ages once the remembered stress is the one of the relaxed cell (`Settled`), and one accepted step of rest with ageing achieves this; so at most the first step of a rest ages the cell. Dai's stress is computed as in `Model/Dai.lean` with a quadrature that is exact on constants. Witness: `not_restNeverAges`.
* **C115** (The saved states of an aged cell can be restored; `src/cells/Cell_SPM/Cell_SPM.cpp:setStates,validStates,getStates`): Full statement: RestoresOwnStates; false of the code: loss of active material by model 4 removes active surface but no volume, so that the relation a = 3e/R is broken and setStates refuses the states the cell itself has returned. Proved for all selections without model 4, as long as the anode is not used up. Witness: `not_restoresOwnStates`.
* **C116** (The report of the OCV estimation describes the best fit; `src/procedures/determine_OCV.cpp:estimateOCVparameters`): Full statement: estimate_report_partial together with ReportsSearchSpace; the latter is false of the code (not_reportsSearchSpace): the report prints 0 and 1 as the bounds of the start fractions and 0.02 as the relative step, but the search uses 0.38 to 0.40 (cathode), 0.55 to 0.58 (anode) and 100 points between 1 and 2.5. That the files can be opened and the printing of numbers are not modelled; fitted_cell uses the exact sphere of C113. Witness: `OcvFit.not_reportsSearchSpace`.
* **C117** (A recorded drive cycle shows what the cell did; `examples/drive_cycles.hpp:drive_cycle_artemis`): Full statement: drive_record_partial together with DriveShowsCurrent; the latter is false of the code (not_driveShowsCurrent): the current column of the voltage file is copied from the profile, also in seconds in which the cell refused the current and kept the old one. The state file shows the true current. Degradation is blocked as in the example; printing and opening of files not modelled. Witness: `not_driveShowsCurrent`.
* **C120** (The SEI layer grows by the published laws, and slower as it gets thicker; `src/cells/Cell_SPM/Cell_SPM_degradation.cpp:SEI`): Full statement: the laws (sei_law, layer_squareRoot) together with LayerProtects; the latter is false of the code (not_layerProtects): the drop over the layer enters the overpotential as + rsei*delta*I, which on charge makes a thicker layer grow faster by models 1 to 3. Proved on discharge, at rest, and for model 4 always. The exponential function is any positive (for layerProtects_partial: growing) function. Witness: `not_layerProtects`.
* **C121** (Cracks bind lithium by their surface, saturate, and cost diffusion and cathode only within limits; `src/cells/Cell_SPM/Cell_SPM_degradation.cpp:CS`): Full statement: diffusion_limit and cathode_limit together with CracksCountOnce and CracksSaturate; these two are false of the code: every selected crack model adds the whole crack surface once more to the surface on which SEI grows (not_cracksCountOnce), and one long call of the time integration carries the crack surface beyond its largest value (not_cracksSaturate). Proved for one crack model, and for calls short enough for the current. Witness: `not_cracksCountOnce`, `not_cracksSaturate`.
* **C122** (A cell ages by the published laws of the models it was given; `src/cells/Cell_SPM/Cell_SPM_degradation.cpp:CS`): Full statement: AgeingAsPublished; false of the code (not_ageingAsPublished): for the side reactions the entropic coefficient of the anode is looked up at the lithium fraction of the cathode, so away from the reference temperature their potential is wrong. Proved with that fraction in place of the anode's (ageingAsPublished_partial), hence the published laws at the reference temperature or with a constant coefficient (ageing_published_where). Witness: `not_ageingAsPublished`.
* **C123** (Multiplying the ageing parameters by a factor makes a cell age faster by the factor; `src/cells/Cell_SPM/param/SEIparam.hpp:operator*=`): Full statement: FactorsMultiply; false of the code (not_factorsMultiply): the factor also multiplies the activation energies, so away from the reference temperature rates change by another factor; and the largest crack surface is multiplied too (largestSurface_scaled). Proved at the reference temperature for all models but crack model 4. Cathode dissolution, capped by design, and the effect of the layer on the active material are excluded from the statement. Witness: `not_factorsMultiply`.
* **C124** (A cycler records the beginning and the end of each phase and the asked-for interval in between; `src/procedures/Cycler.cpp:rest`): Full statement: exact intervals in all phases, for rest RestRecordsAsDocumented; false of the code (not_restRecordsAsDocumented): steps are taken several at once, so that records are up to nine steps (rest) or one step (constant current) late. Proved with that tolerance, exactly for constant voltage. Phases that end with an error, or are over before they start, make no record at their end and are excluded. Witness: `not_restRecordsAsDocumented`.
* **C125** (Recording data does not change what happens to the cells; `src/procedures/Cycler.cpp:rest`): Full statement: RecordingHarmless; false of the code (not_recordingHarmless): ndt_data also bounds the number of steps taken at once (10 for rest, 2 for constant current), so with ndt_data = 1 a phase may end at another time. Proved for intervals of at least 10 (rest) or 2 steps (constant current), and for constant voltage always. Witness: `not_recordingHarmless`.
* **C127** (The thermal model never loses track of the time; `src/modules/Module.cpp:thermalModel_coupled`): Full statement: Spec.ClocksNeverComplain; false of the code (not_clocksNeverComplain): an update that fails at one cell does not reach the cells after it, so their clocks run on and the next update is refused with 8, then the next one because of the cell after that, and so on. Proved: any number of updates up to and including the first failure. Witness: `not_clocksNeverComplain`.
* **C128** (The losses of the converter follow the data sheet of its switches; `src/power_conversion/Converter.cpp:getLosses`): Full statement: Spec.LossesFollowSheet; false of the code (not_lossesFollowSheet): the energy of switching uses |I - 50| instead of |I| - 50, so it grows for currents below 50 A and is 10 mJ too large for all charging currents. Proved: exact from 50 A discharge on, never less than the sheet, at most 1040 W per inverter more, and exactly 1040 W more when charging. Witness: `not_lossesFollowSheet`.
* **C131** (A battery that stands for many copies of its module takes the module through the same course as the module alone; `src/system/Battery.hpp:setCurrent`): Full statement: Spec.BatteryCyclesLikeModule (constant current); false of the code (not_batteryCyclesLikeModule): on discharge the cycler compares getVlow with 3.1 V and 3.0 V as a cell voltage, but Battery::getVlow returns the lowest cell voltage times the number of copies in series, so a battery with copies in series is not slowed down to single steps near empty and overshoots. Proved for charging, for batteries without series copies, and when every step is recorded; for rest always. The battery must have inverters (else its losses are undefined); T_MODEL 0. Witness: `not_batteryCyclesLikeModule`.
* **C135** (A new equivalent-circuit cell is what was asked for; `src/cells/Cell_ECM/Cell_ECM.hpp:Cell_ECM`): Two parts are false of the code and are stated in full as Spec.BadCapacityRefused and Spec.ReportsRcCurrent with proofs of their negations: capacities that are not positive are accepted (with a negative one, discharging fills the cell: negative_capacity_fills), and getIr of a cell without RC pairs reports the time (getIr_bucket). Everything else is proved. Witness: `not_reportsRcCurrent`, `not_badCapacityRefused`.
* **C138** (With individual checks a constant-current phase does not silently overdrive a cell; `src/procedures/Cycler.cpp:CC`): Full statement CCGuards, false of the code (cc_not_guarded): when the limit is reached at once by setting the current, no step is made and no cell is checked individually (a string reports success although a cell reported a warning), so CC reports ReachedVoltageLimit while a weak cell is discharged at 2.458 V. Proved (cc_guards_partial): if any time was simulated the statement holds; and for the recorded data (cc_records_guarded) it holds whatever the outcome, for a positive time limit.
* **C141** (Setting the state of charge of a cell does what was asked, or nothing; `src/cells/Cell_ECM/Cell_ECM.hpp:Cell_ECM::setSOC`): Two parts are false of the code and are stated in full with proofs of their negations: Spec.UnsafeSocNotKept (without current, or with one in the other direction, values outside the safety limits are kept: not_unsafeSocNotKept sets a resting cell to 1.0 V) and Spec.SocMovesVoltage (on a single-particle cell only the charge counter is replaced, the voltage and the open-circuit voltage never notice: spm_setSOC_inert, not_socMovesVoltage). Everything else is proved. Witness: `not_unsafeSocNotKept`, `not_socMovesVoltage`.
* **C143** (Cycling a pack of identical cells with individual checks is cycling one of its cells; `src/procedures/Cycler.cpp:Cycler::CC`): Full statement: PackCyclesLikeCell; false of the code (not_packCyclesLikeCell): if the current takes the cell out of its operating window (2.7 V to 4.2 V) but not beyond the safety limits, the cell reports the violation and the cycler takes the current back, whereas a module reports success, so the cycler starts, and returns after the first step with the current left on. Proved when the cell accepts the current with status Success (pack_cc_partial) and when it refuses it because of the safety limits (pack_cc_refused). Class CheckedSet: ECM, SpmUnit without ageing. Electrical part of the modules. Witness: `not_packCyclesLikeCell`.
* **C144** (The charge that a constant-current phase reports has flowed; `src/procedures/Cycler.cpp:Cycler::CC`): Full statements: CheckedChargeFlows, ParallelChargeFlows; both false of the code: a current under which the voltage is not positive is refused with V_not_calculated, which Cycler::setCurrent does not take for a refusal (only the codes of voltage limits), so CC simulates the old current and reports the charge of the requested one (not_checkedChargeFlows: 2000 A for 4 s on a resting cell; not_parallelChargeFlows: the same without diagnostic, because parallel modules always check). Proved whenever the answer to the request is not V_not_calculated (cells), and for packs of identical cells when the request succeeds. Witness: `not_checkedChargeFlows`, `not_parallelChargeFlows`.
* **C145** (With individual checks a constant-voltage phase does not silently overdrive a cell; `src/procedures/Cycler.cpp:Cycler::CV`): Full statement: CVGuards; false of the code (not_cvGuards): Cycler::CV does not use the diagnostic flag at all; in a string of two unbalanced cells one is charged with 6.7 A at 4.236 V when the phase reports its current limit. Proved for single cells and for packs whose cells are equal at the end of the phase. Witness: `not_cvGuards`.
* **C150** (A cell of another size behaves alike; `src/procedures/Cycler.cpp:Cycler::CC`): False for constant-voltage phases with a very small current limit: the phase also stops below a fixed 1 microampere, whatever the size of the cell (not_largerHoldsAlike). Proved when both current limits are at least 10 microampere, and without condition for everything else. Witness: `not_largerHoldsAlike`.
* **C151** (A pack of larger cells behaves alike; `src/modules/Module_s.cpp:Module_s::setCurrent`): False for setting the voltage of a parallel module, which corrects the currents by a fixed 200 A per volt, whatever the size of the cells (not_largerPackHoldsAlike), hence for constant-voltage phases on parallel modules; and for current limits below 10 microampere (C150). Everything else is proved in full; single-particle cells without ageing and heat. Witness: `not_largerPackHoldsAlike`.
* **C152** (A larger cell warms and ages alike; `src/cells/Cell_SPM/Cell_SPM.cpp:Cell_SPM::Cell_SPM`): False of the code for four reasons, each with a run: SEI models 1 to 3 (larger_sei_differs) and plating (larger_plating_differs) compute the voltage drop over the surface layer from the total current instead of the current density; the surface of the cracks of a new cell and its growth do not depend on the size of the cell (larger_cracks_differ); nor does the surface that cools a cell alone (larger_cooling_differs). Proved for SEI model 4, all models of loss of active material and of porosity, and (with a surface layer without resistance) SEI models 1 to 3 and plating, when the heat is taken by a module, no thermal model is used, or the cooling surface grows with the cell. Witness: `not_largerAlwaysAgesAlike`.
* **C153** (A cycler never reports more energy out than in; `src/procedures/Cycler.cpp:Cycler::CC`): False of the code for a cycler with individual checks of the voltages (not_noGainReported): when such a check ends the constant-current part of a charge, the batch of steps before it is in the cell but not in the reported throughput, and the charge goes on with constant voltage and reports that it finished; discharging what went in then gives more watt hours than were reported for the charge. Proved without individual checks, for cells with any number of RC pairs and time steps up to the time constants, and for strings of different cells under constant currents and rests. Charges of strings at constant voltage are left out because setVoltage can leave cells of a string with different currents (C07, C02). Witness: `not_noGainReported`.
* **C154** (The weakest cell limits a string; `src/procedures/Cycler.cpp:Cycler::CC`): Full statement: WeakestLimits; false of the code (not_weakestLimits): a current under which the voltage of a cell is not positive is refused with V_not_calculated, which the cycler does not take for a refusal, so it reports charge that never flowed (C144). Proved for every request that is not answered in this way. That individual checks are needed is unchecked_overdrives. RC pairs without current at the start. Witness: `not_weakestLimits`.
* **C157** (Every phase of a cycler comes to an end; `src/procedures/Cycler.cpp:Cycler::CC`): The full statement PhasesEnd is false of the code for a step of zero, where the loops never end (rest_zero_step_endless, cc_zero_step_endless). Proved for every other step, positive or negative, with the number of iterations bounded by tlim/dt for positive ones. Modules with more than 100 children write outside their arrays (C-array of MODULE_NSUs_MAX entries), which is why they are excluded. Exact arithmetic: with doubles a step below the spacing of ttot would not advance it. Witness: `not_phasesEnd`.
* **C158** (Rearranging the cells of a string changes nothing at its terminals; `src/modules/Module_s.cpp:Module_s::setCurrent`): The full statement OrderIrrelevant (any history of calls) is false of the code: after a refused current the first child of the string keeps the new current, and which child is the first depends on the order (badString_order_shows; the cause is C02). Proved for all readings, for every history without a refused call, and for constant-current and rest phases of a cycler without individual checks. Witness: `not_orderIrrelevant`.
* **C159** (A phase can be interrupted; `src/procedures/Cycler.cpp:Cycler::CC`): Proved for rests always and for constant-current phases that reach their time limits. The full statement InterruptionHarmless also covers phases ended by the voltage limit and is false of the code: a new phase starts with single steps again, so the limit is noticed at another moment (interruptCell_ends). For cyclers without individual checks. The energy is left out: it is summed with one voltage per group of steps and does depend on the grouping. Witness: `not_interruptionHarmless`.
* **C160** (Warmer surroundings and more heat make nothing colder; `src/cells/Cell_SPM/Cell_SPM_thermal.cpp:Cell_SPM::thermalModel_coupled`): WarmerStaysWarmer is the full statement; false for long steps (the explicit step overshoots). Proved for every pair of trees, and for batteries, when the step is short compared with all thermal time constants. Witness: `not_warmerStaysWarmer`.
* **C161** (Temperatures only even out; `src/cells/Cell_SPM/Cell_SPM_thermal.cpp:Cell_SPM::thermalModel_coupled`): EvensOut is the full statement; false for long steps (the explicit step overshoots). Proved for every tree when the step is short compared with all thermal time constants, for every convex function of the temperature, with any neighbours; and over any history of intervals in which a pack with a steady heat-transfer coefficient is left alone (entropy, distance from any reference temperature, heat and range of temperatures). Witness: `not_evensOut`, `not_evensOutAlways`.
* **C162** (Every call on a pack has a defined result; `src/modules/Module.cpp:Module::setStates`): CallsDefined is the full statement; false of the code: when states are refused, Module::setStates writes the saved states of children 0..i all into child i, so with children of unequal build a state of charge is read as a temperature and an assertion fails (witness: a cell in series with a string). Proved: setCurrent and timeStep on all trees after any calls; writing valid states unchecked on all trees; writing any states to cells and modules of cells after any calls; writing any states to packs of any depth whose modules have children of equal build, while the pack holds valid states. Witness: `not_callsDefined`.
* **C164** (Views show what they cover; `src/types/ArrayVec.hpp:ArrayVec`): ViewsShow is the full statement; false of the code: ArrayVec::push_back uses an iterator taken before the buffer moved, Interval over a container ends one element early, PtrInterval of an empty container reads x[0]. Proved: the spans are right if and only if room was reserved beforehand; explicit bounds; non-empty pointer intervals. Witness: `not_viewsShow`, `intervals_wrong`.
* **C165** (A pack that is left alone gets one temperature; `src/cells/Cell_SPM/Cell_SPM_thermal.cpp:Cell_SPM::thermalModel_coupled`): BecomesIsothermal is the full statement; false for long intervals (a cell and a coolant swap their temperatures for ever). Proved for every tree when no interval is longer than half of any thermal time constant and the heat-transfer coefficient is steady; and that no update fails while all temperatures are within the limits of the cells; both also for a battery whose converter has no losses. The spread shrinks geometrically, with an explicit rate. Witness: `not_becomesIsothermal`.
* **C18** (The equidistant fast path equals the search path; `src/types/XYdata.hpp:check_is_fixed`): False of the code: the 1% tolerance accepts tables on which the shortcut reads out of bounds or gives a wrong value (witnesses proved). Holds for exactly equidistant tables. Witness: `fixed_shortcut_wrong_value`.
* **C19** (Histogram bookkeeping; `src/types/Histogram.hpp:Histogram::add`): For every sequence of samples within the range of the index conversion each sample is counted in exactly one bin, namely the bin whose edges contain it. The full statement HistogramTotal (every sample) is false: a huge sample overflows the int conversion (histogram_huge_ub), as does a default-constructed histogram. Witness: `histogram_huge_ub`, `histogram_default_ub`.
* **C20** (Parallel execution runs every task exactly once; `src/utility/parallelisation.hpp:run`): RunsEveryTaskOnce (full statement) is false when the hardware concurrency is reported as 0 and no thread count is given: no task runs. Otherwise each task runs exactly once and every interleaving of independent tasks gives the same final state. Witness: `not_runsEveryTaskOnce`.
* **C22** (Constant-current phase respects its limits and accounts its throughput; `src/procedures/Cycler.cpp:Cycler::CC`): False for aborted runs (witness: time of the last step is not accounted): CCAccountsTime is the full statement. Proved for all runs that stop on a limit.
* **C23** (CCCV time and charge include the constant-voltage phase; `src/procedures/Cycler.cpp:Cycler::CV`): False of the code: the CV phase never adds to the reported time. CCCVTimeComplete is the full statement; negation by witness.
* **C24** (A capacity test does not affect the unit; `src/procedures/Cycler.cpp:Cycler::testCapacity`): False of the code: the unit is only restored when the test fails. CapacityTestRestores is the full statement.
* **C26** (Bounded vector never writes out of bounds; `src/types/SmallVector.hpp:SmallVector::push_back`): SmallVector.FullThrows (a full list rejects a further entry with an exception) is false of the code, which writes out of bounds; everything up to the capacity is proved. Witness: `SmallVector.pushBack_full_ub`, `SmallVector.not_fullThrows`.
* **C28** (Copies are independent and self-consistent; `src/types/Deep_ptr.hpp:Deep_ptr`): Copies are equal, share nothing with the original and are not affected by changes of it. CopySelfConsistent (parents inside a copy are units of the copy) is false of the code: copied children keep pointing to the original parent. Witness: `not_copySelfConsistent`.
* **C29** (No recorded data point is lost or duplicated; `src/procedures/Cycler.cpp:Cycler::storeData`): Nothing lost or duplicated and the memory bound are proved for all call sequences. RowsAlwaysDocumented and ExportedValuesExact are the full statements on rows and values; false of the code: the second export continues the last row of the first, and values are written with six digits. Witness: `not_rowsAlwaysDocumented`, `not_exportedValuesExact`.
* **C31** (Battery-level scaling preserves power and current; `src/system/Battery.hpp:Battery`): Scaling of all readings and of power is proved for every module. 'Reports exactly I' (BatteryReportsCurrent) is false for parallel modules, whose total current after an accepted set differs (witness); it is proved for every module that reports what it accepts and for all nested series strings of ECM cells. Witness: `not_batteryReportsCurrent`.
* **C32** (Converter losses are physical; `src/power_conversion/Converter.cpp:Converter::getLosses`): ConverterLossesPhysical is the full statement and false of the code: the loss is below 1.5 kW per inverter at moderate currents, depends on the sign of the current and can fall when an inverter is added. Positivity with the bound 1290 W per inverter holds for all inputs; the documented bound and monotonicity hold when charging. Witness: `not_converterLossesPhysical`, `converter_no_power_ub`.
* **C33** (Cooling control is bounded and has hysteresis; `src/cooling/CoolSystem.cpp:CoolSystem::control`): All parts proved except 'AC off at or below the minimum temperature' (ACOffWhenCold), which is false for strategy 1 at exactly the minimum temperature. Witness: `not_acOffWhenCold`.
* **C35** (The voltage of a single-particle cell is always up to date; `src/cells/Cell_SPM/Cell_SPM.cpp:Cell_SPM::V`): Operations other than setT, the overwrite functions, setCharacterisationParam and time steps with degradation keep the reported voltage up to date; an accepted current refreshes it from any state. The full statement (SpmAlwaysFresh) is false: setT and time steps with degradation leave an outdated cached voltage. Witness: `not_spmAlwaysFresh`, `not_fresh_cycling`.
* **C36** (A failed setStates never leaves a single-particle cell modified; `src/cells/Cell_SPM/Cell_SPM.cpp:Cell_SPM::setStates`): A rejected vector leaves the cell exactly as it was; an accepted one is stored. The full statement is false: negative lost lithium throws 15 (the only exception) and the rejected vector stays. Witness: `not_spmSetStatesAtomic`.
* **C37** (Degradation factors passed to the cell constructor take effect; `src/cells/Cell_SPM/Cell_SPM.cpp:Cell_SPM::Cell_SPM(std::string, const DEG_ID&, double, double, double, double)`): Capacity and resistance factors are applied; the two degradation factors are ignored by the constructor, so the full statement is false. Witness: `not_spmFactorsApplied`.
* **C38** (Degradation only goes one way; `src/cells/Cell_SPM/Cell_SPM_degradation.cpp:Cell_SPM::SEI`): SEI thickness, crack surface and plated lithium never decrease for any sequence; lost lithium as long as the anode surface is not negative; unknown identifiers throw 106. False in full: a long step can make the anode surface negative, a zero-length step divides by zero, a negative number of steps un-ages. Witness: `not_spmAgesOneWay`, `not_spmStepsDefined`, `not_spmStepsNeverUnage`.
* **C39** (Heat exchanged between neighbours cancels; `src/cells/Cell_SPM/Cell_SPM_thermal.cpp:Cell_SPM::thermalModel_coupled`): HeatBalanced is the full statement; false of the code: every cell multiplies the heat flow with its own clock, which may differ by up to 1 s from the clock of its neighbours. Proved for every tree whose cell clocks agree with the duration. Witness: `not_heatBalanced`.
* **C41** (CSV reader returns the numbers in the file; `src/utility/io/read_CSVfiles.hpp:loadCSV_mat`): MatReadsAll and MatTerminates are the full statement; false of the code: white space in front of the first number also removes the first character of the number, and an empty file is an endless loop. Proved for files that start with a number; the 2-column and N-column readers proved for all prefixes. Numbers are exact rationals (no rounding, no overflow). Witness: `Csv.not_matReadsAll`, `Csv.not_matTerminates`, `Csv.not_twoColTerminates`, `Csv.not_ncolDefined`.
* **C42** (Rank-one Cholesky update; `src/types/matrix.hpp:cholUpdate`): CholUpdateCorrect is the full statement; false of the code for factors with entries below the diagonal (the old entry below the diagonal is not divided by c). Proved for every dimension and diagonal factor, the only use in the library. Witness: `not_cholUpdateCorrect`.
* **C44** (Extreme cell voltages are those of actual cells; `src/modules/Module.cpp:Module::getVhigh`): False of the code (a module of cells with voltages below the start value): witness proved; ExtremeVoltagesAttained is the full statement.
* **C45** (Contact-resistance heat equals Joule losses; `src/modules/Module_p.cpp:Module_p::timeStep_CC`): ContactHeatIsJoule is the full statement; false of the code for parallel modules: the current of the previous resistors is added again for every resistor (Module_p.cpp:313-320). Proved for series modules; for parallel modules the heat is right with at most one non-zero contact resistance path and never underestimated. Witness: `contactHeat_wrong`, `not_contactHeatIsJoule`.
* **C46** (Tree traversal and cell count; `src/procedures/procedure_util.hpp:visit_SUs`): The traversal visits every unit exactly once. CountUpToDate (the reported number of cells is always the number of cells in the tree) is false: counts are cached at connection and not updated when a module is filled after being connected. Proved for trees built bottom up. Witness: `not_countUpToDate`, `ncells_new_module_ub`.
* **C48** (Cached module voltage is never stale; `src/modules/Module_s.cpp:Module_s::V`): CacheFresh is the full statement; false of the code: changing a child directly, or an exception during a time step, leaves a stale cached voltage. Proved for all call sequences made through the module without exception. Witness: `CachedS.not_cacheFresh`.
* **C51** (Every status has its own message; `src/types/Status.hpp:getStatusMessage`): False of the code: VMINsafety_violation and VMAXsafety_violation both give the fallback text.
* **C52** (Setting the current of a large module stays inside its buffers; `src/modules/Module_s.cpp:Module_s::setCurrent`): False of the code: for more than 100 children the fixed-size local array is written out of bounds (explicit UB outcome), proved for every such module.
* **C55** (ReachedVoltageLimit means the voltage limit was reached; `src/procedures/Cycler.cpp:Cycler::CC`): False of the code: a charge continued with a smaller current, so that the voltage drops below the limit when the current is set, is reported to have reached the limit without any charging (cc_voltageLimit_spurious; the code itself has a TODO there). CCVoltageLimitMeans is the full statement. Proved for discharges and for charges that start below the limit, on any tree.
* **C59** (Battery state vectors restore the battery or change nothing; `src/system/Battery.cpp:Battery::setStates`): Round trip proved. BatterySetStatesAtomic is false of the code: the container temperature is overwritten also when the module rejects the vector. Witness: `not_batterySetStatesAtomic`.
* **C60** (Connecting units to a module; `src/modules/Module.cpp:Module::setSUs`): SetSUsRefuses is the full statement. It is false for a module without parent: making the error message dereferences the module's own null parent. Witness: `not_setSUsRefuses`.
* **C63** (A failing thermal update loses no heat; `src/cells/Cell_SPM/Cell_SPM_thermal.cpp:Cell_SPM::thermalModel`): FailedThermalKeepsHeat is the full statement; false of the code: the exception handler resets the pending heat. Witness: `not_failedThermalKeepsHeat`.
* **C64** (The heat balance of a battery covers all copies of its module; `src/system/Battery.cpp:Battery::thermalModel`): BatteryHeatBalanced is the full statement; false of the code: the heat of only one copy reaches the battery coolant. Exact missing amount proved; exact balance proved for one copy. Witness: `not_batteryHeatBalanced`.
* **C65** (Temperatures stay between the coldest and the hottest body; `src/cells/Cell_SPM/Cell_SPM_thermal.cpp:Cell_SPM::thermalModel_coupled`): TemperaturesBetween is the full statement; false for long steps (explicit Euler overshoots). Proved for every tree when the step is short compared with all thermal time constants. Witness: `not_temperaturesBetween`.
* **C67** (The throughput file has one row per charge or discharge phase; `src/procedures/Procedure.cpp:Procedure::cycleAge`): RowsPerPhase is the full statement; false of the code: the rows are running totals, and the heading has five names for four columns. Proved: one row per phase with the running total, nothing left pending. Witness: `not_rowsPerPhase`.
* **C68** (setVoltage of a module tells whether the voltage is reached; `src/utility/free_functions.hpp:setVoltage_iterative`): Success always means that the voltage is reached; exact convergence conditions proved for cells. SetVoltageAtomic and SeriesSetVoltageDefined are the rest of the full statement; false of the code: the old currents are not restored, and for an unreachable voltage a string divides by zero. Witness: `not_setVoltageAtomic_parallel`, `not_seriesSetVoltageDefined`.
* **C69** (The converter and air conditioning fit the battery; `src/system/Battery.cpp:Battery::setModule`): ConverterAlwaysRated is the full statement for every order of calls; false of the code: setSeriesandParallel after setModule does not rate the converter again. Proved for setSeriesandParallel before setModule. Witness: `not_converterAlwaysRated`.
* **C71** (Two-column files are read once and served from memory; `src/utility/io/read_CSVfiles.hpp:loadCSV_2col`): SpanDefined is the rest of the full statement; false of the code: a span longer than the data is undefined behaviour. Witness: `Csv.not_spanDefined`.
* **C72** (A single-particle cell accepts only valid states; `src/cells/Cell_SPM/Cell_SPM.cpp:Cell_SPM::setStates`): Proved for positive effective surfaces; the full statement is false because a negative effective surface passes the relative comparison. Witness: `not_spmAcceptsOnlyValid`.
* **C74** (The characterisation function sets the DC resistance it is given; `src/cells/Cell_SPM/Cell_SPM_fitting.cpp:Cell_SPM::setCharacterisationParam`): False of the code: with equal electrodes the DC resistance becomes twice the value, plus SEI and collector. Witness: `not_spmCharacterisationRdc`.
* **C75** (Active material is only lost; `src/cells/Cell_SPM/Cell_SPM_degradation.cpp:Cell_SPM::LAM`): Proved while the effective surfaces are not negative and, with the porosity model, the cell is not charged; false otherwise. Witness: `not_spmLosesMaterial`, `not_losesMaterial_charging`.
* **C76** (The stress of a particle follows the difference to its mean concentration; `src/cells/Cell_SPM/Cell_SPM_degradation.cpp:Cell_SPM::getDaiStress`): StressAtNode and ReportsLargest are the full statement; false of the code: the tangential stress reads the concentration array from the surface with an index counted from the centre, so nodes get the stress of their mirror image and the surface concentration is never used. Equilibrium, linearity, radial stress and the maximum over all other nodes are proved. Witness: `Dai.not_stressAtNode`, `Dai.not_reportsLargest`.
* **C79** (The OCV fit returns a best combination, and further levels never make it worse; `src/procedures/determine_OCV.cpp:hierarchicalOCVfit`): Best combination, step sizes and recovery are proved in full (measured curves with fewer than 25 million points; errors as mean squares). EachLevelImproves is the remaining part of the statement; it is false of the code: with an even number of values (the program uses 100 for the active materials) the best combination of a level is not among those of the next one, and the result can get worse. fit_improves_partial proves it for odd numbers of values. Witness: `OcvFit.not_eachLevelImproves`, `OcvFit.fit_ub`.
* **C80** (The simulated OCV curve conserves lithium; `src/procedures/determine_OCV.cpp:discharge_noexcept`): Lithium balance, start, end and termination are proved. StoredTogether and FractionsInside are the rest of the statement; both are false of the code: the voltages are looked up before the charge of a time step is exchanged, so they belong to the charge 1/7200 of the capacity before, and the last time step can leave the range of 0 to 1. The documented exception 1 is never thrown. A capacity of 0 never ends. Witness: `OcvFit.not_storedTogether`, `OcvFit.not_fractionsInside`.
* **C82** (Check-ups are told how far the cell has been cycled; `src/procedures/Procedure.cpp:cycleAge`): CheckUpsNumbered is the full statement; false of the code: the last check-up is told the number of cycles asked for, also if the run ended early. Proved for all other check-ups, and for the last one of a complete run. Witness: `not_checkUpsNumbered`.
* **C83** (A use-case day consists of its nine phases; `src/procedures/Procedure.cpp:useCaseAge`): Days, rests, order, reason for an early end, running totals and check-ups are proved. EveryPhaseReaches and OwnRowsOnly are the rest of the statement; both are false of the code: the states of the first charge, first discharge and second charge are ignored (a day in which both 1C phases are refused counts as completed), and because the unit is discharged before the first check-up the file is not started afresh and keeps the rows of earlier runs. Witness: `not_everyPhaseReaches`, `not_ownRowsOnly`.
* **C84** (Balancing brings every cell to the balance voltage; `src/procedures/Procedure.cpp:rebalance`): Balances is the full statement; false of the code: only cells whose class is exactly Cell_SPM are balanced, nothing in a battery is, and the result of the CCCV phase is ignored; if a child other than the first fails the distance of unrelated objects is computed (undefined). Proved: what happens to every cell of the unit in a successful balancing. Witness: `not_balances`.
* **C85** (Blocking degradation reaches every cell, and balancing leaves the blocking as it was; `src/StorageUnit.hpp:setBlockDegAndTherm`): BlocksCells and KeepsBlocking are the full statement; false of the code: setBlockDegAndTherm is not virtual, so that a call through a storage unit sets the flag of the unit only and a call through a module reaches only its direct children, and balancing a blocked cell unblocks it. Witness: `not_blocksCells`, `not_keepsBlocking`.
* **C86** (The check-up document has one row per cell; `src/procedures/Procedure.cpp:checkUp`): ShowsState and ColumnsNamed are the rest of the full statement; both are false of the code: the states in the document are those of the copy after its capacity test, and a comma is missing in the heading, so that every value behind the cycle number stands below the name of another one (the energy throughput below Capacity). A unit without cells is undefined behaviour. Rows, order, values and the effect on the unit are proved. Witness: `not_showsState`, `not_columnsNamed`.
* **C89** (A discretisation computed for other parameters is refused; `src/cells/Cell_SPM/Cell_SPM.cpp:checkModelparam`): WrongDiscretisationRefused is the full statement; false of the code: number of nodes and radii are compared without absolute value, so that a discretisation for fewer nodes or smaller radii is accepted. The eigenvalue part, and the part for larger values, is proved. The default constructor does not call the check at all. Witness: `wrongDiscretisationRefused_partial`, `not_wrongDiscretisationRefused`.
* **C90** (A single-particle cell at rest settles to the open-circuit voltage of its state of charge; `src/cells/Cell_SPM/Cell_SPM_dstate.cpp:timeStep_CC,dState_diffusion`): RestSettles is the full statement; false of the code: the explicit integration is unstable for time steps longer than two time constants of the fastest mode (5.7 s for the default cell with the diffusion constant at 25 degrees, less when it is warmer), no step length is refused, and the voltage then silently reads 0. Proved for all steps of at most 5 s at the default temperature; rest_modes and rest_surface hold for every cell, with the exact condition in factor_lt_one_iff. Witness: `not_restSettles`.
* **C93** (A ready-made battery pack is what its factory announces; `src/factories/makeBattery.cpp:makeBattery,makeBattery2,makeBattery_EPFL_smaller,makeBattery_EPFL,makeBattery_Test,makeBattery_TestParallel`): The six packs are proved for any class of cells (a parameter) that at rest reports one voltage and capacity and resistance within bounds. Full statement: Spec.PrintsNumberOfCells; false for makeBattery_TestParallel, which prints 72 cells for a pack of 3 (line 787). The comments of the EPFL packs describe 6 parallel cells; the code uses 7. Witness: `Pack.not_printsNumberOfCells`.
* **C94** (The cells of a pack differ in the properties that were asked to spread; `src/factories/makeBattery.cpp`): Proved for capacity and resistance. Full statement: Spec.SpreadOfAgeing; false: the constructor of the cell ignores the degradation factors (C37), so that all cells of a pack with degrateSpread age with the same rate constants. Witness: `Pack.not_spreadOfAgeing`.
* **C95** (The name of a ready-made battery pack tells which pack it is; `src/factories/makeBattery.cpp`): Proved for makeBattery and makeBattery2 (all settings) and between the other suffixes. Full statement: Spec.NamesTellPacksApart; false: makeBattery_EPFL, makeBattery_EPFL_smaller and makeBattery_Test give the same name for the same settings. Witness: `Pack.not_namesTellPacksApart`.
* **C96** (A running fan carries heat away, and a hotter pack is cooled at least as well; `src/cooling/CoolSystem.cpp:getH,control`): Full statements: Spec.HotterIsCooledBetter, Spec.NeverHeatsTheCells; false of the code: the fitted formula for the coefficient has its maximum at an air speed of 25 m/s and is used without limit, so that with the proportional strategies a pack hotter than 37.5 degrees is cooled worse the hotter it gets, and above about 96 degrees the coefficient is negative. Proved for the other strategies, and up to 37.5 and 75 degrees. Witness: `not_hotterIsCooledBetter`, `not_neverHeatsTheCells`.
* **C97** (The air conditioning costs what its coefficient of performance says; `src/cooling/CoolSystem_HVAC.cpp:dstate,getACoperatingPower,control`): Full statements: Spec.CompressorFollowsCOP, Spec.OutsideAirIsCheap; false of the code: the heat is multiplied by the coefficient of performance instead of divided by it (9 times too much energy; a comment in the code shows the confusion), and the cross section of the fan for outside air does not grow with the ancillary losses. Proved: the cost is the product, and outside air is cheap for at most 14 W of ancillary losses per cell. Witness: `not_compressorFollowsCOP`, `not_outsideAirIsCheap`.
* **C98** (The recorded data of a cooling system are the means of the recording intervals; `src/cooling/data_storage/CoolSystemData.cpp:storeData`): Histogram recording is proved in full (no sample absurdly far outside the ranges, see C19). PointsAreIntervalMeans is the full statement for point recording; false of the code: heat, energy and time of the interval are never reset, so that every row holds the means since the start. That is proved. Witness: `not_pointsAreIntervalMeans`.
* **C99** (The recorded data of the cooling systems reach their files; `src/cooling/data_storage/CoolSystemData.cpp:writeData`): PrintsTotalEnergy, ACPointsRecorded and ACHistogramsRecorded are the full statement; all are false of the code: the energy printed is that since the last call to store, and the recorded data of the air conditioning has the type of that of a fan, so that the overloads that do nothing are selected, and the check-up document prints an empty histogram. Module::writeData and Battery::writeData do not write the data of their cooling systems at all (the calls are disabled). Witness: `not_printsTotalEnergy`, `not_acPointsRecorded`, `not_acHistogramsRecorded`.

Proved in full: C01, C06, C08, C09, C10, C102, C103, C106, C109, C11, C110, C112, C113, C118, C119, C12, C126, C129, C13, C130, C132, C133, C134, C136, C137, C139, C14, C140, C142, C146, C147, C148, C149, C15, C155, C156, C16, C163, C166, C17, C21, C25, C27, C30, C34, C40, C43, C47, C49, C50, C53, C54, C56, C57, C58, C61, C62, C66, C70, C73, C77, C78, C81, C87, C88, C91, C92.

Remarks on these:

* C102: Doubles are rationals; a division by zero (no electrode surface, ...) is the outcome ub.
* C103: The voltage of each step is the one reported by a cell without ageing and heat after the same number of steps (these run once per batch, after the steps). Clock and charge counter of a time step are in C43.
* C106: In modules a cell is represented by the cell without the voltage it has stored and without its stress record; that a cell with them answers every call alike is proved for single cells (spmUnit_refines_*), the modules are those of C01-C16. Physical: no divisor vanishes and the curves cover all fractions between 0 and 1 (SpmGood).
* C109: Cells as in C106 (no ageing, no heat, no stored voltage). The loops of the cycler end within the given number of iterations; running out of it is a separate outcome. spm_cc_carried is for cyclers without individual voltage checks, spm_cccv_charge for a first phase that ended at one of its limits (as C22, C23). Starting a charge at its voltage limit is excluded in spm_cc_voltageLimit (as C55).
* C110: Cells are `AgedUnit`s (parameters without zero divisors, curves on all of (0,1)); a step that leaves this domain is undefined and without effect. `agedUnit_*`: the units answer every call like the cell model with its voltage memory. The heat exchange between the cells of a module is left out (default thermal model leaves temperatures unchanged). Lost lithium and active material, which can go back in the code (C38, C75), are not part of the claim.
* C112: Cells are `AgedUnit`s as in C110. Balancing and check-up are modelled on trees of modules (`Model/Study.lean`); rebalanceTree_pack and checkUpTree_document say that they are those of C85 and of the check-up documents. The capacity tests work on copies of the cells, as in the code. That balancing a single cell switches its ageing on is C85.
* C113: `CountsLi` states what the discretisation needs (exactly true of the shipped matrices: the uniform amplitude has eigenvalue 0) and that main and side reactions take the same number of electrons (1 in the code). `ExactSphere` holds of the shipped `Cheb_*.csv` up to rounding. spm_lost_lithium_found needs no hypothesis. With loss of active material the sum is not kept (example): the lithium in the lost material is not booked anywhere.
* C118: For runs that end without exception, for any numbers and lengths of pulses; the preparation of the cells by the cycler is not part (cells with blocked degradation, at any state); printing not modelled.
* C119: The shift is applied to both electrode curves and to the equilibrium potentials of SEI growth, plating and cathode dissolution; the entropic coefficients and the voltage limits of the cell are differences and stay.
* C126: Exact arithmetic; profiles are polynomials in the distance from the centre, symmetric and of degree at most twice the number of nodes. Hypothesis Spec.FickSphere: the tables discretise diffusion in a sphere exactly; checked numerically for the shipped Cheb_*.csv (true up to rounding), proved for a small instance. Diffusion constants different from zero; time steps with degradation and heat blocked (with degradation the anode also loses lithium to side reactions: C113, C120).
* C129: Exact arithmetic. Spec.LibmRight states what is needed of exp, asinh and sqrt (exp positive and increasing, asinh inverts its hyperbolic sine, the two square roots taken are right); Spec.PhysicalCell that temperature, rate constants and dimensions are positive and resistances not negative. For a voltage that is not cached; that a cached voltage is the same is C35.
* C130: The exact course is any solution over the reals of the differential equations in Spec.ExactCircuit and Spec.ExactDiffusion (they exist: exactCircuit_exists, exactDiffusion_exists). Exact arithmetic in the cell. For single-particle cells with blocked or absent degradation and without thermal model; the equations of the modes are those of the given discretisation, their relation to Fick's laws is C126.
* C132: Exact arithmetic; the stored energy is an integral over the reals. Spec.PassiveCell: open-circuit voltage known from 0 to 1 and not falling, capacity and time constants positive, resistances not negative. Spec.StaysInside: state of charge between 0 and 1 and voltage not negative after every single step, steps at most twice the time constants; that this limit is needed is long_steps_create_energy.
* C133: Exact arithmetic. For a cycler without diagnostic; a report of 0 means that the test failed (C24). Slope of the open-circuit voltage: Spec.SlopeAtLeast; starting state: Spec.ReadyForTest; circuit: Spec.CircuitSound.
* C134: Exact arithmetic. Cycler without diagnostic and without recording; rest: Spec.CircuitAtRest; circuit and time step: Spec.RatedCell.
* C136: Exact arithmetic. Operating state: Spec.InOperation; losses: Spec.contactLoss (independent of the heat that the code computes, which is wrong for parallel modules, C45).
* C137: OnlySelected lists, mechanism by mechanism, what must not change; proved for all histories of calls on a cell in ordinary use (overwriting states or parameters excluded) and for whole ageing studies on packs with balancing and check-ups, however they end.
* C139: For cells that answer every request and keep their state when they refuse (class Replicable: ECM, SpmUnit, AgedUnit). The reading of the voltage is for a positive cell voltage (a string with a cell at 0 V reads 0). Electrical part of the modules (no thermal model).
* C140: Equality of outcome, final state, record and throughput (Spec.cycString, Spec.thrString). For cells that obey LawfulCurrent and LawfulStep (ECM, SpmUnit without ageing) and whose maximum voltage is at least 3.1 V (all cells of the library). Electrical part of the module (no thermal model).
* C142: Exact arithmetic. Equality of report, charge, time and all states, for cells that obey LawfulCurrent, LawfulStep and LawfulStates (ECM, SpmUnit without ageing). Electrical part of the module (no thermal model).
* C146: HoldSetting and Towards (Spec/CVSettles) are the conditions in words of the statement; RC pairs must not carry current in the other direction at the start.
* C147: Without individual checks (diagnostic off) and without recording (which makes no difference, C125). The bound R*Ilim is for cells without RC pairs; with RC pairs the bound contains the drop over them at the end.
* C148: Without recording and with a cycler without diagnostic; the allowance of two time steps is the number of steps the adaptive loop may take at once.
* C149: Cells without RC pairs, no contact resistances. That requested currents leave equal voltages is a condition on the history (setCurrent does not guarantee it, see C04); that successful simulations leave them equal is proved.
* C15: For limits nested with the 10 mV margin; a theorem shows the margin is necessary.
* C155: Stated for simulation steps that return; that a request for a current can report success without reaching the circuit's currents is C04. Strings whose cells read a positive voltage. Exact arithmetic.
* C156: Generalises the positive part of C04 from alike cells without contacts to any resistances and contact ladders. For a product of capacity and resistance above the bound the iteration can oscillate (parallel_setCurrent_not_equalised, C04), and for different capacities the total can be wrong (parallel_setCurrent_wrong_total, C04). The number of corrections the code allows enters through Reachable. Exact arithmetic.
* C163: Refinement: every history of operations on the storage has the effect of the abstract storage (one saved value per address).
* C166: The heat balance of C39 summed over any history; every update that succeeds leaves each body below its limit. Clocks of the cells equal to the interval (see C39).
* C17: Search-based lookup including the binary search loop, with out-of-bounds reads as explicit UB outcome.
* C21: rest_exact: for every tree, whenever rest returns ReachedTimeLimit exactly the requested time was simulated in every cell and reported. rest_reaches: on series strings it always returns. rest_terminates: the loop needs a bounded number of iterations for every unit. Time step 0 is shown to loop forever.
* C43: Over the rationals. The fixed point needs that the matrix row of the uniform concentration is zero (true of the shipped matrices) and that no side reaction is active.
* C49: The check-up and the balancing procedure are parameters of the model (any functions on the unit).
* C73: Over the rationals; degradation and thermal model blocked, as stated.
* C77: Columns of equal length with at least one row, as the CSV reader returns them (C41, C71); an empty curve is undefined behaviour, stated as a theorem.
* C78: Over the rationals; the final voltage of the measured curve is not negative (what C77 accepts), amounts of material and maximum concentrations are not 0.
* C81: The model returns the mean square; the square root taken by the code is zero exactly if it is.
* C87: Connected systems as built by the library (C60); the histogram document is not modelled (off by default).
* C88: The numbers of the data files are part of the model (generated from them). exp, sqrt and asinh are arbitrary functions with the signs of the real ones. The settled voltage is that of the same amounts of lithium evenly distributed; how a rest reaches it is C90.
* C91: Voltage up to date before the step (C35). The state at the end of the step is that of a twin with degradation and heat blocked, since degradation changes it after the heat has been computed.
* C92: All three thermal models the program can be compiled with (a parameter of the model).
