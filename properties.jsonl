{"id": "C01", "title": "A rejected cell current leaves the cell untouched", "statement": "Calling setCurrent on an equivalent-circuit cell either returns an accepted status and then the cell carries exactly the requested current with every other state (temperature, SOC, RC currents, time, Ah, Wh) unchanged, or returns a bad status and then the whole cell is exactly as before the call.", "quantifier": "for every number of RC pairs, every cell state, every requested current, and both values of checkV", "why_tests_cant": "There are infinitely many (state, current) pairs and the accept/reject boundary depends on all of them; a test samples a few.", "anchors": ["src/cells/Cell_ECM/Cell_ECM.hpp:Cell_ECM::setCurrent", "src/cells/Cell.hpp:Cell::checkCurrent", "src/utility/free_functions.hpp:free::check_voltage"]}
{"id": "C02", "title": "A series string sets its current all-or-nothing", "statement": "When setCurrent on a series module returns a bad status, every cell of the string carries the current it carried before the call; when it returns Success every direct child carries the requested current.", "quantifier": "for every number of children, every nested structure of children, every initial state, every requested current and checkV flag", "why_tests_cant": "The failure can occur at any position of a string of any length; tests check one or two positions.", "anchors": ["src/modules/Module_s.cpp:Module_s::setCurrent"]}
{"id": "C03", "title": "A parallel block sets its current all-or-nothing", "statement": "When setCurrent on a parallel module returns a bad status, every child carries the current it carried before the call.", "quantifier": "for every number of children, every initial state and every requested current", "why_tests_cant": "The rejection can happen for any child in any iteration of an unbounded equalisation loop.", "anchors": ["src/modules/Module_p.cpp:Module_p::setCurrent"]}
{"id": "C04", "title": "An accepted parallel current is the requested one and is equalised", "statement": "When setCurrent on a parallel module returns Success, the sum of the branch currents equals the requested current and the terminal voltages of all branches agree within the documented tolerance.", "quantifier": "for every set of branches (any capacities, resistances, states) and every requested current", "why_tests_cant": "Whether the fixed-point iteration preserves the total and converges depends on real-valued parameters of all branches.", "anchors": ["src/modules/Module_p.cpp:Module_p::setCurrent", "src/modules/Module_p.cpp:Module_p::redistributeCurrent"]}
{"id": "C05", "title": "A rejected module state vector leaves the module untouched", "statement": "When setStates on a module returns a bad status, every cell below the module has exactly the states it had before the call.", "quantifier": "for every module tree, every state vector and every position at which a child rejects its part", "why_tests_cant": "The rejecting child may sit anywhere in a tree of any size; tests use one shape.", "anchors": ["src/modules/Module.cpp:Module::setStates", "src/cells/Cell_ECM/Cell_ECM.hpp:Cell_ECM::setStates"]}
{"id": "C06", "title": "Saving and restoring states is lossless", "statement": "Taking getStates of a storage unit whose states are valid, doing anything that keeps its structure, and calling setStates with the saved vector (voltage check off) returns Success, restores every saved state of every cell and consumes exactly the entries that were produced.", "quantifier": "for every tree of series/parallel modules and cells and every pair of states of that tree", "why_tests_cant": "Alignment of the flattened vector must hold for every tree shape; one misaligned entry only shows for particular shapes.", "anchors": ["src/modules/Module.cpp:Module::getStates", "src/modules/Module.cpp:Module::setStates", "src/cells/Cell_ECM/Cell_ECM.hpp:Cell_ECM::getStates", "src/types/data_storage/StateStorage.hpp:StateStorage"]}
{"id": "C07", "title": "All members of a series string always carry the same current", "statement": "Starting from a string whose children all carry the same current, after any sequence of setCurrent and timeStep_CC calls on the string all children still carry the same current, and it is the string's reported current.", "quantifier": "for every finite sequence of calls and every string of cells", "why_tests_cant": "It is an invariant over unbounded call sequences.", "anchors": ["src/modules/Module_s.cpp:Module_s::setCurrent", "src/modules/Module_s.cpp:Module_s::timeStep_CC", "src/modules/Module_s.hpp:Module_s::I"]}
{"id": "C08", "title": "Series voltage follows Kirchhoff's voltage law", "statement": "The voltage of a series module equals the sum of its children's voltages minus the module current times the total contact resistance, provided every child reports a positive voltage; otherwise the module reports 0, and its OCV, voltage limits and resistance are the corresponding sums.", "quantifier": "for every number of children, every contact resistance vector and every state", "why_tests_cant": "Depends on real-valued children and arbitrary length.", "anchors": ["src/modules/Module_s.cpp:Module_s::V", "src/modules/Module_s.hpp:Module_s::Vmin", "src/modules/Module_s.cpp:Module_s::getRtot"]}
{"id": "C09", "title": "Parallel terminal voltages follow the contact-resistance ladder", "statement": "getVall of a parallel module returns for child k its own voltage minus the sum over j<=k of contact resistance j times the total current of children j..n-1, and never reads or writes outside the output container when the container is large enough; it throws 10 otherwise.", "quantifier": "for every number of children and all voltages, currents and resistances", "why_tests_cant": "The double loop must be right for every length; tests use 2-4 cells.", "anchors": ["src/modules/Module_p.cpp:Module_p::getVall"]}
{"id": "C10", "title": "Parallel totals follow Kirchhoff's current law", "statement": "The current and capacity of a parallel module are the sums over its children, its voltage window is the intersection of the children's windows, and its total resistance is the ladder resistance which reduces to the parallel combination when contact resistances are zero.", "quantifier": "for every number (>=1) of children", "why_tests_cant": "Unbounded number of children with real parameters.", "anchors": ["src/modules/Module_p.hpp:Module_p::I", "src/modules/Module_p.hpp:Module_p::Cap", "src/modules/Module_p.cpp:Module_p::getRtot"]}
{"id": "C11", "title": "Charge conservation of cell time stepping", "statement": "Over any sequence of accepted setCurrent and timeStep_CC calls, the SOC of a cell changes by exactly minus the net charge divided by 3600 times its capacity, its recorded Ah grows by the absolute charge, its time by the total simulated time, and time, Ah and Wh never decrease.", "quantifier": "for every sequence of operations of any length with any currents, step sizes >= 0 and step counts", "why_tests_cant": "Unbounded histories; accumulated counters can only be compared with an independent integral by induction.", "anchors": ["src/cells/Cell_ECM/Cell_ECM.hpp:Cell_ECM::timeStep_CC"]}
{"id": "C12", "title": "Batched time steps equal single time steps", "statement": "timeStep_CC(dt, n+m) leaves a cell in exactly the same state as timeStep_CC(dt, n) followed by timeStep_CC(dt, m), and likewise for a whole series or parallel-free tree of cells.", "quantifier": "for all n, m, dt >= 0 and all states", "why_tests_cant": "Unbounded n and m.", "anchors": ["src/cells/Cell_ECM/Cell_ECM.hpp:Cell_ECM::timeStep_CC", "src/modules/Module_s.cpp:Module_s::timeStep_CC"]}
{"id": "C13", "title": "Negative time steps are rejected without effect", "statement": "timeStep_CC with a negative dt throws 10 and changes nothing; with dt >= 0 it never changes the current or the temperature of a cell.", "quantifier": "for every state, dt and step count", "why_tests_cant": "All negative reals and all states.", "anchors": ["src/cells/Cell_ECM/Cell_ECM.hpp:Cell_ECM::timeStep_CC", "src/modules/Module_s.cpp:Module_s::timeStep_CC", "src/modules/Module_p.cpp:Module_p::timeStep_CC"]}
{"id": "C14", "title": "RC branches relax monotonically towards the cell current", "statement": "At constant current, as long as the step does not exceed the RC time constant, every RC branch current stays between its initial value and the cell current and its distance to the cell current never grows, for any number of steps; the distance after n steps is the initial distance times (1 - dt/tau)^n.", "quantifier": "for every number of RC branches, every initial value, current, step count and 0 <= dt <= tau", "why_tests_cant": "Unbounded number of steps and real-valued parameters.", "anchors": ["src/cells/Cell_ECM/Cell_ECM.hpp:Cell_ECM::timeStep_CC"]}
{"id": "C15", "title": "Voltage classification is complete and direction aware", "statement": "The status returned by the voltage check is: not-calculated exactly for non-positive voltages; a safety violation exactly when the voltage is outside the safety window in the direction the current pushes it; a limit violation exactly when outside the operating window (with 10 mV margin) but inside the safety window in that direction; otherwise Success. A current that moves the voltage back to the window is never rejected.", "quantifier": "for every voltage, every ordered set of limits and every current sign", "why_tests_cant": "Case boundaries over the reals; tests sample voltages.", "anchors": ["src/utility/free_functions.hpp:free::check_voltage", "src/types/Status.hpp:Status"]}
{"id": "C16", "title": "A module is as bad as its worst cell", "statement": "The status reported by checkVoltage of a module is the worst status of any cell in the tree; it is acceptable exactly when every cell is acceptable.", "quantifier": "for every tree of modules and cells", "why_tests_cant": "Arbitrary nesting and size.", "anchors": ["src/modules/Module.cpp:Module::checkVoltage", "src/types/Status.hpp:isStatusOK"]}
{"id": "C17", "title": "Linear interpolation is exact at the knots, stays between neighbours and never leaves the table", "statement": "For a strictly increasing table, interpolation at an in-range point returns the value on the segment joining the two surrounding table points; it equals the table value at knots, lies between the two neighbouring values, and no table access is out of bounds; out-of-range points are reported with an error and value 0.", "quantifier": "for every table length >= 1 and all real query points", "why_tests_cant": "All table lengths and all reals; off-by-one index errors show only for particular tables.", "anchors": ["src/utility/interpolation.hpp:linInt_noexcept", "src/utility/interpolation.hpp:linInt"]}
{"id": "C18", "title": "The equidistant fast path equals the search path", "statement": "For a table flagged as equidistant by its own check, interpolation with the equidistant shortcut gives the same result as the binary search.", "quantifier": "for every table accepted by the equidistance check and every query point", "why_tests_cant": "The check has a 1% tolerance per step which accumulates; only some long tables show the difference.", "anchors": ["src/types/XYdata.hpp:check_is_fixed", "src/utility/interpolation.hpp:linInt_noexcept"]}
{"id": "C19", "title": "Histogram bookkeeping", "statement": "After adding any sequence of samples the bin counts sum to the number of samples, the count of bin i is the number of samples between its two edges (lower edge inclusive), samples below/above the range are counted in the first/last bin, and no access is out of bounds.", "quantifier": "for every range, number of bins >= 1 and every finite sequence of real samples", "why_tests_cant": "Unbounded sample sequences and real boundaries.", "anchors": ["src/types/Histogram.hpp:Histogram::add", "src/types/Histogram.hpp:Histogram::getEdgeValues"]}
{"id": "C20", "title": "Parallel execution runs every task exactly once", "statement": "slide::run executes every index 0..n-1 exactly once whatever the number of worker threads, and when tasks touch disjoint data any interleaving produces the sequential result.", "quantifier": "for every number of tasks, every requested worker count, every hardware concurrency and every interleaving", "why_tests_cant": "Thread schedules and machine core counts cannot be enumerated by tests.", "anchors": ["src/utility/parallelisation.hpp:run"]}
{"id": "C21", "title": "Resting lasts exactly the requested time", "statement": "Cycler::rest with a positive step and non-negative duration terminates, advances the connected unit by exactly the requested duration, reports it in the throughput time and returns the time-limit status.", "quantifier": "for every duration, step and data interval", "why_tests_cant": "The adaptive step count has unboundedly many paths.", "anchors": ["src/procedures/Cycler.cpp:Cycler::rest"]}
{"id": "C22", "title": "Constant-current phase respects its limits and accounts its throughput", "statement": "Cycler::CC stops no later than the time limit, reports a time between 0 and the limit equal to the simulated time of the unit, reports Ah equal to |I|*time/3600 for an accepted run, and returns ReachedTimeLimit only if the full time elapsed.", "quantifier": "for every unit, current, voltage limit, time limit and step", "why_tests_cant": "Unbounded number of loop iterations with adaptive batches.", "anchors": ["src/procedures/Cycler.cpp:Cycler::CC"]}
{"id": "C23", "title": "CCCV time and charge include the constant-voltage phase", "statement": "The throughput returned by CCCV counts the duration of both the constant-current and the constant-voltage phase.", "quantifier": "for every unit and settings", "why_tests_cant": "Requires comparing reported and simulated time over all runs.", "anchors": ["src/procedures/Cycler.cpp:Cycler::CV", "src/procedures/Cycler.cpp:Cycler::CCCV_with_tlim"]}
{"id": "C24", "title": "A capacity test does not affect the unit", "statement": "testCapacity leaves the storage unit in the same state as before the call, as documented.", "quantifier": "for every unit and state, on success and on failure", "why_tests_cant": "All states and all success/failure paths.", "anchors": ["src/procedures/Cycler.cpp:Cycler::testCapacity"]}
{"id": "C25", "title": "An invalid CV set point is rejected without effect", "statement": "CCCV with a voltage outside the unit's operating window returns Invalid_Vset, leaves the unit and the throughput unchanged.", "quantifier": "for every unit state and set point", "why_tests_cant": "All real set points.", "anchors": ["src/procedures/Cycler.cpp:Cycler::CCCV_with_tlim"]}
{"id": "C26", "title": "Bounded vector never writes out of bounds", "statement": "SmallVector::push_back stores the element and grows by one when there is room and throws when the vector is full; it never writes outside its storage.", "quantifier": "for every capacity and every sequence of pushes", "why_tests_cant": "Out-of-bounds writes are undefined behaviour which a test may silently pass.", "anchors": ["src/types/SmallVector.hpp:SmallVector::push_back", "src/cells/Cell_SPM/param/DEG_ID.hpp:DegArray::add_model"]}
{"id": "C27", "title": "Matrix indexing is a bijection", "statement": "For a dynamic matrix of size m x n every pair of valid indices addresses its own element inside the storage, different pairs address different elements, and writing one element does not change any other.", "quantifier": "for all m, n and all valid index pairs", "why_tests_cant": "All dimensions.", "anchors": ["src/types/DynamicMatrix.hpp:DynamicMatrix"]}
{"id": "C28", "title": "Copies are independent and self-consistent", "statement": "Copying a module yields a deep copy: later changes to the copy do not affect the original and vice versa, and every unit inside the copy has its parent inside the copy.", "quantifier": "for every module tree", "why_tests_cant": "Aliasing bugs only show for particular mutations of particular nodes.", "anchors": ["src/types/Deep_ptr.hpp:Deep_ptr", "src/modules/Module_s.hpp:Module_s::copy", "src/StorageUnit.hpp:StorageUnit::parent"]}
{"id": "C29", "title": "No recorded data point is lost or duplicated", "statement": "For any sequence of storeData and writeData calls by a cycler, the records written to file followed by those still in memory are exactly the records stored, in order, and at most the configured maximum is held in memory; every row of the file has the documented number of columns.", "quantifier": "for every sequence of store and write calls", "why_tests_cant": "Unbounded sequences; the flush threshold is 100000 records.", "anchors": ["src/procedures/Cycler.cpp:Cycler::storeData", "src/utility/free_functions.hpp:free::write_data", "src/types/data_storage/CellDataStorage.hpp"]}
{"id": "C30", "title": "Status severity is consistent", "statement": "OK and bad are complementary, warnings are exactly the non-success OK statuses, every cycler stop reason is OK, the order of the codes is the order of severity so that the maximum of two statuses is OK exactly when both are.", "quantifier": "for all statuses and all pairs of statuses", "why_tests_cant": "Consistency across all predicates and pairs, including future compositions of modules of any size.", "anchors": ["src/types/Status.hpp"]}
{"id": "C31", "title": "Battery-level scaling preserves power and current", "statement": "A battery of ns x np copies of a module reports ns times the module voltage, np times its current and capacity, and after an accepted setCurrent(I) reports exactly I; its power is ns*np times the module's power.", "quantifier": "for all positive ns, np and every module state", "why_tests_cant": "All replication factors and states.", "anchors": ["src/system/Battery.hpp:Battery"]}
{"id": "C32", "title": "Converter losses are physical", "statement": "Converter losses are strictly positive, do not depend on the sign of the current, never fall below the documented 1.5 kW per inverter, and grow with the number of inverters.", "quantifier": "for every non-negative input voltage, every current and every positive nominal power", "why_tests_cant": "Real-valued piecewise formula; the violating region is small.", "anchors": ["src/power_conversion/Converter.cpp:Converter::getLosses"]}
{"id": "C33", "title": "Cooling control is bounded and has hysteresis", "statement": "The on/off strategies switch the flow fully on above the upper threshold, off below the lower one and keep it in between; the proportional strategies never give a negative flow and are off or at least 20% of nominal; the AC power always stays between 0 and its design power and is 0 when the container is at or below its minimum temperature.", "quantifier": "for every sequence of temperatures and every strategy", "why_tests_cant": "Hysteresis depends on unbounded history.", "anchors": ["src/cooling/CoolSystem.cpp:CoolSystem::control", "src/cooling/CoolSystem_HVAC.cpp:CoolSystem_HVAC::control"]}
{"id": "C34", "title": "Cooling energy is reported exactly once", "statement": "The cooling energy returned by successive getCoolingLoad calls on a tree of modules sums to exactly the energy consumed by all cooling systems; nothing is lost or counted twice.", "quantifier": "for every tree and every interleaving of consumption and readout", "why_tests_cant": "Unbounded sequences on arbitrary trees.", "anchors": ["src/modules/Module.cpp:Module::getCoolingLoad", "src/system/Battery.cpp:Battery::getCoolingLoad", "src/cooling/CoolSystem.cpp:CoolSystem::dstate"]}
{"id": "C35", "title": "The voltage of a single-particle cell is always up to date", "statement": "After any sequence of public operations on a single-particle cell, V() returns the voltage of the current state.", "quantifier": "for every sequence of public operations", "why_tests_cant": "A stale cached value only shows after particular operation orders.", "anchors": ["src/cells/Cell_SPM/Cell_SPM.cpp:Cell_SPM::V", "src/cells/Cell_SPM/Cell_SPM.cpp:Cell_SPM::setT", "src/cells/Cell_SPM/Cell_SPM_dstate.cpp:Cell_SPM::timeStep_CC"]}
{"id": "C36", "title": "A failed setStates never leaves a single-particle cell modified", "statement": "setStates on a single-particle cell either accepts the vector or leaves the cell (including cached voltage) as it was, whichever way it fails.", "quantifier": "for every state vector and cell state", "why_tests_cant": "Includes error paths that end in exceptions.", "anchors": ["src/cells/Cell_SPM/Cell_SPM.cpp:Cell_SPM::setStates", "src/cells/Cell_SPM/Cell_SPM.cpp:Cell_SPM::validStates"]}
{"id": "C37", "title": "Degradation factors passed to the cell constructor take effect", "statement": "A single-particle cell built with SEI and LAM degradation factors has its degradation rate parameters multiplied by those factors.", "quantifier": "for all factors", "why_tests_cant": "All real factors; default tests pass 1.", "anchors": ["src/cells/Cell_SPM/Cell_SPM.cpp:Cell_SPM::Cell_SPM(std::string, const DEG_ID&, double, double, double, double)"]}
{"id": "C38", "title": "Degradation only goes one way", "statement": "For valid states and physical parameters, SEI thickness, lost lithium, crack surface and plated-lithium thickness never decrease over any number of time steps, for every combination of supported degradation models; unknown model identifiers throw 106.", "quantifier": "for every combination of model identifiers, every state and any number of steps", "why_tests_cant": "Combinatorially many model lists and unbounded steps.", "anchors": ["src/cells/Cell_SPM/Cell_SPM_degradation.cpp:Cell_SPM::SEI", "src/cells/Cell_SPM/Cell_SPM_degradation.cpp:Cell_SPM::CS", "src/cells/Cell_SPM/Cell_SPM_dstate.cpp:Cell_SPM::dState_degradation"]}
{"id": "C39", "title": "Heat exchanged between neighbours cancels", "statement": "In the coupled thermal model the heat a child receives from a neighbour equals the heat that neighbour loses, so the total thermal energy of children and coolant changes only by generated heat and exchange with the outside.", "quantifier": "for every number of children, temperatures, conductances and areas", "why_tests_cant": "Energy balance over arbitrary chains with real parameters.", "anchors": ["src/cells/Cell_SPM/Cell_SPM_thermal.cpp:Cell_SPM::thermalModel_coupled", "src/modules/Module.cpp:Module::thermalModel_coupled"]}
{"id": "C40", "title": "linspace hits both ends with equal spacing", "statement": "linspace(x1,x2,N) has N entries, the first is x1, the last is x2 and consecutive entries differ by (x2-x1)/(N-1).", "quantifier": "for all x1, x2 and N >= 2", "why_tests_cant": "All lengths.", "anchors": ["src/utility/util.hpp:linspace"]}
{"id": "C41", "title": "CSV reader returns the numbers in the file", "statement": "Reading a matrix CSV file returns exactly the numbers written in it row by row, regardless of leading blank characters, and terminates on every file.", "quantifier": "for every file content", "why_tests_cant": "All file contents.", "anchors": ["src/utility/io/read_CSVfiles.hpp:loadCSV_mat", "src/utility/io/read_CSVfiles.hpp:ignoreBOM"]}
{"id": "C42", "title": "Rank-one Cholesky update", "statement": "After cholUpdate the factor L' satisfies L' L'^T = L L^T + x x^T (or minus for a downdate).", "quantifier": "for every dimension, factor and vector for which the result is positive definite", "why_tests_cant": "All dimensions and real entries.", "anchors": ["src/types/matrix.hpp:cholUpdate", "src/optimisation/MCMC.hpp:S_update"]}
{"id": "C43", "title": "Diffusion conserves lithium and keeps equilibrium", "statement": "At zero current a uniform concentration is a fixed point of the diffusion step for any number of steps, and a cell's reported SOC changes only by the charge passed.", "quantifier": "for every number of steps and step size", "why_tests_cant": "Unbounded number of steps.", "anchors": ["src/cells/Cell_SPM/Cell_SPM_dstate.cpp:Cell_SPM::dState_diffusion", "src/cells/Cell_SPM/Cell_SPM.cpp:Cell_SPM::setC"]}
{"id": "C44", "title": "Extreme cell voltages are those of actual cells", "statement": "getVhigh and getVlow of a module are attained by some cell of the module and bound the voltage of all its cells.", "quantifier": "for every module tree", "why_tests_cant": "Arbitrary nesting and voltages.", "anchors": ["src/modules/Module.cpp:Module::getVhigh", "src/modules/Module.cpp:Module::getVlow"]}
{"id": "C45", "title": "Contact-resistance heat equals Joule losses", "statement": "The heat added by a parallel module for its contact resistances during a time step equals the sum over resistors of R times the squared current through that resistor times the duration; similarly for the series module.", "quantifier": "for every number of branches, resistances and currents", "why_tests_cant": "All sizes and real currents.", "anchors": ["src/modules/Module_p.cpp:Module_p::timeStep_CC", "src/modules/Module_s.cpp:Module_s::timeStep_CC"]}
{"id": "C46", "title": "Tree traversal and cell count", "statement": "visit_SUs applies the function exactly once to every unit of the tree, parents before children, and getNcells of a module built with setSUs equals the number of cells it reaches.", "quantifier": "for every tree", "why_tests_cant": "Arbitrary trees.", "anchors": ["src/procedures/procedure_util.hpp:visit_SUs", "src/modules/Module.cpp:Module::setSUs"]}
{"id": "C47", "title": "Setting a cell voltage sets that voltage", "statement": "After a successful setVoltage on an equivalent-circuit cell its voltage equals the requested voltage; on a bad status the cell is unchanged.", "quantifier": "for every cell state with in-range SOC and every voltage", "why_tests_cant": "All reals.", "anchors": ["src/cells/Cell_ECM/Cell_ECM.hpp:Cell_ECM::setVoltage"]}
{"id": "C48", "title": "Cached module voltage is never stale", "statement": "After any sequence of operations on a series module or on units inside it, V() returns the value computed from the present children.", "quantifier": "for every sequence of operations", "why_tests_cant": "Stale caches depend on operation order.", "anchors": ["src/modules/Module_s.cpp:Module_s::V"]}
{"id": "C49", "title": "Cycle ageing continues as long as charge is transferred", "statement": "cycleAge performs the requested number of cycles unless a phase fails to reach its limit or a charge phase transfers less than 1e-5 Ah.", "quantifier": "for every requested number of cycles", "why_tests_cant": "Multi-cycle behaviour depends on accumulated throughput bookkeeping.", "anchors": ["src/procedures/Procedure.cpp:Procedure::cycleAge"]}
{"id": "C50", "title": "Full identifiers are unambiguous", "statement": "Two different units of a tree whose siblings have distinct separator-free IDs have different full IDs.", "quantifier": "for every tree", "why_tests_cant": "All trees and names.", "anchors": ["src/StorageUnit.hpp:StorageUnit::getFullID"]}
{"id": "C51", "title": "Every status has its own message", "statement": "The text returned for two different statuses is different, and no defined status gets the fallback text for unknown statuses.", "quantifier": "for all pairs of statuses", "why_tests_cant": "A test would have to enumerate the enumeration and be kept in sync with it; the property is about the whole set.", "anchors": ["src/types/Status.hpp:getStatusMessage"]}
{"id": "C52", "title": "Setting the current of a large module stays inside its buffers", "statement": "setCurrent on a series or parallel module works (never writes outside its local buffers) whatever the number of children.", "quantifier": "for every number of children", "why_tests_cant": "The failing sizes are outside the range tested and the effect of the overflow is undefined behaviour that tests may not observe.", "anchors": ["src/modules/Module_s.cpp:Module_s::setCurrent", "src/modules/Module_p.cpp:Module_p::setCurrent"]}
{"id": "C53", "title": "Setting a current or voltage changes nothing but cell currents", "statement": "Whatever its outcome (accepted, rejected or exception), a setCurrent, setVoltage or redistributeCurrent call on any unit changes nothing in the tree except the currents of cells: structure, contact resistances, module temperatures and every other state of every cell stay as they were.", "quantifier": "for every tree of modules and cells, every state, every argument and every outcome", "why_tests_cant": "Frame conditions have to be checked on every state variable of every unit for every path, including all error paths.", "anchors": ["src/modules/Module_s.cpp:Module_s::setCurrent", "src/modules/Module_p.cpp:Module_p::setCurrent", "src/modules/Module_p.cpp:Module_p::redistributeCurrent", "src/modules/Module_p.cpp:Module_p::setVoltage", "src/StorageUnit.hpp:StorageUnit::setVoltage_iterative"]}
{"id": "C54", "title": "A module time step steps every cell exactly once", "statement": "An accepted timeStep_CC(dt, n) on a module leaves every cell of the tree in the state that cell alone reaches by timeStep_CC(dt, n) at the current it had before the call, except possibly for its current (redistribution in parallel modules).", "quantifier": "for every tree of modules and cells, every state, dt >= 0 and n", "why_tests_cant": "A cell skipped, stepped twice or stepped after its current was redistributed only shows in particular trees.", "anchors": ["src/modules/Module_s.cpp:Module_s::timeStep_CC", "src/modules/Module_p.cpp:Module_p::timeStep_CC"]}
{"id": "C55", "title": "ReachedVoltageLimit means the voltage limit was reached", "statement": "If Cycler::CC reports ReachedVoltageLimit then the voltage of the unit is beyond the requested limit in the direction of the current.", "quantifier": "for every unit, current, voltage limit, time limit and step", "why_tests_cant": "The stop reason can be produced on several paths of an unbounded loop.", "anchors": ["src/procedures/Cycler.cpp:Cycler::CC", "src/procedures/Cycler.cpp:Cycler::setCurrent"]}
{"id": "C56", "title": "Constant-voltage phase respects its stop criteria", "statement": "Cycler::CV simulates no longer than the time limit; ReachedTimeLimit means the full time limit was simulated, ReachedCurrentLimit means that the unit's current was below the requested limit at the last check.", "quantifier": "for every unit, voltage, current limit, time limit and step", "why_tests_cant": "Unbounded number of loop iterations with adaptive batches.", "anchors": ["src/procedures/Cycler.cpp:Cycler::CV"]}
{"id": "C57", "title": "Degradation identifiers are unambiguous", "statement": "Two degradation selections with different sets of models have different identifier texts, so result files of different studies never share a name.", "quantifier": "for all pairs of valid degradation selections", "why_tests_cant": "All pairs of selections.", "anchors": ["src/cells/Cell_SPM/param/DEG_ID.hpp:DEG_ID::print"]}
{"id": "C58", "title": "Converter losses of a battery are metered exactly", "statement": "Over any history of a battery the lifetime total of converter losses equals the energy lost in the converter in all completed steps, and the values returned by getAndResetConvLosses together with what the next reading would return add up to it.", "quantifier": "for every sequence of steps, current and state settings and readings, for every module", "why_tests_cant": "Unbounded interleavings of consumption and readout.", "anchors": ["src/system/Battery.cpp:Battery::timeStep_CC", "src/system/Battery.cpp:Battery::getAndResetConvLosses"]}
{"id": "C59", "title": "Battery state vectors restore the battery or change nothing", "statement": "setStates(getStates()) restores module and container temperature; a state vector that is rejected leaves the battery unchanged.", "quantifier": "for every battery state and every vector", "why_tests_cant": "The failing vectors are those rejected by the module; their side effects on the container are easily overlooked.", "anchors": ["src/system/Battery.cpp:Battery::setStates", "src/system/Battery.cpp:Battery::getStates"]}
{"id": "C60", "title": "Connecting units to a module", "statement": "setSUs on a module with free units makes them exactly the module's children, with the module as their parent and one zero contact resistance each; units that already belong to another module are refused with an exception and nothing changes.", "quantifier": "for every module and every list of units", "why_tests_cant": "Which units already have a parent and the parent of the module itself give unboundedly many configurations; the failing ones are error paths nobody exercises.", "anchors": ["src/modules/Module.cpp:Module::setSUs"]}
{"id": "C61", "title": "The capacity of a module is what it can deliver", "statement": "The capacity of a series module is that of its weakest child, and it is exactly the charge after which the first of its full cells is empty; the capacity of a parallel module is the sum of its children's.", "quantifier": "for every module and every set of child capacities", "why_tests_cant": "Unbounded number of children with arbitrary capacities.", "anchors": ["src/modules/Module_s.hpp:Module_s::Cap", "src/modules/Module_p.hpp:Module_p::Cap"]}
{"id": "C62", "title": "A cell outside its voltage table is recognisably unusable", "statement": "When the state of charge of a cell leaves the range of its open-circuit-voltage table the voltage reads 0, every checked current is refused with V_not_calculated and changes nothing, setVoltage throws and changes nothing; no energy is counted while outside.", "quantifier": "for every cell, state outside the table, current and voltage", "why_tests_cant": "The error path has to be harmless for every current and every state outside the table.", "anchors": ["src/cells/Cell_ECM/Cell_ECM.hpp:Cell_ECM::V", "src/cells/Cell_ECM/Cell_ECM.hpp:Cell_ECM::setCurrent", "src/cells/Cell_ECM/Cell_ECM.hpp:Cell_ECM::setVoltage"]}
{"id": "C63", "title": "A failing thermal update loses no heat", "statement": "When the thermal model of a unit throws an exception, the generated heat that was waiting to be added to the temperatures is not lost: stored energy plus pending heat is unchanged.", "quantifier": "for every tree of modules and cells, every set of neighbours and every exception", "why_tests_cant": "Arbitrary trees and all exception paths; tests only look at the exception.", "anchors": ["src/cells/Cell_SPM/Cell_SPM_thermal.cpp:Cell_SPM::thermalModel", "src/modules/Module.cpp:Module::thermalModel"]}
{"id": "C64", "title": "The heat balance of a battery covers all copies of its module", "statement": "A battery stands for ns x np copies of one module. In one thermal update the stored energy of the battery coolant and of all copies changes exactly by the heat generated in all copies, the converter losses and the heat removed by the air conditioning.", "quantifier": "for every module tree, number of series and parallel copies, losses and duration", "why_tests_cant": "Unbounded numbers of copies and trees.", "anchors": ["src/system/Battery.cpp:Battery::thermalModel"]}
{"id": "C65", "title": "Temperatures stay between the coldest and the hottest body", "statement": "Without heat generation and active cooling, after a thermal update no cell or coolant is colder than the coldest or hotter than the hottest body involved (including neighbours).", "quantifier": "for every tree, temperatures, conductances, areas, heat capacities and duration", "why_tests_cant": "Real-valued parameters and arbitrary trees; a maximum principle.", "anchors": ["src/cells/Cell_SPM/Cell_SPM_thermal.cpp:Cell_SPM::thermalModel_coupled", "src/modules/Module.cpp:Module::thermalModel_coupled"]}
{"id": "C66", "title": "The heat meters of a cooling system are exact", "statement": "After any history of calls the cumulative meters of a cooling system equal the sums over all accepted heat balances: evacuated heat is the heat from the children, absorbed heat plus heat removed by the AC is the total heat, and the life time is the sum of the durations; the coolant temperature corresponds to the absorbed heat; a refused balance changes nothing.", "quantifier": "for every cooling system, history of calls and arguments", "why_tests_cant": "Unbounded call histories.", "anchors": ["src/cooling/CoolSystem.cpp:CoolSystem::dstate", "src/cooling/CoolSystem_HVAC.cpp:CoolSystem_HVAC::dstate"]}
{"id": "C67", "title": "The throughput file has one row per charge or discharge phase", "statement": "During cycle ageing the throughput file gets one row for every charge and discharge phase with the charge and energy throughput of that phase; nothing is left unwritten after the procedure, and the heading has one name per column.", "quantifier": "for every unit, ageing regime and number of cycles", "why_tests_cant": "Unbounded numbers of cycles; the rows are written in pieces at every check-up.", "anchors": ["src/procedures/Procedure.cpp:Procedure::cycleAge", "src/procedures/Procedure.cpp:Procedure::storeThroughput", "src/procedures/Procedure.cpp:Procedure::writeThroughput"]}
{"id": "C68", "title": "setVoltage of a module tells whether the voltage is reached", "statement": "If setVoltage of a module reports success, the module (for parallel modules: every branch at the terminals) has the requested voltage, within 1 uV for strings and 1e-10 V for parallel modules; a voltage that can be reached within the safety limits is reached; otherwise a failure is reported, the behaviour is defined and the currents are as before.", "quantifier": "for every module of any storage units, every voltage", "why_tests_cant": "Real-valued search over an iteration; arbitrary numbers of cells.", "anchors": ["src/utility/free_functions.hpp:setVoltage_iterative", "src/modules/Module_p.cpp:Module_p::setVoltage"]}
{"id": "C69", "title": "The converter and air conditioning fit the battery", "statement": "A battery accepts only a module without parent and without an HVAC system. The converter is rated for the 1C power of the whole battery at maximum voltage, with just enough 200 kW inverters, and the air conditioning for 7.5 W per cell plus twice the losses of the converter - whatever the order of connecting the module and setting the numbers of series and parallel copies.", "quantifier": "for every module, cooling system and number of copies", "why_tests_cant": "All module sizes and call orders.", "anchors": ["src/system/Battery.cpp:Battery::setModule", "src/system/Battery.cpp:Battery::setSeriesandParallel", "src/power_conversion/Converter.cpp:Converter::setPower"]}
{"id": "C70", "title": "The adaptation of the proposal follows the robust adaptive Metropolis rule", "statement": "After an accepted or rejected step the covariance of the proposal becomes S S^T multiplied by (I + eta (alpha - alpha*) u u^T / |u|^2) from the inside: it grows along the last direction when the acceptance probability was above the target and shrinks when it was below.", "quantifier": "for every dimension, scaling factor, direction, acceptance probability and step number", "why_tests_cant": "All dimensions and real entries; depends on an algebraic identity, not on values.", "anchors": ["src/optimisation/MCMC.hpp:S_update", "src/types/matrix.hpp:cholUpdate"]}
{"id": "C71", "title": "Two-column files are read once and served from memory", "statement": "Loading the same two-column file again returns the rows of the first load, however often it is called and whatever happened to the file on disk in between; loading one file never changes the rows of another; a failed load is an error and is not remembered; asking for more rows than the file has is refused.", "quantifier": "for every file, cache content, sequence of loads and number of rows", "why_tests_cant": "All call histories and file contents.", "anchors": ["src/utility/io/read_CSVfiles.hpp:loadCSV_2col"]}
{"id": "C72", "title": "A single-particle cell accepts only valid states", "statement": "States accepted by setStates of a single-particle cell satisfy the documented conditions: SOC between 0 and 1, temperature in range, surface concentrations inside the particle's range, positive SEI thickness, effective surfaces equal to three times the volume fraction over the radius within the tolerance, and no negative lost lithium, crack surface, resistance or plated lithium.", "quantifier": "for every cell and state vector", "why_tests_cant": "All real state vectors; tests try a few.", "anchors": ["src/cells/Cell_SPM/Cell_SPM.cpp:Cell_SPM::setStates", "src/cells/Cell_SPM/Cell_SPM.cpp:Cell_SPM::validStates"]}
{"id": "C73", "title": "Single-particle cells scale with their capacity", "statement": "A cell built with a capacity factor behaves like the standard cell under currents multiplied by that factor: with degradation and thermal model blocked every operation ends the same way and all reported voltages are equal.", "quantifier": "for every positive factor and every sequence of operations", "why_tests_cant": "All real factors and unbounded operation sequences.", "anchors": ["src/cells/Cell_SPM/Cell_SPM.cpp:Cell_SPM::Cell_SPM(std::string, const DEG_ID&, double, double, double, double)", "src/cells/Cell_SPM/Cell_SPM.cpp:Cell_SPM::V"]}
{"id": "C74", "title": "The characterisation function sets the DC resistance it is given", "statement": "After setCharacterisationParam with a DC resistance, the cell's DC resistance (getRdc, getRtot) is that value.", "quantifier": "for every cell and resistance", "why_tests_cant": "All real parameters.", "anchors": ["src/cells/Cell_SPM/Cell_SPM_fitting.cpp:Cell_SPM::setCharacterisationParam", "src/cells/Cell_SPM/Cell_SPM.cpp:Cell_SPM::getRdc"]}
{"id": "C75", "title": "Active material is only lost", "statement": "In ordinary use (time steps, currents, temperatures) thickness, volume fraction and effective surface of both electrodes never increase, for every combination of supported degradation models.", "quantifier": "for every cell with physical parameters and any sequence of operations", "why_tests_cant": "Combinatorially many model lists and unbounded steps.", "anchors": ["src/cells/Cell_SPM/Cell_SPM_degradation.cpp:Cell_SPM::LAM", "src/cells/Cell_SPM/Cell_SPM_degradation.cpp:Cell_SPM::SEI", "src/cells/Cell_SPM/Cell_SPM_dstate.cpp:Cell_SPM::dState_degradation"]}
{"id": "C76", "title": "The stress of a particle follows the difference to its mean concentration", "statement": "The hydrostatic stress reported for a node of an electrode particle is proportional to the difference between the mean lithium concentration of the particle and the concentration at that node, a uniformly filled particle is free of stress, raising the concentration everywhere by the same amount changes no stress, the radial stress vanishes at the surface, and the reported maximum stress is the largest stress in the particle including its surface.", "quantifier": "for all concentration profiles, material parameters, numbers of nodes and quadrature matrices that are exact for the square of the radius", "why_tests_cant": "tests only check that degradation runs; the stress values at nodes are never compared with the formula and the maximum is a single number that looks plausible", "anchors": ["src/cells/Cell_SPM/Cell_SPM_degradation.cpp:Cell_SPM::getDaiStress", "src/cells/Cell_SPM/Cell_SPM_degradation.cpp:Cell_SPM::updateDaiStress"]}
{"id": "C77", "title": "Curves with the wrong format are rejected before a fit", "statement": "Reading the input of the OCV fit accepts the three curves exactly if the first columns are strictly increasing from 0 (to 1 for the electrodes) and all voltages are between 0 and 10 V; otherwise it throws 10000.", "quantifier": "for all non-empty curves of any length", "why_tests_cant": "a wrong order or value can be at any position of a curve of any length", "anchors": ["src/procedures/determine_OCV.cpp:validOCV", "src/procedures/determine_OCV.cpp:readOCVinput"]}
{"id": "C78", "title": "The OCV error compares the measured curve with the cell after the measured charge", "statement": "The error computed for a set of OCV parameters is the sum of the squared differences between the measured voltages and the difference of the electrode potentials at the lithium fractions after exchanging exactly the measured charge, 0 V outside of the electrode curves and after the discharge has ended. It is never negative, and zero exactly if every measured voltage is the predicted one; a curve measured on a cell with these parameters has error zero.", "quantifier": "for all electrode curves, measured curves of any length and parameters", "why_tests_cant": "the fractions are accumulated over the points of the curve; drift or a wrong end condition is only visible for some lengths and values", "anchors": ["src/procedures/determine_OCV.cpp:cost_OCV"]}
{"id": "C79", "title": "The OCV fit returns a best combination, and further levels never make it worse", "statement": "With valid curves and search spaces that stay inside the allowed values the fit returns a combination of the search space of its last level with the lowest error of all combinations, every level is centred at the best combination of the level before with the documented step size, a combination that reproduces the measurement is found with error zero, and one more level never increases the error.", "quantifier": "for all curves, search spaces and numbers of levels", "why_tests_cant": "the claim is about all combinations of four search spaces and every number of refinements", "anchors": ["src/procedures/determine_OCV.cpp:hierarchicalOCVfit", "src/procedures/determine_OCV.cpp:fitAMnAndStartingPoints", "src/types/FixedData.hpp:FixedData"]}
{"id": "C80", "title": "The simulated OCV curve conserves lithium", "statement": "The simulated low-current discharge ends, starts at charge zero, every stored point has the lithium fractions that follow from its charge (what leaves the anode enters the cathode) and the electrode potentials at these fractions, the fractions are between 0 and 1, only the last stored point is at the end of the discharge, and the fractions reported for 100 %, 50 % and 0 % are those of the start, the middle and the end.", "quantifier": "for all electrode curves, amounts of material, start fractions and capacities", "why_tests_cant": "lithium balance has to hold at every point of a run whose length depends on the parameters", "anchors": ["src/procedures/determine_OCV.cpp:discharge_noexcept", "src/procedures/determine_OCV.cpp:discharge"]}
{"id": "C81", "title": "The error of a simulated curve is zero only if the measurement lies on it", "statement": "The error between a measured and a simulated OCV curve is the mean squared distance of the measured points from the simulated curve, continued outside of its range by 0 or by its end points as selected; it is zero exactly if all measured points lie on the (continued) curve.", "quantifier": "for all pairs of curves", "why_tests_cant": "the interpolation position is different for every point of every pair of curves", "anchors": ["src/procedures/determine_OCV.cpp:calculateError"]}
{"id": "C82", "title": "Check-ups are told how far the cell has been cycled", "statement": "During cycle ageing a check-up is done before every cycle whose number is a multiple of the check-up interval and once at the end, and every check-up is told the number of cycles completed before it and exactly the charge throughput of these cycles.", "quantifier": "for all storage units, ageing parameters and numbers of cycles, however the run ends", "why_tests_cant": "the numbers are only wrong for runs that end early; the end of a run depends on the cell", "anchors": ["src/procedures/Procedure.cpp:cycleAge", "src/procedures/Procedure.cpp:balanceCheckup"]}
{"id": "C83", "title": "A use-case day consists of its nine phases", "statement": "The use-case ageing discharges the unit and then simulates up to twenty days. On every completed day the unit rests for exactly 4, 1, 4, 4 and 5 hours, and in between is charged at 1C to its maximum voltage, discharged at 1C to its minimum voltage, charged at C/2 and discharged at C/2, with balancing every seventh and a check-up every tenth day; it stops early only if a day cannot be completed. Afterwards the throughput file contains one row with the running totals for every phase of this run.", "quantifier": "for all storage units, balancing procedures, check-ups and previous contents of the file", "why_tests_cant": "the days, their order and the rows in the file depend on what every single phase of every day returns", "anchors": ["src/procedures/Procedure.cpp:useCaseAge", "src/procedures/Procedure.cpp:writeThroughput"]}
{"id": "C84", "title": "Balancing brings every cell to the balance voltage", "statement": "A balancing procedure that reports success has brought every cell of the unit to the balance voltage (to within 10 mV) and left it without current; a failure of any cell is reported.", "quantifier": "for all units (cells, modules and batteries nested to any depth) and all balance voltages", "why_tests_cant": "which cells are reached depends on the classes and the nesting of the unit; tests use one kind of cell in one kind of module", "anchors": ["src/procedures/Procedure.cpp:rebalance", "src/procedures/Procedure.cpp:balanceCheckup"]}
{"id": "C85", "title": "Blocking degradation reaches every cell, and balancing leaves the blocking as it was", "statement": "Blocking the degradation and thermal model of a unit blocks it for all cells of the unit, unblocking unblocks it for all, and after balancing every cell is blocked exactly if it was before, so that balancing does not age the cells.", "quantifier": "for all units, nested to any depth, and whichever interface the call is made through", "why_tests_cant": "the flag of a cell deep inside a unit is not visible to the caller; the overload taken depends on the static type at the call", "anchors": ["src/StorageUnit.hpp:setBlockDegAndTherm", "src/modules/Module.hpp:setBlockDegAndTherm", "src/system/Battery.cpp:setBlockDegAndTherm", "src/procedures/Procedure.cpp:balanceCheckup"]}
{"id": "C86", "title": "The check-up document has one row per cell", "statement": "After a check-up the check-up file has, below its earlier contents, a heading and one row for every cell of the unit, in order, with the cell's identification and variation parameters, the charge throughput and the number of cycles the check-up was told, the cell's throughput, its measured capacity and its state at the time of the check-up, each value below its name. The unit itself is only charged towards three quarters of its voltage range.", "quantifier": "for all units, numbers of cells and earlier contents of the file", "why_tests_cant": "the document is never read back by the tests, and the values depend on the result of a capacity test of every cell", "anchors": ["src/procedures/Procedure.cpp:checkUp", "src/procedures/Procedure.cpp:checkUp_prep", "src/procedures/procedure_util.hpp:visit_SUs"]}
{"id": "C87", "title": "The module check-up lists every module and battery once", "statement": "A check-up of the modules completes exactly if every module and battery of the system has a cooling system and a known number of cells; then the document has a heading and exactly one row for every module and battery, outer units before inner ones, with its full identification, number of cells and the totals of its own cooling system.", "quantifier": "for all systems of modules, batteries and cells, nested to any depth", "why_tests_cant": "holds for the order and completeness of a traversal over systems of any shape", "anchors": ["src/procedures/Procedure.cpp:checkMod", "src/procedures/procedure_util.hpp:visit_SUs", "src/StorageUnit.hpp:getFullID"]}
{"id": "C88", "title": "The default single-particle cell is consistent with its own rating", "statement": "A default-constructed single-particle cell starts in a valid state inside all of its limits. Its open-circuit curves give a voltage exactly for lithium fractions from 0 to 1. Set to the lithium fractions of any state of charge, at any allowed temperature, it reports an open-circuit voltage that rises strictly with the state of charge and stays inside the voltage limits; at 25 degrees it is 3.298 V empty, 3.68136 V at 50% and 4.1246 V full. After every profile of currents the cell accepts, with no degradation models, the lithium in both electrodes is what Faraday's law gives for the reported state of charge and a capacity of 16 Ah, and the settled voltage is the one of that state of charge.", "quantifier": "for all profiles of currents, step lengths and numbers of steps; all states of charge; all temperatures from 0 to 60 degrees", "why_tests_cant": "ties tables of numbers in data files to each other over a continuum of states of charge and all profiles; a test samples a few points", "anchors": ["src/cells/Cell_SPM/Cell_SPM.cpp:Cell_SPM", "src/cells/Cell_SPM/Cell_SPM.hpp", "src/types/OCVcurves.hpp", "src/cells/Cell_SPM/Model_SPM.hpp:makeModel", "data/Kokam_OCV_NMC.csv", "data/Kokam_OCV_C.csv", "data/Kokam_entropic_cell.csv", "data/Cheb_An.csv", "data/Cheb_Ap.csv"]}
{"id": "C89", "title": "A discretisation computed for other parameters is refused", "statement": "The check of the spatial discretisation throws 110 if it was computed for another number of nodes or for other particle radii than the cell has (relative error above 1e-10), or if the eigenvalue marked as the uniform mode is not zero; it accepts the discretisation the library ships for the default cell.", "quantifier": "for all numbers of nodes, radii and eigenvalues", "why_tests_cant": "a signed comparison passes every test in which the number happens to be wrong in the other direction", "anchors": ["src/cells/Cell_SPM/Cell_SPM.cpp:checkModelparam"]}
{"id": "C90", "title": "A single-particle cell at rest settles to the open-circuit voltage of its state of charge", "statement": "After any profile of currents, with degradation and heat blocked, a default single-particle cell left without current accepts every further time step, keeps its state of charge, and its voltage converges to the open-circuit voltage of that state of charge, whatever the length of the time steps.", "quantifier": "for all profiles of currents that end at a state of charge between 0 and 1, all step lengths, all numbers of steps", "why_tests_cant": "a statement about the limit of infinitely many steps; a simulation with the step lengths used in the tests never meets the unstable ones", "anchors": ["src/cells/Cell_SPM/Cell_SPM_dstate.cpp:timeStep_CC,dState_diffusion", "src/cells/Cell_SPM/Cell_SPM.cpp:V,getOCV", "src/procedures/Cycler.cpp:rest"]}
{"id": "C91", "title": "The heat of a single-particle cell is its voltage loss, and is metered once", "statement": "A successful time step of a single-particle cell adds to the heat developed so far exactly (open-circuit voltage minus voltage) times current minus current times temperature times entropic coefficient, times the duration, with the voltages the cell reports at the end of the step; a cell with blocked degradation and heat adds nothing. With physical parameters the voltage is at most the open-circuit voltage while discharging and at least the open-circuit voltage while charging.", "quantifier": "for all cells, parameters, currents, step lengths and numbers of steps", "why_tests_cant": "relates three numbers computed by different functions of the cell for all parameter values and histories", "anchors": ["src/cells/Cell_SPM/Cell_SPM_dstate.cpp:dState_thermal,timeStep_CC", "src/cells/Cell_SPM/Cell_SPM_thermal.cpp:thermalModel", "src/cells/Cell_SPM/Cell_SPM.cpp:V,getOCV,getRdc"]}
{"id": "C92", "title": "The temperature of a stand-alone single-particle cell obeys the heat balance and stays inside its limits", "statement": "The environment temperature of a single-particle cell can be set exactly to values from 0 to 60 degrees; other values throw 102 and change nothing. After a successful time step a cell that is blocked, belongs to a module, or is compiled without thermal model has its old temperature; a stand-alone cell with thermal model has a temperature inside the limits for which heat capacity times change equals heat developed plus heat exchanged with the environment since the last update. If that temperature is outside the limits the step throws 9, the temperature stays and the heat is counted.", "quantifier": "for all cells, parameters, currents, step lengths and numbers of steps", "why_tests_cant": "an equation between state before and after for all parameters and histories, including the failing branch", "anchors": ["src/cells/Cell_SPM/Cell_SPM.cpp:setTenv", "src/cells/Cell_SPM/Cell_SPM_thermal.cpp:thermalModel,thermalModel_cell,thermalModel_coupled", "src/cells/Cell_SPM/Cell_SPM_dstate.cpp:timeStep_CC"]}
{"id": "C93", "title": "A ready-made battery pack is what its factory announces", "statement": "Each battery factory, whatever the settings, returns a battery with the announced arrangement of cells (2700 cells as 9p15s20s or 20s15s9p, 18900, 126 or 72 cells in racks, 3 parallel cells) with the documented contact resistances at every level. Its voltage, open-circuit voltage and voltage limits are those of a cell times the number in series, its capacity lies between the smallest and largest cell capacity times the number in parallel, its resistance between those of the same network of the best and the worst cells; every cell is made with fresh random draws of exactly the properties that were asked to spread; all units have different full IDs; every cooling system is sized for the cells of its module; the air conditioning follows the requested strategy and the converter is rated for the pack. The number of cells printed is the number of cells of the pack.", "quantifier": "for all settings, all random generators, all resistance multipliers not below 0, all kinds of cell", "why_tests_cant": "thousands of cells with random parameters: a test can only inspect one pack made by one generator", "anchors": ["src/factories/makeBattery.cpp:makeBattery,makeBattery2,makeBattery_EPFL_smaller,makeBattery_EPFL,makeBattery_Test,makeBattery_TestParallel"]}
{"id": "C94", "title": "The cells of a pack differ in the properties that were asked to spread", "statement": "If a pack is made with a spread of capacity, resistance or degradation rate, then the capacity, the resistances, and the rate constants of the degradation models of every single-particle cell are those of the default cell times the factors drawn for this cell.", "quantifier": "for all settings, all random generators, all factories", "why_tests_cant": "the factors of cells in a pack are not observable through the API except by ageing each of them", "anchors": ["src/factories/makeBattery.cpp", "src/cells/Cell_SPM/Cell_SPM.cpp:Cell_SPM(ID,deg,capf,resf,degfsei,degflam)"]}
{"id": "C95", "title": "The name of a ready-made battery pack tells which pack it is", "statement": "Batteries made by different factories, or by the same factory with different settings, have different IDs, so that their result files do not overwrite each other.", "quantifier": "for all settings of all factories", "why_tests_cant": "pairs of packs over an unbounded set of settings (cooling strategies are integers)", "anchors": ["src/factories/makeBattery.cpp", "src/StorageUnit.hpp:getID,getFullID"]}
{"id": "C96", "title": "A running fan carries heat away, and a hotter pack is cooled at least as well", "statement": "The convective coefficient of a cooling system built for at least one cell is defined after any history of calls, is zero exactly when the fan stands still, is never negative (heat is never pumped into the hotter side), and after hotter readings of the children and of the hottest cell it is at least as large as after colder readings.", "quantifier": "for all numbers of cells, documented control strategies, ancillary losses, histories of calls and temperatures", "why_tests_cant": "monotonicity over all pairs of temperatures and all histories; the coefficient comes from an empirical fit that is not monotone", "anchors": ["src/cooling/CoolSystem.cpp:getH,control", "src/cooling/CoolSystem_open.cpp:getH"]}
{"id": "C97", "title": "The air conditioning costs what its coefficient of performance says", "statement": "When the container is not at least 5 degrees warmer than the environment, the electrical energy of the air conditioning during a heat exchange is the heat it removes divided by its coefficient of performance; otherwise outside air is used, which never takes more energy than the heat it removes. It costs nothing exactly when it removes nothing.", "quantifier": "for all numbers of cells, strategies, ancillary losses, histories of calls, heats and durations", "why_tests_cant": "relates two accumulated quantities for all designs and all histories", "anchors": ["src/cooling/CoolSystem_HVAC.cpp:dstate,getACoperatingPower,control"]}
{"id": "C98", "title": "The recorded data of a cooling system are the means of the recording intervals", "statement": "When a program records the cooling systems, every call to store data after some time has passed yields the mean cooling power and the mean fan power since the previous such call, with the temperature or flow rate at the call: as one sample in each of four histograms (histogram recording), or as one row (point recording). Storing twice without time passing yields nothing. A call with the wrong number of cells, or for a system without cells, throws 10 and changes nothing (histogram recording).", "quantifier": "for all systems made by a constructor, all histories of calls (control, heat exchange, store, write), all numbers of cells", "why_tests_cant": "means over arbitrary interleavings of calls; the compile-time recording modes are not exercised by the unit tests", "anchors": ["src/cooling/data_storage/CoolSystemData.cpp:storeData", "src/cooling/data_storage/CoolSystemData.hpp:updateCumulative", "src/cooling/CoolSystem.cpp:storeData", "src/cooling/CoolSystem_HVAC.cpp:storeData"]}
{"id": "C99", "title": "The recorded data of the cooling systems reach their files", "statement": "Writing appends every recorded row once and empties the memory; a file that cannot be opened throws 11 and keeps the data. A histogram file starts with the number of cells and the total energy of the fan. The data of the air conditioning is recorded and shown next to that of the fan.", "quantifier": "for all systems, all histories of calls, all recording modes", "why_tests_cant": "accumulated totals for arbitrary interleavings of storing and writing; which overload a call selects depends on types no test inspects", "anchors": ["src/cooling/data_storage/CoolSystemData.cpp:writeData", "src/cooling/data_storage/CoolSystem_HVACData.hpp", "src/cooling/data_storage/CoolSystem_HVACData.cpp:storeData,writeData", "src/procedures/Procedure.cpp:checkMod,GetHistograms"]}
{"id": "C100", "title": "The recorded data of a module describe the module over time", "statement": "When a program records its modules, every call to store data gives exactly one row, in order, in the file or until then in memory, with the current, voltage and temperature of the module at that moment and the time since the start; the file can be read back number by number however often it is written.", "quantifier": "for all kinds of module, all histories of calls (currents, time steps, store, write)", "why_tests_cant": "arbitrary histories of an arbitrary module; recording of modules is off in the unit tests", "anchors": ["src/modules/Module.hpp:storeData,writeData", "src/utility/free_functions.hpp:write_data"]}
{"id": "C101", "title": "The likelihood of a parameter set is the one of Bayes' rule", "statement": "For positive parameters whose simulation succeeds, the value computed for a candidate is minus the logarithm of the product of its prior densities and of the Gaussian densities of all simulation errors with the candidate's noise variance (infinite if a density is zero), so that of two candidates the one with the smaller value is the more probable one, and for given parameters the mean squared error is the most probable noise variance. Candidates with a parameter that is not positive are refused without running the simulation; exceptions of the simulation are passed on. Every number of a record can be read by its index.", "quantifier": "for all numbers of parameters and observations, all prior densities, cost functions, scalings and candidates", "why_tests_cant": "an identity between real functions for all priors and simulations", "anchors": ["src/optimisation/MCMC.hpp:MCMC_Input,Prior,LL,MCMC_Record"]}
{"id": "C102", "title": "A current is taken or refused as a whole by a single-particle cell", "statement": "Setting a current on a single-particle cell never throws. If the answer is one of the bad statuses the cell is exactly as before, its stored voltage included. If not, the cell carries that current, its voltage is the one of that current, the answer is the verdict of the limits on that voltage, and nothing else of the cell has changed. Without the check of the voltage every current is taken.", "quantifier": "for all cells, states, currents, with and without the check", "why_tests_cant": "arbitrary states and currents, and equality of the complete cell before and after", "anchors": ["src/cells/Cell_SPM/Cell_SPM.cpp:setCurrent,V,checkCurrent"]}
{"id": "C103", "title": "The meters of a single-particle cell are exact, independent of batching, and never run backwards", "statement": "A successful time step of n steps adds to the energy counter the sum over the steps of current times the voltage reached in that step times its length. Without ageing and heat, m+n steps at once give the same states and voltage as m and then n. A negative step is refused without effect. Clock, charge and energy counter never decrease in any sequence of operations, failing ones included, unless new states are put in.", "quantifier": "for all cells, step lengths and numbers of steps, all sequences of operations", "why_tests_cant": "unbounded numbers of steps and arbitrary sequences of calls", "anchors": ["src/cells/Cell_SPM/Cell_SPM_dstate.cpp:timeStep_CC"]}
{"id": "C104", "title": "Looking at the voltage of a single-particle cell has no effect", "statement": "In any sequence of operations on a single-particle cell, further readings of the voltage at any places change none of the answers, nor the cell at the end, nor the voltage it reports then.", "quantifier": "for all cells and all sequences of operations with readings inserted anywhere", "why_tests_cant": "all sequences and all places; the voltage is cached by the first reading", "anchors": ["src/cells/Cell_SPM/Cell_SPM.cpp:V", "src/cells/Cell_SPM/Cell_SPM.hpp:setT"]}
{"id": "C105", "title": "Setting a voltage on a single-particle cell reaches it or is refused", "statement": "Setting a voltage on a single-particle cell that can report its own either answers Success, and then the cell reports that voltage up to a microvolt, or gives another answer and leaves the current as it was. In no case does anything but current and voltage change.", "quantifier": "for all cells, states and voltages", "why_tests_cant": "an iteration with arbitrary curves and states", "anchors": ["src/utility/free_functions.hpp:setVoltage_iterative", "src/StorageUnit.hpp:setVoltage"]}
{"id": "C106", "title": "Modules of single-particle cells obey the laws of modules", "statement": "For single-particle cells without ageing and heat whose parameters are physical, the laws of modules hold as for equivalent-circuit cells: a string takes a current in all of its cells, or reports the status of a cell that refused it and at most its first cell changes; all cells of a string carry the same current as long as nothing is refused; a redistribution of a parallel module that reports success has equalised the branch voltages, and a refused current is reported with the status of the refusing branch; the size of the batches of time steps does not matter to trees of strings; and the saved states of any tree, written back after any history of calls, restore it. The voltage a cell has stored, and readings of it by anyone in between, make no difference.", "quantifier": "for all numbers of cells and nodes, all trees of modules, states, currents, step sizes and histories of calls", "why_tests_cant": "unbounded histories on trees of any shape of cells with arbitrary curves; the stored voltage is a hidden state", "anchors": ["src/cells/Cell_SPM/Cell_SPM.hpp:Cell_SPM", "src/modules/Module_s.cpp:setCurrent", "src/modules/Module_p.cpp:redistributeCurrent", "src/modules/Module.cpp:setStates"]}
{"id": "C107", "title": "The gamma density functor is a probability density", "statement": "For positive shape a and scale b the functor is positive on the positive numbers and integrates to one over them, with mean ab and variance ab^2, and for a shape above one it is largest at (a-1)b; it vanishes for negative arguments. Used as priors of the parameter estimation, such functors give the likelihood of independent gamma distributed parameters.", "quantifier": "for all positive shapes, scales and arguments", "why_tests_cant": "integrals over an unbounded interval for all real parameters", "anchors": ["src/utility/slide_aux.hpp:GammaDensityFunctor"]}
{"id": "C108", "title": "A failing time step of a single-particle cell leaves it as it was", "statement": "When a time step of a single-particle cell fails it throws, and the cell is as it was before the call. The reasons are known: a negative step size; an OCV or entropic curve that does not cover a lithium fraction between 0 and 1; and, for a cell with ageing and heat, a temperature outside the allowed range, a surface concentration outside the electrode, an unknown degradation model, or a stress model that is not switched on (which cannot happen for a cell built by the constructor).", "quantifier": "for all cells, model selections, step sizes and step numbers", "why_tests_cant": "failure depends on the whole parameter and state space, and the partial effects of a batch of any length are not observed by a test that only catches the exception", "anchors": ["src/cells/Cell_SPM/Cell_SPM_dstate.cpp:timeStep_CC", "src/cells/Cell_SPM/Cell_SPM_thermal.cpp:thermalModel_cell", "src/cells/Cell_SPM/Cell_SPM_degradation.cpp:SEI,CS,LAM"]}
{"id": "C109", "title": "The cycler keeps account of time and charge on packs of single-particle cells", "statement": "A rest, constant-current or constant-voltage phase that reports one of its limits has simulated every cell of a pack of single-particle cells, nested and in parallel modules too, for the same time: the time reported, at most the time limit, and exactly the time limit if that is the limit reported. On a single cell or a series string whose cells are not checked one by one, a constant-current phase has also made every cell carry the current for that time: its charge counter, its state of charge and the lithium content of both its electrodes changed by what the charge reported amounts to, and nothing but current, concentrations and meters changed. A constant-current phase that reports its voltage limit has reached it, unless it was to charge a pack already at the limit. The charge reported for a constant-voltage phase, or for both phases together when the first ended at a limit, is what a single cell counted; a capacity test that succeeds reports what every cell counted, and one that fails leaves every cell exactly as it was.", "quantifier": "for all nestings, cells without ageing and heat with physical parameters, currents, limits, step sizes and recording intervals", "why_tests_cant": "the loops adapt the number of steps to the voltage and may run for any number of iterations on any pack", "anchors": ["src/procedures/Cycler.cpp:rest,CC,CV,CCCV,testCapacity", "src/cells/Cell_SPM/Cell_SPM.cpp:setCurrent", "src/cells/Cell_SPM/Cell_SPM_dstate.cpp:timeStep_CC"]}
{"id": "C110", "title": "Cycling packs of ageing single-particle cells: the accounts stay right and ageing only goes one way", "statement": "For packs of single-particle cells with their ageing models switched on: an accepted time step of the pack simulates every cell for the whole time with the current it had (clock, charge counter and state of charge). A rest or constant-current phase that reports one of its limits has simulated every cell for exactly the time it reports; on a cell or series string without individual voltage checks, charge counter and state of charge of every cell agree with the charge reported. A constant-voltage phase that reports a limit has simulated all cells for the same time within its limit; on a single cell, unless a time step failed, the charge reported by constant-voltage and CCCV phases (the first phase having ended at a limit) is the charge the cell counted. Whatever sequence of rest, CC, CV and CCCV phases is run on a pack, and however each of them ends (limit, violation, failure, exception), the structure of the pack stays and in no cell do clock, charge counter and energy counter run backwards, nor, for physical parameters, do SEI layer, cracks and plated lithium shrink.", "quantifier": "for all trees of modules of any depth and shape with any ageing single-particle cells of the domain (no divisor of the voltage computation zero, curves covering all lithium fractions), all selections of ageing models, all currents, voltages, limits and step sizes, and all sequences of phases", "why_tests_cant": "The property quantifies over all packs, all ageing selections, all sequences of phases and all ways they may end, including exceptions in the middle of a phase; a test runs a few cells through a few cycles.", "anchors": ["src/procedures/Cycler.cpp:rest,CC,CV,CCCV", "src/cells/Cell_SPM/Cell_SPM_dstate.cpp:timeStep_CC", "src/cells/Cell_SPM/Cell_SPM.cpp:setCurrent,V", "src/modules/Module_s.cpp:setCurrent,timeStep_CC", "src/modules/Module_p.cpp:setCurrent,timeStep_CC"]}
{"id": "C111", "title": "With the thermal model of each cell on its own, a cell in a pack warms as if it were alone", "statement": "With the thermal model set to treat each cell on its own, one thermal update of a module gives every single-particle cell in it, at any depth, the temperature that solves the heat balance of that cell alone (heat generated since the last update and exchange with its environment), whatever the other cells do; cells without thermal model and the coolants keep their temperatures. The update fails exactly if some cell would leave its allowed range.", "quantifier": "for all trees of modules, cells, heats, environments and durations", "why_tests_cant": "arbitrary nesting and real-valued parameters; the failure of one cell among many is not visible in the temperature of the module", "anchors": ["src/cells/Cell_SPM/Cell_SPM_thermal.cpp:Cell_SPM::thermalModel_cell", "src/modules/Module.cpp:Module::thermalModel_cell"]}
{"id": "C112", "title": "A whole ageing study never makes a cell of the pack younger", "statement": "A cycle-ageing or use-case study on a pack of single-particle cells, with the balancing and the check-ups the program does in between, leaves the structure, parameters and ageing models of the pack as they were, and in none of its cells anything that only goes one way goes back: the clocks, charge and energy counters run forward and the SEI layer, the cracks and the plated lithium do not shrink. This holds however the study ends: completed, given up because a phase failed, or left by an exception. If the pack is a module, the switch for ageing of every cell is the one it had before.", "quantifier": "for all trees of modules of ageing single-particle cells, all ageing selections, all study parameters (cycles, rates, voltage windows, intervals of balancing and check-up), all balancing voltages and all ways to end", "why_tests_cant": "A study is a program of unbounded length with failures and exceptions at any point; a test can only run a few short ones on a few packs, and compares numbers at the end.", "anchors": ["src/procedures/Procedure.cpp:cycleAge,useCaseAge,balanceCheckup,rebalance,checkUp,checkUp_prep", "src/procedures/Cycler.cpp:CC,CV,CCCV,rest,testCapacity", "src/cells/Cell_SPM/Cell_SPM_dstate.cpp:timeStep_CC"]}
{"id": "C113", "title": "The lithium of a single-particle cell is accounted for", "statement": "Whatever is done with a single-particle cell - currents, time steps with or without ageing and heat, accepted or failing, alone or in a pack under a whole ageing study - as long as the selected ageing models do not remove active material, the lithium in its two particles and the lithium it reports as lost add up to the same amount. An accepted time step moves exactly current x time into the cathode; the anode gives this and the newly lost lithium. The newly lost lithium is found again, exactly, in the SEI layer (on the electrode and on its cracks) and in the plated lithium. For a uniform concentration the amounts counted are volume x concentration x Faraday constant.", "quantifier": "for all cells whose discretisation counts lithium (uniform amplitude does not decay; same number of electrons in all reactions), all sequences of operations which write no states or parameters, all outcomes, all packs and studies", "why_tests_cant": "Conservation is an exact equality over histories of any length and over failing steps; tests compare a few end values with a tolerance that hides a leak of the size of one step.", "anchors": ["src/cells/Cell_SPM/Cell_SPM_dstate.cpp:timeStep_CC,dState_diffusion,dState_degradation", "src/cells/Cell_SPM/Cell_SPM_diffusion.cpp:calcMolarFlux", "src/cells/Cell_SPM/Cell_SPM_degradation.cpp:SEI,CS,LiPlating", "src/cells/Cell_SPM/Cell_SPM.cpp:setC"]}
{"id": "C114", "title": "Ageing by cycling needs cycling", "statement": "If none of the ageing models selected for a single-particle cell acts at rest (no SEI growth, no plating, cracks only by stress, gradients or throughput, loss of active material only by stress or current), then a cell with relaxed concentrations which is only left at rest - at whatever temperature, with whatever number and length of steps, read as often as one likes, whether its steps succeed or fail - never ages: SEI, lost lithium, cracks, diffusion constants, thicknesses, volume fractions and concentrations all stay exactly as they are.", "quantifier": "for all cells, all selections of such models, all sequences of rest operations of any length and all their outcomes", "why_tests_cant": "Tests rest a cell for a while and compare capacities with a tolerance; that nothing accumulates over an arbitrarily long rest, and that no memory of an earlier stress keeps acting, is an invariant over all rest operations.", "anchors": ["src/cells/Cell_SPM/Cell_SPM_dstate.cpp:timeStep_CC,dState_degradation", "src/cells/Cell_SPM/Cell_SPM_degradation.cpp:CS,LAM,SEI,LiPlating,updateDaiStress,updateLaresgoitiStress"]}
{"id": "C115", "title": "The saved states of an aged cell can be restored", "statement": "The states of a single-particle cell, saved at any time of its ordinary use - cycling, resting, ageing, heating, with calls that succeed or fail - while its state of charge, temperature and surface concentrations are in range, are accepted when they are given back to the cell, or to another cell of the same kind, and then both cells have exactly the same state. So a study can be saved, stopped and continued.", "quantifier": "for all valid cells made of spheres, all sequences of ordinary operations of any length, all targets of the same kind", "why_tests_cant": "Tests restore the states of new cells. Whether every cell that has aged in whatever way still passes all the checks of the restoring call (no field has left its allowed range, and the relation between surface, volume fraction and radius still holds) is an invariant of all ageing models.", "anchors": ["src/cells/Cell_SPM/Cell_SPM.cpp:setStates,validStates,getStates", "src/cells/Cell_SPM/Cell_SPM_dstate.cpp:timeStep_CC", "src/cells/Cell_SPM/Cell_SPM_degradation.cpp:LAM", "src/cells/Cell_SPM/Cell_SPM_fitting.cpp:setGeometricParameters"]}
{"id": "C116", "title": "The report of the OCV estimation describes the best fit", "statement": "For half-cell curves covering lithium fractions 0 to 1 and a measured cell curve of the documented format, estimateOCVparameters ends and writes a report in which the amounts of active material and start fractions are a best combination of the last search level, the reported electrode dimensions multiply to these amounts, and the lithium fractions at 100 %, 50 % and 0 % are those of the simulated discharge: exactly the charge in its last row lies between them. The files of the levels hold the best combinations of the fits with fewer levels, the printed settings are those of the search, and a Cell_SPM that is given the reported concentrations and dimensions holds in each electrode the lithium of the fit. Unreadable or malformed input leaves no files.", "quantifier": "for all curves, capacities and fits; for every cell configuration the report is put into", "why_tests_cant": "the grid search has millions of combinations and a test sees one curve; that the numbers in the report agree with each other and with the cell they are meant for has to hold for every fit", "anchors": ["src/procedures/determine_OCV.cpp:estimateOCVparameters", "src/procedures/determine_OCV.cpp:writeOCVParam", "src/cells/Cell_SPM/Cell_SPM_fitting.cpp:setInitialConcentration", "src/cells/Cell_SPM/Cell_SPM_fitting.cpp:setGeometricParameters"]}
{"id": "C117", "title": "A recorded drive cycle shows what the cell did", "statement": "When the drive-cycle example runs a current profile on a cell, it records one row per second until the profile or the usable charge (anode amplitude below the 10 % mark) ends, not earlier. Every row describes the cell in that second: voltage, all 28 states under their heading, and the current. Time advances one second per row, the charge that has passed is the sum of the currents, the estimated state of charge counts exactly this charge, and the current shown in the voltage file is the one of the cell.", "quantifier": "for all profiles of any length, all cells with blocked degradation, all capacities and marks", "why_tests_cant": "A test runs one profile; whether rows, states, state of charge and current stay in step in every second of every profile, in particular after refused currents, is an invariant over all profiles", "anchors": ["examples/drive_cycles.hpp:drive_cycle_artemis", "src/cells/Cell_SPM/Cell_SPM.cpp:setCurrent", "src/cells/Cell_SPM/State_SPM.hpp:State_SPM"]}
{"id": "C118", "title": "A pulse test records both cells every second and passes the charge it says", "statement": "A GITT test which ends has written a row for the start and one for every second of its pulses and rests; time, currents and voltages in a row are those of the two cells in that second. During each pulse and each rest a cell has one constant current: the one asked for, or - only if the cell refuses it - the one before. The charge in the current columns is the charge that has gone through the cells; twenty accepted pulses of an hour at 0.05 C pass exactly the nominal capacity.", "quantifier": "for all cells with blocked degradation in any state, any number and length of pulses and rests", "why_tests_cant": "216001 rows of one run cannot show that a refused current, wherever it happens, neither breaks the alternation nor the account of the charge", "anchors": ["examples/cell_tests.hpp:GITT_test", "src/cells/Cell_SPM/Cell_SPM.cpp:setCurrent", "src/cells/Cell_SPM/Cell_SPM_dstate.cpp:timeStep_CC"]}
{"id": "C119", "title": "A single-particle cell does not depend on the reference electrode its potentials are measured against", "statement": "If all potentials a cell is given - both electrode curves and the equilibrium potentials of the side reactions and of the dissolution of the cathode - are measured against another reference electrode, so that the same number is added to each, nothing that can be observed changes: after any sequence of calls every answer (voltages, currents, temperatures, states, exceptions) and every ageing variable is the same, and so is a cell newly built from the shifted curves.", "quantifier": "for all cells, parameters, degradation models, shifts and sequences of operations", "why_tests_cant": "a test compares with numbers computed by the same formulas; a potential entered against the wrong reference in one formula shows only as slightly different ageing", "anchors": ["src/cells/Cell_SPM/Cell_SPM_degradation.cpp:SEI", "src/cells/Cell_SPM/Cell_SPM_degradation.cpp:LiPlating", "src/cells/Cell_SPM/Cell_SPM_degradation.cpp:LAM", "src/cells/Cell_SPM/Cell_SPM.cpp:getOCV", "src/cells/Cell_SPM/Cell_SPM.cpp:V"]}
{"id": "C120", "title": "The SEI layer grows by the published laws, and slower as it gets thicker", "statement": "The current density of the growth of the SEI layer is the solution of the published equations of the selected model: reaction at the potential of the anode (model 1), or reaction and diffusion of the solvent through the layer in balance (models 2 to 4). With model 2 the square of the thickness grows at most linearly with the simulated time, whatever is done with the cell. Under otherwise equal conditions a thicker layer does not grow faster. Rates are only computed when no exchange current density is 0.", "quantifier": "for all cells with physical parameters, states, models and sequences of ordinary operations", "why_tests_cant": "the models are closed formulas whose tests would have to repeat them; the square-root law is a statement about years of use under arbitrary loads", "anchors": ["src/cells/Cell_SPM/Cell_SPM_degradation.cpp:SEI", "src/cells/Cell_SPM/Cell_SPM_dstate.cpp:timeStep_CC", "src/cells/Cell_SPM/Cell_SPM_dstate.cpp:dState_degradation"]}
{"id": "C121", "title": "Cracks bind lithium by their surface, saturate, and cost diffusion and cathode only within limits", "statement": "The SEI layer binds as much lithium per area of the surface of the cracks as on the rest of the anode. With the crack model that has a largest crack surface the surface does not exceed it. Whatever the models and parameters, cracks reduce the diffusion constant of the anode by at most 2e-7 of it per second, and the model for the dissolution of the cathode takes at most 5e-6 of its volume fraction per second.", "quantifier": "for all cells, states, selections of models and sequences of ordinary operations", "why_tests_cant": "the limits are clamps in the formulas that only act in extreme states, and the number of selected models is a combination tests do not enumerate", "anchors": ["src/cells/Cell_SPM/Cell_SPM_degradation.cpp:CS", "src/cells/Cell_SPM/Cell_SPM_degradation.cpp:LAM", "src/cells/Cell_SPM/Cell_SPM_dstate.cpp:dState_degradation"]}
{"id": "C122", "title": "A cell ages by the published laws of the models it was given", "statement": "Every time step of an ageing cell that succeeds adds to the layer, plated lithium, crack surface, lost lithium, electrode thicknesses, volume fractions, surfaces and the anode diffusion constant the published rates of exactly the selected models - all of them, added up - at the conditions at the end of the step, multiplied by the length of the step. The side reactions see the equilibrium potential of the anode at its own lithium fraction and temperature. With constant conditions the models have their published courses: exponential approach to the largest crack surface, and exponential loss of effective surface.", "quantifier": "for all cells with physical parameters, states, selections of models, and steps", "why_tests_cant": "degradation tests check signs or compare with numbers from the same program; a wrong argument of one curve changes ageing by a few percent at temperatures other than the reference one", "anchors": ["src/cells/Cell_SPM/Cell_SPM_degradation.cpp:CS", "src/cells/Cell_SPM/Cell_SPM_degradation.cpp:LAM", "src/cells/Cell_SPM/Cell_SPM_degradation.cpp:LiPlating", "src/cells/Cell_SPM/Cell_SPM_degradation.cpp:SEI", "src/cells/Cell_SPM/Cell_SPM_dstate.cpp:dState_degradation", "src/cells/Cell_SPM/Cell_SPM_dstate.cpp:timeStep_CC"]}
{"id": "C123", "title": "Multiplying the ageing parameters by a factor makes a cell age faster by the factor", "statement": "If the parameters of SEI growth, plating and cracks are multiplied by one factor and those of the loss of active material by another, as the variation factors between cells do, then in every state the layer, the plated lithium, the crack surface and the lost lithium grow faster by the first factor and the electrodes lose material faster by the second, whichever models are selected.", "quantifier": "for all cells with physical parameters, states, selections of models, and positive factors", "why_tests_cant": "all tests use factors of one, and at the reference temperature most models do behave so", "anchors": ["src/cells/Cell_SPM/param/SEIparam.hpp:operator*=", "src/cells/Cell_SPM/param/CSparam.hpp:operator*=", "src/cells/Cell_SPM/param/LAMparam.hpp:operator*=", "src/cells/Cell_SPM/param/PLparam.hpp:operator*=", "src/cells/Cell_SPM/Cell_SPM.cpp:Cell_SPM", "src/cells/Cell_SPM/Cell_SPM_dstate.cpp:dState_degradation"]}
{"id": "C124", "title": "A cycler records the beginning and the end of each phase and the asked-for interval in between", "statement": "With data collection off (ndt_data not positive) a phase records nothing. Otherwise a phase that ends at one of its limits records the storage unit exactly as it is at the beginning and at the end, and in between every ndt_data*dt seconds. The recorded points are kept in the order of time, at most 100000 are held in memory, and they are exported exactly when one more is to be stored.", "quantifier": "for all packs of cells, phases (rest, constant current, constant voltage, CCCV), durations, time steps and intervals", "why_tests_cant": "tests look at files of single runs with one interval; the spacing depends on the adaptive number of steps and the position of the end of the phase relative to the interval", "anchors": ["src/procedures/Cycler.cpp:rest", "src/procedures/Cycler.cpp:CC", "src/procedures/Cycler.cpp:CV", "src/procedures/Cycler.cpp:CCCV_with_tlim", "src/procedures/Cycler.cpp:storeData", "src/procedures/Cycler.cpp:writeData"]}
{"id": "C125", "title": "Recording data does not change what happens to the cells", "statement": "Whether and how often a phase records data makes no difference to anything else: the same status, the same states of all cells, the same reported time, charge and energy.", "quantifier": "for all storage units, phases, currents, voltages, durations, time steps and intervals of data collection", "why_tests_cant": "tests either record or do not; comparing both needs the same scenario run twice, and the difference only appears where a voltage changes fast near a limit", "anchors": ["src/procedures/Cycler.cpp:rest", "src/procedures/Cycler.cpp:CC", "src/procedures/Cycler.cpp:CV", "src/procedures/Cycler.cpp:CCCV_with_tlim"]}
{"id": "C126", "title": "Lithium diffuses in the particles by Fick's laws", "statement": "At every moment the concentrations at the surface, the inner nodes and the centre of a particle lie on one smooth profile whose slope at the surface gives, by Fick's first law, the flux the current asks for. A time step moves the concentrations at the inner nodes by Fick's second law in a sphere (Euler's rule), step by step, while the flux is the one of the current. With nodes at different depths the profile is the only one.", "quantifier": "for all numbers of nodes and all matrices that discretise diffusion in a sphere exactly, all particle sizes, temperatures, currents, states, lengths and numbers of time steps", "why_tests_cant": "tests compare some voltages with recorded ones; that matrices, eigenvalues, surface term and centre formula together are the diffusion equation shows only for general profiles", "anchors": ["src/cells/Cell_SPM/Cell_SPM.cpp:getC", "src/cells/Cell_SPM/Cell_SPM_dstate.cpp:dState_diffusion", "src/cells/Cell_SPM/Cell_SPM.cpp:timeStep_CC", "src/cells/Cell_SPM/Model_SPM.hpp"]}
{"id": "C127", "title": "The thermal model never loses track of the time", "statement": "Units are told how much time has passed since the last thermal update and compare it with their own clocks. If the caller's time is right, the update is never refused because of time keeping (8, 98), however many updates have been made and whether they succeeded or not; after an update everybody starts counting at zero.", "quantifier": "for all nested modules and cells, any heat, any neighbours and any sequence of intervals", "why_tests_cant": "tests make updates that succeed; what an update that fails halfway leaves behind is seen only at the next update", "anchors": ["src/modules/Module.cpp:thermalModel_coupled", "src/modules/Module.cpp:thermalModel", "src/cells/Cell_SPM/Cell_SPM_thermal.cpp:thermalModel"]}
{"id": "C128", "title": "The losses of the converter follow the data sheet of its switches", "statement": "The losses are those that follow from the data sheet quoted: over a conducting switch 1 V at 30 A, 3 V at 300 A, proportional below 30 A; switching on costs 6 mJ at 50 A, 21 mJ at 200 A, on a straight line, switching off 1 mJ more; 8000 times a second, one switch in the DC stage, six in the AC stage, plus the filters, shared equally by the inverters.", "quantifier": "for all nominal powers, voltages and currents, charging and discharging", "why_tests_cant": "tests check the order of magnitude at some points; the data sheet is a statement about all currents and both directions", "anchors": ["src/power_conversion/Converter.cpp:getLosses"]}
{"id": "C129", "title": "The voltage of a single-particle cell obeys Butler–Volmer kinetics", "statement": "Whenever a cell whose surface concentrations are within bounds reports a voltage, that voltage is its reported open-circuit voltage plus the overpotential of the cathode, less that of the anode, less the current times the resistances of SEI layer, electrodes and collector in series, where the overpotentials are the unique solutions of the symmetric Butler–Volmer equation at the current density on the whole active surface of the electrode, with an exchange current that follows the concentrations and an Arrhenius rate. At rest the voltage is the open-circuit voltage, a discharging cell is strictly below it, a charging one strictly above.", "quantifier": "for all cells, states, currents and temperatures, and any half-cell curves", "why_tests_cant": "tests check voltages only to lie in a window; whether the formula with asinh solves the equation, and on which surface the current is spread, is a statement about all currents and states", "anchors": ["src/cells/Cell_SPM/Cell_SPM_diffusion.cpp:calcOverPotential", "src/cells/Cell_SPM/Cell_SPM.cpp:V", "src/cells/Cell_SPM/Cell_SPM.cpp:getRdc"]}
{"id": "C130", "title": "At constant current the simulation follows the exact course, with an error proportional to the time step", "statement": "With time steps not longer than the time constants involved, the currents of the RC pairs and the voltage of an equivalent-circuit cell, and the concentrations at all nodes of the particles of a single-particle cell, differ after any number of steps from the exact solution of their differential equations by at most half the elapsed time times the time step times the second derivative at the start. When a given time is divided into more and more steps, the voltage converges to the exact one.", "quantifier": "for all cells, states, currents, time steps and numbers of steps within the stated limit, and all solutions of the differential equations", "why_tests_cant": "tests compare with reference values at one step size; an error bound and convergence are statements about all step sizes and about the solution of a differential equation", "anchors": ["src/cells/Cell_ECM/Cell_ECM.hpp:timeStep_CC", "src/cells/Cell_ECM/Cell_ECM.hpp:V", "src/cells/Cell_SPM/Cell_SPM_dstate.cpp:timeStep_CC", "src/cells/Cell_SPM/Cell_SPM_dstate.cpp:dState_diffusion"]}
{"id": "C131", "title": "A battery that stands for many copies of its module takes the module through the same course as the module alone", "statement": "Charging or discharging a battery made of s copies in series and p in parallel with p times the current up to s times the voltage limit ends in the same way as charging or discharging one module with the current up to the limit: the module inside is left in the same state, the time is the same, the charge p times and the energy s times p times as large. The same holds for rest. So a study of one module may be scaled up to a large battery.", "quantifier": "for all modules, numbers of copies, currents, limits, time steps and recording intervals, and all starting states", "why_tests_cant": "tests set the numbers of copies to one or check single calls; that all decisions of the cycler about step sizes agree over a whole phase is a statement about all its iterations", "anchors": ["src/system/Battery.hpp:setCurrent", "src/system/Battery.hpp:getVlow", "src/system/Battery.hpp:setSeriesandParallel", "src/system/Battery.cpp:timeStep_CC", "src/procedures/Cycler.cpp:CC", "src/procedures/Cycler.cpp:rest", "src/paperCode.cpp"]}
{"id": "C132", "title": "An equivalent-circuit cell never gives back more energy than was put into it", "statement": "As long as the cell stays between empty and full and time steps are at most twice the time constants of its RC pairs, the watt hours that leave the cell plus the heat in its DC resistance are covered by the watt hours that went in plus the decrease of the energy stored in it (open-circuit voltage integrated over the charge, and capacitors of the RC pairs). In particular a rested cell from which as many ampere hours are taken as were put in gives back fewer watt hours than it got: no simulated round trip is more than 100 % efficient. Watt hours and ampere hours are those of the cell's own meters.", "quantifier": "for all cells whose open-circuit voltage does not fall with the state of charge, all states and all histories of setting currents, voltages and temperatures and of time steps, batched in any way", "why_tests_cant": "tests check one charge and discharge; that no sequence of calls extracts energy from nothing is a statement about all sequences, and depends on the numerical scheme (it fails for longer time steps)", "anchors": ["src/cells/Cell_ECM/Cell_ECM.hpp:timeStep_CC", "src/cells/Cell_ECM/Cell_ECM.hpp:V", "src/cells/Cell_ECM/Cell_ECM.hpp:setCurrent", "src/types/State.hpp:Wh"]}
{"id": "C133", "title": "The capacity test finds the capacity between the voltage limits", "statement": "When the capacity test of an equivalent-circuit cell reports a capacity, it is the charge between the states of charge at which the open-circuit voltage equals the upper and the lower voltage limit. The error is at most twice the sum of the charge that corresponds to the voltage drop at 1/25 C on the flattest part of the curve and of the charge of two time steps of a second at 1/25 C. The cell is not above the upper limit at the start and carries no more than 1/25 C in any branch; its time constants are at least a second.", "quantifier": "for all equivalent-circuit cells with rising open-circuit voltage, any number of RC pairs, and all starting states", "why_tests_cant": "tests compare one measured capacity with an expected number; a bound on the error for all cells needs the invariant of the cycling loops, including their adaptive number of steps", "anchors": ["src/procedures/Cycler.cpp:testCapacity", "src/procedures/Cycler.cpp:CC", "src/procedures/Cycler.cpp:setCurrent", "src/cells/Cell_ECM/Cell_ECM.hpp:timeStep_CC"]}
{"id": "C134", "title": "A cell discharged faster delivers no more charge", "statement": "Start an equivalent-circuit cell from rest twice, at two currents in the same direction. Whenever the faster run has moved at least as much charge as the slower one, its voltage is no better: no higher on discharge, no lower on charge. Two constant-current phases of the cycler that both end at the same voltage limit therefore report charges of which the one at the higher current is no larger, up to the charge of its last two time steps. The time step is no longer than the time constants of the RC pairs.", "quantifier": "for all equivalent-circuit cells with a rising open-circuit voltage and any number of RC pairs, all pairs of currents in the same direction, all numbers of time steps and all voltage limits", "why_tests_cant": "tests run a few C-rates on one cell; the comparison of two runs of different length at all pairs of currents needs a proof about the RC pairs and about where the cycling loop stops", "anchors": ["src/procedures/Cycler.cpp:CC", "src/procedures/Cycler.cpp:setCurrent", "src/cells/Cell_ECM/Cell_ECM.hpp:timeStep_CC", "src/cells/Cell_ECM/Cell_ECM.hpp:V"]}
{"id": "C135", "title": "A new equivalent-circuit cell is what was asked for", "statement": "A cell can be made exactly when its state of charge is between 0 and 1; otherwise 10 is thrown. It has the capacity, the state of charge and the circuit asked for, carries no current in any branch, is at 15 degrees, has empty meters and valid states, and has the voltage of the straight line from 2.0 V when empty to 4.3 V when full. The default circuit has 2 mOhm, a first RC pair of 15.8 mOhm and 600.4 s and, with two pairs, a second one of 2.5 mOhm and 100 s; the default cell has 16 Ah and is half full. After a first pulse of any current and length its voltage has a closed form as long as the cell is between empty and full. Capacities that are not positive are refused, and the current reported for the parallel resistance is that of the first RC pair.", "quantifier": "for all numbers of RC pairs, capacities, states of charge, resistances, time constants, currents, time steps and numbers of steps", "why_tests_cant": "tests build two cells and look at a few numbers; what every constructor call yields, and what the cell does next, needs the closed form of the circuit", "anchors": ["src/cells/Cell_ECM/Cell_ECM.hpp:Cell_ECM", "src/cells/Cell_ECM/Cell_ECM.hpp:getIr", "src/cells/Cell_ECM/State_ECM.hpp:Ir", "src/cells/Cell.hpp:setCapacity", "src/utility/util.hpp:linspace_fix", "src/types/XYdata.hpp:interp"]}
{"id": "C136", "title": "Power at the terminals of a pack is the power of its cells minus the losses in the contacts", "statement": "Terminal voltage times terminal current of a pack equals the sum over its cells of voltage times current, minus the resistance times the square of the current of every contact. The members of each string carry the same current and have valid voltages. The branches of each parallel module have the same voltage at its terminals; if they differ by up to some tolerance, the powers differ by at most the tolerance times the sum of the branch currents. The losses are not negative when the contact resistances are not. When a pack of equivalent-circuit cells is discharged for a time step that leaves the currents of its cells as they were, the energy meters of the cells advance by the energy delivered at the terminals and that lost in the contacts.", "quantifier": "for all packs: any nesting of series and parallel modules of any size, any cells, currents and contact resistances", "why_tests_cant": "tests look at voltage and current of small modules; that no energy appears or disappears between cells and terminals at any depth of nesting needs induction over the pack and over the ladder of contacts", "anchors": ["src/modules/Module_s.cpp:V", "src/modules/Module_p.hpp:V", "src/modules/Module_p.cpp:getVall", "src/modules/Module_p.hpp:I", "src/cells/Cell_ECM/Cell_ECM.hpp:timeStep_CC"]}
{"id": "C137", "title": "A mechanism of ageing that is not selected does not act", "statement": "Whatever is done with a single-particle cell in ordinary use, ageing quantities change only by mechanisms that were selected: without an SEI model the layer does not grow, without a crack model the crack surface stays, without plating no lithium is plated, without an SEI model and plating no lithium is lost, the diffusion in the anode slows down only if selected, the electrodes get thinner only by model 1 of the loss of active material, the volume fraction of the cathode changes only by models 2 and 3, that of the anode only by model 2 and pore clogging, the specific surfaces only by these and model 4. This also holds for every cell of a pack in whole ageing studies with balancing and check-ups. In the ready-made packs no cracks grow, no lithium is plated and the volume fraction of the cathode stays; only the pack of makeBattery keeps the thickness of its electrodes and only the smaller EPFL pack the pores of its anodes.", "quantifier": "for all cells, selections of models, parameters and histories of calls however they end; all packs, cycle-ageing and use-case studies", "why_tests_cant": "the combinations of models and histories are unbounded; the unit tests compare a few runs", "anchors": ["src/cells/Cell_SPM/Cell_SPM_degradation.cpp:SEI,CS,LAM,LiPlating", "src/cells/Cell_SPM/Cell_SPM_dstate.cpp:dState_degradation,timeStep_CC", "src/procedures/Procedure.cpp:cycleAge,useCaseAge", "src/factories/makeBattery.cpp"]}
{"id": "C138", "title": "With individual checks a constant-current phase does not silently overdrive a cell", "statement": "A cycler with diagnostics switched on (Cycler::setDiagnostic(true)) checks every cell of the connected unit after every step. So when CC reports that it reached its voltage or its time limit, no cell of the unit has a voltage that is not positive, is being discharged below its operating window (2.7 V, with a margin of 10 mV) or is being charged above it (4.2 V plus 10 mV); and the same holds for every data point recorded after the current was set. Without diagnostics this protection does not exist.", "quantifier": "for every tree of modules of any depth and size with equivalent-circuit or single-particle cells (with or without degradation), every current, limits, time step, recording interval and number of steps", "why_tests_cant": "a test looks at one string and one current; whether a weak cell can hide behind strong ones depends on the states of all cells, on the depth of the pack and on when the checks are made in the loop", "anchors": ["src/procedures/Cycler.cpp:CC", "src/procedures/Cycler.cpp:setCurrent", "src/modules/Module.cpp:checkVoltage", "src/modules/Module_s.cpp:setCurrent", "src/utility/free_functions.hpp:check_voltage"]}
{"id": "C139", "title": "A pack of identical cells is a scaled cell", "statement": "Copies of one cell (same parameters, same state), connected without contact resistances to a pack in which every module has identical children, behave as one cell with S times its voltage and P times its current, where S and P are the numbers of cells in series and in parallel: the readings at the terminals (voltage, current, capacity, open-circuit voltage, resistance, voltage limits, number of cells, voltage status) are those of the cell times S, P, S/P or S*P; a current P*i is accepted by the pack exactly when the cell accepts i, a refused one has no effect and is refused with the status of the cell; after any history of currents and time steps all cells of the pack are equal to the cell that was used on its own.", "quantifier": "for every nesting depth and every number of children per module up to the limit of 100, every equivalent-circuit or single-particle cell (ageing included), every sequence of requested currents and time steps that succeeds for the cell", "why_tests_cant": "tests compare one small pack of buckets with hand-computed numbers; that all cells stay in step over any history, in every arrangement, and through the iterative equalisation of the currents in parallel blocks, cannot be tested exhaustively", "anchors": ["src/modules/Module_s.cpp:setCurrent", "src/modules/Module_s.cpp:timeStep_CC", "src/modules/Module_p.cpp:setCurrent", "src/modules/Module_p.cpp:timeStep_CC", "src/modules/Module_p.cpp:getRtot", "src/modules/Module.cpp:checkVoltage"]}
{"id": "C140", "title": "Cycling a series string of identical cells is cycling one of its cells", "statement": "Connect a Cycler without diagnostic to a series module of N identical cells (1 <= N <= 100, no contact resistances) instead of to one such cell. CC with N times the voltage limit then returns the same status or throws the same exception as CC on the single cell with the single limit: it takes the same time steps, adds the same time and charge and exactly N times the energy to the throughput, makes its records at the same moments, and leaves every cell of the string in the state in which it leaves the single cell. The same holds for rest, with or without diagnostic. The cells must show a positive voltage under the current that is set, unless they are discharged (a string with a cell at or below 0 V reads 0).", "quantifier": "all equivalent-circuit and single-particle cells, all numbers of cells from 1 to 100, all currents, positive voltage limits, time limits, time steps and recording intervals, all initial throughputs, all lengths of the phase including those that do not finish", "why_tests_cant": "The cycler adapts the number of steps per check to the voltage of the unit relative to the limit and to the lowest cell voltage compared with absolute thresholds; tests compare one module with one cell for one current. That every decision of the loop scales, for every run, cannot be tested.", "anchors": ["src/procedures/Cycler.cpp:Cycler::CC", "src/procedures/Cycler.cpp:Cycler::rest", "src/procedures/Cycler.cpp:Cycler::setCurrent", "src/modules/Module_s.cpp", "src/modules/Module.cpp:Module::getVlow"]}
{"id": "C141", "title": "Setting the state of charge of a cell does what was asked, or nothing", "statement": "setSOC on an equivalent-circuit cell refuses values outside 0 to 1 with SOC_limits_violation and leaves the cell as it was. Without check every other value is set and nothing else changes. With check the answer is the voltage status the cell has at the new value: the value is kept unless the cell then has no voltage, or is below 2.0 V and being discharged, or above 4.3 V and being charged; in these cases the cell is exactly as before. A value at which the voltage is outside the safety limits is not kept (documented). On a single-particle cell the same call obeys the same rules, and the voltage of the cell follows the state of charge that was set.", "quantifier": "for all equivalent-circuit cells with any number of RC pairs, any parameters and states, all single-particle cells in all states, all requested values, with and without check", "why_tests_cant": "the outcome depends on all states of the cell and on the direction of the current; the call is described as used by tests only, and a test that looks at the stored value alone cannot see whether the voltage follows", "anchors": ["src/cells/Cell_ECM/Cell_ECM.hpp:Cell_ECM::setSOC", "src/cells/Cell_SPM/Cell_SPM.cpp:Cell_SPM::setSOC", "src/utility/free_functions.hpp:check_SOC", "src/utility/free_functions.hpp:check_voltage"]}
{"id": "C142", "title": "The capacity test of a series string of identical cells reports the capacity of one cell", "statement": "Cycler::testCapacity on a series module of N identical cells (1 <= N <= 100, no contact resistances, cycler without diagnostic) returns exactly what it returns for one of the cells: the same capacity, the same 0 if the test fails, the same exception; with the same charge and the same time. Afterwards every cell of the string is in the state in which the test leaves the single cell; after a failed test all cells are as before. Hence for equivalent-circuit cells a reported capacity is the charge of one cell between the states of charge at which its open-circuit voltage equals the limits, with the tolerance of C133 that does not depend on N.", "quantifier": "all equivalent-circuit and single-particle cells in valid states that have a positive voltage under the test current, all numbers of cells from 1 to 100, all temperatures of the module from 273 K on", "why_tests_cant": "The test runs two constant-current phases of unbounded length whose decisions depend on the voltage of the whole string and on the lowest cell voltage, and on failure restores all states through one flat list; comparing one string with one cell tests one path", "anchors": ["src/procedures/Cycler.cpp:Cycler::testCapacity", "src/procedures/Cycler.cpp:Cycler::CC", "src/modules/Module.cpp:Module::setStates", "src/modules/Module.cpp:Module::getStates", "src/modules/Module_s.cpp"]}
{"id": "C143", "title": "Cycling a pack of identical cells with individual checks is cycling one of its cells", "statement": "Connect a Cycler with diagnostic to a pack of identical cells, nested in any way with S cells in series and P in parallel between the terminals (no contact resistances, at most 100 units per module), instead of to one such cell. CC with P times the current and S times the voltage limit returns the same status or throws the same exception as CC on the cell with the single current and limit. It takes the same time steps, adds the same time, P times the charge and S*P times the energy to the throughput, makes its records at the same moments, and leaves the pack consisting of copies of what the single cell has become. A current that the cell refuses because of its safety limits is refused by the pack with the same status, without effect.", "quantifier": "all equivalent-circuit and single-particle cells, all nestings of series and parallel modules, all currents, positive voltage limits, time limits, time steps and recording intervals, all initial throughputs and records, all lengths of the phase", "why_tests_cant": "Every step passes through the check of every cell, the current redistribution of every parallel module and the adaptive choice of the number of steps; tests compare a few small modules for a few currents", "anchors": ["src/procedures/Cycler.cpp:Cycler::CC", "src/procedures/Cycler.cpp:Cycler::setCurrent", "src/modules/Module_s.cpp:Module_s::setCurrent", "src/modules/Module_p.cpp:Module_p::setCurrent,timeStep_CC,redistributeCurrent", "src/modules/Module.cpp:Module::checkVoltage,getVlow"]}
{"id": "C144", "title": "The charge that a constant-current phase reports has flowed", "statement": "When CC reports that it reached its time limit or its voltage limit, the cell has carried the current for the time reported: the charge reported is what its own charge counter has counted, and its state of charge has changed accordingly. This holds with diagnostic switched on, where the cell may refuse a current, and for cells in parallel, where the cells together have counted at least the charge reported, and in a pack of identical cells exactly.", "quantifier": "all equivalent-circuit and single-particle cells and packs of them, all currents, limits, time steps and recording intervals, with and without diagnostic", "why_tests_cant": "A refused current is reported through one of several status codes that the cycler classifies; a test that does not ask for an extreme current sees only the ordinary ones, and the throughput is computed from the requested current, so that it looks right in every case", "anchors": ["src/procedures/Cycler.cpp:Cycler::CC", "src/procedures/Cycler.cpp:Cycler::setCurrent", "src/types/Status.hpp:isStatusVoltageLimitsViolated", "src/cells/Cell_ECM/Cell_ECM.hpp:Cell_ECM::setCurrent", "src/modules/Module_p.cpp:Module_p::setCurrent"]}
{"id": "C145", "title": "With individual checks a constant-voltage phase does not silently overdrive a cell", "statement": "In diagnostic mode the voltage limits are checked at every level of the connected unit (documented). So when CV, at a voltage within the operating window of the unit, reports that it reached its current limit, no cell of the unit has a voltage that is not positive, is being discharged below 2.7 V or charged above 4.2 V (margin of 10 mV).", "quantifier": "all packs nested in any way, all set voltages within the window of the pack, all current limits, time limits, time steps and recording intervals, all lengths of the phase", "why_tests_cant": "A pack with equal cells never shows the difference, and the status and the terminal voltage look right; whether some cell of some unbalanced pack is overdriven cannot be tested", "anchors": ["src/procedures/Cycler.cpp:Cycler::CV", "src/procedures/Cycler.cpp:Cycler::setDiagnostic", "src/utility/free_functions.hpp:setVoltage_iterative", "src/utility/free_functions.hpp:check_safety"]}
{"id": "C146", "title": "Holding a voltage ends, at the current limit, and never overshoots", "statement": "A constant-voltage phase of an equivalent-circuit cell whose time step is short for the cell (the voltage moves during one step by less than the step in voltage the current causes at once, and by less than 10 mV) ends with the current limit or the time limit, never with an exception or a safety violation. The state of charge moves only towards the one whose open-circuit voltage is the set voltage, and never past it. If there is time for the missing charge to flow with the limit current, the current limit is reported, within that time; the voltage is then the set voltage (10 mV) and the open-circuit voltage differs from it by at most the drop over the resistances at the limit current. With too long a step the target is passed.", "quantifier": "all cells with any number of RC pairs and any rising open-circuit curve, all charged or discharged starting points, all set voltages in the operating window, all current limits from 1 microampere, all time limits, all sufficiently short steps, all recording intervals", "why_tests_cant": "That a loop always ends, how long it takes and that it never overshoots depends on every combination of curve, resistances, capacity, step and limits; a test runs one", "anchors": ["src/procedures/Cycler.cpp:Cycler::CV", "src/cells/Cell_ECM/Cell_ECM.hpp:Cell_ECM::setVoltage", "src/cells/Cell_ECM/Cell_ECM.hpp:Cell_ECM::timeStep_CC"]}
{"id": "C147", "title": "A CCCV charge fills the cell, wherever it started", "statement": "CCCV of an equivalent-circuit cell, with a time step that is short for the cell and enough time for the missing charge to flow with the charging current and with the limit current, always reports the current limit: the constant-current phase always reaches the set voltage, without passing the state of charge that belongs to it, and the constant-voltage phase ends there. Afterwards the open-circuit voltage is within the resistance times the limit current of the set voltage (cells without RC pairs, limit not above the charging current), so two cells of the same type end at states of charge that differ by less than resistance times limit current divided by the slope of the curve, wherever they started. The same holds for discharging.", "quantifier": "all cells with any number of RC pairs and any rising open-circuit curve, all starting points on one side of the target, all set voltages in the operating window, all currents, current limits from 1 microampere, sufficient time limits and sufficiently short time steps", "why_tests_cant": "The number of iterations of both adaptive loops depends on all parameters; a test shows the end state for one cell, not that no starting point ends in a different status or at a different state of charge", "anchors": ["src/procedures/Cycler.cpp:Cycler::CCCV_with_tlim", "src/procedures/Cycler.cpp:Cycler::CC", "src/procedures/Cycler.cpp:Cycler::CV", "src/cells/Cell_ECM/Cell_ECM.hpp:Cell_ECM"]}
{"id": "C148", "title": "A weaker cell never lasts longer", "statement": "Charge or discharge two rested equivalent-circuit cells of the same chemistry with the same current to the same voltage limit. The cell with no more capacity, no less resistance (ohmic and of every RC pair), RC pairs that respond no slower and a state of charge no further from the end moves no more charge, up to the current times two time steps. At every moment of the phase its voltage is no higher on discharge and no lower on charge, even compared with an earlier moment of the stronger cell.", "quantifier": "all pairs of cells with any number of RC pairs and any rising open-circuit curve, all currents of either sign, all voltage and time limits, all time steps not longer than the shortest time constant", "why_tests_cant": "A comparison between all pairs of cells over all lengths of two runs of an adaptive loop with different step sizes; a test compares one pair", "anchors": ["src/procedures/Cycler.cpp:Cycler::CC", "src/cells/Cell_ECM/Cell_ECM.hpp:Cell_ECM::timeStep_CC", "src/cells/Cell_ECM/Cell_ECM.hpp:Cell_ECM::V"]}
{"id": "C149", "title": "Cells in parallel balance", "statement": "In a parallel module of equivalent-circuit cells of the same type at different states of charge, the fuller of two cells carries the larger current whenever their voltages are equal, in proportion to the difference of their open-circuit voltages. Over any history of requested currents and simulated times, at rest, charging or discharging, the differences in state of charge shrink: every t seconds take away at least the fraction t times the smallest slope of the curve divided by resistance times capacity, down to one nanovolt divided by the slope, as long as no simulation is longer than resistance times capacity divided by the largest slope.", "quantifier": "all numbers of cells, all states of charge, all curves with bounded positive slope, all resistances and capacities, all histories of operations that are carried out", "why_tests_cant": "A bound on the result of every history of operations on every number of cells; a test runs one history on one module", "anchors": ["src/modules/Module_p.cpp:Module_p::timeStep_CC", "src/modules/Module_p.cpp:Module_p::redistributeCurrent", "src/modules/Module_p.cpp:Module_p::setCurrent", "src/cells/Cell_ECM/Cell_ECM.hpp:Cell_ECM::timeStep_CC"]}
{"id": "C150", "title": "A cell of another size behaves alike", "statement": "Take an equivalent-circuit cell and the same cell k times as large (k times the capacity, resistances divided by k, the same curve and time constants). Every call with k times the current gives the same voltage, the same status and the same state of charge. So does every phase of the cycler: constant current, rest, constant voltage with k times the current limit, and their combination end the same way after the same time with the same recordings and k times the charge and energy, and the capacity test finds k times the capacity.", "quantifier": "all cells with any number of RC pairs, all factors k above zero (smaller ones too), all currents, limits, time steps and recording intervals, every way a phase can end including errors", "why_tests_cant": "Relates all runs of an adaptive loop on one cell to all runs on another; a test compares two runs", "anchors": ["src/procedures/Cycler.cpp:Cycler::CC", "src/procedures/Cycler.cpp:Cycler::CV", "src/procedures/Cycler.cpp:Cycler::CCCV_with_tlim", "src/procedures/Cycler.cpp:Cycler::rest", "src/procedures/Cycler.cpp:Cycler::testCapacity", "src/cells/Cell_ECM/Cell_ECM.hpp:Cell_ECM::timeStep_CC", "src/cells/Cell_ECM/Cell_ECM.hpp:Cell_ECM::setVoltage"]}
{"id": "C151", "title": "A pack of larger cells behaves alike", "statement": "Take a pack of series and parallel modules, nested in any way, and the same pack with every cell k times as large and every contact resistance divided by k. It has the same voltages, limits and warnings, k times the capacity and 1/k of the resistance; every request with k times the current ends the same way, also if it is refused, and leaves the same pack of larger cells, and so does simulated time. Constant-current phases, rests and capacity tests end the same way after the same time, with the same recordings and k times the charge and energy; so do charges at constant current and voltage of series modules. The same holds for packs of single-particle cells. In particular p equal cells in parallel behave as one cell p times as large over any history of requests.", "quantifier": "all packs of any depth and number of cells with any parameters and states, equivalent-circuit cells with any number of RC pairs and single-particle cells, all factors k above zero, all requests and phases, every way they can end", "why_tests_cant": "Relates all runs on all packs to runs on other packs; a test compares two packs on a few runs", "anchors": ["src/modules/Module_s.cpp:Module_s::setCurrent", "src/modules/Module_p.cpp:Module_p::setCurrent", "src/modules/Module_p.cpp:Module_p::redistributeCurrent", "src/modules/Module_p.cpp:Module_p::timeStep_CC", "src/modules/Module_p.cpp:Module_p::setVoltage", "src/utility/free_functions.hpp:setVoltage_iterative", "src/procedures/Cycler.cpp:Cycler::CC", "src/cells/Cell_SPM/Cell_SPM.cpp:Cell_SPM::V"]}
{"id": "C152", "title": "A larger cell warms and ages alike", "statement": "Make a single-particle cell with capacity factor k instead of 1 and load it with k times the current. Through any history of requests and simulated time it reports the same voltages and temperatures, grows the same surface layer and plated lithium, loses the same share of active material, and k times as much lithium; the same holds for packs of such cells under constant-current phases, rests, and charges at constant current and voltage.", "quantifier": "all single-particle cells with any parameters, all selections of ageing models, all factors k above zero, all histories of requests and time steps, every way they can end; packs of any depth", "why_tests_cant": "Relates all histories of ageing cells to histories of cells of another size; a test compares two cells on a few runs, usually of one size", "anchors": ["src/cells/Cell_SPM/Cell_SPM.cpp:Cell_SPM::Cell_SPM", "src/cells/Cell_SPM/Cell_SPM_degradation.cpp:Cell_SPM::SEI", "src/cells/Cell_SPM/Cell_SPM_degradation.cpp:Cell_SPM::CS", "src/cells/Cell_SPM/Cell_SPM_degradation.cpp:Cell_SPM::LAM", "src/cells/Cell_SPM/Cell_SPM_degradation.cpp:Cell_SPM::LiPlating", "src/cells/Cell_SPM/Cell_SPM_thermal.cpp:Cell_SPM::thermalModel", "src/cells/Cell_SPM/Cell_SPM_dstate.cpp:Cell_SPM::timeStep_CC"]}
{"id": "C153", "title": "A cycler never reports more energy out than in", "statement": "Put together any test of constant-current discharges and charges, charges at constant current and then constant voltage, and rests, each of which finishes regularly. If the cell was rested at the start and is no emptier at the end, the watt hours the cycler reported for the discharges are at most those it reported for the charges; in general the difference is covered by energy that was in the cell. The same holds for strings of different cells under constant currents and rests.", "quantifier": "all circuit-model cells with any number of RC pairs, any rising open-circuit curve, any resistances; all strings of up to 100 such cells; all sequences of phases with any currents, limits and recording intervals, and time steps up to the time constants of the cells", "why_tests_cant": "Holds for every cell, every batch size the cycler chooses and every sequence of phases; tests compare the reported energy of a few phases with expected values within a tolerance and cannot exclude a gain over all of them", "anchors": ["src/procedures/Cycler.cpp:Cycler::CC", "src/procedures/Cycler.cpp:Cycler::CV", "src/procedures/Cycler.cpp:Cycler::CCCV", "src/procedures/Cycler.cpp:Cycler::rest", "src/cells/Cell_ECM/Cell_ECM.hpp:timeStep_CC", "src/modules/Module_s.cpp:Module_s::V", "src/modules/Module_s.cpp:Module_s::timeStep_CC"]}
{"id": "C154", "title": "The weakest cell limits a string", "statement": "With individual checks of the voltages, a constant-current phase on a series string of different cells reports no more charge than any one of the cells can give (on discharge) or take (on charge) between its state at the start and the edge of its operating window. This holds whatever limit the phase was given and however it ends.", "quantifier": "all strings of circuit-model cells with any capacities, states of charge, resistances, RC pairs and any rising open-circuit curves, all currents, voltage and time limits, recording intervals, and time steps up to the time constants", "why_tests_cant": "A test shows one string that stops in time; that no combination of cells, currents and limits lets the report exceed what the weakest cell holds is a statement about all of them and about every batch size the cycler chooses", "anchors": ["src/procedures/Cycler.cpp:Cycler::CC", "src/procedures/Cycler.cpp:Cycler::setCurrent", "src/modules/Module_s.cpp:Module_s::setCurrent", "src/modules/Module.cpp:Module::checkVoltage", "src/utility/free_functions.hpp:check_voltage", "src/cells/Cell_ECM/Cell_ECM.hpp:timeStep_CC"]}
{"id": "C155", "title": "A parallel module carries the currents of its circuit", "statement": "After every successful simulation step of a parallel module, the currents of its branches are those which Kirchhoff's laws give for the circuit of the branches' source voltages, resistances and contact resistances under the same total current. This distribution exists and is unique, every branch is within a tenth of a nanovolt divided by the smallest branch resistance of it, the terminal voltage is the circuit's no-load voltage less total current times circuit resistance to the corresponding accuracy, and the resistance the module reports is the circuit's. It holds for cells and for strings of cells as branches.", "quantifier": "all parallel modules of circuit-model cells or of strings of them, with any number of branches, positive resistances, contact resistances, states of charge and RC states, all time steps and step counts after which the call returns", "why_tests_cant": "The iteration stops on a voltage error; that a small voltage error means that every current is right, for any number of branches and any contact resistances, and that there is only one right answer, is a theorem about all circuits and not something a sample of circuits shows", "anchors": ["src/modules/Module_p.cpp:Module_p::timeStep_CC", "src/modules/Module_p.cpp:Module_p::redistributeCurrent", "src/modules/Module_p.cpp:Module_p::getVall", "src/modules/Module_p.cpp:Module_p::getRtot", "src/modules/Module_p.hpp:Module_p::V", "src/modules/Module_s.cpp:Module_s::V"]}
{"id": "C156", "title": "Equalising the branches of a parallel module converges", "statement": "A parallel module of cells of the same capacity c, with branch resistances of at least R and any contact resistances, for which c times a branch's resistance (with all contacts counted once per branch) is at most one, reaches every total current whose distribution leaves the cells room inside their safety window: the request reports success, the total is exactly the requested one, and every branch carries the current of the circuit to within a nanovolt over R. Under the same conditions a simulation step succeeds and keeps the total current. The branches may be single cells, strings of cells or strings of strings; the capacity of a string is that of its weakest member.", "quantifier": "all such modules of cells, of strings and of strings of strings with up to 100 members each, any open-circuit curves, states of charge, RC states, currents at the start and requested totals", "why_tests_cant": "The iteration adds capacity times voltage error to each current, without looking at resistances; whether it converges depends on the product of capacity and resistance and on the contact ladder, and a sample of modules that converge says nothing about the others", "anchors": ["src/modules/Module_p.cpp:Module_p::setCurrent", "src/modules/Module_p.cpp:Module_p::redistributeCurrent", "src/modules/Module_p.cpp:Module_p::timeStep_CC", "src/modules/Module_p.cpp:Module_p::getVall", "src/cells/Cell_ECM/Cell_ECM.hpp:setCurrent"]}
{"id": "C157", "title": "Every phase of a cycler comes to an end", "statement": "Whatever currents, limits and recording settings are given, a rest and a constant-current phase on a pack whose modules have at most 100 children each come to an end, with a status or an exception and without undefined behaviour. With a positive step the number of iterations is at most the time limit divided by the step; a charge that continues at constant voltage and a capacity test are bounded in the same way on any unit.", "quantifier": "all trees of series and parallel modules of equivalent-circuit or single-particle cells, all states, currents, voltage limits, time limits, steps and recording intervals", "why_tests_cant": "A test that returns shows that one combination of adaptive step count, limits and equalisation ends; that no combination loops forever or leaves an array needs an argument over all iterations", "anchors": ["src/procedures/Cycler.cpp:Cycler::CC", "src/procedures/Cycler.cpp:Cycler::rest", "src/procedures/Cycler.cpp:Cycler::CCCV_with_tlim", "src/procedures/Cycler.cpp:Cycler::testCapacity", "src/modules/Module_s.cpp:Module_s::setCurrent", "src/modules/Module_p.cpp:Module_p::setCurrent", "src/modules/Module_p.cpp:Module_p::timeStep_CC"]}
{"id": "C158", "title": "Rearranging the cells of a string changes nothing at its terminals", "statement": "Two series modules made of the same cells - each with its own contact - in different order, all carrying one current, report the same voltage, current, open-circuit voltage, capacity, resistance, limits, extreme cell voltages and worst status. They accept the same currents. After any history of accepted calls they again hold the same cells in the same states and still cannot be told apart, and a cycler that does not check individual cells ends its constant-current and rest phases on both with the same status, time, charge, energy and matching records.", "quantifier": "all series modules of up to 100 well-behaved cells, all permutations of their children, all histories of calls, all currents, limits, steps and recording intervals", "why_tests_cant": "A test compares one string with one rearrangement; a loop that treats the first or last child specially shows up only for particular positions of an odd cell, and there are N! orders", "anchors": ["src/modules/Module_s.cpp:Module_s::setCurrent", "src/modules/Module_s.cpp:Module_s::V", "src/modules/Module_s.cpp:Module_s::getOCV", "src/modules/Module_s.cpp:Module_s::getRtot", "src/modules/Module_s.cpp:Module_s::timeStep_CC", "src/modules/Module.cpp:Module::checkVoltage", "src/procedures/Cycler.cpp:Cycler::CC", "src/procedures/Cycler.cpp:Cycler::rest"]}
{"id": "C159", "title": "A phase can be interrupted", "statement": "A constant-current phase or a rest that lasts its full time gives the unit the current and then takes it through as many full time steps as fit into that time and one shorter step for the remainder, however many steps the cycler makes at once. Therefore a phase of some number of steps followed by a phase of duration T leaves the unit in the same state, with the same reported time and charge, as one phase of the total duration.", "quantifier": "all equivalent-circuit and single-particle cells and (nested) strings of up to 100 of them, all states, currents, limits, steps, durations, points of interruption and recording intervals", "why_tests_cant": "The number of steps made at once adapts to voltages and remaining time; a test with one duration cannot see a step lost or repeated at another point of interruption", "anchors": ["src/procedures/Cycler.cpp:Cycler::CC", "src/procedures/Cycler.cpp:Cycler::rest", "src/procedures/Cycler.cpp:Cycler::setCurrent", "src/modules/Module_s.cpp:Module_s::timeStep_CC", "src/cells/Cell_ECM/Cell_ECM.hpp:Cell_ECM::timeStep_CC"]}
{"id": "C160", "title": "Warmer surroundings and more heat make nothing colder", "statement": "Take two packs of the same build, the second of which is nowhere colder, in which nowhere less heat has been generated, whose air conditioning removes nowhere more, and whose neighbours are nowhere colder. After an update of the thermal model by the same interval, no cell and no coolant of the second pack is colder than its counterpart in the first. The same holds for two batteries when the converter of the second loses at least as much.", "quantifier": "all pairs of trees of modules, cells and bodies at fixed temperature of the same build, all temperatures, amounts of heat, areas, heat capacities, conductances, neighbours and intervals", "why_tests_cant": "A comparison between two runs for real-valued parameters and arbitrary trees; a test sees single temperatures of single packs", "anchors": ["src/cells/Cell_SPM/Cell_SPM_thermal.cpp:Cell_SPM::thermalModel_coupled", "src/modules/Module.cpp:Module::thermalModel_coupled", "src/system/Battery.cpp:Battery::thermalModel", "src/cooling/CoolSystem_HVAC.cpp:CoolSystem_HVAC::dstate"]}
{"id": "C161", "title": "Temperatures only even out", "statement": "In a pack without neighbours, heat sources and active cooling an update of the thermal model never decreases the entropy (the sum of heat capacity times logarithm of temperature over all cells and coolants) and never increases the weighted sum of squared distances of the temperatures from any reference temperature; with neighbours it changes such a sum, for any convex function of the temperature, at most by what the neighbours bring in. The same holds over any history of such updates of a pack that is left alone.", "quantifier": "all trees of modules, cells and bodies at fixed temperature, all temperatures, areas, heat capacities, conductances, neighbours, intervals, sequences of intervals and convex functions", "why_tests_cant": "The second law for arbitrary trees and real-valued parameters; a test sees single temperatures of single packs", "anchors": ["src/cells/Cell_SPM/Cell_SPM_thermal.cpp:Cell_SPM::thermalModel_coupled", "src/modules/Module.cpp:Module::thermalModel_coupled"]}
{"id": "C162", "title": "Every call on a pack has a defined result", "statement": "Setting a current, taking time steps and writing states that were read from a pack of the same build either return or throw, whatever calls were made before: no sequence of calls leads to undefined behaviour (reading past the states that were given, failed assertions, writing beyond a fixed array), even if the states are refused.", "quantifier": "all trees of series and parallel modules of equivalent-circuit cells with at most 100 units in each module, all parameters and states, all sequences of calls with all arguments, all states of packs of the same build whose modules are at least at 0 °C", "why_tests_cant": "Undefined behaviour depends on the shape of the pack, the child at which states are refused and everything done before; a test that happens to read harmless memory passes", "anchors": ["src/modules/Module.cpp:Module::setStates", "src/modules/Module_s.cpp:Module_s::setCurrent", "src/modules/Module_p.cpp:Module_p::setCurrent", "src/modules/Module_s.cpp:Module_s::timeStep_CC", "src/modules/Module_p.cpp:Module_p::timeStep_CC"]}
{"id": "C163", "title": "Saved numbers come back", "statement": "A program that hands spans of its variables to a state storage gets, when it restores, into each variable the value it had when it was last handed over, however the spans overlap and whatever was changed, cleared or restored in between; variables that were not handed over are not touched, and no read leaves the storage.", "quantifier": "all sequences of handing over spans of any address and length, changing variables, clearing and restoring, all initial values", "why_tests_cant": "Overlapping and repeated spans in arbitrary orders; a test saves one array once", "anchors": ["src/types/data_storage/StateStorage.hpp:StateStorage"]}
{"id": "C164", "title": "Views show what they cover", "statement": "Each view that a vector of arrays hands out shows the elements that were appended with it, also after more has been appended; an interval over a container visits each of its elements, and one with explicit bounds visits exactly the elements inside; this holds for empty containers too.", "quantifier": "all sequences of arrays appended, all growth policies of the buffer, all containers and bounds", "why_tests_cant": "A view into a buffer that has moved often still shows the old values, so that a test passes by luck", "anchors": ["src/types/ArrayVec.hpp:ArrayVec", "src/types/Interval.hpp:Interval", "src/types/PtrInterval.hpp:PtrInterval"]}
{"id": "C165", "title": "A pack that is left alone gets one temperature", "statement": "In a pack of cells and modules that all touch their coolant, without neighbours, heat sources and active cooling, the temperatures of all cells and coolants tend, as the thermal model is updated again and again, to one common temperature: the thermal energy divided by the total heat capacity. If all temperatures are within the limits at first, no update fails. The same holds for a battery around such a pack while its converter has no losses. The weighted sum of squared distances from the common temperature shrinks by a fixed factor in each update.", "quantifier": "all trees of modules and cells of any depth with positive contact areas, all initial temperatures, heat capacities, conductances and intervals, in the limit of infinitely many updates", "why_tests_cant": "A limit: no finite run shows that temperatures do not stop short of each other or keep oscillating", "anchors": ["src/cells/Cell_SPM/Cell_SPM_thermal.cpp:Cell_SPM::thermalModel_coupled", "src/modules/Module.cpp:Module::thermalModel_coupled", "src/system/Battery.cpp:Battery::thermalModel"]}
{"id": "C166", "title": "Heat that is not taken away ends the run", "statement": "If in every interval at least a fixed amount of heat is generated in the cells and contacts of a pack beyond what the air conditioning removes, the updates of the thermal model can succeed only a bounded number of times: the number of updates times that amount is at most the heat it takes to bring every cell to its highest allowed temperature and every coolant to 75 degrees. In particular no such run goes on for ever - the simulation reports a temperature out of range instead of going on with impossible temperatures. The same holds for a battery, with the losses of its converter counted as heat and its own air conditioning taken into account.", "quantifier": "all trees of modules, cells and bodies at fixed temperature with non-negative areas and heat capacities, all temperatures and conductances, all sequences of intervals and of amounts of heat in each body, with the clocks of the cells showing the interval", "why_tests_cant": "A bound on all runs of any length; a test can only show that one pack overheats at some point", "anchors": ["src/cells/Cell_SPM/Cell_SPM_thermal.cpp:Cell_SPM::thermalModel_coupled", "src/modules/Module.cpp:Module::thermalModel_coupled", "src/cooling/CoolSystem.cpp:CoolSystem::setT", "src/cooling/CoolSystem.cpp:CoolSystem::dstate", "src/system/Battery.cpp:Battery::thermalModel"]}
