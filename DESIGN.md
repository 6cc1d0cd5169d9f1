# Formal model of ros_control: design

Source under study: `/repo` (ros-controls/ros_control, C++ with Python tools). The code is
only read, never built or run. All models and proofs are Lean 4 (4.33.0), in `/verif/lean`.

## Trusted base

* Lean's kernel, and the three standard axioms `propext`, `Classical.choice`, `Quot.sound`
  (no theorem uses any other axiom; `sorry`, `admit`, `native_decide`, `bv_decide`,
  `implemented_by`, `unsafe` are not used).
* The reading of the C++/Python text. Every model definition cites file and lines; each
  simplification is stated in the comment of the definition which makes it.
* The C++ memory model is replaced by sequential consistency at the granularity that the
  model in question names (whole calls in `Manager`, single shared-variable accesses in
  `DoubleBuffer` and `SwitchRace`).
* `double` is replaced by an ordered field with exact arithmetic (a NaN constructor is
  added where the property is about NaN), except in the theorems whose name contains `double`
  (C39, C40, C42-C44) and those of C98, C103 and C106, which are about IEEE 754 arithmetic as `Verif.Model.Double` defines it.
  Statements that only use the order of doubles are marked as independent of rounding.
* The order of rospy's shutdown (the functions given to `on_shutdown` run before `is_shutdown()` becomes true, in another
  thread than the main one for `rosnode kill`) in `SpawnerLife` (C105).
* `std::map`/`std::set` are association lists / lists with the observable behaviour of the
  container (sorted iteration, unique keys).
* User code (controller callbacks, `init`, hardware virtual functions, plugin loaders, the
  parameter server, clocks) is an arbitrary parameter ("oracle") of each step, hence
  universally quantified in every theorem. Exceptions thrown by user code
  are modelled for loading, for updates and switches in `Exceptions` (C97) and for combined hardwares in
  `CombinedExceptions` (C101); elsewhere user code does not throw.

## Layout

* `Verif/Model/*`  definitions that transcribe code, with citations.
* `Verif/Spec/*`   small specifications, independent of the model helpers.
* `Verif/Lemmas/*` helper lemmas.
* `Verif/Examples/*` concrete histories used by the examples beside the theorems.
* `Verif/Props/*`  the property theorems, each next to an `example` showing that its
  hypotheses are met by a concrete non-trivial case.
* `Verif/Tests/*`  the assertions of the repository's own tests, run against the model. They are tests of the
  model, not proofs of a property; where a test and the code disagree the model sides with the code.

## Models

| Model | Code | What is not modelled |
|---|---|---|
| `ControllerBase` | controller_base.h 48-256 | message logging, `ros::Time` arguments of callbacks |
| `Claims`/`ResourceManager` | resource_manager.h, hardware_resource_manager.h, hardware_interface.h | handle contents beyond identity |
| `ControllerInit` | controller.h 96-131, multi_interface_controller.h 245-282, robothw_interfaces.h | C++ template argument lists become a list of interface type names |
| `InterfaceManager` | interface_manager.h 60-330 | `dynamic_cast`/demangling: types are names; destruction order |
| `RobotHW` | robot_hw.h 113-181 | log output of checkForConflict |
| `Manager` | controller_manager.cpp 45-840 | ROS transport; update is one atomic step here |
| `Plugins` | controller_loader.h, controller_manager.cpp 284-301, 642-719, 837-840 | pluginlib; `registerControllerLoader` happens between two operations |
| `Threads` | controller_manager.cpp 92-113, 229-692, 721-835 as called by several threads with `services_lock_` and `controllers_lock_` | steps are the pieces between two lock operations or two looks at what the realtime thread writes; a step is atomic; the order in which waiting threads get a lock is arbitrary; updates are atomic (their interleaving with one service is C90, with threads `ThreadsInterleaved`) |
| `Shutdown` | controller_manager.cpp 238-245, 352-359, 376-383, 419-426, 616-638 after `ros::ok()` became false | a single caller at a time; `ros::ok()` stays false |
| `Exceptions` | controller_manager.cpp 66-90, 115-227, 436-610, 642-668 left by an exception of user code; controller_base.h 137-213 | updates left by an exception are not interleaved with service calls; ROS is up |
| `DoubleBuffer` | controller_manager.cpp 66-90, 229-433 list handling | what controllers do; only list accesses |
| `SwitchRace` | controller_manager.cpp 66-90, 436-639 | finer interleaving of a switch with update |
| `Interleaved` | controller_manager.cpp 66-90, 115-227 | update cut into single requests; the operations of the service thread are not cut; accesses are sequentially consistent |
| `ThreadsInterleaved` | controller_manager.cpp 66-227, 229-692, 721-835: the threads of `Threads` and the interrupted update of `Interleaved` together | those of the two models |
| `RobotCycle` | transmission_interface/mainpage.dox 84-209, joint_limits_interface/mainpage.dox 94-139, dummy_app.cpp 46-53 | the robot the documentation tells to write; variables hold numbers (a NaN left by the limits would halt the cycle; proved not to occur); sensor values and the controllers' commands are inputs |
| `RobotCycleDouble` | the same robot with doubles: variables may hold NaN and infinities | as `RobotCycle`, `TransmissionDouble` and `Double` |
| `CombinedHW` | combined_robot_hw.cpp 33-247 | pluginlib, XmlRpc parsing details |
| `CombinedExceptions` | combined_robot_hw.cpp 56-90, 179-196 left by an exception of a sub-hardware | the updates between two attempts |
| `Spawner` | scripts/spawner 74-218: options, service names, the waits, the requests | times are integers; requests are answered at once; the effects of the requests (`Clients`); log messages |
| `SpawnerLife` | scripts/spawner as a whole: main thread, shutdown function 52-72 and the manager, from the start to the end | a request is served as a whole; the order in which rospy calls the shutdown functions and sets its flag is written out in the header; a shutdown function that is registered too late is one step |
| `Reports` | what controller_manager_interface.py 7-111, scripts/controller_manager 32-72, scripts/controller_group 41-133 print and scripts/spawner 67-70 logs | lines are represented by what they say, `Line.text` is the text; the argument parser of controller_group is not modelled; the types printed by `list-types` are those of C49 |
| `JointLimits` | joint_limits_interface.h 54-600 | arithmetic is a parameter: exact, or that of `Double` |
| `Double` | the arithmetic of `double` (IEEE 754 binary64, round to nearest, overflow, infinities, NaN) | the sign of zero; how ties are rounded is left open |
| `LimitsInterface` | joint_limits_interface.h constructors, `JointLimitsInterface`, `reset` | default constructed handles; null pointers (rejected by joint handles) |
| `Handles` | joint_state_interface.h, actuator_state_interface.h, *_command_interface.h, joint_mode_interface.h | sensor handles (force-torque, IMU) return raw pointers and check nothing |
| `System` | the manager with `initRequest` on the robot's interfaces and the handles each controller holds | controllers keep only handles looked up in `init`; the robot registers its interfaces before controllers are loaded |
| `LimitsConfig` | joint_limits_rosparam.h, joint_limits_urdf.h | parameter server transport |
| `Transmission` | simple/differential/four_bar_linkage_transmission.h, transmission_interface.h | arithmetic is a parameter: a field, or that of `TransmissionDouble`; pointers to dead memory |
| `TransmissionDouble` | division, and the operations of `Double` with NaN, for the maps of `Transmission` | the sign of zero (the sign of a quotient by zero is left open); contraction of a product and a sum to one operation; excess precision |
| `TransmissionParser`, `TransmissionLoader` | transmission_parser.cpp, *_loader.cpp, *_provider.cpp | TinyXML parsing of text into element trees |
| `ToolsUtils` | controller_manager_msgs utils.py | rospy transport; `rosparam.list_params`, `rosservice` and Python string methods are written out from their documentation |
| `Clients` | scripts/spawner, unspawner, controller_group, controller_manager_interface.py | argparse, rospy transport |
| `CommandLine` | scripts/controller_manager | output, argument parsing by `sys.argv` beyond the command word |
| `Gui` | rqt_controller_manager controller_manager.py, update_combo.py, the listers of utils.py | Qt painting and layout, the dialog with the claimed resources, saving settings; a Qt combo box emits `currentIndexChanged(str)` when and only when its index changes, and a persistent `rospy.ServiceProxy` keeps its connection and is never reconnected: both written out from their documentation |

### `Manager` in detail

State: the two controller lists, index of the current list, index used by the realtime
thread, a heap from controller object to lifecycle state, the request lists, the hardware
switch lists, the switch parameters, the position of the service thread (idle, waiting for a
switch, waiting for the realtime thread to release a list, unloading inside a reload), and
a trace of observable events (controller callbacks, hardware calls, call returns).
Operations: `load`, `unload`, `switch`, `reload`, `list`, `poll` (one iteration of whichever
wait loop the service thread is in) and `update`. A history is any finite list of
operations; operations which the service locks forbid at that moment are no-ops. Hardware
replies, clocks, parameter server, loaders and user init are carried by the operations.
`ros::ok()` is a pair of flags of `poll` (condition and body of the loop read it
separately); theorems which need "ROS is not shutting down" say so and there is a witness
for what happens otherwise.

## Properties and plan

Shape: I = invariant by induction over operations, R = refinement/functional spec,
D = decision logic, A = algebra, N = negation witness plus `_partial`.

| Id | Model | Plan |
|---|---|---|
| C01 | ControllerBase | I: trace invariant relating state and last callback |
| C02 | ControllerBase, ControllerInit | I over request sequences |
| C03 | ControllerBase | I/D |
| C04 | ControllerInit, Claims | R: claims after init = set of names successfully looked up by init, for any prior claims |
| C05 | Manager | I: running \ stop + start is part of a checked set; conflict-freeness is inherited |
| C06 | Manager | D + I: state after a rejected switch equals state before, except for parameters that make later updates inert |
| C07 | Manager | D: iff |
| C08 | Manager | R: equality of resulting states |
| C09 | Manager | D |
| C10 | Manager | R on update |
| C11 | Manager | I on traces |
| C12 | Manager | D on every update |
| C13 | Manager | N: aborted switch returns true; partial: true implies each requested controller was started or aborted with cause |
| C14 | Manager | N: wall-clock timeout then doSwitch; partial: no controller callback other than updates |
| C15 | Manager | I |
| C16 | Manager | R |
| C17 | Manager | R |
| C18 | Manager | I on all continuations |
| C19 | Manager | R on traces of update |
| C20 | Manager | R |
| C21 | Manager | D |
| C22 | Manager | D + I |
| C23 | Manager | I over the micro-steps of reload |
| C24 | Manager | D |
| C25 | DoubleBuffer | I over interleavings; N for the window of the very first update |
| C26 | DoubleBuffer | bounded response from every reachable state |
| C27 | RobotHW | D: iff with a counting spec, permutation invariance |
| C28 | RobotHW | D |
| C29 | ResourceManager | R to partial map |
| C30 | Claims | R |
| C31 | InterfaceManager | R; first `get` from a fresh cache |
| C32 | InterfaceManager | N: stale combination (four ways); partial: if registrations precede lookups, and while the registrations are further providers (I over histories: a combination of as many providers as there are is current) |
| C33 | CombinedHW | D: membership iff; `c33_only_owned`: in every history a sub-hardware is told only of its own resources |
| C34 | CombinedHW | D |
| C35 | CombinedHW | D |
| C36 | CombinedHW | N: default switchResult is inherited; partial: what does hold |
| C37 | CombinedHW | D |
| C38 | JointLimits | A over any linear order |
| C39 | JointLimits + Double | I over histories; `c39_double_partial` for doubles with rounding and overflow; `c39_any_start`: joints that are anywhere at the beginning; `c39_start_needed`: for all limits, what becomes of a joint far below its range |
| C40 | JointLimits + Double | I over histories; `c40_double_partial` for doubles with rounding and overflow; how far commands leave the hard limits, for every gain (`c40_excess_partial`), and that they do (`c40_reached_negation`); `c40_exactly_when_partial`: exactly when a command is below the hard limits, wherever the joint is |
| C41 | JointLimits | D |
| C42 | JointLimits + Double | D; `c42_double_partial` for doubles with rounding and overflow |
| C43 | JointLimits + Double | I over histories; `c43_double_partial` for doubles with rounding and overflow; `c43_any_history_partial`: histories with NaN commands; `c43_lasting_negation`: for all limits, how long one NaN command can do harm; `c43_forever_negation`: in doubles for ever |
| C44 | JointLimits + Double | D; `c44_double_partial` for doubles with rounding and overflow; `c44_exceeds_partial`: exactly when, and how far, the maximal velocity is exceeded; `c44_brakes`: exactly when the acceleration limit is |
| C45 | JointLimits | D |
| C46 | Transmission | A |
| C47 | Transmission | A for simple and differential, whichever way velocities and efforts are mapped (after either way the joint values belong to the actuator values, `mapped_run`); N for every four-bar linkage |
| C48 | Transmission | D |
| C49 | Transmission | iff for the data needed; N: incomplete data and torque sensor size not checked |
| C50 | TransmissionParser | I over elements |
| C51 | TransmissionLoader | N if data order differs from role order; partial |
| C52 | LimitsConfig | D; N for soft limits |
| C53 | ToolsUtils | induction over the loops; N for an empty list |
| C54 | Clients + Manager | N; partial |
| C55 | InterfaceManager | N: snapshot at registration; partial; `c55_sound`: in every history only names of resources that are there are listed |
| C56 | Manager | I; N when ROS shuts down while a call waits |
| C57 | SwitchRace | I over interleavings; N for a validation during a restart |
| C58 | SwitchRace | I over interleavings; N when the wall-clock limit is reached |
| C59 | SwitchRace | I over interleavings; N for concurrent direct calls; R: steps against whole updates (`c59_whole_update`), from which every waiting call is answered (`c59_answered`) |
| C60 | Manager | D on the wait loop, with the invariant that the timeout is that of the request |
| C61 | InterfaceManager | I: the maps stay maps |
| C62 | Transmission | A |
| C63 | Transmission | noninterference: each map reads and writes only its own cells |
| C64 | TransmissionLoader | I over loads; N for robots with their own joint state interface and for empty number elements |
| C65 | TransmissionLoader | I over loads: every handle has all the data its kind needs |
| C66 | TransmissionLoader | I over loads; N for own command interfaces and repeated names |
| C67 | TransmissionLoader | I over loads: raw data blocks are disjoint; N for shared joints |
| C68 | TransmissionLoader | D, induction over the list; N for robots with their own joint state interface |
| C69 | LimitsConfig | D; N for acceleration limits |
| C70 | ToolsUtils | induction over the loops |
| C71 | ToolsUtils | induction over the loop |
| C72 | ToolsUtils | D; N for repetitions, unusual names and stale guesses |
| C73 | Clients + Manager | refinement of the manager to a sequential specification on listings |
| C74 | Clients + Manager | via C73; N if another client interferes |
| C75 | Clients + Manager | via C73; N without force |
| C76 | Clients + Manager | via C73; N for the help text |
| C77 | Clients + Manager | via C73 |
| C78 | LimitsInterface | D; noninterference |
| C79 | LimitsInterface | R: each handle's history in the interface is its history alone; frame; N for handles fetched by name |
| C80 | Handles | D: every constructor and accessor by cases on the pointers; N for the state of command handles |
| C81 | Handles | I over sequences of calls: memory is the last store per variable |
| C82 | System | I over histories: handles held by a controller are among the claims in its info; for the seven joint command interfaces no exclusiveness is assumed (`c82_joint_commands`); N for interfaces with setters that do not claim |
| C83 | CommandLine + Manager | via C73, induction over the names |
| C84 | Gui | I over events: combo box, namespace and proxies agree |
| C85 | Gui | I over events; R of the table to the listing and the parameters |
| C86 | Gui + Manager | D; effects via C73; N for controllers that wait or were aborted |
| C87 | Gui | I over events; N for a manager that was restarted |
| C88 | Clients + Manager | via C73, induction over the names |
| C89 | Clients + Manager | measure: number of wait loops still to be left; a settled update makes the next iteration leave the loop |
| C90 | Interleaved + Manager | R: simulation of interleaved executions by executions with atomic updates (an update counts from when it publishes the list it uses, or when it finishes if it does a switch); N for an unload during a restart |
| C91 | RobotCycle + LimitsInterface + Transmission | I over cycles: closed form of a cycle, then the history of one limit handle; what the actuator commands amount to is defined by applying the transmission's actuator-to-joint map to them. Exact arithmetic, positive periods; every quantity has a variable of its own (`Wired`). N for a joint that starts below its range (the position limit handles then command a position outside it) |
| C92 | Manager | I over histories: an automaton per controller object (idle, running, destroyed) reads the callbacks in the trace and never gets stuck. N for BEST_EFFORT requests that start a running controller and for repeated names |
| C93 | Plugins + Manager | I over histories with registrations and reloads: names still to be unloaded by a reload are the loaded ones, and each object in either list was made by the present generation of a loader that declares its type; `c93_base_classes`: which loaders there are |
| C94 | Threads + Manager | R: simulation of threads by a single caller that makes the calls in the order in which they get the lock (I over histories); progress by a measure on the positions of threads; N for direct switches and for direct loads during a reload |
| C95 | Threads + Manager | infinite executions: "leads to" arguments over the positions of a thread (induction on the controllers a reload still has to unload); all calls return by induction on the set of busy threads. That finitely many calls are needed is shown by an execution that starves a thread |
| C96 | Shutdown + Manager + Interleaved | calls return by a measure (looks left); safety by the invariant of C01 with the loops ended at once; answers by an invariant on what waiting calls have done; N for a waiting switch, for the request a switch leaves, and for lists in use (interleaved model) |
| C97 | Exceptions + Interleaved + Manager | the invariant of C01 holds in the middle of an update (`Mid`), so it holds after an exception, apart from what it says about a finished switch; prefix by completing the update; what a failed switch or reload leaves behind, for all later switches (`c97_left_behind`, `c97_reload_left_behind`); N for callbacks made twice, for restarts and for `prepareSwitch` |
| C98 | Transmission + TransmissionDouble | calculus of error bounds: a relative error for each rounding in the normal range, ranges between powers of two so that nothing leaves it (`Val`, `Coef`), applied to each map and each round trip; N for exactness, for offsets and outside the range |
| C99 | Manager | N for the restart by one request; that every such request is refused without effect, and that two requests restart a controller, from the decision of a switch (C07) and the atomic switch (C10) |
| C100 | Manager + CombinedHW | I: the list built from the calls of `doSwitch` against the states of the controllers, `HvInv`; parts of a combined hardware by showing that removal by name commutes with the filter; N for timeouts and for errors |
| C101 | CombinedExceptions | the calls are a prefix of those of C35; induction over the attempts; N for `exactly once`; `c101_count`: exactly how often each sub-hardware is switched |
| C102 | Spawner | invariants over all histories (services found, last message, requests so far, why it gave up), ranks for progress and end; N for `waits indefinitely` and for the end while waiting |
| C103 | Transmission + TransmissionDouble | both properties are passed on by all operations (`Absorbing`), applied to each map |
| C104 | Reports + Clients + CommandLine | the program with output is the program without (`c104_same_program`, `c104_same_group`); truth of each line at the answer, kept by all later requests of the same command; completeness by induction over the requests; the output as a function of the listing (`c104_output_partial`, `c104_group_spawn_partial`, `c104_group_switch_partial`, missing: hardware that reports errors); `c104_reload_output`: the whole text written by a reload; `c104_list_text`, `c104_list_none`: the listing can be told from the text of `list` |
| C105 | SpawnerLife + Clients | invariants over all interleavings: what has been loaded so far is exactly what `Spawns` allows, all entries beyond the first ones are asked for; with C54 the listing is restored if the main thread makes no request after the shutdown function begins, which is always so when it spins; N for an end while loading, while starting, and for a late registration |
| C106 | RobotCycleDouble + LimitsInterface + TransmissionDouble | I over cycles as for C91, with the calculus of C98 for the way from the joint commands to the actuators and back (`near_close`), and the double theorems of C39-C44 for the handles; `c106_error_needed` shows that the error cannot be left out; `c106_halts`: periods that are not positive |
| C107 | ThreadsInterleaved + Threads + Interleaved | R: the relation of C90 between an interrupted and a completed update, with the invariant of C94 for the threads (`Link`, I over steps; an update is inserted where the interrupted one takes effect); calls, answers and progress are carried over from C90 and C94; N for direct switches |
| C108 | InterfaceManager | the cache holds only combinations of resource managers (I over histories), so that a lookup is a function of the tree (`IMan.get_alone`); I over the tree; N for a sub-manager that has several |
| C109 | TransmissionLoader + Transmission | C66 and C67 (connected and separate, I over loads) with C63 (each handle as if alone) and the maps of C46: the loaded handles are followed from the names in the description to the cells and back; N for an actuator in two transmissions |
| C110 | TransmissionLoader + Transmission | as C109, for the handles that the bidirectional providers add; which transmissions get handles of a kind is an I over loads (`loaded_asked`); there and back with the inverses of C46 |
| C111 | DescribedRobot (TransmissionLoader + LimitsConfig + LimitsInterface + RobotCycle) | the loader's invariant of C109 gives each limit handle the variables of its joint; induction over the cycles as in C91, with one limits interface per kind of command, and the inverses of C46 from the actuator commands back to the joints |
| C112 | WholeRobot (System + DescribedRobot) | a refinement: the run of the whole robot is a run of the manager with its controllers (C82) and, with what the controllers' calls made of the variables as commands, a run of the hardware of C111 (`run_refines`, by induction over the operations); C82's single writer is applied with joints as resources (`jointOf`), because the command variables of different joints are different by the loader's invariant (C109); the interfaces offered to controllers are invariant (`Offers`) |
| C113 | DescribedRobotDouble (DescribedRobot over `Flt A`) | the loader, the limits and the cycles are defined for any numbers; the theorems of C111's refinement are generic in the arithmetic (`Lawful`), and here the arithmetic is doubles (`double_lawful`); the handles by the double theorems of C39-C44 through `Hist` (shared with C106), and the transmissions by the error calculus of C98 (`sent64`, `within64`) |
| C114 | WholeRobot over `Flt A` (Setting.double) | C112's refinement (`run_refines`) is generic in the arithmetic; here it is taken with doubles, so that every run of the whole robot is a run of C113's hardware (`hardware_runs64`); that NaN is neither made nor removed by limits is C113's, that it stays is kept commands (`run_kept`) with it; absence of NaN is an induction over the cycles |
| C115 | BusyRobot (the loop of C112 with `update` as the steps of Interleaved, services at any moment) | An invariant of all runs (`BusyInv`): the manager is related to an uninterrupted one by C90's refinement (`Inter.Rel`, extended in BusyRefinement to services in the middle), the interfaces and handles are as C112's (`SysMid`), and the variables in the middle of a cycle are those read, overwritten by controllers at commands only; so each completed cycle is one of the hardware alone (`busy_refines`), which gives the limits by C111 and C113. What a step changes is read off the step that calls one controller (`rt_calls`); progress is the termination of `update` (`completes`). A cycle whose period the limits do not accept begins, and ends in `write` (`refused_run`, `refused_ends`). The conditions on services are C90's (`CarefulService`); `c115_unhurried` gives a simpler sufficient one. NaN (`c115_double_nan_source`, `c115_double_nan_stays`) by induction on the steps, from `c115_commands` and `c115_double_nan` |
| C116 | PartedRobot (the loop of C112 with a combined hardware of C111's robots; all variables in one memory, those of part `k` of `n` at the addresses that are `k` modulo `n`) | Induction over the parts (`readAll_ok`, `writeAll_ok`): reading and writing one part leaves the variables of the others alone; so a cycle is one of each part (`cycle_eq`) and a run is one of each part (`run_refines`), which gives the limits by C111 and C113. One commander by C82, with the names of the joints as what handles are for (`interfaces_apart`). `c116_init` ties the hardware to the model of `CombinedRobotHW::init`. Periods that are not positive (`c116_periods`) by an induction over the parts up to the one that does not accept the period (`writeAll_halts`). What controllers find (`c116_handles`, `c116_load`): an invariant over all service calls (`Offers`), by which the parts keep their interfaces and every cached combination has the handles of all parts, later ones first. The closed loop and everything C113 says of doubles (`Props/PartedRobotDouble.lean`) carry over to each part by the same refinement |
| C117 | BusyParted (the loop of C115 with the combined hardware of C116) | An invariant of all runs (`TeamInv`): as C115's for the manager, and the variables of every part in the middle of a cycle are those read, overwritten by controllers at commands of that part only; so each completed cycle is one of each part alone (`part_turn`, `team_run`), which gives the limits by C111 and C113. Progress, refused periods and the sufficient condition `c117_unhurried` as in C115, with the parts up to the one that does not accept the period written before it. NaN (`c117_nan_source`, `c117_nan_stays`) by induction on the steps: a step that does not call a controller leaves it as it is whether a command is NaN, by `c117_commands` and `c117_nan_iff` |
| C118 | System with the hardware of PartedRobot | I: an invariant of all histories (`Knows`): what a controller has claimed are the commands its handles are for, each of the last part that takes commands of the kind for a joint of the name; from what `get` finds in a combined hardware (`Offers`) and C04. What the parts are told by C100. N for joints of the same name in two parts (`c118_twins_negation`) |

## Disagreements between code and property

Each is proved as a theorem about the model (a concrete history), named here.

* C13: a switch all of whose controllers were aborted is answered with true
  (`c13_true_reply_negation`).
* C14: a switch answered with false because of the wall-clock timeout can still make the
  realtime thread call `doSwitch` later (`c14_false_reply_negation`).
* C25: the very first update can go through a list that a service call is filling, because
  the index in use is still -1 (`c25_race_during_first_update_negation`).
* C32: a combined interface is rebuilt only when the number of direct providers changes: it is stale after a handle was added to or an
  interface replaced in one of them, or an interface was added below one of them; and it shows handles that were registered on the
  combination itself (`c32_not_current_*`).
* C56: if ROS shuts down while a call waits for the realtime thread, the realtime thread may
  keep using a destroyed controller (`c56_dangling_during_shutdown`).
* C57: a request validated while an update with restart is between the stop and the start of a
  running controller ignores that controller; two running controllers can then claim the same
  joint (`c57_restart_race_negation`).
* C58: reaching the wall-clock limit clears the request vectors even if the realtime thread is
  going through them (`c58_give_up_negation`).
* C59: `switchController` resets the switch parameters before it takes the lock, so a second
  direct call makes the first return true without switching (`c59_concurrent_call_negation`).
* C90: a controller unloaded while an update has stopped it in order to restart it is started after
  that and destroyed while running, without having been stopped (`c90_restart_negation`).
* C91: a position limit handle with velocity limits of a joint measured below its range sends a
  position outside the range although the controller commands one inside (`c91_start_negation`;
  above the range the command is saturated: the code treats the two sides differently).
* C92: a BEST_EFFORT request to start a running controller starts it again; if the hardware is not ready,
  or reports an error, the running controller is set waiting or aborted without `stopping()`. A STRICT
  request naming a controller twice starts it twice (`c92_running_negation`).
* C94: `switchController` clears `switch_params_` (line 440) before it takes the lock (459). If two threads
  switch directly, a switch that the realtime thread is to do is lost although it is answered with true, or
  the hardware is not asked to switch. A direct load during a reload makes the assertion at 679 fail; if
  assertions are off the object outlives its library.
* C96: `while (ros::ok() && ...)` ends when ROS shuts down, and the function goes on as if the wait were over. A
  waiting switch returns true though nothing was switched (`c96_switch_negation`); `load` and `unload` clear the list
  the realtime thread goes through, and an unloaded controller is called after it was destroyed
  (`c96_list_negation`). A switch that notices the shutdown inside its loop returns false and leaves its request;
  an update then starts a controller that has been unloaded (`c96_stale_negation`).
* C98: with doubles a round trip does not restore the value exactly (reduction 49, velocity 1); with an offset small
  positions are lost. The constructors refuse reductions of zero, but the product of two reductions can underflow to zero,
  and then a four-bar linkage gives an infinite velocity, or NaN for a velocity of zero (`c98_range_negation`, `c98_nan_negation`); if it overflows
  the joint seems to stand still at all velocities (`c98_overflow_negation`).
* C99: a request that names a running controller both to stop and to start is refused, though `hwi_switch_test.cpp`
  345-354 and 433-442 expects a restart (`c99_restart_negation`).
* C100: a switch call that gives up waiting clears the requests but not the lists `doSwitch` is called with: the next
  update announces a switch to the hardware that does not take place (`c100_timeout_negation`). After an error the
  controllers that were announced as starting are aborted and never announced as stopping; later the hardware may have been
  told to run two controllers of the same joint (`c100_error_negation`).
* C101: if a later sub-hardware throws, the earlier ones are switched again by the next update (`c101_twice_negation`).
* C102: `--wait-for` without a time limit: line 170 compares a float with `None`, a `TypeError` in Python 3
  (`c102_crash`, `c102_crash_negation`). The handler of line 138 also catches the interrupt of a shutdown, and with
  simulated time and no clock the program begins to wait again (`c102_interrupt`, `c102_interrupt_negation`).
* C104: "Started ['a'] successfully" is printed though the hardware reported an error and the start was aborted
  (the manager answers true); "Controllers restored to original state" is printed whatever the answers were (line 42);
  the exit code of `controller_manager` is 0 whatever failed; the spawner logs "Succeeded in unloading" without looking
  at the answer (scripts/spawner 70).
* C105: `rosnode kill` while the spawner loads: the shutdown function unloads what is loaded, then the main thread loads
  the rest, which stays; the same while it starts: the controllers run on after the spawner has ended.
* C106: the limits hold for the joint command, and the actuator command is that command transmitted and rounded: it can
  amount to a velocity above the maximum by less than a unit in the last place (`c106_error_needed`). A NaN passes the
  limits and the transmissions to the hardware (`c106_nan_sent`).
* C107: the conditions exclude what C90 (resets), C59 (time limits) and C94 (direct switches) show to go wrong; with direct
  switches the first caller is told that its controller runs before it does (`c107_direct_negation`).
* C108: a sub-manager with several interfaces that cannot be combined answers null, and its parent takes that for none: the
  parent's own interface is returned as if it were the only one (`c108_only_if_alone_negation`), against
  interface_manager.h 162-182.
* C109: the loader accepts a description in which two transmissions name the same actuator; the actuator then gets the
  command of the one whose name is the last (`c109_shared_actuator_negation`). The transmission applies its numbers, which
  are ordered by role, to the joints and actuators in the order in which the description lists them (C51).
* C118: the combined hardware passes a controller on to every part that has a resource of the claimed name, but a controller that
  asks for a handle of that name is given the one of the last of these parts. The others are told of a controller that does not
  command them (`c118_twins_negation`).
* C97: `update` and `switchController` have no protection against exceptions. If `starting()` of the second controller throws,
  the next update starts the first one again while it is running; if `doSwitch` throws it is called again
  (`c97_twice_negation`). An exception between the two halves of a restart leaves the controller stopped for good, and the switch
  that started it is answered with true (`c97_restart_negation`). If `prepareSwitch` throws, the requests stay in `start_request_`
  and `stop_request_` ("This should not happen", line 443): the next switch starts those controllers as well, also if they have been
  unloaded meanwhile (`c97_prepare_negation`). A request that stops nothing and is refused clears them (`c97_recovery`).
* C33: a combined hardware decides ownership by the names copied when an interface was
  registered; a resource added to the interface later never reaches the hardware that owns it
  (`c33_late_resource_negation`).
* C36: `CombinedRobotHW` does not override `switchResult`, so it reports done at once
  (`c36_switch_result_negation`); the manager then starts controllers while a part is still
  switching or has failed (`c36_started_early_negation`).
* C55: the resource names are copied when the interface is registered
  (`c55_late_resource_negation`).
* C39, C41, C43: NaN commands pass through every limiter to the hardware (`c39_nan_negation`,
  `c41_nan_negation`); after a NaN command the velocity limiter with acceleration limits passes the
  next command unchanged (`c43_nan_negation`).
* C40: if gain times period exceeds one the soft position limiter writes commands outside the
  hard limits (`c40_hard_limits_negation`), but at most by (gain * period - 1) * (max - soft_max)
  below soft_max (`c40_excess_partial`), which is reached (`c40_reached_negation`).
* C41: the comparisons are strict, so exactly at a limit an outward effort is allowed
  (`c41_at_the_limit_negation`).
* C42: a NaN position or velocity switches the soft effort limiter off (`c42_nan_negation`).
* C43: after a NaN command the velocity saturation handle with acceleration limits passes the next command on
  (`c43_nan_negation`); if that one is far below `-max_velocity` the handle keeps exceeding the limit, whatever is commanded, until the
  maximal acceleration has brought the velocity back (`c43_lasting_negation`); in doubles, if the change allowed is lost in rounding, for ever
  (`c43_forever_negation`).
* C44: with acceleration limits and a measured velocity far below the limit, the soft velocity
  limiter exceeds the maximum velocity and moves outward at the lower side
  (`c44_acceleration_negation`).
* C46: if a joint value shares its cell with an actuator value the round trip fails
  (`c46_aliasing_negation`).
* C47: no four-bar linkage conserves power (`c47_no_four_bar_negation`), not even with all reductions one
  (`c47_four_bar_negation`).
* C48: a NaN reduction is accepted (the comparison with zero is false).
* C49: handles without velocity or effort data can be constructed and propagated as state handles,
  reading past the end of an empty vector (`c49_missing_negation`); the size of the torque sensor
  data of the actuators is never checked (`c49_torque_negation`).
* C62: a differential transmission told to ignore the reductions for absolute encoders gives the
  first joint the value of the second actuator and conversely (`c62_ignore_swaps`).
* C50: a document without a root element that TinyXML accepts makes the parser dereference a null
  pointer (`c50_no_root_negation`). A joint without a name attribute makes the whole transmission
  fail; a joint with an empty name or without hardware interface is left out silently (this is
  what `Elem.IsTransmission` and `TransInfo.From` say).
* C51: the parameters are sorted by role but the data pointers by the order of listing, so two
  descriptions differing in that order connect the actuators differently (`c51_negation`).
* C64: if the robot has a `JointStateInterface` of its own, every command transmission ends in an
  uncaught exception, because the joint state is looked up in the loader's interface
  (`c64_own_state_negation`). An empty number element makes the loader construct a string from a
  null pointer (`c64_null_text_negation`); with libstdc++ this throws `std::logic_error`, which
  `load` reports as a failure.
* C66: if the robot's own command interface already has the joint, the transmission loads but its
  handle reads the command from elsewhere (`c66_own_command_negation`). A second transmission with
  the same name keeps the state handle of the first (`c66_same_name_negation`).
* C67: two transmissions for the same joint both load and overwrite each other
  (`c67_shared_joint_negation`).
* C52: the soft limits are ignored without the undocumented parameter `has_soft_limits`
  (`c52_soft_flag_negation`), and a soft limit value that is no number is passed over though the
  result is true (`c52_soft_type_negation`).
* C69: loading URDF limits drops acceleration limits, though values not in the URDF are documented
  to stay (`c69_acceleration_negation`); so the order of loading matters (`c69_order`).
* C53: `filter_by_resources` with an empty list of resources reads an unassigned variable as soon as
  a controller has a claim (`c53_empty_negation`).
* C72: `get_controller_managers` returns a namespace twice if another of its services has a name
  starting with `list_controllers` (`c72_duplicate_negation`), misses managers in namespaces
  containing `/list_controllers` (`c72_missed_negation`), and keeps guessed namespaces that no longer
  offer the services (`c72_stale_negation`).
* C54: the shutdown of the spawner first asks, strictly, to stop all controllers it loaded. If one
  of them is no longer running, nothing is stopped, and those still running are not unloaded
  (`c54_cleanup_negation`). If it begins while a request to load is under way, the
  controller of that request stays loaded (`c54_interrupted_negation`).
* C74: the unspawner restarts all its controllers by one request; if one of them conflicts with a
  controller started meanwhile, none is restarted (`c74_restart_negation`).
* C75: `reload_libraries` with restore but without force calls `starting()` of running controllers
  (`c75_restart_negation`).
* C79: `getHandle` of a limits interface returns a copy, so `getHandle(n).reset()` compiles and has no
  effect on the joint (`c79_reset_handle_negation`).
* C80: command handles do not check the state handle they are made of; made of a default constructed
  one, their position cannot be read (`c80_empty_state_negation`).
* C82: `JointModeInterface` and the actuator command interfaces have setters but do not claim
  resources, so two running controllers may hold handles to the same variable
  (`c82_shared_writers_negation`). The theorems are for interfaces that claim.
* C76: `controller_group spawn` does not load the controllers of other groups, though its help text
  says so (`c76_help_negation`).
* C68: if the robot has a joint state interface of its own with one joint of a differential transmission in it,
  loading fails but adds the other joint to that interface (`c68_own_state_negation`).
* C86: the front end has no icon for controllers in the states `waiting` and `aborted`, so painting the table
  raises a `KeyError`, and their context menu is empty (`c86_state_negation`).
* C87: after a restart of the selected manager under the same name the proxies of the front end that were used
  before are dead, while the table goes on to be filled by the new process (`c87_restart_negation`).
