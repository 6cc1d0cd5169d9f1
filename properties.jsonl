{"id": "C01", "title": "update() runs only while started", "statement": "In every sequence of lifecycle requests on a controller, the user callback update() is invoked only when the most recent lifecycle callback of that controller is starting(); after stopping(), waiting() or aborting() it is not invoked again until the next starting().", "quantifier": "every finite sequence of init/update/start/stop/wait/abort requests on one controller, in any order", "why_tests_cant": "The request sequences are unbounded; a test fixes one sequence.", "anchors": ["controller_interface/include/controller_interface/controller_base.h: updateRequest, startRequest, stopRequest, waitRequest, abortRequest"]}
{"id": "C02", "title": "Uninitialised controllers are inert", "statement": "Until an initRequest has succeeded, every start/stop/wait/abort request returns false, no user callback is invoked and the controller keeps reporting none of initialized/running/stopped/waiting/aborted; after a successful initRequest every such request succeeds for ever and no further initRequest succeeds.", "quantifier": "every finite request sequence on one controller, every outcome of the user init functions", "why_tests_cant": "Concerns all histories and all outcomes of user code.", "anchors": ["controller_interface/include/controller_interface/controller_base.h: startRequest..abortRequest", "controller_interface/include/controller_interface/controller.h: initRequest", "controller_interface/include/controller_interface/multi_interface_controller.h: initRequest"]}
{"id": "C03", "title": "State predicates are exclusive and report the last transition", "statement": "At every point of every history at most one of isInitialized/isRunning/isStopped/isWaiting/isAborted holds, and it is the one that matches the last successful request (reset to no other state by failed requests).", "quantifier": "every finite request sequence on one controller", "why_tests_cant": "Unbounded histories.", "anchors": ["controller_interface/include/controller_interface/controller_base.h: isInitialized, isRunning, isStopped, isWaiting, isAborted"]}
{"id": "C04", "title": "Claimed resources are exactly what init asked for", "statement": "When a controller initialises successfully, the claimed resources reported for it are, per hardware interface it uses, exactly the names of the resources whose handles its init functions obtained from exclusive-access (claiming) interfaces: nothing left over from other controllers or from earlier failed initialisations, and nothing missing.", "quantifier": "every prior claim state of the hardware interfaces, every sequence of handle lookups made by the user init functions, successful or failing", "why_tests_cant": "Ranges over arbitrary user init code and arbitrary leftovers of earlier failed loads.", "anchors": ["controller_interface/include/controller_interface/controller.h: initRequest", "controller_interface/include/controller_interface/multi_interface_controller.h: initRequest", "hardware_interface/include/hardware_interface/internal/hardware_resource_manager.h: getHandle", "hardware_interface/include/hardware_interface/hardware_interface.h: claim, clearClaims, getClaims"]}
{"id": "C05", "title": "No two running controllers share a resource", "statement": "With the default conflict check, in every state reachable by any interleaving of load, unload, switch, list and realtime update calls, with any hardware answers (prepare refused, switch ongoing, error, timeout), the set of running controllers never claims the same resource twice.", "quantifier": "all finite interleavings of service calls and realtime updates, all hardware replies, all claim sets", "why_tests_cant": "Exponentially many histories and hardware reply patterns.", "anchors": ["controller_manager/src/controller_manager.cpp: switchController, manageSwitch, stopControllers, startControllers, startControllersAsap, unloadController", "hardware_interface/include/hardware_interface/robot_hw.h: checkForConflict"]}
{"id": "C06", "title": "A rejected switch has no effect", "statement": "If switchController refuses a request (unknown name or redundant start/stop under STRICT, contradictory request, resource conflict, hardware prepare refused), then no controller callback is made by the call, no controller changes state, no hardware doSwitch is ever made for it, and later realtime updates start or stop nothing because of it.", "quantifier": "every reachable manager state, every request, every hardware answer", "why_tests_cant": "Every reachable state and every request shape must be covered.", "anchors": ["controller_manager/src/controller_manager.cpp: switchController"]}
{"id": "C07", "title": "Exact acceptance rule of STRICT", "statement": "A STRICT switch reaches the realtime loop if and only if every named controller is loaded, every controller to stop is running, every controller to start is not running, no controller is in both lists, the resulting set of controllers has no resource conflict, and the hardware accepts prepareSwitch.", "quantifier": "every reachable manager state and every pair of name lists", "why_tests_cant": "An iff over all lists and states.", "anchors": ["controller_manager/src/controller_manager.cpp: switchController"]}
{"id": "C08", "title": "BEST_EFFORT ignores exactly the names it cannot find", "statement": "A BEST_EFFORT switch naming unknown controllers has the same result, same hardware calls and same resulting state as the request with the unknown names removed; strictness 0 is the same as BEST_EFFORT.", "quantifier": "every manager state and every pair of name lists", "why_tests_cant": "All lists, all states.", "anchors": ["controller_manager/src/controller_manager.cpp: switchController"]}
{"id": "C09", "title": "Hardware switch lists are exact and disjoint", "statement": "The start list given to the hardware's prepareSwitch/doSwitch contains exactly the requested loaded controllers that were not running, and the stop list exactly the requested loaded controllers that were running, each at most once, in load order; the two lists never share a controller.", "quantifier": "every accepted switch in every reachable state", "why_tests_cant": "All states and lists, incl. duplicated names in the request.", "anchors": ["controller_manager/src/controller_manager.cpp: switchController"]}
{"id": "C10", "title": "Atomic switch in one update", "statement": "If a switch that waits for all resources is accepted and the hardware reports it done in a given realtime update, then in that single update all controllers to stop are stopped before any controller to start is started, and after it the running set is exactly (previously running minus stopped) plus started.", "quantifier": "every reachable state, every accepted non-asap request, any number of waiting updates before completion", "why_tests_cant": "Unbounded waiting and arbitrary controller sets.", "anchors": ["controller_manager/src/controller_manager.cpp: update, manageSwitch, stopControllers, startControllers"]}
{"id": "C11", "title": "Hardware doSwitch exactly once and first", "statement": "For each accepted switch the hardware's doSwitch is called at most once, with the very lists that prepareSwitch approved, before any controller of that switch is stopped or started; when the call returns because the switch finished, it has been called exactly once.", "quantifier": "all interleavings, all hardware replies, any number of updates per switch", "why_tests_cant": "All histories.", "anchors": ["controller_manager/src/controller_manager.cpp: manageSwitch, switchController"]}
{"id": "C12", "title": "No abort without cause", "statement": "During a switch a controller is aborted only if the hardware reported an error for it or the configured positive timeout has strictly elapsed in ROS time since the switch was accepted; with timeout zero it is never aborted without a hardware error, it waits.", "quantifier": "all update times, timeouts, hardware replies, asap and non-asap", "why_tests_cant": "Continuous time and unbounded numbers of updates.", "anchors": ["controller_manager/src/controller_manager.cpp: startControllers, startControllersAsap"]}
{"id": "C13", "title": "A true reply means the requested controllers run", "statement": "When switchController returns true, every requested loaded controller to start is running and every one to stop is not (the documented meaning of ok).", "quantifier": "all accepted switches, all hardware replies and timings", "why_tests_cant": "All schedules and hardware answers.", "anchors": ["controller_manager/src/controller_manager.cpp: switchController, startControllers, startControllersAsap", "controller_manager_msgs/srv/SwitchController.srv"]}
{"id": "C14", "title": "A false reply means the switch does not happen later", "statement": "When switchController returns false, no later realtime update performs any part of that switch: neither controllers nor the hardware are switched.", "quantifier": "all schedules including the wall-clock timeout path", "why_tests_cant": "Depends on the interleaving of the timeout with the realtime thread.", "anchors": ["controller_manager/src/controller_manager.cpp: switchController (612-638), manageSwitch"]}
{"id": "C15", "title": "Loaded names stay unique", "statement": "In every reachable state the listed controllers have pairwise different names and pairwise different controller objects, and every listed controller has been initialised successfully (its listed state is never 'unknown').", "quantifier": "all histories of load/unload/switch/update/reload", "why_tests_cant": "All histories.", "anchors": ["controller_manager/src/controller_manager.cpp: loadController, unloadController, listControllersSrv"]}
{"id": "C16", "title": "Load is all-or-nothing", "statement": "A successful loadController appends exactly one controller in state initialized, with the configured type and its claimed resources, at the end of the list and leaves all others untouched; a failed one (duplicate name, missing type, unknown type, failing or throwing init) leaves the listing, all controller states and all later behaviour unchanged.", "quantifier": "every reachable state, name, parameter server content, loader set and init outcome", "why_tests_cant": "All states and all failure points, with the double buffer in every configuration.", "anchors": ["controller_manager/src/controller_manager.cpp: loadController"]}
{"id": "C17", "title": "Unload removes exactly one stopped controller", "statement": "unloadController succeeds iff a controller with that name is loaded and not running; then exactly this one disappears from the listing and the order and state of all others is unchanged; otherwise nothing changes.", "quantifier": "every reachable state and name", "why_tests_cant": "All states.", "anchors": ["controller_manager/src/controller_manager.cpp: unloadController"]}
{"id": "C18", "title": "An unloaded controller is never called again", "statement": "After unloadController has returned true for a controller, no realtime update or later request ever invokes any callback of that controller object.", "quantifier": "all continuations of every history", "why_tests_cant": "Unbounded continuations; requires an invariant on raw pointers held by the manager.", "anchors": ["controller_manager/src/controller_manager.cpp: unloadController, update, switchController (start_request_, stop_request_)"]}
{"id": "C19", "title": "Each update drives every running controller once, in load order", "statement": "A realtime update calls update() exactly once on each controller of the list that is running at that moment, in load order, and on no other; a controller started in this update is first updated in the next one.", "quantifier": "every reachable state", "why_tests_cant": "All states.", "anchors": ["controller_manager/src/controller_manager.cpp: update"]}
{"id": "C20", "title": "Reset restarts exactly the running controllers", "statement": "update with reset_controllers calls stopping then starting on each running controller before any update() and changes the state of no controller.", "quantifier": "every reachable state", "why_tests_cant": "All states.", "anchors": ["controller_manager/src/controller_manager.cpp: update"]}
{"id": "C21", "title": "Listing is truthful", "statement": "list_controllers returns one entry per loaded controller in load order with its name, type, per-interface claimed resources and the state that decides whether update() would call it; it changes nothing.", "quantifier": "every reachable state", "why_tests_cant": "All states.", "anchors": ["controller_manager/src/controller_manager.cpp: listControllersSrv", "controller_manager_msgs/msg/ControllerState.msg"]}
{"id": "C22", "title": "Lookup by name agrees with the listing", "statement": "getControllerByName returns a controller iff a controller with this name is listed, and it is the object that was created when this name was last loaded.", "quantifier": "every reachable state and name", "why_tests_cant": "All histories.", "anchors": ["controller_manager/src/controller_manager.cpp: getControllerByName"]}
{"id": "C23", "title": "Reload refuses or empties", "statement": "reload_controller_libraries without force_kill fails and changes nothing iff controllers are loaded; with force_kill, when it reports ok, no controller is loaded and every controller that was running received stopping() before it was destroyed.", "quantifier": "every reachable state, any schedule of realtime updates during the call", "why_tests_cant": "All states and schedules.", "anchors": ["controller_manager/src/controller_manager.cpp: reloadControllerLibrariesSrv"]}
{"id": "C24", "title": "Controller loaders are queried in registration order", "statement": "loadController instantiates the controller from the first registered loader that declares the type (and whose creation succeeds), regardless of later loaders.", "quantifier": "all loader lists and types", "why_tests_cant": "All loader lists.", "anchors": ["controller_manager/src/controller_manager.cpp: loadController, registerControllerLoader"]}
{"id": "C25", "title": "The realtime thread never reads a list that is being modified", "statement": "Under every interleaving of the realtime update's individual memory accesses with load and unload calls, the service thread never writes a controller list that the realtime thread is iterating, and the realtime thread only iterates lists that were completely built and published.", "quantifier": "all interleavings at the granularity of single shared-variable accesses, any number of load/unload/update calls", "why_tests_cant": "Data races depend on the schedule; testing samples schedules.", "anchors": ["controller_manager/src/controller_manager.cpp: update, loadController, unloadController", "controller_manager/include/controller_manager/controller_manager.h: controllers_lists_, current_controllers_list_, used_by_realtime_"]}
{"id": "C26", "title": "Load and unload terminate if the realtime loop runs", "statement": "Whenever a load or unload call waits for the realtime thread, it can complete after at most two further complete realtime updates, under every interleaving.", "quantifier": "all interleavings reachable", "why_tests_cant": "Liveness over all schedules.", "anchors": ["controller_manager/src/controller_manager.cpp: loadController, unloadController (wait loops)"]}
{"id": "C27", "title": "Conflict check is exact", "statement": "The default checkForConflict reports a conflict iff some resource name is claimed at least twice among all (controller, interface) claim entries; the result does not depend on the order of controllers or interfaces.", "quantifier": "all lists of controller infos", "why_tests_cant": "All finite claim configurations.", "anchors": ["hardware_interface/include/hardware_interface/robot_hw.h: checkForConflict"]}
{"id": "C28", "title": "Conflict-freeness is inherited", "statement": "Removing controllers or claims from a conflict-free set never creates a conflict, and adding a controller creates one iff it claims one resource twice itself or claims a resource of an existing one.", "quantifier": "all lists of controller infos", "why_tests_cant": "All finite configurations.", "anchors": ["hardware_interface/include/hardware_interface/robot_hw.h: checkForConflict"]}
{"id": "C29", "title": "Resource registry behaves as a map", "statement": "After any sequence of registerHandle calls, getHandle(name) returns the last handle registered under that name, throws iff there is none, and getNames lists exactly the registered names once, sorted.", "quantifier": "all registration sequences", "why_tests_cant": "All sequences.", "anchors": ["hardware_interface/include/hardware_interface/internal/resource_manager.h: registerHandle, getHandle, getNames"]}
{"id": "C30", "title": "Only successful lookups on exclusive interfaces claim", "statement": "getHandle adds the resource name to the claims iff the lookup succeeds and the interface is exclusive; a failed lookup and any lookup on a shared interface leave the claims unchanged; getClaims is the set of names looked up since the last clearClaims.", "quantifier": "all sequences of register/getHandle/clearClaims", "why_tests_cant": "All sequences.", "anchors": ["hardware_interface/include/hardware_interface/internal/hardware_resource_manager.h: getHandle, ClaimResources, DontClaimResources", "hardware_interface/include/hardware_interface/hardware_interface.h: claim, clearClaims, getClaims"]}
{"id": "C31", "title": "Interface lookup returns what was registered", "statement": "For a resource manager type T, get<T>() returns null iff no interface of type T is registered in the manager or any (transitively) registered sub-manager; with exactly one registration it is that object (also for other types, see C108); with several resource managers it is a combination offering exactly the union of their resources, later managers overriding earlier ones.", "quantifier": "all registration histories and manager trees", "why_tests_cant": "All histories.", "anchors": ["hardware_interface/include/hardware_interface/internal/interface_manager.h: registerInterface, registerInterfaceManager, get"]}
{"id": "C32", "title": "Combined interface stays current", "statement": "get<T>() on a combined manager always reflects the interfaces and handles currently registered, also after earlier get<T>() calls.", "quantifier": "all interleavings of registrations and get calls", "why_tests_cant": "Depends on history (caching).", "anchors": ["hardware_interface/include/hardware_interface/internal/interface_manager.h: get (interfaces_combo_, num_ifaces_registered_)"]}
{"id": "C33", "title": "Combined hardware splits claims exactly", "statement": "CombinedRobotHW hands each sub-hardware, for each controller and interface, exactly those claimed resources which that sub-hardware owns in that interface; every claimed resource owned by some sub-hardware reaches every such sub-hardware and no resource reaches a hardware not owning it.", "quantifier": "all controller lists, all numbers of sub-hardware and resource maps", "why_tests_cant": "All configurations.", "anchors": ["combined_robot_hw/src/combined_robot_hw.cpp: filterControllerList, prepareSwitch, doSwitch"]}
{"id": "C34", "title": "Combined prepareSwitch is a conjunction", "statement": "CombinedRobotHW::prepareSwitch returns true iff every sub-hardware accepts its filtered lists; sub-hardware is asked in order and none after the first refusal.", "quantifier": "all sub-hardware lists and replies", "why_tests_cant": "All replies.", "anchors": ["combined_robot_hw/src/combined_robot_hw.cpp: prepareSwitch"]}
{"id": "C35", "title": "Combined read/write/doSwitch reach every hardware once in order", "statement": "read, write and doSwitch are forwarded to each sub-hardware exactly once, in configuration order.", "quantifier": "all sub-hardware lists", "why_tests_cant": "All sizes.", "anchors": ["combined_robot_hw/src/combined_robot_hw.cpp: read, write, doSwitch"]}
{"id": "C36", "title": "Combined switchResult reflects its parts", "statement": "CombinedRobotHW reports a switch as done only when every sub-hardware involved reports done.", "quantifier": "all sub-hardware replies", "why_tests_cant": "All replies.", "anchors": ["combined_robot_hw/src/combined_robot_hw.cpp", "combined_robot_hw/include/combined_robot_hw/combined_robot_hw.h", "hardware_interface/include/hardware_interface/robot_hw.h: switchResult"]}
{"id": "C37", "title": "Combined init is all-or-nothing in its result", "statement": "CombinedRobotHW::init returns true iff every configured sub-hardware loads and initialises; it stops at the first failure and hardware loaded earlier stays registered.", "quantifier": "all configurations and failure points", "why_tests_cant": "All failure points.", "anchors": ["combined_robot_hw/src/combined_robot_hw.cpp: init, loadRobotHW"]}
{"id": "C38", "title": "Saturation clamps", "statement": "saturate(v, lo, hi) with lo<=hi lies in [lo,hi], is the nearest such value, equals v when v is inside, is idempotent and monotone.", "quantifier": "all values of a total order", "why_tests_cant": "Infinite domain.", "anchors": ["joint_limits_interface/include/joint_limits_interface/joint_limits_interface.h: internal::saturate"]}
{"id": "C39", "title": "Position saturation keeps position and velocity limits over any history", "statement": "If joint limits are consistent and the first enforced state lies within the position limits, then after any sequence of commands, periods and measured states, each enforced position command is within [min,max] and differs from the previous one by at most max_velocity*period.", "quantifier": "all command/period/measurement histories, all consistent limits", "why_tests_cant": "Unbounded histories over the reals.", "anchors": ["joint_limits_interface/include/joint_limits_interface/joint_limits_interface.h: PositionJointSaturationHandle::enforceLimits"]}
{"id": "C40", "title": "Position soft limits", "statement": "The soft position limiter never lets a command leave [min,max] hard limits when starting inside, changes commands by at most max velocity per period, and pulls back towards the soft range.", "quantifier": "all histories and gains", "why_tests_cant": "Unbounded histories over the reals.", "anchors": ["joint_limits_interface/include/joint_limits_interface/joint_limits_interface.h: PositionJointSoftLimitsHandle::enforceLimits"]}
{"id": "C41", "title": "Effort saturation", "statement": "The enforced effort command never exceeds max effort in magnitude; at or beyond a position limit it never pushes further outward; above the velocity limit it never accelerates further.", "quantifier": "all commands, measured states and consistent limits", "why_tests_cant": "Infinite domain.", "anchors": ["joint_limits_interface/include/joint_limits_interface/joint_limits_interface.h: EffortJointSaturationHandle::enforceLimits"]}
{"id": "C42", "title": "Effort soft limits", "statement": "The soft effort limiter keeps |effort| <= max effort and lets through unchanged any command within the bounds computed from the state.", "quantifier": "all commands, states, gains", "why_tests_cant": "Infinite domain.", "anchors": ["joint_limits_interface/include/joint_limits_interface/joint_limits_interface.h: EffortJointSoftLimitsHandle::enforceLimits"]}
{"id": "C43", "title": "Velocity saturation bounds velocity and acceleration over any history", "statement": "After any sequence of commands the enforced velocity command is within +-max velocity and, with acceleration limits, differs from the previous enforced command by at most max_acceleration*period.", "quantifier": "all histories", "why_tests_cant": "Unbounded histories over the reals.", "anchors": ["joint_limits_interface/include/joint_limits_interface/joint_limits_interface.h: VelocityJointSaturationHandle::enforceLimits"]}
{"id": "C44", "title": "Velocity soft limits", "statement": "The soft velocity limiter keeps |velocity| <= max velocity, and beyond the soft position limits does not command outward motion (with nonnegative gain).", "quantifier": "all histories", "why_tests_cant": "Infinite domain.", "anchors": ["joint_limits_interface/include/joint_limits_interface/joint_limits_interface.h: VelocityJointSoftLimitsHandle::enforceLimits"]}
{"id": "C45", "title": "enforceLimits is transparent inside the limits", "statement": "Each limiter returns a command unchanged if it already satisfies the bounds that apply in the current state, and applying a memoryless limiter twice equals applying it once.", "quantifier": "all states and commands", "why_tests_cant": "Infinite domain.", "anchors": ["joint_limits_interface/include/joint_limits_interface/joint_limits_interface.h"]}
{"id": "C46", "title": "Transmission position/velocity/effort round trips", "statement": "For every constructible simple, differential or four-bar transmission, mapping actuator data to joint data and back (and conversely) is the identity for position, velocity and effort.", "quantifier": "all nonzero reductions, offsets and values (exact arithmetic)", "why_tests_cant": "Infinite domain.", "anchors": ["transmission_interface/include/transmission_interface/simple_transmission.h", "transmission_interface/include/transmission_interface/differential_transmission.h", "transmission_interface/include/transmission_interface/four_bar_linkage_transmission.h"]}
{"id": "C47", "title": "Transmissions conserve power", "statement": "Mechanical power computed in actuator space equals that computed in joint space (effort times velocity summed) for every constructible transmission.", "quantifier": "all reductions and values (exact arithmetic)", "why_tests_cant": "Infinite domain.", "anchors": ["transmission_interface/include/transmission_interface/simple_transmission.h", "transmission_interface/include/transmission_interface/differential_transmission.h", "transmission_interface/include/transmission_interface/four_bar_linkage_transmission.h"]}
{"id": "C48", "title": "Singular transmissions cannot be constructed", "statement": "A transmission constructor succeeds iff its vectors have the right size and no reduction is zero.", "quantifier": "all argument vectors", "why_tests_cant": "Infinite domain.", "anchors": ["transmission_interface/include/transmission_interface/simple_transmission.h: ctor", "transmission_interface/include/transmission_interface/differential_transmission.h: ctor", "transmission_interface/include/transmission_interface/four_bar_linkage_transmission.h: ctor"]}
{"id": "C49", "title": "A constructed transmission handle never touches missing data", "statement": "If a TransmissionHandle is constructed without exception, then propagate never dereferences a null pointer or indexes out of range.", "quantifier": "all transmissions, all shapes of actuator and joint data", "why_tests_cant": "All data shapes.", "anchors": ["transmission_interface/include/transmission_interface/transmission_interface.h: TransmissionHandle, ActuatorToJointStateHandle"]}
{"id": "C50", "title": "Parsed transmissions are well-formed", "statement": "Every transmission returned by the URDF parser has a non-empty name, a type, at least one joint with at least one hardware interface, and at least one actuator; malformed transmissions are skipped without affecting others.", "quantifier": "all XML element trees", "why_tests_cant": "All documents.", "anchors": ["transmission_interface/src/transmission_parser.cpp: parse, parseJoints, parseActuators"]}
{"id": "C51", "title": "Transmission description order does not matter", "statement": "For transmissions whose joints and actuators carry roles, listing them in another order in the description yields the same mapping between named actuators and named joints.", "quantifier": "all two-actuator two-joint descriptions", "why_tests_cant": "All parameters and orders.", "anchors": ["transmission_interface/src/differential_transmission_loader.cpp: getActuatorConfig, getJointConfig", "transmission_interface/src/four_bar_linkage_transmission_loader.cpp", "transmission_interface/src/transmission_interface_loader.cpp: load"]}
{"id": "C52", "title": "Limits from parameters override only what is specified", "statement": "Loading joint limits from parameters changes exactly those limit groups that are completely specified or explicitly disabled, and leaves all others untouched.", "quantifier": "all parameter contents and prior limits", "why_tests_cant": "All combinations.", "anchors": ["joint_limits_interface/include/joint_limits_interface/joint_limits_rosparam.h: getJointLimits, getSoftJointLimits", "joint_limits_interface/include/joint_limits_interface/joint_limits_urdf.h"]}
{"id": "C53", "title": "Controller list filters", "statement": "filter_by_resources returns, in order, exactly the controllers with one claim entry (of the given interface, if given) containing all (or, with match_any, at least one) of the requested resources.", "quantifier": "all controller lists and resource lists", "why_tests_cant": "All lists.", "anchors": ["controller_manager_msgs/src/controller_manager_msgs/utils.py: filter_by_resources"]}
{"id": "C54", "title": "Spawner cleans up what it loaded", "statement": "When the spawner shuts down, all controllers it loaded are stopped and unloaded.", "quantifier": "all states the manager may be in at shutdown", "why_tests_cant": "All manager histories between start and shutdown.", "anchors": ["controller_manager/scripts/spawner: shutdown", "controller_manager/src/controller_manager.cpp"]}
{"id": "C55", "title": "Interface resource listing", "statement": "getInterfaceResources of a robot's registry returns exactly the names of the resources currently registered in the interface(s) of that type, and nothing for an unknown interface.", "quantifier": "all sequences of interface registrations, resource registrations and queries", "why_tests_cant": "Unbounded sequences.", "anchors": ["hardware_interface/include/hardware_interface/internal/interface_manager.h: getInterfaceResources, registerInterface"]}
{"id": "C56", "title": "No use of a freed controller object", "statement": "In every history of service calls and realtime updates during which ROS is up, the manager never calls, and the realtime thread never holds, a controller object that has been destroyed.", "quantifier": "all finite interleavings of service calls, iterations of their wait loops and realtime updates", "why_tests_cant": "A use-after-free shows only in particular interleavings.", "anchors": ["controller_manager/src/controller_manager.cpp: loadController, unloadController, update, manageSwitch"]}
{"id": "C57", "title": "Running controllers never conflict, step by step", "statement": "However the individual requests made by the realtime update and the steps of switch calls interleave, at no moment do the running controllers claim a resource twice.", "quantifier": "all interleavings of single controller requests and single steps of switch calls", "why_tests_cant": "The window between stop and start of one controller is too short for tests to hit.", "anchors": ["controller_manager/src/controller_manager.cpp: update, manageSwitch, switchController"]}
{"id": "C58", "title": "Request lists are not changed while in use", "statement": "No list of requested controllers is changed by a switch call while the realtime thread is going through it.", "quantifier": "all interleavings of single steps", "why_tests_cant": "A data race shows only in particular interleavings.", "anchors": ["controller_manager/src/controller_manager.cpp: manageSwitch, startControllers, switchController"]}
{"id": "C59", "title": "A true reply follows the switch, step by step", "statement": "When a switch call returns true, the realtime thread has triggered the hardware switch, and every requested controller it found has been started or aborted and every one to stop is not running.", "quantifier": "all interleavings of single steps", "why_tests_cant": "Needs a second call at one exact moment.", "anchors": ["controller_manager/src/controller_manager.cpp: switchController line 440, startControllers, startControllersAsap"]}
{"id": "C60", "title": "A switch call waits no longer than its timeout", "statement": "While a switch call with a timeout waits for the realtime thread, it answers at the first look at the clock later than a second after the timeout; it never gives up earlier, and never without a timeout.", "quantifier": "all states, requests, clock readings and updates in between", "why_tests_cant": "Needs control over the clock and over when updates happen.", "anchors": ["controller_manager/src/controller_manager.cpp: switchController wait loop"]}
{"id": "C61", "title": "Interface type listing", "statement": "getNames of an interface manager lists each interface type registered in it or in a nested manager exactly once, and no other.", "quantifier": "all sequences of registrations and lookups", "why_tests_cant": "Unbounded sequences.", "anchors": ["hardware_interface/include/hardware_interface/internal/interface_manager.h: getNames"]}
{"id": "C62", "title": "Position, velocity and sensor maps belong together", "statement": "Joint velocities are the rates of change of joint positions when actuator velocities are those of actuator positions; actuators at zero put the joints at their offsets; absolute positions are mapped like positions and torque sensors like efforts.", "quantifier": "all transmissions and values (exact arithmetic)", "why_tests_cant": "Infinite domain.", "anchors": ["transmission_interface/include/transmission_interface/simple_transmission.h", "transmission_interface/include/transmission_interface/differential_transmission.h", "transmission_interface/include/transmission_interface/four_bar_linkage_transmission.h"]}
{"id": "C63", "title": "Propagating an interface propagates each handle independently", "statement": "If no handle writes what another one uses, propagating a transmission interface has on the data of each handle exactly the effect of propagating that handle alone, in whatever order they are registered, and changes nothing else.", "quantifier": "all lists of handles, all kinds", "why_tests_cant": "All combinations of handles.", "anchors": ["transmission_interface/include/transmission_interface/transmission_interface.h: TransmissionInterface, handles"]}
{"id": "C64", "title": "Loading transmissions returns", "statement": "Loading any robot description returns true or false: it never ends in an uncaught exception, a failed assertion or undefined behaviour.", "quantifier": "all descriptions, all robots, all earlier loads", "why_tests_cant": "All descriptions and histories of loads.", "anchors": ["transmission_interface/src/transmission_interface_loader.cpp: load, loadTransmissionMaps, updateJointInterfaces", "transmission_interface/src/transmission_parser.cpp"]}
{"id": "C65", "title": "Loaded transmissions can be propagated", "statement": "Whatever has been loaded, propagating any of the loader's transmission interfaces never touches missing data; the transmissions the handles refer to are those constructed from the descriptions of their names, and are kept as long as the loader.", "quantifier": "all sequences of loads, all data", "why_tests_cant": "All sequences.", "anchors": ["transmission_interface/src/transmission_interface_loader.cpp: load, registerTransmission", "transmission_interface/include/transmission_interface/transmission_interface.h"]}
{"id": "C66", "title": "Loaded transmissions connect joints with actuators", "statement": "After a transmission has been loaded, the robot's joint interfaces offer its joints, and its handles connect exactly the data of the named actuators with the data controllers get for the named joints, for states and for each command interface for which the robot has actuator commands; this stays so when more transmissions are loaded.", "quantifier": "all robots, all sequences of loads, all transmissions", "why_tests_cant": "All sequences of loads.", "anchors": ["transmission_interface/src/transmission_interface_loader.cpp: loadTransmissionMaps, getJointStateData, getJointCommandData, getActuatorStateData, getActuatorCommandData, registerTransmission"]}
{"id": "C67", "title": "Joints of different transmissions are independent", "statement": "No two joints share memory, and no transmission handle that writes joint data writes data used by a handle of another transmission.", "quantifier": "all sequences of loads", "why_tests_cant": "All sequences of loads.", "anchors": ["transmission_interface/src/transmission_interface_loader.cpp: updateJointInterfaces, RawJointData"]}
{"id": "C68", "title": "Failed loads change nothing", "statement": "Loading a transmission succeeds exactly if it can be constructed, its joints list the same hardware interfaces and the robot offers the actuator data for at least one of them; otherwise nothing changes. Loading a list stops at the first failure and keeps the transmissions before it.", "quantifier": "all robots, transmissions, lists and earlier loads", "why_tests_cant": "All sequences of loads.", "anchors": ["transmission_interface/src/transmission_interface_loader.cpp: load"]}
{"id": "C69", "title": "Limits from the URDF", "statement": "Loading limits from a URDF joint that has limits takes its velocity and effort limits, and its position limits exactly if the joint is revolute or prismatic; values the URDF does not specify stay; all limit-enforcing handles can then be constructed.", "quantifier": "all URDF joints and prior limits", "why_tests_cant": "All combinations of joint types and prior limits.", "anchors": ["joint_limits_interface/include/joint_limits_interface/joint_limits_urdf.h: getJointLimits, getSoftJointLimits"]}
{"id": "C70", "title": "Filters by attribute and interface", "statement": "filter_by_name, filter_by_type and filter_by_state return, in order, exactly the controllers whose attribute equals (or, if asked for, contains) the given text; filter_by_hardware_interface those with a claim in such an interface, each once.", "quantifier": "all controller lists and texts", "why_tests_cant": "All lists and texts.", "anchors": ["controller_manager_msgs/src/controller_manager_msgs/utils.py: filter_by_name, filter_by_type, filter_by_state, filter_by_hardware_interface"]}
{"id": "C71", "title": "Search for controller configurations", "statement": "get_rosparam_controller_names never fails and returns, sorted and without repetition, exactly the names n without slashes for which the namespace has a parameter n/type, whether or not the namespace is given with slashes at its ends.", "quantifier": "all parameter servers and namespaces", "why_tests_cant": "All sets of parameter names.", "anchors": ["controller_manager_msgs/src/controller_manager_msgs/utils.py: get_rosparam_controller_names"]}
{"id": "C72", "title": "Search for controller managers", "statement": "get_controller_managers returns, sorted and without repetition, exactly the namespaces offering all services of a controller manager with the right types.", "quantifier": "all sets of services, service types and initial guesses", "why_tests_cant": "All sets of services.", "anchors": ["controller_manager_msgs/src/controller_manager_msgs/utils.py: get_controller_managers, is_controller_manager, ControllerManagerLister"]}
{"id": "C73", "title": "Services act one after the other on the listing", "statement": "Seen by clients, every load, unload, switch and reload acts on the list of controllers as a sequential specification says: the answer and the new listing depend only on the old listing, the request, and what the hardware reports; the control loop in between changes nothing else. Histories of calls compose, and without timeouts and hardware errors they are deterministic.", "quantifier": "all states and histories of calls, with any control cycles in between", "why_tests_cant": "All histories and interleavings.", "anchors": ["controller_manager/src/controller_manager.cpp: loadController, unloadController, switchController, listControllersSrv, reloadControllerLibrariesSrv"]}
{"id": "C74", "title": "Unspawner stops and restarts", "statement": "After a round of the unspawner none of its controllers is running and all others are as they were; when it ends it restarts those it stopped, if they conflict with nothing that is running.", "quantifier": "all managers and sets of controllers", "why_tests_cant": "All states of the manager.", "anchors": ["controller_manager/scripts/unspawner: main, restart"]}
{"id": "C75", "title": "Reload with restore", "statement": "After reload_libraries(force_kill=True, restore=True) the same controllers are listed with the same claims, and those that were running are running again; without force it fails if controllers are loaded, and changes no state.", "quantifier": "all managers", "why_tests_cant": "All states of the manager.", "anchors": ["controller_manager/src/controller_manager/controller_manager_interface.py: reload_libraries"]}
{"id": "C76", "title": "Controller groups", "statement": "After a successful switch to a group exactly the controllers of the group run, besides those in no group; a failed one starts and stops nothing, and fails only if a controller cannot be loaded, the hardware refuses, or the group conflicts with itself or controllers outside all groups. Spawning a group stops nothing and leaves all others as they are.", "quantifier": "all groups and managers", "why_tests_cant": "All group configurations and manager states.", "anchors": ["controller_manager/scripts/controller_group: _read_group, _spawn_group, _switch_group"]}
{"id": "C77", "title": "Starting and stopping by script", "statement": "start_stop_controllers returns True exactly when all controllers to start were loaded and not running, those to stop were running, and the result is free of conflicts and accepted by the hardware; then those stopped do not run, those started run (or all were aborted because of a hardware error), and the rest is unchanged; when it returns False nothing has changed.", "quantifier": "all managers and lists of controllers", "why_tests_cant": "All states of the manager.", "anchors": ["controller_manager/src/controller_manager/controller_manager_interface.py: start_stop_controllers"]}
{"id": "C78", "title": "Limit handles use only specified limits", "statement": "The constructor of a limit handle throws exactly if a limit the class needs is not specified (velocity for all but the position saturation and soft velocity handles, effort for the effort handles). A handle that could be made never uses the value of a limit that is not specified: limits that agree in what they specify give the same commands in every history. The limits asked for are needed: without them the command would depend on unspecified values.", "quantifier": "all limits, arithmetics, histories of enforcements and resets", "why_tests_cant": "All values of the unspecified fields.", "anchors": ["joint_limits_interface/include/joint_limits_interface/joint_limits_interface.h: constructors and enforceLimits of the six handle classes"]}
{"id": "C79", "title": "Enforcing an interface enforces each joint", "statement": "enforceLimits of an interface gives every registered joint the command its handle alone would give for what its variables contained before the call, and changes no other variable, if no other handle of the interface writes to the joint's variables. Over time the commands of a joint are those of its handle used alone with the same inputs, periods and resets, whatever else is registered. The call fails an assertion exactly if the period is not positive and a handle that asserts this is registered.", "quantifier": "all interfaces, joints, memory contents and histories", "why_tests_cant": "All sets of joints, aliasing patterns and histories.", "anchors": ["joint_limits_interface/include/joint_limits_interface/joint_limits_interface.h: JointLimitsInterface::enforceLimits, getHandle, reset"]}
{"id": "C80", "title": "Handles never dereference a null pointer", "statement": "Constructing a joint or actuator handle succeeds exactly if no pointer passed is null. A constructed handle then gives and sets each of its quantities without failing an assertion; absolute position and torque are given exactly if the handle was constructed with them, and asking for them otherwise throws; hasAbsolutePosition and hasTorqueSensor tell which.", "quantifier": "all pointers, all memory contents, all handle types", "why_tests_cant": "Tests try a few constructors and pointers; the claim is about every combination of null pointers for every constructor and accessor.", "anchors": ["hardware_interface/include/hardware_interface/joint_state_interface.h: JointStateHandle", "hardware_interface/include/hardware_interface/joint_command_interface.h: JointHandle", "hardware_interface/include/hardware_interface/posvel_command_interface.h: PosVelJointHandle", "hardware_interface/include/hardware_interface/posvelacc_command_interface.h: PosVelAccJointHandle", "hardware_interface/include/hardware_interface/position_velocity_torque_gains_command_interface.h: PosVelEffGainsJointHandle", "hardware_interface/include/hardware_interface/joint_mode_interface.h: JointModeHandle"]}
{"id": "C81", "title": "Commands are registers", "statement": "However many handles exist, whatever variables they share and in whatever order their setters are called, each variable contains the last value stored through any handle, all other variables are unchanged, and every handle to a variable reads that value.", "quantifier": "all sequences of setter calls on any handles", "why_tests_cant": "Tests set and read one handle; the claim is about all interleavings of all handles with any sharing.", "anchors": ["hardware_interface/include/hardware_interface/joint_command_interface.h: setCommand, getCommand", "hardware_interface/include/hardware_interface/posvel_command_interface.h: setCommand", "hardware_interface/include/hardware_interface/position_velocity_torque_gains_command_interface.h: setCommand"]}
{"id": "C82", "title": "A hardware variable has one writer at a time", "statement": "Two running controllers never hold handles through which the same variable of the hardware can be written. Whenever the manager calls a controller, no other controller that can write one of its variables is running: in a switch the old writer is stopped before the new one is started. While a controller is running only its own calls change its variables, and what it leaves there in an update does not depend on the other controllers.", "quantifier": "all robots with any tree of interfaces, all controller classes that look up handles through the interfaces given to init, all histories of service calls and updates, all behaviours of the controllers", "why_tests_cant": "Tests check a conflict between two mock controllers; the claim connects handle lookup, claims, the conflict check, the order of a switch and memory over all histories.", "anchors": ["controller_manager/src/controller_manager.cpp: loadController, switchController, update", "controller_interface/include/controller_interface/controller.h: initRequest", "controller_interface/include/controller_interface/multi_interface_controller.h: initRequest", "hardware_interface/include/hardware_interface/internal/hardware_resource_manager.h: getHandle", "hardware_interface/include/hardware_interface/internal/interface_manager.h: get", "hardware_interface/include/hardware_interface/robot_hw.h: checkForConflict"]}
{"id": "C83", "title": "Command line tool", "statement": "The command line tool works through the given names and goes on after failures: `kill` leaves none of them listed except running ones the hardware refuses to stop; `stop` and `unload` do just their part of this; `load` loads all that can be loaded; after `start` or `spawn` every named loaded controller runs unless the hardware refuses it or it conflicts with those running. Other controllers do not change. Unknown commands change nothing and exit with 1.", "quantifier": "All reachable managers, argument lists (also with repeated and unknown names), answers of hardware and loaders, background activity of the realtime loop.", "why_tests_cant": "The number of combinations of names, controller states, conflicts and refusals is unbounded, and the effect of each request depends on all earlier ones.", "anchors": ["controller_manager/scripts/controller_manager:32-72", "controller_manager/src/controller_manager/controller_manager_interface.py:58-111"]}
{"id": "C84", "title": "The graphical front end talks to the selected manager", "statement": "After each look for managers the combo box offers exactly the managers found, and the selection is kept if it is among them and dropped otherwise. Every request sent by the context menu goes to a running process that serves the manager selected when the menu was opened, and concerns the controller on whose row it was opened, even if the selection or the table would have to change meanwhile; if the manager disappears while the menu is open, nothing is sent.", "quantifier": "All sequences of timer events, choices by the user, restored settings and menu actions, in all ROS systems that change arbitrarily between events (services, parameters, processes, listings).", "why_tests_cant": "Tests of a front end replay a few clicks; the claim is about every interleaving of timers that fire while a menu is open with changes of the system.", "anchors": ["rqt_controller_manager/src/rqt_controller_manager/controller_manager.py:163-288", "rqt_controller_manager/src/rqt_controller_manager/update_combo.py:28-66", "controller_manager_msgs/src/controller_manager_msgs/utils.py"]}
{"id": "C85", "title": "The table of the front end is right", "statement": "After the timer, and at once after a manager is chosen, the table shows exactly the controllers the selected manager lists followed by those configured in the manager's parent namespace that it has not loaded, sorted by name; it is empty if no manager is selected. The manager saved in the settings is selected again if it is found. No timer, choice or restored setting raises an exception.", "quantifier": "All histories of the front end, all ROS systems (also with dead processes and with parameters of any names), all managers including those in the root namespace.", "why_tests_cant": "The system may change between any two events, so the states of the front end are unbounded; tests fix one system.", "anchors": ["rqt_controller_manager/src/rqt_controller_manager/controller_manager.py:145-239", "controller_manager_msgs/src/controller_manager_msgs/utils.py"]}
{"id": "C86", "title": "Every controller can be handled from the front end", "statement": "Every controller that a manager lists has an icon and a context menu with the requests that make sense in its state, and the menu does what it says: stop and unload remove a controller whatever its state is by the time it is served, unless the hardware refuses to stop it; load and start leave it running unless the hardware refuses or it conflicts; other controllers are not affected.", "quantifier": "All reachable managers, all controllers in all states, all answers of hardware and loaders, all background activity.", "why_tests_cant": "The states of a controller at the time a request is served depend on the whole history and on other clients.", "anchors": ["rqt_controller_manager/src/rqt_controller_manager/controller_manager.py:100-107", "rqt_controller_manager/src/rqt_controller_manager/controller_manager.py:241-347"]}
{"id": "C87", "title": "The front end survives restarts of a manager", "statement": "Whenever the services of the selected manager are advertised by a running process, a request chosen from the context menu reaches a running process, even if the manager was restarted since it was chosen.", "quantifier": "All histories of the front end and of the processes of the system.", "why_tests_cant": "A test would have to restart a manager between two particular requests; the claim is over all placements of restarts.", "anchors": ["rqt_controller_manager/src/rqt_controller_manager/controller_manager.py:166-208", "rqt_controller_manager/src/rqt_controller_manager/controller_manager.py:328-347"]}
{"id": "C88", "title": "The spawner loads and starts what it is asked for", "statement": "The spawner loads exactly those controllers it is asked for, by name or through YAML files, that can be loaded and are not loaded yet, once each and in the order given. With --stopped none is started; otherwise all of them run if the hardware agrees and there is no conflict among them or with running controllers, and none is started if not. Controllers that were there before do not change.", "quantifier": "All argument lists (with repetitions and files), all reachable managers, all answers of hardware and loaders, all background activity of the realtime loop.", "why_tests_cant": "Tests spawn a few controllers; the claim is over all lists, states and conflicts.", "anchors": ["controller_manager/scripts/spawner: main"]}
{"id": "C89", "title": "Every service call is answered", "statement": "A call of load, unload, switch or reload is answered, provided the realtime loop goes on and the hardware comes to a result (done or error): load, unload and switch within one realtime update, the reload within 2 + 2n updates for n loaded controllers. A switch with a timeout is answered without that, at the latest one second after the timeout. Without a timeout, a switch is not answered before the hardware comes to a result, and load and unload not before the next update. So spawner, unspawner, group script and command line tool run to their end.", "quantifier": "All reachable managers, calls, interleavings of updates and iterations of the wait loops.", "why_tests_cant": "A liveness property: it speaks of all infinite schedules, and the number of waits in a reload grows with the number of controllers.", "anchors": ["controller_manager/src/controller_manager.cpp:352-363", "controller_manager/src/controller_manager.cpp:419-432", "controller_manager/src/controller_manager.cpp:612-638", "controller_manager/src/controller_manager.cpp:642-692"]}
{"id": "C90", "title": "Service calls in the middle of an update", "statement": "Service operations may happen at any point inside a realtime update, between any two requests to controllers. Once one update has taken place, whenever the realtime thread is between updates the manager is in the state, and has shown the transitions of controllers and the answers to clients, of an execution with the same service operations in which no update was interrupted. At every moment, also inside an update, no destroyed controller is touched and the running controllers claim no resource twice. Each update calls update() exactly once on each controller that ran when it began, in load order, and on no other.", "quantifier": "All reachable managers, all interleavings of single steps of updates with service operations, all answers of hardware and loaders.", "why_tests_cant": "The interleavings are unbounded and depend on timing; a test sees one schedule.", "anchors": ["controller_manager/src/controller_manager.cpp:66-90", "controller_manager/src/controller_manager.cpp:115-227", "controller_manager/src/controller_manager.cpp:339-432", "controller_manager/src/controller_manager.cpp:436-692"]}
{"id": "C91", "title": "Joint limits hold at the actuators", "statement": "A robot that reads its actuators, propagates their state to the joints, lets controllers write commands, enforces the joint limits and propagates the commands to the actuators completes every cycle. Whatever the controllers command and the sensors report, what the actuator commands amount to at each joint, through its transmission, respects the limits of the joint: positions stay in range with steps of at most maximal velocity times period (if the joint is in range at first and at resets), velocities within the maximal velocity with steps bounded by the acceleration, efforts within the maximal effort and not pushing further beyond a limit (soft limits: unless the joint is moving back). Soft velocity limits do not command further out either (with acceleration limits, on the lower side: if the measured velocity is not beyond the bound). Joints without limits get what was commanded. With actuators that reach the commanded positions the measured joint positions stay in range for ever.", "quantifier": "All robots with any number of simple, differential and four-bar transmissions and any limits that make sense, all sequences of sensor values, commands, positive periods and resets (exact arithmetic, numbers only).", "why_tests_cant": "The claim composes the history-dependent limit handles with the transmissions over unboundedly many cycles and robots; a test runs one robot for some cycles.", "anchors": ["transmission_interface/mainpage.dox:84-209", "joint_limits_interface/mainpage.dox:94-139", "joint_limits_interface/include/joint_limits_interface/joint_limits_interface.h:79-530", "transmission_interface/include/transmission_interface/transmission_interface.h:150-420"]}
{"id": "C92", "title": "Starting and stopping alternate", "statement": "Each controller object lives through a sequence of runs: starting(), waiting() and aborting() are called only while it is not running, update() and stopping() only while it runs, so between two calls of starting() there is a call of stopping(); it is destroyed at most once, not while running, and no callback comes afterwards. At every moment the controller's state says what its callbacks say.", "quantifier": "All histories of service calls and updates, all answers of hardware and loaders, all controllers. Fails for BEST_EFFORT requests that start a running controller and for requests naming a controller twice.", "why_tests_cant": "The order of callbacks depends on unboundedly long histories of requests, reported hardware states and unloads.", "anchors": ["controller_manager/src/controller_manager.cpp:66-90", "controller_manager/src/controller_manager.cpp:115-227", "controller_manager/src/controller_manager.cpp:436-639", "controller_interface/include/controller_interface/controller_base.h:137-213"]}
{"id": "C93", "title": "Controller types and plugin libraries", "statement": "The list of controller types shows, for every registered loader in order, each class that it found, next to the loader's base class. If the loaders can create what they declare, a controller can be loaded exactly if its type is listed (given a new name, a usable parameter server and a successful init). The list changes only when a loader is registered, which adds its classes at the end, and when reload_controller_libraries answers true, after which every loader shows what it found anew. At that moment no controller is loaded and no controller object is left; at any time every controller object was created by a loader that has not been reloaded since, and the type of every listed controller is a listed type.", "quantifier": "All loaders and classes, all histories of registrations, service calls, updates and reloads while ROS is running, all answers of hardware and plugins.", "why_tests_cant": "That no object outlives its library depends on every path by which controllers enter and leave the two lists, over unboundedly many operations; a test reloads once with a few controllers.", "anchors": ["controller_manager/src/controller_manager.cpp:284-301", "controller_manager/src/controller_manager.cpp:642-719", "controller_manager/src/controller_manager.cpp:837-840", "controller_manager/include/controller_manager/controller_loader.h:47-78"]}
{"id": "C94", "title": "Calls from several threads", "statement": "Threads may call the controller manager at the same time, through its ROS services or directly. At most one thread is in a service and at most one waits for the realtime thread, and while it waits others change neither the list of controllers, nor their states, nor the requests. There is no deadlock: however calls have been started, all can come to an end. No thread uses a controller that is gone, names stay distinct and running controllers do not conflict. Everything observable (results, callbacks, calls of the hardware, the list of controllers) is as if one thread had made all calls one after the other, and libraries are reloaded only when no controller is loaded.", "quantifier": "All numbers of threads, all calls (load, unload, switch, names, reload), all interleavings of their steps with each other and with updates while ROS is running, all answers of hardware and plugins.", "why_tests_cant": "The outcome depends on where the scheduler interrupts a thread between the statements of a call; a test sees a handful of schedules and cannot force the few that go wrong.", "anchors": ["controller_manager/src/controller_manager.cpp:92-113", "controller_manager/src/controller_manager.cpp:229-692", "controller_manager/src/controller_manager.cpp:721-835", "controller_manager/include/controller_manager/controller_manager.h:104-156"]}
{"id": "C95", "title": "Calls from several threads come to an end", "statement": "Threads call the controller manager at the same time, and the realtime thread updates again and again with hardware that comes to a result. A thread that waits for the realtime thread stops waiting whatever other threads do. As long as a thread is busy with a call, some call returns later, so threads never block each other for good. If clients stop making calls, all calls return, each with its answer.", "quantifier": "All infinite executions in which ROS is running and every busy thread is scheduled again some time: all numbers of threads, calls, interleavings, results of the hardware; no fairness of the locks is assumed.", "why_tests_cant": "Termination is about infinite executions; a test that has returned says nothing about schedules it has not met, and one that hangs cannot be told from one that is slow.", "anchors": ["controller_manager/src/controller_manager.cpp:229-692", "controller_manager/src/controller_manager.cpp:721-835"]}
{"id": "C96", "title": "Shutting down", "statement": "When ROS shuts down while a service call is in progress, the call returns without needing another update: the loops in which calls wait for the realtime thread end. Nothing that the realtime thread still uses is destroyed, so the updates that follow are safe. A call that is answered with true has done what it was asked to: a load has added its controller, an unload has removed it, and a switch has been carried out.", "quantifier": "All reachable states in which ROS begins to shut down, wherever the call in progress notices it, and all histories of updates and further calls after that.", "why_tests_cant": "A shutdown takes place once per process at a moment a test cannot choose to the microsecond, and what goes wrong happens in a process that is about to end.", "anchors": ["controller_manager/src/controller_manager.cpp:238-245", "controller_manager/src/controller_manager.cpp:352-359", "controller_manager/src/controller_manager.cpp:376-383", "controller_manager/src/controller_manager.cpp:419-426", "controller_manager/src/controller_manager.cpp:616-638"]}
{"id": "C97", "title": "Exceptions thrown by user code", "statement": "If a callback of a controller or a function of the robot hardware throws an exception out of an update or a switch, and the caller catches it and goes on, the controller manager stays usable. No object is used after it was destroyed, names stay unique and running controllers do not conflict. What the update did before the exception is what it would have done anyway, and it does nothing after it. A pending switch is completed by a later update, no callback of it is made twice, and a switch answered with true has been done. A switch that failed with an exception has no effect on later switches.", "quantifier": "All histories of service calls and updates in which any call of user code by an update, or by the validation of a switch, throws.", "why_tests_cant": "Tests do not let user code throw in the middle of a switch, and the damage shows only in a later call.", "anchors": ["controller_manager/src/controller_manager.cpp:66-90", "controller_manager/src/controller_manager.cpp:115-227", "controller_manager/src/controller_manager.cpp:436-610", "controller_manager/src/controller_manager.cpp:642-668", "controller_interface/include/controller_interface/controller_base.h:137-213"]}
{"id": "C98", "title": "Transmissions are accurate in double precision", "statement": "As long as reductions, offsets and values are zero or between 2^-100 and 2^100 in absolute value, a transmission that computes with doubles gives finite numbers, and they differ from the exact result by at most 2^-49 times the sum of the absolute values of the terms the result is made of. Mapping positions, velocities or efforts from the actuators to the joints and back, or from the joints to the actuators and back, restores the values up to such an error. For velocities and efforts of a simple transmission the error of a round trip is at most 2^-49 of the value itself.", "quantifier": "All three transmissions, all quantities, all parameters and values in the range, and every way of rounding to nearest.", "why_tests_cant": "Tests compare with a tolerance for a few values; a result that loses its accuracy, overflows or becomes NaN for other values goes unnoticed.", "anchors": ["transmission_interface/include/transmission_interface/simple_transmission.h:185-270", "transmission_interface/include/transmission_interface/differential_transmission.h:238-381", "transmission_interface/include/transmission_interface/four_bar_linkage_transmission.h:224-355"]}
{"id": "C99", "title": "A request that names a running controller to stop and to start restarts it", "statement": "A STRICT switch request may name a running controller both among the controllers to stop and among those to start; if the resulting set of controllers has no conflict and the hardware agrees, the request is accepted, as the tests of the package demand. (The code refuses every such request at once; nothing changes then. A client can still restart a running controller by two requests, one that stops it and one that starts it: with the default check for conflicts both are accepted, and afterwards the same controllers run as before.)", "quantifier": "All histories of the manager, all requests, all strictness values, and all answers of the hardware.", "why_tests_cant": "One test asks for such a restart for one robot; it says nothing about other strictness values, other controllers in the request, or what is left behind by the refusal.", "anchors": ["controller_manager/src/controller_manager.cpp:446-640", "controller_manager/test/hwi_switch_test.cpp:345-354", "controller_manager/test/hwi_switch_test.cpp:433-442"]}
{"id": "C100", "title": "A robot hardware knows which controllers are active", "statement": "A robot hardware that keeps a list of active controllers from the calls of doSwitch alone (start lists are added, stop lists removed) regards exactly the running controllers as active whenever no switch is in progress, each with the claims it has, and never regards two controllers as active that claim the same resource. doSwitch starts only controllers that are not active and stops only active ones. The same holds for each part of a combined hardware and its part of the controllers. (This holds as long as no switch call gives up waiting and no switch ends with an error. After a timeout the hardware is still told about a switch that does not take place; after an error it is never told that the controllers were not started.)", "quantifier": "All histories of the manager: loads, unloads, switches, updates, all answers of the hardware, and all sub-hardwares.", "why_tests_cant": "The hardwares of the tests keep no list of controllers, or look at single calls; whether the calls add up to the right list depends on the whole history.", "anchors": ["controller_manager/src/controller_manager.cpp:115-227", "controller_manager/src/controller_manager.cpp:436-668", "hardware_interface/include/hardware_interface/robot_hw.h:148-166", "combined_robot_hw/src/combined_robot_hw.cpp:75-90"]}
{"id": "C101", "title": "Exceptions of one part of a combined hardware", "statement": "If a sub-hardware throws an exception in prepareSwitch, doSwitch, read or write of a combined hardware, the exception reaches the caller; the sub-hardwares before it in the list have been called, in order and with their shares, and those behind it are not called. A switch, which is tried again in every update until doSwitch returns, reaches every sub-hardware exactly once. (The sub-hardwares before the throwing one are in fact switched again at every attempt, always with the same lists; sub-hardwares behind one that always throws are never switched.)", "quantifier": "All combined hardwares, all lists of controllers, all sub-hardwares that throw, all numbers of attempts.", "why_tests_cant": "The tests use sub-hardwares that do not throw; which parts of the robot have been switched, read or written after a failure depends on the order and on the place of the failure.", "anchors": ["combined_robot_hw/src/combined_robot_hw.cpp:56-90", "combined_robot_hw/src/combined_robot_hw.cpp:179-247"]}
{"id": "C102", "title": "The spawner waits until it may load", "statement": "The spawner program asks for the services <namespace>/controller_manager/load_controller, unload_controller and switch_controller; it makes no difference whether the namespace is given with a slash at the end. It makes no request before all three services have been contacted and, with --wait-for, the last message on the topic was \"True\". Its requests are one load for each controller in the given order, then, unless --stopped was given, one switch that starts exactly the controllers whose load was successful. It gives up by itself only if there is a time limit and one of the services could not be contacted for that long; if the services are there in time (and \"True\" is heard) all requests are made after a bounded number of steps. With --no-timeout or --timeout 0 it waits indefinitely, and it ends when ROS is shut down. (With --wait-for and no limit it is ended by an exception when no message arrives at once; with simulated time and no clock it cannot be ended while it waits for a service.)", "quantifier": "All options, all histories of service availability, messages, shutdowns and times.", "why_tests_cant": "The scripts are tested with services that are there at once, without --wait-for, and without interruptions.", "anchors": ["controller_manager/scripts/spawner:74-218"]}
{"id": "C103", "title": "Transmissions pass on NaN and infinities", "statement": "If an actuator value is NaN or infinite, no joint value that depends on it is an ordinary number, and if it is NaN the joint values are NaN; the same from joints to actuators, and after a round trip. The first joint of a four-bar linkage does not depend on the second actuator, nor the first actuator on the second joint: their values are the same whatever the other value is. This holds for all parameters of the transmissions.", "quantifier": "All transmissions with all parameters, all values (NaN and infinities included), all quantities, both directions, all layouts of the memory.", "why_tests_cant": "The tests use ordinary numbers only; a faulty sensor or command must remain visible behind each transmission.", "anchors": ["transmission_interface/include/transmission_interface/simple_transmission.h:197-270", "transmission_interface/include/transmission_interface/differential_transmission.h:269-381", "transmission_interface/include/transmission_interface/four_bar_linkage_transmission.h:246-355"]}
{"id": "C104", "title": "What the command line tools report is true and complete", "statement": "A controller that `controller_manager` or `controller_group switch` reports as loaded is listed when the program ends, one reported as unloaded is not, one reported as started runs, one reported as stopped does not run, and `list` shows exactly the listing, with the names, states and claimed interfaces. What is printed, and the listing afterwards, are determined by the listing before and by what can be loaded, for `controller_group spawn` and `switch` up to the order of the members. The other way round, a controller that was loaded, unloaded, started or stopped by the program is reported, with one line for each request in the order of the arguments, and if only errors are printed the listing is as before. 'Error when loading' is printed only if a controller of that name is listed or what the manager meets does not let it be loaded, 'Error when unloading' only if the controller is not listed or runs. 'Successfully reloaded libraries' is printed exactly if nothing was loaded or everything could be unloaded; 'Controllers restored to original state' is true if it is printed, and the exit code is not 0 if something failed. What the spawner logs when it unloads its controllers is true.", "quantifier": "All commands and arguments (repeated names included), all reachable states of the manager, everything the manager meets when it loads a controller, all answers of the hardware, all interleavings with the realtime loop.", "why_tests_cant": "The test of the scripts compares the output of some twenty calls on one robot; that every line is true at the end of the program, after all later requests, and that no change is left out are statements about all sequences of requests.", "anchors": ["controller_manager/src/controller_manager/controller_manager_interface.py:7-111", "controller_manager/scripts/controller_manager:32-72", "controller_manager/scripts/controller_group:41-133", "controller_manager/scripts/spawner:67-70"]}
{"id": "C105", "title": "The spawner leaves nothing behind, whenever it is ended", "statement": "Whenever the spawner is ended, and by whatever signal, the manager lists the controllers that it had before the spawner began, in the same states; the controllers of others are never changed. If the spawner ends before it has registered its shutdown function, it has made no request at all.", "quantifier": "All options, all sets of controllers, all reachable states of the manager, all moments at which the program is ended and all interleavings of its main thread with the shutdown function and with the realtime loop, all answers of the manager.", "why_tests_cant": "The test starts the spawner, waits until it has finished loading and stops it then; the moments at which a signal can come between any two statements of two threads cannot be enumerated.", "anchors": ["controller_manager/scripts/spawner:52-72", "controller_manager/scripts/spawner:140-218"]}
{"id": "C106", "title": "Joint limits hold at the actuators of a robot that computes with doubles", "statement": "On a robot that computes with IEEE doubles, no cycle of read, update, enforce limits and write with a finite positive period is lost (where the limits need the period, the first cycle with another period ends the run with a failed assertion before anything is sent), and the actuator commands sent to the hardware amount, through the exact transmission, to what the limits left of the joint commands, up to 2^-49 of the terms added up in the transmission (parameters and limited commands being zero or between 2^-100 and 2^100 in magnitude). Whatever number, also an infinite one, a controller commands: a position limit leaves it within the range if the joint starts in it, and within the rounded maximal step of the previous command; velocity and effort limits leave it within the maximum; soft velocity and effort limits moreover do not push out beyond the soft limits (velocity, with acceleration limits: if the measured velocity is not below the bounds that are to hold), and soft position limits keep it below the upper end of the range and do not move it further out. Joints without limits are not touched. The error is needed: without it a velocity limit is exceeded at the actuator. A command NaN is sent to the hardware as NaN; the limited command is NaN in exactly the cycles in which a controller commands NaN.", "quantifier": "All robots whose transmissions were constructed and whose handles are connected once, all finite sequences of cycles with finite positive periods, all sensor values, all commands of the controllers, all roundings that IEEE 754 allows, all resets of the limits.", "why_tests_cant": "Tests of the limits and of the transmissions are separate, use a few values and compare up to 1e-3 or so; that rounding in the limits, in the transmissions and over many cycles never adds up is a statement about all doubles.", "anchors": ["joint_limits_interface/include/joint_limits_interface/joint_limits_interface.h:70-630", "transmission_interface/include/transmission_interface/transmission_interface.h:150-330", "transmission_interface/include/transmission_interface/simple_transmission.h:85-270"]}
{"id": "C107", "title": "Several threads can call the services while updates are in progress", "statement": "However the steps of several threads that call the services and the steps of the realtime thread inside `update` are interleaved (any number of steps of one between two steps of another), whenever no update is in progress everything is as in a history in which the threads make the same steps in the same order and no update is interrupted: the threads are at the same places in their calls, hold the same locks and have got the same answers, the manager has the same controllers in the same order and states, and the same transitions and answers were seen in the same order; it is also as if one thread had made all calls one after the other. At every moment, also in the middle of an update, no destroyed controller has been touched, running controllers claim no resource twice, at most one thread is in a service, each thread has got the answers to its own calls in order, and all calls can still be brought to an end. Each update calls update() once on exactly the controllers that were running when it began. Controllers that are loaded are from the present libraries. Conditions: the first update is over, ROS is running, switches have no time limit, interrupted updates do not reset controllers, and calls are made through the services (or libraries are not reloaded and controllers switched only through the service); with direct switches a thread is told that a controller has been started before it is.", "quantifier": "All numbers of threads, all calls they make, all interleavings of their steps with each other and with the steps of any number of updates, all times, all answers of the hardware, all conflict checks of the hardware (for exclusive resources: the default check).", "why_tests_cant": "Neither the number of interleavings of several threads with an update nor the length of the history is bounded; the tests call the services from one thread, and an unlucky order is not reproducible.", "anchors": ["controller_manager/src/controller_manager.cpp:66-227", "controller_manager/src/controller_manager.cpp:229-692", "controller_manager/src/controller_manager.cpp:721-835", "controller_manager/include/controller_manager/controller_manager.h:104-190"]}
{"id": "C108", "title": "Looking up an interface that is no resource manager finds it only if it is the only one", "statement": "If interfaces of a type that is not a resource manager are registered, get<T>() returns one if it is the only one of the type in the manager and its (transitive) sub-managers, and null if there is none or more than one; what is returned is always a registered one, and the lookup changes nothing.", "quantifier": "all histories of registrations and lookups, all manager trees, all types that are no resource managers", "why_tests_cant": "The depth of the tree and the number of registrations are unbounded; the tests register at most two levels and never ask for several interfaces that cannot be combined behind another one.", "anchors": ["hardware_interface/include/hardware_interface/internal/interface_manager.h:162-228"]}
{"id": "C109", "title": "A robot loaded from its description reads and writes through its transmissions", "statement": "After a robot without joint interfaces of its own has loaded a description in which no transmission, joint or actuator appears twice, propagating the states gives every joint, under its name, the position, velocity and effort (and, if all its actuators have them, absolute position and torque) that its transmission computes from the actuators the description names, and propagating commands of a kind gives these actuators the commands its transmission computes from those of the joints; both succeed from any values, nothing else changes, and if the actuators take on what they are commanded, the joints take on what the controllers commanded.", "quantifier": "all descriptions, all robots, all values, all three kinds of transmissions and commands, any number of transmissions", "why_tests_cant": "The tests load fixed files and look at one transmission at a time; that no other transmission of any description interferes is not tested.", "anchors": ["transmission_interface/src/transmission_interface_loader.cpp:40-199", "transmission_interface/include/transmission_interface/transmission_interface.h:404-410", "transmission_interface/src/joint_state_interface_provider.cpp:38-233", "transmission_interface/src/effort_joint_interface_provider.cpp:38-144"]}
{"id": "C110", "title": "A robot loaded with bidirectional interfaces works in the other direction too", "statement": "If the description asks for bidirectional interfaces, then after loading, propagating the states from the joints to the actuators gives the actuators of every such transmission the positions, velocities and efforts its transmission computes from those of its joints, and propagating commands of a kind from the actuators to the joints gives its joints the commands its transmission computes from those of its actuators; both succeed from any values and change nothing of transmissions without a bidirectional interface; and what is propagated there and back again is as it was.", "quantifier": "all descriptions, all robots with actuator data in different variables, all values, all three kinds of transmissions and commands, any number of transmissions", "why_tests_cant": "The tests of the bidirectional providers look at one transmission of a fixed file.", "anchors": ["transmission_interface/src/bidirectional_effort_joint_interface_provider.cpp:37-75", "transmission_interface/src/bidirectional_position_joint_interface_provider.cpp:37-75", "transmission_interface/src/bidirectional_velocity_joint_interface_provider.cpp:37-75", "transmission_interface/include/transmission_interface/transmission_interface.h:404-410"]}
{"id": "C111", "title": "The limits of the robot description hold at the actuators of a robot loaded from that description", "statement": "A robot loads its transmissions from its description and makes limit handles for a list of joints from the limits in the same description. This succeeds exactly if every listed joint has the command it is listed for and the limits its class of handles needs. In operation every cycle with a positive period (with soft position limits the first cycle with another period ends the run with a failed assertion, before anything is sent) is completed; the measured values of each joint are those its transmission computes from its actuators; and whatever the controllers command and the sensors report, the commands of the named actuators amount, through the joint's transmission, to a position within the range of the description that is at most velocity times period away from the one before (if the joint is measured in its range at first and whenever the limits are reset, and the limits make sense), to a velocity within the maximal velocity, and to an effort within the maximal effort that does not push further beyond the range; commands within the limits are passed on by the saturation handles, and joints not listed get what the controllers command; and if the actuators reach the commanded positions, a joint that starts within its range stays within it for ever.", "quantifier": "all descriptions, all robots, all lists of limited joints, all three kinds of commands side by side, all six classes of handles, all histories of commands, sensor values, periods and resets", "why_tests_cant": "The tests use handles and transmissions built by hand, each alone; no test runs a robot whose transmissions and limits both come from a description.", "anchors": ["transmission_interface/src/transmission_interface_loader.cpp:40-199", "joint_limits_interface/include/joint_limits_interface/joint_limits_urdf.h:48-97", "joint_limits_interface/include/joint_limits_interface/joint_limits_interface.h:531-593", "joint_limits_interface/mainpage.dox:50-138"]}
{"id": "C112", "title": "A robot loaded from its description under the controller manager, from controller calls to actuator commands", "statement": "A robot loads its transmissions and joint limits from its description, registers the joint interfaces of the loader, and runs the loop of reading, updating the controller manager, enforcing the limits and writing, while controllers are loaded, switched and unloaded through the services. Then a controller that asks for the command of a joint gets exactly the variable that is later limited and sent through the joint's transmission, or is not loaded if the description offers no such command; no two running controllers ever hold commands of the same joint, whatever the kinds; a command changes in a cycle only by a call of a controller that holds it, while no other controller with a command of that joint is running, and is otherwise kept from cycle to cycle; every cycle with a positive period (with soft position limits the first cycle with another period ends the run with a failed assertion, before anything is sent) is completed; controllers see the joint values that the transmissions compute from what the actuators report; and the actuator commands amount to what the controllers left for joints without limits, and to values within the limits of the description for the others, also in the cycles in which controllers are switched.", "quantifier": "all descriptions, all robots, all controllers that write only through their handles, all histories of service calls, of cycles, sensor values, periods, hardware answers and resets", "why_tests_cant": "The tests run the manager with fixed handles on plain variables; no test has transmissions, limits and controllers together, and none looks at all interleavings of services and cycles.", "anchors": ["controller_manager_tests/src/dummy_app.cpp:34-57", "controller_manager/src/controller_manager.cpp:56-842", "transmission_interface/src/transmission_interface_loader.cpp:40-199", "transmission_interface/src/effort_joint_interface_provider.cpp:37-80", "joint_limits_interface/mainpage.dox:50-138"]}
{"id": "C113", "title": "The limits of the robot description hold at the actuators of a robot that computes with doubles", "statement": "A robot loads its transmissions and its joint limits from its description, and computes with IEEE 754 doubles. Then every cycle with a finite positive period (with soft position limits the first cycle with another period ends the run with a failed assertion, before anything is sent) is completed whatever the description says, the sensors report and the controllers command, NaN and infinities included. The measured values of a joint are what its transmission makes of its actuators, up to 2^-49 of the terms that are added up. The command of a joint after the limits is NaN exactly if the controllers commanded NaN, and then every actuator that moves with the joint gets NaN. Otherwise it is exactly within the limits of the description (position range and velocity times period as computed, velocity, effort, and the one-sided bounds near and beyond the soft limits); commands within the limits are left as they are by the saturation handles, those of joints not listed always; and the actuator commands, through the exact transmission of the joint, amount to a value within these limits up to 2^-49 of the terms that are added up on the way. If the actuators reach the commanded positions, the joint is measured in its range, up to that rounding.", "quantifier": "all descriptions and robots, all six classes of handles, all kinds of commands side by side, all histories of doubles (NaN, infinities) as sensor values and commands, all finite positive periods, all resets; error bounds for moderate parameters and commands", "why_tests_cant": "The tests compare single values with tolerances; rounding along the whole way from the limits of the description to the actuators, and NaN in operation, appear in no test.", "anchors": ["transmission_interface/src/transmission_interface_loader.cpp:40-199", "joint_limits_interface/include/joint_limits_interface/joint_limits_interface.h:79-593", "joint_limits_interface/include/joint_limits_interface/joint_limits_urdf.h:48-97", "transmission_interface/include/transmission_interface/simple_transmission.h:93-232"]}
{"id": "C114", "title": "A whole robot that computes with doubles: what controllers, NaN and stopped controllers do to the actuators", "statement": "A robot loads its transmissions and joint limits from its description, offers them to the controllers of the controller manager, and computes with IEEE 754 doubles. Then every cycle with a finite positive period (with soft position limits the first cycle with another period ends the run with a failed assertion, before anything is sent) is completed; no two running controllers ever hold commands of the same joint; a command changes only by a call of a controller that holds it, and is otherwise kept bit by bit from cycle to cycle. The limits neither make nor remove NaN: if the command of a joint is a number at first and no controller turns it into NaN, it is never NaN; and if a controller leaves NaN, every actuator that moves with the joint gets NaN, and it stays NaN in every later cycle, also after the controller is stopped, until a controller that holds the command is called again. In every cycle in which the controllers leave a number, also while controllers are switched, the command after the limits is exactly within the limits of the description, and the actuator commands amount to a value within them up to 2^-49 of the terms that are added up.", "quantifier": "all descriptions and robots, all controllers that write only through their handles, all histories of services and cycles, all doubles (NaN, infinities) as sensor values and commands, all finite positive periods, all resets; error bounds for moderate parameters and commands", "why_tests_cant": "The tests run the manager with fixed handles on plain variables and no limits; no test lets a controller leave NaN, or looks at what remains after it is stopped.", "anchors": ["controller_manager_tests/src/dummy_app.cpp:34-57", "controller_manager/src/controller_manager.cpp:56-842", "joint_limits_interface/include/joint_limits_interface/joint_limits_interface.h:79-593", "transmission_interface/src/transmission_interface_loader.cpp:40-199"]}
{"id": "C115", "title": "A whole robot whose services are called in the middle of its cycles", "statement": "A robot as in C112 and C114 runs its loop in one thread while its services are handled in another one, at any moment of a cycle: before, between and after the steps of the update of the controller manager. Provided that no switch exceeds its time limit and no service comes between the stop and the start of a restarted controller while an update is in progress, and that the very first update is undisturbed, nothing halts the robot and every cycle with a positive period is completed, in order, in finitely many steps of its own that wait for no service (with soft position limits a cycle with another period is the last one: it ends with a failed assertion, before anything is sent); at every moment, also in the middle of an update, no two running controllers hold commands of the same joint; a command changes only in a step that calls the one controller which holds it, while no other holder of commands of that joint is running, or when the limits are enforced, so never by a service; outside of cycles the manager is in a state that it could also have reached with all services between updates; and the actuator commands of every cycle are within the limits of the description, with exact numbers as in C112 and with doubles as in C114. With doubles, a command that is a number at first becomes NaN, at whatever moment, only by a controller that writes NaN, and once it is NaN it stays NaN at every moment until a controller that holds it is called.", "quantifier": "all descriptions and robots, all controllers that write only through their handles, all interleavings of service operations with the steps of the cycles, all sensor values, positive periods, hardware answers and resets", "why_tests_cant": "The tests call the services of a running manager a few times at moments nobody controls; no test has transmissions, limits and controllers together, and none can visit all the moments at which a service can be handled.", "anchors": ["controller_manager_tests/src/dummy_app.cpp:34-57", "controller_manager/src/controller_manager.cpp:56-842", "transmission_interface/src/transmission_interface_loader.cpp:40-199", "joint_limits_interface/mainpage.dox:50-138"]}
{"id": "C116", "title": "A whole robot whose hardware is combined from several ones", "statement": "A robot's hardware is a combined one: several robot hardwares, each with transmissions and joint limits from its own description, are created, initialised and registered by the combined hardware, and one controller manager runs controllers on all of them. Nothing halts the robot and every cycle with a positive period is completed, in order; in every cycle each part does exactly what it would do as the only hardware, with what its own sensors report and what the controllers have left as the commands of its joints, whatever happens to the other parts; no two running controllers hold commands of the same joint, not even of joints of the same name in different parts; a command of a joint changes only by a call of a controller that holds that very command of that very part, or when the limits are enforced; and so the actuator commands of every part are within the limits of its own description, with exact numbers as in C111 and with doubles as in C113. If the actuators of a part reach what they are commanded, a joint of it that starts in its range stays in it for ever and moves no faster than described. If a joint of some part is listed for soft position limits, the first cycle whose period is not positive ends the run, and what was before is as if it had been all; if no joint of any part is, every cycle is completed whatever the periods are. Whatever has been loaded before, a controller that asks for the command of a joint is loaded exactly if some part takes such commands for a joint of that name, and then holds the command of the joint in the last of these parts. With doubles, a command of a joint of a part that is a number at first becomes NaN only by a controller that writes NaN, and once it is NaN it stays NaN, and the actuators get NaN, until a controller that holds it is called.", "quantifier": "all numbers of parts, all descriptions and robots, all controllers that write only through their handles, all sequences of service calls and cycles, all sensor values, periods, hardware answers and resets", "why_tests_cant": "The tests of the combined hardware load dummy parts without transmissions and limits and check a few values; no test runs several controllers on several parts, and none has parts with joints of the same name.", "anchors": ["combined_robot_hw/src/combined_robot_hw.cpp:33-196", "hardware_interface/include/hardware_interface/internal/interface_manager.h:157-239", "controller_manager/src/controller_manager.cpp:56-842", "controller_manager_tests/src/dummy_app.cpp:34-57"]}
{"id": "C117", "title": "A whole robot with a combined hardware whose services are called in the middle of its cycles", "statement": "A robot as in C116, whose hardware is combined from several ones, runs its loop in one thread while its services are handled in another one, at any moment of a cycle, as in C115. Provided that no switch exceeds its time limit and no service comes between the stop and the start of a restarted controller while an update is in progress, and that the very first update is undisturbed, nothing halts the robot and every cycle with a positive period is completed, in order, in finitely many steps of its own that wait for no service. At every moment, also in the middle of an update, no two running controllers hold commands of joints of the same name, whatever the parts. A command of a joint of a part changes only by the call of exactly one controller, which holds that very command of that very part, or when the limits are enforced; no service changes one. Whenever no cycle is in progress, the manager has the lists, states, answers and starts and stops of one that handled every service between two updates. In the completed cycles each part does exactly what it would do as the only hardware, so that the actuator commands of every part are within the limits of its own description, with exact numbers as in C111 and with doubles as in C113, and a joint whose actuators reach what they are commanded stays in its range for ever. If a joint of some part is listed for soft position limits, a cycle whose period is not positive begins but is never completed: when its update has come to its end the assertion of a limit handle fails, and the cycles before are as if they had been all; if no joint of any part is, no cycle is lost whatever the periods are. With doubles, a command of a joint of a part that is a number at first becomes NaN, at whatever moment, only by a controller that writes NaN, and once it is NaN it stays NaN at every moment until a controller that holds it is called.", "quantifier": "all numbers of parts, all descriptions and robots, all controllers that write only through their handles, all interleavings of the steps of cycles and services, all sensor values, periods, hardware answers and resets", "why_tests_cant": "The tests of the combined hardware run one cycle with no other thread; no test calls a service at a chosen point of an update, and the interleavings with several parts and controllers are unbounded in number.", "anchors": ["combined_robot_hw/src/combined_robot_hw.cpp:33-196", "controller_manager/src/controller_manager.cpp:56-842", "controller_manager_tests/src/dummy_app.cpp:34-57"]}
{"id": "C118", "title": "Each part of a combined robot knows which controllers command its joints", "statement": "In a robot as in C116, whose hardware is combined from several ones, each part sees only its part of the calls by which the controller manager announces switches. Whatever services are called, what a loaded controller has claimed are exactly the joints and kinds of commands it holds handles for. Provided that no switch call gives up waiting, no timeout elapses and the hardware reports no error, whenever no switch is in progress each part regards exactly those controllers as active, with exactly those joints, that are running and hold handles for commands of joints of this part; and at no time, not even in the middle of a switch, do parts regard two controllers as active with joints of the same name.", "quantifier": "all numbers of parts, all descriptions and robots, all controllers, all histories of loads, unloads, switches, reloads and updates, all hardware answers without errors", "why_tests_cant": "The tests of the combined hardware call doSwitch with two hand-written lists; that the lists a part receives over any history add up to who holds handles for its variables relates loading, claiming, conflict checking, switching and filtering, over unboundedly many histories.", "anchors": ["combined_robot_hw/src/combined_robot_hw.cpp:56-91", "combined_robot_hw/src/combined_robot_hw.cpp:198-246", "controller_interface/include/controller_interface/controller.h:96-150", "controller_manager/src/controller_manager.cpp:74-136"]}
