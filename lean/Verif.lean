import Verif.Examples.Interleaved
import Verif.Examples.ManagerWorld
import Verif.Lemmas.Alternation
import Verif.Lemmas.BusyParted
import Verif.Lemmas.BusyPartedRun
import Verif.Lemmas.BusyRefinement
import Verif.Lemmas.BusyRobot
import Verif.Lemmas.BusyRobotRun
import Verif.Lemmas.ClientPrograms
import Verif.Lemmas.ClientProgress
import Verif.Lemmas.Clients
import Verif.Lemmas.CombinedExceptions
import Verif.Lemmas.CombinedHW
import Verif.Lemmas.CommandLine
import Verif.Lemmas.Containers
import Verif.Lemmas.ControllerInit
import Verif.Lemmas.DescribedRobot
import Verif.Lemmas.DescribedRobotCycle
import Verif.Lemmas.DescribedRobotDouble
import Verif.Lemmas.DescribedRobotMade
import Verif.Lemmas.Double
import Verif.Lemmas.DoubleBuffer
import Verif.Lemmas.DoubleCalc
import Verif.Lemmas.DoubleError
import Verif.Lemmas.Exceptions
import Verif.Lemmas.ExceptionsRun
import Verif.Lemmas.Gui
import Verif.Lemmas.GuiInv
import Verif.Lemmas.Handles
import Verif.Lemmas.HardwareView
import Verif.Lemmas.InterfaceGrowth
import Verif.Lemmas.InterfaceListing
import Verif.Lemmas.InterfaceManager
import Verif.Lemmas.InterfaceNames
import Verif.Lemmas.Interleaved
import Verif.Lemmas.InterleavedCalls
import Verif.Lemmas.JointLimits
import Verif.Lemmas.JointLimitsEffort
import Verif.Lemmas.JointLimitsExact
import Verif.Lemmas.JointLimitsRegular
import Verif.Lemmas.JointLimitsVelocity
import Verif.Lemmas.Lifecycle
import Verif.Lemmas.LimitHistory
import Verif.Lemmas.LimitsConfig
import Verif.Lemmas.LimitsInterface
import Verif.Lemmas.ListingSound
import Verif.Lemmas.Lists
import Verif.Lemmas.LoadedRobot
import Verif.Lemmas.LoadedRobotAll
import Verif.Lemmas.LoadedRobotAsked
import Verif.Lemmas.LoadedRobotBack
import Verif.Lemmas.LoadedRobotNames
import Verif.Lemmas.ManagerHandover
import Verif.Lemmas.ManagerHistory
import Verif.Lemmas.ManagerHwOrder
import Verif.Lemmas.ManagerInv
import Verif.Lemmas.ManagerLoaders
import Verif.Lemmas.ManagerPhases
import Verif.Lemmas.ManagerQuiet
import Verif.Lemmas.ManagerRelease
import Verif.Lemmas.ManagerReload
import Verif.Lemmas.ManagerService
import Verif.Lemmas.ManagerSim
import Verif.Lemmas.ManagerSwitchLists
import Verif.Lemmas.ManagerTrace
import Verif.Lemmas.ManagerTraceState
import Verif.Lemmas.ManagerUpdate
import Verif.Lemmas.ManagerUpdates
import Verif.Lemmas.ManagerWindow
import Verif.Lemmas.Outcome
import Verif.Lemmas.PartedClaims
import Verif.Lemmas.PartedRobot
import Verif.Lemmas.PartedRobotOffers
import Verif.Lemmas.PartedRobotRun
import Verif.Lemmas.Plugins
import Verif.Lemmas.Refinement
import Verif.Lemmas.RefinementRun
import Verif.Lemmas.Reports
import Verif.Lemmas.Resources
import Verif.Lemmas.RobotCycle
import Verif.Lemmas.RobotCycleDouble
import Verif.Lemmas.RobotHW
import Verif.Lemmas.Shutdown
import Verif.Lemmas.Spawner
import Verif.Lemmas.SpawnerLife
import Verif.Lemmas.SwitchRace
import Verif.Lemmas.SwitchRaceDone
import Verif.Lemmas.SwitchRacePass
import Verif.Lemmas.System
import Verif.Lemmas.SystemInv
import Verif.Lemmas.SystemTypes
import Verif.Lemmas.Threads
import Verif.Lemmas.ThreadsCalls
import Verif.Lemmas.ThreadsFair
import Verif.Lemmas.ThreadsInterleaved
import Verif.Lemmas.ThreadsInterleavedCalls
import Verif.Lemmas.ThreadsProgress
import Verif.Lemmas.ToolsUtils
import Verif.Lemmas.Transmission
import Verif.Lemmas.TransmissionDouble
import Verif.Lemmas.TransmissionDoubleEx
import Verif.Lemmas.TransmissionLoad
import Verif.Lemmas.TransmissionLoader
import Verif.Lemmas.TransmissionLocal
import Verif.Lemmas.TransmissionParser
import Verif.Lemmas.TransmissionSpecial
import Verif.Lemmas.Uncombinable
import Verif.Lemmas.WholeRobot
import Verif.Lemmas.WholeRobotOffers
import Verif.Lemmas.WholeRobotRun
import Verif.Model.Basic
import Verif.Model.BusyParted
import Verif.Model.BusyRobot
import Verif.Model.Clients
import Verif.Model.CombinedExceptions
import Verif.Model.CombinedHW
import Verif.Model.CommandLine
import Verif.Model.Containers
import Verif.Model.ControllerBase
import Verif.Model.ControllerInit
import Verif.Model.DescribedRobot
import Verif.Model.DescribedRobotDouble
import Verif.Model.Double
import Verif.Model.DoubleBuffer
import Verif.Model.Exceptions
import Verif.Model.Gui
import Verif.Model.Handles
import Verif.Model.InterfaceManager
import Verif.Model.Interleaved
import Verif.Model.JointLimits
import Verif.Model.LimitsConfig
import Verif.Model.LimitsInterface
import Verif.Model.Manager
import Verif.Model.PartedRobot
import Verif.Model.Plugins
import Verif.Model.Reports
import Verif.Model.Resources
import Verif.Model.RobotCycle
import Verif.Model.RobotCycleDouble
import Verif.Model.RobotHW
import Verif.Model.Shutdown
import Verif.Model.Spawner
import Verif.Model.SpawnerLife
import Verif.Model.SwitchRace
import Verif.Model.System
import Verif.Model.Threads
import Verif.Model.ThreadsInterleaved
import Verif.Model.ToolsUtils
import Verif.Model.Transmission
import Verif.Model.TransmissionDouble
import Verif.Model.TransmissionLoader
import Verif.Model.TransmissionParser
import Verif.Model.WholeRobot
import Verif.Props.Alternation
import Verif.Props.BusyParted
import Verif.Props.BusyPartedNaN
import Verif.Props.BusyRobot
import Verif.Props.BusyRobotNaN
import Verif.Props.ClientProgress
import Verif.Props.ClientTools
import Verif.Props.Clients
import Verif.Props.CombinedExceptions
import Verif.Props.CombinedHW
import Verif.Props.CommandLine
import Verif.Props.Conflict
import Verif.Props.ControllerInit
import Verif.Props.DescribedRobot
import Verif.Props.DescribedRobotDouble
import Verif.Props.DoubleBuffer
import Verif.Props.DoubleLimits
import Verif.Props.Exceptions
import Verif.Props.Gui
import Verif.Props.Handles
import Verif.Props.HardwareView
import Verif.Props.InterfaceListing
import Verif.Props.InterfaceManager
import Verif.Props.InterfaceNames
import Verif.Props.Interleaved
import Verif.Props.JointLimitsEffort
import Verif.Props.JointLimitsPosition
import Verif.Props.JointLimitsVelocity
import Verif.Props.Lifecycle
import Verif.Props.LimitsConfig
import Verif.Props.LimitsInterface
import Verif.Props.LoadedRobot
import Verif.Props.LoadedRobotBack
import Verif.Props.ManagerLoad
import Verif.Props.ManagerReload
import Verif.Props.ManagerRestart
import Verif.Props.ManagerSafety
import Verif.Props.ManagerSwitch
import Verif.Props.ManagerSwitchRun
import Verif.Props.ManagerUpdate
import Verif.Props.ManagerWait
import Verif.Props.PartedClaims
import Verif.Props.PartedRobot
import Verif.Props.PartedRobotDouble
import Verif.Props.Plugins
import Verif.Props.PositionOutside
import Verif.Props.Reports
import Verif.Props.ReportsListing
import Verif.Props.ReportsOutput
import Verif.Props.ReportsReload
import Verif.Props.ReportsText
import Verif.Props.Resources
import Verif.Props.RobotCycle
import Verif.Props.RobotCycleDouble
import Verif.Props.Shutdown
import Verif.Props.SoftPositionReach
import Verif.Props.SoftVelocityReach
import Verif.Props.Spawner
import Verif.Props.SpawnerLife
import Verif.Props.SpawnerWaits
import Verif.Props.SwitchRace
import Verif.Props.System
import Verif.Props.Threads
import Verif.Props.ThreadsFair
import Verif.Props.ThreadsInterleaved
import Verif.Props.ToolsUtils
import Verif.Props.Transmission
import Verif.Props.TransmissionDouble
import Verif.Props.TransmissionLoad
import Verif.Props.TransmissionMaps
import Verif.Props.TransmissionOrder
import Verif.Props.TransmissionParser
import Verif.Props.TransmissionPower
import Verif.Props.TransmissionSpecial
import Verif.Props.Uncombinable
import Verif.Props.VelocityAfterNaN
import Verif.Props.VelocityStuck
import Verif.Props.WholeRobot
import Verif.Props.WholeRobotDouble
import Verif.Spec.Alternation
import Verif.Spec.BusyParted
import Verif.Spec.BusyRobot
import Verif.Spec.Clients
import Verif.Spec.CombinedExceptions
import Verif.Spec.CombinedHW
import Verif.Spec.Conflict
import Verif.Spec.DescribedRobot
import Verif.Spec.DescribedRobotDouble
import Verif.Spec.DoubleBuffer
import Verif.Spec.Exceptions
import Verif.Spec.Gui
import Verif.Spec.Handles
import Verif.Spec.HardwareView
import Verif.Spec.InterfaceManager
import Verif.Spec.Interleaved
import Verif.Spec.JointLimits
import Verif.Spec.Lifecycle
import Verif.Spec.LimitsConfig
import Verif.Spec.LimitsInterface
import Verif.Spec.LoadedRobot
import Verif.Spec.Manager
import Verif.Spec.Outcome
import Verif.Spec.PartedClaims
import Verif.Spec.PartedRobot
import Verif.Spec.Plugins
import Verif.Spec.Reports
import Verif.Spec.Resources
import Verif.Spec.RobotCycle
import Verif.Spec.RobotCycleDouble
import Verif.Spec.Shutdown
import Verif.Spec.Spawner
import Verif.Spec.SwitchRace
import Verif.Spec.System
import Verif.Spec.Threads
import Verif.Spec.ThreadsInterleaved
import Verif.Spec.ToolsUtils
import Verif.Spec.Transmission
import Verif.Spec.TransmissionDouble
import Verif.Spec.TransmissionLoader
import Verif.Spec.TransmissionParser
import Verif.Spec.WholeRobot
import Verif.Spec.WholeRobotDouble
import Verif.Tests.Cm
import Verif.Tests.ControllerBase
import Verif.Tests.HardwareInterface
import Verif.Tests.HwiSwitch
import Verif.Tests.HwiUpdate
import Verif.Tests.JointLimits
import Verif.Tests.LimitsConfig
import Verif.Tests.Scripts
import Verif.Tests.Tools
import Verif.Tests.Transmission
import Verif.Tests.TransmissionLoader
