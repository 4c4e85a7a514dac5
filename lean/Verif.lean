import Verif.Props.Mesh
import Verif.Props.Boards
import Verif.Props.Machine
import Verif.Props.Unused
import Verif.Props.Links
import Verif.Props.LinkHistory
import Verif.Props.TagOrder
import Verif.Props.Physical
import Verif.Props.Ignores
import Verif.Props.VirtualMachine
import Verif.Props.Factory
import Verif.Props.Routing
import Verif.Props.CoreSubsets
import Verif.Props.Equality
import Verif.Props.Json
import Verif.Props.JsonRead
import Verif.Props.JsonRefuse
import Verif.Props.VersionFactory
import Verif.Props.VersionFacts
import Verif.Props.DataView
import Verif.Props.Energy
import Verif.Props.Describe
import Verif.Props.Interior
import Verif.Props.Texts
import Verif.Props.Sharing
import Verif.Props.Merge
import Verif.Props.Frozen
import Verif.Props.UserCores
import Verif.Props.AnySize
import Verif.Props.DownSets
import Verif.Props.JsonStable
import Verif.Props.Order
import Verif.Props.Symmetry
import Verif.Props.Connected
import Verif.Props.Rig
import Verif.Props.Settings
import Verif.Props.RepairSucceeds
import Verif.Props.Lazy
import Verif.Props.Iterables
import Verif.Props.Packets
import Verif.Props.Floats
import Verif.Props.FloatEnergy
import Verif.Props.LiveLists
import Verif.Props.CoreLive
import Verif.Props.Stages
import Verif.Props.RoutingInt
import Verif.Props.DownIgnore
import Verif.Props.Grow
import Verif.Props.Shift
import Verif.Props.JsonSame
import Verif.Props.Cables
import Verif.Props.BoardRoute
import Verif.Props.LiveLinks
import Verif.Props.TagSets
import Verif.Props.RepairOrder
import Verif.Props.JsonRepair
import Verif.Props.RoutingIter
import Verif.Props.Refusals
import Verif.Props.CoreFaults
import Verif.Props.Rings
import Verif.Props.Diameter
import Verif.Props.Walks
import Verif.Props.MinSize
import Verif.Props.BoardLinks
import Verif.Props.FpgaCount
import Verif.Props.SpinCount
import Verif.Props.Tolerance
import Verif.Props.Detour
import Verif.Props.Around
import Verif.Conformance.Objects
import Verif.Conformance.Machines
import Verif.Conformance.Boards
import Verif.Conformance.Versions
import Verif.Conformance.Repair
import Verif.Conformance.RepairBoards
import Verif.Conformance.Json
