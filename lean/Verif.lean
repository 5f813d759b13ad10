import Verif.Props.Frame
import Verif.Props.Corruption
import Verif.Props.Header
import Verif.Props.Registered
import Verif.Props.Registry
import Verif.Props.BodySafe
import Verif.Props.Times
import Verif.Props.Bits
import Verif.Props.RoundTrip
import Verif.Props.Lists
import Verif.Props.Reuse
import Verif.Props.Location
import Verif.Props.ExactCases
import Verif.Props.Areas
import Verif.Props.Strings
import Verif.Props.Rsa
import Verif.Props.Stream
import Verif.Props.Timer
import Verif.Props.TimerExact
import Verif.Props.Multipart
import Verif.Props.Session
import Verif.Props.Handler
import Verif.Props.Server
import Verif.Props.ServerExact
import Verif.Props.Connection
import Verif.Props.Layout
import Verif.Props.Encode
import Verif.Props.Outbox
import Verif.Props.OutboxFair
import Verif.Props.Requests
import Verif.Props.SessionFree
import Verif.Props.Paths
import Verif.Props.Lifecycle
import Verif.Props.KeepaliveExact
import Verif.Props.LifecycleExact
import Verif.Props.Relay
import Verif.Props.Fits
import Verif.Props.Isolation
import Verif.Props.Accepts
import Verif.Props.Receive
import Verif.Props.Upload
import Verif.Props.System
import Verif.Props.Converse
import Verif.Props.Delivery
import Verif.Props.HangUp
import Verif.Props.Standards
import Verif.Props.Shutdown
import Verif.Props.StopFair
import Verif.Props.WorldAll
import Verif.Props.GoneFair
import Verif.Props.GoneExact
import Verif.Props.Programs
import Verif.Props.World
import Verif.Props.Files
import Verif.Props.Access
import Verif.Props.Sync
import Verif.Props.SyncExact
import Verif.Props.Fleet
import Verif.Props.FleetMedia
import Verif.Props.FleetFair
import Verif.Props.Oversized
import Verif.Props.LongLists
import Verif.Props.CorruptionExact
import Verif.Props.Split
import Verif.Props.OneByteCrash
import Verif.Props.Served
import Verif.Props.ServedFiles
import Verif.Props.ServedCrash
import Verif.Props.Readme
import Verif.Props.Addressed
import Verif.Props.Permissions
import Verif.Props.Zone
import Verif.Props.Oaep
import Verif.Props.Cipher
import Verif.Props.Understood
import Verif.Props.Syscall
import Verif.Props.SyscallFair
import Verif.Props.LivesFair
import Verif.Props.RepoTests
import Verif.Props.Crowd
import Verif.Props.CrowdCalls
import Verif.Props.CrowdFair
import Verif.Props.Lives
import Verif.Props.LivesAnswers
