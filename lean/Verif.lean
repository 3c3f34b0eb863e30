import Verif.Bytes
import Verif.Nom
import Verif.Codes
import Verif.Bip32
import Verif.Flash
import Verif.Upload
import Verif.Watermark
import Verif.BakingParser
import Verif.Spec.Consensus
import Verif.Consensus
import Verif.ConsensusSpec
import Verif.Spec.Store
import Verif.Props.Flash
import Verif.Props.Crc
import Verif.Spec.Upload
import Verif.Props.Upload
import Verif.Props.Codecs
import Verif.Spec.Zarith
import Verif.Zarith
import Verif.Props.Zarith
import Verif.Operations
import Verif.Spec.Operations
import Verif.Props.Operations
import Verif.Format
import Verif.Props.Format
import Verif.Bakers
import Verif.Crypto
import Verif.Render
import Verif.Props.Batch
import Verif.Props.Address
import Verif.Props.Identify
import Verif.Zui
import Verif.Props.Zui
import Verif.Device
import Verif.Cell
import Verif.DeviceLemmas
import Verif.Effects
import Verif.Steps
import Verif.Histories
import Verif.Scenario
import Verif.Props.Watermarks
import Verif.Props.Keys
import Verif.Sessions
import Verif.Props.Consensus
import Verif.Props.Dispatch
import Verif.Reread
import Verif.Origins
import Verif.Props.Texts
import Verif.Props.Reviews
import Verif.Spec.Display
import Verif.Props.Display
import Verif.Props.Approvals
import Verif.Props.Seen
import Verif.Props.Replies
import Verif.Props.Records
import Verif.Calm
import Verif.Props.Crash
import Verif.Props.Manage
import Verif.Props.Queries
import Verif.Props.Restart
import Verif.Props.Secrecy
import Verif.Client
import Verif.Talk
import Verif.Spec.Client
import Verif.Props.Client
import Verif.Props.ClientCalls
import Verif.Props.ClientLegacy
import Verif.Sys
import Verif.Props.Sys
import Verif.ZuiX
import Verif.Props.ZuiX
import Verif.Props.ReviewX
import Verif.Props.Walk
import Verif.Props.WalkX
import Verif.Props.Hash
import Verif.Props.Hmac
import Verif.Props.Live
import Verif.Exchange
import Verif.Props.Exchange
import Verif.ClientInfo
import Verif.Spec.Words
import Verif.Props.ClientInfo
import Verif.Spec.Exceptions
import Verif.Catch
import Verif.Props.Catch
import Verif.Props.Whole
import Verif.Props.Granted
import Verif.Props.Work
import Verif.Spec.Answers
import Verif.Props.Answers
import Verif.Props.Served
import Verif.Devel
import Verif.Props.Devel
import Verif.Props.Blind
import Verif.Props.Probe
import Verif.Lazy
import Verif.Props.Lazy
import Verif.Props.Lose
import Verif.Props.Wear
import Verif.Unroll
import Verif.Props.Unroll
import Verif.Version
import Verif.Props.Version
import Verif.Props.Board
import Verif.Buffers
import Verif.Props.Buffers
import Verif.Menu
import Verif.Spec.Menu
import Verif.Spec.Waits
import Verif.Props.Menu
import Verif.Props.Baker
import Verif.Zuit
import Verif.Props.Zuit
import Verif.Fuzz
import Verif.Props.Fuzz
import Verif.Host
import Verif.Props.Host
import Verif.Props.Waits
import Verif.HostTests
import Verif.Spec.Ascending
import Verif.Props.HostTests
import Verif.Gen
import Verif.Spec.Forging
import Verif.Props.Gen
import Verif.Samples
import Verif.Spec.Samples
import Verif.Props.Samples
import Verif.Pic
import Verif.Spec.Pic
import Verif.Props.Pic
import Verif.Spec.Cursor
import Verif.ZemuTests
import Verif.Props.Cursor
import Verif.Props.Scripted
import Verif.Spec.Verdicts
import Verif.Props.Verdicts
import Verif.Props.ZemuBaking
import Verif.Spec.Machine
import Verif.Props.Machine
import Verif.Props.Forgets
import Verif.Props.Unnamed
import Verif.Props.Reported
import Verif.Props.Recovery
import Verif.Props.Settle
import Verif.Props.Resume
import Verif.RealHash
import Verif.Conformance.Base
import Verif.Conformance.Screens
import Verif.Conformance.Menu
import Verif.Conformance.Vectors
import Verif.Conformance.Units
