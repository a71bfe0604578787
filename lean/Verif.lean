import Verif.Model.Advance
import Verif.Model.Reconcile
import Verif.Props.Distribution
import Verif.Props.Money
import Verif.Props.Tip
import Verif.Props.Identity
import Verif.Props.Slots
import Verif.Props.Status
import Verif.Props.Proposals
import Verif.Props.Refinement
import Verif.Props.Membership
import Verif.Props.Cleanup
import Verif.Model.Hex
import Verif.Model.Fetch
import Verif.Props.Creds
import Verif.Props.Reconcile
import Verif.Props.Fetch
import Verif.Props.Banned
import Verif.Props.Determinism
import Verif.Props.Merkle
import Verif.Lemmas.Total
import Verif.Props.Persist
import Verif.Props.MainLoop
import Verif.Props.Onchain
import Verif.Props.ApiInput
import Verif.Props.Statistics
import Verif.Props.ProofEndpoint
import Verif.Props.View
import Verif.Props.Locks
import Verif.Props.Shutdown
import Verif.Model.Heap
import Verif.Spec.Heap
import Verif.Lemmas.Heap
import Verif.Lemmas.HeapOps
import Verif.Lemmas.HeapSlot
import Verif.Lemmas.HeapFreeze
import Verif.Lemmas.HeapLoad
import Verif.Props.Heap
import Verif.Model.Startup
import Verif.Spec.Startup
import Verif.Props.Startup
import Verif.Props.Config
import Verif.Props.Schedule
import Verif.Model.Endpoints
import Verif.Spec.Endpoints
import Verif.Props.Endpoints
import Verif.Props.Answers
import Verif.Props.Listings
import Verif.Props.Idle
import Verif.Props.Requests
import Verif.Props.Agreement
import Verif.Props.Reads
import Verif.Props.ViewEndpoint
import Verif.Props.Books
import Verif.Props.Live
import Verif.Lemmas.Local
import Verif.Spec.Typed
import Verif.Lemmas.Keep
import Verif.Spec.Life
import Verif.Lemmas.Life
import Verif.Props.Life
import Verif.Model.Nodes
import Verif.Lemmas.Nodes
import Verif.Spec.Nodes
import Verif.Props.Nodes
import Verif.Spec.Pool
import Verif.Props.Pool
import Verif.Spec.System
import Verif.Lemmas.System
import Verif.Props.System
import Verif.Props.Rollback
import Verif.Props.Earnings
import Verif.Props.Leavers
import Verif.Props.Stakes
import Verif.Props.Groups
import Verif.Tests.Base
import Verif.Model.Keccak
import Verif.Model.Sha256
import Verif.Model.JsonText
import Verif.Model.GoLib
import Verif.Lemmas.JsonText
import Verif.Lemmas.GoLib
import Verif.Props.Library
import Verif.Tests.LibraryTest
import Verif.Tests.MerkleTest
import Verif.Tests.OracleTest
import Verif.Tests.FeeScheduleTest
import Verif.Tests.UtilsTest
import Verif.Tests.ApiTest
import Verif.Spec.Cleanup
import Verif.Lemmas.CleanExact
import Verif.Props.CleanupExact
import Verif.Props.Outage
import Verif.Spec.Orders
import Verif.Props.Orders
import Verif.Props.Disagree
import Verif.Spec.Lost
import Verif.Props.Lost
import Verif.Props.Once
import Verif.Props.Revenue
import Verif.Spec.Reorder
import Verif.Props.Reorder
import Verif.Props.BooksExact
import Verif.Props.StopExact
import Verif.Props.Exact
import Verif.Props.TipExact
import Verif.Props.ClaimsExact
import Verif.Props.LoadExact
import Verif.Props.Pieces
import Verif.Props.Elsewhere
import Verif.Props.Failed
import Verif.Props.OrdersCleanup
import Verif.Spec.SavedText
import Verif.Props.SavedText
import Verif.Model.GoMap
import Verif.Lemmas.GoMap
import Verif.Spec.Listed
import Verif.Props.Listed
import Verif.Spec.Consol
import Verif.Lemmas.Consol
import Verif.Lemmas.CleanIdle
import Verif.Lemmas.CleanKeys
import Verif.Props.CleanExact
import Verif.Spec.Rename
import Verif.Lemmas.Rename
import Verif.Props.Rename
import Verif.Spec.Dilute
import Verif.Lemmas.Dilute
import Verif.Props.Dilute
import Verif.Spec.Larger
import Verif.Props.Larger
import Verif.Spec.Exits
import Verif.Props.Exits
import Verif.Spec.LowerFee
import Verif.Props.LowerFee
import Verif.Model.Rlp
import Verif.Model.TxDecode
import Verif.Model.Secp
import Verif.Spec.TxBytes
import Verif.Lemmas.Rlp
import Verif.Lemmas.TxCodec
import Verif.Props.TxBytes
import Verif.Model.Logs
import Verif.Spec.Logs
import Verif.Props.Logs
import Verif.Props.LogsView
import Verif.Model.Submit
import Verif.Spec.Submit
import Verif.Props.Submit
import Verif.Spec.JsonGrammar
import Verif.Model.Replies
import Verif.Lemmas.JsonGrammar
import Verif.Spec.Client
import Verif.Props.Client
import Verif.Props.Payday
import Verif.Spec.Announce
import Verif.Props.Announce
import Verif.Model.Duration
import Verif.Spec.Duration
import Verif.Props.Duration
import Verif.Props.Times
import Verif.Spec.Queue
import Verif.Lemmas.Queue
import Verif.Props.Queue
import Verif.Props.Calls
import Verif.Model.Metrics
import Verif.Spec.Metrics
import Verif.Props.Metrics
import Verif.Spec.Keccak
import Verif.Lemmas.Keccak
import Verif.Spec.Sha256
import Verif.Lemmas.Sha256
import Verif.Props.Hashes
import Verif.Lemmas.SecpPrime
import Verif.Spec.Secp
import Verif.Lemmas.Secp
import Verif.Props.Signers
import Verif.Lemmas.NoPanic
import Verif.Lemmas.NoPanicLoop
import Verif.Props.NoPanic
import Verif.Spec.Shown
import Verif.Props.Shown
