import Verif.Model.Basic
/-
Data types of the oracle (oracle/types.go) and of the chain data it consumes.
-/
namespace Verif

/-- oracle/types.go:19-25 `RewardType`. -/
inductive RewardType | unknown | vanila | mev
  deriving DecidableEq, Repr

/-- oracle/types.go:27-37 `ValidatorStatus`. -/
inductive Status | unknownState | active | yellowCard | redCard | notSubscribed | banned | untracked
  deriving DecidableEq, Repr

/-- oracle/types.go:39-51 `Event` (inputs of the validator state machine). -/
inductive Ev | unknownEvent | proposalOk | proposalMissed | proposalWrongFee | manualSubscription
  | autoSubscription | unsubscribe | manualBan | manualUnban
  deriving DecidableEq, Repr

/-- oracle/types.go:53-61 `BlockType`. -/
inductive BlockType | unknown | missed | wrongFee | okPool | okPoolBls
  deriving DecidableEq, Repr

/-- oracle/types.go:63-69 `WithdrawalType`; `bls` is the zero value. -/
inductive WType | bls | eth1 | electra
  deriving DecidableEq, Repr

/-- oracle/types.go:71-81 `SubscriptionType`; `manual` is the zero value. -/
inductive SubType | manual | auto
  deriving DecidableEq, Repr

/-- go-eth2-client api/v1 `ValidatorState`, the beacon chain status of a validator.
/repo: oracle/oracle.go:975-986 -/
inductive BStatus | unknown | pendingInitialized | pendingQueued | activeOngoing | activeExiting
  | activeSlashed | exitedUnslashed | exitedSlashed | withdrawalPossible | withdrawalDone
  deriving DecidableEq, Repr

/-- go-eth2-client `ValidatorState.IsActive` (library), used in oracle/oracle.go:308. -/
def BStatus.isActive : BStatus → Bool
  | .activeOngoing | .activeExiting | .activeSlashed => true
  | _ => false

/-- A `*v1.Validator` returned by the beacon node: index, status, withdrawal credentials
(bytes), public key (bytes), effective balance (Gwei, uint64). Other fields are not used by
the modelled code. /repo: oracle/onchain.go:292-379 -/
structure BVal where
  index : Nat
  status : BStatus
  creds : List Nat
  pubkey : List Nat
  effBal : Nat
  deriving DecidableEq, Repr

/-- oracle/types.go:165-174 `ValidatorInfo`. Balances are numbers; sharing of `*big.Int`
pointers is studied in `Verif.Model.Heap`. -/
structure Validator where
  status : Status
  acc : Int
  pend : Int
  coll : Int
  waddr : Str
  index : Nat
  key : Str
  subType : SubType
  deriving DecidableEq, Repr

/-- `contract.ContractSubscribeValidator` (fields used). /repo: contract/contract.go:3033-3038 -/
structure SubEvent where
  validatorId : Nat
  collateral : Int
  sender : Str
  block : Nat
  deriving DecidableEq, Repr

/-- `contract.ContractUnsubscribeValidator` (fields used). /repo: contract/contract.go:3437-3441 -/
structure UnsubEvent where
  validatorId : Nat
  sender : Str
  block : Nat
  deriving DecidableEq, Repr

/-- `contract.ContractEtherReceived` (fields used): amount, emitting contract, block.
/repo: contract/contract.go:1937-1941 -/
structure EtherEvent where
  amount : Int
  addr : Str
  block : Nat
  deriving DecidableEq, Repr

/-- `contract.ContractBanValidator` / `contract.ContractUnbanValidator` (fields used).
/repo: contract/contract.go:1667-1670, 3303-3306 -/
structure BanEvent where
  validatorId : Nat
  block : Nat
  deriving DecidableEq, Repr

/-- oracle/types.go:101-121 `Events`: the kinds the oracle acts upon. The other kinds are only
checked for their block number in block.go:161-310 and are left out. -/
structure Events where
  ether : List EtherEvent := []
  subs : List SubEvent := []
  unsubs : List UnsubEvent := []
  /-- `UpdatePoolFee[i].NewPoolFee` -/
  poolFee : List Int := []
  /-- `PoolFeeRecipient[i].NewPoolFeeRecipient.String()` -/
  feeRecipient : List Str := []
  /-- `CheckpointSlotSize[i].NewCheckpointSlotSize` -/
  cpSize : List Nat := []
  /-- `UpdateSubscriptionCollateral[i].NewSubscriptionCollateral` -/
  collateral : List Int := []
  bans : List BanEvent := []
  unbans : List BanEvent := []
  deriving DecidableEq, Repr

/-- A decoded transaction (go-ethereum `types.Transaction`). `sender = none`: the sender could
not be recovered. `to = none`: contract creation. /repo: utils/utils.go:30-48 -/
structure Tx where
  to : Option Str
  sender : Option Str
  value : Int
  type : Nat
  gasPrice : Int
  tipCap : Int
  feeCap : Int
  hash : Nat
  deriving DecidableEq, Repr

/-- Fork version of a `spec.VersionedSignedBeaconBlock`; `none` of the modelled fields set is
rendered by `phase0`. /repo: oracle/block.go:83-126, 650-815 -/
inductive Fork | phase0 | altair | bellatrix | capella | deneb | electra | fulu
  deriving DecidableEq, Repr

/-- Base fee of an execution payload: 32 little-endian bytes up to Capella, a 256-bit integer
from Deneb on (oracle/block.go:795-831). -/
inductive BaseFee | bytesLE (bs : List Nat) | u256 (n : Nat)
  deriving DecidableEq, Repr

/-- The fields of a signed beacon block that the oracle reads. A raw transaction that cannot be
decoded is `none`. /repo: oracle/block.go:83-126, 650-815 -/
structure ConsBlock where
  fork : Fork
  slot : Nat
  proposer : Nat
  number : Nat
  feeRecipient : Str
  txs : List (Option Tx)
  gasUsed : Nat
  baseFee : BaseFee
  deriving DecidableEq, Repr

/-- Execution header (fields used). /repo: oracle/block.go:128-159 -/
structure Header where
  number : Nat
  baseFee : Int
  deriving DecidableEq, Repr

/-- Execution receipt (fields used). /repo: oracle/block.go:128-159, 490-515 -/
structure Receipt where
  txHash : Nat
  gasUsed : Nat
  block : Nat
  deriving DecidableEq, Repr

/-- oracle/types.go:125-148 `FullBlock`. `cons = none` means a missed proposal. -/
structure FullBlock where
  dutySlot : Nat
  dutyIndex : Nat
  dutyKey : Str
  validator : BVal
  cons : Option ConsBlock
  header : Option Header
  receipts : Option (List Receipt)
  events : Events
  valsSubs : List (Option BVal)
  valsUnsubs : List (Option BVal)
  chainId : Nat
  deriving DecidableEq, Repr

/-- oracle/types.go:153-162 `SummarizedBlock`. `reward = none` is a nil pointer (it can arise,
see `Verif.Model.Block`). -/
structure SumBlock where
  slot : Nat
  block : Nat
  index : Nat
  key : Str
  type : BlockType
  reward : Option Int
  rewardType : RewardType
  waddr : Str
  deriving DecidableEq, Repr

/-- oracle/types.go:225-228 `RawLeaf`. -/
structure Leaf where
  waddr : Str
  bal : Int
  deriving DecidableEq, Repr

/-- A Go `map[uint64]*ValidatorInfo`: association list with ascending keys. The iteration order
Go chooses is supplied separately (`Env.perm`). /repo: oracle/types.go:186-223 -/
abbrev VMap := List (Nat × Validator)

/-- oracle/types.go:177-184 `OnchainState` (a frozen checkpoint). `TxHash` is never set. The two
string-keyed maps are association lists. -/
structure Frozen where
  slot : Nat
  root : Str
  vals : VMap
  leafs : List (Str × Leaf)
  proofs : List (Str × List Str)
  deriving DecidableEq, Repr

/-- oracle/types.go:186-223 `OracleState`. `tick` is not in Go: it numbers map iterations and
beacon node calls so that the environment can answer each of them differently. -/
structure State where
  stateHash : Str
  latestSlot : Nat
  latestBlock : Nat
  nextSlot : Nat
  poolFees : Int
  vals : VMap
  committed : List (Nat × Frozen)
  subs : List SubEvent
  unsubs : List UnsubEvent
  ether : List EtherEvent
  donations : List EtherEvent
  proposed : List SumBlock
  missed : List SumBlock
  wrongFee : List SumBlock
  fee : Int
  poolAddr : Str
  network : Str
  poolFeesAddr : Str
  cpSize : Nat
  depBlock : Nat
  depSlot : Nat
  collateral : Int
  tick : Nat
  deriving DecidableEq, Repr

/-- oracle/types.go:83-98 `Config` (fields used by the oracle core). -/
structure Config where
  network : Str
  poolAddr : Str
  depSlot : Nat
  depBlock : Nat
  cpSize : Nat
  fee : Int
  poolFeesAddr : Str
  dryRun : Bool
  collateral : Int
  deriving DecidableEq, Repr

/-- oracle/oracle.go:32-38 `Oracle` without the mutex (see `Verif.Model.Locks`). -/
structure Oracle where
  cfg : Config
  st : State
  deriving DecidableEq, Repr

/-- What the outside world decides: the order of the `t`-th map iteration (a permutation of
positions), the beacon node's answers and the pending consolidations. /repo: oracle/oracle.go:261-407, 1559-1668 -/
structure Env where
  /-- iteration order: positions in which a map of `n` entries is visited by loop number `t` -/
  perm : Nat → Nat → List Nat
  /-- answer of the beacon node to call number `t` for validators at a slot (`none`: error). The
  list is the returned map in some order. -/
  node : Nat → Nat → List Nat → Option (List BVal)
  /-- pending consolidations (source, target) at a slot (`none`: error) -/
  consol : Nat → Nat → Option (List (Nat × Nat))

/-- The elements of `l` in the order in which loop number `t` visits them.
/repo: oracle/oracle.go:261-407, 1559-1668; oracle/merklelizer.go:51 -/
def Env.shuffle {α : Type} (E : Env) (t : Nat) (l : List α) : List α :=
  (E.perm t l.length).filterMap fun i => l[i]?

end Verif
