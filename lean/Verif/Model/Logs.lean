import Verif.Model.TxDecode
import Verif.Model.Requests
/-
From the logs of a block to the events: contract/contract.go (generated by abigen) and go-ethereum v1.15.7,
accounts/abi/bind/base.go `UnpackLog` and accounts/abi/unpack.go. Used by the event getters, oracle/onchain.go:1296-1640.
-/
namespace Verif

/-- go-ethereum `types.Log`: the emitting contract, the topics, the data, the block.
/repo: contract/contract.go:1937-1941, 3033-3038 -/
structure Log where
  address : List Nat
  topics : List (List Nat)
  data : List Nat
  block : Nat
  deriving DecidableEq, Repr

/-- accounts/abi/event.go: the hash of the signature of an event. -/
def eventId (sig : Str) : List Nat := Keccak.keccak sig

/-- contract/contract.go:1674, 1945, 3042, 3310, 3445, 3579, 3713, 3847, 4115: the signatures of the nine kinds of
events that the oracle reads. -/
def sigEther : Str := b!"EtherReceived(address,uint256)"
/-- contract/contract.go:3042 -/
def sigSubscribe : Str := b!"SubscribeValidator(address,uint256,uint64)"
/-- contract/contract.go:3445 -/
def sigUnsubscribe : Str := b!"UnsubscribeValidator(address,uint64)"
/-- contract/contract.go:1674 -/
def sigBan : Str := b!"BanValidator(uint64)"
/-- contract/contract.go:3310 -/
def sigUnban : Str := b!"UnbanValidator(uint64)"
/-- contract/contract.go:3713 -/
def sigFee : Str := b!"UpdatePoolFee(uint256)"
/-- contract/contract.go:3847 -/
def sigRecipient : Str := b!"UpdatePoolFeeRecipient(address)"
/-- contract/contract.go:3579 -/
def sigCheckpoint : Str := b!"UpdateCheckpointSlotSize(uint64)"
/-- contract/contract.go:4115 -/
def sigCollateral : Str := b!"UpdateSubscriptionCollateral(uint256)"

/-- accounts/abi/bind/base.go `UnpackLog` for an event without indexed fields: the data, if the log has exactly the
topic of the event. Simplification: a log without any data is decoded by the library to an event of zeros and nil
pointers; here it cannot be decoded. -/
def unpackLog (sig : Str) (l : Log) : Option (List Nat) :=
  match l.topics with
  | [t] => if t = eventId sig ∧ l.data ≠ [] then some l.data else none
  | _ => none

/-- accounts/abi/unpack.go `toGoType`: the 32 bytes of field `i`. What follows the last field is ignored. -/
def logWord (data : List Nat) (i : Nat) : Option (List Nat) :=
  if i * 32 + 32 > data.length then none else some ((data.drop (i * 32)).take 32)

/-- A field of type `address`: the last 20 bytes; the others are ignored.
/repo: contract/contract.go:3033-3038, 3840-3843 -/
def abiAddress (data : List Nat) (i : Nat) : Option (List Nat) := (logWord data i).map (·.drop 12)

/-- A field of type `uint256`. /repo: contract/contract.go:1937-1941, 3706-3709 -/
def abiUint256 (data : List Nat) (i : Nat) : Option Nat := (logWord data i).map beNat

/-- A field of type `uint64`: accounts/abi/unpack.go `ReadInteger` refuses larger numbers. -/
def abiUint64 (data : List Nat) (i : Nat) : Option Nat := do
  let n ← abiUint256 data i
  if n < 2 ^ 64 then some n else none

/-- contract/contract.go:1936-1941 `ContractEtherReceived` -/
def logEther (l : Log) : Option EtherEvent := do
  let d ← unpackLog sigEther l
  let _ ← abiAddress d 0
  let x ← abiUint256 d 1
  some ⟨x, checksumHex Keccak.keccak l.address, l.block⟩

/-- contract/contract.go:3033-3038 `ContractSubscribeValidator` -/
def logSubscribe (l : Log) : Option SubEvent := do
  let d ← unpackLog sigSubscribe l
  let a ← abiAddress d 0
  let x ← abiUint256 d 1
  let v ← abiUint64 d 2
  some ⟨v, x, checksumHex Keccak.keccak a, l.block⟩

/-- contract/contract.go:3437-3441 `ContractUnsubscribeValidator` -/
def logUnsubscribe (l : Log) : Option UnsubEvent := do
  let d ← unpackLog sigUnsubscribe l
  let a ← abiAddress d 0
  let v ← abiUint64 d 1
  some ⟨v, checksumHex Keccak.keccak a, l.block⟩

/-- contract/contract.go:1667-1670 `ContractBanValidator` -/
def logBan (l : Log) : Option BanEvent := do
  let d ← unpackLog sigBan l
  let v ← abiUint64 d 0
  some ⟨v, l.block⟩

/-- contract/contract.go:3303-3306 `ContractUnbanValidator` -/
def logUnban (l : Log) : Option BanEvent := do
  let d ← unpackLog sigUnban l
  let v ← abiUint64 d 0
  some ⟨v, l.block⟩

/-- contract/contract.go:3706-3709 `ContractUpdatePoolFee` -/
def logFee (l : Log) : Option Int := do
  let d ← unpackLog sigFee l
  let x ← abiUint256 d 0
  some x

/-- contract/contract.go:3840-3843 `ContractUpdatePoolFeeRecipient` -/
def logRecipient (l : Log) : Option Str := do
  let d ← unpackLog sigRecipient l
  let a ← abiAddress d 0
  some (checksumHex Keccak.keccak a)

/-- contract/contract.go:3572-3575 `ContractUpdateCheckpointSlotSize` -/
def logCheckpoint (l : Log) : Option Nat := do
  let d ← unpackLog sigCheckpoint l
  abiUint64 d 0

/-- contract/contract.go:4108-4111 `ContractUpdateSubscriptionCollateral` -/
def logCollateral (l : Log) : Option Int := do
  let d ← unpackLog sigCollateral l
  let x ← abiUint256 d 0
  some x

/-- accounts/abi/bind/base.go `FilterLogs`: which logs the nine calls ask the node for: those of the block, of the
contract, whose first topic is that of the event. -/
def asked (pool : List Nat) (block : Nat) (sig : Str) (l : Log) : Bool :=
  l.block = block ∧ l.address = pool ∧ l.topics.head? = some (eventId sig)

/-- The same for a range without end: api/api.go:1124 and 1150. -/
def askedFrom (pool : List Nat) (start : Nat) (sig : Str) (l : Log) : Bool :=
  start ≤ l.block ∧ l.address = pool ∧ l.topics.head? = some (eventId sig)

/-- api/api.go:1122-1146 `GetSubscriptionsTillHead` and 1148-1171 `GetUnsubscriptionsTillHead`, the events. The records
of validators that are added to the subscriptions are added in `Verif.Model.Api`. -/
def tillHead (pool : List Nat) (logs : List Log) (start : Nat) : List SubEvent × List UnsubEvent :=
  (iterated ((logs.filter (askedFrom pool start sigSubscribe)).map logSubscribe),
    iterated ((logs.filter (askedFrom pool start sigUnsubscribe)).map logUnsubscribe))

end Verif
