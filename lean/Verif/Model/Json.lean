import Verif.Model.GoMap
/-
The JSON form of the oracle state (oracle/types.go:150-379, encoding/json). A document is a tree `J`;
turning trees into text and back is library code (`Lib` in `Verif.Model.Persist`).
-/
namespace Verif

/-- A JSON document (encoding/json). Numbers are integers: the program stores no others.
/repo: oracle/oracle.go:508, 593, 605, 993 (`json.MarshalIndent`, `json.Unmarshal`) -/
inductive J
  | null
  | bool (b : Bool)
  | num (n : Int)
  | str (s : Str)
  | arr (l : List J)
  | obj (fs : List (Str × J))

/-- The value of a struct field: encoding/json ignores letter case in keys and the last occurrence
wins. `none`: the key is missing and the field keeps its zero value.
/repo: oracle/oracle.go:508, 593, 605, 993 (`json.MarshalIndent`, `json.Unmarshal`) -/
def J.field (fs : List (Str × J)) (tag : Str) : Option J :=
  ((fs.filter fun p => lower p.1 == lower tag).getLast?).map (·.2)

/-- oracle/types.go:230-239 `RewardType.String`, 241-243 `MarshalJSON`. -/
def RewardType.name : RewardType → Str
  | .vanila => b!"vanila"
  | .mev => b!"mev"
  | .unknown => b!"unknownrewardtype"

/-- oracle/types.go:245-261 `RewardType.UnmarshalJSON`. -/
def RewardType.parse (s : Str) : Option RewardType :=
  if s = b!"vanila" then some .vanila
  else if s = b!"mev" then some .mev
  else if s = b!"unknownrewardtype" then some .unknown
  else none

/-- oracle/types.go:263-280 `ValidatorStatus.String`, 281-283 `MarshalJSON`. -/
def Status.name : Status → Str
  | .active => b!"active"
  | .yellowCard => b!"yellowcard"
  | .redCard => b!"redcard"
  | .notSubscribed => b!"notsubscribed"
  | .banned => b!"banned"
  | .untracked => b!"untracked"
  | .unknownState => b!"unknownstate"

/-- oracle/types.go:285-309 `ValidatorStatus.UnmarshalJSON`. -/
def Status.parse (s : Str) : Option Status :=
  if s = b!"active" then some .active
  else if s = b!"yellowcard" then some .yellowCard
  else if s = b!"redcard" then some .redCard
  else if s = b!"notsubscribed" then some .notSubscribed
  else if s = b!"banned" then some .banned
  else if s = b!"untracked" then some .untracked
  else if s = b!"unknownstate" then some .unknownState
  else none

/-- oracle/types.go:311-324 `BlockType.String`, 326-328 `MarshalJSON`. -/
def BlockType.name : BlockType → Str
  | .missed => b!"missedproposal"
  | .wrongFee => b!"wrongfeerecipient"
  | .okPool => b!"okpoolproposal"
  | .okPoolBls => b!"okpoolproposalblskeys"
  | .unknown => b!"unknownblocktype"

/-- oracle/types.go:330-350 `BlockType.UnmarshalJSON`. -/
def BlockType.parse (s : Str) : Option BlockType :=
  if s = b!"missedproposal" then some .missed
  else if s = b!"wrongfeerecipient" then some .wrongFee
  else if s = b!"okpoolproposal" then some .okPool
  else if s = b!"okpoolproposalblskeys" then some .okPoolBls
  else if s = b!"unknownblocktype" then some .unknown
  else none

/-- oracle/types.go:352-363 `SubscriptionType.String`, `MarshalJSON`. -/
def SubType.name : SubType → Str
  | .auto => b!"auto"
  | .manual => b!"manual"

/-- oracle/types.go:365-379 `SubscriptionType.UnmarshalJSON`. -/
def SubType.parse (s : Str) : Option SubType :=
  if s = b!"auto" then some .auto
  else if s = b!"manual" then some .manual
  else none

/-- Decimal text of a number with at most `k` digits (`strconv`, `fmt` `%d`).
/repo: oracle/oracle.go:508, 593, 605, 993 (`json.MarshalIndent`, `json.Unmarshal`) -/
def decDigits : Nat → Nat → Str
  | 0, _ => []
  | k + 1, n => if n < 10 then [48 + n] else decDigits k (n / 10) ++ [48 + n % 10]

/-- Decimal text of a `uint64`: it has at most 20 digits.
/repo: oracle/oracle.go:508, 593, 605, 993 (`json.MarshalIndent`, `json.Unmarshal`) -/
def decimal (n : Nat) : Str := decDigits 20 n

/-- `strconv.ParseUint(s, 10, 64)`.
/repo: oracle/oracle.go:508, 593, 605, 993 (`json.MarshalIndent`, `json.Unmarshal`) -/
def parseUint (s : Str) : Option Nat :=
  if s = [] ∨ ¬ s.all (fun c => 48 ≤ c && c ≤ 57) then none
  else
    let n := s.foldl (fun a c => a * 10 + (c - 48)) 0
    if n < 2 ^ 64 then some n else none

/-- encoding/json into a `string`.
/repo: oracle/oracle.go:508, 593, 605, 993 (`json.MarshalIndent`, `json.Unmarshal`) -/
def getS : Option J → Option Str
  | none | some .null => some []
  | some (.str s) => some s
  | _ => none

/-- encoding/json into a `uint64`.
/repo: oracle/oracle.go:508, 593, 605, 993 (`json.MarshalIndent`, `json.Unmarshal`) -/
def getU : Option J → Option Nat
  | none | some .null => some 0
  | some (.num n) => if 0 ≤ n ∧ n < 2 ^ 64 then some n.toNat else none
  | _ => none

/-- encoding/json into an `int` (64 bits).
/repo: oracle/oracle.go:508, 593, 605, 993 (`json.MarshalIndent`, `json.Unmarshal`) -/
def getI : Option J → Option Int
  | none | some .null => some 0
  | some (.num n) => if -2 ^ 63 ≤ n ∧ n < 2 ^ 63 then some n else none
  | _ => none

/-- encoding/json into a `*big.Int` that may be nil.
/repo: oracle/oracle.go:508, 593, 605, 993 (`json.MarshalIndent`, `json.Unmarshal`) -/
def getBO : Option J → Option (Option Int)
  | none | some .null => some none
  | some (.num n) => some (some n)
  | _ => none

/-- encoding/json into a `*big.Int` that the program never leaves nil. Simplification: a missing or
null number is rejected here, Go would keep a nil pointer.
/repo: oracle/oracle.go:508, 593, 605, 993 (`json.MarshalIndent`, `json.Unmarshal`) -/
def getB : Option J → Option Int
  | some (.num n) => some n
  | _ => none

/-- encoding/json into an enumeration through its `UnmarshalJSON`; a missing key keeps the zero value,
`null` is unmarshalled as the empty string.
/repo: oracle/oracle.go:508, 593, 605, 993 (`json.MarshalIndent`, `json.Unmarshal`) -/
def getEnum {α : Type} (parse : Str → Option α) (zero : α) : Option J → Option α
  | none => some zero
  | some (.str s) => parse s
  | some .null => parse []
  | _ => none

/-- encoding/json into a slice.
/repo: oracle/oracle.go:508, 593, 605, 993 (`json.MarshalIndent`, `json.Unmarshal`) -/
def getArr {α : Type} (f : J → Option α) : Option J → Option (List α)
  | none | some .null => some []
  | some (.arr l) => l.mapM f
  | _ => none

/-- encoding/json into a map: keys through `key`, each entry of the text assigned with `put`, so that of
a repeated key the last is kept.
/repo: oracle/oracle.go:508, 593, 605, 993 (`json.MarshalIndent`, `json.Unmarshal`) -/
def getMap {κ α : Type} (key : Str → Option κ) (put : List (κ × α) → κ → α → List (κ × α))
    (f : J → Option α) : Option J → Option (List (κ × α))
  | none | some .null => some []
  | some (.obj fs) => do
    let l ← fs.mapM fun p => do
      let k ← key p.1
      let v ← f p.2
      some (k, v)
    some (l.foldl (fun m p => put m p.1 p.2) [])
  | _ => none

/-- oracle/types.go:165-174: the JSON form of `ValidatorInfo`. -/
def encVal (v : Validator) : J :=
  .obj [(b!"status", .str v.status.name), (b!"accumulated_rewards_wei", .num v.acc),
    (b!"pending_rewards_wei", .num v.pend), (b!"collateral_wei", .num v.coll),
    (b!"withdrawal_address", .str v.waddr), (b!"validator_index", .num v.index),
    (b!"validator_key", .str v.key), (b!"subscription_type", .str v.subType.name)]

/-- oracle/types.go:165-174: reading a `ValidatorInfo`. Simplification: `null` is rejected, Go would
keep a nil pointer. -/
def decVal : J → Option Validator
  | .obj fs => do
    let status ← getEnum Status.parse .unknownState (J.field fs b!"status")
    let acc ← getB (J.field fs b!"accumulated_rewards_wei")
    let pend ← getB (J.field fs b!"pending_rewards_wei")
    let coll ← getB (J.field fs b!"collateral_wei")
    let waddr ← getS (J.field fs b!"withdrawal_address")
    let index ← getU (J.field fs b!"validator_index")
    let key ← getS (J.field fs b!"validator_key")
    let subType ← getEnum SubType.parse .manual (J.field fs b!"subscription_type")
    some { status, acc, pend, coll, waddr, index, key, subType }
  | _ => none

/-- oracle/types.go:153-162: the JSON form of `SummarizedBlock`; a nil reward is `null`. -/
def encSum (b : SumBlock) : J :=
  .obj [(b!"slot", .num b.slot), (b!"block", .num b.block), (b!"validator_index", .num b.index),
    (b!"validator_key", .str b.key), (b!"block_type", .str b.type.name),
    (b!"reward_wei", match b.reward with | none => .null | some r => .num r),
    (b!"reward_type", .str b.rewardType.name), (b!"withdrawal_address", .str b.waddr)]

/-- oracle/types.go:153-162: reading a `SummarizedBlock`. -/
def decSum : J → Option SumBlock
  | .obj fs => do
    let slot ← getU (J.field fs b!"slot")
    let block ← getU (J.field fs b!"block")
    let index ← getU (J.field fs b!"validator_index")
    let key ← getS (J.field fs b!"validator_key")
    let type ← getEnum BlockType.parse .unknown (J.field fs b!"block_type")
    let reward ← getBO (J.field fs b!"reward_wei")
    let rewardType ← getEnum RewardType.parse .unknown (J.field fs b!"reward_type")
    let waddr ← getS (J.field fs b!"withdrawal_address")
    some { slot, block, index, key, type, reward, rewardType, waddr }
  | _ => none

/-- oracle/types.go:225-228: the JSON form of `RawLeaf`. -/
def encLeaf (l : Leaf) : J :=
  .obj [(b!"withdrawal_address", .str l.waddr), (b!"accumulated_balance_wei", .num l.bal)]

/-- oracle/types.go:225-228: reading a `RawLeaf`. -/
def decLeaf : J → Option Leaf
  | .obj fs => do
    let waddr ← getS (J.field fs b!"withdrawal_address")
    let bal ← getB (J.field fs b!"accumulated_balance_wei")
    some { waddr, bal }
  | _ => none

/-- The JSON form of a `map[uint64]T` (encoding/json): keys in decimal, sorted as texts.
/repo: oracle/oracle.go:508, 593, 605, 993 (`json.MarshalIndent`, `json.Unmarshal`) -/
def encNatMap {α : Type} (f : α → J) (m : List (Nat × α)) : J :=
  .obj (sortFields (m.map fun p => (decimal p.1, f p.2)))

/-- The JSON form of a `map[string]T` (encoding/json): sorted keys.
/repo: oracle/oracle.go:508, 593, 605, 993 (`json.MarshalIndent`, `json.Unmarshal`) -/
def encStrMap {α : Type} (f : α → J) (m : List (Str × α)) : J :=
  .obj (sortFields (m.map fun p => (p.1, f p.2)))

/-- oracle/types.go:177-184: the JSON form of `OnchainState`. `TxHash` is never set. -/
def encFrozen (f : Frozen) : J :=
  .obj [(b!"slot", .num f.slot), (b!"tx_hash", .str []), (b!"merkle_root", .str f.root),
    (b!"validators", encNatMap encVal f.vals), (b!"leafs", encStrMap encLeaf f.leafs),
    (b!"proofs", encStrMap (fun ps => .arr (ps.map .str)) f.proofs)]

/-- oracle/types.go:177-184: reading an `OnchainState`. -/
def decFrozen : J → Option Frozen
  | .obj fs => do
    let slot ← getU (J.field fs b!"slot")
    let root ← getS (J.field fs b!"merkle_root")
    let vals ← getMap parseUint putNat decVal (J.field fs b!"validators")
    let leafs ← getMap some putStr decLeaf (J.field fs b!"leafs")
    let proofs ← getMap some putStr (fun j => getArr (fun x => getS (some x)) (some j))
      (J.field fs b!"proofs")
    some { slot, root, vals, leafs, proofs }
  | _ => none

/-- contract/contract.go:3033-3038 `ContractSubscribeValidator`. Simplification, here and below: of
the raw log only the modelled fields are written, and as plain numbers and texts. -/
def encSub (e : SubEvent) : J :=
  .obj [(b!"Sender", .str e.sender), (b!"SubscriptionCollateral", .num e.collateral),
    (b!"ValidatorID", .num e.validatorId), (b!"Raw", .obj [(b!"blockNumber", .num e.block)])]

/-- The fields of a nested object; none for anything else (simplification: not an error).
/repo: oracle/oracle.go:508, 593, 605, 993 (`json.MarshalIndent`, `json.Unmarshal`) -/
def subObj : Option J → List (Str × J)
  | some (.obj fs) => fs
  | _ => []

/-- contract/contract.go:3033-3038: reading a subscription event. -/
def decSub : J → Option SubEvent
  | .obj fs => do
    let sender ← getS (J.field fs b!"Sender")
    let collateral ← getB (J.field fs b!"SubscriptionCollateral")
    let validatorId ← getU (J.field fs b!"ValidatorID")
    let block ← getU (J.field (subObj (J.field fs b!"Raw")) b!"blockNumber")
    some { validatorId, collateral, sender, block }
  | _ => none

/-- contract/contract.go:3437-3441 `ContractUnsubscribeValidator`. -/
def encUnsub (e : UnsubEvent) : J :=
  .obj [(b!"Sender", .str e.sender), (b!"ValidatorID", .num e.validatorId),
    (b!"Raw", .obj [(b!"blockNumber", .num e.block)])]

/-- contract/contract.go:3437-3441: reading an unsubscription event. -/
def decUnsub : J → Option UnsubEvent
  | .obj fs => do
    let sender ← getS (J.field fs b!"Sender")
    let validatorId ← getU (J.field fs b!"ValidatorID")
    let block ← getU (J.field (subObj (J.field fs b!"Raw")) b!"blockNumber")
    some { validatorId, sender, block }
  | _ => none

/-- contract/contract.go:1937-1941 `ContractEtherReceived`; the sender is not modelled. -/
def encEther (e : EtherEvent) : J :=
  .obj [(b!"DonationAmount", .num e.amount),
    (b!"Raw", .obj [(b!"address", .str e.addr), (b!"blockNumber", .num e.block)])]

/-- contract/contract.go:1937-1941: reading an event of received ether. -/
def decEther : J → Option EtherEvent
  | .obj fs => do
    let amount ← getB (J.field fs b!"DonationAmount")
    let addr ← getS (J.field (subObj (J.field fs b!"Raw")) b!"address")
    let block ← getU (J.field (subObj (J.field fs b!"Raw")) b!"blockNumber")
    some { amount, addr, block }
  | _ => none

/-- oracle/types.go:186-223: the JSON form of `OracleState`. `tick` is not part of the
program. -/
def encState (s : State) : J :=
  .obj [(b!"state_hash", .str s.stateHash), (b!"latest_processed_slot", .num s.latestSlot),
    (b!"latest_processed_block", .num s.latestBlock), (b!"next_slot_to_process", .num s.nextSlot),
    (b!"pool_accumulated_fees", .num s.poolFees), (b!"validators", encNatMap encVal s.vals),
    (b!"commited_states", encNatMap encFrozen s.committed),
    (b!"subscriptions_events", .arr (s.subs.map encSub)),
    (b!"unsubscriptions_events", .arr (s.unsubs.map encUnsub)),
    (b!"ether_received_events", .arr (s.ether.map encEther)),
    (b!"donations", .arr (s.donations.map encEther)),
    (b!"proposed_blocks", .arr (s.proposed.map encSum)),
    (b!"missed_blocks", .arr (s.missed.map encSum)),
    (b!"wrong_fee_blocks", .arr (s.wrongFee.map encSum)),
    (b!"pool_fees_percent_over_10000", .num s.fee), (b!"pool_address", .str s.poolAddr),
    (b!"network", .str s.network), (b!"pool_fees_address", .str s.poolFeesAddr),
    (b!"check_point_size_in_slots", .num s.cpSize), (b!"deployed_block", .num s.depBlock),
    (b!"deployed_slot", .num s.depSlot), (b!"collateral_in_wei", .num s.collateral)]

/-- oracle/types.go:186-223: reading an `OracleState`. -/
def decState : J → Option State
  | .obj fs => do
    let stateHash ← getS (J.field fs b!"state_hash")
    let latestSlot ← getU (J.field fs b!"latest_processed_slot")
    let latestBlock ← getU (J.field fs b!"latest_processed_block")
    let nextSlot ← getU (J.field fs b!"next_slot_to_process")
    let poolFees ← getB (J.field fs b!"pool_accumulated_fees")
    let vals ← getMap parseUint putNat decVal (J.field fs b!"validators")
    let committed ← getMap parseUint putNat decFrozen (J.field fs b!"commited_states")
    let subs ← getArr decSub (J.field fs b!"subscriptions_events")
    let unsubs ← getArr decUnsub (J.field fs b!"unsubscriptions_events")
    let ether ← getArr decEther (J.field fs b!"ether_received_events")
    let donations ← getArr decEther (J.field fs b!"donations")
    let proposed ← getArr decSum (J.field fs b!"proposed_blocks")
    let missed ← getArr decSum (J.field fs b!"missed_blocks")
    let wrongFee ← getArr decSum (J.field fs b!"wrong_fee_blocks")
    let fee ← getI (J.field fs b!"pool_fees_percent_over_10000")
    let poolAddr ← getS (J.field fs b!"pool_address")
    let network ← getS (J.field fs b!"network")
    let poolFeesAddr ← getS (J.field fs b!"pool_fees_address")
    let cpSize ← getU (J.field fs b!"check_point_size_in_slots")
    let depBlock ← getU (J.field fs b!"deployed_block")
    let depSlot ← getU (J.field fs b!"deployed_slot")
    let collateral ← getB (J.field fs b!"collateral_in_wei")
    some { stateHash, latestSlot, latestBlock, nextSlot, poolFees, vals, committed, subs, unsubs, ether,
           donations, proposed, missed, wrongFee, fee, poolAddr, network, poolFeesAddr, cpSize,
           depBlock, depSlot, collateral, tick := 0 }
  | _ => none

end Verif
