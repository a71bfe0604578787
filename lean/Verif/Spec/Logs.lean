import Verif.Model.Logs
import Verif.Spec.TxBytes
/-
What the contract writes into the logs, as Solidity defines it (contract ABI specification, "Events" and "Formal
specification of the encoding"), with the topics of the deployed contract as numbers (comments in
contract/contract.go). Uses of the model only the types of logs and events and the text of an address.
-/
namespace Verif

/-- What the contract can tell. `other`: the kinds of events that the oracle does not read. -/
inductive PoolEvent
  | etherReceived (sender : List Nat) (amount : Nat)
  | subscribe (sender : List Nat) (collateral id : Nat)
  | unsubscribe (sender : List Nat) (id : Nat)
  | ban (id : Nat)
  | unban (id : Nat)
  | fee (fee : Nat)
  | feeRecipient (address : List Nat)
  | checkpoint (slots : Nat)
  | collateral (amount : Nat)
  | other (topic : Nat) (indexed : List (List Nat)) (data : List Nat)

/-- A number in 32 bytes, the most significant first. -/
def word32 (n : Nat) : List Nat := List.replicate (32 - (BE n).length) 0 ++ BE n

/-- An address in 32 bytes. -/
def addressWord (a : List Nat) : List Nat := List.replicate 12 0 ++ a

/-- The topics of the events that the oracle reads. -/
def readTopics : List Nat :=
  [0x1e57e3bb474320be3d2c77138f75b7c3941292d647f5f9634e33a8e94e0e069b,
   0x1094f8cfeb6abd0fd67e4ce1e1d3999c0176a4d8c7f8325e3ecddb5a1249fde9,
   0x5a984d13ffecb21f69de43956dcd971abcff8e187fac09a0ce3209562da14e0a,
   0xb6978e4c15338f096fdd02b00c667cb63eeedd4df4f2243213e9371dbc5d1ca7,
   0xaa0f7dc1145b1a2a0195373eca47d4c7a42be75b0579288456153a416494a581,
   0x19d74da91b7de020180f04c1c60faba431bd76ecf962935e6f65ecbf0223ecfc,
   0xae901f1a96a9fc6852e6b162ea0b9887c37b667fb5d2d925b6e4a607aac0bf62,
   0x8e0e8e986a04eea90f6e33488f9756f53cb482049ca8269e6864c797b8bcae6e,
   0xdb50d3f51ff6294ba829f0d7f6b99b5b606a52807d5106ef44151d9297720217]

/-- The position of the kind in `readTopics`; the topic. -/
def PoolEvent.topic : PoolEvent → Nat
  | .etherReceived .. => readTopics[0]
  | .subscribe .. => readTopics[1]
  | .unsubscribe .. => readTopics[2]
  | .ban .. => readTopics[3]
  | .unban .. => readTopics[4]
  | .fee .. => readTopics[5]
  | .feeRecipient .. => readTopics[6]
  | .checkpoint .. => readTopics[7]
  | .collateral .. => readTopics[8]
  | .other t .. => t

/-- The further topics. -/
def PoolEvent.indexed : PoolEvent → List (List Nat)
  | .other _ i _ => i
  | _ => []

/-- The data: the fields in order. -/
def PoolEvent.data : PoolEvent → List Nat
  | .etherReceived s x => addressWord s ++ word32 x
  | .subscribe s x v => addressWord s ++ word32 x ++ word32 v
  | .unsubscribe s v => addressWord s ++ word32 v
  | .ban v => word32 v
  | .unban v => word32 v
  | .fee x => word32 x
  | .feeRecipient a => addressWord a
  | .checkpoint n => word32 n
  | .collateral x => word32 x
  | .other _ _ d => d

/-- The log of an event, emitted by `pool` in block `b`. -/
def PoolEvent.log (pool : List Nat) (b : Nat) (e : PoolEvent) : Log :=
  ⟨pool, word32 e.topic :: e.indexed, e.data, b⟩

/-- The fields are within their Solidity types; other kinds have other topics. -/
def PoolEvent.WF : PoolEvent → Prop
  | .etherReceived s x => IsBytes 20 s ∧ x < 2 ^ 256
  | .subscribe s x v => IsBytes 20 s ∧ x < 2 ^ 256 ∧ v < 2 ^ 64
  | .unsubscribe s v => IsBytes 20 s ∧ v < 2 ^ 64
  | .ban v => v < 2 ^ 64
  | .unban v => v < 2 ^ 64
  | .fee x => x < 2 ^ 256
  | .feeRecipient a => IsBytes 20 a
  | .checkpoint n => n < 2 ^ 64
  | .collateral x => x < 2 ^ 256
  | .other t _ _ => t < 2 ^ 256 ∧ t ∉ readTopics

/-- The text of an address. -/
abbrev addressText (a : List Nat) : Str := checksumHex Keccak.keccak a

/-- What the oracle should hear of these events, block `b`. -/
def toldEvents (pool : List Nat) (b : Nat) (es : List PoolEvent) : Events where
  ether := es.filterMap fun e => match e with
    | .etherReceived _ x => some ⟨x, addressText pool, b⟩ | _ => none
  subs := es.filterMap fun e => match e with
    | .subscribe s x v => some ⟨v, x, addressText s, b⟩ | _ => none
  unsubs := es.filterMap fun e => match e with
    | .unsubscribe s v => some ⟨v, addressText s, b⟩ | _ => none
  poolFee := es.filterMap fun e => match e with
    | .fee x => some (x : Int) | _ => none
  feeRecipient := es.filterMap fun e => match e with
    | .feeRecipient a => some (addressText a) | _ => none
  cpSize := es.filterMap fun e => match e with
    | .checkpoint n => some n | _ => none
  collateral := es.filterMap fun e => match e with
    | .collateral x => some (x : Int) | _ => none
  bans := es.filterMap fun e => match e with
    | .ban v => some ⟨v, b⟩ | _ => none
  unbans := es.filterMap fun e => match e with
    | .unban v => some ⟨v, b⟩ | _ => none

/-- All logs of the chain: those of the pool in block `b` are the events `es`, in this order; there may be any logs of
other contracts and of other blocks between them. -/
def PoolLogged (pool : List Nat) (b : Nat) (es : List PoolEvent) (logs : List Log) : Prop :=
  logs.filter (fun l => l.address = pool ∧ l.block = b) = es.map (PoolEvent.log pool b)

/-- Whenever the execution client answers one of the nine questions, it answers with what was asked for. -/
structure HonestLogs (pool : List Nat) (b : Nat) (logs : List Log) (R : LogReplies) : Prop where
  ether : ∀ k l, R.ether k = some l → l = (logs.filter (asked pool b sigEther)).map logEther
  subs : ∀ k l, R.subs k = some l → l = (logs.filter (asked pool b sigSubscribe)).map logSubscribe
  unsubs : ∀ k l, R.unsubs k = some l → l = (logs.filter (asked pool b sigUnsubscribe)).map logUnsubscribe
  poolFee : ∀ k l, R.poolFee k = some l → l = (logs.filter (asked pool b sigFee)).map logFee
  feeRecipient : ∀ k l, R.feeRecipient k = some l →
    l = (logs.filter (asked pool b sigRecipient)).map logRecipient
  cpSize : ∀ k l, R.cpSize k = some l → l = (logs.filter (asked pool b sigCheckpoint)).map logCheckpoint
  collateral : ∀ k l, R.collateral k = some l →
    l = (logs.filter (asked pool b sigCollateral)).map logCollateral
  bans : ∀ k l, R.bans k = some l → l = (logs.filter (asked pool b sigBan)).map logBan
  unbans : ∀ k l, R.unbans k = some l → l = (logs.filter (asked pool b sigUnban)).map logUnban

end Verif
