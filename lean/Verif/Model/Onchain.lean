import Verif.Model.Advance
/-
oracle/onchain.go: the bulk validator lookup (336-379), the duty cache (55-62, 482-522) and the
submission of a root (1719-1829).
-/
namespace Verif

/-! ### Bulk validator lookup -/

/-- oracle/onchain.go:336-379 `GetSetOfValidators`. `answer` is what the beacon node returns after all
retries (`none`: error); a Go map from index to validator is an association list. `none`: an error is
returned. -/
def getSetOfValidators (answer : List Nat → Option (List (Nat × BVal))) (req : List Nat) :
    Option (List (Nat × BVal)) :=
  if req.length = 0 then none
  else match answer req with
    | none => none
    | some data =>
      if data.length = 0 then none
      else if req.any (fun i => !data.any (fun p => p.1 == i)) then none
      else some data

/-! ### The duty cache -/

/-- `v1.ProposerDuty`. /repo: oracle/onchain.go:482-523 -/
structure Duty where
  slot : Nat
  index : Nat
  key : Str
  deriving DecidableEq, Repr

/-- oracle/onchain.go:55-58 `EpochDuties`, the type of the cache. -/
structure DutyCache where
  epoch : Nat
  duties : List Duty
  deriving DecidableEq, Repr

/-- oracle/onchain.go:60-62: the global variable `ProposalDutyCache` starts with the zero value. -/
def DutyCache.init : DutyCache := ⟨0, []⟩

/-- oracle/onchain.go:482-522 `GetProposalDuty`: the cache afterwards and the duty (`none`: an error is
returned). An index out of range is a panic. `node epoch` is the answer of the beacon node after all
retries. -/
def getProposalDuty (node : Nat → Option (List Duty)) (c : DutyCache) (slot : Nat) :
    M (DutyCache × Option Duty) :=
  if c.epoch = slot / 32 then
    match c.duties[slot % 32]? with
    | none => .error .panic
    | some d => if c.epoch ≠ d.slot / 32 then .ok (c, none) else .ok (c, some d)
  else match node (slot / 32) with
    | none => .ok (c, none)
    | some l => match l[slot % 32]? with
      | none => .error .panic
      | some d => .ok (⟨slot / 32, l⟩, some d)

/-! ### Submitting a root -/

/-- The value of a hexadecimal digit in Go's encoding/hex (`fromHexChar`). /repo: oracle/onchain.go:1728, 1733 -/
def fromHexChar (c : Nat) : Option Nat :=
  if 48 ≤ c ∧ c ≤ 57 then some (c - 48)
  else if 97 ≤ c ∧ c ≤ 102 then some (c - 97 + 10)
  else if 65 ≤ c ∧ c ≤ 70 then some (c - 65 + 10)
  else none

/-- go-ethereum `common.Hex2Bytes`: `hex.DecodeString` with the error dropped, that is, the bytes before
the first thing that is not a pair of digits. /repo: oracle/onchain.go:1728, 1733 -/
def hex2Bytes : Str → List Nat
  | a :: b :: rest =>
    match fromHexChar a, fromHexChar b with
    | some x, some y => (16 * x + y) :: hex2Bytes rest
    | _, _ => []
  | _ => []

/-- What `instance.SubmitReport` can return: the transaction was sent, the call reverts with "Slot number
invalid" during gas estimation, or another error. /repo: oracle/onchain.go:1782-1830 -/
inductive Sending | sent | slotInvalid | failed
  deriving DecidableEq, Repr

/-- What `bind.WaitMined` can do: it returns a receipt in time; a receipt, but the deadline has passed
when the code looks at the clock; no receipt before the deadline. /repo: oracle/onchain.go:1782-1830 -/
inductive Mining | mined (status : Nat) | late (status : Nat) | timeout
  deriving DecidableEq, Repr

/-- What the execution client does while a root is submitted. `ready`: nonce, chain id, transactor and
contract instance could be had. /repo: oracle/onchain.go:1719-1830 -/
structure TxWorld where
  ready : Bool
  sending : Sending
  mining : Mining

/-- `UpdateContractMerkleRoot` returns nil, the error the main loop tolerates, or another error.
/repo: oracle/onchain.go:1719-1830; main.go:441-457 -/
inductive Submitted | ok | slotInvalid | failed
  deriving DecidableEq, Repr

/-- oracle/onchain.go:1719-1743: from the text of a root to the 32 bytes; `none`: an error. The Go array
has 32 entries. -/
def rootBytes (root : Str) : Option (List Nat) :=
  let r := if root.take 2 = b!"0x" then root.drop 2 else root
  let bytes := hex2Bytes r
  if bytes.length ≠ 32 then none
  else if hexEncode bytes ≠ r then none
  else some bytes

/-- oracle/onchain.go:1719-1829 `UpdateContractMerkleRoot`: what is returned, and the slot and bytes given
to the contract if a transaction was sent. `errors.Wrap(err, …)` of a nil error is nil: that is the case
for a receipt with a failed status and for a receipt that arrives at the deadline. -/
def updateContractMerkleRoot (W : TxWorld) (slot : Nat) (root : Str) :
    Submitted × Option (Nat × List Nat) :=
  match rootBytes root with
  | none => (.failed, none)
  | some bytes =>
    if !W.ready then (.failed, none)
    else match W.sending with
      | .failed => (.failed, none)
      | .slotInvalid => (.slotInvalid, none)
      | .sent => match W.mining with
        | .timeout => (.failed, some (slot, bytes))
        | .late _ => (.ok, some (slot, bytes))
        | .mined status => if status ≠ 1 then (.ok, some (slot, bytes)) else (.ok, some (slot, bytes))

end Verif
