import Verif.Model.Advance
/-
oracle/onchain.go:292-335, 524-567, 925-1090 and the constructors of oracle/block.go:36-312: how a
block is put together from what the consensus and execution clients answer.
-/
namespace Verif

/-- What the clients answer. `none` is an error after all retries. /repo: oracle/onchain.go:930-1092 -/
structure Chain where
  chainId : Nat
  /-- `Onchain.PoolAddress` -/
  pool : Str
  /-- `GetProposalDuty` (modelled in `Verif.Model.Onchain`): slot, validator index and key of the duty -/
  duty : Nat → Option (Nat × Nat × Str)
  /-- the map returned by the beacon node for one validator index at a slot -/
  validators : Nat → Nat → Option (List (Nat × BVal))
  /-- `GetConsensusBlockAtSlot`; `some none` is a missed slot (answer 404) -/
  cons : Nat → Option (Option ConsBlock)
  /-- the nine event getters for an execution block number; `none`: one of them failed. -/
  events : Nat → Option Events
  /-- `HeaderByNumber` -/
  header : Nat → Option Header
  /-- `TransactionReceipt` by transaction hash -/
  receipt : Nat → Option Receipt

/-- oracle/onchain.go:292-335 `GetSingleValidator`: `none` is an error, `some none` a validator the
node does not know. -/
def singleValidator (C : Chain) (i slot : Nat) : Option (Option BVal) :=
  match C.validators i slot with
  | none => none
  | some l =>
    if l.length > 1 then none
    else if l.length = 0 then some none
    else match l.find? (fun p => p.1 == i) with
      | none => none
      | some (_, v) => if v.index ≠ i then none else some (some v)

/-- oracle/onchain.go:534-566: receipts of all transactions; an undecodable transaction is Fatal. -/
def fetchReceipts (C : Chain) : List (Option Tx) → List Receipt → M (Option (List Receipt))
  | [], acc => .ok (some acc)
  | none :: _, _ => .error .fatal
  | some tx :: rest, acc =>
    match C.receipt tx.hash with
    | none => .ok none
    | some r => fetchReceipts C rest (acc ++ [r])

/-- oracle/onchain.go:524-567 `GetExecHeaderAndReceipts`; `.ok none` is a returned error. -/
def headerAndReceipts (C : Chain) (number : Nat) (txs : List (Option Tx)) :
    M (Option (Header × List Receipt)) :=
  match C.header number with
  | none => .ok none
  | some h => do
    match ← fetchReceipts C txs [] with
    | none => .ok none
    | some rs => .ok (some (h, rs))

/-- oracle/block.go:36-79 `NewFullBlock` (a nil duty cannot reach it). -/
def newFullBlock (dutySlot dutyIndex : Nat) (dutyKey : Str) (v : Option BVal) (chainId : Nat) :
    M FullBlock :=
  match v with
  | none => .error .fatal
  | some v =>
    if v.index ≠ dutyIndex then .error .fatal
    else .ok { dutySlot := dutySlot, dutyIndex := dutyIndex, dutyKey := dutyKey, validator := v,
               cons := none, header := none, receipts := none, events := {}, valsSubs := [],
               valsUnsubs := [], chainId := chainId }

/-- oracle/block.go:82-121 `SetConsensusBlock`. -/
def setConsensus (b : FullBlock) (c : ConsBlock) : M FullBlock := do
  let slot ← c.base (·.slot)
  if b.dutySlot ≠ slot then .error .fatal
  else do
    let proposer ← c.base (·.proposer)
    if b.dutyIndex ≠ proposer then .error .fatal
    else .ok { b with cons := some c }

/-- oracle/block.go:290-310: the payment added by hand for mainnet slot 10400574. -/
def exceptionEvent : EtherEvent :=
  { amount := exceptionReward, addr := b!"0x0000000000000000000000000000000000000000", block := 0 }

/-- oracle/block.go:161-312 `SetEvents`. The block numbers of the four configuration events are not
in the model, so their sanity check is left out; ban and unban events are not checked by the code
either. -/
def setEvents (b : FullBlock) (c : ConsBlock) (evs : Events) : M FullBlock := do
  let number ← c.exec (·.number)
  if evs.ether.any (fun e => e.block ≠ number) then .error .fatal
  else if evs.subs.any (fun e => e.block ≠ number) then .error .fatal
  else if evs.unsubs.any (fun e => e.block ≠ number) then .error .fatal
  else do
    let slot ← c.base (·.slot)
    if b.chainId = mainnetChainId ∧ slot = exceptionSlot then
      .ok { b with events := { evs with ether := evs.ether ++ [exceptionEvent] } }
    else .ok { b with events := evs }

/-- oracle/block.go:126-157 `SetHeaderAndReceipts`. -/
def setHeaderAndReceipts (b : FullBlock) (c : ConsBlock) (h : Header) (rs : List Receipt) :
    M FullBlock := do
  let number ← c.exec (·.number)
  if number ≠ h.number then .error .fatal
  else if (rs.head?).any (fun r => number ≠ r.block) then .error .fatal
  else .ok { b with header := some h, receipts := some rs }

/-- oracle/onchain.go:1038-1052: the validators named in subscription and unsubscription events. -/
def fetchVals (C : Chain) (slot : Nat) : List Nat → M (List (Option BVal))
  | [] => .ok []
  | i :: rest =>
    match singleValidator C i slot with
    | none => .error .fatal
    | some v => do
      let vs ← fetchVals C slot rest
      .ok (v :: vs)

/-- oracle/onchain.go:930-1090 `FetchFullBlock`; `s` is the state of the oracle passed in. -/
def fetchFullBlock (C : Chain) (s : State) (slot : Nat) (fetchAll : Bool) : M FullBlock :=
  match C.duty slot with
  | none => .error .fatal
  | some (dslot, dindex, dkey) =>
    if dslot ≠ slot then .error .fatal
    else match singleValidator C dindex slot with
      | none => .error .fatal
      | some v => do
        let b0 ← newFullBlock dslot dindex dkey v C.chainId
        match C.cons slot with
        | none => .error .fatal
        | some none => .ok b0
        | some (some c) => do
          let b1 ← setConsensus b0 c
          let cslot ← c.base (·.slot)
          if cslot ≠ slot then .error .fatal
          else do
            let number ← c.exec (·.number)
            match C.events number with
            | none => .error .fatal
            | some evs => do
              let b2 ← setEvents b1 c evs
              let vs ← fetchVals C slot (b2.events.subs.map (·.validatorId))
              let us ← fetchVals C slot (b2.events.unsubs.map (·.validatorId))
              let b3 := { b2 with valsSubs := vs, valsUnsubs := us }
              let proposer ← c.base (·.proposer)
              let rewarded ← isAddressRewarded b3 C.pool
              if fetchAll || (s.isSubscribed proposer || rewarded) then do
                let txs ← c.exec (·.txs)
                match ← headerAndReceipts C number txs with
                | none => .error .fatal
                | some (h, rs) => setHeaderAndReceipts b3 c h rs
              else .ok b3

end Verif
