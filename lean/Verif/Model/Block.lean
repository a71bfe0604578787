import Verif.Model.Handlers
/-
oracle/block.go: what a block paid, to whom, and its summary.
-/
namespace Verif

/-- oracle/onchain.go:42-45 chain identifiers. -/
def mainnetChainId : Nat := 1
/-- oracle/onchain.go:44 -/
def holeskyChainId : Nat := 17000
/-- oracle/onchain.go:45 -/
def hoodiChainId : Nat := 560048

/-- oracle/block.go:23-29 `WhitelistedBuilders`; `none`: chain not in the map. -/
def whitelistedBuilders (chain : Nat) : Option (List Str) :=
  if chain = mainnetChainId then some [b!"0xae0A3D884E746599BD6C893a674E556C36a47f1e"]
  else if chain = holeskyChainId then some []
  else if chain = hoodiChainId then some []
  else none

/-- oracle/block.go:33 `ExceptionSlotMainnet1`. -/
def exceptionSlot : Nat := 10400574

/-- oracle/block.go:354 -/
def exceptionReward : Int := 177043568463114308

/-- oracle/block.go:355 -/
def exceptionRecipient : Str := b!"0xAdFb8D27671F14f297eE94135e266aAFf8752e35"

/-- oracle/block.go:650-669, 672-691, 694-713, 773-792, 795-831: the getters of execution fields
are Fatal on Altair or empty blocks. -/
def ConsBlock.exec {α : Type} (c : ConsBlock) (f : ConsBlock → α) : M α :=
  match c.fork with
  | .phase0 | .altair => .error .fatal
  | _ => .ok (f c)

/-- oracle/block.go:721-744, 747-770: slot and proposer are also available on Altair. -/
def ConsBlock.base {α : Type} (c : ConsBlock) (f : ConsBlock → α) : M α :=
  match c.fork with
  | .phase0 => .error .fatal
  | _ => .ok (f c)

/-- the `k` low base-256 digits of `n`, least significant first. /repo: oracle/block.go:480-487 -/
def leBytes : Nat → Nat → List Nat
  | 0, _ => []
  | k + 1, n => n % 256 :: leBytes k (n / 256)

/-- `big.Int.SetBytes`: big-endian bytes to number. /repo: oracle/block.go:487 -/
def setBytes (bs : List Nat) : Nat := bs.foldl (fun acc b => acc * 256 + b) 0

/-- oracle/block.go:795-831 `GetBaseFeePerGas`: 32 little-endian bytes in all forks. -/
def baseFeeBytes (c : ConsBlock) : List Nat :=
  match c.baseFee with
  | .bytesLE bs => bs
  | .u256 n => (leBytes 32 n).reverse.reverse

/-- Result of `MevRewardInWei`: amount, present, recipient. /repo: oracle/block.go:314 -/
structure Mev where
  amount : Int
  present : Bool
  recipient : Str
  deriving DecidableEq, Repr

/-- oracle/block.go:314-401: no reward found -/
def Mev.none : Mev := ⟨0, false, []⟩

/-- oracle/block.go:386-393: the recipient of the last transaction's payment. -/
def mevRecipient (evs : List EtherEvent) (value : Int) (to : Str) : Str :=
  match evs.find? (fun e => e.amount == value) with
  | some e => lower e.addr
  | none => lower to

/-- oracle/block.go:314-398 `MevRewardInWei`. A nil consensus block is a nil dereference. -/
def mevReward (b : FullBlock) : M Mev :=
  match b.cons with
  | none => .error .panic
  | some c => do
    let txs ← c.exec (·.txs)
    match txs.getLast? with
    | none => .ok Mev.none
    | some none => .error .fatal
    | some (some tx) =>
      match tx.to with
      | none => .ok Mev.none
      | some to =>
        match tx.sender with
        | none => .error .fatal
        | some sender =>
          match whitelistedBuilders b.chainId with
          | none => .error .fatal
          | some wl => do
            let slot ← c.base (·.slot)
            if b.chainId = mainnetChainId ∧ slot = exceptionSlot then
              .ok ⟨exceptionReward, true, exceptionRecipient⟩
            else do
              let fr ← c.exec (·.feeRecipient)
              let isFr ← equals fr sender
              let isWl ← (if isFr then .ok true else isIn sender wl)
              if isWl then
                .ok ⟨tx.value, true, mevRecipient b.events.ether tx.value to⟩
              else .ok Mev.none

/-- Outcome of `GetProposerTip`: an error, a value, or `(nil, nil)` — block.go:497 wraps a nil
error, so a hash mismatch returns a nil reward and no error. -/
inductive Tip | err | nil | val (x : Int)
  deriving DecidableEq, Repr

/-- oracle/block.go:491-517: sum of what the senders paid for gas. -/
def tipLoop (hdrBase : Int) : List (Option Tx) → List Receipt → Int → Tip
  | [], _, tips => .val tips
  | none :: _, _, _ => .err
  | some tx :: rest, rs, tips =>
    match rs with
    | [] => .err   -- unreachable: lengths were compared before
    | r :: rs' =>
      if tx.hash ≠ r.txHash then .nil
      else
        let gasUsed := i64 r.gasUsed
        if tx.type = 0 ∨ tx.type = 1 then tipLoop hdrBase rest rs' (tips + tx.gasPrice * gasUsed)
        else if tx.type = 2 ∨ tx.type = 3 ∨ tx.type = 4 then
          tipLoop hdrBase rest rs' (tips + sumAndSaturate tx.tipCap hdrBase tx.feeCap * gasUsed)
        else .err

/-- oracle/block.go:465-522 `GetProposerTip`. -/
def proposerTip (b : FullBlock) : M Tip :=
  match b.receipts with
  | none => .ok .err
  | some rs =>
    match b.header with
    | none => .ok .err
    | some h =>
      match b.cons with
      | none => .error .panic
      | some c => do
        let txs ← c.exec (·.txs)
        if txs.length ≠ rs.length then .ok .err
        else do
          let bf ← c.exec baseFeeBytes
          let baseFee : Int := setBytes bf.reverse
          let gas ← c.exec (·.gasUsed)
          match tipLoop h.baseFee txs rs 0 with
          | .err => .ok .err
          | .nil => .ok .nil
          | .val tips => .ok (.val (tips - i64 gas * baseFee))

/-- oracle/block.go:403-448 `GetSentRewardAndType`: (reward, was it sent to the pool, type). -/
def sentReward (b : FullBlock) (pool : Str) (isSubscriber : Bool) :
    M (Option Int × Bool × RewardType) := do
  let mev ← mevReward b
  if mev.present then do
    let toPool ← equals mev.recipient pool
    .ok (some mev.amount, toPool, .mev)
  else
    match b.cons with
    | none => .error .panic
    | some c => do
      let fr ← c.exec (·.feeRecipient)
      let frPool ← equals fr pool
      if frPool || isSubscriber then do
        let tip ← proposerTip b
        match tip with
        | .err => .error .fatal
        | .nil => .ok (none, frPool, .vanila)
        | .val x => .ok (some x, frPool, .vanila)
      else .ok (some 0, false, .unknown)

/-- oracle/block.go:450-460 `isAddressRewarded`. -/
def isAddressRewarded (b : FullBlock) (addr : Str) : M Bool :=
  match b.cons with
  | none => .error .panic
  | some c => do
    let fr ← c.exec (·.feeRecipient)
    let isFr ← equals fr addr
    if isFr then .ok true
    else do
      let mev ← mevReward b
      if mev.present then equals mev.recipient addr else .ok false

/-- oracle/block.go:528-594 `GetDonations`. -/
def getDonations (b : FullBlock) (pool : Str) : M (List EtherEvent) :=
  match b.cons with
  | none => .ok []
  | some _ => do
    let mev ← mevReward b
    let toPool ← (if mev.present then equals mev.recipient pool else .ok false)
    if !toPool then .ok b.events.ether
    else if b.events.ether.any (fun e => e.amount == mev.amount) then
      .ok (b.events.ether.filter fun e => e.amount ≠ mev.amount)
    else .error .fatal

/-- oracle/block.go:597-647 `SummarizedBlock`. -/
def summarize (s : State) (b : FullBlock) (pool : Str) : M SumBlock := do
  let (w, wt) ← withdrawalAndType b.validator
  let base : SumBlock :=
    { slot := b.dutySlot, block := 0, index := b.dutyIndex, key := b.dutyKey, type := .unknown,
      reward := some 0, rewardType := .unknown, waddr := w }
  match b.cons with
  | none => .ok { base with type := .missed }
  | some c => do
    let proposer ← c.base (·.proposer)
    let (reward, toPool, rt) ← sentReward b pool (s.isSubscribed proposer)
    let number ← c.exec (·.number)
    .ok { base with
      reward := reward, rewardType := rt, block := number,
      type := if toPool then (match wt with | .bls => .okPoolBls | _ => .okPool) else .wrongFee }

end Verif
