import Verif.Model.Merkle
import Mathlib.Logic.Function.Basic
/-
The oracle with its numbers behind pointers, as Go has them: every `*big.Int` is the address of a cell in a
heap, `z.Add(z, y)` overwrites the cell of `z`, `big.NewInt` makes a new cell, and an assignment between
pointers shares the cell (oracle/oracle.go, oracle/merklelizer.go). The other files of the model work with
the numbers themselves; `Verif.Props.Heap` proves that this makes no difference.

A `*ValidatorInfo` is made at three places (oracle.go:366, 1247, 1511), always by `&ValidatorInfo{…}` for one
entry of the map, so the structure itself is never shared and stands here in the map directly. Intermediate
results of a calculation are plain numbers when the cell they are in is made in the same function, is
written only there and is not kept: reward shares (oracle.go:1586-1703), sums (oracle.go:301, 1411).
-/
namespace Verif

/-- The address of a `big.Int`. -/
notation "Ptr" => Nat

/-- The memory in which the numbers are. Cells from `next` on have not been used yet.
/repo: oracle/oracle.go:1541-1557, 1788-1836 (the `*big.Int` fields) -/
structure Heap where
  cell : Ptr → Int
  next : Ptr

/-- Go `big.NewInt(x)`, `new(big.Int).Set(…)`.
/repo: oracle/oracle.go:1541-1557, 1788-1836 (the `*big.Int` fields) -/
def Heap.new (h : Heap) (x : Int) : Heap := ⟨Function.update h.cell h.next x, h.next + 1⟩

/-- Overwrite one cell. /repo: oracle/oracle.go:1541-1557, 1788-1836 (the `*big.Int` fields) -/
def Heap.write (h : Heap) (c : Ptr) (x : Int) : Heap := ⟨Function.update h.cell c x, h.next⟩

/-- Go `z.Add(z, y)`. /repo: oracle/oracle.go:1541-1557, 1788-1836 (the `*big.Int` fields) -/
def Heap.add (h : Heap) (z y : Ptr) : Heap := h.write z (h.cell z + h.cell y)

/-! ### A Go map with numbers as keys: association list with ascending keys -/

namespace KMap

/-- `m[k]` with the "found" flag. /repo: oracle/types.go:186-223 (`Validators`) -/
def get {α : Type} (m : List (Nat × α)) (k : Nat) : Option α :=
  match m with
  | [] => none
  | (k', v) :: rest => if k' = k then some v else get rest k

/-- Assignment to fields of `m[k]`. /repo: oracle/types.go:186-223 (`Validators`) -/
def modify {α : Type} (m : List (Nat × α)) (k : Nat) (f : α → α) : List (Nat × α) :=
  m.map fun p => if p.1 = k then (p.1, f p.2) else p

/-- `m[k] = v`. /repo: oracle/types.go:186-223 (`Validators`) -/
def insert {α : Type} (m : List (Nat × α)) (k : Nat) (v : α) : List (Nat × α) :=
  match m with
  | [] => [(k, v)]
  | (k', v') :: rest =>
    if k < k' then (k, v) :: (k', v') :: rest
    else if k = k' then (k, v) :: rest
    else (k', v') :: insert rest k v

end KMap

/-! ### The types of oracle/types.go with pointers -/

/-- oracle/types.go:165-174 `ValidatorInfo`. -/
structure PVal where
  status : Status
  acc : Ptr
  pend : Ptr
  coll : Ptr
  waddr : Str
  index : Nat
  key : Str
  subType : SubType

/-- contract/contract.go:3033-3038 `ContractSubscribeValidator`. -/
structure PSub where
  validatorId : Nat
  collateral : Ptr
  sender : Str
  block : Nat

/-- contract/contract.go:1937-1941 `ContractEtherReceived`. -/
structure PEther where
  amount : Ptr
  addr : Str
  block : Nat

/-- oracle/types.go:153-162 `SummarizedBlock`; `reward = none` is a nil pointer. -/
structure PSum where
  slot : Nat
  block : Nat
  index : Nat
  key : Str
  type : BlockType
  reward : Option Ptr
  rewardType : RewardType
  waddr : Str

/-- oracle/types.go:225-228 `RawLeaf`. -/
structure PLeaf where
  waddr : Str
  bal : Ptr

/-- oracle/types.go:177-184 `OnchainState`. -/
structure PFrozen where
  slot : Nat
  root : Str
  vals : List (Nat × PVal)
  leafs : List (Str × PLeaf)
  proofs : List (Str × List Str)

/-- The records and checkpoints of oracle/types.go:186-223 `OracleState`: what is only ever added to. -/
structure PLogs where
  committed : List (Nat × PFrozen)
  subs : List PSub
  ether : List PEther
  donations : List PEther
  proposed : List PSum
  missed : List PSum
  wrongFee : List PSum
  collateral : Ptr

/-- oracle/types.go:186-223 `OracleState`. -/
structure PState where
  stateHash : Str
  latestSlot : Nat
  latestBlock : Nat
  nextSlot : Nat
  poolFees : Ptr
  vals : List (Nat × PVal)
  logs : PLogs
  unsubs : List UnsubEvent
  fee : Int
  poolAddr : Str
  network : Str
  poolFeesAddr : Str
  cpSize : Nat
  depBlock : Nat
  depSlot : Nat
  tick : Nat

/-- The state of the oracle and the heap. /repo: oracle/types.go:186-223 -/
structure Mem where
  heap : Heap
  st : PState

/-! ### Looking at the numbers behind the pointers -/

/-- A validator as the rest of the model has it. /repo: oracle/types.go:165-175 -/
def PVal.read (h : Heap) (v : PVal) : Validator :=
  ⟨v.status, h.cell v.acc, h.cell v.pend, h.cell v.coll, v.waddr, v.index, v.key, v.subType⟩

/-- A map of validators as the rest of the model has it. /repo: oracle/types.go:165-175 -/
def readVals (h : Heap) (m : List (Nat × PVal)) : VMap := m.map fun p => (p.1, p.2.read h)

/-- A subscription event as the rest of the model has it. /repo: contract/contract.go:3033-3038 -/
def PSub.read (h : Heap) (e : PSub) : SubEvent := ⟨e.validatorId, h.cell e.collateral, e.sender, e.block⟩

/-- A payment event as the rest of the model has it. /repo: contract/contract.go:1937-1941 -/
def PEther.read (h : Heap) (e : PEther) : EtherEvent := ⟨h.cell e.amount, e.addr, e.block⟩

/-- A block summary as the rest of the model has it. /repo: oracle/types.go:153-163 -/
def PSum.read (h : Heap) (b : PSum) : SumBlock :=
  ⟨b.slot, b.block, b.index, b.key, b.type, b.reward.map h.cell, b.rewardType, b.waddr⟩

/-- A leaf as the rest of the model has it. /repo: oracle/types.go:225-228 -/
def PLeaf.read (h : Heap) (l : PLeaf) : Leaf := ⟨l.waddr, h.cell l.bal⟩

/-- A checkpoint as the rest of the model has it. /repo: oracle/types.go:177-184 -/
def PFrozen.read (h : Heap) (f : PFrozen) : Frozen :=
  ⟨f.slot, f.root, readVals h f.vals, f.leafs.map fun p => (p.1, p.2.read h), f.proofs⟩

/-- The state as the rest of the model has it. /repo: oracle/types.go:186-223 -/
def Mem.read (m : Mem) : State :=
  { stateHash := m.st.stateHash, latestSlot := m.st.latestSlot, latestBlock := m.st.latestBlock
    nextSlot := m.st.nextSlot, poolFees := m.heap.cell m.st.poolFees, vals := readVals m.heap m.st.vals
    committed := m.st.logs.committed.map fun p => (p.1, p.2.read m.heap)
    subs := m.st.logs.subs.map (·.read m.heap), unsubs := m.st.unsubs
    ether := m.st.logs.ether.map (·.read m.heap), donations := m.st.logs.donations.map (·.read m.heap)
    proposed := m.st.logs.proposed.map (·.read m.heap), missed := m.st.logs.missed.map (·.read m.heap)
    wrongFee := m.st.logs.wrongFee.map (·.read m.heap), fee := m.st.fee, poolAddr := m.st.poolAddr
    network := m.st.network, poolFeesAddr := m.st.poolFeesAddr, cpSize := m.st.cpSize
    depBlock := m.st.depBlock, depSlot := m.st.depSlot, collateral := m.heap.cell m.st.logs.collateral
    tick := m.st.tick }

/-! ### Making cells -/

/-- Make cells for one thing after the other. /repo: oracle/oracle.go:590-681 -/
def allocAll {α β : Type} (f : α → Heap → Heap × β) : List α → Heap → Heap × List β
  | [], h => (h, [])
  | a :: rest, h =>
    let r := f a h
    let rs := allocAll f rest r.1
    (rs.1, r.2 :: rs.2)

/-- One validator read by encoding/gob (utils/utils.go:221-228) or encoding/json (oracle/oracle.go:593): a new
cell for every number. -/
def newVal (p : Nat × Validator) (h : Heap) : Heap × (Nat × PVal) :=
  let h1 := h.new p.2.acc
  let h2 := h1.new p.2.pend
  (h2.new p.2.coll,
    (p.1, ⟨p.2.status, h.next, h1.next, h2.next, p.2.waddr, p.2.index, p.2.key, p.2.subType⟩))

/-- A subscription event decoded from a log (contract/contract.go:3092-3099) or read from the file. -/
def newSub (e : SubEvent) (h : Heap) : Heap × PSub :=
  (h.new e.collateral, ⟨e.validatorId, h.next, e.sender, e.block⟩)

/-- A payment event decoded from a log (contract/contract.go:1995-2002) or read from the file. -/
def newEther (e : EtherEvent) (h : Heap) : Heap × PEther :=
  (h.new e.amount, ⟨h.next, e.addr, e.block⟩)

/-- oracle/block.go:597-647 `SummarizedBlock`: the reward is a new number (a difference in block.go:519, a
copy made by `tx.Value()`, or `big.NewInt`). Also a summary read from the file. -/
def newSum (b : SumBlock) (h : Heap) : Heap × PSum :=
  match b.reward with
  | none => (h, ⟨b.slot, b.block, b.index, b.key, b.type, none, b.rewardType, b.waddr⟩)
  | some x => (h.new x, ⟨b.slot, b.block, b.index, b.key, b.type, some h.next, b.rewardType, b.waddr⟩)

/-- A leaf read from the file. /repo: oracle/oracle.go:590-681 -/
def newLeaf (p : Str × Leaf) (h : Heap) : Heap × (Str × PLeaf) :=
  (h.new p.2.bal, (p.1, ⟨p.2.waddr, h.next⟩))

/-- A checkpoint read from the file. /repo: oracle/oracle.go:590-681 -/
def newFrozen (p : Nat × Frozen) (h : Heap) : Heap × (Nat × PFrozen) :=
  let vs := allocAll newVal p.2.vals h
  let ls := allocAll newLeaf p.2.leafs vs.1
  (ls.1, (p.1, ⟨p.2.slot, p.2.root, vs.2, ls.2, p.2.proofs⟩))

/-! ### oracle/oracle.go:1541-1834: the functions that touch balances -/

/-- Assignment to fields of `or.state.Validators[i]`. /repo: oracle/oracle.go:1111-1389 -/
def Mem.modVal (m : Mem) (i : Nat) (f : PVal → PVal) : Mem :=
  { m with st := { m.st with vals := KMap.modify m.st.vals i f } }

/-- `or.state.Validators[i] = &ValidatorInfo{...}` (oracle.go:366,1247,1511). -/
def Mem.putVal (m : Mem) (i : Nat) (v : PVal) : Mem :=
  { m with st := { m.st with vals := KMap.insert m.st.vals i v } }

/-- The ghost counter of map iterations and node calls. /repo: oracle/types.go:186-223 -/
def Mem.setTick (m : Mem) (t : Nat) : Mem := { m with st := { m.st with tick := t } }

/-- oracle/oracle.go:1875-2052 `advanceStateMachine`. -/
def Mem.advance (m : Mem) (i : Nat) (e : Ev) : Mem :=
  m.modVal i fun v => { v with status := transition v.status e }

/-- `or.state.Validators[i].SubscriptionType = t`. /repo: oracle/oracle.go:1111-1389 -/
def Mem.setSubType (m : Mem) (i : Nat) (t : SubType) : Mem := m.modVal i fun v => { v with subType := t }

/-- oracle/oracle.go:1815-1825 `sendRewardToPool`, also 1717, 1751. -/
def Mem.toPool (m : Mem) (x : Ptr) : Mem := { m with heap := m.heap.add m.st.poolFees x }

/-- oracle/oracle.go:1788-1798 `increaseValidatorPendingRewards`. -/
def Mem.incPending (m : Mem) (i : Nat) (x : Ptr) : M Mem :=
  match KMap.get m.st.vals i with
  | none => .error .panic
  | some v => .ok { m with heap := m.heap.add v.pend x }

/-- oracle/oracle.go:1801-1812 `increaseValidatorAccumulatedRewards`. -/
def Mem.incAccumulated (m : Mem) (i : Nat) (x : Ptr) : M Mem :=
  match KMap.get m.st.vals i with
  | none => .error .panic
  | some v => .ok { m with heap := m.heap.add v.acc x }

/-- oracle/oracle.go:1828-1834 `resetPendingRewards`: a new cell, the old one keeps its value. -/
def Mem.resetPending (m : Mem) (i : Nat) : M Mem :=
  match KMap.get m.st.vals i with
  | none => .error .panic
  | some _ =>
    .ok (Mem.modVal { m with heap := m.heap.new 0 } i fun v => { v with pend := m.heap.next })

/-- oracle/oracle.go:1541-1556 `consolidateBalance`. -/
def Mem.consolidate (m : Mem) (i : Nat) : M Mem :=
  match KMap.get m.st.vals i with
  | none => .error .panic
  | some v =>
    let h := m.heap.add v.acc v.pend
    .ok (Mem.modVal { m with heap := h.new 0 } i fun v => { v with pend := h.next })

/-- The pointer `or.state.Validators[i].PendingRewardsWei`. /repo: oracle/oracle.go:1545 -/
def Mem.pendPtr (m : Mem) (i : Nat) : M Ptr :=
  match KMap.get m.st.vals i with
  | none => .error .panic
  | some v => .ok v.pend

/-- The loops at oracle/oracle.go:1764-1768 and 1777-1781. -/
def sharesP : List (Nat × Ptr) → Mem → M Mem
  | [], m => .ok m
  | (i, x) :: rest, m => do
    let m1 ← m.incPending i x
    sharesP rest m1

/-- oracle/oracle.go:1611-1628: a new cell for one share of the electra method. -/
def newShare (p : Nat × Int) (h : Heap) : Heap × (Nat × Ptr) := (h.new p.2, (p.1, h.next))

/-- oracle/oracle.go:1711-1785 `increaseAllPendingRewards`; `reward` may point to the pending balance of a
validator. With the methods `PreFork1` and `Fork1` all validators are given the same cell. -/
def increaseAllP (E : Env) (net : Str) (m : Mem) (reward : Ptr) : M Mem :=
  let elig := eligible E m.read
  if elig = [] then
    .ok ((m.toPool reward).setTick (m.st.tick + 1))
  else if m.st.fee > 10000 then .error .fatal
  else
    let r := m.heap.cell reward
    let aux := r * m.st.fee
    let poolCut := aux / 10000
    let n : Int := elig.length
    do
      let method ← rewardMethod net m.st.nextSlot
      let (fees, h, shares) ← (match method with
        | .electra => do
          let (fees, shares) ← electraSplit E m.read r poolCut elig
          let (h, ptrs) := allocAll newShare shares m.heap
          .ok (fees, h, ptrs)
        | .fork1 => do
          let (fees, per) ← fork1Split r poolCut n
          .ok (fees, m.heap.new per, elig.map fun i => (i, m.heap.next))
        | .preFork1 => do
          let (fees, per) ← preFork1Split r poolCut aux 10000 n
          .ok (fees, m.heap.new per, elig.map fun i => (i, m.heap.next)))
      let m1 := Mem.toPool { m with heap := h.new fees } h.next
      let m2 ← sharesP (E.shuffle (m.st.tick + 3) shares) m1
      .ok (m2.setTick (m.st.tick + 4))

/-! ### oracle/oracle.go:1050-1537: the handlers -/

/-- oracle/oracle.go:1131-1280: one event of `handleManualSubscriptions`. A new validator's collateral is the
cell of the event. -/
def subOneP (m : Mem) (ev : PSub) (val : Option BVal) : M Mem :=
  let s := m.read
  match val with
  | none => .ok (m.toPool ev.collateral)
  | some v =>
    if ev.validatorId ≠ v.index then .error .fatal
    else if !canSubscribe v.status then .ok (m.toPool ev.collateral)
    else match compatAddressByte v.creds with
      | none => .ok (m.toPool ev.collateral)
      | some w => do
        let senderOk ← equals ev.sender w
        if !senderOk then .ok (m.toPool ev.collateral)
        else if s.isBanned ev.validatorId then m.incAccumulated ev.validatorId ev.collateral
        else if s.isSubscribed ev.validatorId then m.incAccumulated ev.validatorId ev.collateral
        else if !s.collateralEnough (m.heap.cell ev.collateral) then .ok (m.toPool ev.collateral)
        else if !s.isSubscribed ev.validatorId && !s.isBanned ev.validatorId
            && s.collateralEnough (m.heap.cell ev.collateral) then do
          let h1 := m.heap.new 0
          let m1 := if !s.isTracked ev.validatorId then
              Mem.putVal { m with heap := h1.new 0 } ev.validatorId
                { status := .notSubscribed, acc := m.heap.next, pend := h1.next, coll := ev.collateral,
                  waddr := w, index := ev.validatorId, key := hexutilEncode v.pubkey,
                  subType := .manual }
            else m
          let m2 := m1.setSubType ev.validatorId .manual
          let m3 ← m2.incPending ev.validatorId ev.collateral
          .ok (m3.advance ev.validatorId .manualSubscription)
        else .ok (m.toPool ev.collateral)

/-- The loop of `handleManualSubscriptions`. /repo: oracle/oracle.go:1111-1284 -/
def subLoopP : List (PSub × Option BVal) → Mem → M Mem
  | [], m => .ok m
  | (ev, v) :: rest, m => do
    let m1 ← subOneP m ev v
    subLoopP rest m1

/-- oracle/oracle.go:1111-1281 `handleManualSubscriptions`. -/
def handleSubsP (m : Mem) (evs : List PSub) (vals : List (Option BVal)) : M Mem :=
  if !sameBlock (evs.map (·.block)) then .error .fatal
  else if evs.length ≠ vals.length then .error .fatal
  else subLoopP (evs.zip vals) m

/-- oracle/oracle.go:1306-1388: one event of `handleManualUnsubscriptions`. The pointer to the pending balance
itself is handed to `increaseAllPendingRewards`. -/
def unsubOneP (E : Env) (net : Str) (m : Mem) (ev : UnsubEvent) (val : Option BVal) : M Mem :=
  match val with
  | none => .ok m
  | some v =>
    if v.index ≠ ev.validatorId then .error .fatal
    else match compatAddressByte v.creds with
      | none => .ok m
      | some w => do
        let senderOk ← equals ev.sender w
        if !senderOk then .ok m
        else if m.read.isSubscribed ev.validatorId then do
          let m1 := m.advance ev.validatorId .unsubscribe
          let p ← m1.pendPtr ev.validatorId
          let m2 ← increaseAllP E net m1 p
          m2.resetPending ev.validatorId
        else .ok m

/-- The loop of `handleManualUnsubscriptions`. /repo: oracle/oracle.go:1286-1389 -/
def unsubLoopP (E : Env) (net : Str) : List (UnsubEvent × Option BVal) → Mem → M Mem
  | [], m => .ok m
  | (ev, v) :: rest, m => do
    let m1 ← unsubOneP E net m ev v
    unsubLoopP E net rest m1

/-- oracle/oracle.go:1286-1389 `handleManualUnsubscriptions`. -/
def handleUnsubsP (E : Env) (net : Str) (m : Mem) (evs : List UnsubEvent)
    (vals : List (Option BVal)) : M Mem :=
  if !sameBlock (evs.map (·.block)) then .error .fatal
  else if evs.length ≠ vals.length then .error .fatal
  else unsubLoopP E net (evs.zip vals) m

/-- Append to the records of the state. /repo: oracle/oracle.go:163-259 -/
def Mem.modLogs (m : Mem) (f : PLogs → PLogs) : Mem := { m with st := { m.st with logs := f m.st.logs } }

/-- oracle/oracle.go:1061-1070: the loop of `handleDonations`. -/
def donLoopP (E : Env) (net : Str) : List PEther → Mem → M Mem
  | [], m => .ok m
  | d :: rest, m => do
    let m1 ← increaseAllP E net m d.amount
    donLoopP E net rest (m1.modLogs fun l => { l with donations := l.donations ++ [d] })

/-- oracle/oracle.go:1050-1071 `handleDonations`. -/
def handleDonationsP (E : Env) (net : Str) (m : Mem) (ds : List PEther) : M Mem :=
  if !sameBlock (ds.map (·.block)) then .error .fatal
  else donLoopP E net ds m

/-- oracle/oracle.go:1504-1537 `addSubscription`. -/
def addSubscriptionP (m : Mem) (i : Nat) (w key : Str) : Mem :=
  let s := m.read
  if !s.isTracked i then
    let h1 := m.heap.new 0
    let h2 := h1.new 0
    let m1 := Mem.putVal { m with heap := h2.new 0 } i
      { status := .notSubscribed, acc := m.heap.next, pend := h1.next, coll := h2.next, waddr := w,
        index := i, key := key, subType := .manual }
    (m1.advance i .autoSubscription).setSubType i .auto
  else if !s.isSubscribed i then
    let m1 := m.advance i .autoSubscription
    if !m1.read.isBanned i then m1.setSubType i .auto else m1
  else m

/-- oracle/oracle.go:1074-1088 `handleCorrectBlockProposal`. -/
def handleCorrectP (E : Env) (net : Str) (m : Mem) (b : PSum) : M Mem :=
  let m1 := (addSubscriptionP m b.index b.waddr b.key).advance b.index .proposalOk
  match b.reward with
  | none => .error .panic
  | some r => do
    let m2 ← increaseAllP E net m1 r
    let m3 ← m2.consolidate b.index
    .ok (m3.modLogs fun l => { l with proposed := l.proposed ++ [b] })

/-- oracle/oracle.go:1091-1106 `handleBlsCorrectBlockProposal`. -/
def handleBlsP (m : Mem) (b : PSum) : M Mem :=
  if b.type ≠ .okPoolBls then .error .fatal
  else match b.reward with
    | none => .error .panic
    | some r => .ok ((m.toPool r).modLogs fun l => { l with proposed := l.proposed ++ [b] })

/-- oracle/oracle.go:1485-1494 `handleBanValidator`. -/
def handleWrongFeeP (E : Env) (net : Str) (m : Mem) (b : PSum) : M Mem := do
  let m1 := m.advance b.index .proposalWrongFee
  let p ← m1.pendPtr b.index
  let m2 ← increaseAllP E net m1 p
  let m3 ← m2.resetPending b.index
  .ok (m3.modLogs fun l => { l with wrongFee := l.wrongFee ++ [b] })

/-- oracle/oracle.go:1498-1501 `handleMissedBlock`. -/
def handleMissedP (m : Mem) (b : PSum) : Mem :=
  (m.advance b.index .proposalMissed).modLogs fun l => { l with missed := l.missed ++ [b] }

/-- oracle/oracle.go:1416-1433: the loop of `handleManualBans`. -/
def banLoopP : List BanEvent → Mem → Int → M (Mem × Int)
  | [], m, tot => .ok (m, tot)
  | ev :: rest, m, tot =>
    if !m.read.isSubscribed ev.validatorId then banLoopP rest m tot
    else do
      let m1 := m.advance ev.validatorId .manualBan
      let p ← m1.pendPtr ev.validatorId
      let m2 ← m1.resetPending ev.validatorId
      banLoopP rest m2 (tot + m1.heap.cell p)

/-- oracle/oracle.go:1391-1448 `handleManualBans`. -/
def handleBansP (E : Env) (net : Str) (m : Mem) (evs : List BanEvent) : M Mem :=
  if evs = [] then .ok m
  else if !sameBlock (evs.map (·.block)) then .error .fatal
  else do
    let (m1, tot) ← banLoopP evs m 0
    if tot < 0 then .error .fatal
    else if tot > 0 then increaseAllP E net { m1 with heap := m1.heap.new tot } m1.heap.next
    else .ok m1

/-- oracle/oracle.go:1466-1480: the loop of `handleManualUnbans`. -/
def unbanLoopP : List BanEvent → Mem → Mem
  | [], m => m
  | ev :: rest, m =>
    if !m.read.isBanned ev.validatorId then unbanLoopP rest m
    else unbanLoopP rest (m.advance ev.validatorId .manualUnban)

/-- oracle/oracle.go:1450-1481 `handleManualUnbans`. -/
def handleUnbansP (m : Mem) (evs : List BanEvent) : M Mem :=
  if !sameBlock (evs.map (·.block)) then .error .fatal
  else .ok (unbanLoopP evs m)

/-! ### oracle/oracle.go:261-403: cleanup -/

/-- oracle/oracle.go:318-392: one inactive validator with pending balance. A new target is given the cell of
the source's pending balance (line 369); after that the source gets a new cell (line 392). -/
def cleanOneP (E : Env) (slot : Nat) (cs : List (Nat × Nat)) (m : Mem) (tot : Int) (i : Nat) :
    M (Mem × Int × Bool) := do
  let m1 := m.advance i .unsubscribe
  let p ← m1.pendPtr i
  match consolTarget cs i with
  | none => do
    let m2 ← m1.resetPending i
    .ok (m2, tot + m1.heap.cell p, true)
  | some tgt =>
    if m1.read.isTracked tgt && !m1.read.isBanned tgt then do
      let m2 ← m1.incPending tgt p
      let m3 ← m2.resetPending i
      .ok (m3, tot, true)
    else if !m1.read.isTracked tgt then
      match getSet E m1.st.tick slot [tgt] with
      | none => .ok (m1.setTick (m1.st.tick + 1), tot, false)
      | some r =>
        match r.find? (fun v => v.index == tgt) with
        | none => .ok (m1.setTick (m1.st.tick + 1), tot, false)
        | some v =>
          match compatAddressByte v.creds with
          | none => .error .fatal
          | some w => do
            let h1 := m1.heap.new 0
            let m2 := Mem.putVal (Mem.setTick { m1 with heap := h1.new 0 } (m1.st.tick + 1)) tgt
              { status := .notSubscribed, acc := m1.heap.next, pend := p, coll := h1.next, waddr := w,
                index := tgt, key := hexutilEncode v.pubkey, subType := .manual }
            let m3 ← m2.resetPending i
            .ok (m3, tot, true)
    else if m1.read.isBanned tgt then do
      let m2 ← m1.resetPending i
      .ok (m2, tot + m1.heap.cell p, true)
    else .error .fatal

/-- oracle/oracle.go:303-394: the loop of the cleanup. -/
def cleanLoopP (E : Env) (slot : Nat) (cs : List (Nat × Nat)) :
    List BVal → Mem → Int → M (Mem × Int × Bool)
  | [], m, tot => .ok (m, tot, true)
  | v :: rest, m, tot =>
    if v.status.isActive then cleanLoopP E slot cs rest m tot
    else do
      let p ← m.pendPtr v.index
      if m.heap.cell p = 0 then cleanLoopP E slot cs rest m tot
      else do
        let (m1, tot1, go) ← cleanOneP E slot cs m tot v.index
        if go then cleanLoopP E slot cs rest m1 tot1 else .ok (m1, tot1, false)

/-- oracle/oracle.go:261-403 `ValidatorCleanup`. -/
def cleanupP (E : Env) (net : Str) (m : Mem) (slot : Nat) : M (Mem × Bool) :=
  if slot < slotOrZero (slotFork1 net) then .ok (m, true)
  else
    let indices := E.shuffle m.st.tick (VMap.keys m.read.vals)
    if indices = [] then .ok (m, true)
    else
      let cs? := if slot ≥ slotOrZero (slotElectra net) then E.consol m.st.tick slot else some []
      match cs? with
      | none => .ok (m.setTick (m.st.tick + 1), false)
      | some cs =>
        match getSet E m.st.tick slot indices with
        | none => .ok (m.setTick (m.st.tick + 1), false)
        | some vs => do
          let (m1, tot, go) ←
            cleanLoopP E slot cs (E.shuffle (m.st.tick + 1) vs) (m.setTick (m.st.tick + 2)) 0
          if !go then .ok (m1, false)
          else if tot ≠ 0 then do
            let m2 ← increaseAllP E net { m1 with heap := m1.heap.new tot } m1.heap.next
            .ok (m2, true)
          else .ok (m1, true)

/-! ### oracle/oracle.go:163-258: one slot -/

/-- oracle/block.go:528-594 `GetDonations`: the pointers of the events are handed on. -/
def getDonationsP (h : Heap) (b : FullBlock) (ether : List PEther) (pool : Str) : M (List PEther) :=
  match b.cons with
  | none => .ok []
  | some _ => do
    let mev ← mevReward b
    let toPool ← (if mev.present then equals mev.recipient pool else .ok false)
    if !toPool then .ok ether
    else if ether.any (fun e => h.cell e.amount == mev.amount) then
      .ok (ether.filter fun e => h.cell e.amount ≠ mev.amount)
    else .error .fatal

/-- oracle/oracle.go:198-239: everything done with one block between the checks and the cleanup. -/
def applyBlockP (E : Env) (net : Str) (m : Mem) (b : FullBlock) (subs : List PSub) (ether : List PEther)
    (sb : PSum) (dons : List PEther) : M Mem := do
  let m0 : Mem := { m with st := { m.st with
    unsubs := m.st.unsubs ++ b.events.unsubs
    logs := { m.st.logs with subs := m.st.logs.subs ++ subs, ether := m.st.logs.ether ++ ether } } }
  let m1 ← handleSubsP m0 subs b.valsSubs
  let m2 := if sb.type = .missed ∧ m1.read.isSubscribed sb.index then handleMissedP m1 sb else m1
  let m3 ← (if sb.type = .okPoolBls then handleBlsP m2 sb else .ok m2)
  let m4 ← (if sb.type = .okPool then handleCorrectP E net m3 sb else .ok m3)
  let m5 ← (if sb.type = .wrongFee ∧ m4.read.isSubscribed sb.index then handleWrongFeeP E net m4 sb
    else .ok m4)
  let m6 ← handleUnsubsP E net m5 b.events.unsubs b.valsUnsubs
  let m7 ← handleDonationsP E net m6 dons
  let m8 ← handleBansP E net m7 b.events.bans
  handleUnbansP m8 b.events.unbans

/-- oracle/oracle.go:251-257: the slot counters. -/
def finishSlotP (m : Mem) (sb : PSum) : Mem :=
  { m with st := { m.st with
    latestSlot := m.st.nextSlot
    nextSlot := u64 (m.st.nextSlot + 1)
    latestBlock := if sb.type ≠ .missed then sb.block else m.st.latestBlock } }

/-- oracle/oracle.go:163-258 `AdvanceStateToNextSlot`, after decoding the events of the block.
`validateFullBlockConfig` (oracle.go:450-489) changes no number behind a pointer: the fee is an `int`. -/
def advanceStateP (E : Env) (cfg : Config) (m : Mem) (b : FullBlock) :
    M (Config × Mem × Option Nat) :=
  let (h1, subs) := allocAll newSub b.events.subs m.heap
  let (h2, ether) := allocAll newEther b.events.ether h1
  let m : Mem := { m with heap := h2 }
  if m.st.nextSlot ≠ u64 (m.st.latestSlot + 1) then .ok (cfg, m, none)
  else if m.st.nextSlot ≠ b.dutySlot then .ok (cfg, m, none)
  else do
    let (o1, cfgOk) ← validateConfig ⟨cfg, m.read⟩ b
    let m1 : Mem := { m with st := { m.st with fee := o1.st.fee } }
    if !cfgOk then .ok (o1.cfg, m1, none)
    else do
      let sb0 ← summarize m1.read b o1.cfg.poolAddr
      let (h3, sb) := newSum sb0 m1.heap
      let m2 : Mem := { m1 with heap := h3 }
      if m2.st.nextSlot ≠ sb.slot then .ok (o1.cfg, m2, none)
      else do
        let dons ← getDonationsP m2.heap b ether o1.cfg.poolAddr
        let m3 ← applyBlockP E o1.cfg.network m2 b subs ether sb dons
        let (m4, clean) ← (if m3.st.nextSlot % 1200 = 0 then
            cleanupP E o1.cfg.network m3 m3.st.nextSlot
          else .ok (m3, true))
        if !clean then .ok (o1.cfg, m4, none)
        else .ok (o1.cfg, finishSlotP m4 sb, some m4.st.nextSlot)

/-! ### Freezing a checkpoint -/

/-- oracle/merklelizer.go:57-64: add the accumulated balance to the leaves of the address, in place. -/
def addToLeavesP (v : PVal) : List PLeaf → Heap → M (Heap × Bool)
  | [], h => .ok (h, false)
  | l :: rest, h => do
    let e ← equals l.waddr v.waddr
    let (h', found) ← addToLeavesP v rest (if e then h.add l.bal v.acc else h)
    .ok (h', e || found)

/-- oracle/merklelizer.go:51-77: the loop over the validators; a new leaf gets a copy of the balance. -/
def aggLoopP : List PVal → List PLeaf → Heap → M (Heap × List PLeaf)
  | [], ls, h => .ok (h, ls)
  | v :: rest, ls, h => do
    let (h', found) ← addToLeavesP v ls h
    if found then aggLoopP rest ls h'
    else aggLoopP rest (ls ++ [⟨lower v.waddr, h'.next⟩]) (h'.new (h'.cell v.acc))

/-- One step of the sort below. /repo: oracle/merklelizer.go:132-141 -/
def insertLeafP (l : PLeaf) : List PLeaf → List PLeaf
  | [] => [l]
  | x :: rest => if x.waddr < l.waddr then x :: insertLeafP l rest else l :: x :: rest

/-- oracle/merklelizer.go:132-139 `OrderByWithdrawalAddress`. -/
def orderLeavesP (ls : List PLeaf) : List PLeaf := ls.foldr insertLeafP []

/-- oracle/merklelizer.go:44-129 `AggregateValidatorsIndexes`. -/
def aggregateP (E : Env) (t : Nat) (m : Mem) : M (Heap × List PLeaf) := do
  let (h, ls) ← aggLoopP ((E.shuffle t m.st.vals).map (·.2)) [] m.heap
  let fromVals : Int := ((E.shuffle (t + 1) m.st.vals).map fun p => h.cell p.2.acc).sum
  let fromLeaves : Int := (ls.map fun l => h.cell l.bal).sum
  if fromVals ≠ fromLeaves then .error .fatal
  else
    let ordered := orderLeavesP ls
    if ordered.any (fun l => lower l.waddr == lower m.st.poolAddr) then .error .fatal
    else
      let all := ⟨lower m.st.poolFeesAddr, h.next⟩ :: ordered
      if all.any (fun l => !isHexAddress l.waddr) then .error .fatal
      else if all.any (fun l => lower l.waddr != l.waddr) then .error .fatal
      else .ok (h.new (h.cell m.st.poolFees), all)

/-- oracle/oracle.go:731-753: the loop over the addresses. -/
def freezeLoopP (toLeaf : List (Str × List Nat)) (hashes : List (List Nat))
    (levels : List (List (List Nat))) : List (Str × PLeaf) → List (Str × List Str) → List (Str × PLeaf) →
    M (List (Str × List Str) × List (Str × PLeaf))
  | [], ps, ls => .ok (ps, ls)
  | (k, raw) :: rest, ps, ls => do
    let e ← equals k raw.waddr
    if !e then .error .fatal
    else
      match getStr toLeaf k with
      | none => .error .panic
      | some block => do
        let i ← leafIndex hashes block
        let sibs ← siblings levels i
        freezeLoopP toLeaf hashes levels rest (putStr ps k (sibs.map fun x => b!"0x" ++ hexEncode x))
          (putStr ls k raw)

/-- oracle/oracle.go:764: assignment to the map of checkpoints. -/
def putFrozenP (m : List (Nat × PFrozen)) (k : Nat) (v : PFrozen) : List (Nat × PFrozen) := putNat m k v

/-- oracle/oracle.go:713-766 `FreezeCheckpoint` with oracle/merklelizer.go:143-193
`GenerateTreeFromState`. `DeepCopy` (utils/utils.go:221-228) writes the validators to a buffer and reads
them back into new cells. -/
def freezeP (H : List Nat → List Nat) (E : Env) (m : Mem) : M (Mem × Bool) := do
  let (h0, copy) := allocAll newVal (readVals m.heap m.st.vals) m.heap
  let t := m.st.tick
  let (h, ls) ← aggregateP E t { m with heap := h0 }
  let m1 : Mem := ⟨h, { m.st with tick := t + 2 }⟩
  let hashes := ls.map fun l => H (leafPreimage (l.read h))
  let toLeaf := ls.foldl (fun a l => putStr a l.waddr (H (leafPreimage (l.read h)))) []
  let toRaw := ls.foldl (fun a l => putStr a l.waddr l) []
  if hashes.length < 2 then .ok (m1, false)
  else do
    let levels := treeLevels H (treeDepth hashes.length) hashes
    let root ← treeRoot H levels
    let (proofs, leafs) ← freezeLoopP toLeaf hashes levels toRaw [] []
    let f : PFrozen := ⟨m.st.latestSlot, b!"0x" ++ hexEncode root, copy, leafs, proofs⟩
    .ok (m1.modLogs fun l => { l with committed := putFrozenP l.committed m.st.latestSlot f }, true)

/-! ### Where the oracle starts -/

/-- oracle/oracle.go:67-103 `NewOracle`; the collateral is the cell of the configuration. -/
def newOracleP (cfg : Config) (h : Heap) : Mem :=
  let h1 := h.new cfg.collateral
  { heap := h1.new 0
    st := { stateHash := [], latestSlot := sub64 cfg.depSlot 1, latestBlock := 0, nextSlot := cfg.depSlot
            poolFees := h1.next, vals := []
            logs := ⟨[], [], [], [], [], [], [], h.next⟩
            unsubs := [], fee := cfg.fee, poolAddr := cfg.poolAddr, network := cfg.network
            poolFeesAddr := cfg.poolFeesAddr, cpSize := cfg.cpSize, depBlock := cfg.depBlock
            depSlot := cfg.depSlot, tick := 0 } }

/-- oracle/oracle.go:560-700 `LoadFromJson`, `LoadFromPath`, `LoadFromBytes`: the numbers read from
the file are in new cells. `s` is the state that is read. -/
def loadP (s : State) (h : Heap) : Mem :=
  let h0 := h.new s.collateral
  let h1 := h0.new s.poolFees
  let vals := allocAll newVal s.vals h1
  let committed := allocAll newFrozen s.committed vals.1
  let subs := allocAll newSub s.subs committed.1
  let ether := allocAll newEther s.ether subs.1
  let donations := allocAll newEther s.donations ether.1
  let proposed := allocAll newSum s.proposed donations.1
  let missed := allocAll newSum s.missed proposed.1
  let wrongFee := allocAll newSum s.wrongFee missed.1
  { heap := wrongFee.1
    st := { stateHash := s.stateHash, latestSlot := s.latestSlot, latestBlock := s.latestBlock
            nextSlot := s.nextSlot, poolFees := h0.next, vals := vals.2
            logs := ⟨committed.2, subs.2, ether.2, donations.2, proposed.2, missed.2, wrongFee.2, h.next⟩
            unsubs := s.unsubs, fee := s.fee, poolAddr := s.poolAddr, network := s.network
            poolFeesAddr := s.poolFeesAddr, cpSize := s.cpSize, depBlock := s.depBlock
            depSlot := s.depSlot, tick := s.tick } }

end Verif
