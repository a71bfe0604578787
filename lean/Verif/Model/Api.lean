import Verif.Model.Merkle
import Verif.Model.Handlers
/-
The HTTP API (api/api.go): input validation, readiness, statistics, the proof endpoint and the view of
not yet finalized events. An HTTP answer is a value; writing it to the connection is not modelled.
-/
namespace Verif

/-- api/api.go:105-121 `respondError`, `respondOK`: the status code and, for 200, the body. -/
inductive Answer (α : Type)
  | unavailable
  | badRequest
  | internalError
  | ok (body : α)
  deriving DecidableEq, Repr

/-! ### Input validation -/

/-- The character class `[0-9a-fA-F]`. /repo: api/api.go:1098 -/
def hexClass (c : Nat) : Bool :=
  (48 ≤ c && c ≤ 57) || (97 ≤ c && c ≤ 102) || (65 ≤ c && c ≤ 70)

/-- The character class `[0-9a-fA-f]`, as written in api/api.go:1103. -/
def keyClass (c : Nat) : Bool :=
  (48 ≤ c && c ≤ 57) || (97 ≤ c && c ≤ 102) || (65 ≤ c && c ≤ 102)

/-- The regular expression `^0x[class]{n}$`. /repo: api/api.go:1098, 1103 -/
def matches0x (cls : Nat → Bool) (n : Nat) : Str → Bool
  | 48 :: 120 :: d => d.length == n && d.all cls
  | _ => false

/-- api/api.go:1097-1100 `IsValidAddress`. -/
def isValidAddress (v : Str) : Bool := matches0x hexClass 40 v

/-- api/api.go:1102-1105 `IsValidPubkey`. -/
def isValidPubkey (v : Str) : Bool := matches0x keyClass 96 v

/-- The loop of Go's `strconv.ParseUint` in base 10 for 64 bits: a character that is not a digit is a
syntax error; a value of at least `1<<64/10 + 1` before the multiplication, or a sum that wraps, is a
range error. /repo: api/api.go:1090 -/
def parseLoop : Str → Nat → Option Nat
  | [], n => some n
  | c :: cs, n =>
    if ¬ (48 ≤ c ∧ c ≤ 57) then none
    else if n ≥ 1844674407370955162 then none
    else
      let n1 := u64 (n * 10)
      let n2 := u64 (n1 + (c - 48))
      if n2 < n1 then none else parseLoop cs n2

/-- api/api.go:1088-1095 `IsValidIndex`: `strconv.ParseUint(v, 10, 64)`; the empty string is a syntax
error. `none`: not valid. -/
def isValidIndex (v : Str) : Option Nat := if v.isEmpty then none else parseLoop v 0

/-! ### Readiness -/

/-- api/api.go:1251-1279 `OracleReady`. `fin` is the finalized slot reported by the beacon node (`none`:
the request failed). -/
def oracleReady (fin : Option Nat) (latest max : Nat) : Bool :=
  match fin with
  | none => false
  | some f => if sub64 f latest > max then false else true

/-- api/api.go:38 `MaxSlotsBehind`. -/
def maxSlotsBehind : Nat := 64

/-! ### Statistics -/

/-- api/api.go:53 `SlotsInOneMonth`. -/
def slotsInOneMonth : Nat := 216000

/-- api/types.go:63-84 `httpOkMemoryStatistics`; numbers instead of their decimal texts. -/
structure Stats where
  subscribed : Nat
  active : Nat
  yellow : Nat
  red : Nat
  banned : Nat
  notSubscribed : Nat
  latestSlot : Nat
  nextCheckpoint : Nat
  accumulated : Int
  pending : Int
  sent : Int
  donations : Int
  avgBlock : Int
  sent30 : Int
  perValidator30 : Int
  proposed : Nat
  missed : Nat
  wrongFee : Nat
  effBal : Nat
  avgEffBal : Nat
  deriving DecidableEq, Repr

/-- The counters and sums of the loop api/api.go:285-301. -/
structure Counts where
  active : Nat := 0
  yellow : Nat := 0
  red : Nat := 0
  banned : Nat := 0
  notSubscribed : Nat := 0
  accumulated : Int := 0
  pending : Int := 0
  deriving DecidableEq, Repr

/-- api/api.go:285-301, one round of the loop over the validators. The counters are `uint64`; fewer than
2^64 validators exist. -/
def countOne (c : Counts) (v : Validator) : Counts :=
  let c1 := match v.status with
    | .active => { c with active := c.active + 1 }
    | .yellowCard => { c with yellow := c.yellow + 1 }
    | .redCard => { c with red := c.red + 1 }
    | .banned => { c with banned := c.banned + 1 }
    | .notSubscribed => { c with notSubscribed := c.notSubscribed + 1 }
    | _ => c
  { c1 with accumulated := c1.accumulated + v.acc, pending := c1.pending + v.pend }

/-- api/api.go:328-340: the loop over the proposed blocks, with total, total in the last 30 days and
number. `big.Int.Add` of a nil reward is a nil dereference. -/
def rewardLoop (limit : Nat) : List SumBlock → Int × Int × Nat → M (Int × Int × Nat)
  | [], r => .ok r
  | b :: bs, (tot, tot30, n) =>
    if b.type = .okPool then
      match b.reward with
      | none => .error .panic
      | some x => rewardLoop limit bs (tot + x, if b.slot > limit then tot30 + x else tot30, n + 1)
    else rewardLoop limit bs (tot, tot30, n)

/-- api/api.go:342-351: the loop over the donations, with total of the donations, total sent and total
sent in the last 30 days. -/
def donationLoop (limit : Nat) : List EtherEvent → Int × Int × Int → Int × Int × Int
  | [], r => r
  | d :: ds, (don, tot, tot30) =>
    donationLoop limit ds (don + d.amount, tot + d.amount,
      if d.block > limit then tot30 + d.amount else tot30)

/-- A Go map from validator index to `*v1.Validator`. /repo: oracle/onchain.go:1850-1852 -/
abbrev BMap := List (Nat × BVal)

/-- `m[i]` with the "found" flag. /repo: oracle/onchain.go:1850-1852 -/
def BMap.get (m : BMap) (i : Nat) : Option BVal := (m.find? fun p => p.1 == i).map (·.2)

/-- api/api.go:372-384: the loop adding the effective balances (uint64). -/
def effLoop (cache : BMap) : List Validator → Nat → Nat
  | [], n => n
  | v :: vs, n =>
    if v.status = .active || v.status = .yellowCard || v.status = .redCard then
      match cache.get v.index with
      | none => effLoop cache vs n
      | some u => effLoop cache vs (u64 (n + u.effBal))
    else effLoop cache vs n

/-- Go's `big.Int.Div`: division by zero is a run-time panic. /repo: api/api.go:357, 365 -/
def bigDiv (a b : Int) : M Int := if b = 0 then .error .panic else .ok (a / b)

/-- api/api.go:268-413 `handleMemoryStatistics`. `fin`: finalized slot reported by the beacon node;
`cache`: the validators loaded from the beacon node. The two loops over the map of validators only add,
so their order does not matter; here they run in key order. The state is read several times without a
lock in between; here all readings see the same state. -/
def statistics (fin : Option Nat) (cache : BMap) (cfg : Config) (s : State) : M (Answer Stats) :=
  if !oracleReady fin s.latestSlot 64 then .ok .unavailable
  else
    let c := (s.vals.map (·.2)).foldl countOne {}
    let subscribed := c.active + c.yellow + c.red
    if s.latestSlot < slotsInOneMonth then .ok .internalError
    else if s.latestBlock < slotsInOneMonth then .ok .internalError
    else do
      let limitSlot := s.latestSlot - slotsInOneMonth
      let limitBlock := s.latestBlock - slotsInOneMonth
      let (sent, sent30, n) ← rewardLoop limitSlot s.proposed (0, 0, 0)
      let (don, sent, sent30) := donationLoop limitBlock s.donations (0, sent, sent30)
      let per ← (if subscribed ≠ 0 then bigDiv sent30 ((c.active + c.yellow : Nat) : Int) else .ok 0)
      let avg ← (if n ≠ 0 then bigDiv sent (n : Int) else .ok 0)
      let eff := effLoop cache (s.vals.map (·.2)) 0
      .ok (.ok {
        subscribed := subscribed, active := c.active, yellow := c.yellow, red := c.red
        banned := c.banned, notSubscribed := c.notSubscribed
        latestSlot := s.latestSlot, nextCheckpoint := u64 (s.latestSlot + cfg.cpSize)
        accumulated := c.accumulated, pending := c.pending
        sent := sent, donations := don, avgBlock := avg, sent30 := sent30, perValidator30 := per
        proposed := s.proposed.length, missed := s.missed.length, wrongFee := s.wrongFee.length
        effBal := eff, avgEffBal := if subscribed > 0 then eff / subscribed else 0 })

/-! ### The proof endpoint -/

/-- api/types.go:86-97 `httpOkProofs`; numbers instead of their decimal texts. -/
structure ProofAnswer where
  leafAddr : Str
  leafBal : Int
  root : Str
  slot : Nat
  proofs : List Str
  registered : List Nat
  accumulated : Int
  claimable : Int
  claimed : Int
  pending : Int
  deriving DecidableEq, Repr

/-- api/api.go:920-1005 `handleOnchainMerkleProof`. `contract`: root and slot read from the contract
(`none`: error); `claimed`: the claimed amount read from the contract (`none`: error); `t`: numbers the
map iterations. The state is read several times without a lock in between; here all readings see the
same state. -/
def merkleProof (E : Env) (t : Nat) (fin : Option Nat) (contract : Option (Str × Nat))
    (claimed : Str → Option Int) (s : State) (req : Str) : Answer ProofAnswer :=
  if !oracleReady fin s.latestSlot maxSlotsBehind then .unavailable
  else if !isValidAddress req then .badRequest
  else
    let addr := lower req
    match contract with
    | none => .internalError
    | some (root, slot) =>
      match getFrozen s.committed slot with
      | none => .internalError
      | some f =>
        if root ≠ f.root then .internalError
        else match getStr f.proofs addr with
          | none => .badRequest
          | some proofs => match getStr f.leafs addr with
            | none => .badRequest
            | some leaf =>
              let reg := (E.shuffle t f.vals).filter fun p => lower p.2.waddr = lower addr
              match claimed addr with
              | none => .internalError
              | some cl =>
                let own := (E.shuffle (t + 1) f.vals).filter fun p => lower p.2.waddr = lower addr
                .ok {
                  leafAddr := leaf.waddr, leafBal := leaf.bal, root := f.root, slot := f.slot
                  proofs := proofs, registered := reg.map (·.1), accumulated := leaf.bal
                  claimable := leaf.bal - cl, claimed := cl
                  pending := (own.map fun p => p.2.pend).foldl (· + ·) 0 }

/-! ### Not yet finalized events -/

/-- api/api.go:1211-1229, one subscription event. `coll`: `m.cfg.CollateralInWei`; `val`: the validator
from the cache, nil if it is not there (reading its status is then a nil dereference). -/
def apiSub (coll : Int) (m : VMap) (ev : SubEvent) (val : Option BVal) : M VMap :=
  match VMap.get m ev.validatorId with
  | none => .ok m
  | some v => do
    let same ← equals v.waddr ev.sender
    if !same then .ok m
    else if ev.collateral < coll then .ok m
    else match val with
      | none => .error .panic
      | some u =>
        if !canSubscribe u.status then .ok m
        else if v.status = .untracked || v.status = .notSubscribed then
          .ok (VMap.modify m ev.validatorId fun v =>
            { v with status := .active, pend := v.pend + ev.collateral })
        else .ok m

/-- api/api.go:1231-1247, one unsubscription event. -/
def apiUnsub (m : VMap) (ev : UnsubEvent) : M VMap :=
  match VMap.get m ev.validatorId with
  | none => .ok m
  | some v => do
    let same ← equals v.waddr ev.sender
    if !same then .ok m
    else if v.status = .active || v.status = .yellowCard || v.status = .redCard then
      .ok (VMap.modify m ev.validatorId fun v => { v with status := .notSubscribed, pend := 0 })
    else .ok m

/-- The loop api/api.go:1211-1229 over the subscription events of one block. -/
def apiSubs (coll : Int) : List (SubEvent × Option BVal) → VMap → M VMap
  | [], m => .ok m
  | (ev, v) :: l, m => do apiSubs coll l (← apiSub coll m ev v)

/-- The loop api/api.go:1231-1247 over the unsubscription events of one block. -/
def apiUnsubs : List UnsubEvent → VMap → M VMap
  | [], m => .ok m
  | ev :: l, m => do apiUnsubs l (← apiUnsub m ev)

/-- api/api.go:1180-1203: append a block number unless it is there already. -/
def addBlock (l : List Nat) (b : Nat) : List Nat := if l.any (· == b) then l else l ++ [b]

/-- api/api.go:1178-1205: the block numbers of all events, each once, ascending. -/
def eventBlocks (subs : List (SubEvent × Option BVal)) (unsubs : List UnsubEvent) : List Nat :=
  let l := (unsubs.map (·.block)).foldl addBlock ((subs.map (·.1.block)).foldl addBlock [])
  l.mergeSort (· ≤ ·)

/-- The loop api/api.go:1207-1248 over the blocks. `GetSubInBlock`, `GetUnsubInBlock`
(api/api.go:1281-1299) are filters. -/
def apiBlocks (coll : Int) (subs : List (SubEvent × Option BVal)) (unsubs : List UnsubEvent) :
    List Nat → VMap → M VMap
  | [], m => .ok m
  | b :: l, m => do
    let m1 ← apiSubs coll (subs.filter fun p => p.1.block == b) m
    let m2 ← apiUnsubs (unsubs.filter fun e => e.block == b) m1
    apiBlocks coll subs unsubs l m2

/-- api/api.go:1173-1249 `ApplyNonFinalizedState`. The function updates the map in place; here the new
map is returned. -/
def applyNonFinalized (coll : Int) (subs : List (SubEvent × Option BVal)) (unsubs : List UnsubEvent)
    (m : VMap) : M VMap :=
  apiBlocks coll subs unsubs (eventBlocks subs unsubs) m

/-- api/api.go:684-715: the validators of the beacon chain with the requested withdrawal address, as
untracked validators. -/
def untrackedOf (addr : Str) : BMap → VMap → M VMap
  | [], m => .ok m
  | (i, u) :: l, m =>
    match compatAddress (hexEncode u.creds) with
    | none => untrackedOf addr l m
    | some w => do
      let same ← equals w addr
      if !same then untrackedOf addr l m
      else untrackedOf addr l (VMap.insert m i
        { status := .untracked, acc := 0, pend := 0, coll := 0, waddr := w, index := u.index,
          key := hexutilEncode u.pubkey, subType := .manual })

/-- api/api.go:717-731: the tracked validators with that withdrawal address replace them. The deep copy
(utils/utils.go:221-228) is a copy of the values. -/
def trackedOf (addr : Str) : VMap → VMap → M VMap
  | [], m => .ok m
  | (i, v) :: l, m => do
    let same ← equals v.waddr addr
    if !same then trackedOf addr l m
    else trackedOf addr l (VMap.insert m i { v with index := i })

/-- api/api.go:657-799 `handleMemoryValidatorsByWithdrawal`: for each validator its record and what the
beacon node reported. `cache = none`: the validators are not loaded yet. `logs start`: the subscription
and unsubscription events from block `start` on (`none`: error). Both map iterations insert different
keys, so their order does not matter. The handler takes no lock from one read of the oracle's state to the
next: `s` is the state at api/api.go:658 and 717-731, `s2` the state at 748-753, where the main loop may have
processed more slots. -/
def validatorsByWithdrawal2 (fin : Option Nat) (cache : Option BMap)
    (logs : Nat → Option (List SubEvent × List UnsubEvent)) (cfg : Config) (s s2 : State) (req : Str) :
    M (Answer (List (Validator × BVal))) :=
  if !oracleReady fin s.latestSlot maxSlotsBehind then .ok .unavailable
  else
    let addr := lower req
    if !isValidAddress addr then .ok .badRequest
    else match cache with
      | none => .ok .internalError
      | some bs => do
        let m1 ← untrackedOf addr bs []
        let m2 ← trackedOf addr s.vals m1
        if m2.length = 0 then .ok (.ok [])
        else if s2.latestBlock = 0 then .ok .internalError
        else match logs (u64 (s2.latestBlock + 1)) with
          | none => .ok .internalError
          | some (subs, unsubs) => do
            let m3 ← applyNonFinalized cfg.collateral
              (subs.map fun e => (e, BMap.get bs e.validatorId)) unsubs m2
            let l := (m3.map (·.2)).mergeSort fun a b => a.index ≤ b.index
            .ok (.ok (l.filterMap fun v => (BMap.get bs v.index).map fun u => (v, u)))

/-- api/api.go:657-799, the same handler when no slot is processed meanwhile. -/
def validatorsByWithdrawal (fin : Option Nat) (cache : Option BMap)
    (logs : Nat → Option (List SubEvent × List UnsubEvent)) (cfg : Config) (s : State) (req : Str) :
    M (Answer (List (Validator × BVal))) :=
  validatorsByWithdrawal2 fin cache logs cfg s s req

/-! ### The status endpoint -/

/-- api/types.go:13-33 `httpOkStatus`, the numbers computed by the oracle. -/
structure StatusAnswer where
  inSync : Bool
  latestSlot : Nat
  latestBlock : Nat
  finalizedEpoch : Nat
  finalizedSlot : Nat
  headDistance : Nat
  nextCheckpoint : Nat
  remainingSeconds : Nat
  previousCheckpoint : Nat
  previousAgeSeconds : Nat
  deriving DecidableEq, Repr

/-- api/api.go:457-506, the second half of `handleStatus`, after the questions to the two nodes about
themselves. `fin`: the finalized slot (`none`: error); `contract`: the slot of the last checkpoint in the
contract (`none`: error). -/
def statusAnswer (fin contract : Option Nat) (cfg : Config) (s : State) : Answer StatusAnswer :=
  match fin with
  | none => .internalError
  | some f => match contract with
    | none => .internalError
    | some c =>
      let next := if f < u64 (c + cfg.cpSize) then sub64 (u64 (c + cfg.cpSize)) f else 0
      .ok {
        inSync := sub64 s.latestSlot f == 0
        latestSlot := s.latestSlot, latestBlock := s.latestBlock
        finalizedEpoch := f / 32, finalizedSlot := f
        headDistance := sub64 f s.latestSlot
        nextCheckpoint := u64 (c + cfg.cpSize)
        remainingSeconds := u64 (next * 12)
        previousCheckpoint := c
        previousAgeSeconds := u64 (sub64 f c * 12) }

end Verif
