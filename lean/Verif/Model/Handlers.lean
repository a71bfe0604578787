import Verif.Model.Rewards
import Verif.Model.Creds
/-
The validator state machine and the handlers called by AdvanceStateToNextSlot
(oracle/oracle.go:970-1556, 1786-2052).
-/
namespace Verif

/-- The switch of oracle/oracle.go:1888-2051: status after an event; unlisted pairs leave the
status unchanged. -/
def transition : Status → Ev → Status
  | .active, .proposalOk => .active
  | .active, .proposalWrongFee => .banned
  | .active, .proposalMissed => .yellowCard
  | .active, .unsubscribe => .notSubscribed
  | .active, .manualBan => .banned
  | .yellowCard, .proposalOk => .active
  | .yellowCard, .proposalWrongFee => .banned
  | .yellowCard, .proposalMissed => .redCard
  | .yellowCard, .unsubscribe => .notSubscribed
  | .yellowCard, .manualBan => .banned
  | .redCard, .proposalOk => .yellowCard
  | .redCard, .proposalWrongFee => .banned
  | .redCard, .proposalMissed => .redCard
  | .redCard, .unsubscribe => .notSubscribed
  | .redCard, .manualBan => .banned
  | .notSubscribed, .manualSubscription => .active
  | .notSubscribed, .autoSubscription => .active
  | .banned, .manualUnban => .active
  | s, _ => s

/-- Update one tracked validator. /repo: oracle/oracle.go:1111-1389 -/
def State.modVal (s : State) (i : Nat) (f : Validator → Validator) : State :=
  { s with vals := VMap.modify s.vals i f }

/-- oracle/oracle.go:1875-2052 `advanceStateMachine`; an unknown validator is only logged. -/
def State.advance (s : State) (i : Nat) (e : Ev) : State :=
  s.modVal i fun v => { v with status := transition v.status e }

/-- oracle/oracle.go:1010-1020 `isSubscribed` (a scan of the map, i.e. a lookup). -/
def State.isSubscribed (s : State) (i : Nat) : Bool :=
  match VMap.get s.vals i with
  | none => false
  | some v => v.status ≠ .banned && v.status ≠ .notSubscribed && v.status ≠ .unknownState

/-- oracle/oracle.go:1023-1032 `isBanned`. -/
def State.isBanned (s : State) (i : Nat) : Bool :=
  match VMap.get s.vals i with
  | none => false
  | some v => v.status = .banned

/-- oracle/oracle.go:1036-1042 `isTracked`. -/
def State.isTracked (s : State) (i : Nat) : Bool := (VMap.get s.vals i).isSome

/-- oracle/oracle.go:1045-1047 `isCollateralEnough`. -/
def State.collateralEnough (s : State) (c : Int) : Bool := c ≥ s.collateral

/-- Pending balance of validator `i`; reading it when `i` is not tracked is a nil dereference.
/repo: oracle/oracle.go:1545 -/
def State.pendOf (s : State) (i : Nat) : M Int :=
  match VMap.get s.vals i with
  | none => .error .panic
  | some v => .ok v.pend

/-- oracle/oracle.go:1788-1798 `increaseValidatorPendingRewards` (nil dereference if untracked). -/
def State.incPending (s : State) (i : Nat) (x : Int) : M State :=
  if s.isTracked i then .ok (s.modVal i fun v => { v with pend := v.pend + x })
  else .error .panic

/-- oracle/oracle.go:1801-1812 `increaseValidatorAccumulatedRewards`. -/
def State.incAccumulated (s : State) (i : Nat) (x : Int) : M State :=
  if s.isTracked i then .ok (s.modVal i fun v => { v with acc := v.acc + x })
  else .error .panic

/-- oracle/oracle.go:1828-1834 `resetPendingRewards`. -/
def State.resetPending (s : State) (i : Nat) : M State :=
  if s.isTracked i then .ok (s.modVal i fun v => { v with pend := 0 })
  else .error .panic

/-- oracle/oracle.go:1541-1556 `consolidateBalance`. -/
def State.consolidate (s : State) (i : Nat) : M State :=
  if s.isTracked i then .ok (s.modVal i fun v => { v with acc := v.acc + v.pend, pend := 0 })
  else .error .panic

/-- `or.state.Validators[i].SubscriptionType = t` (oracle.go:1264,1524,1533). -/
def State.setSubType (s : State) (i : Nat) (t : SubType) : State :=
  s.modVal i fun v => { v with subType := t }

/-- `or.state.Validators[i] = &ValidatorInfo{...}` (oracle.go:366,1247,1518). -/
def State.putVal (s : State) (i : Nat) (v : Validator) : State :=
  { s with vals := VMap.insert s.vals i v }

/-- oracle/oracle.go:975-986 `CanValidatorSubscribeToPool`. -/
def canSubscribe (st : BStatus) : Bool :=
  st ≠ .activeExiting && st ≠ .activeSlashed && st ≠ .exitedUnslashed && st ≠ .exitedSlashed
    && st ≠ .withdrawalPossible && st ≠ .withdrawalDone && st ≠ .unknown

/-- The "same block" checks of the handlers (oracle.go:1052-1060, 1116-1124, 1291-1299,
1401-1409, 1454-1462): all block numbers equal the first one, otherwise Fatal. -/
def sameBlock : List Nat → Bool
  | [] => true
  | b :: bs => bs.all (· == b)

/-- oracle/oracle.go:1131-1280, the body of the loop of `handleManualSubscriptions` for one event
and the validator fetched for it. -/
def subOne (s : State) (ev : SubEvent) (val : Option BVal) : M State :=
  match val with
  | none => .ok (s.toPool ev.collateral)
  | some v =>
    if ev.validatorId ≠ v.index then .error .fatal
    else if !canSubscribe v.status then .ok (s.toPool ev.collateral)
    else match compatAddressByte v.creds with
      | none => .ok (s.toPool ev.collateral)
      | some w => do
        let senderOk ← equals ev.sender w
        if !senderOk then .ok (s.toPool ev.collateral)
        else if s.isBanned ev.validatorId then s.incAccumulated ev.validatorId ev.collateral
        else if s.isSubscribed ev.validatorId then s.incAccumulated ev.validatorId ev.collateral
        else if !s.collateralEnough ev.collateral then .ok (s.toPool ev.collateral)
        else if !s.isSubscribed ev.validatorId && !s.isBanned ev.validatorId
            && s.collateralEnough ev.collateral then do
          let s1 := if !s.isTracked ev.validatorId then
              s.putVal ev.validatorId
                { status := .notSubscribed, acc := 0, pend := 0, coll := ev.collateral,
                  waddr := w, index := ev.validatorId, key := hexutilEncode v.pubkey,
                  subType := .manual }
            else s
          let s2 := s1.setSubType ev.validatorId .manual
          let s3 ← s2.incPending ev.validatorId ev.collateral
          .ok (s3.advance ev.validatorId .manualSubscription)
        else .ok (s.toPool ev.collateral)

/-- The loop of `handleManualSubscriptions`. /repo: oracle/oracle.go:1111-1284 -/
def subLoop : List (SubEvent × Option BVal) → State → M State
  | [], s => .ok s
  | (ev, v) :: rest, s => do
    let s1 ← subOne s ev v
    subLoop rest s1

/-- oracle/oracle.go:1111-1281 `handleManualSubscriptions`. -/
def handleSubs (s : State) (evs : List SubEvent) (vals : List (Option BVal)) : M State :=
  if !sameBlock (evs.map (·.block)) then .error .fatal
  else if evs.length ≠ vals.length then .error .fatal
  else subLoop (evs.zip vals) s

/-- oracle/oracle.go:1306-1388, the body of the loop of `handleManualUnsubscriptions`. -/
def unsubOne (E : Env) (net : Str) (s : State) (ev : UnsubEvent) (val : Option BVal) : M State :=
  match val with
  | none => .ok s
  | some v =>
    if v.index ≠ ev.validatorId then .error .fatal
    else match compatAddressByte v.creds with
      | none => .ok s
      | some w => do
        let senderOk ← equals ev.sender w
        if !senderOk then .ok s
        else if s.isSubscribed ev.validatorId then do
          let s1 := s.advance ev.validatorId .unsubscribe
          let p ← s1.pendOf ev.validatorId
          let s2 ← increaseAll E net s1 p
          s2.resetPending ev.validatorId
        else .ok s

/-- The loop of `handleManualUnsubscriptions`. /repo: oracle/oracle.go:1286-1389 -/
def unsubLoop (E : Env) (net : Str) : List (UnsubEvent × Option BVal) → State → M State
  | [], s => .ok s
  | (ev, v) :: rest, s => do
    let s1 ← unsubOne E net s ev v
    unsubLoop E net rest s1

/-- oracle/oracle.go:1286-1389 `handleManualUnsubscriptions`. -/
def handleUnsubs (E : Env) (net : Str) (s : State) (evs : List UnsubEvent)
    (vals : List (Option BVal)) : M State :=
  if !sameBlock (evs.map (·.block)) then .error .fatal
  else if evs.length ≠ vals.length then .error .fatal
  else unsubLoop E net (evs.zip vals) s

/-- oracle/oracle.go:1061-1070, the loop of `handleDonations`. -/
def donLoop (E : Env) (net : Str) : List EtherEvent → State → M State
  | [], s => .ok s
  | d :: rest, s => do
    let s1 ← increaseAll E net s d.amount
    donLoop E net rest { s1 with donations := s1.donations ++ [d] }

/-- oracle/oracle.go:1050-1071 `handleDonations`. -/
def handleDonations (E : Env) (net : Str) (s : State) (ds : List EtherEvent) : M State :=
  if !sameBlock (ds.map (·.block)) then .error .fatal
  else donLoop E net ds s

/-- oracle/oracle.go:1504-1537 `addSubscription`. -/
def addSubscription (s : State) (i : Nat) (w key : Str) : State :=
  if !s.isTracked i then
    ((s.putVal i
        { status := .notSubscribed, acc := 0, pend := 0, coll := 0, waddr := w, index := i,
          key := key, subType := .manual }).advance i .autoSubscription).setSubType i .auto
  else if !s.isSubscribed i then
    let s1 := s.advance i .autoSubscription
    if !s1.isBanned i then s1.setSubType i .auto else s1
  else s

/-- oracle/oracle.go:1074-1088 `handleCorrectBlockProposal`. A nil reward is a nil dereference in
`increaseAllPendingRewards`. -/
def handleCorrect (E : Env) (net : Str) (s : State) (b : SumBlock) : M State :=
  let s1 := (addSubscription s b.index b.waddr b.key).advance b.index .proposalOk
  match b.reward with
  | none => .error .panic
  | some r => do
    let s2 ← increaseAll E net s1 r
    let s3 ← s2.consolidate b.index
    .ok { s3 with proposed := s3.proposed ++ [b] }

/-- oracle/oracle.go:1091-1106 `handleBlsCorrectBlockProposal`. -/
def handleBls (s : State) (b : SumBlock) : M State :=
  if b.type ≠ .okPoolBls then .error .fatal
  else match b.reward with
    | none => .error .panic
    | some r => .ok { s.toPool r with proposed := s.proposed ++ [b] }

/-- oracle/oracle.go:1485-1494 `handleBanValidator`. -/
def handleWrongFee (E : Env) (net : Str) (s : State) (b : SumBlock) : M State := do
  let s1 := s.advance b.index .proposalWrongFee
  let p ← s1.pendOf b.index
  let s2 ← increaseAll E net s1 p
  let s3 ← s2.resetPending b.index
  .ok { s3 with wrongFee := s3.wrongFee ++ [b] }

/-- oracle/oracle.go:1498-1501 `handleMissedBlock`. -/
def handleMissed (s : State) (b : SumBlock) : State :=
  let s1 := s.advance b.index .proposalMissed
  { s1 with missed := s1.missed ++ [b] }

/-- oracle/oracle.go:1416-1433, the loop of `handleManualBans`; returns the state and the total
pending balance taken. -/
def banLoop : List BanEvent → State → Int → M (State × Int)
  | [], s, tot => .ok (s, tot)
  | ev :: rest, s, tot =>
    if !s.isSubscribed ev.validatorId then banLoop rest s tot
    else do
      let s1 := s.advance ev.validatorId .manualBan
      let p ← s1.pendOf ev.validatorId
      let s2 ← s1.resetPending ev.validatorId
      banLoop rest s2 (tot + p)

/-- oracle/oracle.go:1391-1448 `handleManualBans`. -/
def handleBans (E : Env) (net : Str) (s : State) (evs : List BanEvent) : M State :=
  if evs = [] then .ok s
  else if !sameBlock (evs.map (·.block)) then .error .fatal
  else do
    let (s1, tot) ← banLoop evs s 0
    if tot < 0 then .error .fatal
    else if tot > 0 then increaseAll E net s1 tot
    else .ok s1

/-- oracle/oracle.go:1466-1480, the loop of `handleManualUnbans`. -/
def unbanLoop : List BanEvent → State → State
  | [], s => s
  | ev :: rest, s =>
    if !s.isBanned ev.validatorId then unbanLoop rest s
    else unbanLoop rest (s.advance ev.validatorId .manualUnban)

/-- oracle/oracle.go:1450-1481 `handleManualUnbans`. -/
def handleUnbans (s : State) (evs : List BanEvent) : M State :=
  if !sameBlock (evs.map (·.block)) then .error .fatal
  else .ok (unbanLoop evs s)

end Verif
