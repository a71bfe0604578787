import Verif.Model.Block
import Verif.Model.Cleanup
/-
oracle/oracle.go:67-103, 123-143, 163-258, 405-489: construction, checkpoints, configuration
checks and AdvanceStateToNextSlot.
-/
namespace Verif

/-- oracle/oracle.go:67-103 `NewOracle`. -/
def newOracle (cfg : Config) : Oracle :=
  { cfg := cfg
    st :=
      { stateHash := [], latestBlock := 0, latestSlot := sub64 cfg.depSlot 1,
        nextSlot := cfg.depSlot, poolFees := 0, vals := [], committed := [], subs := [],
        unsubs := [], ether := [], donations := [], proposed := [], missed := [], wrongFee := [],
        fee := cfg.fee, poolAddr := cfg.poolAddr, network := cfg.network,
        poolFeesAddr := cfg.poolFeesAddr, cpSize := cfg.cpSize, depBlock := cfg.depBlock,
        depSlot := cfg.depSlot, collateral := cfg.collateral, tick := 0 } }

/-- oracle/oracle.go:409-424 `feeSchedule`, `getFeeSchedule`: (slot, new fee). -/
def feeSchedule (net : Str) : List (Nat × Int) :=
  if net = mainnet then [(14082460, 500)]
  else if net = hoodi then [(2801050, 500)]
  else []

/-- Go map lookup in the schedule of a network. /repo: oracle/oracle.go:432, 463 -/
def scheduledFee (net : Str) (slot : Nat) : Option Int :=
  ((feeSchedule net).find? fun p => p.1 == slot).map (·.2)

/-- oracle/oracle.go:428-442: the loop of `applyFeeScheduleUpTo` keeps the best entry so far. -/
def bestEntry (upTo : Nat) : List (Nat × Int) → Option (Nat × Int) → Option (Nat × Int)
  | [], best => best
  | (slot, fee) :: rest, best =>
    if slot ≤ upTo ∧ (best = none ∨ ∃ b ∈ best, slot > b.1) then
      bestEntry upTo rest (some (slot, fee))
    else bestEntry upTo rest best

/-- oracle/oracle.go:428-442 `applyFeeScheduleUpTo` (the schedule is a parameter so that theorems
cover schedules with several entries, in any iteration order). -/
def applySchedule (sched : List (Nat × Int)) (cfg : Config) (upTo : Nat) : Config :=
  match bestEntry upTo sched none with
  | none => cfg
  | some (_, fee) => { cfg with fee := fee }

/-- oracle/oracle.go:450-489 `validateFullBlockConfig`; the flag is `false` when an error is
returned. Note that the fee is already changed when a later check fails. -/
def validateConfig (o : Oracle) (b : FullBlock) : M (Oracle × Bool) :=
  let ev := b.events
  if ev.poolFee.length > 1 ∨ ev.feeRecipient.length > 1 ∨ ev.cpSize.length > 1
      ∨ ev.collateral.length > 1 then .ok (o, false)
  else
    let feeStep : Option Oracle := match ev.poolFee with
      | [] => some o
      | f :: _ =>
        match scheduledFee o.cfg.network b.dutySlot with
        | none => none
        | some expected =>
          if expected ≠ i64 f then none
          else some { cfg := { o.cfg with fee := i64 f }, st := { o.st with fee := i64 f } }
    match feeStep with
    | none => .ok (o, false)
    | some o1 => do
      let recOk ← (match ev.feeRecipient with
        | [] => .ok true
        | r :: _ => equals o1.cfg.poolFeesAddr r)
      if !recOk then .ok (o1, false)
      else if ev.cpSize.any (fun n => o1.cfg.cpSize ≠ n) then .ok (o1, false)
      else if ev.collateral.any (fun c => o1.cfg.collateral ≠ c) then .ok (o1, false)
      else .ok (o1, true)

/-- oracle/oracle.go:198-239: everything done with one block between the checks and the cleanup. -/
def applyBlock (E : Env) (net : Str) (s : State) (b : FullBlock) (sb : SumBlock)
    (dons : List EtherEvent) : M State := do
  let s0 := { s with
    subs := s.subs ++ b.events.subs
    unsubs := s.unsubs ++ b.events.unsubs
    ether := s.ether ++ b.events.ether }
  let s1 ← handleSubs s0 b.events.subs b.valsSubs
  let s2 := if sb.type = .missed ∧ s1.isSubscribed sb.index then handleMissed s1 sb else s1
  let s3 ← (if sb.type = .okPoolBls then handleBls s2 sb else .ok s2)
  let s4 ← (if sb.type = .okPool then handleCorrect E net s3 sb else .ok s3)
  let s5 ← (if sb.type = .wrongFee ∧ s4.isSubscribed sb.index then handleWrongFee E net s4 sb
    else .ok s4)
  let s6 ← handleUnsubs E net s5 b.events.unsubs b.valsUnsubs
  let s7 ← handleDonations E net s6 dons
  let s8 ← handleBans E net s7 b.events.bans
  handleUnbans s8 b.events.unbans

/-- oracle/oracle.go:251-257: the slot counters after a processed slot. -/
def finishSlot (s : State) (sb : SumBlock) : State :=
  { s with
    latestSlot := s.nextSlot
    nextSlot := u64 (s.nextSlot + 1)
    latestBlock := if sb.type ≠ .missed then sb.block else s.latestBlock }

/-- oracle/oracle.go:163-258 `AdvanceStateToNextSlot`. The second component is `none` when an
error is returned; the oracle is returned in both cases because errors may leave changes behind. -/
def advanceState (E : Env) (o : Oracle) (b : FullBlock) : M (Oracle × Option Nat) :=
  if o.st.nextSlot ≠ u64 (o.st.latestSlot + 1) then .ok (o, none)
  else if o.st.nextSlot ≠ b.dutySlot then .ok (o, none)
  else do
    let (o1, cfgOk) ← validateConfig o b
    if !cfgOk then .ok (o1, none)
    else do
      let sb ← summarize o1.st b o1.cfg.poolAddr
      if o1.st.nextSlot ≠ sb.slot then .ok (o1, none)
      else do
        let dons ← getDonations b o1.cfg.poolAddr
        let s1 ← applyBlock E o1.cfg.network o1.st b sb dons
        let (s2, clean) ← (if s1.nextSlot % 1200 = 0 then cleanup E o1.cfg.network s1 s1.nextSlot
          else .ok (s1, true))
        if !clean then .ok ({ o1 with st := s2 }, none)
        else .ok ({ o1 with st := finishSlot s2 sb }, some s2.nextSlot)

/-- oracle/oracle.go:123-143 `IsCheckpoint`: `none` is a returned error; a zero checkpoint size
divides by zero (panic). -/
def isCheckpoint (o : Oracle) : M (Option Bool) :=
  if o.st.latestSlot = 0 then .ok none
  else if o.cfg.depSlot > o.st.latestSlot then .ok none
  else if o.cfg.cpSize = 0 then .error .panic
  else .ok (some ((o.st.latestSlot - o.cfg.depSlot) % o.cfg.cpSize = 0))

end Verif
