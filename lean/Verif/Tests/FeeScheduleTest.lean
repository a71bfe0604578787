import Verif.Tests.Base
import Verif.Model.Advance
import Verif.Model.Persist
import Verif.Model.GoLib
/-
Conformance tests: oracle/fee_schedule_test.go. The tests that replace the schedule of mainnet by
another one repeat on `applySchedule`, which takes the schedule as an argument; `validateConfig` and
`loadFromBytes` use the schedule of the program, so the tests that run these two with a replaced
schedule (420-495, 497-540, 546-587, 589-604, 606-620) are not repeated here.
-/
namespace Verif.Tests

/-- fee_schedule_test.go:18-29 `testConfig` -/
def feeCfg (net : Str) (fee : Int) : Config :=
  { network := net, poolAddr := b!"0x0000000000000000000000000000000000000001",
    poolFeesAddr := b!"0x0000000000000000000000000000000000000002", fee := fee, cpSize := 100,
    collateral := 1000, depSlot := 1000, depBlock := 1000, dryRun := false }

/-- fee_schedule_test.go:38-62 `fullBlockWithFeeEvent`, `fullBlockNoEvents` -/
def feeBlock (slot : Nat) (fees : List Int) : FullBlock :=
  { dutySlot := slot, dutyIndex := 0, dutyKey := [], validator := bval 0 .unknown, cons := none,
    header := none, receipts := none, events := { poolFee := fees }, valsSubs := [],
    valsUnsubs := [], chainId := 0 }

/-- fee_schedule_test.go:82-101: `Test_getFeeSchedule_KnownNetwork`, `..._KnownNetworkHoodi`,
`..._UnknownNetwork` -/
example : scheduledFee b!"mainnet" 14082460 = some 500 ∧ scheduledFee b!"hoodi" 2801050 = some 500
    ∧ feeSchedule b!"unknown_network" = [] := by decide +kernel

/-- the fee after `applyFeeScheduleUpTo` with the schedule of the program -/
def upTo (net : Str) (fee : Int) (slot : Nat) : Int :=
  (applySchedule (feeSchedule net) (feeCfg net fee) slot).fee

/-- fee_schedule_test.go:107-129: `Test_applyFeeScheduleUpTo_BeforeAnyChange`, `..._ExactlyAtChange`,
`..._AfterChange`, `..._UnknownNetwork` -/
example : upTo b!"mainnet" 700 10000000 = 700 ∧ upTo b!"mainnet" 700 14082460 = 500
    ∧ upTo b!"mainnet" 700 20000000 = 500 ∧ upTo b!"goerli" 1000 99999999 = 1000 := by decide +kernel

/-- the fee after `applyFeeScheduleUpTo` with a given schedule -/
def upToIn (sched : List (Nat × Int)) (slot : Nat) : Int :=
  (applySchedule sched (feeCfg b!"mainnet" 700) slot).fee

/-- fee_schedule_test.go:131-164 `Test_applyFeeScheduleUpTo_MultipleEntries_PicksLatest`, with the map
visited in either order -/
example : [[(14082460, 500), (20000000, 300)], [(20000000, 300), (14082460, 500)]].all (fun sc =>
    [10000000, 17000000, 25000000, 20000000, 14082460].map (upToIn sc) = [700, 500, 300, 300, 500])
    = true := by decide +kernel

/-- fee_schedule_test.go:167-182 `Test_applyFeeScheduleUpTo_MultipleEntries_Deterministic`, with the
map visited in every order -/
example : ([[(14082460, 500), (20000000, 300), (25000000, 200)],
    [(14082460, 500), (25000000, 200), (20000000, 300)],
    [(20000000, 300), (14082460, 500), (25000000, 200)],
    [(20000000, 300), (25000000, 200), (14082460, 500)],
    [(25000000, 200), (14082460, 500), (20000000, 300)],
    [(25000000, 200), (20000000, 300), (14082460, 500)]] : List (List (Nat × Int))).all
      (fun sc => upToIn sc 30000000 = 200) = true := by decide +kernel

/-- `validateFullBlockConfig`: was there no error, the fee of the configuration and of the state -/
def validated (net : Str) (fee : Int) (slot : Nat) (fees : List Int) : Option (Bool × Int × Int) :=
  match validateConfig (newOracle (feeCfg net fee)) (feeBlock slot fees) with
  | .ok (o, b) => some (b, o.cfg.fee, o.st.fee)
  | .error _ => none

/-- fee_schedule_test.go:188-263: `Test_validateFullBlockConfig_ExpectedFeeChange`,
`..._UnexpectedSlot`, `..._WrongFeeAtExpectedSlot`, `..._NoFeeEvent`, `..._HoodiExpectedFeeChange`,
`..._MultipleFeeEventsInSameBlock`; 626-642: `Test_NoSchedule_NoEvent_OK`,
`Test_NoSchedule_WithEvent_Rejected` -/
example : validated b!"mainnet" 700 14082460 [500] = some (true, 500, 500)
    ∧ validated b!"mainnet" 700 99999999 [500] = some (false, 700, 700)
    ∧ validated b!"mainnet" 700 14082460 [300] = some (false, 700, 700)
    ∧ validated b!"mainnet" 700 14082460 [] = some (true, 700, 700)
    ∧ validated b!"hoodi" 1000 2801050 [500] = some (true, 500, 500)
    ∧ validated b!"mainnet" 700 14082460 [500, 400] = some (false, 700, 700)
    ∧ validated b!"goerli" 1000 5000 [] = some (true, 1000, 1000)
    ∧ validated b!"goerli" 1000 5000 [500] = some (false, 1000, 1000) := by decide +kernel

/-- the state of `Test_LoadFromBytes_StateBefore_FeeChange` (fee_schedule_test.go:269-297) -/
def before : State :=
  { (newOracle (feeCfg b!"mainnet" 700)).st with
    latestSlot := 10000000, latestBlock := 9000000, nextSlot := 10000001, fee := 700 }

/-- the hash of `serializeStateWithHash` (fee_schedule_test.go:63-77) for that state, as computed by
another program from the text of oracle/types.go:186-223 -/
example : stateDigest goLib before =
    b!"0x4cc9d01b197d6fcfd5ebd7cc2672f988950fc75b9afee0c3b06cd1109d450f53" := by decide +kernel

/-- `serializeStateWithHash` and `LoadFromBytes`: a state saved at a slot with a fee, read by an oracle
of mainnet configured with the fee 700: was it loaded, the fee of the configuration and of the state -/
def loaded (slot : Nat) (fee : Int) : Option (Bool × Int × Int) :=
  let o := newOracle (feeCfg b!"mainnet" 700)
  let s := { o.st with latestSlot := slot, latestBlock := slot - 1000000, nextSlot := slot + 1,
                       fee := fee }
  match loadFromBytes goLib Keccak.keccak env0 o (savedBytes goLib s) with
  | .ok (o', .loaded) => some (true, o'.cfg.fee, o'.st.fee)
  | .ok (o', _) => some (false, o'.cfg.fee, o'.st.fee)
  | .error _ => none

/-- fee_schedule_test.go:269-414: `Test_LoadFromBytes_StateBefore_FeeChange`,
`..._StateAfter_FeeChange`, `..._StateExactlyAt_FeeChange`, `..._StateWithWrongFee_Rejected` -/
example : loaded 10000000 700 = some (true, 700, 700) ∧ loaded 20000000 500 = some (true, 500, 500)
    ∧ loaded 14082460 500 = some (true, 500, 500)
    ∧ (loaded 20000000 300).map (·.1) = some false := by decide +kernel

end Verif.Tests
