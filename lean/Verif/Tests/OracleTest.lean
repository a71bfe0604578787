import Verif.Tests.Base
import Verif.Model.Reconcile
import Verif.Model.Advance
/-
Conformance tests: oracle/oracle_test.go, the handlers, the distribution of rewards and the cleanup.
Where a mock of the Go test answers for fewer validators than the state holds, the missing ones are
added here as active ones, which the code passes over: the model includes the check of
`GetSetOfValidators` (oracle/onchain.go:369-376) that the mock replaces.
-/
namespace Verif.Tests

/-- the state of `NewOracle` -/
def new (c : Config) : State := (newOracle c).st

/-- `addSubscription(i, "0x", "0x")` for several validators -/
def subscribed (c : Config) (is : List Nat) : State :=
  is.foldl (fun s i => addSubscription s i b!"0x" b!"0x") (new c)

/-- `0xa0..00`, `0xb0..00`, ... -/
def at1 (d : Nat) : Str := b!"0x" ++ hexEncode (d :: List.replicate 19 0)

/-- `addSubscription` for a list of (index, address) -/
def subscribed2 (l : List (Nat × Nat)) : State :=
  l.foldl (fun s p => addSubscription s p.1 (at1 p.2) b!"0x")
    (new { cfg0 with network := [], poolFeesAddr := b!"0xfee0000000000000000000000000000000000000" })

/-! ### subscriptions without events, donations, proposals -/

/-- oracle/oracle_test.go:552-566 `Test_Oracle_CanValidatorSubscribeToPool` and 4053-4066
`Test_CanValidatorSubscribeToPool` -/
example : canSubscribe .activeOngoing = true ∧ canSubscribe .activeExiting = false
    ∧ canSubscribe .pendingInitialized = true ∧ canSubscribe .pendingQueued = true := by
  decide +kernel

/-- oracle/oracle_test.go:568-582 `Test_addSubscription_1` -/
example : ok (do
    let s1 ← increaseAll env0 b!"mainnet" (subscribed cfg0 [10]) 100
    let s2 ← s1.consolidate 10
    increaseAll env0 b!"mainnet" s2 200) (fun s =>
      row s 10 = some (.active, 100, 200) && sub s 10 = some .auto
        && row (addSubscription s 10 b!"0x" b!"0x") 10 = some (.active, 100, 200)) = true := by
  decide +kernel

/-- oracle/oracle_test.go:584-608 `Test_addSubscription_2` -/
example : (addSubscription (new { cfg0 with network := [] }) 100 (at1 0x30) b!"0xkey").vals =
    [(100, { status := .active, acc := 0, pend := 0, coll := 0, waddr := at1 0x30, index := 100,
             key := b!"0xkey", subType := .auto })] := by decide +kernel

/-- oracle/oracle_test.go:610-640 `Test_handleDonations_PoolGetsAll` -/
example : ok (handleDonations env0 b!"mainnet" (new cfg0) [⟨765432, [], 100⟩, ⟨30023456, [], 100⟩])
    (fun s => s.donations = [⟨765432, [], 100⟩, ⟨30023456, [], 100⟩]
      && s.poolFees = 765432 + 30023456) = true := by decide +kernel

/-- oracle/oracle_test.go:642-676 `Test_handleDonations_SharedEqual` -/
example : ok (handleDonations env0 b!"mainnet" (subscribed { cfg0 with fee := 100 } [10, 20])
      [⟨26543, [], 100⟩, ⟨100000, [], 100⟩])
    (fun s => s.poolFees = 5565 && row s 10 = some (.active, 0, 60489)
      && row s 20 = some (.active, 0, 60489)) = true := by decide +kernel

/-- oracle/oracle_test.go:678-703 `Test_handleCorrectBlockProposal_AutoSubs` -/
example : ok (handleCorrect env0 b!"mainnet" (new cfg0) (pay 10 50000000))
    (fun s => row s 10 = some (.active, 50000000, 0)) = true := by decide +kernel

/-- oracle/oracle_test.go:705-734 `Test_handleCorrectBlockProposal_AlreadySub` -/
example : ok (do
    let s1 ← (subscribed cfg0 [10]).incPending 10 1
    let s2 ← s1.incAccumulated 10 1
    handleCorrect env0 b!"mainnet" s2 (pay 10 50000000))
    (fun s => row s 10 = some (.active, 50000000 + 1 + 1, 0) && sub s 10 = some .auto) = true := by
  decide +kernel

/-! ### subscription events -/

/-- a configuration with a collateral -/
def cfgC (c : Int) : Config := { cfg0 with collateral := c }

/-- what a valid subscription of validator 33 leaves -/
def sub33 (acc pend : Int) : Validator :=
  { status := .active, acc := acc, pend := pend, coll := 1000,
    waddr := b!"0x9427a30991170f917d7b83def6e44d26577871ed", index := 33,
    key := b!"0x81aae709e6aee7ed49cd15b941d85b967afcc8b844ee20bc7e13962e8484572c1b43d4be75652119ec353c1a32443e0d",
    subType := .manual }

/-- the beacon chain's validator of most tests -/
def b33 : Option BVal := some (bval 33 .activeOngoing)

/-- oracle/oracle_test.go:736-779 `Test_handleManualSubscriptions_Valid` -/
example : ok (handleSubs (new (cfgC 1000)) [sev 33 1000] [b33])
    (fun s => s.vals = [(33, sub33 0 1000)]) = true := by decide +kernel

/-- oracle/oracle_test.go:781-814 `Test_handleManualSubscriptions_FromWrongAddress` -/
example : ok (handleSubs (new (cfgC 1000))
      [{ sev 33 1000 with sender := b!"0x0000000000000000000000000000000000000000" }] [b33])
    (fun s => s.vals = []) = true := by decide +kernel

/-- oracle/oracle_test.go:816-890 `Test_handleManualSubscriptions_AlreadySubscribed` -/
example : ok (handleSubs (new (cfgC 1000)) [sev 33 1000, sev 33 1000, sev 33 1000] [b33, b33, b33])
    (fun s => s.vals = [(33, sub33 2000 1000)]) = true := by decide +kernel

/-- oracle/oracle_test.go:892-948 `Test_handleManualSubscriptions_ThenSendBlock` -/
example : ok (do
    let s1 ← handleSubs (new (cfgC 1000)) [sev 33 1000] [b33]
    let s2 ← handleCorrect env0 b!"mainnet" s1 (pay 33 90000000)
    let s3 ← handleCorrect env0 b!"mainnet" s2 (pay 33 90000000)
    .ok (s1, s2, s3)) (fun (s1, s2, s3) =>
      sub s1 33 = some .manual && sub s2 33 = some .manual && sub s3 33 = some .manual) = true := by
  decide +kernel

/-- oracle/oracle_test.go:950-996 `Test_handleManualSubscriptions_AutoThenSubscribe` -/
example : ok (do
    let s1 ← handleCorrect env0 b!"mainnet" (new (cfgC 1000)) (pay 33 90000000)
    let s2 ← handleSubs s1 [sev 33 1000] [b33]
    .ok (s1, s2)) (fun (s1, s2) => sub s1 33 = some .auto && sub s2 33 = some .auto) = true := by
  decide +kernel

/-- oracle/oracle_test.go:998-1055 `Test_SubscribeUnsubscribe_Auto` -/
example : ok (do
    let s1 ← handleSubs (new (cfgC 1000)) [sev 33 1000] [b33]
    let s2 ← handleUnsubs env0 b!"mainnet" s1 [uev 33] [b33]
    let s3 ← handleCorrect env0 b!"mainnet" s2 (pay 33 90000000)
    .ok (s1, s2, s3)) (fun (s1, s2, s3) =>
      sub s1 33 = some .manual && sub s2 33 = some .manual && sub s3 33 = some .auto) = true := by
  decide +kernel

/-- oracle/oracle_test.go:1057-1113 `Test_AutoUnsubscribeThenManual` -/
example : ok (do
    let s1 ← handleCorrect env0 b!"mainnet" (new (cfgC 1000)) (pay 33 90000000)
    let s2 ← handleUnsubs env0 b!"mainnet" s1 [uev 33] [b33]
    let s3 ← handleSubs s2 [sev 33 1000] [b33]
    .ok (s1, s2, s3)) (fun (s1, s2, s3) =>
      sub s1 33 = some .auto && sub s2 33 = some .auto && sub s3 33 = some .manual) = true := by
  decide +kernel

/-- oracle/oracle_test.go:1115-1170 `Test_AutoUnsubscribeThenAuto` -/
example : ok (do
    let s1 ← handleCorrect env0 b!"mainnet" (new (cfgC 1000)) (pay 33 90000000)
    let s2 ← handleUnsubs env0 b!"mainnet" s1 [uev 33] [b33]
    let s3 ← handleCorrect env0 b!"mainnet" s2 (pay 33 90000000)
    .ok (s1, s2, s3)) (fun (s1, s2, s3) =>
      sub s1 33 = some .auto && sub s2 33 = some .auto && sub s3 33 = some .auto
        && (row s3 33).map (·.1) = some .active) = true := by decide +kernel

/-- oracle/oracle_test.go:1172-1232 `Test_BannedValidatorAutoSubs` -/
example : ok (do
    let s1 ← handleSubs (new (cfgC 1000)) [sev 33 1000] [b33]
    handleCorrect env0 b!"mainnet" (s1.modVal 33 fun v => { v with status := .banned })
      (pay 33 90000000)) (fun s =>
      sub s 33 = some .manual && (row s 33).map (·.1) = some .banned) = true := by decide +kernel

/-- oracle/oracle_test.go:1234-1286 `Test_ManualBanUnbanValidators` -/
example : ok (do
    let s1 ← handleSubs (new (cfgC 1000)) [sev 33 1000] [b33]
    let s2 ← handleBans env0 b!"mainnet" s1 [⟨33, 1⟩]
    let s3 ← handleUnbans s2 [⟨33, 1⟩]
    .ok (s1, s2, s3)) (fun (s1, s2, s3) =>
      (row s1 33).map (·.1) = some .active && (row s2 33).map (·.1) = some .banned
        && (row s3 33).map (·.1) = some .active) = true := by decide +kernel

/-- the validators of `TestBanUnbanWithRewards` after their rewards -/
def fourMembers : M State := do
  let s ← handleSubs (new cfg0) [sev 33 0 148, sev 34 0 149, sev 35 0 150, sev 36 0 151]
    [some (bval 33 .activeOngoing 148), some (bval 34 .activeOngoing 149),
     some (bval 35 .activeOngoing 150), some (bval 36 .activeOngoing 151)]
  let s ← s.incAccumulated 33 110000
  let s ← s.incPending 33 10000
  let s ← s.incAccumulated 34 120000
  let s ← s.incPending 34 10000
  let s ← s.incAccumulated 35 130000
  let s ← s.incPending 35 10000
  let s ← s.incAccumulated 36 140000
  s.incPending 36 10000

/-- oracle/oracle_test.go:1288-1435 `TestBanUnbanWithRewards` -/
example : ok (do
    let s1 ← fourMembers
    let s2 ← handleBans env0 b!"mainnet" s1 [⟨33, 1⟩, ⟨34, 1⟩, ⟨37, 1⟩, ⟨34, 1⟩]
    let s3 ← handleUnbans s2 [⟨33, 1⟩, ⟨37, 1⟩, ⟨33, 1⟩]
    .ok (s2, s3)) (fun (s2, s3) =>
      row s2 33 = some (.banned, 110000, 0) && row s2 34 = some (.banned, 120000, 0)
        && row s2 35 = some (.active, 130000, 20000) && row s2 36 = some (.active, 140000, 20000)
        && row s3 33 = some (.active, 110000, 0)) = true := by decide +kernel

/-- oracle/oracle_test.go:1437-1485 `Test_handleManualSubscriptions_AlreadySubscribed_WithBalance` -/
example : ok (do
    let s1 ← handleSubs (new (cfgC 1000)) [sev 33 1000] [b33]
    let s2 ← s1.incAccumulated 33 9000
    let s3 ← s2.incPending 33 44000
    handleSubs s3 [sev 33 1000, sev 33 1000] [b33, b33])
    (fun s => s.vals = [(33, sub33 (9000 + 1000 * 2) (44000 + 1000))]) = true := by decide +kernel

/-- oracle/oracle_test.go:1487-1520 `Test_handleManualSubscriptions_Wrong_BlsCredentials` -/
example : ok (handleSubs (new (cfgC 1000)) [sev 33 1000]
      [some { bval 33 .activeOngoing with
        creds := [0, 120, 22, 197, 153, 67, 183, 29, 244, 168, 13, 66, 101, 227, 165, 250, 41, 86, 97,
                  10, 40, 91, 140, 65, 154, 102, 143, 67, 117, 255, 140, 254] }])
    (fun s => s.vals = [] && s.poolFees = 1000) = true := by decide +kernel

/-- oracle/oracle_test.go:1522-1547 `Test_handleManualSubscriptions_NonExistent` -/
example : ok (handleSubs (new (cfgC 1000)) [sev 33 1000] [none])
    (fun s => s.vals = [] && s.poolFees = 1000) = true := by decide +kernel

/-- oracle/oracle_test.go:1549-1598 `Test_handleManualSubscriptions_WrongStateValidator` -/
example : ok (handleSubs (new (cfgC 1000)) [sev 34 1000, sev 33 1000]
      [some (bval 34 .activeExiting), some (bval 33 .exitedSlashed)])
    (fun s => s.vals = [] && s.poolFees = 1000 * 2) = true := by decide +kernel

/-- oracle/oracle_test.go:1600-1657 `Test_handleManualSubscriptions_BannedValidator` -/
example : ok (handleSubs (withVals (cfgC 1000)
        [(300000, { sub33 0 0 with status := .banned, index := 300000 })])
      [sev 300000 1000] [some (bval 300000 .activeOngoing)])
    (fun s => s.vals = [(300000, { sub33 1000 0 with status := .banned, index := 300000 })])
    = true := by decide +kernel

/-- the third validator of `Test_handleManualSubscriptions`, whose address has another tail -/
def b35 : BVal :=
  { bval 35 .activeOngoing with
    creds := [1, 0, 0, 0, 0, 0, 0, 0, 0, 0, 0, 0, 150, 39, 165, 9, 145, 23, 15, 145, 125, 123, 131, 222,
              246, 228, 77, 38, 87, 120, 113, 237] }

/-- oracle/oracle_test.go:1659-1814 `Test_handleManualSubscriptions` -/
example : ok (do
    let s1 ← handleSubs (new (cfgC 1000)) [sev 33 1000, sev 34 1000 149,
        { sev 35 50 with sender := b!"0x9627a50991170f917d7b83def6e44d26577871ed" }]
      [b33, some (bval 34 .activeOngoing 149), some b35]
    let s2 ← handleSubs s1 [sev 33 5000000, sev 34 1000 149]
      [b33, some (bval 34 .activeOngoing 149)]
    let s3 ← handleWrongFee env0 b!"mainnet" s2 { pay 34 0 with slot := 100, reward := none }
    .ok (s1, s2, s3)) (fun (s1, s2, s3) =>
      s1.vals.length = 2 && s1.poolFees = 50
        && row s1 33 = some (.active, 0, 1000) && row s1 34 = some (.active, 0, 1000)
        && (VMap.get s1.vals 33).map (·.coll) = some 1000
        && (VMap.get s1.vals 34).map (·.coll) = some 1000
        && row s2 33 = some (.active, 5000000, 1000) && row s2 34 = some (.active, 1000, 1000)
        && (VMap.get s2.vals 33).map (·.coll) = some 1000
        && (VMap.get s2.vals 34).map (·.coll) = some 1000
        && (row s3 34).map (fun r => (r.1, r.2.1)) = some (.banned, 1000)
        && (row s3 33).map (fun r => r.2.1) = some 5000000) = true := by decide +kernel

/-! ### unsubscription events -/

/-- oracle/oracle_test.go:1816-1887 `Test_handleManualUnsubscriptions_SubThenUnsubThenAuto` -/
example : ok (do
    let s1 ← handleSubs (new (cfgC 500000)) [sev 9000 500000 3] [some (bval 9000 .activeOngoing 3)]
    let s2 := s1.modVal 9000 fun v => { v with pend := 10000, acc := 20000 }
    let s3 ← handleUnsubs env0 b!"mainnet" s2 [uev 9000 3] [some (bval 9000 .activeOngoing 3)]
    let s4 ← handleCorrect env0 b!"mainnet" s3 (pay 9000 90000000)
    .ok (s1, s3, s4)) (fun (s1, s3, s4) =>
      sub s1 9000 = some .manual && row s3 9000 = some (.notSubscribed, 20000, 0)
        && row s4 9000 = some (.active, 20000 + 90000000, 0) && sub s4 9000 = some .auto)
    = true := by decide +kernel

/-- the four members of `Test_handleManualUnsubscriptions_ValidSubscription` -/
def joinAll : List Nat → State → M State
  | [], s => .ok s
  | i :: is, s => do
    let s ← handleSubs s [sev i 500000 i] [some (bval i .activeOngoing i i)]
    let s ← s.incAccumulated i 3000
    let s ← s.incPending i (300000000000000000 - 500000)
    joinAll is s

/-- oracle/oracle_test.go:1889-2011 `Test_handleManualUnsubscriptions_ValidSubscription` -/
example : ok (do
    let s1 ← joinAll [6, 9, 10, 15] (new (cfgC 500000))
    let s2 ← handleUnsubs env0 b!"mainnet" s1 [uev 6 6] [some (bval 6 .activeOngoing 6 6)]
    let s3 ← handleUnsubs env0 b!"mainnet" s2 [uev 9 9, uev 10 10, uev 15 15]
      [some (bval 9 .activeOngoing 9), some (bval 10 .activeOngoing 10),
       some (bval 15 .activeOngoing 15)]
    .ok (s1, s2, s3)) (fun (s1, s2, s3) =>
      s1.vals.length = 4
        && VMap.get s2.vals 6 = some
          { status := .notSubscribed, acc := 3000, pend := 0, coll := 500000,
            waddr := b!"0x0627a30991170f917d7b83def6e44d26577871ed", index := 6,
            key := b!"0x06aae709e6aee7ed49cd15b941d85b967afcc8b844ee20bc7e13962e8484572c1b43d4be75652119ec353c1a32443e0d",
            subType := .manual }
        && row s2 9 = some (.active, 3000, 300000000000000000 + 300000000000000000 / 3)
        && row s2 10 = some (.active, 3000, 300000000000000000 + 300000000000000000 / 3)
        && row s2 15 = some (.active, 3000, 300000000000000000 + 300000000000000000 / 3)
        && s3.vals.length = 4
        && [6, 9, 10, 15].all (fun i =>
          (row s3 i).map (fun r => (r.1, r.2.2)) = some (.notSubscribed, 0))) = true := by
  decide +kernel

/-- oracle/oracle_test.go:2013-2059 `Test_handleManualUnsubscriptions_NonExistentValidator` -/
example : ok (handleUnsubs env0 b!"mainnet"
      (withVals (cfgC 1000) [(33, sub33 (9000 + 1000 * 2) (44000 + 1000))]) [uev 900300 50] [none])
    (fun s => s.vals = [(33, sub33 (9000 + 1000 * 2) (44000 + 1000))]) = true := by decide +kernel

/-- oracle/oracle_test.go:2061-2092 `Test_handleManualUnsubscriptions_NotSubscribedValidator` -/
example : ok (handleUnsubs env0 b!"mainnet" (new (cfgC 1000)) [uev 730100 (730100 % 256)]
      [some (bval 730100 .activeExiting)]) (fun s => s.vals = []) = true := by decide +kernel

/-- oracle/oracle_test.go:2094-2147 `Test_handleManualUnsubscriptions_FromWrongAddress` -/
example : ok (handleUnsubs env0 b!"mainnet"
      (withVals (cfgC 1000)
        [(750100, { sub33 5000000000000000000 3000000000000000000 with index := 750100 })])
      [{ uev 750100 with sender := b!"0x0000000000000000000000000000000000000000" }]
      [some (bval 750100 .activeOngoing (750100 % 256))])
    (fun s => s.vals =
      [(750100, { sub33 5000000000000000000 3000000000000000000 with index := 750100 })])
    = true := by decide +kernel

/-- oracle/oracle_test.go:2149-2231 `Test_handleManualUnsubscriptions_AndRejoin` -/
example : ok (do
    let s0 := withVals (cfgC 500000) [(750100, { sub33 0 0 with coll := 500000, index := 750100 })]
    let s1 ← s0.incAccumulated 750100 1000000000000000000
    let s2 ← s1.incPending 750100 5000000000000000000
    let s3 ← handleUnsubs env0 b!"mainnet" s2 [uev 750100] [some (bval 750100 .activeOngoing)]
    let s4 ← handleSubs s3 [sev 750100 500000] [some (bval 750100 .activeOngoing)]
    .ok (s3, s4)) (fun (s3, s4) =>
      s3.vals = [(750100, { sub33 1000000000000000000 0 with
        status := .notSubscribed, coll := 500000, index := 750100 })]
      && s4.vals = [(750100, { sub33 1000000000000000000 500000 with
        coll := 500000, index := 750100 })]) = true := by decide +kernel

/-! ### wrong fee recipients, missed blocks, BLS proposers -/

/-- oracle/oracle_test.go:2233-2257 `Test_handleBanValidator` -/
example : ok (do
    let s1 ← increaseAll env0 b!"mainnet" (subscribed cfg0 [1, 2, 3]) 99
    let s2 ← handleWrongFee env0 b!"mainnet" s1 { pay 3 0 with reward := none }
    .ok (s1, s2)) (fun (s1, s2) =>
      [1, 2, 3].all (fun i => pend s1 i = some 33)
        && pend s2 1 = some 49 && pend s2 2 = some 49 && pend s2 3 = some 0
        && s2.poolFees = 1) = true := by decide +kernel

/-- oracle/oracle_test.go:2259-2291 `Test_handleMissedBlock` -/
example : ok (do
    let s1 ← (subscribed cfg0 [1, 2]).incPending 1 100
    let s2 ← s1.incAccumulated 1 200
    .ok s2) (fun s =>
      let b : SumBlock := { pay 1 0 with slot := 100, reward := none, type := .missed }
      let s1 := handleMissed s b
      let s2 := handleMissed s1 b
      row s1 1 = some (.yellowCard, 200, 100) && s1.missed[0]? = some b
        && row s2 1 = some (.redCard, 200, 100)) = true := by decide +kernel

/-- oracle/oracle_test.go:2293-2334 `Test_handleBlsCorrectBlockProposal_NotSubscribed` -/
example : ok (handleBls (subscribed { cfg0 with network := [], fee := 100 } [888, 999])
      { pay 1 100 with slot := 100, block := 1, type := .okPoolBls })
    (fun s => s.vals.length = 2 && s.poolFees = 100
      && s.proposed = [{ pay 1 100 with slot := 100, block := 1, type := .okPoolBls }]
      && pend s 888 = some 0 && pend s 999 = some 0 && (VMap.get s.vals 1).isNone) = true := by
  decide +kernel

/-- oracle/oracle_test.go:2336-2361 `Test_handleBlsCorrectBlockProposal_Subscribed` -/
example : ok (handleBls (subscribed { cfg0 with network := [] } [1])
      { pay 1 100 with slot := 100, type := .okPoolBls })
    (fun s => s.vals.length = 1 && pend s 1 = some 0 && s.poolFees = 100) = true := by
  decide +kernel

/-! ### distribution of rewards -/

/-- oracle/oracle_test.go:2363-2383 `Test_increaseAllPendingRewards_1` -/
example : ok (increaseAll env0 b!"mainnet" (subscribed cfg0 [1, 2, 3]) 10000)
    (fun s => [1, 2, 3].all (fun i => pend s i = some 3333) && s.poolFees = 1) = true := by
  decide +kernel

/-- oracle/oracle_test.go:2385-2405 `Test_increaseAllPendingRewards_2` -/
example : ok (increaseAll env0 b!"mainnet" (subscribed { cfg0 with fee := 10 * 100 } [1, 2, 3]) 10000)
    (fun s => [1, 2, 3].all (fun i => pend s i = some 3000) && s.poolFees = 1000) = true := by
  decide +kernel

/-- several distributions in a row -/
def distribute (s : State) : List Int → M State
  | [] => .ok s
  | r :: rs => do
    let s ← increaseAll env0 b!"mainnet" s r
    distribute s rs

/-- oracle/oracle_test.go:2407-2458 `Test_increaseAllPendingRewards_3`: nothing is lost. The last
three lines of the Go table have 200, 233 and 99 validators; they are repeated with 20, 23 and 9. -/
example : ([(0, [100], 1), (0, [500], 2), (0, [398], 3), (10 * 100, [0], 1), (15 * 100, [23033], 1),
    (33 * 100, [99999], 5), (33 * 100, [1], 5), (33 * 100, [1, 403342], 20),
    (12 * 100, [32000000000000, 333333333333, 345676543234567], 23),
    (14 * 100, [32000000000000, 333333333333, 345676543234567, 9], 9)]
      : List (Int × List Int × Nat)).all (fun (fee, rs, n) =>
      ok (distribute (subscribed { cfg0 with fee := fee } (List.range n)) rs) (fun s =>
        s.poolFees + (s.vals.map fun p => p.2.pend).sum = rs.sum)) = true := by decide +kernel

/-- oracle/oracle_test.go:2460-2529 `Test_increaseAllPendingRewards_4`: fee, reward, validators,
share of each, pool -/
example : ([(0, 0, 1, 0, 0), (100 * 100, 2345676543, 0, 0, 2345676543), (1 * 100, 100, 1, 99, 1),
    (10 * 100, 10000000000, 1, 9000000000, 1000000000),
    (10 * 100, 10000000000, 2, 4500000000, 1000000000),
    (0, 555555555555, 5, 111111111111, 0), (250, 15000, 5, 2925, 375),
    (25, 87654567898, 5, 17487084805, 219136419 + 7450 + 4)]
      : List (Int × Int × Nat × Int × Int)).all (fun (fee, r, n, share, pool) =>
      ok (increaseAll env0 b!"mainnet" (subscribed { cfg0 with fee := fee } (List.range n)) r)
        (fun s => (List.range n).all (fun i => pend s i = some share) && s.poolFees = pool))
    = true := by decide +kernel

/-- the fork slot of mainnet, `SlotFork1["mainnet"]` -/
def fork1 : Nat := slotOrZero (slotFork1 b!"mainnet")

/-- oracle/oracle_test.go:2531-2618 `Test_increaseAllPendingRewards_5`: fee, reward, validators, share
of each, pool, slot. The Go test runs the whole function for up to 99999 validators; here the rule of
the slot and the arithmetic for that number of validators are evaluated (`increaseAll` with the
two smallest lines in the next test). -/
example : ([(0, 0, 1, 0, 0, 0), (700, 30500333098045431, 1665, 17036222090799, 2135023316865096, 0),
    (700, 200000000000000000, 2, 93000000000000000, 14000000000000000, 0),
    (700, 43446233255383379, 503, 80328025700797, 3041236327882488, 0),
    (700, 24448528911304907, 1034, 21989489252909, 1711397023797001, 0),
    (700, 1, 1670, -1, 1671, fork1 - 1),
    (700, 751283351135293312, 1959, 356658252453197, 52589834579480389, fork1 - 1),
    (700, 48913644130771431, 1975, 23032753945121, 3423955089157456, fork1 - 1),
    (700, 1511244003192947, 1975, 711623758464, 105787080226547, fork1 - 1),
    (700, 24117725873436208, 1976, 11350953978891, 1688240811147592, fork1 - 10000),
    (700, 91043549594056858, 1975, 42871139808846, 6373048471586008, fork1 - 1),
    (700, 1, 1987, -1, 1988, fork1 - 100000), (700, 1, 1987, 0, 1, fork1 + 100000),
    (700, 0, 1987, 0, 0, fork1 + 100000), (700, 0, 1987, 0, 0, fork1 - 100000),
    (700, 1, 1670, 0, 1, fork1),
    (700, 751283351135293312, 1959, 356658252453202, 52589834579470594, fork1),
    (700, 751283351135293312, 1959, 356658252453202, 52589834579470594, fork1 + 3000),
    (1000, 100000000000001, 100, 900000000000, 10000000000001, fork1 + 1),
    (123, 345432454323432, 3454, 98779280583, 4248819189750, fork1 + 2),
    (123, 345432454323432, 3454, 98779280583, 4248819189750, fork1 + 3),
    (999, 99999999999999, 5, 18002000000000, 9989999999999, fork1 + 1000),
    (9999, 99999999999999, 99999, 100001, 99990000000000, fork1 + 30000)]
      : List (Int × Int × Int × Int × Int × Nat)).all (fun (fee, r, n, share, pool, slot) =>
      ok (do
        let m ← rewardMethod b!"mainnet" slot
        match m with
        | .preFork1 => preFork1Split r (r * fee / 10000) (r * fee) 10000 n
        | .fork1 => fork1Split r (r * fee / 10000) n
        | .electra => .error .fatal) (fun x => x = (pool, share))) = true := by decide +kernel

/-- the same test, two lines with the whole function -/
example : ok (increaseAll env0 b!"mainnet" (subscribed { cfg0 with fee := 700 } [0, 1])
        200000000000000000)
      (fun s => pend s 0 = some 93000000000000000 && pend s 1 = some 93000000000000000
        && s.poolFees = 14000000000000000) = true
    ∧ ok (increaseAll env0 b!"mainnet" { subscribed { cfg0 with fee := 999 } [0, 1, 2, 3, 4] with
          nextSlot := fork1 + 1000 } 99999999999999)
      (fun s => (List.range 5).all (fun i => pend s i = some 18002000000000)
        && s.poolFees = 9989999999999) = true := by decide +kernel

/-! ### cleanup -/

/-- a validator of the pool in a test of the cleanup -/
def v (st : Status) (pend acc : Int) : Validator := { info with status := st, pend := pend, acc := acc }

/-- a validator of the beacon chain in a test of the cleanup -/
def bv (i : Nat) (st : BStatus) : BVal :=
  { index := i, status := st, creds := [1], pubkey := [], effBal := 0 }

/-- one case of the cleanup: fee, validators of the pool, answer of the node, expected rows, expected
fees of the pool -/
def cleanCase (slot : Nat) (fee : Int) (vals : List (Nat × Validator)) (bs : List BVal)
    (rows : List (Nat × Status × Int × Int)) (fees : Int) (cs : List (Nat × Nat) := []) : Bool :=
  ok (cleanup (envOf bs cs) b!"mainnet" (withVals { cfg0 with fee := fee } vals) slot) (fun r =>
    r.2 && rows.all (fun x => row r.1 x.1 = some (x.2.1, x.2.2.2, x.2.2.1)) && r.1.poolFees = fees)

/-- oracle/oracle_test.go:2620-3100 `Test_ValidatorCleanup_1`: the twelve cases. Expected rows are
(index, status, pending, accumulated). -/
example :
    ok (cleanup env0 b!"mainnet" (new cfg0) (fork1 - 1)) (fun r => r.2) = true ∧
    ok (cleanup env0 b!"mainnet" (new cfg0) (fork1 + 1)) (fun r => r.2) = true ∧
    cleanCase (fork1 + 1) 0 [(20, v .active 765432345 543245)] [bv 20 .activeOngoing]
      [(20, .active, 765432345, 543245)] 0 = true ∧
    cleanCase (fork1 + 1) 0 [(20, v .active 765432345 543245)] [bv 20 .activeExiting]
      [(20, .active, 765432345, 543245)] 0 = true ∧
    cleanCase (fork1 + 1) 1000
      [(20, v .active 765432345 543245), (21, v .active 0 99), (22, v .active 0 99)]
      [bv 20 .exitedUnslashed, bv 21 .activeOngoing, bv 22 .activeOngoing]
      [(20, .notSubscribed, 0, 543245), (21, .active, 344442055, 99), (22, .active, 344442055, 99)]
      76548235 = true ∧
    cleanCase (fork1 + 1) 1000
      [(20, v .active 765432345 543245), (21, v .yellowCard 0 99), (22, v .active 0 99)]
      [bv 20 .exitedUnslashed, bv 21 .activeOngoing, bv 22 .activeOngoing]
      [(20, .notSubscribed, 0, 543245), (21, .yellowCard, 344442055, 99),
       (22, .active, 344442055, 99)] 76548235 = true ∧
    cleanCase (fork1 + 1) 1000
      [(20, v .active 765432345 543245), (21, v .yellowCard 0 99), (22, v .active 0 99)]
      [bv 20 .exitedSlashed, bv 21 .activeOngoing, bv 22 .activeOngoing]
      [(20, .notSubscribed, 0, 543245), (21, .yellowCard, 344442055, 99),
       (22, .active, 344442055, 99)] 76548235 = true ∧
    cleanCase (fork1 + 1) 1000
      [(20, v .active 765432345 543245), (21, v .redCard 0 99), (22, v .active 0 99)]
      [bv 20 .exitedUnslashed, bv 21 .activeOngoing, bv 22 .activeOngoing]
      [(20, .notSubscribed, 0, 543245), (21, .redCard, 0, 99), (22, .active, 688884111, 99)]
      76548234 = true ∧
    cleanCase (fork1 + 1) 1000
      [(20, v .active 1000 543245), (21, v .active 1000 99), (22, v .active 0 99)]
      [bv 20 .exitedUnslashed, bv 21 .exitedSlashed, bv 22 .activeOngoing]
      [(20, .notSubscribed, 0, 543245), (21, .notSubscribed, 0, 99), (22, .active, 1800, 99)]
      200 = true ∧
    cleanCase (fork1 + 1) 1000
      [(20, v .active 1000 543245), (21, v .active 1000 99), (22, v .active 3000 99)]
      [bv 20 .exitedUnslashed, bv 21 .exitedSlashed, bv 22 .exitedUnslashed]
      [(20, .notSubscribed, 0, 543245), (21, .notSubscribed, 0, 99), (22, .notSubscribed, 0, 99)]
      5000 = true ∧
    cleanCase (fork1 + 1) 1000 [(20, v .banned 0 543245)] [bv 20 .exitedUnslashed]
      [(20, .banned, 0, 543245)] 0 = true ∧
    cleanCase (fork1 + 1) 1000 [(20, v .yellowCard 10 20), (21, v .redCard 30 40)]
      [bv 20 .exitedUnslashed, bv 21 .exitedSlashed]
      [(20, .notSubscribed, 0, 20), (21, .notSubscribed, 0, 40)] 40 = true ∧
    cleanCase (fork1 - 1) 1000 [(20, v .yellowCard 10 20)] [bv 20 .exitedUnslashed]
      [(20, .yellowCard, 10, 20)] 0 = true := by decide +kernel

/-- the electra slot of mainnet, `SlotElectraFork["mainnet"]` -/
def electra : Nat := slotOrZero (slotElectra b!"mainnet")

/-- oracle/oracle_test.go:3102-3338 `Test_ValidatorCleanup_Consolidations`: the six cases -/
example :
    cleanCase (electra + 1) 0 [(30, v .active 1000 0), (31, v .active 0 0)]
      [bv 30 .exitedUnslashed, bv 31 .activeOngoing]
      [(30, .notSubscribed, 0, 0), (31, .active, 1000, 0)] 0 [(30, 31)] = true ∧
    ok (cleanup { env0 with
        node := fun _ _ req => some (req.map fun i => bval i .exitedUnslashed)
        consol := fun _ _ => some [(40, 41)] } b!"mainnet"
        (withVals cfg0 [(40, v .active 2000 0)]) (electra + 1)) (fun r =>
      r.2 && row r.1 40 = some (.notSubscribed, 0, 0) && row r.1 41 = some (.notSubscribed, 0, 2000)
        && r.1.poolFees = 0) = true ∧
    ok (cleanup { env0 with
        node := fun _ _ req => some (req.map fun i =>
          bval i (if i = 41 ∨ i = 42 then .activeOngoing else .exitedUnslashed))
        consol := fun _ _ => some [(40, 45)] } b!"mainnet"
        (withVals cfg0 [(40, v .active 10 0), (41, v .active 20 0), (42, v .active 30 0)])
        (electra + 1)) (fun r =>
      r.2 && row r.1 40 = some (.notSubscribed, 0, 0) && row r.1 41 = some (.active, 0, 20)
        && row r.1 42 = some (.active, 0, 30) && row r.1 45 = some (.notSubscribed, 0, 10)
        && r.1.poolFees = 0) = true ∧
    cleanCase (electra + 1) 1000
      [(50, v .active 10 0), (51, v .active 30 0), (52, v .active 20 0)]
      [bv 50 .exitedSlashed, bv 51 .exitedUnslashed, bv 52 .activeOngoing]
      [(50, .notSubscribed, 0, 0), (51, .notSubscribed, 0, 0), (52, .active, 59, 0)] 1
      [(51, 52)] = true ∧
    cleanCase (electra + 1) 0
      [(60, v .active 100 0), (61, v .active 200 0), (62, v .active 0 0)]
      [bv 60 .exitedUnslashed, bv 61 .exitedUnslashed, bv 62 .activeOngoing]
      [(60, .notSubscribed, 0, 0), (61, .notSubscribed, 0, 0), (62, .active, 300, 0)] 0
      [(60, 62), (61, 62)] = true ∧
    cleanCase (electra + 1) 1000 [(70, v .active 10 0), (71, v .active 20 0)]
      [bv 70 .activeOngoing, bv 71 .activeOngoing]
      [(70, .active, 10, 0), (71, .active, 20, 0)] 0 [(70, 71)] = true := by decide +kernel

/-! ### small functions -/

/-- oracle/oracle_test.go:3340-3360 `Test_increaseValidatorPendingRewards` -/
example : ok (do
    let s1 ← (withVals cfg0 [(12, { info with pend := 100 }), (200, { info with pend := 100 })]
      ).incPending 12 8765432
    let s2 ← s1.incPending 200 0
    let s3 ← s2.incPending 12 1
    .ok (s1, s2, s3)) (fun (s1, s2, s3) =>
      row s1 12 = some (.unknownState, 0, 8765432 + 100) && pend s2 200 = some 100
        && pend s3 12 = some (8765432 + 100 + 1)) = true := by decide +kernel

/-- statuses only -/
def statuses (l : List (Nat × Status)) : State :=
  withVals cfg0 (l.map fun p => (p.1, { info with status := p.2 }))

/-- oracle/oracle_test.go:3362-3420 `TestGetEligibleValidators` -/
example : eligible env0 (statuses []) = []
    ∧ eligible env0 (statuses [(0, .active), (1, .yellowCard), (2, .active)]) = [0, 1, 2]
    ∧ eligible env0 (statuses [(0, .redCard), (1, .notSubscribed), (2, .banned)]) = []
    ∧ eligible env0 (statuses [(0, .redCard), (1, .active), (2, .yellowCard), (3, .banned)]) = [1, 2]
    ∧ eligible env0 (statuses [(2, .active), (10, .yellowCard), (20, .redCard), (30, .active)])
      = [2, 10, 30] := by decide +kernel

/-- one case of `Test_IncreaseAllPendingRewards_AllForks` under the rule of effective balances: fee,
slot after the fork, statuses, effective balances, reward, expected pending balances, pool -/
def electraCase (fee : Int) (after : Nat) (sts : List (Nat × Status)) (bals : List (Nat × Nat))
    (reward : Int) (want : List (Nat × Int)) (pool : Int) : Bool :=
  let s := { statuses sts with fee := fee, nextSlot := electra + after }
  let E := envOf (bals.map fun p => { bv p.1 .activeOngoing with effBal := p.2 }) []
  ok (increaseAll E b!"mainnet" s reward) (fun s =>
    want.all (fun p => pend s p.1 = some p.2) && s.poolFees = pool)

/-- oracle/oracle_test.go:3422-3712 and 3788-3870 `Test_IncreaseAllPendingRewards_AllForks`, the cases
after the Electra fork -/
example :
    electraCase 1000 10 [(1, .active), (2, .active), (5, .yellowCard)] [(1, 10), (2, 30), (5, 60)]
      1000000000 [(1, 90000000), (2, 270000000), (5, 540000000)] 100000000 = true ∧
    electraCase 0 0 [(3, .active), (11, .active), (7, .active), (9, .redCard), (5, .banned),
        (13, .notSubscribed)] [(3, 100), (11, 100), (7, 100)] 900
      [(3, 300), (5, 0), (7, 300), (9, 0), (11, 300), (13, 0)] 0 = true ∧
    electraCase 0 1 [(3, .active), (5, .active), (7, .active), (9, .redCard), (11, .banned),
        (13, .notSubscribed)] [(3, 1), (5, 2), (7, 3)] 600
      [(3, 100), (5, 200), (7, 300), (9, 0), (11, 0), (13, 0)] 0 = true ∧
    electraCase 0 1 [(3, .active), (5, .active), (7, .active), (9, .redCard), (11, .banned),
        (13, .notSubscribed)] [(3, 0), (5, 0), (7, 100)] 900
      [(3, 0), (5, 0), (7, 900), (9, 0), (11, 0), (13, 0)] 0 = true ∧
    electraCase 0 1 [(3, .active), (5, .active), (7, .active)] [(3, 5), (5, 15), (7, 30)] 1000
      [(3, 100), (5, 300), (7, 600)] 0 = true ∧
    electraCase 1000 1 [(3, .active), (5, .active), (7, .active)] [(3, 100), (5, 100), (7, 100)] 900
      [(3, 270), (5, 270), (7, 270)] 90 = true ∧
    electraCase 2000 1 [(3, .active), (5, .active), (7, .active), (9, .redCard), (11, .banned),
        (13, .notSubscribed)] [(3, 1), (5, 2), (7, 3)] 600
      [(3, 80), (5, 160), (7, 240), (9, 0), (11, 0), (13, 0)] 120 = true ∧
    electraCase 1000 1 [(3, .active), (5, .active), (7, .active)] [(3, 0), (5, 0), (7, 100)] 1000
      [(3, 0), (5, 0), (7, 900)] 100 = true ∧
    electraCase 500 100 [(2, .banned), (5, .yellowCard), (7, .active), (11, .redCard),
        (12, .unknownState)] [(5, 40), (7, 60)] 1000000000
      [(5, 380000000), (7, 570000000), (2, 0), (11, 0), (12, 0)] 50000000 = true ∧
    electraCase 0 1 [(5, .active), (7, .yellowCard)] [(5, 0), (7, 100)] 1000000000
      [(5, 0), (7, 1000000000)] 0 = true ∧
    electraCase 1234 1 [(0, .redCard), (1, .banned)] [] 123456789 [] 123456789 = true := by
  decide +kernel

/-- the same test, the cases before the Electra fork -/
example :
    ok (increaseAll env0 b!"mainnet" { statuses [(4, .active), (6, .active), (10, .active)] with
        nextSlot := fork1 + 5 } 900)
      (fun s => [4, 6, 10].all fun i => pend s i = some 300) = true ∧
    ok (increaseAll env0 b!"mainnet" { statuses [(3, .active), (5, .active), (9, .active)] with
        nextSlot := fork1 + 1 } 1001)
      (fun s => ([3, 5, 9].all fun i => pend s i = some 333) && s.poolFees = 2) = true ∧
    ok (increaseAll env0 b!"mainnet" { statuses [(3, .active), (6, .active), (9, .active)] with
        nextSlot := fork1 - 1, fee := 1000 } 1000)
      (fun s => ([3, 6, 9].all fun i => pend s i = some 300) && s.poolFees = 100) = true := by
  decide +kernel

/-- oracle/oracle_test.go:3872-3881 `Test_increaseValidatorAccumulatedRewards` -/
example : ok ((withVals cfg0 [(9999999, { info with pend := 100, acc := 99999999999999 })]
      ).incAccumulated 9999999 87676545432)
    (fun s => row s 9999999 = some (.unknownState, 87676545432 + 99999999999999, 100)) = true := by
  decide +kernel

/-- oracle/oracle_test.go:3883-3890 `Test_sendRewardToPool` -/
example : ((new cfg0).toPool 10456543212340).poolFees = 10456543212340
    ∧ (((new cfg0).toPool 10456543212340).toPool 99999).poolFees = 10456543212340 + 99999 := by
  decide +kernel

/-- oracle/oracle_test.go:3892-3902 `Test_resetPendingRewards` -/
example : ok ((withVals cfg0 [(1, { info with pend := 99999999999999, acc := 99999999999999 })]
      ).resetPending 1)
    (fun s => row s 1 = some (.unknownState, 99999999999999, 0)) = true := by decide +kernel

/-- oracle/oracle_test.go:3904-3916 `Test_IncreasePendingRewards` and 3918-3928
`Test_IncreasePendingEmptyPool` -/
example : ok (increaseAll env0 b!"mainnet"
        (withVals cfg0 [(12, { info with waddr := b!"0xaa", status := .active, pend := 100 })]) 130)
      (fun s => pend s 12 = some 230) = true
    ∧ ok (increaseAll env0 b!"mainnet" (new cfg0) 10000) (fun s => s.poolFees = 10000) = true := by
  decide +kernel

/-- oracle/oracle_test.go:3930-3944 `Test_consolidateBalance_Eligible` -/
example : ok ((withVals cfg0 [(10, { info with acc := 77, pend := 23 })]).consolidate 10)
    (fun s => row s 10 = some (.unknownState, 100, 0)) = true := by decide +kernel

/-- oracle/oracle_test.go:3946-3992 `Test_StateMachine` -/
example : ([(.active, .proposalOk, .active), (.active, .proposalMissed, .yellowCard),
    (.active, .proposalWrongFee, .banned), (.active, .unsubscribe, .notSubscribed),
    (.yellowCard, .proposalOk, .active), (.yellowCard, .proposalMissed, .redCard),
    (.yellowCard, .proposalWrongFee, .banned), (.yellowCard, .unsubscribe, .notSubscribed),
    (.redCard, .proposalOk, .yellowCard), (.redCard, .proposalMissed, .redCard),
    (.redCard, .proposalWrongFee, .banned), (.redCard, .unsubscribe, .notSubscribed),
    (.notSubscribed, .manualSubscription, .active), (.notSubscribed, .autoSubscription, .active)]
      : List (Status × Ev × Status)).all (fun (a, e, b) =>
      (row ((statuses [(1000, a), (2000, a)]).advance 1000 e) 1000).map (·.1) = some b) = true := by
  decide +kernel

/-- the validators of `Test_IsValidatorSubscribed` and `Test_isBanned` -/
def everyStatus : State :=
  statuses [(10, .active), (20, .yellowCard), (30, .redCard), (40, .banned), (41, .notSubscribed)]

/-- oracle/oracle_test.go:3994-4026 `Test_IsValidatorSubscribed` and 4028-4051 `Test_isBanned` -/
example : [10, 20, 30, 40, 41, 50].map everyStatus.isSubscribed =
      [true, true, true, false, false, false]
    ∧ [10, 20, 30, 41, 40].map everyStatus.isBanned = [false, false, false, false, true] := by
  decide +kernel

/-- oracle/oracle_test.go:4119-4141 `Test_GetWithdrawalAndType` -/
example : ok (withdrawalAndType (bval 0 .unknown))
      (fun r => r = (b!"0x9427a30991170f917d7b83def6e44d26577871ed", .eth1)) = true
    ∧ ok (withdrawalAndType { bval 0 .unknown with creds :=
        [0, 237, 117, 12, 189, 237, 170, 57, 218, 105, 83, 46, 238, 100, 154, 93, 58, 32, 43, 49, 13,
         226, 166, 100, 90, 241, 221, 125, 172, 160, 253, 34] })
      (fun r => r = (b!"0xed750cbdedaa39da69532eee649a5d3a202b310de2a6645af1dd7daca0fd22", .bls))
      = true := by decide +kernel

/-! ### addresses and checkpoints -/

/-- the addresses of a state, in the order of their first validator, the pool's address last -/
def uniq (l : List (Nat × Nat)) (want : List Nat) : Bool :=
  ok (uniqueAddresses env0 0 (subscribed2 l)) fun r =>
    r = want.map at1 ++ [b!"0xfee0000000000000000000000000000000000000"]

/-- oracle/oracle_test.go:488-550 `Test_GetUniqueDepositFromState` -/
example :
    uniq [(1, 0xa0), (2, 0xa0), (3, 0xa0), (4, 0xb0), (5, 0xc0)] [0xa0, 0xb0, 0xc0] = true ∧
    uniq [(1, 0xa0), (2, 0xa0), (3, 0xa0), (4, 0xb0), (5, 0xb0), (6, 0xc0), (7, 0xc0), (8, 0xd0),
      (9, 0xd0), (9, 0xc0)] [0xa0, 0xb0, 0xc0, 0xd0] = true ∧
    uniq [(1, 0x10), (2, 0x10), (3, 0x10), (4, 0x10), (5, 0x10)] [0x10] = true := by decide +kernel

/-- is the latest slot a checkpoint -/
def checkpoint (latest : Nat) : Option Bool :=
  let o := newOracle { cfg0 with depSlot := 7750448, cpSize := 28800 }
  match isCheckpoint { o with st := { o.st with latestSlot := latest } } with
  | .ok r => r
  | .error _ => none

/-- oracle/oracle_test.go:4082-4117 `Test_IsCheckpoint` -/
example : checkpoint (7750448 + 100) = some false ∧ checkpoint (7750448 + 28800) = some true
    ∧ checkpoint (7750448 + 28800 * 10) = some true
    ∧ checkpoint (7750448 + 28800 * 10 + 7) = some false ∧ checkpoint 0 = none := by decide +kernel

end Verif.Tests
