import Verif.Tests.Base
import Verif.Model.Api
/-
Conformance tests: the tests of `ApplyNonFinalizedState` in api/api_test.go.
-/
namespace Verif.Tests

/-- one row of `Test_ApplyNonFinalizedState_Subscription`: validator 1 with a status and a pending
balance, one subscription event of an index with a collateral from a sender, the status of the
validator on the beacon chain; the row after it. The collateral of the pool is 1000. -/
def apiRow (c : Int) (before : Status) (ix : Nat) (st : BStatus) (sender : Str) (p : Int) :
    Option (Status × Int) :=
  match applyNonFinalized 1000
      [({ validatorId := ix, collateral := c, sender := sender, block := 0 }, some (bval ix st))] []
      [(1, { info with status := before, pend := p, waddr := adr 148, index := 1 })] with
  | .ok m => (VMap.get m 1).map fun v => (v.status, v.pend)
  | .error _ => none

/-- api/api_test.go:18-102 `Test_ApplyNonFinalizedState_Subscription`: the eleven rows -/
example :
    apiRow 1000 .untracked 1 .activeOngoing (adr 148) 0 = some (.active, 1000) ∧
    apiRow 1000 .untracked 1 .activeOngoing (adr 148) 93565432 = some (.active, 93565432 + 1000) ∧
    apiRow 9999999 .untracked 1 .activeOngoing (adr 148) 0 = some (.active, 9999999) ∧
    apiRow 1 .untracked 1 .activeOngoing (adr 148) 0 = some (.untracked, 0) ∧
    apiRow 1000 .active 1 .activeOngoing (adr 148) 0 = some (.active, 0) ∧
    apiRow 1000 .yellowCard 1 .activeOngoing (adr 148) 0 = some (.yellowCard, 0) ∧
    apiRow 1000 .banned 1 .activeOngoing (adr 148) 0 = some (.banned, 0) ∧
    apiRow 1000 .notSubscribed 1 .activeOngoing (adr 148) 0 = some (.active, 1000) ∧
    apiRow 1000 .notSubscribed 1 .exitedSlashed (adr 148) 0 = some (.notSubscribed, 0) ∧
    apiRow 1000 .notSubscribed 1 .exitedSlashed b!"0x0000000000000000000000000000000000000000" 0
      = some (.notSubscribed, 0) ∧
    apiRow 1000 .untracked 99 .activeOngoing (adr 148) 0 = some (.untracked, 0) := by decide +kernel

/-- one row of `Test_ApplyNonFinalizedState_Unsubscribe`: validator 500 is active -/
def apiUnsubRow (ix : Nat) (sender : Str) (p : Int) : Option (Status × Int) :=
  match applyNonFinalized 1000 [] [{ validatorId := ix, sender := sender, block := 0 }]
      [(500, { info with status := .active, pend := p, waddr := adr 148, index := 500 })] with
  | .ok m => (VMap.get m 500).map fun v => (v.status, v.pend)
  | .error _ => none

/-- api/api_test.go:104-159 `Test_ApplyNonFinalizedState_Unsubscribe`: the three rows -/
example : apiUnsubRow 500 (adr 148) 900000 = some (.notSubscribed, 0)
    ∧ apiUnsubRow 1 (adr 148) 50000 = some (.active, 50000)
    ∧ apiUnsubRow 500 (adr 1) 676543 = some (.active, 676543) := by decide +kernel

/-- the three validators of `Test_ApplyNonFinalizedState_MultipleEvents` -/
def apiThree : VMap :=
  [(1, { info with status := .notSubscribed, waddr := adr 1, index := 1 }),
   (2, { info with status := .untracked, waddr := adr 2, index := 2 }),
   (3, { info with status := .untracked, waddr := adr 3, index := 3 })]

/-- the subscription events of that test -/
def apiSubEvents : List (SubEvent × Option BVal) :=
  [({ sev 3 1000 3 with block := 5000 }, some (bval 3 .activeOngoing 3)),
   ({ sev 1 1000 1 with block := 1000 }, some (bval 1 .activeOngoing 1)),
   ({ sev 2 1000 2 with block := 3000 }, some (bval 2 .activeOngoing 2))]

/-- `ApplyNonFinalizedState`, given the blocks in which there are events: `List.mergeSort` does not
compute in the kernel, so its outcome is stated separately below -/
def apiRun (subs : List (SubEvent × Option BVal)) (us : List UnsubEvent) (blocks : List Nat)
    (m : VMap) : VMap :=
  match apiBlocks 1000 subs us blocks m with
  | .ok m => m
  | .error _ => []

/-- the events of the first call -/
def apiUnsubs1 : List UnsubEvent := [{ uev 2 2 with block := 3000 }]

/-- the events of the second call -/
def apiUnsubs2 : List UnsubEvent := [{ uev 1 1 with block := 99999 }, { uev 3 3 with block := 99999 }]

example : eventBlocks apiSubEvents apiUnsubs1 = [1000, 3000, 5000]
    ∧ eventBlocks [] apiUnsubs2 = [99999] := by
  constructor <;>
    simp [eventBlocks, apiSubEvents, apiUnsubs1, apiUnsubs2, addBlock, List.mergeSort, List.merge,
      List.MergeSort.Internal.splitInTwo]

/-- api/api_test.go:161-301 `Test_ApplyNonFinalizedState_MultipleEvents`: the two calls -/
example :
    let m1 := apiRun apiSubEvents apiUnsubs1 [1000, 3000, 5000] apiThree
    let m2 := apiRun [] apiUnsubs2 [99999] m1
    m1.map (fun p => p.2.status) = [.active, .notSubscribed, .active]
    ∧ m2.map (fun p => p.2.status) = [.notSubscribed, .notSubscribed, .notSubscribed] := by
  decide +kernel

end Verif.Tests
