import Verif.Tests.Base
import Verif.Model.Persist
import Verif.Model.Keccak
/-
Conformance tests: oracle/merklelizer_test.go and the tests of oracle/oracle_test.go that contain
Merkle roots and proofs, with Keccak-256 computed in the kernel.
-/
namespace Verif.Tests
open Keccak (keccak)

/-- an address `0x` `d` `00..00` -/
def at0 (d : Nat) : Str := b!"0x" ++ hexEncode (d :: List.replicate 19 0)

/-- a validator with a withdrawal address and accumulated rewards -/
def acc (d : Nat) (x : Int) : Validator := { info with waddr := at0 d, acc := x }

/-- `&Config{PoolFeesAddress: "0x00..00"}` -/
def cfgM : Config := { cfg0 with network := [], poolFeesAddr := at0 0 }

/-- the state of `Test_GenerateTreeFromState` -/
def sixLeaves : State :=
  withVals cfgM [(0, acc 0x10 10000), (1, acc 0x20 20000), (2, acc 0x30 30000), (3, acc 0x40 40000),
    (4, acc 0x50 50000), (5, acc 0x60 60000)]

/-- oracle/merklelizer_test.go:12-55 `Test_GenerateTreeFromState` -/
example : ok (generateTree keccak env0 0 sixLeaves) (fun t => match t with
    | none => false
    | some T => hexEncode T.root = b!"7c58e94268a0d3d89578d2e90e483e3d53a3cb26315852d1544a5a386c83335e"
        && T.toLeaf.length = 7 && T.toRaw.length = 7) = true := by decide +kernel

/-- oracle/merklelizer_test.go:57-66 `Test_NotEnoughData` -/
example : ok (generateTree keccak env0 0 (withVals cfgM [])) (fun t => t.isNone) = true := by
  decide +kernel

/-- oracle/merklelizer_test.go:68-138 `Test_AggregateValidatorsIndexes_NoAggregation` -/
example : ok (aggregate env0 0 { sixLeaves with poolFees := 999999999999999 }) (fun ls => ls =
    [⟨at0 0, 999999999999999⟩, ⟨at0 0x10, 10000⟩, ⟨at0 0x20, 20000⟩, ⟨at0 0x30, 30000⟩,
     ⟨at0 0x40, 40000⟩, ⟨at0 0x50, 50000⟩, ⟨at0 0x60, 60000⟩]) = true := by decide +kernel

/-- oracle/merklelizer_test.go:140-208 `Test_AggregateValidatorsIndexes_NoAggregationOrdered` -/
example : ok (aggregate env0 0 { withVals cfgM [(0, acc 0x30 30000), (1, acc 0x60 60000),
      (2, acc 0x10 10000), (3, acc 0x20 20000), (4, acc 0x40 40000), (5, acc 0x50 50000)] with
      poolFees := 2345678987654 }) (fun ls => ls =
    [⟨at0 0, 2345678987654⟩, ⟨at0 0x10, 10000⟩, ⟨at0 0x20, 20000⟩, ⟨at0 0x30, 30000⟩,
     ⟨at0 0x40, 40000⟩, ⟨at0 0x50, 50000⟩, ⟨at0 0x60, 60000⟩]) = true := by decide +kernel

/-- the state of `Test_AggregateValidatorsIndexes_AggregationAll` -/
def oneOwner : State :=
  withVals cfgM [(0, acc 0xaa 30000), (1, acc 0xaa 60000), (2, acc 0xaa 10000), (3, acc 0xaa 20000),
    (4, acc 0xaa 40000), (5, acc 0xaa 50000)]

/-- oracle/merklelizer_test.go:210-265 `Test_AggregateValidatorsIndexes_AggregationAll` -/
example : ok (aggregate env0 0 oneOwner) (fun ls => ls =
    [⟨at0 0, 0⟩, ⟨at0 0xaa, 210000⟩]) = true := by decide +kernel

/-- the same test: the root -/
example : ok (generateTree keccak env0 0 oneOwner) (fun t => match t with
    | none => false
    | some T => hexEncode T.root = b!"c1d127273fc365b0201e71a3622f1b459b31473366dda390b4044c7257706885"
        && T.toLeaf.length = 2 && T.toRaw.length = 2) = true := by decide +kernel

/-- oracle/merklelizer_test.go:267-322 `Test_AggregateValidatorsIndexes_Aggregation_And_Leftover` -/
example : ok (aggregate env0 0 { withVals cfgM [(0, acc 0xaa 30000), (1, acc 0xaa 60000),
      (2, acc 0xaa 10000), (3, acc 0xaa 40000), (4, acc 0xaa 50000), (5, acc 0xbb 500000)] with
      poolFees := 1 }) (fun ls => ls =
    [⟨at0 0, 1⟩, ⟨at0 0xaa, 190000⟩, ⟨at0 0xbb, 500000⟩]) = true := by decide +kernel

/-- oracle/merklelizer_test.go:324-400 `Test_AggregateValidatorsIndexes_Aggregation_NoOrder` -/
example : ok (aggregate env0 0 { withVals cfgM [(0, acc 0xa0 30000), (1, acc 0xb0 60000),
      (2, acc 0xa0 10000), (3, acc 0xc0 40000), (4, acc 0xc0 50000), (5, acc 0xa0 40000),
      (6, acc 0xa0 50000), (7, acc 0xc0 50000), (8, acc 0xb0 50000), (9, acc 0xb0 50000)] with
      poolFees := 234567 }) (fun ls => ls =
    [⟨at0 0, 234567⟩, ⟨at0 0xa0, 130000⟩, ⟨at0 0xb0, 160000⟩, ⟨at0 0xc0, 140000⟩]) = true := by
  decide +kernel

/-- oracle/merklelizer_test.go:402-437 `Test_OrderByWithdrawalAddress` -/
example : orderLeaves [⟨at0 0x30, 1⟩, ⟨at0 0x50, 3⟩, ⟨at0 0x10, 5⟩, ⟨at0 0xa0, 5⟩, ⟨at0 0x99, 5⟩] =
    [⟨at0 0x10, 5⟩, ⟨at0 0x30, 1⟩, ⟨at0 0x50, 3⟩, ⟨at0 0x99, 5⟩, ⟨at0 0xa0, 5⟩] := by decide +kernel

/-- `0xfee0..00` -/
def feeAdr : Str := b!"0xfee0000000000000000000000000000000000000"

/-- the state of `Test_FreezeCheckpoint` -/
def frozenState : State :=
  withVals { cfg0 with network := [], poolFeesAddr := feeAdr }
    [(1, { info with status := .active, index := 1, acc := 1000000000000000000, pend := 500000,
                     waddr := at0 0x10 }),
     (2, { info with status := .notSubscribed, index := 2, acc := 2000000000000000000,
                     pend := 500000, waddr := at0 0x20 }),
     (3, { info with status := .notSubscribed, index := 3, acc := 2000000000000000000,
                     pend := 500000, waddr := at0 0x20 })]

/-- oracle/oracle_test.go:332-402 `Test_FreezeCheckpoint`: root, proofs and leaves -/
example : ok (freeze keccak env0 frozenState) (fun r =>
    match getFrozen r.1.committed frozenState.latestSlot with
    | none => false
    | some f =>
      r.2 && f.vals = frozenState.vals
        && f.root = b!"0xd9a1eee574026532cddccbcce6320c0600f370a7c64ce30c5eafc63357449940"
        && getStr f.proofs feeAdr = some
          [b!"0x8bfb8acff6772a60d6641cb854587bb2b6f2100391fbadff2c34be0b8c20a0cc",
           b!"0x27205dd4c642acd1b1352617df2c4f410e20ff3fd6f3e3efddee9cea044921f8"]
        && getStr f.proofs (at0 0x10) = some
          [b!"0xaaf838df9c8d5cec6ed77fcbc2cace945e8f2078eede4a0bb7164818d425f24d",
           b!"0x27205dd4c642acd1b1352617df2c4f410e20ff3fd6f3e3efddee9cea044921f8"]
        && getStr f.proofs (at0 0x20) = some
          [b!"0xd643163144dcba353b4d27c50939b3d11133bd3c6916092de059d07353b4cb5f",
           b!"0xda53f5dd3e17f66f4a35c9c9d5fd27c094fa4249e2933fb819ac724476dc9ae1"]
        && getStr f.leafs feeAdr = some ⟨feeAdr, 0⟩
        && getStr f.leafs (at0 0x10) = some ⟨at0 0x10, 1000000000000000000⟩
        && getStr f.leafs (at0 0x20) = some ⟨at0 0x20, 4000000000000000000⟩) = true := by
  decide +kernel

/-- `PoolFeesAddress` of `Test_LatestCommitedSlot_LatestCommitedState` and `Test_getMerkleRootIfAny` -/
def feeAdr2 : Str := b!"0x1123456789abcdef0123456789abcdef01234568"

/-- the next step of the test: the latest processed slot is set, validators are subscribed -/
def subscribeAt (s : State) (slot : Nat) (is : List Nat) (w : Str) : State :=
  is.foldl (fun s i => addSubscription s i w w) { s with latestSlot := slot }

/-- the Go tests set slot zero first: `LatestProcessedSlot` is the deployed slot minus one there -/
def fresh2 : State := (newOracle { cfg0 with network := [], poolFeesAddr := feeAdr2 }).st

/-- oracle/oracle_test.go:404-444 `Test_LatestCommitedSlot_LatestCommitedState` -/
example : ok (do
    let (s0, _) ← freeze keccak env0 fresh2
    let (s1, _) ← freeze keccak env0 (subscribeAt s0 100 [10, 11, 12] (at0 0x10))
    let (s2, _) ← freeze keccak env0 (subscribeAt s1 200 [13, 14, 15] (at0 0x10))
    .ok (s0, s1, s2)) (fun (s0, s1, s2) =>
      latestCommittedSlot env0 0 s0 = (0, false) && (latestCommitted env0 0 s0).isNone
        && latestCommittedSlot env0 0 s1 = (100, true)
        && (latestCommitted env0 0 s1).map (fun f => (f.slot, f.vals.length)) = some (100, 3)
        && latestCommittedSlot env0 0 s2 = (200, true)
        && (latestCommitted env0 0 s2).map (fun f => (f.slot, f.vals.length)) = some (200, 6))
    = true := by decide +kernel

/-- oracle/oracle_test.go:4068-4080 `Test_getMerkleRootIfAny` -/
example : ok (generateTree keccak env0 0 (subscribeAt fresh2 100 [10, 11, 12] feeAdr2)) (fun t =>
    t.map (fun T => b!"0x" ++ hexEncode T.root) =
      some b!"0x3ba6b7c80fed7f5f5f5796c610c7dc5bbabf408b8525cbcef67086766ab51863") = true := by
  decide +kernel

/-- oracle/oracle_test.go:459-486 `Test_IsOracleInSyncWithChain`, second part -/
example : ok (freeze keccak env0 (subscribeAt fresh2 100 [10, 11, 12] (at0 0x10))) (fun r =>
    (latestCommitted env0 0 r.1).map (fun f => (f.slot, f.root)) =
      some (100, b!"0xbb82bf59b1b6f3b0964c08ffb9336365153b34e2b30fb1230146428d153693b0")
    && ok (inSync env0 0 r.1
        b!"0xbb82bf59b1b6f3b0964c08ffb9336365153b34e2b30fb1230146428d153693b0" 100) (· = some true)
    && ok (inSync env0 0 r.1
        b!"0x1000000000000000000000000000000000000000000000000000000000000000" 200) (· = some false)
    && ok (inSync env0 0 r.1
        b!"0xbb82bf59b1b6f3b0964c08ffb9336365153b34e2b30fb1230146428d153693b0" 200) (· = none))
    = true := by decide +kernel

/-- the first part of that test: nothing committed, nothing on chain -/
example : ok (inSync env0 0 fresh2 defaultRoot 0) (· = some true) = true := by decide +kernel

end Verif.Tests
