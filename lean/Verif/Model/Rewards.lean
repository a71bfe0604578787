import Verif.Model.VMap
/-
Fork schedule, beacon lookups and reward distribution (oracle/oracle.go, oracle/onchain.go).
-/
namespace Verif

/-- oracle/onchain.go:48 -/
def mainnet : Str := b!"mainnet"
/-- oracle/onchain.go:49 -/
def goerli : Str := b!"goerli"
/-- oracle/onchain.go:50 -/
def holesky : Str := b!"holesky"
/-- oracle/onchain.go:51 -/
def hoodi : Str := b!"hoodi"

/-- oracle/oracle.go:53-57 `SlotFork1`. -/
def slotFork1 (net : Str) : Option Nat :=
  if net = mainnet then some 10188220
  else if net = holesky then some 2720632
  else if net = hoodi then some 1
  else none

/-- oracle/oracle.go:60-65 `SlotElectraFork`. -/
def slotElectra (net : Str) : Option Nat :=
  if net = mainnet then some 11649024
  else if net = hoodi then some 65536
  else none

/-- Reward methods, oracle/oracle.go:42-46. -/
inductive Method | preFork1 | fork1 | electra
  deriving DecidableEq, Repr

/-- oracle/oracle.go:1570-1582 `determineRewardMethod`; a network without forks is Fatal. -/
def rewardMethod (net : Str) (nextSlot : Nat) : M Method :=
  if (slotElectra net).any (fun f => decide (nextSlot ≥ f)) then .ok .electra
  else if (slotFork1 net).any (fun f => decide (nextSlot ≥ f)) then .ok .fork1
  else if (slotFork1 net).isSome then .ok .preFork1
  else .error .fatal

/-- oracle/onchain.go:336-379 `GetSetOfValidators` on top of one beacon node answer: an empty
request, an empty answer or an answer lacking a requested validator is an error (`none`).
Retries are folded into the answer. -/
def getSet (E : Env) (t slot : Nat) (req : List Nat) : Option (List BVal) :=
  if req = [] then none
  else match E.node t slot req with
    | none => none
    | some r =>
      if r = [] then none
      else if req.all (fun i => r.any (fun v => v.index == i)) then some r else none

/-- oracle/oracle.go:1559-1568 `getEligibleValidators`, in map iteration order. -/
def eligible (E : Env) (s : State) : List Nat :=
  E.shuffle s.tick
    ((s.vals.filter fun p => p.2.status = .active || p.2.status = .yellowCard).map (·.1))

/-- oracle/oracle.go:1650-1669 `handleFork1RewardDistribution`: (total fees, per validator). A
zero number of validators never reaches it. -/
def fork1Split (reward poolCut n : Int) : M (Int × Int) :=
  let toShare := reward - poolCut
  let per := toShare / n
  let rem := toShare % n
  let fees := poolCut + rem
  if per * n + fees ≠ reward then .error .fatal else .ok (fees, per)

/-- oracle/oracle.go:1671-1703 `handlePreFork1RewardDistribution`. -/
def preFork1Split (reward poolCut aux over n : Int) : M (Int × Int) :=
  let rem1 := aux % over
  let toShare := reward - poolCut - rem1
  let per := toShare / n
  let rem2 := toShare % n
  let fees := poolCut + rem1 + rem2
  if per * n + fees ≠ reward then .error .fatal else .ok (fees, per)

/-- oracle/oracle.go:1586-1646 `handleElectraRewardDistribution`: (total fees, share per
validator index). Both error returns become Fatal in the only caller (oracle.go:1747-1749), so
they are Fatal here. The loop over the answer is done in an arbitrary order. -/
def electraSplit (E : Env) (s : State) (reward poolCut : Int) (elig : List Nat) :
    M (Int × List (Nat × Int)) :=
  let toDistribute := reward - poolCut
  match getSet E s.tick s.nextSlot elig with
  | none => .error .fatal
  | some vs =>
    let total := ((E.shuffle (s.tick + 1) vs).map fun v => i64 v.effBal).sum
    if total = 0 then .error .fatal
    else
      let shares := (E.shuffle (s.tick + 2) vs).map fun v =>
        (v.index, toDistribute * i64 v.effBal / total)
      let distributed := (shares.map (·.2)).sum
      let fees := poolCut + (toDistribute - distributed)
      if distributed + fees ≠ reward then .error .fatal else .ok (fees, shares)

/-- The loops at oracle/oracle.go:1764-1768 and 1777-1781: add each share to the pending balance
of its validator; a validator that is not tracked is a nil dereference (panic). -/
def applyShares : List (Nat × Int) → VMap → M VMap
  | [], m => .ok m
  | (i, x) :: rest, m =>
    match VMap.get m i with
    | none => .error .panic
    | some _ => applyShares rest (VMap.modify m i fun v => { v with pend := v.pend + x })

/-- oracle/oracle.go:1815-1825 `sendRewardToPool`. -/
def State.toPool (s : State) (x : Int) : State := { s with poolFees := s.poolFees + x }

/-- oracle/oracle.go:1711-1785 `increaseAllPendingRewards`. -/
def increaseAll (E : Env) (net : Str) (s : State) (reward : Int) : M State :=
  let elig := eligible E s
  if elig = [] then .ok { s.toPool reward with tick := s.tick + 1 }
  else if s.fee > 10000 then .error .fatal
  else
    let aux := reward * s.fee
    let poolCut := aux / 10000
    let n : Int := elig.length
    do
      let method ← rewardMethod net s.nextSlot
      let (fees, shares) ← (match method with
        | .electra => electraSplit E s reward poolCut elig
        | .fork1 => do
          let (fees, per) ← fork1Split reward poolCut n
          .ok (fees, elig.map fun i => (i, per))
        | .preFork1 => do
          let (fees, per) ← preFork1Split reward poolCut aux 10000 n
          .ok (fees, elig.map fun i => (i, per)))
      let vals ← applyShares (E.shuffle (s.tick + 3) shares) s.vals
      .ok { s.toPool fees with vals := vals, tick := s.tick + 4 }

end Verif
