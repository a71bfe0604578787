import Verif.Model.Advance
import Verif.Model.Hex
/-
oracle/oracle.go:863-968: the two reconciliations and the list of withdrawal addresses. Loops over
the validator map run in an arbitrary order: `E.shuffle t`.
-/
namespace Verif

/-- The loops at oracle/oracle.go:875-880 and 911-917: all accumulated and pending balances in
iteration order, plus the pool fees. -/
def liabilities (E : Env) (t : Nat) (s : State) : Int :=
  (E.shuffle t s.vals).foldl (fun acc p => acc + p.2.acc + p.2.pend) 0 + s.poolFees

/-- oracle/oracle.go:928-932: the rewards of vanilla blocks; a nil reward is a nil dereference. -/
def vanilaAssets : List SumBlock → Int → M Int
  | [], acc => .ok acc
  | b :: rest, acc =>
    if b.rewardType = .vanila then
      match b.reward with
      | none => .error .panic
      | some r => vanilaAssets rest (acc + r)
    else vanilaAssets rest acc

/-- oracle/oracle.go:910-942 `RunOffchainReconciliation`; `false` is a returned error. -/
def offchainReconciliation (E : Env) (t : Nat) (s : State) : M Bool := do
  let l := liabilities E t s
  let a1 := s.ether.foldl (fun acc e => acc + e.amount) 0
  let a2 := s.subs.foldl (fun acc e => acc + e.collateral) a1
  let a3 ← vanilaAssets s.proposed a2
  .ok (l = a3)

/-- oracle/oracle.go:863-908 `RunOnchainReconciliation`; `claimed` is the map of claimed amounts,
`false` is a returned error. -/
def onchainReconciliation (E : Env) (t : Nat) (s : State) (balance : Int)
    (claimed : List (Str × Int)) : Bool :=
  let total := (E.shuffle (t + 1) claimed).foldl (fun acc p => acc + p.2) 0
  liabilities E t s - total = balance

/-- oracle/oracle.go:947-962: the loop collecting addresses that are not yet in the list. -/
def uniqueLoop : List Str → List Str → M (List Str)
  | [], acc => .ok acc
  | w :: rest, acc => do
    let skip ← isIn w acc
    uniqueLoop rest (if skip then acc else acc ++ [w])

/-- oracle/oracle.go:944-968 `GetUniqueWithdrawalAddresses`. -/
def uniqueAddresses (E : Env) (t : Nat) (s : State) : M (List Str) := do
  let us ← uniqueLoop ((E.shuffle t s.vals).map fun p => p.2.waddr) []
  .ok (us ++ [s.poolFeesAddr])

/-- oracle/onchain.go:1701-1717 `GetClaimedPerWithdrawalAddress`, with the address check of
`GetContractClaimedBalance` (onchain.go:849-880). `claim` is what the contract answers for an address
(`none`: error). `.ok none` is a returned error, a repeated address is Fatal. The map that is built is
an association list in insertion order. -/
def claimedLoop (claim : Str → Option Int) : List Str → List (Str × Int) →
    M (Option (List (Str × Int)))
  | [], acc => .ok (some acc)
  | a :: rest, acc =>
    if !isHexAddress a then .error .fatal
    else
      match claim a with
      | none => .ok none
      | some x =>
        if acc.any (fun p => p.1 == a) then .error .fatal
        else claimedLoop claim rest (acc ++ [(a, x)])

/-- oracle/onchain.go:1701-1717 `GetClaimedPerWithdrawalAddress` -/
def claimedPer (claim : Str → Option Int) (addrs : List Str) : M (Option (List (Str × Int))) :=
  claimedLoop claim addrs []

end Verif
