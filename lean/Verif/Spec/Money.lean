import Verif.Model.Types
/-
What the pool owes and what it received.
-/
namespace Verif

/-- sum of the pending balances -/
def pendingTotal (s : State) : Int := (s.vals.map fun p => p.2.pend).sum

/-- sum of the accumulated balances -/
def accTotal (s : State) : Int := (s.vals.map fun p => p.2.acc).sum

/-- everything the pool owes -/
def owed (s : State) : Int := pendingTotal s + accTotal s + s.poolFees

/-- the vanilla part of a recorded proposal (zero for MEV proposals, whose payment shows up as an
EtherReceived event) -/
def vanillaReward (b : SumBlock) : Int :=
  match b.rewardType with
  | .vanila => b.reward.getD 0
  | _ => 0

/-- everything the pool received, according to the recorded events and blocks -/
def received (s : State) : Int :=
  (s.ether.map (·.amount)).sum + (s.subs.map (·.collateral)).sum
    + (s.proposed.map vanillaReward).sum

/-- all balances are non-negative -/
def NonNeg (s : State) : Prop :=
  0 ≤ s.poolFees ∧ ∀ p ∈ s.vals, 0 ≤ p.2.pend ∧ 0 ≤ p.2.acc

/-- accumulated total of a withdrawal address, ignoring letter case -/
def addressTotal (s : State) (w : Str) : Int :=
  ((s.vals.filter fun p => lower p.2.waddr = lower w).map fun p => p.2.acc).sum

end Verif
