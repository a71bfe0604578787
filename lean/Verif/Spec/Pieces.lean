import Verif.Spec.Chain
import Verif.Spec.Slot
/-
The same block with a payment cut in other pieces, or with larger payments, and books that differ in the
balances only (C103, C104).
-/
namespace Verif

/-- The amount `x` is the one the block pays as its reward. -/
def BuilderAmount (b : FullBlock) (x : Int) : Prop :=
  (ExceptionBlock b ∧ x = 177043568463114308) ∨ ∃ tx dest, BuilderPays b tx dest ∧ x = tx.value

/-- The blocks are the same, but where one has the payments `ds` the other has the payments `ds'`. None of them has
the amount of the reward of the block. -/
structure PaidOtherwise (b b' : FullBlock) (ds ds' : List EtherEvent) : Prop where
  same : ∃ others, b.events.ether = others ++ ds ∧
    b' = { b with events := { b.events with ether := others ++ ds' } }
  apart : ∀ e ∈ ds ++ ds', ¬ BuilderAmount b e.amount

/-- The two states track the same validators, whose records are equal except for the pending balances: in the second
state everybody has at least `lo` and at most `hi` wei more than in the first. What is pending and what belongs to the
pool is `d` more in all. Everything else is equal, but the two lists of payments (and the ghost counter, the hash of
the last save and the frozen checkpoints). -/
structure SameButPaid (lo hi d : Int) (s s' : State) : Prop where
  tracked : s'.vals.map (·.1) = s.vals.map (·.1)
  records : ∀ i v, VMap.get s.vals i = some v →
    ∃ x, VMap.get s'.vals i = some { v with pend := x } ∧ v.pend + lo ≤ x ∧ x ≤ v.pend + hi
  money : s'.poolFees + (s'.vals.map fun p => p.2.pend).sum = s.poolFees + (s.vals.map fun p => p.2.pend).sum + d
  rest : { s' with vals := [], poolFees := 0, tick := 0, stateHash := [], committed := [], ether := [], donations := [] }
    = { s with vals := [], poolFees := 0, tick := 0, stateHash := [], committed := [], ether := [], donations := [] }

end Verif
