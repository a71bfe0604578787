import Verif.Spec.Status
import Verif.Spec.Gas
import Verif.Props.TipExact
/-
What the lists of blocks should say that a block earned.
-/
namespace Verif

/-- A builder's payment is the reward of the block, and it is `r`. -/
def MevIs (b : FullBlock) (r : Int) : Prop :=
  (ExceptionBlock b ∧ r = 177043568463114308) ∨ ∃ tx dest, BuilderPays b tx dest ∧ r = tx.value

/-- What is shown for a block processed in a state `s`: the reward (if any) and its kind. -/
inductive Displays (s : State) (pool : Str) (b : FullBlock) : Option Int → RewardType → Prop
  /-- nothing for a missed slot -/
  | missed : b.cons = none → Displays s pool b (some 0) .unknown
  /-- the builder's payment -/
  | mev {r} : MevIs b r → Displays s pool b (some r) .mev
  /-- else the priority fees, if they go to the pool or the proposer took part before this block -/
  | fees {c hd rs} : (∀ r, ¬ MevIs b r) → b.cons = some c →
      (SameAddr c.feeRecipient pool ∨ ∃ v, VMap.get s.vals c.proposer = some v ∧ Subscribed v.status) →
      b.header = some hd → b.receipts = some rs → List.Forall₂ Fits c.txs rs →
      Displays s pool b (some (priorityFees hd.baseFee c.txs rs)) .vanila
  /-- no amount, if receipts belong to other transactions -/
  | mixedUp {c rs} : (∀ r, ¬ MevIs b r) → b.cons = some c →
      (SameAddr c.feeRecipient pool ∨ ∃ v, VMap.get s.vals c.proposer = some v ∧ Subscribed v.status) →
      b.receipts = some rs → FirstMismatch c.txs rs → Displays s pool b none .vanila
  /-- nothing, if the fees do not go to the pool and the proposer did not take part before this block -/
  | stranger {c} : (∀ r, ¬ MevIs b r) → b.cons = some c → ¬ SameAddr c.feeRecipient pool →
      (∀ v, VMap.get s.vals c.proposer = some v → ¬ Subscribed v.status) →
      Displays s pool b (some 0) .unknown

end Verif
