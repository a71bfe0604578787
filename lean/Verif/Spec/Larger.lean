import Verif.Spec.Pieces
import Verif.Spec.Dilute
/-
The same block with some of its payments left out or smaller, and books of two runs of which one received less
(C104).
-/
namespace Verif

/-- The payments `l'` are the payments `l` of the block, of which some are left out and some are smaller. None of
these has the amount of the reward of the block, before or after. -/
inductive PaidLess (b : FullBlock) : List EtherEvent → List EtherEvent → Prop where
  | nil : PaidLess b [] []
  | same (e : EtherEvent) {l l'} : PaidLess b l l' → PaidLess b (e :: l) (e :: l')
  | smaller {e e' : EtherEvent} {l l'} : e'.amount ≤ e.amount → ¬ BuilderAmount b e.amount →
      ¬ BuilderAmount b e'.amount → PaidLess b l l' → PaidLess b (e :: l) (e' :: l')
  | without {e : EtherEvent} {l l'} : ¬ BuilderAmount b e.amount → PaidLess b l l' → PaidLess b (e :: l) l'

/-- The block `b'` is the block `b` with payments left out or smaller. -/
def ReceivedLess (b b' : FullBlock) : Prop :=
  ∃ pays, PaidLess b b.events.ether pays ∧ b' = { b with events := { b.events with ether := pays } }

/-- The two books know the same validators with the same records, except that in `o'` nobody has more money than in
`o`, pending or accumulated, and none less than nothing pending. All else is equal, but the revenue of the pool and the
lists of payments (and the hash of the last save, the frozen checkpoints, which processing blocks does not touch, and
the ghost counter). -/
structure NobodyRicher (o o' : Oracle) : Prop where
  cfg : o'.cfg = o.cfg
  records : ∀ i, (VMap.get o.st.vals i = none ∧ VMap.get o'.st.vals i = none) ∨
    ∃ v p a, VMap.get o.st.vals i = some v ∧ VMap.get o'.st.vals i = some { v with pend := p, acc := a } ∧
      0 ≤ p ∧ p ≤ v.pend ∧ a ≤ v.acc
  rest : { o'.st with vals := [], poolFees := 0, tick := 0, stateHash := [], committed := [], ether := [], donations := [] }
    = { o.st with vals := [], poolFees := 0, tick := 0, stateHash := [], committed := [], ether := [], donations := [] }

end Verif
