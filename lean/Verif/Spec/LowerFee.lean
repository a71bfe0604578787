import Verif.Spec.Larger
import Verif.Spec.Money
/-
Books of two runs of which one has a lower fee (C121).
-/
namespace Verif

/-- The two books are of pools with fees between 0 and 100%, that of `o` no higher than that of `o'`. They know the same
validators with the same records, except that nobody has less money in `o` than in `o'`, pending or accumulated. They
owe the same sum in all, to the validators and to the pool. All else is equal (but the hash of the last save, the frozen
checkpoints, which processing blocks does not touch, and the ghost counter). -/
structure LowerFee (o o' : Oracle) : Prop where
  cfg : o'.cfg = { o.cfg with fee := o'.cfg.fee }
  nonneg : 0 ≤ o.st.fee
  lower : o.st.fee ≤ o'.st.fee
  most : o'.st.fee ≤ 10000
  records : ∀ i, (VMap.get o.st.vals i = none ∧ VMap.get o'.st.vals i = none) ∨
    ∃ v p a, VMap.get o.st.vals i = some v ∧ VMap.get o'.st.vals i = some { v with pend := p, acc := a } ∧
      0 ≤ p ∧ p ≤ v.pend ∧ a ≤ v.acc
  owes : owed o'.st = owed o.st
  rest : { o'.st with vals := [], poolFees := 0, fee := 0, tick := 0, stateHash := [], committed := [] }
    = { o.st with vals := [], poolFees := 0, fee := 0, tick := 0, stateHash := [], committed := [] }

end Verif
