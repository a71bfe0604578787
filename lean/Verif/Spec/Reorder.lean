import Verif.Spec.Chain
/-
The same block with its payments in another order, and books that differ only in the order of their lists of payments
(C102).
-/
namespace Verif

/-- `b'` is `b` with its payments in another order. -/
def Reordered (b b' : FullBlock) : Prop :=
  ∃ pays, b.events.ether.Perm pays ∧ b' = { b with events := { b.events with ether := pays } }

/-- Payments of equal amounts come from the same contract. The events of a block are fetched for the contract of the
pool, so all payments come from one contract. -/
def OneContract (b : FullBlock) : Prop :=
  ∀ e ∈ b.events.ether, ∀ e' ∈ b.events.ether, e.amount = e'.amount → e.addr = e'.addr

/-- Everything is equal but the order of the two lists of payments (and the ghost counter, the hash of the last save
and the frozen checkpoints). -/
structure SameButOrder (o o' : Oracle) : Prop where
  cfg : o.cfg = o'.cfg
  books : { o.st with tick := 0, stateHash := [], committed := [], ether := [], donations := [] } =
    { o'.st with tick := 0, stateHash := [], committed := [], ether := [], donations := [] }
  ether : o.st.ether.Perm o'.st.ether
  donations : o.st.donations.Perm o'.st.donations

end Verif
