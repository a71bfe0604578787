import Verif.Spec.Reorder
/-
The same block with what is asked in it in another order, and books that differ only in the order of their lists (C119).
-/
namespace Verif

/-- `l'` has the entries of `l` in another order, those with the same key in the same order. -/
def Queued {α : Type} (key : α → Nat) (l l' : List α) : Prop :=
  ∀ i, l.filter (fun a => key a = i) = l'.filter (fun a => key a = i)

/-- `b'` is `b` with its payments, its bans, its unbans and its subscriptions in another order; the subscriptions of one
validator, each with what the chain knows of the validator, are in the same order. The cancelled subscriptions are in
the same order. -/
structure Shuffled (b b' : FullBlock) : Prop where
  ether : b.events.ether.Perm b'.events.ether
  subs : Queued (fun p : SubEvent × Option BVal => p.1.validatorId) (b.events.subs.zip b.valsSubs)
    (b'.events.subs.zip b'.valsSubs)
  bans : b.events.bans.Perm b'.events.bans
  unbans : b.events.unbans.Perm b'.events.unbans
  rest : b' = { b with
    events := { b.events with ether := b'.events.ether, subs := b'.events.subs, bans := b'.events.bans, unbans := b'.events.unbans }
    valsSubs := b'.valsSubs }

/-- Everything is equal but the order of the lists of payments and of subscriptions (and the ghost counter, the hash of
the last save and the frozen checkpoints). -/
structure SameButLists (o o' : Oracle) : Prop where
  cfg : o.cfg = o'.cfg
  books : { o.st with tick := 0, stateHash := [], committed := [], ether := [], donations := [], subs := [] } =
    { o'.st with tick := 0, stateHash := [], committed := [], ether := [], donations := [], subs := [] }
  ether : o.st.ether.Perm o'.st.ether
  donations : o.st.donations.Perm o'.st.donations
  subs : o.st.subs.Perm o'.st.subs

end Verif
