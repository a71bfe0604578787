import Verif.Spec.Dilute
/-
Members who leave or are banned.
-/
namespace Verif

/-- the block `b'` is the block `b` without some of the cancelled subscriptions and bans of the validators `X` -/
structure WithoutExits (X : Nat → Prop) (b b' : FullBlock) : Prop where
  unsubs : LeftOut (fun p => X p.1.validatorId) (b.events.unsubs.zip b.valsUnsubs) (b'.events.unsubs.zip b'.valsUnsubs)
  bans : LeftOut (fun e => X e.validatorId) b.events.bans b'.events.bans
  rest : b' = { b with
    events := { b.events with unsubs := b'.events.unsubs, bans := b'.events.bans }, valsUnsubs := b'.valsUnsubs }

/-- Nobody but the validators `X` has more money in the books `o'` than in the books `o`, and all else is equal, but for
the revenue of the pool and the list of cancelled subscriptions. (The hash of the last save and the frozen checkpoints,
which processing blocks does not touch, are left out, and so is the ghost counter.) -/
structure NobodyPoorer (X : Nat → Prop) (o o' : Oracle) : Prop where
  cfg : o'.cfg = o.cfg
  records : RicherExcept X o o'
  rest : { o'.st with vals := [], poolFees := 0, tick := 0, stateHash := [], committed := [], unsubs := [] } =
    { o.st with vals := [], poolFees := 0, tick := 0, stateHash := [], committed := [], unsubs := [] }

end Verif
