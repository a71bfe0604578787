import Mathlib.Logic.Equiv.Defs
import Verif.Spec.Chain
/-
Giving all validators other numbers, on the chain and in the books.
-/
namespace Verif

/-- a validator of the beacon chain, with its other number -/
def BVal.ren (π : Nat ≃ Nat) (u : BVal) : BVal := { u with index := π u.index }

/-- a record, with the other number of its validator -/
def Validator.ren (π : Nat ≃ Nat) (v : Validator) : Validator := { v with index := π v.index }

/-- a subscription, with the other number -/
def SubEvent.ren (π : Nat ≃ Nat) (e : SubEvent) : SubEvent := { e with validatorId := π e.validatorId }

/-- an unsubscription, with the other number -/
def UnsubEvent.ren (π : Nat ≃ Nat) (e : UnsubEvent) : UnsubEvent := { e with validatorId := π e.validatorId }

/-- a ban or unban, with the other number -/
def BanEvent.ren (π : Nat ≃ Nat) (e : BanEvent) : BanEvent := { e with validatorId := π e.validatorId }

/-- an entry of the lists of blocks, with the other number of the proposer -/
def SumBlock.ren (π : Nat ≃ Nat) (b : SumBlock) : SumBlock := { b with index := π b.index }

/-- a block, with the other numbers wherever it names a validator -/
def FullBlock.ren (π : Nat ≃ Nat) (b : FullBlock) : FullBlock :=
  { b with
    dutyIndex := π b.dutyIndex
    validator := b.validator.ren π
    cons := b.cons.map fun c => { c with proposer := π c.proposer }
    events := { b.events with
      subs := b.events.subs.map (·.ren π)
      unsubs := b.events.unsubs.map (·.ren π)
      bans := b.events.bans.map (·.ren π)
      unbans := b.events.unbans.map (·.ren π) }
    valsSubs := b.valsSubs.map fun v => v.map (·.ren π)
    valsUnsubs := b.valsUnsubs.map fun v => v.map (·.ren π) }

/-- the chain `V'`, `K'` is the chain `V`, `K` with other numbers -/
structure RenamedChain (π : Nat ≃ Nat) (V V' : Nat → Nat → BVal) (K K' : Nat → List (Nat × Nat)) : Prop where
  vals : ∀ slot i, V' slot (π i) = (V slot i).ren π
  consol : ∀ slot, K' slot = (K slot).map fun p => (π p.1, π p.2)

/-- The books `o'` are the books `o` with other numbers: the record of validator `i` in `o` is that of validator
`π i` in `o'`, the lists name the other numbers, and all else is equal. (The hash of the last save and the frozen
checkpoints, which processing blocks does not touch, are left out, and so is the ghost counter.) -/
structure Renamed (π : Nat ≃ Nat) (o o' : Oracle) : Prop where
  cfg : o'.cfg = o.cfg
  vals : ∀ i, VMap.get o'.st.vals (π i) = (VMap.get o.st.vals i).map (·.ren π)
  rest : { o'.st with vals := [], tick := 0, stateHash := [], committed := [] } =
    { o.st with
      vals := [], tick := 0, stateHash := [], committed := []
      subs := o.st.subs.map (·.ren π)
      unsubs := o.st.unsubs.map (·.ren π)
      proposed := o.st.proposed.map (·.ren π)
      missed := o.st.missed.map (·.ren π)
      wrongFee := o.st.wrongFee.map (·.ren π) }

end Verif
