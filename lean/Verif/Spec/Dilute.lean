import Verif.Spec.Chain
import Verif.Spec.Blocks
/-
Books with further members who do nothing.
-/
namespace Verif

/-- the block says nothing about the validators `X`: none of them proposes it, and no event of it is about one -/
structure NotNamed (X : Nat → Prop) (b : FullBlock) : Prop where
  duty : ¬ X b.dutyIndex
  proposer : ∀ c, b.cons = some c → ¬ X c.proposer
  subs : ∀ e ∈ b.events.subs, ¬ X e.validatorId
  unsubs : ∀ e ∈ b.events.unsubs, ¬ X e.validatorId
  bans : ∀ e ∈ b.events.bans, ¬ X e.validatorId
  unbans : ∀ e ∈ b.events.unbans, ¬ X e.validatorId

/-- the second list is the first with some elements of the kind `P` left out -/
inductive LeftOut {α : Type} (P : α → Prop) : List α → List α → Prop
  | nil : LeftOut P [] []
  | same {a l l'} : LeftOut P l l' → LeftOut P (a :: l) (a :: l')
  | out {a l l'} : P a → LeftOut P l l' → LeftOut P (a :: l) l'

theorem LeftOut.refl {α : Type} {P : α → Prop} : ∀ l : List α, LeftOut P l l
  | [] => .nil
  | _ :: l => .same (LeftOut.refl l)

/-- Everybody has the same record in both books, except that in `o'` they have no more money than in `o`, pending and
accumulated. Of those of `X` whom `o` does not know, or knows as not sharing and without debt, nothing more is said than
that `o'` knows them if `o` does. -/
def RicherExcept (X : Nat → Prop) (o o' : Oracle) : Prop :=
  ∀ i, ((VMap.get o.st.vals i = none ∧ VMap.get o'.st.vals i = none) ∨
      ∃ v p a, VMap.get o.st.vals i = some v ∧ VMap.get o'.st.vals i = some { v with pend := p, acc := a } ∧
        0 ≤ p ∧ p ≤ v.pend ∧ a ≤ v.acc) ∨
    (X i ∧ ∀ v, VMap.get o.st.vals i = some v →
      v.status ≠ .active ∧ v.status ≠ .yellowCard ∧ 0 ≤ v.pend ∧ ∃ v', VMap.get o'.st.vals i = some v')

/-- The books `o'` are the books `o` with further members `X`. The others have the same records in both, except that in
`o'` they have no more money than in `o`. All else but the revenue of the pool is equal. (The hash of the last save and
the frozen checkpoints, which processing blocks does not touch, are left out, and so is the ghost counter.) -/
structure WithMore (X : Nat → Prop) (o o' : Oracle) : Prop where
  cfg : o'.cfg = o.cfg
  records : RicherExcept X o o'
  rest : { o'.st with vals := [], poolFees := 0, tick := 0, stateHash := [], committed := [] } =
    { o.st with vals := [], poolFees := 0, tick := 0, stateHash := [], committed := [] }

/-- every validator the books know is active on the beacon chain at the slot -/
def AllActive (V : Nat → Nat → BVal) (slot : Nat) (s : State) : Prop :=
  ∀ i v, VMap.get s.vals i = some v → (V slot i).status.isActive = true

end Verif
