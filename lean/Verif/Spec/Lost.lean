import Verif.Spec.Slot
/-
Payments of a block that are credited to nobody.
-/
namespace Verif

/-- What the pool receives in a block without crediting it to anybody: all payments of a missed block (there are none
on the chain), and the payments that equal the payment of the builder, but for one. -/
inductive Uncredited (b : FullBlock) (pool : Str) : Int → Prop
  | missed : b.cons = none → Uncredited b pool (b.events.ether.map (·.amount)).sum
  | twins {a} : BuilderPaid b pool a → (∃ e ∈ b.events.ether, e.amount = a) →
      Uncredited b pool (a * (((b.events.ether.filter fun e => e.amount = a).length : Int) - 1))
  | nothing : b.cons ≠ none → (∀ a, ¬ BuilderPaid b pool a) → Uncredited b pool 0

/-- Every payment of the block is credited: nothing is paid in a missed block, and no second payment equals the one of
the builder. -/
def AllCredited (b : FullBlock) (pool : Str) : Prop :=
  (b.cons = none → ∀ e ∈ b.events.ether, e.amount = 0) ∧
  ∀ a, BuilderPaid b pool a → a ≠ 0 → (b.events.ether.filter fun e => e.amount = a).length ≤ 1

end Verif
