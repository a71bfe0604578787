import Verif.Spec.Status
/-
Who takes part in the pool when the proposal of a block is judged.
-/
namespace Verif

/-- Validator `i` takes part in the pool when the proposal of block `b` is judged: it was subscribed before, or it
is not banned and its owner subscribes it in this very block, with enough collateral. -/
def TakesPart (s : State) (b : FullBlock) (i : Nat) : Prop :=
  (∃ v, VMap.get s.vals i = some v ∧ Subscribed v.status) ∨
  ((∀ v, VMap.get s.vals i = some v → v.status ≠ .banned) ∧
    ∃ ev w u, OwnerSubscribes b i ev w u ∧ s.collateral ≤ ev.collateral)

end Verif
