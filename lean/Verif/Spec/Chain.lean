import Verif.Spec.Env
/-
Two oracles that read the same chain, for the determinism property C09.
-/
namespace Verif

/-- The beacon node's answers are those of a chain in which validator `i` is `V slot i` at `slot` and
the pending consolidations at `slot` are `K slot`. Nothing is said about when it answers, nor in
which order. -/
structure ReadsChain (V : Nat → Nat → BVal) (K : Nat → List (Nat × Nat)) (E : Env) : Prop where
  node : ∀ t slot req r, E.node t slot req = some r → ∀ v ∈ r, v = V slot v.index
  consol : ∀ t slot cs, E.consol t slot = some cs → cs = K slot

/-- A validator that is no longer active is not consolidated into one that is no longer active
either, at `slot`. -/
def ActiveTargets (V : Nat → Nat → BVal) (K : Nat → List (Nat × Nat)) (slot : Nat) : Prop :=
  ∀ p ∈ K slot, (V slot p.1).status.isActive = false →
    (V slot p.2).status.isActive = true

/-- The same oracle state: everything but the ghost counter of map iterations is equal. -/
def SameState (o o' : Oracle) : Prop :=
  o.cfg = o'.cfg ∧ { o.st with tick := 0 } = { o'.st with tick := 0 }

/-- The same books: everything is equal but the ghost counter, the hash of the last save and the frozen
checkpoints. -/
def SameBooks (o o' : Oracle) : Prop :=
  o.cfg = o'.cfg ∧ { o.st with tick := 0, stateHash := [], committed := [] } =
    { o'.st with tick := 0, stateHash := [], committed := [] }

end Verif
