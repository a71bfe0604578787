import Verif.Spec.Persist
import Mathlib.Data.List.Forall2
/-
Two states that differ only in the order in which their maps happen to be listed.
-/
namespace Verif

/-- The same checkpoint, its maps listed in another order. -/
structure SameFrozen (f f' : Frozen) : Prop where
  slot : f.slot = f'.slot
  root : f.root = f'.root
  vals : f.vals.Perm f'.vals
  leafs : f.leafs.Perm f'.leafs
  proofs : f.proofs.Perm f'.proofs

/-- The same state, its maps (and those of its checkpoints) listed in another order. -/
structure SameMaps (s s' : State) : Prop where
  vals : s.vals.Perm s'.vals
  committed : ∃ c : List (Nat × Frozen), s.committed.Perm c ∧
    List.Forall₂ (fun p q => p.1 = q.1 ∧ SameFrozen p.2 q.2) c s'.committed
  rest : { s with vals := [], committed := [] } = { s' with vals := [], committed := [] }

end Verif
