import Verif.Model.Basic
/-
The fee changes that were agreed upon.
-/
namespace Verif

/-- At this slot of this network the pool fee may become `fee` per 10000. -/
def FeeChange (net : Str) (slot : Nat) (fee : Int) : Prop :=
  (net = b!"mainnet" ∧ slot = 14082460 ∧ fee = 500) ∨ (net = b!"hoodi" ∧ slot = 2801050 ∧ fee = 500)

end Verif
