import Verif.Model.Advance
import Verif.Spec.Env
/-
What is announced by the API about checkpoints.
-/
namespace Verif

/-- `n` is the next checkpoint after `o`: whatever blocks follow, and as long as `n` is not passed, the oracle reports
a checkpoint exactly when it has processed slot `n`. -/
def NextCheckpointIs (E : Env) (o : Oracle) (n : Nat) : Prop :=
  o.st.latestSlot < n ∧ ∀ bs o', bs ≠ [] → o.st.latestSlot + bs.length + 1 < 2 ^ 64 → Hist E o bs o' →
    o'.st.latestSlot ≤ n →
    (isCheckpoint o' = .ok (some true) ↔ o'.st.latestSlot = n)

end Verif
