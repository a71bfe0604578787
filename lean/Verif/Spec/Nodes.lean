import Verif.Model.MainLoop
/-
What the oracle wants to know about its nodes.
-/
namespace Verif

/-- Both nodes answered, the execution node is done syncing and the consensus node is at most five slots behind. -/
def NodesReady (A : Answers) : Prop := A.exec = some false ∧ ∃ d, A.cons = some d ∧ d ≤ 5

/-- One of the nodes did not answer. -/
def NodesSilent (A : Answers) : Prop := A.exec = none ∨ A.cons = none

/-- The list of validators has the one with the last index that a list of this length should have, and one that
was activated after the genesis and is not waiting to be activated. -/
def Plausible (vs : NodeVals) : Prop :=
  (∃ p ∈ vs, p.1 + 1 = vs.length) ∧ ∃ p ∈ vs, p.2.activation ≠ 0 ∧ p.2.activation ≠ 2 ^ 64 - 1

end Verif
