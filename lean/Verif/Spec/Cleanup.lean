import Verif.Spec.Slot
import Verif.Spec.Chain
/-
The outcome of the cleanup in terms of the chain: who left, what arrives where, what is shared. No order
of processing is involved.
-/
namespace Verif

/-- validator `i` is no longer active (or not yet) at `slot` -/
def Away (V : Nat → Nat → BVal) (slot i : Nat) : Prop := (V slot i).status.isActive = false

/-- the consolidations that count at `slot`: none before they exist on the network -/
def consolsAt (K : Nat → List (Nat × Nat)) (net : Str) (slot : Nat) : List (Nat × Nat) :=
  if consolidationsFrom net ≤ slot then K slot else []

open Classical in
/-- the pending balances of everybody who left and is consolidated into `j`, together -/
noncomputable def arriving (V : Nat → Nat → BVal) (cs : List (Nat × Nat)) (slot : Nat) (s : State) (j : Nat) : Int :=
  (s.vals.map fun p => if Away V slot p.1 ∧ LastTarget cs p.1 j then p.2.pend else 0).sum

open Classical in
/-- the pending balances of everybody who left and is not consolidated, or is into somebody banned, together -/
noncomputable def toShare (V : Nat → Nat → BVal) (cs : List (Nat × Nat)) (slot : Nat) (s : State) : Int :=
  (s.vals.map fun p => if Away V slot p.1 ∧ ((∀ j, ¬ LastTarget cs p.1 j) ∨
    ∃ j w, LastTarget cs p.1 j ∧ VMap.get s.vals j = some w ∧ w.status = .banned) then p.2.pend else 0).sum

/-- `s1` is `s` after everybody who left has been dealt with, before the rest is shared. -/
structure CleanedUp (V : Nat → Nat → BVal) (cs : List (Nat × Nat)) (slot : Nat) (s s1 : State) : Prop where
  /-- who left with a pending balance is no member any more and has nothing pending -/
  left : ∀ i v, VMap.get s.vals i = some v → Away V slot i → v.pend ≠ 0 →
    VMap.get s1.vals i = some { v with status := afterLeaving v.status, pend := 0 }
  /-- who left with nothing pending is not looked at -/
  nothing : ∀ i v, VMap.get s.vals i = some v → Away V slot i → v.pend = 0 → VMap.get s1.vals i = some v
  /-- everybody else has what they had and what is consolidated into them, unless they are banned -/
  stays : ∀ j w, VMap.get s.vals j = some w → ¬ Away V slot j →
    VMap.get s1.vals j = some { w with pend := w.pend + if w.status = .banned then 0 else arriving V cs slot s j }
  /-- an unknown target is tracked from now on, as not subscribed, with what is consolidated into it -/
  known : ∀ j, VMap.get s.vals j = none →
    (∃ i v, VMap.get s.vals i = some v ∧ Away V slot i ∧ v.pend ≠ 0 ∧ LastTarget cs i j) →
    ∃ w, VMap.get s1.vals j = some w ∧ w.status = .notSubscribed ∧ w.acc = 0 ∧ w.index = j ∧
      w.pend = arriving V cs slot s j
  /-- nobody else becomes tracked -/
  unknown : ∀ j, VMap.get s.vals j = none →
    (¬ ∃ i v, VMap.get s.vals i = some v ∧ Away V slot i ∧ v.pend ≠ 0 ∧ LastTarget cs i j) →
    VMap.get s1.vals j = none

end Verif
