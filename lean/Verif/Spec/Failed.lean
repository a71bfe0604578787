import Verif.Spec.Slot
import Verif.Spec.Honest
/-
What a slot leaves behind when processing it returns an error.
-/
namespace Verif

/-- The beacon node does not answer this request, or its answer lacks one of the requested validators. -/
def Unanswered (E : Env) (slot : Nat) (req : List Nat) : Prop :=
  ∃ t, E.node t slot req = none ∨ ∃ r, E.node t slot req = some r ∧ ∃ i ∈ req, ∀ v ∈ r, v.index ≠ i

/-- A cleanup that ends with an error, what it leaves behind, and how much of the pending balances is lost. -/
inductive InterruptedCleanup (E : Env) (net : Str) (slot : Nat) (s : State) : State → Int → Prop
  /-- nobody was visited -/
  | unanswered {req} : cleanupFrom net ≤ slot → s.vals ≠ [] → ((∃ t, consolidationsFrom net ≤ slot ∧ E.consol t slot = none) ∨
        ((∀ i, i ∈ req ↔ (VMap.get s.vals i).isSome) ∧ Unanswered E slot req)) →
      InterruptedCleanup E net slot s { s with tick := s.tick + 1 } 0
  /-- `u` left and is consolidated into an unknown validator that the node does not know either: those visited before
  `u` are dealt with, `u` loses its membership but not its pending balance, and what was to be shared is forgotten -/
  | lookup {cs l v j s1 tot} {u : BVal} : consolidationsFrom net ≤ slot → (∃ t, E.consol t slot = some cs) →
      CleanEffects E slot cs { s with tick := s.tick + 2 } l s1 tot →
      u.status.isActive = false → VMap.get s1.vals u.index = some v → v.pend ≠ 0 →
      LastTarget cs u.index j → VMap.get s1.vals j = none → Unanswered E slot [j] →
      InterruptedCleanup E net slot s { s1 with
        vals := VMap.modify s1.vals u.index fun v => { v with status := afterLeaving v.status }
        tick := s1.tick + 1 } tot

/-- The block announces the agreed change of the fee to `f`. The program only looks at the announced number modulo
2^64. -/
def Announces (net : Str) (b : FullBlock) (f : Int) : Prop :=
  ∃ x, b.events.poolFee = [x] ∧ 18446744073709551616 ∣ x - f ∧ FeeChange net b.dutySlot f

/-- A failed slot: the state after it. -/
inductive FailedSlot (E : Env) (o : Oracle) (b : FullBlock) : Oracle → Prop
  /-- not the next slot: nothing happens -/
  | otherSlot : (b.dutySlot ≠ o.st.nextSlot ∨ o.st.nextSlot ≠ u64 (o.st.latestSlot + 1)) → FailedSlot E o b o
  /-- the contract was reconfigured: nothing happens -/
  | reconfigured : ¬ ConfigOK o.cfg b.dutySlot b.events → FailedSlot E o b o
  /-- the same, but the block contains the agreed change of the fee too: it stays -/
  | newFee {f} : ¬ ConfigOK o.cfg b.dutySlot b.events → Announces o.cfg.network b f →
      FailedSlot E o b ⟨{ o.cfg with fee := f }, { o.st with fee := f }⟩
  /-- the cleanup failed: everything the block contains has been done, and the slot still counts as not processed -/
  | cleanup {f s7 s8 lost} : o.st.nextSlot % 1200 = 0 →
      ((b.events.poolFee = [] ∧ f = none) ∨ ∃ x, Announces o.cfg.network b x ∧ f = some x) →
      SlotEffect E o.cfg.network o.cfg.poolAddr b { o.st with
        fee := f.getD o.st.fee
        subs := o.st.subs ++ b.events.subs
        unsubs := o.st.unsubs ++ b.events.unsubs
        ether := o.st.ether ++ b.events.ether } s7 →
      InterruptedCleanup E o.cfg.network o.st.nextSlot s7 s8 lost →
      FailedSlot E o b ⟨{ o.cfg with fee := f.getD o.cfg.fee }, s8⟩

end Verif
