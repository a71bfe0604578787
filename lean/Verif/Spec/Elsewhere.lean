import Verif.Spec.Chain
import Verif.Spec.Slot
/-
Blocks the pool has nothing to do with (C105).
-/
namespace Verif

/-- The block has nothing to do with the pool: no event of its contract, its proposer is not subscribed, and its reward
did not go to the pool. -/
structure NoConcern (pool : Str) (m : VMap) (b : FullBlock) : Prop where
  events : b.events.ether = [] ∧ b.events.subs = [] ∧ b.events.unsubs = [] ∧ b.events.bans = [] ∧
    b.events.unbans = [] ∧ b.events.poolFee = []
  unpaid : ¬ PaidPool b pool
  outsider : ∀ v, VMap.get m b.dutyIndex = some v → ¬ Subscribed v.status

/-- Everybody with a pending balance is active on the chain at `slot`. -/
def NobodyLeft (V : Nat → Nat → BVal) (m : VMap) (slot : Nat) : Prop :=
  ∀ i v, VMap.get m i = some v → v.pend ≠ 0 → (V slot i).status.isActive = true

/-- All is the same but the position on the chain (and the ghost counter). -/
def SameButSlot (o o' : Oracle) : Prop :=
  o.cfg = o'.cfg ∧ { o.st with tick := 0, latestSlot := 0, nextSlot := 0, latestBlock := 0 } =
    { o'.st with tick := 0, latestSlot := 0, nextSlot := 0, latestBlock := 0 }

end Verif
