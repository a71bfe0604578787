import Verif.Spec.Status
import Verif.Spec.Merkle
/-
What the HTTP API must answer, in words of its own.
-/
namespace Verif

/-- A hexadecimal digit, in either case. -/
def HexChar (c : Nat) : Prop := (48 ≤ c ∧ c ≤ 57) ∨ (97 ≤ c ∧ c ≤ 102) ∨ (65 ≤ c ∧ c ≤ 70)

/-- A public key: "0x" and 96 hexadecimal digits. -/
def IsKey (v : Str) : Prop := ∃ d, v = b!"0x" ++ d ∧ d.length = 96 ∧ ∀ c ∈ d, HexChar c

/-- A decimal numeral. -/
def Numeral (v : Str) : Prop := v ≠ [] ∧ ∀ c ∈ v, 48 ≤ c ∧ c ≤ 57

/-- The number a decimal numeral stands for: units last. -/
def numeralValue (v : Str) : Nat :=
  (v.reverse.zipIdx.map fun p => (p.1 - 48) * 10 ^ p.2).sum

/-- Number of tracked validators with a status satisfying `P`. -/
def tally (s : State) (P : Status → Prop) [DecidablePred P] : Nat :=
  (s.vals.filter fun p => P p.2.status).length

/-- Rewards of the blocks that paid the pool from a validator with an address, from the slots
satisfying `P`. -/
def blockRewards (s : State) (P : Nat → Prop) [DecidablePred P] : Int :=
  ((s.proposed.filter fun b => b.type = .okPool ∧ P b.slot).map fun b => b.reward.getD 0).sum

/-- Number of those blocks. -/
def paidBlocks (s : State) : Nat := (s.proposed.filter fun b => b.type = .okPool).length

/-- Donations from the blocks satisfying `P`. -/
def donated (s : State) (P : Nat → Prop) [DecidablePred P] : Int :=
  ((s.donations.filter fun d => P d.block).map (·.amount)).sum

/-! ### The view of not yet finalized events -/

/-- The numbers carried by the subscription and unsubscription events of a block. -/
def eventNumbers (b : FullBlock) : List Nat :=
  b.events.subs.map (·.block) ++ b.events.unsubs.map (·.block)

/-- The events of a block carry one number, and these numbers grow along the chain. -/
structure InOrder (bs : List FullBlock) : Prop where
  one : ∀ b ∈ bs, ∃ n, ∀ x ∈ eventNumbers b, x = n
  grow : bs.Pairwise fun b c => ∀ x ∈ eventNumbers b, ∀ y ∈ eventNumbers c, x < y

/-- What the oracle will read about validator `i` when it processes the block agrees with what the API
knows: the withdrawal address is `owner`, and `cached` can be subscribed if and only if the validator can
when the block is processed. -/
structure Agree (owner : Str) (cached : Option BVal) (i : Nat) (b : FullBlock) : Prop where
  lens : b.valsSubs.length = b.events.subs.length ∧ b.valsUnsubs.length = b.events.unsubs.length
  subs : ∀ p ∈ b.events.subs.zip b.valsSubs, p.1.validatorId = i →
    ∃ v w u, p.2 = some v ∧ v.index = i ∧ HasAddress v.creds w ∧ SameAddr w owner ∧
      cached = some u ∧ (Acceptable u.status ↔ Acceptable v.status)
  unsubs : ∀ p ∈ b.events.unsubs.zip b.valsUnsubs, p.1.validatorId = i →
    ∃ v w, p.2 = some v ∧ v.index = i ∧ HasAddress v.creds w ∧ SameAddr w owner

/-- Nothing but subscriptions and unsubscriptions can change the status of validator `i`: it does not
propose the block, it is neither banned nor unbanned, no cleanup takes place. -/
structure Quiet (i : Nat) (b : FullBlock) : Prop where
  proposer : b.dutyIndex ≠ i
  bans : ∀ e ∈ b.events.bans, e.validatorId ≠ i
  unbans : ∀ e ∈ b.events.unbans, e.validatorId ≠ i
  cleanup : b.dutySlot % 1200 ≠ 0

/-- No reward is shared in this block: the slot is missed, or its proposer is not subscribed and does not
pay the pool; no donations, no bans, nobody else unsubscribes. -/
structure NoRewards (pool : Str) (s : State) (i : Nat) (b : FullBlock) : Prop where
  proposal : b.cons = none ∨
    ((∀ v, VMap.get s.vals b.dutyIndex = some v → ¬ Subscribed v.status) ∧
      ∀ e ∈ b.events.subs, e.validatorId ≠ b.dutyIndex)
  unpaid : ¬ PaidPool b pool
  ether : b.events.ether = []
  bans : b.events.bans = []
  unsubs : ∀ e ∈ b.events.unsubs, e.validatorId = i

/-- A shown record has the status recorded by the oracle, `untracked` standing for no record. -/
def StatusShown (r : Option Validator) (w : Validator) : Prop :=
  (∀ u, r = some u → w.status = u.status) ∧ (r = none → w.status = .untracked)

/-- A shown record has the pending balance recorded by the oracle, 0 standing for no record. -/
def PendingShown (r : Option Validator) (w : Validator) : Prop :=
  (∀ u, r = some u → w.pend = u.pend) ∧ (r = none → w.pend = 0)

end Verif
