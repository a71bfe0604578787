import Verif.Spec.Pays
import Verif.Spec.Env
import Verif.Spec.Gas
import Verif.Spec.Sharing
/-
The documented life cycle of a validator (spec/README.md), with what justifies each step.
-/
namespace Verif

/-- The states of a validator taking part in the pool. -/
def Subscribed (st : Status) : Prop := st = .active ∨ st = .yellowCard ∨ st = .redCard

instance (st) : Decidable (Subscribed st) := by unfold Subscribed; infer_instance

/-- The five documented states. -/
def Documented (st : Status) : Prop := Subscribed st ∨ st = .notSubscribed ∨ st = .banned

instance (st) : Decidable (Documented st) := by unfold Documented; infer_instance

/-- All tracked validators are in documented states. -/
def FiveStates (s : State) : Prop := ∀ p ∈ s.vals, Documented p.2.status

/-- One edge of the documented diagram for validator `i`, justified by block `b` processed at
`slot`, in a pool at address `pool` asking for collateral `coll`. -/
inductive Edge (E : Env) (slot : Nat) (pool : Str) (coll : Int) (b : FullBlock) (i : Nat) :
    Status → Status → Prop
  | subscribe {ev w v} : OwnerSubscribes b i ev w v → coll ≤ ev.collateral →
      Edge E slot pool coll b i .notSubscribed .active
  | autoSubscribe {w} : PaysPool b pool i w → Edge E slot pool coll b i .notSubscribed .active
  | okYellow {w} : PaysPool b pool i w → Edge E slot pool coll b i .yellowCard .active
  | okRed {w} : PaysPool b pool i w → Edge E slot pool coll b i .redCard .yellowCard
  | missActive : Misses b i → Edge E slot pool coll b i .active .yellowCard
  | missYellow : Misses b i → Edge E slot pool coll b i .yellowCard .redCard
  | wrongFee {st} : Subscribed st → PaysElsewhere b pool i → Edge E slot pool coll b i st .banned
  | ban {st ev} : Subscribed st → ev ∈ b.events.bans → ev.validatorId = i →
      Edge E slot pool coll b i st .banned
  | unban {ev} : ev ∈ b.events.unbans → ev.validatorId = i → Edge E slot pool coll b i .banned .active
  | unsubscribe {st} : Subscribed st → OwnerUnsubscribes b i →
      Edge E slot pool coll b i st .notSubscribed
  | leftChain {st} : Subscribed st → slot % 1200 = 0 → NotActive E slot i →
      Edge E slot pool coll b i st .notSubscribed

/-- Status after a missed proposal. -/
def afterMiss : Status → Status
  | .active => .yellowCard
  | .yellowCard => .redCard
  | st => st

/-- Status after proposing a block that pays the pool. -/
def afterPay : Status → Status
  | .notSubscribed => .active
  | .yellowCard => .active
  | .redCard => .yellowCard
  | st => st

/-- What the proposal of the block does to the status of validator `i`: at most one step. -/
inductive ProposalStep (b : FullBlock) (pool : Str) (i : Nat) : Status → Status → Prop
  | pays {w st} : PaysPool b pool i w → ProposalStep b pool i st (afterPay st)
  | misses {st} : Misses b i → ProposalStep b pool i st (afterMiss st)
  | elsewhere {st} : PaysElsewhere b pool i → Subscribed st → ProposalStep b pool i st .banned
  | outsider {st} : PaysElsewhere b pool i → ¬ Subscribed st → ProposalStep b pool i st st
  | noAddress {st} : b.dutyIndex = i → PaidPool b pool → (∀ w, ¬ HasAddress b.validator.creds w) →
      ProposalStep b pool i st st
  | other {st} : b.dutyIndex ≠ i → ProposalStep b pool i st st

/-- Edges possible after the proposal of a block has been dealt with. -/
inductive LateEdge (E : Env) (slot : Nat) (b : FullBlock) (i : Nat) : Status → Status → Prop
  | ban {st ev} : Subscribed st → ev ∈ b.events.bans → ev.validatorId = i → LateEdge E slot b i st .banned
  | unban {ev} : ev ∈ b.events.unbans → ev.validatorId = i → LateEdge E slot b i .banned .active
  | unsubscribe {st} : Subscribed st → OwnerUnsubscribes b i → LateEdge E slot b i st .notSubscribed
  | leftChain {st} : Subscribed st → slot % 1200 = 0 → NotActive E slot i →
      LateEdge E slot b i st .notSubscribed

/-- A subscription event for an existing, acceptable validator `v` sent from its withdrawal
address `w`. -/
def ByOwner (ev : SubEvent) (val : Option BVal) (v : BVal) (w : Str) : Prop :=
  val = some v ∧ v.index = ev.validatorId ∧ Acceptable v.status ∧ HasAddress v.creds w ∧
    SameAddr ev.sender w

open Classical in
/-- Total collateral sent by the owner of validator `i` in a block. -/
noncomputable def ownerSent (b : FullBlock) (i : Nat) : Int :=
  ((b.events.subs.zip b.valsSubs).map fun p =>
    if p.1.validatorId = i ∧ ∃ v w, ByOwner p.1 p.2 v w then p.1.collateral else 0).sum

/-- What one subscription event must do. -/
inductive SubEffect (s : State) (ev : SubEvent) (val : Option BVal) : State → Prop
  /-- valid, validator not known before -/
  | fresh {v w} : ByOwner ev val v w → VMap.get s.vals ev.validatorId = none →
      s.collateral ≤ ev.collateral →
      SubEffect s ev val { s with vals := (VMap.insert s.vals ev.validatorId
        { status := .active, acc := 0, pend := ev.collateral, coll := ev.collateral, waddr := w,
          index := ev.validatorId, key := b!"0x" ++ hexEncode v.pubkey, subType := .manual }) }
  /-- valid, validator known but not subscribed -/
  | again {v w u} : ByOwner ev val v w → VMap.get s.vals ev.validatorId = some u →
      u.status = .notSubscribed → s.collateral ≤ ev.collateral →
      SubEffect s ev val { s with vals := VMap.modify s.vals ev.validatorId fun u =>
        { u with status := .active, pend := u.pend + ev.collateral, subType := .manual } }
  /-- sent by the owner while subscribed or banned: credited back to the validator -/
  | returned {v w u} : ByOwner ev val v w → VMap.get s.vals ev.validatorId = some u →
      (Subscribed u.status ∨ u.status = .banned) →
      SubEffect s ev val { s with vals := VMap.modify s.vals ev.validatorId fun u =>
        { u with acc := u.acc + ev.collateral } }
  /-- not sent by the owner of an acceptable validator: kept by the pool -/
  | notOwner : (∀ v w, ¬ ByOwner ev val v w) →
      SubEffect s ev val { s with poolFees := s.poolFees + ev.collateral }
  /-- too little collateral: kept by the pool -/
  | tooLittle {v w} : ByOwner ev val v w → ev.collateral < s.collateral →
      (∀ u, VMap.get s.vals ev.validatorId = some u → u.status = .notSubscribed) →
      SubEffect s ev val { s with poolFees := s.poolFees + ev.collateral }

/-- Effects of a list of subscription events, one after the other. -/
inductive SubEffects : State → List (SubEvent × Option BVal) → State → Prop
  | nil (s) : SubEffects s [] s
  | cons {s p s1 l s2} : SubEffect s p.1 p.2 s1 → SubEffects s1 l s2 → SubEffects s (p :: l) s2

/-- The share of an amount `r` each participant must receive, by the rule in force. -/
structure ShareRule (E : Env) (net : Str) (s : State) (r : Int) (share : Nat → Int) : Prop where
  /-- by effective balance, as reported for exactly the participants -/
  electra : PostElectra net s.nextSlot → 0 < earningCount s →
    ∃ t req bals, E.node t s.nextSlot req = some bals ∧
      (∀ i, (∃ u ∈ bals, u.index = i) ↔ ∃ v, VMap.get s.vals i = some v ∧ Earning v) ∧
      ((∀ u ∈ bals, u.effBal < 9223372036854775808) → ∀ u ∈ bals,
        share u.index = (r - feeOf s.fee r) * u.effBal / (bals.map fun u => (u.effBal : Int)).sum)
  /-- equal shares -/
  fork1 : PostFork1 net s.nextSlot → ¬ PostElectra net s.nextSlot →
    ∀ i v, VMap.get s.vals i = some v → Earning v →
      share i = (r - feeOf s.fee r) / (earningCount s : Int)
  /-- equal shares; the remainder of the division that gives the fee is held back too -/
  old : ¬ PostFork1 net s.nextSlot → ¬ PostElectra net s.nextSlot →
    ∀ i v, VMap.get s.vals i = some v → Earning v →
      share i = (r - feeOf s.fee r - r * s.fee % 10000) / (earningCount s : Int)

/-- Sharing an amount among the participants of the pool: each gets its share on its pending
balance, the pool gets all the rest, nothing else changes. (`tick` is not part of the program.) -/
def Shares (E : Env) (net : Str) (s : State) (r : Int) (s' : State) : Prop :=
  ∃ share, ShareRule E net s r share ∧
    s' = { s with
      vals := s.vals.map fun p =>
        (p.1, if Earning p.2 then { p.2 with pend := p.2.pend + share p.1 } else p.2)
      poolFees := s.poolFees +
        (r - (s.vals.map fun p => if Earning p.2 then share p.1 else 0).sum)
      tick := s'.tick }

/-- An unsubscription event for an existing validator sent from its withdrawal address. -/
def ByOwnerUnsub (ev : UnsubEvent) (val : Option BVal) : Prop :=
  ∃ v w, val = some v ∧ v.index = ev.validatorId ∧ HasAddress v.creds w ∧ SameAddr ev.sender w

/-- What one unsubscription event must do. -/
inductive UnsubEffect (E : Env) (net : Str) (s : State) (ev : UnsubEvent) (val : Option BVal) :
    State → Prop
  | leaves {u s'} : ByOwnerUnsub ev val → VMap.get s.vals ev.validatorId = some u →
      Subscribed u.status →
      Shares E net { s with vals := VMap.modify s.vals ev.validatorId fun u =>
        { u with status := .notSubscribed, pend := 0 } } u.pend s' →
      UnsubEffect E net s ev val s'
  | nothing : (¬ ByOwnerUnsub ev val ∨
      ∀ u, VMap.get s.vals ev.validatorId = some u → ¬ Subscribed u.status) →
      UnsubEffect E net s ev val s

/-- Effects of a list of unsubscription events, one after the other. -/
inductive UnsubEffects (E : Env) (net : Str) : State → List (UnsubEvent × Option BVal) → State → Prop
  | nil (s) : UnsubEffects E net s [] s
  | cons {s p s1 l s2} : UnsubEffect E net s p.1 p.2 s1 → UnsubEffects E net s1 l s2 →
      UnsubEffects E net s (p :: l) s2

/-- The block carries no subscription, unsubscription, ban, unban or fee events. -/
def NoEvents (b : FullBlock) : Prop :=
  b.events.subs = [] ∧ b.events.unsubs = [] ∧ b.events.bans = [] ∧ b.events.unbans = [] ∧
    b.events.poolFee = []

/-- The reward of a block. -/
inductive RewardIs (b : FullBlock) : Int → Prop
  /-- the hard-coded one -/
  | exception : ExceptionBlock b → RewardIs b 177043568463114308
  /-- the builder's payment -/
  | builder {tx dest} : BuilderPays b tx dest → RewardIs b tx.value
  /-- the priority fees of the block -/
  | fees {c hd rs} : ¬ ExceptionBlock b → (∀ tx dest, ¬ BuilderPays b tx dest) → b.cons = some c →
      b.header = some hd → b.receipts = some rs → RewardIs b (priorityFees hd.baseFee c.txs rs)

/-- Every payment reported by the pool contract is the builder's payment for the block. -/
def NoDonations (b : FullBlock) : Prop :=
  ∀ e ∈ b.events.ether, (ExceptionBlock b ∧ e.amount = 177043568463114308) ∨
    ∃ tx dest, BuilderPays b tx dest ∧ e.amount = tx.value

/-- The validators after proposer `i` with withdrawal address `w` and key `key` has been given the
status it earns by paying the pool; a proposer not known before is added. -/
def enrolled (m : VMap) (i : Nat) (w key : Str) : VMap :=
  match VMap.get m i with
  | none => VMap.insert m i
      { status := .active, acc := 0, pend := 0, coll := 0, waddr := w, index := i, key := key,
        subType := .auto }
  | some _ => VMap.modify m i fun v =>
      { v with status := afterPay v.status
               subType := if v.status = .notSubscribed then .auto else v.subType }

/-- The validators after `i` has been paid out. -/
def paidOut (m : VMap) (i : Nat) : VMap :=
  VMap.modify m i fun v => { v with acc := v.acc + v.pend, pend := 0 }

end Verif
