import Verif.Spec.Status
/-
What processing one slot must do, as a relation between states, written without the program's
functions. `Props/Refinement.lean` proves that the model of the program does exactly this.
-/
namespace Verif

/-- The entry a block leaves in the records. -/
structure Describes (sb : SumBlock) (b : FullBlock) (type : BlockType) : Prop where
  slot : sb.slot = b.dutySlot
  index : sb.index = b.dutyIndex
  key : sb.key = b.dutyKey
  type : sb.type = type
  block : ∀ c, b.cons = some c → sb.block = c.number

/-- What the proposal of the block must do. -/
inductive ProposalEffect (E : Env) (net pool : Str) (b : FullBlock) (s : State) : State → Prop
  /-- a subscribed validator misses: one card more, recorded -/
  | missed {v sb} : b.cons = none → VMap.get s.vals b.dutyIndex = some v → Subscribed v.status →
      Describes sb b .missed →
      ProposalEffect E net pool b s { s with
        vals := (VMap.modify s.vals b.dutyIndex fun v => { v with status := afterMiss v.status })
        missed := s.missed ++ [sb] }
  /-- an outsider misses or keeps its reward: nothing -/
  | outsider : ¬ PaidPool b pool →
      (∀ v, VMap.get s.vals b.dutyIndex = some v → ¬ Subscribed v.status) →
      ProposalEffect E net pool b s s
  /-- a subscribed validator does not pay the pool: banned, pending shared, recorded -/
  | elsewhere {v sb s2} : b.cons ≠ none → ¬ PaidPool b pool →
      VMap.get s.vals b.dutyIndex = some v → Subscribed v.status →
      Shares E net { s with vals := VMap.modify s.vals b.dutyIndex fun v =>
        { v with status := .banned, pend := 0 } } v.pend s2 →
      Describes sb b .wrongFee →
      ProposalEffect E net pool b s { s2 with wrongFee := s.wrongFee ++ [sb] }
  /-- pays the pool from a validator with an address: enrolled, reward shared, paid out, recorded -/
  | pays {w r sb s2} : PaidPool b pool → HasAddress b.validator.creds w → RewardIs b r →
      Shares E net { s with vals := enrolled s.vals b.dutyIndex w b.dutyKey } r s2 →
      Describes sb b .okPool → sb.reward = some r → sb.waddr = w →
      ProposalEffect E net pool b s { s2 with
        vals := paidOut s2.vals b.dutyIndex, proposed := s.proposed ++ [sb] }
  /-- pays the pool from a validator without an address: the pool keeps the reward -/
  | noAddress {r sb} : PaidPool b pool → (∀ w, ¬ HasAddress b.validator.creds w) → RewardIs b r →
      Describes sb b .okPoolBls → sb.reward = some r →
      ProposalEffect E net pool b s { s with
        poolFees := s.poolFees + r, proposed := s.proposed ++ [sb] }

/-- A builder's payment of `x` reached the pool. -/
def BuilderPaid (b : FullBlock) (pool : Str) (x : Int) : Prop :=
  (ExceptionBlock b ∧ SameAddr b!"0xadfb8d27671f14f297ee94135e266aaff8752e35" pool ∧
    x = 177043568463114308) ∨
  ∃ tx dest, BuilderPays b tx dest ∧ ArrivesAt b tx dest pool ∧ x = tx.value

/-- The donations of a block: what the pool contract reported receiving, except the amount of the
builder's payment. -/
structure DonationsOf (b : FullBlock) (pool : Str) (dons : List EtherEvent) : Prop where
  missed : b.cons = none → dons = []
  builder : ∀ x, BuilderPaid b pool x → dons = b.events.ether.filter fun e => e.amount ≠ x
  other : b.cons ≠ none → (∀ x, ¬ BuilderPaid b pool x) → dons = b.events.ether

/-- Each donation is shared, in order, and logged. -/
inductive DonEffects (E : Env) (net : Str) : State → List EtherEvent → State → Prop
  | nil (s) : DonEffects E net s [] s
  | cons {s d s1 l s2} : Shares E net s d.amount s1 →
      DonEffects E net { s1 with donations := s1.donations ++ [d] } l s2 →
      DonEffects E net s (d :: l) s2

/-- Bans, with the total of the pending balances taken. -/
inductive BanEffects : State → List BanEvent → State → Int → Prop
  | nil (s) : BanEffects s [] s 0
  | ban {s ev v l s' t} : VMap.get s.vals ev.validatorId = some v → Subscribed v.status →
      BanEffects { s with vals := VMap.modify s.vals ev.validatorId fun v =>
        { v with status := .banned, pend := 0 } } l s' t →
      BanEffects s (ev :: l) s' (v.pend + t)
  | skip {s ev l s' t} : (∀ v, VMap.get s.vals ev.validatorId = some v → ¬ Subscribed v.status) →
      BanEffects s l s' t → BanEffects s (ev :: l) s' t

/-- Every banned validator among those unbanned becomes active. -/
def unbanned (m : VMap) (evs : List BanEvent) : VMap :=
  m.map fun p => if p.2.status = .banned ∧ ∃ ev ∈ evs, ev.validatorId = p.1
    then (p.1, { p.2 with status := .active }) else p

/-- Everything a slot does before the periodic cleanup, from the state `s` with the block's events
already logged. -/
def SlotEffect (E : Env) (net pool : Str) (b : FullBlock) (s s' : State) : Prop :=
  ∃ s1 s2 s3 dons s4 s5 tot s6,
    SubEffects s (b.events.subs.zip b.valsSubs) s1 ∧
    ProposalEffect E net pool b s1 s2 ∧
    UnsubEffects E net s2 (b.events.unsubs.zip b.valsUnsubs) s3 ∧
    DonationsOf b pool dons ∧ DonEffects E net s3 dons s4 ∧
    BanEffects s4 b.events.bans s5 tot ∧
    ((0 < tot ∧ Shares E net s5 tot s6) ∨ (tot = 0 ∧ s6 = s5)) ∧
    s' = { s6 with vals := unbanned s6.vals b.events.unbans }

/-- The consolidation target in force for `i`: the last one listed. -/
def LastTarget (cs : List (Nat × Nat)) (i t : Nat) : Prop :=
  ∃ l1 l2, cs = l1 ++ (i, t) :: l2 ∧ ∀ p ∈ l2, p.1 ≠ i

/-- Status of a validator that left. -/
def afterLeaving (st : Status) : Status := if Subscribed st then .notSubscribed else st

/-- The record of a validator that left, when its pending balance has been taken. -/
def gone (m : VMap) (i : Nat) : VMap :=
  VMap.modify m i fun v => { v with status := afterLeaving v.status, pend := 0 }

/-- The cleanup of the validators `l` (as the beacon node reports them) with pending consolidations
`cs`; the number is the amount to be shared afterwards. -/
inductive CleanEffects (E : Env) (slot : Nat) (cs : List (Nat × Nat)) :
    State → List BVal → State → Int → Prop
  | nil (s) : CleanEffects E slot cs s [] s 0
  /-- still active, or nothing pending -/
  | keep {s u l s' t} : (u.status.isActive = true ∨
        ∃ v, VMap.get s.vals u.index = some v ∧ v.pend = 0) →
      CleanEffects E slot cs s l s' t → CleanEffects E slot cs s (u :: l) s' t
  /-- gone without a target, or with a banned one: pending to be shared -/
  | leaves {s u v l s' t} : u.status.isActive = false → VMap.get s.vals u.index = some v →
      v.pend ≠ 0 →
      ((∀ j, ¬ LastTarget cs u.index j) ∨
        ∃ j w, LastTarget cs u.index j ∧ VMap.get s.vals j = some w ∧ w.status = .banned) →
      CleanEffects E slot cs { s with vals := gone s.vals u.index } l s' t →
      CleanEffects E slot cs s (u :: l) s' (v.pend + t)
  /-- gone into a tracked target: pending moves there -/
  | moves {s u v j w l s' t} : u.status.isActive = false → VMap.get s.vals u.index = some v →
      v.pend ≠ 0 → LastTarget cs u.index j → j ≠ u.index → VMap.get s.vals j = some w →
      w.status ≠ .banned →
      CleanEffects E slot cs { s with vals := VMap.modify (gone s.vals u.index) j fun w =>
        { w with pend := w.pend + v.pend } } l s' t →
      CleanEffects E slot cs s (u :: l) s' t
  /-- gone into an unknown target: the target becomes tracked, with the pending -/
  | creates {s u v j w l s' t n req r bv} : u.status.isActive = false →
      VMap.get s.vals u.index = some v → v.pend ≠ 0 → LastTarget cs u.index j →
      VMap.get s.vals j = none → E.node n slot req = some r → bv ∈ r → bv.index = j →
      HasAddress bv.creds w →
      CleanEffects E slot cs { s with
        tick := s.tick + 1
        vals := VMap.insert (gone s.vals u.index) j
          { status := .notSubscribed, acc := 0, pend := v.pend, coll := 0, waddr := w, index := j,
            key := b!"0x" ++ hexEncode bv.pubkey, subType := .manual } } l s' t →
      CleanEffects E slot cs s (u :: l) s' t

/-- First slot at which the cleanup does something, for networks with a first slot. -/
def cleanupFrom (net : Str) : Nat :=
  if net = b!"mainnet" then 10188220 else if net = b!"holesky" then 2720632
  else if net = b!"hoodi" then 1 else 0

/-- First slot from which consolidations exist, for networks with such a slot. -/
def consolidationsFrom (net : Str) : Nat :=
  if net = b!"mainnet" then 11649024 else if net = b!"hoodi" then 65536 else 0

/-- The periodic cleanup at `slot`. -/
inductive CleanupEffect (E : Env) (net : Str) (slot : Nat) (s : State) : State → Prop
  | early : slot < cleanupFrom net → CleanupEffect E net slot s s
  | empty : s.vals = [] → CleanupEffect E net slot s s
  | done {t cs req answer l s1 tot s2} : cleanupFrom net ≤ slot →
      (consolidationsFrom net ≤ slot → E.consol t slot = some cs) →
      (slot < consolidationsFrom net → cs = []) →
      E.node t slot req = some answer →
      (∀ i, (∃ u ∈ answer, u.index = i) ↔ (VMap.get s.vals i).isSome) →
      l.Perm answer →
      CleanEffects E slot cs { s with tick := s.tick + 2 } l s1 tot →
      ((tot ≠ 0 ∧ Shares E net s1 tot s2) ∨ (tot = 0 ∧ s2 = s1)) →
      CleanupEffect E net slot s s2

end Verif
