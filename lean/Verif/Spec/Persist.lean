import Verif.Model.Persist
import Verif.Spec.Merkle
/-
What is assumed of the library functions that save and load the state, and of the Go types.
-/
namespace Verif

/-- ASCII text (all text in the state is hexadecimal, decimal or a name). -/
def Ascii (s : Str) : Prop := ∀ c ∈ s, c < 128

/-- The number fits in a Go `uint64`. -/
def U64 (n : Nat) : Prop := n < 2 ^ 64

/-- The list stands for a Go map: each key once; the model lists a map in ascending order of the keys. -/
def Ascending {κ α : Type} [LT κ] (m : List (κ × α)) : Prop := m.Pairwise fun p q => p.1 < q.1

/-- The numbers of a validator fit their Go types. -/
def ValTyped (v : Validator) : Prop := U64 v.index ∧ Ascii v.waddr ∧ Ascii v.key

/-- The same for a summarized block. -/
def SumTyped (b : SumBlock) : Prop := U64 b.slot ∧ U64 b.block ∧ U64 b.index ∧ Ascii b.key ∧ Ascii b.waddr

/-- The same for a frozen checkpoint. -/
def FrozenTyped (f : Frozen) : Prop :=
  U64 f.slot ∧ Ascii f.root ∧ (∀ p ∈ f.vals, U64 p.1 ∧ ValTyped p.2) ∧
  (∀ p ∈ f.leafs, Ascii p.1 ∧ Ascii p.2.waddr) ∧ (∀ p ∈ f.proofs, Ascii p.1 ∧ ∀ x ∈ p.2, Ascii x) ∧
  Ascending f.vals ∧ Ascending f.leafs ∧ Ascending f.proofs

/-- Everything in the state fits its Go type; the model uses unbounded numbers and arbitrary bytes. -/
structure StateTyped (s : State) : Prop where
  hash : Ascii s.stateHash
  latestSlot : U64 s.latestSlot
  latestBlock : U64 s.latestBlock
  nextSlot : U64 s.nextSlot
  vals : ∀ p ∈ s.vals, U64 p.1 ∧ ValTyped p.2
  committed : ∀ p ∈ s.committed, U64 p.1 ∧ FrozenTyped p.2
  subs : ∀ e ∈ s.subs, U64 e.validatorId ∧ U64 e.block ∧ Ascii e.sender
  unsubs : ∀ e ∈ s.unsubs, U64 e.validatorId ∧ U64 e.block ∧ Ascii e.sender
  ether : ∀ e ∈ s.ether, U64 e.block ∧ Ascii e.addr
  donations : ∀ e ∈ s.donations, U64 e.block ∧ Ascii e.addr
  proposed : ∀ b ∈ s.proposed, SumTyped b
  missed : ∀ b ∈ s.missed, SumTyped b
  wrongFee : ∀ b ∈ s.wrongFee, SumTyped b
  fee : -2 ^ 63 ≤ s.fee ∧ s.fee < 2 ^ 63
  poolAddr : Ascii s.poolAddr
  network : Ascii s.network
  poolFeesAddr : Ascii s.poolFeesAddr
  cpSize : U64 s.cpSize
  depBlock : U64 s.depBlock
  depSlot : U64 s.depSlot
  valMap : Ascending s.vals
  commitMap : Ascending s.committed

/-- Everything in the state that is a number fits its Go type, and the maps are maps. -/
structure StateNums (s : State) : Prop where
  latestSlot : U64 s.latestSlot
  latestBlock : U64 s.latestBlock
  nextSlot : U64 s.nextSlot
  vals : ∀ p ∈ s.vals, U64 p.1 ∧ U64 p.2.index
  committed : ∀ p ∈ s.committed, U64 p.1 ∧ U64 p.2.slot ∧ (∀ q ∈ p.2.vals, U64 q.1 ∧ U64 q.2.index) ∧
    Ascending p.2.vals ∧ Ascending p.2.leafs ∧ Ascending p.2.proofs
  subs : ∀ e ∈ s.subs, U64 e.validatorId ∧ U64 e.block
  unsubs : ∀ e ∈ s.unsubs, U64 e.validatorId ∧ U64 e.block
  ether : ∀ e ∈ s.ether, U64 e.block
  donations : ∀ e ∈ s.donations, U64 e.block
  proposed : ∀ b ∈ s.proposed, U64 b.slot ∧ U64 b.block ∧ U64 b.index
  missed : ∀ b ∈ s.missed, U64 b.slot ∧ U64 b.block ∧ U64 b.index
  wrongFee : ∀ b ∈ s.wrongFee, U64 b.slot ∧ U64 b.block ∧ U64 b.index
  fee : -2 ^ 63 ≤ s.fee ∧ s.fee < 2 ^ 63
  cpSize : U64 s.cpSize
  depBlock : U64 s.depBlock
  depSlot : U64 s.depSlot
  valMap : Ascending s.vals
  commitMap : Ascending s.committed

theorem StateTyped.nums {s : State} (h : StateTyped s) : StateNums s where
  latestSlot := h.latestSlot
  latestBlock := h.latestBlock
  nextSlot := h.nextSlot
  vals p hp := ⟨(h.vals p hp).1, (h.vals p hp).2.1⟩
  committed p hp := ⟨(h.committed p hp).1, (h.committed p hp).2.1, fun q hq =>
    ⟨((h.committed p hp).2.2.2.1 q hq).1, ((h.committed p hp).2.2.2.1 q hq).2.1⟩,
    (h.committed p hp).2.2.2.2.2.2⟩
  valMap := h.valMap
  commitMap := h.commitMap
  subs e he := ⟨(h.subs e he).1, (h.subs e he).2.1⟩
  unsubs e he := ⟨(h.unsubs e he).1, (h.unsubs e he).2.1⟩
  ether e he := (h.ether e he).1
  donations e he := (h.donations e he).1
  proposed b hb := ⟨(h.proposed b hb).1, (h.proposed b hb).2.1, (h.proposed b hb).2.2.1⟩
  missed b hb := ⟨(h.missed b hb).1, (h.missed b hb).2.1, (h.missed b hb).2.2.1⟩
  wrongFee b hb := ⟨(h.wrongFee b hb).1, (h.wrongFee b hb).2.1, (h.wrongFee b hb).2.2.1⟩
  fee := h.fee
  cpSize := h.cpSize
  depBlock := h.depBlock
  depSlot := h.depSlot

/-- What is assumed of encoding/json and crypto/sha256: the text written for a state is read back as
the same document, no proper beginning of that text is a document (its braces are open), and a hash has
32 bytes. -/
structure LibOK (L : Lib) : Prop where
  reads : ∀ s, StateTyped s → L.parse (L.print (encState s)) = some (encState s)
  cut : ∀ s, StateTyped s → ∀ p, p <+: L.print (encState s) → p ≠ L.print (encState s) →
    L.parse p = none
  sha : HashOK L.sha

/-- The same state but for the hash written into it and the ghost counter. -/
def SameContent (s s' : State) : Prop :=
  { s with stateHash := [], tick := 0 } = { s' with stateHash := [], tick := 0 }

/-- The configuration and the state agree, as they do in every running oracle. -/
structure CfgMatches (cfg : Config) (s : State) : Prop where
  network : s.network = cfg.network
  poolAddr : s.poolAddr = cfg.poolAddr
  poolFeesAddr : s.poolFeesAddr = cfg.poolFeesAddr
  fee : s.fee = cfg.fee
  collateral : s.collateral = cfg.collateral
  cpSize : s.cpSize = cfg.cpSize
  depBlock : s.depBlock = cfg.depBlock
  depSlot : s.depSlot = cfg.depSlot

/-- The agreed names of the validator states in files and answers. -/
def statusNames : List (Status × Str) :=
  [(.unknownState, b!"unknownstate"), (.active, b!"active"), (.yellowCard, b!"yellowcard"),
   (.redCard, b!"redcard"), (.notSubscribed, b!"notsubscribed"), (.banned, b!"banned"),
   (.untracked, b!"untracked")]

/-- The agreed names of the reward types. -/
def rewardNames : List (RewardType × Str) :=
  [(.unknown, b!"unknownrewardtype"), (.vanila, b!"vanila"), (.mev, b!"mev")]

/-- The agreed names of the block types. -/
def blockNames : List (BlockType × Str) :=
  [(.unknown, b!"unknownblocktype"), (.missed, b!"missedproposal"), (.wrongFee, b!"wrongfeerecipient"),
   (.okPool, b!"okpoolproposal"), (.okPoolBls, b!"okpoolproposalblskeys")]

/-- The agreed names of the subscription types. -/
def subNames : List (SubType × Str) := [(.manual, b!"manual"), (.auto, b!"auto")]

/-- What the oracle is told to do, one thing after the other. -/
inductive Cmd
  | slot (b : FullBlock)
  | freeze
  | save

/-- The oracle does a list of things without stopping. -/
inductive Does (L : Lib) (H : List Nat → List Nat) (E : Env) : Oracle → List Cmd → Oracle → Prop
  | nil (o) : Does L H E o [] o
  | slot {o b o1 n cs o2} : advanceState E o b = .ok (o1, some n) → b.dutySlot + 1 < 2 ^ 64 →
      Does L H E o1 cs o2 → Does L H E o (.slot b :: cs) o2
  | freeze {o s r cs o2} : freeze H E o.st = .ok (s, r) → Does L H E ⟨o.cfg, s⟩ cs o2 →
      Does L H E o (.freeze :: cs) o2
  | save {o cs o2} : Does L H E ⟨o.cfg, hashState L o.st⟩ cs o2 → Does L H E o (.save :: cs) o2

/-- When is an oracle with latest checkpoint `latest` (slot and root; `none`: no checkpoint) in sync with
a chain that shows `root` and `slot`: `some true` and `some false` are answers, `none` an error. -/
def syncAnswer (latest : Option (Nat × Str)) (root : Str) (slot : Nat) : Option Bool :=
  match latest with
  | none => some (decide (lower root = lower b!"0x0000000000000000000000000000000000000000000000000000000000000000"))
  | some (k, r) =>
    if lower root = lower r then (if slot = k then some true else none)
    else (if slot = k then none else some false)

end Verif
