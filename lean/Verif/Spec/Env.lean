import Verif.Model.Advance
/-
Assumptions about the environment, and histories. These are the words in which the property
theorems are stated.
-/
namespace Verif

/-- What Go guarantees: a loop over a map visits every entry exactly once, and a map returned by
the beacon client has each validator index at most once. -/
structure ValidEnv (E : Env) : Prop where
  perm : ∀ t n, (E.perm t n).Perm (List.range n)
  nodup : ∀ t slot req r, E.node t slot req = some r → (r.map (·.index)).Nodup

/-- The beacon node only returns validators it was asked for. -/
def ExactEnv (E : Env) : Prop :=
  ∀ t slot req r, E.node t slot req = some r → ∀ v ∈ r, v.index ∈ req

/-- No validator is consolidated into itself. On the real chain such a request only switches the
credentials and never becomes a pending consolidation. -/
def NoSelfConsol (E : Env) : Prop :=
  ∀ t slot cs, E.consol t slot = some cs → ∀ p ∈ cs, p.1 ≠ p.2

/-- Effective balances below 2^63 Gwei (always true on a real chain: 2^63 Gwei is more than nine
billion ETH). -/
def SaneBalances (E : Env) : Prop :=
  ∀ t slot req r, E.node t slot req = some r → ∀ v ∈ r, v.effBal < 9223372036854775808

/-- The fork1 distribution rule, or a later one, is in force at this slot. -/
def PostFork1 (net : Str) (slot : Nat) : Prop :=
  (net = b!"mainnet" ∧ 10188220 ≤ slot) ∨ (net = b!"holesky" ∧ 2720632 ≤ slot) ∨
    (net = b!"hoodi" ∧ 1 ≤ slot)

/-- The electra distribution rule is in force at this slot. -/
def PostElectra (net : Str) (slot : Nat) : Prop :=
  (net = b!"mainnet" ∧ 11649024 ≤ slot) ∨ (net = b!"hoodi" ∧ 65536 ≤ slot)

/-- Networks for which the program knows the distribution rules. -/
def KnownNet (net : Str) : Prop := net = b!"mainnet" ∨ net = b!"holesky" ∨ net = b!"hoodi"

instance (net slot) : Decidable (PostFork1 net slot) := by unfold PostFork1; infer_instance
instance (net slot) : Decidable (PostElectra net slot) := by unfold PostElectra; infer_instance
instance (net) : Decidable (KnownNet net) := by unfold KnownNet; infer_instance

/-- The beacon node answers every non-empty request, with exactly the requested validators, all of
them with a positive effective balance. -/
def GoodNode (E : Env) : Prop :=
  ∀ t slot req, req ≠ [] → ∃ r, E.node t slot req = some r ∧
    (∀ i ∈ req, ∃ v ∈ r, v.index = i) ∧
    ∀ v ∈ r, v.index ∈ req ∧ 0 < v.effBal ∧ v.effBal < 9223372036854775808

/-- Conditions under which a distribution cannot produce negative shares. -/
def GoodRewards (E : Env) (net : Str) (s : State) : Prop :=
  0 ≤ s.fee ∧ PostFork1 net s.nextSlot ∧ SaneBalances E

/-- The credentials the beacon node returns are bytes. -/
def GoBytes (E : Env) : Prop :=
  ∀ t slot req r, E.node t slot req = some r → ∀ v ∈ r, ∀ x ∈ v.creds, x < 256

/-- Validator maps have distinct keys (true of every Go map). -/
def MapOK (s : State) : Prop := s.vals.Pairwise fun p q => p.1 < q.1

/-- `Hist E o bs o'`: starting from `o`, the blocks `bs` were processed one after the other, all
successfully, and the oracle is now `o'`. -/
inductive Hist (E : Env) : Oracle → List FullBlock → Oracle → Prop
  | nil (o) : Hist E o [] o
  | cons {o b o1 n bs o2} : advanceState E o b = .ok (o1, some n) → Hist E o1 bs o2 →
      Hist E o (b :: bs) o2

end Verif
