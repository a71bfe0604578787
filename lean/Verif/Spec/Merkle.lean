import Verif.Spec.Env
import Verif.Model.Merkle
import Verif.Spec.Events
/-
What a checkpoint must contain, and what the contract checks. The leaves, the tree and the
contract's check are written without the functions of the Merkle code; `Leaf`, `Frozen` are data types
of the program. Only `Work` mentions the program (`advanceState`, `freeze`), as the thing that runs.
-/
namespace Verif

/-- What the validators with (lower case) address `a` are owed together. -/
def debtOf (s : State) (a : Str) : Int :=
  ((s.vals.filter fun p => lower p.2.waddr = a).map fun p => p.2.acc).sum

/-- The leaves of a checkpoint: the pool fees first, then one leaf per address in strictly increasing
order of the addresses. -/
structure LeavesOf (s : State) (ls : List Leaf) : Prop where
  head : ls.head? = some ⟨lower s.poolFeesAddr, s.poolFees⟩
  sorted : ls.tail.Pairwise fun a b => a.waddr < b.waddr
  sound : ∀ l ∈ ls.tail, (∃ p ∈ s.vals, l.waddr = lower p.2.waddr) ∧ l.bal = debtOf s l.waddr
  complete : ∀ p ∈ s.vals, ∃ l ∈ ls.tail, l.waddr = lower p.2.waddr

/-- Text that is an address: "0x" and 40 hexadecimal digits. -/
def IsAddress (a : Str) : Prop :=
  ∃ d, a = b!"0x" ++ d ∧ d.length = 40 ∧
    ∀ c ∈ d, (48 ≤ c ∧ c ≤ 57) ∨ (97 ≤ c ∧ c ≤ 102) ∨ (65 ≤ c ∧ c ≤ 70)

/-- All addresses in the state are addresses, and no validator belongs to the pool contract itself. -/
structure AddressesOK (s : State) : Prop where
  vals : ∀ p ∈ s.vals, IsAddress p.2.waddr
  fees : IsAddress s.poolFeesAddr
  pool : ∀ p ∈ s.vals, lower p.2.waddr ≠ lower s.poolAddr

/-- The pool fee recipient owns no tracked validator. -/
def FeesApart (s : State) : Prop := ∀ p ∈ s.vals, lower p.2.waddr ≠ lower s.poolFeesAddr

/-- What the contract hashes for a claim: the 20 address bytes and the amount as 32 bytes. -/
structure ClaimBytes (addr : List Nat) (amount : Nat) (bytes : List Nat) : Prop where
  len : addr.length = 20
  small : ∀ x ∈ addr, x < 256
  fits : amount < 2 ^ 256
  bytes : ∃ be : List Nat, bytes = addr ++ be ∧ be.length = 32 ∧ (∀ x ∈ be, x < 256) ∧
    be.foldl (fun n x => n * 256 + x) 0 = amount

/-- Two byte strings, smaller first (OpenZeppelin `MerkleProof._hashPair`). -/
def sortedPair (a b : List Nat) : List Nat := if a < b then a ++ b else b ++ a

/-- One step of the contract's check: hash the pair, smaller first. -/
def hashPair (H : List Nat → List Nat) (a b : List Nat) : List Nat := H (sortedPair a b)

/-- The contract's check: folding the proof over the hashed claim gives the root. -/
def Verifies (H : List Nat → List Nat) (root : List Nat) (proof : List (List Nat))
    (claim : List Nat) : Prop :=
  proof.foldl (hashPair H) (H claim) = root

/-- Everything the contract hashes in that check. -/
def verifierInputs (H : List Nat → List Nat) : List (List Nat) → List Nat → List (List Nat)
  | [], x => [x]
  | p :: ps, x => x :: verifierInputs H ps (sortedPair (H x) p)

/-- A binary hash tree over byte strings. -/
inductive HTree
  | leaf (bytes : List Nat)
  | node (l r : HTree)

namespace HTree
/-- The hash of a tree. -/
def hash (H : List Nat → List Nat) : HTree → List Nat
  | leaf b => H b
  | node l r => hashPair H (l.hash H) (r.hash H)

/-- The byte strings at the leaves. -/
def leaves : HTree → List (List Nat)
  | leaf b => [b]
  | node l r => l.leaves ++ r.leaves

/-- Everything hashed to compute the hash of the tree. -/
def inputs (H : List Nat → List Nat) : HTree → List (List Nat)
  | leaf b => [b]
  | node l r => sortedPair (l.hash H) (r.hash H) :: (l.inputs H ++ r.inputs H)
end HTree

/-- A function that returns 32 bytes. -/
def HashOK (H : List Nat → List Nat) : Prop := ∀ x, (H x).length = 32 ∧ ∀ b ∈ H x, b < 256

/-- The text of an address given as bytes, as stored in the leaves. -/
def AddressText (a : Str) (bytes : List Nat) : Prop := a = b!"0x" ++ hexEncode bytes

/-- The map of checkpoints has distinct keys (true of every Go map); the model lists a map in ascending
order of the keys. -/
def KeysOK (s : State) : Prop := s.committed.Pairwise fun p q => p.1 < q.1

/-- The oracle at work: slots are processed, checkpoints are frozen and the state is saved (which changes
the stored hash; `C30_work_goes_on` shows that a restart from a saved file is such a step too), in any
order. Slot numbers stay below the end of the uint64 range. -/
inductive Work (H : List Nat → List Nat) (E : Env) : Oracle → Oracle → Prop
  | refl (o) : Work H E o o
  | slot {o o1 o2 b n} : Work H E o o1 → advanceState E o1 b = .ok (o2, some n) →
      b.dutySlot + 1 < 2 ^ 64 → Work H E o o2
  | freeze {o o1 s r} : Work H E o o1 → freeze H E o1.st = .ok (s, r) → Work H E o ⟨o1.cfg, s⟩
  | saved {o o1} (x t) : Work H E o o1 → Work H E o ⟨o1.cfg, { o1.st with stateHash := x, tick := t }⟩

/-- Two states with the same debts to the same people. -/
structure SameDebts (s s' : State) : Prop where
  feesAddr : lower s'.poolFeesAddr = lower s.poolFeesAddr
  fees : s'.poolFees = s.poolFees
  debts : ∀ a, debtOf s' a = debtOf s a
  owners : ∀ a, (∃ p ∈ s'.vals, lower p.2.waddr = a) ↔ ∃ p ∈ s.vals, lower p.2.waddr = a

end Verif
