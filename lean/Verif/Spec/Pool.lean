import Verif.Spec.Life
import Verif.Spec.Live
import Verif.Spec.Merkle
import Mathlib.Logic.Function.Basic
/-
Several oracles and the contract together. The contract is not part of the repository: what is said of it
here is what the theorems about the whole pool assume of it.
-/
namespace Verif

/-- The books after slot `s`: those of an oracle that is started once, works and is never interrupted. -/
def BooksAt (T : Chain) (V : Nat → Nat → BVal) (K : Nat → List (Nat × Nat)) (cfg : Config) (s : Nat)
    (q : Oracle) : Prop :=
  ∃ E bs, GoodEnv cfg E ∧ ReadsChain V K E ∧ Uncut T E (newOracle cfg) bs q ∧ q.st.latestSlot = s

/-- A member whose oracle runs this program and has shown this trace, whatever happened to it in between. -/
def HonestMember (T : Chain) (V : Nat → Nat → BVal) (K : Nat → List (Nat × Nat)) (H : List Nat → List Nat)
    (cfg : Config) (tr : List LoopEv) : Prop :=
  ∃ P L x, Law.Good P ∧ P.Reads V K ∧ (∀ E, Obeys P E → GoodEnv cfg E) ∧ LibOK L ∧ Life P T L H cfg tr x

/-- `n` different members voted for this root for this slot. -/
def Quorum {ι : Type} (n : Nat) (voted : ι → Nat → List Nat → Prop) (slot : Nat) (root : List Nat) : Prop :=
  ∃ S : List ι, S.Nodup ∧ n ≤ S.length ∧ ∀ i ∈ S, voted i slot root

/-- Honest members vote for what their oracle submits, and the others are too few to decide on their own. -/
structure HonestQuorum {ι : Type} (T : Chain) (V : Nat → Nat → BVal) (K : Nat → List (Nat × Nat))
    (H : List Nat → List Nat) (cfg : Config) (n : Nat) (voted : ι → Nat → List Nat → Prop) (honest : ι → Prop) :
    Prop where
  members : ∀ i, honest i → ∃ tr, HonestMember T V K H cfg tr ∧
    ∀ slot root, voted i slot root → .submit slot (b!"0x" ++ hexEncode root) ∈ tr
  few : ∀ S : List ι, S.Nodup → (∀ i ∈ S, ¬ honest i) → S.length < n

/-- What the books owe, and to whom. -/
inductive OwedTo (s : State) : Str → Int → Prop
  | fees : OwedTo s (lower s.poolFeesAddr) s.poolFees
  | owner {p} : p ∈ s.vals → OwedTo s (lower p.2.waddr) (debtOf s (lower p.2.waddr))

/-- A proof that works because two different byte strings with the same hash are known: one that the contract
hashed to check it and one hashed to build the tree over the claims of the books. -/
def Forged (H : List Nat → List Nat) (s : State) (root : List Nat) (proof : List (List Nat)) (bytes : List Nat) :
    Prop :=
  ∃ t : HTree, t.hash H = root ∧
    (∀ b ∈ t.leaves, ∃ a x addr, OwedTo s a x ∧ AddressText a addr ∧ ClaimBytes addr x.toNat b) ∧
    ∃ u ∈ verifierInputs H proof bytes, ∃ v ∈ t.inputs H, u ≠ v ∧ H u = H v

/-- With this root everybody can claim what the books owe them, and nothing else can be claimed. -/
structure Settles (H : List Nat → List Nat) (s : State) (root : List Nat) : Prop where
  owed : ∀ a x, OwedTo s a x → ∃ proof addr bytes, AddressText a addr ∧ ClaimBytes addr x.toNat bytes ∧
    Verifies H root proof bytes ∧ ∀ y ∈ proof, y.length = 32 ∧ ∀ b ∈ y, b < 256
  only : ∀ a addr amount bytes proof, AddressText a addr → ClaimBytes addr amount bytes →
    (∀ y ∈ proof, y.length = 32) → Verifies H root proof bytes → OwedTo s a amount ∨ Forged H s root proof bytes

/-- The contract: the last accepted root and slot, what each address has claimed so far (by the text of the
address in lower case) and everything it has paid out. -/
structure Pool where
  root : Option (List Nat)
  slot : Nat
  claimed : Str → Nat
  paid : Nat

/-- A claim the contract has accepted, with the root it was checked against. -/
structure Claim where
  root : List Nat
  proof : List (List Nat)
  bytes : List Nat

/-- What the contract does. A root is accepted if a quorum voted for it, for a later slot than the last one.
A claim is accepted if the proof leads to the root; the difference to what was claimed before is paid. -/
inductive PoolRun (H : List Nat → List Nat) (Q : Nat → List Nat → Prop) : List Claim → Pool → Prop
  | deployed : PoolRun H Q [] ⟨none, 0, fun _ => 0, 0⟩
  | report {cs p slot root} : PoolRun H Q cs p → p.slot < slot → Q slot root → root.length = 32 →
      (∀ b ∈ root, b < 256) → PoolRun H Q cs { p with root := some root, slot := slot }
  | claim {cs p root a addr amount proof bytes} : PoolRun H Q cs p → p.root = some root → AddressText a addr →
      ClaimBytes addr amount bytes → (∀ y ∈ proof, y.length = 32) → Verifies H root proof bytes →
      p.claimed a ≤ amount → PoolRun H Q (⟨root, proof, bytes⟩ :: cs)
        { p with claimed := Function.update p.claimed a amount, paid := p.paid + (amount - p.claimed a) }

end Verif
