import Verif.Model.Calls
import Verif.Spec.Submit
/-
What the contract holds and how it answers (Solidity, contract ABI specification, "Function Selector and Argument
Encoding"), with the selectors of the deployed contract as numbers (comments in contract/contract.go).
-/
namespace Verif

/-- What can be read from the contract at one moment. -/
structure PoolContract where
  poolFee : Nat
  feeRecipient : List Nat
  checkpointSize : Nat
  collateral : Nat
  deploymentBlock : Nat
  quorum : Nat
  lastSlot : Nat
  root : List Nat
  members : List (List Nat)
  claimed : List Nat → Nat
  votedHash : List Nat → List Nat
  report : List Nat → Nat × Nat

/-- Everything is within its Solidity type. -/
structure PoolContract.WF (P : PoolContract) : Prop where
  poolFee : P.poolFee < 2 ^ 256
  feeRecipient : IsBytes 20 P.feeRecipient
  checkpointSize : P.checkpointSize < 2 ^ 64
  collateral : P.collateral < 2 ^ 256
  deploymentBlock : P.deploymentBlock < 2 ^ 256
  quorum : P.quorum < 2 ^ 64
  lastSlot : P.lastSlot < 2 ^ 64
  root : IsBytes 32 P.root
  members : ∀ a ∈ P.members, IsBytes 20 a
  number : P.members.length < 2 ^ 64
  claimed : ∀ a, P.claimed a < 2 ^ 256
  votedHash : ∀ a, IsBytes 32 (P.votedHash a)
  report : ∀ h, (P.report h).1 < 2 ^ 64 ∧ (P.report h).2 < 2 ^ 64

/-- What the contract returns when called with some data. -/
inductive PoolAnswers (P : PoolContract) : List Nat → List Nat → Prop
  | poolFee : PoolAnswers P [0x08, 0x9f, 0xe6, 0xaa] (word32 P.poolFee)
  | feeRecipient : PoolAnswers P [0x75, 0xf6, 0x78, 0xa0] (addressWord P.feeRecipient)
  | checkpointSize : PoolAnswers P [0xc7, 0xf7, 0x5d, 0x3f] (word32 P.checkpointSize)
  | collateral : PoolAnswers P [0xf9, 0x35, 0x58, 0xe3] (word32 P.collateral)
  | deploymentBlock : PoolAnswers P [0xcf, 0x00, 0x42, 0x17] (word32 P.deploymentBlock)
  | quorum : PoolAnswers P [0x17, 0x03, 0xa0, 0x18] (word32 P.quorum)
  | lastSlot : PoolAnswers P [0xa1, 0x19, 0xd6, 0x87] (word32 P.lastSlot)
  | root : PoolAnswers P [0x21, 0x78, 0x63, 0xb7] P.root
  | members : PoolAnswers P [0x28, 0x27, 0xac, 0xf3]
      (word32 32 ++ word32 P.members.length ++ P.members.flatMap addressWord)
  | claimed {a} : IsBytes 20 a → PoolAnswers P ([0x98, 0x86, 0xc2, 0xa5] ++ addressWord a) (word32 (P.claimed a))
  | votedHash {a} : IsBytes 20 a → PoolAnswers P ([0xc1, 0x26, 0x96, 0x50] ++ addressWord a) (P.votedHash a)
  | report {h} : IsBytes 32 h →
      PoolAnswers P ([0x03, 0xef, 0x4a, 0xff] ++ h) (word32 (P.report h).1 ++ word32 (P.report h).2)

/-- The node answers every call of the contract at `pool` that exists, at block `block`, as the contract does, or
fails. -/
def Serves (c : EthCall) (pool : List Nat) (block : Option Nat) (P : PoolContract) : Prop :=
  ∀ data out, PoolAnswers P data out → c pool data block = some out ∨ c pool data block = none

/-- No call fails. -/
def Up (c : EthCall) (pool : List Nat) (block : Option Nat) : Prop := ∀ data, c pool data block ≠ none

/-- Repeated reading (`n` attempts, 0: any number) gives the value `v k` of the moment of some attempt `k`, the attempts
before having met a failure; or, after `n` failures, nothing. -/
def Obtains {α : Type} (n : Nat) (c : Nat → EthCall) (pool : List Nat) (block : Option Nat) (x : EthCall → Option α)
    (v : Nat → α) : Prop :=
  ∀ r, Retried n (fun k => x (c k)) 0 r →
    (∃ k, r = some (v k) ∧ ∀ i < k, ¬ Up (c i) pool block) ∨
    (r = none ∧ n ≠ 0 ∧ ∀ i < n, ¬ Up (c i) pool block)

end Verif
