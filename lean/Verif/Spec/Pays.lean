import Verif.Spec.Events
/-
Whom a block pays.
-/
namespace Verif

/-- builders whose payments are recognised although they are not the fee recipient -/
def KnownBuilder (chain : Nat) (a : Str) : Prop :=
  chain = 1 ∧ SameAddr a b!"0xae0A3D884E746599BD6C893a674E556C36a47f1e"

/-- The last transaction of the block, with a recipient `dest` and sent by `sender`. -/
def LastTx (b : FullBlock) (tx : Tx) (sender dest : Str) : Prop :=
  ∃ c, b.cons = some c ∧ c.txs.getLast? = some (some tx) ∧ tx.sender = some sender ∧
    tx.to = some dest

/-- The block of mainnet slot 10400574, whose payment is hard-coded. -/
def ExceptionBlock (b : FullBlock) : Prop :=
  b.chainId = 1 ∧ (∃ c, b.cons = some c ∧ c.slot = 10400574) ∧ ∃ tx s d, LastTx b tx s d

/-- The block's last transaction is a builder's payment: sent by the fee recipient or a known
builder. -/
def BuilderPays (b : FullBlock) (tx : Tx) (dest : Str) : Prop :=
  ¬ ExceptionBlock b ∧ ∃ c sender, b.cons = some c ∧ LastTx b tx sender dest ∧
    (SameAddr c.feeRecipient sender ∨ KnownBuilder b.chainId sender)

/-- Where a builder's payment arrives: at the contract that reported receiving that amount, if any
did (the first one), else at the transaction's recipient. -/
def ArrivesAt (b : FullBlock) (tx : Tx) (dest a : Str) : Prop :=
  match b.events.ether.find? fun e => e.amount == tx.value with
  | some e => SameAddr e.addr a
  | none => SameAddr dest a

/-- The reward of the block went to address `pool`. -/
def PaidPool (b : FullBlock) (pool : Str) : Prop :=
  ∃ c, b.cons = some c ∧
    ((ExceptionBlock b ∧ SameAddr b!"0xadfb8d27671f14f297ee94135e266aaff8752e35" pool) ∨
     (∃ tx dest, BuilderPays b tx dest ∧ ArrivesAt b tx dest pool) ∨
     (¬ ExceptionBlock b ∧ (∀ tx dest, ¬ BuilderPays b tx dest) ∧ SameAddr c.feeRecipient pool))

/-- Validator `i` proposed the block and its reward went to the pool; it has an address. -/
def PaysPool (b : FullBlock) (pool : Str) (i : Nat) (w : Str) : Prop :=
  b.dutyIndex = i ∧ PaidPool b pool ∧ HasAddress b.validator.creds w

/-- Validator `i` proposed the block and its reward did not go to the pool. -/
def PaysElsewhere (b : FullBlock) (pool : Str) (i : Nat) : Prop :=
  b.dutyIndex = i ∧ b.cons ≠ none ∧ ¬ PaidPool b pool

/-- Validator `i` was to propose in this slot and there is no block. -/
def Misses (b : FullBlock) (i : Nat) : Prop := b.dutyIndex = i ∧ b.cons = none

end Verif
