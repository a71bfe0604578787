import Verif.Model.Types
/-
What the senders of a block's transactions pay for gas.
-/
namespace Verif

/-- number written by little-endian bytes -/
def leValue : List Nat → Nat
  | [] => 0
  | b :: bs => b + 256 * leValue bs

/-- the base fee in the consensus block -/
def BaseFee.value : BaseFee → Nat
  | .bytesLE bs => leValue bs
  | .u256 n => n

/-- What the sender pays per unit of gas (EIP-1559): legacy and access-list transactions pay their
gas price, the later types the base fee plus their tip, but at most their cap. -/
def effectivePrice (base : Int) (tx : Tx) : Int :=
  if tx.type = 0 ∨ tx.type = 1 then tx.gasPrice else min (base + tx.tipCap) tx.feeCap

/-- Sum over transactions of gas used times what is paid above the base fee. -/
def priorityFees (base : Int) : List (Option Tx) → List Receipt → Int
  | some tx :: txs, r :: rs => r.gasUsed * (effectivePrice base tx - base) + priorityFees base txs rs
  | _, _ => 0

/-- The rules of the execution chain for a block's gas: the header repeats the base fee of the
consensus block, the gas used by the block is the sum over its receipts and fits 63 bits, and every
sender pays at least the base fee. -/
structure ValidGas (c : ConsBlock) (h : Header) (rs : List Receipt) : Prop where
  base : h.baseFee = c.baseFee.value
  u256 : ∀ n, c.baseFee = .u256 n → n < 2 ^ 256
  gas : c.gasUsed = (rs.map (·.gasUsed)).sum
  small : c.gasUsed < 9223372036854775808
  pays : ∀ tx, some tx ∈ c.txs → h.baseFee ≤ effectivePrice h.baseFee tx

/-- The block's gas data, if it was fetched, follows the rules. -/
def GasOK (b : FullBlock) : Prop :=
  ∀ c h rs, b.cons = some c → b.header = some h → b.receipts = some rs → ValidGas c h rs

end Verif
