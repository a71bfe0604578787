import Verif.Model.Types
/-
Assumptions about single blocks.
-/
namespace Verif

/-- A missed proposal carries no payments (there is no execution block). FetchFullBlock
(oracle/onchain.go:930-1090) only fetches events when there is a block. -/
def NoPaymentsIfMissed (b : FullBlock) : Prop := b.cons = none → b.events.ether = []

/-- `a` is the value of the block's last transaction, the one in which builders pay (or the
hard-coded payment of mainnet slot 10400574). -/
def LastPayment (b : FullBlock) (a : Int) : Prop :=
  (∃ c tx, b.cons = some c ∧ c.txs.getLast? = some (some tx) ∧ tx.value = a) ∨
    a = 177043568463114308

/-- No two payments to the pool in this block have the same amount as its last transaction. -/
def DistinctPayments (b : FullBlock) : Prop :=
  ∀ a, LastPayment b a → (b.events.ether.filter fun e => e.amount = a).length ≤ 1

/-- All amounts that arrive with the block are non-negative. -/
def NonNegPayments (b : FullBlock) : Prop :=
  (∀ e ∈ b.events.ether, 0 ≤ e.amount) ∧ (∀ e ∈ b.events.subs, 0 ≤ e.collateral)

/-- The credentials in the block are bytes. -/
def BytesOK (b : FullBlock) : Prop :=
  (∀ x ∈ b.validator.creds, x < 256) ∧ ∀ v, some v ∈ b.valsSubs → ∀ x ∈ v.creds, x < 256

/-- A lower-case 0x-prefixed address of 40 hexadecimal digits. -/
def WellFormed (w : Str) : Prop :=
  ∃ digits, w = b!"0x" ++ digits ∧ digits.length = 40 ∧
    ∀ c ∈ digits, (48 ≤ c ∧ c ≤ 57) ∨ (97 ≤ c ∧ c ≤ 102)

end Verif
