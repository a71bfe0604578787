import Verif.Model.Submit
import Verif.Spec.Logs
import Verif.Spec.Onchain
/-
What the contract makes of a transaction that submits a report.
-/
namespace Verif

/-- The data of a call of `submitReport(uint64,bytes32)`, selector 0xb539f38b (contract/contract.go:1037), as Solidity
encodes and decodes it. -/
def ReportCall (slot : Nat) (root data : List Nat) : Prop :=
  slot < 2 ^ 64 ∧ IsBytes 32 root ∧ data = [0xb5, 0x39, 0xf3, 0x8b] ++ word32 slot ++ root

/-- The data of a transaction. -/
def EthTx.data : EthTx → List Nat
  | .legacy _ _ _ _ _ d .. => d
  | .accessList _ _ _ _ _ _ d .. => d
  | .dynamic _ _ _ _ _ _ _ d .. => d
  | .blob _ _ _ _ _ _ _ d .. => d
  | .setCode _ _ _ _ _ _ _ d .. => d

/-- The nonce of a transaction. -/
def EthTx.nonce : EthTx → Nat
  | .legacy n .. => n
  | .accessList _ n .. => n
  | .dynamic _ n .. => n
  | .blob _ n .. => n
  | .setCode _ n .. => n

/-- `sign` signs with the key whose address is `me`: whatever is signed, the recovery of keys finds `me`, and the
signature counts (EIP-2). -/
def SignsAs (ec : Ecrecover) (sign : Ecsign) (me : List Nat) : Prop :=
  ∀ h y r s, sign h = some (y, r, s) → y ≤ 1 ∧ GoodSignature r s ∧ ec h y r s = some me

/-- Answers within the range of what exists. -/
structure SaneTxNode (N : TxNode) : Prop where
  nonce : N.nonce < 2 ^ 63
  network : N.network < 2 ^ 64
  gas : N.gas < 2 ^ 64
  fee : ∀ b, N.baseFee = some b → N.tip + 2 * b < 2 ^ 256
  price : N.gasPrice < 2 ^ 256

end Verif
