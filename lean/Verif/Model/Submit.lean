import Verif.Model.TxDecode
import Verif.Model.Logs
import Verif.Model.Onchain
/-
The transaction in which a root is submitted, down to its bytes: oracle/onchain.go:1719-1829
`UpdateContractMerkleRoot`, contract/contract.go:1037-1042 `SubmitReport`, and of go-ethereum v1.15.7
accounts/abi/bind/base.go `transact`, `createDynamicTx`, `createLegacyTx`, accounts/abi/bind/auth.go
`NewKeyedTransactorWithChainID`, core/types/transaction_signing.go `SignatureValues`. And the answers of the contract to
`RewardsRoot` and `LastConsolidatedSlot`, oracle/onchain.go:787-830.
-/
namespace Verif

/-- contract/contract.go:1039 -/
def sigReport : Str := b!"submitReport(uint64,bytes32)"

/-- accounts/abi/pack.go `packNum`, common/math/big.go `U256Bytes`: 32 bytes. -/
def packUint (n : Nat) : List Nat := List.replicate (32 - (minBytes n).length) 0 ++ minBytes n

/-- accounts/abi/abi.go `Pack`: the first four bytes of the hash of the signature, then the arguments; a `[32]byte` is
written as it is. -/
def reportData (slot : Nat) (root : List Nat) : List Nat :=
  (Keccak.keccak sigReport).take 4 ++ packUint slot ++ root

/-- What the execution client answers while the transaction is made: `PendingNonceAt`, `NetworkID`, the base fee of the
latest header (none before EIP-1559), `SuggestGasTipCap`, `SuggestGasPrice`, `EstimateGas`.
/repo: oracle/onchain.go:1748-1790 -/
structure TxNode where
  nonce : Nat
  network : Nat
  baseFee : Option Nat
  tip : Nat
  gasPrice : Nat
  gas : Nat

/-- oracle/onchain.go:1772 `big.NewInt(int64(nonce))`, then `opts.Nonce.Uint64()`, which of a negative number takes the
absolute value. -/
def sentNonce (nonce : Nat) : Nat := (i64 nonce).natAbs

/-- oracle/onchain.go:1774-1783 leaves prices and gas to the library: `createDynamicTx` allows for twice the base fee,
`createLegacyTx` is used without base fee. -/
def reportTx (N : TxNode) (pool data : List Nat) : EthTx :=
  match N.baseFee with
  | some b => .dynamic 0 (sentNonce N.nonce) N.tip (N.tip + 2 * b) N.gas (some pool) 0 data [] 0 0 0
  | none => .legacy (sentNonce N.nonce) N.gasPrice N.gas (some pool) 0 data 0 0 0

/-- core/types/transaction.go `WithSignature` with the latest signer of a chain: the first kind tells chain and parity
in one number, the others have fields for them. -/
def EthTx.withSignature (chain y r s : Nat) : EthTx → EthTx
  | .legacy n p g t x d _ _ _ => .legacy n p g t x d (y + 35 + 2 * chain) r s
  | .accessList _ n p g t x d a _ _ _ => .accessList chain n p g t x d a y r s
  | .dynamic _ n tc fc g t x d a _ _ _ => .dynamic chain n tc fc g t x d a y r s
  | .blob _ n tc fc g t x d a bc bh _ _ _ => .blob chain n tc fc g t x d a bc bh y r s
  | .setCode _ n tc fc g t x d a au _ _ _ => .setCode chain n tc fc g t x d a au y r s

/-- crypto/signature_cgo.go `Sign` with the key of the oracle: parity, r, s. -/
abbrev Ecsign := List Nat → Option (Nat × Nat × Nat)

/-- The bytes sent to the execution client: oracle/onchain.go:1759-1790, `bind.NewKeyedTransactorWithChainID`, which
hashes, signs and adds the signature, and `SendTransaction`, which writes the transaction like a block does. -/
def reportRaw (sign : Ecsign) (N : TxNode) (pool : List Nat) (slot : Nat) (root : List Nat) : Option (List Nat) :=
  let t := reportTx N pool (reportData slot root)
  match sign (Keccak.keccak ((t.withSignature N.network 0 0 0).sigBytes N.network)) with
  | none => none
  | some (y, r, s) => some (t.withSignature N.network y r s).preimage

/-- accounts/abi/argument.go `Unpack`, accounts/abi/abi.go `getArguments`: the data returned by a call is a number of
whole words; the first. -/
def returnedWord (out : List Nat) : Option (List Nat) :=
  if out.length % 32 ≠ 0 then none else logWord out 0

/-- oracle/onchain.go:787-807 `GetRewardsRoot`: the text of the `bytes32`. -/
def returnedRoot (out : List Nat) : Option Str := (returnedWord out).map hexutilEncode

/-- oracle/onchain.go:809-830 `GetLastConsolidatedSlot`: a `uint64`. -/
def returnedSlot (out : List Nat) : Option Nat := do
  let w ← returnedWord out
  if beNat w < 2 ^ 64 then some (beNat w) else none

end Verif
