import Verif.Model.Rlp
import Verif.Model.Keccak
import Verif.Model.Block
/-
From the bytes of a transaction to what the oracle uses of it: the sender (utils/utils.go:39-47 `GetTxSender`, which
calls `types.Sender` of go-ethereum v1.15.7, core/types/transaction_signing.go) and the rest of `Tx`.
-/
namespace Verif

/-- The recovery of the public key on the curve secp256k1 and its address (core/types/transaction_signing.go
`recoverPlain`, crypto/signature_cgo.go `Ecrecover`): hash, parity, r, s. `Verif.Model.Secp` computes it. -/
abbrev Ecrecover := List Nat → Nat → Nat → Nat → Option (List Nat)

/-- crypto/crypto.go `secp256k1N` -/
def secpN : Nat := 115792089237316195423570985008687907852837564279074904382605163141518161494337

/-- crypto/crypto.go `ValidateSignatureValues` with `homestead`. -/
def validSig (y r s : Nat) : Bool :=
  if r < 1 ∨ s < 1 then false
  else if s > secpN / 2 then false
  else r < secpN ∧ s < secpN ∧ (y = 0 ∨ y = 1)

/-- core/types/transaction_signing.go `recoverPlain`: `v` with 27 added. -/
def recoverPlain (ec : Ecrecover) (hash : List Nat) (r s : Nat) (v : Int) : Option (List Nat) :=
  if v.natAbs ≥ 256 then none
  else
    let y := (v.natAbs + 229) % 256
    if validSig y r s then ec hash y r s else none

/-- core/types/transaction.go `isProtectedV`. -/
def protectedV (v : Nat) : Bool := if v < 256 then !(v = 27 ∨ v = 28 ∨ v = 1 ∨ v = 0) else true

/-- core/types/transaction_signing.go `deriveChainId`: 64-bit arithmetic when `v` fits, else large numbers. -/
def deriveChainId (v : Nat) : Nat :=
  if v < 2 ^ 64 then (if v = 27 ∨ v = 28 then 0 else ((v + 2 ^ 64 - 35) % 2 ^ 64) / 2) else (v - 35) / 2

/-- What is hashed and signed: `LegacyTx.sigHash` (without a chain: `HomesteadSigner`), `AccessListTx.sigHash`,
`DynamicFeeTx.sigHash`, `BlobTx.sigHash`, `SetCodeTx.sigHash`; `chain` is the chain of the signer.
/repo: utils/utils.go:39-48 (`types.Sender`) -/
def EthTx.sigBytes (chain : Nat) : EthTx → List Nat
  | .legacy n p g t x d v _ _ =>
    putItem (listItem ([numItem n, numItem p, numItem g, toItem t, numItem x, (false, d)] ++
      if protectedV v then [numItem chain, numItem 0, numItem 0] else []))
  | .accessList _ n p g t x d a _ _ _ =>
    1 :: putItem (listItem [numItem chain, numItem n, numItem p, numItem g, toItem t, numItem x, (false, d),
      accessItem a])
  | .dynamic _ n tc fc g t x d a _ _ _ =>
    2 :: putItem (listItem [numItem chain, numItem n, numItem tc, numItem fc, numItem g, toItem t, numItem x,
      (false, d), accessItem a])
  | .blob _ n tc fc g t x d a bc bh _ _ _ =>
    3 :: putItem (listItem [numItem chain, numItem n, numItem tc, numItem fc, numItem g, (false, t), numItem x,
      (false, d), accessItem a, numItem bc, listItem (bh.map fun h => (false, h))])
  | .setCode _ n tc fc g t x d a au _ _ _ =>
    4 :: putItem (listItem [numItem chain, numItem n, numItem tc, numItem fc, numItem g, (false, t), numItem x,
      (false, d), accessItem a, authItem au])

/-- utils/utils.go:39-47 `GetTxSender`; core/types/transaction_signing.go `EIP155Signer.Sender` for the first kind,
`modernSigner.Sender` for the others. `none`: an error. A chain id of 0 makes the library panic instead; the oracle
then stops as well (oracle/block.go:336-339). -/
def EthTx.sender (ec : Ecrecover) (chain : Nat) (t : EthTx) : Option (List Nat) :=
  let hash := Keccak.keccak (t.sigBytes chain)
  match t with
  | .legacy _ _ _ _ _ _ v r s =>
    if protectedV v = false then recoverPlain ec hash r s v
    else if deriveChainId v ≠ chain then none
    else recoverPlain ec hash r s ((v : Int) - 2 * chain - 8)
  | .accessList c _ _ _ _ _ _ _ v r s => if c ≠ chain then none else recoverPlain ec hash r s ((v : Int) + 27)
  | .dynamic c _ _ _ _ _ _ _ _ v r s => if c ≠ chain then none else recoverPlain ec hash r s ((v : Int) + 27)
  | .blob c _ _ _ _ _ _ _ _ _ _ v r s => if c ≠ chain then none else recoverPlain ec hash r s ((v : Int) + 27)
  | .setCode c _ _ _ _ _ _ _ _ _ v r s => if c ≠ chain then none else recoverPlain ec hash r s ((v : Int) + 27)

/-- What the oracle uses of a decoded transaction: oracle/block.go:326-393 and 492-514. -/
def EthTx.toTx (ec : Ecrecover) (chain : Nat) (t : EthTx) : Tx where
  to := t.to.map (checksumHex Keccak.keccak)
  sender := (t.sender ec chain).map (checksumHex Keccak.keccak)
  value := t.value
  type := t.type
  gasPrice := t.gasPrice
  tipCap := t.tipCap
  feeCap := t.feeCap
  hash := beNat (Keccak.keccak t.preimage)

/-- The transactions of a block: utils/utils.go:30-37 on each. -/
def readTxs (ec : Ecrecover) (chain : Nat) (raws : List (List Nat)) : List (Option Tx) :=
  raws.map fun raw => (decodeTx raw).map (EthTx.toTx ec chain)

end Verif
