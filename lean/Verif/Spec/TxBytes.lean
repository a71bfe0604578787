import Mathlib.Data.Nat.Digits.Defs
import Verif.Model.Rlp
/-
The encoding of transactions in blocks, as Ethereum defines it: the Yellow Paper, appendix B (RLP) and section 4.2,
and EIP-2718, 2930, 1559, 4844 and 7702. Uses nothing of the model but the types of transactions.
-/
namespace Verif

/-- Yellow Paper, equations 190 and 191: byte strings, and sequences of such trees. -/
inductive Tree
  | str (bs : List Nat)
  | seq (ts : List Tree)

/-- `BE`: a number in as few bytes as possible, the most significant first; no byte for 0. -/
def BE (n : Nat) : List Nat := (Nat.digits 256 n).reverse

/-- `R_b`: strings. -/
def encStr (bs : List Nat) : List Nat :=
  match bs with
  | [b] => if b < 128 then [b] else [129, b]
  | _ =>
    if bs.length < 56 then (128 + bs.length) :: bs
    else (183 + (BE bs.length).length) :: (BE bs.length ++ bs)

/-- `R_l`: sequences, from what encodes the elements. -/
def encSeq (s : List Nat) : List Nat :=
  if s.length < 56 then (192 + s.length) :: s
  else (247 + (BE s.length).length) :: (BE s.length ++ s)

mutual
/-- `RLP` -/
def Tree.enc : Tree → List Nat
  | .str bs => encStr bs
  | .seq ts => encSeq (encTrees ts)
/-- The elements of a sequence one after the other. -/
def encTrees : List Tree → List Nat
  | [] => []
  | t :: ts => t.enc ++ encTrees ts
end

/-- A number is the string of its bytes. -/
def Tree.num (n : Nat) : Tree := .str (BE n)

/-- The recipient: nothing when a contract is created. -/
def Tree.recipient : Option (List Nat) → Tree
  | none => .str []
  | some a => .str a

/-- EIP-2930: `[[address, [key, ...]], ...]` -/
def Tree.access (l : List AccessTuple) : Tree :=
  .seq (l.map fun e => .seq [.str e.address, .seq (e.keys.map .str)])

/-- EIP-7702: `[[chain_id, address, nonce, y_parity, r, s], ...]` -/
def Tree.auths (l : List CodeAuth) : Tree :=
  .seq (l.map fun e => .seq [.num e.chainId, .str e.address, .num e.nonce, .num e.v, .num e.r, .num e.s])

/-- The bytes of a transaction in a block: the type, except for the first kind, and the fields in order. -/
def EthTx.bytes : EthTx → List Nat
  | .legacy n p g t x d v r s =>
    (Tree.seq [.num n, .num p, .num g, .recipient t, .num x, .str d, .num v, .num r, .num s]).enc
  | .accessList c n p g t x d a v r s =>
    1 :: (Tree.seq [.num c, .num n, .num p, .num g, .recipient t, .num x, .str d, .access a,
      .num v, .num r, .num s]).enc
  | .dynamic c n tc fc g t x d a v r s =>
    2 :: (Tree.seq [.num c, .num n, .num tc, .num fc, .num g, .recipient t, .num x, .str d, .access a,
      .num v, .num r, .num s]).enc
  | .blob c n tc fc g t x d a bc bh v r s =>
    3 :: (Tree.seq [.num c, .num n, .num tc, .num fc, .num g, .str t, .num x, .str d, .access a,
      .num bc, .seq (bh.map .str), .num v, .num r, .num s]).enc
  | .setCode c n tc fc g t x d a au v r s =>
    4 :: (Tree.seq [.num c, .num n, .num tc, .num fc, .num g, .str t, .num x, .str d, .access a,
      .auths au, .num v, .num r, .num s]).enc

/-- `k` bytes. -/
def IsBytes (k : Nat) (l : List Nat) : Prop := l.length = k ∧ ∀ x ∈ l, x < 256

/-- An address of 20 bytes and keys of 32. -/
def AccessTuple.WF (e : AccessTuple) : Prop := IsBytes 20 e.address ∧ ∀ k ∈ e.keys, IsBytes 32 k

/-- Numbers of the sizes of EIP-7702. -/
def CodeAuth.WF (e : CodeAuth) : Prop :=
  e.chainId < 2 ^ 256 ∧ IsBytes 20 e.address ∧ e.nonce < 2 ^ 64 ∧ e.v < 2 ^ 8 ∧ e.r < 2 ^ 256 ∧ e.s < 2 ^ 256

/-- A transaction that exists: nonce and gas limit have 64 bits, addresses 20 bytes, keys and hashes 32, and the
numbers of the kinds 3 and 4 have 256 bits. -/
def EthTx.WF : EthTx → Prop
  | .legacy n _ g t _ d _ _ _ =>
    n < 2 ^ 64 ∧ g < 2 ^ 64 ∧ (∀ a, t = some a → IsBytes 20 a) ∧ ∀ x ∈ d, x < 256
  | .accessList _ n _ g t _ d a _ _ _ =>
    n < 2 ^ 64 ∧ g < 2 ^ 64 ∧ (∀ a, t = some a → IsBytes 20 a) ∧ (∀ x ∈ d, x < 256) ∧ ∀ e ∈ a, e.WF
  | .dynamic _ n _ _ g t _ d a _ _ _ =>
    n < 2 ^ 64 ∧ g < 2 ^ 64 ∧ (∀ a, t = some a → IsBytes 20 a) ∧ (∀ x ∈ d, x < 256) ∧ ∀ e ∈ a, e.WF
  | .blob c n tc fc g t x d a bc bh v r s =>
    c < 2 ^ 256 ∧ n < 2 ^ 64 ∧ tc < 2 ^ 256 ∧ fc < 2 ^ 256 ∧ g < 2 ^ 64 ∧ IsBytes 20 t ∧ x < 2 ^ 256
    ∧ (∀ x ∈ d, x < 256) ∧ (∀ e ∈ a, e.WF) ∧ bc < 2 ^ 256 ∧ (∀ h ∈ bh, IsBytes 32 h)
    ∧ v < 2 ^ 256 ∧ r < 2 ^ 256 ∧ s < 2 ^ 256
  | .setCode c n tc fc g t x d a au v r s =>
    c < 2 ^ 256 ∧ n < 2 ^ 64 ∧ tc < 2 ^ 256 ∧ fc < 2 ^ 256 ∧ g < 2 ^ 64 ∧ IsBytes 20 t ∧ x < 2 ^ 256
    ∧ (∀ x ∈ d, x < 256) ∧ (∀ e ∈ a, e.WF) ∧ (∀ e ∈ au, e.WF) ∧ v < 2 ^ 256 ∧ r < 2 ^ 256 ∧ s < 2 ^ 256

/-- The form in which kind 3 travels with its blobs: after the type a list that begins with a list. Blocks never
contain it. -/
def WithBlobs (raw : List Nat) : Prop := ∃ tx rest, raw = 3 :: encSeq (encSeq tx ++ rest)

/-- EIP-4844, networking: a transaction of kind 3 as it travels with its blobs, the commitments to them and their
proofs. After the type comes a list: the list of the fields, and three lists of byte strings. -/
def EthTx.wrapped (t : EthTx) (blobs commitments proofs : List (List Nat)) : List Nat :=
  3 :: encSeq (t.bytes.tail ++ ((Tree.seq (blobs.map .str)).enc ++ ((Tree.seq (commitments.map .str)).enc ++
    (Tree.seq (proofs.map .str)).enc)))

/-- The bytes are this transaction of kind 3 with blobs of 131072 bytes, commitments and proofs of 48. -/
def EthTx.TravelsAs (t : EthTx) (raw : List Nat) : Prop :=
  (∃ c n tc fc g a x d l bc bh v r s, t = .blob c n tc fc g a x d l bc bh v r s) ∧
  ∃ blobs commitments proofs, (∀ e ∈ blobs, IsBytes 131072 e) ∧ (∀ e ∈ commitments, IsBytes 48 e) ∧
    (∀ e ∈ proofs, IsBytes 48 e) ∧ raw = t.wrapped blobs commitments proofs

/-! ### What is signed -/

/-- The chain a transaction names and the parity of its signature (which of two keys signed): EIP-155 for the first
kind, where one number tells both; older transactions name no chain. -/
inductive SignedAs : EthTx → Option Nat → Nat → Prop
  | old {n p g t x d v r s y} (h : v = 27 + y) : SignedAs (.legacy n p g t x d v r s) none y
  | eip155 {n p g t x d v r s c y} (h : v = 2 * c + 35 + y) : SignedAs (.legacy n p g t x d v r s) (some c) y
  | accessList {c n p g t x d a y r s} : SignedAs (.accessList c n p g t x d a y r s) (some c) y
  | dynamic {c n tc fc g t x d a y r s} : SignedAs (.dynamic c n tc fc g t x d a y r s) (some c) y
  | blob {c n tc fc g t x d a bc bh y r s} : SignedAs (.blob c n tc fc g t x d a bc bh y r s) (some c) y
  | setCode {c n tc fc g t x d a au y r s} : SignedAs (.setCode c n tc fc g t x d a au y r s) (some c) y

/-- What the sender signs, when the transaction names a chain or none: everything but the signature. -/
def EthTx.payload (chain : Option Nat) : EthTx → List Nat
  | .legacy n p g t x d _ _ _ =>
    (Tree.seq ([.num n, .num p, .num g, .recipient t, .num x, .str d] ++
      match chain with
      | some c => [.num c, .num 0, .num 0]
      | none => [])).enc
  | .accessList c n p g t x d a _ _ _ =>
    1 :: (Tree.seq [.num c, .num n, .num p, .num g, .recipient t, .num x, .str d, .access a]).enc
  | .dynamic c n tc fc g t x d a _ _ _ =>
    2 :: (Tree.seq [.num c, .num n, .num tc, .num fc, .num g, .recipient t, .num x, .str d, .access a]).enc
  | .blob c n tc fc g t x d a bc bh _ _ _ =>
    3 :: (Tree.seq [.num c, .num n, .num tc, .num fc, .num g, .str t, .num x, .str d, .access a,
      .num bc, .seq (bh.map .str)]).enc
  | .setCode c n tc fc g t x d a au _ _ _ =>
    4 :: (Tree.seq [.num c, .num n, .num tc, .num fc, .num g, .str t, .num x, .str d, .access a, .auths au]).enc

/-- The two numbers of the signature. -/
def EthTx.signature : EthTx → Nat × Nat
  | .legacy _ _ _ _ _ _ _ r s => (r, s)
  | .accessList _ _ _ _ _ _ _ _ _ r s => (r, s)
  | .dynamic _ _ _ _ _ _ _ _ _ _ r s => (r, s)
  | .blob _ _ _ _ _ _ _ _ _ _ _ _ r s => (r, s)
  | .setCode _ _ _ _ _ _ _ _ _ _ _ r s => (r, s)

/-- The same transaction without signature. -/
def EthTx.unsigned : EthTx → EthTx
  | .legacy n p g t x d _ _ _ => .legacy n p g t x d 0 0 0
  | .accessList c n p g t x d a _ _ _ => .accessList c n p g t x d a 0 0 0
  | .dynamic c n tc fc g t x d a _ _ _ => .dynamic c n tc fc g t x d a 0 0 0
  | .blob c n tc fc g t x d a bc bh _ _ _ => .blob c n tc fc g t x d a bc bh 0 0 0
  | .setCode c n tc fc g t x d a au _ _ _ => .setCode c n tc fc g t x d a au 0 0 0

/-- The order of the curve secp256k1. -/
def curveOrder : Nat := 0xfffffffffffffffffffffffffffffffebaaedce6af48a03bbfd25e8cd0364141

/-- EIP-2 and the Yellow Paper, appendix F: signatures that count. -/
def GoodSignature (r s : Nat) : Prop := 0 < r ∧ r < curveOrder ∧ 0 < s ∧ 2 * s < curveOrder

end Verif
