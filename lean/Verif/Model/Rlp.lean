import Verif.Model.Creds
/-
Reading the bytes of transactions: utils/utils.go:30-37 `DecodeTx`, which calls `types.Transaction.UnmarshalBinary`
of go-ethereum v1.15.7 (go.mod:87). Written from the library: rlp/raw.go and rlp/decode.go for the encoding RLP, and
core/types/transaction.go, tx_legacy.go, tx_access_list.go, tx_dynamic_fee.go, tx_blob.go, tx_setcode.go for the
kinds of transactions. The decoder of the library reads the fields from a stream; here a list is first cut into its
elements and the fields are read from them. Both reject the same inputs: every byte belongs to a field.
-/
namespace Verif

/-- An element: whether it is a list, and its content. /repo: utils/utils.go:30-37 (`tx.UnmarshalBinary`) -/
abbrev Item := Bool × List Nat

/-- The number written in bytes, the most significant first (`big.Int.SetBytes`).
/repo: utils/utils.go:30-37 (`tx.UnmarshalBinary`) -/
def beNat (bs : List Nat) : Nat := bs.foldl (fun n b => n * 256 + b) 0

/-- rlp/raw.go `readKind`, `readSize` for the two forms with a separate size of `l` bytes: sizes below 56 and sizes
with leading zeros are rejected, and so is content that is not there. -/
def rlpLong (isList : Bool) (l : Nat) (rest : List Nat) : Option (Item × List Nat) :=
  if rest.length < l then none
  else
    let size := beNat (rest.take l)
    let body := rest.drop l
    if size < 56 ∨ rest.head? = some 0 then none
    else if body.length < size then none
    else some ((isList, body.take size), body.drop size)

/-- rlp/raw.go `Split`: the first element and what follows. -/
def rlpSplit : List Nat → Option (Item × List Nat)
  | [] => none
  | b :: rest =>
    if b < 0x80 then some ((false, [b]), rest)
    else if b < 0xB8 then
      let size := b - 0x80
      if rest.length < size then none
      else if size = 1 ∧ rest.head?.any (· < 128) then none
      else some ((false, rest.take size), rest.drop size)
    else if b < 0xC0 then rlpLong false (b - 0xB7) rest
    else if b < 0xF8 then
      let size := b - 0xC0
      if rest.length < size then none
      else some ((true, rest.take size), rest.drop size)
    else rlpLong true (b - 0xF7) rest

/-- The elements of the content of a list. The number bounds the elements; `rlpItems` gives one more than there can
be. /repo: utils/utils.go:30-37 (`tx.UnmarshalBinary`) -/
def rlpItemsN : Nat → List Nat → Option (List Item)
  | _, [] => some []
  | 0, _ => none
  | n + 1, bs =>
    match rlpSplit bs with
    | none => none
    | some (i, rest) => (rlpItemsN n rest).map (i :: ·)

/-- The elements of the content of a list. /repo: utils/utils.go:30-37 (`tx.UnmarshalBinary`) -/
def rlpItems (bs : List Nat) : Option (List Item) := rlpItemsN bs.length bs

/-- rlp/decode.go `DecodeBytes` into a struct: one list, nothing after it; its elements. -/
def rlpFields (bs : List Nat) : Option (List Item) :=
  match rlpSplit bs with
  | some ((true, content), []) => rlpItems content
  | _ => none

/-- rlp/decode.go `decodeUint`, `ReadUint256`: at most `k` bytes, no leading zero. -/
def decUint (k : Nat) : Item → Option Nat
  | (false, bs) => if bs.length > k ∨ bs.head? = some 0 then none else some (beNat bs)
  | _ => none

/-- rlp/decode.go `decodeBigInt`: any number of bytes, no leading zero. -/
def decBig : Item → Option Nat
  | (false, bs) => if bs.head? = some 0 then none else some (beNat bs)
  | _ => none

/-- rlp/decode.go `decodeByteArray` for an array of `k` bytes, `k` larger than 1. -/
def decArray (k : Nat) : Item → Option (List Nat)
  | (false, bs) => if bs.length = k then some bs else none
  | _ => none

/-- rlp/decode.go `decodeByteSlice`. -/
def decData : Item → Option (List Nat)
  | (false, bs) => some bs
  | _ => none

/-- A pointer to an address with the tag `rlp:"nil"`: nil for the empty string.
/repo: utils/utils.go:30-37 (`tx.UnmarshalBinary`) -/
def decTo : Item → Option (Option (List Nat))
  | (false, []) => some none
  | i => (decArray 20 i).map some

/-- One value for each element. /repo: utils/utils.go:30-37 (`tx.UnmarshalBinary`) -/
def decAll {α : Type} (f : Item → Option α) : List Item → Option (List α)
  | [] => some []
  | i :: is => do
    let a ← f i
    let as ← decAll f is
    some (a :: as)

/-- rlp/decode.go `decodeListSlice`. -/
def decList {α : Type} (f : Item → Option α) : Item → Option (List α)
  | (true, bs) => do
    let is ← rlpItems bs
    decAll f is
  | _ => none

/-- core/types/tx_access_list.go `AccessTuple`: an address and storage keys. -/
structure AccessTuple where
  address : List Nat
  keys : List (List Nat)
  deriving DecidableEq, Repr

/-- core/types/tx_setcode.go `SetCodeAuthorization`. -/
structure CodeAuth where
  chainId : Nat
  address : List Nat
  nonce : Nat
  v : Nat
  r : Nat
  s : Nat
  deriving DecidableEq, Repr

/-- The five kinds of transactions: core/types/tx_legacy.go `LegacyTx`, tx_access_list.go `AccessListTx`,
tx_dynamic_fee.go `DynamicFeeTx`, tx_blob.go `BlobTx`, tx_setcode.go `SetCodeTx`. -/
inductive EthTx
  | legacy (nonce gasPrice gas : Nat) (to : Option (List Nat)) (value : Nat) (data : List Nat) (v r s : Nat)
  | accessList (chainId nonce gasPrice gas : Nat) (to : Option (List Nat)) (value : Nat) (data : List Nat)
      (access : List AccessTuple) (v r s : Nat)
  | dynamic (chainId nonce tipCap feeCap gas : Nat) (to : Option (List Nat)) (value : Nat) (data : List Nat)
      (access : List AccessTuple) (v r s : Nat)
  | blob (chainId nonce tipCap feeCap gas : Nat) (to : List Nat) (value : Nat) (data : List Nat)
      (access : List AccessTuple) (blobFeeCap : Nat) (blobHashes : List (List Nat)) (v r s : Nat)
  | setCode (chainId nonce tipCap feeCap gas : Nat) (to : List Nat) (value : Nat) (data : List Nat)
      (access : List AccessTuple) (auths : List CodeAuth) (v r s : Nat)
  deriving DecidableEq, Repr

/-- One entry of an access list. /repo: utils/utils.go:30-37 (`tx.UnmarshalBinary`) -/
def decTuple : Item → Option AccessTuple
  | (true, bs) =>
    match rlpItems bs with
    | some [a, k] => do
      let a ← decArray 20 a
      let k ← decList (decArray 32) k
      some ⟨a, k⟩
    | _ => none
  | _ => none

/-- One authorization. /repo: utils/utils.go:30-37 (`tx.UnmarshalBinary`) -/
def decAuth : Item → Option CodeAuth
  | (true, bs) =>
    match rlpItems bs with
    | some [c, a, n, v, r, s] => do
      let c ← decUint 32 c
      let a ← decArray 20 a
      let n ← decUint 8 n
      let v ← decUint 1 v
      let r ← decUint 32 r
      let s ← decUint 32 s
      some ⟨c, a, n, v, r, s⟩
    | _ => none
  | _ => none

/-- `LegacyTx` from its fields. /repo: utils/utils.go:30-37 (`tx.UnmarshalBinary`) -/
def decLegacy : List Item → Option EthTx
  | [n, p, g, t, x, d, v, r, s] => do
    let n ← decUint 8 n
    let p ← decBig p
    let g ← decUint 8 g
    let t ← decTo t
    let x ← decBig x
    let d ← decData d
    let v ← decBig v
    let r ← decBig r
    let s ← decBig s
    some (.legacy n p g t x d v r s)
  | _ => none

/-- `AccessListTx` from its fields. /repo: utils/utils.go:30-37 (`tx.UnmarshalBinary`) -/
def decAccessList : List Item → Option EthTx
  | [c, n, p, g, t, x, d, a, v, r, s] => do
    let c ← decBig c
    let n ← decUint 8 n
    let p ← decBig p
    let g ← decUint 8 g
    let t ← decTo t
    let x ← decBig x
    let d ← decData d
    let a ← decList decTuple a
    let v ← decBig v
    let r ← decBig r
    let s ← decBig s
    some (.accessList c n p g t x d a v r s)
  | _ => none

/-- `DynamicFeeTx` from its fields. /repo: utils/utils.go:30-37 (`tx.UnmarshalBinary`) -/
def decDynamic : List Item → Option EthTx
  | [c, n, tc, fc, g, t, x, d, a, v, r, s] => do
    let c ← decBig c
    let n ← decUint 8 n
    let tc ← decBig tc
    let fc ← decBig fc
    let g ← decUint 8 g
    let t ← decTo t
    let x ← decBig x
    let d ← decData d
    let a ← decList decTuple a
    let v ← decBig v
    let r ← decBig r
    let s ← decBig s
    some (.dynamic c n tc fc g t x d a v r s)
  | _ => none

/-- `BlobTx` from its fields. /repo: utils/utils.go:30-37 (`tx.UnmarshalBinary`) -/
def decBlob : List Item → Option EthTx
  | [c, n, tc, fc, g, t, x, d, a, bc, bh, v, r, s] => do
    let c ← decUint 32 c
    let n ← decUint 8 n
    let tc ← decUint 32 tc
    let fc ← decUint 32 fc
    let g ← decUint 8 g
    let t ← decArray 20 t
    let x ← decUint 32 x
    let d ← decData d
    let a ← decList decTuple a
    let bc ← decUint 32 bc
    let bh ← decList (decArray 32) bh
    let v ← decUint 32 v
    let r ← decUint 32 r
    let s ← decUint 32 s
    some (.blob c n tc fc g t x d a bc bh v r s)
  | _ => none

/-- core/types/tx_blob.go `BlobTx.decode`: if the first field is itself a list, the input is the form in which
transactions with their blobs travel between nodes, and the blobs, commitments and proofs are read too. -/
def decBlobEither : List Item → Option EthTx
  | [(true, tx), blobs, commitments, proofs] => do
    let fields ← rlpItems tx
    let t ← decBlob fields
    let _ ← decList (decArray 131072) blobs
    let _ ← decList (decArray 48) commitments
    let _ ← decList (decArray 48) proofs
    some t
  | is => decBlob is

/-- `SetCodeTx` from its fields. /repo: utils/utils.go:30-37 (`tx.UnmarshalBinary`) -/
def decSetCode : List Item → Option EthTx
  | [c, n, tc, fc, g, t, x, d, a, au, v, r, s] => do
    let c ← decUint 32 c
    let n ← decUint 8 n
    let tc ← decUint 32 tc
    let fc ← decUint 32 fc
    let g ← decUint 8 g
    let t ← decArray 20 t
    let x ← decUint 32 x
    let d ← decData d
    let a ← decList decTuple a
    let au ← decList decAuth au
    let v ← decUint 32 v
    let r ← decUint 32 r
    let s ← decUint 32 s
    some (.setCode c n tc fc g t x d a au v r s)
  | _ => none

/-- utils/utils.go:30-37 `DecodeTx`; core/types/transaction.go `UnmarshalBinary`, `decodeTyped`. `none`: an error. -/
def decodeTx : List Nat → Option EthTx
  | [] => none
  | b :: rest =>
    if b > 0x7f then (rlpFields (b :: rest)).bind decLegacy
    else if rest = [] then none
    else match b with
      | 1 => (rlpFields rest).bind decAccessList
      | 2 => (rlpFields rest).bind decDynamic
      | 3 => (rlpFields rest).bind decBlobEither
      | 4 => (rlpFields rest).bind decSetCode
      | _ => none

/-! ### What the oracle asks a decoded transaction -/

/-- `Transaction.Type()`. /repo: utils/utils.go:30-37 (`tx.UnmarshalBinary`) -/
def EthTx.type : EthTx → Nat
  | .legacy .. => 0
  | .accessList .. => 1
  | .dynamic .. => 2
  | .blob .. => 3
  | .setCode .. => 4

/-- `Transaction.To()`. /repo: utils/utils.go:30-37 (`tx.UnmarshalBinary`) -/
def EthTx.to : EthTx → Option (List Nat)
  | .legacy _ _ _ t .. => t
  | .accessList _ _ _ _ t .. => t
  | .dynamic _ _ _ _ _ t .. => t
  | .blob _ _ _ _ _ t .. => some t
  | .setCode _ _ _ _ _ t .. => some t

/-- `Transaction.Value()`. /repo: utils/utils.go:30-37 (`tx.UnmarshalBinary`) -/
def EthTx.value : EthTx → Nat
  | .legacy _ _ _ _ x .. => x
  | .accessList _ _ _ _ _ x .. => x
  | .dynamic _ _ _ _ _ _ x .. => x
  | .blob _ _ _ _ _ _ x .. => x
  | .setCode _ _ _ _ _ _ x .. => x

/-- `Transaction.GasTipCap()`: the gas price before EIP-1559. /repo: utils/utils.go:30-37 (`tx.UnmarshalBinary`) -/
def EthTx.tipCap : EthTx → Nat
  | .legacy _ p .. => p
  | .accessList _ _ p .. => p
  | .dynamic _ _ p .. => p
  | .blob _ _ p .. => p
  | .setCode _ _ p .. => p

/-- `Transaction.GasFeeCap()`: the gas price before EIP-1559. /repo: utils/utils.go:30-37 (`tx.UnmarshalBinary`) -/
def EthTx.feeCap : EthTx → Nat
  | .legacy _ p .. => p
  | .accessList _ _ p .. => p
  | .dynamic _ _ _ p .. => p
  | .blob _ _ _ p .. => p
  | .setCode _ _ _ p .. => p

/-- `Transaction.GasPrice()`: the fee cap since EIP-1559. /repo: utils/utils.go:30-37 (`tx.UnmarshalBinary`) -/
def EthTx.gasPrice : EthTx → Nat := EthTx.feeCap

/-! ### Writing a transaction again, for its hash -/

/-- rlp/encbuffer.go `writeUint64`, rlp/encode.go `putint`: the bytes of a number, the most significant first, without
leading zeros, `k` bytes at most. -/
def minBytesN : Nat → Nat → List Nat
  | 0, _ => []
  | k + 1, n => if n = 0 then [] else minBytesN k (n / 256) ++ [n % 256]

/-- The bytes of a number without leading zeros. /repo: utils/utils.go:30-37 (`tx.UnmarshalBinary`) -/
def minBytes (n : Nat) : List Nat := minBytesN (n.log2 / 8 + 1) n

/-- rlp/encode.go `puthead`: the head of a string (`small` is 0x80) or list (0xC0) of some size. -/
def putHead (small large size : Nat) : List Nat :=
  if size < 56 then [small + size]
  else (large + (minBytes size).length) :: minBytes size

/-- rlp/encbuffer.go `writeBytes`: one byte below 128 stands for itself. -/
def putItem : Item → List Nat
  | (false, bs) => if bs.length = 1 ∧ bs.head?.any (· ≤ 0x7F) then bs else putHead 0x80 0xB7 bs.length ++ bs
  | (true, bs) => putHead 0xC0 0xF7 bs.length ++ bs

/-- rlp/encbuffer.go `list`, `listEnd`: a list with these elements. -/
def listItem (is : List Item) : Item := (true, (is.map putItem).flatten)

/-- A number: rlp/encbuffer.go `writeUint64`, `writeBigInt`, `writeUint256`. -/
def numItem (n : Nat) : Item := (false, minBytes n)

/-- A pointer to an address: the empty string for nil. /repo: utils/utils.go:30-37 (`tx.UnmarshalBinary`) -/
def toItem : Option (List Nat) → Item
  | none => (false, [])
  | some a => (false, a)

/-- An access list. /repo: utils/utils.go:30-37 (`tx.UnmarshalBinary`) -/
def accessItem (l : List AccessTuple) : Item :=
  listItem (l.map fun t => listItem [(false, t.address), listItem (t.keys.map fun k => (false, k))])

/-- A list of authorizations. /repo: utils/utils.go:30-37 (`tx.UnmarshalBinary`) -/
def authItem (l : List CodeAuth) : Item :=
  listItem (l.map fun a =>
    listItem [numItem a.chainId, (false, a.address), numItem a.nonce, numItem a.v, numItem a.r, numItem a.s])

/-- The fields of a transaction, in the order of the structs. /repo: utils/utils.go:30-37 (`tx.UnmarshalBinary`) -/
def EthTx.items : EthTx → List Item
  | .legacy n p g t x d v r s =>
    [numItem n, numItem p, numItem g, toItem t, numItem x, (false, d), numItem v, numItem r, numItem s]
  | .accessList c n p g t x d a v r s =>
    [numItem c, numItem n, numItem p, numItem g, toItem t, numItem x, (false, d), accessItem a, numItem v, numItem r,
      numItem s]
  | .dynamic c n tc fc g t x d a v r s =>
    [numItem c, numItem n, numItem tc, numItem fc, numItem g, toItem t, numItem x, (false, d), accessItem a,
      numItem v, numItem r, numItem s]
  | .blob c n tc fc g t x d a bc bh v r s =>
    [numItem c, numItem n, numItem tc, numItem fc, numItem g, (false, t), numItem x, (false, d), accessItem a,
      numItem bc, listItem (bh.map fun h => (false, h)), numItem v, numItem r, numItem s]
  | .setCode c n tc fc g t x d a au v r s =>
    [numItem c, numItem n, numItem tc, numItem fc, numItem g, (false, t), numItem x, (false, d), accessItem a,
      authItem au, numItem v, numItem r, numItem s]

/-- core/types/transaction.go `Hash`, hashing.go `rlpHash` and `prefixedRlpHash`: what is hashed. -/
def EthTx.preimage (t : EthTx) : List Nat :=
  let body := putItem (listItem t.items)
  if t.type = 0 then body else t.type :: body

/-- `common.Address.String()`: hexadecimal with the checksum of EIP-55 in the case of the letters; `H` is
Keccak-256. /repo: utils/utils.go:30-37 (`tx.UnmarshalBinary`) -/
def checksumHex (H : List Nat → List Nat) (a : List Nat) : List Nat :=
  let hex := hexEncode a
  let hash := H hex
  let nibble (i : Nat) : Nat :=
    let b := hash.getD (i / 2) 0
    if i % 2 = 0 then b / 16 else b % 16
  b!"0x" ++ hex.mapIdx fun i c => if c > 57 ∧ nibble i > 7 then c - 32 else c

end Verif
