import Verif.Model.Startup
import Verif.Spec.Onchain
/-
What start-up is supposed to achieve, in terms of the ABI encoding, of times and of the chain.
-/
namespace Verif

/-- The number `x` in `n` bytes, most significant first. -/
def beBytes : Nat → Nat → List Nat
  | 0, _ => []
  | n + 1, x => x / 256 ^ n % 256 :: beBytes n x

/-- A call `initialize(governance, collateral, fee, recipient, checkpoint size, quorum)`. -/
structure InitCall where
  governance : Nat
  collateral : Nat
  fee : Nat
  recipient : Nat
  cpSize : Nat
  quorum : Nat

/-- The arguments fit the words of the ABI (the two last ones are of type `uint64`). -/
structure InitCall.Typed (a : InitCall) : Prop where
  governance : a.governance < 2 ^ 256
  collateral : a.collateral < 2 ^ 256
  fee : a.fee < 2 ^ 256
  recipient : a.recipient < 2 ^ 256
  cpSize : a.cpSize < 2 ^ 64
  quorum : a.quorum < 2 ^ 64

/-- The call as the ABI encodes it. -/
def InitCall.encode (a : InitCall) : List Nat :=
  [0x15, 0x1e, 0x4d, 0x3d] ++ beBytes 32 a.governance ++ beBytes 32 a.collateral ++ beBytes 32 a.fee ++
    beBytes 32 a.recipient ++ beBytes 32 a.cpSize ++ beBytes 32 a.quorum

/-- At position `n` the data contains the encoding of the call `a`. -/
def Carries (data : List Nat) (n : Nat) (a : InitCall) : Prop :=
  a.Typed ∧ ∃ pre tail, pre.length = n ∧ data = pre ++ a.encode ++ tail

/-- The text (40 digits of any case, with or without prefix) names these 20 bytes. -/
def NamesAddress (s : Str) (bs : List Nat) : Prop :=
  bs.length = 20 ∧ ∃ d, (s = d ∨ s = 48 :: 120 :: d ∨ s = 48 :: 88 :: d) ∧ HexText (lower d) bs

/-- The transaction that initialises the pool at address `pool` with the call `a`: a call of the pool, or a
contract creation whose data contains the call, and no other one before it. -/
def Initialises (pool : List Nat) (a : InitCall) (tx : RawTx) : Prop :=
  (tx.to = some pool ∧ Carries tx.data 0 a) ∨
  (tx.to = none ∧ ∃ n, Carries tx.data n a ∧ ∀ m < n, ∀ a', ¬ Carries tx.data m a')

/-- A transaction that could be taken for the initialisation: a call of the pool's `initialize`, or a
contract creation that contains an encoded call anywhere. -/
def Decoy (pool : List Nat) (tx : RawTx) : Prop :=
  (tx.to = some pool ∧ tx.data.take 4 = [0x15, 0x1e, 0x4d, 0x3d]) ∨ (tx.to = none ∧ ∃ n a, Carries tx.data n a)

/-- Data consists of bytes. -/
def RawTx.Bytes (tx : RawTx) : Prop := ∀ b ∈ tx.data, b < 256

/-- Two start-ups look at the same chain: everything that lies in the past is the same. The parameters of
the contract are read as they are now and may differ. -/
def SamePast (W W' : StartWorld) : Prop :=
  W.execChain = W'.execChain ∧ W.consChain = W'.consChain ∧ W.genesis = W'.genesis ∧
    W.depBlock = W'.depBlock ∧ W.block = W'.block ∧ W.cons = W'.cons

/-- The three parameters of the contract that start-up reads as they are now are the same. -/
def SameParameters (W W' : StartWorld) : Prop :=
  W.cpSize = W'.cpSize ∧ W.feeAddr = W'.feeAddr ∧ W.collateral = W'.collateral

/-- The chains the oracle supports. -/
inductive Supported : Nat → Str → Prop
  | mainnet : Supported 1 b!"mainnet"
  | goerli : Supported 5 b!"goerli"
  | holesky : Supported 17000 b!"holesky"
  | hoodi : Supported 560048 b!"hoodi"

/-- An address as the command line accepts it: 40 digits, with or without prefix. -/
def PoolArgument (s : Str) : Prop :=
  ∃ d, (s = d ∨ s = 48 :: 120 :: d ∨ s = 48 :: 88 :: d) ∧ d.length = 40 ∧
    ∀ c ∈ d, (48 ≤ c ∧ c ≤ 57) ∨ (97 ≤ c ∧ c ≤ 102) ∨ (65 ≤ c ∧ c ≤ 70)

/-- The pieces of a comma separated list: none contains a comma, together they give the text. -/
def Pieces (s : Str) (ps : List Str) : Prop :=
  ps ≠ [] ∧ (∀ p ∈ ps, 44 ∉ p) ∧ List.intercalate [44] ps = s

/-- What the command line must satisfy, and the configuration that results. -/
structure GoodFlags (urlOk : Str → Bool) (f : Flags) (c : CliConfig) : Prop where
  key : if f.dryRun then f.keyFile = [] ∧ f.keyPass = [] else f.keyFile ≠ [] ∧ f.keyPass ≠ []
  pool : PoolArgument f.pool
  relayers : Pieces f.relayers c.relayers
  https : ∀ r ∈ c.relayers, (∃ t, r = b!"https://" ++ t) ∧ urlOk r = true
  same : c = { dryRun := f.dryRun, keyFile := f.keyFile, keyPass := f.keyPass, pool := f.pool,
               relayers := c.relayers }

end Verif
