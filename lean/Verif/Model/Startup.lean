import Verif.Model.Block
import Verif.Model.Hex
import Verif.Model.Onchain
import Verif.Model.Advance
/-
What happens before the first slot: the command line (config/config.go), the connection to the two nodes
and the parameters read from the chain (oracle/onchain.go:78-166, 399-480, 1094-1293).
-/
namespace Verif

/-! ### Command line -/

/-- The flags of config/config.go:35-51 that decide anything. -/
structure Flags where
  dryRun : Bool
  keyFile : Str
  keyPass : Str
  pool : Str
  relayers : Str
  deriving DecidableEq, Repr

/-- config/config.go:14-27 `CliConfig` (the fields that decide anything). -/
structure CliConfig where
  dryRun : Bool
  keyFile : Str
  keyPass : Str
  pool : Str
  relayers : List Str
  deriving DecidableEq, Repr

/-- Go's `strings.Split(s, ",")`: a text without a comma is one piece, also if it is empty.
/repo: config/config.go:81 -/
def splitComma : Str → List Str
  | [] => [[]]
  | c :: cs =>
    if c = 44 then [] :: splitComma cs
    else match splitComma cs with
      | [] => [[c]]
      | p :: ps => (c :: p) :: ps

/-- config/config.go:91-101, the loop over the relayers. `urlOk`: `url.Parse` accepts the text. -/
def relayersOk (urlOk : Str → Bool) : List Str → Bool
  | [] => true
  | e :: rest =>
    if e = [] then false
    else if !hasPrefix b!"https://" e then false
    else if !urlOk e then false
    else relayersOk urlOk rest

/-- config/config.go:33-119 `NewCliConfig` after parsing the flags; `none`: an error, on which main stops.
`-version` is left out. -/
def newCliConfig (urlOk : Str → Bool) (f : Flags) : Option CliConfig :=
  if !f.dryRun && f.keyFile = [] then none
  else if !f.dryRun && f.keyPass = [] then none
  else if f.dryRun && f.keyFile ≠ [] then none
  else if f.dryRun && f.keyPass ≠ [] then none
  else if !isHexAddress f.pool then none
  else
    let rs := splitComma f.relayers
    if rs.length = 0 || (rs.length = 1 && rs.head? = some []) then none
    else if !relayersOk urlOk rs then none
    else some { dryRun := f.dryRun, keyFile := f.keyFile, keyPass := f.keyPass, pool := f.pool, relayers := rs }

/-! ### The initial pool fee -/

/-- A transaction of an execution block as `decodeInitialPoolFee` reads it: the 20 bytes of the recipient
(`none`: contract creation) and the data. /repo: oracle/onchain.go:408-449 -/
structure RawTx where
  to : Option (List Nat)
  data : List Nat
  deriving DecidableEq, Repr

/-- go-ethereum `common.HexToAddress`: `FromHex` (prefix removed, an odd number of digits padded, the error
of the decoder dropped), then the last 20 bytes, padded on the left. /repo: oracle/onchain.go:146, 420 -/
def hexToAddress (s : Str) : List Nat :=
  let d := if has0xPrefix s then s.drop 2 else s
  let d := if d.length % 2 = 1 then 48 :: d else d
  let b := hex2Bytes d
  let b := b.drop (b.length - 20)
  List.replicate (20 - b.length) 0 ++ b

/-- The `i`-th 32-byte word of ABI encoded data. /repo: oracle/onchain.go:451-480 -/
def abiWord (data : List Nat) (i : Nat) : List Nat := (data.drop (32 * i)).take 32

/-- go-ethereum accounts/abi (v1.15.7) `Arguments.Unpack` for the six static arguments of `initialize`
(address, uint256, uint256, address, uint64, uint64; contract/contract.go:955), reduced to the third:
the data must have six words, the two `uint64` words must fit 64 bits; the upper bytes of the words of the
addresses are ignored, as are bytes behind the sixth word. -/
def unpackPoolFee (data : List Nat) : Option Nat :=
  if data.length < 192 then none
  else if setBytes (abiWord data 4) ≥ 18446744073709551616 then none
  else if setBytes (abiWord data 5) ≥ 18446744073709551616 then none
  else some (setBytes (abiWord data 2))

/-- oracle/onchain.go:451-465 `decodePoolFeeFromInitArgs`; `int(poolFee.Int64())` keeps the low 64 bits. -/
def poolFeeFromInitArgs (data : List Nat) : Option Int :=
  (unpackPoolFee data).map fun n => i64 n

/-- oracle/onchain.go:469-480 `findInitializeInCreationData`; the selector has four bytes. -/
def findInitialize (sel : List Nat) : List Nat → Option Int
  | [] => none
  | c :: cs =>
    if (c :: cs).take 4 = sel then
      match poolFeeFromInitArgs ((c :: cs).drop 4) with
      | some fee => some fee
      | none => findInitialize sel cs
    else findInitialize sel cs

/-- oracle/onchain.go:408-448 `decodeInitialPoolFee`; `none`: an error. `sel`: the selector of `initialize`,
0x151e4d3d (contract/contract.go:953). The ABI is that of the contract, so `initialize` is in it and
`MethodById` finds it by its selector. -/
def decodeInitialPoolFee (sel : List Nat) (pool : Str) : List RawTx → Option Int
  | [] => none
  | tx :: rest =>
    if tx.data.length < 4 then decodeInitialPoolFee sel pool rest
    else match tx.to with
      | some a =>
        if a = hexToAddress pool then
          if tx.data.take 4 = sel then poolFeeFromInitArgs (tx.data.drop 4)
          else decodeInitialPoolFee sel pool rest
        else decodeInitialPoolFee sel pool rest
      | none =>
        match findInitialize sel tx.data with
        | some fee => some fee
        | none => decodeInitialPoolFee sel pool rest

/-- contract/contract.go:953 -/
def initializeSelector : List Nat := [0x15, 0x1e, 0x4d, 0x3d]

/-! ### The configuration -/

/-- An execution block (fields used). /repo: oracle/onchain.go:381-449 -/
structure ExecBlock where
  time : Nat
  txs : List RawTx

/-- What the nodes and the contract answer while the oracle starts. `none`: the request failed.
/repo: oracle/onchain.go:78-167, 1138-1290 -/
structure StartWorld where
  /-- `ExecutionClient.ChainID`, a big integer -/
  execChain : Option Nat
  /-- chain id of `ConsensusClient.DepositContract` -/
  consChain : Option Nat
  /-- genesis time in seconds -/
  genesis : Option Nat
  /-- balance of the pool -/
  balance : Option Int
  /-- `DeploymentBlockNumber` of the contract -/
  depBlock : Option Nat
  /-- `BlockByNumber` -/
  block : Nat → Option ExecBlock
  /-- `GetConsensusBlockAtSlot`; `some none`: nothing at that slot -/
  cons : Nat → Option (Option ConsBlock)
  /-- `CheckpointSlotSize` of the contract, now -/
  cpSize : Option Nat
  /-- `PoolFeeRecipient` of the contract, now -/
  feeAddr : Option Str
  /-- `SubscriptionCollateral` of the contract, now -/
  collateral : Option Int
  /-- `GetAllOracleMembers` and `GetQuorum` succeed -/
  members : Bool

/-- `if err != nil { log.Fatal }`. /repo: main.go:39-197; oracle/onchain.go:1138-1290 -/
def orFatal {α : Type} : Option α → M α
  | some a => .ok a
  | none => .error .fatal

/-- oracle/onchain.go:43 -/
def goerliChainId : Nat := 5

/-- oracle/onchain.go:1156-1167; `none`: not supported. -/
def networkOf (chain : Nat) : Option Str :=
  if chain = mainnetChainId then some b!"mainnet"
  else if chain = goerliChainId then some b!"goerli"
  else if chain = holeskyChainId then some b!"holesky"
  else if chain = hoodiChainId then some b!"hoodi"
  else none

/-- oracle/onchain.go:1217-1220. -/
def defaultFee (network : Str) : Option Int :=
  if network = b!"mainnet" then some 700
  else if network = b!"hoodi" then some 1000
  else none

/-- oracle/onchain.go:1138-1293 `GetConfigFromContract`. `uint64(chainId.Int64())` keeps the low 64 bits; a
nil consensus block is dereferenced. -/
def configFromContract (W : StartWorld) (cli : CliConfig) : M Config := do
  let execChain ← orFatal W.execChain
  let consChain ← orFatal W.consChain
  if consChain ≠ u64 execChain then .error .fatal
  else do
    let network ← orFatal (networkOf consChain)
    let genesis ← orFatal W.genesis
    let _ ← orFatal W.balance
    let depBlock ← orFatal W.depBlock
    let block ← orFatal (W.block depBlock)
    let depSlot := sub64 block.time genesis / 12
    match ← orFatal (W.cons depSlot) with
    | none => .error .panic
    | some c => do
      let number ← c.exec (·.number)
      if number ≠ u64 depBlock then .error .fatal
      else do
        let fee ← (match decodeInitialPoolFee initializeSelector cli.pool block.txs with
          | some f => .ok f
          | none => orFatal (defaultFee network))
        let cpSize ← orFatal W.cpSize
        let feeAddr ← orFatal W.feeAddr
        let collateral ← orFatal W.collateral
        if !W.members then .error .fatal
        else .ok { network := network, poolAddr := cli.pool, depSlot := depSlot, depBlock := u64 depBlock,
                   cpSize := cpSize, fee := fee, poolFeesAddr := feeAddr, dryRun := cli.dryRun,
                   collateral := collateral }

/-- oracle/onchain.go:1094-1136 `GetSlotByBlock`; `.ok none`: an error. -/
def slotByBlock (W : StartWorld) (number genesis : Nat) : M (Option Nat) :=
  match W.block number with
  | none => .ok none
  | some block =>
    match W.cons (sub64 block.time genesis / 12) with
    | none => .ok none
    | some none => .ok none
    | some (some c) => do
      let n ← c.exec (·.number)
      if n ≠ u64 number then .ok none
      else do
        let slot ← c.base (·.slot)
        .ok (some slot)

/-- What `NewOnchain` can return. `nilNil`: a nil pointer and a nil error. /repo: oracle/onchain.go:78-167 -/
inductive Dialled | err | nilNil | ok (chainId : Nat)
  deriving DecidableEq, Repr

/-- oracle/onchain.go:78-166 `NewOnchain`, reduced to the chain ids: `up` says that all requests succeed.
If the ids differ, line 112 wraps a nil error, which is nil again. -/
def newOnchain (up : Bool) (execChain consChain : Nat) : Dialled :=
  if !up then .err
  else if consChain ≠ u64 execChain then .nilNil
  else .ok (u64 execChain)

/-- What the execution client answers about the updater's account (main.go:101-124). -/
structure Updater where
  /-- `IsAddressWhitelisted` -/
  whitelisted : Option Bool
  /-- `GetAddressEthBalance` -/
  balance : Option Int

/-- main.go:94-127: from the command line to the configuration. Any use of a nil `*Onchain` dereferences it.
Decrypting the key is left out. -/
def startUp (up : Bool) (W : StartWorld) (U : Updater) (cli : CliConfig) : M Config := do
  let execChain ← orFatal W.execChain
  let consChain ← orFatal W.consChain
  match newOnchain up execChain consChain with
  | .err => .error .fatal
  | .nilNil => .error .panic
  | .ok _ =>
    if cli.dryRun then configFromContract W cli
    else do
      let w ← orFatal U.whitelisted
      if !w then .error .fatal
      else do
        let balance ← orFatal U.balance
        if balance = 0 then .error .fatal
        else configFromContract W cli

end Verif
