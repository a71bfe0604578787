import Verif.Model.Submit
import Verif.Model.Startup
import Verif.Model.Requests
/-
What the oracle asks the contract, down to the bytes of request and answer: oracle/onchain.go:572-785 and 809-876,
the callers generated by abigen (contract/contract.go:213-845) and of go-ethereum v1.15.7 accounts/abi/bind/base.go
`Call`, accounts/abi/abi.go `Pack`, `Unpack` and accounts/abi/unpack.go `toGoType`, `lengthPrefixPointsTo`,
`forEachUnpack`.
-/
namespace Verif

/-- One `eth_call`: the contract, the data, the block (`none`: the latest). The result is the data returned; `none`: the
request failed. /repo: oracle/onchain.go:572-880 -/
abbrev EthCall := List Nat → List Nat → Option Nat → Option (List Nat)

/-- accounts/abi/bind/base.go `Call` for the contract at the address of the command line (oracle/onchain.go:141-147), up
to the data returned: the request is the selector and the arguments; what comes back must be whole words. An empty
answer is an error in any case, because all calls expect a value: see `logWord`. -/
def askPool (c : EthCall) (pool : Str) (block : Option Nat) (sig : Str) (args : List Nat) : Option (List Nat) :=
  match c (hexToAddress pool) ((Keccak.keccak sig).take 4 ++ args) block with
  | none => none
  | some out => if out.length % 32 ≠ 0 then none else some out

/-- accounts/abi/pack.go `packElement` for an address: padded on the left. -/
def packAddress (a : List Nat) : List Nat := List.replicate (32 - a.length) 0 ++ a

/-- accounts/abi/unpack.go `lengthPrefixPointsTo`: the first word says where the length stands; returned are the place
behind it and the length. The checks for more than 63 bits are left out: no data is that long. -/
def lengthPrefix (out : List Nat) : Option (Nat × Nat) := do
  let offset ← abiUint256 out 0
  if offset + 32 > out.length then none
  else
    let n := beNat ((out.drop offset).take 32)
    if offset + 32 + n > out.length then none else some (offset + 32, n)

/-- accounts/abi/unpack.go `forEachUnpack`, the loop: `n` words read as addresses. -/
def addressWords : Nat → List Nat → Option (List (List Nat))
  | 0, _ => some []
  | n + 1, out => do
    let a ← abiAddress out 0
    let rest ← addressWords n (out.drop 32)
    some (a :: rest)

/-- accounts/abi/unpack.go `toGoType` for `address[]`. -/
def unpackAddresses (out : List Nat) : Option (List (List Nat)) := do
  let (start, n) ← lengthPrefix out
  if 32 * n > (out.drop start).length then none else addressWords n (out.drop start)

/-- oracle/onchain.go:638-657 `GetAllOracleMembers`, one attempt; contract/contract.go:341 -/
def getMembers (c : EthCall) (pool : Str) : Option (List (List Nat)) := do
  let out ← askPool c pool none b!"getAllOracleMembers()" []
  unpackAddresses out

/-- oracle/onchain.go:572-595 `IsAddressWhitelisted`: the loop over the members. -/
def whitelisted (address : List Nat) : List (List Nat) → Bool
  | [] => false
  | m :: rest => if m = address then true else whitelisted address rest

/-- oracle/onchain.go:659-677 `GetQuorum`; contract/contract.go:682 -/
def getQuorum (c : EthCall) (pool : Str) : Option Nat := do
  let out ← askPool c pool none b!"quorum()" []
  abiUint64 out 0

/-- oracle/onchain.go:679-697 `GetContractCollateral`; contract/contract.go:820 -/
def getCollateral (c : EthCall) (pool : Str) : Option Nat := do
  let out ← askPool c pool none b!"subscriptionCollateral()" []
  abiUint256 out 0

/-- oracle/onchain.go:699-719 `GetSlotCheckpointSize`; contract/contract.go:248 -/
def getCheckpointSize (c : EthCall) (pool : Str) : Option Nat := do
  let out ← askPool c pool none b!"checkpointSlotSize()" []
  abiUint64 out 0

/-- oracle/onchain.go:721-741 `GetContractDeploymentBlock`; contract/contract.go:310 -/
def getDeploymentBlock (c : EthCall) (pool : Str) : Option Nat := do
  let out ← askPool c pool none b!"deploymentBlockNumber()" []
  abiUint256 out 0

/-- oracle/onchain.go:743-763 `GetPoolFee`; contract/contract.go:620 -/
def getPoolFee (c : EthCall) (pool : Str) : Option Nat := do
  let out ← askPool c pool none b!"poolFee()" []
  abiUint256 out 0

/-- oracle/onchain.go:765-785 `GetPoolFeeAddress`: the text of the address; contract/contract.go:651 -/
def getPoolFeeAddress (c : EthCall) (pool : Str) : Option Str := do
  let out ← askPool c pool none b!"poolFeeRecipient()" []
  let a ← abiAddress out 0
  some (checksumHex Keccak.keccak a)

/-- oracle/onchain.go:787-807 `GetRewardsRoot`; contract/contract.go:789 -/
def getRewardsRoot (c : EthCall) (pool : Str) : Option Str := do
  let out ← askPool c pool none b!"rewardsRoot()" []
  let w ← logWord out 0
  some (hexutilEncode w)

/-- oracle/onchain.go:809-830 `GetLastConsolidatedSlot`; contract/contract.go:496 -/
def getLastSlot (c : EthCall) (pool : Str) : Option Nat := do
  let out ← askPool c pool none b!"lastConsolidatedSlot()" []
  abiUint64 out 0

/-- oracle/onchain.go:858-868, one attempt of `GetContractClaimedBalance`, of an address that is one; contract/contract.go:279 -/
def getClaimed (c : EthCall) (pool : Str) (block : Option Nat) (address : Str) : Option Nat := do
  let out ← askPool c pool block b!"claimedBalance(address)" (packAddress (hexToAddress address))
  abiUint256 out 0

/-- oracle/onchain.go:604-614, one attempt of the first part of `GetAddressToVotedReport`; contract/contract.go:217 -/
def getVotedHash (c : EthCall) (pool : Str) (address : List Nat) : Option (List Nat) := do
  let out ← askPool c pool none b!"addressToVotedReportHash(address)" (packAddress address)
  logWord out 0

/-- oracle/onchain.go:620-632, one attempt of the second part: slot and votes; contract/contract.go:713 -/
def getReport (c : EthCall) (pool : Str) (hash : List Nat) : Option (Nat × Nat) := do
  let out ← askPool c pool none b!"reportHashToReport(bytes32)" hash
  let slot ← abiUint64 out 0
  let votes ← abiUint64 out 1
  some (slot, votes)

/-- oracle/onchain.go:602-636 `GetAddressToVotedReport`: two calls, each retried. `f`: the attempts of the first call,
`g`: those of the second. -/
inductive VotedReport (n : Nat) (f g : Nat → EthCall) (pool : Str) (address : List Nat) : Option (Nat × Nat) → Prop
  | noHash : Retried n (fun k => getVotedHash (f k) pool address) 0 none → VotedReport n f g pool address none
  | report {h r} : Retried n (fun k => getVotedHash (f k) pool address) 0 (some h) →
      Retried n (fun k => getReport (g k) pool h) 0 r → VotedReport n f g pool address r

/-- Where the answers of `Verif.Model.Startup` come from: main.go:103 and oracle/onchain.go:1185-1269, for the pool of
the command line and the account `me` of the oracle. `c q k` is the execution client during attempt `k` of request
`q`. -/
structure StartAsks (n : Nat) (c : Nat → Nat → EthCall) (me : List Nat) (cli : CliConfig) (W : StartWorld) (U : Updater) :
    Prop where
  whitelisted : ∃ r, Retried n (fun k => getMembers (c 0 k) cli.pool) 0 r ∧ U.whitelisted = r.map (whitelisted me)
  depBlock : Retried n (fun k => getDeploymentBlock (c 1 k) cli.pool) 0 W.depBlock
  cpSize : Retried n (fun k => getCheckpointSize (c 2 k) cli.pool) 0 W.cpSize
  feeAddr : Retried n (fun k => getPoolFeeAddress (c 3 k) cli.pool) 0 W.feeAddr
  collateral : ∃ r : Option Nat, Retried n (fun k => getCollateral (c 4 k) cli.pool) 0 r ∧
    W.collateral = r.map fun x => (x : Int)

end Verif
