import Verif.Model.Api
import Verif.Model.Startup
import Verif.Model.Persist
import Verif.Model.Locks
/-
The HTTP server as a whole (api/api.go): which handler a path leads to, the handlers that are not in
`Verif.Model.Api`, and one request from beginning to end. A handler that panics loses its connection
(net/http recovers); a handler that calls log.Fatal stops the process.
-/
namespace Verif

/-! ### The router -/

/-- The endpoints; api/api.go:186-212. The argument is the variable of the path. -/
inductive Request
  | root
  | status
  | config
  | relays (key : Str)
  | state
  | validators
  | validatorInfo (index : Str)
  | byIndex (indices : Str)
  | byWithdrawal (addr : Str)
  | fees
  | statistics
  | allBlocks
  | proposedBlocks
  | missedBlocks
  | wrongFeeBlocks
  | donations
  | proof (addr : Str)
  deriving DecidableEq, Repr

/-- The segments of a path: the pieces between slashes (47). /repo: api/api.go:185-218 -/
def splitSlash : Str → List Str
  | [] => [[]]
  | c :: cs =>
    if c = 47 then [] :: splitSlash cs
    else match splitSlash cs with
      | [] => [[c]]
      | p :: ps => (c :: p) :: ps

/-- The paths under `/memory/` without a variable; api/api.go:62-72. -/
def memoryRoute (a : Str) : Option Request :=
  if a = b!"validators" then some .validators
  else if a = b!"feesinfo" then some .fees
  else if a = b!"statistics" then some .statistics
  else if a = b!"allblocks" then some .allBlocks
  else if a = b!"proposedblocks" then some .proposedBlocks
  else if a = b!"missedblocks" then some .missedBlocks
  else if a = b!"wrongfeeblocks" then some .wrongFeeBlocks
  else if a = b!"donations" then some .donations
  else none

/-- api/api.go:54-76, 181-218 `getRouter`: the handler for a GET request with this path; `none`: mux
answers 404. A variable of a mux path is one non-empty segment. Other methods (405, and 200 for OPTIONS) and
metrics are in Model/Metrics.lean; the redirection of unclean paths by mux and CORS headers are left out. -/
def route (path : Str) : Option Request :=
  match splitSlash path with
  | [[], a] =>
    if a = [] then some .root
    else if a = b!"status" then some .status
    else if a = b!"config" then some .config
    else if a = b!"state" then some .state
    else none
  | [[], a, x] =>
    if x = [] then none
    else if a = b!"registeredrelays" then some (.relays x)
    else if a = b!"memory" then memoryRoute x
    else none
  | [[], a, b, x] =>
    if x = [] then none
    else if a = b!"memory" then
      if b = b!"validator" then some (.validatorInfo x)
      else if b = b!"validatorsbyindex" then some (.byIndex x)
      else if b = b!"validators" then some (.byWithdrawal x)
      else none
    else if a = b!"onchain" ∧ b = b!"proof" then some (.proof x)
    else none
  | _ => none

/-! ### Validators -/

/-- api/api.go:525-558 `handleMemoryValidators`: for each tracked validator its record and what the beacon
node reported (its balance is left out). `cache`: `m.Onchain.Validators()`; looking up a nil map finds
nothing. `sort.Slice` is not stable, which matters only for equal indices; `t` numbers the map iteration. -/
def allValidators (E : Env) (t : Nat) (fin : Option Nat) (cache : Option BMap) (s : State) :
    Answer (List (Validator × BVal)) :=
  if !oracleReady fin s.latestSlot 64 then .unavailable
  else
    let l := ((E.shuffle t s.vals).map (·.2)).mergeSort fun a b => a.index ≤ b.index
    .ok (l.filterMap fun v => (BMap.get (cache.getD []) v.index).map fun u => (v, u))

/-- The same handler (api/api.go:525-558) as the mutex sees it: the question to the beacon node and `State`
(1256, 1266), `State` (530), and then, holding no lock, the iteration over the map of validators that `State`
returned, which is the map of the live state. -/
def validatorsActs : List Act := [.work] ++ stateActs ++ stateActs ++ [.work]

/-- api/api.go:560-587 `handleMemoryValidatorInfo`: the answer, and the state, in which the index of the
record is corrected if it is not the key. -/
def validatorInfo (fin : Option Nat) (s : State) (req : Str) : Answer Validator × State :=
  if !oracleReady fin s.latestSlot maxSlotsBehind then (.unavailable, s)
  else match isValidIndex req with
    | none => (.badRequest, s)
    | some i => match VMap.get s.vals i with
      | none => (.badRequest, s)
      | some v =>
        if v.index ≠ i then
          (.ok { v with index := i }, { s with vals := VMap.modify s.vals i fun v => { v with index := i } })
        else (.ok v, s)

/-- api/api.go:607-616, the loop checking and converting the indices; `none`: one is not valid. -/
def parseIndices : List Str → Option (List Nat)
  | [] => some []
  | x :: xs => match isValidIndex x with
    | none => none
    | some i => (parseIndices xs).map (i :: ·)

/-- api/types.go `httpOkValidatorsByIndex`. -/
structure ByIndexAnswer where
  found : List (Validator × BVal)
  notFound : List Nat
  deriving DecidableEq, Repr

/-- api/api.go:623-647, the loop over the indices: a tracked validator the beacon node did not report is in
neither list. -/
def indexLoop (cache : BMap) (vals : VMap) : List Nat → ByIndexAnswer → ByIndexAnswer
  | [], r => r
  | i :: l, r => match VMap.get vals i with
    | none => indexLoop cache vals l { r with notFound := r.notFound ++ [i] }
    | some v => match BMap.get cache v.index with
      | none => indexLoop cache vals l r
      | some u => indexLoop cache vals l { r with found := r.found ++ [(v, u)] }

/-- api/api.go:589-655 `handleMemoryValidatorsByIndex`. There is no readiness check. The state is read once
per index; here all readings see the same state. -/
def validatorsByIndex (cache : Option BMap) (s : State) (req : Str) : Answer ByIndexAnswer :=
  if req = [] ∨ req.getLast? = some 44 then .badRequest
  else
    let l := splitComma req
    if l.length > 100 then .badRequest
    else match parseIndices l with
      | none => .badRequest
      | some is => .ok (indexLoop (cache.getD []) s.vals is ⟨[], []⟩)

/-! ### Relays -/

/-- What a relay answers to the question for the registration of a validator: the request fails; a status
other than 200; 200 with a body that cannot be read or decoded; 200 with a registration naming a fee
recipient. The time stamp of the registration is left out. /repo: api/api.go:1007-1073 -/
inductive RelayReply
  | unreachable
  | unregistered
  | unreadable
  | registered (fee : Str)
  deriving DecidableEq, Repr

/-- api/types.go:35-40 `httpOkRelayersState`; relays with their fee recipients. -/
structure RelaysAnswer where
  ok : Bool
  correct : List (Str × Str)
  wrong : List (Str × Str)
  unregistered : List Str
  deriving DecidableEq, Repr

/-- api/api.go:1021-1060, the loop over the relays. `none`: some relay could not be asked, the handler
answers with an error. `pool`: `m.Onchain.PoolAddress`. `utils.Equals` stops the process if the lengths
differ. -/
def relayLoop (pool : Str) (ask : Str → RelayReply) : List Str → RelaysAnswer → M (Option RelaysAnswer)
  | [], r => .ok (some r)
  | relay :: l, r => match ask relay with
    | .unreachable => .ok none
    | .unreadable => .ok none
    | .unregistered => relayLoop pool ask l { r with unregistered := r.unregistered ++ [relay] }
    | .registered fee => do
      let same ← equals fee pool
      if same then relayLoop pool ask l { r with correct := r.correct ++ [(relay, fee)] }
      else relayLoop pool ask l { r with wrong := r.wrong ++ [(relay, fee)] }

/-- api/api.go:1007-1073 `handleValidatorRelayers`. `ask relay key`: what the relay answers. -/
def relayers (pool : Str) (relays : List Str) (ask : Str → Str → RelayReply) (req : Str) :
    M (Answer RelaysAnswer) :=
  if !isValidPubkey req then .ok .internalError
  else do
    match ← relayLoop pool (fun r => ask r req) relays ⟨false, [], [], []⟩ with
    | none => .ok .internalError
    | some r => .ok (.ok (if r.wrong.length = 0 ∧ r.correct.length > 0 then { r with ok := true } else r))

/-! ### Status -/

/-- The answer of the consensus node about its synchronisation: an error; neither an answer nor an error;
an answer without data; the distance to the head. /repo: api/api.go:415-506 -/
inductive SyncReply
  | failed
  | nothing
  | noData
  | distance (n : Nat)
  deriving DecidableEq, Repr

/-- What the two nodes say about themselves (`none`: error). `execSync`: `SyncProgress` returned nil.
/repo: api/api.go:415-506 -/
structure NodeInfo where
  chainId : Option Nat
  deposit : Option (Nat × List Nat)
  execSync : Option Bool
  consSync : SyncReply
  deriving DecidableEq, Repr

/-- api/types.go:13-33 `httpOkStatus`; the two fields that repeat a number as text are left out. -/
structure FullStatus where
  consInSync : Bool
  execInSync : Bool
  numbers : StatusAnswer
  execChain : Nat
  consChain : Nat
  deposit : Str
  deriving DecidableEq, Repr

/-- api/api.go:415-506 `handleStatus`. If the consensus node gives neither an answer nor an error, line 445
calls a method of a nil error. -/
def handleStatus (N : NodeInfo) (fin contract : Option Nat) (cfg : Config) (s : State) :
    M (Answer FullStatus) :=
  match N.chainId, N.deposit, N.execSync with
  | some chain, some (cons, dep), some exec =>
    match N.consSync with
    | .failed => .ok .internalError
    | .nothing => .error .panic
    | .noData => .ok .internalError
    | .distance d =>
      match statusAnswer fin contract cfg s with
      | .ok a => .ok (.ok {
          consInSync := d < 2, execInSync := exec, numbers := a
          execChain := chain, consChain := cons, deposit := b!"0x" ++ hexEncode dep })
      | .unavailable => .ok .unavailable
      | .badRequest => .ok .badRequest
      | .internalError => .ok .internalError
  | _, _, _ => .ok .internalError

/-! ### One request -/

/-- What the handlers learn from outside while they run. `contract`: root and slot of the last
checkpoint. /repo: api/api.go:268-1086 -/
structure Outside where
  fin : Option Nat
  cache : Option BMap
  contract : Option (Str × Nat)
  claimed : Str → Option Int
  logs : Nat → Option (List SubEvent × List UnsubEvent)
  nodes : NodeInfo
  relay : Str → Str → RelayReply

/-- The answers. `blocks`, `donations`: the records as they are in the state; the texts made of them are
in Model/Replies.lean. /repo: api/types.go:8-160 -/
inductive Reply
  | hello
  | status (a : Answer FullStatus)
  | config (c : Config)
  | relays (a : Answer RelaysAnswer)
  | state (s : State)
  | validators (a : Answer (List (Validator × BVal)))
  | validator (a : Answer Validator)
  | byIndex (a : Answer ByIndexAnswer)
  | fees (percent : Int) (addr : Str) (accumulated : Int)
  | statistics (a : Answer Stats)
  | blocks (l : List SumBlock)
  | donations (l : List EtherEvent)
  | proof (a : Answer ProofAnswer)
  deriving Repr

/-- api/api.go:229-1083: one GET request, and the oracle afterwards. `pool`, `relays`: the pool address and
the relays of the command line. `handleOnchainMerkleProof` calls `GetContractClaimedBalance`
(oracle/onchain.go:849-882), which stops the process if the address is no address; here that is checked as
soon as the request has passed the input validation. -/
def serve (L : Lib) (E : Env) (t : Nat) (W : Outside) (pool : Str) (relays : List Str) (o : Oracle) :
    Request → M (Reply × Oracle)
  | .root => .ok (.hello, o)
  | .status => do .ok (.status (← handleStatus W.nodes W.fin (W.contract.map (·.2)) o.cfg o.st), o)
  | .config => .ok (.config o.cfg, o)
  | .relays key => do .ok (.relays (← relayers pool relays W.relay key), o)
  | .state => .ok (.state (hashState L o.st), { o with st := hashState L o.st })
  | .validators => .ok (.validators (allValidators E t W.fin W.cache o.st), o)
  | .validatorInfo i =>
    let (a, s) := validatorInfo W.fin o.st i
    .ok (.validator a, { o with st := s })
  | .byIndex l => .ok (.byIndex (validatorsByIndex W.cache o.st l), o)
  | .byWithdrawal a => do
    .ok (.validators (← validatorsByWithdrawal W.fin W.cache W.logs o.cfg o.st a), o)
  | .fees => .ok (.fees o.st.fee o.st.poolFeesAddr o.st.poolFees, o)
  | .statistics => do .ok (.statistics (← statistics W.fin (W.cache.getD []) o.cfg o.st), o)
  | .allBlocks => .ok (.blocks (o.st.proposed ++ o.st.missed ++ o.st.wrongFee), o)
  | .proposedBlocks => .ok (.blocks o.st.proposed, o)
  | .missedBlocks => .ok (.blocks o.st.missed, o)
  | .wrongFeeBlocks => .ok (.blocks o.st.wrongFee, o)
  | .donations => .ok (.donations o.st.donations, o)
  | .proof a =>
    if oracleReady W.fin o.st.latestSlot maxSlotsBehind && isValidAddress a && !isHexAddress (lower a) then
      .error .fatal
    else .ok (.proof (merkleProof E t W.fin W.contract W.claimed o.st a), o)

end Verif
