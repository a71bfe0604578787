import Verif.Model.Fetch
import Verif.Model.Json
/-
oracle/onchain.go: the requests behind the answers of `Verif.Model.Fetch` and `Verif.Model.MainLoop`, with
failing attempts and retries: 212-245 (block at a slot), 292-311 (one validator), 524-556 (header and
receipts), 831-843 (root and slot of the contract), 1296-1640 (events), 1854-1870 (retry options) and
1886-1930 (pending consolidations).

The libraries are not part of the repository. What is taken from them: avast/retry-go v4 `Do`, the texts of
the errors of go-eth2-client, and that the iterators generated by abigen stop at a log they cannot decode.
-/
namespace Verif

/-! ### Retries -/

/-- avast/retry-go v4 `retry.Do` with `retry.Attempts(n)`, as used through `GetRetryOpts`
(oracle/onchain.go:1854-1870), from attempt number `k` on. `f k` is what the function does at its attempt
number `k`; `none`: it returns an error. The result is the value of the first attempt that succeeds, or
`none` after `n` failed attempts. `n = 0` (the default of the flag `num-retries`) means to go on until an
attempt succeeds. A relation, because then there may be no end. -/
inductive Retried {α : Type} (n : Nat) (f : Nat → Option α) : Nat → Option α → Prop
  | done {k a} : f k = some a → Retried n f k (some a)
  | again {k r} : f k = none → (n = 0 ∨ k + 1 < n) → Retried n f (k + 1) r → Retried n f k r
  | gaveUp {k} : f k = none → n ≠ 0 → ¬ k + 1 < n → Retried n f k none

/-! ### The block at a slot -/

/-- Go `strings.Contains(s, sub)`. /repo: oracle/onchain.go:230 -/
def containsText (sub : Str) : Str → Bool
  | [] => sub.isPrefixOf []
  | c :: cs => sub.isPrefixOf (c :: cs) || containsText sub cs

/-- What the beacon node, or the network, does with one request for a block. /repo: oracle/onchain.go:217-247 -/
inductive BlockReply
  /-- a block -/
  | block (c : ConsBlock)
  /-- an HTTP status that is not a success, with a body -/
  | status (code : Nat) (body : Str)
  /-- no HTTP answer; Go's `url.Error` puts `pre` before and `post` after the address asked for -/
  | broken (pre post : Str)

/-- The address go-eth2-client asks for a block: `address` is the configured address of the client.
/repo: oracle/onchain.go:94, 217-247 -/
def blockUrl (address : Str) (slot : Nat) : Str :=
  address ++ b!"/eth/v2/beacon/blocks/" ++ decimal slot

/-- The text of the error go-eth2-client returns for a reply that is not a block (see the comment at
oracle/onchain.go:223). -/
def errorText (address : Str) (slot : Nat) : BlockReply → Str
  | .block _ => []
  | .status code body => b!"GET failed with status " ++ decimal code ++ b!": " ++ body
  | .broken pre post => pre ++ blockUrl address slot ++ post

/-- oracle/onchain.go:217-234, the function retried in `GetConsensusBlockAtSlot`: an error whose text
contains "404" counts as success without a block. -/
def blockAttempt (address : Str) (slot : Nat) (r : BlockReply) : Option (Option ConsBlock) :=
  match r with
  | .block c => some (some c)
  | r => if containsText b!"404" (errorText address slot r) then some none else none

/-! ### Validators -/

/-- oracle/onchain.go:296-311, the function retried in `GetSingleValidator`: more than one validator in the
answer is an error. -/
def validatorAttempt (r : Option (List (Nat × BVal))) : Option (List (Nat × BVal)) :=
  match r with
  | none => none
  | some l => if l.length > 1 then none else some l

/-! ### Events -/

/-- oracle/onchain.go:1325-1332 and the same lines of the other event getters: `for itr.Next()` collects
the events. `none` is a log that cannot be decoded: there `Next` returns false, and `itr.Error()` is not
looked at. -/
def iterated {α : Type} : List (Option α) → List α
  | [] => []
  | none :: _ => []
  | some e :: rest => e :: iterated rest

/-- The replies to the nine `Filter…` calls for one execution block (oracle/onchain.go:1296-1640), each by
number of the attempt; `none` is an error. -/
structure LogReplies where
  ether : Nat → Option (List (Option EtherEvent))
  subs : Nat → Option (List (Option SubEvent))
  unsubs : Nat → Option (List (Option UnsubEvent))
  poolFee : Nat → Option (List (Option Int))
  feeRecipient : Nat → Option (List (Option Str))
  cpSize : Nat → Option (List (Option Nat))
  collateral : Nat → Option (List (Option Int))
  bans : Nat → Option (List (Option BanEvent))
  unbans : Nat → Option (List (Option BanEvent))

/-- oracle/onchain.go:1296-1640: what one of the event getters returns, with `n` attempts. -/
def Collected {α : Type} (n : Nat) (f : Nat → Option (List (Option α))) (r : List α) : Prop :=
  ∃ l, Retried n f 0 (some l) ∧ r = iterated l

/-! ### Everything together -/

/-- What happens to every attempt at every request of `FetchFullBlock`; the last argument is the number of
the attempt. Simplification: if the same question is asked twice while one block is fetched (a validator
named in two events), the same attempts happen again. /repo: oracle/onchain.go:930-1092 -/
structure Wire where
  chainId : Nat
  pool : Str
  /-- the configured address of the consensus client -/
  address : Str
  duty : Nat → Nat → Option (Nat × Nat × Str)
  validators : Nat → Nat → Nat → Option (List (Nat × BVal))
  block : Nat → Nat → BlockReply
  logs : Nat → LogReplies
  header : Nat → Nat → Option Header
  receipt : Nat → Nat → Option Receipt

/-- The answers `FetchFullBlock` works with (`Verif.Model.Fetch`) are what the getters return with `n`
attempts per request. Where a getter returns an error, or does not return at all, `C` has `none`.
/repo: oracle/onchain.go:930-1092 -/
structure Heard (n : Nat) (W : Wire) (C : Chain) : Prop where
  chainId : C.chainId = W.chainId
  pool : C.pool = W.pool
  duty : ∀ slot r, C.duty slot = some r → Retried n (W.duty slot) 0 (some r)
  validators : ∀ i slot r, C.validators i slot = some r →
    Retried n (fun k => validatorAttempt (W.validators i slot k)) 0 (some r)
  cons : ∀ slot r, C.cons slot = some r →
    Retried n (fun k => blockAttempt W.address slot (W.block slot k)) 0 (some r)
  events : ∀ b r, C.events b = some r →
    Collected n (W.logs b).ether r.ether ∧ Collected n (W.logs b).subs r.subs ∧
    Collected n (W.logs b).unsubs r.unsubs ∧ Collected n (W.logs b).poolFee r.poolFee ∧
    Collected n (W.logs b).feeRecipient r.feeRecipient ∧ Collected n (W.logs b).cpSize r.cpSize ∧
    Collected n (W.logs b).collateral r.collateral ∧ Collected n (W.logs b).bans r.bans ∧
    Collected n (W.logs b).unbans r.unbans
  header : ∀ b r, C.header b = some r → Retried n (W.header b) 0 (some r)
  receipt : ∀ h r, C.receipt h = some r → Retried n (W.receipt h) 0 (some r)

/-! ### Root and slot of the contract -/

/-- oracle/onchain.go:831-843 `GetOnchainSlotAndRoot`: first `GetLastConsolidatedSlot` (809-830), then
`GetRewardsRoot` (787-807), two calls. `slots` and `roots` are the answers to the attempts of the two. -/
inductive SlotAndRoot (n : Nat) (slots : Nat → Option Nat) (roots : Nat → Option Str) :
    Option (Str × Nat) → Prop
  | ok {slot root} : Retried n slots 0 (some slot) → Retried n roots 0 (some root) →
      SlotAndRoot n slots roots (some (root, slot))
  | noSlot : Retried n slots 0 none → SlotAndRoot n slots roots none
  | noRoot {slot} : Retried n slots 0 (some slot) → Retried n roots 0 none → SlotAndRoot n slots roots none

/-! ### Pending consolidations -/

/-- What one request for the pending consolidations gives: no HTTP answer, or a status and a body (`none`:
not JSON). /repo: oracle/onchain.go:1886-1929 -/
inductive PendingReply
  | broken
  | answer (status : Nat) (body : Option J)

/-- oracle/onchain.go:1874-1877 `PendingConsolidation`, read by encoding/json. `phase0.ValidatorIndex` wants
a quoted decimal number; a missing key leaves 0, and so does `null` in place of the object. -/
def decPending : J → Option (Nat × Nat)
  | .null => some (0, 0)
  | .obj fs => do
    let s ← index (J.field fs b!"source_index")
    let t ← index (J.field fs b!"target_index")
    some (s, t)
  | _ => none
where
  /-- `phase0.ValidatorIndex.UnmarshalJSON` -/
  index : Option J → Option Nat
    | none => some 0
    | some (.str s) => parseUint s
    | _ => none

/-- oracle/onchain.go:1891-1922, the function retried in `GetPendingConsolidations`: any other status than
200, or a body that does not decode into `PendingConsolidationsResponse` (1879-1884), is an error. `version`,
`execution_optimistic` and `finalized` are decoded and not used; a wrong type in them is left out. -/
def pendingAttempt : PendingReply → Option (List (Nat × Nat))
  | .broken => none
  | .answer status body =>
    if status ≠ 200 then none
    else match body with
      | some (.obj fs) => getArr decPending (J.field fs b!"data")
      | some .null => some []
      | _ => none

end Verif
