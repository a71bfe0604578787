import Verif.Spec.Slot
/-
The orders about validators a block contains, in the order in which the contract wrote them down.
-/
namespace Verif

/-- One entry of the log the pool contract writes in a block, with what the beacon node knows about the validator
it names. The oracle reads the entries kind by kind (oracle/onchain.go:978-1046 asks for every kind separately), so it does not see how entries of
different kinds follow each other. -/
inductive PoolLog
  | sub (ev : SubEvent) (val : Option BVal)
  | unsub (ev : UnsubEvent) (val : Option BVal)
  | ban (ev : BanEvent)
  | unban (ev : BanEvent)

def PoolLog.asSub : PoolLog → Option (SubEvent × Option BVal)
  | .sub e v => some (e, v)
  | _ => none
def PoolLog.asUnsub : PoolLog → Option (UnsubEvent × Option BVal)
  | .unsub e v => some (e, v)
  | _ => none
def PoolLog.asBan : PoolLog → Option BanEvent
  | .ban e => some e
  | _ => none
def PoolLog.asUnban : PoolLog → Option BanEvent
  | .unban e => some e
  | _ => none

/-- The block carries these entries. -/
structure CarriesLogs (b : FullBlock) (logs : List PoolLog) : Prop where
  subs : b.events.subs.zip b.valsSubs = logs.filterMap PoolLog.asSub
  unsubs : b.events.unsubs.zip b.valsUnsubs = logs.filterMap PoolLog.asUnsub
  bans : b.events.bans = logs.filterMap PoolLog.asBan
  unbans : b.events.unbans = logs.filterMap PoolLog.asUnban

/-- What can be ordered for a validator. -/
inductive Order
  | join | leave | ban | unban
deriving DecidableEq

open Classical in
/-- The order an entry gives for validator `i`: subscriptions with enough collateral and unsubscriptions count if the
owner sent them. -/
noncomputable def PoolLog.order (coll : Int) (i : Nat) : PoolLog → Option Order
  | .sub ev val => if ev.validatorId = i ∧ (∃ v w, ByOwner ev val v w) ∧ coll ≤ ev.collateral then some .join else none
  | .unsub ev val => if ev.validatorId = i ∧ ByOwnerUnsub ev val then some .leave else none
  | .ban ev => if ev.validatorId = i then some .ban else none
  | .unban ev => if ev.validatorId = i then some .unban else none

/-- The documented effect of one order. -/
def obey (st : Status) : Order → Status
  | .join => if st = .notSubscribed then .active else st
  | .leave => if Subscribed st then .notSubscribed else st
  | .ban => if Subscribed st then .banned else st
  | .unban => if st = .banned then .active else st

/-- The status of a validator; who is not known is not subscribed. -/
def statusOf (s : State) (i : Nat) : Status :=
  match VMap.get s.vals i with
  | some v => v.status
  | none => .notSubscribed

open Classical in
/-- The documented effect of the proposal in a block on the status `st` of validator `i`: only the proposer is
concerned. A subscribed one who misses gets a card, one who keeps the reward is banned; whoever pays the pool and has
a withdrawal address is subscribed and loses a card. -/
noncomputable def afterProposal (b : FullBlock) (pool : Str) (i : Nat) (st : Status) : Status :=
  if b.dutyIndex ≠ i then st
  else if PaidPool b pool then (if ∃ w, HasAddress b.validator.creds w then afterPay st else st)
  else if ¬ Subscribed st then st
  else if b.cons = none then afterMiss st
  else .banned

/-- the order in which the oracle handles the kinds -/
def Order.rank : Order → Nat
  | .join => 0
  | .leave => 1
  | .ban => 2
  | .unban => 3

end Verif
