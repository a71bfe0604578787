import Verif.Model.Duration
import Verif.Model.Endpoints
import Verif.Model.JsonText
/-
The bodies of the HTTP answers (api/api.go:105-122, api/types.go). The messages of errors contain texts of errors, which are
not modelled: any text can be there.
-/
namespace Verif
namespace JsonText

mutual
/-- `json.NewEncoder(w).Encode` (api/api.go:118), without the line feed at the end: no white space. -/
def compact : J → Str
  | .null => b!"null"
  | .bool b => if b then b!"true" else b!"false"
  | .num n => intText n
  | .str s => quoted s
  | .arr [] => b!"[]"
  | .arr (j :: l) => 91 :: (compact j ++ (compactL l ++ [93]))
  | .obj [] => b!"{}"
  | .obj ((k, j) :: l) => 123 :: (quoted k ++ (58 :: (compact j ++ (compactF l ++ [125]))))
/-- The further elements of an array. /repo: api/api.go:115-123 -/
def compactL : List J → Str
  | [] => []
  | j :: l => 44 :: (compact j ++ compactL l)
/-- The further fields of an object. /repo: api/api.go:115-123 -/
def compactF : List (Str × J) → Str
  | [] => []
  | (k, j) :: l => 44 :: (quoted k ++ (58 :: (compact j ++ compactF l)))
end

end JsonText
open JsonText

/-- api/api.go:115-122 `respondOK`: `Encode` ends with a line feed. -/
def bodyOf (j : J) : Str := compact j ++ [10]

/-- Go `big.Int.String`. /repo: api/api.go:268-413 -/
def amountJ (n : Int) : J := .str (intText n)

/-- Go `big.Int.String` of a pointer: a nil pointer gives `<nil>`. /repo: api/api.go:589-800 -/
def amountPtrJ : Option Int → J
  | none => .str b!"<nil>"
  | some n => amountJ n

/-- A nil slice is written as `null`. The slices filled by `append` from nil are nil if nothing was appended.
/repo: api/api.go:525-918 -/
def sliceJ (l : List J) : J := if l = [] then .null else .arr l

/-- The texts of the answers that the model has no values for: the hash and the sender of a donation,
the balance on the beacon chain (Gwei) and the time stamps of relays. /repo: api/api.go:415-523 -/
structure Texts where
  txHash : EtherEvent → Str
  sender : EtherEvent → Str
  balance : BVal → Nat
  stamp : Str → Str

/-- go-eth2-client api/v1/validatorstate.go `ValidatorState.String`. -/
def BStatus.name : BStatus → Str
  | .unknown => b!"unknown"
  | .pendingInitialized => b!"pending_initialized"
  | .pendingQueued => b!"pending_queued"
  | .activeOngoing => b!"active_ongoing"
  | .activeExiting => b!"active_exiting"
  | .activeSlashed => b!"active_slashed"
  | .exitedUnslashed => b!"exited_unslashed"
  | .exitedSlashed => b!"exited_slashed"
  | .withdrawalPossible => b!"withdrawal_possible"
  | .withdrawalDone => b!"withdrawal_done"

/-- api/api.go:482-503, api/types.go:13-33. -/
def statusJ (T : Texts) (a : FullStatus) : J :=
  .obj [(b!"is_consensus_in_sync", .bool a.consInSync), (b!"is_execution_in_sync", .bool a.execInSync),
    (b!"is_oracle_in_sync", .bool a.numbers.inSync),
    (b!"latest_processed_slot", .num a.numbers.latestSlot), (b!"latest_processed_block", .num a.numbers.latestBlock),
    (b!"latest_finalized_epoch", .num a.numbers.finalizedEpoch),
    (b!"latest_finalized_slot", .num a.numbers.finalizedSlot),
    (b!"oracle_sync_distance_slots", .num a.numbers.headDistance),
    (b!"next_checkpoint_slot", .num a.numbers.nextCheckpoint), (b!"next_checkpoint_time", .str []),
    (b!"next_checkpoint_remaining", .str (durationText a.numbers.remainingSeconds)),
    (b!"next_checkpoint_remaining_unix", .num a.numbers.remainingSeconds),
    (b!"previous_checkpoint_slot", .num a.numbers.previousCheckpoint), (b!"previous_checkpoint_time", .str []),
    (b!"previous_checkpoint_age", .str (durationText a.numbers.previousAgeSeconds)),
    (b!"previous_checkpoint_age_unix", .num a.numbers.previousAgeSeconds),
    (b!"consensus_chainid", .str (natText a.consChain)), (b!"execution_chainid", .str (natText a.execChain)),
    (b!"depositcontract", .str a.deposit)]

/-- api/api.go:513-522, api/types.go:99-108. -/
def configJ (c : Config) : J :=
  .obj [(b!"network", .str c.network), (b!"pool_address", .str c.poolAddr), (b!"deployed_slot", .num c.depSlot),
    (b!"checkpoint_size", .num c.cpSize), (b!"pool_fees_percent", .num c.fee),
    (b!"pool_fees_address", .str c.poolFeesAddr), (b!"dry_run", .bool c.dryRun),
    (b!"collateral_in_wei", amountJ c.collateral)]

/-- api/api.go:1043-1047, 1055-1057, api/types.go:42-46: a relay that knows the validator, and one that does not. -/
def relayJ (T : Texts) (p : Str × Str) : J :=
  .obj [(b!"relay_address", .str p.1), (b!"fee_recipient", .str p.2), (b!"timestamp", .str (T.stamp p.1))]

/-- api/api.go:1055-1057: only the address is set. -/
def unregisteredJ (r : Str) : J :=
  .obj [(b!"relay_address", .str r), (b!"fee_recipient", .str []), (b!"timestamp", .str [])]

/-- api/api.go:1067-1072, api/types.go:35-40. The three slices start as nil (api/api.go:1014-1016). -/
def relaysJ (T : Texts) (a : RelaysAnswer) : J :=
  .obj [(b!"correct_fee_recipients", .bool a.ok), (b!"correct_fee_relayers", sliceJ (a.correct.map (relayJ T))),
    (b!"wrong_fee_relayers", sliceJ (a.wrong.map (relayJ T))),
    (b!"unregistered_relayers", sliceJ (a.unregistered.map unregisteredJ))]

/-- api/api.go:544-556, 631-643, 784-796, api/types.go:133-145 `httpOkValidatorInfo`. -/
def rowJ (T : Texts) (p : Validator × BVal) : J :=
  .obj [(b!"status", .str p.1.status.name), (b!"beacon_status", .str p.2.status.name),
    (b!"beacon_balance_gwei", .str (natText (T.balance p.2))),
    (b!"beacon_effective_balance_gwei", .str (natText p.2.effBal)),
    (b!"accumulated_rewards_wei", amountJ p.1.acc), (b!"pending_rewards_wei", amountJ p.1.pend),
    (b!"collateral_wei", amountJ p.1.coll), (b!"withdrawal_address", .str p.1.waddr),
    (b!"validator_index", .num p.1.index), (b!"validator_key", .str p.1.key),
    (b!"subscription_type", .str p.1.subType.name)]

/-- api/api.go:649-654, api/types.go:147-150. Both slices start as nil (api/api.go:618-619). -/
def byIndexJ (T : Texts) (a : ByIndexAnswer) : J :=
  .obj [(b!"found_validators", sliceJ (a.found.map (rowJ T))),
    (b!"not_found_validators", sliceJ (a.notFound.map fun i : Nat => .num i))]

/-- api/api.go:803-807, api/types.go:110-114. -/
def feesJ (percent : Int) (addr : Str) (accumulated : Int) : J :=
  .obj [(b!"pool_fee_percent", .num percent), (b!"pool_fee_address", .str addr),
    (b!"pool_accumulated_fees", amountJ accumulated)]

/-- api/api.go:390-412, api/types.go:63-84. -/
def statsJ (a : Stats) : J :=
  .obj [(b!"total_subscribed_validators", .num a.subscribed), (b!"total_active_validators", .num a.active),
    (b!"total_yellowcard_validators", .num a.yellow), (b!"total_redcard_validators", .num a.red),
    (b!"total_banned_validators", .num a.banned), (b!"total_notsubscribed_validators", .num a.notSubscribed),
    (b!"latest_checkpoint_slot", .num a.latestSlot), (b!"next_checkpoint_slot", .num a.nextCheckpoint),
    (b!"total_accumulated_rewards_wei", amountJ a.accumulated), (b!"total_pending_rewards_wei", amountJ a.pending),
    (b!"total_rewards_sent_wei", amountJ a.sent), (b!"total_rewards_sent_30days_wei", amountJ a.sent30),
    (b!"rewards_per_validator_per_30days_wei", amountJ a.perValidator30),
    (b!"total_donations_wei", amountJ a.donations), (b!"avg_block_reward_wei", amountJ a.avgBlock),
    (b!"total_proposed_blocks", .num a.proposed), (b!"total_missed_blocks", .num a.missed),
    (b!"total_wrongfee_blocks", .num a.wrongFee), (b!"total_effective_balance_gwei", .str (natText a.effBal)),
    (b!"avg_effective_balance_gwei", .str (natText a.avgEffBal))]

/-- api/api.go:815-824, 828-837, 841-850, 859-868, 876-885, 893-902, api/types.go:122-131 `httpOkBlock`. -/
def blockJ (b : SumBlock) : J :=
  .obj [(b!"slot", .num b.slot), (b!"block", .num b.block), (b!"validator_index", .num b.index),
    (b!"validator_key", .str b.key), (b!"block_type", .str b.type.name), (b!"reward_wei", amountPtrJ b.reward),
    (b!"reward_type", .str b.rewardType.name), (b!"withdrawal_address", .str b.waddr)]

/-- api/api.go:910-915, api/types.go:116-121. -/
def donationJ (T : Texts) (e : EtherEvent) : J :=
  .obj [(b!"amount_wei", amountJ e.amount), (b!"block_number", .num e.block), (b!"tx_hash", .str (T.txHash e)),
    (b!"sender", .str (T.sender e))]

/-- api/api.go:993-1004, api/types.go:86-97. The slices are made by `make` (api/api.go:972, utils/utils.go:80). -/
def proofJ (a : ProofAnswer) : J :=
  .obj [(b!"leaf_withdrawal_address", .str a.leafAddr), (b!"leaf_accumulated_balance", amountJ a.leafBal),
    (b!"merkleroot", .str a.root), (b!"checkpoint_slot", .num a.slot),
    (b!"merkle_proofs", .arr (a.proofs.map .str)), (b!"registered_validators", .arr (a.registered.map fun i : Nat => .num i)),
    (b!"total_accumulated_rewards_wei", amountJ a.accumulated), (b!"already_claimed_rewards_wei", amountJ a.claimed),
    (b!"claimable_rewards_wei", amountJ a.claimable), (b!"pending_rewards_wei", amountJ a.pending)]

/-- An answer with status 200. /repo: api/api.go:115-123 -/
def Answer.doc {α : Type} (f : α → J) : Answer α → Option J
  | .ok a => some (f a)
  | _ => none

/-- The document of an answer with status 200. The lists of validators, blocks and donations are made by `make`
(api/api.go:535, 737, 778, 812, 857, 874, 891, 908), so that an empty one is `[]`. api/api.go:560-587 answers with the
`ValidatorInfo` itself, api/api.go:1075-1085 with the whole state. -/
def replyDoc (T : Texts) : Reply → Option J
  | .hello => some (.str b!"see api doc for available endpoints")
  | .status a => a.doc (statusJ T)
  | .config c => some (configJ c)
  | .relays a => a.doc (relaysJ T)
  | .state s => some (encState s)
  | .validators a => a.doc fun l => .arr (l.map (rowJ T))
  | .validator a => a.doc encVal
  | .byIndex a => a.doc (byIndexJ T)
  | .fees p a x => some (feesJ p a x)
  | .statistics a => a.doc statsJ
  | .blocks l => some (.arr (l.map blockJ))
  | .donations l => some (.arr (l.map (donationJ T)))
  | .proof a => a.doc proofJ

/-- The body of an answer with status 200. /repo: api/api.go:115-123 -/
def replyBody (T : Texts) (r : Reply) : Option Str := (replyDoc T r).map bodyOf

/-- The status codes given to `respondError` by the handlers; see the definitions in Model/Api.lean and
Model/Endpoints.lean for the lines. /repo: api/api.go:105-113 -/
def Answer.code {α : Type} : Answer α → Nat
  | .ok _ => 200
  | .unavailable => 503
  | .badRequest => 400
  | .internalError => 500

/-- The status of an answer. /repo: api/api.go:105-123 -/
def replyCode : Reply → Nat
  | .status a => a.code
  | .relays a => a.code
  | .validators a => a.code
  | .validator a => a.code
  | .byIndex a => a.code
  | .statistics a => a.code
  | .proof a => a.code
  | _ => 200

/-- api/types.go:8-11 `httpErrorResp`. -/
def errorJ (code : Nat) (message : Str) : J := .obj [(b!"code", .num code), (b!"message", .str message)]

/-- api/api.go:105-122: status and body of an answer. `message`: the text of the error, if it is one. -/
def httpReply (T : Texts) (message : Str) (r : Reply) : Nat × Str :=
  match replyBody T r with
  | some body => (replyCode r, body)
  | none => (replyCode r, bodyOf (errorJ (replyCode r) message))

end Verif
