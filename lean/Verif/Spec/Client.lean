import Verif.Spec.Duration
import Verif.Model.Endpoints
import Verif.Spec.JsonGrammar
import Verif.Spec.Persist
import Mathlib.Data.List.Forall2
/-
What a client of the HTTP API must be able to take from an answer: the names of the fields are those of the
documentation (api/types.go), amounts are decimal numbers in strings.
-/
namespace Verif
namespace Client
open Rfc

/-- The document is an object, and the key occurs in it once, with this value. -/
def Field (j : J) (key : Str) (v : J) : Prop :=
  ∃ fs : List (Str × J), j = .obj fs ∧ (fs.filter fun p => p.1 = key) = [(key, v)]

/-- a number -/
def Num (j : J) (key : Str) (n : Int) : Prop := Field j key (.num n)

/-- a text -/
def Text (j : J) (key s : Str) : Prop := Field j key (.str s)

/-- yes or no -/
def Flag (j : J) (key : Str) (b : Bool) : Prop := Field j key (.bool b)

/-- a number written in a string -/
def Amount (j : J) (key : Str) (n : Int) : Prop := ∃ t, Field j key (.str t) ∧ Number t n

/-- one of the agreed names -/
def Name {α : Type} (names : List (α × Str)) (j : J) (key : Str) (a : α) : Prop :=
  ∃ t, (a, t) ∈ names ∧ Field j key (.str t)

/-- a list of things, in order -/
def Rows {α : Type} (R : J → α → Prop) (j : J) (l : List α) : Prop := ∃ js, j = .arr js ∧ js.Forall₂ R l

/-- a list of things that may be written as null when it is empty -/
def NilRows {α : Type} (R : J → α → Prop) (j : J) (l : List α) : Prop := (j = .null ∧ l = []) ∨ Rows R j l

/-- the names that the beacon chain gives to the states of a validator (consensus API) -/
def beaconNames : List (BStatus × Str) :=
  [(.unknown, b!"unknown"), (.pendingInitialized, b!"pending_initialized"), (.pendingQueued, b!"pending_queued"),
   (.activeOngoing, b!"active_ongoing"), (.activeExiting, b!"active_exiting"), (.activeSlashed, b!"active_slashed"),
   (.exitedUnslashed, b!"exited_unslashed"), (.exitedSlashed, b!"exited_slashed"),
   (.withdrawalPossible, b!"withdrawal_possible"), (.withdrawalDone, b!"withdrawal_done")]

/-- a validator in a list -/
structure ValidatorRow (j : J) (p : Validator × BVal) : Prop where
  status : Name statusNames j b!"status" p.1.status
  beacon : Name beaconNames j b!"beacon_status" p.2.status
  eff : Amount j b!"beacon_effective_balance_gwei" p.2.effBal
  acc : Amount j b!"accumulated_rewards_wei" p.1.acc
  pend : Amount j b!"pending_rewards_wei" p.1.pend
  coll : Amount j b!"collateral_wei" p.1.coll
  waddr : Text j b!"withdrawal_address" p.1.waddr
  index : Num j b!"validator_index" p.1.index
  key : Text j b!"validator_key" p.1.key
  subType : Name subNames j b!"subscription_type" p.1.subType

/-- a validator by itself: here the amounts are numbers -/
structure ValidatorDoc (j : J) (v : Validator) : Prop where
  status : Name statusNames j b!"status" v.status
  acc : Num j b!"accumulated_rewards_wei" v.acc
  pend : Num j b!"pending_rewards_wei" v.pend
  coll : Num j b!"collateral_wei" v.coll
  waddr : Text j b!"withdrawal_address" v.waddr
  index : Num j b!"validator_index" v.index
  key : Text j b!"validator_key" v.key
  subType : Name subNames j b!"subscription_type" v.subType

/-- a block; its reward is a number if it has one -/
structure BlockRow (j : J) (b : SumBlock) : Prop where
  slot : Num j b!"slot" b.slot
  block : Num j b!"block" b.block
  index : Num j b!"validator_index" b.index
  key : Text j b!"validator_key" b.key
  type : Name blockNames j b!"block_type" b.type
  reward : ∀ x, b.reward = some x → Amount j b!"reward_wei" x
  rewardType : Name rewardNames j b!"reward_type" b.rewardType
  waddr : Text j b!"withdrawal_address" b.waddr

/-- a donation -/
structure DonationRow (j : J) (e : EtherEvent) : Prop where
  amount : Amount j b!"amount_wei" e.amount
  block : Num j b!"block_number" e.block

/-- a claim and its proof -/
structure ProofDoc (j : J) (a : ProofAnswer) : Prop where
  leafAddr : Text j b!"leaf_withdrawal_address" a.leafAddr
  leafBal : Amount j b!"leaf_accumulated_balance" a.leafBal
  root : Text j b!"merkleroot" a.root
  slot : Num j b!"checkpoint_slot" a.slot
  proofs : ∃ js, Field j b!"merkle_proofs" (.arr js) ∧ js.Forall₂ (fun j s => j = .str s) a.proofs
  registered : ∃ js, Field j b!"registered_validators" (.arr js) ∧ js.Forall₂ (fun j i => j = .num i) a.registered
  accumulated : Amount j b!"total_accumulated_rewards_wei" a.accumulated
  claimed : Amount j b!"already_claimed_rewards_wei" a.claimed
  claimable : Amount j b!"claimable_rewards_wei" a.claimable
  pending : Amount j b!"pending_rewards_wei" a.pending

/-- the statistics -/
structure StatsDoc (j : J) (a : Stats) : Prop where
  subscribed : Num j b!"total_subscribed_validators" a.subscribed
  active : Num j b!"total_active_validators" a.active
  yellow : Num j b!"total_yellowcard_validators" a.yellow
  red : Num j b!"total_redcard_validators" a.red
  banned : Num j b!"total_banned_validators" a.banned
  notSubscribed : Num j b!"total_notsubscribed_validators" a.notSubscribed
  latestSlot : Num j b!"latest_checkpoint_slot" a.latestSlot
  nextCheckpoint : Num j b!"next_checkpoint_slot" a.nextCheckpoint
  accumulated : Amount j b!"total_accumulated_rewards_wei" a.accumulated
  pending : Amount j b!"total_pending_rewards_wei" a.pending
  sent : Amount j b!"total_rewards_sent_wei" a.sent
  sent30 : Amount j b!"total_rewards_sent_30days_wei" a.sent30
  perValidator30 : Amount j b!"rewards_per_validator_per_30days_wei" a.perValidator30
  donations : Amount j b!"total_donations_wei" a.donations
  avgBlock : Amount j b!"avg_block_reward_wei" a.avgBlock
  proposed : Num j b!"total_proposed_blocks" a.proposed
  missed : Num j b!"total_missed_blocks" a.missed
  wrongFee : Num j b!"total_wrongfee_blocks" a.wrongFee
  effBal : Amount j b!"total_effective_balance_gwei" a.effBal
  avgEffBal : Amount j b!"avg_effective_balance_gwei" a.avgEffBal

/-- the configuration -/
structure ConfigDoc (j : J) (c : Config) : Prop where
  network : Text j b!"network" c.network
  poolAddr : Text j b!"pool_address" c.poolAddr
  depSlot : Num j b!"deployed_slot" c.depSlot
  cpSize : Num j b!"checkpoint_size" c.cpSize
  fee : Num j b!"pool_fees_percent" c.fee
  feesAddr : Text j b!"pool_fees_address" c.poolFeesAddr
  dryRun : Flag j b!"dry_run" c.dryRun
  collateral : Amount j b!"collateral_in_wei" c.collateral

/-- the status -/
structure StatusDoc (j : J) (a : FullStatus) : Prop where
  cons : Flag j b!"is_consensus_in_sync" a.consInSync
  exec : Flag j b!"is_execution_in_sync" a.execInSync
  oracle : Flag j b!"is_oracle_in_sync" a.numbers.inSync
  latestSlot : Num j b!"latest_processed_slot" a.numbers.latestSlot
  latestBlock : Num j b!"latest_processed_block" a.numbers.latestBlock
  epoch : Num j b!"latest_finalized_epoch" a.numbers.finalizedEpoch
  finalized : Num j b!"latest_finalized_slot" a.numbers.finalizedSlot
  distance : Num j b!"oracle_sync_distance_slots" a.numbers.headDistance
  next : Num j b!"next_checkpoint_slot" a.numbers.nextCheckpoint
  remaining : Num j b!"next_checkpoint_remaining_unix" a.numbers.remainingSeconds
  remainingText : ∃ t, Text j b!"next_checkpoint_remaining" t ∧ (a.numbers.remainingSeconds ≤ 9000000000 →
    Duration.reads t = some (1000000 * (a.numbers.remainingSeconds : Int)))
  previous : Num j b!"previous_checkpoint_slot" a.numbers.previousCheckpoint
  age : Num j b!"previous_checkpoint_age_unix" a.numbers.previousAgeSeconds
  ageText : ∃ t, Text j b!"previous_checkpoint_age" t ∧ (a.numbers.previousAgeSeconds ≤ 9000000000 →
    Duration.reads t = some (1000000 * (a.numbers.previousAgeSeconds : Int)))
  consChain : Amount j b!"consensus_chainid" a.consChain
  execChain : Amount j b!"execution_chainid" a.execChain
  deposit : Text j b!"depositcontract" a.deposit

/-- a relay and its fee recipient -/
def RelayRow (j : J) (p : Str × Str) : Prop := Text j b!"relay_address" p.1 ∧ Text j b!"fee_recipient" p.2

/-- the relays -/
structure RelaysDoc (j : J) (a : RelaysAnswer) : Prop where
  ok : Flag j b!"correct_fee_recipients" a.ok
  correct : ∃ v, Field j b!"correct_fee_relayers" v ∧ NilRows RelayRow v a.correct
  wrong : ∃ v, Field j b!"wrong_fee_relayers" v ∧ NilRows RelayRow v a.wrong
  unregistered : ∃ v, Field j b!"unregistered_relayers" v ∧
    NilRows (fun j r => Text j b!"relay_address" r) v a.unregistered

/-- validators asked for by their numbers -/
structure ByIndexDoc (j : J) (a : ByIndexAnswer) : Prop where
  found : ∃ v, Field j b!"found_validators" v ∧ NilRows ValidatorRow v a.found
  notFound : ∃ v, Field j b!"not_found_validators" v ∧ NilRows (fun j i => j = .num (i : Nat)) v a.notFound

/-- A document says what the oracle answered. Nothing is asked of errors here; the whole state is the subject of
`C113_state_sync`. -/
def Says (j : J) : Reply → Prop
  | .hello => ∃ s, j = .str s
  | .status (.ok a) => StatusDoc j a
  | .config c => ConfigDoc j c
  | .relays (.ok a) => RelaysDoc j a
  | .state s => Num j b!"latest_processed_slot" s.latestSlot ∧ Num j b!"latest_processed_block" s.latestBlock ∧
      Num j b!"next_slot_to_process" s.nextSlot ∧ Num j b!"pool_accumulated_fees" s.poolFees ∧
      Text j b!"state_hash" s.stateHash
  | .validators (.ok l) => Rows ValidatorRow j l
  | .validator (.ok v) => ValidatorDoc j v
  | .byIndex (.ok a) => ByIndexDoc j a
  | .fees p a x => Num j b!"pool_fee_percent" p ∧ Text j b!"pool_fee_address" a ∧ Amount j b!"pool_accumulated_fees" x
  | .statistics (.ok a) => StatsDoc j a
  | .blocks l => Rows BlockRow j l
  | .donations l => Rows DonationRow j l
  | .proof (.ok a) => ProofDoc j a
  | _ => True

/-- The answer has status 200. -/
def IsOk : Reply → Prop
  | .status a => ∃ x, a = .ok x
  | .relays a => ∃ x, a = .ok x
  | .validators a => ∃ x, a = .ok x
  | .validator a => ∃ x, a = .ok x
  | .byIndex a => ∃ x, a = .ok x
  | .statistics a => ∃ x, a = .ok x
  | .proof a => ∃ x, a = .ok x
  | _ => True

end Client
end Verif
