{
 "claims": [
  {
   "property": "C01",
   "status": "proved",
   "theorems": [
    "Verif.C01_never_aborts",
    "Verif.C01_split_exact"
   ],
   "note": "Every share plus the pool's part equals the reward; runs without stopping when the node answers."
  },
  {
   "property": "C02",
   "status": "partial",
   "theorems": [
    "Verif.C02_balanced_iff",
    "Verif.C02_exact",
    "Verif.C02_false_twin_payment",
    "Verif.C02_solvency_partial"
   ],
   "note": "Holds under a hypothesis excluding twin payments; C02_false_twin_payment is the reachable counterexample. C02_exact gives the exact difference for every history, C02_balanced_iff says exactly when the books balance and when the reconciliation succeeds."
  },
  {
   "property": "C03",
   "status": "partial",
   "theorems": [
    "Verif.C03_each_payment_once_partial",
    "Verif.C03_exact",
    "Verif.C03_false_twin_payment"
   ],
   "note": "Holds under the same hypothesis; C03_false_twin_payment is the counterexample. C03_exact asks nothing of the block: every payment is the reward, a donation, or credited to nobody, and those credited to nobody all equal the builder's payment (or the block was missed)."
  },
  {
   "property": "C04",
   "status": "proved",
   "theorems": [
    "Verif.C04_at_least_fee",
    "Verif.C04_less_than",
    "Verif.C04_no_earner"
   ],
   "note": "Fee bounds and the no-participant case."
  },
  {
   "property": "C05",
   "status": "proved",
   "theorems": [
    "Verif.C05_before_fork1_equal",
    "Verif.C05_electra_proportional",
    "Verif.C05_fork1_equal"
   ],
   "note": "All three eras; the era before fork1 with the code's own remainder."
  },
  {
   "property": "C06",
   "status": "proved",
   "theorems": [
    "Verif.C06_false_for_extra_answers",
    "Verif.C06_only_earners"
   ],
   "note": "Under the assumption that the node answers only about the validators asked for; C06_false_for_extra_answers shows the assumption is needed."
  },
  {
   "property": "C07",
   "status": "partial",
   "theorems": [
    "Verif.C07_false_before_fork1",
    "Verif.C07_nonneg_partial"
   ],
   "note": "Holds for fork1 and later; C07_false_before_fork1 is the counterexample before."
  },
  {
   "property": "C08",
   "status": "partial",
   "theorems": [
    "Verif.C08_claimable_grows_partial",
    "Verif.C08_false_before_fork1"
   ],
   "note": "Self-consolidations excluded by hypothesis, and blocks before the first fork: there the claim is false (C08_false_before_fork1)."
  },
  {
   "property": "C09",
   "status": "partial",
   "theorems": [
    "Verif.C09_cleanup_exact",
    "Verif.C09_false_consolidation_chain",
    "Verif.C09_history_partial",
    "Verif.C09_slot_partial",
    "Verif.C09_slot_without_cleanup"
   ],
   "note": "Proved for all iteration orders, for slots and whole histories, when no tracked validator that left is consolidated into a tracked one that left too (what other validators do does not matter); false otherwise: C09_false_consolidation_chain. C09_cleanup_exact: the validators and fees after a cleanup are independent of the order if and only if no balance of a leaver would move to a leaver. Orders of iteration in the Merkle code are covered by C29."
  },
  {
   "property": "C10",
   "status": "proved",
   "theorems": [
    "Verif.C10_diagram",
    "Verif.C10_five_states",
    "Verif.C10_one_step_per_proposal"
   ],
   "note": "The documented diagram extended by the code's manual ban, unban and leaving the chain."
  },
  {
   "property": "C11",
   "status": "proved",
   "theorems": [
    "Verif.C11_ban_permanent",
    "Verif.C11_banned_nothing_pending",
    "Verif.C11_unban"
   ],
   "note": ""
  },
  {
   "property": "C12",
   "status": "proved",
   "theorems": [
    "Verif.C12_banned",
    "Verif.C12_pending_shared"
   ],
   "note": ""
  },
  {
   "property": "C13",
   "status": "proved",
   "theorems": [
    "Verif.C13_miss_of_outsider",
    "Verif.C13_miss_of_subscribed"
   ],
   "note": ""
  },
  {
   "property": "C14",
   "status": "proved",
   "theorems": [
    "Verif.C14_others",
    "Verif.C14_paying_proposal"
   ],
   "note": ""
  },
  {
   "property": "C15",
   "status": "proved",
   "theorems": [
    "Verif.C15_only_ways",
    "Verif.C15_subscriptions"
   ],
   "note": ""
  },
  {
   "property": "C16",
   "status": "proved",
   "theorems": [
    "Verif.C16_only_owner",
    "Verif.C16_same_text",
    "Verif.C16_unsubscribed"
   ],
   "note": ""
  },
  {
   "property": "C17",
   "status": "proved",
   "theorems": [
    "Verif.C17_no_address",
    "Verif.C17_subscribed"
   ],
   "note": ""
  },
  {
   "property": "C18",
   "status": "proved",
   "theorems": [
    "Verif.C18_identity_stable"
   ],
   "note": ""
  },
  {
   "property": "C19",
   "status": "proved",
   "theorems": [
    "Verif.C19_addresses_well_formed"
   ],
   "note": ""
  },
  {
   "property": "C20",
   "status": "proved",
   "theorems": [
    "Verif.C20_after_n_slots",
    "Verif.C20_exactly_next",
    "Verif.C20_other_slots_rejected"
   ],
   "note": ""
  },
  {
   "property": "C21",
   "status": "partial",
   "theorems": [
    "Verif.C21_answered",
    "Verif.C21_exact",
    "Verif.C21_failed_slot_partial",
    "Verif.C21_false_cleanup",
    "Verif.C21_false_fee",
    "Verif.C21_false_lost",
    "Verif.C21_interrupted_loses"
   ],
   "note": "C21_false_fee and C21_false_cleanup show that a failed slot can leave changes behind; the rest is proved unchanged. C21_exact: exactly what a failed slot leaves behind and why it failed; C21_answered: with a node that answers, at most the agreed new fee; C21_interrupted_loses and C21_false_lost: what an interrupted cleanup loses."
  },
  {
   "property": "C22",
   "status": "proved",
   "theorems": [
    "Verif.C22_checkpoint_cadence"
   ],
   "note": ""
  },
  {
   "property": "C23",
   "status": "proved",
   "theorems": [
    "Verif.C23_append_only",
    "Verif.C23_recorded_once"
   ],
   "note": ""
  },
  {
   "property": "C24",
   "status": "proved",
   "theorems": [
    "Verif.C24_checkpoint_possible",
    "Verif.C24_leaves_are_debts"
   ],
   "note": "Leaves and total for every iteration order; freezing succeeds for every state with well-formed addresses."
  },
  {
   "property": "C25",
   "status": "partial",
   "theorems": [
    "Verif.C25_exact",
    "Verif.C25_false_fee_recipient_validator",
    "Verif.C25_one_leaf_each_partial"
   ],
   "note": "One leaf and proof per address when the pool fee recipient owns no tracked validator. False otherwise: C25_false_fee_recipient_validator (the pool fee leaf is overwritten and its proof lost). C25_exact: the leaf of the fee address is the pool fees if it owns no tracked validator, and only the debt to its validators otherwise."
  },
  {
   "property": "C26",
   "status": "proved",
   "theorems": [
    "Verif.C26_stored_proofs_verify"
   ],
   "note": "Any number of leaves, any hash function. The tree library (go-merkletree) is modelled from its documented behaviour."
  },
  {
   "property": "C27",
   "status": "proved",
   "theorems": [
    "Verif.C27_only_debts_claimable"
   ],
   "note": "Reduction to an explicit hash collision between the verifier inputs and the finitely many inputs of the tree; amounts non-negative and below 2^256."
  },
  {
   "property": "C28",
   "status": "proved",
   "theorems": [
    "Verif.C28_checkpoints_immutable",
    "Verif.C28_freeze_adds_one",
    "Verif.C28_latest_is_just_frozen",
    "Verif.C28_slots_keep_checkpoints"
   ],
   "note": "Every interleaving of slots and freezes from a new oracle."
  },
  {
   "property": "C29",
   "status": "proved",
   "theorems": [
    "Verif.C29_same_debts_both_freeze",
    "Verif.C29_same_debts_same_root"
   ],
   "note": "Same root, leaves and proofs for states with the same debts, for any iteration orders."
  },
  {
   "property": "C30",
   "status": "partial",
   "theorems": [
    "Verif.C30_exact",
    "Verif.C30_false_pool_owned_validator",
    "Verif.C30_library_partial",
    "Verif.C30_round_trip_partial",
    "Verif.C30_work_goes_on"
   ],
   "note": "Round trip proved for every reachable state whose addresses are valid and none of which is the pool; C30_library_partial puts in the modelled library functions (JSON text, SHA-256, Keccak-256); C30_false_pool_owned_validator shows the restriction is needed (loading is Fatal). C30_exact: a saved reachable state with well-formed addresses is read back if and only if no tracked validator belongs to the pool contract."
  },
  {
   "property": "C31",
   "status": "proved",
   "theorems": [
    "Verif.C31_accepted_only_if",
    "Verif.C31_library_tampering",
    "Verif.C31_library_torn",
    "Verif.C31_rejected_unchanged",
    "Verif.C31_tampering_needs_collision",
    "Verif.C31_torn_file_rejected"
   ],
   "note": "Acceptance implies structure, hash, configuration; rejection leaves the state alone (the shared configuration may keep a new fee, see C32); torn files are rejected; tampering without a new hash exhibits two named different texts with the same SHA-256. With the modelled library functions (C31_library_...) nothing is assumed of the file."
  },
  {
   "property": "C32",
   "status": "partial",
   "theorems": [
    "Verif.C32_exact",
    "Verif.C32_false_across_fee_change",
    "Verif.C32_false_damaged_copy",
    "Verif.C32_false_mainnet",
    "Verif.C32_life_partial",
    "Verif.C32_rollback_partial"
   ],
   "note": "Rollback proved when the fee of both states is the same, for single files and over whole lives; C32_false_across_fee_change and C32_false_mainnet show it fails across a scheduled fee change, C32_false_damaged_copy that a damaged copy of the slot prevents it although older copies exist. C32_exact: with the copy of the accepted slot at hand the rollback works if and only if the fee of the older state is that of the newer one or a scheduled fee that had come by then."
  },
  {
   "property": "C33",
   "status": "proved",
   "theorems": [
    "Verif.C33_fee_by_schedule",
    "Verif.C33_fees_equal",
    "Verif.C33_latest_change_counts"
   ],
   "note": ""
  },
  {
   "property": "C34",
   "status": "partial",
   "theorems": [
    "Verif.C34_false_interrupted_submission",
    "Verif.C34_false_torn_write",
    "Verif.C34_reprocessing_partial",
    "Verif.C34_restart_partial"
   ],
   "note": "Proved under the conditions of C09 for complete files; C34_false_torn_write and C34_false_interrupted_submission show two crashes after which the oracle cannot start."
  },
  {
   "property": "C35",
   "status": "proved",
   "theorems": [
    "Verif.C35_each_slot",
    "Verif.C35_first_error_stops",
    "Verif.C35_in_order"
   ],
   "note": ""
  },
  {
   "property": "C36",
   "status": "partial",
   "theorems": [
    "Verif.C36_false_shutdown",
    "Verif.C36_saved",
    "Verif.C36_submission",
    "Verif.C36_submitted_is_committed"
   ],
   "note": "Submission and the main loop's own saving proved for every run. C36_false_shutdown: the shutdown handler writes a checkpoint the contract has not shown yet."
  },
  {
   "property": "C37",
   "status": "partial",
   "theorems": [
    "Verif.C37_false_never_again",
    "Verif.C37_false_restart",
    "Verif.C37_false_skipped",
    "Verif.C37_submits_partial"
   ],
   "note": "False in general: C37_false_never_again, C37_false_skipped and C37_false_restart show the oracle never submits again after a skipped checkpoint (or a SIGTERM between processing and freezing). C37_submits_partial is the case in which it does submit."
  },
  {
   "property": "C38",
   "status": "proved",
   "theorems": [
    "Verif.C38_roots",
    "Verif.C38_sync_check"
   ],
   "note": "For roots of the length of an on-chain root, which C38_roots shows of every stored root; other lengths are Fatal in utils.Equals."
  },
  {
   "property": "C39",
   "status": "partial",
   "theorems": [
    "Verif.C39_exact",
    "Verif.C39_false_builder_pays_elsewhere",
    "Verif.C39_fee_recipient_partial",
    "Verif.C39_unknown_sender_partial"
   ],
   "note": "Proved when the last transaction is not a payment of the fee recipient or a listed builder to somebody else; false otherwise: C39_false_builder_pays_elsewhere. C39_exact: such a proposer is banned if and only if the last transaction is a payment of the fee recipient or a listed builder that arrives elsewhere."
  },
  {
   "property": "C40",
   "status": "partial",
   "theorems": [
    "Verif.C40_exact",
    "Verif.C40_false_mismatch_not_reported",
    "Verif.C40_inconsistent_partial",
    "Verif.C40_recorded",
    "Verif.C40_tip_is_priority_fees"
   ],
   "note": "C40_false_mismatch_not_reported: the wrapped nil error hides one inconsistency. C40_exact: exactly which blocks have a tip, which give an error, and which give neither (the first receipt that does not fit belongs to another transaction)."
  },
  {
   "property": "C41",
   "status": "proved",
   "theorems": [
    "Verif.C41_missed_without_payments",
    "Verif.C41_receipts_fetched",
    "Verif.C41_summary_succeeds"
   ],
   "note": "The fetch fetches the receipts that processing asks for, for every finalized block; missed blocks carry no payments."
  },
  {
   "property": "C42",
   "status": "partial",
   "theorems": [
    "Verif.C42_block_processed_partial",
    "Verif.C42_exact",
    "Verif.C42_false_before_fork1",
    "Verif.C42_false_reconfigured",
    "Verif.C42_false_silent_payment",
    "Verif.C42_never_stops_partial",
    "Verif.C42_reconfigured",
    "Verif.C42_silent_payment"
   ],
   "note": "Proved for whole executions over honest chains (HonestChain lists what is asked of the chain). C42_exact: of the blocks that follow the rules of the chain exactly those are processed whose configuration events were agreed and whose payments to the pool were reported; C42_reconfigured and C42_silent_payment say how the others stop the oracle. False: C42_false_silent_payment, C42_false_reconfigured, and before the first fork C42_false_before_fork1."
  },
  {
   "property": "C43",
   "status": "partial",
   "theorems": [
    "Verif.C43_accumulated_kept",
    "Verif.C43_false_pending",
    "Verif.C43_not_before",
    "Verif.C43_on_duty_partial",
    "Verif.C43_only_leavers_partial",
    "Verif.C43_other_slots"
   ],
   "note": "Proved with 'not active' for 'exited or slashed'; C43_false_pending shows that the claim as stated fails for validators in the activation queue. C43_other_slots: at slots not divisible by 1200 the beacon status changes nothing."
  },
  {
   "property": "C44",
   "status": "partial",
   "theorems": [
    "Verif.C44_exact_partial",
    "Verif.C44_false_self",
    "Verif.C44_nothing_lost_partial",
    "Verif.C44_pending_moves_partial"
   ],
   "note": "Total preserved and pending moved, self-consolidations excluded; C44_false_self shows the exclusion is needed. C44_exact_partial gives the whole outcome as one formula, when nobody is consolidated into somebody who left too (C09_false_cleanup_order)."
  },
  {
   "property": "C45",
   "status": "proved",
   "theorems": [
    "Verif.C45_reconciliation_exact"
   ],
   "note": "The reconciliation succeeds iff balance + claims = everything owed, for every iteration order."
  },
  {
   "property": "C46",
   "status": "proved",
   "theorems": [
    "Verif.C46_answer_is_debt",
    "Verif.C46_answer_verifies",
    "Verif.C46_letter_case",
    "Verif.C46_owner_served"
   ],
   "note": "For every reachable oracle and every contract answer: a successful answer verifies against the root in the contract, is the leaf of the requested address in any letter case, claimable = leaf balance - claimed, and the leaf balance is the accumulated balance of the validators of that address in the frozen checkpoint; conversely an owner with a leaf is served. The readings of the state are taken as one moment (no lock is held between them)."
  },
  {
   "property": "C47",
   "status": "partial",
   "theorems": [
    "Verif.C47_answers",
    "Verif.C47_endpoint_partial",
    "Verif.C47_false_missing",
    "Verif.C47_false_overlap",
    "Verif.C47_nothing_else",
    "Verif.C47_pending",
    "Verif.C47_start",
    "Verif.C47_status"
   ],
   "note": "C47_endpoint_partial: the whole endpoint, given the logs of the chain: every validator of the address that the beacon node reports is listed with the status, and if no rewards are shared the pending balance, that the oracle records after processing the blocks, if nothing else concerns the validator and the cached beacon status agrees on whether it may subscribe (simulation of ApplyNonFinalizedState against the slot relation proved in C60). C47_nothing_else: no other validator is listed, none twice, ordered by index. C47_start: the records the endpoint starts from. C47_answers: with every validator of a subscription in the cache the events are always applied; C47_false_missing: a subscription by the owner of a shown validator missing from the cache is a nil dereference. The accumulated balance is not part of the claim: a subscription while subscribed credits it in the oracle but not in the view. C47_false_overlap: if a slot is processed while the request is answered, the two reads of the state do not fit together and an event is lost from the view; the other theorems assume that no slot is processed meanwhile."
  },
  {
   "property": "C48",
   "status": "partial",
   "theorems": [
    "Verif.C48_answers_partial",
    "Verif.C48_consistent",
    "Verif.C48_exact",
    "Verif.C48_false_all_red",
    "Verif.C48_false_reachable"
   ],
   "note": "Proved for every reachable oracle: whenever the endpoint answers, the counters are the tallies by status, they add up to the number of tracked validators and the totals are the sums. Totality is false: C48_false_all_red and C48_false_reachable show a reachable state (all subscribed validators red-carded) where the handler panics dividing by zero. C48_answers_partial: it answers otherwise once the oracle is one month old. C48_exact: the endpoint answers if and only if the oracle is in sync, slot and block are at least 216000 and not all subscribed validators have a red card."
  },
  {
   "property": "C49",
   "status": "partial",
   "theorems": [
    "Verif.C49_allowed_partial",
    "Verif.C49_false_ahead",
    "Verif.C49_ready_exact",
    "Verif.C49_ready_partial"
   ],
   "note": "C49_ready_exact characterises the check with the 64-bit wrap; C49_ready_partial gives the claim when the oracle is not ahead of the finalized slot; C49_false_ahead shows that an oracle ahead of the finalized slot reported by the node is answered not ready."
  },
  {
   "property": "C50",
   "status": "partial",
   "theorems": [
    "Verif.C50_address",
    "Verif.C50_false_pubkey",
    "Verif.C50_index",
    "Verif.C50_pubkey_partial"
   ],
   "note": "Addresses and indices are proved exactly. For public keys the regular expression also admits characters between 'A' and 'f' that are not hexadecimal digits: C50_pubkey_partial gives exactly the accepted strings, C50_false_pubkey a family of accepted strings that are not keys."
  },
  {
   "property": "C51",
   "status": "partial",
   "theorems": [
    "Verif.C51_exclusive",
    "Verif.C51_false_shutdown",
    "Verif.C51_false_state",
    "Verif.C51_false_window",
    "Verif.C51_granted_partial",
    "Verif.C51_service",
    "Verif.C51_service_exclusive"
   ],
   "note": "False for the code: IsCheckpoint (and LatestCommitedSlot/State) take the read lock twice, so a writer arriving in between (GET /state or the shutdown handler) stops the main loop and that writer for ever (C51_false_window, C51_false_state, C51_false_shutdown). Proved: without writers other than the main loop, or in every program that does not nest read locks, every request is granted under every fair schedule. Not covered: error returns that leave the mutex locked when json.Marshal fails."
  },
  {
   "property": "C52",
   "status": "partial",
   "theorems": [
    "Verif.C52_false_empty_file",
    "Verif.C52_false_half",
    "Verif.C52_file_content_partial",
    "Verif.C52_file_partial",
    "Verif.C52_whole_slots_partial"
   ],
   "note": "Proved for every interleaving of main loop, shutdown handler and GET /state, with arbitrary memory inside critical sections: what the handler writes is the saved form of a state between slots, and the file has it if the main loop does not write files meanwhile. C52_file_content_partial says everything the file can contain when both write: what it was at first, nothing, a saved form, or a saved form followed by the rest of a longer one. False in two cases: a slot that fails releases the mutex before the process ends (C52_false_half, the collateral is then credited twice), and a signal during the main loop's own save can leave an empty file (C52_false_empty_file)."
  },
  {
   "property": "C53",
   "status": "proved",
   "theorems": [
    "Verif.C53_checkpoint_kept",
    "Verif.C53_freeze",
    "Verif.C53_history",
    "Verif.C53_no_shared_cell",
    "Verif.C53_own_cell",
    "Verif.C53_slot",
    "Verif.C53_start"
   ],
   "note": "Model/Heap.lean is a second model of one slot, of freezing and of loading in which every *big.Int is a pointer into a heap and is updated in place where the Go code does so. For every history from a new oracle or from any loaded file, including slots that return an error half way: two balances never share a cell, overwriting one balance changes nothing else the state can see, checkpoints keep their numbers, and the program with pointers computes exactly what the model with separate numbers computes (same crash, same error, same numbers). Not in the pointer model: the copies handed to the HTTP handlers, which are deep copies (api.go:721) or only read."
  },
  {
   "property": "C54",
   "status": "partial",
   "theorems": [
    "Verif.C54_cache_transparent_partial",
    "Verif.C54_false_epoch_zero",
    "Verif.C54_false_short_answer",
    "Verif.C54_panic_exact"
   ],
   "note": "Transparent for complete answers as long as no slot of the first epoch is asked for before the node has answered for a later one; C54_panic_exact: with complete answers exactly the other sequences of lookups panic. C54_false_epoch_zero and C54_false_short_answer are panics."
  },
  {
   "property": "C55",
   "status": "proved",
   "theorems": [
    "Verif.C55_bulk_lookup"
   ],
   "note": ""
  },
  {
   "property": "C56",
   "status": "partial",
   "theorems": [
    "Verif.C56_false_reverted",
    "Verif.C56_outcome",
    "Verif.C56_own_roots_sent",
    "Verif.C56_rejects",
    "Verif.C56_sends_exactly",
    "Verif.C56_timeout_reported_partial"
   ],
   "note": "Validation and bytes sent proved; C56_false_reverted: a reverted transaction is reported as success."
  },
  {
   "property": "C57",
   "status": "proved",
   "theorems": [
    "Verif.C57_address",
    "Verif.C57_address_injective",
    "Verif.C57_classified",
    "Verif.C57_exclusive",
    "Verif.C57_proposer"
   ],
   "note": "Every 32-byte credential is classified by its prefix, the address of 0x01 and 0x02 credentials is the last 20 bytes in lower-case hex, injective. Malformed 0x01/0x02 credentials (non-zero padding) are treated like BLS with an empty address, as the code does."
  },
  {
   "property": "C58",
   "status": "proved",
   "theorems": [
    "Verif.C58_block",
    "Verif.C58_reward",
    "Verif.C58_status",
    "Verif.C58_subscription"
   ],
   "note": ""
  },
  {
   "property": "C59",
   "status": "partial",
   "theorems": [
    "Verif.C59_claims_partial",
    "Verif.C59_exact",
    "Verif.C59_false_shared_fee_address",
    "Verif.C59_reachable",
    "Verif.C59_unique_addresses"
   ],
   "note": "The list has no duplicates and contains exactly the addresses with balances, unless the pool-fees address is also a withdrawal address of a validator: C59_false_shared_fee_address shows the duplicate in that case. C59_exact: the lookup stops the process if and only if the fee address is literally a withdrawal address; otherwise the sum is right, plus the claims of the fee address once more if it is a withdrawal address in another letter case."
  },
  {
   "property": "C60",
   "status": "proved",
   "theorems": [
    "Verif.C60_slot_refines"
   ],
   "note": "Refinement of the relation in Spec/Slot.lean."
  },
  {
   "property": "C61",
   "status": "partial",
   "theorems": [
    "Verif.C61_checkpoint_after_any_history_partial",
    "Verif.C61_exact",
    "Verif.C61_false_pool_owned_validator"
   ],
   "note": "Holds when no tracked validator has the pool contract as withdrawal address. False otherwise: C61_false_pool_owned_validator (such a validator gets subscribed by proposing one block, then every checkpoint is fatal). C61_exact: after any history a checkpoint can be frozen if and only if no tracked validator has the pool contract as withdrawal address."
  },
  {
   "property": "C62",
   "status": "partial",
   "theorems": [
    "Verif.C62_config_partial",
    "Verif.C62_default",
    "Verif.C62_false_front_run",
    "Verif.C62_false_spoofed",
    "Verif.C62_initial_fee_partial",
    "Verif.C62_sound"
   ],
   "note": "Missing: a deployment block in which another transaction looks like the initialisation. There the claim is false: anybody can create a contract whose code contains the bytes of the call (C62_false_spoofed, C62_false_front_run). C62_sound: the fee always comes from such bytes."
  },
  {
   "property": "C63",
   "status": "proved",
   "theorems": [
    "Verif.C63_deployed_slot",
    "Verif.C63_slot_by_block",
    "Verif.C63_slot_found",
    "Verif.C63_starts"
   ],
   "note": "For contracts deployed in a block number below 2^64, the width of the Go type."
  },
  {
   "property": "C64",
   "status": "partial",
   "theorems": [
    "Verif.C64_false_collateral_raised",
    "Verif.C64_late_joiner_partial"
   ],
   "note": "Missing: parameters of the contract that changed between the two starts. There the claim is false (C64_false_collateral_raised): start-up reads them as of now and applies them to the whole past."
  },
  {
   "property": "C65",
   "status": "partial",
   "theorems": [
    "Verif.C65_command_line",
    "Verif.C65_different_chains",
    "Verif.C65_false_no_prefix",
    "Verif.C65_sane_start"
   ],
   "note": "The command line and the start-up checks are characterised in full. The last part is false: an address without 0x is accepted, but stops the process at the first proposed block (C65_false_no_prefix)."
  },
  {
   "property": "C66",
   "status": "partial",
   "theorems": [
    "Verif.C66_false_no_prefix",
    "Verif.C66_false_race",
    "Verif.C66_no_request_stops_the_process_partial"
   ],
   "note": "Proved for requests served between slots if the pool address has its 0x prefix: no log.Fatal for any reachable oracle, any request and any outside answers. False without the prefix, which the command line accepts (anyone can stop the process with one request), and false for handlers running concurrently with the main loop: they iterate over the live map without holding the lock."
  },
  {
   "property": "C67",
   "status": "proved",
   "theorems": [
    "Verif.C67_refused",
    "Verif.C67_relays"
   ],
   "note": "Exact lists and verdict for every successful answer; refusal characterised (pool address with 0x prefix; C66_false_no_prefix otherwise)."
  },
  {
   "property": "C68",
   "status": "partial",
   "theorems": [
    "Verif.C68_by_index",
    "Verif.C68_cache",
    "Verif.C68_every_index_partial",
    "Verif.C68_false_not_ready",
    "Verif.C68_false_unreported",
    "Verif.C68_refused"
   ],
   "note": "Accepted texts and both lists characterised exactly. Every index accounted for if the beacon node reported all tracked validators; false otherwise (the index is in neither list), and the endpoint does not check synchronisation. C68_cache: a lookup in the cache of beacon validators finds the validator stored under that index."
  },
  {
   "property": "C69",
   "status": "proved",
   "theorems": [
    "Verif.C69_reading_only",
    "Verif.C69_work_goes_on"
   ],
   "note": "For every reachable oracle; the write in handleMemoryValidatorInfo is shown to be unreachable."
  },
  {
   "property": "C70",
   "status": "proved",
   "theorems": [
    "Verif.C70_one_endpoint",
    "Verif.C70_router"
   ],
   "note": "Router as a function on paths; mux's redirection of unclean paths and non-GET methods are not modelled."
  },
  {
   "property": "C71",
   "status": "partial",
   "theorems": [
    "Verif.C71_false_ahead",
    "Verif.C71_status_partial"
   ],
   "note": "Proved if oracle and contract are not ahead of the node's finalized slot. False one slot ahead: shown as 2^64-1 slots behind."
  },
  {
   "property": "C72",
   "status": "proved",
   "theorems": [
    "Verif.C72_validators"
   ],
   "note": "For every reachable oracle that is ready, with any map iteration order."
  },
  {
   "property": "C73",
   "status": "proved",
   "theorems": [
    "Verif.C73_blocks",
    "Verif.C73_exact",
    "Verif.C73_one_slot"
   ],
   "note": "Whole histories from a new oracle. C73_one_slot and C73_exact: which slots are in which list, exactly, slot by slot and for a whole history."
  },
  {
   "property": "C74",
   "status": "partial",
   "theorems": [
    "Verif.C74_false_unanswered",
    "Verif.C74_honest_contract_partial",
    "Verif.C74_money_check_partial",
    "Verif.C74_no_change",
    "Verif.C74_not_due"
   ],
   "note": "The check itself needs that no validator withdraws to the pool fee address (as C59) and that the contract answers; C74_false_unanswered: an unreadable balance postpones the check by three hours. The last part rests on C02, with its hypotheses."
  },
  {
   "property": "C75",
   "status": "partial",
   "theorems": [
    "Verif.C75_false_lost_connection",
    "Verif.C75_false_status",
    "Verif.C75_found",
    "Verif.C75_missed_partial",
    "Verif.C75_no_block",
    "Verif.C75_waits"
   ],
   "note": "missed implies a 404 answer unless another error text contains 404; false otherwise, for every slot with 404 in its decimal number"
  },
  {
   "property": "C76",
   "status": "partial",
   "theorems": [
    "Verif.C76_false_lost_connection",
    "Verif.C76_false_undecodable_log",
    "Verif.C76_gives_up",
    "Verif.C76_never_gives_up",
    "Verif.C76_same_block_partial"
   ],
   "note": "same block as without failures if all logs decode and no stray 404; false otherwise"
  },
  {
   "property": "C77",
   "status": "partial",
   "theorems": [
    "Verif.C77_false_lost_connection",
    "Verif.C77_same_books_partial",
    "Verif.C77_same_roots_partial"
   ],
   "note": "same books and same roots for any two live runs; conditions: no stray 404, no consolidation between two validators that left; false without the first (here) and the second (C09)"
  },
  {
   "property": "C78",
   "status": "partial",
   "theorems": [
    "Verif.C78_each",
    "Verif.C78_false_consolidated_between",
    "Verif.C78_pair_partial"
   ],
   "note": "holds if nothing is consolidated between the two calls; false otherwise"
  },
  {
   "property": "C79",
   "status": "partial",
   "theorems": [
    "Verif.C79_errors_repeated",
    "Verif.C79_false_no_list",
    "Verif.C79_listed",
    "Verif.C79_read_partial",
    "Verif.C79_reads"
   ],
   "note": "C79_reads: what is read from an answer is characterised exactly, the list is read as sent; false for a success without a list"
  },
  {
   "property": "C80",
   "status": "partial",
   "theorems": [
    "Verif.C80_donations",
    "Verif.C80_false_twin_payment",
    "Verif.C80_fees",
    "Verif.C80_fees_add_up_partial",
    "Verif.C80_fees_exact"
   ],
   "note": "Fee address, fee and configuration without conditions; the accumulated fee exactly, for every history, with the payments credited to nobody as the difference (C80_fees_exact). The claim is false for a payment that equals the one of the builder: it is not listed and is missing in the fees (C80_false_twin_payment)."
  },
  {
   "property": "C81",
   "status": "partial",
   "theorems": [
    "Verif.C81_checkpoint_sync_partial",
    "Verif.C81_false_ahead",
    "Verif.C81_false_lying_source"
   ],
   "note": "Any text that parses to the served document is accepted and gives the same state and configuration. False if the source has frozen a checkpoint that the contract has not accepted (C81_false_ahead), for malformed addresses (C30_false_pool_owned_validator), and for a source that lies (C81_false_lying_source)."
  },
  {
   "property": "C82",
   "status": "partial",
   "theorems": [
    "Verif.C82_false_other_root",
    "Verif.C82_keeps_up_partial",
    "Verif.C82_never_stops_partial"
   ],
   "note": "Never stops, and processes every finalized slot, on honest answers (GoodFetch, GoodEnv, Reliable: as in C42, C02, C59, C61 no validator withdraws to the pool, payments are reported once) and if no wait lasts for ever. False otherwise: after submitting a root the loop waits for exactly that root to appear on the contract; if another one was consolidated it waits for ever and processes nothing (C82_false_other_root)."
  },
  {
   "property": "C83",
   "status": "partial",
   "theorems": [
    "Verif.C83_books_balance_partial",
    "Verif.C83_goes_on_partial",
    "Verif.C83_keeps_up_partial",
    "Verif.C83_one_root_partial",
    "Verif.C83_restarts_invisible",
    "Verif.C83_same_books_partial",
    "Verif.C83_starts_again_partial"
   ],
   "note": "Restart invariance of the books is proved for all lives; agreement, balance, progress and starting again carry the conditions without which C77, C09, C02, C82, C32 and C34 are false."
  },
  {
   "property": "C84",
   "status": "partial",
   "theorems": [
    "Verif.C84_accepted_settles_partial",
    "Verif.C84_member_settles_partial",
    "Verif.C84_members_agree_partial",
    "Verif.C84_one_root_partial"
   ],
   "note": "Proved for all votes, lives and claims under the conditions of C77 and C83 (honest nodes, consolidation targets active, sane configuration) and with everything received below 2^256; payments of equal amounts in a block are allowed. The contract is assumed as stated in Spec/Pool.lean."
  },
  {
   "property": "C85",
   "status": "partial",
   "theorems": [
    "Verif.C85_can_pay_partial"
   ],
   "note": "Invariant of all runs of the contract stated in Spec/Pool.lean (an assumption: the contract is not in the repository), under the conditions of C84. A claim through a hash collision is the only alternative."
  },
  {
   "property": "C86",
   "status": "proved",
   "theorems": [
    "Verif.C86_only_when_ready",
    "Verif.C86_otherwise"
   ],
   "note": "Exact: processing implies readiness, and what happens otherwise. The sync flags of the consensus node (is_syncing, is_optimistic) are not read by the code."
  },
  {
   "property": "C87",
   "status": "partial",
   "theorems": [
    "Verif.C87_any_order",
    "Verif.C87_exact",
    "Verif.C87_false_stops",
    "Verif.C87_harmless_partial"
   ],
   "note": "Exact characterisation of the lists that are accepted and of the cache; the main loop is unaffected by a complete list. False for implausible lists (C87_false_stops)."
  },
  {
   "property": "C88",
   "status": "partial",
   "theorems": [
    "Verif.C88_all_keep_up_partial",
    "Verif.C88_contract_goes_on_partial",
    "Verif.C88_false_overtaken",
    "Verif.C88_not_ahead_partial",
    "Verif.C88_overtaken_waits",
    "Verif.C88_roots_settle_partial"
   ],
   "note": "Liveness and safety of several oracles with the contract, for all interleavings and all votes of a minority of dishonest members. Needs: the conditions of C83 and C84; at the first checkpoint somebody is tracked (else an oracle is stuck after it, C37); no honest oracle sleeps through a whole checkpoint while it waits for its vote. Without the last it is false: C88_false_overtaken. The contract is assumed as stated in Spec/System.lean."
  },
  {
   "property": "C89",
   "status": "proved",
   "theorems": [
    "Verif.C89_not_ahead",
    "Verif.C89_sync_not_ahead"
   ],
   "note": "every start of every life (crashes, cut-off files, restarts, sync from another living oracle) holds no checkpoint later than the contract's slot; slots are assumed to stay two checkpoints away from 2^64. The part about copies that stay is C32_life_partial."
  },
  {
   "property": "C90",
   "status": "proved",
   "theorems": [
    "Verif.C90_nobody_else_takes"
   ],
   "note": "For all histories from fork1 on with non-negative payments. Before fork1 shares can be negative (C07_false_before_fork1)."
  },
  {
   "property": "C91",
   "status": "proved",
   "theorems": [
    "Verif.C91_smooths"
   ],
   "note": "For all reachable states and all histories during which both take part; unbans of the two and consolidations into them are excluded by hypothesis, as the claim says."
  },
  {
   "property": "C92",
   "status": "partial",
   "theorems": [
    "Verif.C92_cleanup_exact",
    "Verif.C92_false_zero_pending",
    "Verif.C92_off_duty",
    "Verif.C92_removed_partial"
   ],
   "note": "C92_removed_partial: a validator with a pending balance is removed at the cleanup slot. C92_cleanup_exact: after a cleanup, somebody who has left the chain and into whom nobody is consolidated is still a member exactly if it was one and had nothing pending. Missing, because false: validators without a pending balance stay members (C92_false_zero_pending); targets of consolidations are excluded."
  },
  {
   "property": "C93",
   "status": "partial",
   "theorems": [
    "Verif.C93_false_token_payment",
    "Verif.C93_paid_partial"
   ],
   "note": "C93_paid_partial: the proposer had the pool as fee recipient or the block ends with a payment that arrived at the pool. Missing, because false: the amount (C93_false_token_payment)."
  },
  {
   "property": "C94",
   "status": "partial",
   "theorems": [
    "Verif.C94_builder_paid_partial",
    "Verif.C94_false_not_last"
   ],
   "note": "C94_builder_paid_partial: proved if the payment is the last transaction, sent by the fee recipient. False otherwise: C94_false_not_last."
  },
  {
   "property": "C95",
   "status": "proved",
   "theorems": [
    "Verif.C95_more_stake_not_less"
   ],
   "note": "C95_more_stake_not_less: every stage of a slot, and the cleanup, gives the validator with less at stake at most what it gives the other. Assumed besides the claim: the rules of the chain for gas, no negative payments and values, effective balances below 2^63."
  },
  {
   "property": "C96",
   "status": "proved",
   "theorems": [
    "Verif.C96_never_owes_more"
   ],
   "note": "C96_never_owes_more: induction over the history; each slot adds at most as much to the debts as to the income, even when payments of a block have equal amounts or arrive in a missed slot. Amounts are non-negative, as on the chain."
  },
  {
   "property": "C97",
   "status": "proved",
   "theorems": [
    "Verif.C97_splitting_gains_nothing",
    "Verif.C97_stake_counts"
   ],
   "note": "C97_stake_counts bounds the gain of every group from both sides, C97_splitting_gains_nothing compares two groups in two pools. Effective balances are those of the chain and below 2^63."
  },
  {
   "property": "C98",
   "status": "partial",
   "theorems": [
    "Verif.C98_check_passes_partial",
    "Verif.C98_false_second_payment",
    "Verif.C98_gap_stays",
    "Verif.C98_gap_stops_contract",
    "Verif.C98_gap_stops_oracles"
   ],
   "note": "False of the code: C98_false_second_payment gives an honest chain on which one more payment of the amount of a reward stops all oracles for good and the contract accepts no further root. C98_gap_stays, C98_gap_stops_oracles and C98_gap_stops_contract say this for every chain and every gap in the books. C98_check_passes_partial: without a second payment of the same amount in a rewarded block the check passes after every life."
  },
  {
   "property": "C99",
   "status": "partial",
   "theorems": [
    "Verif.C99_every_slot",
    "Verif.C99_everybody",
    "Verif.C99_false_leave_join",
    "Verif.C99_false_unban_ban",
    "Verif.C99_in_order_partial",
    "Verif.C99_kind_by_kind"
   ],
   "note": "C99_everybody: in a slot without cleanup the status of every validator is made by its subscriptions, then its proposal, then its unsubscriptions, bans and unbans; C99_kind_by_kind is this for those who do not propose. Equal to the order of the chain if the orders come sorted that way. False as stated: unban then ban, unsubscribe then subscribe. C99_every_slot: the same at every slot, except that at a slot of the cleanup a member who is not active on the chain may cease to be one."
  },
  {
   "property": "C100",
   "status": "partial",
   "theorems": [
    "Verif.C100_false_goes_on",
    "Verif.C100_false_not_compared",
    "Verif.C100_submitted_partial"
   ],
   "note": "A root the oracle submitted itself is saved only after the contract shows exactly it. False as stated: if the contract already has another root for the slot, the oracle saves and goes on, for every such answer and in a whole run up to its next vote."
  },
  {
   "property": "C101",
   "status": "partial",
   "theorems": [
    "Verif.C101_bounded",
    "Verif.C101_charged_once_partial",
    "Verif.C101_false_charged_again"
   ],
   "note": "The statement is false: the pending balance a member gives up is shared through the same function as money coming in, so the fee is charged on it a second time (C101_false_charged_again). Proved: a slot in which nothing is paid and no tracked validator gives up its pending balance leaves the revenue of the pool unchanged. C101_bounded, for histories of any length in which nothing is paid: the revenue grows by no more than the pending balances of the validators that give theirs up."
  },
  {
   "property": "C102",
   "status": "partial",
   "theorems": [
    "Verif.C102_false_consolidation_chain",
    "Verif.C102_order_of_payments_partial",
    "Verif.C102_same_tree"
   ],
   "note": "Proved for all histories, up to cleanup slots in which a leaver is consolidated into another leaver, where the books depend on the iteration order even for one and the same block (C102_false_consolidation_chain). Payments of equal amounts are taken to come from one contract, as the events are fetched for the contract of the pool."
  },
  {
   "property": "C103",
   "status": "partial",
   "theorems": [
    "Verif.C103_false_amount_of_reward",
    "Verif.C103_false_ban",
    "Verif.C103_false_before_fork",
    "Verif.C103_false_leaver",
    "Verif.C103_pieces_partial"
   ],
   "note": "C103_pieces_partial: one slot since the first fork, cleanup slots at which everybody is active included, for any two ways to cut the same sum in pieces of other amounts than the reward of the block; bound of one wei per piece beyond the first. What is missing is false: C103_false_amount_of_reward (two pieces of the amount of the builder's payment are taken for it and go to nobody), C103_false_before_fork (remainders are taken as wei), C103_false_ban (the balance of the banned is shared again, two wei for one more piece), C103_false_leaver (a cleanup removes somebody for one wei)."
  },
  {
   "property": "C104",
   "status": "partial",
   "theorems": [
    "Verif.C104_false_ban",
    "Verif.C104_false_before_fork",
    "Verif.C104_false_leaver",
    "Verif.C104_history_partial",
    "Verif.C104_larger_payment_partial",
    "Verif.C104_slot_partial"
   ],
   "note": "C104_larger_payment_partial: one slot since the first fork that bans nobody, any number of payments made larger, fee between 0 and 100%: nobody less, nobody more than the increase, exact total. C104_slot_partial and C104_history_partial: nobody ends with less for every block, bans included, and for histories of any length in which payments are left out or smaller, if cleanups find everybody active. Missing, because false: slots before the fork (C104_false_before_fork), cleanups of somebody who left (C104_false_leaver), the upper bound for blocks that ban (C104_false_ban)."
  },
  {
   "property": "C105",
   "status": "proved",
   "theorems": [
    "Verif.C105_elsewhere",
    "Verif.C105_slot"
   ],
   "note": "C105_slot gives the whole state after one such slot, C105_elsewhere any number of them, cleanup slots included."
  },
  {
   "property": "C106",
   "status": "proved",
   "theorems": [
    "Verif.C106_exact",
    "Verif.C106_last",
    "Verif.C106_listed",
    "Verif.C106_order"
   ],
   "note": "C106_order: for every state whose numbers fit their types and every reordering of its maps, the ones inside checkpoints included, bytes and hash are the same, for any text and hash function. C106_exact: with the modelled library functions the bytes agree exactly when the contents agree. C106_listed: order and completeness of the written maps. C106_last: repeated keys."
  },
  {
   "property": "C107",
   "status": "partial",
   "theorems": [
    "Verif.C107_false_consolidation_chain",
    "Verif.C107_history_partial",
    "Verif.C107_same_root",
    "Verif.C107_slot_partial",
    "Verif.C107_slot_without_cleanup"
   ],
   "note": "Proved for every slot without cleanup, for histories of any length, and for cleanup slots where no tracked leaver is consolidated into a tracked leaver; checkpoints have the same root, leaves and proofs. In the missing case the claim is false (C107_false_consolidation_chain), even if maps were walked in ascending order."
  },
  {
   "property": "C108",
   "status": "partial",
   "theorems": [
    "Verif.C108_false_before_fork",
    "Verif.C108_false_leaver",
    "Verif.C108_history_partial",
    "Verif.C108_slot_partial"
   ],
   "note": "Proved for slots since the first fork, fees between 0 and 100%, payments that are not negative, and histories of any length whose cleanup slots find everybody in the books active. Missing: slots before the fork, false (C108_false_before_fork), and cleanup slots with leavers, false (C108_false_leaver)."
  },
  {
   "property": "C109",
   "status": "partial",
   "theorems": [
    "Verif.C109_address",
    "Verif.C109_exact",
    "Verif.C109_exact_partial",
    "Verif.C109_false_with_blobs",
    "Verif.C109_hash_partial",
    "Verif.C109_injective",
    "Verif.C109_nothing_else_partial",
    "Verif.C109_reads",
    "Verif.C109_reward",
    "Verif.C109_reward_library"
   ],
   "note": "Proved for all transactions of the five kinds (encoding below 2^64 bytes, as RLP demands) and, in the other direction, for all bytes but the form in which blob transactions travel with their blobs. Missing: that form, which is accepted although blocks never contain it (C109_false_with_blobs); C109_exact says exactly which bytes are accepted, with this form."
  },
  {
   "property": "C110",
   "status": "proved",
   "theorems": [
    "Verif.C110_binding",
    "Verif.C110_old_form",
    "Verif.C110_other_chain",
    "Verif.C110_sender"
   ],
   "note": "For any function that recovers a key from a hash and a signature; C109_reward_library states the effect on rewards with the modelled secp256k1 recovery, which the conformance tests compare with the senders in utils/utils_test.go. The oldest form of transactions names no chain and is attributed to its signer on every chain (C110_old_form); the statement is about transactions that name one."
  },
  {
   "property": "C111",
   "status": "proved",
   "theorems": [
    "Verif.C111_false_malformed",
    "Verif.C111_hears",
    "Verif.C111_one_kind",
    "Verif.C111_till_head",
    "Verif.C111_view"
   ],
   "note": "Model of the generated bindings on raw logs; the ABI of Solidity and the topics are a separate specification. Assumes the client answers the question it is asked."
  },
  {
   "property": "C112",
   "status": "partial",
   "theorems": [
    "Verif.C112_bad_answer",
    "Verif.C112_false_network",
    "Verif.C112_read_back",
    "Verif.C112_vote_partial"
   ],
   "note": "From the text of the root to the bytes of the signed transaction and back from the contract's answers. Missing: the transaction is signed for the network number, which must be the chain number (C112_false_network)."
  },
  {
   "property": "C113",
   "status": "partial",
   "theorems": [
    "Verif.C113_claim_from_body",
    "Verif.C113_client_reads_partial",
    "Verif.C113_errors",
    "Verif.C113_false_nil",
    "Verif.C113_one_meaning",
    "Verif.C113_proposed_amounts",
    "Verif.C113_state_sync"
   ],
   "note": "For every answer of every endpoint with status 200, against the grammar of RFC 8259 and the documented field names. Missing: a block recorded without a reward, possible if the execution client gives receipts of other transactions (C113_false_nil); fields whose texts are not modelled (transaction hashes and the like)."
  },
  {
   "property": "C114",
   "status": "partial",
   "theorems": [
    "Verif.C114_false_contract_slot",
    "Verif.C114_false_statistics",
    "Verif.C114_statistics_exact",
    "Verif.C114_status_partial"
   ],
   "note": "C114_status_partial: true for the status endpoint while the contract holds the last checkpoint; C114_false_contract_slot: otherwise false. C114_statistics_exact: for the statistics endpoint true exactly if the slot processed last is a checkpoint; C114_false_statistics is a case in which it is not."
  },
  {
   "property": "C115",
   "status": "proved",
   "theorems": [
    "Verif.C115_get_and_claim"
   ],
   "note": "Composition of C70, C46 and the JSON grammar of C113, for every oracle at work and every reading of the body. That the balance is a 256 bit number is in the statement; C07 and C08 say when balances are not negative."
  },
  {
   "property": "C116",
   "status": "partial",
   "theorems": [
    "Verif.C116_paid_partial"
   ],
   "note": "From the books through votes, contract and the body of the answer to the payment, for every honest oracle and every earlier claim. Needs the conditions of C84 (honest nodes, consolidation targets active, sane configuration, everything received below 2^256) and the contract as stated in Spec/Pool.lean; a claim through a hash collision is the only alternative."
  },
  {
   "property": "C117",
   "status": "partial",
   "theorems": [
    "Verif.C117_false_large",
    "Verif.C117_slots_partial",
    "Verif.C117_status_partial"
   ],
   "note": "C117_slots_partial: the text for any number of slots below 750 million in absolute value, as the wrapping subtractions leave it, reads as 12 seconds per slot; C117_status_partial: both texts in the body of the answer of /status. Missing, because false: times that do not fit in 64-bit nanoseconds (C117_false_large). The durafmt library is not in the repository and is modelled as it is known."
  },
  {
   "property": "C118",
   "status": "partial",
   "theorems": [
    "Verif.C118_false_before_fork",
    "Verif.C118_false_later",
    "Verif.C118_false_leaver",
    "Verif.C118_history_partial",
    "Verif.C118_slot_partial"
   ],
   "note": "C118_slot_partial and C118_history_partial: slots since the first fork, fees between 0 and 100%, payments that are not negative, any number of leavers and bans left out of the second run, histories of any length whose cleanup slots find everybody active and whose blocks do not name these members otherwise. Missing, because false: slots before the fork (C118_false_before_fork), later blocks that name them (C118_false_later), cleanups that find them gone from the chain (C118_false_leaver)."
  },
  {
   "property": "C119",
   "status": "partial",
   "theorems": [
    "Verif.C119_false_consolidation_chain",
    "Verif.C119_false_leavers",
    "Verif.C119_false_same_validator",
    "Verif.C119_history_partial",
    "Verif.C119_same_tree",
    "Verif.C119_slot_partial"
   ],
   "note": "Payments, bans, unbans and subscriptions of different validators in any order: same books and tree, for slots and histories. False (and proved so) for the order of cancelled subscriptions, for subscriptions of one validator, and for a leaver consolidated into another leaver at a cleanup slot."
  },
  {
   "property": "C120",
   "status": "partial",
   "theorems": [
    "Verif.C120_claimed_at",
    "Verif.C120_false_one_moment",
    "Verif.C120_reads",
    "Verif.C120_start",
    "Verif.C120_voted_partial",
    "Verif.C120_whitelisted"
   ],
   "note": "C120_reads, C120_claimed_at and C120_start are the claim for single values and for the start; for the report voted for, read in two calls, C120_voted_partial gives hash and report of two moments, and C120_false_one_moment shows that they need not agree. Trusted: Solidity's encoding as stated in Spec/Calls.lean and the selectors in the comments of contract.go."
  },
  {
   "property": "C121",
   "status": "partial",
   "theorems": [
    "Verif.C121_false_before_fork",
    "Verif.C121_false_leaver",
    "Verif.C121_history_partial",
    "Verif.C121_slot_partial",
    "Verif.C121_start_partial"
   ],
   "note": "Two runs over the same blocks that differ in the fee, slot by slot, for histories and from the start: nobody has less with the lower fee, the pool no more, the sum is the same. Since the first fork and with everybody active at cleanups; false otherwise (C121_false_before_fork, C121_false_leaver)."
  },
  {
   "property": "C122",
   "status": "partial",
   "theorems": [
    "Verif.C122_counts_partial",
    "Verif.C122_false_broken",
    "Verif.C122_false_stale",
    "Verif.C122_false_uncounted",
    "Verif.C122_gauges",
    "Verif.C122_known",
    "Verif.C122_only_partial",
    "Verif.C122_status",
    "Verif.C122_transparent"
   ],
   "note": "Gauges and labels proved for every moment of every run (C122_gauges, C122_known); the writer is transparent (C122_transparent, C122_status). The counter is exact for answers that could be written (C122_counts_partial, C122_only_partial); false otherwise (C122_false_broken), nothing but GET requests for documented paths is counted (C122_false_uncounted), and the distance goes stale while the nodes are not in sync (C122_false_stale)."
  },
  {
   "property": "C123",
   "status": "proved",
   "theorems": [
    "Verif.C123_keccak",
    "Verif.C123_sha256"
   ],
   "note": "Keccak-256 refines a bit-level text of FIPS 202, SHA-256 one of FIPS 180-4"
  },
  {
   "property": "C124",
   "status": "proved",
   "theorems": [
    "Verif.C124_key",
    "Verif.C124_one_key",
    "Verif.C124_reward",
    "Verif.C124_sender",
    "Verif.C124_signed"
   ],
   "note": "Recovery is exactly validity in the sense of SEC 1 on Mathlib's group of secp256k1"
  },
  {
   "property": "C125",
   "status": "proved",
   "theorems": [
    "Verif.C125_advance",
    "Verif.C125_false_node",
    "Verif.C125_false_receipt",
    "Verif.C125_false_size",
    "Verif.C125_fetch",
    "Verif.C125_list_exact",
    "Verif.C125_main_loop",
    "Verif.C125_slot"
   ],
   "note": "Proved for fetching and advancing in any state with any block (C125_fetch, C125_advance, C125_slot) and for every step of the main loop (C125_main_loop). C125_false_receipt, C125_false_node, C125_false_size and C125_list_exact show that all four conditions are needed. Nil values inside an answer of a client library are outside the model."
  },
  {
   "property": "C126",
   "status": "proved",
   "theorems": [
    "Verif.C126_false_zero",
    "Verif.C126_lists",
    "Verif.C126_slot"
   ],
   "note": "Proved per slot (C126_slot) and for all entries of the lists of a history (C126_lists). C126_false_zero shows that the listed amount is not always the reward: a block kept by a proposer that subscribes in that block is listed with zero. Gas of blocks is assumed consistent (GasOK)."
  }
 ]
}