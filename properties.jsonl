{"id": "C01", "title": "A distributed reward is split exactly", "statement": "Whenever an amount is shared with the pool, the increase of all validators' pending balances plus the increase of the pool fee balance equals that amount exactly: no wei is created or destroyed, under each of the three distribution rules (pre-fork1, fork1, electra), and the internal 'reward mismatch' abort never fires.", "quantifier": "every amount, fee percentage, set of tracked validators, effective balances, and distribution rule", "why_tests_cant": "The split uses integer division with remainders over an arbitrary number of validators and balances; a test only covers sampled divisors.", "anchors": ["oracle/oracle.go:increaseAllPendingRewards", "oracle/oracle.go:handleElectraRewardDistribution", "oracle/oracle.go:handleFork1RewardDistribution", "oracle/oracle.go:handlePreFork1RewardDistribution"]}
{"id": "C02", "title": "Solvency over whole histories", "statement": "After processing any finite sequence of blocks starting from a fresh oracle, what the pool owes (all pending + all accumulated + pool fees) equals what it received (all EtherReceived amounts + all subscription collaterals + all vanilla block rewards credited to the pool); hence the offchain reconciliation check succeeds at every checkpoint.", "quantifier": "every sequence of slots (proposals, misses, events, bans, cleanups, consolidations) and every beacon node answer", "why_tests_cant": "The invariant couples eight handlers over unbounded histories; tests check a few hand-written histories.", "anchors": ["oracle/oracle.go:AdvanceStateToNextSlot", "oracle/oracle.go:RunOffchainReconciliation", "oracle/oracle.go:ValidatorCleanup"]}
{"id": "C03", "title": "Every received payment is credited exactly once", "statement": "In each block every EtherReceived event is treated either as the block's MEV reward or as a donation, never both and never neither, and all subscription collateral is credited once.", "quantifier": "every block content: any last transaction, any list of EtherReceived events including equal amounts", "why_tests_cant": "Depends on coincidences between amounts of unrelated transactions in one block that tests do not enumerate.", "anchors": ["oracle/block.go:GetDonations", "oracle/block.go:MevRewardInWei", "oracle/block.go:GetSentRewardAndType"]}
{"id": "C04", "title": "Pool fee is bounded", "statement": "For a reward r >= 0 shared while at least one validator is eligible and the configured fee is f per 10000, the pool keeps at least floor(r*f/10000) and (fork1 and electra) less than that plus the number of eligible validators; with no eligible validator the pool keeps everything.", "quantifier": "every reward, fee and validator set", "why_tests_cant": "Rounding bounds must hold for all sizes and divisors.", "anchors": ["oracle/oracle.go:increaseAllPendingRewards"]}
{"id": "C05", "title": "Fair shares", "statement": "Under fork1 all eligible validators receive the same amount; under electra each eligible validator's share is the floor of its exact proportional share by effective balance, so validators with equal balance get equal shares and a larger balance never gets a smaller share.", "quantifier": "every reward, fee, validator set and effective balance assignment", "why_tests_cant": "Universal over balances; sampled tests cannot exclude an ordering or rounding bias.", "anchors": ["oracle/oracle.go:handleElectraRewardDistribution", "oracle/oracle.go:handleFork1RewardDistribution"]}
{"id": "C06", "title": "Only active and yellow-carded validators earn from distributions", "statement": "Sharing a reward never changes the balances of a validator that is red-carded, banned or not subscribed, and never changes anybody's accumulated balance, status or identity.", "quantifier": "every state and every reward", "why_tests_cant": "Frame property over all validators in arbitrary states.", "anchors": ["oracle/oracle.go:getEligibleValidators", "oracle/oracle.go:increaseAllPendingRewards"]}
{"id": "C07", "title": "Balances never go negative", "statement": "Pending, accumulated and pool fee balances stay >= 0 forever when all received amounts are >= 0 and the fee is between 0 and 100%.", "quantifier": "every history of blocks on every network", "why_tests_cant": "Needs an inductive invariant; the failing cases need special small rewards before fork1.", "anchors": ["oracle/oracle.go:increaseAllPendingRewards", "oracle/oracle.go:handlePreFork1RewardDistribution", "oracle/oracle.go:AdvanceStateToNextSlot"]}
{"id": "C08", "title": "Claimable balances only grow", "statement": "A validator's accumulated balance, the pool's fee balance and the accumulated total of every withdrawal address never decrease from one processed slot to the next, so a cumulative claim already made on-chain can never exceed a later leaf.", "quantifier": "every history of blocks", "why_tests_cant": "Monotonicity along all executions.", "anchors": ["oracle/oracle.go:AdvanceStateToNextSlot", "oracle/oracle.go:consolidateBalance", "oracle/merklelizer.go:AggregateValidatorsIndexes"]}
{"id": "C09", "title": "All honest oracles compute the same state", "statement": "Processing a block gives the same resulting state whatever order the program happens to iterate its maps in; two oracles with the same state and the same chain data cannot diverge.", "quantifier": "every state, block, beacon answer and every pair of map iteration orders at every loop", "why_tests_cant": "Go randomises map iteration; divergence shows only under particular orders, which a test run does not control.", "anchors": ["oracle/oracle.go:AdvanceStateToNextSlot", "oracle/oracle.go:ValidatorCleanup", "oracle/oracle.go:increaseAllPendingRewards", "oracle/merklelizer.go:AggregateValidatorsIndexes"]}
{"id": "C10", "title": "Validator statuses follow the documented state machine", "statement": "Each processed slot moves each validator's status only along paths of the documented diagram (active, yellow card, red card, not subscribed, banned); a tracked validator is always in one of these five states.", "quantifier": "every history and every validator", "why_tests_cant": "Quantifies over all event interleavings within and across blocks.", "anchors": ["oracle/oracle.go:advanceStateMachine", "oracle/oracle.go:AdvanceStateToNextSlot", "spec/README.md"]}
{"id": "C11", "title": "A ban is permanent until an explicit unban", "statement": "Once banned, a validator stays banned, with zero pending balance and unchanged accumulated balance except for returned collaterals, until an UnbanValidator event for it is processed; the unban makes it active.", "quantifier": "every history after the ban", "why_tests_cant": "Persistence over unbounded suffixes of histories, including re-subscription attempts, auto-subscription by proposal, cleanup and consolidation.", "anchors": ["oracle/oracle.go:handleBanValidator", "oracle/oracle.go:handleManualBans", "oracle/oracle.go:handleManualUnbans", "oracle/oracle.go:addSubscription", "oracle/oracle.go:ValidatorCleanup"]}
{"id": "C12", "title": "Wrong fee recipient means ban and forfeiture", "statement": "If a subscribed validator proposes a block whose reward did not go to the pool it ends the slot banned (unless unbanned in that same block), its pending balance is zero and is shared with the remaining eligible validators (or the pool), and the block is recorded as proof.", "quantifier": "every state, proposer and block", "why_tests_cant": "Must hold for every combination with other events in the block.", "anchors": ["oracle/oracle.go:handleBanValidator", "oracle/oracle.go:AdvanceStateToNextSlot"]}
{"id": "C13", "title": "Missed proposals escalate and never touch money", "statement": "A subscribed validator that misses its proposal goes active->yellow, yellow->red, red->red; balances of everyone and the pool are unchanged by the miss; an unsubscribed proposer's miss changes nothing but the slot counter.", "quantifier": "every state with a missed slot", "why_tests_cant": "Frame property over the whole state.", "anchors": ["oracle/oracle.go:handleMissedBlock", "oracle/oracle.go:AdvanceStateToNextSlot"]}
{"id": "C14", "title": "A correct proposal pays out the proposer", "statement": "After a correct pool proposal the proposer's pending balance, including its share of this block's reward, has moved entirely to its accumulated balance and its pending is zero; every other validator's accumulated balance is unchanged by that proposal.", "quantifier": "every state, proposer and reward", "why_tests_cant": "Universal over states and interactions with auto-subscription and bans.", "anchors": ["oracle/oracle.go:handleCorrectBlockProposal", "oracle/oracle.go:consolidateBalance"]}
{"id": "C15", "title": "Subscription authorisation and collateral routing", "statement": "A SubscribeValidator event makes a validator subscribed only if the validator exists on the beacon chain in an acceptable state, has address credentials, the sender is that withdrawal address, it is not banned or already subscribed, and the collateral is at least the required one; in every other case no status changes. In all cases the collateral is credited in full to exactly one place: validator pending (valid), validator accumulated (sent by the owner while banned or already subscribed) or the pool.", "quantifier": "every list of subscription events, every state, every beacon answer", "why_tests_cant": "Decision table with nine branches, repeated over lists of events where earlier events change later outcomes.", "anchors": ["oracle/oracle.go:handleManualSubscriptions", "oracle/oracle.go:CanValidatorSubscribeToPool"]}
{"id": "C16", "title": "Only the owner can unsubscribe", "statement": "An UnsubscribeValidator event has no effect at all unless its sender equals the validator's current withdrawal address and the validator is subscribed; if it takes effect the validator becomes not subscribed, keeps its accumulated balance, and forfeits its pending to the pool members.", "quantifier": "every list of unsubscription events and every state", "why_tests_cant": "Security property: must hold for all senders and event lists.", "anchors": ["oracle/oracle.go:handleManualUnsubscriptions"]}
{"id": "C17", "title": "Auto-subscription by paying the pool", "statement": "A proposer with address credentials whose block pays the pool is tracked and subscribed after the block unless banned (or unsubscribed/banned later in the same block); a proposer with BLS or malformed credentials is never subscribed and its reward goes entirely to the pool fees.", "quantifier": "every state and proposal", "why_tests_cant": "Interaction of credentials, prior status and the later events in the same block.", "anchors": ["oracle/oracle.go:addSubscription", "oracle/oracle.go:handleBlsCorrectBlockProposal", "oracle/oracle.go:GetWithdrawalAndType"]}
{"id": "C18", "title": "Identity of tracked validators is stable", "statement": "A validator once tracked is never dropped, and its index, withdrawal address and public key recorded by the oracle never change.", "quantifier": "every history", "why_tests_cant": "Invariant over unbounded histories.", "anchors": ["oracle/oracle.go:AdvanceStateToNextSlot"]}
{"id": "C19", "title": "Recorded withdrawal addresses are always well formed", "statement": "Every withdrawal address recorded by the oracle is a lower-case 0x-prefixed 40-hex-digit string, so building the Merkle leaves never aborts because of address lengths or format.", "quantifier": "every history and every beacon answer", "why_tests_cant": "Invariant over all creation paths (manual, automatic, consolidation target).", "anchors": ["oracle/oracle.go:handleManualSubscriptions", "oracle/oracle.go:addSubscription", "oracle/oracle.go:ValidatorCleanup", "utils/utils.go:GetCompatibleAddressByte", "oracle/merklelizer.go:AggregateValidatorsIndexes"]}
{"id": "C20", "title": "Slots are processed once each, in order", "statement": "A successful call processes exactly the next slot; blocks for any other slot are rejected without any change; after n successful calls the latest processed slot is deployment slot + n - 1.", "quantifier": "every sequence of calls with arbitrary blocks", "why_tests_cant": "Needs induction over call sequences, including rejected calls.", "anchors": ["oracle/oracle.go:AdvanceStateToNextSlot", "oracle/oracle.go:NewOracle"]}
{"id": "C21", "title": "A failed slot leaves no trace", "statement": "If processing a slot returns an error the oracle state is as before, so the slot can be retried without double counting.", "quantifier": "every state, block and failing beacon call", "why_tests_cant": "Depends on the point of failure inside a long sequence of mutations.", "anchors": ["oracle/oracle.go:AdvanceStateToNextSlot", "oracle/oracle.go:ValidatorCleanup", "oracle/oracle.go:validateFullBlockConfig"]}
{"id": "C22", "title": "Checkpoint cadence", "statement": "The oracle reports a checkpoint exactly when the latest processed slot is the deployment slot plus a multiple of the checkpoint size.", "quantifier": "every configuration and slot, including 64-bit wrap-around", "why_tests_cant": "Universal over 64-bit arithmetic.", "anchors": ["oracle/oracle.go:IsCheckpoint"]}
{"id": "C23", "title": "Histories are append-only and complete", "statement": "Recorded subscription, unsubscription and payment events, donations, proposed, missed and wrong-fee blocks are only ever appended to; every processed block's events are recorded in order; a block is recorded in at most one of the three block lists.", "quantifier": "every history", "why_tests_cant": "Prefix property over unbounded executions.", "anchors": ["oracle/oracle.go:AdvanceStateToNextSlot"]}
{"id": "C24", "title": "Merkle leaves represent the debts", "statement": "The leaves of a checkpoint are: first the pool fee leaf, then one leaf per distinct withdrawal address (case-insensitively) in strictly increasing order whose balance is the sum of the accumulated balances of the validators with that address; the total of all leaves equals all accumulated balances plus the pool fees.", "quantifier": "every state with well-formed addresses", "why_tests_cant": "Aggregation over arbitrarily many validators and address collisions.", "anchors": ["oracle/merklelizer.go:AggregateValidatorsIndexes", "oracle/merklelizer.go:OrderByWithdrawalAddress"]}
{"id": "C25", "title": "One leaf and one proof per address", "statement": "No two leaves of a checkpoint have the same address, so everyone owed something can claim all of it with the stored proof, including the pool fee recipient.", "quantifier": "every state", "why_tests_cant": "Fails only for special address coincidences (pool fee recipient that also owns a validator).", "anchors": ["oracle/merklelizer.go:AggregateValidatorsIndexes", "oracle/merklelizer.go:GenerateTreeFromState", "oracle/oracle.go:FreezeCheckpoint", "oracle/oracle.go:GetUniqueWithdrawalAddresses"]}
{"id": "C26", "title": "Every frozen proof verifies", "statement": "For each address of a frozen checkpoint the stored proof and leaf verify against the stored Merkle root with the sorted-pair verification the contract uses.", "quantifier": "every number of leaves >= 2, every leaf content, every hash function", "why_tests_cant": "Tree shapes for all sizes (odd levels); tests check a few sizes.", "anchors": ["oracle/merklelizer.go:GenerateTreeFromState", "oracle/oracle.go:FreezeCheckpoint"]}
{"id": "C27", "title": "Nobody else can prove a claim", "statement": "If some (address, amount) verifies against a checkpoint root then it is one of its leaves, or an explicit hash collision among the hashed values has been exhibited.", "quantifier": "every tree, every candidate proof of any length", "why_tests_cant": "Adversarial universal statement.", "anchors": ["oracle/merklelizer.go:GenerateTreeFromState"]}
{"id": "C28", "title": "Committed checkpoints are immutable and the latest one is found", "statement": "Freezing adds one entry for the latest processed slot and changes no earlier entry or balance; processing slots changes no entry; the latest committed state returned is the one with the highest slot, i.e. the one just frozen.", "quantifier": "every interleaving of slot processing and freezing", "why_tests_cant": "Invariant over unbounded interleavings.", "anchors": ["oracle/oracle.go:FreezeCheckpoint", "oracle/oracle.go:LatestCommitedSlot", "oracle/oracle.go:LatestCommitedState"]}
{"id": "C29", "title": "Same validators, same root", "statement": "The checkpoint root depends only on the set of (withdrawal address, accumulated balance) pairs, pool fee address and pool fees, not on iteration order, validator numbering, pending balances or letter case.", "quantifier": "every two states with the same totals per address", "why_tests_cant": "Ranges over all permutations and groupings.", "anchors": ["oracle/merklelizer.go:AggregateValidatorsIndexes", "oracle/merklelizer.go:GenerateTreeFromState"]}
{"id": "C30", "title": "Save and load round trip", "statement": "A state written to disk and read back under the same configuration is accepted and restores exactly the same state, fee percentage included.", "quantifier": "every reachable state, with or without a fee change having happened", "why_tests_cant": "Universal over states; includes enum encodings and the fee schedule.", "anchors": ["oracle/oracle.go:SaveToJson", "oracle/oracle.go:LoadFromBytes", "oracle/oracle.go:hashStateLockFree", "oracle/oracle.go:applyFeeScheduleUpTo"]}
{"id": "C31", "title": "Corrupted or foreign state files are never accepted", "statement": "A file is accepted only if its stored hash matches its content and network, addresses, fee, collateral, checkpoint size and deployment data match the configuration; otherwise the state in memory is unchanged.", "quantifier": "every byte string and configuration", "why_tests_cant": "Adversarial universal statement (truncation, bit flips, wrong network).", "anchors": ["oracle/oracle.go:LoadFromBytes", "oracle/oracle.go:LoadFromPath"]}
{"id": "C32", "title": "Rolling back to an older saved state works", "statement": "An operator whose node ran ahead of the chain can reload any older state the oracle itself saved, including one saved before a scheduled fee change.", "quantifier": "every pair of saved states and schedules", "why_tests_cant": "Fails only when the rollback crosses a fee change.", "anchors": ["oracle/oracle.go:LoadGivenState", "oracle/oracle.go:LoadFromBytes", "oracle/oracle.go:applyFeeScheduleUpTo", "main.go:main"]}
{"id": "C33", "title": "Fee changes only by schedule", "statement": "The fee percentage changes only when processing a slot listed in the fee schedule of the network with a matching UpdatePoolFee event; any other fee event, fee recipient, collateral or checkpoint-size change is rejected; configuration fee and state fee stay equal.", "quantifier": "every history of events", "why_tests_cant": "Universal over event contents and slots.", "anchors": ["oracle/oracle.go:validateFullBlockConfig", "oracle/oracle.go:applyFeeScheduleUpTo", "oracle/oracle.go:getFeeSchedule"]}
{"id": "C34", "title": "Crash and restart lose nothing", "statement": "Restarting from any state saved at a checkpoint and reprocessing the same chain data gives the same state, and hence the same Merkle roots, as never having stopped.", "quantifier": "every crash point and every suffix of blocks", "why_tests_cant": "Crash points are unbounded.", "anchors": ["oracle/oracle.go:SaveToJson", "oracle/oracle.go:LoadFromJson", "oracle/oracle.go:AdvanceStateToNextSlot", "main.go:mainLoop"]}
{"id": "C35", "title": "Only finalized slots are processed", "statement": "The main loop processes a slot only when the reported finalized slot is at least that slot, one slot at a time, and stops on the first error.", "quantifier": "every sequence of node answers", "why_tests_cant": "Control-loop property over unbounded environment behaviours.", "anchors": ["main.go:mainLoop"]}
{"id": "C36", "title": "Root submission discipline", "statement": "A root is submitted only when not in dry-run mode, right after a checkpoint whose reconciliation succeeded, only the root just frozen at the latest processed slot, only if that slot is exactly one checkpoint after the slot consolidated on chain; and the state is saved to disk only after the chain shows that root and slot (or nothing had to be submitted).", "quantifier": "every sequence of node and contract answers", "why_tests_cant": "Control-loop property over unbounded environment behaviours.", "anchors": ["main.go:mainLoop", "oracle/onchain.go:UpdateContractMerkleRoot"]}
{"id": "C37", "title": "Submissions resume after a skipped checkpoint", "statement": "If a checkpoint is skipped (not enough data), the oracle will submit at a later checkpoint.", "quantifier": "every history in which at least one checkpoint is skipped while the contract slot stays put", "why_tests_cant": "Liveness over unbounded suffixes.", "anchors": ["main.go:mainLoop", "oracle/oracle.go:FreezeCheckpoint"]}
{"id": "C38", "title": "Sync check against the chain", "statement": "The oracle claims to be in sync exactly when its latest committed root and slot equal the on-chain ones (or nothing is committed and the on-chain root is the default); exactly one of root and slot matching is reported as an error.", "quantifier": "every state, root and slot", "why_tests_cant": "Complete decision table including letter case.", "anchors": ["oracle/oracle.go:IsOracleInSyncWithChain"]}
{"id": "C39", "title": "Proposers who set the pool as fee recipient are not banned", "statement": "A subscribed proposer whose block's protocol fee recipient is the pool is never banned by that block.", "quantifier": "every block content, chain and slot", "why_tests_cant": "Adversarial choice of the last transaction in the block.", "anchors": ["oracle/block.go:GetSentRewardAndType", "oracle/block.go:MevRewardInWei", "oracle/oracle.go:AdvanceStateToNextSlot"]}
{"id": "C40", "title": "Proposer tip equals the priority fees", "statement": "The vanilla reward credited equals the sum over the block's transactions of gas used times (effective gas price - base fee), is never negative for valid blocks, and inconsistent receipts are reported as an error.", "quantifier": "every list of transactions and receipts, every base fee encoding", "why_tests_cant": "Universal over transaction lists and 256-bit little/big endian encodings.", "anchors": ["oracle/block.go:GetProposerTip", "oracle/block.go:GetBaseFeePerGas", "utils/utils.go:SumAndSaturate"]}
{"id": "C41", "title": "Receipts are fetched whenever they are needed", "statement": "A block fetched against the oracle state it is then applied to always carries the header and receipts needed to compute its reward, so processing never aborts for missing receipts.", "quantifier": "every block and oracle state", "why_tests_cant": "Two functions in different files must agree on every input.", "anchors": ["oracle/onchain.go:FetchFullBlock", "oracle/block.go:GetSentRewardAndType", "oracle/block.go:isAddressRewarded"]}
{"id": "C42", "title": "No chain content can halt the oracle", "statement": "Processing a well-formed block never aborts the process.", "quantifier": "every well-formed block", "why_tests_cant": "Adversarial: proposers choose block contents.", "anchors": ["oracle/block.go:GetDonations", "oracle/block.go:MevRewardInWei", "oracle/oracle.go:AdvanceStateToNextSlot"]}
{"id": "C43", "title": "Cleanup affects only validators that left", "statement": "Cleanup runs only at slots divisible by 1200 and after fork1; it changes the status or forfeits the pending balance only of validators that are no longer active on the beacon chain because they exited or were slashed; accumulated balances never change.", "quantifier": "every state and beacon answer", "why_tests_cant": "Universal over beacon statuses and states.", "anchors": ["oracle/oracle.go:ValidatorCleanup", "oracle/oracle.go:CanValidatorSubscribeToPool"]}
{"id": "C44", "title": "Consolidation moves the pending balance", "statement": "If an inactive validator has a pending consolidation into another validator, its pending balance goes to that target (tracking it as not subscribed if unknown), or to the pool members if the target is banned; nothing is lost.", "quantifier": "every consolidation list and state", "why_tests_cant": "Universal over consolidation graphs, including chains and self loops.", "anchors": ["oracle/oracle.go:ValidatorCleanup"]}
{"id": "C45", "title": "On-chain reconciliation is exact", "statement": "The on-chain reconciliation succeeds exactly when contract balance + total claimed = total owed, independent of order.", "quantifier": "every state, balance and claims", "why_tests_cant": "Universal over maps.", "anchors": ["oracle/oracle.go:RunOnchainReconciliation", "oracle/oracle.go:GetUniqueWithdrawalAddresses", "oracle/onchain.go:GetClaimedPerWithdrawalAddress"]}
{"id": "C46", "title": "Proof endpoint serves only currently valid proofs", "statement": "A successful answer of the proof endpoint contains a leaf and proof that verify against the root currently in the contract, for the requested address in any letter case, with claimable = leaf balance - already claimed.", "quantifier": "every oracle state, contract answer and requested address", "why_tests_cant": "Universal over states and contract answers.", "anchors": ["api/api.go:handleOnchainMerkleProof"]}
{"id": "C47", "title": "Non-finalized view predicts the finalized outcome", "statement": "The status and pending balance the API shows for a validator after applying not yet finalized subscription and unsubscription events equal what the oracle will record once those blocks are processed, absent other activity for that validator.", "quantifier": "every list of events and every validator state", "why_tests_cant": "Two independently written functions must agree on all inputs.", "anchors": ["api/api.go:ApplyNonFinalizedState", "oracle/oracle.go:handleManualSubscriptions", "oracle/oracle.go:handleManualUnsubscriptions"]}
{"id": "C48", "title": "Statistics endpoint is total and consistent", "statement": "The statistics counters partition the tracked validators by status, the totals are the sums over validators, and the endpoint answers for every reachable state.", "quantifier": "every reachable oracle state", "why_tests_cant": "The failing states (all subscribed validators red-carded) are not sampled.", "anchors": ["api/api.go:handleMemoryStatistics"]}
{"id": "C49", "title": "Readiness check", "statement": "The API reports ready exactly when the oracle is at most the allowed number of slots behind the finalized slot.", "quantifier": "every pair of 64-bit slots", "why_tests_cant": "64-bit wrap-around.", "anchors": ["api/api.go:OracleReady"]}
{"id": "C50", "title": "Input validation of the API", "statement": "Addresses are accepted exactly when 0x + 40 hex digits, public keys exactly when 0x + 96 hex digits, indices exactly when decimal numbers below 2^64.", "quantifier": "every string", "why_tests_cant": "Universal over strings.", "anchors": ["api/api.go:IsValidAddress", "api/api.go:IsValidPubkey", "api/api.go:IsValidIndex"]}
{"id": "C51", "title": "The service cannot deadlock", "statement": "Under any interleaving of the main loop, HTTP handlers and the shutdown handler every lock request is eventually granted.", "quantifier": "every schedule of the goroutines", "why_tests_cant": "Schedules are unbounded and the failing window is tiny.", "anchors": ["oracle/oracle.go:IsCheckpoint", "oracle/oracle.go:State", "oracle/oracle.go:StateWithHash", "oracle/oracle.go:LatestCommitedState", "oracle/oracle.go:SaveToJson", "main.go:main"]}
{"id": "C52", "title": "Saved states are taken between slots", "statement": "A state written to disk by the shutdown handler at any moment is the state after some whole number of processed slots, never a half-processed slot.", "quantifier": "every interleaving of the shutdown handler with the main loop", "why_tests_cant": "Schedules are unbounded.", "anchors": ["oracle/oracle.go:SaveToJson", "oracle/oracle.go:AdvanceStateToNextSlot", "main.go:main"]}
{"id": "C53", "title": "No aliasing between balances", "statement": "Balances are stored behind pointers that are updated in place; updating one balance never changes another validator's balance, the pool fees, or a stored event or frozen checkpoint.", "quantifier": "every history", "why_tests_cant": "Aliasing bugs appear only for particular sequences (e.g. consolidation target created from its source).", "anchors": ["oracle/oracle.go:ValidatorCleanup", "oracle/oracle.go:handleManualSubscriptions", "oracle/oracle.go:increaseAllPendingRewards", "oracle/oracle.go:FreezeCheckpoint"]}
{"id": "C54", "title": "Duty cache is transparent", "statement": "Looking up the proposer of a slot through the cache gives the same answer as asking the beacon node directly, for any sequence of lookups.", "quantifier": "every sequence of lookups, every beacon answer", "why_tests_cant": "Cache coherence over call histories, including the initial empty cache.", "anchors": ["oracle/onchain.go:GetProposalDuty"]}
{"id": "C55", "title": "Bulk validator lookup is complete", "statement": "A successful bulk lookup contains every requested validator; otherwise an error is returned.", "quantifier": "every request and every node answer", "why_tests_cant": "Universal over answers.", "anchors": ["oracle/onchain.go:GetSetOfValidators"]}
{"id": "C56", "title": "Root submission reports failures", "statement": "Submitting a root rejects anything that is not a 32-byte hex string, sends exactly those 32 bytes, and reports an error if the transaction was reverted.", "quantifier": "every root string and receipt", "why_tests_cant": "Universal over strings; the reverted-receipt path needs chain failures.", "anchors": ["oracle/onchain.go:UpdateContractMerkleRoot"]}
{"id": "C57", "title": "Withdrawal credential parsing", "statement": "Credentials are classified as BLS (0x00), address (0x01) or compounding (0x02) exclusively; an address is extracted exactly from 32-byte 0x01/0x02 credentials with zero padding and equals their last 20 bytes.", "quantifier": "every byte string", "why_tests_cant": "Universal over byte strings.", "anchors": ["utils/utils.go:IsBlsType", "utils/utils.go:IsEth1Type", "utils/utils.go:IsElectraType", "utils/utils.go:GetCompatibleAddress", "utils/utils.go:GetCompatibleAddressByte", "oracle/oracle.go:GetWithdrawalAndType"]}
{"id": "C58", "title": "JSON names of enumerations round trip", "statement": "Every valid status, reward type, block type and subscription type is written as a distinct name and read back to the same value; any other name is rejected.", "quantifier": "every enum value and every string", "why_tests_cant": "Universal over strings for the rejection half.", "anchors": ["oracle/types.go:UnmarshalJSON", "oracle/types.go:MarshalJSON", "oracle/types.go:String"]}
{"id": "C59", "title": "Unique withdrawal addresses for reconciliation", "statement": "The list of addresses used for reconciliation contains each validator withdrawal address exactly once (case-insensitively) plus the pool fee address, so that claims are neither missed nor counted twice.", "quantifier": "every state", "why_tests_cant": "Universal over address multisets.", "anchors": ["oracle/oracle.go:GetUniqueWithdrawalAddresses", "oracle/onchain.go:GetClaimedPerWithdrawalAddress"]}
{"id": "C60", "title": "One slot does exactly what the specification says", "statement": "From every reachable state, a successfully processed slot performs the specified steps in the specified order - subscriptions, the proposal, unsubscriptions, donations, bans, unbans, and at slots divisible by 1200 the cleanup - and changes nothing else in the state but the event logs, the fee and the slot counters.", "quantifier": "every history of slots, every block, every map iteration order and node answer", "why_tests_cant": "Full functional correctness of the state transition: relates every field of the state before and after for all inputs.", "anchors": ["oracle/oracle.go:AdvanceStateToNextSlot", "oracle/oracle.go:ValidatorCleanup"]}
{"id": "C61", "title": "A checkpoint can always be frozen", "statement": "After any history of processed slots, freezing the checkpoint does not stop the process, whatever validators strangers make propose, subscribe or unsubscribe.", "quantifier": "every history of blocks", "why_tests_cant": "Adversarial histories: one validator with special withdrawal credentials is enough to break it, tests only use ordinary ones.", "anchors": ["oracle/merklelizer.go:AggregateValidatorsIndexes", "oracle/oracle.go:FreezeCheckpoint", "oracle/oracle.go:handleCorrectBlockProposal"]}
{"id": "C62", "title": "The initial pool fee is the one the pool was initialised with", "statement": "The fee with which an oracle starts is the fee argument of the call that initialised the pool in the deployment block; without such a call it is the default of the network.", "quantifier": "every deployment block: any number of transactions, any call data, any encoded arguments", "why_tests_cant": "Quantifies over all byte strings and transaction lists, including adversarial transactions in the same block; the unit tests decode three recorded blocks.", "anchors": ["oracle/onchain.go:decodeInitialPoolFee", "oracle/onchain.go:GetConfigFromContract"]}
{"id": "C63", "title": "Processing starts at the deployment slot", "statement": "Whenever start-up succeeds, the configured deployment slot is the slot whose block is the deployment block; and start-up does succeed when the nodes answer and block times are slot times.", "quantifier": "every chain, genesis time, deployment block and node answer", "why_tests_cant": "Relates a computed slot to all chains with wrap-around arithmetic; tests would need live nodes.", "anchors": ["oracle/onchain.go:GetConfigFromContract", "oracle/onchain.go:GetSlotByBlock"]}
{"id": "C64", "title": "A late joiner agrees with everybody else", "statement": "An oracle that is started for the first time at any later moment, and processes the same blocks, ends in the same state as the oracles that were started earlier.", "quantifier": "every pair of start times, every history of blocks, every map iteration order", "why_tests_cant": "Two executions at different times against a changing contract; no test starts two oracles.", "anchors": ["oracle/onchain.go:GetConfigFromContract", "oracle/oracle.go:NewOracle"]}
{"id": "C65", "title": "Only a sane set-up is started", "statement": "The command line is accepted exactly if key and password are given (neither in a dry run), the pool is an address and the relayers are https URLs; the oracle starts only if both nodes are on the same supported chain and, unless in a dry run, its account is whitelisted and has a balance; and with an accepted command line blocks can be fetched.", "quantifier": "every command line, every node and contract answer", "why_tests_cant": "Characterises the accepted inputs exactly, over all strings; and the last part needs the interplay with the block fetcher.", "anchors": ["config/config.go:NewCliConfig", "oracle/onchain.go:NewOnchain", "main.go:main"]}
{"id": "C66", "title": "No HTTP request stops the oracle", "statement": "Whatever is requested from the HTTP server, at whatever moment and whatever the outside world answers, the process goes on.", "quantifier": "every reachable oracle, every request text, every answer of nodes, contract and relays, every interleaving with the main loop", "why_tests_cant": "Fatal exits hide in helper functions shared with the main loop; needs an invariant of all recorded addresses and all interleavings.", "anchors": ["api/api.go:handleMemoryValidatorsByWithdrawal", "api/api.go:handleValidatorRelayers", "api/api.go:handleOnchainMerkleProof", "utils/utils.go:Equals"]}
{"id": "C67", "title": "The relay check is exact", "statement": "If the registered-relays endpoint answers, it lists every relay once in the right group, and its verdict is positive exactly if some relay has a registration and every registration names the pool; it refuses only malformed keys and when a relay cannot be asked.", "quantifier": "every list of relays, every combination of their answers, every key, any letter case of addresses", "why_tests_cant": "Combinations of relay answers are unbounded; the tests call no relay.", "anchors": ["api/api.go:handleValidatorRelayers"]}
{"id": "C68", "title": "Validators by index", "statement": "The by-index endpoint answers exactly the comma-separated lists of one to 100 decimal 64-bit numbers, while the oracle is synchronised; every requested index is in exactly one of the two lists of the answer, with the right record.", "quantifier": "every request text, every reachable oracle, every set of validators reported by the beacon node", "why_tests_cant": "Characterises the accepted texts over all strings and accounts for every index.", "anchors": ["api/api.go:handleMemoryValidatorsByIndex", "api/api.go:IsValidIndex"]}
{"id": "C69", "title": "Reading changes nothing", "statement": "No HTTP request changes the state of the oracle, except for the hash field set by the state endpoint; the oracle goes on as if nobody had asked.", "quantifier": "every reachable oracle, every request and every answer from outside", "why_tests_cant": "Handlers work on pointers into the live state and one of them writes to it; that the write never happens needs an invariant over histories.", "anchors": ["api/api.go:handleMemoryValidatorInfo", "api/api.go:handleState", "oracle/oracle.go:StateWithHash"]}
{"id": "C70", "title": "Every path has one endpoint", "statement": "A path leads to an endpoint exactly if it is the documented path of that endpoint with a non-empty variable segment, and no path leads to two.", "quantifier": "every path", "why_tests_cant": "Exact characterisation over all strings.", "anchors": ["api/api.go:getRouter"]}
{"id": "C71", "title": "The status endpoint tells the truth", "statement": "The distances and times shown by the status endpoint are the differences between the finalized slot, the latest processed slot and the last checkpoint, and it says in sync exactly if the latest processed slot is the finalized one.", "quantifier": "every oracle, every finalized slot, every slot in the contract", "why_tests_cant": "Unsigned subtraction: wrong only in configurations that tests do not set up.", "anchors": ["api/api.go:handleStatus"]}
{"id": "C72", "title": "The list of validators is complete and ordered", "statement": "The validators endpoint lists every tracked validator that the beacon node reported, once, in the order of indices, with its own record.", "quantifier": "every reachable oracle, every map iteration order, every set of reported validators", "why_tests_cant": "Needs that records are stored under their own index in every reachable state, and all iteration orders.", "anchors": ["api/api.go:handleMemoryValidators"]}
{"id": "C73", "title": "Block lists are the history", "statement": "The proposed-blocks endpoint lists exactly the processed slots in which the pool was paid, in order; the missed list exactly the processed slots missed by a validator that took part in the pool at that time, the wrong-fee list exactly those whose block did not pay the pool although its proposer took part; all blocks together contain no slot twice.", "quantifier": "every history from a new oracle", "why_tests_cant": "A statement about whole histories.", "anchors": ["api/api.go:handleMemoryAllBlocks", "api/api.go:handleMemoryProposedBlocks", "oracle/oracle.go:AdvanceStateToNextSlot"]}
{"id": "C74", "title": "The loop stops when the contract's money does not match", "statement": "While the oracle is up to date, every three hours it compares the contract's balance plus everything claimed with what the pool owes: it goes on if they are equal and stops if they differ by even one wei; the check never changes the state or the disk; and a contract that holds what it received minus what it paid never stops the oracle.", "quantifier": "every reachable state, balance, claims and clock", "why_tests_cant": "Universal over states and amounts, and over whole histories for the last part.", "anchors": ["main.go:mainLoop", "oracle/oracle.go:RunOnchainReconciliation", "oracle/onchain.go:GetClaimedPerWithdrawalAddress"]}
{"id": "C75", "title": "A slot counts as missed only if the beacon node says so", "statement": "The oracle treats a slot as missed only if the beacon node answered that it has no block for this slot; any other failure is retried, and a block it works with was sent by the node.", "quantifier": "every slot, every sequence of replies and failures, every retry setting, every error text", "why_tests_cant": "Universal over error texts and failure patterns; the wrong cases depend on digits of the slot number.", "anchors": ["oracle/onchain.go:GetConsensusBlockAtSlot", "oracle/onchain.go:GetRetryOpts"]}
{"id": "C76", "title": "Failed requests do not change what is fetched", "statement": "Whatever requests fail and are repeated while a block is put together, if the block is fetched at all it is the one that would have been fetched without failures; without a limit on retries no answered request is given up.", "quantifier": "every slot and state, every pattern of failing attempts for every request, every retry setting", "why_tests_cant": "Universal over failure patterns of an unbounded number of requests.", "anchors": ["oracle/onchain.go:FetchFullBlock", "oracle/onchain.go:GetEtherReceivedEvents", "oracle/onchain.go:GetSingleValidator", "oracle/onchain.go:GetExecHeaderAndReceipts", "oracle/onchain.go:GetRetryOpts"]}
{"id": "C77", "title": "Running oracles agree", "statement": "Any two oracles running their main loops over the same chain, each with its own nodes, failures, delays, votes and iteration orders, have the same books whenever they are at the same slot, and freeze the same root for the same slot; also if one starts from the books the other had at some moment.", "quantifier": "all pairs of executions of the main loop of any length", "why_tests_cant": "A relation between all pairs of unbounded executions.", "anchors": ["main.go:mainLoop", "oracle/onchain.go:FetchFullBlock", "oracle/oracle.go:AdvanceStateToNextSlot", "oracle/oracle.go:FreezeCheckpoint"]}
{"id": "C78", "title": "Root and slot of the contract belong together", "statement": "The root and the slot the oracle reads from the contract were the contract's root and slot at one moment.", "quantifier": "every history of the contract, every pattern of failing attempts", "why_tests_cant": "Depends on what happens between two calls.", "anchors": ["oracle/onchain.go:GetOnchainSlotAndRoot"]}
{"id": "C79", "title": "Pending consolidations are read as sent", "statement": "The oracle works with exactly the pending consolidations listed by the beacon node; an answer that does not contain them is an error and is repeated.", "quantifier": "every list, every sequence of replies", "why_tests_cant": "Universal over replies.", "anchors": ["oracle/onchain.go:GetPendingConsolidations"]}
{"id": "C80", "title": "The endpoints show the books", "statement": "The donations endpoint lists exactly the donations of the processed blocks in order; the fees endpoint shows the configured fee address, the fee in force (the same as the configuration endpoint) and as accumulated fees everything the pool received less what it owes to validators.", "quantifier": "every history of blocks, every state of the outside world", "why_tests_cant": "Universal over histories.", "anchors": ["api/api.go:handleMemoryDonations", "api/api.go:handleMemoryFeesInfo", "api/api.go:handleConfig"]}
{"id": "C81", "title": "Checkpoint sync copies the source", "statement": "An oracle that starts from the state served by another, equally configured oracle continues exactly like that oracle.", "quantifier": "every reachable oracle, every layout of the JSON text, every content of the disk", "why_tests_cant": "Universal over reachable states; no test starts one oracle from another.", "anchors": ["main.go", "oracle/oracle.go:LoadFromBytes", "api/api.go:handleState"]}
{"id": "C82", "title": "The oracle keeps up with the chain", "statement": "As long as the nodes and the contract answer honestly and transactions are mined, the main loop never stops, and every slot that becomes finalized after the deployment is eventually processed.", "quantifier": "every finite and infinite execution of the main loop, every sequence of answers, every slot", "why_tests_cant": "Liveness over infinite executions; tests run a few steps at most.", "anchors": ["main.go:mainLoop", "oracle/oracle.go:AdvanceStateToNextSlot", "oracle/onchain.go:FetchFullBlock", "oracle/onchain.go:UpdateContractMerkleRoot"]}
{"id": "C83", "title": "Restarts leave no trace", "statement": "An oracle may be killed at any moment, even while writing its files, stopped by a signal, given older files, rolled back to an older checkpoint file or synced from another oracle, and started again, any number of times, with other nodes and other iteration orders. Whenever it runs, its books are those of an oracle that was started once on the same chain and never interrupted; any two oracles at the same slot have the same books; all roots frozen or submitted for one slot, by one oracle over its whole life or by different oracles, are the same; and after a restart it goes on and keeps up with the chain.", "quantifier": "every life: every sequence of starts, steps, failed requests, cut-off saves, crashes, signals, restores and syncs, over every chain", "why_tests_cant": "The interleavings of crashes, cut-off writes, rollbacks and syncs over the whole life of a process are unbounded; tests restart once from a good file.", "anchors": ["main.go:main", "main.go:mainLoop", "oracle/oracle.go:SaveToJson", "oracle/oracle.go:LoadFromJson", "oracle/oracle.go:LoadGivenState", "oracle/oracle.go:LoadFromBytes", "oracle/oracle.go:AdvanceStateToNextSlot", "oracle/oracle.go:FreezeCheckpoint"]}
{"id": "C84", "title": "The root the contract accepts is the root of the books", "statement": "If fewer members are dishonest than votes are needed, every root that gets enough votes for a slot lets everybody claim exactly what the books at that slot owe them, unless two byte strings with the same hash are known. The books are those of an oracle that was never interrupted. No honest oracle has frozen or submitted another root for that slot, whatever restarts it has been through, and no two roots get enough votes for one slot.", "quantifier": "every set of members, every vote of the dishonest ones, every life of every honest oracle, every chain and slot, every claim and every proof", "why_tests_cant": "Quantifies over all behaviours of dishonest members, all interleavings of crashes and restarts of several processes, and all byte strings offered as a proof.", "anchors": ["main.go:mainLoop", "oracle/oracle.go:AdvanceStateToNextSlot", "oracle/oracle.go:FreezeCheckpoint", "oracle/merklelizer.go:GenerateTreeFromState", "oracle/merklelizer.go:AggregateValidatorsIndexes", "oracle/onchain.go:UpdateContractMerkleRoot"]}
{"id": "C85", "title": "The pool can always pay", "statement": "After any sequence of accepted roots and claims, with fewer dishonest members than votes needed, what the contract has paid plus what can still be claimed is the sum of the accumulated balances and the pool fees of the books at the accepted slot. This is at most what the pool has received, and nobody has claimed more than the books owe them. The only way out is a claim with two byte strings that have the same hash.", "quantifier": "every sequence of reports and claims by anybody, every set of members and votes, every chain", "why_tests_cant": "An invariant over unbounded sequences of votes, reports and claims of different parties together with the whole history of the books.", "anchors": ["oracle/oracle.go:AdvanceStateToNextSlot", "oracle/oracle.go:FreezeCheckpoint", "oracle/merklelizer.go:GenerateTreeFromState", "oracle/onchain.go:UpdateContractMerkleRoot"]}
{"id": "C86", "title": "Nodes that are behind are not used", "statement": "A slot is processed only after the execution node has said that it is done syncing and the consensus node that it is at most five slots behind. If both answer and one is behind, the main loop changes nothing and tries again; if one does not answer after all retries, the oracle stops.", "quantifier": "every state of the main loop, every pair of answers", "why_tests_cant": "The tests have no nodes; the claim is about every answer at every point of the loop.", "anchors": ["oracle/onchain.go:AreNodesInSync", "main.go:mainLoop"]}
{"id": "C87", "title": "Refreshing the validators does not stop the oracle", "statement": "Every 1200 slots all validators are fetched for the HTTP service. Afterwards the cache holds exactly what the node reported, in whatever order the map is iterated, and the main loop goes on as if nothing had happened.", "quantifier": "every answer of the beacon node, every iteration order, every state of the main loop", "why_tests_cant": "Depends on which keys and epochs the answer contains; tests use one well-formed answer at most.", "anchors": ["oracle/onchain.go:RefreshBeaconValidators", "oracle/onchain.go:GetFinalizedValidators", "utils/utils.go:GetActivationSlotOfLatestProcessedValidator", "main.go:mainLoop"]}
{"id": "C88", "title": "The pool goes on", "statement": "Several oracles and the contract run together. If enough members are honest to reach the quorum and the others are too few to reach it on their own, then whatever the others vote for, the contract accepts one checkpoint after the other up to the last finalized one, every accepted root is the root of the books at its slot (so everybody can claim exactly what they are owed), the contract is never ahead of finality, and every honest oracle processes every finalized slot.", "quantifier": "every number of members, every interleaving of their steps and votes, every past of every oracle, every chain", "why_tests_cant": "A liveness claim about infinite interleavings of several processes and a contract; the tests run no two oracles together.", "anchors": ["main.go:mainLoop", "oracle/onchain.go:UpdateContractMerkleRoot", "oracle/onchain.go:GetAddressToVotedReport", "oracle/onchain.go:GetOnchainSlotAndRoot", "oracle/oracle.go:FreezeCheckpoint"]}
{"id": "C89", "title": "An oracle never starts ahead of the contract", "statement": "Whatever an oracle that is not in dry run did before, however it was stopped and whatever it left on its disk, when it is started it either stops or begins with a state that contains no checkpoint later than the one the contract has. The same holds if it is started from the state another oracle serves.", "quantifier": "every past of an oracle with saves, crashes, cut-off files and restarts, every slot of the contract", "why_tests_cant": "A statement about all disks that any sequence of saves and crashes can leave; the tests load one saved file.", "anchors": ["main.go:main", "oracle/oracle.go:LoadGivenState", "oracle/oracle.go:LoadFromPath", "oracle/oracle.go:SaveToJson"]}
{"id": "C90", "title": "Nobody else can take what a validator has in the pool", "statement": "From the first fork on, what a validator has in the pool, pending and accumulated together, does not shrink over any sequence of blocks, whatever all other validators, senders and builders do, unless the validator itself proposes a block that does not pay the pool, its owner unsubscribes it, the governance bans it, or the beacon chain reports at a cleanup that it is not active.", "quantifier": "every state with non-negative balances, every sequence of blocks with non-negative payments, every validator", "why_tests_cant": "The claim is about everything others may do over unbounded histories; the tests play a few chosen events.", "anchors": ["oracle/oracle.go:AdvanceStateToNextSlot", "oracle/oracle.go:increaseAllPendingRewards", "oracle/oracle.go:resetPendingRewards"]}
{"id": "C91", "title": "The pool smooths: members of equal stake gain the same", "statement": "As long as two members take part in the sharing, are not unbanned and are not the target of a consolidation, and from Electra on have the same effective balance, what they have in the pool, pending and accumulated together, grows by the same amount, apart from collateral sent back in by their owners, no matter which of them proposes blocks, how many of them, what these pay, who donates, joins, leaves or is banned.", "quantifier": "every reachable state, every sequence of blocks, every two members", "why_tests_cant": "It relates two validators over all histories and all values of the rewards; the tests check sums at a few points.", "anchors": ["oracle/oracle.go:AdvanceStateToNextSlot", "oracle/oracle.go:increaseAllPendingRewards", "oracle/oracle.go:consolidateBalance"]}
{"id": "C92", "title": "Who leaves the beacon chain leaves the pool", "statement": "A validator that the beacon chain reports as not active is no longer a member after the next cleanup slot: it is not subscribed, has no pending balance and takes no further part in the sharing.", "quantifier": "every reachable state, every cleanup slot from the first fork on, every validator", "why_tests_cant": "It depends on the order of all stages of the slot and on every combination of pending balances, consolidations and map orders.", "anchors": ["oracle/oracle.go:ValidatorCleanup", "oracle/oracle.go:AdvanceStateToNextSlot"]}
{"id": "C93", "title": "Only who hands over the reward keeps its place", "statement": "If a member proposes a block and is not banned in that slot (nor unbanned), the reward of the block, the builder's payment or the priority fees, went to the pool.", "quantifier": "every reachable state, every block, every member", "why_tests_cant": "The claim is about every possible block; the tests use a few recorded ones.", "anchors": ["oracle/block.go:SummarizedBlock", "oracle/block.go:MevRewardInWei", "oracle/oracle.go:AdvanceStateToNextSlot"]}
{"id": "C94", "title": "Who paid the pool is not banned", "statement": "A proposer that is not banned and whose builder paid the pool in the block is not banned in that slot, unless the block contains a ban event for it.", "quantifier": "every state, every block, every proposer", "why_tests_cant": "The claim is about every possible order of the transactions of a block.", "anchors": ["oracle/block.go:MevRewardInWei", "oracle/block.go:SummarizedBlock", "oracle/oracle.go:handleBanValidator"]}
{"id": "C95", "title": "More at stake never earns less", "statement": "From the first fork on, as long as two validators both take part in the sharing and one has at most the effective balance of the other, its balance (pending and accumulated together) grows by at most as much as that of the other, apart from collateral their owners send again, no matter who of them proposes blocks, misses them, or how much the blocks pay. Nobody consolidates into the one with less, and neither is unbanned.", "quantifier": "every history, every two validators, every sequence of blocks", "why_tests_cant": "The claim compares two validators along every history; rounding, cleanup and the handling of members that leave must each keep the order.", "anchors": ["oracle/oracle.go:increaseAllPendingRewards", "oracle/oracle.go:resetPendingRewards", "oracle/oracle.go:ValidatorCleanup"]}
{"id": "C96", "title": "The pool never owes more than it received", "statement": "After any sequence of blocks processed from a fresh oracle, whatever is paid to the pool and in whatever pieces, pending balances, accumulated balances and pool fees together are at most what the pool received: payments, collaterals and rewards of vanilla blocks. No validator is consolidated into itself, as on the chain.", "quantifier": "every history, every amounts and order of payments, subscriptions, proposals, missed slots, bans, fee changes and consolidations", "why_tests_cant": "An inequality over all histories without any condition on how payments are split; tests try a few amounts and none with equal payments in one block.", "anchors": ["oracle/oracle.go:AdvanceStateToNextSlot", "oracle/block.go:SummarizedBlock", "oracle/block.go:GetDonations", "oracle/oracle.go:increaseAllPendingRewards"]}
{"id": "C97", "title": "Stake counts, not the number of validators", "statement": "From the electra fork on, a reward gives every group of validators its part in proportion to the effective balance the group has at stake: never more, and less by less than one wei per validator taking part. Two groups with the same stake in pools with the same total stake and fee gain the same from the same reward up to that rounding, so spreading stake over more validators never gains more than having it all in one.", "quantifier": "every state, every reward, every group of validators, every chain", "why_tests_cant": "Quantifies over all groups, all balances and all rewards; the bound on the rounding loss is attained only for particular amounts.", "anchors": ["oracle/oracle.go:increaseAllPendingRewards", "oracle/oracle.go:handleElectraRewardDistribution"]}
{"id": "C98", "title": "Payments from outside do not stop the pool", "statement": "Whatever anybody pays to the pool, the check of the books before a checkpoint passes, the oracles go on freezing and voting, and the contract accepts further roots.", "quantifier": "every chain, every payment, every life of every honest oracle after it, every later slot", "why_tests_cant": "Says what happens at every later checkpoint after one payment, through restarts, rollbacks and syncs of any number of oracles; a test stops after a few slots and knows no second oracle.", "anchors": ["main.go:mainLoop", "oracle/oracle.go:RunOffchainReconciliation", "oracle/block.go:SummarizedBlock", "oracle/block.go:GetDonations"]}
{"id": "C99", "title": "Orders in one block count in the order they were given", "statement": "When a block carries several orders for the same validator (subscribe, unsubscribe, ban, unban), the validator ends with the status that these orders, obeyed one after the other as the chain lists them, give it.", "quantifier": "every history, every next block, every list of logs it carries, every validator", "why_tests_cant": "Compares the outcome with the order of the logs for every combination of orders in one block; the tests of the repository have one kind of event per block, or never look at the order between kinds.", "anchors": ["oracle/onchain.go:FetchFullBlock", "oracle/oracle.go:AdvanceStateToNextSlot", "oracle/oracle.go:handleManualBans", "oracle/oracle.go:handleManualUnbans", "oracle/oracle.go:handleManualSubscriptions", "oracle/oracle.go:handleManualUnsubscriptions"]}
{"id": "C100", "title": "An oracle that contradicts the contract notices it", "statement": "If the contract has, for the slot of a checkpoint, another root than the one the oracle has computed for this slot, the oracle does not save this checkpoint as settled and does not go on as if they agreed.", "quantifier": "every run of the main loop, every answer of the contract, every checkpoint", "why_tests_cant": "Speaks of every run of the main loop over every sequence of answers; no test runs the main loop, and the function that compares the roots is only ever called by its own test.", "anchors": ["main.go:mainLoop", "oracle/oracle.go:IsOracleInSyncWithChain"]}
{"id": "C101", "title": "The fee is charged once", "statement": "The pool charges its fee on money when the money comes in, and not again: a slot in which nothing is paid to the pool (no payment, no subscription, no reward) leaves the revenue of the pool as it is.", "quantifier": "All reachable states, all blocks without a payment, all iteration orders and answers of the beacon node.", "why_tests_cant": "The fee is charged inside the one function that shares any amount, whatever its origin; which of the many ways of moving money between members go through it has to be checked for every combination of events and states.", "anchors": ["oracle/oracle.go:increaseAllPendingRewards", "oracle/oracle.go:handleManualUnsubscriptions", "oracle/oracle.go:handleManualBans", "oracle/oracle.go:handleBanValidator", "oracle/oracle.go:ValidatorCleanup"]}
{"id": "C102", "title": "The order of the payments in a block does not matter", "statement": "If the payments received by the pool in a block come in another order, the books after the block, and after any further blocks, are the same up to the order of the two lists of payments: every validator has the same balances and status, the pool the same revenue, and the tree of the checkpoint is the same.", "quantifier": "All histories, all blocks, all permutations of the payments of each block, all iteration orders and orders of the answers of the beacon node.", "why_tests_cant": "Every payment is shared on its own with integer divisions and after the previous one has been credited; that the roundings do not depend on the order has to hold for all amounts, fees, numbers of members and permutations, over any number of later blocks.", "anchors": ["oracle/oracle.go:handleDonations", "oracle/oracle.go:increaseAllPendingRewards", "oracle/block.go:GetDonations", "oracle/block.go:MevRewardInWei"]}
{"id": "C103", "title": "Cutting a payment in pieces changes only dust", "statement": "If the pool receives the same sum in a block as one payment or in several pieces, every validator ends with the same record and a pending balance that differs by at most one wei per piece beyond the first, as much money is pending or belongs to the pool in all, and everything else is equal. Nobody can gain more than that by splitting or joining payments.", "quantifier": "All states, all blocks, all ways to cut a sum in pieces, all fees, all iteration orders and orders of the answers of the beacon node.", "why_tests_cant": "Two divisions round every piece on its own; the bound has to hold for all amounts, fees, stakes and numbers of pieces, and is attained only for particular ones.", "anchors": ["oracle/oracle.go:handleDonations", "oracle/oracle.go:increaseAllPendingRewards", "oracle/block.go:GetDonations", "oracle/block.go:MevRewardInWei"]}
{"id": "C104", "title": "A larger payment gives nobody less", "statement": "If payments to the pool in a block are larger, nobody ends with less pending, nobody gets more than the whole increase more, and what is pending or belongs to the pool grows by exactly the increase in all.", "quantifier": "All states, all blocks, all amounts, all fees between 0 and 100%, all iteration orders and orders of the answers of the beacon node.", "why_tests_cant": "Monotonicity of nested integer divisions for all pairs of amounts; it fails for one wei under the first of the three rules of distribution.", "anchors": ["oracle/oracle.go:increaseAllPendingRewards", "oracle/oracle.go:handlePreFork1RewardDistribution", "oracle/oracle.go:handleFork1RewardDistribution", "oracle/oracle.go:handleElectraRewardDistribution"]}
{"id": "C105", "title": "What has nothing to do with the pool changes nothing", "statement": "Blocks without an event of the contract, proposed or missed by validators that are not subscribed, whose reward did not go to the pool, leave every record, balance, setting and list as they are, as long as everybody with a pending balance stays active on the chain; only the position on the chain changes.", "quantifier": "All reachable states, all numbers of such blocks, all iteration orders and answers of the beacon node.", "why_tests_cant": "The blocks that concern the pool are a small part of all; that none of the others leaves a trace has to hold for every combination of proposer, transactions and cleanup, over any number of slots.", "anchors": ["oracle/oracle.go:AdvanceStateToNextSlot", "oracle/oracle.go:ValidatorCleanup", "oracle/block.go:SummarizedBlock"]}
{"id": "C106", "title": "The saved file is determined by the content of the state", "statement": "Two oracles with the same state write the same bytes and the same hash, in whatever order Go walks their maps, and oracles with different states write different bytes; validators and checkpoints appear in the file in ascending order of their numbers as texts, each once; if a file contains a validator twice, the last entry counts.", "quantifier": "All states whose numbers fit their types, all orders of all maps (validators, checkpoints, and the three maps inside each checkpoint), all documents.", "why_tests_cant": "Go randomizes the order of map iteration; a test sees a few orders of a few maps, and equality of a hash over all orders of nested maps cannot be enumerated.", "anchors": ["oracle/oracle.go:SaveToJson", "oracle/oracle.go:hashStateLockFree", "oracle/types.go:OracleState", "oracle/types.go:OnchainState"]}
{"id": "C107", "title": "Validators are treated alike, whatever their number", "statement": "If all validators had other numbers, on the chain, in the books and in the blocks, the oracle would compute the same books with the other numbers: every status, balance, share, fee, list entry and checkpoint root is the same. No validator gains or loses by being registered earlier or later than another.", "quantifier": "All one-to-one renamings of validator numbers, all states, all blocks and histories of any length, all pairs of iteration orders and orders of the answers of the beacon node.", "why_tests_cant": "A symmetry between pairs of executions for every renaming; remainders, the first of a list, or the order of a cleanup could favour low numbers in rare combinations only.", "anchors": ["oracle/oracle.go:AdvanceStateToNextSlot", "oracle/oracle.go:increaseAllPendingRewards", "oracle/oracle.go:ValidatorCleanup", "oracle/merklelizer.go:GenerateTreeFromState"]}
{"id": "C108", "title": "A member who only sits there takes from the others and never gives", "statement": "Members of the pool about whom the blocks say nothing (they propose nothing, subscribe nowhere, are not banned) never make anybody else richer: with them in the books, everybody else ends with the same status and record and with at most the pending and accumulated money they would have without them. So an operator cannot raise the rewards of their validators by registering others that stay idle.", "quantifier": "All states, all sets of further members, all blocks and histories of any length, all pairs of iteration orders and orders of the answers of the beacon node.", "why_tests_cant": "A comparison of two executions for every set of further members and every history; rounding, forfeited balances and bans could favour the others in rare combinations only.", "anchors": ["oracle/oracle.go:increaseAllPendingRewards", "oracle/oracle.go:handleManualBans", "oracle/oracle.go:handleManualUnsubscriptions", "oracle/oracle.go:ValidatorCleanup", "oracle/oracle.go:AdvanceStateToNextSlot"]}
{"id": "C109", "title": "The oracle reads in a transaction exactly what its bytes say", "statement": "Whatever transaction of the five kinds (legacy, access list, dynamic fee, blob, set code) stands in a block, the oracle decodes its bytes to exactly this transaction; bytes that are not the one encoding of a transaction that can exist are refused; different transactions never have the same bytes; and the hash under which it asks for the receipt, and which it compares with the receipt, is the Keccak hash of the very bytes in the block. Hence a builder's payment counts with exactly the amount and the recipient written in the last transaction, and only if whoever signed it is the fee recipient or a known builder.", "quantifier": "All byte strings, all transactions of all five kinds with all contents (any amounts, any data, any access lists, blob hashes and authorizations), all blocks.", "why_tests_cant": "The test decodes three transactions of two kinds. Which of all byte strings are accepted, and that no two of them are read alike, is a statement about every length, every size of number and every nesting.", "anchors": ["utils/utils.go:DecodeTx", "oracle/block.go:MevRewardInWei", "oracle/block.go:GetProposerTip", "oracle/onchain.go:GetExecHeaderAndReceipts"]}
{"id": "C110", "title": "A payment is attributed to whoever signed exactly this payment for this chain", "statement": "The sender of a transaction, by which the oracle tells a builder's payment from any other transaction, is exactly the account recovered from the signature over everything in the transaction but the signature; two transactions whose senders signed the same bytes differ in nothing but the signature; a transaction that names another chain is attributed to nobody; signatures outside the range of EIP-2 are refused.", "quantifier": "All transactions of all five kinds, all chain identifiers, all recovery functions on the curve.", "why_tests_cant": "The test recovers three senders on one chain. That no field is left out of what is signed, for each kind and each form of the recovery number including wrap-around of 64-bit arithmetic, is a statement about all transactions.", "anchors": ["utils/utils.go:GetTxSender", "oracle/block.go:MevRewardInWei"]}
{"id": "C111", "title": "The oracle hears exactly the events the contract logged", "statement": "Provided the execution client answers the questions it is asked, the donations, subscriptions, unsubscriptions, bans, unbans and parameter changes that the oracle gets of a block are exactly those which the contract logged in this block, each with the values it was logged with and in the order of the logs; no log of another contract, another block or another kind of event is taken for one of them, and no log is read as two kinds.", "quantifier": "All sequences of events with all values of their Solidity types, interleaved with any logs of other contracts and blocks, any failed attempts before an answer.", "why_tests_cant": "The tests of the getters read a few blocks of a test network. Values at the limits of their types and the whole mapping from topics and words to events are statements about all logs.", "anchors": ["contract/contract.go:FilterSubscribeValidator", "oracle/onchain.go:GetSubscribeValidatorEvents", "oracle/onchain.go:GetEtherReceivedEvents"]}
{"id": "C112", "title": "A vote arrives as it was computed", "statement": "When the oracle submits a root, the bytes it sends are a transaction to the pool that carries no ether, has the pending nonce, is attributed to the oracle's own address by the chain, and calls submitReport with exactly the slot and the 32 bytes of the root; and the root and slot read back from the contract equal the submitted ones as texts exactly if the contract holds that slot and those 32 bytes.", "quantifier": "All slots, all roots, all answers of the execution client about nonce, fees and gas, before and after EIP-1559, all keys.", "why_tests_cant": "No test submits a root. That every root and slot is encoded without loss, and that the comparison of texts is the comparison of roots, are statements about all of them.", "anchors": ["oracle/onchain.go:UpdateContractMerkleRoot", "oracle/onchain.go:GetRewardsRoot", "oracle/onchain.go:GetLastConsolidatedSlot", "contract/contract.go:SubmitReport"]}
{"id": "C113", "title": "A client reads from an answer exactly what the oracle has", "statement": "The body of every successful answer of the API is a JSON text with one meaning. Whoever reads it by the rules of RFC 8259 finds under the documented names, each occurring once, exactly the amounts, indices, addresses, keys and states of the answer, with amounts as decimal numbers; lists have the same elements in the same order. An answer that reports an error is a JSON text too, and repeats its status 400, 500 or 503. A claim read from the body of the proof endpoint is accepted by the contract, and the body of the state endpoint, in any layout, brings another oracle to the same state.", "quantifier": "All answers of all endpoints, all values of all fields, all JSON texts with the same meaning.", "why_tests_cant": "The tests of the API compare a few fields of few answers after decoding with the same library. That no amount, sign or special character is changed on the way, and that other readers find the same, are statements about all values and all texts.", "anchors": ["api/api.go:respondOK", "api/types.go:httpOkMerkleProof", "api/api.go:handleMemoryAllBlocks", "api/api.go:handleState"]}
{"id": "C114", "title": "The checkpoints the API announces are checkpoints", "statement": "The slot shown as the next checkpoint by the status and the statistics endpoints is the next slot after which the oracle reports a checkpoint, and the slot shown as the latest or previous checkpoint is one at which it reported one.", "quantifier": "All configurations, histories of processed blocks, continuations, answers of the nodes and of the contract.", "why_tests_cant": "Whether the announced slot is the next checkpoint concerns all later blocks; the tests of the endpoints look at one answer.", "anchors": ["api/api.go:handleStatus", "api/api.go:handleMemoryStatistics", "oracle/oracle.go:IsCheckpoint"]}
{"id": "C115", "title": "One GET request is enough to be paid", "statement": "Whoever owned a tracked validator at the checkpoint that the contract holds, and asks a synchronised oracle for /onchain/proof/ followed by their address in any letter case, gets an answer with status 200. Whatever they read from its body by the rules of JSON are all that the oracle owed to the address at that checkpoint (or the pool fees, if the address receives these) and a proof with which the contract accepts a claim of this balance, if it is a 256 bit number.", "quantifier": "All reachable states of the oracle, checkpoints, owners, spellings of addresses, hash functions, JSON readers.", "why_tests_cant": "From the path of the request over the books, the tree and the text of the answer to the check in the contract: every step holds for all addresses and states or the claim fails for somebody.", "anchors": ["api/api.go:handleOnchainMerkleProof", "api/api.go:getRouter", "oracle/merklelizer.go:GenerateTreeFromState", "api/api.go:respondOK"]}
{"id": "C116", "title": "What is shown as claimable is what is paid", "statement": "With fewer dishonest members than votes needed, after any votes and claims: everybody to whom the books of the accepted slot owe something gets an answer to one GET request at any honest oracle that has reached the checkpoint. The amount read from its body is what the books owe them, and the contract accepts a claim with the proof in the body and pays exactly the amount shown as claimable.", "quantifier": "every chain, every set of members and votes, every sequence of reports and claims, every life of the oracle that is asked, every reading of the body by the rules of JSON, every owner and every letter case of their address", "why_tests_cant": "It connects the whole history of the books, the votes of all members, all earlier claims of everybody, restarts and rollbacks of the oracle that is asked and the text of its answer; a test sees one such combination.", "anchors": ["api/api.go:handleOnchainMerkleProof", "oracle/oracle.go:AdvanceStateToNextSlot", "oracle/oracle.go:FreezeCheckpoint", "oracle/merklelizer.go:GenerateTreeFromState", "oracle/onchain.go:UpdateContractMerkleRoot", "oracle/onchain.go:GetContractClaimedBalance"]}
{"id": "C117", "title": "The durations in the status are right", "statement": "The status endpoint shows the time to the next checkpoint and the time since the last one as texts such as '1 day 9 hours 20 minutes'. Read by a person, the first is 12 seconds for each slot from the finalized slot to the next checkpoint (no time if it has passed), the second 12 seconds for each slot from the last checkpoint to the finalized slot, with a minus sign if the contract is ahead of the node.", "quantifier": "All finalized slots, slots of the contract, checkpoint sizes, states and answers of the nodes.", "why_tests_cant": "The repository tests three texts. The text depends on divisions by eight units with singular and plural and on a conversion of unsigned differences through 64 bit nanoseconds.", "anchors": ["utils/utils.go:SlotsToTime", "api/api.go:handleStatus"]}
{"id": "C118", "title": "Who leaves, or is banned, costs nobody else anything", "statement": "When members leave the pool or are banned, everybody else ends with the same status and record and with at least the pending and accumulated money they would have if these members had stayed and done nothing. So no member can be made to pay for the departure of another, at once or later.", "quantifier": "All states, all sets of leaving and banned members, all numbers of such events in all blocks and histories of any length, all pairs of iteration orders and orders of the answers of the beacon node.", "why_tests_cant": "A comparison of two executions for every set of leavers and every later history; rounding, the order in which balances are shared and reset, and bans in the same block could cost somebody in rare combinations only.", "anchors": ["oracle/oracle.go:handleManualUnsubscriptions", "oracle/oracle.go:handleManualBans", "oracle/oracle.go:increaseAllPendingRewards", "oracle/oracle.go:AdvanceStateToNextSlot"]}
{"id": "C119", "title": "Nobody gains or loses by their place in a block", "statement": "If the payments, subscriptions, bans and unbans of a block come in another order (the subscriptions of one validator in the same order), the oracle ends with the same books: the same record for every validator, the same revenue of the pool and the same checkpoint tree; only the recorded lists of events keep the order of the chain. So whoever orders the transactions of a block cannot move money between members.", "quantifier": "All states, all blocks and all reorderings of them, histories of any length, all pairs of iteration orders and orders of the answers of the beacon node.", "why_tests_cant": "A comparison of two executions for every permutation of every block's events; a test fixes a few orders, and dependence on the order could need particular balances, repeated events or members named twice.", "anchors": ["oracle/oracle.go:handleManualSubscriptions", "oracle/oracle.go:handleManualBans", "oracle/oracle.go:handleManualUnbans", "oracle/oracle.go:handleDonations", "oracle/oracle.go:handleManualUnsubscriptions"]}
{"id": "C120", "title": "What the oracle reads from the contract is what the contract holds", "statement": "Every value the oracle asks of the contract (fee, fee recipient, checkpoint size, collateral, deployment block, quorum, members, root, last slot, claimed balances, the report voted for) is the value the contract holds at one moment of the asking: the request names the right function and argument, the answer is decoded to exactly the value encoded, only failed requests are repeated, and only they can keep the value from being read. So an oracle that starts runs with the parameters of the contract, and one that sends transactions does so with the account of a member.", "quantifier": "All contents of the contract within their Solidity types, all pool addresses and accounts, lists of members of any length, all patterns of failing requests and numbers of retries.", "why_tests_cant": "The values range over 256-bit words, 20-byte addresses and lists of any length, the failures over all patterns; the tests that exist need a live node and one deployed contract, whose few values cannot show a wrong selector of an unused getter, a truncated word or a list read at the wrong offset.", "anchors": ["oracle/onchain.go:IsAddressWhitelisted", "oracle/onchain.go:GetAddressToVotedReport", "oracle/onchain.go:GetAllOracleMembers", "oracle/onchain.go:GetContractCollateral", "oracle/onchain.go:GetPoolFeeAddress", "oracle/onchain.go:GetContractClaimedBalance", "contract/contract.go:ContractCaller"]}
{"id": "C121", "title": "A lower fee gives no member less", "statement": "If the same pool ran over the same blocks with a lower fee, no member would have less at the end, pending or accumulated, everybody would have the same status, and the pool would have no more; the sum of all the oracle owes would be the same. So the fee only moves money between the members and the pool, and always in the same direction.", "quantifier": "All pairs of fees between 0 and 100%, all histories of blocks of any length with bans, cancelled subscriptions, penalties and announced changes of the fee, all pairs of iteration orders and orders of the answers of the beacon node.", "why_tests_cant": "A comparison of two executions for every history and every pair of fees. The divisions round down at every distribution and forfeited balances are shared again, so that a difference of one wei somewhere could turn round later; a test sees a few amounts.", "anchors": ["oracle/oracle.go:NewOracle", "oracle/oracle.go:validateFullBlockConfig", "oracle/oracle.go:increaseAllPendingRewards", "oracle/oracle.go:handleManualBans", "oracle/oracle.go:handleManualUnsubscriptions", "oracle/oracle.go:handleBanValidator"]}
{"id": "C122", "title": "Monitoring shows what is so", "statement": "At every moment the gauges show the latest processed slot and block of the books, the distance to the finalized slot when that slot was processed (never wrapped below zero), and as known roots exactly the checkpoints frozen since the process started. The middleware that counts requests changes nothing a client gets, and the counter of a path and status is the number of GET requests for it that were answered so.", "quantifier": "All runs of the main loop with all answers of nodes, contract and disk; all sequences of HTTP requests of any method and path, interleaved with any changes of the books; all sequences of calls a handler can make on its writer.", "why_tests_cant": "No test looks at a metric. That gauges and books agree is an invariant of runs of any length, including those with failing nodes and restarts; a counter that misses one path or one order of writes looks right in any single request.", "anchors": ["main.go:mainLoop", "metrics/metrics.go:HttpRequestsTotal", "metrics/metrics.go:KnownRootAndSlot", "api/api.go:prometheusMiddleware", "api/api.go:WriteHeader", "api/api.go:Write", "api/api.go:respondOK", "api/api.go:respondError", "api/api.go:corsMiddleware", "api/api.go:getRouter"]}
{"id": "C123", "title": "The hashes are those of the standards", "statement": "The hash that makes the leaves and nodes of the Merkle trees (and addresses, checksums, selectors and transaction hashes) is Keccak-256 as FIPS 202 describes the permutation and the sponge, with the padding of the original submission; the hash written into saved states and compared on loading is SHA-256 as FIPS 180-4 describes it. For every message the output is 32 bytes and bit for bit that of the standard's definition.", "quantifier": "All byte strings of any length.", "why_tests_cant": "Test vectors try a few short messages; a wrong treatment of a message one byte short of a block, of many blocks, of one lane or of one constant would change hashes for some inputs only.", "anchors": ["oracle/merklelizer.go:KeccakHash", "utils/utils.go:DecodeTx", "oracle/oracle.go:hashStateLockFree"]}
{"id": "C124", "title": "The sender of a payment is who holds the key that signed it", "statement": "The address recovered from a transaction's signature is exactly the address of a key on the curve secp256k1 for which that signature, over everything in the transaction but the signature, is valid as SEC 1 says; at most one key fits; and whoever signs as SEC 1 says is recovered to the address of their own key. If no key fits, the transaction has no sender. So a payment counted as the reward of a block was signed with the key of the block's fee recipient or of a known builder.", "quantifier": "All hashes, parities and pairs of numbers in the range that is checked before; all transactions of all five kinds and all chain identifiers; all secret numbers and all numbers drawn for a signature.", "why_tests_cant": "The test recovers three senders. Point addition has special cases (equal points, opposite points, the neutral element) that random signatures never meet, and a signature that should not be accepted is not among the tests.", "anchors": ["utils/utils.go:GetTxSender", "utils/utils.go:DecodeTx", "oracle/block.go:MevRewardInWei"]}
{"id": "C125", "title": "Bad data stop the oracle with a message, not with a nil pointer", "statement": "Fetching a block and advancing by it never reads through a nil pointer: the outcome is a result, a returned error or log.Fatal, whatever the events, the validators named in them, the transactions, the receipts, the state and the order of maps are. Two things are needed: the beacon node answers only about validators it was asked for, and in a block whose fee recipient is the pool each receipt is that of the transaction at its place. The same holds for every step of the main loop in every run, if moreover the checkpoint size is not zero and the list of all validators, when it is not empty, contains the index that is its length less one. Without any one of these the program panics.", "quantifier": "All oracles in any state, all blocks with any content, all answers of the clients and of the contract, all iteration orders of maps; for the main loop all runs from a new oracle.", "why_tests_cant": "The tests feed consistent blocks. A panic needs a combination of unusual data and a state, over all handlers and the cleanup; that none of the other combinations panics is a statement about all of them.", "anchors": ["oracle/oracle.go:AdvanceStateToNextSlot", "oracle/oracle.go:increaseAllPendingRewards", "oracle/oracle.go:ValidatorCleanup", "oracle/block.go:GetProposerTip", "oracle/onchain.go:FetchFullBlock", "main.go:mainLoop", "oracle/oracle.go:FreezeCheckpoint", "oracle/onchain.go:RefreshBeaconValidators"]}
{"id": "C126", "title": "The lists of blocks say what each block earned", "statement": "Every entry of the lists of proposed, missed and wrong-fee blocks is about one processed slot and shows what its block earned: the builder's payment if there is one, else the priority fees of the block if they went to the pool or the proposer took part in the pool before the block; a missed slot shows zero. A block that paid the pool always shows its reward. A block kept by a proposer that subscribes in that very block is listed with zero, although it earned its fees.", "quantifier": "All histories from a new oracle, all blocks with consistent gas, all orders of maps.", "why_tests_cant": "The listed amount depends on the kind of payment, on the receipts and on who was subscribed before the block and who after its events.", "anchors": ["oracle/block.go:SummarizedBlock", "oracle/block.go:GetSentRewardAndType", "oracle/oracle.go:AdvanceStateToNextSlot"]}
