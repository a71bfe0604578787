# Formal model of mev-sp-oracle: design

The code under study is the Go program in /repo (dappnode/mev-sp-oracle, pinned
commit). This directory holds a Lean 4 model of it and machine-checked proofs
of the properties listed in `properties.jsonl`. `MANIFEST.json` maps each
property to its theorems.

## Layout

* `lean/Verif/Model/*`  definitions modelling Go functions, one by one. Every
  definition cites the file and lines it models and says what is simplified.
* `lean/Verif/Spec/*`   small specifications, written without using the model's
  functions, in which the property theorems are stated. `Spec/Sample*.lean` and
  `Spec/ToyJson.lean` hold the concrete data of the examples.
* `lean/Verif/Lemmas/*` helper lemmas.
* `lean/Verif/Props/*`  the property theorems, named `Cnn_...`, each with an
  `example` showing that a concrete non-trivial case meets its hypotheses.
  `Cnn_..._partial` is a theorem that needs more than the property says;
  `Cnn_false_...` is a proof that the property fails without it.
* `seeded/LOG.jsonl`    experiments with wrong programs (see the end).

## Trusted base

* Lean 4.33.0's kernel. Every theorem depends at most on the three standard
  axioms `propext`, `Classical.choice` and `Quot.sound`; no axiom is added, and
  there is no `sorry`, `admit`, `native_decide` or `bv_decide`. Closed examples
  are evaluated by the kernel (`decide +kernel`), not by compiled code.
* The hand translation from Go to Lean, definition by definition.
* The specifications in `Spec/` say what the English properties say.
* The behaviour of libraries and of the outside world, as listed under "What is
  not modelled".

## How Go is rendered

* `*big.Int` balances are `Int`. `Div` and `Mod` of `big.Int` are Euclidean, as
  are Lean's `Int` `/` and `%`. Pointers are ignored here; `Model/Heap.lean` is a
  second model of the same functions in which every `*big.Int` is a pointer into
  a heap, and C53 proves that the first model is a faithful abstraction of it.
* `uint64` values are `Nat`; wherever Go can wrap, the model wraps explicitly
  (`u64`, `sub64`, `i64`).
* Returned errors, `log.Fatal` (process exit) and panics are three different
  outcomes, all explicit: `M α = Except Crash α` for the last two, errors in the
  value. A returned error keeps the half-updated oracle, as Go does.
* A Go map is an association list sorted by key. The order in which Go iterates
  is an arbitrary permutation supplied by the environment (`Env.perm`), a fresh
  one per loop (the ghost counter `tick` numbers the loops).
* Answers of the beacon node (`Env.node`, `Env.consol`) are arbitrary. What a
  theorem assumes about them is a hypothesis (`Spec/Env.lean`, `Spec/Chain.lean`,
  `Spec/Honest.lean`).
* Strings are lists of characters, ASCII lower-casing.
* Hash functions (keccak256, sha256) are arbitrary parameters. Soundness
  statements exhibit a collision, naming the two texts, instead of assuming that
  there is none. Both functions are also modelled and can be put in (`goLib_ok`,
  `keccak_ok`).
* Goroutines (C51, C52) are interleavings of the lock operations of each thread;
  memory inside a critical section may hold anything.

## What is modelled

| code | model |
|------|-------|
| oracle.go: NewOracle, IsCheckpoint, AdvanceStateToNextSlot, validateFullBlockConfig, fee schedule | `Advance`, `Types` |
| oracle.go: all handlers, advanceStateMachine, subscription checks, GetWithdrawalAndType | `Handlers`, `Creds` |
| oracle.go: reward distribution of all three eras | `Rewards` |
| oracle.go: ValidatorCleanup with consolidations | `Cleanup` |
| oracle.go: SaveToJson, LoadFromJson/Path/Bytes, LoadGivenState, hashStateLockFree, IsOracleInSyncWithChain | `Json`, `Persist`, `JsonText`, `Sha256`, `Keccak`, `GoLib` |
| oracle.go: FreezeCheckpoint, LatestCommitedSlot/State; merklelizer.go: aggregation, ordering, tree, proofs | `Merkle` |
| oracle.go: reconciliations, GetUniqueWithdrawalAddresses | `Reconcile` |
| oracle.go: the mutex, function by function | `Locks` |
| block.go: NewFullBlock, Set*, MevRewardInWei, GetSentRewardAndType, GetProposerTip, GetDonations, SummarizedBlock, getters | `Block`, `Fetch` |
| types.go: data types, JSON names of enumerations | `Types`, `Json` |
| onchain.go: FetchFullBlock, GetProposalDuty with its cache, GetSetOfValidators, GetSingleValidator, GetExecHeaderAndReceipts, UpdateContractMerkleRoot, GetClaimedPerWithdrawalAddress | `Fetch`, `Onchain`, `Reconcile` |
| onchain.go: GetConsensusBlockAtSlot, the nine event getters, GetOnchainSlotAndRoot, GetPendingConsolidations, GetRetryOpts, with single attempts and retries | `Requests` |
| onchain.go: NewOnchain, GetConfigFromContract, GetSlotByBlock, decodeInitialPoolFee; config.go: NewCliConfig; start of main.go | `Startup` |
| onchain.go: AreNodesInSync, GetFinalizedValidators, RefreshBeaconValidators; utils.go: GetActivationSlotOfLatestProcessedValidator | `Nodes` |
| main.go: main loop, submission and confirmation, shutdown handler | `MainLoop`, `Shutdown` |
| api.go: statistics, by-withdrawal, proof, status numbers, OracleReady, ApplyNonFinalizedState, input validation | `Api` |
| api.go: router, all other handlers, one request from beginning to end; GetSubscriptionsTillHead, GetUnsubscriptionsTillHead | `Endpoints`, `Logs` |
| api.go: respondOK and the answers of all handlers; types.go: their field names | `Replies` |
| utils.go: Equals, IsIn, credential parsing, SumAndSaturate | `Basic`, `Creds` |
| utils.go: DecodeTx, GetTxSender | `Rlp`, `TxDecode`, `Secp` |
| contract/contract.go: reading of the nine kinds of events from logs; SubmitReport, RewardsRoot, LastConsolidatedSlot | `Logs`, `Submit` |

## Plan per property

"History" means any sequence of successfully processed slots from a new oracle;
"work" additionally interleaves freezing checkpoints.

| id | modelled | how it is proved |
|----|----------|------------------|
| C01 | three distribution functions | exact sum of shares, algebra over lists |
| C02 | whole slot | debts change by what the block pays, per handler; induction over histories. `_partial`: twin payments excluded, `C02_false_twin_payment`. Without any hypothesis on payments: `C02_exact` gives the exact difference between received and owed (the payments of `Spec/Lost.lean`), `C02_balanced_iff` says exactly when the books balance |
| C03 | GetDonations, MevRewardInWei | decision logic; false for two equal payments in a block; exact division of the payments in `C03_exact` |
| C04-C06 | distribution functions | bounds of integer division; who takes part |
| C07 | whole slot | invariant from the first fork on; false before it |
| C08 | whole slot, aggregation | monotone per address, induction; self-consolidation excluded; false before the first fork |
| C09 | whole slot for any two iteration orders | equality of states modulo tick; only tracked validators that left and are consolidated into tracked ones that left are excluded. `C09_cleanup_exact`: the cleanup is determined if and only if no balance of a leaver would move to a leaver (two oracles that visit such a pair in the two orders end differently) |
| C10 | advanceStateMachine, whole slot | reachability in a separately written diagram |
| C11-C18 | handlers | per handler, lifted to slots and histories through C60 |
| C19, C57 | creation paths, credential parsing | decision logic on byte lists; invariant |
| C20, C22, C23 | counters and logs | induction, prefix invariant |
| C21 | error paths | what a failed slot leaves alone; false for fee and cleanup; `C21_exact` says exactly what it leaves |
| C24, C25, C29 | aggregation | leaves are the debts per address, any order; false if the fee recipient owns a validator; `C25_exact`: what its leaf shows in either case |
| C26, C27 | tree and verifier over any hash | induction on levels; soundness up to an explicit collision |
| C28 | FreezeCheckpoint | invariant over work |
| C30-C32, C58 | JSON encoding, save, load | round trip for reachable states; acceptance implies hash and configuration; tampering gives two named texts with equal SHA-256; also with the modelled library functions (`Props/Library.lean`); false for pool-owned validators and across a fee change; `Props/LoadExact.lean`: exactly which saved states are read back (`C30_exact`) and when a rollback works (`C32_exact`) |
| C33 | configuration checks, fee schedule | every slot; any schedule in any order |
| C34 | crash, restart, reprocessing | simulation; false for torn files and interrupted submissions |
| C35-C38 | main loop over arbitrary answers | trace invariants; C37 is false: after a skipped checkpoint nothing is ever submitted |
| C39-C41 | block.go against FetchFullBlock | decision logic, agreement of two functions; `C39_exact`: which last transactions ban a proposer who set the pool as fee recipient; `C40_exact` (`Props/TipExact.lean`): which blocks have a tip, an error, or neither |
| C42 | whole executions over honest chains | no Fatal, no panic; `C42_exact`: of the blocks that follow the rules of the chain exactly those with agreed configuration events and reported payments are processed (the others are an error and a Fatal); false for a payment without event, a change of the configuration, and a ban before fork1 |
| C43, C44 | ValidatorCleanup | decision logic, and the whole outcome as one formula over the chain (Spec/Cleanup.lean); nothing happens at slots not divisible by 1200; false for queued validators and self-consolidation |
| C45, C59 | reconciliation, unique addresses | list algebra; C59 false if the fee recipient owns a validator; `C59_exact` (`Props/ClaimsExact.lean`) gives the outcome in all three cases |
| C46-C50 | API handlers | C46, C47 against reachable oracles; C47 simulates the events' effect and follows the whole endpoint, from the logs asked for to the list, if no slot is processed meanwhile (`C47_endpoint_partial`, `C47_false_overlap`); others exact characterisations |
| C51, C52 | threads and the mutex | transition system; explicit deadlocks; invariant of what is saved |
| C53 | heap of integers | separation invariant, simulation of the value model |
| C54-C56 | duty cache, bulk lookup, submission | invariant of the cache; decision logic. `C54_panic_exact`: which sequences of look-ups crash |
| C60 | whole slot | refinement of the relation in `Spec/Slot.lean` |
| C61 | freezing after any history | false if a validator's address is the pool; `C61_exact` (`Props/Exact.lean`): freezing works exactly if no validator's address is the pool |
| C62-C65 | start-up | decoding against an encoder; exact characterisation; false: front-run fee, changed parameters, address without prefix |
| C66 | one HTTP request against any reachable oracle | no Fatal: invariant of address lengths; false: address without prefix, race with the main loop (mutex model) |
| C67, C68, C70, C71 | handlers, router | exact characterisations over all strings and answers; C68 and C71 false in corner cases |
| C69, C72, C73 | handlers | invariants over work and histories; `C73_exact`: which slots are in which list |
| C74 | idle part of the main loop | case analysis on the step, with C45, C59 and C02; false if the balance cannot be read |
| C75, C76 | retries, replies to single attempts, error texts, event iterators | first successful attempt counts; monotonicity of FetchFullBlock in the answers; false: a lost connection at a slot with 404 in its number, an undecodable log |
| C77 | pairs of executions of the main loop | every run follows a course of books that depends on the chain only; needs C76, C09 and C29; false after such a lost connection |
| C78, C79 | two calls to the contract; decoding of pending consolidations | what is read is characterised exactly (`C79_reads`); false: consolidation between the calls; a success without a list |
| C80, C81 | remaining handlers; start from another oracle's `/state` | induction over histories, with C02, C33, C60; with C30: the text is read as the served state; the accumulated fee exactly from C02_exact; false: a donation equal to the payment of the builder is not shown, the source is ahead of the contract, the source lies |
| C82 | the whole main loop (`stepLoop`) on reliable answers (`Spec/Live.lean`) | invariant of the loop collecting C02, C19, C20, C24, C42, C56, C59; every step goes through, and fairness of the three waits gives progress by induction on the slot; false: after a submission the loop waits for ever if the contract never shows that root (`C82_false_other_root`) |
| C83 | the whole life of an oracle (`Spec/Life.lean`): `startup`, `stepLoop` with cut-off saves, crashes, `shutdown`, restored files, sync from a living oracle | invariant of all lives: every file is a beginning of what an oracle of such a life saved, every state and every frozen checkpoint is one of an uninterrupted oracle; `loc_slot` (processing a slot depends only on the answers it reads) glues the environments of the pieces into one; chain data that fits its Go types keeps the state in its Go types (`Lemmas/Keep.lean`), so every complete file is read back; agreement and roots by C77 and C29, progress by C82. The configuration and the chain stay the same and nobody edits the files. False: see C32, C34 (starting again), C77, C09 (agreement), C82 (endless wait) |
| C84, C85 | several oracles, votes, accepted roots and claims (`Spec/Pool.lean`) | an honest member is among every quorum, its submissions are roots of uninterrupted books (C83), a root determines the claims (C25-C28); balances of an address never shrink (C60), so the paid amounts stay below the debts, which are covered (C96). Assumed: `SafeFetch` (honest answers about blocks; payments of equal amounts are allowed) and the conditions of C77 and C83 on nodes and lives; everything received fits 256 bits; the contract accepts a root with enough votes for a later slot and pays a proved claim minus what was claimed before. `Forged` names the alternative: a collision of the hash |
| C86, C87 | `nodesInSync`, `refresh` inside the main loop (`Model/Nodes.lean`) | case analysis; exact characterisation; C87 false: a list with a gap, or from a chain without validators activated after genesis, stops the oracle |
| C88 | several main loops (`stepLoop`) and the contract (`Spec/System.lean`), interleaved in any way | invariant of the whole system (all votes of honest members for the next checkpoint are the root of the books, C83, C84); a measure of what a member still has to do falls with each of its turns until it has voted; votes of a quorum are equal, so the contract moves; false: an oracle that sleeps while the contract moves past the checkpoint it waits for never wakes up (`C88_false_overtaken`) |
| C89, C32 (whole lives) | `startup`, `loadGivenState`, `loadOlder` on the disks of C83 | invariant of all lives: the file of slot n is a beginning of a saved state whose latest slot is n, because only a save at slot n writes it and names of different slots differ; so the copy that is loaded is not later than the slot asked for. Copies stay if no file is lost or damaged. False: a damaged copy (`C32_false_damaged_copy`) |
| C90 | whole slots (`advanceState`) | each micro-operation of a slot (`Lemmas/Micro.lean`) leaves pending + accumulated of a validator at least as large, except taking its pending; the causes of taking are those of `Forfeits`; induction over the history (`Props/Earnings.lean`). Needs fork1, since before it a share can be negative (C07) |
| C91 | whole slots | every stage of the specification of a slot (C60) gives the two members the same or ends the membership of one (`Even`); induction over the history. A validator banned and unbanned in one block ends as a member without its pending balance, and a target of a consolidation receives the pending balance of the source: both are excluded by `Alike` |
| C92 | whole slots with `cleanup` | before the cleanup a pending balance only grows (micro-operations, as in C90), then induction over the validators the node lists: who is listed as not active with a pending balance is removed and nothing puts it back. False: a member without a pending balance is skipped (`C92_false_zero_pending`); `C92_cleanup_exact` gives both directions for the cleanup itself |
| C93 | whole slots | contraposition of C12 over reachable states. False for the amount: a payment of 1 wei counts (`C93_false_token_payment`) |
| C94 | whole slots | the diagram of C10: the only edges to "banned" are a ban event and a block that does not pay the pool. False if the payment is not the last transaction (`C94_false_not_last`) |
| C95 | whole histories | the effects of C60 again, stage by stage: each gives the validator with less at stake at most what it gives the other; the rule of sharing is monotone in the effective balance. Only the one with less must not be the target of a consolidation |
| C96 | whole histories | as C02 with `pay_le`: reward and donations of a block are at most its payments and vanilla reward, even when payments have equal amounts; needs neither `DistinctPayments` nor `NoPaymentsIfMissed` |
| C97 | `increaseAll` under the electra rule, balances read from the chain | the gain of a group is a sum of rounded quotients with one common divisor, the total stake; the bounds for such sums give both theorems |
| C98 | books of an honest oracle at every slot, `RunOffchainReconciliation` in the main loop, lives of several oracles, votes | a block with two payments equal to its reward leaves received above owed; along slots owed minus received never grows (`slot_received_le`), books at a slot are unique (C84), and whatever an oracle freezes or submits balanced when frozen (`member_balanced`, part of the invariant of lives). So nothing is frozen, submitted or accepted from that slot on. Without equal payments the check passes after every life |
| C99 | `AdvanceStateToNextSlot` with the lists of `FetchFullBlock` (`Spec/Orders.lean`: the logs of a block in chain order, and what one order makes of a status) | each handler obeys its own list (from the effects of C60), the chain of handlers is the fold over the orders sorted by kind; equal to the chain's order if the orders come sorted; false otherwise: unban then ban, unsubscribe then subscribe; `C99_everybody` adds the proposal between subscriptions and unsubscriptions, so the proposer is covered; `C99_every_slot` adds the cleanup, which can only end the membership of somebody not active on the chain |
| C100 | main loop over arbitrary answers, `loop` of C35-C38 | what the oracle submits itself is saved only after the contract has shown that root (from C36); false when somebody else's root is already there: nothing is compared |
| C101 | whole slots | the effects of C60: without payments and forfeitures none of them touches the revenue. False: what a leaving or banned member gives up is shared with the fee charged a second time, also on its collateral (`C101_false_charged_again`). `C101_bounded`, for histories of any length without payments: the revenue grows by no more than the pending balances of those who give theirs up (from the conservation of the total, C08 and C90) |
| C102 | whole slots and histories, the donation loop as a sum | the relation of C09 made to ignore the logs of the payments; the loop over the payments is shown to credit the sum of shares that depend only on the chain, the fee and who earns, so the order drops out. False only where C09 is: a leaver consolidated into a leaver at a cleanup slot |
| C103 | whole slots; the shares of a payment as a function of its amount | a share is a fixed part of the amount after the fee, `part fee w T r`; cutting `r` in two changes it by at most one wei, by induction one wei per piece beyond the first; the rest of the slot is followed with the relation of C09. False for pieces of the amount of the reward (`C103_false_amount_of_reward`), before the first fork (`C103_false_before_fork`), in blocks that ban (`C103_false_ban`) and in cleanup slots that find somebody who left (`C103_false_leaver`) |
| C104 | the same; `PaidLess`: payments left out or smaller | `part` is monotone in the amount and grows by no more than the amount, for fees between 0 and 100%. `C104_slot_partial`, `C104_history_partial`: the relation "nobody is richer" is kept by every operation of a slot, bans and proposals included, and so by histories of any length. False before the first fork (`C104_false_before_fork`) and across a cleanup that finds somebody who left (`C104_false_leaver`); the upper bound is false for blocks that ban (`C104_false_ban`) |
| C105 | whole slots and histories | from the refinement C60: each step of the slot is the identity; at cleanup slots because nobody with a balance has left |
| C106 | JSON form of maps, text, hash | sorting of fields is a permutation with a unique result; the text is read back as the document, the document as the state |
| C107 | `advanceState` and `freeze` over two chains that differ by the numbers of the validators | relation between the two runs, kept by each handler; shares of a reward depend on the set of earners only; cleanup as a fold that commutes with renaming and does not depend on the order (no chains of consolidations) |
| C108 | whole slots and histories, two runs over the same blocks, one with further members (unknown to the other, or known and not sharing) | relation between the two runs, kept by each handler: same records, no more money; a share `part fee w T r` falls when `T` grows and when `r` falls. For slots since the first fork and cleanup slots with everybody active. False before the fork (`C108_false_before_fork`: shares can be negative) and when a further member leaves (`C108_false_leaver`: what it had is shared) |
| C109 | `DecodeTx` (go-ethereum `UnmarshalBinary`, all five kinds, and the RLP decoder and encoder), the accessors the oracle uses, hash, `Address.String` | against the encoding of the Yellow Paper and the EIPs, stated on trees (`Spec/TxBytes`): for each kind of field a decoder and an encoder that undo each other (`Codec`), put together to both directions for whole transactions. False with blobs attached (`C109_false_with_blobs`); `C109_exact` says for all bytes what is read: the encoding, or the transaction as it travels with its blobs (EIP-4844), nothing else |
| C110 | `GetTxSender` (`types.Sender` with the signer of the latest fork), for any recovery of keys; secp256k1 itself is in `Model/Secp` | equivalence with the specification of what is signed; injectivity of the signed bytes from the same codecs. Transactions of the oldest form name no chain (`C110_old_form`) |
| C111 | the generated bindings of contract/contract.go for the nine kinds of events the oracle acts on (`Filter…`, `Next`, `UnpackLog`), from raw logs, with go-ethereum's ABI decoder; the getters of oracle/onchain.go | against the ABI of Solidity with the topics of the deployed contract as numbers (`Spec/Logs`): the modelled Keccak gives these topics, each word is read back, and filtering commutes with the encoding. Assumes that the client's answers are honest (`HonestLogs`). Malformed logs are read leniently (`C111_false_malformed`). `C111_view`: what the API reads until the head of the chain is what C47 asks of the execution client |
| C112 | `UpdateContractMerkleRoot` down to the bytes of the transaction: `SubmitReport`, packing, `bind.transact`, signing for any key; reading of `RewardsRoot` and `LastConsolidatedSlot` | from C56 (which bytes), C109 (the transaction is read back), C110 (its sender) and the ABI as separate specification; an example on the real curve. `_partial`: signed for the number of the network, not of the chain (`C112_false_network`) |
| C113 | the bodies of all answers with status 200: `Encode`, the field names of api/types.go, how each value becomes a number, a text or a flag (`Replies`) | the grammar of RFC 8259 as a relation between texts and documents (`Spec/JsonGrammar`), independent of reader and writer; the writer's text is in it, the reader finds the meaning of every text in it, so the meaning is unique; per endpoint what a client must find (`Spec/Client`); with C46 for claims and C81 for the state. `_partial`: a block recorded without a reward shows `<nil>` (`C113_false_nil`) |
| C114 | status and statistics endpoints, `IsCheckpoint` | `NextCheckpointIs` speaks about all continuations of a history; from C20 and C22. `_partial`: the contract holds the last checkpoint (`C114_false_contract_slot`); for the statistics endpoint exactly when the claim holds (`C114_statistics_exact`), false between checkpoints (`C114_false_statistics`) |
| C115 | the proof endpoint from the path of the request to the text of the answer | C70 (router), C46 (served, verifies, is the debt) and the grammar of C113 put together; for every reading of the body |
| C116 | several oracles, the contract and the endpoint of one of them | the checkpoint the asked oracle keeps, the one the voters submitted and the one of the books are the same (C83, C84), C85 bounds what was claimed before, then C26, C46 and the grammar of C113. Missing: the conditions of C84 |
| C117 | `SlotsToTime` with the durafmt library, the 64-bit conversions, the body of `/status` (`Model/Duration.lean`) | a separate reader of such texts: words between spaces, numbers followed by units, a table of units, and what follows a unit less than the unit. The text is a list of words by induction over the units, what it reads as plus the remainders is the duration; the wrapped difference comes back as a negative number. False for times that do not fit in 64-bit nanoseconds (`C117_false_large`) |
| C118 | whole slots and histories, two runs, the first with further cancelled subscriptions and bans of some members | the relation of C108 between the two runs (same records, no more money in the second; of the members in question nothing but that they do not share in the first once they left), kept by each handler and by an event left out of the second run: what is taken from who leaves is not negative and is shared by the others. For slots since the first fork, cleanup slots with everybody active and blocks that do not name them otherwise. False before the fork (`C118_false_before_fork`), when a later block names them (`C118_false_later`: one wei of rounding) and when they leave the chain (`C118_false_leaver`) |
| C119 | whole slots and histories, two runs over the same blocks, with payments, subscriptions of different validators, bans and unbans in other orders | the relation of C09 made to ignore the list of subscriptions too; a subscription reads and writes the record of its validator only, so two of different validators commute, and an order that keeps the subscriptions of each validator is reached by such swaps; bans are a fold of commuting steps; unbans are given by the set of named validators. False for cancelled subscriptions (`C119_false_leavers`: the pool takes its fee twice on what the first leaver leaves to the second), for the subscriptions of one validator (`C119_false_same_validator`) and where C09 is false |
| C120 | the twelve requests to the contract, bytes of request and answer, retries; the start of the oracle on top | selectors of the model computed with the Keccak of the model and compared with the numbers in contract.go, by kernel evaluation; decoding inverts the encoding of Solidity for words, addresses and lists of addresses (induction over the list); retries by `Retried.some_iff`/`none_iff`; composed with `C65_sane_start` and `configured`. False for the report voted for (`C120_false_one_moment`: hash and report are two calls, and may belong to two moments) |
| C121 | whole slots and histories, two runs over the same blocks with different fees | the relation of C108 with a fee in the second run that may be higher: a share is monotone in the fee as it is in the total, so what is taken and shared again is too; the sum owed is the same by C02 (what is received and not credited depends on the block only), which gives the bound on the revenue of the pool. For slots since the first fork and cleanup slots with everybody active. False before the fork (`C121_false_before_fork`) and when somebody left the chain (`C121_false_leaver`: one wei more makes the cleanup remove it) |
| C122 | gauges of the main loop as a fold over its events, `float64`; net/http's writer, the middleware's writer, `respondOK`/`respondError`, method and path dispatch, the counter | invariant over every step of the main loop (latest slot and block, distance of the last processed slot; labels = checkpoints frozen since the start, with `LoopInv`); `float64` within one part in 2^53; the writer is transparent by induction over all calls; the counter by induction over all sequences of requests, each path fitting exactly one documented path (`C70_router`). False for broken connections (`C122_false_broken`), for requests that are not GET requests for a documented path (`C122_false_uncounted`), and the distance is stale while the nodes are not in sync (`C122_false_stale`) |
| C123 | SHA-256 of the model (`Model/Sha256.lean`: numbers and bytes; what crypto/sha256 computes) against FIPS 180-4 written on bits and 32-bit words (`Spec/Sha256.lean`: functions (4.2)–(4.7), schedule, padding; constants as the first 32 bits of the fractional parts of roots of the n-th primes, not as tables); Keccak-256 of the model (`Model/Keccak.lean`: 64-bit lanes, byte blocks; what golang.org/x/crypto/sha3 computes) against FIPS 202 written on bits (`Spec/Keccak.lean`: θ, ρ, π, χ, ι on the state array A[x,y,z], ρ offsets by the walk of the standard, round constants by its LFSR, pad10\*1 with no domain bits) | lane form and bit form shown equal step by step, then by induction on rounds and blocks; tables of offsets and constants compared by kernel evaluation (finite tables, all entries). SHA-256 the same way: the sliding window of sixteen words is the schedule, then induction on rounds and blocks; for the constants the primes below 312 are found by a primality test proved right, and each number is shown to be the whole part of the root |
| C124 | the recovery of `Model/Secp.lean` (Jacobian coordinates packed in numbers, inverses and square roots by powers) against signatures of SEC 1 on Mathlib's group of the points of y² = x³ + 7 (`Spec/Secp.lean`); on top of C110 the sender of a transaction | the formulas for sum and double stand for those of Mathlib's group law, special cases included; multiples by induction; both primes of SEC 2 by Pocklington certificates; the group has exactly n elements (the base point has the prime order n, there are at most 2p + 1 points and none of order 2), so division by s and r modulo n is right for every point; hash as in C123; `C124_reward` joins it with C109 from the bytes of a block |
| C125 | `fetchFullBlock`, `advanceState` and the steps of the main loop with panics and log.Fatal as different outcomes, any block, any state | every read of a validator is behind a check that it is tracked, nothing untracks one, shares go to validators that were asked for, the reward is nil only if a receipt is in the wrong place; the tree gets two leaves or more and every address is in it; recorded proposals have rewards (invariant). All four conditions are needed (`C125_false_receipt`, `C125_false_node`, `C125_false_size`, `C125_list_exact`). Nil values inside an answer of a client library (a validator without data) are not modelled |
| C126 | `summarize`, `sentReward`, `proposerTip` and the lists of the state, any history | the summary is read off by cases against `Displays`, a description of what a block earned (builder's payment, priority fees, or nothing); what a slot appends to a list is that summary; over histories by induction. `C126_false_zero`: the amount listed is not always the reward, a proposer that subscribes in its own block is listed with zero. Blocks are assumed to have consistent gas (`GasOK`) |

## Findings

Behaviour of the code that contradicts a property, each a theorem about the
model (`Cnn_false_...`) unless marked otherwise.

1. Two equal payments in one block (the last transaction and a donation) are
   confused, so money received is not credited (C02, C03).
2. Before the first fork the remainder is taken out twice; balances go negative (C07, C08).
3. Cleanup order: consolidating into a validator that also left depends on map
   iteration, so oracles disagree (C09). Consolidating into oneself loses the
   pending balance (C44). Validators still in the activation queue lose theirs (C43).
4. A slot that returns an error may already have changed fee, validators or
   logs; if the process is shut down then, the half-processed state is saved and
   the slot is credited twice after the restart (C21, C52).
   If the cleanup fails in the middle, the pending balances it had collected are gone (`C21_false_lost`).
5. If the fee recipient of the pool is also a validator's withdrawal address, one
   leaf replaces the other and a proof is lost (C25), and the address is counted
   twice in reconciliation (C59).
6. A validator whose withdrawal address is the pool contract is subscribed by
   proposing one block; from then on every checkpoint is Fatal (C61, C30).
7. Rolling back to a state saved before a fee change is rejected (C32).
8. A torn or empty state.json, or a shutdown while the first root is being
   confirmed, prevents the restart (C34, C52).
9. After a checkpoint was skipped, or after a restart between processing and
   freezing, the oracle never submits again (C37).
10. The read lock is taken recursively; with a writer in between, the main loop
    stops for ever (C51).
11. `errors.Wrap(nil)`: a reverted root update is reported as success (C56); a tip
    mismatch gives a nil tip without error (C40); nodes on different chains give
    a nil Onchain without error (Startup model; it panics later, C65).
12. A listed builder whose last transaction pays someone else gets the proposer
    banned although the pool is the fee recipient (C39).
13. A payment of the fee recipient to the pool without event is Fatal (C42).
14. Statistics divide by zero when all tracked validators are red (C48); readiness
    underflows when the oracle is ahead (C49); the public key pattern admits
    characters that are not hexadecimal (C50); an event about a validator that is
    missing in the cached answer of the node panics in the non-finalized view (C47).
15. GetProposalDuty panics for epoch 0 and for short answers (C54).
16. The initial fee is taken from the first contract creation that contains the
    bytes of the call, whoever sent it (C62).
17. Fee recipient, collateral and checkpoint size are read as of now and applied
    to the past: a late joiner disagrees (C64).
18. A pool address without `0x` passes the command line and stops the process at
    the first block (C65), or at the first question for a relay registration (C66).
19. Handlers iterate over the live map of validators after releasing the lock
    while the main loop changes it; Go stops the process when it notices (C66).
20. The by-index endpoint answers while the oracle is behind and silently drops
    tracked validators that the beacon node has not reported (C68). The status
    endpoint shows an oracle one slot ahead as 2^64 - 1 slots behind (C71).
21. If the balance of the contract cannot be read, the money check counts as
    done and is not repeated for three hours (C74).
22. Any error text that contains "404" counts as "no block". Go's connection
    errors contain the address asked for and with it the slot, so one broken
    connection at a slot with 404 in its number (7404169, 12000404), or at any
    slot if the address of the node contains 404, makes the oracle take the slot
    as missed for ever: the proposer gets a warning, the events of the block are
    lost, and from then on this oracle disagrees with the others (C75, C76, C77).
    That the text contains the address is knowledge about Go's `net/http` and
    go-eth2-client, which are not in the repository.
23. Events after a log that cannot be decoded are dropped silently (C76); a
    success without a list of consolidations counts as an empty list (C79); root
    and slot of the contract are read in two calls and may not belong together (C78).
24. Checkpoint sync from an oracle that has frozen a checkpoint which the contract has
    not accepted yet is Fatal on a machine without saved states, for every voting
    oracle (C81). The served hash protects against accidents only: any state with
    the right configuration is accepted (C81).
25. After submitting a root the main loop waits, without limit, until the contract shows
    exactly this root and slot. If another root has been consolidated for the slot, the
    oracle neither processes slots nor stops (C82).
26. Refreshing the list of validators for the HTTP service ends with a log line that
    looks up the last index and the latest activation epoch; on a list with a gap it is a
    nil dereference, on a chain whose validators are all from the genesis it is Fatal,
    so the main loop stops for the sake of a log line (C87).
27. The wait of finding 25 also catches an oracle that only was slow: if it sleeps (say, the machine
    is suspended, or its node lags behind) after it has voted and the others
    get the next root accepted meanwhile, it waits for ever, although everybody is honest and the
    root it waits for was accepted (C88). Only a restart helps.
28. When an oracle has to go back to the slot on chain and the copy of that slot is missing, the
    copies of the two checkpoints before are tried. If the copy is there but cut short (killed while
    writing), they are not tried and every start is Fatal (C32).
29. The cleanup skips validators without a pending balance. A member that proposed a paying block
    shortly before it exited stays a member and takes part in all sharing until the next cleanup,
    1200 slots later (C92).
30. A block with the proposer's own address as fee recipient whose last transaction sends 1 wei from
    that address to the pool counts as a block that paid: a member can keep all its rewards without
    being banned, and an outsider can join for 1 wei (C93).
31. Only the last transaction is looked at. If the builder pays the pool in an earlier one, the
    proposer is banned and the payment counts as a donation (C94).
32. The view of the validators of an address is read in two steps without a lock; an event processed
    between them is in neither of them, and the answer shows a status that the validator no longer
    has (C47).
33. One payment stops the pool for good: whoever pays the pool, in a block that rewards it, the
    amount of the reward once more, makes every oracle stop with a fatal error at its next
    checkpoint, and again after every restart, rollback or sync (C98).
34. The orders of a block are handled kind by kind: subscriptions, unsubscriptions, bans, unbans. A
    validator that is unbanned and banned again in one block ends up taking part; one that is
    unsubscribed and subscribed again in one block ends up outside (C99).
35. Nothing compares the root in the contract with the oracle's own when another member has already
    settled the checkpoint: with any other root there the oracle saves and goes on. The function
    that compares (`IsOracleInSyncWithChain`) is called by tests only (C100).
36. The fee is charged more than once on the same money: what a member gives up by leaving, a ban or
    an exit is shared with the fee taken off again, also from its own collateral (C101).
37. Reports are signed for the number of the network (`net_version`), not for the chain number that
    was checked at the start. They are equal on the four supported networks; where they differ, no
    report is ever accepted (C112).
38. A block of a subscriber with the wrong fee recipient for which the execution client gives a receipt of
    another transaction is recorded without a reward, and the API answers `"reward_wei": "<nil>"` (C113).
    Empty lists are answered as `[]` by some endpoints and as `null` by others (relays, validators by index).
39. `latest_checkpoint_slot` of the statistics is the slot processed last, and `next_checkpoint_slot` is one
    checkpoint size later, which is no checkpoint unless the slot processed last was one (C114).
40. Cancelled subscriptions are settled one after the other: who leaves later in the same block still gets
    a share of what the earlier one leaves, and gives it up at once, with the fee taken again. Whoever
    orders the transactions decides how much the others and the pool get (C119).
41. The report an oracle voted for is read in two calls, the hash and then the report of that hash. If the
    contract changes in between, the answer is a report voted for neither before nor after (C120).
42. The counter of HTTP requests knows nothing of requests answered with 404 or 405, of OPTIONS requests and of
    handlers that panicked, and shows a request whose connection broke as answered with 500 though 200 was
    sent. The distance to the finalized slot is updated only when a slot is processed: while the nodes are
    not in sync it keeps its last, usually small, value. After a restart the gauges are 0 until the next slot (C122).

## What is not modelled

* The contract itself (`Spec/Pool.lean` states what C84 and C85 assume of it, `Spec/System.lean` what C88 assumes), the execution and beacon nodes (their answers are
  arbitrary inputs), gas, wall-clock time and time-outs, logging,
  the Prometheus library and the latency histogram, HTTP headers and redirections, key handling, and the messages of answers that report an error (any text).
* The durafmt library behind `SlotsToTime` is modelled as it is known to work; the three texts in
  `utils_test.go` come out of the model.
* The go-merkletree library (v0.1.15) is modelled from its configuration in
  merklelizer.go (sorted pairs); the treatment of odd levels (last node
  duplicated) was validated against the test vectors in
  oracle/merklelizer_test.go with an independent keccak implementation.
* encoding/json and crypto/sha256 are parameters (`Lib`) of the theorems about
  saved files; what the theorems ask of them (`LibOK`, `HashOK`) is proved in
  `Lemmas/GoLib.lean` for a model of the library functions themselves: the text
  written by MarshalIndent and the scanner of Unmarshal (`Model/JsonText.lean`),
  SHA-256 (`Model/Sha256.lean`) and Keccak-256 (`Model/Keccak.lean`), both shown to be
  those of the standards (C123). So no theorem
  rests on an assumption about them that nothing satisfies, and C30 and C31 hold
  with them (`Props/Library.lean`). Maps are written in the order of their keys
  as texts and of a repeated key the last is read (C106). What differs from Go: of a raw
  log only the modelled fields are written, fractions are not read, surrogate pairs and
  invalid UTF-8 are not treated, and `read` has no limit of nesting.
* go-ethereum is not in the checkout: RLP, the kinds of transactions, the signers (`Model/Rlp`, `Model/TxDecode`),
  the recovery of keys (`Model/Secp`; C124 shows that it finds exactly the keys of SEC 1) and the decoding of logs (`Model/Logs`) are written from what version 1.15.7 does,
  from the EIPs and from the ABI of Solidity. The first three are compared with the three transactions of utils/utils_test.go, the
  topics with the comments of contract/contract.go. A chain id of 0, for which the library panics, is treated like an error of
  the signature; the oracle stops in both cases.
* Retries are modelled (`Requests`) for everything FetchFullBlock asks, for root
  and slot of the contract and for pending consolidations; elsewhere an answer
  is the one after all retries.
* Events of one block are modelled with the fields that the code reads.
* API: middleware; in the answers the balances of the beacon chain, transaction hashes and senders of
  donations and the timestamps of relays, which the model has no values for (`Texts` in `Model/Replies.lean`).
* oracle.go: lock leak when marshalling fails (marshalling cannot fail for the
  types used).

## Conformance with the repository's own tests

Theorems about a model say nothing about the program if the model computes something else. The modules
under `Verif/Tests` therefore repeat the repository's Go unit tests on the model, with the inputs and the
expected values written in those tests. They are tests, not proofs: no claim and no manifest entry rests
on them. All are evaluated by the kernel (`decide +kernel`).

- `LibraryTest`: SHA-256 with the examples of FIPS 180-4; JSON text as encoding/json writes and reads it.
- `MerkleTest`: oracle/merklelizer_test.go, and from oracle/oracle_test.go the tests with roots and proofs
  (`Test_FreezeCheckpoint`, `Test_getMerkleRootIfAny`, `Test_LatestCommitedSlot`,
  `Test_IsOracleInSyncWithChain`). Leaves, roots and proofs equal those of the Go tests byte for byte.
- `OracleTest`: the handlers, the reward splits before and after each fork, cleanup, consolidations, the
  state machine, bans and unbans, `IsCheckpoint`, `GetUniqueWithdrawalAddresses` of oracle/oracle_test.go.
- `FeeScheduleTest`: oracle/fee_schedule_test.go except the tests that replace the schedule and then run
  `validateFullBlockConfig` or `LoadFromBytes` (in the model these use the schedule of the program). The files of `LoadFromBytes` are written, hashed and
  read with the modelled library functions; the hash of one of them was computed by another program.
- `ApiTest`: the three tests of `ApplyNonFinalizedState`. `UtilsTest`: the helpers that are modelled,
  among them `Test_DecodeTx_GetSender` with its three mainnet transactions: fields, hashes and senders (RLP, Keccak-256
  and the recovery on secp256k1 evaluated by the kernel).

Not repeated: tests that the repository skips because they need a node or files that are not in the
checkout (`Test_AdvanceStateToNextSlot`, `Test_SummarizedBlock`, `Test_FullBlock_All`, the ones in
oracle/onchain_test.go, `Test_EndToEnd`); tests of things that are not modelled (`WeiToEther`,
`StringToBlsKey`, the JSON text itself). In two places the Go mock of the beacon node answers
for fewer validators than it was asked for, although `GetSetOfValidators` checks that; there the test on the
model lets the node answer for all of them.

## Experiments with wrong programs

Each line of `seeded/LOG.jsonl` is one edit of a model definition in a scratch
copy, rebuilt with all proofs. `failed` lists what no longer checks;
`failed_through_lemma` the property theorems of the same module that use a failed
lemma; `not_reached` counts property theorems in modules that import a failed one
and were therefore not rebuilt. `claim_theorems` says which of these happened to
the property that the edit breaks, and `tightened` what was strengthened.
