import Verif.Props.Duration
import Verif.Lemmas.JsonGrammar
import Verif.Lemmas.GoLib
import Verif.Spec.Client
import Verif.Props.Books
import Verif.Props.ProofEndpoint
import Verif.Props.Listings
/-
C113: what a client reads from an answer of the API is what the oracle has.
-/
namespace Verif
open Rfc Client JsonText

/-- **C113.** A JSON text has one meaning, and encoding/json finds it, however the text is laid out. -/
theorem C113_one_meaning {t : Str} {j : J} (h : Denotes t j) :
    JsonText.read t = some j ∧ ∀ j', Denotes t j' → j' = j := by
  refine ⟨read_denotes h, fun j' h' => ?_⟩
  have := read_denotes h'
  rw [read_denotes h] at this
  exact (Option.some.inj this).symm

theorem amount_field {fs : List (Str × J)} {key : Str} {n : Int}
    (h : (fs.filter fun p => p.1 = key) = [(key, amountJ n)]) : Amount (.obj fs) key n :=
  ⟨_, ⟨fs, rfl, h⟩, number_intText n⟩

theorem natText_field {fs : List (Str × J)} {key : Str} {n : Nat}
    (h : (fs.filter fun p => p.1 = key) = [(key, .str (natText n))]) : Amount (.obj fs) key n :=
  ⟨_, ⟨fs, rfl, h⟩, .nat (digits_natText n)⟩

theorem name_field {α : Type} {names : List (α × Str)} {fs : List (Str × J)} {key : Str} {a : α} {t : Str}
    (ht : (a, t) ∈ names) (h : (fs.filter fun p => p.1 = key) = [(key, .str t)]) : Name names (.obj fs) key a :=
  ⟨t, ht, ⟨fs, rfl, h⟩⟩

theorem status_named (s : Status) : (s, s.name) ∈ statusNames := by cases s <;> decide
theorem reward_named (s : RewardType) : (s, s.name) ∈ rewardNames := by cases s <;> decide
theorem block_named (s : BlockType) : (s, s.name) ∈ blockNames := by cases s <;> decide
theorem sub_named (s : SubType) : (s, s.name) ∈ subNames := by cases s <;> decide
theorem beacon_named (s : BStatus) : (s, s.name) ∈ beaconNames := by cases s <;> decide

theorem rows_map {α : Type} {R : J → α → Prop} {f : α → J} (h : ∀ a, R (f a) a) (l : List α) :
    Rows R (.arr (l.map f)) l := by
  refine ⟨_, rfl, ?_⟩
  induction l with
  | nil => exact .nil
  | cons a l ih => exact .cons (h a) ih

theorem nilRows_map {α : Type} {R : J → α → Prop} {f : α → J} (h : ∀ a, R (f a) a) (l : List α) :
    NilRows R (sliceJ (l.map f)) l := by
  unfold sliceJ
  split
  · rename_i e
    exact Or.inl ⟨rfl, List.map_eq_nil_iff.mp e⟩
  · exact Or.inr (rows_map h l)

theorem validatorRow (T : Texts) (p : Validator × BVal) : ValidatorRow (rowJ T p) p where
  status := name_field (status_named _) rfl
  beacon := name_field (beacon_named _) rfl
  eff := natText_field rfl
  acc := amount_field rfl
  pend := amount_field rfl
  coll := amount_field rfl
  waddr := ⟨_, rfl, rfl⟩
  index := ⟨_, rfl, rfl⟩
  key := ⟨_, rfl, rfl⟩
  subType := name_field (sub_named _) rfl

theorem validatorDoc (v : Validator) : ValidatorDoc (encVal v) v where
  status := name_field (status_named _) rfl
  acc := ⟨_, rfl, rfl⟩
  pend := ⟨_, rfl, rfl⟩
  coll := ⟨_, rfl, rfl⟩
  waddr := ⟨_, rfl, rfl⟩
  index := ⟨_, rfl, rfl⟩
  key := ⟨_, rfl, rfl⟩
  subType := name_field (sub_named _) rfl

theorem blockRow (b : SumBlock) : BlockRow (blockJ b) b where
  slot := ⟨_, rfl, rfl⟩
  block := ⟨_, rfl, rfl⟩
  index := ⟨_, rfl, rfl⟩
  key := ⟨_, rfl, rfl⟩
  type := name_field (block_named _) rfl
  reward := by
    intro x hx
    refine ⟨_, ⟨_, rfl, ?_⟩, number_intText x⟩
    rw [hx]
    rfl
  rewardType := name_field (reward_named _) rfl
  waddr := ⟨_, rfl, rfl⟩

theorem proofDoc (a : ProofAnswer) : ProofDoc (proofJ a) a where
  leafAddr := ⟨_, rfl, rfl⟩
  leafBal := amount_field rfl
  root := ⟨_, rfl, rfl⟩
  slot := ⟨_, rfl, rfl⟩
  proofs := ⟨_, ⟨_, rfl, rfl⟩, by
    have := (rows_map (R := fun j s => j = .str s) (f := J.str) (fun _ => rfl) a.proofs)
    obtain ⟨js, e, h⟩ := this
    cases e
    exact h⟩
  registered := ⟨_, ⟨_, rfl, rfl⟩, by
    have := (rows_map (R := fun j (i : Nat) => j = .num i) (f := fun i : Nat => J.num i) (fun _ => rfl) a.registered)
    obtain ⟨js, e, h⟩ := this
    cases e
    exact h⟩
  accumulated := amount_field rfl
  claimed := amount_field rfl
  claimable := amount_field rfl
  pending := amount_field rfl

theorem statsDoc (a : Stats) : StatsDoc (statsJ a) a where
  subscribed := ⟨_, rfl, rfl⟩
  active := ⟨_, rfl, rfl⟩
  yellow := ⟨_, rfl, rfl⟩
  red := ⟨_, rfl, rfl⟩
  banned := ⟨_, rfl, rfl⟩
  notSubscribed := ⟨_, rfl, rfl⟩
  latestSlot := ⟨_, rfl, rfl⟩
  nextCheckpoint := ⟨_, rfl, rfl⟩
  accumulated := amount_field rfl
  pending := amount_field rfl
  sent := amount_field rfl
  sent30 := amount_field rfl
  perValidator30 := amount_field rfl
  donations := amount_field rfl
  avgBlock := amount_field rfl
  proposed := ⟨_, rfl, rfl⟩
  missed := ⟨_, rfl, rfl⟩
  wrongFee := ⟨_, rfl, rfl⟩
  effBal := natText_field rfl
  avgEffBal := natText_field rfl

theorem configDoc (c : Config) : ConfigDoc (configJ c) c where
  network := ⟨_, rfl, rfl⟩
  poolAddr := ⟨_, rfl, rfl⟩
  depSlot := ⟨_, rfl, rfl⟩
  cpSize := ⟨_, rfl, rfl⟩
  fee := ⟨_, rfl, rfl⟩
  feesAddr := ⟨_, rfl, rfl⟩
  dryRun := ⟨_, rfl, rfl⟩
  collateral := amount_field rfl

theorem statusDoc (T : Texts) (a : FullStatus) : StatusDoc (statusJ T a) a where
  cons := ⟨_, rfl, rfl⟩
  exec := ⟨_, rfl, rfl⟩
  oracle := ⟨_, rfl, rfl⟩
  latestSlot := ⟨_, rfl, rfl⟩
  latestBlock := ⟨_, rfl, rfl⟩
  epoch := ⟨_, rfl, rfl⟩
  finalized := ⟨_, rfl, rfl⟩
  distance := ⟨_, rfl, rfl⟩
  next := ⟨_, rfl, rfl⟩
  remaining := ⟨_, rfl, rfl⟩
  remainingText := ⟨_, ⟨_, rfl, rfl⟩, duration_seconds⟩
  previous := ⟨_, rfl, rfl⟩
  age := ⟨_, rfl, rfl⟩
  ageText := ⟨_, ⟨_, rfl, rfl⟩, duration_seconds⟩
  consChain := natText_field rfl
  execChain := natText_field rfl
  deposit := ⟨_, rfl, rfl⟩

theorem relaysDoc (T : Texts) (a : RelaysAnswer) : RelaysDoc (relaysJ T a) a where
  ok := ⟨_, rfl, rfl⟩
  correct := ⟨_, ⟨_, rfl, rfl⟩, nilRows_map (fun _ => ⟨⟨_, rfl, rfl⟩, ⟨_, rfl, rfl⟩⟩) _⟩
  wrong := ⟨_, ⟨_, rfl, rfl⟩, nilRows_map (fun _ => ⟨⟨_, rfl, rfl⟩, ⟨_, rfl, rfl⟩⟩) _⟩
  unregistered := ⟨_, ⟨_, rfl, rfl⟩, nilRows_map (fun _ => ⟨_, rfl, rfl⟩) _⟩

theorem byIndexDoc (T : Texts) (a : ByIndexAnswer) : ByIndexDoc (byIndexJ T a) a where
  found := ⟨_, ⟨_, rfl, rfl⟩, nilRows_map (validatorRow T) _⟩
  notFound := ⟨_, ⟨_, rfl, rfl⟩, nilRows_map (f := fun i : Nat => J.num i) (fun _ => rfl) _⟩

/-- **C113** (partial: the reward of a block need not be a number, see `C113_false_nil`). The body of every answer
with status 200 is a JSON text, and whoever reads it finds under the documented names exactly the amounts,
addresses, numbers and states that the oracle answered with. -/
theorem C113_client_reads_partial (T : Texts) {r : Reply} (hr : IsOk r) :
    ∃ body j, replyBody T r = some body ∧ Denotes body j ∧ Says j r := by
  have key : ∀ j, replyDoc T r = some j → Says j r →
      ∃ body j, replyBody T r = some body ∧ Denotes body j ∧ Says j r := fun j h1 h2 =>
    ⟨_, j, by rw [replyBody, h1]; rfl, denotes_body j, h2⟩
  cases r with
  | hello => exact key _ rfl ⟨_, rfl⟩
  | status a => obtain ⟨x, rfl⟩ := hr; exact key _ rfl (statusDoc T x)
  | config c => exact key _ rfl (configDoc c)
  | relays a => obtain ⟨x, rfl⟩ := hr; exact key _ rfl (relaysDoc T x)
  | state s =>
    exact key _ rfl ⟨⟨_, rfl, rfl⟩, ⟨_, rfl, rfl⟩, ⟨_, rfl, rfl⟩, ⟨_, rfl, rfl⟩, ⟨_, rfl, rfl⟩⟩
  | validators a => obtain ⟨x, rfl⟩ := hr; exact key _ rfl (rows_map (validatorRow T) x)
  | validator a => obtain ⟨x, rfl⟩ := hr; exact key _ rfl (validatorDoc x)
  | byIndex a => obtain ⟨x, rfl⟩ := hr; exact key _ rfl (byIndexDoc T x)
  | fees p a x => exact key _ rfl ⟨⟨_, rfl, rfl⟩, ⟨_, rfl, rfl⟩, amount_field rfl⟩
  | statistics a => obtain ⟨x, rfl⟩ := hr; exact key _ rfl (statsDoc x)
  | blocks l => exact key _ rfl (rows_map blockRow l)
  | donations l => exact key _ rfl (rows_map (fun _ => ⟨amount_field rfl, ⟨_, rfl, rfl⟩⟩) l)
  | proof a => obtain ⟨x, rfl⟩ := hr; exact key _ rfl (proofDoc x)

/-- **C113.** The status is 200 exactly if the oracle could answer. Otherwise it is 400, 500 or 503, and the body is a JSON
text that repeats it and the message of the error. -/
theorem C113_errors (T : Texts) (message : Str) (r : Reply) :
    ((httpReply T message r).1 = 200 ↔ IsOk r) ∧
    (IsOk r → replyBody T r = some (httpReply T message r).2) ∧
    (¬ IsOk r → (httpReply T message r).1 ∈ [400, 500, 503] ∧
      ∃ j, Denotes (httpReply T message r).2 j ∧ Num j b!"code" (httpReply T message r).1 ∧
        Text j b!"message" message) := by
  have key : ∀ {α : Type} (a : Answer α) (f : α → J), replyDoc T r = a.doc f → replyCode r = a.code →
      (IsOk r ↔ ∃ x, a = .ok x) → ((httpReply T message r).1 = 200 ↔ IsOk r) ∧
    (IsOk r → replyBody T r = some (httpReply T message r).2) ∧
    (¬ IsOk r → (httpReply T message r).1 ∈ [400, 500, 503] ∧
      ∃ j, Denotes (httpReply T message r).2 j ∧ Num j b!"code" (httpReply T message r).1 ∧
        Text j b!"message" message) := by
    intro α a f h1 h2 h3
    unfold httpReply
    unfold replyBody
    rw [h1, h2, h3]
    have err : ∀ c : Nat, ∃ j, Denotes (bodyOf (errorJ c message)) j ∧ Num j b!"code" c ∧ Text j b!"message" message :=
      fun c => ⟨_, denotes_body _, ⟨_, rfl, rfl⟩, ⟨_, rfl, rfl⟩⟩
    cases a with
    | ok x => exact ⟨by simp [Answer.doc, Answer.code], fun _ => rfl, fun h => absurd ⟨x, rfl⟩ h⟩
    | unavailable => exact ⟨by simp [Answer.doc, Answer.code], by simp, fun _ => ⟨by simp [Answer.doc, Answer.code], err 503⟩⟩
    | badRequest => exact ⟨by simp [Answer.doc, Answer.code], by simp, fun _ => ⟨by simp [Answer.doc, Answer.code], err 400⟩⟩
    | internalError => exact ⟨by simp [Answer.doc, Answer.code], by simp, fun _ => ⟨by simp [Answer.doc, Answer.code], err 500⟩⟩
  have ok : ∀ j, replyDoc T r = some j → replyCode r = 200 → IsOk r → ((httpReply T message r).1 = 200 ↔ IsOk r) ∧
    (IsOk r → replyBody T r = some (httpReply T message r).2) ∧
    (¬ IsOk r → (httpReply T message r).1 ∈ [400, 500, 503] ∧
      ∃ j, Denotes (httpReply T message r).2 j ∧ Num j b!"code" (httpReply T message r).1 ∧
        Text j b!"message" message) := by
    intro j h1 h2 h3
    unfold httpReply
    unfold replyBody
    rw [h1, h2]
    exact ⟨⟨fun _ => h3, fun _ => rfl⟩, fun _ => rfl, fun h => absurd h3 h⟩
  cases r with
  | status a => exact key a _ rfl rfl Iff.rfl
  | relays a => exact key a _ rfl rfl Iff.rfl
  | validators a => exact key a _ rfl rfl Iff.rfl
  | validator a => exact key a _ rfl rfl Iff.rfl
  | byIndex a => exact key a _ rfl rfl Iff.rfl
  | statistics a => exact key a _ rfl rfl Iff.rfl
  | proof a => exact key a _ rfl rfl Iff.rfl
  | hello => exact ok _ rfl rfl trivial
  | config c => exact ok _ rfl rfl trivial
  | state s => exact ok _ rfl rfl trivial
  | fees p a x => exact ok _ rfl rfl trivial
  | blocks l => exact ok _ rfl rfl trivial
  | donations l => exact ok _ rfl rfl trivial

/-- C113: an address that is none -/
example : httpReply ⟨fun _ => [], fun _ => [], fun _ => 0, fun _ => []⟩ b!"invalid \"x\""
    (.proof .badRequest) = (400, b!"{\"code\":400,\"message\":\"invalid \\\"x\\\"\"}\n") := by decide +kernel

/-- **C113.** The blocks shown as proposed always come with an amount. -/
theorem C113_proposed_amounts {E : Env} {cfg : Config} {bs : List FullBlock} {o : Oracle} (T : Texts)
    (h : Hist E (newOracle cfg) bs o) :
    ∃ body j, replyBody T (.blocks o.st.proposed) = some body ∧ Denotes body j ∧
      Rows (fun j b => ∃ x, b.reward = some x ∧ Amount j b!"reward_wei" x) j o.st.proposed := by
  have hr : ∀ b ∈ o.st.proposed, b.reward ≠ none := by
    have : ∀ {o bs o'}, Hist E o bs o' → (∀ b ∈ o.st.proposed, b.reward ≠ none) →
        ∀ b ∈ o'.st.proposed, b.reward ≠ none := by
      intro o bs o' h
      induction h with
      | nil => intro h; exact h
      | cons hs _ ih => intro h; exact ih (slot_rewards hs h)
    exact this h (by intro b hb; cases hb)
  refine ⟨_, _, rfl, denotes_body _, _, rfl, ?_⟩
  generalize o.st.proposed = l at hr
  induction l with
  | nil => exact .nil
  | cons b l ih =>
    refine .cons ?_ (ih fun c hc => hr c (List.mem_cons_of_mem _ hc))
    obtain ⟨x, hx⟩ := Option.ne_none_iff_exists'.mp (hr b (List.mem_cons_self ..))
    exact ⟨x, hx, (blockRow b).reward x hx⟩

/-- **C113.** A claim taken from the body of `/onchain/proof/{withdrawalAddress}`: the strings of the proof, the root
and the balance, read from the text by whoever, are accepted by the contract for the address that was asked for. -/
theorem C113_claim_from_body {L : Lib} {H : List Nat → List Nat} {E : Env} (hE : ValidEnv E) {cfg : Config}
    (h0 : 0 < cfg.depSlot) (h1 : cfg.depSlot < 2 ^ 64) {o : Oracle} (hw : Work H E (newOracle cfg) o) (T : Texts)
    {t : Nat} {W : Outside} {pool : Str} {relays : List Str} {req root : Str} {slot : Nat} {o' : Oracle} {r : Reply}
    {body : Str} (hc : W.contract = some (root, slot))
    (hs : serve L E t W pool relays o (.proof req) = .ok (r, o')) (hb : replyBody T r = some body) :
    ∃ j ps n bytes, Denotes body j ∧ Text j b!"leaf_withdrawal_address" (lower req) ∧
      Amount j b!"leaf_accumulated_balance" n ∧ Text j b!"merkleroot" root ∧ Num j b!"checkpoint_slot" slot ∧
      Field j b!"merkle_proofs" (.arr (ps.map J.str)) ∧ root = b!"0x" ++ hexEncode bytes ∧
      (∃ c, W.claimed (lower req) = some c ∧ Amount j b!"already_claimed_rewards_wei" c ∧
        Amount j b!"claimable_rewards_wei" (n - c)) ∧
      (0 ≤ n → n < 2 ^ 256 → ∃ sibs addr claim, ps = sibs.map (fun x => b!"0x" ++ hexEncode x) ∧
        AddressText (lower req) addr ∧ ClaimBytes addr n.toNat claim ∧ Verifies H bytes sibs claim) := by
  unfold serve at hs
  dsimp only at hs
  split at hs
  · cases hs
  cases hs
  rw [hc] at hb
  cases hm : merkleProof E t W.fin (some (root, slot)) W.claimed o.st req with
  | unavailable => rw [hm] at hb; cases hb
  | badRequest => rw [hm] at hb; cases hb
  | internalError => rw [hm] at hb; cases hb
  | ok a =>
    rw [hm] at hb
    cases hb
    obtain ⟨bytes, k1, k2, k3, k4, k5, k6, k7, k8, k9⟩ := C46_answer_verifies hE h0 h1 hw hm
    have d := proofDoc a
    refine ⟨proofJ a, a.proofs, a.leafBal, bytes, denotes_body _, ?_, d.leafBal, ?_, ?_, ⟨_, rfl, rfl⟩, k1,
      ⟨a.claimed, k6, d.claimed, ?_⟩, k9⟩
    · rw [← k4]; exact d.leafAddr
    · rw [← k2]; exact d.root
    · rw [← k3]; exact d.slot
    · rw [← k7]; exact d.claimable

/-- **C113.** The body of `/state` is a checkpoint: an oracle configured in the same way that starts from it, in this
or any other layout, has the state of the one that was asked. -/
theorem C113_state_sync {H : List Nat → List Nat} {E E' : Env} (hE : ValidEnv E) (hE' : ValidEnv E') {cfg : Config}
    {o : Oracle} (hw : Work H E (newOracle cfg) o) (ht : StateTyped o.st) (ha : AddressesOK o.st) (T : Texts)
    {t : Nat} {W : Outside} {pool : Str} {relays : List Str} {r : Reply} {o1 : Oracle} {body : Str}
    (hs : serve goLib E t W pool relays o .state = .ok (r, o1)) (hb : replyBody T r = some body)
    (d : Disk) {slot : Nat} (hslot : cfg.dryRun = true ∨ ∀ p ∈ o.st.committed, p.1 ≤ slot) :
    ∃ j, Denotes body j ∧ ∀ raw, Denotes raw j →
      ∃ o', startup goLib H E' d cfg (some raw) (some slot) = .ok o' ∧ o'.cfg = o.cfg ∧ SameContent o'.st o.st ∧
        Work H E (newOracle cfg) o' := by
  have e : r = .state (hashState goLib o.st) := by
    unfold serve at hs
    cases hs
    rfl
  subst e
  cases hb
  refine ⟨_, denotes_body _, fun raw hraw => ?_⟩
  exact C81_checkpoint_sync_partial goLib_ok hE hE' hw ht ha hs (read_denotes hraw) d hslot

/-- **C115.** One GET request is enough to be paid. Somebody who owned a tracked validator at the checkpoint that the
contract holds asks for the documented path with their address, in any letter case. The answer has status 200, and
whatever they read from its body by the rules of JSON are a balance, which is all that the oracle owed them then (or
the pool fees, if they receive those), and a proof with which the contract accepts a claim of this balance. -/
theorem C115_get_and_claim {L : Lib} {H : List Nat → List Nat} {E : Env} (hE : ValidEnv E) {cfg : Config}
    (h0 : 0 < cfg.depSlot) (h1 : cfg.depSlot < 2 ^ 64) {o : Oracle} (hw : Work H E (newOracle cfg) o) (T : Texts)
    {t : Nat} {W : Outside} {pool : Str} {relays : List Str} {req : Str} {slot : Nat} {f : Frozen}
    (hf : (slot, f) ∈ o.st.committed) (hc : W.contract = some (f.root, slot))
    (hready : oracleReady W.fin o.st.latestSlot maxSlotsBehind = true) (hreq : IsAddress req)
    (hown : ∃ p ∈ f.vals, SameAddr req p.2.waddr) (hcl : ∃ x, W.claimed (lower req) = some x) :
    ∃ r reply body, route (b!"/onchain/proof/" ++ req) = some r ∧
      serve L E t W pool relays o r = .ok (reply, o) ∧ replyBody T reply = some body ∧
      (∃ j, Denotes body j) ∧ ∀ j, Denotes body j →
        ∃ ps n q bytes, Amount j b!"leaf_accumulated_balance" n ∧
          Field j b!"merkle_proofs" (.arr (ps.map J.str)) ∧ Text j b!"leaf_withdrawal_address" (lower req) ∧
          f.root = b!"0x" ++ hexEncode bytes ∧
          Work H E (newOracle cfg) q ∧ q.st.latestSlot = slot ∧
          (n = debtOf q.st (lower req) ∨ n = q.st.poolFees ∧ lower q.st.poolFeesAddr = lower req) ∧
          (0 ≤ n → n < 2 ^ 256 → ∃ sibs addr claim, ps = sibs.map (fun x => b!"0x" ++ hexEncode x) ∧
            AddressText (lower req) addr ∧ ClaimBytes addr n.toNat claim ∧ Verifies H bytes sibs claim) := by
  obtain ⟨a, ha⟩ := C46_owner_served hE h0 h1 hw (t := t) hf hready hreq hown hcl
  have hr : route (b!"/onchain/proof/" ++ req) = some (.proof req) := by
    refine (C70_router _ _).mpr ⟨rfl, ?_⟩
    intro x hx
    cases hx
    obtain ⟨d, rfl, _, hd⟩ := hreq
    refine ⟨by simp, fun hm => ?_⟩
    rcases List.mem_append.mp hm with hm | hm
    · revert hm; decide
    · have := hd 47 hm
      omega
  have hs : serve L E t W pool relays o (.proof req) = .ok (.proof (.ok a), o) := by
    unfold serve
    dsimp only
    rw [if_neg (by rw [isAddress_lower hreq]; simp), hc, ha]
  refine ⟨_, _, _, hr, hs, rfl, ⟨_, denotes_body _⟩, fun j hj => ?_⟩
  have e := (C113_one_meaning (denotes_body (proofJ a))).2 j hj
  subst e
  obtain ⟨bytes, k1, k2, k3, k4, k5, k6, k7, k8, k9⟩ := C46_answer_verifies hE h0 h1 hw ha
  obtain ⟨q, g1, g2, g3, _⟩ := C46_answer_is_debt hE h0 h1 hw ha
  have d := proofDoc a
  refine ⟨a.proofs, a.leafBal, q, bytes, d.leafBal, ⟨_, rfl, rfl⟩, by rw [← k4]; exact d.leafAddr, k1, g1, g2, ?_, k9⟩
  rcases g3 with ⟨g3, _⟩ | g3
  · exact Or.inl g3
  · exact Or.inr g3

/-- no number begins with `<` -/
theorem nil_no_number (n : Int) : ¬ Number b!"<nil>" n := by
  intro h
  cases h with
  | nat h => exact absurd (h.1.2 60 (by decide)) (by decide)

/-- A block without a reward shows the text `<nil>`. -/
theorem nil_no_amount {b : SumBlock} (hb : b.reward = none) (n : Int) :
    ¬ Amount (blockJ b) b!"reward_wei" n := by
  rintro ⟨t, ⟨fs, e, h⟩, hn⟩
  cases e
  rw [hb] at h
  have : [(b!"reward_wei", J.str b!"<nil>")] = [(b!"reward_wei", J.str t)] := h
  simp only [List.cons.injEq, Prod.mk.injEq, J.str.injEq, true_and, and_true] at this
  rw [← this] at hn
  exact nil_no_number n hn

namespace Sample
/-- Validator 2 sends a vanilla reward elsewhere, and the execution client gives the receipt of another
transaction. -/
def nilBlock : FullBlock :=
  { prop 12000001 2 (addr 99) (tx (addr 50) (addr 51) 1) {} with receipts := some [⟨8, 21000, 100⟩] }

def nilFinal : Oracle := (run env (newOracle cfg) [b0, nilBlock]).getD (newOracle cfg)

/-- the texts that are not modelled, here left out -/
def texts : Texts :=
  ⟨fun _ => [], fun _ => [], fun _ => 0, fun _ => []⟩
end Sample

/-- **C113 is false for a block without a reward.** If the execution client answers with a receipt that does not
belong to the transaction, a block of a subscriber with the wrong fee recipient is recorded without a reward, and
what the client finds as its reward is no number. -/
theorem C113_false_nil (T : Texts) :
    Hist Sample.env (newOracle Sample.cfg) [Sample.b0, Sample.nilBlock] Sample.nilFinal ∧
    ∀ L t W pool relays o' r body,
      serve L Sample.env t W pool relays Sample.nilFinal .wrongFeeBlocks = .ok (r, o') →
      replyBody T r = some body →
      ∃ j, Denotes body j ∧
        ¬ Rows (fun j b => Num j b!"slot" b.slot ∧ ∃ n, Amount j b!"reward_wei" n) j Sample.nilFinal.st.wrongFee := by
  refine ⟨Sample.run_some (by decide +kernel), ?_⟩
  intro L t W pool relays o' r body hs hb
  have e : r = .blocks Sample.nilFinal.st.wrongFee := by
    unfold serve at hs
    cases hs
    rfl
  subst e
  cases hb
  refine ⟨_, denotes_body _, ?_⟩
  have hn : ∃ b, Sample.nilFinal.st.wrongFee = [b] ∧ b.reward = none := by
    have : (match Sample.nilFinal.st.wrongFee with | [b] => b.reward == none | _ => false) = true := by
      decide +kernel
    revert this
    generalize Sample.nilFinal.st.wrongFee = l
    intro h
    split at h
    · exact ⟨_, rfl, by simpa using h⟩
    · cases h
  obtain ⟨b, hb, hr⟩ := hn
  rw [hb]
  rintro ⟨js, e, hf⟩
  cases e
  cases hf with
  | cons h _ =>
    obtain ⟨_, n, hn⟩ := h
    exact nil_no_amount hr n hn

/-- C113: the fees of the sample, and the text that a client reads -/
example : replyBody Sample.texts (.fees 700 Sample.feeAddr (-12)) =
    some (b!"{\"pool_fee_percent\":700,\"pool_fee_address\":\"" ++ Sample.feeAddr ++
      b!"\",\"pool_accumulated_fees\":\"-12\"}\n") := by decide +kernel

/-- C113: the blocks of the sample -/
example : Hist Sample.env (newOracle Sample.cfg) Sample.blocks Sample.final ∧ Sample.final.st.proposed.length = 2 ∧
    ∃ body j, replyBody Sample.texts (.blocks Sample.final.st.proposed) = some body ∧ Denotes body j ∧
      Rows (fun j b => ∃ x, b.reward = some x ∧ Amount j b!"reward_wei" x) j Sample.final.st.proposed :=
  ⟨Sample.hist, by decide +kernel, C113_proposed_amounts Sample.texts Sample.hist⟩

/-- C113: the owner of validator 10 asks for a proof and can claim -/
example : ∃ o r o' body, Work Sample.hash Sample.env (newOracle Sample.cfg) o ∧
    (∃ f, getFrozen o.st.committed 12000000 = some f ∧
      serve (Toy.lib Sample.hash) Sample.env 0
        { Sample.outside with fin := some 12000010, contract := some (f.root, 12000000), claimed := fun _ => some 7 }
        Sample.pool [] o (.proof Sample.caseAddr) = .ok (r, o')) ∧ replyBody Sample.texts r = some body := by
  obtain ⟨o, h1, h2⟩ := Sample.ex_does (L := Toy.lib Sample.hash) (H := Sample.hash) (E := Sample.env)
    (cs := Sample.caseCmds) (o := newOracle Sample.cfg) (P := Sample.served Sample.env Sample.caseAddr)
    (by decide +kernel)
  have hv : isHexAddress (lower Sample.caseAddr) = true := by decide +kernel
  unfold Sample.served at h2
  split at h2
  · cases h2
  rename_i f hf
  split at h2
  · rename_i a ha
    refine ⟨o, .proof (.ok a), o, _, Sample.work_of_does h1, ⟨f, hf, ?_⟩, rfl⟩
    unfold serve
    dsimp only
    rw [if_neg (by rw [hv]; simp), ha]
  · cases h2

/-- C115: the owner of validator 10 -/
example : ∃ o f, Work Sample.hash Sample.env (newOracle Sample.cfg) o ∧ (12000000, f) ∈ o.st.committed ∧
    oracleReady (some 12000010) o.st.latestSlot maxSlotsBehind = true ∧ IsAddress Sample.caseAddr ∧
    ∃ p ∈ f.vals, SameAddr Sample.caseAddr p.2.waddr := by
  obtain ⟨o, h1, h2⟩ := Sample.ex_does (L := Toy.lib Sample.hash) (H := Sample.hash) (E := Sample.env)
    (cs := Sample.caseCmds) (o := newOracle Sample.cfg)
    (P := fun o => (o.st.committed.any fun x => x.1 == 12000000 &&
      x.2.vals.any fun p => decide (SameAddr Sample.caseAddr p.2.waddr)) &&
      oracleReady (some 12000010) o.st.latestSlot maxSlotsBehind) (by decide +kernel)
  simp only [Bool.and_eq_true, List.any_eq_true, beq_iff_eq, decide_eq_true_eq] at h2
  obtain ⟨⟨⟨k, f⟩, a1, a2, p, a3, a4⟩, a5⟩ := h2
  dsimp only at a2
  subst a2
  exact ⟨o, f, Sample.work_of_does h1, a1, a5, (C50_address _).mp (by decide +kernel), p, a3, a4⟩

/-- C113: a state served by one oracle starts another one -/
example : ∃ o body o', Work Sample.hash Sample.env (newOracle Sample.feeCfg) o ∧ o.st.committed.length = 2 ∧
    replyBody Sample.texts (.state (hashState goLib o.st)) = some body ∧
    startup goLib Sample.hash Sample.envRev [] Sample.feeCfg (some body) (some 14082460) = .ok o' ∧
    SameContent o'.st o.st := by
  obtain ⟨o, h1, h2⟩ := Sample.ex_does (L := Toy.lib Sample.hash) (H := Sample.hash) (E := Sample.env)
    (cs := Sample.feeOld ++ Sample.feeNew) (o := newOracle Sample.feeCfg)
    (P := fun o => typedB o.st && Sample.addressesB o.st &&
      (o.st.committed.all fun p => decide (p.1 ≤ 14082460)) && o.st.committed.length == 2) (by decide +kernel)
  simp only [Bool.and_eq_true, List.all_eq_true, decide_eq_true_eq, beq_iff_eq] at h2
  obtain ⟨⟨⟨a1, a2⟩, a3⟩, a5⟩ := h2
  have hw := Sample.work_of_does h1
  obtain ⟨j, k1, k2⟩ := C113_state_sync Sample.env_valid Sample.envRev_valid hw (typed_of a1)
    (Sample.addresses_of a2) Sample.texts (t := 0) (W := Sample.outside) (pool := Sample.pool) (relays := []) rfl rfl []
    (slot := 14082460) (Or.inr a3)
  obtain ⟨o', g1, _, g3, _⟩ := k2 _ k1
  exact ⟨o, _, o', hw, a5, rfl, g1, g3⟩

end Verif
