import Verif.Spec.Calls
import Verif.Props.Submit
import Verif.Props.Requests
import Verif.Props.Config
/-
C120: what the oracle reads from the contract is what the contract holds.
-/
namespace Verif

theorem call_selectors :
    (Keccak.keccak b!"poolFee()").take 4 = [0x08, 0x9f, 0xe6, 0xaa] ∧
    (Keccak.keccak b!"poolFeeRecipient()").take 4 = [0x75, 0xf6, 0x78, 0xa0] ∧
    (Keccak.keccak b!"checkpointSlotSize()").take 4 = [0xc7, 0xf7, 0x5d, 0x3f] ∧
    (Keccak.keccak b!"subscriptionCollateral()").take 4 = [0xf9, 0x35, 0x58, 0xe3] ∧
    (Keccak.keccak b!"deploymentBlockNumber()").take 4 = [0xcf, 0x00, 0x42, 0x17] ∧
    (Keccak.keccak b!"quorum()").take 4 = [0x17, 0x03, 0xa0, 0x18] ∧
    (Keccak.keccak b!"lastConsolidatedSlot()").take 4 = [0xa1, 0x19, 0xd6, 0x87] ∧
    (Keccak.keccak b!"rewardsRoot()").take 4 = [0x21, 0x78, 0x63, 0xb7] ∧
    (Keccak.keccak b!"getAllOracleMembers()").take 4 = [0x28, 0x27, 0xac, 0xf3] ∧
    (Keccak.keccak b!"claimedBalance(address)").take 4 = [0x98, 0x86, 0xc2, 0xa5] ∧
    (Keccak.keccak b!"addressToVotedReportHash(address)").take 4 = [0xc1, 0x26, 0x96, 0x50] ∧
    (Keccak.keccak b!"reportHashToReport(bytes32)").take 4 = [0x03, 0xef, 0x4a, 0xff] := by decide +kernel

theorem packAddress_eq {a : List Nat} (h : IsBytes 20 a) : packAddress a = addressWord a := by
  rw [packAddress, addressWord, h.1]

/-- A value read through one call. -/
def ReadsBy {α : Type} (c : EthCall) (pool : List Nat) (block : Option Nat) (x : Option α) (v : α) : Prop :=
  x = some v ∨ (x = none ∧ ¬ Up c pool block)

theorem askPool_reads {α : Type} {c : EthCall} {pool : Str} {block : Option Nat} {P : PoolContract} {sig : Str}
    {args out : List Nat} {dec : List Nat → Option α} {v : α} (hs : Serves c (hexToAddress pool) block P)
    (ha : PoolAnswers P ((Keccak.keccak sig).take 4 ++ args) out) (hl : out.length % 32 = 0) (hd : dec out = some v) :
    ReadsBy c (hexToAddress pool) block ((askPool c pool block sig args).bind dec) v := by
  unfold askPool
  rcases hs _ _ ha with h | h
  · left
    rw [h]
    simp [hl, hd]
  · right
    rw [h]
    exact ⟨rfl, fun hu => hu _ h⟩

theorem abiUint256_word {n : Nat} (h : n < 2 ^ 256) : abiUint256 (word32 n) 0 = some n := by
  rw [abiUint256, logWord_last (word32_length h)]
  simp [beNat_word32]

theorem abiUint64_word {n : Nat} (h : n < 2 ^ 64) : abiUint64 (word32 n) 0 = some n := by
  rw [abiUint64, abiUint256_word (uint64_small h)]
  simp only [Option.bind_eq_bind, Option.bind_some]
  rw [if_pos h]

theorem addressWords_eq {l : List (List Nat)} (h : ∀ a ∈ l, IsBytes 20 a) :
    addressWords l.length (l.flatMap addressWord) = some l := by
  induction l with
  | nil => rfl
  | cons a l ih =>
    have ha := addressWord_length (h a (by simp))
    rw [List.length_cons, List.flatMap_cons, addressWords, abiAddress, logWord_zero _ ha]
    have e : (addressWord a ++ l.flatMap addressWord).drop 32 = l.flatMap addressWord := by
      rw [← ha, List.drop_left]
    rw [e, ih fun b hb => h b (by simp [hb])]
    simp [addressWord_drop]

theorem flatMap_length {l : List (List Nat)} (h : ∀ a ∈ l, IsBytes 20 a) :
    (l.flatMap addressWord).length = 32 * l.length := by
  induction l with
  | nil => rfl
  | cons a l ih =>
    rw [List.flatMap_cons, List.length_append, ih fun b hb => h b (by simp [hb]), addressWord_length (h a (by simp)),
      List.length_cons]
    omega

theorem drop_of_length {a : List Nat} {n : Nat} (b : List Nat) (h : a.length = n) : (a ++ b).drop n = b := by
  subst h; simp

theorem take_of_length {a : List Nat} {n : Nat} (b : List Nat) (h : a.length = n) : (a ++ b).take n = a := by
  subst h; simp

theorem unpackAddresses_eq {l : List (List Nat)} (h : ∀ a ∈ l, IsBytes 20 a) (hn : l.length < 2 ^ 64) :
    unpackAddresses (word32 32 ++ word32 l.length ++ l.flatMap addressWord) = some l := by
  have h1 : (word32 32).length = 32 := word32_length (by norm_num)
  have h2 : (word32 l.length).length = 32 := word32_length (uint64_small hn)
  have h3 := flatMap_length h
  have e1 : (word32 32 ++ (word32 l.length ++ l.flatMap addressWord)).drop 32
      = word32 l.length ++ l.flatMap addressWord := drop_of_length _ h1
  have e2 : (word32 l.length ++ l.flatMap addressWord).take 32 = word32 l.length := take_of_length _ h2
  have e3 : (word32 32 ++ (word32 l.length ++ l.flatMap addressWord)).drop (32 + 32) = l.flatMap addressWord := by
    rw [← List.drop_drop, e1, drop_of_length _ h2]
  rw [List.append_assoc, unpackAddresses, lengthPrefix, abiUint256, logWord_zero _ h1]
  simp only [Option.map_some, Option.bind_eq_bind, Option.bind_some, beNat_word32, e1, e2]
  rw [if_neg (by simp only [List.length_append, h1, h2]; omega),
    if_neg (by simp only [List.length_append, h1, h2, h3]; omega)]
  simp only [Option.bind_some, e3]
  rw [if_neg (by omega), addressWords_eq h]

theorem obtains_of {α : Type} {n : Nat} {c : Nat → EthCall} {pool : List Nat} {block : Option Nat}
    {x : EthCall → Option α} {v : Nat → α} (h : ∀ k, ReadsBy (c k) pool block (x (c k)) (v k)) :
    Obtains n c pool block x v := by
  intro r hr
  have fails : ∀ i, x (c i) = none → ¬ Up (c i) pool block := by
    intro i hi
    rcases h i with h | h
    · rw [hi] at h; cases h
    · exact h.2
  cases r with
  | some a =>
    left
    obtain ⟨k, -, hk, hb, -⟩ := Retried.some_iff.mp hr
    refine ⟨k, ?_, fun i hi => fails i (hb i (Nat.zero_le _) hi)⟩
    rcases h k with h | h
    · rw [← h, ← hk]
    · rw [hk] at h; cases h.1
  | none =>
    right
    obtain ⟨h1, -, h2⟩ := Retried.none_iff.mp hr
    exact ⟨rfl, h1, fun i hi => fails i (h2 i (Nat.zero_le _) hi)⟩

theorem whitelisted_iff {a : List Nat} {l : List (List Nat)} : whitelisted a l = true ↔ a ∈ l := by
  induction l with
  | nil => simp [whitelisted]
  | cons m l ih =>
    rw [whitelisted, List.mem_cons]
    split
    · next h => simp [h]
    · next h =>
      rw [ih]
      constructor
      · exact Or.inr
      · rintro (rfl | h')
        · exact absurd rfl h
        · exact h'

section
variable {c : EthCall} {pool : Str} {a : List Nat} {P : PoolContract}

theorem reads_poolFee (hp : NamesAddress pool a) (hw : P.WF) (hs : Serves c a none P) :
    ReadsBy c a none (getPoolFee c pool) P.poolFee := by
  rw [← hexToAddress_of hp] at hs ⊢
  refine askPool_reads hs ?_ (by rw [word32_length hw.poolFee]) (abiUint256_word hw.poolFee)
  rw [call_selectors.1]; exact .poolFee

theorem reads_feeAddress (hp : NamesAddress pool a) (hw : P.WF) (hs : Serves c a none P) :
    ReadsBy c a none (getPoolFeeAddress c pool) (addressText P.feeRecipient) := by
  rw [← hexToAddress_of hp] at hs ⊢
  refine askPool_reads hs ?_ (by rw [addressWord_length hw.feeRecipient]) ?_ (out := addressWord P.feeRecipient)
  · rw [call_selectors.2.1]; exact .feeRecipient
  · simp only [abiAddress, logWord_last (addressWord_length hw.feeRecipient), Option.map_some, addressWord_drop]
    rfl

theorem reads_checkpointSize (hp : NamesAddress pool a) (hw : P.WF) (hs : Serves c a none P) :
    ReadsBy c a none (getCheckpointSize c pool) P.checkpointSize := by
  rw [← hexToAddress_of hp] at hs ⊢
  refine askPool_reads hs ?_ (by rw [word32_length (uint64_small hw.checkpointSize)]) (abiUint64_word hw.checkpointSize)
  rw [call_selectors.2.2.1]; exact .checkpointSize

theorem reads_collateral (hp : NamesAddress pool a) (hw : P.WF) (hs : Serves c a none P) :
    ReadsBy c a none (getCollateral c pool) P.collateral := by
  rw [← hexToAddress_of hp] at hs ⊢
  refine askPool_reads hs ?_ (by rw [word32_length hw.collateral]) (abiUint256_word hw.collateral)
  rw [call_selectors.2.2.2.1]; exact .collateral

theorem reads_deploymentBlock (hp : NamesAddress pool a) (hw : P.WF) (hs : Serves c a none P) :
    ReadsBy c a none (getDeploymentBlock c pool) P.deploymentBlock := by
  rw [← hexToAddress_of hp] at hs ⊢
  refine askPool_reads hs ?_ (by rw [word32_length hw.deploymentBlock]) (abiUint256_word hw.deploymentBlock)
  rw [call_selectors.2.2.2.2.1]; exact .deploymentBlock

theorem reads_quorum (hp : NamesAddress pool a) (hw : P.WF) (hs : Serves c a none P) :
    ReadsBy c a none (getQuorum c pool) P.quorum := by
  rw [← hexToAddress_of hp] at hs ⊢
  refine askPool_reads hs ?_ (by rw [word32_length (uint64_small hw.quorum)]) (abiUint64_word hw.quorum)
  rw [call_selectors.2.2.2.2.2.1]; exact .quorum

theorem reads_lastSlot (hp : NamesAddress pool a) (hw : P.WF) (hs : Serves c a none P) :
    ReadsBy c a none (getLastSlot c pool) P.lastSlot := by
  rw [← hexToAddress_of hp] at hs ⊢
  refine askPool_reads hs ?_ (by rw [word32_length (uint64_small hw.lastSlot)]) (abiUint64_word hw.lastSlot)
  rw [call_selectors.2.2.2.2.2.2.1]; exact .lastSlot

theorem reads_root (hp : NamesAddress pool a) (hw : P.WF) (hs : Serves c a none P) :
    ReadsBy c a none (getRewardsRoot c pool) (b!"0x" ++ hexEncode P.root) := by
  rw [← hexToAddress_of hp] at hs ⊢
  refine askPool_reads hs ?_ (by rw [hw.root.1]) ?_ (out := P.root)
  · rw [call_selectors.2.2.2.2.2.2.2.1]; exact .root
  · simp only [logWord_last hw.root.1]; rfl

theorem reads_members (hp : NamesAddress pool a) (hw : P.WF) (hs : Serves c a none P) :
    ReadsBy c a none (getMembers c pool) P.members := by
  rw [← hexToAddress_of hp] at hs ⊢
  refine askPool_reads hs ?_ ?_ (unpackAddresses_eq hw.members hw.number)
  · rw [call_selectors.2.2.2.2.2.2.2.2.1]; exact .members
  · simp only [List.length_append, flatMap_length hw.members, word32_length (uint64_small hw.number),
      word32_length (show 32 < 2 ^ 256 by norm_num)]
    omega

theorem NamesAddress.bytes {s : Str} {bs : List Nat} (h : NamesAddress s bs) : IsBytes 20 bs := by
  obtain ⟨h1, d, -, h2⟩ := h
  exact ⟨h1, hexText_bytes h2⟩

theorem reads_claimed {w : Str} {b : List Nat} {block : Option Nat} (hp : NamesAddress pool a) (hw : P.WF)
    (hb : NamesAddress w b) (hs : Serves c a block P) :
    ReadsBy c a block (getClaimed c pool block w) (P.claimed b) := by
  rw [← hexToAddress_of hp] at hs ⊢
  refine askPool_reads hs ?_ (by rw [word32_length (hw.claimed b)]) (abiUint256_word (hw.claimed b))
  rw [call_selectors.2.2.2.2.2.2.2.2.2.1, hexToAddress_of hb, packAddress_eq hb.bytes]
  exact .claimed hb.bytes

theorem reads_votedHash {b : List Nat} (hp : NamesAddress pool a) (hw : P.WF) (hb : IsBytes 20 b)
    (hs : Serves c a none P) : ReadsBy c a none (getVotedHash c pool b) (P.votedHash b) := by
  rw [← hexToAddress_of hp] at hs ⊢
  refine askPool_reads hs ?_ (by rw [(hw.votedHash b).1]) (logWord_last (hw.votedHash b).1)
  rw [call_selectors.2.2.2.2.2.2.2.2.2.2.1, packAddress_eq hb]
  exact .votedHash hb

theorem reads_report {h : List Nat} (hp : NamesAddress pool a) (hw : P.WF) (hh : IsBytes 32 h)
    (hs : Serves c a none P) : ReadsBy c a none (getReport c pool h) (P.report h) := by
  rw [← hexToAddress_of hp] at hs ⊢
  have l1 := word32_length (uint64_small (hw.report h).1)
  have l2 := word32_length (uint64_small (hw.report h).2)
  refine askPool_reads hs ?_ (by rw [List.length_append, l1, l2])
    (out := word32 (P.report h).1 ++ word32 (P.report h).2) ?_
  · rw [call_selectors.2.2.2.2.2.2.2.2.2.2.2]; exact .report hh
  · simp only [abiUint64, abiUint256, logWord_zero _ l1, logWord_succ _ _ l1, logWord_last l2, Option.map_some,
      Option.bind_eq_bind, Option.bind_some, beNat_word32]
    rw [if_pos (hw.report h).1, if_pos (hw.report h).2]
    rfl

end

/-- **C120**: whatever is read from the contract is what the contract holds at a moment of the reading, and only failed
requests keep it from being read. -/
theorem C120_reads {n : Nat} {c : Nat → EthCall} {pool w : Str} {a b : List Nat} {P : Nat → PoolContract}
    (hp : NamesAddress pool a) (hb : NamesAddress w b) (hw : ∀ k, (P k).WF) (hs : ∀ k, Serves (c k) a none (P k)) :
    Obtains n c a none (getPoolFee · pool) (fun k => (P k).poolFee) ∧
    Obtains n c a none (getPoolFeeAddress · pool) (fun k => addressText (P k).feeRecipient) ∧
    Obtains n c a none (getCheckpointSize · pool) (fun k => (P k).checkpointSize) ∧
    Obtains n c a none (getCollateral · pool) (fun k => (P k).collateral) ∧
    Obtains n c a none (getDeploymentBlock · pool) (fun k => (P k).deploymentBlock) ∧
    Obtains n c a none (getQuorum · pool) (fun k => (P k).quorum) ∧
    Obtains n c a none (getLastSlot · pool) (fun k => (P k).lastSlot) ∧
    Obtains n c a none (getRewardsRoot · pool) (fun k => b!"0x" ++ hexEncode (P k).root) ∧
    Obtains n c a none (getMembers · pool) (fun k => (P k).members) ∧
    Obtains n c a none (getClaimed · pool none w) (fun k => (P k).claimed b) :=
  ⟨obtains_of fun k => reads_poolFee hp (hw k) (hs k), obtains_of fun k => reads_feeAddress hp (hw k) (hs k),
   obtains_of fun k => reads_checkpointSize hp (hw k) (hs k), obtains_of fun k => reads_collateral hp (hw k) (hs k),
   obtains_of fun k => reads_deploymentBlock hp (hw k) (hs k), obtains_of fun k => reads_quorum hp (hw k) (hs k),
   obtains_of fun k => reads_lastSlot hp (hw k) (hs k), obtains_of fun k => reads_root hp (hw k) (hs k),
   obtains_of fun k => reads_members hp (hw k) (hs k), obtains_of fun k => reads_claimed hp (hw k) hb (hs k)⟩

/-- **C120**, the whitelist: an account counts as whitelisted exactly if it is a member. -/
theorem C120_whitelisted {n : Nat} {c : Nat → EthCall} {pool : Str} {a me : List Nat} {P : Nat → PoolContract}
    (hp : NamesAddress pool a) (hw : ∀ k, (P k).WF) (hs : ∀ k, Serves (c k) a none (P k)) :
    Obtains n c a none (fun x => (getMembers x pool).map (whitelisted me)) (fun k => decide (me ∈ (P k).members)) := by
  refine obtains_of fun k => ?_
  rcases reads_members hp (hw k) (hs k) with h | ⟨h, hu⟩
  · left
    rw [h, Option.map_some, Option.some_inj, Bool.eq_iff_iff, whitelisted_iff, decide_eq_true_iff]
  · right
    rw [h]
    exact ⟨rfl, hu⟩

/-- **C120**, at a block: the claimed balance is that of the block asked for, whatever the contract holds now. -/
theorem C120_claimed_at {n : Nat} {c : Nat → EthCall} {pool w : Str} {a b : List Nat} {block : Nat} {P : PoolContract}
    (hp : NamesAddress pool a) (hb : NamesAddress w b) (hw : P.WF) (hs : ∀ k, Serves (c k) a (some block) P) :
    Obtains n c a (some block) (getClaimed · pool (some block) w) (fun _ => P.claimed b) :=
  obtains_of fun k => reads_claimed hp hw hb (hs k)

/-- **C120**, the report voted for, as far as it goes: the hash is that of one moment and the report that of a later
one. What is missing: that both are of the same moment (`C120_false_one_moment`). -/
theorem C120_voted_partial {n : Nat} {f g : Nat → EthCall} {pool : Str} {a me : List Nat} {P Q : Nat → PoolContract}
    {r : Nat × Nat} (hp : NamesAddress pool a) (hm : IsBytes 20 me) (hw : ∀ k, (P k).WF) (hw' : ∀ k, (Q k).WF)
    (hs : ∀ k, Serves (f k) a none (P k)) (hs' : ∀ k, Serves (g k) a none (Q k))
    (h : VotedReport n f g pool me (some r)) : ∃ i j, r = (Q j).report ((P i).votedHash me) := by
  cases h with
  | report h1 h2 =>
    rcases obtains_of (x := (getVotedHash · pool me)) (c := f) (v := fun k => (P k).votedHash me) (fun k => reads_votedHash hp (hw k) hm (hs k)) _ h1 with
      ⟨i, hi, -⟩ | ⟨h, -⟩
    · cases hi
      rcases obtains_of (x := (getReport · pool ((P i).votedHash me))) (c := g) (v := fun k => (Q k).report ((P i).votedHash me))
        (fun k => reads_report hp (hw' k) ((hw i).votedHash me) (hs' k)) _ h2 with ⟨j, hj, -⟩ | ⟨h, -⟩
      · cases hj; exact ⟨i, j, rfl⟩
      · cases h
    · cases h

/-- **C120**, the start: an oracle that starts runs with the checkpoint size, the address for the fees, the collateral
and the deployment block that the contract tells; and if it is to send transactions, its account is one of the members,
with a balance. -/
theorem C120_start {up : Bool} {W : StartWorld} {U : Updater} {cli : CliConfig} {cfg : Config} {n : Nat}
    {c : Nat → Nat → EthCall} {me a : List Nat} {P : Nat → Nat → PoolContract} (hp : NamesAddress cli.pool a)
    (hw : ∀ q k, (P q k).WF) (hs : ∀ q k, Serves (c q k) a none (P q k)) (hq : StartAsks n c me cli W U)
    (hblock : ∀ k, (P 1 k).deploymentBlock < 2 ^ 64) (h : startUp up W U cli = .ok cfg) :
    (∃ k, cfg.depBlock = (P 1 k).deploymentBlock) ∧
    (∃ k, cfg.cpSize = (P 2 k).checkpointSize) ∧
    (∃ k, cfg.poolFeesAddr = addressText (P 3 k).feeRecipient) ∧
    (∃ k, cfg.collateral = (P 4 k).collateral) ∧
    (cfg.dryRun = false → (∃ k, me ∈ (P 0 k).members) ∧ ∃ x, U.balance = some x ∧ x ≠ 0) := by
  have hc : configFromContract W cli = .ok cfg := by
    unfold startUp at h
    obtain ⟨e, he, h⟩ := bind_ok.mp h
    obtain ⟨c, hc, h⟩ := bind_ok.mp h
    split at h
    · cases h
    · cases h
    split at h
    · exact h
    · obtain ⟨w, hw, h⟩ := bind_ok.mp h
      split at h
      · cases h
      obtain ⟨bal, hbal, h⟩ := bind_ok.mp h
      split at h
      · cases h
      exact h
  obtain ⟨e, ch, g, d, b, cb, k⟩ := configured hc
  have hwl := (C65_sane_start h).2.2.2.2
  refine ⟨?_, ?_, ?_, ?_, ?_⟩
  · have := hq.depBlock
    rw [k.depBlock] at this
    rcases obtains_of (x := (getDeploymentBlock · cli.pool)) (c := c 1) (v := fun j => (P 1 j).deploymentBlock)
      (fun j => reads_deploymentBlock hp (hw 1 j) (hs 1 j)) _ this with ⟨j, hj, -⟩ | ⟨h, -⟩
    · cases hj
      exact ⟨j, k.depBlock'.trans (Nat.mod_eq_of_lt (hblock j))⟩
    · cases h
  · have := hq.cpSize
    rw [k.cpSize] at this
    rcases obtains_of (x := (getCheckpointSize · cli.pool)) (c := c 2) (v := fun j => (P 2 j).checkpointSize)
      (fun j => reads_checkpointSize hp (hw 2 j) (hs 2 j)) _ this with ⟨j, hj, -⟩ | ⟨h, -⟩
    · exact ⟨j, by simpa using hj⟩
    · cases h
  · have := hq.feeAddr
    rw [k.feeAddr] at this
    rcases obtains_of (x := (getPoolFeeAddress · cli.pool)) (c := c 3) (v := fun j => addressText (P 3 j).feeRecipient)
      (fun j => reads_feeAddress hp (hw 3 j) (hs 3 j)) _ this with ⟨j, hj, -⟩ | ⟨h, -⟩
    · exact ⟨j, by simpa using hj⟩
    · cases h
  · obtain ⟨r, h1, h2⟩ := hq.collateral
    rw [k.collateral] at h2
    rcases obtains_of (x := (getCollateral · cli.pool)) (c := c 4) (v := fun j => (P 4 j).collateral)
      (fun j => reads_collateral hp (hw 4 j) (hs 4 j)) _ h1 with ⟨j, rfl, -⟩ | ⟨rfl, -⟩
    · exact ⟨j, by simpa using h2⟩
    · cases h2
  · intro hd
    obtain ⟨h1, h2⟩ := hwl hd
    refine ⟨?_, h2⟩
    obtain ⟨r, h3, h4⟩ := hq.whitelisted
    rw [h1] at h4
    rcases obtains_of (x := (getMembers · cli.pool)) (c := c 0) (v := fun j => (P 0 j).members)
      (fun j => reads_members hp (hw 0 j) (hs 0 j)) _ h3 with ⟨j, rfl, -⟩ | ⟨rfl, -⟩
    · exact ⟨j, whitelisted_iff.mp (by simpa using h4.symm)⟩
    · cases h4

namespace Sample

/-- A contract with two members. The account `voter` has voted for `hash`, whose report is `report`. -/
def contract (hash : List Nat) (report : List Nat → Nat × Nat) : PoolContract :=
  { poolFee := 700, feeRecipient := List.replicate 20 18, checkpointSize := 100, collateral := 1000,
    deploymentBlock := 20, quorum := 2, lastSlot := 12000100, root := List.replicate 32 7,
    members := [List.replicate 20 5, List.replicate 20 6], claimed := fun _ => 3, votedHash := fun _ => hash,
    report := report }

theorem contract_wf {h : List Nat} {r : List Nat → Nat × Nat} (hh : IsBytes 32 h)
    (hr : ∀ x, (r x).1 < 2 ^ 64 ∧ (r x).2 < 2 ^ 64) : (contract h r).WF where
  poolFee := by show 700 < 2 ^ 256; norm_num
  feeRecipient := show IsBytes 20 (List.replicate 20 18) by constructor <;> decide
  checkpointSize := by show 100 < 2 ^ 64; norm_num
  collateral := by show 1000 < 2 ^ 256; norm_num
  deploymentBlock := by show 20 < 2 ^ 256; norm_num
  quorum := by show 2 < 2 ^ 64; norm_num
  lastSlot := by show 12000100 < 2 ^ 64; norm_num
  root := show IsBytes 32 (List.replicate 32 7) by constructor <;> decide
  members := by
    intro a ha
    simp only [contract, List.mem_cons, List.not_mem_nil, or_false] at ha
    rcases ha with rfl | rfl <;> constructor <;> decide
  number := by show 2 < 2 ^ 64; norm_num
  claimed := fun _ => by show 3 < 2 ^ 256; norm_num
  votedHash := fun _ => hh
  report := hr

/-- An execution client that answers for `P`, at every address and block. -/
def clientOf (P : PoolContract) : EthCall := fun _ data _ =>
  let sel := data.take 4
  if sel = [0x08, 0x9f, 0xe6, 0xaa] then some (word32 P.poolFee)
  else if sel = [0x75, 0xf6, 0x78, 0xa0] then some (addressWord P.feeRecipient)
  else if sel = [0xc7, 0xf7, 0x5d, 0x3f] then some (word32 P.checkpointSize)
  else if sel = [0xf9, 0x35, 0x58, 0xe3] then some (word32 P.collateral)
  else if sel = [0xcf, 0x00, 0x42, 0x17] then some (word32 P.deploymentBlock)
  else if sel = [0x17, 0x03, 0xa0, 0x18] then some (word32 P.quorum)
  else if sel = [0xa1, 0x19, 0xd6, 0x87] then some (word32 P.lastSlot)
  else if sel = [0x21, 0x78, 0x63, 0xb7] then some P.root
  else if sel = [0x28, 0x27, 0xac, 0xf3] then
    some (word32 32 ++ word32 P.members.length ++ P.members.flatMap addressWord)
  else if sel = [0x98, 0x86, 0xc2, 0xa5] then some (word32 (P.claimed (data.drop 16)))
  else if sel = [0xc1, 0x26, 0x96, 0x50] then some (P.votedHash (data.drop 16))
  else if sel = [0x03, 0xef, 0x4a, 0xff] then
    some (word32 (P.report (data.drop 4)).1 ++ word32 (P.report (data.drop 4)).2)
  else some []

theorem clientOf_serves (P : PoolContract) (a : List Nat) (b : Option Nat) : Serves (clientOf P) a b P := by
  intro data out h
  left
  cases h <;> simp [clientOf, addressWord]

theorem clientOf_up (P : PoolContract) (a : List Nat) (b : Option Nat) : Up (clientOf P) a b := by
  have key : ∀ {p : Prop} [Decidable p] {x : List Nat} {y : Option (List Nat)}, y ≠ none →
      (if p then some x else y) ≠ none := by
    intro p _ x y h
    split
    · simp
    · exact h
  intro data
  exact key (key (key (key (key (key (key (key (key (key (key (key (by simp))))))))))))

end Sample

/-- **C120**, a reading across two moments: between the two calls the vote for one report is replaced by a vote for
another; what is obtained is the report voted for neither before nor after. -/
theorem C120_false_one_moment : ∃ (P Q : PoolContract) (pool : Str) (a me : List Nat) (r : Nat × Nat), P.WF ∧ Q.WF ∧
    NamesAddress pool a ∧ IsBytes 20 me ∧ Serves (Sample.clientOf P) a none P ∧ Serves (Sample.clientOf Q) a none Q ∧
    VotedReport 0 (fun _ => Sample.clientOf P) (fun _ => Sample.clientOf Q) pool me (some r) ∧
    r ≠ P.report (P.votedHash me) ∧ r ≠ Q.report (Q.votedHash me) := by
  have hm : IsBytes 20 (List.replicate 20 5) := by constructor <;> decide
  have b1 : IsBytes 32 (List.replicate 32 1) := by constructor <;> decide
  have b2 : IsBytes 32 (List.replicate 32 2) := by constructor <;> decide
  have hP := Sample.contract_wf (r := fun h => if h = List.replicate 32 1 then (12000200, 1) else (0, 0)) b1
    (fun x => by split <;> norm_num)
  have hQ := Sample.contract_wf (r := fun h => if h = List.replicate 32 2 then (12000300, 1) else (0, 0)) b2
    (fun x => by split <;> norm_num)
  refine ⟨_, _, Sample.pool, Sample.poolBytes, List.replicate 20 5, (0, 0), hP, hQ, Sample.pool_names, hm,
    Sample.clientOf_serves _ _ _, Sample.clientOf_serves _ _ _, ?_, ?_, ?_⟩
  · refine .report (h := List.replicate 32 1) (.done ?_) (.done ?_)
    · rcases reads_votedHash Sample.pool_names hP hm (Sample.clientOf_serves _ _ _) with h | ⟨-, h⟩
      · exact h
      · exact absurd (Sample.clientOf_up _ _ _) h
    · rcases reads_report Sample.pool_names hQ b1 (Sample.clientOf_serves _ _ _) with h | ⟨-, h⟩
      · rw [h]; decide
      · exact absurd (Sample.clientOf_up _ _ _) h
  · decide
  · decide

/-- C120: the hypotheses hold for a client that fails once and then answers; the collateral is read at the second
attempt. -/
example : ∃ (c : Nat → EthCall) (P : Nat → PoolContract), (∀ k, (P k).WF) ∧
    (∀ k, Serves (c k) Sample.poolBytes none (P k)) ∧ ¬ Up (c 0) Sample.poolBytes none ∧
    Retried 3 (fun k => getCollateral (c k) Sample.pool) 0 (some 1000) := by
  have hw : (Sample.contract (List.replicate 32 1) fun _ => (0, 0)).WF :=
    Sample.contract_wf (by constructor <;> decide) (fun _ => by norm_num)
  refine ⟨fun k => if k = 0 then fun _ _ _ => none else Sample.clientOf (Sample.contract (List.replicate 32 1) fun _ => (0, 0)),
    fun _ => Sample.contract (List.replicate 32 1) fun _ => (0, 0), fun _ => hw, ?_, ?_, ?_⟩
  · intro k
    dsimp only
    split
    · intro _ _ _; right; rfl
    · exact Sample.clientOf_serves _ _ _
  · intro h
    exact h [] rfl
  · refine .again rfl (Or.inr (by decide)) (.done ?_)
    rcases reads_collateral Sample.pool_names hw (Sample.clientOf_serves _ Sample.poolBytes none) with h | ⟨-, h⟩
    · exact h
    · exact absurd (Sample.clientOf_up _ _ _) h

end Verif
