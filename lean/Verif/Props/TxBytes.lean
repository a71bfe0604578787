import Verif.Lemmas.TxCodec
import Verif.Model.Secp
import Verif.Lemmas.Pays
/-
C109: the oracle reads in a transaction exactly what its bytes say. C110: a payment is attributed to whoever signed
exactly this payment for this chain.
-/
namespace Verif

theorem encSeq_cons (s : List Nat) : ∃ b l, encSeq s = b :: l ∧ 192 ≤ b := by
  unfold encSeq
  split
  · exact ⟨_, _, rfl, by omega⟩
  · exact ⟨_, _, rfl, by omega⟩

theorem preimage_eq (t : EthTx) : t.preimage =
    if t.type = 0 then encSeq (encItems t.items) else t.type :: encSeq (encItems t.items) := by
  unfold EthTx.preimage
  rw [putItem_eq, listItem_eq]
  rfl

theorem encSeq_content (s : List Nat) : s.length < (encSeq s).length := by
  unfold encSeq
  split
  · simp
  · simp only [List.length_cons, List.length_append]
    omega

theorem fits_items {t : EthTx} (hf : t.bytes.length < 2 ^ 64) : Fits64 (encItems t.items) := by
  rw [bytes_preimage, preimage_eq] at hf
  have := encSeq_content (encItems t.items)
  unfold Fits64
  split at hf
  · omega
  · simp only [List.length_cons] at hf
    omega

/-- **C109** Whatever transaction of the five kinds is in a block, the oracle reads from its bytes exactly this
transaction: the recipient, the amount, the prices and everything else. -/
theorem C109_reads (t : EthTx) (h : t.WF) (hf : t.bytes.length < 2 ^ 64) : decodeTx t.bytes = some t := by
  have hi := fits_items hf
  have hfd := fields_dec t h hi
  have hfl := fields_there hi
  simp only [encItem] at hfl
  rw [bytes_preimage, preimage_eq]
  obtain ⟨b, l, hb, h192⟩ := encSeq_cons (encItems t.items)
  rw [hb] at hfl ⊢
  cases t with
  | legacy n p g t' x d v r s =>
    simp only [EthTx.type, if_true]
    unfold decodeTx
    simp only
    rw [if_pos (by omega), hfl]
    exact hfd
  | accessList c n p g t' x d a v r s =>
    simp only [EthTx.type, decodeTx]
    simp only [one_ne_zero, if_false]
    rw [if_neg (by omega), if_neg (by simp), hfl]
    exact hfd
  | dynamic c n tc fc g t' x d a v r s =>
    simp only [EthTx.type, decodeTx]
    simp only [OfNat.ofNat_ne_zero, if_false]
    rw [if_neg (by omega), if_neg (by simp), hfl]
    exact hfd
  | blob c n tc fc g t' x d a bc bh v r s =>
    simp only [EthTx.type, decodeTx]
    simp only [OfNat.ofNat_ne_zero, if_false]
    rw [if_neg (by omega), if_neg (by simp), hfl]
    exact hfd
  | setCode c n tc fc g t' x d a au v r s =>
    simp only [EthTx.type, decodeTx]
    simp only [OfNat.ofNat_ne_zero, if_false]
    rw [if_neg (by omega), if_neg (by simp), hfl]
    exact hfd

theorem back_of_fields {k : Nat} (hk : k ≤ 4) {raw : List Nat} {t : EthTx} (hb : ∀ x ∈ raw, x < 256)
    (h : (rlpFields raw).bind (decFields k) = some t) :
    t.type = k ∧ raw = encSeq (encItems t.items) ∧ t.WF := by
  rw [Option.bind_eq_some_iff] at h
  obtain ⟨is, hi, hd⟩ := h
  obtain ⟨e, -, hbs⟩ := fields_back hb hi
  obtain ⟨h1, h2, h3⟩ := dec_fields k hk is t hbs hd
  rw [h2] at e
  exact ⟨h1, e, h3⟩

/-- **C109** Nothing else is read: if the oracle accepts some bytes as a transaction, then they are the one encoding
of this transaction, which is one that can exist. The exception are transactions with their blobs. -/
theorem C109_nothing_else_partial (raw : List Nat) (t : EthTx) (hb : ∀ x ∈ raw, x < 256) (hw : ¬ WithBlobs raw)
    (h : decodeTx raw = some t) : raw = t.bytes ∧ t.WF := by
  rw [bytes_preimage, preimage_eq]
  cases raw with
  | nil => cases h
  | cons b rest =>
    have hb' : ∀ x ∈ rest, x < 256 := fun x hx => hb x (List.mem_cons_of_mem _ hx)
    unfold decodeTx at h
    simp only at h
    split at h
    · obtain ⟨h1, h2, h3⟩ := back_of_fields (k := 0) (by omega) hb h
      rw [if_pos h1]
      exact ⟨h2, h3⟩
    · split at h
      · cases h
      · split at h
        · obtain ⟨h1, h2, h3⟩ := back_of_fields (k := 1) (by omega) hb' h
          rw [h1, ← h2]
          exact ⟨rfl, h3⟩
        · obtain ⟨h1, h2, h3⟩ := back_of_fields (k := 2) (by omega) hb' h
          rw [h1, ← h2]
          exact ⟨rfl, h3⟩
        · rw [Option.bind_eq_some_iff] at h
          obtain ⟨is, hi, hd⟩ := h
          unfold decBlobEither at hd
          split at hd
          · rename_i tx i2 i3 i4
            exfalso
            apply hw
            obtain ⟨e, -, -⟩ := fields_back hb' hi
            refine ⟨tx, encItems [i2, i3, i4], ?_⟩
            rw [e]
            rfl
          · obtain ⟨h1, h2, h3⟩ := back_of_fields (k := 3) (by omega) hb'
              (Option.bind_eq_some_iff.mpr ⟨is, hi, hd⟩)
            rw [h1, ← h2]
            exact ⟨rfl, h3⟩
        · obtain ⟨h1, h2, h3⟩ := back_of_fields (k := 4) (by omega) hb' h
          rw [h1, ← h2]
          exact ⟨rfl, h3⟩
        · cases h

/-- **C109** Exactly: bytes are read as a transaction if and only if they encode it and it can exist. -/
theorem C109_exact_partial (raw : List Nat) (t : EthTx) (hb : ∀ x ∈ raw, x < 256) (hw : ¬ WithBlobs raw)
    (hf : raw.length < 2 ^ 64) : decodeTx raw = some t ↔ raw = t.bytes ∧ t.WF := by
  constructor
  · exact C109_nothing_else_partial raw t hb hw
  · rintro ⟨rfl, h⟩
    exact C109_reads t h hf

theorem wrapped_eq {t : EthTx} (ht : t.type = 3) (bl cm pr : List (List Nat)) : t.wrapped bl cm pr =
    3 :: encSeq (encItems [(true, encItems t.items), listItem (bl.map fun h => (false, h)),
      listItem (cm.map fun h => (false, h)), listItem (pr.map fun h => (false, h))]) := by
  unfold EthTx.wrapped
  rw [bytes_preimage, preimage_eq, if_neg (by omega)]
  simp only [tree_enc, hashes_item, List.tail_cons, encItems_cons]
  congr 1
  congr 1
  simp only [encItem, encItems, List.map_nil, List.flatten_nil, List.append_nil]

theorem blob_type {t : EthTx} (ht : t.type = 3) :
    ∃ c n tc fc g a x d l bc bh v r s, t = .blob c n tc fc g a x d l bc bh v r s := by
  cases t with
  | blob c n tc fc g a x d l bc bh v r s => exact ⟨c, n, tc, fc, g, a, x, d, l, bc, bh, v, r, s, rfl⟩
  | _ => cases ht

/-- **C109** Exactly, with nothing left out: bytes are read as a transaction if and only if it can exist and they are
either its one encoding in a block, or this transaction of kind 3 as it travels with its blobs. -/
theorem C109_exact (raw : List Nat) (t : EthTx) (hb : ∀ x ∈ raw, x < 256) (hf : raw.length < 2 ^ 64) :
    decodeTx raw = some t ↔ (raw = t.bytes ∨ t.TravelsAs raw) ∧ t.WF := by
  constructor
  · intro h
    by_cases hw : WithBlobs raw
    · cases raw with
      | nil => cases h
      | cons b rest =>
        have hb' : ∀ x ∈ rest, x < 256 := fun x hx => hb x (List.mem_cons_of_mem _ hx)
        obtain ⟨tx, r, e⟩ := hw
        have e1 : b = 3 := by injection e
        subst e1
        simp only [decodeTx] at h
        rw [if_neg (by omega), if_neg (by simpa using fun h0 => by simp [h0, rlpFields, rlpSplit] at h)] at h
        rw [Option.bind_eq_some_iff] at h
        obtain ⟨is, hi, hd⟩ := h
        obtain ⟨e2, -, hbs⟩ := fields_back hb' hi
        unfold decBlobEither at hd
        split at hd
        · rename_i tx i2 i3 i4
          obtain ⟨fs, h1, hd⟩ := optBind_some hd
          obtain ⟨t1, h2, hd⟩ := optBind_some hd
          obtain ⟨bl, h3, hd⟩ := optBind_some hd
          obtain ⟨cm, h4, hd⟩ := optBind_some hd
          obtain ⟨pr, h5, hd⟩ := optBind_some hd
          cases hd
          have ht : ∀ x ∈ tx, x < 256 := hbs (true, tx) (by simp)
          have e3 := items_back ht h1
          obtain ⟨g1, g2, g3⟩ := dec_fields 3 (by omega) fs t (items_bytes ht e3) h2
          obtain ⟨rfl, k3⟩ := (codec_hashes 131072).back i2 bl (hbs i2 (by simp)) h3
          obtain ⟨rfl, k4⟩ := (codec_hashes 48).back i3 cm (hbs i3 (by simp)) h4
          obtain ⟨rfl, k5⟩ := (codec_hashes 48).back i4 pr (hbs i4 (by simp)) h5
          refine ⟨.inr ⟨blob_type g1, bl, cm, pr, k3, k4, k5, ?_⟩, g3⟩
          rw [wrapped_eq g1, e2, e3, g2]
          rfl
        · obtain ⟨h1, h2, h3⟩ := back_of_fields (k := 3) (by omega) hb'
            (Option.bind_eq_some_iff.mpr ⟨is, hi, hd⟩)
          refine ⟨.inl ?_, h3⟩
          rw [bytes_preimage, preimage_eq, if_neg (by omega), h1, ← h2]
    · obtain ⟨h1, h2⟩ := C109_nothing_else_partial raw t hb hw h
      exact ⟨.inl h1, h2⟩
  · rintro ⟨rfl | ⟨hk, bl, cm, pr, k3, k4, k5, rfl⟩, h⟩
    · exact C109_reads t h hf
    · have ht : t.type = 3 := by
        obtain ⟨_, _, _, _, _, _, _, _, _, _, _, _, _, _, rfl⟩ := hk
        rfl
      rw [wrapped_eq ht] at hf ⊢
      have hl := encSeq_content (encItems [(true, encItems t.items), listItem (bl.map fun h => (false, h)),
        listItem (cm.map fun h => (false, h)), listItem (pr.map fun h => (false, h))])
      simp only [List.length_cons] at hf
      have hi : Fits64 (encItems [(true, encItems t.items), listItem (bl.map fun h => (false, h)),
        listItem (cm.map fun h => (false, h)), listItem (pr.map fun h => (false, h))]) := by
        unfold Fits64
        omega
      have hfl := fields_there hi
      simp only [encItem] at hfl
      have f1 : Fits64 (encItems t.items) := fits_mem hi (i := (true, encItems t.items)) (by simp)
      have hfd := fields_dec t h f1
      rw [ht] at hfd
      obtain ⟨b, l, hbl, h192⟩ := encSeq_cons (encItems [(true, encItems t.items),
        listItem (bl.map fun h => (false, h)), listItem (cm.map fun h => (false, h)),
        listItem (pr.map fun h => (false, h))])
      rw [hbl] at hfl ⊢
      simp only [decodeTx]
      rw [if_neg (by omega), if_neg (by simp), hfl]
      simp only [Option.bind_some, decBlobEither]
      rw [items_there f1]
      have h3 := (codec_hashes 131072).there bl k3 (fits_mem hi (by simp))
      have h4 := (codec_hashes 48).there cm k4 (fits_mem hi (by simp))
      have h5 := (codec_hashes 48).there pr k5 (fits_mem hi (by simp))
      simp only [decFields] at hfd
      simp only [Option.bind_eq_bind, Option.bind_some, hfd, h3, h4, h5]

/-- **C109** No two transactions are confused: different transactions have different bytes. -/
theorem C109_injective (t t' : EthTx) (h : t.WF) (h' : t'.WF) (hf : t.bytes.length < 2 ^ 64)
    (he : t.bytes = t'.bytes) : t = t' := by
  have h1 := C109_reads t h hf
  rw [he] at hf h1
  rw [C109_reads t' h' hf] at h1
  exact (Option.some.inj h1).symm

/-- **C109** The hash under which the oracle asks for the receipt, and which it compares with the receipt, is the hash
of the very bytes in the block. -/
theorem C109_hash_partial (ec : Ecrecover) (chain : Nat) (raw : List Nat) (t : EthTx) (hb : ∀ x ∈ raw, x < 256)
    (hw : ¬ WithBlobs raw) (h : decodeTx raw = some t) :
    (t.toTx ec chain).hash = beNat (Keccak.keccak raw) := by
  obtain ⟨e, -⟩ := C109_nothing_else_partial raw t hb hw h
  rw [e, bytes_preimage]
  rfl

theorem lower_hexDigit {d : Nat} (hd : d < 16) : lowerByte (hexDigit d) = hexDigit d := by
  unfold hexDigit lowerByte
  split <;> split <;> omega

theorem lower_up {d : Nat} (hd : d < 16) (h : hexDigit d > 57) : lowerByte (hexDigit d - 32) = hexDigit d := by
  unfold hexDigit at h ⊢
  unfold lowerByte
  split at h
  · omega
  · rename_i h10
    rw [if_neg h10]
    rw [if_pos (by omega)]
    omega

theorem hexEncode_digits (a : List Nat) (ha : ∀ x ∈ a, x < 256) : ∀ c ∈ hexEncode a, ∃ d < 16, c = hexDigit d := by
  induction a with
  | nil =>
    intro c hc
    cases hc
  | cons b a ih =>
    intro c hc
    have hb := ha b (List.mem_cons_self ..)
    simp only [hexEncode, List.mem_cons] at hc
    rcases hc with rfl | rfl | hc
    · exact ⟨b / 16, by omega, rfl⟩
    · exact ⟨b % 16, by omega, rfl⟩
    · exact ih (fun x hx => ha x (List.mem_cons_of_mem _ hx)) c hc

/-- **C109** The capital letters of a checksummed address do not matter: in lower case, as the oracle compares and
stores addresses, it is the hexadecimal of the 20 bytes, whatever the hash that decides the capitals. -/
theorem C109_address (H : List Nat → List Nat) (a : List Nat) (ha : ∀ x ∈ a, x < 256) :
    lower (checksumHex H a) = hexutilEncode a := by
  unfold checksumHex hexutilEncode lower
  simp only [List.map_append]
  congr 1
  apply List.ext_getElem
  · simp
  · intro i h1 h2
    simp only [List.getElem_map, List.getElem_mapIdx]
    obtain ⟨d, hd, he⟩ := hexEncode_digits a ha _ (List.getElem_mem h2)
    rw [he]
    have key : ∀ (P : Prop) [Decidable P],
        lowerByte (if hexDigit d > 57 ∧ P then hexDigit d - 32 else hexDigit d) = hexDigit d := by
      intro P _
      by_cases hc : hexDigit d > 57 ∧ P
      · rw [if_pos hc]
        exact lower_up hd hc.1
      · rw [if_neg hc]
        exact lower_hexDigit hd
    exact key _

theorem checksumHex_length (H : List Nat → List Nat) (a : List Nat) :
    (checksumHex H a).length = (hexutilEncode a).length := by
  unfold checksumHex hexutilEncode
  simp

theorem sameAddr_checksum {a : List Nat} (ha : ∀ x ∈ a, x < 256) (H : List Nat → List Nat) :
    SameAddr (checksumHex H a) (hexutilEncode a) := by
  refine ⟨checksumHex_length H a, ?_⟩
  rw [← C109_address H a ha, lower_lower]

/-- **C109** From the bytes to the reward: if the oracle counts a payment by a builder in a block whose last
transaction has these bytes, then this transaction has a recipient, the amount counted is its amount, whoever signed
it is the fee recipient of the block or a known builder, and unless a contract reported receiving the same amount the
payment counts as made to the recipient written in it. -/
theorem C109_reward (ec : Ecrecover) (hec : ∀ h y r s a, ec h y r s = some a → IsBytes 20 a) (b : FullBlock)
    (c : ConsBlock) (raws : List (List Nat)) (t : EthTx) (m : Mev) (pool : Str) (hc : b.cons = some c)
    (htx : c.txs = readTxs ec b.chainId raws) (hl : raws.getLast? = some t.bytes) (ht : t.WF)
    (hf : t.bytes.length < 2 ^ 64) (hx : ¬ ExceptionBlock b) (h : mevReward b = .ok m) (hp : m.present = true) :
    ∃ dest sender, t.to = some dest ∧ t.sender ec b.chainId = some sender ∧ m.amount = t.value ∧
      (SameAddr c.feeRecipient (hexutilEncode sender) ∨ KnownBuilder b.chainId (hexutilEncode sender)) ∧
      ((∀ e ∈ b.events.ether, e.amount ≠ t.value) →
        (SameAddr m.recipient pool ↔ SameAddr (hexutilEncode dest) pool)) := by
  have hlast : c.txs.getLast? = some (some (t.toTx ec b.chainId)) := by
    rw [htx, readTxs, List.getLast?_map, hl]
    simp only [Option.map_some, C109_reads t ht hf]
  rcases mevReward_spec (pool := pool) h with ⟨hx', -⟩ | ⟨tx, dst, ⟨-, c', sd, hc', ⟨c'', hc'', hlt, hs, hd⟩, hby⟩, -, ha, har⟩ |
    ⟨-, -, hp'⟩
  · exact absurd hx' hx
  · rw [hc] at hc' hc''
    cases hc'
    cases hc''
    rw [hlast] at hlt
    cases hlt
    simp only [EthTx.toTx, Option.map_eq_some_iff] at hs hd ha
    obtain ⟨sender, hsender, rfl⟩ := hs
    obtain ⟨rcp, hto, rfl⟩ := hd
    have hsb : ∀ x ∈ sender, x < 256 := by
      have hr : ∀ hash r s v, recoverPlain ec hash r s v = some sender → ∀ x ∈ sender, x < 256 := by
        intro hash r s v hr
        unfold recoverPlain at hr
        split at hr
        · cases hr
        · dsimp only at hr
          split at hr
          · exact (hec _ _ _ _ _ hr).2
          · cases hr
      have hs' := hsender
      unfold EthTx.sender at hs'
      cases t <;> dsimp only at hs'
      · split at hs'
        · exact hr _ _ _ _ hs'
        · split at hs'
          · cases hs'
          · exact hr _ _ _ _ hs'
      all_goals
        split at hs'
        · cases hs'
        · exact hr _ _ _ _ hs'
    have htb : ∀ x ∈ rcp, x < 256 := by
      cases t <;> simp only [EthTx.to] at hto
      · exact (ht.2.2.1 _ hto).2
      · exact (ht.2.2.1 _ hto).2
      · exact (ht.2.2.1 _ hto).2
      · cases hto
        exact ht.2.2.2.2.2.1.2
      · cases hto
        exact ht.2.2.2.2.2.1.2
    have h1 := sameAddr_checksum hsb Keccak.keccak
    have h2 := sameAddr_checksum htb Keccak.keccak
    refine ⟨rcp, sender, hto, hsender, ha, ?_, ?_⟩
    · rcases hby with hby | ⟨hch, hby⟩
      · exact .inl (hby.trans h1)
      · exact .inr ⟨hch, h1.symm.trans hby⟩
    · intro hno
      rw [har]
      unfold ArrivesAt
      have : (b.events.ether.find? fun e => e.amount == (t.toTx ec b.chainId).value) = none := by
        rw [List.find?_eq_none]
        intro e he
        simpa [EthTx.toTx] using hno e he
      rw [this]
      exact ⟨fun h => h2.symm.trans h, fun h => h2.trans h⟩
  · rw [hp'] at hp
    cases hp

/-! ### Who signed -/

theorem payload_sigBytes {t : EthTx} {named : Option Nat} {y chain : Nat} (h : SignedAs t named y) (hy : y ≤ 1)
    (hn : named = none ∨ named = some chain) : t.payload named = t.sigBytes chain := by
  cases h
  case old n p g t x d v r s h =>
    subst h
    have : protectedV (27 + y) = false := by
      have : y = 0 ∨ y = 1 := by omega
      rcases this with rfl | rfl <;> rfl
    simp only [EthTx.payload, EthTx.sigBytes, this, tree_enc, seq_item, putItem_eq, List.map_cons, List.map_nil,
      num_item, recipient_item, List.append_nil]
    rfl
  case eip155 n p g t x d v r s c h =>
    subst h
    have hc : c = chain := by simpa using hn
    have : protectedV (2 * c + 35 + y) = true := by
      unfold protectedV
      split
      · simp
        omega
      · rfl
    subst hc
    simp only [EthTx.payload, EthTx.sigBytes, this, tree_enc, seq_item, putItem_eq, List.map_cons, List.map_nil,
      num_item, recipient_item, List.cons_append, List.nil_append, if_true]
    rfl
  all_goals
    have hc := hn.resolve_left (by simp)
    simp only [Option.some.injEq] at hc
    subst hc
    simp only [EthTx.payload, EthTx.sigBytes, tree_enc, seq_item, putItem_eq, List.map_cons, List.map_nil, num_item,
      recipient_item, access_item, auths_item, List.map_map, Function.comp_def]
    rfl

theorem validSig_iff {y r s : Nat} : validSig y r s = true ↔ GoodSignature r s ∧ y ≤ 1 := by
  unfold validSig GoodSignature
  have hN : secpN = curveOrder := by decide +kernel
  rw [hN]
  have hodd : curveOrder % 2 = 1 := by decide +kernel
  generalize curveOrder = N at *
  split
  · simp
    omega
  · split
    · simp
      omega
    · simp
      omega

theorem recoverPlain_iff {ec : Ecrecover} {hash : List Nat} {r s : Nat} {v : Int} {a : List Nat} :
    recoverPlain ec hash r s v = some a ↔
    ∃ y, y ≤ 1 ∧ v.natAbs = 27 + y ∧ GoodSignature r s ∧ ec hash y r s = some a := by
  unfold recoverPlain
  constructor
  · intro h
    split at h
    · cases h
    · rename_i h256
      dsimp only at h
      split at h
      · rename_i hv
        obtain ⟨hg, hy⟩ := validSig_iff.mp hv
        refine ⟨_, hy, by omega, hg, h⟩
      · cases h
  · rintro ⟨y, hy, hv, hg, he⟩
    rw [if_neg (by omega)]
    have : (v.natAbs + 229) % 256 = y := by omega
    simp only [this]
    rw [if_pos (validSig_iff.mpr ⟨hg, hy⟩)]
    exact he

/-- **C110** The sender to whom a payment is attributed is exactly whoever signed all of it but the signature, on this
chain: the transaction names this chain or, in the oldest form, none. -/
theorem C110_sender (ec : Ecrecover) (chain : Nat) (t : EthTx) (a : List Nat) :
    t.sender ec chain = some a ↔
    ∃ named y, y ≤ 1 ∧ SignedAs t named y ∧ (named = none ∨ named = some chain) ∧
      GoodSignature t.signature.1 t.signature.2 ∧
      ec (Keccak.keccak (t.payload named)) y t.signature.1 t.signature.2 = some a := by
  constructor
  · intro h
    unfold EthTx.sender at h
    cases t <;> dsimp only at h
    case legacy n p g t x d v r s =>
      split at h
      · rename_i hpv
        rw [recoverPlain_iff] at h
        obtain ⟨y, hy, hv, hg, he⟩ := h
        have hv : v = 27 + y := by simpa using hv
        subst hv
        refine ⟨none, y, hy, .old rfl, .inl rfl, hg, ?_⟩
        rw [payload_sigBytes (.old rfl) hy (.inl rfl)]
        exact he
      · rename_i hpv
        split at h
        · cases h
        · rename_i hch
          push Not at hch
          rw [recoverPlain_iff] at h
          obtain ⟨y, hy, hv, hg, he⟩ := h
          have hv' : v = 2 * chain + 35 + y := by
            unfold protectedV at hpv
            unfold deriveChainId at hch
            split at hch
            · split at hch
              · rename_i h28
                rw [if_pos (by omega)] at hpv
                simp at hpv
                omega
              · omega
            · omega
          subst hv'
          refine ⟨some chain, y, hy, .eip155 rfl, .inr rfl, hg, ?_⟩
          rw [payload_sigBytes (.eip155 rfl) hy (.inr rfl)]
          exact he
    all_goals
      split at h
      · cases h
      · rename_i hch
        push Not at hch
        rw [recoverPlain_iff] at h
        obtain ⟨y, hy, hv, hg, he⟩ := h
        have this : ∀ v : Nat, ((v : Int) + 27).natAbs = 27 + y → v = y := by
          intro v hv
          omega
        have hv := this _ hv
        subst hv
        subst hch
        refine ⟨some _, _, hy, ?_, .inr rfl, hg, ?_⟩
        · constructor
        · rw [payload_sigBytes (by constructor) hy (.inr rfl)]
          exact he
  · rintro ⟨named, y, hy, hs, hn, hg, he⟩
    rw [payload_sigBytes hs hy hn] at he
    unfold EthTx.sender
    cases hs <;> dsimp only
    case old h =>
      subst h
      have : protectedV (27 + y) = false := by
        have : y = 0 ∨ y = 1 := by omega
        rcases this with rfl | rfl <;> rfl
      rw [if_pos this, recoverPlain_iff]
      exact ⟨y, hy, by omega, hg, he⟩
    case eip155 c h =>
      subst h
      have hc : c = chain := by simpa using hn
      subst hc
      have : ¬ protectedV (2 * c + 35 + y) = false := by
        unfold protectedV
        split
        · simp
          omega
        · simp
      have hd : deriveChainId (2 * c + 35 + y) = c := by
        unfold deriveChainId
        split
        · rw [if_neg (by omega)]
          omega
        · omega
      rw [if_neg this, if_neg (by simp [hd]), recoverPlain_iff]
      exact ⟨y, hy, by omega, hg, he⟩
    all_goals
      have hc := hn.resolve_left (by simp)
      simp only [Option.some.injEq] at hc
      subst hc
      rw [if_neg (by simp), recoverPlain_iff]
      exact ⟨_, hy, by omega, hg, he⟩

/-- **C110** A transaction that names another chain is attributed to nobody. -/
theorem C110_other_chain (ec : Ecrecover) (chain c y : Nat) (t : EthTx) (h : SignedAs t (some c) y) (hy : y ≤ 1)
    (hc : c ≠ chain) : t.sender ec chain = none := by
  by_contra hne
  obtain ⟨a, ha⟩ := Option.ne_none_iff_exists'.mp hne
  rw [C110_sender] at ha
  obtain ⟨named, y', hy', hs, hn, -⟩ := ha
  cases h
  case eip155 h =>
    cases hs
    case old h' => omega
    case eip155 h' =>
      simp only [reduceCtorEq, false_or, Option.some.injEq] at hn
      omega
  all_goals
    cases hs
    simp only [reduceCtorEq, false_or, Option.some.injEq] at hn
    exact hc hn

theorem Codec.inj {α : Type} {dec : Item → Option α} {enc : α → Item} {ok : α → Prop} (c : Codec dec enc ok) {a b : α}
    (ha : ok a) (hb : ok b) (hf : Fits64 (enc a).2) (h : enc a = enc b) : a = b := by
  have h1 := c.there a ha hf
  rw [h] at hf h1
  rw [c.there b hb hf] at h1
  exact (Option.some.inj h1).symm

/-- The signed fields. -/
def EthTx.signedItems (named : Option Nat) : EthTx → List Item
  | .legacy n p g t x d _ _ _ =>
    [numItem n, numItem p, numItem g, toItem t, numItem x, (false, d)] ++
      match named with
      | some c => [numItem c, numItem 0, numItem 0]
      | none => []
  | .accessList c n p g t x d a _ _ _ =>
    [numItem c, numItem n, numItem p, numItem g, toItem t, numItem x, (false, d), accessItem a]
  | .dynamic c n tc fc g t x d a _ _ _ =>
    [numItem c, numItem n, numItem tc, numItem fc, numItem g, toItem t, numItem x, (false, d), accessItem a]
  | .blob c n tc fc g t x d a bc bh _ _ _ =>
    [numItem c, numItem n, numItem tc, numItem fc, numItem g, (false, t), numItem x, (false, d), accessItem a,
      numItem bc, listItem (bh.map fun h => (false, h))]
  | .setCode c n tc fc g t x d a au _ _ _ =>
    [numItem c, numItem n, numItem tc, numItem fc, numItem g, (false, t), numItem x, (false, d), accessItem a,
      authItem au]

theorem payload_eq (named : Option Nat) (t : EthTx) : t.payload named =
    if t.type = 0 then encSeq (encItems (t.signedItems named)) else t.type :: encSeq (encItems (t.signedItems named)) := by
  have key : ∀ is, encSeq (encItems is) = encItem (listItem is) := by
    intro is
    rw [listItem_eq]
    rfl
  cases t
  case legacy =>
    cases named <;>
    simp only [EthTx.payload, EthTx.signedItems, EthTx.type, key, tree_enc, seq_item, List.map_cons, List.map_nil,
      num_item, recipient_item, List.append_nil, List.cons_append, List.nil_append, if_true] <;> rfl
  all_goals
    simp only [EthTx.payload, EthTx.signedItems, EthTx.type, key, tree_enc, seq_item, List.map_cons, List.map_nil,
      num_item, recipient_item, access_item, auths_item, List.map_map, Function.comp_def]
    rfl

theorem encSeq_inj {s s' : List Nat} (hf : Fits64 s) (hf' : Fits64 s') (h : encSeq s = encSeq s') : s = s' := by
  have h1 := split_there (true, s) [] hf
  have h2 := split_there (true, s') [] hf'
  simp only [encItem] at h1 h2
  rw [h, h2] at h1
  simpa using h1.symm

theorem payload_fits {t : EthTx} {named : Option Nat} (hf : (t.payload named).length < 2 ^ 64) :
    Fits64 (encItems (t.signedItems named)) := by
  rw [payload_eq] at hf
  have := encSeq_content (encItems (t.signedItems named))
  unfold Fits64
  split at hf
  · omega
  · simp only [List.length_cons] at hf
    omega

theorem payload_items {t t' : EthTx} {named named' : Option Nat} (hf : (t.payload named).length < 2 ^ 64)
    (he : t.payload named = t'.payload named') :
    t.type = t'.type ∧ t.signedItems named = t'.signedItems named' := by
  have h1 := payload_fits hf
  have h2 := payload_fits (he ▸ hf)
  have key : t.type = t'.type ∧ encSeq (encItems (t.signedItems named)) = encSeq (encItems (t'.signedItems named')) := by
    rw [payload_eq, payload_eq] at he
    obtain ⟨b, l, hb, h192⟩ := encSeq_cons (encItems (t.signedItems named))
    obtain ⟨b', l', hb', h192'⟩ := encSeq_cons (encItems (t'.signedItems named'))
    have ht : t.type ≤ 4 := by cases t <;> simp [EthTx.type]
    have ht' : t'.type ≤ 4 := by cases t' <;> simp [EthTx.type]
    split at he <;> split at he
    · exact ⟨by omega, he⟩
    · rw [hb] at he
      simp only [List.cons.injEq] at he
      omega
    · rw [hb'] at he
      simp only [List.cons.injEq] at he
      omega
    · simpa using he
  refine ⟨key.1, ?_⟩
  have he2 := encSeq_inj h1 h2 key.2
  have i1 := items_there h1
  rw [he2, items_there h2] at i1
  exact (Option.some.inj i1).symm

/-- **C110** A signature binds everything: two transactions whose senders signed the same bytes differ in nothing but
the signature, and name the same chain. -/
theorem C110_binding (t t' : EthTx) (named named' : Option Nat) (h : t.WF) (h' : t'.WF)
    (hf : (t.payload named).length < 2 ^ 64) (he : t.payload named = t'.payload named') :
    t.unsigned = t'.unsigned ∧ (t.type = 0 → named = named') := by
  have hfi := payload_fits hf
  obtain ⟨hty, hit⟩ := payload_items hf he
  have big : ∀ {a b : Nat}, numItem a = numItem b → Fits64 (numItem a).2 → a = b := fun e hf =>
    codec_big.inj trivial trivial hf e
  cases t <;> cases t' <;> simp only [EthTx.type, reduceCtorEq, OfNat.ofNat_ne_zero, OfNat.zero_ne_ofNat, zero_ne_one,
    one_ne_zero, OfNat.ofNat_ne_one, OfNat.one_ne_ofNat, Nat.reduceEqDiff] at hty
  case legacy.legacy =>
    cases named <;> cases named' <;>
      simp only [EthTx.signedItems, List.cons_append, List.nil_append, List.append_nil, List.cons.injEq, reduceCtorEq,
        and_false, List.ne_cons_self] at hit hfi
    · obtain ⟨e1, e2, e3, e4, e5, e6, -⟩ := hit
      have := big e1 (fits_mem hfi (by simp))
      have := big e2 (fits_mem hfi (by simp))
      have := big e3 (fits_mem hfi (by simp))
      have := codec_to.inj h.2.2.1 h'.2.2.1 (fits_mem hfi (by simp)) e4
      have := big e5 (fits_mem hfi (by simp))
      have := codec_data.inj h.2.2.2 h'.2.2.2 (fits_mem hfi (by simp)) e6
      subst_vars
      exact ⟨rfl, fun _ => rfl⟩
    · obtain ⟨e1, e2, e3, e4, e5, e6, e7, -⟩ := hit
      have := big e1 (fits_mem hfi (by simp))
      have := big e2 (fits_mem hfi (by simp))
      have := big e3 (fits_mem hfi (by simp))
      have := codec_to.inj h.2.2.1 h'.2.2.1 (fits_mem hfi (by simp)) e4
      have := big e5 (fits_mem hfi (by simp))
      have := codec_data.inj h.2.2.2 h'.2.2.2 (fits_mem hfi (by simp)) e6
      have := big e7 (fits_mem hfi (by simp))
      subst_vars
      exact ⟨rfl, fun _ => rfl⟩
  case accessList.accessList =>
    simp only [EthTx.signedItems, List.cons.injEq] at hit hfi
    obtain ⟨e0, e1, e2, e3, e4, e5, e6, e7, -⟩ := hit
    have := big e0 (fits_mem hfi (by simp))
    have := big e1 (fits_mem hfi (by simp))
    have := big e2 (fits_mem hfi (by simp))
    have := big e3 (fits_mem hfi (by simp))
    have := codec_to.inj h.2.2.1 h'.2.2.1 (fits_mem hfi (by simp)) e4
    have := big e5 (fits_mem hfi (by simp))
    have := codec_data.inj h.2.2.2.1 h'.2.2.2.1 (fits_mem hfi (by simp)) e6
    have := codec_access.inj h.2.2.2.2 h'.2.2.2.2 (fits_mem hfi (by simp)) e7
    subst_vars
    exact ⟨rfl, fun h => by cases h⟩
  case dynamic.dynamic =>
    simp only [EthTx.signedItems, List.cons.injEq] at hit hfi
    obtain ⟨e0, e1, e2, e2', e3, e4, e5, e6, e7, -⟩ := hit
    have := big e0 (fits_mem hfi (by simp))
    have := big e1 (fits_mem hfi (by simp))
    have := big e2 (fits_mem hfi (by simp))
    have := big e2' (fits_mem hfi (by simp))
    have := big e3 (fits_mem hfi (by simp))
    have := codec_to.inj h.2.2.1 h'.2.2.1 (fits_mem hfi (by simp)) e4
    have := big e5 (fits_mem hfi (by simp))
    have := codec_data.inj h.2.2.2.1 h'.2.2.2.1 (fits_mem hfi (by simp)) e6
    have := codec_access.inj h.2.2.2.2 h'.2.2.2.2 (fits_mem hfi (by simp)) e7
    subst_vars
    exact ⟨rfl, fun h => by cases h⟩
  case blob.blob =>
    obtain ⟨-, -, -, -, -, h6, -, h8, h9, -, h11, -⟩ := h
    obtain ⟨-, -, -, -, -, k6, -, k8, k9, -, k11, -⟩ := h'
    simp only [EthTx.signedItems, List.cons.injEq] at hit hfi
    obtain ⟨e0, e1, e2, e2', e3, e4, e5, e6, e7, e8, e9, -⟩ := hit
    have := big e0 (fits_mem hfi (by simp))
    have := big e1 (fits_mem hfi (by simp))
    have := big e2 (fits_mem hfi (by simp))
    have := big e2' (fits_mem hfi (by simp))
    have := big e3 (fits_mem hfi (by simp))
    have := (codec_array 20).inj h6 k6 (fits_mem hfi (by simp)) e4
    have := big e5 (fits_mem hfi (by simp))
    have := codec_data.inj h8 k8 (fits_mem hfi (by simp)) e6
    have := codec_access.inj h9 k9 (fits_mem hfi (by simp)) e7
    have := big e8 (fits_mem hfi (by simp))
    have := (codec_hashes 32).inj h11 k11 (fits_mem hfi (by simp)) e9
    subst_vars
    exact ⟨rfl, fun h => by cases h⟩
  case setCode.setCode =>
    obtain ⟨-, -, -, -, -, h6, -, h8, h9, h10, -⟩ := h
    obtain ⟨-, -, -, -, -, k6, -, k8, k9, k10, -⟩ := h'
    simp only [EthTx.signedItems, List.cons.injEq] at hit hfi
    obtain ⟨e0, e1, e2, e2', e3, e4, e5, e6, e7, e8, -⟩ := hit
    have := big e0 (fits_mem hfi (by simp))
    have := big e1 (fits_mem hfi (by simp))
    have := big e2 (fits_mem hfi (by simp))
    have := big e2' (fits_mem hfi (by simp))
    have := big e3 (fits_mem hfi (by simp))
    have := (codec_array 20).inj h6 k6 (fits_mem hfi (by simp)) e4
    have := big e5 (fits_mem hfi (by simp))
    have := codec_data.inj h8 k8 (fits_mem hfi (by simp)) e6
    have := codec_access.inj h9 k9 (fits_mem hfi (by simp)) e7
    have := codec_auths.inj h10 k10 (fits_mem hfi (by simp)) e8
    subst_vars
    exact ⟨rfl, fun h => by cases h⟩

/-! ### The recovery that the program calls -/

theorem toBytes_bytes (n : Nat) : ∀ s, IsBytes n (Keccak.toBytes n s) := by
  induction n with
  | zero => exact fun s => ⟨rfl, fun x hx => by cases hx⟩
  | succ n ih =>
    intro s
    obtain ⟨h1, h2⟩ := ih (s / 256)
    refine ⟨by simp only [Keccak.toBytes, List.length_cons, h1], fun x hx => ?_⟩
    simp only [Keccak.toBytes, List.mem_cons] at hx
    rcases hx with rfl | hx
    · omega
    · exact h2 x hx

theorem address_bytes (q : Nat) (a : List Nat) (h : Secp.address q = some a) : IsBytes 20 a := by
  unfold Secp.address at h
  split at h
  · cases h
  · dsimp only at h
    generalize (Keccak.toBytes 32 _).reverse ++ (Keccak.toBytes 32 _).reverse = m at h
    cases h
    obtain ⟨h1, h2⟩ := toBytes_bytes 32 (Keccak.absorb ((Keccak.padded m).length / 136) (Keccak.padded m) 0)
    exact ⟨by rw [List.length_drop]; unfold Keccak.keccak; rw [h1], fun x hx => h2 x (List.mem_of_mem_drop hx)⟩

theorem recover_bytes (hash : List Nat) (y r s : Nat) (a : List Nat) (h : Secp.recover hash y r s = some a) :
    IsBytes 20 a := by
  simp only [Secp.recover] at h
  generalize Secp.add _ _ = q at h
  split at h
  · cases h
  · exact address_bytes _ _ h

/-- **C109** From the bytes to the reward, with the recovery that the program calls. -/
theorem C109_reward_library (b : FullBlock)
    (c : ConsBlock) (raws : List (List Nat)) (t : EthTx) (m : Mev) (pool : Str) (hc : b.cons = some c)
    (htx : c.txs = readTxs Secp.recover b.chainId raws) (hl : raws.getLast? = some t.bytes) (ht : t.WF)
    (hf : t.bytes.length < 2 ^ 64) (hx : ¬ ExceptionBlock b) (h : mevReward b = .ok m) (hp : m.present = true) :
    ∃ dest sender, t.to = some dest ∧ t.sender Secp.recover b.chainId = some sender ∧ m.amount = t.value ∧
      (SameAddr c.feeRecipient (hexutilEncode sender) ∨ KnownBuilder b.chainId (hexutilEncode sender)) ∧
      ((∀ e ∈ b.events.ether, e.amount ≠ t.value) →
        (SameAddr m.recipient pool ↔ SameAddr (hexutilEncode dest) pool)) :=
  C109_reward Secp.recover recover_bytes b c raws t m pool hc htx hl ht hf hx h hp

/-! ### Examples and limits -/

/-- The transaction of mainnet 0x04f8…d7ec, utils/utils_test.go:49: type 2, with a signature shortened. -/
def exampleTx : EthTx :=
  .dynamic 1 125852 0 15203005473 21000
    (some [203, 250, 136, 64, 68, 84, 109, 85, 105, 226, 171, 255, 63, 180, 41, 48, 27, 97, 86, 42])
    58833558053578852 [] [] 1 77 78

theorem exampleTx_wf : exampleTx.WF := by
  refine ⟨by norm_num, by norm_num, fun a ha => ?_, by simp, by simp⟩
  simp only [Option.some.injEq] at ha
  subst ha
  exact ⟨rfl, by decide⟩

example : decodeTx exampleTx.bytes = some exampleTx :=
  C109_reads exampleTx exampleTx_wf (by rw [bytes_preimage]; decide +kernel)

/-- The bytes of mainnet transaction 0x8984…2a9c, utils/utils_test.go:23. -/
def exampleRaw : List Nat :=
  [248, 110, 129, 174, 133, 2, 150, 3, 101, 156, 130, 109, 96, 148, 56, 140, 129, 140, 168, 185, 37, 27, 57, 49,
   49, 192, 138, 115, 106, 103, 204, 177, 146, 151, 137, 23, 72, 83, 127, 19, 188, 52, 12, 6, 128, 38, 160, 54,
   233, 9, 131, 116, 183, 92, 228, 28, 83, 106, 15, 104, 152, 63, 158, 150, 130, 189, 164, 176, 53, 190, 148,
   106, 212, 134, 54, 80, 159, 125, 183, 160, 14, 60, 201, 32, 36, 154, 2, 147, 213, 195, 248, 4, 221, 44, 235,
   32, 1, 49, 12, 26, 221, 246, 230, 135, 248, 37, 220, 140, 58, 55, 117, 204]

/-- A block whose last transaction has these bytes and whose fee recipient sent it. -/
def exampleBlock : FullBlock where
  dutySlot := 5320340
  dutyIndex := 123
  dutyKey := []
  validator := { index := 123, pubkey := [], creds := [], status := .activeOngoing, effBal := 32 }
  cons := some { fork := .bellatrix, slot := 5320340, proposer := 123, number := 16000000,
                 feeRecipient := b!"0xbd3Afb0bB76683eCb4225F9DBc91f998713C3b01",
                 txs := readTxs Secp.recover 1 [exampleRaw], gasUsed := 22111, baseFee := .u256 11106739612 }
  header := none
  receipts := none
  events := {}
  valsSubs := []
  valsUnsubs := []
  chainId := 1

/-- The hypotheses of `C109_reward_library` are met, and the payment is counted. -/
example : ∃ (t : EthTx) (c : ConsBlock) (m : Mev), exampleRaw = t.bytes ∧ t.WF ∧ t.bytes.length < 2 ^ 64 ∧ exampleBlock.cons = some c
    ∧ c.txs = readTxs Secp.recover exampleBlock.chainId [exampleRaw] ∧ ¬ ExceptionBlock exampleBlock
    ∧ mevReward exampleBlock = .ok m ∧ m.present = true ∧ m.amount = 429486762611856116742
    ∧ m.recipient = b!"0x388c818ca8b9251b393131c08a736a67ccb19297" := by
  have hd : (decodeTx exampleRaw).isSome = true := by decide +kernel
  obtain ⟨t, ht⟩ := Option.isSome_iff_exists.mp hd
  have hw : ¬ WithBlobs exampleRaw := by
    rintro ⟨x, y, h⟩
    have := congrArg List.head? h
    simp [exampleRaw] at this
  obtain ⟨e, hwf⟩ := C109_nothing_else_partial exampleRaw t (by decide +kernel) hw ht
  refine ⟨t, _, ⟨429486762611856116742, true, b!"0x388c818ca8b9251b393131c08a736a67ccb19297"⟩, e, hwf, ?_, rfl, rfl, ?_,
    ?_, rfl, rfl, rfl⟩
  · rw [← e]
    decide +kernel
  · rintro ⟨-, ⟨c, hc, hs⟩, -⟩
    cases hc
    simp at hs
  · decide +kernel

/-- a recovery that knows one key -/
def exampleEc : Ecrecover := fun _ y r s => if y = 1 ∧ r = 77 ∧ s = 78 then some (List.replicate 20 7) else none

example : exampleTx.sender exampleEc 1 = some (List.replicate 20 7) := by
  rw [C110_sender]
  exact ⟨some 1, 1, le_refl _, .dynamic, .inr rfl, by unfold GoodSignature; decide +kernel, rfl⟩

example : exampleTx.sender exampleEc 17000 = none :=
  C110_other_chain exampleEc 17000 1 1 exampleTx .dynamic (le_refl _) (by decide)

/-- **C109** fails for transactions with their blobs: other bytes than those that blocks contain are read as the same
transaction, and its hash is then not the hash of the bytes. -/
theorem C109_false_with_blobs : ∃ raw t, (∀ x ∈ raw, x < 256) ∧ decodeTx raw = some t ∧ raw ≠ t.bytes := by
  refine ⟨[3, 230, 226, 1, 128, 128, 128, 128, 148, 1, 2, 3, 4, 5, 6, 7, 8, 9, 10, 11, 12, 13, 14, 15, 16, 17, 18, 19,
    20, 128, 128, 192, 128, 192, 128, 128, 128, 192, 192, 192], .blob 1 0 0 0 0
    [1, 2, 3, 4, 5, 6, 7, 8, 9, 10, 11, 12, 13, 14, 15, 16, 17, 18, 19, 20] 0 [] [] 0 [] 0 0 0, by decide, ?_, ?_⟩
  · decide +kernel
  · rw [bytes_preimage]
    decide +kernel

/-- **C110** The oldest form names no chain: the same transaction is attributed to its signer on every chain. -/
theorem C110_old_form (ec : Ecrecover) (a : List Nat) (n p g x r s : Nat) (rcp : Option (List Nat)) (d : List Nat)
    (hg : GoodSignature r s)
    (h : ec (Keccak.keccak ((EthTx.legacy n p g rcp x d 27 r s).payload none)) 0 r s = some a) (chain : Nat) :
    (EthTx.legacy n p g rcp x d 27 r s).sender ec chain = some a := by
  rw [C110_sender]
  exact ⟨none, 0, by omega, .old rfl, .inl rfl, hg, h⟩

end Verif
