import Verif.Spec.Submit
import Verif.Props.TxBytes
import Verif.Props.Logs
import Verif.Props.Onchain
import Verif.Props.Creds
import Verif.Model.Secp
/-
C112: a vote arrives as it was computed.
-/
namespace Verif

theorem packUint_eq (n : Nat) : packUint n = word32 n := by rw [packUint, word32, minBytes_eq]

theorem report_selector : (Keccak.keccak sigReport).take 4 = [0xb5, 0x39, 0xf3, 0x8b] := by decide +kernel

theorem hexText_bytes {r bs} (h : HexText r bs) : ∀ x ∈ bs, x < 256 := by
  induction h with
  | nil => simp
  | @cons a b x y r bs ha hb _ ih =>
    have h1 := (fromHexChar_of ha).2.1
    have h2 := (fromHexChar_of hb).2.1
    simp only [List.forall_mem_cons]
    exact ⟨by omega, ih⟩

theorem RootText.bytes {root bs} (h : RootText root bs) : IsBytes 32 bs := by
  obtain ⟨h1, r, -, h2⟩ := h
  exact ⟨h1, hexText_bytes h2⟩

/-- The data of a report cannot be read in two ways. -/
theorem ReportCall.unique {slot slot' : Nat} {root root' data : List Nat} (h : ReportCall slot root data)
    (h' : ReportCall slot' root' data) : slot' = slot ∧ root' = root := by
  obtain ⟨h1, h2, rfl⟩ := h
  obtain ⟨h3, h4, h5⟩ := h'
  have l1 := word32_length (uint64_small h1)
  have l2 := word32_length (uint64_small h3)
  rw [List.append_assoc, List.append_assoc] at h5
  have h5 := List.append_cancel_left h5
  have h6 := List.append_inj h5 (l1.trans l2.symm)
  exact ⟨(word32_inj h6.1).symm, h6.2.symm⟩

theorem word32_lt (n : Nat) : ∀ x ∈ word32 n, x < 256 := by
  intro x hx
  rw [word32, List.mem_append] at hx
  rcases hx with hx | hx
  · rw [List.eq_of_mem_replicate hx]; norm_num
  · exact BE_lt n x hx

theorem ReportCall.lt {slot : Nat} {root data : List Nat} (h : ReportCall slot root data) :
    data.length = 68 ∧ ∀ x ∈ data, x < 256 := by
  obtain ⟨h1, h2, rfl⟩ := h
  constructor
  · simp [word32_length (uint64_small h1), h2.1]
  · intro x hx
    simp only [List.mem_append] at hx
    rcases hx with (hx | hx) | hx
    · revert x; decide
    · exact word32_lt _ x hx
    · exact h2.2 x hx

theorem reportData_call {slot : Nat} {root : List Nat} (hs : slot < 2 ^ 64) (hr : IsBytes 32 root) :
    ReportCall slot root (reportData slot root) :=
  ⟨hs, hr, by rw [reportData, report_selector, packUint_eq]⟩

theorem encStr_len {bs : List Nat} {k : Nat} (h : bs.length ≤ k) (hk : k < 256) : (encStr bs).length ≤ k + 2 := by
  have hb : (BE bs.length).length ≤ 1 := BE_length_le.mpr (by omega)
  unfold encStr
  split
  · split <;> simp
  · split
    · simp; omega
    · simp; omega

theorem num_len {n k : Nat} (h : n < 256 ^ k) (hk : k < 256) : (Tree.num n).enc.length ≤ k + 2 := by
  simp only [Tree.num, Tree.enc]
  exact encStr_len (BE_length_le.mpr h) hk

theorem encSeq_len {s : List Nat} (h : s.length < 65536) : (encSeq s).length ≤ s.length + 3 := by
  have hb : (BE s.length).length ≤ 2 := BE_length_le.mpr (by omega)
  unfold encSeq
  split
  · simp
  · simp; omega

theorem sentNonce_eq {n : Nat} (h : n < 2 ^ 63) : sentNonce n = n := by
  unfold sentNonce i64
  have : Int.bmod (n : Int) 18446744073709551616 = n := by
    rw [Int.bmod_eq_of_le] <;> omega
  rw [this]; rfl

/-- The bytes that are sent are those of the transaction, and short. -/
theorem report_wf {N : TxNode} (hN : SaneTxNode N) {pool data : List Nat} (hp : IsBytes 20 pool) {y r s : Nat}
    (hd : data.length = 68 ∧ ∀ x ∈ data, x < 256) (hy : y ≤ 1) (hr : r < 2 ^ 256) (hs : s < 2 ^ 256) :
    ((reportTx N pool data).withSignature N.network y r s).WF ∧
    ((reportTx N pool data).withSignature N.network y r s).bytes.length < 2 ^ 64 := by
  have hn := hN.nonce
  have hw := hN.network
  have hg := hN.gas
  have lN : (Tree.num N.network).enc.length ≤ 8 + 2 := num_len (by omega) (by omega)
  have ln : (Tree.num (sentNonce N.nonce)).enc.length ≤ 8 + 2 := num_len (by rw [sentNonce_eq hn]; omega) (by omega)
  have lg : (Tree.num N.gas).enc.length ≤ 8 + 2 := num_len (by omega) (by omega)
  have lx : (Tree.num 0).enc.length ≤ 1 + 2 := num_len (by omega) (by omega)
  have ly : (Tree.num y).enc.length ≤ 1 + 2 := num_len (by omega) (by omega)
  have lr : (Tree.num r).enc.length ≤ 32 + 2 := num_len (by norm_num at hr ⊢; omega) (by omega)
  have ls : (Tree.num s).enc.length ≤ 32 + 2 := num_len (by norm_num at hs ⊢; omega) (by omega)
  have lp : (Tree.recipient (some pool)).enc.length ≤ 20 + 2 := by
    simp only [Tree.recipient, Tree.enc]; exact encStr_len (le_of_eq hp.1) (by omega)
  have ld : (Tree.str data).enc.length ≤ 68 + 2 := by
    simp only [Tree.enc]; exact encStr_len (le_of_eq hd.1) (by omega)
  cases hb : N.baseFee with
  | some b =>
    have hf := hN.fee b hb
    have lt : (Tree.num N.tip).enc.length ≤ 32 + 2 := num_len (by norm_num at hf ⊢; omega) (by omega)
    have lf : (Tree.num (N.tip + 2 * b)).enc.length ≤ 32 + 2 := num_len (by norm_num at hf ⊢; omega) (by omega)
    have la : (Tree.access []).enc.length ≤ 3 := by
      simp only [Tree.access, List.map_nil, Tree.enc, encTrees]; exact encSeq_len (s := []) (by simp)
    constructor
    · simp only [reportTx, hb, EthTx.withSignature, EthTx.WF]
      refine ⟨by rw [sentNonce_eq hn]; omega, hg, ?_, hd.2, by simp⟩
      rintro a ⟨⟩; exact hp
    · simp only [reportTx, hb, EthTx.withSignature, EthTx.bytes]
      rw [Tree.enc]
      simp only [encTrees, List.length_cons]
      have := fun s h => @encSeq_len s h
      refine lt_of_le_of_lt (Nat.succ_le_succ (this _ ?_)) ?_ <;>
      · simp only [List.length_append, List.length_nil]
        omega
  | none =>
    have hf := hN.price
    have lt : (Tree.num N.gasPrice).enc.length ≤ 32 + 2 := num_len (by norm_num at hf ⊢; omega) (by omega)
    have lv : (Tree.num (y + 35 + 2 * N.network)).enc.length ≤ 9 + 2 := num_len (by omega) (by omega)
    constructor
    · simp only [reportTx, hb, EthTx.withSignature, EthTx.WF]
      refine ⟨by rw [sentNonce_eq hn]; omega, hg, ?_, hd.2⟩
      rintro a ⟨⟩; exact hp
    · simp only [reportTx, hb, EthTx.withSignature, EthTx.bytes]
      rw [Tree.enc]
      simp only [encTrees]
      refine lt_of_le_of_lt (encSeq_len ?_) ?_ <;>
      · simp only [List.length_append, List.length_nil]
        omega

theorem report_nonce (N : TxNode) (pool data : List Nat) (y r s n : Nat) (hn : sentNonce N.nonce = n) :
    ((reportTx N pool data).withSignature N.network y r s).nonce = n := by
  unfold reportTx
  rw [hn]
  cases N.baseFee <;> rfl

theorem report_fields (N : TxNode) (pool data : List Nat) (y r s : Nat) :
    ((reportTx N pool data).withSignature N.network y r s).to = some pool ∧
    ((reportTx N pool data).withSignature N.network y r s).value = 0 ∧
    ((reportTx N pool data).withSignature N.network y r s).nonce = sentNonce N.nonce ∧
    ((reportTx N pool data).withSignature N.network y r s).data = data ∧
    ((reportTx N pool data).withSignature N.network y r s).signature = (r, s) ∧
    SignedAs ((reportTx N pool data).withSignature N.network y r s) (some N.network) y := by
  refine ⟨?_, ?_, report_nonce N pool data y r s _ rfl, ?_, ?_, ?_⟩ <;> unfold reportTx
  · cases N.baseFee <;> rfl
  · cases N.baseFee <;> rfl
  · cases N.baseFee <;> rfl
  · cases N.baseFee <;> rfl
  · cases N.baseFee
    · exact .eip155 (by omega)
    · exact .dynamic

/-- **C112, partial.** Whatever the client answers about nonce, fees and gas: the bytes that are sent when a root is submitted are
a transaction to the pool, without ether, from the oracle's own address, with the nonce asked for. Its data is a call of
`submitReport` with exactly the slot and the 32 bytes of the root, and with nothing else. What is missing: the sender is
recovered on the chain whose number is the number of the network (`C112_false_network`). -/
theorem C112_vote_partial {ec : Ecrecover} {sign : Ecsign} {me pool : List Nat} {N : TxNode} {W : TxWorld} {slot s : Nat}
    {root : Str} {bytes raw : List Nat} (hk : SignsAs ec sign me) (hp : IsBytes 20 pool) (hN : SaneTxNode N)
    (hs : slot < 2 ^ 64) (h : (updateContractMerkleRoot W slot root).2 = some (s, bytes))
    (hr : reportRaw sign N pool s bytes = some raw) :
    ∃ t : EthTx, raw = t.bytes ∧ decodeTx raw = some t ∧ t.to = some pool ∧ t.value = 0 ∧ t.nonce = N.nonce ∧
      t.sender ec N.network = some me ∧ RootText root bytes ∧
      ∀ slot' root', ReportCall slot' root' t.data ↔ slot' = slot ∧ root' = bytes := by
  obtain ⟨rfl, ht⟩ := C56_sends_exactly h
  have hc := reportData_call hs ht.bytes
  unfold reportRaw at hr
  simp only at hr
  split at hr
  · cases hr
  · rename_i y r s' hsig
    obtain ⟨hy, hg, hec⟩ := hk _ _ _ _ hsig
    have lim : curveOrder < 2 ^ 256 := by decide
    have hr1 : r < 2 ^ 256 := lt_trans hg.2.1 lim
    have hs1 : s' < 2 ^ 256 := by have := hg.2.2.2; omega
    obtain ⟨hw, hl⟩ := report_wf hN hp hc.lt hy hr1 hs1
    obtain ⟨f1, f2, f3, f4, f5, f6⟩ := report_fields N pool (reportData s bytes) y r s'
    cases hr
    refine ⟨_, (bytes_preimage _).symm, ?_, f1, f2, by rw [f3, sentNonce_eq hN.nonce], ?_, ht, ?_⟩
    · rw [← bytes_preimage]; exact C109_reads _ hw hl
    · rw [C110_sender]
      refine ⟨_, y, hy, f6, .inr rfl, by rw [f5]; exact hg, ?_⟩
      rw [payload_sigBytes f6 hy (.inr rfl), f5]
      have : ((reportTx N pool (reportData s bytes)).withSignature N.network y r s').sigBytes N.network =
          ((reportTx N pool (reportData s bytes)).withSignature N.network 0 0 0).sigBytes N.network := by
        have g6 := (report_fields N pool (reportData s bytes) 0 0 0).2.2.2.2.2
        rw [← payload_sigBytes f6 hy (.inr rfl), ← payload_sigBytes g6 (by omega) (.inr rfl)]
        cases hb : N.baseFee <;> simp only [reportTx, hb, EthTx.withSignature, EthTx.payload]
      rw [this]
      exact hec
    · intro slot' root'
      rw [f4]
      constructor
      · exact hc.unique
      · rintro ⟨rfl, rfl⟩; exact hc

/-- **C112** The answers of the contract are read as it gives them: the slot is the slot, and the text of the root is
equal to the text under which the oracle froze a root exactly if the 32 bytes are equal. -/
theorem C112_read_back {slot slot' : Nat} {root root' : List Nat} (hs : slot < 2 ^ 64) (hr : IsBytes 32 root)
    (hr' : IsBytes 32 root') :
    (returnedSlot (word32 slot) = some slot' ∧ returnedRoot root = some (b!"0x" ++ hexEncode root')) ↔
      slot = slot' ∧ root = root' := by
  have hl := word32_length (uint64_small hs)
  have h1 : returnedSlot (word32 slot) = some slot := by
    simp only [returnedSlot, returnedWord, hl, Nat.mod_self, ne_eq, not_true_eq_false, if_false, logWord_last hl]
    simp only [bind, Option.bind, beNat_word32, hs, if_true]
  have h2 : returnedRoot root = some (b!"0x" ++ hexEncode root) := by
    simp only [returnedRoot, returnedWord, hr.1, Nat.mod_self, ne_eq, not_true_eq_false, if_false, logWord_last hr.1]
    rfl
  rw [h1, h2, Option.some.injEq, Option.some.injEq]
  constructor
  · rintro ⟨a, b⟩
    exact ⟨a, hexEncode_inj hr.2 hr'.2 (List.append_cancel_left b)⟩
  · rintro ⟨rfl, rfl⟩; exact ⟨rfl, rfl⟩

/-- **C112** Anything else that a call could return is an error, not a slot or a root: no data, or a part of a word. -/
theorem C112_bad_answer {out : List Nat} (h : out = [] ∨ out.length % 32 ≠ 0) :
    returnedSlot out = none ∧ returnedRoot out = none := by
  have : returnedWord out = none := by
    unfold returnedWord
    rcases h with rfl | h
    · rfl
    · rw [if_pos h]
  simp [returnedSlot, returnedRoot, this]

/-- **C112 is false where the network number is not the chain number**: the transaction is signed for the number that
`net_version` gives, and a chain with another number attributes it to nobody. -/
theorem C112_false_network {ec : Ecrecover} {N : TxNode} {pool data : List Nat} {y r s chain : Nat}
    (hc : chain ≠ N.network) (hy : y ≤ 1) :
    ((reportTx N pool data).withSignature N.network y r s).sender ec chain = none :=
  C110_other_chain ec _ _ _ _ (report_fields N pool data y r s).2.2.2.2.2 hy hc.symm

/-! ### A report that is sent -/

namespace Sample

/-- The client: nonce 7, chain 1, base fee 30 gwei. -/
def txNode : TxNode := ⟨7, 1, some 30000000000, 1000000000, 0, 100000⟩

def reportedRoot : List Nat := List.replicate 31 171 ++ [5]

/-- The hash that is signed. -/
def reportHash : List Nat :=
  Keccak.keccak (((reportTx txNode loggedPool (reportData 7000000 reportedRoot)).withSignature 1 0 0 0).sigBytes 1)

/-- A wallet with the private key 1 that signs this report and nothing else, with 1 as secret number. -/
def wallet : Ecsign := fun h =>
  if h = reportHash then
    let r := Secp.cx Secp.generator
    let s := (beNat h + r) % curveOrder
    if 2 * s < curveOrder then some (0, r, s) else some (1, r, curveOrder - s)
  else none

/-- The address of the private key 1. -/
def walletAddress : List Nat :=
  [0x7e, 0x5f, 0x45, 0x52, 0x09, 0x1a, 0x69, 0x12, 0x5d, 0x5d, 0xfc, 0xb7, 0xb8, 0xc2, 0x65, 0x90, 0x29, 0x39, 0x5b,
    0xdf]

/-- The signature is one of this address, on the real curve. -/
theorem wallet_signs : SignsAs Secp.recover wallet walletAddress := by
  intro h y r s hs
  unfold wallet at hs
  split at hs
  · rename_i hh
    subst hh
    have key : ∀ o : Option (Nat × Nat × Nat), o = some (y, r, s) →
        (o.any fun p => decide (p.1 ≤ 1 ∧ (0 < p.2.1 ∧ p.2.1 < curveOrder ∧ 0 < p.2.2 ∧ 2 * p.2.2 < curveOrder) ∧
          Secp.recover reportHash p.1 p.2.1 p.2.2 = some walletAddress)) = true →
        y ≤ 1 ∧ GoodSignature r s ∧ Secp.recover reportHash y r s = some walletAddress := by
      rintro _ rfl h
      simp only [Option.any_some, decide_eq_true_eq] at h
      exact h
    exact key _ hs (by decide +kernel)
  · cases hs

theorem txNode_sane : SaneTxNode txNode where
  nonce := by decide
  network := by decide
  gas := by decide
  fee := by rintro b ⟨⟩; decide
  price := by decide

/-- The example meets the hypotheses of `C112_vote_partial`. -/
example : ∃ raw, reportRaw wallet txNode loggedPool 7000000 reportedRoot = some raw ∧
    (updateContractMerkleRoot ⟨true, .sent, .mined 1⟩ 7000000 (b!"0x" ++ hexEncode reportedRoot)).2 =
      some (7000000, reportedRoot) ∧
    ∃ t, decodeTx raw = some t ∧ t.sender Secp.recover 1 = some walletAddress ∧
      ReportCall 7000000 reportedRoot t.data := by
  have h2 : (updateContractMerkleRoot ⟨true, .sent, .mined 1⟩ 7000000 (b!"0x" ++ hexEncode reportedRoot)).2 =
      some (7000000, reportedRoot) := C56_own_roots_sent (by decide) (by decide) rfl rfl
  have h1 : (reportRaw wallet txNode loggedPool 7000000 reportedRoot).isSome := by decide +kernel
  obtain ⟨raw, hr⟩ := Option.isSome_iff_exists.mp h1
  obtain ⟨t, -, ht, -, -, -, hs, -, hc⟩ :=
    C112_vote_partial wallet_signs (by unfold IsBytes; decide) txNode_sane (by norm_num) h2 hr
  exact ⟨raw, hr, h2, t, ht, hs, (hc _ _).mpr ⟨rfl, rfl⟩⟩

end Sample

end Verif
