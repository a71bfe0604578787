import Verif.Lemmas.Creds
import Verif.Spec.Sample
/-
C57: withdrawal credentials.
-/
namespace Verif

/-- 32 bytes of credentials: a first byte `p`, eleven zero bytes and a 20-byte address. -/
def Padded (p : Nat) (creds addr : List Nat) : Prop :=
  addr.length = 20 ∧ creds = p :: (List.replicate 11 0 ++ addr)

theorem prefix_back {d k : Nat} (hd : hexDigit k = d) (hk : k < 16) {addr : List Nat} :
    (48 :: d :: List.replicate (2 * 11) 48).isPrefixOf
      (hexEncode (k :: (List.replicate 11 0 ++ addr))) = true := by
  simp only [hexEncode, hexEncode_append]
  have h1 : k / 16 = 0 := by omega
  have h2 : k % 16 = k := by omega
  rw [h1, h2, hd]
  simp [show hexDigit 0 = 48 from rfl]
  exact ⟨hexEncode addr, rfl⟩

/-- **C57.** A byte string is classified as BLS exactly when it is 32 bytes starting with 0x00, as an
address exactly when it is 0x01, eleven zeros and 20 bytes, as compounding exactly when it is 0x02,
eleven zeros and 20 bytes. -/
theorem C57_classified (creds : List Nat) :
    (isBlsType (hexEncode creds) = true ↔ creds.length = 32 ∧ creds.head? = some 0) ∧
    (isEth1Type (hexEncode creds) = true ↔ ∃ a, Padded 1 creds a) ∧
    (isElectraType (hexEncode creds) = true ↔ ∃ a, Padded 2 creds a) := by
  refine ⟨?_, ?_, ?_⟩
  · unfold isBlsType hasPrefix
    rw [Bool.and_eq_true, beq_iff_eq, hexEncode_length]
    cases creds with
    | nil => simp
    | cons b bs =>
      simp only [hexEncode, List.isPrefixOf_cons_cons, Bool.and_eq_true, beq_iff_eq, List.head?_cons,
        Option.some.injEq, List.length_cons]
      constructor
      · rintro ⟨h, h1, h2, _⟩
        have := hexDigit_eq_zero.mp h1.symm
        have := hexDigit_eq_zero.mp h2.symm
        exact ⟨by omega, by omega⟩
      · rintro ⟨h, rfl⟩
        exact ⟨by omega, rfl, rfl, rfl⟩
  · unfold isEth1Type hasPrefix
    rw [Bool.and_eq_true, beq_iff_eq, hexEncode_length, eth1Prefix_eq]
    constructor
    · rintro ⟨hl, hp⟩
      obtain ⟨rest, rfl⟩ := prefix_bytes (fun x => hexDigit_eq_one) hp
      exact ⟨rest, by simp at hl; omega, rfl⟩
    · rintro ⟨a, ha, rfl⟩
      exact ⟨by simp [ha], prefix_back rfl (by omega)⟩
  · unfold isElectraType hasPrefix
    rw [Bool.and_eq_true, beq_iff_eq, hexEncode_length, electraPrefix_eq]
    constructor
    · rintro ⟨hl, hp⟩
      obtain ⟨rest, rfl⟩ := prefix_bytes (fun x => hexDigit_eq_two) hp
      exact ⟨rest, by simp at hl; omega, rfl⟩
    · rintro ⟨a, ha, rfl⟩
      exact ⟨by simp [ha], prefix_back rfl (by omega)⟩

/-- **C57.** No string at all, hexadecimal or not, gets two of the three classifications. -/
theorem C57_exclusive (wc : Str) :
    ¬ (isBlsType wc = true ∧ isEth1Type wc = true) ∧
    ¬ (isBlsType wc = true ∧ isElectraType wc = true) ∧
    ¬ (isEth1Type wc = true ∧ isElectraType wc = true) := by
  unfold isBlsType isEth1Type isElectraType hasPrefix
  rw [eth1Prefix_eq, electraPrefix_eq]
  match wc with
  | [] => simp
  | [a] => simp
  | a :: b :: l =>
    simp only [List.isPrefixOf_cons_cons, Bool.and_eq_true, beq_iff_eq]
    refine ⟨?_, ?_, ?_⟩ <;> (rintro ⟨⟨_, _, h1, _⟩, ⟨_, _, h2, _⟩⟩; rw [← h1] at h2; simp at h2)

/-- **C57.** An address is extracted from credentials exactly when they are 0x01 or 0x02, eleven zeros
and 20 bytes; it is then the last 20 bytes. -/
theorem C57_address (creds : List Nat) (w : Str) :
    compatAddressByte creds = some w ↔
      ∃ a, (Padded 1 creds a ∨ Padded 2 creds a) ∧ w = b!"0x" ++ hexEncode a ∧
        a = creds.drop 12 := by
  rw [compatAddressByte_iff]
  constructor
  · rintro ⟨p, a, hp, hl, rfl, hw⟩
    refine ⟨a, ?_, hw, by simp⟩
    rcases hp with rfl | rfl
    · exact Or.inl ⟨hl, rfl⟩
    · exact Or.inr ⟨hl, rfl⟩
  · rintro ⟨a, ⟨hl, rfl⟩ | ⟨hl, rfl⟩, hw, _⟩
    · exact ⟨1, a, Or.inl rfl, hl, rfl, hw⟩
    · exact ⟨2, a, Or.inr rfl, hl, rfl, hw⟩

theorem hexDigit_inj {a b : Nat} (ha : a < 16) (hb : b < 16) (h : hexDigit a = hexDigit b) : a = b := by
  unfold hexDigit at h
  split at h <;> split at h <;> omega

theorem hexEncode_inj {a b : List Nat} (ha : ∀ x ∈ a, x < 256) (hb : ∀ x ∈ b, x < 256)
    (h : hexEncode a = hexEncode b) : a = b := by
  induction a generalizing b with
  | nil => cases b with
    | nil => rfl
    | cons y b => simp [hexEncode] at h
  | cons x a ih =>
    cases b with
    | nil => simp [hexEncode] at h
    | cons y b =>
      simp only [hexEncode, List.cons.injEq] at h
      have hx := ha x (by simp)
      have hy := hb y (by simp)
      have h1 := hexDigit_inj (by omega) (by omega) h.1
      have h2 := hexDigit_inj (by omega) (by omega) h.2.1
      have e : x = y := by omega
      rw [e, ih (fun z hz => ha z (by simp [hz])) (fun z hz => hb z (by simp [hz])) h.2.2]

/-- **C57.** Two validators get the same address only if the last 20 bytes of their credentials are
the same. -/
theorem C57_address_injective {c1 c2 : List Nat} {w : Str} (h1 : ∀ x ∈ c1, x < 256)
    (h2 : ∀ x ∈ c2, x < 256) (k1 : compatAddressByte c1 = some w) (k2 : compatAddressByte c2 = some w) :
    c1.drop 12 = c2.drop 12 := by
  obtain ⟨a, _, ha, e1⟩ := (C57_address _ _).mp k1
  obtain ⟨b, _, hb, e2⟩ := (C57_address _ _).mp k2
  rw [← e1, ← e2]
  rw [ha] at hb
  refine hexEncode_inj ?_ ?_ (List.append_cancel_left hb)
  · rw [e1]; exact fun x hx => h1 x (List.mem_of_mem_drop hx)
  · rw [e2]; exact fun x hx => h2 x (List.mem_of_mem_drop hx)

/-- **C57.** The type and address recorded for the proposer of a block: an address exactly for 0x01 and
0x02 credentials with zero padding. Credentials of a wrong length stop the process; everything else is
treated like BLS credentials. -/
theorem C57_proposer (v : BVal) :
    (v.creds.length ≠ 32 → withdrawalAndType v = .error .fatal) ∧
    (∀ a, Padded 1 v.creds a → withdrawalAndType v = .ok (b!"0x" ++ hexEncode a, .eth1)) ∧
    (∀ a, Padded 2 v.creds a → withdrawalAndType v = .ok (b!"0x" ++ hexEncode a, .electra)) ∧
    (v.creds.length = 32 → (∀ w, ¬ HasAddress v.creds w) → ∃ w, withdrawalAndType v = .ok (w, .bls)) := by
  obtain ⟨hb, h1, h2⟩ := C57_classified v.creds
  have hx := C57_exclusive (hexEncode v.creds)
  unfold withdrawalAndType
  simp only [hexEncode_length]
  refine ⟨?_, ?_, ?_, ?_⟩
  · intro h
    rw [if_pos (by omega)]
  · intro a ha
    have k := h1.mpr ⟨a, ha⟩
    have k0 : isBlsType (hexEncode v.creds) = false := by
      rcases hx with ⟨hx, _⟩; rw [k] at hx; simpa using hx
    rw [if_neg (by rw [ha.2]; simp [ha.1]), k0, k]
    simp only [Bool.false_eq_true, if_false, if_true]
    rw [ha.2, drop24]
  · intro a ha
    have k := h2.mpr ⟨a, ha⟩
    have k0 : isBlsType (hexEncode v.creds) = false := by
      rcases hx with ⟨_, hx, _⟩; rw [k] at hx; simpa using hx
    have k1 : isEth1Type (hexEncode v.creds) = false := by
      rcases hx with ⟨_, _, hx⟩; rw [k] at hx; simpa using hx
    rw [if_neg (by rw [ha.2]; simp [ha.1]), k0, k1, k]
    simp only [Bool.false_eq_true, if_false, if_true]
    rw [ha.2, drop24]
  · intro hl hno
    rw [if_neg (by omega)]
    split
    · exact ⟨_, rfl⟩
    · have k1 : ¬ isEth1Type (hexEncode v.creds) = true := by
        intro k
        obtain ⟨a, ha⟩ := h1.mp k
        exact hno _ ⟨1, a, Or.inl rfl, ha.1, ha.2, rfl⟩
      have k2 : ¬ isElectraType (hexEncode v.creds) = true := by
        intro k
        obtain ⟨a, ha⟩ := h2.mp k
        exact hno _ ⟨2, a, Or.inr rfl, ha.1, ha.2, rfl⟩
      rw [if_neg k1, if_neg k2]
      exact ⟨_, rfl⟩

/-- An address of each kind, credentials with a stray byte in the padding, and BLS credentials. -/
example : Padded 1 (Sample.creds 7) (List.replicate 20 7) ∧
    Padded 2 (2 :: (Sample.creds 7).tail) (List.replicate 20 7) ∧
    compatAddressByte (1 :: 5 :: (Sample.creds 7).drop 2) = none ∧
    isBlsType (hexEncode (0 :: (Sample.creds 7).tail)) = true ∧
    withdrawalAndType { Sample.bval 7 with creds := 3 :: (Sample.creds 7).tail } = .ok ([], .bls) :=
  ⟨⟨rfl, rfl⟩, ⟨rfl, rfl⟩, by decide, by decide, by rfl⟩

end Verif
