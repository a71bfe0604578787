import Verif.Spec.Startup
import Verif.Lemmas.Tip
import Verif.Props.Onchain
/-
C62, C63: the starting fee and the deployment slot.
-/
namespace Verif

/-! ### Bytes -/

theorem beBytes_length (n x : Nat) : (beBytes n x).length = n := by
  induction n with
  | zero => rfl
  | succ n ih => simp [beBytes, ih]

theorem beBytes_lt (n x : Nat) : ∀ b ∈ beBytes n x, b < 256 := by
  induction n with
  | zero => simp [beBytes]
  | succ n ih =>
    intro b hb
    rcases List.mem_cons.mp hb with rfl | hb
    · exact Nat.mod_lt _ (by norm_num)
    · exact ih b hb

theorem setBytes_beBytes (n x : Nat) : setBytes (beBytes n x) = x % 256 ^ n := by
  induction n with
  | zero => simp [beBytes, setBytes, Nat.mod_one]
  | succ n ih =>
    have : beBytes (n + 1) x = [x / 256 ^ n % 256] ++ beBytes n x := rfl
    rw [this, setBytes_append, ih, beBytes_length]
    have h1 : setBytes [x / 256 ^ n % 256] = x / 256 ^ n % 256 := by simp [setBytes]
    rw [h1, pow_succ, Nat.mod_mul]
    ring

theorem setBytes_lt {bs : List Nat} (h : ∀ b ∈ bs, b < 256) : setBytes bs < 256 ^ bs.length := by
  induction bs using List.reverseRecOn with
  | nil => simp [setBytes]
  | append_singleton bs b ih =>
    rw [setBytes_append]
    have h1 := ih (fun x hx => h x (by simp [hx]))
    have h2 := h b (by simp)
    have h3 : setBytes [b] = b := by simp [setBytes]
    rw [h3, List.length_append, List.length_singleton, pow_succ]
    omega

theorem beBytes_setBytes {bs : List Nat} (h : ∀ b ∈ bs, b < 256) : beBytes bs.length (setBytes bs) = bs := by
  have key : ∀ (bs : List Nat) (k : Nat), (∀ b ∈ bs, b < 256) →
      beBytes bs.length (k * 256 ^ bs.length + setBytes bs) = bs := by
    intro bs
    induction bs with
    | nil => intro k _; rfl
    | cons b bs ih =>
      intro k h
      have h1 := setBytes_lt (fun x hx => h x (List.mem_cons_of_mem b hx))
      have h2 := h b (by simp)
      have e : setBytes (b :: bs) = b * 256 ^ bs.length + setBytes bs := by
        have := setBytes_append [b] bs
        simpa [setBytes] using this
      have e2 : k * 256 ^ (b :: bs).length + setBytes (b :: bs) =
          (k * 256 + b) * 256 ^ bs.length + setBytes bs := by
        rw [e, List.length_cons, pow_succ]; ring
      rw [e2, List.length_cons]
      unfold beBytes
      rw [ih _ (fun x hx => h x (List.mem_cons_of_mem b hx))]
      congr 1
      have hp : 0 < 256 ^ bs.length := Nat.pow_pos (by norm_num)
      rw [Nat.add_comm, Nat.add_mul_div_right _ _ hp, Nat.div_eq_of_lt h1]
      omega
  have := key bs 0 h
  simpa using this

/-! ### The encoded call -/

theorem setBytes_be32 {x : Nat} (h : x < 2 ^ 256) : setBytes (beBytes 32 x) = x := by
  rw [setBytes_beBytes]
  exact Nat.mod_eq_of_lt (lt_of_lt_of_eq h (by norm_num))

/-- decoding is the inverse of encoding, whatever follows -/
theorem unpack_encode {a : InitCall} (ha : a.Typed) (tail : List Nat) :
    unpackPoolFee ((a.encode ++ tail).drop 4) = some a.fee := by
  have l := fun x => beBytes_length 32 x
  have e : (a.encode ++ tail).drop 4 = beBytes 32 a.governance ++ (beBytes 32 a.collateral ++
      (beBytes 32 a.fee ++ (beBytes 32 a.recipient ++ (beBytes 32 a.cpSize ++ (beBytes 32 a.quorum ++ tail))))) := by
    unfold InitCall.encode
    simp [List.append_assoc]
  rw [e]
  unfold unpackPoolFee
  rw [if_neg (by simp only [List.length_append, l]; omega)]
  have w : ∀ i, abiWord (beBytes 32 a.governance ++ (beBytes 32 a.collateral ++
      (beBytes 32 a.fee ++ (beBytes 32 a.recipient ++ (beBytes 32 a.cpSize ++ (beBytes 32 a.quorum ++ tail)))))) i =
      (List.drop (32 * i) (beBytes 32 a.governance ++ (beBytes 32 a.collateral ++
      (beBytes 32 a.fee ++ (beBytes 32 a.recipient ++ (beBytes 32 a.cpSize ++ (beBytes 32 a.quorum ++ tail))))))).take 32 :=
    fun i => rfl
  have d : ∀ (x n : Nat) (r : List Nat), (beBytes 32 x ++ r).drop (n + 32) = r.drop n := by
    intro x n r
    rw [Nat.add_comm, ← List.drop_drop, List.drop_left' (l x)]
  have t : ∀ (x : Nat) (r : List Nat), (beBytes 32 x ++ r).take 32 = beBytes 32 x := by
    intro x r
    rw [List.take_append_of_le_length (by simp [l]), List.take_of_length_le (by simp [l])]
  have w4 := w 4
  have w5 := w 5
  have w2 := w 2
  rw [show 32 * 4 = 0 + 32 + 32 + 32 + 32 from rfl, d, d, d, d, List.drop_zero, t] at w4
  rw [show 32 * 5 = 0 + 32 + 32 + 32 + 32 + 32 from rfl, d, d, d, d, d, List.drop_zero, t] at w5
  rw [show 32 * 2 = 0 + 32 + 32 from rfl, d, d, List.drop_zero, t] at w2
  have b64 : ∀ x : Nat, x < 2 ^ 64 → x < 2 ^ 256 := fun x h => lt_trans h (by norm_num)
  rw [w4, w5, w2, setBytes_be32 (b64 _ ha.cpSize), setBytes_be32 (b64 _ ha.quorum), setBytes_be32 ha.fee]
  have := ha.cpSize
  have := ha.quorum
  rw [if_neg (by omega), if_neg (by omega)]

/-- whatever decodes is the encoding of a call -/
theorem encode_of_unpack {data : List Nat} (hb : ∀ b ∈ data, b < 256) {fee : Nat}
    (hs : data.take 4 = initializeSelector) (h : unpackPoolFee (data.drop 4) = some fee) :
    ∃ a, a.fee = fee ∧ Carries data 0 a := by
  unfold unpackPoolFee at h
  split at h
  · cases h
  rename_i hl
  split at h
  · cases h
  rename_i h4
  split at h
  · cases h
  rename_i h5
  simp only [Option.some.injEq] at h
  generalize hd : data.drop 4 = d at *
  have hbd : ∀ b ∈ d, b < 256 := fun b hx => hb b (List.mem_of_mem_drop (hd ▸ hx))
  have hbw : ∀ i, ∀ b ∈ abiWord d i, b < 256 :=
    fun i b hx => hbd b (List.mem_of_mem_drop (List.mem_of_mem_take hx))
  have hlw : ∀ i, i < 6 → (abiWord d i).length = 32 := by
    intro i hi; unfold abiWord; rw [List.length_take, List.length_drop]; omega
  have hw : ∀ i, i < 6 → beBytes 32 (setBytes (abiWord d i)) = abiWord d i := by
    intro i hi
    have := beBytes_setBytes (hbw i)
    rwa [hlw i hi] at this
  have hlt : ∀ i, i < 6 → setBytes (abiWord d i) < 2 ^ 256 := by
    intro i hi
    have := setBytes_lt (hbw i)
    rw [hlw i hi] at this
    exact lt_of_lt_of_eq this (by norm_num)
  refine ⟨⟨setBytes (abiWord d 0), setBytes (abiWord d 1), setBytes (abiWord d 2), setBytes (abiWord d 3),
    setBytes (abiWord d 4), setBytes (abiWord d 5)⟩, h, ⟨hlt 0 (by omega), hlt 1 (by omega), hlt 2 (by omega),
    hlt 3 (by omega), by dsimp only; omega, by dsimp only; omega⟩, [], d.drop 192, rfl, ?_⟩
  have split1 : ∀ i, abiWord d i ++ d.drop (32 * (i + 1)) = d.drop (32 * i) := by
    intro i
    unfold abiWord
    rw [show 32 * (i + 1) = 32 * i + 32 by ring, ← List.drop_drop, List.take_append_drop]
  rw [List.nil_append]
  unfold InitCall.encode
  dsimp only
  rw [hw 0 (by omega), hw 1 (by omega), hw 2 (by omega), hw 3 (by omega), hw 4 (by omega), hw 5 (by omega)]
  have s0 := split1 0
  have s1 := split1 1
  have s2 := split1 2
  have s3 := split1 3
  have s4 := split1 4
  have s5 := split1 5
  norm_num at s0 s1 s2 s3 s4 s5
  simp only [List.append_assoc]
  rw [s5, s4, s3, s2, s1, s0, ← hd]
  have : [0x15, 0x1e, 0x4d, 0x3d] = data.take 4 := hs.symm
  rw [this, List.take_append_drop]

theorem carries_zero {data : List Nat} {a : InitCall} (h : Carries data 0 a) :
    data.take 4 = initializeSelector ∧ unpackPoolFee (data.drop 4) = some a.fee := by
  obtain ⟨ht, pre, tail, hp, rfl⟩ := h
  have : pre = [] := List.length_eq_zero_iff.mp hp
  subst this
  rw [List.nil_append]
  exact ⟨by simp [InitCall.encode, initializeSelector], unpack_encode ht tail⟩

theorem carries_succ {c : Nat} {cs : List Nat} {n : Nat} {a : InitCall} :
    Carries (c :: cs) (n + 1) a ↔ Carries cs n a := by
  constructor
  · rintro ⟨ht, pre, tail, hp, he⟩
    cases pre with
    | nil => simp at hp
    | cons p pre =>
      simp only [List.cons_append, List.cons.injEq] at he
      exact ⟨ht, pre, tail, by simpa using hp, he.2⟩
  · rintro ⟨ht, pre, tail, hp, he⟩
    exact ⟨ht, c :: pre, tail, by simpa using hp, by rw [he]; rfl⟩

theorem carries_nonempty {data : List Nat} {n : Nat} {a : InitCall} (h : Carries data n a) : n < data.length := by
  obtain ⟨_, pre, tail, hp, rfl⟩ := h
  simp [InitCall.encode]; omega

/-- The scan finds the first encoded call. -/
theorem findInitialize_first {data : List Nat} (hb : ∀ b ∈ data, b < 256) {n : Nat} {a : InitCall}
    (h : Carries data n a) (hf : ∀ m < n, ∀ a', ¬ Carries data m a') :
    findInitialize initializeSelector data = some (i64 a.fee) := by
  induction data generalizing n with
  | nil => exact absurd (carries_nonempty h) (by simp)
  | cons c cs ih =>
    unfold findInitialize
    cases n with
    | zero =>
      obtain ⟨h1, h2⟩ := carries_zero h
      rw [if_pos h1]
      unfold poolFeeFromInitArgs
      rw [h2]; rfl
    | succ n =>
      have hrec := ih (fun b hx => hb b (List.mem_cons_of_mem c hx)) (carries_succ.mp h)
        (fun m hm a' ha' => hf (m + 1) (by omega) a' (carries_succ.mpr ha'))
      split
      · rename_i hs
        unfold poolFeeFromInitArgs
        cases hu : unpackPoolFee ((c :: cs).drop 4) with
        | none => exact hrec
        | some fee =>
          obtain ⟨a', _, hc⟩ := encode_of_unpack hb hs hu
          exact absurd hc (hf 0 (by omega) a')
      · exact hrec

/-- What the scan finds is an encoded call. -/
theorem findInitialize_sound {data : List Nat} (hb : ∀ b ∈ data, b < 256) {fee : Int}
    (h : findInitialize initializeSelector data = some fee) : ∃ n a, Carries data n a ∧ fee = i64 a.fee := by
  induction data with
  | nil => simp [findInitialize] at h
  | cons c cs ih =>
    unfold findInitialize at h
    have next : findInitialize initializeSelector cs = some fee → ∃ n a, Carries (c :: cs) n a ∧ fee = i64 a.fee := by
      intro h
      obtain ⟨n, a, h1, h2⟩ := ih (fun b hx => hb b (List.mem_cons_of_mem c hx)) h
      exact ⟨n + 1, a, carries_succ.mpr h1, h2⟩
    split at h
    · rename_i hs
      unfold poolFeeFromInitArgs at h
      cases hu : unpackPoolFee ((c :: cs).drop 4) with
      | none => rw [hu] at h; exact next h
      | some x =>
        rw [hu] at h
        have h : i64 x = fee := Option.some.inj h
        obtain ⟨a, h1, h2⟩ := encode_of_unpack hb hs hu
        exact ⟨0, a, h2, by rw [h1, h]⟩
    · exact next h

/-! ### Addresses -/

theorem fromHexChar_lower {c v : Nat} (h : HexDigit (lowerByte c) v) : fromHexChar c = some v := by
  unfold lowerByte at h
  unfold fromHexChar
  unfold HexDigit at h
  split at h <;> rename_i hc
  · rw [if_neg (by omega), if_neg (by omega), if_pos (by omega)]
    congr 1; omega
  · by_cases h1 : 48 ≤ c ∧ c ≤ 57
    · rw [if_pos h1]; congr 1; omega
    · rw [if_neg h1, if_pos (by omega)]; congr 1; omega

theorem hex2Bytes_lower : ∀ (d : Str) (bs : List Nat), HexText (lower d) bs → hex2Bytes d = bs
  | [], bs, h => by
    cases h; rfl
  | [c], bs, h => by
    simp only [lower, List.map_cons, List.map_nil] at h
    cases h
  | a :: b :: d, bs, h => by
    simp only [lower, List.map_cons] at h
    cases h with
    | cons ha hb hr =>
      unfold hex2Bytes
      rw [fromHexChar_lower ha, fromHexChar_lower hb]
      simp only [hex2Bytes_lower d _ hr]

theorem hexText_length {r : Str} {bs : List Nat} (h : HexText r bs) : r.length = 2 * bs.length := by
  induction h with
  | nil => rfl
  | cons _ _ _ ih => simp only [List.length_cons]; omega

theorem hexToAddress_of {s : Str} {bs : List Nat} (h : NamesAddress s bs) : hexToAddress s = bs := by
  obtain ⟨hl, d, hd, ht⟩ := h
  have hlen : d.length = 40 := by
    have := hexText_length ht
    rw [hl] at this
    simpa [lower] using this
  have hno : has0xPrefix d = false := by
    match d, ht with
    | [], _ => rfl
    | [_], _ => rfl
    | a :: b :: d, ht =>
      simp only [lower, List.map_cons] at ht
      cases ht with
      | cons ha hb hr =>
        have hb' := fromHexChar_lower hb
        unfold fromHexChar at hb'
        simp only [has0xPrefix, Bool.and_eq_false_iff, Bool.or_eq_false_iff, beq_eq_false_iff_ne]
        right
        constructor
        · rintro rfl; simp at hb'
        · rintro rfl; simp at hb'
  have he : (if has0xPrefix s then s.drop 2 else s) = d := by
    rcases hd with rfl | rfl | rfl
    · rw [hno]; rfl
    · rfl
    · rfl
  unfold hexToAddress
  rw [he]
  dsimp only
  rw [if_neg (by omega), hex2Bytes_lower d bs ht]
  simp [hl]

/-! ### C62 The starting fee -/

theorem decode_skip {pool : Str} {pb : List Nat} (hp : NamesAddress pool pb) {pre rest : List RawTx}
    (hb : ∀ tx ∈ pre, tx.Bytes) (hd : ∀ tx ∈ pre, ¬ Decoy pb tx) :
    decodeInitialPoolFee initializeSelector pool (pre ++ rest) =
      decodeInitialPoolFee initializeSelector pool rest := by
  induction pre with
  | nil => rfl
  | cons tx pre ih =>
    have ih' := ih (fun t ht => hb t (by simp [ht])) (fun t ht => hd t (by simp [ht]))
    have hno := hd tx (by simp)
    rw [List.cons_append]
    conv_lhs => unfold decodeInitialPoolFee
    split
    · exact ih'
    · split
      · rename_i a ha
        rw [hexToAddress_of hp]
        split
        · rename_i hpb
          rw [if_neg (fun hs : tx.data.take 4 = initializeSelector => hno (Or.inl ⟨by rw [ha, hpb], hs⟩))]
          exact ih'
        · exact ih'
      · rename_i hnone
        cases hf : findInitialize initializeSelector tx.data with
        | none => exact ih'
        | some f =>
          obtain ⟨n, a, hc, _⟩ := findInitialize_sound (hb tx (by simp)) hf
          exact absurd (Or.inr ⟨hnone, n, a, hc⟩) hno

theorem carries_long {data : List Nat} {n : Nat} {a : InitCall} (h : Carries data n a) : 4 ≤ data.length := by
  obtain ⟨_, pre, tail, _, rfl⟩ := h
  simp [InitCall.encode]; omega

theorem decode_at {pool : Str} {pb : List Nat} (hp : NamesAddress pool pb) {a : InitCall} {tx : RawTx}
    (hb : tx.Bytes) (h : Initialises pb a tx) (rest : List RawTx) :
    decodeInitialPoolFee initializeSelector pool (tx :: rest) = some (i64 a.fee) := by
  unfold decodeInitialPoolFee
  rcases h with ⟨h1, h2⟩ | ⟨h1, n, h2, h3⟩
  · have := carries_long h2
    obtain ⟨k1, k2⟩ := carries_zero h2
    rw [if_neg (by omega), h1]
    dsimp only
    rw [if_pos (hexToAddress_of hp).symm, if_pos k1]
    unfold poolFeeFromInitArgs
    rw [k2]; rfl
  · have := carries_long h2
    rw [if_neg (by omega), h1]
    dsimp only
    rw [findInitialize_first hb h2 h3]

theorem i64_small {n : Nat} (h : n < 2 ^ 63) : i64 n = n := by
  unfold i64
  rw [Int.bmod_eq_of_le (by omega) (by omega)]

/-- **C62** (partial: no earlier transaction of the block may look like the initialisation). The fee decoded
from the deployment block is the one the pool was initialised with, whether `initialize` was called on the
pool or from the constructor of a proxy. -/
theorem C62_initial_fee_partial {pool : Str} {pb : List Nat} (hp : NamesAddress pool pb) {a : InitCall}
    {pre post : List RawTx} {tx : RawTx} (hb : ∀ t ∈ pre ++ [tx], t.Bytes) (hd : ∀ t ∈ pre, ¬ Decoy pb t)
    (h : Initialises pb a tx) (hfee : a.fee < 2 ^ 63) :
    decodeInitialPoolFee initializeSelector pool (pre ++ tx :: post) = some (a.fee : Int) := by
  rw [decode_skip hp (fun t ht => hb t (by simp [ht])) hd, decode_at hp (hb tx (by simp)) h, i64_small hfee]

/-- **C62**: a decoded fee always stands in the encoding of an `initialize` call carried by a transaction of
the block, sent to the pool or creating a contract. -/
theorem C62_sound {pool : Str} {pb : List Nat} (hp : NamesAddress pool pb) {txs : List RawTx}
    (hb : ∀ t ∈ txs, t.Bytes) {fee : Int}
    (h : decodeInitialPoolFee initializeSelector pool txs = some fee) :
    ∃ tx ∈ txs, ∃ n a, Carries tx.data n a ∧ fee = i64 a.fee ∧
      ((tx.to = some pb ∧ n = 0) ∨ tx.to = none) := by
  induction txs with
  | nil => simp [decodeInitialPoolFee] at h
  | cons tx rest ih =>
    have next : decodeInitialPoolFee initializeSelector pool rest = some fee →
        ∃ t ∈ tx :: rest, ∃ n a, Carries t.data n a ∧ fee = i64 a.fee ∧
          ((t.to = some pb ∧ n = 0) ∨ t.to = none) := by
      intro h
      obtain ⟨t, ht, r⟩ := ih (fun t ht => hb t (by simp [ht])) h
      exact ⟨t, by simp [ht], r⟩
    unfold decodeInitialPoolFee at h
    split at h
    · exact next h
    · split at h
      · rename_i a ha
        rw [hexToAddress_of hp] at h
        split at h
        · rename_i hpb
          split at h
          · rename_i hs
            unfold poolFeeFromInitArgs at h
            cases hu : unpackPoolFee (tx.data.drop 4) with
            | none => rw [hu] at h; simp at h
            | some x =>
              rw [hu] at h
              have h : i64 x = fee := Option.some.inj h
              obtain ⟨a', h1, h2⟩ := encode_of_unpack (hb tx (by simp)) hs hu
              exact ⟨tx, by simp, 0, a', h2, by rw [h1, h], Or.inl ⟨by rw [ha, hpb], rfl⟩⟩
          · exact next h
        · exact next h
      · rename_i hnone
        cases hf : findInitialize initializeSelector tx.data with
        | none => rw [hf] at h; exact next h
        | some f =>
          rw [hf] at h
          simp only [Option.some.injEq] at h
          subst h
          obtain ⟨n, a, h1, h2⟩ := findInitialize_sound (hb tx (by simp)) hf
          exact ⟨tx, by simp, n, a, h1, h2, Or.inr hnone⟩

/-- **C62 is false** if somebody else has a transaction before the initialisation in the deployment block:
for every fee there is a contract creation by which anybody makes the oracle start with that fee, wherever
it stands before the first transaction that looks like an initialisation. -/
theorem C62_false_spoofed {pool : Str} {pb : List Nat} (hp : NamesAddress pool pb) (fee : Nat) (hf : fee < 2 ^ 63) :
    ∃ spoof : RawTx, spoof.to = none ∧ spoof.Bytes ∧ ∀ pre post : List RawTx, (∀ t ∈ pre, t.Bytes) →
      (∀ t ∈ pre, ¬ Decoy pb t) →
      decodeInitialPoolFee initializeSelector pool (pre ++ spoof :: post) = some (fee : Int) := by
  have ht : (InitCall.mk 0 0 fee 0 0 0).Typed :=
    ⟨by norm_num, by norm_num, lt_trans hf (by norm_num), by norm_num, by norm_num, by norm_num⟩
  have hbytes : RawTx.Bytes ⟨none, (InitCall.mk 0 0 fee 0 0 0).encode⟩ := by
    intro b hb
    simp only [InitCall.encode, List.mem_append] at hb
    rcases hb with (((((hb | hb) | hb) | hb) | hb) | hb) | hb
    · simp only [List.mem_cons, List.not_mem_nil, or_false] at hb; omega
    all_goals exact beBytes_lt 32 _ b hb
  refine ⟨⟨none, (InitCall.mk 0 0 fee 0 0 0).encode⟩, rfl, hbytes, ?_⟩
  intro pre post h1 h2
  refine C62_initial_fee_partial (a := InitCall.mk 0 0 fee 0 0 0) hp ?_ h2 ?_ hf
  · intro t hm
    rcases List.mem_append.mp hm with hm | hm
    · exact h1 t hm
    · rw [List.mem_singleton] at hm; subst hm; exact hbytes
  · exact Or.inr ⟨rfl, 0, ⟨ht, [], [], rfl, by simp⟩, by omega⟩

end Verif
