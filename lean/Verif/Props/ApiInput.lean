import Verif.Model.Api
import Verif.Spec.Api
import Mathlib.Tactic.Ring
/-
C49 and C50: readiness and input validation.
-/
namespace Verif

/-! ### C50 -/

theorem matches0x_iff (cls : Nat → Bool) (n : Nat) (v : Str) :
    matches0x cls n v = true ↔ ∃ d, v = b!"0x" ++ d ∧ d.length = n ∧ ∀ c ∈ d, cls c = true := by
  unfold matches0x
  split
  · rename_i d
    simp only [Bool.and_eq_true, beq_iff_eq, List.all_eq_true]
    constructor
    · rintro ⟨h1, h2⟩; exact ⟨d, rfl, h1, h2⟩
    · rintro ⟨d', h, h1, h2⟩
      have : d = d' := by simpa using h
      subst this; exact ⟨h1, h2⟩
  · rename_i hn
    constructor
    · intro h; cases h
    · rintro ⟨d, rfl, _⟩; exact absurd rfl (hn d)

theorem hexClass_iff (c : Nat) : hexClass c = true ↔ HexChar c := by
  unfold hexClass HexChar
  simp only [Bool.or_eq_true, Bool.and_eq_true, decide_eq_true_eq]
  tauto

/-- **C50.** Addresses are accepted exactly when they are "0x" and 40 hexadecimal digits. -/
theorem C50_address (v : Str) : isValidAddress v = true ↔ IsAddress v := by
  unfold isValidAddress IsAddress
  rw [matches0x_iff]
  simp only [hexClass_iff]
  rfl

theorem foldl_value (v : Str) (n : Nat) :
    v.foldl (fun n c => n * 10 + (c - 48)) n = n * 10 ^ v.length + numeralValue v := by
  induction v generalizing n with
  | nil => simp [numeralValue]
  | cons c cs ih =>
    rw [List.foldl_cons, ih]
    have : numeralValue (c :: cs) = numeralValue cs + (c - 48) * 10 ^ cs.length := by
      unfold numeralValue
      rw [List.reverse_cons, List.zipIdx_append, List.map_append, List.sum_append]
      simp
    rw [this, List.length_cons, pow_succ]
    ring

theorem foldl_ge (v : Str) (n : Nat) : n ≤ v.foldl (fun n c => n * 10 + (c - 48)) n := by
  rw [foldl_value]
  have : 1 ≤ 10 ^ v.length := Nat.one_le_pow _ _ (by omega)
  have := Nat.mul_le_mul (Nat.le_refl n) this
  omega

theorem parseLoop_iff (v : Str) (n m : Nat) (hn : n < 2 ^ 64) :
    parseLoop v n = some m ↔ (∀ c ∈ v, 48 ≤ c ∧ c ≤ 57) ∧
      v.foldl (fun n c => n * 10 + (c - 48)) n = m ∧ m < 2 ^ 64 := by
  induction v generalizing n with
  | nil =>
    simp only [parseLoop, Option.some.injEq, List.foldl_nil]
    constructor
    · rintro rfl; exact ⟨by simp, rfl, hn⟩
    · exact fun h => h.2.1
  | cons c cs ih =>
    rw [parseLoop, List.foldl_cons]
    by_cases hc : 48 ≤ c ∧ c ≤ 57
    · rw [if_neg (not_not.mpr hc)]
      have hge := foldl_ge cs (n * 10 + (c - 48))
      by_cases hb : n ≥ 1844674407370955162
      · rw [if_pos hb]
        constructor
        · intro h; cases h
        · rintro ⟨_, h1, h2⟩; rw [h1] at hge; omega
      · rw [if_neg hb]
        have e1 : u64 (n * 10) = n * 10 := by unfold u64; exact Nat.mod_eq_of_lt (by omega)
        dsimp only
        rw [e1]
        by_cases ho : n * 10 + (c - 48) < 2 ^ 64
        · have e2 : u64 (n * 10 + (c - 48)) = n * 10 + (c - 48) := by
            unfold u64; exact Nat.mod_eq_of_lt (by omega)
          rw [e2, if_neg (by omega), ih _ ho]
          simp only [List.mem_cons, forall_eq_or_imp]
          tauto
        · have e2 : u64 (n * 10 + (c - 48)) = n * 10 + (c - 48) - 2 ^ 64 := by
            unfold u64; omega
          rw [e2, if_pos (by omega)]
          constructor
          · intro h; cases h
          · rintro ⟨_, h1, h2⟩; rw [h1] at hge; omega
    · rw [if_pos hc]
      constructor
      · intro h; cases h
      · rintro ⟨h, _⟩; exact absurd (h c (by simp)) hc

/-- **C50.** Indices are accepted exactly when they are decimal numerals of numbers below 2^64, and they
are read as that number. -/
theorem C50_index (v : Str) (n : Nat) :
    isValidIndex v = some n ↔ Numeral v ∧ numeralValue v = n ∧ n < 2 ^ 64 := by
  unfold isValidIndex Numeral
  cases v with
  | nil => simp
  | cons c cs =>
    rw [if_neg (by simp), parseLoop_iff _ _ _ (by omega), foldl_value]
    simp

example : isValidIndex b!"18446744073709551615" = some 18446744073709551615 ∧
    isValidIndex b!"18446744073709551616" = none ∧ isValidIndex b!"007" = some 7 ∧
    isValidIndex b!"" = none ∧ isValidIndex b!"+1" = none := by decide

/-- **C50, partial.** Every public key is accepted, and what is accepted has the right shape. What is
missing for the full claim: the characters between `F` and `a`, see below. -/
theorem C50_pubkey_partial (v : Str) :
    (IsKey v → isValidPubkey v = true) ∧
    (isValidPubkey v = true ↔ ∃ d, v = b!"0x" ++ d ∧ d.length = 96 ∧
      ∀ c ∈ d, HexChar c ∨ (71 ≤ c ∧ c ≤ 96)) := by
  unfold isValidPubkey
  rw [matches0x_iff]
  have key : ∀ c, keyClass c = true ↔ HexChar c ∨ (71 ≤ c ∧ c ≤ 96) := by
    intro c
    unfold keyClass HexChar
    simp only [Bool.or_eq_true, Bool.and_eq_true, decide_eq_true_eq]
    omega
  simp only [key]
  exact ⟨fun ⟨d, h1, h2, h3⟩ => ⟨d, h1, h2, fun c hc => Or.inl (h3 c hc)⟩, trivial⟩

/-- **C50 is false for public keys.** The regular expression says `A-f` instead of `A-F`: any text made of
the characters from `G` to the backquote is accepted as well. -/
theorem C50_false_pubkey (d : Str) (hl : d.length = 96) (hd : ∀ c ∈ d, 71 ≤ c ∧ c ≤ 96) :
    isValidPubkey (b!"0x" ++ d) = true ∧ ¬ IsKey (b!"0x" ++ d) := by
  constructor
  · unfold isValidPubkey
    rw [matches0x_iff]
    refine ⟨d, rfl, hl, fun c hc => ?_⟩
    have := hd c hc
    unfold keyClass
    simp only [Bool.or_eq_true, Bool.and_eq_true, decide_eq_true_eq]
    omega
  · rintro ⟨d', h1, _, h3⟩
    have : d = d' := by simpa using h1
    subst this
    cases d with
    | nil => simp at hl
    | cons c cs =>
      have h4 := h3 c (by simp)
      have h5 := hd c (by simp)
      unfold HexChar at h4
      omega

/-- 96 underscores -/
example : (List.replicate 96 95).length = 96 ∧ ∀ c ∈ List.replicate 96 95, 71 ≤ c ∧ c ≤ 96 := by decide

/-! ### C49 -/

/-- **C49.** When the API reports ready, for all 64-bit slots: the oracle is at most the allowed number
of slots behind the finalized slot, or so far ahead of it that the subtraction wraps around to a small
number. -/
theorem C49_ready_exact {f latest max : Nat} (hf : f < 2 ^ 64) (hl : latest < 2 ^ 64) :
    oracleReady (some f) latest max = true ↔
      (latest ≤ f ∧ f ≤ latest + max) ∨ (f < latest ∧ f + 2 ^ 64 ≤ latest + max) := by
  unfold oracleReady sub64 u64
  dsimp only
  split <;> rename_i h
  · constructor
    · intro h; cases h
    · intro h'; omega
  · constructor
    · intro _; omega
    · intro _; rfl

/-- **C49, partial.** If the oracle is not ahead of the finalized slot that the beacon node reports, the
API reports ready exactly when it is at most the allowed number of slots behind. What is missing for the
full claim: the case below. -/
theorem C49_ready_partial {f latest max : Nat} (hf : f < 2 ^ 64) (hle : latest ≤ f) :
    oracleReady (some f) latest max = true ↔ f ≤ latest + max := by
  rw [C49_ready_exact hf (by omega)]
  omega

/-- **C49, partial.** The allowed number of slots is 64, two epochs. -/
theorem C49_allowed_partial {f latest : Nat} (hf : f < 2 ^ 64) (hle : latest ≤ f) :
    oracleReady (some f) latest maxSlotsBehind = true ↔ f - latest ≤ 64 := by
  rw [C49_ready_partial hf hle, show maxSlotsBehind = 64 from rfl]
  omega

/-- **C49 is false** when the oracle is ahead of the finalized slot that the beacon node reports (a state
loaded from a checkpoint provider while the node is still syncing, or several nodes behind one address):
the oracle is not behind at all, yet the API refuses to serve. -/
theorem C49_false_ahead {f latest : Nat} (hlt : f < latest) (hl : latest < 2 ^ 63) :
    oracleReady (some f) latest maxSlotsBehind = false := by
  have := C49_ready_exact (f := f) (latest := latest) (max := maxSlotsBehind) (by omega) (by omega)
  cases h : oracleReady (some f) latest maxSlotsBehind with
  | false => rfl
  | true =>
    have := this.mp h
    unfold maxSlotsBehind at this
    omega

example : oracleReady (some 12000064) 12000000 maxSlotsBehind = true ∧
    oracleReady (some 12000065) 12000000 maxSlotsBehind = false ∧
    oracleReady (some 11999999) 12000000 maxSlotsBehind = false := by decide

end Verif
