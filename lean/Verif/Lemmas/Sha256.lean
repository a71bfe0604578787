import Verif.Model.Sha256
import Verif.Spec.Sha256
import Mathlib.Data.List.GetD
import Mathlib.Data.List.Basic
import Mathlib.Data.Nat.Count
import Mathlib.Tactic.NormNum
/-
The SHA-256 of the model against the text of FIPS 180-4.
-/
namespace Verif
namespace Sha256
open Fips180

/-! ### the constants -/

theorem wholeRoot_eq {k n r : Nat} (hk : k ≠ 0) (h1 : r ^ k ≤ n) (h2 : n < (r + 1) ^ k) : wholeRoot k n = r := by
  unfold wholeRoot
  rw [Nat.findGreatest_eq_iff]
  refine ⟨le_trans (Nat.le_self_pow hk r) h1, fun _ => h1, ?_⟩
  intro m hm _ hp
  have : (r + 1) ^ k ≤ m ^ k := Nat.pow_le_pow_left hm k
  omega

theorem nth_filter (p : Nat → Prop) [DecidablePred p] (N : Nat) :
    ((List.range N).filter (fun n => decide (p n))).length = Nat.count p N ∧
      ∀ t, t < ((List.range N).filter (fun n => decide (p n))).length →
        ((List.range N).filter (fun n => decide (p n))).getD t 0 = Nat.nth p t := by
  induction N with
  | zero => simp
  | succ N ih =>
    obtain ⟨h1, h2⟩ := ih
    rw [List.range_succ, List.filter_append, Nat.count_succ]
    by_cases hp : p N
    · have : List.filter (fun n => decide (p n)) [N] = [N] := by simp [hp]
      rw [this, if_pos hp, List.length_append, h1]
      refine ⟨rfl, fun t ht => ?_⟩
      rcases Nat.lt_or_ge t (Nat.count p N) with h | h
      · rw [List.getD_append _ _ _ _ (by omega)]
        exact h2 t (by omega)
      · have ht : t = Nat.count p N := by
          simp at ht
          omega
        rw [List.getD_append_right _ _ _ _ (by omega), h1, ht, Nat.nth_count hp]
        simp
    · have : List.filter (fun n => decide (p n)) [N] = [] := by simp [hp]
      rw [this, if_neg hp, List.append_nil]
      exact ⟨by omega, h2⟩

/-- a test of primality the kernel evaluates quickly -/
def primeTest (n : Nat) : Bool := Nat.ble 2 n && (List.range n).all (fun d => Nat.ble d 1 || !(Nat.beq (n % d) 0))

theorem primeTest_iff (n : Nat) : primeTest n = true ↔ Nat.Prime n := by
  rw [Nat.prime_def_lt]
  simp only [primeTest, Bool.and_eq_true, Nat.ble_eq, List.all_eq_true, List.mem_range, Bool.or_eq_true,
    Bool.not_eq_true']
  constructor
  · rintro ⟨h1, h2⟩
    refine ⟨h1, fun d hd hdn => ?_⟩
    rcases h2 d hd with h | h
    · rcases Nat.eq_zero_or_pos d with h0 | h0
      · subst h0
        have := Nat.eq_zero_of_zero_dvd hdn
        omega
      · omega
    · have : n % d = 0 := Nat.mod_eq_zero_of_dvd hdn
      rw [this] at h
      cases h
  · rintro ⟨h1, h2⟩
    refine ⟨h1, fun d hd => ?_⟩
    by_cases h : d ∣ n
    · left
      rw [h2 d hd h]
    · right
      rw [Bool.eq_false_iff]
      intro hb
      exact h (Nat.dvd_of_mod_eq_zero (Nat.eq_of_beq_eq_true hb))

/-- the first sixty-four primes -/
def primes : List Nat :=
  [2, 3, 5, 7, 11, 13, 17, 19, 23, 29, 31, 37, 41, 43, 47, 53, 59, 61, 67, 71, 73, 79, 83, 89, 97, 101, 103, 107, 109,
   113, 127, 131, 137, 139, 149, 151, 157, 163, 167, 173, 179, 181, 191, 193, 197, 199, 211, 223, 227, 229, 233, 239,
   241, 251, 257, 263, 269, 271, 277, 281, 283, 293, 307, 311]

theorem primes_ok : (List.range 312).filter primeTest = primes := by decide +kernel

theorem nth_prime (t : Nat) (ht : t < 64) : Nat.nth Nat.Prime t = primes.getD t 0 := by
  classical
  have h : (List.range 312).filter (fun n => decide (Nat.Prime n)) = primes := by
    rw [← primes_ok]
    apply List.filter_congr
    intro n _
    rw [Bool.eq_iff_iff, primeTest_iff]
    simp
  have := (nth_filter Nat.Prime 312).2 t
  rw [h] at this
  exact (this ht).symm

theorem rootBits_eq {k p c w : Nat} (hk : k ≠ 0) (hw : w < 2 ^ 32) (h1 : (c * 2 ^ 32 + w) ^ k ≤ p * (2 ^ 32) ^ k)
    (h2 : p * (2 ^ 32) ^ k < (c * 2 ^ 32 + w + 1) ^ k) : (rootBits k p).toNat = w := by
  unfold rootBits
  rw [wholeRoot_eq hk h1 h2, BitVec.toNat_ofNat]
  omega

theorem constants_table : ∀ t : Fin 64, ∃ c : Fin 7, constants.getD t.val 0 < 2 ^ 32 ∧
    (c.val * 2 ^ 32 + constants.getD t.val 0) ^ 3 ≤ primes.getD t.val 0 * (2 ^ 32) ^ 3 ∧
    primes.getD t.val 0 * (2 ^ 32) ^ 3 < (c.val * 2 ^ 32 + constants.getD t.val 0 + 1) ^ 3 := by
  decide +kernel

theorem constants_ok (t : Nat) (ht : t < 64) : (K t).toNat = constants.getD t 0 := by
  obtain ⟨c, h0, h1, h2⟩ := constants_table ⟨t, ht⟩
  unfold K
  rw [nth_prime t ht]
  exact rootBits_eq (by omega) h0 h1 h2

/-- the numbers of eight words -/
def num (v : Eight) : Words :=
  ⟨v.a.toNat, v.b.toNat, v.c.toNat, v.d.toNat, v.e.toNat, v.f.toNat, v.g.toNat, v.h.toNat⟩

theorem start_ok : num H0 = start := by
  unfold num H0 start
  rw [Words.mk.injEq]
  refine ⟨?_, ?_, ?_, ?_, ?_, ?_, ?_, ?_⟩ <;> dsimp only
  · rw [nth_prime _ (by omega)]; exact rootBits_eq (c := 1) (by decide) (by decide +kernel) (by decide +kernel) (by decide +kernel)
  · rw [nth_prime _ (by omega)]; exact rootBits_eq (c := 1) (by decide) (by decide +kernel) (by decide +kernel) (by decide +kernel)
  · rw [nth_prime _ (by omega)]; exact rootBits_eq (c := 2) (by decide) (by decide +kernel) (by decide +kernel) (by decide +kernel)
  · rw [nth_prime _ (by omega)]; exact rootBits_eq (c := 2) (by decide) (by decide +kernel) (by decide +kernel) (by decide +kernel)
  · rw [nth_prime _ (by omega)]; exact rootBits_eq (c := 3) (by decide) (by decide +kernel) (by decide +kernel) (by decide +kernel)
  · rw [nth_prime _ (by omega)]; exact rootBits_eq (c := 3) (by decide) (by decide +kernel) (by decide +kernel) (by decide +kernel)
  · rw [nth_prime _ (by omega)]; exact rootBits_eq (c := 4) (by decide) (by decide +kernel) (by decide +kernel) (by decide +kernel)
  · rw [nth_prime _ (by omega)]; exact rootBits_eq (c := 4) (by decide) (by decide +kernel) (by decide +kernel) (by decide +kernel)

/-! ### the functions of words -/

attribute [local irreducible] wholeRoot K

/-- two to the thirty-second -/
def two32 : Nat := 2 ^ 32

theorem w32_eq (n : Nat) : w32 n = n % two32 := rfl

theorem add_ok (x y : Word) : (x + y).toNat = (x.toNat + y.toNat) % two32 := rfl

theorem sum5 (a b c d e N : Nat) : ((((a + b) % N + c) % N + d) % N + e) % N = (a + b + c + d + e) % N := by
  rw [Nat.mod_add_mod (a + b), Nat.mod_add_mod (a + b + c), Nat.mod_add_mod (a + b + c + d)]

theorem sum4 (a b c d N : Nat) : (((a + b) % N + c) % N + d) % N = (a + b + c + d) % N := by
  rw [Nat.mod_add_mod (a + b), Nat.mod_add_mod (a + b + c)]

theorem sum7 (a b c d e f g N : Nat) :
    (((((a + b) % N + c) % N + d) % N + e) % N + (f + g) % N) % N = (a + b + c + d + e + (f + g)) % N := by
  rw [sum5 a b c d e, Nat.mod_add_mod, Nat.add_mod_mod]

theorem rotr_ok (x : Word) (n : Nat) (h : n < 32) : rotr x.toNat n = (x.rotateRight n).toNat := by
  unfold rotr w32
  rw [BitVec.toNat_rotateRight, Nat.mod_eq_of_lt h]

theorem ch_ok (x y z : Word) : ch x.toNat y.toNat z.toNat = (Ch x y z).toNat := by
  have h : (~~~x).toNat = 4294967295 ^^^ x.toNat := by
    rw [← BitVec.allOnes_xor, BitVec.toNat_xor, BitVec.toNat_allOnes]
  unfold ch Ch
  rw [BitVec.toNat_xor, BitVec.toNat_and, BitVec.toNat_and, h]

theorem maj_ok (x y z : Word) : maj x.toNat y.toNat z.toNat = (Maj x y z).toNat := by
  unfold maj Maj
  simp only [BitVec.toNat_xor, BitVec.toNat_and]

theorem bsig0_ok (x : Word) : bsig0 x.toNat = (Sigma0 x).toNat := by
  unfold bsig0 Sigma0
  simp only [BitVec.toNat_xor, rotr_ok x 2 (by omega), rotr_ok x 13 (by omega), rotr_ok x 22 (by omega)]

theorem bsig1_ok (x : Word) : bsig1 x.toNat = (Sigma1 x).toNat := by
  unfold bsig1 Sigma1
  simp only [BitVec.toNat_xor, rotr_ok x 6 (by omega), rotr_ok x 11 (by omega), rotr_ok x 25 (by omega)]

theorem ssig0_ok (x : Word) : ssig0 x.toNat = (sigma0 x).toNat := by
  unfold ssig0 sigma0
  simp only [BitVec.toNat_xor, rotr_ok x 7 (by omega), rotr_ok x 18 (by omega), BitVec.toNat_ushiftRight]

theorem ssig1_ok (x : Word) : ssig1 x.toNat = (sigma1 x).toNat := by
  unfold ssig1 sigma1
  simp only [BitVec.toNat_xor, rotr_ok x 17 (by omega), rotr_ok x 19 (by omega), BitVec.toNat_ushiftRight]

theorem round_ok (M : Nat → Word) (v : Eight) (t : Nat) (ht : t < 64) :
    round (num v) (constants.getD t 0) (W M t).toNat = num (step M v t) := by
  unfold round step num
  simp only
  rw [← constants_ok t ht, bsig0_ok, bsig1_ok, ch_ok, maj_ok]
  generalize K t = k
  generalize W M t = w
  generalize Sigma1 v.e = s1
  generalize Sigma0 v.a = s0
  generalize Ch v.e v.f v.g = c
  generalize Maj v.a v.b v.c = j
  rw [Words.mk.injEq]
  refine ⟨?_, rfl, rfl, rfl, ?_, rfl, rfl, rfl⟩
  · rw [w32_eq, add_ok (v.h + s1 + c + k + w), add_ok (v.h + s1 + c + k), add_ok (v.h + s1 + c), add_ok (v.h + s1),
      add_ok v.h, add_ok s0, sum7]
  · rw [w32_eq, add_ok v.d, add_ok (v.h + s1 + c + k), add_ok (v.h + s1 + c), add_ok (v.h + s1),
      add_ok v.h, sum5, Nat.add_mod_mod]

/-! ### one block -/

/-- sixteen words of the schedule, from the one at `t` -/
def window (M : Nat → Word) (t : Nat) : List Nat := (List.range 16).map (fun i => (W M (t + i)).toNat)

theorem window_eq (M : Nat → Word) (t : Nat) : window M t =
    [(W M t).toNat, (W M (t + 1)).toNat, (W M (t + 2)).toNat, (W M (t + 3)).toNat, (W M (t + 4)).toNat,
     (W M (t + 5)).toNat, (W M (t + 6)).toNat, (W M (t + 7)).toNat, (W M (t + 8)).toNat, (W M (t + 9)).toNat,
     (W M (t + 10)).toNat, (W M (t + 11)).toNat, (W M (t + 12)).toNat, (W M (t + 13)).toNat, (W M (t + 14)).toNat,
     (W M (t + 15)).toNat] := rfl

theorem next_word (M : Nat → Word) (t : Nat) :
    w32 (ssig1 (W M (t + 14)).toNat + (W M (t + 9)).toNat + ssig0 (W M (t + 1)).toNat + (W M t).toNat) =
      (W M (t + 16)).toNat := by
  have h : W M (t + 16) = sigma1 (W M (t + 14)) + W M (t + 9) + sigma0 (W M (t + 1)) + W M t := by
    rw [W, if_neg (by omega)]
    rfl
  rw [h, ssig0_ok, ssig1_ok, w32_eq, add_ok (sigma1 (W M (t + 14)) + W M (t + 9) + sigma0 (W M (t + 1))),
    add_ok (sigma1 (W M (t + 14)) + W M (t + 9)), add_ok (sigma1 (W M (t + 14))), sum4]

theorem rounds_ok (M : Nat → Word) : ∀ (n t : Nat) (v : Eight), t + n = 64 →
    rounds (constants.drop t) (window M t) (num v) = num ((List.range' t n).foldl (step M) v)
  | 0, t, v, h => by
    have : constants.drop t = [] := List.drop_eq_nil_of_le (by show 64 ≤ t; omega)
    rw [this]
    rfl
  | n + 1, t, v, h => by
    have hl : t < constants.length := by show t < 64; omega
    have hd : constants.drop t = constants.getD t 0 :: constants.drop (t + 1) := by
      rw [List.drop_eq_getElem_cons hl, List.getD_eq_getElem _ _ hl]
    rw [hd, window_eq, rounds]
    rw [List.range'_succ, List.foldl_cons, ← rounds_ok M n (t + 1) (step M v t) (by omega), ← round_ok M v t (by omega)]
    congr 1
    show _ ++ [w32 (ssig1 (W M (t + 14)).toNat + (W M (t + 9)).toNat + ssig0 (W M (t + 1)).toNat + (W M t).toNat)] = _
    rw [next_word, window_eq]
    rfl

theorem compress_ok (H : Eight) (M : Nat → Word) :
    compress (num H) ((List.range 16).map (fun i => (M i).toNat)) = num (block H M) := by
  have hw : (List.range 16).map (fun i => (M i).toNat) = window M 0 := by
    unfold window
    apply List.map_congr_left
    intro i hi
    rw [W, if_pos (by simpa using hi), Nat.zero_add]
  have h := rounds_ok M 64 0 H rfl
  rw [List.drop_zero, ← List.range_eq_range'] at h
  unfold compress block
  simp only
  rw [hw, h]
  unfold num
  rw [Words.mk.injEq]
  refine ⟨?_, ?_, ?_, ?_, ?_, ?_, ?_, ?_⟩ <;> rw [w32_eq, add_ok, Nat.add_comm]

/-! ### bytes and bits -/

theorem bitsOf_length (n x : Nat) : (bitsOf n x).length = n := by simp [bitsOf]

theorem bits_cons (b : Nat) (m : List Nat) : bits (b :: m) = bitsOf 8 b ++ bits m := by simp [bits]

theorem bits_append (m m' : List Nat) : bits (m ++ m') = bits m ++ bits m' := by simp [bits]

theorem bits_length : ∀ m : List Nat, (bits m).length = 8 * m.length
  | [] => rfl
  | b :: m => by
    rw [bits_cons, List.length_append, bitsOf_length, bits_length m, List.length_cons]
    omega

theorem bitsOf_getD (n x i : Nat) (h : i < n) : (bitsOf n x).getD i false = x.testBit (n - 1 - i) := by
  rw [List.getD_eq_getElem _ _ (by rw [bitsOf_length]; exact h)]
  simp [bitsOf]

theorem bits_getD : ∀ (m : List Nat) (i j : Nat), j < 8 → i < m.length →
    (bits m).getD (8 * i + j) false = (m.getD i 0).testBit (7 - j)
  | [], i, j, _, hi => by simp at hi
  | b :: m, 0, j, hj, _ => by
    rw [bits_cons, List.getD_append _ _ _ _ (by rw [bitsOf_length]; omega), Nat.mul_zero, Nat.zero_add,
      bitsOf_getD _ _ _ hj]
    rfl
  | b :: m, i + 1, j, hj, hi => by
    rw [bits_cons, List.getD_append_right _ _ _ _ (by rw [bitsOf_length]; omega), bitsOf_length]
    have : 8 * (i + 1) + j - 8 = 8 * i + j := by omega
    rw [this, bits_getD m i j hj (by simpa using hi)]
    rfl

theorem bitsOf_split (n x : Nat) : bitsOf (n + 8) x = bitsOf n (x / 256) ++ bitsOf 8 (x % 256) := by
  unfold bitsOf
  rw [List.range_add, List.map_append, List.map_map]
  congr 1
  · apply List.map_congr_left
    intro i hi
    have hi := List.mem_range.mp hi
    have : x / 256 = x / 2 ^ 8 := rfl
    rw [this, Nat.testBit_div_two_pow]
    congr 1
    omega
  · apply List.map_congr_left
    intro i hi
    have hi := List.mem_range.mp hi
    have : x % 256 = x % 2 ^ 8 := rfl
    show x.testBit _ = _
    rw [this, Nat.testBit_mod_two_pow]
    have h2 : n + 8 - 1 - (n + i) = 8 - 1 - i := by omega
    have h3 : 8 - 1 - i < 8 := by omega
    simp only [h2, h3, decide_true, Bool.true_and]

theorem bytesOf_bits : ∀ n x : Nat, bits (bytesOf n x) = bitsOf (8 * n) x
  | 0, _ => rfl
  | n + 1, x => by
    rw [bytesOf, bits_append, bytesOf_bits n, bits_cons, Nat.mul_add, Nat.mul_one, bitsOf_split (8 * n) x]
    simp [bits]

theorem zeros_bits : ∀ n : Nat, bits (List.replicate n 0) = List.replicate (8 * n) false
  | 0 => rfl
  | n + 1 => by
    rw [List.replicate_succ, bits_cons, zeros_bits n, Nat.mul_add, Nat.add_comm, ← List.replicate_append_replicate]
    rfl

theorem pad_ok (m : List Nat) : bits (pad m) = padded (bits m) := by
  unfold pad padded
  rw [bits_append, bits_append, bits_append, bytesOf_bits, zeros_bits, bits_length]
  have h1 : bits [128] = [true] ++ List.replicate 7 false := rfl
  rw [h1, List.append_assoc (bits m), List.append_assoc [true], List.replicate_append_replicate,
    ← List.append_assoc (bits m)]
  congr 3
  omega

theorem bytesOf_length : ∀ n x : Nat, (bytesOf n x).length = n
  | 0, _ => rfl
  | n + 1, x => by rw [bytesOf, List.length_append, bytesOf_length n]; rfl

theorem bytesOf_lt : ∀ n x b : Nat, b ∈ bytesOf n x → b < 256
  | 0, _, _, h => by simp [bytesOf] at h
  | n + 1, x, b, h => by
    rw [bytesOf, List.mem_append, List.mem_singleton] at h
    rcases h with h | h
    · exact bytesOf_lt n _ b h
    · omega

theorem pad_lt (m : List Nat) (hm : ∀ b ∈ m, b < 256) : ∀ b ∈ pad m, b < 256 := by
  intro b hb
  unfold pad at hb
  simp only [List.mem_append, List.mem_replicate, List.mem_singleton] at hb
  rcases hb with ((hb | hb) | hb) | hb
  · exact hm b hb
  · omega
  · omega
  · exact bytesOf_lt _ _ b hb

theorem pad_length (m : List Nat) : ∃ q, (pad m).length = 64 * q ∧ q ≤ m.length + 1 := by
  refine ⟨(pad m).length / 64, ?_⟩
  unfold pad
  simp only [List.length_append, List.length_replicate, bytesOf_length, List.length_cons, List.length_nil]
  omega

/-! ### words -/

theorem fold_byte (x n : Nat) (hx : x < 256) :
    (List.range 8).foldl (fun n j => 2 * n + (x.testBit (7 - j)).toNat) n = 256 * n + x := by
  have h : ∀ x : Fin 256, (List.range 8).foldl (fun n j => 2 * n + (x.val.testBit (7 - j)).toNat) 0 = x.val := by
    decide +kernel
  have h := h ⟨x, hx⟩
  simp only [List.range_succ, List.range_zero, List.nil_append, List.cons_append, List.foldl_cons, List.foldl_nil] at h ⊢
  omega

theorem toWords_getD : ∀ (m : List Nat) (i : Nat), 4 * i + 3 < m.length →
    (toWords m).getD i 0 = ((m.getD (4 * i) 0 * 256 + m.getD (4 * i + 1) 0) * 256 + m.getD (4 * i + 2) 0) * 256 +
      m.getD (4 * i + 3) 0
  | [], _, h => by simp at h
  | [_], _, h => by simp at h
  | [_, _], _, h => by simp at h
  | [_, _, _], _, h => by simp at h
  | x :: y :: z :: u :: l, 0, _ => rfl
  | x :: y :: z :: u :: l, i + 1, h => by
    have := toWords_getD l i (by simp at h; omega)
    rw [toWords, List.getD_cons_succ, this]
    rfl

theorem toWords_length : ∀ (q : Nat) (m : List Nat), m.length = 4 * q → (toWords m).length = q
  | 0, m, h => by
    have : m = [] := List.length_eq_zero_iff.mp h
    rw [this]; rfl
  | q + 1, x :: y :: z :: u :: l, h => by
    rw [toWords, List.length_cons, toWords_length q l (by simp at h; omega)]
  | q + 1, [], h => by simp at h
  | q + 1, [_], h => by simp at h; omega
  | q + 1, [_, _], h => by simp at h; omega
  | q + 1, [_, _, _], h => by simp at h; omega

theorem wordAt_ok (m : List Nat) (hm : ∀ b ∈ m, b < 256) (i : Nat) (hi : 4 * i + 3 < m.length) :
    (toWords m).getD i 0 = (wordAt (bits m) i).toNat := by
  have hlt : ∀ k, m.getD k 0 < 256 := by
    intro k
    rcases Nat.lt_or_ge k m.length with h | h
    · rw [List.getD_eq_getElem _ _ h]
      exact hm _ (List.getElem_mem h)
    · rw [List.getD_eq_default _ _ h]
      omega
  have hf : ∀ (k n : Nat), k < 4 →
      ((List.range 8).map (fun j => 8 * k + j)).foldl
        (fun n j => 2 * n + ((bits m).getD (32 * i + j) false).toNat) n = 256 * n + m.getD (4 * i + k) 0 := by
    intro k n hk
    rw [← fold_byte _ n (hlt (4 * i + k)), List.foldl_map]
    apply List.foldl_ext
    intro n j hj
    have hj := List.mem_range.mp hj
    have : 32 * i + (8 * k + j) = 8 * (4 * i + k) + j := by omega
    rw [this, bits_getD m _ j hj (by omega)]
  have hr : List.range 32 = (List.range 8).map (fun j => 8 * 0 + j) ++ (List.range 8).map (fun j => 8 * 1 + j) ++
      (List.range 8).map (fun j => 8 * 2 + j) ++ (List.range 8).map (fun j => 8 * 3 + j) := by decide
  unfold wordAt
  rw [hr, List.foldl_append, List.foldl_append, List.foldl_append, hf 0 _ (by omega), hf 1 _ (by omega),
    hf 2 _ (by omega), hf 3 _ (by omega), BitVec.toNat_ofNat, toWords_getD m i hi]
  have h0 := hlt (4 * i)
  have h1 := hlt (4 * i + 1)
  have h2 := hlt (4 * i + 2)
  have h3 := hlt (4 * i + 3)
  rw [show 4 * i + 0 = 4 * i from rfl]
  omega

/-! ### all blocks -/

theorem blocks_ok (F : Nat → Word) : ∀ (q f i : Nat) (l : List Nat) (H : Eight), q ≤ f → l.length = 16 * q →
    (∀ j, j < 16 * q → l.getD j 0 = (F (16 * i + j)).toNat) →
    blocks f l (num H) =
      num ((List.range' i q).foldl (fun H i => block H (fun t => F (16 * i + t))) H)
  | 0, f, i, l, H, _, hl, _ => by
    have : l = [] := List.length_eq_zero_iff.mp hl
    subst this
    cases f with
    | zero => rfl
    | succ f => rw [blocks, if_pos rfl]; rfl
  | q + 1, 0, _, _, _, h, _, _ => by omega
  | q + 1, f + 1, i, l, H, hq, hl, hF => by
    have hne : l ≠ [] := by
      intro h
      rw [h] at hl
      simp at hl
    have ht : l.take 16 = (List.range 16).map (fun t => (F (16 * i + t)).toNat) := by
      apply List.ext_getElem
      · simp; omega
      · intro j h1 h2
        have hj : j < 16 := by simpa using h2
        rw [List.getElem_take, List.getElem_map, List.getElem_range, ← hF j (by omega),
          List.getD_eq_getElem _ _ (by omega)]
    rw [blocks, if_neg hne, ht, compress_ok, List.range'_succ, List.foldl_cons]
    apply blocks_ok F q f (i + 1) (l.drop 16) _ (by omega) (by rw [List.length_drop, hl]; omega)
    intro j hj
    have := hF (16 + j) (by omega)
    rw [List.getD_eq_getElem _ _ (by omega)] at this
    rw [List.getD_eq_getElem _ _ (by rw [List.length_drop]; omega), List.getElem_drop, this]
    congr 2
    omega

end Sha256
end Verif
