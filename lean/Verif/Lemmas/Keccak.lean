import Mathlib.Data.List.GetD
import Mathlib.Data.List.Basic
import Mathlib.Tactic.NormNum
import Verif.Model.Keccak
import Verif.Spec.Keccak
/-
The number that the model keeps as a state of Keccak, and the array of bits of the standard.
-/
namespace Verif.Keccak

theorem lane_bit (s i z : Nat) : (lane s i).testBit z = (decide (z < 64) && s.testBit (64 * i + z)) := by
  unfold lane
  rw [show 18446744073709551616 = 2 ^ 64 by norm_num, Nat.testBit_mod_two_pow, Nat.testBit_shiftRight]

theorem lane_bit' (s i : Nat) {z : Nat} (hz : z < 64) : (lane s i).testBit z = s.testBit (64 * i + z) := by
  rw [lane_bit, decide_eq_true hz, Bool.true_and]

theorem pack_high (f : Nat → Nat) (hf : ∀ k, f k < 2 ^ 64) (n : Nat) : ∀ j, 64 * n ≤ j → (pack f n).testBit j = false := by
  induction n with
  | zero => intro j _; simp [pack]
  | succ n ih =>
    intro j hj
    rw [pack, Nat.testBit_or, ih j (by omega), Nat.testBit_shiftLeft, Bool.false_or]
    rw [Nat.testBit_lt_two_pow (lt_of_lt_of_le (hf n) (Nat.pow_le_pow_right (by omega) (by omega)))]
    simp

theorem pack_bit (f : Nat → Nat) (hf : ∀ k, f k < 2 ^ 64) (n : Nat) : ∀ i z, i < n → z < 64 →
    (pack f n).testBit (64 * i + z) = (f i).testBit z := by
  induction n with
  | zero => intro i z h; omega
  | succ n ih =>
    intro i z hi hz
    rw [pack, Nat.testBit_or, Nat.testBit_shiftLeft]
    by_cases e : i = n
    · subst e
      rw [pack_high f hf i _ (by omega)]
      simp
    · rw [ih i z (by omega) hz]
      have : decide (64 * i + z ≥ 64 * n) = false := by simp; omega
      rw [this]
      simp

theorem lane_lt (s i : Nat) : lane s i < 2 ^ 64 := by
  unfold lane
  exact Nat.mod_lt _ (by norm_num)

theorem rotl_lt (x n : Nat) : rotl x n < 2 ^ 64 := by
  unfold rotl
  exact Nat.mod_lt _ (by norm_num)

theorem rotl_bit {x n z : Nat} (hx : x < 2 ^ 64) (hn : n < 64) (hz : z < 64) :
    (rotl x n).testBit z = x.testBit ((z + 64 - n) % 64) := by
  unfold rotl
  rw [show 18446744073709551616 = 2 ^ 64 by norm_num, Nat.testBit_mod_two_pow, Nat.testBit_or, Nat.testBit_shiftLeft,
    Nat.testBit_shiftRight, decide_eq_true hz, Bool.true_and]
  by_cases h : n ≤ z
  · rw [show (z + 64 - n) % 64 = z - n by omega, decide_eq_true (show z ≥ n from h),
      Nat.testBit_lt_two_pow (i := 64 - n + z) (lt_of_lt_of_le hx (Nat.pow_le_pow_right (by omega) (by omega)))]
    simp
  · rw [show (z + 64 - n) % 64 = 64 - n + z by omega, decide_eq_false (show ¬ z ≥ n by omega)]
    simp

/-- The number has the bits of the array: 3.1.2 of the standard. -/
def Agrees (s : Nat) (A : Fips202.StateArray) : Prop :=
  ∀ x y z, x < 5 → y < 5 → z < 64 → s.testBit (64 * (x + 5 * y) + z) = A x y z

theorem xor_lt64 {a b : Nat} (ha : a < 2 ^ 64) (hb : b < 2 ^ 64) : a ^^^ b < 2 ^ 64 := Nat.xor_lt_two_pow ha hb

theorem parity_bit {s : Nat} {A : Fips202.StateArray} (h : Agrees s A) {x z : Nat} (hx : x < 5) (hz : z < 64) :
    (parity s).testBit (64 * x + z) = Fips202.column A x z := by
  unfold parity
  rw [pack_bit _ (fun k => xor_lt64 (xor_lt64 (xor_lt64 (xor_lt64 (lane_lt _ _) (lane_lt _ _)) (lane_lt _ _))
    (lane_lt _ _)) (lane_lt _ _)) 5 x z hx hz]
  simp only [Nat.testBit_xor, lane_bit' _ _ hz]
  unfold Fips202.column
  rw [← h x 0 z hx (by omega) hz, ← h x 1 z hx (by omega) hz, ← h x 2 z hx (by omega) hz, ← h x 3 z hx (by omega) hz,
    ← h x 4 z hx (by omega) hz]
  rfl

theorem theta_ok {s : Nat} {A : Fips202.StateArray} (h : Agrees s A) :
    Agrees (theta s (thetaD (parity s))) (Fips202.theta A) := by
  intro x y z hx hy hz
  unfold theta
  rw [pack_bit _ (fun k => xor_lt64 (lane_lt _ _) (lane_lt _ _)) 25 _ z (by omega) hz, Nat.testBit_xor,
    lane_bit' _ _ hz, lane_bit' _ _ hz, h x y z hx hy hz, show (x + 5 * y) % 5 = x by omega]
  unfold thetaD
  rw [pack_bit _ (fun k => xor_lt64 (lane_lt _ _) (rotl_lt _ _)) 5 x z hx hz, Nat.testBit_xor, lane_bit' _ _ hz,
    rotl_bit (lane_lt _ _) (by omega) hz, lane_bit' _ _ (Nat.mod_lt _ (by omega)),
    parity_bit h (Nat.mod_lt _ (by omega)) hz, parity_bit h (Nat.mod_lt _ (by omega)) (Nat.mod_lt _ (by omega))]
  rfl

theorem offsets_ok : ∀ x < 5, ∀ y < 5, rhoOffsets.getD (x + 5 * y) 0 = Fips202.rhoOffset x y % 64 := by decide

theorem rhoPi_ok {s : Nat} {A : Fips202.StateArray} (h : Agrees s A) :
    Agrees (rhoPi s) (Fips202.pi (Fips202.rho A)) := by
  intro x y z hx hy hz
  unfold rhoPi
  rw [pack_bit _ (fun k => rotl_lt _ _) 25 _ z (by omega) hz]
  rw [show (x + 5 * y) % 5 = x by omega, show (x + 5 * y) / 5 = y by omega,
    offsets_ok _ (Nat.mod_lt _ (by omega)) _ hx, rotl_bit (lane_lt _ _) (Nat.mod_lt _ (by omega)) hz,
    lane_bit' _ _ (Nat.mod_lt _ (by omega)), h _ _ _ (Nat.mod_lt _ (by omega)) hx (Nat.mod_lt _ (by omega))]
  rfl

theorem chi_ok {s : Nat} {A : Fips202.StateArray} (h : Agrees s A) : Agrees (chi s) (Fips202.chi A) := by
  intro x y z hx hy hz
  unfold chi
  rw [pack_bit _ (fun k => xor_lt64 (lane_lt _ _) (lt_of_le_of_lt Nat.and_le_right (lane_lt _ _))) 25 _ z (by omega) hz]
  rw [show (x + 5 * y) % 5 = x by omega, show (x + 5 * y) / 5 = y by omega, Nat.testBit_xor, Nat.testBit_and,
    Nat.testBit_xor, lane_bit' _ _ hz, lane_bit' _ _ hz, lane_bit' _ _ hz, h x y z hx hy hz,
    show 5 * y + (x + 1) % 5 = (x + 1) % 5 + 5 * y by omega, show 5 * y + (x + 2) % 5 = (x + 2) % 5 + 5 * y by omega,
    h _ y z (Nat.mod_lt _ (by omega)) hy hz, h _ y z (Nat.mod_lt _ (by omega)) hy hz]
  have : (18446744073709551615).testBit z = true := by
    rw [show 18446744073709551615 = 2 ^ 64 - 1 by norm_num, Nat.testBit_two_pow_sub_one]
    simpa using hz
  rw [this, Bool.true_xor]
  unfold Fips202.chi
  rw [Bool.xor_true]

theorem constants_ok : ∀ ir < 24, ∀ z < 64, (roundConstants.getD ir 0).testBit z = Fips202.roundBit ir z := by
  decide +kernel

theorem constants_lt : ∀ ir < 24, roundConstants.getD ir 0 < 2 ^ 64 := by decide +kernel

theorem iota_ok {s : Nat} {A : Fips202.StateArray} (h : Agrees s A) {ir : Nat} (hr : ir < 24) :
    Agrees (s ^^^ roundConstants.getD ir 0) (Fips202.iota ir A) := by
  intro x y z hx hy hz
  rw [Nat.testBit_xor, h x y z hx hy hz]
  unfold Fips202.iota
  split
  · rename_i e
    rw [e.1, e.2, show 64 * (0 + 5 * 0) + z = z by omega, constants_ok ir hr z hz]
  · rename_i e
    rw [Nat.testBit_lt_two_pow (lt_of_lt_of_le (constants_lt ir hr) (Nat.pow_le_pow_right (by omega)
      (show 64 ≤ 64 * (x + 5 * y) + z by omega)))]
    simp

theorem rounds_ok (n : Nat) : ∀ k s A, k + n = 24 → Agrees s A →
    Agrees (permute (roundConstants.drop k) s) ((List.range' k n).foldl Fips202.rnd A) := by
  induction n with
  | zero =>
    intro k s A hk h
    rw [List.drop_eq_nil_of_le (by rw [show roundConstants.length = 24 from rfl]; omega)]
    exact h
  | succ n ih =>
    intro k s A hk h
    have hlt : k < roundConstants.length := by rw [show roundConstants.length = 24 from rfl]; omega
    rw [List.drop_eq_getElem_cons hlt, permute, List.range'_succ, List.foldl_cons]
    apply ih _ _ _ (by omega)
    have := iota_ok (chi_ok (rhoPi_ok (theta_ok h))) (ir := k) (by omega)
    rwa [List.getD_eq_getElem _ _ hlt] at this

theorem permute_ok {s : Nat} {A : Fips202.StateArray} (h : Agrees s A) :
    Agrees (permute roundConstants s) (Fips202.keccakF A) := by
  have := rounds_ok 24 0 s A rfl h
  rwa [List.drop_zero, ← List.range_eq_range'] at this

theorem leBytes_bit (l : List Nat) (hl : ∀ b ∈ l, b < 256) : ∀ j, (leBytes l).testBit j = (l.getD (j / 8) 0).testBit (j % 8) := by
  induction l with
  | nil => intro j; simp [leBytes]
  | cons b bs ih =>
    intro j
    have hb : b < 2 ^ 8 := hl b (by simp)
    rw [leBytes, show b + 256 * leBytes bs = 2 ^ 8 * leBytes bs + b by norm_num; omega,
      Nat.testBit_two_pow_mul_add _ hb]
    by_cases h : j < 8
    · rw [if_pos h, show j / 8 = 0 by omega, show j % 8 = j by omega]
      rfl
    · rw [if_neg h, ih (fun x hx => hl x (by simp [hx])), show j / 8 = (j - 8) / 8 + 1 by omega,
        show (j - 8) % 8 = j % 8 by omega]
      rfl

theorem bits_length (m : List Nat) : (Fips202.bits m).length = 8 * m.length := by
  induction m with
  | nil => rfl
  | cons b bs ih =>
    unfold Fips202.bits at ih ⊢
    rw [List.flatMap_cons, List.length_append, ih, List.length_cons]
    simp
    omega

theorem bits_cons (b : Nat) (bs : List Nat) :
    Fips202.bits (b :: bs) = (List.range 8).map b.testBit ++ Fips202.bits bs := rfl

theorem bits_append (a b : List Nat) : Fips202.bits (a ++ b) = Fips202.bits a ++ Fips202.bits b :=
  List.flatMap_append

theorem bits_getD (m : List Nat) : ∀ j, (Fips202.bits m).getD j false = (m.getD (j / 8) 0).testBit (j % 8) := by
  induction m with
  | nil => intro j; simp [Fips202.bits]
  | cons b bs ih =>
    intro j
    rw [bits_cons]
    by_cases h : j < 8
    · rw [List.getD_append _ _ _ _ (by simpa using h), show j / 8 = 0 by omega, show j % 8 = j by omega,
        List.getD_eq_getElem _ _ (by simpa using h)]
      simp
    · rw [List.getD_append_right _ _ _ _ (by simpa using h), show j / 8 = (j - 8) / 8 + 1 by omega]
      simp only [List.length_map, List.length_range, List.getD_cons_succ]
      rw [ih, show (j - 8) % 8 = j % 8 by omega]

theorem bits_zeros (n : Nat) : Fips202.bits (List.replicate n 0) = List.replicate (8 * n) false := by
  induction n with
  | zero => rfl
  | succ n ih =>
    rw [List.replicate_succ, bits_cons, ih, show 8 * (n + 1) = 8 + 8 * n by omega, ← List.replicate_append_replicate]
    rfl

/-- The padding in bytes is the padding in bits. -/
theorem padded_ok (m : List Nat) :
    Fips202.bits (padded m) = Fips202.bits m ++ Fips202.pad (Fips202.bits m).length := by
  unfold padded Fips202.pad
  simp only
  split
  · rename_i h
    rw [bits_append, bits_length, show (1088 - (8 * m.length + 2) % 1088) % 1088 = 6 by omega]
    rfl
  · rename_i h
    rw [bits_append, bits_append, bits_append, bits_zeros, bits_length,
      show (1088 - (8 * m.length + 2) % 1088) % 1088 = 7 + (8 * (136 - m.length % 136 - 2) + 7) by omega,
      ← List.replicate_append_replicate, ← List.replicate_append_replicate]
    simp only [List.append_assoc]
    rfl

theorem padded_length (m : List Nat) : 136 ∣ (padded m).length := by
  unfold padded
  simp only
  split <;> simp only [List.length_append, List.length_replicate, List.length_cons, List.length_nil] <;> omega

theorem absorb_ok (p : List Nat) (hp : ∀ b ∈ p, b < 256) (n : Nat) : ∀ i s, 136 * (i + n) ≤ p.length →
    Agrees s (Fips202.absorbed (Fips202.bits p) i) →
    Agrees (absorb n (p.drop (136 * i)) s) (Fips202.absorbed (Fips202.bits p) (i + n)) := by
  induction n with
  | zero => intro i s _ h; exact h
  | succ n ih =>
    intro i s hl h
    rw [absorb, List.drop_drop, show 136 * i + 136 = 136 * (i + 1) by omega, show i + (n + 1) = i + 1 + n by omega]
    apply ih _ _ (by omega)
    apply permute_ok
    intro x y z hx hy hz
    rw [Nat.testBit_xor, h x y z hx hy hz, leBytes_bit _ (fun b hb => hp b (List.mem_of_mem_drop (List.mem_of_mem_take hb)))]
    dsimp only
    rw [bits_getD]
    congr 1
    have e : 64 * (5 * y + x) + z = 64 * (x + 5 * y) + z := by omega
    rw [e]
    generalize hk : 64 * (x + 5 * y) + z = k
    by_cases hlt : k < 1088
    · rw [decide_eq_true hlt, Bool.true_and, show (1088 * i + k) / 8 = 136 * i + k / 8 by omega,
        show (1088 * i + k) % 8 = k % 8 by omega]
      congr 1
      rw [List.getD_eq_getElem?_getD, List.getD_eq_getElem?_getD, List.getElem?_take_of_lt (by omega),
        List.getElem?_drop]
    · rw [decide_eq_false hlt, Bool.false_and, List.getD_eq_default _ _ (by
        rw [List.length_take]; omega)]
      simp

theorem toBytes_bits (n : Nat) : ∀ s, Fips202.bits (toBytes n s) = (List.range (8 * n)).map s.testBit := by
  induction n with
  | zero => intro s; rfl
  | succ n ih =>
    intro s
    rw [toBytes, bits_cons, ih, show 8 * (n + 1) = 8 + 8 * n by omega, List.range_add, List.map_append]
    congr 1
    · apply List.map_congr_left
      intro k hk
      rw [show s % 256 = s % 2 ^ 8 by norm_num, Nat.testBit_mod_two_pow]
      simp at hk
      simp [hk]
    · rw [List.map_map]
      apply List.map_congr_left
      intro k _
      rw [Function.comp_apply, show s / 256 = s / 2 ^ 8 by norm_num, Nat.testBit_div_two_pow, Nat.add_comm]

end Verif.Keccak
