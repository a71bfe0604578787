import Verif.Model.Handlers
import Verif.Spec.Events
import Verif.Lemmas.VMap
/-
Facts about credentials and address comparison.
-/
namespace Verif

theorem hexEncode_length (bs : List Nat) : (hexEncode bs).length = 2 * bs.length := by
  induction bs with
  | nil => rfl
  | cons b bs ih => simp [hexEncode, ih]; omega

theorem hexEncode_append (a b : List Nat) : hexEncode (a ++ b) = hexEncode a ++ hexEncode b := by
  induction a with
  | nil => rfl
  | cons x a ih => simp [hexEncode, ih]

theorem hexDigit_eq_zero {d} : hexDigit d = 48 ↔ d = 0 := by
  unfold hexDigit; split <;> omega
theorem hexDigit_eq_one {d} : hexDigit d = 49 ↔ d = 1 := by
  unfold hexDigit; split <;> omega
theorem hexDigit_eq_two {d} : hexDigit d = 50 ↔ d = 2 := by
  unfold hexDigit; split <;> omega

theorem byte_of {b x y : Nat} (h1 : b / 16 = x) (h2 : b % 16 = y) : b = 16 * x + y := by omega

/-- a run of `2*n` zero digits comes from `n` zero bytes -/
theorem hexEncode_zeros {n : Nat} {bs : List Nat}
    (h : (List.replicate (2 * n) 48).isPrefixOf (hexEncode bs)) :
    ∃ rest, bs = List.replicate n 0 ++ rest := by
  induction n generalizing bs with
  | zero => exact ⟨bs, by simp⟩
  | succ n ih =>
    have e : 2 * (n + 1) = (2 * n + 1) + 1 := by omega
    rw [e, List.replicate_succ, List.replicate_succ] at h
    cases bs with
    | nil => simp [hexEncode] at h
    | cons b bs =>
      simp only [hexEncode, List.isPrefixOf_cons_cons, Bool.and_eq_true, beq_iff_eq] at h
      obtain ⟨h1, h2, h3⟩ := h
      have e1 := hexDigit_eq_zero.mp h1.symm
      have e2 := hexDigit_eq_zero.mp h2.symm
      obtain ⟨rest, hr⟩ := ih h3
      refine ⟨rest, ?_⟩
      rw [List.replicate_succ, List.cons_append, ← hr]
      congr 1
      have := byte_of e1 e2
      omega

theorem eth1Prefix_eq : eth1Prefix = 48 :: 49 :: List.replicate (2 * 11) 48 := by decide
theorem electraPrefix_eq : electraPrefix = 48 :: 50 :: List.replicate (2 * 11) 48 := by decide

theorem prefix_bytes {d : Nat} {bs : List Nat} {k}
    (hd : ∀ x, hexDigit x = d ↔ x = k)
    (h : (48 :: d :: List.replicate (2 * 11) 48).isPrefixOf (hexEncode bs)) :
    ∃ rest, bs = k :: (List.replicate 11 0 ++ rest) := by
  cases bs with
  | nil => simp [hexEncode] at h
  | cons b bs =>
    simp only [hexEncode, List.isPrefixOf_cons_cons, Bool.and_eq_true, beq_iff_eq] at h
    obtain ⟨h1, h2, h3⟩ := h
    have e1 := hexDigit_eq_zero.mp h1.symm
    have e2 := (hd _).mp h2.symm
    obtain ⟨rest, hr⟩ := hexEncode_zeros h3
    refine ⟨rest, ?_⟩
    rw [hr]
    congr 1
    have := byte_of e1 e2
    omega

theorem drop24 (k : Nat) (rest : List Nat) :
    (hexEncode (k :: (List.replicate 11 0 ++ rest))).drop 24 = hexEncode rest := by
  simp only [hexEncode, hexEncode_append]
  have : (hexEncode (List.replicate 11 0)).length = 22 := by decide
  rw [show (24 : Nat) = 22 + 1 + 1 from rfl, List.drop_succ_cons, List.drop_succ_cons]
  rw [List.drop_append_of_le_length (by omega), ← this, List.drop_length]
  rfl

/-- `GetCompatibleAddressByte` accepts exactly the credentials with an address. -/
theorem compatAddressByte_iff (creds : List Nat) (w : Str) :
    compatAddressByte creds = some w ↔ HasAddress creds w := by
  unfold compatAddressByte compatAddress HasAddress
  constructor
  · intro h
    split at h
    · simp at h
    · rename_i hl
      split at h
      · rename_i hp
        simp only [Option.some.injEq] at h
        rw [not_not, hexEncode_length] at hl
        rw [Bool.or_eq_true] at hp
        unfold hasPrefix at hp
        rw [eth1Prefix_eq, electraPrefix_eq] at hp
        rcases hp with hp | hp
        · obtain ⟨rest, hr⟩ := prefix_bytes (fun x => hexDigit_eq_one) hp
          refine ⟨1, rest, Or.inl rfl, ?_, hr, ?_⟩
          · rw [hr] at hl; simp at hl; omega
          · rw [← h, hr, drop24]
        · obtain ⟨rest, hr⟩ := prefix_bytes (fun x => hexDigit_eq_two) hp
          refine ⟨2, rest, Or.inr rfl, ?_, hr, ?_⟩
          · rw [hr] at hl; simp at hl; omega
          · rw [← h, hr, drop24]
      · simp at h
  · rintro ⟨p, addr, hp, hl, hc, hw⟩
    subst hc
    rw [if_neg]
    · rw [if_pos, hw, drop24]
      unfold hasPrefix
      rw [eth1Prefix_eq, electraPrefix_eq]
      rw [Bool.or_eq_true]
      rcases hp with hp | hp
      · left
        subst hp
        simp [hexEncode]
        decide
      · right
        subst hp
        simp [hexEncode]
        decide
    · rw [hexEncode_length]; simp [hl]

theorem equals_true {a b : Str} (h : equals a b = .ok true) : SameAddr a b := by
  unfold equals at h
  split at h
  · simp at h
  · rename_i hl
    simp only [Except.ok.injEq, decide_eq_true_eq] at h
    exact ⟨not_not.mp hl, h⟩

theorem equals_false {a b : Str} (h : equals a b = .ok false) : ¬ SameAddr a b := by
  unfold equals at h
  split at h
  · simp at h
  · simp only [Except.ok.injEq, decide_eq_false_iff_not] at h
    exact fun hs => h hs.2

theorem equals_of_length {a b : Str} (h : a.length = b.length) :
    equals a b = .ok (decide (lower a = lower b)) := by
  unfold equals; simp [h]

theorem canSubscribe_iff (st : BStatus) : canSubscribe st = true ↔ Acceptable st := by
  unfold Acceptable; cases st <;> decide

end Verif
