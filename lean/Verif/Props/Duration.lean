import Verif.Model.Duration
import Verif.Spec.Duration
import Verif.Lemmas.JsonGrammar
/-
C117: the durations the status shows.
-/
namespace Verif
open JsonText

namespace Duration

theorem words_ne (t : Str) : words t ≠ [] := by
  cases t with
  | nil => simp [words]
  | cons c t => unfold words; split <;> simp

theorem words_cons {c : Nat} (hc : c ≠ 32) (t : Str) : words (c :: t) = (c :: (words t).headD []) :: (words t).tail := by
  rw [words, if_neg hc]

theorem words_token {w : Str} (h : 32 ∉ w) (t : Str) : words (w ++ 32 :: t) = w :: words t := by
  induction w with
  | nil => simp [words]
  | cons c w ih =>
    have hc : c ≠ 32 := by rintro rfl; simp at h
    have ih := ih (by intro hh; exact h (by simp [hh]))
    rw [List.cons_append, words_cons hc, ih]
    rfl

theorem words_last {w : Str} (h : 32 ∉ w) : words w = [w] := by
  induction w with
  | nil => simp [words]
  | cons c w ih =>
    have hc : c ≠ 32 := by rintro rfl; simp at h
    have ih := ih (by intro hh; exact h (by simp [hh]))
    rw [words_cons hc, ih]
    rfl

/-- the text of a list of words, a space behind each -/
def spaced (l : List Str) : Str := l.flatMap (· ++ [32])

def Word (w : Str) : Prop := w ≠ [] ∧ 32 ∉ w

/-- without the last space it is the text of these words -/
theorem spaced_text {l : List Str} (hl : ∀ w ∈ l, Word w) (hn : l ≠ []) :
    ∃ t c, spaced l = t ++ [c, 32] ∧ c ≠ 32 ∧ words (t ++ [c]) = l := by
  induction l with
  | nil => exact absurd rfl hn
  | cons w l ih =>
    obtain ⟨h1, h2⟩ := hl w (by simp)
    by_cases hl0 : l = []
    · subst hl0
      obtain ⟨t, c, rfl⟩ := List.eq_nil_or_concat w |>.resolve_left h1
      refine ⟨t, c, by simp [spaced], by rintro rfl; simp at h2, ?_⟩
      have := words_last h2
      simpa using this
    · obtain ⟨t, c, e, hc, hw⟩ := ih (fun w hw => hl w (by simp [hw])) hl0
      refine ⟨w ++ 32 :: t, c, ?_, hc, ?_⟩
      · unfold spaced at e ⊢
        rw [List.flatMap_cons, e]; simp
      · rw [List.append_assoc, List.cons_append, words_token h2, hw]

theorem trim_last {t : Str} {c : Nat} (hc : c ≠ 32) (h : (t ++ [c]).head? ≠ some 32) :
    trimSpace (t ++ [c, 32]) = t ++ [c] := by
  have h0 : (t ++ [c, 32]).dropWhile (· == 32) = t ++ [c, 32] := by
    cases t with
    | nil => simp [hc]
    | cons a t =>
      have : a ≠ 32 := by rintro rfl; simp at h
      simp [this]
  unfold trimSpace
  rw [h0]
  simp [hc]

/-- the units of the library are the units -/
def UnitOK (u : Int × Str × Str) : Prop :=
  0 < u.1 ∧ one.lookup u.2.1 = some u.1.toNat ∧ many.lookup u.2.2 = some u.1.toNat ∧ Word u.2.1 ∧ Word u.2.2

theorem unitsOK : ∀ u ∈ durUnits, UnitOK u := by
  unfold UnitOK Word
  decide

theorem number_word (n : Nat) : Word (natText n) := by
  obtain ⟨⟨h1, h2⟩, _⟩ := digits_natText n
  exact ⟨h1, fun h => by have := h2 _ h; omega⟩

theorem sum_cons {n k m : Nat} {u : Str} {l : List Str} (hu : (if n = 1 then one else many).lookup u = some k) (hl : sum l = some m)
    (hm : m < k) : sum (natText n :: u :: l) = some (n * k + m) := by
  obtain ⟨⟨h1, h2⟩, h3, _⟩ := digits_natText n
  unfold sum
  rw [if_pos ⟨h1, h2⟩, h3, hu, hl]
  exact if_pos hm

theorem intText_nat {v : Int} (h : 0 ≤ v) : intText v = natText v.toNat := by
  unfold intText
  rw [if_neg (by omega)]
  congr 1
  omega

theorem body_reads (us : List (Int × Str × Str)) (hu : ∀ u ∈ us, UnitOK u) (r : Int) (hr : 0 ≤ r) :
    ∃ l n, durBody r us = spaced l ∧ (∀ w ∈ l, Word w) ∧ sum l = some n ∧
      (n : Int) + us.foldl (fun a u => a % u.1) r = r ∧ (n : Int) ≤ r := by
  induction us generalizing r with
  | nil => exact ⟨[], 0, rfl, by simp, rfl, by simp, by simpa using hr⟩
  | cons u us ih =>
    obtain ⟨k, one, many⟩ := u
    obtain ⟨hk, h1, h2, w1, w2⟩ := hu _ (List.mem_cons_self ..)
    dsimp only at hk h1 h2 w1 w2
    have e : r.tdiv k = r / k := Int.tdiv_eq_ediv_of_nonneg hr
    have e2 : r - r / k * k = r % k := by have := Int.emod_add_mul_ediv r k; rw [mul_comm]; omega
    have hv : 0 ≤ r / k := Int.ediv_nonneg hr hk.le
    have hm : 0 ≤ r % k := Int.emod_nonneg _ hk.ne'
    obtain ⟨l, n, i1, i2, i3, i4, i5⟩ := ih (fun u hu' => hu u (by simp [hu'])) (r % k) hm
    have hsum : ∀ {v : Int}, v = r / k → ((v.toNat * k.toNat + n : Nat) : Int) +
        List.foldl (fun a (u : Int × Str × Str) => a % u.1) r ((k, one, many) :: us) = r ∧
        ((v.toNat * k.toNat + n : Nat) : Int) ≤ r := by
      rintro v rfl
      rw [List.foldl_cons]
      dsimp only
      push_cast
      rw [Int.toNat_of_nonneg hv, Int.toNat_of_nonneg hk.le]
      rw [mul_comm] at e2
      rw [mul_comm]
      omega
    have hlt : n < k.toNat := by
      have := Int.emod_lt_of_pos r hk
      omega
    unfold durBody
    rw [e, e2, i1]
    by_cases c1 : 1 < r / k
    · rw [if_pos c1]
      refine ⟨natText (r / k).toNat :: many :: l, (r / k).toNat * k.toNat + n, ?_, ?_, sum_cons (by rw [if_neg (by omega)]; exact h2) i3 hlt,
        hsum rfl⟩
      · rw [intText_nat hv]; simp [spaced]
      · simp only [List.forall_mem_cons]; exact ⟨number_word _, w2, i2⟩
    · rw [if_neg c1]
      by_cases c2 : r / k = 1
      · rw [if_pos c2]
        refine ⟨natText (r / k).toNat :: one :: l, (r / k).toNat * k.toNat + n, ?_, ?_, sum_cons (by rw [if_pos (by omega)]; exact h1) i3 hlt,
          hsum rfl⟩
        · rw [intText_nat hv]; simp [spaced]
        · simp only [List.forall_mem_cons]; exact ⟨number_word _, w1, i2⟩
      · rw [if_neg c2]
        have c3 : r / k = 0 := by omega
        refine ⟨l, n, by simp, i2, i3, ?_⟩
        have := hsum c3.symm
        simpa using this

theorem body_positive {m : Int} (hm : 0 < m) : ∃ t c, durBody m durUnits = t ++ [c, 32] ∧ c ≠ 32 ∧
    (t ++ [c]).head? ≠ some 32 ∧ (t ++ [c]).head? ≠ some 45 ∧ sum (words (t ++ [c])) = some m.toNat := by
  obtain ⟨l, n, h1, h2, h3, h4, _⟩ := body_reads durUnits unitsOK m hm.le
  have h5 : durUnits.foldl (fun a (u : Int × Str × Str) => a % u.1) m = 0 := by
    simp only [durUnits, List.foldl_cons, List.foldl_nil]
    exact Int.emod_one _
  rw [h5, add_zero] at h4
  have hne : l ≠ [] := by
    rintro rfl
    have : n = 0 := by simpa [sum] using h3.symm
    omega
  obtain ⟨t, c, e, hc, hw⟩ := spaced_text h2 hne
  have hnum : ∀ d, (t ++ [c]).head? = some d → 48 ≤ d := by
    intro d hd
    match l, hne, h3, hw with
    | [_], _, h3, _ => simp [sum] at h3
    | a :: b :: l, _, h3, hw =>
      unfold sum at h3
      split at h3
      · rename_i ha
        cases hx : t ++ [c] with
        | nil => rw [hx] at hd; cases hd
        | cons d' y =>
          rw [hx] at hd hw
          have : d' = d := by simpa using hd
          subst this
          unfold words at hw
          split at hw
          · exact absurd (List.cons.inj hw).1.symm ha.1
          · refine (ha.2 d' ?_).1
            rw [← (List.cons.inj hw).1]; simp
      · cases h3
  refine ⟨t, c, by rw [h1, e], hc, fun h => ?_, fun h => ?_, ?_⟩
  · have := hnum _ h; omega
  · have := hnum _ h; omega
  · rw [hw, h3]; congr 1; omega

theorem reads_plain {t : Str} (h : t.head? ≠ some 45) : reads t = (sum (words t)).map fun n => (n : Int) := by
  unfold reads
  split
  · simp at h
  · rfl

end Duration
open Duration

theorem i64_fits {x : Int} (h1 : -(2 ^ 63) ≤ x) (h2 : x < 2 ^ 63) : i64 x = x := by
  unfold i64
  rw [Int.bmod_def]
  split <;> omega

/-- The text of a whole number of microseconds reads as that number. -/
theorem durafmt_reads {m : Int} (h1 : -(2 ^ 53) < m) (h2 : m < 2 ^ 53) : reads (durafmt (1000 * m)) = some m := by
  unfold durafmt
  rcases lt_trichotomy m 0 with hm | rfl | hm
  · rw [if_neg (by omega), if_pos (by omega)]
    have e : i64 (-(1000 * m)) = 1000 * (-m) := by
      rw [i64_fits] <;> omega
    rw [e, Int.mul_tdiv_cancel_left _ (by decide)]
    obtain ⟨t, c, e1, hc, _, _, e2⟩ := body_positive (m := -m) (by omega)
    rw [e1]
    have := trim_last (t := 45 :: t) hc (by simp)
    rw [List.cons_append, List.cons_append] at this
    rw [this]
    have e3 : reads (45 :: (t ++ [c])) = (sum (words (t ++ [c]))).map fun n => -(n : Int) := rfl
    rw [e3, e2]
    exact congrArg some (by dsimp only; omega)
  · decide +kernel
  · rw [if_neg (by omega), if_neg (by omega), Int.mul_tdiv_cancel_left _ (by decide)]
    obtain ⟨t, c, e1, hc, g1, g2, e2⟩ := body_positive hm
    rw [e1, trim_last hc g1, reads_plain g2, e2]
    exact congrArg some (by dsimp only; omega)

/-- **C117** (partial: less than 750 million slots, 285 years). The text for a number of slots, taken modulo 2^64 as the
subtractions in the code leave it, reads as 12 seconds for each slot. This holds for negative numbers too. -/
theorem C117_slots_partial {k : Int} (h1 : -750000000 < k) (h2 : k < 750000000) :
    reads (durationText (u64 ((k % 18446744073709551616).toNat * 12))) = some (k * 12 * 1000000) := by
  unfold durationText
  have e : i64 (u64 ((k % 18446744073709551616).toNat * 12) : Nat) = k * 12 := by
    unfold i64 u64
    rw [Int.bmod_def]
    split <;> omega
  rw [e, i64_fits (by omega) (by omega)]
  have e : k * 12 * 1000000000 = 1000 * (k * 12 * 1000000) := by ring
  rw [e]
  exact durafmt_reads (by omega) (by omega)

/-- The same for seconds. -/
theorem duration_seconds {n : Nat} (h : n ≤ 9000000000) :
    reads (durationText n) = some (1000000 * (n : Int)) := by
  unfold durationText
  rw [i64_fits (x := (n : Int)) (by omega) (by omega), i64_fits (by omega) (by omega)]
  have e : (n : Int) * 1000000000 = 1000 * (1000000 * n) := by ring
  rw [e]
  exact durafmt_reads (by omega) (by omega)

end Verif
