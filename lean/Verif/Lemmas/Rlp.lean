import Mathlib.Data.Nat.Digits.Lemmas
import Verif.Spec.TxBytes
/-
RLP: reading undoes writing, and only what was written can be read.
-/
namespace Verif

theorem beNat_append (bs : List Nat) (b : Nat) : beNat (bs ++ [b]) = beNat bs * 256 + b := by
  simp [beNat, List.foldl_append]

theorem beNat_digits (bs : List Nat) : beNat bs = Nat.ofDigits 256 bs.reverse := by
  induction bs using List.reverseRecOn with
  | nil => rfl
  | append_singleton l b ih =>
    rw [beNat_append, List.reverse_append, List.reverse_singleton, List.singleton_append, Nat.ofDigits_cons, ih]
    push_cast
    ring

theorem beNat_BE (n : Nat) : beNat (BE n) = n := by
  rw [beNat_digits, BE, List.reverse_reverse, Nat.ofDigits_digits]

theorem BE_lt (n : Nat) : ∀ x ∈ BE n, x < 256 := by
  intro x hx
  exact Nat.digits_lt_base (by norm_num) (List.mem_reverse.mp hx)

theorem BE_head (n : Nat) : (BE n).head? ≠ some 0 := by
  unfold BE
  rw [List.head?_reverse]
  intro h
  have hne : Nat.digits 256 n ≠ [] := by
    intro h'
    rw [h'] at h
    cases h
  rw [List.getLast?_eq_getLast_of_ne_nil hne, Option.some.injEq] at h
  have hn : n ≠ 0 := by
    rintro rfl
    simp at hne
  exact Nat.getLast_digit_ne_zero 256 hn h

theorem BE_beNat {bs : List Nat} (hb : ∀ x ∈ bs, x < 256) (h0 : bs.head? ≠ some 0) : BE (beNat bs) = bs := by
  rw [beNat_digits, BE, Nat.digits_ofDigits 256 (by norm_num), List.reverse_reverse]
  · intro l hl
    exact hb l (List.mem_reverse.mp hl)
  · intro hne h
    apply h0
    rw [List.head?_eq_getLast?_reverse, List.getLast?_eq_getLast_of_ne_nil hne, h]

theorem BE_length_le {n k : Nat} : (BE n).length ≤ k ↔ n < 256 ^ k := by
  unfold BE
  rw [List.length_reverse]
  exact Nat.digits_length_le_iff (by norm_num) n

theorem BE_zero : BE 0 = [] := by simp [BE]

theorem BE_pos {n : Nat} (h : n ≠ 0) : BE n = BE (n / 256) ++ [n % 256] := by
  unfold BE
  rw [Nat.digits_def' (by norm_num) (Nat.pos_of_ne_zero h), List.reverse_cons]

theorem minBytesN_eq (k : Nat) : ∀ n, n < 256 ^ k → minBytesN k n = BE n := by
  induction k with
  | zero =>
    intro n h
    have : n = 0 := by simpa using h
    subst this
    rw [BE_zero]
    rfl
  | succ k ih =>
    intro n h
    unfold minBytesN
    by_cases h0 : n = 0
    · rw [if_pos h0, h0, BE_zero]
    · rw [if_neg h0, ih (n / 256), BE_pos h0]
      rw [pow_succ] at h
      exact Nat.div_lt_of_lt_mul (by omega)

theorem minBytes_eq (n : Nat) : minBytes n = BE n := by
  apply minBytesN_eq
  have h := @Nat.lt_log2_self n
  calc n < 2 ^ (n.log2 + 1) := h
    _ ≤ 2 ^ (8 * (n.log2 / 8 + 1)) := Nat.pow_le_pow_right (by norm_num) (by omega)
    _ = 256 ^ (n.log2 / 8 + 1) := by rw [pow_mul]; norm_num

/-- What an element is written as. -/
def encItem : Item → List Nat
  | (false, bs) => encStr bs
  | (true, bs) => encSeq bs

theorem putHead_eq (small large size : Nat) : putHead small large size =
    if size < 56 then [small + size] else (large + (BE size).length) :: BE size := by
  unfold putHead
  rw [minBytes_eq]

theorem putItem_eq (i : Item) : putItem i = encItem i := by
  obtain ⟨l, bs⟩ := i
  cases l
  · match bs with
    | [] => simp [encStr, putHead_eq, putItem, encItem]
    | [b] =>
      by_cases hb : b < 128
      · simp [encStr, putItem, encItem, hb, show b ≤ 127 by omega]
      · simp [encStr, putItem, encItem, hb, show ¬ b ≤ 127 by omega, putHead_eq]
    | a :: b :: bs =>
      simp only [putItem, encItem]
      rw [if_neg (by simp), putHead_eq]
      simp only [encStr]
      split <;> simp
  · simp only [putItem, encItem, encSeq]
    rw [putHead_eq]
    split <;> simp

/-- Short enough to have a size of eight bytes. -/
abbrev Fits64 (bs : List Nat) : Prop := bs.length < 2 ^ 64

theorem rlpLong_there (isList : Bool) {bs : List Nat} (rest : List Nat) (h56 : ¬ bs.length < 56) :
    rlpLong isList (BE bs.length).length (BE bs.length ++ (bs ++ rest)) = some ((isList, bs), rest) := by
  unfold rlpLong
  rw [if_neg (by simp)]
  simp only [List.take_left, List.drop_left, beNat_BE]
  have hne : BE bs.length ≠ [] := by
    intro h
    have := beNat_BE bs.length
    rw [h] at this
    simp [beNat] at this
    omega
  have h0 : (BE bs.length ++ (bs ++ rest)).head? ≠ some 0 := by
    rw [List.head?_append_of_ne_nil _ hne]
    exact BE_head _
  rw [if_neg (by rintro (h | h); exact h56 h; exact h0 h), if_neg (by simp)]

theorem sizes_le {bs : List Nat} (hf : Fits64 bs) : (BE bs.length).length ≤ 8 :=
  BE_length_le.mpr (by unfold Fits64 at hf; norm_num at hf ⊢; exact hf)

theorem sizes_pos {n : Nat} (h56 : ¬ n < 56) : 1 ≤ (BE n).length := by
  by_contra h
  have : (BE n).length ≤ 0 := by omega
  rw [BE_length_le] at this
  simp at this
  omega

theorem rlpSplit_cons (b : Nat) (rest : List Nat) : rlpSplit (b :: rest) =
    if b < 0x80 then some ((false, [b]), rest)
    else if b < 0xB8 then
      if rest.length < b - 0x80 then none
      else if b - 0x80 = 1 ∧ rest.head?.any (· < 128) then none
      else some ((false, rest.take (b - 0x80)), rest.drop (b - 0x80))
    else if b < 0xC0 then rlpLong false (b - 0xB7) rest
    else if b < 0xF8 then
      if rest.length < b - 0xC0 then none
      else some ((true, rest.take (b - 0xC0)), rest.drop (b - 0xC0))
    else rlpLong true (b - 0xF7) rest := rfl

theorem split_there (i : Item) (rest : List Nat) (hf : Fits64 i.2) :
    rlpSplit (encItem i ++ rest) = some (i, rest) := by
  obtain ⟨l, bs⟩ := i
  dsimp only at hf
  cases l
  · simp only [encItem]
    match bs, hf with
    | [], _ => simp [encStr, rlpSplit]
    | [b], _ =>
      by_cases hb : b < 128
      · simp [encStr, hb, rlpSplit]
      · simp [encStr, hb, rlpSplit]
    | a :: b :: bs, hf =>
      generalize hg : a :: b :: bs = l at hf
      have hlen : l.length ≠ 1 := by rw [← hg]; simp
      have he : encStr l = if l.length < 56 then (128 + l.length) :: l
          else (183 + (BE l.length).length) :: (BE l.length ++ l) := by
        rw [← hg]
        rfl
      rw [he]
      by_cases h56 : l.length < 56
      · rw [if_pos h56, List.cons_append]
        rw [rlpSplit_cons]
        rw [if_neg (by omega), if_pos (by omega)]
        simp only [Nat.add_sub_cancel_left]
        rw [if_neg (by simp), if_neg (by rintro ⟨h, -⟩; exact hlen h)]
        simp
      · have h8 := sizes_le hf
        have h1 := sizes_pos h56
        rw [if_neg h56, List.cons_append, List.append_assoc]
        rw [rlpSplit_cons]
        rw [if_neg (by omega), if_neg (by omega), if_pos (by omega), Nat.add_sub_cancel_left]
        exact rlpLong_there false rest h56
  · simp only [encItem, encSeq]
    by_cases h56 : bs.length < 56
    · rw [if_pos h56, List.cons_append]
      rw [rlpSplit_cons]
      rw [if_neg (by omega), if_neg (by omega), if_neg (by omega), if_pos (by omega)]
      simp only [Nat.add_sub_cancel_left]
      rw [if_neg (by simp)]
      simp
    · have h8 := sizes_le hf
      have h1 := sizes_pos h56
      rw [if_neg h56, List.cons_append, List.append_assoc]
      rw [rlpSplit_cons]
      rw [if_neg (by omega), if_neg (by omega), if_neg (by omega), if_neg (by omega), Nat.add_sub_cancel_left]
      exact rlpLong_there true rest h56

theorem rlpLong_back {isList : Bool} {l : Nat} {bs rest : List Nat} {i : Item} (hb : ∀ x ∈ bs, x < 256)
    (hl : l ≤ 8) (h : rlpLong isList l bs = some (i, rest)) :
    i.1 = isList ∧ ¬ i.2.length < 56 ∧ l = (BE i.2.length).length ∧ bs = BE i.2.length ++ (i.2 ++ rest) ∧ Fits64 i.2 := by
  unfold rlpLong at h
  split at h
  · cases h
  rename_i hlen
  dsimp only at h
  split at h
  · cases h
  rename_i hc
  split at h
  · cases h
  rename_i hd
  simp only [Option.some.injEq, Prod.mk.injEq] at h
  obtain ⟨rfl, rfl⟩ := h
  push Not at hc
  have hsz : (List.take (beNat (bs.take l)) (bs.drop l)).length = beNat (bs.take l) := by
    rw [List.length_take]
    omega
  have hhead : (bs.take l).head? ≠ some 0 := by
    intro hh
    apply hc.2
    cases l with
    | zero => simp at hh
    | succ l =>
      cases bs with
      | nil => simp at hh
      | cons b bs => simpa using hh
  have hBE : BE (beNat (bs.take l)) = bs.take l :=
    BE_beNat (fun x hx => hb x (List.mem_of_mem_take hx)) hhead
  have htl : (bs.take l).length = l := by
    rw [List.length_take]
    omega
  dsimp only
  rw [hsz, hBE]
  refine ⟨rfl, by omega, htl.symm, ?_, ?_⟩
  · rw [List.take_append_drop, List.take_append_drop]
  · unfold Fits64
    rw [hsz]
    have : (BE (beNat (bs.take l))).length ≤ 8 := by rw [hBE, htl]; exact hl
    rw [BE_length_le] at this
    norm_num at this ⊢
    exact this

theorem split_back {bs rest : List Nat} {i : Item} (hb : ∀ x ∈ bs, x < 256) (h : rlpSplit bs = some (i, rest)) :
    bs = encItem i ++ rest ∧ Fits64 i.2 := by
  cases bs with
  | nil => cases h
  | cons b bs =>
    have hb' : ∀ x ∈ bs, x < 256 := fun x hx => hb x (List.mem_cons_of_mem _ hx)
    have hb256 : b < 256 := hb b (List.mem_cons_self ..)
    rw [rlpSplit_cons] at h
    split at h
    · rename_i h1
      simp only [Option.some.injEq, Prod.mk.injEq] at h
      obtain ⟨rfl, rfl⟩ := h
      refine ⟨?_, by simp⟩
      simp only [encItem, encStr]
      rw [if_pos (by omega)]
      rfl
    rename_i h1
    split at h
    · rename_i h2
      split at h
      · cases h
      rename_i h3
      split at h
      · cases h
      rename_i h4
      simp only [Option.some.injEq, Prod.mk.injEq] at h
      obtain ⟨rfl, rfl⟩ := h
      have hlen : (bs.take (b - 0x80)).length = b - 0x80 := by
        rw [List.length_take]
        omega
      refine ⟨?_, by unfold Fits64; dsimp only; rw [hlen]; exact lt_of_lt_of_le (by omega : _ < 256) (by norm_num)⟩
      have hsplit : bs = bs.take (b - 0x80) ++ bs.drop (b - 0x80) := (List.take_append_drop _ _).symm
      simp only [encItem]
      generalize hT : bs.take (b - 0x80) = T at *
      generalize bs.drop (b - 0x80) = D at *
      have hbk : b = 128 + (b - 128) := by omega
      rw [← hlen] at hbk
      subst hsplit
      have he : encStr T = (128 + T.length) :: T := by
        rcases T with _ | ⟨x, _ | ⟨y, T⟩⟩
        · rfl
        · have : ¬ x < 128 := by
            intro hx
            apply h4
            refine ⟨hlen.symm, ?_⟩
            simp [hx]
          simp [encStr, this]
        · simp only [encStr]
          rw [if_pos (by omega)]
      rw [he, List.cons_append, ← hbk]
    rename_i h2
    split at h
    · rename_i h3
      obtain ⟨e1, e2, e3, e4, e5⟩ := rlpLong_back hb' (by omega) h
      obtain ⟨il, ib⟩ := i
      dsimp only at e1 e2 e3 e4 e5
      subst e1
      refine ⟨?_, e5⟩
      simp only [encItem]
      have he : encStr ib = if ib.length < 56 then (128 + ib.length) :: ib
          else (183 + (BE ib.length).length) :: (BE ib.length ++ ib) := by
        match ib, e2 with
        | [], e2 => rfl
        | [x], e2 => simp at e2
        | x :: y :: T, _ => rfl
      rw [he, if_neg e2, List.cons_append, List.append_assoc, ← e4, ← e3, Nat.add_sub_cancel' (by omega)]
    rename_i h3
    split at h
    · rename_i h4
      split at h
      · cases h
      rename_i h5
      simp only [Option.some.injEq, Prod.mk.injEq] at h
      obtain ⟨rfl, rfl⟩ := h
      have hlen : (bs.take (b - 0xC0)).length = b - 0xC0 := by
        rw [List.length_take]
        omega
      refine ⟨?_, by unfold Fits64; dsimp only; rw [hlen]; exact lt_of_lt_of_le (by omega : _ < 256) (by norm_num)⟩
      simp only [encItem, encSeq]
      rw [hlen, if_pos (by omega), List.cons_append, List.take_append_drop, Nat.add_sub_cancel' (by omega)]
    · rename_i h4
      obtain ⟨e1, e2, e3, e4, e5⟩ := rlpLong_back hb' (by omega) h
      obtain ⟨il, ib⟩ := i
      dsimp only at e1 e2 e3 e4 e5
      subst e1
      refine ⟨?_, e5⟩
      simp only [encItem, encSeq]
      rw [if_neg e2, List.cons_append, List.append_assoc, ← e4, ← e3, Nat.add_sub_cancel' (by omega)]

theorem encItem_pos (i : Item) : 1 ≤ (encItem i).length := by
  obtain ⟨l, bs⟩ := i
  cases l
  · simp only [encItem, encStr]
    split
    · split <;> simp
    · split <;> simp
  · simp only [encItem, encSeq]
    split <;> simp

theorem encItem_content (i : Item) : i.2.length ≤ (encItem i).length := by
  obtain ⟨l, bs⟩ := i
  cases l
  · simp only [encItem, encStr]
    split
    · split <;> simp
    · split <;> simp <;> omega
  · simp only [encItem, encSeq]
    split <;> simp <;> omega

/-- The content of a list. -/
def encItems (is : List Item) : List Nat := (is.map encItem).flatten

theorem encItems_cons (i : Item) (is : List Item) : encItems (i :: is) = encItem i ++ encItems is := rfl

theorem encItems_mem {is : List Item} {i : Item} (h : i ∈ is) : (encItem i).length ≤ (encItems is).length := by
  induction is with
  | nil => cases h
  | cons j is ih =>
    rw [encItems_cons, List.length_append]
    rcases List.mem_cons.mp h with rfl | h
    · omega
    · have := ih h
      omega

theorem itemsN_there (is : List Item) : ∀ n, is.length ≤ n → Fits64 (encItems is) →
    rlpItemsN n (encItems is) = some is := by
  induction is with
  | nil =>
    intro n _ _
    cases n <;> rfl
  | cons i is ih =>
    intro n hn hf
    cases n with
    | zero => simp at hn
    | succ n =>
      rw [encItems_cons] at hf ⊢
      have hp := encItem_pos i
      have hc := encItem_content i
      have hl : (encItem i ++ encItems is).length = (encItem i).length + (encItems is).length := List.length_append
      unfold Fits64 at hf
      rw [hl] at hf
      have hs := split_there i (encItems is) (by unfold Fits64; omega)
      have hne : encItem i ++ encItems is ≠ [] := by
        intro h
        rw [h] at hl
        simp at hl
        omega
      generalize hg : encItem i ++ encItems is = bs at *
      cases bs with
      | nil => exact absurd rfl hne
      | cons b bs =>
        unfold rlpItemsN
        rw [hs]
        simp only
        rw [ih n (by simpa using hn) (by unfold Fits64; omega)]
        rfl

theorem items_there {is : List Item} (hf : Fits64 (encItems is)) : rlpItems (encItems is) = some is := by
  apply itemsN_there _ _ _ hf
  clear hf
  induction is with
  | nil => simp
  | cons i is ih =>
    rw [encItems_cons, List.length_append, List.length_cons]
    have := encItem_pos i
    omega

theorem itemsN_back (n : Nat) : ∀ {bs : List Nat} {is : List Item}, (∀ x ∈ bs, x < 256) →
    rlpItemsN n bs = some is → bs = encItems is := by
  induction n with
  | zero =>
    intro bs is _ h
    cases bs with
    | nil =>
      cases h
      rfl
    | cons => cases h
  | succ n ih =>
    intro bs is hb h
    cases bs with
    | nil =>
      cases h
      rfl
    | cons b bs =>
      unfold rlpItemsN at h
      cases hs : rlpSplit (b :: bs) with
      | none =>
        rw [hs] at h
        cases h
      | some p =>
        obtain ⟨i, rest⟩ := p
        rw [hs] at h
        simp only [Option.map_eq_some_iff] at h
        obtain ⟨js, hj, rfl⟩ := h
        obtain ⟨he, -⟩ := split_back hb hs
        rw [encItems_cons, he]
        congr 1
        apply ih _ hj
        intro x hx
        apply hb
        rw [he]
        exact List.mem_append_right _ hx

theorem items_back {bs : List Nat} {is : List Item} (hb : ∀ x ∈ bs, x < 256) (h : rlpItems bs = some is) :
    bs = encItems is := itemsN_back _ hb h

theorem fields_there {is : List Item} (hf : Fits64 (encItems is)) :
    rlpFields (encItem (true, encItems is)) = some is := by
  unfold rlpFields
  have := split_there (true, encItems is) [] hf
  rw [List.append_nil] at this
  rw [this]
  exact items_there hf

theorem encItem_bytes {i : Item} {bs rest : List Nat} (hb : ∀ x ∈ bs, x < 256) (h : bs = encItem i ++ rest) :
    ∀ x ∈ i.2, x < 256 := by
  intro x hx
  apply hb
  rw [h]
  apply List.mem_append_left
  obtain ⟨l, b⟩ := i
  cases l
  · simp only [encItem, encStr]
    split
    · split
      · exact hx
      · exact List.mem_cons_of_mem _ hx
    · split
      · exact List.mem_cons_of_mem _ hx
      · exact List.mem_cons_of_mem _ (List.mem_append_right _ hx)
  · simp only [encItem, encSeq]
    split
    · exact List.mem_cons_of_mem _ hx
    · exact List.mem_cons_of_mem _ (List.mem_append_right _ hx)

theorem items_bytes {bs : List Nat} {is : List Item} (hb : ∀ x ∈ bs, x < 256) (h : bs = encItems is) :
    ∀ i ∈ is, ∀ x ∈ i.2, x < 256 := by
  induction is generalizing bs with
  | nil =>
    intro i hi
    cases hi
  | cons j is ih =>
    rw [encItems_cons] at h
    intro i hi
    rcases List.mem_cons.mp hi with rfl | hi
    · exact encItem_bytes hb h
    · apply ih (bs := encItems is) _ rfl i hi
      intro x hx
      apply hb
      rw [h]
      exact List.mem_append_right _ hx

theorem fields_back {bs : List Nat} {is : List Item} (hb : ∀ x ∈ bs, x < 256) (h : rlpFields bs = some is) :
    bs = encItem (true, encItems is) ∧ Fits64 (encItems is) ∧ ∀ i ∈ is, ∀ x ∈ i.2, x < 256 := by
  unfold rlpFields at h
  split at h
  · rename_i content hs
    obtain ⟨he, hf⟩ := split_back hb hs
    have hc := encItem_bytes hb he
    have hi := items_back hc h
    dsimp only at hi hf hc
    subst hi
    rw [List.append_nil] at he
    exact ⟨he, hf, items_bytes hc rfl⟩
  · cases h

end Verif
