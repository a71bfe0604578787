import Verif.Lemmas.JsonText
import Verif.Model.Replies
import Verif.Spec.JsonGrammar
import Mathlib.Data.List.Induction
import Mathlib.Algebra.BigOperators.Ring.List
/-
The scanner reads every text of the grammar, and the two writers write texts of the grammar.
-/
namespace Verif
namespace JsonText
open Rfc

theorem isSpace_iff (c : Nat) : isSpace c = true ↔ c = 32 ∨ c = 9 ∨ c = 10 ∨ c = 13 := by
  unfold isSpace
  simp only [Bool.or_eq_true, decide_eq_true_eq]
  tauto

theorem run_ws {σ : Scan} (h : ∀ c, isSpace c = true → step σ c = some σ) {w : Str} (hw : Ws w) :
    run σ w = some σ := by
  induction w with
  | nil => rfl
  | cons c w ih =>
    rw [run_cons (h c ((isSpace_iff c).mpr (hw c (by simp))))]
    exact ih fun x hx => hw x (List.mem_cons_of_mem _ hx)

theorem Done.ws {stk j σ} (h : Done stk j σ) {w : Str} (hw : Ws w) :
    ∃ σ', run σ w = some σ' ∧ Done stk j σ' := by
  cases w with
  | nil => exact ⟨σ, rfl, h⟩
  | cons c w =>
    have hc := (isSpace_iff c).mpr (hw c (by simp))
    have h1 : JsonText.step σ c = some ⟨stk, .after j⟩ := by
      rw [h.step (by rcases hw c (by simp) with rfl | rfl | rfl | rfl <;> omega)]
      unfold stepAfter
      rw [if_pos hc]
    rw [run_cons h1]
    refine ⟨_, run_ws (fun c hc => ?_) fun x hx => hw x (List.mem_cons_of_mem _ hx), .after⟩
    simp only [JsonText.step, stepAfter]
    rw [if_pos hc]

theorem hexDigitIs {c v : Nat} (h : HexDigitIs c v) : hexVal c = some v ∧ v < 16 := by
  rcases h with h | h <;>
  · simp only [List.zip, List.zipWith, List.range, List.range.loop, List.mem_cons, Prod.mk.injEq,
      List.not_mem_nil, or_false] at h
    rcases h with ⟨rfl, rfl⟩ | ⟨rfl, rfl⟩ | ⟨rfl, rfl⟩ | ⟨rfl, rfl⟩ | ⟨rfl, rfl⟩ | ⟨rfl, rfl⟩ | ⟨rfl, rfl⟩ | ⟨rfl, rfl⟩ |
      ⟨rfl, rfl⟩ | ⟨rfl, rfl⟩ | ⟨rfl, rfl⟩ | ⟨rfl, rfl⟩ | ⟨rfl, rfl⟩ | ⟨rfl, rfl⟩ | ⟨rfl, rfl⟩ | ⟨rfl, rfl⟩ <;>
      exact ⟨rfl, by omega⟩

theorem run_chr {t : Str} {c : Nat} (h : Chr t c) (stk : List Frame) (s : Str) :
    run ⟨stk, .text s⟩ t = some ⟨stk, .text (c :: s)⟩ := by
  cases h with
  | plain h1 h2 h3 => simp [run, step, h2, h3, Nat.not_lt.mpr h1]
  | code hx hy ha =>
    rename_i x y a b
    obtain ⟨e1, _⟩ := hexDigitIs hx
    obtain ⟨e2, hb⟩ := hexDigitIs hy
    have : 16 * a + b < 128 := by omega
    have e0 : hexVal 48 = some 0 := rfl
    simp [run, step, utf8, e0, e1, e2, this]
  | _ => simp [run, step]

theorem run_chars {t s : Str} (h : Chars t s) (stk : List Frame) (u : Str) :
    run ⟨stk, .text u⟩ t = some ⟨stk, .text (s.reverse ++ u)⟩ := by
  induction h generalizing u with
  | nil => rfl
  | cons h1 _ ih => rw [run_then (run_chr h1 stk u), ih]; simp

theorem numeralValue_snoc (t : Str) (c : Nat) : numeralValue (t ++ [c]) = 10 * numeralValue t + (c - 48) := by
  unfold numeralValue
  rw [List.reverse_append]
  simp only [List.reverse_cons, List.reverse_nil, List.nil_append, List.singleton_append, List.zipIdx_cons,
    List.map_cons, List.sum_cons, Nat.pow_zero, Nat.mul_one]
  rw [List.zipIdx_succ, List.map_map]
  have : ((fun p : Nat × Nat => (p.1 - 48) * 10 ^ p.2) ∘ fun x : Nat × Nat => (x.1, x.2 + 1)) =
      fun p => 10 * ((p.1 - 48) * 10 ^ p.2) := by
    funext p
    simp only [Function.comp]
    rw [Nat.pow_succ]; ring
  rw [this, List.sum_map_mul_left]
  omega

theorem digits_pos {t : Str} (h : Numeral t) (h0 : t.head? ≠ some 48) : 0 < numeralValue t := by
  induction t using List.reverseRecOn with
  | nil => exact absurd rfl h.1
  | append_singleton t c ih =>
    rw [numeralValue_snoc]
    by_cases ht : t = []
    · subst ht
      have := h.2 c (by simp)
      have : c ≠ 48 := fun e => h0 (by rw [e]; rfl)
      omega
    · have := ih ⟨ht, fun x hx => h.2 x (by simp [hx])⟩ (by
        intro e
        apply h0
        cases t with
        | nil => exact absurd rfl ht
        | cons => exact e)
      omega

theorem run_numeral {stk : List Frame} {neg : Bool} {σ : Scan}
    (h : ∀ c, 48 ≤ c → c ≤ 57 → step σ c = some ⟨stk, .num neg (c - 48)⟩) {t : Str} {n : Nat} (ht : Digits t n) :
    run σ t = some ⟨stk, .num neg n⟩ := by
  obtain ⟨h1, rfl, h2⟩ := ht
  induction t using List.reverseRecOn with
  | nil => exact absurd rfl h1.1
  | append_singleton t c ih =>
    have hc := h1.2 c (by simp)
    rw [numeralValue_snoc]
    by_cases e : t = []
    · subst e
      rw [List.nil_append, run_cons (h c hc.1 hc.2)]
      have : numeralValue [] = 0 := rfl
      rw [this]
      simp [run]
    · have hne : t.head? ≠ some 48 := by
        intro e1
        have e2 : (t ++ [c]).head? = some 48 := by
          cases t with
          | nil => exact absurd rfl e
          | cons => exact e1
        have := congrArg List.length (h2 e2)
        simp only [List.length_append, List.length_cons, List.length_nil] at this
        exact e (List.length_eq_zero_iff.mp (by omega))
      have hn : Numeral t := ⟨e, fun x hx => h1.2 x (by simp [hx])⟩
      rw [run_then (ih hn fun e1 => absurd e1 hne)]
      have hp := digits_pos hn hne
      have : step ⟨stk, .num neg (numeralValue t)⟩ c =
          some ⟨stk, .num neg (10 * numeralValue t + (c - 48))⟩ := by
        simp only [step]
        rw [if_pos hc, if_neg (by omega)]
      rw [run_cons this]
      rfl

theorem step_digit (stk : List Frame) {c : Nat} (h1 : 48 ≤ c) (h2 : c ≤ 57) :
    step ⟨stk, .value⟩ c = some ⟨stk, .num false (c - 48)⟩ := by
  have hs : isSpace c = false := by
    unfold isSpace
    simp only [Bool.or_eq_false_iff, decide_eq_false_iff_not]
    omega
  simp only [step, stepValue, hs]
  rw [if_neg (by simp), if_neg (by omega), if_neg (by omega), if_neg (by omega), if_neg (by omega),
    if_neg (by omega), if_neg (by omega), if_neg (by omega), if_pos ⟨h1, h2⟩]

theorem run_number {t : Str} {n : Int} (h : Number t n) (stk : List Frame) :
    ∃ σ, run ⟨stk, .value⟩ t = some σ ∧ Done stk (.num n) σ := by
  cases h with
  | nat h =>
    exact ⟨_, run_numeral (fun c h1 h2 => step_digit stk h1 h2) h, .num (by simp [numJ])⟩
  | neg h =>
    have h1 : step ⟨stk, .value⟩ 45 = some ⟨stk, .minus⟩ := by simp [step, stepValue, isSpace]
    rw [run_cons h1]
    refine ⟨_, run_numeral (stk := stk) (neg := true) (fun c h1 h2 => ?_) h, .num (by simp [numJ])⟩
    simp only [step]
    rw [if_pos ⟨h1, h2⟩]

/-- the first character of a value is not the end of an array -/
theorem orEnd {t : Str} {j : J} (h : Denotes t j) (stk : List Frame) (b : Str) :
    run ⟨stk, .valueOrEnd⟩ (t ++ b) = run ⟨stk, .value⟩ (t ++ b) := by
  have digit : ∀ {t : Str}, Numeral t → ∀ b, run ⟨stk, .valueOrEnd⟩ (t ++ b) = run ⟨stk, .value⟩ (t ++ b) := by
    intro t ht b
    cases t with
    | nil => exact absurd rfl ht.1
    | cons c t =>
      have hc := ht.2 c (by simp)
      have hs : isSpace c = false := by
        unfold isSpace
        simp only [Bool.or_eq_false_iff, decide_eq_false_iff_not]
        omega
      rw [List.cons_append]
      simp only [run, step, hs]
      rw [if_neg (by simp), if_neg (by omega)]
  have other : ∀ c, isSpace c = false → c ≠ 93 → ∀ b, run ⟨stk, .valueOrEnd⟩ (c :: b) = run ⟨stk, .value⟩ (c :: b) := by
    intro c hs hc b
    simp only [run, step, hs]
    rw [if_neg (by simp), if_neg hc]
  refine Denotes.rec (motive_1 := fun t _ _ => ∀ b, run ⟨stk, .valueOrEnd⟩ (t ++ b) = run ⟨stk, .value⟩ (t ++ b))
    (motive_2 := fun _ _ _ => True) (motive_3 := fun _ _ _ => True)
    ?_ ?_ ?_ ?_ ?_ ?_ ?_ ?_ ?_ ?_ ?_ ?_ ?_ ?_ h b
  · exact fun b => other _ rfl (by decide) _
  · exact fun b => other _ rfl (by decide) _
  · exact fun b => other _ rfl (by decide) _
  · intro t n hn b
    cases hn with
    | nat h => exact digit h.1 b
    | neg h => exact other _ rfl (by decide) _
  · exact fun _ b => other _ rfl (by decide) _
  · exact fun _ b => other _ rfl (by decide) _
  · exact fun _ _ b => other _ rfl (by decide) _
  · exact fun _ b => other _ rfl (by decide) _
  · exact fun _ _ b => other _ rfl (by decide) _
  · intro a t c j ha _ _ ih b
    rw [List.append_assoc, run_then (run_ws (fun c hc => space_value _ _ (by simp) c hc) ha),
      run_then (run_ws (fun c hc => space_value _ _ (by simp) c hc) ha), List.append_assoc]
    exact ih _
  all_goals intros; trivial

mutual
theorem run_denotes : ∀ {t : Str} {j : J}, Denotes t j → ∀ stk, WantsValue stk →
    ∃ σ, run ⟨stk, .value⟩ t = some σ ∧ Done stk j σ
  | _, _, .null, stk, _ => ⟨⟨stk, .after .null⟩, by simp [run, step, stepValue, isSpace], .after⟩
  | _, _, .true, stk, _ => ⟨⟨stk, .after (.bool true)⟩, by simp [run, step, stepValue, isSpace], .after⟩
  | _, _, .false, stk, _ => ⟨⟨stk, .after (.bool false)⟩, by simp [run, step, stepValue, isSpace], .after⟩
  | _, _, .num h, stk, _ => run_number h stk
  | _, _, .str h, stk, hs => by
    rw [run_cons (σ' := ⟨stk, .text []⟩) (by simp [step, stepValue, isSpace]), run_then (run_chars h stk [])]
    refine ⟨_, rfl, ?_⟩
    simp only [List.append_nil, endText_value hs, List.reverse_reverse]
    exact .after
  | _, _, .noElems h, stk, _ => by
    rw [run_cons (σ' := ⟨.arr [] :: stk, .valueOrEnd⟩) (by simp [step, stepValue, isSpace]),
      run_then (run_ws (fun c hc => space_value _ _ (by simp) c hc) h)]
    exact ⟨_, rfl, .after⟩
  | _, _, .arr (t := t) (l := l) h, stk, _ => by
    rw [run_cons (σ' := ⟨.arr [] :: stk, .valueOrEnd⟩) (by simp [step, stepValue, isSpace])]
    have e : run ⟨.arr [] :: stk, .valueOrEnd⟩ (t ++ [93]) = run ⟨.arr [] :: stk, .value⟩ (t ++ [93]) := by
      cases h with
      | one h => exact orEnd h _ _
      | more h h2 => rw [List.append_assoc]; exact orEnd h _ _
    rw [e, run_elems h stk []]
    exact ⟨_, rfl, .after⟩
  | _, _, .noMembers h, stk, _ => by
    rw [run_cons (σ' := ⟨.obj [] :: stk, .keyOrEnd⟩) (by simp [step, stepValue, isSpace]),
      run_then (run_ws (fun c hc => space_value _ _ (by simp) c hc) h)]
    exact ⟨_, rfl, .after⟩
  | _, _, .obj h, stk, _ => by
    rw [run_cons (σ' := ⟨.obj [] :: stk, .keyOrEnd⟩) (by simp [step, stepValue, isSpace]),
      run_members h stk [] .keyOrEnd (Or.inl rfl)]
    exact ⟨_, rfl, .after⟩
  | _, _, .space ha h hb, stk, hs => by
    rw [run_then (run_ws (fun c hc => space_value _ _ (by simp) c hc) ha)]
    obtain ⟨σ, h1, h2⟩ := run_denotes h stk hs
    rw [run_then h1]
    exact h2.ws hb
theorem run_elems : ∀ {t : Str} {l : List J}, Elems t l → ∀ st acc,
    run ⟨.arr acc :: st, .value⟩ (t ++ [93]) = some ⟨st, .after (.arr (acc.reverse ++ l))⟩
  | _, _, .one h, st, acc => by
    obtain ⟨σ, h1, h2⟩ := run_denotes h (.arr acc :: st) (by intro l st; simp)
    rw [run_then h1]
    simp only [run]
    rw [h2.step (by omega)]
    simp [stepAfter, isSpace]
  | _, _, .more h h', st, acc => by
    rename_i t j u l
    obtain ⟨σ, h1, h2⟩ := run_denotes h (.arr acc :: st) (by intro l st; simp)
    have e : step σ 44 = some ⟨.arr (j :: acc) :: st, .value⟩ := by
      rw [h2.step (by omega)]; simp [stepAfter, isSpace]
    rw [List.append_assoc, run_then h1, List.cons_append, run_cons e, run_elems h' st (j :: acc)]
    simp
theorem run_members : ∀ {t : Str} {l : List (Str × J)}, Members t l → ∀ st acc m, m = .keyOrEnd ∨ m = .key →
    run ⟨.obj acc :: st, m⟩ (t ++ [125]) = some ⟨st, .after (.obj (acc.reverse ++ l))⟩
  | _, _, .one ha hk hb h, st, acc, m, hm => by
    rename_i a k key b t j
    have e1 : step ⟨.obj acc :: st, m⟩ 34 = some ⟨.obj acc :: st, .text []⟩ := by
      rcases hm with rfl | rfl <;> simp [step, isSpace]
    have e2 : step ⟨.obj acc :: st, .text (key.reverse ++ [])⟩ 34 = some ⟨.obj acc :: st, .colon key⟩ := by
      simp [step, endText]
    have e3 : step ⟨.obj acc :: st, .colon key⟩ 58 = some ⟨.field acc key :: st, .value⟩ := by
      simp [step, isSpace]
    rw [List.append_assoc, run_then (run_ws (fun c hc => by
      rcases hm with rfl | rfl <;> exact space_value _ _ (by simp) c hc) ha), List.cons_append, run_cons e1,
      List.append_assoc, run_then (run_chars hk _ _), List.cons_append, run_cons e2, List.append_assoc,
      run_then (run_ws (fun c hc => by simp [step, hc]) hb), List.cons_append, run_cons e3]
    obtain ⟨σ, h1, h2⟩ := run_denotes h (.field acc key :: st) (by intro l st; simp)
    rw [run_then h1]
    simp only [run]
    rw [h2.step (by omega)]
    simp [stepAfter, isSpace]
  | _, _, .more ha hk hb h h', st, acc, m, hm => by
    rename_i a k key b t j u l
    have e1 : step ⟨.obj acc :: st, m⟩ 34 = some ⟨.obj acc :: st, .text []⟩ := by
      rcases hm with rfl | rfl <;> simp [step, isSpace]
    have e2 : step ⟨.obj acc :: st, .text (key.reverse ++ [])⟩ 34 = some ⟨.obj acc :: st, .colon key⟩ := by
      simp [step, endText]
    have e3 : step ⟨.obj acc :: st, .colon key⟩ 58 = some ⟨.field acc key :: st, .value⟩ := by
      simp [step, isSpace]
    rw [List.append_assoc, run_then (run_ws (fun c hc => by
      rcases hm with rfl | rfl <;> exact space_value _ _ (by simp) c hc) ha), List.cons_append, run_cons e1,
      List.append_assoc, run_then (run_chars hk _ _), List.cons_append, run_cons e2, List.append_assoc,
      run_then (run_ws (fun c hc => by simp [step, hc]) hb), List.cons_append, run_cons e3, List.append_assoc]
    obtain ⟨σ, h1, h2⟩ := run_denotes h (.field acc key :: st) (by intro l st; simp)
    have e : step σ 44 = some ⟨.obj ((key, j) :: acc) :: st, .key⟩ := by
      rw [h2.step (by omega)]; simp [stepAfter, isSpace]
    rw [run_then h1, List.cons_append, run_cons e, run_members h' st ((key, j) :: acc) .key (Or.inr rfl)]
    simp
end

/-- the scanner reads every text of the grammar -/
theorem read_denotes {t : Str} {j : J} (h : Denotes t j) : read t = some j := by
  obtain ⟨σ, h1, h2⟩ := run_denotes h [] (by intro l st; simp)
  unfold read
  rw [h1]
  cases h2 with
  | after => rfl
  | num e => subst e; rfl

/-! ### The writers -/

theorem hexDigit_is {n : Nat} (h : n < 16) : HexDigitIs (hexDigit n) n := by
  left
  interval_cases n <;> decide

theorem chr_escape (c : Nat) : Chr (escape c) c := by
  by_cases h1 : c = 34
  · subst h1; exact .quote
  by_cases h2 : c = 92
  · subst h2; exact .backslash
  by_cases h3 : c = 8
  · subst h3; exact .backspace
  by_cases h4 : c = 12
  · subst h4; exact .feed
  by_cases h5 : c = 10
  · subst h5; exact .line
  by_cases h6 : c = 13
  · subst h6; exact .ret
  by_cases h7 : c = 9
  · subst h7; exact .tab
  unfold escape
  rw [if_neg h1, if_neg h2, if_neg h3, if_neg h4, if_neg h5, if_neg h6, if_neg h7]
  split
  · rename_i h
    have hc : c < 128 := by omega
    have := Chr.code (hexDigit_is (n := c / 16) (by omega)) (hexDigit_is (n := c % 16) (by omega)) (by omega)
    rw [show 16 * (c / 16) + c % 16 = c by omega] at this
    simpa [hexEncode] using this
  · exact .plain (by omega) h1 h2

theorem chars_quoted (s : Str) : Chars (s.flatMap escape) s := by
  induction s with
  | nil => exact .nil
  | cons c s ih => rw [List.flatMap_cons]; exact .cons (chr_escape c) ih

theorem digits_decDigits (k n : Nat) (hn : n < 10 ^ (k + 1)) : Digits (decDigits (k + 1) n) n := by
  have one : ∀ n, n < 10 → Digits [48 + n] n := by
    intro n h
    refine ⟨⟨by simp, by simp; omega⟩, ?_, ?_⟩
    · show numeralValue ([] ++ [48 + n]) = n
      rw [numeralValue_snoc]
      have : numeralValue [] = 0 := rfl
      omega
    · intro e
      simp only [List.head?_cons, Option.some.injEq] at e
      rw [e]
  induction k generalizing n with
  | zero =>
    have hn : n < 10 := by simpa using hn
    rw [decDigits, if_pos hn]
    exact one n hn
  | succ k ih =>
    rw [decDigits]
    split
    · rename_i h; exact one n h
    · rename_i h10
      obtain ⟨h1, h2, h3⟩ := ih (n / 10) (by rw [Nat.pow_succ] at hn; omega)
      refine ⟨⟨by simp, ?_⟩, ?_, ?_⟩
      · intro c hc
        rcases List.mem_append.mp hc with hc | hc
        · exact h1.2 c hc
        · simp only [List.mem_singleton] at hc; omega
      · rw [numeralValue_snoc, h2]; omega
      · intro e
        have e' : (decDigits (k + 1) (n / 10)).head? = some 48 := by
          cases hd : decDigits (k + 1) (n / 10) with
          | nil => exact absurd hd h1.1
          | cons c l => rw [hd] at e; exact e
        have := h3 e'
        rw [this] at h2
        have : numeralValue [48] = 0 := by decide
        omega

theorem digits_natText (n : Nat) : Digits (natText n) n :=
  digits_decDigits n n (lt_trans (Nat.lt_pow_self (by norm_num)) (Nat.pow_lt_pow_right (by norm_num) (by omega)))

theorem number_intText (n : Int) : Number (intText n) n := by
  unfold intText
  split
  · have := Number.neg (digits_natText n.natAbs)
    rw [show -(n.natAbs : Int) = n by omega] at this
    exact this
  · have := Number.nat (digits_natText n.natAbs)
    rw [show (n.natAbs : Int) = n by omega] at this
    exact this

theorem ws_nil : Ws [] := by intro c hc; simp at hc

theorem ws_newline (d : Nat) : Ws (newline d) := by
  intro c hc
  unfold newline at hc
  rcases List.mem_cons.mp hc with rfl | hc
  · omega
  · have := (List.mem_replicate.mp hc).2; omega

theorem denotes_quoted (s : Str) : Denotes (quoted s) (.str s) := .str (chars_quoted s)

mutual
theorem denotes_compact : ∀ j : J, Denotes (compact j) j
  | .null => by rw [compact]; exact .null
  | .bool b => by
    rw [compact]
    cases b
    · exact .false
    · exact .true
  | .num n => by rw [compact]; exact .num (number_intText n)
  | .str s => by rw [compact]; exact denotes_quoted s
  | .arr [] => by rw [compact]; exact .noElems ws_nil
  | .arr (j :: l) => by
    rw [compact, ← List.append_assoc]
    exact .arr (elems_compact l (denotes_compact j))
  | .obj [] => by rw [compact]; exact .noMembers ws_nil
  | .obj ((k, j) :: l) => by
    rw [compact]
    have := Denotes.obj (members_compact l k (denotes_compact j))
    simpa [quoted] using this
theorem elems_compact : ∀ (l : List J) {t : Str} {j : J}, Denotes t j → Elems (t ++ compactL l) (j :: l)
  | [], t, j, h => by rw [compactL, List.append_nil]; exact .one h
  | j' :: l, t, j, h => by rw [compactL]; exact .more h (elems_compact l (denotes_compact j'))
theorem members_compact : ∀ (l : List (Str × J)) (k : Str) {t : Str} {j : J}, Denotes t j →
    Members (quoted k ++ (58 :: (t ++ compactF l))) ((k, j) :: l)
  | [], k, t, j, h => by
    have := Members.one ws_nil (chars_quoted k) ws_nil h
    rw [compactF]
    simpa [quoted] using this
  | (k', j') :: l, k, t, j, h => by
    have := Members.more ws_nil (chars_quoted k) ws_nil h (members_compact l k' (denotes_compact j'))
    rw [compactF]
    simpa [quoted] using this
end

theorem denotes_body (j : J) : Denotes (bodyOf j) j :=
  .space (a := []) ws_nil (denotes_compact j) (by intro c hc; simp at hc; omega)

theorem space_left {a t : Str} {j : J} (ha : Ws a) (h : Denotes t j) : Denotes (a ++ t) j := by
  have := Denotes.space ha h ws_nil
  simpa using this

theorem space_right {t b : Str} {j : J} (h : Denotes t j) (hb : Ws b) : Denotes (t ++ b) j :=
  .space (a := []) ws_nil h hb

mutual
theorem denotes_write : ∀ (j : J) (d : Nat), Denotes (write d j) j
  | .null, d => by rw [write]; exact .null
  | .bool b, d => by
    rw [write]
    cases b
    · exact .false
    · exact .true
  | .num n, d => by rw [write]; exact .num (number_intText n)
  | .str s, d => by rw [write]; exact denotes_quoted s
  | .arr [], d => by rw [write]; exact .noElems ws_nil
  | .arr (j :: l), d => by
    have := Denotes.arr (elems_write l (d + 1) (ws_newline d) (denotes_write j (d + 1)))
    rw [write]
    simpa using this
  | .obj [], d => by rw [write]; exact .noMembers ws_nil
  | .obj ((k, j) :: l), d => by
    have := Denotes.obj (members_write l (d + 1) (ws_newline d) k (denotes_write j (d + 1)))
    rw [write]
    simpa [quoted] using this
theorem elems_write : ∀ (l : List J) (d : Nat) {w : Str}, Ws w → ∀ {t : Str} {j : J}, Denotes t j →
    Elems (newline d ++ (t ++ (writeL d l ++ w))) (j :: l)
  | [], d, w, hw, t, j, h => by
    rw [writeL, List.nil_append]
    exact .one (space_left (ws_newline d) (space_right h hw))
  | j' :: l, d, w, hw, t, j, h => by
    have := Elems.more (space_left (ws_newline d) h) (elems_write l d hw (denotes_write j' d))
    rw [writeL]
    simpa using this
theorem members_write : ∀ (l : List (Str × J)) (d : Nat) {w : Str}, Ws w → ∀ (k : Str) {t : Str} {j : J},
    Denotes t j →
    Members (newline d ++ (quoted k ++ (58 :: 32 :: (t ++ (writeF d l ++ w))))) ((k, j) :: l)
  | [], d, w, hw, k, t, j, h => by
    have h32 : Ws [32] := by intro c hc; simp at hc; omega
    have := Members.one (ws_newline d) (chars_quoted k) ws_nil (space_left h32 (space_right h hw))
    rw [writeF]
    simpa [quoted] using this
  | (k', j') :: l, d, w, hw, k, t, j, h => by
    have h32 : Ws [32] := by intro c hc; simp at hc; omega
    have := Members.more (ws_newline d) (chars_quoted k) ws_nil (space_left h32 h)
      (members_write l d hw k' (denotes_write j' d))
    rw [writeF]
    simpa [quoted] using this
end

end JsonText
end Verif
