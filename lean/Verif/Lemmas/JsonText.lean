import Verif.Model.JsonText
import Verif.Lemmas.Json
import Mathlib.Tactic.IntervalCases
/-
What `JsonText.write` writes, `JsonText.read` reads back; and it does not read a beginning of it.
-/
namespace Verif
namespace JsonText

theorem run_append (σ : Scan) (a b : Str) : run σ (a ++ b) = (run σ a).bind fun σ' => run σ' b := by
  induction a generalizing σ with
  | nil => rfl
  | cons c a ih =>
    simp only [List.cons_append, run]
    cases step σ c with
    | none => rfl
    | some σ' => exact ih σ'

theorem run_then {σ σ' : Scan} {a : Str} (h : run σ a = some σ') (b : Str) : run σ (a ++ b) = run σ' b := by
  rw [run_append, h]; rfl

theorem run_cons {σ σ' : Scan} {c : Nat} (h : step σ c = some σ') (b : Str) : run σ (c :: b) = run σ' b := by
  simp only [run, h]

/-! ### Strings -/

theorem run_escape (stk : List Frame) (s : Str) (c : Nat) :
    run ⟨stk, .text s⟩ (escape c) = some ⟨stk, .text (c :: s)⟩ := by
  by_cases h : c < 32
  · interval_cases c <;>
      simp [escape, hexEncode, hexDigit, run, step, hexVal, utf8]
  · by_cases h1 : c = 34
    · subst h1; simp [escape, run, step]
    by_cases h2 : c = 92
    · subst h2; simp [escape, run, step]
    by_cases h3 : c = 60
    · subst h3; simp [escape, hexEncode, hexDigit, run, step, hexVal, utf8]
    by_cases h4 : c = 62
    · subst h4; simp [escape, hexEncode, hexDigit, run, step, hexVal, utf8]
    by_cases h5 : c = 38
    · subst h5; simp [escape, hexEncode, hexDigit, run, step, hexVal, utf8]
    have e : escape c = [c] := by
      unfold escape
      rw [if_neg h1, if_neg h2, if_neg (by omega), if_neg (by omega), if_neg (by omega), if_neg (by omega),
        if_neg (by omega), if_neg (by omega)]
    rw [e]
    simp [run, step, h1, h2, h]

theorem run_text (stk : List Frame) (s t : Str) :
    run ⟨stk, .text t⟩ (s.flatMap escape) = some ⟨stk, .text (s.reverse ++ t)⟩ := by
  induction s generalizing t with
  | nil => rfl
  | cons c s ih =>
    rw [List.flatMap_cons, run_then (run_escape stk t c), ih]
    simp

theorem run_quoted {σ : Scan} {stk : List Frame} (h : step σ 34 = some ⟨stk, .text []⟩) (s : Str) :
    run σ (quoted s) = some (endText stk s) := by
  unfold quoted
  rw [run_cons h, run_then (run_text stk s [])]
  simp [run, step]

/-! ### Numbers -/

theorem run_digits {stk : List Frame} {neg : Bool} {σ : Scan}
    (h : ∀ c, 48 ≤ c → c ≤ 57 → step σ c = some ⟨stk, .num neg (c - 48)⟩) (k n : Nat) (hn : n < 10 ^ (k + 1)) :
    run σ (decDigits (k + 1) n) = some ⟨stk, .num neg n⟩ := by
  induction k generalizing n with
  | zero =>
    have hn : n < 10 := by simpa using hn
    rw [decDigits, if_pos hn, run_cons (h (48 + n) (by omega) (by omega))]
    simp [run]
  | succ k ih =>
    rw [decDigits]
    split
    · rw [run_cons (h (48 + n) (by omega) (by omega))]
      simp [run]
    · rename_i h10
      rw [run_then (ih (n / 10) (by rw [Nat.pow_succ] at hn; omega))]
      have : step ⟨stk, .num neg (n / 10)⟩ (48 + n % 10) = some ⟨stk, .num neg n⟩ := by
        have e : 10 * (n / 10) + (48 + n % 10 - 48) = n := by omega
        simp only [step]
        rw [if_pos (by omega), if_neg (by omega), e]
      rw [run_cons this]
      rfl

theorem run_natText {stk : List Frame} {neg : Bool} {σ : Scan}
    (h : ∀ c, 48 ≤ c → c ≤ 57 → step σ c = some ⟨stk, .num neg (c - 48)⟩) (n : Nat) :
    run σ (natText n) = some ⟨stk, .num neg n⟩ :=
  run_digits h n n (lt_trans (Nat.lt_pow_self (by norm_num)) (Nat.pow_lt_pow_right (by norm_num) (by omega)))

/-- a value is complete -/
inductive Done (stk : List Frame) (j : J) : Scan → Prop
  | after : Done stk j ⟨stk, .after j⟩
  | num {neg n} : j = numJ neg n → Done stk j ⟨stk, .num neg n⟩

theorem Done.step {stk j σ} (h : Done stk j σ) {c : Nat} (hc : ¬ (48 ≤ c ∧ c ≤ 57)) :
    step σ c = stepAfter stk j c := by
  cases h with
  | after => rfl
  | num e => subst e; simp only [JsonText.step]; rw [if_neg hc]

theorem run_intText (stk : List Frame) (n : Int) :
    ∃ σ, run ⟨stk, .value⟩ (intText n) = some σ ∧ Done stk (.num n) σ := by
  have hd : ∀ c, 48 ≤ c → c ≤ 57 → step ⟨stk, .value⟩ c = some ⟨stk, .num false (c - 48)⟩ := by
    intro c h1 h2
    have hs : isSpace c = false := by
      unfold isSpace
      simp only [Bool.or_eq_false_iff, decide_eq_false_iff_not]
      omega
    simp only [step, stepValue, hs]
    rw [if_neg (by simp), if_neg (by omega), if_neg (by omega), if_neg (by omega), if_neg (by omega),
      if_neg (by omega), if_neg (by omega), if_neg (by omega), if_pos ⟨h1, h2⟩]
  unfold intText
  split
  · rename_i hneg
    refine ⟨⟨stk, .num true n.natAbs⟩, ?_, .num ?_⟩
    · have h1 : step ⟨stk, .value⟩ 45 = some ⟨stk, .minus⟩ := by simp [step, stepValue, isSpace]
      rw [run_cons h1]
      refine run_natText (fun c h1 h2 => ?_) _
      simp only [step]
      rw [if_pos ⟨h1, h2⟩]
    · unfold numJ
      rw [if_pos rfl]
      congr 1
      omega
  · refine ⟨⟨stk, .num false n.natAbs⟩, run_natText hd _, .num ?_⟩
    unfold numJ
    rw [if_neg (by simp)]
    congr 1
    omega

/-! ### Documents -/

theorem run_newline {σ : Scan} (h : ∀ c, isSpace c = true → step σ c = some σ) (d : Nat) :
    run σ (newline d) = some σ := by
  have : ∀ l : Str, (∀ c ∈ l, isSpace c = true) → run σ l = some σ := by
    intro l hl
    induction l with
    | nil => rfl
    | cons c l ih =>
      rw [run_cons (h c (hl c (by simp)))]
      exact ih fun x hx => hl x (List.mem_cons_of_mem _ hx)
  apply this
  intro c hc
  unfold newline at hc
  rcases List.mem_cons.mp hc with rfl | hc
  · rfl
  · rw [(List.mem_replicate.mp hc).2]; rfl

theorem Done.newline {stk j σ} (h : Done stk j σ) (d : Nat) (b : Str) :
    run σ (newline d ++ b) = run ⟨stk, .after j⟩ b := by
  have h2 : run ⟨stk, .after j⟩ (JsonText.newline d) = some ⟨stk, .after j⟩ := by
    apply run_newline
    intro c hc
    simp only [JsonText.step, stepAfter]
    rw [if_pos hc]
  have h3 : run σ (JsonText.newline d) = some ⟨stk, .after j⟩ := by
    unfold JsonText.newline at h2 ⊢
    simp only [run] at h2 ⊢
    rw [h.step (by omega)]
    exact h2
  exact run_then h3 b

/-- the innermost frame does not wait for a key -/
def WantsValue (stk : List Frame) : Prop := ∀ l st, stk ≠ .obj l :: st

theorem endText_value {stk : List Frame} (h : WantsValue stk) (s : Str) :
    endText stk s = ⟨stk, .after (.str s)⟩ := by
  unfold endText
  split
  · rename_i l st
    exact absurd rfl (h l st)
  · rfl

theorem write_head (d : Nat) (j : J) : ∃ c r, write d j = c :: r ∧ isSpace c = false ∧ c ≠ 93 := by
  cases j with
  | null => exact ⟨_, _, rfl, rfl, by decide⟩
  | bool b => cases b <;> exact ⟨_, _, rfl, rfl, by decide⟩
  | num n =>
    have hn : ∀ k m, ∃ c r, decDigits (k + 1) m = c :: r ∧ 48 ≤ c ∧ c ≤ 57 := by
      intro k
      induction k with
      | zero =>
        intro m
        rw [decDigits]
        split
        · exact ⟨_, _, rfl, by omega, by omega⟩
        · exact ⟨_, _, rfl, by omega, by omega⟩
      | succ k ih =>
        intro m
        rw [decDigits]
        split
        · exact ⟨_, _, rfl, by omega, by omega⟩
        · obtain ⟨c, r, e, h⟩ := ih (m / 10)
          exact ⟨c, r ++ [48 + m % 10], by rw [e]; rfl, h⟩
    simp only [write, intText]
    split
    · exact ⟨_, _, rfl, rfl, by decide⟩
    · obtain ⟨c, r, e, h1, h2⟩ := hn n.natAbs n.natAbs
      refine ⟨c, r, e, ?_, by omega⟩
      unfold isSpace
      simp only [Bool.or_eq_false_iff, decide_eq_false_iff_not]
      omega
  | str s => exact ⟨_, _, by rw [write, quoted], rfl, by decide⟩
  | arr l =>
    cases l with
    | nil => exact ⟨_, _, by rw [write], rfl, by decide⟩
    | cons j l => exact ⟨_, _, by rw [write], rfl, by decide⟩
  | obj l =>
    cases l with
    | nil => exact ⟨_, _, by rw [write], rfl, by decide⟩
    | cons p l => exact ⟨_, _, by rw [write], rfl, by decide⟩

theorem run_orEnd (stk : List Frame) (d : Nat) (j : J) (b : Str) :
    run ⟨stk, .valueOrEnd⟩ (write d j ++ b) = run ⟨stk, .value⟩ (write d j ++ b) := by
  obtain ⟨c, r, e, h1, h2⟩ := write_head d j
  rw [e, List.cons_append]
  simp only [run, step, h1]
  rw [if_neg (by simp), if_neg h2]

theorem space_value (stk : List Frame) (m : Mode)
    (hm : m = .value ∨ m = .valueOrEnd ∨ m = .keyOrEnd ∨ m = .key) (c : Nat) (hc : isSpace c = true) :
    step ⟨stk, m⟩ c = some ⟨stk, m⟩ := by
  rcases hm with rfl | rfl | rfl | rfl <;> simp [step, stepValue, hc]

theorem run_colon (l : List (Str × J)) (st : List Frame) (k b : Str) :
    run (endText (.obj l :: st) k) (58 :: 32 :: b) = run ⟨.field l k :: st, .value⟩ b := by
  simp only [endText]
  rw [run_cons (σ' := ⟨.field l k :: st, .value⟩) (by simp [step, isSpace]),
    run_cons (space_value _ _ (Or.inl rfl) 32 rfl)]

mutual
theorem run_write : ∀ (j : J) (d : Nat) (stk : List Frame), WantsValue stk →
    ∃ σ, run ⟨stk, .value⟩ (write d j) = some σ ∧ Done stk j σ
  | .null, d, stk, _ => ⟨⟨stk, .after .null⟩, by simp [write, run, step, stepValue, isSpace], .after⟩
  | .bool b, d, stk, _ => ⟨⟨stk, .after (.bool b)⟩, by cases b <;> simp [write, run, step, stepValue, isSpace], .after⟩
  | .num n, d, stk, _ => by rw [write]; exact run_intText stk n
  | .str s, d, stk, h => by
    rw [write, run_quoted (stk := stk) (by simp [step, stepValue, isSpace]), endText_value h]
    exact ⟨_, rfl, .after⟩
  | .arr [], d, stk, _ => ⟨⟨stk, .after (.arr [])⟩, by simp [write, run, step, stepValue, isSpace], .after⟩
  | .arr (j :: l), d, stk, _ => by
    rw [write, run_cons (σ' := ⟨.arr [] :: stk, .valueOrEnd⟩) (by simp [step, stepValue, isSpace]),
      run_then (run_newline (fun c hc => space_value _ _ (by simp) c hc) _), run_orEnd]
    obtain ⟨σ, h1, h2⟩ := run_write j (d + 1) (.arr [] :: stk) (by intro l st; simp)
    rw [run_then h1, run_writeL l (d + 1) d stk [] j σ h2]
    exact ⟨_, rfl, by simp only [List.reverse_cons, List.reverse_nil, List.nil_append, List.singleton_append]; exact .after⟩
  | .obj [], d, stk, _ => ⟨⟨stk, .after (.obj [])⟩, by simp [write, run, step, stepValue, isSpace], .after⟩
  | .obj ((k, j) :: l), d, stk, _ => by
    rw [write, run_cons (σ' := ⟨.obj [] :: stk, .keyOrEnd⟩) (by simp [step, stepValue, isSpace]),
      run_then (run_newline (fun c hc => space_value _ _ (by simp) c hc) _),
      run_then (run_quoted (stk := .obj [] :: stk) (by simp [step, isSpace]) k), run_colon]
    obtain ⟨σ, h1, h2⟩ := run_write j (d + 1) (.field [] k :: stk) (by intro l st; simp)
    rw [run_then h1, run_writeF l (d + 1) d stk [] k j σ h2]
    exact ⟨_, rfl, by simp only [List.reverse_cons, List.reverse_nil, List.nil_append, List.singleton_append]; exact .after⟩
theorem run_writeL : ∀ (l : List J) (d d' : Nat) (st : List Frame) (acc : List J) (j : J) (σ : Scan),
    Done (.arr acc :: st) j σ → run σ (writeL d l ++ (newline d' ++ [93])) =
      some ⟨st, .after (.arr ((j :: acc).reverse ++ l))⟩
  | [], d, d', st, acc, j, σ, h => by
    rw [writeL, List.nil_append, h.newline]
    simp [run, step, stepAfter, isSpace]
  | j' :: l, d, d', st, acc, j, σ, h => by
    have e : step σ 44 = some ⟨.arr (j :: acc) :: st, .value⟩ := by
      rw [h.step (by omega)]; simp [stepAfter, isSpace]
    rw [writeL, List.cons_append, run_cons e, List.append_assoc, List.append_assoc,
      run_then (run_newline (fun c hc => space_value _ _ (by simp) c hc) _)]
    obtain ⟨σ', h1, h2⟩ := run_write j' d (.arr (j :: acc) :: st) (by intro l st; simp)
    rw [run_then h1, run_writeL l d d' st (j :: acc) j' σ' h2]
    simp
theorem run_writeF : ∀ (l : List (Str × J)) (d d' : Nat) (st : List Frame) (acc : List (Str × J)) (k : Str)
    (j : J) (σ : Scan), Done (.field acc k :: st) j σ → run σ (writeF d l ++ (newline d' ++ [125])) =
      some ⟨st, .after (.obj (((k, j) :: acc).reverse ++ l))⟩
  | [], d, d', st, acc, k, j, σ, h => by
    rw [writeF, List.nil_append, h.newline]
    simp [run, step, stepAfter, isSpace]
  | (k', j') :: l, d, d', st, acc, k, j, σ, h => by
    have e : step σ 44 = some ⟨.obj ((k, j) :: acc) :: st, .key⟩ := by
      rw [h.step (by omega)]; simp [stepAfter, isSpace]
    rw [writeF, List.cons_append, run_cons e, List.append_assoc, List.append_assoc, List.cons_append,
      List.cons_append, List.append_assoc,
      run_then (run_newline (fun c hc => space_value _ _ (by simp) c hc) _),
      run_then (run_quoted (stk := .obj ((k, j) :: acc) :: st) (by simp [step, isSpace]) k'), run_colon]
    obtain ⟨σ', h1, h2⟩ := run_write j' d (.field ((k, j) :: acc) k' :: st) (by intro l st; simp)
    rw [run_then h1, run_writeF l d d' st ((k, j) :: acc) k' j' σ' h2]
    simp
end

/-- what is written is read back -/
theorem read_write (j : J) : read (write 0 j) = some j := by
  obtain ⟨σ, h1, h2⟩ := run_write j 0 [] (by intro l st; simp)
  unfold read
  rw [h1]
  cases h2 with
  | after => rfl
  | num e => subst e; rfl

/-- a whole document has been read -/
theorem final_step {σ σ' : Scan} {j : J} {c : Nat} (h : finish σ = some j) (hs : step σ c = some σ') :
    (∃ j', finish σ' = some j') ∧ c ≠ 125 := by
  obtain ⟨stk, m⟩ := σ
  unfold finish at h
  dsimp only at h
  split at h
  · split at h
    · simp only [step, stepAfter] at hs
      split at hs
      · rename_i hc
        rw [Option.some.injEq] at hs
        subst hs
        exact ⟨⟨_, rfl⟩, by rintro rfl; simp [isSpace] at hc⟩
      · simp at hs
    · simp only [step] at hs
      split at hs
      · rename_i hd
        split at hs
        · simp at hs
        · rw [Option.some.injEq] at hs
          subst hs
          exact ⟨⟨_, rfl⟩, by omega⟩
      · simp only [stepAfter] at hs
        split at hs
        · rename_i hc
          rw [Option.some.injEq] at hs
          subst hs
          exact ⟨⟨_, rfl⟩, by rintro rfl; simp [isSpace] at hc⟩
        · simp at hs
    · simp at h
  · simp at h

theorem final_run {q : Str} {σ σ' : Scan} {j : J} (h : finish σ = some j) (hs : run σ q = some σ') :
    ∀ c ∈ q, c ≠ 125 := by
  induction q generalizing σ j with
  | nil => simp
  | cons c q ih =>
    simp only [run] at hs
    cases hc : step σ c with
    | none => rw [hc] at hs; simp at hs
    | some σ1 =>
      rw [hc] at hs
      obtain ⟨⟨j', hj⟩, hne⟩ := final_step h hc
      intro x hx
      rcases List.mem_cons.mp hx with rfl | hx
      · exact hne
      · exact ih hj hs x hx

theorem write_last (fs : List (Str × J)) : ∃ a, write 0 (.obj fs) = a ++ [125] := by
  cases fs with
  | nil => exact ⟨[123], rfl⟩
  | cons p l =>
    obtain ⟨k, j⟩ := p
    rw [write]
    exact ⟨123 :: (newline (0 + 1) ++ (quoted k ++ (58 :: 32 :: (write (0 + 1) j ++
      (writeF (0 + 1) l ++ newline 0))))), by simp⟩

/-- no proper beginning of an object is a document -/
theorem read_cut {fs : List (Str × J)} {p : Str} (h : p <+: write 0 (.obj fs)) (hne : p ≠ write 0 (.obj fs)) :
    read p = none := by
  obtain ⟨q, hq⟩ := h
  obtain ⟨a, ha⟩ := write_last fs
  cases hr : read p with
  | none => rfl
  | some j =>
    exfalso
    unfold read at hr
    cases h1 : run ⟨[], .value⟩ p with
    | none => rw [h1] at hr; simp at hr
    | some σ =>
      rw [h1] at hr
      obtain ⟨σ', h2, _⟩ := run_write (.obj fs) 0 [] (by intro l st; simp)
      rw [← hq, run_then h1] at h2
      have hall := final_run hr h2
      have hqn : q ≠ [] := by
        rintro rfl
        exact hne (by simpa using hq)
      obtain ⟨q', x, rfl⟩ : ∃ q' x, q = q' ++ [x] :=
        ⟨q.dropLast, q.getLast hqn, (List.dropLast_append_getLast hqn).symm⟩
      rw [ha, ← List.append_assoc] at hq
      have hx : x = 125 := by
        have := (List.append_inj' hq rfl).2
        simpa using this
      exact hall x (by simp) hx

end JsonText
end Verif
