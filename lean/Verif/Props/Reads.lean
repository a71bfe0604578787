import Verif.Props.Requests
import Verif.Props.Determinism
import Verif.Lemmas.Json
import Verif.Props.ApiInput
/-
Properties C78 and C79: reading root and slot of the contract, and the pending consolidations.
-/
namespace Verif

/-! ### C78 -/

/-- **C78.** The slot is one the contract showed while the oracle asked for it and the root one it showed
later or at the same time. -/
theorem C78_each {h : Nat → Str × Nat} {t0 t1 t2 n : Nat} {slots : Nat → Option Nat} {roots : Nat → Option Str}
    (hr : ContractReplies h t0 t1 t2 slots roots) {root : Str} {slot : Nat}
    (hs : SlotAndRoot n slots roots (some (root, slot))) :
    ∃ t t', t0 ≤ t ∧ t ≤ t' ∧ t' ≤ t2 ∧ slot = (h t).2 ∧ root = (h t').1 := by
  cases hs with
  | ok h1 h2 =>
    obtain ⟨k, _, h1, _⟩ := Retried.some_iff.mp h1
    obtain ⟨k', _, h2, _⟩ := Retried.some_iff.mp h2
    obtain ⟨t, a1, a2, a3⟩ := hr.slots k slot h1
    obtain ⟨t', b1, b2, b3⟩ := hr.roots k' root h2
    exact ⟨t, t', a1, by omega, b2, a3, b3⟩

/-- **C78** (partial). If no checkpoint is consolidated while the oracle asks, root and slot belong
together. Missing: the condition, without which the claim is false, see `C78_false_consolidated_between`. -/
theorem C78_pair_partial {h : Nat → Str × Nat} {t0 t1 t2 n : Nat} {slots : Nat → Option Nat}
    {roots : Nat → Option Str} (hr : ContractReplies h t0 t1 t2 slots roots)
    (hc : ∀ t, t0 ≤ t → t ≤ t2 → h t = h t0) {root : Str} {slot : Nat}
    (hs : SlotAndRoot n slots roots (some (root, slot))) : (root, slot) = h t0 := by
  obtain ⟨t, t', h1, h2, h3, rfl, rfl⟩ := C78_each hr hs
  rw [hc t h1 (by omega), hc t' (by omega) h3]

/-- **C78 is false.** If the contract moves on to another root and another slot between the two calls, the
oracle sees the new root with the old slot, a pair the contract never had. -/
theorem C78_false_consolidated_between {r r' : Str} {s s' : Nat} (hr : r ≠ r') (hs : s ≠ s') (n : Nat) :
    ∃ h slots roots, (∀ t, h t = (r, s) ∨ h t = (r', s')) ∧ ContractReplies h 0 0 1 slots roots ∧
      SlotAndRoot n slots roots (some (r', s)) ∧ ∀ t, h t ≠ (r', s) := by
  refine ⟨fun t => if t = 0 then (r, s) else (r', s'), fun _ => some s, fun _ => some r', ?_, ?_, ?_, ?_⟩
  · intro t; dsimp only; split
    · exact Or.inl rfl
    · exact Or.inr rfl
  · refine ⟨fun k x h => ⟨0, Nat.le_refl _, Nat.le_refl _, ?_⟩, fun k x h => ⟨1, by omega, Nat.le_refl _, ?_⟩⟩
    · cases h; rfl
    · cases h; rfl
  · exact .ok (.done rfl) (.done rfl)
  · intro t e
    dsimp only at e
    split at e
    · exact hr (congrArg Prod.fst e)
    · exact hs (congrArg Prod.snd e).symm

/-- A reading with a failed attempt in each of the two calls. -/
example : SlotAndRoot 0 (fun k => if k = 0 then none else some 7) (fun k => if k < 2 then none else some b!"0xab")
      (some (b!"0xab", 7)) ∧
    ContractReplies (fun _ => (b!"0xab", 7)) 0 5 9 (fun k => if k = 0 then none else some 7)
      (fun k => if k < 2 then none else some b!"0xab") := by
  refine ⟨.ok (.again rfl (Or.inl rfl) (.done rfl))
    (.again rfl (Or.inl rfl) (.again rfl (Or.inl rfl) (.done rfl))), ⟨?_, ?_⟩⟩
  · intro k s h
    split at h
    · cases h
    · cases h; exact ⟨0, by omega, by omega, rfl⟩
  · intro k s h
    split at h
    · cases h
    · cases h; exact ⟨5, by omega, by omega, rfl⟩

/-! ### C79 -/

theorem keyValue_iff {fs : List (Str × J)} {key : Str} {x : Option J} : KeyValue fs key x ↔ J.field fs key = x := by
  unfold KeyValue J.field
  induction fs using List.reverseRecOn generalizing x with
  | nil =>
    constructor
    · rintro (⟨rfl, _⟩ | ⟨_, pre, _, _, _, h, _⟩)
      · rfl
      · have := congrArg List.length h
        simp at this
    · rintro rfl
      exact Or.inl ⟨rfl, fun p hp => by cases hp⟩
  | append_singleton fs p ih =>
    obtain ⟨k, v⟩ := p
    rw [List.filter_append]
    by_cases hk : lower k = lower key
    · have e : List.filter (fun p => lower p.1 == lower key) [(k, v)] = [(k, v)] := by simp [hk]
      rw [e, List.getLast?_concat]
      constructor
      · rintro (⟨_, h⟩ | ⟨w, pre, k', post, rfl, h1, h2, h3⟩)
        · exact absurd hk (h (k, v) (by simp))
        · rcases List.eq_nil_or_concat post with rfl | ⟨post', q, rfl⟩
          · have := List.append_inj_right' h1 rfl
            cases this; rfl
          · have h1' : fs ++ [(k, v)] = (pre ++ (k', w) :: post') ++ [q] := by simp [h1]
            have := List.append_inj_right' h1' rfl
            cases this
            exact absurd hk (h3 (k, v) (by simp))
      · rintro rfl
        exact Or.inr ⟨v, fs, k, [], rfl, rfl, hk, by simp⟩
    · have e : List.filter (fun p => lower p.1 == lower key) [(k, v)] = [] := by simp [hk]
      rw [e, List.append_nil, ← ih]
      constructor
      · rintro (⟨rfl, h⟩ | ⟨w, pre, k', post, rfl, h1, h2, h3⟩)
        · exact Or.inl ⟨rfl, fun p hp => h p (by simp [hp])⟩
        · rcases List.eq_nil_or_concat post with rfl | ⟨post', q, rfl⟩
          · have := List.append_inj_right' h1 rfl
            cases this
            exact absurd h2 hk
          · have h1' : fs ++ [(k, v)] = (pre ++ (k', w) :: post') ++ [q] := by simp [h1]
            have := List.append_inj_left' h1' rfl
            exact Or.inr ⟨w, pre, k', post', rfl, this, h2, fun p hp => h3 p (by simp [hp])⟩
      · rintro (⟨rfl, h⟩ | ⟨w, pre, k', post, rfl, h1, h2, h3⟩)
        · refine Or.inl ⟨rfl, fun p hp => ?_⟩
          rcases List.mem_append.mp hp with hp | hp
          · exact h p hp
          · rw [List.mem_singleton] at hp; subst hp; exact hk
        · refine Or.inr ⟨w, pre, k', post ++ [(k, v)], rfl, by simp [h1], h2, fun p hp => ?_⟩
          rcases List.mem_append.mp hp with hp | hp
          · exact h3 p hp
          · rw [List.mem_singleton] at hp; subst hp; exact hk

theorem decPending_writes {p : Nat × Nat} {j : J} (h1 : p.1 < 2 ^ 64) (h2 : p.2 < 2 ^ 64)
    (h : WritesPending p j) : decPending j = some p := by
  obtain ⟨fs, rfl, h3, h4⟩ := h
  rw [keyValue_iff] at h3 h4
  simp only [decPending, h3, h4, decPending.index, parseUint_decimal (n := p.1) h1,
    parseUint_decimal (n := p.2) h2]
  rfl

theorem mapM_some {α β : Type} {f : α → Option β} {R : β → α → Prop} {ps : List β} {js : List α}
    (h : List.Forall₂ R ps js) (hf : ∀ p ∈ ps, ∀ j, R p j → f j = some p) : js.mapM f = some ps := by
  induction h with
  | nil => rfl
  | cons h1 _ ih =>
    rw [List.mapM_cons, hf _ List.mem_cons_self _ h1, ih (fun p hp => hf p (List.mem_cons_of_mem _ hp))]
    rfl

/-- **C79.** A list of pending consolidations is read as it was sent, in the same order. -/
theorem C79_listed {ps : List (Nat × Nat)} {body : J} (h : ListsPending ps body)
    (hb : ∀ p ∈ ps, p.1 < 2 ^ 64 ∧ p.2 < 2 ^ 64) : pendingAttempt (.answer 200 (some body)) = some ps := by
  obtain ⟨fs, js, rfl, h1, h2⟩ := h
  rw [keyValue_iff] at h1
  simp only [pendingAttempt, ne_eq, not_true, if_false, h1, getArr]
  exact mapM_some h2 fun p hp j hj => decPending_writes (hb p hp).1 (hb p hp).2 hj

/-- **C79.** Any failure, any status but 200 and any body that is not a JSON object or `null` is an error,
and the request is repeated. -/
theorem C79_errors_repeated {r : PendingReply} {ps : List (Nat × Nat)} (h : pendingAttempt r = some ps) :
    ∃ body, r = .answer 200 (some body) ∧ (body = .null ∨ ∃ fs, body = .obj fs) := by
  cases r with
  | broken => cases h
  | answer status body =>
    simp only [pendingAttempt] at h
    split at h
    · cases h
    · rename_i hs
      simp only [ne_eq, not_not] at hs
      subst hs
      split at h
      · exact ⟨_, rfl, Or.inr ⟨_, rfl⟩⟩
      · exact ⟨_, rfl, Or.inl rfl⟩
      · cases h

theorem parseUint_iff (v : Str) (n : Nat) :
    parseUint v = some n ↔ Numeral v ∧ numeralValue v = n ∧ n < 2 ^ 64 := by
  unfold parseUint Numeral
  have hv : (v.all fun c => 48 ≤ c && c ≤ 57) = true ↔ ∀ c ∈ v, 48 ≤ c ∧ c ≤ 57 := by
    simp only [List.all_eq_true, Bool.and_eq_true, decide_eq_true_eq]
  have hn : v.foldl (fun a c => a * 10 + (c - 48)) 0 = numeralValue v := by
    rw [foldl_value]; omega
  split
  · rename_i h
    constructor
    · intro h; cases h
    · rintro ⟨⟨h1, h2⟩, _⟩
      rcases h with h | h
      · exact absurd h h1
      · exact absurd (hv.mpr h2) h
  · rename_i h
    rw [not_or, not_not, hv] at h
    dsimp only
    rw [hn]
    split
    · rename_i h'
      simp only [Option.some.injEq]
      exact ⟨fun e => ⟨h, e, e ▸ h'⟩, fun e => e.2.1⟩
    · rename_i h'
      constructor
      · intro h; cases h
      · rintro ⟨_, rfl, h1⟩; exact absurd h1 h'

theorem index_iff (fs : List (Str × J)) (key : Str) (n : Nat) :
    decPending.index (J.field fs key) = some n ↔ FieldReads fs key n := by
  unfold FieldReads
  simp only [keyValue_iff]
  cases J.field fs key with
  | none => simp [decPending.index, eq_comm]
  | some j =>
    cases j <;> simp [decPending.index, parseUint_iff]

theorem decPending_iff (j : J) (p : Nat × Nat) : decPending j = some p ↔ PendingReads p j := by
  unfold PendingReads
  cases j <;> simp [decPending]
  · simp [eq_comm]
  · rename_i fs
    obtain ⟨a, b⟩ := p
    simp only [Option.bind_eq_some_iff, Option.some.injEq, Prod.mk.injEq, index_iff]
    constructor
    · rintro ⟨s, h1, t, h2, rfl, rfl⟩; exact ⟨h1, h2⟩
    · rintro ⟨h1, h2⟩; exact ⟨a, h1, b, h2, rfl, rfl⟩

theorem mapM_iff {α β : Type} {f : α → Option β} {R : β → α → Prop} (hf : ∀ j p, f j = some p ↔ R p j)
    {js : List α} : ∀ {ps : List β}, js.mapM f = some ps ↔ List.Forall₂ R ps js := by
  induction js with
  | nil => intro ps; cases ps <;> simp
  | cons j js ih =>
    intro ps
    rw [List.mapM_cons]
    cases ps with
    | nil =>
      constructor
      · intro h
        simp only [Option.bind_eq_bind, Option.bind_eq_some_iff, Option.pure_def, Option.some.injEq] at h
        obtain ⟨_, _, _, _, h⟩ := h
        cases h
      · intro h; cases h
    | cons p ps =>
      simp only [Option.bind_eq_bind, Option.bind_eq_some_iff, Option.pure_def, Option.some.injEq,
        List.cons.injEq, List.forall₂_cons, hf, ih]
      constructor
      · rintro ⟨a, h1, b, h2, rfl, rfl⟩; exact ⟨h1, h2⟩
      · rintro ⟨h1, h2⟩; exact ⟨p, h1, ps, h2, rfl, rfl⟩

/-- **C79.** Exactly what is read from an answer: every number of the list is a quoted decimal below 2^64 or
missing, and anything else is an error. -/
theorem C79_reads (r : PendingReply) (ps : List (Nat × Nat)) :
    pendingAttempt r = some ps ↔ ∃ body, r = .answer 200 (some body) ∧ BodyReads ps body := by
  unfold BodyReads
  simp only [keyValue_iff]
  constructor
  · intro h
    obtain ⟨body, rfl, h1⟩ := C79_errors_repeated h
    refine ⟨body, rfl, ?_⟩
    rcases h1 with rfl | ⟨fs, rfl⟩
    · simp only [pendingAttempt, ne_eq, not_true, if_false, Option.some.injEq] at h
      exact Or.inl ⟨rfl, h.symm⟩
    · refine Or.inr ⟨fs, rfl, ?_⟩
      simp only [pendingAttempt, ne_eq, not_true, if_false, getArr] at h
      split at h
      · rename_i hd; exact Or.inl ⟨Or.inl hd, (Option.some.inj h).symm⟩
      · rename_i hd; exact Or.inl ⟨Or.inr hd, (Option.some.inj h).symm⟩
      · rename_i js hd; exact Or.inr ⟨js, hd, (mapM_iff decPending_iff).mp h⟩
      · cases h
  · rintro ⟨body, rfl, ⟨rfl, rfl⟩ | ⟨fs, rfl, ⟨hd | hd, rfl⟩ | ⟨js, hd, h⟩⟩⟩
    · rfl
    · simp [pendingAttempt, hd, getArr]
    · simp [pendingAttempt, hd, getArr]
    · simp only [pendingAttempt, ne_eq, not_true, if_false, hd, getArr]
      exact (mapM_iff decPending_iff).mpr h

/-- A body with an unquoted number is an error. -/
example : pendingAttempt (.answer 200 (some (.obj [(b!"data", .arr
    [.obj [(b!"source_index", .num 9), (b!"target_index", .str b!"1")]])]))) = none := rfl

/-- **C79** (partial). If the answers of the beacon node list the pending consolidations of the slot, the
oracle works with exactly this list, whatever fails in between. Missing: a body without such a list, for
which the claim is false, see `C79_false_no_list`. -/
theorem C79_read_partial {n : Nat} {f : Nat → PendingReply} {ps r : List (Nat × Nat)}
    (hb : ∀ p ∈ ps, p.1 < 2 ^ 64 ∧ p.2 < 2 ^ 64)
    (hf : ∀ k body, f k = .answer 200 (some body) → ListsPending ps body)
    (h : Retried n (fun k => pendingAttempt (f k)) 0 (some r)) : r = ps := by
  obtain ⟨k, _, h1, _⟩ := Retried.some_iff.mp h
  obtain ⟨body, e, _⟩ := C79_errors_repeated h1
  rw [e, C79_listed (hf k body e) hb] at h1
  exact (Option.some.inj h1).symm

namespace Sample

/-- the environment of `left_reads`, but the node answers the question for consolidations with an empty
object -/
def noListEnv : Env := { leftEnv 1 false with consol := fun _ _ => some [] }

end Sample

/-- **C79 is false.** A success without a list (an empty object, say) is not an error: there is no retry,
and the oracle goes on as if nothing were pending. At a cleanup, the pending balance of a validator that is
being consolidated is then lost to its owner: in the sample 1 gets all of it from 9 with
the list, and without it the pool takes a fee and the rest is shared. -/
theorem C79_false_no_list :
    (∀ n (f : Nat → PendingReply) fs, f 0 = .answer 200 (some (.obj fs)) →
      (KeyValue fs b!"data" none ∨ KeyValue fs b!"data" (some .null)) →
      Retried n (fun k => pendingAttempt (f k)) 0 (some [])) ∧
    ∃ o1 o2, advanceState (Sample.leftEnv 1 false) Sample.leftOracle (Sample.miss 12000000 2) =
        .ok (o1, some 12000000) ∧
      advanceState Sample.noListEnv Sample.leftOracle (Sample.miss 12000000 2) = .ok (o2, some 12000000) ∧
      ¬ SameBooks o1 o2 := by
  refine ⟨?_, ?_⟩
  · intro n f fs h h'
    refine .done ?_
    rw [h]
    rw [keyValue_iff, keyValue_iff] at h'
    rcases h' with h' | h' <;> simp [pendingAttempt, h', getArr]
  · obtain ⟨⟨o1, m⟩, h, hm⟩ := Sample.ex_ok
      (x := advanceState (Sample.leftEnv 1 false) Sample.leftOracle (Sample.miss 12000000 2))
      (P := fun p => p.2 == some 12000000 && ((VMap.get p.1.st.vals 1).map (·.pend)) == some 11179)
      (by decide +kernel)
    obtain ⟨⟨o1', m'⟩, h', hm'⟩ := Sample.ex_ok
      (x := advanceState Sample.noListEnv Sample.leftOracle (Sample.miss 12000000 2))
      (P := fun p => p.2 == some 12000000 && !(((VMap.get p.1.st.vals 1).map (·.pend)) == some 11179))
      (by decide +kernel)
    simp only [Bool.and_eq_true, Bool.not_eq_true', beq_iff_eq, beq_eq_false_iff_ne, ne_eq] at hm hm'
    obtain ⟨rfl, hm⟩ := hm
    obtain ⟨rfl, hm'⟩ := hm'
    refine ⟨o1, o1', h, h', ?_⟩
    rintro ⟨_, e⟩
    have : o1.st.vals = o1'.st.vals := by have := congrArg State.vals e; exact this
    rw [this] at hm
    exact hm' hm

/-- The list (9, 1), (4, 2) as the beacon API writes it, after a failed attempt. -/
example : ∃ f : Nat → PendingReply, f 0 = .answer 503 none ∧
    (∀ k body, f k = .answer 200 (some body) → ListsPending [(9, 1), (4, 2)] body) ∧
    Retried 0 (fun k => pendingAttempt (f k)) 0 (some [(9, 1), (4, 2)]) := by
  have key : ListsPending [(9, 1), (4, 2)] (.obj [(b!"version", .str b!"electra"), (b!"data", .arr
      [.obj [(b!"source_index", .str b!"9"), (b!"target_index", .str b!"1")],
       .obj [(b!"source_index", .str b!"4"), (b!"target_index", .str b!"2")]])]) := by
    refine ⟨_, _, rfl, keyValue_iff.mpr rfl, ?_⟩
    exact .cons ⟨_, rfl, keyValue_iff.mpr rfl, keyValue_iff.mpr rfl⟩
      (.cons ⟨_, rfl, keyValue_iff.mpr rfl, keyValue_iff.mpr rfl⟩ .nil)
  refine ⟨fun k => if k = 0 then .answer 503 none else .answer 200 (some (.obj [(b!"version", .str b!"electra"),
    (b!"data", .arr [.obj [(b!"source_index", .str b!"9"), (b!"target_index", .str b!"1")],
       .obj [(b!"source_index", .str b!"4"), (b!"target_index", .str b!"2")]])])), rfl, ?_, ?_⟩
  · intro k body h
    dsimp only at h
    split at h
    · cases h
    · cases h; exact key
  · exact .again rfl (Or.inl rfl) (.done (C79_listed key (by decide)))

end Verif
