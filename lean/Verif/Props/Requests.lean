import Verif.Spec.Requests
import Verif.Props.Fetch
import Verif.Props.MainLoop
import Verif.Props.Merkle
/-
Properties C75 to C79: requests, retries and what the oracle hears.
-/
namespace Verif

/-! ### Retries -/

theorem Retried.some_iff {α : Type} {n : Nat} {f : Nat → Option α} {j : Nat} {a : α} :
    Retried n f j (some a) ↔ ∃ k, j ≤ k ∧ f k = some a ∧ (∀ i, j ≤ i → i < k → f i = none) ∧
      (n = 0 ∨ k = j ∨ k < n) := by
  constructor
  · intro h
    generalize hr : some a = r at h
    induction h with
    | done h =>
      cases hr
      exact ⟨_, Nat.le_refl _, h, fun i h1 h2 => absurd h1 (by omega), Or.inr (Or.inl rfl)⟩
    | again h h' _ ih =>
      obtain ⟨k, h1, h2, h3, h4⟩ := ih hr
      refine ⟨k, by omega, h2, ?_, ?_⟩
      · intro i h5 h6
        rcases Nat.eq_or_lt_of_le h5 with rfl | h5
        · exact h
        · exact h3 i h5 h6
      · rcases h' with h' | h'
        · exact Or.inl h'
        · rcases h4 with h4 | h4 | h4
          · exact Or.inl h4
          · right; right; omega
          · exact Or.inr (Or.inr h4)
    | gaveUp => cases hr
  · rintro ⟨k, h1, h2, h3, h4⟩
    obtain ⟨d, rfl⟩ := Nat.le.dest h1
    induction d generalizing j with
    | zero => exact .done h2
    | succ d ih =>
      refine .again (h3 j (Nat.le_refl _) (by omega)) (by omega) ?_
      exact ih (j := j + 1) (by omega) (by rw [← h2]; congr 1; omega)
        (fun i h5 h6 => h3 i (by omega) (by omega)) (by omega)

theorem Retried.none_iff {α : Type} {n : Nat} {f : Nat → Option α} {j : Nat} :
    Retried n f j none ↔ n ≠ 0 ∧ f j = none ∧ ∀ i, j ≤ i → i < n → f i = none := by
  constructor
  · intro h0
    obtain ⟨r, hr, h⟩ : ∃ r, r = none ∧ Retried n f j r := ⟨none, rfl, ‹_›⟩
    clear * - h hr
    induction h with
    | done => cases hr
    | again h h' _ ih =>
      obtain ⟨h1, h2, h3⟩ := ih hr
      refine ⟨h1, h, fun i h5 h6 => ?_⟩
      rcases Nat.eq_or_lt_of_le h5 with rfl | h5
      · exact h
      · exact h3 i h5 h6
    | gaveUp h h1 h2 =>
      refine ⟨h1, h, fun i h5 h6 => ?_⟩
      have : i = _ := Nat.le_antisymm (by omega) h5
      rw [this]; exact h
  · rintro ⟨h1, h2, h3⟩
    obtain ⟨d, hd⟩ : ∃ d, n ≤ j + 1 + d := ⟨n, by omega⟩
    induction d generalizing j with
    | zero => exact .gaveUp h2 h1 (by omega)
    | succ d ih =>
      by_cases hj : j + 1 < n
      · exact .again h2 (Or.inr hj) (ih (h3 _ (by omega) hj) (fun i h5 h6 => h3 i (by omega) h6) (by omega))
      · exact .gaveUp h2 h1 hj

/-! ### Text -/

theorem containsText_iff {sub s : Str} : containsText sub s = true ↔ SpeltIn sub s := by
  induction s with
  | nil =>
    simp only [containsText, List.isPrefixOf_iff_prefix, SpeltIn]
    constructor
    · rintro ⟨t, h⟩; exact ⟨[], t, h.symm⟩
    · rintro ⟨p, q, h⟩
      have h := h.symm
      simp only [List.append_eq_nil_iff] at h
      exact ⟨[], by rw [h.1.2]; rfl⟩
  | cons c cs ih =>
    simp only [containsText, Bool.or_eq_true, List.isPrefixOf_iff_prefix, ih]
    constructor
    · rintro (⟨t, h⟩ | ⟨p, q, h⟩)
      · exact ⟨[], t, h.symm⟩
      · exact ⟨c :: p, q, by rw [h]; rfl⟩
    · rintro ⟨p, q, h⟩
      cases p with
      | nil => exact Or.inl ⟨q, h.symm⟩
      | cons x p =>
        right
        simp only [List.cons_append, List.cons.injEq] at h
        exact ⟨p, q, h.2⟩

theorem SpeltIn.append_left {sub s : Str} (h : SpeltIn sub s) (t : Str) : SpeltIn sub (t ++ s) := by
  obtain ⟨p, q, rfl⟩ := h; exact ⟨t ++ p, q, by simp⟩

theorem SpeltIn.append_right {sub s : Str} (h : SpeltIn sub s) (t : Str) : SpeltIn sub (s ++ t) := by
  obtain ⟨p, q, rfl⟩ := h; exact ⟨p, q ++ t, by simp⟩

theorem decDigits_404 {k n j : Nat} (hk : j + 3 ≤ k) (h : n / 10 ^ j % 1000 = 404) :
    SpeltIn b!"404" (decDigits k n) := by
  induction j generalizing k n with
  | zero =>
    simp only [Nat.pow_zero, Nat.div_one] at h
    obtain ⟨k, rfl⟩ : ∃ k', k = k' + 3 := ⟨k - 3, by omega⟩
    have e1 : n % 10 = 4 := by omega
    have e2 : n / 10 % 10 = 0 := by omega
    have e3 : n / 10 / 10 % 10 = 4 := by omega
    have key : ∀ m, m % 10 = 4 → ∃ p, decDigits (k + 1) m = p ++ [52] := by
      intro m hm
      rw [decDigits]
      split
      · exact ⟨[], by have : m = 4 := by omega
                      rw [this]; rfl⟩
      · exact ⟨_, by rw [hm]⟩
    obtain ⟨p, hp⟩ := key _ e3
    refine ⟨p, [], ?_⟩
    rw [decDigits, if_neg (by omega), decDigits, if_neg (by omega), hp, e1, e2]
    simp
  | succ j ih =>
    obtain ⟨k, rfl⟩ : ∃ k', k = k' + 1 := ⟨k - 1, by omega⟩
    have hn : ¬ n < 10 := by
      intro hlt
      have : n / 10 ^ (j + 1) = 0 := Nat.div_eq_of_lt (by
        have : 10 ^ 1 ≤ 10 ^ (j + 1) := Nat.pow_le_pow_right (by decide) (by omega)
        omega)
      rw [this] at h; simp at h
    rw [decDigits, if_neg hn]
    refine SpeltIn.append_right (ih (by omega) ?_) _
    rw [Nat.div_div_eq_div_mul, Nat.mul_comm, ← Nat.pow_succ]; exact h

/-! ### C75 -/

theorem blockAttempt_none {address : Str} {slot : Nat} {r : BlockReply}
    (h : blockAttempt address slot r = some none) :
    (∃ code body, r = .status code body) ∨ ∃ pre post, r = .broken pre post := by
  cases r with
  | block c => simp [blockAttempt] at h
  | status code body => exact Or.inl ⟨_, _, rfl⟩
  | broken pre post => exact Or.inr ⟨_, _, rfl⟩

/-- **C75** (partial). If the oracle takes a slot as missed, the beacon node has answered that it has no
block for it, provided that no other error at this slot has "404" in its text. Missing: that proviso,
without which the claim is false, see `C75_false_lost_connection`. -/
theorem C75_missed_partial {n : Nat} {W : Wire} {C : Chain} (hh : Heard n W C) {slot : Nat}
    (hs : NoStray404 W slot) (h : C.cons slot = some none) :
    ∃ k body, W.block slot k = .status 404 body := by
  obtain ⟨k, _, h1, _⟩ := Retried.some_iff.mp (hh.cons slot _ h)
  rcases blockAttempt_none h1 with ⟨code, body, e⟩ | ⟨pre, post, e⟩
  · by_cases hc : code = 404
    · subst hc; exact ⟨k, body, e⟩
    · exfalso
      rw [e] at h1
      simp only [blockAttempt] at h1
      split at h1
      · rename_i hx
        exact hs.1 k code body e hc (containsText_iff.mp hx)
      · cases h1
  · exfalso
    rw [e] at h1
    simp only [blockAttempt] at h1
    split at h1
    · rename_i hx
      exact hs.2 k pre post e (containsText_iff.mp hx)
    · cases h1

/-- **C75.** A block the oracle works with was sent by the beacon node, for this slot, and everything
before it was a failure. -/
theorem C75_found {n : Nat} {W : Wire} {C : Chain} (hh : Heard n W C) {slot : Nat} {c : ConsBlock}
    (h : C.cons slot = some (some c)) :
    ∃ k, W.block slot k = .block c ∧ (n = 0 ∨ k < n ∨ k = 0) ∧ ∀ i < k, ∀ c', W.block slot i ≠ .block c' := by
  obtain ⟨k, _, h1, h2, h3⟩ := Retried.some_iff.mp (hh.cons slot _ h)
  refine ⟨k, ?_, by omega, ?_⟩
  · cases e : W.block slot k with
    | block c' => rw [e] at h1; simp only [blockAttempt, Option.some.injEq] at h1; rw [h1]
    | status code body => rw [e] at h1; simp only [blockAttempt] at h1; split at h1 <;> simp at h1
    | broken pre post => rw [e] at h1; simp only [blockAttempt] at h1; split at h1 <;> simp at h1
  · intro i hi c' e
    have := h2 i (Nat.zero_le _) hi
    rw [e] at this; cases this

/-- **C75.** The answer 404 is taken as a missed slot at once, whatever the other attempts would bring. -/
theorem C75_no_block {n : Nat} {address : Str} {slot : Nat} {f : Nat → BlockReply} {body : Str}
    (h : f 0 = .status 404 body) : Retried n (fun k => blockAttempt address slot (f k)) 0 (some none) := by
  refine .done ?_
  rw [h]
  simp only [blockAttempt]
  rw [if_pos]
  refine containsText_iff.mpr ?_
  refine ⟨b!"GET failed with status ", b!": " ++ body, ?_⟩
  simp only [errorText]
  rw [show decimal 404 = b!"404" by decide +kernel]
  simp

/-- **C75.** As long as no error text contains "404", the oracle goes on asking until it gets the block. -/
theorem C75_waits {n : Nat} {address : Str} {slot : Nat} {f : Nat → BlockReply} {c : ConsBlock} {k : Nat}
    (hk : n = 0 ∨ k < n) (h : f k = .block c)
    (hf : ∀ i < k, (∀ c', f i ≠ .block c') ∧ ¬ SpeltIn b!"404" (errorText address slot (f i))) :
    Retried n (fun k => blockAttempt address slot (f k)) 0 (some (some c)) := by
  refine Retried.some_iff.mpr ⟨k, Nat.zero_le _, by rw [h]; rfl, ?_, by omega⟩
  intro i _ hi
  obtain ⟨h1, h2⟩ := hf i hi
  cases e : f i with
  | block c' => exact absurd e (h1 c')
  | status code body =>
    rw [e] at h2; simp only [blockAttempt]; rw [if_neg]; rw [containsText_iff]; exact h2
  | broken pre post =>
    rw [e] at h2; simp only [blockAttempt]; rw [if_neg]; rw [containsText_iff]; exact h2

/-- **C75 is false.** At every slot whose number has 404 in it (in decimal), and at every slot if the
configured address of the beacon node has 404 in it (a port 4040, say), one broken connection is enough: the
slot is taken as missed, whatever the node would have answered to the next attempt. -/
theorem C75_false_lost_connection {n : Nat} {address : Str} {slot : Nat}
    (h : (∃ j ≤ 17, slot / 10 ^ j % 1000 = 404) ∨ SpeltIn b!"404" address)
    {f : Nat → BlockReply} {pre post : Str} (hf : f 0 = .broken pre post) :
    Retried n (fun k => blockAttempt address slot (f k)) 0 (some none) := by
  refine .done ?_
  rw [hf]
  simp only [blockAttempt]
  rw [if_pos]
  refine containsText_iff.mpr ?_
  simp only [errorText, blockUrl]
  refine SpeltIn.append_right (SpeltIn.append_left ?_ _) _
  rcases h with ⟨j, hj, h⟩ | h
  · exact (decDigits_404 (by omega) h).append_left _
  · exact (h.append_right _).append_right _

/-- **C75 is false.** The same for an answer with any other status whose body mentions 404, for instance an
internal error of the node that names the slot. -/
theorem C75_false_status {n : Nat} {address : Str} {slot code : Nat} {body : Str}
    (h : SpeltIn b!"404" body) {f : Nat → BlockReply} (hf : f 0 = .status code body) :
    Retried n (fun k => blockAttempt address slot (f k)) 0 (some none) := by
  refine .done ?_
  rw [hf]
  simp only [blockAttempt]
  rw [if_pos]
  exact containsText_iff.mpr (h.append_left _)

/-! ### C76 -/

/-- every answer of `C` is the one of `T`, at this slot -/
structure Below (C T : Chain) (slot : Nat) : Prop where
  chainId : C.chainId = T.chainId
  pool : C.pool = T.pool
  duty : ∀ slot r, C.duty slot = some r → T.duty slot = some r
  validators : ∀ i slot r, C.validators i slot = some r → T.validators i slot = some r
  cons : ∀ r, C.cons slot = some r → T.cons slot = some r
  events : ∀ b r, C.events b = some r → T.events b = some r
  header : ∀ b r, C.header b = some r → T.header b = some r
  receipt : ∀ h r, C.receipt h = some r → T.receipt h = some r

theorem iterated_map {α : Type} (l : List α) : iterated (l.map some) = l := by
  induction l with
  | nil => rfl
  | cons a l ih => rw [List.map_cons, iterated, ih]

theorem Collected.true {α : Type} {n : Nat} {f : Nat → Option (List (Option α))} {r : List α}
    {ev : Option Events} {g : Events → List α} (h : Collected n f r)
    (hf : ∀ k l, f k = some l → ∃ e, ev = some e ∧ l = (g e).map some) : ∃ e, ev = some e ∧ r = g e := by
  obtain ⟨l, h1, rfl⟩ := h
  obtain ⟨k, _, h1, _⟩ := Retried.some_iff.mp h1
  obtain ⟨e, h2, rfl⟩ := hf k l h1
  exact ⟨e, h2, iterated_map _⟩

theorem heard_below {n : Nat} {W : Wire} {C T : Chain} {slot : Nat} (ht : Truthful W T)
    (hs : NoStray404 W slot) (hh : Heard n W C) : Below C T slot where
  chainId := hh.chainId.trans ht.chainId
  pool := hh.pool.trans ht.pool
  duty := by
    intro slot r h
    obtain ⟨k, _, h1, _⟩ := Retried.some_iff.mp (hh.duty slot r h)
    exact ht.duty slot k r h1
  validators := by
    intro i slot r h
    obtain ⟨k, _, h1, _⟩ := Retried.some_iff.mp (hh.validators i slot r h)
    unfold validatorAttempt at h1
    split at h1
    · cases h1
    · rename_i l hl
      split at h1
      · cases h1
      · cases h1; exact ht.validators i slot k r hl
  cons := by
    intro r h
    cases r with
    | none =>
      obtain ⟨k, body, h1⟩ := C75_missed_partial hh hs h
      exact ht.noBlock slot k body h1
    | some c =>
      obtain ⟨k, h1, _⟩ := C75_found hh h
      exact ht.block slot k c h1
  events := by
    intro b r h
    obtain ⟨h1, h2, h3, h4, h5, h6, h7, h8, h9⟩ := hh.events b r h
    obtain ⟨e, he, h1⟩ := h1.true (ht.ether b)
    obtain ⟨e', he', h2⟩ := h2.true (ht.subs b)
    cases he.symm.trans he'
    obtain ⟨e', he', h3⟩ := h3.true (ht.unsubs b)
    cases he.symm.trans he'
    obtain ⟨e', he', h4⟩ := h4.true (ht.poolFee b)
    cases he.symm.trans he'
    obtain ⟨e', he', h5⟩ := h5.true (ht.feeRecipient b)
    cases he.symm.trans he'
    obtain ⟨e', he', h6⟩ := h6.true (ht.cpSize b)
    cases he.symm.trans he'
    obtain ⟨e', he', h7⟩ := h7.true (ht.collateral b)
    cases he.symm.trans he'
    obtain ⟨e', he', h8⟩ := h8.true (ht.bans b)
    cases he.symm.trans he'
    obtain ⟨e', he', h9⟩ := h9.true (ht.unbans b)
    cases he.symm.trans he'
    rw [he]
    obtain ⟨⟩ := r
    simp only at h1 h2 h3 h4 h5 h6 h7 h8 h9
    rw [h1, h2, h3, h4, h5, h6, h7, h8, h9]
  header := by
    intro b r h
    obtain ⟨k, _, h1, _⟩ := Retried.some_iff.mp (hh.header b r h)
    exact ht.header b k r h1
  receipt := by
    intro x r h
    obtain ⟨k, _, h1, _⟩ := Retried.some_iff.mp (hh.receipt x r h)
    exact ht.receipt x k r h1

section
variable {C T : Chain} {slot : Nat} (hb : Below C T slot)
include hb

theorem single_mono {i slot' : Nat} {v} (h : singleValidator C i slot' = some v) :
    singleValidator T i slot' = some v := by
  unfold singleValidator at h ⊢
  cases hv : C.validators i slot' with
  | none => rw [hv] at h; cases h
  | some l => rw [hv] at h; rw [hb.validators i slot' l hv]; exact h

theorem fetchVals_mono {l : List Nat} {vs} (h : fetchVals C slot l = .ok vs) :
    fetchVals T slot l = .ok vs := by
  induction l generalizing vs with
  | nil => exact h
  | cons i l ih =>
    unfold fetchVals at h ⊢
    cases hv : singleValidator C i slot with
    | none => rw [hv] at h; cases h
    | some v =>
      rw [hv] at h
      rw [single_mono hb hv]
      dsimp only at h ⊢
      rw [bind_ok] at h ⊢
      obtain ⟨vs', h1, h2⟩ := h
      exact ⟨vs', ih h1, h2⟩

theorem fetchReceipts_mono {txs : List (Option Tx)} {acc rs : List Receipt}
    (h : fetchReceipts C txs acc = .ok (some rs)) : fetchReceipts T txs acc = .ok (some rs) := by
  induction txs generalizing acc with
  | nil => exact h
  | cons x txs ih =>
    cases x with
    | none => exact h
    | some tx =>
      unfold fetchReceipts at h ⊢
      cases hv : C.receipt tx.hash with
      | none => rw [hv] at h; cases h
      | some r =>
        rw [hv] at h
        rw [hb.receipt _ r hv]
        exact ih h

theorem headerAndReceipts_mono {number : Nat} {txs : List (Option Tx)} {r}
    (h : headerAndReceipts C number txs = .ok (some r)) : headerAndReceipts T number txs = .ok (some r) := by
  unfold headerAndReceipts at h ⊢
  cases hv : C.header number with
  | none => rw [hv] at h; cases h
  | some hd =>
    rw [hv] at h
    rw [hb.header _ hd hv]
    dsimp only at h ⊢
    rw [bind_ok] at h ⊢
    obtain ⟨rs, h1, h2⟩ := h
    cases rs with
    | none => cases h2
    | some rs => exact ⟨some rs, fetchReceipts_mono hb h1, h2⟩

theorem fetch_mono {s : State} {all : Bool} {b : FullBlock}
    (h : fetchFullBlock C s slot all = .ok b) : fetchFullBlock T s slot all = .ok b := by
  unfold fetchFullBlock at h ⊢
  cases hd : C.duty slot with
  | none => rw [hd] at h; cases h
  | some d =>
    obtain ⟨dslot, dindex, dkey⟩ := d
    rw [hd] at h
    rw [hb.duty _ _ hd]
    dsimp only at h ⊢
    rcases ite_cases h with ⟨_, h⟩ | ⟨hne, h⟩
    · cases h
    rw [if_neg hne]
    cases hv : singleValidator C dindex slot with
    | none => rw [hv] at h; cases h
    | some v =>
      rw [hv] at h
      rw [single_mono hb hv, ← hb.chainId]
      dsimp only at h ⊢
      rw [bind_ok] at h ⊢
      obtain ⟨b0, h0, h⟩ := h
      refine ⟨b0, h0, ?_⟩
      cases hc : C.cons slot with
      | none => rw [hc] at h; cases h
      | some c =>
        rw [hc] at h
        rw [hb.cons _ hc]
        cases c with
        | none => exact h
        | some c =>
          dsimp only at h ⊢
          simp only [bind_ok] at h ⊢
          obtain ⟨b1, h1, cs, h2, h⟩ := h
          refine ⟨b1, h1, cs, h2, ?_⟩
          rcases ite_cases h with ⟨_, h⟩ | ⟨hne, h⟩
          · cases h
          rw [if_neg hne]
          simp only [bind_ok] at h ⊢
          obtain ⟨number, h3, h⟩ := h
          refine ⟨number, h3, ?_⟩
          cases he : C.events number with
          | none => rw [he] at h; cases h
          | some evs =>
            rw [he] at h
            rw [hb.events _ _ he]
            dsimp only at h ⊢
            simp only [bind_ok] at h ⊢
            obtain ⟨b2, h4, vs, h5, us, h6, pr, h7, rew, h8, h⟩ := h
            refine ⟨b2, h4, vs, fetchVals_mono hb h5, us, fetchVals_mono hb h6, pr, h7, rew, ?_, ?_⟩
            · rw [← hb.pool]; exact h8
            · rcases ite_cases h with ⟨hc', h⟩ | ⟨hc', h⟩
              · rw [if_pos hc']
                simp only [bind_ok] at h ⊢
                obtain ⟨txs, h9, hr, h10, h⟩ := h
                cases hr with
                | none => cases h
                | some hr => exact ⟨txs, h9, some hr, headerAndReceipts_mono hb h10, h⟩
              · rw [if_neg hc']; exact h

end

/-- **C76** (partial). Whatever requests fail on the way, and however often, a block the oracle manages to
fetch is the block it would have fetched had every request succeeded at once: provided every answer given is
true, all logs decode and no error text contains a stray "404". Missing: the last two conditions, without
which the claim is false, see `C75_false_lost_connection` and `C76_false_undecodable_log`. -/
theorem C76_same_block_partial {T C : Chain} {slot : Nat} (hn : HonestNetwork T C slot) {s : State}
    {all : Bool} {b : FullBlock} (h : fetchFullBlock C s slot all = .ok b) : fetchFullBlock T s slot all = .ok b := by
  obtain ⟨n, W, h1, h2, h3⟩ := hn
  exact fetch_mono (heard_below h1 h2 h3) h

/-- **C76.** With the default setting (`num-retries` 0) a request that is answered at some attempt returns
that answer: it is never given up. -/
theorem C76_never_gives_up {α : Type} {f : Nat → Option α} (h : ∃ k, f k ≠ none) :
    (∃ k a, f k = some a ∧ (∀ i < k, f i = none) ∧ Retried 0 f 0 (some a)) ∧ ¬ Retried 0 f 0 none := by
  refine ⟨?_, fun h => (Retried.none_iff.mp h).1 rfl⟩
  classical
  obtain ⟨a, ha⟩ := Option.ne_none_iff_exists'.mp (Nat.find_spec h)
  refine ⟨Nat.find h, a, ha, fun i hi => by simpa using Nat.find_min h hi, ?_⟩
  exact Retried.some_iff.mpr ⟨_, Nat.zero_le _, ha, fun i _ hi => by simpa using Nat.find_min h hi, Or.inl rfl⟩

/-- **C76.** With a limit, a request fails exactly if that many attempts have failed. -/
theorem C76_gives_up {α : Type} {n : Nat} (hn : 0 < n) {f : Nat → Option α} :
    Retried n f 0 none ↔ ∀ i < n, f i = none := by
  rw [Retried.none_iff]
  constructor
  · rintro ⟨_, _, h⟩ i hi; exact h i (Nat.zero_le _) hi
  · intro h; exact ⟨by omega, h 0 hn, fun i _ hi => h i hi⟩

/-- **C76 is false** if a log cannot be decoded: this event and all events after it are dropped without an
error, and there is no retry. -/
theorem C76_false_undecodable_log {α : Type} {n : Nat} {before : List α} {after : List (Option α)}
    {f : Nat → Option (List (Option α))} (h : f 0 = some (before.map some ++ none :: after)) :
    Collected n f before ∧ ∀ r, Collected n f r → r = before := by
  have key : iterated (before.map some ++ none :: after) = before := by
    clear h
    induction before with
    | nil => rfl
    | cons a l ih => rw [List.map_cons, List.cons_append, iterated, ih]
  refine ⟨⟨_, .done h, key.symm⟩, ?_⟩
  rintro r ⟨l, h1, rfl⟩
  cases h1 with
  | done h2 => rw [h] at h2; cases h2; exact key
  | again h2 _ _ => rw [h] at h2; cases h2

/-! ### A concrete network -/

namespace Sample

/-- the reply of a node that has the block, or has none -/
def blockOf (o : Option (Option ConsBlock)) : BlockReply :=
  match o with
  | some (some c) => .block c
  | _ => .status 404 b!"NOT_FOUND: beacon block"

/-- for every request of one block: an answer, but not at the first attempt -/
def second {α : Type} (a : α) (k : Nat) : Option α := if k = 0 then none else some a

/-- everything fails at the first attempt and is answered from `chain` at the second; at slot `s` the
connection breaks at the first attempt -/
def wire (s : Nat) : Wire :=
  { chainId := 1, pool := pool, address := b!"http://localhost:5052"
    duty := fun slot => second (slot, 1, hexutilEncode [1])
    validators := fun i _ => second [(i, bval i)]
    block := fun slot k => if slot = s ∧ k = 0 then .broken b!"Get \"" b!"\": connection refused"
      else blockOf (chain.cons slot)
    logs := fun n =>
      { ether := second [some ⟨5000, pool, n⟩], subs := second [some ⟨2, 1000, addr 2, n⟩],
        unsubs := second [], poolFee := second [], feeRecipient := second [], cpSize := second [],
        collateral := second [], bans := second [], unbans := second [] }
    header := fun n => second ⟨n, 10⟩
    receipt := fun h => second ⟨h, 21000, 100⟩ }

theorem second_some {α : Type} {a b : α} {k : Nat} (h : second a k = some b) : b = a := by
  unfold second at h; split at h
  · cases h
  · exact (Option.some.inj h).symm

theorem second_retried {α : Type} {a : α} : Retried 0 (second a) 0 (some a) :=
  .again rfl (Or.inl rfl) (.done rfl)

theorem chain_cons_some (slot : Nat) : ∃ c, chain.cons slot = some c := ⟨_, rfl⟩

theorem wire_truthful (s : Nat) : Truthful (wire s) chain where
  chainId := rfl
  pool := rfl
  duty := fun slot k d h => by rw [second_some h]; rfl
  validators := fun i slot k l h => by rw [second_some h]; rfl
  block := by
    intro slot k c h
    simp only [wire] at h
    split at h
    · cases h
    · unfold blockOf at h
      split at h
      · rename_i hc; rw [hc]; cases h; rfl
      · cases h
  noBlock := by
    intro slot k body h
    simp only [wire] at h
    split at h
    · cases h
    · unfold blockOf at h
      split at h
      · cases h
      · rename_i hc
        obtain ⟨c, e⟩ := chain_cons_some slot
        cases c with
        | none => exact e
        | some c => exact absurd e (hc c)
  ether := fun b k l h => ⟨_, rfl, second_some h⟩
  subs := fun b k l h => ⟨_, rfl, second_some h⟩
  unsubs := fun b k l h => ⟨_, rfl, second_some h⟩
  poolFee := fun b k l h => ⟨_, rfl, second_some h⟩
  feeRecipient := fun b k l h => ⟨_, rfl, second_some h⟩
  cpSize := fun b k l h => ⟨_, rfl, second_some h⟩
  collateral := fun b k l h => ⟨_, rfl, second_some h⟩
  bans := fun b k l h => ⟨_, rfl, second_some h⟩
  unbans := fun b k l h => ⟨_, rfl, second_some h⟩
  header := fun b k l h => by rw [second_some h]; rfl
  receipt := fun b k l h => by rw [second_some h]; rfl

/-- what is heard if the slot of the broken connection is taken as `c` -/
def heardAs (s : Nat) (c : Option ConsBlock) : Chain :=
  { chain with cons := fun slot => if slot = s then some c else chain.cons slot }

theorem blockOf_attempt {a : Str} {slot : Nat} {c : Option ConsBlock} :
    blockAttempt a slot (blockOf (some c)) = some c := by
  cases c with
  | none =>
    simp only [blockOf, blockAttempt]
    rw [if_pos]
    rw [containsText_iff]
    exact ⟨b!"GET failed with status ", b!": NOT_FOUND: beacon block", by simp only [errorText]; decide +kernel⟩
  | some c => rfl

theorem wire_heard {s : Nat} {c : Option ConsBlock}
    (h : Retried 0 (fun k => blockAttempt (wire s).address s ((wire s).block s k)) 0 (some c)) :
    Heard 0 (wire s) (heardAs s c) where
  chainId := rfl
  pool := rfl
  duty := fun slot r h => by cases h; exact second_retried
  validators := fun i slot r h => by
    cases h
    exact .again rfl (Or.inl rfl) (.done rfl)
  cons := by
    intro slot r hr
    simp only [heardAs] at hr
    split at hr
    · rename_i e; subst e; cases hr; exact h
    · rename_i e
      refine .done ?_
      simp only [wire, e, false_and, if_false]
      rw [hr]; exact blockOf_attempt
  events := fun b r h => by
    cases h
    exact ⟨⟨_, second_retried, rfl⟩, ⟨_, second_retried, rfl⟩, ⟨_, second_retried, rfl⟩,
      ⟨_, second_retried, rfl⟩, ⟨_, second_retried, rfl⟩, ⟨_, second_retried, rfl⟩,
      ⟨_, second_retried, rfl⟩, ⟨_, second_retried, rfl⟩, ⟨_, second_retried, rfl⟩⟩
  header := fun b r h => by cases h; exact second_retried
  receipt := fun b r h => by cases h; exact second_retried

theorem wire_noStray {s : Nat} (hs : containsText b!"404" (errorText (wire s).address s
    (.broken b!"Get \"" b!"\": connection refused")) = false) (slot : Nat) : NoStray404 (wire s) slot := by
  constructor
  · intro k code body h hc
    simp only [wire] at h
    split at h
    · cases h
    · unfold blockOf at h
      split at h
      · cases h
      · cases h; exact absurd rfl hc
  · intro k pre post h
    simp only [wire] at h
    split at h
    · rename_i e
      obtain ⟨rfl, _⟩ := e
      cases h
      rw [← containsText_iff]
      intro hx
      exact absurd (hx.symm.trans hs) (by decide)
    · unfold blockOf at h
      split at h <;> cases h

/-- at a slot without 404 in its number, the broken connection does no harm -/
theorem wire_ok {s : Nat} (hs : containsText b!"404" (errorText (wire s).address s
    (.broken b!"Get \"" b!"\": connection refused")) = false) : Heard 0 (wire s) chain := by
  obtain ⟨c, hc⟩ := chain_cons_some s
  have : heardAs s c = chain := by
    unfold heardAs
    have : (fun slot => if slot = s then some c else chain.cons slot) = chain.cons := by
      funext slot; split
      · rename_i e; rw [e, hc]
      · rfl
    rw [this]
  rw [← this]
  refine wire_heard (.again ?_ (Or.inl rfl) (.done ?_))
  · have e : (wire s).block s 0 = .broken b!"Get \"" b!"\": connection refused" := if_pos ⟨rfl, rfl⟩
    rw [e]
    exact if_neg (fun hx => absurd (hx.symm.trans hs) (by decide))
  · simp only [wire]
    rw [if_neg (by omega), hc]
    exact blockOf_attempt

end Sample

/-- The block of slot 12000000 is fetched at the second attempt of every request, and it is the true one. -/
example : ∃ b, HonestNetwork Sample.chain Sample.chain 12000000 ∧
    fetchFullBlock Sample.chain (newOracle Sample.cfg).st 12000000 false = .ok b ∧ b.cons.isSome = true := by
  obtain ⟨b, h1, h2⟩ := Sample.ex_ok
    (x := fetchFullBlock Sample.chain (newOracle Sample.cfg).st 12000000 false) (P := fun b => b.cons.isSome)
    (by decide +kernel)
  exact ⟨b, ⟨0, Sample.wire 12000000, Sample.wire_truthful _, Sample.wire_noStray (by decide +kernel) _,
    Sample.wire_ok (by decide +kernel)⟩, h1, h2⟩

/-- **C76 is false.** The same failure at slot 12000404: all answers are true and every request is answered at
the second attempt, but the oracle works with a missed slot, while there is a block with a payment. -/
theorem C76_false_lost_connection :
    Truthful (Sample.wire 12000404) Sample.chain ∧
    Heard 0 (Sample.wire 12000404) (Sample.heardAs 12000404 none) ∧
    (∃ b, fetchFullBlock (Sample.heardAs 12000404 none) (newOracle Sample.cfg).st 12000404 false = .ok b ∧
      b.cons = none) ∧
    ∃ b, fetchFullBlock Sample.chain (newOracle Sample.cfg).st 12000404 false = .ok b ∧
      b.cons.isSome = true ∧ b.events.ether.map (·.amount) = [5000] := by
  refine ⟨Sample.wire_truthful _, Sample.wire_heard ?_, ?_, ?_⟩
  · exact C75_false_lost_connection (Or.inl ⟨0, by decide, by decide⟩) rfl
  · obtain ⟨b, h1, h2⟩ := Sample.ex_ok
      (x := fetchFullBlock (Sample.heardAs 12000404 none) (newOracle Sample.cfg).st 12000404 false)
      (P := fun b => b.cons.isNone) (by decide +kernel)
    exact ⟨b, h1, Option.isNone_iff_eq_none.mp h2⟩
  · obtain ⟨b, h1, h2⟩ := Sample.ex_ok
      (x := fetchFullBlock Sample.chain (newOracle Sample.cfg).st 12000404 false)
      (P := fun b => b.cons.isSome && decide (b.events.ether.map (·.amount) = [5000])) (by decide +kernel)
    simp only [Bool.and_eq_true, decide_eq_true_eq] at h2
    exact ⟨b, h1, h2⟩

end Verif
