import Verif.Spec.Onchain
import Verif.Props.Creds
import Verif.Spec.Sample
import Verif.Lemmas.Freeze
/-
Properties C54 (duty cache), C55 (bulk validator lookup) and C56 (submitting a root).
-/
namespace Verif

/-! ### C54 -/

/-- One look-up, if the cache holds the duties of its epoch or the slot belongs to another epoch. -/
theorem lookup_one {D : Nat → List Duty} (hD : DutiesOK D) {node : Nat → Option (List Duty)} {slot : Nat}
    {c : DutyCache} (hn : ∀ e, node e = none ∨ node e = some (D e))
    (hc : c.duties = D c.epoch ∨ c.epoch ≠ slot / 32) :
    ∃ c1 d, getProposalDuty node c slot = .ok (c1, d) ∧ (c1 = c ∨ c1.duties = D c1.epoch) ∧
      (c.epoch ≠ slot / 32 → node (slot / 32) = none → c1 = c) ∧
      (node (slot / 32) ≠ none → c1.duties = D c1.epoch) ∧
      ((node (slot / 32) = none ∧ d = none) ∨ ∃ x, d = some x ∧ (D (slot / 32))[slot % 32]? = some x) := by
  have hlt : slot % 32 < (D (slot / 32)).length := by rw [hD.size]; exact Nat.mod_lt _ (by decide)
  have hget : (D (slot / 32))[slot % 32]? = some ((D (slot / 32))[slot % 32]) := List.getElem?_eq_getElem hlt
  have hsl := hD.slots _ _ _ hget
  unfold getProposalDuty
  by_cases he : c.epoch = slot / 32
  · have hcd : c.duties = D c.epoch := hc.resolve_right (fun h => h he)
    rw [if_pos he, hcd, he, hget]
    dsimp only
    rw [if_neg (by rw [hsl]; omega)]
    exact ⟨_, _, rfl, Or.inl rfl, fun _ _ => rfl, fun _ => by rw [hcd], Or.inr ⟨_, rfl, rfl⟩⟩
  · rw [if_neg he]
    rcases hn (slot / 32) with h | h
    · rw [h]; exact ⟨_, _, rfl, Or.inl rfl, fun _ _ => rfl, fun h' => absurd rfl h', Or.inl ⟨rfl, rfl⟩⟩
    · rw [h]
      dsimp only
      rw [hget]
      exact ⟨_, _, rfl, Or.inr rfl, fun _ h' => (by cases h'), fun _ => rfl, Or.inr ⟨_, rfl, rfl⟩⟩

theorem lookups_filled {D : Nat → List Duty} (hD : DutiesOK D) :
    ∀ (qs : List ((Nat → Option (List Duty)) × Nat)) (c : DutyCache),
      (∀ q ∈ qs, ∀ e, q.1 e = none ∨ q.1 e = some (D e)) → c.duties = D c.epoch →
      ∃ c' ds, lookups qs c = .ok (c', ds) ∧ List.Forall₂ (fun q d =>
        (q.1 (q.2 / 32) = none ∧ d = none) ∨ ∃ x, d = some x ∧ (D (q.2 / 32))[q.2 % 32]? = some x) qs ds := by
  intro qs
  induction qs with
  | nil => intro c _ _; exact ⟨c, [], rfl, .nil⟩
  | cons q qs ih =>
    obtain ⟨node, slot⟩ := q
    intro c hn hc
    obtain ⟨c1, d, h1, h2, _, _, h3⟩ := lookup_one hD (hn (node, slot) (by simp)) (Or.inl hc)
    have hc1 : c1.duties = D c1.epoch := by
      rcases h2 with h2 | h2
      · rw [h2]; exact hc
      · exact h2
    obtain ⟨c', ds, h4, h5⟩ := ih c1 (fun q hq => hn q (by simp [hq])) hc1
    refine ⟨c', d :: ds, ?_, .cons h3 h5⟩
    unfold lookups
    rw [h1, bind_val]
    dsimp only
    rw [h4, bind_val]

theorem lookups_init {D : Nat → List Duty} (hD : DutiesOK D) :
    ∀ (qs : List ((Nat → Option (List Duty)) × Nat)),
      (∀ q ∈ qs, ∀ e, q.1 e = none ∨ q.1 e = some (D e)) →
      (NoneTooEarly qs ∧ ∃ c' ds, lookups qs DutyCache.init = .ok (c', ds) ∧ List.Forall₂ (fun q d =>
        (q.1 (q.2 / 32) = none ∧ d = none) ∨ ∃ x, d = some x ∧ (D (q.2 / 32))[q.2 % 32]? = some x) qs ds) ∨
      (¬ NoneTooEarly qs ∧ lookups qs DutyCache.init = .error .panic) := by
  intro qs
  induction qs with
  | nil =>
    intro _
    refine Or.inl ⟨?_, _, [], rfl, .nil⟩
    intro l q r h
    simp at h
  | cons q qs ih =>
    obtain ⟨node, slot⟩ := q
    intro hn
    by_cases hs : slot < 32
    · refine Or.inr ⟨fun h => ?_, ?_⟩
      · obtain ⟨p, hp, _⟩ := h [] (node, slot) qs rfl hs
        cases hp
      · unfold lookups getProposalDuty DutyCache.init
        rw [if_pos (by dsimp only; omega)]
        rfl
    · have hne : DutyCache.init.epoch ≠ slot / 32 := by
        show 0 ≠ slot / 32
        omega
      obtain ⟨c1, d, h1, _, h2, h2', h3⟩ := lookup_one hD (hn (node, slot) (by simp)) (Or.inr hne)
      by_cases hnone : node (slot / 32) = none
      · have hc1 := h2 hne hnone
        have hiff : NoneTooEarly ((node, slot) :: qs) ↔ NoneTooEarly qs := by
          constructor
          · intro h l q r hq hlt
            obtain ⟨p, hp, h4, h5⟩ := h ((node, slot) :: l) q r (by rw [hq]; rfl) hlt
            rcases List.mem_cons.mp hp with rfl | hp
            · exact absurd hnone h5
            · exact ⟨p, hp, h4, h5⟩
          · intro h l q r hq hlt
            cases l with
            | nil =>
              simp only [List.nil_append, List.cons.injEq] at hq
              obtain ⟨rfl, _⟩ := hq
              exact absurd hlt hs
            | cons x l =>
              simp only [List.cons_append, List.cons.injEq] at hq
              obtain ⟨p, hp, h4⟩ := h l q r hq.2 hlt
              exact ⟨p, by simp [hp], h4⟩
        rw [hiff]
        rcases ih (fun q hq => hn q (by simp [hq])) with ⟨h4, c', ds, h5, h6⟩ | ⟨h4, h5⟩
        · refine Or.inl ⟨h4, c', d :: ds, ?_, .cons h3 h6⟩
          unfold lookups
          rw [h1, bind_val]
          dsimp only
          rw [hc1, h5, bind_val]
        · refine Or.inr ⟨h4, ?_⟩
          unfold lookups
          rw [h1, bind_val]
          dsimp only
          rw [hc1, h5]
          rfl
      · obtain ⟨c', ds, h5, h6⟩ := lookups_filled hD qs c1 (fun q hq => hn q (by simp [hq])) (h2' hnone)
        refine Or.inl ⟨?_, c', d :: ds, ?_, .cons h3 h6⟩
        · intro l q r hq hlt
          cases l with
          | nil =>
            simp only [List.nil_append, List.cons.injEq] at hq
            obtain ⟨rfl, _⟩ := hq
            exact absurd hlt hs
          | cons x l =>
            simp only [List.cons_append, List.cons.injEq] at hq
            exact ⟨x, by simp, by rw [← hq.1]; dsimp only; omega, by rw [← hq.1]; exact hnone⟩
        · unfold lookups
          rw [h1, bind_val]
          dsimp only
          rw [h5, bind_val]

/-- **C54, partial.** Looking up proposers through the cache gives, for any sequence of look-ups starting
with the empty cache and a beacon node that may fail at any time, either the duty the chain has for that
slot or, only if the node fails when asked for that epoch, an error. What is missing for the full claim:
slots of epoch 0 looked up before any other epoch, and answers with fewer than 32 duties, see below. -/
theorem C54_cache_transparent_partial {D : Nat → List Duty} (hD : DutiesOK D)
    (qs : List ((Nat → Option (List Duty)) × Nat))
    (hn : ∀ q ∈ qs, ∀ e, q.1 e = none ∨ q.1 e = some (D e)) (hs : NoneTooEarly qs) :
    ∃ c' ds, lookups qs DutyCache.init = .ok (c', ds) ∧ List.Forall₂ (fun q d =>
      (q.1 (q.2 / 32) = none ∧ d = none) ∨ ∃ x, d = some x ∧ x.slot = q.2 ∧ x ∈ D (q.2 / 32)) qs ds := by
  rcases lookups_init hD qs hn with ⟨_, c', ds, h1, h2⟩ | ⟨h, _⟩
  · refine ⟨c', ds, h1, h2.imp ?_⟩
    rintro ⟨node, slot⟩ d (h | ⟨x, h3, h4⟩)
    · exact Or.inl h
    · refine Or.inr ⟨x, h3, ?_, List.mem_of_getElem? h4⟩
      rw [hD.slots _ _ _ h4]
      dsimp only
      omega
  · exact absurd hs h

/-- **C54.** Exactly which sequences of look-ups crash the program when the node's answers are complete:
those in which a slot of the first epoch is asked for before the node has answered for a later one. -/
theorem C54_panic_exact {D : Nat → List Duty} (hD : DutiesOK D)
    (qs : List ((Nat → Option (List Duty)) × Nat))
    (hn : ∀ q ∈ qs, ∀ e, q.1 e = none ∨ q.1 e = some (D e)) :
    lookups qs DutyCache.init = .error .panic ↔ ¬ NoneTooEarly qs := by
  rcases lookups_init hD qs hn with ⟨h, c', ds, h1, _⟩ | ⟨h, h1⟩
  · rw [h1]
    exact ⟨fun h2 => (by cases h2), fun h2 => absurd h h2⟩
  · exact ⟨fun _ => h, fun _ => h1⟩

/-- No slot of the first epoch at all is one way to meet the condition. -/
theorem noneTooEarly_late {qs : List ((Nat → Option (List Duty)) × Nat)} (h : ∀ q ∈ qs, 32 ≤ q.2) :
    NoneTooEarly qs := by
  intro l q r hq hlt
  have := h q (by rw [hq]; simp)
  omega

namespace Sample
/-- validator number `slot` proposes in `slot` -/
def duties (e : Nat) : List Duty := (List.range 32).map fun k => ⟨32 * e + k, 32 * e + k, []⟩

theorem duties_ok : DutiesOK duties := by
  constructor
  · intro e; simp [duties]
  · intro e k d h
    simp only [duties, List.getElem?_map, Option.map_eq_some_iff] at h
    obtain ⟨a, h1, rfl⟩ := h
    rw [List.getElem?_range (by
      by_contra hk
      rw [List.getElem?_eq_none (by simp; omega)] at h1
      cases h1)] at h1
    cases h1
    rfl
end Sample

/-- Look-ups in two epochs, with a failing node in between and a hit in the cache. -/
example : ∃ c', lookups [(fun e => some (Sample.duties e), 70), (fun _ => none, 100), (fun _ => none, 71),
      (fun e => some (Sample.duties e), 101)] DutyCache.init =
    .ok (c', [some ⟨70, 70, []⟩, none, some ⟨71, 71, []⟩, some ⟨101, 101, []⟩]) := ⟨_, rfl⟩

example : ∃ c' ds, lookups [(fun e => some (Sample.duties e), 70), (fun _ => none, 100)] DutyCache.init =
    .ok (c', ds) :=
  let ⟨c', ds, h, _⟩ := C54_cache_transparent_partial Sample.duties_ok
    [(fun e => some (Sample.duties e), 70), (fun _ => none, 100)] (by simp) (noneTooEarly_late (by simp))
  ⟨c', ds, h⟩

/-- Slot 5 before slot 70 crashes; after it, it is answered. -/
example : lookups [(fun _ => none, 70), (fun e => some (Sample.duties e), 5)] DutyCache.init =
      .error .panic ∧
    ∃ c', lookups [(fun e => some (Sample.duties e), 70), (fun e => some (Sample.duties e), 5)]
      DutyCache.init = .ok (c', [some ⟨70, 70, []⟩, some ⟨5, 5, []⟩]) := ⟨rfl, _, rfl⟩

example : NoneTooEarly [(fun e => some (Sample.duties e), 70), (fun e => some (Sample.duties e), 5)] := by
  by_contra h
  rw [← C54_panic_exact Sample.duties_ok _ (by simp)] at h
  cases h

/-- **C54 is false for the first epoch.** The empty cache counts as the cache of epoch 0: a look-up of a
slot below 32 panics, whatever the node would have answered. -/
theorem C54_false_epoch_zero (node : Nat → Option (List Duty)) (slot : Nat) (h : slot < 32) :
    getProposalDuty node DutyCache.init slot = .error .panic := by
  unfold getProposalDuty DutyCache.init
  rw [if_pos (by dsimp only; omega)]
  rfl

/-- **C54 is false for short answers.** If the node answers with too few duties the program panics instead
of returning an error. -/
theorem C54_false_short_answer (node : Nat → Option (List Duty)) (c : DutyCache) (slot : Nat) (l : List Duty)
    (hc : c.epoch ≠ slot / 32) (hl : node (slot / 32) = some l) (hs : l.length ≤ slot % 32) :
    getProposalDuty node c slot = .error .panic := by
  unfold getProposalDuty
  rw [if_neg hc, hl]
  dsimp only
  rw [List.getElem?_eq_none hs]

/-! ### C55 -/

/-- **C55.** The bulk lookup returns a set of validators exactly if something was asked, the node
answered, and every requested validator is in the answer; otherwise it returns an error. -/
theorem C55_bulk_lookup (answer : List Nat → Option (List (Nat × BVal))) (req : List Nat)
    (data : List (Nat × BVal)) :
    getSetOfValidators answer req = some data ↔
      req ≠ [] ∧ answer req = some data ∧ ∀ i ∈ req, ∃ v, (i, v) ∈ data := by
  unfold getSetOfValidators
  constructor
  · intro h
    split at h
    · cases h
    · rename_i hr
      cases ha : answer req with
      | none => rw [ha] at h; cases h
      | some d =>
        rw [ha] at h
        dsimp only at h
        split at h
        · cases h
        · split at h
          · cases h
          · rename_i hany
            simp only [Option.some.injEq] at h
            subst h
            refine ⟨fun e => hr (by rw [e]; rfl), rfl, fun i hi => ?_⟩
            simp only [List.any_eq_true, not_exists, not_and, Bool.not_eq_true, Bool.not_eq_false'] at hany
            have := hany i hi
            obtain ⟨p, hp, e⟩ := this
            simp only [beq_iff_eq] at e
            exact ⟨p.2, by rw [← e]; exact hp⟩
  · rintro ⟨h1, h2, h3⟩
    rw [if_neg (by simpa using h1), h2]
    dsimp only
    obtain ⟨i, hi⟩ := List.exists_mem_of_ne_nil _ h1
    obtain ⟨v, hv⟩ := h3 i hi
    rw [if_neg (by
      intro e
      rw [List.length_eq_zero_iff] at e
      rw [e] at hv
      cases hv), if_neg]
    simp only [List.any_eq_true, not_exists, not_and, Bool.not_eq_true, Bool.not_eq_false']
    intro i hi
    obtain ⟨v, hv⟩ := h3 i hi
    exact ⟨_, hv, by simp⟩

/-- Two validators asked for and found; one more asked for and the answer is an error. -/
example : getSetOfValidators (fun _ => some [(1, Sample.bval 1), (2, Sample.bval 2)]) [2, 1] =
      some [(1, Sample.bval 1), (2, Sample.bval 2)] ∧
    getSetOfValidators (fun _ => some [(1, Sample.bval 1), (2, Sample.bval 2)]) [2, 1, 3] = none := by
  constructor <;> decide

/-! ### C56 -/

theorem fromHexChar_of {c v : Nat} (h : HexDigit c v) : fromHexChar c = some v ∧ v < 16 ∧ hexDigit v = c := by
  unfold fromHexChar hexDigit
  rcases h with ⟨h1, rfl⟩ | ⟨h1, h2, rfl⟩
  · rw [if_pos (by omega), if_pos h1]; refine ⟨by congr 1; omega, by omega, rfl⟩
  · rw [if_neg (by omega), if_pos (by omega), if_neg (by omega)]; refine ⟨by congr 1; omega, h2, rfl⟩

theorem hexText_of {r bs} (h : HexText r bs) : hex2Bytes r = bs ∧ hexEncode bs = r := by
  induction h with
  | nil => exact ⟨rfl, rfl⟩
  | @cons a b x y r bs ha hb _ ih =>
    obtain ⟨a1, a2, a3⟩ := fromHexChar_of ha
    obtain ⟨b1, b2, b3⟩ := fromHexChar_of hb
    constructor
    · unfold hex2Bytes; rw [a1, b1]; simp only [ih.1]
    · unfold hexEncode
      rw [show (16 * x + y) / 16 = x by omega, show (16 * x + y) % 16 = y by omega, a3, b3, ih.2]

theorem hexDigit_of {v : Nat} (h : v < 16) : HexDigit (hexDigit v) v := by
  unfold HexDigit hexDigit
  split <;> omega

theorem hexText_encode {bs : List Nat} (h : ∀ b ∈ bs, b < 256) : HexText (hexEncode bs) bs := by
  induction bs with
  | nil => exact .nil
  | cons b bs ih =>
    have hb := h b (by simp)
    have := HexText.cons (hexDigit_of (show b / 16 < 16 by omega)) (hexDigit_of (show b % 16 < 16 by omega))
      (ih (fun x hx => h x (by simp [hx])))
    rw [show 16 * (b / 16) + b % 16 = b by omega] at this
    exact this

theorem fromHexChar_lt {c v} (h : fromHexChar c = some v) : v < 16 := by
  unfold fromHexChar at h
  split at h
  · simp only [Option.some.injEq] at h; omega
  · split at h
    · simp only [Option.some.injEq] at h; omega
    · split at h
      · simp only [Option.some.injEq] at h; omega
      · cases h

theorem hex2Bytes_lt : ∀ (r : Str), ∀ b ∈ hex2Bytes r, b < 256
  | [], b, h => by simp [hex2Bytes] at h
  | [_], b, h => by simp [hex2Bytes] at h
  | a :: c :: r, b, h => by
    unfold hex2Bytes at h
    split at h
    · rename_i x y hx hy
      have := fromHexChar_lt hx
      have := fromHexChar_lt hy
      rcases List.mem_cons.mp h with rfl | h
      · omega
      · exact hex2Bytes_lt r b h
    · cases h

theorem rootBytes_spec (root : Str) (bytes : List Nat) : rootBytes root = some bytes ↔ RootText root bytes := by
  have key : ∀ r : Str, (if (hex2Bytes r).length ≠ 32 then none else if hexEncode (hex2Bytes r) ≠ r then none
      else some (hex2Bytes r)) = some bytes ↔ bytes.length = 32 ∧ HexText r bytes := by
    intro r
    constructor
    · intro h
      split at h
      · cases h
      · split at h
        · cases h
        · rename_i h1 h2
          simp only [not_not] at h1 h2
          simp only [Option.some.injEq] at h
          subst h
          refine ⟨h1, ?_⟩
          have := hexText_encode (hex2Bytes_lt r)
          rwa [h2] at this
    · rintro ⟨h1, h2⟩
      obtain ⟨h3, h4⟩ := hexText_of h2
      rw [h3, h4]
      simp [h1]
  unfold rootBytes RootText
  dsimp only
  by_cases hp : root.take 2 = b!"0x"
  · rw [if_pos hp, key]
    have e : root = 48 :: 120 :: root.drop 2 := by
      have := List.take_append_drop 2 root
      rw [hp] at this
      exact this.symm
    constructor
    · rintro ⟨h1, h2⟩
      exact ⟨h1, _, Or.inl e, h2⟩
    · rintro ⟨h1, r, h2 | h2, h3⟩
      · rw [h2]; exact ⟨h1, h3⟩
      · exfalso
        subst h2
        rw [e] at h3
        cases h3 with
        | cons ha hb _ =>
          rcases hb with ⟨_, hb⟩ | ⟨_, _, hb⟩ <;> omega
  · rw [if_neg hp, key]
    constructor
    · rintro ⟨h1, h2⟩
      exact ⟨h1, _, Or.inr rfl, h2⟩
    · rintro ⟨h1, r, h2 | h2, h3⟩
      · exfalso; apply hp; rw [h2]; rfl
      · rw [h2]; exact ⟨h1, h3⟩

/-- **C56.** What is sent to the contract, if anything, is the given slot and exactly the 32 bytes whose
lower-case hexadecimal digits are the given root. -/
theorem C56_sends_exactly {W : TxWorld} {slot : Nat} {root : Str} {s : Nat} {bytes : List Nat}
    (h : (updateContractMerkleRoot W slot root).2 = some (s, bytes)) : s = slot ∧ RootText root bytes := by
  unfold updateContractMerkleRoot at h
  cases hr : rootBytes root with
  | none => rw [hr] at h; cases h
  | some bs =>
    rw [hr] at h
    have : slot = s ∧ bs = bytes := by
      dsimp only at h
      split at h
      · cases h
      · split at h
        · cases h
        · cases h
        · split at h
          · simpa using h
          · simpa using h
          · split at h <;> simpa using h
    obtain ⟨rfl, rfl⟩ := this
    exact ⟨rfl, (rootBytes_spec _ _).mp hr⟩

/-- **C56.** Anything that is not the text of 32 bytes is rejected with an error and nothing is sent. -/
theorem C56_rejects {root : Str} (h : ∀ bytes, ¬ RootText root bytes) (W : TxWorld) (slot : Nat) :
    updateContractMerkleRoot W slot root = (.failed, none) := by
  unfold updateContractMerkleRoot
  cases hr : rootBytes root with
  | none => rfl
  | some bs => exact absurd ((rootBytes_spec _ _).mp hr) (h bs)

/-- **C56.** The roots of this oracle are accepted: the 32 bytes of the Merkle root are what is sent. -/
theorem C56_own_roots_sent {W : TxWorld} {slot : Nat} {bytes : List Nat} (hl : bytes.length = 32)
    (hb : ∀ b ∈ bytes, b < 256) (hW : W.ready = true) (hs : W.sending = .sent) :
    (updateContractMerkleRoot W slot (b!"0x" ++ hexEncode bytes)).2 = some (slot, bytes) := by
  have : rootBytes (b!"0x" ++ hexEncode bytes) = some bytes :=
    (rootBytes_spec _ _).mpr ⟨hl, _, Or.inl rfl, hexText_encode hb⟩
  unfold updateContractMerkleRoot
  rw [this, hW, hs]
  dsimp only
  split
  · contradiction
  · cases W.mining <;> dsimp only <;> split <;> rfl

/-- **C56.** What is reported, in every case: success exactly if the text was a root, the client was ready,
the transaction was sent and a receipt arrived; the tolerated error exactly if the contract refused the
slot. -/
theorem C56_outcome (W : TxWorld) (slot : Nat) (root : Str) :
    ((updateContractMerkleRoot W slot root).1 = .ok ↔
      (∃ bytes, RootText root bytes) ∧ W.ready = true ∧ W.sending = .sent ∧ W.mining ≠ .timeout) ∧
    ((updateContractMerkleRoot W slot root).1 = .slotInvalid ↔
      (∃ bytes, RootText root bytes) ∧ W.ready = true ∧ W.sending = .slotInvalid) := by
  have hroot : (∃ bytes, RootText root bytes) ↔ rootBytes root ≠ none := by
    constructor
    · rintro ⟨bs, h⟩
      rw [(rootBytes_spec _ _).mpr h]
      simp
    · intro h
      obtain ⟨bs, e⟩ := Option.ne_none_iff_exists'.mp h
      exact ⟨bs, (rootBytes_spec _ _).mp e⟩
  rw [hroot]
  obtain ⟨ready, sending, mining⟩ := W
  unfold updateContractMerkleRoot
  cases rootBytes root with
  | none => simp
  | some bs => cases ready <;> cases sending <;> cases mining <;> simp

/-- **C56, partial.** When a transaction was sent, an error is returned if no receipt arrives in time. What
is missing for the full claim: reverted transactions, see below. -/
theorem C56_timeout_reported_partial {W : TxWorld} {slot : Nat} {root : Str}
    (hm : W.mining = .timeout) (h : (updateContractMerkleRoot W slot root).2 ≠ none) :
    (updateContractMerkleRoot W slot root).1 = .failed := by
  unfold updateContractMerkleRoot at h ⊢
  cases hr : rootBytes root with
  | none => rfl
  | some bs =>
    rw [hr] at h
    dsimp only at h ⊢
    split
    · rfl
    · rename_i hw
      rw [if_neg hw] at h
      cases hs : W.sending with
      | failed => rfl
      | slotInvalid => rw [hs] at h; exact absurd rfl h
      | sent => dsimp only; rw [hm]

/-- **C56 is false for reverted transactions.** The error that should be wrapped is nil, so a reverted
transaction (any status other than 1) is reported as success. -/
theorem C56_false_reverted {W : TxWorld} {slot : Nat} {root : Str} {bytes : List Nat}
    (hr : RootText root bytes) (hW : W.ready = true) (hs : W.sending = .sent) (status : Nat)
    (hm : W.mining = .mined status) : (updateContractMerkleRoot W slot root).1 = .ok := by
  unfold updateContractMerkleRoot
  rw [(rootBytes_spec _ _).mpr hr, hW, hs, hm]
  dsimp only
  split
  · contradiction
  · split <;> rfl

/-- A root with 64 digits is accepted; with one capital letter it is rejected; a reverted transaction is
a success. -/
example : RootText (b!"0x" ++ hexEncode (List.replicate 32 171)) (List.replicate 32 171) ∧
    updateContractMerkleRoot ⟨true, .sent, .mined 0⟩ 7 (b!"0x" ++ hexEncode (List.replicate 32 171)) =
      (.ok, some (7, List.replicate 32 171)) ∧
    updateContractMerkleRoot ⟨true, .sent, .mined 1⟩ 7 (65 :: (hexEncode (List.replicate 32 171)).tail) =
      (.failed, none) := by
  refine ⟨⟨rfl, _, Or.inl rfl, hexText_encode (by decide)⟩, by decide, by decide⟩

end Verif
