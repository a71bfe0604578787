import Verif.Props.Endpoints
import Verif.Lemmas.Pays
/-
C67–C73: what the endpoints answer.
-/
namespace Verif
open VMap

/-! ### C67 Registration with the relays -/

theorem relayLoop_ok {pool : Str} {ask : Str → RelayReply} :
    ∀ (l : List Str) (r a : RelaysAnswer), relayLoop pool ask l r = .ok (some a) →
      a = ⟨r.ok, r.correct ++ registeredWith ask (fun fee => SameAddr fee pool) l,
        r.wrong ++ registeredWith ask (fun fee => ¬ SameAddr fee pool) l,
        r.unregistered ++ l.filter fun x => ask x = .unregistered⟩ ∧
      ∀ x ∈ l, ask x ≠ .unreachable ∧ ask x ≠ .unreadable
  | [], r, a, h => by
    simp only [relayLoop, Except.ok.injEq, Option.some.injEq] at h
    simp [registeredWith, h]
  | x :: l, r, a, h => by
    unfold relayLoop at h
    cases hx : ask x with
    | unreachable => rw [hx] at h; cases h
    | unreadable => rw [hx] at h; cases h
    | unregistered =>
      rw [hx] at h
      obtain ⟨h1, h2⟩ := relayLoop_ok l _ a h
      refine ⟨?_, by simpa [hx] using h2⟩
      rw [h1]
      simp [registeredWith, hx]
    | registered fee =>
      rw [hx] at h
      obtain ⟨same, hs, h⟩ := bind_ok.mp h
      have hiff := equals_iff hs
      cases same with
      | true =>
        rw [if_pos rfl] at h
        obtain ⟨h1, h2⟩ := relayLoop_ok l _ a h
        refine ⟨?_, by simpa [hx] using h2⟩
        have hsame := hiff.mp rfl
        rw [h1]
        simp [registeredWith, hx, hsame]
      | false =>
        rw [if_neg (by simp)] at h
        obtain ⟨h1, h2⟩ := relayLoop_ok l _ a h
        refine ⟨?_, by simpa [hx] using h2⟩
        have hsame : ¬ SameAddr fee pool := fun hc => by simpa using hiff.mpr hc
        rw [h1]
        simp [registeredWith, hx, hsame]

theorem relayLoop_none {pool : Str} {ask : Str → RelayReply} :
    ∀ (l : List Str) (r : RelaysAnswer), relayLoop pool ask l r = .ok none →
      ∃ x ∈ l, ask x = .unreachable ∨ ask x = .unreadable
  | [], r, h => by cases h
  | x :: l, r, h => by
    unfold relayLoop at h
    have tl : ∀ r', relayLoop pool ask l r' = .ok none →
        ∃ y ∈ x :: l, ask y = .unreachable ∨ ask y = .unreadable := fun r' h' => by
      obtain ⟨y, hy, h⟩ := relayLoop_none l r' h'
      exact ⟨y, by simp [hy], h⟩
    cases hx : ask x with
    | unreachable => exact ⟨x, by simp, Or.inl hx⟩
    | unreadable => exact ⟨x, by simp, Or.inr hx⟩
    | unregistered => rw [hx] at h; exact tl _ h
    | registered fee =>
      rw [hx] at h
      obtain ⟨same, hs, h⟩ := bind_ok.mp h
      cases same with
      | true => exact tl _ h
      | false => exact tl _ h

theorem mem_registeredWith {ask : Str → RelayReply} {P : Str → Prop} [DecidablePred P] {l : List Str}
    {p : Str × Str} : p ∈ registeredWith ask P l ↔ p.1 ∈ l ∧ ask p.1 = .registered p.2 ∧ P p.2 := by
  unfold registeredWith
  rw [List.mem_filterMap]
  constructor
  · rintro ⟨r, hr, h⟩
    split at h
    · rename_i fee hf
      split at h
      · rename_i hp; cases h; exact ⟨hr, hf, hp⟩
      · cases h
    · cases h
  · rintro ⟨h1, h2, h3⟩
    exact ⟨p.1, h1, by rw [h2]; simp [h3]⟩

/-- **C67.** If the endpoint answers, the relays are listed in order, those registered with the pool as fee
recipient, those registered with another one and those without a registration, nothing else happened, and the
verdict is positive exactly if some relay has a registration and every registration names the pool. -/
theorem C67_relays {pool : Str} {relays : List Str} {ask : Str → Str → RelayReply} {req : Str}
    {a : RelaysAnswer} (h : relayers pool relays ask req = .ok (.ok a)) :
    a.correct = registeredWith (fun r => ask r req) (fun fee => SameAddr fee pool) relays ∧
    a.wrong = registeredWith (fun r => ask r req) (fun fee => ¬ SameAddr fee pool) relays ∧
    a.unregistered = relays.filter (fun r => ask r req = .unregistered) ∧
    (∀ r ∈ relays, (∃ fee, ask r req = .registered fee) ∨ ask r req = .unregistered) ∧
    (a.ok = true ↔ (∃ r ∈ relays, ∃ fee, ask r req = .registered fee) ∧
      ∀ r ∈ relays, ∀ fee, ask r req = .registered fee → SameAddr fee pool) := by
  unfold relayers at h
  split at h
  · cases h
  · obtain ⟨x, hx, h⟩ := bind_ok.mp h
    cases x with
    | none => cases h
    | some b =>
      obtain ⟨h1, h2⟩ := relayLoop_ok _ _ _ hx
      simp only [List.nil_append] at h1
      have ha : a = { b with ok := decide (b.wrong.length = 0 ∧ b.correct.length > 0) } := by
        simp only [Except.ok.injEq, Answer.ok.injEq] at h
        rw [← h, h1]
        split <;> simp_all
      refine ⟨by rw [ha, h1], by rw [ha, h1], by rw [ha, h1], ?_, ?_⟩
      · intro r hr
        cases hk : ask r req with
        | unreachable => exact absurd hk (h2 r hr).1
        | unreadable => exact absurd hk (h2 r hr).2
        | unregistered => exact Or.inr rfl
        | registered fee => exact Or.inl ⟨fee, rfl⟩
      · rw [ha, h1]
        simp only [decide_eq_true_eq, List.length_eq_zero_iff, List.eq_nil_iff_forall_not_mem,
          List.length_pos_iff_exists_mem, gt_iff_lt, mem_registeredWith]
        constructor
        · rintro ⟨k1, p, k2, k3, k4⟩
          refine ⟨⟨p.1, k2, p.2, k3⟩, fun r hr fee hf => ?_⟩
          by_contra hc
          exact k1 (r, fee) ⟨hr, hf, hc⟩
        · rintro ⟨⟨r, hr, fee, hf⟩, k⟩
          exact ⟨fun p hp => hp.2.2 (k p.1 hp.1 p.2 hp.2.1), (r, fee), hr, hf, k r hr fee hf⟩

/-- **C67.** The endpoint refuses to answer only if the key is malformed or some relay cannot be asked. -/
theorem C67_refused {pool : Str} {relays : List Str} {ask : Str → Str → RelayReply} {req : Str}
    (hp : pool.length = 42) (hg : ∀ r fee, ask r req = .registered fee → fee.length = 42)
    (hk : IsKey req) (hall : ∀ r ∈ relays, ask r req ≠ .unreachable ∧ ask r req ≠ .unreadable) :
    ∃ a, relayers pool relays ask req = .ok (.ok a) := by
  have hv : isValidPubkey req = true := (C50_pubkey_partial req).1 hk
  unfold relayers
  rw [hv]
  simp only [Bool.not_true, Bool.false_eq_true, if_false]
  cases hx : relayLoop pool (fun r => ask r req) relays ⟨false, [], [], []⟩ with
  | error e =>
    exfalso
    have hs : ∀ (l : List Str) (r : RelaysAnswer), ∃ x, relayLoop pool (fun r => ask r req) l r = .ok x := by
      intro l
      induction l with
      | nil => exact fun r => ⟨_, rfl⟩
      | cons y l ih =>
        intro r
        unfold relayLoop
        cases hy : ask y req with
        | unreachable => exact ⟨_, rfl⟩
        | unreadable => exact ⟨_, rfl⟩
        | unregistered => exact ih _
        | registered fee =>
          dsimp only
          rw [equals_of_length ((hg y fee hy).trans hp.symm)]
          cases decide (lower fee = lower pool)
          · exact ih _
          · exact ih _
    obtain ⟨x, h⟩ := hs relays ⟨false, [], [], []⟩
    rw [h] at hx; cases hx
  | ok x =>
    cases x with
    | none =>
      obtain ⟨r, hr, h⟩ := relayLoop_none _ _ hx
      rcases h with h | h
      · exact absurd h (hall r hr).1
      · exact absurd h (hall r hr).2
    | some a => exact ⟨_, rfl⟩

/-- one relay has the pool, one nothing: positive; with the third relay: negative -/
example : (relayers Sample.pool [b!"https://a", b!"https://b"] Sample.outside.relay Sample.pubkey =
      .ok (.ok ⟨true, [(b!"https://a", Sample.pool)], [], [b!"https://b"]⟩)) ∧
    relayers Sample.pool [b!"https://a", b!"https://c"] Sample.outside.relay Sample.pubkey =
      .ok (.ok ⟨false, [(b!"https://a", Sample.pool)], [(b!"https://c", Sample.feeAddr)], []⟩) := by
  decide +kernel

example : ∃ a, relayers Sample.pool [b!"https://a", b!"https://b"] Sample.outside.relay Sample.pubkey =
    .ok (.ok a) :=
  C67_refused (by decide) (fun r fee => Sample.outside_texts.relay r Sample.pubkey fee) Sample.pubkey_ok
    (by decide +kernel)

/-! ### C68 Validators by index -/

theorem parseIndices_iff : ∀ (l : List Str) (is : List Nat),
    parseIndices l = some is ↔ (∀ x ∈ l, Numeral x ∧ numeralValue x < 2 ^ 64) ∧ is = l.map numeralValue
  | [], is => by simp [parseIndices, eq_comm]
  | x :: l, is => by
    unfold parseIndices
    cases hx : isValidIndex x with
    | none =>
      simp only [reduceCtorEq, false_iff, not_and]
      intro h
      have h0 := h x (by simp)
      have := (C50_index x (numeralValue x)).mpr ⟨h0.1, rfl, h0.2⟩
      rw [hx] at this; cases this
    | some i =>
      obtain ⟨h1, h2, h3⟩ := (C50_index x i).mp hx
      simp only [Option.map_eq_some_iff, parseIndices_iff l]
      constructor
      · rintro ⟨is', ⟨h4, rfl⟩, rfl⟩
        refine ⟨?_, by simp [h2]⟩
        intro y hy
        rcases List.mem_cons.mp hy with rfl | hy
        · exact ⟨h1, by omega⟩
        · exact h4 y hy
      · rintro ⟨h4, rfl⟩
        exact ⟨_, ⟨fun y hy => h4 y (by simp [hy]), rfl⟩, by simp [h2]⟩

theorem indexLoop_eq (cache : BMap) (vals : VMap) : ∀ (l : List Nat) (r : ByIndexAnswer),
    indexLoop cache vals l r = ⟨r.found ++ l.filterMap (fun i => (VMap.get vals i).bind fun v =>
        (BMap.get cache v.index).map fun u => (v, u)),
      r.notFound ++ l.filter fun i => (VMap.get vals i).isNone⟩
  | [], r => by simp [indexLoop]
  | i :: l, r => by
    unfold indexLoop
    cases hv : VMap.get vals i with
    | none => simp [indexLoop_eq, hv]
    | some v =>
      dsimp only
      cases hu : BMap.get cache v.index with
      | none => simp [indexLoop_eq, hv, hu]
      | some u => simp [indexLoop_eq, hv, hu]

/-- **C68**, **C47**, **C48.** What the cache has for an index is the record the beacon node gave under this
index; a Go map has one entry per key. -/
theorem C68_cache {m : BMap} (hm : (m.map (·.1)).Nodup) (i : Nat) (u : BVal) :
    BMap.get m i = some u ↔ (i, u) ∈ m := by
  unfold BMap.get
  induction m with
  | nil => simp
  | cons p m ih =>
    obtain ⟨k, x⟩ := p
    rw [List.map_cons, List.nodup_cons] at hm
    rw [List.find?_cons]
    by_cases h : k = i
    · subst h
      simp only [BEq.rfl, Option.map_some, Option.some.injEq, List.mem_cons, Prod.mk.injEq, true_and]
      constructor
      · intro e; exact Or.inl e.symm
      · rintro (e | e)
        · exact e.symm
        · exact absurd (List.mem_map.mpr ⟨_, e, rfl⟩) hm.1
    · have : (k == i) = false := by simpa using h
      simp only [this, List.mem_cons, Prod.mk.injEq, Ne.symm h, false_and, false_or]
      exact ih hm.2

/-- **C68.** The endpoint answers exactly the lists of at most 100 decimal numbers below 2^64, separated by
commas; the answer has, in the order of the request, the records of the tracked validators the beacon node
reported, and the numbers of the validators that are not tracked. -/
theorem C68_by_index (cache : Option BMap) (s : State) (req : Str) (a : ByIndexAnswer) :
    validatorsByIndex cache s req = .ok a ↔
      ∃ ns : List Str, Pieces req ns ∧ ns.length ≤ 100 ∧
        (∀ x ∈ ns, Numeral x ∧ numeralValue x < 2 ^ 64) ∧
        a.found = (ns.map numeralValue).filterMap (fun i => (VMap.get s.vals i).bind fun v =>
          (BMap.get (cache.getD []) v.index).map fun u => (v, u)) ∧
        a.notFound = (ns.map numeralValue).filter fun i => (VMap.get s.vals i).isNone := by
  have hsplit := splitComma_pieces req
  unfold validatorsByIndex
  constructor
  · intro h
    split at h
    · cases h
    · dsimp only at h
      split at h
      · cases h
      · rename_i hlen
        split at h
        · cases h
        · rename_i is his
          obtain ⟨h1, rfl⟩ := (parseIndices_iff _ _).mp his
          simp only [Answer.ok.injEq] at h
          rw [← h, indexLoop_eq]
          exact ⟨_, hsplit, by omega, h1, rfl, rfl⟩
  · rintro ⟨ns, hp, hlen, hn, hf, hnf⟩
    have hne : ¬ (req = [] ∨ req.getLast? = some 44) := by
      obtain ⟨h1, h2, h3⟩ := hp
      obtain ⟨init, last, rfl⟩ : ∃ init last, ns = init ++ [last] :=
        ⟨ns.dropLast, ns.getLast h1, (List.dropLast_append_getLast h1).symm⟩
      have hl := (hn last (by simp)).1
      have h44 := h2 last (by simp)
      have : ∃ pre, req = pre ++ last := by
        rw [← h3]
        clear h1 h2 h3 hlen hn hf hnf
        induction init with
        | nil => exact ⟨[], by simp [List.intercalate]⟩
        | cons x xs ih =>
          obtain ⟨pre, hpre⟩ := ih
          refine ⟨x ++ [44] ++ pre, ?_⟩
          rw [List.cons_append, List.intercalate_cons_of_ne_nil (by simp), hpre]
          simp
      obtain ⟨pre, rfl⟩ := this
      intro hc
      rcases hc with hc | hc
      · exact hl.1 (List.append_eq_nil_iff.mp hc).2
      · obtain ⟨ini, z, rfl⟩ : ∃ ini z, last = ini ++ [z] :=
          ⟨last.dropLast, last.getLast hl.1, (List.dropLast_append_getLast hl.1).symm⟩
        rw [← List.append_assoc, List.getLast?_concat] at hc
        cases hc
        exact h44 (by simp)
    rw [if_neg hne]
    dsimp only
    have e := pieces_unique hp
    rw [← e, if_neg (by omega), (parseIndices_iff ns _).mpr ⟨hn, rfl⟩]
    simp only [Answer.ok.injEq]
    rw [indexLoop_eq]
    simp [← hf, ← hnf]

/-- **C68.** Everything else is refused as a bad request. -/
theorem C68_refused (cache : Option BMap) (s : State) (req : Str) :
    (∃ a, validatorsByIndex cache s req = .ok a) ∨ validatorsByIndex cache s req = .badRequest := by
  unfold validatorsByIndex
  split
  · exact Or.inr rfl
  · dsimp only
    split
    · exact Or.inr rfl
    · split
      · exact Or.inr rfl
      · exact Or.inl ⟨_, rfl⟩

/-- two tracked validators and one that is not tracked -/
example : ∃ a, validatorsByIndex Sample.outside.cache Sample.final.st b!"2,77,1" = .ok a ∧
    a.found.map (fun p => p.1.index) = [2, 1] ∧ a.notFound = [77] := by
  obtain ⟨a, h⟩ : ∃ a, validatorsByIndex Sample.outside.cache Sample.final.st b!"2,77,1" = .ok a :=
    (C68_refused _ _ _).resolve_right (by decide +kernel)
  refine ⟨a, h, ?_⟩
  have hk : (match validatorsByIndex Sample.outside.cache Sample.final.st b!"2,77,1" with
    | .ok a => decide (a.found.map (fun p => p.1.index) = [2, 1] ∧ a.notFound = [77])
    | _ => false) = true := by decide +kernel
  rw [h] at hk
  simpa using hk

example : validatorsByIndex Sample.outside.cache Sample.final.st b!"2,,1" = .badRequest ∧
    validatorsByIndex Sample.outside.cache Sample.final.st b!"2," = .badRequest := by decide +kernel

end Verif
