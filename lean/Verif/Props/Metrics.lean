import Verif.Spec.Metrics
import Verif.Props.MainLoop
import Verif.Props.Listings
import Verif.Lemmas.Json
/-
C122: monitoring shows what is so.
-/
namespace Verif

/-! ### The counter of requests -/

theorem fits_route {path : Str} {r : Request} (h : route path = some r) :
    template r ∈ documented ∧ FitsPath (template r) path := by
  obtain ⟨rfl, ha⟩ := (C70_router path r).mp h
  have var : ∀ (pre v x : Str), argument r = some x → pathOf r = pre ++ x → 123 ∉ pre →
      template r = pre ++ 123 :: v → FitsPath (template r) (pathOf r) := by
    intro pre v x h1 h2 h3 h4
    exact .inr ⟨pre, v, x, h4, h3, (ha x h1).1, (ha x h1).2, h2⟩
  cases r with
  | relays x => exact ⟨by show b!"/registeredrelays/{valpubkey}" ∈ documented; decide,
      var b!"/registeredrelays/" b!"valpubkey}" x rfl rfl (by decide) rfl⟩
  | validatorInfo x => exact ⟨by show b!"/memory/validator/{valindex}" ∈ documented; decide,
      var b!"/memory/validator/" b!"valindex}" x rfl rfl (by decide) rfl⟩
  | byIndex x => exact ⟨by show b!"/memory/validatorsbyindex/{valindices}" ∈ documented; decide,
      var b!"/memory/validatorsbyindex/" b!"valindices}" x rfl rfl (by decide) rfl⟩
  | byWithdrawal x =>
    exact ⟨by show b!"/memory/validators/{withdrawalAddress}" ∈ documented; decide,
      var b!"/memory/validators/" b!"withdrawalAddress}" x rfl rfl (by decide) rfl⟩
  | proof x => exact ⟨by show b!"/onchain/proof/{withdrawalAddress}" ∈ documented; decide,
      var b!"/onchain/proof/" b!"withdrawalAddress}" x rfl rfl (by decide) rfl⟩
  | _ => exact ⟨by decide, .inl ⟨by decide, rfl⟩⟩

theorem split_at {a b v w : Str} (ha : 123 ∉ a) (hb : 123 ∉ b) (h : a ++ 123 :: v = b ++ 123 :: w) : a = b := by
  induction a generalizing b with
  | nil =>
    cases b with
    | nil => rfl
    | cons c b =>
      simp only [List.nil_append, List.cons_append, List.cons.injEq] at h
      exact absurd (by simp [h.1]) hb
  | cons c a ih =>
    cases b with
    | nil =>
      simp only [List.nil_append, List.cons_append, List.cons.injEq] at h
      exact absurd (by simp [h.1]) ha
    | cons d b =>
      simp only [List.cons_append, List.cons.injEq] at h
      rw [h.1, ih (fun hm => ha (by simp [hm])) (fun hm => hb (by simp [hm])) h.2]

theorem route_fits {p path : Str} (hp : p ∈ documented) (hf : FitsPath p path) :
    ∃ r, route path = some r ∧ template r = p := by
  have const : ∀ r : Request, argument r = none → p = template r → template r = pathOf r →
      123 ∉ pathOf r → ∃ r, route path = some r ∧ template r = p := by
    intro r h1 h2 h3 h4
    refine ⟨r, (C70_router path r).mpr ⟨?_, fun x hx => by rw [h1] at hx; cases hx⟩, h2.symm⟩
    rcases hf with ⟨_, h⟩ | ⟨pre, v, x, h, _⟩
    · rw [h, h2, h3]
    · rw [h2, h3] at h
      exact absurd (by rw [h]; simp) h4
  have var : ∀ (f : Str → Request) (pre v : Str), (∀ x, argument (f x) = some x) →
      (∀ x, pathOf (f x) = pre ++ x) → (∀ x, template (f x) = pre ++ 123 :: v) → 123 ∉ pre →
      p = pre ++ 123 :: v → ∃ r, route path = some r ∧ template r = p := by
    intro f pre v h1 h2 h3 h4 h5
    rcases hf with ⟨h, _⟩ | ⟨pre', v', x, h, h', hx, hx', hpath⟩
    · exact absurd (by rw [h5]; simp) h
    · have e := split_at h4 h' (h5.symm.trans h)
      subst e
      refine ⟨f x, (C70_router path (f x)).mpr ⟨by rw [hpath, h2], fun y hy => ?_⟩, (h3 x).trans h5.symm⟩
      rw [h1] at hy
      cases hy
      exact ⟨hx, hx'⟩
  simp only [documented, List.mem_cons, List.not_mem_nil, or_false] at hp
  rcases hp with h | h | h | h | h | h | h | h | h | h | h | h | h | h | h | h | h
  · exact const .root rfl h rfl (by decide)
  · exact const .status rfl h rfl (by decide)
  · exact const .config rfl h rfl (by decide)
  · exact var .relays b!"/registeredrelays/" b!"valpubkey}" (fun _ => rfl) (fun _ => rfl) (fun _ => rfl) (by decide) h
  · exact const .state rfl h rfl (by decide)
  · exact const .validators rfl h rfl (by decide)
  · exact var .validatorInfo b!"/memory/validator/" b!"valindex}" (fun _ => rfl) (fun _ => rfl) (fun _ => rfl) (by decide) h
  · exact var .byIndex b!"/memory/validatorsbyindex/" b!"valindices}" (fun _ => rfl) (fun _ => rfl) (fun _ => rfl)
      (by decide) h
  · exact var .byWithdrawal b!"/memory/validators/" b!"withdrawalAddress}" (fun _ => rfl) (fun _ => rfl) (fun _ => rfl)
      (by decide) h
  · exact const .fees rfl h rfl (by decide)
  · exact const .statistics rfl h rfl (by decide)
  · exact const .allBlocks rfl h rfl (by decide)
  · exact const .proposedBlocks rfl h rfl (by decide)
  · exact const .missedBlocks rfl h rfl (by decide)
  · exact const .wrongFeeBlocks rfl h rfl (by decide)
  · exact const .donations rfl h rfl (by decide)
  · exact var .proof b!"/onchain/proof/" b!"withdrawalAddress}" (fun _ => rfl) (fun _ => rfl) (fun _ => rfl) (by decide) h

theorem respond_ok (code : Nat) (t : Str) :
    respond .new code t true = ⟨⟨some code, t⟩, code, t.length, true⟩ := by
  simp [respond, Delegate.new, Delegate.header, Delegate.write, Sent.header, Sent.write]

theorem Answer.code_small {α : Type} (a : Answer α) : U64 a.code := by
  cases a <;> simp [Answer.code, U64]

theorem replyCode_small (r : Reply) : U64 (replyCode r) := by
  cases r with
  | status a => exact a.code_small
  | relays a => exact a.code_small
  | validators a => exact a.code_small
  | validator a => exact a.code_small
  | byIndex a => exact a.code_small
  | statistics a => exact a.code_small
  | proof a => exact a.code_small
  | _ => show (200 : Nat) < 2 ^ 64; decide

theorem httpReply_small (T : Texts) (m : Str) (r : Reply) : U64 (httpReply T m r).1 := by
  have := replyCode_small r
  unfold httpReply
  split <;> first | exact this | (simp [U64])

/-- The middleware's writer changes nothing for the client, whatever the handler does with it: the client
gets what it would have got without the middleware. What it counts as written is the size of the body. -/
theorem C122_transparent (ops : List WOp) :
    (delegated ops .new).inner = plain ops ⟨none, []⟩ ∧
    (delegated ops .new).written = (plain ops ⟨none, []⟩).body.length := by
  have key : ∀ (ops : List WOp) (d : Delegate) (s : Sent), d.inner = s → d.written = s.body.length →
      (d.wroteHeader = true ↔ s.status ≠ none) →
      (delegated ops d).inner = plain ops s ∧ (delegated ops d).written = (plain ops s).body.length := by
    intro ops
    induction ops with
    | nil => intro d s h1 h2 _; exact ⟨h1, h2⟩
    | cons op ops ih =>
      intro d s h1 h2 h3
      subst h1
      cases op with
      | header c =>
        refine ih (d.header c) _ rfl ?_ ?_
        · simp only [Delegate.header, Sent.header]; split <;> exact h2
        · simp only [Delegate.header, Sent.header, true_iff]
          split
          · simp
          · assumption
      | write b up =>
        have e : (d.write b up).inner = d.inner.write b up := by
          unfold Delegate.write
          by_cases hw : d.wroteHeader = true
          · simp [hw]
          · have hn : d.inner.status = none := by
              by_contra hc; exact hw (h3.mpr hc)
            simp [hw, Delegate.header, Sent.write, Sent.header, hn]
        refine ih (d.write b up) _ e ?_ ?_
        · have hb : (d.inner.header 200).body = d.inner.body := by unfold Sent.header; split <;> rfl
          have hwr : (d.write b up).written = d.written + if up then b.length else 0 := by
            unfold Delegate.write; by_cases hw : d.wroteHeader = true <;> simp [hw, Delegate.header]
          rw [hwr, h2]
          unfold Sent.write
          cases up <;> simp [hb]
        · have h4 : (d.inner.write b up).status ≠ none := by
            unfold Sent.write Sent.header
            by_cases hn : d.inner.status = none <;> cases up <;> simp [hn]
          have h5 : (d.write b up).wroteHeader = true := by
            unfold Delegate.write; by_cases hw : d.wroteHeader = true <;> simp [hw, Delegate.header]
          simp [h4, h5]
  exact key ops .new ⟨none, []⟩ rfl rfl (by simp [Delegate.new])

/-- If the handler sets the status once, before writing, or never, then the status that the middleware
counts is the one that the client got. -/
theorem C122_status (ws : List (Str × Bool)) (code : Nat) :
    (plain (.header code :: ws.map fun w => .write w.1 w.2) ⟨none, []⟩).status =
      some (delegated (.header code :: ws.map fun w => .write w.1 w.2) .new).status ∧
    (ws ≠ [] → (plain (ws.map fun w => .write w.1 w.2) ⟨none, []⟩).status =
      some (delegated (ws.map fun w => .write w.1 w.2) .new).status) := by
  have key : ∀ (ws : List (Str × Bool)) (d : Delegate) (s : Sent), d.wroteHeader = true →
      s.status = some d.status →
      (plain (ws.map fun w => .write w.1 w.2) s).status =
        some (delegated (ws.map fun w => .write w.1 w.2) d).status := by
    intro ws
    induction ws with
    | nil => intro d s _ h; exact h
    | cons w ws ih =>
      intro d s h1 h2
      refine ih (d.write w.1 w.2) (s.write w.1 w.2) ?_ ?_
      · simp [Delegate.write, h1]
      · have e : (d.write w.1 w.2).status = d.status := by simp [Delegate.write, h1]
        rw [e]
        unfold Sent.write Sent.header
        cases w.2 <;> simp [h2]
  refine ⟨key ws _ _ rfl rfl, fun hne => ?_⟩
  cases ws with
  | nil => exact absurd rfl hne
  | cons w ws =>
    refine key ws (Delegate.new.write w.1 w.2) (Sent.write ⟨none, []⟩ w.1 w.2) rfl ?_
    cases w.2 <;> rfl

/-- One GET request that the handler answers, to a connection that is up. -/
theorem answer_cases {L : Lib} {E : Env} {pool : Str} {relays : List Str} {S S' : Server} {q : HttpReq}
    {a : Outcome} (hup : q.up = true)
    (h : answerHttp L E pool relays S q = .ok (a, S')) :
    (S'.counts = S.counts ∧ ∀ p ∈ documented, ∀ code, ¬ Got p code (q, a)) ∨
    ∃ r body code, q.method = b!"GET" ∧ route q.path = some r ∧ U64 code ∧
      a = .answered ⟨some code, body⟩ ∧
      S'.counts = inc S.counts (decimal code, b!"get", template r) := by
  unfold answerHttp at h
  rcases ite_cases h with ⟨hm, h⟩ | ⟨hm, h⟩
  · cases h
    refine .inl ⟨rfl, fun p _ code hg => ?_⟩
    have := hg.1
    rw [hm] at this
    exact absurd this (by decide)
  · cases hr : route q.path with
    | none =>
      rw [hr] at h
      cases h
      refine .inl ⟨rfl, fun p hp code hg => ?_⟩
      obtain ⟨r, hr', _⟩ := route_fits hp hg.2.1
      rw [hr] at hr'
      cases hr'
    | some r =>
      rw [hr] at h
      dsimp only at h
      rcases ite_cases h with ⟨hget, h⟩ | ⟨hget, h⟩
      · cases h
        exact .inl ⟨rfl, fun p _ code hg => hget hg.1⟩
      · have hget : q.method = b!"GET" := by
          by_contra hc; exact hget hc
        cases hs : serve L E q.t q.W pool relays S.o r with
        | error e =>
          rw [hs] at h
          cases e with
          | panic =>
            cases h
            refine .inl ⟨rfl, fun p _ code hg => ?_⟩
            obtain ⟨_, hg⟩ := hg.2.2
            cases hg
          | fatal => cases h
        | ok x =>
          obtain ⟨reply, o⟩ := x
          rw [hs] at h
          dsimp only at h
          rw [hup, respond_ok, hget] at h
          cases h
          exact .inr ⟨r, _, _, hget, rfl, httpReply_small q.T q.message reply, rfl, rfl⟩

/-- However many requests of whatever kind have been answered, and whatever the main loop did in between:
the counter of a documented path and a status is the number of GET requests for such a path whose client
was sent this status. Missing: answers that could not be written, and everything that is not a
GET request for a documented path (`C122_false_broken`, `C122_false_uncounted`). -/
theorem C122_counts_partial {L : Lib} {E : Env} {pool : Str} {relays : List Str}
    {log : List (HttpReq × Outcome)} {S : Server} (h : ServerRun L E pool relays log S)
    (hup : ∀ e ∈ log, e.1.up = true) {p : Str} (hp : p ∈ documented) {code : Nat}
    (hc : code < 2 ^ 64) :
    Counted (Got p code) log (S.counts (decimal code, b!"get", p)) := by
  induction h with
  | start o => exact .nil
  | loop o _ ih => exact ih hup
  | @request log S S' q a _ hq ih =>
    have ih := ih (fun e he => hup e (List.mem_append_left _ he))
    have hu := hup (q, a) (by simp)
    rcases answer_cases hu hq with ⟨e, hno⟩ | ⟨r, body, c, hget, hr, hcs, rfl, e⟩
    · rw [e]
      exact .no ih (hno p hp code)
    · rw [e]
      unfold inc
      obtain ⟨_, hf⟩ := fits_route hr
      by_cases heq : code = c ∧ p = template r
      · obtain ⟨rfl, rfl⟩ := heq
        rw [if_pos rfl]
        exact .yes ih ⟨hget, hf, _, rfl⟩
      · rw [if_neg]
        · refine .no ih fun hg => heq ?_
          obtain ⟨_, hf', _, hb⟩ := hg
          obtain ⟨r', hr', ht⟩ := route_fits hp hf'
          dsimp only at hr'
          rw [hr] at hr'
          cases hr'
          cases hb
          exact ⟨rfl, ht.symm⟩
        · intro hk
          simp only [Prod.mk.injEq, true_and] at hk
          exact heq ⟨decimal_inj hc hcs hk.1, hk.2⟩

/-- Nothing else is ever counted. -/
theorem C122_only_partial {L : Lib} {E : Env} {pool : Str} {relays : List Str}
    {log : List (HttpReq × Outcome)} {S : Server} (h : ServerRun L E pool relays log S)
    (hup : ∀ e ∈ log, e.1.up = true) {k : Labels} (hk : S.counts k ≠ 0) :
    ∃ p ∈ documented, ∃ code, k = (decimal code, b!"get", p) ∧ ∃ e ∈ log, Got p code e := by
  induction h with
  | start o => exact absurd rfl hk
  | loop o _ ih => exact ih hup hk
  | @request log S S' q a _ hq ih =>
    have hu := hup (q, a) (by simp)
    have ih' : S.counts k ≠ 0 → ∃ p ∈ documented, ∃ code, k = (decimal code, b!"get", p) ∧
        ∃ e ∈ log ++ [(q, a)], Got p code e := by
      intro hk
      obtain ⟨p, hp, code, e1, e, he, hg⟩ := ih (fun e he => hup e (List.mem_append_left _ he)) hk
      exact ⟨p, hp, code, e1, e, List.mem_append_left _ he, hg⟩
    rcases answer_cases hu hq with ⟨e, _⟩ | ⟨r, body, c, hget, hr, hcs, rfl, e⟩
    · rw [e] at hk
      exact ih' hk
    · rw [e] at hk
      unfold inc at hk
      by_cases hkk : k = (decimal c, b!"get", template r)
      · obtain ⟨hd, hf⟩ := fits_route hr
        exact ⟨_, hd, c, hkk, _, by simp, hget, hf, _, rfl⟩
      · rw [if_neg hkk] at hk
        exact ih' hk

/-- Requests for unknown paths, with other methods, and requests whose handler panicked are answered (or
not) without a trace in the counter. -/
theorem C122_false_uncounted {L : Lib} {E : Env} {pool : Str} {relays : List Str} {S S' : Server}
    {q : HttpReq} {a : Outcome} (h : answerHttp L E pool relays S q = .ok (a, S'))
    (hq : q.method ≠ b!"GET" ∨ (∀ p ∈ documented, ¬ FitsPath p q.path) ∨ a = .lost) : S'.counts = S.counts := by
  unfold answerHttp at h
  rcases ite_cases h with ⟨hm, h⟩ | ⟨hm, h⟩
  · cases h; rfl
  · cases hr : route q.path with
    | none => rw [hr] at h; cases h; rfl
    | some r =>
      rw [hr] at h
      dsimp only at h
      rcases ite_cases h with ⟨hget, h⟩ | ⟨hget, h⟩
      · cases h; rfl
      · cases hs : serve L E q.t q.W pool relays S.o r with
        | error e =>
          rw [hs] at h
          cases e with
          | panic => cases h; rfl
          | fatal => cases h
        | ok x =>
          obtain ⟨reply, o⟩ := x
          rw [hs] at h
          cases h
          rcases hq with hq | hq | hq
          · exact absurd hq hget
          · obtain ⟨hd, hf⟩ := fits_route hr
            exact absurd hf (hq _ hd)
          · cases hq

theorem float64_shows (n : Nat) : GaugeOf (float64 n) n := by
  refine ⟨fun h => by unfold float64; rw [if_pos h], ?_⟩
  unfold float64
  by_cases h : n < 2 ^ 53
  · rw [if_pos h]; simp
  · rw [if_neg h]
    have hn : n ≠ 0 := by omega
    have hlog : 53 ≤ Nat.log2 n := (Nat.le_log2 hn).mpr (by omega)
    obtain ⟨e, he⟩ : ∃ e, Nat.log2 n = 53 + e := ⟨Nat.log2 n - 53, by omega⟩
    have hge : 2 ^ (53 + e) ≤ n := by rw [← he]; exact Nat.log2_self_le hn
    have e1 : Nat.log2 n - 52 = e + 1 := by omega
    rw [e1]
    dsimp only
    have hp : 2 ^ (53 + e) = 2 ^ 53 * 2 ^ e := Nat.pow_add 2 53 e
    have hq : 2 ^ (e + 1) = 2 * 2 ^ e := by rw [Nat.pow_succ]; omega
    have hd := Nat.div_add_mod n (2 ^ (e + 1))
    have hm := Nat.mod_lt n (Nat.two_pow_pos (e + 1))
    rw [hq] at hd hm ⊢
    generalize n / (2 * 2 ^ e) = q at *
    generalize n % (2 * 2 ^ e) = r at *
    rw [hp] at hge
    generalize 2 ^ e = k at *
    have hmul : (q + 1) * (2 * k) = 2 * k * q + 2 * k := by
      rw [Nat.add_mul, Nat.one_mul, Nat.mul_comm]
    have hmul' : q * (2 * k) = 2 * k * q := Nat.mul_comm _ _
    split
    · rw [hmul]; generalize 2 * k * q = z at *; omega
    · rw [hmul']; generalize 2 * k * q = z at *; omega

/-! ### The gauges -/

/-- a step processes one slot, or leaves the latest slot and block as they are; checkpoints are added only
with the event -/
theorem stepLoop_meter {L : Lib} {H : List Nat → List Nat} {E : Env} (hE : ValidEnv E) {cfg : Config}
    (h0 : 0 < cfg.depSlot) (h1 : cfg.depSlot < 2 ^ 64) {A : Answers} {l l' : Loop} {evs : List LoopEv}
    (hw : Work H E (newOracle cfg) l.o) (h : stepLoop L H E A l = .ok (l', evs)) :
    ((∃ s fin, evs = [.processed s fin]) ∨
      (l'.o.st.latestSlot = l.o.st.latestSlot ∧ l'.o.st.latestBlock = l.o.st.latestBlock ∧
        ∀ s fin, .processed s fin ∉ evs)) ∧
    ∀ p ∈ l'.o.st.committed, p ∈ l.o.st.committed ∨ .frozen p.1 p.2.root ∈ evs := by
  obtain ⟨pc, o, disk, lr⟩ := l
  cases pc with
  | top =>
    unfold stepLoop stepTop at h
    dsimp only at h
    split at h
    · cases h
    · cases h
      exact ⟨.inr ⟨rfl, rfl, by simp⟩, fun p hp => .inl hp⟩
    · split at h
      · cases h
        exact ⟨.inr ⟨rfl, rfl, by simp⟩, fun p hp => .inl hp⟩
      · rename_i fin hfin
        split at h
        · simp only [bind_ok] at h
          obtain ⟨b, _, ⟨o', r⟩, hadv, h⟩ := h
          dsimp only at h
          cases r with
          | none => cases h
          | some n =>
            cases h
            refine ⟨.inl ⟨_, _, rfl⟩, fun p hp => .inl ?_⟩
            dsimp only at hp
            rw [(slot_keeps hadv).2] at hp
            exact hp
        · simp only [bind_ok] at h
          obtain ⟨x, hid, h⟩ := h
          cases h
          unfold idle at hid
          dsimp only at hid
          split at hid
          · simp only [bind_ok] at hid
            obtain ⟨us, _, cl, _, hid⟩ := hid
            split at hid
            · split at hid
              · cases hid
                exact ⟨.inr ⟨rfl, rfl, by simp⟩, fun p hp => .inl hp⟩
              · cases hid
            · cases hid
              exact ⟨.inr ⟨rfl, rfl, by simp⟩, fun p hp => .inl hp⟩
          · cases hid
            exact ⟨.inr ⟨rfl, rfl, by simp⟩, fun p hp => .inl hp⟩
  | processed =>
    unfold stepLoop stepProcessed at h
    dsimp only at h
    simp only [bind_ok] at h
    obtain ⟨_, _, cp, _, h⟩ := h
    split at h
    · cases h
    · cases h
      exact ⟨.inr ⟨rfl, rfl, by simp⟩, fun p hp => .inl hp⟩
    · simp only [bind_ok] at h
      obtain ⟨ok, _, h⟩ := h
      rcases ite_cases h with ⟨_, h⟩ | ⟨_, h⟩
      · cases h
      · simp only [bind_ok] at h
        obtain ⟨⟨s, en⟩, hfr, h⟩ := h
        dsimp only at h
        have hi := (work_inv hE (hw.tick (o.st.tick + 1)) (work_start h0 h1)).1
        dsimp only at hi
        have e1 : s.latestSlot = o.st.latestSlot ∧ s.latestBlock = o.st.latestBlock := by
          rcases freeze_cases hE hfr with ⟨_, rfl⟩ | ⟨f, _, _, rfl⟩ <;> exact ⟨rfl, rfl⟩
        rcases ite_cases h with ⟨hen, h⟩ | ⟨hen, h⟩
        · cases h
          refine ⟨.inr ⟨e1.1, e1.2, by simp⟩, fun p hp => .inl ?_⟩
          rcases freeze_cases hE hfr with ⟨_, hs⟩ | ⟨f, _, he, hs⟩
          · dsimp only at hp
            rw [hs] at hp
            exact hp
          · rw [he] at hen
            cases hen
        · simp only [Bool.not_eq_true', Bool.not_eq_false] at hen
          subst hen
          cases hl : latestCommitted E s.tick s with
          | none => rw [hl] at h; cases h
          | some f =>
            rw [hl] at h
            cases h
            refine ⟨.inr ⟨e1.1, e1.2, by simp⟩, fun p hp => ?_⟩
            dsimp only at hp
            rcases freeze_cases hE hfr with ⟨h, _⟩ | ⟨f', hF, _, hs'⟩
            · cases h
            · have hmem : (o.st.latestSlot, f') ∈ s.committed := by
                rw [hs']; dsimp only; rw [putFrozen_mem hi.keys]; exact Or.inl rfl
              have hi' := (hi.freeze hE hfr).1
              have := (latestCommitted_spec hE s.tick hi'.keys hmem (fun p hp => by
                have := (hi'.entry p hp).2.1
                rw [e1.1] at this
                exact this)).2
              rw [this] at hl
              cases hl
              have hfs := (hi'.entry _ hmem).1
              dsimp only at hfs
              rw [hs'] at hp
              dsimp only at hp
              rw [putFrozen_mem hi.keys] at hp
              rcases hp with rfl | ⟨_, hp⟩
              · right; simp [hfs]
              · exact .inl hp
  | vote f =>
    unfold stepLoop at h
    dsimp only at h
    split at h
    · cases h
    · split at h
      · cases h
      · split at h <;> cases h <;> exact ⟨.inr ⟨rfl, rfl, by simp⟩, fun p hp => .inl hp⟩
  | pause f =>
    unfold stepLoop at h
    dsimp only at h
    split at h
    · cases h
    · cases h
      exact ⟨.inr ⟨rfl, rfl, by simp⟩, fun p hp => .inl hp⟩
  | decide f =>
    unfold stepLoop at h
    dsimp only at h
    split at h
    · cases h
    · split at h <;> cases h <;> exact ⟨.inr ⟨rfl, rfl, by simp⟩, fun p hp => .inl hp⟩
  | submit f =>
    unfold stepLoop at h
    dsimp only at h
    split at h
    · cases h
    · cases h
      exact ⟨.inr ⟨rfl, rfl, by simp⟩, fun p hp => .inl hp⟩
  | confirm f =>
    unfold stepLoop at h
    dsimp only at h
    split at h
    · cases h
    · split at h <;> cases h <;> exact ⟨.inr ⟨rfl, rfl, by simp⟩, fun p hp => .inl hp⟩
  | save f =>
    unfold stepLoop at h
    dsimp only at h
    cases h
    exact ⟨.inr ⟨rfl, rfl, by simp⟩, fun p hp => .inl hp⟩

theorem MeteredRun.run {L H E l tr l' g} (h : MeteredRun L H E l tr l' g) : LoopRun L H E l tr l' := by
  induction h with
  | nil => exact .nil
  | step _ hA hs ih => exact .step ih hA hs

theorem LastSlot.keep {tr evs : List LoopEv} (hn : ∀ s fin, .processed s fin ∉ evs) {s fin : Nat}
    (h : LastSlot (tr ++ evs) s fin) : LastSlot tr s fin := by
  obtain ⟨pre, post, e, hp⟩ := h
  rcases List.append_eq_append_iff.mp e with ⟨a, h1, h2⟩ | ⟨a, h1, h2⟩
  · exact absurd (by rw [h2]; simp) (hn s fin)
  · cases a with
    | nil =>
      simp only [List.nil_append] at h2
      exact absurd (by rw [← h2]; simp) (hn s fin)
    | cons x a =>
      simp only [List.cons_append, List.cons.injEq] at h2
      obtain ⟨rfl, h2⟩ := h2
      exact ⟨pre, a, h1, fun s' fin' hm => hp s' fin' (by rw [h2]; simp [hm])⟩

theorem meter_quiet {l : Loop} {evs : List LoopEv} (hn : ∀ s fin, .processed s fin ∉ evs) (g : Gauges) :
    (meter l g evs).distance = g.distance ∧ (meter l g evs).slot = g.slot ∧
    (meter l g evs).block = g.block := by
  unfold meter
  induction evs generalizing g with
  | nil => exact ⟨rfl, rfl, rfl⟩
  | cons e evs ih =>
    have ih := ih (fun s fin hm => hn s fin (by simp [hm])) (meterEv l g e)
    rw [List.foldl_cons]
    cases e with
    | processed s fin => exact absurd (by simp) (hn s fin)
    | _ => exact ih

theorem meter_known (l : Loop) (evs : List LoopEv) (g : Gauges) (k : Str × Str) :
    k ∈ (meter l g evs).known ↔ k ∈ g.known ∨ ∃ s r, .frozen s r ∈ evs ∧ k = (decimal s, r) := by
  unfold meter
  induction evs generalizing g with
  | nil => simp
  | cons e evs ih =>
    rw [List.foldl_cons, ih]
    cases e with
    | frozen s r =>
      simp only [meterEv, List.mem_cons, LoopEv.frozen.injEq]
      constructor
      · rintro ((rfl | h) | ⟨s', r', h, rfl⟩)
        · exact .inr ⟨s, r, .inl ⟨rfl, rfl⟩, rfl⟩
        · exact .inl h
        · exact .inr ⟨s', r', .inr h, rfl⟩
      · rintro (h | ⟨s', r', ⟨rfl, rfl⟩ | h, rfl⟩)
        · exact .inl (.inr h)
        · exact .inl (.inl rfl)
        · exact .inr ⟨s', r', h, rfl⟩
    | _ => simp [meterEv]

/-- At every moment of every run the gauges show the latest processed slot and block of the books, and the
distance shown is the one at the time this slot was processed; it never wraps below zero. Until the first
slot is processed after a start they show 0, whatever the books hold. -/
theorem C122_gauges {L : Lib} {H : List Nat → List Nat} {E : Env} (hE : ValidEnv E) {cfg : Config}
    (h0 : 0 < cfg.depSlot) (h1 : cfg.depSlot < 2 ^ 64) {l l' : Loop} {tr : List LoopEv} {g : Gauges}
    (hw : Work H E (newOracle cfg) l.o) (hpc : l.pc = .top) (hr : MeteredRun L H E l tr l' g) :
    (∀ s fin, LastSlot tr s fin → s = l'.o.st.latestSlot ∧ s ≤ fin ∧ GaugeOf g.slot s ∧
      GaugeOf g.block l'.o.st.latestBlock ∧ GaugeOf g.distance (fin - s)) ∧
    ((∀ s fin, .processed s fin ∉ tr) → g.slot = 0 ∧ g.block = 0 ∧ g.distance = 0) := by
  induction hr with
  | nil =>
    refine ⟨fun s fin h => ?_, fun _ => ⟨rfl, rfl, rfl⟩⟩
    obtain ⟨pre, post, e, _⟩ := h
    simp at e
  | @step tr l1 l2 A evs g hrun hA hs ih =>
    have hi := loopRun_inv hE h0 h1 hw hpc hrun.run
    have hc := (stepLoop_meter hE h0 h1 hi.work hs).1
    by_cases hx : ∃ s fin, evs = [.processed s fin]
    · obtain ⟨s, fin, rfl⟩ := hx
      refine ⟨fun s' fin' hl => ?_, fun hn => absurd (by simp) (hn s fin)⟩
      obtain ⟨pre, post, e, hp⟩ := hl
      have he : s' = s ∧ fin' = fin := by
        rcases List.eq_nil_or_concat post with rfl | ⟨post', y, rfl⟩
        · have := (List.append_inj' e rfl).2
          simp only [List.cons.injEq, LoopEv.processed.injEq, and_true] at this
          exact ⟨this.1.symm, this.2.symm⟩
        · have e' : tr ++ [.processed s fin] = (pre ++ .processed s' fin' :: post') ++ [y] := by rw [e]; simp
          have := (List.append_inj' e' rfl).2
          simp only [List.cons.injEq, and_true] at this
          exact absurd (by rw [← this]; simp) (hp s fin)
      obtain ⟨rfl, rfl⟩ := he
      obtain ⟨_, _, _, hfin, _, hle, b, _, hadv⟩ := C35_each_slot hs (s := s') (fin := fin') (by simp)
      have hx := C20_exactly_next hadv
      have hls : l2.o.st.latestSlot = s' := by rw [hx.2.2.1, hx.2.1]
      have hb := hA _ hfin
      have hsub : sub64 fin' l2.o.st.latestSlot = fin' - s' := by
        rw [hls]; unfold sub64 u64; omega
      refine ⟨hls.symm, hle, ?_, ?_, ?_⟩
      · show GaugeOf (float64 l2.o.st.latestSlot) s'
        rw [hls]; exact float64_shows _
      · exact float64_shows _
      · show GaugeOf (float64 (sub64 fin' l2.o.st.latestSlot)) _
        rw [hsub]; exact float64_shows _
    · obtain ⟨e1, e2, hn⟩ := hc.resolve_left hx
      obtain ⟨m1, m2, m3⟩ := meter_quiet (l := l2) hn g
      refine ⟨fun s fin hl => ?_, fun hno => ?_⟩
      · rw [m1, m2, m3, e1, e2]
        exact ih.1 s fin (hl.keep hn)
      · rw [m1, m2, m3]
        exact ih.2 fun s fin hm => hno s fin (List.mem_append_left _ hm)

/-- The labels of `known_root_and_slot` are exactly the checkpoints of the books that were frozen since the
start of the process, each with its root. -/
theorem C122_known {L : Lib} {H : List Nat → List Nat} {E : Env} (hE : ValidEnv E) {cfg : Config}
    (h0 : 0 < cfg.depSlot) (h1 : cfg.depSlot < 2 ^ 64) {l l' : Loop} {tr : List LoopEv} {g : Gauges}
    (hw : Work H E (newOracle cfg) l.o) (hpc : l.pc = .top) (hr : MeteredRun L H E l tr l' g) (a r : Str) :
    (a, r) ∈ g.known ↔ ∃ s f, (s, f) ∈ l'.o.st.committed ∧ l.o.st.nextSlot ≤ s ∧ a = decimal s ∧ f.root = r := by
  have hi := loopRun_inv hE h0 h1 hw hpc hr.run
  have hk : (a, r) ∈ g.known ↔ ∃ s r', .frozen s r' ∈ tr ∧ (a, r) = (decimal s, r') := by
    clear hi
    induction hr with
    | nil => simp [Gauges.new]
    | step _ _ _ ih =>
      rw [meter_known, ih]
      constructor
      · rintro (⟨s, r', h, e⟩ | ⟨s, r', h, e⟩)
        · exact ⟨s, r', List.mem_append_left _ h, e⟩
        · exact ⟨s, r', List.mem_append_right _ h, e⟩
      · rintro ⟨s, r', h, e⟩
        rcases List.mem_append.mp h with h | h
        · exact .inl ⟨s, r', h, e⟩
        · exact .inr ⟨s, r', h, e⟩
  have hc : ∀ p ∈ l'.o.st.committed, p ∈ l.o.st.committed ∨ .frozen p.1 p.2.root ∈ tr := by
    clear hi hk
    induction hr with
    | nil => exact fun p hp => .inl hp
    | step hrun _ hs ih =>
      intro p hp
      have hi := loopRun_inv hE h0 h1 hw hpc hrun.run
      rcases (stepLoop_meter hE h0 h1 hi.work hs).2 p hp with h | h
      · rcases ih p h with h | h
        · exact .inl h
        · exact .inr (List.mem_append_left _ h)
      · exact .inr (List.mem_append_right _ h)
  rw [hk]
  constructor
  · rintro ⟨s, r', hm, e⟩
    cases e
    obtain ⟨f, h1, h2, h3⟩ := hi.frz s r hm
    refine ⟨s, f, h1, ?_, rfl, h3⟩
    obtain ⟨pre, post, e⟩ := List.append_of_mem hm
    obtain ⟨pre0, fin, hp⟩ := hi.events pre _ post e
    have : s ∈ slotsOf tr := by
      rw [e, hp, slotsOf_append, slotsOf_append]
      simp [slotsOf]
    rw [hi.slots, List.mem_range'_1] at this
    exact this.1
  · rintro ⟨s, f, hm, hge, rfl, rfl⟩
    rcases hc _ hm with h | h
    · have hci := (work_inv hE hw (work_start h0 h1)).1
      have := (hci.entry _ h).2.1
      have := hci.next
      dsimp only at *
      omega
    · exact ⟨s, _, h, rfl⟩

/-- While the nodes are not in sync, or the finalized slot cannot be read, nothing is shown of it: the
distance stays what it was, however far the chain goes on. -/
theorem C122_false_stale {L : Lib} {H : List Nat → List Nat} {E : Env} {A : Answers} {l l' : Loop}
    {evs : List LoopEv} (hpc : l.pc = .top) (hA : A.sync = some false ∨ A.finalized = none)
    (h : stepLoop L H E A l = .ok (l', evs)) (g : Gauges) : meter l' g evs = g ∧ l' = l := by
  unfold stepLoop stepTop at h
  rw [hpc] at h
  dsimp only at h
  split at h
  · cases h
  · cases h; exact ⟨rfl, rfl⟩
  · rename_i hs
    rcases hA with hA | hA
    · rw [hs] at hA; cases hA
    · rw [hA] at h
      cases h; exact ⟨rfl, rfl⟩

/-! ### Concrete cases -/

namespace Sample

def mrun (L : Lib) (H : List Nat → List Nat) (E : Env) :
    List Answers → Loop → Gauges → M (Loop × List LoopEv × Gauges)
  | [], l, g => .ok (l, [], g)
  | A :: as, l, g => do
    let (l1, evs) ← stepLoop L H E A l
    let (l2, tr, g2) ← mrun L H E as l1 (meter l1 g evs)
    .ok (l2, evs ++ tr, g2)

theorem metered_of {L H E l0} : ∀ {as tr0 l g l' tr g'}, MeteredRun L H E l0 tr0 l g →
    (∀ A ∈ as, ∀ fin, A.finalized = some fin → fin + 1 < 2 ^ 64) →
    mrun L H E as l g = .ok (l', tr, g') → MeteredRun L H E l0 (tr0 ++ tr) l' g' := by
  intro as
  induction as with
  | nil =>
    intro tr0 l g l' tr g' h0 _ h
    cases h
    rw [List.append_nil]; exact h0
  | cons A as ih =>
    intro tr0 l g l' tr g' h0 hA h
    unfold mrun at h
    simp only [bind_ok] at h
    obtain ⟨⟨l1, evs⟩, h1, ⟨l2, tr', g2⟩, h2, h⟩ := h
    cases h
    rw [← List.append_assoc]
    exact ih (.step h0 (hA A (by simp)) h1) (fun A hm => hA A (by simp [hm])) h2

/-- a connection that is up -/
def ask (path : Str) (fin : Option Nat) (up : Bool) : HttpReq :=
  { method := b!"GET", path := path, t := 0, up := up, message := b!"no", T := ⟨fun _ => [], fun _ => [], fun _ => 0, fun x => x⟩
    W := ⟨fin, none, none, fun _ => none, fun _ => none, ⟨none, none, none, .failed⟩, fun _ _ => .unreachable⟩ }

end Sample

/-- In the concrete run of C35 and C36 the gauges show slot 12000001, block 101 and distance 149 at the end,
and one known root. -/
example : ∃ tr l g, MeteredRun (Toy.lib Sample.hash) Sample.hash Sample.env Sample.start tr l g ∧
    LastSlot tr 12000001 12000150 ∧ l.o.st.latestSlot = 12000001 ∧ g.slot = 12000001 ∧
    g.block = l.o.st.latestBlock ∧ 0 < g.block ∧ g.distance = 149 ∧
    g.known = [(b!"12000000", Sample.firstRoot)] := by
  obtain ⟨⟨l, tr, g⟩, h1, h2⟩ := Sample.ex_ok
    (x := Sample.mrun (Toy.lib Sample.hash) Sample.hash Sample.env Sample.run2 Sample.start .new)
    (P := fun p => decide (p.2.1.getLast? = some (.processed 12000001 12000150)) &&
      decide (p.1.o.st.latestSlot = 12000001) && decide (p.2.2.slot = 12000001) &&
      decide (p.2.2.block = p.1.o.st.latestBlock) && decide (0 < p.2.2.block) &&
      decide (p.2.2.distance = 149) && decide (p.2.2.known = [(b!"12000000", Sample.firstRoot)]))
    (by decide +kernel)
  simp only [Bool.and_eq_true, decide_eq_true_eq] at h2
  obtain ⟨⟨⟨⟨⟨⟨e1, e2⟩, e3⟩, e4⟩, e5⟩, e6⟩, e7⟩ := h2
  refine ⟨_, l, g, Sample.metered_of .nil Sample.run_fin h1, ?_, e2, e3, e4, e5, e6, e7⟩
  obtain ⟨pre, e⟩ := List.getLast?_eq_some_iff.mp e1
  exact ⟨pre, [], by simpa using e, by simp⟩

/-- A broken connection: the client of `/` was sent 200 before the connection broke, but the counter shows
this request as answered with 500, and nothing with 200. -/
theorem C122_false_broken (L : Lib) (E : Env) (o : Oracle) :
    ∃ log S, ServerRun L E [] [] log S ∧ (∃ e ∈ log, Got b!"/" 200 e) ∧
      S.counts (b!"200", b!"get", b!"/") = 0 ∧ S.counts (b!"500", b!"get", b!"/") = 1 := by
  refine ⟨_, _, .request (.start o) (q := Sample.ask b!"/" none false) rfl, ⟨_, List.mem_singleton_self _, ?_⟩,
    rfl, rfl⟩
  exact ⟨rfl, .inl ⟨by decide, rfl⟩, _, rfl⟩

/-- Two readings of the pool's proof endpoint while syncing, one of the root and one of an unknown path:
two are counted with 503, one with 200. -/
example (L : Lib) (E : Env) (o : Oracle) : ∃ log S, ServerRun L E [] [] log S ∧
    (∀ e ∈ log, e.1.up = true) ∧ log.length = 4 ∧
    S.counts (decimal 503, b!"get", b!"/onchain/proof/{withdrawalAddress}") = 2 ∧
    S.counts (decimal 200, b!"get", b!"/") = 1 := by
  let k1 : Labels := (b!"503", b!"get", b!"/onchain/proof/{withdrawalAddress}")
  let k2 : Labels := (b!"200", b!"get", b!"/")
  generalize hc : (fun _ => 0 : Labels → Nat) = c0
  obtain ⟨b1, a1⟩ : ∃ body, answerHttp L E [] [] ⟨o, c0⟩ (Sample.ask b!"/onchain/proof/0x1" none true) =
      .ok (.answered ⟨some 503, body⟩, ⟨o, inc c0 k1⟩) := by
    have hr : route b!"/onchain/proof/0x1" = some (.proof b!"0x1") := by decide
    unfold answerHttp
    rw [show (Sample.ask b!"/onchain/proof/0x1" none true).path = b!"/onchain/proof/0x1" from rfl, hr]
    have hs : ∀ o : Oracle, serve L E (Sample.ask b!"/onchain/proof/0x1" none true).t
        (Sample.ask b!"/onchain/proof/0x1" none true).W [] [] o (.proof b!"0x1") =
        .ok (.proof .unavailable, o) := fun _ => rfl
    dsimp only
    rw [hs]
    exact ⟨_, rfl⟩
  obtain ⟨b2, a2⟩ : ∃ body, answerHttp L E [] [] ⟨o, inc c0 k1⟩ (Sample.ask b!"/onchain/proof/0x2" none true) =
      .ok (.answered ⟨some 503, body⟩, ⟨o, inc (inc c0 k1) k1⟩) := by
    have hr : route b!"/onchain/proof/0x2" = some (.proof b!"0x2") := by decide
    unfold answerHttp
    rw [show (Sample.ask b!"/onchain/proof/0x2" none true).path = b!"/onchain/proof/0x2" from rfl, hr]
    have hs : ∀ o : Oracle, serve L E (Sample.ask b!"/onchain/proof/0x2" none true).t
        (Sample.ask b!"/onchain/proof/0x2" none true).W [] [] o (.proof b!"0x2") =
        .ok (.proof .unavailable, o) := fun _ => rfl
    dsimp only
    rw [hs]
    exact ⟨_, rfl⟩
  obtain ⟨b3, a3⟩ : ∃ body, answerHttp L E [] [] ⟨o, inc (inc c0 k1) k1⟩ (Sample.ask b!"/" none true) =
      .ok (.answered ⟨some 200, body⟩, ⟨o, inc (inc (inc c0 k1) k1) k2⟩) := ⟨_, rfl⟩
  have a4 : answerHttp L E [] [] ⟨o, inc (inc (inc c0 k1) k1) k2⟩ (Sample.ask b!"/x" none true) =
      .ok (.answered ⟨some 404, []⟩, ⟨o, inc (inc (inc c0 k1) k1) k2⟩) := rfl
  have a0 : ServerRun L E [] [] [] ⟨o, c0⟩ := by subst hc; exact .start o
  refine ⟨_, _, .request (.request (.request (.request a0 a1) a2) a3) a4, ?_, rfl, ?_, ?_⟩
  · intro e he
    simp only [List.nil_append, List.cons_append, List.mem_cons, List.not_mem_nil, or_false] at he
    rcases he with rfl | rfl | rfl | rfl <;> rfl
  · subst hc; dsimp only; decide
  · subst hc; dsimp only; decide

end Verif
