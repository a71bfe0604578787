import Verif.Lemmas.Total
import Verif.Props.Slots
import Verif.Spec.Sample
/-
The whole slot goes through.
-/
namespace Verif
open VMap

theorem exec_total {α : Type} {c : ConsBlock} (f : ConsBlock → α) (h : c.fork ≠ .phase0 ∧ c.fork ≠ .altair) :
    c.exec f = .ok (f c) := by
  unfold ConsBlock.exec
  cases hf : c.fork <;> simp_all

theorem base_total {α : Type} {c : ConsBlock} (f : ConsBlock → α) (h : c.fork ≠ .phase0 ∧ c.fork ≠ .altair) :
    c.base f = .ok (f c) := by
  unfold ConsBlock.base
  cases hf : c.fork <;> simp_all

theorem isIn_total {a : Str} {l : List Str} (h : ∀ x ∈ l, a.length = x.length) : ∃ y, isIn a l = .ok y := by
  induction l with
  | nil => exact ⟨false, rfl⟩
  | cons x l ih =>
    unfold isIn
    rw [equals_of_length (h x (by simp))]
    by_cases hd : lower a = lower x
    · exact ⟨true, by simp [hd, bind, Except.bind]⟩
    · obtain ⟨y, hy⟩ := ih fun z hz => h z (by simp [hz])
      exact ⟨y, by simp [hd, bind, Except.bind, hy]⟩

theorem whitelist_total {n : Nat} (h : n = 1 ∨ n = 17000 ∨ n = 560048) :
    ∃ wl, whitelistedBuilders n = some wl ∧ ∀ x ∈ wl, x.length = 42 := by
  rcases h with rfl | rfl | rfl
  · exact ⟨_, rfl, by intro x hx; rw [List.mem_singleton] at hx; subst hx; rfl⟩
  · exact ⟨_, rfl, by simp⟩
  · exact ⟨_, rfl, by simp⟩

theorem mevRecipient_length {evs value d} (he : ∀ e ∈ evs, e.addr.length = 42) (hd : d.length = 42) :
    (mevRecipient evs value d).length = 42 := by
  unfold mevRecipient
  split
  · rename_i e h
    rw [length_lower]; exact he e (List.mem_of_find?_eq_some h)
  · rw [length_lower]; exact hd

theorem mevReward_total {b : FullBlock} {pool c} (h : Readable b pool) (hc : b.cons = some c) :
    ∃ m, mevReward b = .ok m ∧ (m.present = true → m.recipient.length = 42) := by
  unfold mevReward
  rw [hc]
  dsimp only
  have hf := h.fork c hc
  rw [exec_total _ hf]
  dsimp only [bind, Except.bind]
  cases hl : c.txs.getLast? with
  | none => exact ⟨_, rfl, by simp [Mev.none]⟩
  | some x =>
    obtain ⟨tx, rfl, _⟩ := h.txs c hc x (List.mem_of_getLast? hl)
    dsimp only
    cases ht : tx.to with
    | none => exact ⟨_, rfl, by simp [Mev.none]⟩
    | some d =>
      obtain ⟨a, ha, hal⟩ := h.sender c tx hc hl
      have hd := h.dest c tx d hc hl ht
      obtain ⟨wl, hwl, hwll⟩ := whitelist_total h.chain
      dsimp only
      rw [ha]
      dsimp only
      rw [hwl]
      dsimp only
      rw [base_total _ hf]
      dsimp only
      split
      · exact ⟨_, rfl, fun _ => rfl⟩
      · rw [exec_total _ hf]
        dsimp only
        rw [equals_of_length (by rw [h.feeRecipient c hc, hal])]
        dsimp only
        obtain ⟨y, hy⟩ := isIn_total (a := a) (l := wl) fun x hx => by rw [hal, hwll x hx]
        have hl42 := mevRecipient_length (value := tx.value) h.events hd
        by_cases hs : lower c.feeRecipient = lower a
        · simp only [hs, decide_true, if_true]
          exact ⟨_, rfl, fun _ => hl42⟩
        · simp only [hs, decide_false, Bool.false_eq_true, if_false, hy]
          cases y with
          | true => exact ⟨_, rfl, fun _ => hl42⟩
          | false => exact ⟨_, rfl, by simp [Mev.none]⟩

theorem tipLoop_total {base : Int} {txs : List (Option Tx)} {rs : List Receipt}
    (h : List.Forall₂ (fun x (r : Receipt) => ∃ tx : Tx, x = some tx ∧ r.txHash = tx.hash) txs rs)
    (ht : ∀ x ∈ txs, ∃ tx : Tx, x = some tx ∧ tx.type ≤ 4) (acc : Int) :
    ∃ y, tipLoop base txs rs acc = .val y := by
  induction h generalizing acc with
  | nil => exact ⟨acc, rfl⟩
  | @cons x r txs rs h1 _ ih =>
    obtain ⟨tx, rfl, hr⟩ := h1
    obtain ⟨tx', he, hty⟩ := ht (some tx) (by simp)
    simp only [Option.some.injEq] at he
    subst he
    have ih := ih fun x hx => ht x (by simp [hx])
    simp only [tipLoop]
    rw [if_neg (by rw [hr]; simp)]
    split
    · exact ih _
    · rename_i h01
      rw [if_pos (by omega)]
      exact ih _

theorem proposerTip_total {b : FullBlock} {pool c} (h : Readable b pool) (hr : HasReceipts b)
    (hc : b.cons = some c) : ∃ y, proposerTip b = .ok (.val y) := by
  obtain ⟨hd, rs, h1, h2, h3⟩ := hr c hc
  unfold proposerTip
  rw [h2, h1, hc]
  dsimp only
  have hf := h.fork c hc
  rw [exec_total _ hf, exec_total _ hf, exec_total _ hf]
  dsimp only [bind, Except.bind]
  rw [if_neg (by rw [h3.length_eq]; simp)]
  obtain ⟨y, hy⟩ := tipLoop_total (base := hd.baseFee) h3 (h.txs c hc) 0
  rw [hy]
  exact ⟨_, rfl⟩

theorem sentReward_total {b : FullBlock} {pool c sub} (h : Readable b pool) (hc : b.cons = some c)
    (hr : sub = true ∨ PaidPool b pool → HasReceipts b) :
    ∃ r p t, sentReward b pool sub = .ok (some r, p, t) := by
  unfold sentReward
  obtain ⟨m, hm, hml⟩ := mevReward_total h hc
  rw [hm]
  dsimp only [bind, Except.bind]
  have hf := h.fork c hc
  cases hp : m.present with
  | true =>
    simp only [if_true]
    rw [equals_of_length (by rw [hml hp, h.pool])]
    exact ⟨_, _, _, rfl⟩
  | false =>
    simp only [Bool.false_eq_true, if_false]
    rw [hc]
    dsimp only
    rw [exec_total _ hf]
    dsimp only
    rw [equals_of_length (by rw [h.feeRecipient c hc, h.pool])]
    dsimp only
    split
    · rename_i hcond
      have : HasReceipts b := by
        apply hr
        rw [Bool.or_eq_true] at hcond
        rcases hcond with h1 | h1
        · right
          rcases mevReward_spec (pool := pool) hm with ⟨_, h2, _⟩ | ⟨_, _, _, h2, _⟩ | ⟨h2, h3, _⟩
          · rw [hp] at h2; simp at h2
          · rw [hp] at h2; simp at h2
          · exact ⟨c, hc, Or.inr (Or.inr ⟨h2, h3, ⟨by rw [h.feeRecipient c hc, h.pool], by simpa using h1⟩⟩)⟩
        · exact Or.inl h1
      obtain ⟨y, hy⟩ := proposerTip_total h this hc
      rw [hy]
      exact ⟨_, _, _, rfl⟩
    · exact ⟨_, _, _, rfl⟩

theorem summarize_total {s : State} {b : FullBlock} {pool} (h : Readable b pool)
    (hr : ∀ c, b.cons = some c → s.isSubscribed c.proposer = true ∨ PaidPool b pool → HasReceipts b) :
    ∃ sb, summarize s b pool = .ok sb ∧ sb.reward ≠ none ∧ sb.slot = b.dutySlot := by
  unfold summarize
  have hw : ∃ w t, withdrawalAndType b.validator = .ok (w, t) := by
    unfold withdrawalAndType
    dsimp only
    rw [if_neg (by rw [hexEncode_length, h.creds]; simp)]
    split
    · exact ⟨_, _, rfl⟩
    · split
      · exact ⟨_, _, rfl⟩
      · split <;> exact ⟨_, _, rfl⟩
  obtain ⟨w, t, hw⟩ := hw
  rw [hw]
  dsimp only [bind, Except.bind]
  cases hc : b.cons with
  | none => exact ⟨_, rfl, by simp, rfl⟩
  | some c =>
    have hf := h.fork c hc
    dsimp only
    rw [base_total _ hf]
    dsimp only
    obtain ⟨r, p, ty, hs⟩ := sentReward_total (sub := s.isSubscribed c.proposer) h hc (hr c hc)
    rw [hs]
    dsimp only
    rw [exec_total _ hf]
    exact ⟨_, rfl, by simp, rfl⟩

theorem arrives_dest {b : FullBlock} {tx : Tx} {dest pool} (h : ArrivesAt b tx dest pool) :
    (∃ e ∈ b.events.ether, e.amount = tx.value) ∨ SameAddr dest pool := by
  unfold ArrivesAt at h
  split at h
  · rename_i e he
    exact Or.inl ⟨e, List.mem_of_find?_eq_some he, by simpa using List.find?_some he⟩
  · exact Or.inr h

theorem getDonations_total {b : FullBlock} {pool} (h : Readable b pool) (hp : PaymentReported b pool)
    (h1 : DonationsOneBlock b pool) :
    ∃ ds, getDonations b pool = .ok ds ∧ AllSame (ds.map (·.block)) := by
  unfold getDonations
  cases hc : b.cons with
  | none => exact ⟨[], rfl, by intro x hx; simp at hx⟩
  | some c =>
    dsimp only
    obtain ⟨m, hm, hml⟩ := mevReward_total h hc
    rw [hm]
    dsimp only [bind, Except.bind]
    have hspec := mevReward_spec (pool := pool) hm
    have hnoexc : m.present = false → ¬ ExceptionBlock b := by
      intro hpr
      rcases hspec with ⟨_, h2, _⟩ | ⟨_, _, hb, _⟩ | ⟨h2, _, _⟩
      · rw [hpr] at h2; simp at h2
      · exact hb.1
      · exact h2
    cases hpr : m.present with
    | false =>
      simp only [Bool.false_eq_true, if_false, Bool.not_false, if_true]
      refine ⟨_, rfl, ?_⟩
      rcases h1 with h1 | ⟨h1, _⟩
      · exact h1
      · exact absurd h1 (hnoexc hpr)
    | true =>
      simp only [if_true]
      have hlen : m.recipient.length = pool.length := by rw [hml hpr, h.pool]
      rw [equals_of_length hlen]
      dsimp only
      by_cases he : lower m.recipient = lower pool
      · have hsame : SameAddr m.recipient pool := ⟨hlen, he⟩
        simp only [he, decide_true, Bool.not_true, Bool.false_eq_true, if_false]
        have hex : ∃ e ∈ b.events.ether, e.amount = m.amount := by
          rcases hspec with ⟨k1, _, k3, k4⟩ | ⟨tx, d, k1, _, k3, k4⟩ | ⟨_, _, k3⟩
          · rw [k4]; exact hp.2 k1 (k3.mp hsame)
          · rw [k3]
            rcases arrives_dest (k4.mp hsame) with k | k
            · exact k
            · exact hp.1 _ _ k1 k
          · rw [hpr] at k3; simp at k3
        obtain ⟨e, he1, he2⟩ := hex
        rw [if_pos (by rw [List.any_eq_true]; exact ⟨e, he1, by simp [he2]⟩)]
        refine ⟨_, rfl, ?_⟩
        rcases h1 with h1 | ⟨h1, _, h2⟩
        · exact AllSame.filter h1
        · rcases hspec with ⟨_, _, _, k4⟩ | ⟨tx, d, k1, _⟩ | ⟨k, _⟩
          · rw [k4]; exact h2
          · exact absurd h1 k1.1
          · exact absurd h1 k
      · simp only [he, decide_false, Bool.not_false, if_true]
        refine ⟨_, rfl, ?_⟩
        rcases h1 with h1 | ⟨h1, h2, _⟩
        · exact h1
        · rcases hspec with ⟨_, _, k3, _⟩ | ⟨tx, d, k1, _⟩ | ⟨k, _⟩
          · exact absurd (k3.mpr h2).2 he
          · exact absurd h1 k1.1
          · exact absurd h1 k

theorem feeChange_500 {net slot f} (h : FeeChange net slot f) : f = 500 := by
  rcases h with ⟨_, _, h⟩ | ⟨_, _, h⟩ <;> exact h

theorem validateConfig_total {o : Oracle} {b : FullBlock} (h : ConfigOK o.cfg b.dutySlot b.events) :
    ∃ o1, validateConfig o b = .ok (o1, true) ∧ (o1 = o ∨ o1.st.fee = 500) := by
  obtain ⟨h1, h2, h3, h4⟩ := h
  unfold validateConfig
  dsimp only
  have key : ∀ o1 : Oracle, o1.cfg.poolFeesAddr = o.cfg.poolFeesAddr → o1.cfg.cpSize = o.cfg.cpSize →
      o1.cfg.collateral = o.cfg.collateral → (do
      let recOk ← (match b.events.feeRecipient with
        | [] => .ok true
        | r :: _ => equals o1.cfg.poolFeesAddr r)
      if !recOk then .ok (o1, false)
      else if b.events.cpSize.any (fun n => o1.cfg.cpSize ≠ n) then .ok (o1, false)
      else if b.events.collateral.any (fun c => o1.cfg.collateral ≠ c) then .ok (o1, false)
      else .ok (o1, true) : M (Oracle × Bool)) = .ok (o1, true) := by
    intro o1 e1 e2 e3
    have hrec : (match b.events.feeRecipient with
        | [] => .ok true
        | r :: _ => equals o1.cfg.poolFeesAddr r : M Bool) = .ok true := by
      rcases h2 with h2 | ⟨a, h2, hs⟩
      · rw [h2]
      · rw [h2]; dsimp only
        rw [e1, equals_of_length hs.1, decide_eq_true hs.2]
    rw [hrec]
    dsimp only [bind, Except.bind]
    rw [if_neg (by simp)]
    rw [if_neg (by rcases h3 with h3 | h3 <;> rw [h3] <;> simp [e2])]
    rw [if_neg (by rcases h4 with h4 | h4 <;> rw [h4] <;> simp [e3])]
  rw [if_neg (by
    rintro (k | k | k | k)
    · rcases h1 with e | ⟨_, e, _⟩ <;> simp [e] at k
    · rcases h2 with e | ⟨_, e, _⟩ <;> simp [e] at k
    · rcases h3 with e | e <;> simp [e] at k
    · rcases h4 with e | e <;> simp [e] at k)]
  rcases h1 with e | ⟨f, e, hf⟩
  · rw [e]; dsimp only
    exact ⟨o, key o rfl rfl rfl, Or.inl rfl⟩
  · rw [e]; dsimp only
    have hs := scheduledFee_iff.mpr hf
    rw [hs]
    have h500 := feeChange_500 hf
    have hi : i64 f = f := by rw [h500]; decide
    dsimp only
    rw [if_neg (by rw [hi]; simp)]
    dsimp only
    refine ⟨_, key { cfg := { o.cfg with fee := i64 f }, st := { o.st with fee := i64 f } } rfl rfl rfl, Or.inr ?_⟩
    dsimp only
    rw [hi, h500]

section
variable {E : Env} (hE : ValidEnv E) (hX : ExactEnv E) (hN : GoodNode E)

theorem handleSubs_keeps {s s' : State} {evs vals} (hs : Sorted s.vals)
    (h : handleSubs s evs vals = .ok s') : Sorted s'.vals ∧ s'.fee = s.fee := by
  have r := handleSubs_runs (E := Sample.env) (slot := 0) (coll := s.collateral)
    (b := { (Sample.miss 0 0) with events := { subs := evs }, valsSubs := vals }) (sb := { slot := 0, block := 0, index := 0, key := [], type := .unknown, reward := none, rewardType := .unknown, waddr := [] })
    (dons := []) (x := False) (s := s) rfl h
  exact ⟨r.sorted hs, by have := congrArg State.fee (handleSubs_frame h); exact this⟩

include hE hN

theorem proposalStage_total {net : Str} (hk : KnownNet net) {s : State} {sb : SumBlock} (hs : Sorted s.vals)
    (hf : s.fee ≤ 10000) (hr : sb.reward ≠ none) :
    ∃ s', proposalStage E net s sb = .ok s' ∧ Sorted s'.vals ∧ s'.fee = s.fee := by
  unfold proposalStage
  obtain ⟨r, hr'⟩ := Option.ne_none_iff_exists'.mp hr
  have c2 : ∃ s2, (if sb.type = .missed ∧ s.isSubscribed sb.index then handleMissed s sb else s) = s2 ∧
      Sorted s2.vals ∧ s2.fee = s.fee := by
    refine ⟨_, rfl, ?_, ?_⟩
    · split
      · unfold handleMissed State.advance State.modVal; dsimp only; exact hs.modify _ _
      · exact hs
    · split
      · rfl
      · rfl
  obtain ⟨s2, e2, k2, f2⟩ := c2
  have c3 : ∃ s3, (if sb.type = .okPoolBls then handleBls s2 sb else .ok s2) = .ok s3 ∧
      Sorted s3.vals ∧ s3.fee = s2.fee := by
    split
    · rename_i ht
      unfold handleBls
      rw [if_neg (by rw [ht]; simp), hr']
      exact ⟨_, rfl, k2, rfl⟩
    · exact ⟨_, rfl, k2, rfl⟩
  obtain ⟨s3, e3, k3, f3⟩ := c3
  have c4 : ∃ s4, (if sb.type = .okPool then handleCorrect E net s3 sb else .ok s3) = .ok s4 ∧
      Sorted s4.vals ∧ s4.fee = s3.fee := by
    split
    · exact handleCorrect_total hE hN hk k3 (by rw [f3, f2]; exact hf) hr
    · exact ⟨_, rfl, k3, rfl⟩
  obtain ⟨s4, e4, k4, f4⟩ := c4
  have c5 : ∃ s5, (if sb.type = .wrongFee ∧ s4.isSubscribed sb.index then handleWrongFee E net s4 sb
      else .ok s4) = .ok s5 ∧ Sorted s5.vals ∧ s5.fee = s4.fee := by
    split
    · rename_i ht
      exact handleWrongFee_total hE hN hk k4 (by rw [f4, f3, f2]; exact hf) (isTracked_of_subscribed ht.2)
    · exact ⟨_, rfl, k4, rfl⟩
  obtain ⟨s5, e5, k5, f5⟩ := c5
  refine ⟨s5, ?_, k5, f5.trans (f4.trans (f3.trans f2))⟩
  rw [e2]
  simp only [bind_ok]
  exact ⟨s3, e3, s4, e4, e5⟩

include hX

/-- everything a block does to the state before the cleanup -/
theorem applyBlock_total {net : Str} (hk : KnownNet net) {s : State} {b : FullBlock} {sb : SumBlock}
    {dons : List EtherEvent} (hb : EventsOK b) (hs : Sorted s.vals) (hn : NonNeg s)
    (hf : s.fee ≤ 10000) (hgood : GoodRewards E net s) (hr : sb.reward ≠ none)
    (hd : AllSame (dons.map (·.block)))
    (hrecv : ∀ y, ((∃ ev ∈ b.events.subs, y = ev.collateral) ∨
      ((sb.type = .okPool ∨ sb.type = .okPoolBls) ∧ sb.reward = some y) ∨ ∃ d ∈ dons, y = d.amount) → 0 ≤ y) :
    ∃ s', applyBlock E net s b sb dons = .ok s' ∧ Sorted s'.vals ∧ s'.fee = s.fee := by
  have parts : ∃ s1 s5 s6 s7, handleSubs { s with
        subs := s.subs ++ b.events.subs
        unsubs := s.unsubs ++ b.events.unsubs
        ether := s.ether ++ b.events.ether } b.events.subs b.valsSubs = .ok s1 ∧
      proposalStage E net s1 sb = .ok s5 ∧
      handleUnsubs E net s5 b.events.unsubs b.valsUnsubs = .ok s6 ∧
      handleDonations E net s6 dons = .ok s7 ∧ Sorted s7.vals ∧ s7.fee = s.fee := by
    obtain ⟨s1, e1⟩ := handleSubs_total hb { s with
        subs := s.subs ++ b.events.subs
        unsubs := s.unsubs ++ b.events.unsubs
        ether := s.ether ++ b.events.ether }
    obtain ⟨k1, f1⟩ := handleSubs_keeps (s := { s with
        subs := s.subs ++ b.events.subs
        unsubs := s.unsubs ++ b.events.unsubs
        ether := s.ether ++ b.events.ether }) hs e1
    have f1 : s1.fee = s.fee := f1
    obtain ⟨s5, e5, k5, f5⟩ := proposalStage_total hE hN hk k1 (by rw [f1]; exact hf) hr
    obtain ⟨s6, e6, k6, f6⟩ := handleUnsubs_total hE hN hk hb k5 (by rw [f5, f1]; exact hf)
    obtain ⟨s7, e7, k7, f7⟩ := donLoop_total hE hN hk (l := dons) k6 (by rw [f6, f5, f1]; exact hf)
    refine ⟨s1, s5, s6, s7, e1, e5, e6, ?_, k7, f7.trans (f6.trans (f5.trans f1))⟩
    unfold handleDonations
    rw [sameBlock_of hd]
    exact e7
  obtain ⟨s1, s5, s6, s7, e1, e5, e6, e7, k7, f7⟩ := parts
  have whole : ∀ bans unbans s8 s9, handleBans E net s7 bans = .ok s8 → handleUnbans s8 unbans = .ok s9 →
      applyBlock E net s { b with events := { b.events with bans := bans, unbans := unbans } } sb dons
        = .ok s9 := by
    intro bans unbans s8 s9 e8 e9
    unfold proposalStage at e5
    simp only [bind_ok] at e5
    obtain ⟨s3, e3, s4, e4, e5⟩ := e5
    unfold applyBlock
    simp only [bind_ok]
    exact ⟨s1, e1, s3, e3, s4, e4, s5, e5, s6, e6, s7, e7, s8, e8, e9⟩
  have hnn : ∀ p ∈ s7.vals, 0 ≤ p.2.pend := by
    have h7 := whole [] [] s7 s7 (by simp [handleBans]) (by simp [handleUnbans, sameBlock, unbanLoop])
    obtain ⟨r, _, _, ⟨ops, hpath, hrr, hcause⟩, _⟩ := applyBlock_runs (x := True) (slot := 0) hE hX hs
      (fun _ => hgood) h7
    have := hpath.nonneg trivial (a := _) ⟨hn.1, le_refl _, hn.2⟩ (fun y hy => hrecv y (hcause _ hy))
    exact fun p hp => (this.2.2 p hp).1
  obtain ⟨s8, e8, k8, f8⟩ := handleBans_total hE hN hk hb.bansBlock k7 (by rw [f7]; exact hf) hnn
  have e9 : handleUnbans s8 b.events.unbans = .ok (unbanLoop b.events.unbans s8) := by
    unfold handleUnbans
    rw [sameBlock_of hb.unbansBlock]; rfl
  refine ⟨_, whole b.events.bans b.events.unbans s8 _ e8 e9, ?_, ?_⟩
  · rw [unbanLoop_eq k8]
    exact sorted_unbanned k8
  · have := congrArg State.fee (handleUnbans_frame e9)
    exact Eq.trans this (f8.trans f7)

/-- The whole slot. -/
theorem advanceState_total (hG : GoodConsol E) {o : Oracle} {b : FullBlock} (hs : MapOK o.st)
    (hn : NonNeg o.st) (hf0 : 0 ≤ o.st.fee) (hf : o.st.fee ≤ 10000)
    (hpf : PostFork1 o.cfg.network o.st.nextSlot) (hB : SaneBalances E)
    (hslot : o.st.nextSlot = u64 (o.st.latestSlot + 1)) (hb : b.dutySlot = o.st.nextSlot)
    (hr : Readable b o.cfg.poolAddr)
    (hrec : ∀ c, b.cons = some c → o.st.isSubscribed c.proposer = true ∨ PaidPool b o.cfg.poolAddr → HasReceipts b)
    (hev : EventsOK b) (hcfg : ConfigOK o.cfg b.dutySlot b.events)
    (hpr : PaymentReported b o.cfg.poolAddr) (hdon : DonationsOneBlock b o.cfg.poolAddr)
    (hp : NonNegPayments b) (hg : GasOK b) :
    ∃ o' n, advanceState E o b = .ok (o', some n) := by
  have hk : KnownNet o.cfg.network := by
    rcases hpf with ⟨h, _⟩ | ⟨h, _⟩ | ⟨h, _⟩
    · exact Or.inl h
    · exact Or.inr (Or.inl h)
    · exact Or.inr (Or.inr h)
  obtain ⟨o1, e1, hfee⟩ := validateConfig_total hcfg
  have hfr := validateConfig_frame e1
  have hvals : o1.st.vals = o.st.vals := by rw [hfr]
  have hnet : o1.cfg.network = o.cfg.network := by rw [hfr]
  have hpa : o1.cfg.poolAddr = o.cfg.poolAddr := by rw [hfr]
  have hns : o1.st.nextSlot = o.st.nextSlot := by rw [hfr]
  have hpo : o1.st.poolFees = o.st.poolFees := by rw [hfr]
  have hf1 : 0 ≤ o1.st.fee ∧ o1.st.fee ≤ 10000 := by
    rcases hfee with h | h
    · rw [h]; exact ⟨hf0, hf⟩
    · rw [h]; decide
  obtain ⟨sb, e2, hrew, hsl⟩ := summarize_total (s := o1.st) hr (by
    intro c hc h
    apply hrec c hc
    rcases h with h | h
    · left
      unfold State.isSubscribed at *
      rw [hvals] at h; exact h
    · exact Or.inr h)
  obtain ⟨dons, e3, hdb⟩ := getDonations_total hr hpr hdon
  obtain ⟨s1, e4, k4, f4⟩ := applyBlock_total hE hX hN (net := o1.cfg.network) (by rw [hnet]; exact hk)
    (s := o1.st) hev (by rw [hvals]; exact hs) ⟨by rw [hpo]; exact hn.1, by rw [hvals]; exact hn.2⟩ hf1.2
    ⟨hf1.1, by rw [hnet, hns]; exact hpf, hB⟩ hrew hdb (fun y hy => recv_nonneg e2 e3 hp hg hy)
  unfold advanceState
  rw [if_neg (by rw [hslot]; simp), if_neg (by rw [hb]; simp), e1]
  dsimp only [bind, Except.bind]
  rw [if_neg (by simp), hpa, e2]
  dsimp only
  rw [if_neg (by rw [hns, hsl, hb]; simp), e3]
  dsimp only
  rw [e4]
  dsimp only
  by_cases hcl : s1.nextSlot % 1200 = 0
  · rw [if_pos hcl]
    obtain ⟨s2, e5⟩ := cleanup_total hE hN (net := o1.cfg.network) (by rw [hnet]; exact hk) hG s1.nextSlot k4
      (by rw [f4]; exact hf1.2)
    rw [e5]
    exact ⟨_, _, rfl⟩
  · rw [if_neg hcl]
    exact ⟨_, _, rfl⟩

end
end Verif
