import Verif.Props.Status
import Verif.Lemmas.Refine
import Verif.Spec.SampleFacts
/-
C12, C13, C14, C17: what proposals do.
-/
namespace Verif
open VMap Relation

/-- donations of a block without donations -/
theorem no_donations {s b pool sb dons} (hsb : summarize s b pool = .ok sb)
    (hd : getDonations b pool = .ok dons) (hnd : NoDonations b) (hpaid : PaidPool b pool) :
    dons = [] := by
  rcases summarize_cases hsb hd with ⟨hc, _, h⟩ | ⟨c, m, hc, hm, h⟩
  · exact h
  · have hspec := mevReward_spec (pool := pool) hm
    rcases h with ⟨hp, hq, ht, hrt, hrew, _, hdn⟩ | ⟨hp, hq, ht, hdn⟩ | ⟨hp, hq, ht, hrt, hdn⟩ |
      ⟨hp, hq, ht, hdn⟩
    · rw [hdn, List.filter_eq_nil_iff]
      intro e he
      have : e.amount = m.amount := by
        rcases hnd e he with ⟨h1, h2⟩ | ⟨tx, dest, h1, h2⟩
        · rcases hspec with ⟨_, _, _, h3⟩ | ⟨tx, dest, h3, _⟩ | ⟨h3, _⟩
          · rw [h2, h3]; rfl
          · exact absurd h3 (exception_not_builder h1)
          · exact absurd h1 h3
        · rcases hspec with ⟨h3, _⟩ | ⟨tx', dest', h3, _, h4, _⟩ | ⟨_, h3, _⟩
          · exact absurd h1 (exception_not_builder h3)
          · rw [h2, h4]
            obtain ⟨_, _, _, _, l1, _⟩ := h1
            obtain ⟨_, _, _, _, l2, _⟩ := h3
            rw [(lastTx_unique l1 l2).1]
          · exact absurd h1 (h3 tx dest)
      simp [this]
    · have := (summarize_paid hsb).2.1.mp ht
      exact absurd hpaid this.2
    · rw [hdn]
      rcases hspec with ⟨_, h3, _⟩ | ⟨tx, dest, _, h3, _⟩ | ⟨h3, h4, _⟩
      · rw [hp] at h3; simp at h3
      · rw [hp] at h3; simp at h3
      · rw [List.eq_nil_iff_forall_not_mem]
        intro e he
        rcases hnd e he with ⟨h1, _⟩ | ⟨tx, dest, h1, _⟩
        · exact h3 h1
        · exact h4 tx dest h1
    · have := (summarize_paid hsb).2.1.mp ht
      exact absurd hpaid this.2

/-- A slot with nothing but a proposal. -/
theorem quiet_slot {E : Env} {o o' : Oracle} {b : FullBlock} {n : Nat} {sb}
    (hsb : summarize o.st b o.cfg.poolAddr = .ok sb) (hq : NoEvents b)
    (hd : getDonations b o.cfg.poolAddr = .ok []) (hn : n % 1200 ≠ 0)
    (h : advanceState E o b = .ok (o', some n)) :
    n = o.st.nextSlot ∧ o'.cfg = o.cfg ∧
    ∃ s5, proposalStage E o.cfg.network { o.st with ether := o.st.ether ++ b.events.ether } sb = .ok s5 ∧
      (s5.nextSlot = n → o'.st = finishSlot s5 sb) := by
  obtain ⟨h1, h2, h3, h4, h5⟩ := hq
  obtain ⟨k1, s5, s2, k2, k3, k4, k5⟩ := slot_quiet hsb h1 h2 h3 h4 h5 hd h
  refine ⟨k1, k4, s5, k2, ?_⟩
  intro hs
  rw [hs, if_neg hn] at k3
  simp only [Except.ok.injEq, Prod.mk.injEq, and_true] at k3
  rw [k5, k3]

/-- the record lists at the end of a slot are those after the proposal -/
theorem slot_records {E : Env} {o o' : Oracle} {b : FullBlock} {n : Nat} {sb s1 s5}
    (hsb : summarize o.st b o.cfg.poolAddr = .ok sb)
    (h1 : handleSubs (logged o b o'.st.fee) b.events.subs b.valsSubs = .ok s1)
    (h5 : proposalStage E o.cfg.network s1 sb = .ok s5)
    (h : advanceState E o b = .ok (o', some n)) :
    o'.st.proposed = s5.proposed ∧ o'.st.missed = s5.missed ∧ o'.st.wrongFee = s5.wrongFee ∧
    s1.proposed = o.st.proposed ∧ s1.missed = o.st.missed ∧ s1.wrongFee = o.st.wrongFee := by
  obtain ⟨o1, sb', dons, sF, s2, k1, k2, hv, hsb', k3, hd, ha, hcl, ho', hn⟩ := advanceState_ok h
  have hfr := validateConfig_frame hv
  have hvals : o1.st.vals = o.st.vals := by rw [hfr]
  have hnet : o1.cfg.network = o.cfg.network := by rw [hfr]
  have hpa : o1.cfg.poolAddr = o.cfg.poolAddr := by rw [hfr]
  rw [summarize_congr hvals, hpa, hsb, Except.ok.injEq] at hsb'
  subst hsb'
  have e2 : s2.frame = sF.frame := by
    split at hcl
    · exact cleanup_frame hcl
    · simp only [Except.ok.injEq, Prod.mk.injEq, and_true] at hcl; rw [hcl]
  obtain ⟨_, _, _, _, eF⟩ := applyBlock_frame ha
  have hfee : o'.st.fee = o1.st.fee := by
    have e3 : s2.fee = sF.fee := by have := congrArg State.fee e2; exact this
    have e4 : sF.fee = o1.st.fee := by have := congrArg State.fee eF; exact this
    rw [ho']; exact e3.trans e4
  unfold applyBlock at ha
  simp only [bind_ok] at ha
  obtain ⟨t1, a1, s3, a3, s4, a4, t5, a5, s6, a6, s7, a7, s8, a8, a9⟩ := ha
  have hlog : { o1.st with
      subs := o1.st.subs ++ b.events.subs
      unsubs := o1.st.unsubs ++ b.events.unsubs
      ether := o1.st.ether ++ b.events.ether } = logged o b o'.st.fee := by
    unfold logged; rw [hfee, hfr]
  rw [hlog, h1, Except.ok.injEq] at a1
  subst a1
  have hprop : proposalStage E o.cfg.network s1 sb = .ok t5 := by
    unfold proposalStage
    simp only [bind_ok]
    rw [← hnet]
    exact ⟨s3, a3, s4, a4, a5⟩
  rw [h5, Except.ok.injEq] at hprop
  subst hprop
  have l6 := handleUnsubs_frame a6
  have l7 := handleDonations_frame a7
  have l8 := handleBans_frame a8
  have l9 := handleUnbans_frame a9
  have l1 := handleSubs_frame h1
  have f7 := e2.trans (l9.trans l8)
  refine ⟨?_, ?_, ?_, ?_, ?_, ?_⟩
  · have q := congrArg State.proposed f7
    have q2 := congrArg State.proposed l7
    have q3 := congrArg State.proposed l6
    rw [ho']; exact q.trans (q2.trans q3)
  · have q := congrArg State.missed f7
    have q2 := congrArg State.missed l7
    have q3 := congrArg State.missed l6
    rw [ho']; exact q.trans (q2.trans q3)
  · have q := congrArg State.wrongFee f7
    have q2 := congrArg State.wrongFee l7
    have q3 := congrArg State.wrongFee l6
    rw [ho']; exact q.trans (q2.trans q3)
  · have q := congrArg State.proposed l1; exact q
  · have q := congrArg State.missed l1; exact q
  · have q := congrArg State.wrongFee l1; exact q

section
variable {E : Env} (hE : ValidEnv E) (hX : ExactEnv E) (hC : NoSelfConsol E)
  {cfg : Config} {bs : List FullBlock} {o o' : Oracle} {b : FullBlock} {n : Nat}
  (h0 : Hist E (newOracle cfg) bs o) (h : advanceState E o b = .ok (o', some n))
include hE hX hC h0 h

/-- **C13.** A slot with a missed proposal and nothing else: a subscribed proposer gets one card
more and the miss is recorded; no balance changes; everything else but the slot counters is as
before. -/
theorem C13_miss_of_subscribed {i v} (hm : Misses b i) (hv : VMap.get o.st.vals i = some v)
    (hsub : Subscribed v.status) (hq : NoEvents b) (he : b.events.ether = []) (hn : n % 1200 ≠ 0) :
    ∃ sb : SumBlock, sb.slot = n ∧ sb.index = i ∧ sb.type = .missed ∧
      o' = ⟨o.cfg, { o.st with
        vals := (VMap.modify o.st.vals i fun v => { v with status := afterMiss v.status })
        missed := o.st.missed ++ [sb], latestSlot := n, nextSlot := u64 (n + 1) }⟩ := by
  obtain ⟨hs, h5⟩ := hist_five hE hX hC h0 List.Pairwise.nil (by intro p hp; simp [newOracle] at hp)
  obtain ⟨sb, dons, _, _, _, hsb, hd, _, _, _, hnn, hslot, _⟩ := slot_frame h
  have ht : sb.type = .missed := (summarize_paid hsb).2.2.mpr hm.2
  have hd0 : dons = [] := by
    rcases summarize_cases hsb hd with ⟨_, _, h⟩ | ⟨c, m, hc, _⟩
    · exact h
    · rw [hm.2] at hc; simp at hc
  rw [hd0] at hd
  obtain ⟨k1, k2, s5, k3, k4⟩ := quiet_slot hsb hq hd hn h
  have hidx : sb.index = i := (summarize_slot hsb).2.1.trans hm.1
  rw [he, List.append_nil] at k3
  rcases proposal_missed hs h5 ht k3 with ⟨_, hs5⟩ | ⟨hno, _⟩
  · refine ⟨sb, hslot.trans hnn.symm, hidx, ht, ?_⟩
    have e : o' = ⟨o'.cfg, o'.st⟩ := rfl
    rw [e, k2, k4 (by rw [hs5]; exact k1.symm), hs5, hidx]
    unfold finishSlot
    simp [ht, k1]
  · exact absurd hsub (hno v (by rw [hidx]; exact hv))

/-- **C13.** If the proposer who missed is not subscribed, only the slot counters change. -/
theorem C13_miss_of_outsider {i} (hm : Misses b i)
    (hsub : ∀ v, VMap.get o.st.vals i = some v → ¬ Subscribed v.status) (hq : NoEvents b)
    (he : b.events.ether = []) (hn : n % 1200 ≠ 0) :
    o' = ⟨o.cfg, { o.st with latestSlot := n, nextSlot := u64 (n + 1) }⟩ := by
  obtain ⟨hs, h5⟩ := hist_five hE hX hC h0 List.Pairwise.nil (by intro p hp; simp [newOracle] at hp)
  obtain ⟨sb, dons, _, _, _, hsb, hd, _, _, _, hnn, hslot, _⟩ := slot_frame h
  have ht : sb.type = .missed := (summarize_paid hsb).2.2.mpr hm.2
  have hd0 : dons = [] := by
    rcases summarize_cases hsb hd with ⟨_, _, h⟩ | ⟨c, m, hc, _⟩
    · exact h
    · rw [hm.2] at hc; simp at hc
  rw [hd0] at hd
  obtain ⟨k1, k2, s5, k3, k4⟩ := quiet_slot hsb hq hd hn h
  have hidx : sb.index = i := (summarize_slot hsb).2.1.trans hm.1
  rw [he, List.append_nil] at k3
  rcases proposal_missed hs h5 ht k3 with ⟨⟨v, hv, hst⟩, _⟩ | ⟨_, hs5⟩
  · exact absurd hst (hsub v (by rw [← hidx]; exact hv))
  · have e : o' = ⟨o'.cfg, o'.st⟩ := rfl
    rw [e, k2, k4 (by rw [hs5]; exact k1.symm), hs5]
    unfold finishSlot
    simp [ht, k1]

/-- **C12.** If a subscribed validator proposes a block that pays somebody else, then at the end of
the slot it is banned with nothing pending and everything else in its record as before (plus
collateral sent by its owner), whatever else the block contains, unless it unbans it. -/
theorem C12_banned {i v} (hp : PaysElsewhere b o.cfg.poolAddr i) (hv : VMap.get o.st.vals i = some v)
    (hsub : Subscribed v.status) (hno : ∀ ev ∈ b.events.unbans, ev.validatorId ≠ i) :
    VMap.get o'.st.vals i =
      some { v with status := .banned, pend := 0, acc := v.acc + ownerSent b i } ∧
    ∃ sb c, o'.st.wrongFee = o.st.wrongFee ++ [sb] ∧ sb.slot = n ∧ sb.index = i ∧
      sb.type = .wrongFee ∧ b.cons = some c ∧ sb.block = c.number := by
  obtain ⟨hs, h5⟩ := hist_five hE hX hC h0 List.Pairwise.nil (by intro p hp; simp [newOracle] at hp)
  obtain ⟨sb, dons, s1, s5, ops, hn, hsb, hd, hsb1, hs1, hpr, hs5, hpth, hl⟩ := slot_stages hE hX hC hs h
  obtain ⟨_, heff, h51⟩ := handleSubs_effects (logged_five h5) (s := logged o b o'.st.fee) hs hsb1
  have ht : sb.type = .wrongFee := (summarize_paid hsb).2.1.mpr ⟨hp.2.1, hp.2.2⟩
  have hidx : sb.index = i := (summarize_slot hsb).2.1.trans hp.1
  have h1 := heff.settled (i := i) hv (Or.inl hsub)
  obtain ⟨y, hy, hv5, _⟩ := proposal_record hE hX hs1 h51 (summarize_slot hsb).2.2.2.2 hpr h1
  rw [if_pos hidx.symm, ht] at hv5
  dsimp only at hv5
  rw [if_pos hsub] at hv5
  refine ⟨late_banned_path hno hpth hl hv5 rfl rfl, ?_⟩
  -- the record of the block
  obtain ⟨c, hc⟩ := Option.ne_none_iff_exists'.mp hp.2.1
  obtain ⟨_, _, _, _, _, q1, _, _, _, _, q5, q6, _⟩ := slot_frame h
  rw [hsb, Except.ok.injEq] at q1
  subst q1
  obtain ⟨_, _, r3, _, _, r6⟩ := slot_records hsb hsb1 hpr h
  refine ⟨sb, c, ?_, q6.trans q5.symm, hidx, ht, hc, summarize_block hsb hc⟩
  rcases proposal_wrongFee hE hX hs1 h51 ht hpr with ⟨u, s2, _, _, hsh, hs5'⟩ | ⟨hno', _⟩
  · have := congrArg State.wrongFee (shares_frame hsh)
    have e : s2.wrongFee = s1.wrongFee := this
    rw [r3, hs5', ← r6, ← e]
  · rw [hidx] at hno'
    have := hno' _ h1
    exact absurd hsub this

/-- **C12.** If the block carries nothing but such a proposal, the confiscated pending balance is
shared among the remaining participants exactly like a reward, the block is recorded, and nothing
else but the counters changes. -/
theorem C12_pending_shared {i v} (hp : PaysElsewhere b o.cfg.poolAddr i)
    (hv : VMap.get o.st.vals i = some v) (hsub : Subscribed v.status) (hq : NoEvents b)
    (he : b.events.ether = []) (hn : n % 1200 ≠ 0) :
    ∃ s2 sb c, Shares E o.cfg.network { o.st with vals := (VMap.modify o.st.vals i fun v =>
        { v with status := .banned, pend := 0 }) } v.pend s2 ∧
      sb.slot = n ∧ sb.index = i ∧ sb.type = .wrongFee ∧ b.cons = some c ∧ sb.block = c.number ∧
      o' = ⟨o.cfg, { s2 with
        wrongFee := o.st.wrongFee ++ [sb], latestSlot := n, nextSlot := u64 (n + 1),
        latestBlock := c.number }⟩ := by
  obtain ⟨hs, h5⟩ := hist_five hE hX hC h0 List.Pairwise.nil (by intro p hp; simp [newOracle] at hp)
  obtain ⟨sb, dons, _, _, _, hsb, hd, _, _, _, hnn, hslot, _⟩ := slot_frame h
  have ht : sb.type = .wrongFee := (summarize_paid hsb).2.1.mpr ⟨hp.2.1, hp.2.2⟩
  have hidx : sb.index = i := (summarize_slot hsb).2.1.trans hp.1
  obtain ⟨c, hc⟩ := Option.ne_none_iff_exists'.mp hp.2.1
  have hd0 : dons = [] := by
    rcases summarize_cases hsb hd with ⟨_, _, h⟩ | ⟨c, m, hc, _, h⟩
    · exact h
    · rcases h with ⟨_, _, ht', _⟩ | ⟨_, _, _, h⟩ | ⟨_, _, ht', _⟩ | ⟨_, _, _, h⟩
      · rcases ht' with ht' | ht' <;> rw [ht] at ht' <;> simp at ht'
      · rw [h, he]
      · rcases ht' with ht' | ht' <;> rw [ht] at ht' <;> simp at ht'
      · rw [h, he]
  rw [hd0] at hd
  obtain ⟨k1, k2, s5, k3, k4⟩ := quiet_slot hsb hq hd hn h
  rw [he, List.append_nil] at k3
  rcases proposal_wrongFee hE hX (s := o.st) hs h5 ht k3 with ⟨u, s2, hu, _, hsh, hs5⟩ | ⟨hno, _⟩
  · rw [hidx, hv, Option.some.injEq] at hu
    subst hu
    rw [hidx] at hsh
    have fr := shares_frame hsh
    have f1 : s2.wrongFee = o.st.wrongFee := by have := congrArg State.wrongFee fr; exact this
    have f2 : s2.nextSlot = o.st.nextSlot := by have := congrArg State.nextSlot fr; exact this
    refine ⟨s2, sb, c, hsh, hslot.trans hnn.symm, hidx, ht, hc, summarize_block hsb hc, ?_⟩
    have e : o' = ⟨o'.cfg, o'.st⟩ := rfl
    rw [e, k2, k4 (by rw [hs5]; exact f2.trans k1.symm), hs5]
    unfold finishSlot
    simp [ht, k1, f1, f2, summarize_block hsb hc]
  · exact absurd hsub (hno v (by rw [hidx]; exact hv))

/-- **C14.** A slot whose block pays the pool and carries nothing else: the proposer is enrolled or
loses a card, the reward of the block is shared, then everything pending of the proposer becomes
claimable; nobody else's claimable balance changes; the block is recorded. -/
theorem C14_paying_proposal {i w} (hp : PaysPool b o.cfg.poolAddr i w) (hg : GasOK b)
    (hq : NoEvents b) (hnd : NoDonations b) (hn : n % 1200 ≠ 0) :
    ∃ r s2 sb c, RewardIs b r ∧
      Shares E o.cfg.network { o.st with
        vals := enrolled o.st.vals i w b.dutyKey, ether := o.st.ether ++ b.events.ether } r s2 ∧
      sb.slot = n ∧ sb.index = i ∧ sb.type = .okPool ∧ sb.reward = some r ∧
      b.cons = some c ∧ sb.block = c.number ∧
      o' = ⟨o.cfg, { s2 with
        vals := paidOut s2.vals i, proposed := o.st.proposed ++ [sb],
        latestSlot := n, nextSlot := u64 (n + 1), latestBlock := c.number }⟩ := by
  obtain ⟨hs, h5⟩ := hist_five hE hX hC h0 List.Pairwise.nil (by intro p hp; simp [newOracle] at hp)
  obtain ⟨sb, dons, _, _, _, hsb, hd, _, _, _, hnn, hslot, _⟩ := slot_frame h
  have ht : sb.type = .okPool := (summarize_okPool hsb).mpr ⟨hp.2.1, w, hp.2.2⟩
  have hidx : sb.index = i := (summarize_slot hsb).2.1.trans hp.1
  obtain ⟨c, hc, _⟩ := id hp.2.1
  have hd0 := no_donations hsb hd hnd hp.2.1
  rw [hd0] at hd
  obtain ⟨k1, k2, s5, k3, k4⟩ := quiet_slot hsb hq hd hn h
  obtain ⟨r, s2, hr, hsh, hs5⟩ := proposal_ok hE hX
    (s := { o.st with ether := o.st.ether ++ b.events.ether }) hs h5 ht k3
  have hw : sb.waddr = w := hasAddress_unique (summarize_waddr hsb ht) hp.2.2
  have hk : sb.key = b.dutyKey := (summarize_slot hsb).2.2.1
  have hen : enrol { o.st with ether := o.st.ether ++ b.events.ether } sb
      = enrolled o.st.vals i w b.dutyKey := by
    unfold enrol; rw [hidx, hw, hk]
  dsimp only at hsh
  rw [hen] at hsh
  have fr := shares_frame hsh
  have f1 : s2.proposed = o.st.proposed := by have := congrArg State.proposed fr; exact this
  have f2 : s2.nextSlot = o.st.nextSlot := by have := congrArg State.nextSlot fr; exact this
  refine ⟨r, s2, sb, c, rewardIs_of hg hsb hd (Or.inl ht) hr, hsh, hslot.trans hnn.symm, hidx, ht, hr,
    hc, summarize_block hsb hc, ?_⟩
  have e : o' = ⟨o'.cfg, o'.st⟩ := rfl
  rw [e, k2, k4 (by rw [hs5]; exact f2.trans k1.symm), hs5]
  unfold finishSlot paidOut
  simp [ht, k1, f1, f2, summarize_block hsb hc, hidx]

/-- **C17.** A block paying the pool whose proposer has no withdrawal address and carrying nothing
else: the whole reward is kept by the pool and no validator is touched. -/
theorem C17_no_address (hi : PaidPool b o.cfg.poolAddr) (hna : ∀ w, ¬ HasAddress b.validator.creds w)
    (hg : GasOK b) (hq : NoEvents b) (hnd : NoDonations b) (hn : n % 1200 ≠ 0) :
    ∃ r sb c, RewardIs b r ∧ sb.slot = n ∧ sb.index = b.dutyIndex ∧ sb.reward = some r ∧
      sb.type = .okPoolBls ∧ b.cons = some c ∧ sb.block = c.number ∧
      o' = ⟨o.cfg, { o.st with
        poolFees := o.st.poolFees + r, proposed := o.st.proposed ++ [sb],
        ether := o.st.ether ++ b.events.ether,
        latestSlot := n, nextSlot := u64 (n + 1), latestBlock := c.number }⟩ := by
  obtain ⟨hs, h5⟩ := hist_five hE hX hC h0 List.Pairwise.nil (by intro p hp; simp [newOracle] at hp)
  obtain ⟨sb, dons, _, _, _, hsb, hd, _, _, _, hnn, hslot, _⟩ := slot_frame h
  obtain ⟨c, hc, _⟩ := id hi
  have ht : sb.type = .okPoolBls := by
    rcases (summarize_paid hsb).1.mpr hi with h | h
    · exact absurd ((summarize_okPool hsb).mp h).2 (by rintro ⟨w, hw⟩; exact hna w hw)
    · exact h
  have hd0 := no_donations hsb hd hnd hi
  rw [hd0] at hd
  obtain ⟨k1, k2, s5, k3, k4⟩ := quiet_slot hsb hq hd hn h
  obtain ⟨r, hr, hs5⟩ := proposal_bls ht k3
  refine ⟨r, sb, c, rewardIs_of hg hsb hd (Or.inr ht) hr, hslot.trans hnn.symm, (summarize_slot hsb).2.1,
    hr, ht, hc, summarize_block hsb hc, ?_⟩
  have e : o' = ⟨o'.cfg, o'.st⟩ := rfl
  rw [e, k2, k4 (by rw [hs5]; exact k1.symm), hs5]
  unfold finishSlot
  simp [ht, k1, summarize_block hsb hc]

end

/-! ### The hypotheses are met -/
namespace Sample

instance (b) : Decidable (NoEvents b) := by unfold NoEvents; infer_instance

/-- C13: validator 2, subscribed by `b0`, misses in `b2` -/
example : ∃ o o' n v, Hist env (newOracle cfg) [b0, b1] o ∧ advanceState env o b2 = .ok (o', some n) ∧
    Misses b2 2 ∧ VMap.get o.st.vals 2 = some v ∧ Subscribed v.status ∧ NoEvents b2 ∧
    b2.events.ether = [] ∧ n % 1200 ≠ 0 := by
  obtain ⟨o, o', n, h1, h2, h3⟩ := ex_then (E := env) (o := newOracle cfg) (bs := [b0, b1]) (b := b2)
    (P := fun o _ n => ((VMap.get o.st.vals 2).any fun v : Validator => decide (Subscribed v.status)) &&
      decide (n % 1200 ≠ 0)) (by decide +kernel)
  simp only [Bool.and_eq_true, decide_eq_true_eq] at h3
  obtain ⟨v, h4, h5⟩ := ex_get h3.1
  exact ⟨o, o', n, v, h1, h2, ⟨rfl, rfl⟩, h4, h5, by decide, rfl, h3.2⟩

/-- C13: validator 77 has nothing to do with the pool -/
example : ∃ o o' n, Hist env (newOracle cfg) [b0, b1] o ∧
    advanceState env o (miss 12000002 77) = .ok (o', some n) ∧
    (∀ v, VMap.get o.st.vals 77 = some v → ¬ Subscribed v.status) ∧ n % 1200 ≠ 0 := by
  obtain ⟨o, o', n, h1, h2, h3⟩ := ex_then (E := env) (o := newOracle cfg) (bs := [b0, b1])
    (b := miss 12000002 77)
    (P := fun o _ n => decide ((VMap.get o.st.vals 77) = none) && decide (n % 1200 ≠ 0)) (by decide +kernel)
  simp only [Bool.and_eq_true, decide_eq_true_eq] at h3
  exact ⟨o, o', n, h1, h2, by rw [h3.1]; simp, h3.2⟩

/-- C12: validator 1, active since `b0`, pays somebody else in `b3` -/
example : ∃ o o' n v, Hist env (newOracle cfg) [b0, b1, b2] o ∧ advanceState env o b3 = .ok (o', some n) ∧
    PaysElsewhere b3 pool 1 ∧ VMap.get o.st.vals 1 = some v ∧ Subscribed v.status ∧ v.pend ≠ 0 ∧
    ∀ ev ∈ b3.events.unbans, ev.validatorId ≠ 1 := by
  obtain ⟨o, o', n, h1, h2, h3⟩ := ex_then (E := env) (o := newOracle cfg) (bs := [b0, b1, b2]) (b := b3)
    (P := fun o _ _ => (VMap.get o.st.vals 1).any fun v : Validator => decide (Subscribed v.status ∧ v.pend ≠ 0))
    (by decide +kernel)
  obtain ⟨v, h4, h5, h6⟩ := ex_get h3
  exact ⟨o, o', n, v, h1, h2, b3_elsewhere, h4, h5, h6, by simp [b3, prop]⟩

/-- validator 1 pays somebody else, nothing else happens -/
def bad : FullBlock := prop 12000002 1 builder (tx builder (addr 77) 900) {}

/-- C12, quiet slot -/
example : ∃ o o' n v, Hist env (newOracle cfg) [b0, b1] o ∧ advanceState env o bad = .ok (o', some n) ∧
    PaysElsewhere bad pool 1 ∧ VMap.get o.st.vals 1 = some v ∧ Subscribed v.status ∧ v.pend ≠ 0 ∧
    NoEvents bad ∧ bad.events.ether = [] ∧ n % 1200 ≠ 0 := by
  obtain ⟨o, o', n, h1, h2, h3⟩ := ex_then (E := env) (o := newOracle cfg) (bs := [b0, b1]) (b := bad)
    (P := fun o _ n => ((VMap.get o.st.vals 1).any fun v : Validator => decide (Subscribed v.status ∧ v.pend ≠ 0)) &&
      decide (n % 1200 ≠ 0)) (by decide +kernel)
  simp only [Bool.and_eq_true, decide_eq_true_eq] at h3
  obtain ⟨v, h4, h5, h6⟩ := ex_get h3.1
  exact ⟨o, o', n, v, h1, h2, prop_elsewhere (by decide) (by simp) (by decide), h4, h5, h6, by decide,
    rfl, h3.2⟩

/-- C14: validator 2 proposes `b1`, paying the pool -/
example : ∃ o o' n, Hist env (newOracle cfg) [b0] o ∧ advanceState env o b1 = .ok (o', some n) ∧
    PaysPool b1 pool 2 (addr 2) ∧ GasOK b1 ∧ NoEvents b1 ∧ NoDonations b1 ∧ n % 1200 ≠ 0 := by
  obtain ⟨o, o', n, h1, h2, h3⟩ := ex_then (E := env) (o := newOracle cfg) (bs := [b0]) (b := b1)
    (P := fun _ _ n => decide (n % 1200 ≠ 0)) (by decide +kernel)
  exact ⟨o, o', n, h1, h2, b1_pays, prop_gas, by decide, by intro e he; simp [b1, prop] at he,
    by simpa using h3⟩

/-- a block paying the pool from a validator with BLS credentials -/
def blsBlock : FullBlock :=
  { prop 12000001 8 pool (tx (addr 50) (addr 51) 1) {} with
    validator := { bval 8 with creds := 0 :: List.replicate 31 7 } }

/-- C17, no address -/
example : ∃ o o' n, Hist env (newOracle cfg) [b0] o ∧ advanceState env o blsBlock = .ok (o', some n) ∧
    PaidPool blsBlock pool ∧ (∀ w, ¬ HasAddress blsBlock.validator.creds w) ∧ GasOK blsBlock ∧
    NoEvents blsBlock ∧ NoDonations blsBlock ∧ n % 1200 ≠ 0 := by
  obtain ⟨o, o', n, h1, h2, h3⟩ := ex_then (E := env) (o := newOracle cfg) (bs := [b0]) (b := blsBlock)
    (P := fun _ _ n => decide (n % 1200 ≠ 0)) (by decide +kernel)
  refine ⟨o, o', n, h1, h2, (vanilla_pays (slot := 12000001) (i := 8) (evs := {}) (by decide)
    (by decide) (by decide)).2.1, ?_, prop_gas (slot := 12000001) (i := 8) (evs := {}), by decide,
    by intro e he; simp [blsBlock, prop] at he, by simpa using h3⟩
  rintro w ⟨p, a, hp, _, hc, _⟩
  simp only [blsBlock, List.cons.injEq] at hc
  omega

end Sample
end Verif
