import Verif.Props.Proposals
/-
C60: a processed slot does exactly what the specification in `Spec/Slot.lean` says.
C15, C16: subscriptions and unsubscriptions.
-/
namespace Verif
open VMap Relation

/-- a successfully applied block has the specified effect, whether or not the cleanup after it succeeds -/
theorem applyBlock_effect {E : Env} (hE : ValidEnv E) (hX : ExactEnv E) {net pool : Str} {s0 s sF : State}
    {b : FullBlock} {sb : SumBlock} {dons : List EtherEvent} (hs : MapOK s) (h5 : FiveStates s) (hg : GasOK b)
    (hsb : summarize s0 b pool = .ok sb) (hd : getDonations b pool = .ok dons)
    (ha : applyBlock E net s b sb dons = .ok sF) :
    SlotEffect E net pool b { s with
        subs := s.subs ++ b.events.subs
        unsubs := s.unsubs ++ b.events.unsubs
        ether := s.ether ++ b.events.ether } sF ∧ Sorted sF.vals := by
  unfold applyBlock at ha
  simp only [bind_ok] at ha
  obtain ⟨s1, a1, s3, a3, s4, a4, s5, a5, s6, a6, s7, a7, s8, a8, a9⟩ := ha
  obtain ⟨_, heff, h51⟩ := handleSubs_effects (s := { s with
        subs := s.subs ++ b.events.subs
        unsubs := s.unsubs ++ b.events.unsubs
        ether := s.ether ++ b.events.ether }) h5 hs a1
  have hs1 : Sorted s1.vals := by
    have q1 := handleSubs_runs (E := E) (slot := s.nextSlot) (b := b) (sb := sb)
      (dons := dons) (x := False) rfl a1
    exact q1.sorted hs
  have hprop : proposalStage E net s1 sb = .ok s5 := by
    unfold proposalStage
    simp only [bind_ok]
    exact ⟨s3, a3, s4, a4, a5⟩
  have hpe := proposal_effect hE hX hg hsb hd hs1 h51 hprop
  obtain ⟨h55, hs5⟩ := hpe.five hE hX hs1 h51
  have hun : UnsubEffects E net s5 (b.events.unsubs.zip b.valsUnsubs) s6 := by
    unfold handleUnsubs at a6
    split at a6
    · simp at a6
    · split at a6
      · simp at a6
      · exact unsubLoop_effects hE hX h55 hs5 a6
  have hun5 : FiveStates s6 ∧ Sorted s6.vals := by
    have key : ∀ {s l s'}, UnsubEffects E net s l s' → FiveStates s → Sorted s.vals →
        FiveStates s' ∧ Sorted s'.vals := by
      intro s l s' he
      induction he with
      | nil => exact fun a c => ⟨a, c⟩
      | cons he _ ih =>
        intro a c
        obtain ⟨a', c'⟩ := he.five hE c a
        exact ih a' c'
    exact key hun h55 hs5
  have hdon : DonEffects E net s6 dons s7 ∧ FiveStates s7 ∧ Sorted s7.vals := by
    unfold handleDonations at a7
    split at a7
    · simp at a7
    · exact donLoop_effects hE hX hun5.2 hun5.1 a7
  obtain ⟨hdon, h57, hs7⟩ := hdon
  have hban : ∃ s5' tot, BanEffects s7 b.events.bans s5' tot ∧
      ((0 < tot ∧ Shares E net s5' tot s8) ∨ (tot = 0 ∧ s8 = s5')) ∧ Sorted s8.vals := by
    unfold handleBans at a8
    split at a8
    · rename_i hnil
      simp only [Except.ok.injEq] at a8
      subst a8
      exact ⟨s7, 0, by rw [hnil]; exact .nil _, Or.inr ⟨rfl, rfl⟩, hs7⟩
    · split at a8
      · simp at a8
      · simp only [bind_ok] at a8
        obtain ⟨⟨s5', tot⟩, b1, b2⟩ := a8
        obtain ⟨c1, c2, c3⟩ := banLoop_effects hs7 h57 b1
        rw [sub_zero] at c1
        simp only at b2
        split at b2
        · simp at b2
        · split at b2
          · rename_i hpos
            have hsh := increaseAll_shares hE hX c3 b2
            exact ⟨s5', tot, c1, Or.inl ⟨hpos, hsh⟩, shares_sorted c3 hsh⟩
          · rename_i h1 h2
            simp only [Except.ok.injEq] at b2
            subst b2
            exact ⟨s5', tot, c1, Or.inr ⟨by omega, rfl⟩, c3⟩
  obtain ⟨s5', tot, hb1, hb2, hs8⟩ := hban
  have hF : sF = { s8 with vals := unbanned s8.vals b.events.unbans } := by
    unfold handleUnbans at a9
    split at a9
    · simp at a9
    · simp only [Except.ok.injEq] at a9
      rw [← a9, unbanLoop_eq hs8]
  have hsF : Sorted sF.vals := by rw [hF]; exact sorted_unbanned hs8
  exact ⟨⟨s1, s5, s6, dons, s7, s5', tot, s8, heff, hpe, hun, donationsOf hsb hd, hdon, hb1, hb2, hF⟩, hsF⟩

section
variable {E : Env} (hE : ValidEnv E) (hX : ExactEnv E) (hC : NoSelfConsol E)
  {cfg : Config} {bs : List FullBlock} {o o' : Oracle} {b : FullBlock} {n : Nat}
  (h0 : Hist E (newOracle cfg) bs o) (h : advanceState E o b = .ok (o', some n))
include hE hX hC h0 h

/-- **C60.** Refinement: in every reachable state a successfully processed slot performs the
specified steps in the specified order (subscriptions, proposal, unsubscriptions, donations, bans,
unbans, periodic cleanup), and nothing else changes but the logs and the slot counters. -/
theorem C60_slot_refines (hg : GasOK b) :
    ∃ s7 s8, SlotEffect E o.cfg.network o.cfg.poolAddr b { o.st with
        fee := o'.st.fee
        subs := o.st.subs ++ b.events.subs
        unsubs := o.st.unsubs ++ b.events.unsubs
        ether := o.st.ether ++ b.events.ether } s7 ∧
      (n % 1200 = 0 → CleanupEffect E o.cfg.network n s7 s8) ∧ (n % 1200 ≠ 0 → s8 = s7) ∧
      n = o.st.nextSlot ∧ n = b.dutySlot ∧
      o' = ⟨{ o.cfg with fee := o'.cfg.fee }, { s8 with
        latestSlot := n, nextSlot := u64 (n + 1)
        latestBlock := match b.cons with | some c => c.number | none => o.st.latestBlock }⟩ := by
  obtain ⟨hs, h5⟩ := hist_five hE hX hC h0 List.Pairwise.nil (by intro p hp; simp [newOracle] at hp)
  obtain ⟨_, _, _, _, _, _, _, _, _, hfrm, hnn, hslot0, _⟩ := slot_frame h
  obtain ⟨o1, sb, dons, sF, s2, k1, k2, hv, hsb, k3, hd, ha, hcl, ho', hn⟩ := advanceState_ok h
  have hfr := validateConfig_frame hv
  have hvals : o1.st.vals = o.st.vals := by rw [hfr]
  have hnet : o1.cfg.network = o.cfg.network := by rw [hfr]
  have hpa : o1.cfg.poolAddr = o.cfg.poolAddr := by rw [hfr]
  rw [hpa] at hsb hd
  rw [hnet] at ha hcl
  have e2 : s2.frame = sF.frame := by
    split at hcl
    · exact cleanup_frame hcl
    · simp only [Except.ok.injEq, Prod.mk.injEq, and_true] at hcl; rw [hcl]
  obtain ⟨_, _, _, _, eF⟩ := applyBlock_frame ha
  have hfee : o'.st.fee = o1.st.fee := by
    have e3 : s2.fee = sF.fee := by have := congrArg State.fee e2; exact this
    have e4 : sF.fee = o1.st.fee := by have := congrArg State.fee eF; exact this
    rw [ho']; exact e3.trans e4
  have hns : sF.nextSlot = n := by
    have e3 : s2.nextSlot = sF.nextSlot := by have := congrArg State.nextSlot e2; exact this
    rw [hn, e3]
  have hlb : s2.latestBlock = o.st.latestBlock := by
    have e3 : s2.latestBlock = sF.latestBlock := by have := congrArg State.latestBlock e2; exact this
    have e4 : sF.latestBlock = o1.st.latestBlock := by have := congrArg State.latestBlock eF; exact this
    rw [e3, e4, hfr]
  have hlog : { o1.st with
      subs := o1.st.subs ++ b.events.subs
      unsubs := o1.st.unsubs ++ b.events.unsubs
      ether := o1.st.ether ++ b.events.ether } = { o.st with
        fee := o'.st.fee
        subs := o.st.subs ++ b.events.subs
        unsubs := o.st.unsubs ++ b.events.unsubs
        ether := o.st.ether ++ b.events.ether } := by
    rw [hfee, hfr]
  obtain ⟨heff, hsF⟩ := applyBlock_effect hE hX (by show Sorted o1.st.vals; rw [hvals]; exact hs)
    (by intro p hp; rw [hvals] at hp; exact h5 p hp) hg hsb hd ha
  rw [hlog] at heff
  refine ⟨sF, s2, heff, ?_, ?_, hnn, ?_, ?_⟩
  · intro hz
    rw [hns] at hcl
    rw [if_pos hz] at hcl
    exact cleanup_effect hE hX hC hsF hcl
  · intro hz
    rw [hns] at hcl
    rw [if_neg hz] at hcl
    simp only [Except.ok.injEq, Prod.mk.injEq, and_true] at hcl
    exact hcl.symm
  · rw [hnn]; exact k2
  · have hcfg : o'.cfg = { o.cfg with fee := o'.cfg.fee } := by rw [ho', hfr]
    have hst : o'.st = { s2 with
        latestSlot := n, nextSlot := u64 (n + 1)
        latestBlock := match b.cons with | some c => c.number | none => o.st.latestBlock } := by
      rw [ho']
      unfold finishSlot
      rw [← hn]
      congr 1
      cases hc : b.cons with
      | none =>
        have ht : sb.type = .missed := (summarize_slot hsb).2.2.2.1.mpr hc
        simp [ht, hlb]
      | some c =>
        have ht : sb.type ≠ .missed := by
          intro ht
          have := (summarize_slot hsb).2.2.2.1.mp ht
          rw [hc] at this; simp at this
        simp [ht, summarize_block hsb hc]
    conv_lhs => rw [show o' = ⟨o'.cfg, o'.st⟩ from rfl]
    rw [hst]
    conv_lhs => rw [hcfg]

end

/-! ### C15 -/

theorem SubEffect.money {s s1 : State} {ev : SubEvent} {val : Option BVal} (hs : Sorted s.vals)
    (he : SubEffect s ev val s1) :
    Sorted s1.vals ∧ owed s1 = owed s + ev.collateral := by
  have hp : ∀ m : VMap, (m.map fun p => p.2.pend).sum = total (·.pend) m := fun _ => rfl
  have ha : ∀ m : VMap, (m.map fun p => p.2.acc).sum = total (·.acc) m := fun _ => rfl
  cases he with
  | fresh _ hg _ =>
    refine ⟨by dsimp only; exact hs.insert _ _, ?_⟩
    simp only [owed, pendingTotal, accTotal, hp, ha]
    rw [total_insert hg, total_insert hg]; ring
  | again _ hg _ _ =>
    refine ⟨by dsimp only; exact hs.modify _ _, ?_⟩
    simp only [owed, pendingTotal, accTotal, hp, ha]
    rw [total_modify hs hg, total_modify hs hg]; ring
  | returned _ hg _ =>
    refine ⟨by dsimp only; exact hs.modify _ _, ?_⟩
    simp only [owed, pendingTotal, accTotal, hp, ha]
    rw [total_modify hs hg, total_modify hs hg]; ring
  | notOwner => exact ⟨hs, by simp only [owed, pendingTotal, accTotal]; ring⟩
  | tooLittle => exact ⟨hs, by simp only [owed, pendingTotal, accTotal]; ring⟩

theorem SubEffects.money {s s' : State} {l : List (SubEvent × Option BVal)} (hs : Sorted s.vals)
    (h : SubEffects s l s') :
    owed s' = owed s + (l.map fun p => p.1.collateral).sum := by
  induction h with
  | nil => simp
  | cons he _ ih =>
    obtain ⟨h1, h2⟩ := he.money hs
    rw [ih h1, h2]
    simp only [List.map_cons, List.sum_cons]; ring

end Verif
