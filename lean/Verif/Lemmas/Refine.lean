import Verif.Lemmas.Proposal
import Verif.Props.Tip
import Verif.Props.Identity
import Verif.Spec.Slot
import Verif.Lemmas.Consol
/-
The stages of a slot against their specification.
-/
namespace Verif
open VMap

theorem modify_insert_ne (m : VMap) {i j : Nat} (v : Validator) (f) (h : i ≠ j) :
    VMap.modify (VMap.insert m j v) i f = VMap.insert (VMap.modify m i f) j v := by
  induction m with
  | nil => simp [VMap.insert, VMap.modify, Ne.symm h]
  | cons p m ih =>
    obtain ⟨k, u⟩ := p
    have hk : ∀ (l : VMap), VMap.modify ((k, u) :: l) i f =
        (k, if k = i then f u else u) :: VMap.modify l i f := by
      intro l; simp only [VMap.modify, List.map_cons]; split <;> rfl
    have hj : ∀ (l : VMap), VMap.modify ((j, v) :: l) i f = (j, v) :: VMap.modify l i f := by
      intro l; simp [VMap.modify, Ne.symm h]
    rw [hk]
    simp only [VMap.insert]
    split
    · rw [hj, hk]
    · split
      · rw [hj]
      · rw [hk, ih]

theorem summarize_block {s b pool sb c} (h : summarize s b pool = .ok sb) (hc : b.cons = some c) :
    sb.block = c.number := by
  unfold summarize at h
  rw [bind_ok] at h
  obtain ⟨⟨w, wt⟩, hw, h⟩ := h
  simp only [hc, bind_ok] at h
  obtain ⟨p, hp, ⟨r, tp, rt⟩, hsr, nb, hnb, h⟩ := h
  simp only [Except.ok.injEq] at h
  rw [← h]
  exact (exec_ok hnb).symm

theorem describes_of {s b pool sb} (h : summarize s b pool = .ok sb) : Describes sb b sb.type := by
  obtain ⟨h1, h2, h3, _⟩ := summarize_slot h
  exact ⟨h1, h2, h3, rfl, fun c hc => summarize_block h hc⟩

theorem hasAddress_unique {c w w'} (h : HasAddress c w) (h' : HasAddress c w') : w = w' := by
  obtain ⟨p, a, _, _, hc, rfl⟩ := h
  obtain ⟨p', a', _, _, hc', rfl⟩ := h'
  rw [hc] at hc'
  simp only [List.cons.injEq, List.append_cancel_left_eq] at hc'
  rw [hc'.2]

/-- what the reward of a block recorded as paying the pool is -/
theorem rewardIs_of {s b pool sb dons r} (hg : GasOK b) (hsb : summarize s b pool = .ok sb)
    (hd : getDonations b pool = .ok dons) (ht : sb.type = .okPool ∨ sb.type = .okPoolBls)
    (hr : sb.reward = some r) : RewardIs b r := by
  rcases summarize_cases hsb hd with ⟨_, h, _⟩ | ⟨c, m, hc, hm, h⟩
  · rcases ht with ht | ht <;> rw [ht] at h <;> simp at h
  · have hspec := mevReward_spec (pool := pool) hm
    rcases h with ⟨hp, _, _, _, hrew, _, _⟩ | ⟨_, _, ht', _⟩ | ⟨hp, _, _, hrt, _⟩ | ⟨_, _, ht', _⟩
    · rw [hr, Option.some.injEq] at hrew
      rw [hrew]
      rcases hspec with ⟨h1, _, _, h3⟩ | ⟨tx, dest, h3, _, h4, _⟩ | ⟨_, _, h3⟩
      · rw [h3]; exact .exception h1
      · rw [h4]; exact .builder h3
      · rw [hp] at h3; simp at h3
    · rcases ht with ht | ht <;> rw [ht] at ht' <;> simp at ht'
    · obtain ⟨t, ht1, ht2, ht3⟩ := vanila_tip hsb hrt
      rw [hr] at ht3
      cases t with
      | err => simp at ht2
      | nil => simp at ht3
      | val x =>
        obtain ⟨c', hd', rs, e1, e2, e3, e4, e5, _⟩ := C40_tip_is_priority_fees hg ht1
        simp only [Option.some.injEq] at ht3
        rw [ht3, e4]
        rcases hspec with ⟨_, h3, _⟩ | ⟨tx, dest, _, h3, _⟩ | ⟨h3, h4, _⟩
        · rw [hp] at h3; simp at h3
        · rw [hp] at h3; simp at h3
        · exact .fees h3 h4 e1 e2 e3
    · rcases ht with ht | ht <;> rw [ht] at ht' <;> simp at ht'

section
variable {E : Env} (hE : ValidEnv E) (hX : ExactEnv E)
include hE hX

theorem proposal_effect {net b pool s0 sb dons} {s s' : State} (hg : GasOK b)
    (hsb : summarize s0 b pool = .ok sb) (hd : getDonations b pool = .ok dons)
    (hs : Sorted s.vals) (h5 : FiveStates s) (h : proposalStage E net s sb = .ok s') :
    ProposalEffect E net pool b s s' := by
  obtain ⟨p1, p2, p3⟩ := summarize_paid hsb
  have hok := summarize_okPool hsb
  obtain ⟨_, hidx, hkey, _, hun⟩ := summarize_slot hsb
  have hdes := describes_of hsb
  cases ht : sb.type with
  | unknown => exact absurd ht hun
  | missed =>
    have hc := p3.mp ht
    have hnp : ¬ PaidPool b pool := by
      intro hp; rcases p1.mpr hp with h | h <;> rw [ht] at h <;> simp at h
    rcases proposal_missed hs h5 ht h with ⟨⟨v, hv, hst⟩, rfl⟩ | ⟨hno, rfl⟩
    · rw [hidx] at hv ⊢
      exact .missed hc hv hst (by rw [← ht]; exact hdes)
    · rw [hidx] at hno
      exact .outsider hnp hno
  | wrongFee =>
    obtain ⟨hc, hnp⟩ := p2.mp ht
    rcases proposal_wrongFee hE hX hs h5 ht h with ⟨v, s2, hv, hst, hsh, rfl⟩ | ⟨hno, rfl⟩
    · rw [hidx] at hv hsh
      have e : s2.wrongFee = s.wrongFee := by
        have := congrArg State.wrongFee (shares_frame hsh); exact this
      rw [e]
      exact .elsewhere hc hnp hv hst hsh (by rw [← ht]; exact hdes)
    · rw [hidx] at hno
      exact .outsider hnp hno
  | okPool =>
    obtain ⟨hp, w, hw⟩ := hok.mp ht
    obtain ⟨r, s2, hr, hsh, rfl⟩ := proposal_ok hE hX hs h5 ht h
    have hww : sb.waddr = w := hasAddress_unique (summarize_waddr hsb ht) hw
    have e : s2.proposed = s.proposed := by
      have := congrArg State.proposed (shares_frame hsh); exact this
    unfold enrol at hsh
    rw [hidx, hww, hkey] at hsh
    rw [e, hidx]
    exact .pays hp hw (rewardIs_of hg hsb hd (Or.inl ht) hr) hsh (by rw [← ht]; exact hdes) hr hww
  | okPoolBls =>
    have hp := p1.mp (Or.inr ht)
    obtain ⟨r, hr, rfl⟩ := proposal_bls ht h
    refine .noAddress hp ?_ (rewardIs_of hg hsb hd (Or.inr ht) hr) (by rw [← ht]; exact hdes) hr
    intro w hw
    have := hok.mpr ⟨hp, w, hw⟩
    rw [ht] at this; simp at this

theorem ProposalEffect.five {net b pool} {s s' : State} (h : ProposalEffect E net pool b s s')
    (hs : Sorted s.vals) (h5 : FiveStates s) : FiveStates s' ∧ Sorted s'.vals := by
  cases h with
  | missed _ hv hst _ =>
    refine ⟨?_, by dsimp only; exact hs.modify _ _⟩
    intro p hp; dsimp only at hp
    refine fiveStates_modify h5 ?_ hs p hp
    intro u hu
    have := h5.get hu
    cases hst : u.status <;> simp [hst, Documented, Subscribed, afterMiss] at this ⊢
  | outsider => exact ⟨h5, hs⟩
  | elsewhere _ _ _ _ hsh _ =>
    have := shares_five hsh (by dsimp only; exact hs.modify _ _) (by
      intro p hp; dsimp only at hp
      exact fiveStates_modify h5 (fun v _ => Or.inr (Or.inr rfl)) hs p hp)
    exact this
  | @pays w r sb s2 _ _ _ hsh _ _ hw =>
    have k : FiveStates { s with vals := enrolled s.vals b.dutyIndex w b.dutyKey } := by
      intro p hp; dsimp only at hp
      unfold enrolled at hp
      split at hp
      · rename_i hn
        have hg : VMap.get (VMap.insert s.vals b.dutyIndex _) p.1 = some p.2 :=
          (hs.insert b.dutyIndex _).get_of_mem (k := p.1) (v := p.2) hp
        rw [get_insert] at hg
        split at hg
        · simp only [Option.some.injEq] at hg
          rw [← hg]; exact Or.inl (Or.inl rfl)
        · exact h5.get hg
      · refine fiveStates_modify h5 ?_ hs p hp
        intro u hu
        have := h5.get hu
        cases hst : u.status <;> simp [hst, Documented, Subscribed, afterPay] at this ⊢
    have ks : Sorted (enrolled s.vals b.dutyIndex w b.dutyKey) := by
      unfold enrolled; split
      · exact hs.insert _ _
      · exact hs.modify _ _
    obtain ⟨k1, k2⟩ := shares_five hsh ks k
    refine ⟨?_, by dsimp only [paidOut]; exact k2.modify _ _⟩
    intro p hp; dsimp only [paidOut] at hp
    exact fiveStates_modify k1 (fun v hv => by have := k1.get hv; exact this) k2 p hp
  | noAddress => exact ⟨h5, hs⟩

theorem donLoop_effects {net} {l} {s s' : State} (hs : Sorted s.vals) (h5 : FiveStates s)
    (h : donLoop E net l s = .ok s') : DonEffects E net s l s' ∧ FiveStates s' ∧ Sorted s'.vals := by
  induction l generalizing s with
  | nil => simp only [donLoop, Except.ok.injEq] at h; subst h; exact ⟨.nil _, h5, hs⟩
  | cons d l ih =>
    simp only [donLoop, bind_ok] at h
    obtain ⟨s1, h1, h2⟩ := h
    have hsh := increaseAll_shares hE hX hs h1
    obtain ⟨k1, k2⟩ := shares_five hsh hs h5
    obtain ⟨e1, e2⟩ := ih (s := { s1 with donations := s1.donations ++ [d] }) k2 k1 h2
    exact ⟨.cons hsh e1, e2⟩

omit hE hX in
theorem banLoop_effects {l} {s s' : State} {t t' : Int} (hs : Sorted s.vals) (h5 : FiveStates s)
    (h : banLoop l s t = .ok (s', t')) :
    BanEffects s l s' (t' - t) ∧ FiveStates s' ∧ Sorted s'.vals := by
  induction l generalizing s t with
  | nil =>
    simp only [banLoop, Except.ok.injEq, Prod.mk.injEq] at h
    obtain ⟨rfl, rfl⟩ := h
    rw [sub_self]; exact ⟨.nil _, h5, hs⟩
  | cons ev l ih =>
    simp only [banLoop] at h
    split at h
    · rename_i hno
      obtain ⟨e1, e2⟩ := ih hs h5 h
      refine ⟨.skip ?_ e1, e2⟩
      intro v hv hst
      have := (isSubscribed_iff h5 _).mpr ⟨v, hv, hst⟩
      rw [this] at hno; simp at hno
    · rename_i hsub
      simp only [Bool.not_eq_true, Bool.not_eq_false'] at hsub
      obtain ⟨v, hv, hst⟩ := (isSubscribed_iff h5 _).mp (by simpa using hsub)
      simp only [bind_ok] at h
      obtain ⟨p, hp, s2, h2, h3⟩ := h
      obtain ⟨u, hu, hp'⟩ := pendOf_advance hp
      rw [hv, Option.some.injEq] at hu; subst hu
      have e : s2 = { s with vals := VMap.modify s.vals ev.validatorId fun v =>
          { v with status := .banned, pend := 0 } } := by
        unfold State.resetPending at h2
        split at h2
        · simp only [Except.ok.injEq] at h2
          rw [← h2]
          simp only [State.advance, State.modVal]
          rw [modify_modify]
          congr 1
          refine modify_congr ?_ hs
          intro u' hu'
          rw [hv, Option.some.injEq] at hu'; subst hu'
          rcases hst with h | h | h <;> simp [h, transition]
        · simp at h2
      subst e
      obtain ⟨e1, e2⟩ := ih (by dsimp only; exact hs.modify _ _) (by
        intro p hp; dsimp only at hp
        exact fiveStates_modify h5 (fun v _ => Or.inr (Or.inr rfl)) hs p hp) h3
      refine ⟨?_, e2⟩
      have := BanEffects.ban hv hst e1
      convert this using 1
      rw [hp']; ring

omit hE hX in
theorem unbanLoop_eq {l} {s : State} (hs : Sorted s.vals) :
    unbanLoop l s = { s with vals := unbanned s.vals l } := by
  induction l generalizing s with
  | nil =>
    simp only [unbanLoop, unbanned]
    simp
  | cons ev l ih =>
    simp only [unbanLoop]
    split
    · rename_i hno
      rw [ih hs]
      congr 1
      unfold unbanned
      apply List.map_congr_left
      intro p hp
      have hne : p.2.status = .banned → ev.validatorId ≠ p.1 := by
        intro hb he
        have : s.isBanned ev.validatorId = true := (isBanned_iff _).mpr ⟨p.2, by
          rw [he]; exact hs.get_of_mem (k := p.1) (v := p.2) hp, hb⟩
        rw [this] at hno; simp at hno
      by_cases hb : p.2.status = .banned
      · simp [hb, hne hb]
      · simp [hb]
    · rename_i hban
      have hb : s.isBanned ev.validatorId = true := by simpa using hban
      obtain ⟨v, hv, hst⟩ := (isBanned_iff _).mp hb
      have e : s.advance ev.validatorId .manualUnban = { s with
          vals := (VMap.modify s.vals ev.validatorId
            fun v => { v with status := transition v.status .manualUnban }) } := rfl
      rw [e, ih (by dsimp only; exact hs.modify _ _)]
      dsimp only
      congr 1
      unfold unbanned VMap.modify
      rw [List.map_map]
      apply List.map_congr_left
      intro p hp
      simp only [Function.comp]
      by_cases hid : p.1 = ev.validatorId
      · have hpv : p.2 = v := by
          have := hs.get_of_mem (k := p.1) (v := p.2) hp
          rw [hid, hv, Option.some.injEq] at this; exact this.symm
        simp [hid, hpv, hst, transition]
      · simp only [if_neg hid, List.mem_cons, exists_eq_or_imp, Ne.symm hid, false_or]

omit hE hX in
theorem sorted_unbanned {m : VMap} {l} (hs : Sorted m) : Sorted (unbanned m l) := by
  unfold unbanned Sorted at *
  rw [List.pairwise_map]
  refine hs.imp ?_
  intro a c h
  split <;> split <;> exact h

omit hE hX in
theorem donationsOf {s0 b pool sb dons} (hsb : summarize s0 b pool = .ok sb)
    (hd : getDonations b pool = .ok dons) : DonationsOf b pool dons := by
  have hpaid := summarize_paid hsb
  rcases summarize_cases hsb hd with ⟨hc, _, h⟩ | ⟨c, m, hc, hm, h⟩
  · refine ⟨fun _ => h, ?_, fun hn => absurd hc hn⟩
    rintro x (⟨⟨_, ⟨c, h1, _⟩, _⟩, _⟩ | ⟨tx, d, ⟨_, c, _, h1, _⟩, _⟩) <;> rw [hc] at h1 <;> simp at h1
  · have hspec := mevReward_spec (pool := pool) hm
    refine ⟨fun hn => by rw [hc] at hn; simp at hn, ?_, ?_⟩
    · intro x hx
      have hamt : m.present = true ∧ SameAddr m.recipient pool ∧ m.amount = x := by
        rcases hspec with ⟨h1, h2, h3, h4⟩ | ⟨tx, dest, h1, h2, h3, h4⟩ | ⟨h1, h2, _⟩
        · rcases hx with ⟨_, h6, h7⟩ | ⟨tx, d, h6, _⟩
          · exact ⟨h2, h3.mpr h6, by rw [h4, h7]; rfl⟩
          · exact absurd h1 h6.1
        · rcases hx with ⟨h6, _⟩ | ⟨tx', d', h6, h7, h8⟩
          · exact absurd h6 h1.1
          · obtain ⟨_, _, _, _, l1, _⟩ := id h1
            obtain ⟨_, _, _, _, l2, _⟩ := id h6
            obtain ⟨q1, _, q2⟩ := lastTx_unique l1 l2
            subst q1 q2
            exact ⟨h2, h4.mpr h7, h3.trans h8.symm⟩
        · rcases hx with ⟨h6, _⟩ | ⟨tx', d', h6, _⟩
          · exact absurd h6 h1
          · exact absurd h6 (h2 _ _)
      obtain ⟨hpres, hrec, hamt⟩ := hamt
      rcases h with ⟨_, _, _, _, _, _, hdn⟩ | ⟨_, hq, _⟩ | ⟨hp, _⟩ | ⟨hp, _⟩
      · rw [hdn, hamt]
      · rw [← equals_iff hq] at hrec; simp at hrec
      · rw [hp] at hpres; simp at hpres
      · rw [hp] at hpres; simp at hpres
    · intro _ hno
      rcases h with ⟨hp, hq, _⟩ | ⟨_, _, _, hdn⟩ | ⟨_, _, _, _, hdn⟩ | ⟨_, _, _, hdn⟩
      · exfalso
        have hrec := (equals_iff hq).mp rfl
        rcases hspec with ⟨h1, h2, h3, h4⟩ | ⟨tx, dest, h1, h2, h3, h4⟩ | ⟨h1, h2, h3⟩
        · exact hno _ (Or.inl ⟨h1, h3.mp hrec, rfl⟩)
        · exact hno _ (Or.inr ⟨tx, dest, h1, h4.mp hrec, rfl⟩)
        · rw [hp] at h3; simp at h3
      · exact hdn
      · exact hdn
      · exact hdn

/-! ### Cleanup -/

omit hE hX in
theorem transition_unsubscribe (st : Status) : transition st .unsubscribe = afterLeaving st := by
  cases st <;> rfl

omit hE hX in
theorem cleanLoop_effects {slot cs} (hC : ∀ p ∈ cs, p.1 ≠ p.2) {l : List BVal} {s s' : State}
    {t t' : Int} (hs : Sorted s.vals) (h : cleanLoop E slot cs l s t = .ok (s', t', true)) :
    CleanEffects E slot cs s l s' (t' - t) ∧ Sorted s'.vals := by
  induction l generalizing s t with
  | nil =>
    simp only [cleanLoop, Except.ok.injEq, Prod.mk.injEq, and_true] at h
    obtain ⟨rfl, rfl⟩ := h
    rw [sub_self]; exact ⟨.nil _, hs⟩
  | cons u l ih =>
    simp only [cleanLoop] at h
    split at h
    · rename_i hact
      obtain ⟨e1, e2⟩ := ih hs h
      exact ⟨.keep (Or.inl hact) e1, e2⟩
    · rename_i hact
      have hact : u.status.isActive = false := by simpa using hact
      rw [bind_ok] at h
      obtain ⟨p, hp, h⟩ := h
      obtain ⟨v, hv, hpv⟩ : ∃ v, VMap.get s.vals u.index = some v ∧ p = v.pend := by
        unfold State.pendOf at hp
        split at hp
        · simp at hp
        · rename_i v hv; simp only [Except.ok.injEq] at hp; exact ⟨v, hv, hp.symm⟩
      subst hpv
      split at h
      · rename_i hz
        obtain ⟨e1, e2⟩ := ih hs h
        exact ⟨.keep (Or.inr ⟨v, hv, hz⟩) e1, e2⟩
      · rename_i hz
        rw [bind_ok] at h
        obtain ⟨⟨s1, t1, go⟩, h1, h⟩ := h
        simp only at h
        split at h
        · rename_i hgo
          subst hgo
          have hsg : Sorted (gone s.vals u.index) := hs.modify _ _
          -- the record after the status change
          have hadv : (s.advance u.index .unsubscribe).vals = VMap.modify s.vals u.index
              fun v => { v with status := afterLeaving v.status } := by
            simp only [State.advance, State.modVal]
            congr 1
            funext v
            rw [transition_unsubscribe]
          have hreset : ∀ {m : VMap}, VMap.modify (VMap.modify m u.index
              fun v => { v with status := afterLeaving v.status }) u.index
              (fun v => { v with pend := 0 }) = gone m u.index := by
            intro m; rw [modify_modify]; rfl
          unfold cleanOne at h1
          simp only [bind_ok] at h1
          obtain ⟨p, hp, h1⟩ := h1
          obtain ⟨v', hv', hpv⟩ := pendOf_advance hp
          rw [hv, Option.some.injEq] at hv'; subst hv'
          subst hpv
          have hother : ∀ j, j ≠ u.index →
              VMap.get (s.advance u.index .unsubscribe).vals j = VMap.get s.vals j := by
            intro j hj; rw [hadv, get_modify_ne _ _ hj]
          split at h1
          · rename_i hnone
            simp only [bind_ok] at h1
            obtain ⟨s2, h2, h3⟩ := h1
            simp only [Except.ok.injEq, Prod.mk.injEq, and_true] at h3
            obtain ⟨rfl, rfl⟩ := h3
            have e : s2 = { s with vals := gone s.vals u.index } := by
              unfold State.resetPending at h2
              split at h2
              · simp only [Except.ok.injEq] at h2
                rw [← h2, State.modVal, hadv, hreset]; rfl
              · simp at h2
            subst e
            obtain ⟨e1, e2⟩ := ih (by dsimp only; exact hsg) h
            refine ⟨?_, e2⟩
            have := CleanEffects.leaves hact hv hz (Or.inl (consolTarget_none hnone)) e1
            convert this using 1; ring
          · rename_i j hj
            obtain ⟨hlast, hmem⟩ := consolTarget_some hj
            have hne : j ≠ u.index := fun he => hC _ hmem he.symm
            split at h1
            · rename_i htb
              simp only [Bool.and_eq_true, Bool.not_eq_true'] at htb
              obtain ⟨w, hw⟩ : ∃ w, VMap.get s.vals j = some w := by
                have h := htb.1
                unfold State.isTracked at h
                rw [hother j hne] at h
                exact Option.isSome_iff_exists.mp h
              have hwb : w.status ≠ .banned := by
                intro hb
                have : (s.advance u.index .unsubscribe).isBanned j = true :=
                  (isBanned_iff _).mpr ⟨w, by rw [hother j hne]; exact hw, hb⟩
                rw [htb.2] at this; simp at this
              simp only [bind_ok] at h1
              obtain ⟨s2, h2, s3, h3, h4⟩ := h1
              simp only [Except.ok.injEq, Prod.mk.injEq, and_true] at h4
              obtain ⟨rfl, rfl⟩ := h4
              have e : s3 = { s with vals := VMap.modify (gone s.vals u.index) j fun w =>
                  { w with pend := w.pend + v.pend } } := by
                unfold State.incPending at h2
                split at h2
                · simp only [Except.ok.injEq] at h2
                  unfold State.resetPending at h3
                  split at h3
                  · simp only [Except.ok.injEq] at h3
                    rw [← h3, ← h2]
                    simp only [State.modVal]
                    rw [hadv, modify_comm _ _ _ (Ne.symm hne), hreset]
                    unfold gone
                    rw [modify_comm _ _ _ hne]
                    rfl
                  · simp at h3
                · simp at h2
              subst e
              obtain ⟨e1, e2⟩ := ih (by dsimp only; exact hsg.modify _ _) h
              exact ⟨.moves hact hv hz hlast hne hw hwb e1, e2⟩
            · split at h1
              · rename_i hnt
                have hnone : VMap.get s.vals j = none := by
                  unfold State.isTracked at hnt
                  rw [hother j hne] at hnt
                  simpa using hnt
                split at h1
                · simp at h1
                · rename_i r hr
                  split at h1
                  · simp at h1
                  · rename_i bv hbv
                    split at h1
                    · simp at h1
                    · rename_i w hw
                      simp only [bind_ok] at h1
                      obtain ⟨s3, h3, h4⟩ := h1
                      simp only [Except.ok.injEq, Prod.mk.injEq, and_true] at h4
                      obtain ⟨rfl, rfl⟩ := h4
                      have e : s3 = { s with
                          tick := s.tick + 1
                          vals := VMap.insert (gone s.vals u.index) j
                            { status := .notSubscribed, acc := 0, pend := v.pend, coll := 0, waddr := w,
                              index := j, key := b!"0x" ++ hexEncode bv.pubkey, subType := .manual } } := by
                        unfold State.resetPending at h3
                        split at h3
                        · simp only [Except.ok.injEq] at h3
                          rw [← h3]
                          simp only [State.modVal, State.putVal]
                          rw [hadv, modify_insert_ne _ _ _ (Ne.symm hne), hreset]
                          rfl
                        · simp at h3
                      subst e
                      obtain ⟨e1, e2⟩ := ih (by dsimp only; exact hsg.insert _ _) h
                      exact ⟨.creates hact hv hz hlast hnone (getSet_some hr).1 (List.mem_of_find?_eq_some hbv)
                        (by simpa using List.find?_some hbv) ((compatAddressByte_iff _ _).mp hw) e1, e2⟩
              · split at h1
                · rename_i hb
                  obtain ⟨w, hw, hwb⟩ := (isBanned_iff _).mp hb
                  rw [hother j hne] at hw
                  simp only [bind_ok] at h1
                  obtain ⟨s2, h2, h3⟩ := h1
                  simp only [Except.ok.injEq, Prod.mk.injEq, and_true] at h3
                  obtain ⟨rfl, rfl⟩ := h3
                  have e : s2 = { s with vals := gone s.vals u.index } := by
                    unfold State.resetPending at h2
                    split at h2
                    · simp only [Except.ok.injEq] at h2
                      rw [← h2, State.modVal, hadv, hreset]; rfl
                    · simp at h2
                  subst e
                  obtain ⟨e1, e2⟩ := ih (by dsimp only; exact hsg) h
                  refine ⟨?_, e2⟩
                  have := CleanEffects.leaves hact hv hz (Or.inr ⟨j, w, hlast, hw, hwb⟩) e1
                  convert this using 1; ring
                · simp at h1
        · simp at h

theorem cleanup_effect (hC : NoSelfConsol E) {net slot} {s s' : State} (hs : Sorted s.vals)
    (h : cleanup E net s slot = .ok (s', true)) : CleanupEffect E net slot s s' := by
  have hf : slotOrZero (slotFork1 net) = cleanupFrom net := by
    unfold slotOrZero slotFork1 cleanupFrom mainnet holesky hoodi
    split
    · rfl
    · split
      · rfl
      · split <;> rfl
  have he : slotOrZero (slotElectra net) = consolidationsFrom net := by
    unfold slotOrZero slotElectra consolidationsFrom mainnet hoodi
    split
    · rfl
    · split <;> rfl
  unfold cleanup at h
  rw [hf, he] at h
  split at h
  · rename_i hlt
    simp only [Except.ok.injEq, Prod.mk.injEq, and_true] at h
    subst h; exact .early hlt
  · rename_i hge
    simp only at h
    split at h
    · rename_i hn
      simp only [Except.ok.injEq, Prod.mk.injEq, and_true] at h
      subst h
      refine .empty ?_
      have := (shuffle_perm hE s.tick (VMap.keys s.vals)).length_eq
      rw [hn] at this
      simp only [List.length_nil, VMap.keys, List.length_map] at this
      exact List.length_eq_zero_iff.mp this.symm
    · split at h
      · simp at h
      · rename_i cs hcs
        split at h
        · simp at h
        · rename_i vs hvs
          simp only [bind_ok] at h
          obtain ⟨⟨s1, tot, go⟩, h1, h⟩ := h
          simp only at h
          have hgo : go = true := by
            by_contra hg
            simp only [Bool.not_eq_true] at hg
            rw [hg] at h; simp at h
          subst hgo
          have hcs1 : consolidationsFrom net ≤ slot → E.consol s.tick slot = some cs := by
            intro hle; rw [if_pos hle] at hcs; exact hcs
          have hcs2 : slot < consolidationsFrom net → cs = [] := by
            intro hlt
            rw [if_neg (by omega)] at hcs
            simpa using hcs.symm
          have hself : ∀ p ∈ cs, p.1 ≠ p.2 := by
            by_cases hle : consolidationsFrom net ≤ slot
            · exact hC _ _ _ (hcs1 hle)
            · rw [hcs2 (by omega)]; simp
          obtain ⟨e1, e2⟩ := cleanLoop_effects hself (s := { s with tick := s.tick + 2 }) hs h1
          rw [sub_zero] at e1
          have hidx : ∀ i, (∃ u ∈ vs, u.index = i) ↔ (VMap.get s.vals i).isSome := by
            intro i
            rw [get_isSome_iff, ← (shuffle_perm hE s.tick (VMap.keys s.vals)).mem_iff]
            obtain ⟨k1, k2, k3⟩ := getSet_some hvs
            constructor
            · rintro ⟨u, hu, rfl⟩; exact hX _ _ _ _ k1 u hu
            · exact k3 i
          refine .done (by omega) hcs1 hcs2 (getSet_some hvs).1 hidx (shuffle_perm hE _ vs) e1 ?_
          simp only [Bool.not_true, Bool.false_eq_true, if_false] at h
          split at h
          · rename_i hz
            simp only [bind_ok, Except.ok.injEq, Prod.mk.injEq, and_true] at h
            obtain ⟨s2, h2, rfl⟩ := h
            exact Or.inl ⟨hz, increaseAll_shares hE hX e2 h2⟩
          · rename_i hz
            simp only [Except.ok.injEq, Prod.mk.injEq, and_true] at h
            exact Or.inr ⟨not_not.mp hz, h.symm⟩

end
end Verif
