import Verif.Lemmas.Pays
/-
A slot in three stages: subscriptions, the proposal, everything after it.
-/
namespace Verif
open VMap

/-- oracle.go:214-229 between the subscriptions and the unsubscriptions -/
def proposalStage (E : Env) (net : Str) (s1 : State) (sb : SumBlock) : M State := do
  let s2 := if sb.type = .missed ∧ s1.isSubscribed sb.index then handleMissed s1 sb else s1
  let s3 ← (if sb.type = .okPoolBls then handleBls s2 sb else .ok s2)
  let s4 ← (if sb.type = .okPool then handleCorrect E net s3 sb else .ok s3)
  if sb.type = .wrongFee ∧ s4.isSubscribed sb.index then handleWrongFee E net s4 sb else .ok s4

/-- the state with the events of a block appended to the logs and the fee updated -/
def logged (o : Oracle) (b : FullBlock) (fee : Int) : State :=
  { o.st with
    fee := fee
    subs := o.st.subs ++ b.events.subs
    unsubs := o.st.unsubs ++ b.events.unsubs
    ether := o.st.ether ++ b.events.ether }

/-- what may justify operations after the proposal -/
def Late (E : Env) (slot : Nat) (b : FullBlock) (sb : SumBlock) (dons : List EtherEvent) : Op → Prop :=
  Cause E slot 0 { b with events := { b.events with subs := [] } } { sb with type := .unknown } dons

theorem not_ownerSubscribes_nil {b : FullBlock} {i ev w v} :
    ¬ OwnerSubscribes { b with events := { b.events with subs := [] } } i ev w v := by
  rintro ⟨h, _⟩; simp at h

/-- the record of a validator during the late stage -/
theorem Late.vstep {E slot b sb dons op i f v v'} (hl : Late E slot b sb dons op)
    (hs : VStep i f op v v') :
    v' = v ∨
    (∃ y, Earning v ∧ v' = { v with pend := v.pend + y }) ∨
    (∃ j y, v.status ≠ .banned ∧ slot % 1200 = 0 ∧ NotActive E slot j ∧
      v' = { v with pend := v.pend + y }) ∨
    ((OwnerUnsubscribes b i ∨ (slot % 1200 = 0 ∧ NotActive E slot i)) ∧
      v' = { v with status := transition v.status .unsubscribe, pend := 0 }) ∨
    ((∃ ev ∈ b.events.bans, ev.validatorId = i) ∧
      v' = { v with status := transition v.status .manualBan, pend := 0 }) ∨
    ((∃ ev ∈ b.events.unbans, ev.validatorId = i) ∧
      v' = { v with status := transition v.status .manualUnban }) := by
  unfold Late at hl
  cases hs with
  | same => exact Or.inl rfl
  | adv e v he =>
    cases e <;> simp only [Cause, false_and, reduceCtorEq] at hl
    · obtain ⟨ev, w, v, h, _⟩ := hl; exact absurd h not_ownerSubscribes_nil
    · exact Or.inr (Or.inr (Or.inr (Or.inr (Or.inr ⟨hl, rfl⟩))))
  | seize e v he =>
    cases e <;> simp only [Cause, false_and, reduceCtorEq] at hl
    · exact Or.inr (Or.inr (Or.inr (Or.inl ⟨hl, rfl⟩)))
    · exact Or.inr (Or.inr (Or.inr (Or.inr (Or.inl ⟨hl, rfl⟩))))
  | moveOut j v =>
    obtain ⟨h1, h2, _⟩ := hl
    exact Or.inr (Or.inr (Or.inr (Or.inl ⟨Or.inr ⟨h1, h2⟩, rfl⟩)))
  | moveIn j v y hb =>
    obtain ⟨h1, h2, _⟩ := hl
    exact Or.inr (Or.inr (Or.inl ⟨j, y, hb, h1, h2, rfl⟩))
  | subType t v =>
    cases t with
    | manual => obtain ⟨ev, w, v, h, _⟩ := hl; exact absurd h not_ownerSubscribes_nil
    | auto => simp [Cause] at hl
  | toAcc v => obtain ⟨ev, w, v, h⟩ := hl; exact absurd h not_ownerSubscribes_nil
  | toPend v => obtain ⟨ev, w, v, h, _⟩ := hl; exact absurd h not_ownerSubscribes_nil
  | consol v => simp [Cause] at hl
  | dist sh fees v y he => exact Or.inr (Or.inl ⟨y, he, rfl⟩)

section
variable {E : Env} (hE : ValidEnv E) (hX : ExactEnv E) (hC : NoSelfConsol E)

theorem proposal_runs (hE : ValidEnv E) (hX : ExactEnv E) {net} {b : FullBlock} {sb dons coll slot} {s s' : State}
    (hs : Sorted s.vals) (h : proposalStage E net s sb = .ok s') :
    ∃ r, Runs False (Cause E slot coll b sb dons) s 0 s' 0 r := by
  unfold proposalStage at h
  simp only [bind_ok] at h
  obtain ⟨s3, h3, s4, h4, h5⟩ := h
  have r2 : Runs False (Cause E slot coll b sb dons) s 0
      (if sb.type = .missed ∧ s.isSubscribed sb.index then handleMissed s sb else s) 0 0 := by
    split
    · rename_i hm; exact handleMissed_runs hm.1
    · exact Runs.refl _ _ _ _
  have r3 : ∃ r, Runs False (Cause E slot coll b sb dons)
      (if sb.type = .missed ∧ s.isSubscribed sb.index then handleMissed s sb else s) 0 s3 0 r := by
    split at h3
    · obtain ⟨r, _, hr⟩ := handleBls_runs (E := E) (slot := slot) (coll := coll) (b := b)
        (dons := dons) (x := False) h3
      exact ⟨r, hr⟩
    · simp only [Except.ok.injEq] at h3; rw [← h3]; exact ⟨0, Runs.refl _ _ _ _⟩
  obtain ⟨r3, q3⟩ := r3
  have q3 := r2.trans q3
  have r4 : ∃ r, Runs False (Cause E slot coll b sb dons) s3 0 s4 0 r := by
    split at h4
    · rename_i ho
      obtain ⟨r, _, hr⟩ := handleCorrect_runs hE hX (slot := slot) (coll := coll) (b := b)
        (dons := dons) (x := False) ho (q3.sorted hs) (fun h => h.elim) h4
      exact ⟨r, hr⟩
    · simp only [Except.ok.injEq] at h4; rw [← h4]; exact ⟨0, Runs.refl _ _ _ _⟩
  obtain ⟨r4, q4⟩ := r4
  have q4 := q3.trans q4
  have r5 : Runs False (Cause E slot coll b sb dons) s4 0 s' 0 0 := by
    split at h5
    · rename_i hw
      exact handleWrongFee_runs hE hX hw.1 (q4.sorted hs) (fun h => h.elim) h5
    · simp only [Except.ok.injEq] at h5
      rw [← h5]; exact Runs.refl _ _ _ _
  exact ⟨_, q4.trans r5⟩

include hE hX hC

theorem slot_stages {o o' : Oracle} {b : FullBlock} {n : Nat} (hs : Sorted o.st.vals)
    (h : advanceState E o b = .ok (o', some n)) :
    ∃ sb dons s1 s5 ops, n = o.st.nextSlot ∧ summarize o.st b o.cfg.poolAddr = .ok sb ∧
      getDonations b o.cfg.poolAddr = .ok dons ∧
      handleSubs (logged o b o'.st.fee) b.events.subs b.valsSubs = .ok s1 ∧ Sorted s1.vals ∧
      proposalStage E o.cfg.network s1 sb = .ok s5 ∧ Sorted s5.vals ∧
      Path False ops (s5.bal 0) (o'.st.bal 0) ∧ ∀ op ∈ ops, Late E n b sb dons op := by
  obtain ⟨o1, sb, dons, sF, s2, h1, h2, hv, hsb, h3, hd, ha, hcl, ho', hn⟩ := advanceState_ok h
  have hfr := validateConfig_frame hv
  have hvals : o1.st.vals = o.st.vals := by rw [hfr]
  have hnet : o1.cfg.network = o.cfg.network := by rw [hfr]
  have hpa : o1.cfg.poolAddr = o.cfg.poolAddr := by rw [hfr]
  have hns : o1.st.nextSlot = o.st.nextSlot := by rw [hfr]
  have hs1 : Sorted o1.st.vals := by rw [hvals]; exact hs
  have ha0 := ha
  unfold applyBlock at ha
  simp only [bind_ok] at ha
  obtain ⟨s1, a1, s3, a3, s4, a4, s5, a5, s6, a6, s7, a7, s8, a8, a9⟩ := ha
  obtain ⟨_, _, _, k1⟩ := applyBlock_runs (x := False) hE hX (slot := o.st.nextSlot) hs1 (by simp) ha0
  have hsFn : sF.nextSlot = o.st.nextSlot := by
    have := congrArg State.nextSlot k1.rest
    exact this.trans hns
  have hfeeF : sF.fee = o1.st.fee := by have := congrArg State.fee k1.rest; exact this
  have k2 : Runs False (Cause E o.st.nextSlot o.st.collateral b sb dons) sF 0 s2 0 0 := by
    split at hcl
    · rename_i hsl
      rw [hsFn] at hcl hsl
      exact cleanup_runs hE hX hC hsl (k1.sorted hs1) (by simp) hcl
    · simp only [Except.ok.injEq, Prod.mk.injEq, and_true] at hcl
      rw [← hcl]; exact Runs.refl _ _ _ _
  have hfee : o'.st.fee = o1.st.fee := by
    have e2 : s2.fee = sF.fee := by have := congrArg State.fee k2.rest; exact this
    rw [ho']; exact e2.trans hfeeF
  have hn' : n = o.st.nextSlot := by
    rw [hn]
    have := congrArg State.nextSlot k2.rest
    exact this.trans hsFn
  have hlog : { o1.st with
      subs := o1.st.subs ++ b.events.subs
      unsubs := o1.st.unsubs ++ b.events.unsubs
      ether := o1.st.ether ++ b.events.ether } = logged o b o'.st.fee := by
    unfold logged; rw [hfee, hfr]
  rw [hlog] at a1
  have q1 := handleSubs_runs (E := E) (slot := o.st.nextSlot) (b := b) (sb := sb)
    (dons := dons) (x := False) rfl a1
  have hso1 : Sorted s1.vals := q1.sorted (s := logged o b o'.st.fee) hs
  have hprop : proposalStage E o.cfg.network s1 sb = .ok s5 := by
    unfold proposalStage
    simp only [bind_ok]
    rw [← hnet]
    exact ⟨s3, a3, s4, a4, a5⟩
  obtain ⟨r5, q5⟩ := proposal_runs hE hX (b := b) (dons := dons) (coll := 0) (slot := n) hso1 hprop
  have hso5 := q5.sorted hso1
  have l6 : Runs False (Late E n b sb dons) s5 0 s6 0 0 :=
    handleUnsubs_runs hE hX (b := { b with events := { b.events with subs := [] } }) hso5 (by simp) a6
  have l7 : Runs False (Late E n b sb dons) s6 0 s7 0 _ :=
    handleDonations_runs hE hX (b := { b with events := { b.events with subs := [] } })
      (l6.sorted hso5) (by simp) a7
  have m7 := l6.trans l7
  have l8 : Runs False (Late E n b sb dons) s7 0 s8 0 _ :=
    handleBans_runs hE hX (b := { b with events := { b.events with subs := [] } })
      (m7.sorted hso5) (by simp) a8
  have m8 := m7.trans l8
  have l9 : Runs False (Late E n b sb dons) s8 0 sF 0 _ :=
    handleUnbans_runs (b := { b with events := { b.events with subs := [] } }) a9
  have m9 := m8.trans l9
  have l10 : Runs False (Late E n b sb dons) sF 0 s2 0 0 := by
    split at hcl
    · rename_i hsl
      rw [hsFn] at hcl hsl
      rw [hn']
      exact cleanup_runs hE hX hC hsl (k1.sorted hs1) (by simp) hcl
    · simp only [Except.ok.injEq, Prod.mk.injEq, and_true] at hcl
      rw [← hcl]; exact Runs.refl _ _ _ _
  obtain ⟨⟨ops, hp, _, hall⟩, _⟩ := m9.trans l10
  refine ⟨sb, dons, s1, s5, ops, hn', ?_, ?_, a1, hso1, hprop, hso5, ?_, hall⟩
  · rw [← summarize_congr hvals, ← hpa]; exact hsb
  · rw [← hpa]; exact hd
  · have e2 : o'.st.bal 0 = s2.bal 0 := by rw [ho']; rfl
    rw [e2]; exact hp

/-- finer stages: the unbans are separated from what comes before and after -/
theorem slot_stages2 {o o' : Oracle} {b : FullBlock} {n : Nat} (hs : Sorted o.st.vals)
    (h : advanceState E o b = .ok (o', some n)) :
    ∃ sb dons s1 s5 s8 s9 ops1 ops2, n = o.st.nextSlot ∧ summarize o.st b o.cfg.poolAddr = .ok sb ∧
      getDonations b o.cfg.poolAddr = .ok dons ∧
      handleSubs (logged o b o'.st.fee) b.events.subs b.valsSubs = .ok s1 ∧ Sorted s1.vals ∧
      proposalStage E o.cfg.network s1 sb = .ok s5 ∧ Sorted s5.vals ∧
      Path False ops1 (s5.bal 0) (s8.bal 0) ∧
      (∀ op ∈ ops1, Late E 1 { b with events := { b.events with unbans := [] } } sb dons op) ∧
      handleUnbans s8 b.events.unbans = .ok s9 ∧
      Path False ops2 (s9.bal 0) (o'.st.bal 0) ∧
      (∀ op ∈ ops2, Late E n { b with events := {} } sb [] op) ∧
      (n % 1200 ≠ 0 → o'.st.vals = s9.vals) := by
  obtain ⟨o1, sb, dons, sF, s2, h1, h2, hv, hsb, h3, hd, ha, hcl, ho', hn⟩ := advanceState_ok h
  have hfr := validateConfig_frame hv
  have hvals : o1.st.vals = o.st.vals := by rw [hfr]
  have hnet : o1.cfg.network = o.cfg.network := by rw [hfr]
  have hpa : o1.cfg.poolAddr = o.cfg.poolAddr := by rw [hfr]
  have hns : o1.st.nextSlot = o.st.nextSlot := by rw [hfr]
  have hs1 : Sorted o1.st.vals := by rw [hvals]; exact hs
  have ha0 := ha
  unfold applyBlock at ha
  simp only [bind_ok] at ha
  obtain ⟨s1, a1, s3, a3, s4, a4, s5, a5, s6, a6, s7, a7, s8, a8, a9⟩ := ha
  obtain ⟨_, _, _, k1⟩ := applyBlock_runs (x := False) hE hX (slot := o.st.nextSlot) hs1 (by simp) ha0
  have hsFn : sF.nextSlot = o.st.nextSlot := by
    have := congrArg State.nextSlot k1.rest
    exact this.trans hns
  have hfeeF : sF.fee = o1.st.fee := by have := congrArg State.fee k1.rest; exact this
  have k2 : Runs False (Cause E o.st.nextSlot o.st.collateral b sb dons) sF 0 s2 0 0 := by
    split at hcl
    · rename_i hsl
      rw [hsFn] at hcl hsl
      exact cleanup_runs hE hX hC hsl (k1.sorted hs1) (by simp) hcl
    · simp only [Except.ok.injEq, Prod.mk.injEq, and_true] at hcl
      rw [← hcl]; exact Runs.refl _ _ _ _
  have hfee : o'.st.fee = o1.st.fee := by
    have e2 : s2.fee = sF.fee := by have := congrArg State.fee k2.rest; exact this
    rw [ho']; exact e2.trans hfeeF
  have hn' : n = o.st.nextSlot := by
    rw [hn]
    have := congrArg State.nextSlot k2.rest
    exact this.trans hsFn
  have hlog : { o1.st with
      subs := o1.st.subs ++ b.events.subs
      unsubs := o1.st.unsubs ++ b.events.unsubs
      ether := o1.st.ether ++ b.events.ether } = logged o b o'.st.fee := by
    unfold logged; rw [hfee, hfr]
  rw [hlog] at a1
  have q1 := handleSubs_runs (E := E) (slot := o.st.nextSlot) (b := b) (sb := sb)
    (dons := dons) (x := False) rfl a1
  have hso1 : Sorted s1.vals := q1.sorted (s := logged o b o'.st.fee) hs
  have hprop : proposalStage E o.cfg.network s1 sb = .ok s5 := by
    unfold proposalStage
    simp only [bind_ok]
    rw [← hnet]
    exact ⟨s3, a3, s4, a4, a5⟩
  obtain ⟨r5, q5⟩ := proposal_runs hE hX (b := b) (dons := dons) (coll := 0) (slot := n) hso1 hprop
  have hso5 := q5.sorted hso1
  have l6 : Runs False (Late E 1 { b with events := { b.events with unbans := [] } } sb dons) s5 0 s6 0 0 :=
    handleUnsubs_runs hE hX (b := { b with events := { b.events with subs := [], unbans := [] } }) hso5 (by simp) a6
  have l7 : Runs False (Late E 1 { b with events := { b.events with unbans := [] } } sb dons) s6 0 s7 0 _ :=
    handleDonations_runs hE hX (b := { b with events := { b.events with subs := [], unbans := [] } })
      (l6.sorted hso5) (by simp) a7
  have m7 := l6.trans l7
  have l8 : Runs False (Late E 1 { b with events := { b.events with unbans := [] } } sb dons) s7 0 s8 0 _ :=
    handleBans_runs hE hX (b := { b with events := { b.events with subs := [], unbans := [] } })
      (m7.sorted hso5) (by simp) a8
  obtain ⟨⟨ops1, hp1, _, hall1⟩, _⟩ := m7.trans l8
  have l10 : Runs False (Late E n { b with events := {} } sb []) sF 0 s2 0 0 := by
    split at hcl
    · rename_i hsl
      rw [hsFn] at hcl hsl
      rw [hn']
      exact cleanup_runs hE hX hC hsl (k1.sorted hs1) (by simp) hcl
    · simp only [Except.ok.injEq, Prod.mk.injEq, and_true] at hcl
      rw [← hcl]; exact Runs.refl _ _ _ _
  obtain ⟨⟨ops2, hp2, _, hall2⟩, _⟩ := l10
  refine ⟨sb, dons, s1, s5, s8, sF, ops1, ops2, hn', ?_, ?_, a1, hso1, hprop, hso5, hp1, hall1, a9, ?_, hall2, ?_⟩
  · rw [← summarize_congr hvals, ← hpa]; exact hsb
  · rw [← hpa]; exact hd
  · have e2 : o'.st.bal 0 = s2.bal 0 := by rw [ho']; rfl
    rw [e2]; exact hp2
  · intro hne
    rw [hn', ← hsFn] at hne
    rw [if_neg hne] at hcl
    simp only [Except.ok.injEq, Prod.mk.injEq, and_true] at hcl
    rw [ho', ← hcl]; rfl

end

/-- A block with no subscription, unsubscription, ban or unban events. -/
theorem slot_quiet {E : Env} {o o' : Oracle} {b : FullBlock} {n : Nat} {sb}
    (hsb : summarize o.st b o.cfg.poolAddr = .ok sb)
    (h1 : b.events.subs = []) (h2 : b.events.unsubs = []) (h3 : b.events.bans = [])
    (h4 : b.events.unbans = []) (hf : b.events.poolFee = [])
    (hd : getDonations b o.cfg.poolAddr = .ok [])
    (h : advanceState E o b = .ok (o', some n)) :
    n = o.st.nextSlot ∧
    ∃ s5 s2, proposalStage E o.cfg.network { o.st with ether := o.st.ether ++ b.events.ether } sb = .ok s5 ∧
      (if s5.nextSlot % 1200 = 0 then cleanup E o.cfg.network s5 s5.nextSlot else .ok (s5, true))
        = .ok (s2, true) ∧ o'.cfg = o.cfg ∧ o'.st = finishSlot s2 sb := by
  obtain ⟨_, _, _, _, _, _, _, _, _, _, hn, _⟩ := slot_frame h
  refine ⟨hn, ?_⟩
  obtain ⟨o1, sb', dons, sF, s2, k1, k2, hv, hsb', k3, hd', ha, hcl, ho', hn⟩ := advanceState_ok h
  have ho1 : o1 = o := by
    rcases validateConfig_ok hv with ⟨h, _⟩ | ⟨f, h, _⟩
    · exact h
    · rw [hf] at h; simp at h
  subst ho1
  rw [hsb] at hsb'; simp only [Except.ok.injEq] at hsb'; subst hsb'
  rw [hd] at hd'; simp only [Except.ok.injEq] at hd'; subst hd'
  unfold applyBlock at ha
  simp only [bind_ok] at ha
  obtain ⟨s1, a1, s3, a3, s4, a4, s5, a5, s6, a6, s7, a7, s8, a8, a9⟩ := ha
  rw [h1, h2, List.append_nil, List.append_nil] at a1
  have e1 : s1 = { o1.st with ether := o1.st.ether ++ b.events.ether } := by
    unfold handleSubs at a1
    simp only [List.map_nil, sameBlock, Bool.not_true, Bool.false_eq_true, if_false, List.zip_nil_left,
      subLoop] at a1
    split at a1
    · simp at a1
    · simp only [Except.ok.injEq] at a1; exact a1.symm
  rw [e1] at a3
  have e6 : s6 = s5 := by
    unfold handleUnsubs at a6
    rw [h2] at a6
    simp only [List.map_nil, sameBlock, Bool.not_true, Bool.false_eq_true, if_false, List.zip_nil_left,
      unsubLoop] at a6
    split at a6
    · simp at a6
    · simp only [Except.ok.injEq] at a6; exact a6.symm
  have e7 : s7 = s6 := by
    simp only [handleDonations, List.map_nil, sameBlock, Bool.not_true, Bool.false_eq_true, if_false,
      donLoop, Except.ok.injEq] at a7
    exact a7.symm
  have e8 : s8 = s7 := by
    rw [h3] at a8
    simp only [handleBans, if_true, Except.ok.injEq] at a8
    exact a8.symm
  have e9 : sF = s8 := by
    rw [h4] at a9
    simp only [handleUnbans, List.map_nil, sameBlock, Bool.not_true, Bool.false_eq_true, if_false,
      unbanLoop, Except.ok.injEq] at a9
    exact a9.symm
  have e : sF = s5 := e9.trans (e8.trans (e7.trans e6))
  subst e
  refine ⟨sF, s2, ?_, hcl, by rw [ho'], by rw [ho']⟩
  unfold proposalStage
  simp only [bind_ok]
  exact ⟨s3, a3, s4, a4, a5⟩

end Verif
