import Verif.Lemmas.Runs3
/-
One whole slot: inversion of advanceState, effect on balances, on the logs and on the rest.
-/
namespace Verif
open VMap

/-! ### Configuration step -/

/-- What `validateConfig` can do when it succeeds. -/
theorem validateConfig_ok {o o1 : Oracle} {b : FullBlock} (h : validateConfig o b = .ok (o1, true)) :
    (o1 = o ∧ b.events.poolFee = []) ∨
    (∃ f, b.events.poolFee = [f] ∧ scheduledFee o.cfg.network b.dutySlot = some (i64 f) ∧
      o1 = { cfg := { o.cfg with fee := i64 f }, st := { o.st with fee := i64 f } }) := by
  unfold validateConfig at h
  simp only at h
  split at h
  · simp at h
  · rename_i hlen
    simp only [gt_iff_lt, not_or, not_lt] at hlen
    cases hpf : b.events.poolFee with
    | nil =>
      rw [hpf] at h
      simp only at h
      rw [bind_ok] at h
      obtain ⟨r, hr, h⟩ := h
      left
      refine ⟨?_, rfl⟩
      split at h
      · simp at h
      · split at h
        · simp at h
        · split at h
          · simp at h
          · simp only [Except.ok.injEq, Prod.mk.injEq, and_true] at h; exact h.symm
    | cons f fs =>
      right
      have hfs : fs = [] := by
        have := hlen.1
        rw [hpf, List.length_cons] at this
        exact List.eq_nil_of_length_eq_zero (by omega)
      subst hfs
      refine ⟨f, rfl, ?_⟩
      rw [hpf] at h
      simp only at h
      cases hsf : scheduledFee o.cfg.network b.dutySlot with
      | none => rw [hsf] at h; simp at h
      | some e =>
        rw [hsf] at h
        simp only at h
        by_cases he : e = i64 f
        · rw [if_neg (by simpa using he)] at h
          simp only at h
          rw [bind_ok] at h
          obtain ⟨r, hr, h⟩ := h
          refine ⟨by rw [he], ?_⟩
          split at h
          · simp at h
          · split at h
            · simp at h
            · split at h
              · simp at h
              · simp only [Except.ok.injEq, Prod.mk.injEq, and_true] at h; exact h.symm
        · rw [if_pos (by simpa using he)] at h
          simp at h

/-- Everything but the fee is untouched by a successful configuration check. -/
theorem validateConfig_frame {o o1 : Oracle} {b : FullBlock} (h : validateConfig o b = .ok (o1, true)) :
    o1 = { cfg := { o.cfg with fee := o1.cfg.fee }, st := { o.st with fee := o1.st.fee } } := by
  rcases validateConfig_ok h with ⟨h1, _⟩ | ⟨f, _, _, h3⟩
  · subst h1; rfl
  · subst h3; rfl

/-! ### Inversion -/

theorem advanceState_ok {E o b o' n} (h : advanceState E o b = .ok (o', some n)) :
    ∃ o1 sb dons s1 s2,
      o.st.nextSlot = u64 (o.st.latestSlot + 1) ∧ o.st.nextSlot = b.dutySlot ∧
      validateConfig o b = .ok (o1, true) ∧ summarize o1.st b o1.cfg.poolAddr = .ok sb ∧
      o1.st.nextSlot = sb.slot ∧ getDonations b o1.cfg.poolAddr = .ok dons ∧
      applyBlock E o1.cfg.network o1.st b sb dons = .ok s1 ∧
      (if s1.nextSlot % 1200 = 0 then cleanup E o1.cfg.network s1 s1.nextSlot else .ok (s1, true))
        = .ok (s2, true) ∧
      o' = { o1 with st := finishSlot s2 sb } ∧ n = s2.nextSlot := by
  unfold advanceState at h
  split at h
  · simp at h
  · rename_i h1
    split at h
    · simp at h
    · rename_i h2
      rw [bind_ok] at h
      obtain ⟨⟨o1, c⟩, hv, h⟩ := h
      simp only at h
      split at h
      · simp at h
      · rename_i hc
        simp only [Bool.not_eq_true', Bool.not_eq_false] at hc
        subst hc
        rw [bind_ok] at h
        obtain ⟨sb, hsb, h⟩ := h
        split at h
        · simp at h
        · rename_i h3
          rw [bind_ok] at h
          obtain ⟨dons, hd, h⟩ := h
          rw [bind_ok] at h
          obtain ⟨s1, ha, h⟩ := h
          rw [bind_ok] at h
          obtain ⟨⟨s2, cl⟩, hcl, h⟩ := h
          simp only at h
          split at h
          · simp at h
          · rename_i hcl'
            simp only [Bool.not_eq_true', Bool.not_eq_false] at hcl'
            subst hcl'
            simp only [Except.ok.injEq, Prod.mk.injEq, Option.some.injEq] at h
            exact ⟨o1, sb, dons, s1, s2, not_not.mp h1, not_not.mp h2, hv, hsb, not_not.mp h3, hd, ha, hcl,
              h.1.symm, h.2.symm⟩

theorem summarize_congr {s s' : State} (h : s.vals = s'.vals) (b : FullBlock) (pool : Str) :
    summarize s b pool = summarize s' b pool := by
  unfold summarize
  have : s.isSubscribed = s'.isSubscribed := by
    funext i; unfold State.isSubscribed; rw [h]
  rw [this]

theorem summarize_slot {s b pool sb} (h : summarize s b pool = .ok sb) :
    sb.slot = b.dutySlot ∧ sb.index = b.dutyIndex ∧ sb.key = b.dutyKey ∧
      (sb.type = .missed ↔ b.cons = none) ∧ sb.type ≠ .unknown := by
  unfold summarize at h
  rw [bind_ok] at h
  obtain ⟨⟨w, wt⟩, hw, h⟩ := h
  simp only at h
  split at h
  · rename_i hc
    simp only [Except.ok.injEq] at h
    rw [← h, hc]; simp
  · rename_i c hc
    simp only [bind_ok] at h
    obtain ⟨p, hp, ⟨r, tp, rt⟩, hsr, nb, hnb, h⟩ := h
    simp only [Except.ok.injEq] at h
    rw [← h, hc]
    refine ⟨rfl, rfl, rfl, ?_, ?_⟩
    · simp only
      cases tp <;> cases wt <;> simp
    · simp only
      cases tp <;> cases wt <;> simp

/-! ### Effect of a slot on balances -/

section
variable {E : Env} (hE : ValidEnv E) (hX : ExactEnv E) (hC : NoSelfConsol E)
include hE hX hC

theorem slot_runs {x : Prop} {o o' : Oracle} {b : FullBlock} {n : Nat} (hs : Sorted o.st.vals)
    (hx : x → 0 ≤ o'.st.fee ∧ PostFork1 o.cfg.network o.st.nextSlot ∧ SaneBalances E)
    (h : advanceState E o b = .ok (o', some n)) :
    ∃ sb dons r ops, summarize o.st b o.cfg.poolAddr = .ok sb ∧
      getDonations b o.cfg.poolAddr = .ok dons ∧
      ((sb.type = .okPool ∨ sb.type = .okPoolBls) → sb.reward = some r) ∧
      (sb.type ≠ .okPool → sb.type ≠ .okPoolBls → r = 0) ∧
      Path x ops (o.st.bal 0) (o'.st.bal 0) ∧
      recvTotal ops = (b.events.subs.map (·.collateral)).sum + r + (dons.map (·.amount)).sum ∧
      (∀ op ∈ ops, Cause E n o.st.collateral b sb dons op) ∧ n = o.st.nextSlot ∧
      o'.cfg = { o.cfg with fee := o'.cfg.fee } ∧
      o'.st.rest = { o.st.rest with
        subs := o.st.subs ++ b.events.subs, unsubs := o.st.unsubs ++ b.events.unsubs,
        ether := o.st.ether ++ b.events.ether, fee := o'.st.fee,
        latestSlot := o.st.nextSlot, nextSlot := u64 (o.st.nextSlot + 1),
        latestBlock := o'.st.latestBlock } := by
  obtain ⟨o1, sb, dons, s1, s2, h1, h2, hv, hsb, h3, hd, ha, hcl, ho', hn⟩ := advanceState_ok h
  have hfr := validateConfig_frame hv
  have hvals : o1.st.vals = o.st.vals := by rw [hfr]
  have hpool : o1.st.poolFees = o.st.poolFees := by rw [hfr]
  have hnet : o1.cfg.network = o.cfg.network := by rw [hfr]
  have hpa : o1.cfg.poolAddr = o.cfg.poolAddr := by rw [hfr]
  have hns : o1.st.nextSlot = o.st.nextSlot := by rw [hfr]
  have hcoll : o1.st.collateral = o.st.collateral := by rw [hfr]
  have hs1 : Sorted o1.st.vals := by rw [hvals]; exact hs
  have hfee : o'.st.fee = s2.fee := by rw [ho']; rfl
  -- first the part without the non-negativity hypothesis, to learn that the fee is kept
  have k1 := applyBlock_runs (x := False) hE hX (slot := o.st.nextSlot) hs1 (by simp) ha
  obtain ⟨_, _, _, k1⟩ := k1
  have hs1n : s1.nextSlot = o.st.nextSlot := by
    have := congrArg State.nextSlot k1.rest
    exact this.trans hns
  have k2 : Runs False (Cause E o.st.nextSlot o.st.collateral b sb dons) s1 0 s2 0 0 := by
    split at hcl
    · rename_i hsl
      rw [hs1n] at hcl hsl
      exact cleanup_runs hE hX hC hsl (k1.sorted hs1) (by simp) hcl
    · simp only [Except.ok.injEq, Prod.mk.injEq, and_true] at hcl
      rw [← hcl]; exact Runs.refl _ _ _ _
  have hfee2 : s2.fee = o1.st.fee := by
    have e1 := congrArg State.fee k1.rest
    have e2 := congrArg State.fee k2.rest
    exact e2.trans e1
  have hx1 : x → GoodRewards E o1.cfg.network o1.st := by
    intro hh
    have := hx hh
    unfold GoodRewards
    rw [← hfee2, ← hfee, hnet, hns]; exact this
  obtain ⟨r, hr1, hr2, q1⟩ := applyBlock_runs (x := x) hE hX (slot := o.st.nextSlot) hs1 hx1 ha
  have q2 : Runs x (Cause E o.st.nextSlot o.st.collateral b sb dons) s1 0 s2 0 0 := by
    split at hcl
    · rename_i hsl
      rw [hs1n] at hcl hsl
      exact cleanup_runs hE hX hC hsl (q1.sorted hs1) (good_rest q1.rest hx1) hcl
    · simp only [Except.ok.injEq, Prod.mk.injEq, and_true] at hcl
      rw [← hcl]; exact Runs.refl _ _ _ _
  rw [hcoll] at q1
  obtain ⟨⟨ops, hp, hrt, hall⟩, hrest⟩ := q1.trans q2
  have hn' : n = o.st.nextSlot := by
    rw [hn]
    have := congrArg State.nextSlot hrest
    exact this.trans hns
  refine ⟨sb, dons, r, ops, ?_, ?_, hr1, hr2, ?_, ?_, ?_, hn', ?_, ?_⟩
  · rw [← summarize_congr hvals, ← hpa]; exact hsb
  · rw [← hpa]; exact hd
  · have e1 : o.st.bal 0 = o1.st.bal 0 := by unfold State.bal; rw [hvals, hpool]
    have e2 : o'.st.bal 0 = s2.bal 0 := by rw [ho']; rfl
    rw [e1, e2]
    exact hp
  · rw [hrt]; ring
  · rw [hn']; exact hall
  · rw [ho', hfr]
  · have e0 : o'.st.rest = (finishSlot s2 sb).rest := by rw [ho']
    have e1 : (finishSlot s2 sb).rest = { s2.rest with
        latestSlot := s2.nextSlot, nextSlot := u64 (s2.nextSlot + 1),
        latestBlock := (finishSlot s2 sb).latestBlock } := rfl
    have e2 : s2.nextSlot = o.st.nextSlot := by
      rw [← hn]; exact hn'
    have e3 : o'.st.latestBlock = (finishSlot s2 sb).latestBlock := by rw [ho']
    rw [e0, e1, hrest, e2, hfee, hfee2, e3]
    simp only [State.rest]
    rw [hfr]

end

/-! ### Everything but the balances (no assumption on the environment) -/

/-- the state without validators, pool fees and the ghost counter -/
def State.frame (s : State) : State := { s with vals := [], poolFees := 0, tick := 0 }

theorem increaseAll_frame {E net s r s'} (h : increaseAll E net s r = .ok s') : s'.frame = s.frame := by
  unfold increaseAll at h
  simp only at h
  split at h
  · simp only [Except.ok.injEq] at h; rw [← h]; rfl
  · split at h
    · simp at h
    · simp only [bind_ok] at h
      obtain ⟨_, _, _, _, _, _, h⟩ := h
      simp only [Except.ok.injEq] at h; rw [← h]; rfl

theorem incPending_frame {s s' : State} {i y} (h : s.incPending i y = .ok s') : s'.frame = s.frame := by
  unfold State.incPending at h
  split at h
  · simp only [Except.ok.injEq] at h; rw [← h]; rfl
  · simp at h

theorem incAccumulated_frame {s s' : State} {i y} (h : s.incAccumulated i y = .ok s') :
    s'.frame = s.frame := by
  unfold State.incAccumulated at h
  split at h
  · simp only [Except.ok.injEq] at h; rw [← h]; rfl
  · simp at h

theorem resetPending_frame {s s' : State} {i} (h : s.resetPending i = .ok s') : s'.frame = s.frame := by
  unfold State.resetPending at h
  split at h
  · simp only [Except.ok.injEq] at h; rw [← h]; rfl
  · simp at h

theorem consolidate_frame {s s' : State} {i} (h : s.consolidate i = .ok s') : s'.frame = s.frame := by
  unfold State.consolidate at h
  split at h
  · simp only [Except.ok.injEq] at h; rw [← h]; rfl
  · simp at h

theorem subOne_frame {s s' : State} {ev v} (h : subOne s ev v = .ok s') : s'.frame = s.frame := by
  unfold subOne at h
  have key : ∀ y, (Except.ok (s.toPool y) : M State) = .ok s' → s'.frame = s.frame := by
    intro y h; simp only [Except.ok.injEq] at h; rw [← h]; rfl
  split at h
  · exact key _ h
  · split at h
    · simp at h
    · split at h
      · exact key _ h
      · split at h
        · exact key _ h
        · rw [bind_ok] at h
          obtain ⟨_, _, h⟩ := h
          split at h
          · exact key _ h
          · split at h
            · exact incAccumulated_frame h
            · split at h
              · exact incAccumulated_frame h
              · split at h
                · exact key _ h
                · split at h
                  · rw [bind_ok] at h
                    obtain ⟨s3, h3, h⟩ := h
                    simp only [Except.ok.injEq] at h
                    have := incPending_frame h3
                    rw [← h]
                    refine Eq.trans (Eq.trans rfl this) ?_
                    split <;> rfl
                  · exact key _ h

theorem subLoop_frame {l s s'} (h : subLoop l s = .ok s') : s'.frame = s.frame := by
  induction l generalizing s with
  | nil => simp only [subLoop, Except.ok.injEq] at h; rw [h]
  | cons p l ih =>
    simp only [subLoop, bind_ok] at h
    obtain ⟨s1, h1, h2⟩ := h
    rw [ih h2, subOne_frame h1]

theorem handleSubs_frame {s s' evs vals} (h : handleSubs s evs vals = .ok s') : s'.frame = s.frame := by
  unfold handleSubs at h
  split at h
  · simp at h
  · split at h
    · simp at h
    · exact subLoop_frame h

theorem unsubOne_frame {E net s s' ev v} (h : unsubOne E net s ev v = .ok s') : s'.frame = s.frame := by
  unfold unsubOne at h
  have key : (Except.ok s : M State) = .ok s' → s'.frame = s.frame := by
    intro h; simp only [Except.ok.injEq] at h; rw [← h]
  split at h
  · exact key h
  · split at h
    · simp at h
    · split at h
      · exact key h
      · rw [bind_ok] at h
        obtain ⟨_, _, h⟩ := h
        split at h
        · exact key h
        · split at h
          · simp only [bind_ok] at h
            obtain ⟨_, _, _, h2, h3⟩ := h
            rw [resetPending_frame h3, increaseAll_frame h2]; rfl
          · exact key h

theorem unsubLoop_frame {E net l s s'} (h : unsubLoop E net l s = .ok s') : s'.frame = s.frame := by
  induction l generalizing s with
  | nil => simp only [unsubLoop, Except.ok.injEq] at h; rw [h]
  | cons p l ih =>
    simp only [unsubLoop, bind_ok] at h
    obtain ⟨s1, h1, h2⟩ := h
    rw [ih h2, unsubOne_frame h1]

theorem handleUnsubs_frame {E net s s' evs vals} (h : handleUnsubs E net s evs vals = .ok s') :
    s'.frame = s.frame := by
  unfold handleUnsubs at h
  split at h
  · simp at h
  · split at h
    · simp at h
    · exact unsubLoop_frame h

theorem donLoop_frame {E net ds s s'} (h : donLoop E net ds s = .ok s') :
    s'.frame = { s.frame with donations := s.donations ++ ds } := by
  induction ds generalizing s with
  | nil => simp only [donLoop, Except.ok.injEq] at h; rw [h]; simp [State.frame]
  | cons d ds ih =>
    simp only [donLoop, bind_ok] at h
    obtain ⟨s1, h1, h2⟩ := h
    have e := increaseAll_frame h1
    have e2 : s1.donations = s.donations := by have := congrArg State.donations e; exact this
    rw [ih h2]
    simp only [e2, List.append_assoc, List.singleton_append]
    have : ({ s1 with donations := s.donations ++ [d] } : State).frame =
      { s1.frame with donations := s.donations ++ [d] } := rfl
    rw [this, e]

theorem handleDonations_frame {E net ds s s'} (h : handleDonations E net s ds = .ok s') :
    s'.frame = { s.frame with donations := s.donations ++ ds } := by
  unfold handleDonations at h
  split at h
  · simp at h
  · exact donLoop_frame h

theorem banLoop_frame {l s tot s' tot'} (h : banLoop l s tot = .ok (s', tot')) : s'.frame = s.frame := by
  induction l generalizing s tot with
  | nil => simp only [banLoop, Except.ok.injEq, Prod.mk.injEq] at h; rw [h.1]
  | cons ev l ih =>
    simp only [banLoop] at h
    split at h
    · exact ih h
    · simp only [bind_ok] at h
      obtain ⟨p, h1, s2, h2, h3⟩ := h
      rw [ih h3, resetPending_frame h2]; rfl

theorem handleBans_frame {E net s evs s'} (h : handleBans E net s evs = .ok s') : s'.frame = s.frame := by
  unfold handleBans at h
  split at h
  · simp only [Except.ok.injEq] at h; rw [h]
  · split at h
    · simp at h
    · rw [bind_ok] at h
      obtain ⟨⟨s1, tot⟩, h1, h2⟩ := h
      have e := banLoop_frame h1
      simp only at h2
      split at h2
      · simp at h2
      · split at h2
        · rw [increaseAll_frame h2, e]
        · simp only [Except.ok.injEq] at h2; rw [← h2, e]

theorem unbanLoop_frame (l s) : (unbanLoop l s).frame = s.frame := by
  induction l generalizing s with
  | nil => rfl
  | cons ev l ih =>
    simp only [unbanLoop]
    split
    · exact ih s
    · rw [ih]; rfl

theorem handleUnbans_frame {s evs s'} (h : handleUnbans s evs = .ok s') : s'.frame = s.frame := by
  unfold handleUnbans at h
  split at h
  · simp at h
  · simp only [Except.ok.injEq] at h; rw [← h, unbanLoop_frame]

theorem cleanOne_frame {E slot cs s tot i s' tot' go} (h : cleanOne E slot cs s tot i = .ok (s', tot', go)) :
    s'.frame = s.frame := by
  unfold cleanOne at h
  simp only [bind_ok] at h
  obtain ⟨p, hp, h⟩ := h
  split at h
  · simp only [bind_ok, Except.ok.injEq, Prod.mk.injEq] at h
    obtain ⟨s2, h2, h3, _⟩ := h
    rw [← h3, resetPending_frame h2]; rfl
  · split at h
    · simp only [bind_ok, Except.ok.injEq, Prod.mk.injEq] at h
      obtain ⟨s2, h2, s3, h3, h4, _⟩ := h
      rw [← h4, resetPending_frame h3, incPending_frame h2]; rfl
    · split at h
      · split at h
        · simp only [Except.ok.injEq, Prod.mk.injEq] at h; rw [← h.1]; rfl
        · split at h
          · simp only [Except.ok.injEq, Prod.mk.injEq] at h; rw [← h.1]; rfl
          · split at h
            · simp at h
            · simp only [bind_ok, Except.ok.injEq, Prod.mk.injEq] at h
              obtain ⟨s2, h2, h3, _⟩ := h
              rw [← h3, resetPending_frame h2]; rfl
      · split at h
        · simp only [bind_ok, Except.ok.injEq, Prod.mk.injEq] at h
          obtain ⟨s2, h2, h3, _⟩ := h
          rw [← h3, resetPending_frame h2]; rfl
        · simp at h

theorem cleanLoop_frame {E slot cs vs s tot s' tot' go}
    (h : cleanLoop E slot cs vs s tot = .ok (s', tot', go)) : s'.frame = s.frame := by
  induction vs generalizing s tot with
  | nil => simp only [cleanLoop, Except.ok.injEq, Prod.mk.injEq] at h; rw [h.1]
  | cons v vs ih =>
    simp only [cleanLoop] at h
    split at h
    · exact ih h
    · rw [bind_ok] at h
      obtain ⟨p, hp, h⟩ := h
      split at h
      · exact ih h
      · rw [bind_ok] at h
        obtain ⟨⟨s1, tot1, g⟩, h1, h2⟩ := h
        simp only at h2
        split at h2
        · rw [ih h2, cleanOne_frame h1]
        · simp only [Except.ok.injEq, Prod.mk.injEq] at h2
          rw [← h2.1, cleanOne_frame h1]

theorem cleanup_frame {E net s slot s' c} (h : cleanup E net s slot = .ok (s', c)) : s'.frame = s.frame := by
  unfold cleanup at h
  split at h
  · simp only [Except.ok.injEq, Prod.mk.injEq] at h; rw [h.1]
  · simp only at h
    split at h
    · simp only [Except.ok.injEq, Prod.mk.injEq] at h; rw [h.1]
    · split at h
      · simp only [Except.ok.injEq, Prod.mk.injEq] at h; rw [← h.1]; rfl
      · split at h
        · simp only [Except.ok.injEq, Prod.mk.injEq] at h; rw [← h.1]; rfl
        · rw [bind_ok] at h
          obtain ⟨⟨s1, tot, go⟩, h1, h2⟩ := h
          have e := cleanLoop_frame h1
          simp only at h2
          split at h2
          · simp only [Except.ok.injEq, Prod.mk.injEq] at h2; rw [← h2.1, e]; rfl
          · split at h2
            · rw [bind_ok] at h2
              obtain ⟨s2, h3, h4⟩ := h2
              simp only [Except.ok.injEq, Prod.mk.injEq] at h4
              rw [← h4.1, increaseAll_frame h3, e]; rfl
            · simp only [Except.ok.injEq, Prod.mk.injEq] at h2; rw [← h2.1, e]; rfl

theorem addSubscription_frame (s i w k) : (addSubscription s i w k).frame = s.frame := by
  unfold addSubscription
  split
  · rfl
  · split
    · simp only; split <;> rfl
    · rfl


theorem handleMissed_frame (s sb) :
    (handleMissed s sb).frame = { s.frame with missed := s.missed ++ [sb] } := rfl

theorem handleBls_frame {s sb s'} (h : handleBls s sb = .ok s') :
    s'.frame = { s.frame with proposed := s.proposed ++ [sb] } := by
  unfold handleBls at h
  split at h
  · simp at h
  · split at h
    · simp at h
    · simp only [Except.ok.injEq] at h
      rw [← h]; rfl

theorem handleCorrect_frame {E net s sb s'} (h : handleCorrect E net s sb = .ok s') :
    s'.frame = { s.frame with proposed := s.proposed ++ [sb] } := by
  unfold handleCorrect at h
  split at h
  · simp at h
  · simp only [bind_ok, Except.ok.injEq] at h
    obtain ⟨u2, m2, u3, m3, m4⟩ := h
    have n1 : ((addSubscription s sb.index sb.waddr sb.key).advance sb.index .proposalOk).frame
        = s.frame := addSubscription_frame _ _ _ _
    have n4 := (consolidate_frame m3).trans ((increaseAll_frame m2).trans n1)
    have e2 : u3.proposed = s.proposed := by have := congrArg State.proposed n4; exact this
    rw [← m4, e2, ← n4]; rfl

theorem handleWrongFee_frame {E net s sb s'} (h : handleWrongFee E net s sb = .ok s') :
    s'.frame = { s.frame with wrongFee := s.wrongFee ++ [sb] } := by
  unfold handleWrongFee at h
  simp only [bind_ok, Except.ok.injEq] at h
  obtain ⟨p, m1, u2, m2, u3, m3, m4⟩ := h
  have n1 : (s.advance sb.index .proposalWrongFee).frame = s.frame := rfl
  have n4 := (resetPending_frame m3).trans ((increaseAll_frame m2).trans n1)
  have e2 : u3.wrongFee = s.wrongFee := by have := congrArg State.wrongFee n4; exact this
  rw [← m4, e2, ← n4]; rfl

/-- The blocks a slot records: proposed, missed, wrong fee recipient. -/
structure Recorded (sb : SumBlock) (p m w : List SumBlock) : Prop where
  prop : p = if sb.type = .okPool ∨ sb.type = .okPoolBls then [sb] else []
  miss : m = [] ∨ (m = [sb] ∧ sb.type = .missed)
  wrong : w = [] ∨ (w = [sb] ∧ sb.type = .wrongFee)

theorem applyBlock_frame {E net s b sb dons s'} (h : applyBlock E net s b sb dons = .ok s') :
    ∃ p m w, Recorded sb p m w ∧ s'.frame = { s.frame with
      subs := s.subs ++ b.events.subs, unsubs := s.unsubs ++ b.events.unsubs,
      ether := s.ether ++ b.events.ether, donations := s.donations ++ dons,
      proposed := s.proposed ++ p, missed := s.missed ++ m, wrongFee := s.wrongFee ++ w } := by
  unfold applyBlock at h
  simp only [bind_ok] at h
  obtain ⟨t1, k1, t3, k3, t4, k4, t5, k5, t6, k6, t7, k7, t8, k8, k9⟩ := h
  refine ⟨_, (if sb.type = .missed ∧ t1.isSubscribed sb.index then [sb] else []),
    (if sb.type = .wrongFee ∧ t4.isSubscribed sb.index then [sb] else []),
    ⟨rfl, ?_, ?_⟩, ?_⟩
  · split
    · rename_i hm; exact Or.inr ⟨rfl, hm.1⟩
    · exact Or.inl rfl
  · split
    · rename_i hm; exact Or.inr ⟨rfl, hm.1⟩
    · exact Or.inl rfl
  · have l1 := handleSubs_frame k1
    have l2 : (if sb.type = .missed ∧ t1.isSubscribed sb.index then handleMissed t1 sb else t1).frame
        = { t1.frame with
            missed := t1.missed ++ (if sb.type = .missed ∧ t1.isSubscribed sb.index then [sb] else []) } := by
      split
      · rfl
      · simp [State.frame]
    have l4 : t4.frame = { t1.frame with
        proposed := t1.proposed ++ (if sb.type = .okPool ∨ sb.type = .okPoolBls then [sb] else []),
        missed := t1.missed ++ (if sb.type = .missed ∧ t1.isSubscribed sb.index then [sb] else []) } := by
      have e2 : (if sb.type = .missed ∧ t1.isSubscribed sb.index then handleMissed t1 sb else t1).proposed
          = t1.proposed := by have := congrArg State.proposed l2; exact this
      by_cases hb : sb.type = .okPoolBls
      · rw [if_pos hb] at k3
        have hno : sb.type ≠ .okPool := by rw [hb]; simp
        rw [if_neg hno] at k4
        simp only [Except.ok.injEq] at k4
        rw [← k4, handleBls_frame k3, l2, e2]
        simp [hb]
      · rw [if_neg hb] at k3
        simp only [Except.ok.injEq] at k3
        rw [k3] at l2 e2
        by_cases ho : sb.type = .okPool
        · rw [if_pos ho] at k4
          rw [handleCorrect_frame k4, l2, e2]
          simp [ho]
        · rw [if_neg ho] at k4
          simp only [Except.ok.injEq] at k4
          rw [← k4, l2]
          simp [ho, hb, State.frame]
    have l5 : t5.frame = { t4.frame with
        wrongFee := t4.wrongFee ++ (if sb.type = .wrongFee ∧ t4.isSubscribed sb.index then [sb] else []) } := by
      split at k5
      · rename_i hw; rw [handleWrongFee_frame k5, if_pos hw]
      · rename_i hw
        simp only [Except.ok.injEq] at k5
        rw [← k5, if_neg hw]
        simp [State.frame]
    have l6 := handleUnsubs_frame k6
    have l7 := handleDonations_frame k7
    have l9 : s'.frame = t7.frame := by rw [handleUnbans_frame k9, handleBans_frame k8]
    have d1 : t6.donations = s.donations := by
      have e6 := congrArg State.donations l6
      have e5 := congrArg State.donations l5
      have e4 := congrArg State.donations l4
      have e1 := congrArg State.donations l1
      exact e6.trans (e5.trans (e4.trans e1))
    have d2 : t4.wrongFee = s.wrongFee := by
      have e4 := congrArg State.wrongFee l4
      have e1 := congrArg State.wrongFee l1
      exact e4.trans e1
    have d3 : t1.proposed = s.proposed := by have e1 := congrArg State.proposed l1; exact e1
    have d4 : t1.missed = s.missed := by have e1 := congrArg State.missed l1; exact e1
    rw [l9, l7, l6, l5, l4, l1, d1, d2, d3, d4]
    rfl

/-- What one slot does to everything but the balances. -/
theorem slot_frame {E o b o' n} (h : advanceState E o b = .ok (o', some n)) :
    ∃ sb dons p m w, summarize o.st b o.cfg.poolAddr = .ok sb ∧
      getDonations b o.cfg.poolAddr = .ok dons ∧ Recorded sb p m w ∧
      o'.cfg = { o.cfg with fee := o'.cfg.fee } ∧
      o'.st.frame = { o.st.frame with
        subs := o.st.subs ++ b.events.subs, unsubs := o.st.unsubs ++ b.events.unsubs,
        ether := o.st.ether ++ b.events.ether, donations := o.st.donations ++ dons,
        proposed := o.st.proposed ++ p, missed := o.st.missed ++ m, wrongFee := o.st.wrongFee ++ w,
        fee := o'.st.fee, latestSlot := o.st.nextSlot, nextSlot := u64 (o.st.nextSlot + 1),
        latestBlock := if sb.type ≠ .missed then sb.block else o.st.latestBlock } ∧
      n = o.st.nextSlot ∧ sb.slot = o.st.nextSlot ∧
      ((o'.st.fee = o.st.fee ∧ o'.cfg.fee = o.cfg.fee ∧ b.events.poolFee = []) ∨
       (∃ f, b.events.poolFee = [f] ∧ scheduledFee o.cfg.network b.dutySlot = some (i64 f) ∧
        o'.st.fee = i64 f ∧ o'.cfg.fee = i64 f)) := by
  obtain ⟨o1, sb, dons, s1, s2, h1, h2, hv, hsb, h3, hd, ha, hcl, ho', hn⟩ := advanceState_ok h
  have hfr := validateConfig_frame hv
  have hvals : o1.st.vals = o.st.vals := by rw [hfr]
  have hpa : o1.cfg.poolAddr = o.cfg.poolAddr := by rw [hfr]
  obtain ⟨p, m, w, hrec, hf1⟩ := applyBlock_frame ha
  have e2 : s2.frame = s1.frame := by
    split at hcl
    · exact cleanup_frame hcl
    · simp only [Except.ok.injEq, Prod.mk.injEq, and_true] at hcl; rw [hcl]
  have e3 := e2.trans hf1
  have hns : s2.nextSlot = o.st.nextSlot := by
    have := congrArg State.nextSlot e3
    refine Eq.trans this ?_
    rw [hfr]; rfl
  have hfee : s2.fee = o1.st.fee := by have := congrArg State.fee e3; exact this
  have hlb : s2.latestBlock = o.st.latestBlock := by
    have := congrArg State.latestBlock e3
    refine Eq.trans this ?_
    rw [hfr]; rfl
  have hfee' : o'.st.fee = o1.st.fee := by rw [ho']; exact hfee
  have hcfg' : o'.cfg = o1.cfg := by rw [ho']
  refine ⟨sb, dons, p, m, w, ?_, ?_, hrec, ?_, ?_, ?_, ?_, ?_⟩
  · rw [← summarize_congr hvals, ← hpa]; exact hsb
  · rw [← hpa]; exact hd
  · rw [hcfg', hfr]
  · have k0 : o'.st.frame = { s2.frame with
        latestSlot := s2.nextSlot, nextSlot := u64 (s2.nextSlot + 1),
        latestBlock := if sb.type ≠ .missed then sb.block else s2.latestBlock } := by rw [ho']; rfl
    rw [k0, e3, hns, hlb, hfee']
    rw [hfr]; rfl
  · rw [hn, hns]
  · rw [← h3, hfr]
  · rw [hfee', hcfg']
    rcases validateConfig_ok hv with ⟨q1, q2⟩ | ⟨f, q1, q2, q3⟩
    · left; rw [q1]; exact ⟨rfl, rfl, q2⟩
    · right; refine ⟨f, q1, q2, ?_⟩; rw [q3]; exact ⟨rfl, rfl⟩

end Verif
