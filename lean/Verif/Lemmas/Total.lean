import Verif.Lemmas.Refine
import Verif.Lemmas.Money
import Verif.Spec.Honest
/-
The handlers go through: no Fatal, no panic, no error.
-/
namespace Verif
open VMap

theorem sameBlock_of {l : List Nat} (h : AllSame l) : sameBlock l = true := by
  cases l with
  | nil => rfl
  | cons a l =>
    unfold sameBlock
    rw [List.all_eq_true]
    intro x hx
    rw [beq_iff_eq]
    exact h x (by simp [hx]) a (by simp)

theorem AllSame.filter {l : List EtherEvent} {p} (h : AllSame (l.map (·.block))) :
    AllSame ((l.filter p).map (·.block)) := by
  intro x hx y hy
  obtain ⟨a, ha, rfl⟩ := List.mem_map.mp hx
  obtain ⟨b, hb, rfl⟩ := List.mem_map.mp hy
  exact h _ (List.mem_map.mpr ⟨a, (List.mem_filter.mp ha).1, rfl⟩) _
    (List.mem_map.mpr ⟨b, (List.mem_filter.mp hb).1, rfl⟩)

theorem isTracked_of_subscribed {s : State} {i} (h : s.isSubscribed i = true) : s.isTracked i = true := by
  unfold State.isSubscribed at h; unfold State.isTracked
  split at h
  · simp at h
  · rename_i e; rw [e]; rfl

theorem isTracked_of_banned {s : State} {i} (h : s.isBanned i = true) : s.isTracked i = true := by
  unfold State.isBanned at h; unfold State.isTracked
  split at h
  · simp at h
  · rename_i e; rw [e]; rfl

theorem isTracked_modVal (s : State) (i j f) : (s.modVal j f).isTracked i = s.isTracked i := by
  unfold State.isTracked State.modVal
  dsimp only
  rw [get_modify]
  split
  · rename_i h; rw [h]; cases VMap.get s.vals j <;> rfl
  · rfl

theorem isTracked_advance (s : State) (i j e) : (s.advance j e).isTracked i = s.isTracked i :=
  isTracked_modVal s i j _

theorem isTracked_put (s : State) (i v) : (s.putVal i v).isTracked i = true := by
  unfold State.isTracked State.putVal
  dsimp only
  rw [get_insert]; simp

theorem pendOf_tracked {s : State} {i} (h : s.isTracked i = true) : ∃ p, s.pendOf i = .ok p := by
  unfold State.isTracked at h
  obtain ⟨v, hv⟩ := Option.isSome_iff_exists.mp h
  exact ⟨v.pend, by unfold State.pendOf; rw [hv]⟩

theorem resetPending_tracked {s : State} {i} (h : s.isTracked i = true) :
    s.resetPending i = .ok (s.modVal i fun v => { v with pend := 0 }) := by
  unfold State.resetPending; rw [if_pos h]

theorem State.incPending_tracked {s : State} {i} {r : Int} (h : s.isTracked i = true) :
    s.incPending i r = .ok (s.modVal i fun v => { v with pend := v.pend + r }) := by
  unfold State.incPending; rw [if_pos h]

theorem hasAddress_length {c w} (h : HasAddress c w) : w.length = 42 := by
  obtain ⟨p, a, _, hl, _, rfl⟩ := h
  simp [hexEncode_length, hl]

theorem subOne_total {s : State} {ev : SubEvent} {v : Option BVal} (h1 : ev.sender.length = 42)
    (h2 : ∀ x : BVal, v = some x → x.index = ev.validatorId) : ∃ s', subOne s ev v = .ok s' := by
  unfold subOne
  cases v with
  | none => exact ⟨_, rfl⟩
  | some v =>
    dsimp only
    rw [if_neg (by rw [h2 v rfl]; simp)]
    split
    · exact ⟨_, rfl⟩
    · cases hc : compatAddressByte v.creds with
      | none => exact ⟨_, rfl⟩
      | some w =>
        have hw := hasAddress_length ((compatAddressByte_iff _ _).mp hc)
        dsimp only
        rw [equals_of_length (by rw [h1, hw])]
        show ∃ s', (if (!decide (lower ev.sender = lower w)) = true then _ else _) = Except.ok s'
        split
        · exact ⟨_, rfl⟩
        · split
          · rename_i hb
            unfold State.incAccumulated
            rw [if_pos (isTracked_of_banned hb)]; exact ⟨_, rfl⟩
          · split
            · rename_i hb
              unfold State.incAccumulated
              rw [if_pos (isTracked_of_subscribed hb)]; exact ⟨_, rfl⟩
            · split
              · exact ⟨_, rfl⟩
              · split
                · have ht : (State.setSubType (if (!s.isTracked ev.validatorId) = true then
                      s.putVal ev.validatorId
                        { status := .notSubscribed, acc := 0, pend := 0, coll := ev.collateral,
                          waddr := w, index := ev.validatorId, key := hexutilEncode v.pubkey,
                          subType := .manual } else s) ev.validatorId .manual).isTracked ev.validatorId = true := by
                    unfold State.setSubType
                    rw [isTracked_modVal]
                    split
                    · exact isTracked_put _ _ _
                    · rename_i h; simpa using h
                  refine ex_bind (State.incPending_tracked ht) ⟨_, rfl⟩
                · exact ⟨_, rfl⟩

theorem subLoop_total {evs : List SubEvent} {vs : List (Option BVal)} (h : List.Forall₂ (fun (ev : SubEvent) v =>
    ev.sender.length = 42 ∧ ∀ x : BVal, v = some x → x.index = ev.validatorId) evs vs) (s : State) :
    ∃ s', subLoop (evs.zip vs) s = .ok s' := by
  induction h generalizing s with
  | nil => exact ⟨s, rfl⟩
  | cons h _ ih =>
    obtain ⟨s1, h1⟩ := subOne_total (s := s) h.1 h.2
    obtain ⟨s2, h2⟩ := ih s1
    simp only [List.zip_cons_cons, subLoop]
    exact ex_bind h1 ⟨s2, h2⟩

theorem handleSubs_total {b : FullBlock} (h : EventsOK b) (s : State) :
    ∃ s', handleSubs s b.events.subs b.valsSubs = .ok s' := by
  unfold handleSubs
  rw [sameBlock_of h.subsBlock, if_neg (by simp), if_neg (by simpa using h.subs.length_eq)]
  exact subLoop_total h.subs s

section
variable {E : Env} (hE : ValidEnv E) (hN : GoodNode E) {net : Str} (hk : KnownNet net)
include hE hN hk

theorem shares_total {s : State} (hs : Sorted s.vals) (hf : s.fee ≤ 10000) (r : Int) :
    ∃ s', increaseAll E net s r = .ok s' ∧ Sorted s'.vals ∧ s'.fee = s.fee ∧
      ∀ i, s'.isTracked i = s.isTracked i := by
  obtain ⟨s', h⟩ := increaseAll_succeeds hE hN hs hk hf r
  obtain ⟨sh, fees, d⟩ := increaseAll_dist hE hs h
  have hfee := congrArg State.fee (increaseAll_frame h)
  have e1 : s'.vals = credit sh s.vals := by rw [d.eq]
  refine ⟨s', h, by rw [e1]; exact hs.credit sh, hfee, ?_⟩
  intro i
  unfold State.isTracked
  rw [e1, get_credit]
  cases VMap.get s.vals i <;> rfl

theorem forfeit_total {s : State} {i e} (hs : Sorted s.vals) (hf : s.fee ≤ 10000)
    (ht : s.isTracked i = true) : ∃ p s2 s3, (s.advance i e).pendOf i = .ok p ∧
      increaseAll E net (s.advance i e) p = .ok s2 ∧ s2.resetPending i = .ok s3 ∧
      Sorted s3.vals ∧ s3.fee = s.fee := by
  have ht1 : (s.advance i e).isTracked i = true := by rw [isTracked_advance]; exact ht
  obtain ⟨p, hp⟩ := pendOf_tracked ht1
  obtain ⟨s2, h2, k1, k2, k3⟩ := shares_total hE hN hk (s := s.advance i e)
    (by unfold State.advance State.modVal; dsimp only; exact hs.modify _ _) hf p
  refine ⟨p, s2, _, hp, h2, resetPending_tracked (by rw [k3]; exact ht1), ?_, k2⟩
  unfold State.modVal; dsimp only; exact k1.modify _ _

theorem handleCorrect_total {s : State} {sb : SumBlock} (hs : Sorted s.vals) (hf : s.fee ≤ 10000)
    (hr : sb.reward ≠ none) : ∃ s', handleCorrect E net s sb = .ok s' ∧ Sorted s'.vals ∧ s'.fee = s.fee := by
  unfold handleCorrect
  obtain ⟨r, hr⟩ := Option.ne_none_iff_exists'.mp hr
  rw [hr]
  dsimp only
  have hsort : Sorted ((addSubscription s sb.index sb.waddr sb.key).advance sb.index .proposalOk).vals := by
    unfold State.advance State.modVal
    dsimp only
    apply Sorted.modify
    unfold addSubscription State.setSubType State.advance State.modVal State.putVal
    split
    · dsimp only; exact ((hs.insert _ _).modify _ _).modify _ _
    · split
      · dsimp only
        split
        · dsimp only; exact (hs.modify _ _).modify _ _
        · dsimp only; exact hs.modify _ _
      · exact hs
  have hfee : ((addSubscription s sb.index sb.waddr sb.key).advance sb.index .proposalOk).fee = s.fee := by
    have := congrArg State.fee (addSubscription_frame s sb.index sb.waddr sb.key)
    exact this
  have htr : ((addSubscription s sb.index sb.waddr sb.key).advance sb.index .proposalOk).isTracked sb.index = true := by
    rw [isTracked_advance]
    unfold addSubscription State.setSubType
    split
    · rw [isTracked_modVal, isTracked_advance]; exact isTracked_put _ _ _
    · rename_i ht
      have ht : s.isTracked sb.index = true := by simpa using ht
      split
      · dsimp only
        split
        · rw [isTracked_modVal, isTracked_advance]; exact ht
        · rw [isTracked_advance]; exact ht
      · exact ht
  obtain ⟨s2, h2, k1, k2, k3⟩ := shares_total hE hN hk hsort (by rw [hfee]; exact hf) r
  have hc : s2.consolidate sb.index = .ok (s2.modVal sb.index fun v => { v with acc := v.acc + v.pend, pend := 0 }) := by
    unfold State.consolidate
    rw [if_pos (by rw [k3]; exact htr)]
  refine ⟨{ (s2.modVal sb.index fun v => { v with acc := v.acc + v.pend, pend := 0 }) with
    proposed := s2.proposed ++ [sb] }, ?_, ?_, ?_⟩
  · rw [bind_ok]
    refine ⟨s2, h2, ?_⟩
    rw [bind_ok]
    exact ⟨_, hc, rfl⟩
  · unfold State.modVal; dsimp only; exact k1.modify _ _
  · exact k2.trans hfee

theorem handleWrongFee_total {s : State} {sb : SumBlock} (hs : Sorted s.vals) (hf : s.fee ≤ 10000)
    (ht : s.isTracked sb.index = true) :
    ∃ s', handleWrongFee E net s sb = .ok s' ∧ Sorted s'.vals ∧ s'.fee = s.fee := by
  obtain ⟨p, s2, s3, h1, h2, h3, h4, h5⟩ := forfeit_total hE hN hk (e := .proposalWrongFee) hs hf ht
  refine ⟨{ s3 with wrongFee := s3.wrongFee ++ [sb] }, ?_, h4, h5⟩
  unfold handleWrongFee
  simp only [bind_ok]
  exact ⟨p, h1, s2, h2, s3, h3, rfl⟩

theorem unsubOne_total {s : State} {ev : UnsubEvent} {v : Option BVal} (hs : Sorted s.vals)
    (hf : s.fee ≤ 10000) (h1 : ev.sender.length = 42)
    (h2 : ∀ x : BVal, v = some x → x.index = ev.validatorId) :
    ∃ s', unsubOne E net s ev v = .ok s' ∧ Sorted s'.vals ∧ s'.fee = s.fee := by
  unfold unsubOne
  cases v with
  | none => exact ⟨_, rfl, hs, rfl⟩
  | some v =>
    dsimp only
    rw [if_neg (by rw [h2 v rfl]; simp)]
    cases hc : compatAddressByte v.creds with
    | none => exact ⟨_, rfl, hs, rfl⟩
    | some w =>
      have hw := hasAddress_length ((compatAddressByte_iff _ _).mp hc)
      dsimp only
      rw [equals_of_length (by rw [h1, hw])]
      show ∃ s', (if (!decide (lower ev.sender = lower w)) = true then _ else _) = Except.ok s' ∧ _
      split
      · exact ⟨_, rfl, hs, rfl⟩
      · split
        · rename_i hsub
          obtain ⟨p, s2, s3, h1, h2, h3, h4, h5⟩ := forfeit_total hE hN hk (e := .unsubscribe) hs hf
            (isTracked_of_subscribed hsub)
          refine ⟨s3, ?_, h4, h5⟩
          simp only [bind_ok]
          exact ⟨p, h1, s2, h2, h3⟩
        · exact ⟨_, rfl, hs, rfl⟩

theorem unsubLoop_total {evs : List UnsubEvent} {vs : List (Option BVal)} (h : List.Forall₂ (fun (ev : UnsubEvent) v =>
    ev.sender.length = 42 ∧ ∀ x : BVal, v = some x → x.index = ev.validatorId) evs vs) {s : State}
    (hs : Sorted s.vals) (hf : s.fee ≤ 10000) :
    ∃ s', unsubLoop E net (evs.zip vs) s = .ok s' ∧ Sorted s'.vals ∧ s'.fee = s.fee := by
  induction h generalizing s with
  | nil => exact ⟨s, rfl, hs, rfl⟩
  | cons h _ ih =>
    obtain ⟨s1, h1, k1, k2⟩ := unsubOne_total hE hN hk hs hf h.1 h.2
    obtain ⟨s2, h2, k3, k4⟩ := ih k1 (by rw [k2]; exact hf)
    refine ⟨s2, ?_, k3, k4.trans k2⟩
    simp only [List.zip_cons_cons, unsubLoop]
    rw [bind_ok]; exact ⟨s1, h1, h2⟩

theorem handleUnsubs_total {b : FullBlock} (h : EventsOK b) {s : State}
    (hs : Sorted s.vals) (hf : s.fee ≤ 10000) :
    ∃ s', handleUnsubs E net s b.events.unsubs b.valsUnsubs = .ok s' ∧ Sorted s'.vals ∧ s'.fee = s.fee := by
  unfold handleUnsubs
  rw [sameBlock_of h.unsubsBlock, if_neg (by simp), if_neg (by simpa using h.unsubs.length_eq)]
  exact unsubLoop_total hE hN hk h.unsubs hs hf

theorem donLoop_total {l : List EtherEvent} {s : State} (hs : Sorted s.vals) (hf : s.fee ≤ 10000) :
    ∃ s', donLoop E net l s = .ok s' ∧ Sorted s'.vals ∧ s'.fee = s.fee := by
  induction l generalizing s with
  | nil => exact ⟨s, rfl, hs, rfl⟩
  | cons d l ih =>
    obtain ⟨s1, h1, k1, k2, _⟩ := shares_total hE hN hk hs hf d.amount
    obtain ⟨s2, h2, k3, k4⟩ := ih (s := { s1 with donations := s1.donations ++ [d] }) k1
      (by dsimp only; rw [k2]; exact hf)
    refine ⟨s2, ?_, k3, k4.trans k2⟩
    unfold donLoop
    rw [bind_ok]; exact ⟨s1, h1, h2⟩

theorem banLoop_total {l : List BanEvent} {s : State} {t : Int} (hs : Sorted s.vals)
    (hn : ∀ p ∈ s.vals, 0 ≤ p.2.pend) (ht : 0 ≤ t) :
    ∃ s' t', banLoop l s t = .ok (s', t') ∧ Sorted s'.vals ∧ s'.fee = s.fee ∧ 0 ≤ t' := by
  induction l generalizing s t with
  | nil => exact ⟨s, t, rfl, hs, rfl, ht⟩
  | cons ev l ih =>
    unfold banLoop
    split
    · exact ih hs hn ht
    · rename_i hsub
      have hsub : s.isSubscribed ev.validatorId = true := by simpa using hsub
      have htr := isTracked_of_subscribed hsub
      have ht1 : (s.advance ev.validatorId .manualBan).isTracked ev.validatorId = true := by
        rw [isTracked_advance]; exact htr
      obtain ⟨p, hp⟩ := pendOf_tracked ht1
      obtain ⟨v, hv, rfl⟩ := pendOf_advance hp
      have hv0 : 0 ≤ v.pend := hn _ (mem_of_get hv)
      have hs1 : Sorted (s.advance ev.validatorId .manualBan).vals := by
        unfold State.advance State.modVal; dsimp only; exact hs.modify _ _
      have hs2 : Sorted ((s.advance ev.validatorId .manualBan).modVal ev.validatorId
          fun v => { v with pend := 0 }).vals := by
        unfold State.modVal; dsimp only; exact hs1.modify _ _
      obtain ⟨s', t', h1, h2, h3, h4⟩ := ih (s := (s.advance ev.validatorId .manualBan).modVal
        ev.validatorId fun v => { v with pend := 0 }) (t := t + v.pend) hs2 (by
          intro q hq
          have hg := hs2.get_of_mem (k := q.1) (v := q.2) hq
          unfold State.advance State.modVal at hg
          dsimp only at hg
          rw [get_modify, get_modify] at hg
          by_cases hqe : q.1 = ev.validatorId
          · rw [if_pos hqe, if_pos rfl] at hg
            cases hg' : VMap.get s.vals ev.validatorId with
            | none => rw [hg'] at hg; simp at hg
            | some u => rw [hg'] at hg; simp at hg; rw [← hg]
          · rw [if_neg hqe, get_modify, if_neg hqe] at hg
            exact hn _ (mem_of_get hg)) (by omega)
      refine ⟨s', t', ?_, h2, h3, h4⟩
      rw [bind_ok]
      refine ⟨_, hp, ?_⟩
      rw [bind_ok]
      exact ⟨_, resetPending_tracked ht1, h1⟩

theorem handleBans_total {evs : List BanEvent} {s : State} (hb : AllSame (evs.map (·.block)))
    (hs : Sorted s.vals) (hf : s.fee ≤ 10000) (hn : ∀ p ∈ s.vals, 0 ≤ p.2.pend) :
    ∃ s', handleBans E net s evs = .ok s' ∧ Sorted s'.vals ∧ s'.fee = s.fee := by
  unfold handleBans
  split
  · exact ⟨s, rfl, hs, rfl⟩
  · rw [sameBlock_of hb]
    obtain ⟨s1, t, h1, k1, k2, k3⟩ := banLoop_total hE hN hk (l := evs) hs hn (le_refl 0)
    rw [if_neg (by simp)]
    by_cases ht : 0 < t
    · obtain ⟨s2, h2, l1, l2, _⟩ := shares_total hE hN hk k1 (by rw [k2]; exact hf) t
      refine ⟨s2, ?_, l1, l2.trans k2⟩
      rw [bind_ok]
      refine ⟨_, h1, ?_⟩
      dsimp only
      rw [if_neg (by omega), if_pos ht]
      exact h2
    · refine ⟨s1, ?_, k1, k2⟩
      rw [bind_ok]
      refine ⟨_, h1, ?_⟩
      dsimp only
      rw [if_neg (by omega), if_neg ht]

theorem cleanLoop_total (slot : Nat) {cs : List (Nat × Nat)}
    (hcs : ∀ p ∈ cs, ∀ t' slot' req r v, E.node t' slot' req = some r → v ∈ r → v.index = p.2 →
      ∃ w, HasAddress v.creds w) {l : List BVal} {s : State} {t : Int} (hs : Sorted s.vals)
    (hl : ∀ v ∈ l, s.isTracked v.index = true) :
    ∃ s' t', cleanLoop E slot cs l s t = .ok (s', t', true) ∧ Sorted s'.vals ∧ s'.fee = s.fee := by
  induction l generalizing s t with
  | nil => exact ⟨s, t, rfl, hs, rfl⟩
  | cons v l ih =>
    unfold cleanLoop
    split
    · exact ih hs fun u hu => hl u (by simp [hu])
    · obtain ⟨p, hp⟩ := pendOf_tracked (hl v (by simp))
      by_cases hp0 : p = 0
      · obtain ⟨s', t', h1, h2⟩ := ih (t := t) hs fun u hu => hl u (by simp [hu])
        refine ⟨s', t', ?_, h2⟩
        rw [bind_ok]
        exact ⟨p, hp, by rw [if_pos hp0]; exact h1⟩
      · have hone : ∃ s1 t1, cleanOne E slot cs s t v.index = .ok (s1, t1, true) ∧ Sorted s1.vals ∧
            s1.fee = s.fee ∧ ∀ i, s.isTracked i = true → s1.isTracked i = true := by
          have ht := hl v (by simp)
          have ht1 : (s.advance v.index .unsubscribe).isTracked v.index = true := by
            rw [isTracked_advance]; exact ht
          have hs1 : Sorted (s.advance v.index .unsubscribe).vals := by
            unfold State.advance State.modVal; dsimp only; exact hs.modify _ _
          obtain ⟨q, hq⟩ := pendOf_tracked ht1
          unfold cleanOne
          simp only
          have reset : ∀ t1 : Int, ∃ s1 t2, (do
              let s2 ← (s.advance v.index .unsubscribe).resetPending v.index
              .ok (s2, t1, true) : M (State × Int × Bool)) = .ok (s1, t2, true) ∧ Sorted s1.vals ∧
              s1.fee = s.fee ∧ ∀ i, s.isTracked i = true → s1.isTracked i = true := by
            intro t1
            refine ⟨(s.advance v.index .unsubscribe).modVal v.index fun v => { v with pend := 0 }, t1,
              by rw [bind_ok]; exact ⟨_, resetPending_tracked ht1, rfl⟩, ?_, rfl, ?_⟩
            · unfold State.modVal; dsimp only; exact hs1.modify _ _
            · intro i hi; rw [isTracked_modVal, isTracked_advance]; exact hi
          cases hct : consolTarget cs v.index with
          | none =>
            obtain ⟨s1, t1, h1, h2⟩ := reset (t + q)
            exact ⟨s1, t1, by rw [bind_ok]; exact ⟨q, hq, h1⟩, h2⟩
          | some tgt =>
            dsimp only
            split
            · rename_i hcond
              rw [Bool.and_eq_true] at hcond
              refine ⟨((s.advance v.index .unsubscribe).modVal tgt fun w => { w with pend := w.pend + q }).modVal
                v.index fun v => { v with pend := 0 }, t, ?_, ?_, rfl, ?_⟩
              · simp only [bind_ok]
                exact ⟨q, hq, _, State.incPending_tracked hcond.1, _,
                  resetPending_tracked (by rw [isTracked_modVal]; exact ht1), rfl⟩
              · unfold State.modVal; dsimp only; exact (hs1.modify _ _).modify _ _
              · intro i hi; rw [isTracked_modVal, isTracked_modVal, isTracked_advance]; exact hi
            · split
              · rename_i htr
                obtain ⟨r, hr, hall, _⟩ := hN (s.advance v.index .unsubscribe).tick slot [tgt] (by simp)
                have hget : getSet E (s.advance v.index .unsubscribe).tick slot [tgt] = some r := by
                  unfold getSet
                  rw [if_neg (by simp), hr]
                  obtain ⟨u, hu, hui⟩ := hall tgt (by simp)
                  dsimp only
                  rw [if_neg (by intro e; rw [e] at hu; cases hu), if_pos]
                  simp only [List.all_cons, List.all_nil, Bool.and_true, List.any_eq_true, beq_iff_eq]
                  exact ⟨u, hu, hui⟩
                rw [hget]
                dsimp only
                obtain ⟨u, hu, hui⟩ := hall tgt (by simp)
                cases hfind : r.find? (fun v => v.index == tgt) with
                | none =>
                  have := List.find?_eq_none.mp hfind u hu
                  simp [hui] at this
                | some x =>
                  have hx1 := List.mem_of_find?_eq_some hfind
                  have hx2 : x.index = tgt := by simpa using List.find?_some hfind
                  obtain ⟨w, hw⟩ := hcs _ (consolTarget_some hct).2 _ _ _ _ x hr hx1 hx2
                  rw [← compatAddressByte_iff] at hw
                  dsimp only
                  rw [hw]
                  dsimp only
                  have htp : ∀ i, s.isTracked i = true → ∀ y, (State.putVal
                      { s.advance v.index .unsubscribe with tick := (s.advance v.index .unsubscribe).tick + 1 }
                      tgt y).isTracked i = true := by
                    intro i hi y
                    unfold State.isTracked State.putVal
                    dsimp only
                    rw [get_insert]
                    split
                    · rfl
                    · have := isTracked_advance s i v.index .unsubscribe
                      rw [hi] at this
                      exact this
                  refine ⟨State.modVal (State.putVal
                      { s.advance v.index .unsubscribe with tick := (s.advance v.index .unsubscribe).tick + 1 }
                      tgt { status := .notSubscribed, acc := 0, pend := q, coll := 0, waddr := w,
                            index := tgt, key := hexutilEncode x.pubkey, subType := .manual }) v.index
                      fun v => { v with pend := 0 }, t, ?_, ?_, rfl, ?_⟩
                  · simp only [bind_ok]
                    exact ⟨q, hq, _, resetPending_tracked (htp _ ht _), rfl⟩
                  · unfold State.modVal State.putVal; dsimp only; exact (hs1.insert _ _).modify _ _
                  · intro i hi; rw [isTracked_modVal]; exact htp i hi _
              · split
                · obtain ⟨s1, t1, h1, h2⟩ := reset (t + q)
                  exact ⟨s1, t1, by rw [bind_ok]; exact ⟨q, hq, h1⟩, h2⟩
                · rename_i h1 h2 h3
                  simp only [Bool.not_eq_true, Bool.not_eq_eq_eq_not, Bool.and_eq_false_iff] at h1 h2 h3
                  rcases h1 with h1 | h1
                  · simp [h1] at h2
                  · simp [h3] at h1
        obtain ⟨s1, t1, h1, k1, k2, k3⟩ := hone
        obtain ⟨s', t', h3, k4, k5⟩ := ih (t := t1) k1 fun u hu => k3 _ (hl u (by simp [hu]))
        refine ⟨s', t', ?_, k4, k5.trans k2⟩
        rw [bind_ok]
        refine ⟨p, hp, ?_⟩
        rw [if_neg hp0, bind_ok]
        exact ⟨_, h1, h3⟩

theorem cleanup_total (hG : GoodConsol E) {s : State} (slot : Nat) (hs : Sorted s.vals)
    (hf : s.fee ≤ 10000) : ∃ s', cleanup E net s slot = .ok (s', true) := by
  unfold cleanup
  split
  · exact ⟨s, rfl⟩
  · dsimp only
    split
    · exact ⟨s, rfl⟩
    · rename_i hne
      obtain ⟨cs0, hcs, haddr⟩ := hG s.tick slot
      have : ∃ cs, (if slot ≥ slotOrZero (slotElectra net) then E.consol s.tick slot else some []) = some cs ∧
          ∀ p ∈ cs, ∀ t' slot' req r v, E.node t' slot' req = some r → v ∈ r → v.index = p.2 →
            ∃ w, HasAddress v.creds w := by
        split
        · exact ⟨cs0, hcs, haddr⟩
        · exact ⟨[], rfl, by simp⟩
      obtain ⟨cs, h1, h2⟩ := this
      rw [h1]
      dsimp only
      obtain ⟨r, hr, hall, hex⟩ := hN s.tick slot _ hne
      have hget : getSet E s.tick slot (E.shuffle s.tick (VMap.keys s.vals)) = some r := by
        unfold getSet
        rw [if_neg hne, hr]
        dsimp only
        obtain ⟨i, hi⟩ := List.exists_mem_of_ne_nil _ hne
        obtain ⟨u, hu, _⟩ := hall i hi
        rw [if_neg (by intro e; rw [e] at hu; cases hu), if_pos]
        rw [List.all_eq_true]
        intro j hj
        obtain ⟨w, hw, hwj⟩ := hall j hj
        rw [List.any_eq_true]
        exact ⟨w, hw, by simpa using hwj⟩
      rw [hget]
      dsimp only
      obtain ⟨s1, t, h3, k1, k2⟩ := cleanLoop_total hE hN hk slot h2
        (l := E.shuffle (s.tick + 1) r) (s := { s with tick := s.tick + 2 }) (t := 0) hs (by
          intro v hv
          have hv' := (shuffle_perm hE (s.tick + 1) r).mem_iff.mp hv
          have := (hex v hv').1
          have := (shuffle_perm hE s.tick (VMap.keys s.vals)).mem_iff.mp this
          exact (get_isSome_iff _ _).mpr this)
      by_cases ht : t = 0
      · refine ⟨s1, ?_⟩
        rw [bind_ok]
        exact ⟨_, h3, by simp [ht]⟩
      · obtain ⟨s2, h4, _⟩ := shares_total hE hN hk k1 (by rw [k2]; exact hf) t
        refine ⟨s2, ?_⟩
        rw [bind_ok]
        refine ⟨_, h3, ?_⟩
        simp only [Bool.not_true, Bool.false_eq_true, if_false]
        rw [if_pos ht, bind_ok]
        exact ⟨s2, h4, rfl⟩

end

end Verif
