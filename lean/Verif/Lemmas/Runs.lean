import Verif.Lemmas.Micro
/-
The handlers as sequences of elementary operations.
-/
namespace Verif
open VMap

/-- What in the block or on the chain justifies an elementary operation. -/
def Cause (E : Env) (slot : Nat) (coll : Int) (b : FullBlock) (sb : SumBlock)
    (dons : List EtherEvent) : Op → Prop
  | .adv i .manualSubscription => ∃ ev w v, OwnerSubscribes b i ev w v ∧ coll ≤ ev.collateral
  | .adv i .autoSubscription => sb.type = .okPool ∧ sb.index = i
  | .adv i .proposalOk => sb.type = .okPool ∧ sb.index = i
  | .adv i .proposalMissed => sb.type = .missed ∧ sb.index = i
  | .adv i .manualUnban => ∃ ev ∈ b.events.unbans, ev.validatorId = i
  | .adv _ _ => False
  | .seize i .unsubscribe => OwnerUnsubscribes b i ∨ (slot % 1200 = 0 ∧ NotActive E slot i)
  | .seize i .proposalWrongFee => sb.type = .wrongFee ∧ sb.index = i
  | .seize i .manualBan => ∃ ev ∈ b.events.bans, ev.validatorId = i
  | .seize _ _ => False
  | .move i j => slot % 1200 = 0 ∧ NotActive E slot i ∧ ∃ t cs, E.consol t slot = some cs ∧ (i, j) ∈ cs
  | .create i u =>
      (∃ ev w v, OwnerSubscribes b i ev w v ∧ coll ≤ ev.collateral ∧ u.waddr = w ∧
        u.key = hexutilEncode v.pubkey) ∨
      (sb.type = .okPool ∧ sb.index = i ∧ u.waddr = sb.waddr ∧ u.key = sb.key) ∨
      (slot % 1200 = 0 ∧ ∃ t req r v w, E.node t slot req = some r ∧ v ∈ r ∧ v.index = i ∧
        HasAddress v.creds w ∧ u.waddr = w ∧ u.key = hexutilEncode v.pubkey ∧
        ∃ t' cs j, E.consol t' slot = some cs ∧ (j, i) ∈ cs)
  | .subType i .manual => ∃ ev w v, OwnerSubscribes b i ev w v ∧ coll ≤ ev.collateral
  | .subType i .auto => sb.type = .okPool ∧ sb.index = i
  | .recv x => (∃ ev ∈ b.events.subs, x = ev.collateral) ∨
      ((sb.type = .okPool ∨ sb.type = .okPoolBls) ∧ sb.reward = some x) ∨ ∃ d ∈ dons, x = d.amount
  | .toPool => True
  | .toAcc i => ∃ ev w v, OwnerSubscribes b i ev w v
  | .toPend i => ∃ ev w v, OwnerSubscribes b i ev w v ∧ coll ≤ ev.collateral
  | .consol i => sb.type = .okPool ∧ sb.index = i
  | .dist _ _ => True

theorem modify_modify (m : VMap) (i) (f g : Validator → Validator) :
    modify (modify m i f) i g = modify m i fun v => g (f v) := by
  unfold VMap.modify
  rw [List.map_map]
  apply List.map_congr_left
  intro p _
  simp only [Function.comp]
  by_cases h : p.1 = i
  · simp [h]
  · simp [h]

theorem modify_congr {m : VMap} {i} {f g : Validator → Validator}
    (h : ∀ v, VMap.get m i = some v → f v = g v) (hs : Sorted m) : modify m i f = modify m i g := by
  unfold VMap.modify
  apply List.map_congr_left
  intro p hp
  by_cases hpi : p.1 = i
  · rw [if_pos hpi, if_pos hpi]
    have := hs.get_of_mem (k := p.1) (v := p.2) hp
    rw [hpi] at this
    rw [h p.2 this]
  · rw [if_neg hpi, if_neg hpi]

theorem modify_credit {m : VMap} {i sh} (h : i ∉ sh.map (·.1)) :
    modify (credit sh m) i (fun v => { v with pend := 0 })
      = credit sh (modify m i fun v => { v with pend := 0 }) := by
  unfold VMap.modify credit
  rw [List.map_map, List.map_map]
  apply List.map_congr_left
  intro p _
  simp only [Function.comp]
  by_cases hp : p.1 = i
  · subst hp
    simp [shareOf_eq_zero h]
  · simp [hp]

theorem transition_forfeits {e : Ev} (he : e.forfeits) (st : Status) :
    transition st e ≠ .active ∧ transition st e ≠ .yellowCard := by
  rcases he with h | h | h <;> subst h <;> cases st <;> simp [transition]

theorem earns_modify_pend {m : VMap} {i j : Nat} {x : Validator → Int} :
    earns (modify m i fun v => { v with pend := x v }) j ↔ earns m j := by
  unfold earns
  rw [get_modify]
  by_cases h : j = i
  · subst h
    rw [if_pos rfl]
    constructor
    · rintro ⟨v, hv, hv'⟩
      obtain ⟨u, hu, hv⟩ := Option.map_eq_some_iff.mp hv
      subst hv
      exact ⟨u, hu, hv'⟩
    · rintro ⟨v, hv, hv'⟩
      exact ⟨{ v with pend := x v }, by simp [hv], hv'⟩
  · rw [if_neg h]

section
variable {E : Env} (hE : ValidEnv E) (hX : ExactEnv E) {net : Str} {x : Prop}
include hE hX

theorem increaseAll_runs {A : Op → Prop} {s s' : State} {r : Int} (hA : ∀ sh fees, A (.dist sh fees))
    (hs : Sorted s.vals) (hx : x → GoodRewards E net s) (h : increaseAll E net s r = .ok s') :
    Runs x A s r s' 0 0 := by
  obtain ⟨sh, fees, hd⟩ := increaseAll_dist hE hs h
  refine Runs.of [.dist sh fees] (Path.one ?_) rfl (by simp [hA]) ?_
  · have := Op.Step.dist (x := x) (s.bal r) sh fees (hd.exact hX) hd.nodup hd.sum
      (fun h1 => hd.nonneg (hx h1))
    rw [hd.eq]
    exact this
  · rw [hd.eq]; rfl

theorem forfeit_runs {A : Op → Prop} {s s2 s3 : State} {i : Nat} {e : Ev} {p : Int}
    (he : e.forfeits) (hA : ∀ sh fees, A (.dist sh fees)) (hA2 : A (.seize i e))
    (hs : Sorted s.vals) (hx : x → GoodRewards E net s)
    (hp : (s.advance i e).pendOf i = .ok p)
    (h : increaseAll E net (s.advance i e) p = .ok s2) (h3 : s2.resetPending i = .ok s3) :
    Runs x A s 0 s3 0 0 := by
  have hs1 : Sorted (s.advance i e).vals := by
    show Sorted (VMap.modify s.vals i (setStatus e))
    exact hs.modify _ _
  obtain ⟨sh, fees, hd⟩ := increaseAll_dist hE hs1 h
  -- the validator does not earn any more
  obtain ⟨v, hv⟩ : ∃ v, VMap.get s.vals i = some v := by
    unfold State.pendOf at hp
    simp only [State.advance, State.modVal, get_modify_self] at hp
    cases hg : VMap.get s.vals i with
    | none => simp [hg] at hp
    | some v => exact ⟨v, rfl⟩
  have hpv : p = v.pend := by
    unfold State.pendOf at hp
    simp only [State.advance, State.modVal, get_modify_self, hv, Option.map_some,
      Except.ok.injEq] at hp
    exact hp.symm
  have hni : i ∉ sh.map (·.1) := by
    intro hi
    obtain ⟨q, hq, hqi⟩ := List.mem_map.mp hi
    obtain ⟨u, hu, hst⟩ := hd.exact hX q hq
    rw [hqi] at hu
    simp only [State.advance, State.modVal, get_modify_self, hv, Option.map_some,
      Option.some.injEq] at hu
    subst hu
    have := transition_forfeits he v.status
    simp only at hst
    rcases hst with h | h
    · exact this.1 h
    · exact this.2 h
  unfold State.resetPending at h3
  split at h3
  · simp only [Except.ok.injEq] at h3
    refine Runs.of [.seize i e, .dist sh fees] ?_ rfl (by simp [hA, hA2]) ?_
    · refine .cons (Op.Step.seize (s.bal 0) i e v hv he) (Path.one ?_)
      have hvals : s3.vals = credit sh (modify s.vals i fun v => { setStatus e v with pend := 0 }) := by
        rw [← h3, hd.eq]
        simp only [State.modVal, State.advance]
        rw [modify_credit hni, modify_modify]
        rfl
      have hpool : s3.poolFees = s.poolFees + fees := by
        rw [← h3, hd.eq]; rfl
      have e3 : s3.bal 0 = ⟨credit sh (modify s.vals i fun v => { setStatus e v with pend := 0 }),
          s.poolFees + fees, 0⟩ := by
        unfold State.bal; rw [hvals, hpool]
      rw [e3]
      refine Op.Step.dist _ sh fees ?_ hd.nodup ?_ ?_
      · intro q hq
        have h1 := hd.exact hX q hq
        have h2 : earns (modify (modify s.vals i (setStatus e)) i fun v => { v with pend := 0 }) q.1 := by
          rw [earns_modify_pend]; exact h1
        rw [modify_modify] at h2
        exact h2
      · simp only [State.bal]; rw [hd.sum, hpv]; ring
      · intro h1 h2
        simp only [State.bal] at h2
        exact hd.nonneg (hx h1) (by rw [hpv]; omega)
    · rw [← h3, hd.eq]; rfl
  · simp at h3

end

/-! ### Subscriptions -/

theorem isBanned_false {s : State} {i v} (h : s.isBanned i = false) (hv : VMap.get s.vals i = some v) :
    v.status ≠ .banned := by
  unfold State.isBanned at h
  rw [hv] at h
  simpa using h

theorem isTracked_true {s : State} {i} (h : s.isTracked i = true) : (VMap.get s.vals i).isSome := h

theorem isTracked_false {s : State} {i} (h : s.isTracked i = false) : VMap.get s.vals i = none := by
  unfold State.isTracked at h
  simpa using h

theorem subOne_runs {E slot coll b sb dons x} {s s' : State} {ev : SubEvent} {val : Option BVal}
    (hmem : (ev, val) ∈ b.events.subs.zip b.valsSubs) (hc : coll = s.collateral)
    (h : subOne s ev val = .ok s') :
    Runs x (Cause E slot coll b sb dons) s 0 s' 0 ev.collateral := by
  have hev : ev ∈ b.events.subs := (List.of_mem_zip hmem).1
  have hrecv : Cause E slot coll b sb dons (.recv ev.collateral) := Or.inl ⟨ev, hev, rfl⟩
  -- everything to the pool
  have hpool : Runs x (Cause E slot coll b sb dons) s 0 (s.toPool ev.collateral) 0 ev.collateral := by
    refine Runs.of [.recv ev.collateral, .toPool] ?_ (by simp [recvTotal]) ?_ rfl
    · refine .cons (Op.Step.recv _ _) (Path.one ?_)
      have := Op.Step.toPool (x := x) { (s.bal 0) with f := 0 + ev.collateral }
      simpa [State.bal, State.toPool] using this
    · intro op hop
      simp only [List.mem_cons, List.not_mem_nil, or_false] at hop
      rcases hop with rfl | rfl
      · exact hrecv
      · trivial
  unfold subOne at h
  split at h
  · simp only [Except.ok.injEq] at h; subst h; exact hpool
  · rename_i v
    split at h
    · simp at h
    · rename_i hidx
      rw [not_not] at hidx
      split at h
      · simp only [Except.ok.injEq] at h; subst h; exact hpool
      · rename_i hcan
        split at h
        · simp only [Except.ok.injEq] at h; subst h; exact hpool
        · rename_i w hw
          rw [bind_ok] at h
          obtain ⟨senderOk, hsend, h⟩ := h
          split at h
          · simp only [Except.ok.injEq] at h; subst h; exact hpool
          · rename_i hso
            simp only [Bool.not_eq_true', Bool.not_eq_false] at hso hcan
            subst hso
            have hown : OwnerSubscribes b ev.validatorId ev w v :=
              ⟨hmem, rfl, hidx.symm, (canSubscribe_iff _).mp hcan, (compatAddressByte_iff _ _).mp hw,
                equals_true hsend⟩
            -- to the accumulated balance
            have hacc : s.incAccumulated ev.validatorId ev.collateral = .ok s' →
                Runs x (Cause E slot coll b sb dons) s 0 s' 0 ev.collateral := by
              intro h
              unfold State.incAccumulated at h
              split at h
              · rename_i ht
                simp only [Except.ok.injEq] at h
                refine Runs.of [.recv ev.collateral, .toAcc ev.validatorId] ?_ (by simp [recvTotal]) ?_ ?_
                · refine .cons (Op.Step.recv _ _) (Path.one ?_)
                  have := Op.Step.toAcc (x := x) { (s.bal 0) with f := 0 + ev.collateral }
                    ev.validatorId (isTracked_true ht)
                  rw [← h]
                  simpa [State.bal, State.modVal] using this
                · intro op hop
                  simp only [List.mem_cons, List.not_mem_nil, or_false] at hop
                  rcases hop with rfl | rfl
                  · exact hrecv
                  · exact ⟨ev, w, v, hown⟩
                · rw [← h]; rfl
              · simp at h
            split at h
            · exact hacc h
            · rename_i hban
              split at h
              · exact hacc h
              · rename_i hsub
                split at h
                · simp only [Except.ok.injEq] at h; subst h; exact hpool
                · rename_i hcoll
                  split at h
                  · rw [bind_ok] at h
                    obtain ⟨s3, h3, h4⟩ := h
                    simp only [Bool.not_eq_true', Bool.not_eq_false] at hcoll
                    have hcoll' : coll ≤ ev.collateral := by
                      unfold State.collateralEnough at hcoll
                      rw [hc]; simpa using hcoll
                    simp only [Bool.not_eq_true] at hban
                    have hOS : ∃ ev' w v, OwnerSubscribes b ev.validatorId ev' w v ∧ coll ≤ ev'.collateral :=
                      ⟨ev, w, v, hown, hcoll'⟩
                    simp only [Except.ok.injEq] at h4
                    -- the part after a possible creation
                    have hmain : ∀ (s1 : State) u, VMap.get s1.vals ev.validatorId = some u →
                        u.status ≠ .banned →
                        (s1.setSubType ev.validatorId .manual).incPending ev.validatorId ev.collateral = .ok s3 →
                        Runs x (Cause E slot coll b sb dons) s1 0 s' 0 ev.collateral := by
                      intro s1 u hu hub h3
                      unfold State.incPending at h3
                      split at h3
                      · simp only [Except.ok.injEq] at h3
                        refine Runs.of [.recv ev.collateral, .subType ev.validatorId .manual,
                          .toPend ev.validatorId, .adv ev.validatorId .manualSubscription] ?_
                          (by simp [recvTotal]) ?_ ?_
                        · refine .cons (Op.Step.recv _ _) (.cons (Op.Step.subType _ _ _)
                            (.cons (Op.Step.toPend _ ev.validatorId { u with subType := .manual } ?_ hub)
                              (Path.one ?_)))
                          · simp [State.bal, hu]
                          · have := Op.Step.adv (x := x) (s3.bal 0) ev.validatorId .manualSubscription
                              (by rintro (h | h | h) <;> simp at h)
                            rw [← h4]
                            rw [← h3] at this ⊢
                            simp only [State.bal, State.modVal, State.advance, State.setSubType,
                              zero_add] at this ⊢
                            exact this
                        · intro op hop
                          simp only [List.mem_cons, List.not_mem_nil, or_false] at hop
                          rcases hop with rfl | rfl | rfl | rfl
                          · exact hrecv
                          · exact hOS
                          · exact hOS
                          · exact hOS
                        · rw [← h4, ← h3]; rfl
                      · simp at h3
                    split at h3
                    · rename_i htr
                      simp only [Bool.not_eq_true'] at htr
                      have hn := isTracked_false htr
                      have hcre : Runs x (Cause E slot coll b sb dons) s 0 (s.putVal ev.validatorId
                          { status := .notSubscribed, acc := 0, pend := 0, coll := ev.collateral,
                            waddr := w, index := ev.validatorId, key := hexutilEncode v.pubkey,
                            subType := .manual }) 0 0 := by
                        refine Runs.of [.create ev.validatorId _]
                          (Path.one (Op.Step.create (s.bal 0) _ _ hn rfl rfl rfl rfl)) rfl ?_ rfl
                        simp only [List.mem_cons, List.not_mem_nil, or_false, forall_eq]
                        exact Or.inl ⟨ev, w, v, hown, hcoll', rfl, rfl⟩
                      have := hcre.trans (hmain _ _ (by
                        simp only [State.putVal, get_insert, if_true]; rfl) (by simp) h3)
                      simpa using this
                    · rename_i htr
                      simp only [Bool.not_eq_true', Bool.not_eq_false] at htr
                      obtain ⟨u, hu⟩ := Option.isSome_iff_exists.mp (isTracked_true htr)
                      exact hmain s u hu (isBanned_false hban hu) h3
                  · simp only [Except.ok.injEq] at h; subst h; exact hpool

theorem subLoop_runs {E slot coll b sb dons x} {l : List (SubEvent × Option BVal)} {s s' : State}
    (hmem : ∀ p ∈ l, p ∈ b.events.subs.zip b.valsSubs) (hc : coll = s.collateral)
    (h : subLoop l s = .ok s') :
    Runs x (Cause E slot coll b sb dons) s 0 s' 0 (l.map (·.1.collateral)).sum := by
  induction l generalizing s with
  | nil => simp only [subLoop, Except.ok.injEq] at h; subst h; exact Runs.refl _ _ _ _
  | cons p l ih =>
    obtain ⟨ev, v⟩ := p
    simp only [subLoop, bind_ok] at h
    obtain ⟨s1, h1, h2⟩ := h
    have r1 := subOne_runs (E := E) (slot := slot) (sb := sb) (dons := dons) (x := x)
      (hmem (ev, v) (by simp)) hc h1
    have hc1 : coll = s1.collateral := by
      rw [hc]; exact (congrArg State.collateral r1.rest).symm
    simpa using r1.trans (ih (fun p hp => hmem p (by simp [hp])) hc1 h2)

theorem handleSubs_runs {E slot coll b sb dons x} {s s' : State} (hc : coll = s.collateral)
    (h : handleSubs s b.events.subs b.valsSubs = .ok s') :
    Runs x (Cause E slot coll b sb dons) s 0 s' 0 (b.events.subs.map (·.collateral)).sum := by
  unfold handleSubs at h
  split at h
  · simp at h
  · split at h
    · simp at h
    · rename_i hl
      rw [not_not] at hl
      have := subLoop_runs (E := E) (slot := slot) (sb := sb) (dons := dons) (x := x)
        (fun p hp => hp) hc h
      rw [show (List.map (fun p : SubEvent × Option BVal => p.1.collateral)
          (b.events.subs.zip b.valsSubs)) = b.events.subs.map (·.collateral) from by
        have e := List.map_map (g := fun e : SubEvent => e.collateral) (f := Prod.fst)
          (l := b.events.subs.zip b.valsSubs)
        rw [List.map_fst_zip (by omega)] at e
        exact e.symm] at this
      exact this

end Verif
