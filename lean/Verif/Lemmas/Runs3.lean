import Verif.Lemmas.Runs2
/-
Cleanup and whole blocks as sequences of elementary operations.
-/
namespace Verif
open VMap

theorem modify_comm (m : VMap) {i j} (f g) (h : i ≠ j) :
    VMap.modify (VMap.modify m i f) j g = VMap.modify (VMap.modify m j g) i f := by
  unfold VMap.modify
  rw [List.map_map, List.map_map]
  apply List.map_congr_left
  intro p _
  simp only [Function.comp]
  by_cases hi : p.1 = i
  · by_cases hj : p.1 = j
    · exact absurd (hi.symm.trans hj) h
    · simp [hi, h]
  · by_cases hj : p.1 = j
    · simp [hj, Ne.symm h]
    · simp [hi, hj]

theorem consolTarget_mem {cs i tgt} (h : consolTarget cs i = some tgt) : (i, tgt) ∈ cs := by
  unfold consolTarget at h
  obtain ⟨p, hp, ht⟩ := Option.map_eq_some_iff.mp h
  have h1 := List.mem_of_find?_eq_some hp
  have h2 := List.find?_some hp
  simp only [beq_iff_eq] at h2
  rw [← h2, ← ht]
  exact List.mem_reverse.mp h1

theorem pendOf_ok {s : State} {i p} (h : s.pendOf i = .ok p) :
    ∃ v, VMap.get s.vals i = some v ∧ v.pend = p := by
  unfold State.pendOf at h
  split at h
  · simp at h
  · rename_i v hv
    simp only [Except.ok.injEq] at h
    exact ⟨v, hv, h⟩

theorem pendOf_advance {s : State} {i e p} (h : (s.advance i e).pendOf i = .ok p) :
    ∃ v, VMap.get s.vals i = some v ∧ v.pend = p := by
  obtain ⟨v, hv, hp⟩ := pendOf_ok h
  simp only [State.advance, State.modVal, get_modify_self] at hv
  obtain ⟨u, hu, huv⟩ := Option.map_eq_some_iff.mp hv
  subst huv
  exact ⟨u, hu, hp⟩

/-- the list of consolidations comes from the beacon node -/
def ConsolFrom (E : Env) (slot : Nat) (cs : List (Nat × Nat)) : Prop :=
  ∀ p ∈ cs, p.1 ≠ p.2 ∧ ∃ t cs', E.consol t slot = some cs' ∧ p ∈ cs'

theorem cleanOne_runs {E slot coll b sb dons x cs} {s s' : State} {tot tot' : Int} {i : Nat}
    (hslot : slot % 1200 = 0) (hna : NotActive E slot i) (hcs : ConsolFrom E slot cs)
    (hs : Sorted s.vals) (h : cleanOne E slot cs s tot i = .ok (s', tot', true)) :
    Runs x (Cause E slot coll b sb dons) s tot s' tot' 0 := by
  unfold cleanOne at h
  simp only [bind_ok] at h
  obtain ⟨p, hp, h⟩ := h
  have hforf : Cause E slot coll b sb dons (.seize i .unsubscribe) := Or.inr ⟨hslot, hna⟩
  have hseize : ∀ s2, (s.advance i .unsubscribe).resetPending i = .ok s2 →
      (s2, tot + p, true) = (s', tot', true) →
      Runs x (Cause E slot coll b sb dons) s tot s' tot' 0 := by
    intro s2 h2 h3
    simp only [Prod.mk.injEq, and_true] at h3
    rw [← h3.1, ← h3.2]
    exact seize_runs (Or.inl rfl) hforf hp h2
  split at h
  · simp only [bind_ok] at h
    obtain ⟨s2, h2, h3⟩ := h
    simp only [Except.ok.injEq] at h3
    exact hseize s2 h2 h3
  · rename_i tgt htgt
    obtain ⟨hne, t, cs', hcs', hmem'⟩ := hcs _ (consolTarget_mem htgt)
    simp only at hne
    obtain ⟨v, hv, hvp⟩ := pendOf_advance hp
    have hmove : Cause E slot coll b sb dons (.move i tgt) := ⟨hslot, hna, t, cs', hcs', hmem'⟩
    split at h
    · rename_i hcond
      simp only [bind_ok] at h
      obtain ⟨s2, h2, s3, h3, h4⟩ := h
      simp only [Except.ok.injEq, Prod.mk.injEq, and_true] at h4
      rw [← h4.1, ← h4.2]
      simp only [Bool.and_eq_true, Bool.not_eq_true'] at hcond
      obtain ⟨w, hw⟩ := Option.isSome_iff_exists.mp (isTracked_true hcond.1)
      have hwb := isBanned_false hcond.2 hw
      simp only [State.advance, State.modVal] at hw
      rw [get_modify_ne _ _ (Ne.symm hne)] at hw
      unfold State.incPending at h2
      rw [if_pos hcond.1] at h2
      simp only [Except.ok.injEq] at h2
      unfold State.resetPending at h3
      split at h3
      · simp only [Except.ok.injEq] at h3
        refine Runs.of [.move i tgt] (Path.one ?_) rfl (by simpa using hmove) ?_
        · have := Op.Step.move (x := x) (s.bal tot) i tgt v w hv hw hne hwb
          rw [← h3, ← h2]
          simp only [State.bal, State.modVal, State.advance] at this ⊢
          rw [modify_comm _ _ _ (Ne.symm hne), modify_modify, ← hvp]
          exact this
        · rw [← h3, ← h2]; rfl
      · simp at h3
    · split at h
      · rename_i hnt
        split at h
        · simp at h
        · rename_i r hr
          split at h
          · simp at h
          · rename_i bv hbv
            split at h
            · simp at h
            · rename_i w hw
              simp only [bind_ok] at h
              obtain ⟨s3, h3, h4⟩ := h
              simp only [Except.ok.injEq, Prod.mk.injEq, and_true] at h4
              rw [← h4.1, ← h4.2]
              have hbm := List.mem_of_find?_eq_some hbv
              have hbi := List.find?_some hbv
              simp only [beq_iff_eq] at hbi
              simp only [Bool.not_eq_true'] at hnt
              have hnone : VMap.get s.vals tgt = none := by
                have := isTracked_false hnt
                simp only [State.advance, State.modVal] at this
                rwa [get_modify_ne _ _ (Ne.symm hne)] at this
              unfold State.resetPending at h3
              split at h3
              · simp only [Except.ok.injEq] at h3
                let u0 : Validator :=
                  { status := .notSubscribed, acc := 0, pend := 0, coll := 0, waddr := w,
                    index := tgt, key := hexutilEncode bv.pubkey, subType := .manual }
                refine Runs.of [.create tgt u0, .move i tgt] ?_ rfl ?_ ?_
                · refine .cons (Op.Step.create (s.bal tot) _ _ hnone rfl rfl rfl rfl) (Path.one ?_)
                  have := Op.Step.move (x := x)
                    { (s.bal tot) with vals := VMap.insert s.vals tgt u0 }
                    i tgt v u0
                    (by simp only [get_insert, if_neg hne]; exact hv)
                    (by simp only [get_insert, if_true]) hne (by simp [u0])
                  have e : s3.bal tot = ⟨VMap.modify (VMap.modify (VMap.insert s.vals tgt u0)
                        i fun v => { setStatus .unsubscribe v with pend := 0 }) tgt
                        fun w => { w with pend := w.pend + v.pend }, s.poolFees, tot⟩ := by
                    rw [← h3]
                    unfold State.bal
                    congr 1
                    apply VMap.ext
                    · simp only [State.modVal, State.putVal, State.advance]
                      exact (((hs.modify _ _).insert _ _).modify _ _)
                    · exact (((hs.insert _ _).modify _ _).modify _ _)
                    · intro k
                      simp only [State.modVal, State.putVal, State.advance, get_modify, get_insert]
                      by_cases hk : k = tgt
                      · subst hk
                        simp [Ne.symm hne, hvp, u0]
                      · by_cases hki : k = i
                        · subst hki
                          simp [hne, hv, setStatus]
                        · simp [hk, hki]
                  rw [e]; exact this
                · intro op hop
                  simp only [List.mem_cons, List.not_mem_nil, or_false] at hop
                  rcases hop with rfl | rfl
                  · exact Or.inr (Or.inr ⟨hslot, _, _, r, bv, w, (getSet_some hr).1, hbm, hbi,
                      (compatAddressByte_iff _ _).mp hw, rfl, rfl, by
                        obtain ⟨_, _, t', cs, h1, h2⟩ := hmove
                        exact ⟨t', cs, i, h1, h2⟩⟩)
                  · exact hmove
                · rw [← h3]; rfl
              · simp at h3
      · split at h
        · simp only [bind_ok] at h
          obtain ⟨s2, h2, h3⟩ := h
          simp only [Except.ok.injEq] at h3
          exact hseize s2 h2 h3
        · simp at h

theorem cleanLoop_runs {E slot coll b sb dons x cs} {vs : List BVal} {s s' : State} {tot tot' : Int}
    (hslot : slot % 1200 = 0) (hna : ∀ v ∈ vs, v.status.isActive = false → NotActive E slot v.index)
    (hcs : ConsolFrom E slot cs)
    (hs : Sorted s.vals) (h : cleanLoop E slot cs vs s tot = .ok (s', tot', true)) :
    Runs x (Cause E slot coll b sb dons) s tot s' tot' 0 := by
  induction vs generalizing s tot with
  | nil =>
    simp only [cleanLoop, Except.ok.injEq, Prod.mk.injEq, and_true] at h
    rw [← h.1, ← h.2]; exact Runs.refl _ _ _ _
  | cons v vs ih =>
    simp only [cleanLoop] at h
    have hna' : ∀ v ∈ vs, v.status.isActive = false → NotActive E slot v.index :=
      fun u hu => hna u (by simp [hu])
    split at h
    · exact ih hna' hs h
    · rename_i hact
      rw [bind_ok] at h
      obtain ⟨p, hp, h⟩ := h
      split at h
      · exact ih hna' hs h
      · rw [bind_ok] at h
        obtain ⟨⟨s1, tot1, go⟩, h1, h2⟩ := h
        simp only at h2
        split at h2
        · rename_i hgo
          rw [hgo] at h1
          have r1 := cleanOne_runs (coll := coll) (b := b) (sb := sb) (dons := dons) (x := x) hslot
            (hna v (by simp) (by simpa using hact)) hcs hs h1
          simpa using r1.trans (ih hna' (r1.sorted hs) h2)
        · simp at h2

section
variable {E : Env} (hE : ValidEnv E) (hX : ExactEnv E) (hC : NoSelfConsol E) {net : Str} {x : Prop}
include hE hX hC

theorem cleanup_runs {slot coll b sb dons} {s s' : State} (hslot : slot % 1200 = 0)
    (hs : Sorted s.vals) (hx : x → GoodRewards E net s)
    (h : cleanup E net s slot = .ok (s', true)) :
    Runs x (Cause E slot coll b sb dons) s 0 s' 0 0 := by
  unfold cleanup at h
  split at h
  · simp only [Except.ok.injEq, Prod.mk.injEq, and_true] at h
    rw [← h]; exact Runs.refl _ _ _ _
  · simp only at h
    split at h
    · simp only [Except.ok.injEq, Prod.mk.injEq, and_true] at h
      rw [← h]; exact Runs.refl _ _ _ _
    · split at h
      · simp at h
      · rename_i cs hcs
        have hcf : ConsolFrom E slot cs := by
          intro p hp
          split at hcs
          · exact ⟨hC _ _ _ hcs p hp, _, _, hcs, hp⟩
          · simp only [Option.some.injEq] at hcs
            rw [← hcs] at hp; simp at hp
        split at h
        · simp at h
        · rename_i vs hvs
          have hvs' := getSet_some hvs
          rw [bind_ok] at h
          obtain ⟨⟨s1, tot, go⟩, h1, h2⟩ := h
          simp only at h2
          have hgo : go = true := by
            cases go
            · simp at h2
            · rfl
          subst hgo
          have r0 : Runs x (Cause E slot coll b sb dons) s 0 { s with tick := s.tick + 2 } 0 0 :=
            (Runs.refl x _ s 0).logs rfl rfl rfl
          have r1 := r0.trans (cleanLoop_runs (coll := coll) (b := b) (sb := sb) (dons := dons)
            (x := x) hslot (fun v hv ha => ⟨_, _, vs, v, hvs'.1,
              (shuffle_perm hE _ _).mem_iff.mp hv, rfl, ha⟩) hcf (r0.sorted hs) h1)
          simp only [Bool.not_true, Bool.false_eq_true, if_false] at h2
          split at h2
          · rw [bind_ok] at h2
            obtain ⟨s2, h3, h4⟩ := h2
            simp only [Except.ok.injEq, Prod.mk.injEq, and_true] at h4
            rw [← h4]
            have := r1.trans (increaseAll_runs hE hX (fun _ _ => trivial) (r1.sorted hs)
              (good_rest r1.rest hx) h3)
            simpa using this
          · rename_i htot
            rw [not_not] at htot
            simp only [Except.ok.injEq, Prod.mk.injEq, and_true] at h2
            rw [htot, h2] at r1
            simpa using r1

omit hC in
/-- Money entering the pool through one block's handlers. -/
theorem applyBlock_runs {b sb dons} {s s' : State} {slot : Nat}
    (hs : Sorted s.vals) (hx : x → GoodRewards E net s)
    (h : applyBlock E net s b sb dons = .ok s') :
    ∃ r, ((sb.type = .okPool ∨ sb.type = .okPoolBls) → sb.reward = some r) ∧
      (sb.type ≠ .okPool → sb.type ≠ .okPoolBls → r = 0) ∧
      Runs x (Cause E slot s.collateral b sb dons)
        { s with
          subs := s.subs ++ b.events.subs
          unsubs := s.unsubs ++ b.events.unsubs
          ether := s.ether ++ b.events.ether } 0 s' 0
        ((b.events.subs.map (·.collateral)).sum + r + (dons.map (·.amount)).sum) := by
  unfold applyBlock at h
  simp only [bind_ok] at h
  obtain ⟨s1, h1, s3, h3, s4, h4, s5, h5, s6, h6, s7, h7, s8, h8, h9⟩ := h
  set s0 : State := { s with
          subs := s.subs ++ b.events.subs
          unsubs := s.unsubs ++ b.events.unsubs
          ether := s.ether ++ b.events.ether } with hs0
  have hx0 : x → GoodRewards E net s0 := hx
  have r1 := handleSubs_runs (E := E) (slot := slot) (coll := s.collateral) (b := b) (sb := sb)
    (dons := dons) (x := x) (s := s0) rfl h1
  -- the missed part
  have r2 : Runs x (Cause E slot s.collateral b sb dons) s1 0
      (if sb.type = .missed ∧ s1.isSubscribed sb.index then handleMissed s1 sb else s1) 0 0 := by
    split
    · rename_i hm; exact handleMissed_runs hm.1
    · exact Runs.refl _ _ _ _
  have q2 := r1.trans r2
  -- the proposal part
  have r34 : ∃ r, ((sb.type = .okPool ∨ sb.type = .okPoolBls) → sb.reward = some r) ∧
      (sb.type ≠ .okPool → sb.type ≠ .okPoolBls → r = 0) ∧
      Runs x (Cause E slot s.collateral b sb dons)
        (if sb.type = .missed ∧ s1.isSubscribed sb.index then handleMissed s1 sb else s1) 0 s4 0 r := by
    by_cases hb : sb.type = .okPoolBls
    · rw [if_pos hb] at h3
      have hno : sb.type ≠ .okPool := by rw [hb]; simp
      rw [if_neg hno] at h4
      simp only [Except.ok.injEq] at h4
      rw [← h4]
      obtain ⟨r, hr, hrun⟩ := handleBls_runs (E := E) (slot := slot) (coll := s.collateral) (b := b)
        (dons := dons) (x := x) h3
      exact ⟨r, fun _ => hr, fun _ h => absurd hb h, hrun⟩
    · rw [if_neg hb] at h3
      simp only [Except.ok.injEq] at h3
      rw [← h3] at h4
      by_cases ho : sb.type = .okPool
      · rw [if_pos ho] at h4
        obtain ⟨r, hr, hrun⟩ := handleCorrect_runs hE hX (slot := slot) (coll := s.collateral) (b := b)
          (dons := dons) (x := x) ho (q2.sorted hs) (good_rest q2.rest hx0) h4
        exact ⟨r, fun _ => hr, fun h => absurd ho h, hrun⟩
      · rw [if_neg ho] at h4
        simp only [Except.ok.injEq] at h4
        rw [← h4]
        refine ⟨0, ?_, fun _ _ => rfl, Runs.refl _ _ _ _⟩
        rintro (h | h)
        · exact absurd h ho
        · exact absurd h hb
  obtain ⟨r, hr1, hr2, r4⟩ := r34
  have q4 := q2.trans r4
  have r5 : Runs x (Cause E slot s.collateral b sb dons) s4 0 s5 0 0 := by
    split at h5
    · rename_i hw
      exact handleWrongFee_runs hE hX hw.1 (q4.sorted hs) (good_rest q4.rest hx0) h5
    · simp only [Except.ok.injEq] at h5
      rw [← h5]; exact Runs.refl _ _ _ _
  have q5 := q4.trans r5
  have q6 := q5.trans (handleUnsubs_runs hE hX (q5.sorted hs) (good_rest q5.rest hx0) h6)
  have q7 := q6.trans (handleDonations_runs hE hX (q6.sorted hs) (good_rest q6.rest hx0) h7)
  have q8 := q7.trans (handleBans_runs hE hX (q7.sorted hs) (good_rest q7.rest hx0) h8)
  have q9 := q8.trans (handleUnbans_runs h9)
  refine ⟨r, hr1, hr2, ?_⟩
  simp only [add_zero] at q9
  exact q9

end
end Verif
