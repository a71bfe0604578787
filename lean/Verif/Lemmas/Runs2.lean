import Verif.Lemmas.Runs
import Verif.Model.Advance
/-
The remaining handlers, cleanup and whole blocks as sequences of elementary operations.
-/
namespace Verif
open VMap

theorem adv_ok {e : Ev} (h1 : e ≠ .unsubscribe) (h2 : e ≠ .proposalWrongFee) (h3 : e ≠ .manualBan) :
    ¬ e.forfeits := by
  rintro (h | h | h)
  · exact h1 h
  · exact h2 h
  · exact h3 h

theorem advance_runs {A x} {s : State} {i e f} (he : ¬ e.forfeits) (hA : A (.adv i e)) :
    Runs x A s f (s.advance i e) f 0 :=
  Runs.of [.adv i e] (Path.one (Op.Step.adv (s.bal f) i e he)) rfl (by simpa using hA) rfl

theorem setSubType_runs {A x} {s : State} {i t f} (hA : A (.subType i t)) :
    Runs x A s f (s.setSubType i t) f 0 :=
  Runs.of [.subType i t] (Path.one (Op.Step.subType (s.bal f) i t)) rfl (by simpa using hA) rfl

theorem toPool_runs {A x} {s : State} {y} (hA : A .toPool) (hA2 : A (.recv y)) :
    Runs x A s 0 (s.toPool y) 0 y := by
  refine Runs.of [.recv y, .toPool] ?_ (by simp [recvTotal]) (by simp [hA, hA2]) rfl
  refine .cons (Op.Step.recv _ _) (Path.one ?_)
  have := Op.Step.toPool (x := x) { (s.bal 0) with f := 0 + y }
  simpa [State.bal, State.toPool] using this

theorem recv_runs {A x} {s : State} {y f} (hA : A (.recv y)) : Runs x A s f s (f + y) y :=
  Runs.of [.recv y] (Path.one (Op.Step.recv (s.bal f) y)) (by simp [recvTotal]) (by simpa using hA) rfl

/-- changing only the logs or the tick -/
theorem Runs.logs {x A s f s' f' r s''} (h : Runs x A s f s' f' r) (h1 : s''.vals = s'.vals)
    (h2 : s''.poolFees = s'.poolFees) (h3 : s''.rest = s'.rest) : Runs x A s f s'' f' r := by
  obtain ⟨⟨o, p, e, a⟩, m⟩ := h
  refine ⟨⟨o, ?_, e, a⟩, h3.trans m⟩
  unfold State.bal at p ⊢
  rw [h1, h2]; exact p

theorem addSubscription_runs {E slot coll b sb dons x} {s : State} (hok : sb.type = .okPool) :
    Runs x (Cause E slot coll b sb dons) s 0 (addSubscription s sb.index sb.waddr sb.key) 0 0 := by
  unfold addSubscription
  split
  · rename_i ht
    simp only [Bool.not_eq_true'] at ht
    have hn := isTracked_false ht
    have r1 : Runs x (Cause E slot coll b sb dons) s 0 (s.putVal sb.index
        { status := .notSubscribed, acc := 0, pend := 0, coll := 0, waddr := sb.waddr,
          index := sb.index, key := sb.key, subType := .manual }) 0 0 := by
      refine Runs.of [.create sb.index _]
        (Path.one (Op.Step.create (s.bal 0) _ _ hn rfl rfl rfl rfl)) rfl ?_ rfl
      simp only [List.mem_cons, List.not_mem_nil, or_false, forall_eq]
      exact Or.inr (Or.inl ⟨hok, rfl, rfl, rfl⟩)
    have r2 := r1.trans (advance_runs (i := sb.index) (e := .autoSubscription)
      (by rintro (h | h | h) <;> simp at h) ⟨hok, rfl⟩)
    have r3 := r2.trans (setSubType_runs (i := sb.index) (t := .auto) ⟨hok, rfl⟩)
    simpa using r3
  · split
    · have r1 : Runs x (Cause E slot coll b sb dons) s 0 (s.advance sb.index .autoSubscription) 0 0 :=
        advance_runs (by rintro (h | h | h) <;> simp at h) ⟨hok, rfl⟩
      simp only
      split
      · have := r1.trans (setSubType_runs (i := sb.index) (t := .auto) ⟨hok, rfl⟩)
        simpa using this
      · exact r1
    · exact Runs.refl _ _ _ _

theorem handleMissed_runs {E slot coll b sb dons x} {s : State} (hm : sb.type = .missed) :
    Runs x (Cause E slot coll b sb dons) s 0 (handleMissed s sb) 0 0 := by
  have r1 : Runs x (Cause E slot coll b sb dons) s 0 (s.advance sb.index .proposalMissed) 0 0 :=
    advance_runs (by rintro (h | h | h) <;> simp at h) ⟨hm, rfl⟩
  exact r1.logs rfl rfl rfl

theorem handleBls_runs {E slot coll b sb dons x} {s s' : State} (h : handleBls s sb = .ok s') :
    ∃ r, sb.reward = some r ∧ Runs x (Cause E slot coll b sb dons) s 0 s' 0 r := by
  unfold handleBls at h
  split at h
  · simp at h
  · rename_i ht
    rw [not_not] at ht
    split at h
    · simp at h
    · rename_i r hr
      simp only [Except.ok.injEq] at h
      refine ⟨r, hr, ?_⟩
      have r1 : Runs x (Cause E slot coll b sb dons) s 0 (s.toPool r) 0 r :=
        toPool_runs trivial (Or.inr (Or.inl ⟨Or.inr ht, hr⟩))
      rw [← h]
      exact r1.logs rfl rfl rfl

section
variable {E : Env} (hE : ValidEnv E) (hX : ExactEnv E) {net : Str} {x : Prop}
include hE hX

omit hE hX in
theorem good_rest {s s' : State} (h : s'.rest = s.rest) (hx : x → GoodRewards E net s) :
    x → GoodRewards E net s' := by
  intro hh
  have h1 : s'.fee = s.fee := by have := congrArg State.fee h; exact this
  have h2 : s'.nextSlot = s.nextSlot := by have := congrArg State.nextSlot h; exact this
  have := hx hh
  unfold GoodRewards at this ⊢
  rw [h1, h2]; exact this

theorem handleCorrect_runs {slot coll b sb dons} {s s' : State} (hok : sb.type = .okPool)
    (hs : Sorted s.vals) (hx : x → GoodRewards E net s) (h : handleCorrect E net s sb = .ok s') :
    ∃ r, sb.reward = some r ∧ Runs x (Cause E slot coll b sb dons) s 0 s' 0 r := by
  unfold handleCorrect at h
  split at h
  · simp at h
  · rename_i r hr
    simp only [bind_ok] at h
    obtain ⟨s2, h2, s3, h3, h4⟩ := h
    refine ⟨r, hr, ?_⟩
    have r1 : Runs x (Cause E slot coll b sb dons) s 0
        ((addSubscription s sb.index sb.waddr sb.key).advance sb.index .proposalOk) 0 (0 + 0) :=
      (addSubscription_runs hok).trans
        (advance_runs (i := sb.index) (e := .proposalOk) (by rintro (h | h | h) <;> simp at h) ⟨hok, rfl⟩)
    have r2 := r1.trans (recv_runs (y := r) (Or.inr (Or.inl ⟨Or.inl hok, hr⟩)))
    have r3 := r2.trans (by
      rw [zero_add]
      exact increaseAll_runs hE hX (fun _ _ => trivial) (r1.sorted hs) (good_rest r1.rest hx) h2)
    have r4 : Runs x (Cause E slot coll b sb dons) s2 0 s3 0 0 := by
      unfold State.consolidate at h3
      split at h3
      · rename_i ht
        simp only [Except.ok.injEq] at h3
        rw [← h3]
        refine Runs.of [.consol sb.index] (Path.one (Op.Step.consol (s2.bal 0) _ (isTracked_true ht)))
          rfl ?_ rfl
        simp only [List.mem_cons, List.not_mem_nil, or_false, forall_eq]
        exact ⟨hok, rfl⟩
      · simp at h3
    have r5 := r3.trans r4
    simp only [Except.ok.injEq] at h4
    rw [← h4]
    simp only [zero_add, add_zero] at r5
    exact r5.logs rfl rfl rfl

theorem handleWrongFee_runs {slot coll b sb dons} {s s' : State} (hw : sb.type = .wrongFee)
    (hs : Sorted s.vals) (hx : x → GoodRewards E net s) (h : handleWrongFee E net s sb = .ok s') :
    Runs x (Cause E slot coll b sb dons) s 0 s' 0 0 := by
  unfold handleWrongFee at h
  simp only [bind_ok] at h
  obtain ⟨p, h1, s2, h2, s3, h3, h4⟩ := h
  have := forfeit_runs hE hX (x := x) (A := Cause E slot coll b sb dons) (Or.inr (Or.inl rfl))
    (fun _ _ => trivial) ⟨hw, rfl⟩ hs hx h1 h2 h3
  simp only [Except.ok.injEq] at h4
  rw [← h4]
  exact this.logs rfl rfl rfl

theorem unsubOne_runs {slot coll b sb dons} {s s' : State} {ev : UnsubEvent} {val : Option BVal}
    (hmem : (ev, val) ∈ b.events.unsubs.zip b.valsUnsubs)
    (hs : Sorted s.vals) (hx : x → GoodRewards E net s) (h : unsubOne E net s ev val = .ok s') :
    Runs x (Cause E slot coll b sb dons) s 0 s' 0 0 := by
  unfold unsubOne at h
  split at h
  · simp only [Except.ok.injEq] at h; subst h; exact Runs.refl _ _ _ _
  · rename_i v
    split at h
    · simp at h
    · rename_i hidx
      rw [not_not] at hidx
      split at h
      · simp only [Except.ok.injEq] at h; subst h; exact Runs.refl _ _ _ _
      · rename_i w hw
        rw [bind_ok] at h
        obtain ⟨so, hso, h⟩ := h
        split at h
        · simp only [Except.ok.injEq] at h; subst h; exact Runs.refl _ _ _ _
        · rename_i hs0
          simp only [Bool.not_eq_true', Bool.not_eq_false] at hs0
          subst hs0
          split at h
          · simp only [bind_ok] at h
            obtain ⟨p, h1, s2, h2, h3⟩ := h
            exact forfeit_runs hE hX (Or.inl rfl) (fun _ _ => trivial)
              (Or.inl ⟨ev, v, w, hmem, rfl, hidx, (compatAddressByte_iff _ _).mp hw, equals_true hso⟩)
              hs hx h1 h2 h3
          · simp only [Except.ok.injEq] at h; subst h; exact Runs.refl _ _ _ _

theorem unsubLoop_runs {slot coll b sb dons} {l : List (UnsubEvent × Option BVal)} {s s' : State}
    (hmem : ∀ p ∈ l, p ∈ b.events.unsubs.zip b.valsUnsubs)
    (hs : Sorted s.vals) (hx : x → GoodRewards E net s) (h : unsubLoop E net l s = .ok s') :
    Runs x (Cause E slot coll b sb dons) s 0 s' 0 0 := by
  induction l generalizing s with
  | nil => simp only [unsubLoop, Except.ok.injEq] at h; subst h; exact Runs.refl _ _ _ _
  | cons p l ih =>
    obtain ⟨ev, v⟩ := p
    simp only [unsubLoop, bind_ok] at h
    obtain ⟨s1, h1, h2⟩ := h
    have r1 := unsubOne_runs hE hX (slot := slot) (coll := coll) (sb := sb) (dons := dons)
      (hmem (ev, v) (by simp)) hs hx h1
    simpa using r1.trans (ih (fun p hp => hmem p (by simp [hp])) (r1.sorted hs)
      (good_rest r1.rest hx) h2)

theorem handleUnsubs_runs {slot coll b sb dons} {s s' : State}
    (hs : Sorted s.vals) (hx : x → GoodRewards E net s)
    (h : handleUnsubs E net s b.events.unsubs b.valsUnsubs = .ok s') :
    Runs x (Cause E slot coll b sb dons) s 0 s' 0 0 := by
  unfold handleUnsubs at h
  split at h
  · simp at h
  · split at h
    · simp at h
    · exact unsubLoop_runs hE hX (fun p hp => hp) hs hx h

theorem donLoop_runs {slot coll b sb dons} {ds : List EtherEvent} {s s' : State}
    (hmem : ∀ d ∈ ds, d ∈ dons)
    (hs : Sorted s.vals) (hx : x → GoodRewards E net s) (h : donLoop E net ds s = .ok s') :
    Runs x (Cause E slot coll b sb dons) s 0 s' 0 (ds.map (·.amount)).sum := by
  induction ds generalizing s with
  | nil => simp only [donLoop, Except.ok.injEq] at h; subst h; exact Runs.refl _ _ _ _
  | cons d ds ih =>
    simp only [donLoop, bind_ok] at h
    obtain ⟨s1, h1, h2⟩ := h
    have r0 : Runs x (Cause E slot coll b sb dons) s 0 s (0 + d.amount) d.amount :=
      recv_runs (Or.inr (Or.inr ⟨d, hmem d (by simp), rfl⟩))
    have r1 : Runs x (Cause E slot coll b sb dons) s 0 { s1 with donations := s1.donations ++ [d] } 0
        (d.amount + 0) := by
      apply Runs.logs (s' := s1) _ rfl rfl rfl
      apply r0.trans
      rw [zero_add]
      exact increaseAll_runs hE hX (fun _ _ => trivial) hs hx h1
    have := r1.trans (ih (fun p hp => hmem p (by simp [hp])) (r1.sorted hs) (good_rest r1.rest hx) h2)
    simpa using this

theorem handleDonations_runs {slot coll b sb dons} {s s' : State}
    (hs : Sorted s.vals) (hx : x → GoodRewards E net s)
    (h : handleDonations E net s dons = .ok s') :
    Runs x (Cause E slot coll b sb dons) s 0 s' 0 (dons.map (·.amount)).sum := by
  unfold handleDonations at h
  split at h
  · simp at h
  · exact donLoop_runs hE hX (fun d hd => hd) hs hx h

omit hE hX in
/-- seizing without distributing -/
theorem seize_runs {A} {s s2 : State} {i e p f} (he : e.forfeits) (hA : A (.seize i e))
    (hp : (s.advance i e).pendOf i = .ok p) (h2 : (s.advance i e).resetPending i = .ok s2) :
    Runs x A s f s2 (f + p) 0 := by
  obtain ⟨v, hv⟩ : ∃ v, VMap.get s.vals i = some v := by
    unfold State.pendOf at hp
    simp only [State.advance, State.modVal, get_modify_self] at hp
    cases hg : VMap.get s.vals i with
    | none => simp [hg] at hp
    | some v => exact ⟨v, rfl⟩
  have hpv : p = v.pend := by
    unfold State.pendOf at hp
    simp only [State.advance, State.modVal, get_modify_self, hv, Option.map_some,
      Except.ok.injEq] at hp
    exact hp.symm
  unfold State.resetPending at h2
  split at h2
  · simp only [Except.ok.injEq] at h2
    refine Runs.of [.seize i e] (Path.one ?_) rfl (by simpa using hA) ?_
    · have := Op.Step.seize (x := x) (s.bal f) i e v hv he
      rw [hpv, ← h2]
      simp only [State.bal, State.modVal, State.advance] at this ⊢
      rw [modify_modify]
      exact this
    · rw [← h2]; rfl
  · simp at h2

omit hE hX in
theorem banLoop_runs {slot coll b sb dons} {l : List BanEvent} {s s' : State} {tot tot' : Int}
    (hmem : ∀ d ∈ l, d ∈ b.events.bans) (h : banLoop l s tot = .ok (s', tot')) :
    Runs x (Cause E slot coll b sb dons) s tot s' tot' 0 := by
  induction l generalizing s tot with
  | nil =>
    simp only [banLoop, Except.ok.injEq, Prod.mk.injEq] at h
    rw [← h.1, ← h.2]; exact Runs.refl _ _ _ _
  | cons ev l ih =>
    simp only [banLoop] at h
    split at h
    · exact ih (fun p hp => hmem p (by simp [hp])) h
    · simp only [bind_ok] at h
      obtain ⟨p, h1, s2, h2, h3⟩ := h
      have r1 := seize_runs (x := x) (A := Cause E slot coll b sb dons) (f := tot)
        (Or.inr (Or.inr rfl)) ⟨ev, hmem ev (by simp), rfl⟩ h1 h2
      simpa using r1.trans (ih (fun p hp => hmem p (by simp [hp])) h3)

theorem handleBans_runs {slot coll b sb dons} {s s' : State}
    (hs : Sorted s.vals) (hx : x → GoodRewards E net s)
    (h : handleBans E net s b.events.bans = .ok s') :
    Runs x (Cause E slot coll b sb dons) s 0 s' 0 0 := by
  unfold handleBans at h
  split at h
  · simp only [Except.ok.injEq] at h; subst h; exact Runs.refl _ _ _ _
  · split at h
    · simp at h
    · rw [bind_ok] at h
      obtain ⟨⟨s1, tot⟩, h1, h2⟩ := h
      have r1 := banLoop_runs (E := E) (x := x) (slot := slot) (coll := coll) (sb := sb) (dons := dons)
        (fun d hd => hd) h1
      simp only at h2
      split at h2
      · simp at h2
      · rename_i hneg
        split at h2
        · have := r1.trans (increaseAll_runs hE hX (fun _ _ => trivial) (r1.sorted hs)
            (good_rest r1.rest hx) h2)
          simpa using this
        · rename_i hpos
          have : tot = 0 := by omega
          simp only [Except.ok.injEq] at h2
          rw [this, h2] at r1; exact r1

omit hE hX in
theorem unbanLoop_runs {slot coll b sb dons} {l : List BanEvent} {s : State}
    (hmem : ∀ d ∈ l, d ∈ b.events.unbans) :
    Runs x (Cause E slot coll b sb dons) s 0 (unbanLoop l s) 0 0 := by
  induction l generalizing s with
  | nil => exact Runs.refl _ _ _ _
  | cons ev l ih =>
    simp only [unbanLoop]
    split
    · exact ih (fun p hp => hmem p (by simp [hp]))
    · have r1 : Runs x (Cause E slot coll b sb dons) s 0 (s.advance ev.validatorId .manualUnban) 0 0 :=
        advance_runs (by rintro (h | h | h) <;> simp at h) ⟨ev, hmem ev (by simp), rfl⟩
      simpa using r1.trans (ih (fun p hp => hmem p (by simp [hp])))

omit hE hX in
theorem handleUnbans_runs {slot coll b sb dons} {s s' : State}
    (h : handleUnbans s b.events.unbans = .ok s') :
    Runs x (Cause E slot coll b sb dons) s 0 s' 0 0 := by
  unfold handleUnbans at h
  split at h
  · simp at h
  · simp only [Except.ok.injEq] at h
    rw [← h]; exact unbanLoop_runs (fun d hd => hd)

end

end Verif
