import Verif.Lemmas.Subs
/-
Exact effect of the proposal stage.
-/
namespace Verif
open VMap

section
variable {E : Env} {net : Str} {s s' : State} {sb : SumBlock}

theorem advance_eq_of {s : State} {i e} {f : Validator → Validator} (hs : Sorted s.vals)
    (h : ∀ v, VMap.get s.vals i = some v → { v with status := transition v.status e } = f v) :
    s.advance i e = { s with vals := VMap.modify s.vals i f } := by
  unfold State.advance State.modVal
  rw [modify_congr h hs]

theorem proposal_missed (hs : Sorted s.vals) (h5 : FiveStates s) (ht : sb.type = .missed)
    (h : proposalStage E net s sb = .ok s') :
    ((∃ v, VMap.get s.vals sb.index = some v ∧ Subscribed v.status) ∧
      s' = { s with
        vals := (VMap.modify s.vals sb.index fun v => { v with status := afterMiss v.status })
        missed := s.missed ++ [sb] }) ∨
    ((∀ v, VMap.get s.vals sb.index = some v → ¬ Subscribed v.status) ∧ s' = s) := by
  unfold proposalStage at h
  simp only [ht, true_and, reduceCtorEq, if_false, bind_ok, Except.ok.injEq, false_and] at h
  obtain ⟨s3, h3, s4, h4, h⟩ := h
  subst h4 h3 h
  by_cases hsub : s.isSubscribed sb.index = true
  · left
    have := (isSubscribed_iff h5 _).mp hsub
    refine ⟨this, ?_⟩
    rw [if_pos hsub]
    unfold handleMissed
    rw [advance_eq_of hs (f := fun v => { v with status := afterMiss v.status })]
    obtain ⟨u, hu, hst⟩ := this
    intro v hv
    rw [hu, Option.some.injEq] at hv
    subst hv
    rcases hst with h | h | h <;> simp [h, transition, afterMiss]
  · right
    refine ⟨?_, by rw [if_neg hsub]⟩
    intro v hv hst
    exact hsub ((isSubscribed_iff h5 _).mpr ⟨v, hv, hst⟩)

theorem proposal_bls (ht : sb.type = .okPoolBls) (h : proposalStage E net s sb = .ok s') :
    ∃ r, sb.reward = some r ∧
      s' = { s with poolFees := s.poolFees + r, proposed := s.proposed ++ [sb] } := by
  unfold proposalStage at h
  simp only [ht, reduceCtorEq, if_false, if_true, bind_ok, Except.ok.injEq, false_and] at h
  obtain ⟨s3, h3, s4, h4, h⟩ := h
  subst h4 h
  unfold handleBls at h3
  simp only [ht, ne_eq, not_true_eq_false, if_false] at h3
  split at h3
  · simp at h3
  · rename_i r hr
    simp only [Except.ok.injEq] at h3
    exact ⟨r, hr, h3.symm⟩

theorem proposal_wrongFee (hE : ValidEnv E) (hX : ExactEnv E) (hs : Sorted s.vals) (h5 : FiveStates s)
    (ht : sb.type = .wrongFee) (h : proposalStage E net s sb = .ok s') :
    (∃ v s2, VMap.get s.vals sb.index = some v ∧ Subscribed v.status ∧
      Shares E net { s with vals := (VMap.modify s.vals sb.index fun v =>
        { v with status := .banned, pend := 0 }) } v.pend s2 ∧
      s' = { s2 with wrongFee := s2.wrongFee ++ [sb] }) ∨
    ((∀ v, VMap.get s.vals sb.index = some v → ¬ Subscribed v.status) ∧ s' = s) := by
  unfold proposalStage at h
  simp only [ht, reduceCtorEq, if_false, bind_ok, Except.ok.injEq, false_and, true_and] at h
  obtain ⟨s3, h3, s4, h4, h⟩ := h
  subst h3 h4
  split at h
  · rename_i hsub
    left
    obtain ⟨v, hv, hst⟩ := (isSubscribed_iff h5 _).mp hsub
    unfold handleWrongFee at h
    simp only [bind_ok] at h
    obtain ⟨p, hp, s2, h2, s3, h3, h⟩ := h
    obtain ⟨u, hu, hp'⟩ := pendOf_advance hp
    rw [hv, Option.some.injEq] at hu; subst hu
    have hs1 : Sorted (s.advance sb.index .proposalWrongFee).vals := by
      show Sorted (VMap.modify s.vals sb.index (setStatus .proposalWrongFee))
      exact hs.modify _ _
    have hr := increaseAll_reset hE hX hs1 (i := sb.index) (by
      intro v' hv' he
      simp only [State.advance, State.modVal, get_modify_self, hv, Option.map_some,
        Option.some.injEq] at hv'
      subst hv'
      rcases hst with h | h | h <;> simp [Earning, h, transition] at he) h2
    unfold State.resetPending at h3
    split at h3
    · simp only [Except.ok.injEq] at h3 h
      refine ⟨v, s3, hv, hst, ?_, h.symm⟩
      refine increaseAll_shares hE hX (by dsimp only; exact hs.modify _ _) ?_
      rw [hp', ← h3, State.modVal, ← hr]
      congr 1
      simp only [State.advance, State.modVal]
      rw [modify_modify]
      congr 1
      refine modify_congr ?_ hs
      intro u' hu'
      rw [hv, Option.some.injEq] at hu'; subst hu'
      rcases hst with h | h | h <;> simp [h, transition]
    · simp at h3
  · rename_i hsub
    right
    simp only [Except.ok.injEq] at h
    refine ⟨?_, h.symm⟩
    intro v hv hst
    exact hsub ((isSubscribed_iff h5 _).mpr ⟨v, hv, hst⟩)

/-- the validators just before a reward is shared -/
abbrev enrol (s : State) (sb : SumBlock) : VMap := enrolled s.vals sb.index sb.waddr sb.key

theorem enrol_eq (hs : Sorted s.vals) (h5 : FiveStates s) :
    ((addSubscription s sb.index sb.waddr sb.key).advance sb.index .proposalOk)
      = { s with vals := enrol s sb } := by
  unfold enrol enrolled
  cases hg : VMap.get s.vals sb.index with
  | none =>
    have ht : s.isTracked sb.index = false := by simp [State.isTracked, hg]
    unfold addSubscription
    simp only [ht, Bool.not_false, if_true]
    simp only [State.advance, State.modVal, State.setSubType, State.putVal]
    rw [modify_insert _ _ _ _ hg, modify_insert _ _ _ _ hg, modify_insert _ _ _ _ hg]
    simp [transition]
  | some u =>
    have ht : s.isTracked sb.index = true := by simp [State.isTracked, hg]
    unfold addSubscription
    simp only [ht, Bool.not_true, Bool.false_eq_true, if_false]
    have hd := h5.get hg
    by_cases hsub : s.isSubscribed sb.index = true
    · obtain ⟨u', hu', hst⟩ := (isSubscribed_iff h5 _).mp hsub
      rw [hg, Option.some.injEq] at hu'; subst hu'
      simp only [hsub, Bool.not_true, Bool.false_eq_true, if_false]
      apply advance_eq_of hs
      intro v hv
      rw [hg, Option.some.injEq] at hv; subst hv
      rcases hst with h | h | h <;> simp [h, transition, afterPay]
    · have hns : ¬ Subscribed u.status := fun h => hsub ((isSubscribed_iff h5 _).mpr ⟨u, hg, h⟩)
      simp only [Bool.not_eq_true] at hsub
      simp only [hsub, Bool.not_false, if_true]
      have hgm : VMap.get (s.advance sb.index .autoSubscription).vals sb.index
          = some { u with status := transition u.status .autoSubscription } := by
        simp only [State.advance, State.modVal, get_modify_self, hg]; rfl
      rcases hd with hd | hd | hd
      · exact absurd hd hns
      · have hnb : (s.advance sb.index .autoSubscription).isBanned sb.index = false := by
          unfold State.isBanned; rw [hgm]; simp [hd, transition]
        simp only [hnb, Bool.not_false, if_true]
        simp only [State.advance, State.modVal, State.setSubType]
        rw [modify_modify, modify_modify]
        congr 1
        refine modify_congr ?_ hs
        intro v hv
        rw [hg, Option.some.injEq] at hv; subst hv
        simp [hd, transition, afterPay]
      · have hnb : (s.advance sb.index .autoSubscription).isBanned sb.index = true := by
          unfold State.isBanned; rw [hgm]; simp [hd, transition]
        simp only [hnb, Bool.not_true, Bool.false_eq_true, if_false]
        simp only [State.advance, State.modVal]
        rw [modify_modify]
        congr 1
        refine modify_congr ?_ hs
        intro v hv
        rw [hg, Option.some.injEq] at hv; subst hv
        simp [hd, transition, afterPay]

theorem sorted_enrol {s : State} {sb : SumBlock} (hs : Sorted s.vals) : Sorted (enrol s sb) := by
  unfold enrol enrolled
  split
  · exact hs.insert _ _
  · exact hs.modify _ _

theorem proposal_ok (hE : ValidEnv E) (hX : ExactEnv E) (hs : Sorted s.vals) (h5 : FiveStates s) (ht : sb.type = .okPool)
    (h : proposalStage E net s sb = .ok s') :
    ∃ r s2, sb.reward = some r ∧ Shares E net { s with vals := enrol s sb } r s2 ∧
      s' = { s2 with
        vals := (VMap.modify s2.vals sb.index fun v => { v with acc := v.acc + v.pend, pend := 0 })
        proposed := s2.proposed ++ [sb] } := by
  unfold proposalStage at h
  simp only [ht, reduceCtorEq, if_false, if_true, bind_ok, Except.ok.injEq, false_and] at h
  obtain ⟨s3, h3, s4, h4, h⟩ := h
  subst h3 h
  unfold handleCorrect at h4
  simp only at h4
  split at h4
  · simp at h4
  · rename_i r hr
    simp only [bind_ok, Except.ok.injEq] at h4
    obtain ⟨s2, h2, s3, h3, h4⟩ := h4
    rw [enrol_eq hs h5] at h2
    unfold State.consolidate at h3
    split at h3
    · simp only [Except.ok.injEq] at h3
      refine ⟨r, s2, hr, increaseAll_shares hE hX (by dsimp only; exact sorted_enrol hs) h2, ?_⟩
      rw [← h4, ← h3]; rfl
    · simp at h3

end

/-! ### Records -/

theorem get_enrol (s : State) (sb : SumBlock) (i : Nat) :
    VMap.get (enrol s sb) i = if i = sb.index then
      some ((VMap.get s.vals i).elim
        { status := .active, acc := 0, pend := 0, coll := 0, waddr := sb.waddr, index := sb.index,
          key := sb.key, subType := .auto }
        fun v => { v with status := afterPay v.status
                          subType := if v.status = .notSubscribed then .auto else v.subType })
      else VMap.get s.vals i := by
  unfold enrol enrolled
  split
  · rename_i hn
    rw [get_insert]
    split
    · rename_i hi; rw [hi, hn]; rfl
    · rfl
  · rename_i u hu
    rw [get_modify]
    split
    · rename_i hi; rw [hi, hu]; rfl
    · rfl

/-- The record of validator `i` after the proposal stage. -/
theorem proposal_record {E : Env} (hE : ValidEnv E) (hX : ExactEnv E) {net s sb s'}
    (hs : Sorted s.vals) (h5 : FiveStates s) (hu : sb.type ≠ .unknown)
    (h : proposalStage E net s sb = .ok s')
    {i v} (hv : VMap.get s.vals i = some v) :
    ∃ y, (v.status = .banned → y = 0) ∧ VMap.get s'.vals i = some (
      if i = sb.index then
        match sb.type with
        | .missed => { v with status := afterMiss v.status }
        | .wrongFee => if Subscribed v.status then { v with status := .banned, pend := 0 } else v
        | .okPool => { v with
            status := afterPay v.status, acc := v.acc + (v.pend + y), pend := 0,
            subType := if v.status = .notSubscribed then .auto else v.subType }
        | _ => v
      else { v with pend := v.pend + y }) ∧ (i ≠ sb.index → ¬ Earning v → y = 0) := by
  cases ht : sb.type with
  | unknown => exact absurd ht hu
  | missed =>
    refine ⟨0, fun _ => rfl, ?_, fun _ _ => rfl⟩
    rcases proposal_missed hs h5 ht h with ⟨⟨u, hu, hst⟩, rfl⟩ | ⟨hno, rfl⟩
    · dsimp only
      rw [get_modify]
      split
      · rename_i hi; rw [← hi, hv]; rfl
      · rw [hv, add_zero]
    · rw [hv]
      split
      · rename_i hi
        have := hno v (by rw [← hi]; exact hv)
        have e : afterMiss v.status = v.status := by
          cases hst : v.status <;> simp [Subscribed, hst] at this <;> rfl
        rw [e]
      · rw [add_zero]
  | okPoolBls =>
    refine ⟨0, fun _ => rfl, ?_, fun _ _ => rfl⟩
    obtain ⟨r, _, rfl⟩ := proposal_bls ht h
    dsimp only
    rw [hv]
    split
    · rfl
    · rw [add_zero]
  | wrongFee =>
    rcases proposal_wrongFee hE hX hs h5 ht h with ⟨u, s2, hu, hst, hsh, rfl⟩ | ⟨hno, rfl⟩
    · dsimp only
      obtain ⟨y, h1, h2⟩ := shares_record hsh i
      dsimp only at h1 h2
      rw [get_modify] at h1 h2
      by_cases hi : i = sb.index
      · simp only [if_pos hi] at h1 h2 ⊢
        rw [hi] at hv
        rw [hv, Option.some.injEq] at hu; subst hu
        rw [hi, hv] at h1
        refine ⟨0, fun _ => rfl, ?_, fun h => absurd hi h⟩
        rw [hi, h1, if_pos hst]
        have hy : y = 0 := h2 { v with status := .banned, pend := 0 } (by rw [hv]; rfl) (by simp [Earning])
        rw [hy]; rfl
      · simp only [if_neg hi] at h1 h2 ⊢
        rw [hv] at h1
        refine ⟨y, ?_, h1, fun _ he => h2 v hv he⟩
        intro hb
        exact h2 v hv (by simp [Earning, hb])
    · refine ⟨0, fun _ => rfl, ?_, fun _ _ => rfl⟩
      rw [hv]
      split
      · rename_i hi
        rw [if_neg (hno v (by rw [← hi]; exact hv))]
      · rw [add_zero]
  | okPool =>
    obtain ⟨r, s2, _, hsh, rfl⟩ := proposal_ok hE hX hs h5 ht h
    dsimp only
    obtain ⟨y, h1, h2⟩ := shares_record hsh i
    dsimp only at h1 h2
    rw [get_enrol] at h1 h2
    rw [get_modify]
    by_cases hi : i = sb.index
    · simp only [if_pos hi] at h1 h2 ⊢
      rw [hv] at h1 h2
      refine ⟨y, ?_, ?_, fun h => absurd hi h⟩
      · intro hb
        exact h2 _ rfl (by simp [Earning, hb, afterPay])
      · rw [← hi, h1]; rfl
    · simp only [if_neg hi] at h1 h2 ⊢
      rw [hv] at h1
      refine ⟨y, ?_, h1, fun _ he => h2 v hv he⟩
      intro hb
      exact h2 v hv (by simp [Earning, hb])

end Verif
