import Verif.Lemmas.Stages
import Verif.Lemmas.SharesSpec
/-
Subscriptions and unsubscriptions against their specification.
-/
namespace Verif
open VMap

theorem FiveStates.get {s : State} (h : FiveStates s) {i v} (hv : VMap.get s.vals i = some v) :
    Documented v.status := h _ (mem_of_get hv)

theorem isSubscribed_iff {s : State} (h5 : FiveStates s) (i : Nat) :
    s.isSubscribed i = true ↔ ∃ v, VMap.get s.vals i = some v ∧ Subscribed v.status := by
  unfold State.isSubscribed
  cases hv : VMap.get s.vals i with
  | none => simp
  | some v =>
    have := h5.get hv
    unfold Documented Subscribed at this
    simp only [Option.some.injEq, Subscribed, exists_eq_left']
    rcases this with (h | h | h) | h | h <;> simp [h]

theorem isBanned_iff {s : State} (i : Nat) :
    s.isBanned i = true ↔ ∃ v, VMap.get s.vals i = some v ∧ v.status = .banned := by
  unfold State.isBanned
  cases hv : VMap.get s.vals i with
  | none => simp
  | some v => simp

theorem modify_insert (m : VMap) (i : Nat) (v : Validator) (f) (hn : VMap.get m i = none) :
    VMap.modify (VMap.insert m i v) i f = VMap.insert m i (f v) := by
  induction m with
  | nil => simp [VMap.insert, VMap.modify]
  | cons p m ih =>
    obtain ⟨k, u⟩ := p
    simp only [VMap.get] at hn
    split at hn
    · simp at hn
    · rename_i hk
      simp only [VMap.insert]
      split
      · rename_i hlt
        simp only [VMap.modify, List.map_cons, if_true]
        congr 1
        rw [if_neg hk]
        congr 1
        exact modify_eq_self f hn
      · rw [if_neg (fun h => hk h.symm), if_neg (fun h => hk h.symm)]
        have := ih hn
        simp only [VMap.modify, List.map_cons, if_neg hk] at this ⊢
        rw [this]

theorem subOne_effect {s s' : State} {ev val} (h5 : FiveStates s) (hs : Sorted s.vals) (h : subOne s ev val = .ok s') :
    SubEffect s ev val s' := by
  unfold subOne at h
  split at h
  · simp only [Except.ok.injEq] at h; subst h
    exact .notOwner (by rintro v w ⟨h, _⟩; simp at h)
  · rename_i v
    split at h
    · simp at h
    · rename_i hid
      rw [not_not] at hid
      split at h
      · rename_i hcs
        simp only [Bool.not_eq_true'] at hcs
        simp only [Except.ok.injEq] at h; subst h
        refine .notOwner ?_
        rintro v' w ⟨hv, _, ha, _⟩
        simp only [Option.some.injEq] at hv; subst hv
        rw [(canSubscribe_iff _).mpr ha] at hcs; simp at hcs
      · rename_i hcs
        simp only [Bool.not_eq_true', Bool.not_eq_false] at hcs
        have hacc := (canSubscribe_iff _).mp hcs
        split at h
        · rename_i hno
          simp only [Except.ok.injEq] at h; subst h
          refine .notOwner ?_
          rintro v' w ⟨hv, _, ha, hw, _⟩
          simp only [Option.some.injEq] at hv; subst hv
          rw [(compatAddressByte_iff _ _).mpr hw] at hno; simp at hno
        · rename_i w hw
          rw [compatAddressByte_iff] at hw
          rw [bind_ok] at h
          obtain ⟨ok, hok, h⟩ := h
          split at h
          · rename_i hne
            simp only [Bool.not_eq_true'] at hne
            subst hne
            simp only [Except.ok.injEq] at h; subst h
            refine .notOwner ?_
            rintro v' w' ⟨hv, _, ha, hw', hs⟩
            simp only [Option.some.injEq] at hv; subst hv
            have : w' = w := by
              have h1 := (compatAddressByte_iff _ _).mpr hw
              have h2 := (compatAddressByte_iff _ _).mpr hw'
              rw [h1] at h2; simpa using h2.symm
            subst this
            exact equals_false hok hs
          · rename_i hne
            simp only [Bool.not_eq_true', Bool.not_eq_false] at hne
            subst hne
            have hby : ByOwner ev (some v) v w := ⟨rfl, hid.symm, hacc, hw, equals_true hok⟩
            have hinc : ∀ {s' : State}, (∃ u, VMap.get s.vals ev.validatorId = some u ∧
                (Subscribed u.status ∨ u.status = .banned)) →
                s.incAccumulated ev.validatorId ev.collateral = .ok s' →
                SubEffect s ev (some v) s' := by
              rintro s' ⟨u, hu, hst⟩ h
              unfold State.incAccumulated at h
              split at h
              · simp only [Except.ok.injEq] at h; subst h
                exact .returned hby hu hst
              · simp at h
            split at h
            · rename_i hb
              rw [isBanned_iff] at hb
              obtain ⟨u, hu, hst⟩ := hb
              exact hinc ⟨u, hu, Or.inr hst⟩ h
            · rename_i hb
              split at h
              · rename_i hsb
                rw [isSubscribed_iff h5] at hsb
                obtain ⟨u, hu, hst⟩ := hsb
                exact hinc ⟨u, hu, Or.inl hst⟩ h
              · rename_i hsb
                have hnot : ∀ u, VMap.get s.vals ev.validatorId = some u → u.status = .notSubscribed := by
                  intro u hu
                  rcases h5.get hu with h | h | h
                  · exact absurd ((isSubscribed_iff h5 _).mpr ⟨u, hu, h⟩) hsb
                  · exact h
                  · exact absurd ((isBanned_iff _).mpr ⟨u, hu, h⟩) hb
                split at h
                · rename_i hcol
                  simp only [State.collateralEnough, ge_iff_le, Bool.not_eq_true', decide_eq_false_iff_not,
                    not_le] at hcol
                  simp only [Except.ok.injEq] at h; subst h
                  exact .tooLittle hby hcol hnot
                · rename_i hcol
                  simp only [State.collateralEnough, ge_iff_le, Bool.not_eq_true', decide_eq_false_iff_not,
                    not_not] at hcol
                  split at h
                  · simp only [bind_ok] at h
                    obtain ⟨s3, h3, h⟩ := h
                    simp only [Except.ok.injEq] at h
                    cases hg : VMap.get s.vals ev.validatorId with
                    | none =>
                      have ht : s.isTracked ev.validatorId = false := by simp [State.isTracked, hg]
                      simp only [ht, Bool.not_false, if_true] at h3
                      unfold State.incPending at h3
                      split at h3
                      · simp only [Except.ok.injEq] at h3
                        have : s' = { s with vals := (VMap.insert s.vals ev.validatorId
                              { status := .active, acc := 0, pend := ev.collateral, coll := ev.collateral,
                                waddr := w, index := ev.validatorId,
                                key := b!"0x" ++ hexEncode v.pubkey, subType := .manual }) } := by
                          rw [← h, ← h3]
                          simp only [State.advance, State.modVal, State.setSubType, State.putVal]
                          rw [modify_insert _ _ _ _ hg, modify_insert _ _ _ _ hg, modify_insert _ _ _ _ hg]
                          simp [transition, hexutilEncode]
                        rw [this]
                        exact .fresh hby hg hcol
                      · simp at h3
                    | some u =>
                      have ht : s.isTracked ev.validatorId = true := by simp [State.isTracked, hg]
                      simp only [ht, Bool.not_true, Bool.false_eq_true, if_false] at h3
                      unfold State.incPending at h3
                      split at h3
                      · simp only [Except.ok.injEq] at h3
                        have : s' = { s with vals := VMap.modify s.vals ev.validatorId fun u =>
                            { u with status := .active, pend := u.pend + ev.collateral, subType := .manual } } := by
                          rw [← h, ← h3]
                          simp only [State.advance, State.modVal, State.setSubType]
                          rw [modify_modify, modify_modify]
                          congr 1
                          refine modify_congr ?_ hs
                          intro u' hu'
                          simp only [hnot u' hu']
                          rfl
                        rw [this]
                        exact .again hby hg (hnot u hg) hcol
                      · simp at h3
                  · rename_i hcon
                    exfalso
                    apply hcon
                    simp only [Bool.not_eq_true] at hb hsb
                    simp [hb, hsb, State.collateralEnough, hcol]

theorem fiveStates_modify {s : State} {i f} (h5 : FiveStates s)
    (hf : ∀ v, VMap.get s.vals i = some v → Documented (f v).status) (hs : Sorted s.vals) :
    ∀ p ∈ VMap.modify s.vals i f, Documented p.2.status := by
  intro p hp
  rcases mem_modify hp with hp | ⟨v, hv, rfl⟩
  · exact h5 p hp
  · exact hf v (hs.get_of_mem hv)

theorem SubEffect.five {s ev val s'} (h : SubEffect s ev val s') (h5 : FiveStates s)
    (hs : Sorted s.vals) : FiveStates s' ∧ Sorted s'.vals := by
  cases h with
  | fresh _ hg _ =>
    refine ⟨?_, hs.insert _ _⟩
    intro p hp
    rcases mem_insert hp with rfl | hp
    · exact Or.inl (Or.inl rfl)
    · exact h5 p hp
  | again _ hg _ _ =>
    refine ⟨?_, by dsimp only; exact hs.modify _ _⟩
    intro p hp
    dsimp only at hp
    exact fiveStates_modify h5 (fun v _ => Or.inl (Or.inl rfl)) hs p hp
  | returned _ hg _ =>
    refine ⟨?_, by dsimp only; exact hs.modify _ _⟩
    intro p hp
    dsimp only at hp
    refine fiveStates_modify h5 ?_ hs p hp
    intro v hv
    have := h5.get hv
    exact this
  | notOwner => exact ⟨h5, hs⟩
  | tooLittle => exact ⟨h5, hs⟩

theorem subLoop_effects {s s' : State} {l} (h5 : FiveStates s) (hs : Sorted s.vals)
    (h : subLoop l s = .ok s') : SubEffects s l s' ∧ FiveStates s' := by
  induction l generalizing s with
  | nil => simp only [subLoop, Except.ok.injEq] at h; subst h; exact ⟨.nil _, h5⟩
  | cons p l ih =>
    simp only [subLoop, bind_ok] at h
    obtain ⟨s1, h1, h2⟩ := h
    have e := subOne_effect h5 hs h1
    obtain ⟨k1, k2⟩ := e.five h5 hs
    obtain ⟨r1, r2⟩ := ih k1 k2 h2
    exact ⟨.cons e r1, r2⟩

theorem handleSubs_effects {s s' : State} {evs vals} (h5 : FiveStates s) (hs : Sorted s.vals)
    (h : handleSubs s evs vals = .ok s') :
    evs.length = vals.length ∧ SubEffects s (evs.zip vals) s' ∧ FiveStates s' := by
  unfold handleSubs at h
  split at h
  · simp at h
  · split at h
    · simp at h
    · rename_i hl
      exact ⟨not_not.mp hl, subLoop_effects h5 hs h⟩

open Classical in
/-- The record of a subscribed or banned validator changes only by returned collateral. -/
theorem SubEffects.settled {s l s'} (h : SubEffects s l s') {i v} (hv : VMap.get s.vals i = some v)
    (hst : Subscribed v.status ∨ v.status = .banned) :
    VMap.get s'.vals i = some { v with acc := v.acc + (l.map fun p =>
      if p.1.validatorId = i ∧ ∃ v w, ByOwner p.1 p.2 v w then p.1.collateral else 0).sum } := by
  induction h generalizing v with
  | nil => simp [hv]
  | @cons s p s1 l s2 he _ ih =>
    simp only [List.map_cons, List.sum_cons]
    have hne : v.status ≠ .notSubscribed := by
      rintro hn; rcases hst with (h | h | h) | h <;> rw [hn] at h <;> simp at h
    cases he with
    | @fresh v' w' hby hg _ =>
      have hid : p.1.validatorId ≠ i := by rintro rfl; rw [hv] at hg; simp at hg
      rw [if_neg (fun h => hid h.1), zero_add]
      refine ih ?_ hst
      dsimp only
      rw [get_insert, if_neg (Ne.symm hid)]; exact hv
    | @again v' w' u hby hg hu _ =>
      have hid : p.1.validatorId ≠ i := by
        rintro rfl; rw [hv, Option.some.injEq] at hg; subst hg; exact hne hu
      rw [if_neg (fun h => hid h.1), zero_add]
      refine ih ?_ hst
      dsimp only
      rw [get_modify_ne _ _ (Ne.symm hid)]; exact hv
    | @returned v' w' u hby hg _ =>
      by_cases hid : p.1.validatorId = i
      · rw [if_pos ⟨hid, v', w', hby⟩]
        have := ih (v := { v with acc := v.acc + p.1.collateral })
          (by dsimp only; rw [hid, get_modify_self, hv]; rfl) hst
        rw [this]
        simp only [add_assoc]
      · rw [if_neg (fun h => hid h.1), zero_add]
        refine ih ?_ hst
        dsimp only
        rw [get_modify_ne _ _ (Ne.symm hid)]; exact hv
    | notOwner hno =>
      rw [if_neg (by rintro ⟨_, v, w, h⟩; exact hno v w h), zero_add]
      exact ih hv hst
    | @tooLittle v' w' hby hlt hall =>
      have hid : p.1.validatorId ≠ i := by rintro rfl; exact hne (hall v hv)
      rw [if_neg (fun h => hid h.1), zero_add]
      exact ih hv hst

/-- A validator without owner subscriptions is not touched by subscriptions. -/
theorem SubEffects.untouched {s l s'} (h : SubEffects s l s') {i}
    (hno : ∀ p ∈ l, p.1.validatorId = i → ∀ v w, ¬ ByOwner p.1 p.2 v w) :
    VMap.get s'.vals i = VMap.get s.vals i := by
  induction h with
  | nil => rfl
  | @cons s p s1 l s2 he _ ih =>
    rw [ih (fun q hq => hno q (by simp [hq]))]
    have hp := hno p (by simp)
    cases he with
    | @fresh v' w' hby hg _ =>
      have hid : i ≠ p.1.validatorId := by rintro rfl; exact hp rfl _ _ hby
      dsimp only; rw [get_insert, if_neg hid]
    | @again v' w' u hby hg hu _ =>
      have hid : i ≠ p.1.validatorId := by rintro rfl; exact hp rfl _ _ hby
      dsimp only; rw [get_modify_ne _ _ hid]
    | @returned v' w' u hby hg _ =>
      have hid : i ≠ p.1.validatorId := by rintro rfl; exact hp rfl _ _ hby
      dsimp only; rw [get_modify_ne _ _ hid]
    | notOwner hno => rfl
    | tooLittle => rfl

/-- `SubEffects` preserves the states of tracked validators except for entering the pool. -/
theorem SubEffects.status {s l s'} (h : SubEffects s l s') {i v} (hv : VMap.get s.vals i = some v) :
    ∃ v', VMap.get s'.vals i = some v' ∧ v'.waddr = v.waddr ∧
      (v'.status = v.status ∨ (v.status = .notSubscribed ∧ v'.status = .active)) := by
  induction h generalizing v with
  | nil => exact ⟨v, hv, rfl, Or.inl rfl⟩
  | @cons s p s1 l s2 he _ ih =>
    have : ∃ v1, VMap.get s1.vals i = some v1 ∧ v1.waddr = v.waddr ∧
        (v1.status = v.status ∨ (v.status = .notSubscribed ∧ v1.status = .active)) := by
      cases he with
      | @fresh v' w' hby hg _ =>
        have hid : i ≠ p.1.validatorId := by rintro rfl; rw [hv] at hg; simp at hg
        exact ⟨v, by dsimp only; rw [get_insert, if_neg hid]; exact hv, rfl, Or.inl rfl⟩
      | @again v' w' u hby hg hu _ =>
        by_cases hid : i = p.1.validatorId
        · subst hid
          rw [hv, Option.some.injEq] at hg; subst hg
          exact ⟨{ v with status := .active, pend := v.pend + p.1.collateral, subType := .manual },
            by dsimp only; rw [get_modify_self, hv]; rfl, rfl, Or.inr ⟨hu, rfl⟩⟩
        · exact ⟨v, by dsimp only; rw [get_modify_ne _ _ hid]; exact hv, rfl, Or.inl rfl⟩
      | @returned v' w' u hby hg _ =>
        by_cases hid : i = p.1.validatorId
        · subst hid
          exact ⟨{ v with acc := v.acc + p.1.collateral },
            by dsimp only; rw [get_modify_self, hv]; rfl, rfl, Or.inl rfl⟩
        · exact ⟨v, by dsimp only; rw [get_modify_ne _ _ hid]; exact hv, rfl, Or.inl rfl⟩
      | notOwner hno => exact ⟨v, hv, rfl, Or.inl rfl⟩
      | tooLittle => exact ⟨v, hv, rfl, Or.inl rfl⟩
    obtain ⟨v1, h1, hw1, hs1⟩ := this
    obtain ⟨v2, h2, hw2, hs2⟩ := ih h1
    refine ⟨v2, h2, hw2.trans hw1, ?_⟩
    rcases hs1 with e1 | ⟨e1, f1⟩
    · rw [← e1]; exact hs2
    · rcases hs2 with e2 | ⟨e2, f2⟩
      · exact Or.inr ⟨e1, by rw [e2, f1]⟩
      · rw [f1] at e2; simp at e2

/-! ### Sharing does not look at the balance of somebody who does not take part -/

theorem eligible_congr {E : Env} {s t : State} (h1 : s.tick = t.tick)
    (h2 : s.vals.map (fun p => (p.1, p.2.status)) = t.vals.map (fun p => (p.1, p.2.status))) :
    eligible E s = eligible E t := by
  unfold eligible
  rw [h1]
  congr 1
  have key : ∀ m : VMap, ((m.filter fun p => p.2.status = .active || p.2.status = .yellowCard).map (·.1))
      = ((m.map (fun p => (p.1, p.2.status))).filter
          fun p => p.2 = .active || p.2 = .yellowCard).map (·.1) := by
    intro m
    induction m with
    | nil => rfl
    | cons p m ih =>
      simp only [List.map_cons, List.filter_cons]
      split
      · simp only [List.map_cons]; rw [ih]
      · exact ih
  rw [key, key, h2]

theorem increaseAll_reset {E : Env} (hE : ValidEnv E) (hX : ExactEnv E) {net : Str} {s s2 : State}
    {p : Int} {i : Nat} (hs : Sorted s.vals)
    (hni : ∀ v, VMap.get s.vals i = some v → ¬ Earning v)
    (h : increaseAll E net s p = .ok s2) :
    increaseAll E net { s with vals := VMap.modify s.vals i fun v => { v with pend := 0 } } p
      = .ok { s2 with vals := VMap.modify s2.vals i fun v => { v with pend := 0 } } := by
  have hel : eligible E { s with vals := VMap.modify s.vals i fun v => { v with pend := 0 } } = eligible E s := by
    refine eligible_congr (by rfl) ?_
    dsimp only
    unfold VMap.modify
    rw [List.map_map]
    apply List.map_congr_left
    intro q _
    simp only [Function.comp]
    split <;> rfl
  unfold increaseAll at h ⊢
  simp only at h ⊢
  rw [hel]
  split at h
  · rename_i he
    rw [if_pos he]
    simp only [Except.ok.injEq] at h
    rw [← h]; rfl
  · rename_i he
    rw [if_neg he]
    split at h
    · simp at h
    · rename_i hf
      rw [if_neg hf]
      simp only [bind_ok] at h
      obtain ⟨m, hm, ⟨fees, sh⟩, hsh, vals, hvals, h⟩ := h
      simp only at hvals h
      simp only [Except.ok.injEq] at h
      simp only [bind_ok]
      refine ⟨m, hm, ⟨fees, sh⟩, ?_, VMap.modify vals i fun v => { v with pend := 0 }, ?_, ?_⟩
      · rw [← hsh]
        cases m <;> rfl
      · obtain ⟨h1, h2⟩ := applyShares_ok hvals
        have hmem : ∀ q ∈ sh, q.1 ∈ eligible E s := by
          intro q hq
          cases m with
          | electra =>
            simp only at hsh
            unfold electraSplit at hsh
            simp only at hsh
            split at hsh
            · simp at hsh
            · rename_i vs hget
              split at hsh
              · simp at hsh
              · split at hsh
                · simp at hsh
                · simp only [Except.ok.injEq, Prod.mk.injEq] at hsh
                  rw [← hsh.2] at hq
                  obtain ⟨u, hu, rfl⟩ := List.mem_map.mp hq
                  exact hX _ _ _ _ (getSet_some hget).1 u ((shuffle_perm hE _ _).mem_iff.mp hu)
          | fork1 =>
            simp only [bind_ok, Except.ok.injEq] at hsh
            obtain ⟨⟨f, per⟩, _, hsh⟩ := hsh
            simp only [Prod.mk.injEq] at hsh
            rw [← hsh.2] at hq
            obtain ⟨j, hj, rfl⟩ := List.mem_map.mp hq
            exact hj
          | preFork1 =>
            simp only [bind_ok, Except.ok.injEq] at hsh
            obtain ⟨⟨f, per⟩, _, hsh⟩ := hsh
            simp only [Prod.mk.injEq] at hsh
            rw [← hsh.2] at hq
            obtain ⟨j, hj, rfl⟩ := List.mem_map.mp hq
            exact hj
        have hnot : i ∉ (E.shuffle (s.tick + 3) sh).map (·.1) := by
          intro hi
          obtain ⟨q, hq, hqi⟩ := List.mem_map.mp hi
          have hq' := hmem q ((shuffle_perm hE _ _).mem_iff.mp hq)
          rw [hqi, mem_eligible hE hs] at hq'
          obtain ⟨v, hv, hst⟩ := hq'
          exact hni v hv hst
        rw [applyShares_eq, if_pos, h2, modify_credit hnot]
        intro q hq
        have := h1 q hq
        rw [get_modify]
        split
        · rename_i hqi
          rw [hqi] at this
          rw [Option.isSome_map]; exact this
        · exact this
      · rw [← h]; rfl

theorem unsubOne_effect {E : Env} (hE : ValidEnv E) (hX : ExactEnv E) {net : Str} {s s' : State} {ev val}
    (h5 : FiveStates s) (hs : Sorted s.vals) (h : unsubOne E net s ev val = .ok s') :
    UnsubEffect E net s ev val s' := by
  unfold unsubOne at h
  split at h
  · simp only [Except.ok.injEq] at h; subst h
    exact .nothing (Or.inl (by rintro ⟨v, w, h, _⟩; simp at h))
  · rename_i v
    split at h
    · simp at h
    · rename_i hid
      rw [not_not] at hid
      split at h
      · rename_i hno
        simp only [Except.ok.injEq] at h; subst h
        refine .nothing (Or.inl ?_)
        rintro ⟨v', w, hv, _, hw, _⟩
        simp only [Option.some.injEq] at hv; subst hv
        rw [(compatAddressByte_iff _ _).mpr hw] at hno; simp at hno
      · rename_i w hw
        rw [compatAddressByte_iff] at hw
        rw [bind_ok] at h
        obtain ⟨ok, hok, h⟩ := h
        split at h
        · rename_i hne
          simp only [Bool.not_eq_true'] at hne
          subst hne
          simp only [Except.ok.injEq] at h; subst h
          refine .nothing (Or.inl ?_)
          rintro ⟨v', w', hv, _, hw', hs⟩
          simp only [Option.some.injEq] at hv; subst hv
          have : w' = w := by
            have h1 := (compatAddressByte_iff _ _).mpr hw
            have h2 := (compatAddressByte_iff _ _).mpr hw'
            rw [h1] at h2; simpa using h2.symm
          subst this
          exact equals_false hok hs
        · rename_i hne
          simp only [Bool.not_eq_true', Bool.not_eq_false] at hne
          subst hne
          have hby : ByOwnerUnsub ev (some v) := ⟨v, w, rfl, hid, hw, equals_true hok⟩
          split at h
          · rename_i hsub
            rw [isSubscribed_iff h5] at hsub
            obtain ⟨u, hu, hst⟩ := hsub
            simp only [bind_ok] at h
            obtain ⟨p, hp, s2, h2, h3⟩ := h
            obtain ⟨u', hu', hp'⟩ := pendOf_advance hp
            rw [hu, Option.some.injEq] at hu'; subst hu'
            refine .leaves hby hu hst ?_
            refine increaseAll_shares hE hX (by dsimp only; exact hs.modify _ _) ?_
            have hs1 : Sorted (s.advance ev.validatorId .unsubscribe).vals := by
              show Sorted (VMap.modify s.vals ev.validatorId (setStatus .unsubscribe))
              exact hs.modify _ _
            have hr := increaseAll_reset hE hX hs1 (i := ev.validatorId) (by
              intro v' hv' he
              simp only [State.advance, State.modVal, get_modify_self, hu, Option.map_some,
                Option.some.injEq] at hv'
              subst hv'
              rcases hst with h | h | h <;> simp [Earning, h, transition] at he) h2
            unfold State.resetPending at h3
            split at h3
            · simp only [Except.ok.injEq] at h3
              rw [hp', ← h3]
              rw [State.modVal, ← hr]
              congr 1
              simp only [State.advance, State.modVal]
              rw [modify_modify]
              congr 1
              refine modify_congr ?_ hs
              intro u' hu'
              rw [hu, Option.some.injEq] at hu'; subst hu'
              rcases hst with h | h | h <;> simp [h, transition]
            · simp at h3
          · rename_i hsub
            simp only [Except.ok.injEq] at h; subst h
            refine .nothing (Or.inr ?_)
            intro u hu hst
            exact hsub ((isSubscribed_iff h5 _).mpr ⟨u, hu, hst⟩)

theorem UnsubEffect.five {E : Env} (hE : ValidEnv E) {net s ev val s'} (h : UnsubEffect E net s ev val s')
    (hs : Sorted s.vals) (h5 : FiveStates s) : FiveStates s' ∧ Sorted s'.vals := by
  cases h with
  | leaves _ hu hst hsh =>
    refine shares_five hsh (by dsimp only; exact hs.modify _ _) ?_
    intro p hp
    dsimp only at hp
    exact fiveStates_modify h5 (fun v _ => Or.inr (Or.inl rfl)) hs p hp
  | nothing => exact ⟨h5, hs⟩

theorem unsubLoop_effects {E : Env} (hE : ValidEnv E) (hX : ExactEnv E) {net : Str} {s s' : State} {l}
    (h5 : FiveStates s) (hs : Sorted s.vals)
    (h : unsubLoop E net l s = .ok s') : UnsubEffects E net s l s' := by
  induction l generalizing s with
  | nil => simp only [unsubLoop, Except.ok.injEq] at h; subst h; exact .nil _
  | cons p l ih =>
    simp only [unsubLoop, bind_ok] at h
    obtain ⟨s1, h1, h2⟩ := h
    have e := unsubOne_effect hE hX h5 hs h1
    obtain ⟨k1, k2⟩ := e.five hE hs h5
    exact .cons e (ih k1 k2 h2)

end Verif
