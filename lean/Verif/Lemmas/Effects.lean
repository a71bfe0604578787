import Verif.Lemmas.Refine
import Verif.Props.Status
/-
What the steps of the specification do to the record of one validator.
-/
namespace Verif
open VMap Relation

/-- everything after the proposal leaves the accumulated balance and the identity of a record alone -/
theorem late_kept {E n b sb dons ops a c v} {i : Nat} (h : Path False ops a c)
    (hl : ∀ op ∈ ops, Late E n b sb dons op) (hv : VMap.get a.vals i = some v) :
    ∃ v', VMap.get c.vals i = some v' ∧
      v' = { v with status := v'.status, pend := v'.pend } ∧
      ReflTransGen (LateEdge E n b i) v.status v'.status := by
  refine h.lift (fun v v' => v' = { v with status := v'.status, pend := v'.pend } ∧
    ReflTransGen (LateEdge E n b i) v.status v'.status) (fun v => ⟨rfl, .refl⟩) ?_ _ hl ?_ hv
  · rintro u v w ⟨h1, h2⟩ ⟨h3, h4⟩
    exact ⟨by rw [h3, h1], h2.trans h4⟩
  · intro op f v v' hop hvs
    refine ⟨?_, lateEdge_of_vstep hop hvs⟩
    rcases Late.vstep hop hvs with rfl | ⟨y, _, rfl⟩ | ⟨j, y, _, _, _, rfl⟩ | ⟨_, rfl⟩ | ⟨_, rfl⟩ | ⟨_, rfl⟩ <;> rfl

/-- a subscribed validator stays subscribed unless it is unsubscribed, banned or leaves the chain -/
theorem late_subscribed {E n b} {i : Nat} {st st' : Status} (h : ReflTransGen (LateEdge E n b i) st st')
    (hst : Subscribed st) (h1 : ¬ OwnerUnsubscribes b i) (h2 : ∀ ev ∈ b.events.bans, ev.validatorId ≠ i)
    (h3 : ¬ (n % 1200 = 0 ∧ NotActive E n i)) : Subscribed st' := by
  induction h with
  | refl => exact hst
  | tail _ he ih =>
    cases he with
    | ban _ k1 k2 => exact absurd k2 (h2 _ k1)
    | unban _ _ => exact Or.inl rfl
    | unsubscribe _ k => exact absurd k h1
    | leftChain _ k1 k2 => exact absurd ⟨k1, k2⟩ h3

/-- a validator that appears by a subscription is not banned -/
theorem SubEffects.appears {s l s'} (h : SubEffects s l s') {i u} (hn : VMap.get s.vals i = none)
    (hu : VMap.get s'.vals i = some u) : u.status ≠ .banned := by
  induction h with
  | nil => rw [hn] at hu; simp at hu
  | @cons s p s1 l s2 he hl ih =>
    cases h1 : VMap.get s1.vals i with
    | none => exact ih h1 hu
    | some v =>
      have hv : v.status = .active := by
        cases he with
        | fresh _ _ _ =>
          dsimp only at h1
          rw [get_insert] at h1
          split at h1
          · simp only [Option.some.injEq] at h1; rw [← h1]
          · rw [hn] at h1; simp at h1
        | again _ hg _ _ =>
          dsimp only at h1
          have hid : i ≠ p.1.validatorId := by rintro rfl; rw [hn] at hg; simp at hg
          rw [get_modify_ne _ _ hid, hn] at h1; simp at h1
        | returned _ hg _ =>
          dsimp only at h1
          have hid : i ≠ p.1.validatorId := by rintro rfl; rw [hn] at hg; simp at hg
          rw [get_modify_ne _ _ hid, hn] at h1; simp at h1
        | notOwner => dsimp only at h1; rw [hn] at h1; simp at h1
        | tooLittle => dsimp only at h1; rw [hn] at h1; simp at h1
      obtain ⟨v', k1, _, k2⟩ := hl.status h1
      rw [hu, Option.some.injEq] at k1
      subst k1
      rcases k2 with k2 | ⟨k2, _⟩
      · rw [k2, hv]; simp
      · rw [hv] at k2; simp at k2

theorem notEarning_of {v : Validator} (h : v.status = .notSubscribed) : ¬ Earning v := by
  intro he
  rcases he with k | k <;> rw [h] at k <;> simp at k

theorem shares_skip {E : Env} {net s r s'} (h : Shares E net s r s') {i v}
    (hv : VMap.get s.vals i = some v) (he : ¬ Earning v) : VMap.get s'.vals i = some v := by
  obtain ⟨y, h1, h2⟩ := shares_record h i
  rw [h1, hv, h2 v hv he]; simp

theorem shares_pend {E : Env} {net s r s'} (h : Shares E net s r s') {i v}
    (hv : VMap.get s.vals i = some v) : ∃ y, VMap.get s'.vals i = some { v with pend := v.pend + y } := by
  obtain ⟨y, h1, _⟩ := shares_record h i
  exact ⟨y, by rw [h1, hv]; rfl⟩

theorem ProposalEffect.other {E net pool b s s'} (h : ProposalEffect E net pool b s s') {i v}
    (hi : b.dutyIndex ≠ i) (hv : VMap.get s.vals i = some v) :
    ∃ y, VMap.get s'.vals i = some { v with pend := v.pend + y } := by
  have hi' : i ≠ b.dutyIndex := fun h => hi h.symm
  cases h with
  | missed => exact ⟨0, by dsimp only; rw [get_modify_ne _ _ hi', hv]; simp⟩
  | outsider => exact ⟨0, by rw [hv]; simp⟩
  | elsewhere _ _ _ _ hsh _ =>
    dsimp only
    exact shares_pend hsh (by dsimp only; rw [get_modify_ne _ _ hi', hv])
  | pays _ _ _ hsh _ _ _ =>
    obtain ⟨y, hy⟩ := shares_pend (i := i) (v := v) hsh (by
      dsimp only; unfold enrolled
      split
      · rw [get_insert, if_neg hi', hv]
      · rw [get_modify_ne _ _ hi', hv])
    exact ⟨y, by dsimp only; unfold paidOut; rw [get_modify_ne _ _ hi', hy]⟩
  | noAddress => exact ⟨0, by dsimp only; rw [hv]; simp⟩

/-- a validator that is not subscribed is left alone by unsubscriptions -/
theorem UnsubEffects.skip {E net s l s'} (h : UnsubEffects E net s l s') {i v}
    (hv : VMap.get s.vals i = some v) (hst : v.status = .notSubscribed) :
    VMap.get s'.vals i = some v := by
  induction h with
  | nil => exact hv
  | cons he _ ih =>
    apply ih
    cases he with
    | leaves _ hu hs hsh =>
      refine shares_skip hsh ?_ (notEarning_of hst)
      dsimp only
      rw [get_modify_ne _ _ ?_, hv]
      rintro rfl
      rw [hv, Option.some.injEq] at hu
      rw [← hu, hst] at hs
      rcases hs with k | k | k <;> simp at k
    | nothing => exact hv

/-- a subscribed validator unsubscribed by its owner -/
theorem UnsubEffects.leaves {E net s l s'} (h : UnsubEffects E net s l s') {i v}
    (hv : VMap.get s.vals i = some v) (hst : Subscribed v.status)
    (hex : ∃ p ∈ l, p.1.validatorId = i ∧ ByOwnerUnsub p.1 p.2) :
    VMap.get s'.vals i = some { v with status := .notSubscribed, pend := 0 } := by
  induction h generalizing v with
  | nil => simp at hex
  | @cons s p s1 l s2 he hl ih =>
    cases he with
    | @leaves u s1 hby hu hs hsh =>
      by_cases hi : i = p.1.validatorId
      · subst hi
        rw [hv, Option.some.injEq] at hu
        subst hu
        refine hl.skip ?_ rfl
        refine shares_skip hsh ?_ (notEarning_of rfl)
        dsimp only
        rw [get_modify_self, hv]; rfl
      · obtain ⟨y, hy⟩ := shares_pend (i := i) (v := v) hsh (by
          dsimp only; rw [get_modify_ne _ _ hi, hv])
        have := ih hy hst (by
          obtain ⟨q, hq, h1, h2⟩ := hex
          rcases List.mem_cons.mp hq with rfl | hq
          · exact absurd h1.symm hi
          · exact ⟨q, hq, h1, h2⟩)
        exact this
    | nothing hno =>
      refine ih hv hst ?_
      obtain ⟨q, hq, h1, h2⟩ := hex
      rcases List.mem_cons.mp hq with rfl | hq
      · rcases hno with hno | hno
        · exact absurd h2 hno
        · exact absurd hst (hno v (by rw [h1]; exact hv))
      · exact ⟨q, hq, h1, h2⟩

theorem DonEffects.skip {E net s l s'} (h : DonEffects E net s l s') {i v}
    (hv : VMap.get s.vals i = some v) (he : ¬ Earning v) : VMap.get s'.vals i = some v := by
  induction h with
  | nil => exact hv
  | cons hsh _ ih => exact ih (by dsimp only; exact shares_skip hsh hv he)

theorem BanEffects.record {s l s' t} (h : BanEffects s l s' t) {i v}
    (hv : VMap.get s.vals i = some v) (hst : ¬ Subscribed v.status) : VMap.get s'.vals i = some v := by
  induction h with
  | nil => exact hv
  | ban hu hs _ ih =>
    apply ih
    dsimp only
    rw [get_modify_ne _ _ ?_, hv]
    rintro rfl
    rw [hv, Option.some.injEq] at hu
    exact hst (hu ▸ hs)
  | skip _ _ ih => exact ih hv

theorem get_map_of {m : VMap} {g : Nat → Validator → Validator} {i : Nat} :
    VMap.get (m.map fun p => (p.1, g p.1 p.2)) i = (VMap.get m i).map (g i) := by
  induction m with
  | nil => rfl
  | cons p m ih =>
    obtain ⟨a, v⟩ := p
    simp only [List.map_cons, VMap.get]
    by_cases h : a = i
    · subst h; simp
    · simp only [h, if_false]; exact ih

open Classical in
theorem get_unbanned {m : VMap} {evs i} :
    VMap.get (unbanned m evs) i = (VMap.get m i).map fun v =>
      if v.status = .banned ∧ ∃ ev ∈ evs, ev.validatorId = i then { v with status := .active } else v := by
  rw [← get_map_of (g := fun i v =>
      if v.status = .banned ∧ ∃ ev ∈ evs, ev.validatorId = i then { v with status := .active } else v)]
  congr 1
  unfold unbanned
  apply List.map_congr_left
  intro p _
  split <;> simp_all

end Verif
