import Verif.Spec.Dilute
import Verif.Props.Pieces
import Verif.Lemmas.Rename
/-
Two runs of the model over the same blocks, the second with further members.
-/
namespace Verif
open VMap

/-- the second record has no more money than the first, and is equal otherwise -/
def LessV (a b : Option Validator) : Prop :=
  (a = none ∧ b = none) ∨
    ∃ v p q, a = some v ∧ b = some { v with pend := p, acc := q } ∧ 0 ≤ p ∧ p ≤ v.pend ∧ q ≤ v.acc

/-- the first record, if there is one, does not share and has no negative balance, and there is a second one -/
def IdleIn (a b : Option Validator) : Prop :=
  ∀ v, a = some v → v.status ≠ .active ∧ v.status ≠ .yellowCard ∧ 0 ≤ v.pend ∧ ∃ v', b = some v'

/-- everybody has no more money in the second map than in the first, except for those of `X` who do not share in the
first -/
def LessM (X : Nat → Prop) (m m' : VMap) : Prop :=
  ∀ i, LessV (VMap.get m i) (VMap.get m' i) ∨ (X i ∧ IdleIn (VMap.get m i) (VMap.get m' i))

/-- the state `s` with other records and another revenue -/
def lessS (s : State) (m : VMap) (t : Nat) (x : Str) (c : List (Nat × Frozen)) (f : Int)
    (le ld : List EtherEvent) (lu : List UnsubEvent) (g : Int) : State :=
  { s with
    vals := m, tick := t, stateHash := x, committed := c, poolFees := f, ether := le, donations := ld, unsubs := lu, fee := g }

/-- the same state at slot `n` with further members `X`, or with a higher fee -/
def Less (X : Nat → Prop) (n : Nat) (s s' : State) : Prop :=
  (Sorted s.vals ∧ s.nextSlot = n ∧ 0 ≤ s.fee ∧ s.fee ≤ s'.fee ∧ s'.fee ≤ 10000) ∧
    ∃ m t x c f le ld lu g, Sorted m ∧ LessM X s.vals m ∧ s' = lessS s m t x c f le ld lu g

/-- the block `b` with other payments, cancelled subscriptions and bans -/
def otherBlock (b : FullBlock) (pays : List EtherEvent) (us : List UnsubEvent) (vs : List (Option BVal))
    (bs : List BanEvent) : FullBlock :=
  { b with events := { b.events with ether := pays, unsubs := us, bans := bs }, valsUnsubs := vs }

variable {X : Nat → Prop} {n : Nat}

theorem LessM.less {m m' : VMap} (h : LessM X m m') {i} (hi : ¬ X i) : LessV (VMap.get m i) (VMap.get m' i) :=
  (h i).resolve_right fun k => hi k.1

theorem LessM.modify {m m' : VMap} (h : LessM X m m') {i} (hi : ¬ X i) {f g : Validator → Validator}
    (hf : ∀ v, LessV (some v) (VMap.get m' i) → VMap.get m i = some v →
      ∀ u, VMap.get m' i = some u → LessV (some (f v)) (some (g u))) :
    LessM X (VMap.modify m i f) (VMap.modify m' i g) := by
  intro j
  rw [get_modify, get_modify]
  by_cases e : j = i
  · subst e
    rw [if_pos rfl, if_pos rfl]
    left
    have k := h.less hi
    rcases k with ⟨k1, k2⟩ | ⟨v, p, q, k1, k2, k3⟩
    · rw [k1, k2]; exact .inl ⟨rfl, rfl⟩
    · have := hf v (by rw [← k1]; exact h.less hi) k1 _ k2
      rw [k1, k2]
      exact this
  · rw [if_neg e, if_neg e]; exact h j

theorem LessM.insert {m m' : VMap} (h : LessM X m m') {i v} (hv : 0 ≤ v.pend) :
    LessM X (VMap.insert m i v) (VMap.insert m' i v) := by
  intro j
  rw [get_insert, get_insert]
  by_cases e : j = i
  · rw [if_pos e, if_pos e]; exact .inl (.inr ⟨v, v.pend, v.acc, rfl, rfl, hv, le_refl _, le_refl _⟩)
  · rw [if_neg e, if_neg e]; exact h j

theorem Less.get {s s' : State} (h : Less X n s s') {i} (hi : ¬ X i) :
    LessV (VMap.get s.vals i) (VMap.get s'.vals i) := by
  obtain ⟨hs, m, t, x, c, f, le, ld, lu, g, hm, hr, rfl⟩ := h; exact hr.less hi

theorem Less.sorted {s s' : State} (h : Less X n s s') : Sorted s'.vals := by
  obtain ⟨_, m, t, x, c, f, le, ld, lu, g, hm, _, rfl⟩ := h; exact hm

theorem Less.map {s s' : State} (h : Less X n s s') : LessM X s.vals s'.vals := by
  obtain ⟨_, m, t, x, c, f, le, ld, lu, g, hm, hr, rfl⟩ := h; exact hr

/-- a change of one record that leaves the order of the balances as it is -/
theorem Less.modVal {s s' : State} (h : Less X n s s') {i} (hi : ¬ X i) {f g : Validator → Validator}
    (hf : ∀ v p q, 0 ≤ p → p ≤ v.pend → q ≤ v.acc →
      LessV (some (f v)) (some (g { v with pend := p, acc := q }))) : Less X n (s.modVal i f) (s'.modVal i g) := by
  obtain ⟨hs, m, t, x, c, pf, le, ld, lu, fee, hm, hr, rfl⟩ := h
  refine ⟨⟨hs.1.modify _ _, hs.2⟩, _, t, x, c, pf, le, ld, lu, fee, hm.modify i g, hr.modify hi ?_, rfl⟩
  intro v _ hv u hu
  rcases hr.less hi with ⟨k1, _⟩ | ⟨w, p, q, k1, k2, k3, k4, k5⟩
  · rw [k1] at hv; cases hv
  · rw [k1] at hv; rw [k2] at hu
    cases hv; cases hu
    exact hf _ _ _ k3 k4 k5

theorem Less.advance {s s' : State} (h : Less X n s s') {i} (hi : ¬ X i) (e) :
    Less X n (s.advance i e) (s'.advance i e) :=
  h.modVal hi fun v p q h1 h2 h3 => .inr ⟨_, p, q, rfl, rfl, h1, h2, h3⟩

theorem Less.setSubType {s s' : State} (h : Less X n s s') {i} (hi : ¬ X i) (e) :
    Less X n (s.setSubType i e) (s'.setSubType i e) :=
  h.modVal hi fun v p q h1 h2 h3 => .inr ⟨_, p, q, rfl, rfl, h1, h2, h3⟩

theorem Less.putVal {s s' : State} (h : Less X n s s') {i v} (hv : 0 ≤ v.pend) :
    Less X n (s.putVal i v) (s'.putVal i v) := by
  obtain ⟨hs, m, t, x, c, pf, le, ld, lu, g, hm, hr, rfl⟩ := h
  exact ⟨⟨hs.1.insert _ _, hs.2⟩, _, t, x, c, pf, le, ld, lu, g, hm.insert _ _, hr.insert hv, rfl⟩

theorem Less.toPool {s s' : State} (h : Less X n s s') (y) : Less X n (s.toPool y) (s'.toPool y) := by
  obtain ⟨hs, m, t, x, c, pf, le, ld, lu, g, hm, hr, rfl⟩ := h
  exact ⟨hs, m, t, x, c, pf + y, le, ld, lu, g, hm, hr, rfl⟩

theorem LessV.status {a b} (h : LessV a b) : b.map (·.status) = a.map (·.status) := by
  rcases h with ⟨h1, h2⟩ | ⟨v, p, q, h1, h2, _⟩ <;> rw [h1, h2] <;> rfl

theorem Less.isSubscribed {s s' : State} (h : Less X n s s') {i} (hi : ¬ X i) :
    s'.isSubscribed i = s.isSubscribed i := by
  unfold State.isSubscribed
  rcases h.get hi with ⟨h1, h2⟩ | ⟨v, p, q, h1, h2, _⟩ <;> rw [h1, h2]
theorem Less.isBanned {s s' : State} (h : Less X n s s') {i} (hi : ¬ X i) : s'.isBanned i = s.isBanned i := by
  unfold State.isBanned
  rcases h.get hi with ⟨h1, h2⟩ | ⟨v, p, q, h1, h2, _⟩ <;> rw [h1, h2]
theorem Less.isTracked {s s' : State} (h : Less X n s s') {i} (hi : ¬ X i) : s'.isTracked i = s.isTracked i := by
  unfold State.isTracked
  rcases h.get hi with ⟨h1, h2⟩ | ⟨v, p, q, h1, h2, _⟩ <;> rw [h1, h2] <;> rfl
theorem Less.pendOf {s s' : State} (h : Less X n s s') {i} (hi : ¬ X i) :
    Rel (fun x y => 0 ≤ y ∧ y ≤ x) (s.pendOf i) (s'.pendOf i) := by
  unfold State.pendOf
  rcases h.get hi with ⟨h1, h2⟩ | ⟨v, p, q, h1, h2, h3, h4, _⟩ <;> rw [h1, h2]
  · exact .err
  · exact .ok ⟨h3, h4⟩
theorem Less.collateralEnough {s s' : State} (h : Less X n s s') (i) :
    s'.collateralEnough i = s.collateralEnough i := by
  obtain ⟨hs, m, t, x, c, f, le, ld, lu, g, hm, hr, rfl⟩ := h; rfl

theorem Less.incPending {s s' : State} (h : Less X n s s') {i x} (hi : ¬ X i) (hx : 0 ≤ x) :
    Rel (Less X n) (s.incPending i x) (s'.incPending i x) := by
  unfold State.incPending; rw [h.isTracked hi]
  exact .ite (fun _ => .ok (h.modVal hi fun v p q h1 h2 h3 =>
    .inr ⟨_, p + x, q, rfl, rfl, by omega, by dsimp only; omega, h3⟩)) (fun _ => .err)
theorem Less.incAccumulated {s s' : State} (h : Less X n s s') {i} (hi : ¬ X i) (x) :
    Rel (Less X n) (s.incAccumulated i x) (s'.incAccumulated i x) := by
  unfold State.incAccumulated; rw [h.isTracked hi]
  exact .ite (fun _ => .ok (h.modVal hi fun v p q h1 h2 h3 =>
    .inr ⟨_, p, q + x, rfl, rfl, h1, h2, by dsimp only; omega⟩)) (fun _ => .err)
theorem Less.resetPending {s s' : State} (h : Less X n s s') {i} (hi : ¬ X i) :
    Rel (Less X n) (s.resetPending i) (s'.resetPending i) := by
  unfold State.resetPending; rw [h.isTracked hi]
  exact .ite (fun _ => .ok (h.modVal hi fun v p q h1 h2 h3 =>
    .inr ⟨_, 0, q, rfl, rfl, by omega, by dsimp only; omega, h3⟩)) (fun _ => .err)
theorem Less.consolidate {s s' : State} (h : Less X n s s') {i} (hi : ¬ X i) :
    Rel (Less X n) (s.consolidate i) (s'.consolidate i) := by
  unfold State.consolidate; rw [h.isTracked hi]
  exact .ite (fun _ => .ok (h.modVal hi fun v p q h1 h2 h3 =>
    .inr ⟨_, 0, q + p, rfl, rfl, by omega, by dsimp only; omega, by dsimp only; omega⟩)) (fun _ => .err)

theorem Less.ite {p : Prop} [Decidable p] {s1 s1' s2 s2' : State} (h1 : Less X n s1 s1')
    (h2 : Less X n s2 s2') : Less X n (if p then s1 else s2) (if p then s1' else s2') := by
  split <;> assumption

theorem subOne_less {s s' : State} (h : Less X n s s') {ev : SubEvent} (val : Option BVal)
    (hi : ¬ X ev.validatorId) (hc : 0 ≤ ev.collateral) :
    Rel (Less X n) (subOne s ev val) (subOne s' ev val) := by
  unfold subOne
  cases val with
  | none => exact .ok (h.toPool _)
  | some v =>
    dsimp only
    refine .ite (fun _ => .err) fun _ => .ite (fun _ => .ok (h.toPool _)) fun _ => ?_
    cases compatAddressByte v.creds with
    | none => exact .ok (h.toPool _)
    | some w =>
      dsimp only
      refine Rel.bind (.refl _) ?_
      rintro ok _ rfl
      rw [h.isBanned hi, h.isSubscribed hi, h.isTracked hi, h.collateralEnough]
      refine .ite (fun _ => .ok (h.toPool _)) fun _ => .ite (fun _ => h.incAccumulated hi _) fun _ =>
        .ite (fun _ => h.incAccumulated hi _) fun _ => .ite (fun _ => .ok (h.toPool _)) fun _ =>
        .ite (fun _ => ?_) (fun _ => .ok (h.toPool _))
      refine Rel.bind (Less.incPending (Less.setSubType (Less.ite (h.putVal (le_refl _)) h) hi _) hi hc) ?_
      intro a b hab
      exact .ok (hab.advance hi _)

theorem subLoop_less (l : List (SubEvent × Option BVal)) (hl : ∀ p ∈ l, ¬ X p.1.validatorId ∧ 0 ≤ p.1.collateral) :
    ∀ {s s' : State}, Less X n s s' → Rel (Less X n) (subLoop l s) (subLoop l s') := by
  induction l with
  | nil => intro s s' h; exact .ok h
  | cons p l ih =>
    intro s s' h
    obtain ⟨ev, v⟩ := p
    have := hl (ev, v) (by simp)
    exact Rel.bind (subOne_less h v this.1 this.2) fun a b hab => ih (fun p hp => hl p (by simp [hp])) hab

theorem handleSubs_less {s s' : State} (h : Less X n s s') (evs : List SubEvent) (vals : List (Option BVal))
    (hl : ∀ e ∈ evs, ¬ X e.validatorId ∧ 0 ≤ e.collateral) :
    Rel (Less X n) (handleSubs s evs vals) (handleSubs s' evs vals) := by
  unfold handleSubs
  refine .ite (fun _ => .err) fun _ => .ite (fun _ => .err) fun _ => subLoop_less _ (fun p hp => ?_) h
  exact hl _ (List.of_mem_zip hp).1

theorem addSubscription_less {s s' : State} (h : Less X n s s') {i} (hi : ¬ X i) (w k) :
    Less X n (addSubscription s i w k) (addSubscription s' i w k) := by
  unfold addSubscription
  rw [h.isTracked hi, h.isSubscribed hi]
  refine Less.ite (((h.putVal (le_refl _)).advance hi _).setSubType hi _) (Less.ite ?_ h)
  dsimp only
  rw [(h.advance hi _).isBanned hi]
  exact Less.ite ((h.advance hi _).setSubType hi _) (h.advance hi _)

theorem handleMissed_less {s s' : State} (h : Less X n s s') {b : SumBlock} (hi : ¬ X b.index) :
    Less X n (handleMissed s b) (handleMissed s' b) := by
  have := h.advance hi .proposalMissed
  obtain ⟨hs, m, t, x, c, f, le, ld, lu, g, hm, hr, e⟩ := this
  refine ⟨hs, m, t, x, c, f, le, ld, lu, g, hm, hr, ?_⟩
  unfold handleMissed
  dsimp only
  rw [e]
  rfl

theorem handleBls_less {s s' : State} (h : Less X n s s') (b : SumBlock) :
    Rel (Less X n) (handleBls s b) (handleBls s' b) := by
  unfold handleBls
  refine .ite (fun _ => .err) fun _ => ?_
  cases b.reward with
  | none => exact .err
  | some r =>
    obtain ⟨hs, m, t, x, c, f, le, ld, lu, g, hm, hr, rfl⟩ := h
    exact .ok ⟨hs, m, t, x, c, f + r, le, ld, lu, g, hm, hr, rfl⟩

theorem transition_leave {st : Status} {e : Ev} (he : e = .unsubscribe ∨ e = .manualBan)
    (h1 : st ≠ .banned) (h2 : st ≠ .notSubscribed) (h3 : st ≠ .unknownState) :
    transition st e ≠ .active ∧ transition st e ≠ .yellowCard := by
  rcases he with rfl | rfl <;> cases st <;> simp_all [transition]

/-- whoever leaves or is banned does not share any more -/
theorem notEarning {s : State} {i} {e : Ev} (he : e = .unsubscribe ∨ e = .manualBan) (hsub : s.isSubscribed i = true) :
    ∀ v, VMap.get (s.advance i e).vals i = some v → v.status ≠ .active ∧ v.status ≠ .yellowCard := by
  intro v hv
  unfold State.advance State.modVal at hv
  dsimp only at hv
  rw [get_modify, if_pos rfl] at hv
  obtain ⟨w, hw, rfl⟩ := Option.map_eq_some_iff.mp hv
  unfold State.isSubscribed at hsub
  rw [hw] at hsub
  simp only [Bool.and_eq_true, decide_eq_true_eq] at hsub
  exact transition_leave he hsub.1.1 hsub.1.2 hsub.2

/-- a change of one record of `X` in the first books only -/
theorem Less.first {s s' : State} (h : Less X n s s') {i} (hi : X i) {f : Validator → Validator}
    (hf : IdleIn ((VMap.get s.vals i).map f) (VMap.get s'.vals i)) : Less X n (s.modVal i f) s' := by
  obtain ⟨hs, m, t, x, c, pf, le, ld, lu, g, hm, hr, rfl⟩ := h
  refine ⟨⟨hs.1.modify _ _, hs.2⟩, m, t, x, c, pf, le, ld, lu, g, hm, fun j => ?_, rfl⟩
  show LessV (VMap.get (VMap.modify s.vals i f) j) _ ∨ (X j ∧ IdleIn (VMap.get (VMap.modify s.vals i f) j) _)
  rw [get_modify]
  by_cases e : j = i
  · subst e
    rw [if_pos rfl]
    exact .inr ⟨hi, hf⟩
  · rw [if_neg e]
    exact hr j

theorem Less.leaves {s s' : State} (h : Less X n s s') {i} {e : Ev} (hi : X i)
    (he : e = .unsubscribe ∨ e = .manualBan) (hsub : s.isSubscribed i = true) :
    Less X n (s.advance i e) s' ∧ ∀ p, (s.advance i e).pendOf i = .ok p → 0 ≤ p := by
  have hne := notEarning he hsub
  have hmap := h.map i
  have hk : ∀ v, VMap.get s.vals i = some v → 0 ≤ v.pend ∧ ∃ v', VMap.get s'.vals i = some v' := by
    intro v hv
    rcases hmap with (⟨h1, _⟩ | ⟨w, p, q, h1, h2, h3, h4, _⟩) | ⟨_, k⟩
    · rw [h1] at hv; cases hv
    · rw [h1] at hv; cases hv
      exact ⟨by omega, _, h2⟩
    · exact (k v hv).2.2
  have hg : VMap.get (s.advance i e).vals i =
      (VMap.get s.vals i).map fun v => { v with status := transition v.status e } := by
    unfold State.advance State.modVal
    dsimp only
    rw [get_modify, if_pos rfl]
  constructor
  · refine h.first hi fun v hv => ?_
    obtain ⟨k1, k2⟩ := hne v (hg.trans hv)
    obtain ⟨w, hw, rfl⟩ := Option.map_eq_some_iff.mp hv
    exact ⟨k1, k2, hk w hw⟩
  · intro p hp
    unfold State.pendOf at hp
    rw [hg] at hp
    cases hv : VMap.get s.vals i with
    | none => rw [hv] at hp; cases hp
    | some v =>
      rw [hv] at hp
      cases hp
      exact (hk v hv).1

/-- the balance of somebody of `X` who does not share is taken, in the first books only -/
theorem Less.forfeits {s s' : State} (h : Less X n s s') {i} (hi : X i)
    (hne : ∀ v, VMap.get s.vals i = some v → v.status ≠ .active ∧ v.status ≠ .yellowCard) {a}
    (ha : s.resetPending i = .ok a) : Less X n a s' := by
  unfold State.resetPending at ha
  split at ha
  swap
  · cases ha
  cases ha
  have hr := h.map i
  refine h.first hi fun v hv => ?_
  obtain ⟨w, hw, rfl⟩ := Option.map_eq_some_iff.mp hv
  obtain ⟨k1, k2⟩ := hne w hw
  refine ⟨k1, k2, le_refl _, ?_⟩
  rcases hr with (⟨h1, _⟩ | ⟨w', p, q, h1, h2, _⟩) | ⟨_, k⟩
  · rw [h1] at hw; cases hw
  · exact ⟨_, h2⟩
  · exact (k w hw).2.2.2

theorem banLoop_less {l l' : List BanEvent} (hll : LeftOut (fun e => X e.validatorId) l l')
    (hl : ∀ e ∈ l', ¬ X e.validatorId) :
    ∀ {s s' : State} {tot tot' : Int}, Less X n s s' → 0 ≤ tot' → tot' ≤ tot →
    Rel (fun a b => Less X n a.1 b.1 ∧ 0 ≤ b.2 ∧ b.2 ≤ a.2) (banLoop l s tot) (banLoop l' s' tot') := by
  induction hll with
  | nil => intro s s' tot tot' h h1 h2; exact .ok ⟨h, h1, h2⟩
  | @same ev l l' _ ih =>
    intro s s' tot tot' h h1 h2
    have hi := hl ev (by simp)
    have ih := @ih fun e he => hl e (by simp [he])
    unfold banLoop
    rw [h.isSubscribed hi]
    refine .ite (fun _ => ih h h1 h2) fun _ => ?_
    dsimp only
    refine Rel.bind ((h.advance hi _).pendOf hi) ?_
    rintro p p' ⟨hp, hp'⟩
    exact Rel.bind ((h.advance hi _).resetPending hi) fun a b hab => ih hab (by omega) (by omega)
  | @out ev l l' hx _ ih =>
    intro s s' tot tot' h h1 h2 a b ha hb
    unfold banLoop at ha
    split at ha
    · exact ih hl h h1 h2 _ _ ha hb
    next hsub =>
    have hsub : s.isSubscribed ev.validatorId = true := by simpa using hsub
    dsimp only at ha
    rw [bind_ok] at ha
    obtain ⟨p, hp, ha⟩ := ha
    rw [bind_ok] at ha
    obtain ⟨u, hu, ha⟩ := ha
    obtain ⟨k1, k2⟩ := h.leaves (e := .manualBan) hx (.inr rfl) hsub
    have := k2 p hp
    exact ih hl (k1.forfeits hx (notEarning (.inr rfl) hsub) hu) h1 (by omega) _ _ ha hb

theorem unbanLoop_less (l : List BanEvent) (hl : ∀ e ∈ l, ¬ X e.validatorId) : ∀ {s s' : State}, Less X n s s' →
    Less X n (unbanLoop l s) (unbanLoop l s') := by
  induction l with
  | nil => intro s s' h; exact h
  | cons ev l ih =>
    intro s s' h
    have hi := hl ev (by simp)
    have ih := @ih fun e he => hl e (by simp [he])
    unfold unbanLoop
    rw [h.isBanned hi]
    exact Less.ite (ih h) (ih (h.advance hi _))

theorem handleUnbans_less {s s' : State} (h : Less X n s s') (evs : List BanEvent)
    (hl : ∀ e ∈ evs, ¬ X e.validatorId) :
    Rel (Less X n) (handleUnbans s evs) (handleUnbans s' evs) := by
  unfold handleUnbans
  exact .ite (fun _ => .err) fun _ => .ok (unbanLoop_less _ hl h)

/-! ### Operations that share rewards -/

/-- a higher fee makes a share smaller -/
theorem part_fee {fee fee' w T r : Int} (hf : fee ≤ fee') (hw : 0 ≤ w) (hT : w ≤ T) (hr : 0 ≤ r) :
    part fee' w T r ≤ part fee w T r := by
  unfold part
  rcases hw.eq_or_lt with rfl | hw'
  · simp
  have : feeOf fee r ≤ feeOf fee' r := Int.ediv_le_ediv (by decide) (by nlinarith)
  exact Int.ediv_le_ediv (by omega) (mul_le_mul_of_nonneg_right (by omega) hw)

/-- a larger total makes a share smaller, and so does a higher fee -/
theorem part_dilute {fee fee' w T T' : Int} (hf : 0 ≤ fee) (hff : fee ≤ fee' ∧ fee' ≤ 10000) (hw : 0 ≤ w) (hT : w ≤ T)
    (hTT : T ≤ T') {r r' : Int} (h0 : 0 ≤ r') (h : r' ≤ r) :
    0 ≤ part fee' w T' r' ∧ part fee' w T' r' ≤ part fee w T r := by
  suffices hk : 0 ≤ part fee' w T' r' ∧ part fee w T' r' ≤ part fee w T r from
    ⟨hk.1, (part_fee hff.1 hw (hT.trans hTT) h0).trans hk.2⟩
  have hf' : fee ≤ 10000 := hff.1.trans hff.2
  have h1 := part_mono (hf.trans hff.1) hff.2 hw (hT.trans hTT) h0
  have h2 := part_mono hf hf' hw hT h
  have z : part fee' w T' 0 = 0 := by simp [part, feeOf]
  refine ⟨by omega, le_trans ?_ h2.1⟩
  unfold part
  rcases hw.eq_or_lt with rfl | hw'
  · simp
  have hT0 : 0 < T := by omega
  have hle : feeOf fee r' ≤ r' := by
    unfold feeOf
    apply Int.ediv_le_of_le_mul (by decide)
    nlinarith
  have hnum : 0 ≤ (r' - feeOf fee r') * w := mul_nonneg (by omega) hw
  generalize (r' - feeOf fee r') * w = a at *
  have hq : 0 ≤ a / T' := Int.ediv_nonneg hnum (by omega)
  apply Int.le_ediv_of_mul_le hT0
  calc a / T' * T ≤ a / T' * T' := mul_le_mul_of_nonneg_left hTT hq
    _ ≤ a := Int.ediv_mul_le _ (by omega)

/-- whoever is in both books shares in both or in neither -/
theorem earners_less_iff {s s' : State} (hs : Sorted s.vals) (hs' : Sorted s'.vals) {i}
    (hi : LessV (VMap.get s.vals i) (VMap.get s'.vals i)) : i ∈ earners s' ↔ i ∈ earners s := by
  rw [mem_earners hs, mem_earners hs']
  rcases hi with ⟨h1, h2⟩ | ⟨w, p, q, h1, h2, _⟩
  · rw [h1, h2]
  · rw [h1, h2]; simp

theorem earners_less {s s' : State} (h : Less X n s s') : ∀ i ∈ earners s, i ∈ earners s' := by
  intro i hi
  rcases h.map i with k | ⟨_, k⟩
  · exact (earners_less_iff h.1.1 h.sorted k).mpr hi
  · rw [mem_earners h.1.1] at hi
    obtain ⟨v, hv, hst⟩ := hi
    obtain ⟨k1, k2, _⟩ := k v hv
    exact absurd hst (by rintro (e | e); exact k1 e; exact k2 e)

theorem sum_subset {l l' : List Nat} (hn : l.Nodup) (hs : ∀ i ∈ l, i ∈ l') (g : Nat → Int)
    (hg : ∀ i, 0 ≤ g i) : (l.map g).sum ≤ (l'.map g).sum := by
  obtain ⟨k, hk, hsub⟩ := (List.subperm_of_subset hn hs)
  rw [← (hk.map g).sum_eq]
  have := hsub.map g
  generalize hb : l'.map g = b at this
  have hb0 : ∀ x ∈ b, 0 ≤ x := by
    rw [← hb]; intro x hx; obtain ⟨j, _, rfl⟩ := List.mem_map.mp hx; exact hg j
  generalize k.map g = a at this
  clear hb hk hsub
  induction this with
  | slnil => exact le_refl _
  | cons x _ ih =>
    have h1 := ih fun y hy => hb0 y (by simp [hy])
    have h2 := hb0 x (by simp)
    simp only [List.sum_cons]; omega
  | cons_cons x _ ih =>
    have h1 := ih fun y hy => hb0 y (by simp [hy])
    simp only [List.sum_cons]; omega

/-- the share of a member is no larger, and not negative, with the further members -/
theorem canon_less {V : Nat → Nat → BVal} {net : Str} {s s' : State} (h : Less X n s s') (hp : PostFork1 net n)
    (hV : ∀ j, (V n j).effBal < 9223372036854775808) {r r' : Int} (h0 : 0 ≤ r') (hr : r' ≤ r) {i}
    (hx : LessV (VMap.get s.vals i) (VMap.get s'.vals i)) :
    0 ≤ shareOf (canon V net s' r').1 i ∧ shareOf (canon V net s' r').1 i ≤ shareOf (canon V net s r).1 i := by
  have hs' : Sorted s'.vals := by obtain ⟨_, m, t, x, c, f, le, ld, lu, g, hm, _, rfl⟩ := h; exact hm
  have hsub := earners_less h
  have hiff := earners_less_iff h.1.1 hs' hx
  have hn := earners_nodup h.1.1
  have hn' := earners_nodup hs'
  have e2 : s'.nextSlot = n := by rw [← h.1.2.1]; obtain ⟨_, m, t, x, c, f, le, ld, lu, g, _, _, rfl⟩ := h; rfl
  have e3 := h.1.2.1
  by_cases hi : i ∈ earners s
  · have hi' := hiff.mpr hi
    have hne : earners s ≠ [] := List.ne_nil_of_mem hi
    have hne' : earners s' ≠ [] := List.ne_nil_of_mem hi'
    unfold canon
    dsimp only
    rw [if_neg hne, if_neg hne', e2, e3]
    by_cases hel : PostElectra net n
    · rw [if_pos hel, if_pos hel]
      dsimp only
      have hnn : ∀ j, 0 ≤ i64 (V n j).effBal := fun j => by rw [i64_of_lt (hV j)]; omega
      rw [shareOf_map hn', shareOf_map hn, if_pos hi, if_pos hi']
      refine part_dilute h.1.2.2.1 h.1.2.2.2 (hnn i) ?_ (sum_subset hn hsub _ hnn) h0 hr
      exact le_sum (by
          intro x hx
          obtain ⟨j, _, rfl⟩ := List.mem_map.mp hx
          exact hnn j) (List.mem_map.mpr ⟨i, hi, rfl⟩)
    · rw [if_neg hel, if_neg hel, if_pos hp, if_pos hp]
      dsimp only
      rw [shareOf_map hn', shareOf_map hn, if_pos hi, if_pos hi']
      have hl : ((earners s).length : Int) ≤ ((earners s').length : Int) := by
        have := (List.subperm_of_subset hn hsub).length_le
        omega
      have hl1 : (1 : Int) ≤ ((earners s).length : Int) := by
        have := List.length_pos_of_mem hi
        omega
      have := part_dilute (w := 1) h.1.2.2.1 h.1.2.2.2 (by decide) hl1 hl h0 hr
      simpa [part] using this
  · have hi' : i ∉ earners s' := fun k => hi (hiff.mp k)
    have zero : ∀ (net : Str) (s : State) (r : Int), Sorted s.vals → i ∉ earners s →
        shareOf (canon V net s r).1 i = 0 := by
      intro net s r hs hi
      have hn := earners_nodup hs
      unfold canon
      dsimp only
      split
      · rfl
      · split
        · rw [shareOf_map hn, if_neg hi]
        · split <;> rw [shareOf_map hn, if_neg hi]
    rw [zero _ _ _ hs' hi', zero _ _ _ h.1.1 hi]
    exact ⟨le_refl _, le_refl _⟩

section
variable {E E' : Env} {V : Nat → Nat → BVal} {K : Nat → List (Nat × Nat)} {net : Str}
variable (hE : ValidEnv E) (hX : ExactEnv E) (hR : ReadsChain V K E)
  (hE' : ValidEnv E') (hX' : ExactEnv E') (hR' : ReadsChain V K E')
  (hp : PostFork1 net n) (hV : ∀ j, (V n j).effBal < 9223372036854775808)
include hE hX hR hE' hX' hR' hp hV

omit hE hX hR hE' hX' hR' in
/-- no share is negative -/
theorem share_nonneg {s s' : State} (h : Less X n s s') {r : Int} (hr : 0 ≤ r) (i) :
    0 ≤ shareOf (canon V net s r).1 i := by
  obtain ⟨w, T, hw, hT, hall⟩ := canon_part (V := V) (net := net) h.1.1 (by rw [h.1.2.1]; exact hp)
    (by rw [h.1.2.1]; exact hV) i
  have h1 := part_mono h.1.2.2.1 (h.1.2.2.2.1.trans h.1.2.2.2.2) hw hT hr
  have z : part s.fee w T 0 = 0 := by simp [part, feeOf]
  rw [hall]; omega

theorem increaseAll_less {s s' : State} (h : Less X n s s') {r r' : Int} (h0 : 0 ≤ r') (hr : r' ≤ r) :
    Rel (Less X n) (increaseAll E net s r) (increaseAll E' net s' r') := by
  intro a b ha hb
  have hs' := h.sorted
  have ea := increaseAll_canon hE hX hR h.1.1 ha
  have eb := increaseAll_canon hE' hX' hR' hs' hb
  have key := fun i hx => canon_less (V := V) (i := i) h hp hV h0 hr hx
  have nn := share_nonneg (V := V) hp hV h (h0.trans hr)
  have hless := h.map
  obtain ⟨hs, m, t, x, c, f, le, ld, lu, g, hm, _, e⟩ := h
  rw [ea, eb]
  refine ⟨⟨hs.1.credit _, hs.2⟩, credit (canon V net s' r').1 s'.vals, b.tick, x, c,
    s'.poolFees + (canon V net s' r').2, le, ld, lu, g, hs'.credit _, fun i => ?_, by rw [e]; rfl⟩
  dsimp only
  rw [get_credit, get_credit]
  rcases hless i with k | ⟨hx, k⟩
  · left
    have hk := key i k
    rcases k with ⟨h1, h2⟩ | ⟨v, p, q, h1, h2, h3, h4, h5⟩
    · rw [h1, h2]; exact .inl ⟨rfl, rfl⟩
    · rw [h1, h2]
      exact .inr ⟨_, _, q, rfl, rfl, by dsimp only; omega, by dsimp only; omega, h5⟩
  · refine .inr ⟨hx, fun v hv => ?_⟩
    obtain ⟨w, hw, rfl⟩ := Option.map_eq_some_iff.mp hv
    obtain ⟨k1, k2, k3, u, hu⟩ := k w hw
    have := nn i
    exact ⟨k1, k2, by dsimp only; omega, _, by rw [hu]; rfl⟩

omit hE' hX' hR' in
/-- money shared in the first books only -/
theorem increaseAll_more {s s' : State} (h : Less X n s s') {r : Int} (hr : 0 ≤ r) {a} (ha : increaseAll E net s r = .ok a) :
    Less X n a s' := by
  have ea := increaseAll_canon hE hX hR h.1.1 ha
  have nn := share_nonneg (V := V) hp hV h hr
  obtain ⟨hs, m, t, x, c, f, le, ld, lu, g, hm, hless, e⟩ := h
  rw [ea]
  refine ⟨⟨hs.1.credit _, hs.2⟩, m, t, x, c, f, le, ld, lu, g, hm, fun i => ?_, by rw [e]; rfl⟩
  dsimp only
  have hk := nn i
  rw [get_credit]
  rcases hless i with (⟨h1, h2⟩ | ⟨v, p, q, h1, h2, h3, h4, h5⟩) | ⟨hx, k⟩
  · rw [h1, h2]; exact .inl (.inl ⟨rfl, rfl⟩)
  · rw [h1, h2]
    exact .inl (.inr ⟨_, p, q, rfl, rfl, h3, by dsimp only; omega, h5⟩)
  · refine .inr ⟨hx, fun v hv => ?_⟩
    obtain ⟨w, hw, rfl⟩ := Option.map_eq_some_iff.mp hv
    obtain ⟨k1, k2, k3, k4⟩ := k w hw
    exact ⟨k1, k2, by dsimp only; omega, k4⟩

theorem unsubOne_less {s s' : State} (h : Less X n s s') {ev : UnsubEvent} (val : Option BVal)
    (hi : ¬ X ev.validatorId) : Rel (Less X n) (unsubOne E net s ev val) (unsubOne E' net s' ev val) := by
  unfold unsubOne
  cases val with
  | none => exact .ok h
  | some v =>
    dsimp only
    refine .ite (fun _ => .err) fun _ => ?_
    cases compatAddressByte v.creds with
    | none => exact .ok h
    | some w =>
      dsimp only
      refine Rel.bind (.refl _) ?_
      rintro ok _ rfl
      rw [h.isSubscribed hi]
      refine .ite (fun _ => .ok h) fun _ => .ite (fun _ => ?_) (fun _ => .ok h)
      refine Rel.bind ((h.advance hi _).pendOf hi) ?_
      rintro p p' ⟨h1, h2⟩
      exact Rel.bind (increaseAll_less hE hX hR hE' hX' hR' hp hV (h.advance hi _) h1 h2)
        fun a b hab => hab.resetPending hi

omit hE' hX' hR' in
/-- somebody of `X` leaves in the first books only -/
theorem unsubOne_more {s s' : State} (h : Less X n s s') {ev : UnsubEvent} {val : Option BVal}
    (hi : X ev.validatorId) {a} (ha : unsubOne E net s ev val = .ok a) : Less X n a s' := by
  have cases : a = s ∨ (s.isSubscribed ev.validatorId = true ∧
      ∃ p u, (s.advance ev.validatorId .unsubscribe).pendOf ev.validatorId = .ok p ∧
        increaseAll E net (s.advance ev.validatorId .unsubscribe) p = .ok u ∧
        u.resetPending ev.validatorId = .ok a) := by
    unfold unsubOne at ha
    cases val with
    | none => cases ha; exact .inl rfl
    | some v =>
      dsimp only at ha
      split at ha
      · cases ha
      split at ha
      · cases ha; exact .inl rfl
      rw [bind_ok] at ha
      obtain ⟨ok, _, ha⟩ := ha
      split at ha
      · cases ha; exact .inl rfl
      split at ha
      · next hsub =>
        simp only [bind_ok] at ha
        obtain ⟨p, hp, u, hu, ha⟩ := ha
        exact .inr ⟨hsub, p, u, hp, hu, ha⟩
      · cases ha; exact .inl rfl
  rcases cases with rfl | ⟨hsub, p, u, hp1, hu, hz⟩
  · exact h
  obtain ⟨h1, h2⟩ := h.leaves (e := .unsubscribe) hi (.inl rfl) hsub
  have hp0 := h2 _ hp1
  have h3 := increaseAll_more hE hX hR hp hV h1 hp0 hu
  refine h3.forfeits hi ?_ hz
  have ea := increaseAll_canon hE hX hR h1.1.1 hu
  rw [ea]
  intro v hv
  dsimp only at hv
  rw [get_credit] at hv
  obtain ⟨w, hw, rfl⟩ := Option.map_eq_some_iff.mp hv
  exact notEarning (.inl rfl) hsub w hw

theorem unsubLoop_less {l l' : List (UnsubEvent × Option BVal)} (hll : LeftOut (fun p => X p.1.validatorId) l l')
    (hl : ∀ p ∈ l', ¬ X p.1.validatorId) :
    ∀ {s s' : State}, Less X n s s' → Rel (Less X n) (unsubLoop E net l s) (unsubLoop E' net l' s') := by
  induction hll with
  | nil => intro s s' h; exact .ok h
  | @same p l l' _ ih =>
    intro s s' h
    obtain ⟨ev, v⟩ := p
    exact Rel.bind (unsubOne_less hE hX hR hE' hX' hR' hp hV h v (hl (ev, v) (by simp)))
      fun a b hab => ih (fun p hp => hl p (by simp [hp])) hab
  | @out p l l' hx _ ih =>
    intro s s' h a b ha hb
    obtain ⟨ev, v⟩ := p
    unfold unsubLoop at ha
    rw [bind_ok] at ha
    obtain ⟨u, hu, ha⟩ := ha
    exact ih hl (unsubOne_more hE hX hR hp hV h hx hu) _ _ ha hb

theorem handleUnsubs_less {s s' : State} (h : Less X n s s') {evs evs' : List UnsubEvent} {vals vals' : List (Option BVal)}
    (hll : LeftOut (fun p => X p.1.validatorId) (evs.zip vals) (evs'.zip vals'))
    (hl : ∀ e ∈ evs', ¬ X e.validatorId) :
    Rel (Less X n) (handleUnsubs E net s evs vals) (handleUnsubs E' net s' evs' vals') := by
  unfold handleUnsubs
  rintro a b ha hb
  split at ha
  · cases ha
  split at ha
  · cases ha
  split at hb
  · cases hb
  split at hb
  · cases hb
  exact unsubLoop_less hE hX hR hE' hX' hR' hp hV hll (fun p hp => hl _ (List.of_mem_zip hp).1) h _ _ ha hb

theorem donLoop_less {l l' : List EtherEvent} (hl : l'.SublistForall₂ (fun d' d => d'.amount ≤ d.amount) l)
    (h0 : ∀ d ∈ l, 0 ≤ d.amount) (h0' : ∀ d ∈ l', 0 ≤ d.amount) : ∀ {s s' : State}, Less X n s s' →
    Rel (Less X n) (donLoop E net l s) (donLoop E' net l' s') := by
  have step : ∀ {a b : State} {le le'}, Less X n a b →
      Less X n { a with donations := le } { b with donations := le' } := by
    rintro a b le le' ⟨hs, m, t, x, c, f, y, z, lu, g, hm, hr, rfl⟩
    exact ⟨hs, m, t, x, c, f, y, le', lu, g, hm, hr, rfl⟩
  induction hl with
  | @nil l =>
    induction l with
    | nil => intro s s' h; exact .ok h
    | cons d l ih =>
      intro s s' h
      unfold donLoop
      rintro a b ha hb
      rw [bind_ok] at ha
      obtain ⟨u, hu, ha⟩ := ha
      cases hb
      refine ih (fun e he => h0 e (by simp [he])) (s := { u with donations := u.donations ++ [d] }) (s' := s')
        ?_ _ _ ha rfl
      exact step (le' := s'.donations) (increaseAll_more hE hX hR hp hV h (h0 d (by simp)) hu)
  | @cons d' d l' l hd _ ih =>
    intro s s' h
    refine Rel.bind (increaseAll_less hE hX hR hE' hX' hR' hp hV h (h0' d' (by simp)) hd) fun a b hab => ?_
    exact ih (fun e he => h0 e (by simp [he])) (fun e he => h0' e (by simp [he])) (step hab)
  | @cons_right d l' l _ ih =>
    intro s s' h
    rintro a b ha hb
    unfold donLoop at ha
    rw [bind_ok] at ha
    obtain ⟨u, hu, ha⟩ := ha
    refine ih (fun e he => h0 e (by simp [he])) h0' (s := { u with donations := u.donations ++ [d] }) (s' := s')
      ?_ _ _ ha hb
    exact step (le' := s'.donations) (increaseAll_more hE hX hR hp hV h (h0 d (by simp)) hu)

theorem handleDonations_less {s s' : State} (h : Less X n s s') {l l' : List EtherEvent}
    (hl : l'.SublistForall₂ (fun d' d => d'.amount ≤ d.amount) l)
    (h0 : ∀ d ∈ l, 0 ≤ d.amount) (h0' : ∀ d ∈ l', 0 ≤ d.amount) :
    Rel (Less X n) (handleDonations E net s l) (handleDonations E' net s' l') := by
  unfold handleDonations
  rintro a b ha hb
  split at ha
  · cases ha
  split at hb
  · cases hb
  exact donLoop_less hE hX hR hE' hX' hR' hp hV hl h0 h0' h _ _ ha hb

theorem handleCorrect_less {s s' : State} (h : Less X n s s') {b : SumBlock} (hi : ¬ X b.index)
    (hb : ∀ r, b.reward = some r → 0 ≤ r) :
    Rel (Less X n) (handleCorrect E net s b) (handleCorrect E' net s' b) := by
  unfold handleCorrect
  dsimp only
  cases hr : b.reward with
  | none => exact .err
  | some r =>
    dsimp only
    refine Rel.bind (increaseAll_less hE hX hR hE' hX' hR' hp hV
      ((addSubscription_less h hi _ _).advance hi _) (hb r hr) (le_refl _)) fun a b hab => ?_
    refine Rel.bind (hab.consolidate hi) ?_
    rintro a _ ⟨hs, m, t, x, c, f, le, ld, lu, g, hm, hr, rfl⟩
    exact .ok ⟨hs, m, t, x, c, f, le, ld, lu, g, hm, hr, rfl⟩

theorem handleWrongFee_less {s s' : State} (h : Less X n s s') {b : SumBlock} (hi : ¬ X b.index) :
    Rel (Less X n) (handleWrongFee E net s b) (handleWrongFee E' net s' b) := by
  unfold handleWrongFee
  dsimp only
  refine Rel.bind ((h.advance hi _).pendOf hi) ?_
  rintro p p' ⟨h1, h2⟩
  refine Rel.bind (increaseAll_less hE hX hR hE' hX' hR' hp hV (h.advance hi _) h1 h2) fun a b hab => ?_
  refine Rel.bind (hab.resetPending hi) ?_
  rintro a _ ⟨hs, m, t, x, c, f, le, ld, lu, g, hm, hr, rfl⟩
  exact .ok ⟨hs, m, t, x, c, f, le, ld, lu, g, hm, hr, rfl⟩

omit hE hX hR hE' hX' hR' hp hV in
theorem handleBans_ok {s a : State} {evs : List BanEvent} (h : handleBans E net s evs = .ok a) :
    ∃ u tot, banLoop evs s 0 = .ok (u, tot) ∧ 0 ≤ tot ∧ (tot > 0 → increaseAll E net u tot = .ok a) ∧ (tot = 0 → a = u) := by
  unfold handleBans at h
  split at h
  · next e =>
    cases h
    subst e
    exact ⟨s, 0, rfl, le_refl _, fun k => absurd k (by decide), fun _ => rfl⟩
  split at h
  · cases h
  rw [bind_ok] at h
  obtain ⟨⟨u, tot⟩, h1, h⟩ := h
  dsimp only at h
  split at h
  · cases h
  split at h
  · exact ⟨u, tot, h1, by omega, fun _ => h, fun k => by omega⟩
  · cases h
    exact ⟨a, tot, h1, by omega, fun k => by omega, fun _ => rfl⟩

theorem handleBans_less {s s' : State} (h : Less X n s s') {evs evs' : List BanEvent}
    (hll : LeftOut (fun e => X e.validatorId) evs evs') (hl : ∀ e ∈ evs', ¬ X e.validatorId) :
    Rel (Less X n) (handleBans E net s evs) (handleBans E' net s' evs') := by
  intro a b ha hb
  obtain ⟨u, x, hu, hx, ha1, ha2⟩ := handleBans_ok ha
  obtain ⟨w, y, hw, hy, hb1, hb2⟩ := handleBans_ok hb
  obtain ⟨hab, _, e2⟩ := banLoop_less hll hl h (le_refl _) (le_refl _) _ _ hu hw
  dsimp only at hab e2
  rcases hy.eq_or_lt with hy | hy
  · rw [hb2 hy.symm]
    rcases hx.eq_or_lt with hx' | hx'
    · rw [ha2 hx'.symm]; exact hab
    · exact increaseAll_more hE hX hR hp hV hab hx (ha1 hx')
  · exact increaseAll_less hE hX hR hE' hX' hR' hp hV hab (by omega) e2 _ _ (ha1 (by omega)) (hb1 hy)

theorem applyBlock_less {s s' : State} (h : Less X n s s') {b : FullBlock} {sb : SumBlock}
    {dons dons' pays : List EtherEvent} {us vs bs}
    (hb : NotNamed X (otherBlock b pays us vs bs)) (hsb : ¬ X sb.index)
    (hr : sb.type = .okPool → ∀ r, sb.reward = some r → 0 ≤ r)
    (hu : LeftOut (fun p => X p.1.validatorId) (b.events.unsubs.zip b.valsUnsubs) (us.zip vs))
    (hbs : LeftOut (fun e => X e.validatorId) b.events.bans bs)
    (hl : dons'.SublistForall₂ (fun d' d => d'.amount ≤ d.amount) dons)
    (hd : ∀ d ∈ dons, 0 ≤ d.amount) (hd' : ∀ d ∈ dons', 0 ≤ d.amount) (hc : ∀ e ∈ b.events.subs, 0 ≤ e.collateral) :
    Rel (Less X n) (applyBlock E net s b sb dons) (applyBlock E' net s' (otherBlock b pays us vs bs) sb dons') := by
  obtain ⟨hs, m, t, x, c, f, le, ld, lu, g, hm, hlm, rfl⟩ := h
  unfold applyBlock otherBlock
  dsimp only
  refine Rel.bind (R := Less X n) ?_ fun s1 t1 h1 => ?_
  · apply handleSubs_less
    · exact ⟨hs, m, t, x, c, f, le ++ pays, ld, lu ++ us, g, hm, hlm, rfl⟩
    · exact fun e he => ⟨hb.subs e he, hc e he⟩
  have h2 : Less X n (if sb.type = .missed ∧ s1.isSubscribed sb.index then handleMissed s1 sb else s1)
      (if sb.type = .missed ∧ t1.isSubscribed sb.index then handleMissed t1 sb else t1) := by
    rw [h1.isSubscribed hsb]
    exact Less.ite (handleMissed_less h1 hsb) h1
  refine Rel.bind (Rel.ite (fun _ => handleBls_less h2 _) (fun _ => .ok h2)) fun s3 t3 h3 => ?_
  refine Rel.bind (Rel.ite (fun ht => handleCorrect_less hE hX hR hE' hX' hR' hp hV h3 hsb (hr ht))
    (fun _ => .ok h3)) fun s4 t4 h4 => ?_
  rw [h4.isSubscribed hsb]
  refine Rel.bind (Rel.ite (fun _ => handleWrongFee_less hE hX hR hE' hX' hR' hp hV h4 hsb)
    (fun _ => .ok h4)) fun s5 t5 h5 => ?_
  refine Rel.bind (handleUnsubs_less hE hX hR hE' hX' hR' hp hV h5 hu hb.unsubs) fun s6 t6 h6 => ?_
  refine Rel.bind (handleDonations_less hE hX hR hE' hX' hR' hp hV h6 hl hd hd') fun s7 t7 h7 => ?_
  refine Rel.bind (handleBans_less hE hX hR hE' hX' hR' hp hV h7 hbs hb.bans) fun s8 t8 h8 => ?_
  exact handleUnbans_less h8 _ hb.unbans

end

end Verif
