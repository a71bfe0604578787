import Verif.Spec.Rename
import Verif.Lemmas.Det
/-
Two runs of the model over chains that differ by the numbers of the validators.
-/
namespace Verif
open VMap

/-- the state `s` with the numbers of the validators changed in its lists -/
def renS (π : Nat ≃ Nat) (s : State) (m : VMap) (t : Nat) (x : Str) (c : List (Nat × Frozen)) : State :=
  { s with
    vals := m, tick := t, stateHash := x, committed := c
    subs := s.subs.map (·.ren π)
    unsubs := s.unsubs.map (·.ren π)
    proposed := s.proposed.map (·.ren π)
    missed := s.missed.map (·.ren π)
    wrongFee := s.wrongFee.map (·.ren π) }

/-- the records of `m'` are those of `m` with other numbers -/
def RenM (π : Nat ≃ Nat) (m m' : VMap) : Prop := ∀ i, get m' (π i) = (get m i).map (·.ren π)

/-- the same state with other numbers -/
def Ren (π : Nat ≃ Nat) (s s' : State) : Prop :=
  Sorted s.vals ∧ ∃ m t x c, Sorted m ∧ RenM π s.vals m ∧ s' = renS π s m t x c

variable {π : Nat ≃ Nat}

theorem RenM.modify {m m' : VMap} (h : RenM π m m') (i) {f g : Validator → Validator}
    (hf : ∀ v, g (v.ren π) = (f v).ren π) : RenM π (VMap.modify m i f) (VMap.modify m' (π i) g) := by
  intro j
  rw [get_modify, get_modify]
  by_cases hj : j = i
  · subst hj
    rw [if_pos rfl, if_pos rfl, h j]
    cases get m j <;> simp [hf]
  · rw [if_neg hj, if_neg (fun e => hj (π.injective e)), h j]

theorem RenM.insert {m m' : VMap} (h : RenM π m m') (i v) :
    RenM π (VMap.insert m i v) (VMap.insert m' (π i) (v.ren π)) := by
  intro j
  rw [get_insert, get_insert, h j]
  by_cases hj : j = i
  · subst hj; simp
  · rw [if_neg hj, if_neg (fun e => hj (π.injective e))]

theorem Ren.get {s s' : State} (h : Ren π s s') (i) : VMap.get s'.vals (π i) = (VMap.get s.vals i).map (·.ren π) := by
  obtain ⟨hs, m, t, x, c, hm, hr, rfl⟩ := h; exact hr i

theorem Ren.modVal {s s' : State} (h : Ren π s s') (i) {f g : Validator → Validator}
    (hf : ∀ v, g (v.ren π) = (f v).ren π) : Ren π (s.modVal i f) (s'.modVal (π i) g) := by
  obtain ⟨hs, m, t, x, c, hm, hr, rfl⟩ := h
  exact ⟨hs.modify _ _, _, t, x, c, hm.modify _ _, hr.modify i hf, rfl⟩

theorem Ren.advance {s s' : State} (h : Ren π s s') (i e) : Ren π (s.advance i e) (s'.advance (π i) e) :=
  h.modVal i fun _ => rfl

theorem Ren.setSubType {s s' : State} (h : Ren π s s') (i e) : Ren π (s.setSubType i e) (s'.setSubType (π i) e) :=
  h.modVal i fun _ => rfl

theorem Ren.putVal {s s' : State} (h : Ren π s s') (i v) : Ren π (s.putVal i v) (s'.putVal (π i) (v.ren π)) := by
  obtain ⟨hs, m, t, x, c, hm, hr, rfl⟩ := h
  exact ⟨hs.insert _ _, _, t, x, c, hm.insert _ _, hr.insert i v, rfl⟩

theorem Ren.toPool {s s' : State} (h : Ren π s s') (x) : Ren π (s.toPool x) (s'.toPool x) := by
  obtain ⟨hs, m, t, x, c, hm, hr, rfl⟩ := h
  exact ⟨hs, m, t, x, c, hm, hr, rfl⟩

theorem Ren.isSubscribed {s s' : State} (h : Ren π s s') (i) : s'.isSubscribed (π i) = s.isSubscribed i := by
  unfold State.isSubscribed; rw [h.get]; cases VMap.get s.vals i <;> rfl
theorem Ren.isBanned {s s' : State} (h : Ren π s s') (i) : s'.isBanned (π i) = s.isBanned i := by
  unfold State.isBanned; rw [h.get]; cases VMap.get s.vals i <;> rfl
theorem Ren.isTracked {s s' : State} (h : Ren π s s') (i) : s'.isTracked (π i) = s.isTracked i := by
  unfold State.isTracked; rw [h.get]; cases VMap.get s.vals i <;> rfl
theorem Ren.pendOf {s s' : State} (h : Ren π s s') (i) : s'.pendOf (π i) = s.pendOf i := by
  unfold State.pendOf; rw [h.get]; cases VMap.get s.vals i <;> rfl
theorem Ren.collateralEnough {s s' : State} (h : Ren π s s') (i) : s'.collateralEnough i = s.collateralEnough i := by
  obtain ⟨hs, m, t, x, c, hm, hr, rfl⟩ := h; rfl

theorem Ren.incPending {s s' : State} (h : Ren π s s') (i x) :
    Rel (Ren π) (s.incPending i x) (s'.incPending (π i) x) := by
  unfold State.incPending; rw [h.isTracked]
  exact .ite (fun _ => .ok (h.modVal _ fun _ => rfl)) (fun _ => .err)
theorem Ren.incAccumulated {s s' : State} (h : Ren π s s') (i x) :
    Rel (Ren π) (s.incAccumulated i x) (s'.incAccumulated (π i) x) := by
  unfold State.incAccumulated; rw [h.isTracked]
  exact .ite (fun _ => .ok (h.modVal _ fun _ => rfl)) (fun _ => .err)
theorem Ren.resetPending {s s' : State} (h : Ren π s s') (i) :
    Rel (Ren π) (s.resetPending i) (s'.resetPending (π i)) := by
  unfold State.resetPending; rw [h.isTracked]
  exact .ite (fun _ => .ok (h.modVal _ fun _ => rfl)) (fun _ => .err)
theorem Ren.consolidate {s s' : State} (h : Ren π s s') (i) :
    Rel (Ren π) (s.consolidate i) (s'.consolidate (π i)) := by
  unfold State.consolidate; rw [h.isTracked]
  exact .ite (fun _ => .ok (h.modVal _ fun _ => rfl)) (fun _ => .err)

theorem Ren.ite {p : Prop} [Decidable p] {s1 s1' s2 s2' : State} (h1 : Ren π s1 s1')
    (h2 : Ren π s2 s2') : Ren π (if p then s1 else s2) (if p then s1' else s2') := by
  split <;> assumption

theorem subOne_ren {s s' : State} (h : Ren π s s') (ev : SubEvent) (val : Option BVal) :
    Rel (Ren π) (subOne s ev val) (subOne s' (ev.ren π) (val.map (·.ren π))) := by
  unfold subOne
  cases val with
  | none => exact .ok (h.toPool _)
  | some v =>
    have e : (ev.ren π).validatorId = π ev.validatorId := rfl
    have e' : (ev.ren π).validatorId ≠ (v.ren π).index ↔ ev.validatorId ≠ v.index := by
      show π ev.validatorId ≠ π v.index ↔ _
      rw [Ne, π.injective.eq_iff]
    simp only [Option.map_some]
    by_cases hne : ev.validatorId ≠ v.index
    · rw [if_pos hne, if_pos (e'.mpr hne)]; exact .err
    rw [if_neg hne, if_neg (fun k => hne (e'.mp k))]
    refine .ite (fun _ => .ok (h.toPool _)) fun _ => ?_
    have ec : (v.ren π).creds = v.creds := rfl
    rw [ec]
    cases compatAddressByte v.creds with
    | none => exact .ok (h.toPool _)
    | some w =>
      dsimp only
      refine Rel.bind (.refl _) ?_
      rintro ok _ rfl
      rw [e, h.isBanned, h.isSubscribed, h.isTracked]
      have ek : (ev.ren π).collateral = ev.collateral := rfl
      rw [ek, h.collateralEnough]
      refine .ite (fun _ => .ok (h.toPool _)) fun _ => .ite (fun _ => h.incAccumulated _ _) fun _ =>
        .ite (fun _ => h.incAccumulated _ _) fun _ => .ite (fun _ => .ok (h.toPool _)) fun _ =>
        .ite (fun _ => ?_) (fun _ => .ok (h.toPool _))
      refine Rel.bind (Ren.incPending (Ren.setSubType (Ren.ite (h.putVal _ _) h) _ _) _ _) ?_
      intro a b hab
      exact .ok (hab.advance _ _)

theorem subLoop_ren (l : List (SubEvent × Option BVal)) : ∀ {s s' : State}, Ren π s s' →
    Rel (Ren π) (subLoop l s) (subLoop (l.map fun p => (p.1.ren π, p.2.map (·.ren π))) s') := by
  induction l with
  | nil => intro s s' h; exact .ok h
  | cons p l ih =>
    intro s s' h
    obtain ⟨ev, v⟩ := p
    exact Rel.bind (subOne_ren h ev v) fun a b hab => ih hab

theorem handleSubs_ren {s s' : State} (h : Ren π s s') (evs : List SubEvent) (vals : List (Option BVal)) :
    Rel (Ren π) (handleSubs s evs vals)
      (handleSubs s' (evs.map (·.ren π)) (vals.map fun v => v.map (·.ren π))) := by
  unfold handleSubs
  have e : (evs.map (·.ren π)).map (·.block) = evs.map (·.block) := by
    rw [List.map_map]; rfl
  rw [e, List.length_map, List.length_map, List.zip_map]
  exact .ite (fun _ => .err) fun _ => .ite (fun _ => .err) fun _ => subLoop_ren _ h

theorem addSubscription_ren {s s' : State} (h : Ren π s s') (i w k) :
    Ren π (addSubscription s i w k) (addSubscription s' (π i) w k) := by
  unfold addSubscription
  rw [h.isTracked, h.isSubscribed]
  refine Ren.ite (((h.putVal i _).advance _ _).modVal _ fun _ => rfl) (Ren.ite ?_ h)
  dsimp only
  rw [(h.advance _ _).isBanned]
  exact Ren.ite ((h.advance _ _).modVal _ fun _ => rfl) (h.advance _ _)

theorem handleMissed_ren {s s' : State} (h : Ren π s s') (b : SumBlock) :
    Ren π (handleMissed s b) (handleMissed s' (b.ren π)) := by
  have := h.advance b.index .proposalMissed
  obtain ⟨hs, m, t, x, c, hm, hr, e⟩ := this
  refine ⟨hs, m, t, x, c, hm, hr, ?_⟩
  unfold handleMissed
  have : (b.ren π).index = π b.index := rfl
  rw [this]
  dsimp only
  rw [e]
  simp [renS]

theorem handleBls_ren {s s' : State} (h : Ren π s s') (b : SumBlock) :
    Rel (Ren π) (handleBls s b) (handleBls s' (b.ren π)) := by
  unfold handleBls
  have e1 : (b.ren π).type = b.type := rfl
  have e2 : (b.ren π).reward = b.reward := rfl
  rw [e1, e2]
  refine .ite (fun _ => .err) fun _ => ?_
  cases b.reward with
  | none => exact .err
  | some r =>
    obtain ⟨hs, m, t, x, c, hm, hr, rfl⟩ := h
    exact .ok ⟨hs, m, t, x, c, hm, hr, by simp [renS, State.toPool]⟩

theorem banLoop_ren (l : List BanEvent) : ∀ {s s' : State} {tot}, Ren π s s' →
    Rel (fun a b => Ren π a.1 b.1 ∧ a.2 = b.2) (banLoop l s tot) (banLoop (l.map (·.ren π)) s' tot) := by
  induction l with
  | nil => intro s s' tot h; exact .ok ⟨h, rfl⟩
  | cons ev l ih =>
    intro s s' tot h
    have e : (ev.ren π).validatorId = π ev.validatorId := rfl
    rw [List.map_cons]
    unfold banLoop
    rw [e, h.isSubscribed]
    refine .ite (fun _ => ih h) fun _ => ?_
    dsimp only
    rw [(h.advance _ _).pendOf]
    refine Rel.bind (.refl _) ?_
    rintro p _ rfl
    exact Rel.bind ((h.advance _ _).resetPending _) fun a b hab => ih hab

theorem unbanLoop_ren (l : List BanEvent) : ∀ {s s' : State}, Ren π s s' →
    Ren π (unbanLoop l s) (unbanLoop (l.map (·.ren π)) s') := by
  induction l with
  | nil => intro s s' h; exact h
  | cons ev l ih =>
    intro s s' h
    have e : (ev.ren π).validatorId = π ev.validatorId := rfl
    rw [List.map_cons]
    unfold unbanLoop
    rw [e, h.isBanned]
    exact Ren.ite (ih h) (ih (h.advance _ _))

theorem handleUnbans_ren {s s' : State} (h : Ren π s s') (evs : List BanEvent) :
    Rel (Ren π) (handleUnbans s evs) (handleUnbans s' (evs.map (·.ren π))) := by
  unfold handleUnbans
  have e : (evs.map (·.ren π)).map (·.block) = evs.map (·.block) := by rw [List.map_map]; rfl
  rw [e]
  exact .ite (fun _ => .err) fun _ => .ok (unbanLoop_ren _ h)

/-! ### Operations that share rewards -/

theorem mem_earners {s : State} (hs : Sorted s.vals) {i} :
    i ∈ earners s ↔ ∃ v, VMap.get s.vals i = some v ∧ (v.status = .active ∨ v.status = .yellowCard) := by
  unfold earners
  simp only [List.mem_map, List.mem_filter, Bool.or_eq_true, decide_eq_true_eq]
  constructor
  · rintro ⟨⟨k, v⟩, ⟨h1, h2⟩, rfl⟩
    exact ⟨v, hs.get_of_mem h1, h2⟩
  · rintro ⟨v, h1, h2⟩
    exact ⟨(i, v), ⟨mem_of_get h1, h2⟩, rfl⟩

theorem earners_nd {s : State} (hs : Sorted s.vals) : (earners s).Nodup := by
  unfold earners
  exact (hs.nodup_keys).sublist (List.filter_sublist.map _)

theorem earners_ren {s s' : State} (h : Ren π s s') (hs' : Sorted s'.vals) :
    (earners s').Perm ((earners s).map π) := by
  refine (List.perm_ext_iff_of_nodup (earners_nd hs') ((earners_nd h.1).map π.injective)).mpr fun j => ?_
  obtain ⟨i, rfl⟩ := π.surjective j
  rw [mem_earners hs', List.mem_map_of_injective π.injective, mem_earners h.1, h.get]
  cases VMap.get s.vals i with
  | none => simp
  | some v => simp [Validator.ren]

/-- shares for other numbers -/
theorem shareOf_ren (l : List (Nat × Int)) (i) : shareOf (l.map fun p => (π p.1, p.2)) (π i) = shareOf l i := by
  induction l with
  | nil => rfl
  | cons p l ih =>
    obtain ⟨k, x⟩ := p
    rw [List.map_cons, shareOf_cons, shareOf_cons, ih]
    simp only [π.injective.eq_iff]

theorem canon_ren {V V' : Nat → Nat → BVal} (hV : ∀ slot i, V' slot (π i) = (V slot i).ren π) {s s' : State}
    (h : Ren π s s') (hs' : Sorted s'.vals) (net r) :
    (∀ i, shareOf (canon V' net s' r).1 (π i) = shareOf (canon V net s r).1 i) ∧
      (canon V' net s' r).2 = (canon V net s r).2 := by
  have hp := earners_ren h hs'
  have hl : (earners s').length = (earners s).length := by rw [hp.length_eq, List.length_map]
  have e1 : s'.fee = s.fee := by obtain ⟨_, m, t, x, c, _, _, rfl⟩ := h; rfl
  have e2 : s'.nextSlot = s.nextSlot := by obtain ⟨_, m, t, x, c, _, _, rfl⟩ := h; rfl
  have sh : ∀ {f g : Nat → Int}, (∀ i, g (π i) = f i) → ∀ i,
      shareOf ((earners s').map fun i => (i, g i)) (π i) = shareOf ((earners s).map fun i => (i, f i)) i := by
    intro f g hfg i
    rw [← shareOf_ren (π := π) ((earners s).map fun i => (i, f i))]
    refine shareOf_perm ?_ _
    have := hp.map fun i => (i, g i)
    rw [List.map_map] at this
    rw [List.map_map]
    refine this.trans (List.Perm.of_eq ?_)
    apply List.map_congr_left
    intro j _
    simp [hfg]
  have sm : ∀ {f g : Nat → Int}, (∀ i, g (π i) = f i) → ((earners s').map g).sum = ((earners s).map f).sum := by
    intro f g hfg
    have := (hp.map g).sum_eq
    rw [this, List.map_map]
    congr 1
    apply List.map_congr_left
    intro j _
    simp [hfg]
  have hb : ∀ i, i64 (V' s.nextSlot (π i)).effBal = i64 (V s.nextSlot i).effBal := by
    intro i; rw [hV]; rfl
  unfold canon
  dsimp only
  rw [e1, e2]
  by_cases h0 : earners s = []
  · have h0' : earners s' = [] := by rw [h0] at hp; exact List.perm_nil.mp hp
    rw [if_pos h0, if_pos h0']
    exact ⟨fun _ => rfl, rfl⟩
  · have h0' : ¬ earners s' = [] := by
      intro e; rw [e] at hl; exact h0 (List.length_eq_zero_iff.mp hl.symm)
    rw [if_neg h0, if_neg h0', hl]
    by_cases h1 : PostElectra net s.nextSlot
    · have e3 : ((earners s').map fun i => i64 (V' s.nextSlot i).effBal).sum =
          ((earners s).map fun i => i64 (V s.nextSlot i).effBal).sum :=
        sm (f := fun i => i64 (V s.nextSlot i).effBal) (g := fun i => i64 (V' s.nextSlot i).effBal) hb
      rw [if_pos h1, if_pos h1, e3]
      dsimp only
      generalize ((earners s).map fun i => i64 (V s.nextSlot i).effBal).sum = tot
      have k : ∀ i, (r - feeOf s.fee r) * i64 (V' s.nextSlot (π i)).effBal / tot =
          (r - feeOf s.fee r) * i64 (V s.nextSlot i).effBal / tot := fun i => by rw [hb]
      exact ⟨sh (f := fun i => (r - feeOf s.fee r) * i64 (V s.nextSlot i).effBal / tot)
          (g := fun i => (r - feeOf s.fee r) * i64 (V' s.nextSlot i).effBal / tot) k,
        by rw [sm (f := fun i => (r - feeOf s.fee r) * i64 (V s.nextSlot i).effBal / tot)
          (g := fun i => (r - feeOf s.fee r) * i64 (V' s.nextSlot i).effBal / tot) k]⟩
    · rw [if_neg h1, if_neg h1]
      by_cases h2 : PostFork1 net s.nextSlot
      · rw [if_pos h2, if_pos h2]
        exact ⟨sh fun _ => rfl, rfl⟩
      · rw [if_neg h2, if_neg h2]
        exact ⟨sh fun _ => rfl, rfl⟩

section
variable {E E' : Env} {V V' : Nat → Nat → BVal} {K K' : Nat → List (Nat × Nat)} {net : Str}
variable (hV : RenamedChain π V V' K K') (hE : ValidEnv E) (hX : ExactEnv E) (hR : ReadsChain V K E)
  (hE' : ValidEnv E') (hX' : ExactEnv E') (hR' : ReadsChain V' K' E')
include hV hE hX hR hE' hX' hR'

theorem increaseAll_ren {s s' : State} (h : Ren π s s') (r) :
    Rel (Ren π) (increaseAll E net s r) (increaseAll E' net s' r) := by
  intro a b ha hb
  have hs' : Sorted s'.vals := by obtain ⟨_, m, t, x, c, hm, _, rfl⟩ := h; exact hm
  have ea := increaseAll_canon hE hX hR h.1 ha
  have eb := increaseAll_canon hE' hX' hR' hs' hb
  obtain ⟨k1, k2⟩ := canon_ren hV.vals h hs' net r
  have hg := h.get
  obtain ⟨hs, m, t, x, c, hm, hr, e⟩ := h
  rw [ea, eb]
  refine ⟨hs.credit _, credit (canon V' net s' r).1 s'.vals, b.tick, x, c, hs'.credit _, ?_, ?_⟩
  · intro i
    dsimp only
    rw [get_credit, get_credit, hg, k1]
    cases VMap.get s.vals i <;> rfl
  · rw [k2, e]; rfl

theorem unsubOne_ren {s s' : State} (h : Ren π s s') (ev : UnsubEvent) (val : Option BVal) :
    Rel (Ren π) (unsubOne E net s ev val) (unsubOne E' net s' (ev.ren π) (val.map (·.ren π))) := by
  unfold unsubOne
  cases val with
  | none => exact .ok h
  | some v =>
    have e : (ev.ren π).validatorId = π ev.validatorId := rfl
    have e' : (v.ren π).index ≠ (ev.ren π).validatorId ↔ v.index ≠ ev.validatorId := by
      show π v.index ≠ π ev.validatorId ↔ _
      rw [Ne, π.injective.eq_iff]
    simp only [Option.map_some]
    by_cases hne : v.index ≠ ev.validatorId
    · rw [if_pos hne, if_pos (e'.mpr hne)]; exact .err
    rw [if_neg hne, if_neg (fun k => hne (e'.mp k))]
    have ec : (v.ren π).creds = v.creds := rfl
    rw [ec]
    cases compatAddressByte v.creds with
    | none => exact .ok h
    | some w =>
      dsimp only
      refine Rel.bind (.refl _) ?_
      rintro ok _ rfl
      rw [e, h.isSubscribed, (h.advance _ _).pendOf]
      refine .ite (fun _ => .ok h) fun _ => .ite (fun _ => ?_) (fun _ => .ok h)
      refine Rel.bind (.refl _) ?_
      rintro p _ rfl
      exact Rel.bind (increaseAll_ren hV hE hX hR hE' hX' hR' (h.advance _ _) _)
        fun a b hab => hab.resetPending _

theorem unsubLoop_ren (l : List (UnsubEvent × Option BVal)) : ∀ {s s' : State}, Ren π s s' →
    Rel (Ren π) (unsubLoop E net l s)
      (unsubLoop E' net (l.map fun p => (p.1.ren π, p.2.map (·.ren π))) s') := by
  induction l with
  | nil => intro s s' h; exact .ok h
  | cons p l ih =>
    intro s s' h
    obtain ⟨ev, v⟩ := p
    exact Rel.bind (unsubOne_ren hV hE hX hR hE' hX' hR' h ev v) fun a b hab => ih hab

theorem handleUnsubs_ren {s s' : State} (h : Ren π s s') (evs : List UnsubEvent) (vals : List (Option BVal)) :
    Rel (Ren π) (handleUnsubs E net s evs vals)
      (handleUnsubs E' net s' (evs.map (·.ren π)) (vals.map fun v => v.map (·.ren π))) := by
  unfold handleUnsubs
  have e : (evs.map (·.ren π)).map (·.block) = evs.map (·.block) := by
    rw [List.map_map]; rfl
  rw [e, List.length_map, List.length_map, List.zip_map]
  exact .ite (fun _ => .err) fun _ => .ite (fun _ => .err) fun _ => unsubLoop_ren hV hE hX hR hE' hX' hR' _ h

theorem donLoop_ren (l : List EtherEvent) : ∀ {s s' : State}, Ren π s s' →
    Rel (Ren π) (donLoop E net l s) (donLoop E' net l s') := by
  induction l with
  | nil => intro s s' h; exact .ok h
  | cons d l ih =>
    intro s s' h
    refine Rel.bind (increaseAll_ren hV hE hX hR hE' hX' hR' h _) fun a b hab => ih ?_
    obtain ⟨hs, m, t, x, c, hm, hr, rfl⟩ := hab
    exact ⟨hs, m, t, x, c, hm, hr, rfl⟩

theorem handleDonations_ren {s s' : State} (h : Ren π s s') (ds) :
    Rel (Ren π) (handleDonations E net s ds) (handleDonations E' net s' ds) := by
  unfold handleDonations
  exact .ite (fun _ => .err) fun _ => donLoop_ren hV hE hX hR hE' hX' hR' _ h

theorem handleCorrect_ren {s s' : State} (h : Ren π s s') (b : SumBlock) :
    Rel (Ren π) (handleCorrect E net s b) (handleCorrect E' net s' (b.ren π)) := by
  unfold handleCorrect
  have e1 : (b.ren π).reward = b.reward := rfl
  have e2 : (b.ren π).index = π b.index := rfl
  dsimp only
  rw [e1, e2]
  cases b.reward with
  | none => exact .err
  | some r =>
    dsimp only
    refine Rel.bind (increaseAll_ren hV hE hX hR hE' hX' hR'
      ((addSubscription_ren h _ _ _).advance _ _) _) fun a b hab => ?_
    refine Rel.bind (hab.consolidate _) ?_
    rintro a _ ⟨hs, m, t, x, c, hm, hr, rfl⟩
    exact .ok ⟨hs, m, t, x, c, hm, hr, by simp [renS]⟩

theorem handleWrongFee_ren {s s' : State} (h : Ren π s s') (b : SumBlock) :
    Rel (Ren π) (handleWrongFee E net s b) (handleWrongFee E' net s' (b.ren π)) := by
  unfold handleWrongFee
  have e2 : (b.ren π).index = π b.index := rfl
  dsimp only
  rw [e2, (h.advance _ _).pendOf]
  refine Rel.bind (.refl _) ?_
  rintro p _ rfl
  refine Rel.bind (increaseAll_ren hV hE hX hR hE' hX' hR' (h.advance _ _) _) fun a b hab => ?_
  refine Rel.bind (hab.resetPending _) ?_
  rintro a _ ⟨hs, m, t, x, c, hm, hr, rfl⟩
  exact .ok ⟨hs, m, t, x, c, hm, hr, by simp [renS]⟩

theorem handleBans_ren {s s' : State} (h : Ren π s s') (evs : List BanEvent) :
    Rel (Ren π) (handleBans E net s evs) (handleBans E' net s' (evs.map (·.ren π))) := by
  unfold handleBans
  have e : (evs.map (·.ren π)).map (·.block) = evs.map (·.block) := by rw [List.map_map]; rfl
  rw [e]
  by_cases h0 : evs = []
  · subst h0; exact .ok h
  rw [if_neg h0, if_neg (fun k => h0 (List.map_eq_nil_iff.mp k))]
  refine .ite (fun _ => .err) fun _ => ?_
  refine Rel.bind (banLoop_ren _ h) ?_
  rintro ⟨a, x⟩ ⟨b, y⟩ ⟨hab, e⟩
  dsimp only at hab e ⊢
  subst e
  exact .ite (fun _ => .err) fun _ =>
    .ite (fun _ => increaseAll_ren hV hE hX hR hE' hX' hR' hab _) fun _ => .ok hab

theorem applyBlock_ren {s s' : State} (h : Ren π s s') (b : FullBlock) (sb : SumBlock) (dons) :
    Rel (Ren π) (applyBlock E net s b sb dons) (applyBlock E' net s' (b.ren π) (sb.ren π) dons) := by
  obtain ⟨hs, m, t, x, c, hm, hr, rfl⟩ := h
  have e1 : (sb.ren π).type = sb.type := rfl
  have e2 : (sb.ren π).index = π sb.index := rfl
  unfold applyBlock
  dsimp only
  rw [e1, e2]
  refine Rel.bind (R := Ren π) ?_ fun s1 t1 h1 => ?_
  · apply handleSubs_ren; exact ⟨hs, m, t, x, c, hm, hr, by simp [renS, FullBlock.ren]⟩
  have h2 : Ren π (if sb.type = .missed ∧ s1.isSubscribed sb.index then handleMissed s1 sb else s1)
      (if sb.type = .missed ∧ t1.isSubscribed (π sb.index) then handleMissed t1 (sb.ren π) else t1) := by
    rw [h1.isSubscribed]
    exact Ren.ite (handleMissed_ren h1 _) h1
  refine Rel.bind (Rel.ite (fun _ => handleBls_ren h2 _) (fun _ => .ok h2)) fun s3 t3 h3 => ?_
  refine Rel.bind (Rel.ite (fun _ => handleCorrect_ren hV hE hX hR hE' hX' hR' h3 _)
    (fun _ => .ok h3)) fun s4 t4 h4 => ?_
  rw [h4.isSubscribed]
  refine Rel.bind (Rel.ite (fun _ => handleWrongFee_ren hV hE hX hR hE' hX' hR' h4 _)
    (fun _ => .ok h4)) fun s5 t5 h5 => ?_
  refine Rel.bind (handleUnsubs_ren hV hE hX hR hE' hX' hR' h5 _ _) fun s6 t6 h6 => ?_
  refine Rel.bind (handleDonations_ren hV hE hX hR hE' hX' hR' h6 _) fun s7 t7 h7 => ?_
  refine Rel.bind (handleBans_ren hV hE hX hR hE' hX' hR' h7 _) fun s8 t8 h8 => ?_
  exact handleUnbans_ren h8 _

end

/-! ### Cleanup -/

/-- the same map, as a function, with other numbers -/
def RenF (π : Nat ≃ Nat) (f f' : Fn) : Prop := ∀ i, f' (π i) = (f i).map (·.ren π)

theorem RenF.update {f f' : Fn} (h : RenF π f f') (i v) :
    RenF π (Function.update f i (some v)) (Function.update f' (π i) (some (v.ren π))) := by
  intro j
  by_cases hj : j = i
  · subst hj; simp
  · rw [Function.update_of_ne hj, Function.update_of_ne (fun e => hj (π.injective e)), h j]

theorem consolTarget_ren (cs : List (Nat × Nat)) (i) :
    consolTarget (cs.map fun p => (π p.1, π p.2)) (π i) = (consolTarget cs i).map π := by
  unfold consolTarget
  rw [← List.map_reverse, List.find?_map, Option.map_map, Option.map_map]
  have : ((fun p : Nat × Nat => p.1 == π i) ∘ fun p : Nat × Nat => (π p.1, π p.2)) =
      fun p : Nat × Nat => p.1 == i := by
    funext p
    simp [π.injective.eq_iff]
  rw [this]
  rfl

theorem cleanStep_ren {c c' : Nat → BVal} (hc : ∀ i, c' (π i) = (c i).ren π) {cs : List (Nat × Nat)} {z z' : Fn × Int}
    (h : RenF π z.1 z'.1) (ht : z'.2 = z.2) (u : BVal) :
    RenF π (cleanStep c cs z u).1 (cleanStep c' (cs.map fun p => (π p.1, π p.2)) z' (u.ren π)).1 ∧
      (cleanStep c' (cs.map fun p => (π p.1, π p.2)) z' (u.ren π)).2 = (cleanStep c cs z u).2 := by
  have e1 : (u.ren π).status = u.status := rfl
  have e2 : (u.ren π).index = π u.index := rfl
  unfold cleanStep
  rw [e1, e2, h u.index]
  by_cases ha : u.status.isActive
  · rw [if_pos ha, if_pos ha]; exact ⟨h, ht⟩
  rw [if_neg ha, if_neg ha]
  cases z.1 u.index with
  | none => exact ⟨h, ht⟩
  | some v =>
    have e3 : (v.ren π).pend = v.pend := rfl
    simp only [Option.map_some]
    rw [e3, consolTarget_ren]
    by_cases hp : v.pend = 0
    · rw [if_pos hp, if_pos hp]; exact ⟨h, ht⟩
    rw [if_neg hp, if_neg hp]
    cases consolTarget cs u.index with
    | none => exact ⟨h.update _ (cleanFn v), by simp [ht]⟩
    | some j =>
      simp only [Option.map_some]
      rw [h j]
      cases z.1 j with
      | none =>
        refine ⟨?_, ht⟩
        simp only [Option.map_none]
        rw [hc j]
        exact (h.update _ (cleanFn v)).update j (made _ (c j) j v.pend)
      | some w =>
        have e4 : (w.ren π).status = w.status := rfl
        simp only [Option.map_some]
        rw [e4]
        by_cases hb : w.status = .banned
        · rw [if_pos hb, if_pos hb]; exact ⟨h.update _ (cleanFn v), by simp [ht]⟩
        · rw [if_neg hb, if_neg hb]
          exact ⟨(h.update _ (cleanFn v)).update j { w with pend := w.pend + v.pend }, ht⟩

theorem cleanFold_ren {c c' : Nat → BVal} (hc : ∀ i, c' (π i) = (c i).ren π) {cs : List (Nat × Nat)} (l : List BVal) :
    ∀ {z z' : Fn × Int}, RenF π z.1 z'.1 → z'.2 = z.2 →
    RenF π (l.foldl (cleanStep c cs) z).1
        ((l.map (·.ren π)).foldl (cleanStep c' (cs.map fun p => (π p.1, π p.2))) z').1 ∧
      ((l.map (·.ren π)).foldl (cleanStep c' (cs.map fun p => (π p.1, π p.2))) z').2 =
        (l.foldl (cleanStep c cs) z).2 := by
  induction l with
  | nil => intro z z' h ht; exact ⟨h, ht⟩
  | cons u l ih =>
    intro z z' h ht
    obtain ⟨k1, k2⟩ := cleanStep_ren hc (cs := cs) h ht u
    exact ih k1 k2

/-- the order of the cleanup does not matter without chains of consolidations -/
theorem cleanFold_perm {c : Nat → BVal} {cs : List (Nat × Nat)} {f0 : Fn} {l l' : List BVal} (hl : l.Perm l')
    (hchain : ∀ u ∈ l, u = c u.index) (htrk : ∀ u ∈ l, ∃ v, f0 u.index = some v)
    (hch : ∀ i j v w, f0 i = some v → f0 j = some w → consolTarget cs i = some j →
      (c i).status.isActive = false → (c j).status.isActive = false →
      i ≠ j ∧ (v.pend = 0 ∨ (w.status = .banned ∧ w.pend = 0))) (t : Int) :
    l.foldl (cleanStep c cs) (f0, t) = l'.foldl (cleanStep c cs) (f0, t) := by
  have hno : ∀ u ∈ l, u.status.isActive = false → ∀ j, consolTarget cs u.index = some j → j ≠ u.index := by
    rintro u hu hact j hj rfl
    obtain ⟨v, hv⟩ := htrk u hu
    have ha : (c u.index).status.isActive = false := by rw [← hchain u hu]; exact hact
    exact (hch _ _ v v hv hv hj ha ha).1 rfl
  have hgood : ∀ u ∈ l, ∀ w ∈ l, (∀ v, f0 u.index = some v → v.pend ≠ 0) →
      (∀ v, f0 w.index = some v → v.pend ≠ 0) → u.status.isActive = false →
      ∀ j, consolTarget cs u.index = some j → w.status.isActive = false → j ≠ w.index := by
    rintro u hu w hw hpu hpw hact j hj hwa rfl
    obtain ⟨v, hv⟩ := htrk u hu
    obtain ⟨v', hv'⟩ := htrk w hw
    rcases (hch _ _ v v' hv hv' hj (by rw [← hchain u hu]; exact hact)
      (by rw [← hchain w hw]; exact hwa)).2 with h | h
    · exact hpu v hv h
    · exact hpw v' hv' h.2
  have hch' : ∀ i j v w, f0 i = some v → f0 j = some w →
      consolTarget cs i = some j → (c i).status.isActive = false →
      (c j).status.isActive = false → v.pend = 0 ∨ (w.status = .banned ∧ w.pend = 0) :=
    fun i j v w h1 h2 h3 h4 h5 => (hch i j v w h1 h2 h3 h4 h5).2
  rw [cleanFold_filter f0 hch' l _ (fun u hu => ⟨hchain u hu, htrk u hu⟩) (fun _ _ _ _ _ => rfl),
    cleanFold_filter f0 hch' l' _
      (fun u hu => ⟨hchain u (hl.mem_iff.mpr hu), htrk u (hl.mem_iff.mpr hu)⟩) (fun _ _ _ _ _ => rfl)]
  apply (hl.filter _).foldl_eq'
  intro x hx y hy z
  obtain ⟨hx, hpx⟩ := List.mem_filter.mp hx
  obtain ⟨hy, hpy⟩ := List.mem_filter.mp hy
  have hpx : ∀ v, f0 x.index = some v → v.pend ≠ 0 := fun v h1 => by simpa [h1] using hpx
  have hpy : ∀ v, f0 y.index = some v → v.pend ≠ 0 := fun v h1 => by simpa [h1] using hpy
  by_cases hxy : x = y
  · rw [hxy]
  · have hi : x.index ≠ y.index := by
      intro e
      apply hxy
      rw [hchain x hx, hchain y hy, e]
    exact cleanStep_comm z hi
      (fun hact j hj => ⟨hno x hx hact j hj, hgood x hx y hy hpx hpy hact j hj⟩)
      (fun hact j hj => ⟨hno y hy hact j hj, hgood y hy x hx hpy hpx hact j hj⟩)

theorem keys_ren {m m' : VMap} (hs : Sorted m) (hs' : Sorted m') (h : RenM π m m') :
    (VMap.keys m').Perm ((VMap.keys m).map π) := by
  refine (List.perm_ext_iff_of_nodup hs'.nodup_keys (hs.nodup_keys.map π.injective)).mpr fun j => ?_
  obtain ⟨i, rfl⟩ := π.surjective j
  rw [List.mem_map_of_injective π.injective, ← get_isSome_iff, ← get_isSome_iff, h i]
  simp

theorem ren_symm (u : BVal) : (u.ren π.symm).ren π = u := by simp [BVal.ren]

section
variable {E E' : Env} {V V' : Nat → Nat → BVal} {K K' : Nat → List (Nat × Nat)} {net : Str}

theorem answers_ren (hV : RenamedChain π V V' K K') (hE : ValidEnv E) (hX : ExactEnv E) (hR : ReadsChain V K E)
    (hE' : ValidEnv E') (hX' : ExactEnv E') (hR' : ReadsChain V' K' E')
    {t t' slot req req' r r'} (h : getSet E t slot req = some r)
    (h' : getSet E' t' slot req' = some r') (hn : req.Nodup) (hp : req'.Perm (req.map π)) :
    r'.Perm (r.map (·.ren π)) := by
  have k1 := answer_perm hE hX h hn
  have k2 := answer_perm hE' hX' h' (hp.nodup_iff.mpr (hn.map π.injective))
  have k3 := (k2.trans (hp.trans (k1.symm.map π))).map (V' slot)
  rw [List.map_map, List.map_map, List.map_map] at k3
  have e1 : r.map ((V' slot ∘ π) ∘ fun v => v.index) = r.map (·.ren π) :=
    List.map_congr_left fun v hv => by
      have := hR.node _ _ _ _ (getSet_some h).1 v hv
      show V' slot (π v.index) = _
      rw [hV.vals, ← this]
  have e2 : r'.map (V' slot ∘ fun v => v.index) = r' := by
    conv_rhs => rw [← List.map_id r']
    exact List.map_congr_left fun v hv => (hR'.node _ _ _ _ (getSet_some h').1 v hv).symm
  rw [e2] at k3
  exact k3.trans (.of_eq e1)

theorem cleanup_ren (hV : RenamedChain π V V' K K') (hE : ValidEnv E) (hX : ExactEnv E) (hR : ReadsChain V K E)
    (hE' : ValidEnv E') (hX' : ExactEnv E') (hR' : ReadsChain V' K' E') {slot}
    {s s' : State} (hA : NoChains V K slot s) (h : Ren π s s') :
    Rel (fun a b => a.2 = true → b.2 = true → Ren π a.1 b.1) (cleanup E net s slot)
      (cleanup E' net s' slot) := by
  have h0 := h
  obtain ⟨hs, m, t, x, c, hm, hr, rfl⟩ := h
  unfold cleanup
  dsimp only
  refine .ite (fun _ => .ok fun _ _ => h0) fun _ => ?_
  have hpi : (E'.shuffle t (VMap.keys m)).Perm ((E.shuffle s.tick (VMap.keys s.vals)).map π) :=
    (shuffle_perm hE' _ _).trans ((keys_ren hs hm hr).trans ((shuffle_perm hE _ _).symm.map π))
  have hnd : (E.shuffle s.tick (VMap.keys s.vals)).Nodup :=
    (shuffle_perm hE _ _).nodup_iff.mpr hs.nodup_keys
  show Rel _ _ (if E'.shuffle t (VMap.keys m) = [] then _ else _)
  by_cases hnil : E.shuffle s.tick (VMap.keys s.vals) = []
  · have hnil' : E'.shuffle t (VMap.keys m) = [] := by rw [hnil] at hpi; exact List.perm_nil.mp hpi
    rw [if_pos hnil, if_pos hnil']
    exact .ok fun _ _ => ⟨hs, m, _, x, c, hm, hr, rfl⟩
  · have hnil' : ¬ E'.shuffle t (VMap.keys m) = [] := by
      intro e; rw [e] at hpi
      exact hnil (List.map_eq_nil_iff.mp (List.nil_perm.mp hpi))
    rw [if_neg hnil, if_neg hnil']
    show Rel _ _ (match (if slot ≥ slotOrZero (slotElectra net) then E'.consol t slot else some []) with
      | none => _ | some cs => _)
    generalize hcs : (if slot ≥ slotOrZero (slotElectra net) then E.consol s.tick slot else some []) = cs?
    generalize hcs' : (if slot ≥ slotOrZero (slotElectra net) then E'.consol t slot else some []) = cs?'
    cases cs? with
    | none =>
      intro a b ha _
      simp only [Except.ok.injEq] at ha
      subst ha
      intro h; simp at h
    | some cs =>
    cases cs?' with
    | none =>
      intro a b _ hb
      simp only [Except.ok.injEq] at hb
      subst hb
      intro _ h; simp at h
    | some cs' =>
    have hcc : cs' = (cs.map fun p => (π p.1, π p.2)) ∧ ∀ i j, consolTarget cs i = some j → LastTarget (K slot) i j := by
      split at hcs
      · rename_i hge
        rw [if_pos hge] at hcs'
        have e1 := hR.consol _ _ _ hcs
        have e2 := hR'.consol _ _ _ hcs'
        exact ⟨by rw [e1, e2, hV.consol], by rw [e1]; exact fun _ _ h => (consolTarget_some h).1⟩
      · rename_i hge
        rw [if_neg hge] at hcs'
        simp only [Option.some.injEq] at hcs hcs'
        exact ⟨by rw [← hcs, ← hcs']; rfl, by rw [← hcs]; intro i j h; cases h⟩
    obtain ⟨rfl, hmem⟩ := hcc
    dsimp only
    show Rel _ _ (match getSet E' t slot (E'.shuffle t (VMap.keys m)) with
      | none => _ | some vs => _)
    cases hg : getSet E s.tick slot (E.shuffle s.tick (VMap.keys s.vals)) with
    | none =>
      intro a b ha _
      simp only [Except.ok.injEq] at ha
      subst ha
      intro h; simp at h
    | some vs =>
    cases hg' : getSet E' t slot (E'.shuffle t (VMap.keys m)) with
    | none =>
      intro a b _ hb
      simp only [Except.ok.injEq] at hb
      subst hb
      intro _ h; simp at h
    | some vs' =>
    dsimp only
    have hvs := answers_ren hV hE hX hR hE' hX' hR' hg hg' hnd hpi
    have hl : (E'.shuffle (t + 1) vs').Perm ((E.shuffle (s.tick + 1) vs).map (·.ren π)) :=
      (shuffle_perm hE' _ _).trans (hvs.trans ((shuffle_perm hE _ _).symm.map _))
    have hchain : ∀ u ∈ E.shuffle (s.tick + 1) vs, u = V slot u.index := fun u hu =>
      hR.node _ _ _ _ (getSet_some hg).1 u ((shuffle_perm hE _ _).mem_iff.mp hu)
    have htrk : ∀ u ∈ E.shuffle (s.tick + 1) vs, ∃ v, VMap.get s.vals u.index = some v := fun u hu => by
      have h1 := hX _ _ _ _ (getSet_some hg).1 u ((shuffle_perm hE _ _).mem_iff.mp hu)
      have h2 := (shuffle_perm hE _ _).mem_iff.mp h1
      exact Option.isSome_iff_exists.mp ((VMap.get_isSome_iff _ _).mpr h2)
    show Rel _ _ (do
      let r ← cleanLoop E' slot (cs.map fun p => (π p.1, π p.2)) (E'.shuffle (t + 1) vs') _ 0
      _)
    generalize E.shuffle (s.tick + 1) vs = l at *
    generalize E'.shuffle (t + 1) vs' = l' at *
    have hno : ∀ u ∈ l, u.status.isActive = false → ∀ j, consolTarget cs u.index = some j → j ≠ u.index := by
      rintro u hu hact j hj rfl
      obtain ⟨v, hv⟩ := htrk u hu
      have ha : (V slot u.index).status.isActive = false := by rw [← hchain u hu]; exact hact
      exact (hA _ _ v v hv hv (hmem _ _ hj) ha ha).1 rfl
    have hno' : ∀ u ∈ l', u.status.isActive = false →
        ∀ j, consolTarget (cs.map fun p => (π p.1, π p.2)) u.index = some j → j ≠ u.index := by
      intro u hu hact j hj
      obtain ⟨u0, hu0, rfl⟩ := List.mem_map.mp (hl.mem_iff.mp hu)
      have e : (u0.ren π).index = π u0.index := rfl
      rw [e, consolTarget_ren] at hj
      obtain ⟨j0, hj0, rfl⟩ := Option.map_eq_some_iff.mp hj
      exact fun k => hno u0 hu0 hact j0 hj0 (π.injective k)
    refine Rel.bind (R := fun a b => a.2.2 = true → b.2.2 = true → Ren π a.1 b.1 ∧ a.2.1 = b.2.1) ?_ ?_
    · rintro ⟨a, ta, ga⟩ ⟨b, tb, gb⟩ ha hb ea eb
      dsimp only at ea eb ⊢
      subst ea eb
      obtain ⟨a1, a2, a3⟩ := cleanLoop_fold hR l (s := { s with tick := s.tick + 2 }) hs
        hno ha
      obtain ⟨b1, b2, b3⟩ := cleanLoop_fold hR' l' (s := { renS π s m t x c with tick := t + 2 }) hm hno' hb
      dsimp only at a2 b2
      have hl2 : l.Perm (l'.map (·.ren π.symm)) := by
        have := (hl.map (·.ren π.symm)).symm
        rw [List.map_map] at this
        have e : l.map ((·.ren π.symm) ∘ (·.ren π)) = l := by
          conv_rhs => rw [← List.map_id l]
          apply List.map_congr_left
          intro u _
          simp [BVal.ren]
        rwa [e] at this
      have e2 : (l'.map (·.ren π.symm)).map (·.ren π) = l' := by
        rw [List.map_map]
        conv_rhs => rw [← List.map_id l']
        apply List.map_congr_left
        intro u _
        exact ren_symm u
      have k := cleanFold_ren (hV.vals slot) (cs := cs) (l'.map (·.ren π.symm)) (z := (VMap.get s.vals, 0))
        (z' := (VMap.get m, 0)) hr rfl
      have b2 : (VMap.get b.vals, tb) = _ := b2
      rw [e2, ← cleanFold_perm hl2 hchain htrk (fun i j v w h1 h2 h3 => hA i j v w h1 h2 (hmem _ _ h3)) 0, ← a2] at k
      have b2' : (VMap.get b.vals, tb) =
        l'.foldl (cleanStep (V' slot) (cs.map fun p => (π p.1, π p.2))) (VMap.get m, 0) := b2
      rw [← b2'] at k
      refine ⟨⟨a1, b.vals, b.tick, x, c, b1, k.1, ?_⟩, k.2.symm⟩
      rw [b3, a3]
      rfl
    · rintro ⟨a, ta, ga⟩ ⟨b, tb, gb⟩ hab
      dsimp only at hab ⊢
      cases ga with
      | false =>
        intro a b ha _
        simp only [Bool.not_false, if_true, Except.ok.injEq] at ha
        subst ha
        intro h; simp at h
      | true =>
      cases gb with
      | false =>
        intro x y _ hy
        simp only [Bool.not_false, if_true, Except.ok.injEq] at hy
        subst hy
        intro _ h; simp at h
      | true =>
        obtain ⟨hsame, rfl⟩ := hab rfl rfl
        simp only [Bool.not_true, Bool.false_eq_true, if_false]
        refine .ite (fun _ => ?_) (fun _ => .ok fun _ _ => hsame)
        exact Rel.bind (increaseAll_ren hV hE hX hR hE' hX' hR' hsame _) fun x y hxy => .ok fun _ _ => hxy

end

/-! ### The block -/

theorem mevReward_ren (b : FullBlock) : mevReward (b.ren π) = mevReward b := by
  unfold mevReward FullBlock.ren
  cases b.cons <;> rfl

theorem proposerTip_ren (b : FullBlock) : proposerTip (b.ren π) = proposerTip b := by
  unfold proposerTip FullBlock.ren
  cases b.cons <;> rfl

theorem sentReward_ren (b : FullBlock) (pool x) : sentReward (b.ren π) pool x = sentReward b pool x := by
  unfold sentReward
  rw [mevReward_ren, proposerTip_ren]
  unfold FullBlock.ren
  cases b.cons <;> rfl

theorem getDonations_ren (b : FullBlock) (pool) : getDonations (b.ren π) pool = getDonations b pool := by
  unfold getDonations
  rw [mevReward_ren]
  unfold FullBlock.ren
  cases b.cons <;> rfl

end Verif
