import Verif.Lemmas.HeapOps
import Verif.Lemmas.Slot
/-
The oracle with pointers does what the oracle with numbers does: cleanup and one slot.
-/
namespace Verif

theorem SimM.refl' {β : Type} (x : M β) : SimM (fun a b => x = .ok a ∧ b = a) x x := by
  cases x <;> simp [SimM]

theorem SimM.ite_iff {β γ : Type} {R : β → γ → Prop} {c c' : Prop} [Decidable c] [Decidable c'] {x x' : M β}
    {y y' : M γ} (hc : c ↔ c') (h : c → SimM R x y) (h' : ¬ c → SimM R x' y') :
    SimM R (if c then x else x') (if c' then y else y') := by
  by_cases hcc : c
  · rw [if_pos hcc, if_pos (hc.mp hcc)]; exact h hcc
  · rw [if_neg hcc, if_neg (mt hc.mpr hcc)]; exact h' hcc

theorem KMap.modify_insert {α : Type} (m : List (Nat × α)) {k i : Nat} (hne : k ≠ i) (v : α) (f : α → α) :
    KMap.modify (KMap.insert m k v) i f = KMap.insert (KMap.modify m i f) k v := by
  induction m with
  | nil => simp [KMap.insert, KMap.modify, hne]
  | cons p m ih =>
    obtain ⟨a, w⟩ := p
    simp only [KMap.insert, KMap.modify, List.map_cons] at ih ⊢
    by_cases h1 : k < a
    · by_cases ha : a = i
      · subst ha; simp [h1, hne]
      · simp [h1, ha, hne]
    · by_cases h2 : k = a
      · subst h2; simp [hne]
      · by_cases ha : a = i
        · subst ha; simp [h1, h2, ih]
        · simp [h1, h2, ha, ih]

theorem VMap.modify_insert (m : VMap) {k i : Nat} (hne : k ≠ i) (v : Validator) (f : Validator → Validator) :
    VMap.modify (VMap.insert m k v) i f = VMap.insert (VMap.modify m i f) k v := by
  induction m with
  | nil => simp [VMap.insert, VMap.modify, hne]
  | cons p m ih =>
    obtain ⟨a, w⟩ := p
    simp only [VMap.insert, VMap.modify, List.map_cons] at ih ⊢
    by_cases h1 : k < a
    · by_cases ha : a = i
      · subst ha; simp [h1, hne]
      · simp [h1, ha, hne]
    · by_cases h2 : k = a
      · subst h2; simp [hne]
      · by_cases ha : a = i
        · subst ha; simp [h1, h2, ih]
        · simp [h1, h2, ha, ih]

theorem cellOf_reset {m : Mem} {i : Nat} {q : Ptr} {a : Owner} {c : Ptr}
    (h : (m.modVal i fun v => { v with pend := q }).cellOf a = some c) :
    (m.cellOf a = some c ∧ a ≠ .pend i) ∨ (a = .pend i ∧ c = q) := by
  have hget : ∀ k, KMap.get (m.modVal i fun v => { v with pend := q }).st.vals k =
      if k = i then (KMap.get m.st.vals k).map (fun v => { v with pend := q })
      else KMap.get m.st.vals k := fun k => KMap.get_modify m.st.vals i k fun v => { v with pend := q }
  cases a with
  | pool => exact Or.inl ⟨h, by simp⟩
  | acc k =>
    left
    refine ⟨?_, by simp⟩
    simp only [Mem.cellOf, hget] at h ⊢
    split at h
    · simpa [Option.map_map, Function.comp_def] using h
    · exact h
  | pend k =>
    simp only [Mem.cellOf, hget] at h ⊢
    split at h
    · rename_i hk
      subst hk
      right
      cases hg : KMap.get m.st.vals k with
      | none => simp [hg] at h
      | some v => simp [hg] at h; exact ⟨rfl, h.symm⟩
    · rename_i hk
      exact Or.inl ⟨h, by simpa using hk⟩

theorem coll_reset {m : Mem} {i : Nat} {q : Ptr} {k : Nat} {w : PVal}
    (h : KMap.get (m.modVal i fun v => { v with pend := q }).st.vals k = some w) :
    ∃ w', KMap.get m.st.vals k = some w' ∧ w'.coll = w.coll := by
  have hget : KMap.get (m.modVal i fun v => { v with pend := q }).st.vals k =
      if k = i then (KMap.get m.st.vals k).map (fun v => { v with pend := q })
      else KMap.get m.st.vals k := KMap.get_modify m.st.vals i k fun v => { v with pend := q }
  rw [hget] at h
  split at h
  · obtain ⟨w', hw, rfl⟩ := Option.map_eq_some_iff.mp h
    exact ⟨w', hw, rfl⟩
  · exact ⟨w, h, rfl⟩

/-- The target of a consolidation is given the cell of the source, the source gets a new one
(oracle.go:366-392): in between two balances share a cell. -/
theorem sim_newTarget {m : Mem} (hs : Sep m) {i tgt : Nat} {p : Ptr} (hp : m.cellOf (.pend i) = some p)
    (ht : KMap.get m.st.vals tgt = none) (t : Nat) (w key : Str) :
    SimM (HRel m)
      ((Mem.putVal (Mem.setTick { m with heap := (m.heap.new 0).new 0 } t) tgt
        { status := .notSubscribed, acc := m.heap.next, pend := p, coll := (m.heap.new 0).next, waddr := w,
          index := tgt, key := key, subType := .manual }).resetPending i)
      ((State.putVal { m.read with tick := t } tgt
        { status := .notSubscribed, acc := 0, pend := m.heap.cell p, coll := 0, waddr := w, index := tgt,
          key := key, subType := .manual }).resetPending i) := by
  set pv : PVal :=
    { status := .notSubscribed, acc := m.heap.next, pend := p, coll := (m.heap.new 0).next, waddr := w,
      index := tgt, key := key, subType := .manual } with hpv
  set h2 := (m.heap.new 0).new 0 with hh2
  obtain ⟨v, hv, hvp⟩ : ∃ v, KMap.get m.st.vals i = some v ∧ v.pend = p := by
    simpa [Mem.cellOf, Option.map_eq_some_iff] using hp
  have hne : tgt ≠ i := fun h => by rw [h, hv] at ht; cases ht
  have he : m.heap.Ext h2 := (Heap.ext_new _ _).trans (Heap.ext_new _ _)
  have r1 := rel_ext hs he
  have r2 := (rel_tick r1.sep t).after r1.frame
  have r3 := (rel_reset r2.sep i 0).after r2.frame
  set n := Mem.modVal { (Mem.setTick { m with heap := h2 } t) with
    heap := (Mem.setTick { m with heap := h2 } t).heap.new 0 } i
      fun v => { v with pend := (Mem.setTick { m with heap := h2 } t).heap.next } with hn
  have hnn : h2.next = m.heap.next + 2 := rfl
  have hown : ∀ a c, n.cellOf a = some c → (m.cellOf a = some c ∧ a ≠ .pend i) ∨ c = m.heap.next + 2 := by
    intro a c h
    rcases cellOf_reset h with ⟨h, h'⟩ | ⟨_, h⟩
    · exact Or.inl ⟨by cases a <;> exact h, h'⟩
    · exact Or.inr h
  have hpb : p < m.heap.next := hs.bound _ _ hp
  have hnext : n.heap.next = m.heap.next + 3 := rfl
  have hcoll : ∀ k u, KMap.get n.st.vals k = some u → m.Unowned u.coll := by
    intro k u h
    obtain ⟨u', hu', e⟩ := coll_reset h
    rw [← e]
    exact hs.colls k u' hu'
  obtain ⟨q1, q2, q3⟩ := rel_put r3.sep (Heap.Ext.refl _) (i := tgt) (v := pv)
    (by show m.heap.next ≠ p; omega)
    ⟨by show m.heap.next < _; omega, fun a ha => by
        rcases hown a m.heap.next ha with ⟨h, _⟩ | h
        · have := hs.bound _ _ h; omega
        · omega, fun h => by have := (hs.logs _ h).1; exact absurd this (Nat.lt_irrefl _), fun k u hu e => by
        have := (hcoll k u hu).1; rw [e] at this; exact absurd this (Nat.lt_irrefl _)⟩
    ⟨by show p < _; omega, fun a ha => by
        rcases hown a p ha with ⟨h, h'⟩ | h
        · exact h' (hs.inj _ _ _ h hp)
        · omega, fun h => (hs.logs _ h).2 _ hp, fun k u hu e => (hcoll k u hu).2 _ (by rw [e]; exact hp)⟩
    ⟨by show m.heap.next + 1 < _; omega, fun a ha => by
        rcases hown a (m.heap.next + 1) ha with ⟨h, _⟩ | h
        · have := hs.bound _ _ h; omega
        · omega, by show m.heap.next + 1 ≠ m.heap.next; omega, by show m.heap.next + 1 ≠ p; omega⟩
  have hres : (Mem.putVal (Mem.setTick { m with heap := h2 } t) tgt pv).resetPending i =
      .ok (Mem.putVal n tgt pv) := by
    unfold Mem.resetPending
    have : KMap.get (Mem.putVal (Mem.setTick { m with heap := h2 } t) tgt pv).st.vals i = some v := by
      refine (KMap.get_insert m.st.vals tgt i pv).trans ?_
      rw [if_neg (Ne.symm hne)]; exact hv
    rw [this]
    simp only [Mem.putVal, Mem.modVal, hn, Mem.setTick]
    rw [KMap.modify_insert _ hne]
  have htr : (State.putVal { m.read with tick := t } tgt
        { status := .notSubscribed, acc := 0, pend := m.heap.cell p, coll := 0, waddr := w, index := tgt,
          key := key, subType := .manual }).isTracked i = true := by
    simp only [State.isTracked, State.putVal]
    rw [VMap.get_insert, if_neg (Ne.symm hne)]
    have : VMap.get m.read.vals i = _ := get_readVals _ _ _
    rw [this, hv]; rfl
  rw [hres]
  unfold State.resetPending
  rw [htr]
  simp only [if_true]
  refine SimM.ok ⟨q1.trans ?_, q2, ?_⟩
  · rw [r3.read]
    have e1 : n.heap.cell m.heap.next = 0 := by
      show ((((m.heap.new 0).new 0).new 0)).cell m.heap.next = 0
      rw [Heap.new_cell_ne _ _ (by simp; omega), Heap.new_cell_ne _ _ (by simp), Heap.new_cell]
    have e2 : n.heap.cell (m.heap.new 0).next = 0 := by
      show ((((m.heap.new 0).new 0).new 0)).cell (m.heap.new 0).next = 0
      rw [Heap.new_cell_ne _ _ (by simp), Heap.new_cell]
    have e3 : n.heap.cell p = m.heap.cell p :=
      (he.trans (Heap.ext_new h2 0)).2 p hpb
    have e4 : pv.read n.heap =
        { status := .notSubscribed, acc := 0, pend := m.heap.cell p, coll := 0, waddr := w, index := tgt,
          key := key, subType := .manual } := by
      simp only [PVal.read, hpv, e1, e2, e3]
    have e5 : (Mem.setTick { m with heap := h2 } t).read = { m.read with tick := t } := r2.read.trans (by
      rw [r1.read])
    rw [e4, e5]
    simp only [State.putVal, State.modVal]
    rw [VMap.modify_insert _ hne]
  · refine ⟨by show m.heap.next ≤ m.heap.next + 3; omega, fun q hq => ?_⟩
    have h1 := r3.frame.2 q hq
    have h3 := q3 q h1.1 (by have := hq.1; show q ≠ m.heap.next; omega) (fun e => hq.2 _ (by rw [e]; exact hp))
    exact ⟨h3.1, h3.2.trans h1.2⟩

/-- What a step with a total and a flag leaves. -/
def HRelT (m : Mem) (x : Mem × Int × Bool) (y : State × Int × Bool) : Prop := HRel m x.1 y.1 ∧ x.2 = y.2

theorem sim_cleanOne {E : Env} {slot : Nat} {cs : List (Nat × Nat)} {m : Mem} (hs : Sep m) (tot : Int)
    (i : Nat) :
    SimM (HRelT m) (cleanOneP E slot cs m tot i) (cleanOne E slot cs m.read tot i) := by
  unfold cleanOneP cleanOne
  have h1 := rel_advance hs i .unsubscribe
  set m1 := m.advance i .unsubscribe with hm1
  rw [← h1.read]
  refine (sim_pendPtr m1 i).bind fun p x hp => ?_
  obtain ⟨rfl, hp⟩ := hp
  have fin : ∀ {x : M Mem} {y : M State} (tot : Int), SimM (HRel m1) x y →
      SimM (HRelT m) (x >>= fun m2 => .ok (m2, tot, true)) (y >>= fun s2 => .ok (s2, tot, true)) := by
    intro x y tot h
    exact h.bind fun _ _ hr => SimM.ok ⟨hr.after h1.frame, rfl⟩
  cases consolTarget cs i with
  | none => exact fin _ (sim_resetPending h1.sep i)
  | some tgt =>
    dsimp only
    refine SimM.ite (fun _ => ?_) fun _ => SimM.ite (fun ht => ?_) fun _ => SimM.ite (fun _ => ?_)
      fun _ => SimM.err _
    · refine (sim_incPending h1.sep tgt p).bind fun m2 s2 hr => ?_
      obtain ⟨rfl, hs2, hf2⟩ := hr
      exact (sim_resetPending hs2 i).bind fun _ _ hr => SimM.ok ⟨hr.after (h1.frame.trans hf2), rfl⟩
    · have hstop : HRelT m (m1.setTick (m1.st.tick + 1), tot, false)
          ({ m1.read with tick := m1.read.tick + 1 }, tot, false) :=
        ⟨(rel_tick h1.sep _).after h1.frame, rfl⟩
      rw [show m1.read.tick = m1.st.tick from rfl] at hstop ⊢
      cases getSet E m1.st.tick slot [tgt] with
      | none => exact SimM.ok hstop
      | some r =>
        dsimp only
        cases r.find? (fun v => v.index == tgt) with
        | none => exact SimM.ok hstop
        | some v =>
          dsimp only
          cases compatAddressByte v.creds with
          | none => exact SimM.err _
          | some w =>
            have hn : KMap.get m1.st.vals tgt = none := by
              rw [isTracked_read] at ht
              simpa using ht
            exact fin _ (sim_newTarget h1.sep hp hn (m1.st.tick + 1) w (hexutilEncode v.pubkey))
    · exact fin _ (sim_resetPending h1.sep i)

theorem sim_cleanLoop {E : Env} {slot : Nat} {cs : List (Nat × Nat)} {l : List BVal} {m : Mem} (hs : Sep m)
    (tot : Int) :
    SimM (HRelT m) (cleanLoopP E slot cs l m tot) (cleanLoop E slot cs l m.read tot) := by
  induction l generalizing m tot with
  | nil => exact SimM.ok ⟨HRel.refl hs, rfl⟩
  | cons v l ih =>
    simp only [cleanLoopP, cleanLoop]
    refine SimM.ite (fun _ => ih hs tot) fun _ => ?_
    refine (sim_pendPtr m v.index).bind fun p x hp => ?_
    obtain ⟨rfl, _⟩ := hp
    refine SimM.ite (fun _ => ih hs tot) fun _ => ?_
    refine (sim_cleanOne hs tot v.index).bind ?_
    rintro ⟨m1, tot1, go⟩ ⟨s1, tot1', go'⟩ ⟨⟨h1, hs1, hf1⟩, h2⟩
    cases h2
    cases h1
    dsimp only at hs1 hf1 ⊢
    refine SimM.ite (fun _ => ?_) fun _ => SimM.ok ⟨⟨rfl, hs1, hf1⟩, rfl⟩
    exact (ih hs1 _).mono fun _ _ h => ⟨h.1.after hf1, h.2⟩

/-- What a step with a flag leaves. -/
def HRelB (m : Mem) (x : Mem × Bool) (y : State × Bool) : Prop := HRel m x.1 y.1 ∧ x.2 = y.2

theorem sim_cleanup {E : Env} {net : Str} {m : Mem} (hs : Sep m) (slot : Nat) :
    SimM (HRelB m) (cleanupP E net m slot) (cleanup E net m.read slot) := by
  unfold cleanupP cleanup
  refine SimM.ite (fun _ => SimM.ok ⟨HRel.refl hs, rfl⟩) fun _ => ?_
  refine SimM.ite (fun _ => SimM.ok ⟨HRel.refl hs, rfl⟩) fun _ => ?_
  have hstop : HRelB m (m.setTick (m.st.tick + 1), false) ({ m.read with tick := m.read.tick + 1 }, false) :=
    ⟨rel_tick hs _, rfl⟩
  rw [show m.read.tick = m.st.tick from rfl] at hstop ⊢
  dsimp only
  cases (if slot ≥ slotOrZero (slotElectra net) then E.consol m.st.tick slot else some []) with
  | none => exact SimM.ok hstop
  | some cs =>
    dsimp only
    cases getSet E m.st.tick slot (E.shuffle m.st.tick (VMap.keys m.read.vals)) with
    | none => exact SimM.ok hstop
    | some vs =>
      have h0 := rel_tick hs (m.st.tick + 2)
      have hl := sim_cleanLoop (E := E) (slot := slot) (cs := cs) (l := E.shuffle (m.st.tick + 1) vs) h0.sep 0
      rw [h0.read] at hl
      refine hl.bind ?_
      rintro ⟨m1, tot1, go⟩ ⟨s1, tot1', go'⟩ ⟨⟨h1, hs1, hf1⟩, h2⟩
      cases h2
      cases h1
      dsimp only at hs1 hf1 ⊢
      have hf := h0.frame.trans hf1
      refine SimM.ite (fun _ => SimM.ok ⟨⟨rfl, hs1, hf⟩, rfl⟩) fun _ => ?_
      refine SimM.ite (fun _ => ?_) fun _ => SimM.ok ⟨⟨rfl, hs1, hf⟩, rfl⟩
      have h3 := rel_ext hs1 (Heap.ext_new m1.heap tot1)
      have h4 := sim_increaseAll (E := E) (net := net) h3.sep m1.heap.next
      rw [h3.read, show Heap.cell (Mem.heap { m1 with heap := m1.heap.new tot1 }) m1.heap.next = tot1 from
        Heap.new_cell _ _] at h4
      exact h4.bind fun _ _ hr => SimM.ok ⟨hr.after (hf.trans h3.frame), rfl⟩

/-! ### One slot -/

theorem sim_getDonations {m : Mem} {b : FullBlock} {ether : List PEther}
    (he : ether.map (·.read m.heap) = b.events.ether) (pool : Str) :
    SimM (fun ds ds' => ds.map (·.read m.heap) = ds' ∧ ∀ d ∈ ds, d ∈ ether)
      (getDonationsP m.heap b ether pool) (getDonations b pool) := by
  unfold getDonationsP getDonations
  cases b.cons with
  | none => exact SimM.ok ⟨rfl, by simp⟩
  | some c =>
    refine SimM.eq_bind fun mev => ?_
    refine SimM.eq_bind fun toPool => ?_
    refine SimM.ite (fun _ => SimM.ok ⟨he, fun _ h => h⟩) fun _ => ?_
    have e1 : b.events.ether.any (fun e => e.amount == mev.amount) =
        ether.any (fun e => m.heap.cell e.amount == mev.amount) := by
      rw [← he, List.any_map]; rfl
    rw [e1]
    refine SimM.ite (fun _ => SimM.ok ⟨?_, fun d hd => (List.mem_filter.mp hd).1⟩) fun _ => SimM.err _
    rw [← he, List.filter_map]
    rfl

theorem sim_applyBlock {E : Env} {net : Str} {m : Mem} (hs : Sep m) {b : FullBlock} {subs : List PSub}
    {ether : List PEther} {sb : PSum} {dons : List PEther}
    (h1 : subs.map (·.read m.heap) = b.events.subs) (h1' : ∀ e ∈ subs, m.Unowned e.collateral)
    (h2 : ether.map (·.read m.heap) = b.events.ether) (h2' : ∀ e ∈ ether, m.Unowned e.amount)
    (h3 : ∀ p ∈ sb.reward, m.Unowned p) (h4 : ∀ d ∈ dons, d ∈ ether) :
    SimM (HRel m) (applyBlockP E net m b subs ether sb dons)
      (applyBlock E net m.read b (sb.read m.heap) (dons.map (·.read m.heap))) := by
  unfold applyBlockP applyBlock
  have r0 := rel_st hs (st := { m.st with
    unsubs := m.st.unsubs ++ b.events.unsubs
    logs := { m.st.logs with subs := m.st.logs.subs ++ subs, ether := m.st.logs.ether ++ ether } }) rfl rfl (by
      intro p hp
      have hl := hs.logs p
      rw [mem_ptrs] at hp hl
      simp only [List.mem_append] at hp
      rcases hp with hp | ⟨q, hq | hq, rfl⟩ | ⟨q, hq | hq, rfl⟩ | hp
      · exact hl (Or.inl hp)
      · exact hl (Or.inr (Or.inl ⟨q, hq, rfl⟩))
      · exact h1' q hq
      · exact hl (Or.inr (Or.inr (Or.inl ⟨q, hq, rfl⟩)))
      · exact h2' q hq
      · exact hl (Or.inr (Or.inr (Or.inr hp))))
  set m0 : Mem := ⟨m.heap, { m.st with
    unsubs := m.st.unsubs ++ b.events.unsubs
    logs := { m.st.logs with subs := m.st.logs.subs ++ subs, ether := m.st.logs.ether ++ ether } }⟩ with hm0
  have e0 : m0.read = { m.read with
      subs := m.read.subs ++ b.events.subs
      unsubs := m.read.unsubs ++ b.events.unsubs
      ether := m.read.ether ++ b.events.ether } := by
    simp only [Mem.read, hm0, List.map_append, h1, h2]
  dsimp only
  rw [← e0, ← h1]
  refine SimM.mono (R := HRel m0) ?_ fun _ _ hr => hr.after r0.frame
  refine (sim_handleSubs r0.sep (fun e he => (r0.frame.2 _ (h1' e he)).1) b.valsSubs).step fun m1 r1 => ?_
  have f1 := r0.frame.trans r1.frame
  have b1 := f1.sum h3
  have c1 : HRel m1 (if sb.type = .missed ∧ m1.read.isSubscribed sb.index then handleMissedP m1 sb else m1)
      (if (sb.read m.heap).type = .missed ∧ m1.read.isSubscribed (sb.read m.heap).index then
        handleMissed m1.read (sb.read m.heap) else m1.read) := by
    show HRel m1 _ (if sb.type = .missed ∧ m1.read.isSubscribed sb.index then
      handleMissed m1.read (sb.read m.heap) else m1.read)
    split
    · rw [← b1.1]; exact rel_handleMissed r1.sep b1.2
    · exact HRel.refl r1.sep
  set m2 := (if sb.type = .missed ∧ m1.read.isSubscribed sb.index then handleMissedP m1 sb else m1) with hm2
  rw [← c1.read]
  refine SimM.mono (R := HRel m2) ?_ fun _ _ hr => hr.after c1.frame
  have f2 := f1.trans c1.frame
  have b2 := f2.sum h3
  refine SimM.step (m := m2) ?_ fun m3 r3 => ?_
  · refine SimM.ite (fun _ => ?_) fun _ => SimM.ok (HRel.refl c1.sep)
    have := sim_handleBls c1.sep b2.2
    rw [b2.1] at this
    exact this
  have f3 := f2.trans r3.frame
  have b3 := f3.sum h3
  refine SimM.step ?_ fun m4 r4 => ?_
  · refine SimM.ite (fun _ => ?_) fun _ => SimM.ok (HRel.refl r3.sep)
    have := sim_handleCorrect (E := E) (net := net) r3.sep b3.2
    rw [b3.1] at this
    exact this
  have f4 := f3.trans r4.frame
  have b4 := f4.sum h3
  refine SimM.step ?_ fun m5 r5 => ?_
  · refine SimM.ite (fun _ => ?_) fun _ => SimM.ok (HRel.refl r4.sep)
    have := sim_handleWrongFee (E := E) (net := net) r4.sep b4.2
    rw [b4.1] at this
    exact this
  have f5 := f4.trans r5.frame
  refine (sim_handleUnsubs r5.sep _ _).step fun m6 r6 => ?_
  have f6 := f5.trans r6.frame
  have e6 : dons.map (·.read m.heap) = dons.map (·.read m6.heap) := by
    apply List.map_congr_left
    intro d hd
    simp only [PEther.read]
    rw [(f6.2 _ (h2' d (h4 d hd))).2]
  rw [e6]
  refine (sim_handleDonations r6.sep fun d hd => (f6.2 _ (h2' d (h4 d hd))).1).step fun m7 r7 => ?_
  refine (sim_handleBans r7.sep _).step fun m8 r8 => ?_
  exact sim_handleUnbans r8.sep _

theorem validateConfig_st {o o1 : Oracle} {b : FullBlock} {c : Bool} (h : validateConfig o b = .ok (o1, c)) :
    o1.st = { o.st with fee := o1.st.fee } := by
  unfold validateConfig at h
  simp only at h
  split at h
  · cases h; rfl
  · split at h
    · cases h; rfl
    · rename_i o2 hstep
      have h2 : o2.st = { o.st with fee := o2.st.fee } := by
        split at hstep
        · cases hstep; rfl
        · split at hstep
          · cases hstep
          · split at hstep
            · cases hstep
            · cases hstep; rfl
      rw [bind_ok] at h
      obtain ⟨r, _, h⟩ := h
      have : o1 = o2 := by
        split at h
        · cases h; rfl
        · split at h
          · cases h; rfl
          · split at h <;> · cases h; rfl
      rw [this]; exact h2

/-- What a slot leaves: the configuration, the state, and the result. -/
def HRelS (m : Mem) (x : Config × Mem × Option Nat) (y : Oracle × Option Nat) : Prop :=
  x.1 = y.1.cfg ∧ HRel m x.2.1 y.1.st ∧ x.2.2 = y.2

theorem sim_advanceState {E : Env} {cfg : Config} {m : Mem} (hs : Sep m) (b : FullBlock) :
    SimM (HRelS m) (advanceStateP E cfg m b) (advanceState E ⟨cfg, m.read⟩ b) := by
  unfold advanceStateP advanceState
  have a1 := allocs_sub.all.ext b.events.subs m.heap
  have a2 := allocs_sub.all.read b.events.subs m.heap
  have a3 := allocs_sub.all.fresh b.events.subs m.heap
  generalize allocAll newSub b.events.subs m.heap = A at a1 a2 a3 ⊢
  obtain ⟨h1, subs⟩ := A
  have d1 := allocs_ether.all.ext b.events.ether h1
  have d2 := allocs_ether.all.read b.events.ether h1
  have d3 := allocs_ether.all.fresh b.events.ether h1
  dsimp only at d1 d2 d3 ⊢
  generalize allocAll newEther b.events.ether h1 = D at d1 d2 d3 ⊢
  obtain ⟨h2, ether⟩ := D
  dsimp only at a1 a2 a3 d1 d2 d3 ⊢
  have r0 := rel_ext hs (a1.trans d1)
  have hu : ∀ p, m.heap.next ≤ p → p < h2.next → Mem.Unowned { m with heap := h2 } p := fun p hp hp' =>
    ⟨hp', fun a ha => by
      have : m.cellOf a = some p := by cases a <;> exact ha
      have := hs.bound a p this
      omega⟩
  have u1 : ∀ e ∈ subs, Mem.Unowned { m with heap := h2 } e.collateral := fun e he => by
    have := a3 _ (List.mem_flatMap.mpr ⟨e, he, List.mem_singleton_self _⟩)
    exact hu _ this.1 (Nat.lt_of_lt_of_le this.2 d1.1)
  have u2 : ∀ e ∈ ether, Mem.Unowned { m with heap := h2 } e.amount := fun e he => by
    have := d3 _ (List.mem_flatMap.mpr ⟨e, he, List.mem_singleton_self _⟩)
    exact hu _ (a1.1.trans this.1) this.2
  have v1 : subs.map (·.read h2) = b.events.subs := by
    refine Eq.trans (allocs_sub.all.congr _ _ _ fun p hp => ?_) a2
    exact d1.2 p (a3 p hp).2
  set m0 : Mem := { m with heap := h2 } with hm0
  have hr0 := r0.read
  rw [← hr0]
  refine SimM.mono (R := HRelS m0) ?_ fun _ _ hr => ⟨hr.1, hr.2.1.after r0.frame, hr.2.2⟩
  have hs0 := r0.sep
  refine SimM.ite (fun _ => SimM.ok ⟨rfl, HRel.refl hs0, rfl⟩) fun _ => ?_
  refine SimM.ite (fun _ => SimM.ok ⟨rfl, HRel.refl hs0, rfl⟩) fun _ => ?_
  refine (SimM.refl' (validateConfig ⟨cfg, m0.read⟩ b)).bind ?_
  rintro ⟨o1, c⟩ y ⟨hv, rfl⟩
  dsimp only
  have hst := validateConfig_st hv
  have r1 := rel_st hs0 (st := { m0.st with fee := o1.st.fee }) rfl rfl hs0.logs
  have e1 : Mem.read { m0 with st := { m0.st with fee := o1.st.fee } } = o1.st := by rw [hst]; rfl
  have r1 : HRel m0 { m0 with st := { m0.st with fee := o1.st.fee } } o1.st := ⟨e1, r1.sep, r1.frame⟩
  set m1 : Mem := { m0 with st := { m0.st with fee := o1.st.fee } } with hm1
  refine SimM.ite (fun _ => SimM.ok ⟨rfl, r1, rfl⟩) fun _ => ?_
  rw [e1]
  refine SimM.eq_bind fun sb0 => ?_
  have g1 := allocs_sum.ext sb0 m1.heap
  have g2 := allocs_sum.read sb0 m1.heap
  have g3 := allocs_sum.fresh sb0 m1.heap
  generalize newSum sb0 m1.heap = G at g1 g2 g3 ⊢
  obtain ⟨h3, sb⟩ := G
  dsimp only at g1 g2 g3 ⊢
  have r2 := rel_ext r1.sep g1
  have f2 := r1.frame.trans r2.frame
  set m2 : Mem := { m1 with heap := h3 } with hm2
  have e2 : m2.read = o1.st := r2.read.trans e1
  have hslot : sb.slot = sb0.slot := by rw [← g2]; rfl
  have hnext : m2.st.nextSlot = o1.st.nextSlot := by rw [← e2]; rfl
  refine SimM.ite_iff (c := m2.st.nextSlot ≠ sb.slot) (c' := o1.st.nextSlot ≠ sb0.slot)
    (by rw [hslot, hnext]) (fun _ => SimM.ok ⟨rfl, ⟨e2, r2.sep, f2⟩, rfl⟩) fun _ => ?_
  have w1 : subs.map (·.read m2.heap) = b.events.subs := by
    refine Eq.trans (List.map_congr_left fun e he => ?_) v1
    simp only [PSub.read]
    rw [(f2.2 _ (u1 e he)).2]
  have w2 : ether.map (·.read m2.heap) = b.events.ether := by
    refine Eq.trans (List.map_congr_left fun e he => ?_) d2
    simp only [PEther.read]
    rw [(f2.2 _ (u2 e he)).2]
  have w3 : ∀ p ∈ sb.reward, m2.Unowned p := by
    intro p hp
    have := g3 p (by simpa using hp)
    refine ⟨this.2, fun a ha => ?_⟩
    have : m1.cellOf a = some p := by cases a <;> exact ha
    have := r1.sep.bound a p this
    omega
  refine (sim_getDonations (m := m2) w2 o1.cfg.poolAddr).bind ?_
  rintro dons dons' ⟨rfl, hd⟩
  have hap := sim_applyBlock (E := E) (net := o1.cfg.network) r2.sep w1 (fun e he => (f2.2 _ (u1 e he)).1) w2
    (fun e he => (f2.2 _ (u2 e he)).1) w3 hd
  rw [show sb.read m2.heap = sb0 from g2, e2] at hap
  refine hap.bind ?_
  rintro m3 s3 ⟨rfl, hs3, hf3⟩
  have f3 := f2.trans hf3
  have b3 := hf3.sum w3
  refine SimM.bind (R := HRelB m3) ?_ ?_
  · refine SimM.ite (fun _ => sim_cleanup hs3 _) fun _ => SimM.ok ⟨HRel.refl hs3, rfl⟩
  rintro ⟨m4, clean⟩ ⟨s4, clean'⟩ ⟨⟨h4, hs4, hf4⟩, h5⟩
  dsimp only at h4 h5 hs4 hf4 ⊢
  subst h4
  subst h5
  have f4 := f3.trans hf4
  refine SimM.ite (fun _ => SimM.ok ⟨rfl, ⟨rfl, hs4, f4⟩, rfl⟩) fun _ => SimM.ok ⟨rfl, ?_, rfl⟩
  have r5 := rel_st hs4 (st := (finishSlotP m4 sb).st) rfl rfl hs4.logs
  refine ⟨?_, r5.sep, f4.trans r5.frame⟩
  show (finishSlotP m4 sb).read = finishSlot m4.read sb0
  have ht : sb.type = sb0.type := by rw [← g2]; rfl
  have hb : sb.block = sb0.block := by rw [← g2]; rfl
  simp only [finishSlotP, finishSlot, ht, hb]
  rfl

end Verif
