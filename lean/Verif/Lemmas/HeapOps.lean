import Verif.Lemmas.Heap
import Aesop
/-
The oracle with pointers does what the oracle with numbers does: balances, rewards and handlers.
-/
namespace Verif

theorem SimM.ite {β γ : Type} {R : β → γ → Prop} {c : Prop} [Decidable c] {x x' : M β} {y y' : M γ}
    (h : c → SimM R x y) (h' : ¬ c → SimM R x' y') :
    SimM R (if c then x else x') (if c then y else y') := by
  split
  · exact h ‹_›
  · exact h' ‹_›

theorem SimM.bind_left {β γ : Type} {R : β → γ → Prop} {x : M γ} {f : γ → M β}
    (h : ∀ a, SimM R (f a) (.ok a)) : SimM R (x >>= f) x := by
  cases x with
  | error e => exact rfl
  | ok a => exact h a

theorem SimM.ok {β γ : Type} {R : β → γ → Prop} {b : β} {c : γ} (h : R b c) :
    SimM R (.ok b) (.ok c) := h

theorem SimM.err {β γ : Type} {R : β → γ → Prop} (e : Crash) :
    SimM R (.error e : M β) (.error e : M γ) := rfl

/-- A step after a step. -/
theorem SimM.step {m : Mem} {x : M Mem} {y : M State} {f : Mem → M Mem} {g : State → M State}
    (h : SimM (HRel m) x y) (hf : ∀ m1, HRel m m1 m1.read → SimM (HRel m1) (f m1) (g m1.read)) :
    SimM (HRel m) (x >>= f) (y >>= g) :=
  h.bind fun b c hr => by
    obtain ⟨h1, h2, h3⟩ := hr
    subst h1
    exact (hf b ⟨rfl, h2, h3⟩).mono fun _ _ hr => hr.after h3

theorem shuffle_map {α β : Type} (E : Env) (t : Nat) (f : α → β) (l : List α) :
    E.shuffle t (l.map f) = (E.shuffle t l).map f := by
  simp only [Env.shuffle, List.length_map, List.map_filterMap, List.getElem?_map]

theorem mem_of_shuffle {α : Type} {E : Env} {t : Nat} {l : List α} {x : α} (h : x ∈ E.shuffle t l) :
    x ∈ l := by
  obtain ⟨i, _, hi⟩ := List.mem_filterMap.mp h
  exact List.mem_of_getElem? hi

/-! ### Making cells -/

/-- `f` puts the numbers of a thing into new cells. -/
structure Allocs {α β : Type} (f : α → Heap → Heap × β) (rd : Heap → β → α) (ptrs : β → List Ptr) :
    Prop where
  ext : ∀ a (h : Heap), h.Ext (f a h).1
  read : ∀ a h, rd (f a h).1 (f a h).2 = a
  fresh : ∀ a h, ∀ p ∈ ptrs (f a h).2, h.next ≤ p ∧ p < (f a h).1.next
  congr : ∀ b (h h' : Heap), (∀ p ∈ ptrs b, h'.cell p = h.cell p) → rd h' b = rd h b

theorem Allocs.all {α β : Type} {f : α → Heap → Heap × β} {rd : Heap → β → α} {ptrs : β → List Ptr}
    (hf : Allocs f rd ptrs) :
    Allocs (allocAll f) (fun h l => l.map (rd h)) (fun l => l.flatMap ptrs) where
  ext := by
    intro l
    induction l with
    | nil => intro h; exact Heap.Ext.refl h
    | cons a l ih => intro h; exact (hf.ext a h).trans (ih _)
  read := by
    intro l
    induction l with
    | nil => intro h; rfl
    | cons a l ih =>
      intro h
      simp only [allocAll, List.map_cons]
      rw [ih]
      congr 1
      rw [← hf.read a h]
      have hx : Heap.Ext (f a h).1 (allocAll f l (f a h).1).1 := by
        generalize (f a h).1 = h1
        clear ih
        induction l generalizing h1 with
        | nil => exact Heap.Ext.refl h1
        | cons b l ih => exact (hf.ext b h1).trans (ih _)
      rw [hf.read a h]
      exact (hf.congr _ _ _ fun p hp => hx.2 p (hf.fresh a h p hp).2).trans (hf.read a h)
  fresh := by
    intro l
    induction l with
    | nil => intro h p hp; simp [allocAll] at hp
    | cons a l ih =>
      intro h p hp
      have hx : ∀ l h1, Heap.Ext h1 (allocAll f l h1).1 := by
        intro l
        induction l with
        | nil => exact fun h1 => Heap.Ext.refl h1
        | cons b l ih => exact fun h1 => (hf.ext b h1).trans (ih _)
      simp only [allocAll, List.flatMap_cons, List.mem_append] at hp ⊢
      rcases hp with hp | hp
      · have := hf.fresh a h p hp
        exact ⟨this.1, Nat.lt_of_lt_of_le this.2 (hx l _).1⟩
      · have := ih _ p hp
        exact ⟨(hf.ext a h).1.trans this.1, this.2⟩
  congr := by
    intro l h h' hc
    apply List.map_congr_left
    intro b hb
    exact hf.congr _ _ _ fun p hp => hc p (List.mem_flatMap.mpr ⟨b, hb, hp⟩)

theorem allocs_share : Allocs newShare (fun h p => (p.1, h.cell p.2)) (fun p => [p.2]) where
  ext a h := Heap.ext_new h _
  read a h := by simp [newShare]
  fresh a h := by simp [newShare]
  congr b h h' hc := by simp [hc]

theorem allocs_sub : Allocs newSub (fun h p => p.read h) (fun p => [p.collateral]) where
  ext a h := Heap.ext_new h _
  read a h := by simp [newSub, PSub.read]
  fresh a h := by simp [newSub]
  congr b h h' hc := by simp [PSub.read, hc]

theorem allocs_ether : Allocs newEther (fun h p => p.read h) (fun p => [p.amount]) where
  ext a h := Heap.ext_new h _
  read a h := by simp [newEther, PEther.read]
  fresh a h := by simp [newEther]
  congr b h h' hc := by simp [PEther.read, hc]

theorem allocs_sum : Allocs newSum (fun h p => p.read h) (fun p => p.reward.toList) where
  ext a h := by
    unfold newSum
    cases a.reward
    · exact Heap.Ext.refl h
    · exact Heap.ext_new h _
  read a h := by
    obtain ⟨_, _, _, _, _, r, _, _⟩ := a
    cases r <;> simp [newSum, PSum.read]
  fresh a h := by
    obtain ⟨_, _, _, _, _, r, _, _⟩ := a
    cases r <;> simp [newSum]
  congr b h h' hc := PSum.read_congr hc

theorem allocs_val : Allocs newVal (fun h p => (p.1, p.2.read h)) (fun p => p.2.ptrs) where
  ext a h := (Heap.ext_new h _).trans ((Heap.ext_new _ _).trans (Heap.ext_new _ _))
  read a h := by
    obtain ⟨k, v⟩ := a
    simp [newVal, PVal.read, Heap.new, Function.update_apply]
    rw [if_neg (by omega)]
  fresh a h := by simp [newVal, PVal.ptrs]; omega
  congr b h h' hc := by rw [PVal.read_congr hc]

theorem allocs_leaf : Allocs newLeaf (fun h p => (p.1, p.2.read h)) (fun p => [p.2.bal]) where
  ext a h := Heap.ext_new h _
  read a h := by simp [newLeaf, PLeaf.read]
  fresh a h := by simp [newLeaf]
  congr b h h' hc := by simp [PLeaf.read, hc]

theorem allocs_frozen : Allocs newFrozen (fun h p => (p.1, p.2.read h)) (fun p => p.2.ptrs) where
  ext a h := (allocs_val.all.ext _ _).trans (allocs_leaf.all.ext _ _)
  read a h := by
    obtain ⟨k, f⟩ := a
    simp only [newFrozen, PFrozen.read]
    have h1 : (allocAll newLeaf f.leafs (allocAll newVal f.vals h).1).2.map (fun p => (p.1, p.2.read
        (allocAll newLeaf f.leafs (allocAll newVal f.vals h).1).1)) = f.leafs := allocs_leaf.all.read _ _
    have h2 : readVals (allocAll newLeaf f.leafs (allocAll newVal f.vals h).1).1
        (allocAll newVal f.vals h).2 = f.vals :=
      (allocs_val.all.congr _ _ _ fun p hp =>
        (allocs_leaf.all.ext _ _).2 p (allocs_val.all.fresh _ _ p hp).2).trans (allocs_val.all.read f.vals h)
    rw [h1, h2]
  fresh a h p hp := by
    simp only [newFrozen, PFrozen.ptrs, List.mem_append] at hp ⊢
    rcases hp with hp | hp
    · have := allocs_val.all.fresh _ _ p hp
      exact ⟨this.1, Nat.lt_of_lt_of_le this.2 (allocs_leaf.all.ext _ _).1⟩
    · have := allocs_leaf.all.fresh _ _ p (by
        obtain ⟨q, hq, rfl⟩ := List.mem_map.mp hp
        exact List.mem_flatMap.mpr ⟨q, hq, by simp⟩)
      exact ⟨(allocs_val.all.ext _ _).1.trans this.1, this.2⟩
  congr b h h' hc := by rw [PFrozen.read_congr hc]

/-! ### Balances -/

theorem rel_toPool {m : Mem} (hs : Sep m) (x : Ptr) :
    HRel m (m.toPool x) (m.read.toPool (m.heap.cell x)) :=
  rel_write hs (a := .pool) rfl _

theorem isTracked_read (m : Mem) (i : Nat) : m.read.isTracked i = (KMap.get m.st.vals i).isSome := by
  simp only [State.isTracked, Mem.read, get_readVals, Option.isSome_map]

/-- Setting a balance of a tracked validator is an update of its entry. -/
theorem map_eq_modify {h : Heap} {vals : List (Nat × PVal)} (hk : (vals.map (·.1)).Pairwise (· < ·)) {i : Nat}
    {v : PVal} (hv : KMap.get vals i = some v) (f g : Validator → Validator)
    (hfg : f (v.read h) = g (v.read h)) :
    ((readVals h vals).map fun p => if p.1 = i then (p.1, f p.2) else p) =
      VMap.modify (readVals h vals) i g := by
  simp only [readVals, VMap.modify, List.map_map]
  apply List.map_congr_left
  rintro ⟨k, w⟩ hw
  simp only [Function.comp]
  split
  · rename_i hki
    subst hki
    have := KMap.get_of_mem hk hw
    rw [hv] at this
    cases this
    rw [hfg]
  · rfl

theorem sim_incPending {m : Mem} (hs : Sep m) (i : Nat) (x : Ptr) :
    SimM (HRel m) (m.incPending i x) (m.read.incPending i (m.heap.cell x)) := by
  unfold Mem.incPending State.incPending
  rw [isTracked_read]
  cases hv : KMap.get m.st.vals i with
  | none => exact SimM.err _
  | some v =>
    simp only [Option.isSome_some, if_true]
    have := rel_write hs (cellOf_pend hv) (m.heap.cell v.pend + m.heap.cell x)
    refine SimM.ok ⟨this.read.trans ?_, this.sep, this.frame⟩
    simp only [State.withBalance, State.modVal, Mem.read]
    rw [map_eq_modify hs.keys hv (fun v' => { v' with pend := m.heap.cell v.pend + m.heap.cell x })
      (fun v' => { v' with pend := v'.pend + m.heap.cell x }) rfl]

theorem sim_incAccumulated {m : Mem} (hs : Sep m) (i : Nat) (x : Ptr) :
    SimM (HRel m) (m.incAccumulated i x) (m.read.incAccumulated i (m.heap.cell x)) := by
  unfold Mem.incAccumulated State.incAccumulated
  rw [isTracked_read]
  cases hv : KMap.get m.st.vals i with
  | none => exact SimM.err _
  | some v =>
    simp only [Option.isSome_some, if_true]
    have := rel_write hs (cellOf_acc hv) (m.heap.cell v.acc + m.heap.cell x)
    refine SimM.ok ⟨this.read.trans ?_, this.sep, this.frame⟩
    simp only [State.withBalance, State.modVal, Mem.read]
    rw [map_eq_modify hs.keys hv (fun v' => { v' with acc := m.heap.cell v.acc + m.heap.cell x })
      (fun v' => { v' with acc := v'.acc + m.heap.cell x }) rfl]

theorem sim_resetPending {m : Mem} (hs : Sep m) (i : Nat) :
    SimM (HRel m) (m.resetPending i) (m.read.resetPending i) := by
  unfold Mem.resetPending State.resetPending
  rw [isTracked_read]
  cases hv : KMap.get m.st.vals i with
  | none => exact SimM.err _
  | some v => exact SimM.ok (rel_reset hs i 0)

theorem sim_consolidate {m : Mem} (hs : Sep m) (i : Nat) :
    SimM (HRel m) (m.consolidate i) (m.read.consolidate i) := by
  unfold Mem.consolidate State.consolidate
  rw [isTracked_read]
  cases hv : KMap.get m.st.vals i with
  | none => exact SimM.err _
  | some v =>
    simp only [Option.isSome_some, if_true]
    have h1 := rel_write hs (cellOf_acc hv) (m.heap.cell v.acc + m.heap.cell v.pend)
    have h2 := (rel_reset h1.sep i 0).after h1.frame
    refine SimM.ok ⟨h2.read.trans ?_, h2.sep, h2.frame⟩
    rw [h1.read]
    simp only [State.withBalance, State.modVal, Mem.read]
    rw [map_eq_modify hs.keys hv (fun v' => { v' with acc := m.heap.cell v.acc + m.heap.cell v.pend })
      (fun v' => { v' with acc := v'.acc + v'.pend }) rfl]
    simp only [VMap.modify, List.map_map, State.mk.injEq, and_true, true_and]
    apply List.map_congr_left
    rintro ⟨k, w⟩ _
    simp only [Function.comp]
    by_cases hk : k = i <;> simp [hk]

theorem sim_pendPtr (m : Mem) (i : Nat) :
    SimM (fun p x => m.heap.cell p = x ∧ m.cellOf (.pend i) = some p) (m.pendPtr i) (m.read.pendOf i) := by
  unfold Mem.pendPtr State.pendOf
  simp only [Mem.read, get_readVals]
  cases hv : KMap.get m.st.vals i with
  | none => exact SimM.err _
  | some v => exact SimM.ok ⟨rfl, cellOf_pend hv⟩

theorem rel_advance {m : Mem} (hs : Sep m) (i : Nat) (e : Ev) :
    HRel m (m.advance i e) (m.read.advance i e) :=
  rel_plain hs i (fun v => { v with status := transition v.status e }) _ (fun _ => ⟨rfl, rfl, rfl⟩)
    (fun _ => rfl)

theorem rel_setSubType {m : Mem} (hs : Sep m) (i : Nat) (t : SubType) :
    HRel m (m.setSubType i t) (m.read.setSubType i t) :=
  rel_plain hs i (fun v => { v with subType := t }) _ (fun _ => ⟨rfl, rfl, rfl⟩) (fun _ => rfl)

/-! ### Rewards -/

theorem sim_shares {l : List (Nat × Ptr)} {m : Mem} (hs : Sep m) (hl : ∀ p ∈ l, m.Unowned p.2) :
    SimM (fun m' vals => HRel m m' { m.read with vals := vals }) (sharesP l m)
      (applyShares (l.map fun p => (p.1, m.heap.cell p.2)) m.read.vals) := by
  induction l generalizing m with
  | nil => exact SimM.ok (HRel.refl hs)
  | cons p l ih =>
    obtain ⟨i, x⟩ := p
    simp only [sharesP, List.map_cons, applyShares]
    have h := sim_incPending hs i x
    unfold State.incPending at h
    rw [isTracked_read] at h
    have hg : VMap.get m.read.vals i = (KMap.get m.st.vals i).map (·.read m.heap) := get_readVals _ _ _
    rw [hg]
    cases hv : KMap.get m.st.vals i with
    | none => simp only [Mem.incPending, hv]; exact SimM.err _
    | some v =>
      simp only [hv, Option.isSome_some, if_true, Option.map_some] at h ⊢
      cases hx : m.incPending i x with
      | error e => rw [hx] at h; exact absurd h (by simp [SimM])
      | ok m1 =>
        rw [hx] at h
        have h : HRel m m1 _ := h
        have e1 : (l.map fun p => (p.1, m.heap.cell p.2)) = l.map fun p => (p.1, m1.heap.cell p.2) := by
          apply List.map_congr_left
          intro q hq
          rw [(h.frame.2 _ (hl q (List.mem_cons_of_mem _ hq))).2]
        have e2 : VMap.modify m.read.vals i (fun v => { v with pend := v.pend + m.heap.cell x }) =
            m1.read.vals := by rw [h.read]; rfl
        rw [e1, e2]
        refine (ih h.sep fun q hq => (h.frame.2 _ (hl q (List.mem_cons_of_mem _ hq))).1).mono ?_
        intro m' vals hr
        refine ⟨hr.read.trans ?_, hr.sep, h.frame.trans hr.frame⟩
        rw [h.read]; rfl

theorem sim_increaseAll {E : Env} {net : Str} {m : Mem} (hs : Sep m) (reward : Ptr) :
    SimM (HRel m) (increaseAllP E net m reward) (increaseAll E net m.read (m.heap.cell reward)) := by
  unfold increaseAllP increaseAll
  refine SimM.ite (fun _ => ?_) fun hne => ?_
  · have h := rel_toPool hs reward
    have h2 := (rel_tick h.sep (m.st.tick + 1)).after h.frame
    exact SimM.ok ⟨h2.read.trans (by rw [h.read]; rfl), h2.sep, h2.frame⟩
  refine SimM.ite (fun _ => SimM.err _) fun _ => ?_
  refine SimM.eq_bind fun method => ?_
  refine SimM.bind (R := fun (x : Int × Heap × List (Nat × Ptr)) (y : Int × List (Nat × Int)) =>
    x.1 = y.1 ∧ m.heap.Ext x.2.1 ∧ (x.2.2.map fun p => (p.1, x.2.1.cell p.2)) = y.2 ∧
      ∀ p ∈ x.2.2, m.heap.next ≤ p.2 ∧ p.2 < x.2.1.next) ?_ ?_
  · cases method with
    | electra =>
      refine SimM.bind_left fun r => ?_
      obtain ⟨fees, shares⟩ := r
      refine SimM.ok ⟨rfl, allocs_share.all.ext _ _, allocs_share.all.read _ _, fun p hp => ?_⟩
      exact allocs_share.all.fresh _ _ _ (List.mem_flatMap.mpr ⟨p, hp, by simp⟩)
    | fork1 =>
      refine SimM.eq_bind fun r => ?_
      obtain ⟨fees, per⟩ := r
      refine SimM.ok ⟨rfl, Heap.ext_new _ _, ?_, ?_⟩
      · simp [Function.comp_def]
      · intro p hp
        obtain ⟨_, _, rfl⟩ := List.mem_map.mp hp
        simp
    | preFork1 =>
      refine SimM.eq_bind fun r => ?_
      obtain ⟨fees, per⟩ := r
      refine SimM.ok ⟨rfl, Heap.ext_new _ _, ?_, ?_⟩
      · simp [Function.comp_def]
      · intro p hp
        obtain ⟨_, _, rfl⟩ := List.mem_map.mp hp
        simp
  · rintro ⟨fees, h, ps⟩ ⟨fees', sh⟩ ⟨h1, h2, h3, h4⟩
    simp only at h1 h2 h3 h4 ⊢
    subst h1
    have r1 := rel_ext hs (h2.trans (Heap.ext_new h fees))
    have r2 := rel_toPool r1.sep h.next
    have hcell : Heap.cell (h.new fees) h.next = fees := Heap.new_cell h fees
    have hval : (Mem.toPool { m with heap := h.new fees } h.next).read.vals = m.read.vals := by
      rw [r2.read, r1.read]; rfl
    have hun : ∀ p, m.heap.next ≤ p → p < h.next → Mem.Unowned { m with heap := h.new fees } p := by
      intro p hp hp'
      refine ⟨Nat.lt_succ_of_lt hp', fun a ha => ?_⟩
      have : m.cellOf a = some p := by cases a <;> exact ha
      have := hs.bound a p this
      omega
    have hps : ∀ p ∈ E.shuffle (m.st.tick + 3) ps, m.heap.next ≤ p.2 ∧ p.2 < h.next := fun p hp =>
      h4 p (mem_of_shuffle hp)
    have hsh : E.shuffle (m.st.tick + 3) sh = (E.shuffle (m.st.tick + 3) ps).map fun p =>
        (p.1, Heap.cell (Mem.toPool { m with heap := h.new fees } h.next).heap p.2) := by
      rw [← h3, shuffle_map]
      apply List.map_congr_left
      intro p hp
      have := hps p hp
      rw [(r2.frame.2 _ (hun p.2 this.1 this.2)).2]
      rw [show Heap.cell { m with heap := h.new fees : Mem }.heap p.2 = (h.new fees).cell p.2 from rfl]
      rw [Heap.new_cell_ne h fees (by omega)]
    show SimM (HRel m) _ (applyShares (E.shuffle (m.st.tick + 3) sh) m.read.vals >>= _)
    rw [hsh, ← hval]
    refine (sim_shares r2.sep fun p hp => (r2.frame.2 _ (hun _ (hps p hp).1 (hps p hp).2)).1).bind ?_
    intro m2 vals hr
    have hr2 := (rel_tick hr.sep (m.st.tick + 4)).after ((r1.frame.trans r2.frame).trans hr.frame)
    refine SimM.ok ⟨hr2.read.trans ?_, hr2.sep, hr2.frame⟩
    rw [hr.read, r2.read, r1.read]
    rw [show Heap.cell { m with heap := h.new fees : Mem }.heap h.next = fees from hcell]
    rfl

/-! ### Handlers -/

theorem sim_subOne {m : Mem} (hs : Sep m) {ev : PSub} (hev : m.Unowned ev.collateral) (val : Option BVal) :
    SimM (HRel m) (subOneP m ev val) (subOne m.read (ev.read m.heap) val) := by
  unfold subOneP subOne
  cases val with
  | none => exact SimM.ok (rel_toPool hs _)
  | some v =>
    refine SimM.ite (fun _ => SimM.err _) fun _ => ?_
    refine SimM.ite (fun _ => SimM.ok (rel_toPool hs _)) fun _ => ?_
    dsimp only
    cases compatAddressByte v.creds with
    | none => exact SimM.ok (rel_toPool hs _)
    | some w =>
      refine SimM.eq_bind fun senderOk => ?_
      refine SimM.ite (fun _ => SimM.ok (rel_toPool hs _)) fun _ => ?_
      refine SimM.ite (fun _ => sim_incAccumulated hs _ _) fun _ => ?_
      refine SimM.ite (fun _ => sim_incAccumulated hs _ _) fun _ => ?_
      refine SimM.ite (fun _ => SimM.ok (rel_toPool hs _)) fun _ => ?_
      refine SimM.ite (fun _ => ?_) fun _ => SimM.ok (rel_toPool hs _)
      have key : ∀ (m1 : Mem) (s1 : State), HRel m m1 s1 →
          SimM (HRel m) (do
              let m3 ← (m1.setSubType ev.validatorId .manual).incPending ev.validatorId ev.collateral
              .ok (m3.advance ev.validatorId .manualSubscription)) (do
              let s3 ← (s1.setSubType ev.validatorId .manual).incPending ev.validatorId
                (m.heap.cell ev.collateral)
              .ok (s3.advance ev.validatorId .manualSubscription)) := by
        intro m1 s1 h1
        have h2 := (rel_setSubType h1.sep ev.validatorId .manual).after h1.frame
        rw [h1.read] at h2
        have hc := (h2.frame.2 _ hev).2
        have h3 := sim_incPending h2.sep ev.validatorId ev.collateral
        rw [h2.read, hc] at h3
        refine h3.bind fun m3 s3 hr => ?_
        have h4 := (rel_advance hr.sep ev.validatorId .manualSubscription).after (h2.frame.trans hr.frame)
        rw [hr.read] at h4
        exact SimM.ok h4
      refine key _ _ ?_
      by_cases ht : (!m.read.isTracked ev.validatorId) = true
      · simp only [PSub.read, ht, if_true]
        have h1 := rel_put_new hs (h' := (m.heap.new 0).new 0)
          ((Heap.ext_new m.heap 0).trans (Heap.ext_new _ 0)) (i := ev.validatorId)
          (v := { status := .notSubscribed, acc := m.heap.next, pend := (m.heap.new 0).next,
                  coll := ev.collateral, waddr := w, index := ev.validatorId, key := hexutilEncode v.pubkey,
                  subType := .manual })
          (by simp) (by simp; omega) (by simp) (Or.inl hev)
        refine ⟨h1.read.trans ?_, h1.sep, h1.frame⟩
        have e1 : Heap.cell ((m.heap.new 0).new 0) m.heap.next = 0 := by
          rw [Heap.new_cell_ne _ _ (by simp), Heap.new_cell]
        have e2 : Heap.cell ((m.heap.new 0).new 0) (m.heap.new 0).next = 0 := Heap.new_cell _ _
        have e3 : Heap.cell ((m.heap.new 0).new 0) ev.collateral = m.heap.cell ev.collateral :=
          ((Heap.ext_new m.heap 0).trans (Heap.ext_new _ 0)).2 _ hev.1
        simp only [PVal.read, State.putVal, e1, e2, e3]
      · simp only [PSub.read, ht]
        exact HRel.refl hs

theorem sim_subLoop {l : List (PSub × Option BVal)} {m : Mem} (hs : Sep m)
    (hl : ∀ p ∈ l, m.Unowned p.1.collateral) :
    SimM (HRel m) (subLoopP l m) (subLoop (l.map fun p => (p.1.read m.heap, p.2)) m.read) := by
  induction l generalizing m with
  | nil => exact SimM.ok (HRel.refl hs)
  | cons p l ih =>
    obtain ⟨ev, v⟩ := p
    simp only [subLoopP, List.map_cons, subLoop]
    refine (sim_subOne hs (hl (ev, v) (by simp)) v).step fun m1 h1 => ?_
    have e1 : (l.map fun p => (p.1.read m.heap, p.2)) = l.map fun p => (p.1.read m1.heap, p.2) := by
      apply List.map_congr_left
      intro q hq
      simp only [PSub.read]
      rw [(h1.frame.2 _ (hl q (List.mem_cons_of_mem _ hq))).2]
    rw [e1]
    exact ih h1.sep fun q hq => (h1.frame.2 _ (hl q (List.mem_cons_of_mem _ hq))).1

theorem sim_handleSubs {m : Mem} (hs : Sep m) {evs : List PSub} (hl : ∀ e ∈ evs, m.Unowned e.collateral)
    (vals : List (Option BVal)) :
    SimM (HRel m) (handleSubsP m evs vals) (handleSubs m.read (evs.map (·.read m.heap)) vals) := by
  unfold handleSubsP handleSubs
  have e1 : (evs.map (·.read m.heap)).map (·.block) = evs.map (·.block) := by
    simp [PSub.read, Function.comp_def]
  rw [e1, List.length_map]
  refine SimM.ite (fun _ => SimM.err _) fun _ => SimM.ite (fun _ => SimM.err _) fun _ => ?_
  have e2 : (evs.map (·.read m.heap)).zip vals =
      (evs.zip vals).map fun p => (p.1.read m.heap, p.2) := by
    rw [List.zip_map_left]; rfl
  rw [e2]
  exact sim_subLoop hs fun p hp => hl _ (List.of_mem_zip hp).1

theorem sim_unsubOne {E : Env} {net : Str} {m : Mem} (hs : Sep m) (ev : UnsubEvent) (val : Option BVal) :
    SimM (HRel m) (unsubOneP E net m ev val) (unsubOne E net m.read ev val) := by
  unfold unsubOneP unsubOne
  cases val with
  | none => exact SimM.ok (HRel.refl hs)
  | some v =>
    refine SimM.ite (fun _ => SimM.err _) fun _ => ?_
    dsimp only
    cases compatAddressByte v.creds with
    | none => exact SimM.ok (HRel.refl hs)
    | some w =>
      refine SimM.eq_bind fun senderOk => ?_
      refine SimM.ite (fun _ => SimM.ok (HRel.refl hs)) fun _ => ?_
      refine SimM.ite (fun _ => ?_) fun _ => SimM.ok (HRel.refl hs)
      have h1 := rel_advance hs ev.validatorId .unsubscribe
      have h2 := sim_pendPtr (m.advance ev.validatorId .unsubscribe) ev.validatorId
      rw [h1.read] at h2
      refine h2.bind fun p x hp => ?_
      obtain ⟨rfl, _⟩ := hp
      have h3 := sim_increaseAll (E := E) (net := net) h1.sep p
      rw [h1.read] at h3
      exact (SimM.step (m := m.advance ev.validatorId .unsubscribe) h3 fun m1 hr =>
        sim_resetPending hr.sep ev.validatorId).mono fun _ _ hr => hr.after h1.frame

theorem sim_unsubLoop {E : Env} {net : Str} {l : List (UnsubEvent × Option BVal)} {m : Mem} (hs : Sep m) :
    SimM (HRel m) (unsubLoopP E net l m) (unsubLoop E net l m.read) := by
  induction l generalizing m with
  | nil => exact SimM.ok (HRel.refl hs)
  | cons p l ih => exact (sim_unsubOne hs p.1 p.2).step fun m1 h1 => ih h1.sep

theorem sim_handleUnsubs {E : Env} {net : Str} {m : Mem} (hs : Sep m) (evs : List UnsubEvent)
    (vals : List (Option BVal)) :
    SimM (HRel m) (handleUnsubsP E net m evs vals) (handleUnsubs E net m.read evs vals) := by
  unfold handleUnsubsP handleUnsubs
  exact SimM.ite (fun _ => SimM.err _) fun _ => SimM.ite (fun _ => SimM.err _) fun _ => sim_unsubLoop hs

/-! Adding to the records -/

theorem mem_ptrs {l : PLogs} {p : Ptr} : p ∈ l.ptrs ↔
    (∃ q ∈ l.committed, p ∈ q.2.ptrs) ∨ (∃ q ∈ l.subs, q.collateral = p) ∨ (∃ q ∈ l.ether, q.amount = p) ∨
    (∃ q ∈ l.donations, q.amount = p) ∨ (∃ q ∈ l.proposed, q.reward = some p) ∨
    (∃ q ∈ l.missed, q.reward = some p) ∨ (∃ q ∈ l.wrongFee, q.reward = some p) ∨ p = l.collateral := by
  simp only [PLogs.ptrs, List.mem_append, List.mem_flatMap, List.mem_map, List.mem_singleton,
    Option.mem_toList, or_assoc]

theorem rel_donation {m : Mem} (hs : Sep m) {d : PEther} (hd : m.Unowned d.amount) :
    HRel m (m.modLogs fun l => { l with donations := l.donations ++ [d] })
      { m.read with donations := m.read.donations ++ [d.read m.heap] } := by
  have h := rel_st hs (st := { m.st with logs := { m.st.logs with donations := m.st.logs.donations ++ [d] } })
    rfl rfl (by
      intro p hp
      have hl := hs.logs p
      rw [mem_ptrs] at hp hl
      simp only [List.mem_append, List.mem_singleton] at hp
      aesop)
  refine ⟨h.read.trans ?_, h.sep, h.frame⟩
  simp [Mem.read]

theorem rel_proposed {m : Mem} (hs : Sep m) {b : PSum} (hb : ∀ p ∈ b.reward, m.Unowned p) :
    HRel m (m.modLogs fun l => { l with proposed := l.proposed ++ [b] })
      { m.read with proposed := m.read.proposed ++ [b.read m.heap] } := by
  have h := rel_st hs (st := { m.st with logs := { m.st.logs with proposed := m.st.logs.proposed ++ [b] } })
    rfl rfl (by
      intro p hp
      have hl := hs.logs p
      rw [mem_ptrs] at hp hl
      simp only [List.mem_append, List.mem_singleton] at hp
      aesop)
  refine ⟨h.read.trans ?_, h.sep, h.frame⟩
  simp [Mem.read]

theorem rel_missed {m : Mem} (hs : Sep m) {b : PSum} (hb : ∀ p ∈ b.reward, m.Unowned p) :
    HRel m (m.modLogs fun l => { l with missed := l.missed ++ [b] })
      { m.read with missed := m.read.missed ++ [b.read m.heap] } := by
  have h := rel_st hs (st := { m.st with logs := { m.st.logs with missed := m.st.logs.missed ++ [b] } })
    rfl rfl (by
      intro p hp
      have hl := hs.logs p
      rw [mem_ptrs] at hp hl
      simp only [List.mem_append, List.mem_singleton] at hp
      aesop)
  refine ⟨h.read.trans ?_, h.sep, h.frame⟩
  simp [Mem.read]

theorem rel_wrongFee {m : Mem} (hs : Sep m) {b : PSum} (hb : ∀ p ∈ b.reward, m.Unowned p) :
    HRel m (m.modLogs fun l => { l with wrongFee := l.wrongFee ++ [b] })
      { m.read with wrongFee := m.read.wrongFee ++ [b.read m.heap] } := by
  have h := rel_st hs (st := { m.st with logs := { m.st.logs with wrongFee := m.st.logs.wrongFee ++ [b] } })
    rfl rfl (by
      intro p hp
      have hl := hs.logs p
      rw [mem_ptrs] at hp hl
      simp only [List.mem_append, List.mem_singleton] at hp
      aesop)
  refine ⟨h.read.trans ?_, h.sep, h.frame⟩
  simp [Mem.read]

/-- Reading a block summary after a step. -/
theorem Frame.sum {m m' : Mem} (hf : Frame m m') {b : PSum} (hb : ∀ p ∈ b.reward, m.Unowned p) :
    b.read m'.heap = b.read m.heap ∧ ∀ p ∈ b.reward, m'.Unowned p :=
  ⟨PSum.read_congr fun p hp => (hf.2 p (hb p (by simpa using hp))).2, fun p hp => (hf.2 p (hb p hp)).1⟩

theorem sim_donLoop {E : Env} {net : Str} {l : List PEther} {m : Mem} (hs : Sep m)
    (hl : ∀ d ∈ l, m.Unowned d.amount) :
    SimM (HRel m) (donLoopP E net l m) (donLoop E net (l.map (·.read m.heap)) m.read) := by
  induction l generalizing m with
  | nil => exact SimM.ok (HRel.refl hs)
  | cons d l ih =>
    simp only [donLoopP, List.map_cons, donLoop]
    refine (sim_increaseAll hs d.amount).step fun m1 h1 => ?_
    have hd := h1.frame.2 _ (hl d (by simp))
    have h2 := rel_donation h1.sep hd.1
    have e1 : d.read m.heap = d.read m1.heap := by simp only [PEther.read]; rw [hd.2]
    have e2 : l.map (·.read m.heap) =
        l.map (·.read (m1.modLogs fun l => { l with donations := l.donations ++ [d] }).heap) := by
      apply List.map_congr_left
      intro q hq
      simp only [PEther.read]
      rw [show (m1.modLogs fun l => { l with donations := l.donations ++ [d] }).heap = m1.heap from rfl,
        (h1.frame.2 _ (hl q (List.mem_cons_of_mem _ hq))).2]
    rw [e1, ← h2.read, e2]
    exact (ih h2.sep fun q hq => (h2.frame.2 _ (h1.frame.2 _ (hl q (List.mem_cons_of_mem _ hq))).1).1).mono
      fun _ _ hr => hr.after h2.frame

theorem sim_handleDonations {E : Env} {net : Str} {m : Mem} (hs : Sep m) {ds : List PEther}
    (hl : ∀ d ∈ ds, m.Unowned d.amount) :
    SimM (HRel m) (handleDonationsP E net m ds) (handleDonations E net m.read (ds.map (·.read m.heap))) := by
  unfold handleDonationsP handleDonations
  have e1 : (ds.map (·.read m.heap)).map (·.block) = ds.map (·.block) := by
    simp [PEther.read, Function.comp_def]
  rw [e1]
  exact SimM.ite (fun _ => SimM.err _) fun _ => sim_donLoop hs hl

theorem rel_addSubscription {m : Mem} (hs : Sep m) (i : Nat) (w key : Str) :
    HRel m (addSubscriptionP m i w key) (addSubscription m.read i w key) := by
  unfold addSubscriptionP addSubscription
  by_cases ht : (!m.read.isTracked i) = true
  · simp only [ht, if_true]
    have he := (Heap.ext_new m.heap 0).trans ((Heap.ext_new (m.heap.new 0) 0).trans
      (Heap.ext_new ((m.heap.new 0).new 0) 0))
    have h1 := rel_put_new hs he (i := i)
      (v := { status := .notSubscribed, acc := m.heap.next, pend := (m.heap.new 0).next,
              coll := ((m.heap.new 0).new 0).next, waddr := w, index := i, key := key, subType := .manual })
      (by simp) (by simp; omega) (by simp) (Or.inr (by simp; omega))
    have e1 : Heap.cell (((m.heap.new 0).new 0).new 0) m.heap.next = 0 := by
      rw [Heap.new_cell_ne _ _ (by simp; omega), Heap.new_cell_ne _ _ (by simp), Heap.new_cell]
    have e2 : Heap.cell (((m.heap.new 0).new 0).new 0) (m.heap.new 0).next = 0 := by
      rw [Heap.new_cell_ne _ _ (by simp), Heap.new_cell]
    have e3 : Heap.cell (((m.heap.new 0).new 0).new 0) ((m.heap.new 0).new 0).next = 0 := Heap.new_cell _ _
    have h2 := (rel_advance h1.sep i .autoSubscription).after h1.frame
    have h3 := (rel_setSubType h2.sep i .auto).after h2.frame
    refine ⟨h3.read.trans ?_, h3.sep, h3.frame⟩
    rw [h2.read, h1.read]
    simp only [PVal.read, State.putVal, e1, e2, e3]
  · simp only [ht]
    by_cases hsub : (!m.read.isSubscribed i) = true
    · simp only [hsub, if_true]
      have h1 := rel_advance hs i .autoSubscription
      rw [h1.read]
      by_cases hb : (!(m.read.advance i .autoSubscription).isBanned i) = true
      · simp only [hb, if_true]
        have h2 := (rel_setSubType h1.sep i .auto).after h1.frame
        rw [h1.read] at h2
        exact h2
      · simp only [hb]
        exact h1
    · simp only [hsub]
      exact HRel.refl hs

theorem sim_handleCorrect {E : Env} {net : Str} {m : Mem} (hs : Sep m) {b : PSum}
    (hb : ∀ p ∈ b.reward, m.Unowned p) :
    SimM (HRel m) (handleCorrectP E net m b) (handleCorrect E net m.read (b.read m.heap)) := by
  unfold handleCorrectP handleCorrect
  have h1 := rel_addSubscription hs b.index b.waddr b.key
  have h2 := (rel_advance h1.sep b.index .proposalOk).after h1.frame
  rw [h1.read] at h2
  have hb2 := h2.frame.sum hb
  cases hr : b.reward with
  | none => simp only [PSum.read, hr, Option.map_none]; exact SimM.err _
  | some r =>
    have hr2 : (b.read m.heap).reward = some (m.heap.cell r) := by simp [PSum.read, hr]
    simp only [hr2]
    have hc := (h2.frame.2 r (hb r hr)).2
    have h3 := sim_increaseAll (E := E) (net := net) h2.sep r
    rw [h2.read, hc] at h3
    refine (SimM.step h3 (f := fun m2 => do
      let m3 ← m2.consolidate b.index
      .ok (m3.modLogs fun l => { l with proposed := l.proposed ++ [b] })) fun m2 h2' => ?_).mono
      fun _ _ hr => hr.after h2.frame
    refine (sim_consolidate h2'.sep b.index).step (g := fun s3 =>
      .ok { s3 with proposed := s3.proposed ++ [b.read m.heap] }) fun m3 h3' => ?_
    have hb3 := (h2'.frame.trans h3'.frame).sum hb2.2
    have h4 := rel_proposed h3'.sep hb3.2
    rw [hb3.1, hb2.1] at h4
    exact SimM.ok h4

theorem sim_handleBls {m : Mem} (hs : Sep m) {b : PSum} (hb : ∀ p ∈ b.reward, m.Unowned p) :
    SimM (HRel m) (handleBlsP m b) (handleBls m.read (b.read m.heap)) := by
  unfold handleBlsP handleBls
  refine SimM.ite (fun _ => SimM.err _) fun _ => ?_
  cases hr : b.reward with
  | none => simp only [PSum.read, hr, Option.map_none]; exact SimM.err _
  | some r =>
    have hr2 : (b.read m.heap).reward = some (m.heap.cell r) := by simp [PSum.read, hr]
    simp only [hr2]
    have h1 := rel_toPool hs r
    have hb1 := h1.frame.sum hb
    have h2 := (rel_proposed h1.sep hb1.2).after h1.frame
    rw [h1.read, hb1.1] at h2
    exact SimM.ok h2

theorem sim_handleWrongFee {E : Env} {net : Str} {m : Mem} (hs : Sep m) {b : PSum}
    (hb : ∀ p ∈ b.reward, m.Unowned p) :
    SimM (HRel m) (handleWrongFeeP E net m b) (handleWrongFee E net m.read (b.read m.heap)) := by
  unfold handleWrongFeeP handleWrongFee
  have h1 := rel_advance hs b.index .proposalWrongFee
  have h2 := sim_pendPtr (m.advance b.index .proposalWrongFee) b.index
  have hb1 := h1.frame.sum hb
  rw [h1.read] at h2
  refine h2.bind fun p x hp => ?_
  obtain ⟨rfl, _⟩ := hp
  have h3 := sim_increaseAll (E := E) (net := net) h1.sep p
  rw [h1.read] at h3
  refine (SimM.step (m := m.advance b.index .proposalWrongFee) h3 (f := fun m2 => do
      let m3 ← m2.resetPending b.index
      .ok (m3.modLogs fun l => { l with wrongFee := l.wrongFee ++ [b] })) fun m2 h2' => ?_).mono
      fun _ _ hr => hr.after h1.frame
  refine (sim_resetPending h2'.sep b.index).step (g := fun s3 =>
      .ok { s3 with wrongFee := s3.wrongFee ++ [b.read m.heap] }) fun m3 h3' => ?_
  have hb3 := (h2'.frame.trans h3'.frame).sum hb1.2
  have h4 := rel_wrongFee h3'.sep hb3.2
  rw [hb3.1, hb1.1] at h4
  exact SimM.ok h4

theorem rel_handleMissed {m : Mem} (hs : Sep m) {b : PSum} (hb : ∀ p ∈ b.reward, m.Unowned p) :
    HRel m (handleMissedP m b) (handleMissed m.read (b.read m.heap)) := by
  have h1 := rel_advance hs b.index .proposalMissed
  have hb1 := h1.frame.sum hb
  have h2 := (rel_missed h1.sep hb1.2).after h1.frame
  rw [h1.read, hb1.1] at h2
  exact h2

theorem sim_banLoop {l : List BanEvent} {m : Mem} (hs : Sep m) (tot : Int) :
    SimM (fun x y => HRel m x.1 y.1 ∧ x.2 = y.2) (banLoopP l m tot) (banLoop l m.read tot) := by
  induction l generalizing m tot with
  | nil => exact SimM.ok ⟨HRel.refl hs, rfl⟩
  | cons ev l ih =>
    simp only [banLoopP, banLoop]
    refine SimM.ite (fun _ => ih hs tot) fun _ => ?_
    have h1 := rel_advance hs ev.validatorId .manualBan
    have h2 := sim_pendPtr (m.advance ev.validatorId .manualBan) ev.validatorId
    rw [h1.read] at h2
    refine h2.bind fun p x hp => ?_
    obtain ⟨rfl, _⟩ := hp
    have h3 := sim_resetPending h1.sep ev.validatorId
    rw [h1.read] at h3
    refine h3.bind fun m2 s2 hr => ?_
    obtain ⟨rfl, hs2, hf2⟩ := hr
    exact (ih hs2 _).mono fun _ _ h => ⟨h.1.after (h1.frame.trans hf2), h.2⟩

theorem sim_handleBans {E : Env} {net : Str} {m : Mem} (hs : Sep m) (evs : List BanEvent) :
    SimM (HRel m) (handleBansP E net m evs) (handleBans E net m.read evs) := by
  unfold handleBansP handleBans
  refine SimM.ite (fun _ => SimM.ok (HRel.refl hs)) fun _ => SimM.ite (fun _ => SimM.err _) fun _ => ?_
  refine (sim_banLoop hs 0).bind ?_
  rintro ⟨m1, tot⟩ ⟨s1, tot'⟩ ⟨⟨h1, hs1, hf1⟩, h2⟩
  simp only at h1 h2 hs1 hf1 ⊢
  subst h1; subst h2
  refine SimM.ite (fun _ => SimM.err _) fun _ => SimM.ite (fun _ => ?_) fun _ => SimM.ok ⟨rfl, hs1, hf1⟩
  have h3 := rel_ext hs1 (Heap.ext_new m1.heap tot)
  have h4 := sim_increaseAll (E := E) (net := net) h3.sep m1.heap.next
  rw [h3.read, show Heap.cell (Mem.heap { m1 with heap := m1.heap.new tot }) m1.heap.next = tot from
    Heap.new_cell _ _] at h4
  exact h4.mono fun _ _ hr => hr.after (hf1.trans h3.frame)

theorem rel_unbanLoop {l : List BanEvent} {m : Mem} (hs : Sep m) :
    HRel m (unbanLoopP l m) (unbanLoop l m.read) := by
  induction l generalizing m with
  | nil => exact HRel.refl hs
  | cons ev l ih =>
    simp only [unbanLoopP, unbanLoop]
    split
    · exact ih hs
    · have h1 := rel_advance hs ev.validatorId .manualUnban
      have h2 := (ih h1.sep).after h1.frame
      rw [h1.read] at h2
      exact h2

theorem sim_handleUnbans {m : Mem} (hs : Sep m) (evs : List BanEvent) :
    SimM (HRel m) (handleUnbansP m evs) (handleUnbans m.read evs) := by
  unfold handleUnbansP handleUnbans
  exact SimM.ite (fun _ => SimM.err _) fun _ => SimM.ok (rel_unbanLoop hs)

end Verif
