import Verif.Spec.Heap
import Verif.Lemmas.VMap
/-
The oracle with pointers: the invariant that balances are in cells of their own, and what the elementary
operations do to it.
-/
namespace Verif

/-! ### Two programs side by side -/

/-- Both programs stop in the same way, or end in related results. -/
def SimM {β γ : Type} (R : β → γ → Prop) : M β → M γ → Prop
  | .ok b, .ok c => R b c
  | .error e, .error e' => e = e'
  | _, _ => False

theorem SimM.bind {β γ β' γ' : Type} {R : β → γ → Prop} {R' : β' → γ' → Prop} {x : M β} {y : M γ}
    {f : β → M β'} {g : γ → M γ'} (h : SimM R x y) (hf : ∀ b c, R b c → SimM R' (f b) (g c)) :
    SimM R' (x >>= f) (y >>= g) := by
  cases x <;> cases y <;> simp_all [SimM, Bind.bind, Except.bind]

theorem SimM.mono {β γ : Type} {R R' : β → γ → Prop} {x : M β} {y : M γ} (h : SimM R x y)
    (hr : ∀ b c, R b c → R' b c) : SimM R' x y := by
  cases x <;> cases y <;> simp_all [SimM]

theorem SimM.refl {β : Type} (x : M β) : SimM Eq x x := by cases x <;> simp [SimM]

theorem SimM.eq_bind {α β γ : Type} {R : β → γ → Prop} {x : M α} {f : α → M β} {g : α → M γ}
    (hf : ∀ a, SimM R (f a) (g a)) : SimM R (x >>= f) (x >>= g) :=
  (SimM.refl x).bind fun a b h => by subst h; exact hf a

/-! ### Maps with number keys -/

namespace KMap
variable {α : Type}

theorem get_modify (m : List (Nat × α)) (k j : Nat) (f : α → α) :
    get (modify m k f) j = if j = k then (get m j).map f else get m j := by
  induction m with
  | nil => simp [modify, get]
  | cons p m ih =>
    obtain ⟨a, v⟩ := p
    simp only [modify, List.map_cons] at ih ⊢
    by_cases hak : a = k
    · subst hak
      by_cases hj : a = j
      · subst hj; simp [get]
      · simp only [if_true, get]
        rw [if_neg hj, ih]; simp [hj]
    · simp only [if_neg hak, get]
      by_cases hj : a = j
      · subst hj; simp [hak]
      · rw [if_neg hj, ih]; simp [hj]

theorem get_insert (m : List (Nat × α)) (k j : Nat) (v : α) :
    get (insert m k v) j = if j = k then some v else get m j := by
  induction m with
  | nil =>
    simp only [insert, get]
    by_cases h : j = k
    · simp [h]
    · simp [h, Ne.symm h]
  | cons p m ih =>
    obtain ⟨a, w⟩ := p
    simp only [insert]
    by_cases h1 : k < a
    · simp only [h1, if_true, get]
      by_cases h : j = k
      · subst h; simp
      · simp [h, Ne.symm h]
    · simp only [h1, if_false]
      by_cases h2 : k = a
      · subst h2
        simp only [if_true, get]
        by_cases h : j = k
        · subst h; simp
        · simp [h, Ne.symm h]
      · simp only [h2, if_false, get]
        by_cases h3 : a = j
        · subst h3; simp [Ne.symm h2]
        · simp [h3, ih]

theorem get_of_mem {m : List (Nat × α)} (hs : (m.map (·.1)).Pairwise (· < ·)) {k : Nat} {v : α}
    (h : (k, v) ∈ m) : get m k = some v := by
  induction m with
  | nil => simp at h
  | cons p m ih =>
    obtain ⟨a, w⟩ := p
    simp only [List.map_cons, List.pairwise_cons] at hs
    rcases List.mem_cons.mp h with h | h
    · cases h; simp [get]
    · have hlt := hs.1 k (List.mem_map.mpr ⟨_, h, rfl⟩)
      simp only [get]
      rw [if_neg (by omega)]
      exact ih hs.2 h

theorem mem_of_get {m : List (Nat × α)} {k : Nat} {v : α} (h : get m k = some v) : (k, v) ∈ m := by
  induction m with
  | nil => simp [get] at h
  | cons p m ih =>
    obtain ⟨a, w⟩ := p
    simp only [get] at h
    split at h
    · rename_i ha; subst ha; cases h; simp
    · exact List.mem_cons_of_mem _ (ih h)

theorem keys_modify (m : List (Nat × α)) (k : Nat) (f : α → α) :
    (modify m k f).map (·.1) = m.map (·.1) := by
  simp only [modify, List.map_map]
  apply List.map_congr_left
  intro p _
  simp only [Function.comp]
  split <;> rfl

end KMap

/-! ### Reading -/

theorem keys_readVals (h : Heap) (m : List (Nat × PVal)) : VMap.keys (readVals h m) = m.map (·.1) := by
  simp [VMap.keys, readVals, Function.comp_def]

theorem get_readVals (h : Heap) (m : List (Nat × PVal)) (k : Nat) :
    VMap.get (readVals h m) k = (KMap.get m k).map (·.read h) := by
  induction m with
  | nil => rfl
  | cons p m ih =>
    obtain ⟨a, v⟩ := p
    simp only [readVals, List.map_cons, VMap.get, KMap.get] at ih ⊢
    split
    · rfl
    · exact ih

theorem readVals_modify (h : Heap) (m : List (Nat × PVal)) (k : Nat) (f : PVal → PVal)
    (g : Validator → Validator) (hf : ∀ v, (f v).read h = g (v.read h)) :
    readVals h (KMap.modify m k f) = VMap.modify (readVals h m) k g := by
  simp only [readVals, KMap.modify, VMap.modify, List.map_map]
  apply List.map_congr_left
  intro p _
  simp only [Function.comp]
  split <;> simp [hf]

theorem readVals_insert (h : Heap) (m : List (Nat × PVal)) (k : Nat) (v : PVal) :
    readVals h (KMap.insert m k v) = VMap.insert (readVals h m) k (v.read h) := by
  induction m with
  | nil => rfl
  | cons p m ih =>
    obtain ⟨a, w⟩ := p
    simp only [KMap.insert]
    simp only [readVals, List.map_cons, VMap.insert] at ih ⊢
    split
    · rfl
    · split
      · rfl
      · simp [ih]

/-- The cells of a validator. -/
def PVal.ptrs (v : PVal) : List Ptr := [v.acc, v.pend, v.coll]

/-- The cells of a checkpoint. -/
def PFrozen.ptrs (f : PFrozen) : List Ptr :=
  f.vals.flatMap (fun p => p.2.ptrs) ++ f.leafs.map fun p => p.2.bal

/-- The cells of the records and checkpoints. -/
def PLogs.ptrs (l : PLogs) : List Ptr :=
  l.committed.flatMap (fun p => p.2.ptrs) ++ l.subs.map (·.collateral) ++ l.ether.map (·.amount)
    ++ l.donations.map (·.amount) ++ l.proposed.flatMap (·.reward.toList)
    ++ l.missed.flatMap (·.reward.toList) ++ l.wrongFee.flatMap (·.reward.toList) ++ [l.collateral]

theorem PVal.read_congr {h h' : Heap} {v : PVal} (hc : ∀ p ∈ v.ptrs, h'.cell p = h.cell p) :
    v.read h' = v.read h := by
  simp only [PVal.ptrs, List.mem_cons, List.not_mem_nil, or_false, forall_eq_or_imp, forall_eq] at hc
  simp [PVal.read, hc]

theorem readVals_congr {h h' : Heap} {m : List (Nat × PVal)}
    (hc : ∀ p ∈ m.flatMap (fun q => q.2.ptrs), h'.cell p = h.cell p) : readVals h' m = readVals h m := by
  apply List.map_congr_left
  intro q hq
  rw [PVal.read_congr fun p hp => hc p (List.mem_flatMap.mpr ⟨q, hq, hp⟩)]

theorem PFrozen.read_congr {h h' : Heap} {f : PFrozen} (hc : ∀ p ∈ f.ptrs, h'.cell p = h.cell p) :
    f.read h' = f.read h := by
  simp only [PFrozen.ptrs, List.mem_append] at hc
  simp only [PFrozen.read, readVals_congr fun p hp => hc p (Or.inl hp)]
  congr 1
  apply List.map_congr_left
  intro q hq
  simp only [PLeaf.read]
  rw [hc _ (Or.inr (List.mem_map.mpr ⟨q, hq, rfl⟩))]

theorem PSum.read_congr {h h' : Heap} {b : PSum} (hc : ∀ p ∈ b.reward.toList, h'.cell p = h.cell p) :
    b.read h' = b.read h := by
  obtain ⟨_, _, _, _, _, r, _, _⟩ := b
  cases r with
  | none => rfl
  | some p => simp [PSum.read, hc p (by simp)]

/-- Everything the records and checkpoints hold is the same in both heaps. -/
structure PLogs.Same (l : PLogs) (h h' : Heap) : Prop where
  committed : (l.committed.map fun p => (p.1, p.2.read h')) = l.committed.map fun p => (p.1, p.2.read h)
  subs : l.subs.map (·.read h') = l.subs.map (·.read h)
  ether : l.ether.map (·.read h') = l.ether.map (·.read h)
  donations : l.donations.map (·.read h') = l.donations.map (·.read h)
  proposed : l.proposed.map (·.read h') = l.proposed.map (·.read h)
  missed : l.missed.map (·.read h') = l.missed.map (·.read h)
  wrongFee : l.wrongFee.map (·.read h') = l.wrongFee.map (·.read h)
  collateral : h'.cell l.collateral = h.cell l.collateral

theorem PLogs.same {l : PLogs} {h h' : Heap} (hc : ∀ p ∈ l.ptrs, h'.cell p = h.cell p) :
    l.Same h h' := by
  simp only [PLogs.ptrs, List.mem_append, List.mem_flatMap, List.mem_map, List.mem_singleton] at hc
  constructor
  · apply List.map_congr_left
    intro q hq
    rw [PFrozen.read_congr fun p hp => hc p (by simp only [or_assoc]; exact Or.inl ⟨q, hq, hp⟩)]
  · apply List.map_congr_left
    intro q hq
    simp only [PSub.read]
    rw [hc _ (by simp only [or_assoc]; exact Or.inr (Or.inl ⟨q, hq, rfl⟩))]
  · apply List.map_congr_left
    intro q hq
    simp only [PEther.read]
    rw [hc _ (by simp only [or_assoc]; exact Or.inr (Or.inr (Or.inl ⟨q, hq, rfl⟩)))]
  · apply List.map_congr_left
    intro q hq
    simp only [PEther.read]
    rw [hc _ (by simp only [or_assoc]; exact Or.inr (Or.inr (Or.inr (Or.inl ⟨q, hq, rfl⟩))))]
  · apply List.map_congr_left
    intro q hq
    exact PSum.read_congr fun p hp => hc p (by
      simp only [or_assoc]; exact Or.inr (Or.inr (Or.inr (Or.inr (Or.inl ⟨q, hq, hp⟩)))))
  · apply List.map_congr_left
    intro q hq
    exact PSum.read_congr fun p hp => hc p (by
      simp only [or_assoc]; exact Or.inr (Or.inr (Or.inr (Or.inr (Or.inr (Or.inl ⟨q, hq, hp⟩))))))
  · apply List.map_congr_left
    intro q hq
    exact PSum.read_congr fun p hp => hc p (by
      simp only [or_assoc]; exact Or.inr (Or.inr (Or.inr (Or.inr (Or.inr (Or.inr (Or.inl ⟨q, hq, hp⟩)))))))
  · exact hc _ (Or.inr rfl)

/-- Reading a state that has the same records. -/
theorem read_of_same {m m' : Mem} (hl : m'.st.logs = m.st.logs) (hs : m.st.logs.Same m.heap m'.heap) :
    m'.read =
      { stateHash := m'.st.stateHash, latestSlot := m'.st.latestSlot, latestBlock := m'.st.latestBlock
        nextSlot := m'.st.nextSlot, poolFees := m'.heap.cell m'.st.poolFees
        vals := readVals m'.heap m'.st.vals
        committed := m.read.committed, subs := m.read.subs, unsubs := m'.st.unsubs
        ether := m.read.ether, donations := m.read.donations, proposed := m.read.proposed
        missed := m.read.missed, wrongFee := m.read.wrongFee, fee := m'.st.fee
        poolAddr := m'.st.poolAddr, network := m'.st.network, poolFeesAddr := m'.st.poolFeesAddr
        cpSize := m'.st.cpSize, depBlock := m'.st.depBlock, depSlot := m'.st.depSlot
        collateral := m.read.collateral, tick := m'.st.tick } := by
  simp only [Mem.read, hl, hs.committed, hs.subs, hs.ether, hs.donations, hs.proposed, hs.missed,
    hs.wrongFee, hs.collateral]

/-! ### The invariant -/

/-- A cell that is in use and not the cell of a balance. -/
def Mem.Unowned (m : Mem) (p : Ptr) : Prop := p < m.heap.next ∧ ∀ a, m.cellOf a ≠ some p

/-- Every balance is in a cell of its own; nothing else the state refers to is in such a cell. -/
structure Sep (m : Mem) : Prop where
  keys : (m.st.vals.map (·.1)).Pairwise (· < ·)
  inj : ∀ a b c, m.cellOf a = some c → m.cellOf b = some c → a = b
  bound : ∀ a c, m.cellOf a = some c → c < m.heap.next
  colls : ∀ k v, KMap.get m.st.vals k = some v → m.Unowned v.coll
  logs : ∀ p ∈ m.st.logs.ptrs, m.Unowned p

/-- A step never touches a cell that is not the cell of a balance. -/
def Frame (m m' : Mem) : Prop :=
  m.heap.next ≤ m'.heap.next ∧ ∀ p, m.Unowned p → m'.Unowned p ∧ m'.heap.cell p = m.heap.cell p

theorem Frame.refl (m : Mem) : Frame m m := ⟨Nat.le_refl _, fun _ h => ⟨h, rfl⟩⟩

theorem Frame.trans {m m' m'' : Mem} (h : Frame m m') (h' : Frame m' m'') : Frame m m'' :=
  ⟨h.1.trans h'.1, fun p hp =>
    have a := h.2 p hp
    have b := h'.2 p a.1
    ⟨b.1, b.2.trans a.2⟩⟩

/-- The state with pointers after a step from `m` stands for `s`. -/
structure HRel (m m' : Mem) (s : State) : Prop where
  read : m'.read = s
  sep : Sep m'
  frame : Frame m m'

theorem HRel.refl {m : Mem} (h : Sep m) : HRel m m m.read := ⟨rfl, h, Frame.refl m⟩

theorem HRel.after {m m1 m2 : Mem} {s : State} (h : HRel m1 m2 s) (hf : Frame m m1) : HRel m m2 s :=
  ⟨h.read, h.sep, hf.trans h.frame⟩

theorem Sep.same {m m' : Mem} (hs : Sep m) (hf : Frame m m') : m.st.logs.Same m.heap m'.heap :=
  PLogs.same fun p hp => (hf.2 p (hs.logs p hp)).2

theorem cellOf_acc {m : Mem} {i : Nat} {v : PVal} (h : KMap.get m.st.vals i = some v) :
    m.cellOf (.acc i) = some v.acc := by simp [Mem.cellOf, h]

theorem cellOf_pend {m : Mem} {i : Nat} {v : PVal} (h : KMap.get m.st.vals i = some v) :
    m.cellOf (.pend i) = some v.pend := by simp [Mem.cellOf, h]

theorem cellOf_write (m : Mem) (c : Ptr) (x : Int) (a : Owner) :
    Mem.cellOf { m with heap := m.heap.write c x } a = m.cellOf a := by cases a <;> rfl

/-- **Writing to the cell of a balance changes that balance and nothing else.** -/
theorem rel_write {m : Mem} (hs : Sep m) {a : Owner} {c : Ptr} (hc : m.cellOf a = some c) (x : Int) :
    HRel m { m with heap := m.heap.write c x } (m.read.withBalance a x) := by
  have hf : Frame m { m with heap := m.heap.write c x } := by
    refine ⟨Nat.le_refl _, fun p hp => ⟨⟨hp.1, fun b => by rw [cellOf_write]; exact hp.2 b⟩, ?_⟩⟩
    have : p ≠ c := fun h => hp.2 a (h ▸ hc)
    simp [Heap.write, Function.update_of_ne this]
  refine ⟨?_, ⟨hs.keys, fun a b c => ?_, fun b d => ?_, fun k v hv => (hf.2 _ (hs.colls k v hv)).1,
    fun p hp => (hf.2 _ (hs.logs p hp)).1⟩, hf⟩
  · refine (read_of_same (m := m) (by rfl) (hs.same hf)).trans ?_
    have other : ∀ b d, m.cellOf b = some d → b ≠ a → Function.update m.heap.cell c x d = m.heap.cell d := by
      intro b d hb hne
      exact Function.update_of_ne (fun h => hne (hs.inj _ _ _ (h ▸ hb) hc)) _ _
    have coll : ∀ k v, KMap.get m.st.vals k = some v →
        Function.update m.heap.cell c x v.coll = m.heap.cell v.coll := by
      intro k v hv
      have hne : v.coll ≠ c := fun h => (hs.colls k v hv).2 a (h ▸ hc)
      exact Function.update_of_ne hne _ _
    cases a with
    | pool =>
      cases hc
      simp only [State.withBalance, Mem.read, Heap.write, Function.update_self, State.mk.injEq, and_true,
        true_and]
      apply List.map_congr_left
      rintro ⟨k, v⟩ hv
      have hg := KMap.get_of_mem hs.keys hv
      simp only [PVal.read, coll k v hg, other _ _ (cellOf_acc hg) (by simp),
        other _ _ (cellOf_pend hg) (by simp)]
    | acc i =>
      simp only [State.withBalance, Mem.read, Heap.write, State.mk.injEq, and_true, true_and]
      refine ⟨other .pool _ rfl (by simp), ?_⟩
      simp only [readVals, List.map_map]
      apply List.map_congr_left
      rintro ⟨k, v⟩ hv
      have hg := KMap.get_of_mem hs.keys hv
      simp only [Function.comp]
      by_cases hk : k = i
      · subst hk
        have : v.acc = c := by have := cellOf_acc hg; rw [hc] at this; exact (Option.some.inj this).symm
        simp only [PVal.read, coll k v hg, other _ _ (cellOf_pend hg) (by simp), this,
          Function.update_self, if_true]
      · simp only [PVal.read, coll k v hg, other _ _ (cellOf_acc hg) (by simpa using hk),
          other _ _ (cellOf_pend hg) (by simp), if_neg hk]
    | pend i =>
      simp only [State.withBalance, Mem.read, Heap.write, State.mk.injEq, and_true, true_and]
      refine ⟨other .pool _ rfl (by simp), ?_⟩
      simp only [readVals, List.map_map]
      apply List.map_congr_left
      rintro ⟨k, v⟩ hv
      have hg := KMap.get_of_mem hs.keys hv
      simp only [Function.comp]
      by_cases hk : k = i
      · subst hk
        have : v.pend = c := by have := cellOf_pend hg; rw [hc] at this; exact (Option.some.inj this).symm
        simp only [PVal.read, coll k v hg, other _ _ (cellOf_acc hg) (by simp), this,
          Function.update_self, if_true]
      · simp only [PVal.read, coll k v hg, other _ _ (cellOf_pend hg) (by simpa using hk),
          other _ _ (cellOf_acc hg) (by simp), if_neg hk]
  · rw [cellOf_write, cellOf_write]; exact hs.inj a b c
  · rw [cellOf_write]; exact hs.bound b d

/-! ### New cells -/

/-- `h'` is `h` with more cells. -/
def Heap.Ext (h h' : Heap) : Prop := h.next ≤ h'.next ∧ ∀ p, p < h.next → h'.cell p = h.cell p

theorem Heap.Ext.refl (h : Heap) : h.Ext h := ⟨Nat.le_refl _, fun _ _ => rfl⟩

theorem Heap.Ext.trans {h h' h'' : Heap} (a : h.Ext h') (b : h'.Ext h'') : h.Ext h'' :=
  ⟨a.1.trans b.1, fun p hp => (b.2 p (Nat.lt_of_lt_of_le hp a.1)).trans (a.2 p hp)⟩

theorem Heap.ext_new (h : Heap) (x : Int) : h.Ext (h.new x) :=
  ⟨Nat.le_succ _, fun p hp => Function.update_of_ne (by omega) _ _⟩

@[simp] theorem Heap.new_next (h : Heap) (x : Int) : (h.new x).next = h.next + 1 := rfl

@[simp] theorem Heap.new_cell (h : Heap) (x : Int) : (h.new x).cell h.next = x :=
  Function.update_self _ _ _

theorem Heap.new_cell_ne (h : Heap) (x : Int) {p : Ptr} (hp : p ≠ h.next) :
    (h.new x).cell p = h.cell p := Function.update_of_ne hp _ _

theorem Sep.vals_bound {m : Mem} (hs : Sep m) {k : Nat} {v : PVal} (hv : KMap.get m.st.vals k = some v) :
    ∀ p ∈ v.ptrs, p < m.heap.next := by
  simp only [PVal.ptrs, List.mem_cons, List.not_mem_nil, or_false, forall_eq_or_imp, forall_eq]
  exact ⟨hs.bound _ _ (cellOf_acc hv), hs.bound _ _ (cellOf_pend hv), (hs.colls k v hv).1⟩

theorem Sep.readVals_ext {m : Mem} (hs : Sep m) {h' : Heap} (he : m.heap.Ext h') :
    readVals h' m.st.vals = readVals m.heap m.st.vals := by
  apply readVals_congr
  intro p hp
  obtain ⟨⟨k, v⟩, hq, hp⟩ := List.mem_flatMap.mp hp
  exact he.2 p (hs.vals_bound (KMap.get_of_mem hs.keys hq) p hp)

theorem frame_ext {m : Mem} {h' : Heap} (he : m.heap.Ext h') : Frame m { m with heap := h' } :=
  ⟨he.1, fun p hp => ⟨⟨Nat.lt_of_lt_of_le hp.1 he.1, fun a => by
    have : Mem.cellOf { m with heap := h' } a = m.cellOf a := by cases a <;> rfl
    rw [this]; exact hp.2 a⟩, he.2 p hp.1⟩⟩

theorem rel_ext {m : Mem} (hs : Sep m) {h' : Heap} (he : m.heap.Ext h') :
    HRel m { m with heap := h' } m.read := by
  have hcell : ∀ a, Mem.cellOf { m with heap := h' } a = m.cellOf a := fun a => by cases a <;> rfl
  have hf := frame_ext he
  refine ⟨?_, ⟨hs.keys, fun a b c => ?_, fun a c h => ?_, fun k v hv => (hf.2 _ (hs.colls k v hv)).1,
    fun p hp => (hf.2 _ (hs.logs p hp)).1⟩, hf⟩
  · refine (read_of_same (m := m) (by rfl) (hs.same hf)).trans ?_
    simp only [Mem.read, State.mk.injEq, and_true, true_and]
    exact ⟨he.2 _ (hs.bound .pool _ rfl), hs.readVals_ext he⟩
  · rw [hcell, hcell]; exact hs.inj a b c
  · rw [hcell] at h; exact Nat.lt_of_lt_of_le (hs.bound a c h) he.1

/-- Changing the parts of the state that are not balances. -/
theorem rel_st {m : Mem} (hs : Sep m) {st : PState} (hv : st.vals = m.st.vals)
    (hp : st.poolFees = m.st.poolFees) (hl : ∀ p ∈ st.logs.ptrs, m.Unowned p) :
    HRel m ⟨m.heap, st⟩ (Mem.read ⟨m.heap, st⟩) := by
  have hcell : ∀ a, Mem.cellOf ⟨m.heap, st⟩ a = m.cellOf a := fun a => by
    cases a <;> simp [Mem.cellOf, hv, hp]
  have hu : ∀ p, m.Unowned p → Mem.Unowned ⟨m.heap, st⟩ p := fun p h =>
    ⟨h.1, fun a => by rw [hcell]; exact h.2 a⟩
  refine ⟨rfl, ⟨by rw [show (Mem.mk m.heap st).st.vals = _ from hv]; exact hs.keys, fun a b c => ?_,
    fun a c h => ?_, fun k v h => ?_, fun p h => hu p (hl p h)⟩, ⟨Nat.le_refl _, fun p h => ⟨hu p h, rfl⟩⟩⟩
  · rw [hcell, hcell]; exact hs.inj a b c
  · rw [hcell] at h; exact hs.bound a c h
  · exact hu _ (hs.colls k v (by rw [← hv]; exact h))

theorem rel_tick {m : Mem} (hs : Sep m) (t : Nat) : HRel m (m.setTick t) { m.read with tick := t } :=
  rel_st hs (st := { m.st with tick := t }) rfl rfl hs.logs

/-- Changing fields of a validator that are not numbers. -/
theorem rel_plain {m : Mem} (hs : Sep m) (i : Nat) (f : PVal → PVal) (g : Validator → Validator)
    (hf : ∀ v, (f v).acc = v.acc ∧ (f v).pend = v.pend ∧ (f v).coll = v.coll)
    (hg : ∀ v, (f v).read m.heap = g (v.read m.heap)) :
    HRel m (m.modVal i f) { m.read with vals := VMap.modify m.read.vals i g } := by
  have hget : ∀ k, KMap.get (m.modVal i f).st.vals k =
      if k = i then (KMap.get m.st.vals k).map f else KMap.get m.st.vals k := fun k =>
    by exact KMap.get_modify _ _ _ _
  have hcell : ∀ a, Mem.cellOf (m.modVal i f) a = m.cellOf a := by
    intro a
    cases a with
    | pool => rfl
    | acc k =>
      simp only [Mem.cellOf, hget]
      split
      · simp only [Option.map_map, Function.comp_def, hf]
      · rfl
    | pend k =>
      simp only [Mem.cellOf, hget]
      split
      · simp only [Option.map_map, Function.comp_def, hf]
      · rfl
  have hu : ∀ p, m.Unowned p → Mem.Unowned (m.modVal i f) p := fun p h =>
    ⟨h.1, fun a => by rw [hcell]; exact h.2 a⟩
  have hfr : Frame m (m.modVal i f) := ⟨Nat.le_refl _, fun p h => ⟨hu p h, rfl⟩⟩
  refine ⟨?_, ⟨?_, fun a b c => ?_, fun a c h => ?_, fun k v h => ?_, fun p h => hu p (hs.logs p h)⟩, hfr⟩
  · refine (read_of_same (m := m) (by rfl) (hs.same hfr)).trans ?_
    simp only [Mem.read, Mem.modVal, State.mk.injEq, and_true, true_and]
    exact readVals_modify _ _ _ _ _ hg
  · show ((KMap.modify m.st.vals i f).map (·.1)).Pairwise _
    rw [KMap.keys_modify]; exact hs.keys
  · rw [hcell, hcell]; exact hs.inj a b c
  · rw [hcell] at h; exact hs.bound a c h
  · rw [hget] at h
    split at h
    · obtain ⟨w, hw, rfl⟩ := Option.map_eq_some_iff.mp h
      rw [(hf w).2.2]
      exact hu _ (hs.colls k w hw)
    · exact hu _ (hs.colls k v h)

/-- Giving a validator a new cell for its pending balance. -/
theorem rel_reset {m : Mem} (hs : Sep m) (i : Nat) (x : Int) :
    HRel m (Mem.modVal { m with heap := m.heap.new x } i fun v => { v with pend := m.heap.next })
      { m.read with vals := VMap.modify m.read.vals i fun v => { v with pend := x } } := by
  set m' := Mem.modVal { m with heap := m.heap.new x } i fun v => { v with pend := m.heap.next } with hm'
  have hget : ∀ k, KMap.get m'.st.vals k =
      if k = i then (KMap.get m.st.vals k).map (fun v => { v with pend := m.heap.next })
      else KMap.get m.st.vals k := fun k => KMap.get_modify m.st.vals i k fun v => { v with pend := m.heap.next }
  have hcell : ∀ a c, m'.cellOf a = some c → m.cellOf a = some c ∨ (a = .pend i ∧ c = m.heap.next) := by
    intro a c h
    cases a with
    | pool => exact Or.inl h
    | acc k =>
      left
      simp only [Mem.cellOf, hget] at h ⊢
      split at h
      · simpa [Option.map_map, Function.comp_def] using h
      · exact h
    | pend k =>
      simp only [Mem.cellOf, hget] at h ⊢
      split at h
      · rename_i hk
        subst hk
        right
        cases hg : KMap.get m.st.vals k with
        | none => simp [hg] at h
        | some v => simp [hg] at h; exact ⟨rfl, h.symm⟩
      · exact Or.inl h
  have hu : ∀ p, m.Unowned p → m'.Unowned p := fun p h =>
    ⟨Nat.lt_succ_of_lt h.1, fun a ha => by
      rcases hcell a p ha with hc | ⟨_, hc⟩
      · exact h.2 a hc
      · have := h.1; omega⟩
  have hfr : Frame m m' := ⟨Nat.le_succ _, fun p h => ⟨hu p h, (Heap.ext_new m.heap x).2 p h.1⟩⟩
  refine ⟨?_, ⟨?_, fun a b c ha hb => ?_, fun a c h => ?_, fun k v h => ?_, fun p h => hu p (hs.logs p h)⟩,
    hfr⟩
  · refine (read_of_same (m := m) (by rfl) (hs.same hfr)).trans ?_
    simp only [Mem.read, hm', Mem.modVal, State.mk.injEq, and_true, true_and]
    refine ⟨(Heap.ext_new m.heap x).2 _ (hs.bound .pool _ rfl), ?_⟩
    rw [readVals_modify (m.heap.new x) m.st.vals i _ (fun v => { v with pend := x })
      (fun v => by simp [PVal.read]), hs.readVals_ext (Heap.ext_new m.heap x)]
  · show ((KMap.modify m.st.vals i (fun v : PVal => { v with pend := m.heap.next })).map (·.1)).Pairwise _
    rw [KMap.keys_modify]; exact hs.keys
  · rcases hcell a c ha with h1 | ⟨h1, h1'⟩ <;> rcases hcell b c hb with h2 | ⟨h2, h2'⟩
    · exact hs.inj a b c h1 h2
    · have := hs.bound a c h1; omega
    · have := hs.bound b c h2; omega
    · rw [h1, h2]
  · rcases hcell a c h with h1 | ⟨_, h1⟩
    · exact Nat.lt_succ_of_lt (hs.bound a c h1)
    · rw [h1]; exact Nat.lt_succ_self _
  · rw [hget] at h
    split at h
    · obtain ⟨w, hw, rfl⟩ := Option.map_eq_some_iff.mp h
      exact hu _ (hs.colls k w hw)
    · exact hu _ (hs.colls k v h)

theorem keys_insert_sorted {m : List (Nat × PVal)} (hs : (m.map (·.1)).Pairwise (· < ·)) (h : Heap) (k : Nat)
    (v : PVal) : ((KMap.insert m k v).map (·.1)).Pairwise (· < ·) := by
  rw [← keys_readVals h, readVals_insert, ← VMap.sorted_iff_keys]
  apply VMap.Sorted.insert
  rw [VMap.sorted_iff_keys, keys_readVals]
  exact hs

/-- A new validator. Its balances are in cells that nothing else uses. -/
theorem rel_put {m : Mem} (hs : Sep m) {h' : Heap} (he : m.heap.Ext h') {i : Nat} {v : PVal}
    (hne : v.acc ≠ v.pend)
    (hacc : v.acc < h'.next ∧ (∀ a, m.cellOf a ≠ some v.acc) ∧ v.acc ∉ m.st.logs.ptrs ∧
      ∀ k w, KMap.get m.st.vals k = some w → w.coll ≠ v.acc)
    (hpend : v.pend < h'.next ∧ (∀ a, m.cellOf a ≠ some v.pend) ∧ v.pend ∉ m.st.logs.ptrs ∧
      ∀ k w, KMap.get m.st.vals k = some w → w.coll ≠ v.pend)
    (hcoll : v.coll < h'.next ∧ (∀ a, m.cellOf a ≠ some v.coll) ∧ v.coll ≠ v.acc ∧ v.coll ≠ v.pend) :
    (Mem.putVal { m with heap := h' } i v).read =
        { m.read with vals := VMap.insert m.read.vals i (v.read h') } ∧
      Sep (Mem.putVal { m with heap := h' } i v) ∧
      ∀ p, m.Unowned p → p ≠ v.acc → p ≠ v.pend →
        (Mem.putVal { m with heap := h' } i v).Unowned p ∧ h'.cell p = m.heap.cell p := by
  set m' := Mem.putVal { m with heap := h' } i v with hm'
  have hget : ∀ k, KMap.get m'.st.vals k = if k = i then some v else KMap.get m.st.vals k := fun k =>
    KMap.get_insert _ _ _ _
  have hcell : ∀ a c, m'.cellOf a = some c →
      m.cellOf a = some c ∨ (a = .acc i ∧ c = v.acc) ∨ (a = .pend i ∧ c = v.pend) := by
    intro a c h
    cases a with
    | pool => exact Or.inl h
    | acc k =>
      simp only [Mem.cellOf, hget] at h ⊢
      split at h
      · rename_i hk; subst hk; exact Or.inr (Or.inl ⟨rfl, by simpa using h.symm⟩)
      · exact Or.inl h
    | pend k =>
      simp only [Mem.cellOf, hget] at h ⊢
      split at h
      · rename_i hk; subst hk; exact Or.inr (Or.inr ⟨rfl, by simpa using h.symm⟩)
      · exact Or.inl h
  have hu : ∀ p, p < h'.next → (∀ a, m.cellOf a ≠ some p) → p ≠ v.acc → p ≠ v.pend → m'.Unowned p := by
    intro p hlt hp h1 h2
    refine ⟨hlt, fun a ha => ?_⟩
    rcases hcell a p ha with hc | ⟨_, hc⟩ | ⟨_, hc⟩
    · exact hp a hc
    · exact h1 hc
    · exact h2 hc
  have hsame : m.st.logs.Same m.heap m'.heap := PLogs.same fun p hp => he.2 p (hs.logs p hp).1
  refine ⟨?_, ⟨keys_insert_sorted hs.keys h' i v, fun a b c ha hb => ?_, fun a c h => ?_, fun k w h => ?_,
    fun p h => ?_⟩, fun p hp h1 h2 => ⟨hu p (Nat.lt_of_lt_of_le hp.1 he.1) hp.2 h1 h2, he.2 p hp.1⟩⟩
  · refine (read_of_same (m := m) (by rfl) hsame).trans ?_
    simp only [Mem.read, hm', Mem.putVal, State.mk.injEq, and_true, true_and]
    refine ⟨he.2 _ (hs.bound .pool _ rfl), ?_⟩
    rw [readVals_insert, hs.readVals_ext he]
  · rcases hcell a c ha with h1 | ⟨h1, h1'⟩ | ⟨h1, h1'⟩ <;>
      rcases hcell b c hb with h2 | ⟨h2, h2'⟩ | ⟨h2, h2'⟩
    · exact hs.inj a b c h1 h2
    · exact absurd (h2' ▸ h1) (hacc.2.1 a)
    · exact absurd (h2' ▸ h1) (hpend.2.1 a)
    · exact absurd (h1' ▸ h2) (hacc.2.1 b)
    · rw [h1, h2]
    · exact absurd (h1'.symm.trans h2') hne
    · exact absurd (h1' ▸ h2) (hpend.2.1 b)
    · exact absurd (h2'.symm.trans h1') hne
    · rw [h1, h2]
  · rcases hcell a c h with h1 | ⟨_, h1⟩ | ⟨_, h1⟩
    · exact Nat.lt_of_lt_of_le (hs.bound a c h1) he.1
    · rw [h1]; exact hacc.1
    · rw [h1]; exact hpend.1
  · rw [hget] at h
    split at h
    · cases h; exact hu _ hcoll.1 hcoll.2.1 hcoll.2.2.1 hcoll.2.2.2
    · have hc := hs.colls k w h
      exact hu _ (Nat.lt_of_lt_of_le hc.1 he.1) hc.2 (hacc.2.2.2 k w h) (hpend.2.2.2 k w h)
  · have hc := hs.logs p h
    exact hu _ (Nat.lt_of_lt_of_le hc.1 he.1) hc.2 (fun e => hacc.2.2.1 (e ▸ h)) (fun e => hpend.2.2.1 (e ▸ h))

/-- A new validator with new cells for its balances. -/
theorem rel_put_new {m : Mem} (hs : Sep m) {h' : Heap} (he : m.heap.Ext h') {i : Nat} {v : PVal}
    (hne : v.acc ≠ v.pend) (hacc : m.heap.next ≤ v.acc ∧ v.acc < h'.next)
    (hpend : m.heap.next ≤ v.pend ∧ v.pend < h'.next)
    (hcoll : m.Unowned v.coll ∨ (m.heap.next ≤ v.coll ∧ v.coll < h'.next ∧ v.coll ≠ v.acc ∧
      v.coll ≠ v.pend)) :
    HRel m (Mem.putVal { m with heap := h' } i v)
      { m.read with vals := VMap.insert m.read.vals i (v.read h') } := by
  have fresh : ∀ p, m.heap.next ≤ p → (∀ a, m.cellOf a ≠ some p) ∧ p ∉ m.st.logs.ptrs ∧
      ∀ k w, KMap.get m.st.vals k = some w → w.coll ≠ p := fun p hp =>
    ⟨fun a ha => by have := hs.bound a p ha; omega, fun h => by have := (hs.logs p h).1; omega,
      fun k w hw e => by have := (hs.colls k w hw).1; omega⟩
  obtain ⟨h1, h2, h3⟩ := rel_put (i := i) hs he hne ⟨hacc.2, fresh _ hacc.1⟩ ⟨hpend.2, fresh _ hpend.1⟩ (by
    rcases hcoll with h | h
    · exact ⟨Nat.lt_of_lt_of_le h.1 he.1, h.2, by have := h.1; omega, by have := h.1; omega⟩
    · exact ⟨h.2.1, (fresh _ h.1).1, h.2.2.1, h.2.2.2⟩)
  exact ⟨h1, h2, he.1, fun p hp => h3 p hp (by have := hp.1; omega) (by have := hp.1; omega)⟩

end Verif
