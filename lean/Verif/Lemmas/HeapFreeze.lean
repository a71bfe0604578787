import Verif.Lemmas.HeapSlot
import Verif.Lemmas.GoMap
/-
The oracle with pointers does what the oracle with numbers does: checkpoints, start and loading.
-/
namespace Verif

/-! ### Leaves -/

theorem PLeaf.read_congr {h h' : Heap} {ls : List PLeaf} (hc : ∀ l ∈ ls, h'.cell l.bal = h.cell l.bal) :
    ls.map (·.read h') = ls.map (·.read h) := by
  apply List.map_congr_left
  intro l hl
  simp only [PLeaf.read]
  rw [hc l hl]

theorem sim_addToLeaves {v : PVal} {ls : List PLeaf} {h : Heap} (hnd : (ls.map (·.bal)).Nodup)
    (hv : ∀ p ∈ v.ptrs, p ∉ ls.map (·.bal)) :
    SimM (fun x y => ls.map (·.read x.1) = y.1 ∧ x.2 = y.2 ∧ x.1.next = h.next ∧
        ∀ q, q ∉ ls.map (·.bal) → x.1.cell q = h.cell q)
      (addToLeavesP v ls h) (addToLeaves (v.read h) (ls.map (·.read h))) := by
  induction ls generalizing h with
  | nil => exact SimM.ok ⟨rfl, rfl, rfl, fun _ _ => rfl⟩
  | cons l ls ih =>
    simp only [List.map_cons, List.nodup_cons, List.mem_cons, not_or] at hnd hv
    simp only [addToLeavesP, List.map_cons, addToLeaves]
    refine SimM.eq_bind fun e => ?_
    set h1 := if e = true then h.add l.bal v.acc else h with hh1
    have hsame : ∀ q, q ≠ l.bal → h1.cell q = h.cell q := by
      intro q hq
      simp only [hh1]
      split
      · simp [Heap.add, Heap.write, Function.update_of_ne hq]
      · rfl
    have hbal : h1.cell l.bal = if e = true then h.cell l.bal + h.cell v.acc else h.cell l.bal := by
      simp only [hh1]
      split
      · simp [Heap.add, Heap.write]
      · rfl
    have hnext : h1.next = h.next := by
      simp only [hh1]
      split <;> rfl
    have e1 : ls.map (·.read h) = ls.map (·.read h1) := (PLeaf.read_congr fun l' hl' =>
      hsame _ fun he => hnd.1 (he ▸ List.mem_map.mpr ⟨l', hl', rfl⟩)).symm
    have e2 : v.read h = v.read h1 := (PVal.read_congr fun p hp => hsame p (hv p hp).1).symm
    rw [show (addToLeaves (v.read h) (ls.map (·.read h))) = addToLeaves (v.read h1) (ls.map (·.read h1)) by
      rw [e1, e2]]
    refine (ih hnd.2 fun p hp => (hv p hp).2).bind ?_
    rintro ⟨h', found⟩ ⟨ls', found'⟩ ⟨r1, r2, r3, r4⟩
    dsimp only at r1 r2 r3 r4 ⊢
    refine SimM.ok ⟨?_, by rw [r2], r3.trans hnext, fun q hq => ?_⟩
    · dsimp only
      rw [← r1]
      congr 1
      have : h'.cell l.bal = h1.cell l.bal := r4 _ hnd.1
      simp only [PLeaf.read, this, hbal, PVal.read]
      split <;> rfl
    · simp only [List.mem_cons, not_or] at hq
      exact (r4 q hq.2).trans (hsame q hq.1)

theorem sim_aggLoop {n0 : Nat} {vs : List PVal} {ls : List PLeaf} {h : Heap} (hn : n0 ≤ h.next)
    (hvs : ∀ v ∈ vs, ∀ p ∈ v.ptrs, p < n0) (hnd : (ls.map (·.bal)).Nodup)
    (hls : ∀ l ∈ ls, n0 ≤ l.bal ∧ l.bal < h.next) :
    SimM (fun x y => x.2.map (·.read x.1) = y ∧ h.next ≤ x.1.next ∧ (∀ q, q < n0 → x.1.cell q = h.cell q) ∧
        ∀ l ∈ x.2, n0 ≤ l.bal ∧ l.bal < x.1.next)
      (aggLoopP vs ls h) (aggLoop (vs.map (·.read h)) (ls.map (·.read h))) := by
  induction vs generalizing ls h with
  | nil => exact SimM.ok ⟨rfl, Nat.le_refl _, fun _ _ => rfl, hls⟩
  | cons v vs ih =>
    have hlt : ∀ q, q < n0 → q ∉ ls.map (·.bal) := fun q hq hm => by
      obtain ⟨l, hl, rfl⟩ := List.mem_map.mp hm
      have := (hls l hl).1
      omega
    simp only [List.map_cons, aggLoopP, aggLoop]
    refine (sim_addToLeaves hnd fun p hp => hlt p (hvs v (by simp) p hp)).bind ?_
    rintro ⟨h', found⟩ ⟨ls', found'⟩ ⟨r1, r2, r3, r4⟩
    dsimp only at r1 r2 r3 r4 ⊢
    subst r1
    subst r2
    have hvs' : ∀ v ∈ vs, ∀ p ∈ v.ptrs, p < n0 := fun w hw => hvs w (List.mem_cons_of_mem _ hw)
    have hread : ∀ h2 : Heap, (∀ q, q < n0 → h2.cell q = h.cell q) →
        vs.map (·.read h) = vs.map (·.read h2) := fun h2 hh =>
      (List.map_congr_left fun w hw => PVal.read_congr fun p hp => hh p (hvs' w hw p hp)).symm
    cases found with
    | true =>
      simp only [if_true]
      rw [hread h' fun q hq => r4 q (hlt q hq)]
      refine (ih (by omega) hvs' hnd fun l hl => by rw [r3]; exact hls l hl).mono ?_
      rintro x y ⟨q1, q2, q3, q4⟩
      exact ⟨q1, by omega, fun q hq => (q3 q hq).trans (r4 q (hlt q hq)), q4⟩
    | false =>
      simp only [Bool.false_eq_true, if_false]
      set h2 := h'.new (h'.cell v.acc) with hh2
      have hacc : h'.cell v.acc = h.cell v.acc :=
        r4 _ (hlt _ (hvs v (by simp) _ (by simp [PVal.ptrs])))
      have hle : ∀ q, q < n0 → h2.cell q = h.cell q := fun q hq =>
        (Heap.new_cell_ne _ _ (by omega)).trans (r4 q (hlt q hq))
      rw [hread h2 hle]
      have e1 : ls.map (fun l => l.read h') ++ [(⟨lower (v.read h).waddr, (v.read h).acc⟩ : Leaf)] =
          (ls ++ [(⟨lower v.waddr, h'.next⟩ : PLeaf)]).map (fun l => l.read h2) := by
        rw [List.map_append, List.map_singleton]
        congr 1
        · exact (PLeaf.read_congr fun l hl => Heap.new_cell_ne _ _ (by
            have := (hls l hl).2; omega)).symm
        · simp [PLeaf.read, PVal.read, hh2, hacc]
      rw [e1]
      have hn2 : h2.next = h.next + 1 := by simp [hh2, r3]
      refine (ih (ls := ls ++ [⟨lower v.waddr, h'.next⟩]) (h := h2) (by omega) hvs' ?_ ?_).mono ?_
      · rw [List.map_append, List.map_singleton, List.nodup_append]
        refine ⟨hnd, by simp, ?_⟩
        intro a ha b hb
        simp only [List.mem_singleton] at hb
        obtain ⟨l, hl, rfl⟩ := List.mem_map.mp ha
        have := (hls l hl).2
        omega
      · intro l hl
        rcases List.mem_append.mp hl with hl | hl
        · have := hls l hl; omega
        · simp only [List.mem_singleton] at hl
          subst hl
          show n0 ≤ h'.next ∧ h'.next < h2.next
          omega
      · rintro x y ⟨q1, q2, q3, q4⟩
        exact ⟨q1, by omega, fun q hq => (q3 q hq).trans (hle q hq), q4⟩

theorem read_insertLeaf (h : Heap) (l : PLeaf) (ls : List PLeaf) :
    (insertLeafP l ls).map (·.read h) = insertLeaf (l.read h) (ls.map (·.read h)) := by
  induction ls with
  | nil => rfl
  | cons x ls ih =>
    simp only [insertLeafP, List.map_cons, insertLeaf]
    show _ = if x.waddr < l.waddr then _ else _
    split
    · rw [List.map_cons, ih]
    · rfl

theorem mem_insertLeafP {l x : PLeaf} {ls : List PLeaf} (h : x ∈ insertLeafP l ls) : x = l ∨ x ∈ ls := by
  induction ls with
  | nil => simpa [insertLeafP] using h
  | cons y ls ih =>
    simp only [insertLeafP] at h
    split at h
    · rcases List.mem_cons.mp h with h | h
      · exact Or.inr (by simp [h])
      · rcases ih h with h | h
        · exact Or.inl h
        · exact Or.inr (List.mem_cons_of_mem _ h)
    · simpa using h

theorem read_orderLeaves (h : Heap) (ls : List PLeaf) :
    (orderLeavesP ls).map (·.read h) = orderLeaves (ls.map (·.read h)) := by
  induction ls with
  | nil => rfl
  | cons l ls ih =>
    show (insertLeafP l (orderLeavesP ls)).map _ = insertLeaf (l.read h) (orderLeaves (ls.map (·.read h)))
    rw [read_insertLeaf, ih]

theorem mem_orderLeavesP {x : PLeaf} {ls : List PLeaf} (h : x ∈ orderLeavesP ls) : x ∈ ls := by
  induction ls with
  | nil => simp [orderLeavesP] at h
  | cons l ls ih =>
    rcases mem_insertLeafP (show x ∈ insertLeafP l (orderLeavesP ls) from h) with h | h
    · simp [h]
    · exact List.mem_cons_of_mem _ (ih h)

theorem sim_aggregate {E : Env} {m : Mem} (hs : Sep m) (t : Nat) :
    SimM (fun x y => x.2.map (·.read x.1) = y ∧ m.heap.Ext x.1 ∧
        ∀ l ∈ x.2, m.heap.next ≤ l.bal ∧ l.bal < x.1.next)
      (aggregateP E t m) (aggregate E t m.read) := by
  unfold aggregateP aggregate
  have e0 : (E.shuffle t m.read.vals).map (·.2) = ((E.shuffle t m.st.vals).map (·.2)).map (·.read m.heap) := by
    show (E.shuffle t (readVals m.heap m.st.vals)).map _ = _
    rw [readVals, shuffle_map, List.map_map, List.map_map]
    rfl
  rw [e0]
  refine (sim_aggLoop (n0 := m.heap.next) (ls := []) (Nat.le_refl _) ?_ (by simp) (by simp)).bind ?_
  · intro v hv p hp
    obtain ⟨⟨k, w⟩, hq, rfl⟩ := List.mem_map.mp hv
    exact hs.vals_bound (KMap.get_of_mem hs.keys (mem_of_shuffle hq)) p hp
  rintro ⟨h, ls⟩ ls' ⟨q1, q2, q3, q4⟩
  dsimp only at q1 q2 q3 q4 ⊢
  subst q1
  have e1 : ((E.shuffle (t + 1) m.read.vals).map fun p => p.2.acc) =
      (E.shuffle (t + 1) m.st.vals).map fun p => h.cell p.2.acc := by
    show (E.shuffle (t + 1) (readVals m.heap m.st.vals)).map _ = _
    rw [readVals, shuffle_map, List.map_map]
    apply List.map_congr_left
    rintro ⟨k, w⟩ hq
    have := hs.bound _ _ (cellOf_acc (KMap.get_of_mem hs.keys (mem_of_shuffle hq)))
    exact (q3 _ this).symm
  have e2 : ((ls.map (·.read h)).map (·.bal)) = ls.map fun l => h.cell l.bal := by
    rw [List.map_map]; rfl
  have hp : h.cell m.st.poolFees = m.heap.cell m.st.poolFees := q3 _ (hs.bound .pool _ rfl)
  rw [e1, e2, ← read_orderLeaves, hp]
  refine SimM.ite (fun _ => SimM.err _) fun _ => ?_
  have any_read : ∀ (ls : List PLeaf) (f : Str → Bool) (h : Heap),
      ((ls.map (·.read h)).any fun l => f l.waddr) = ls.any fun l => f l.waddr := by
    intro ls f h
    rw [List.any_map]; rfl
  rw [any_read (orderLeavesP ls) (fun a => lower a == lower m.read.poolAddr) h]
  refine SimM.ite (fun _ => SimM.err _) fun _ => ?_
  set h2 := h.new (m.heap.cell m.st.poolFees) with hh2
  have e3 : (⟨lower m.read.poolFeesAddr, m.read.poolFees⟩ :: (orderLeavesP ls).map (·.read h) : List Leaf) =
      ((⟨lower m.st.poolFeesAddr, h.next⟩ : PLeaf) :: orderLeavesP ls).map (·.read h2) := by
    rw [List.map_cons]
    congr 1
    · simp [PLeaf.read, hh2]; exact ⟨rfl, rfl⟩
    · refine (PLeaf.read_congr fun l hl => Heap.new_cell_ne _ _ ?_).symm
      have := (q4 l (mem_orderLeavesP hl)).2
      omega
  rw [e3, any_read _ (fun a => !isHexAddress a), any_read _ (fun a => lower a != a)]
  refine SimM.ite (fun _ => SimM.err _) fun _ => SimM.ite (fun _ => SimM.err _) fun _ => SimM.ok ⟨rfl, ?_, ?_⟩
  · refine ⟨by simp [hh2]; omega, fun p hp => (Heap.new_cell_ne _ _ (by omega)).trans (q3 p hp)⟩
  · intro l hl
    have hn2 : h2.next = h.next + 1 := rfl
    rcases List.mem_cons.mp hl with hl | hl
    · subst hl
      show m.heap.next ≤ h.next ∧ h.next < h2.next
      omega
    · have := q4 l (mem_orderLeavesP hl)
      show m.heap.next ≤ l.bal ∧ l.bal < h2.next
      omega

/-! ### Maps with text keys -/

theorem map_putStr {α β : Type} (f : α → β) (m : List (Str × α)) (k : Str) (v : α) :
    (putStr m k v).map (fun p => (p.1, f p.2)) = putStr (m.map fun p => (p.1, f p.2)) k (f v) :=
  (GoMap.put_map f m k v).symm

theorem mem_putStr_cases {α : Type} {m : List (Str × α)} {k : Str} {v : α} {p : Str × α}
    (h : p ∈ putStr m k v) : p.2 = v ∨ p ∈ m := by
  rcases GoMap.put_sub h with h | h
  · left; rw [h]
  · exact Or.inr h

theorem read_toRaw (h : Heap) (ls : List PLeaf) (a : List (Str × PLeaf)) :
    (ls.foldl (fun a l => putStr a l.waddr l) a).map (fun p => (p.1, p.2.read h)) =
      (ls.map (·.read h)).foldl (fun a l => putStr a l.waddr l) (a.map fun p => (p.1, p.2.read h)) := by
  induction ls generalizing a with
  | nil => rfl
  | cons l ls ih =>
    simp only [List.foldl_cons, List.map_cons]
    rw [ih, map_putStr]
    rfl

theorem mem_toRaw {ls : List PLeaf} {a : List (Str × PLeaf)} {p : Str × PLeaf}
    (h : p ∈ ls.foldl (fun a l => putStr a l.waddr l) a) : p.2 ∈ ls ∨ p ∈ a := by
  induction ls generalizing a with
  | nil => exact Or.inr h
  | cons l ls ih =>
    rw [List.foldl_cons] at h
    rcases ih h with h | h
    · exact Or.inl (List.mem_cons_of_mem _ h)
    · rcases mem_putStr_cases h with h | h
      · exact Or.inl (by simp [h])
      · exact Or.inr h

theorem sim_freezeLoop {h : Heap} {T : TreeData} {rs : List (Str × PLeaf)} {ps : List (Str × List Str)}
    {ls : List (Str × PLeaf)} :
    SimM (fun x y => x.1 = y.1 ∧ x.2.map (fun p => (p.1, p.2.read h)) = y.2 ∧
        ∀ p ∈ x.2, p ∈ ls ∨ ∃ q ∈ rs, q.2 = p.2)
      (freezeLoopP T.toLeaf T.hashes T.levels rs ps ls)
      (freezeLoop T (rs.map fun p => (p.1, p.2.read h)) ps (ls.map fun p => (p.1, p.2.read h))) := by
  induction rs generalizing ps ls with
  | nil => exact SimM.ok ⟨rfl, rfl, fun _ h => Or.inl h⟩
  | cons r rs ih =>
    obtain ⟨k, raw⟩ := r
    simp only [List.map_cons, freezeLoopP, freezeLoop]
    refine SimM.eq_bind fun e => ?_
    refine SimM.ite (fun _ => SimM.err _) fun _ => ?_
    cases getStr T.toLeaf k with
    | none => exact SimM.err _
    | some block =>
      refine SimM.eq_bind fun i => SimM.eq_bind fun sibs => ?_
      rw [← map_putStr (fun l : PLeaf => l.read h)]
      refine ih.mono ?_
      rintro x y ⟨h1, h2, h3⟩
      refine ⟨h1, h2, fun p hp => ?_⟩
      rcases h3 p hp with h | ⟨q, hq, e⟩
      · rcases mem_putStr_cases h with h | h
        · exact Or.inr ⟨(k, raw), by simp, h.symm⟩
        · exact Or.inl h
      · exact Or.inr ⟨q, List.mem_cons_of_mem _ hq, e⟩

theorem read_putFrozen (h : Heap) (l : List (Nat × PFrozen)) (k : Nat) (f : PFrozen) :
    (putFrozenP l k f).map (fun p => (p.1, p.2.read h)) =
      putFrozen (l.map fun p => (p.1, p.2.read h)) k (f.read h) :=
  (GoMap.put_map (fun x : PFrozen => x.read h) l k f).symm

theorem mem_putFrozenP {l : List (Nat × PFrozen)} {k : Nat} {f : PFrozen} {q : Nat × PFrozen}
    (h : q ∈ putFrozenP l k f) : q.2 = f ∨ q ∈ l := by
  rcases GoMap.put_sub h with h | h
  · left; rw [h]
  · exact Or.inr h


/-- `freeze` without the intermediate record. -/
theorem freeze_eq (H : List Nat → List Nat) (E : Env) (s : State) :
    freeze H E s = (do
      let ls ← aggregate E s.tick s
      let hashes := ls.map fun l => H (leafPreimage l)
      let toLeaf := ls.foldl (fun m l => putStr m l.waddr (H (leafPreimage l))) []
      let toRaw := ls.foldl (fun m l => putStr m l.waddr l) []
      if hashes.length < 2 then .ok ({ s with tick := s.tick + 2 }, false)
      else do
        let levels := treeLevels H (treeDepth hashes.length) hashes
        let root ← treeRoot H levels
        let (proofs, leafs) ← freezeLoop ⟨toLeaf, toRaw, hashes, levels, root⟩ toRaw [] []
        let f : Frozen := ⟨s.latestSlot, b!"0x" ++ hexEncode root, s.vals, leafs, proofs⟩
        .ok ({ s with committed := putFrozen s.committed s.latestSlot f, tick := s.tick + 2 }, true)) := by
  unfold freeze generateTree
  cases aggregate E s.tick s with
  | error e => rfl
  | ok ls =>
    simp only [bind, Except.bind]
    by_cases hl : (ls.map fun l => H (leafPreimage l)).length < 2
    · rw [if_pos hl, if_pos hl]
    · rw [if_neg hl, if_neg hl]
      cases treeRoot H (treeLevels H (treeDepth (ls.map fun l => H (leafPreimage l)).length)
        (ls.map fun l => H (leafPreimage l))) <;> rfl

theorem sim_freeze {H : List Nat → List Nat} {E : Env} {m : Mem} (hs : Sep m) :
    SimM (HRelB m) (freezeP H E m) (freeze H E m.read) := by
  rw [freeze_eq]
  unfold freezeP
  have a1 := allocs_val.all.ext (readVals m.heap m.st.vals) m.heap
  have a2 := allocs_val.all.read (readVals m.heap m.st.vals) m.heap
  have a3 := allocs_val.all.fresh (readVals m.heap m.st.vals) m.heap
  generalize allocAll newVal (readVals m.heap m.st.vals) m.heap = A at a1 a2 a3 ⊢
  obtain ⟨h0, copy⟩ := A
  dsimp only at a1 a2 a3 ⊢
  have r0 := rel_ext hs a1
  have hagg := sim_aggregate (E := E) r0.sep m.st.tick
  rw [r0.read] at hagg
  refine hagg.bind ?_
  rintro ⟨h, ls⟩ ls' ⟨q1, q2, q3⟩
  dsimp only at q1 q2 q3 ⊢
  subst q1
  have e1 : (ls.map (·.read h)).map (fun l => H (leafPreimage l)) = ls.map fun l => H (leafPreimage (l.read h)) := by
    rw [List.map_map]; rfl
  have e2 : (ls.map (·.read h)).foldl (fun m l => putStr m l.waddr (H (leafPreimage l))) [] =
      ls.foldl (fun a l => putStr a l.waddr (H (leafPreimage (l.read h)))) [] := by
    rw [List.foldl_map]; rfl
  have e3 := (read_toRaw h ls []).symm
  rw [e1, e2]
  have he : m.heap.Ext h := a1.trans q2
  have r1 := rel_ext hs he
  have r2 := (rel_tick r1.sep (m.st.tick + 2)).after r1.frame
  rw [r1.read] at r2
  set m1 : Mem := ⟨h, { m.st with tick := m.st.tick + 2 }⟩ with hm1
  have r2 : HRel m m1 { m.read with tick := m.st.tick + 2 } := r2
  refine SimM.ite (fun _ => SimM.ok ⟨r2, rfl⟩) fun _ => ?_
  refine SimM.eq_bind fun root => ?_
  rw [show (ls.map (·.read h)).foldl (fun m l => putStr m l.waddr l) [] = _ from e3]
  refine (sim_freezeLoop (h := h) (T := ⟨_, _, _, _, root⟩) (ls := [])).bind ?_
  rintro ⟨proofs, leafs⟩ ⟨proofs', leafs'⟩ ⟨p1, p2, p3⟩
  dsimp only at p1 p2 p3 ⊢
  subst p1
  have hu : ∀ p, m.heap.next ≤ p → p < h.next → m1.Unowned p := fun p hp hp' =>
    ⟨hp', fun a ha => by
      have : m.cellOf a = some p := by cases a <;> exact ha
      have := hs.bound a p this
      omega⟩
  set f : PFrozen := ⟨m.st.latestSlot, b!"0x" ++ hexEncode root, copy, leafs, proofs⟩ with hf
  have hfp : ∀ p ∈ f.ptrs, m1.Unowned p := by
    intro p hp
    rcases List.mem_append.mp hp with hp | hp
    · have := a3 p hp
      exact hu p this.1 (Nat.lt_of_lt_of_le this.2 q2.1)
    · obtain ⟨l, hl, rfl⟩ := List.mem_map.mp hp
      rcases p3 l hl with h' | ⟨q, hq, e⟩
      · cases h'
      · rcases mem_toRaw hq with h' | h'
        · rw [e] at h'
          have := q3 _ h'
          exact hu _ (a1.1.trans this.1) this.2
        · cases h'
  have r3 := rel_st r2.sep (st := { m1.st with
    logs := { m1.st.logs with committed := putFrozenP m1.st.logs.committed m.st.latestSlot f } }) rfl rfl (by
      intro p hp
      have hl := r2.sep.logs p
      rw [mem_ptrs] at hp hl
      rcases hp with ⟨q, hq, hp⟩ | hp
      · rcases mem_putFrozenP hq with e | hq
        · rw [e] at hp; exact hfp p hp
        · exact hl (Or.inl ⟨q, hq, hp⟩)
      · exact hl (Or.inr hp))
  refine SimM.ok ⟨⟨?_, r3.sep, r2.frame.trans r3.frame⟩, rfl⟩
  have e4 : f.read h = ⟨m.read.latestSlot, b!"0x" ++ hexEncode root, m.read.vals, leafs', proofs⟩ := by
    have : readVals h copy = m.read.vals := (allocs_val.all.congr copy h0 h fun p hp =>
      q2.2 p (a3 p hp).2).trans a2
    simp only [PFrozen.read, hf, this, p2]
    rfl
  show Mem.read ⟨h, { m1.st with
    logs := { m1.st.logs with committed := putFrozenP m1.st.logs.committed m.st.latestSlot f } }⟩ = _
  have e5 : ({ m1.read with
      committed := putFrozen m1.read.committed m.st.latestSlot (f.read h) } : State) =
      Mem.read ⟨h, { m1.st with
        logs := { m1.st.logs with committed := putFrozenP m1.st.logs.committed m.st.latestSlot f } }⟩ := by
    simp only [Mem.read, hm1, read_putFrozen]
  rw [← e5, e4, r2.read]
  rfl

end Verif
