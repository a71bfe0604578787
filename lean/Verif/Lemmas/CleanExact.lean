import Verif.Lemmas.CleanSpec
/-
The cleanup as a sum: what arrives at each target and what is left to be shared, when no target has left
itself.
-/
namespace Verif
open VMap

open Classical in
/-- the pending balances that go to `j`, over a list of validators as the node reports them -/
noncomputable def movedTo (cs : List (Nat × Nat)) (s : State) (l : List BVal) (j : Nat) : Int :=
  (l.map fun u => if u.status.isActive = false ∧ LastTarget cs u.index j then pendAt s u.index else 0).sum

/-- nowhere to go: no target, or a banned one -/
def Stranded (cs : List (Nat × Nat)) (s : State) (i : Nat) : Prop :=
  (∀ j, ¬ LastTarget cs i j) ∨ ∃ j w, LastTarget cs i j ∧ VMap.get s.vals j = some w ∧ w.status = .banned

open Classical in
/-- the pending balances that are to be shared, over a list of validators as the node reports them -/
noncomputable def leftOver (cs : List (Nat × Nat)) (s : State) (l : List BVal) : Int :=
  (l.map fun u => if u.status.isActive = false ∧ Stranded cs s u.index then pendAt s u.index else 0).sum

/-- no validator of the list that left is the target of another one -/
def NoLeftTarget (cs : List (Nat × Nat)) (l : List BVal) : Prop :=
  ∀ u ∈ l, ∀ u' ∈ l, u.status.isActive = false → u'.status.isActive = false → ¬ LastTarget cs u.index u'.index

theorem sum_map_congr {α} {l : List α} {f g : α → Int} (h : ∀ a ∈ l, f a = g a) :
    (l.map f).sum = (l.map g).sum := by rw [List.map_congr_left h]

theorem movedTo_congr {cs s s1 l j} (h : ∀ u ∈ l, u.status.isActive = false → pendAt s1 u.index = pendAt s u.index) :
    movedTo cs s1 l j = movedTo cs s l j := by
  unfold movedTo
  refine sum_map_congr fun u hu => ?_
  by_cases hc : u.status.isActive = false ∧ LastTarget cs u.index j
  · rw [if_pos hc, if_pos hc, h u hu hc.1]
  · rw [if_neg hc, if_neg hc]

theorem leftOver_congr {cs s s1 l} (h : ∀ u ∈ l, u.status.isActive = false → pendAt s1 u.index = pendAt s u.index)
    (hb : ∀ u ∈ l, u.status.isActive = false → (Stranded cs s1 u.index ↔ Stranded cs s u.index)) :
    leftOver cs s1 l = leftOver cs s l := by
  unfold leftOver
  refine sum_map_congr fun u hu => ?_
  by_cases ha : u.status.isActive = false
  · by_cases hc : Stranded cs s u.index
    · rw [if_pos ⟨ha, (hb u hu ha).mpr hc⟩, if_pos ⟨ha, hc⟩, h u hu ha]
    · rw [if_neg (fun x => hc ((hb u hu ha).mp x.2)), if_neg (fun x => hc x.2)]
  · rw [if_neg (fun x => ha x.1), if_neg (fun x => ha x.1)]

theorem stranded_congr {cs s s1 i} (h : ∀ j, LastTarget cs i j →
    ((∃ w, VMap.get s1.vals j = some w ∧ w.status = .banned) ↔ ∃ w, VMap.get s.vals j = some w ∧ w.status = .banned)) :
    Stranded cs s1 i ↔ Stranded cs s i := by
  unfold Stranded
  refine or_congr Iff.rfl ⟨?_, ?_⟩
  · rintro ⟨j, w, a, b, c⟩
    obtain ⟨w', b', c'⟩ := (h j a).mp ⟨w, b, c⟩
    exact ⟨j, w', a, b', c'⟩
  · rintro ⟨j, w, a, b, c⟩
    obtain ⟨w', b', c'⟩ := (h j a).mpr ⟨w, b, c⟩
    exact ⟨j, w', a, b', c'⟩

/-- what the first validator of the list adds -/
theorem movedTo_cons {cs s u l j} [Decidable (u.status.isActive = false ∧ LastTarget cs u.index j)] :
    movedTo cs s (u :: l) j =
      (if u.status.isActive = false ∧ LastTarget cs u.index j then pendAt s u.index else 0) + movedTo cs s l j := by
  unfold movedTo
  rw [List.map_cons, List.sum_cons]
  congr 1
  split <;> rfl

theorem leftOver_cons {cs s u l} [Decidable (u.status.isActive = false ∧ Stranded cs s u.index)] :
    leftOver cs s (u :: l) =
      (if u.status.isActive = false ∧ Stranded cs s u.index then pendAt s u.index else 0) + leftOver cs s l := by
  unfold leftOver
  rw [List.map_cons, List.sum_cons]
  congr 1
  split <;> rfl

/-- The outcome of the cleanup as a sum. -/
structure CleanSum (cs : List (Nat × Nat)) (s : State) (l : List BVal) (s' : State) (t : Int) : Prop where
  /-- who left with a pending balance has none and is no member -/
  left : ∀ u ∈ l, u.status.isActive = false → ∀ v, VMap.get s.vals u.index = some v → v.pend ≠ 0 →
    VMap.get s'.vals u.index = some { v with status := afterLeaving v.status, pend := 0 }
  /-- who left with nothing stays as it is -/
  nothing : ∀ u ∈ l, u.status.isActive = false → ∀ v, VMap.get s.vals u.index = some v → v.pend = 0 →
    VMap.get s'.vals u.index = some v
  /-- everybody else gets what is consolidated into them, if not banned -/
  stays : ∀ j w, VMap.get s.vals j = some w → (∀ u ∈ l, u.index = j → u.status.isActive = true) →
    VMap.get s'.vals j = some { w with pend := w.pend + if w.status = .banned then 0 else movedTo cs s l j }
  /-- an unknown target becomes known, with what is consolidated into it -/
  known : ∀ j, VMap.get s.vals j = none → (∀ u ∈ l, u.index ≠ j) →
    (∃ u ∈ l, u.status.isActive = false ∧ LastTarget cs u.index j ∧ pendAt s u.index ≠ 0) →
    ∃ w, VMap.get s'.vals j = some w ∧ w.status = .notSubscribed ∧ w.acc = 0 ∧ w.index = j ∧
      w.pend = movedTo cs s l j
  /-- nobody else becomes known -/
  unknown : ∀ j, VMap.get s.vals j = none → (∀ u ∈ l, u.index ≠ j) →
    (∀ u ∈ l, u.status.isActive = false → LastTarget cs u.index j → pendAt s u.index = 0) →
    VMap.get s'.vals j = none
  total : t = leftOver cs s l

theorem LastTarget.uniq {cs : List (Nat × Nat)} {i j k : Nat} (h : LastTarget cs i j) (h' : LastTarget cs i k) :
    j = k := h.unique h'

theorem pendAt_of {s : State} {i v} (h : VMap.get s.vals i = some v) : pendAt s i = v.pend := by
  unfold pendAt; rw [h]; rfl

theorem CleanEffects.exact {E slot cs s l s' t} (h : CleanEffects E slot cs s l s' t)
    (hnd : (l.map (·.index)).Nodup) (hno : NoLeftTarget cs l) : CleanSum cs s l s' t := by
  classical
  induction h with
  | nil s =>
    refine ⟨by simp, by simp, ?_, ?_, fun j hj _ _ => hj, by simp [leftOver]⟩
    · intro j w hw _
      rw [hw]
      simp [movedTo]
    · rintro j _ _ ⟨u, hu, _⟩
      simp at hu
  | @keep s u l s' t hk hcl ih =>
    obtain ⟨hnd1, hnd'⟩ := List.nodup_cons.mp hnd
    have hne : ∀ y ∈ l, y.index ≠ u.index := fun y hy e => hnd1 (List.mem_map.mpr ⟨y, hy, e⟩)
    have hno' : NoLeftTarget cs l := fun a ha b hb => hno a (by simp [ha]) b (by simp [hb])
    have I := ih hnd' hno'
    -- if `u` left then nothing is pending and it adds nothing
    have hz : u.status.isActive = false → pendAt s u.index = 0 := by
      intro ha
      rcases hk with hk | ⟨v, hv, hv0⟩
      · rw [ha] at hk; simp at hk
      · rw [pendAt_of hv, hv0]
    have hm : ∀ j, movedTo cs s (u :: l) j = movedTo cs s l j := by
      intro j
      rw [movedTo_cons]
      split
      · rename_i hc; rw [hz hc.1]; omega
      · omega
    have ht : leftOver cs s (u :: l) = leftOver cs s l := by
      rw [leftOver_cons]
      split
      · rename_i hc; rw [hz hc.1]; omega
      · omega
    refine ⟨?_, ?_, ?_, ?_, ?_, by rw [ht]; exact I.total⟩
    · intro x hx ha v hv hp
      rcases List.mem_cons.mp hx with rfl | hx
      · exact absurd (by rw [← pendAt_of hv]; exact hz ha) hp
      · exact I.left x hx ha v hv hp
    · intro x hx ha v hv hp
      rcases List.mem_cons.mp hx with rfl | hx
      · have hno2 : ∀ y ∈ l, y.status.isActive = false → ¬ LastTarget cs y.index x.index :=
          fun y hy hya => hno y (by simp [hy]) x (by simp) hya ha
        have := I.stays x.index v hv fun y hy e => absurd e (hne y hy)
        rw [this]
        have h0 : movedTo cs s l x.index = 0 := by
          unfold movedTo
          apply List.sum_eq_zero
          intro z hz'
          obtain ⟨y, hy, rfl⟩ := List.mem_map.mp hz'
          rw [if_neg]
          rintro ⟨a, b⟩
          exact hno2 y hy a b
        rw [h0]
        simp
      · exact I.nothing x hx ha v hv hp
    · intro j w hw ha
      rw [hm]
      exact I.stays j w hw fun y hy => ha y (by simp [hy])
    · rintro j hj hl ⟨x, hx, h1, h2, h3⟩
      rw [hm]
      refine I.known j hj (fun y hy => hl y (by simp [hy])) ?_
      rcases List.mem_cons.mp hx with rfl | hx
      · exact absurd (hz h1) h3
      · exact ⟨x, hx, h1, h2, h3⟩
    · intro j hj hl hall
      exact I.unknown j hj (fun y hy => hl y (by simp [hy])) fun y hy => hall y (by simp [hy])
  | @leaves s u v l s' t hia hv hv0 hcase hcl ih =>
    obtain ⟨hnd1, hnd'⟩ := List.nodup_cons.mp hnd
    have hne : ∀ y ∈ l, y.index ≠ u.index := fun y hy e => hnd1 (List.mem_map.mpr ⟨y, hy, e⟩)
    have hno' : NoLeftTarget cs l := fun a ha b hb => hno a (by simp [ha]) b (by simp [hb])
    have I := ih hnd' hno'
    have hg : ∀ k, k ≠ u.index → VMap.get (gone s.vals u.index) k = VMap.get s.vals k := by
      intro k hk; rw [get_gone, if_neg hk]
    have hpa : ∀ y ∈ l, y.status.isActive = false →
        pendAt { s with vals := gone s.vals u.index } y.index = pendAt s y.index := by
      intro y hy _
      unfold pendAt
      dsimp only
      rw [hg _ (hne y hy)]
    have hst : ∀ y ∈ l, y.status.isActive = false →
        (Stranded cs { s with vals := gone s.vals u.index } y.index ↔ Stranded cs s y.index) := by
      intro y hy hya
      refine stranded_congr fun j hj => ?_
      have : j ≠ u.index := by
        rintro rfl
        exact hno y (by simp [hy]) u (by simp) hya hia hj
      dsimp only
      rw [hg _ this]
    have hm0 : ∀ j, movedTo cs { s with vals := gone s.vals u.index } l j = movedTo cs s l j :=
      fun j => movedTo_congr hpa
    -- a banned target keeps what it has; others are no target of `u`
    have hm : ∀ j, (∀ w, VMap.get s.vals j = some w → w.status ≠ .banned) →
        movedTo cs s (u :: l) j = movedTo cs s l j := by
      intro j hb
      rw [movedTo_cons, if_neg, zero_add]
      rintro ⟨_, hlt⟩
      rcases hcase with hc | ⟨k, w, hc1, hc2, hc3⟩
      · exact hc _ hlt
      · rw [hc1.uniq hlt] at hc2
        exact hb w hc2 hc3
    refine ⟨?_, ?_, ?_, ?_, ?_, ?_⟩
    · intro x hx ha w hw hp
      rcases List.mem_cons.mp hx with rfl | hx
      · rw [hv, Option.some.injEq] at hw
        subst hw
        have h1 : VMap.get (gone s.vals x.index) x.index =
            some { v with status := afterLeaving v.status, pend := 0 } := by
          rw [get_gone, if_pos rfl, hv]; rfl
        have := I.stays x.index _ h1 fun y hy e => absurd e (hne y hy)
        rw [this]
        have h0 : movedTo cs { s with vals := gone s.vals x.index } l x.index = 0 := by
          unfold movedTo
          apply List.sum_eq_zero
          intro z hz'
          obtain ⟨y, hy, rfl⟩ := List.mem_map.mp hz'
          rw [if_neg]
          rintro ⟨a, b⟩
          exact hno y (by simp [hy]) x (by simp) a ha b
        rw [h0]
        simp
      · exact I.left x hx ha w (by dsimp only; rw [hg _ (hne x hx)]; exact hw) hp
    · intro x hx ha w hw hp
      rcases List.mem_cons.mp hx with rfl | hx
      · rw [hv, Option.some.injEq] at hw
        subst hw
        exact absurd hp hv0
      · exact I.nothing x hx ha w (by dsimp only; rw [hg _ (hne x hx)]; exact hw) hp
    · intro j w hw ha
      have hju : j ≠ u.index := by
        rintro rfl
        have := ha u (by simp) rfl
        rw [hia] at this; simp at this
      have := I.stays j w (by dsimp only; rw [hg _ hju]; exact hw) fun y hy => ha y (by simp [hy])
      rw [this, hm0]
      by_cases hb : w.status = .banned
      · rw [if_pos hb, if_pos hb]
      · rw [if_neg hb, if_neg hb, hm j fun w' hw' => by rw [hw, Option.some.injEq] at hw'; exact hw' ▸ hb]
    · rintro j hj hl ⟨x, hx, h1, h2, h3⟩
      have hju : j ≠ u.index := by
        rintro rfl
        rw [hv] at hj; simp at hj
      rw [hm j fun w hw => by rw [hj] at hw; simp at hw, ← hm0]
      refine I.known j (by dsimp only; rw [hg _ hju]; exact hj) (fun y hy => hl y (by simp [hy])) ?_
      rcases List.mem_cons.mp hx with rfl | hx
      · rcases hcase with hc | ⟨k, w, hc1, hc2, hc3⟩
        · exact absurd h2 (hc _)
        · rw [hc1.uniq h2, hj] at hc2
          simp at hc2
      · exact ⟨x, hx, h1, h2, by rw [hpa x hx h1]; exact h3⟩
    · intro j hj hl hall
      have hju : j ≠ u.index := by
        rintro rfl
        rw [hv] at hj; simp at hj
      exact I.unknown j (by dsimp only; rw [hg _ hju]; exact hj) (fun y hy => hl y (by simp [hy]))
        fun y hy ya yt => by rw [hpa y hy ya]; exact hall y (by simp [hy]) ya yt
    · rw [leftOver_cons, if_pos ⟨hia, hcase⟩, pendAt_of hv, I.total, leftOver_congr hpa hst]
  | @moves s u v j w l s' t hia hv hv0 hlt hju hw hwb hcl ih =>
    obtain ⟨hnd1, hnd'⟩ := List.nodup_cons.mp hnd
    have hne : ∀ y ∈ l, y.index ≠ u.index := fun y hy e => hnd1 (List.mem_map.mpr ⟨y, hy, e⟩)
    have hno' : NoLeftTarget cs l := fun a ha b hb => hno a (by simp [ha]) b (by simp [hb])
    have I := ih hnd' hno'
    have hjl : ∀ y ∈ l, y.status.isActive = false → y.index ≠ j := by
      intro y hy hya e
      subst e
      exact hno u (by simp) y (by simp [hy]) hia hya hlt
    have hg : ∀ k, k ≠ u.index → k ≠ j → VMap.get (VMap.modify (gone s.vals u.index) j fun w =>
        { w with pend := w.pend + v.pend }) k = VMap.get s.vals k := by
      intro k hk hkj; rw [get_modify_ne _ _ hkj, get_gone, if_neg hk]
    have hgj : VMap.get (VMap.modify (gone s.vals u.index) j fun w =>
        { w with pend := w.pend + v.pend }) j = some { w with pend := w.pend + v.pend } := by
      rw [get_modify_self, get_gone, if_neg hju, hw]; rfl
    have hpa : ∀ y ∈ l, y.status.isActive = false →
        pendAt { s with vals := VMap.modify (gone s.vals u.index) j fun w =>
          { w with pend := w.pend + v.pend } } y.index = pendAt s y.index := by
      intro y hy hya
      unfold pendAt
      dsimp only
      rw [hg _ (hne y hy) (hjl y hy hya)]
    have hst : ∀ y ∈ l, y.status.isActive = false →
        (Stranded cs { s with vals := VMap.modify (gone s.vals u.index) j fun w =>
          { w with pend := w.pend + v.pend } } y.index ↔ Stranded cs s y.index) := by
      intro y hy hya
      refine stranded_congr fun k hk => ?_
      have hku : k ≠ u.index := by
        rintro rfl
        exact hno y (by simp [hy]) u (by simp) hya hia hk
      dsimp only
      by_cases hkj : k = j
      · subst hkj
        rw [hgj, hw]
        simp
      · rw [hg _ hku hkj]
    have hm0 := fun k => movedTo_congr (cs := cs) (j := k) hpa
    have hmj : movedTo cs s (u :: l) j = v.pend + movedTo cs s l j := by
      rw [movedTo_cons, if_pos ⟨hia, hlt⟩, pendAt_of hv]
    have hm : ∀ k, k ≠ j → movedTo cs s (u :: l) k = movedTo cs s l k := by
      intro k hk
      rw [movedTo_cons, if_neg, zero_add]
      rintro ⟨_, h⟩
      exact hk (h.uniq hlt)
    refine ⟨?_, ?_, ?_, ?_, ?_, ?_⟩
    · intro x hx ha y hy hp
      rcases List.mem_cons.mp hx with rfl | hx
      · rw [hv, Option.some.injEq] at hy
        subst hy
        have h1 : VMap.get (VMap.modify (gone s.vals x.index) j fun w =>
            { w with pend := w.pend + v.pend }) x.index =
            some { v with status := afterLeaving v.status, pend := 0 } := by
          rw [get_modify_ne _ _ (fun e => hju e.symm), get_gone, if_pos rfl, hv]; rfl
        have := I.stays x.index _ h1 fun y hy e => absurd e (hne y hy)
        rw [this, hm0]
        have h0 : movedTo cs s l x.index = 0 := by
          unfold movedTo
          apply List.sum_eq_zero
          intro z hz'
          obtain ⟨y, hy, rfl⟩ := List.mem_map.mp hz'
          rw [if_neg]
          rintro ⟨a, b⟩
          exact hno y (by simp [hy]) x (by simp) a ha b
        rw [h0]
        simp
      · exact I.left x hx ha y (by dsimp only; rw [hg _ (hne x hx) (hjl x hx ha)]; exact hy) hp
    · intro x hx ha y hy hp
      rcases List.mem_cons.mp hx with rfl | hx
      · rw [hv, Option.some.injEq] at hy
        subst hy
        exact absurd hp hv0
      · exact I.nothing x hx ha y (by dsimp only; rw [hg _ (hne x hx) (hjl x hx ha)]; exact hy) hp
    · intro k y hy ha
      have hku : k ≠ u.index := by
        rintro rfl
        have := ha u (by simp) rfl
        rw [hia] at this; simp at this
      by_cases hkj : k = j
      · subst hkj
        rw [hw, Option.some.injEq] at hy
        subst hy
        have := I.stays k _ hgj fun y hy => ha y (by simp [hy])
        rw [this, hm0, if_neg hwb, hmj, if_neg hwb]
        dsimp only
        rw [Int.add_assoc]
      · have := I.stays k y (by dsimp only; rw [hg _ hku hkj]; exact hy) fun y hy => ha y (by simp [hy])
        rw [this, hm0, hm k hkj]
    · rintro k hk hl ⟨x, hx, h1, h2, h3⟩
      have hku : k ≠ u.index := by rintro rfl; rw [hv] at hk; simp at hk
      have hkj : k ≠ j := by rintro rfl; rw [hw] at hk; simp at hk
      rw [hm k hkj, ← hm0]
      refine I.known k (by dsimp only; rw [hg _ hku hkj]; exact hk) (fun y hy => hl y (by simp [hy])) ?_
      rcases List.mem_cons.mp hx with rfl | hx
      · exact absurd (h2.uniq hlt) hkj
      · exact ⟨x, hx, h1, h2, by rw [hpa x hx h1]; exact h3⟩
    · intro k hk hl hall
      have hku : k ≠ u.index := by rintro rfl; rw [hv] at hk; simp at hk
      have hkj : k ≠ j := by rintro rfl; rw [hw] at hk; simp at hk
      exact I.unknown k (by dsimp only; rw [hg _ hku hkj]; exact hk) (fun y hy => hl y (by simp [hy]))
        fun y hy ya yt => by rw [hpa y hy ya]; exact hall y (by simp [hy]) ya yt
    · rw [leftOver_cons, if_neg, zero_add, I.total, leftOver_congr hpa hst]
      rintro ⟨_, hc | ⟨k, w', hc1, hc2, hc3⟩⟩
      · exact hc _ hlt
      · rw [hc1.uniq hlt, hw, Option.some.injEq] at hc2
        exact hwb (hc2 ▸ hc3)
  | @creates s u v j w l s' t n req r bv hia hv hv0 hlt hw _ _ _ _ hcl ih =>
    obtain ⟨hnd1, hnd'⟩ := List.nodup_cons.mp hnd
    have hne : ∀ y ∈ l, y.index ≠ u.index := fun y hy e => hnd1 (List.mem_map.mpr ⟨y, hy, e⟩)
    have hno' : NoLeftTarget cs l := fun a ha b hb => hno a (by simp [ha]) b (by simp [hb])
    have I := ih hnd' hno'
    have hju : j ≠ u.index := by rintro rfl; rw [hv] at hw; simp at hw
    have hjl : ∀ y ∈ l, y.status.isActive = false → y.index ≠ j := by
      intro y hy hya e
      subst e
      exact hno u (by simp) y (by simp [hy]) hia hya hlt
    obtain ⟨new, hnew⟩ : ∃ new : Validator, new =
      { status := .notSubscribed, acc := 0, pend := v.pend, coll := 0, waddr := w, index := j,
        key := b!"0x" ++ hexEncode bv.pubkey, subType := .manual } := ⟨_, rfl⟩
    rw [← hnew] at I hcl
    have hg : ∀ k, k ≠ u.index → k ≠ j → VMap.get (VMap.insert (gone s.vals u.index) j new) k =
        VMap.get s.vals k := by
      intro k hk hkj; rw [get_insert, if_neg hkj, get_gone, if_neg hk]
    have hgj : VMap.get (VMap.insert (gone s.vals u.index) j new) j = some new := by
      rw [get_insert, if_pos rfl]
    have hpa : ∀ y ∈ l, y.status.isActive = false →
        pendAt { s with tick := s.tick + 1, vals := VMap.insert (gone s.vals u.index) j new } y.index =
          pendAt s y.index := by
      intro y hy hya
      unfold pendAt
      dsimp only
      rw [hg _ (hne y hy) (hjl y hy hya)]
    have hst : ∀ y ∈ l, y.status.isActive = false →
        (Stranded cs { s with tick := s.tick + 1, vals := VMap.insert (gone s.vals u.index) j new } y.index ↔
          Stranded cs s y.index) := by
      intro y hy hya
      refine stranded_congr fun k hk => ?_
      have hku : k ≠ u.index := by
        rintro rfl
        exact hno y (by simp [hy]) u (by simp) hya hia hk
      dsimp only
      by_cases hkj : k = j
      · subst hkj
        rw [hgj, hw, hnew]
        simp
      · rw [hg _ hku hkj]
    have hm0 := fun k => movedTo_congr (cs := cs) (j := k) hpa
    have hmj : movedTo cs s (u :: l) j = v.pend + movedTo cs s l j := by
      rw [movedTo_cons, if_pos ⟨hia, hlt⟩, pendAt_of hv]
    have hm : ∀ k, k ≠ j → movedTo cs s (u :: l) k = movedTo cs s l k := by
      intro k hk
      rw [movedTo_cons, if_neg, zero_add]
      rintro ⟨_, h⟩
      exact hk (h.uniq hlt)
    refine ⟨?_, ?_, ?_, ?_, ?_, ?_⟩
    · intro x hx ha y hy hp
      rcases List.mem_cons.mp hx with rfl | hx
      · rw [hv, Option.some.injEq] at hy
        subst hy
        have h1 : VMap.get (VMap.insert (gone s.vals x.index) j new) x.index =
            some { v with status := afterLeaving v.status, pend := 0 } := by
          rw [get_insert, if_neg (fun e => hju e.symm), get_gone, if_pos rfl, hv]; rfl
        have := I.stays x.index _ h1 fun y hy e => absurd e (hne y hy)
        rw [this, hm0]
        have h0 : movedTo cs s l x.index = 0 := by
          unfold movedTo
          apply List.sum_eq_zero
          intro z hz'
          obtain ⟨y, hy, rfl⟩ := List.mem_map.mp hz'
          rw [if_neg]
          rintro ⟨a, b⟩
          exact hno y (by simp [hy]) x (by simp) a ha b
        rw [h0]
        simp
      · exact I.left x hx ha y (by dsimp only; rw [hg _ (hne x hx) (hjl x hx ha)]; exact hy) hp
    · intro x hx ha y hy hp
      rcases List.mem_cons.mp hx with rfl | hx
      · rw [hv, Option.some.injEq] at hy
        subst hy
        exact absurd hp hv0
      · exact I.nothing x hx ha y (by dsimp only; rw [hg _ (hne x hx) (hjl x hx ha)]; exact hy) hp
    · intro k y hy ha
      have hku : k ≠ u.index := by
        rintro rfl
        have := ha u (by simp) rfl
        rw [hia] at this; simp at this
      have hkj : k ≠ j := by rintro rfl; rw [hw] at hy; simp at hy
      have := I.stays k y (by dsimp only; rw [hg _ hku hkj]; exact hy) fun y hy => ha y (by simp [hy])
      rw [this, hm0, hm k hkj]
    · rintro k hk hl ⟨x, hx, h1, h2, h3⟩
      have hku : k ≠ u.index := by rintro rfl; rw [hv] at hk; simp at hk
      by_cases hkj : k = j
      · subst hkj
        have := I.stays k new hgj fun y hy e => absurd e (hl y (by simp [hy]))
        refine ⟨_, this, by rw [hnew], by rw [hnew], by rw [hnew], ?_⟩
        dsimp only
        rw [hm0, hmj, hnew]
        simp
      · rw [hm k hkj, ← hm0]
        refine I.known k (by dsimp only; rw [hg _ hku hkj]; exact hk) (fun y hy => hl y (by simp [hy])) ?_
        rcases List.mem_cons.mp hx with rfl | hx
        · exact absurd (h2.uniq hlt) hkj
        · exact ⟨x, hx, h1, h2, by rw [hpa x hx h1]; exact h3⟩
    · intro k hk hl hall
      have hku : k ≠ u.index := by rintro rfl; rw [hv] at hk; simp at hk
      have hkj : k ≠ j := by
        rintro rfl
        have := hall u (by simp) hia hlt
        rw [pendAt_of hv] at this
        exact hv0 this
      exact I.unknown k (by dsimp only; rw [hg _ hku hkj]; exact hk) (fun y hy => hl y (by simp [hy]))
        fun y hy ya yt => by rw [hpa y hy ya]; exact hall y (by simp [hy]) ya yt
    · rw [leftOver_cons, if_neg, zero_add, I.total, leftOver_congr hpa hst]
      rintro ⟨_, hc | ⟨k, w', hc1, hc2, hc3⟩⟩
      · exact hc _ hlt
      · rw [hc1.uniq hlt, hw] at hc2
        simp at hc2

end Verif
