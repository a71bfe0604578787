import Verif.Lemmas.HeapFreeze
/-
The oracle with pointers does what the oracle with numbers does: the start and loading a file.
-/
namespace Verif

theorem keys_allocVals (l : List (Nat × Validator)) (h : Heap) :
    (allocAll newVal l h).2.map (·.1) = l.map (·.1) := by
  induction l generalizing h with
  | nil => rfl
  | cons p l ih => simp only [allocAll, List.map_cons, ih]; rfl

/-- Every number of every validator read from a file is in a cell of its own. -/
theorem allocVals_nodup (l : List (Nat × Validator)) (h : Heap) :
    ((allocAll newVal l h).2.flatMap fun p => p.2.ptrs).Nodup := by
  induction l generalizing h with
  | nil => exact List.nodup_nil
  | cons p l ih =>
    simp only [allocAll, List.flatMap_cons]
    refine List.nodup_append.mpr ⟨by simp [newVal, PVal.ptrs]; omega, ih _, ?_⟩
    intro a ha b hb he
    have h1 := allocs_val.fresh p h a ha
    have h2 := allocs_val.all.fresh l _ b hb
    omega

theorem ptrs_unique {vs : List (Nat × PVal)} (hn : (vs.flatMap fun p => p.2.ptrs).Nodup) {p q : Nat × PVal}
    (hp : p ∈ vs) (hq : q ∈ vs) {c : Ptr} (hcp : c ∈ p.2.ptrs) (hcq : c ∈ q.2.ptrs) : p = q := by
  induction vs with
  | nil => cases hp
  | cons r vs ih =>
    rw [List.flatMap_cons, List.nodup_append] at hn
    obtain ⟨_, h2, h3⟩ := hn
    rcases List.mem_cons.mp hp with ep | hp' <;> rcases List.mem_cons.mp hq with eq | hq'
    · rw [ep, eq]
    · subst ep
      exact absurd rfl (h3 c hcp c (List.mem_flatMap.mpr ⟨q, hq', hcq⟩))
    · subst eq
      exact absurd rfl (h3 c hcq c (List.mem_flatMap.mpr ⟨p, hp', hcp⟩))
    · exact ih h2 hp' hq'

theorem ptrs_distinct {vs : List (Nat × PVal)} (hn : (vs.flatMap fun p => p.2.ptrs).Nodup) {p : Nat × PVal}
    (hp : p ∈ vs) : p.2.ptrs.Nodup := by
  induction vs with
  | nil => cases hp
  | cons r vs ih =>
    rw [List.flatMap_cons, List.nodup_append] at hn
    rcases List.mem_cons.mp hp with hp | hp
    · rw [hp]; exact hn.1
    · exact ih hn.2.1 hp

/-- A state whose numbers are all in different cells. -/
theorem sep_of_nodup {m : Mem} (hk : (m.st.vals.map (·.1)).Pairwise (· < ·))
    (hn : (m.st.vals.flatMap fun p => p.2.ptrs).Nodup)
    (hb : ∀ c ∈ m.st.vals.flatMap (fun p => p.2.ptrs), c < m.heap.next) (hp : m.st.poolFees < m.heap.next)
    (hpv : m.st.poolFees ∉ m.st.vals.flatMap fun p => p.2.ptrs)
    (hl : ∀ p ∈ m.st.logs.ptrs, p < m.heap.next ∧ p ≠ m.st.poolFees ∧
      p ∉ m.st.vals.flatMap fun p => p.2.ptrs) : Sep m := by
  have hmem : ∀ {k v}, KMap.get m.st.vals k = some v → ∀ c ∈ v.ptrs,
      c ∈ m.st.vals.flatMap fun p => p.2.ptrs := fun {k v} h c hc =>
    List.mem_flatMap.mpr ⟨(k, v), KMap.mem_of_get h, hc⟩
  have hacc : ∀ {i c}, m.cellOf (.acc i) = some c → ∃ v, KMap.get m.st.vals i = some v ∧ v.acc = c :=
    fun h => Option.map_eq_some_iff.mp h
  have hpend : ∀ {i c}, m.cellOf (.pend i) = some c → ∃ v, KMap.get m.st.vals i = some v ∧ v.pend = c :=
    fun h => Option.map_eq_some_iff.mp h
  have ma : ∀ v : PVal, v.acc ∈ v.ptrs := fun v => by simp [PVal.ptrs]
  have mp : ∀ v : PVal, v.pend ∈ v.ptrs := fun v => by simp [PVal.ptrs]
  have mc : ∀ v : PVal, v.coll ∈ v.ptrs := fun v => by simp [PVal.ptrs]
  have hone : ∀ {i j v w c}, KMap.get m.st.vals i = some v → KMap.get m.st.vals j = some w →
      c ∈ v.ptrs → c ∈ w.ptrs → i = j ∧ v = w := fun {i j v w c} hv hw h1 h2 => by
    have := ptrs_unique hn (KMap.mem_of_get hv) (KMap.mem_of_get hw) h1 h2
    exact ⟨congrArg (·.1) this, congrArg (·.2) this⟩
  have hdist : ∀ {i v}, KMap.get m.st.vals i = some v →
      v.acc ≠ v.pend ∧ v.acc ≠ v.coll ∧ v.pend ≠ v.coll := fun {i v} hv => by
    have := ptrs_distinct hn (KMap.mem_of_get hv)
    simp only [PVal.ptrs, List.nodup_cons, List.mem_cons, List.not_mem_nil, or_false, not_or] at this
    exact ⟨this.1.1, this.1.2, this.2.1⟩
  have hcell : ∀ a c, m.cellOf a = some c →
      c = m.st.poolFees ∨ c ∈ m.st.vals.flatMap fun p => p.2.ptrs := by
    intro a c h
    cases a with
    | pool => exact Or.inl (Option.some.inj h).symm
    | acc i => obtain ⟨v, hv, rfl⟩ := hacc h; exact Or.inr (hmem hv _ (ma v))
    | pend i => obtain ⟨v, hv, rfl⟩ := hpend h; exact Or.inr (hmem hv _ (mp v))
  refine ⟨hk, ?_, ?_, ?_, ?_⟩
  · intro a b c h h'
    cases a with
    | pool =>
      have hc : m.st.poolFees = c := Option.some.inj h
      cases b with
      | pool => rfl
      | acc i => obtain ⟨v, hv, rfl⟩ := hacc h'; exact absurd (hc ▸ hmem hv _ (ma v)) hpv
      | pend i => obtain ⟨v, hv, rfl⟩ := hpend h'; exact absurd (hc ▸ hmem hv _ (mp v)) hpv
    | acc i =>
      obtain ⟨v, hv, rfl⟩ := hacc h
      cases b with
      | pool =>
        have hc : m.st.poolFees = v.acc := Option.some.inj h'
        exact absurd (hc ▸ hmem hv _ (ma v)) hpv
      | acc j =>
        obtain ⟨w, hw, e⟩ := hacc h'
        rw [(hone hv hw (ma v) (e ▸ ma w)).1]
      | pend j =>
        obtain ⟨w, hw, e⟩ := hpend h'
        obtain ⟨_, rfl⟩ := hone hv hw (ma v) (e ▸ mp w)
        exact absurd e.symm (hdist hv).1
    | pend i =>
      obtain ⟨v, hv, rfl⟩ := hpend h
      cases b with
      | pool =>
        have hc : m.st.poolFees = v.pend := Option.some.inj h'
        exact absurd (hc ▸ hmem hv _ (mp v)) hpv
      | acc j =>
        obtain ⟨w, hw, e⟩ := hacc h'
        obtain ⟨_, rfl⟩ := hone hv hw (mp v) (e ▸ ma w)
        exact absurd e (hdist hv).1
      | pend j =>
        obtain ⟨w, hw, e⟩ := hpend h'
        rw [(hone hv hw (mp v) (e ▸ mp w)).1]
  · intro a c h
    rcases hcell a c h with rfl | h
    · exact hp
    · exact hb c h
  · intro k v hv
    refine ⟨hb _ (hmem hv _ (mc v)), fun a h => ?_⟩
    cases a with
    | pool =>
      have hc : m.st.poolFees = v.coll := Option.some.inj h
      exact hpv (hc ▸ hmem hv _ (mc v))
    | acc i =>
      obtain ⟨w, hw, e⟩ := hacc h
      obtain ⟨_, rfl⟩ := hone hv hw (mc v) (e ▸ ma w)
      exact (hdist hv).2.1 e
    | pend i =>
      obtain ⟨w, hw, e⟩ := hpend h
      obtain ⟨_, rfl⟩ := hone hv hw (mc v) (e ▸ mp w)
      exact (hdist hv).2.2 e
  · intro p h
    obtain ⟨h1, h2, h3⟩ := hl p h
    refine ⟨h1, fun a ha => ?_⟩
    rcases hcell a p ha with h | h
    · exact h2 h
    · exact h3 h

theorem sep_newOracle (cfg : Config) (h : Heap) :
    Sep (newOracleP cfg h) ∧ (newOracleP cfg h).read = (newOracle cfg).st := by
  refine ⟨sep_of_nodup (by simp [newOracleP]) (by simp [newOracleP]) (by simp [newOracleP])
    (by simp [newOracleP]) (by simp [newOracleP]) (by simp [newOracleP, PLogs.ptrs]; omega), ?_⟩
  simp [Mem.read, newOracleP, newOracle, readVals, Heap.new]

theorem sep_load {s : State} (hs : VMap.Sorted s.vals) (h : Heap) :
    Sep (loadP s h) ∧ (loadP s h).read = s := by
  set h0 := h.new s.collateral with hh0
  set h1 := h0.new s.poolFees with hh1
  set A := allocAll newVal s.vals h1 with hA
  set B := allocAll newFrozen s.committed A.1 with hB
  set C := allocAll newSub s.subs B.1 with hC
  set D := allocAll newEther s.ether C.1 with hD
  set F := allocAll newEther s.donations D.1 with hF
  set G := allocAll newSum s.proposed F.1 with hG
  set I := allocAll newSum s.missed G.1 with hI
  set J := allocAll newSum s.wrongFee I.1 with hJ
  have x1 : h1.Ext A.1 := allocs_val.all.ext _ _
  have x2 : A.1.Ext B.1 := allocs_frozen.all.ext _ _
  have x3 : B.1.Ext C.1 := allocs_sub.all.ext _ _
  have x4 : C.1.Ext D.1 := allocs_ether.all.ext _ _
  have x5 : D.1.Ext F.1 := allocs_ether.all.ext _ _
  have x6 : F.1.Ext G.1 := allocs_sum.all.ext _ _
  have x7 : G.1.Ext I.1 := allocs_sum.all.ext _ _
  have x8 : I.1.Ext J.1 := allocs_sum.all.ext _ _
  have y7 : I.1.Ext J.1 := x8
  have y6 := x7.trans y7
  have y5 := x6.trans y6
  have y4 := x5.trans y5
  have y3 := x4.trans y4
  have y2 := x3.trans y3
  have y1 := x2.trans y2
  have y0 := x1.trans y1
  have f1 := allocs_val.all.fresh s.vals h1
  have f2 := allocs_frozen.all.fresh s.committed A.1
  have f3 := allocs_sub.all.fresh s.subs B.1
  have f4 := allocs_ether.all.fresh s.ether C.1
  have f5 := allocs_ether.all.fresh s.donations D.1
  have f6 := allocs_sum.all.fresh s.proposed F.1
  have f7 := allocs_sum.all.fresh s.missed G.1
  have f8 := allocs_sum.all.fresh s.wrongFee I.1
  rw [← hA] at f1
  rw [← hB] at f2
  rw [← hC] at f3
  rw [← hD] at f4
  rw [← hF] at f5
  rw [← hG] at f6
  rw [← hI] at f7
  rw [← hJ] at f8
  have n0 : h0.next = h.next + 1 := rfl
  have n1 : h1.next = h.next + 2 := rfl
  have z1 := y1.1
  have z2 := y2.1
  have z3 := y3.1
  have z4 := y4.1
  have z5 := y5.1
  have z6 := y6.1
  have z7 := y7.1
  have w1 := x1.1
  have w2 := x2.1
  have w3 := x3.1
  have w4 := x4.1
  have w5 := x5.1
  have w6 := x6.1
  have w7 := x7.1
  constructor
  · apply sep_of_nodup
    · show (A.2.map (·.1)).Pairwise (· < ·)
      rw [hA, keys_allocVals]
      exact (VMap.sorted_iff_keys _).mp hs
    · exact allocVals_nodup _ _
    · intro c hc
      have := f1 c hc
      show c < J.1.next
      omega
    · show h0.next < J.1.next
      omega
    · intro hc
      have := f1 h0.next hc
      omega
    · intro p hp
      have key : p < J.1.next ∧ (p = h.next ∨ A.1.next ≤ p) := by
        rw [mem_ptrs] at hp
        rcases hp with ⟨q, hq, hp⟩ | ⟨q, hq, hp⟩ | ⟨q, hq, hp⟩ | ⟨q, hq, hp⟩ | ⟨q, hq, hp⟩ | ⟨q, hq, hp⟩ |
          ⟨q, hq, hp⟩ | hp
        · have := f2 p (List.mem_flatMap.mpr ⟨q, hq, hp⟩); omega
        · have := f3 p (List.mem_flatMap.mpr ⟨q, hq, by simp [hp]⟩); omega
        · have := f4 p (List.mem_flatMap.mpr ⟨q, hq, by simp [hp]⟩); omega
        · have := f5 p (List.mem_flatMap.mpr ⟨q, hq, by simp [hp]⟩); omega
        · have := f6 p (List.mem_flatMap.mpr ⟨q, hq, by simp [hp]⟩); omega
        · have := f7 p (List.mem_flatMap.mpr ⟨q, hq, by simp [hp]⟩); omega
        · have := f8 p (List.mem_flatMap.mpr ⟨q, hq, by simp [hp]⟩); omega
        · replace hp : p = h.next := hp
          omega
      refine ⟨key.1, ?_, fun hc => ?_⟩
      · show p ≠ h0.next
        omega
      · have := f1 p hc
        omega
  · have e0 : J.1.cell h.next = s.collateral := by
      rw [y0.2 _ (by omega), hh1, Heap.new_cell_ne _ _ (by omega), hh0, Heap.new_cell]
    have e00 : J.1.cell h0.next = s.poolFees := by
      rw [y0.2 _ (by omega), hh1, Heap.new_cell]
    have e1 : readVals J.1 A.2 = s.vals :=
      (allocs_val.all.congr A.2 A.1 J.1 fun p hp => y1.2 p (f1 p hp).2).trans (allocs_val.all.read _ _)
    have e2 : B.2.map (fun p => (p.1, p.2.read J.1)) = s.committed :=
      (allocs_frozen.all.congr B.2 B.1 J.1 fun p hp => y2.2 p (f2 p hp).2).trans (allocs_frozen.all.read _ _)
    have e3 : C.2.map (·.read J.1) = s.subs :=
      (allocs_sub.all.congr C.2 C.1 J.1 fun p hp => y3.2 p (f3 p hp).2).trans (allocs_sub.all.read _ _)
    have e4 : D.2.map (·.read J.1) = s.ether :=
      (allocs_ether.all.congr D.2 D.1 J.1 fun p hp => y4.2 p (f4 p hp).2).trans (allocs_ether.all.read _ _)
    have e5 : F.2.map (·.read J.1) = s.donations :=
      (allocs_ether.all.congr F.2 F.1 J.1 fun p hp => y5.2 p (f5 p hp).2).trans (allocs_ether.all.read _ _)
    have e6 : G.2.map (·.read J.1) = s.proposed :=
      (allocs_sum.all.congr G.2 G.1 J.1 fun p hp => y6.2 p (f6 p hp).2).trans (allocs_sum.all.read _ _)
    have e7 : I.2.map (·.read J.1) = s.missed :=
      (allocs_sum.all.congr I.2 I.1 J.1 fun p hp => y7.2 p (f7 p hp).2).trans (allocs_sum.all.read _ _)
    have e8 : J.2.map (·.read J.1) = s.wrongFee := allocs_sum.all.read _ _
    show State.mk .. = s
    dsimp only [loadP, Mem.read]
    simp only [← hh0, ← hh1, ← hA, ← hB, ← hC, ← hD, ← hF, ← hG, ← hI, ← hJ]
    rw [e0, e00, e1, e2, e3, e4, e5, e6, e7, e8]

end Verif
