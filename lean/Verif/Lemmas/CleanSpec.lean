import Verif.Lemmas.Effects
/-
What the cleanup relation of the specification does to records and totals.
-/
namespace Verif
open VMap Relation

/-- all pending balances are non-negative -/
def NNPend (s : State) : Prop := ∀ i v, VMap.get s.vals i = some v → 0 ≤ v.pend

theorem get_gone {m : VMap} {i k : Nat} : VMap.get (gone m i) k =
    if k = i then (VMap.get m i).map fun v => { v with status := afterLeaving v.status, pend := 0 }
    else VMap.get m k := by
  unfold gone
  split
  · rename_i h; subst h; rw [get_modify_self]
  · rename_i h; rw [get_modify_ne _ _ h]

theorem CleanEffects.nn {E slot cs s l s' t} (h : CleanEffects E slot cs s l s' t) (hn : NNPend s) :
    NNPend s' ∧ 0 ≤ t := by
  induction h with
  | nil => exact ⟨hn, le_refl _⟩
  | keep _ _ ih => exact ih hn
  | @leaves s u v l s' t _ hv _ _ _ ih =>
    have hn1 : NNPend { s with vals := gone s.vals u.index } := by
      intro k w hw
      dsimp only at hw
      rw [get_gone] at hw
      split at hw
      · rw [hv] at hw; simp at hw; rw [← hw]
      · exact hn k w hw
    obtain ⟨h1, h2⟩ := ih hn1
    have := hn _ _ hv
    exact ⟨h1, by omega⟩
  | @moves s u v j w l s' t _ hv _ _ hne hw _ _ ih =>
    apply ih
    intro k x hx
    dsimp only at hx
    have hvp := hn _ _ hv
    have hwp := hn _ _ hw
    by_cases hk : k = j
    · subst hk
      rw [get_modify_self, get_gone, if_neg hne, hw] at hx
      simp at hx; rw [← hx]; dsimp only; omega
    · rw [get_modify_ne _ _ hk, get_gone] at hx
      split at hx
      · rw [hv] at hx; simp at hx; rw [← hx]
      · exact hn k x hx
  | @creates s u v j w l s' t n req r bv _ hv _ _ hw _ _ _ _ _ ih =>
    apply ih
    intro k x hx
    dsimp only at hx
    have hvp := hn _ _ hv
    rw [get_insert] at hx
    split at hx
    · simp at hx; rw [← hx]; exact hvp
    · rw [get_gone] at hx
      split at hx
      · rw [hv] at hx; simp at hx; rw [← hx]
      · exact hn k x hx

/-- records survive, with only status and pending changed; an active validator only gains pending -/
theorem CleanEffects.record {E slot cs s l s' t} (h : CleanEffects E slot cs s l s' t) {i v}
    (hv : VMap.get s.vals i = some v) :
    ∃ v', VMap.get s'.vals i = some v' ∧ v' = { v with status := v'.status, pend := v'.pend } ∧
      ((∀ u ∈ l, u.index = i → u.status.isActive = true) → v'.status = v.status ∧ (NNPend s → v.pend ≤ v'.pend)) := by
  induction h generalizing v with
  | nil => exact ⟨v, hv, rfl, fun _ => ⟨rfl, fun _ => le_refl _⟩⟩
  | keep _ _ ih =>
    obtain ⟨v', h1, h2, h3⟩ := ih hv
    exact ⟨v', h1, h2, fun ha => h3 fun u hu => ha u (by simp [hu])⟩
  | @leaves s u x l s' t hia hx _ _ hcl ih =>
    by_cases hi : i = u.index
    · subst hi
      rw [hv, Option.some.injEq] at hx
      subst hx
      obtain ⟨v', h1, h2, _⟩ := ih (v := { v with status := afterLeaving v.status, pend := 0 })
        (by dsimp only; rw [get_gone, if_pos rfl, hv]; rfl)
      refine ⟨v', h1, by rw [h2], fun ha => ?_⟩
      have := ha u (by simp) rfl
      rw [hia] at this; simp at this
    · obtain ⟨v', h1, h2, h3⟩ := ih (v := v) (by dsimp only; rw [get_gone, if_neg hi, hv])
      refine ⟨v', h1, h2, fun ha => ?_⟩
      obtain ⟨k1, k2⟩ := h3 fun u hu => ha u (by simp [hu])
      refine ⟨k1, fun hn => k2 ?_⟩
      intro k w hw
      dsimp only at hw
      rw [get_gone] at hw
      split at hw
      · rw [hx] at hw; simp at hw; rw [← hw]
      · exact hn k w hw
  | @moves s u x j w l s' t hia hx hp hlt hne hw hb hcl ih =>
    by_cases hi : i = u.index
    · subst hi
      rw [hv, Option.some.injEq] at hx
      subst hx
      obtain ⟨v', h1, h2, _⟩ := ih (v := { v with status := afterLeaving v.status, pend := 0 })
        (by dsimp only; rw [get_modify_ne _ _ (fun h => hne h.symm), get_gone, if_pos rfl, hv]; rfl)
      refine ⟨v', h1, by rw [h2], fun ha => ?_⟩
      have := ha u (by simp) rfl
      rw [hia] at this; simp at this
    · have hnn : NNPend s → NNPend { s with vals := VMap.modify (gone s.vals u.index) j fun w =>
          { w with pend := w.pend + x.pend } } := by
        intro hn
        have hc : CleanEffects E slot cs s [u] { s with vals := VMap.modify (gone s.vals u.index) j fun w =>
            { w with pend := w.pend + x.pend } } 0 := .moves hia hx hp hlt hne hw hb (.nil _)
        exact (hc.nn hn).1
      by_cases hj : i = j
      · subst hj
        rw [hv, Option.some.injEq] at hw
        subst hw
        obtain ⟨v', h1, h2, h3⟩ := ih (v := { v with pend := v.pend + x.pend })
          (by dsimp only; rw [get_modify_self, get_gone, if_neg hi, hv]; rfl)
        refine ⟨v', h1, by rw [h2], fun ha => ?_⟩
        obtain ⟨k1, k2⟩ := h3 fun u hu => ha u (by simp [hu])
        refine ⟨k1, fun hn => ?_⟩
        have a1 := k2 (hnn hn)
        have a2 := hn _ _ hx
        dsimp only at a1
        omega
      · obtain ⟨v', h1, h2, h3⟩ := ih (v := v)
          (by dsimp only; rw [get_modify_ne _ _ hj, get_gone, if_neg hi, hv])
        refine ⟨v', h1, h2, fun ha => ?_⟩
        obtain ⟨k1, k2⟩ := h3 fun u hu => ha u (by simp [hu])
        exact ⟨k1, fun hn => k2 (hnn hn)⟩
  | @creates s u x j w l s' t n req r bv hia hx hp hlt hw b1 b2 b3 b4 hcl ih =>
    have hij : i ≠ j := by rintro rfl; rw [hv] at hw; simp at hw
    have hnn : NNPend s → NNPend { s with
        tick := s.tick + 1
        vals := VMap.insert (gone s.vals u.index) j
          { status := .notSubscribed, acc := 0, pend := x.pend, coll := 0, waddr := w, index := j,
            key := b!"0x" ++ hexEncode bv.pubkey, subType := .manual } } := by
      intro hn
      have hc : CleanEffects E slot cs s [u] { s with
        tick := s.tick + 1
        vals := VMap.insert (gone s.vals u.index) j
          { status := .notSubscribed, acc := 0, pend := x.pend, coll := 0, waddr := w, index := j,
            key := b!"0x" ++ hexEncode bv.pubkey, subType := .manual } } 0 :=
        .creates hia hx hp hlt hw b1 b2 b3 b4 (.nil _)
      exact (hc.nn hn).1
    by_cases hi : i = u.index
    · subst hi
      rw [hv, Option.some.injEq] at hx
      subst hx
      obtain ⟨v', h1, h2, _⟩ := ih (v := { v with status := afterLeaving v.status, pend := 0 })
        (by dsimp only; rw [get_insert, if_neg hij, get_gone, if_pos rfl, hv]; rfl)
      refine ⟨v', h1, by rw [h2], fun ha => ?_⟩
      have := ha u (by simp) rfl
      rw [hia] at this; simp at this
    · obtain ⟨v', h1, h2, h3⟩ := ih (v := v)
        (by dsimp only; rw [get_insert, if_neg hij, get_gone, if_neg hi, hv])
      refine ⟨v', h1, h2, fun ha => ?_⟩
      obtain ⟨k1, k2⟩ := h3 fun u hu => ha u (by simp [hu])
      exact ⟨k1, fun hn => k2 (hnn hn)⟩

/-- what is taken is handed on or remains to be shared -/
theorem CleanEffects.money {E slot cs s l s' t} (h : CleanEffects E slot cs s l s' t) (hs : Sorted s.vals) :
    Sorted s'.vals ∧ owed s' + t = owed s ∧ s'.fee = s.fee ∧ s'.nextSlot = s.nextSlot := by
  have hp : ∀ m : VMap, (m.map fun p => p.2.pend).sum = total (·.pend) m := fun _ => rfl
  have ha : ∀ m : VMap, (m.map fun p => p.2.acc).sum = total (·.acc) m := fun _ => rfl
  induction h with
  | nil => exact ⟨hs, by simp, rfl, rfl⟩
  | keep _ _ ih => exact ih hs
  | @leaves s u v l s' t _ hv _ _ _ ih =>
    obtain ⟨h1, h2, h3, h4⟩ := ih (by dsimp only; exact hs.modify _ _)
    refine ⟨h1, ?_, h3, h4⟩
    have e : owed { s with vals := gone s.vals u.index } + v.pend = owed s := by
      simp only [owed, pendingTotal, accTotal, hp, ha, gone]
      rw [total_modify hs hv, total_modify hs hv]; ring
    omega
  | @moves s u v j w l s' t _ hv _ _ hne hw _ _ ih =>
    have hs1 : Sorted (gone s.vals u.index) := hs.modify _ _
    obtain ⟨h1, h2, h3, h4⟩ := ih (by dsimp only; exact hs1.modify _ _)
    refine ⟨h1, ?_, h3, h4⟩
    rw [h2]
    have hw1 : VMap.get (gone s.vals u.index) j = some w := by rw [get_gone, if_neg hne, hw]
    simp only [owed, pendingTotal, accTotal, hp, ha]
    rw [total_modify hs1 hw1, total_modify hs1 hw1]
    unfold gone
    rw [total_modify hs hv, total_modify hs hv]; ring
  | @creates s u v j w l s' t n req r bv _ hv _ _ hw _ _ _ _ _ ih =>
    have hs1 : Sorted (gone s.vals u.index) := hs.modify _ _
    obtain ⟨h1, h2, h3, h4⟩ := ih (by dsimp only; exact hs1.insert _ _)
    refine ⟨h1, ?_, h3, h4⟩
    rw [h2]
    have hne : j ≠ u.index := by rintro rfl; rw [hv] at hw; simp at hw
    have hw1 : VMap.get (gone s.vals u.index) j = none := by rw [get_gone, if_neg hne, hw]
    simp only [owed, pendingTotal, accTotal, hp, ha]
    rw [total_insert hw1, total_insert hw1]
    unfold gone
    rw [total_modify hs hv, total_modify hs hv]; ring

theorem shares_owed {E : Env} {net s r s'} (h : Shares E net s r s') : owed s' = owed s + r := by
  obtain ⟨share, _, e⟩ := h
  have e1 : s'.vals = s.vals.map fun p =>
        (p.1, if Earning p.2 then { p.2 with pend := p.2.pend + share p.1 } else p.2) := by rw [e]
  have e2 : s'.poolFees = s.poolFees +
        (r - (s.vals.map fun p => if Earning p.2 then share p.1 else 0).sum) := by rw [e]
  simp only [owed, pendingTotal, accTotal]
  rw [e1, e2]
  generalize s.vals = m
  have a1 : ((m.map fun p => (p.1, if Earning p.2 then { p.2 with pend := p.2.pend + share p.1 } else p.2)).map
      fun p => p.2.pend).sum = (m.map fun p => p.2.pend).sum + (m.map fun p => if Earning p.2 then share p.1 else 0).sum := by
    induction m with
    | nil => rfl
    | cons p m ih =>
      simp only [List.map_cons, List.sum_cons] at ih ⊢
      rw [ih]
      by_cases hp : Earning p.2
      · simp only [hp, if_true]; ring
      · simp only [hp, if_false]; ring
  have a2 : ((m.map fun p => (p.1, if Earning p.2 then { p.2 with pend := p.2.pend + share p.1 } else p.2)).map
      fun p => p.2.acc).sum = (m.map fun p => p.2.acc).sum := by
    clear a1
    induction m with
    | nil => rfl
    | cons p m ih =>
      simp only [List.map_cons, List.sum_cons] at ih ⊢
      rw [ih]
      by_cases hp : Earning p.2
      · simp only [hp, if_true]
      · simp only [hp, if_false]
  rw [a1, a2]; ring

/-- a non-negative amount is shared in non-negative shares -/
theorem shares_mono {E : Env} {net s r s'} (h : Shares E net s r s') (hr : 0 ≤ r) (hf : 0 ≤ s.fee)
    (hf1 : s.fee ≤ 10000) (hpf : PostFork1 net s.nextSlot) (hsb : SaneBalances E) {i v}
    (hv : VMap.get s.vals i = some v) :
    ∃ y, 0 ≤ y ∧ VMap.get s'.vals i = some { v with pend := v.pend + y } := by
  obtain ⟨share, hrule, e⟩ := h
  have e1 : s'.vals = s.vals.map fun p =>
        (p.1, if Earning p.2 then { p.2 with pend := p.2.pend + share p.1 } else p.2) := by rw [e]
  have key : VMap.get s'.vals i = (VMap.get s.vals i).map fun v =>
      if Earning v then { v with pend := v.pend + share i } else v := by
    rw [e1]
    exact get_map_of (g := fun i v => if Earning v then { v with pend := v.pend + share i } else v)
  rw [key, hv]
  by_cases hev : Earning v
  · refine ⟨share i, ?_, by simp [hev]⟩
    have hnet : 0 ≤ r - feeOf s.fee r := by
      unfold feeOf
      have : r * s.fee / 10000 ≤ r := by
        apply Int.ediv_le_of_le_mul (by norm_num)
        exact mul_le_mul_of_nonneg_left hf1 hr
      omega
    by_cases hel : PostElectra net s.nextSlot
    · have hcnt : 0 < earningCount s := by
        have hm : (i, v) ∈ s.vals := mem_of_get hv
        unfold earningCount
        exact List.countP_pos_iff.mpr ⟨_, hm, by simpa using hev⟩
      obtain ⟨t, req, bals, h1, h2, h3⟩ := hrule.electra hel hcnt
      obtain ⟨u, hu, hui⟩ := (h2 i).mpr ⟨v, hv, hev⟩
      have := h3 (hsb _ _ _ _ h1) u hu
      rw [← hui, this]
      apply Int.ediv_nonneg
      · exact mul_nonneg hnet (Int.natCast_nonneg _)
      · clear * -
        induction bals with
        | nil => exact le_refl _
        | cons u l ih => simp only [List.map_cons, List.sum_cons]; omega
    · rw [hrule.fork1 hpf hel i v hv hev]
      exact Int.ediv_nonneg hnet (Int.natCast_nonneg _)
  · exact ⟨0, le_refl _, by simp [hev]⟩

end Verif

namespace Verif
open VMap

/-- pending balance of a validator, none if unknown -/
def pendAt (s : State) (j : Nat) : Int := ((VMap.get s.vals j).map (·.pend)).getD 0

theorem LastTarget.unique {cs : List (Nat × Nat)} {i t t' : Nat} (h : LastTarget cs i t)
    (h' : LastTarget cs i t') : t = t' := by
  obtain ⟨a, c, rfl, hc⟩ := h
  obtain ⟨a', c', e, hc'⟩ := h'
  rcases List.append_eq_append_iff.mp e with ⟨x, hx, hy⟩ | ⟨x, hx, hy⟩
  · cases x with
    | nil => simp at hy; exact hy.1
    | cons p x =>
      simp only [List.cons_append, List.cons.injEq] at hy
      have := hc (i, t') (by rw [hy.2]; simp)
      exact absurd rfl this
  · cases x with
    | nil => simp at hy; exact hy.1.symm
    | cons p x =>
      simp only [List.cons_append, List.cons.injEq] at hy
      have := hc' (i, t) (by rw [hy.2]; simp)
      exact absurd rfl this

/-- a validator nobody consolidates into and that is not listed is left alone -/
theorem CleanEffects.absent {E slot cs s l s' t} (h : CleanEffects E slot cs s l s' t) {i}
    (hno : ∀ u ∈ l, u.index ≠ i) (hin : ∀ k, ¬ LastTarget cs k i) :
    VMap.get s'.vals i = VMap.get s.vals i := by
  induction h with
  | nil => rfl
  | keep _ _ ih => exact ih fun u hu => hno u (by simp [hu])
  | @leaves s u v l s' t _ hv _ _ _ ih =>
    have hne : i ≠ u.index := fun e => hno u (by simp) e.symm
    rw [ih fun u hu => hno u (by simp [hu])]
    dsimp only; rw [get_gone, if_neg hne]
  | @moves s u v j w l s' t _ hv _ hlt hne hw _ _ ih =>
    have h1 : i ≠ u.index := fun e => hno u (by simp) e.symm
    have h2 : i ≠ j := by rintro rfl; exact hin _ hlt
    rw [ih fun u hu => hno u (by simp [hu])]
    dsimp only; rw [get_modify_ne _ _ h2, get_gone, if_neg h1]
  | @creates s u v j w l s' t n req r bv _ hv _ hlt hw _ _ _ _ _ ih =>
    have h1 : i ≠ u.index := fun e => hno u (by simp) e.symm
    have h2 : i ≠ j := by rintro rfl; exact hin _ hlt
    rw [ih fun u hu => hno u (by simp [hu])]
    dsimp only; rw [get_insert, if_neg h2, get_gone, if_neg h1]

/-- an active validator only gains pending, even if it becomes tracked on the way -/
theorem CleanEffects.gains {E slot cs s l s' t} (h : CleanEffects E slot cs s l s' t) (hn : NNPend s) {j}
    (ha : ∀ u ∈ l, u.index = j → u.status.isActive = true) : pendAt s j ≤ pendAt s' j := by
  unfold pendAt
  cases hj : VMap.get s.vals j with
  | some w =>
    obtain ⟨w', h1, _, h3⟩ := h.record hj
    rw [h1]
    exact (h3 ha).2 hn
  | none =>
    have h1 := (h.nn hn).1
    cases hj' : VMap.get s'.vals j with
    | none => simp
    | some w' => exact h1 j w' hj'

/-- the pending balance of a validator consolidated into another goes there -/
theorem CleanEffects.consolidated {E slot cs s l s' t} (h : CleanEffects E slot cs s l s' t)
    (hn : NNPend s) {i j v} (hv : VMap.get s.vals i = some v) (hp : v.pend ≠ 0)
    (hlt : LastTarget cs i j) (hij : j ≠ i) (hin : ∀ k, ¬ LastTarget cs k i)
    (hb : ∀ w, VMap.get s.vals j = some w → w.status ≠ .banned)
    (haj : ∀ u ∈ l, u.index = j → u.status.isActive = true)
    (hai : ∀ u ∈ l, u.index = i → u.status.isActive = false)
    (hl : ∃ u ∈ l, u.index = i) (hnd : (l.map (·.index)).Nodup) :
    VMap.get s'.vals i = some { v with status := afterLeaving v.status, pend := 0 } ∧
      pendAt s j + v.pend ≤ pendAt s' j ∧
      ∃ w', VMap.get s'.vals j = some w' ∧
        (VMap.get s.vals j = none → w'.status = .notSubscribed ∧ w'.acc = 0 ∧ w'.index = j) := by
  induction h with
  | nil => simp at hl
  | @keep s u l s' t hk _ ih =>
    have hnd' := (List.nodup_cons.mp hnd).2
    have : u.index ≠ i := by
      intro e
      have h1 := hai u (by simp) e
      rcases hk with hk | ⟨x, hx, hx0⟩
      · rw [h1] at hk; simp at hk
      · rw [e, hv, Option.some.injEq] at hx
        exact hp (hx ▸ hx0)
    refine ih hn hv hb (fun u hu => haj u (by simp [hu])) (fun u hu => hai u (by simp [hu])) ?_ hnd'
    obtain ⟨x, hx, hxi⟩ := hl
    rcases List.mem_cons.mp hx with rfl | hx
    · exact absurd hxi this
    · exact ⟨x, hx, hxi⟩
  | @leaves s u x l s' t hia hx hx0 hcase hcl ih =>
    obtain ⟨hnd1, hnd'⟩ := List.nodup_cons.mp hnd
    have huj : j ≠ u.index := by
      intro e
      have := haj u (by simp) e.symm
      rw [hia] at this; simp at this
    by_cases hi : i = u.index
    · subst hi
      exfalso
      rcases hcase with hc | ⟨k, w, hc1, hc2, hc3⟩
      · exact hc j hlt
      · have := hc1.unique hlt
        subst this
        exact hb w hc2 hc3
    · have hn1 : NNPend { s with vals := gone s.vals u.index } := by
        have hc : CleanEffects E slot cs s [u] { s with vals := gone s.vals u.index } (x.pend + 0) :=
          .leaves hia hx hx0 hcase (.nil _)
        exact (hc.nn hn).1
      have hj : VMap.get (gone s.vals u.index) j = VMap.get s.vals j := by rw [get_gone, if_neg huj]
      have := ih hn1 (by dsimp only; rw [get_gone, if_neg hi, hv]) (by dsimp only; rw [hj]; exact hb)
        (fun u hu => haj u (by simp [hu])) (fun u hu => hai u (by simp [hu])) (by
          obtain ⟨y, hy, hyi⟩ := hl
          rcases List.mem_cons.mp hy with rfl | hy
          · exact absurd hyi.symm hi
          · exact ⟨y, hy, hyi⟩) hnd'
      unfold pendAt at this ⊢
      dsimp only at this
      rw [hj] at this
      exact this
  | @moves s u x k w l s' t hia hx hx0 hkt hne hw hwb hcl ih =>
    obtain ⟨hnd1, hnd'⟩ := List.nodup_cons.mp hnd
    have huj : j ≠ u.index := by
      intro e
      have := haj u (by simp) e.symm
      rw [hia] at this; simp at this
    have hn1 : NNPend { s with vals := VMap.modify (gone s.vals u.index) k fun w =>
        { w with pend := w.pend + x.pend } } := by
      have hc : CleanEffects E slot cs s [u] { s with vals := VMap.modify (gone s.vals u.index) k fun w =>
        { w with pend := w.pend + x.pend } } 0 := .moves hia hx hx0 hkt hne hw hwb (.nil _)
      exact (hc.nn hn).1
    by_cases hi : i = u.index
    · subst hi
      have := hkt.unique hlt
      subst this
      rw [hv, Option.some.injEq] at hx
      subst hx
      have hab : ∀ y ∈ l, y.index ≠ u.index := by
        intro y hy e
        exact hnd1 (List.mem_map.mpr ⟨y, hy, e⟩)
      refine ⟨?_, ?_, ?_⟩
      · rw [hcl.absent hab hin]
        dsimp only
        rw [get_modify_ne _ _ (fun e => hne e.symm), get_gone, if_pos rfl, hv]; rfl
      · have := hcl.gains (j := k) hn1 (fun u hu => haj u (by simp [hu]))
        refine le_trans ?_ this
        unfold pendAt
        dsimp only
        rw [get_modify_self, get_gone, if_neg hne, hw]
        simp
      · obtain ⟨w', h1, _⟩ := hcl.record (i := k) (v := { w with pend := w.pend + v.pend }) (by
          dsimp only; rw [get_modify_self, get_gone, if_neg hne, hw]; rfl)
        exact ⟨w', h1, fun h => by rw [hw] at h; simp at h⟩
    · have hki : k ≠ i := by rintro rfl; exact hin _ hkt
      have hj : ∃ y, 0 ≤ y ∧ VMap.get (VMap.modify (gone s.vals u.index) k fun w =>
          { w with pend := w.pend + x.pend }) j = (VMap.get s.vals j).map fun w => { w with pend := w.pend + y } := by
        by_cases hjk : j = k
        · subst hjk
          exact ⟨x.pend, hn _ _ hx, by rw [get_modify_self, get_gone, if_neg huj]⟩
        · refine ⟨0, le_refl _, ?_⟩
          rw [get_modify_ne _ _ hjk, get_gone, if_neg huj]
          cases VMap.get s.vals j <;> simp
      obtain ⟨y, hy0, hj⟩ := hj
      obtain ⟨k1, k2, w', k3, k4⟩ := ih hn1
        (by dsimp only; rw [get_modify_ne _ _ (fun e => hki e.symm), get_gone, if_neg hi, hv])
        (by
          dsimp only; rw [hj]
          intro w hw
          cases hjj : VMap.get s.vals j with
          | none => rw [hjj] at hw; simp at hw
          | some z => rw [hjj] at hw; simp at hw; rw [← hw]; exact hb z hjj)
        (fun u hu => haj u (by simp [hu])) (fun u hu => hai u (by simp [hu])) (by
          obtain ⟨y, hy, hyi⟩ := hl
          rcases List.mem_cons.mp hy with rfl | hy
          · exact absurd hyi.symm hi
          · exact ⟨y, hy, hyi⟩) hnd'
      refine ⟨k1, le_trans ?_ k2, w', k3, ?_⟩
      · unfold pendAt
        dsimp only
        rw [hj]
        cases hjj : VMap.get s.vals j with
        | none => simp
        | some z => simp; omega
      · intro hnone
        apply k4
        dsimp only
        rw [hj, hnone]; rfl
  | @creates s u x k w l s' t n req r bv hia hx hx0 hkt hw b1 b2 b3 b4 hcl ih =>
    obtain ⟨hnd1, hnd'⟩ := List.nodup_cons.mp hnd
    have huj : j ≠ u.index := by
      intro e
      have := haj u (by simp) e.symm
      rw [hia] at this; simp at this
    have hn1 : NNPend { s with
        tick := s.tick + 1
        vals := VMap.insert (gone s.vals u.index) k
          { status := .notSubscribed, acc := 0, pend := x.pend, coll := 0, waddr := w, index := k,
            key := b!"0x" ++ hexEncode bv.pubkey, subType := .manual } } := by
      have hc : CleanEffects E slot cs s [u] { s with
        tick := s.tick + 1
        vals := VMap.insert (gone s.vals u.index) k
          { status := .notSubscribed, acc := 0, pend := x.pend, coll := 0, waddr := w, index := k,
            key := b!"0x" ++ hexEncode bv.pubkey, subType := .manual } } 0 :=
        .creates hia hx hx0 hkt hw b1 b2 b3 b4 (.nil _)
      exact (hc.nn hn).1
    by_cases hi : i = u.index
    · subst hi
      have := hkt.unique hlt
      subst this
      rw [hv, Option.some.injEq] at hx
      subst hx
      have hab : ∀ y ∈ l, y.index ≠ u.index := by
        intro y hy e
        exact hnd1 (List.mem_map.mpr ⟨y, hy, e⟩)
      refine ⟨?_, ?_, ?_⟩
      · rw [hcl.absent hab hin]
        dsimp only
        rw [get_insert, if_neg (fun e => hij e.symm), get_gone, if_pos rfl, hv]; rfl
      · have := hcl.gains (j := k) hn1 (fun u hu => haj u (by simp [hu]))
        refine le_trans ?_ this
        unfold pendAt
        dsimp only
        rw [get_insert, if_pos rfl, hw]
        simp
      · obtain ⟨w', h1, h2, h3⟩ := hcl.record (i := k) (by
          dsimp only; rw [get_insert, if_pos rfl])
        refine ⟨w', h1, fun _ => ⟨(h3 fun u hu => haj u (by simp [hu])).1, ?_, ?_⟩⟩
        · rw [h2]
        · rw [h2]
    · have hki : k ≠ i := by rintro rfl; exact hin _ hkt
      by_cases hjk : j = k
      · subst hjk
        obtain ⟨k1, k2, w', k3, _⟩ := ih hn1
          (by dsimp only; rw [get_insert, if_neg (fun e => hki e.symm), get_gone, if_neg hi, hv])
          (by dsimp only; rw [get_insert, if_pos rfl]; intro w hw; simp at hw; rw [← hw]; simp)
          (fun u hu => haj u (by simp [hu])) (fun u hu => hai u (by simp [hu])) (by
            obtain ⟨y, hy, hyi⟩ := hl
            rcases List.mem_cons.mp hy with rfl | hy
            · exact absurd hyi.symm hi
            · exact ⟨y, hy, hyi⟩) hnd'
        refine ⟨k1, le_trans ?_ k2, w', k3, ?_⟩
        · unfold pendAt
          dsimp only
          rw [get_insert, if_pos rfl, hw]
          simp
          exact hn _ _ hx
        · intro _
          obtain ⟨w'', h1, h2, h3⟩ := hcl.record (i := j) (by
            dsimp only; rw [get_insert, if_pos rfl])
          rw [k3, Option.some.injEq] at h1
          subst h1
          refine ⟨(h3 fun u hu => haj u (by simp [hu])).1, ?_, ?_⟩
          · rw [h2]
          · rw [h2]
      · have hj : VMap.get (VMap.insert (gone s.vals u.index) k
            { status := .notSubscribed, acc := 0, pend := x.pend, coll := 0, waddr := w, index := k,
              key := b!"0x" ++ hexEncode bv.pubkey, subType := .manual }) j = VMap.get s.vals j := by
          rw [get_insert, if_neg hjk, get_gone, if_neg huj]
        have := ih hn1
          (by dsimp only; rw [get_insert, if_neg (fun e => hki e.symm), get_gone, if_neg hi, hv])
          (by dsimp only; rw [hj]; exact hb)
          (fun u hu => haj u (by simp [hu])) (fun u hu => hai u (by simp [hu])) (by
            obtain ⟨y, hy, hyi⟩ := hl
            rcases List.mem_cons.mp hy with rfl | hy
            · exact absurd hyi.symm hi
            · exact ⟨y, hy, hyi⟩) hnd'
        unfold pendAt at this ⊢
        dsimp only at this
        rw [hj] at this
        exact this

end Verif
