import Verif.Props.Earnings
/-
C95: a member with more at stake does not earn less.
-/
namespace Verif
open VMap Relation

/-- Validator `i` gains at most what `j` gains from `s` to `s'`, unless one of them stops earning. -/
structure Trails (i j : Nat) (s s' : State) : Prop where
  slot : s'.nextSlot = s.nextSlot
  fee : s'.fee = s.fee
  nn : NNPend s → NNPend s'
  gain : NNPend s → ∀ v w, VMap.get s.vals i = some v → VMap.get s.vals j = some w →
    ∃ v' w', VMap.get s'.vals i = some v' ∧ VMap.get s'.vals j = some w' ∧ (Earning v' → Earning v) ∧
      (Earning w' → Earning w) ∧
      (Earning v' → Earning w' → v'.wealth - v.wealth ≤ w'.wealth - w.wealth)

theorem Trails.refl (i j : Nat) (s : State) : Trails i j s s :=
  ⟨rfl, rfl, id, fun _ v w h1 h2 => ⟨v, w, h1, h2, id, id, fun _ _ => by omega⟩⟩

theorem Trails.trans {i j : Nat} {s1 s2 s3 : State} (h : Trails i j s1 s2) (h' : Trails i j s2 s3) : Trails i j s1 s3 := by
  refine ⟨h'.slot.trans h.slot, h'.fee.trans h.fee, fun k => h'.nn (h.nn k), fun hn v w hv hw => ?_⟩
  obtain ⟨v1, w1, a1, a2, a3, a4, a5⟩ := h.gain hn v w hv hw
  obtain ⟨v2, w2, b1, b2, b3, b4, b5⟩ := h'.gain (h.nn hn) v1 w1 a1 a2
  refine ⟨v2, w2, b1, b2, fun k => a3 (b3 k), fun k => a4 (b4 k), fun k1 k2 => ?_⟩
  have := b5 k1 k2
  have := a5 (b3 k1) (b4 k2)
  omega

/-- the records stay as they are -/
theorem Trails.of_vals {i j : Nat} {s s' : State} (h0 : s'.nextSlot = s.nextSlot) (hf : s'.fee = s.fee)
    (hv : s'.vals = s.vals) : Trails i j s s' :=
  ⟨h0, hf, fun hn k v h => hn k v (by rw [← hv]; exact h),
    fun _ v w h1 h2 => ⟨v, w, by rw [hv]; exact h1, by rw [hv]; exact h2, id, id, fun _ _ => by omega⟩⟩

/-- one validator is changed, and if it still earns, its money is as before -/
theorem Trails.of_modify {i j k : Nat} {s s' : State} {f : Validator → Validator} (h0 : s'.nextSlot = s.nextSlot)
    (hfe : s'.fee = s.fee) (hv : s'.vals = VMap.modify s.vals k f)
    (hp : ∀ v, VMap.get s.vals k = some v → 0 ≤ v.pend → 0 ≤ (f v).pend)
    (hf : ∀ v, VMap.get s.vals k = some v → Earning (f v) → Earning v ∧ (f v).wealth = v.wealth) : Trails i j s s' := by
  have one : ∀ x v, VMap.get s.vals x = some v → ∃ v', VMap.get s'.vals x = some v' ∧
      (Earning v' → Earning v ∧ v'.wealth = v.wealth) := by
    intro x v h
    rw [hv, get_modify]
    split
    · rename_i e
      subst e
      rw [h]
      exact ⟨_, rfl, hf v h⟩
    · exact ⟨v, h, fun k => ⟨k, rfl⟩⟩
  refine ⟨h0, hfe, ?_, fun _ v w h1 h2 => ?_⟩
  · intro hn x v h
    rw [hv, get_modify] at h
    split at h
    · rename_i e
      subst e
      cases hx : VMap.get s.vals x with
      | none => rw [hx] at h; simp at h
      | some u =>
        rw [hx, Option.map_some, Option.some.injEq] at h
        rw [← h]
        exact hp u hx (hn x u hx)
    · exact hn x v h
  · obtain ⟨v', a1, a2⟩ := one i v h1
    obtain ⟨w', b1, b2⟩ := one j w h2
    refine ⟨v', w', a1, b1, fun k => (a2 k).1, fun k => (b2 k).1, fun k1 k2 => ?_⟩
    have := (a2 k1).2
    have := (b2 k2).2
    omega

/-- one validator is thrown out -/
theorem Trails.leaver {i j k : Nat} {s : State} {st : Status} (h : ¬ (st = .active ∨ st = .yellowCard)) :
    Trails i j s { s with vals := VMap.modify s.vals k fun v => { v with status := st, pend := 0 } } :=
  Trails.of_modify (k := k) (f := fun v => { v with status := st, pend := 0 }) rfl rfl rfl
    (fun _ _ _ => le_refl _) fun _ _ e => absurd e h

/-- The beacon node reports for validator `i` at most the effective balance of validator `j`, whenever it is asked at
this slot. -/
def LessStake (E : Env) (slot i j : Nat) : Prop :=
  ∀ t req r t' req' r' u u', E.node t slot req = some r → E.node t' slot req' = some r' → u ∈ r → u' ∈ r' →
    u.index = i → u'.index = j → u.effBal ≤ u'.effBal

/-- what holds of the state all through a slot: fee in range and after the first fork -/
structure Modern (E : Env) (net : Str) (i j : Nat) (s : State) : Prop where
  fee0 : 0 ≤ s.fee
  fee1 : s.fee ≤ 10000
  fork : PostFork1 net s.nextSlot
  sane : SaneBalances E
  stake : PostElectra net s.nextSlot → LessStake E s.nextSlot i j

theorem Modern.of {E : Env} {net : Str} {i j : Nat} {s s' : State} (h : Modern E net i j s)
    (h1 : s'.nextSlot = s.nextSlot) (h2 : s'.fee = s.fee) : Modern E net i j s' :=
  ⟨by rw [h2]; exact h.fee0, by rw [h2]; exact h.fee1, by rw [h1]; exact h.fork, h.sane, by rw [h1]; exact h.stake⟩

theorem Modern.next {E : Env} {net : Str} {i j : Nat} {s s' : State} (h : Modern E net i j s) (h1 : Trails i j s s') :
    Modern E net i j s' := h.of h1.slot h1.fee

private theorem ediv_mono {a b c : Int} (hc : 0 ≤ c) (h : a ≤ b) : a / c ≤ b / c := by
  rcases Int.lt_or_eq_of_le hc with hc | rfl
  · exact Int.ediv_le_ediv hc h
  · simp

theorem Trails.of_shares {E : Env} {net : Str} {i j : Nat} {s s' : State} {r : Int} (hm : Modern E net i j s)
    (hr : 0 ≤ r) (h : Shares E net s r s') : Trails i j s s' := by
  have hmono : ∀ x v, VMap.get s.vals x = some v →
      ∃ y, 0 ≤ y ∧ VMap.get s'.vals x = some { v with pend := v.pend + y } :=
    fun x v hv => shares_mono h hr hm.fee0 hm.fee1 hm.fork hm.sane hv
  obtain ⟨share, hrule, e⟩ := h
  have key : ∀ i, VMap.get s'.vals i = (VMap.get s.vals i).map fun v =>
      if Earning v then { v with pend := v.pend + share i } else v := by
    intro i
    have e1 : s'.vals = s.vals.map fun p =>
        (p.1, if Earning p.2 then { p.2 with pend := p.2.pend + share p.1 } else p.2) := by rw [e]
    rw [e1]
    exact get_map_of (g := fun i v => if Earning v then { v with pend := v.pend + share i } else v)
  refine ⟨by rw [e], by rw [e], ?_, fun _ v w hv hw => ?_⟩
  · intro hn x v hv
    cases hx : VMap.get s.vals x with
    | none => rw [key, hx] at hv; simp at hv
    | some u =>
      obtain ⟨y, hy, k⟩ := hmono x u hx
      rw [k, Option.some.injEq] at hv
      rw [← hv]
      have := hn x u hx
      dsimp only
      omega
  rw [key, key, hv, hw]
  have same : ∀ {v : Validator} {x : Int}, Earning (if Earning v then { v with pend := v.pend + x } else v) →
      Earning v := by
    intro v x k
    by_contra hne
    rw [if_neg hne] at k
    exact hne k
  refine ⟨_, _, rfl, rfl, same, same, fun k1 k2 => ?_⟩
  have k1 := same k1
  have k2 := same k2
  dsimp only
  rw [if_pos k1, if_pos k2]
  have hsh : share i ≤ share j := by
    by_cases hel : PostElectra net s.nextSlot
    · have hcnt : 0 < earningCount s := by
        unfold earningCount
        exact List.countP_pos_iff.mpr ⟨_, mem_of_get hv, by simpa using k1⟩
      obtain ⟨t, req, bals, h1, h2, h3⟩ := hrule.electra hel hcnt
      obtain ⟨u, hu, hui⟩ := (h2 i).mpr ⟨v, hv, k1⟩
      obtain ⟨u', hu', hui'⟩ := (h2 j).mpr ⟨w, hw, k2⟩
      have a := h3 (hm.sane _ _ _ _ h1) u hu
      have b := h3 (hm.sane _ _ _ _ h1) u' hu'
      rw [← hui, ← hui', a, b]
      have hle := hm.stake hel _ _ _ _ _ _ u u' h1 h1 hu hu' hui hui'
      have hsum : 0 ≤ (bals.map fun u => (u.effBal : Int)).sum := by
        apply sum_nonneg
        intro y hy
        obtain ⟨z, _, rfl⟩ := List.mem_map.mp hy
        omega
      have hnet : 0 ≤ r - feeOf s.fee r := by
        unfold feeOf
        have : r * s.fee / 10000 ≤ r := by
          apply Int.ediv_le_of_le_mul (by norm_num)
          exact mul_le_mul_of_nonneg_left hm.fee1 hr
        omega
      exact ediv_mono hsum (mul_le_mul_of_nonneg_left (by exact_mod_cast hle) hnet)
    · rw [hrule.fork1 hm.fork hel i v hv k1, hrule.fork1 hm.fork hel j w hw k2]
  unfold Validator.wealth
  dsimp only
  omega

/-- The same for two validators that earn at the start. -/
structure TrailsFrom (i j : Nat) (s s' : State) : Prop where
  slot : s'.nextSlot = s.nextSlot
  fee : s'.fee = s.fee
  nn : NNPend s → NNPend s'
  gain : NNPend s → ∀ v w, VMap.get s.vals i = some v → VMap.get s.vals j = some w → Earning v → Earning w →
    ∃ v' w', VMap.get s'.vals i = some v' ∧ VMap.get s'.vals j = some w' ∧
      (Earning v' → Earning w' → v'.wealth - v.wealth ≤ w'.wealth - w.wealth)

theorem TrailsFrom.trans {i j : Nat} {s1 s2 s3 : State} (h : TrailsFrom i j s1 s2) (h' : Trails i j s2 s3) :
    TrailsFrom i j s1 s3 := by
  refine ⟨h'.slot.trans h.slot, h'.fee.trans h.fee, fun k => h'.nn (h.nn k), fun hn v w hv hw e1 e2 => ?_⟩
  obtain ⟨v1, w1, a1, a2, a5⟩ := h.gain hn v w hv hw e1 e2
  obtain ⟨v2, w2, b1, b2, b3, b4, b5⟩ := h'.gain (h.nn hn) v1 w1 a1 a2
  refine ⟨v2, w2, b1, b2, fun k1 k2 => ?_⟩
  have := b5 k1 k2
  have := a5 (b3 k1) (b4 k2)
  omega

theorem Trails.from {i j : Nat} {s s' : State} (h : Trails i j s s') : TrailsFrom i j s s' :=
  ⟨h.slot, h.fee, h.nn, fun hn v w hv hw _ _ => by
    obtain ⟨v1, w1, a1, a2, _, _, a5⟩ := h.gain hn v w hv hw
    exact ⟨v1, w1, a1, a2, a5⟩⟩

theorem enrolled_nn {s : State} {k : Nat} {a key : Str} (h : NNPend s) :
    NNPend { s with vals := enrolled s.vals k a key } := by
  intro x v hv
  dsimp only at hv
  unfold enrolled at hv
  split at hv
  · rw [get_insert] at hv
    split at hv
    · cases hv; exact le_refl _
    · exact h x v hv
  · rw [get_modify] at hv
    split at hv
    · rename_i e1 e2
      subst e2
      cases hx : VMap.get s.vals x with
      | none => rw [hx] at hv; simp at hv
      | some u =>
        rw [hx, Option.map_some, Option.some.injEq] at hv
        rw [← hv]
        exact h x u hx
    · exact h x v hv

theorem ProposalEffect.ranks {E : Env} {net pool : Str} {b : FullBlock} {i j : Nat} {s s' : State}
    (hm : Modern E net i j s) (hn : NNPend s) (hrew : ∀ r, RewardIs b r → 0 ≤ r)
    (h : ProposalEffect E net pool b s s') : TrailsFrom i j s s' := by
  cases h with
  | missed h1 h2 h3 h4 =>
    refine Trails.from ?_
    refine Trails.of_modify (k := b.dutyIndex) (f := fun v => { v with status := afterMiss v.status }) rfl rfl rfl ?_ ?_
    · exact fun v _ h => h
    · exact fun v _ k => ⟨afterMiss_earning k, rfl⟩
  | outsider h1 h2 => exact (Trails.refl i j s).from
  | elsewhere h1 h2 h3 h4 h5 h6 =>
    have a := Trails.leaver (i := i) (j := j) (s := s) (k := b.dutyIndex) (st := .banned) (by simp)
    have c := Trails.of_shares (i := i) (j := j) (hm.next a) (hn _ _ h3) h5
    refine ((a.trans c).trans ?_).from
    exact Trails.of_vals rfl rfl rfl
  | @pays w r sb s2 h1 h2 h3 h4 h5 h6 h7 =>
    have a : TrailsFrom i j s { s with vals := enrolled s.vals b.dutyIndex w b.dutyKey } := by
      refine ⟨rfl, rfl, enrolled_nn, fun _ v u hv hu _ _ => ?_⟩
      obtain ⟨v', a1, a2⟩ := enrolled_wealth (k := b.dutyIndex) (a := w) (key := b.dutyKey) hv
      obtain ⟨u', b1, b2⟩ := enrolled_wealth (k := b.dutyIndex) (a := w) (key := b.dutyKey) hu
      exact ⟨v', u', a1, b1, fun _ _ => by omega⟩
    have c := Trails.of_shares (i := i) (j := j) (hm.of a.slot a.fee) (hrew r h3) h4
    have d : Trails i j s2 { s2 with vals := paidOut s2.vals b.dutyIndex, proposed := s.proposed ++ [sb] } := by
      refine Trails.of_modify (k := b.dutyIndex) (f := fun v => { v with acc := v.acc + v.pend, pend := 0 }) rfl rfl rfl
        ?_ ?_
      · exact fun _ _ _ => le_refl _
      · exact fun v _ k => ⟨k, by simp only [Validator.wealth]; omega⟩
    exact (a.trans c).trans d
  | noAddress h1 h2 h3 h4 h5 =>
    refine Trails.from ?_
    exact Trails.of_vals rfl rfl rfl

theorem UnsubEffects.ranks {E : Env} {net : Str} {i j : Nat} {s s' : State} {l}
    (hm : Modern E net i j s) (hn : NNPend s) (h : UnsubEffects E net s l s') : Trails i j s s' := by
  induction h with
  | nil => exact Trails.refl ..
  | @cons s p s1 l s2 he _ ih =>
    have a : Trails i j s s1 := by
      cases he with
      | leaves h1 h2 h3 h4 =>
        have a := Trails.leaver (i := i) (j := j) (s := s) (k := p.1.validatorId) (st := .notSubscribed) (by simp)
        exact a.trans (Trails.of_shares (hm.next a) (hn _ _ h2) h4)
      | nothing => exact Trails.refl ..
    exact a.trans (ih (hm.next a) (a.nn hn))

theorem DonEffects.ranks {E : Env} {net : Str} {i j : Nat} {s s' : State} {l : List EtherEvent}
    (hm : Modern E net i j s) (hl : ∀ d ∈ l, 0 ≤ d.amount) (h : DonEffects E net s l s') : Trails i j s s' := by
  induction h with
  | nil => exact Trails.refl ..
  | @cons s p s1 l s2 he _ ih =>
    have a : Trails i j s s1 := Trails.of_shares hm (hl p (by simp)) he
    have d : Trails i j s1 { s1 with donations := s1.donations ++ [p] } := by exact Trails.of_vals rfl rfl rfl
    exact (a.trans d).trans (ih (hm.next (a.trans d)) fun d hd => hl d (by simp [hd]))

theorem BanEffects.ranks {i j : Nat} {s s' : State} {l t} (h : BanEffects s l s' t) : Trails i j s s' := by
  induction h with
  | nil => exact Trails.refl ..
  | @ban s ev v l s' t h1 h2 _ ih =>
    have a := Trails.leaver (i := i) (j := j) (s := s) (k := ev.validatorId) (st := .banned) (by simp)
    exact a.trans ih
  | skip _ _ ih => exact ih

/-- cleanup; only the validator that gains less must not be a target of a consolidation -/
theorem CleanEffects.ranks {E : Env} {slot i j : Nat} {cs s l s' t} (hcs : ∀ p ∈ cs, p.2 ≠ i)
    (h : CleanEffects E slot cs s l s' t) : Trails i j s s' := by
  have go : ∀ s k, Trails i j s { s with vals := gone s.vals k } := fun s k =>
    Trails.of_modify (k := k) (f := fun v => { v with status := afterLeaving v.status, pend := 0 }) rfl rfl rfl
      (fun _ _ _ => le_refl _) fun v _ k => absurd k gone_earning
  have tgt : ∀ {u k}, LastTarget cs u k → k ≠ i := by
    rintro u k ⟨l1, l2, e, _⟩
    exact hcs (u, k) (by rw [e]; simp)
  induction h with
  | nil => exact Trails.refl ..
  | keep _ _ ih => exact ih
  | leaves _ _ _ _ _ ih => exact (go _ _).trans ih
  | @moves s u v k w l s' t _ hv _ hl hne hw _ _ ih =>
    have k1 := tgt hl
    -- the whole step at once, since the amount must be known to be non-negative
    have step : Trails i j s { s with vals := VMap.modify (gone s.vals u.index) k fun w =>
        { w with pend := w.pend + v.pend } } := by
      refine ⟨rfl, rfl, ?_, ?_⟩
      · intro hn x y hy
        have hg := (go s u.index).nn hn
        dsimp only at hy
        rw [get_modify] at hy
        split at hy
        · rename_i e
          subst e
          cases hx : VMap.get (gone s.vals u.index) x with
          | none => rw [hx] at hy; simp at hy
          | some z =>
            rw [hx, Option.map_some, Option.some.injEq] at hy
            rw [← hy]
            have := hg x z hx
            have := hn _ _ hv
            dsimp only
            omega
        · exact hg x y hy
      · intro hn a c ha hc
        obtain ⟨a1, c1, q1, q2, q3, q4, q5⟩ := (go s u.index).gain hn a c ha hc
        dsimp only at q1 q2 ⊢
        rw [get_modify_ne _ _ (Ne.symm k1), q1]
        by_cases ek : j = k
        · subst ek
          rw [get_modify_self, q2]
          refine ⟨a1, _, rfl, rfl, q3, q4, fun m1 m2 => ?_⟩
          have := q5 m1 m2
          have := hn _ _ hv
          simp only [Validator.wealth] at this ⊢
          simp only [Validator.wealth] at *
          omega
        · rw [get_modify_ne _ _ ek, q2]
          exact ⟨a1, c1, rfl, rfl, q3, q4, q5⟩
    exact step.trans ih
  | @creates s u v k w l s' t n req r bv _ hv _ hl hw _ _ _ _ _ ih =>
    have k1 := tgt hl
    refine Trails.trans ?_ ih
    refine ⟨rfl, rfl, ?_, ?_⟩
    · intro hn x y hy
      dsimp only at hy
      rw [get_insert] at hy
      split at hy
      · cases hy
        have := hn _ _ hv
        exact this
      · exact (go s u.index).nn hn x y hy
    · intro hn a c ha hc
      have ek : j ≠ k := by rintro rfl; rw [hw] at hc; cases hc
      obtain ⟨a1, c1, q1, q2, q3, q4, q5⟩ := (go s u.index).gain hn a c ha hc
      dsimp only at q1 q2 ⊢
      rw [get_insert, if_neg (Ne.symm k1), get_insert, if_neg ek, q1, q2]
      exact ⟨a1, c1, rfl, rfl, q3, q4, q5⟩

theorem CleanupEffect.ranks {E : Env} {net : Str} {slot i j : Nat} {s s' : State}
    (hm : Modern E net i j s) (hn : NNPend s)
    (hcs : ∀ t cs, E.consol t slot = some cs → ∀ p ∈ cs, p.2 ≠ i)
    (h : CleanupEffect E net slot s s') : Trails i j s s' := by
  cases h with
  | early => exact Trails.refl ..
  | empty => exact Trails.refl ..
  | @done t cs req answer l s1 tot s2 h1 h2 h3 h4 h5 h6 h7 h8 =>
    have a : Trails i j s { s with tick := s.tick + 2 } := by exact Trails.of_vals rfl rfl rfl
    have hcs' : ∀ p ∈ cs, p.2 ≠ i := by
      by_cases hc : consolidationsFrom net ≤ slot
      · exact hcs t cs (h2 hc)
      · rw [h3 (by omega)]; simp
    have c := a.trans (h7.ranks hcs')
    rcases h8 with ⟨_, h8⟩ | ⟨_, rfl⟩
    · exact c.trans (Trails.of_shares (hm.next c) (h7.nn (a.nn hn)).2 h8)
    · exact c

theorem SubEffects.keeps {s l s1} (h : SubEffects s l s1) (hl : ∀ p ∈ l, 0 ≤ p.1.collateral) :
    s1.nextSlot = s.nextSlot ∧ s1.fee = s.fee ∧ (NNPend s → NNPend s1) := by
  induction h with
  | nil => exact ⟨rfl, rfl, id⟩
  | @cons s p s1 l s2 he _ ih =>
    obtain ⟨i1, i2, i3⟩ := ih fun p hp => hl p (by simp [hp])
    have hc := hl p (by simp)
    have mod : ∀ {k : Nat} {f : Validator → Validator}, (∀ v, 0 ≤ v.pend → 0 ≤ (f v).pend) → NNPend s →
        NNPend { s with vals := VMap.modify s.vals k f } := by
      intro k f hf hn x v hv
      dsimp only at hv
      rw [get_modify] at hv
      split at hv
      · rename_i e
        subst e
        cases hx : VMap.get s.vals x with
        | none => rw [hx] at hv; simp at hv
        | some u =>
          rw [hx, Option.map_some, Option.some.injEq] at hv
          rw [← hv]
          exact hf u (hn x u hx)
      · exact hn x v hv
    have key : s1.nextSlot = s.nextSlot ∧ s1.fee = s.fee ∧ (NNPend s → NNPend s1) := by
      cases he with
      | fresh => 
        refine ⟨rfl, rfl, fun hn x v hv => ?_⟩
        dsimp only at hv
        rw [get_insert] at hv
        split at hv
        · cases hv; exact hc
        · exact hn x v hv
      | again => exact ⟨rfl, rfl, fun hn => mod (fun v h => by dsimp only; omega) hn⟩
      | returned => exact ⟨rfl, rfl, fun hn => mod (fun v h => h) hn⟩
      | notOwner => exact ⟨rfl, rfl, id⟩
      | tooLittle => exact ⟨rfl, rfl, id⟩
    exact ⟨i1.trans key.1, i2.trans key.2.1, fun hn => i3 (key.2.2 hn)⟩

/-- What must hold of one slot for `i` to gain at most what `j` gains: the block carries no unban of either, nobody is
consolidating into `i`, and from Electra on the beacon node reports at most the effective balance of `j` for `i`. -/
structure Ranked (E : Env) (net : Str) (b : FullBlock) (i j : Nat) : Prop where
  unbans : ∀ ev ∈ b.events.unbans, ev.validatorId ≠ i ∧ ev.validatorId ≠ j
  consol : ∀ t cs, E.consol t b.dutySlot = some cs → ∀ p ∈ cs, p.2 ≠ i
  stake : PostElectra net b.dutySlot → LessStake E b.dutySlot i j

theorem SlotEffect.ranks {E : Env} {net pool : Str} {b : FullBlock} {i j : Nat} {s s' : State}
    (hm : Modern E net i j s) (hn : NNPend s) (hp : NonNegPayments b) (hrew : ∀ r, RewardIs b r → 0 ≤ r)
    (hub : ∀ ev ∈ b.events.unbans, ev.validatorId ≠ i ∧ ev.validatorId ≠ j)
    (h : SlotEffect E net pool b s s') {v w} (hv : VMap.get s.vals i = some v) (hw : VMap.get s.vals j = some w)
    (ev : Earning v) (ew : Earning w) : s'.nextSlot = s.nextSlot ∧ s'.fee = s.fee ∧ NNPend s' ∧
    ∃ v' w', VMap.get s'.vals i = some v' ∧ VMap.get s'.vals j = some w' ∧
      (Earning v' → Earning w' → v'.wealth - v.wealth - ownerSent b i ≤ w'.wealth - w.wealth - ownerSent b j) := by
  obtain ⟨s1, s2, s3, dons, s4, s5, tot, s6, h1, h2, h3, h4, h5, h6, h7, rfl⟩ := h
  have sub : ∀ {v}, Earning v → Subscribed v.status := fun k => k.elim Or.inl fun k => Or.inr (Or.inl k)
  have gi := h1.settled hv (Or.inl (sub ev))
  have gj := h1.settled hw (Or.inl (sub ew))
  obtain ⟨n1, f1, z1⟩ := h1.keeps fun p hp' => hp.2 _ (List.of_mem_zip hp').1
  have m1 := hm.of n1 f1
  have z1 := z1 hn
  have a : TrailsFrom i j s1 s2 := h2.ranks m1 z1 hrew
  have m2 := m1.of a.slot a.fee
  have z2 := a.nn z1
  have c3 := h3.ranks m2 z2
  have m3 := m2.next c3
  have hdons : ∀ d ∈ dons, 0 ≤ d.amount := by
    intro d hd
    by_cases hc : b.cons = none
    · rw [h4.missed hc] at hd; simp at hd
    · by_cases hb : ∃ x, BuilderPaid b pool x
      · obtain ⟨x, hb⟩ := hb
        rw [h4.builder x hb] at hd
        exact hp.1 d (List.mem_filter.mp hd).1
      · rw [h4.other hc fun x hx => hb ⟨x, hx⟩] at hd
        exact hp.1 d hd
  have c4 := h5.ranks m3 hdons
  have c5 := h6.ranks (i := i) (j := j)
  have m5 := (m3.next c4).next c5
  have c6 : Trails i j s5 s6 := by
    rcases h7 with ⟨ht, h7⟩ | ⟨_, rfl⟩
    · exact Trails.of_shares m5 (le_of_lt ht) h7
    · exact Trails.refl ..
  have c7 : Trails i j s6 { s6 with vals := unbanned s6.vals b.events.unbans } := by
    refine ⟨rfl, rfl, ?_, ?_⟩
    · intro hn x v hv
      dsimp only at hv
      rw [get_unbanned] at hv
      cases hx : VMap.get s6.vals x with
      | none => rw [hx] at hv; simp at hv
      | some u =>
        rw [hx, Option.map_some, Option.some.injEq] at hv
        rw [← hv]
        have := hn x u hx
        split <;> exact this
    · intro _ v w hv hw
      dsimp only
      rw [get_unbanned, get_unbanned, hv, hw, Option.map_some, Option.map_some,
        if_neg (by rintro ⟨_, ev, h, k⟩; exact (hub ev h).1 k), if_neg (by rintro ⟨_, ev, h, k⟩; exact (hub ev h).2 k)]
      exact ⟨v, w, rfl, rfl, id, id, fun _ _ => by omega⟩
  have all := ((((a.trans c3).trans c4).trans c5).trans c6).trans c7
  refine ⟨all.slot.trans n1, all.fee.trans f1, all.nn z1, ?_⟩
  obtain ⟨v', w', r1, r2, r3⟩ := all.gain z1 _ _ gi gj ev ew
  refine ⟨v', w', r1, r2, fun k1 k2 => ?_⟩
  have := r3 k1 k2
  simp only [Validator.wealth] at this ⊢
  unfold ownerSent
  omega

/-- No transaction of the block carries a negative value. -/
def NonNegValues (b : FullBlock) : Prop :=
  ∀ c tx, b.cons = some c → some tx ∈ c.txs → 0 ≤ tx.value

theorem reward_nonneg {b : FullBlock} {r : Int} (hg : GasOK b) (hv : NonNegValues b) (h : RewardIs b r) : 0 ≤ r := by
  cases h with
  | exception => decide
  | builder h =>
    obtain ⟨_, c, _, h1, ⟨c', k1, k2, _⟩, _⟩ := h
    exact hv c' _ k1 (List.mem_of_getLast? k2)
  | fees _ _ h1 h2 h3 => exact priorityFees_nonneg (hg _ _ _ h1 h2 h3).pays

/-- A history during which validators `i` and `j` both take part in the sharing, and `i` has at most as much at stake
as `j`. No payment is negative. -/
inductive SideBySide (E : Env) (i j : Nat) : Oracle → List FullBlock → Oracle → Prop
  | nil {o v w} : VMap.get o.st.vals i = some v → VMap.get o.st.vals j = some w → Earning v → Earning w →
      SideBySide E i j o [] o
  | cons {o b o1 n bs o2 v w} : VMap.get o.st.vals i = some v → VMap.get o.st.vals j = some w → Earning v →
      Earning w → Ranked E o.cfg.network b i j → GasOK b → NonNegPayments b → NonNegValues b →
      advanceState E o b = .ok (o1, some n) → SideBySide E i j o1 bs o2 → SideBySide E i j o (b :: bs) o2

section
variable {E : Env} (hE : ValidEnv E) (hX : ExactEnv E) (hC : NoSelfConsol E) (hB : SaneBalances E)
include hE hX hC hB

/-- **C95.** From the first fork on, as long as two members take part in the sharing, the one with more at stake gains
at least as much as the other, apart from collateral their owners send back in, no matter which of them proposes
blocks, how many, or how much those pay. -/
theorem C95_more_stake_not_less {cfg : Config} {bs0 bs : List FullBlock} {o o' : Oracle} {i j : Nat}
    (h0 : Hist E (newOracle cfg) bs0 o) (hn : NonNeg o.st) (hf0 : 0 ≤ o.st.fee) (hf1 : o.st.fee ≤ 10000)
    (hpf : PostFork1 o.cfg.network o.st.nextSlot) (hlen : o.st.nextSlot + bs.length < 18446744073709551616)
    (h : SideBySide E i j o bs o') :
    ∀ v w, VMap.get o.st.vals i = some v → VMap.get o.st.vals j = some w →
      ∃ v' w', VMap.get o'.st.vals i = some v' ∧ VMap.get o'.st.vals j = some w' ∧
        (v'.pend + v'.acc) - (v.pend + v.acc) - (bs.map fun b => ownerSent b i).sum ≤
          (w'.pend + w'.acc) - (w.pend + w.acc) - (bs.map fun b => ownerSent b j).sum := by
  induction h generalizing bs0 with
  | nil h1 h2 h3 h4 => exact fun v w hv hw => ⟨v, w, hv, hw, by simp⟩
  | @cons o b o1 n bs o2 v0 w0 h1 h2 h3 h4 ha hg hp hval hstep htail ih =>
    intro v w hv hw
    rw [h1, Option.some.injEq] at hv
    rw [h2, Option.some.injEq] at hw
    subst hv hw
    simp only [List.length_cons] at hlen
    obtain ⟨hs, _⟩ := hist_five hE hX hC h0 List.Pairwise.nil (by intro p hp; simp [newOracle] at hp)
    obtain ⟨_, n1, f1⟩ := slot_nonneg hE hX hC hB hs hn hf0 hpf hp hg hstep
    have f2 : o1.st.fee ≤ 10000 := by rcases slot_fee hstep with e | e <;> rw [e]; exact hf1; decide
    obtain ⟨e1, e2⟩ := slot_nextSlot hstep
    have e3 : u64 (o.st.nextSlot + 1) = o.st.nextSlot + 1 := Nat.mod_eq_of_lt (by omega)
    obtain ⟨s7, s8, k1, k2, k3, k4, k5, k6⟩ := C60_slot_refines hE hX hC h0 hstep hg
    have hduty : b.dutySlot = o.st.nextSlot := by omega
    have hm : Modern E o.cfg.network i j { o.st with
        fee := o1.st.fee, subs := o.st.subs ++ b.events.subs, unsubs := o.st.unsubs ++ b.events.unsubs,
        ether := o.st.ether ++ b.events.ether } :=
      ⟨f1, f2, hpf, hB, by dsimp only; rw [← hduty]; exact ha.stake⟩
    have hnn : NNPend { o.st with
        fee := o1.st.fee, subs := o.st.subs ++ b.events.subs, unsubs := o.st.unsubs ++ b.events.unsubs,
        ether := o.st.ether ++ b.events.ether } := fun x v hv => (hn.2 _ (mem_of_get hv)).1
    have hrew : ∀ r, RewardIs b r → 0 ≤ r := fun r hr => reward_nonneg hg hval hr
    obtain ⟨q1, q2, q3, v7, w7, m1, m2, m3⟩ := SlotEffect.ranks hm hnn hp hrew ha.unbans k1 (by exact h1) (by exact h2)
      h3 h4
    have hc : Trails i j s7 s8 := by
      by_cases hz : n % 1200 = 0
      · exact (k2 hz).ranks (hm.of q1 q2) q3 (by rw [k5]; exact ha.consol)
      · rw [k3 hz]; exact Trails.refl ..
    obtain ⟨v8, w8, r1, r2, r3, r4, r5⟩ := hc.gain q3 v7 w7 m1 m2
    have g1 : VMap.get o1.st.vals i = some v8 := by rw [k6]; exact r1
    have g2 : VMap.get o1.st.vals j = some w8 := by rw [k6]; exact r2
    have hlive : Earning v8 ∧ Earning w8 := by
      cases htail with
      | nil a1 a2 a3 a4 => rw [g1] at a1; rw [g2] at a2; cases a1; cases a2; exact ⟨a3, a4⟩
      | cons a1 a2 a3 a4 => rw [g1] at a1; rw [g2] at a2; cases a1; cases a2; exact ⟨a3, a4⟩
    obtain ⟨v', w', t1, t2, t3⟩ := ih (h0.snoc hstep) n1 f1 f2 (by rw [e1, e2]; exact postFork1_next hpf (by omega))
      (by rw [e1, e3]; omega) v8 w8 g1 g2
    refine ⟨v', w', t1, t2, ?_⟩
    have a1 := r5 hlive.1 hlive.2
    have a2 := m3 (r3 hlive.1) (r4 hlive.2)
    simp only [Validator.wealth] at a1 a2
    simp only [List.map_cons, List.sum_cons]
    omega

end

/-! ### A concrete case -/

namespace Sample

/-- validator 2 pays 5000 to the pool and becomes a member, validator 5, with more at stake, subscribes -/
def unequal0 : FullBlock :=
  { prop 12000000 2 builder (tx builder pool 5000)
      { ether := [⟨5000, pool, 100⟩], subs := [⟨5, 1000, addr 5, 100⟩] } with
    valsSubs := [some (bval 5)] }

/-- validator 2 proposes again, somebody donates, then validator 5 misses -/
def unequal : List FullBlock :=
  [prop 12000001 2 pool (tx (addr 50) (addr 51) 1) { ether := [⟨301, pool, 100⟩] }, miss 12000002 5]

/-- the pool with both of them -/
def unequalOracle : Oracle := (run env (newOracle cfg) [unequal0]).getD (newOracle cfg)

theorem unequal_start : Hist env (newOracle cfg) [unequal0] unequalOracle := run_some (by decide +kernel)

theorem sideBySide_of_run {E : Env} {i j : Nat} {net : Str} {o : Oracle} {bs : List FullBlock} {o' : Oracle}
    (hnet : o.cfg.network = net)
    (ha : ∀ b ∈ bs, Ranked E net b i j ∧ GasOK b ∧ NonNegPayments b ∧ NonNegValues b)
    (h : runTogether E i j o bs = some o') : SideBySide E i j o bs o' := by
  induction bs generalizing o with
  | nil =>
    simp only [runTogether] at h
    split at h
    · rename_i hb
      obtain ⟨v, w, a1, a2, a3, a4⟩ := bothEarn_iff hb
      cases h
      exact .nil a1 a2 a3 a4
    · cases h
  | cons b bs ih =>
    simp only [runTogether] at h
    split at h
    · rename_i hb
      obtain ⟨v, w, a1, a2, a3, a4⟩ := bothEarn_iff hb
      split at h
      · rename_i o1 n h1
        have e : o1.cfg.network = net := by
          obtain ⟨_, _, _, _, _, _, _, _, h0, _⟩ := slot_frame h1
          rw [h0]; exact hnet
        obtain ⟨b1, b2, b3, b4⟩ := ha b (by simp)
        exact .cons a1 a2 a3 a4 (hnet ▸ b1) b2 b3 b4 h1 (ih e (fun c hc => ha c (by simp [hc])) h)
      · cases h
    · cases h

theorem unequal_stake (slot : Nat) : LessStake env slot 2 5 := by
  intro t req r t' req' r' u u' h h' hu hu' hi hj
  rw [env_node h] at hu
  rw [env_node h'] at hu'
  obtain ⟨k, _, rfl⟩ := List.mem_map.mp hu
  obtain ⟨k', _, rfl⟩ := List.mem_map.mp hu'
  rw [index_if] at hi hj
  subst hi hj
  decide

theorem unequal_ok : ∀ b ∈ unequal,
    Ranked env cfg.network b 2 5 ∧ GasOK b ∧ NonNegPayments b ∧ NonNegValues b := by
  intro b hb
  have hev : b.events.unbans = [] := by
    simp only [unequal, List.mem_cons, List.not_mem_nil, or_false] at hb
    rcases hb with rfl | rfl <;> rfl
  refine ⟨⟨by rw [hev]; simp, ?_, fun _ => unequal_stake _⟩, ?_⟩
  · intro t cs h p hp
    simp only [env, Option.some.injEq] at h
    subst h
    simp at hp; subst hp; decide
  · simp only [unequal, List.mem_cons, List.not_mem_nil, or_false] at hb
    rcases hb with rfl | rfl
    · refine ⟨fun c h rs hc hh hr => ?_, ⟨by decide, by decide⟩, ?_⟩
      · simp only [prop, Option.some.injEq] at hc hh hr
        subst hc hh hr
        refine ⟨rfl, ?_, rfl, by norm_num, ?_⟩
        · intro n hn; simp only [BaseFee.u256.injEq] at hn; subst hn; norm_num
        · intro tx htx
          simp only [List.mem_singleton, Option.some.injEq] at htx
          subst htx; decide
      · intro c tx hc htx
        simp only [prop, Option.some.injEq] at hc
        subst hc
        simp only [List.mem_singleton, Option.some.injEq] at htx
        subst htx; decide
    · exact ⟨fun c h rs hc => by simp [miss] at hc, ⟨by decide, by decide⟩, fun c tx hc => by simp [miss] at hc⟩

/-- the pool afterwards -/
def unequalFinal : Oracle := (runTogether env 2 5 unequalOracle unequal).getD unequalOracle

theorem unequal_together : SideBySide env 2 5 unequalOracle unequal unequalFinal := by
  have h : (runTogether env 2 5 unequalOracle unequal).isSome := by decide +kernel
  obtain ⟨o', ho⟩ := Option.isSome_iff_exists.mp h
  have e : unequalFinal = o' := by unfold unequalFinal; rw [ho]; rfl
  rw [e]
  exact sideBySide_of_run (net := cfg.network) (by decide +kernel) unequal_ok ho

end Sample

/-- the hypotheses of C95: validator 2 proposes a block worth 63000, validator 5 misses one, and yet validator 5 gains
more, for it has more at stake -/
example : ValidEnv Sample.env ∧ ExactEnv Sample.env ∧ NoSelfConsol Sample.env ∧ SaneBalances Sample.env ∧
    Hist Sample.env (newOracle Sample.cfg) [Sample.unequal0] Sample.unequalOracle ∧
    NonNeg Sample.unequalOracle.st ∧ 0 ≤ Sample.unequalOracle.st.fee ∧ Sample.unequalOracle.st.fee ≤ 10000 ∧
    PostFork1 Sample.unequalOracle.cfg.network Sample.unequalOracle.st.nextSlot ∧
    Sample.unequalOracle.st.nextSlot + Sample.unequal.length < 18446744073709551616 ∧
    SideBySide Sample.env 2 5 Sample.unequalOracle Sample.unequal Sample.unequalFinal ∧
    (VMap.get Sample.unequalOracle.st.vals 2).map Validator.wealth = some 2226 ∧
    (VMap.get Sample.unequalFinal.st.vals 2).map Validator.wealth = some 30417 ∧
    (VMap.get Sample.unequalOracle.st.vals 5).map Validator.wealth = some 3423 ∧
    (VMap.get Sample.unequalFinal.st.vals 5).map Validator.wealth = some 34100 := by
  refine ⟨Sample.env_valid, Sample.env_exact, Sample.env_noSelf, Sample.env_sane, Sample.unequal_start,
    by unfold NonNeg; decide +kernel, by decide +kernel, by decide +kernel, by decide +kernel, by decide +kernel,
    Sample.unequal_together, ?_, ?_, ?_, ?_⟩ <;> decide +kernel

end Verif
