import Verif.Props.Refinement
import Verif.Props.Money
import Verif.Props.View
import Verif.Lemmas.CleanSpec
/-
C90: only a validator's own doing, the governance or the beacon chain takes money from it.
C91: members with the same stake earn the same.
-/
namespace Verif
open VMap Relation

/-- everything a validator has in the pool -/
def Validator.wealth (v : Validator) : Int := v.pend + v.acc

/-! ### C90 -/

/-- What takes the pending balance of validator `i` away: it proposes a block that does not pay the pool, its owner
unsubscribes it, the governance bans it, or the beacon chain reports at a cleanup that it is not active. -/
inductive Forfeits (E : Env) (pool : Str) (b : FullBlock) (i : Nat) : Prop
  | elsewhere : PaysElsewhere b pool i → Forfeits E pool b i
  | leaves : OwnerUnsubscribes b i → Forfeits E pool b i
  | ban {ev} : ev ∈ b.events.bans → ev.validatorId = i → Forfeits E pool b i
  | gone : b.dutySlot % 1200 = 0 → NotActive E b.dutySlot i → Forfeits E pool b i

theorem Op.Step.wealth {x op a b} (hx : x) (h : Op.Step x op a b) (ha : a.NonNeg) {i v}
    (hv : VMap.get a.vals i = some v) (h1 : ∀ e, op ≠ .seize i e) (h2 : ∀ j, op ≠ .move i j) :
    ∃ v', VMap.get b.vals i = some v' ∧ v.wealth ≤ v'.wealth := by
  have hf := ha.2.1
  cases h with
  | dist _ sh fees k1 k2 k3 k4 =>
    dsimp only
    rw [get_credit, hv]
    refine ⟨_, rfl, ?_⟩
    have : 0 ≤ shareOf sh i := by
      unfold shareOf
      apply sum_nonneg
      intro y hy
      obtain ⟨r, hr, rfl⟩ := List.mem_map.mp hy
      exact (k4 hx hf).2 r (List.mem_filter.mp hr).1
    unfold Validator.wealth
    dsimp only
    omega
  | seize _ j e u hu he =>
    have hne : i ≠ j := fun e' => h1 e (by rw [e'])
    exact ⟨v, by dsimp only; rw [get_modify_ne _ _ hne, hv], le_refl _⟩
  | move _ k j u w hu hw hkj hb =>
    have hne : i ≠ k := fun e' => h2 j (by rw [e'])
    have hu0 : 0 ≤ u.pend := (ha.2.2 _ (mem_of_get hu)).1
    dsimp only
    rw [get_modify]
    by_cases e : i = j
    · subst e
      rw [if_pos rfl, get_modify_ne _ _ hne, hv]
      exact ⟨_, rfl, by unfold Validator.wealth; dsimp only; omega⟩
    · rw [if_neg e, get_modify_ne _ _ hne, hv]
      exact ⟨v, rfl, le_refl _⟩
  | create _ j u hn _ _ _ _ =>
    have hne : i ≠ j := by rintro rfl; rw [hn] at hv; cases hv
    exact ⟨v, by dsimp only; rw [get_insert, if_neg hne, hv], le_refl _⟩
  | recv _ y => exact ⟨v, hv, le_refl _⟩
  | toPool _ => exact ⟨v, hv, le_refl _⟩
  | _ =>
    dsimp only
    rw [get_modify]
    split
    · rename_i e
      subst e
      rw [hv]
      exact ⟨_, rfl, by unfold Validator.wealth; dsimp only [setStatus]; omega⟩
    · exact ⟨v, hv, le_refl _⟩

theorem Path.wealth {x ops a b} (hx : x) (h : Path x ops a b) (ha : a.NonNeg) (hr : ∀ y, Op.recv y ∈ ops → 0 ≤ y)
    {i v} (hv : VMap.get a.vals i = some v) (h1 : ∀ e, Op.seize i e ∉ ops) (h2 : ∀ j, Op.move i j ∉ ops) :
    ∃ v', VMap.get b.vals i = some v' ∧ v.wealth ≤ v'.wealth := by
  induction h generalizing v with
  | nil => exact ⟨v, hv, le_refl _⟩
  | cons hs _ ih =>
    obtain ⟨v1, k1, k2⟩ := hs.wealth hx ha hv (fun e he => h1 e (by simp [he])) (fun j hj => h2 j (by simp [hj]))
    obtain ⟨v2, k3, k4⟩ := ih (hs.nonneg hx ha (fun y hy => hr y (by simp [hy]))) (fun y hy => hr y (by simp [hy])) k1
      (fun e he => h1 e (by simp [he])) (fun j hj => h2 j (by simp [hj]))
    exact ⟨v2, k3, le_trans k2 k4⟩

section
variable {E : Env} (hE : ValidEnv E) (hX : ExactEnv E) (hC : NoSelfConsol E) (hB : SaneBalances E)
include hE hX hC hB

theorem slot_wealth {o o' : Oracle} {b : FullBlock} {n : Nat} (hs : MapOK o.st) (hn : NonNeg o.st)
    (hf : 0 ≤ o.st.fee) (hpf : PostFork1 o.cfg.network o.st.nextSlot) (hp : NonNegPayments b) (hg : GasOK b)
    (h : advanceState E o b = .ok (o', some n)) {i v} (hv : VMap.get o.st.vals i = some v)
    (hno : ¬ Forfeits E o.cfg.poolAddr b i) :
    ∃ v', VMap.get o'.st.vals i = some v' ∧ v.wealth ≤ v'.wealth := by
  have hfee : 0 ≤ o'.st.fee := by rcases slot_fee h with e | e <;> rw [e]; exact hf; decide
  obtain ⟨sb, dons, r, ops, k1, k2, _, _, hpath, _, hc, hnn, _⟩ := slot_runs (x := True) hE hX hC hs
    (fun _ => ⟨hfee, hpf, hB⟩) h
  have hduty : n = b.dutySlot := by
    obtain ⟨sb', _, _, _, _, h0, _, _, _, _, h1, h2, _⟩ := slot_frame h
    rw [h1, ← h2]
    exact (summarize_slot h0).1
  subst hduty
  have hidx := (summarize_slot k1).2.1
  have hwf := (summarize_paid k1).2.1
  refine hpath.wealth trivial ⟨hn.1, le_refl _, hn.2⟩ (fun y hy => recv_nonneg k1 k2 hp hg (hc _ hy)) hv ?_ ?_
  · intro e he
    have := hc _ he
    cases e with
    | unsubscribe =>
      rcases this with h1 | ⟨h1, h2⟩
      · exact hno (.leaves h1)
      · exact hno (.gone h1 h2)
    | proposalWrongFee => exact hno (.elsewhere ⟨hidx.symm.trans this.2, (hwf.mp this.1).1, (hwf.mp this.1).2⟩)
    | manualBan =>
      obtain ⟨ev, h1, h2⟩ := this
      exact hno (.ban h1 h2)
    | _ => exact this.elim
  · intro j hj
    obtain ⟨h1, h2, _⟩ := hc _ hj
    exact hno (.gone h1 h2)

/-- **C90.** Over any history from the first fork on, whatever everybody else does: what a validator has in the pool,
pending and accumulated together, does not shrink unless the validator itself proposes a block that does not pay
the pool, its owner unsubscribes it, the governance bans it, or the beacon chain reports that it is not active. -/
theorem C90_nobody_else_takes {o o' : Oracle} {bs : List FullBlock} (hs : MapOK o.st) (hn : NonNeg o.st)
    (hf : 0 ≤ o.st.fee) (hpf : PostFork1 o.cfg.network o.st.nextSlot)
    (hlen : o.st.nextSlot + bs.length < 18446744073709551616) (hb : ∀ b ∈ bs, NonNegPayments b ∧ GasOK b)
    (h : Hist E o bs o') {i v} (hv : VMap.get o.st.vals i = some v)
    (hno : ∀ b ∈ bs, ¬ Forfeits E o.cfg.poolAddr b i) :
    ∃ v', VMap.get o'.st.vals i = some v' ∧ v.pend + v.acc ≤ v'.pend + v'.acc := by
  induction h generalizing v with
  | nil => exact ⟨v, hv, le_refl _⟩
  | @cons o b o1 n bs o2 hstep _ ih =>
    have hb1 := hb b (by simp)
    simp only [List.length_cons] at hlen
    obtain ⟨m1, n1, f1⟩ := slot_nonneg hE hX hC hB hs hn hf hpf hb1.1 hb1.2 hstep
    obtain ⟨v1, g1, g2⟩ := slot_wealth hE hX hC hB hs hn hf hpf hb1.1 hb1.2 hstep hv (hno b (by simp))
    obtain ⟨e1, e2⟩ := slot_nextSlot hstep
    have e3 : u64 (o.st.nextSlot + 1) = o.st.nextSlot + 1 := Nat.mod_eq_of_lt (by omega)
    have e4 : o1.cfg.poolAddr = o.cfg.poolAddr := by
      obtain ⟨_, _, _, _, _, _, _, _, h0, _⟩ := slot_frame hstep
      rw [h0]
    obtain ⟨v2, g3, g4⟩ := ih m1 n1 f1 (by rw [e1, e2]; exact postFork1_next hpf (by omega)) (by rw [e1, e3]; omega)
      (fun c hc => hb c (by simp [hc])) g1 (fun c hc => by rw [e4]; exact hno c (by simp [hc]))
    exact ⟨v2, g3, le_trans g2 g4⟩

end

/-! ### C91 -/

/-- Validators `i` and `j` gain the same from `s` to `s'`, unless one of them stops earning. -/
structure Even (i j : Nat) (s s' : State) : Prop where
  slot : s'.nextSlot = s.nextSlot
  gain : ∀ v w, VMap.get s.vals i = some v → VMap.get s.vals j = some w →
    ∃ v' w', VMap.get s'.vals i = some v' ∧ VMap.get s'.vals j = some w' ∧ (Earning v' → Earning v) ∧
      (Earning w' → Earning w) ∧
      (Earning v' → Earning w' → v'.wealth - v.wealth = w'.wealth - w.wealth)

theorem Even.refl (i j : Nat) (s : State) : Even i j s s :=
  ⟨rfl, fun v w h1 h2 => ⟨v, w, h1, h2, id, id, fun _ _ => by omega⟩⟩

theorem Even.trans {i j : Nat} {s1 s2 s3 : State} (h : Even i j s1 s2) (h' : Even i j s2 s3) : Even i j s1 s3 := by
  refine ⟨h'.slot.trans h.slot, fun v w hv hw => ?_⟩
  obtain ⟨v1, w1, a1, a2, a3, a4, a5⟩ := h.gain v w hv hw
  obtain ⟨v2, w2, b1, b2, b3, b4, b5⟩ := h'.gain v1 w1 a1 a2
  refine ⟨v2, w2, b1, b2, fun k => a3 (b3 k), fun k => a4 (b4 k), fun k1 k2 => ?_⟩
  have := b5 k1 k2
  have := a5 (b3 k1) (b4 k2)
  omega

/-- the records of a step that does not concern the two validators -/
theorem Even.of_same {i j : Nat} {s s' : State} (h0 : s'.nextSlot = s.nextSlot)
    (hi : VMap.get s'.vals i = VMap.get s.vals i) (hj : VMap.get s'.vals j = VMap.get s.vals j) : Even i j s s' :=
  ⟨h0, fun v w h1 h2 => ⟨v, w, hi.trans h1, hj.trans h2, id, id, fun _ _ => by omega⟩⟩

/-- one validator is changed, and if it still earns, its money is as before -/
theorem Even.of_modify {i j k : Nat} {s s' : State} {f : Validator → Validator} (h0 : s'.nextSlot = s.nextSlot)
    (hv : s'.vals = VMap.modify s.vals k f)
    (hf : ∀ v, VMap.get s.vals k = some v → Earning (f v) → Earning v ∧ (f v).wealth = v.wealth) : Even i j s s' := by
  have one : ∀ x v, VMap.get s.vals x = some v → ∃ v', VMap.get s'.vals x = some v' ∧
      (Earning v' → Earning v ∧ v'.wealth = v.wealth) := by
    intro x v h
    rw [hv, get_modify]
    split
    · rename_i e
      subst e
      rw [h]
      exact ⟨_, rfl, hf v h⟩
    · exact ⟨v, h, fun k => ⟨k, rfl⟩⟩
  refine ⟨h0, fun v w h1 h2 => ?_⟩
  obtain ⟨v', a1, a2⟩ := one i v h1
  obtain ⟨w', b1, b2⟩ := one j w h2
  refine ⟨v', w', a1, b1, fun k => (a2 k).1, fun k => (b2 k).1, fun k1 k2 => ?_⟩
  have := (a2 k1).2
  have := (b2 k2).2
  omega

/-- one validator is thrown out -/
theorem Even.leaver {i j k : Nat} {s : State} {st : Status} (h : ¬ (st = .active ∨ st = .yellowCard)) :
    Even i j s { s with vals := VMap.modify s.vals k fun v => { v with status := st, pend := 0 } } :=
  Even.of_modify (k := k) (f := fun v => { v with status := st, pend := 0 }) rfl rfl fun _ _ e => absurd e h

/-- The beacon node reports the same effective balance for both validators, whenever it is asked at this slot. -/
def SameStake (E : Env) (slot i j : Nat) : Prop :=
  ∀ t req r t' req' r' u u', E.node t slot req = some r → E.node t' slot req' = some r' → u ∈ r → u' ∈ r' →
    u.index = i → u'.index = j → u.effBal = u'.effBal

theorem Even.of_shares {E : Env} {net : Str} {i j : Nat} {s s' : State} {r : Int} (hsb : SaneBalances E)
    (hst : PostElectra net s.nextSlot → SameStake E s.nextSlot i j) (h : Shares E net s r s') : Even i j s s' := by
  obtain ⟨share, hrule, e⟩ := h
  have h0 : s'.nextSlot = s.nextSlot := by rw [e]
  have key : ∀ i, VMap.get s'.vals i = (VMap.get s.vals i).map fun v =>
      if Earning v then { v with pend := v.pend + share i } else v := by
    intro i
    have e1 : s'.vals = s.vals.map fun p =>
        (p.1, if Earning p.2 then { p.2 with pend := p.2.pend + share p.1 } else p.2) := by rw [e]
    rw [e1]
    exact get_map_of (g := fun i v => if Earning v then { v with pend := v.pend + share i } else v)
  refine ⟨h0, fun v w hv hw => ?_⟩
  rw [key, key, hv, hw]
  have same : ∀ {v : Validator} {x : Int}, Earning (if Earning v then { v with pend := v.pend + x } else v) →
      Earning v := by
    intro v x k
    by_contra hne
    rw [if_neg hne] at k
    exact hne k
  refine ⟨_, _, rfl, rfl, same, same, fun k1 k2 => ?_⟩
  have k1 := same k1
  have k2 := same k2
  dsimp only
  rw [if_pos k1, if_pos k2]
  have hsh : share i = share j := by
    by_cases hel : PostElectra net s.nextSlot
    · have hcnt : 0 < earningCount s := by
        unfold earningCount
        exact List.countP_pos_iff.mpr ⟨_, mem_of_get hv, by simpa using k1⟩
      obtain ⟨t, req, bals, h1, h2, h3⟩ := hrule.electra hel hcnt
      obtain ⟨u, hu, hui⟩ := (h2 i).mpr ⟨v, hv, k1⟩
      obtain ⟨u', hu', hui'⟩ := (h2 j).mpr ⟨w, hw, k2⟩
      have a := h3 (hsb _ _ _ _ h1) u hu
      have b := h3 (hsb _ _ _ _ h1) u' hu'
      rw [← hui, ← hui', a, b, hst hel _ _ _ _ _ _ u u' h1 h1 hu hu' hui hui']
    · by_cases hpf : PostFork1 net s.nextSlot
      · rw [hrule.fork1 hpf hel i v hv k1, hrule.fork1 hpf hel j w hw k2]
      · rw [hrule.old hpf hel i v hv k1, hrule.old hpf hel j w hw k2]
  unfold Validator.wealth
  dsimp only
  rw [hsh]
  omega

/-- The same for two validators that earn at the start. -/
structure EvenFrom (i j : Nat) (s s' : State) : Prop where
  slot : s'.nextSlot = s.nextSlot
  gain : ∀ v w, VMap.get s.vals i = some v → VMap.get s.vals j = some w → Earning v → Earning w →
    ∃ v' w', VMap.get s'.vals i = some v' ∧ VMap.get s'.vals j = some w' ∧
      (Earning v' → Earning w' → v'.wealth - v.wealth = w'.wealth - w.wealth)

theorem EvenFrom.trans {i j : Nat} {s1 s2 s3 : State} (h : EvenFrom i j s1 s2) (h' : Even i j s2 s3) :
    EvenFrom i j s1 s3 := by
  refine ⟨h'.slot.trans h.slot, fun v w hv hw e1 e2 => ?_⟩
  obtain ⟨v1, w1, a1, a2, a5⟩ := h.gain v w hv hw e1 e2
  obtain ⟨v2, w2, b1, b2, b3, b4, b5⟩ := h'.gain v1 w1 a1 a2
  refine ⟨v2, w2, b1, b2, fun k1 k2 => ?_⟩
  have := b5 k1 k2
  have := a5 (b3 k1) (b4 k2)
  omega

theorem Even.from {i j : Nat} {s s' : State} (h : Even i j s s') : EvenFrom i j s s' :=
  ⟨h.slot, fun v w hv hw _ _ => by
    obtain ⟨v1, w1, a1, a2, _, _, a5⟩ := h.gain v w hv hw
    exact ⟨v1, w1, a1, a2, a5⟩⟩

theorem enrolled_wealth {m : VMap} {k x : Nat} {a key : Str} {v : Validator} (h : VMap.get m x = some v) :
    ∃ v', VMap.get (enrolled m k a key) x = some v' ∧ v'.wealth = v.wealth := by
  unfold enrolled
  split
  · rename_i e
    have : x ≠ k := by rintro rfl; rw [h] at e; simp at e
    exact ⟨v, by rw [get_insert, if_neg this, h], rfl⟩
  · rw [get_modify]
    split
    · rename_i e1 e2
      subst e2
      rw [h]
      exact ⟨_, rfl, rfl⟩
    · exact ⟨v, h, rfl⟩

theorem afterMiss_earning {st : Status} (h : afterMiss st = .active ∨ afterMiss st = .yellowCard) :
    st = .active ∨ st = .yellowCard := by
  cases st <;> simp_all [afterMiss]

theorem ProposalEffect.fair {E : Env} {net pool : Str} {b : FullBlock} {i j : Nat} {s s' : State}
    (hsb : SaneBalances E) (hst : PostElectra net s.nextSlot → SameStake E s.nextSlot i j)
    (h : ProposalEffect E net pool b s s') : EvenFrom i j s s' := by
  cases h with
  | missed h1 h2 h3 h4 =>
    refine Even.from ?_
    refine Even.of_modify (k := b.dutyIndex) (f := fun v => { v with status := afterMiss v.status }) rfl rfl ?_
    exact fun v _ k => ⟨afterMiss_earning k, rfl⟩
  | outsider h1 h2 => exact (Even.refl i j s).from
  | elsewhere h1 h2 h3 h4 h5 h6 =>
    have a := Even.leaver (i := i) (j := j) (s := s) (k := b.dutyIndex) (st := .banned) (by simp)
    have c := Even.of_shares (i := i) (j := j) hsb (by exact hst) h5
    refine ((a.trans c).trans ?_).from
    exact Even.of_same rfl rfl rfl
  | @pays w r sb s2 h1 h2 h3 h4 h5 h6 h7 =>
    have a : EvenFrom i j s { s with vals := enrolled s.vals b.dutyIndex w b.dutyKey } := by
      refine ⟨rfl, fun v u hv hu _ _ => ?_⟩
      obtain ⟨v', a1, a2⟩ := enrolled_wealth (k := b.dutyIndex) (a := w) (key := b.dutyKey) hv
      obtain ⟨u', b1, b2⟩ := enrolled_wealth (k := b.dutyIndex) (a := w) (key := b.dutyKey) hu
      exact ⟨v', u', a1, b1, fun _ _ => by omega⟩
    have c := Even.of_shares (i := i) (j := j) hsb (by exact hst) h4
    have d : Even i j s2 { s2 with vals := paidOut s2.vals b.dutyIndex, proposed := s.proposed ++ [sb] } := by
      refine Even.of_modify (k := b.dutyIndex) (f := fun v => { v with acc := v.acc + v.pend, pend := 0 }) rfl rfl ?_
      exact fun v _ k => ⟨k, by simp only [Validator.wealth]; omega⟩
    exact (a.trans c).trans d
  | noAddress h1 h2 h3 h4 h5 =>
    refine Even.from ?_
    exact Even.of_same rfl rfl rfl

theorem UnsubEffects.fair {E : Env} {net : Str} {i j : Nat} {s s' : State} {l}
    (hsb : SaneBalances E) (hst : PostElectra net s.nextSlot → SameStake E s.nextSlot i j)
    (h : UnsubEffects E net s l s') : Even i j s s' := by
  induction h with
  | nil => exact Even.refl ..
  | @cons s p s1 l s2 he _ ih =>
    have a : Even i j s s1 := by
      cases he with
      | leaves h1 h2 h3 h4 =>
        have a := Even.leaver (i := i) (j := j) (s := s) (k := p.1.validatorId) (st := .notSubscribed) (by simp)
        exact a.trans (Even.of_shares hsb (by exact hst) h4)
      | nothing => exact Even.refl ..
    exact a.trans (ih (by rw [a.slot]; exact hst))

theorem DonEffects.fair {E : Env} {net : Str} {i j : Nat} {s s' : State} {l}
    (hsb : SaneBalances E) (hst : PostElectra net s.nextSlot → SameStake E s.nextSlot i j)
    (h : DonEffects E net s l s') : Even i j s s' := by
  induction h with
  | nil => exact Even.refl ..
  | @cons s p s1 l s2 he _ ih =>
    have a : Even i j s s1 := Even.of_shares hsb hst he
    have c := ih (by dsimp only; rw [a.slot]; exact hst)
    have d : Even i j s1 { s1 with donations := s1.donations ++ [p] } := by exact Even.of_same rfl rfl rfl
    exact (a.trans d).trans c

theorem BanEffects.fair {i j : Nat} {s s' : State} {l t} (h : BanEffects s l s' t) : Even i j s s' := by
  induction h with
  | nil => exact Even.refl ..
  | @ban s ev v l s' t h1 h2 _ ih =>
    have a := Even.leaver (i := i) (j := j) (s := s) (k := ev.validatorId) (st := .banned) (by simp)
    exact a.trans ih
  | skip _ _ ih => exact ih

theorem gone_earning {v : Validator} {x : Int} : ¬ Earning { v with status := afterLeaving v.status, pend := x } := by
  intro k
  have k : afterLeaving v.status = .active ∨ afterLeaving v.status = .yellowCard := k
  unfold afterLeaving at k
  split at k
  · simp at k
  · rename_i h
    exact h (k.elim Or.inl fun k => Or.inr (Or.inl k))

theorem CleanEffects.fair {E : Env} {slot i j : Nat} {cs s l s' t} (hcs : ∀ p ∈ cs, p.2 ≠ i ∧ p.2 ≠ j)
    (h : CleanEffects E slot cs s l s' t) : Even i j s s' := by
  have go : ∀ s k, Even i j s { s with vals := gone s.vals k } := fun s k =>
    Even.of_modify (k := k) (f := fun v => { v with status := afterLeaving v.status, pend := 0 }) rfl rfl
      fun v _ k => absurd k gone_earning
  have tgt : ∀ {u k}, LastTarget cs u k → k ≠ i ∧ k ≠ j := by
    rintro u k ⟨l1, l2, e, _⟩
    exact hcs (u, k) (by rw [e]; simp)
  induction h with
  | nil => exact Even.refl ..
  | keep _ _ ih => exact ih
  | leaves _ _ _ _ _ ih => exact (go _ _).trans ih
  | @moves s u v k w l s' t _ hv _ hl hne hw _ _ ih =>
    obtain ⟨k1, k2⟩ := tgt hl
    refine Even.trans ((go s u.index).trans ?_) ih
    refine Even.of_same rfl ?_ ?_
    · dsimp only; rw [get_modify_ne _ _ (Ne.symm k1)]
    · dsimp only; rw [get_modify_ne _ _ (Ne.symm k2)]
  | @creates s u v k w l s' t n req r bv _ hv _ hl hw _ _ _ _ _ ih =>
    obtain ⟨k1, k2⟩ := tgt hl
    refine Even.trans ((go s u.index).trans ?_) ih
    refine Even.of_same rfl ?_ ?_
    · dsimp only; rw [get_insert, if_neg (Ne.symm k1)]
    · dsimp only; rw [get_insert, if_neg (Ne.symm k2)]

theorem CleanupEffect.fair {E : Env} {net : Str} {slot i j : Nat} {s s' : State}
    (hsb : SaneBalances E) (hst : PostElectra net s.nextSlot → SameStake E s.nextSlot i j)
    (hcs : ∀ t cs, E.consol t slot = some cs → ∀ p ∈ cs, p.2 ≠ i ∧ p.2 ≠ j)
    (h : CleanupEffect E net slot s s') : Even i j s s' := by
  cases h with
  | early => exact Even.refl ..
  | empty => exact Even.refl ..
  | @done t cs req answer l s1 tot s2 h1 h2 h3 h4 h5 h6 h7 h8 =>
    have a : Even i j s { s with tick := s.tick + 2 } := by exact Even.of_same rfl rfl rfl
    have hcs' : ∀ p ∈ cs, p.2 ≠ i ∧ p.2 ≠ j := by
      by_cases hc : consolidationsFrom net ≤ slot
      · exact hcs t cs (h2 hc)
      · rw [h3 (by omega)]; simp
    have c := a.trans (h7.fair hcs')
    rcases h8 with ⟨_, h8⟩ | ⟨_, rfl⟩
    · exact c.trans (Even.of_shares hsb (by rw [c.slot]; exact hst) h8)
    · exact c

/-- What must hold of one slot for two validators to be treated alike: the block carries no unban of either, no
validator is consolidating into either, and from Electra on the beacon node reports the same effective balance for
both. -/
structure Alike (E : Env) (net : Str) (b : FullBlock) (i j : Nat) : Prop where
  unbans : ∀ ev ∈ b.events.unbans, ev.validatorId ≠ i ∧ ev.validatorId ≠ j
  consol : ∀ t cs, E.consol t b.dutySlot = some cs → ∀ p ∈ cs, p.2 ≠ i ∧ p.2 ≠ j
  stake : PostElectra net b.dutySlot → SameStake E b.dutySlot i j

theorem SlotEffect.fair {E : Env} {net pool : Str} {b : FullBlock} {i j : Nat} {s s' : State}
    (hsb : SaneBalances E) (hst : PostElectra net s.nextSlot → SameStake E s.nextSlot i j)
    (hub : ∀ ev ∈ b.events.unbans, ev.validatorId ≠ i ∧ ev.validatorId ≠ j)
    (h : SlotEffect E net pool b s s') {v w} (hv : VMap.get s.vals i = some v) (hw : VMap.get s.vals j = some w)
    (ev : Earning v) (ew : Earning w) : s'.nextSlot = s.nextSlot ∧
    ∃ v' w', VMap.get s'.vals i = some v' ∧ VMap.get s'.vals j = some w' ∧
      (Earning v' → Earning w' → v'.wealth - v.wealth - ownerSent b i = w'.wealth - w.wealth - ownerSent b j) := by
  obtain ⟨s1, s2, s3, dons, s4, s5, tot, s6, h1, h2, h3, _, h5, h6, h7, rfl⟩ := h
  have sub : ∀ {v}, Earning v → Subscribed v.status := fun k => k.elim Or.inl fun k => Or.inr (Or.inl k)
  have gi := h1.settled hv (Or.inl (sub ev))
  have gj := h1.settled hw (Or.inl (sub ew))
  have n1 : s1.nextSlot = s.nextSlot := by
    have key : ∀ {s l s1}, SubEffects s l s1 → s1.nextSlot = s.nextSlot := by
      intro s l s1 h
      induction h with
      | nil => rfl
      | cons he _ ih => rw [ih]; cases he <;> rfl
    exact key h1
  have a : EvenFrom i j s1 s2 := h2.fair hsb (by rw [n1]; exact hst)
  have c3 := h3.fair (i := i) (j := j) hsb (by rw [a.slot, n1]; exact hst)
  have c4 := h5.fair (i := i) (j := j) hsb (by rw [c3.slot, a.slot, n1]; exact hst)
  have c5 := h6.fair (i := i) (j := j)
  have c6 : Even i j s5 s6 := by
    rcases h7 with ⟨_, h7⟩ | ⟨_, rfl⟩
    · exact Even.of_shares hsb (by rw [c5.slot, c4.slot, c3.slot, a.slot, n1]; exact hst) h7
    · exact Even.refl ..
  have c7 : Even i j s6 { s6 with vals := unbanned s6.vals b.events.unbans } := by
    refine Even.of_same rfl ?_ ?_
    · dsimp only
      rw [get_unbanned]
      cases VMap.get s6.vals i with
      | none => rfl
      | some v => rw [Option.map_some, if_neg (by rintro ⟨_, ev, h, k⟩; exact (hub ev h).1 k)]
    · dsimp only
      rw [get_unbanned]
      cases VMap.get s6.vals j with
      | none => rfl
      | some v => rw [Option.map_some, if_neg (by rintro ⟨_, ev, h, k⟩; exact (hub ev h).2 k)]
  have all := ((((a.trans c3).trans c4).trans c5).trans c6).trans c7
  refine ⟨all.slot.trans n1, ?_⟩
  obtain ⟨v', w', r1, r2, r3⟩ := all.gain _ _ gi gj ev ew
  refine ⟨v', w', r1, r2, fun k1 k2 => ?_⟩
  have := r3 k1 k2
  simp only [Validator.wealth] at this ⊢
  unfold ownerSent
  omega

/-- A history during which validators `i` and `j` both take part in the sharing, and are alike. -/
inductive Together (E : Env) (i j : Nat) : Oracle → List FullBlock → Oracle → Prop
  | nil {o v w} : VMap.get o.st.vals i = some v → VMap.get o.st.vals j = some w → Earning v → Earning w →
      Together E i j o [] o
  | cons {o b o1 n bs o2 v w} : VMap.get o.st.vals i = some v → VMap.get o.st.vals j = some w → Earning v →
      Earning w → Alike E o.cfg.network b i j → GasOK b → advanceState E o b = .ok (o1, some n) →
      Together E i j o1 bs o2 → Together E i j o (b :: bs) o2

section
variable {E : Env} (hE : ValidEnv E) (hX : ExactEnv E) (hC : NoSelfConsol E) (hB : SaneBalances E)
include hE hX hC hB

/-- **C91.** The pool smooths: as long as two members of equal stake take part in the sharing, they gain the same,
apart from collateral their owners send back in, no matter which of them proposes blocks, how many, or how much
those pay. -/
theorem C91_smooths {cfg : Config} {bs0 bs : List FullBlock} {o o' : Oracle} {i j : Nat}
    (h0 : Hist E (newOracle cfg) bs0 o) (h : Together E i j o bs o') :
    ∀ v w, VMap.get o.st.vals i = some v → VMap.get o.st.vals j = some w →
      ∃ v' w', VMap.get o'.st.vals i = some v' ∧ VMap.get o'.st.vals j = some w' ∧
        (v'.pend + v'.acc) - (v.pend + v.acc) - (bs.map fun b => ownerSent b i).sum =
          (w'.pend + w'.acc) - (w.pend + w.acc) - (bs.map fun b => ownerSent b j).sum := by
  induction h generalizing bs0 with
  | nil h1 h2 h3 h4 => exact fun v w hv hw => ⟨v, w, hv, hw, by simp⟩
  | @cons o b o1 n bs o2 v0 w0 h1 h2 h3 h4 ha hg hstep htail ih =>
    intro v w hv hw
    rw [h1, Option.some.injEq] at hv
    rw [h2, Option.some.injEq] at hw
    subst hv hw
    obtain ⟨s7, s8, k1, k2, k3, k4, k5, k6⟩ := C60_slot_refines hE hX hC h0 hstep hg
    have hn : b.dutySlot = o.st.nextSlot := by omega
    have hst : PostElectra o.cfg.network o.st.nextSlot → SameStake E o.st.nextSlot i j := by
      rw [← hn]; exact ha.stake
    obtain ⟨m, v7, w7, m1, m2, m3⟩ := SlotEffect.fair hB (by exact hst) ha.unbans k1 (by exact h1) (by exact h2) h3 h4
    have hc : Even i j s7 s8 := by
      by_cases hz : n % 1200 = 0
      · exact (k2 hz).fair hB (by rw [m]; exact hst) (by rw [k5]; exact ha.consol)
      · rw [k3 hz]; exact Even.refl ..
    obtain ⟨v8, w8, q1, q2, q3, q4, q5⟩ := hc.gain v7 w7 m1 m2
    have e1 : VMap.get o1.st.vals i = some v8 := by rw [k6]; exact q1
    have e2 : VMap.get o1.st.vals j = some w8 := by rw [k6]; exact q2
    have hlive : Earning v8 ∧ Earning w8 := by
      cases htail with
      | nil g1 g2 g3 g4 => rw [e1] at g1; rw [e2] at g2; cases g1; cases g2; exact ⟨g3, g4⟩
      | cons g1 g2 g3 g4 => rw [e1] at g1; rw [e2] at g2; cases g1; cases g2; exact ⟨g3, g4⟩
    obtain ⟨v', w', r1, r2, r3⟩ := ih (h0.snoc hstep) v8 w8 e1 e2
    refine ⟨v', w', r1, r2, ?_⟩
    have a1 := q5 hlive.1 hlive.2
    have a2 := m3 (q3 hlive.1) (q4 hlive.2)
    simp only [Validator.wealth] at a1 a2
    simp only [List.map_cons, List.sum_cons]
    omega

end

/-! ### A concrete case -/

namespace Sample

/-- validator 2 pays 5000 to the pool and becomes a member, validator 258, of equal stake, subscribes -/
def twins0 : FullBlock :=
  { prop 12000000 2 builder (tx builder pool 5000)
      { ether := [⟨5000, pool, 100⟩], subs := [⟨258, 1000, addr 258, 100⟩] } with
    valsSubs := [some (bval 258)] }

/-- validator 2 proposes again, somebody donates, then validator 258 misses -/
def twins : List FullBlock :=
  [prop 12000001 2 pool (tx (addr 50) (addr 51) 1) { ether := [⟨301, pool, 100⟩] }, miss 12000002 258]

/-- the pool with both of them -/
def twinsOracle : Oracle := (run env (newOracle cfg) [twins0]).getD (newOracle cfg)

theorem twins_start : Hist env (newOracle cfg) [twins0] twinsOracle := run_some (by decide +kernel)

/-- both validators take part -/
def bothEarn (i j : Nat) (o : Oracle) : Bool :=
  (VMap.get o.st.vals i).any (fun v => decide (Earning v)) && (VMap.get o.st.vals j).any fun v => decide (Earning v)

/-- process blocks as long as both take part -/
def runTogether (E : Env) (i j : Nat) : Oracle → List FullBlock → Option Oracle
  | o, [] => if bothEarn i j o then some o else none
  | o, b :: bs =>
    if bothEarn i j o then
      match advanceState E o b with
      | .ok (o1, some _) => runTogether E i j o1 bs
      | _ => none
    else none

theorem bothEarn_iff {i j : Nat} {o : Oracle} (h : bothEarn i j o = true) :
    ∃ v w, VMap.get o.st.vals i = some v ∧ VMap.get o.st.vals j = some w ∧ Earning v ∧ Earning w := by
  unfold bothEarn at h
  rw [Bool.and_eq_true, Option.any_eq_true, Option.any_eq_true] at h
  obtain ⟨⟨v, a1, a2⟩, w, b1, b2⟩ := h
  exact ⟨v, w, a1, b1, by simpa using a2, by simpa using b2⟩

theorem together_of_run {E : Env} {i j : Nat} {net : Str} {o : Oracle} {bs : List FullBlock} {o' : Oracle}
    (hnet : o.cfg.network = net) (ha : ∀ b ∈ bs, Alike E net b i j ∧ GasOK b)
    (h : runTogether E i j o bs = some o') : Together E i j o bs o' := by
  induction bs generalizing o with
  | nil =>
    simp only [runTogether] at h
    split at h
    · rename_i hb
      obtain ⟨v, w, a1, a2, a3, a4⟩ := bothEarn_iff hb
      cases h
      exact .nil a1 a2 a3 a4
    · cases h
  | cons b bs ih =>
    simp only [runTogether] at h
    split at h
    · rename_i hb
      obtain ⟨v, w, a1, a2, a3, a4⟩ := bothEarn_iff hb
      split at h
      · rename_i o1 n h1
        have e : o1.cfg.network = net := by
          obtain ⟨_, _, _, _, _, _, _, _, h0, _⟩ := slot_frame h1
          rw [h0]; exact hnet
        exact .cons a1 a2 a3 a4 (hnet ▸ (ha b (by simp)).1) (ha b (by simp)).2 h1
          (ih e (fun c hc => ha c (by simp [hc])) h)
      · cases h
    · cases h

theorem twins_stake (slot : Nat) : SameStake env slot 2 258 := by
  intro t req r t' req' r' u u' h h' hu hu' hi hj
  rw [env_node h] at hu
  rw [env_node h'] at hu'
  obtain ⟨k, _, rfl⟩ := List.mem_map.mp hu
  obtain ⟨k', _, rfl⟩ := List.mem_map.mp hu'
  rw [index_if] at hi hj
  subst hi hj
  decide

theorem twins_ok : ∀ b ∈ twins, Alike env cfg.network b 2 258 ∧ NonNegPayments b ∧ GasOK b := by
  intro b hb
  have hev : b.events.unbans = [] := by
    simp only [twins, List.mem_cons, List.not_mem_nil, or_false] at hb
    rcases hb with rfl | rfl <;> rfl
  refine ⟨⟨by rw [hev]; simp, ?_, fun _ => twins_stake _⟩, ?_⟩
  · intro t cs h p hp
    simp only [env, Option.some.injEq] at h
    subst h
    simp at hp; subst hp; decide
  · simp only [twins, List.mem_cons, List.not_mem_nil, or_false] at hb
    rcases hb with rfl | rfl
    · refine ⟨⟨by decide, by decide⟩, fun c h rs hc hh hr => ?_⟩
      simp only [prop, Option.some.injEq] at hc hh hr
      subst hc hh hr
      refine ⟨rfl, ?_, rfl, by norm_num, ?_⟩
      · intro n hn; simp only [BaseFee.u256.injEq] at hn; subst hn; norm_num
      · intro tx htx
        simp only [List.mem_singleton, Option.some.injEq] at htx
        subst htx; decide
    · exact ⟨⟨by decide, by decide⟩, fun c h rs hc => by simp [miss] at hc⟩

/-- the pool afterwards -/
def twinsFinal : Oracle := (runTogether env 2 258 twinsOracle twins).getD twinsOracle

theorem twins_together : Together env 2 258 twinsOracle twins twinsFinal := by
  have h : (runTogether env 2 258 twinsOracle twins).isSome := by decide +kernel
  obtain ⟨o', ho⟩ := Option.isSome_iff_exists.mp h
  have e : twinsFinal = o' := by unfold twinsFinal; rw [ho]; rfl
  rw [e]
  exact together_of_run (net := cfg.network) (by decide +kernel) (fun b hb => ⟨(twins_ok b hb).1, (twins_ok b hb).2.2⟩) ho

end Sample

theorem Together.hist {E : Env} {i j : Nat} {o o' : Oracle} {bs : List FullBlock} (h : Together E i j o bs o') :
    Hist E o bs o' := by
  induction h with
  | nil => exact .nil _
  | cons _ _ _ _ _ _ h _ ih => exact .cons h ih

/-- the hypotheses of C90 -/
example : MapOK Sample.twinsOracle.st ∧ NonNeg Sample.twinsOracle.st ∧ 0 ≤ Sample.twinsOracle.st.fee ∧
    PostFork1 Sample.twinsOracle.cfg.network Sample.twinsOracle.st.nextSlot ∧
    (∀ b ∈ Sample.twins, NonNegPayments b ∧ GasOK b) ∧
    Hist Sample.env Sample.twinsOracle Sample.twins Sample.twinsFinal ∧
    ∀ b ∈ Sample.twins, ¬ Forfeits Sample.env Sample.twinsOracle.cfg.poolAddr b 258 := by
  refine ⟨by unfold MapOK; decide +kernel, by unfold NonNeg; decide +kernel, by decide +kernel, by decide +kernel,
    fun b hb => (Sample.twins_ok b hb).2, Sample.twins_together.hist, ?_⟩
  intro b hb
  simp only [Sample.twins, List.mem_cons, List.not_mem_nil, or_false] at hb
  rcases hb with rfl | rfl
  · rintro (⟨h, _⟩ | ⟨_, _, _, h, _⟩ | ⟨h, _⟩ | ⟨h, _⟩)
    · exact absurd h (by decide)
    · simp [Sample.prop] at h
    · simp [Sample.prop] at h
    · exact absurd h (by decide)
  · rintro (⟨_, h, _⟩ | ⟨_, _, _, h, _⟩ | ⟨h, _⟩ | ⟨h, _⟩)
    · exact h rfl
    · simp [Sample.miss] at h
    · simp [Sample.miss] at h
    · exact absurd h (by decide)

/-- the hypotheses of C91: validator 2 proposes a block worth 63000, validator 258 misses one, and both gain the same -/
example : ValidEnv Sample.env ∧ ExactEnv Sample.env ∧ NoSelfConsol Sample.env ∧ SaneBalances Sample.env ∧
    Hist Sample.env (newOracle Sample.cfg) [Sample.twins0] Sample.twinsOracle ∧
    Together Sample.env 2 258 Sample.twinsOracle Sample.twins Sample.twinsFinal ∧
    (VMap.get Sample.twinsOracle.st.vals 2).map Validator.wealth = some 2325 ∧
    (VMap.get Sample.twinsFinal.st.vals 2).map (fun v => (v.pend, v.acc)) = some (140, 31620) ∧
    (VMap.get Sample.twinsOracle.st.vals 258).map Validator.wealth = some 3325 ∧
    (VMap.get Sample.twinsFinal.st.vals 258).map (fun v => (v.pend, v.acc)) = some (32760, 0) := by
  refine ⟨Sample.env_valid, Sample.env_exact, Sample.env_noSelf, Sample.env_sane, Sample.twins_start,
    Sample.twins_together, ?_, ?_, ?_, ?_⟩ <;> decide +kernel

end Verif
