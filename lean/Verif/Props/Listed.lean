import Verif.Spec.Listed
import Verif.Props.Proposals
import Verif.Props.Listings
/-
Property C73 (the block lists are the history), exactly: which slots are in the lists of missed blocks and of
blocks with a wrong fee recipient.
-/
namespace Verif

open VMap

/-- who is subscribed after a list of subscription events -/
theorem SubEffects.subscribed {s l s'} (h : SubEffects s l s') (i : Nat) :
    (∃ v, VMap.get s'.vals i = some v ∧ Subscribed v.status) ↔
      (∃ v, VMap.get s.vals i = some v ∧ Subscribed v.status) ∨
      ((∀ v, VMap.get s.vals i = some v → v.status ≠ .banned) ∧
        ∃ p ∈ l, p.1.validatorId = i ∧ (∃ v w, ByOwner p.1 p.2 v w) ∧ s.collateral ≤ p.1.collateral) := by
  induction h with
  | nil => simp
  | @cons s p s1 l s2 he _ ih =>
    rw [ih]
    simp only [List.mem_cons, exists_eq_or_imp]
    cases he with
    | @fresh v w hby hg hc =>
      dsimp only
      by_cases hid : p.1.validatorId = i
      · rw [hid] at hg ⊢
        rw [get_insert, if_pos rfl, hg]
        simp only [Option.some.injEq, exists_eq_left', reduceCtorEq, false_and, exists_false, false_or,
          false_implies, implies_true, true_and]
        constructor
        · exact fun _ => Or.inl ⟨⟨v, w, hby⟩, hc⟩
        · exact fun _ => Or.inl (Or.inl rfl)
      · rw [get_insert, if_neg (fun h => hid h.symm)]
        simp only [hid, false_and, false_or]
    | @again v w u hby hg hu hc =>
      dsimp only
      by_cases hid : p.1.validatorId = i
      · rw [hid] at hg ⊢
        rw [get_modify_self, hg]
        simp only [Option.map_some, Option.some.injEq, exists_eq_left']
        constructor
        · refine fun _ => Or.inr ⟨?_, Or.inl ⟨trivial, ⟨v, w, hby⟩, hc⟩⟩
          intro v' hv'
          rw [← hv', hu]
          simp
        · exact fun _ => Or.inl (Or.inl rfl)
      · rw [get_modify_ne _ _ (fun h => hid h.symm)]
        simp only [hid, false_and, false_or]
    | @returned v w u hby hg hu =>
      dsimp only
      by_cases hid : p.1.validatorId = i
      · rw [hid] at hg ⊢
        rw [get_modify_self, hg]
        simp only [Option.map_some, Option.some.injEq, exists_eq_left', forall_eq']
        rcases hu with hu | hu
        · exact ⟨fun _ => Or.inl hu, fun _ => Or.inl hu⟩
        · simp [hu, Subscribed]
      · rw [get_modify_ne _ _ (fun h => hid h.symm)]
        simp only [hid, false_and, false_or]
    | notOwner hno =>
      have : ¬ ∃ v w, ByOwner p.1 p.2 v w := fun ⟨v, w, h⟩ => hno v w h
      simp only [this, false_and, and_false, false_or]
    | tooLittle _ hlt _ =>
      have : ¬ s.collateral ≤ p.1.collateral := by omega
      simp only [this, and_false, false_or]

theorem Shares.lists {E net s r s'} (h : Shares E net s r s') :
    s'.missed = s.missed ∧ s'.wrongFee = s.wrongFee ∧ s'.proposed = s.proposed := by
  obtain ⟨_, _, e⟩ := h
  exact ⟨by have := congrArg State.missed e; exact this, by have := congrArg State.wrongFee e; exact this,
    by have := congrArg State.proposed e; exact this⟩

section
variable {E : Env} (hE : ValidEnv E) (hX : ExactEnv E) (hC : NoSelfConsol E)
  {cfg : Config} {bs : List FullBlock} {o o' : Oracle} {b : FullBlock} {n : Nat}
  (h0 : Hist E (newOracle cfg) bs o) (h : advanceState E o b = .ok (o', some n))
include hE hX hC h0 h

open Classical in
/-- **C73**, exactly. What one slot adds to the lists: a missed slot is added to the missed blocks exactly if its
proposer takes part in the pool; a block that does not pay the pool is added to the wrong fee blocks exactly if its
proposer takes part; a block that pays the pool is always added to the proposed blocks. -/
theorem C73_one_slot :
    o'.st.missed.map (·.slot) = o.st.missed.map (·.slot) ++
      (if b.cons = none ∧ TakesPart o.st b b.dutyIndex then [b.dutySlot] else []) ∧
    o'.st.wrongFee.map (·.slot) = o.st.wrongFee.map (·.slot) ++
      (if b.cons ≠ none ∧ ¬ PaidPool b o.cfg.poolAddr ∧ TakesPart o.st b b.dutyIndex
        then [b.dutySlot] else []) ∧
    o'.st.proposed.map (·.slot) = o.st.proposed.map (·.slot) ++
      (if PaidPool b o.cfg.poolAddr then [b.dutySlot] else []) := by
  obtain ⟨hs, h5⟩ := hist_five hE hX hC h0 List.Pairwise.nil (by intro p hp; simp [newOracle] at hp)
  obtain ⟨sb, dons, s1, s5, ops, hn, hsb, hd, hsub, hs1, hpr, hs5, _, _⟩ := slot_stages hE hX hC hs h
  obtain ⟨_, heff, h51⟩ := handleSubs_effects (logged_five h5) (s := logged o b o'.st.fee) hs hsub
  obtain ⟨r1, r2, r3, r4, r5, r6⟩ := slot_records hsb hsub hpr h
  have hslot : sb.slot = b.dutySlot := (summarize_slot hsb).1
  have hidx : sb.index = b.dutyIndex := (summarize_slot hsb).2.1
  have hun : sb.type ≠ .unknown := (summarize_slot hsb).2.2.2.2
  obtain ⟨hpaid, hwrong, hmiss⟩ := summarize_paid hsb
  have htp : (∃ v, VMap.get s1.vals sb.index = some v ∧ Subscribed v.status) ↔
      TakesPart o.st b b.dutyIndex := by
    rw [heff.subscribed, hidx]
    unfold TakesPart
    refine or_congr Iff.rfl (and_congr Iff.rfl ?_)
    constructor
    · rintro ⟨⟨ev, val⟩, hp, hid, ⟨v, w, k1, k2, k3, k4, k5⟩, hc⟩
      dsimp only at *
      exact ⟨ev, w, v, ⟨by rw [← k1]; exact hp, hid, k2.trans hid, k3, k4, k5⟩, hc⟩
    · rintro ⟨ev, w, v, ⟨k1, hid, k2, k3, k4, k5⟩, hc⟩
      exact ⟨(ev, some v), k1, hid, ⟨v, w, rfl, k2.trans hid.symm, k3, k4, k5⟩, hc⟩
  rw [r1, r2, r3, ← r4, ← r5, ← r6]
  cases ht : sb.type with
  | unknown => exact absurd ht hun
  | missed =>
    have hm := hmiss.mp ht
    have hp : ¬ PaidPool b o.cfg.poolAddr := fun hp => by
      rcases hpaid.mpr hp with h | h <;> rw [ht] at h <;> cases h
    rw [← htp]
    simp only [hm, hp, ne_eq, not_true_eq_false, false_and, if_false, true_and, List.append_nil]
    rcases proposal_missed hs1 h51 ht hpr with ⟨k, e⟩ | ⟨k, e⟩
    · rw [if_pos k, e]
      simp [hslot]
    · rw [if_neg (fun ⟨v, h1, h2⟩ => k v h1 h2), e]
      simp
  | wrongFee =>
    obtain ⟨hc, hp⟩ := hwrong.mp ht
    rw [← htp]
    simp only [hc, hp, ne_eq, not_false_eq_true, false_and, if_false, true_and, List.append_nil]
    rcases proposal_wrongFee hE hX hs1 h51 ht hpr with ⟨v, s2, k1, k2, k3, e⟩ | ⟨k, e⟩
    · obtain ⟨q1, q2, q3⟩ := k3.lists
      rw [if_pos ⟨v, k1, k2⟩, e]
      dsimp only at *
      rw [q1, q2, q3]
      simp [hslot]
    · rw [if_neg (fun ⟨v, h1, h2⟩ => k v h1 h2), e]
      simp
  | okPool =>
    have hp := hpaid.mp (Or.inl ht)
    have hc : b.cons ≠ none := fun h => by
      have := hmiss.mpr h
      rw [ht] at this; cases this
    simp only [hc, hp, not_true_eq_false, false_and, and_false, if_false, if_true, List.append_nil]
    obtain ⟨r, s2, _, k2, e⟩ := proposal_ok hE hX hs1 h51 ht hpr
    obtain ⟨q1, q2, q3⟩ := k2.lists
    rw [e]
    dsimp only at *
    rw [q1, q2, q3]
    simp [hslot]
  | okPoolBls =>
    have hp := hpaid.mp (Or.inr ht)
    have hc : b.cons ≠ none := fun h => by
      have := hmiss.mpr h
      rw [ht] at this; cases this
    simp only [hc, hp, not_true_eq_false, false_and, and_false, if_false, if_true, List.append_nil]
    obtain ⟨r, _, e⟩ := proposal_bls ht hpr
    rw [e]
    simp [hslot]

end

/-- **C73**, exactly, over whole histories: of all slots processed, `/memory/missedblocks` lists those and only
those that were missed by a validator that took part in the pool at that time, and `/memory/wrongfeeblocks` those
whose block did not pay the pool although its proposer took part at that time. -/
theorem C73_exact {E : Env} (hE : ValidEnv E) (hX : ExactEnv E) (hC : NoSelfConsol E) {cfg : Config}
    {l r : List FullBlock} {b : FullBlock} {n : Nat} {o1 o2 o : Oracle}
    (h1 : Hist E (newOracle cfg) l o1) (h2 : advanceState E o1 b = .ok (o2, some n)) (h3 : Hist E o2 r o)
    (hlen : cfg.depSlot + (l ++ b :: r).length < 2 ^ 64) :
    (b.dutySlot ∈ o.st.missed.map (·.slot) ↔ b.cons = none ∧ TakesPart o1.st b b.dutyIndex) ∧
    (b.dutySlot ∈ o.st.wrongFee.map (·.slot) ↔
      b.cons ≠ none ∧ ¬ PaidPool b o1.cfg.poolAddr ∧ TakesPart o1.st b b.dutyIndex) := by
  have hall : Hist E (newOracle cfg) (l ++ b :: r) o := by
    have : ∀ {a xs c}, Hist E a xs c → c = o1 → Hist E a (xs ++ b :: r) o := by
      intro a xs c h
      induction h with
      | nil => rintro rfl; exact .cons h2 h3
      | cons hstep _ ih => exact fun hc => .cons hstep (ih hc)
    exact this h1 rfl
  obtain ⟨_, hr, _⟩ := hist_slots hall hlen
  have hnd : ((l ++ b :: r).map (·.dutySlot)).Nodup := by rw [hr]; exact List.nodup_range'
  rw [List.map_append, List.map_cons] at hnd
  have hl : b.dutySlot ∉ l.map (·.dutySlot) := fun hm =>
    (List.nodup_append.mp hnd).2.2 _ hm _ (by simp) rfl
  have hr' : b.dutySlot ∉ r.map (·.dutySlot) := (List.nodup_cons.mp (List.nodup_append.mp hnd).2.1).1
  obtain ⟨_, _, _, _, p1, m1, w1, _, a2, a3, a4⟩ := C23_append_only h1
  obtain ⟨_, _, _, _, p3, m3, w3, _, b2, b3, b4⟩ := C23_append_only h3
  obtain ⟨c1, c2, _⟩ := C73_one_slot hE hX hC h1 h2
  have e1 : o1.st.missed = m1 := a2
  have e2 : o1.st.wrongFee = w1 := a3
  have nm1 : b.dutySlot ∉ m1.map (·.slot) := fun hm => hl (a4.subset (by rw [List.map_append, List.map_append, List.mem_append, List.mem_append]; tauto))
  have nw1 : b.dutySlot ∉ w1.map (·.slot) := fun hm => hl (a4.subset (by rw [List.map_append, List.map_append, List.mem_append, List.mem_append]; tauto))
  have nm3 : b.dutySlot ∉ m3.map (·.slot) := fun hm => hr' (b4.subset (by rw [List.map_append, List.map_append, List.mem_append, List.mem_append]; tauto))
  have nw3 : b.dutySlot ∉ w3.map (·.slot) := fun hm => hr' (b4.subset (by rw [List.map_append, List.map_append, List.mem_append, List.mem_append]; tauto))
  rw [b2, b3, List.map_append, List.map_append, c1, c2, e1, e2]
  simp only [List.mem_append, nm1, nm3, nw1, nw3, false_or, or_false]
  constructor
  · split <;> simp_all
  · split <;> simp_all

/-- The sample history has a missed slot and a wrong fee recipient of validators taking part. -/
example : ValidEnv Sample.env ∧ ExactEnv Sample.env ∧ NoSelfConsol Sample.env ∧
    Hist Sample.env (newOracle Sample.cfg) Sample.blocks Sample.final ∧
    Sample.cfg.depSlot + Sample.blocks.length < 2 ^ 64 ∧
    Sample.final.st.missed.length = 1 ∧ Sample.final.st.wrongFee.length = 1 :=
  ⟨Sample.env_valid, Sample.env_exact, Sample.env_noSelf, Sample.hist, by decide, by decide +kernel, by decide +kernel⟩

end Verif
