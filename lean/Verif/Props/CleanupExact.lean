import Verif.Spec.Cleanup
import Verif.Lemmas.CleanExact
import Verif.Props.Cleanup
import Verif.Props.Agreement
import Verif.Props.View
import Verif.Props.Earnings
import Verif.Props.Leavers
/-
C44: the cleanup in one formula. C43: at the other slots nobody leaves.
-/
namespace Verif
open VMap

section
variable {E : Env} (hE : ValidEnv E) (hX : ExactEnv E) (hC : NoSelfConsol E) {net : Str} {slot : Nat}
  {s s' : State} (hs : MapOK s) (h : cleanup E net s slot = .ok (s', true))
include hE hX hC hs h

/-- **C44** (partial: nobody is consolidated into somebody who left too, see `C09_false_cleanup_order`, and
`C44_false_self`). What the cleanup does, in any order of visiting the maps: whoever left loses membership and
pending balance; the pending balance goes to the target of the consolidation, which becomes tracked if it was not;
if there is no target, or a banned one, it is shared among the members. Nothing else happens. -/
theorem C44_exact_partial {V : Nat → Nat → BVal} {K : Nat → List (Nat × Nat)} (hR : ReadsChain V K E)
    (hA : ActiveTargets V K slot) (hfrom : cleanupFrom net ≤ slot) :
    ∃ s1, CleanedUp V (consolsAt K net slot) slot s s1 ∧
      ((toShare V (consolsAt K net slot) slot s ≠ 0 ∧ Shares E net s1 (toShare V (consolsAt K net slot) slot s) s') ∨
        (toShare V (consolsAt K net slot) slot s = 0 ∧ s' = s1)) := by
  classical
  cases cleanup_effect hE hX hC hs h with
  | early hlt => omega
  | empty he =>
    refine ⟨s, ⟨?_, ?_, ?_, ?_, ?_⟩, Or.inr ⟨by simp [toShare, he], rfl⟩⟩
    · intro i v hv; rw [he] at hv; simp [VMap.get] at hv
    · intro i v hv; rw [he] at hv; simp [VMap.get] at hv
    · intro i v hv; rw [he] at hv; simp [VMap.get] at hv
    · rintro j _ ⟨i, v, hv, _⟩; rw [he] at hv; simp [VMap.get] at hv
    · intro j hj _; exact hj
  | @done t cs req answer l s1 tot _ hlate hc1 hc2 hnode hans hperm hcl hsh =>
    have hcs : cs = consolsAt K net slot := by
      unfold consolsAt
      by_cases hf : consolidationsFrom net ≤ slot
      · rw [if_pos hf]; exact hR.consol _ _ _ (hc1 hf)
      · rw [if_neg hf]; exact hc2 (by omega)
    subst hcs
    have hV : ∀ u ∈ l, u = V slot u.index := fun u hu => hR.node _ _ _ _ hnode u (hperm.mem_iff.mp hu)
    have haw : ∀ u ∈ l, (u.status.isActive = false ↔ Away V slot u.index) := by
      intro u hu
      unfold Away
      rw [← hV u hu]
    have hnd : (l.map (·.index)).Nodup := (hperm.map _).nodup_iff.mpr (hE.nodup _ _ _ _ hnode)
    have hmem : ∀ i, (∃ u ∈ l, u.index = i) ↔ (VMap.get s.vals i).isSome := by
      intro i
      rw [← hans i]
      exact ⟨fun ⟨u, a, b⟩ => ⟨u, hperm.mem_iff.mp a, b⟩, fun ⟨u, a, b⟩ => ⟨u, hperm.mem_iff.mpr a, b⟩⟩
    have hno : NoLeftTarget (consolsAt K net slot) l := by
      intro u hu u' hu' ha ha' hlt
      obtain ⟨a, c, e, _⟩ := hlt
      have hin : (u.index, u'.index) ∈ K slot := by
        unfold consolsAt at e
        split at e
        · rw [e]; simp
        · simp at e
      have := hA _ hin ((haw u hu).mp ha)
      dsimp only at this
      have h2 := (haw u' hu').mp ha'
      unfold Away at h2
      rw [h2] at this
      simp at this
    have I := hcl.exact hnd hno
    -- the list of the node and the records are the same validators
    have hkeys : (l.map (·.index)).Perm (keys s.vals) := by
      refine (List.perm_ext_iff_of_nodup hnd (Sorted.nodup_keys hs)).mpr fun i => ?_
      rw [← get_isSome_iff, ← hmem i, List.mem_map]
    have hsum : ∀ (f : BVal → Int) (g : Nat → Int), (∀ u ∈ l, f u = g u.index) →
        (l.map f).sum = (s.vals.map fun p => g p.1).sum := by
      intro f g hfg
      have h1 := (hkeys.map g).sum_eq
      unfold keys at h1
      rw [List.map_map, List.map_map] at h1
      rw [sum_map_congr hfg]
      exact h1
    have hpend : ∀ p ∈ s.vals, pendAt { s with tick := s.tick + 2 } p.1 = p.2.pend := by
      intro p hp
      unfold pendAt
      dsimp only
      rw [Sorted.get_of_mem hs hp]
      rfl
    have harr : ∀ j, movedTo (consolsAt K net slot) { s with tick := s.tick + 2 } l j =
        arriving V (consolsAt K net slot) slot s j := by
      intro j
      unfold movedTo arriving
      refine (hsum _ (fun i => if Away V slot i ∧ LastTarget (consolsAt K net slot) i j then
          pendAt { s with tick := s.tick + 2 } i else 0) (fun u hu => ?_)).trans (sum_map_congr fun p hp => ?_)
      · simp only [haw u hu]
      · rw [hpend p hp]
    have htot : tot = toShare V (consolsAt K net slot) slot s := by
      rw [I.total]
      unfold leftOver toShare
      refine (hsum _ (fun i => if Away V slot i ∧ Stranded (consolsAt K net slot) { s with tick := s.tick + 2 } i then
          pendAt { s with tick := s.tick + 2 } i else 0) (fun u hu => ?_)).trans (sum_map_congr fun p hp => ?_)
      · simp only [haw u hu]
      · rw [hpend p hp]
        exact if_congr Iff.rfl rfl rfl
    have hlist : ∀ i, (VMap.get s.vals i).isSome → ∃ u ∈ l, u.index = i := fun i hi => (hmem i).mpr hi
    have hunl : ∀ j, VMap.get s.vals j = none → ∀ u ∈ l, u.index ≠ j := by
      intro j hj u hu e
      have := (hmem j).mp ⟨u, hu, e⟩
      rw [hj] at this; simp at this
    refine ⟨s1, ⟨?_, ?_, ?_, ?_, ?_⟩, by rw [← htot]; exact hsh⟩
    · intro i v hv ha hp
      obtain ⟨u, hu, rfl⟩ := hlist i (by rw [hv]; rfl)
      exact I.left u hu ((haw u hu).mpr ha) v hv hp
    · intro i v hv ha hp
      obtain ⟨u, hu, rfl⟩ := hlist i (by rw [hv]; rfl)
      exact I.nothing u hu ((haw u hu).mpr ha) v hv hp
    · intro j w hw ha
      rw [← harr]
      refine I.stays j w hw fun u hu e => ?_
      subst e
      by_contra hne
      exact ha ((haw u hu).mp (by simpa using hne))
    · rintro j hj ⟨i, v, hv, ha, hp, hlt⟩
      rw [← harr]
      obtain ⟨u, hu, rfl⟩ := hlist i (by rw [hv]; rfl)
      exact I.known j hj (hunl j hj) ⟨u, hu, (haw u hu).mpr ha, hlt, by
        have := pendAt_of (s := { s with tick := s.tick + 2 }) (v := v) hv
        rw [this]; exact hp⟩
    · intro j hj hnone
      refine I.unknown j hj (hunl j hj) fun u hu ha hlt => ?_
      by_contra hp
      obtain ⟨v, hv⟩ := Option.isSome_iff_exists.mp ((hmem u.index).mp ⟨u, hu, rfl⟩)
      refine hnone ⟨u.index, v, hv, (haw u hu).mp ha, ?_, hlt⟩
      rw [pendAt_of (s := { s with tick := s.tick + 2 }) (v := v) hv] at hp
      exact hp

end


namespace Sample

/-- the sample state with validator 1, the target of the consolidation of 9, banned -/
def stBannedTarget : State :=
  { stClean with vals := [(1, val 1 .banned 0 5), (2, val 2 .yellowCard 20000 6), (9, val 9 .active 900 10)] }

theorem sampleV_targets (slot : Nat) : ActiveTargets sampleV (fun _ => [(9, 1)]) slot := by
  intro p hp _
  simp only [List.mem_singleton] at hp
  subst hp; rfl

end Sample

open Sample in
/-- the hypotheses are met twice: the target is a member and receives the 900 of validator 9, or it is banned and
the members share them -/
example : ReadsChain sampleV (fun _ => [(9, 1)]) env ∧ ActiveTargets sampleV (fun _ => [(9, 1)]) 12001200 ∧
    cleanupFrom b!"mainnet" ≤ 12001200 ∧
    (MapOK stClean ∧ toShare sampleV [(9, 1)] 12001200 stClean = 0 ∧
      arriving sampleV [(9, 1)] 12001200 stClean 1 = 900 ∧
      ∃ s', cleanup env b!"mainnet" stClean 12001200 = .ok (s', true)) ∧
    (MapOK stBannedTarget ∧ toShare sampleV [(9, 1)] 12001200 stBannedTarget = 900 ∧
      ∃ s', cleanup env b!"mainnet" stBannedTarget 12001200 = .ok (s', true) ∧
        (VMap.get s'.vals 1).map (·.pend) = some 0 ∧ (VMap.get s'.vals 2).map (·.pend) = some 20837 ∧
        (VMap.get s'.vals 9).map (fun v => (v.status, v.pend)) = some (.notSubscribed, 0)) := by
  have haw : ∀ i, Away sampleV 12001200 i ↔ i = 9 := by
    intro i
    unfold Away sampleV
    by_cases h : i = 9
    · simp [h, BStatus.isActive]
    · rw [if_neg h]
      simp [h, bval, BStatus.isActive]
  have h91 : LastTarget [(9, 1)] 9 1 := ⟨[], [], rfl, by simp⟩
  refine ⟨reads_of rfl rfl, sampleV_targets _, by decide, ⟨by unfold MapOK; decide, ?_, ?_, ?_⟩,
    by unfold MapOK; decide, ?_, ?_⟩
  · have hnb : ¬ ((∀ j, ¬ LastTarget [(9, 1)] 9 j) ∨ ∃ j w, LastTarget [(9, 1)] 9 j ∧
        VMap.get stClean.vals j = some w ∧ w.status = .banned) := by
      rintro (k | ⟨j, w, ⟨a, c, e, _⟩, k2, k3⟩)
      · exact k 1 h91
      · have hj : (9, j) ∈ [(9, 1)] := by rw [e]; simp
        simp only [List.mem_singleton, Prod.mk.injEq, true_and] at hj
        subst hj
        have : VMap.get stClean.vals 1 = some (val 1 .active 10000 5) := rfl
        rw [this, Option.some.injEq] at k2
        subst k2
        simp [val] at k3
    unfold toShare
    refine List.sum_eq_zero fun x hx => ?_
    obtain ⟨p, hp, rfl⟩ := List.mem_map.mp hx
    refine if_neg ?_
    rintro ⟨k1, k2⟩
    rw [(haw _).mp k1] at k2
    exact hnb k2
  · unfold arriving
    have e : stClean.vals = [(1, val 1 .active 10000 5), (2, val 2 .yellowCard 20000 6), (3, val 3 .redCard 300 7),
      (4, val 4 .banned 0 8), (5, val 5 .notSubscribed 0 9), (9, val 9 .active 900 10)] := rfl
    rw [e]
    simp [haw, h91, val]
  · obtain ⟨⟨s', ok⟩, h1, h2⟩ := ex_ok (x := cleanup env b!"mainnet" stClean 12001200)
      (P := fun p => p.2) (by decide +kernel)
    dsimp only at h2
    exact ⟨s', by rw [h1, h2]⟩
  · have hb : (∀ j, ¬ LastTarget [(9, 1)] 9 j) ∨ ∃ j w, LastTarget [(9, 1)] 9 j ∧
        VMap.get stBannedTarget.vals j = some w ∧ w.status = .banned :=
      Or.inr ⟨1, val 1 .banned 0 5, h91, rfl, rfl⟩
    unfold toShare
    have e : stBannedTarget.vals = [(1, val 1 .banned 0 5), (2, val 2 .yellowCard 20000 6),
      (9, val 9 .active 900 10)] := rfl
    rw [e] at hb ⊢
    simp only [List.map_cons, List.map_nil, List.sum_cons, List.sum_nil]
    rw [if_neg (by simp [haw]), if_neg (by simp [haw]), if_pos ⟨(haw 9).mpr rfl, hb⟩]
    simp [val]
  · obtain ⟨⟨s', ok⟩, h1, h2⟩ := ex_ok (x := cleanup env b!"mainnet" stBannedTarget 12001200)
      (P := fun p => p.2 && decide ((VMap.get p.1.vals 1).map (·.pend) = some 0 ∧
        (VMap.get p.1.vals 2).map (·.pend) = some 20837 ∧
        (VMap.get p.1.vals 9).map (fun v => (v.status, v.pend)) = some (.notSubscribed, 0)))
      (by decide +kernel)
    simp only [Bool.and_eq_true, decide_eq_true_eq] at h2
    exact ⟨s', by rw [h1, h2.1], h2.2⟩

/-! ### Slots without cleanup -/

/-- nothing in the block is about validator `i` -/
structure Silent (b : FullBlock) (i : Nat) : Prop where
  duty : b.dutyIndex ≠ i
  subs : ∀ ev ∈ b.events.subs, ev.validatorId ≠ i
  unsubs : ∀ ev ∈ b.events.unsubs, ev.validatorId ≠ i
  bans : ∀ ev ∈ b.events.bans, ev.validatorId ≠ i
  unbans : ∀ ev ∈ b.events.unbans, ev.validatorId ≠ i

theorem UnsubEffects.otherPend {E net s l s'} (h : UnsubEffects E net s l s') {i v}
    (hi : ∀ p ∈ l, p.1.validatorId ≠ i) (hv : VMap.get s.vals i = some v) :
    ∃ y, VMap.get s'.vals i = some { v with pend := v.pend + y } := by
  induction h generalizing v with
  | nil => exact ⟨0, by rw [hv]; simp⟩
  | @cons s p s1 l s2 he _ ih =>
    have hi' := fun q hq => hi q (List.mem_cons_of_mem _ hq)
    cases he with
    | leaves _ _ _ hsh =>
      obtain ⟨y, hy⟩ := shares_pend hsh (i := i) (v := v)
        (by dsimp only; rw [get_modify_ne _ _ (Ne.symm (hi p (by simp))), hv])
      obtain ⟨z, hz⟩ := ih hi' hy
      exact ⟨y + z, by rw [hz]; simp [Int.add_assoc]⟩
    | nothing => exact ih hi' hv

theorem DonEffects.otherPend {E net s l s'} (h : DonEffects E net s l s') {i v}
    (hv : VMap.get s.vals i = some v) : ∃ y, VMap.get s'.vals i = some { v with pend := v.pend + y } := by
  induction h generalizing v with
  | nil => exact ⟨0, by rw [hv]; simp⟩
  | cons hsh _ ih =>
    obtain ⟨y, hy⟩ := shares_pend hsh hv
    obtain ⟨z, hz⟩ := ih (v := { v with pend := v.pend + y }) (by dsimp only; exact hy)
    exact ⟨y + z, by rw [hz]; simp [Int.add_assoc]⟩

theorem SlotEffect.silent {E net pool b s s'} (h : SlotEffect E net pool b s s') {i v} (hq : Silent b i)
    (hv : VMap.get s.vals i = some v) : ∃ y, VMap.get s'.vals i = some { v with pend := v.pend + y } := by
  obtain ⟨s1, s2, s3, dons, s4, s5, tot, s6, k1, k2, k3, k4, k5, k6, k7, k8⟩ := h
  obtain ⟨y2, h2⟩ := k2.other hq.duty (v := v)
    (by rw [k1.others fun p hp => hq.subs _ (List.of_mem_zip hp).1]; exact hv)
  obtain ⟨y3, h3⟩ := k3.otherPend (fun p hp => hq.unsubs _ (List.of_mem_zip hp).1) h2
  obtain ⟨y4, h4⟩ := k5.otherPend h3
  rw [← k6.others hq.bans] at h4
  have h6 : ∃ y, VMap.get s6.vals i = some { v with pend := v.pend + y } := by
    rcases k7 with ⟨_, c⟩ | ⟨_, rfl⟩
    · obtain ⟨y5, h5⟩ := shares_pend c h4
      exact ⟨y2 + y3 + y4 + y5, by rw [h5]; simp [Int.add_assoc]⟩
    · exact ⟨y2 + y3 + y4, by rw [h4]; simp [Int.add_assoc]⟩
  obtain ⟨y, h6⟩ := h6
  refine ⟨y, ?_⟩
  rw [k8]
  dsimp only
  rw [get_unbanned, h6, Option.map_some, if_neg]
  rintro ⟨_, e, he, k⟩
  exact hq.unbans e he k

/-- **C43.** Leaving the beacon chain matters only at slots divisible by 1200: at any other slot a validator that
nothing in the block is about keeps its status, its accumulated balance and its identity, and its pending
balance does not shrink, whatever the beacon node says about it. -/
theorem C43_other_slots {E : Env} (hE : ValidEnv E) (hX : ExactEnv E) (hC : NoSelfConsol E)
    (hB : SaneBalances E) {cfg : Config} {bs : List FullBlock} {o o' : Oracle} {b : FullBlock} {n : Nat}
    (h0 : Hist E (newOracle cfg) bs o) (hn : NonNeg o.st) (hf : 0 ≤ o.st.fee)
    (hpf : PostFork1 o.cfg.network o.st.nextSlot) (hp : NonNegPayments b) (hg : GasOK b)
    (h : advanceState E o b = .ok (o', some n)) (hslot : n % 1200 ≠ 0) {i : Nat} {v : Validator}
    (hv : VMap.get o.st.vals i = some v) (hq : Silent b i) :
    ∃ y, 0 ≤ y ∧ VMap.get o'.st.vals i = some { v with pend := v.pend + y } := by
  obtain ⟨hs, _⟩ := hist_five hE hX hC h0 List.Pairwise.nil (by intro p hp; simp [newOracle] at hp)
  obtain ⟨s7, s8, e1, _, e3, e4, e5, e6⟩ := C60_slot_refines hE hX hC h0 h hg
  obtain rfl := e3 hslot
  obtain ⟨y, hy⟩ := e1.silent hq (v := v) hv
  have hvals : o'.st.vals = s8.vals := by rw [e6]
  rw [← hvals] at hy
  obtain ⟨v', g1, g2⟩ := slot_wealth hE hX hC hB hs hn hf hpf hp hg h hv (by
    intro hfo
    cases hfo with
    | elsewhere k => exact hq.duty k.1
    | leaves k =>
      obtain ⟨ev, u, w, hz, e, _⟩ := k
      exact hq.unsubs _ (List.of_mem_zip hz).1 e
    | ban k1 k2 => exact hq.bans _ k1 k2
    | gone k _ => exact hslot (by rw [e5]; exact k))
  rw [hy, Option.some.injEq] at g1
  subst g1
  unfold Validator.wealth at g2
  dsimp only at g2
  exact ⟨y, by omega, hy⟩

/-- the hypotheses of `C43_other_slots`: validator 9 subscribed with 1000, the beacon node says it has exited, and at
slot 12000002 it gets its share of a donation all the same -/
example : ∃ o o' n, ValidEnv Sample.envExit ∧ ExactEnv Sample.envExit ∧ NoSelfConsol Sample.envExit ∧
    SaneBalances Sample.envExit ∧ Hist Sample.envExit (newOracle { Sample.cfg with depSlot := 12000001 })
      [{ Sample.subscribes9 with dutySlot := 12000001 }] o ∧
    NonNeg o.st ∧ 0 ≤ o.st.fee ∧ PostFork1 o.cfg.network o.st.nextSlot ∧
    NonNegPayments (Sample.gift 12000002) ∧ GasOK (Sample.gift 12000002) ∧
    advanceState Sample.envExit o (Sample.gift 12000002) = .ok (o', some n) ∧ n % 1200 ≠ 0 ∧
    Silent (Sample.gift 12000002) 9 ∧ NotActive Sample.envExit 12000002 9 ∧
    (VMap.get o.st.vals 9).map (fun v => (v.status, v.pend)) = some (.active, 1000) ∧
    (VMap.get o'.st.vals 9).map (fun v => (v.status, v.pend)) = some (.active, 1930) := by
  obtain ⟨o, o', n, h1, h2, h3⟩ := Sample.ex_then (E := Sample.envExit)
    (o := newOracle { Sample.cfg with depSlot := 12000001 })
    (bs := [{ Sample.subscribes9 with dutySlot := 12000001 }]) (b := Sample.gift 12000002)
    (P := fun o o' n => decide (n = 12000002 ∧ 0 ≤ o.st.poolFees ∧ (∀ p ∈ o.st.vals, 0 ≤ p.2.pend ∧ 0 ≤ p.2.acc) ∧
      0 ≤ o.st.fee ∧ PostFork1 o.cfg.network o.st.nextSlot ∧
      (VMap.get o.st.vals 9).map (fun v => (v.status, v.pend)) = some (.active, 1000) ∧
      (VMap.get o'.st.vals 9).map (fun v => (v.status, v.pend)) = some (.active, 1930))) (by decide +kernel)
  simp only [decide_eq_true_eq] at h3
  obtain ⟨k1, k2, k3, k4, k5, k6, k7⟩ := h3
  have hC : NoSelfConsol Sample.envExit := by
    intro t slot cs h p hp
    simp only [Sample.envExit, Option.some.injEq] at h
    subst h; simp at hp
  refine ⟨o, o', n, Sample.envExit_valid, Sample.envExit_exact, hC, Sample.envExit_sane, h1, ⟨k2, k3⟩, k4, k5,
    ⟨by decide, by decide⟩, ?_, h2, by rw [k1]; decide,
    ⟨by decide, by decide, by decide, by decide, by decide⟩, ?_, k6, k7⟩
  · intro c h rs hc hh hr
    simp only [Sample.gift, Sample.prop, Option.some.injEq] at hc hh hr
    subst hc hh hr
    refine ⟨rfl, ?_, rfl, by norm_num, ?_⟩
    · intro n hn; simp only [BaseFee.u256.injEq] at hn; subst hn; norm_num
    · intro tx htx
      simp only [List.mem_singleton, Option.some.injEq] at htx
      subst htx; decide
  · exact ⟨0, [9], _, { Sample.bval 9 with status := .exitedUnslashed }, rfl, by simp, rfl, rfl⟩

end Verif
