import Verif.Props.Distribution
import Verif.Props.Agreement
/-
C97: what is at stake counts, not the number of validators it is spread over.
-/
namespace Verif
open VMap

/-- the validators of a group that take part in the sharing -/
def earnersIn (s : State) (A : Nat → Bool) : List (Nat × Validator) :=
  s.vals.filter fun p => A p.1 && decide (Earning p.2)

/-- what these validators have at stake on the chain, at the slot being processed -/
def stakeIn (V : Nat → Nat → BVal) (s : State) (A : Nat → Bool) : Int :=
  ((earnersIn s A).map fun p => ((V s.nextSlot p.1).effBal : Int)).sum

/-- the pending balances of a group -/
def pendIn (s : State) (A : Nat → Bool) : Int :=
  ((s.vals.filter fun p => A p.1).map fun p => p.2.pend).sum

section
variable {V : Nat → Nat → BVal} {K : Nat → List (Nat × Nat)} {E : Env}

/-- what a group gains, as a sum over its earners -/
theorem group_gain (hE : ValidEnv E) (hX : ExactEnv E) (hB : SaneBalances E) (hR : ReadsChain V K E) {net : Str}
    {s s' : State} {r : Int} (hs : MapOK s) (h2 : PostElectra net s.nextSlot) (hc : 0 < earningCount s)
    (h : increaseAll E net s r = .ok s') (A : Nat → Bool) :
    0 < stakeIn V s (fun _ => true) ∧
    pendIn s' A - pendIn s A = ((earnersIn s A).map fun p =>
      (r - feeOf s.fee r) * ((V s.nextSlot p.1).effBal : Int) / stakeIn V s (fun _ => true)).sum := by
  rcases increaseAll_rule hE h with ⟨he, _⟩ | ⟨hne, hfee, sh, fees, hrule, _, hval, hp⟩
  · rw [eligible_nil_iff hE] at he; omega
  · cases hrule with
    | fork1 _ h3 => exact absurd h2 h3
    | pre _ _ h3 => exact absurd h2 h3
    | electra vs t h1 hget hT =>
      have hg := (getSet_some hget).1
      have hans := answer_perm hE hX hget (nodup_eligible hE hs)
      have hb : ∀ v ∈ vs, i64 v.effBal = ((V s.nextSlot v.index).effBal : Int) := fun v hv => by
        rw [i64_of_lt (hB _ _ _ _ hg v hv), ← hR.node _ _ _ _ hg v hv]
      have htot : (vs.map fun v => i64 v.effBal).sum = stakeIn V s (fun _ => true) := by
        rw [List.map_congr_left hb]
        have e1 : (vs.map fun v => ((V s.nextSlot v.index).effBal : Int)) =
            (vs.map (·.index)).map fun i => ((V s.nextSlot i).effBal : Int) := by
          rw [List.map_map]; rfl
        have e2 : (eligible E s).Perm ((earnersIn s fun _ => true).map (·.1)) := by
          unfold eligible earnersIn
          refine (shuffle_perm hE _ _).trans (List.Perm.of_eq ?_)
          congr 1
          apply List.filter_congr
          intro p _
          rw [Bool.eq_iff_iff]
          simp only [Earning, Bool.or_eq_true, decide_eq_true_eq, Bool.true_and]
          exact decide_eq_true_iff.symm
        rw [e1, ((hans.trans e2).map _).sum_eq, List.map_map]
        rfl
      refine ⟨?_, ?_⟩
      · have : 0 ≤ stakeIn V s (fun _ => true) := by
          apply sum_nonneg
          intro y hy
          obtain ⟨u, hu, rfl⟩ := List.mem_map.mp hy
          omega
        rw [htot] at hT
        omega
      have hsh : ∀ p ∈ s.vals, shareOf (vs.map fun v => (v.index, (r - feeOf s.fee r) * i64 v.effBal /
          (vs.map fun v => i64 v.effBal).sum)) p.1 = if Earning p.2 then
            (r - feeOf s.fee r) * ((V s.nextSlot p.1).effBal : Int) / stakeIn V s (fun _ => true) else 0 := by
        intro p hp
        split
        · rename_i he
          have hm : p.1 ∈ eligible E s := (mem_eligible hE hs _).mpr ⟨p.2, Sorted.get_of_mem hs hp, he⟩
          obtain ⟨u, hu, hui⟩ := List.mem_map.mp (hans.mem_iff.mpr hm)
          rw [shareOf_eq_of_nodup (x := (r - feeOf s.fee r) * i64 u.effBal / (vs.map fun v => i64 v.effBal).sum) ?_
            (List.mem_map.mpr ⟨u, hu, by rw [hui]⟩), hb u hu, hui, htot]
          rw [List.map_map]
          exact hE.nodup _ _ _ _ hg
        · rename_i he
          apply shareOf_eq_zero
          intro hm
          rw [List.map_map] at hm
          have hm := hans.mem_iff.mp hm
          obtain ⟨v, hv, hev⟩ := (mem_eligible hE hs _).mp hm
          rw [Sorted.get_of_mem hs hp] at hv
          cases hv
          exact he hev
      unfold pendIn earnersIn
      rw [hval]
      unfold credit
      generalize hS : stakeIn V s (fun _ => true) = S at *
      have key : ∀ l : VMap, (∀ p ∈ l, p ∈ s.vals) →
          ((((l.map fun p => (p.1, { p.2 with pend := p.2.pend + shareOf (vs.map fun v => (v.index,
            (r - feeOf s.fee r) * i64 v.effBal / (vs.map fun v => i64 v.effBal).sum)) p.1 })).filter
              fun p => A p.1).map fun p : Nat × Validator => p.2.pend).sum -
          ((l.filter fun p => A p.1).map fun p => p.2.pend).sum : Int) =
          ((l.filter fun p => A p.1 && decide (Earning p.2)).map fun p =>
            (r - feeOf s.fee r) * ((V s.nextSlot p.1).effBal : Int) / S).sum := by
        intro l
        induction l with
        | nil => intro _; rfl
        | cons p l ih =>
          intro hl
          have := ih fun q hq => hl q (List.mem_cons_of_mem _ hq)
          have hp := hsh p (hl p List.mem_cons_self)
          simp only [List.map_cons, List.filter_cons]
          cases ha : A p.1
          · simp only [Bool.false_and]
            exact this
          · simp only [Bool.true_and, decide_eq_true_eq, if_true, List.map_cons, List.sum_cons, hp]
            by_cases he : Earning p.2
            · simp only [he, if_true, List.map_cons, List.sum_cons]
              linarith
            · simp only [he, if_false]
              linarith
      exact key s.vals fun _ h => h

/-- **C97.** From the electra fork on, a reward gives every group of validators its part in proportion to what
the group has at stake: never more, and less by less than one wei per validator. -/
theorem C97_stake_counts (hE : ValidEnv E) (hX : ExactEnv E) (hB : SaneBalances E) (hR : ReadsChain V K E) {net : Str}
    {s s' : State} {r : Int} (hs : MapOK s) (h2 : PostElectra net s.nextSlot) (hc : 0 < earningCount s)
    (h : increaseAll E net s r = .ok s') (A : Nat → Bool) :
    let total := stakeIn V s fun _ => true
    let gain := pendIn s' A - pendIn s A
    0 < total ∧ total * gain ≤ (r - feeOf s.fee r) * stakeIn V s A ∧
      (r - feeOf s.fee r) * stakeIn V s A ≤ total * gain + (total - 1) * (earnersIn s A).length := by
  obtain ⟨h0, hg⟩ := group_gain hE hX hB hR hs h2 hc h A
  dsimp only
  have e : stakeIn V s A = ((earnersIn s A).map fun p => ((V s.nextSlot p.1).effBal : Int)).sum := rfl
  have := floors_bounds h0 ((earnersIn s A).map fun p => (r - feeOf s.fee r) * ((V s.nextSlot p.1).effBal : Int))
  rw [List.map_map, List.length_map] at this
  have hm : ((earnersIn s A).map fun p => (r - feeOf s.fee r) * ((V s.nextSlot p.1).effBal : Int)).sum =
      (r - feeOf s.fee r) * stakeIn V s A := by
    rw [e]
    induction earnersIn s A with
    | nil => simp
    | cons p l ih => simp only [List.map_cons, List.sum_cons, ih]; ring
  rw [hm] at this
  rw [hg]
  exact ⟨h0, this.1, this.2⟩

/-- **C97.** Two groups with the same stake, in pools with the same stake in total and the same fee, gain the same
from the same reward, apart from less than one wei per validator of the group that gains less. So nobody gains by
spreading stake over more validators: one validator with all of it gains at least as much. -/
theorem C97_splitting_gains_nothing {E' : Env} {V' : Nat → Nat → BVal} {K' : Nat → List (Nat × Nat)}
    (hE : ValidEnv E) (hX : ExactEnv E) (hB : SaneBalances E) (hR : ReadsChain V K E)
    (hE' : ValidEnv E') (hX' : ExactEnv E') (hB' : SaneBalances E') (hR' : ReadsChain V' K' E') {net : Str}
    {s s' q q' : State} {r : Int} (hs : MapOK s) (h2 : PostElectra net s.nextSlot) (hc : 0 < earningCount s)
    (h : increaseAll E net s r = .ok s') (hq : MapOK q) (h2' : PostElectra net q.nextSlot) (hc' : 0 < earningCount q)
    (h' : increaseAll E' net q r = .ok q') (hfee : q.fee = s.fee)
    (htot : stakeIn V' q (fun _ => true) = stakeIn V s fun _ => true) {A B : Nat → Bool}
    (hst : stakeIn V' q B = stakeIn V s A) :
    pendIn s' A - pendIn s A ≤ (pendIn q' B - pendIn q B) + ((earnersIn q B).length - 1 : Nat) := by
  obtain ⟨a1, a2, a3⟩ := C97_stake_counts hE hX hB hR hs h2 hc h A
  obtain ⟨b1, b2, b3⟩ := C97_stake_counts hE' hX' hB' hR' hq h2' hc' h' B
  rw [hst, htot, hfee] at b2 b3
  generalize stakeIn V s (fun _ => true) = T at *
  generalize pendIn s' A - pendIn s A = g at *
  generalize pendIn q' B - pendIn q B = g' at *
  generalize (r - feeOf s.fee r) * stakeIn V s A = c at *
  by_cases hn : earnersIn q B = []
  · rw [hn] at b3 ⊢
    simp only [List.length_nil, Nat.cast_zero, mul_zero, add_zero, Nat.zero_sub] at b3 ⊢
    exact le_of_mul_le_mul_left (le_trans a2 b3) a1
  · have hl := List.length_pos_iff.mpr hn
    generalize (earnersIn q B).length = n at *
    by_contra hlt
    have : (n : Int) ≤ g - g' := by omega
    have h1 : (1 : Int) ≤ n := by omega
    have := mul_le_mul_of_nonneg_left this (le_of_lt a1)
    nlinarith
end

namespace Sample

/-- the sample state with the stake of validators 1 and 2 in a single validator, 35 -/
def stMerged : State := { st with vals := [(9, val 9 .active 900 10), (35, val 35 .active 30000 11)] }

/-- Validators 1 and 2, with 33 and 34 ether at stake of 108, against validator 35 with 67: of a reward of
1000003 wei they gain 576945, one wei less than the single validator. -/
example : ∃ s' q', increaseAll env mainnet st 1000003 = .ok s' ∧ increaseAll env mainnet stMerged 1000003 = .ok q' ∧
    MapOK st ∧ MapOK stMerged ∧ PostElectra mainnet st.nextSlot ∧ 0 < earningCount st ∧ 0 < earningCount stMerged ∧
    ReadsChain sampleV (fun _ => [(9, 1)]) env ∧
    stakeIn sampleV st (fun _ => true) = 108000000000 ∧ stakeIn sampleV stMerged (fun _ => true) = 108000000000 ∧
    stakeIn sampleV st (fun i => i < 9) = 67000000000 ∧ stakeIn sampleV stMerged (fun i => i = 35) = 67000000000 ∧
    pendIn s' (fun i => i < 9) - pendIn st (fun i => i < 9) = 576945 ∧
    pendIn q' (fun i => i = 35) - pendIn stMerged (fun i => i = 35) = 576946 :=
  ⟨_, _, rfl, rfl, st_ok, by unfold MapOK; decide, by decide, by decide, by decide, reads_of rfl rfl, by decide,
    by decide, by decide, by decide, by decide +kernel, by decide +kernel⟩

end Sample

end Verif
