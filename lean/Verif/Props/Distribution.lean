import Verif.Lemmas.Shares
import Verif.Spec.Sample
/-
C01, C04, C05, C06: sharing one reward (`increaseAll` models increaseAllPendingRewards).
-/
namespace Verif
open VMap

/-! ### C01 -/

/-- C01. Whatever the amount, fee, validators and rule in force, the increase of all pending
balances plus the increase of the pool fees is the amount shared; nothing else changes hands. -/
theorem C01_split_exact {E : Env} (hE : ValidEnv E) {net : Str} {s s' : State} {r : Int}
    (hs : MapOK s) (h : increaseAll E net s r = .ok s') :
    (pendingTotal s' - pendingTotal s) + (s'.poolFees - s.poolFees) = r ∧
      accTotal s' = accTotal s := by
  obtain ⟨sh, fees, d⟩ := increaseAll_dist hE hs h
  have e1 : s'.vals = credit sh s.vals := by rw [d.eq]
  have e2 : s'.poolFees = s.poolFees + fees := by rw [d.eq]
  have h1 : pendingTotal s' = pendingTotal s + (sh.map (·.2)).sum := by
    unfold pendingTotal; rw [e1]; exact total_pend_credit hs d.tracked
  have h2 : accTotal s' = accTotal s := by
    unfold accTotal; rw [e1]; exact total_credit_same sh (f := (·.acc)) (by intro v x; rfl)
  refine ⟨?_, h2⟩
  rw [h1, e2, ← d.sum]; ring

/-- C01. The internal mismatch check never fires: with a fee of at most 100%, a network with known
rules and a beacon node that answers, sharing always succeeds, for every amount (even negative
ones). -/
theorem C01_never_aborts {E : Env} (hE : ValidEnv E) (hN : GoodNode E) {net : Str} {s : State}
    (hs : MapOK s) (hk : KnownNet net) (hf : s.fee ≤ 10000) (r : Int) :
    ∃ s', increaseAll E net s r = .ok s' := increaseAll_succeeds hE hN hs hk hf r

example : ∃ s', increaseAll Sample.env mainnet Sample.st 1000003 = .ok s' ∧ s'.vals ≠ Sample.st.vals :=
  ⟨_, rfl, by decide⟩
example : ∃ s', increaseAll Sample.env mainnet { Sample.st with nextSlot := 10188220 } 1000003 = .ok s' ∧
    s'.vals ≠ Sample.st.vals := ⟨_, rfl, by decide⟩
example : ∃ s', increaseAll Sample.env mainnet { Sample.st with nextSlot := 10188219 } 1000003 = .ok s' ∧
    s'.vals ≠ Sample.st.vals := ⟨_, rfl, by decide⟩
example : ∃ s', increaseAll Sample.env mainnet Sample.st 5 = .ok s' :=
  C01_never_aborts Sample.env_valid Sample.env_good Sample.st_ok (by decide) (by decide) 5

/-! ### C04 -/

/-- C04. When somebody takes part, the pool keeps at least its fee (rounded down). -/
theorem C04_at_least_fee {E : Env} (hE : ValidEnv E) (hB : SaneBalances E) {net : Str}
    {s s' : State} {r : Int} (hc : 0 < earningCount s)
    (h : increaseAll E net s r = .ok s') : feeOf s.fee r ≤ s'.poolFees - s.poolFees := by
  rcases increaseAll_rule hE h with ⟨he, _⟩ | ⟨hne, hfee, sh, fees, hrule, _, _, hp⟩
  · rw [eligible_nil_iff hE] at he; omega
  · rw [hp]
    have hn : 0 < ((eligible E s).length : Int) := by rw [eligible_length hE]; omega
    cases hrule with
    | electra vs t h1 hget hT =>
      have hb : ∀ v ∈ vs, i64 v.effBal = v.effBal := fun v hv =>
        i64_of_lt (hB _ _ _ _ (getSet_some hget).1 v hv)
      set T := (vs.map fun v => i64 v.effBal).sum with hTdef
      have hT0 : 0 < T := by
        have : 0 ≤ T := by
          apply sum_nonneg
          intro y hy
          obtain ⟨u, hu, hu2⟩ := List.mem_map.mp hy
          rw [← hu2, hb u hu]; omega
        omega
      have hfl := (floors_bounds hT0 (vs.map fun v => (r - feeOf s.fee r) * i64 v.effBal)).1
      rw [sum_map_mul, List.map_map] at hfl
      simp only [Function.comp_def] at hfl
      by_contra hcon
      rw [not_le] at hcon
      have : (vs.map fun v => (r - feeOf s.fee r) * i64 v.effBal / T).sum > r - feeOf s.fee r := by
        linarith
      nlinarith
    | fork1 h1 h2 =>
      have := Int.emod_nonneg (r - feeOf s.fee r) (ne_of_gt hn)
      omega
    | pre h0 h1 h2 =>
      have := Int.emod_nonneg (r - feeOf s.fee r - r * s.fee % 10000) (ne_of_gt hn)
      have := Int.emod_nonneg (r * s.fee) (by norm_num : (10000 : Int) ≠ 0)
      omega

/-- C04. Under the fork1 and electra rules the pool keeps less than its fee plus one wei per
validator taking part. -/
theorem C04_less_than {E : Env} (hE : ValidEnv E) (hX : ExactEnv E) (hB : SaneBalances E) {net : Str}
    {s s' : State} {r : Int} (hs : MapOK s) (hpost : PostFork1 net s.nextSlot)
    (hc : 0 < earningCount s) (h : increaseAll E net s r = .ok s') :
    s'.poolFees - s.poolFees < feeOf s.fee r + earningCount s := by
  rcases increaseAll_rule hE h with ⟨he, _⟩ | ⟨hne, hfee, sh, fees, hrule, _, _, hp⟩
  · rw [eligible_nil_iff hE] at he; omega
  · rw [hp]
    have hn : 0 < ((eligible E s).length : Int) := by rw [eligible_length hE]; omega
    cases hrule with
    | electra vs t h1 hget hT =>
      have hb : ∀ v ∈ vs, i64 v.effBal = v.effBal := fun v hv =>
        i64_of_lt (hB _ _ _ _ (getSet_some hget).1 v hv)
      have hlen : vs.length = earningCount s := by
        have := (answer_perm hE hX hget (nodup_eligible hE hs)).length_eq
        rw [List.length_map] at this
        rw [this, eligible_length hE]
      set T := (vs.map fun v => i64 v.effBal).sum with hTdef
      have hT0 : 0 < T := by
        have : 0 ≤ T := by
          apply sum_nonneg
          intro y hy
          obtain ⟨u, hu, hu2⟩ := List.mem_map.mp hy
          rw [← hu2, hb u hu]; omega
        omega
      have hfl := (floors_bounds hT0 (vs.map fun v => (r - feeOf s.fee r) * i64 v.effBal)).2
      rw [sum_map_mul, List.map_map, List.length_map, hlen] at hfl
      simp only [Function.comp_def] at hfl
      by_contra hcon
      rw [not_lt] at hcon
      have : (vs.map fun v => (r - feeOf s.fee r) * i64 v.effBal / T).sum
          ≤ r - feeOf s.fee r - earningCount s := by linarith
      have hc' : (0 : Int) < earningCount s := by omega
      nlinarith
    | fork1 h1 h2 =>
      have := Int.emod_lt_of_pos (r - feeOf s.fee r) hn
      rw [eligible_length hE] at this ⊢
      omega
    | pre h0 h1 h2 => exact absurd hpost h1

/-- C04. When nobody takes part the pool keeps everything and nobody's record changes. -/
theorem C04_no_earner {E : Env} (hE : ValidEnv E) {net : Str} {s s' : State} {r : Int}
    (hc : earningCount s = 0) (h : increaseAll E net s r = .ok s') :
    s'.poolFees = s.poolFees + r ∧ s'.vals = s.vals := by
  rcases increaseAll_rule hE h with ⟨_, h1, h2⟩ | ⟨hne, _⟩
  · exact ⟨h2, h1⟩
  · exact absurd ((eligible_nil_iff hE s).mpr hc) hne

example : 0 < earningCount Sample.st ∧ PostFork1 mainnet Sample.st.nextSlot ∧ MapOK Sample.st ∧
    (0 : Int) ≤ Sample.st.fee ∧ ∃ s', increaseAll Sample.env mainnet Sample.st 1000003 = .ok s' :=
  ⟨by decide, by decide, Sample.st_ok, by decide, _, rfl⟩
example : earningCount { Sample.st with vals := [(3, Sample.val 3 .redCard 1 2)] } = 0 := by decide

/-! ### C05 -/

/-- C05. Under the fork1 rule every validator taking part receives the same amount: what is left
after the fee, divided by the number of participants, rounded down. -/
theorem C05_fork1_equal {E : Env} (hE : ValidEnv E) {net : Str} {s s' : State} {r : Int}
    (hs : MapOK s) (h1 : PostFork1 net s.nextSlot) (h2 : ¬ PostElectra net s.nextSlot)
    (h : increaseAll E net s r = .ok s') {i : Nat} {v : Validator}
    (hv : VMap.get s.vals i = some v) (he : Earning v) :
    VMap.get s'.vals i =
      some { v with pend := v.pend + (r - feeOf s.fee r) / (earningCount s : Int) } := by
  have hi : i ∈ eligible E s := (mem_eligible hE hs i).mpr ⟨v, hv, he⟩
  rcases increaseAll_rule hE h with ⟨hn, _⟩ | ⟨hne, hfee, sh, fees, hrule, _, hval, hp⟩
  · rw [hn] at hi; simp at hi
  · rw [hval, get_credit, hv]
    cases hrule with
    | electra vs t h3 _ _ => exact absurd h3 h2
    | pre _ h3 _ => exact absurd h1 h3
    | fork1 _ _ =>
      rw [shareOf_eq_of_nodup (x := (r - feeOf s.fee r) / (eligible E s).length) ?_
        (List.mem_map.mpr ⟨i, hi, rfl⟩), eligible_length hE]
      · rfl
      · rw [List.map_map]; simpa [Function.comp_def] using nodup_eligible hE hs

/-- C05. Under the electra rule there is one answer of the beacon node, listing exactly the
validators taking part, such that each of them receives its proportional part of what is left
after the fee, rounded down; so equal balances give equal shares and a larger balance never gives
a smaller share. -/
theorem C05_electra_proportional {E : Env} (hE : ValidEnv E) (hX : ExactEnv E) (hB : SaneBalances E)
    {net : Str} {s s' : State} {r : Int} (hs : MapOK s) (h2 : PostElectra net s.nextSlot)
    (hc : 0 < earningCount s) (h : increaseAll E net s r = .ok s') :
    ∃ t req bals, E.node t s.nextSlot req = some bals ∧
      (∀ i, (∃ u ∈ bals, u.index = i) ↔ ∃ v, VMap.get s.vals i = some v ∧ Earning v) ∧
      ∃ share : Nat → Int,
        (∀ b, share b = (r - feeOf s.fee r) * b / (bals.map fun u => (u.effBal : Int)).sum) ∧
        (0 ≤ r → 0 ≤ s.fee → ∀ b b', b ≤ b' → share b ≤ share b') ∧
        ∀ u ∈ bals, ∀ v, VMap.get s.vals u.index = some v →
          VMap.get s'.vals u.index = some { v with pend := v.pend + share u.effBal } := by
  rcases increaseAll_rule hE h with ⟨he, _⟩ | ⟨hne, hfee, sh, fees, hrule, _, hval, hp⟩
  · rw [eligible_nil_iff hE] at he; omega
  · cases hrule with
    | fork1 _ h3 => exact absurd h2 h3
    | pre _ _ h3 => exact absurd h2 h3
    | electra vs t h1 hget hT =>
      have hans := answer_perm hE hX hget (nodup_eligible hE hs)
      have hb : ∀ v ∈ vs, i64 v.effBal = v.effBal := fun v hv =>
        i64_of_lt (hB _ _ _ _ (getSet_some hget).1 v hv)
      have hT' : (vs.map fun v => i64 v.effBal).sum = (vs.map fun u => (u.effBal : Int)).sum := by
        rw [List.map_congr_left hb]
      have hT0 : 0 ≤ (vs.map fun u => (u.effBal : Int)).sum := by
        apply sum_nonneg
        intro y hy
        obtain ⟨u, hu, hu2⟩ := List.mem_map.mp hy
        omega
      refine ⟨t, _, vs, (getSet_some hget).1, ?_, fun b => (r - feeOf s.fee r) * b /
        (vs.map fun u => (u.effBal : Int)).sum, fun b => rfl, ?_, ?_⟩
      · intro i
        have : (∃ u ∈ vs, u.index = i) ↔ i ∈ eligible E s := by
          rw [← hans.mem_iff, List.mem_map]
        rw [this, mem_eligible hE hs]
        exact Iff.rfl
      · intro hr hf b b' hbb
        have hcut := poolCut_bounds hr hf hfee
        apply Int.ediv_le_ediv (by rw [hT'] at hT; omega)
        apply Int.mul_le_mul_of_nonneg_left (by omega)
        unfold feeOf; omega
      · intro u hu v hv
        rw [hval, get_credit, hv]
        rw [shareOf_eq_of_nodup (x := (r - feeOf s.fee r) * i64 u.effBal /
          (vs.map fun v => i64 v.effBal).sum) ?_ (List.mem_map.mpr ⟨u, hu, rfl⟩), hT', hb u hu]
        · rfl
        · rw [List.map_map]
          exact (hE.nodup _ _ _ _ (getSet_some hget).1)

/-- C05, the rule before fork1: equal shares as well, of what is left after the fee and after the
remainder of the fee division (see `C07_false_before_fork1` for what is wrong with it). -/
theorem C05_before_fork1_equal {E : Env} (hE : ValidEnv E) {net : Str} {s s' : State} {r : Int}
    (hs : MapOK s) (h1 : ¬ PostFork1 net s.nextSlot) (h2 : ¬ PostElectra net s.nextSlot)
    (h : increaseAll E net s r = .ok s') {i : Nat} {v : Validator}
    (hv : VMap.get s.vals i = some v) (he : Earning v) :
    VMap.get s'.vals i = some { v with
      pend := v.pend + (r - feeOf s.fee r - r * s.fee % 10000) / (earningCount s : Int) } := by
  have hi : i ∈ eligible E s := (mem_eligible hE hs i).mpr ⟨v, hv, he⟩
  rcases increaseAll_rule hE h with ⟨hn, _⟩ | ⟨hne, hfee, sh, fees, hrule, _, hval, hp⟩
  · rw [hn] at hi; simp at hi
  · rw [hval, get_credit, hv]
    cases hrule with
    | electra vs t h3 _ _ => exact absurd h3 h2
    | fork1 h3 _ => exact absurd h3 h1
    | pre _ _ _ =>
      rw [shareOf_eq_of_nodup (x := (r - feeOf s.fee r - r * s.fee % 10000) / (eligible E s).length) ?_
        (List.mem_map.mpr ⟨i, hi, rfl⟩), eligible_length hE]
      · rfl
      · rw [List.map_map]; simpa [Function.comp_def] using nodup_eligible hE hs

example : ∃ v, VMap.get Sample.st.vals 2 = some v ∧ Earning v ∧ v.pend = 20000 :=
  ⟨Sample.val 2 .yellowCard 20000 6, by decide, by decide, rfl⟩
example : PostElectra mainnet Sample.st.nextSlot ∧ ¬ PostElectra mainnet 10188220 ∧
    PostFork1 mainnet 10188220 ∧ ¬ PostFork1 mainnet 10188219 := by decide

/-! ### C06 -/

/-- C06. Sharing a reward changes at most the pending balance of validators that are active or
yellow-carded: every other record is unchanged, as are everybody's accumulated balance, status and
identity, and no validator is added or dropped. -/
theorem C06_only_earners {E : Env} (hE : ValidEnv E) (hX : ExactEnv E) {net : Str} {s s' : State}
    {r : Int} (hs : MapOK s) (h : increaseAll E net s r = .ok s') (i : Nat) :
    match VMap.get s.vals i, VMap.get s'.vals i with
    | none, none => True
    | some v, some v' => v' = { v with pend := v'.pend } ∧ (¬ Earning v → v' = v)
    | _, _ => False := by
  obtain ⟨sh, fees, d⟩ := increaseAll_dist hE hs h
  have e1 : s'.vals = credit sh s.vals := by rw [d.eq]
  rw [e1, get_credit]
  cases hv : VMap.get s.vals i with
  | none => simp
  | some v =>
    simp only [Option.map_some, true_and]
    intro hne
    rw [shareOf_eq_zero]
    · simp
    · intro hm
      obtain ⟨p, hp, hpi⟩ := List.mem_map.mp hm
      obtain ⟨u, hu, hu2⟩ := d.exact hX p hp
      rw [hpi, hv, Option.some.injEq] at hu
      subst hu
      exact hne hu2

example : ∃ s', increaseAll Sample.env mainnet Sample.st 1000003 = .ok s' ∧
    VMap.get s'.vals 3 = VMap.get Sample.st.vals 3 ∧ VMap.get s'.vals 1 ≠ VMap.get Sample.st.vals 1 :=
  ⟨_, rfl, by decide, by decide⟩

/-- The assumption that the node returns only what it was asked for is needed: if the answer
contains one more tracked validator, that one is credited even though it is banned. -/
theorem C06_false_for_extra_answers : ∃ E s s' r, ValidEnv E ∧ MapOK s ∧
    increaseAll E mainnet s r = .ok s' ∧ ∃ v v', VMap.get s.vals 4 = some v ∧ v.status = .banned ∧
      VMap.get s'.vals 4 = some v' ∧ v'.pend > v.pend :=
  ⟨{ perm := fun _ n => List.range n
     node := fun _ _ _ => some [Sample.bval 1, Sample.bval 2, Sample.bval 4, Sample.bval 9]
     consol := fun _ _ => none },
   Sample.st, _, 1000000,
   ⟨fun _ _ => List.Perm.refl _, by
      intro t slot req r h
      simp only [Option.some.injEq] at h
      subst h; decide⟩, Sample.st_ok, rfl, Sample.val 4 .banned 0 8, _, by decide, rfl, rfl, by decide⟩

end Verif
