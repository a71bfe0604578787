import Verif.Lemmas.VMap
import Verif.Spec.Env
import Verif.Spec.Money
import Mathlib.Data.List.Perm.Basic
import Mathlib.Data.List.Perm.Subperm
/-
Facts about reward distribution.
-/
namespace Verif
open VMap

/-- inversion of sequencing -/
theorem bind_ok {α β : Type} {x : M α} {f : α → M β} {r : β} :
    (x >>= f) = .ok r ↔ ∃ a, x = .ok a ∧ f a = .ok r := by
  cases x with
  | error e => simp [bind, Except.bind]
  | ok a => simp [bind, Except.bind]

theorem filterMap_range {α : Type} (l : List α) :
    (List.range l.length).filterMap (fun i => l[i]?) = l := by
  induction l with
  | nil => rfl
  | cons a l ih =>
    rw [List.length_cons, List.range_succ_eq_map, List.filterMap_cons]
    simp only [List.getElem?_cons_zero]
    rw [List.filterMap_map]
    congr 1

theorem shuffle_perm {E : Env} (hE : ValidEnv E) {α : Type} (t : Nat) (l : List α) :
    (E.shuffle t l).Perm l := by
  have h := (hE.perm t l.length).filterMap (fun i => l[i]?)
  rw [filterMap_range] at h
  exact h

/-! ### Splits -/

theorem fork1Split_eq (r c n : Int) : fork1Split r c n = .ok (c + (r - c) % n, (r - c) / n) := by
  unfold fork1Split
  simp only
  rw [if_neg]
  have := Int.mul_ediv_add_emod (r - c) n
  rw [not_not]; linarith [mul_comm n ((r - c) / n)]

theorem preFork1Split_eq (r c aux over n : Int) :
    preFork1Split r c aux over n =
      .ok (c + aux % over + (r - c - aux % over) % n, (r - c - aux % over) / n) := by
  unfold preFork1Split
  simp only
  rw [if_neg]
  have := Int.mul_ediv_add_emod (r - c - aux % over) n
  rw [not_not]; linarith [mul_comm n ((r - c - aux % over) / n)]

/-- Amount a list of shares assigns to one validator. -/
def shareOf (sh : List (Nat × Int)) (i : Nat) : Int :=
  ((sh.filter fun p => p.1 == i).map (·.2)).sum

/-- Adding shares to the pending balances. -/
def credit (sh : List (Nat × Int)) (m : VMap) : VMap :=
  m.map fun p => (p.1, { p.2 with pend := p.2.pend + shareOf sh p.1 })

theorem shareOf_cons (i x sh j) :
    shareOf ((i, x) :: sh) j = (if i = j then x else 0) + shareOf sh j := by
  unfold shareOf
  rw [List.filter_cons]
  by_cases h : i = j
  · subst h; simp
  · simp [h]

theorem credit_nil (m : VMap) : credit [] m = m := by
  unfold credit shareOf
  conv_rhs => rw [← List.map_id m]
  apply List.map_congr_left
  intro p _; simp

theorem credit_cons (i x sh) (m : VMap) :
    credit ((i, x) :: sh) m = credit sh (VMap.modify m i fun v => { v with pend := v.pend + x }) := by
  unfold credit VMap.modify
  rw [List.map_map]
  apply List.map_congr_left
  intro p _
  simp only [Function.comp, shareOf_cons]
  by_cases h : p.1 = i
  · simp [h]; ring
  · simp [h, Ne.symm h]

theorem credit_append (a b) (m : VMap) : credit (a ++ b) m = credit b (credit a m) := by
  induction a generalizing m with
  | nil => simp [credit_nil]
  | cons p a ih => obtain ⟨i, x⟩ := p; rw [List.cons_append, credit_cons, credit_cons, ih]

theorem keys_credit (sh) (m : VMap) : keys (credit sh m) = keys m := by
  unfold keys credit; rw [List.map_map]; rfl

theorem get_credit (sh) (m : VMap) (k : Nat) :
    VMap.get (credit sh m) k =
      (VMap.get m k).map fun v => { v with pend := v.pend + shareOf sh k } := by
  induction m with
  | nil => rfl
  | cons p m ih =>
    obtain ⟨a, v⟩ := p
    simp only [credit, List.map_cons, VMap.get] at ih ⊢
    by_cases h : a = k
    · subst h; simp
    · simp only [if_neg h]; exact ih

theorem VMap.Sorted.credit {m : VMap} (hs : Sorted m) (sh) : Sorted (credit sh m) := by
  rw [sorted_iff_keys, keys_credit, ← sorted_iff_keys]; exact hs

theorem applyShares_eq (sh : List (Nat × Int)) (m : VMap) :
    applyShares sh m =
      if ∀ p ∈ sh, (VMap.get m p.1).isSome then .ok (credit sh m) else .error .panic := by
  induction sh generalizing m with
  | nil => simp [applyShares, credit_nil]
  | cons p sh ih =>
    obtain ⟨i, x⟩ := p
    unfold applyShares
    cases hg : VMap.get m i with
    | none => simp [hg]
    | some v =>
      simp only [ih, credit_cons]
      have e : (∀ p ∈ sh, (VMap.get (VMap.modify m i fun v => { v with pend := v.pend + x }) p.1).isSome)
          ↔ (∀ p ∈ (i, x) :: sh, (VMap.get m p.1).isSome) := by
        simp only [get_isSome_iff, keys_modify, List.mem_cons, forall_eq_or_imp]
        constructor
        · intro h
          refine ⟨?_, h⟩
          rw [← get_isSome_iff, hg]; rfl
        · exact fun h => h.2
      by_cases h : ∀ p ∈ sh, (VMap.get (VMap.modify m i fun v => { v with pend := v.pend + x }) p.1).isSome
      · rw [if_pos h, if_pos (e.mp h)]
      · rw [if_neg h, if_neg (fun h' => h (e.mpr h'))]

theorem applyShares_ok {sh m m'} (h : applyShares sh m = .ok m') :
    (∀ p ∈ sh, (VMap.get m p.1).isSome) ∧ m' = credit sh m := by
  rw [applyShares_eq] at h
  split at h
  · rename_i h1; exact ⟨h1, by simpa using h.symm⟩
  · simp at h

theorem total_pend_credit {m : VMap} (hs : Sorted m) {sh : List (Nat × Int)}
    (h : ∀ p ∈ sh, (VMap.get m p.1).isSome) :
    total (·.pend) (credit sh m) = total (·.pend) m + (sh.map (·.2)).sum := by
  induction sh generalizing m with
  | nil => simp [credit_nil]
  | cons p sh ih =>
    obtain ⟨i, x⟩ := p
    obtain ⟨v, hv⟩ := Option.isSome_iff_exists.mp (h (i, x) (by simp))
    rw [credit_cons, ih (hs.modify _ _), total_modify hs hv]
    · simp; ring
    · intro p hp
      rw [get_isSome_iff, keys_modify, ← get_isSome_iff]
      exact h p (by simp [hp])

theorem total_credit_same {m : VMap} (sh) {f : Validator → Int}
    (h : ∀ v x, f { v with pend := x } = f v) : total f (credit sh m) = total f m := by
  unfold total credit
  rw [List.map_map]
  congr 1
  apply List.map_congr_left
  intro p _; simp [h]

theorem shareOf_eq_of_nodup {sh : List (Nat × Int)} (hn : (sh.map (·.1)).Nodup) {i x}
    (h : (i, x) ∈ sh) : shareOf sh i = x := by
  induction sh with
  | nil => simp at h
  | cons p sh ih =>
    obtain ⟨j, y⟩ := p
    simp only [List.map_cons, List.nodup_cons] at hn
    rw [shareOf_cons]
    rcases List.mem_cons.mp h with h | h
    · simp only [Prod.mk.injEq] at h
      obtain ⟨h1, h2⟩ := h
      subst h1; subst h2
      have : shareOf sh i = 0 := by
        unfold shareOf
        rw [List.filter_eq_nil_iff.mpr]
        · rfl
        · intro p hp hpi
          apply hn.1
          simp only [beq_iff_eq] at hpi
          exact List.mem_map.mpr ⟨p, hp, hpi⟩
      simp [this]
    · have : j ≠ i := by
        intro hji
        apply hn.1
        exact List.mem_map.mpr ⟨(i, x), h, hji.symm⟩
      simp [this, ih hn.2 h]

theorem shareOf_eq_zero {sh : List (Nat × Int)} {i} (h : i ∉ sh.map (·.1)) : shareOf sh i = 0 := by
  unfold shareOf
  rw [List.filter_eq_nil_iff.mpr]
  · rfl
  · intro p hp hpi
    apply h
    simp only [beq_iff_eq] at hpi
    exact List.mem_map.mpr ⟨p, hp, hpi⟩

theorem shareOf_perm {a b : List (Nat × Int)} (h : a.Perm b) (i) : shareOf a i = shareOf b i := by
  unfold shareOf
  exact ((h.filter _).map _).sum_eq

theorem credit_perm {a b : List (Nat × Int)} (h : a.Perm b) (m : VMap) : credit a m = credit b m := by
  unfold credit
  apply List.map_congr_left
  intro p _; rw [shareOf_perm h]

/-! ### Integer divisions -/

theorem floors_bounds {T : Int} (hT : 0 < T) (as : List Int) :
    T * (as.map (· / T)).sum ≤ as.sum ∧
      as.sum ≤ T * (as.map (· / T)).sum + (T - 1) * as.length := by
  induction as with
  | nil => simp
  | cons a as ih =>
    simp only [List.map_cons, List.sum_cons, List.length_cons]
    have h1 := Int.mul_ediv_add_emod a T
    have h2 := Int.emod_nonneg a (ne_of_gt hT)
    have h3 := Int.emod_lt_of_pos a hT
    push_cast
    constructor
    · nlinarith [ih.1]
    · nlinarith [ih.2]

theorem i64_of_lt {n : Nat} (h : n < 9223372036854775808) : i64 (n : Int) = n := by
  unfold i64 Int.bmod
  have : ((n : Int) % (18446744073709551616 : Nat)) = n := by omega
  simp only [this]
  split <;> omega

theorem sum_map_mul (c : Int) (l : List BVal) (f : BVal → Int) :
    (l.map fun v => c * f v).sum = c * (l.map f).sum := by
  induction l with
  | nil => simp
  | cons a l ih => simp only [List.map_cons, List.sum_cons, ih]; ring

theorem sum_nonneg {l : List Int} (h : ∀ x ∈ l, 0 ≤ x) : 0 ≤ l.sum := by
  induction l with
  | nil => simp
  | cons a l ih =>
    rw [List.sum_cons]
    have := h a (by simp)
    have := ih (fun x hx => h x (by simp [hx]))
    omega

theorem poolCut_bounds {r fee : Int} (hr : 0 ≤ r) (h0 : 0 ≤ fee) (h1 : fee ≤ 10000) :
    0 ≤ r * fee / 10000 ∧ r * fee / 10000 ≤ r := by
  have : 0 ≤ r * fee := Int.mul_nonneg hr h0
  have : r * fee ≤ r * 10000 := Int.mul_le_mul_of_nonneg_left h1 hr
  omega

theorem rewardMethod_electra {net slot} (h : PostElectra net slot) :
    rewardMethod net slot = .ok .electra := by
  unfold rewardMethod
  rw [if_pos]
  rcases h with ⟨rfl, h⟩ | ⟨rfl, h⟩ <;> simp [slotElectra, mainnet, hoodi, h]

theorem not_electra_any {net slot} (h : ¬ PostElectra net slot) :
    ((slotElectra net).any fun f => decide (slot ≥ f)) = false := by
  unfold slotElectra mainnet hoodi
  unfold PostElectra at h
  by_cases h1 : net = b!"mainnet"
  · simp only [h1, true_and, List.cons.injEq] at h ⊢; simp at h ⊢; omega
  · by_cases h2 : net = b!"hoodi"
    · simp only [h2, List.cons.injEq] at h ⊢; simp at h ⊢; omega
    · simp [h1, h2]

theorem fork1_any {net slot} :
    ((slotFork1 net).any fun f => decide (slot ≥ f)) = true ↔ PostFork1 net slot := by
  unfold slotFork1 mainnet hoodi holesky PostFork1
  by_cases h1 : net = b!"mainnet"
  · simp [h1]
  · by_cases h2 : net = b!"hoodi"
    · simp [h2]
    · by_cases h3 : net = b!"holesky"
      · simp [h3]
      · simp [h1, h2, h3]

theorem fork1_some {net} : (slotFork1 net).isSome = true ↔ KnownNet net := by
  unfold slotFork1 mainnet hoodi holesky KnownNet
  by_cases h1 : net = b!"mainnet"
  · simp [h1]
  · by_cases h2 : net = b!"hoodi"
    · simp [h2]
    · by_cases h3 : net = b!"holesky"
      · simp [h3]
      · simp [h1, h2, h3]

theorem rewardMethod_fork1 {net slot} (h : PostFork1 net slot) (h' : ¬ PostElectra net slot) :
    rewardMethod net slot = .ok .fork1 := by
  unfold rewardMethod
  rw [not_electra_any h', fork1_any.mpr h]
  rfl

theorem rewardMethod_pre {net slot} (hk : KnownNet net) (h : ¬ PostFork1 net slot)
    (h' : ¬ PostElectra net slot) : rewardMethod net slot = .ok .preFork1 := by
  unfold rewardMethod
  rw [not_electra_any h', fork1_some.mpr hk, eq_false_of_ne_true (fun c => h (fork1_any.mp c))]
  rfl

theorem rewardMethod_unknown {net slot} (hk : ¬ KnownNet net) : rewardMethod net slot = .error .fatal := by
  have h1 : ¬ PostFork1 net slot := by
    rintro (⟨rfl, _⟩ | ⟨rfl, _⟩ | ⟨rfl, _⟩) <;> exact hk (by simp [KnownNet])
  have h2 : ¬ PostElectra net slot := by
    rintro (⟨rfl, _⟩ | ⟨rfl, _⟩) <;> exact hk (by simp [KnownNet])
  unfold rewardMethod
  rw [not_electra_any h2, eq_false_of_ne_true (fun c => h1 (fork1_any.mp c)),
    eq_false_of_ne_true (fun c => hk (fork1_some.mp c))]
  rfl

theorem rewardMethod_post {net slot m} (h : PostFork1 net slot) (hm : rewardMethod net slot = .ok m) :
    m ≠ .preFork1 := by
  by_cases h' : PostElectra net slot
  · rw [rewardMethod_electra h'] at hm; simp at hm; simp [← hm]
  · rw [rewardMethod_fork1 h h'] at hm; simp at hm; simp [← hm]

/-! ### increaseAll -/

/-- validators that take part in distributions -/
def earning (s : State) (i : Nat) : Prop :=
  ∃ v, VMap.get s.vals i = some v ∧ (v.status = .active ∨ v.status = .yellowCard)

theorem mem_eligible {E : Env} (hE : ValidEnv E) {s : State} (hs : Sorted s.vals) (i : Nat) :
    i ∈ eligible E s ↔ earning s i := by
  unfold eligible
  rw [(shuffle_perm hE _ _).mem_iff]
  simp only [List.mem_map, List.mem_filter, Bool.or_eq_true, decide_eq_true_eq, earning]
  constructor
  · rintro ⟨⟨k, v⟩, ⟨h1, h2⟩, h3⟩
    simp only at h3; subst h3
    exact ⟨v, hs.get_of_mem h1, h2⟩
  · rintro ⟨v, h1, h2⟩
    exact ⟨(i, v), ⟨mem_of_get h1, h2⟩, rfl⟩

theorem nodup_eligible {E : Env} (hE : ValidEnv E) {s : State} (hs : Sorted s.vals) :
    (eligible E s).Nodup := by
  unfold eligible
  rw [(shuffle_perm hE _ _).nodup_iff]
  exact hs.nodup_keys.sublist (List.Sublist.map _ List.filter_sublist)

theorem getSet_some {E : Env} {t slot req r} (h : getSet E t slot req = some r) :
    E.node t slot req = some r ∧ r ≠ [] ∧ ∀ i ∈ req, ∃ v ∈ r, v.index = i := by
  unfold getSet at h
  split at h
  · simp at h
  · split at h
    · simp at h
    · rename_i r' hn
      split at h
      · simp at h
      · split at h
        · rename_i h1 h2
          simp only [Option.some.injEq] at h
          subst h
          refine ⟨hn, h1, ?_⟩
          intro i hi
          have := List.all_eq_true.mp h2 i hi
          obtain ⟨v, hv, hvi⟩ := List.any_eq_true.mp this
          exact ⟨v, hv, by simpa using hvi⟩
        · simp at h

/-- What a successful distribution does. -/
structure Dist (E : Env) (net : Str) (s : State) (r : Int) (s' : State)
    (sh : List (Nat × Int)) (fees : Int) : Prop where
  eq : s' = { s with vals := credit sh s.vals, poolFees := s.poolFees + fees, tick := s'.tick }
  tracked : ∀ p ∈ sh, (VMap.get s.vals p.1).isSome
  nodup : (sh.map (·.1)).Nodup
  sum : (sh.map (·.2)).sum + fees = r
  exact : ExactEnv E → ∀ p ∈ sh, earning s p.1
  nonneg : GoodRewards E net s → 0 ≤ r → 0 ≤ fees ∧ ∀ p ∈ sh, 0 ≤ p.2

theorem increaseAll_dist {E : Env} (hE : ValidEnv E) {net s r s'} (hs : Sorted s.vals)
    (h : increaseAll E net s r = .ok s') : ∃ sh fees, Dist E net s r s' sh fees := by
  unfold increaseAll at h
  simp only at h
  split at h
  · simp only [Except.ok.injEq] at h
    refine ⟨[], r, ?_, by simp, by simp, by simp, by simp, by simp⟩
    rw [← h, credit_nil]; rfl
  · split at h
    · simp at h
    · rename_i hne hfee
      simp only [bind_ok] at h
      obtain ⟨meth, hm, ⟨fees, sh⟩, hsp, vals, hap, hst⟩ := h
      obtain ⟨htr, hvals⟩ := applyShares_ok hap
      simp only [Except.ok.injEq] at hst
      have hp := shuffle_perm hE (s.tick + 3) sh
      refine ⟨E.shuffle (s.tick + 3) sh, fees, ?_, htr, ?_, ?_, ?_, ?_⟩
      · rw [← hst, hvals]; rfl
      all_goals
        cases meth with
        | electra =>
          simp only at hsp
          unfold electraSplit at hsp
          simp only at hsp
          split at hsp
          · simp at hsp
          · rename_i vs hvs
            have hvs' := getSet_some hvs
            have hnd := hE.nodup _ _ _ _ hvs'.1
            split at hsp
            · simp at hsp
            · split at hsp
              · simp at hsp
              · rename_i h3
                simp only [Except.ok.injEq, Prod.mk.injEq] at hsp
                obtain ⟨hf, hsh⟩ := hsp
                first
                | -- nodup
                  rw [(hp.map _).nodup_iff, ← hsh, List.map_map]
                  rw [((shuffle_perm hE _ vs).map _).nodup_iff]
                  exact hnd
                | -- sum
                  rw [(hp.map _).sum_eq, ← hsh, ← hf]
                  rw [not_not] at h3
                  linarith
                | -- exact
                  intro hx p hpm
                  have hpm := hp.mem_iff.mp hpm
                  rw [← hsh] at hpm
                  obtain ⟨v, hv, hvp⟩ := List.mem_map.mp hpm
                  have hv := (shuffle_perm hE _ _).mem_iff.mp hv
                  have := hx _ _ _ _ hvs'.1 v hv
                  rw [mem_eligible hE hs] at this
                  rw [← hvp]; exact this
                | -- nonneg
                  rintro ⟨hg0, hg1, hg2⟩ hr
                  rename_i hT
                  have hc := poolCut_bounds hr hg0 (by omega)
                  have hbal : ∀ v ∈ vs, i64 v.effBal = v.effBal := fun v hv =>
                    i64_of_lt (hg2 _ _ _ _ hvs'.1 v hv)
                  set T := ((E.shuffle (s.tick + 1) vs).map fun v => i64 v.effBal).sum with hTdef
                  have hT0 : 0 ≤ T := by
                    apply sum_nonneg
                    intro x hx
                    obtain ⟨v, hv, hvx⟩ := List.mem_map.mp hx
                    rw [← hvx, hbal v ((shuffle_perm hE _ _).mem_iff.mp hv)]
                    omega
                  have hT1 : 0 < T := by omega
                  have hsum : ((E.shuffle (s.tick + 2) vs).map fun v => i64 v.effBal).sum = T :=
                    (((shuffle_perm hE _ _).trans (shuffle_perm hE _ _).symm).map _).sum_eq
                  have hfl := (floors_bounds hT1 ((E.shuffle (s.tick + 2) vs).map fun v =>
                    (r - r * s.fee / 10000) * i64 v.effBal)).1
                  rw [sum_map_mul, hsum, List.map_map] at hfl
                  constructor
                  · rw [← hf, List.map_map]
                    have : ((E.shuffle (s.tick + 2) vs).map ((fun x => x / T) ∘
                        fun v => (r - r * s.fee / 10000) * i64 v.effBal)).sum ≤
                        r - r * s.fee / 10000 := by
                      by_contra hcon
                      rw [not_le] at hcon
                      nlinarith
                    simp only [Function.comp_def] at this ⊢
                    linarith [hc.1]
                  · intro p hpm
                    have hpm := hp.mem_iff.mp hpm
                    rw [← hsh] at hpm
                    obtain ⟨v, hv, hvp⟩ := List.mem_map.mp hpm
                    rw [← hvp]
                    apply Int.ediv_nonneg _ hT0
                    apply Int.mul_nonneg (by omega)
                    rw [hbal v ((shuffle_perm hE _ _).mem_iff.mp hv)]
                    omega
        | fork1 =>
          simp only [bind_ok] at hsp
          obtain ⟨⟨f, per⟩, h1, h2⟩ := hsp
          rw [fork1Split_eq] at h1
          simp only [Except.ok.injEq, Prod.mk.injEq] at h1 h2
          obtain ⟨h2a, h2b⟩ := h2
          first
          | rw [(hp.map _).nodup_iff, ← h2b, List.map_map]
            simpa [Function.comp_def] using nodup_eligible hE hs
          | rw [(hp.map _).sum_eq, ← h2b, ← h2a, List.map_map]
            simp only [Function.comp_def, List.map_const', List.sum_replicate, nsmul_eq_mul]
            rw [← h1.1, ← h1.2]
            have := Int.mul_ediv_add_emod (r - r * s.fee / 10000) (eligible E s).length
            linarith
          | intro hx p hpm
            have hpm := hp.mem_iff.mp hpm
            rw [← h2b] at hpm
            obtain ⟨i, hi, hip⟩ := List.mem_map.mp hpm
            rw [mem_eligible hE hs] at hi
            rw [← hip]; exact hi
          | rintro ⟨hg0, hg1, hg2⟩ hr
            have hc := poolCut_bounds hr hg0 (by omega)
            have hn : 0 < ((eligible E s).length : Int) := by
              have := List.length_pos_of_ne_nil hne
              omega
            constructor
            · rw [← h2a, ← h1.1]
              have := Int.emod_nonneg (r - r * s.fee / 10000) (ne_of_gt hn)
              omega
            · intro p hpm
              have hpm := hp.mem_iff.mp hpm
              rw [← h2b] at hpm
              obtain ⟨i, hi, hip⟩ := List.mem_map.mp hpm
              rw [← hip, ← h1.2]
              exact Int.ediv_nonneg (by omega) (by omega)
        | preFork1 =>
          simp only [bind_ok] at hsp
          obtain ⟨⟨f, per⟩, h1, h2⟩ := hsp
          rw [preFork1Split_eq] at h1
          simp only [Except.ok.injEq, Prod.mk.injEq] at h1 h2
          obtain ⟨h2a, h2b⟩ := h2
          first
          | rw [(hp.map _).nodup_iff, ← h2b, List.map_map]
            simpa [Function.comp_def] using nodup_eligible hE hs
          | rw [(hp.map _).sum_eq, ← h2b, ← h2a, List.map_map]
            simp only [Function.comp_def, List.map_const', List.sum_replicate, nsmul_eq_mul]
            rw [← h1.1, ← h1.2]
            have := Int.mul_ediv_add_emod (r - r * s.fee / 10000 - r * s.fee % 10000)
              (eligible E s).length
            linarith
          | intro hx p hpm
            have hpm := hp.mem_iff.mp hpm
            rw [← h2b] at hpm
            obtain ⟨i, hi, hip⟩ := List.mem_map.mp hpm
            rw [mem_eligible hE hs] at hi
            rw [← hip]; exact hi
          | exact fun hg => absurd rfl (rewardMethod_post hg.2.1 hm)

end Verif
