import Verif.Lemmas.Slot
import Verif.Spec.Sharing
import Verif.Spec.Money
/-
The exact outcome of increaseAllPendingRewards.
-/
namespace Verif
open VMap

/-- shares by rule -/
inductive Rule (E : Env) (net : Str) (s : State) (r : Int) (elig : List Nat) :
    List (Nat × Int) → Int → Prop
  | electra (vs t) : PostElectra net s.nextSlot → getSet E t s.nextSlot elig = some vs →
      (vs.map fun v => i64 v.effBal).sum ≠ 0 →
      Rule E net s r elig
        (vs.map fun v => (v.index, (r - feeOf s.fee r) * i64 v.effBal /
          (vs.map fun v => i64 v.effBal).sum))
        (r - (vs.map fun v => (r - feeOf s.fee r) * i64 v.effBal /
          (vs.map fun v => i64 v.effBal).sum).sum)
  | fork1 : PostFork1 net s.nextSlot → ¬ PostElectra net s.nextSlot →
      Rule E net s r elig (elig.map fun i => (i, (r - feeOf s.fee r) / elig.length))
        (feeOf s.fee r + (r - feeOf s.fee r) % elig.length)
  | pre : KnownNet net → ¬ PostFork1 net s.nextSlot → ¬ PostElectra net s.nextSlot →
      Rule E net s r elig
        (elig.map fun i => (i, (r - feeOf s.fee r - r * s.fee % 10000) / elig.length))
        (feeOf s.fee r + r * s.fee % 10000 + (r - feeOf s.fee r - r * s.fee % 10000) % elig.length)

theorem shuffle_map_sum {E : Env} (hE : ValidEnv E) {α : Type} (t) (l : List α) (f : α → Int) :
    ((E.shuffle t l).map f).sum = (l.map f).sum := ((shuffle_perm hE t l).map f).sum_eq

theorem increaseAll_rule {E : Env} (hE : ValidEnv E) {net s r s'}
    (h : increaseAll E net s r = .ok s') :
    (eligible E s = [] ∧ s'.vals = s.vals ∧ s'.poolFees = s.poolFees + r) ∨
    (eligible E s ≠ [] ∧ s.fee ≤ 10000 ∧ ∃ sh fees, Rule E net s r (eligible E s) sh fees ∧
      (∀ p ∈ sh, (VMap.get s.vals p.1).isSome) ∧
      s'.vals = credit sh s.vals ∧ s'.poolFees = s.poolFees + fees) := by
  unfold increaseAll at h
  simp only at h
  split at h
  · rename_i he
    simp only [Except.ok.injEq] at h
    left; rw [← h]; exact ⟨he, rfl, rfl⟩
  · split at h
    · simp at h
    · rename_i hne hfee
      right
      refine ⟨hne, by omega, ?_⟩
      simp only [bind_ok] at h
      obtain ⟨meth, hm, ⟨fees, sh⟩, hsp, vals, hap, hst⟩ := h
      obtain ⟨htr, hvals⟩ := applyShares_ok hap
      simp only [Except.ok.injEq] at hst
      have hp := shuffle_perm hE (s.tick + 3) sh
      have hkn : KnownNet net := by
        by_contra hk
        rw [rewardMethod_unknown hk] at hm; simp at hm
      by_cases h1 : PostElectra net s.nextSlot
      · rw [rewardMethod_electra h1, Except.ok.injEq] at hm
        subst hm
        simp only at hsp
        unfold electraSplit at hsp
        simp only at hsp
        split at hsp
        · simp at hsp
        · rename_i vs hvs
          rw [shuffle_map_sum hE] at hsp
          split at hsp
          · simp at hsp
          · rename_i hT
            split at hsp
            · simp at hsp
            · simp only [Except.ok.injEq, Prod.mk.injEq] at hsp
              obtain ⟨hf, hsh⟩ := hsp
              refine ⟨_, _, Rule.electra vs s.tick h1 hvs hT, ?_, ?_, ?_⟩
              · intro p hpm
                apply htr
                rw [hp.mem_iff, ← hsh]
                obtain ⟨v, hv, hvp⟩ := List.mem_map.mp hpm
                exact List.mem_map.mpr ⟨v, (shuffle_perm hE _ _).mem_iff.mpr hv, hvp⟩
              · rw [← hst]
                simp only [hvals]
                apply credit_perm
                rw [← hsh] at hp ⊢
                exact hp.trans ((shuffle_perm hE _ _).map _)
              · rw [← hst]
                simp only [State.toPool]
                rw [← hf]
                congr 1
                rw [List.map_map]
                have := shuffle_map_sum hE (s.tick + 2) vs ((fun x : Nat × Int => x.2) ∘ fun v =>
                  (v.index, (r - r * s.fee / 10000) * i64 v.effBal / (vs.map fun v => i64 v.effBal).sum))
                rw [this]
                simp only [Function.comp_def, feeOf]
                ring
      · have hel := hm
        by_cases h2 : PostFork1 net s.nextSlot
        · rw [rewardMethod_fork1 h2 h1, Except.ok.injEq] at hm
          subst hm
          simp only [bind_ok] at hsp
          obtain ⟨⟨f, per⟩, k1, k2⟩ := hsp
          rw [fork1Split_eq] at k1
          simp only [Except.ok.injEq, Prod.mk.injEq] at k1 k2
          obtain ⟨k1a, k1b⟩ := k1
          obtain ⟨k2a, k2b⟩ := k2
          refine ⟨_, _, Rule.fork1 h2 h1, ?_, ?_, ?_⟩
          · intro p hpm; apply htr; rw [hp.mem_iff, ← k2b, ← k1b]; exact hpm
          · rw [← hst]; simp only [hvals]
            rw [credit_perm hp, ← k2b, ← k1b]; rfl
          · rw [← hst]; simp only [State.toPool]; rw [← k2a, ← k1a]; rfl
        · rw [rewardMethod_pre hkn h2 h1, Except.ok.injEq] at hm
          subst hm
          simp only [bind_ok] at hsp
          obtain ⟨⟨f, per⟩, k1, k2⟩ := hsp
          rw [preFork1Split_eq] at k1
          simp only [Except.ok.injEq, Prod.mk.injEq] at k1 k2
          obtain ⟨k1a, k1b⟩ := k1
          obtain ⟨k2a, k2b⟩ := k2
          refine ⟨_, _, Rule.pre hkn h2 h1, ?_, ?_, ?_⟩
          · intro p hpm; apply htr; rw [hp.mem_iff, ← k2b, ← k1b]; exact hpm
          · rw [← hst]; simp only [hvals]
            rw [credit_perm hp, ← k2b, ← k1b]; rfl
          · rw [← hst]; simp only [State.toPool]; rw [← k2a, ← k1a]; rfl

theorem eligible_length {E : Env} (hE : ValidEnv E) (s : State) :
    (eligible E s).length = earningCount s := by
  unfold eligible
  rw [(shuffle_perm hE _ _).length_eq, List.length_map, earningCount, List.countP_eq_length_filter]
  congr 2
  funext p
  rw [Bool.eq_iff_iff, decide_eq_true_iff]
  simp [Earning]

theorem eligible_nil_iff {E : Env} (hE : ValidEnv E) (s : State) :
    eligible E s = [] ↔ earningCount s = 0 := by
  rw [← eligible_length hE, List.length_eq_zero_iff]

/-- The answer to a bulk lookup lists exactly the requested validators. -/
theorem answer_perm {E : Env} (hE : ValidEnv E) (hX : ExactEnv E) {t slot req r}
    (h : getSet E t slot req = some r) (hn : req.Nodup) : (r.map (·.index)).Perm req := by
  obtain ⟨h1, h2, h3⟩ := getSet_some h
  rw [List.perm_ext_iff_of_nodup (hE.nodup _ _ _ _ h1) hn]
  intro i
  constructor
  · intro hi
    obtain ⟨v, hv, hvi⟩ := List.mem_map.mp hi
    rw [← hvi]; exact hX _ _ _ _ h1 v hv
  · intro hi
    obtain ⟨v, hv, hvi⟩ := h3 i hi
    exact List.mem_map.mpr ⟨v, hv, hvi⟩

theorem ex_bind {α β : Type} {x : M α} {f : α → M β} {a} (h : x = .ok a) (h2 : ∃ r, f a = .ok r) :
    ∃ r, (x >>= f) = .ok r := by
  obtain ⟨r, hr⟩ := h2
  exact ⟨r, bind_ok.mpr ⟨a, h, hr⟩⟩

/-- A distribution succeeds when the fee, the network and the node are fine. -/
theorem increaseAll_succeeds {E : Env} (hE : ValidEnv E) (hN : GoodNode E) {net} {s : State}
    (hs : Sorted s.vals) (hk : KnownNet net) (hf : s.fee ≤ 10000) (r : Int) :
    ∃ s', increaseAll E net s r = .ok s' := by
  unfold increaseAll
  simp only
  split
  · exact ⟨_, rfl⟩
  · rename_i hne
    rw [if_neg (by omega)]
    have hel : ∀ i ∈ eligible E s, (VMap.get s.vals i).isSome := by
      intro i hi
      obtain ⟨v, hv, _⟩ := (mem_eligible hE hs i).mp hi
      rw [hv]; rfl
    have key : ∀ sh : List (Nat × Int), (∀ p ∈ sh, p.1 ∈ eligible E s) →
        applyShares (E.shuffle (s.tick + 3) sh) s.vals =
          .ok (credit (E.shuffle (s.tick + 3) sh) s.vals) := by
      intro sh h
      rw [applyShares_eq, if_pos]
      intro p hp
      exact hel _ (h p ((shuffle_perm hE _ _).mem_iff.mp hp))
    by_cases h1 : PostElectra net s.nextSlot
    · rw [rewardMethod_electra h1]
      obtain ⟨vs, hv1, hv2, hv3⟩ := hN s.tick s.nextSlot (eligible E s) hne
      have hvs : vs ≠ [] := by
        intro hc
        obtain ⟨i, hi⟩ := List.exists_mem_of_ne_nil _ hne
        obtain ⟨v, hv, _⟩ := hv2 i hi
        rw [hc] at hv; simp at hv
      have hget : getSet E s.tick s.nextSlot (eligible E s) = some vs := by
        unfold getSet
        rw [if_neg hne, hv1]
        simp only
        rw [if_neg hvs, if_pos]
        rw [List.all_eq_true]
        intro i hi
        obtain ⟨v, hv, hvi⟩ := hv2 i hi
        exact List.any_eq_true.mpr ⟨v, hv, by simpa using hvi⟩
      have hT : (vs.map fun v => i64 v.effBal).sum ≠ 0 := by
        have hb : ∀ v ∈ vs, i64 v.effBal = v.effBal := fun v hv => i64_of_lt (hv3 v hv).2.2
        cases vs with
        | nil => exact absurd rfl hvs
        | cons v vs =>
          rw [List.map_cons, List.sum_cons, hb v (by simp)]
          have h0 := (hv3 v (by simp)).2.1
          have : 0 ≤ (vs.map fun v => i64 v.effBal).sum := by
            apply sum_nonneg
            intro y hy
            obtain ⟨u, hu, hu2⟩ := List.mem_map.mp hy
            rw [← hu2, hb u (by simp [hu])]; omega
          omega
      refine ex_bind rfl ?_
      simp only [electraSplit, hget, shuffle_map_sum hE, if_neg hT]
      rw [if_neg (by ring_nf; simp)]
      refine ex_bind rfl (ex_bind (key _ ?_) ⟨_, rfl⟩)
      intro p hp
      obtain ⟨v, hv, hvp⟩ := List.mem_map.mp hp
      rw [← hvp]
      exact (hv3 v ((shuffle_perm hE _ _).mem_iff.mp hv)).1
    · have fin : ∀ per : Int, ∀ p ∈ (eligible E s).map (fun i => (i, per)), p.1 ∈ eligible E s := by
        intro per p hp
        obtain ⟨i, hi, hip⟩ := List.mem_map.mp hp
        rw [← hip]; exact hi
      by_cases h2 : PostFork1 net s.nextSlot
      · rw [rewardMethod_fork1 h2 h1]
        refine ex_bind rfl ?_
        simp only [fork1Split_eq]
        exact ex_bind rfl (ex_bind (key _ (fin _)) ⟨_, rfl⟩)
      · rw [rewardMethod_pre hk h2 h1]
        refine ex_bind rfl ?_
        simp only [preFork1Split_eq]
        exact ex_bind rfl (ex_bind (key _ (fin _)) ⟨_, rfl⟩)

end Verif
