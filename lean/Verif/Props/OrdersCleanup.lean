import Verif.Props.Orders
import Verif.Props.Cleanup
/-
C99 at the slots of the cleanup.
-/
namespace Verif
open VMap

theorem afterLeaving_twice (st : Status) : afterLeaving (afterLeaving st) = afterLeaving st := by
  cases st <;> decide

theorem statusOf_gone (s : State) (i j : Nat) :
    statusOf { s with vals := gone s.vals j } i = if i = j then afterLeaving (statusOf s i) else statusOf s i := by
  unfold statusOf gone
  dsimp only
  rw [get_modify]
  by_cases h : i = j
  · subst h
    rw [if_pos rfl, if_pos rfl]
    cases VMap.get s.vals i <;> rfl
  · rw [if_neg h, if_neg h]

/-- the cleanup leaves a status as it is, or is the end of the membership of somebody who left -/
theorem statusOf_clean {E : Env} {slot : Nat} {cs : List (Nat × Nat)} {s s' : State} {l : List BVal} {t : Int}
    (h : CleanEffects E slot cs s l s' t) (i : Nat) :
    statusOf s' i = statusOf s i ∨
      ((∃ u ∈ l, u.index = i ∧ u.status.isActive = false) ∧ statusOf s' i = afterLeaving (statusOf s i)) := by
  have step : ∀ {u : BVal} {l : List BVal} {s1 s s' : State}, u.status.isActive = false →
      (statusOf s1 i = if i = u.index then afterLeaving (statusOf s i) else statusOf s i) →
      (statusOf s' i = statusOf s1 i ∨
        ((∃ u ∈ l, u.index = i ∧ u.status.isActive = false) ∧ statusOf s' i = afterLeaving (statusOf s1 i))) →
      statusOf s' i = statusOf s i ∨
      ((∃ v ∈ u :: l, v.index = i ∧ v.status.isActive = false) ∧ statusOf s' i = afterLeaving (statusOf s i)) := by
    intro u l s1 s s' ha h1 h2
    by_cases hi : i = u.index
    · right
      refine ⟨⟨u, by simp, hi.symm, ha⟩, ?_⟩
      rw [if_pos hi] at h1
      rcases h2 with h2 | ⟨_, h2⟩
      · rw [h2, h1]
      · rw [h2, h1, afterLeaving_twice]
    · rw [if_neg hi] at h1
      rw [h1] at h2
      rcases h2 with h2 | ⟨⟨v, hv, h3⟩, h2⟩
      · exact Or.inl h2
      · exact Or.inr ⟨⟨v, by simp [hv], h3⟩, h2⟩
  induction h with
  | nil s => exact Or.inl rfl
  | keep _ _ ih =>
    rcases ih with h2 | ⟨⟨v, hv, h3⟩, h2⟩
    · exact Or.inl h2
    · exact Or.inr ⟨⟨v, by simp [hv], h3⟩, h2⟩
  | leaves h1 _ _ _ _ ih => exact step h1 (statusOf_gone _ _ _) ih
  | @moves s u v j w l s' t h1 _ _ _ _ _ _ _ ih =>
    refine step h1 ?_ ih
    rw [← statusOf_gone]
    unfold statusOf
    dsimp only
    rw [get_modify]
    by_cases h : i = j
    · subst h; rw [if_pos rfl]; cases VMap.get (gone s.vals u.index) i <;> rfl
    · rw [if_neg h]
  | @creates s u v j w l s' t n req r bv h1 _ _ _ h5 _ _ _ _ _ ih =>
    refine step h1 ?_ ih
    rw [← statusOf_gone]
    unfold statusOf
    dsimp only
    rw [get_insert]
    by_cases h : i = j
    · subst h
      rw [if_pos rfl]
      have : VMap.get (gone s.vals u.index) i = none := by
        unfold gone; rw [get_modify]
        split
        · rename_i e; rw [← e, h5]; rfl
        · exact h5
      rw [this]
    · rw [if_neg h]

section
variable {E : Env} (hE : ValidEnv E) (hX : ExactEnv E) (hC : NoSelfConsol E)
  {cfg : Config} {bs : List FullBlock} {o o' : Oracle} {b : FullBlock} {n : Nat}
  (h0 : Hist E (newOracle cfg) bs o) (h : advanceState E o b = .ok (o', some n))
include hE hX hC h0 h

/-- **C99**, what the code does, at every slot. The status of a validator is made by its subscriptions in the block,
then by its proposal, then by its unsubscriptions, bans and unbans, whatever their order in the block; and by nothing
else, except that at a slot of the cleanup a member who is not active on the chain any more may cease to be one. -/
theorem C99_every_slot (hg : GasOK b) (i : Nat) {logs : List PoolLog} (hl : CarriesLogs b logs) :
    let orders := logs.filterMap (PoolLog.order o.st.collateral i)
    let made := (orders.filter (· = .leave) ++ (orders.filter (· = .ban) ++ orders.filter (· = .unban))).foldl
      obey (afterProposal b o.cfg.poolAddr i ((orders.filter (· = .join)).foldl obey (statusOf o.st i)))
    statusOf o'.st i = made ∨ (n % 1200 = 0 ∧ NotActive E n i ∧ statusOf o'.st i = afterLeaving made) := by
  intro orders made
  obtain ⟨s7, s8, hslot, k1, k2, _, _, k5⟩ := C60_slot_refines hE hX hC h0 h hg
  have e7 : statusOf s7 i = made := statusOf_slot hslot hl i
  have e8 : statusOf o'.st i = statusOf s8 i := by
    have := congrArg (fun q : Oracle => statusOf q.st i) k5
    exact this
  rw [e8]
  by_cases hn : n % 1200 = 0
  · cases k1 hn with
    | early _ => exact Or.inl e7
    | empty _ => exact Or.inl e7
    | @done t cs req answer l s1 tot _ _ _ _ hnode _ hperm hcl hsh =>
      have e1 : statusOf s8 i = statusOf s1 i := by
        rcases hsh with ⟨_, hsh⟩ | ⟨_, rfl⟩
        · exact statusOf_shares hsh i
        · rfl
      have e0 : statusOf { s7 with tick := s7.tick + 2 } i = made := e7
      rw [e1]
      rcases statusOf_clean hcl i with h1 | ⟨⟨u, hu, hui, hua⟩, h1⟩
      · rw [h1, e0]; exact Or.inl rfl
      · rw [h1, e0]
        exact Or.inr ⟨hn, ⟨_, _, _, u, hnode, hperm.mem_iff.mp hu, hui, hua⟩, rfl⟩
  · rw [k2 hn]; exact Or.inl e7

end

/-- both cases happen: at a slot of the cleanup validator 7, who is not active on the chain, ceases to be a member, and
a slot later, by the first case, nothing happens to it any more -/
example : ∃ o o1 o2 n1 n2, Hist Sample.envPending (newOracle Sample.cfgEarly) [Sample.subscribes7] o ∧
    advanceState Sample.envPending o (Sample.miss 12000000 77) = .ok (o1, some n1) ∧
    advanceState Sample.envPending o1 (Sample.miss 12000001 77) = .ok (o2, some n2) ∧
    CarriesLogs (Sample.miss 12000000 77) [] ∧ statusOf o.st 7 = .active ∧
    statusOf o1.st 7 = .notSubscribed ∧ statusOf o2.st 7 = .notSubscribed ∧ NotActive Sample.envPending 12000000 7 := by
  obtain ⟨o, o1, n1, h1, h2, h3⟩ := Sample.ex_then (E := Sample.envPending)
    (o := newOracle Sample.cfgEarly) (bs := [Sample.subscribes7]) (b := Sample.miss 12000000 77)
    (P := fun o o' _ => decide (statusOf o.st 7 = .active ∧ statusOf o'.st 7 = .notSubscribed) &&
      (advanceState Sample.envPending o' (Sample.miss 12000001 77)).toOption.any fun (p : Oracle × Option Nat) =>
        p.2.isSome && decide (statusOf p.1.st 7 = .notSubscribed)) (by decide +kernel)
  rw [Bool.and_eq_true, decide_eq_true_eq] at h3
  obtain ⟨o2, n2, h4, h5⟩ := Sample.ex_slot (P := fun o => decide (statusOf o.st 7 = .notSubscribed)) h3.2
  exact ⟨o, o1, o2, n1, n2, h1, h2, h4, ⟨rfl, rfl, rfl, rfl⟩, h3.1.1, h3.1.2, by simpa using h5,
    ⟨0, [7], _, { Sample.bval 7 with status := .pendingQueued }, rfl, by decide, rfl, rfl⟩⟩

end Verif
