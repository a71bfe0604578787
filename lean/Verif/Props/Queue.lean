import Verif.Props.Reorder
import Verif.Props.Exits
/-
C119: nobody gains or loses by the place of what they ask in a block.
-/
namespace Verif
open VMap

theorem SameButLists.same {o o' : Oracle} (hs : MapOK o.st) (h : SameButLists o o') : Same o.st o'.st := by
  refine ⟨hs, o'.st.tick, o'.st.stateHash, o'.st.committed, o'.st.ether, o'.st.donations, o'.st.subs, ?_⟩
  have := congrArg (fun s : State => ({ s with tick := o'.st.tick, stateHash := o'.st.stateHash, committed := o'.st.committed, ether := o'.st.ether, donations := o'.st.donations, subs := o'.st.subs } : State)) h.books
  exact this.symm

/-- a processed block says for each subscription what the chain knows of the validator -/
theorem slot_subs_length {E o b o' n} (h : advanceState E o b = .ok (o', some n)) :
    b.events.subs.length = b.valsSubs.length := by
  obtain ⟨q, sb, dons, s1, s2, _, _, _, _, _, _, ha, _⟩ := advanceState_ok h
  unfold applyBlock at ha
  simp only [bind_ok] at ha
  obtain ⟨u, hu, _⟩ := ha
  unfold handleSubs at hu
  split at hu
  · cases hu
  split at hu
  · cases hu
  · next h => exact not_not.mp h

theorem subs_perm {us us' : List SubEvent} {vs vs' : List (Option BVal)} (h1 : us.length = vs.length)
    (h2 : us'.length = vs'.length) (h : Queued (fun p : SubEvent × Option BVal => p.1.validatorId) (us.zip vs) (us'.zip vs')) :
    us.Perm us' := by
  have := h.perm.map Prod.fst
  rwa [List.map_fst_zip (by omega), List.map_fst_zip (by omega)] at this

section
variable {E E' : Env} {V : Nat → Nat → BVal} {K : Nat → List (Nat × Nat)}
  (hE : ValidEnv E) (hX : ExactEnv E) (hR : ReadsChain V K E)
  (hE' : ValidEnv E') (hX' : ExactEnv E') (hR' : ReadsChain V K E')
include hE hX hR hE' hX' hR'

/-- **C119** (partial), one slot: two oracles with the same books process the same block, except that its payments,
bans, unbans and the subscriptions of different validators come in different orders. They end with the same books, up to
the order of the lists of payments and of subscriptions. -/
theorem C119_slot_partial {o o' o1 o1' : Oracle} {b b' : FullBlock} {n n' : Nat} (hs : MapOK o.st)
    (hsame : SameButLists o o') (hb : Shuffled b b') (hc : OneContract b)
    (hA : n % 1200 = 0 → TrackedTargets V K n o1.st)
    (h : advanceState E o b = .ok (o1, some n)) (h' : advanceState E' o' b' = .ok (o1', some n')) :
    SameButLists o1 o1' ∧ n = n' ∧ MapOK o1.st := by
  obtain ⟨hp, hq, hbs, hns, hrest⟩ := hb
  have l1 := slot_subs_length h
  have l2 := slot_subs_length h'
  generalize b'.events.ether = pays at *
  generalize b'.events.subs = us at *
  generalize b'.valsSubs = vs at *
  generalize b'.events.bans = bs at *
  generalize b'.events.unbans = ns at *
  subst hrest
  have hm := mevReward_perm hp hc
  obtain ⟨k1, k2, k3⟩ := slot_pays hE hX hR hE' hX' hR' hsame.cfg (hsame.same hs) hp hq hbs hns hm hA h h'
  obtain ⟨ds, d1, d2, d3, d4⟩ := slot_logs h
  obtain ⟨ds', d1', d2', d3', d4'⟩ := slot_logs h'
  rw [← hsame.cfg] at d1'
  refine ⟨⟨k1, ?_, ?_, ?_, ?_⟩, k3, k2.1⟩
  · obtain ⟨_, t, x, c, le, ld, ls, e⟩ := k2
    rw [e]
  · rw [d2, d2']; exact hsame.ether.append hp
  · rw [d3, d3']; exact hsame.donations.append (getDonations_perm hp hm d1 d1')
  · rw [d4, d4']; exact hsame.subs.append (subs_perm l1 l2 hq)

/-- **C119** (partial) for whole histories. Missing because false: cancelled subscriptions in another order,
`C119_false_leavers`; subscriptions of one validator in another order, `C119_false_same_validator`; and a leaver
consolidated into another leaver at a cleanup slot, `C119_false_consolidation_chain`. -/
theorem C119_history_partial (hA : ∀ n, n % 1200 = 0 → ActiveTargets V K n)
    {bs bs' : List FullBlock} (hb : List.Forall₂ Shuffled bs bs') (hc : ∀ b ∈ bs, OneContract b)
    {o o' o1 o1' : Oracle} (hs : MapOK o.st) (hsame : SameButLists o o')
    (h : Hist E o bs o1) (h' : Hist E' o' bs' o1') : SameButLists o1 o1' := by
  induction h generalizing o' bs' with
  | nil => cases hb; cases h'; exact hsame
  | cons ha _ ih =>
    cases hb with
    | cons hb1 hb2 =>
      cases h' with
      | cons ha' hr' =>
        have k := C119_slot_partial hE hX hR hE' hX' hR' hs hsame hb1 (hc _ (by simp)) (fun hn => (hA _ hn).tracked _) ha ha'
        exact ih hb2 (fun b hb => hc b (by simp [hb])) k.2.2 k.1 hr'

end

/-- **C119**, the tree: two such oracles build the same tree, for whatever iteration order. -/
theorem C119_same_tree {o o' : Oracle} (h : SameButLists o o') (H : List Nat → List Nat) (E : Env) (t : Nat) :
    generateTree H E t o.st = generateTree H E t o'.st := by
  have hv : o.st.vals = o'.st.vals := by have := congrArg State.vals h.books; exact this
  have hp : o.st.poolFees = o'.st.poolFees := by have := congrArg State.poolFees h.books; exact this
  have ha : o.st.poolFeesAddr = o'.st.poolFeesAddr := by have := congrArg State.poolFeesAddr h.books; exact this
  have hq : o.st.poolAddr = o'.st.poolAddr := by have := congrArg State.poolAddr h.books; exact this
  unfold generateTree aggregate
  simp only [hv, hp, ha, hq]

theorem Shuffled.refl (b : FullBlock) : Shuffled b b := ⟨.refl _, fun _ => rfl, .refl _, .refl _, rfl⟩

theorem SameButLists.refl (o : Oracle) : SameButLists o o := ⟨rfl, rfl, .refl _, .refl _, .refl _⟩

/-- **C119 is false where C09 is**: at cleanup slots in which a leaver is consolidated into another leaver. -/
theorem C119_false_consolidation_chain : ∃ b o o1 o1', Shuffled b b ∧ OneContract b ∧ SameButLists o o ∧
    advanceState (Sample.leftEnv 3 false) o b = .ok (o1, some 12000000) ∧
    advanceState (Sample.leftEnv 3 true) o b = .ok (o1', some 12000000) ∧ ¬ SameButLists o1 o1' := by
  obtain ⟨o1, o1', h, h', e1, e2, _⟩ := C09_false_consolidation_chain
  refine ⟨_, _, o1, o1', .refl _, ?_, .refl _, h, h', ?_⟩
  · intro e he; simp [Sample.miss] at he
  · intro hs
    have : o1.st.vals = o1'.st.vals := by have := congrArg State.vals hs.books; exact this
    rw [this, e2] at e1
    simp at e1

namespace Sample

/-- somebody outside the pool proposes a block in which these subscriptions, bans and unbans are made -/
def asked (slot : Nat) (subs : List (Nat × Int)) (bans unbans : List Nat) : FullBlock :=
  { giving slot [] with
    events :=
    { subs := subs.map fun p => ⟨p.1, p.2, addr p.1, 100⟩
      bans := bans.map fun i => ⟨i, 100⟩
      unbans := unbans.map fun i => ⟨i, 100⟩ }
    valsSubs := subs.map fun p => some (bval p.1) }

/-- somebody outside the pool proposes a block in which these validators leave, in this order -/
def leavingAll (slot : Nat) (l : List Nat) : FullBlock :=
  { giving slot [] with events := { unsubs := l.map fun i => ⟨i, addr i, 100⟩ }, valsUnsubs := l.map fun i => some (bval i) }

/-- what is known of validator `i`: status, accumulated, pending -/
def lineOf (i : Nat) (o : Oracle) : Option (Status × Int × Int) :=
  (VMap.get o.st.vals i).map fun v => (v.status, v.acc, v.pend)

end Sample

/-- The theorem applies: three subscribe (one twice, first for too little; one is a member already), two are banned (one
of them twice) and one of these unbanned, in two orders, and then 1000 wei are given. -/
example : ∃ o1 o1', Hist (Sample.chainEnv Sample.allV fun _ => []) (Sample.three 12000001 900)
      [Sample.asked 12000001 [(3, 5), (4, 2000), (3, 3000), (2, 70)] [9, 2, 9] [9], Sample.giving 12000002 [1000]] o1 ∧
    Hist (Sample.chainEnv Sample.allV fun _ => []) (Sample.three 12000001 900)
      [Sample.asked 12000001 [(2, 70), (3, 5), (3, 3000), (4, 2000)] [2, 9, 9] [9], Sample.giving 12000002 [1000]] o1' ∧
    SameButLists o1 o1' ∧ o1.st.subs ≠ o1'.st.subs ∧
    [1, 2, 3, 4, 9].map (fun i => Sample.lineOf i o1) = [some (.active, 5, 16378), some (.banned, 76, 0),
      some (.active, 0, 9765), some (.active, 0, 8958), some (.active, 10, 262)] := by
  obtain ⟨o1, h, hm⟩ := Sample.ex_hist (E := Sample.chainEnv Sample.allV fun _ => []) (o := Sample.three 12000001 900)
    (bs := [Sample.asked 12000001 [(3, 5), (4, 2000), (3, 3000), (2, 70)] [9, 2, 9] [9], Sample.giving 12000002 [1000]])
    (P := fun o => decide (o.st.subs.map (·.validatorId) = [3, 4, 3, 2]) &&
      decide ([1, 2, 3, 4, 9].map (fun i => Sample.lineOf i o) = [some (.active, 5, 16378), some (.banned, 76, 0),
      some (.active, 0, 9765), some (.active, 0, 8958), some (.active, 10, 262)])) (by decide +kernel)
  obtain ⟨o1', h', hm'⟩ := Sample.ex_hist (E := Sample.chainEnv Sample.allV fun _ => []) (o := Sample.three 12000001 900)
    (bs := [Sample.asked 12000001 [(2, 70), (3, 5), (3, 3000), (4, 2000)] [2, 9, 9] [9], Sample.giving 12000002 [1000]])
    (P := fun o => decide (o.st.subs.map (·.validatorId) = [2, 3, 3, 4])) (by decide +kernel)
  simp only [Bool.and_eq_true, decide_eq_true_eq] at hm hm'
  have hq : Shuffled (Sample.asked 12000001 [(3, 5), (4, 2000), (3, 3000), (2, 70)] [9, 2, 9] [9])
      (Sample.asked 12000001 [(2, 70), (3, 5), (3, 3000), (4, 2000)] [2, 9, 9] [9]) := by
    refine ⟨.refl _, fun i => ?_, .swap _ _ _, .refl _, rfl⟩
    by_cases h2 : i = 2
    · subst h2; rfl
    by_cases h3 : i = 3
    · subst h3; rfl
    by_cases h4 : i = 4
    · subst h4; rfl
    simp [Sample.asked, List.filter_cons, Ne.symm h2, Ne.symm h3, Ne.symm h4]
  refine ⟨o1, o1', h, h', C119_history_partial (Sample.chain_valid Sample.allV_index _)
    (Sample.chain_exact Sample.allV_index _) (Sample.chain_reads Sample.allV_index _)
    (Sample.chain_valid Sample.allV_index _)
    (Sample.chain_exact Sample.allV_index _) (Sample.chain_reads Sample.allV_index _)
    (fun n _ p hp _ => by cases hp) (.cons hq (.cons (.refl _) .nil)) ?_
    (Sample.three_ok _ _) (.refl _) h h', fun e => ?_, hm.2⟩
  · intro b hb e he
    simp only [List.mem_cons, List.not_mem_nil, or_false] at hb
    rcases hb with rfl | rfl
    · cases he
    · intro e' he' _
      simp only [Sample.giving, Sample.prop, List.map_cons, List.map_nil, List.mem_singleton] at he he'
      rw [he, he']
  · rw [e, hm'] at hm
    exact absurd hm.1 (by decide)

/-- **C119 is false for cancelled subscriptions.** Validators 2 and 9 leave in one block. What the first leaves is shared
with the second, whose share is then shared again, and the pool takes its fee twice: validator 1 ends with 28715 wei
pending if validator 2 is first, and with 29407 if validator 9 is. -/
theorem C119_false_leavers : ∃ o1 o1',
    Hist (Sample.chainEnv Sample.allV fun _ => []) (Sample.three 12000001 900) [Sample.leavingAll 12000001 [2, 9]] o1 ∧
    Hist (Sample.chainEnv Sample.allV fun _ => []) (Sample.three 12000001 900) [Sample.leavingAll 12000001 [9, 2]] o1' ∧
    Sample.pendingOf 1 o1 = some 28715 ∧ Sample.pendingOf 1 o1' = some 29407 ∧
    o1.st.poolFees = 2262 ∧ o1'.st.poolFees = 1570 := by
  obtain ⟨o1, h, hm⟩ := Sample.ex_hist (E := Sample.chainEnv Sample.allV fun _ => []) (o := Sample.three 12000001 900)
    (bs := [Sample.leavingAll 12000001 [2, 9]])
    (P := fun o => Sample.pendingOf 1 o == some 28715 && o.st.poolFees == 2262) (by decide +kernel)
  obtain ⟨o1', h', hm'⟩ := Sample.ex_hist (E := Sample.chainEnv Sample.allV fun _ => []) (o := Sample.three 12000001 900)
    (bs := [Sample.leavingAll 12000001 [9, 2]])
    (P := fun o => Sample.pendingOf 1 o == some 29407 && o.st.poolFees == 1570) (by decide +kernel)
  simp only [Bool.and_eq_true, beq_iff_eq] at hm hm'
  exact ⟨o1, o1', h, h', hm.1, hm'.1, hm.2, hm'.2⟩

/-- **C119 is false for the subscriptions of one validator.** It sends too little and then enough: the pool keeps what was
too little. If it sends enough first, the rest is credited to it. -/
theorem C119_false_same_validator : ∃ o1 o1',
    Hist (Sample.chainEnv Sample.allV fun _ => []) (Sample.three 12000001 900) [Sample.asked 12000001 [(3, 5), (3, 3000)] [] []] o1 ∧
    Hist (Sample.chainEnv Sample.allV fun _ => []) (Sample.three 12000001 900) [Sample.asked 12000001 [(3, 3000), (3, 5)] [] []] o1' ∧
    Sample.lineOf 3 o1 = some (.active, 0, 3000) ∧ Sample.lineOf 3 o1' = some (.active, 5, 3000) ∧
    o1.st.poolFees = o1'.st.poolFees + 5 := by
  obtain ⟨o1, h, hm⟩ := Sample.ex_hist (E := Sample.chainEnv Sample.allV fun _ => []) (o := Sample.three 12000001 900)
    (bs := [Sample.asked 12000001 [(3, 5), (3, 3000)] [] []])
    (P := fun o => decide (Sample.lineOf 3 o = some (.active, 0, 3000)) && o.st.poolFees == 82) (by decide +kernel)
  obtain ⟨o1', h', hm'⟩ := Sample.ex_hist (E := Sample.chainEnv Sample.allV fun _ => []) (o := Sample.three 12000001 900)
    (bs := [Sample.asked 12000001 [(3, 3000), (3, 5)] [] []])
    (P := fun o => decide (Sample.lineOf 3 o = some (.active, 5, 3000)) && o.st.poolFees == 77) (by decide +kernel)
  simp only [Bool.and_eq_true, beq_iff_eq, decide_eq_true_eq] at hm hm'
  exact ⟨o1, o1', h, h', hm.1, hm'.1, by rw [hm.2, hm'.2]; rfl⟩

end Verif
