import Verif.Spec.Reorder
import Verif.Props.Determinism
import Verif.Model.Merkle
/-
C102: the order of the payments in a block does not matter.
-/
namespace Verif
open VMap

theorem find_perm {l l' : List EtherEvent} (hp : l.Perm l') (x : Int)
    (h : ∀ e ∈ l, ∀ e' ∈ l, e.amount = e'.amount → e.addr = e'.addr) :
    (l.find? fun e => e.amount == x).map (·.addr) = (l'.find? fun e => e.amount == x).map (·.addr) := by
  cases h1 : l.find? fun e => e.amount == x with
  | none =>
    cases h2 : l'.find? fun e => e.amount == x with
    | none => rfl
    | some e =>
      rw [List.find?_eq_none] at h1
      exact absurd (List.find?_some h2) (by simpa using h1 e (hp.mem_iff.mpr (List.mem_of_find?_eq_some h2)))
  | some e =>
    cases h2 : l'.find? fun e => e.amount == x with
    | none =>
      rw [List.find?_eq_none] at h2
      exact absurd (List.find?_some h1) (by simpa using h2 e (hp.mem_iff.mp (List.mem_of_find?_eq_some h1)))
    | some e' =>
      have k1 := List.find?_some h1
      have k2 := List.find?_some h2
      simp only [beq_iff_eq] at k1 k2
      simp only [Option.map_some, Option.some.injEq]
      exact h e (List.mem_of_find?_eq_some h1) e' (hp.mem_iff.mpr (List.mem_of_find?_eq_some h2)) (k1.trans k2.symm)

theorem mevRecipient_perm {l l' : List EtherEvent} (hp : l.Perm l') (x : Int) (dest : Str)
    (h : ∀ e ∈ l, ∀ e' ∈ l, e.amount = e'.amount → e.addr = e'.addr) :
    mevRecipient l' x dest = mevRecipient l x dest := by
  have := find_perm hp x h
  unfold mevRecipient
  revert this
  cases l.find? fun e => e.amount == x <;> cases l'.find? fun e => e.amount == x <;> intro h <;> simp_all

theorem mevReward_perm {b : FullBlock} {pays : List EtherEvent} (hp : b.events.ether.Perm pays) (h : OneContract b) :
    mevReward { b with events := { b.events with ether := pays } } = mevReward b := by
  unfold mevReward
  simp only [mevRecipient_perm hp _ _ h]

theorem SameButOrder.same {o o' : Oracle} (hs : MapOK o.st) (h : SameButOrder o o') : Same o.st o'.st := by
  refine ⟨hs, o'.st.tick, o'.st.stateHash, o'.st.committed, o'.st.ether, o'.st.donations, o'.st.subs, ?_⟩
  have := congrArg (fun s : State => ({ s with tick := o'.st.tick, stateHash := o'.st.stateHash, committed := o'.st.committed, ether := o'.st.ether, donations := o'.st.donations, subs := o'.st.subs } : State)) h.books
  exact this.symm

section
variable {E E' : Env} {V : Nat → Nat → BVal} {K : Nat → List (Nat × Nat)}
  (hE : ValidEnv E) (hX : ExactEnv E) (hR : ReadsChain V K E)
  (hE' : ValidEnv E') (hX' : ExactEnv E') (hR' : ReadsChain V K E')
include hE hX hR hE' hX' hR'

theorem reorder_slot {o o' o1 o1' : Oracle} {b b' : FullBlock} {n n' : Nat} (hs : MapOK o.st)
    (hsame : SameButOrder o o') (hb : Reordered b b') (hc : OneContract b)
    (hA : n % 1200 = 0 → ActiveTargets V K n)
    (h : advanceState E o b = .ok (o1, some n)) (h' : advanceState E' o' b' = .ok (o1', some n')) :
    SameButOrder o1 o1' ∧ n = n' ∧ MapOK o1.st := by
  obtain ⟨pays, hp, rfl⟩ := hb
  have hm := mevReward_perm hp hc
  obtain ⟨k1, k2, k3⟩ := slot_pays hE hX hR hE' hX' hR' hsame.cfg (hsame.same hs) hp (fun _ => rfl) (.refl _) (.refl _) hm (fun hn => (hA hn).tracked _) h h'
  obtain ⟨ds, d1, d2, d3, d4⟩ := slot_logs h
  obtain ⟨ds', d1', d2', d3', d4'⟩ := slot_logs h'
  rw [← hsame.cfg] at d1'
  refine ⟨⟨k1, ?_, ?_, ?_⟩, k3, k2.1⟩
  · obtain ⟨_, t, x, c, le, ld, ls, e⟩ := k2
    have : o1'.st.subs = o1.st.subs := by
      rw [d4, d4']
      have := congrArg State.subs hsame.books
      dsimp only at this
      rw [this]
    rw [e] at this ⊢
    dsimp only at this ⊢
    rw [this]
  · rw [d2, d2']; exact hsame.ether.append hp
  · rw [d3, d3']; exact hsame.donations.append (getDonations_perm hp hm d1 d1')

/-- **C102** (partial). Two oracles process the same blocks over the same chain, except that the payments within each
block come in different orders: after any number of slots every validator has the same record, the pool has the same
revenue, all settings, counters and other lists are equal, and the two lists of payments hold the same payments. The
iteration orders of the two and the order in which their nodes list the answers need not be the same. Missing: the
consolidation of a leaver into another leaver at a cleanup slot, `C102_false_consolidation_chain`. -/
theorem C102_order_of_payments_partial (hA : ∀ n, n % 1200 = 0 → ActiveTargets V K n)
    {bs bs' : List FullBlock} (hb : List.Forall₂ Reordered bs bs') (hc : ∀ b ∈ bs, OneContract b)
    {o o' o1 o1' : Oracle} (hs : MapOK o.st) (hsame : SameButOrder o o')
    (h : Hist E o bs o1) (h' : Hist E' o' bs' o1') : SameButOrder o1 o1' := by
  induction h generalizing o' bs' with
  | nil => cases hb; cases h'; exact hsame
  | cons ha _ ih =>
    cases hb with
    | cons hb1 hb2 =>
      cases h' with
      | cons ha' hr' =>
        have k := reorder_slot hE hX hR hE' hX' hR' hs hsame hb1 (hc _ (by simp)) (hA _) ha ha'
        exact ih hb2 (fun b hb => hc b (by simp [hb])) k.2.2 k.1 hr'

end

/-- **C102**, the tree: two such oracles build the same tree, for whatever iteration order. -/
theorem C102_same_tree {o o' : Oracle} (h : SameButOrder o o') (H : List Nat → List Nat) (E : Env) (t : Nat) :
    generateTree H E t o.st = generateTree H E t o'.st := by
  have hv : o.st.vals = o'.st.vals := by have := congrArg State.vals h.books; exact this
  have hp : o.st.poolFees = o'.st.poolFees := by have := congrArg State.poolFees h.books; exact this
  have ha : o.st.poolFeesAddr = o'.st.poolFeesAddr := by have := congrArg State.poolFeesAddr h.books; exact this
  have hq : o.st.poolAddr = o'.st.poolAddr := by have := congrArg State.poolAddr h.books; exact this
  unfold generateTree aggregate
  simp only [hv, hp, ha, hq]

/-- **C102 is false at cleanup slots in which a leaver is consolidated into another leaver**, already without any
payment: the block is the same (`Reordered` holds of a block and itself) and the validators end with different pending
balances. -/
theorem C102_false_consolidation_chain : ∃ b o o1 o1', Reordered b b ∧ OneContract b ∧ SameButOrder o o ∧
    advanceState (Sample.leftEnv 3 false) o b = .ok (o1, some 12000000) ∧
    advanceState (Sample.leftEnv 3 true) o b = .ok (o1', some 12000000) ∧ ¬ SameButOrder o1 o1' := by
  obtain ⟨o1, o1', h, h', e1, e2, _⟩ := C09_false_consolidation_chain
  refine ⟨_, _, o1, o1', ⟨_, .refl _, rfl⟩, ?_, ⟨rfl, rfl, .refl _, .refl _⟩, h, h', ?_⟩
  · intro e he; simp [Sample.miss] at he
  · intro hs
    have : o1.st.vals = o1'.st.vals := by have := congrArg State.vals hs.books; exact this
    rw [this, e2] at e1
    simp at e1

namespace Sample

/-- the first sample block with three payments, in two orders -/
def paid1 : FullBlock :=
  { b0 with events := { b0.events with ether := [⟨5000, pool, 100⟩, ⟨300, pool, 100⟩, ⟨41, pool, 100⟩] } }
def paid2 : FullBlock :=
  { b0 with events := { b0.events with ether := [⟨41, pool, 100⟩, ⟨300, pool, 100⟩, ⟨5000, pool, 100⟩] } }

end Sample

/-- the theorem applies to the two orders, with opposite iteration orders, followed by another proposal: the books are
not the same list for list, and agree as claimed -/
example : ∃ o1 o1', Hist Sample.env (newOracle Sample.cfg) [Sample.paid1, Sample.b1] o1 ∧
    Hist Sample.envRev (newOracle Sample.cfg) [Sample.paid2, Sample.b1] o1' ∧ SameButOrder o1 o1' ∧
    o1.st.donations ≠ o1'.st.donations ∧ o1.st.vals ≠ [] := by
  obtain ⟨o1, h, hd⟩ := Sample.ex_hist (E := Sample.env) (o := newOracle Sample.cfg)
    (bs := [Sample.paid1, Sample.b1])
    (P := fun o => decide (o.st.donations = [⟨300, Sample.pool, 100⟩, ⟨41, Sample.pool, 100⟩]) && !o.st.vals.isEmpty)
    (by decide +kernel)
  obtain ⟨o1', h', hd'⟩ := Sample.ex_hist (E := Sample.envRev) (o := newOracle Sample.cfg)
    (bs := [Sample.paid2, Sample.b1])
    (P := fun o => decide (o.st.donations = [⟨41, Sample.pool, 100⟩, ⟨300, Sample.pool, 100⟩])) (by decide +kernel)
  simp only [Bool.and_eq_true, decide_eq_true_eq] at hd hd'
  have hr : ∀ {F : Env}, F.node = Sample.env.node → F.consol = Sample.env.consol →
      ReadsChain (fun _ i => if i = 9 then { Sample.bval 9 with status := .exitedUnslashed }
        else Sample.bval i) (fun _ => [(9, 1)]) F := by
    intro F h1 h2
    constructor
    · intro t slot req r h v hv
      rw [h1] at h
      rw [Sample.env_node h] at hv
      obtain ⟨i, hi, rfl⟩ := List.mem_map.mp hv
      rw [Sample.index_if]
    · intro t slot cs h
      rw [h2] at h
      simp only [Sample.env, Option.some.injEq] at h
      exact h.symm
  refine ⟨o1, o1', h, h', C102_order_of_payments_partial Sample.env_valid Sample.env_exact (hr rfl rfl)
    Sample.envRev_valid Sample.env_exact (hr rfl rfl) ?_ (.cons ⟨_, ?_, rfl⟩ (.cons ⟨_, .refl _, rfl⟩ .nil)) ?_
    (by unfold MapOK newOracle; exact List.Pairwise.nil) ⟨rfl, rfl, .refl _, .refl _⟩ h h', ?_, ?_⟩
  · intro n _ p hp _
    simp only [List.mem_singleton] at hp
    subst hp; rfl
  · exact (List.reverse_perm Sample.paid2.events.ether)
  · intro b hb e he e' he' _
    simp only [List.mem_cons, List.not_mem_nil, or_false] at hb
    rcases hb with rfl | rfl
    · simp only [Sample.paid1, List.mem_cons, List.not_mem_nil, or_false] at he he'
      rcases he with rfl | rfl | rfl <;> rcases he' with rfl | rfl | rfl <;> rfl
    · simp [Sample.b1, Sample.prop] at he
  · rw [hd.1, hd']; decide
  · intro e; rw [e] at hd; simp at hd

end Verif
