import Verif.Props.Once
import Verif.Props.Lost
/-
C101: how much the pool can gain while nothing is paid to it.
-/
namespace Verif
open VMap

section
variable {E : Env} (hE : ValidEnv E) (hX : ExactEnv E) (hC : NoSelfConsol E)
include hE hX hC

/-- without a payment the total of all balances stays -/
theorem slot_owed_quiet {o o' : Oracle} {b : FullBlock} {n : Nat} (hs : MapOK o.st)
    (hp : NothingPaid b o.cfg.poolAddr) (h : advanceState E o b = .ok (o', some n)) : owed o'.st = owed o.st := by
  obtain ⟨mev, dons, lost, p, h1, h2, h3, _, h5⟩ := C03_exact hE hX hC hs h
  obtain ⟨sb, dons', p', m, w, q1, _, hrec, _, q5, _⟩ := slot_frame h
  have e0 : o'.st.proposed = o.st.proposed ++ p' := by
    have := congrArg State.proposed q5; exact this
  have e1 : p = p' := List.append_cancel_left (h3.symm.trans e0)
  have e2 : p' = [] := by
    rw [hrec.prop, if_neg]
    exact fun k => hp.2.2 ((summarize_paid q1).1.mp k)
  rw [hp.1] at h1 h5
  have e3 : lost = [] := by
    have := h1.nil_eq
    simp only [List.nil_eq, List.append_eq_nil_iff] at this
    exact this.2.2
  rw [e1, e2, e3, hp.2.1] at h5
  simpa using h5

/-- **C101**, for histories of any length. While nothing is paid to the pool, its revenue grows by no more than the
pending balances of the validators that give theirs up: nobody else pays for it, neither from the pending nor from the
accumulated balance. -/
theorem C101_bounded (hB : SaneBalances E) {o o' : Oracle} {bs : List FullBlock} (hs : MapOK o.st) (hn : NonNeg o.st)
    (hf : 0 ≤ o.st.fee) (hpf : PostFork1 o.cfg.network o.st.nextSlot)
    (hlen : o.st.nextSlot + bs.length < 18446744073709551616)
    (hb : ∀ b ∈ bs, NothingPaid b o.cfg.poolAddr ∧ GasOK b) (h : Hist E o bs o')
    (gives : Nat → Bool) (hg : ∀ i v, VMap.get o.st.vals i = some v →
      ∀ b ∈ bs, Forfeits E o.cfg.poolAddr b i → gives i = true) :
    o'.st.poolFees ≤ o.st.poolFees + ((o.st.vals.filter fun p => gives p.1).map fun p => p.2.pend).sum := by
  have hnn : ∀ b ∈ bs, NonNegPayments b ∧ GasOK b := by
    intro b hm
    obtain ⟨⟨k1, k2, _⟩, k3⟩ := hb b hm
    refine ⟨⟨?_, ?_⟩, k3⟩
    · rw [k1]; simp
    · rw [k2]; simp
  obtain ⟨m', n'⟩ := C07_nonneg_partial hE hX hC hB hs hn hf hpf hlen hnn h
  have ho : owed o'.st = owed o.st := by
    clear hg hnn m' n' hlen hpf hf hn
    induction h with
    | nil => rfl
    | @cons o b o1 n bs o2 hstep _ ih =>
      have hcfg : o1.cfg.poolAddr = o.cfg.poolAddr := by
        obtain ⟨_, _, _, _, _, _, _, _, h3, _⟩ := slot_frame hstep
        rw [h3]
      rw [ih (slot_exact hE hX hC hs hstep).1 fun c hc => by rw [hcfg]; exact hb c (by simp [hc])]
      exact slot_owed_quiet hE hX hC hs (hb b (by simp)).1 hstep
  have hacc := (C08_claimable_grows_partial hE hX hC hB hs hn hf hpf hlen hnn h).2.1
  -- the books without what is given up
  let m := o.st.vals.map fun p => (p.1, if gives p.1 then { p.2 with pend := 0 } else p.2)
  have hm : Sorted m := by
    refine List.pairwise_map.mpr (List.Pairwise.imp ?_ hs)
    exact fun h => h
  have hget : ∀ i, VMap.get m i = (VMap.get o.st.vals i).map fun v => if gives i then { v with pend := 0 } else v := by
    intro i
    exact get_map_of (g := fun i v => if gives i then { v with pend := 0 } else v)
  have hle : VMap.total Validator.wealth m ≤ VMap.total Validator.wealth o'.st.vals := by
    apply total_le hm m'
    · intro i v hv
      rw [hget, Option.map_eq_some_iff] at hv
      obtain ⟨u, hu, rfl⟩ := hv
      split
      · obtain ⟨v', k1, k2⟩ := hacc i u hu
        refine ⟨v', k1, ?_⟩
        have := (n'.2 _ (mem_of_get k1)).1
        unfold Validator.wealth
        dsimp only at this ⊢
        omega
      · rename_i hgi
        exact C90_nobody_else_takes hE hX hC hB hs hn hf hpf hlen hnn h hu fun b hb hfo => hgi (hg i u hu b hb hfo)
    · intro i v hv
      have := n'.2 _ (mem_of_get hv)
      unfold Validator.wealth
      dsimp only at this ⊢
      omega
  have hw : ∀ s : State, owed s = VMap.total Validator.wealth s.vals + s.poolFees := by
    intro s
    unfold owed pendingTotal accTotal VMap.total
    congr 1
    induction s.vals with
    | nil => rfl
    | cons p l ih =>
      simp only [List.map_cons, List.sum_cons]
      rw [← ih]
      unfold Validator.wealth
      ring
  have hsum : VMap.total Validator.wealth o.st.vals =
      VMap.total Validator.wealth m + ((o.st.vals.filter fun p => gives p.1).map fun p => p.2.pend).sum := by
    show VMap.total _ _ = VMap.total _ (o.st.vals.map _) + _
    unfold VMap.total
    generalize o.st.vals = l
    induction l with
    | nil => rfl
    | cons p l ih =>
      simp only [List.map_cons, List.sum_cons, List.filter_cons]
      rw [ih]
      by_cases hp : gives p.1 = true
      · simp only [hp, if_true, List.map_cons, List.sum_cons]
        unfold Validator.wealth
        dsimp only
        ring
      · simp only [hp]
        simp
        ring
  rw [hw, hw] at ho
  omega
end

/-- a case that meets the hypotheses of `C101_bounded`: in the block of `C101_false_charged_again` validator 2 leaves,
nobody else gives up anything, and the revenue grows -/
example : ∃ o o', MapOK o.st ∧ NonNeg o.st ∧ 0 ≤ o.st.fee ∧ PostFork1 o.cfg.network o.st.nextSlot ∧
    o.st.nextSlot + [Sample.later1].length < 18446744073709551616 ∧
    (∀ b ∈ [Sample.later1], NothingPaid b o.cfg.poolAddr ∧ GasOK b) ∧ Hist Sample.env o [Sample.later1] o' ∧
    (∀ i v, VMap.get o.st.vals i = some v → ∀ b ∈ [Sample.later1], Forfeits Sample.env o.cfg.poolAddr b i →
      decide (i = 2) = true) ∧
    o.st.poolFees < o'.st.poolFees ∧
    ((o.st.vals.filter fun p => decide (p.1 = 2)).map fun p => p.2.pend).sum < pendingTotal o.st := by
  obtain ⟨o, o', n, h1, h2, h3⟩ := Sample.ex_then (E := Sample.env) (o := newOracle Sample.cfg)
    (bs := [Sample.b0]) (b := Sample.later1)
    (P := fun o o' _ => decide (o.cfg.poolAddr = Sample.pool ∧ (o.st.vals.Pairwise fun (p q : Nat × Validator) => p.1 < q.1) ∧
      (0 ≤ o.st.poolFees ∧ ∀ p ∈ o.st.vals, 0 ≤ p.2.pend ∧ 0 ≤ p.2.acc) ∧ 0 ≤ o.st.fee ∧
      PostFork1 o.cfg.network o.st.nextSlot ∧ o.st.nextSlot + [Sample.later1].length < 18446744073709551616 ∧
      (∀ p ∈ o.st.vals, p.1 ≠ Sample.later1.dutyIndex ∨ p.1 = 2) ∧
      o.st.poolFees < o'.st.poolFees ∧
      ((o.st.vals.filter fun p => decide (p.1 = 2)).map fun p => p.2.pend).sum < pendingTotal o.st))
    (by decide +kernel)
  obtain ⟨e, k1, k2, k3, k4, k5, k6, k7, k8⟩ := of_decide_eq_true h3
  refine ⟨o, o', k1, k2, k3, k4, k5, ?_, .cons h2 (.nil _), ?_, k7, k8⟩
  · intro b hb
    rw [List.mem_singleton] at hb
    subst hb
    exact ⟨⟨rfl, rfl, by rw [e]; exact Sample.later_unpaid (by decide) rfl⟩, Sample.prop_gas (evs := { unsubs := [⟨2, Sample.addr 2, 101⟩] })⟩
  · intro i v hv b hb hf
    rw [List.mem_singleton] at hb
    subst hb
    rcases hf with h | h | ⟨h, _⟩ | ⟨h, _⟩
    · rcases k6 _ (mem_of_get hv) with k | k
      · exact absurd h.1.symm k
      · exact decide_eq_true k
    · obtain ⟨ev, u, w, h, rfl, _⟩ := h
      revert h
      simp +contextual [Sample.later1, Sample.prop]
    · cases h
    · exact absurd h (by decide)

end Verif
