import Verif.Lemmas.Tip
import Verif.Lemmas.Hist
import Verif.Model.Reconcile
/-
Money over slots and histories.
-/
namespace Verif
open VMap

theorem owed_bal (s : State) : owed s = (s.bal 0).total := by
  unfold owed pendingTotal accTotal Bal.total VMap.total State.bal
  ring

section
variable {E : Env} (hE : ValidEnv E) (hX : ExactEnv E) (hC : NoSelfConsol E)
include hE hX hC

theorem slot_money {o o' : Oracle} {b : FullBlock} {n : Nat} (hs : MapOK o.st)
    (h0 : NoPaymentsIfMissed b) (h1 : DistinctPayments b)
    (h : advanceState E o b = .ok (o', some n)) :
    MapOK o'.st ∧ ∃ p, o'.st.proposed = o.st.proposed ++ p ∧
      owed o'.st = owed o.st + ((b.events.ether.map (·.amount)).sum +
        (b.events.subs.map (·.collateral)).sum + (p.map vanillaReward).sum) := by
  obtain ⟨sb, dons, r, ops, k1, k2, k3, k4, hp, hr, hc, _⟩ := slot_runs (x := False) hE hX hC hs
    (fun hf => hf.elim) h
  obtain ⟨sb', dons', p, m, w, q1, q2, hrec, _, q5, _⟩ := slot_frame h
  rw [k1, Except.ok.injEq] at q1
  rw [k2, Except.ok.injEq] at q2
  subst q1 q2
  refine ⟨hp.sorted hs, p, ?_, ?_⟩
  · have := congrArg State.proposed q5; exact this
  · have hb := pay_balance k1 k2 h0 h1 k3 k4
    rw [owed_bal, owed_bal, hp.total hs, hr, hrec.prop]
    linarith

theorem slot_received {o o' : Oracle} {b : FullBlock} {n : Nat} (hs : MapOK o.st)
    (h0 : NoPaymentsIfMissed b) (h1 : DistinctPayments b)
    (h : advanceState E o b = .ok (o', some n)) :
    MapOK o'.st ∧ owed o'.st - received o'.st = owed o.st - received o.st := by
  obtain ⟨m, p, hp, ho⟩ := slot_money hE hX hC hs h0 h1 h
  refine ⟨m, ?_⟩
  obtain ⟨sb', dons', p', m', w, q1, q2, hrec, _, q5, _⟩ := slot_frame h
  have e1 : o'.st.ether = o.st.ether ++ b.events.ether := by
    have := congrArg State.ether q5; exact this
  have e2 : o'.st.subs = o.st.subs ++ b.events.subs := by
    have := congrArg State.subs q5; exact this
  rw [ho]
  unfold received
  rw [e1, e2, hp]
  simp only [List.map_append, List.sum_append]
  ring

/-- whatever the payments, no slot adds more to the debts than to the income -/
theorem slot_received_le {o o' : Oracle} {b : FullBlock} {n : Nat} (hs : MapOK o.st)
    (h0 : ∀ e ∈ b.events.ether, 0 ≤ e.amount) (h : advanceState E o b = .ok (o', some n)) :
    MapOK o'.st ∧ owed o'.st - received o'.st ≤ owed o.st - received o.st := by
  obtain ⟨sb, dons, r, ops, k1, k2, k3, k4, hp, hr, hc, _⟩ := slot_runs (x := False) hE hX hC hs
    (fun hf => hf.elim) h
  obtain ⟨sb', dons', p, m, w, q1, q2, hrec, _, q5, _⟩ := slot_frame h
  rw [k1, Except.ok.injEq] at q1
  rw [k2, Except.ok.injEq] at q2
  subst q1 q2
  have e0 : o'.st.proposed = o.st.proposed ++ p := by
    have := congrArg State.proposed q5; exact this
  have e1 : o'.st.ether = o.st.ether ++ b.events.ether := by
    have := congrArg State.ether q5; exact this
  have e2 : o'.st.subs = o.st.subs ++ b.events.subs := by
    have := congrArg State.subs q5; exact this
  have hb := pay_le k1 k2 h0 k3 k4
  refine ⟨hp.sorted hs, ?_⟩
  rw [owed_bal, owed_bal, hp.total hs, hr]
  unfold received
  rw [e0, e1, e2, hrec.prop]
  simp only [List.map_append, List.sum_append]
  linarith

end

/-! ### reconciliation -/

theorem foldl_add {α : Type} (f : α → Int) (l : List α) (z : Int) :
    l.foldl (fun acc p => acc + f p) z = z + (l.map f).sum := by
  induction l generalizing z with
  | nil => simp
  | cons a l ih => simp only [List.foldl_cons, List.map_cons, List.sum_cons]; rw [ih]; ring

theorem liabilities_eq {E : Env} (hE : ValidEnv E) (t : Nat) (s : State) : liabilities E t s = owed s := by
  unfold liabilities owed pendingTotal accTotal
  have : (fun (acc : Int) (p : Nat × Validator) => acc + p.2.acc + p.2.pend) =
      fun acc p => acc + (p.2.acc + p.2.pend) := by funext a p; ring
  rw [this, foldl_add (fun p : Nat × Validator => p.2.acc + p.2.pend)]
  rw [((shuffle_perm hE t s.vals).map _).sum_eq]
  have : ∀ l : VMap, (l.map fun p => p.2.acc + p.2.pend).sum =
      (l.map fun p => p.2.pend).sum + (l.map fun p => p.2.acc).sum := by
    intro l
    induction l with
    | nil => simp
    | cons a l ih => simp only [List.map_cons, List.sum_cons, ih]; ring
  rw [this]; ring

theorem vanilaAssets_ok {l acc x} (h : vanilaAssets l acc = .ok x) : x = acc + (l.map vanillaReward).sum := by
  induction l generalizing acc with
  | nil => simp only [vanilaAssets, Except.ok.injEq] at h; simp [h]
  | cons b l ih =>
    simp only [vanilaAssets] at h
    split at h
    · rename_i hv
      split at h
      · simp at h
      · rename_i r hr
        rw [ih h]
        simp only [List.map_cons, List.sum_cons, vanillaReward, hv, hr, Option.getD_some]
        ring
    · rename_i hv
      rw [ih h]
      have : vanillaReward b = 0 := by
        unfold vanillaReward; split
        · rename_i h'; exact absurd h' hv
        · rfl
      simp [this]

theorem vanilaAssets_ex {l acc} (h : ∀ b ∈ l, b.reward ≠ none) : ∃ x, vanilaAssets l acc = .ok x := by
  induction l generalizing acc with
  | nil => exact ⟨acc, rfl⟩
  | cons b l ih =>
    simp only [vanilaAssets]
    split
    · split
      · rename_i hr; exact absurd hr (h b (by simp))
      · exact ih (fun b hb => h b (by simp [hb]))
    · exact ih (fun b hb => h b (by simp [hb]))

theorem offchain_eq {E : Env} (hE : ValidEnv E) (t : Nat) {s : State}
    (hr : ∀ b ∈ s.proposed, b.reward ≠ none) :
    offchainReconciliation E t s = .ok (decide (owed s = received s)) := by
  unfold offchainReconciliation
  rw [liabilities_eq hE]
  obtain ⟨x, hx⟩ := vanilaAssets_ex (l := s.proposed)
    (acc := s.subs.foldl (fun acc e => acc + e.collateral) (s.ether.foldl (fun acc e => acc + e.amount) 0)) hr
  simp only [hx]
  have := vanilaAssets_ok hx
  rw [foldl_add (fun e : SubEvent => e.collateral), foldl_add (fun e : EtherEvent => e.amount)] at this
  have e : x = received s := by rw [this]; unfold received; ring
  rw [e]; rfl

/-- the reconciliation succeeds only if the books balance -/
theorem offchain_true {E : Env} (hE : ValidEnv E) {t : Nat} {s : State}
    (h : offchainReconciliation E t s = .ok true) : owed s = received s := by
  unfold offchainReconciliation at h
  dsimp only at h
  rw [liabilities_eq hE, bind_ok] at h
  obtain ⟨x, hx, h⟩ := h
  have := vanilaAssets_ok hx
  rw [foldl_add (fun e : SubEvent => e.collateral), foldl_add (fun e : EtherEvent => e.amount)] at this
  have e : x = received s := by rw [this]; unfold received; ring
  rw [e] at h
  simpa using h

theorem slot_rewards {E o b o' n} (h : advanceState E o b = .ok (o', some n))
    (hr : ∀ b ∈ o.st.proposed, b.reward ≠ none) : ∀ b ∈ o'.st.proposed, b.reward ≠ none := by
  obtain ⟨o1, sb', dons, s1, s2, h1, h2, hvc, hsb, h3, hd, ha, hcl, ho', hn⟩ := advanceState_ok h
  obtain ⟨sb, dons2, p, m, w, k1, k2, hrec, k3, k4, _⟩ := slot_frame h
  have hp : o'.st.proposed = o.st.proposed ++ p := by
    have := congrArg State.proposed k4; exact this
  have hfr := validateConfig_frame hvc
  have e : summarize o1.st b o1.cfg.poolAddr = summarize o.st b o.cfg.poolAddr := by
    rw [summarize_congr (s := o1.st) (s' := o.st) (by rw [hfr])]; rw [hfr]
  rw [e, k1, Except.ok.injEq] at hsb
  subst hsb
  intro q hq
  rw [hp, List.mem_append] at hq
  rcases hq with hq | hq
  · exact hr q hq
  · rw [hrec.prop] at hq
    split at hq
    · rename_i ht
      simp only [List.mem_singleton] at hq
      subst hq
      unfold applyBlock at ha
      simp only [bind_ok] at ha
      obtain ⟨t1, q1, t3, q3, t4, q4, _⟩ := ha
      rcases ht with ht | ht
      · rw [if_pos ht] at q4
        unfold handleCorrect at q4
        split at q4
        · simp at q4
        · rename_i r hr; rw [hr]; simp
      · rw [if_pos ht] at q3
        unfold handleBls at q3
        split at q3
        · simp at q3
        · split at q3
          · simp at q3
          · rename_i r hr; rw [hr]; simp
    · simp at hq

/-! ### Non-negativity -/

theorem recv_nonneg {s b pool sb dons y} (hsb : summarize s b pool = .ok sb)
    (hd : getDonations b pool = .ok dons) (hp : NonNegPayments b) (hg : GasOK b)
    (h : (∃ ev ∈ b.events.subs, y = ev.collateral) ∨
      ((sb.type = .okPool ∨ sb.type = .okPoolBls) ∧ sb.reward = some y) ∨ ∃ d ∈ dons, y = d.amount) :
    0 ≤ y := by
  rcases h with ⟨ev, he, rfl⟩ | ⟨ht, hr⟩ | ⟨d, hdd, rfl⟩
  · exact hp.2 ev he
  · rcases summarize_cases hsb hd with ⟨_, ht', _⟩ | ⟨c, m, hc, hm, h⟩
    · rw [ht'] at ht; simp at ht
    · rcases h with ⟨h1, h2, h3, h4, h5, ⟨e, he, hea⟩, h6⟩ | ⟨h1, h2, h3, h4⟩ | ⟨h1, h2, h3, h4, h5⟩ |
        ⟨h1, h2, h3, h4⟩
      · rw [h5, Option.some.injEq] at hr
        rw [← hr, ← hea]; exact hp.1 e he
      · rw [h3] at ht; simp at ht
      · obtain ⟨t, t1, t2, t3⟩ := vanila_tip hsb h4
        cases t with
        | err => simp at t2
        | nil => rw [t3] at hr; simp at hr
        | val x =>
          rw [t3] at hr
          simp only [Option.some.injEq] at hr
          subst hr
          exact tip_nonneg hg t1
      · rw [h3] at ht; simp at ht
  · have : ∀ d ∈ dons, d ∈ b.events.ether := by
      rcases summarize_cases hsb hd with ⟨_, ht', h⟩ | ⟨c, m, hc, hm, h⟩
      · rw [h]; simp
      · rcases h with ⟨_, _, _, _, _, _, h⟩ | ⟨_, _, _, h⟩ | ⟨_, _, _, _, h⟩ | ⟨_, _, _, h⟩
        · rw [h]; intro d hd; exact (List.mem_filter.mp hd).1
        · rw [h]; exact fun _ h => h
        · rw [h]; exact fun _ h => h
        · rw [h]; exact fun _ h => h
    exact hp.1 d (this d hdd)

/-- the fee after a slot: unchanged or 500 -/
theorem slot_fee {E o b o' n} (h : advanceState E o b = .ok (o', some n)) :
    o'.st.fee = o.st.fee ∨ o'.st.fee = 500 := by
  obtain ⟨_, _, _, _, _, _, _, _, _, _, _, _, hf⟩ := slot_frame h
  rcases hf with ⟨h1, _⟩ | ⟨f, _, h2, h3, _⟩
  · exact Or.inl h1
  · right; rw [h3]; exact scheduledFee_eq h2

theorem slot_nextSlot {E o b o' n} (h : advanceState E o b = .ok (o', some n)) :
    o'.st.nextSlot = u64 (o.st.nextSlot + 1) ∧ o'.cfg.network = o.cfg.network := by
  obtain ⟨_, _, _, _, _, _, _, _, h3, h4, _⟩ := slot_frame h
  constructor
  · have := congrArg State.nextSlot h4; exact this
  · rw [h3]

section
variable {E : Env} (hE : ValidEnv E) (hX : ExactEnv E) (hC : NoSelfConsol E) (hB : SaneBalances E)
include hE hX hC hB

theorem slot_path {o o' : Oracle} {b : FullBlock} {n : Nat} (hs : MapOK o.st)
    (hf : 0 ≤ o.st.fee) (hpf : PostFork1 o.cfg.network o.st.nextSlot)
    (hp : NonNegPayments b) (hg : GasOK b)
    (h : advanceState E o b = .ok (o', some n)) :
    ∃ ops, Path True ops (o.st.bal 0) (o'.st.bal 0) ∧ (∀ y, Op.recv y ∈ ops → 0 ≤ y) := by
  have hfee : 0 ≤ o'.st.fee := by rcases slot_fee h with e | e <;> rw [e]; exact hf; decide
  obtain ⟨sb, dons, r, ops, k1, k2, k3, k4, hpath, hr, hc, _⟩ := slot_runs (x := True) hE hX hC hs
    (fun _ => ⟨hfee, hpf, hB⟩) h
  refine ⟨ops, hpath, ?_⟩
  intro y hy
  exact recv_nonneg k1 k2 hp hg (hc _ hy)

theorem slot_nonneg {o o' : Oracle} {b : FullBlock} {n : Nat} (hs : MapOK o.st) (hn : NonNeg o.st)
    (hf : 0 ≤ o.st.fee) (hpf : PostFork1 o.cfg.network o.st.nextSlot)
    (hp : NonNegPayments b) (hg : GasOK b)
    (h : advanceState E o b = .ok (o', some n)) :
    MapOK o'.st ∧ NonNeg o'.st ∧ 0 ≤ o'.st.fee := by
  obtain ⟨ops, hpath, hr⟩ := slot_path hE hX hC hB hs hf hpf hp hg h
  have hfee : 0 ≤ o'.st.fee := by rcases slot_fee h with e | e <;> rw [e]; exact hf; decide
  have := hpath.nonneg trivial ⟨hn.1, le_refl _, hn.2⟩ hr
  exact ⟨hpath.sorted hs, ⟨this.1, this.2.2⟩, hfee⟩

theorem slot_grows {o o' : Oracle} {b : FullBlock} {n : Nat} (hs : MapOK o.st) (hn : NonNeg o.st)
    (hf : 0 ≤ o.st.fee) (hpf : PostFork1 o.cfg.network o.st.nextSlot)
    (hp : NonNegPayments b) (hg : GasOK b)
    (h : advanceState E o b = .ok (o', some n)) :
    o.st.poolFees ≤ o'.st.poolFees ∧ ∀ i v, VMap.get o.st.vals i = some v →
      ∃ v', VMap.get o'.st.vals i = some v' ∧ v.acc ≤ v'.acc ∧ v'.waddr = v.waddr := by
  obtain ⟨ops, hpath, hr⟩ := slot_path hE hX hC hB hs hf hpf hp hg h
  obtain ⟨h1, h2⟩ := hpath.mono trivial ⟨hn.1, le_refl _, hn.2⟩ hr
  refine ⟨h1, ?_⟩
  intro i v hv
  obtain ⟨v', h3, h4⟩ := h2 i v hv
  refine ⟨v', h3, h4, ?_⟩
  obtain ⟨v'', h5, h6⟩ := hpath.lift (fun a b => b.waddr = a.waddr) (fun _ => rfl)
    (fun a b c h1 h2 => h2.trans h1) (fun _ => True) (fun _ _ => trivial)
    (fun op f a b _ hv => by cases hv <;> rfl) hv
  rw [h3, Option.some.injEq] at h5
  rw [h5]; exact h6

end

theorem postFork1_mono {net a b} (h : PostFork1 net a) (hab : a ≤ b) : PostFork1 net b := by
  unfold PostFork1 at *
  rcases h with ⟨h1, h2⟩ | ⟨h1, h2⟩ | ⟨h1, h2⟩
  · exact Or.inl ⟨h1, by omega⟩
  · exact Or.inr (Or.inl ⟨h1, by omega⟩)
  · exact Or.inr (Or.inr ⟨h1, by omega⟩)

theorem postFork1_next {net a} (h : PostFork1 net a) (hab : a + 1 < 18446744073709551616) :
    PostFork1 net (u64 (a + 1)) := by
  unfold u64
  rw [Nat.mod_eq_of_lt hab]
  exact postFork1_mono h (by omega)

end Verif
