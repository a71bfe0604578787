import Verif.Lemmas.Money
import Verif.Spec.Sample
/-
C02, C03, C07, C08: money over whole histories.
-/
namespace Verif
open VMap

/-! ### C02 Solvency -/

/-- **C02** (partial: it needs `DistinctPayments`, see `C02_false_twin_payment`, and that no
validator is consolidated into itself, see `C44_false_self`). After any sequence of blocks processed
from a fresh oracle, what the pool owes is exactly what it received, and the off-chain
reconciliation succeeds, whatever order its loop takes. -/
theorem C02_solvency_partial {E : Env} (hE : ValidEnv E) (hX : ExactEnv E) (hC : NoSelfConsol E)
    {cfg : Config} {bs : List FullBlock} {o' : Oracle}
    (hb : ∀ b ∈ bs, NoPaymentsIfMissed b ∧ DistinctPayments b)
    (h : Hist E (newOracle cfg) bs o') :
    owed o'.st = received o'.st ∧ ∀ t, offchainReconciliation E t o'.st = .ok true := by
  have key : ∀ {o bs o'}, Hist E o bs o' → MapOK o.st → (∀ b ∈ o.st.proposed, b.reward ≠ none) →
      owed o.st = received o.st → (∀ b ∈ bs, NoPaymentsIfMissed b ∧ DistinctPayments b) →
      owed o'.st = received o'.st ∧ ∀ b ∈ o'.st.proposed, b.reward ≠ none := by
    intro o bs o' h
    induction h with
    | nil => intro _ h1 h2 _; exact ⟨h2, h1⟩
    | @cons o b o1 n bs o2 hs _ ih =>
      intro m h1 h2 hb
      have hb1 := hb b (by simp)
      obtain ⟨m1, e⟩ := slot_received hE hX hC m hb1.1 hb1.2 hs
      exact ih m1 (slot_rewards hs h1) (by omega) (fun c hc => hb c (by simp [hc]))
  obtain ⟨h1, h2⟩ := key h List.Pairwise.nil (by intro b hb; cases hb) rfl hb
  refine ⟨h1, fun t => ?_⟩
  rw [offchain_eq hE t h2, h1]; simp

theorem Sample.payments_ok : ∀ b ∈ Sample.blocks, NoPaymentsIfMissed b ∧ DistinctPayments b := by
  intro b hb
  simp only [Sample.blocks, List.mem_cons, List.not_mem_nil, or_false] at hb
  rcases hb with rfl | rfl | rfl | rfl
  · refine ⟨fun h => by simp [Sample.b0, Sample.prop] at h, ?_⟩
    rintro a (⟨c, tx, hc, ht, rfl⟩ | rfl)
    · simp only [Sample.b0, Sample.prop, Option.some.injEq] at hc
      subst hc
      simp only [List.getLast?_singleton, Option.some.injEq] at ht
      subst ht
      decide
    · decide
  · exact ⟨fun _ => rfl, fun a _ => by simp [Sample.b1, Sample.prop]⟩
  · exact ⟨fun _ => rfl, fun a _ => by simp [Sample.b2, Sample.miss]⟩
  · refine ⟨fun h => by simp [Sample.b3, Sample.prop] at h, fun a _ => ?_⟩
    exact le_trans (List.length_filter_le _ _) (by decide)

/-- Four blocks with a MEV proposal, a vanilla one, a miss, a wrong fee recipient, a subscription,
an unsubscription and donations: 69340 wei owed and received. -/
example : Hist Sample.env (newOracle Sample.cfg) Sample.blocks Sample.final ∧
    owed Sample.final.st = 69340 ∧ received Sample.final.st = 69340 ∧
    (∀ b ∈ Sample.blocks, NoPaymentsIfMissed b ∧ DistinctPayments b) ∧
    ValidEnv Sample.env ∧ ExactEnv Sample.env ∧ NoSelfConsol Sample.env :=
  ⟨Sample.hist, by decide +kernel, by decide +kernel, Sample.payments_ok, Sample.env_valid,
    Sample.env_exact, Sample.env_noSelf⟩

/-- the first sample block with a second payment of 5000, the amount the builder pays -/
def twinBlock : FullBlock :=
  { Sample.b0 with events := { Sample.b0.events with
      ether := [⟨5000, Sample.pool, 100⟩, ⟨5000, Sample.pool, 100⟩] } }

/-- **C02, false part.** If somebody sends the pool, in the block of a MEV proposal, another payment
of exactly the builder's amount, the second payment is never credited: the pool owes less than it
received and the reconciliation fails from then on, which stops the oracle (main.go). -/
theorem C02_false_twin_payment : ∃ o', Hist Sample.env (newOracle Sample.cfg) [twinBlock] o' ∧
    owed o'.st = 6000 ∧ received o'.st = 11000 ∧
    offchainReconciliation Sample.env 0 o'.st = .ok false := by
  obtain ⟨o', h1, h2⟩ := Sample.ex_hist (E := Sample.env) (o := newOracle Sample.cfg)
    (bs := [twinBlock]) (P := fun o' => owed o'.st = 6000 && received o'.st = 11000 &&
      (offchainReconciliation Sample.env 0 o'.st).toOption = some false) (by decide +kernel)
  simp only [Bool.and_eq_true, decide_eq_true_eq] at h2
  refine ⟨o', h1, h2.1.1, h2.1.2, ?_⟩
  have := h2.2
  cases hr : offchainReconciliation Sample.env 0 o'.st with
  | error e => rw [hr] at this; simp [Except.toOption] at this
  | ok x => rw [hr] at this; simp only [Except.toOption, Option.some.injEq] at this; rw [this]

/-! ### C96 The pool never owes more than it received -/

/-- **C96.** After any sequence of blocks processed from a fresh oracle, whatever is paid to the pool and in
whatever pieces, the pool owes at most what it received: no sequence of payments, subscriptions, proposals,
changes of the fee or consolidations makes the oracle promise money that did not arrive. Unlike C02 this
asks nothing of the amounts except that none is negative. -/
theorem C96_never_owes_more {E : Env} (hE : ValidEnv E) (hX : ExactEnv E) (hC : NoSelfConsol E)
    {cfg : Config} {bs : List FullBlock} {o' : Oracle} (hb : ∀ b ∈ bs, ∀ e ∈ b.events.ether, 0 ≤ e.amount)
    (h : Hist E (newOracle cfg) bs o') : owed o'.st ≤ received o'.st := by
  have key : ∀ {o bs o'}, Hist E o bs o' → MapOK o.st → owed o.st ≤ received o.st →
      (∀ b ∈ bs, ∀ e ∈ b.events.ether, 0 ≤ e.amount) → owed o'.st ≤ received o'.st := by
    intro o bs o' h
    induction h with
    | nil => intro _ h _; exact h
    | @cons o b o1 n bs o2 hs _ ih =>
      intro m h hb
      obtain ⟨m1, e⟩ := slot_received_le hE hX hC m (hb b (by simp)) hs
      exact ih m1 (by omega) (fun c hc => hb c (by simp [hc]))
  exact key h List.Pairwise.nil (le_refl _) hb

/-- The block with the twin payment: 6000 owed, 11000 received. -/
example : ∃ o', Hist Sample.env (newOracle Sample.cfg) [twinBlock] o' ∧ owed o'.st < received o'.st ∧
    owed o'.st ≤ received o'.st ∧ ∀ b ∈ [twinBlock], ∀ e ∈ b.events.ether, 0 ≤ e.amount := by
  obtain ⟨o', h1, h2, h3, _⟩ := C02_false_twin_payment
  have hb : ∀ b ∈ [twinBlock], ∀ e ∈ b.events.ether, 0 ≤ e.amount := by decide
  exact ⟨o', h1, by omega, C96_never_owes_more Sample.env_valid Sample.env_exact Sample.env_noSelf hb h1, hb⟩

/-! ### C03 Every payment is credited exactly once -/

/-- **C03** (partial: needs `DistinctPayments`, see `C03_false_twin_payment`). The payments of a
processed block are divided into the MEV reward of a recorded proposal (at most one payment, with
the recorded amount) and the donations; nothing is in both or in neither; and what the pool owes
grows by exactly all payments, all collaterals and the vanilla reward of the recorded proposal. -/
theorem C03_each_payment_once_partial {E : Env} (hE : ValidEnv E) (hX : ExactEnv E)
    (hC : NoSelfConsol E) {o o' : Oracle} {b : FullBlock} {n : Nat} (hs : MapOK o.st)
    (h0 : NoPaymentsIfMissed b) (h1 : DistinctPayments b)
    (h : advanceState E o b = .ok (o', some n)) :
    ∃ mev dons p, b.events.ether.Perm (mev ++ dons) ∧
      o'.st.donations = o.st.donations ++ dons ∧ o'.st.proposed = o.st.proposed ++ p ∧
      ((mev = [] ∧ ∀ sb ∈ p, sb.rewardType ≠ .mev) ∨
        ∃ e sb, mev = [e] ∧ p = [sb] ∧ sb.rewardType = .mev ∧ sb.reward = some e.amount) ∧
      owed o'.st = owed o.st + ((b.events.ether.map (·.amount)).sum +
        (b.events.subs.map (·.collateral)).sum + (p.map vanillaReward).sum) := by
  obtain ⟨_, p, hp, ho⟩ := slot_money hE hX hC hs h0 h1 h
  obtain ⟨sb, dons, p', m, w, q1, q2, hrec, _, q5, _⟩ := slot_frame h
  have hp' : o'.st.proposed = o.st.proposed ++ p' := by
    have := congrArg State.proposed q5; exact this
  have : p = p' := by rw [hp] at hp'; exact List.append_cancel_left hp'
  subst this
  have hdn : o'.st.donations = o.st.donations ++ dons := by
    have := congrArg State.donations q5; exact this
  have hprop := hrec.prop
  rcases summarize_cases q1 q2 with ⟨hc, ht, hd⟩ | ⟨c, mv, hc, hm, hcase⟩
  · refine ⟨[], dons, p, ?_, hdn, hp, Or.inl ⟨rfl, ?_⟩, ho⟩
    · rw [h0 hc, hd]; exact List.Perm.nil
    · rw [hprop, ht]; simp
  · rcases hcase with ⟨k1, k2, k3, k4, k5, ⟨e, he, hea⟩, hd⟩ | ⟨_, _, k3, hd⟩ | ⟨_, _, k3, k4, hd⟩ |
      ⟨_, _, k3, hd⟩
    · rw [if_pos k3] at hprop
      have hle := h1 mv.amount (mevReward_amount hm k1)
      have hmem : e ∈ b.events.ether.filter fun e => e.amount = mv.amount :=
        List.mem_filter.mpr ⟨he, by simpa using hea⟩
      have hone : (b.events.ether.filter fun e => e.amount = mv.amount) = [e] := by
        cases hf : b.events.ether.filter fun e => e.amount = mv.amount with
        | nil => rw [hf] at hmem; simp at hmem
        | cons x xs =>
          rw [hf] at hmem hle
          simp only [List.length_cons] at hle
          have : xs = [] := List.length_eq_zero_iff.mp (by omega)
          subst this
          simp only [List.mem_singleton] at hmem
          rw [hmem]
      refine ⟨[e], dons, p, ?_, hdn, hp, Or.inr ⟨e, sb, rfl, hprop, k4, by rw [k5, hea]⟩, ho⟩
      rw [← hone, hd]
      have := (List.filter_append_perm (fun e : EtherEvent => decide (e.amount = mv.amount)) b.events.ether).symm
      simpa using this
    · refine ⟨[], dons, p, by rw [hd]; exact List.Perm.refl _, hdn, hp, Or.inl ⟨rfl, ?_⟩, ho⟩
      rw [hprop, k3]; simp
    · refine ⟨[], dons, p, by rw [hd]; exact List.Perm.refl _, hdn, hp, Or.inl ⟨rfl, ?_⟩, ho⟩
      rw [hprop, if_pos k3]
      intro x hx
      simp only [List.mem_singleton] at hx
      rw [hx, k4]; simp
    · refine ⟨[], dons, p, by rw [hd]; exact List.Perm.refl _, hdn, hp, Or.inl ⟨rfl, ?_⟩, ho⟩
      rw [hprop, k3]; simp

/-- A block with a MEV payment and a donation: one of the two is the recorded donation. -/
example : ∃ o' n, advanceState Sample.env (newOracle Sample.cfg) Sample.b0 = .ok (o', some n) ∧
    o'.st.donations.map (·.amount) = [300] ∧ owed o'.st = 6300 := by
  obtain ⟨o', n, h1, h2⟩ := Sample.ex_slot (E := Sample.env) (o := newOracle Sample.cfg)
    (b := Sample.b0) (P := fun o' => o'.st.donations.map (·.amount) = [300] && owed o'.st = 6300)
    (by decide +kernel)
  simp only [Bool.and_eq_true, decide_eq_true_eq] at h2
  exact ⟨o', n, h1, h2.1, h2.2⟩

/-- **C03, false part.** Two payments of the builder's amount: one is the reward, the other one is
neither reward nor donation. -/
theorem C03_false_twin_payment : ∃ o' n,
    advanceState Sample.env (newOracle Sample.cfg) twinBlock = .ok (o', some n) ∧
    twinBlock.events.ether.length = 2 ∧ o'.st.donations = [] ∧ o'.st.proposed.length = 1 ∧
    owed o'.st ≠ owed (newOracle Sample.cfg).st + ((twinBlock.events.ether.map (·.amount)).sum +
        (twinBlock.events.subs.map (·.collateral)).sum + (o'.st.proposed.map vanillaReward).sum) := by
  obtain ⟨o', n, h1, h2⟩ := Sample.ex_slot (E := Sample.env) (o := newOracle Sample.cfg)
    (b := twinBlock) (P := fun o' => o'.st.donations = [] && o'.st.proposed.length = 1 &&
      owed o'.st ≠ owed (newOracle Sample.cfg).st + ((twinBlock.events.ether.map (·.amount)).sum +
        (twinBlock.events.subs.map (·.collateral)).sum + (o'.st.proposed.map vanillaReward).sum))
    (by decide +kernel)
  simp only [Bool.and_eq_true, decide_eq_true_eq] at h2
  exact ⟨o', n, h1, rfl, h2.1.1, h2.1.2, h2.2⟩

/-! ### C07 Balances never go negative -/

/-- **C07** (partial: from fork1 on; before it is false, see `C07_false_before_fork1`). If all
balances are non-negative, the fee is non-negative and everything received is non-negative, all
balances stay non-negative over any history. -/
theorem C07_nonneg_partial {E : Env} (hE : ValidEnv E) (hX : ExactEnv E) (hC : NoSelfConsol E)
    (hB : SaneBalances E) {o o' : Oracle} {bs : List FullBlock}
    (hs : MapOK o.st) (hn : NonNeg o.st) (hf : 0 ≤ o.st.fee)
    (hpf : PostFork1 o.cfg.network o.st.nextSlot)
    (hlen : o.st.nextSlot + bs.length < 18446744073709551616)
    (hb : ∀ b ∈ bs, NonNegPayments b ∧ GasOK b) (h : Hist E o bs o') :
    MapOK o'.st ∧ NonNeg o'.st := by
  induction h with
  | nil => exact ⟨hs, hn⟩
  | @cons o b o1 n bs o2 hstep _ ih =>
    have hb1 := hb b (by simp)
    simp only [List.length_cons] at hlen
    obtain ⟨m1, n1, f1⟩ := slot_nonneg hE hX hC hB hs hn hf hpf hb1.1 hb1.2 hstep
    obtain ⟨e1, e2⟩ := slot_nextSlot hstep
    have e3 : u64 (o.st.nextSlot + 1) = o.st.nextSlot + 1 := Nat.mod_eq_of_lt (by omega)
    apply ih m1 n1 f1
    · rw [e1, e2]; exact postFork1_next hpf (by omega)
    · rw [e1, e3]; omega
    · exact fun c hc => hb c (by simp [hc])

theorem Sample.amounts_ok : ∀ b ∈ Sample.blocks, NonNegPayments b ∧ GasOK b := by
  intro b hb
  have hgas : ∀ {slot i fr t evs} , 10 ≤ effectivePrice 10 t → GasOK (Sample.prop slot i fr t evs) := by
    intro slot i fr t evs ht c h rs hc hh hr
    simp only [Sample.prop, Option.some.injEq] at hc hh hr
    subst hc hh hr
    refine ⟨rfl, ?_, rfl, by norm_num, ?_⟩
    · intro n hn; simp only [BaseFee.u256.injEq] at hn; subst hn; norm_num
    · intro tx htx
      simp only [List.mem_singleton, Option.some.injEq] at htx
      subst htx; exact ht
  simp only [Sample.blocks, List.mem_cons, List.not_mem_nil, or_false] at hb
  rcases hb with rfl | rfl | rfl | rfl
  · exact ⟨⟨by decide, by decide⟩, fun c h rs hc hh hr => hgas (evs := {}) (by decide) c h rs hc hh hr⟩
  · exact ⟨⟨by decide, by decide⟩, hgas (by decide)⟩
  · exact ⟨⟨by decide, by decide⟩, fun c h rs hc => by simp [Sample.b2, Sample.miss] at hc⟩
  · exact ⟨⟨by decide, by decide⟩, fun c h rs hc hh hr => hgas (evs := {}) (by decide) c h rs hc hh hr⟩

/-- the four sample blocks meet all hypotheses -/
example : MapOK (newOracle Sample.cfg).st ∧ NonNeg (newOracle Sample.cfg).st ∧
    0 ≤ (newOracle Sample.cfg).st.fee ∧ PostFork1 Sample.cfg.network Sample.cfg.depSlot ∧
    Sample.cfg.depSlot + Sample.blocks.length < 18446744073709551616 ∧
    (∀ b ∈ Sample.blocks, NonNegPayments b ∧ GasOK b) ∧ SaneBalances Sample.env ∧
    Hist Sample.env (newOracle Sample.cfg) Sample.blocks Sample.final :=
  ⟨List.Pairwise.nil, ⟨by decide, fun p hp => by cases hp⟩, by decide, by decide, by decide,
    Sample.amounts_ok, Sample.env_sane, Sample.hist⟩

/-- a pool without collateral, deployed before fork1 -/
def earlyCfg : Config := { Sample.cfg with depSlot := 7000001, collateral := 0 }

/-- validator 3 subscribes without collateral and somebody donates one wei -/
def weiBlock : FullBlock :=
  { Sample.prop 7000001 1 Sample.builder (Sample.tx Sample.builder (Sample.addr 77) 900)
      { ether := [⟨1, Sample.pool, 100⟩], subs := [⟨3, 0, Sample.addr 3, 100⟩] } with
    valsSubs := [some (Sample.bval 3)] }

/-- **C07, false part.** Before fork1, donating one wei to a pool with one validator drives that
validator's pending balance to -699: the remainder of the fee division is subtracted from the
shared amount although it was never divided by 10000. -/
theorem C07_false_before_fork1 : ∃ o', Hist Sample.env (newOracle earlyCfg) [weiBlock] o' ∧
    (VMap.get o'.st.vals 3).map (·.pend) = some (-699) ∧ o'.st.poolFees = 700 ∧
    NonNegPayments weiBlock := by
  obtain ⟨o', h1, h2⟩ := Sample.ex_hist (E := Sample.env) (o := newOracle earlyCfg)
    (bs := [weiBlock]) (P := fun o' => (VMap.get o'.st.vals 3).map (·.pend) = some (-699) &&
      o'.st.poolFees = 700) (by decide +kernel)
  simp only [Bool.and_eq_true, decide_eq_true_eq] at h2
  exact ⟨o', h1, h2.1, h2.2, by decide, by decide⟩

/-! ### C08 Claimable balances only grow -/

/-- the next slot: validator 3 proposes and pays one wei to the pool -/
def weiProposal : FullBlock :=
  Sample.prop 7000002 3 Sample.builder (Sample.tx Sample.builder Sample.pool 1)
    { ether := [⟨1, Sample.pool, 100⟩] }

/-- **C08, false part.** Before fork1 a correct proposal can lower the proposer's claimable balance: after
`weiBlock` validator 3, which has nothing accumulated, proposes and pays one wei to the pool, and its
negative pending balance is moved into its accumulated balance. -/
theorem C08_false_before_fork1 : ∃ o1 o2, Hist Sample.env (newOracle earlyCfg) [weiBlock] o1 ∧
    Hist Sample.env o1 [weiProposal] o2 ∧ (VMap.get o1.st.vals 3).map (·.acc) = some 0 ∧
    (VMap.get o2.st.vals 3).map (·.acc) = some (-1398) ∧
    NonNegPayments weiBlock ∧ NonNegPayments weiProposal := by
  obtain ⟨o1, h1, h2⟩ := Sample.ex_hist (E := Sample.env) (o := newOracle earlyCfg)
    (bs := [weiBlock]) (P := fun o1 => (VMap.get o1.st.vals 3).map (·.acc) = some 0 &&
      (Sample.run Sample.env o1 [weiProposal]).any fun o2 =>
        (VMap.get o2.st.vals 3).map (·.acc) = some (-1398)) (by decide +kernel)
  simp only [Bool.and_eq_true, decide_eq_true_eq] at h2
  obtain ⟨o2, h3, h4⟩ := Sample.ex_hist (E := Sample.env) (o := o1) (bs := [weiProposal])
    (P := fun o2 => (VMap.get o2.st.vals 3).map (·.acc) = some (-1398)) h2.2
  exact ⟨o1, o2, h1, h3, h2.1, by simpa using h4, ⟨by decide, by decide⟩, by decide, by decide⟩

/-- **C08** (partial: from fork1 on, as C07). Over any history the pool's fee balance, every
validator's accumulated balance and the accumulated total of every withdrawal address never
decrease. -/
theorem C08_claimable_grows_partial {E : Env} (hE : ValidEnv E) (hX : ExactEnv E)
    (hC : NoSelfConsol E) (hB : SaneBalances E) {o o' : Oracle} {bs : List FullBlock}
    (hs : MapOK o.st) (hn : NonNeg o.st) (hf : 0 ≤ o.st.fee)
    (hpf : PostFork1 o.cfg.network o.st.nextSlot)
    (hlen : o.st.nextSlot + bs.length < 18446744073709551616)
    (hb : ∀ b ∈ bs, NonNegPayments b ∧ GasOK b) (h : Hist E o bs o') :
    o.st.poolFees ≤ o'.st.poolFees ∧
    (∀ i v, VMap.get o.st.vals i = some v → ∃ v', VMap.get o'.st.vals i = some v' ∧ v.acc ≤ v'.acc) ∧
    ∀ w, addressTotal o.st w ≤ addressTotal o'.st w := by
  have main : o.st.poolFees ≤ o'.st.poolFees ∧
      (∀ i v, VMap.get o.st.vals i = some v →
        ∃ v', VMap.get o'.st.vals i = some v' ∧ v.acc ≤ v'.acc ∧ v'.waddr = v.waddr) := by
    induction h with
    | nil => exact ⟨le_refl _, fun i v hv => ⟨v, hv, le_refl _, rfl⟩⟩
    | @cons o b o1 n bs o2 hstep _ ih =>
      have hb1 := hb b (by simp)
      simp only [List.length_cons] at hlen
      obtain ⟨m1, n1, f1⟩ := slot_nonneg hE hX hC hB hs hn hf hpf hb1.1 hb1.2 hstep
      obtain ⟨g1, g2⟩ := slot_grows hE hX hC hB hs hn hf hpf hb1.1 hb1.2 hstep
      obtain ⟨e1, e2⟩ := slot_nextSlot hstep
      have e3 : u64 (o.st.nextSlot + 1) = o.st.nextSlot + 1 := Nat.mod_eq_of_lt (by omega)
      obtain ⟨i1, i2⟩ := ih m1 n1 f1 (by rw [e1, e2]; exact postFork1_next hpf (by omega))
        (by rw [e1, e3]; omega) (fun c hc => hb c (by simp [hc]))
      refine ⟨le_trans g1 i1, ?_⟩
      intro i v hv
      obtain ⟨v1, a1, a2, a3⟩ := g2 i v hv
      obtain ⟨v2, b1, b2, b3⟩ := i2 i v1 a1
      exact ⟨v2, b1, le_trans a2 b2, b3.trans a3⟩
  obtain ⟨m', n'⟩ := C07_nonneg_partial hE hX hC hB hs hn hf hpf hlen hb h
  refine ⟨main.1, ?_, ?_⟩
  · intro i v hv
    obtain ⟨v', h1, h2, _⟩ := main.2 i v hv
    exact ⟨v', h1, h2⟩
  · intro w
    have hsum : ∀ s : State, addressTotal s w =
        VMap.total (fun v => if lower v.waddr = lower w then v.acc else 0) s.vals := by
      intro s
      unfold addressTotal VMap.total
      induction s.vals with
      | nil => rfl
      | cons p l ih =>
        simp only [List.filter_cons, List.map_cons, List.sum_cons]
        by_cases hp : lower p.2.waddr = lower w
        · simp [hp, ih]
        · simp [hp, ih]
    rw [hsum, hsum]
    apply total_le hs m'
    · intro i v hv
      obtain ⟨v', h1, h2, h3⟩ := main.2 i v hv
      refine ⟨v', h1, ?_⟩
      rw [h3]
      split
      · exact h2
      · exact le_refl _
    · intro i v hv
      have := (n'.2 _ (mem_of_get hv)).2
      dsimp only at this ⊢
      split <;> omega

/-- In the sample history the accumulated balance of validator 1 grows from nothing to 2290. -/
example : addressTotal (newOracle Sample.cfg).st (Sample.addr 1) = 0 ∧
    addressTotal Sample.final.st (Sample.addr 1) = 2290 := by
  constructor <;> decide +kernel

end Verif
