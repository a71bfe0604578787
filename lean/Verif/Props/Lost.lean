import Verif.Props.Refinement
import Verif.Props.Money
import Verif.Spec.Lost
/-
C02: the exact difference between what the pool received and what it owes.
-/
namespace Verif
open VMap

/-- a block that was not missed either has a builder's payment, with an event of that amount, or not -/
theorem builder_cases {s0 : State} {b : FullBlock} {pool : Str} {sb : SumBlock} {dons : List EtherEvent}
    (hsb : summarize s0 b pool = .ok sb) (hd : getDonations b pool = .ok dons) :
    (b.cons = none ∧ sb.type = .missed ∧ dons = []) ∨
    (∃ a, BuilderPaid b pool a ∧ (sb.type = .okPool ∨ sb.type = .okPoolBls) ∧ sb.rewardType = .mev ∧
      sb.reward = some a ∧ (∃ e ∈ b.events.ether, e.amount = a) ∧ dons = b.events.ether.filter fun e => e.amount ≠ a) ∨
    (b.cons ≠ none ∧ (∀ a, ¬ BuilderPaid b pool a) ∧ dons = b.events.ether ∧
      (sb.type = .wrongFee ∨ (sb.type = .okPool ∨ sb.type = .okPoolBls) ∧ sb.rewardType = .vanila)) := by
  have hdn := donationsOf hsb hd
  rcases summarize_cases hsb hd with ⟨hc, ht, h⟩ | ⟨c, m, hc, hm, h⟩
  · exact Or.inl ⟨hc, ht, h⟩
  · right
    have hspec := mevReward_spec (pool := pool) hm
    have hex : m.present = true → SameAddr m.recipient pool → BuilderPaid b pool m.amount := by
      intro hp hr
      rcases hspec with ⟨h1, h2, h3, h4⟩ | ⟨tx, dest, h1, h2, h3, h4⟩ | ⟨_, _, h3⟩
      · exact Or.inl ⟨h1, h3.mp hr, h4⟩
      · exact Or.inr ⟨tx, dest, h1, h4.mp hr, h3⟩
      · rw [hp] at h3; simp at h3
    have hno : ¬ (m.present = true ∧ SameAddr m.recipient pool) → ∀ a, ¬ BuilderPaid b pool a := by
      intro hn a ha
      apply hn
      rcases hspec with ⟨h1, h2, h3, h4⟩ | ⟨tx, dest, h1, h2, h3, h4⟩ | ⟨h1, h2, _⟩
      · rcases ha with ⟨_, h6, _⟩ | ⟨tx, d, h6, _⟩
        · exact ⟨h2, h3.mpr h6⟩
        · exact absurd h1 h6.1
      · rcases ha with ⟨h6, _⟩ | ⟨tx', d', h6, h7, _⟩
        · exact absurd h6 h1.1
        · obtain ⟨_, _, _, _, l1, _⟩ := id h1
          obtain ⟨_, _, _, _, l2, _⟩ := id h6
          obtain ⟨q1, _, q2⟩ := lastTx_unique l1 l2
          subst q1 q2
          exact ⟨h2, h4.mpr h7⟩
      · rcases ha with ⟨h6, _⟩ | ⟨tx', d', h6, _⟩
        · exact absurd h6 h1
        · exact absurd h6 (h2 _ _)
    rcases h with ⟨hp, hq, ht, hrt, hrew, he, hdn⟩ | ⟨hp, hq, ht, hdn⟩ | ⟨hp, hq, ht, hrt, hdn⟩ | ⟨hp, hq, ht, hdn⟩
    · exact Or.inl ⟨m.amount, hex hp ((equals_iff hq).mp rfl), ht, hrt, hrew, he, hdn⟩
    · refine Or.inr ⟨by rw [hc]; simp, hno ?_, hdn, Or.inl ht⟩
      rintro ⟨_, hr⟩
      rw [← equals_iff hq] at hr; simp at hr
    · exact Or.inr ⟨by rw [hc]; simp, hno (by rintro ⟨h, _⟩; rw [hp] at h; simp at h), hdn, Or.inr ⟨ht, hrt⟩⟩
    · exact Or.inr ⟨by rw [hc]; simp, hno (by rintro ⟨h, _⟩; rw [hp] at h; simp at h), hdn, Or.inl ht⟩

theorem pay_exact {s b pool sb dons r} (hsb : summarize s b pool = .ok sb)
    (hd : getDonations b pool = .ok dons)
    (hr1 : (sb.type = .okPool ∨ sb.type = .okPoolBls) → sb.reward = some r)
    (hr2 : sb.type ≠ .okPool → sb.type ≠ .okPoolBls → r = 0) :
    ∃ x, Uncredited b pool x ∧
      r + (dons.map (·.amount)).sum + x = (b.events.ether.map (·.amount)).sum +
        ((if sb.type = .okPool ∨ sb.type = .okPoolBls then [sb] else []).map vanillaReward).sum := by
  rcases builder_cases hsb hd with ⟨hc, ht, hdn⟩ | ⟨a, ha, ht, hrt, hrew, he, hdn⟩ | ⟨hc, hno, hdn, ht⟩
  · refine ⟨_, .missed hc, ?_⟩
    rw [hdn, hr2 (by rw [ht]; simp) (by rw [ht]; simp)]
    simp [ht]
  · refine ⟨_, .twins ha he, ?_⟩
    have hr := hr1 ht
    rw [hrew, Option.some.injEq] at hr
    rw [if_pos ht, hdn, sum_filter_split b.events.ether a]
    simp only [vanillaReward, hrt, List.map_cons, List.map_nil, List.sum_cons, List.sum_nil]
    rw [← hr]
    ring
  · refine ⟨_, .nothing hc hno, ?_⟩
    rw [hdn]
    rcases ht with ht | ⟨ht, hrt⟩
    · rw [hr2 (by rw [ht]; simp) (by rw [ht]; simp)]
      simp [ht]
    · rw [if_pos ht]
      simp [vanillaReward, hrt, hr1 ht]
      ring

section
variable {E : Env} (hE : ValidEnv E) (hX : ExactEnv E) (hC : NoSelfConsol E)
include hE hX hC

theorem slot_exact {o o' : Oracle} {b : FullBlock} {n : Nat} (hs : MapOK o.st)
    (h : advanceState E o b = .ok (o', some n)) :
    MapOK o'.st ∧ ∃ x, Uncredited b o.cfg.poolAddr x ∧
      received o'.st - owed o'.st = received o.st - owed o.st + x := by
  obtain ⟨sb, dons, r, ops, k1, k2, k3, k4, hp, hr, hc, _⟩ := slot_runs (x := False) hE hX hC hs
    (fun hf => hf.elim) h
  obtain ⟨sb', dons', p, m, w, q1, q2, hrec, _, q5, _⟩ := slot_frame h
  rw [k1, Except.ok.injEq] at q1
  rw [k2, Except.ok.injEq] at q2
  subst q1 q2
  have e0 : o'.st.proposed = o.st.proposed ++ p := by
    have := congrArg State.proposed q5; exact this
  have e1 : o'.st.ether = o.st.ether ++ b.events.ether := by
    have := congrArg State.ether q5; exact this
  have e2 : o'.st.subs = o.st.subs ++ b.events.subs := by
    have := congrArg State.subs q5; exact this
  obtain ⟨x, hx, hb⟩ := pay_exact k1 k2 k3 k4
  refine ⟨hp.sorted hs, x, hx, ?_⟩
  rw [owed_bal, owed_bal, hp.total hs, hr]
  unfold received
  rw [e0, e1, e2, hrec.prop]
  simp only [List.map_append, List.sum_append]
  linarith

/-- **C02**, for every history. What the pool received is what it owes plus, for every block, the payments that were
credited to nobody: those that equal the payment of the builder, but for one. Nothing else is ever lost, and nothing
is promised that did not arrive. -/
theorem C02_exact {cfg : Config} {bs : List FullBlock} {o' : Oracle} (h : Hist E (newOracle cfg) bs o') :
    ∃ xs, List.Forall₂ (fun b x => Uncredited b cfg.poolAddr x) bs xs ∧ received o'.st = owed o'.st + xs.sum := by
  have key : ∀ {o bs o'}, Hist E o bs o' → MapOK o.st →
      ∃ xs, List.Forall₂ (fun b x => Uncredited b o.cfg.poolAddr x) bs xs ∧
        received o'.st - owed o'.st = received o.st - owed o.st + xs.sum := by
    intro o bs o' h
    induction h with
    | nil => intro _; exact ⟨[], .nil, by simp⟩
    | @cons o b o1 n bs o2 hs _ ih =>
      intro m
      obtain ⟨m1, x, hx, e⟩ := slot_exact hE hX hC m hs
      obtain ⟨xs, hxs, e'⟩ := ih m1
      have hcfg : o1.cfg.poolAddr = o.cfg.poolAddr := by
        obtain ⟨_, _, _, _, _, _, _, _, h3, _⟩ := slot_frame hs
        rw [h3]
      rw [hcfg] at hxs
      refine ⟨x :: xs, .cons hx hxs, ?_⟩
      simp only [List.sum_cons]
      linarith
  obtain ⟨xs, h1, h2⟩ := key h List.Pairwise.nil
  refine ⟨xs, h1, ?_⟩
  have : received (newOracle cfg).st - owed (newOracle cfg).st = 0 := rfl
  linarith

omit hE hX hC in
theorem sum_nonneg_of {l : List EtherEvent} (h : ∀ e ∈ l, 0 ≤ e.amount) :
    0 ≤ (l.map (·.amount)).sum ∧ ((l.map (·.amount)).sum = 0 ↔ ∀ e ∈ l, e.amount = 0) := by
  induction l with
  | nil => simp
  | cons e l ih =>
    obtain ⟨h1, h2⟩ := ih fun x hx => h x (by simp [hx])
    have h3 := h e (by simp)
    simp only [List.map_cons, List.sum_cons, List.mem_cons, forall_eq_or_imp, ← h2]
    constructor
    · omega
    · omega

omit hE hX hC in
theorem builderPaid_unique {b : FullBlock} {pool : Str} {a a' : Int} (h : BuilderPaid b pool a)
    (h' : BuilderPaid b pool a') : a = a' := by
  rcases h with ⟨k, _, e⟩ | ⟨tx, d, k, _, e⟩ <;> rcases h' with ⟨k', _, e'⟩ | ⟨tx', d', k', _, e'⟩
  · rw [e, e']
  · exact absurd k k'.1
  · exact absurd k' k.1
  · obtain ⟨_, _, _, _, l1, _⟩ := k
    obtain ⟨_, _, _, _, l2, _⟩ := k'
    obtain ⟨q1, _, _⟩ := lastTx_unique l1 l2
    rw [e, e', q1]

omit hE hX hC in
/-- with no negative payment, what is credited to nobody is not negative, and zero exactly if all is credited -/
theorem uncredited_nonneg {b : FullBlock} {pool : Str} {x : Int} (h0 : ∀ e ∈ b.events.ether, 0 ≤ e.amount)
    (h : Uncredited b pool x) : 0 ≤ x ∧ (x = 0 ↔ AllCredited b pool) := by
  cases h with
  | missed hc =>
    obtain ⟨h1, h2⟩ := sum_nonneg_of h0
    refine ⟨h1, h2.trans ⟨fun h => ⟨fun _ => h, ?_⟩, fun h => h.1 hc⟩⟩
    rintro a (⟨⟨_, ⟨c, h1, _⟩, _⟩, _⟩ | ⟨tx, d, ⟨_, c, _, h1, _⟩, _⟩) <;> rw [hc] at h1 <;> simp at h1
  | @twins a ha he =>
    obtain ⟨e, he, hea⟩ := he
    have h1 : 0 ≤ a := by rw [← hea]; exact h0 e he
    have h2 : 0 < (b.events.ether.filter fun e => e.amount = a).length :=
      List.length_pos_of_mem (List.mem_filter.mpr ⟨he, by simpa using hea⟩)
    refine ⟨mul_nonneg h1 (by omega), ?_⟩
    rw [mul_eq_zero]
    constructor
    · intro h
      refine ⟨fun hc => ?_, ?_⟩
      · exfalso
        rcases ha with ⟨⟨_, ⟨c, k, _⟩, _⟩, _⟩ | ⟨tx, d, ⟨_, c, _, k, _⟩, _⟩ <;> rw [hc] at k <;> simp at k
      · intro a' ha' hne
        have := builderPaid_unique ha ha'
        subst this
        rcases h with h | h
        · exact absurd h hne
        · omega
    · intro h
      by_cases hz : a = 0
      · exact Or.inl hz
      · have := h.2 a ha hz
        right; omega
  | nothing hc hno => exact ⟨le_refl _, ⟨fun _ => ⟨fun h => absurd h hc, fun a ha => absurd ha (hno a)⟩, fun _ => rfl⟩⟩

/-- **C02**, exactly when it holds. If no payment is negative, the books balance after a history if and only if every
payment of every block is credited; and exactly then the off-chain reconciliation succeeds. -/
theorem C02_balanced_iff {cfg : Config} {bs : List FullBlock} {o' : Oracle}
    (hb : ∀ b ∈ bs, ∀ e ∈ b.events.ether, 0 ≤ e.amount) (h : Hist E (newOracle cfg) bs o') :
    (owed o'.st = received o'.st ↔ ∀ b ∈ bs, AllCredited b cfg.poolAddr) ∧
    ∀ t, (offchainReconciliation E t o'.st = .ok true ↔ ∀ b ∈ bs, AllCredited b cfg.poolAddr) := by
  obtain ⟨xs, h1, h2⟩ := C02_exact hE hX hC h
  have key : 0 ≤ xs.sum ∧ (xs.sum = 0 ↔ ∀ b ∈ bs, AllCredited b cfg.poolAddr) := by
    clear h2 h
    induction h1 with
    | nil => simp
    | @cons b x bs xs hx _ ih =>
      obtain ⟨k1, k2⟩ := ih fun c hc => hb c (by simp [hc])
      obtain ⟨k3, k4⟩ := uncredited_nonneg (hb b (by simp)) hx
      simp only [List.sum_cons, List.mem_cons, forall_eq_or_imp, ← k2, ← k4]
      constructor
      · omega
      · omega
  have hr : ∀ b ∈ o'.st.proposed, b.reward ≠ none := by
    have : ∀ {o bs o'}, Hist E o bs o' → (∀ b ∈ o.st.proposed, b.reward ≠ none) → ∀ b ∈ o'.st.proposed, b.reward ≠ none := by
      intro o bs o' h
      induction h with
      | nil => intro h; exact h
      | cons hs _ ih => intro h; exact ih (slot_rewards hs h)
    exact this h (by intro b hb; cases hb)
  have h3 : owed o'.st = received o'.st ↔ ∀ b ∈ bs, AllCredited b cfg.poolAddr := by
    rw [← key.2]; omega
  refine ⟨h3, fun t => ?_⟩
  rw [offchain_eq hE t hr, ← h3]
  simp

end

/-- **C03**, with nothing asked of the block. The payments of a processed block are divided into the reward of the
recorded proposal (one payment, if the builder paid the pool, and none otherwise), the recorded donations, and those
credited to nobody. Those credited to nobody all have the amount of the builder's payment, unless the block was missed;
no donation has it. What the pool owes grows by exactly the payments, but for those credited to nobody, the collaterals
and the vanilla reward of the recorded proposal. -/
theorem C03_exact {E : Env} (hE : ValidEnv E) (hX : ExactEnv E) (hC : NoSelfConsol E) {o o' : Oracle}
    {b : FullBlock} {n : Nat} (hs : MapOK o.st) (h : advanceState E o b = .ok (o', some n)) :
    ∃ mev dons lost p, b.events.ether.Perm (mev ++ (dons ++ lost)) ∧
      o'.st.donations = o.st.donations ++ dons ∧ o'.st.proposed = o.st.proposed ++ p ∧
      ((b.cons = none ∧ mev = [] ∧ dons = [] ∧ p = []) ∨
        (b.cons ≠ none ∧ (∀ a, ¬ BuilderPaid b o.cfg.poolAddr a) ∧ mev = [] ∧ lost = [] ∧
          ∀ sb ∈ p, sb.rewardType ≠ .mev) ∨
        ∃ e sb, BuilderPaid b o.cfg.poolAddr e.amount ∧ mev = [e] ∧ p = [sb] ∧ sb.rewardType = .mev ∧
          sb.reward = some e.amount ∧ (∀ x ∈ lost, x.amount = e.amount) ∧ ∀ x ∈ dons, x.amount ≠ e.amount) ∧
      owed o'.st + (lost.map (·.amount)).sum = owed o.st + ((b.events.ether.map (·.amount)).sum +
        (b.events.subs.map (·.collateral)).sum + (p.map vanillaReward).sum) := by
  obtain ⟨sb, dons, r, ops, k1, k2, k3, k4, hp, hr, hc, _⟩ := slot_runs (x := False) hE hX hC hs
    (fun hf => hf.elim) h
  obtain ⟨sb', dons', p, m, w, q1, q2, hrec, _, q5, _⟩ := slot_frame h
  rw [k1, Except.ok.injEq] at q1
  rw [k2, Except.ok.injEq] at q2
  subst q1 q2
  have e0 : o'.st.proposed = o.st.proposed ++ p := by
    have := congrArg State.proposed q5; exact this
  have e1 : o'.st.donations = o.st.donations ++ dons := by
    have := congrArg State.donations q5; exact this
  have hprop := hrec.prop
  have money : owed o'.st = owed o.st + (r + (dons.map (·.amount)).sum + (b.events.subs.map (·.collateral)).sum) := by
    rw [owed_bal, owed_bal, hp.total hs, hr]
    ring
  rcases builder_cases k1 k2 with ⟨hc, ht, hdn⟩ | ⟨a, ha, ht, hrt, hrew, ⟨e, he, hea⟩, hdn⟩ | ⟨hc, hno, hdn, ht⟩
  · have hp0 : p = [] := by rw [hprop, ht]; simp
    refine ⟨[], dons, b.events.ether, p, by rw [hdn]; exact .refl _, e1, e0, Or.inl ⟨hc, rfl, hdn, hp0⟩, ?_⟩
    rw [money, hdn, hp0, k4 (by rw [ht]; simp) (by rw [ht]; simp)]
    simp only [List.map_nil, List.sum_nil]
    ring
  · subst hea
    have hmem : e ∈ b.events.ether.filter fun x => x.amount = e.amount := List.mem_filter.mpr ⟨he, by simp⟩
    rw [if_pos ht] at hprop
    have hperm : b.events.ether.Perm ([e] ++ (dons ++ (b.events.ether.filter fun x => x.amount = e.amount).erase e)) := by
      have h1 := (List.filter_append_perm (fun x : EtherEvent => decide (x.amount = e.amount)) b.events.ether).symm
      have h2 := List.perm_cons_erase hmem
      rw [hdn]
      refine h1.trans (((h2.append_right _)).trans ?_)
      simp only [List.cons_append, List.nil_append, List.perm_cons]
      refine List.perm_append_comm.trans (List.Perm.append_right _ ?_)
      simp
    refine ⟨[e], dons, (b.events.ether.filter fun x => x.amount = e.amount).erase e, p, hperm, e1, e0,
      Or.inr (Or.inr ⟨e, sb, ha, rfl, hprop, hrt, hrew, ?_, ?_⟩), ?_⟩
    · intro x hx
      have := (List.mem_filter.mp (List.mem_of_mem_erase hx)).2
      simpa using this
    · intro x hx
      rw [hdn] at hx
      have := (List.mem_filter.mp hx).2
      simpa using this
    · have hr := k3 ht
      rw [hrew, Option.some.injEq] at hr
      have hsum := (hperm.map (·.amount)).sum_eq
      simp only [List.map_append, List.sum_append, List.map_cons, List.map_nil, List.sum_cons, List.sum_nil] at hsum
      rw [money, hprop, hsum, ← hr]
      simp only [vanillaReward, hrt, List.map_cons, List.map_nil, List.sum_cons, List.sum_nil]
      ring
  · refine ⟨[], dons, [], p, by rw [hdn]; simp, e1, e0, Or.inr (Or.inl ⟨hc, hno, rfl, rfl, ?_⟩), ?_⟩
    · rw [hprop]
      rcases ht with ht | ⟨ht, hrt⟩
      · rw [ht]; simp
      · rw [if_pos ht]
        intro x hx
        rw [List.mem_singleton.mp hx, hrt]; simp
    · rw [money, hprop, hdn]
      rcases ht with ht | ⟨ht, hrt⟩
      · rw [k4 (by rw [ht]; simp) (by rw [ht]; simp)]
        simp [ht]
      · rw [if_pos ht]
        simp [vanillaReward, hrt, k3 ht]
        ring

/-- The block with the twin payment: one of the two payments of 5000 is the reward, there is no donation, and the other
one is credited to nobody. -/
example : ∃ o' n, advanceState Sample.env (newOracle Sample.cfg) twinBlock = .ok (o', some n) ∧
    ∃ e x sb, twinBlock.events.ether.Perm [e, x] ∧ x.amount = e.amount ∧ o'.st.proposed = [sb] ∧
      sb.reward = some e.amount ∧ o'.st.donations = [] := by
  obtain ⟨o', n, h1, hl, h2, h3, _⟩ := C03_false_twin_payment
  refine ⟨o', n, h1, ?_⟩
  obtain ⟨mev, dons, lost, p, k1, k2, k3, k4, _⟩ := C03_exact Sample.env_valid Sample.env_exact Sample.env_noSelf
    (o := newOracle Sample.cfg) List.Pairwise.nil h1
  have hd : dons = [] := by rw [h2] at k2; exact (List.append_eq_nil_iff.mp k2.symm).2
  have hp : o'.st.proposed = p := by rw [k3]; rfl
  subst hd
  rcases k4 with ⟨hc, _⟩ | ⟨_, _, hm, hx, _⟩ | ⟨e, sb, _, hm, hpp, _, hrew, hx, _⟩
  · exact absurd hc (by decide)
  · subst hm hx
    have := k1.length_eq
    rw [hl] at this; simp at this
  · subst hm
    have hlen := k1.length_eq
    rw [hl] at hlen
    match lost, hlen, hx, k1 with
    | [x], _, hx, k1 => exact ⟨e, x, sb, k1, hx x (by simp), by rw [hp, hpp], hrew, h2⟩

/-- One block, the builder's 5000 and another payment of 5000: 5000 are credited to nobody. -/
example : ∃ o', Hist Sample.env (newOracle Sample.cfg) [twinBlock] o' ∧ received o'.st = owed o'.st + [(5000 : Int)].sum ∧
    (∀ b ∈ [twinBlock], ∀ e ∈ b.events.ether, 0 ≤ e.amount) ∧ ¬ AllCredited twinBlock Sample.pool := by
  obtain ⟨o', h1, h2, h3, h4⟩ := C02_false_twin_payment
  have hb : ∀ b ∈ [twinBlock], ∀ e ∈ b.events.ether, 0 ≤ e.amount := by decide
  refine ⟨o', h1, by rw [h2, h3]; rfl, hb, fun h => ?_⟩
  have := ((C02_balanced_iff Sample.env_valid Sample.env_exact Sample.env_noSelf hb h1).1.mpr
    (by intro b hb; rw [List.mem_singleton.mp hb]; exact h))
  omega

/-- Four blocks in which every payment is credited. -/
example : (∀ b ∈ Sample.blocks, ∀ e ∈ b.events.ether, 0 ≤ e.amount) ∧ Hist Sample.env (newOracle Sample.cfg) Sample.blocks Sample.final ∧
    ∀ b ∈ Sample.blocks, AllCredited b Sample.pool := by
  have hb : ∀ b ∈ Sample.blocks, ∀ e ∈ b.events.ether, 0 ≤ e.amount := by decide +kernel
  exact ⟨hb, Sample.hist, (C02_balanced_iff Sample.env_valid Sample.env_exact Sample.env_noSelf hb Sample.hist).1.mp
    (by decide +kernel)⟩

end Verif
