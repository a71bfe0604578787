import Verif.Lemmas.Total2
import Verif.Spec.SampleFacts
/-
C41: a block fetched against a state carries what is needed to process it.
C42: what can and what cannot stop the oracle.
-/
namespace Verif
open VMap

/-! ### What a fetched block contains -/

theorem singleValidator_some {C : Chain} {i slot v} (h : singleValidator C i slot = some (some v)) :
    v.index = i := by
  unfold singleValidator at h
  split at h
  · simp at h
  · split at h
    · simp at h
    · split at h
      · simp at h
      · split at h
        · simp at h
        · split at h
          · simp at h
          · rename_i hi
            simp only [Option.some.injEq] at h
            subst h
            simpa using hi

theorem fetchVals_ok {C : Chain} {slot : Nat} {l : List Nat} {vs} (h : fetchVals C slot l = .ok vs) :
    List.Forall₂ (fun i v => singleValidator C i slot = some v) l vs := by
  induction l generalizing vs with
  | nil => simp only [fetchVals, Except.ok.injEq] at h; subst h; exact .nil
  | cons i l ih =>
    simp only [fetchVals] at h
    split at h
    · simp at h
    · rename_i v hv
      simp only [bind_ok, Except.ok.injEq] at h
      obtain ⟨us, hu, rfl⟩ := h
      exact .cons hv (ih hu)

theorem fetchReceipts_ok {C : Chain} {txs : List (Option Tx)} {acc rs : List Receipt}
    (h : fetchReceipts C txs acc = .ok (some rs)) :
    ∃ rs', rs = acc ++ rs' ∧
      List.Forall₂ (fun x r => ∃ tx : Tx, x = some tx ∧ C.receipt tx.hash = some r) txs rs' := by
  induction txs generalizing acc with
  | nil =>
    simp only [fetchReceipts, Except.ok.injEq, Option.some.injEq] at h
    exact ⟨[], by simp [h], .nil⟩
  | cons x txs ih =>
    cases x with
    | none => simp [fetchReceipts] at h
    | some tx =>
      simp only [fetchReceipts] at h
      split at h
      · simp at h
      · rename_i r hr
        obtain ⟨rs', h1, h2⟩ := ih h
        exact ⟨r :: rs', by simp [h1], .cons ⟨tx, rfl, hr⟩ h2⟩

/-- what a fetched block contains -/
structure Fetched (C : Chain) (s : State) (slot : Nat) (all : Bool) (b : FullBlock) (i : Nat) (key : Str) : Prop where
  duty : C.duty slot = some (slot, i, key)
  atSlot : b.dutySlot = slot
  index : b.dutyIndex = i
  atKey : b.dutyKey = key
  atChain : b.chainId = C.chainId
  validator : singleValidator C i slot = some (some b.validator)
  rest : (C.cons slot = some none ∧ b.cons = none ∧ b.events = {} ∧ b.valsSubs = [] ∧ b.valsUnsubs = []) ∨
    ∃ c evs, C.cons slot = some (some c) ∧ b.cons = some c ∧ c.slot = slot ∧ c.proposer = i ∧
      C.events c.number = some evs ∧
      b.events = (if C.chainId = 1 ∧ slot = 10400574 then { evs with ether := evs.ether ++ [exceptionEvent] }
        else evs) ∧
      (∀ e ∈ evs.ether, e.block = c.number) ∧ (∀ e ∈ evs.subs, e.block = c.number) ∧
      (∀ e ∈ evs.unsubs, e.block = c.number) ∧
      List.Forall₂ (fun (e : SubEvent) v => singleValidator C e.validatorId slot = some v) b.events.subs b.valsSubs ∧
      List.Forall₂ (fun (e : UnsubEvent) v => singleValidator C e.validatorId slot = some v) b.events.unsubs b.valsUnsubs ∧
      ((all = true ∨ s.isSubscribed c.proposer = true ∨ PaidPool b C.pool) →
        ∃ h rs, b.header = some h ∧ b.receipts = some rs ∧ C.header c.number = some h ∧ h.number = c.number ∧
          List.Forall₂ (fun x r => ∃ tx : Tx, x = some tx ∧ C.receipt tx.hash = some r) c.txs rs) ∧
      (b.receipts = none ∨ ∃ h rs, b.header = some h ∧ b.receipts = some rs ∧ C.header c.number = some h ∧
        List.Forall₂ (fun x r => ∃ tx : Tx, x = some tx ∧ C.receipt tx.hash = some r) c.txs rs)

theorem mevReward_congr {b b' : FullBlock} (h1 : b'.cons = b.cons) (h2 : b'.events = b.events)
    (h3 : b'.chainId = b.chainId) : mevReward b' = mevReward b := by
  unfold mevReward
  rw [h1, h2, h3]

/-- the receipts are fetched if the fetch decides that the pool is rewarded -/
theorem rewarded_of_paid {b b' : FullBlock} {pool : Str} {x : Bool} (h1 : b'.cons = b.cons)
    (h2 : b'.events = b.events) (h3 : b'.chainId = b.chainId)
    (h : isAddressRewarded b' pool = .ok x) (hp : PaidPool b pool) : x = true := by
  unfold isAddressRewarded at h
  rw [h1] at h
  obtain ⟨c, hc, hp⟩ := hp
  rw [hc] at h
  simp only [bind_ok] at h
  obtain ⟨fr, hfr, isFr, hisFr, h⟩ := h
  have hfr := exec_ok hfr
  subst hfr
  have hiff := equals_iff hisFr
  cases isFr with
  | true => simp only [if_true, Except.ok.injEq] at h; exact h.symm
  | false =>
    simp only [Bool.false_eq_true, if_false, bind_ok] at h
    obtain ⟨m, hm, h⟩ := h
    rw [mevReward_congr h1 h2 h3] at hm
    rcases mevReward_spec (pool := pool) hm with ⟨k1, k2, k3, _⟩ | ⟨tx, d, k1, k2, _, k4⟩ | ⟨k1, k2, k3⟩
    · rw [k2] at h
      simp only [if_true] at h
      rw [equals_iff h, k3]
      rcases hp with hp | ⟨_, _, hp, _⟩ | ⟨hp, _⟩
      · exact hp.2
      · exact absurd k1 hp.1
      · exact absurd k1 hp
    · rw [k2] at h
      simp only [if_true] at h
      rw [equals_iff h, k4]
      rcases hp with hp | ⟨tx', d', hp, ha⟩ | ⟨_, hp, _⟩
      · exact absurd hp.1 k1.1
      · obtain ⟨_, c1, s1, hc1, hl1, _⟩ := k1
        obtain ⟨_, c2, s2, hc2, hl2, _⟩ := hp
        obtain ⟨e1, _, e3⟩ := lastTx_unique hl1 hl2
        rw [e1, e3]; exact ha
      · exact absurd k1 (hp _ _)
    · rcases hp with hp | ⟨_, _, hp, _⟩ | ⟨_, _, hp⟩
      · exact absurd hp.1 k1
      · exact absurd hp (k2 _ _)
      · exact absurd hp (by rw [← hiff]; simp)

theorem fetch_ok {C : Chain} {s : State} {slot : Nat} {all : Bool} {b : FullBlock}
    (h : fetchFullBlock C s slot all = .ok b) : ∃ i key, Fetched C s slot all b i key := by
  unfold fetchFullBlock at h
  split at h
  · simp at h
  · rename_i dslot i key hd
    split at h
    · simp at h
    · rename_i hds
      simp only [ne_eq, not_not] at hds
      subst hds
      split at h
      · simp at h
      · rename_i v hv
        rw [bind_ok] at h
        obtain ⟨b0, hb0, h⟩ := h
        unfold newFullBlock at hb0
        split at hb0
        · simp at hb0
        · rename_i v
          split at hb0
          · simp at hb0
          · simp only [Except.ok.injEq] at hb0
            subst hb0
            refine ⟨i, key, ?_⟩
            split at h
            · simp at h
            · rename_i hcons
              simp only [Except.ok.injEq] at h
              subst h
              exact ⟨hd, rfl, rfl, rfl, rfl, hv, Or.inl ⟨hcons, rfl, rfl, rfl, rfl⟩⟩
            · rename_i c hcons
              simp only [bind_ok] at h
              obtain ⟨b1, hb1, cs, hcs, h⟩ := h
              unfold setConsensus at hb1
              simp only [bind_ok] at hb1
              obtain ⟨sl, hsl, hb1⟩ := hb1
              have hsl := base_ok hsl
              have hcs := base_ok hcs
              subst hsl hcs
              split at hb1
              · simp at hb1
              · rename_i hslot
                simp only [ne_eq, not_not] at hslot
                rw [bind_ok] at hb1
                obtain ⟨pr, hpr, hb1⟩ := hb1
                have hpr := base_ok hpr
                subst hpr
                split at hb1
                · simp at hb1
                · rename_i hprop
                  simp only [ne_eq, not_not] at hprop
                  simp only [Except.ok.injEq] at hb1
                  subst hb1
                  split at h
                  · simp at h
                  · rw [bind_ok] at h
                    obtain ⟨num, hnum, h⟩ := h
                    have hnum := exec_ok hnum
                    subst hnum
                    split at h
                    · simp at h
                    · rename_i evs hevs
                      simp only [bind_ok] at h
                      obtain ⟨b2, hb2, vs, hvs, us, hus, pr, hpr, rew, hrew, h⟩ := h
                      have hpr := base_ok hpr
                      subst hpr
                      unfold setEvents at hb2
                      rw [bind_ok] at hb2
                      obtain ⟨num, hnum, hb2⟩ := hb2
                      have hnum := exec_ok hnum
                      subst hnum
                      split at hb2
                      · simp at hb2
                      · rename_i hq1
                        split at hb2
                        · simp at hb2
                        · rename_i hq2
                          split at hb2
                          · simp at hb2
                          · rename_i hq3
                            rw [bind_ok] at hb2
                            obtain ⟨cs, hcs, hb2⟩ := hb2
                            have hcs := base_ok hcs
                            subst hcs
                            simp only [List.any_eq_true, decide_eq_true_eq, not_exists, not_and, not_not, ne_eq] at hq1 hq2 hq3
                            have hb2' : b2 = FullBlock.mk dslot i key v (some c) none none (if C.chainId = 1 ∧ dslot = 10400574 then { evs with ether := evs.ether ++ [exceptionEvent] } else evs) [] [] C.chainId := by
                              rw [hslot]
                              have e1 : mainnetChainId = 1 := rfl
                              have e2 : exceptionSlot = 10400574 := rfl
                              rw [e1, e2] at hb2
                              split at hb2
                              · rename_i hx
                                simp only [Except.ok.injEq] at hb2
                                rw [if_pos hx, ← hb2, hslot]
                              · rename_i hx
                                simp only [Except.ok.injEq] at hb2
                                rw [if_neg hx, ← hb2, hslot]
                            clear hb2
                            have hf1 := fetchVals_ok hvs
                            have hf2 := fetchVals_ok hus
                            rw [List.forall₂_map_left_iff] at hf1 hf2
                            -- the header and the receipts
                            have hfin : (b = { b2 with valsSubs := vs, valsUnsubs := us } ∧
                                ¬ (all = true ∨ s.isSubscribed c.proposer = true ∨ rew = true)) ∨
                              ∃ h rs, b = { b2 with valsSubs := vs, valsUnsubs := us, header := some h, receipts := some rs } ∧
                                C.header c.number = some h ∧ h.number = c.number ∧
                                List.Forall₂ (fun x r => ∃ tx : Tx, x = some tx ∧ C.receipt tx.hash = some r) c.txs rs := by
                              split at h
                              · right
                                simp only [bind_ok] at h
                                obtain ⟨txs, htxs, hr, hhr, h⟩ := h
                                have htxs := exec_ok htxs
                                subst htxs
                                unfold headerAndReceipts at hhr
                                split at hhr
                                · simp only [Except.ok.injEq] at hhr
                                  subst hhr; simp at h
                                · rename_i hd' hhd
                                  rw [bind_ok] at hhr
                                  obtain ⟨rs, hrs, hhr⟩ := hhr
                                  split at hhr
                                  · simp only [Except.ok.injEq] at hhr
                                    subst hhr; simp at h
                                  · rename_i rs
                                    simp only [Except.ok.injEq] at hhr
                                    subst hhr
                                    dsimp only at h
                                    obtain ⟨rs', e, hfa⟩ := fetchReceipts_ok hrs
                                    simp only [List.nil_append] at e
                                    subst e
                                    unfold setHeaderAndReceipts at h
                                    rw [bind_ok] at h
                                    obtain ⟨num, hnum, h⟩ := h
                                    have hnum := exec_ok hnum
                                    subst hnum
                                    split at h
                                    · simp at h
                                    · rename_i hn
                                      simp only [ne_eq, not_not] at hn
                                      split at h
                                      · simp at h
                                      · simp only [Except.ok.injEq] at h
                                        exact ⟨hd', rs, h.symm, hhd, hn.symm, hfa⟩
                              · rename_i hc
                                left
                                simp only [Except.ok.injEq] at h
                                refine ⟨h.symm, ?_⟩
                                simpa [Bool.or_eq_true, or_assoc] using hc
                            rcases hfin with ⟨e, hno⟩ | ⟨hd', rs, e, k1, k2, k3⟩
                            · subst e hb2'
                              refine ⟨hd, rfl, rfl, rfl, rfl, hv, Or.inr ⟨c, evs, hcons, rfl, hslot.symm, hprop.symm, hevs, rfl, hq1, hq2, hq3, hf1, hf2, ?_, Or.inl rfl⟩⟩
                              intro hc
                              exfalso
                              apply hno
                              rcases hc with hc | hc | hc
                              · exact Or.inl hc
                              · exact Or.inr (Or.inl hc)
                              · exact Or.inr (Or.inr (rewarded_of_paid rfl rfl rfl hrew hc))
                            · subst e hb2'
                              exact ⟨hd, rfl, rfl, rfl, rfl, hv, Or.inr ⟨c, evs, hcons, rfl, hslot.symm, hprop.symm, hevs, rfl, hq1, hq2, hq3, hf1, hf2, fun _ => ⟨hd', rs, rfl, rfl, k1, k2, k3⟩, Or.inr ⟨hd', rs, rfl, rfl, k1, k3⟩⟩⟩

/-- Receipts returned by the execution client belong to the transaction asked for. -/
def HonestReceipts (C : Chain) : Prop := ∀ h r, C.receipt h = some r → r.txHash = h

theorem fetched_receipts {C : Chain} {s : State} {slot : Nat} {all : Bool} {b : FullBlock} {c : ConsBlock}
    (hh : HonestReceipts C) (h : fetchFullBlock C s slot all = .ok b) (hc : b.cons = some c)
    (hn : s.isSubscribed c.proposer = true ∨ PaidPool b C.pool) : HasReceipts b := by
  obtain ⟨i, key, f⟩ := fetch_ok h
  rcases f.rest with ⟨_, h2, _⟩ | ⟨c', evs, _, hc', _, _, _, _, _, _, _, _, _, hrec, _⟩
  · rw [hc] at h2; simp at h2
  · rw [hc, Option.some.injEq] at hc'
    subst hc'
    intro c' hc'
    rw [hc, Option.some.injEq] at hc'
    subst hc'
    obtain ⟨hd, rs, k1, k2, _, _, k5⟩ := hrec (Or.inr hn)
    refine ⟨hd, rs, k1, k2, k5.imp ?_⟩
    rintro x r ⟨tx, rfl, hr⟩
    exact ⟨tx, rfl, hh _ _ hr⟩

/-- **C41.** A block fetched for a state carries the header and one matching receipt per transaction
whenever its proposer is subscribed in that state or its reward went to the pool. -/
theorem C41_receipts_fetched {C : Chain} {s : State} {slot : Nat} {all : Bool} {b : FullBlock} {c : ConsBlock}
    (hh : HonestReceipts C) (h : fetchFullBlock C s slot all = .ok b) (hc : b.cons = some c)
    (hn : (∃ v, VMap.get s.vals c.proposer = some v ∧ Subscribed v.status) ∨ PaidPool b C.pool) :
    HasReceipts b := by
  refine fetched_receipts hh h hc ?_
  rcases hn with ⟨v, hv, hs⟩ | hn
  · left
    unfold State.isSubscribed
    rw [hv]
    rcases hs with e | e | e <;> simp [e]
  · exact Or.inr hn

/-- **C41.** So the reward of a readable block can be computed: the summary does not abort and its
reward is there. -/
theorem C41_summary_succeeds {C : Chain} {s : State} {slot : Nat} {all : Bool} {b : FullBlock}
    (hh : HonestReceipts C) (h : fetchFullBlock C s slot all = .ok b) (hr : Readable b C.pool) :
    ∃ sb, summarize s b C.pool = .ok sb ∧ sb.reward ≠ none := by
  obtain ⟨sb, h1, h2, _⟩ := summarize_total (s := s) hr (fun c hc hn => fetched_receipts hh h hc hn)
  exact ⟨sb, h1, h2⟩

/-- A fetched missed slot carries no events, so the assumption made for conservation of money holds
for everything the oracle fetches. -/
theorem C41_missed_without_payments {C : Chain} {s : State} {slot : Nat} {all : Bool} {b : FullBlock}
    (h : fetchFullBlock C s slot all = .ok b) : NoPaymentsIfMissed b := by
  intro hc
  obtain ⟨i, key, f⟩ := fetch_ok h
  rcases f.rest with ⟨_, _, h3, _⟩ | ⟨c, _, _, h2, _⟩
  · rw [h3]
  · rw [hc] at h2; simp at h2

/-! ### C42 -/

/-- **C42** (partial). A block that follows the rules of the chain is processed: no Fatal, no panic, no
error. What is missing from the full claim are the conditions `PaymentReported` (see
`C42_false_silent_payment`) and `ConfigOK` (the pool's owner can stop every oracle by changing the
configuration), and the clients have to answer. -/
theorem C42_block_processed_partial {E : Env} (hE : ValidEnv E) (hX : ExactEnv E) (hN : GoodNode E)
    (hB : SaneBalances E) (hG : GoodConsol E) {o : Oracle} {b : FullBlock} (hs : MapOK o.st)
    (hn : NonNeg o.st) (hf0 : 0 ≤ o.st.fee) (hf : o.st.fee ≤ 10000)
    (hpf : PostFork1 o.cfg.network o.st.nextSlot)
    (hslot : o.st.nextSlot = u64 (o.st.latestSlot + 1)) (hb : b.dutySlot = o.st.nextSlot)
    (hr : Readable b o.cfg.poolAddr) (hrec : HasReceipts b)
    (hev : EventsOK b) (hcfg : ConfigOK o.cfg b.dutySlot b.events)
    (hpr : PaymentReported b o.cfg.poolAddr) (hdon : DonationsOneBlock b o.cfg.poolAddr)
    (hp : NonNegPayments b) (hg : GasOK b) :
    ∃ o' n, advanceState E o b = .ok (o', some n) :=
  advanceState_total hE hX hN hG hs hn hf0 hf hpf hB hslot hb hr (fun _ _ _ => hrec) hev hcfg hpr
    hdon hp hg

section honest
variable {C : Chain} {cfg : Config} (hH : HonestChain C cfg)
include hH

theorem single_total (i slot : Nat) : ∃ v, singleValidator C i slot = some v := by
  unfold singleValidator
  rcases hH.validators i slot with h | ⟨v, h, hi, _⟩
  · rw [h]; exact ⟨none, rfl⟩
  · rw [h]
    refine ⟨some v, ?_⟩
    simp [hi]

theorem fetchVals_total (slot : Nat) (l : List Nat) : ∃ vs, fetchVals C slot l = .ok vs := by
  induction l with
  | nil => exact ⟨[], rfl⟩
  | cons i l ih =>
    obtain ⟨v, hv⟩ := single_total hH i slot
    obtain ⟨vs, hvs⟩ := ih
    simp only [fetchVals, hv]
    exact ⟨v :: vs, by rw [hvs]; rfl⟩

omit hH in
theorem fetchReceipts_total {txs : List (Option Tx)} {n : Nat}
    (h1 : ∀ x ∈ txs, ∃ tx : Tx, x = some tx ∧ tx.type ≤ 4)
    (h2 : ∀ tx, some tx ∈ txs → ∃ r, C.receipt tx.hash = some r ∧ r.txHash = tx.hash ∧ r.block = n)
    (acc : List Receipt) (ha : ∀ r ∈ acc, r.block = n) :
    ∃ rs, fetchReceipts C txs acc = .ok (some rs) ∧ ∀ r ∈ rs, r.block = n := by
  induction txs generalizing acc with
  | nil => exact ⟨acc, rfl, ha⟩
  | cons x txs ih =>
    obtain ⟨tx, rfl, _⟩ := h1 x (by simp)
    obtain ⟨r, hr, _, hb⟩ := h2 tx (by simp)
    simp only [fetchReceipts, hr]
    refine ih (fun x hx => h1 x (by simp [hx])) (fun t ht => h2 t (by simp [ht])) _ ?_
    intro r' hr'
    rcases List.mem_append.mp hr' with h | h
    · exact ha _ h
    · rw [List.mem_singleton] at h; rw [h]; exact hb

omit hH in
theorem isAddressRewarded_total {b : FullBlock} {c : ConsBlock} {pool : Str} (h : Readable b pool)
    (hc : b.cons = some c) : ∃ x, isAddressRewarded b pool = .ok x := by
  unfold isAddressRewarded
  rw [hc]
  dsimp only
  rw [exec_total _ (h.fork c hc)]
  dsimp only [bind, Except.bind]
  rw [equals_of_length (by rw [h.feeRecipient c hc, h.pool])]
  dsimp only
  split
  · exact ⟨_, rfl⟩
  · obtain ⟨m, hm, hl⟩ := mevReward_total h hc
    rw [hm]
    dsimp only
    split
    · rename_i hp
      rw [equals_of_length (by rw [hl hp, h.pool])]
      exact ⟨_, rfl⟩
    · exact ⟨_, rfl⟩

/-- whatever is fetched from an honest chain is readable -/
theorem readable_of {slot i : Nat} {b : FullBlock} (hch : b.chainId = C.chainId)
    (hv : b.validator.creds.length = 32)
    (hc : b.cons = none ∧ b.events = {} ∨ ∃ c evs, b.cons = some c ∧ GoodBlock C cfg slot i c ∧
      C.events c.number = some evs ∧
      b.events = (if C.chainId = 1 ∧ slot = 10400574 then { evs with ether := evs.ether ++ [exceptionEvent] } else evs)) :
    Readable b C.pool := by
  have hcc : ∀ c, b.cons = some c → GoodBlock C cfg slot i c := by
    intro c h
    rcases hc with ⟨h2, _⟩ | ⟨c', _, h2, h3, _⟩
    · rw [h] at h2; simp at h2
    · rw [h, Option.some.injEq] at h2; rw [h2]; exact h3
  refine ⟨hv, by rw [hH.pool.1]; exact hH.pool.2, by rw [hch]; exact hH.chain,
    fun c h => (hcc c h).fork, fun c h => (hcc c h).txs, fun c tx h => (hcc c h).sender tx,
    fun c tx d h => (hcc c h).dest tx d, fun c h => (hcc c h).feeRecipient, ?_⟩
  intro e he
  rcases hc with ⟨_, h2⟩ | ⟨c, evs, h1, hg, h3, h4⟩
  · rw [h2] at he; simp at he
  · obtain ⟨evs', k1, k2, _⟩ := hg.events
    rw [h3, Option.some.injEq] at k1
    subst k1
    rw [h4] at he
    split at he
    · simp only [List.mem_append, List.mem_singleton] at he
      rcases he with he | he
      · exact (k2.ether e he).2.1
      · rw [he]; rfl
    · exact (k2.ether e he).2.1

/-- fetching from an honest chain succeeds -/
theorem fetch_total (s : State) (slot : Nat) (all : Bool) : ∃ b, fetchFullBlock C s slot all = .ok b := by
  obtain ⟨i, key, v, hd, hv, hcons⟩ := hH.slots slot
  obtain ⟨hvi, hvc⟩ : v.index = i ∧ v.creds.length = 32 := by
    rcases hH.validators i slot with h | ⟨v', h, h1, h2⟩
    · rw [hv] at h; simp at h
    · rw [hv] at h; simp at h; rw [h]; exact ⟨h1, h2⟩
  have hsv : singleValidator C i slot = some (some v) := by
    unfold singleValidator; rw [hv]; simp [hvi]
  unfold fetchFullBlock
  rw [hd]
  dsimp only
  rw [if_neg (by simp), hsv]
  dsimp only [newFullBlock]
  rw [if_neg (by rw [hvi]; simp)]
  dsimp only [bind, Except.bind]
  rcases hcons with h | ⟨c, h, hg⟩
  · rw [h]; exact ⟨_, rfl⟩
  · rw [h]
    dsimp only [setConsensus]
    have hf := hg.fork
    obtain ⟨evs, e1, e2, e3⟩ := hg.events
    rw [base_total _ hf]
    dsimp only [bind, Except.bind]
    rw [if_neg (by rw [hg.atSlot]; simp), base_total _ hf]
    dsimp only
    rw [if_neg (by rw [hg.proposer]; simp)]
    dsimp only
    rw [if_neg (by rw [hg.atSlot]; simp), exec_total _ hf]
    dsimp only
    rw [e1]
    dsimp only [setEvents, bind, Except.bind]
    rw [exec_total _ hf]
    dsimp only
    rw [if_neg (by
        simp only [List.any_eq_true, decide_eq_true_eq, not_exists, not_and, not_not, ne_eq]
        exact fun e he => (e2.ether e he).1), if_neg (by
        simp only [List.any_eq_true, decide_eq_true_eq, not_exists, not_and, not_not, ne_eq]
        exact fun e he => (e2.subs e he).1), if_neg (by
        simp only [List.any_eq_true, decide_eq_true_eq, not_exists, not_and, not_not, ne_eq]
        exact fun e he => (e2.unsubs e he).1), base_total _ hf]
    dsimp only
    have finish : ∀ b2 : FullBlock, b2.cons = some c → b2.chainId = C.chainId → b2.validator = v →
        b2.events = (if C.chainId = 1 ∧ slot = 10400574 then { evs with ether := evs.ether ++ [exceptionEvent] } else evs) →
        ∃ b, (do
              let vs ← fetchVals C slot (b2.events.subs.map (·.validatorId))
              let us ← fetchVals C slot (b2.events.unsubs.map (·.validatorId))
              let b3 := { b2 with valsSubs := vs, valsUnsubs := us }
              let proposer ← c.base (·.proposer)
              let rewarded ← isAddressRewarded b3 C.pool
              if all || (s.isSubscribed proposer || rewarded) then do
                let txs ← c.exec (·.txs)
                match ← headerAndReceipts C c.number txs with
                | none => .error .fatal
                | some (h, rs) => setHeaderAndReceipts b3 c h rs
              else .ok b3 : M FullBlock) = .ok b := by
      intro b2 k1 k2 k3 k4
      obtain ⟨vs, hvs⟩ := fetchVals_total hH slot (b2.events.subs.map (·.validatorId))
      obtain ⟨us, hus⟩ := fetchVals_total hH slot (b2.events.unsubs.map (·.validatorId))
      have hread : Readable { b2 with valsSubs := vs, valsUnsubs := us } C.pool :=
        readable_of hH k2 (by dsimp only; rw [k3]; exact hvc) (Or.inr ⟨c, evs, k1, hg, e1, k4⟩)
      obtain ⟨rw', hrw⟩ := isAddressRewarded_total hread k1
      rw [hvs, hus]
      dsimp only [bind, Except.bind]
      rw [base_total _ hf, hrw]
      dsimp only
      split
      · rw [exec_total _ hf]
        dsimp only [headerAndReceipts]
        obtain ⟨hd, h1, h2, _⟩ := hg.header
        rw [h1]
        obtain ⟨rs, hrs, hrsb⟩ := fetchReceipts_total hg.txs hg.receipts [] (by simp)
        dsimp only
        rw [hrs]
        dsimp only [bind, Except.bind, setHeaderAndReceipts]
        rw [exec_total _ hf]
        dsimp only
        rw [if_neg (by rw [h2]; simp), if_neg]
        · exact ⟨_, rfl⟩
        · cases rs with
          | nil => simp
          | cons r rs => simp [hrsb r (by simp)]
      · exact ⟨_, rfl⟩
    have e1' : mainnetChainId = 1 := rfl
    have e2' : exceptionSlot = 10400574 := rfl
    rw [e1', e2', hg.atSlot]
    by_cases hx : C.chainId = 1 ∧ slot = 10400574
    · rw [if_pos hx]
      have := finish { dutySlot := slot, dutyIndex := i, dutyKey := key, validator := v, cons := some c, header := none, receipts := none, events := { evs with ether := evs.ether ++ [exceptionEvent] }, valsSubs := [], valsUnsubs := [], chainId := C.chainId } rfl rfl rfl (by rw [if_pos hx])
      simp only [base_total _ hf, bind, Except.bind] at this ⊢
      exact this
    · rw [if_neg hx]
      have := finish { dutySlot := slot, dutyIndex := i, dutyKey := key, validator := v, cons := some c, header := none, receipts := none, events := evs, valsSubs := [], valsUnsubs := [], chainId := C.chainId } rfl rfl rfl (by rw [if_neg hx])
      simp only [base_total _ hf, bind, Except.bind] at this ⊢
      exact this

omit hH in
theorem forall2_mem {α β : Type} {P Q : α → β → Prop} {l : List α} {l' : List β} (h : List.Forall₂ P l l')
    (hi : ∀ a b, a ∈ l → P a b → Q a b) : List.Forall₂ Q l l' := by
  induction h with
  | nil => exact .nil
  | cons h1 _ ih => exact .cons (hi _ _ (by simp) h1) (ih fun a b ha => hi a b (by simp [ha]))

omit hH in
theorem allSame_map {α : Type} {l : List α} {f : α → Nat} {n : Nat} (h : ∀ x ∈ l, f x = n) : AllSame (l.map f) := by
  intro x hx y hy
  obtain ⟨a, ha, rfl⟩ := List.mem_map.mp hx
  obtain ⟨b, hb, rfl⟩ := List.mem_map.mp hy
  rw [h a ha, h b hb]

/-- everything needed to process a block fetched from an honest chain -/
theorem fetched_honest {s : State} {slot : Nat} {b : FullBlock} (h : fetchFullBlock C s slot false = .ok b) :
    b.dutySlot = slot ∧ Readable b cfg.poolAddr ∧
    (∀ c, b.cons = some c → s.isSubscribed c.proposer = true ∨ PaidPool b cfg.poolAddr → HasReceipts b) ∧
    EventsOK b ∧ ConfigOK cfg slot b.events ∧ PaymentReported b cfg.poolAddr ∧
    DonationsOneBlock b cfg.poolAddr ∧ NonNegPayments b ∧ GasOK b := by
  obtain ⟨i, key, f⟩ := fetch_ok h
  obtain ⟨i', key', v, hd, hv, hcons⟩ := hH.slots slot
  have hi : i' = i := by
    have := f.duty; rw [hd] at this; simp at this; exact this.1
  subst hi
  have hcr : b.validator.creds.length = 32 := by
    have := f.validator
    unfold singleValidator at this
    rcases hH.validators i' slot with h | ⟨v', h, h1, h2⟩
    · rw [hv] at h; simp at h
    · rw [h] at this
      simp [h1] at this
      rw [← this]; exact h2
  rw [← hH.pool.1]
  rcases f.rest with ⟨h1, h2, h3, h4, h5⟩ | ⟨c, evs, h1, h2, h3, h4, h5, h6, h7, h8, h9, h10, h11, h12, h13⟩
  · refine ⟨f.atSlot, readable_of hH (slot := slot) (i := i') f.atChain hcr (Or.inl ⟨h2, h3⟩), ?_, ?_, ?_, ?_, ?_, ?_, ?_⟩
    · intro c hc; rw [h2] at hc; simp at hc
    · refine ⟨?_, ?_, ?_, ?_, ?_, ?_⟩
      · rw [h3]; intro x hx; simp at hx
      · rw [h3]; intro x hx; simp at hx
      · rw [h3]; intro x hx; simp at hx
      · rw [h3]; intro x hx; simp at hx
      · rw [h3, h4]; exact .nil
      · rw [h3, h5]; exact .nil
    · rw [h3]; exact ⟨Or.inl rfl, Or.inl rfl, Or.inl rfl, Or.inl rfl⟩
    · refine ⟨?_, ?_⟩
      · rintro tx d ⟨_, c, _, hc, _⟩; rw [h2] at hc; simp at hc
      · rintro ⟨_, ⟨c, hc, _⟩, _⟩; rw [h2] at hc; simp at hc
    · left; rw [h3]; intro x hx; simp at hx
    · refine ⟨?_, ?_⟩ <;> (rw [h3]; intro e he; simp at he)
    · intro c _ _ hc; rw [h2] at hc; simp at hc
  · have hg : GoodBlock C cfg slot i' c := by
      rcases hcons with h | ⟨c', h, hg⟩
      · rw [h1] at h; simp at h
      · rw [h1] at h; simp at h; rw [h]; exact hg
    obtain ⟨evs', e1, e2, e3⟩ := hg.events
    rw [h5, Option.some.injEq] at e1
    subst e1
    have hread : Readable b C.pool := readable_of hH f.atChain hcr (Or.inr ⟨c, evs, h2, hg, h5, h6⟩)
    have hsubs : b.events.subs = evs.subs := by rw [h6]; split <;> rfl
    have hunsubs : b.events.unsubs = evs.unsubs := by rw [h6]; split <;> rfl
    have hbans : b.events.bans = evs.bans := by rw [h6]; split <;> rfl
    have hunbans : b.events.unbans = evs.unbans := by rw [h6]; split <;> rfl
    have hether : ∀ e ∈ evs.ether, e ∈ b.events.ether := by
      intro e he; rw [h6]; split
      · simp [he]
      · exact he
    refine ⟨f.atSlot, hread, ?_, ?_, ?_, ?_, ?_, ?_, ?_⟩
    · intro c' hc' hn
      rw [h2, Option.some.injEq] at hc'
      subst hc'
      intro c' hc'
      rw [h2, Option.some.injEq] at hc'
      subst hc'
      obtain ⟨hd', rs, k1, k2, _, _, k5⟩ := h12 (Or.inr hn)
      refine ⟨hd', rs, k1, k2, forall2_mem k5 ?_⟩
      rintro x r hx ⟨tx, rfl, hr⟩
      obtain ⟨r', q1, q2, _⟩ := hg.receipts tx hx
      rw [hr, Option.some.injEq] at q1
      subst q1
      exact ⟨tx, rfl, q2⟩
    · refine ⟨?_, ?_, ?_, ?_, ?_, ?_⟩
      · rw [hsubs]; exact allSame_map (n := c.number) fun e he => (e2.subs e he).1
      · rw [hunsubs]; exact allSame_map (n := c.number) fun e he => (e2.unsubs e he).1
      · rw [hbans]; exact allSame_map (n := c.number) fun e he => e2.bans e he
      · rw [hunbans]; exact allSame_map (n := c.number) fun e he => e2.unbans e he
      · exact forall2_mem h10 fun e v he hp => ⟨(e2.subs e (by rw [← hsubs]; exact he)).2.1,
          fun x hx => singleValidator_some (by rw [hp, hx])⟩
      · exact forall2_mem h11 fun e v he hp => ⟨(e2.unsubs e (by rw [← hunsubs]; exact he)).2,
          fun x hx => singleValidator_some (by rw [hp, hx])⟩
    · obtain ⟨c1, c2, c3, c4⟩ := e2.config
      rw [h6]
      split
      · exact ⟨c1, c2, c3, c4⟩
      · exact ⟨c1, c2, c3, c4⟩
    · refine ⟨?_, ?_⟩
      · rintro tx d ⟨_, c', sd, hc', ⟨c'', hc'', hl, hsd, hto⟩, hb⟩ hdp
        rw [h2, Option.some.injEq] at hc' hc''
        subst hc' hc''
        rw [f.atChain] at hb
        obtain ⟨e, he, ha⟩ := e3 tx sd d hl hsd hto hb hdp
        exact ⟨e, hether e he, ha⟩
      · rintro ⟨q1, ⟨c', hc', q2⟩, _⟩ _
        rw [h2, Option.some.injEq] at hc'
        subst hc'
        refine ⟨exceptionEvent, ?_, rfl⟩
        rw [h6, if_pos ⟨by rw [← f.atChain]; exact q1, by rw [← h3]; exact q2⟩]
        simp
    · by_cases hx : C.chainId = 1 ∧ slot = 10400574
      · right
        obtain ⟨q1, tx, q2, q3⟩ := hg.exception hx.1 hx.2
        obtain ⟨d, hdst⟩ := Option.ne_none_iff_exists'.mp q3
        obtain ⟨a, ha, _⟩ := hg.sender tx q2
        refine ⟨⟨by rw [f.atChain]; exact hx.1, ⟨c, h2, by rw [h3]; exact hx.2⟩, tx, a, d, c, h2, q2, ha, hdst⟩, q1, ?_⟩
        refine allSame_map (n := c.number) ?_
        intro e he
        rw [List.mem_filter] at he
        have hin := he.1
        rw [h6, if_pos hx] at hin
        simp only [List.mem_append, List.mem_singleton] at hin
        rcases hin with hin | hin
        · exact (e2.ether e hin).1
        · exfalso
          have := he.2
          rw [hin] at this
          simp [exceptionEvent, exceptionReward] at this
      · left
        rw [h6, if_neg hx]
        exact allSame_map (n := c.number) fun e he => (e2.ether e he).1
    · refine ⟨?_, ?_⟩
      · intro e he
        rw [h6] at he
        split at he
        · simp only [List.mem_append, List.mem_singleton] at he
          rcases he with he | he
          · exact (e2.ether e he).2.2
          · rw [he]; decide
        · exact (e2.ether e he).2.2
      · intro e he
        rw [hsubs] at he
        exact (e2.subs e he).2.2
    · intro c' hd' rs hc' hh hr
      rw [h2, Option.some.injEq] at hc'
      subst hc'
      rcases h13 with q | ⟨hd'', rs', q1, q2, q3, q4⟩
      · rw [hr] at q; simp at q
      · rw [hh, Option.some.injEq] at q1
        rw [hr, Option.some.injEq] at q2
        subst q1 q2
        obtain ⟨hd'', k1, _, k3⟩ := hg.header
        rw [q3, Option.some.injEq] at k1
        subst k1
        exact k3 _ q4

end honest

/-- `Follows C E o n o'`: the loop of main.go:235-266 fetched and processed `n` slots one after the
other, starting from `o`. -/
inductive Follows (C : Chain) (E : Env) : Oracle → Nat → Oracle → Prop
  | zero (o) : Follows C E o 0 o
  | step {o n b o1 m o2} : Follows C E o n o1 → fetchFullBlock C o1.st o1.st.nextSlot false = .ok b →
      advanceState E o1 b = .ok (o2, some m) → Follows C E o (n + 1) o2

/-- **C42** (partial). On an honest chain, with clients that answer, the oracle processes any number of
slots from its deployment: nothing in the chain's content can make it stop. What an honest chain is
(`HonestChain`) includes two things the rules of Ethereum do not promise: the pool reports every
payment of a builder to it (`C42_false_silent_payment`), and its configuration only changes as agreed. -/
theorem C42_never_stops_partial {C : Chain} {cfg : Config} {E : Env} (hH : HonestChain C cfg)
    (hE : ValidEnv E) (hX : ExactEnv E) (hC : NoSelfConsol E) (hN : GoodNode E) (hB : SaneBalances E)
    (hG : GoodConsol E) (hf : 0 ≤ cfg.fee ∧ cfg.fee ≤ 10000) (hpf : PostFork1 cfg.network cfg.depSlot)
    (n : Nat) (hn : cfg.depSlot + n < 18446744073709551616) :
    ∃ o', Follows C E (newOracle cfg) n o' ∧ o'.st.nextSlot = cfg.depSlot + n := by
  suffices hinv : ∃ o', Follows C E (newOracle cfg) n o' ∧ MapOK o'.st ∧ NonNeg o'.st ∧ 0 ≤ o'.st.fee ∧
      o'.st.fee ≤ 10000 ∧ o'.st.nextSlot = u64 (o'.st.latestSlot + 1) ∧ o'.st.nextSlot = cfg.depSlot + n ∧
      o'.cfg = { cfg with fee := o'.cfg.fee } by
    obtain ⟨o', h1, _, _, _, _, _, h2, _⟩ := hinv
    exact ⟨o', h1, h2⟩
  induction n with
  | zero =>
    refine ⟨newOracle cfg, .zero _, by simp [MapOK, newOracle], ?_, hf.1, hf.2, ?_, rfl, rfl⟩
    · exact ⟨le_refl _, by simp [newOracle]⟩
    · simp only [newOracle, u64, sub64]
      omega
  | succ n ih =>
    obtain ⟨o, h1, h2, h3, h4, h5, h6, h7, h8⟩ := ih (by omega)
    obtain ⟨b, hb⟩ := fetch_total hH o.st o.st.nextSlot false
    obtain ⟨k1, k2, k3, k4, k5, k6, k7, k8, k9⟩ := fetched_honest hH hb
    have hpool : o.cfg.poolAddr = cfg.poolAddr := by rw [h8]
    have hnet : o.cfg.network = cfg.network := by rw [h8]
    have hpf' : PostFork1 o.cfg.network o.st.nextSlot := by
      rw [hnet, h7]; exact postFork1_mono hpf (by omega)
    obtain ⟨o2, m, hadv⟩ := advanceState_total hE hX hN hG h2 h3 h4 h5 hpf' hB h6 k1
      (by rw [hpool]; exact k2) (by rw [hpool]; exact k3) k4
      (by
        obtain ⟨c1, c2, c3, c4⟩ := k5
        rw [h8, k1]
        exact ⟨c1, c2, c3, c4⟩)
      (by rw [hpool]; exact k6) (by rw [hpool]; exact k7) k8 k9
    obtain ⟨m1, m2, m3⟩ := slot_nonneg hE hX hC hB h2 h3 h4 hpf' k8 k9 hadv
    have hex := C20_exactly_next hadv
    have hsf := slot_fee hadv
    obtain ⟨_, _, _, _, _, _, _, _, hcfg, _⟩ := slot_frame hadv
    refine ⟨o2, .step h1 hb hadv, m1, m2, m3, ?_, ?_, ?_, ?_⟩
    · rcases hsf with e | e
      · rw [e]; exact h5
      · rw [e]; decide
    · rw [hex.2.2.1]; exact hex.2.2.2
    · rw [(slot_nextSlot hadv).1, h7]; unfold u64; omega
    · rw [hcfg, h8]

namespace Sample

/-- A chain on which validator 1 proposes in every even slot, with a payment of 5000 to the pool, and
misses all other slots. Validator 2 subscribes in every block. -/
def chain : Chain :=
  { chainId := 1, pool := pool
    duty := fun slot => some (slot, 1, hexutilEncode [1])
    validators := fun i _ => some [(i, bval i)]
    cons := fun slot => some (if slot % 2 = 0 then
      (prop slot 1 builder (tx builder pool 5000) {}).cons else none)
    events := fun n => some { ether := [⟨5000, pool, n⟩], subs := [⟨2, 1000, addr 2, n⟩] }
    header := fun n => some ⟨n, 10⟩
    receipt := fun h => some ⟨h, 21000, 100⟩ }

theorem addr_length (i : Nat) : (addr i).length = 42 := by
  simp [addr, hexEncode_length]

theorem chain_honest_of {f : Str} : HonestChain chain { cfg with poolFeesAddr := f } := by
  refine ⟨⟨rfl, rfl⟩, Or.inl rfl, fun i slot => Or.inr ⟨bval i, rfl, rfl, by simp [bval, creds]⟩, ?_⟩
  intro slot
  refine ⟨1, _, _, rfl, rfl, ?_⟩
  by_cases h : slot % 2 = 0
  · right
    refine ⟨{ fork := .electra, slot := slot, proposer := 1, number := 100, feeRecipient := builder,
              txs := [some (tx builder pool 5000)], gasUsed := 21000, baseFee := .u256 10 }, by simp [chain, h, prop],
      rfl, rfl, by simp, ?_, ?_, ?_, rfl, ?_, ?_, ?_, ?_⟩
    · intro x hx
      rw [List.mem_singleton] at hx; subst hx
      exact ⟨_, rfl, by simp [tx]⟩
    · intro t ht
      simp only [List.getLast?_singleton, Option.some.injEq] at ht
      subst ht; exact ⟨builder, rfl, rfl⟩
    · intro t d ht hd
      simp only [List.getLast?_singleton, Option.some.injEq] at ht
      subst ht; simp only [tx, Option.some.injEq] at hd; subst hd; rfl
    · intro t ht
      rw [List.mem_singleton, Option.some.injEq] at ht; subst ht
      exact ⟨_, rfl, rfl, rfl⟩
    · refine ⟨_, rfl, rfl, ?_⟩
      intro rs hrs
      cases hrs with
      | cons h1 h2 =>
        cases h2
        obtain ⟨t, ht, hr⟩ := h1
        simp only [chain, Option.some.injEq] at ht hr
        subst hr ht
        refine ⟨rfl, ?_, rfl, by dsimp only; decide, ?_⟩
        · intro n hn; simp only [BaseFee.u256.injEq] at hn; subst hn; decide
        · intro t ht
          rw [List.mem_singleton, Option.some.injEq] at ht
          subst ht; simp [effectivePrice, tx]
    · refine ⟨_, rfl, ⟨?_, ?_, by simp, by simp, by simp, ?_⟩, ?_⟩
      · intro e he; rw [List.mem_singleton] at he; subst he; exact ⟨rfl, rfl, by dsimp only; decide⟩
      · intro e he; rw [List.mem_singleton] at he; subst he; exact ⟨rfl, addr_length 2, by dsimp only; decide⟩
      · exact ⟨Or.inl rfl, Or.inl rfl, Or.inl rfl, Or.inl rfl⟩
      · intro t sd d ht _ _ _ _
        simp only [List.getLast?_singleton, Option.some.injEq] at ht
        subst ht; exact ⟨_, List.mem_singleton.mpr rfl, rfl⟩
    · intro _ _
      exact ⟨⟨rfl, rfl⟩, _, rfl, by simp [tx]⟩
  · left; simp [chain, h]

theorem chain_honest : HonestChain chain cfg := chain_honest_of (f := feeAddr)

theorem env_consol : GoodConsol env := by
  intro t slot
  refine ⟨_, rfl, ?_⟩
  intro p hp t' slot' req r v hr hv _
  rw [env_node hr] at hv
  obtain ⟨i, _, rfl⟩ := List.mem_map.mp hv
  split
  · exact ⟨_, hasAddress 9⟩
  · exact ⟨_, hasAddress i⟩

end Sample

/-- The sample chain is followed for as long as one likes. -/
example : ∃ o', Follows Sample.chain Sample.env (newOracle Sample.cfg) 1000000 o' ∧
    o'.st.nextSlot = 13000000 :=
  C42_never_stops_partial Sample.chain_honest Sample.env_valid Sample.env_exact Sample.env_noSelf
    Sample.env_good Sample.env_sane Sample.env_consol (by decide) (by decide) _ (by decide)

/-- A block of the sample chain is fetched with its receipts although validator 1 is not subscribed yet. -/
example : ∃ b, fetchFullBlock Sample.chain (newOracle Sample.cfg).st 12000000 false = .ok b ∧
    (b.cons.isSome && b.receipts.isSome) = true :=
  Sample.ex_ok (by decide +kernel)

namespace Sample
/-- validator 1 proposes; the last transaction is a call of the fee recipient to the pool that pays
nothing and is not reported as a payment (for instance a claim of rewards) -/
def silent : FullBlock := prop 12000001 1 builder (tx builder pool 0) {}
end Sample

/-- **C42 is false.** A builder or proposer can stop every oracle at will: it is enough that the last
transaction of a block is sent by the fee recipient to the pool without the pool reporting that amount
as a received payment, for instance by claiming rewards or by subscribing a validator. Such a block
meets every other condition. -/
theorem C42_false_silent_payment :
    Readable Sample.silent Sample.oracle.cfg.poolAddr ∧ HasReceipts Sample.silent ∧
    EventsOK Sample.silent ∧ ConfigOK Sample.oracle.cfg Sample.silent.dutySlot Sample.silent.events ∧
    DonationsOneBlock Sample.silent Sample.oracle.cfg.poolAddr ∧ NonNegPayments Sample.silent ∧
    GasOK Sample.silent ∧ advanceState Sample.env Sample.oracle Sample.silent = .error .fatal := by
  refine ⟨⟨rfl, rfl, Or.inl rfl, ?_, ?_, ?_, ?_, ?_, by simp [Sample.silent, Sample.prop]⟩, ?_, ⟨?_, ?_, ?_, ?_, .nil, .nil⟩,
    ⟨Or.inl rfl, Or.inl rfl, Or.inl rfl, Or.inl rfl⟩, Or.inl ?_, ⟨by simp [Sample.silent, Sample.prop], by simp [Sample.silent, Sample.prop]⟩, Sample.prop_gas, by rfl⟩
  · rintro c hc; simp only [Sample.silent, Sample.prop, Option.some.injEq] at hc; subst hc; simp
  · rintro c hc x hx; simp only [Sample.silent, Sample.prop, Option.some.injEq] at hc; subst hc
    rw [List.mem_singleton] at hx; subst hx
    exact ⟨_, rfl, by simp [Sample.tx]⟩
  · rintro c t hc ht; simp only [Sample.silent, Sample.prop, Option.some.injEq] at hc; subst hc
    simp only [List.getLast?_singleton, Option.some.injEq] at ht
    subst ht; exact ⟨Sample.builder, rfl, rfl⟩
  · rintro c t d hc ht hd; simp only [Sample.silent, Sample.prop, Option.some.injEq] at hc; subst hc
    simp only [List.getLast?_singleton, Option.some.injEq] at ht
    subst ht; simp only [Sample.tx, Option.some.injEq] at hd; subst hd; rfl
  · rintro c hc; simp only [Sample.silent, Sample.prop, Option.some.injEq] at hc; subst hc; rfl
  · rintro c hc; simp only [Sample.silent, Sample.prop, Option.some.injEq] at hc; subst hc
    exact ⟨_, _, rfl, rfl, .cons ⟨_, rfl, rfl⟩ .nil⟩
  all_goals (intro x hx; simp [Sample.silent, Sample.prop] at hx)

end Verif
