import Verif.Props.Merkle
import Verif.Props.Persist
import Verif.Props.ProofEndpoint
import Verif.Props.Banned
import Verif.Props.Proposals
import Verif.Props.Statistics
/-
Exact versions of partial claims: the conditions under which they were proved are also necessary.
-/
namespace Verif

/-! ### C61 and C25: checkpoints -/

/-- freezing a checkpoint only works if no validator belongs to the pool contract -/
theorem aggregate_pool {E : Env} (hE : ValidEnv E) {t s ls} (h : aggregate E t s = .ok ls) :
    ∀ p ∈ s.vals, lower p.2.waddr ≠ lower s.poolAddr := by
  have hl := (aggregate_ok hE h).1
  unfold aggregate at h
  simp only [bind_ok] at h
  obtain ⟨rs, hr, h⟩ := h
  split at h
  · simp at h
  split at h
  · simp at h
  rename_i hpool
  split at h
  · simp at h
  split at h
  · simp at h
  rename_i hlow
  have h := Except.ok.inj h
  intro p hp e
  obtain ⟨l, hm, hw⟩ := hl.complete p hp
  rw [← h] at hm
  simp only [List.tail_cons] at hm
  apply hpool
  rw [List.any_eq_true]
  refine ⟨l, hm, ?_⟩
  have hll : lower l.waddr = l.waddr := by
    by_contra hne
    exact hlow (List.any_eq_true.mpr ⟨l, List.mem_cons_of_mem _ hm, by simpa using hne⟩)
  rw [hll, hw, e]
  simp

/-- **C61**, exactly. After any history of processed slots a checkpoint can be frozen if and only if no
tracked validator has the pool contract as withdrawal address. -/
theorem C61_exact {H : List Nat → List Nat} {E : Env} (hE : ValidEnv E)
    (hX : ExactEnv E) (hC : NoSelfConsol E) (hG : GoBytes E) {cfg : Config} {bs : List FullBlock}
    {o' : Oracle} (hb : ∀ b ∈ bs, BytesOK b) (h : Hist E (newOracle cfg) bs o')
    (hF : IsAddress cfg.poolFeesAddr) :
    (∃ s' r, freeze H E o'.st = .ok (s', r)) ↔
      ∀ p ∈ o'.st.vals, lower p.2.waddr ≠ lower o'.st.poolAddr := by
  constructor
  · rintro ⟨s', r, hf⟩
    obtain ⟨ls, hls⟩ := freeze_aggregate hf
    exact aggregate_pool hE hls
  · intro hP
    obtain ⟨s', r, hf, _⟩ := C61_checkpoint_after_any_history_partial (H := H) hE hX hC hG hb h hF hP
    exact ⟨s', r, hf⟩

/-- after the block of a validator that belongs to the pool contract no checkpoint can be frozen, and
`C61_exact` finds that validator -/
example : ∃ o, Hist Sample.env (newOracle Sample.cfg) [Sample.poolOwned] o ∧
    ∃ p ∈ o.st.vals, lower p.2.waddr = lower o.st.poolAddr := by
  obtain ⟨o, h1, h2, h3⟩ := C61_false_pool_owned_validator
  refine ⟨o, h1, ?_⟩
  by_contra hno
  push Not at hno
  obtain ⟨s', r, hf⟩ := (C61_exact (H := Sample.hash) Sample.env_valid Sample.env_exact Sample.env_noSelf
    Sample.env_bytes (by simpa using h2) h1 (isAddress_of (by decide +kernel))).mpr hno
  rw [h3] at hf
  cases hf

/-- later assignments win -/
theorem rawMap_last {tl : List Leaf} (hn : (tl.map (·.waddr)).Nodup) {l : Leaf} (hl : l ∈ tl)
    (m : List (Str × Leaf)) :
    getStr (tl.foldl (fun m l => putStr m l.waddr l) m) l.waddr = some l := by
  have keep : ∀ (tl : List Leaf) (m : List (Str × Leaf)) (k : Str), (∀ x ∈ tl, x.waddr ≠ k) →
      getStr (tl.foldl (fun m l => putStr m l.waddr l) m) k = getStr m k := by
    intro tl
    induction tl with
    | nil => intro m k _; rfl
    | cons x tl ih =>
      intro m k h
      rw [List.foldl_cons, ih _ _ (fun y hy => h y (List.mem_cons_of_mem _ hy)), getStr_putStr,
        if_neg (fun e => h x (by simp) e.symm)]
  induction tl generalizing m with
  | nil => simp at hl
  | cons x tl ih =>
    rw [List.map_cons, List.nodup_cons] at hn
    rw [List.foldl_cons]
    rcases List.mem_cons.mp hl with rfl | hl
    · rw [keep _ _ _ (fun y hy e => hn.1 (List.mem_map.mpr ⟨y, hy, e⟩)), getStr_putStr, if_pos rfl]
    · exact ih hn.2 hl _

/-- **C25**, exactly. What the checkpoint shows for the address that receives the pool fees: the pool
fees if that address owns no tracked validator, and only the debt to its validators if it does, so the
pool fees are shown if and only if it owns none (or the two amounts happen to be equal). -/
theorem C25_exact {H : List Nat → List Nat} {E : Env} (hE : ValidEnv E) {s s' : State}
    {f : Frozen} (hk : KeysOK s) (h : freeze H E s = .ok (s', true))
    (hf : (s.latestSlot, f) ∈ s'.committed) :
    ((∀ p ∈ s.vals, lower p.2.waddr ≠ lower s.poolFeesAddr) →
      getStr f.leafs (lower s.poolFeesAddr) = some ⟨lower s.poolFeesAddr, s.poolFees⟩) ∧
    ((∃ p ∈ s.vals, lower p.2.waddr = lower s.poolFeesAddr) →
      getStr f.leafs (lower s.poolFeesAddr) =
        some ⟨lower s.poolFeesAddr, debtOf s (lower s.poolFeesAddr)⟩) ∧
    ((lower s.poolFeesAddr, ⟨lower s.poolFeesAddr, s.poolFees⟩) ∈ f.leafs ↔
      (∀ p ∈ s.vals, lower p.2.waddr ≠ lower s.poolFeesAddr) ∨
        debtOf s (lower s.poolFeesAddr) = s.poolFees) := by
  obtain ⟨ls, root, h1, _, _, _, _, _, h2, _⟩ := frozen_facts hE hk h hf
  have hnd : (f.leafs.map (·.1)).Nodup := by rw [h2]; exact rawMap_nodup ls
  have a1 : (∀ p ∈ s.vals, lower p.2.waddr ≠ lower s.poolFeesAddr) →
      getStr f.leafs (lower s.poolFeesAddr) = some ⟨lower s.poolFeesAddr, s.poolFees⟩ := by
    intro hF
    obtain ⟨_, _, _, h4, _⟩ := C25_one_leaf_each_partial hE hk hF h hf
    exact getStr_of_mem hnd h4
  have a2 : (∃ p ∈ s.vals, lower p.2.waddr = lower s.poolFeesAddr) →
      getStr f.leafs (lower s.poolFeesAddr) =
        some ⟨lower s.poolFeesAddr, debtOf s (lower s.poolFeesAddr)⟩ := by
    rintro ⟨p, hp, e⟩
    obtain ⟨l, hl, hw⟩ := h1.complete p hp
    obtain ⟨_, hbal⟩ := h1.sound l hl
    rw [e] at hw
    have hle : l = ⟨lower s.poolFeesAddr, debtOf s (lower s.poolFeesAddr)⟩ := by
      rw [← hw, ← hbal]
    cases ls with
    | nil => simp at hl
    | cons a tl =>
      simp only [List.tail_cons] at hl
      have hn : (tl.map (·.waddr)).Nodup := by
        unfold List.Nodup
        rw [List.pairwise_map]
        refine h1.sorted.imp ?_
        intro a b hab e
        rw [e] at hab
        exact slt_asymm hab hab
      have := rawMap_last hn hl (putStr [] a.waddr a)
      rw [h2]
      unfold rawMap
      rw [List.foldl_cons]
      rw [hle] at this
      exact this
  refine ⟨a1, a2, ?_⟩
  constructor
  · intro hm
    by_cases hF : ∀ p ∈ s.vals, lower p.2.waddr ≠ lower s.poolFeesAddr
    · exact Or.inl hF
    · right
      push Not at hF
      have g1 := a2 hF
      have g2 := getStr_of_mem hnd hm
      rw [g1, Option.some.injEq] at g2
      exact congrArg Leaf.bal g2
  · intro hcase
    by_cases hF : ∀ p ∈ s.vals, lower p.2.waddr ≠ lower s.poolFeesAddr
    · exact getStr_mem (a1 hF)
    · push Not at hF
      rcases hcase with hc | hc
      · obtain ⟨p, hp, e⟩ := hF
        exact absurd e (hc p hp)
      · have := a2 hF
        rw [hc] at this
        exact getStr_mem this
/-- the fee recipient owns a validator with a debt of 10; the pool fees of 77 are not shown -/
example : ∃ s' f, freeze Sample.hash Sample.env Sample.feeOwner = .ok (s', true) ∧
    (Sample.feeOwner.latestSlot, f) ∈ s'.committed ∧
    (lower Sample.feeOwner.poolFeesAddr, ⟨lower Sample.feeOwner.poolFeesAddr, 77⟩) ∉ f.leafs := by
  obtain ⟨s', f, h1, h2, h3, h4, _⟩ := C25_false_fee_recipient_validator
  refine ⟨s', f, h1, h2, fun hm => ?_⟩
  have := (C25_exact Sample.env_valid (by unfold KeysOK; decide) h1 h2).2.2.mp (by rw [h3]; exact hm)
  rcases this with k | k
  · exact absurd k (by decide +kernel)
  · rw [h4, h3] at k
    cases k

/-! ### C39: proposers who set the pool as fee recipient -/

section
variable {E : Env} (hE : ValidEnv E) (hX : ExactEnv E) (hC : NoSelfConsol E)
  {cfg : Config} {bs : List FullBlock} {o o' : Oracle} {b : FullBlock} {n : Nat}
  (h0 : Hist E (newOracle cfg) bs o) (h : advanceState E o b = .ok (o', some n))
include hE hX hC h0 h

/-- **C39**, exactly. A subscribed proposer who set the pool as fee recipient is banned by its block if
and only if the last transaction is a payment of the fee recipient or of a known builder that arrives
somewhere else (leaving aside bans and unbans by hand and the one hard-coded slot). -/
theorem C39_exact {c : ConsBlock} (hc : b.cons = some c)
    (hfr : SameAddr c.feeRecipient o.cfg.poolAddr) (hex : ¬ ExceptionBlock b)
    (hban : ∀ ev ∈ b.events.bans, ev.validatorId ≠ b.dutyIndex)
    (hunban : ∀ ev ∈ b.events.unbans, ev.validatorId ≠ b.dutyIndex)
    {v : Validator} (hv : VMap.get o.st.vals b.dutyIndex = some v) (hsub : Subscribed v.status) :
    (∃ v', VMap.get o'.st.vals b.dutyIndex = some v' ∧ v'.status = .banned) ↔
      ∃ tx dest, BuilderPays b tx dest ∧ ¬ ArrivesAt b tx dest o.cfg.poolAddr := by
  have hs := (hist_five hE hX hC h0 List.Pairwise.nil (by intro p hp; simp [newOracle] at hp)).1
  constructor
  · rintro ⟨v', hv', hb⟩
    by_contra hno
    push Not at hno
    have hnb : v.status ≠ .banned := by
      rcases hsub with e | e | e <;> rw [e] <;> simp
    obtain ⟨v'', hv'', hne⟩ := C39_fee_recipient_partial hE hX hC hs h hc hfr hno hex hban hv hnb
    rw [hv', Option.some.injEq] at hv''
    subst hv''
    exact hne hb
  · rintro ⟨tx, dest, hp, hna⟩
    have hpe : PaysElsewhere b o.cfg.poolAddr b.dutyIndex := by
      refine ⟨rfl, by rw [hc]; simp, ?_⟩
      rintro ⟨c', hc', ⟨k, _⟩ | ⟨tx', d', k1, k2⟩ | ⟨_, k, _⟩⟩
      · exact hex k
      · have : tx' = tx ∧ d' = dest := by
          obtain ⟨_, _, s', _, ⟨c1, g1, g2, _, g4⟩, _⟩ := k1
          obtain ⟨_, _, s, _, ⟨c2, f1, f2, _, f4⟩, _⟩ := hp
          rw [g1, Option.some.injEq] at f1
          subst f1
          rw [g2, Option.some.injEq, Option.some.injEq] at f2
          subst f2
          rw [g4, Option.some.injEq] at f4
          exact ⟨rfl, f4⟩
        obtain ⟨rfl, rfl⟩ := this
        exact hna k2
      · exact k tx dest hp
    obtain ⟨k, _⟩ := C12_banned hE hX hC h0 h hpe hv hsub hunban
    exact ⟨_, k, rfl⟩

end

/-- validator 2 subscribes with the first sample block and is banned by the next one -/
example : ∃ o o' n, Hist Sample.env (newOracle Sample.cfg) [Sample.b0] o ∧
    advanceState Sample.env o Sample.framed = .ok (o', some n) ∧
    (∃ v, VMap.get o.st.vals 2 = some v ∧ Subscribed v.status) ∧
    ∃ v', VMap.get o'.st.vals 2 = some v' ∧ v'.status = .banned := by
  obtain ⟨o, h1, h2⟩ := Sample.ex_hist (E := Sample.env) (o := newOracle Sample.cfg) (bs := [Sample.b0])
    (P := fun o => decide (o.cfg.poolAddr = Sample.pool) &&
      (VMap.get o.st.vals 2).any (fun v => decide (Subscribed v.status)) &&
      (advanceState Sample.env o Sample.framed).toOption.any fun p => p.2.isSome) (by decide +kernel)
  simp only [Bool.and_eq_true, decide_eq_true_eq, Option.any_eq_true] at h2
  obtain ⟨⟨hpool, v, hv, hsub⟩, ⟨o', n⟩, hr, hn⟩ := h2
  obtain ⟨n, rfl⟩ := Option.isSome_iff_exists.mp hn
  have h : advanceState Sample.env o Sample.framed = .ok (o', some n) := by
    cases he : advanceState Sample.env o Sample.framed with
    | error e => rw [he] at hr; simp [Except.toOption] at hr
    | ok r => rw [he] at hr; simp only [Except.toOption, Option.some.injEq] at hr; rw [hr]
  refine ⟨o, o', n, h1, h, ⟨v, hv, hsub⟩, ?_⟩
  have hex : ¬ ExceptionBlock Sample.framed := Sample.prop_notException (by decide)
  refine (C39_exact Sample.env_valid Sample.env_exact Sample.env_noSelf h1 h rfl
    (by rw [hpool]; exact Sample.same _) hex (by simp [Sample.framed, Sample.prop])
    (by simp [Sample.framed, Sample.prop]) hv hsub).mpr
    ⟨_, Sample.addr 51, ⟨hex, _, _, rfl, ⟨_, rfl, rfl, rfl, rfl⟩, Or.inr (by decide)⟩, ?_⟩
  rw [hpool]
  intro ha
  have : SameAddr (Sample.addr 51) Sample.pool := ha
  exact absurd this.2 (by decide)

/-! ### C48: statistics -/

/-- **C48**, exactly. The statistics endpoint answers if and only if the oracle is in sync, both the
last slot and the last block are at least a month from the start of their chains, and not all of the
subscribed validators have a red card. -/
theorem C48_exact {H : List Nat → List Nat} {E : Env} (hE : ValidEnv E) (hX : ExactEnv E)
    (hC : NoSelfConsol E) {cfg : Config} {o : Oracle} (hw : Work H E (newOracle cfg) o)
    {fin : Option Nat} {cache : BMap} :
    (∃ r, statistics fin cache o.cfg o.st = .ok (.ok r)) ↔
      oracleReady fin o.st.latestSlot 64 = true ∧ 216000 ≤ o.st.latestSlot ∧ 216000 ≤ o.st.latestBlock ∧
      ((∃ p ∈ o.st.vals, Subscribed p.2.status) →
        ∃ p ∈ o.st.vals, Subscribed p.2.status ∧ p.2.status ≠ .redCard) := by
  constructor
  · rintro ⟨r, h⟩
    by_cases hr : oracleReady fin o.st.latestSlot 64 = true
    · by_cases g1 : 216000 ≤ o.st.latestSlot
      · by_cases g2 : 216000 ≤ o.st.latestBlock
        · refine ⟨hr, g1, g2, fun hsub => ?_⟩
          by_contra hno
          push Not at hno
          rw [C48_false_all_red hE hX hC hw hr g1 g2 hsub hno] at h
          cases h
        · unfold statistics at h
          rw [hr] at h
          simp only [Bool.not_true, Bool.false_eq_true, if_false] at h
          rw [if_neg (by simp only [slotsInOneMonth]; omega), if_pos (by simp only [slotsInOneMonth]; omega)] at h
          cases h
      · unfold statistics at h
        rw [hr] at h
        simp only [Bool.not_true, Bool.false_eq_true, if_false] at h
        rw [if_pos (by simp only [slotsInOneMonth]; omega)] at h
        cases h
    · unfold statistics at h
      rw [if_pos (by simpa using hr)] at h
      cases h
  · rintro ⟨hr, g1, g2, h3⟩
    refine C48_answers_partial hE hX hC hw hr g1 g2 ?_
    by_cases hsub : ∃ p ∈ o.st.vals, Subscribed p.2.status
    · left
      obtain ⟨p, hp, h1, h2⟩ := h3 hsub
      refine ⟨p, hp, ?_⟩
      rcases h1 with e | e | e
      · exact Or.inl e
      · exact Or.inr e
      · exact absurd e h2
    · right
      push Not at hsub
      exact hsub

/-- concretely: where the only subscribed validator has missed two blocks, everything else is in place -/
example : ∃ o, Work Sample.hash Sample.env (newOracle Sample.cfg) o ∧
    ¬ ((∃ p ∈ o.st.vals, Subscribed p.2.status) →
        ∃ p ∈ o.st.vals, Subscribed p.2.status ∧ p.2.status ≠ .redCard) ∧
    oracleReady (some 12000010) o.st.latestSlot 64 = true ∧ 216000 ≤ o.st.latestSlot ∧
    216000 ≤ o.st.latestBlock := by
  obtain ⟨o, h1, h2⟩ := Sample.ex_does (L := Toy.lib Sample.hash) (H := Sample.hash) (E := Sample.env)
    (cs := Sample.redBlocks) (o := newOracle Sample.cfg)
    (P := fun o => oracleReady (some 12000010) o.st.latestSlot 64 && decide (216000 ≤ o.st.latestSlot) &&
      decide (216000 ≤ o.st.latestBlock) && (match statistics (some 12000010) [] o.cfg o.st with
        | .error .panic => true
        | _ => false)) (by decide +kernel)
  simp only [Bool.and_eq_true, decide_eq_true_eq] at h2
  obtain ⟨⟨⟨a1, a2⟩, a3⟩, a4⟩ := h2
  have hw := Sample.work_of_does h1
  refine ⟨o, hw, fun hcon => ?_, a1, a2, a3⟩
  obtain ⟨r, hr⟩ := (C48_exact Sample.env_valid Sample.env_exact Sample.env_noSelf hw
    (fin := some 12000010) (cache := [])).mpr ⟨a1, a2, a3, hcon⟩
  rw [hr] at a4
  cases a4

end Verif
