import Verif.Props.Answers
/-
C68 (the rest) to C73: what the endpoints answer.
-/
namespace Verif
open VMap

/-! ### C68, the rest -/

/-- **C68.** Every requested index is either in the list of records or in the list of numbers not found, if
the beacon node reported every tracked validator.

Missing, and false: a tracked validator that the beacon node did not report (`C68_false_unreported`), and
refusing to answer while the oracle is not synchronised (`C68_false_not_ready`). -/
theorem C68_every_index_partial {H : List Nat → List Nat} {E : Env} (hE : ValidEnv E) (hX : ExactEnv E)
    (hC : NoSelfConsol E) {cfg : Config} {o : Oracle} (hw : Work H E (newOracle cfg) o)
    {cache : Option BMap} {req : Str} {a : ByIndexAnswer} {ns : List Str} (hp : Pieces req ns)
    (h : validatorsByIndex cache o.st req = .ok a)
    (hall : ∀ i v, VMap.get o.st.vals i = some v → (BMap.get (cache.getD []) i).isSome) :
    ∀ x ∈ ns, ((∃ p ∈ a.found, p.1.index = numeralValue x ∧ VMap.get o.st.vals (numeralValue x) = some p.1 ∧
        BMap.get (cache.getD []) (numeralValue x) = some p.2) ∧ numeralValue x ∉ a.notFound) ∨
      (numeralValue x ∈ a.notFound ∧ VMap.get o.st.vals (numeralValue x) = none ∧
        ∀ p ∈ a.found, p.1.index ≠ numeralValue x) := by
  obtain ⟨ns', hp', _, _, hf, hnf⟩ := (C68_by_index cache o.st req a).mp h
  have e : ns' = ns := (pieces_unique hp').trans (pieces_unique hp).symm
  subst e
  have hrec := work_records hE hX hC hw
  intro x hx
  have hmem : numeralValue x ∈ ns'.map numeralValue := List.mem_map.mpr ⟨x, hx, rfl⟩
  cases hv : VMap.get o.st.vals (numeralValue x) with
  | none =>
    refine Or.inr ⟨by rw [hnf, List.mem_filter]; exact ⟨hmem, by rw [hv]; rfl⟩, rfl, ?_⟩
    intro p hp hidx
    rw [hf, List.mem_filterMap] at hp
    obtain ⟨j, _, hj⟩ := hp
    obtain ⟨v, hgj, hj⟩ := Option.bind_eq_some_iff.mp hj
    obtain ⟨u, _, hj⟩ := Option.map_eq_some_iff.mp hj
    cases hj
    have := (hrec j v hgj).2
    simp only at hidx
    rw [← hidx, this, hgj] at hv
    cases hv
  | some v =>
    obtain ⟨u, hu⟩ := Option.isSome_iff_exists.mp (hall _ _ hv)
    have hidx := (hrec _ _ hv).2
    refine Or.inl ⟨⟨(v, u), ?_, hidx, rfl, hu⟩, ?_⟩
    · rw [hf, List.mem_filterMap]
      exact ⟨_, hmem, by rw [hv]; simp [hidx, hu]⟩
    · rw [hnf, List.mem_filter, hv]
      simp

/-- **C68 is false** for a tracked validator that the beacon node has not reported, for instance as long as
the validators are not loaded: the validator is in neither list. -/
theorem C68_false_unreported {s : State} {v : Validator} {req : Str} {a : ByIndexAnswer}
    (hn : Numeral req) (hv : VMap.get s.vals (numeralValue req) = some v)
    (h : validatorsByIndex none s req = .ok a) : a.found = [] ∧ a.notFound = [] := by
  obtain ⟨ns, hp, _, _, hf, hnf⟩ := (C68_by_index none s req a).mp h
  have e : ns = [req] := by
    have h44 : 44 ∉ req := fun hc => by have := hn.2 44 hc; omega
    have : Pieces req [req] := ⟨by simp, by simpa using h44, by simp [List.intercalate]⟩
    exact (pieces_unique hp).trans (pieces_unique this).symm
  subst e
  rw [hf, hnf]
  simp [hv, BMap.get]

/-- **C68 is false** with regard to synchronisation: the other endpoints about validators refuse to answer
while the oracle is behind, this one does not ask. -/
theorem C68_false_not_ready {L : Lib} {E : Env} {t : Nat} {W : Outside} {pool : Str} {relays : List Str}
    {o : Oracle} {req : Str} {a : ByIndexAnswer} (h : validatorsByIndex W.cache o.st req = .ok a)
    (hf : W.fin = none) :
    serve L E t W pool relays o (.byIndex req) = .ok (.byIndex (.ok a), o) ∧
    serve L E t W pool relays o .validators = .ok (.validators .unavailable, o) ∧
    serve L E t W pool relays o (.validatorInfo req) = .ok (.validator .unavailable, o) := by
  refine ⟨by rw [serve, h], ?_, ?_⟩
  · rw [serve]; unfold allValidators oracleReady; rw [hf]; rfl
  · rw [serve]; unfold validatorInfo oracleReady; rw [hf]; rfl

/-- the hypotheses: all tracked validators are reported -/
example : Work Sample.hash Sample.env (newOracle Sample.cfg) Sample.final ∧ Pieces b!"2,77" [b!"2", b!"77"] ∧
    (∃ a, validatorsByIndex Sample.outside.cache Sample.final.st b!"2,77" = .ok a) ∧
    ∀ p ∈ Sample.final.st.vals, (BMap.get (Sample.outside.cache.getD []) p.1).isSome :=
  ⟨Sample.final_work, ⟨by simp, by decide, by decide⟩,
    (C68_refused _ _ _).resolve_right (by decide +kernel), by decide +kernel⟩

/-- validator 2 is tracked and in neither list as long as the validators are not loaded -/
example : ∃ v a, VMap.get Sample.final.st.vals (numeralValue b!"2") = some v ∧
    validatorsByIndex none Sample.final.st b!"2" = .ok a := by
  obtain ⟨a, h⟩ : ∃ a, validatorsByIndex none Sample.final.st b!"2" = .ok a :=
    (C68_refused _ _ _).resolve_right (by decide +kernel)
  obtain ⟨v, hv⟩ := Option.isSome_iff_exists.mp
    (by decide +kernel : (VMap.get Sample.final.st.vals (numeralValue b!"2")).isSome = true)
  exact ⟨v, a, hv, h⟩

/-! ### C69 Requests change nothing -/

/-- **C69.** While the oracle works, a request leaves the oracle as it is; `/state` sets the hash field of the
state, nothing else. -/
theorem C69_reading_only {L : Lib} {H : List Nat → List Nat} {E : Env} (hE : ValidEnv E) (hX : ExactEnv E)
    (hC : NoSelfConsol E) {cfg : Config} {o o' : Oracle} (hw : Work H E (newOracle cfg) o) {t : Nat}
    {W : Outside} {pool : Str} {relays : List Str} {r : Request} {a : Reply}
    (h : serve L E t W pool relays o r = .ok (a, o')) :
    (r ≠ .state → o' = o) ∧ o' = ⟨o.cfg, { o.st with stateHash := o'.st.stateHash }⟩ := by
  suffices hk : o' = o ∨ (r = .state ∧ o' = ⟨o.cfg, { o.st with stateHash := o'.st.stateHash }⟩) by
    rcases hk with rfl | ⟨h1, h2⟩
    · exact ⟨fun _ => rfl, rfl⟩
    · exact ⟨fun hc => absurd h1 hc, h2⟩
  cases r with
  | state =>
    rw [serve] at h
    simp only [Except.ok.injEq, Prod.mk.injEq] at h
    exact Or.inr ⟨rfl, by rw [← h.2]; rfl⟩
  | validatorInfo i =>
    left
    rw [serve] at h
    simp only [Except.ok.injEq, Prod.mk.injEq] at h
    rw [← h.2]
    suffices hs : (validatorInfo W.fin o.st i).2 = o.st by rw [hs]
    unfold validatorInfo
    split
    · rfl
    · split
      · rfl
      · split
        · rfl
        · rename_i v hv
          rw [if_neg (by simpa using (work_records hE hX hC hw _ _ hv).2)]
  | status =>
    rw [serve] at h
    obtain ⟨x, _, h⟩ := bind_ok.mp h
    simp only [Except.ok.injEq, Prod.mk.injEq] at h
    exact Or.inl h.2.symm
  | relays key =>
    rw [serve] at h
    obtain ⟨x, _, h⟩ := bind_ok.mp h
    simp only [Except.ok.injEq, Prod.mk.injEq] at h
    exact Or.inl h.2.symm
  | byWithdrawal key =>
    rw [serve] at h
    obtain ⟨x, _, h⟩ := bind_ok.mp h
    simp only [Except.ok.injEq, Prod.mk.injEq] at h
    exact Or.inl h.2.symm
  | statistics =>
    rw [serve] at h
    obtain ⟨x, _, h⟩ := bind_ok.mp h
    simp only [Except.ok.injEq, Prod.mk.injEq] at h
    exact Or.inl h.2.symm
  | proof key =>
    rw [serve] at h
    split at h
    · cases h
    · simp only [Except.ok.injEq, Prod.mk.injEq] at h
      exact Or.inl h.2.symm
  | root | config | validators | byIndex | fees | allBlocks | proposedBlocks | missedBlocks |
      wrongFeeBlocks | donations =>
    rw [serve] at h
    simp only [Except.ok.injEq, Prod.mk.injEq] at h
    exact Or.inl h.2.symm

/-- **C69.** Whatever was asked in between, the oracle goes on as if nobody had asked: what it has become is
still the result of the work it has done. -/
theorem C69_work_goes_on {L : Lib} {H : List Nat → List Nat} {E : Env} (hE : ValidEnv E) (hX : ExactEnv E)
    (hC : NoSelfConsol E) {cfg : Config} {o o' : Oracle} (hw : Work H E (newOracle cfg) o) {t : Nat}
    {W : Outside} {pool : Str} {relays : List Str} {r : Request} {a : Reply}
    (h : serve L E t W pool relays o r = .ok (a, o')) : Work H E (newOracle cfg) o' := by
  rw [(C69_reading_only hE hX hC hw h).2]
  exact .saved o'.st.stateHash o.st.tick hw

/-- asking for validator 2 after four slots -/
example : ∃ a, serve (Toy.lib Sample.hash) Sample.env 0 Sample.outside Sample.pool [] Sample.final
    (.validatorInfo b!"2") = .ok (a, Sample.final) := by
  obtain ⟨a, o', h⟩ : ∃ a o', serve (Toy.lib Sample.hash) Sample.env 0 Sample.outside Sample.pool [] Sample.final
    (.validatorInfo b!"2") = .ok (a, o') := ⟨_, _, rfl⟩
  have := (C69_reading_only Sample.env_valid Sample.env_exact Sample.env_noSelf Sample.final_work h).1 (by simp)
  subst this
  exact ⟨a, h⟩

/-! ### C70 The router -/

theorem splitSlash_ne (s : Str) : splitSlash s ≠ [] := by
  cases s with
  | nil => simp [splitSlash]
  | cons c cs =>
    unfold splitSlash
    split
    · simp
    · split <;> simp

theorem splitSlash_self {x : Str} (h : 47 ∉ x) : splitSlash x = [x] := by
  induction x with
  | nil => rfl
  | cons c cs ih =>
    unfold splitSlash
    rw [if_neg (by intro hc; exact h (by simp [hc])), ih (by intro hc; exact h (by simp [hc]))]

theorem splitSlash_append {x : Str} (h : 47 ∉ x) (rest : Str) :
    splitSlash (x ++ 47 :: rest) = x :: splitSlash rest := by
  induction x with
  | nil => simp [splitSlash]
  | cons c cs ih =>
    rw [List.cons_append, splitSlash, if_neg (by intro hc; exact h (by simp [hc])),
      ih (by intro hc; exact h (by simp [hc]))]

theorem splitSlash_join (s : Str) : List.intercalate [47] (splitSlash s) = s ∧ ∀ p ∈ splitSlash s, 47 ∉ p := by
  induction s with
  | nil => simp [splitSlash, List.intercalate]
  | cons c cs ih =>
    obtain ⟨h1, h2⟩ := ih
    unfold splitSlash
    split
    · rename_i hc
      subst hc
      refine ⟨?_, ?_⟩
      · rw [List.intercalate_cons_of_ne_nil (splitSlash_ne _), h1]; rfl
      · intro p hp
        rcases List.mem_cons.mp hp with rfl | hp
        · simp
        · exact h2 p hp
    · rename_i hc
      split
      · rename_i he; exact absurd he (splitSlash_ne _)
      · rename_i p ps he
        rw [he] at h1 h2
        refine ⟨?_, ?_⟩
        · rw [← h1]
          cases ps with
          | nil => simp [List.intercalate]
          | cons q qs =>
            rw [List.intercalate_cons_of_ne_nil (List.cons_ne_nil q qs),
              List.intercalate_cons_of_ne_nil (zs := q :: qs) (List.cons_ne_nil q qs)]
            rfl
        · intro q hq
          rcases List.mem_cons.mp hq with rfl | hq
          · intro h47
            rcases List.mem_cons.mp h47 with h47 | h47
            · exact hc h47.symm
            · exact h2 p (by simp) h47
          · exact h2 q (by simp [hq])

theorem memoryRoute_some {a : Str} {r : Request} (h : memoryRoute a = some r) :
    b!"/memory/" ++ a = pathOf r ∧ argument r = none := by
  unfold memoryRoute at h
  repeat' split at h
  all_goals first
    | (rename_i ha; subst ha; cases h; exact ⟨rfl, rfl⟩)
    | cases h

/-- **C70.** A path leads to an endpoint exactly if it is the documented path of that endpoint, its variable
part being one non-empty segment. -/
theorem C70_router (path : Str) (r : Request) : route path = some r ↔ path = pathOf r ∧ ArgumentOK r := by
  constructor
  · intro h
    obtain ⟨hj, hs⟩ := splitSlash_join path
    unfold route at h
    split at h
    · rename_i a he
      rw [he] at hj hs
      have hp : path = 47 :: a := by rw [← hj]; simp [List.intercalate]
      repeat' split at h
      all_goals first
        | (rename_i ha; subst ha; cases h; exact ⟨hp, by intro x hx; cases hx⟩)
        | cases h
    · rename_i a x he
      rw [he] at hj hs
      have hp : path = 47 :: (a ++ 47 :: x) := by rw [← hj]; simp [List.intercalate]
      have hx : 47 ∉ x := hs x (by simp)
      split at h
      · cases h
      · rename_i hne
        split at h
        · rename_i ha
          cases h
          refine ⟨by rw [hp, ha]; rfl, ?_⟩
          intro y hy; cases hy; exact ⟨hne, hx⟩
        · split at h
          · rename_i ha
            obtain ⟨h1, h2⟩ := memoryRoute_some h
            refine ⟨by rw [hp, ← h1, ha]; rfl, ?_⟩
            intro y hy; rw [h2] at hy; cases hy
          · cases h
    · rename_i a b x he
      rw [he] at hj hs
      have hp : path = 47 :: (a ++ 47 :: (b ++ 47 :: x)) := by rw [← hj]; simp [List.intercalate]
      have hx : 47 ∉ x := hs x (by simp)
      split at h
      · cases h
      · rename_i hne
        split at h
        · rename_i ha
          repeat' split at h
          all_goals first
            | (rename_i hb
               cases h
               refine ⟨by rw [hp, ha, hb]; rfl, ?_⟩
               intro y hy; cases hy; exact ⟨hne, hx⟩)
            | cases h
        · split at h
          · rename_i hab
            cases h
            refine ⟨by rw [hp, hab.1, hab.2]; rfl, ?_⟩
            intro y hy; cases hy; exact ⟨hne, hx⟩
          · cases h
    · cases h
  · rintro ⟨rfl, hr⟩
    have two : ∀ (a x : Str), 47 ∉ a → 47 ∉ x → splitSlash (47 :: (a ++ 47 :: x)) = [[], a, x] := by
      intro a x ha hx
      rw [splitSlash, if_pos rfl, splitSlash_append ha, splitSlash_self hx]
    have three : ∀ (a b x : Str), 47 ∉ a → 47 ∉ b → 47 ∉ x →
        splitSlash (47 :: (a ++ 47 :: (b ++ 47 :: x))) = [[], a, b, x] := by
      intro a b x ha hb hx
      rw [splitSlash, if_pos rfl, splitSlash_append ha, splitSlash_append hb, splitSlash_self hx]
    cases r with
    | relays x =>
      obtain ⟨h1, h2⟩ := hr x rfl
      have e : pathOf (.relays x) = 47 :: (b!"registeredrelays" ++ 47 :: x) := rfl
      unfold route
      rw [e, two _ _ (by decide) h2]
      simp [h1]
    | validatorInfo x =>
      obtain ⟨h1, h2⟩ := hr x rfl
      have e : pathOf (.validatorInfo x) = 47 :: (b!"memory" ++ 47 :: (b!"validator" ++ 47 :: x)) := rfl
      unfold route
      rw [e, three _ _ _ (by decide) (by decide) h2]
      simp [h1]
    | byIndex x =>
      obtain ⟨h1, h2⟩ := hr x rfl
      have e : pathOf (.byIndex x) = 47 :: (b!"memory" ++ 47 :: (b!"validatorsbyindex" ++ 47 :: x)) := rfl
      unfold route
      rw [e, three _ _ _ (by decide) (by decide) h2]
      simp [h1]
    | byWithdrawal x =>
      obtain ⟨h1, h2⟩ := hr x rfl
      have e : pathOf (.byWithdrawal x) = 47 :: (b!"memory" ++ 47 :: (b!"validators" ++ 47 :: x)) := rfl
      unfold route
      rw [e, three _ _ _ (by decide) (by decide) h2]
      simp [h1]
    | proof x =>
      obtain ⟨h1, h2⟩ := hr x rfl
      have e : pathOf (.proof x) = 47 :: (b!"onchain" ++ 47 :: (b!"proof" ++ 47 :: x)) := rfl
      unfold route
      rw [e, three _ _ _ (by decide) (by decide) h2]
      simp [h1]
    | root | status | config | state | validators | fees | statistics | allBlocks | proposedBlocks |
        missedBlocks | wrongFeeBlocks | donations => decide

/-- no path leads to two endpoints -/
theorem C70_one_endpoint {r r' : Request} (h : ArgumentOK r) (h' : ArgumentOK r') (he : pathOf r = pathOf r') :
    r = r' := by
  have h1 := (C70_router (pathOf r) r).mpr ⟨rfl, h⟩
  have h2 := (C70_router (pathOf r) r').mpr ⟨he, h'⟩
  rw [h1] at h2
  cases h2; rfl

example : route b!"/memory/validatorsbyindex/1,2" = some (.byIndex b!"1,2") ∧ ArgumentOK (.byIndex b!"1,2") ∧
    route b!"/memory/validators/" = none ∧ route b!"/memory/validator/1/2" = none :=
  ⟨by decide, by intro x hx; cases hx; decide, by decide, by decide⟩

/-! ### C71 The status endpoint -/

/-- **C71.** If the nodes answer, the oracle is not ahead of the finalized slot and neither is the contract,
the numbers of `/status` are the differences they claim to be.

Missing, and false: an oracle ahead of the slot the node says is finalized (`C71_false_ahead`). -/
theorem C71_status_partial {N : NodeInfo} {chain cons f c d : Nat} {dep : List Nat} {exec : Bool}
    {cfg : Config} {s : State} (h1 : N.chainId = some chain) (h2 : N.deposit = some (cons, dep))
    (h3 : N.execSync = some exec) (h4 : N.consSync = .distance d) (hl : s.latestSlot ≤ f) (hc : c ≤ f)
    (hf : f < 2 ^ 60) (hcp : c + cfg.cpSize < 2 ^ 60) :
    ∃ a, handleStatus N (some f) (some c) cfg s = .ok (.ok a) ∧
      (a.consInSync = true ↔ d < 2) ∧ a.execInSync = exec ∧
      (a.numbers.inSync = true ↔ s.latestSlot = f) ∧
      a.numbers.latestSlot = s.latestSlot ∧ a.numbers.latestBlock = s.latestBlock ∧
      s.latestSlot + a.numbers.headDistance = f ∧
      a.numbers.finalizedSlot = f ∧ a.numbers.finalizedEpoch = f / 32 ∧
      a.numbers.previousCheckpoint = c ∧ a.numbers.previousAgeSeconds = 12 * (f - c) ∧
      a.numbers.nextCheckpoint = c + cfg.cpSize ∧
      a.numbers.remainingSeconds = 12 * (c + cfg.cpSize - f) ∧
      a.execChain = chain ∧ a.consChain = cons ∧ a.deposit = b!"0x" ++ hexEncode dep := by
  unfold handleStatus
  rw [h1, h2, h3, h4]
  unfold statusAnswer
  dsimp only
  refine ⟨_, rfl, by simp, rfl, ?_, rfl, rfl, ?_, rfl, rfl, rfl, ?_, ?_, ?_, rfl, rfl, rfl⟩
  · simp only [beq_iff_eq]
    unfold sub64 u64
    omega
  · dsimp only
    unfold sub64 u64
    omega
  · dsimp only
    unfold sub64 u64
    omega
  · dsimp only
    unfold u64
    omega
  · dsimp only
    split <;> simp only [sub64, u64] at * <;> omega

/-- **C71 is false** for an oracle ahead of the slot that the beacon node says is finalized (the cases of
`C49_false_ahead`): one slot ahead is shown as 2^64 - 1 slots behind. -/
theorem C71_false_ahead {N : NodeInfo} {f c d chain cons : Nat} {dep : List Nat} {exec : Bool} {cfg : Config}
    {s : State} (h1 : N.chainId = some chain) (h2 : N.deposit = some (cons, dep))
    (h3 : N.execSync = some exec) (h4 : N.consSync = .distance d)
    (hl : s.latestSlot = f + 1) (hf : f + 1 < 2 ^ 64) :
    ∃ a, handleStatus N (some f) (some c) cfg s = .ok (.ok a) ∧ a.numbers.headDistance = 2 ^ 64 - 1 ∧
      a.numbers.inSync = false := by
  unfold handleStatus
  rw [h1, h2, h3, h4]
  unfold statusAnswer
  dsimp only
  refine ⟨_, rfl, ?_, ?_⟩
  · dsimp only
    unfold sub64 u64
    omega
  · dsimp only
    rw [beq_eq_false_iff_ne]
    unfold sub64 u64
    omega

/-- the hypotheses of `C71_status_partial` after four slots -/
example : Sample.final.st.latestSlot ≤ 12000010 ∧ Sample.outside.nodes.consSync = .distance 1 ∧
    11999900 + Sample.cfg.cpSize < 2 ^ 60 := by decide +kernel

/-! ### C72 The list of validators -/

theorem sorted_perm_unique {l l' : List Validator} (hp : l.Perm l') (h : l.Pairwise fun a b => a.index ≤ b.index)
    (h' : l'.Pairwise fun a b => a.index < b.index) : l = l' := by
  have hn : (l.map (·.index)).Nodup := by
    rw [(hp.map (·.index)).nodup_iff]
    exact List.pairwise_map.mpr (h'.imp fun h => Nat.ne_of_lt h)
  have hlt : l.Pairwise fun a b => a.index < b.index :=
    (h.and (List.pairwise_map.mp hn)).imp fun k => Nat.lt_of_le_of_ne k.1 k.2
  exact hp.eq_of_pairwise (le := fun a b => a.index < b.index)
    (fun a b _ _ k1 k2 => absurd (Nat.lt_trans k1 k2) (Nat.lt_irrefl _)) hlt h'

/-- **C72.** While the oracle works and is at most 64 slots behind, the endpoint lists the tracked validators
that the beacon node reported, each once, in the order of their indices, each with what the oracle recorded
and what the node reported. -/
theorem C72_validators {H : List Nat → List Nat} {E : Env} (hE : ValidEnv E) (hX : ExactEnv E)
    (hC : NoSelfConsol E) {cfg : Config} {o : Oracle} (hw : Work H E (newOracle cfg) o) (t : Nat) {f : Nat}
    (hf : f < 2 ^ 64) (h1 : o.st.latestSlot ≤ f) (h2 : f ≤ o.st.latestSlot + 64) (cache : Option BMap) :
    ∃ l, allValidators E t (some f) cache o.st = .ok l ∧
      (l.map fun p => p.1.index).Pairwise (· < ·) ∧
      ∀ v u, (v, u) ∈ l ↔ VMap.get o.st.vals v.index = some v ∧ BMap.get (cache.getD []) v.index = some u := by
  have hs := (work_stats hE hX hC hw).1
  have hr := work_records hE hX hC hw
  have hready : oracleReady (some f) o.st.latestSlot 64 = true :=
    (C49_ready_partial hf h1).mpr h2
  have hlist : ((E.shuffle t o.st.vals).map (·.2)).mergeSort (fun a b => a.index ≤ b.index) =
      o.st.vals.map (·.2) := by
    apply sorted_perm_unique
    · exact (List.mergeSort_perm _ _).trans ((shuffle_perm hE t o.st.vals).map _)
    · have := List.pairwise_mergeSort (le := fun a b : Validator => decide (a.index ≤ b.index))
        (by simp; omega) (by simp; omega) ((E.shuffle t o.st.vals).map (·.2))
      exact this.imp fun k => by simpa using k
    · rw [List.pairwise_map]
      refine List.Pairwise.imp_of_mem ?_ hs
      intro p q hp hq hlt
      rw [(hr _ _ (Sorted.get_of_mem hs hp)).2, (hr _ _ (Sorted.get_of_mem hs hq)).2]
      exact hlt
  unfold allValidators
  rw [hready]
  simp only [Bool.not_true, Bool.false_eq_true, if_false]
  rw [hlist]
  refine ⟨_, rfl, ?_, ?_⟩
  · rw [List.pairwise_map]
    have hp : (o.st.vals.map (·.2)).Pairwise fun a b => a.index < b.index := by
      rw [List.pairwise_map]
      refine List.Pairwise.imp_of_mem ?_ hs
      intro p q hp hq hlt
      rw [(hr _ _ (Sorted.get_of_mem hs hp)).2, (hr _ _ (Sorted.get_of_mem hs hq)).2]
      exact hlt
    refine List.Pairwise.filterMap _ ?_ hp
    intro a a' hlt b hb b' hb'
    obtain ⟨u, _, rfl⟩ := Option.map_eq_some_iff.mp hb
    obtain ⟨u', _, rfl⟩ := Option.map_eq_some_iff.mp hb'
    exact hlt
  · intro v u
    rw [List.mem_filterMap]
    constructor
    · rintro ⟨w, hw, h⟩
      obtain ⟨u', hu, he⟩ := Option.map_eq_some_iff.mp h
      cases he
      obtain ⟨p, hp, rfl⟩ := List.mem_map.mp hw
      have hg := Sorted.get_of_mem hs hp
      exact ⟨by rw [(hr _ _ hg).2]; exact hg, hu⟩
    · rintro ⟨hv, hu⟩
      exact ⟨v, List.mem_map.mpr ⟨(v.index, v), mem_of_get hv, rfl⟩, by rw [hu]; rfl⟩

/-- after four slots, seen seven slots later -/
example : ∃ l, allValidators Sample.env 0 (some 12000010) Sample.outside.cache Sample.final.st = .ok l ∧
    ∃ v u, (v, u) ∈ l ∧ v.index = 2 := by
  obtain ⟨l, h, _, h2⟩ := C72_validators Sample.env_valid Sample.env_exact Sample.env_noSelf Sample.final_work 0
    (f := 12000010) (by decide) (by decide +kernel) (by decide +kernel) Sample.outside.cache
  obtain ⟨v, hv⟩ := Option.isSome_iff_exists.mp
    (by decide +kernel : (VMap.get Sample.final.st.vals 2).isSome = true)
  have hi := (work_records Sample.env_valid Sample.env_exact Sample.env_noSelf Sample.final_work 2 v hv).2
  exact ⟨l, h, v, Sample.bval 2, (h2 _ _).mpr ⟨by rw [hi]; exact hv, by rw [hi]; decide⟩, hi⟩

/-! ### C73 The lists of blocks -/

open Classical in
/-- **C73.** After processing `bs` from the beginning: `/memory/proposedblocks` lists exactly the processed
slots in which the pool was paid, in order; `/memory/missedblocks` lists only processed slots that were missed
and `/memory/wrongfeeblocks` only slots whose block did not pay the pool, in order; `/memory/allblocks` lists
these three after one another, no slot twice. -/
theorem C73_blocks {E : Env} {cfg : Config} {bs : List FullBlock} {o : Oracle}
    (h : Hist E (newOracle cfg) bs o) (hlen : cfg.depSlot + bs.length < 2 ^ 64) (L : Lib) (t : Nat)
    (W : Outside) (pool : Str) (relays : List Str) :
    ∃ p m w, serve L E t W pool relays o .proposedBlocks = .ok (.blocks p, o) ∧
      serve L E t W pool relays o .missedBlocks = .ok (.blocks m, o) ∧
      serve L E t W pool relays o .wrongFeeBlocks = .ok (.blocks w, o) ∧
      serve L E t W pool relays o .allBlocks = .ok (.blocks (p ++ m ++ w), o) ∧
      p.map (·.slot) = (bs.filter fun b => PaidPool b cfg.poolAddr).map (·.dutySlot) ∧
      (m.map (·.slot)).Sublist ((bs.filter fun b => b.cons = none).map (·.dutySlot)) ∧
      (w.map (·.slot)).Sublist
        ((bs.filter fun b => b.cons ≠ none ∧ ¬ PaidPool b cfg.poolAddr).map (·.dutySlot)) ∧
      ((p ++ m ++ w).map (·.slot)).Nodup := by
  refine ⟨o.st.proposed, o.st.missed, o.st.wrongFee, rfl, rfl, rfl, rfl, ?_⟩
  have key : ∀ {o bs o'}, Hist E o bs o' → o.cfg.poolAddr = cfg.poolAddr →
      ∃ p m w, o'.st.proposed = o.st.proposed ++ p ∧ o'.st.missed = o.st.missed ++ m ∧
        o'.st.wrongFee = o.st.wrongFee ++ w ∧
        p.map (·.slot) = (bs.filter fun b => PaidPool b cfg.poolAddr).map (·.dutySlot) ∧
        (m.map (·.slot)).Sublist ((bs.filter fun b => b.cons = none).map (·.dutySlot)) ∧
        (w.map (·.slot)).Sublist
          ((bs.filter fun b => b.cons ≠ none ∧ ¬ PaidPool b cfg.poolAddr).map (·.dutySlot)) := by
    intro o bs o' h
    induction h with
    | nil => exact fun _ => ⟨[], [], [], by simp, by simp, by simp, rfl, by simp, by simp⟩
    | @cons o b o1 n bs o2 hstep _ ih =>
      intro hpool
      obtain ⟨sb, dons, p, m, w, hsb, _, hrec, hcfg, h5, _, h7, _⟩ := slot_frame hstep
      obtain ⟨p', m', w', i1, i2, i3, i4, i5, i6⟩ := ih (by rw [hcfg]; exact hpool)
      have e5 : o1.st.proposed = o.st.proposed ++ p := by
        have := congrArg State.proposed h5; exact this
      have e6 : o1.st.missed = o.st.missed ++ m := by
        have := congrArg State.missed h5; exact this
      have e7 : o1.st.wrongFee = o.st.wrongFee ++ w := by
        have := congrArg State.wrongFee h5; exact this
      have hslot : sb.slot = b.dutySlot := (summarize_slot hsb).1
      obtain ⟨hpaid, hwrong, hmiss⟩ := summarize_paid hsb
      rw [hpool] at hpaid hwrong
      refine ⟨p ++ p', m ++ m', w ++ w', by rw [i1, e5, List.append_assoc],
        by rw [i2, e6, List.append_assoc], by rw [i3, e7, List.append_assoc], ?_, ?_, ?_⟩
      · rw [List.map_append, i4, List.filter_cons, hrec.prop]
        by_cases hp : PaidPool b cfg.poolAddr
        · rw [if_pos (hpaid.mpr hp), if_pos (by simpa using hp)]
          simp [hslot]
        · rw [if_neg (fun hc => hp (hpaid.mp hc)), if_neg (by simpa using hp)]
          simp
      · rw [List.map_append, List.filter_cons]
        rcases hrec.miss with hm | ⟨hm, ht⟩
        · rw [hm, List.map_nil, List.nil_append]
          split
          · exact i5.trans (List.sublist_cons_self _ _)
          · exact i5
        · rw [hm, if_pos (by simpa using hmiss.mp ht)]
          simpa [hslot] using i5
      · rw [List.map_append, List.filter_cons]
        rcases hrec.wrong with hm | ⟨hm, ht⟩
        · rw [hm, List.map_nil, List.nil_append]
          split
          · exact i6.trans (List.sublist_cons_self _ _)
          · exact i6
        · rw [hm, if_pos (by simpa using hwrong.mp ht)]
          simpa [hslot] using i6
  obtain ⟨p, m, w, h1, h2, h3, h4, h5, h6⟩ := key h rfl
  have e1 : o.st.proposed = p := h1
  have e2 : o.st.missed = m := h2
  have e3 : o.st.wrongFee = w := h3
  rw [e1, e2, e3]
  refine ⟨h4, h5, h6, ?_⟩
  rw [← e1, ← e2, ← e3]
  exact C23_recorded_once h hlen

/-- two blocks that paid, a missed slot and a wrong fee recipient -/
example : Hist Sample.env (newOracle Sample.cfg) Sample.blocks Sample.final ∧
    Sample.cfg.depSlot + Sample.blocks.length < 2 ^ 64 ∧
    (Sample.final.st.proposed ++ Sample.final.st.missed ++ Sample.final.st.wrongFee).length = 4 :=
  ⟨Sample.hist, by decide, by decide +kernel⟩

end Verif
