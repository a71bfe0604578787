import Verif.Lemmas.Persist
import Verif.Lemmas.Typed
import Verif.Spec.ToyJson
import Verif.Spec.Fees
/-
Saving and loading the state (C30, C31, C32, C34), the sync check (C38) and the names in files (C58).
`L` stands for encoding/json and crypto/sha256, `H` for Keccak-256.
-/
namespace Verif

/-! ### C58 -/

/-- **C58.** The names of the validator states: each is written as its agreed name, exactly the agreed
names are read back, to the same state; no two states share a name. -/
theorem C58_status (x : Status) (s : Str) :
    (Status.parse s = some x ↔ (x, s) ∈ statusNames) ∧ (x, x.name) ∈ statusNames ∧
    (statusNames.map (·.2)).Nodup := by
  refine ⟨⟨fun h => ?_, fun h => ?_⟩, by cases x <;> decide, by decide⟩
  · unfold Status.parse at h
    repeat' split at h
    all_goals first
      | (rename_i e; rw [e]; simp only [Option.some.injEq] at h; subst h; decide)
      | cases h
  · simp only [statusNames, List.mem_cons, Prod.mk.injEq, List.not_mem_nil, or_false] at h
    rcases h with ⟨rfl, rfl⟩ | ⟨rfl, rfl⟩ | ⟨rfl, rfl⟩ | ⟨rfl, rfl⟩ | ⟨rfl, rfl⟩ | ⟨rfl, rfl⟩ | ⟨rfl, rfl⟩ <;>
      decide

/-- **C58.** The names of the reward types. -/
theorem C58_reward (x : RewardType) (s : Str) :
    (RewardType.parse s = some x ↔ (x, s) ∈ rewardNames) ∧ (x, x.name) ∈ rewardNames ∧
    (rewardNames.map (·.2)).Nodup := by
  refine ⟨⟨fun h => ?_, fun h => ?_⟩, by cases x <;> decide, by decide⟩
  · unfold RewardType.parse at h
    repeat' split at h
    all_goals first
      | (rename_i e; rw [e]; simp only [Option.some.injEq] at h; subst h; decide)
      | cases h
  · simp only [rewardNames, List.mem_cons, Prod.mk.injEq, List.not_mem_nil, or_false] at h
    rcases h with ⟨rfl, rfl⟩ | ⟨rfl, rfl⟩ | ⟨rfl, rfl⟩ <;> decide

/-- **C58.** The names of the block types. -/
theorem C58_block (x : BlockType) (s : Str) :
    (BlockType.parse s = some x ↔ (x, s) ∈ blockNames) ∧ (x, x.name) ∈ blockNames ∧
    (blockNames.map (·.2)).Nodup := by
  refine ⟨⟨fun h => ?_, fun h => ?_⟩, by cases x <;> decide, by decide⟩
  · unfold BlockType.parse at h
    repeat' split at h
    all_goals first
      | (rename_i e; rw [e]; simp only [Option.some.injEq] at h; subst h; decide)
      | cases h
  · simp only [blockNames, List.mem_cons, Prod.mk.injEq, List.not_mem_nil, or_false] at h
    rcases h with ⟨rfl, rfl⟩ | ⟨rfl, rfl⟩ | ⟨rfl, rfl⟩ | ⟨rfl, rfl⟩ | ⟨rfl, rfl⟩ <;> decide

/-- **C58.** The names of the subscription types. -/
theorem C58_subscription (x : SubType) (s : Str) :
    (SubType.parse s = some x ↔ (x, s) ∈ subNames) ∧ (x, x.name) ∈ subNames ∧
    (subNames.map (·.2)).Nodup := by
  refine ⟨⟨fun h => ?_, fun h => ?_⟩, by cases x <;> decide, by decide⟩
  · unfold SubType.parse at h
    repeat' split at h
    all_goals first
      | (rename_i e; rw [e]; simp only [Option.some.injEq] at h; subst h; decide)
      | cases h
  · simp only [subNames, List.mem_cons, Prod.mk.injEq, List.not_mem_nil, or_false] at h
    rcases h with ⟨rfl, rfl⟩ | ⟨rfl, rfl⟩ <;> decide

/-! ### C30 -/

theorem slotJson_ne (n : Nat) : slotJson n ≠ stateJson := by
  intro h
  have := congrArg (fun l => l[5]?) h
  simp [slotJson, stateJson] at this

theorem save_state (L : Lib) (flag o d) :
    getStr (saveToJson L flag o d).2 stateJson = some (savedBytes L o.st) := by
  unfold saveToJson
  cases flag
  · simp only [Bool.false_eq_true, if_false, getStr_putStr, if_true]
  · simp only [if_true, getStr_putStr]
    rw [if_neg (slotJson_ne _).symm]

theorem save_copy (L : Lib) (o d) :
    getStr (saveToJson L true o d).2 (slotJson o.st.latestSlot) = some (savedBytes L o.st) := by
  unfold saveToJson
  simp only [if_true, getStr_putStr]

/-- **C30, partial.** A state that the oracle reached and saved is accepted when it is read back under
the initial configuration (fee before any change), from the main file and from the copy, whatever else
is on the disk and whatever state is in memory; it restores the same state and the same configuration,
fee included. What is missing for the full claim: the condition on addresses, without which loading stops
the process (see below). -/
theorem C30_round_trip_partial {L : Lib} (hL : LibOK L) {H : List Nat → List Nat} {E E' : Env}
    (hE : ValidEnv E) (hE' : ValidEnv E') {cfg : Config} {o o0 : Oracle} (hw : Work H E (newOracle cfg) o)
    (ht : StateTyped o.st) (ha : AddressesOK o.st) (h0 : o0.cfg = cfg) (d : Disk) (flag : Bool) :
    (∃ o', loadFromPath L H E' (saveToJson L flag o d).2 o0 stateJson = .ok (o', .loaded) ∧
      o'.cfg = o.cfg ∧ SameContent o'.st o.st) ∧
    ∃ o', loadFromPath L H E' (saveToJson L true o d).2 o0 (slotJson o.st.latestSlot) =
      .ok (o', .loaded) ∧ o'.cfg = o.cfg ∧ SameContent o'.st o.st := by
  have hi := cfgInv_work hE hw
  have hc : loadCfg o0.cfg o.st = o.cfg := by rw [h0]; exact loadCfg_inv hi
  have key := load_saved hL (H := H) hE' (o := o0) ht ha (by rw [hc]; exact hi.same)
  rw [hc] at key
  refine ⟨⟨⟨o.cfg, { o.st with stateHash := [], tick := o0.st.tick + 2 }⟩, ?_, rfl, rfl⟩,
    ⟨o.cfg, { o.st with stateHash := [], tick := o0.st.tick + 2 }⟩, ?_, rfl, rfl⟩
  · unfold loadFromPath
    rw [save_state]
    exact key
  · unfold loadFromPath
    rw [save_copy]
    exact key

/-- **C30.** After such a restart everything goes on as if it had not happened: theorems about the
oracle at work (`Work`) apply to the restarted oracle. -/
theorem C30_work_goes_on {H : List Nat → List Nat} {E : Env} {o0 o o' : Oracle} (hw : Work H E o0 o)
    (hc : o'.cfg = o.cfg) (hs : SameContent o'.st o.st) : Work H E o0 o' := by
  have e : o' = ⟨o.cfg, { o.st with stateHash := o'.st.stateHash, tick := o'.st.tick }⟩ := by
    have := hs.symm.eq
    obtain ⟨c, s⟩ := o'
    dsimp only at hc this ⊢
    rw [hc]
    congr 1
  rw [e]
  exact Work.saved _ _ hw

/-- A history is work. -/
theorem Work.of_hist {H E o bs o'} (h : Hist E o bs o') (hb : ∀ b ∈ bs, b.dutySlot + 1 < 2 ^ 64) :
    Work H E o o' := by
  have gen : ∀ {o1 bs o'}, Hist E o1 bs o' → (∀ b ∈ bs, b.dutySlot + 1 < 2 ^ 64) →
      ∀ o0, Work H E o0 o1 → Work H E o0 o' := by
    intro o1 bs o' h
    induction h with
    | nil => exact fun _ _ hw => hw
    | cons hs _ ih =>
      exact fun hb o0 hw => ih (fun b hm => hb b (List.mem_cons_of_mem _ hm)) o0
        (.slot hw hs (hb _ List.mem_cons_self))
  exact gen h hb o (.refl o)

/-- Four slots are processed, the state is saved and read back. -/
example : LibOK (Toy.lib Sample.hash) ∧ ValidEnv Sample.env ∧
    Work Sample.hash Sample.env (newOracle Sample.cfg) Sample.final ∧ StateTyped Sample.final.st ∧
    AddressesOK Sample.final.st ∧ Sample.final.st.vals ≠ [] :=
  ⟨Toy.lib_ok Sample.hash_ok, Sample.env_valid,
    Work.of_hist Sample.hist (by decide +kernel), typed_of (by decide +kernel),
    ⟨fun p hp => isAddress_of ((by decide +kernel : ∀ p ∈ Sample.final.st.vals,
        (p.2.waddr.take 2 == b!"0x" && p.2.waddr.length == 42 &&
        (p.2.waddr.drop 2).all fun c =>
          (48 ≤ c && c ≤ 57) || (97 ≤ c && c ≤ 102) || (65 ≤ c && c ≤ 70)) = true) p hp),
      isAddress_of (by decide +kernel), by decide +kernel⟩, by decide +kernel⟩

/-- **C30 is false in general.** When a stranger's validator with the pool contract as withdrawal address
has been subscribed automatically (see `C61_false_pool_owned_validator`), the oracle still saves its
state but reading it back stops the process: the Merkle root is computed to log it. -/
theorem C30_false_pool_owned_validator {L : Lib} (hL : LibOK L) (d : Disk) :
    ∃ o, Hist Sample.env (newOracle Sample.cfg) [Sample.poolOwned] o ∧ StateTyped o.st ∧
      loadFromPath L Sample.hash Sample.env (saveToJson L true o d).2 (newOracle Sample.cfg) stateJson =
        .error .fatal := by
  obtain ⟨o, n, h, h2⟩ := Sample.ex_slot (E := Sample.env) (o := newOracle Sample.cfg)
    (b := Sample.poolOwned) (P := fun o => typedB o.st &&
      (match generateTree Sample.hash Sample.env 0 { o.st with stateHash := [], tick := 0 } with
      | .error .fatal => true
      | _ => false)) (by decide +kernel)
  rw [Bool.and_eq_true] at h2
  have ht := typed_of h2.1
  refine ⟨o, .cons h (.nil _), ht, ?_⟩
  have hi : CfgInv Sample.cfg o := (cfgInv_new Sample.cfg).slot h (by decide)
  have hc : loadCfg (newOracle Sample.cfg).cfg o.st = o.cfg := loadCfg_inv hi
  unfold loadFromPath
  rw [save_state]
  dsimp only
  rw [load_saved_eq hL ht, hc]
  have e1 : o.cfg.network = (newOracle Sample.cfg).cfg.network := by rw [hi.cfg_eq]; rfl
  have e2 : o.cfg.poolAddr = (newOracle Sample.cfg).cfg.poolAddr := by rw [hi.cfg_eq]; rfl
  have e3 : o.cfg.poolFeesAddr = (newOracle Sample.cfg).cfg.poolFeesAddr := by rw [hi.cfg_eq]; rfl
  rw [if_neg (fun hh => hh (hi.same.network.trans e1)), if_neg (fun hh => hh (hi.same.poolAddr.trans e2)),
    if_neg (fun hh => hh (hi.same.poolFeesAddr.trans e3)), if_neg (fun hh => hh hi.same.fee),
    if_neg (fun hh => hh hi.same.collateral), if_neg (fun hh => hh hi.same.cpSize),
    if_neg (fun hh => hh hi.same.depBlock), if_neg (fun hh => hh hi.same.depSlot)]
  have h3 := h2.2
  split at h3
  · rename_i e
    rw [show (newOracle Sample.cfg).st.tick = 0 from rfl, e]
    rfl
  · simp at h3

/-! ### C31 -/

theorem feeSchedule_change {net : Str} {p : Nat × Int} (h : p ∈ feeSchedule net) :
    FeeChange net p.1 p.2 := by
  unfold feeSchedule at h
  split at h
  · rename_i hn
    rw [List.mem_singleton] at h
    subst h
    exact Or.inl ⟨hn, rfl, rfl⟩
  · split at h
    · rename_i hn
      rw [List.mem_singleton] at h
      subst h
      exact Or.inr ⟨hn, rfl, rfl⟩
    · cases h

theorem bestEntry_cases (n : Nat) (l : List (Nat × Int)) (best) :
    bestEntry n l best = best ∨ ∃ p ∈ l, p.1 ≤ n ∧ bestEntry n l best = some p := by
  induction l generalizing best with
  | nil => exact Or.inl rfl
  | cons a l ih =>
    rw [bestEntry]
    split
    · rename_i h
      rcases ih (some (a.1, a.2)) with e | ⟨p, hp, hle, e⟩
      · exact Or.inr ⟨a, List.mem_cons_self, h.1, e⟩
      · exact Or.inr ⟨p, List.mem_cons_of_mem _ hp, hle, e⟩
    · rcases ih best with e | ⟨p, hp, hle, e⟩
      · exact Or.inl e
      · exact Or.inr ⟨p, List.mem_cons_of_mem _ hp, hle, e⟩

theorem ite_cases {α : Sort _} {c : Prop} [Decidable c] {x y r : α} (h : (if c then x else y) = r) :
    (c ∧ x = r) ∨ (¬ c ∧ y = r) := by
  by_cases hc : c
  · exact Or.inl ⟨hc, by rwa [if_pos hc] at h⟩
  · exact Or.inr ⟨hc, by rwa [if_neg hc] at h⟩

theorem loadCfg_cases (cfg : Config) (s : State) :
    loadCfg cfg s = cfg ∨ ∃ slot fee, slot ≤ s.latestSlot ∧ FeeChange cfg.network slot fee ∧
      loadCfg cfg s = { cfg with fee := fee } := by
  unfold loadCfg
  split
  · unfold applySchedule
    rcases bestEntry_cases s.latestSlot (feeSchedule cfg.network) none with e | ⟨p, hp, hle, e⟩
    · rw [e]; exact Or.inl rfl
    · rw [e]; exact Or.inr ⟨p.1, p.2, hle, feeSchedule_change hp, rfl⟩
  · exact Or.inl rfl

/-- **C31.** A file is accepted only if it is a document that describes a state, whose recorded hash is
(up to letter case) the hash of its content without the hash, and network, addresses, fee, collateral,
checkpoint size and deployment data are those of the configuration. The state in memory is then the
content of the file. The configuration keeps everything but possibly the fee, which changes only to an
agreed one whose time has come at the slot of the file. -/
theorem C31_accepted_only_if {L : Lib} {H : List Nat → List Nat} {E : Env} {o o' : Oracle}
    {raw : List Nat} (h : loadFromBytes L H E o raw = .ok (o', .loaded)) :
    ∃ j st, L.parse raw = some j ∧ decState j = some st ∧
      lower st.stateHash =
        lower (b!"0x" ++ hexEncode (L.sha (L.print (encState { st with stateHash := [] })))) ∧
      SameContent o'.st st ∧ CfgMatches o'.cfg o'.st ∧
      (o'.cfg = o.cfg ∨ ∃ slot fee, slot ≤ st.latestSlot ∧ FeeChange o.cfg.network slot fee ∧
        o'.cfg = { o.cfg with fee := fee }) := by
  unfold loadFromBytes at h
  cases hj : L.parse raw with
  | none => rw [hj] at h; simp at h
  | some j =>
    rw [hj, Option.bind_some] at h
    cases hd : decState j with
    | none => rw [hd] at h; simp at h
    | some st =>
      rw [hd] at h
      dsimp only at h
      rw [bind_ok] at h
      obtain ⟨same, he, h⟩ := h
      change (if !same then _ else if st.network ≠ o.cfg.network then _ else
        if st.poolAddr ≠ o.cfg.poolAddr then _ else if st.poolFeesAddr ≠ o.cfg.poolFeesAddr then _ else
        if st.fee ≠ (loadCfg o.cfg st).fee then _ else
        if st.collateral ≠ (loadCfg o.cfg st).collateral then _ else
        if st.cpSize ≠ (loadCfg o.cfg st).cpSize then _ else
        if st.depBlock ≠ (loadCfg o.cfg st).depBlock then _ else
        if st.depSlot ≠ (loadCfg o.cfg st).depSlot then _ else do
          let _ ← generateTree H E o.st.tick { st with stateHash := [], tick := o.st.tick }
          Except.ok ((⟨loadCfg o.cfg st, { st with stateHash := [], tick := o.st.tick + 2 }⟩, Load.loaded) :
            Oracle × Load)) = _ at h
      rcases ite_cases h with ⟨_, h⟩ | ⟨h1, h⟩
      · simp at h
      rcases ite_cases h with ⟨_, h⟩ | ⟨h2, h⟩
      · simp at h
      rcases ite_cases h with ⟨_, h⟩ | ⟨h3, h⟩
      · simp at h
      rcases ite_cases h with ⟨_, h⟩ | ⟨h4, h⟩
      · simp at h
      rcases ite_cases h with ⟨_, h⟩ | ⟨h5, h⟩
      · simp at h
      rcases ite_cases h with ⟨_, h⟩ | ⟨h6, h⟩
      · simp at h
      rcases ite_cases h with ⟨_, h⟩ | ⟨h7, h⟩
      · simp at h
      rcases ite_cases h with ⟨_, h⟩ | ⟨h8, h⟩
      · simp at h
      rcases ite_cases h with ⟨_, h⟩ | ⟨h9, h⟩
      · simp at h
      rw [bind_ok] at h
      obtain ⟨_, _, h⟩ := h
      have h := (congrArg Prod.fst (Except.ok.inj h)).symm
      dsimp only at h
      subst h
      simp only [Bool.not_eq_true', Bool.not_eq_false, ne_eq, not_not] at h1 h2 h3 h4 h5 h6 h7 h8 h9
      have e := loadCfg_fee o.cfg st
      refine ⟨j, st, rfl, hd, ?_, rfl, ⟨?_, ?_, ?_, h5, h6, h7, h8, h9⟩, loadCfg_cases _ _⟩
      · subst h1
        have := (equals_iff he).mp rfl
        rw [this.2]
        rfl
      · rw [e]; exact h2
      · rw [e]; exact h3
      · rw [e]; exact h4

/-- **C31.** When a file is not accepted the state in memory is unchanged, and so is the configuration
except possibly for the fee (see `C32_false_across_fee_change` for the harm this does). -/
theorem C31_rejected_unchanged {L : Lib} {H : List Nat → List Nat} {E : Env} {o o' : Oracle}
    {raw : List Nat} {r : Load} (h : loadFromBytes L H E o raw = .ok (o', r)) (hr : r ≠ .loaded) :
    r = .failed ∧ o'.st = o.st ∧ o'.cfg = { o.cfg with fee := o'.cfg.fee } := by
  unfold loadFromBytes at h
  cases hj : (L.parse raw).bind decState with
  | none =>
    rw [hj] at h
    simp only [Except.ok.injEq, Prod.mk.injEq] at h
    obtain ⟨rfl, rfl⟩ := h
    exact ⟨rfl, rfl, rfl⟩
  | some st =>
    rw [hj] at h
    dsimp only at h
    rw [bind_ok] at h
    obtain ⟨same, he, h⟩ := h
    have fin : ∀ {c : Config}, c = { o.cfg with fee := c.fee } →
        (Except.ok ({ o with cfg := c }, Load.failed) : M (Oracle × Load)) = .ok (o', r) →
        r = .failed ∧ o'.st = o.st ∧ o'.cfg = { o.cfg with fee := o'.cfg.fee } := by
      intro c hc h
      simp only [Except.ok.injEq, Prod.mk.injEq] at h
      obtain ⟨rfl, rfl⟩ := h
      exact ⟨rfl, rfl, hc⟩
    change (if !same then _ else if st.network ≠ o.cfg.network then _ else
        if st.poolAddr ≠ o.cfg.poolAddr then _ else if st.poolFeesAddr ≠ o.cfg.poolFeesAddr then _ else
        if st.fee ≠ (loadCfg o.cfg st).fee then _ else
        if st.collateral ≠ (loadCfg o.cfg st).collateral then _ else
        if st.cpSize ≠ (loadCfg o.cfg st).cpSize then _ else
        if st.depBlock ≠ (loadCfg o.cfg st).depBlock then _ else
        if st.depSlot ≠ (loadCfg o.cfg st).depSlot then _ else do
          let _ ← generateTree H E o.st.tick { st with stateHash := [], tick := o.st.tick }
          Except.ok ((⟨loadCfg o.cfg st, { st with stateHash := [], tick := o.st.tick + 2 }⟩, Load.loaded) :
            Oracle × Load)) = _ at h
    have e := loadCfg_fee o.cfg st
    rcases ite_cases h with ⟨_, h⟩ | ⟨_, h⟩
    · exact fin (c := o.cfg) rfl h
    rcases ite_cases h with ⟨_, h⟩ | ⟨_, h⟩
    · exact fin (c := o.cfg) rfl h
    rcases ite_cases h with ⟨_, h⟩ | ⟨_, h⟩
    · exact fin (c := o.cfg) rfl h
    rcases ite_cases h with ⟨_, h⟩ | ⟨_, h⟩
    · exact fin (c := o.cfg) rfl h
    rcases ite_cases h with ⟨_, h⟩ | ⟨_, h⟩
    · exact fin e h
    rcases ite_cases h with ⟨_, h⟩ | ⟨_, h⟩
    · exact fin e h
    rcases ite_cases h with ⟨_, h⟩ | ⟨_, h⟩
    · exact fin e h
    rcases ite_cases h with ⟨_, h⟩ | ⟨_, h⟩
    · exact fin e h
    rcases ite_cases h with ⟨_, h⟩ | ⟨_, h⟩
    · exact fin e h
    rw [bind_ok] at h
    obtain ⟨_, _, h⟩ := h
    exact absurd (congrArg Prod.snd (Except.ok.inj h)).symm hr

/-- **C31.** A file that was cut short by a crash while it was written is never accepted. -/
theorem C31_torn_file_rejected {L : Lib} (hL : LibOK L) {H : List Nat → List Nat} {E : Env} {o : Oracle}
    {s : State} (hs : StateTyped s) {raw : List Nat} (hp : raw <+: savedBytes L s)
    (hne : raw ≠ savedBytes L s) : loadFromBytes L H E o raw = .ok (o, .failed) := by
  unfold loadFromBytes
  have : L.parse raw = none := hL.cut _ (hashState_typed hL hs) raw hp hne
  rw [this]
  rfl

/-- **C31.** Whoever changes the content of a saved file but not its recorded hash, and has it accepted,
has found two texts with the same SHA-256: the one whose hash was recorded and that of the accepted
content. (That collisions exist is no news; the theorem says which ones have to be known.) -/
theorem C31_tampering_needs_collision {L : Lib} (hL : LibOK L) {H : List Nat → List Nat} {E : Env}
    {o o' : Oracle} {raw : List Nat} (h : loadFromBytes L H E o raw = .ok (o', .loaded)) {s st : State}
    {j : J} (hs : StateTyped s) (hj : L.parse raw = some j) (hd : decState j = some st)
    (ht : StateTyped st) (hh : lower st.stateHash = lower (stateDigest L s)) (hne : ¬ SameContent st s) :
    L.print (encState { st with stateHash := [] }) ≠ L.print (encState { s with stateHash := [] }) ∧
      L.sha (L.print (encState { st with stateHash := [] })) =
        L.sha (L.print (encState { s with stateHash := [] })) := by
  obtain ⟨j', st', hj', hd', hhash, _⟩ := C31_accepted_only_if h
  rw [hj] at hj'
  cases hj'
  rw [hd] at hd'
  cases hd'
  have blank : ∀ {s : State}, StateTyped s → StateTyped { s with stateHash := [] } := fun h =>
    { h with hash := fun c hc => by cases hc }
  refine ⟨?_, ?_⟩
  · intro e
    apply hne
    have e1 := hL.reads _ (blank ht)
    rw [e, hL.reads _ (blank hs)] at e1
    have e2 := decState_enc (blank ht)
    rw [← Option.some.inj e1, decState_enc (blank hs)] at e2
    exact (Option.some.inj e2).symm
  · rw [hhash] at hh
    unfold stateDigest at hh
    exact hex_lower_inj (hL.sha _).2 (hL.sha _).2 hh

/-- A hash function with a collision, a file whose content is not what was hashed when it was saved. -/
example : ∃ (L : Lib) (o' : Oracle) (j : J) (st : State), LibOK L ∧
    loadFromBytes L Sample.hash Sample.env (newOracle Sample.cfg) (savedBytes L Sample.final.st) =
      .ok (o', .loaded) ∧ StateTyped (newOracle Sample.cfg).st ∧
    L.parse (savedBytes L Sample.final.st) = some j ∧ decState j = some st ∧ StateTyped st ∧
    lower st.stateHash = lower (stateDigest L (newOracle Sample.cfg).st) ∧
    ¬ SameContent st (newOracle Sample.cfg).st := by
  have hz : HashOK fun _ => List.replicate 32 0 := fun _ =>
    ⟨by simp, fun b hb => by rw [List.mem_replicate] at hb; omega⟩
  have hL := Toy.lib_ok hz
  have ht : StateTyped Sample.final.st := typed_of (by decide +kernel)
  have ha : AddressesOK Sample.final.st := ⟨fun p hp => isAddress_of ((by decide +kernel :
      ∀ p ∈ Sample.final.st.vals, (p.2.waddr.take 2 == b!"0x" && p.2.waddr.length == 42 &&
        (p.2.waddr.drop 2).all fun c =>
          (48 ≤ c && c ≤ 57) || (97 ≤ c && c ≤ 102) || (65 ≤ c && c ≤ 70)) = true) p hp),
      isAddress_of (by decide +kernel), by decide +kernel⟩
  have hi := cfgInv_work (H := Sample.hash) Sample.env_valid (Work.of_hist Sample.hist (by decide +kernel))
  have hc := loadCfg_inv hi
  have key := load_saved hL (H := Sample.hash) Sample.env_valid (o := newOracle Sample.cfg) ht ha
    (by rw [show (newOracle Sample.cfg).cfg = Sample.cfg from rfl, hc]; exact hi.same)
  have hb := hashState_typed hL ht
  refine ⟨_, _, encState (hashState _ Sample.final.st), { hashState _ Sample.final.st with tick := 0 },
    hL, key, typed_of (by decide +kernel), hL.reads _ hb, decState_enc hb, ⟨hb.1, hb.2, hb.3, hb.4, hb.5,
      hb.6, hb.7, hb.8, hb.9, hb.10, hb.11, hb.12, hb.13, hb.14, hb.15, hb.16, hb.17, hb.18, hb.19, hb.20,
      hb.21, hb.22⟩,
    rfl, ?_⟩
  intro h
  have : Sample.final.st.nextSlot = (newOracle Sample.cfg).st.nextSlot := by
    have := congrArg State.nextSlot h; exact this
  revert this
  decide +kernel

/-! ### C32 -/

theorem latest_ge {E : Env} (hE : ValidEnv E) (t : Nat) {s : State} {p} (hp : p ∈ s.committed) :
    p.1 ≤ (latestCommittedSlot E t s).1 := by
  unfold latestCommittedSlot
  rw [if_neg (by intro e; rw [e] at hp; cases hp)]
  exact (foldl_max _ 0).2.1 _ ((shuffle_perm hE t s.committed).mem_iff.mpr hp)

/-- starting with a saved state: what happens before the chain is looked at -/
theorem startup_kept {L : Lib} (hL : LibOK L) {H : List Nat → List Nat} {E' : Env}
    (hE' : ValidEnv E') {cfg : Config} {o : Oracle} (hi : CfgInv cfg o)
    (ht : StateTyped o.st) (ha : AddressesOK o.st) {d : Disk}
    (hd : getStr d stateJson = some (savedBytes L o.st)) (slot : Nat) :
    startup L H E' d cfg none (some slot) =
      if !cfg.dryRun ∧ (latestCommittedSlot E' 2 o.st).1 > slot then do
        let (o3, r) ← loadGivenState L H E' d ⟨o.cfg, { o.st with stateHash := [], tick := 3 }⟩ slot
        if r = .loaded then .ok o3 else .error .fatal
      else .ok ⟨o.cfg, { o.st with stateHash := [], tick := 3 }⟩ := by
  have hc : loadCfg (newOracle cfg).cfg o.st = o.cfg := loadCfg_inv hi
  have key := load_saved hL (H := H) hE' (o := newOracle cfg) ht ha (by rw [hc]; exact hi.same)
  rw [hc] at key
  have hdry : o.cfg.dryRun = cfg.dryRun := by rw [hi.cfg_eq]
  unfold startup
  dsimp only
  unfold loadFromPath
  rw [hd]
  dsimp only
  rw [key, bind_val]
  dsimp only
  rw [if_neg (by decide), hdry]
  rfl

theorem startup_saved {L : Lib} (hL : LibOK L) {H : List Nat → List Nat} {E E' : Env} (hE : ValidEnv E)
    (hE' : ValidEnv E') {cfg : Config} {o : Oracle} (hw : Work H E (newOracle cfg) o)
    (ht : StateTyped o.st) (ha : AddressesOK o.st) {d : Disk}
    (hd : getStr d stateJson = some (savedBytes L o.st)) (slot : Nat) :
    startup L H E' d cfg none (some slot) =
      if !cfg.dryRun ∧ (latestCommittedSlot E' 2 o.st).1 > slot then do
        let (o3, r) ← loadGivenState L H E' d ⟨o.cfg, { o.st with stateHash := [], tick := 3 }⟩ slot
        if r = .loaded then .ok o3 else .error .fatal
      else .ok ⟨o.cfg, { o.st with stateHash := [], tick := 3 }⟩ :=
  startup_kept hL hE' (cfgInv_work hE hw) ht ha hd slot

/-- **C32 is false across a fee change.** A node on a network with a scheduled fee change saved a state
before it and one after it. If the chain has only accepted the older one, the node must roll back when it
starts, and every start ends in `Fatal`: reading the newer file first puts the new fee in the shared
configuration, and the older file is then refused because its fee differs. -/
theorem C32_false_across_fee_change {L : Lib} (hL : LibOK L) {H : List Nat → List Nat} {E E' : Env}
    (hE : ValidEnv E) (hE' : ValidEnv E') {cfg : Config} {old new : Oracle}
    (hw : Work H E (newOracle cfg) old) (hw' : Work H E (newOracle cfg) new)
    (ht : StateTyped old.st) (ht' : StateTyped new.st) (ha : AddressesOK new.st)
    (hold : ∀ slot fee, FeeChange cfg.network slot fee → old.st.latestSlot < slot)
    (hnew : new.cfg.fee ≠ cfg.fee) (hdry : cfg.dryRun = false) {slot : Nat}
    (hahead : ∃ p ∈ new.st.committed, slot < p.1) {d : Disk}
    (hd : getStr d stateJson = some (savedBytes L new.st))
    (hd' : getStr d (slotJson slot) = some (savedBytes L old.st)) :
    startup L H E' d cfg none (some slot) = .error .fatal := by
  rw [startup_saved hL hE hE' hw' ht' ha hd]
  obtain ⟨p, hp, hlt⟩ := hahead
  have h1 := latest_ge hE' 2 hp
  rw [if_pos ⟨by rw [hdry]; rfl, by omega⟩]
  have hi := cfgInv_work hE hw
  have hi' := cfgInv_work hE hw'
  have hfee : old.cfg.fee = cfg.fee := by
    rcases hi.fee with h | ⟨_, q, hq, hle, _⟩
    · exact h
    · have := hold _ _ (feeSchedule_change hq); omega
  have hnet : new.cfg.network = cfg.network := by rw [hi'.cfg_eq]
  have hne : old.st.fee ≠ new.cfg.fee := by
    rw [hi.same.fee, hfee]; exact fun e => hnew e.symm
  have hload : loadCfg new.cfg old.st = new.cfg := by
    unfold loadCfg
    rw [if_pos hne]
    apply applySchedule_none
    intro q hq
    rw [hnet] at hq
    exact hold _ _ (feeSchedule_change hq)
  have key : ∀ t, loadFromBytes L H E' ⟨new.cfg, t⟩ (savedBytes L old.st) =
      .ok (⟨new.cfg, t⟩, .failed) := by
    intro t
    rw [load_saved_eq hL ht]
    dsimp only
    rw [hload]
    have e1 : old.st.network = new.cfg.network := by
      rw [hi.same.network, hi.cfg_eq, hi'.cfg_eq]
    have e2 : old.st.poolAddr = new.cfg.poolAddr := by
      rw [hi.same.poolAddr, hi.cfg_eq, hi'.cfg_eq]
    have e3 : old.st.poolFeesAddr = new.cfg.poolFeesAddr := by
      rw [hi.same.poolFeesAddr, hi.cfg_eq, hi'.cfg_eq]
    rw [if_neg (fun h => h e1), if_neg (fun h => h e2), if_neg (fun h => h e3), if_pos hne]
  unfold loadGivenState loadFromPath
  rw [hd']
  dsimp only
  rw [key, bind_val]
  rfl

/-- **C32, partial.** Rolling back works when the fee of the older state is the one of the newer state:
the copy of the slot on chain is loaded, or the copy one or two checkpoints before it when younger
copies are missing, or the one in between is not readable. The node then holds the state and the
configuration that were saved. -/
theorem C32_rollback_partial {L : Lib} (hL : LibOK L) {H : List Nat → List Nat} {E E' : Env}
    (hE : ValidEnv E) (hE' : ValidEnv E') {cfg : Config} {old new : Oracle}
    (hw : Work H E (newOracle cfg) old) (hw' : Work H E (newOracle cfg) new)
    (ht : StateTyped old.st) (ht' : StateTyped new.st) (ha : AddressesOK old.st) (ha' : AddressesOK new.st)
    (hfee : old.cfg.fee = new.cfg.fee) (hdry : cfg.dryRun = false) {slot : Nat} (hslot : slot < 2 ^ 64)
    (hahead : ∃ p ∈ new.st.committed, slot < p.1) {d : Disk} {i : Nat} (hi : i ≤ 2)
    (hi2 : i * cfg.cpSize ≤ slot) (hd : getStr d stateJson = some (savedBytes L new.st))
    (hmiss : ∀ j, j < i → getStr d (slotJson (slot - j * cfg.cpSize)) = none ∨
      0 < j ∧ ∃ raw, getStr d (slotJson (slot - j * cfg.cpSize)) = some raw ∧ L.parse raw = none)
    (hd' : getStr d (slotJson (slot - i * cfg.cpSize)) = some (savedBytes L old.st)) :
    ∃ o, startup L H E' d cfg none (some slot) = .ok o ∧ o.cfg = old.cfg ∧ SameContent o.st old.st := by
  rw [startup_saved hL hE hE' hw' ht' ha' hd]
  obtain ⟨p, hp, hlt⟩ := hahead
  have h1 := latest_ge hE' 2 hp
  rw [if_pos ⟨by rw [hdry]; rfl, by omega⟩]
  have hiv := cfgInv_work hE hw
  have hiv' := cfgInv_work hE hw'
  have hcfg : new.cfg = old.cfg := by rw [hiv.cfg_eq, hiv'.cfg_eq, hfee]
  have hcp : old.cfg.cpSize = cfg.cpSize := by rw [hiv.cfg_eq]
  have hload : loadCfg old.cfg old.st = old.cfg := by
    unfold loadCfg
    rw [if_neg (fun h => h hiv.same.fee)]
  have key : ∀ t, loadFromBytes L H E' ⟨old.cfg, t⟩ (savedBytes L old.st) =
      .ok (⟨old.cfg, { old.st with stateHash := [], tick := t.tick + 2 }⟩, .loaded) := by
    intro t
    have := load_saved hL (H := H) hE' (o := ⟨old.cfg, t⟩) ht ha (by rw [hload]; exact hiv.same)
    rw [hload] at this
    exact this
  refine ⟨⟨old.cfg, { old.st with stateHash := [], tick := 5 }⟩, ?_, rfl, rfl⟩
  rw [hcfg]
  have miss : ∀ t k, getStr d (slotJson k) = none →
      loadFromPath L H E' d ⟨old.cfg, t⟩ (slotJson k) = .ok (⟨old.cfg, t⟩, .notFound) := by
    intro t k hk
    unfold loadFromPath
    rw [hk]
  have hit : ∀ t k, getStr d (slotJson k) = some (savedBytes L old.st) →
      loadFromPath L H E' d ⟨old.cfg, t⟩ (slotJson k) =
      .ok (⟨old.cfg, { old.st with stateHash := [], tick := t.tick + 2 }⟩, .loaded) := by
    intro t k hk
    unfold loadFromPath
    rw [hk]
    exact key t
  have arith : ∀ j, j ≤ i → sub64 slot (u64 (cfg.cpSize * j)) = slot - j * cfg.cpSize := by
    intro j hj
    have : j * cfg.cpSize ≤ i * cfg.cpSize := Nat.mul_le_mul_right _ hj
    rw [Nat.mul_comm cfg.cpSize j]
    unfold sub64 u64
    omega
  have hcases : i = 0 ∨ i = 1 ∨ i = 2 := by omega
  rcases hcases with rfl | rfl | rfl
  · simp only [Nat.zero_mul, Nat.sub_zero] at hd'
    unfold loadGivenState
    rw [hit _ _ hd', bind_val]
    rfl
  · have m0 := (hmiss 0 (by omega)).resolve_right (fun h => absurd h.1 (by omega))
    simp only [Nat.zero_mul, Nat.sub_zero] at m0
    unfold loadGivenState
    rw [miss _ _ m0, bind_val]
    dsimp only
    unfold loadOlder
    dsimp only
    rw [hcp, arith 1 (by omega), hit _ _ hd', bind_val]
    rfl
  · have m0 := (hmiss 0 (by omega)).resolve_right (fun h => absurd h.1 (by omega))
    have m1 : ∀ t, ∃ r, r ≠ .loaded ∧
        loadFromPath L H E' d ⟨old.cfg, t⟩ (slotJson (slot - 1 * cfg.cpSize)) = .ok (⟨old.cfg, t⟩, r) := by
      intro t
      rcases hmiss 1 (by omega) with h | ⟨_, raw, h, hbad⟩
      · exact ⟨_, by decide, miss _ _ h⟩
      · refine ⟨.failed, by decide, ?_⟩
        unfold loadFromPath loadFromBytes
        rw [h]
        dsimp only
        rw [hbad]
        rfl
    obtain ⟨r1, hr1, m1⟩ := m1 { new.st with stateHash := [], tick := 3 }
    simp only [Nat.zero_mul, Nat.sub_zero] at m0
    unfold loadGivenState
    rw [miss _ _ m0, bind_val]
    dsimp only
    unfold loadOlder
    dsimp only
    rw [hcp, arith 1 (by omega), m1, bind_val]
    dsimp only
    rw [if_neg hr1]
    unfold loadOlder
    dsimp only
    rw [hcp, arith 2 (by omega), hit _ _ hd', bind_val]
    rfl

/-! ### C34 -/

theorem freeze_same {H : List Nat → List Nat} {E E' : Env} (hE : ValidEnv E) (hE' : ValidEnv E')
    {s s' s1 s1' : State} {r r' : Bool} (hs : SameContent s s') (h : freeze H E s = .ok (s1, r))
    (h' : freeze H E' s' = .ok (s1', r')) : SameContent s1 s1' ∧ r = r' := by
  obtain ⟨sh, tk, rfl⟩ : ∃ x t, s' = { s with stateHash := x, tick := t } := ⟨_, _, hs.eq⟩
  obtain ⟨ls, x, h1, h2, h3⟩ := freeze_frz h
  obtain ⟨ls', x', h1', h2', h3'⟩ := freeze_frz h'
  have el : ls' = ls := leaves_unique (aggregate_ok hE h1).1 (aggregate_ok hE' h1').1 rfl rfl
    (fun _ => rfl) (fun _ => Iff.rfl)
  subst el
  dsimp only at h2' h3'
  rw [h2] at h2'
  have := Except.ok.inj h2'
  subst this
  rcases h3 with ⟨rfl, rfl, rfl⟩ | ⟨f, rfl, rfl, rfl⟩
  · rcases h3' with ⟨_, rfl, rfl⟩ | ⟨f', hx, _⟩
    · exact ⟨rfl, rfl⟩
    · cases hx
  · rcases h3' with ⟨hx, _⟩ | ⟨f', hx, rfl, rfl⟩
    · cases hx
    · cases hx
      exact ⟨rfl, rfl⟩

theorem SameBooks.content {o o' : Oracle} (h : SameBooks o o') (hc : o.st.committed = o'.st.committed) :
    SameContent o.st o'.st := by
  have : ({ ({ o.st with tick := 0, stateHash := [], committed := [] } : State) with
        committed := o.st.committed } : State) =
      { ({ o'.st with tick := 0, stateHash := [], committed := [] } : State) with
        committed := o'.st.committed } := by rw [h.2, hc]
  exact this

section
variable {V : Nat → Nat → BVal} {K : Nat → List (Nat × Nat)} {E E' : Env}

/-- **C34, partial.** An oracle that holds what another one held when it saved, and does from then on
the same things (slots, freezes, saves) over the same chain, ends with the same configuration and the
same state, frozen checkpoints with roots, leaves and proofs included. What is missing for the full
claim: the conditions of C09 (see `C09_false_cleanup_order`). -/
theorem C34_reprocessing_partial {L : Lib} {H : List Nat → List Nat} (hE : ValidEnv E) (hX : ExactEnv E)
    (hR : ReadsChain V K E) (hE' : ValidEnv E') (hX' : ExactEnv E') (hR' : ReadsChain V K E')
    (hA : ∀ n, n % 1200 = 0 → ActiveTargets V K n) {cs : List Cmd} {o o' o1 o1' : Oracle}
    (hm : MapOK o.st) (hc : o'.cfg = o.cfg) (hs : SameContent o'.st o.st)
    (h : Does L H E o cs o1) (h' : Does L H E' o' cs o1') : o1'.cfg = o1.cfg ∧ SameContent o1'.st o1.st := by
  induction h generalizing o' with
  | nil => cases h'; exact ⟨hc, hs⟩
  | slot ha _ _ ih =>
    cases h' with
    | slot ha' _ hr' =>
      have hb : SameBooks _ o' := ⟨hc.symm, by
        have e := hs.symm.eq
        rw [e]⟩
      obtain ⟨k1, _, k3⟩ := slot_same hE hX hR hE' hX' hR' hm hb (fun hn => (hA _ hn).tracked _) ha ha'
      refine ih k3 k1.1.symm ?_ hr'
      have c3 := congrArg State.committed hs
      dsimp only at c3
      exact (k1.content (by rw [(slot_keeps ha).2, (slot_keeps ha').2, c3])).symm
  | freeze hf _ ih =>
    cases h' with
    | freeze hf' hr' =>
      have k := freeze_same hE' hE hs hf' hf
      refine ih ?_ ?_ ?_ hr'
      rotate_left
      · exact hc
      · exact k.1
      rcases freeze_cases hE hf with ⟨_, rfl⟩ | ⟨f, _, _, rfl⟩ <;> exact hm
  | save _ ih =>
    cases h' with
    | save hr' =>
      refine ih ?_ ?_ ?_ hr'
      · exact hm
      · exact hc
      · exact hs

/-- **C34, partial.** The oracle worked, saved, and was stopped at any later moment. When it is started
again and the chain is not behind the checkpoints in the file, it continues, and whatever it does from
then on gives what it would have given without the interruption. -/
theorem C34_restart_partial {L : Lib} (hL : LibOK L) {H : List Nat → List Nat} (hE : ValidEnv E)
    (hX : ExactEnv E) (hR : ReadsChain V K E) (hE' : ValidEnv E') (hX' : ExactEnv E')
    (hR' : ReadsChain V K E') (hA : ∀ n, n % 1200 = 0 → ActiveTargets V K n) {cfg : Config} {o : Oracle}
    (hw : Work H E (newOracle cfg) o) (ht : StateTyped o.st) (ha : AddressesOK o.st) {d : Disk}
    (hd : getStr d stateJson = some (savedBytes L o.st)) {slot : Nat}
    (hslot : cfg.dryRun = true ∨ ∀ p ∈ o.st.committed, p.1 ≤ slot) :
    ∃ o', startup L H E' d cfg none (some slot) = .ok o' ∧
      ∀ cs o1 o1', Does L H E o cs o1 → Does L H E' o' cs o1' →
        o1'.cfg = o1.cfg ∧ SameContent o1'.st o1.st := by
  have hm : MapOK o.st := by
    have gen : ∀ {o0 o}, Work H E o0 o → MapOK o0.st → MapOK o.st := by
      intro o0 o hw
      induction hw with
      | refl => exact fun h => h
      | slot _ hs _ ih => exact fun h => (slot_same hE hX hR hE hX hR (ih h) ⟨rfl, rfl⟩ (fun hn => (hA _ hn).tracked _) hs hs).2.2
      | freeze _ hf ih =>
        intro h
        rcases freeze_cases hE hf with ⟨_, rfl⟩ | ⟨f, _, _, rfl⟩ <;> exact ih h
      | saved _ _ _ ih => exact fun h => ih h
    exact gen hw (by unfold MapOK newOracle; exact List.Pairwise.nil)
  refine ⟨⟨o.cfg, { o.st with stateHash := [], tick := 3 }⟩, ?_, ?_⟩
  · rw [startup_saved hL hE hE' hw ht ha hd, if_neg]
    rintro ⟨h1, h2⟩
    rcases hslot with h | h
    · rw [h] at h1; simp at h1
    · have : (latestCommittedSlot E' 2 o.st).1 ≤ slot := by
        unfold latestCommittedSlot
        split
        · exact Nat.zero_le _
        · rcases (foldl_max (E'.shuffle 2 o.st.committed) 0).2.2 with e | ⟨p, hp, e⟩
          · dsimp only; omega
          · have := h p ((shuffle_perm hE' 2 o.st.committed).mem_iff.mp hp)
            dsimp only; omega
      omega
  · intro cs o1 o1' h h'
    refine C34_reprocessing_partial hE hX hR hE' hX' hR' hA hm ?_ ?_ h h' <;> rfl

end

namespace Sample
/-- do a list of things -/
def doAll (L : Lib) (H : List Nat → List Nat) (E : Env) : List Cmd → Oracle → Option Oracle
  | [], o => some o
  | .slot b :: cs, o =>
    match advanceState E o b with
    | .ok (o1, some _) => if b.dutySlot + 1 < 2 ^ 64 then doAll L H E cs o1 else none
    | _ => none
  | .freeze :: cs, o =>
    match freeze H E o.st with
    | .ok (s, _) => doAll L H E cs ⟨o.cfg, s⟩
    | _ => none
  | .save :: cs, o => doAll L H E cs ⟨o.cfg, hashState L o.st⟩

theorem does_of {L H E cs o o'} (h : doAll L H E cs o = some o') : Does L H E o cs o' := by
  induction cs generalizing o with
  | nil => simp only [doAll, Option.some.injEq] at h; subst h; exact .nil _
  | cons c cs ih =>
    cases c with
    | slot b =>
      rw [doAll] at h
      split at h
      · rename_i h1
        split at h
        · rename_i hb
          exact .slot h1 hb (ih h)
        · cases h
      · cases h
    | freeze =>
      rw [doAll] at h
      split at h
      · rename_i h1
        exact .freeze h1 (ih h)
      · cases h
    | save => exact .save (ih h)

theorem work_of_does {L H E cs o o'} (h : Does L H E o cs o') : Work H E o o' := by
  have gen : ∀ {o cs o'}, Does L H E o cs o' → ∀ o0, Work H E o0 o → Work H E o0 o' := by
    intro o cs o' h
    induction h with
    | nil => exact fun _ h => h
    | slot h1 hb _ ih => exact fun o0 h => ih o0 (.slot h h1 hb)
    | freeze h1 _ ih => exact fun o0 h => ih o0 (.freeze h h1)
    | @save o cs o2 _ ih => exact fun o0 h => ih o0 (.saved (stateDigest L o.st) o.st.tick h)
  exact gen h o (.refl o)

theorem ex_does {L H E cs o} {P : Oracle → Bool} (h : (doAll L H E cs o).any P = true) :
    ∃ o', Does L H E o cs o' ∧ P o' = true := by
  cases hr : doAll L H E cs o with
  | none => rw [hr] at h; simp at h
  | some o' => exact ⟨o', does_of hr, by rw [hr] at h; simpa using h⟩

/-- `AddressesOK` as a test -/
def addrB (a : Str) : Bool := a.take 2 == b!"0x" && a.length == 42 && (a.drop 2).all fun c =>
  (48 ≤ c && c ≤ 57) || (97 ≤ c && c ≤ 102) || (65 ≤ c && c ≤ 70)

def addressesB (s : State) : Bool :=
  (s.vals.all fun p => addrB p.2.waddr) && addrB s.poolFeesAddr &&
    s.vals.all fun p => !(lower p.2.waddr == lower s.poolAddr)

theorem addresses_of {s : State} (h : addressesB s = true) : AddressesOK s := by
  simp only [addressesB, Bool.and_eq_true, List.all_eq_true, Bool.not_eq_true'] at h
  exact ⟨fun p hp => isAddress_of (h.1.1 p hp), isAddress_of h.1.2,
    fun p hp e => by have := h.2 p hp; rw [e] at this; simp at this⟩

/-- mainnet, two slots before the fee change -/
def feeCfg : Config := { cfg with depSlot := 14082458 }

/-- the block of the fee change -/
def feeBlock : FullBlock :=
  { prop 14082460 1 pool (tx (addr 50) (addr 51) 1) {} with events := { poolFee := [500] } }

/-- two slots and a checkpoint -/
def feeOld : List Cmd :=
  [.slot (prop 14082458 1 builder (tx builder pool 5000) { ether := [⟨5000, pool, 100⟩] }),
   .slot (miss 14082459 2), .freeze]

/-- one slot with the fee change and a checkpoint -/
def feeNew : List Cmd := [.slot feeBlock, .freeze]

/-- the same without the fee change -/
def sameNew : List Cmd := [.slot { feeBlock with events := {} }, .freeze]

theorem old_new (cs : List Cmd) {fee : Int}
    (h : (doAll (Toy.lib hash) hash env (feeOld ++ cs) (newOracle feeCfg)).any (fun o =>
      typedB o.st && addressesB o.st && o.cfg.fee == fee &&
        o.st.committed.any fun p => decide (14082459 < p.1)) = true) :
    ∃ old new, Work hash env (newOracle feeCfg) old ∧ Work hash env (newOracle feeCfg) new ∧
      StateTyped old.st ∧ StateTyped new.st ∧ AddressesOK old.st ∧ AddressesOK new.st ∧
      old.st.latestSlot = 14082459 ∧ old.cfg.fee = 700 ∧ new.cfg.fee = fee ∧
      ∃ p ∈ new.st.committed, old.st.latestSlot < p.1 := by
  obtain ⟨old, h1, h2⟩ := ex_does (L := Toy.lib hash) (H := hash) (E := env) (cs := feeOld)
    (o := newOracle feeCfg) (P := fun o => typedB o.st && addressesB o.st &&
      o.st.latestSlot == 14082459 && o.cfg.fee == 700) (by decide +kernel)
  obtain ⟨new, h3, h4⟩ := ex_does h
  simp only [Bool.and_eq_true, beq_iff_eq, List.any_eq_true, decide_eq_true_eq] at h2 h4
  obtain ⟨⟨⟨a1, a2⟩, a3⟩, a4⟩ := h2
  obtain ⟨⟨⟨b1, b2⟩, b3⟩, p, hp, b4⟩ := h4
  exact ⟨old, new, work_of_does h1, work_of_does h3, typed_of a1, typed_of b1, addresses_of a2,
    addresses_of b2, a3, a4, b3, p, hp, by rw [a3]; exact b4⟩

end Sample

theorem slotJson_of_save (L : Lib) (old new : Oracle) (d : Disk) :
    getStr (saveToJson L false new (saveToJson L true old d).2).2 (slotJson old.st.latestSlot) =
      some (savedBytes L old.st) := by
  unfold saveToJson
  simp only [Bool.false_eq_true, if_false, if_true, getStr_putStr]
  rw [if_neg (slotJson_ne _)]

/-- **C32 is false**, on mainnet: an oracle is deployed, freezes and saves a checkpoint in the slot before
the scheduled fee change and another one in the slot of the change; the chain has accepted the first.
Whatever else is on the disk, it cannot be started any more. -/
theorem C32_false_mainnet {L : Lib} (hL : LibOK L) (d : Disk) :
    ∃ old new : Oracle, Work Sample.hash Sample.env (newOracle Sample.feeCfg) old ∧
      Work Sample.hash Sample.env (newOracle Sample.feeCfg) new ∧
      startup L Sample.hash Sample.env (saveToJson L false new (saveToJson L true old d).2).2 Sample.feeCfg
        none (some old.st.latestSlot) = .error .fatal := by
  obtain ⟨old, new, h1, h2, h3, h4, h5, h6, h7, h8, h9, h10⟩ := Sample.old_new Sample.feeNew (fee := 500)
    (by decide +kernel)
  refine ⟨old, new, h1, h2, C32_false_across_fee_change hL Sample.env_valid Sample.env_valid h1 h2 h3 h4 h6
    ?_ ?_ rfl h10 (save_state _ _ _ _) (slotJson_of_save _ _ _ _)⟩
  · rintro slot fee (⟨_, rfl, _⟩ | ⟨hn, _⟩)
    · rw [h7]; decide
    · exact absurd hn (by decide)
  · rw [h9]; decide

/-- Without a fee change in between, the same oracle rolls back. -/
example {L : Lib} (hL : LibOK L) (d : Disk) :
    ∃ old new o : Oracle, Work Sample.hash Sample.env (newOracle Sample.feeCfg) new ∧
      startup L Sample.hash Sample.env (saveToJson L false new (saveToJson L true old d).2).2 Sample.feeCfg
        none (some old.st.latestSlot) = .ok o ∧ o.cfg = old.cfg ∧ SameContent o.st old.st := by
  obtain ⟨old, new, h1, h2, h3, h4, h5, h6, h7, h8, h9, h10⟩ := Sample.old_new Sample.sameNew (fee := 700)
    (by decide +kernel)
  obtain ⟨o, h⟩ := C32_rollback_partial hL Sample.env_valid Sample.env_valid h1 h2 h3 h4 h5 h6
    (h8.trans h9.symm) rfl (slot := old.st.latestSlot) (by rw [h7]; decide) h10 (i := 0) (by decide)
    (by rw [Nat.zero_mul]; exact Nat.zero_le _) (save_state _ _ _ _) (fun j hj => absurd hj (by omega))
    (by rw [Nat.zero_mul]; exact slotJson_of_save _ _ _ d)
  exact ⟨old, new, o, h2, h⟩

/-- **C34 is false for a crash during a save.** The file is written in place. Cut short anywhere, it
makes every start fail, although a complete copy of the same state may be in the folder. -/
theorem C34_false_torn_write {L : Lib} (hL : LibOK L) {H : List Nat → List Nat} {E : Env} {cfg : Config}
    {s : State} (hs : StateTyped s) {raw : List Nat} (hp : raw <+: savedBytes L s)
    (hne : raw ≠ savedBytes L s) (d : Disk) (slot : Option Nat) :
    startup L H E (putStr d stateJson raw) cfg none slot = .error .fatal := by
  unfold startup
  dsimp only
  unfold loadFromPath
  rw [getStr_putStr, if_pos rfl]
  dsimp only
  rw [C31_torn_file_rejected hL hs hp hne, bind_val]
  rfl

/-- A saved file without its last byte. -/
example : StateTyped Sample.final.st ∧
    (savedBytes (Toy.lib Sample.hash) Sample.final.st).dropLast <+:
      savedBytes (Toy.lib Sample.hash) Sample.final.st ∧
    (savedBytes (Toy.lib Sample.hash) Sample.final.st).dropLast ≠
      savedBytes (Toy.lib Sample.hash) Sample.final.st := by
  refine ⟨typed_of (by decide +kernel), List.dropLast_prefix _, ?_⟩
  intro e
  have h1 := congrArg List.length e
  rw [List.length_dropLast] at h1
  have h2 : 0 < (savedBytes (Toy.lib Sample.hash) Sample.final.st).length := by decide +kernel
  omega

/-- **C34 is false for an interrupted first submission.** The oracle is told to stop (it saves before it
exits) while it waits for its first root to be accepted: the file holds a checkpoint, the chain none. At
the next start the checkpoint is ahead of the chain, a copy of slot zero does not exist, and the start
fails, now and until the chain catches up without this oracle. -/
theorem C34_false_interrupted_submission {L : Lib} (hL : LibOK L) {H : List Nat → List Nat} {E E' : Env}
    (hE : ValidEnv E) (hE' : ValidEnv E') {cfg : Config} {o : Oracle} (hw : Work H E (newOracle cfg) o)
    (ht : StateTyped o.st) (ha : AddressesOK o.st) (hdry : cfg.dryRun = false)
    (hahead : ∃ p ∈ o.st.committed, 0 < p.1) :
    startup L H E' (saveToJson L false o []).2 cfg none (some 0) = .error .fatal := by
  rw [startup_saved hL hE hE' hw ht ha (save_state _ _ _ _)]
  obtain ⟨p, hp, hlt⟩ := hahead
  have h1 := latest_ge hE' 2 hp
  rw [if_pos ⟨by rw [hdry]; rfl, by omega⟩]
  have none : ∀ k, getStr (saveToJson L false o []).2 (slotJson k) = none := by
    intro k
    unfold saveToJson
    simp only [Bool.false_eq_true, if_false, getStr_putStr]
    rw [if_neg (slotJson_ne _)]
    rfl
  have miss : ∀ q k, loadFromPath L H E' (saveToJson L false o []).2 q (slotJson k) =
      .ok (q, .notFound) := by
    intro q k
    unfold loadFromPath
    rw [none]
  unfold loadGivenState
  rw [miss, bind_val]
  dsimp only
  unfold loadOlder
  dsimp only
  rw [miss, bind_val]
  dsimp only
  rw [if_neg (by decide)]
  unfold loadOlder
  rw [miss, bind_val]
  rfl

example : ∃ o, Work Sample.hash Sample.env (newOracle Sample.feeCfg) o ∧ StateTyped o.st ∧
    AddressesOK o.st ∧ Sample.feeCfg.dryRun = false ∧ ∃ p ∈ o.st.committed, 0 < p.1 := by
  obtain ⟨_, new, _, h2, _, h4, _, h6, _, _, _, p, hp, h10⟩ := Sample.old_new Sample.sameNew (fee := 700)
    (by decide +kernel)
  exact ⟨new, h2, h4, h6, rfl, p, hp, by omega⟩

/-- A restart in the middle of the sample history; the restarted oracle iterates its maps backwards. -/
example : ∃ o o' o1 o1', startup (Toy.lib Sample.hash) Sample.hash Sample.envRev
      (saveToJson (Toy.lib Sample.hash) true o []).2 Sample.feeCfg none (some 14082459) = .ok o' ∧
    Does (Toy.lib Sample.hash) Sample.hash Sample.env o Sample.feeNew o1 ∧
    Does (Toy.lib Sample.hash) Sample.hash Sample.envRev o' Sample.feeNew o1' ∧
    o1'.cfg = o1.cfg ∧ SameContent o1'.st o1.st ∧ o1.st.committed.length = 2 := by
  have hr : ∀ {F : Env}, F.node = Sample.env.node → F.consol = Sample.env.consol →
      ReadsChain (fun _ i => if i = 9 then { Sample.bval 9 with status := .exitedUnslashed }
        else Sample.bval i) (fun _ => [(9, 1)]) F := by
    intro F h1 h2
    constructor
    · intro t slot req r h v hv
      rw [h1] at h
      rw [Sample.env_node h] at hv
      obtain ⟨i, hi, rfl⟩ := List.mem_map.mp hv
      rw [Sample.index_if]
    · intro t slot cs h
      rw [h2] at h
      simp only [Sample.env, Option.some.injEq] at h
      exact h.symm
  obtain ⟨o, h1, h2⟩ := Sample.ex_does (L := Toy.lib Sample.hash) (H := Sample.hash) (E := Sample.env)
    (cs := Sample.feeOld) (o := newOracle Sample.feeCfg)
    (P := fun o => typedB o.st && Sample.addressesB o.st &&
      (o.st.committed.all fun p => decide (p.1 ≤ 14082459)) &&
      ((Sample.doAll (Toy.lib Sample.hash) Sample.hash Sample.env Sample.feeNew o).any fun o1 =>
        o1.st.committed.length == 2) &&
      (Sample.doAll (Toy.lib Sample.hash) Sample.hash Sample.envRev Sample.feeNew
        ⟨o.cfg, { o.st with stateHash := [], tick := 3 }⟩).any fun _ => true) (by decide +kernel)
  simp only [Bool.and_eq_true, List.all_eq_true, decide_eq_true_eq] at h2
  obtain ⟨⟨⟨⟨a1, a2⟩, a3⟩, a4⟩, a5⟩ := h2
  obtain ⟨o1, h3, h4⟩ := Sample.ex_does a4
  obtain ⟨o1', h3', _⟩ := Sample.ex_does a5
  have hL := Toy.lib_ok Sample.hash_ok
  have hw := Sample.work_of_does h1
  have hd := save_state (Toy.lib Sample.hash) true o []
  obtain ⟨o', h5, h6⟩ := C34_restart_partial (L := Toy.lib Sample.hash) hL Sample.env_valid
    Sample.env_exact (hr rfl rfl) Sample.envRev_valid Sample.env_exact (hr rfl rfl) (by
      intro n _ p hp _
      simp only [List.mem_singleton] at hp
      subst hp; rfl) hw (typed_of a1) (Sample.addresses_of a2) hd (slot := 14082459) (Or.inr a3)
  have e : o' = ⟨o.cfg, { o.st with stateHash := [], tick := 3 }⟩ := by
    rw [startup_saved hL Sample.env_valid Sample.envRev_valid hw (typed_of a1) (Sample.addresses_of a2) hd,
      if_neg] at h5
    · exact (Except.ok.inj h5).symm
    · rintro ⟨_, h⟩
      unfold latestCommittedSlot at h
      split at h
      · cases h
      · rcases (foldl_max (Sample.envRev.shuffle 2 o.st.committed) 0).2.2 with e | ⟨p, hp, e⟩
        · dsimp only at h; omega
        · have := a3 p ((shuffle_perm Sample.envRev_valid 2 o.st.committed).mem_iff.mp hp)
          dsimp only at h; omega
  subst e
  refine ⟨o, _, o1, o1', h5, h3, h3', ?_, ?_, by simpa using h4⟩
  · exact (h6 _ _ _ h3 h3').1
  · exact (h6 _ _ _ h3 h3').2

/-! ### C38 -/

theorem inSync_some {E : Env} {t : Nat} {s : State} {k f} (hl : latestCommittedSlot E t s = (k, true))
    (hg : getFrozen s.committed k = some f) {root : Str} (hr : root.length = f.root.length) (slot : Nat) :
    inSync E t s root slot = .ok (syncAnswer (some (k, f.root)) root slot) := by
  unfold inSync
  rw [hl]
  dsimp only
  rw [if_neg (by decide), hg]
  dsimp only
  have he : equals root f.root = .ok (decide (lower root = lower f.root)) := by
    unfold equals
    rw [if_neg (fun h => h hr)]
  rw [he, bind_val]
  unfold syncAnswer
  by_cases h1 : lower root = lower f.root <;> by_cases h2 : slot = k <;> simp [h1, h2]

/-- **C38.** What the sync check answers, for every state, on-chain root and slot (roots have the same
length, which `C38_roots` below shows of every root the oracle stores): yes exactly if nothing is
committed and the root is the default one, or if root and slot are those of the committed checkpoint
with the highest slot; an error exactly if one of the two agrees and the other does not; no otherwise. -/
theorem C38_sync_check {E : Env} (hE : ValidEnv E) (t : Nat) {s : State} (hk : KeysOK s) {root : Str}
    (hr : root.length = 66) (hroots : ∀ p ∈ s.committed, p.2.root.length = 66) (slot : Nat) :
    (s.committed = [] ∧ inSync E t s root slot = .ok (syncAnswer none root slot)) ∨
    ∃ k f, (k, f) ∈ s.committed ∧ (∀ p ∈ s.committed, p.1 ≤ k) ∧
      inSync E t s root slot = .ok (syncAnswer (some (k, f.root)) root slot) := by
  by_cases hc : s.committed = []
  · left
    refine ⟨hc, ?_⟩
    unfold inSync latestCommittedSlot
    rw [if_pos hc]
    dsimp only
    have he : equals root defaultRoot = .ok (decide (lower root = lower defaultRoot)) := by
      unfold equals
      rw [if_neg (fun h => h (by rw [hr]; decide))]
    rw [if_pos (by decide), he, bind_val]
    unfold syncAnswer
    by_cases h1 : lower root = lower defaultRoot
    · rw [if_pos (by simpa using h1)]
      have : decide (lower root = lower defaultRoot) = true := by simpa using h1
      unfold defaultRoot at this
      rw [this]
    · rw [if_neg (by simpa using h1)]
      have : decide (lower root = lower defaultRoot) = false := by simpa using h1
      unfold defaultRoot at this
      rw [this]
  · right
    obtain ⟨q, hq, hmax⟩ : ∃ q ∈ s.committed, ∀ p ∈ s.committed, p.1 ≤ q.1 := by
      have : ∀ l : List (Nat × Frozen), l ≠ [] → ∃ q ∈ l, ∀ p ∈ l, p.1 ≤ q.1 := by
        intro l
        induction l with
        | nil => intro h; exact absurd rfl h
        | cons a l ih =>
          intro _
          by_cases hl : l = []
          · subst hl
            exact ⟨a, List.mem_cons_self, fun p hp => by rw [List.mem_singleton] at hp; subst hp; exact Nat.le_refl _⟩
          · obtain ⟨q, hq, hm⟩ := ih hl
            by_cases hle : a.1 ≤ q.1
            · refine ⟨q, List.mem_cons_of_mem _ hq, fun p hp => ?_⟩
              rcases List.mem_cons.mp hp with rfl | hp
              · exact hle
              · exact hm p hp
            · refine ⟨a, List.mem_cons_self, fun p hp => ?_⟩
              rcases List.mem_cons.mp hp with rfl | hp
              · exact Nat.le_refl _
              · have := hm p hp; omega
      exact this _ hc
    obtain ⟨k, f⟩ := q
    have h1 := latestCommitted_spec hE t hk hq hmax
    exact ⟨k, f, hq, hmax, inSync_some h1.1 (getFrozen_of_mem hk.nodup hq) (hr.trans (hroots _ hq).symm) slot⟩

/-- **C38.** Every root the oracle stores while it works has the length of an on-chain root, whatever the
interleaving of slots, freezes, saves and restarts. -/
theorem C38_roots {H : List Nat → List Nat} (hH : HashOK H) {E : Env} (hE : ValidEnv E) {o o' : Oracle}
    (hw : Work H E o o') (h : ∀ p ∈ o.st.committed, p.2.root.length = 66) :
    ∀ p ∈ o'.st.committed, p.2.root.length = 66 := by
  induction hw with
  | refl => exact h
  | slot _ hs _ ih =>
    rw [(slot_keeps hs).2]; exact ih
  | freeze _ hf ih =>
    rcases freeze_cases hE hf with ⟨_, rfl⟩ | ⟨f, hF, _, rfl⟩
    · exact ih
    · intro p hp
      dsimp only at hp
      rcases (GoMap.put_sub hp).symm with h1 | h1
      · exact ih p h1
      · rw [h1]
        obtain ⟨ls, _, hfr⟩ := hF
        unfold frz at hfr
        split at hfr
        · cases hfr
        · simp only [bind_ok] at hfr
          obtain ⟨root, hroot, _, _, hfr⟩ := hfr
          have hfr := Option.some.inj (Except.ok.inj hfr)
          rw [← hfr]
          dsimp only
          unfold treeRoot at hroot
          split at hroot
          · have := Except.ok.inj hroot
            rw [← this, List.length_append, hexEncode_length, (hH _).1]
            rfl
          · cases hroot
  | saved _ _ _ ih => exact ih

/-- A checkpoint was committed; the three answers. -/
example : ∃ o, Work Sample.hash Sample.env (newOracle Sample.feeCfg) o ∧ KeysOK o.st ∧
    o.st.committed ≠ [] ∧ ∀ p ∈ o.st.committed, p.2.root.length = 66 := by
  obtain ⟨_, new, _, h2, _, h4, _, h6, _, _, _, p, hp, h10⟩ := Sample.old_new Sample.sameNew (fee := 700)
    (by decide +kernel)
  exact ⟨new, h2, (work_inv Sample.env_valid h2 (work_start (by decide) (by decide))).1.keys,
    (by intro e; rw [e] at hp; cases hp), C38_roots Sample.hash_ok Sample.env_valid h2 (by intro p hp; cases hp)⟩

end Verif
