import Verif.Lemmas.Json
import Verif.Props.Merkle
import Verif.Props.Determinism
/-
Loading what was saved.
-/
namespace Verif

theorem SameContent.symm {s s' : State} (h : SameContent s s') : SameContent s' s := Eq.symm h
theorem SameContent.trans {s s' s'' : State} (h : SameContent s s') (h' : SameContent s' s'') :
    SameContent s s'' := Eq.trans h h'
theorem SameContent.refl (s : State) : SameContent s s := rfl

theorem SameContent.eq {s s' : State} (h : SameContent s s') :
    s' = { s with stateHash := s'.stateHash, tick := s'.tick } := by
  have : ({ ({ s with stateHash := [], tick := 0 } : State) with
        stateHash := s'.stateHash, tick := s'.tick } : State) =
      { ({ s' with stateHash := [], tick := 0 } : State) with
        stateHash := s'.stateHash, tick := s'.tick } := by rw [h]
  exact this.symm

theorem hashState_same (L : Lib) (s : State) : SameContent (hashState L s) s := rfl

theorem generateTree_total {H E} (hE : ValidEnv E) {s : State} (h : AddressesOK s) (t : Nat) :
    ∃ r, generateTree H E t { s with stateHash := [], tick := t } = .ok r := by
  have h' : AddressesOK { s with stateHash := [], tick := t } := ⟨h.vals, h.fees, h.pool⟩
  obtain ⟨s', r, hf, _⟩ := C24_checkpoint_possible (H := H) hE h'
  unfold freeze at hf
  simp only [bind_ok] at hf
  obtain ⟨r, hr, _⟩ := hf
  exact ⟨r, hr⟩

theorem addressesOK_content {s s' : State} (h : SameContent s s') (ha : AddressesOK s) : AddressesOK s' := by
  rw [h.eq]
  exact ⟨ha.vals, ha.fees, ha.pool⟩

/-- the configuration after loading a state: the fee may have been taken from the schedule -/
def loadCfg (cfg : Config) (s : State) : Config :=
  if s.fee ≠ cfg.fee then applySchedule (feeSchedule cfg.network) cfg s.latestSlot else cfg

theorem applySchedule_fee (sched cfg n) :
    applySchedule sched cfg n = { cfg with fee := (applySchedule sched cfg n).fee } := by
  unfold applySchedule
  split <;> rfl

theorem loadCfg_fee (cfg s) : loadCfg cfg s = { cfg with fee := (loadCfg cfg s).fee } := by
  unfold loadCfg
  split
  · exact applySchedule_fee _ _ _
  · rfl

theorem parse_saved {L : Lib} (hL : LibOK L) {s : State} (hs : StateTyped s) :
    (L.parse (savedBytes L s)).bind decState =
      some { s with stateHash := stateDigest L s, tick := 0 } := by
  unfold savedBytes
  rw [hL.reads _ (hashState_typed hL hs), Option.bind_some, decState_enc (hashState_typed hL hs)]
  rfl

/-- the decision table of loading a saved file -/
theorem load_saved_eq {L : Lib} (hL : LibOK L) {H E} {o : Oracle} {s : State} (hs : StateTyped s) :
    loadFromBytes L H E o (savedBytes L s) =
      (if s.network ≠ o.cfg.network then .ok (o, .failed)
      else if s.poolAddr ≠ o.cfg.poolAddr then .ok (o, .failed)
      else if s.poolFeesAddr ≠ o.cfg.poolFeesAddr then .ok (o, .failed)
      else if s.fee ≠ (loadCfg o.cfg s).fee then .ok ({ o with cfg := loadCfg o.cfg s }, .failed)
      else if s.collateral ≠ (loadCfg o.cfg s).collateral then .ok ({ o with cfg := loadCfg o.cfg s }, .failed)
      else if s.cpSize ≠ (loadCfg o.cfg s).cpSize then .ok ({ o with cfg := loadCfg o.cfg s }, .failed)
      else if s.depBlock ≠ (loadCfg o.cfg s).depBlock then .ok ({ o with cfg := loadCfg o.cfg s }, .failed)
      else if s.depSlot ≠ (loadCfg o.cfg s).depSlot then .ok ({ o with cfg := loadCfg o.cfg s }, .failed)
      else do
        let _ ← generateTree H E o.st.tick { s with stateHash := [], tick := o.st.tick }
        .ok (⟨loadCfg o.cfg s, { s with stateHash := [], tick := o.st.tick + 2 }⟩, .loaded)) := by
  unfold loadFromBytes
  rw [parse_saved hL hs]
  dsimp only
  have hd : stateDigest L { s with stateHash := [], tick := o.st.tick } = stateDigest L s :=
    stateDigest_congr L rfl
  have he : equals (stateDigest L s) (stateDigest L s) = .ok true := by
    unfold equals
    rw [if_neg (fun h => h rfl)]
    simp
  rw [hd, he, bind_val]
  rfl

theorem load_saved {L : Lib} (hL : LibOK L) {H E} (hE : ValidEnv E) {o : Oracle} {s : State}
    (hs : StateTyped s) (ha : AddressesOK s) (hc : CfgMatches (loadCfg o.cfg s) s) :
    loadFromBytes L H E o (savedBytes L s) =
      .ok (⟨loadCfg o.cfg s, { s with stateHash := [], tick := o.st.tick + 2 }⟩, .loaded) := by
  rw [load_saved_eq hL hs]
  have e := loadCfg_fee o.cfg s
  have e1 : (loadCfg o.cfg s).network = o.cfg.network := by rw [e]
  have e2 : (loadCfg o.cfg s).poolAddr = o.cfg.poolAddr := by rw [e]
  have e3 : (loadCfg o.cfg s).poolFeesAddr = o.cfg.poolFeesAddr := by rw [e]
  rw [if_neg (fun h => h (hc.network.trans e1)), if_neg (fun h => h (hc.poolAddr.trans e2)),
    if_neg (fun h => h (hc.poolFeesAddr.trans e3)), if_neg (fun h => h hc.fee),
    if_neg (fun h => h hc.collateral), if_neg (fun h => h hc.cpSize),
    if_neg (fun h => h hc.depBlock), if_neg (fun h => h hc.depSlot)]
  obtain ⟨r, hr⟩ := generateTree_total (H := H) hE ha o.st.tick
  rw [hr, bind_val]

/-- A fee change of the schedule that has come is the one that is applied. -/
theorem applySchedule_of {net : Str} {p : Nat × Int} (h : p ∈ feeSchedule net) {n : Nat} (hn : p.1 ≤ n)
    (cfg : Config) : applySchedule (feeSchedule net) cfg n = { cfg with fee := p.2 } := by
  unfold feeSchedule at h ⊢
  split at h
  · rename_i hm
    rw [if_pos hm]
    rw [List.mem_singleton] at h
    subst h
    unfold applySchedule bestEntry
    rw [if_pos ⟨hn, Or.inl rfl⟩]
    rfl
  · rename_i hm
    rw [if_neg hm]
    split at h
    · rename_i hm2
      rw [if_pos hm2]
      rw [List.mem_singleton] at h
      subst h
      unfold applySchedule bestEntry
      rw [if_pos ⟨hn, Or.inl rfl⟩]
      rfl
    · cases h

theorem applySchedule_none {net : Str} {n : Nat} (h : ∀ p ∈ feeSchedule net, n < p.1) (cfg : Config) :
    applySchedule (feeSchedule net) cfg n = cfg := by
  have : ∀ l : List (Nat × Int), (∀ p ∈ l, n < p.1) → bestEntry n l none = none := by
    intro l
    induction l with
    | nil => intro _; rfl
    | cons a l ih =>
      intro h
      have := h a (by simp)
      rw [bestEntry, if_neg (by omega)]
      exact ih (fun p hp => h p (by simp [hp]))
  unfold applySchedule
  rw [this _ h]

/-- what is true of the configuration while the oracle works -/
structure CfgInv (cfg : Config) (o : Oracle) : Prop where
  cfg_eq : o.cfg = { cfg with fee := o.cfg.fee }
  same : CfgMatches o.cfg o.st
  fee : o.cfg.fee = cfg.fee ∨ o.st.nextSlot = o.st.latestSlot + 1 ∧
    ∃ p ∈ feeSchedule cfg.network, p.1 ≤ o.st.latestSlot ∧ o.cfg.fee = p.2

theorem cfgInv_new (cfg : Config) : CfgInv cfg (newOracle cfg) :=
  ⟨rfl, ⟨rfl, rfl, rfl, rfl, rfl, rfl, rfl, rfl⟩, Or.inl rfl⟩

theorem CfgInv.slot {cfg : Config} {E o b o' n} (h : CfgInv cfg o)
    (hs : advanceState E o b = .ok (o', some n)) (hb : b.dutySlot + 1 < 2 ^ 64) : CfgInv cfg o' := by
  obtain ⟨sb, dons, p, m, w, _, _, _, hc, h5, h6, _, hf⟩ := slot_frame hs
  have e := (slot_next hs).1
  have h1 : o'.st.latestSlot = o.st.nextSlot := by have := congrArg State.latestSlot h5; exact this
  have h2 : o'.st.nextSlot = o'.st.latestSlot + 1 := by
    have : o'.st.nextSlot = u64 (o.st.nextSlot + 1) := by have := congrArg State.nextSlot h5; exact this
    rw [this, h1, e]
    unfold u64
    exact Nat.mod_eq_of_lt hb
  have hcfg : o'.cfg = { cfg with fee := o'.cfg.fee } := by
    rw [hc, h.cfg_eq]
  have hnet : o.cfg.network = cfg.network := by rw [h.cfg_eq]
  refine ⟨hcfg, ?_, ?_⟩
  · have k : ∀ x, ({ o.cfg with fee := x } : Config) = { cfg with fee := x } := by
      intro x; rw [h.cfg_eq]
    have hs := h.same
    refine ⟨?_, ?_, ?_, ?_, ?_, ?_, ?_, ?_⟩
    · have := congrArg State.network h5; rw [hc]; exact this.trans hs.network
    · have := congrArg State.poolAddr h5; rw [hc]; exact this.trans hs.poolAddr
    · have := congrArg State.poolFeesAddr h5; rw [hc]; exact this.trans hs.poolFeesAddr
    · rcases hf with ⟨f1, f2, _⟩ | ⟨f, _, _, f3, f4⟩
      · rw [f1, f2]; exact hs.fee
      · rw [f3, f4]
    · have := congrArg State.collateral h5; rw [hc]; exact this.trans hs.collateral
    · have := congrArg State.cpSize h5; rw [hc]; exact this.trans hs.cpSize
    · have := congrArg State.depBlock h5; rw [hc]; exact this.trans hs.depBlock
    · have := congrArg State.depSlot h5; rw [hc]; exact this.trans hs.depSlot
  · rcases hf with ⟨f1, f2, _⟩ | ⟨f, _, f2, f3, f4⟩
    · rcases h.fee with h | ⟨h7, q, hq, hle, hv⟩
      · exact Or.inl (f2.trans h)
      · exact Or.inr ⟨h2, q, hq, by omega, f2.trans hv⟩
    · right
      refine ⟨h2, (b.dutySlot, i64 f), ?_, by rw [h1, e], f4⟩
      unfold scheduledFee at f2
      rw [hnet] at f2
      cases hfind : (feeSchedule cfg.network).find? (fun p => p.1 == b.dutySlot) with
      | none => rw [hfind] at f2; simp at f2
      | some q =>
        rw [hfind] at f2
        have h8 := List.find?_some hfind
        have h9 := List.mem_of_find?_eq_some hfind
        simp only [Option.map_some, Option.some.injEq] at f2
        have h10 : q.1 = b.dutySlot := by simpa using h8
        rw [← h10, ← f2]
        exact h9

theorem cfgInv_work {H E cfg o} (hE : ValidEnv E) (hw : Work H E (newOracle cfg) o) : CfgInv cfg o := by
  have gen : ∀ {o0 o}, Work H E o0 o → CfgInv cfg o0 → CfgInv cfg o := by
    intro o0 o hw
    induction hw with
    | refl => exact fun h => h
    | slot _ hs hb ih => exact fun h => (ih h).slot hs hb
    | freeze _ hf ih =>
      intro h
      have h := ih h
      rcases freeze_cases hE hf with ⟨_, rfl⟩ | ⟨f, _, _, rfl⟩
      all_goals exact ⟨h.cfg_eq, ⟨h.same.network, h.same.poolAddr, h.same.poolFeesAddr, h.same.fee,
        h.same.collateral, h.same.cpSize, h.same.depBlock, h.same.depSlot⟩, h.fee⟩
    | saved x t _ ih =>
      intro h
      have h := ih h
      exact ⟨h.cfg_eq, ⟨h.same.network, h.same.poolAddr, h.same.poolFeesAddr, h.same.fee,
        h.same.collateral, h.same.cpSize, h.same.depBlock, h.same.depSlot⟩, h.fee⟩
  exact gen hw (cfgInv_new cfg)

/-- Loading with the initial configuration gives the configuration of the oracle that saved. -/
theorem loadCfg_inv {cfg : Config} {o : Oracle} (h : CfgInv cfg o) : loadCfg cfg o.st = o.cfg := by
  unfold loadCfg
  by_cases hf : o.st.fee = cfg.fee
  · rw [if_neg (fun hne => hne hf), h.cfg_eq, ← h.same.fee, hf]
  · rw [if_pos hf]
    rcases h.fee with h1 | ⟨_, p, hp, hle, hv⟩
    · exact absurd (h.same.fee.trans h1) hf
    · rw [applySchedule_of hp hle, ← hv]
      exact h.cfg_eq.symm

end Verif
