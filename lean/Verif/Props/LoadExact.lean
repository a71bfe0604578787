import Verif.Props.Exact
/-
C30 and C32, exactly: which saved states can be read back, and when a node can roll back.
-/
namespace Verif

theorem load_matching {L : Lib} (hL : LibOK L) {H : List Nat → List Nat} {E : Env} {o : Oracle} {s : State}
    (hs : StateTyped s) (hc : CfgMatches (loadCfg o.cfg s) s) :
    loadFromBytes L H E o (savedBytes L s) = (do
      let _ ← generateTree H E o.st.tick { s with stateHash := [], tick := o.st.tick }
      .ok (⟨loadCfg o.cfg s, { s with stateHash := [], tick := o.st.tick + 2 }⟩, .loaded)) := by
  rw [load_saved_eq hL hs]
  have e := loadCfg_fee o.cfg s
  have e1 : (loadCfg o.cfg s).network = o.cfg.network := by rw [e]
  have e2 : (loadCfg o.cfg s).poolAddr = o.cfg.poolAddr := by rw [e]
  have e3 : (loadCfg o.cfg s).poolFeesAddr = o.cfg.poolFeesAddr := by rw [e]
  rw [if_neg (fun h => h (hc.network.trans e1)), if_neg (fun h => h (hc.poolAddr.trans e2)),
    if_neg (fun h => h (hc.poolFeesAddr.trans e3)), if_neg (fun h => h hc.fee),
    if_neg (fun h => h hc.collateral), if_neg (fun h => h hc.cpSize),
    if_neg (fun h => h hc.depBlock), if_neg (fun h => h hc.depSlot)]

/-- **C30**, exactly. A state that the oracle reached and saved, with well-formed addresses, is read back under the
initial configuration if and only if no tracked validator has the pool contract as withdrawal address; then state and
configuration are restored. Otherwise reading it ends the process. -/
theorem C30_exact {L : Lib} (hL : LibOK L) {H : List Nat → List Nat} {E E' : Env} (hE : ValidEnv E)
    (hE' : ValidEnv E') {cfg : Config} {o o0 : Oracle} (hw : Work H E (newOracle cfg) o) (ht : StateTyped o.st)
    (hv : ∀ p ∈ o.st.vals, IsAddress p.2.waddr) (hf : IsAddress o.st.poolFeesAddr) (h0 : o0.cfg = cfg) (d : Disk)
    (flag : Bool) :
    ((∀ p ∈ o.st.vals, lower p.2.waddr ≠ lower o.st.poolAddr) →
      ∃ o', loadFromPath L H E' (saveToJson L flag o d).2 o0 b!"state.json" = .ok (o', .loaded) ∧ o'.cfg = o.cfg ∧
        SameContent o'.st o.st) ∧
    ((∃ p ∈ o.st.vals, lower p.2.waddr = lower o.st.poolAddr) →
      ∃ e, loadFromPath L H E' (saveToJson L flag o d).2 o0 b!"state.json" = .error e) := by
  constructor
  · exact fun hp => (C30_round_trip_partial hL hE hE' hw ht ⟨hv, hf, hp⟩ h0 d flag).1
  · rintro ⟨p, hp, e⟩
    have hi := cfgInv_work hE hw
    have hc : loadCfg o0.cfg o.st = o.cfg := by rw [h0]; exact loadCfg_inv hi
    have key := load_matching hL (H := H) (E := E') (o := o0) ht (by rw [hc]; exact hi.same)
    have hs : getStr (saveToJson L flag o d).2 b!"state.json" = some (savedBytes L o.st) := save_state L flag o d
    unfold loadFromPath
    rw [hs]
    dsimp only
    rw [key]
    cases hg : generateTree H E' o0.st.tick { o.st with stateHash := [], tick := o0.st.tick } with
    | error c => exact ⟨c, rfl⟩
    | ok r =>
      exfalso
      unfold generateTree at hg
      simp only [bind_ok] at hg
      obtain ⟨ls, hl, _⟩ := hg
      exact aggregate_pool hE' hl p hp e

/-- Both cases occur: the sample oracle, and the same after the block of a validator of the pool contract. -/
example : (∀ p ∈ Sample.final.st.vals, lower p.2.waddr ≠ lower Sample.final.st.poolAddr) ∧
    ∃ o, Hist Sample.env (newOracle Sample.cfg) [Sample.poolOwned] o ∧
      ∃ p ∈ o.st.vals, lower p.2.waddr = lower o.st.poolAddr := by
  refine ⟨by decide +kernel, ?_⟩
  obtain ⟨o, h1, h2⟩ := Sample.ex_hist (E := Sample.env) (o := newOracle Sample.cfg) (bs := [Sample.poolOwned])
    (P := fun o => decide (∃ p ∈ o.st.vals, lower p.2.waddr = lower o.st.poolAddr)) (by decide +kernel)
  exact ⟨o, h1, of_decide_eq_true h2⟩

/-- **C32**, exactly, for a node that has the copy of the slot the chain accepted. It rolls back to it if and only if
the fee of that state is the one of the newer state, or a fee that the schedule brought in by then; otherwise, that is
if the older state still has the fee of the start and the newer one has another, it cannot start. -/
theorem C32_exact {L : Lib} (hL : LibOK L) {H : List Nat → List Nat} {E E' : Env}
    (hE : ValidEnv E) (hE' : ValidEnv E') {cfg : Config} {old new : Oracle}
    (hw : Work H E (newOracle cfg) old) (hw' : Work H E (newOracle cfg) new)
    (ht : StateTyped old.st) (ht' : StateTyped new.st) (ha : AddressesOK old.st) (ha' : AddressesOK new.st)
    (hdry : cfg.dryRun = false) {slot : Nat}
    (hahead : ∃ p ∈ new.st.committed, slot < p.1) {d : Disk}
    (hd : getStr d b!"state.json" = some (savedBytes L new.st))
    (hd' : getStr d (b!"state_" ++ decimal slot ++ b!".json") = some (savedBytes L old.st)) :
    ((old.cfg.fee = new.cfg.fee ∨ ∃ n ≤ old.st.latestSlot, FeeChange cfg.network n old.cfg.fee) →
      ∃ o, startup L H E' d cfg none (some slot) = .ok o ∧ o.cfg = old.cfg ∧ SameContent o.st old.st) ∧
    (¬ (old.cfg.fee = new.cfg.fee ∨ ∃ n ≤ old.st.latestSlot, FeeChange cfg.network n old.cfg.fee) →
      old.cfg.fee = cfg.fee ∧ startup L H E' d cfg none (some slot) = .error .fatal) := by
  have hd : getStr d stateJson = some (savedBytes L new.st) := hd
  have hd' : getStr d (slotJson slot) = some (savedBytes L old.st) := hd'
  rw [startup_saved hL hE hE' hw' ht' ha' hd]
  obtain ⟨p, hp, hlt⟩ := hahead
  have h1 := latest_ge hE' 2 hp
  rw [if_pos ⟨by rw [hdry]; rfl, by omega⟩]
  have hi := cfgInv_work hE hw
  have hi' := cfgInv_work hE hw'
  have hnet : new.cfg.network = cfg.network := by rw [hi'.cfg_eq]
  have hat : ∀ {n}, n ≤ old.st.latestSlot → FeeChange cfg.network n old.cfg.fee →
      applySchedule (feeSchedule cfg.network) new.cfg old.st.latestSlot = { new.cfg with fee := old.cfg.fee } := by
    intro n hn hch
    have hm : (n, old.cfg.fee) ∈ feeSchedule cfg.network := by
      have := scheduledFee_iff.mpr hch
      unfold scheduledFee at this
      simp only [Option.map_eq_some_iff] at this
      obtain ⟨q, hq, e⟩ := this
      have h2 := List.mem_of_find?_eq_some hq
      have h3 := List.find?_some hq
      simp only [beq_iff_eq] at h3
      rw [← h3, ← e]; exact h2
    rw [applySchedule_of hm hn]
  constructor
  · intro hcase
    have hload : loadCfg new.cfg old.st = old.cfg := by
      unfold loadCfg
      by_cases hf : old.st.fee = new.cfg.fee
      · rw [if_neg (not_not.mpr hf), hi.cfg_eq, hi'.cfg_eq, ← hf, hi.same.fee]
      · rw [if_pos hf, hnet]
        rcases hcase with h | ⟨n, hn, hch⟩
        · exact absurd (hi.same.fee.trans h) hf
        · rw [hat hn hch, hi.cfg_eq, hi'.cfg_eq]
    refine ⟨⟨old.cfg, { old.st with stateHash := [], tick := 5 }⟩, ?_, rfl, rfl⟩
    have key := load_saved hL (H := H) hE' (o := ⟨new.cfg, { new.st with stateHash := [], tick := 3 }⟩) ht ha
      (by dsimp only; rw [hload]; exact hi.same)
    dsimp only at key
    rw [hload] at key
    unfold loadGivenState loadFromPath
    rw [hd']
    dsimp only
    rw [key, bind_val]
    rfl
  · intro hcase
    push Not at hcase
    obtain ⟨hne, hno⟩ := hcase
    have hfee : old.cfg.fee = cfg.fee := by
      rcases hi.fee with h | ⟨_, q, hq, hle, e⟩
      · exact h
      · exact absurd (by rw [e]; exact feeSchedule_change hq) (hno _ hle)
    refine ⟨hfee, ?_⟩
    have hne' : old.st.fee ≠ new.cfg.fee := by rw [hi.same.fee]; exact hne
    have hload : old.st.fee ≠ (loadCfg new.cfg old.st).fee := by
      unfold loadCfg
      rw [if_pos hne', hnet]
      unfold applySchedule
      rcases bestEntry_cases old.st.latestSlot (feeSchedule cfg.network) none with e | ⟨q, hq, hle, e⟩
      · rw [e]; exact hne'
      · rw [e]
        dsimp only
        intro e2
        rw [hi.same.fee] at e2
        exact hno _ hle (by rw [e2]; exact feeSchedule_change hq)
    have e1 : old.st.network = new.cfg.network := by rw [hi.same.network, hi.cfg_eq, hi'.cfg_eq]
    have e2 : old.st.poolAddr = new.cfg.poolAddr := by rw [hi.same.poolAddr, hi.cfg_eq, hi'.cfg_eq]
    have e3 : old.st.poolFeesAddr = new.cfg.poolFeesAddr := by rw [hi.same.poolFeesAddr, hi.cfg_eq, hi'.cfg_eq]
    have key : ∀ t, loadFromBytes L H E' ⟨new.cfg, t⟩ (savedBytes L old.st) =
        .ok (⟨loadCfg new.cfg old.st, t⟩, .failed) := by
      intro t
      rw [load_saved_eq hL ht]
      dsimp only
      rw [if_neg (fun h => h e1), if_neg (fun h => h e2), if_neg (fun h => h e3), if_pos hload]
    unfold loadGivenState loadFromPath
    rw [hd']
    dsimp only
    rw [key, bind_val]
    rfl

/-- Both cases occur on mainnet: a checkpoint in the slot before the scheduled change of the fee, and another one in
the slot of the change, with and without the change. -/
example : (∃ old new : Oracle, Work Sample.hash Sample.env (newOracle Sample.feeCfg) old ∧
      Work Sample.hash Sample.env (newOracle Sample.feeCfg) new ∧ old.cfg.fee = new.cfg.fee ∧
      ∃ p ∈ new.st.committed, old.st.latestSlot < p.1) ∧
    ∃ old new : Oracle, Work Sample.hash Sample.env (newOracle Sample.feeCfg) old ∧
      Work Sample.hash Sample.env (newOracle Sample.feeCfg) new ∧
      ¬ (old.cfg.fee = new.cfg.fee ∨ ∃ n ≤ old.st.latestSlot, FeeChange Sample.feeCfg.network n old.cfg.fee) ∧
      ∃ p ∈ new.st.committed, old.st.latestSlot < p.1 := by
  constructor
  · obtain ⟨old, new, h1, h2, h3, h4, h5, h6, h7, h8, h9, h10⟩ := Sample.old_new Sample.sameNew (fee := 700)
      (by decide +kernel)
    exact ⟨old, new, h1, h2, h8.trans h9.symm, h10⟩
  · obtain ⟨old, new, h1, h2, h3, h4, h5, h6, h7, h8, h9, h10⟩ := Sample.old_new Sample.feeNew (fee := 500)
      (by decide +kernel)
    refine ⟨old, new, h1, h2, ?_, h10⟩
    rintro (h | ⟨n, hn, ⟨_, rfl, _⟩ | ⟨hm, _⟩⟩)
    · rw [h8, h9] at h; exact absurd h (by decide)
    · rw [h7] at hn; exact absurd hn (by decide)
    · exact absurd hm (by decide)

end Verif
