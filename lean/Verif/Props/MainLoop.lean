import Verif.Lemmas.Nodes
import Verif.Lemmas.MainLoop
import Verif.Props.Fetch
/-
Properties C35, C36 and C37: the main loop, for every sequence of answers of the nodes and the contract.
-/
namespace Verif

/-! ### C35 -/

/-- **C35.** Whatever the nodes answer, the main loop processes the slots one by one and in order,
starting with the next slot, and none before a finalized slot at least as high has been reported. -/
theorem C35_in_order {L : Lib} {H : List Nat → List Nat} {E : Env} (hE : ValidEnv E) {cfg : Config}
    (h0 : 0 < cfg.depSlot) (h1 : cfg.depSlot < 2 ^ 64) {l l' : Loop} {tr : List LoopEv}
    (hw : Work H E (newOracle cfg) l.o) (hpc : l.pc = .top) (hr : LoopRun L H E l tr l') :
    (∃ k, slotsOf tr = List.range' l.o.st.nextSlot k ∧ l'.o.st.nextSlot = l.o.st.nextSlot + k) ∧
    ∀ s fin, .processed s fin ∈ tr → s ≤ fin := by
  have hi := loopRun_inv hE h0 h1 hw hpc hr
  refine ⟨⟨_, hi.slots, hi.next⟩, ?_⟩
  intro s fin hm
  obtain ⟨pre, post, e⟩ := List.append_of_mem hm
  exact hi.events pre _ post e

/-- **C35.** A step that processes a slot: the nodes said they are in sync, the reported finalized slot
is at least this slot, the block of the next slot was fetched from their answers and processed without
error, and nothing else happens in the same step. -/
theorem C35_each_slot {L : Lib} {H : List Nat → List Nat} {E : Env} {A : Answers} {l l' : Loop}
    {evs : List LoopEv} (h : stepLoop L H E A l = .ok (l', evs)) {s fin : Nat}
    (hp : .processed s fin ∈ evs) :
    evs = [.processed s fin] ∧ l.pc = .top ∧ A.sync = some true ∧ A.finalized = some fin ∧
    s = l.o.st.nextSlot ∧ s ≤ fin ∧
    ∃ b, fetchFullBlock A.fetch l.o.st l.o.st.nextSlot false = .ok b ∧
      advanceState E l.o b = .ok (l'.o, some s) := by
  obtain ⟨pc, o, disk, lr⟩ := l
  have nope : ∀ {e : List LoopEv} {x : Loop}, (Except.ok (x, e) : M (Loop × List LoopEv)) = .ok (l', evs) →
      (∀ s fin, LoopEv.processed s fin ∉ e) → False := by
    intro e x h hn
    have h := Except.ok.inj h
    cases h
    exact hn _ _ hp
  cases pc with
  | top =>
    unfold stepLoop stepTop at h
    dsimp only at h
    split at h
    · cases h
    · exact (nope h (by simp)).elim
    · rename_i hsync
      split at h
      · exact (nope h (by simp)).elim
      · rename_i fin' hfin
        split at h
        · rename_i hge
          simp only [bind_ok] at h
          obtain ⟨b, hb, ⟨o', r⟩, hadv, h⟩ := h
          dsimp only at h
          cases r with
          | none => cases h
          | some n =>
            have h := Except.ok.inj h
            cases h
            simp only [List.mem_singleton, LoopEv.processed.injEq] at hp
            obtain ⟨rfl, rfl⟩ := hp
            have hx := C20_exactly_next hadv
            have e : s = o.st.nextSlot := by rw [hx.2.1, hx.1]
            exact ⟨rfl, rfl, hsync, hfin, e, by rw [e]; exact hge, b, hb, hadv⟩
        · simp only [bind_ok] at h
          obtain ⟨x, _, h⟩ := h
          exact (nope h (by simp)).elim
  | processed =>
    unfold stepLoop stepProcessed at h
    dsimp only at h
    simp only [bind_ok] at h
    obtain ⟨_, _, cp, _, h⟩ := h
    split at h
    · cases h
    · exact (nope h (by simp)).elim
    · simp only [bind_ok] at h
      obtain ⟨ok, _, h⟩ := h
      rcases ite_cases h with ⟨_, h⟩ | ⟨_, h⟩
      · cases h
      · simp only [bind_ok] at h
        obtain ⟨⟨s', en⟩, _, h⟩ := h
        dsimp only at h
        rcases ite_cases h with ⟨_, h⟩ | ⟨_, h⟩
        · exact (nope h (by simp)).elim
        · cases hl : latestCommitted E s'.tick s' with
          | none => rw [hl] at h; cases h
          | some f => rw [hl] at h; exact (nope h (by simp)).elim
  | vote f =>
    unfold stepLoop at h
    dsimp only at h
    split at h
    · cases h
    · rcases ite_cases h with ⟨_, h⟩ | ⟨_, h⟩
      · cases h
      · rcases ite_cases h with ⟨_, h⟩ | ⟨_, h⟩
        · exact (nope h (by simp)).elim
        · exact (nope h (by simp)).elim
  | pause f =>
    unfold stepLoop at h
    dsimp only at h
    split at h
    · cases h
    · exact (nope h (by simp)).elim
  | decide f =>
    unfold stepLoop at h
    dsimp only at h
    split at h
    · cases h
    · rcases ite_cases h with ⟨_, h⟩ | ⟨_, h⟩
      · exact (nope h (by simp)).elim
      · exact (nope h (by simp)).elim
  | submit f =>
    unfold stepLoop at h
    dsimp only at h
    split at h
    · cases h
    · exact (nope h (by simp)).elim
  | confirm f =>
    unfold stepLoop at h
    dsimp only at h
    split at h
    · cases h
    · rcases ite_cases h with ⟨_, h⟩ | ⟨_, h⟩
      · exact (nope h (by simp)).elim
      · exact (nope h (by simp)).elim
  | save f =>
    unfold stepLoop saveToJson at h
    exact (nope h (by simp)).elim

/-- **C35.** It stops on the first error: if the sync status cannot be had, if the block of the next slot
cannot be fetched, or if it cannot be processed, no further step is possible. -/
theorem C35_first_error_stops {L : Lib} {H : List Nat → List Nat} {E : Env} {A : Answers} {l : Loop}
    (hpc : l.pc = .top) :
    (A.sync = none → ∃ c, stepLoop L H E A l = .error c) ∧
    ∀ fin, A.sync = some true → A.finalized = some fin → l.o.st.nextSlot ≤ fin →
      ((∃ c, fetchFullBlock A.fetch l.o.st l.o.st.nextSlot false = .error c) ∨
       (∃ b, fetchFullBlock A.fetch l.o.st l.o.st.nextSlot false = .ok b ∧
         ((∃ c, advanceState E l.o b = .error c) ∨ ∃ o', advanceState E l.o b = .ok (o', none)))) →
      ∃ c, stepLoop L H E A l = .error c := by
  refine ⟨fun h => ⟨.fatal, ?_⟩, fun fin h1 h2 h3 h => ?_⟩
  · unfold stepLoop stepTop; simp [hpc, h]
  · unfold stepLoop stepTop
    simp only [hpc, h1, h2, if_pos h3]
    rcases h with ⟨c, h⟩ | ⟨b, hb, ⟨c, h⟩ | ⟨o', h⟩⟩
    · exact ⟨c, by rw [h]; rfl⟩
    · exact ⟨c, by rw [hb, bind_val, h]; rfl⟩
    · exact ⟨.fatal, by rw [hb, bind_val, h, bind_val]⟩

/-! ### C36 -/

/-- **C36.** A root is submitted only when not in dry-run mode, for a slot that was just processed, whose
reconciliation succeeded and for which exactly this root was just frozen, and only if the contract has
just shown the slot that is one checkpoint before (`MaySubmit`). -/
theorem C36_submission {L : Lib} {H : List Nat → List Nat} {E : Env} (hE : ValidEnv E) {cfg : Config}
    (h0 : 0 < cfg.depSlot) (h1 : cfg.depSlot < 2 ^ 64) {l l' : Loop} {tr : List LoopEv}
    (hw : Work H E (newOracle cfg) l.o) (hpc : l.pc = .top) (hr : LoopRun L H E l tr l')
    {pre post : List LoopEv} {s : Nat} {r : Str} (e : tr = pre ++ .submit s r :: post) :
    MaySubmit cfg pre s r :=
  (loopRun_inv hE h0 h1 hw hpc hr).events _ _ _ e

/-- **C36.** The submitted root is the one stored for that slot, from then on and for ever. With `C28`
and `C24`–`C27` it is the Merkle root of what was owed after that slot. -/
theorem C36_submitted_is_committed {L : Lib} {H : List Nat → List Nat} {E : Env} (hE : ValidEnv E)
    {cfg : Config} (h0 : 0 < cfg.depSlot) (h1 : cfg.depSlot < 2 ^ 64) {l l' : Loop} {tr : List LoopEv}
    (hw : Work H E (newOracle cfg) l.o) (hpc : l.pc = .top) (hr : LoopRun L H E l tr l')
    {s : Nat} {r : Str} (hm : .submit s r ∈ tr) :
    ∃ f, (s, f) ∈ l'.o.st.committed ∧ f.slot = s ∧ f.root = r := by
  have hi := loopRun_inv hE h0 h1 hw hpc hr
  obtain ⟨pre, post, e⟩ := List.append_of_mem hm
  obtain ⟨_, pre0, r', c, e1, ⟨pre1, fin, mid, e2, _⟩, _⟩ := hi.events _ _ _ e
  refine hi.frz s r ?_
  rw [e, e1, e2]
  simp

/-- **C36.** The main loop writes the state to disk only right after a checkpoint, and only if nothing
had to be submitted or the contract has just shown exactly the submitted root and slot (`MaySave`). -/
theorem C36_saved {L : Lib} {H : List Nat → List Nat} {E : Env} (hE : ValidEnv E) {cfg : Config}
    (h0 : 0 < cfg.depSlot) (h1 : cfg.depSlot < 2 ^ 64) {l l' : Loop} {tr : List LoopEv}
    (hw : Work H E (newOracle cfg) l.o) (hpc : l.pc = .top) (hr : LoopRun L H E l tr l')
    {pre post : List LoopEv} {s : Nat} (e : tr = pre ++ .save s :: post) : MaySave cfg pre s :=
  (loopRun_inv hE h0 h1 hw hpc hr).events _ _ _ e

/-- **C36 is false for the shutdown handler.** From the moment a checkpoint is frozen and until the
contract shows its root, a SIGTERM writes a state that contains this checkpoint to the disk. -/
theorem C36_false_shutdown {L : Lib} {H : List Nat → List Nat} {E : Env} (hE : ValidEnv E) {cfg : Config}
    (h0 : 0 < cfg.depSlot) (h1 : cfg.depSlot < 2 ^ 64) {l l' : Loop} {tr : List LoopEv}
    (hw : Work H E (newOracle cfg) l.o) (hpc : l.pc = .top) (hr : LoopRun L H E l tr l')
    {s : Nat} {r : Str} (hm : .frozen s r ∈ tr) :
    getStr (shutdown L l') stateJson = some (savedBytes L l'.o.st) ∧
    ∃ f, (s, f) ∈ l'.o.st.committed ∧ f.slot = s ∧ f.root = r :=
  ⟨save_state _ _ _ _, (loopRun_inv hE h0 h1 hw hpc hr).frz s r hm⟩

/-! ### C37 -/

/-- **C37 is false.** Once the oracle has gone past the slot one checkpoint after the contract's slot, it
never submits again: as long as the contract keeps showing slot `c`, no run of any length contains a
submission. -/
theorem C37_false_never_again {L : Lib} {H : List Nat → List Nat} {E : Env} (hE : ValidEnv E)
    {cfg : Config} (h0 : 0 < cfg.depSlot) (h1 : cfg.depSlot < 2 ^ 64) {l l' : Loop} {tr : List LoopEv}
    (hw : Work H E (newOracle cfg) l.o) (hpc : l.pc = .top) (hr : LoopRun L H E l tr l')
    {c : Nat} (hc : ∀ r' c', .chain r' c' ∈ tr → c' = c) (hb : c + cfg.cpSize < 2 ^ 64)
    (hpast : c + cfg.cpSize ≤ l.o.st.latestSlot) (s : Nat) (r : Str) : .submit s r ∉ tr := by
  intro hm
  have hi := loopRun_inv hE h0 h1 hw hpc hr
  have hn := (work_inv hE hw (work_start h0 h1)).1.next
  obtain ⟨pre, post, e⟩ := List.append_of_mem hm
  obtain ⟨_, pre0, r', c', e1, ⟨pre1, fin, mid, e2, _⟩, e3⟩ := hi.events _ _ _ e
  have hc' : c' = c := hc r' c' (by rw [e, e1]; simp)
  have hp : s ∈ slotsOf tr := by
    rw [e, e1, e2]
    simp only [slotsOf_append, List.mem_append, slotsOf]
    simp
  rw [hi.slots] at hp
  have := (List.mem_range'_1.mp hp).1
  rw [hc', Nat.mod_eq_of_lt hb] at e3
  omega

/-- **C37 is false.** If the checkpoint right after the contract's slot is skipped because there is not
enough data, the oracle never submits anything again. -/
theorem C37_false_skipped {L : Lib} {H : List Nat → List Nat} {E : Env} (hE : ValidEnv E)
    {cfg : Config} (h0 : 0 < cfg.depSlot) (h1 : cfg.depSlot < 2 ^ 64) {l l1 l2 : Loop}
    {tr tr' : List LoopEv} (hw : Work H E (newOracle cfg) l.o) (hpc : l.pc = .top)
    (hr : LoopRun L H E l tr l1) {c : Nat} (hb : c + cfg.cpSize < 2 ^ 64)
    (hskip : .skipped (c + cfg.cpSize) ∈ tr) (hpc1 : l1.pc = .top) (hr' : LoopRun L H E l1 tr' l2)
    (hc : ∀ r' c', .chain r' c' ∈ tr' → c' = c) (s : Nat) (r : Str) : .submit s r ∉ tr' := by
  have hi := loopRun_inv hE h0 h1 hw hpc hr
  refine C37_false_never_again hE h0 h1 hi.work hpc1 hr' hc hb ?_ s r
  have hn := (work_inv hE hi.work (work_start h0 h1)).1.next
  obtain ⟨pre, post, e⟩ := List.append_of_mem hskip
  obtain ⟨pre0, fin, e1⟩ := hi.events _ _ _ e
  have hp : c + cfg.cpSize ∈ slotsOf tr := by
    rw [e, e1]
    simp only [slotsOf_append, List.mem_append, slotsOf]
    simp
  rw [hi.slots] at hp
  have := (List.mem_range'_1.mp hp).2
  have := hi.next
  omega

/-- **C37 is false.** A SIGTERM after the slot of a checkpoint was processed but before it was frozen: the
state on disk is past that slot, the checkpoint is never made up for, and after the restart the oracle
never submits anything again. -/
theorem C37_false_restart {L : Lib} (hL : LibOK L) {H : List Nat → List Nat} {E : Env} (hE : ValidEnv E)
    {cfg : Config} (h0 : 0 < cfg.depSlot) (h1 : cfg.depSlot < 2 ^ 64) {l : Loop}
    (hw : Work H E (newOracle cfg) l.o) (ht : StateTyped l.o.st) (ha : AddressesOK l.o.st) {c : Nat}
    (hb : c + cfg.cpSize < 2 ^ 64) (hat : l.o.st.latestSlot = c + cfg.cpSize)
    (hold : ∀ p ∈ l.o.st.committed, p.1 ≤ c) :
    ∃ o', startup L H E (shutdown L l) cfg none (some c) = .ok o' ∧
      ∀ d lr tr l', LoopRun L H E ⟨.top, o', d, lr⟩ tr l' →
        (∀ r' c', .chain r' c' ∈ tr → c' = c) → ∀ s r, .submit s r ∉ tr := by
  refine ⟨⟨l.o.cfg, { l.o.st with stateHash := [], tick := 3 }⟩, ?_, ?_⟩
  · rw [startup_saved hL hE hE hw ht ha (d := shutdown L l) (save_state _ _ _ _)]
    rw [if_neg]
    intro h
    obtain ⟨_, h⟩ := h
    have : (latestCommittedSlot E 2 l.o.st).1 ≤ c := by
      unfold latestCommittedSlot
      split
      · exact Nat.zero_le _
      · obtain ⟨_, _, h3⟩ := foldl_max (E.shuffle 2 l.o.st.committed) 0
        dsimp only
        rcases h3 with h3 | ⟨p, hp, h3⟩
        · rw [h3]; exact Nat.zero_le _
        · rw [← h3]; exact hold p ((shuffle_perm hE 2 _).mem_iff.mp hp)
    omega
  · intro d lr tr l' hr hc s r
    refine C37_false_never_again hE h0 h1 (l := ⟨.top, _, d, lr⟩) (.saved [] 3 hw) rfl hr hc hb ?_ s r
    exact Nat.le_of_eq hat.symm

/-- **C37, partial.** What does hold: if the contract shows the slot one checkpoint before, someone is
tracked, the books are reconciled (`C02`), all withdrawal addresses are well formed (`C61`), the oracle
has not voted for this slot yet, the contract can be read and the cache of validators can be refreshed, then the
root is submitted. What is missing
for the full claim: the contract's slot must be exactly one checkpoint behind; after a skipped checkpoint
it never is again (see above). -/
theorem C37_submits_partial {L : Lib} {H : List Nat → List Nat} {E : Env} (hE : ValidEnv E) {cfg : Config}
    (h0 : 0 < cfg.depSlot) (h1 : cfg.depSlot < 2 ^ 64) {l : Loop} (hw : Work H E (newOracle cfg) l.o)
    (hpc : l.pc = .processed) (hdry : cfg.dryRun = false) (hcp : 0 < cfg.cpSize)
    (hat : cfg.depSlot ≤ l.o.st.latestSlot ∧ (l.o.st.latestSlot - cfg.depSlot) % cfg.cpSize = 0)
    (hbooks : ∀ t, offchainReconciliation E t l.o.st = .ok true) (ha : AddressesOK l.o.st)
    (hv : l.o.st.vals ≠ []) {A : Answers} {slot c : Nat} {r0 : Str}
    (hA : ∀ fin, A.finalized = some fin → fin + 1 < 2 ^ 64) (hrep : A.report = some slot)
    (hnot : slot ≠ l.o.st.latestSlot) (hq : A.quorum = true) (hch : A.chain = some (r0, c))
    (hc : l.o.st.latestSlot = c + cfg.cpSize) (hb : c + cfg.cpSize < 2 ^ 64) (hvs : AllValidators A.vals) :
    ∃ tr l' r, LoopRun L H E l tr l' ∧ .submit l.o.st.latestSlot r ∈ tr := by
  have hci := cfgInv_work hE hw
  obtain ⟨pc, ⟨cf, st⟩, disk, lr⟩ := l
  dsimp only at *
  subst hpc
  have ecfg := hci.cfg_eq
  dsimp only at ecfg
  have edep : cf.depSlot = cfg.depSlot := by rw [ecfg]
  have ecp : cf.cpSize = cfg.cpSize := by rw [ecfg]
  have edry : cf.dryRun = false := by rw [ecfg]; exact hdry
  have w1 := hw.tick (st.tick + 1)
  have hi := (work_inv hE w1 (work_start h0 h1)).1
  dsimp only at w1 hi
  obtain ⟨s, r, hf, hr⟩ := C24_checkpoint_possible (H := H) hE (s := { st with tick := st.tick + 1 })
    ⟨ha.vals, ha.fees, ha.pool⟩
  have hr := hr.mpr hv
  subst hr
  have hi' := (hi.freeze hE hf).1
  rcases freeze_cases hE hf with ⟨h, _⟩ | ⟨f, hF, _, hs⟩
  · cases h
  · have els : s.latestSlot = st.latestSlot := by rw [hs]
    have hmem : (st.latestSlot, f) ∈ s.committed := by
      rw [hs]; dsimp only; rw [putFrozen_mem hi.keys]; exact Or.inl rfl
    have hmax : ∀ p ∈ s.committed, p.1 ≤ st.latestSlot := by
      intro p hp
      have := (hi'.entry p hp).2.1
      rw [els] at this
      exact this
    have hlc := fun t => latestCommitted_spec hE t hi'.keys hmem hmax
    have hfs : f.slot = st.latestSlot := (hi'.entry _ hmem).1
    have s1 : stepLoop L H E A ⟨.processed, ⟨cf, st⟩, disk, lr⟩ =
        .ok (⟨.vote f, ⟨cf, { s with tick := s.tick + 1 }⟩, disk, lr⟩,
          [.reconciled, .frozen f.slot f.root]) := by
      unfold stepLoop
      dsimp only
      rw [refreshDue_ok hvs, bind_val]
      unfold stepProcessed
      have : isCheckpoint ⟨cf, st⟩ = .ok (some true) := by
        unfold isCheckpoint
        dsimp only
        rw [if_neg (by omega), edep, if_neg (by omega), ecp, if_neg (by omega), hat.2]
        rfl
      dsimp only
      rw [this, bind_val]
      dsimp only
      rw [hbooks, bind_val]
      rw [if_neg (by decide), hf, bind_val]
      rw [if_neg (by simp), (hlc _).2]
    have s2 : stepLoop L H E A ⟨.vote f, ⟨cf, { s with tick := s.tick + 1 }⟩, disk, lr⟩ =
        .ok (⟨.pause f, ⟨cf, { s with tick := s.tick + 1 + 1 }⟩, disk, lr⟩, [.voted slot]) := by
      have h3 : latestCommittedSlot E (s.tick + 1) { s with tick := s.tick + 1 } =
          (st.latestSlot, true) := (hlc _).1
      unfold stepLoop
      dsimp only
      rw [hrep, h3]
      dsimp only
      rw [hq, if_neg (by decide), if_pos (Or.inr hnot), edry]
      rfl
    have s3 : stepLoop L H E A ⟨.pause f, ⟨cf, { s with tick := s.tick + 1 + 1 }⟩, disk, lr⟩ =
        .ok (⟨.decide f, ⟨cf, { s with tick := s.tick + 1 + 1 }⟩, disk, lr⟩, [.chain r0 c]) := by
      unfold stepLoop
      dsimp only
      rw [hch]
    have s4 : stepLoop L H E A ⟨.decide f, ⟨cf, { s with tick := s.tick + 1 + 1 }⟩, disk, lr⟩ =
        .ok (⟨.submit f, ⟨cf, { s with tick := s.tick + 1 + 1 }⟩, disk, lr⟩,
          [.chain r0 c, .submit f.slot f.root]) := by
      have e : f.slot = u64 (c + cf.cpSize) := by
        rw [hfs, ecp, hc]
        exact (Nat.mod_eq_of_lt hb).symm
      unfold stepLoop
      dsimp only
      rw [hch]
      dsimp only
      rw [if_pos ⟨by rw [edry]; rfl, e⟩]
    refine ⟨_, _, f.root, .step (.step (.step (.step .nil hA s1) hA s2) hA s3) hA s4, ?_⟩
    rw [hfs]
    simp

/-! ### Concrete runs -/

namespace Sample

/-- let the loop run on a list of answers -/
def runLoop (L : Lib) (H : List Nat → List Nat) (E : Env) : List Answers → Loop → M (Loop × List LoopEv)
  | [], l => .ok (l, [])
  | A :: as, l => do
    let (l1, evs) ← stepLoop L H E A l
    let (l2, tr) ← runLoop L H E as l1
    .ok (l2, evs ++ tr)

theorem LoopRun.cons {L H E l l1 evs tr l2} {A : Answers} (hA : ∀ fin, A.finalized = some fin → fin + 1 < 2 ^ 64)
    (h : stepLoop L H E A l = .ok (l1, evs)) (hr : LoopRun L H E l1 tr l2) :
    LoopRun L H E l (evs ++ tr) l2 := by
  induction hr with
  | nil => simpa using LoopRun.step (.nil (l := l)) hA h
  | step _ hA' hs ih => rw [← List.append_assoc]; exact .step ih hA' hs

theorem run_of {L H E} : ∀ {as l l' tr}, (∀ A ∈ as, ∀ fin, A.finalized = some fin → fin + 1 < 2 ^ 64) →
    runLoop L H E as l = .ok (l', tr) → LoopRun L H E l tr l' := by
  intro as
  induction as with
  | nil =>
    intro l l' tr _ h
    have h := Except.ok.inj h
    cases h
    exact .nil
  | cons A as ih =>
    intro l l' tr hA h
    unfold runLoop at h
    simp only [bind_ok] at h
    obtain ⟨⟨l1, evs⟩, h1, ⟨l2, tr'⟩, h2, h⟩ := h
    have h := Except.ok.inj h
    cases h
    exact LoopRun.cons (hA A (by simp)) h1 (ih (fun A hm => hA A (by simp [hm])) h2)

/-- everybody is in sync, far ahead, nothing has been voted for, transactions are mined -/
def answers (r : Str) (c : Nat) : Answers :=
  { exec := some false, cons := some 0, finalized := some 12000150, fetch := chain, now := 0, balance := none,
    claim := fun _ => none, report := some 0, quorum := true, chain := some (r, c),
    tx := ⟨true, .sent, .mined 1⟩, vals := some [(0, ⟨bval 0, 1⟩)], torn := none }

theorem answers_vals (r : Str) (c : Nat) : AllValidators (answers r c).vals := by
  refine ⟨_, rfl, fun i hi => ?_, _, List.mem_singleton_self _, by decide, by decide⟩
  simp only [List.length_singleton] at hi
  exact ⟨_, List.mem_singleton_self _, by omega⟩

def start : Loop := ⟨.top, newOracle cfg, [], 0⟩

/-- the root of the first checkpoint -/
def firstRoot : Str :=
  match runLoop (Toy.lib hash) hash env (List.replicate 3 (answers [] 11999900)) start with
  | .ok (⟨.pause f, _, _, _⟩, _) => f.root
  | _ => []

/-- two slots, the first of them a checkpoint that is submitted, confirmed and saved -/
def run2 : List Answers :=
  List.replicate 7 (answers [] 11999900) ++ List.replicate 3 (answers firstRoot 12000000)

theorem run_fin : ∀ A ∈ List.replicate 7 (answers [] 11999900) ++ List.replicate 3 (answers firstRoot 12000000),
    ∀ fin, A.finalized = some fin → fin + 1 < 2 ^ 64 := by
  intro A hA fin h
  rcases List.mem_append.mp hA with hA | hA
  all_goals
    have := (List.mem_replicate.mp hA).2
    subst this
    simp only [answers, Option.some.injEq] at h
    omega

theorem run2_ok : ∃ l, LoopRun (Toy.lib hash) hash env start
    [.processed 12000000 12000150, .reconciled, .frozen 12000000 firstRoot, .voted 0, .chain [] 11999900,
     .chain [] 11999900, .submit 12000000 firstRoot, .chain [] 11999900, .chain firstRoot 12000000,
     .save 12000000, .processed 12000001 12000150] l := by
  obtain ⟨⟨l, tr⟩, h1, h2⟩ := ex_ok (x := runLoop (Toy.lib hash) hash env run2 start)
    (P := fun p => decide (p.2 =
    [.processed 12000000 12000150, .reconciled, .frozen 12000000 firstRoot, .voted 0, .chain [] 11999900,
     .chain [] 11999900, .submit 12000000 firstRoot, .chain [] 11999900, .chain firstRoot 12000000,
     .save 12000000, .processed 12000001 12000150])) (by decide +kernel)
  simp only [decide_eq_true_eq] at h2
  subst h2
  exact ⟨l, run_of run_fin h1⟩

end Sample

/-- In a concrete run two slots are processed, in order, and the first checkpoint is submitted, confirmed
and then saved. -/
example : ∃ tr l, LoopRun (Toy.lib Sample.hash) Sample.hash Sample.env Sample.start tr l ∧
    slotsOf tr = [12000000, 12000001] ∧ (∃ pre post, tr = pre ++ .submit 12000000 Sample.firstRoot :: post ∧
      MaySubmit Sample.cfg pre 12000000 Sample.firstRoot) ∧
    ∃ pre post, tr = pre ++ .save 12000000 :: post ∧ MaySave Sample.cfg pre 12000000 := by
  obtain ⟨l, h⟩ := Sample.run2_ok
  refine ⟨_, l, h, rfl, ?_, ?_⟩
  · have e := C36_submission Sample.env_valid (cfg := Sample.cfg) (by decide) (by decide) (.refl _) rfl h
      (pre := [.processed 12000000 12000150, .reconciled, .frozen 12000000 Sample.firstRoot, .voted 0,
        .chain [] 11999900, .chain [] 11999900]) rfl
    exact ⟨_, _, rfl, e⟩
  · have e := C36_saved Sample.env_valid (cfg := Sample.cfg) (by decide) (by decide) (.refl _) rfl h
      (pre := [.processed 12000000 12000150, .reconciled, .frozen 12000000 Sample.firstRoot, .voted 0,
        .chain [] 11999900, .chain [] 11999900, .submit 12000000 Sample.firstRoot, .chain [] 11999900,
        .chain Sample.firstRoot 12000000]) rfl
    exact ⟨_, _, rfl, e⟩

/-- A SIGTERM right after the first checkpoint was frozen: the contract has not been asked anything, and
the file already holds the checkpoint. -/
example : ∃ tr l, LoopRun (Toy.lib Sample.hash) Sample.hash Sample.env Sample.start tr l ∧
    (∀ r c, .chain r c ∉ tr) ∧
    getStr (shutdown (Toy.lib Sample.hash) l) stateJson = some (savedBytes (Toy.lib Sample.hash) l.o.st) ∧
    ∃ f, (12000000, f) ∈ l.o.st.committed ∧ f.slot = 12000000 ∧ f.root = Sample.firstRoot := by
  obtain ⟨⟨l, tr⟩, h1, h2⟩ := Sample.ex_ok
    (x := Sample.runLoop (Toy.lib Sample.hash) Sample.hash Sample.env (List.replicate 2 (Sample.answers [] 11999900)) Sample.start)
    (P := fun p => decide (p.2 = [.processed 12000000 12000150, .reconciled, .frozen 12000000 Sample.firstRoot]))
    (by decide +kernel)
  simp only [decide_eq_true_eq] at h2
  subst h2
  have hr := Sample.run_of (fun A hA => Sample.run_fin A (by
    have := (List.mem_replicate.mp hA).2
    subst this
    simp)) h1
  refine ⟨_, l, hr, by simp, ?_⟩
  exact C36_false_shutdown Sample.env_valid (cfg := Sample.cfg) (by decide) (by decide) (.refl _) rfl hr
    (by simp)

namespace Sample

/-- checkpoints every two slots -/
def cfg2 : Config := { cfg with cpSize := 2 }

/-- the sample chain, but the block of the deployment slot is missed -/
def quiet : Chain := { chain with cons := fun slot => if slot = 12000000 then some none else chain.cons slot }

def quietAnswers : Answers := { answers [] 11999998 with fetch := quiet }

def frozenAt (n : Nat) : LoopEv → Bool
  | .frozen k _ => k == n
  | _ => false

def showsOnly (c : Nat) : LoopEv → Bool
  | .chain _ k => k == c
  | _ => true

theorem quiet_fin {n : Nat} : ∀ A ∈ List.replicate n quietAnswers,
    ∀ fin, A.finalized = some fin → fin + 1 < 2 ^ 64 := by
  intro A hA fin h
  have := (List.mem_replicate.mp hA).2
  subst this
  simp only [quietAnswers, answers, Option.some.injEq] at h
  omega

end Sample

/-- A concrete skipped checkpoint: nobody is tracked at the first checkpoint, while the contract shows the
slot before. Two slots later there is data and a root, but it is not submitted, and by the theorem it never
will be. -/
example : ∃ tr tr' l1 l2,
    LoopRun (Toy.lib Sample.hash) Sample.hash Sample.env ⟨.top, newOracle Sample.cfg2, [], 0⟩ tr l1 ∧
    .skipped (11999998 + Sample.cfg2.cpSize) ∈ tr ∧ l1.pc = .top ∧
    LoopRun (Toy.lib Sample.hash) Sample.hash Sample.env l1 tr' l2 ∧
    (∃ r, .frozen 12000002 r ∈ tr' ∧ .save 12000002 ∈ tr') ∧ ∀ s r, .submit s r ∉ tr' := by
  obtain ⟨⟨l1, tr⟩, h1, h2⟩ := Sample.ex_ok
    (x := Sample.runLoop (Toy.lib Sample.hash) Sample.hash Sample.env (List.replicate 2 Sample.quietAnswers)
      ⟨.top, newOracle Sample.cfg2, [], 0⟩)
    (P := fun p => decide (p.1.pc = .top ∧
        p.2 = [.processed 12000000 12000150, .reconciled, .skipped 12000000]) &&
      (Sample.runLoop (Toy.lib Sample.hash) Sample.hash Sample.env (List.replicate 8 Sample.quietAnswers) p.1).toOption.any
        fun q : Loop × List LoopEv => q.2.any (Sample.frozenAt 12000002) &&
          decide (.save 12000002 ∈ q.2) && q.2.all (Sample.showsOnly 11999998))
    (by decide +kernel)
  simp only [Bool.and_eq_true, decide_eq_true_eq] at h2
  obtain ⟨⟨hpc, rfl⟩, h2⟩ := h2
  obtain ⟨⟨l2, tr'⟩, h3, h4⟩ := Sample.ex_ok h2
  simp only [Bool.and_eq_true, decide_eq_true_eq, List.any_eq_true, List.all_eq_true] at h4
  obtain ⟨⟨⟨e, he, he'⟩, hsv⟩, hall⟩ := h4
  have hr := Sample.run_of Sample.quiet_fin h1
  have hr' := Sample.run_of Sample.quiet_fin h3
  refine ⟨_, tr', l1, l2, hr, by simp [Sample.cfg2], hpc, hr', ?_, ?_⟩
  · cases e with
    | frozen k r =>
      simp only [Sample.frozenAt, beq_iff_eq] at he'
      subst he'
      exact ⟨r, he, hsv⟩
    | _ => cases he'
  · exact C37_false_skipped Sample.env_valid (cfg := Sample.cfg2) (by decide) (by decide) (.refl _) rfl hr
      (c := 11999998) (by decide) (by simp [Sample.cfg2]) hpc hr' (fun r c hm => by
        have := hall _ hm
        simpa [Sample.showsOnly] using this)

/-- A SIGTERM after the first slot, which is a checkpoint, has been processed: nothing will ever be
submitted after the restart. Without the SIGTERM the root would have been submitted. -/
example : ∃ l o', LoopRun (Toy.lib Sample.hash) Sample.hash Sample.env Sample.start
      [.processed 12000000 12000150] l ∧
    startup (Toy.lib Sample.hash) Sample.hash Sample.env (shutdown (Toy.lib Sample.hash) l) Sample.cfg none
      (some 11999900) = .ok o' ∧
    (∀ d lr tr l', LoopRun (Toy.lib Sample.hash) Sample.hash Sample.env ⟨.top, o', d, lr⟩ tr l' →
        (∀ r' c', .chain r' c' ∈ tr → c' = 11999900) → ∀ s r, .submit s r ∉ tr) ∧
    ∃ tr l' r, LoopRun (Toy.lib Sample.hash) Sample.hash Sample.env l tr l' ∧ .submit 12000000 r ∈ tr := by
  obtain ⟨⟨l, tr⟩, h1, h2⟩ := Sample.ex_ok
    (x := Sample.runLoop (Toy.lib Sample.hash) Sample.hash Sample.env (List.replicate 1 (Sample.answers [] 11999900)) Sample.start)
    (P := fun p => decide (p.2 = [.processed 12000000 12000150] ∧ p.1.pc = .processed ∧
        p.1.o.st.latestSlot = 12000000 ∧ p.1.o.st.committed = [] ∧ p.1.o.st.vals ≠ [] ∧
        owed p.1.o.st = received p.1.o.st) && typedB p.1.o.st && Sample.addressesB p.1.o.st &&
        p.1.o.st.proposed.all (fun b => b.reward.isSome))
    (by decide +kernel)
  simp only [Bool.and_eq_true, decide_eq_true_eq, List.all_eq_true] at h2
  obtain ⟨⟨⟨⟨rfl, hpc, hlat, hcom, hv, hbal⟩, ht⟩, ha⟩, hrw⟩ := h2
  have hfin : ∀ A ∈ List.replicate 1 (Sample.answers [] 11999900), ∀ fin, A.finalized = some fin → fin + 1 < 2 ^ 64 :=
    fun A hA => Sample.run_fin A (by
      have := (List.mem_replicate.mp hA).2
      subst this
      simp)
  have hr := Sample.run_of hfin h1
  have hi := loopRun_inv Sample.env_valid (cfg := Sample.cfg) (by decide) (by decide) (.refl _) rfl hr
  obtain ⟨o', h3, h4⟩ := C37_false_restart (Toy.lib_ok Sample.hash_ok) Sample.env_valid (cfg := Sample.cfg)
    (by decide) (by decide) hi.work (typed_of ht) (Sample.addresses_of ha) (c := 11999900) (by decide)
    (by rw [hlat]; rfl) (by rw [hcom]; simp)
  refine ⟨l, o', hr, h3, h4, ?_⟩
  have := C37_submits_partial (L := Toy.lib Sample.hash) Sample.env_valid (cfg := Sample.cfg) (by decide) (by decide) hi.work hpc rfl (by decide)
    (by rw [hlat]; decide) (fun t => by
      rw [offchain_eq Sample.env_valid t (fun b hb e => by
        have := hrw b hb
        rw [e] at this
        cases this), decide_eq_true hbal]) (Sample.addresses_of ha) hv
    (A := Sample.answers [] 11999900) (fun fin h => hfin _ (by simp) fin h) rfl (by rw [hlat]; decide) rfl rfl
    (by rw [hlat]; rfl) (by decide) (Sample.answers_vals _ _)
  rw [hlat] at this
  exact this

end Verif
