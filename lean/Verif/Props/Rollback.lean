import Verif.Props.System
/-
Property C89: an oracle never starts ahead of the contract. Property C32 over whole lives: the copies an oracle
saved stay, and it can go back to them.
-/
namespace Verif

theorem slotJson_inj {n m : Nat} (hn : n < 2 ^ 64) (hm : m < 2 ^ 64) (h : slotJson n = slotJson m) : n = m := by
  unfold slotJson at h
  rw [List.append_left_inj, List.append_right_inj] at h
  exact decimal_inj hn hm h

section
variable {P : Law} {T : Chain} {L : Lib} {H : List Nat → List Nat} {cfg : Config}

/-- under the name of a slot there is the state of that slot, maybe cut off -/
def CopiesOK (P : Law) (T : Chain) (L : Lib) (H : List Nat → List Nat) (cfg : Config) (d : Disk) : Prop :=
  ∀ n raw, n < 2 ^ 64 → getStr d (slotJson n) = some raw →
    ∃ o, Lived P T H cfg o ∧ o.st.latestSlot = n ∧ raw <+: savedBytes L o.st

theorem CopiesOK.interrupted {o : Oracle} {d d' : Disk} (hd : CopiesOK P T L H cfg d) (ho : Lived P T H cfg o)
    (h : Interrupted L o.st d d') : CopiesOK P T L H cfg d' := by
  intro n raw hn hr
  rcases h _ raw hr with h | ⟨h1 | h1, h2⟩
  · exact hd n raw hn h
  · exact absurd h1 (slotJson_ne n)
  · have e := slotJson_inj hn ho.typed.latestSlot h1
    exact ⟨o, ho, e.symm, h2⟩

theorem life_copies (hP : P.Good) (hT : ChainTyped T) (hL : LibOK L) (hH : HashOK H) (hc : CfgTyped cfg)
    (h0 : 0 < cfg.depSlot) {tr : List LoopEv} {x : Being} (h : Life P T L H cfg tr x) :
    CopiesOK P T L H cfg (match x with | .off d => d | .on l => l.disk) := by
  induction h with
  | born => intro n raw _ h; simp [getStr] at h
  | restore _ _ _ ih => exact ih
  | start t _ _ _ ih => exact ih
  | sync t _ _ _ _ _ ih _ => exact ih
  | @step tr l l' E A evs hl hE hfin hnet htorn hs ih =>
    have ho := (life_inv hP hT hL hH hc h0 hl).2.2.1
    dsimp only at ih ⊢
    rcases (step_facts hs).disk with e | e
    · rw [e]; exact ih
    · rw [e]
      cases ht : A.torn with
      | none => exact ih.interrupted ho save_interrupted
      | some d => exact ih.interrupted ho (htorn d ht)
  | kill hl hi ih => exact ih.interrupted (life_inv hP hT hL hH hc h0 hl).2.2.1 hi
  | signal hl ih => exact ih.interrupted (life_inv hP hT hL hH hc h0 hl).2.2.1 save_interrupted

/-- a file that is read contains the state, nothing else -/
theorem load_copy (hL : LibOK L) {E : Env} {o o0 o1 : Oracle} (ht : StateTyped o.st) {raw : List Nat}
    (hw : raw <+: savedBytes L o.st) (h : loadFromBytes L H E o0 raw = .ok (o1, .loaded)) :
    o1.st.committed = o.st.committed ∧ o1.st.latestSlot = o.st.latestSlot := by
  have h : loadFromBytes L H E o0 (savedBytes L o.st) = .ok (o1, .loaded) := by
    by_cases he : raw = savedBytes L o.st
    · rw [← he]; exact h
    · rw [C31_torn_file_rejected hL ht hw he] at h
      cases h
  rw [load_saved_eq hL ht] at h
  rcases ite_cases h with ⟨_, h⟩ | ⟨_, h⟩
  · cases h
  rcases ite_cases h with ⟨_, h⟩ | ⟨_, h⟩
  · cases h
  rcases ite_cases h with ⟨_, h⟩ | ⟨_, h⟩
  · cases h
  rcases ite_cases h with ⟨_, h⟩ | ⟨_, h⟩
  · cases h
  rcases ite_cases h with ⟨_, h⟩ | ⟨_, h⟩
  · cases h
  rcases ite_cases h with ⟨_, h⟩ | ⟨_, h⟩
  · cases h
  rcases ite_cases h with ⟨_, h⟩ | ⟨_, h⟩
  · cases h
  rcases ite_cases h with ⟨_, h⟩ | ⟨_, h⟩
  · cases h
  simp only [bind_ok] at h
  obtain ⟨_, _, h⟩ := h
  have h := Except.ok.inj h
  cases h
  exact ⟨rfl, rfl⟩

theorem copy_behind (hL : LibOK L) {E : Env} {d : Disk} (hd : CopiesOK P T L H cfg d) {o0 o1 : Oracle} {n : Nat}
    (hn : n < 2 ^ 64) (h : loadFromPath L H E d o0 (slotJson n) = .ok (o1, .loaded)) :
    (∀ p ∈ o1.st.committed, p.1 ≤ n) ∧ o1.st.latestSlot = n := by
  unfold loadFromPath at h
  split at h
  · cases h
  · rename_i raw hraw
    obtain ⟨o, h1, h2, h3⟩ := hd n raw hn hraw
    obtain ⟨k1, k2⟩ := load_copy hL h1.typed h3 h
    refine ⟨?_, k2.trans h2⟩
    intro p hp
    rw [k1] at hp
    rw [← h2]
    exact (h1.commit.entry p hp).2.1

theorem older_behind (hL : LibOK L) {E : Env} {d : Disk} (hd : CopiesOK P T L H cfg d) {c : Nat} (hc : c < 2 ^ 64) :
    ∀ (is : List Nat) {o0 o1 : Oracle} {r0 : Load}, (∀ i ∈ is, i ≤ 2) →
      o0.cfg = { cfg with fee := o0.cfg.fee } → DiskOK P T L H cfg d → r0 ≠ .loaded →
      loadOlder L H E d c is o0 r0 = .ok (o1, .loaded) → o1.st.latestSlot + 2 * cfg.cpSize < 2 ^ 64 →
      ∀ p ∈ o1.st.committed, p.1 ≤ c := by
  intro is
  induction is with
  | nil =>
    intro o0 o1 r0 _ _ _ h0 h _
    have h := Except.ok.inj h
    cases h
    exact absurd rfl h0
  | cons i is ih =>
    intro o0 o1 r0 hi hcf hdk _ h hfar
    rw [loadOlder] at h
    simp only [bind_ok] at h
    obtain ⟨⟨o', r'⟩, h1, h⟩ := h
    have k1 := (path_written hL hdk hcf h1).1
    dsimp only at h
    rcases ite_cases h with ⟨e, h⟩ | ⟨e, h⟩
    · have h := Except.ok.inj h
      cases h
      have hn : sub64 c (u64 (o0.cfg.cpSize * i)) < 2 ^ 64 := by unfold sub64 u64; omega
      obtain ⟨k2, k3⟩ := copy_behind hL hd hn h1
      have hle : sub64 c (u64 (o0.cfg.cpSize * i)) ≤ c := by
        have e : o0.cfg.cpSize = cfg.cpSize := by rw [hcf]
        rw [k3, e] at hfar
        rw [e]
        have hi := hi i List.mem_cons_self
        have : cfg.cpSize * i ≤ cfg.cpSize * 2 := Nat.mul_le_mul_left _ hi
        unfold sub64 u64 at hfar ⊢
        omega
      intro p hp
      exact le_trans (k2 p hp) hle
    · exact ih (fun i h => hi i (List.mem_cons_of_mem _ h)) k1 hdk e h hfar

/-- what `startup` ends with, if it ends -/
theorem startup_behind (hL : LibOK L) {E : Env} (hE : ValidEnv E) {d : Disk} (hdk : DiskOK P T L H cfg d)
    (hd : CopiesOK P T L H cfg d) {source : Option (List Nat)}
    (hs : ∀ raw, source = some raw → Written P T L H cfg raw) {c : Nat} (hc : c < 2 ^ 64)
    (hdry : cfg.dryRun = false) {o : Oracle} (h : startup L H E d cfg source (some c) = .ok o)
    (hfar : o.st.latestSlot + 2 * cfg.cpSize < 2 ^ 64) :
    ∀ p ∈ o.st.committed, p.1 ≤ c := by
  unfold startup at h
  dsimp only at h
  simp only [bind_ok] at h
  obtain ⟨⟨o1, r⟩, h1, h⟩ := h
  have hcf : o1.cfg = { cfg with fee := o1.cfg.fee } := by
    cases source with
    | some raw => exact (load_written hL rfl (hs raw rfl) h1).1
    | none => exact (path_written hL hdk rfl h1).1
  dsimp only at h
  rcases ite_cases h with ⟨_, h⟩ | ⟨hr, h⟩
  · cases h
  rcases ite_cases h with ⟨_, h⟩ | ⟨hno, h⟩
  · simp only [bind_ok] at h
    obtain ⟨⟨o3, r3⟩, h3, h⟩ := h
    rcases ite_cases h with ⟨e, h⟩ | ⟨_, h⟩
    · have h := Except.ok.inj h
      dsimp only at e h
      subst h e
      unfold loadGivenState at h3
      simp only [bind_ok] at h3
      obtain ⟨⟨o4, r4⟩, h4, h3⟩ := h3
      have k1 := (path_written hL hdk (by exact hcf) h4).1
      dsimp only at h3
      cases r4 with
      | failed => cases h3
      | loaded =>
        cases h3
        exact (copy_behind hL hd hc h4).1
      | notFound => exact older_behind hL hd hc _ (by decide) k1 hdk (by decide) h3 hfar
    · cases h
  · have h := Except.ok.inj h
    subst h
    intro p hp
    have hp : p ∈ o1.st.committed := hp
    have hdry' : o1.cfg.dryRun = false := by rw [hcf]; exact hdry
    by_contra hlt
    apply hno
    refine ⟨by rw [hdry']; rfl, ?_⟩
    have := latest_ge hE o1.st.tick hp
    omega

/-- **C89.** However an oracle has lived so far, when it is started with the contract at slot `c`, it is
not ahead of the contract: no checkpoint it has frozen is after `c`. If its last state is ahead, it goes back to
a copy or it does not start. (Slots stay two checkpoints away from 2^64, which is far: if the slot of the contract
is less than two checkpoints, the code looks for copies of slots near 2^64.) -/
theorem C89_not_ahead (hP : P.Good) (hT : ChainTyped T) (hL : LibOK L) (hH : HashOK H) (hc : CfgTyped cfg)
    (h0 : 0 < cfg.depSlot) (hdry : cfg.dryRun = false) {tr : List LoopEv} {d : Disk}
    (h : Life P T L H cfg tr (.off d)) {E : Env} (hE : Obeys P E) {c : Nat} (hc64 : c < 2 ^ 64)
    {o : Oracle} (hs : startup L H E d cfg none (some c) = .ok o) (hfar : o.st.latestSlot + 2 * cfg.cpSize < 2 ^ 64) :
    ∀ p ∈ o.st.committed, p.1 ≤ c :=
  startup_behind hL (hP.valid E hE) (life_inv hP hT hL hH hc h0 h).2 (life_copies hP hT hL hH hc h0 h)
    (fun _ h => by cases h) hc64 hdry hs hfar

/-- **C89.** The same if it is started with the state that another living oracle serves. -/
theorem C89_sync_not_ahead (hP : P.Good) (hT : ChainTyped T) (hL : LibOK L) (hH : HashOK H)
    (hc : CfgTyped cfg) (h0 : 0 < cfg.depSlot) (hdry : cfg.dryRun = false) {tr tr' : List LoopEv} {d : Disk}
    {l : Loop} (h : Life P T L H cfg tr (.off d)) (h' : Life P T L H cfg tr' (.on l)) {raw : List Nat}
    (hraw : L.parse raw = some (encState (hashState L l.o.st))) {E : Env} (hE : Obeys P E) {c : Nat}
    (hc64 : c < 2 ^ 64) {o : Oracle} (hs : startup L H E d cfg (some raw) (some c) = .ok o)
    (hfar : o.st.latestSlot + 2 * cfg.cpSize < 2 ^ 64) : ∀ p ∈ o.st.committed, p.1 ≤ c := by
  refine startup_behind hL (hP.valid E hE) (life_inv hP hT hL hH hc h0 h).2 (life_copies hP hT hL hH hc h0 h)
    ?_ hc64 hdry hs hfar
  intro raw' e
  have e := Option.some.inj e
  subst e
  have ho := (life_inv hP hT hL hH hc h0 h').2.2.1
  refine ⟨l.o, ho, Or.inr ?_⟩
  rw [hraw]
  unfold savedBytes
  rw [hL.reads _ (hashState_typed hL ho.typed)]

/-! ### The copies stay -/

/-- a whole copy of a slot, and a whole last state -/
structure HasCopy (P : Law) (T : Chain) (L : Lib) (H : List Nat → List Nat) (cfg : Config) (n : Nat) (d : Disk) :
    Prop where
  copy : ∃ o, Lived P T H cfg o ∧ o.st.latestSlot = n ∧ getStr d (slotJson n) = some (savedBytes L o.st)
  last : ∃ o, Lived P T H cfg o ∧ getStr d stateJson = some (savedBytes L o.st)

theorem HasCopy.save {n : Nat} {d : Disk} (h : HasCopy P T L H cfg n d) {o : Oracle} (ho : Lived P T H cfg o)
    (flag : Bool) : HasCopy P T L H cfg n (saveToJson L flag o d).2 := by
  refine ⟨?_, o, ho, save_state _ _ _ _⟩
  obtain ⟨o', h1, h2, h3⟩ := h.copy
  unfold saveToJson
  dsimp only
  split
  · rw [getStr_putStr, getStr_putStr, if_neg (slotJson_ne n)]
    split
    · rename_i e
      exact ⟨o, ho, (slotJson_inj (h2 ▸ h1.typed.latestSlot) ho.typed.latestSlot e).symm, rfl⟩
    · exact ⟨o', h1, h2, h3⟩
  · rw [getStr_putStr, if_neg (slotJson_ne n)]
    exact ⟨o', h1, h2, h3⟩

theorem careful_copy (hP : P.Good) (hT : ChainTyped T) (hL : LibOK L) (hH : HashOK H) (hc : CfgTyped cfg)
    (h0 : 0 < cfg.depSlot) {tr : List LoopEv} {l : Loop} {n : Nat} (h : Life P T L H cfg tr (.on l))
    (hn : HasCopy P T L H cfg n l.disk) {y : Being} (hy : Careful P T L H cfg (.on l) y) :
    (∃ tr', Life P T L H cfg tr' y) ∧ HasCopy P T L H cfg n (match y with | .off d => d | .on l => l.disk) := by
  induction hy with
  | nil => exact ⟨⟨tr, h⟩, hn⟩
  | start t _ hE hs ih =>
    obtain ⟨⟨tr', h1⟩, h2⟩ := ih
    exact ⟨⟨tr', .start t h1 hE hs⟩, h2⟩
  | @step l l' E A evs _ hE hfin hnet htorn hs ih =>
    obtain ⟨⟨tr', h1⟩, h2⟩ := ih
    refine ⟨⟨_, .step h1 hE hfin hnet (fun d hd => by rw [htorn] at hd; cases hd) hs⟩, ?_⟩
    dsimp only at h2 ⊢
    rcases (step_facts hs).disk with e | e
    · rw [e]; exact h2
    · rw [e, htorn]
      exact h2.save (life_inv hP hT hL hH hc h0 h1).2.2.1 true
  | kill _ ih =>
    obtain ⟨⟨tr', h1⟩, h2⟩ := ih
    exact ⟨⟨tr', .kill h1 fun _ _ h => Or.inl h⟩, h2⟩
  | signal _ ih =>
    obtain ⟨⟨tr', h1⟩, h2⟩ := ih
    exact ⟨⟨tr', .signal h1⟩, h2.save (life_inv hP hT hL hH hc h0 h1).2.2.1 false⟩

theorem lived_ok (hG : ∀ E, Obeys P E → GoodEnv cfg E) (hC : GoodFetch cfg T) (hg : GoodCfg cfg) {o : Oracle}
    (hl : Lived P T H cfg o) : AddressesOK o.st := by
  obtain ⟨E, bs, q, h1, h2, h3⟩ := hl.whole
  have k2 : StateOK cfg o.st := by
    rw [h3.symm.re]
    exact stateOK_mono (h2.ok hg (hG E h1) hC) _ _ _
  have hpool : o.st.poolAddr = cfg.poolAddr := by rw [hl.config.same.poolAddr, hl.config.cfg_eq]
  have hfees : o.st.poolFeesAddr = cfg.poolFeesAddr := by rw [hl.config.same.poolFeesAddr, hl.config.cfg_eq]
  exact ⟨fun p hp => wellFormed_isAddress (k2.owners p hp).1, by rw [hfees]; exact hg.feesAddr,
    fun p hp => by rw [hpool]; exact (k2.owners p hp).2.1⟩

/-- **C32** over a whole life (partial). An oracle saves its state at a checkpoint. Whatever it does afterwards, as
long as no file is lost or damaged: when it is started again and the contract is at that checkpoint, it starts. If
its last state has a checkpoint that the contract does not have, it goes back to the books it had then. Missing: the
fee of the last state must be the one of the copy (`C32_false_across_fee_change`), and the conditions of C83. -/
theorem C32_life_partial {V : Nat → Nat → BVal} {K : Nat → List (Nat × Nat)} (hP : P.Good) (hR : P.Reads V K)
    (hA : ∀ n, n % 1200 = 0 → ActiveTargets V K n) (hG : ∀ E, Obeys P E → GoodEnv cfg E) (hC : GoodFetch cfg T)
    (hT : ChainTyped T) (hL : LibOK L) (hH : HashOK H) (hc : CfgTyped cfg) (hg : GoodCfg cfg) {tr : List LoopEv}
    {l l1 : Loop} (h : Life P T L H cfg tr (.on l)) {f : Frozen} (hpc : l.pc = .save f) {E : Env} (hE : Obeys P E)
    {A : Answers} {evs : List LoopEv} (hfin : ∀ fin, A.finalized = some fin → fin + 1 < 2 ^ 64)
    (hnet : HonestNetwork T A.fetch l.o.st.nextSlot) (htorn : A.torn = none)
    (hs : stepLoop L H E A l = .ok (l1, evs)) {d : Disk} (hd : Careful P T L H cfg (.on l1) (.off d))
    (hfee : ∀ s, StateTyped s → getStr d b!"state.json" = some (savedBytes L s) → s.fee = l.o.st.fee) {E' : Env}
    (hE' : Obeys P E') :
    ∃ o, startup L H E' d cfg none (some l.o.st.latestSlot) = .ok o ∧
      ((∀ s, StateTyped s → getStr d b!"state.json" = some (savedBytes L s) →
        ∃ p ∈ s.committed, l.o.st.latestSlot < p.1) → cfg.dryRun = false → SameBooks o l.o) := by
  have h0 := hg.dep.1
  have hl := (life_inv hP hT hL hH hc h0 h).2.2.1
  have h1 : Life P T L H cfg (tr ++ evs) (.on l1) :=
    .step h hE hfin hnet (fun d hd => by rw [htorn] at hd; cases hd) hs
  have hcopy : HasCopy P T L H cfg l.o.st.latestSlot l1.disk := by
    unfold stepLoop at hs
    rw [hpc] at hs
    dsimp only at hs
    have hs := Except.ok.inj hs
    rw [htorn] at hs
    cases hs
    have e : getStr (saveToJson L true l.o l.disk).2 (slotJson l.o.st.latestSlot) = some (savedBytes L l.o.st) := by
      unfold saveToJson
      dsimp only
      rw [if_pos rfl, getStr_putStr, if_pos rfl]
    exact ⟨⟨l.o, hl, rfl, e⟩, l.o, hl, save_state L true l.o l.disk⟩
  obtain ⟨⟨tr', h2⟩, h3⟩ := careful_copy hP hT hL hH hc h0 h1 hcopy hd
  obtain ⟨old, k1, k2, k3⟩ := h3.copy
  obtain ⟨new, k4, k5⟩ := h3.last
  dsimp only at k3 k5
  have hv := hP.valid E' hE'
  have ha := lived_ok hG hC hg k4
  have hst := startup_kept hL (H := H) hv k4.config k4.typed ha k5 l.o.st.latestSlot
  have hbooks : SameBooks old l.o :=
    Course.agree (by exact List.Pairwise.nil) hA (k1.whole.course hP hR) (hl.whole.course hP hR)
      (by rw [k1.commit.next, hl.commit.next, k2])
  have hoff : old.st.fee = new.st.fee := by
    rw [hfee new.st k4.typed k5]
    have := congrArg State.fee hbooks.2
    exact this
  have hload : loadCfg new.cfg old.st = old.cfg := by
    unfold loadCfg
    rw [if_neg (by rw [hoff, k4.config.same.fee]; simp), k4.config.cfg_eq, k1.config.cfg_eq,
      ← k4.config.same.fee, ← k1.config.same.fee, hoff]
  have hgive : ∀ t, loadGivenState L H E' d ⟨new.cfg, t⟩ l.o.st.latestSlot =
      .ok (⟨old.cfg, { old.st with stateHash := [], tick := t.tick + 2 }⟩, .loaded) := by
    intro t
    have key := load_saved hL (H := H) hv (o := ⟨new.cfg, t⟩) k1.typed (lived_ok hG hC hg k1)
      (by rw [hload]; exact k1.config.same)
    rw [hload] at key
    unfold loadGivenState loadFromPath
    rw [k3]
    dsimp only
    rw [key, bind_val]
  rw [hst]
  split
  · refine ⟨⟨old.cfg, { old.st with stateHash := [], tick := 5 }⟩, ?_, fun _ _ => ?_⟩
    · rw [hgive, bind_val]
      dsimp only
      rw [if_pos rfl]
    · exact SameBooks.trans ⟨rfl, rfl⟩ hbooks
  · rename_i hno
    refine ⟨_, rfl, fun hah hdry => ?_⟩
    obtain ⟨p, hp, hlt⟩ := hah new.st k4.typed k5
    have := latest_ge hv 2 hp
    exact absurd ⟨by rw [hdry]; rfl, by omega⟩ hno

/-- **C32**, limits: if the copy of the slot is damaged (the oracle was killed while writing it), the oracle cannot
go back, whatever older copies there are; with a missing copy it could. -/
theorem C32_false_damaged_copy (hP : P.Good) (hG : ∀ E, Obeys P E → GoodEnv cfg E) (hC : GoodFetch cfg T)
    (hT : ChainTyped T) (hL : LibOK L) (hH : HashOK H) (hc : CfgTyped cfg) (hg : GoodCfg cfg) {tr : List LoopEv}
    {l : Loop} (h : Life P T L H cfg tr (.on l)) {d : Disk}
    (hd : getStr d b!"state.json" = some (savedBytes L l.o.st)) (hdry : cfg.dryRun = false) {c : Nat}
    (hah : ∃ p ∈ l.o.st.committed, c < p.1) {raw : List Nat}
    (hraw : getStr d (b!"state_" ++ decimal c ++ b!".json") = some raw) (hbad : L.parse raw = none) {E : Env}
    (hE : Obeys P E) : startup L H E d cfg none (some c) = .error .fatal := by
  have hl := (life_inv hP hT hL hH hc hg.dep.1 h).2.2.1
  have hv := hP.valid E hE
  obtain ⟨p, hp, hlt⟩ := hah
  have := latest_ge hv 2 hp
  rw [startup_kept hL (H := H) hv hl.config hl.typed (lived_ok hG hC hg hl) hd c, if_pos ⟨by rw [hdry]; rfl, by omega⟩]
  have hraw : getStr d (slotJson c) = some raw := hraw
  have hbytes : ∀ o, loadFromBytes L H E o raw = .ok (o, .failed) := by
    intro o
    unfold loadFromBytes
    rw [hbad]
    rfl
  unfold loadGivenState loadFromPath
  rw [hraw]
  dsimp only
  rw [hbytes, bind_val]
  rfl

end

/-- the content of a file determines the state -/
theorem savedBytes_inj {L : Lib} (hL : LibOK L) {s s' : State} (h : StateTyped s) (h' : StateTyped s')
    (e : savedBytes L s = savedBytes L s') :
    { hashState L s with tick := 0 } = { hashState L s' with tick := 0 } := by
  have h1 := hL.reads _ (hashState_typed hL h)
  have h2 := hL.reads _ (hashState_typed hL h')
  unfold savedBytes at e
  rw [e, h2] at h1
  have e := Option.some.inj h1
  have h3 := decState_enc (hashState_typed hL h)
  rw [← e, decState_enc (hashState_typed hL h')] at h3
  exact (Option.some.inj h3).symm

namespace Sample

theorem careful_of {T : Chain} {L H P cfg} {E : Env} (hE : Obeys P E) : ∀ {as l l' tr x},
    (∀ A ∈ as, (∀ fin, A.finalized = some fin → fin + 1 < 2 ^ 64) ∧ (∀ slot, HonestNetwork T A.fetch slot) ∧
      A.torn = none) →
    Careful P T L H cfg x (.on l) → runLoop L H E as l = .ok (l', tr) → Careful P T L H cfg x (.on l') := by
  intro as
  induction as with
  | nil =>
    intro l l' tr x _ hl h
    have h := Except.ok.inj h
    cases h
    exact hl
  | cons A as ih =>
    intro l l' tr x hA hl h
    unfold runLoop at h
    simp only [bind_ok] at h
    obtain ⟨⟨l1, evs⟩, h1, ⟨l2, tr2⟩, h2, h⟩ := h
    have h := Except.ok.inj h
    cases h
    obtain ⟨a1, a2, a3⟩ := hA A List.mem_cons_self
    exact ih (fun A h => hA A (List.mem_cons_of_mem _ h)) (.step hl hE a1 (a2 _) a3 h1) h2

end Sample

open Sample in
/-- With a checkpoint every slot: the oracle saves at slot 12000000, freezes the checkpoint of slot 12000001, votes,
and is stopped. The contract is still at slot 12000000. When the oracle is started again it goes back to the books
of slot 12000000. If the copy of that slot has been emptied, it cannot be started. -/
example : ∃ tr l l1 A evs f d o, Life law chain (Toy.lib hash) hash (cpCfg 1) tr (.on l) ∧ l.pc = .save f ∧
    stepLoop (Toy.lib hash) hash env A l = .ok (l1, evs) ∧
    Careful law chain (Toy.lib hash) hash (cpCfg 1) (.on l1) (.off d) ∧
    startup (Toy.lib hash) hash envRev d (cpCfg 1) none (some 12000000) = .ok o ∧ l.o.st.latestSlot = 12000000 ∧
    SameBooks o l.o ∧ (∀ p ∈ o.st.committed, p.1 ≤ 12000000) ∧
    startup (Toy.lib hash) hash envRev (putStr d b!"state_12000000.json" []) (cpCfg 1) none (some 12000000) =
      .error .fatal ∧
    ∃ s, StateTyped s ∧ getStr d b!"state.json" = some (savedBytes (Toy.lib hash) s) ∧ s.latestSlot = 12000001 := by
  have hL := Toy.lib_ok hash_ok
  obtain ⟨⟨l, tr1⟩, h1, k1⟩ := ex_ok
    (x := runLoop (Toy.lib hash) hash env (List.replicate 5 (answers [] 12000000))
      ⟨.top, ⟨cpCfg 1, { (newOracle (cpCfg 1)).st with tick := 1 }⟩, [], 0⟩)
    (P := fun p => (match p.1.pc with | .save _ => true | _ => false) && decide (p.1.o.st.latestSlot = 12000000) &&
      (runLoop (Toy.lib hash) hash env (List.replicate 6 (answers [] 12000000)) p.1).toOption.any
        fun (q : Loop × List LoopEv) => decide (q.1.o.st.latestSlot = 12000001 ∧ q.1.o.st.fee = p.1.o.st.fee) &&
          q.1.o.st.committed.any fun p => decide (12000000 < p.1)) (by decide +kernel)
  simp only [Bool.and_eq_true, decide_eq_true_eq] at k1
  obtain ⟨⟨hpc, hl⟩, k1⟩ := k1
  obtain ⟨⟨l2, tr2⟩, h2, k2⟩ := ex_ok k1
  simp only [Bool.and_eq_true, decide_eq_true_eq, List.any_eq_true] at k2
  obtain ⟨⟨k2, k3⟩, p, hp, k4⟩ := k2
  rw [List.replicate_succ] at h2
  unfold runLoop at h2
  simp only [bind_ok] at h2
  obtain ⟨⟨l1, evs⟩, hs, ⟨l3, tr3⟩, h3, h2⟩ := h2
  have h2 := Except.ok.inj h2
  cases h2
  obtain ⟨f, hpc⟩ : ∃ f, l.pc = .save f := by
    split at hpc
    · rename_i f e; exact ⟨f, e⟩
    · cases hpc
  have a0 : Life law chain (Toy.lib hash) hash (cpCfg 1) [] (.on ⟨.top, ⟨cpCfg 1, { (newOracle (cpCfg 1)).st with tick := 1 }⟩, [], 0⟩) :=
    .start (E := env) (c := 12000000) 0 .born law_env rfl
  have a1 := life_of law_env answers_ok a0 h1
  have ans := answers_ok (n := 1) (r := []) (c := 12000000) (answers [] 12000000) (by simp)
  have a2 : Life law chain (Toy.lib hash) hash (cpCfg 1) _ (.on l1) :=
    .step a1 law_env ans.1 (ans.2.1 _) (fun d hd => by rw [ans.2.2] at hd; cases hd) hs
  have a3 := life_of law_env answers_ok a2 h3
  have hcar : Careful law chain (Toy.lib hash) hash (cpCfg 1) (.on l1) (.off (shutdown (Toy.lib hash) l3)) :=
    .signal (careful_of law_env answers_ok .nil h3)
  have ty := (life_inv law_good chain_typed hL hash_ok (cpCfg_typed (by decide)) (by decide) a3).2.2.1.typed
  have hst : getStr (shutdown (Toy.lib hash) l3) b!"state.json" = some (savedBytes (Toy.lib hash) l3.o.st) :=
    save_state _ _ _ _
  have hsame : ∀ s, StateTyped s →
      getStr (shutdown (Toy.lib hash) l3) b!"state.json" = some (savedBytes (Toy.lib hash) s) →
      s.fee = l3.o.st.fee ∧ s.committed = l3.o.st.committed := by
    intro s hs e
    rw [hst] at e
    have e := savedBytes_inj hL ty hs (Option.some.inj e)
    constructor
    · have := congrArg State.fee e; exact this.symm
    · have := congrArg State.committed e; exact this.symm
  obtain ⟨o, b1, b2⟩ := C32_life_partial law_good law_reads live_targets (fun _ => cpCfg_env) (cpCfg_chain 1) chain_typed
    hL hash_ok (cpCfg_typed (by decide)) (cpCfg_good (by decide)) a1 hpc law_env ans.1 (ans.2.1 _) ans.2.2 hs hcar
    (fun s hs e => by rw [(hsame s hs e).1, k3]) law_rev
  have b2 := b2 (fun s hs e => by rw [(hsame s hs e).2, hl]; exact ⟨p, hp, k4⟩) rfl
  rw [hl] at b1
  refine ⟨_, l, l1, _, evs, f, _, o, a1, hpc, hs, hcar, b1, hl, b2, ?_, ?_, l3.o.st, ty, hst, k2⟩
  · exact C89_not_ahead law_good chain_typed hL hash_ok (cpCfg_typed (by decide)) (by decide) rfl (.signal a3)
      law_rev (by decide) b1 (by rw [b2.latest, hl]; decide)
  · have hname : b!"state_" ++ decimal 12000000 ++ b!".json" = b!"state_12000000.json" := by decide +kernel
    refine C32_false_damaged_copy law_good (fun _ => cpCfg_env) (cpCfg_chain 1) chain_typed hL hash_ok
      (cpCfg_typed (by decide)) (cpCfg_good (by decide)) a3 ?_ rfl ⟨p, hp, k4⟩ (raw := []) ?_ ?_ law_rev
    · rw [getStr_putStr, if_neg (by decide)]; exact hst
    · rw [hname, getStr_putStr, if_pos rfl]
    · decide +kernel

end Verif
