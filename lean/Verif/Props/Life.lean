import Verif.Lemmas.Life
import Verif.Props.Live
/-
Property C83: an oracle that is killed, stopped and restarted any number of times.
-/
namespace Verif

theorem Uncut.work {T : Chain} {H : List Nat → List Nat} {E : Env} {cfg : Config} (h0 : 0 < cfg.depSlot)
    (h1 : cfg.depSlot < 2 ^ 64) {bs} {q : Oracle} (h : Uncut T E (newOracle cfg) bs q) : Kept H cfg q := by
  induction h with
  | start => exact .start h0 h1
  | slot _ _ hs hb ih => exact ih.slot hs (by rw [← (slot_next hs).1]; exact hb)

theorem Uncut.course {T : Chain} {V : Nat → Nat → BVal} {K : Nat → List (Nat × Nat)} {E : Env} (hE : ValidEnv E)
    (hX : ExactEnv E) (hR : ReadsChain V K E) {o q : Oracle} {bs} (h : Uncut T E o bs q) : Course T V K o q := by
  induction h with
  | start => exact .start
  | slot _ hf hs hb ih => exact .slot ih hE hX hR hf hs hb

theorem Uncut.ok {T : Chain} {E : Env} {cfg : Config} (hc : GoodCfg cfg) (hE : GoodEnv cfg E)
    (hC : GoodFetch cfg T) {bs} {q : Oracle} (h : Uncut T E (newOracle cfg) bs q) : StateOK cfg q.st := by
  induction h with
  | start => exact (live_start (H := id) hc [] 0).state
  | slot hu hf hs hb ih =>
    obtain ⟨b', o', k1, k2, _, k4, _⟩ := slot_live (H := id) hc hE hC (hu.work hc.dep.1 hc.dep.2) ih hb
    rw [hf] at k1
    cases k1
    rw [hs] at k2
    cases k2
    exact k4

theorem Uncut.safe {T : Chain} {E : Env} {cfg : Config} (hc : GoodCfg cfg) (hE : GoodEnv cfg E)
    (hC : SafeFetch cfg T) {bs} {q : Oracle} (h : Uncut T E (newOracle cfg) bs q) : StateSafe cfg q.st := by
  induction h with
  | start => exact (live_start (H := id) hc [] 0).state.toStateSafe
  | slot hu hf hs hb ih =>
    obtain ⟨b', o', k1, k2, _, k4, _⟩ := slot_safe (H := id) hc hE hC (hu.work hc.dep.1 hc.dep.2) ih hb
    rw [hf] at k1
    cases k1
    rw [hs] at k2
    cases k2
    exact k4

section
variable {P P' : Law} {T : Chain} {L L' : Lib} {H : List Nat → List Nat} {cfg : Config}

/-- **C83.** Restarts leave no trace in the books. Whatever an oracle has been through: crashes at any
moment, saves that were cut off, older files put back, starts from older checkpoint files or from the state
another oracle serves, and at every step other nodes and other iteration orders. Its books are those of an
oracle that was started once on the same chain, read it through nodes obeying the same law, and was never
interrupted. -/
theorem C83_restarts_invisible (hP : P.Good) (hT : ChainTyped T) (hL : LibOK L) (hH : HashOK H)
    (hc : CfgTyped cfg) (h0 : 0 < cfg.depSlot) {tr : List LoopEv} {l : Loop} (h : Life P T L H cfg tr (.on l)) :
    ∃ E bs q, Obeys P E ∧ Uncut T E (newOracle cfg) bs q ∧ Hist E (newOracle cfg) bs q ∧ SameBooks q l.o := by
  obtain ⟨E, bs, q, h1, h2, h3⟩ := (life_inv hP hT hL hH hc h0 h).2.2.1.whole
  exact ⟨E, bs, q, h1, h2, h2.hist, h3⟩

theorem Whole.course {V : Nat → Nat → BVal} {K : Nat → List (Nat × Nat)} (hP : P.Good) (hR : P.Reads V K)
    {o : Oracle} (h : Whole P T cfg o) : Course T V K (newOracle cfg) o := by
  obtain ⟨E, bs, q, h1, h2, h3⟩ := h
  exact .same (h2.course (hP.valid E h1) (hP.exact E h1) (hR E h1)) h3

/-- **C83** (partial). Two oracles with any two such lives, over the same chain and with the same
configuration, have the same books whenever they are at the same slot. Missing, as in C77: no error text
contains a stray "404" (in `HonestNetwork`), and validators that left are not consolidated into validators
that left; see `C77_false_lost_connection` and `C09_false_consolidation_chain`. -/
theorem C83_same_books_partial {V : Nat → Nat → BVal} {K : Nat → List (Nat × Nat)}
    (hP : P.Good) (hR : P.Reads V K) (hP' : P'.Good) (hR' : P'.Reads V K)
    (hA : ∀ n, n % 1200 = 0 → ActiveTargets V K n) (hT : ChainTyped T) (hL : LibOK L) (hL' : LibOK L')
    (hH : HashOK H) (hc : CfgTyped cfg) (h0 : 0 < cfg.depSlot) {tr tr' : List LoopEv} {l l' : Loop}
    (h : Life P T L H cfg tr (.on l)) (h' : Life P' T L' H cfg tr' (.on l'))
    (hn : l.o.st.nextSlot = l'.o.st.nextSlot) : SameBooks l.o l'.o :=
  Course.agree (by exact List.Pairwise.nil) hA ((life_inv hP hT hL hH hc h0 h).2.2.1.whole.course hP hR)
    ((life_inv hP' hT hL' hH hc h0 h').2.2.1.whole.course hP' hR') hn

theorem Whole.next {o : Oracle} (h0 : 0 < cfg.depSlot) (h1 : cfg.depSlot < 2 ^ 64) (h : Whole P T cfg o) :
    o.st.nextSlot = o.st.latestSlot + 1 := by
  obtain ⟨E, bs, q, _, h2, h3⟩ := h
  rw [← h3.next, ← h3.latest]
  exact (h2.work (H := id) h0 h1).commit.next

/-- **C83** (partial). All the roots for one slot that are frozen or submitted in any two such lives are the
same: in particular an oracle never votes for two different roots for the same slot, however often it is
restarted, rolled back or synced in between. Missing: as in `C83_same_books_partial`. -/
theorem C83_one_root_partial {V : Nat → Nat → BVal} {K : Nat → List (Nat × Nat)}
    (hP : P.Good) (hR : P.Reads V K) (hP' : P'.Good) (hR' : P'.Reads V K)
    (hA : ∀ n, n % 1200 = 0 → ActiveTargets V K n) (hT : ChainTyped T) (hL : LibOK L) (hL' : LibOK L')
    (hH : HashOK H) (hc : CfgTyped cfg) (h0 : 0 < cfg.depSlot) {tr tr' : List LoopEv} {x x' : Being}
    (h : Life P T L H cfg tr x) (h' : Life P' T L' H cfg tr' x') {s : Nat} {r r' : Str}
    (hr : .frozen s r ∈ tr ∨ .submit s r ∈ tr) (hr' : .frozen s r' ∈ tr' ∨ .submit s r' ∈ tr') : r = r' := by
  obtain ⟨f, ⟨q, w, hf, _⟩, e1, rfl⟩ := (life_inv hP hT hL hH hc h0 h).1 s r hr
  obtain ⟨f', ⟨q', w', hf', _⟩, e1', rfl⟩ := (life_inv hP' hT hL' hH hc h0 h').1 s r' hr'
  have k := w.next h0 hc.depSlot
  have k' := w'.next h0 hc.depSlot
  have hs : SameBooks q q' := Course.agree (by exact List.Pairwise.nil) hA (w.course hP hR) (w'.course hP' hR') (by
    rw [k, k', ← frozenOf_slot hf, ← frozenOf_slot hf', e1, e1'])
  have hpf : q.st.poolFees = q'.st.poolFees := by have := congrArg State.poolFees hs.2; exact this
  have hpa : q.st.poolFeesAddr = q'.st.poolFeesAddr := by have := congrArg State.poolFeesAddr hs.2; exact this
  rw [frozenOf_unique hf' (hf.congr hs.latest.symm hs.vals.symm hpf.symm hpa.symm)]

/-- when everything around it works, the state after any life is in order -/
theorem life_ok (hP : P.Good) (hG : ∀ E, Obeys P E → GoodEnv cfg E) (hC : GoodFetch cfg T) (hT : ChainTyped T)
    (hL : LibOK L) (hH : HashOK H) (hc : CfgTyped cfg) (hg : GoodCfg cfg) {tr : List LoopEv} {l : Loop}
    (h : Life P T L H cfg tr (.on l)) : Kept H cfg l.o ∧ StateOK cfg l.o.st := by
  have hl := (life_inv hP hT hL hH hc hg.dep.1 h).2.2.1
  obtain ⟨E, bs, q, h1, h2, h3⟩ := hl.whole
  refine ⟨⟨hl.commit, hl.config⟩, ?_⟩
  rw [h3.symm.re]
  exact stateOK_mono (h2.ok hg (hG E h1) hC) _ _ _

/-- **C83** (partial). After any life the books balance and no balance is negative. Missing: the chain must be
honest in the wide sense of `GoodFetch` and `GoodEnv`, as in C02 and C82. -/
theorem C83_books_balance_partial (hP : P.Good) (hG : ∀ E, Obeys P E → GoodEnv cfg E) (hC : GoodFetch cfg T)
    (hT : ChainTyped T) (hL : LibOK L) (hH : HashOK H) (hc : CfgTyped cfg) (hg : GoodCfg cfg)
    {tr : List LoopEv} {l : Loop} (h : Life P T L H cfg tr (.on l)) :
    owed l.o.st = received l.o.st ∧ NonNeg l.o.st :=
  have := (life_ok hP hG hC hT hL hH hc hg h).2
  ⟨this.books, this.nonneg⟩

/-- **C83** (partial). A restarted oracle goes on: after any life, once it has been started, it never stops as
long as the answers are reliable. -/
theorem C83_goes_on_partial (hP : P.Good) (hG : ∀ E, Obeys P E → GoodEnv cfg E) (hC : GoodFetch cfg T)
    (hT : ChainTyped T) (hL : LibOK L) (hH : HashOK H) (hc : CfgTyped cfg) (hg : GoodCfg cfg)
    {tr : List LoopEv} {l0 l : Loop} (h : Life P T L H cfg tr (.on l0)) (htop : l0.pc = .top)
    {E : Env} (hE : Obeys P E) (hr : ReliableRun L H E cfg l0 l) {A : Answers} (hA : Reliable cfg A l.o.st) :
    ∃ l' evs, stepLoop L H E A l = .ok (l', evs) := by
  obtain ⟨k1, k2⟩ := life_ok hP hG hC hT hL hH hc hg h
  obtain ⟨l', evs, h, _⟩ := step_live (L := L) hH hg (hG E hE)
    (reliableRun_inv hH hg (hG E hE) ⟨k1, k2, by rw [htop]; trivial⟩ hr) hA
  exact ⟨l', evs, h⟩

/-- **C83** (partial). And it keeps up with the chain: in an infinite execution on reliable answers after any
life, if no wait lasts for ever, every slot from the next one on that is reported as finalized is processed.
Missing: as in C82, the wait for the contract may be endless. -/
theorem C83_keeps_up_partial (hP : P.Good) (hG : ∀ E, Obeys P E → GoodEnv cfg E) (hC : GoodFetch cfg T)
    (hT : ChainTyped T) (hL : LibOK L) (hH : HashOK H) (hc : CfgTyped cfg) (hg : GoodCfg cfg)
    {tr : List LoopEv} {l : Nat → Loop} (h : Life P T L H cfg tr (.on (l 0))) (htop : (l 0).pc = .top)
    {E : Env} (hE : Obeys P E) {A : Nat → Answers} (hF : Forever L H E cfg A l) {N : Nat} (hW : WaitsEnd N A l)
    (hN : (l 0).o.st.nextSlot ≤ N) :
    ∃ k fin, stepLoop L H E (A k) (l k) = .ok (l (k + 1), [.processed N fin]) ∧
      (l (k + 1)).o.st.latestSlot = N := by
  obtain ⟨k1, k2⟩ := life_ok hP hG hC hT hL hH hc hg h
  exact keeps_up hH hg (hG E hE) hF ⟨k1, k2, by rw [htop]; trivial⟩ hW hN

/-- **C83** (partial). A stopped oracle can be started again and has the same books and checkpoints as before
(everything but the hash of the last save and the ghost counter), whatever it has been through. Missing: the contract must not be behind the oracle's checkpoints
(`C32_false_across_fee_change`, `C34_false_interrupted_submission`), and a crash in the middle of the save
makes every later start fail (`C34_false_torn_write`). -/
theorem C83_starts_again_partial (hP : P.Good) (hG : ∀ E, Obeys P E → GoodEnv cfg E) (hC : GoodFetch cfg T)
    (hT : ChainTyped T) (hL : LibOK L) (hH : HashOK H) (hc : CfgTyped cfg) (hg : GoodCfg cfg)
    {tr : List LoopEv} {l : Loop} (h : Life P T L H cfg tr (.on l)) {E : Env} (hE : Obeys P E) {c : Nat}
    (hslot : cfg.dryRun = true ∨ ∀ p ∈ l.o.st.committed, p.1 ≤ c) (t : Int) :
    startup L H E (shutdown L l) cfg none (some c) = .ok ⟨l.o.cfg, { l.o.st with stateHash := [], tick := 3 }⟩ ∧
      Life P T L H cfg tr (.on ⟨.top, ⟨l.o.cfg, { l.o.st with stateHash := [], tick := 3 }⟩, shutdown L l, t⟩) := by
  have hl := (life_inv hP hT hL hH hc hg.dep.1 h).2.2.1
  obtain ⟨k1, k2⟩ := life_ok hP hG hC hT hL hH hc hg h
  have hpool : l.o.st.poolAddr = cfg.poolAddr := by rw [hl.config.same.poolAddr, hl.config.cfg_eq]
  have hfees : l.o.st.poolFeesAddr = cfg.poolFeesAddr := by rw [hl.config.same.poolFeesAddr, hl.config.cfg_eq]
  have ha : AddressesOK l.o.st :=
    ⟨fun p hp => wellFormed_isAddress (k2.owners p hp).1, by rw [hfees]; exact hg.feesAddr,
      fun p hp => by rw [hpool]; exact (k2.owners p hp).2.1⟩
  have hs := startup_kept hL (hP.valid E hE) hl.config hl.typed ha (save_state L false l.o l.disk) c (H := H)
  rw [if_neg] at hs
  · exact ⟨hs, .start t (.signal h) hE hs⟩
  · rintro ⟨h1, h2⟩
    rcases hslot with e | e
    · rw [e] at h1; cases h1
    · have := latest_le (hP.valid E hE) 2 e
      omega

end

/-! ### A life -/

namespace Sample

/-- the nodes answer as those of `env`; maps are iterated in any order -/
def law : Law := fun perm node consol =>
  (∀ n, (perm n).Perm (List.range n)) ∧ node = env.node 0 ∧ consol = env.consol 0

theorem law_env : Obeys law env := fun _ => ⟨fun _ => List.Perm.refl _, rfl, rfl⟩

theorem law_rev : Obeys law envRev := fun _ => ⟨fun _ => List.reverse_perm _, rfl, rfl⟩

theorem law_node {F : Env} (h : Obeys law F) : F.node = env.node := by
  funext t
  rw [(h t).2.1]
  rfl

theorem law_consol {F : Env} (h : Obeys law F) : F.consol = env.consol := by
  funext t
  rw [(h t).2.2]
  rfl

theorem bval_typed {v : BVal} {i j : Nat} (h : v.creds = creds i) (h' : v.pubkey = [j % 256]) : BValTyped v := by
  refine ⟨by rw [h]; exact creds_lt i, ?_⟩
  rw [h']
  intro x hx
  rw [List.mem_singleton] at hx
  omega

theorem law_good : law.Good := by
  refine ⟨fun F h => ⟨fun t => (h t).1, ?_⟩, fun F h => ?_, fun F h => ?_, fun F h => ⟨?_, ?_⟩⟩
  · rw [law_node h]; exact env_valid.nodup
  · unfold ExactEnv; rw [law_node h]; exact env_exact
  · unfold NoSelfConsol; rw [law_consol h]; exact env_noSelf
  · rw [law_node h]
    intro t slot req r hr v hv
    rw [env_node hr] at hv
    obtain ⟨i, _, rfl⟩ := List.mem_map.mp hv
    split
    · exact bval_typed (i := 9) (j := 9) rfl rfl
    · exact bval_typed (i := i) (j := i) rfl rfl
  · rw [law_consol h]
    intro t slot cs hcs q hq
    simp only [env, Option.some.injEq] at hcs
    subst hcs
    rw [List.mem_singleton] at hq
    subst hq
    unfold U64
    decide

theorem law_reads : law.Reads sampleV (fun _ => [(9, 1)]) := fun _ h => reads_of (law_node h) (law_consol h)

theorem law_goodEnv {F : Env} (h : Obeys law F) : GoodEnv liveCfg F := by
  have g := env_goodEnv
  refine ⟨law_good.valid F h, law_good.exact F h, law_good.noSelf F h, ?_, ?_, ?_, ?_⟩
  · unfold GoodNode; rw [law_node h]; exact g.node
  · unfold SaneBalances; rw [law_node h]; exact g.sane
  · unfold GoodConsol; rw [law_node h, law_consol h]; exact g.consol
  · rw [law_node h]; exact g.owners

theorem addr_ascii (i : Nat) : Ascii (addr i) := by
  have key : ∀ n, n < 256 → asciiB (b!"0x" ++ hexEncode (List.replicate 20 n)) = true := by decide +kernel
  exact asciiB_iff.mp (key _ (Nat.mod_lt _ (by decide)))

theorem chain_typed : ChainTyped chain := by
  refine ⟨?_, ?_, ?_, ?_⟩
  · intro slot d i key h
    simp only [chain, Option.some.injEq, Prod.mk.injEq] at h
    obtain ⟨_, rfl, rfl⟩ := h
    exact ⟨by unfold U64; decide, asciiB_iff.mp (by decide +kernel)⟩
  · intro i slot l h p hp
    simp only [chain, Option.some.injEq] at h
    subst h
    rw [List.mem_singleton] at hp
    subst hp
    exact bval_typed (i := i) (j := i) rfl rfl
  · intro slot c h
    simp only [chain, Option.some.injEq] at h
    split at h
    · simp only [prop, Option.some.injEq] at h
      subst h
      show (100 : Nat) < 2 ^ 64
      decide
    · cases h
  · intro n e hn h
    simp only [chain, Option.some.injEq] at h
    subst h
    refine ⟨?_, by simp, ?_⟩
    · intro x hx
      rw [List.mem_singleton] at hx
      subst hx
      exact ⟨by show (2 : Nat) < 2 ^ 64; decide, hn, addr_ascii 2⟩
    · intro x hx
      rw [List.mem_singleton] at hx
      subst hx
      exact ⟨hn, asciiB_iff.mp (by show asciiB pool = true; decide +kernel)⟩

theorem liveCfg_typed : CfgTyped liveCfg :=
  ⟨by decide, asciiB_iff.mp (by decide +kernel), asciiB_iff.mp (by decide +kernel), asciiB_iff.mp (by decide +kernel),
    by unfold U64; decide, by unfold U64; decide, by unfold U64; decide⟩

theorem life_of {T : Chain} {L H P cfg} {E : Env} (hE : Obeys P E) : ∀ {as l l' tr0 tr},
    (∀ A ∈ as, (∀ fin, A.finalized = some fin → fin + 1 < 2 ^ 64) ∧ (∀ slot, HonestNetwork T A.fetch slot) ∧
      A.torn = none) →
    Life P T L H cfg tr0 (.on l) → runLoop L H E as l = .ok (l', tr) → Life P T L H cfg (tr0 ++ tr) (.on l') := by
  intro as
  induction as with
  | nil =>
    intro l l' tr0 tr _ hl h
    have h := Except.ok.inj h
    cases h
    rw [List.append_nil]; exact hl
  | cons A as ih =>
    intro l l' tr0 tr hA hl h
    unfold runLoop at h
    simp only [bind_ok] at h
    obtain ⟨⟨l1, evs⟩, h1, ⟨l2, tr'⟩, h2, h⟩ := h
    have h := Except.ok.inj h
    cases h
    obtain ⟨a1, a2, a3⟩ := hA A (by simp)
    rw [← List.append_assoc]
    exact ih (fun A hm => hA A (by simp [hm]))
      (.step hl hE a1 (a2 _) (fun d hd => by rw [a3] at hd; cases hd) h1) h2

theorem answers_ok {r : Str} {c : Nat} {n : Nat} : ∀ A ∈ List.replicate n (answers r c),
    (∀ fin, A.finalized = some fin → fin + 1 < 2 ^ 64) ∧ (∀ slot, HonestNetwork chain A.fetch slot) ∧
      A.torn = none := by
  intro A hA
  obtain ⟨h1, h2⟩ := answers_network A hA
  refine ⟨h1, h2, ?_⟩
  rw [(List.mem_replicate.mp hA).2]; rfl

abbrev lifeOf := Life law chain (Toy.lib hash) hash liveCfg

/-- the first start -/
theorem first_start {F : Env} (hF : Obeys law F) {tr d} (h : lifeOf tr (.off d)) (hd : d = []) :
    lifeOf tr (.on ⟨.top, ⟨liveCfg, { (newOracle liveCfg).st with tick := 1 }⟩, [], 0⟩) := by
  subst hd
  exact .start (c := 11999900) 0 h hF rfl

end Sample

/-- Two oracles. The first is started, freezes a checkpoint at slot 12000000, sees a later slot on the
contract, saves, processes slot 12000001, is stopped by a signal, started again with other iteration orders
and processes slot 12000002. The second processes one slot, is killed and loses all its files, starts from
nothing and processes all three slots. Both are at the same slot, froze the same root and have the same
books, in which nothing is lost. -/
example : ∃ l l' tr tr' r r', Sample.lifeOf tr (.on l) ∧ Sample.lifeOf tr' (.on l') ∧
    l.o.st.nextSlot = 12000003 ∧ slotsOf tr = [12000000, 12000001, 12000002] ∧
    slotsOf tr' = [12000000, 12000000, 12000001, 12000002] ∧
    .frozen 12000000 r ∈ tr ∧ .frozen 12000000 r' ∈ tr' ∧ r = r' ∧ SameBooks l.o l'.o ∧ l.o.st.vals ≠ [] ∧
    owed l.o.st = received l.o.st := by
  obtain ⟨⟨l1, tr1⟩, h1, k1⟩ := Sample.ex_ok
    (x := Sample.runLoop (Toy.lib Sample.hash) Sample.hash Sample.env (List.replicate 7 (Sample.answers [] 11999950))
      ⟨.top, ⟨Sample.liveCfg, { (newOracle Sample.liveCfg).st with tick := 1 }⟩, [], 0⟩)
    (P := fun p => p.2.any (Sample.frozenAt 12000000) && (p.1.o.st.committed.all fun p => decide (p.1 ≤ 12000000)) &&
      decide (slotsOf p.2 = [12000000, 12000001]) &&
      (Sample.runLoop (Toy.lib Sample.hash) Sample.hash Sample.envRev
          (List.replicate 1 (Sample.answers [] 11999950))
          ⟨.top, ⟨p.1.o.cfg, { p.1.o.st with stateHash := [], tick := 3 }⟩, shutdown (Toy.lib Sample.hash) p.1, 0⟩).toOption.any
        fun (q : Loop × List LoopEv) => decide (q.1.o.st.nextSlot = 12000003 ∧ slotsOf q.2 = [12000002] ∧ q.1.o.st.vals ≠ []))
    (by decide +kernel)
  simp only [Bool.and_eq_true, decide_eq_true_eq, List.any_eq_true, List.all_eq_true] at k1
  obtain ⟨⟨⟨⟨e, he, he'⟩, hcm⟩, hsl⟩, k1⟩ := k1
  obtain ⟨⟨l, tr2⟩, h2, k2⟩ := Sample.ex_ok k1
  simp only [decide_eq_true_eq] at k2
  obtain ⟨⟨m1, tm1⟩, g1, q1⟩ := Sample.ex_ok
    (x := Sample.runLoop (Toy.lib Sample.hash) Sample.hash Sample.env (List.replicate 1 (Sample.answers [] 11999950))
      ⟨.top, ⟨Sample.liveCfg, { (newOracle Sample.liveCfg).st with tick := 1 }⟩, [], 0⟩)
    (P := fun p => decide (slotsOf p.2 = [12000000])) (by decide +kernel)
  obtain ⟨⟨l', tm2⟩, g2, q2⟩ := Sample.ex_ok
    (x := Sample.runLoop (Toy.lib Sample.hash) Sample.hash Sample.env (List.replicate 9 (Sample.answers [] 11999940))
      ⟨.top, ⟨Sample.liveCfg, { (newOracle Sample.liveCfg).st with tick := 1 }⟩, [], 0⟩)
    (P := fun p => p.2.any (Sample.frozenAt 12000000) && decide (p.1.o.st.nextSlot = 12000003 ∧
      slotsOf p.2 = [12000000, 12000001, 12000002])) (by decide +kernel)
  simp only [Bool.and_eq_true, decide_eq_true_eq, List.any_eq_true] at q1 q2
  obtain ⟨⟨q, hq, hq'⟩, q2⟩ := q2
  have hL := Toy.lib_ok Sample.hash_ok
  have a1 := Sample.life_of Sample.law_env Sample.answers_ok (Sample.first_start Sample.law_env .born rfl) h1
  have a2 := (C83_starts_again_partial Sample.law_good (fun _ => Sample.law_goodEnv) Sample.chain_good
    Sample.chain_typed hL Sample.hash_ok Sample.liveCfg_typed Sample.cfg_good a1 Sample.law_rev
    (c := 12000000) (Or.inr hcm) 0).2
  have a3 := Sample.life_of Sample.law_rev Sample.answers_ok a2 h2
  have b1 := Sample.life_of Sample.law_env Sample.answers_ok (Sample.first_start Sample.law_env .born rfl) g1
  have b2 : Sample.lifeOf _ (.off []) := .kill b1 (fun path raw h => by simp [getStr] at h)
  have b3 := Sample.life_of Sample.law_env Sample.answers_ok (Sample.first_start Sample.law_env b2 rfl) g2
  have hA : ∀ n, n % 1200 = 0 → ActiveTargets Sample.sampleV (fun _ => [(9, 1)]) n := by
    intro n _ p hp _
    simp only [List.mem_singleton] at hp
    subst hp; rfl
  cases e with
  | frozen k r =>
    simp only [Sample.frozenAt, beq_iff_eq] at he'
    subst he'
    cases q with
    | frozen k r' =>
      simp only [Sample.frozenAt, beq_iff_eq] at hq'
      subst hq'
      have m : .frozen 12000000 r ∈ [] ++ tr1 ++ tr2 := by simp [he]
      have m' : .frozen 12000000 r' ∈ [] ++ tm1 ++ tm2 := by simp [hq]
      refine ⟨l, l', _, _, r, r', a3, b3, k2.1, ?_, ?_, m, m', ?_, ?_, k2.2.2, ?_⟩
      · rw [slotsOf_append, slotsOf_append, hsl, k2.2.1]; rfl
      · rw [slotsOf_append, slotsOf_append, q1, q2.2]; rfl
      · exact C83_one_root_partial Sample.law_good Sample.law_reads Sample.law_good Sample.law_reads hA
          Sample.chain_typed hL hL Sample.hash_ok Sample.liveCfg_typed (by decide) a3 b3 (Or.inl m) (Or.inl m')
      · exact C83_same_books_partial Sample.law_good Sample.law_reads Sample.law_good Sample.law_reads hA
          Sample.chain_typed hL hL Sample.hash_ok Sample.liveCfg_typed (by decide) a3 b3 (k2.1.trans q2.1.symm)
      · exact (C83_books_balance_partial Sample.law_good (fun _ => Sample.law_goodEnv) Sample.chain_good
          Sample.chain_typed hL Sample.hash_ok Sample.liveCfg_typed Sample.cfg_good a3).1
    | _ => cases hq'
  | _ => cases he'

end Verif
