import Verif.Lemmas.Nodes
import Verif.Spec.Live
import Verif.Props.Idle
import Verif.Props.Onchain
import Verif.Props.Merkle
/-
What stays true while the main loop runs on reliable answers.
-/
namespace Verif
open VMap

/-- what is true of the oracle's state, whatever is paid to the pool -/
structure StateSafe (cfg : Config) (s : State) : Prop where
  map : MapOK s
  nonneg : NonNeg s
  fee : 0 ≤ s.fee ∧ s.fee ≤ 10000
  covered : owed s ≤ received s
  rewards : ∀ b ∈ s.proposed, b.reward ≠ none
  owners : ∀ p ∈ s.vals, WellFormed p.2.waddr ∧ lower p.2.waddr ≠ lower cfg.poolAddr ∧
    lower p.2.waddr ≠ lower cfg.poolFeesAddr
  dep : cfg.depSlot ≤ s.nextSlot

/-- what is true of it when the payments of a block differ -/
structure StateOK (cfg : Config) (s : State) : Prop extends StateSafe cfg s where
  books : owed s = received s

theorem singleValidator_mem {C : Chain} {i slot v} (h : singleValidator C i slot = some (some v)) :
    ∃ l, C.validators i slot = some l ∧ (i, v) ∈ l := by
  unfold singleValidator at h
  split at h
  · simp at h
  · rename_i l hl
    split at h
    · simp at h
    · split at h
      · simp at h
      · split at h
        · simp at h
        · rename_i j u hu
          split at h
          · simp at h
          · simp only [Option.some.injEq] at h
            subst h
            have h1 := List.find?_some hu
            have h2 := List.mem_of_find?_eq_some hu
            simp only [beq_iff_eq] at h1
            subst h1
            exact ⟨l, hl, h2⟩

theorem fetched_owner {C : Chain} {s slot all b} {P : BVal → Prop}
    (hP : ∀ i slot l, C.validators i slot = some l → ∀ p ∈ l, P p.2)
    (h : fetchFullBlock C s slot all = .ok b) :
    P b.validator ∧ ∀ v, some v ∈ b.valsSubs → P v := by
  obtain ⟨i, key, f⟩ := fetch_ok h
  have one : ∀ {i v}, singleValidator C i slot = some (some v) → P v := by
    intro i v hv
    obtain ⟨l, h1, h2⟩ := singleValidator_mem hv
    exact hP _ _ _ h1 _ h2
  refine ⟨one f.validator, ?_⟩
  intro v hv
  rcases f.rest with ⟨_, _, _, h4, _⟩ | ⟨c, evs, _, _, _, _, _, _, _, _, _, h10, _⟩
  · rw [h4] at hv; cases hv
  · have key : ∀ {es : List SubEvent} {vs}, List.Forall₂ (fun (e : SubEvent) v =>
        singleValidator C e.validatorId slot = some v) es vs → some v ∈ vs → P v := by
      intro es vs h
      induction h with
      | nil => intro hv; cases hv
      | cons hab _ ih =>
        intro hv
        rcases List.mem_cons.mp hv with rfl | hv
        · exact one hab
        · exact ih hv
    exact key h10 hv

theorem fetched_payments {cfg : Config} {C : Chain} {s slot all b} (hC : GoodFetch cfg C)
    (h : fetchFullBlock C s slot all = .ok b) : NoPaymentsIfMissed b ∧ DistinctPayments b := by
  obtain ⟨i, key, f⟩ := fetch_ok h
  rcases f.rest with ⟨_, h2, h3, _⟩ | ⟨c, evs, h1, h2, h3, _, h5, h6, _⟩
  · refine ⟨fun _ => by rw [h3], fun a _ => by rw [h3]; simp⟩
  · refine ⟨fun hn => (by rw [h2] at hn; cases hn), ?_⟩
    intro a ha
    have ha' : a = 177043568463114308 ∨ ∃ tx, c.txs.getLast? = some (some tx) ∧ tx.value = a := by
      rcases ha with ⟨c', tx, hc', hl, hv⟩ | ha
      · rw [h2, Option.some.injEq] at hc'
        subst hc'
        exact Or.inr ⟨tx, hl, hv⟩
      · exact Or.inl ha
    have hd := hC.distinct slot c evs a h1 h5 ha'
    rw [h6]
    split
    · rename_i hx
      dsimp only
      rw [List.filter_append, List.length_append]
      by_cases e : a = 177043568463114308
      · have : (evs.ether.filter fun x => x.amount = a) = [] := by
          rw [List.filter_eq_nil_iff]
          intro x hxm
          rw [hx.2] at h1
          simpa [e] using hC.exception c evs h1 h5 x hxm
        rw [this]
        have := List.length_filter_le (fun e : EtherEvent => decide (e.amount = a)) [exceptionEvent]
        simpa using this
      · have : ([exceptionEvent].filter fun x => x.amount = a) = [] := by
          rw [List.filter_eq_nil_iff]
          intro x hxm
          rw [List.mem_singleton] at hxm
          subst hxm
          simp only [decide_eq_true_eq]
          exact fun h => e h.symm
        rw [this]
        simpa using hd
    · exact hd

/-- what is true of the checkpoints and of the configuration -/
structure Kept (H : List Nat → List Nat) (cfg : Config) (o : Oracle) : Prop where
  commit : CommitInv H o.st
  config : CfgInv cfg o

theorem Kept.start {H : List Nat → List Nat} {cfg : Config} (h0 : 0 < cfg.depSlot) (h1 : cfg.depSlot < 2 ^ 64) :
    Kept H cfg (newOracle cfg) := ⟨work_start h0 h1, cfgInv_new _⟩

theorem Kept.slot {H : List Nat → List Nat} {cfg : Config} {E : Env} {o o' : Oracle} {b : FullBlock} {n : Nat}
    (h : Kept H cfg o) (hs : advanceState E o b = .ok (o', some n)) (hb : b.dutySlot + 1 < 2 ^ 64) :
    Kept H cfg o' := ⟨(h.commit.slot hs hb).1, h.config.slot hs hb⟩

theorem Kept.content {H : List Nat → List Nat} {cfg : Config} {o : Oracle} (h : Kept H cfg o) (x : Str) (t : Nat) :
    Kept H cfg ⟨o.cfg, { o.st with stateHash := x, tick := t }⟩ := by
  refine ⟨⟨h.commit.next, h.commit.keys, ?_⟩, ⟨h.config.cfg_eq, ?_, h.config.fee⟩⟩
  · intro p hp
    obtain ⟨e1, e2, e3⟩ := h.commit.entry p hp
    exact ⟨e1, e2, fun e => (e3 e).congr rfl rfl rfl rfl⟩
  · exact ⟨h.config.same.network, h.config.same.poolAddr, h.config.same.poolFeesAddr, h.config.same.fee,
      h.config.same.collateral, h.config.same.cpSize, h.config.same.depBlock, h.config.same.depSlot⟩

theorem Kept.tick {H : List Nat → List Nat} {cfg : Config} {o : Oracle} (h : Kept H cfg o) (t : Nat) :
    Kept H cfg ⟨o.cfg, { o.st with tick := t }⟩ := h.content o.st.stateHash t

theorem Kept.freeze {H : List Nat → List Nat} {cfg : Config} {E : Env} (hE : ValidEnv E) {o : Oracle} {s : State}
    {r : Bool} (h : Kept H cfg o) (hf : freeze H E o.st = .ok (s, r)) : Kept H cfg ⟨o.cfg, s⟩ := by
  refine ⟨(h.commit.freeze hE hf).1, ?_⟩
  have hsame : CfgMatches o.cfg s := by
    rcases freeze_cases hE hf with ⟨_, rfl⟩ | ⟨f, _, _, rfl⟩ <;>
    exact ⟨h.config.same.network, h.config.same.poolAddr, h.config.same.poolFeesAddr, h.config.same.fee,
      h.config.same.collateral, h.config.same.cpSize, h.config.same.depBlock, h.config.same.depSlot⟩
  refine ⟨h.config.cfg_eq, hsame, ?_⟩
  rcases freeze_cases hE hf with ⟨_, rfl⟩ | ⟨f, _, _, rfl⟩ <;> exact h.config.fee

theorem slot_safe {cfg : Config} {H : List Nat → List Nat} {E : Env} (hc : GoodCfg cfg) (hE : GoodEnv cfg E)
    {C : Chain} (hC : SafeFetch cfg C) {o : Oracle} (hw : Kept H cfg o)
    (hs : StateSafe cfg o.st) (hb : o.st.nextSlot + 1 < 2 ^ 64) :
    ∃ b o', fetchFullBlock C o.st o.st.nextSlot false = .ok b ∧
      advanceState E o b = .ok (o', some o.st.nextSlot) ∧ b.dutySlot = o.st.nextSlot ∧
      StateSafe cfg o'.st ∧ o'.st.latestSlot = o.st.nextSlot ∧ o'.st.nextSlot = o.st.nextSlot + 1 := by
  have hci := hw.config
  have hcm := hw.commit
  obtain ⟨b, hbf⟩ := fetch_total hC.honest o.st o.st.nextSlot false
  obtain ⟨k1, k2, k3, k4, k5, k6, k7, k8, k9⟩ := fetched_honest hC.honest hbf
  have h8 := hci.cfg_eq
  have hpool : o.cfg.poolAddr = cfg.poolAddr := by rw [h8]
  have hnet : o.cfg.network = cfg.network := by rw [h8]
  have hpf : PostFork1 o.cfg.network o.st.nextSlot := by
    rw [hnet]; exact postFork1_mono hc.fork hs.dep
  have hnx : o.st.nextSlot = u64 (o.st.latestSlot + 1) := by
    rw [← hcm.next]; unfold u64; omega
  obtain ⟨o2, m, hadv⟩ := advanceState_total hE.valid hE.exact hE.node hE.consol hs.map hs.nonneg hs.fee.1
    hs.fee.2 hpf hE.sane hnx k1 (by rw [hpool]; exact k2) (by rw [hpool]; exact k3) k4
    (by
      obtain ⟨c1, c2, c3, c4⟩ := k5
      rw [h8, k1]
      exact ⟨c1, c2, c3, c4⟩)
    (by rw [hpool]; exact k6) (by rw [hpool]; exact k7) k8 k9
  obtain ⟨m1, m2, m3⟩ := slot_nonneg hE.valid hE.exact hE.noSelf hE.sane hs.map hs.nonneg hs.fee.1 hpf k8 k9 hadv
  obtain ⟨e1, e2, e3, e4⟩ := C20_exactly_next hadv
  have en : o2.st.nextSlot = o.st.nextSlot + 1 := by
    rw [e4, e1]; unfold u64; omega
  obtain ⟨q1, q2⟩ := fetched_owner (P := GoodOwner cfg) hC.owners hbf
  have hmon := (slot_received_le hE.valid hE.exact hE.noSelf hs.map k8.1 hadv).2
  rw [e2, e1] at hadv
  refine ⟨b, o2, hbf, hadv, e1, ⟨m1, m2, ⟨m3, ?_⟩, ?_, slot_rewards hadv hs.rewards, ?_, ?_⟩, e3.trans e1, en⟩
  · rcases slot_fee hadv with e | e
    · rw [e]; exact hs.fee.2
    · rw [e]; decide
  · have := hs.covered
    omega
  · obtain ⟨sb, dons, r, ops, z1, _, _, _, hp, _, hcause, _⟩ := slot_runs (x := False) hE.valid hE.exact
      hE.noSelf hs.map (fun hf => hf.elim) hadv
    have good : ∀ {v : BVal} {w}, GoodOwner cfg v → HasAddress v.creds w → WellFormed w ∧
        lower w ≠ lower cfg.poolAddr ∧ lower w ≠ lower cfg.poolFeesAddr :=
      fun hg ha => ⟨wellFormed_hasAddress ha hg.1, hg.2 _ ha⟩
    have := hp.inv (fun _ v => WellFormed v.waddr ∧ lower v.waddr ≠ lower cfg.poolAddr ∧
        lower v.waddr ≠ lower cfg.poolFeesAddr) _ hcause
      (by
        intro i op f v v' _ hv hw
        cases hv <;> exact hw)
      (by
        intro i u hcr _ _ _ hidx
        rcases hcr with ⟨ev, w, v, ⟨hmem, _, _, _, hadr, _⟩, _, hw, _⟩ | ⟨ht, _, hw, _⟩ |
          ⟨_, t, req, r, v, w, hn, hv, _, hadr, hw, _⟩
        · rw [hw]; exact good (q2 v (List.of_mem_zip hmem).2) hadr
        · rw [hw]; exact good q1 (summarize_waddr z1 ht)
        · rw [hw]; exact good (hE.owners _ _ _ _ hn v hv) hadr)
      (fun i v hv => hs.owners (i, v) (VMap.mem_of_get hv))
    exact fun p hp => this p.1 p.2 (Sorted.get_of_mem m1 (k := p.1) (v := p.2) hp)
  · have := hs.dep
    omega

theorem slot_live {cfg : Config} {H : List Nat → List Nat} {E : Env} (hc : GoodCfg cfg) (hE : GoodEnv cfg E)
    {C : Chain} (hC : GoodFetch cfg C) {o : Oracle} (hw : Kept H cfg o)
    (hs : StateOK cfg o.st) (hb : o.st.nextSlot + 1 < 2 ^ 64) :
    ∃ b o', fetchFullBlock C o.st o.st.nextSlot false = .ok b ∧
      advanceState E o b = .ok (o', some o.st.nextSlot) ∧ b.dutySlot = o.st.nextSlot ∧
      StateOK cfg o'.st ∧ o'.st.latestSlot = o.st.nextSlot ∧ o'.st.nextSlot = o.st.nextSlot + 1 := by
  obtain ⟨b, o', k1, k2, k3, k4, k5, k6⟩ := slot_safe hc hE hC.toSafeFetch hw hs.toStateSafe hb
  obtain ⟨p1, p2⟩ := fetched_payments hC k1
  have hmon := (slot_received hE.valid hE.exact hE.noSelf hs.map p1 p2 k2).2
  have := hs.books
  exact ⟨b, o', k1, k2, k3, ⟨k4, by omega⟩, k5, k6⟩

theorem isAddress_hex {a} (h : IsAddress a) : isHexAddress a = true := by
  obtain ⟨d, rfl, hd, hc⟩ := h
  unfold isHexAddress
  have e : b!"0x" ++ d = 48 :: 120 :: d := rfl
  rw [e]
  have : has0xPrefix (48 :: 120 :: d) = true := by simp [has0xPrefix]
  simp only [this, if_true, List.drop_succ_cons, List.drop_zero, hd, beq_self_eq_true, Bool.true_and,
    List.all_eq_true]
  intro c hm
  have := hc c hm
  simp only [isHexChar, Bool.or_eq_true, Bool.and_eq_true, decide_eq_true_eq]
  omega

theorem frozenOf_root {H s f} (hH : HashOK H) (h : FrozenOf H s f) : ∃ bytes, RootText f.root bytes := by
  obtain ⟨ls, _, h⟩ := h
  unfold frz at h
  split at h
  · simp at h
  · simp only [bind_ok] at h
    obtain ⟨root, hr, pl, _, h⟩ := h
    simp only [Except.ok.injEq, Option.some.injEq] at h
    rw [← h]
    unfold treeRoot at hr
    split at hr
    · have hr := Except.ok.inj hr
      subst hr
      exact ⟨_, (hH _).1, _, Or.inl rfl, hexText_encode (hH _).2⟩
    · cases hr

/-- what is known at each place of the loop -/
def Place (cfg : Config) (s : State) : Pc → Prop
  | .top => True
  | .save _ => True
  | .processed => cfg.depSlot ≤ s.latestSlot
  | .vote f => (s.latestSlot, f) ∈ s.committed
  | .pause f => (s.latestSlot, f) ∈ s.committed
  | .decide f => (s.latestSlot, f) ∈ s.committed
  | .submit f => (s.latestSlot, f) ∈ s.committed
  | .confirm f => (s.latestSlot, f) ∈ s.committed

structure LiveInv (H : List Nat → List Nat) (cfg : Config) (l : Loop) : Prop where
  kept : Kept H cfg l.o
  state : StateOK cfg l.o.st
  place : Place cfg l.o.st l.pc

/-- what a step does to the place where the loop is -/
def Moves (A : Answers) (l l' : Loop) (evs : List LoopEv) : Prop :=
  match l.pc with
  | .top =>
    (l'.pc = .processed ∧ l'.o.st.nextSlot = l.o.st.nextSlot + 1 ∧
      ∃ fin, A.sync = some true ∧ A.finalized = some fin ∧ l.o.st.nextSlot ≤ fin ∧
        evs = [.processed l.o.st.nextSlot fin]) ∨
    (l'.pc = .top ∧ l'.o.st.nextSlot = l.o.st.nextSlot ∧
      ∀ fin, A.sync = some true → A.finalized = some fin → fin < l.o.st.nextSlot)
  | .processed => l'.o.st.nextSlot = l.o.st.nextSlot ∧ (l'.pc = .top ∨ ∃ f, l'.pc = .vote f)
  | .vote f => l'.o.st.nextSlot = l.o.st.nextSlot ∧
      ((A.report = some f.slot ∧ l'.pc = .vote f) ∨
       (A.report ≠ some f.slot ∧ (l'.pc = .pause f ∨ l'.pc = .decide f)))
  | .pause f => l'.o.st.nextSlot = l.o.st.nextSlot ∧ l'.pc = .decide f
  | .decide f => l'.o.st.nextSlot = l.o.st.nextSlot ∧ (l'.pc = .submit f ∨ l'.pc = .save f)
  | .submit f => l'.o.st.nextSlot = l.o.st.nextSlot ∧ l'.pc = .confirm f
  | .confirm f => l'.o.st.nextSlot = l.o.st.nextSlot ∧
      ((A.chain = some (f.root, f.slot) ∧ l'.pc = .save f) ∨
       (A.chain ≠ some (f.root, f.slot) ∧ l'.pc = .confirm f))
  | .save _ => l'.o.st.nextSlot = l.o.st.nextSlot ∧ l'.pc = .top

theorem stateOK_mono {cfg : Config} {s : State} (h : StateOK cfg s) (t : Nat) (x : Str) (cm : List (Nat × Frozen)) :
    StateOK cfg { s with tick := t, stateHash := x, committed := cm } :=
  ⟨⟨h.map, h.nonneg, h.fee, h.covered, h.rewards, h.owners, h.dep⟩, h.books⟩

theorem live_start {cfg : Config} {H : List Nat → List Nat} (hc : GoodCfg cfg) (disk : Disk) (lr : Int) :
    LiveInv H cfg ⟨.top, newOracle cfg, disk, lr⟩ := by
  refine ⟨.start hc.dep.1 hc.dep.2, ⟨⟨List.Pairwise.nil, ⟨le_refl _, ?_⟩, hc.fee, le_refl _, ?_, ?_, le_refl _⟩, rfl⟩, trivial⟩
  · intro p hp; cases hp
  · intro p hp; cases hp
  · intro p hp; cases hp

theorem step_live {cfg : Config} {L : Lib} {H : List Nat → List Nat} {E : Env} (hH : HashOK H)
    (hc : GoodCfg cfg) (hE : GoodEnv cfg E) {A : Answers} {l : Loop} (h : LiveInv H cfg l)
    (hA : Reliable cfg A l.o.st) :
    ∃ l' evs, stepLoop L H E A l = .ok (l', evs) ∧ LiveInv H cfg l' ∧ Moves A l l' evs := by
  have hci := h.kept.config
  have hcm := h.kept.commit
  obtain ⟨hw, hs, hp⟩ := h
  obtain ⟨pc, o, disk, lr⟩ := l
  dsimp only at *
  have hfees : o.st.poolFeesAddr = cfg.poolFeesAddr := by
    rw [hci.same.poolFeesAddr, hci.cfg_eq]
  have hpool : o.st.poolAddr = cfg.poolAddr := by
    rw [hci.same.poolAddr, hci.cfg_eq]
  have hmax : ∀ p ∈ o.st.committed, p.1 ≤ o.st.latestSlot := fun p hp => (hcm.entry p hp).2.1
  cases pc with
  | top =>
    obtain ⟨sy, hsy⟩ := Option.ne_none_iff_exists'.mp hA.sync
    have stay : ∀ l', l' = (⟨.top, o, disk, lr⟩ : Loop) → (∀ fin, A.sync = some true → A.finalized = some fin → fin < o.st.nextSlot) →
        LiveInv H cfg l' ∧ Moves A ⟨.top, o, disk, lr⟩ l' [] := by
      rintro l' rfl hno
      exact ⟨⟨hw, hs, trivial⟩, Or.inr ⟨rfl, rfl, hno⟩⟩
    cases sy with
    | false =>
      refine ⟨⟨.top, o, disk, lr⟩, [], ?_, stay _ rfl (fun fin h => ?_)⟩
      · unfold stepLoop stepTop; dsimp only; rw [hsy]
      · rw [hsy] at h; cases h
    | true =>
      cases hfin : A.finalized with
      | none =>
        refine ⟨⟨.top, o, disk, lr⟩, [], ?_, stay _ rfl (fun fin _ h => ?_)⟩
        · unfold stepLoop stepTop; dsimp only; rw [hsy, hfin]
        · rw [hfin] at h; cases h
      | some fin =>
        by_cases hge : fin ≥ o.st.nextSlot
        · have hb := hA.finalized fin hfin
          obtain ⟨b, o', k1, k2, k3, k4, k5, k6⟩ := slot_live hc hE hA.fetch hw hs (by omega)
          refine ⟨⟨.processed, o', disk, lr⟩, [.processed o.st.nextSlot fin], ?_, ⟨?_, k4, ?_⟩, ?_⟩
          · unfold stepLoop stepTop
            dsimp only
            rw [hsy, hfin]
            dsimp only
            rw [if_pos hge, k1, bind_val, k2, bind_val]
          · exact hw.slot k2 (by rw [k3]; omega)
          · show cfg.depSlot ≤ o'.st.latestSlot
            rw [k5]; exact hs.dep
          · exact Or.inl ⟨rfl, k6, fin, hsy, hfin, hge, rfl⟩
        · have hu : UpToDate A ⟨.top, o, disk, lr⟩ := ⟨rfl, hsy, fin, hfin, by dsimp only; omega⟩
          have hno : ∀ fin, A.sync = some true → A.finalized = some fin → fin < o.st.nextSlot := by
            intro fin' _ h'
            rw [hfin] at h'
            cases h'
            omega
          have hstep : ∃ l', stepLoop L H E A ⟨.top, o, disk, lr⟩ = .ok (l', []) := by
            rcases le_or_gt (A.now - lr) (3 * 3600) with ht | ht
            · exact ⟨_, C74_not_due hu ht⟩
            · obtain ⟨paid, hpaid, hbal⟩ := hA.money
              have hw' : ∀ p ∈ o.st.vals, WellFormed p.2.waddr := fun p hp => (hs.owners p hp).1
              have hf' : isHexAddress o.st.poolFeesAddr = true := by
                rw [hfees]; exact isAddress_hex hc.feesAddr
              have hd' : ∀ p ∈ o.st.vals, lower p.2.waddr ≠ lower o.st.poolFeesAddr := fun p hp => by
                rw [hfees]; exact (hs.owners p hp).2.2
              cases hb : A.balance with
              | none =>
                obtain ⟨l', h1, _⟩ := C74_false_unanswered (L := L) (H := H) hE.valid hu ht hw' hf' hd' hpaid hb
                exact ⟨l', h1⟩
              | some bal =>
                obtain ⟨l', h1, _⟩ := (C74_money_check_partial (L := L) (H := H) hE.valid hu ht hw' hf' hd'
                  hpaid hb).1 (by
                    have := hbal bal hb
                    have := hs.books
                    dsimp only
                    omega)
                exact ⟨l', h1⟩
          obtain ⟨l', hl'⟩ := hstep
          obtain ⟨_, c2, c3, _⟩ := C74_no_change hu hl'
          refine ⟨l', [], hl', ?_, Or.inr ⟨c2, ?_, hno⟩⟩
          · have e : l'.o = ⟨o.cfg, { o.st with tick := l'.o.st.tick }⟩ := by
              obtain ⟨a1, a2⟩ := c3
              obtain ⟨pc', ⟨cf', st'⟩, d', lr'⟩ := l'
              dsimp only at a1 a2 ⊢
              subst a1
              have : st' = { ({ st' with tick := 0 } : State) with tick := st'.tick } := rfl
              rw [this, a2]
            refine ⟨?_, ?_, ?_⟩
            · rw [e]; exact hw.tick _
            · rw [e]; exact stateOK_mono hs _ _ _
            · rw [c2]; trivial
          · have := congrArg State.nextSlot c3.2
            exact this
  | processed =>
    have hlat : cfg.depSlot ≤ o.st.latestSlot := hp
    have ecp : o.cfg.cpSize = cfg.cpSize := by rw [hci.cfg_eq]
    have edep : o.cfg.depSlot = cfg.depSlot := by rw [hci.cfg_eq]
    have hd0 := hc.dep.1
    have hcp : isCheckpoint o = .ok (some (decide ((o.st.latestSlot - cfg.depSlot) % cfg.cpSize = 0))) := by
      unfold isCheckpoint
      rw [if_neg (by omega), edep, if_neg (by omega), ecp, if_neg (by have := hc.cpSize; omega)]
    have hrun : stepLoop L H E A ⟨.processed, o, disk, lr⟩ = stepProcessed H E ⟨.processed, o, disk, lr⟩ := by
      unfold stepLoop
      dsimp only
      rw [refreshDue_ok hA.vals, bind_val]
    rw [hrun]
    unfold stepProcessed
    dsimp only
    rw [hcp, bind_val]
    by_cases hx : (o.st.latestSlot - cfg.depSlot) % cfg.cpSize = 0
    · rw [decide_eq_true hx]
      dsimp only
      have hbooks : offchainReconciliation E o.st.tick o.st = .ok true := by
        rw [offchain_eq hE.valid _ hs.rewards, decide_eq_true hs.books]
      rw [hbooks, bind_val]
      obtain ⟨s, r, hf, hr⟩ := C24_checkpoint_possible (H := H) hE.valid (s := { o.st with tick := o.st.tick + 1 })
        ⟨fun p hp => wellFormed_isAddress (hs.owners p hp).1, by dsimp only; rw [hfees]; exact hc.feesAddr,
          fun p hp => by dsimp only; rw [hpool]; exact (hs.owners p hp).2.1⟩
      rw [if_neg (by decide), hf, bind_val]
      have w1 : Kept H cfg ⟨o.cfg, s⟩ :=
        (hw.tick (o.st.tick + 1)).freeze hE.valid hf
      have hcm' := w1.commit
      dsimp only at hcm'
      rcases freeze_cases hE.valid hf with ⟨rfl, hs'⟩ | ⟨f, hF, rfl, hs'⟩
      · refine ⟨_, _, if_pos rfl, ⟨w1, ?_, trivial⟩, ?_, Or.inl rfl⟩
        · rw [hs']; exact stateOK_mono hs _ _ _
        · rw [hs']
      · have hmem : (s.latestSlot, f) ∈ s.committed := by
          rw [hs']; dsimp only; rw [putFrozen_mem hcm.keys]; exact Or.inl rfl
        have hl := (latestCommitted_spec hE.valid s.tick hcm'.keys hmem (fun p hp => (hcm'.entry p hp).2.1)).2
        rw [if_neg (by simp), hl]
        refine ⟨_, _, rfl, ⟨w1.tick _, ?_, hmem⟩, ?_, Or.inr ⟨f, rfl⟩⟩
        · rw [hs']; exact stateOK_mono hs _ _ _
        · dsimp only; rw [hs']
    · rw [decide_eq_false hx]
      exact ⟨_, _, rfl, ⟨hw, hs, trivial⟩, rfl, Or.inl rfl⟩
  | vote f =>
    have hmem : (o.st.latestSlot, f) ∈ o.st.committed := hp
    have hfs : f.slot = o.st.latestSlot := (hcm.entry _ hmem).1
    obtain ⟨slot, hrep⟩ := Option.ne_none_iff_exists'.mp hA.vote.1
    have hl := (latestCommitted_spec hE.valid o.st.tick hcm.keys hmem hmax).1
    have hrun : stepLoop L H E A ⟨.vote f, o, disk, lr⟩ =
        if slot ≠ f.slot then
          .ok (⟨if o.cfg.dryRun then .decide f else .pause f, ⟨o.cfg, { o.st with tick := o.st.tick + 1 }⟩, disk, lr⟩,
            [.voted slot])
        else .ok (⟨.vote f, ⟨o.cfg, { o.st with tick := o.st.tick + 1 }⟩, disk, lr⟩, [.voted slot]) := by
      unfold stepLoop
      dsimp only
      rw [hrep, hl]
      dsimp only
      rw [hA.vote.2, if_neg (by decide), hfs]
      simp
    rw [hrun]
    by_cases hne : slot = f.slot
    · rw [if_neg (by simpa using hne)]
      exact ⟨_, _, rfl, ⟨hw.tick _, stateOK_mono hs _ _ _, hmem⟩, rfl, Or.inl ⟨by rw [hrep, hne], rfl⟩⟩
    · rw [if_pos hne]
      refine ⟨_, _, rfl, ⟨hw.tick _, stateOK_mono hs _ _ _, ?_⟩, rfl, Or.inr ⟨?_, ?_⟩⟩
      · dsimp only
        split
        · exact hmem
        · exact hmem
      · rw [hrep]; simpa using hne
      · dsimp only
        split
        · exact Or.inr rfl
        · exact Or.inl rfl
  | pause f =>
    obtain ⟨⟨r, c⟩, hch⟩ := Option.ne_none_iff_exists'.mp hA.chain
    refine ⟨⟨.decide f, o, disk, lr⟩, [.chain r c], ?_, ⟨hw, hs, hp⟩, rfl, rfl⟩
    unfold stepLoop; dsimp only; rw [hch]
  | decide f =>
    obtain ⟨⟨r, c⟩, hch⟩ := Option.ne_none_iff_exists'.mp hA.chain
    by_cases hx : !o.cfg.dryRun ∧ f.slot = u64 (c + o.cfg.cpSize)
    · refine ⟨⟨.submit f, o, disk, lr⟩, [.chain r c, .submit f.slot f.root], ?_, ⟨hw, hs, hp⟩, rfl, Or.inl rfl⟩
      unfold stepLoop; dsimp only; rw [hch]; dsimp only; rw [if_pos hx]
    · refine ⟨⟨.save f, o, disk, lr⟩, [.chain r c], ?_, ⟨hw, hs, trivial⟩, rfl, Or.inr rfl⟩
      unfold stepLoop; dsimp only; rw [hch]; dsimp only; rw [if_neg hx]
  | submit f =>
    have hmem : (o.st.latestSlot, f) ∈ o.st.committed := hp
    have hroot := frozenOf_root hH ((hcm.entry _ hmem).2.2 rfl)
    have hout := C56_outcome A.tx f.slot f.root
    refine ⟨⟨.confirm f, o, disk, lr⟩, [], ?_, ⟨hw, hs, hp⟩, rfl, rfl⟩
    unfold stepLoop
    dsimp only
    rcases hA.tx.2 with e | ⟨e1, e2⟩
    · rw [hout.2.mpr ⟨hroot, hA.tx.1, e⟩]
    · rw [hout.1.mpr ⟨hroot, hA.tx.1, e1, e2⟩]
  | confirm f =>
    obtain ⟨⟨r, c⟩, hch⟩ := Option.ne_none_iff_exists'.mp hA.chain
    by_cases hx : r = f.root ∧ c = f.slot
    · refine ⟨⟨.save f, o, disk, lr⟩, [.chain r c], ?_, ⟨hw, hs, trivial⟩, rfl, Or.inl ⟨?_, rfl⟩⟩
      · unfold stepLoop; dsimp only; rw [hch]; dsimp only; rw [if_pos hx]
      · rw [hch, hx.1, hx.2]
    · refine ⟨⟨.confirm f, o, disk, lr⟩, [.chain r c], ?_, ⟨hw, hs, hp⟩, rfl, Or.inr ⟨?_, rfl⟩⟩
      · unfold stepLoop; dsimp only; rw [hch]; dsimp only; rw [if_neg hx]
      · rw [hch]
        intro e
        simp only [Option.some.injEq, Prod.mk.injEq] at e
        exact hx e
  | save f =>
    exact ⟨_, _, rfl, ⟨hw.content (stateDigest L o.st) o.st.tick, stateOK_mono hs _ _ _, trivial⟩, rfl, rfl⟩

end Verif
