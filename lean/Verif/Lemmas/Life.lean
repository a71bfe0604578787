import Verif.Spec.Life
import Verif.Lemmas.Local
import Verif.Lemmas.Keep
import Verif.Props.Agreement
import Verif.Props.Books
import Verif.Props.ProofEndpoint
/-
The invariant of a life with restarts.
-/
namespace Verif

/-! ### Putting pieces of work together -/

/-- `E1` for `m` ticks, then `E2` from its tick `a` on -/
def glue (E1 E2 : Env) (m a : Nat) : Env where
  perm t := if t < m then E1.perm t else E2.perm (t - m + a)
  node t := if t < m then E1.node t else E2.node (t - m + a)
  consol t := if t < m then E1.consol t else E2.consol (t - m + a)

theorem glue_obeys {P : Law} {E1 E2 : Env} (h1 : Obeys P E1) (h2 : Obeys P E2) (m a : Nat) :
    Obeys P (glue E1 E2 m a) := by
  intro t
  unfold glue
  dsimp only
  by_cases h : t < m
  · rw [if_pos h, if_pos h, if_pos h]; exact h1 t
  · rw [if_neg h, if_neg h, if_neg h]; exact h2 _

theorem glue_left (E1 E2 : Env) (m a : Nat) : Matches E1 (glue E1 E2 m a) 0 0 m := by
  intro i hi
  simp only [Nat.zero_add]
  unfold glue
  dsimp only
  rw [if_pos hi, if_pos hi, if_pos hi]
  exact ⟨rfl, rfl, rfl⟩

theorem glue_right (E1 E2 : Env) (m a n : Nat) : Matches E2 (glue E1 E2 m a) a m n := by
  intro i _
  unfold glue
  dsimp only
  have h : ¬ (m + i < m) := by omega
  have e : m + i - m + a = a + i := by omega
  rw [if_neg h, if_neg h, if_neg h, e]
  exact ⟨rfl, rfl, rfl⟩

theorem re_self (s : State) : s.re s.tick s.stateHash s.committed = s := rfl

theorem Uncut.tick {T : Chain} {E : Env} (hE : ValidEnv E) {o o' : Oracle} {bs} (h : Uncut T E o bs o') :
    o.st.tick ≤ o'.st.tick := by
  induction h with
  | start => exact Nat.le_refl _
  | slot _ _ hs _ ih =>
    obtain ⟨d, e, _⟩ := loc_slot hE hs
    omega

theorem Uncut.move {T : Chain} {E E' : Env} (hE : ValidEnv E) {o o' : Oracle} {bs} (h : Uncut T E o bs o') :
    Matches E E' 0 0 o'.st.tick → Uncut T E' o bs o' := by
  induction h with
  | start => exact fun _ => .start
  | @slot bs o1 b o2 n _ hf hs hb ih =>
    intro ha
    obtain ⟨d, e, k⟩ := loc_slot hE hs
    have k := k E' o1.st.tick o1.st.stateHash o1.st.committed (by
      intro i hi
      have := ha (o1.st.tick + i) (by omega)
      simpa using this)
    have e2 : o2.st.re (o1.st.tick + d) o1.st.stateHash o1.st.committed = o2.st := by
      obtain ⟨sb, dons, p, m, w, _, _, _, _, h5, _⟩ := slot_frame hs
      have a1 : o2.st.stateHash = o1.st.stateHash := by have := congrArg State.stateHash h5; exact this
      have a2 : o2.st.committed = o1.st.committed := by have := congrArg State.committed h5; exact this
      rw [← a1, ← a2, ← e]
      rfl
    rw [e2] at k
    exact .slot (ih (ha.mono (by omega))) hf k hb

theorem SameBooks.re {o o' : Oracle} (h : SameBooks o o') :
    o = ⟨o'.cfg, o'.st.re o.st.tick o.st.stateHash o.st.committed⟩ := by
  obtain ⟨h1, h2⟩ := h
  obtain ⟨c, s⟩ := o
  obtain ⟨c', s'⟩ := o'
  dsimp only at h1 h2 ⊢
  subst h1
  have : ({ ({ s with tick := 0, stateHash := [], committed := [] } : State) with
        tick := s.tick, stateHash := s.stateHash, committed := s.committed } : State) =
      { ({ s' with tick := 0, stateHash := [], committed := [] } : State) with
        tick := s.tick, stateHash := s.stateHash, committed := s.committed } := by rw [h2]
  unfold State.re
  congr 1

theorem Uncut.hist {T : Chain} {E : Env} {o o' : Oracle} {bs} (h : Uncut T E o bs o') : Hist E o bs o' := by
  induction h with
  | start => exact .nil _
  | slot _ _ hs _ ih =>
    have snoc : ∀ {o bs o1 b o2 n}, Hist E o bs o1 → advanceState E o1 b = .ok (o2, some n) →
        Hist E o (bs ++ [b]) o2 := by
      intro o bs o1 b o2 n h hs
      induction h with
      | nil => exact .cons hs (.nil _)
      | cons h1 _ ih => exact .cons h1 (ih hs)
    exact snoc ih hs

section
variable (P : Law) (T : Chain) (H : List Nat → List Nat) (cfg : Config)

/-- the books of this oracle are those of an oracle that was never interrupted -/
def Whole (o : Oracle) : Prop :=
  ∃ E bs q, Obeys P E ∧ Uncut T E (newOracle cfg) bs q ∧ SameBooks q o

/-- the checkpoint is the one of an oracle that was never interrupted, and its books balance -/
def Sound (f : Frozen) : Prop := ∃ q, Whole P T cfg q ∧ FrozenOf H q.st f ∧ owed q.st = received q.st

structure Lived (o : Oracle) : Prop where
  whole : Whole P T cfg o
  commit : CommitInv H o.st
  config : CfgInv cfg o
  typed : StateTyped o.st
  map : MapOK o.st
  sound : ∀ p ∈ o.st.committed, Sound P T H cfg p.2

end

section
variable {P : Law} {T : Chain} {L : Lib} {H : List Nat → List Nat} {cfg : Config}

theorem Whole.same {o o' : Oracle} (h : Whole P T cfg o) (hs : SameBooks o o') : Whole P T cfg o' := by
  obtain ⟨E, bs, q, h1, h2, h3⟩ := h
  exact ⟨E, bs, q, h1, h2, h3.trans hs⟩

theorem Whole.slot (hP : P.Good) {E : Env} (hE : Obeys P E) {o o' : Oracle} {b : FullBlock} {n : Nat}
    (h : Whole P T cfg o) (hf : fetchFullBlock T o.st o.st.nextSlot false = .ok b)
    (hs : advanceState E o b = .ok (o', some n)) (hb : o.st.nextSlot + 1 < 2 ^ 64) : Whole P T cfg o' := by
  obtain ⟨E1, bs, q, h1, h2, h3⟩ := h
  obtain ⟨d, e, k⟩ := loc_slot (hP.valid E hE) hs
  have k := k (glue E1 E q.st.tick o.st.tick) q.st.tick q.st.stateHash q.st.committed (glue_right _ _ _ _ _)
  rw [← h3.re] at k
  refine ⟨glue E1 E q.st.tick o.st.tick, bs ++ [b], _, glue_obeys h1 hE _ _,
    .slot (h2.move (hP.valid E1 h1) (glue_left _ _ _ _)) ?_ k (by rw [h3.next]; exact hb), ⟨rfl, rfl⟩⟩
  rw [fetch_congr h3.vals, h3.next]
  exact hf

theorem lived_new (hc : CfgTyped cfg) (h0 : 0 < cfg.depSlot) (hP : ∃ E, Obeys P E) :
    Lived P T H cfg (newOracle cfg) := by
  obtain ⟨E, hE⟩ := hP
  refine ⟨⟨E, [], _, hE, .start, .rfl' _⟩, work_start h0 hc.depSlot, cfgInv_new _, typed_new hc,
    List.Pairwise.nil, ?_⟩
  intro p hp
  cases hp

theorem Lived.slot (hP : P.Good) (hT : ChainTyped T) {E : Env} (hE : Obeys P E) {o o' : Oracle} {b : FullBlock}
    {n : Nat} (h : Lived P T H cfg o) (hf : fetchFullBlock T o.st o.st.nextSlot false = .ok b)
    (hs : advanceState E o b = .ok (o', some n)) (hb : o.st.nextSlot + 1 < 2 ^ 64) : Lived P T H cfg o' := by
  have hb' : b.dutySlot + 1 < 2 ^ 64 := by rw [← (slot_next hs).1]; exact hb
  obtain ⟨t1, t2⟩ := typed_slot (hP.valid E hE) (hP.exact E hE) (hP.noSelf E hE) (hP.typed E hE) h.map h.typed
    (fetch_typed hT hf) hs
  obtain ⟨c1, c2, _⟩ := h.commit.slot hs hb'
  exact ⟨h.whole.slot hP hE hf hs hb, c1, h.config.slot hs hb', t1, t2, by rw [c2]; exact h.sound⟩

/-- other stored hash, other tick -/
theorem Lived.content {o : Oracle} (h : Lived P T H cfg o) {x : Str} (hx : Ascii x) (t : Nat) :
    Lived P T H cfg ⟨o.cfg, { o.st with stateHash := x, tick := t }⟩ := by
  refine ⟨h.whole.same ⟨rfl, rfl⟩, ⟨h.commit.next, h.commit.keys, ?_⟩, ⟨h.config.cfg_eq, ?_, h.config.fee⟩,
    h.typed.re' t hx h.typed.committed h.typed.commitMap, h.map, h.sound⟩
  · intro p hp
    obtain ⟨e1, e2, e3⟩ := h.commit.entry p hp
    exact ⟨e1, e2, fun e => (e3 e).congr rfl rfl rfl rfl⟩
  · exact ⟨h.config.same.network, h.config.same.poolAddr, h.config.same.poolFeesAddr, h.config.same.fee,
      h.config.same.collateral, h.config.same.cpSize, h.config.same.depBlock, h.config.same.depSlot⟩

theorem Lived.freeze (hH : HashOK H) {E : Env} (hE : ValidEnv E) {o : Oracle} {s : State} {r : Bool}
    (h : Lived P T H cfg o) (hb : owed o.st = received o.st) (hf : freeze H E o.st = .ok (s, r)) :
    Lived P T H cfg ⟨o.cfg, s⟩ := by
  have hc := (h.commit.freeze hE hf).1
  have ht := typed_freeze hH hE h.typed hf
  rcases freeze_cases hE hf with ⟨_, rfl⟩ | ⟨f, hF, _, rfl⟩
  · exact h.content h.typed.hash _
  · refine ⟨h.whole.same ⟨rfl, rfl⟩, hc, ⟨h.config.cfg_eq, ?_, h.config.fee⟩, ht, h.map, ?_⟩
    · exact ⟨h.config.same.network, h.config.same.poolAddr, h.config.same.poolFeesAddr, h.config.same.fee,
        h.config.same.collateral, h.config.same.cpSize, h.config.same.depBlock, h.config.same.depSlot⟩
    · intro p hp
      rcases putFrozen_sub p hp with rfl | hp
      · exact ⟨o, h.whole, hF, hb⟩
      · exact h.sound p hp

/-! ### Loading -/

/-- these bytes were written, maybe not to their end, by an oracle of such a life; or they mean the same -/
def Written (P : Law) (T : Chain) (L : Lib) (H : List Nat → List Nat) (cfg : Config) (raw : List Nat) : Prop :=
  ∃ o, Lived P T H cfg o ∧ (raw <+: savedBytes L o.st ∨ L.parse raw = L.parse (savedBytes L o.st))

def DiskOK (P : Law) (T : Chain) (L : Lib) (H : List Nat → List Nat) (cfg : Config) (d : Disk) : Prop :=
  ∀ path raw, getStr d path = some raw → Written P T L H cfg raw

theorem load_written (hL : LibOK L) {E : Env} {o0 o1 : Oracle} {r : Load} {raw : List Nat}
    (hc : o0.cfg = { cfg with fee := o0.cfg.fee }) (hw : Written P T L H cfg raw)
    (h : loadFromBytes L H E o0 raw = .ok (o1, r)) :
    o1.cfg = { cfg with fee := o1.cfg.fee } ∧ (r = .loaded → Lived P T H cfg o1) := by
  by_cases hr : r = .loaded
  · subst hr
    obtain ⟨o, ho, hw⟩ := hw
    have h : loadFromBytes L H E o0 (savedBytes L o.st) = .ok (o1, .loaded) := by
      rcases hw with hw | hw
      · by_cases he : raw = savedBytes L o.st
        · rw [← he]; exact h
        · rw [C31_torn_file_rejected hL ho.typed hw he] at h
          cases h
      · rw [← loadFromBytes_congr hw]; exact h
    rw [load_saved_eq hL ho.typed] at h
    rcases ite_cases h with ⟨_, h⟩ | ⟨_, h⟩
    · cases h
    rcases ite_cases h with ⟨_, h⟩ | ⟨_, h⟩
    · cases h
    rcases ite_cases h with ⟨_, h⟩ | ⟨_, h⟩
    · cases h
    rcases ite_cases h with ⟨_, h⟩ | ⟨hfee, h⟩
    · cases h
    rcases ite_cases h with ⟨_, h⟩ | ⟨_, h⟩
    · cases h
    rcases ite_cases h with ⟨_, h⟩ | ⟨_, h⟩
    · cases h
    rcases ite_cases h with ⟨_, h⟩ | ⟨_, h⟩
    · cases h
    rcases ite_cases h with ⟨_, h⟩ | ⟨_, h⟩
    · cases h
    simp only [bind_ok] at h
    obtain ⟨_, _, h⟩ := h
    have h := Except.ok.inj h
    cases h
    simp only [ne_eq, not_not] at hfee
    have e : loadCfg o0.cfg o.st = o.cfg := by
      rw [loadCfg_fee, ← hfee, hc, ho.config.cfg_eq, ← ho.config.same.fee]
    rw [e]
    exact ⟨ho.config.cfg_eq, fun _ => ho.content (by intro c hc; cases hc) _⟩
  · have := (C31_rejected_unchanged h hr).2.2
    refine ⟨?_, fun e => absurd e hr⟩
    rw [this, hc]

theorem path_written (hL : LibOK L) {E : Env} {d : Disk} (hd : DiskOK P T L H cfg d) {o0 o1 : Oracle} {r : Load}
    {path : Str} (hc : o0.cfg = { cfg with fee := o0.cfg.fee })
    (h : loadFromPath L H E d o0 path = .ok (o1, r)) :
    o1.cfg = { cfg with fee := o1.cfg.fee } ∧ (r = .loaded → Lived P T H cfg o1) ∧ (r = .notFound → o1 = o0) := by
  unfold loadFromPath at h
  split at h
  · have h := Except.ok.inj h
    cases h
    exact ⟨hc, (fun h => by cases h), fun _ => rfl⟩
  · rename_i raw hraw
    obtain ⟨h1, h2⟩ := load_written hL hc (hd _ _ hraw) h
    refine ⟨h1, h2, fun e => ?_⟩
    by_cases hr : r = .loaded
    · rw [hr] at e; cases e
    · have := (C31_rejected_unchanged h hr).1
      rw [this] at e; cases e

theorem older_written (hL : LibOK L) {E : Env} {d : Disk} (hd : DiskOK P T L H cfg d) {slot : Nat} :
    ∀ (is : List Nat) {o0 o1 : Oracle} {r0 r : Load}, o0.cfg = { cfg with fee := o0.cfg.fee } → r0 ≠ .loaded →
      loadOlder L H E d slot is o0 r0 = .ok (o1, r) → r = .loaded → Lived P T H cfg o1 := by
  intro is
  induction is with
  | nil =>
    intro o0 o1 r0 r _ h0 h hr
    have h := Except.ok.inj h
    cases h
    exact absurd hr h0
  | cons i is ih =>
    intro o0 o1 r0 r hc _ h hr
    rw [loadOlder] at h
    simp only [bind_ok] at h
    obtain ⟨⟨o', r'⟩, h1, h⟩ := h
    obtain ⟨k1, k2, _⟩ := path_written hL hd hc h1
    dsimp only at h
    rcases ite_cases h with ⟨e, h⟩ | ⟨e, h⟩
    · have h := Except.ok.inj h
      cases h
      exact k2 e
    · exact ih k1 e h hr

theorem startup_written (hL : LibOK L) (hc : CfgTyped cfg) (h0 : 0 < cfg.depSlot) {E : Env} (hE : Obeys P E)
    {d : Disk} (hd : DiskOK P T L H cfg d) {source : Option (List Nat)}
    (hs : ∀ raw, source = some raw → Written P T L H cfg raw) {c : Nat} {o : Oracle}
    (h : startup L H E d cfg source (some c) = .ok o) : Lived P T H cfg o := by
  unfold startup at h
  dsimp only at h
  simp only [bind_ok] at h
  obtain ⟨⟨o1, r⟩, h1, h⟩ := h
  have hnew : Lived P T H cfg (newOracle cfg) := lived_new hc h0 ⟨E, hE⟩
  have key : o1.cfg = { cfg with fee := o1.cfg.fee } ∧ (r ≠ .failed → Lived P T H cfg o1) := by
    cases source with
    | some raw =>
      obtain ⟨k1, k2⟩ := load_written hL rfl (hs raw rfl) h1
      refine ⟨k1, fun hr => k2 ?_⟩
      by_cases e : r = .loaded
      · exact e
      · exact absurd (C31_rejected_unchanged h1 e).1 hr
    | none =>
      obtain ⟨k1, k2, k3⟩ := path_written hL hd rfl h1
      refine ⟨k1, fun hr => ?_⟩
      cases r with
      | loaded => exact k2 rfl
      | notFound => rw [k3 rfl]; exact hnew
      | failed => exact absurd rfl hr
  dsimp only at h
  rcases ite_cases h with ⟨_, h⟩ | ⟨hr, h⟩
  · cases h
  have hl := (key.2 hr).content (key.2 hr).typed.hash (o1.st.tick + 1)
  rcases ite_cases h with ⟨_, h⟩ | ⟨_, h⟩
  · simp only [bind_ok] at h
    obtain ⟨⟨o3, r3⟩, h3, h⟩ := h
    rcases ite_cases h with ⟨e, h⟩ | ⟨_, h⟩
    · have h := Except.ok.inj h
      dsimp only at e h
      subst h e
      unfold loadGivenState at h3
      simp only [bind_ok] at h3
      obtain ⟨⟨o4, r4⟩, h4, h3⟩ := h3
      obtain ⟨k1, k2, k3⟩ := path_written hL hd (by exact key.1) h4
      dsimp only at h3
      cases r4 with
      | failed => cases h3
      | loaded => cases h3; exact k2 rfl
      | notFound => exact older_written hL hd _ k1 (by decide) h3 rfl
    · cases h
  · have h := Except.ok.inj h
    rw [← h]
    exact hl

end

/-! ### The main loop -/

/-- the checkpoint being worked on -/
def Pc.frozen : Pc → Option Frozen
  | .vote f | .pause f | .decide f | .submit f | .confirm f | .save f => some f
  | _ => none

structure StepFacts (L : Lib) (H : List Nat → List Nat) (E : Env) (A : Answers) (l l2 : Loop) (evs : List LoopEv) :
    Prop where
  pc : ∀ f, l2.pc.frozen = some f → l.pc.frozen = some f ∨ ∃ s, latestCommitted E s l2.o.st = some f
  submit : ∀ s r, .submit s r ∈ evs → ∃ f, l.pc.frozen = some f ∧ s = f.slot ∧ r = f.root
  frozen : ∀ s r, .frozen s r ∈ evs → ∃ f t, latestCommitted E t l2.o.st = some f ∧ s = f.slot ∧ r = f.root
  disk : l2.disk = l.disk ∨ l2.disk = A.torn.getD (saveToJson L true l.o l.disk).2
  oracle : (∃ b fin n, fetchFullBlock A.fetch l.o.st l.o.st.nextSlot false = .ok b ∧
      advanceState E l.o b = .ok (l2.o, some n) ∧ A.finalized = some fin ∧ l.o.st.nextSlot ≤ fin) ∨
    (∃ t, l2.o = ⟨l.o.cfg, { l.o.st with tick := t }⟩) ∨ l2.o = ⟨l.o.cfg, hashState L l.o.st⟩ ∨
    ∃ u r t, freeze H E { l.o.st with tick := l.o.st.tick + 1 } = .ok (u, r) ∧
      l2.o = ⟨l.o.cfg, { u with tick := t }⟩ ∧ offchainReconciliation E l.o.st.tick l.o.st = .ok true

theorem latestCommitted_tick (E : Env) (t u : Nat) (s : State) :
    latestCommitted E t { s with tick := u } = latestCommitted E t s := rfl

theorem step_facts {L : Lib} {H : List Nat → List Nat} {E : Env} {A : Answers} {l l2 : Loop}
    {evs : List LoopEv} (h : stepLoop L H E A l = .ok (l2, evs)) : StepFacts L H E A l l2 evs := by
  obtain ⟨pc, o, disk, lr⟩ := l
  cases pc with
  | top =>
    unfold stepLoop stepTop at h
    dsimp only at h
    have stay : ∀ {l2 evs}, (Except.ok ((⟨.top, o, disk, lr⟩ : Loop), ([] : List LoopEv)) :
        M (Loop × List LoopEv)) = .ok (l2, evs) → StepFacts L H E A ⟨.top, o, disk, lr⟩ l2 evs := by
      intro l2 evs h
      have h := Except.ok.inj h
      cases h
      exact ⟨fun _ h => Or.inl h, by simp, by simp, Or.inl rfl, Or.inr (Or.inl ⟨o.st.tick, rfl⟩)⟩
    split at h
    · cases h
    · exact stay h
    · split at h
      · exact stay h
      · rename_i fin hfin
        split at h
        · rename_i hge
          simp only [bind_ok] at h
          obtain ⟨b, hb, ⟨o', r⟩, hadv, h⟩ := h
          dsimp only at h
          cases r with
          | none => cases h
          | some n =>
            have h := Except.ok.inj h
            cases h
            exact ⟨(fun _ h => by cases h), by simp, by simp, Or.inl rfl, Or.inl ⟨b, fin, n, hb, hadv, hfin, hge⟩⟩
        · simp only [bind_ok] at h
          obtain ⟨l', hid, h⟩ := h
          have h := Except.ok.inj h
          cases h
          unfold idle at hid
          dsimp only at hid
          split at hid
          · simp only [bind_ok] at hid
            obtain ⟨us, _, cl, _, hid⟩ := hid
            split at hid
            · split at hid
              · have hid := Except.ok.inj hid
                cases hid
                exact ⟨(fun _ h => by cases h), by simp, by simp, Or.inl rfl, Or.inr (Or.inl ⟨_, rfl⟩)⟩
              · cases hid
            · have hid := Except.ok.inj hid
              cases hid
              exact ⟨(fun _ h => by cases h), by simp, by simp, Or.inl rfl, Or.inr (Or.inl ⟨_, rfl⟩)⟩
          · have hid := Except.ok.inj hid
            cases hid
            exact ⟨(fun _ h => by cases h), by simp, by simp, Or.inl rfl, Or.inr (Or.inl ⟨_, rfl⟩)⟩
  | processed =>
    unfold stepLoop stepProcessed at h
    dsimp only at h
    simp only [bind_ok] at h
    obtain ⟨_, _, cp, _, h⟩ := h
    split at h
    · cases h
    · have h := Except.ok.inj h
      cases h
      exact ⟨(fun _ h => by cases h), by simp, by simp, Or.inl rfl, Or.inr (Or.inl ⟨_, rfl⟩)⟩
    · simp only [bind_ok] at h
      obtain ⟨ok, hrec, h⟩ := h
      rcases ite_cases h with ⟨_, h⟩ | ⟨hok, h⟩
      · cases h
      · rw [show ok = true by simpa using hok] at hrec
        simp only [bind_ok] at h
        obtain ⟨⟨s, en⟩, hfr, h⟩ := h
        dsimp only at h
        rcases ite_cases h with ⟨_, h⟩ | ⟨hen, h⟩
        · have h := Except.ok.inj h
          cases h
          exact ⟨(fun _ h => by cases h), by simp, by simp, Or.inl rfl,
            Or.inr (Or.inr (Or.inr ⟨s, en, s.tick, hfr, rfl, hrec⟩))⟩
        · cases hl : latestCommitted E s.tick s with
          | none => rw [hl] at h; cases h
          | some f =>
            rw [hl] at h
            have h := Except.ok.inj h
            cases h
            refine ⟨?_, by simp, ?_, Or.inl rfl, Or.inr (Or.inr (Or.inr ⟨s, en, s.tick + 1, hfr, rfl, hrec⟩))⟩
            · intro g hg
              have hg := Option.some.inj hg
              subst hg
              exact Or.inr ⟨s.tick, hl⟩
            · intro s' r' h'
              simp only [List.mem_cons, reduceCtorEq, LoopEv.frozen.injEq, List.not_mem_nil, or_false,
                false_or] at h'
              exact ⟨f, s.tick, hl, h'.1, h'.2⟩
  | vote f =>
    unfold stepLoop at h
    dsimp only at h
    split at h
    · cases h
    · rcases ite_cases h with ⟨_, h⟩ | ⟨_, h⟩
      · cases h
      · rcases ite_cases h with ⟨_, h⟩ | ⟨_, h⟩
        · have h := Except.ok.inj h
          cases h
          refine ⟨fun g hg => Or.inl ?_, by simp, by simp, Or.inl rfl, Or.inr (Or.inl ⟨_, rfl⟩)⟩
          dsimp only at hg
          split at hg <;> exact hg
        · have h := Except.ok.inj h
          cases h
          exact ⟨fun g hg => Or.inl hg, by simp, by simp, Or.inl rfl, Or.inr (Or.inl ⟨_, rfl⟩)⟩
  | pause f =>
    unfold stepLoop at h
    dsimp only at h
    split at h
    · cases h
    · have h := Except.ok.inj h
      cases h
      exact ⟨fun g hg => Or.inl hg, by simp, by simp, Or.inl rfl, Or.inr (Or.inl ⟨_, rfl⟩)⟩
  | decide f =>
    unfold stepLoop at h
    dsimp only at h
    split at h
    · cases h
    · rcases ite_cases h with ⟨_, h⟩ | ⟨_, h⟩
      · have h := Except.ok.inj h
        cases h
        refine ⟨fun g hg => Or.inl hg, ?_, by simp, Or.inl rfl, Or.inr (Or.inl ⟨_, rfl⟩)⟩
        intro s r hsr
        simp only [List.mem_cons, reduceCtorEq, LoopEv.submit.injEq, List.not_mem_nil, or_false,
          false_or] at hsr
        exact ⟨f, rfl, hsr.1, hsr.2⟩
      · have h := Except.ok.inj h
        cases h
        exact ⟨fun g hg => Or.inl hg, by simp, by simp, Or.inl rfl, Or.inr (Or.inl ⟨_, rfl⟩)⟩
  | submit f =>
    unfold stepLoop at h
    dsimp only at h
    split at h
    · cases h
    · have h := Except.ok.inj h
      cases h
      exact ⟨fun g hg => Or.inl hg, by simp, by simp, Or.inl rfl, Or.inr (Or.inl ⟨_, rfl⟩)⟩
  | confirm f =>
    unfold stepLoop at h
    dsimp only at h
    split at h
    · cases h
    · rcases ite_cases h with ⟨_, h⟩ | ⟨_, h⟩ <;>
      · have h := Except.ok.inj h
        cases h
        exact ⟨fun g hg => Or.inl hg, by simp, by simp, Or.inl rfl, Or.inr (Or.inl ⟨_, rfl⟩)⟩
  | save f =>
    unfold stepLoop saveToJson at h
    dsimp only at h
    have h := Except.ok.inj h
    cases h
    exact ⟨(fun _ h => by cases h), by simp, by simp, Or.inr rfl, Or.inr (Or.inr (Or.inl rfl))⟩

theorem latestCommitted_mem {E : Env} {t : Nat} {s : State} {f : Frozen}
    (h : latestCommitted E t s = some f) : ∃ p ∈ s.committed, p.2 = f := by
  unfold latestCommitted at h
  dsimp only at h
  rcases ite_cases h with ⟨_, h⟩ | ⟨_, h⟩
  · cases h
  · exact ⟨_, getFrozen_mem h, rfl⟩

theorem save_interrupted {L : Lib} {flag : Bool} {o : Oracle} {d : Disk} :
    Interrupted L o.st d (saveToJson L flag o d).2 := by
  intro path raw h
  unfold saveToJson at h
  dsimp only at h
  have one : getStr (putStr d stateJson (savedBytes L o.st)) path = some raw →
      getStr d path = some raw ∨
      (path = b!"state.json" ∨ path = b!"state_" ++ decimal o.st.latestSlot ++ b!".json") ∧
        raw <+: savedBytes L o.st := by
    intro h
    rw [getStr_putStr] at h
    rcases ite_cases h with ⟨e, h⟩ | ⟨_, h⟩
    · rw [← Option.some.inj h]; exact Or.inr ⟨Or.inl e, List.prefix_refl _⟩
    · exact Or.inl h
  cases flag with
  | false => exact one h
  | true =>
    rw [if_pos rfl, getStr_putStr] at h
    rcases ite_cases h with ⟨e, h⟩ | ⟨_, h⟩
    · rw [← Option.some.inj h]; exact Or.inr ⟨Or.inr e, List.prefix_refl _⟩
    · exact one h

section
variable (P : Law) (T : Chain) (L : Lib) (H : List Nat → List Nat) (cfg : Config)

/-- the root was frozen by, or is the one of, an oracle that was never interrupted -/
def RootOK (s : Nat) (r : Str) : Prop := ∃ f, Sound P T H cfg f ∧ f.slot = s ∧ f.root = r

def TraceOK (tr : List LoopEv) : Prop :=
  ∀ s r, .frozen s r ∈ tr ∨ .submit s r ∈ tr → RootOK P T H cfg s r

def BeingOK : Being → Prop
  | .off d => DiskOK P T L H cfg d
  | .on l => DiskOK P T L H cfg l.disk ∧ Lived P T H cfg l.o ∧ ∀ f, l.pc.frozen = some f → Sound P T H cfg f

end

section
variable {P : Law} {T : Chain} {L : Lib} {H : List Nat → List Nat} {cfg : Config}

theorem interrupted_ok {o : Oracle} {d d' : Disk} (hd : DiskOK P T L H cfg d) (ho : Lived P T H cfg o)
    (h : Interrupted L o.st d d') : DiskOK P T L H cfg d' := by
  intro path raw hr
  rcases h path raw hr with h | ⟨_, h⟩
  · exact hd path raw h
  · exact ⟨o, ho, Or.inl h⟩

theorem life_inv (hP : P.Good) (hT : ChainTyped T) (hL : LibOK L) (hH : HashOK H) (hc : CfgTyped cfg)
    (h0 : 0 < cfg.depSlot) {tr : List LoopEv} {x : Being} (h : Life P T L H cfg tr x) :
    TraceOK P T H cfg tr ∧ BeingOK P T L H cfg x := by
  induction h with
  | born =>
    refine ⟨?_, ?_⟩
    · intro s r h
      rcases h with h | h <;> cases h
    · intro path raw h
      simp [getStr] at h
  | restore _ _ ih1 ih2 => exact ⟨ih1.1, ih2.2⟩
  | start t _ hE hs ih =>
    refine ⟨ih.1, ih.2, startup_written hL hc h0 hE ih.2 (fun _ h => by cases h) hs, fun f h => by cases h⟩
  | @sync tr tr' d E c o l raw t _ _ hp hE hs ih1 ih2 =>
    refine ⟨ih1.1, ih1.2, startup_written hL hc h0 hE ih1.2 ?_ hs, fun f h => by cases h⟩
    intro raw' e
    have e := Option.some.inj e
    subst e
    refine ⟨l.o, ih2.2.2.1, Or.inr ?_⟩
    rw [hp]
    unfold savedBytes
    rw [hL.reads _ (hashState_typed hL ih2.2.2.1.typed)]
  | @step tr l l' E A evs _ hE hfin hnet htorn hs ih =>
    obtain ⟨htr, hd, hl, hpc⟩ := ih
    have hv := hP.valid E hE
    have k := step_facts hs
    have hl' : Lived P T H cfg l'.o := by
      rcases k.oracle with ⟨b, fin, n, k1, k2, k3, k4⟩ | ⟨t, k1⟩ | k1 | ⟨u, r, t, k1, k2, k3⟩
      · have := hfin fin k3
        exact hl.slot hP hT hE (C76_same_block_partial hnet k1) k2 (by omega)
      · rw [k1]; exact hl.content hl.typed.hash t
      · rw [k1]; exact hl.content (hashState_typed hL hl.typed).hash l.o.st.tick
      · rw [k2]
        have := (hl.content hl.typed.hash (l.o.st.tick + 1)).freeze hH hv (offchain_true hv k3) k1
        exact this.content this.typed.hash t
    have hmem : ∀ {t f}, latestCommitted E t l'.o.st = some f → Sound P T H cfg f := by
      intro t f h
      obtain ⟨p, hp, rfl⟩ := latestCommitted_mem h
      exact hl'.sound p hp
    refine ⟨?_, ?_, hl', ?_⟩
    · intro s r h
      rw [List.mem_append, List.mem_append] at h
      rcases h with (h | h) | (h | h)
      · exact htr s r (Or.inl h)
      · obtain ⟨f, t, k1, k2, k3⟩ := k.frozen s r h
        exact ⟨f, hmem k1, k2.symm, k3.symm⟩
      · exact htr s r (Or.inr h)
      · obtain ⟨f, k1, k2, k3⟩ := k.submit s r h
        exact ⟨f, hpc f k1, k2.symm, k3.symm⟩
    · rcases k.disk with e | e
      · rw [e]; exact hd
      · rw [e]
        cases ht : A.torn with
        | none => exact interrupted_ok hd hl save_interrupted
        | some d => exact interrupted_ok hd hl (htorn d ht)
    · intro f h
      rcases k.pc f h with h | ⟨t, h⟩
      · exact hpc f h
      · exact hmem h
  | kill _ hi ih => exact ⟨ih.1, interrupted_ok ih.2.1 ih.2.2.1 hi⟩
  | signal _ ih => exact ⟨ih.1, interrupted_ok ih.2.1 ih.2.2.1 save_interrupted⟩

end

end Verif
