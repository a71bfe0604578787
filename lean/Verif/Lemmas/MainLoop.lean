import Verif.Spec.MainLoop
import Verif.Props.Persist
import Verif.Props.Slots
/-
The invariant of the main loop.
-/
namespace Verif

/-- every event of the trace is allowed after what came before it -/
def Disciplined (ok : List LoopEv → LoopEv → Prop) (tr : List LoopEv) : Prop :=
  ∀ pre e post, tr = pre ++ e :: post → ok pre e

theorem Disciplined.snoc {ok tr e} (h : Disciplined ok tr) (he : ok tr e) : Disciplined ok (tr ++ [e]) := by
  intro pre x post heq
  rcases List.eq_nil_or_concat post with rfl | ⟨post', y, rfl⟩
  · have := List.append_inj' heq rfl
    obtain ⟨rfl, h2⟩ := this
    simp only [List.cons.injEq, and_true] at h2
    subst h2
    exact he
  · have : tr ++ [e] = (pre ++ x :: post') ++ [y] := by rw [heq]; simp
    have := List.append_inj' this rfl
    exact h _ _ _ this.1

theorem Disciplined.nil {ok} : Disciplined ok [] := by
  intro pre e post h
  simp at h

/-- what is allowed, by event -/
def Allowed (cfg : Config) (pre : List LoopEv) : LoopEv → Prop
  | .processed s fin => s ≤ fin
  | .submit s r => MaySubmit cfg pre s r
  | .save s => MaySave cfg pre s
  | .frozen s _ => ∃ pre0 fin, pre = pre0 ++ [.processed s fin, .reconciled]
  | .skipped s => ∃ pre0 fin, pre = pre0 ++ [.processed s fin, .reconciled]
  | _ => True

/-- the recent past at each place -/
def Recent (cfg : Config) (tr : List LoopEv) (s : Nat) : Pc → Prop
  | .top => True
  | .processed => ∃ pre fin, tr = pre ++ [.processed s fin]
  | .vote f => f.slot = s ∧ JustFrozen tr s f.root
  | .pause f => f.slot = s ∧ JustFrozen tr s f.root
  | .decide f => f.slot = s ∧ JustFrozen tr s f.root
  | .submit f => f.slot = s ∧ ∃ pre0, tr = pre0 ++ [.submit s f.root] ∧ MaySubmit cfg pre0 s f.root
  | .confirm f => f.slot = s ∧ ∃ pre0 mid, tr = pre0 ++ .submit s f.root :: mid ∧
      MaySubmit cfg pre0 s f.root ∧ ∀ e ∈ mid, e.reads
  | .save _ => MaySave cfg tr s

structure LoopInv (H : List Nat → List Nat) (E : Env) (cfg : Config) (l0 : Loop) (tr : List LoopEv)
    (l : Loop) : Prop where
  work : Work H E (newOracle cfg) l.o
  goes : Work H E l0.o l.o
  events : Disciplined (Allowed cfg) tr
  recent : Recent cfg tr l.o.st.latestSlot l.pc
  slots : slotsOf tr = List.range' l0.o.st.nextSlot (slotsOf tr).length
  next : l.o.st.nextSlot = l0.o.st.nextSlot + (slotsOf tr).length
  frz : ∀ s r, .frozen s r ∈ tr → ∃ f, (s, f) ∈ l.o.st.committed ∧ f.slot = s ∧ f.root = r

theorem slotsOf_append (a b : List LoopEv) : slotsOf (a ++ b) = slotsOf a ++ slotsOf b := by
  induction a with
  | nil => rfl
  | cons e a ih => cases e <;> simp [slotsOf, ih]

theorem JustFrozen.snoc {tr s r e} (h : JustFrozen tr s r) (he : e.reads) : JustFrozen (tr ++ [e]) s r := by
  obtain ⟨pre0, fin, mid, rfl, h⟩ := h
  refine ⟨pre0, fin, mid ++ [e], by simp, ?_⟩
  intro x hx
  rcases List.mem_append.mp hx with hx | hx
  · exact h x hx
  · rw [List.mem_singleton] at hx; subst hx; exact he

theorem Work.trans {H E o o1 o2} (h : Work H E o o1) (h' : Work H E o1 o2) : Work H E o o2 := by
  induction h' with
  | refl => exact h
  | slot _ hs hb ih => exact .slot ih hs hb
  | freeze _ hf ih => exact .freeze ih hf
  | saved x t _ ih => exact .saved x t ih

/-- the ghost counter alone is a (trivial) save -/
theorem Work.tick {H E o o1} (h : Work H E o o1) (t : Nat) :
    Work H E o ⟨o1.cfg, { o1.st with tick := t }⟩ := .saved o1.st.stateHash t h

theorem stepLoop_inv {L : Lib} {H : List Nat → List Nat} {E : Env} (hE : ValidEnv E) {cfg : Config}
    (h0 : 0 < cfg.depSlot) (h1 : cfg.depSlot < 2 ^ 64) {l0 l l2 : Loop} {tr evs : List LoopEv} {A : Answers}
    (h : LoopInv H E cfg l0 tr l) (hA : ∀ fin, A.finalized = some fin → fin + 1 < 2 ^ 64)
    (hs : stepLoop L H E A l = .ok (l2, evs)) : LoopInv H E cfg l0 (tr ++ evs) l2 := by
  have hci := cfgInv_work hE h.work
  have hdry : l.o.cfg.dryRun = cfg.dryRun := by rw [hci.cfg_eq]
  have hcp : l.o.cfg.cpSize = cfg.cpSize := by rw [hci.cfg_eq]
  have hci := (work_inv hE h.work (work_start h0 h1)).1
  obtain ⟨pc, o, disk, lr⟩ := l
  have hr := h.recent
  -- a step without events about slots that changes only ghost and hash of the oracle
  have same : ∀ {pc' : Pc} {o' : Oracle} {d' lr' evs'}, Work H E (newOracle cfg) o' → Work H E l0.o o' →
      o'.st.nextSlot = o.st.nextSlot → slotsOf evs' = [] → Disciplined (Allowed cfg) (tr ++ evs') →
      Recent cfg (tr ++ evs') o'.st.latestSlot pc' →
      (∀ p ∈ o.st.committed, p ∈ o'.st.committed) →
      (∀ s r, .frozen s r ∈ evs' → ∃ f, (s, f) ∈ o'.st.committed ∧ f.slot = s ∧ f.root = r) →
      LoopInv H E cfg l0 (tr ++ evs') ⟨pc', o', d', lr'⟩ := by
    intro pc' o' d' lr' evs' w1 w2 e1 e2 hd hrec hm hz
    refine ⟨w1, w2, hd, hrec, ?_, ?_, ?_⟩
    · rw [slotsOf_append, e2, List.append_nil]; exact h.slots
    · rw [slotsOf_append, e2, List.append_nil]; exact e1.trans h.next
    · intro s r hsr
      rcases List.mem_append.mp hsr with hsr | hsr
      · obtain ⟨f, h1, h2⟩ := h.frz s r hsr
        exact ⟨f, hm _ h1, h2⟩
      · exact hz s r hsr
  have no : ∀ {o' : Oracle}, ∀ s r, LoopEv.frozen s r ∈ ([] : List LoopEv) →
      ∃ f, (s, f) ∈ o'.st.committed ∧ f.slot = s ∧ f.root = r := by
    intro o' s r h
    cases h
  have calm : ∀ {pc' : Pc} {o' : Oracle} {d' lr' evs'}, Work H E (newOracle cfg) o' → Work H E l0.o o' →
      o'.st.nextSlot = o.st.nextSlot → slotsOf evs' = [] → o'.st.committed = o.st.committed →
      (∀ s r, LoopEv.frozen s r ∉ evs') → Disciplined (Allowed cfg) (tr ++ evs') →
      Recent cfg (tr ++ evs') o'.st.latestSlot pc' →
      LoopInv H E cfg l0 (tr ++ evs') ⟨pc', o', d', lr'⟩ := by
    intro pc' o' d' lr' evs' w1 w2 e1 e2 e3 hn hd hrec
    exact same w1 w2 e1 e2 hd hrec (fun p hp => by rw [e3]; exact hp) (fun s r h => absurd h (hn s r))
  cases pc with
  | top =>
    unfold stepLoop stepTop at hs
    dsimp only at hs
    have stay : ∀ {l2 evs}, (Except.ok ((⟨.top, o, disk, lr⟩ : Loop), ([] : List LoopEv)) :
        M (Loop × List LoopEv)) = .ok (l2, evs) → LoopInv H E cfg l0 (tr ++ evs) l2 := by
      intro l2 evs hs
      have hs := Except.ok.inj hs
      cases hs
      exact same h.work h.goes rfl rfl (by rw [List.append_nil]; exact h.events) trivial (fun _ h => h) no
    split at hs
    · cases hs
    · exact stay hs
    · split at hs
      · exact stay hs
      · rename_i fin hfin
        split at hs
        · rename_i hge
          simp only [bind_ok] at hs
          obtain ⟨b, _, ⟨o', r⟩, hadv, hs⟩ := hs
          dsimp only at hs
          cases r with
          | none => cases hs
          | some n =>
            have hs := Except.ok.inj hs
            cases hs
            obtain ⟨e1, rfl, e3, e4⟩ := C20_exactly_next hadv
            have hf := hA _ hfin
            have hb : b.dutySlot + 1 < 2 ^ 64 := by rw [e1]; omega
            refine ⟨.slot h.work hadv hb, .slot h.goes hadv hb, ?_, ⟨tr, fin, by rw [e3]⟩, ?_, ?_, ?_⟩
            · refine h.events.snoc ?_
              show b.dutySlot ≤ fin
              rw [e1]; exact hge
            · rw [slotsOf_append]
              show slotsOf tr ++ [b.dutySlot] = _
              rw [List.length_append, show (slotsOf [LoopEv.processed b.dutySlot fin]).length = 1 from rfl,
                List.range'_concat, ← h.slots, e1]
              have := h.next
              dsimp only at this
              rw [this]
              simp
            · rw [slotsOf_append]
              show o'.st.nextSlot = _ + (slotsOf tr ++ [b.dutySlot]).length
              rw [List.length_append, e4, e1]
              have := h.next
              dsimp only at this
              rw [this]
              rw [e1, this] at hb
              exact Nat.mod_eq_of_lt hb
            · intro s r hsr
              rw [(slot_keeps hadv).2]
              refine h.frz s r ?_
              simpa using hsr
        · simp only [bind_ok] at hs
          obtain ⟨l', hid, hs⟩ := hs
          have hs := Except.ok.inj hs
          cases hs
          unfold idle at hid
          dsimp only at hid
          have fin' : ∀ t lr', LoopInv H E cfg l0 (tr ++ [])
              ⟨.top, ⟨o.cfg, { o.st with tick := t }⟩, disk, lr'⟩ := by
            intro t lr'
            exact same (h.work.tick t) (h.goes.tick t) rfl rfl (by rw [List.append_nil]; exact h.events) trivial (fun _ h => h) no
          split at hid
          · simp only [bind_ok] at hid
            obtain ⟨us, _, cl, _, hid⟩ := hid
            split at hid
            · split at hid
              · have hid := Except.ok.inj hid
                cases hid
                exact fin' _ _
              · cases hid
            · have hid := Except.ok.inj hid
              cases hid
              exact fin' _ _
          · have hid := Except.ok.inj hid
            cases hid
            exact same h.work h.goes rfl rfl (by rw [List.append_nil]; exact h.events) trivial (fun _ h => h) no
  | processed =>
    unfold stepLoop stepProcessed at hs
    dsimp only at hs
    simp only [bind_ok] at hs
    obtain ⟨_, _, cp, _, hs⟩ := hs
    obtain ⟨pre, fin, htr⟩ := hr
    dsimp only at htr
    split at hs
    · cases hs
    · have hs := Except.ok.inj hs
      cases hs
      exact same h.work h.goes rfl rfl (by rw [List.append_nil]; exact h.events) trivial (fun _ h => h) no
    · simp only [bind_ok] at hs
      obtain ⟨ok, _, hs⟩ := hs
      rcases ite_cases hs with ⟨_, hs⟩ | ⟨_, hs⟩
      · cases hs
      · simp only [bind_ok] at hs
        obtain ⟨⟨s, en⟩, hfr, hs⟩ := hs
        dsimp only at hs
        have ht : (⟨o.cfg, { o.st with tick := o.st.tick + 1 }⟩ : Oracle).cfg = o.cfg := rfl
        have w1 := h.work.tick (o.st.tick + 1)
        have w2 := h.goes.tick (o.st.tick + 1)
        dsimp only at w1 w2
        have w1' : Work H E (newOracle cfg) ⟨o.cfg, s⟩ :=
          .freeze (o1 := ⟨o.cfg, { o.st with tick := o.st.tick + 1 }⟩) w1 hfr
        have w2' : Work H E l0.o ⟨o.cfg, s⟩ :=
          .freeze (o1 := ⟨o.cfg, { o.st with tick := o.st.tick + 1 }⟩) w2 hfr
        have e1 : s.nextSlot = o.st.nextSlot ∧ s.latestSlot = o.st.latestSlot := by
          rcases freeze_cases hE hfr with ⟨_, rfl⟩ | ⟨f, _, _, rfl⟩ <;> exact ⟨rfl, rfl⟩
        have hi := (work_inv hE w1 (work_start h0 h1)).1
        have hkeep := (hi.freeze hE hfr).2
        dsimp only at hi hkeep
        rcases ite_cases hs with ⟨_, hs⟩ | ⟨hen, hs⟩
        · have hs := Except.ok.inj hs
          cases hs
          refine same w1' w2' e1.1 rfl ?_ trivial hkeep (by intro s r h; simp at h)
          have := (h.events.snoc (e := .reconciled) trivial).snoc (e := .skipped s.latestSlot)
            ⟨pre, fin, by rw [htr, e1.2]; simp⟩
          rw [List.append_assoc] at this
          exact this
        · simp only [Bool.not_eq_true', Bool.not_eq_false] at hen
          subst hen
          cases hl : latestCommitted E s.tick s with
          | none => rw [hl] at hs; cases hs
          | some f =>
            rw [hl] at hs
            have hs := Except.ok.inj hs
            cases hs
            have hfs : f.slot = s.latestSlot ∧ (s.latestSlot, f) ∈ s.committed := by
              rcases freeze_cases hE hfr with ⟨h, _⟩ | ⟨f', hF, _, hs'⟩
              · cases h
              · have hmem : (o.st.latestSlot, f') ∈ s.committed := by
                  rw [hs']; dsimp only; rw [putFrozen_mem hi.keys]; exact Or.inl rfl
                have hi' := (hi.freeze hE hfr).1
                have := (latestCommitted_spec hE s.tick hi'.keys hmem (fun p hp => by
                  have := (hi'.entry p hp).2.1
                  rw [e1.2] at this
                  exact this)).2
                rw [this] at hl
                cases hl
                rw [e1.2]
                exact ⟨(hi'.entry _ hmem).1, hmem⟩
            obtain ⟨hfs, hfm⟩ := hfs
            refine same (w1'.tick _) (w2'.tick _) e1.1 rfl ?_ ?_ hkeep ?_
            · have := (h.events.snoc (e := .reconciled) trivial).snoc (e := .frozen f.slot f.root)
                ⟨pre, fin, by rw [htr, hfs, e1.2]; simp⟩
              rw [List.append_assoc] at this
              exact this
            · refine ⟨hfs, pre, fin, [], ?_, by intro e he; cases he⟩
              dsimp only
              rw [htr, hfs, e1.2]
              simp
            · intro s' r' h'
              simp only [List.mem_cons, reduceCtorEq, LoopEv.frozen.injEq, List.not_mem_nil, or_false,
                false_or] at h'
              obtain ⟨rfl, rfl⟩ := h'
              exact ⟨f, by rw [hfs]; exact hfm, rfl, rfl⟩
  | vote f =>
    unfold stepLoop at hs
    dsimp only at hs
    split at hs
    · cases hs
    · rename_i slot _
      rcases ite_cases hs with ⟨_, hs⟩ | ⟨_, hs⟩
      · cases hs
      · obtain ⟨hr1, hr2⟩ := hr
        have hj := hr2.snoc (e := .voted slot) trivial
        rcases ite_cases hs with ⟨_, hs⟩ | ⟨_, hs⟩
        · have hs := Except.ok.inj hs
          cases hs
          refine calm (h.work.tick _) (h.goes.tick _) rfl rfl rfl (by simp) (h.events.snoc trivial) ?_
          split
          · exact ⟨hr1, hj⟩
          · exact ⟨hr1, hj⟩
        · have hs := Except.ok.inj hs
          cases hs
          exact calm (h.work.tick _) (h.goes.tick _) rfl rfl rfl (by simp) (h.events.snoc trivial) ⟨hr1, hj⟩
  | pause f =>
    unfold stepLoop at hs
    dsimp only at hs
    split at hs
    · cases hs
    · have hs := Except.ok.inj hs
      cases hs
      exact calm h.work h.goes rfl rfl rfl (by simp) (h.events.snoc trivial) ⟨hr.1, hr.2.snoc trivial⟩
  | decide f =>
    unfold stepLoop at hs
    dsimp only at hs
    split at hs
    · cases hs
    · rename_i r c _
      obtain ⟨hr1, hr2⟩ := hr
      dsimp only at hr1 hr2 hdry hcp
      rcases ite_cases hs with ⟨hc, hs⟩ | ⟨hc, hs⟩
      · have hs := Except.ok.inj hs
        cases hs
        rw [hdry, hcp, hr1] at hc
        have hm : MaySubmit cfg (tr ++ [.chain r c]) o.st.latestSlot f.root :=
          ⟨by simpa using hc.1, tr, r, c, rfl, hr2, hc.2⟩
        refine calm h.work h.goes rfl rfl rfl (by simp) ?_ ⟨hr1, tr ++ [.chain r c], by simp [hr1], hm⟩
        have := (h.events.snoc (e := .chain r c) trivial).snoc (e := .submit f.slot f.root)
          (by rw [hr1]; exact hm)
        rw [List.append_assoc] at this
        exact this
      · have hs := Except.ok.inj hs
        cases hs
        rw [hdry, hcp, hr1] at hc
        refine calm h.work h.goes rfl rfl rfl (by simp) (h.events.snoc trivial)
          ⟨f.root, Or.inl ⟨tr, r, c, rfl, hr2, ?_⟩⟩
        cases hd : cfg.dryRun with
        | true => exact Or.inl rfl
        | false =>
          right
          intro e
          exact hc ⟨by rw [hd]; rfl, e⟩
  | submit f =>
    unfold stepLoop at hs
    dsimp only at hs
    obtain ⟨hr1, pre0, htr, hm⟩ := hr
    have key : ∀ {l2 evs}, (Except.ok ((⟨.confirm f, o, disk, lr⟩ : Loop), ([] : List LoopEv)) :
        M (Loop × List LoopEv)) = .ok (l2, evs) → LoopInv H E cfg l0 (tr ++ evs) l2 := by
      intro l2 evs hs
      have hs := Except.ok.inj hs
      cases hs
      exact calm h.work h.goes rfl rfl rfl (by simp) (by rw [List.append_nil]; exact h.events)
        ⟨hr1, pre0, [], by rw [List.append_nil, htr], hm, by intro e he; cases he⟩
    split at hs
    · cases hs
    · exact key hs
  | confirm f =>
    unfold stepLoop at hs
    dsimp only at hs
    split at hs
    · cases hs
    · rename_i r c _
      obtain ⟨hr1, pre0, mid, htr, hm, hmid⟩ := hr
      dsimp only at hr1
      rcases ite_cases hs with ⟨hc, hs⟩ | ⟨hc, hs⟩
      · have hs := Except.ok.inj hs
        cases hs
        refine calm h.work h.goes rfl rfl rfl (by simp) (h.events.snoc trivial)
          ⟨f.root, Or.inr ⟨pre0, mid, ?_, hm, hmid⟩⟩
        rw [htr, hc.1, hc.2, hr1]
      · have hs := Except.ok.inj hs
        cases hs
        refine calm h.work h.goes rfl rfl rfl (by simp) (h.events.snoc trivial)
          ⟨hr1, pre0, mid ++ [.chain r c], ?_, hm, ?_⟩
        · rw [htr]; simp
        · intro e he
          rcases List.mem_append.mp he with he | he
          · exact hmid e he
          · rw [List.mem_singleton] at he; subst he; trivial
  | save f =>
    unfold stepLoop saveToJson at hs
    dsimp only at hs
    have hs := Except.ok.inj hs
    cases hs
    exact calm (.saved (stateDigest L o.st) o.st.tick h.work) (.saved (stateDigest L o.st) o.st.tick h.goes)
      rfl rfl rfl (by simp) (h.events.snoc hr) trivial

theorem loopRun_inv {L : Lib} {H : List Nat → List Nat} {E : Env} (hE : ValidEnv E) {cfg : Config}
    (h0 : 0 < cfg.depSlot) (h1 : cfg.depSlot < 2 ^ 64) {l0 l : Loop} {tr : List LoopEv}
    (hw : Work H E (newOracle cfg) l0.o) (hpc : l0.pc = .top) (hr : LoopRun L H E l0 tr l) :
    LoopInv H E cfg l0 tr l := by
  induction hr with
  | nil => exact ⟨hw, .refl _, .nil, by rw [hpc]; trivial, rfl, rfl, by intro s r h; cases h⟩
  | step _ hA hs ih => exact stepLoop_inv hE h0 h1 ih hA hs

end Verif
