import Verif.Props.Requests
import Verif.Props.Determinism
/-
Property C77: oracles that are running agree.
-/
namespace Verif

theorem SameBooks.rfl' (o : Oracle) : SameBooks o o := ⟨rfl, rfl⟩

theorem SameBooks.symm {o o' : Oracle} (h : SameBooks o o') : SameBooks o' o := ⟨h.1.symm, h.2.symm⟩

theorem SameBooks.trans {o o' o'' : Oracle} (h : SameBooks o o') (h' : SameBooks o' o'') : SameBooks o o'' :=
  ⟨h.1.trans h'.1, h.2.trans h'.2⟩

theorem SameBooks.vals {o o' : Oracle} (h : SameBooks o o') : o.st.vals = o'.st.vals := by
  have := congrArg State.vals h.2; exact this

theorem SameBooks.next {o o' : Oracle} (h : SameBooks o o') : o.st.nextSlot = o'.st.nextSlot := by
  have := congrArg State.nextSlot h.2; exact this

theorem SameBooks.latest {o o' : Oracle} (h : SameBooks o o') : o.st.latestSlot = o'.st.latestSlot := by
  have := congrArg State.latestSlot h.2; exact this

theorem SameBooks.debts {o o' : Oracle} (h : SameBooks o o') : SameDebts o.st o'.st := by
  have h1 := h.vals
  have h2 : o.st.poolFees = o'.st.poolFees := by have := congrArg State.poolFees h.2; exact this
  have h3 : o.st.poolFeesAddr = o'.st.poolFeesAddr := by have := congrArg State.poolFeesAddr h.2; exact this
  refine ⟨by rw [h3], h2.symm, fun a => by unfold debtOf; rw [h1], fun a => by rw [h1]⟩

/-- what is fetched depends on the state only through its validators -/
theorem fetch_congr {T : Chain} {s s' : State} (h : s.vals = s'.vals) (slot : Nat) (all : Bool) :
    fetchFullBlock T s slot all = fetchFullBlock T s' slot all := by
  have : ∀ i, s.isSubscribed i = s'.isSubscribed i := by
    intro i; unfold State.isSubscribed; rw [h]
  unfold fetchFullBlock
  simp only [this]

/-- the states an oracle starting with the books of `o0` goes through, whatever it reads them with -/
inductive Course (T : Chain) (V : Nat → Nat → BVal) (K : Nat → List (Nat × Nat)) (o0 : Oracle) : Oracle → Prop
  | start : Course T V K o0 o0
  | slot {E o b o' n} : Course T V K o0 o → ValidEnv E → ExactEnv E → ReadsChain V K E →
      fetchFullBlock T o.st o.st.nextSlot false = .ok b → advanceState E o b = .ok (o', some n) →
      o.st.nextSlot + 1 < 2 ^ 64 → Course T V K o0 o'
  | same {o o'} : Course T V K o0 o → SameBooks o o' → Course T V K o0 o'

section
variable {T : Chain} {V : Nat → Nat → BVal} {K : Nat → List (Nat × Nat)} {o0 : Oracle}

theorem Course.trans {o1 o2 : Oracle} (h : Course T V K o0 o1) (h' : Course T V K o1 o2) :
    Course T V K o0 o2 := by
  induction h' with
  | start => exact h
  | slot _ h1 h2 h3 h4 h5 h6 ih => exact .slot ih h1 h2 h3 h4 h5 h6
  | same _ h1 ih => exact .same ih h1

theorem MapOK.of_same {o o' : Oracle} (h : MapOK o.st) (hs : SameBooks o o') : MapOK o'.st := by
  unfold MapOK at h ⊢; rw [← hs.vals]; exact h

theorem Course.back {o : Oracle} (h0 : MapOK o0.st) (hA : ∀ n, n % 1200 = 0 → ActiveTargets V K n)
    (h : Course T V K o0 o) : MapOK o.st ∧
    o0.st.nextSlot ≤ o.st.nextSlot ∧
    (SameBooks o0 o ∨ ∃ E p b o1 n, Course T V K o0 p ∧ MapOK p.st ∧ ValidEnv E ∧ ExactEnv E ∧
      ReadsChain V K E ∧ fetchFullBlock T p.st p.st.nextSlot false = .ok b ∧
      advanceState E p b = .ok (o1, some n) ∧ SameBooks o1 o ∧ o.st.nextSlot = p.st.nextSlot + 1 ∧
      o0.st.nextSlot ≤ p.st.nextSlot ∧ n = p.st.nextSlot) := by
  induction h with
  | start => exact ⟨h0, Nat.le_refl _, Or.inl (.rfl' _)⟩
  | @slot E o b o' n hc h1 h2 h3 h4 h5 h6 ih =>
    obtain ⟨e1, e2, _, e4⟩ := C20_exactly_next h5
    have e : o'.st.nextSlot = o.st.nextSlot + 1 := by
      rw [e4, e1]; exact Nat.mod_eq_of_lt h6
    have hm := (slot_same h1 h2 h3 h1 h2 h3 ih.1 (.rfl' _) (fun hn => (hA _ hn).tracked _) h5 h5).2.2
    exact ⟨hm, by omega, Or.inr ⟨E, o, b, o', n, hc, ih.1, h1, h2, h3, h4, h5, .rfl' _, e, ih.2.1, by rw [e2, e1]⟩⟩
  | @same o o' _ hs ih =>
    obtain ⟨h1, h2, h3⟩ := ih
    refine ⟨h1.of_same hs, by rw [← hs.next]; exact h2, ?_⟩
    rcases h3 with h3 | ⟨E, p, b, o1, n, k1, k2, k3, k4, k5, k6, k7, k8, k9, k10⟩
    · exact Or.inl (h3.trans hs)
    · exact Or.inr ⟨E, p, b, o1, n, k1, k2, k3, k4, k5, k6, k7, k8.trans hs, by rw [← hs.next]; exact k9, k10⟩

theorem Course.agree (h0 : MapOK o0.st) (hA : ∀ n, n % 1200 = 0 → ActiveTargets V K n) {o o' : Oracle}
    (h : Course T V K o0 o) (h' : Course T V K o0 o') (hn : o.st.nextSlot = o'.st.nextSlot) :
    SameBooks o o' := by
  obtain ⟨d, hd⟩ := Nat.le.dest (h.back h0 hA).2.1
  induction d generalizing o o' with
  | zero =>
    rcases (h.back h0 hA).2.2 with k | ⟨_, p, _, _, _, _, _, _, _, _, _, _, _, k, k', _⟩
    · rcases (h'.back h0 hA).2.2 with q | ⟨_, p, _, _, _, _, _, _, _, _, _, _, _, q, q', _⟩
      · exact k.symm.trans q
      · omega
    · omega
  | succ d ih =>
    rcases (h.back h0 hA).2.2 with k | ⟨E, p, b, o1, n, k1, k2, k3, k4, k5, k6, k7, k8, k9, _, _⟩
    · have := k.next; omega
    rcases (h'.back h0 hA).2.2 with q | ⟨E', p', b', o1', n', q1, q2, q3, q4, q5, q6, q7, q8, q9, _, _⟩
    · have := q.next; omega
    have hs := ih k1 q1 (by omega) (by omega)
    have e : p'.st.nextSlot = p.st.nextSlot := by omega
    rw [fetch_congr hs.vals, ← e, q6] at k6
    cases k6
    exact k8.symm.trans ((slot_same k3 k4 k5 q3 q4 q5 k2 hs (fun hn => (hA _ hn).tracked _) k7 q7).1.trans q8)

end

/-- what one step of the main loop does to the oracle -/
theorem step_kind {L : Lib} {H : List Nat → List Nat} {E : Env} (hE : ValidEnv E) {A : Answers} {l l2 : Loop}
    {evs : List LoopEv} (h : stepLoop L H E A l = .ok (l2, evs)) :
    (∃ b fin n, fetchFullBlock A.fetch l.o.st l.o.st.nextSlot false = .ok b ∧
      advanceState E l.o b = .ok (l2.o, some n) ∧ A.finalized = some fin ∧ l.o.st.nextSlot ≤ fin ∧
      evs = [.processed n fin]) ∨
    (SameBooks l.o l2.o ∧ ∀ s r, .frozen s r ∈ evs →
      ∃ u f, freeze H E { l.o.st with tick := l.o.st.tick + 1 } = .ok (u, true) ∧
        latestCommitted E u.tick u = some f ∧ s = f.slot ∧ r = f.root) := by
  obtain ⟨pc, o, disk, lr⟩ := l
  cases pc with
  | top =>
    unfold stepLoop stepTop at h
    dsimp only at h
    have stay : ∀ {l2 evs}, (Except.ok ((⟨.top, o, disk, lr⟩ : Loop), ([] : List LoopEv)) :
        M (Loop × List LoopEv)) = .ok (l2, evs) → SameBooks o l2.o ∧ evs = [] := by
      intro l2 evs h
      have h := Except.ok.inj h
      cases h
      exact ⟨.rfl' _, rfl⟩
    split at h
    · cases h
    · obtain ⟨h1, rfl⟩ := stay h
      exact Or.inr ⟨h1, by simp⟩
    · split at h
      · obtain ⟨h1, rfl⟩ := stay h
        exact Or.inr ⟨h1, by simp⟩
      · rename_i fin hfin
        split at h
        · rename_i hge
          simp only [bind_ok] at h
          obtain ⟨b, hb, ⟨o', r⟩, hadv, h⟩ := h
          dsimp only at h
          cases r with
          | none => cases h
          | some n =>
            have h := Except.ok.inj h
            cases h
            exact Or.inl ⟨b, fin, n, hb, hadv, hfin, hge, rfl⟩
        · simp only [bind_ok] at h
          obtain ⟨l', hid, h⟩ := h
          have h := Except.ok.inj h
          cases h
          refine Or.inr ⟨?_, by simp⟩
          unfold idle at hid
          dsimp only at hid
          split at hid
          · simp only [bind_ok] at hid
            obtain ⟨us, _, cl, _, hid⟩ := hid
            split at hid
            · split at hid
              · have hid := Except.ok.inj hid
                cases hid
                exact ⟨rfl, rfl⟩
              · cases hid
            · have hid := Except.ok.inj hid
              cases hid
              exact ⟨rfl, rfl⟩
          · have hid := Except.ok.inj hid
            cases hid
            exact ⟨rfl, rfl⟩
  | processed =>
    right
    unfold stepLoop stepProcessed at h
    dsimp only at h
    simp only [bind_ok] at h
    obtain ⟨_, _, cp, _, h⟩ := h
    split at h
    · cases h
    · have h := Except.ok.inj h
      cases h
      exact ⟨⟨rfl, rfl⟩, by simp⟩
    · simp only [bind_ok] at h
      obtain ⟨ok, _, h⟩ := h
      rcases ite_cases h with ⟨_, h⟩ | ⟨_, h⟩
      · cases h
      · simp only [bind_ok] at h
        obtain ⟨⟨s, en⟩, hfr, h⟩ := h
        dsimp only at h
        have hs : SameBooks o ⟨o.cfg, s⟩ := by
          rcases freeze_cases hE hfr with ⟨_, rfl⟩ | ⟨f, _, _, rfl⟩ <;> exact ⟨rfl, rfl⟩
        rcases ite_cases h with ⟨_, h⟩ | ⟨hen, h⟩
        · have h := Except.ok.inj h
          cases h
          exact ⟨hs, by simp⟩
        · simp only [Bool.not_eq_true', Bool.not_eq_false] at hen
          subst hen
          cases hl : latestCommitted E s.tick s with
          | none => rw [hl] at h; cases h
          | some f =>
            rw [hl] at h
            have h := Except.ok.inj h
            cases h
            refine ⟨hs.trans ⟨rfl, rfl⟩, ?_⟩
            intro s' r' h'
            simp only [List.mem_cons, reduceCtorEq, LoopEv.frozen.injEq, List.not_mem_nil, or_false,
              false_or] at h'
            exact ⟨s, f, hfr, hl, h'.1, h'.2⟩
  | vote f =>
    right
    unfold stepLoop at h
    dsimp only at h
    split at h
    · cases h
    · rcases ite_cases h with ⟨_, h⟩ | ⟨_, h⟩
      · cases h
      · rcases ite_cases h with ⟨_, h⟩ | ⟨_, h⟩ <;>
        · have h := Except.ok.inj h
          cases h
          exact ⟨⟨rfl, rfl⟩, by simp⟩
  | pause f =>
    right
    unfold stepLoop at h
    dsimp only at h
    split at h
    · cases h
    · have h := Except.ok.inj h
      cases h
      exact ⟨⟨rfl, rfl⟩, by simp⟩
  | decide f =>
    right
    unfold stepLoop at h
    dsimp only at h
    split at h
    · cases h
    · rcases ite_cases h with ⟨_, h⟩ | ⟨_, h⟩ <;>
      · have h := Except.ok.inj h
        cases h
        exact ⟨⟨rfl, rfl⟩, by simp⟩
  | submit f =>
    right
    unfold stepLoop at h
    dsimp only at h
    split at h
    · cases h
    · have h := Except.ok.inj h
      cases h
      exact ⟨⟨rfl, rfl⟩, by simp⟩
  | confirm f =>
    right
    unfold stepLoop at h
    dsimp only at h
    split at h
    · cases h
    · rcases ite_cases h with ⟨_, h⟩ | ⟨_, h⟩ <;>
      · have h := Except.ok.inj h
        cases h
        exact ⟨⟨rfl, rfl⟩, by simp⟩
  | save f =>
    right
    unfold stepLoop saveToJson at h
    dsimp only at h
    have h := Except.ok.inj h
    cases h
    exact ⟨⟨rfl, rfl⟩, by simp⟩

theorem LiveRun.loopRun {T : Chain} {L : Lib} {H : List Nat → List Nat} {E : Env} {l l' : Loop}
    {tr : List LoopEv} (h : LiveRun T L H E l tr l') : LoopRun L H E l tr l' := by
  induction h with
  | nil => exact .nil
  | step _ h1 _ h3 ih => exact .step ih h1 h3

theorem LiveRun.course {T : Chain} {V : Nat → Nat → BVal} {K : Nat → List (Nat × Nat)} {L : Lib}
    {H : List Nat → List Nat} {E : Env} (hE : ValidEnv E) (hX : ExactEnv E) (hR : ReadsChain V K E)
    {l l' : Loop} {tr : List LoopEv} (h : LiveRun T L H E l tr l') : Course T V K l.o l'.o := by
  induction h with
  | nil => exact .start
  | step _ h1 h2 h3 ih =>
    rcases step_kind hE h3 with ⟨b, fin, n, k1, k2, k3, k4, _⟩ | ⟨k1, _⟩
    · have := h1 fin k3
      exact .slot ih hE hX hR (C76_same_block_partial h2 k1) k2 (by omega)
    · exact .same ih k1

section
variable {T : Chain} {V : Nat → Nat → BVal} {K : Nat → List (Nat × Nat)} {L L' : Lib}
  {H : List Nat → List Nat} {E E' : Env}

/-- **C77** (partial). Two running oracles, each with its own nodes, failures, delays, votes, saves and
iteration orders, over the same chain: whenever both are at the same slot they have the same books. The
second one may have started later, from the books the first one had at some moment (`lm`). Missing: that no
error text contains a stray "404" (in `HonestNetwork`) and that validators that left are not consolidated
into validators that left; without these the claim is false, see `C77_false_lost_connection` and
`C09_false_consolidation_chain`. -/
theorem C77_same_books_partial (hE : ValidEnv E) (hX : ExactEnv E) (hR : ReadsChain V K E)
    (hE' : ValidEnv E') (hX' : ExactEnv E') (hR' : ReadsChain V K E')
    (hA : ∀ n, n % 1200 = 0 → ActiveTargets V K n)
    {l0 lm l l0' l' : Loop} {trm tr tr' : List LoopEv} (h0 : MapOK l0.o.st)
    (hm : LiveRun T L H E l0 trm lm) (hs : SameBooks lm.o l0'.o)
    (h : LiveRun T L H E l0 tr l) (h' : LiveRun T L' H E' l0' tr' l')
    (hn : l.o.st.nextSlot = l'.o.st.nextSlot) : SameBooks l.o l'.o :=
  Course.agree h0 hA (h.course hE hX hR)
    (((hm.course hE hX hR).same hs).trans (h'.course hE' hX' hR')) hn

/-- a root frozen in a run is the root of the books at that slot -/
theorem LiveRun.frozen {cfg : Config} (h0 : 0 < cfg.depSlot) (h1 : cfg.depSlot < 2 ^ 64)
    (hE : ValidEnv E) (hX : ExactEnv E) (hR : ReadsChain V K E) {l l' : Loop} {tr : List LoopEv}
    (hw : Work H E (newOracle cfg) l.o) (hpc : l.pc = .top) (h : LiveRun T L H E l tr l') {s : Nat} {r : Str}
    (hf : .frozen s r ∈ tr) : ∃ p : Oracle, ∃ u f, Course T V K l.o p ∧ Work H E (newOracle cfg) p ∧
      p.st.latestSlot = s ∧ p.st.nextSlot = s + 1 ∧ freeze H E p.st = .ok (u, true) ∧
      (s, f) ∈ u.committed ∧ f.root = r := by
  induction h with
  | nil => cases hf
  | @step tr l1 l2 A evs hrun hfin hnet hstep ih =>
    rcases List.mem_append.mp hf with hf | hf
    · exact ih hf
    · have hinv := loopRun_inv hE h0 h1 hw hpc hrun.loopRun
      rcases step_kind hE hstep with ⟨b, fin, n, _, _, _, _, rfl⟩ | ⟨k1, k2⟩
      · simp at hf
      · obtain ⟨u, f, hfr, hl, rfl, rfl⟩ := k2 s r hf
        have hw' := hinv.work.tick (l1.o.st.tick + 1)
        have hi := (work_inv hE hw' (work_start h0 h1)).1
        refine ⟨⟨l1.o.cfg, { l1.o.st with tick := l1.o.st.tick + 1 }⟩, u, f,
          (hrun.course hE hX hR).same ⟨rfl, rfl⟩, hw', ?_⟩
        rcases freeze_cases hE hfr with ⟨h, _⟩ | ⟨f', hF, _, hs'⟩
        · cases h
        · have hmem : (l1.o.st.latestSlot, f') ∈ u.committed := by
            rw [hs']; dsimp only; rw [putFrozen_mem hi.keys]; exact Or.inl rfl
          have hi' := (hi.freeze hE hfr).1
          have e1 : u.latestSlot = l1.o.st.latestSlot := by rw [hs']
          have := (latestCommitted_spec hE u.tick hi'.keys hmem (fun p hp => by
            have := (hi'.entry p hp).2.1
            rw [e1] at this
            exact this)).2
          rw [this] at hl
          cases hl
          have e2 : f.slot = l1.o.st.latestSlot := (hi'.entry _ hmem).1
          refine ⟨e2.symm, ?_, hfr, by rw [e2]; exact hmem, rfl⟩
          rw [e2]; exact hi.next

/-- **C77** (partial). And if both freeze a checkpoint for the same slot, they have the same root, so their
votes agree. Missing: the same as in `C77_same_books_partial`. -/
theorem C77_same_roots_partial {cfg cfg' : Config} (hd : 0 < cfg.depSlot) (hd1 : cfg.depSlot < 2 ^ 64)
    (hd' : 0 < cfg'.depSlot) (hd1' : cfg'.depSlot < 2 ^ 64)
    (hE : ValidEnv E) (hX : ExactEnv E) (hR : ReadsChain V K E)
    (hE' : ValidEnv E') (hX' : ExactEnv E') (hR' : ReadsChain V K E')
    (hA : ∀ n, n % 1200 = 0 → ActiveTargets V K n)
    {l0 lm l l0' l' : Loop} {trm tr tr' : List LoopEv} (h0 : MapOK l0.o.st)
    (hw : Work H E (newOracle cfg) l0.o) (hpc : l0.pc = .top)
    (hw' : Work H E' (newOracle cfg') l0'.o) (hpc' : l0'.pc = .top)
    (hm : LiveRun T L H E l0 trm lm) (hs : SameBooks lm.o l0'.o)
    (h : LiveRun T L H E l0 tr l) (h' : LiveRun T L' H E' l0' tr' l') {s : Nat} {r r' : Str}
    (hf : .frozen s r ∈ tr) (hf' : .frozen s r' ∈ tr') : r = r' := by
  obtain ⟨p, u, f, c, w, a1, a2, a3, a4, rfl⟩ := h.frozen hd hd1 hE hX hR hw hpc hf
  obtain ⟨p', u', f', c', w', b1, b2, b3, b4, rfl⟩ := h'.frozen hd' hd1' hE' hX' hR' hw' hpc' hf'
  have hsame := Course.agree h0 hA c (((hm.course hE hX hR).same hs).trans c') (by rw [a2, b2])
  have k := (work_inv hE w (work_start hd hd1)).1.keys
  have k' := (work_inv hE' w' (work_start hd' hd1')).1.keys
  exact (C29_same_debts_same_root hE hE' k k' hsame.debts a3 b3 (by rw [a1]; exact a4) (by rw [b1]; exact b4)).1.symm

end

namespace Sample

theorem live_of {T : Chain} {L H E} : ∀ {as l l' tr},
    (∀ A ∈ as, (∀ fin, A.finalized = some fin → fin + 1 < 2 ^ 64) ∧ ∀ slot, HonestNetwork T A.fetch slot) →
    runLoop L H E as l = .ok (l', tr) → LiveRun T L H E l tr l' := by
  have cons : ∀ {l l1 evs tr l2} {A : Answers}, (∀ fin, A.finalized = some fin → fin + 1 < 2 ^ 64) →
      (∀ slot, HonestNetwork T A.fetch slot) → stepLoop L H E A l = .ok (l1, evs) →
      LiveRun T L H E l1 tr l2 → LiveRun T L H E l (evs ++ tr) l2 := by
    intro l l1 evs tr l2 A hA hN h hr
    induction hr with
    | nil => simpa using LiveRun.step (.nil (l := l)) hA (hN _) h
    | step _ hA' hN' hs ih => rw [← List.append_assoc]; exact .step ih hA' hN' hs
  intro as
  induction as with
  | nil =>
    intro l l' tr _ h
    have h := Except.ok.inj h
    cases h
    exact .nil
  | cons A as ih =>
    intro l l' tr hA h
    unfold runLoop at h
    simp only [bind_ok] at h
    obtain ⟨⟨l1, evs⟩, h1, ⟨l2, tr'⟩, h2, h⟩ := h
    have h := Except.ok.inj h
    cases h
    exact cons (hA A (by simp)).1 (hA A (by simp)).2 h1 (ih (fun A hm => hA A (by simp [hm])) h2)

theorem chain_network (slot : Nat) : HonestNetwork chain chain slot :=
  ⟨0, wire 12000000, wire_truthful _, wire_noStray (by decide +kernel) _, wire_ok (by decide +kernel)⟩

theorem answers_network {r : Str} {c : Nat} {n : Nat} : ∀ A ∈ List.replicate n (answers r c),
    (∀ fin, A.finalized = some fin → fin + 1 < 2 ^ 64) ∧ ∀ slot, HonestNetwork chain A.fetch slot := by
  intro A hA
  have := (List.mem_replicate.mp hA).2
  subst this
  refine ⟨?_, chain_network⟩
  intro fin h
  simp only [answers, Option.some.injEq] at h
  omega

/-- the chain `env` and `envRev` read -/
def sampleV (_ i : Nat) : BVal := if i = 9 then { bval 9 with status := .exitedUnslashed } else bval i

theorem reads_of {F : Env} (h1 : F.node = env.node) (h2 : F.consol = env.consol) :
    ReadsChain sampleV (fun _ => [(9, 1)]) F := by
  constructor
  · intro t slot req r h v hv
    rw [h1] at h
    rw [env_node h] at hv
    obtain ⟨i, hi, rfl⟩ := List.mem_map.mp hv
    unfold sampleV
    rw [index_if]
  · intro t slot cs h
    rw [h2] at h
    simp only [env, Option.some.injEq] at h
    exact h.symm

end Sample

/-- Two oracles with different iteration orders, different views of the contract and different pace process
two slots; both freeze a checkpoint at the first slot. Connections break at the first attempts. -/
example : ∃ l l' tr tr' r r', LiveRun Sample.chain (Toy.lib Sample.hash) Sample.hash Sample.env Sample.start tr l ∧
    LiveRun Sample.chain (Toy.lib Sample.hash) Sample.hash Sample.envRev Sample.start tr' l' ∧ tr ≠ tr' ∧
    .frozen 12000000 r ∈ tr ∧ .frozen 12000000 r' ∈ tr' ∧
    l.o.st.nextSlot = 12000002 ∧ SameBooks l.o l'.o ∧ r = r' := by
  obtain ⟨⟨l, tr⟩, h1, h2⟩ := Sample.ex_ok (x := Sample.runLoop (Toy.lib Sample.hash) Sample.hash Sample.env
      (List.replicate 7 (Sample.answers [] 11999950)) Sample.start)
    (P := fun p => decide (p.1.o.st.nextSlot = 12000002) && p.2.any (Sample.frozenAt 12000000) &&
      decide (.chain [] 11999950 ∈ p.2)) (by decide +kernel)
  obtain ⟨⟨l', tr'⟩, h1', h2'⟩ := Sample.ex_ok (x := Sample.runLoop (Toy.lib Sample.hash) Sample.hash Sample.envRev
      (List.replicate 7 (Sample.answers [] 11999940)) Sample.start)
    (P := fun p => decide (p.1.o.st.nextSlot = 12000002) && p.2.any (Sample.frozenAt 12000000) &&
      decide (.chain [] 11999950 ∉ p.2)) (by decide +kernel)
  simp only [Bool.and_eq_true, decide_eq_true_eq, List.any_eq_true] at h2 h2'
  obtain ⟨⟨hn, e, he, he'⟩, hc⟩ := h2
  obtain ⟨⟨hn', q, hq, hq'⟩, hc'⟩ := h2'
  have hr := Sample.live_of Sample.answers_network h1
  have hr' := Sample.live_of Sample.answers_network h1'
  cases e with
  | frozen k r =>
    simp only [Sample.frozenAt, beq_iff_eq] at he'
    subst he'
    cases q with
    | frozen k r' =>
      simp only [Sample.frozenAt, beq_iff_eq] at hq'
      subst hq'
      have hA : ∀ n, n % 1200 = 0 → ActiveTargets Sample.sampleV (fun _ => [(9, 1)]) n := by
        intro n _ p hp _
        simp only [List.mem_singleton] at hp
        subst hp; rfl
      have h0 : MapOK Sample.start.o.st := by unfold MapOK; exact List.Pairwise.nil
      refine ⟨l, l', tr, tr', r, r', hr, hr', ?_, he, hq, hn, ?_, ?_⟩
      · rintro rfl; exact hc' hc
      · exact C77_same_books_partial Sample.env_valid Sample.env_exact (Sample.reads_of rfl rfl)
          Sample.envRev_valid Sample.env_exact (Sample.reads_of rfl rfl) hA h0 (.nil) (.rfl' _) hr hr'
          (hn.trans hn'.symm)
      · exact C77_same_roots_partial (cfg := Sample.cfg) (cfg' := Sample.cfg) (by decide) (by decide) (by decide)
          (by decide) Sample.env_valid Sample.env_exact (Sample.reads_of rfl rfl)
          Sample.envRev_valid Sample.env_exact (Sample.reads_of rfl rfl) hA h0 (.refl _) rfl (.refl _) rfl
          (.nil) (.rfl' _) hr hr' he hq
    | _ => cases hq'
  | _ => cases he'

namespace Sample

/-- an oracle that starts at slot 12000404 -/
def start404 : Loop := ⟨.top, newOracle { cfg with depSlot := 12000404 }, [], 0⟩

/-- the answers of `answers`, with that block fetched over `C` -/
def answers404 (C : Chain) : Answers := { answers [] 11999900 with fetch := C, finalized := some 12000500 }

end Sample

/-- **C77 is false** without the condition on error texts: two oracles process slot 12000404, in which there
is a block with a payment to the pool. Every request of both is answered truthfully at the second attempt
at the latest. One connection of the second oracle breaks while it asks for the block. From then on the two
have different books: the second has not seen the payment nor the new subscribers. -/
theorem C77_false_lost_connection :
    ∃ l l' W, Truthful W Sample.chain ∧ Heard 0 W (Sample.heardAs 12000404 none) ∧
      stepLoop (Toy.lib Sample.hash) Sample.hash Sample.env (Sample.answers404 Sample.chain) Sample.start404 =
        .ok (l, [.processed 12000404 12000500]) ∧
      stepLoop (Toy.lib Sample.hash) Sample.hash Sample.env
        (Sample.answers404 (Sample.heardAs 12000404 none)) Sample.start404 =
          .ok (l', [.processed 12000404 12000500]) ∧
      l.o.st.vals.length = 2 ∧ l'.o.st.vals = [] ∧ ¬ SameBooks l.o l'.o := by
  obtain ⟨⟨l, tr⟩, h, hm⟩ := Sample.ex_ok
    (x := stepLoop (Toy.lib Sample.hash) Sample.hash Sample.env (Sample.answers404 Sample.chain) Sample.start404)
    (P := fun p => decide (p.2 = [.processed 12000404 12000500] ∧ p.1.o.st.vals.length = 2)) (by decide +kernel)
  obtain ⟨⟨l', tr'⟩, h', hm'⟩ := Sample.ex_ok
    (x := stepLoop (Toy.lib Sample.hash) Sample.hash Sample.env
        (Sample.answers404 (Sample.heardAs 12000404 none)) Sample.start404)
    (P := fun p => decide (p.2 = [.processed 12000404 12000500] ∧ p.1.o.st.vals.length = 0)) (by decide +kernel)
  simp only [decide_eq_true_eq] at hm hm'
  obtain ⟨rfl, hm⟩ := hm
  obtain ⟨rfl, hm'⟩ := hm'
  refine ⟨l, l', Sample.wire 12000404, C76_false_lost_connection.1, C76_false_lost_connection.2.1, h, h', hm,
    List.length_eq_zero_iff.mp hm', ?_⟩
  intro e
  rw [e.vals, hm'] at hm
  cases hm

end Verif
