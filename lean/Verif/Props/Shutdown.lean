import Verif.Model.Shutdown
import Verif.Props.Persist
import Verif.Props.Slots
import Verif.Spec.Money
/-
C52: what the shutdown handler saves.
-/
namespace Verif

section
variable {L : Lib} {H : List Nat → List Nat} {E : Env}

theorem Work.hashed {o0 o : Oracle} (h : Work H E o0 o) (L : Lib) :
    Work H E o0 ⟨o.cfg, hashState L o.st⟩ := .saved (stateDigest L o.st) o.st.tick h

structure ProcInv (L : Lib) (H : List Nat → List Nat) (E : Env) (o0 : Oracle) (p : Proc) : Prop where
  holds : ∀ j o, p.main = .inside j o → p.holder = some .main
  main : p.holder = some .main → ∃ j o, p.main = .inside j o
  began : ∀ j o, p.main = .inside j o → Work H E o0 o
  shut : p.shut = .inside ↔ p.holder = some .shut
  mem : (∀ j o, p.main ≠ .inside j o) → p.main ≠ .failed → Work H E o0 p.mem
  saved : ∀ bytes, (p.shut = .toWrite bytes ∨ p.shut = .opened bytes) → p.main ≠ .failed →
    ∃ o, Work H E o0 o ∧ bytes = savedBytes L o.st

theorem procInv_start (o : Oracle) (file : List Nat) : ProcInv L H E o (.start o file) where
  holds := by simp [Proc.start]
  main := by simp [Proc.start]
  began := by simp [Proc.start]
  shut := by simp [Proc.start]
  mem _ _ := .refl _
  saved := by simp [Proc.start]

theorem procInv_step {o0 p q} (hi : ProcInv L H E o0 p) (h : PStep L H E p q) : ProcInv L H E o0 q := by
  obtain ⟨i1, i2, i3, i4, i5, i6⟩ := hi
  cases h with
  | call j hs hm =>
    exact ⟨by simp, fun h => (by obtain ⟨j, o, k⟩ := i2 h; rw [hm] at k; cases k), by simp, i4,
      fun _ _ => i5 (by simp [hm]) (by simp [hm]), fun b hb _ => i6 b hb (by simp [hm])⟩
  | reads t hs hm =>
    exact ⟨by simp [hm], fun h => (by obtain ⟨j, o, k⟩ := i2 h; rw [hm] at k; cases k), by simp [hm], i4,
      fun _ _ => .saved p.mem.st.stateHash t (i5 (by simp [hm]) (by simp [hm])), i6⟩
  | @lock j hs hm hh =>
    refine ⟨by simp, fun _ => ⟨j, p.mem, rfl⟩, ?_, ?_, ?_, fun b hb _ => i6 b hb (by simp [hm])⟩
    · intro j' o' h
      simp only [MainPc.inside.injEq] at h
      rw [← h.2]
      exact i5 (by simp [hm]) (by simp [hm])
    · rw [hh] at i4; simpa using i4
    · exact fun h => absurd rfl (h j p.mem)
  | work x hs hm => exact ⟨i1, i2, i3, i4, fun h => absurd hm (h _ _), i6⟩
  | slot hs hm ha hb =>
    have hw := Work.slot (i3 _ _ hm) ha hb
    refine ⟨by simp, by simp, by simp, ?_, fun _ _ => hw, fun b hb _ => i6 b hb (by simp [hm])⟩
    have := i1 _ _ hm
    rw [this] at i4; simpa using i4
  | slotError hs hm ha =>
    refine ⟨by simp, by simp, by simp, ?_, by simp, by simp⟩
    have := i1 _ _ hm
    rw [this] at i4; simpa using i4
  | slotPanic x hs hm ha =>
    refine ⟨by simp, by simp, by simp, ?_, by simp, by simp⟩
    have := i1 _ _ hm
    rw [this] at i4; simpa using i4
  | freeze hs hm ha =>
    have hw := Work.freeze (i3 _ _ hm) ha
    refine ⟨by simp, by simp, by simp, ?_, fun _ _ => hw, fun b hb _ => i6 b hb (by simp [hm])⟩
    have := i1 _ _ hm
    rw [this] at i4; simpa using i4
  | save hs hm =>
    have hw := (i3 _ _ hm).hashed L
    refine ⟨by simp, by simp, by simp, ?_, fun _ _ => hw, fun b hb _ => i6 b hb (by simp [hm])⟩
    have := i1 _ _ hm
    rw [this] at i4; simpa using i4
  | openFile hs hm =>
    exact ⟨by simp, fun h => (by obtain ⟨j, o, k⟩ := i2 h; rw [hm] at k; cases k), by simp, i4,
      fun _ _ => i5 (by simp [hm]) (by simp [hm]), fun b hb _ => i6 b hb (by simp [hm])⟩
  | write hs hm =>
    exact ⟨by simp, fun h => (by obtain ⟨j, o, k⟩ := i2 h; rw [hm] at k; cases k), by simp, i4,
      fun _ _ => i5 (by simp [hm]) (by simp [hm]), fun b hb _ => i6 b hb (by simp [hm])⟩
  | signal hs =>
    refine ⟨i1, i2, i3, ?_, i5, by simp⟩
    rw [hs] at i4; simpa using i4
  | shutLock hs hh =>
    refine ⟨fun j o h => ?_, by simp, i3, by simp, i5, by simp⟩
    rw [i1 j o h] at hh; cases hh
  | marshal hs =>
    have hh := i4.mp hs
    have hin : ∀ j o, p.main ≠ .inside j o := fun j o h => by rw [i1 j o h] at hh; cases hh
    refine ⟨fun j o h => absurd h (hin j o), by simp, i3, by simp, fun _ hf => (i5 hin hf).hashed L, ?_⟩
    intro b hb hf
    simp only [ShutPc.toWrite.injEq, reduceCtorEq, or_false] at hb
    exact ⟨p.mem, i5 hin hf, hb.symm⟩
  | @shutOpen bytes hs =>
    refine ⟨i1, i2, i3, ?_, i5, ?_⟩
    · rw [hs] at i4; simpa using i4
    · intro b hb hf
      simp only [ShutPc.opened.injEq, reduceCtorEq, false_or] at hb
      exact i6 b (Or.inl (by rw [hs, hb])) hf
  | shutWrite hs =>
    refine ⟨i1, i2, i3, ?_, i5, by simp⟩
    rw [hs] at i4; simpa using i4
  | exit hs =>
    refine ⟨i1, i2, i3, ?_, i5, by simp⟩
    rw [hs] at i4; simpa using i4
  | apiLock hs hh =>
    refine ⟨fun j o h => ?_, by simp, i3, ?_, i5, i6⟩
    · rw [i1 j o h] at hh; cases hh
    · rw [hh] at i4; simpa using i4
  | apiHash hs hh =>
    have hin : ∀ j o, p.main ≠ .inside j o := fun j o h => by rw [i1 j o h] at hh; cases hh
    refine ⟨fun j o h => absurd h (hin j o), by simp, i3, ?_, fun _ hf => (i5 hin hf).hashed L, i6⟩
    rw [hh] at i4; simpa using i4

theorem procInv_run {P : Proc → Prop} {o0 p q} (h : PRun L H E P p q) (hi : ProcInv L H E o0 p) :
    ProcInv L H E o0 q := by
  induction h with
  | refl => exact hi
  | step _ hs _ ih => exact procInv_step ih hs

/-- **C52, partial.** Whatever the main loop is doing when the signal arrives, and however its steps (even
in the middle of a slot, when the memory may be anything), those of the shutdown handler and those of
`GET /state` follow each other: what the shutdown handler writes is the saved form of the state after a
whole number of processed slots.

What is missing for the full claim: the main loop must not have failed, see `C52_false_half`. -/
theorem C52_whole_slots_partial {o0 : Oracle} {file : List Nat} {p : Proc} {bytes : List Nat}
    (h : PRun L H E (fun p => p.main ≠ .failed) (.start o0 file) p)
    (hs : p.shut = .toWrite bytes ∨ p.shut = .opened bytes) :
    ∃ o, Work H E o0 o ∧ bytes = savedBytes L o.st := by
  have hf : p.main ≠ .failed := by cases h with | refl k => exact k | step _ _ k => exact k
  exact (procInv_run h (procInv_start o0 file)).saved bytes hs hf

/-- The main loop is not writing files. -/
def NotWriting (p : Proc) : Prop := ∀ bytes, p.main ≠ .toWrite bytes ∧ p.main ≠ .opened bytes

/-- **C52, partial.** And that is what the file contains when the process has ended, if the main loop does not
write files from the moment on at which the shutdown handler has the bytes (it may process any number of
slots meanwhile). What is missing: see `C52_false_empty_file`. -/
theorem C52_file_partial {o0 : Oracle} {file : List Nat} {p q : Proc} {bytes : List Nat}
    (h : PRun L H E (fun p => p.main ≠ .failed) (.start o0 file) p) (hs : p.shut = .toWrite bytes)
    (h' : PRun L H E NotWriting p q) (he : q.shut = .ended) :
    ∃ o, Work H E o0 o ∧ q.file = savedBytes L o.st := by
  obtain ⟨o, h1, h2⟩ := C52_whole_slots_partial h (Or.inl hs)
  refine ⟨o, h1, ?_⟩
  rw [← h2]
  have key : ∀ {q}, PRun L H E NotWriting p q →
      q.shut = .toWrite bytes ∨ (q.shut = .opened bytes ∧ q.file = []) ∨
      ((q.shut = .written ∨ q.shut = .ended) ∧ q.file = bytes) := by
    intro q hq
    induction hq with
    | refl => exact Or.inl hs
    | @step q r hq hst hr ih =>
      have hnw : NotWriting q := by cases hq with | refl k => exact k | step _ _ k => exact k
      cases hst with
      | openFile _ hm => exact absurd hm (hnw _).1
      | write _ hm => exact absurd hm (hnw _).2
      | signal hs => rw [hs] at ih; simp at ih
      | shutLock hs => rw [hs] at ih; simp at ih
      | marshal hs => rw [hs] at ih; simp at ih
      | shutOpen hs =>
        rw [hs] at ih
        simp only [ShutPc.toWrite.injEq, reduceCtorEq, false_and, or_self, or_false] at ih
        exact Or.inr (Or.inl ⟨by rw [ih], rfl⟩)
      | shutWrite hs =>
        rw [hs] at ih
        simp only [ShutPc.opened.injEq, reduceCtorEq, false_and, or_self, or_false, false_or] at ih
        obtain ⟨rfl, ih⟩ := ih
        refine Or.inr (Or.inr ⟨Or.inl rfl, ?_⟩)
        dsimp only
        rw [ih]
        simp [overwrite]
      | exit hs =>
        rw [hs] at ih
        simp only [reduceCtorEq, false_and, or_false, false_or, true_and] at ih
        exact Or.inr (Or.inr ⟨Or.inr rfl, ih⟩)
      | _ => exact ih
  rcases key h' with h3 | ⟨h3, _⟩ | ⟨_, h3⟩
  · rw [he] at h3; cases h3
  · rw [he] at h3; cases h3
  · exact h3

/-- the saved form of the state after a whole number of slots -/
def SavedForm (L : Lib) (H : List Nat → List Nat) (E : Env) (o0 : Oracle) (bytes : List Nat) : Prop :=
  ∃ o, Work H E o0 o ∧ bytes = savedBytes L o.st

structure FileInv (L : Lib) (H : List Nat → List Nat) (E : Env) (o0 : Oracle) (file : List Nat) (p : Proc) : Prop where
  bytes : ∀ b, p.main = .toWrite b ∨ p.main = .opened b → SavedForm L H E o0 b
  both : ∀ b b', p.main = .opened b → p.shut = .opened b' → p.file = []
  main : ∀ b, p.main = .opened b → p.file = [] ∨ SavedForm L H E o0 p.file
  shut : ∀ b, p.shut = .opened b → p.file = [] ∨ SavedForm L H E o0 p.file
  file : p.file = file ∨ p.file = [] ∨ SavedForm L H E o0 p.file ∨
    ∃ a b, SavedForm L H E o0 a ∧ SavedForm L H E o0 b ∧ p.file = a ++ b.drop a.length

theorem overwrite_nil (b : List Nat) : overwrite b [] = b := by simp [overwrite]

theorem fileInv_step {o0 file p q} (hp : ProcInv L H E o0 p) (hf : p.main ≠ .failed)
    (hi : FileInv L H E o0 file p) (h : PStep L H E p q) : FileInv L H E o0 file q := by
  obtain ⟨i1, i2, i3, i4, i5⟩ := hi
  cases h with
  | call j hs hm => exact ⟨by simp, by simp, by simp, i4, i5⟩
  | reads t hs hm => exact ⟨i1, i2, i3, i4, i5⟩
  | lock hs hm hh => exact ⟨by simp, by simp, by simp, i4, i5⟩
  | work x hs hm => exact ⟨i1, i2, i3, i4, i5⟩
  | slot hs hm ha hb => exact ⟨by simp, by simp, by simp, i4, i5⟩
  | slotError hs hm ha => exact ⟨by simp, by simp, by simp, i4, i5⟩
  | slotPanic x hs hm ha => exact ⟨by simp, by simp, by simp, i4, i5⟩
  | freeze hs hm ha => exact ⟨by simp, by simp, by simp, i4, i5⟩
  | @save o hs hm =>
    refine ⟨fun b hb => ?_, by simp, by simp, i4, i5⟩
    simp only [MainPc.toWrite.injEq, reduceCtorEq, or_false] at hb
    exact ⟨o, hp.began _ _ hm, hb.symm⟩
  | @openFile b hs hm =>
    refine ⟨fun b' hb => ?_, by simp, by simp, by simp, by simp⟩
    simp only [MainPc.opened.injEq, reduceCtorEq, false_or] at hb
    exact i1 b' (Or.inl (by rw [hm, hb]))
  | @write b hs hm =>
    have hb := i1 b (Or.inr hm)
    refine ⟨by simp, by simp, by simp, fun b' hb' => ?_, ?_⟩
    · dsimp only at hb' ⊢
      rw [i2 b b' hm hb', overwrite_nil]
      exact Or.inr hb
    · dsimp only
      rcases i3 b hm with e | e
      · rw [e, overwrite_nil]; exact Or.inr (Or.inr (Or.inl hb))
      · exact Or.inr (Or.inr (Or.inr ⟨b, p.file, hb, e, rfl⟩))
  | signal hs => exact ⟨i1, by simp, i3, by simp, i5⟩
  | shutLock hs hh => exact ⟨i1, by simp, i3, by simp, i5⟩
  | marshal hs => exact ⟨i1, by simp, i3, by simp, i5⟩
  | shutOpen hs => exact ⟨i1, by simp, by simp, by simp, by simp⟩
  | @shutWrite b hs =>
    have hb : SavedForm L H E o0 b := hp.saved b (Or.inr hs) hf
    refine ⟨i1, by simp, fun b' hb' => ?_, by simp, ?_⟩
    · dsimp only at hb' ⊢
      rw [i2 b' b hb' hs, overwrite_nil]
      exact Or.inr hb
    · dsimp only
      rcases i4 b hs with e | e
      · rw [e, overwrite_nil]; exact Or.inr (Or.inr (Or.inl hb))
      · exact Or.inr (Or.inr (Or.inr ⟨b, p.file, hb, e, rfl⟩))
  | exit hs => exact ⟨i1, by simp, i3, by simp, i5⟩
  | apiLock hs hh => exact ⟨i1, i2, i3, i4, i5⟩
  | apiHash hs hh => exact ⟨i1, i2, i3, i4, i5⟩

/-- **C52, partial.** All the file can ever contain, whatever the threads do, as long as no slot has failed: what it
contained at the start, nothing, the saved form of the state after a whole number of slots, or, if both threads
write at once, one saved form with the rest of a longer one behind it. What is missing: only the third is what the
claim wants; `C52_file_partial` says when, `C52_false_empty_file` shows the second. -/
theorem C52_file_content_partial {o0 : Oracle} {file : List Nat} {p : Proc}
    (h : PRun L H E (fun p => p.main ≠ .failed) (.start o0 file) p) :
    p.file = file ∨ p.file = [] ∨ SavedForm L H E o0 p.file ∨
      ∃ a b, SavedForm L H E o0 a ∧ SavedForm L H E o0 b ∧ p.file = a ++ b.drop a.length := by
  have key : FileInv L H E o0 file p := by
    induction h with
    | refl => exact ⟨by simp [Proc.start], by simp [Proc.start], by simp [Proc.start], by simp [Proc.start], Or.inl rfl⟩
    | @step q r hq hs _ ih =>
      have hf : q.main ≠ .failed := by cases hq with | refl k => exact k | step _ _ k => exact k
      exact fileInv_step (procInv_run hq (procInv_start o0 file)) hf ih hs
  exact key.file

/-! ### What is not true -/

/-- The claim C52 fails when the signal arrives while the main loop is writing the files of a checkpoint: from any state
the oracle can be in, there is a run without any error in which the process ends with an empty file
(which is refused at the next start, `C34_false_torn_write`). -/
theorem C52_false_empty_file (o0 : Oracle) (file : List Nat) :
    ∃ p, PRun L H E (fun p => p.main ≠ .failed) (.start o0 file) p ∧ p.shut = .ended ∧ p.file = [] := by
  let o1 : Oracle := ⟨o0.cfg, hashState L o0.st⟩
  let o2 : Oracle := ⟨o0.cfg, hashState L o1.st⟩
  let B := savedBytes L o0.st
  let B' := savedBytes L o1.st
  have h0 : PRun L H E (fun p => p.main ≠ .failed) (.start o0 file) (.start o0 file) := .refl (by simp [Proc.start])
  have h1 : PRun L H E (fun p => p.main ≠ .failed) (.start o0 file) ⟨o0, none, .wait .save, .idle, file⟩ :=
    .step h0 (.call .save (by simp [Proc.start]) rfl) (by simp)
  have h2 : PRun L H E (fun p => p.main ≠ .failed) (.start o0 file)
      ⟨o0, some .main, .inside .save o0, .idle, file⟩ := .step h1 (.lock (by simp) rfl rfl) (by simp)
  have h3 : PRun L H E (fun p => p.main ≠ .failed) (.start o0 file) ⟨o1, none, .toWrite B, .idle, file⟩ :=
    .step h2 (.save (by simp) rfl) (by simp)
  have h4 : PRun L H E (fun p => p.main ≠ .failed) (.start o0 file) ⟨o1, none, .toWrite B, .wait, file⟩ :=
    .step h3 (.signal rfl) (by simp)
  have h5 : PRun L H E (fun p => p.main ≠ .failed) (.start o0 file) ⟨o1, some .shut, .toWrite B, .inside, file⟩ :=
    .step h4 (.shutLock rfl rfl) (by simp)
  have h6 : PRun L H E (fun p => p.main ≠ .failed) (.start o0 file)
      ⟨o2, none, .toWrite B, .toWrite B', file⟩ := .step h5 (.marshal rfl) (by simp)
  have h7 : PRun L H E (fun p => p.main ≠ .failed) (.start o0 file)
      ⟨o2, none, .toWrite B, .opened B', []⟩ := .step h6 (.shutOpen rfl) (by simp)
  have h8 : PRun L H E (fun p => p.main ≠ .failed) (.start o0 file)
      ⟨o2, none, .toWrite B, .written, overwrite B' []⟩ := .step h7 (.shutWrite rfl) (by simp)
  have h9 : PRun L H E (fun p => p.main ≠ .failed) (.start o0 file) ⟨o2, none, .opened B, .written, []⟩ :=
    .step h8 (.openFile (by simp) rfl) (by simp)
  exact ⟨_, .step h9 (.exit rfl) (by simp), rfl, rfl⟩

end

/-- deployed at a slot in which inactive validators are removed -/
def halfCfg : Config := { Sample.cfg with depSlot := 12001200 }

/-- somebody proposes elsewhere; validator 5 subscribes, sending 1000 -/
def halfBlock : FullBlock :=
  { Sample.prop 12001200 7 Sample.builder (Sample.tx Sample.builder (Sample.addr 77) 900)
      { subs := [⟨5, 1000, Sample.addr 5, 100⟩] } with
    valsSubs := [some (Sample.bval 5)] }

theorem work_counter {H E o o'} (h : Work H E o o') (h0 : o.st.nextSlot = o.st.latestSlot + 1) :
    o'.st.nextSlot = o'.st.latestSlot + 1 ∧ (o.st.latestSlot < o'.st.latestSlot ∨
      (o'.st.latestSlot = o.st.latestSlot ∧ o'.st.subs = o.st.subs)) := by
  induction h with
  | refl => exact ⟨h0, Or.inr ⟨rfl, rfl⟩⟩
  | @slot o1 o2 b n _ hs hb ih =>
    obtain ⟨e1, e2, e3, e4⟩ := C20_exactly_next hs
    have : u64 (b.dutySlot + 1) = b.dutySlot + 1 := Nat.mod_eq_of_lt hb
    obtain ⟨i1, i2⟩ := ih
    exact ⟨by omega, Or.inl (by omega)⟩
  | freeze _ hf ih =>
    obtain ⟨_, _, _, _, ⟨_, _, h3⟩ | ⟨_, _, _, h3⟩⟩ := freeze_frz hf
    · rw [h3]; exact ih
    · rw [h3]; exact ih
  | saved x t _ ih => exact ih

/-- The claim C52 fails when a slot fails: a beacon node that does not answer in the cleanup makes
`AdvanceStateToNextSlot` return an error after the block has been applied, which releases the mutex before
the process is stopped. A shutdown handler waiting for the mutex saves that half-processed slot: the
subscription of the block is recorded and its collateral credited, the slot is not counted, and no state
between slots has this content. After a restart the slot is processed again and the collateral is
credited a second time. -/
theorem C52_false_half (L : Lib) (H : List Nat → List Nat) (file : List Nat) :
    ∃ p half again n, PRun L H deafEnv (fun _ => True) (.start (newOracle halfCfg) file) p ∧
      p.shut = .ended ∧ p.file = savedBytes L half.st ∧
      (∀ o, Work H deafEnv (newOracle halfCfg) o → ¬ SameContent half.st o.st) ∧
      owed half.st = 1000 ∧
      advanceState Sample.env half halfBlock = .ok (again, some n) ∧ owed again.st = 2000 ∧
      halfBlock.events.subs.map (·.collateral) = [1000] ∧ halfBlock.events.ether = [] := by
  obtain ⟨⟨half, n⟩, h1, h2⟩ := Sample.ex_ok
    (x := advanceState deafEnv (newOracle halfCfg) halfBlock)
    (P := fun p => p.2 = none && p.1.st.latestSlot = 12001199 && p.1.st.subs.length = 1 &&
      owed p.1.st = 1000 &&
      (match advanceState Sample.env p.1 halfBlock with
        | .ok (again, some _) => owed again.st = 2000
        | _ => false)) (by decide +kernel)
  simp only [Bool.and_eq_true, decide_eq_true_eq] at h2
  obtain ⟨⟨⟨⟨rfl, h3⟩, h4⟩, h5⟩, h6⟩ := h2
  split at h6
  swap
  · simp at h6
  rename_i again m h7
  simp only [decide_eq_true_eq] at h6
  let o0 := newOracle halfCfg
  have r0 : PRun L H deafEnv (fun _ => True) (.start o0 file) (.start o0 file) := .refl trivial
  have r1 : PRun L H deafEnv (fun _ => True) (.start o0 file) ⟨o0, none, .wait (.slot halfBlock), .idle, file⟩ :=
    .step r0 (.call _ (by simp [Proc.start]) rfl) trivial
  have r2 : PRun L H deafEnv (fun _ => True) (.start o0 file)
      ⟨o0, some .main, .inside (.slot halfBlock) o0, .idle, file⟩ := .step r1 (.lock (by simp) rfl rfl) trivial
  have r3 : PRun L H deafEnv (fun _ => True) (.start o0 file)
      ⟨o0, some .main, .inside (.slot halfBlock) o0, .wait, file⟩ := .step r2 (.signal rfl) trivial
  have r4 : PRun L H deafEnv (fun _ => True) (.start o0 file) ⟨half, none, .failed, .wait, file⟩ :=
    .step r3 (.slotError (by simp) rfl h1) trivial
  have r5 : PRun L H deafEnv (fun _ => True) (.start o0 file) ⟨half, some .shut, .failed, .inside, file⟩ :=
    .step r4 (.shutLock rfl rfl) trivial
  have r6 : PRun L H deafEnv (fun _ => True) (.start o0 file)
      ⟨⟨half.cfg, hashState L half.st⟩, none, .failed, .toWrite (savedBytes L half.st), file⟩ :=
    .step r5 (.marshal rfl) trivial
  have r7 : PRun L H deafEnv (fun _ => True) (.start o0 file)
      ⟨⟨half.cfg, hashState L half.st⟩, none, .failed, .opened (savedBytes L half.st), []⟩ :=
    .step r6 (.shutOpen rfl) trivial
  have r8 : PRun L H deafEnv (fun _ => True) (.start o0 file)
      ⟨⟨half.cfg, hashState L half.st⟩, none, .failed, .written, overwrite (savedBytes L half.st) []⟩ :=
    .step r7 (.shutWrite rfl) trivial
  refine ⟨_, half, again, m, .step r8 (.exit rfl) trivial, rfl, ?_, ?_, h5, h7, h6, rfl, rfl⟩
  · simp [overwrite]
  · intro o hw hsame
    have e1 : o.st.latestSlot = 12001199 := by rw [← h3]; exact (congrArg State.latestSlot (show _ = _ from hsame)).symm
    have e2 : o.st.subs = half.st.subs := (congrArg State.subs (show _ = _ from hsame)).symm
    obtain ⟨_, h8 | ⟨_, h8⟩⟩ := work_counter hw (by decide)
    · rw [e1] at h8; exact absurd h8 (by decide)
    · rw [e2] at h8
      rw [h8] at h4
      exact absurd h4 (by decide)

/-! ### The hypotheses hold for concrete runs -/

/-- a slot is being processed, with anything in the memory, when the signal arrives; the handler gets the
mutex after the slot -/
example (L : Lib) (H : List Nat → List Nat) (x : Oracle) (file : List Nat) :
    ∃ (p : Proc) (o1 : Oracle) (bytes : List Nat), PRun L H Sample.env (fun p => p.main ≠ .failed) (.start (newOracle Sample.cfg) file) p ∧
      p.shut = .toWrite bytes ∧ NotWriting p ∧ o1.st.latestSlot = Sample.b0.dutySlot ∧
      bytes = savedBytes L o1.st := by
  obtain ⟨⟨o1, r⟩, h1, h2⟩ := Sample.ex_ok (x := advanceState Sample.env (newOracle Sample.cfg) Sample.b0)
    (P := fun p => p.2.isSome && p.1.st.latestSlot = Sample.b0.dutySlot) (by decide +kernel)
  simp only [Bool.and_eq_true, decide_eq_true_eq, Option.isSome_iff_exists] at h2
  obtain ⟨⟨n, rfl⟩, h3⟩ := h2
  let o0 := newOracle Sample.cfg
  have r0 : PRun L H Sample.env (fun p => p.main ≠ .failed) (.start o0 file) (.start o0 file) :=
    .refl (by simp [Proc.start])
  have r1 : PRun L H Sample.env (fun p => p.main ≠ .failed) (.start o0 file)
      ⟨o0, none, .wait (.slot Sample.b0), .idle, file⟩ :=
    .step r0 (.call _ (by simp [Proc.start]) rfl) (by simp)
  have r2 : PRun L H Sample.env (fun p => p.main ≠ .failed) (.start o0 file)
      ⟨o0, some .main, .inside (.slot Sample.b0) o0, .idle, file⟩ := .step r1 (.lock (by simp) rfl rfl) (by simp)
  have r3 : PRun L H Sample.env (fun p => p.main ≠ .failed) (.start o0 file)
      ⟨x, some .main, .inside (.slot Sample.b0) o0, .idle, file⟩ := .step r2 (.work x (by simp) rfl) (by simp)
  have r4 : PRun L H Sample.env (fun p => p.main ≠ .failed) (.start o0 file)
      ⟨x, some .main, .inside (.slot Sample.b0) o0, .wait, file⟩ := .step r3 (.signal rfl) (by simp)
  have r5 : PRun L H Sample.env (fun p => p.main ≠ .failed) (.start o0 file)
      ⟨o1, none, .idle, .wait, file⟩ := .step r4 (.slot (by simp) rfl h1 (by decide)) (by simp)
  have r6 : PRun L H Sample.env (fun p => p.main ≠ .failed) (.start o0 file)
      ⟨o1, some .shut, .idle, .inside, file⟩ := .step r5 (.shutLock rfl rfl) (by simp)
  exact ⟨⟨⟨o1.cfg, hashState L o1.st⟩, none, .idle, .toWrite (savedBytes L o1.st), file⟩, o1, _,
    .step r6 (.marshal rfl) (by simp), rfl, by simp [NotWriting], h3, rfl⟩

end Verif
