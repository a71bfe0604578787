import Verif.Props.MainLoop
/-
C100: an oracle whose root differs from the one the contract has.
-/
namespace Verif

/-- **C100 is false.** Whenever the contract already has a root for the slot of the checkpoint just frozen, the
oracle does not look whether it is its own root: with any other root it saves the checkpoint and goes on. (The
function that compares, oracle/oracle.go:804-845, is called by tests only.) -/
theorem C100_false_not_compared {L : Lib} {H : List Nat → List Nat} {E : Env} {l : Loop} {f : Frozen} {A A' : Answers}
    {r : Str} (hpc : l.pc = .decide f) (hA : A.chain = some (r, f.slot)) (_hr : r ≠ f.root)
    (h0 : 0 < l.o.cfg.cpSize) (h1 : l.o.cfg.cpSize < 2 ^ 64) (ht : A'.torn = none) :
    ∃ l1 l2, stepLoop L H E A l = .ok (l1, [.chain r f.slot]) ∧
      stepLoop L H E A' l1 = .ok (l2, [.save l.o.st.latestSlot]) ∧ l2.pc = .top ∧
      getStr l2.disk stateJson = some (savedBytes L l.o.st) ∧ l2.o.st.committed = l.o.st.committed := by
  have h2 : ¬ ((!l.o.cfg.dryRun) = true ∧ f.slot = u64 (f.slot + l.o.cfg.cpSize)) := by
    rintro ⟨_, h⟩
    unfold u64 at h
    omega
  refine ⟨{ l with pc := .save f }, _, ?_, rfl, rfl, ?_, ?_⟩
  · unfold stepLoop
    rw [hpc]
    dsimp only
    rw [hA]
    dsimp only
    rw [if_neg h2]
  · dsimp only
    rw [ht]
    exact save_state L true l.o l.disk
  · rfl

theorem last_apart {α : Type} {p : α → Prop} : ∀ {a b : List α} {x y : α} {m m' : List α},
    a ++ x :: m = b ++ y :: m' → ¬ p x → ¬ p y → (∀ e ∈ m, p e) → (∀ e ∈ m', p e) → a = b ∧ x = y ∧ m = m' := by
  intro a
  induction a with
  | nil =>
    intro b x y m m' h hx hy hm hm'
    cases b with
    | nil => simp only [List.nil_append, List.cons.injEq] at h; exact ⟨rfl, h.1, h.2⟩
    | cons z b =>
      simp only [List.nil_append, List.cons_append, List.cons.injEq] at h
      exact absurd (hm y (by rw [h.2]; simp)) hy
  | cons z a ih =>
    intro b x y m m' h hx hy hm hm'
    cases b with
    | nil =>
      simp only [List.nil_append, List.cons_append, List.cons.injEq] at h
      exact absurd (hm' x (by rw [← h.2]; simp)) hx
    | cons w b =>
      simp only [List.cons_append, List.cons.injEq] at h
      obtain ⟨k1, k2, k3⟩ := ih h.2 hx hy hm hm'
      exact ⟨by rw [h.1, k1], k2, k3⟩

/-- **C100** (partial). A root the oracle has submitted itself is saved only after the contract has shown exactly this
root for this slot. Missing: checkpoints it does not submit, see `C100_false_not_compared`. -/
theorem C100_submitted_partial {L : Lib} {H : List Nat → List Nat} {E : Env} (hE : ValidEnv E) {cfg : Config}
    (h0 : 0 < cfg.depSlot) (h1 : cfg.depSlot < 2 ^ 64) {l l' : Loop} {tr : List LoopEv}
    (hw : Work H E (newOracle cfg) l.o) (hpc : l.pc = .top) (hr : LoopRun L H E l tr l')
    {pre mid post : List LoopEv} {s s' : Nat} {r : Str} (e : tr = pre ++ .submit s r :: mid ++ .save s' :: post)
    (hm : ∀ ev ∈ mid, ev.reads) : s' = s ∧ ∃ mid0, mid = mid0 ++ [.chain r s] := by
  have hs : ¬ (LoopEv.submit s r).reads := by simp [LoopEv.reads]
  obtain ⟨r2, ⟨pre0, r', c, k1, ⟨pre1, fin, mid1, k2, k3⟩, _⟩ | ⟨pre0, mid1, k1, _, k3⟩⟩ :=
    C36_saved hE h0 h1 hw hpc hr e
  · exfalso
    rw [k2] at k1
    have k4 : pre ++ .submit s r :: mid = (pre1 ++ [.processed s' fin, .reconciled]) ++
        .frozen s' r2 :: (mid1 ++ [.chain r' c]) := by rw [k1]; simp
    obtain ⟨_, k5, _⟩ := last_apart (p := LoopEv.reads) k4 hs (by simp [LoopEv.reads]) hm (by
      intro ev hev
      rcases List.mem_append.mp hev with hev | hev
      · exact k3 ev hev
      · rw [List.mem_singleton] at hev; subst hev; simp [LoopEv.reads])
    cases k5
  · have k4 : pre ++ .submit s r :: mid = pre0 ++ .submit s' r2 :: (mid1 ++ [.chain r2 s']) := by rw [k1]; simp
    obtain ⟨_, k5, k6⟩ := last_apart (p := LoopEv.reads) k4 hs (by simp [LoopEv.reads]) hm (by
      intro ev hev
      rcases List.mem_append.mp hev with hev | hev
      · exact k3 ev hev
      · rw [List.mem_singleton] at hev; subst hev; simp [LoopEv.reads])
    cases k5
    exact ⟨rfl, mid1, k6⟩

/-- the hypotheses of `C100_submitted_partial` are met: slot 12000000 is submitted, confirmed and saved -/
example : ∃ tr l pre mid post, LoopRun (Toy.lib Sample.hash) Sample.hash Sample.env Sample.start tr l ∧
    Sample.start.pc = .top ∧ tr = pre ++ .submit 12000000 Sample.firstRoot :: mid ++ .save 12000000 :: post ∧
    (∀ ev ∈ mid, ev.reads) ∧ mid = [.chain [] 11999900] ++ [.chain Sample.firstRoot 12000000] := by
  obtain ⟨l, h⟩ := Sample.run2_ok
  refine ⟨_, l, [.processed 12000000 12000150, .reconciled, .frozen 12000000 Sample.firstRoot, .voted 0,
    .chain [] 11999900, .chain [] 11999900], [.chain [] 11999900, .chain Sample.firstRoot 12000000],
    [.processed 12000001 12000150], h, rfl, rfl, ?_, rfl⟩
  intro ev hev
  rcases List.mem_pair.mp hev with rfl | rfl <;> simp [LoopEv.reads]

namespace Sample

/-- a checkpoint every two slots -/
def start2 : Loop := ⟨.top, newOracle { cfg with cpSize := 2 }, [], 0⟩

end Sample

/-- **C100 is false.** A run of the loop: the contract shows the root [9] for slot 12000000, the oracle has frozen
another one for this slot. It saves, goes on, and at the next checkpoint it votes for a root that builds on books the
contract does not share. -/
theorem C100_false_goes_on : ∃ tr l' r r', Sample.runLoop (Toy.lib Sample.hash) Sample.hash Sample.env
      (List.replicate 13 (Sample.answers [9] 12000000)) Sample.start2 = .ok (l', tr) ∧
    LoopRun (Toy.lib Sample.hash) Sample.hash Sample.env Sample.start2 tr l' ∧ r ≠ [9] ∧
    .frozen 12000000 r ∈ tr ∧ .chain [9] 12000000 ∈ tr ∧ .save 12000000 ∈ tr ∧ .submit 12000002 r' ∈ tr := by
  obtain ⟨⟨l', tr⟩, h, hm⟩ := Sample.ex_ok
    (x := Sample.runLoop (Toy.lib Sample.hash) Sample.hash Sample.env
      (List.replicate 13 (Sample.answers [9] 12000000)) Sample.start2)
    (P := fun p => (p.2.any fun
        | .frozen 12000000 r => decide (r ≠ [9])
        | _ => false) && decide (.chain [9] 12000000 ∈ p.2 ∧ .save 12000000 ∈ p.2) &&
      p.2.any fun
        | .submit 12000002 _ => true
        | _ => false) (by decide +kernel)
  rw [Bool.and_eq_true, Bool.and_eq_true] at hm
  obtain ⟨⟨h1, h2⟩, h3⟩ := hm
  obtain ⟨h4, h5⟩ := of_decide_eq_true h2
  obtain ⟨e1, g1, g2⟩ := List.any_eq_true.mp h1
  obtain ⟨e2, g3, g4⟩ := List.any_eq_true.mp h3
  have k1 : ∃ r, e1 = .frozen 12000000 r ∧ r ≠ [9] := by
    split at g2
    · exact ⟨_, rfl, of_decide_eq_true g2⟩
    · cases g2
  have k2 : ∃ r, e2 = .submit 12000002 r := by
    split at g4
    · exact ⟨_, rfl⟩
    · cases g4
  obtain ⟨r, rfl, hr⟩ := k1
  obtain ⟨r', rfl⟩ := k2
  refine ⟨tr, l', r, r', h, Sample.run_of ?_ h, hr, g1, h4, h5, g3⟩
  intro A hA fin hfin
  rw [(List.mem_replicate.mp hA).2] at hfin
  simp only [Sample.answers, Option.some.injEq] at hfin
  omega

end Verif
