import Verif.Spec.Nodes
import Verif.Props.Live
/-
Properties C86 and C87: nodes that are behind, and the cache of validators.
-/
namespace Verif

section
variable {L : Lib} {H : List Nat → List Nat} {E : Env} {A : Answers} {l l' : Loop} {evs : List LoopEv}

/-! ### C86 -/

theorem sync_true : A.sync = some true ↔ NodesReady A := by
  unfold Answers.sync nodesInSync NodesReady
  cases A.exec with
  | none => simp
  | some b => cases A.cons with
    | none => simp
    | some d => cases b <;> simp

theorem sync_none : A.sync = none ↔ NodesSilent A := by
  unfold Answers.sync nodesInSync NodesSilent
  cases A.exec with
  | none => simp
  | some b => cases A.cons with
    | none => simp
    | some d => simp

/-- **C86.** No slot is processed in a step in which one of the nodes was behind or did not answer. -/
theorem C86_only_when_ready (h : stepLoop L H E A l = .ok (l', evs)) {s fin : Nat} (hp : .processed s fin ∈ evs) :
    NodesReady A :=
  sync_true.mp (C35_each_slot h hp).2.2.1

/-- **C86.** At the top of the loop: if both nodes answered and one of them is behind, nothing at all happens; if
one does not answer, the oracle stops. -/
theorem C86_otherwise (hpc : l.pc = .top) (hr : ¬ NodesReady A) :
    (¬ NodesSilent A → stepLoop L H E A l = .ok (l, [])) ∧ (NodesSilent A → stepLoop L H E A l = .error .fatal) := by
  refine ⟨fun hs => ?_, fun hs => ?_⟩
  · have h1 : A.sync = some false := by
      cases h : A.sync with
      | none => exact absurd (sync_none.mp h) hs
      | some b => cases b with
        | false => rfl
        | true => exact absurd (sync_true.mp h) hr
    unfold stepLoop stepTop
    rw [hpc]
    dsimp only
    rw [h1]
  · unfold stepLoop stepTop
    rw [hpc]
    dsimp only
    rw [sync_none.mpr hs]

/-! ### C87 -/

/-- **C87.** When refreshing the cache of validators goes through, and what is in the cache then: exactly the
validators the node reported. -/
theorem C87_exact {vs : NodeVals} {c : BMap} : refresh (some vs) = .ok c ↔
    Plausible vs ∧ c = vs.map fun p => (p.1, p.2.val) := by
  rw [refresh_ok_iff]
  unfold Plausible
  constructor
  · rintro ⟨h1, h2, h3⟩; exact ⟨⟨h2, h3⟩, h1⟩
  · rintro ⟨⟨h2, h3⟩, h1⟩; exact ⟨h1, h2, h3⟩

/-- **C87.** Whether it goes through does not depend on the order in which the map is iterated. -/
theorem C87_any_order {vs vs' : NodeVals} (h : vs.Perm vs') :
    (∃ c, refresh (some vs) = .ok c) ↔ ∃ c, refresh (some vs') = .ok c := by
  have hP : Plausible vs ↔ Plausible vs' := by
    unfold Plausible
    rw [h.length_eq]
    constructor
    · rintro ⟨⟨p, h1, h2⟩, q, h3, h4⟩; exact ⟨⟨p, h.subset h1, h2⟩, q, h.subset h3, h4⟩
    · rintro ⟨⟨p, h1, h2⟩, q, h3, h4⟩; exact ⟨⟨p, h.symm.subset h1, h2⟩, q, h.symm.subset h3, h4⟩
  constructor
  · rintro ⟨c, hc⟩; exact ⟨_, C87_exact.mpr ⟨hP.mp (C87_exact.mp hc).1, rfl⟩⟩
  · rintro ⟨c, hc⟩; exact ⟨_, C87_exact.mpr ⟨hP.mpr (C87_exact.mp hc).1, rfl⟩⟩

/-- **C87** (partial). The main loop is never stopped by refreshing, and does the same as without, if the node
reports all validators of a chain on which somebody was activated after the genesis. Missing: for any other list
see `C87_false_stops`. -/
theorem C87_harmless_partial (hpc : l.pc = .processed) (h : AllValidators A.vals) :
    stepLoop L H E A l = stepProcessed H E l := by
  unfold stepLoop
  rw [hpc]
  dsimp only
  rw [refreshDue_ok h, bind_val]

/-- **C87 is false.** At every slot divisible by 1200 the oracle stops, although the list is only needed by the
HTTP service, if it is implausible: empty, with a gap in the indices so that the last one is not there, or from a
chain on which nobody has been activated after the genesis. -/
theorem C87_false_stops (hpc : l.pc = .processed) (hs : l.o.st.latestSlot % 1200 = 0)
    (h : ∀ vs, A.vals = some vs → ¬ Plausible vs) : ∃ c, stepLoop L H E A l = .error c := by
  unfold stepLoop
  rw [hpc]
  dsimp only
  unfold refreshDue
  rw [if_pos hs]
  cases hr : refresh A.vals with
  | error c => exact ⟨c, rfl⟩
  | ok c =>
    cases hv : A.vals with
    | none => rw [hv] at hr; cases hr
    | some vs =>
      rw [hv] at hr
      exact absurd (C87_exact.mp hr).1 (h vs hv)

end

/-- The sample oracle processes slot 12000000. If all validators of the node were active at the genesis, or if one
index is missing, it stops there, while the same answers with a complete list let it go on. -/
example : ∃ l evs, stepLoop (Toy.lib Sample.hash) Sample.hash Sample.env (Sample.answers [] 11999900) Sample.start =
      .ok (l, evs) ∧ .processed 12000000 12000150 ∈ evs ∧ NodesReady (Sample.answers [] 11999900) ∧
    l.pc = .processed ∧ l.o.st.latestSlot % 1200 = 0 ∧
    (∃ c, stepLoop (Toy.lib Sample.hash) Sample.hash Sample.env
      { Sample.answers [] 11999900 with vals := some [(0, ⟨Sample.bval 0, 0⟩), (1, ⟨Sample.bval 1, 0⟩)] } l = .error c) ∧
    (∃ c, stepLoop (Toy.lib Sample.hash) Sample.hash Sample.env
      { Sample.answers [] 11999900 with vals := some [(0, ⟨Sample.bval 0, 5⟩), (2, ⟨Sample.bval 2, 7⟩)] } l = .error c) ∧
    ∃ r, stepLoop (Toy.lib Sample.hash) Sample.hash Sample.env (Sample.answers [] 11999900) l = .ok r := by
  obtain ⟨⟨l, evs⟩, h, k⟩ := Sample.ex_ok
    (x := stepLoop (Toy.lib Sample.hash) Sample.hash Sample.env (Sample.answers [] 11999900) Sample.start)
    (P := fun p => decide (p.1.pc = .processed ∧ p.1.o.st.latestSlot = 12000000 ∧ .processed 12000000 12000150 ∈ p.2) &&
      (stepLoop (Toy.lib Sample.hash) Sample.hash Sample.env (Sample.answers [] 11999900) p.1).toOption.isSome)
    (by decide +kernel)
  simp only [Bool.and_eq_true, decide_eq_true_eq] at k
  obtain ⟨⟨k1, k2, k3⟩, k4⟩ := k
  have hs : l.o.st.latestSlot % 1200 = 0 := by rw [k2]
  refine ⟨l, evs, h, k3, C86_only_when_ready h k3, k1, hs, C87_false_stops k1 hs ?_, C87_false_stops k1 hs ?_, ?_⟩
  · intro vs hv hp
    cases hv
    obtain ⟨_, p, hp, h0, _⟩ := hp
    simp only [List.mem_cons, List.not_mem_nil, or_false] at hp
    rcases hp with rfl | rfl <;> exact h0 rfl
  · intro vs hv hp
    cases hv
    obtain ⟨⟨p, hp, h0⟩, _⟩ := hp
    simp only [List.mem_cons, List.not_mem_nil, or_false] at hp
    rcases hp with rfl | rfl <;> simp at h0
  · cases hx : stepLoop (Toy.lib Sample.hash) Sample.hash Sample.env (Sample.answers [] 11999900) l with
    | ok r => exact ⟨r, rfl⟩
    | error c => rw [hx] at k4; cases k4

/-- A node that is six slots behind makes the loop wait. -/
example : stepLoop (Toy.lib Sample.hash) Sample.hash Sample.env { Sample.answers [] 0 with cons := some 6 } Sample.start =
    .ok (Sample.start, []) :=
  (C86_otherwise rfl (by rintro ⟨_, d, h, hd⟩; cases h; omega)).1 (by rintro (h | h) <;> cases h)

end Verif
