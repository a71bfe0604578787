import Verif.Lemmas.HeapLoad
import Verif.Props.Cleanup
import Verif.Props.Persist
/-
C53: balances are kept behind pointers and updated in place, and no update reaches anything else.
-/
namespace Verif

theorem sep_start {c : Config} {m : Mem} (h : PStart c m) : Sep m := by
  cases h with
  | new => exact (sep_newOracle _ _).1
  | loaded _ hs => exact (sep_load ((VMap.sorted_iff_keys _).mpr hs) _).1

theorem rel_saved {m : Mem} (hs : Sep m) (x : Str) (t : Nat) :
    HRel m { m with st := { m.st with stateHash := x, tick := t } }
      { m.read with stateHash := x, tick := t } :=
  rel_st hs rfl rfl hs.logs

theorem SimM.of_ok {β γ : Type} {R : β → γ → Prop} {x : M β} {y : M γ} (h : SimM R x y) {b : β}
    (hx : x = .ok b) : ∃ c, y = .ok c ∧ R b c := by
  subst hx
  cases y with
  | error e => exact absurd h id
  | ok c => exact ⟨c, rfl, h⟩

theorem SimM.map_eq {β γ : Type} {R : β → γ → Prop} {x : M β} {y : M γ} (h : SimM R x y) (f : β → γ)
    (hf : ∀ b c, R b c → f b = c) : x.map f = y := by
  cases x <;> cases y <;> simp only [SimM] at h
  · rw [h]; rfl
  · exact congrArg Except.ok (hf _ _ h)

theorem sep_work {H : List Nat → List Nat} {E : Env} {fails : Bool} {c0 c : Config} {m0 m : Mem} (h0 : Sep m0)
    (h : PWork H E fails c0 m0 c m) : Sep m ∧ Frame m0 m := by
  induction h with
  | refl => exact ⟨h0, Frame.refl _⟩
  | slot _ ha _ ih =>
    obtain ⟨y, _, r⟩ := (sim_advanceState ih.1 _).of_ok ha
    exact ⟨r.2.1.sep, ih.2.trans r.2.1.frame⟩
  | failed _ _ ha ih =>
    obtain ⟨y, _, r⟩ := (sim_advanceState ih.1 _).of_ok ha
    exact ⟨r.2.1.sep, ih.2.trans r.2.1.frame⟩
  | freeze _ ha ih =>
    obtain ⟨y, _, r⟩ := (sim_freeze ih.1).of_ok ha
    exact ⟨r.1.sep, ih.2.trans r.1.frame⟩
  | saved x t _ ih =>
    have r := rel_saved ih.1 x t
    exact ⟨r.sep, ih.2.trans r.frame⟩

section
variable {H : List Nat → List Nat} {E : Env} {fails : Bool} {c0 c : Config} {m0 m : Mem}

/-- **C53.** Whatever the oracle has done since it started or loaded its file, including slots that failed
half way: overwriting the number behind the pointer of one balance changes that balance and nothing else. No
other balance changes, nor the pool's fees, a collateral, a recorded event or block, or a frozen checkpoint. -/
theorem C53_own_cell (h0 : PStart c0 m0) (h : PWork H E fails c0 m0 c m) {a : Owner} {p : Nat}
    (hc : m.cellOf a = some p) (x : Int) :
    Mem.read { m with heap := m.heap.write p x } = m.read.withBalance a x :=
  (rel_write (sep_work (sep_start h0) h).1 hc x).read

/-- **C53.** Two different balances are never behind the same pointer. -/
theorem C53_no_shared_cell (h0 : PStart c0 m0) (h : PWork H E fails c0 m0 c m) {a b : Owner} {p : Nat}
    (ha : m.cellOf a = some p) (hb : m.cellOf b = some p) : a = b :=
  (sep_work (sep_start h0) h).1.inj a b p ha hb

/-- **C53.** Processing a slot with pointers that are updated in place gives what processing it with
separate numbers gives, for every block: the same crash, the same error or the same numbers everywhere. -/
theorem C53_slot (h0 : PStart c0 m0) (h : PWork H E fails c0 m0 c m) (b : FullBlock) :
    (advanceStateP E c m b).map (fun x => ((⟨x.1, x.2.1.read⟩, x.2.2) : Oracle × Option Nat)) =
      advanceState E ⟨c, m.read⟩ b := by
  apply (sim_advanceState (sep_work (sep_start h0) h).1 b).map_eq
  rintro ⟨c1, m1, r⟩ ⟨⟨c2, s2⟩, r2⟩ ⟨q1, q2, q3⟩
  dsimp only at q1 q2 q3 ⊢
  rw [q1, q2.read, q3]

/-- **C53.** The same for freezing a checkpoint. -/
theorem C53_freeze (h0 : PStart c0 m0) (h : PWork H E fails c0 m0 c m) :
    (freezeP H E m).map (fun x => (x.1.read, x.2)) = freeze H E m.read := by
  apply (sim_freeze (sep_work (sep_start h0) h).1).map_eq
  rintro ⟨m1, r⟩ ⟨s2, r2⟩ ⟨q1, q2⟩
  dsimp only at q1 q2 ⊢
  rw [q1.read, q2]

/-- **C53.** Every history with pointers is a history with separate numbers, to which all other theorems
apply. -/
theorem C53_history (h0 : PStart c0 m0) (h : PWork H E false c0 m0 c m) :
    Work H E ⟨c0, m0.read⟩ ⟨c, m.read⟩ := by
  have hs := sep_start h0
  induction h with
  | refl => exact .refl _
  | @slot c m c' m' b n hw ha hb ih =>
    obtain ⟨⟨⟨c2, s2⟩, r2⟩, hy, q1, q2, q3⟩ := (sim_advanceState (sep_work hs hw).1 b).of_ok ha
    dsimp only at q1 q2 q3
    subst q1 q3
    rw [q2.read]
    exact .slot ih hy hb
  | failed hf => cases hf
  | freeze hw ha ih =>
    obtain ⟨⟨s2, r2⟩, hy, q1, q2⟩ := (sim_freeze (sep_work hs hw).1).of_ok ha
    dsimp only at q1 q2
    rw [q1.read]
    exact .freeze ih hy
  | @saved c m x t hw ih => exact .saved x t ih

/-- **C53.** The start: a new oracle with pointers has the numbers of a new oracle, a loaded one those of the
file. -/
theorem C53_start (cfg : Config) (h : Heap) :
    (newOracleP cfg h).read = (newOracle cfg).st ∧
    ∀ s : State, (s.vals.map (·.1)).Pairwise (· < ·) → (loadP s h).read = s :=
  ⟨(sep_newOracle cfg h).2, fun _ hs => (sep_load ((VMap.sorted_iff_keys _).mpr hs) h).2⟩

/-- **C53.** A checkpoint frozen at some time keeps all its numbers whatever is done later, also by slots
that fail half way: the balances frozen with it and its leaves are never written to. -/
theorem C53_checkpoint_kept {c' : Config} {m' : Mem} (h0 : PStart c0 m0) (h : PWork H E fails c0 m0 c m)
    (h' : PWork H E fails c m c' m') : ∀ q ∈ m.st.logs.committed, q.2.read m'.heap = q.2.read m.heap := by
  have hs := (sep_work (sep_start h0) h).1
  have := (hs.same (sep_work hs h').2)
  have hc := fun p hp => ((sep_work hs h').2.2 p (hs.logs p hp)).2
  intro q hq
  exact PFrozen.read_congr fun p hp => hc p (mem_ptrs.mpr (Or.inl ⟨q, hq, hp⟩))

end

/-! ### A concrete history -/

namespace Sample

/-- the exited validator 9 is consolidated into validator 20, which the pool does not track -/
def envNew : Env := { env with consol := fun _ _ => some [(9, 20)] }

/-- the sample state read from a file, at a cleanup slot -/
def memClean : Mem := loadP { stClean with latestSlot := 12001199 } ⟨fun _ => 0, 0⟩

/-- validator 5 subscribes while validator 9's pending balance moves -/
def cleanBlock : FullBlock :=
  { prop 12001200 7 builder (tx builder (addr 77) 900) { subs := [⟨5, 1000, addr 5, 100⟩] } with
    valsSubs := [some (bval 5)] }

/-- At a cleanup slot the pending balance of validator 9 moves to the new entry 20: the code gives entry 20
the pointer of entry 9, and then entry 9 a new number. The checkpoint frozen afterwards succeeds. -/
example : ∃ c m m' p, PStart cfg memClean ∧ PWork hash envNew false cfg memClean c m ∧
    freezeP hash envNew m = .ok (m', true) ∧ PWork hash envNew false cfg memClean c m' ∧
    memClean.cellOf (.pend 9) = some p ∧ m.cellOf (.pend 20) = some p ∧ (m.cellOf (.pend 9)).isSome ∧
    (VMap.get memClean.read.vals 9).map (·.pend) = some 900 ∧
    (VMap.get m.read.vals 20).map (·.pend) = some 900 ∧ (VMap.get m.read.vals 9).map (·.pend) = some 0 := by
  obtain ⟨⟨c, m, r⟩, h1, h2⟩ := ex_ok (x := advanceStateP envNew cfg memClean cleanBlock)
    (P := fun x => x.2.2.isSome && decide (memClean.cellOf (.pend 9) = some 18 ∧
      x.2.1.cellOf (.pend 20) = some 18 ∧ (x.2.1.cellOf (.pend 9)).isSome ∧
      (VMap.get memClean.read.vals 9).map (·.pend) = some 900 ∧
      (VMap.get x.2.1.read.vals 20).map (·.pend) = some 900 ∧
      (VMap.get x.2.1.read.vals 9).map (·.pend) = some 0) &&
      ((freezeP hash envNew x.2.1).toOption.any fun y => y.2)) (by decide +kernel)
  simp only [Bool.and_eq_true, decide_eq_true_eq] at h2
  obtain ⟨⟨hr, h2⟩, h3⟩ := h2
  obtain ⟨n, rfl⟩ := Option.isSome_iff_exists.mp hr
  obtain ⟨⟨m', r'⟩, h4, h5⟩ := ex_ok (x := freezeP hash envNew m) (P := fun y => y.2) h3
  dsimp only at h5
  subst h5
  have hw : PWork hash envNew false cfg memClean c m := .slot .refl h1 (by decide)
  exact ⟨c, m, m', 18, .loaded _ _ (by decide), hw, h4, .freeze hw h4, h2⟩

end Sample

end Verif
