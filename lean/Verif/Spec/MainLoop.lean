import Verif.Model.MainLoop
/-
Executions of the main loop and what may happen in them.
-/
namespace Verif

/-- The main loop runs from `l` to `l'` and `tr` is what can be seen from outside; the nodes and the
contract may answer anything at any step, except that finalized slots are below the end of the uint64
range. -/
inductive LoopRun (L : Lib) (H : List Nat → List Nat) (E : Env) (l : Loop) : List LoopEv → Loop → Prop
  | nil : LoopRun L H E l [] l
  | step {tr l1 l2 A evs} : LoopRun L H E l tr l1 → (∀ fin, A.finalized = some fin → fin + 1 < 2 ^ 64) →
      stepLoop L H E A l1 = .ok (l2, evs) → LoopRun L H E l (tr ++ evs) l2

/-- The slots processed in a trace, in order. -/
def slotsOf : List LoopEv → List Nat
  | [] => []
  | .processed s _ :: tr => s :: slotsOf tr
  | _ :: tr => slotsOf tr

/-- Reading the vote or the contract. -/
def LoopEv.reads : LoopEv → Prop
  | .voted _ => True
  | .chain _ _ => True
  | _ => False

/-- Right before: slot `s` was processed, the books were reconciled and root `r` was frozen for it; since
then the oracle has only been reading. -/
def JustFrozen (pre : List LoopEv) (s : Nat) (r : Str) : Prop :=
  ∃ pre0 fin mid, pre = pre0 ++ [.processed s fin, .reconciled, .frozen s r] ++ mid ∧
    ∀ e ∈ mid, e.reads

/-- A root may be submitted for a slot: the oracle is not in dry-run mode, both were just frozen, and the
contract has just shown the slot exactly one checkpoint before. -/
def MaySubmit (cfg : Config) (pre : List LoopEv) (s : Nat) (r : Str) : Prop :=
  cfg.dryRun = false ∧ ∃ pre0 r' c, pre = pre0 ++ [.chain r' c] ∧ JustFrozen pre0 s r ∧
    s = (c + cfg.cpSize) % 2 ^ 64

/-- The state may be saved: a root was just frozen for its slot and either it did not have to be
submitted (dry run, or the contract's slot is not the one before), or it was submitted and the contract
has just shown exactly this root and slot. -/
def MaySave (cfg : Config) (pre : List LoopEv) (s : Nat) : Prop :=
  ∃ r, (∃ pre0 r' c, pre = pre0 ++ [.chain r' c] ∧ JustFrozen pre0 s r ∧
      (cfg.dryRun = true ∨ s ≠ (c + cfg.cpSize) % 2 ^ 64)) ∨
    ∃ pre0 mid, pre = pre0 ++ .submit s r :: mid ++ [.chain r s] ∧ MaySubmit cfg pre0 s r ∧
      ∀ e ∈ mid, e.reads

end Verif
