import Verif.Spec.MainLoop
import Verif.Spec.Requests
import Verif.Spec.Typed
import Verif.Spec.Chain
/-
The whole life of an oracle: it is started, works, is killed or stopped, and started again, any number of
times, each time with other nodes and other iteration orders.
-/
namespace Verif

/-- What holds of the outside world at every moment: of the order of a map iteration, of the validators
returned by the beacon node and of the pending consolidations. -/
abbrev Law := (Nat → List Nat) → (Nat → List Nat → Option (List BVal)) → (Nat → Option (List (Nat × Nat))) → Prop

/-- The law holds in this environment. -/
def Obeys (P : Law) (E : Env) : Prop := ∀ t, P (E.perm t) (E.node t) (E.consol t)

/-- A law that makes the nodes answer what they are asked for, in data that fits its types. -/
structure Law.Good (P : Law) : Prop where
  valid : ∀ E, Obeys P E → ValidEnv E
  exact : ∀ E, Obeys P E → ExactEnv E
  noSelf : ∀ E, Obeys P E → NoSelfConsol E
  typed : ∀ E, Obeys P E → EnvTyped E

/-- A law that makes the nodes report this chain. -/
def Law.Reads (P : Law) (V : Nat → Nat → BVal) (K : Nat → List (Nat × Nat)) : Prop :=
  ∀ E, Obeys P E → ReadsChain V K E

/-- Writing the state `s` was interrupted at any moment: every file is as before, or it is one of the two
files that were to be written and holds a beginning of what was to be written (or all of it). Files may also
get lost. -/
def Interrupted (L : Lib) (s : State) (d d' : Disk) : Prop :=
  ∀ path raw, getStr d' path = some raw → getStr d path = some raw ∨
    (path = b!"state.json" ∨ path = b!"state_" ++ decimal s.latestSlot ++ b!".json") ∧ raw <+: savedBytes L s

/-- The process is not running and there are these files, or it is running. -/
inductive Being
  | off (d : Disk)
  | on (l : Loop)

/-- A life over the chain `T` with the configuration `cfg`; the trace is everything it has shown so far. -/
inductive Life (P : Law) (T : Chain) (L : Lib) (H : List Nat → List Nat) (cfg : Config) :
    List LoopEv → Being → Prop
  /-- no files yet -/
  | born : Life P T L H cfg [] (.off [])
  /-- the files are replaced by those of another life with the same configuration, or by older ones -/
  | restore {tr tr' d d'} : Life P T L H cfg tr (.off d) → Life P T L H cfg tr' (.off d') →
      Life P T L H cfg tr (.off d')
  /-- started; `c` is the slot of the contract -/
  | start {tr d E c o} (t : Int) : Life P T L H cfg tr (.off d) → Obeys P E →
      startup L H E d cfg none (some c) = .ok o → Life P T L H cfg tr (.on ⟨.top, o, d, t⟩)
  /-- started with the state another living oracle serves, in whatever way its text is laid out -/
  | sync {tr tr' d E c o l raw} (t : Int) : Life P T L H cfg tr (.off d) → Life P T L H cfg tr' (.on l) →
      L.parse raw = some (encState (hashState L l.o.st)) → Obeys P E →
      startup L H E d cfg (some raw) (some c) = .ok o → Life P T L H cfg tr (.on ⟨.top, o, d, t⟩)
  /-- one step of the main loop; requests may fail, the network is honest, a save may fail half-way -/
  | step {tr l l' E A evs} : Life P T L H cfg tr (.on l) → Obeys P E →
      (∀ fin, A.finalized = some fin → fin + 1 < 2 ^ 64) → HonestNetwork T A.fetch l.o.st.nextSlot →
      (∀ d, A.torn = some d → Interrupted L l.o.st l.disk d) → stepLoop L H E A l = .ok (l', evs) →
      Life P T L H cfg (tr ++ evs) (.on l')
  /-- killed, maybe while writing -/
  | kill {tr l d} : Life P T L H cfg tr (.on l) → Interrupted L l.o.st l.disk d → Life P T L H cfg tr (.off d)
  /-- stopped by a signal -/
  | signal {tr l} : Life P T L H cfg tr (.on l) → Life P T L H cfg tr (.off (shutdown L l))

/-- What happens to an oracle while no file is lost or damaged. -/
inductive Careful (P : Law) (T : Chain) (L : Lib) (H : List Nat → List Nat) (cfg : Config) (x : Being) :
    Being → Prop
  | nil : Careful P T L H cfg x x
  | start {d E c o} (t : Int) : Careful P T L H cfg x (.off d) → Obeys P E →
      startup L H E d cfg none (some c) = .ok o → Careful P T L H cfg x (.on ⟨.top, o, d, t⟩)
  | step {l l' E A evs} : Careful P T L H cfg x (.on l) → Obeys P E →
      (∀ fin, A.finalized = some fin → fin + 1 < 2 ^ 64) → HonestNetwork T A.fetch l.o.st.nextSlot →
      A.torn = none → stepLoop L H E A l = .ok (l', evs) → Careful P T L H cfg x (.on l')
  | kill {l} : Careful P T L H cfg x (.on l) → Careful P T L H cfg x (.off l.disk)
  | signal {l} : Careful P T L H cfg x (.on l) → Careful P T L H cfg x (.off (shutdown L l))

/-- An oracle that starts with nothing and is never interrupted: it fetches and processes the blocks `bs`
one after the other. -/
inductive Uncut (T : Chain) (E : Env) (o : Oracle) : List FullBlock → Oracle → Prop
  | start : Uncut T E o [] o
  | slot {bs o1 b o2 n} : Uncut T E o bs o1 → fetchFullBlock T o1.st o1.st.nextSlot false = .ok b →
      advanceState E o1 b = .ok (o2, some n) → o1.st.nextSlot + 1 < 2 ^ 64 → Uncut T E o (bs ++ [b]) o2

end Verif
