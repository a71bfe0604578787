import Verif.Model.Advance
import Verif.Model.Merkle
import Verif.Model.Persist
/-
The main loop, the shutdown handler and `GET /state` working on the same memory, step by step.

The mutex (oracle/oracle.go:37) appears here only as the place `holder`; that Go's `RWMutex` indeed
never has two holders is `C51_exclusive`. Readers (`State` and everything that uses it) change nothing and
are left out. The HTTP handler that would correct a validator's index in the live state without the
mutex (api/api.go:582-584) finds nothing to correct (`C18_identity_stable`) and is left out.
-/
namespace Verif

/-- What the main loop does with the mutex locked: main.go:262 `AdvanceStateToNextSlot`, main.go:357
`FreezeCheckpoint`, main.go:488 `SaveToJson`. -/
inductive Job
  | slot (b : FullBlock)
  | freeze
  | save

/-- Where the main loop is. /repo: main.go:198-221, 223-496; oracle/oracle.go:495-558 -/
inductive MainPc
  /-- not using the mutex -/
  | idle
  /-- waiting for the mutex -/
  | wait (j : Job)
  /-- holding the mutex; the memory was `o` when it got it -/
  | inside (j : Job) (o : Oracle)
  /-- `SaveToJson` has released the mutex (oracle.go:513) and has not opened the file yet -/
  | toWrite (bytes : List Nat)
  /-- the file is open and truncated -/
  | opened (bytes : List Nat)
  /-- `AdvanceStateToNextSlot` has returned an error, or is panicking: the mutex is released by the `defer` in
  oracle.go:166, the process has not ended yet (main.go:264 `log.Fatal`) -/
  | failed

/-- Where the shutdown handler (main.go:199-217) is. -/
inductive ShutPc
  /-- no signal yet -/
  | idle
  /-- signal received, waiting for the mutex in `SaveToJson(false)` -/
  | wait
  /-- holding the mutex, oracle.go:502-512 -/
  | inside
  | toWrite (bytes : List Nat)
  | opened (bytes : List Nat)
  /-- `SaveToJson` has returned -/
  | written
  /-- the process has ended -/
  | ended
  deriving DecidableEq

/-- The threads that lock the mutex for writing. /repo: main.go:198-221, 223-496; oracle/oracle.go:495-558 -/
inductive Who | main | shut | api
  deriving DecidableEq

/-- The whole process. `file` is the content of `oracle-data/state.json`.
/repo: main.go:198-221, 223-496; oracle/oracle.go:495-558 -/
structure Proc where
  mem : Oracle
  holder : Option Who
  main : MainPc
  shut : ShutPc
  file : List Nat

/-- The process at main.go:197. -/
def Proc.start (o : Oracle) (file : List Nat) : Proc := ⟨o, none, .idle, .idle, file⟩

/-- `write` at offset 0 of a file with this content. /repo: main.go:198-221, 223-496; oracle/oracle.go:495-558 -/
def overwrite (bytes file : List Nat) : List Nat := bytes ++ file.drop bytes.length

/-- One step of one thread. /repo: main.go:198-221, 223-496; oracle/oracle.go:495-558 -/
inductive PStep (L : Lib) (H : List Nat → List Nat) (E : Env) : Proc → Proc → Prop
  /-- the main loop calls one of its three functions -/
  | call {p} (j : Job) : p.shut ≠ .ended → p.main = .idle → PStep L H E p { p with main := .wait j }
  /-- it reads the state (the model counts its random choices in `tick`) -/
  | reads {p} (t : Nat) : p.shut ≠ .ended → p.main = .idle →
      PStep L H E p { p with mem := ⟨p.mem.cfg, { p.mem.st with tick := t }⟩ }
  /-- and gets the mutex -/
  | lock {p j} : p.shut ≠ .ended → p.main = .wait j → p.holder = none →
      PStep L H E p { p with main := .inside j p.mem, holder := some .main }
  /-- while it works the memory may be anything -/
  | work {p j o} (x : Oracle) : p.shut ≠ .ended → p.main = .inside j o → PStep L H E p { p with mem := x }
  /-- oracle.go:163-258 -/
  | slot {p b o o1 n} : p.shut ≠ .ended → p.main = .inside (.slot b) o →
      advanceState E o b = .ok (o1, some n) → b.dutySlot + 1 < 2 ^ 64 →
      PStep L H E p { p with mem := o1, holder := none, main := .idle }
  /-- an error, oracle.go:163-258: the changes made so far stay -/
  | slotError {p b o o1} : p.shut ≠ .ended → p.main = .inside (.slot b) o →
      advanceState E o b = .ok (o1, none) → PStep L H E p { p with mem := o1, holder := none, main := .failed }
  /-- a panic runs the `defer` too, whatever has been done so far (`log.Fatal` does not) -/
  | slotPanic {p b o} (x : Oracle) : p.shut ≠ .ended → p.main = .inside (.slot b) o →
      advanceState E o b = .error .panic → PStep L H E p { p with mem := x, holder := none, main := .failed }
  /-- oracle.go:713-766 -/
  | freeze {p o s r} : p.shut ≠ .ended → p.main = .inside .freeze o → Verif.freeze H E o.st = .ok (s, r) →
      PStep L H E p { p with mem := ⟨o.cfg, s⟩, holder := none, main := .idle }
  /-- oracle.go:499-513 -/
  | save {p o} : p.shut ≠ .ended → p.main = .inside .save o →
      PStep L H E p { p with mem := ⟨o.cfg, hashState L o.st⟩, holder := none, main := .toWrite (savedBytes L o.st) }
  /-- oracle.go:523 `ioutil.WriteFile` opens and truncates -/
  | openFile {p bytes} : p.shut ≠ .ended → p.main = .toWrite bytes →
      PStep L H E p { p with main := .opened bytes, file := [] }
  /-- and writes -/
  | write {p bytes} : p.shut ≠ .ended → p.main = .opened bytes →
      PStep L H E p { p with main := .idle, file := overwrite bytes p.file }
  /-- main.go:201-205 -/
  | signal {p} : p.shut = .idle → PStep L H E p { p with shut := .wait }
  | shutLock {p} : p.shut = .wait → p.holder = none → PStep L H E p { p with shut := .inside, holder := some .shut }
  /-- oracle.go:502-513 -/
  | marshal {p} : p.shut = .inside →
      PStep L H E p { p with shut := .toWrite (savedBytes L p.mem.st), mem := ⟨p.mem.cfg, hashState L p.mem.st⟩,
                             holder := none }
  | shutOpen {p bytes} : p.shut = .toWrite bytes → PStep L H E p { p with shut := .opened bytes, file := [] }
  | shutWrite {p bytes} : p.shut = .opened bytes →
      PStep L H E p { p with shut := .written, file := overwrite bytes p.file }
  /-- main.go:212-221 -/
  | exit {p} : p.shut = .written → PStep L H E p { p with shut := .ended }
  /-- api.go:1079, oracle.go:147-157 `StateWithHash` -/
  | apiLock {p} : p.shut ≠ .ended → p.holder = none → PStep L H E p { p with holder := some .api }
  | apiHash {p} : p.shut ≠ .ended → p.holder = some .api →
      PStep L H E p { p with mem := ⟨p.mem.cfg, hashState L p.mem.st⟩, holder := none }

/-- Any number of steps, all through states with property `P` (the first one included).
/repo: main.go:198-221, 223-496; oracle/oracle.go:495-558 -/
inductive PRun (L : Lib) (H : List Nat → List Nat) (E : Env) (P : Proc → Prop) : Proc → Proc → Prop
  | refl {p} : P p → PRun L H E P p p
  | step {p q r} : PRun L H E P p q → PStep L H E q r → P r → PRun L H E P p r

end Verif
