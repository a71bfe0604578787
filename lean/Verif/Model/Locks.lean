import Mathlib.Logic.Function.Basic
/-
The mutex of the oracle (oracle/oracle.go:37, a Go `sync.RWMutex`) and the goroutines using it: the main
loop, the HTTP handlers and the shutdown handler, reduced to the order in which they lock and unlock.
-/
namespace Verif

/-- What a goroutine does next. `work`: anything that does not touch the mutex and terminates.
/repo: oracle/oracle.go:37, 116-167, 499-512, 567, 714, 772, 789 (the mutex) -/
inductive Act
  | work | rlock | runlock | lock | unlock
  deriving DecidableEq, Repr

/-! ### The functions that use the mutex -/

/-- oracle/oracle.go:115-119 `State`. -/
def stateActs : List Act := [.rlock, .runlock]

/-- oracle/oracle.go:123-143 `IsCheckpoint`; line 126 calls `State` with the read lock held. -/
def isCheckpointActs : List Act := .rlock :: stateActs ++ [.work, .runlock]

/-- oracle/oracle.go:147-157 `StateWithHash`, when hashing succeeds (json.Marshal of the state does not
fail; on an error the function would return with the lock held). -/
def stateWithHashActs : List Act := [.lock, .work, .unlock] ++ stateActs

/-- oracle/oracle.go:163-258 `AdvanceStateToNextSlot`. -/
def advanceActs : List Act := [.lock, .work, .unlock]

/-- oracle/oracle.go:495-555 `SaveToJson`, when marshalling succeeds. The files are written without the
lock; line 540 calls `State`. -/
def saveActs (saveSlot : Bool) : List Act :=
  [.lock, .work, .unlock, .work] ++ (if saveSlot then stateActs ++ [.work] else [])

/-- oracle/oracle.go:713-766 `FreezeCheckpoint`. -/
def freezeActs : List Act := [.lock, .work, .unlock]

/-- oracle/oracle.go:771-785 `LatestCommitedSlot`: calls `State` once or twice with the read lock held. -/
def latestSlotActs (any : Bool) : List Act :=
  .rlock :: stateActs ++ (if any then stateActs ++ [.work] else []) ++ [.runlock]

/-- oracle/oracle.go:788-800 `LatestCommitedState`: calls `LatestCommitedSlot` and `State` with the read
lock held. -/
def latestStateActs (any : Bool) : List Act :=
  .rlock :: latestSlotActs any ++ (if any then stateActs else []) ++ [.runlock]

/-- oracle/oracle.go:944-968 `GetUniqueWithdrawalAddresses`: `State` twice, no lock held in between. -/
def uniqueAddressesActs : List Act := stateActs ++ [.work] ++ stateActs

/-- Everything main.go:223-496 `mainLoop` calls that uses the mutex. `RunOffchainReconciliation` and
`RunOnchainReconciliation` read the state without the mutex: they are `work`. -/
def mainCalls : List (List Act) :=
  [[.work], stateActs, advanceActs, isCheckpointActs, freezeActs, latestSlotActs true, latestSlotActs false,
    latestStateActs true, latestStateActs false, saveActs true, uniqueAddressesActs]

/-- main.go:231-232, then, for ever, a slot that is not a checkpoint: main.go:256, 259, 262, 266, 270, 271,
314 and 320. (Beginning with the third call the sequence repeats.) -/
def ordinarySlots (n : Nat) : List Act :=
  if n < 2 then stateActs
  else match (n - 2) % 8 with
    | 0 => stateActs
    | 1 => stateActs
    | 2 => advanceActs
    | 3 => stateActs
    | 4 => stateActs
    | 5 => stateActs
    | 6 => stateActs
    | _ => isCheckpointActs

/-! ### The mutex -/

/-- The mutex and the goroutines. Goroutines are numbered.
/repo: oracle/oracle.go:37, 116-167, 499-512, 567, 714, 772, 789 (the mutex) -/
structure Sys where
  /-- what is left of the current call -/
  todo : Nat → List Act
  /-- number of calls begun -/
  begun : Nat → Nat
  /-- holders of read locks, once per lock held -/
  readers : List Nat
  /-- goroutines waiting inside `RLock` -/
  rwait : List Nat
  /-- goroutines waiting inside `Lock` for the mutex among writers -/
  queue : List Nat
  /-- the goroutine that has the mutex among writers; `false`: it is still waiting for the readers to
  leave; `true`: it holds the lock -/
  owner : Option (Nat × Bool)

/-- oracle/oracle.go:37, 116-167, 499-512, 567, 714, 772, 789 (the mutex) -/
def Sys.init : Sys := ⟨fun _ => [], fun _ => 0, [], [], [], none⟩

/-- Goroutine `t` executes one step; nothing happens if it is blocked. `calls t n` is the `n`-th call of
goroutine `t`. The rules are those of Go's `sync.RWMutex`: a reader enters if no writer has announced
itself, otherwise it waits until that writer unlocks; a writer first gets the mutex among writers
(first come, first served), which announces it, and then waits until the readers have left; unlocking lets
all waiting readers in at once. /repo: oracle/oracle.go:37, 116-167, 499-512, 567, 714, 772, 789 (the mutex) -/
def Sys.step (calls : Nat → Nat → List Act) (s : Sys) (t : Nat) : Sys :=
  match s.todo t with
  | [] => { s with todo := Function.update s.todo t (calls t (s.begun t))
                   begun := Function.update s.begun t (s.begun t + 1) }
  | .work :: l => { s with todo := Function.update s.todo t l }
  | .rlock :: l =>
    if t ∈ s.rwait then s
    else if s.owner = none then
      { s with todo := Function.update s.todo t l, readers := t :: s.readers }
    else { s with rwait := t :: s.rwait }
  | .runlock :: l =>
    if t ∈ s.readers then
      { s with todo := Function.update s.todo t l, readers := s.readers.erase t }
    else s
  | .lock :: l =>
    if s.owner = some (t, false) then
      if s.readers = [] then
        { s with todo := Function.update s.todo t l, owner := some (t, true) }
      else s
    else if t ∈ s.queue then
      if s.queue.head? = some t ∧ s.owner = none then
        { s with queue := s.queue.tail, owner := some (t, false) }
      else s
    else { s with queue := s.queue ++ [t] }
  | .unlock :: l =>
    if s.owner = some (t, true) then
      { s with
        todo := fun u => if u = t then l else if u ∈ s.rwait then (s.todo u).tail else s.todo u
        readers := s.rwait ++ s.readers, rwait := [], owner := none }
    else s

/-- The state after `k` steps of schedule `τ`.
/repo: oracle/oracle.go:37, 116-167, 499-512, 567, 714, 772, 789 (the mutex) -/
def Sys.run (calls : Nat → Nat → List Act) (τ : Nat → Nat) : Nat → Sys
  | 0 => .init
  | k + 1 => (Sys.run calls τ k).step calls (τ k)

end Verif
