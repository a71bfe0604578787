import Verif.Model.Fetch
import Verif.Model.Reconcile
import Verif.Model.Persist
import Verif.Model.Onchain
import Verif.Model.Nodes
/-
main.go:223-496 `mainLoop` as a machine: one step per place where the program asks the nodes or the
contract, so that every answer can be different, and the shutdown handler main.go:198-221.

Not modelled: logging and sleeping (metrics: Model/Metrics.lean). The call of `RefreshBeaconValidators` before the loop (main.go:228)
is not a step: if it stops the process, the oracle was stopped right after its start.
-/
namespace Verif

/-- What the nodes, the contract, the clock and the disk answer during one step. `none` is an error.
/repo: main.go:223-496 -/
structure Answers where
  /-- whether the execution node is still syncing -/
  exec : Option Bool
  /-- how far behind the head the consensus node is -/
  cons : Option Nat
  /-- slot of `FinalizedBeaconBlockHeader` -/
  finalized : Option Nat
  /-- everything `FetchFullBlock` asks -/
  fetch : Chain
  /-- `time.Now().Unix()` -/
  now : Int
  /-- `GetPoolEthBalance` -/
  balance : Option Int
  /-- claimed amounts by address -/
  claim : Str → Option Int
  /-- slot in `GetAddressToVotedReport` of this oracle -/
  report : Option Nat
  /-- whether `GetQuorum` answers -/
  quorum : Bool
  /-- `GetOnchainSlotAndRoot` -/
  chain : Option (Str × Nat)
  /-- what happens to a transaction -/
  tx : TxWorld
  /-- all finalized validators -/
  vals : Option NodeVals
  /-- a failed write: what it leaves on the disk -/
  torn : Option Disk

/-- main.go:237 `AreNodesInSync`. -/
def Answers.sync (A : Answers) : Option Bool := nodesInSync A.exec A.cons

/-- Where the loop is. The checkpoint (`newState`) is kept while it is worked on. /repo: main.go:223-496 -/
inductive Pc
  /-- main.go:235 -/
  | top
  /-- main.go:313: a slot has just been processed -/
  | processed
  /-- main.go:373: waiting while this oracle's own vote for the checkpoint is pending -/
  | vote (f : Frozen)
  /-- main.go:404: the chain is read to know whether to pause -/
  | pause (f : Frozen)
  /-- main.go:418: the chain is read to know whether to submit -/
  | decide (f : Frozen)
  /-- main.go:441: a root is being submitted -/
  | submit (f : Frozen)
  /-- main.go:460: waiting until the chain shows the root -/
  | confirm (f : Frozen)
  /-- main.go:488: about to save -/
  | save (f : Frozen)
  deriving DecidableEq, Repr

/-- The state of the program. /repo: main.go:223-496 -/
structure Loop where
  pc : Pc
  o : Oracle
  disk : Disk
  lastRec : Int

/-- What can be seen from outside. /repo: main.go:223-496 -/
inductive LoopEv
  /-- a slot was processed, while this finalized slot had been reported -/
  | processed (slot finalized : Nat)
  /-- the offchain reconciliation succeeded -/
  | reconciled
  /-- a checkpoint was frozen -/
  | frozen (slot : Nat) (root : Str)
  /-- not enough data to freeze -/
  | skipped (slot : Nat)
  /-- the vote of this oracle was read -/
  | voted (slot : Nat)
  /-- the contract showed this root and slot -/
  | chain (root : Str) (slot : Nat)
  /-- this root is submitted for this slot -/
  | submit (slot : Nat) (root : Str)
  /-- the state after this slot is written to disk -/
  | save (slot : Nat)
  deriving DecidableEq, Repr

/-- main.go:280-311: no new finalized slot. `GetPoolEthBalance` and the claimed amounts are both asked;
an error of either only leads to a warning. -/
def idle (E : Env) (A : Answers) (l : Loop) : M Loop :=
  if A.now - l.lastRec > 3 * 3600 then do
    let us ← uniqueAddresses E l.o.st.tick l.o.st
    let claimed ← claimedPer A.claim us
    let o := { l.o with st := { l.o.st with tick := l.o.st.tick + 3 } }
    match A.balance, claimed with
    | some b, some c =>
      if onchainReconciliation E (l.o.st.tick + 1) l.o.st b c then .ok { l with o := o, lastRec := A.now }
      else .error .fatal
    | _, _ => .ok { l with o := o, lastRec := A.now }
  else .ok l

/-- main.go:235-311: one slot, or nothing to do. -/
def stepTop (E : Env) (A : Answers) (l : Loop) : M (Loop × List LoopEv) :=
  match A.sync with
  | none => .error .fatal
  | some false => .ok (l, [])
  | some true => match A.finalized with
    | none => .ok (l, [])
    | some fin =>
      if fin ≥ l.o.st.nextSlot then do
        let b ← fetchFullBlock A.fetch l.o.st l.o.st.nextSlot false
        let (o, r) ← advanceState E l.o b
        match r with
        | none => .error .fatal
        | some slot => .ok ({ l with pc := .processed, o := o }, [.processed slot fin])
      else do
        let l' ← idle E A l
        .ok (l', [])

/-- main.go:30, 313-316: the cache of validators used by the HTTP service is filled again every 1200 slots. -/
def refreshDue (A : Answers) (l : Loop) : M Unit :=
  if l.o.st.latestSlot % 1200 = 0 then do
    let _ ← refresh A.vals
    .ok ()
  else .ok ()

/-- main.go:318-368: is this a checkpoint, and if so reconcile and freeze. -/
def stepProcessed (H : List Nat → List Nat) (E : Env) (l : Loop) : M (Loop × List LoopEv) := do
  match ← isCheckpoint l.o with
  | none => .error .fatal
  | some false => .ok ({ l with pc := .top }, [])
  | some true =>
    let ok ← offchainReconciliation E l.o.st.tick l.o.st
    if !ok then .error .fatal
    else do
      let (s, enough) ← freeze H E { l.o.st with tick := l.o.st.tick + 1 }
      if !enough then
        .ok ({ l with pc := .top, o := ⟨l.o.cfg, s⟩ }, [.reconciled, .skipped s.latestSlot])
      else match latestCommitted E s.tick s with
        | none => .error .panic
        | some f => .ok ({ l with pc := .vote f, o := ⟨l.o.cfg, { s with tick := s.tick + 1 }⟩ },
            [.reconciled, .frozen f.slot f.root])

/-- main.go:371-496 and above: one step of the main loop. -/
def stepLoop (L : Lib) (H : List Nat → List Nat) (E : Env) (A : Answers) (l : Loop) :
    M (Loop × List LoopEv) :=
  match l.pc with
  | .top => stepTop E A l
  | .processed => do
    refreshDue A l
    stepProcessed H E l
  | .vote f =>
    match A.report with
    | none => .error .fatal
    | some slot =>
      if !A.quorum then .error .fatal
      else
        let (latest, found) := latestCommittedSlot E l.o.st.tick l.o.st
        let o := { l.o with st := { l.o.st with tick := l.o.st.tick + 1 } }
        if !found ∨ slot ≠ latest then
          .ok ({ l with pc := if l.o.cfg.dryRun then .decide f else .pause f, o := o }, [.voted slot])
        else .ok ({ l with o := o }, [.voted slot])
  | .pause f =>
    match A.chain with
    | none => .error .fatal
    | some (r, c) => .ok ({ l with pc := .decide f }, [.chain r c])
  | .decide f =>
    match A.chain with
    | none => .error .fatal
    | some (r, c) =>
      if !l.o.cfg.dryRun ∧ f.slot = u64 (c + l.o.cfg.cpSize) then
        .ok ({ l with pc := .submit f }, [.chain r c, .submit f.slot f.root])
      else .ok ({ l with pc := .save f }, [.chain r c])
  | .submit f =>
    match (updateContractMerkleRoot A.tx f.slot f.root).1 with
    | .failed => .error .fatal
    | _ => .ok ({ l with pc := .confirm f }, [])
  | .confirm f =>
    match A.chain with
    | none => .error .fatal
    | some (r, c) =>
      if r = f.root ∧ c = f.slot then .ok ({ l with pc := .save f }, [.chain r c])
      else .ok (l, [.chain r c])
  | .save _ =>
    let (o, d) := saveToJson L true l.o l.disk
    .ok ({ l with pc := .top, o := o, disk := A.torn.getD d }, [.save l.o.st.latestSlot])

/-- main.go:198-221: SIGINT or SIGTERM at this moment; what is on the disk when the program has ended. -/
def shutdown (L : Lib) (l : Loop) : Disk := (saveToJson L false l.o l.disk).2

end Verif
