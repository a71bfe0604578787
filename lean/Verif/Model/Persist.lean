import Verif.Model.Json
import Verif.Model.Merkle
/-
Saving and loading the state: oracle/oracle.go:491-706, 805-852, 988-1006 and the start of the program,
main.go:131-190.
-/
namespace Verif

/-- Library functions used to save and load: `json.MarshalIndent` (text of a document),
`json.Unmarshal` (its parser, `none`: not a document) and `sha256.Sum256`.
/repo: oracle/oracle.go:508, 593, 605, 613, 993, 999 -/
structure Lib where
  print : J → List Nat
  parse : List Nat → Option J
  sha : List Nat → List Nat

/-- oracle/oracle.go:988-1006 `hashStateLockFree`: the hash of the state with an empty hash field
(`hexutil.Encode` writes `0x` and lower-case digits). Marshalling does not fail on these types. -/
def stateDigest (L : Lib) (s : State) : Str :=
  b!"0x" ++ hexEncode (L.sha (L.print (encState { s with stateHash := [] })))

/-- oracle/oracle.go:988-1006 `hashStateLockFree`: the hash is stored in the state. -/
def hashState (L : Lib) (s : State) : State := { s with stateHash := stateDigest L s }

/-- The files of the state folder and their bytes. /repo: oracle/oracle.go:495-588 -/
abbrev Disk := List (Str × List Nat)

/-- oracle/oracle.go:28-29. -/
def stateJson : Str := b!"state.json"

/-- oracle/oracle.go:540, 685, 697: the name of the copy of a slot. -/
def slotJson (slot : Nat) : Str := b!"state_" ++ decimal slot ++ b!".json"

/-- oracle/oracle.go:499-507: what is written. -/
def savedBytes (L : Lib) (s : State) : List Nat := L.print (encState (hashState L s))

/-- oracle/oracle.go:495-555 `SaveToJson`, when the file system does its job. (When it does not, an
error is returned; what a torn write leaves behind is studied in the theorems.) -/
def saveToJson (L : Lib) (saveSlot : Bool) (o : Oracle) (d : Disk) : Oracle × Disk :=
  let o' := { o with st := hashState L o.st }
  let d' := putStr d stateJson (savedBytes L o.st)
  (o', if saveSlot then putStr d' (slotJson o.st.latestSlot) (savedBytes L o.st) else d')

/-- What the loading functions return: (true, nil), (false, nil) or (false, error).
/repo: oracle/oracle.go:560-711 -/
inductive Load | loaded | notFound | failed
  deriving DecidableEq, Repr

/-- oracle/oracle.go:590-681 `LoadFromBytes`. The configuration is shared with the caller, so a change
of its fee stays even when loading fails. At the end the Merkle tree is computed only to log its root
(oracle.go:1838-1847). -/
def loadFromBytes (L : Lib) (H : List Nat → List Nat) (E : Env) (o : Oracle) (raw : List Nat) :
    M (Oracle × Load) :=
  match (L.parse raw).bind decState with
  | none => .ok (o, .failed)
  | some st0 => do
    let st := { st0 with stateHash := [], tick := o.st.tick }
    let same ← equals st0.stateHash (stateDigest L st)
    if !same then .ok (o, .failed)
    else if st.network ≠ o.cfg.network then .ok (o, .failed)
    else if st.poolAddr ≠ o.cfg.poolAddr then .ok (o, .failed)
    else if st.poolFeesAddr ≠ o.cfg.poolFeesAddr then .ok (o, .failed)
    else
      let cfg := if st.fee ≠ o.cfg.fee then
        applySchedule (feeSchedule o.cfg.network) o.cfg st.latestSlot else o.cfg
      let o' := { o with cfg := cfg }
      if st.fee ≠ cfg.fee then .ok (o', .failed)
      else if st.collateral ≠ cfg.collateral then .ok (o', .failed)
      else if st.cpSize ≠ cfg.cpSize then .ok (o', .failed)
      else if st.depBlock ≠ cfg.depBlock then .ok (o', .failed)
      else if st.depSlot ≠ cfg.depSlot then .ok (o', .failed)
      else do
        let _ ← generateTree H E st.tick st
        .ok (⟨cfg, { st with tick := st.tick + 2 }⟩, .loaded)

/-- oracle/oracle.go:567-588 `LoadFromPath`. Simplification: a file that exists can be read. -/
def loadFromPath (L : Lib) (H : List Nat → List Nat) (E : Env) (d : Disk) (o : Oracle) (path : Str) :
    M (Oracle × Load) :=
  match getStr d path with
  | none => .ok (o, .notFound)
  | some raw => loadFromBytes L H E o raw

/-- oracle/oracle.go:692-702: the loop over older checkpoints; an error does not stop it, only the
last one is returned. -/
def loadOlder (L : Lib) (H : List Nat → List Nat) (E : Env) (d : Disk) (slot : Nat) :
    List Nat → Oracle → Load → M (Oracle × Load)
  | [], o, r => .ok (o, r)
  | i :: rest, o, _ => do
    let (o', r) ← loadFromPath L H E d o (slotJson (sub64 slot (u64 (o.cfg.cpSize * i))))
    if r = .loaded then .ok (o', r) else loadOlder L H E d slot rest o' r

/-- oracle/oracle.go:683-706 `LoadGivenState`. -/
def loadGivenState (L : Lib) (H : List Nat → List Nat) (E : Env) (d : Disk) (o : Oracle) (slot : Nat) :
    M (Oracle × Load) := do
  let (o', r) ← loadFromPath L H E d o (slotJson slot)
  match r with
  | .failed => .ok (o', .failed)
  | .loaded => .ok (o', .loaded)
  | .notFound => loadOlder L H E d slot [1, 2] o' .notFound

/-- main.go:131-190: from the configuration to the state the main loop starts with. `source` is the
answer of the checkpoint sync address if one is given; `onchainSlot = none`: the contract could not be
read. -/
def startup (L : Lib) (H : List Nat → List Nat) (E : Env) (d : Disk) (cfg : Config)
    (source : Option (List Nat)) (onchainSlot : Option Nat) : M Oracle := do
  let o0 := newOracle cfg
  let (o1, r) ← (match source with
    | some raw => loadFromBytes L H E o0 raw
    | none => loadFromPath L H E d o0 stateJson)
  if r = .failed then .error .fatal
  else match onchainSlot with
    | none => .error .fatal
    | some slot =>
      let latest := (latestCommittedSlot E o1.st.tick o1.st).1
      let o2 := { o1 with st := { o1.st with tick := o1.st.tick + 1 } }
      if !o2.cfg.dryRun ∧ latest > slot then do
        let (o3, r) ← loadGivenState L H E d o2 slot
        if r = .loaded then .ok o3 else .error .fatal
      else .ok o2

/-- oracle/types.go:15 `DefaultRoot`. -/
def defaultRoot : Str := b!"0x0000000000000000000000000000000000000000000000000000000000000000"

/-- oracle/oracle.go:805-852 `IsOracleInSyncWithChain`; `none`: an error is returned. The map of
checkpoints is read at its greatest key; a nil entry would be a panic. -/
def inSync (E : Env) (t : Nat) (s : State) (onchainRoot : Str) (onchainSlot : Nat) : M (Option Bool) :=
  let (slot, one) := latestCommittedSlot E t s
  if !one then do
    if ← equals onchainRoot defaultRoot then .ok (some true) else .ok (some false)
  else match getFrozen s.committed slot with
    | none => .error .panic
    | some f => do
      let same ← equals onchainRoot f.root
      if same ∧ onchainSlot = slot then .ok (some true)
      else if (same ∧ onchainSlot ≠ slot) ∨ (¬ same ∧ onchainSlot = slot) then .ok none
      else .ok (some false)

end Verif
