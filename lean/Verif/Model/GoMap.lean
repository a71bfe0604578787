import Verif.Model.Types
/-
Go maps with text or number keys as association lists with ascending keys, like the map of validators
(Model/VMap.lean).
-/
namespace Verif

/-- Assignment to a Go map: replaces or inserts, keeping keys ascending.
/repo: oracle/oracle.go:508, 593, 605, 993 (maps of the state through encoding/json) -/
def GoMap.put {κ α : Type} [LT κ] [DecidableLT κ] [DecidableEq κ] :
    List (κ × α) → κ → α → List (κ × α)
  | [], k, v => [(k, v)]
  | (k', v') :: rest, k, v =>
    if k < k' then (k, v) :: (k', v') :: rest
    else if k = k' then (k, v) :: rest
    else (k', v') :: GoMap.put rest k v

/-- Assignment to a map with string keys (oracle/merklelizer.go:164-165, oracle/oracle.go:749-752). -/
def putStr {α : Type} (m : List (Str × α)) (k : Str) (v : α) : List (Str × α) := GoMap.put m k v

/-- Look-up in such a map. /repo: oracle/oracle.go:508, 593, 605, 993 (maps of the state through encoding/json) -/
def getStr {α : Type} (m : List (Str × α)) (k : Str) : Option α :=
  (m.find? fun p => p.1 == k).map (·.2)

/-- Assignment to a map with `uint64` keys (oracle/oracle.go:764: the checkpoints). -/
def putNat {α : Type} (m : List (Nat × α)) (k : Nat) (v : α) : List (Nat × α) := GoMap.put m k v

/-- Insertion of an entry before the first one whose key is not smaller.
/repo: oracle/oracle.go:508, 593, 605, 993 (maps of the state through encoding/json) -/
def insertField {α : Type} (p : Str × α) : List (Str × α) → List (Str × α)
  | [] => [p]
  | q :: rest => if q.1 < p.1 then q :: insertField p rest else p :: q :: rest

/-- encoding/json `mapEncoder.encode`: the entries of a map sorted by the text of the key.
/repo: oracle/oracle.go:508, 593, 605, 993 (maps of the state through encoding/json) -/
def sortFields {α : Type} : List (Str × α) → List (Str × α)
  | [] => []
  | p :: rest => insertField p (sortFields rest)

end Verif
