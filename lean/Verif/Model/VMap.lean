import Verif.Model.Types
/-
Go's `map[uint64]*ValidatorInfo` as an association list with ascending keys.
-/
namespace Verif
namespace VMap

/-- `m[k]` with the "found" flag. /repo: oracle/types.go:186-223 (`Validators`), used all over oracle/oracle.go -/
def get (m : VMap) (k : Nat) : Option Validator :=
  match m with
  | [] => none
  | (k', v) :: rest => if k' = k then some v else get rest k

/-- In-place update of the entry with key `k`, if any (assignment through the pointer).
/repo: oracle/types.go:186-223 (`Validators`), used all over oracle/oracle.go -/
def modify (m : VMap) (k : Nat) (f : Validator → Validator) : VMap :=
  m.map fun p => if p.1 = k then (p.1, f p.2) else p

/-- `m[k] = v`: replaces or inserts, keeping keys ascending.
/repo: oracle/types.go:186-223 (`Validators`), used all over oracle/oracle.go -/
def insert (m : VMap) (k : Nat) (v : Validator) : VMap :=
  match m with
  | [] => [(k, v)]
  | (k', v') :: rest =>
    if k < k' then (k, v) :: (k', v') :: rest
    else if k = k' then (k, v) :: rest
    else (k', v') :: insert rest k v

/-- the keys, in storage order. /repo: oracle/types.go:186-223 (`Validators`), used all over oracle/oracle.go -/
def keys (m : VMap) : List Nat := m.map (·.1)

end VMap
end Verif
