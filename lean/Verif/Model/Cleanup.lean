import Verif.Model.Handlers
/-
oracle/oracle.go:261-403 `ValidatorCleanup`.
-/
namespace Verif

/-- Go map lookup that yields zero for a missing key (`SlotFork1[net]`). /repo: oracle/oracle.go:264 -/
def slotOrZero (o : Option Nat) : Nat := o.getD 0

/-- oracle/oracle.go:288-291: the map source → target; later entries overwrite earlier ones. -/
def consolTarget (cs : List (Nat × Nat)) (i : Nat) : Option Nat :=
  (cs.reverse.find? fun p => p.1 == i).map (·.2)

/-- oracle/oracle.go:318-392, one inactive validator with pending balance. Returns the state, the
amount to distribute later, and whether processing can go on (`false`: an error was returned,
the state keeps the changes made so far). -/
def cleanOne (E : Env) (slot : Nat) (cs : List (Nat × Nat)) (s : State) (tot : Int) (i : Nat) :
    M (State × Int × Bool) := do
  let s1 := s.advance i .unsubscribe
  let p ← s1.pendOf i
  match consolTarget cs i with
  | none => do
    let s2 ← s1.resetPending i
    .ok (s2, tot + p, true)
  | some tgt =>
    if s1.isTracked tgt && !s1.isBanned tgt then do
      let s2 ← s1.incPending tgt p
      let s3 ← s2.resetPending i
      .ok (s3, tot, true)
    else if !s1.isTracked tgt then
      match getSet E s1.tick slot [tgt] with
      | none => .ok ({ s1 with tick := s1.tick + 1 }, tot, false)
      | some r =>
        match r.find? (fun v => v.index == tgt) with
        | none => .ok ({ s1 with tick := s1.tick + 1 }, tot, false)
        | some v =>
          match compatAddressByte v.creds with
          | none => .error .fatal
          | some w => do
            let s2 := (State.putVal { s1 with tick := s1.tick + 1 } tgt
              { status := .notSubscribed, acc := 0, pend := p, coll := 0, waddr := w,
                index := tgt, key := hexutilEncode v.pubkey, subType := .manual })
            let s3 ← s2.resetPending i
            .ok (s3, tot, true)
    else if s1.isBanned tgt then do
      let s2 ← s1.resetPending i
      .ok (s2, tot + p, true)
    else .error .fatal

/-- oracle/oracle.go:303-394, the loop over the beacon node's answer. Reading the pending balance
of an untracked validator in the condition is a nil dereference, reached only when the validator
is not active. -/
def cleanLoop (E : Env) (slot : Nat) (cs : List (Nat × Nat)) :
    List BVal → State → Int → M (State × Int × Bool)
  | [], s, tot => .ok (s, tot, true)
  | v :: rest, s, tot =>
    if v.status.isActive then cleanLoop E slot cs rest s tot
    else do
      let p ← s.pendOf v.index
      if p = 0 then cleanLoop E slot cs rest s tot
      else do
        let (s1, tot1, go) ← cleanOne E slot cs s tot v.index
        if go then cleanLoop E slot cs rest s1 tot1 else .ok (s1, tot1, false)

/-- oracle/oracle.go:261-403 `ValidatorCleanup`; the flag is `false` when an error is returned. -/
def cleanup (E : Env) (net : Str) (s : State) (slot : Nat) : M (State × Bool) :=
  if slot < slotOrZero (slotFork1 net) then .ok (s, true)
  else
    let indices := E.shuffle s.tick (VMap.keys s.vals)
    if indices = [] then .ok (s, true)
    else
      let cs? := if slot ≥ slotOrZero (slotElectra net) then E.consol s.tick slot else some []
      match cs? with
      | none => .ok ({ s with tick := s.tick + 1 }, false)
      | some cs =>
        match getSet E s.tick slot indices with
        | none => .ok ({ s with tick := s.tick + 1 }, false)
        | some vs => do
          let (s1, tot, go) ←
            cleanLoop E slot cs (E.shuffle (s.tick + 1) vs) { s with tick := s.tick + 2 } 0
          if !go then .ok (s1, false)
          else if tot ≠ 0 then do
            let s2 ← increaseAll E net s1 tot
            .ok (s2, true)
          else .ok (s1, true)

end Verif
