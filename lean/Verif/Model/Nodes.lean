import Verif.Model.Api
/-
oracle/onchain.go:169-210 `AreNodesInSync`, 1832-1852 `RefreshBeaconValidators` and `Validators`, and
utils/utils.go:229-257 `GetActivationSlotOfLatestProcessedValidator`.
-/
namespace Verif

/-- oracle/onchain.go:169-210 `AreNodesInSync`. `exec` is the answer of the execution node to `SyncProgress`:
whether it reported a progress, that is, whether it is still syncing; `cons` the distance to the head that the
consensus node reports; `none` is an error after all retries. The other fields of both answers are not read. -/
def nodesInSync (exec : Option Bool) (cons : Option Nat) : Option Bool :=
  match exec, cons with
  | some syncing, some distance => some (!syncing && !decide (distance > 5))
  | _, _ => none

/-- A validator in the answer to the request for all finalized validators, with its activation epoch.
/repo: oracle/onchain.go:249-269 -/
structure NodeVal where
  val : BVal
  activation : Nat
  deriving DecidableEq, Repr

/-- oracle/onchain.go:249-269 `GetFinalizedValidators`: the map that is returned, as pairs of key and value in
the order of an iteration. Nil entries are not modelled (the library makes none). -/
abbrev NodeVals := List (Nat × NodeVal)

/-- utils/utils.go:236-247: the loop over the validators. -/
def latestEpochLoop : NodeVals → Nat → Nat
  | [], latest => latest
  | p :: rest, latest => latestEpochLoop rest
      (if p.2.activation ≠ 2 ^ 64 - 1 ∧ p.2.activation > latest then p.2.activation else latest)

/-- utils/utils.go:229-257 `GetActivationSlotOfLatestProcessedValidator`. -/
def activationSlotOfLatest (vs : NodeVals) : M Nat :=
  if vs.length = 0 then .error .fatal
  else
    let latest := latestEpochLoop vs 0
    if latest = 0 then .error .fatal else .ok (u64 (latest * 32))

/-- oracle/onchain.go:1832-1848 `RefreshBeaconValidators`; the result is the new cache (`o.validators`,
oracle/onchain.go:1850-1852 `Validators`). The line that is logged at the end looks up the key `len(vals)-1` and
reads a field of what it finds: without that key it is a nil dereference. -/
def refresh (answer : Option NodeVals) : M BMap :=
  match answer with
  | none => .error .fatal
  | some vs =>
    if vs.length ≠ 0 then
      match (vs.find? fun p => p.1 == vs.length - 1) with
      | none => .error .panic
      | some _ => do
        let _ ← activationSlotOfLatest vs
        .ok (vs.map fun p => (p.1, p.2.val))
    else .error .fatal

end Verif
