import Verif.Model.Metrics
import Verif.Spec.MainLoop
/-
What monitoring should show.
-/
namespace Verif

/-- A run of the main loop from `l` with its gauges: they are those of a new process at the beginning. -/
inductive MeteredRun (L : Lib) (H : List Nat → List Nat) (E : Env) (l : Loop) :
    List LoopEv → Loop → Gauges → Prop
  | nil : MeteredRun L H E l [] l .new
  | step {tr l1 l2 A evs g} : MeteredRun L H E l tr l1 g →
      (∀ fin, A.finalized = some fin → fin + 1 < 2 ^ 64) →
      stepLoop L H E A l1 = .ok (l2, evs) → MeteredRun L H E l (tr ++ evs) l2 (meter l2 g evs)

/-- The last slot of a trace that was processed, with the finalized slot reported then. -/
def LastSlot (tr : List LoopEv) (s fin : Nat) : Prop :=
  ∃ pre post, tr = pre ++ .processed s fin :: post ∧ ∀ s' fin', .processed s' fin' ∉ post

/-- A gauge shows a number: exactly if it is below 2 ^ 53, and else within one part in 2 ^ 53. -/
def GaugeOf (x n : Nat) : Prop :=
  (n < 2 ^ 53 → x = n) ∧ (x - n) * 2 ^ 53 ≤ n ∧ (n - x) * 2 ^ 53 ≤ n

/-- The HTTP server between two requests: it answers requests one after the other, with the main loop
replacing the books in between. `log`: each request with what its client got. -/
inductive ServerRun (L : Lib) (E : Env) (pool : Str) (relays : List Str) :
    List (HttpReq × Outcome) → Server → Prop
  | start (o : Oracle) : ServerRun L E pool relays [] ⟨o, fun _ => 0⟩
  | request {log S S' q a} : ServerRun L E pool relays log S →
      answerHttp L E pool relays S q = .ok (a, S') → ServerRun L E pool relays (log ++ [(q, a)]) S'
  | loop {log S} (o : Oracle) : ServerRun L E pool relays log S →
      ServerRun L E pool relays log { S with o := o }

/-- The documented paths of the service (the list of constants at the head of api/api.go, and the root);
braces mark a variable part. -/
def documented : List Str :=
  [b!"/", b!"/status", b!"/config", b!"/registeredrelays/{valpubkey}", b!"/state", b!"/memory/validators",
   b!"/memory/validator/{valindex}", b!"/memory/validatorsbyindex/{valindices}",
   b!"/memory/validators/{withdrawalAddress}", b!"/memory/feesinfo", b!"/memory/statistics",
   b!"/memory/allblocks", b!"/memory/proposedblocks", b!"/memory/missedblocks", b!"/memory/wrongfeeblocks",
   b!"/memory/donations", b!"/onchain/proof/{withdrawalAddress}"]

/-- A path fits a documented one: it is the same, or it has a non-empty text without slash in place of the
braces (123) at the end. -/
def FitsPath (p path : Str) : Prop :=
  (123 ∉ p ∧ path = p) ∨ ∃ pre v x, p = pre ++ 123 :: v ∧ 123 ∉ pre ∧ x ≠ [] ∧ 47 ∉ x ∧ path = pre ++ x

/-- The client of this request asked with GET for a path that fits `p`, and was sent this status. -/
def Got (p : Str) (code : Nat) (e : HttpReq × Outcome) : Prop :=
  e.1.method = b!"GET" ∧ FitsPath p e.1.path ∧ ∃ body, e.2 = .answered ⟨some code, body⟩

/-- What a handler can do with the writer it was given: set the status, or write (the connection takes it or
not). -/
inductive WOp
  | header (code : Nat)
  | write (b : Str) (up : Bool)

/-- The same calls on the connection itself, without the middleware in between. -/
def plain : List WOp → Sent → Sent
  | [], s => s
  | .header c :: l, s => plain l (s.header c)
  | .write b up :: l, s => plain l (s.write b up)

/-- The same calls on the middleware's writer. -/
def delegated : List WOp → Delegate → Delegate
  | [], d => d
  | .header c :: l, d => delegated l (d.header c)
  | .write b up :: l, d => delegated l (d.write b up)

/-- The number of elements of a list with a property. -/
inductive Counted {α : Type} (P : α → Prop) : List α → Nat → Prop
  | nil : Counted P [] 0
  | yes {l n x} : Counted P l n → P x → Counted P (l ++ [x]) (n + 1)
  | no {l n x} : Counted P l n → ¬ P x → Counted P (l ++ [x]) n

end Verif
