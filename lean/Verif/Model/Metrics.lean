import Verif.Model.MainLoop
import Verif.Model.Replies
/-
What the Prometheus endpoint shows (metrics/metrics.go): the gauges set by the main loop, and the counter of
HTTP requests kept by the middleware of the HTTP service (api/api.go:124-183).

Not modelled: the version gauge (a constant label), the histogram of latencies, and the Prometheus library
and server.
-/
namespace Verif

/-! ### Gauges -/

/-- Go `float64(n)` of a `uint64`: 53 binary digits are kept, rounding to the nearest, ties to even.
/repo: main.go:269-271 -/
def float64 (n : Nat) : Nat :=
  if n < 2 ^ 53 then n
  else
    let e := Nat.log2 n - 52
    let q := n / 2 ^ e
    let r := n % 2 ^ e
    (if 2 * r > 2 ^ e ∨ (2 * r = 2 ^ e ∧ q % 2 = 1) then q + 1 else q) * 2 ^ e

/-- metrics/metrics.go:15-49. `known`: the labels (slot, root) whose gauge is 1. -/
structure Gauges where
  distance : Nat
  slot : Nat
  block : Nat
  known : List (Str × Str)
  deriving DecidableEq, Repr

/-- metrics/metrics.go:14-49: `promauto` creates every gauge with 0, and no label. -/
def Gauges.new : Gauges := ⟨0, 0, 0, []⟩

/-- main.go:266-271 (after a slot, all three from the state after it) and main.go:366-369 (after a freeze).
`l`: the program after the step. -/
def meterEv (l : Loop) (g : Gauges) : LoopEv → Gauges
  | .processed _ fin =>
    { g with
      distance := float64 (sub64 fin l.o.st.latestSlot)
      slot := float64 l.o.st.latestSlot
      block := float64 l.o.st.latestBlock }
  | .frozen slot root => { g with known := (decimal slot, root) :: g.known }
  | _ => g

/-- The gauges after one step of the main loop that led to `l` with these events. /repo: main.go:223-496 -/
def meter (l : Loop) (g : Gauges) (evs : List LoopEv) : Gauges := evs.foldl (meterEv l) g

/-! ### The writer of the middleware -/

/-- What has been sent on a connection: net/http's own `ResponseWriter`. /repo: api/api.go:125-142 -/
structure Sent where
  status : Option Nat
  body : Str
  deriving DecidableEq, Repr

/-- net/http `response.WriteHeader`: a second call is ignored. /repo: api/api.go:131-135 -/
def Sent.header (s : Sent) (code : Nat) : Sent :=
  if s.status = none then { s with status := some code } else s

/-- net/http `response.Write`; `up`: the connection takes it. Without a header before, it sends 200.
/repo: api/api.go:137-142 -/
def Sent.write (s : Sent) (b : Str) (up : Bool) : Sent :=
  let s := s.header 200
  if up then { s with body := s.body ++ b } else s

/-- api/api.go:124-129 `responseWriterDelegator`; all but the writer start with zero values. -/
structure Delegate where
  inner : Sent
  status : Nat
  written : Nat
  wroteHeader : Bool
  deriving DecidableEq, Repr

/-- api/api.go:162: a new delegator around a fresh connection. -/
def Delegate.new : Delegate := ⟨⟨none, []⟩, 0, 0, false⟩

/-- api/api.go:131-135. -/
def Delegate.header (d : Delegate) (code : Nat) : Delegate :=
  { d with status := code, wroteHeader := true, inner := d.inner.header code }

/-- api/api.go:137-144. A connection that is down takes nothing (`n = 0` and an error). -/
def Delegate.write (d : Delegate) (b : Str) (up : Bool) : Delegate :=
  let d := if d.wroteHeader then d else d.header 200
  { d with inner := d.inner.write b up, written := d.written + if up then b.length else 0 }

/-- net/http `http.Error(w, "", 500)`: a header and an empty line. /repo: api/api.go:105-123 -/
def httpError (d : Delegate) (up : Bool) : Delegate := (d.header 500).write [10] up

/-- api/api.go:105-122 `respondError`, `respondOK`: the header first, then the JSON text in one `Write`; if
that fails, `http.Error`. That `Encode` itself fails is left out: it does not for the types of the answers. -/
def respond (d : Delegate) (code : Nat) (text : Str) (up : Bool) : Delegate :=
  let d := (d.header code).write text up
  if up then d else httpError d up

/-! ### Counting requests -/

/-- mux `GetPathTemplate` of the route of a request; api/api.go:54-76, 185-211. -/
def template : Request → Str
  | .root => b!"/"
  | .status => b!"/status"
  | .config => b!"/config"
  | .relays _ => b!"/registeredrelays/{valpubkey}"
  | .state => b!"/state"
  | .validators => b!"/memory/validators"
  | .validatorInfo _ => b!"/memory/validator/{valindex}"
  | .byIndex _ => b!"/memory/validatorsbyindex/{valindices}"
  | .byWithdrawal _ => b!"/memory/validators/{withdrawalAddress}"
  | .fees => b!"/memory/feesinfo"
  | .statistics => b!"/memory/statistics"
  | .allBlocks => b!"/memory/allblocks"
  | .proposedBlocks => b!"/memory/proposedblocks"
  | .missedBlocks => b!"/memory/missedblocks"
  | .wrongFeeBlocks => b!"/memory/wrongfeeblocks"
  | .donations => b!"/memory/donations"
  | .proof _ => b!"/onchain/proof/{withdrawalAddress}"

/-- The labels of `HttpRequestsTotal` (metrics/metrics.go:61-68): code, method, path. -/
abbrev Labels := Str × Str × Str

/-- One HTTP request, with what happens around it: what the handler learns from outside, the number of the
map iteration, the texts in the reply (see `httpReply`), and whether the connection is still up when the
answer is written. /repo: api/api.go:156-183 -/
structure HttpReq where
  method : Str
  path : Str
  W : Outside
  t : Nat
  T : Texts
  message : Str
  up : Bool

/-- What the client gets: an answer, or a connection that is closed (net/http recovers a panic).
/repo: api/api.go:156-245 -/
inductive Outcome
  | answered (s : Sent)
  | lost
  deriving DecidableEq, Repr

/-- The oracle and the counter. /repo: api/api.go:156-245; metrics/metrics.go:62-69 -/
structure Server where
  o : Oracle
  counts : Labels → Nat

/-- `Counter.Inc`. /repo: api/api.go:156-183; metrics/metrics.go:62-69 -/
def inc (c : Labels → Nat) (k : Labels) : Labels → Nat := fun x => if x = k then c x + 1 else c x

/-- api/api.go:156-183, 185-218, 247-265: `corsMiddleware` answers OPTIONS by returning at once (net/http
then sends 200 and nothing else); mux answers 404 for an unknown path and 405 for another method, without
calling the middlewares; else the handler runs inside `prometheusMiddleware`, which counts it when it has
returned. A panic leaves the middleware before the counting; log.Fatal ends the process. The goroutine that
increments is taken as done at once. The texts mux sends with 404 and 405 are left out (404's is
"404 page not found"), and so are the CORS headers and mux's redirection of unclean paths. -/
def answerHttp (L : Lib) (E : Env) (pool : Str) (relays : List Str) (S : Server) (q : HttpReq) :
    M (Outcome × Server) :=
  if q.method = b!"OPTIONS" then .ok (.answered ⟨some 200, []⟩, S)
  else match route q.path with
    | none => .ok (.answered ⟨some 404, []⟩, S)
    | some r =>
      if q.method ≠ b!"GET" then .ok (.answered ⟨some 405, []⟩, S)
      else match serve L E q.t q.W pool relays S.o r with
        | .error .panic => .ok (.lost, S)
        | .error .fatal => .error .fatal
        | .ok (reply, o) =>
          let (code, text) := httpReply q.T q.message reply
          let d := respond .new code text q.up
          .ok (.answered d.inner,
            ⟨o, inc S.counts (decimal d.status, lower q.method, template r)⟩)

end Verif
