/-
Basic vocabulary of the model: byte strings, 64-bit helpers, crash outcomes.
-/
namespace Verif

/-- A Go `string`: a sequence of bytes. /repo: oracle/types.go:83-223 -/
abbrev Str := List Nat

/-- `b!"..."` writes an ASCII string literal as the list of its byte values. -/
syntax:max (name := bstr) "b!" str : term
open Lean in
macro_rules
  | `(b! $s:str) => do
    let cs := s.getString.toList
    let xs ← cs.mapM fun c => `($(Lean.quote c.toNat))
    `(([$xs.toArray,*] : List Nat))

/-- Lower-casing of one ASCII byte, as `strings.ToLower` does on ASCII text.
Simplification: non-ASCII text never occurs in the strings concerned (hex addresses,
hex roots). /repo: utils/utils.go:191-200 -/
def lowerByte (c : Nat) : Nat := if 65 ≤ c ∧ c ≤ 90 then c + 32 else c

/-- Go `strings.ToLower` (ASCII). Used in utils/utils.go:196, oracle/merklelizer.go:69,99,108,123,
oracle/block.go:389,393, api/api.go. -/
def lower (s : Str) : Str := s.map lowerByte

/-- The ways the process can stop: `log.Fatal` (exit status 1) and a run-time panic
(nil dereference, division by zero, index out of range). Neither is a returned `error`.
/repo: oracle/oracle.go:163-259, among others -/
inductive Crash
  | fatal
  | panic
  deriving DecidableEq, Repr

/-- A Go function that may stop the process. Returned `error` values are part of `α`.
/repo: oracle/oracle.go:163-259, among others -/
abbrev M (α : Type) := Except Crash α

/-- `uint64` truncation. /repo: oracle/oracle.go:163-259, among others -/
def u64 (n : Nat) : Nat := n % 18446744073709551616

/-- `uint64` subtraction with wrap-around, for operands below 2^64. /repo: oracle/oracle.go:123-143, main.go:266 -/
def sub64 (a b : Nat) : Nat := u64 (a + (18446744073709551616 - b))

/-- Go's conversion to a signed 64-bit integer (`int64(x)`, `big.Int.Int64()`): low 64 bits,
two's complement. /repo: oracle/block.go:502, 518 -/
def i64 (x : Int) : Int := Int.bmod x 18446744073709551616

/-- Two hexadecimal digits of one byte, as `hex.EncodeToString` writes them (lower case).
/repo: utils/utils.go:179; oracle/oracle.go:1851 -/
def hexDigit (d : Nat) : Nat := if d < 10 then 48 + d else 87 + d

/-- `hex.EncodeToString` (encoding/hex); bytes are numbers below 256.
/repo: utils/utils.go:179; oracle/oracle.go:1851 -/
def hexEncode : List Nat → Str
  | [] => []
  | b :: bs => hexDigit (b / 16) :: hexDigit (b % 16) :: hexEncode bs

/-- utils/utils.go:191-200 `Equals`: case-insensitive comparison; a length mismatch is
`log.Fatal`. -/
def equals (a b : Str) : M Bool :=
  if a.length ≠ b.length then .error .fatal
  else .ok (lower a = lower b)

/-- utils/utils.go:263-270 `IsIn`: first match wins, a length mismatch met before is Fatal. -/
def isIn (a : Str) : List Str → M Bool
  | [] => .ok false
  | x :: xs => do
    if ← equals a x then .ok true else isIn a xs

/-- utils/utils.go:50-56 `SumAndSaturate`. -/
def sumAndSaturate (a b sat : Int) : Int :=
  if a + b ≥ sat then sat else a + b

end Verif
