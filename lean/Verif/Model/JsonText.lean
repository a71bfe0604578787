import Verif.Model.Json
/-
The text of JSON documents: `json.MarshalIndent(v, "", " ")` (oracle/oracle.go:508, 605, 993) and the scanner
behind `json.Unmarshal` (oracle/oracle.go:593). This is library code (encoding/json), modelled from its
documentation and the JSON grammar; `Lib` in `Verif.Model.Persist` leaves it open, `goLib` in
`Verif.Model.GoLib` fills it in with the functions below.
-/
namespace Verif
namespace JsonText

/-! ### Writing -/

/-- encoding/json `appendString`: quotes, backslashes, control characters and `<`, `>`, `&` are escaped.
Simplification: bytes from 128 on are copied (Go replaces invalid UTF-8); no text of the state has any.
/repo: oracle/oracle.go:508, 593, 605, 993 (`json.MarshalIndent`, `json.Unmarshal`) -/
def escape (c : Nat) : Str :=
  if c = 34 then b!"\\\""
  else if c = 92 then b!"\\\\"
  else if c = 8 then b!"\\b"
  else if c = 12 then b!"\\f"
  else if c = 10 then b!"\\n"
  else if c = 13 then b!"\\r"
  else if c = 9 then b!"\\t"
  else if c < 32 ∨ c = 60 ∨ c = 62 ∨ c = 38 then b!"\\u00" ++ hexEncode [c]
  else [c]

/-- A string between quotes. /repo: oracle/oracle.go:508, 593, 605, 993 (`json.MarshalIndent`, `json.Unmarshal`) -/
def quoted (s : Str) : Str := 34 :: (s.flatMap escape ++ [34])

/-- `big.Int.MarshalJSON`, `strconv.AppendUint`, `AppendInt`: decimal, with a minus sign if negative.
/repo: oracle/oracle.go:508, 593, 605, 993 (`json.MarshalIndent`, `json.Unmarshal`) -/
def natText (n : Nat) : Str := decDigits (n + 1) n

/-- The same for integers. /repo: oracle/oracle.go:508, 593, 605, 993 (`json.MarshalIndent`, `json.Unmarshal`) -/
def intText (n : Int) : Str := if n < 0 then 45 :: natText n.natAbs else natText n.natAbs

/-- A new line and one space for each level.
/repo: oracle/oracle.go:508, 593, 605, 993 (`json.MarshalIndent`, `json.Unmarshal`) -/
def newline (d : Nat) : Str := 10 :: List.replicate d 32

mutual
/-- `json.MarshalIndent` with the indentation of one space, at level `d`. Empty arrays and objects are written
without a line break. /repo: oracle/oracle.go:508, 593, 605, 993 (`json.MarshalIndent`, `json.Unmarshal`) -/
def write (d : Nat) : J → Str
  | .null => b!"null"
  | .bool b => if b then b!"true" else b!"false"
  | .num n => intText n
  | .str s => quoted s
  | .arr [] => b!"[]"
  | .arr (j :: l) => 91 :: (newline (d + 1) ++ (write (d + 1) j ++ (writeL (d + 1) l ++ (newline d ++ [93]))))
  | .obj [] => b!"{}"
  | .obj ((k, j) :: l) =>
    123 :: (newline (d + 1) ++ (quoted k ++ (58 :: 32 :: (write (d + 1) j ++
      (writeF (d + 1) l ++ (newline d ++ [125]))))))
/-- The further elements of an array.
/repo: oracle/oracle.go:508, 593, 605, 993 (`json.MarshalIndent`, `json.Unmarshal`) -/
def writeL (d : Nat) : List J → Str
  | [] => []
  | j :: l => 44 :: (newline d ++ (write d j ++ writeL d l))
/-- The further fields of an object.
/repo: oracle/oracle.go:508, 593, 605, 993 (`json.MarshalIndent`, `json.Unmarshal`) -/
def writeF (d : Nat) : List (Str × J) → Str
  | [] => []
  | (k, j) :: l => 44 :: (newline d ++ (quoted k ++ (58 :: 32 :: (write d j ++ writeF d l))))
end

/-! ### Reading -/

/-- What surrounds the value being read, innermost first.
/repo: oracle/oracle.go:508, 593, 605, 993 (`json.MarshalIndent`, `json.Unmarshal`) -/
inductive Frame
  /-- an array with these elements, last first -/
  | arr (l : List J)
  /-- an object with these fields, last first -/
  | obj (l : List (Str × J))
  /-- an object with these fields and the key whose value is being read -/
  | field (l : List (Str × J)) (key : Str)

/-- Where the scanner is, as the step functions of encoding/json `scanner`.
/repo: oracle/oracle.go:508, 593, 605, 993 (`json.MarshalIndent`, `json.Unmarshal`) -/
inductive Mode
  /-- before a value -/
  | value
  /-- after `[`: a value or `]` -/
  | valueOrEnd
  /-- after `{`: a key or `}` -/
  | keyOrEnd
  /-- after a comma in an object -/
  | key
  /-- in a string, the text so far backwards -/
  | text (s : Str)
  /-- after a backslash -/
  | escape (s : Str)
  /-- after `\u` and some of its four digits -/
  | unicode (s : Str) (k n : Nat)
  /-- after a key -/
  | colon (key : Str)
  /-- in `null`, `true` or `false` -/
  | word (rest : Str) (j : J)
  /-- after a minus sign -/
  | minus
  /-- in a number; a zero at the start stands alone -/
  | num (neg : Bool) (n : Nat)
  /-- after a value -/
  | after (j : J)

/-- The scanner. /repo: oracle/oracle.go:508, 593, 605, 993 (`json.MarshalIndent`, `json.Unmarshal`) -/
structure Scan where
  stack : List Frame
  mode : Mode

/-- Space, tab, line feed and carriage return.
/repo: oracle/oracle.go:508, 593, 605, 993 (`json.MarshalIndent`, `json.Unmarshal`) -/
def isSpace (c : Nat) : Bool := c = 32 || c = 9 || c = 10 || c = 13

/-- The value of a hexadecimal digit.
/repo: oracle/oracle.go:508, 593, 605, 993 (`json.MarshalIndent`, `json.Unmarshal`) -/
def hexVal (c : Nat) : Option Nat :=
  if 48 ≤ c ∧ c ≤ 57 then some (c - 48)
  else if 97 ≤ c ∧ c ≤ 102 then some (c - 87)
  else if 65 ≤ c ∧ c ≤ 70 then some (c - 55)
  else none

/-- UTF-8. Simplification: each `\u` is taken for itself, pairs of surrogates are not put together.
/repo: oracle/oracle.go:508, 593, 605, 993 (`json.MarshalIndent`, `json.Unmarshal`) -/
def utf8 (n : Nat) : Str :=
  if n < 128 then [n]
  else if n < 2048 then [192 + n / 64, 128 + n % 64]
  else if 55296 ≤ n ∧ n < 57344 then [239, 191, 189]
  else [224 + n / 4096, 128 + n / 64 % 64, 128 + n % 64]

/-- A string is complete: it is a key or a value.
/repo: oracle/oracle.go:508, 593, 605, 993 (`json.MarshalIndent`, `json.Unmarshal`) -/
def endText (stack : List Frame) (s : Str) : Scan :=
  match stack with
  | .obj _ :: _ => ⟨stack, .colon s⟩
  | _ => ⟨stack, .after (.str s)⟩

/-- A character after a value. /repo: oracle/oracle.go:508, 593, 605, 993 (`json.MarshalIndent`, `json.Unmarshal`) -/
def stepAfter (stack : List Frame) (j : J) (c : Nat) : Option Scan :=
  if isSpace c then some ⟨stack, .after j⟩
  else match stack with
    | .arr l :: st =>
      if c = 44 then some ⟨.arr (j :: l) :: st, .value⟩
      else if c = 93 then some ⟨st, .after (.arr (j :: l).reverse)⟩
      else none
    | .field l k :: st =>
      if c = 44 then some ⟨.obj ((k, j) :: l) :: st, .key⟩
      else if c = 125 then some ⟨st, .after (.obj ((k, j) :: l).reverse)⟩
      else none
    | _ => none

/-- A character before a value.
/repo: oracle/oracle.go:508, 593, 605, 993 (`json.MarshalIndent`, `json.Unmarshal`) -/
def stepValue (stack : List Frame) (c : Nat) : Option Scan :=
  if isSpace c then some ⟨stack, .value⟩
  else if c = 91 then some ⟨.arr [] :: stack, .valueOrEnd⟩
  else if c = 123 then some ⟨.obj [] :: stack, .keyOrEnd⟩
  else if c = 34 then some ⟨stack, .text []⟩
  else if c = 110 then some ⟨stack, .word b!"ull" .null⟩
  else if c = 116 then some ⟨stack, .word b!"rue" (.bool true)⟩
  else if c = 102 then some ⟨stack, .word b!"alse" (.bool false)⟩
  else if c = 45 then some ⟨stack, .minus⟩
  else if 48 ≤ c ∧ c ≤ 57 then some ⟨stack, .num false (c - 48)⟩
  else none

/-- The number read so far. /repo: oracle/oracle.go:508, 593, 605, 993 (`json.MarshalIndent`, `json.Unmarshal`) -/
def numJ (neg : Bool) (n : Nat) : J := .num (if neg then -n else n)

/-- One character. Simplification: numbers with a fraction or an exponent, which no field accepts, are
rejected. /repo: oracle/oracle.go:508, 593, 605, 993 (`json.MarshalIndent`, `json.Unmarshal`) -/
def step (σ : Scan) (c : Nat) : Option Scan :=
  match σ.mode with
  | .value => stepValue σ.stack c
  | .valueOrEnd =>
    if isSpace c then some σ
    else if c = 93 then match σ.stack with
      | .arr _ :: st => some ⟨st, .after (.arr [])⟩
      | _ => none
    else stepValue σ.stack c
  | .keyOrEnd =>
    if isSpace c then some σ
    else if c = 125 then match σ.stack with
      | .obj _ :: st => some ⟨st, .after (.obj [])⟩
      | _ => none
    else if c = 34 then some ⟨σ.stack, .text []⟩
    else none
  | .key => if isSpace c then some σ else if c = 34 then some ⟨σ.stack, .text []⟩ else none
  | .text s =>
    if c = 34 then some (endText σ.stack s.reverse)
    else if c = 92 then some ⟨σ.stack, .escape s⟩
    else if c < 32 then none
    else some ⟨σ.stack, .text (c :: s)⟩
  | .escape s =>
    if c = 117 then some ⟨σ.stack, .unicode s 0 0⟩
    else if c = 34 ∨ c = 92 ∨ c = 47 then some ⟨σ.stack, .text (c :: s)⟩
    else if c = 98 then some ⟨σ.stack, .text (8 :: s)⟩
    else if c = 102 then some ⟨σ.stack, .text (12 :: s)⟩
    else if c = 110 then some ⟨σ.stack, .text (10 :: s)⟩
    else if c = 114 then some ⟨σ.stack, .text (13 :: s)⟩
    else if c = 116 then some ⟨σ.stack, .text (9 :: s)⟩
    else none
  | .unicode s k n =>
    match hexVal c with
    | none => none
    | some v =>
      if k = 3 then some ⟨σ.stack, .text ((utf8 (16 * n + v)).reverse ++ s)⟩
      else some ⟨σ.stack, .unicode s (k + 1) (16 * n + v)⟩
  | .colon k =>
    if isSpace c then some σ
    else if c = 58 then match σ.stack with
      | .obj l :: st => some ⟨.field l k :: st, .value⟩
      | _ => none
    else none
  | .word rest j =>
    match rest with
    | x :: r => if c = x then some (if r = [] then ⟨σ.stack, .after j⟩ else ⟨σ.stack, .word r j⟩) else none
    | [] => none
  | .minus => if 48 ≤ c ∧ c ≤ 57 then some ⟨σ.stack, .num true (c - 48)⟩ else none
  | .num neg n =>
    if 48 ≤ c ∧ c ≤ 57 then
      if n = 0 then none else some ⟨σ.stack, .num neg (10 * n + (c - 48))⟩
    else stepAfter σ.stack (numJ neg n) c
  | .after j => stepAfter σ.stack j c

/-- Many characters. /repo: oracle/oracle.go:508, 593, 605, 993 (`json.MarshalIndent`, `json.Unmarshal`) -/
def run : Scan → Str → Option Scan
  | σ, [] => some σ
  | σ, c :: cs => match step σ c with
    | some σ' => run σ' cs
    | none => none

/-- The end of the text: there must be one complete value.
/repo: oracle/oracle.go:508, 593, 605, 993 (`json.MarshalIndent`, `json.Unmarshal`) -/
def finish (σ : Scan) : Option J :=
  match σ.stack with
  | [] => match σ.mode with
    | .after j => some j
    | .num neg n => some (numJ neg n)
    | _ => none
  | _ => none

/-- `json.Unmarshal`, up to the document.
/repo: oracle/oracle.go:508, 593, 605, 993 (`json.MarshalIndent`, `json.Unmarshal`) -/
def read (text : Str) : Option J := (run ⟨[], .value⟩ text).bind finish

end JsonText
end Verif
