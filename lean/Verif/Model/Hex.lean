import Verif.Model.Basic
/-
Hexadecimal text as go-ethereum reads it (`common.IsHexAddress`, `common.FromHex`, `common.Hex2Bytes`;
library code, modelled because the oracle relies on it).
-/
namespace Verif

/-- go-ethereum common/bytes.go `isHexCharacter`. -/
def isHexChar (c : Nat) : Bool :=
  (48 ≤ c && c ≤ 57) || (97 ≤ c && c ≤ 102) || (65 ≤ c && c ≤ 70)

/-- go-ethereum common/bytes.go `has0xPrefix`. -/
def has0xPrefix : Str → Bool
  | a :: b :: _ => a == 48 && (b == 120 || b == 88)
  | _ => false

/-- go-ethereum common/types.go `IsHexAddress`, used in oracle/onchain.go:853 and
oracle/merklelizer.go:117. -/
def isHexAddress (s : Str) : Bool :=
  let d := if has0xPrefix s then s.drop 2 else s
  d.length == 40 && d.all isHexChar

end Verif
