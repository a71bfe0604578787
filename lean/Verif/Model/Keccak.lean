/-
Keccak-256 (the padding `0x01` of Ethereum, go-ethereum `crypto.Keccak256`), written from the
Keccak reference. The theorems about Merkle trees are about every hash function; this one is used by
the conformance tests in `Verif.Tests`, which compare the model with the values written in the
repository's own Go tests, and in `Verif.Props.Library`, which states the main theorems about saved
files with the functions the program calls. A state is one number of 1600 bits, lane `x + 5 y` at bits
`64 (x + 5 y)`.
-/
namespace Verif.Keccak

/-- 64-bit lane `i` of a state. /repo: oracle/merklelizer.go:26-30 (`sha3.NewLegacyKeccak256`) -/
def lane (s i : Nat) : Nat := (s >>> (64 * i)) % 18446744073709551616

/-- rotation to the left of a 64-bit lane. /repo: oracle/merklelizer.go:26-30 (`sha3.NewLegacyKeccak256`) -/
def rotl (x n : Nat) : Nat := (((x <<< n) ||| (x >>> (64 - n)))) % 18446744073709551616

/-- a state from its lanes, given by a function. /repo: oracle/merklelizer.go:26-30 (`sha3.NewLegacyKeccak256`) -/
def pack (f : Nat → Nat) : Nat → Nat
  | 0 => 0
  | n + 1 => pack f n ||| (f n <<< (64 * n))

/-- rotation offsets of step rho, at `x + 5 y`. /repo: oracle/merklelizer.go:26-30 (`sha3.NewLegacyKeccak256`) -/
def rhoOffsets : List Nat :=
  [0, 1, 62, 28, 27, 36, 44, 6, 55, 20, 3, 10, 43, 25, 39, 41, 45, 15, 21, 8, 18, 2, 61, 56, 14]

/-- column parities of step theta, five lanes. /repo: oracle/merklelizer.go:26-30 (`sha3.NewLegacyKeccak256`) -/
def parity (s : Nat) : Nat :=
  pack (fun x => lane s x ^^^ lane s (x + 5) ^^^ lane s (x + 10) ^^^ lane s (x + 15)
    ^^^ lane s (x + 20)) 5

/-- the correction of step theta, five lanes. /repo: oracle/merklelizer.go:26-30 (`sha3.NewLegacyKeccak256`) -/
def thetaD (c : Nat) : Nat := pack (fun x => lane c ((x + 4) % 5) ^^^ rotl (lane c ((x + 1) % 5)) 1) 5

/-- step theta. /repo: oracle/merklelizer.go:26-30 (`sha3.NewLegacyKeccak256`) -/
def theta (s d : Nat) : Nat := pack (fun i => lane s i ^^^ lane d (i % 5)) 25

/-- steps rho and pi: lane `(y, 2x + 3y)` becomes the rotated lane `(x, y)`.
/repo: oracle/merklelizer.go:26-30 (`sha3.NewLegacyKeccak256`) -/
def rhoPi (s : Nat) : Nat :=
  pack (fun i =>
    let x' := i % 5
    let y' := i / 5
    let x := (x' + 3 * y') % 5
    let j := x + 5 * x'
    rotl (lane s j) (rhoOffsets.getD j 0)) 25

/-- step chi. /repo: oracle/merklelizer.go:26-30 (`sha3.NewLegacyKeccak256`) -/
def chi (s : Nat) : Nat :=
  pack (fun i =>
    let x := i % 5
    let r := 5 * (i / 5)
    lane s i ^^^ ((18446744073709551615 ^^^ lane s (r + (x + 1) % 5)) &&& lane s (r + (x + 2) % 5)))
    25

/-- round constants of step iota. /repo: oracle/merklelizer.go:26-30 (`sha3.NewLegacyKeccak256`) -/
def roundConstants : List Nat :=
  [0x0000000000000001, 0x0000000000008082, 0x800000000000808a, 0x8000000080008000,
   0x000000000000808b, 0x0000000080000001, 0x8000000080008081, 0x8000000000008009,
   0x000000000000008a, 0x0000000000000088, 0x0000000080008009, 0x000000008000000a,
   0x000000008000808b, 0x800000000000008b, 0x8000000000008089, 0x8000000000008003,
   0x8000000000008002, 0x8000000000000080, 0x000000000000800a, 0x800000008000000a,
   0x8000000080008081, 0x8000000000008080, 0x0000000080000001, 0x8000000080008008]

/-- the permutation Keccak-f[1600]. /repo: oracle/merklelizer.go:26-30 (`sha3.NewLegacyKeccak256`) -/
def permute : List Nat → Nat → Nat
  | [], s => s
  | rc :: rest, s => permute rest (chi (rhoPi (theta s (thetaD (parity s)))) ^^^ rc)

/-- bytes, first one lowest, as a number. /repo: oracle/merklelizer.go:26-30 (`sha3.NewLegacyKeccak256`) -/
def leBytes : List Nat → Nat
  | [] => 0
  | b :: bs => b + 256 * leBytes bs

/-- absorb the padded message, 136 bytes at a time. /repo: oracle/merklelizer.go:26-30 (`sha3.NewLegacyKeccak256`) -/
def absorb : Nat → List Nat → Nat → Nat
  | 0, _, s => s
  | n + 1, m, s => absorb n (m.drop 136) (permute roundConstants (s ^^^ leBytes (m.take 136)))

/-- the message with its padding `0x01 0x00 .. 0x80`.
/repo: oracle/merklelizer.go:26-30 (`sha3.NewLegacyKeccak256`) -/
def padded (m : List Nat) : List Nat :=
  let q := 136 - m.length % 136
  if q = 1 then m ++ [0x81] else m ++ [0x01] ++ List.replicate (q - 2) 0 ++ [0x80]

/-- the `n` lowest bytes of a number. /repo: oracle/merklelizer.go:26-30 (`sha3.NewLegacyKeccak256`) -/
def toBytes : Nat → Nat → List Nat
  | 0, _ => []
  | n + 1, s => s % 256 :: toBytes n (s / 256)

/-- Keccak-256 of a list of bytes. /repo: oracle/merklelizer.go:26-30 (`sha3.NewLegacyKeccak256`) -/
def keccak (m : List Nat) : List Nat :=
  toBytes 32 (absorb ((padded m).length / 136) (padded m) 0)

/-- the well-known hash of the empty message,
c5d2460186f7233c927e7db2dcc703c0e500b653ca82273b7bfad8045d85a470 -/
example : keccak [] =
    [0xc5, 0xd2, 0x46, 0x01, 0x86, 0xf7, 0x23, 0x3c, 0x92, 0x7e, 0x7d, 0xb2, 0xdc, 0xc7, 0x03, 0xc0,
     0xe5, 0x00, 0xb6, 0x53, 0xca, 0x82, 0x27, 0x3b, 0x7b, 0xfa, 0xd8, 0x04, 0x5d, 0x85, 0xa4,
     0x70] := by decide +kernel

end Verif.Keccak
