/-
SHA-256 (crypto/sha256 `Sum256`, used in oracle/oracle.go:613, 999), written from FIPS 180-4. Words are
numbers below 2^32, bytes numbers below 256.
-/
namespace Verif
namespace Sha256

/-- modulo 2^32. /repo: oracle/oracle.go:613, 999 (`sha256.Sum256`) -/
def w32 (n : Nat) : Nat := n % 4294967296

/-- FIPS 180-4, 3.2: rotation to the right of a 32-bit word. /repo: oracle/oracle.go:613, 999 (`sha256.Sum256`) -/
def rotr (x n : Nat) : Nat := (x >>> n) ||| w32 (x <<< (32 - n))

/-- FIPS 180-4, 4.1.2. /repo: oracle/oracle.go:613, 999 (`sha256.Sum256`) -/
def ch (x y z : Nat) : Nat := (x &&& y) ^^^ ((4294967295 ^^^ x) &&& z)
/-- FIPS 180-4, 4.1.2. /repo: oracle/oracle.go:613, 999 (`sha256.Sum256`) -/
def maj (x y z : Nat) : Nat := (x &&& y) ^^^ (x &&& z) ^^^ (y &&& z)
/-- FIPS 180-4, 4.1.2: capital sigma 0. /repo: oracle/oracle.go:613, 999 (`sha256.Sum256`) -/
def bsig0 (x : Nat) : Nat := rotr x 2 ^^^ rotr x 13 ^^^ rotr x 22
/-- FIPS 180-4, 4.1.2: capital sigma 1. /repo: oracle/oracle.go:613, 999 (`sha256.Sum256`) -/
def bsig1 (x : Nat) : Nat := rotr x 6 ^^^ rotr x 11 ^^^ rotr x 25
/-- FIPS 180-4, 4.1.2: small sigma 0. /repo: oracle/oracle.go:613, 999 (`sha256.Sum256`) -/
def ssig0 (x : Nat) : Nat := rotr x 7 ^^^ rotr x 18 ^^^ (x >>> 3)
/-- FIPS 180-4, 4.1.2: small sigma 1. /repo: oracle/oracle.go:613, 999 (`sha256.Sum256`) -/
def ssig1 (x : Nat) : Nat := rotr x 17 ^^^ rotr x 19 ^^^ (x >>> 10)

/-- FIPS 180-4, 4.2.2. /repo: oracle/oracle.go:613, 999 (`sha256.Sum256`) -/
def constants : List Nat :=
  [0x428a2f98, 0x71374491, 0xb5c0fbcf, 0xe9b5dba5, 0x3956c25b, 0x59f111f1, 0x923f82a4, 0xab1c5ed5,
   0xd807aa98, 0x12835b01, 0x243185be, 0x550c7dc3, 0x72be5d74, 0x80deb1fe, 0x9bdc06a7, 0xc19bf174,
   0xe49b69c1, 0xefbe4786, 0x0fc19dc6, 0x240ca1cc, 0x2de92c6f, 0x4a7484aa, 0x5cb0a9dc, 0x76f988da,
   0x983e5152, 0xa831c66d, 0xb00327c8, 0xbf597fc7, 0xc6e00bf3, 0xd5a79147, 0x06ca6351, 0x14292967,
   0x27b70a85, 0x2e1b2138, 0x4d2c6dfc, 0x53380d13, 0x650a7354, 0x766a0abb, 0x81c2c92e, 0x92722c85,
   0xa2bfe8a1, 0xa81a664b, 0xc24b8b70, 0xc76c51a3, 0xd192e819, 0xd6990624, 0xf40e3585, 0x106aa070,
   0x19a4c116, 0x1e376c08, 0x2748774c, 0x34b0bcb5, 0x391c0cb3, 0x4ed8aa4a, 0x5b9cca4f, 0x682e6ff3,
   0x748f82ee, 0x78a5636f, 0x84c87814, 0x8cc70208, 0x90befffa, 0xa4506ceb, 0xbef9a3f7, 0xc67178f2]

/-- The eight words of the hash value or of the working variables.
/repo: oracle/oracle.go:613, 999 (`sha256.Sum256`) -/
structure Words where
  a : Nat
  b : Nat
  c : Nat
  d : Nat
  e : Nat
  f : Nat
  g : Nat
  h : Nat

/-- FIPS 180-4, 5.3.3. /repo: oracle/oracle.go:613, 999 (`sha256.Sum256`) -/
def start : Words :=
  ⟨0x6a09e667, 0xbb67ae85, 0x3c6ef372, 0xa54ff53a, 0x510e527f, 0x9b05688c, 0x1f83d9ab, 0x5be0cd19⟩

/-- FIPS 180-4, 6.2.2, step 3: the working variables after one round with the constant `k` and the word `w`.
/repo: oracle/oracle.go:613, 999 (`sha256.Sum256`) -/
def round (s : Words) (k w : Nat) : Words :=
  let t1 := s.h + bsig1 s.e + ch s.e s.f s.g + k + w
  let t2 := bsig0 s.a + maj s.a s.b s.c
  ⟨w32 (t1 + t2), s.a, s.b, s.c, w32 (s.d + t1), s.e, s.f, s.g⟩

/-- FIPS 180-4, 6.2.2, steps 1 and 3. `l` holds the last 16 words of the message schedule, oldest first.
/repo: oracle/oracle.go:613, 999 (`sha256.Sum256`) -/
def rounds : List Nat → List Nat → Words → Words
  | [], _, s => s
  | k :: ks, l, s =>
    match l with
    | w :: l' =>
      rounds ks (l' ++ [w32 (ssig1 (l.getD 14 0) + l.getD 9 0 + ssig0 (l.getD 1 0) + w)]) (round s k w)
    | [] => s

/-- FIPS 180-4, 6.2.2, step 4: one block. /repo: oracle/oracle.go:613, 999 (`sha256.Sum256`) -/
def compress (s : Words) (block : List Nat) : Words :=
  let r := rounds constants block s
  ⟨w32 (s.a + r.a), w32 (s.b + r.b), w32 (s.c + r.c), w32 (s.d + r.d), w32 (s.e + r.e), w32 (s.f + r.f),
    w32 (s.g + r.g), w32 (s.h + r.h)⟩

/-- Bytes to words, most significant first. /repo: oracle/oracle.go:613, 999 (`sha256.Sum256`) -/
def toWords : List Nat → List Nat
  | x :: y :: z :: u :: l => (((x * 256 + y) * 256 + z) * 256 + u) :: toWords l
  | _ => []

/-- All blocks; the first number bounds how many there are. /repo: oracle/oracle.go:613, 999 (`sha256.Sum256`) -/
def blocks : Nat → List Nat → Words → Words
  | 0, _, s => s
  | n + 1, l, s => if l = [] then s else blocks n (l.drop 16) (compress s (l.take 16))

/-- The `n` bytes of a number, most significant first. /repo: oracle/oracle.go:613, 999 (`sha256.Sum256`) -/
def bytesOf : Nat → Nat → List Nat
  | 0, _ => []
  | n + 1, x => bytesOf n (x / 256) ++ [x % 256]

/-- FIPS 180-4, 5.1.1: one bit, zeros, and the length in bits. /repo: oracle/oracle.go:613, 999 (`sha256.Sum256`) -/
def pad (m : List Nat) : List Nat :=
  m ++ [128] ++ List.replicate ((119 - m.length % 64) % 64) 0 ++ bytesOf 8 (8 * m.length)

/-- `sha256.Sum256`. /repo: oracle/oracle.go:613, 999 (`sha256.Sum256`) -/
def sum (m : List Nat) : List Nat :=
  let r := blocks (m.length + 1) (toWords (pad m)) start
  bytesOf 4 r.a ++ bytesOf 4 r.b ++ bytesOf 4 r.c ++ bytesOf 4 r.d ++ bytesOf 4 r.e ++ bytesOf 4 r.f ++
    bytesOf 4 r.g ++ bytesOf 4 r.h

end Sha256
end Verif
