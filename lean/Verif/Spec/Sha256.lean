import Mathlib.Data.Nat.Nth
import Mathlib.Data.Nat.Prime.Defs
/-
SHA-256 as FIPS 180-4 describes it: on strings of bits, with words of 32 bits. Written apart from the model, which works
on bytes and numbers.
-/
namespace Verif
namespace Fips180

/-- FIPS 180-4, 2.2.1: a word of 32 bits. -/
abbrev Word := BitVec 32

/-- FIPS 180-4, 4.1.2, equation (4.2): for every bit of `x`, that of `y` if it is one and that of `z` otherwise. -/
def Ch (x y z : Word) : Word := (x &&& y) ^^^ (~~~x &&& z)

/-- FIPS 180-4, equation (4.3). -/
def Maj (x y z : Word) : Word := (x &&& y) ^^^ (x &&& z) ^^^ (y &&& z)

/-- FIPS 180-4, equation (4.4). -/
def Sigma0 (x : Word) : Word := x.rotateRight 2 ^^^ x.rotateRight 13 ^^^ x.rotateRight 22

/-- FIPS 180-4, equation (4.5). -/
def Sigma1 (x : Word) : Word := x.rotateRight 6 ^^^ x.rotateRight 11 ^^^ x.rotateRight 25

/-- FIPS 180-4, equation (4.6). -/
def sigma0 (x : Word) : Word := x.rotateRight 7 ^^^ x.rotateRight 18 ^^^ (x >>> 3)

/-- FIPS 180-4, equation (4.7). -/
def sigma1 (x : Word) : Word := x.rotateRight 17 ^^^ x.rotateRight 19 ^^^ (x >>> 10)

/-- The whole part of the root of degree `k` of `n`: the greatest number whose `k`-th power is not above `n`. -/
def wholeRoot (k n : Nat) : Nat := Nat.findGreatest (fun r => r ^ k ≤ n) n

/-- The first 32 bits of the fractional part of the root of degree `k` of `p`. -/
def rootBits (k p : Nat) : Word := BitVec.ofNat 32 (wholeRoot k (p * (2 ^ 32) ^ k))

/-- FIPS 180-4, 4.2.2: the first 32 bits of the fractional parts of the cube roots of the first sixty-four primes. -/
noncomputable def K (t : Nat) : Word := rootBits 3 (Nat.nth Nat.Prime t)

/-- The eight working variables, or the eight words of a hash value. -/
structure Eight where
  a : Word
  b : Word
  c : Word
  d : Word
  e : Word
  f : Word
  g : Word
  h : Word

/-- FIPS 180-4, 5.3.3: the first 32 bits of the fractional parts of the square roots of the first eight primes. -/
noncomputable def H0 : Eight :=
  let w := fun i => rootBits 2 (Nat.nth Nat.Prime i)
  ⟨w 0, w 1, w 2, w 3, w 4, w 5, w 6, w 7⟩

/-- FIPS 180-4, 6.2.2, step 1: the message schedule of a block `M`. -/
def W (M : Nat → Word) (t : Nat) : Word :=
  if t < 16 then M t
  else sigma1 (W M (t - 2)) + W M (t - 7) + sigma0 (W M (t - 15)) + W M (t - 16)
termination_by t
decreasing_by all_goals omega

/-- FIPS 180-4, 6.2.2, step 3, for one `t`. -/
noncomputable def step (M : Nat → Word) (v : Eight) (t : Nat) : Eight :=
  let T1 := v.h + Sigma1 v.e + Ch v.e v.f v.g + K t + W M t
  let T2 := Sigma0 v.a + Maj v.a v.b v.c
  { h := v.g, g := v.f, f := v.e, e := v.d + T1, d := v.c, c := v.b, b := v.a, a := T1 + T2 }

/-- FIPS 180-4, 6.2.2, steps 2 to 4: the hash value after the block `M`. -/
noncomputable def block (H : Eight) (M : Nat → Word) : Eight :=
  let v := (List.range 64).foldl (step M) H
  ⟨v.a + H.a, v.b + H.b, v.c + H.c, v.d + H.d, v.e + H.e, v.f + H.f, v.g + H.g, v.h + H.h⟩

/-- The bits of a number, most significant first, in `n` places. -/
def bitsOf (n x : Nat) : List Bool := (List.range n).map (fun i => x.testBit (n - 1 - i))

/-- FIPS 180-4, 5.1.1: a message of `l` bits is followed by the bit one, by the least number `k` of zeros for which
`l + 1 + k` is 448 modulo 512, and by `l` in 64 bits. -/
def padded (m : List Bool) : List Bool :=
  m ++ [true] ++ List.replicate ((448 + 512 - (m.length + 1) % 512) % 512) false ++ bitsOf 64 m.length

/-- FIPS 180-4, 2.1 and 5.2.1: the word whose 32 bits, most significant first, stand in `m` from place `32 i`. -/
def wordAt (m : List Bool) (i : Nat) : Word :=
  BitVec.ofNat 32 ((List.range 32).foldl (fun n j => 2 * n + (m.getD (32 * i + j) false).toNat) 0)

/-- FIPS 180-4, 6.2: the hash value after all blocks of 512 bits, one after the other. -/
noncomputable def hashOf (m : List Bool) : Eight :=
  (List.range ((padded m).length / 512)).foldl
    (fun H i => block H (fun t => wordAt (padded m) (16 * i + t))) H0

/-- FIPS 180-4, 6.2: the message digest, 256 bits. -/
noncomputable def sha256 (m : List Bool) : List Bool :=
  let H := hashOf m
  [H.a, H.b, H.c, H.d, H.e, H.f, H.g, H.h].flatMap (fun w => bitsOf 32 w.toNat)

/-- Bytes as bits, most significant first. -/
def bits (m : List Nat) : List Bool := m.flatMap (bitsOf 8)

end Fips180
end Verif
