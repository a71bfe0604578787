import Verif.Model.TxDecode
/-
The curve secp256k1 and the recovery of the public key of a signature (go-ethereum v1.15.7 crypto/signature_cgo.go
`Ecrecover`, which calls libsecp256k1), written from SEC 1, section 4.1.6. C110 is about every recovery, C124 and
the conformance tests in `Verif.Tests` are about this one. A point is one number, Jacobian coordinates
`X + 2^256 Y + 2^512 Z`.
-/
namespace Verif.Secp

/-- the prime of the field. /repo: utils/utils.go:39-48 (`types.Sender`) -/
def prime : Nat := 2 ^ 256 - 2 ^ 32 - 977

/-- `b ^ e` modulo `m`, the lowest `k` bits of `e`. /repo: utils/utils.go:39-48 (`types.Sender`) -/
def powMod (m : Nat) : Nat → Nat → Nat → Nat
  | 0, _, _ => 1
  | k + 1, b, e => (if e % 2 = 1 then b else 1) * powMod m k (b * b % m) (e / 2) % m

/-- the inverse modulo a prime. /repo: utils/utils.go:39-48 (`types.Sender`) -/
def inv (m a : Nat) : Nat := powMod m 256 (a % m) (m - 2)

/-- the difference in the field. /repo: utils/utils.go:39-48 (`types.Sender`) -/
def sub (a b : Nat) : Nat := (a + (prime - b % prime)) % prime

/-- a point from its coordinates. /repo: utils/utils.go:39-48 (`types.Sender`) -/
def point (x y z : Nat) : Nat := x + 2 ^ 256 * y + 2 ^ 512 * z
/-- first coordinate. /repo: utils/utils.go:39-48 (`types.Sender`) -/
def cx (q : Nat) : Nat := q % 2 ^ 256
/-- second coordinate. /repo: utils/utils.go:39-48 (`types.Sender`) -/
def cy (q : Nat) : Nat := q / 2 ^ 256 % 2 ^ 256
/-- third coordinate; 0 for the neutral element. /repo: utils/utils.go:39-48 (`types.Sender`) -/
def cz (q : Nat) : Nat := q / 2 ^ 512

/-- twice a point. /repo: utils/utils.go:39-48 (`types.Sender`) -/
def double (q : Nat) : Nat :=
  let x := cx q
  let y := cy q
  let y2 := y * y % prime
  let s := 4 * x * y2 % prime
  let m := 3 * x * x % prime
  let x' := sub (m * m) (2 * s)
  point x' (sub (m * sub s x') (8 * y2 * y2)) (2 * y * cz q % prime)

/-- the sum of two points. /repo: utils/utils.go:39-48 (`types.Sender`) -/
def add (q q' : Nat) : Nat :=
  if cz q = 0 then q' else if cz q' = 0 then q
  else
    let z2 := cz q * cz q % prime
    let z2' := cz q' * cz q' % prime
    let u := cx q * z2' % prime
    let u' := cx q' * z2 % prime
    let s := cy q * z2' * cz q' % prime
    let s' := cy q' * z2 * cz q % prime
    if u = u' then (if s = s' then double q else 0)
    else
      let h := sub u' u
      let r := sub s' s
      let h2 := h * h % prime
      let h3 := h2 * h % prime
      let x := sub (r * r) (h3 + 2 * u * h2)
      point x (sub (r * sub (u * h2) x) (s * h3)) (h * cz q * cz q' % prime)

/-- a multiple of a point, the lowest `k` bits of the factor. /repo: utils/utils.go:39-48 (`types.Sender`) -/
def mul : Nat → Nat → Nat → Nat
  | 0, _, _ => 0
  | k + 1, n, q =>
    let half := double (mul k (n / 2) q)
    if n % 2 = 1 then add half q else half

/-- the generator. /repo: utils/utils.go:39-48 (`types.Sender`) -/
def generator : Nat :=
  point 0x79be667ef9dcbbac55a06295ce870b07029bfcdb2dce28d959f2815b16f81798
    0x483ada7726a3c4655da4fbfc0e1108a8fd17b448a68554199c47d08ffb10d4b8 1

/-- The address of a public key: the last 20 bytes of the hash of its two coordinates.
/repo: utils/utils.go:39-48 (`types.Sender`) -/
def address (q : Nat) : Option (List Nat) :=
  if cz q = 0 then none
  else
    let zi := inv prime (cz q)
    let zi2 := zi * zi % prime
    let x := cx q * zi2 % prime
    let y := cy q * zi2 * zi % prime
    some ((Keccak.keccak ((Keccak.toBytes 32 x).reverse ++ (Keccak.toBytes 32 y).reverse)).drop 12)

/-- The address of the key that made a signature: hash, parity, r, s. /repo: utils/utils.go:39-48 (`types.Sender`) -/
def recover : Ecrecover := fun hash parity r s =>
  let a := (r * r % prime * r + 7) % prime
  let b := powMod prime 256 a ((prime + 1) / 4)
  if b * b % prime ≠ a then none
  else
    let y := if b % 2 = parity then b else prime - b
    let w := inv secpN r
    address (add (mul 256 (s * w % secpN) (point r y 1))
      (mul 256 ((secpN - beNat hash % secpN) * w % secpN) generator))

end Verif.Secp
