import Verif.Lemmas.SecpPrime
import Mathlib.AlgebraicGeometry.EllipticCurve.Affine.Point
/-
Signatures on the curve secp256k1, from SEC 2 (2.4.1, the curve) and SEC 1 (4.1.4, when a signature is valid), on the
group of points of Mathlib. Nothing here is about how a key is computed.
-/
namespace Verif
namespace Sec2

/-- SEC 2, 2.4.1: the number of elements of the field. -/
def p : Nat := 2 ^ 256 - 2 ^ 32 - 2 ^ 9 - 2 ^ 8 - 2 ^ 7 - 2 ^ 6 - 2 ^ 4 - 1

/-- SEC 2, 2.4.1: the order of the base point. -/
def n : Nat := 0xFFFFFFFFFFFFFFFFFFFFFFFFFFFFFFFEBAAEDCE6AF48A03BBFD25E8CD0364141

theorem p_prime : Nat.Prime p := by
  have h : p = Secp.prime := by decide +kernel
  rw [h]
  exact Secp.prime_prime

theorem n_prime : Nat.Prime n := by
  have h : n = secpN := by decide +kernel
  rw [h]
  exact Secp.secpN_prime

instance : Fact (Nat.Prime p) := ⟨p_prime⟩
instance : Fact (Nat.Prime n) := ⟨n_prime⟩

/-- The field. -/
abbrev F := ZMod p

/-- SEC 2, 2.4.1: the curve `y² = x³ + 7`. -/
def E : WeierstrassCurve.Affine F := { a₁ := 0, a₂ := 0, a₃ := 0, a₄ := 0, a₆ := 7 }

/-- The group of the points of the curve and of the point at infinity, as Mathlib has it. -/
abbrev Pt := E.Point

/-- SEC 2, 2.4.1: the coordinates of the base point. -/
def gx : F := 0x79BE667EF9DCBBAC55A06295CE870B07029BFCDB2DCE28D959F2815B16F81798
/-- SEC 2, 2.4.1. -/
def gy : F := 0x483ADA7726A3C4655DA4FBFC0E1108A8FD17B448A68554199C47D08FFB10D4B8

theorem G_on : E.Nonsingular gx gy := by
  rw [WeierstrassCurve.Affine.nonsingular_iff, WeierstrassCurve.Affine.equation_iff]
  have h1 : gy ^ 2 = gx ^ 3 + 7 := by
    unfold gx gy
    decide +kernel
  have h2 : gy ≠ -gy := by
    unfold gy
    decide +kernel
  refine ⟨?_, Or.inr ?_⟩
  · simpa [E] using h1
  · simpa [E] using h2

/-- SEC 2, 2.4.1: the base point. -/
def G : Pt := WeierstrassCurve.Affine.Point.some gx gy G_on

/-- SEC 1, 4.1.4: `Q` is a key for which the signature `(r, s)` of a hash, read as the number `z`, is valid: with
`u1 = z / s` and `u2 = r / s` modulo `n` the point `u1 G + u2 Q` has the first coordinate `r`. Its second coordinate has
the parity that comes with the signature. -/
def Verifies (Q : Pt) (z parity r s : Nat) : Prop :=
  ∃ w y h, s * w % n = 1 ∧ (z * w % n) • G + (r * w % n) • Q = WeierstrassCurve.Affine.Point.some (r : F) y h ∧
    y.val % 2 = parity

/-- The 32 bytes of an element of the field, most significant first. -/
def bytes (x : F) : List Nat := (List.range 32).map (fun i => x.val / 256 ^ (31 - i) % 256)

/-- Yellow paper, appendix F: the address of a public key is made of the last 20 bytes of the hash of its coordinates. -/
def address (x y : F) : List Nat := (Keccak.keccak (bytes x ++ bytes y)).drop 12

/-- A hash read as a number. -/
def number (hash : List Nat) : Nat := hash.foldl (fun n b => 256 * n + b) 0

end Sec2
end Verif
