/-
Keccak-256 as the standard defines it, bit by bit: FIPS 202, sections 3.1 to 3.4, 4, 5.1 and B.1. Keccak-256 is the
sponge with rate 1088 and 256 bits of output on the message itself; SHA3-256 would append the two bits 01 first. Uses
nothing of the model.
-/
namespace Verif.Fips202

/-- 3.1: a state array, `A x y z` with `x` and `y` below 5 and `z` below 64. -/
abbrev StateArray := Nat → Nat → Nat → Bool

/-- 3.2.1, step 1: the parity of a column. -/
def column (A : StateArray) (x z : Nat) : Bool := (((A x 0 z ^^ A x 1 z) ^^ A x 2 z) ^^ A x 3 z) ^^ A x 4 z

/-- 3.2.1: θ. -/
def theta (A : StateArray) : StateArray := fun x y z =>
  A x y z ^^ (column A ((x + 4) % 5) z ^^ column A ((x + 1) % 5) ((z + 63) % 64))

/-- 3.2.2, steps 2 and 3: the lane that is rotated in round `t`. -/
def rhoLane : Nat → Nat × Nat
  | 0 => (1, 0)
  | t + 1 => ((rhoLane t).2, (2 * (rhoLane t).1 + 3 * (rhoLane t).2) % 5)

/-- 3.2.2: by how much a lane is rotated. -/
def rhoOffset (x y : Nat) : Nat :=
  match (List.range 24).find? (fun t => rhoLane t == (x, y)) with
  | some t => (t + 1) * (t + 2) / 2
  | none => 0

/-- 3.2.2: ρ. -/
def rho (A : StateArray) : StateArray := fun x y z => A x y ((z + 64 - rhoOffset x y % 64) % 64)

/-- 3.2.3: π. -/
def pi (A : StateArray) : StateArray := fun x y z => A ((x + 3 * y) % 5) x z

/-- 3.2.4: χ. -/
def chi (A : StateArray) : StateArray := fun x y z =>
  A x y z ^^ ((A ((x + 1) % 5) y z ^^ true) && A ((x + 2) % 5) y z)

/-- 3.2.5, algorithm 5: one turn of the register, `R[0]` first. -/
def rcTurn : List Bool → List Bool
  | [r0, r1, r2, r3, r4, r5, r6, r7] => [r7, r0, r1, r2, r3 ^^ r7, r4 ^^ r7, r5 ^^ r7, r6]
  | r => r

/-- Any number of turns. -/
def rcAfter : Nat → List Bool
  | 0 => [true, false, false, false, false, false, false, false]
  | n + 1 => rcTurn (rcAfter n)

/-- 3.2.5, algorithm 5: `rc(t)`. -/
def rc (t : Nat) : Bool := (rcAfter (t % 255)).headD false

/-- 3.2.5, algorithm 6: the bit `z` of the round constant: the bits `2 ^ j - 1` for `j` up to 6 are `rc (j + 7 ir)`. -/
def roundBit (ir z : Nat) : Bool :=
  (List.range 7).any fun j => decide (z = 2 ^ j - 1) && rc (j + 7 * ir)

/-- 3.2.5: ι. -/
def iota (ir : Nat) (A : StateArray) : StateArray := fun x y z =>
  if x = 0 ∧ y = 0 then A x y z ^^ roundBit ir z else A x y z

/-- 3.3: one round. -/
def rnd (A : StateArray) (ir : Nat) : StateArray := iota ir (chi (pi (rho (theta A))))

/-- 3.3, 3.4: Keccak-f[1600], 24 rounds. -/
def keccakF (A : StateArray) : StateArray := (List.range 24).foldl rnd A

/-- 5.1: pad10*1 for a message of this length and rate 1088. -/
def pad (len : Nat) : List Bool := [true] ++ List.replicate ((1088 - (len + 2) % 1088) % 1088) false ++ [true]

/-- 4, algorithm 8, steps 5 and 6: the state after `i` blocks of 1088 bits; 3.1.2: bit `64 (5 y + x) + z` of a string is
at `x`, `y`, `z`. -/
def absorbed (P : List Bool) : Nat → StateArray
  | 0 => fun _ _ _ => false
  | i + 1 => keccakF fun x y z =>
    absorbed P i x y z ^^ (decide (64 * (5 * y + x) + z < 1088) && P.getD (1088 * i + (64 * (5 * y + x) + z)) false)

/-- 4, algorithm 8: Keccak-256 of a string of bits. -/
def keccak256 (M : List Bool) : List Bool :=
  (List.range 256).map fun k =>
    absorbed (M ++ pad M.length) ((M ++ pad M.length).length / 1088) (k / 64 % 5) (k / 320) (k % 64)

/-- B.1: bytes as a string of bits, the lowest bit of a byte first. -/
def bits (m : List Nat) : List Bool := m.flatMap fun b => (List.range 8).map b.testBit

end Verif.Fips202
