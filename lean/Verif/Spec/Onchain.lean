import Verif.Model.Onchain
/-
What the on-chain helpers are expected to do.
-/
namespace Verif

/-- The proposers of a chain, by epoch: 32 duties per epoch, in the order of their slots. -/
structure DutiesOK (D : Nat → List Duty) : Prop where
  size : ∀ e, (D e).length = 32
  slots : ∀ e k d, (D e)[k]? = some d → d.slot = 32 * e + k

/-- A sequence of look-ups through the cache; every look-up comes with what the beacon node would answer
at that moment. -/
def lookups : List ((Nat → Option (List Duty)) × Nat) → DutyCache → M (DutyCache × List (Option Duty))
  | [], c => .ok (c, [])
  | (node, slot) :: qs, c => do
    let (c1, d) ← getProposalDuty node c slot
    let (c2, ds) ← lookups qs c1
    .ok (c2, d :: ds)

/-- No slot of the first epoch is looked up before the node has answered for some later epoch. -/
def NoneTooEarly (qs : List ((Nat → Option (List Duty)) × Nat)) : Prop :=
  ∀ l q r, qs = l ++ q :: r → q.2 < 32 → ∃ p ∈ l, 32 ≤ p.2 ∧ p.1 (p.2 / 32) ≠ none

/-- One lower-case hexadecimal digit and its value. -/
def HexDigit (c v : Nat) : Prop := (v < 10 ∧ c = 48 + v) ∨ (10 ≤ v ∧ v < 16 ∧ c = 87 + v)

/-- A text of lower-case hexadecimal digits and the bytes it stands for. -/
inductive HexText : Str → List Nat → Prop
  | nil : HexText [] []
  | cons {a b x y r bs} : HexDigit a x → HexDigit b y → HexText r bs →
      HexText (a :: b :: r) ((16 * x + y) :: bs)

/-- A root as a text, with or without 0x, and its 32 bytes. -/
def RootText (root : Str) (bytes : List Nat) : Prop :=
  bytes.length = 32 ∧ ∃ r, (root = 48 :: 120 :: r ∨ root = r) ∧ HexText r bytes

end Verif
