import Verif.Spec.JsonGrammar
/-
How a person reads a duration such as "1 day 9 hours 20 minutes".
-/
namespace Verif.Duration

/-- the units and how many microseconds they have; a year has 365 days -/
def one : List (Str × Nat) :=
  [(b!"microsecond", 1), (b!"millisecond", 1000), (b!"second", 1000000), (b!"minute", 60000000),
    (b!"hour", 3600000000), (b!"day", 86400000000), (b!"week", 604800000000), (b!"year", 31536000000000)]

/-- in the plural -/
def many : List (Str × Nat) := one.map fun u => (u.1 ++ b!"s", u.2)

/-- the words of a text, between single spaces -/
def words : Str → List Str
  | [] => [[]]
  | c :: t => if c = 32 then [] :: words t else (c :: (words t).headD []) :: (words t).tail

/-- The sum of a list of numbers each followed by a unit, which is in the singular if the number is one. What follows
must be less than the unit: nobody says "90 seconds 1 hour", or "1 minute 90 seconds". -/
def sum : List Str → Option Nat
  | [] => some 0
  | [_] => none
  | n :: u :: l =>
    if n ≠ [] ∧ ∀ c ∈ n, 48 ≤ c ∧ c ≤ 57 then
      match (if numeralValue n = 1 then one else many).lookup u, sum l with
      | some k, some m => if m < k then some (numeralValue n * k + m) else none
      | _, _ => none
    else none

/-- The microseconds a text stands for; a minus sign in front is for the whole. -/
def reads : Str → Option Int
  | 45 :: t => (sum (words t)).map fun n => -(n : Int)
  | t => (sum (words t)).map fun n => (n : Int)

end Verif.Duration
