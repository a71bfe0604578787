import Verif.Model.Json
import Verif.Spec.Api
/-
What a JSON text means: the grammar of RFC 8259, section by section. Of numbers only integers, of `\u` only
characters of ASCII: the texts of the oracle have no others.
-/
namespace Verif
namespace Rfc

/-- section 2: insignificant white space -/
def Ws (w : Str) : Prop := ∀ c ∈ w, c = 32 ∨ c = 9 ∨ c = 10 ∨ c = 13

/-- the values of the sixteen digits, in both cases -/
def HexDigitIs (c v : Nat) : Prop :=
  (c, v) ∈ (b!"0123456789abcdef").zip (List.range 16) ∨ (c, v) ∈ (b!"0123456789ABCDEF").zip (List.range 16)

/-- section 7: one character of a string -/
inductive Chr : Str → Nat → Prop
  | plain {c} : 32 ≤ c → c ≠ 34 → c ≠ 92 → Chr [c] c
  | quote : Chr b!"\\\"" 34
  | backslash : Chr b!"\\\\" 92
  | slash : Chr b!"\\/" 47
  | backspace : Chr b!"\\b" 8
  | feed : Chr b!"\\f" 12
  | line : Chr b!"\\n" 10
  | ret : Chr b!"\\r" 13
  | tab : Chr b!"\\t" 9
  | code {x y a b} : HexDigitIs x a → HexDigitIs y b → a < 8 → Chr (b!"\\u00" ++ [x, y]) (16 * a + b)

/-- section 7: the characters of a string -/
inductive Chars : Str → Str → Prop
  | nil : Chars [] []
  | cons {t c u s} : Chr t c → Chars u s → Chars (t ++ u) (c :: s)

/-- section 6: the digits of a number, without leading zeros -/
def Digits (t : Str) (n : Nat) : Prop := Numeral t ∧ numeralValue t = n ∧ (t.head? = some 48 → t = [48])

/-- section 6: an integer -/
inductive Number : Str → Int → Prop
  | nat {t n} : Digits t n → Number t n
  | neg {t n} : Digits t n → Number (45 :: t) (-n)

mutual
/-- sections 2 to 6: a text and its value -/
inductive Denotes : Str → J → Prop
  | null : Denotes b!"null" .null
  | true : Denotes b!"true" (.bool true)
  | false : Denotes b!"false" (.bool false)
  | num {t n} : Number t n → Denotes t (.num n)
  | str {t s} : Chars t s → Denotes (34 :: (t ++ [34])) (.str s)
  | noElems {w} : Ws w → Denotes (91 :: (w ++ [93])) (.arr [])
  | arr {t l} : Elems t l → Denotes (91 :: (t ++ [93])) (.arr l)
  | noMembers {w} : Ws w → Denotes (123 :: (w ++ [125])) (.obj [])
  | obj {t l} : Members t l → Denotes (123 :: (t ++ [125])) (.obj l)
  | space {a t b j} : Ws a → Denotes t j → Ws b → Denotes (a ++ (t ++ b)) j
/-- section 5: the elements of an array -/
inductive Elems : Str → List J → Prop
  | one {t j} : Denotes t j → Elems t [j]
  | more {t j u l} : Denotes t j → Elems u l → Elems (t ++ 44 :: u) (j :: l)
/-- section 4: the members of an object -/
inductive Members : Str → List (Str × J) → Prop
  | one {a k key b t j} : Ws a → Chars k key → Ws b → Denotes t j →
      Members (a ++ 34 :: (k ++ 34 :: (b ++ 58 :: t))) [(key, j)]
  | more {a k key b t j u l} : Ws a → Chars k key → Ws b → Denotes t j → Members u l →
      Members (a ++ 34 :: (k ++ 34 :: (b ++ 58 :: (t ++ 44 :: u)))) ((key, j) :: l)
end

end Rfc
end Verif
