import Verif.Spec.Persist
/-
A small text format for documents, to show that the assumptions on the library (`LibOK`) can be met.
It plays no role in the model.
-/
namespace Verif
namespace Toy

/-- integers as numbers -/
def ofInt : Int → Nat
  | .ofNat n => 2 * n
  | .negSucc n => 2 * n + 1

/-- and back -/
def toInt (n : Nat) : Int := if n % 2 = 0 then .ofNat (n / 2) else .negSucc (n / 2)

theorem toInt_ofInt (i : Int) : toInt (ofInt i) = i := by
  unfold toInt ofInt
  cases i with
  | ofNat n =>
    dsimp only
    rw [if_pos (by omega)]
    have : 2 * n / 2 = n := by omega
    rw [this]
  | negSucc n =>
    dsimp only
    rw [if_neg (by omega)]
    have : (2 * n + 1) / 2 = n := by omega
    rw [this]

mutual
/-- documents -/
def enc : J → List Nat
  | .null => [0]
  | .bool b => [5, if b then 1 else 0]
  | .num n => [1, ofInt n]
  | .str s => 2 :: s.length :: s
  | .arr l => 3 :: l.length :: encL l
  | .obj fs => 4 :: fs.length :: encF fs
/-- lists of documents -/
def encL : List J → List Nat
  | [] => []
  | j :: l => enc j ++ encL l
/-- lists of fields -/
def encF : List (Str × J) → List Nat
  | [] => []
  | (k, j) :: l => k.length :: (k ++ (enc j ++ encF l))
end

mutual
/-- reading a document -/
def dec : Nat → List Nat → Option (J × List Nat)
  | 0, _ => none
  | f + 1, x => match x with
    | 0 :: r => some (.null, r)
    | 1 :: n :: r => some (.num (toInt n), r)
    | 5 :: n :: r => some (.bool (n = 1), r)
    | 2 :: n :: r => some (.str (r.take n), r.drop n)
    | 3 :: n :: r => (decL f n r).map fun p => (.arr p.1, p.2)
    | 4 :: n :: r => (decF f n r).map fun p => (.obj p.1, p.2)
    | _ => none
/-- reading a list of documents -/
def decL : Nat → Nat → List Nat → Option (List J × List Nat)
  | 0, _, _ => none
  | _ + 1, 0, r => some ([], r)
  | f + 1, n + 1, r => do
    let (j, r) ← dec f r
    let (l, r) ← decL f n r
    some (j :: l, r)
/-- reading a list of fields -/
def decF : Nat → Nat → List Nat → Option (List (Str × J) × List Nat)
  | 0, _, _ => none
  | _ + 1, 0, r => some ([], r)
  | f + 1, n + 1, r => match r with
    | [] => none
    | k :: r => do
      let (j, r') ← dec f (r.drop k)
      let (l, r') ← decF f n r'
      some ((r.take k, j) :: l, r')
end

theorem enc_pos (j) : 0 < (enc j).length := by
  cases j <;> simp [enc]

mutual
theorem dec_enc : ∀ (j : J) (f : Nat) (r : List Nat), (enc j).length ≤ f →
    dec f (enc j ++ r) = some (j, r)
  | .null, f, r, h => by
    cases f with
    | zero => simp [enc] at h
    | succ f => simp [enc, dec]
  | .bool b, f, r, h => by
    cases f with
    | zero => simp [enc] at h
    | succ f => cases b <;> simp [enc, dec]
  | .num n, f, r, h => by
    cases f with
    | zero => simp [enc] at h
    | succ f => simp [enc, dec, toInt_ofInt]
  | .str s, f, r, h => by
    cases f with
    | zero => simp [enc] at h
    | succ f => simp [enc, dec]
  | .arr l, f, r, h => by
    cases f with
    | zero => simp [enc] at h
    | succ f =>
      have := decL_enc l f r (by simp [enc] at h; omega)
      simp [enc, dec, this]
  | .obj l, f, r, h => by
    cases f with
    | zero => simp [enc] at h
    | succ f =>
      have := decF_enc l f r (by simp [enc] at h; omega)
      simp [enc, dec, this]
theorem decL_enc : ∀ (l : List J) (f : Nat) (r : List Nat), (encL l).length + 1 ≤ f →
    decL f l.length (encL l ++ r) = some (l, r)
  | [], f, r, h => by
    cases f with
    | zero => simp at h
    | succ f => simp [encL, decL]
  | j :: l, f, r, h => by
    cases f with
    | zero => simp at h
    | succ f =>
      have hp := enc_pos j
      have h1 := dec_enc j f (encL l ++ r) (by simp [encL] at h; omega)
      have h2 := decL_enc l f r (by simp [encL] at h; omega)
      simp [encL, decL, h1, h2]
theorem decF_enc : ∀ (l : List (Str × J)) (f : Nat) (r : List Nat), (encF l).length + 1 ≤ f →
    decF f l.length (encF l ++ r) = some (l, r)
  | [], f, r, h => by
    cases f with
    | zero => simp at h
    | succ f => simp [encF, decF]
  | (k, j) :: l, f, r, h => by
    cases f with
    | zero => simp at h
    | succ f =>
      have hp := enc_pos j
      have h1 := dec_enc j f (encF l ++ r) (by simp [encF] at h; omega)
      have h2 := decF_enc l f r (by simp [encF] at h; omega)
      simp [encF, decF, h1, h2]
end

/-- the text of a document, with its length in front -/
def print (j : J) : List Nat := (enc j).length :: enc j

/-- reading it -/
def parse : List Nat → Option J
  | [] => none
  | n :: r => if r.length = n then (dec n r).map (·.1) else none

theorem parse_print (j) : parse (print j) = some j := by
  unfold parse print
  dsimp only
  have := dec_enc j (enc j).length [] (Nat.le_refl _)
  rw [List.append_nil] at this
  rw [if_pos rfl, this]
  rfl

theorem parse_cut (j) (p : List Nat) (h : p <+: print j) (hne : p ≠ print j) : parse p = none := by
  cases p with
  | nil => rfl
  | cons n r =>
    unfold print at h hne
    rw [List.cons_prefix_cons] at h
    obtain ⟨rfl, h⟩ := h
    have hl := h.length_le
    unfold parse
    dsimp only
    rw [if_neg]
    intro e
    exact hne (by rw [h.eq_of_length e])

/-- a library with this format and a given hash function -/
def lib (sha : List Nat → List Nat) : Lib := ⟨print, parse, sha⟩

theorem lib_ok {sha : List Nat → List Nat} (h : HashOK sha) : LibOK (lib sha) where
  reads := fun s _ => parse_print (encState s)
  cut := fun s _ => parse_cut (encState s)
  sha := h

end Toy
end Verif
