import Verif.Model.VMap
import Mathlib.Algebra.BigOperators.Group.List.Basic
import Mathlib.Tactic.Linarith
import Mathlib.Tactic.Ring
/-
Facts about validator maps.
-/
namespace Verif
namespace VMap

/-- keys strictly ascending (hence distinct): every Go map has such a representation -/
def Sorted (m : VMap) : Prop := m.Pairwise fun p q => p.1 < q.1

/-- total of a quantity over all validators -/
def total (f : Validator → Int) (m : VMap) : Int := (m.map fun p => f p.2).sum

@[simp] theorem total_nil (f) : total f [] = 0 := rfl
@[simp] theorem total_cons (f) (p) (m : VMap) : total f (p :: m) = f p.2 + total f m := by
  simp [total]

theorem get_modify (m : VMap) (k j : Nat) (f : Validator → Validator) :
    get (modify m k f) j = if j = k then (get m k).map f else get m j := by
  induction m with
  | nil => simp [modify, get]
  | cons p m ih =>
    obtain ⟨a, v⟩ := p
    simp only [modify, List.map_cons] at ih ⊢
    by_cases hak : a = k
    · subst hak
      by_cases hj : j = a
      · subst hj; simp [get]
      · simp only [if_true, get]
        rw [if_neg (fun h => hj h.symm), ih]; simp [hj]
        intro h; exact absurd h.symm hj
    · simp only [if_neg hak, get]
      by_cases hj : a = j
      · subst hj; simp [hak]
      · rw [if_neg hj, ih]; simp [hj]

@[simp] theorem get_modify_self (m : VMap) (k : Nat) (f : Validator → Validator) :
    get (modify m k f) k = (get m k).map f := by simp [get_modify]

theorem get_modify_ne (m : VMap) {k j : Nat} (f : Validator → Validator) (h : j ≠ k) :
    get (modify m k f) j = get m j := by simp [get_modify, h]

theorem get_insert (m : VMap) (k j : Nat) (v : Validator) :
    get (insert m k v) j = if j = k then some v else get m j := by
  induction m with
  | nil =>
    simp only [insert, get]
    by_cases h : j = k
    · simp [h]
    · simp [h, Ne.symm h]
  | cons p m ih =>
    obtain ⟨a, w⟩ := p
    simp only [insert]
    by_cases h1 : k < a
    · simp only [h1, if_true, get]
      by_cases h : j = k
      · subst h; simp
      · simp [h, Ne.symm h]
    · simp only [h1, if_false]
      by_cases h2 : k = a
      · subst h2
        simp only [if_true, get]
        by_cases h : j = k
        · subst h; simp
        · simp [h, Ne.symm h]
      · simp only [h2, if_false, get]
        by_cases h3 : a = j
        · subst h3; simp [Ne.symm h2]
        · simp [h3, ih]

theorem keys_modify (m : VMap) (k : Nat) (f) : keys (modify m k f) = keys m := by
  simp only [keys, modify, List.map_map]
  apply List.map_congr_left
  intro p _; simp only [Function.comp]; split <;> rfl

theorem get_isSome_iff (m : VMap) (k : Nat) : (get m k).isSome ↔ k ∈ keys m := by
  induction m with
  | nil => simp [get, keys]
  | cons p m ih =>
    obtain ⟨a, v⟩ := p
    simp only [get, keys, List.map_cons, List.mem_cons] at ih ⊢
    by_cases h : a = k
    · simp [h]
    · simp only [if_neg h, ih]
      constructor
      · exact Or.inr
      · rintro (h' | h')
        · exact absurd h'.symm h
        · exact h'

theorem get_eq_none_iff (m : VMap) (k : Nat) : get m k = none ↔ k ∉ keys m := by
  rw [← get_isSome_iff]; cases get m k <;> simp

theorem mem_of_get {m : VMap} {k : Nat} {v} (h : get m k = some v) : (k, v) ∈ m := by
  induction m with
  | nil => simp [get] at h
  | cons p m ih =>
    obtain ⟨a, w⟩ := p
    simp only [get] at h
    by_cases ha : a = k
    · simp only [ha, if_true, Option.some.injEq] at h; simp [ha, h]
    · simp only [if_neg ha] at h; simp [ih h]

theorem Sorted.tail {p} {m : VMap} (h : Sorted (p :: m)) : Sorted m := (List.pairwise_cons.mp h).2

theorem Sorted.head_lt {p} {m : VMap} (h : Sorted (p :: m)) {q} (hq : q ∈ m) : p.1 < q.1 :=
  (List.pairwise_cons.mp h).1 q hq

theorem Sorted.get_of_mem {m : VMap} (hs : Sorted m) {k : Nat} {v} (h : (k, v) ∈ m) :
    get m k = some v := by
  induction m with
  | nil => simp at h
  | cons p m ih =>
    obtain ⟨a, w⟩ := p
    simp only [get]
    rcases List.mem_cons.mp h with h | h
    · simp only [Prod.mk.injEq] at h; simp [h.1, h.2]
    · have := hs.head_lt h
      simp only at this
      rw [if_neg (by omega), ih hs.tail h]

theorem Sorted.mem_iff {m : VMap} (hs : Sorted m) {k : Nat} {v} :
    (k, v) ∈ m ↔ get m k = some v := ⟨hs.get_of_mem, mem_of_get⟩

theorem Sorted.keys_lt {m : VMap} (hs : Sorted m) : (keys m).Pairwise (· < ·) := by
  simp only [keys, List.pairwise_map]; exact hs

theorem Sorted.nodup_keys {m : VMap} (hs : Sorted m) : (keys m).Nodup :=
  hs.keys_lt.imp fun h => Nat.ne_of_lt h

theorem sorted_iff_keys (m : VMap) : Sorted m ↔ (keys m).Pairwise (· < ·) := by
  simp only [keys, List.pairwise_map]; exact Iff.rfl

theorem Sorted.modify {m : VMap} (hs : Sorted m) (k f) : Sorted (modify m k f) := by
  rw [sorted_iff_keys, keys_modify, ← sorted_iff_keys]; exact hs

theorem mem_insert {m : VMap} {k v p} (h : p ∈ insert m k v) : p = (k, v) ∨ p ∈ m := by
  induction m with
  | nil => simp only [insert, List.mem_singleton] at h; exact Or.inl h
  | cons q m ih =>
    obtain ⟨a, w⟩ := q
    simp only [insert] at h
    split at h
    · rcases List.mem_cons.mp h with h | h
      · exact Or.inl h
      · exact Or.inr h
    · split at h
      · rcases List.mem_cons.mp h with h | h
        · exact Or.inl h
        · exact Or.inr (List.mem_cons_of_mem _ h)
      · rcases List.mem_cons.mp h with h | h
        · exact Or.inr (by simp [h])
        · rcases ih h with h | h
          · exact Or.inl h
          · exact Or.inr (List.mem_cons_of_mem _ h)

theorem Sorted.insert {m : VMap} (hs : Sorted m) (k v) : Sorted (insert m k v) := by
  induction m with
  | nil => simp [VMap.insert, Sorted]
  | cons q m ih =>
    obtain ⟨a, w⟩ := q
    simp only [VMap.insert]
    split
    · rename_i h
      refine List.pairwise_cons.mpr ⟨?_, hs⟩
      intro p hp
      rcases List.mem_cons.mp hp with hp | hp
      · subst hp; exact h
      · exact Nat.lt_trans h (hs.head_lt hp)
    · split
      · rename_i h1 h2
        subst h2
        refine List.pairwise_cons.mpr ⟨?_, hs.tail⟩
        intro p hp; exact hs.head_lt hp
      · rename_i h1 h2
        refine List.pairwise_cons.mpr ⟨?_, ih hs.tail⟩
        intro p hp
        rcases mem_insert hp with hp | hp
        · subst hp; simp only; omega
        · exact hs.head_lt hp

theorem modify_eq_self {m : VMap} {k} (f) (h : get m k = none) : modify m k f = m := by
  rw [get_eq_none_iff] at h
  simp only [keys, List.mem_map, not_exists, not_and] at h
  unfold modify
  conv_rhs => rw [← List.map_id m]
  apply List.map_congr_left
  intro p hp
  rw [if_neg (h p hp)]; rfl

theorem total_modify {m : VMap} (hs : Sorted m) {k v} (h : get m k = some v) (f g) :
    total f (modify m k g) = total f m + (f (g v) - f v) := by
  induction m with
  | nil => simp [get] at h
  | cons p m ih =>
    obtain ⟨a, w⟩ := p
    simp only [get] at h
    by_cases ha : a = k
    · simp only [ha, if_true, Option.some.injEq] at h
      subst h
      subst ha
      have hn : get m a = none := by
        cases hg : get m a with
        | none => rfl
        | some u => have := hs.head_lt (mem_of_get hg); simp at this
      have := modify_eq_self g hn
      simp only [VMap.modify] at this ⊢
      simp only [List.map_cons, if_true, total_cons, this]
      ring
    · simp only [if_neg ha] at h
      have := ih hs.tail h
      simp only [VMap.modify] at this ⊢
      simp only [List.map_cons, if_neg ha, total_cons, this]
      ring

theorem total_insert {m : VMap} {k} (h : get m k = none) (f v) :
    total f (insert m k v) = total f m + f v := by
  induction m with
  | nil => simp [insert]
  | cons p m ih =>
    obtain ⟨a, w⟩ := p
    simp only [get] at h
    by_cases ha : a = k
    · simp [ha] at h
    · simp only [if_neg ha] at h
      simp only [insert]
      split
      · simp; ring
      · rw [if_neg (Ne.symm ha)]
        simp only [total_cons, ih h]; ring

theorem total_modify_same {m : VMap} {k} {f : Validator → Int} {g} (h : ∀ v, f (g v) = f v) :
    total f (modify m k g) = total f m := by
  unfold total modify
  rw [List.map_map]
  congr 1
  apply List.map_congr_left
  intro p _
  simp only [Function.comp]
  split
  · exact h _
  · rfl

theorem total_nonneg {m : VMap} {f : Validator → Int} (h : ∀ p ∈ m, 0 ≤ f p.2) : 0 ≤ total f m := by
  induction m with
  | nil => simp
  | cons p m ih =>
    simp only [total_cons]
    have := h p (by simp)
    have := ih (fun q hq => h q (by simp [hq]))
    linarith

theorem ext {m n : VMap} (hm : Sorted m) (hn : Sorted n) (h : ∀ k, get m k = get n k) : m = n := by
  induction m generalizing n with
  | nil =>
    cases n with
    | nil => rfl
    | cons q n => have := h q.1; simp [get] at this
  | cons p m ih =>
    obtain ⟨a, v⟩ := p
    cases n with
    | nil => have := h a; simp [get] at this
    | cons q n =>
      obtain ⟨b, w⟩ := q
      have hab : a = b := by
        by_contra hne
        rcases Nat.lt_or_gt_of_ne hne with hlt | hlt
        · have := h a
          simp only [get, if_true] at this
          rw [if_neg (by omega)] at this
          have := hn.head_lt (mem_of_get this.symm)
          simp only at this; omega
        · have := h b
          simp only [get, if_true] at this
          rw [if_neg (by omega)] at this
          have := hm.head_lt (mem_of_get this)
          simp only at this; omega
      subst hab
      have hv : v = w := by have := h a; simpa [get] using this
      subst hv
      congr 1
      apply ih hm.tail hn.tail
      intro k
      by_cases hk : a = k
      · subst hk
        have e1 : get m a = none := by
          cases hg : get m a with
          | none => rfl
          | some u => have := hm.head_lt (mem_of_get hg); simp at this
        have e2 : get n a = none := by
          cases hg : get n a with
          | none => rfl
          | some u => have := hn.head_lt (mem_of_get hg); simp at this
        rw [e1, e2]
      · have := h k
        simpa [get, hk] using this

end VMap
end Verif
