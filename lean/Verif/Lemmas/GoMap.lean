import Verif.Model.GoMap
import Verif.Lemmas.Leaves
/-
Association lists with ascending keys.
-/
namespace Verif

/-- A strict total order. -/
structure StrictTotal (κ : Type) [LT κ] : Prop where
  irrefl : ∀ a : κ, ¬ a < a
  trans : ∀ {a b c : κ}, a < b → b < c → a < c
  total : ∀ {a b : κ}, ¬ a < b → ¬ b < a → a = b

theorem strictNat : StrictTotal Nat := ⟨fun _ => Nat.lt_irrefl _, Nat.lt_trans, fun h h' => by omega⟩
theorem strictStr : StrictTotal Str := ⟨fun _ => lt_irrefl _, slt_trans, slt_total⟩

namespace GoMap
variable {κ α : Type} [LT κ] [DecidableLT κ] [DecidableEq κ]

theorem put_sub {m : List (κ × α)} {k : κ} {v : α} {p} (h : p ∈ put m k v) : p = (k, v) ∨ p ∈ m := by
  induction m with
  | nil => simpa [put] using h
  | cons a m ih =>
    rw [put] at h
    split at h
    · simpa using h
    · split at h
      · rcases List.mem_cons.mp h with h | h
        · exact Or.inl h
        · exact Or.inr (List.mem_cons_of_mem _ h)
      · rcases List.mem_cons.mp h with h | h
        · exact Or.inr (by rw [h]; simp)
        · rcases ih h with h | h
          · exact Or.inl h
          · exact Or.inr (List.mem_cons_of_mem _ h)

theorem mem_put (m : List (κ × α)) (k : κ) (v : α) : (k, v) ∈ put m k v := by
  induction m with
  | nil => simp [put]
  | cons a m ih =>
    rw [put]
    split
    · simp
    · split
      · simp
      · exact List.mem_cons_of_mem _ ih

theorem put_keep {m : List (κ × α)} {k : κ} {v : α} {p} (h : p ∈ m) (hk : p.1 ≠ k) : p ∈ put m k v := by
  induction m with
  | nil => simp at h
  | cons a m ih =>
    rw [put]
    split
    · exact List.mem_cons_of_mem _ h
    · split
      · next e =>
        rcases List.mem_cons.mp h with h | h
        · exact absurd (by rw [h, e]) hk
        · exact List.mem_cons_of_mem _ h
      · rcases List.mem_cons.mp h with h | h
        · rw [h]; simp
        · exact List.mem_cons_of_mem _ (ih h)

theorem put_keys {m : List (κ × α)} {k : κ} {v : α} {x : κ} :
    x ∈ (put m k v).map (·.1) ↔ x = k ∨ x ∈ m.map (·.1) := by
  constructor
  · intro h
    obtain ⟨p, hp, e⟩ := List.mem_map.mp h
    rcases put_sub hp with h | h
    · left; rw [← e, h]
    · right; exact List.mem_map.mpr ⟨p, h, e⟩
  · rintro (e | h)
    · exact List.mem_map.mpr ⟨(k, v), mem_put m k v, e.symm⟩
    · obtain ⟨p, hp, e⟩ := List.mem_map.mp h
      by_cases hk : p.1 = k
      · exact List.mem_map.mpr ⟨(k, v), mem_put m k v, by rw [← e, hk]⟩
      · exact List.mem_map.mpr ⟨p, put_keep hp hk, e⟩

theorem put_asc (hO : StrictTotal κ) {m : List (κ × α)} (h : m.Pairwise fun p q => p.1 < q.1) (k : κ) (v : α) :
    (put m k v).Pairwise fun p q => p.1 < q.1 := by
  induction m with
  | nil => simp [put]
  | cons a m ih =>
    rw [List.pairwise_cons] at h
    rw [put]
    split
    · next hlt =>
      refine List.Pairwise.cons ?_ (List.Pairwise.cons h.1 h.2)
      intro q hq
      rcases List.mem_cons.mp hq with e | hq
      · rw [e]; exact hlt
      · exact hO.trans hlt (h.1 q hq)
    · split
      · next e => exact List.Pairwise.cons (fun q hq => by rw [e]; exact h.1 q hq) h.2
      · next h1 h2 =>
        refine List.Pairwise.cons ?_ (ih h.2)
        intro q hq
        rcases put_sub hq with e | hq
        · rw [e]
          by_contra hn
          exact h2 (hO.total h1 hn)
        · exact h.1 q hq

omit [DecidableLT κ] [DecidableEq κ] in
theorem asc_nodup (hO : StrictTotal κ) {m : List (κ × α)} (h : m.Pairwise fun p q => p.1 < q.1) :
    (m.map (·.1)).Nodup :=
  List.pairwise_map.mpr (List.Pairwise.imp (S := fun a b : κ × α => a.1 ≠ b.1)
    (fun {a b} h e => hO.irrefl b.1 (by rw [e] at h; exact h)) h)

omit [DecidableLT κ] [DecidableEq κ] in
theorem asc_inj (hO : StrictTotal κ) {m : List (κ × α)} (h : m.Pairwise fun p q => p.1 < q.1) {p q : κ × α}
    (hp : p ∈ m) (hq : q ∈ m) (e : p.1 = q.1) : p = q := by
  induction m with
  | nil => simp at hp
  | cons a m ih =>
    rw [List.pairwise_cons] at h
    rcases List.mem_cons.mp hp with h1 | h1 <;> rcases List.mem_cons.mp hq with h2 | h2
    · rw [h1, h2]
    · have := h.1 q h2
      rw [← h1, e] at this
      exact absurd this (hO.irrefl _)
    · have := h.1 p h1
      rw [← h2, e] at this
      exact absurd this (hO.irrefl _)
    · exact ih h.2 h1 h2

theorem put_mem (hO : StrictTotal κ) {m : List (κ × α)} (h : m.Pairwise fun p q => p.1 < q.1) (k : κ) (v : α)
    (p : κ × α) : p ∈ put m k v ↔ p = (k, v) ∨ (p.1 ≠ k ∧ p ∈ m) := by
  constructor
  · intro hp
    by_cases hk : p.1 = k
    · left
      exact asc_inj hO (put_asc hO h k v) hp (mem_put m k v) hk
    · rcases put_sub hp with e | hp
      · exact Or.inl e
      · exact Or.inr ⟨hk, hp⟩
  · rintro (rfl | ⟨hk, hp⟩)
    · exact mem_put m k v
    · exact put_keep hp hk

theorem put_new (hO : StrictTotal κ) {m : List (κ × α)} {k : κ} {v : α} (h : ∀ p ∈ m, p.1 < k) :
    put m k v = m ++ [(k, v)] := by
  induction m with
  | nil => rfl
  | cons a m ih =>
    have ha := h a (by simp)
    rw [put, if_neg (fun h' => hO.irrefl _ (hO.trans ha h')),
      if_neg (fun e => hO.irrefl a.1 (by rw [e] at ha; exact ha)),
      ih fun q hq => h q (List.mem_cons_of_mem _ hq)]
    rfl

theorem put_map {β : Type} (g : α → β) (m : List (κ × α)) (k : κ) (v : α) :
    put (m.map fun p => (p.1, g p.2)) k (g v) = (put m k v).map fun p => (p.1, g p.2) := by
  induction m with
  | nil => rfl
  | cons a m ih =>
    simp only [List.map_cons, put]
    split
    · rfl
    · split
      · rfl
      · rw [ih]; rfl

omit [DecidableLT κ] [DecidableEq κ] in
/-- Two ascending lists with the same entries are equal. -/
theorem asc_ext (hO : StrictTotal κ) {l l' : List (κ × α)} (h : l.Pairwise fun p q => p.1 < q.1)
    (h' : l'.Pairwise fun p q => p.1 < q.1) (hp : l.Perm l') : l = l' :=
  hp.eq_of_pairwise (fun _ _ _ _ h1 h2 => absurd (hO.trans h1 h2) (hO.irrefl _)) h h'

theorem foldl_put_asc (hO : StrictTotal κ) (l : List (κ × α)) {m : List (κ × α)}
    (h : m.Pairwise fun p q => p.1 < q.1) :
    (l.foldl (fun m p => put m p.1 p.2) m).Pairwise fun p q => p.1 < q.1 := by
  induction l generalizing m with
  | nil => exact h
  | cons a l ih => exact ih (put_asc hO h _ _)

theorem foldl_put_sub (l : List (κ × α)) {m : List (κ × α)} {p}
    (h : p ∈ l.foldl (fun m p => put m p.1 p.2) m) : p ∈ l ∨ p ∈ m := by
  induction l generalizing m with
  | nil => exact Or.inr h
  | cons a l ih =>
    rcases ih h with h | h
    · exact Or.inl (List.mem_cons_of_mem _ h)
    · rcases put_sub h with e | h
      · exact Or.inl (by rw [e]; simp)
      · exact Or.inr h

theorem foldl_put_keep (l : List (κ × α)) {m : List (κ × α)} {p} (hn : (l.map (·.1)).Nodup)
    (hp : p ∈ l ∨ p ∈ m ∧ p.1 ∉ l.map (·.1)) : p ∈ l.foldl (fun m p => put m p.1 p.2) m := by
  induction l generalizing m with
  | nil => rcases hp with h | h
           · simp at h
           · exact h.1
  | cons a l ih =>
    rw [List.map_cons, List.nodup_cons] at hn
    rw [List.foldl_cons]
    refine ih hn.2 ?_
    rcases hp with h | ⟨h, hne⟩
    · rcases List.mem_cons.mp h with e | h
      · exact Or.inr ⟨by rw [e]; exact mem_put m _ _, by rw [e]; exact hn.1⟩
      · exact Or.inl h
    · simp only [List.map_cons, List.mem_cons, not_or] at hne
      exact Or.inr ⟨put_keep h hne.1, hne.2⟩

/-- Reading the entries of an ascending map back in any order gives the map. -/
theorem foldl_put_perm (hO : StrictTotal κ) {l m : List (κ × α)} (h : m.Pairwise fun p q => p.1 < q.1)
    (hp : l.Perm m) : l.foldl (fun m p => put m p.1 p.2) [] = m := by
  have hn : (l.map (·.1)).Nodup := (hp.map _).nodup_iff.mpr (asc_nodup hO h)
  have ha := foldl_put_asc hO l (m := []) List.Pairwise.nil
  refine asc_ext hO ha h ?_
  rw [List.perm_ext_iff_of_nodup]
  · intro p
    rw [← hp.mem_iff]
    constructor
    · intro h
      rcases foldl_put_sub l h with h | h
      · exact h
      · simp at h
    · intro h
      exact foldl_put_keep l hn (Or.inl h)
  · exact (List.pairwise_map.mp (asc_nodup hO ha)).imp fun h e => h (by rw [e])
  · exact (List.pairwise_map.mp (asc_nodup hO h)).imp fun h e => h (by rw [e])

end GoMap

theorem getStr_putStr {α : Type} (m : List (Str × α)) (k k' : Str) (v : α) :
    getStr (putStr m k v) k' = if k' = k then some v else getStr m k' := by
  unfold putStr
  induction m with
  | nil =>
    unfold GoMap.put getStr
    by_cases h : k' = k
    · subst h; simp
    · rw [if_neg h]
      simp [Ne.symm h]
  | cons p m ih =>
    unfold getStr at ih ⊢
    rw [GoMap.put]
    by_cases h1 : k < p.1
    · rw [if_pos h1]
      by_cases h : k' = k
      · subst h; simp
      · rw [if_neg h, List.find?_cons_of_neg (by simpa using Ne.symm h)]
    · rw [if_neg h1]
      by_cases h2 : k = p.1
      · rw [if_pos h2]
        by_cases h : k' = k
        · subst h; simp
        · rw [if_neg h, List.find?_cons_of_neg (by simpa using Ne.symm h),
            List.find?_cons_of_neg (by simpa [← h2] using Ne.symm h)]
      · rw [if_neg h2]
        by_cases h : p.1 = k'
        · rw [List.find?_cons_of_pos (by simpa using h), List.find?_cons_of_pos (by simpa using h),
            if_neg (by rw [← h]; exact Ne.symm h2)]
        · rw [List.find?_cons_of_neg (by simpa using h), List.find?_cons_of_neg (by simpa using h)]
          exact ih

theorem insertField_perm {α : Type} (p : Str × α) (l : List (Str × α)) : (insertField p l).Perm (p :: l) := by
  induction l with
  | nil => exact List.Perm.refl _
  | cons q l ih =>
    rw [insertField]
    split
    · exact (ih.cons q).trans (List.Perm.swap _ _ _)
    · exact List.Perm.refl _

/-- Sorting the fields of a document keeps them. -/
theorem sortFields_perm {α : Type} (l : List (Str × α)) : (sortFields l).Perm l := by
  induction l with
  | nil => exact List.Perm.refl _
  | cons p l ih => exact (insertField_perm p _).trans (ih.cons p)

theorem insertField_sorted {α : Type} {p : Str × α} {l : List (Str × α)}
    (h : l.Pairwise fun a b => ¬ b.1 < a.1) : (insertField p l).Pairwise fun a b => ¬ b.1 < a.1 := by
  induction l with
  | nil => simp [insertField]
  | cons q l ih =>
    rw [List.pairwise_cons] at h
    rw [insertField]
    split
    · next hq =>
      refine List.Pairwise.cons ?_ (ih h.2)
      intro a ha
      rcases List.mem_cons.mp ((insertField_perm p l).mem_iff.mp ha) with e | ha
      · rw [e]; exact fun h => absurd (slt_trans hq h) (lt_irrefl _)
      · exact h.1 a ha
    · next hq =>
      refine List.Pairwise.cons ?_ (List.Pairwise.cons h.1 h.2)
      intro a ha
      rcases List.mem_cons.mp ha with e | ha
      · rw [e]; exact hq
      · intro hlt
        by_cases h1 : p.1 < q.1
        · exact h.1 a ha (slt_trans hlt h1)
        · exact h.1 a ha (by rw [← slt_total h1 hq]; exact hlt)

/-- The fields come out in the order of their names. -/
theorem sortFields_sorted {α : Type} (l : List (Str × α)) :
    (sortFields l).Pairwise fun a b => ¬ b.1 < a.1 := by
  induction l with
  | nil => exact List.Pairwise.nil
  | cons p l ih => exact insertField_sorted ih

/-- With distinct names they come out in strictly ascending order. -/
theorem sortFields_strict {α : Type} {l : List (Str × α)} (hn : (l.map (·.1)).Nodup) :
    (sortFields l).Pairwise fun p q => p.1 < q.1 := by
  have h2 : (sortFields l).Pairwise fun a b => a.1 ≠ b.1 :=
    List.pairwise_map.mp (((sortFields_perm l).map _).nodup_iff.mpr hn)
  refine List.Pairwise.imp₂ (fun a b h1 h2 => ?_) (sortFields_sorted l) h2
  by_contra h
  exact h2 (slt_total h h1)

/-- With distinct names the sorted fields do not depend on the order before. -/
theorem sortFields_congr {α : Type} {l l' : List (Str × α)} (hp : l.Perm l') (hn : (l.map (·.1)).Nodup) :
    sortFields l = sortFields l' := by
  refine GoMap.asc_ext strictStr (sortFields_strict hn) (sortFields_strict ((hp.map _).nodup_iff.mp hn)) ?_
  exact (sortFields_perm l).trans (hp.trans (sortFields_perm l').symm)

end Verif
