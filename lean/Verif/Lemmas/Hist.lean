import Verif.Lemmas.Pay
/-
Facts about successful slots that are used for inductions over histories.
-/
namespace Verif
open VMap

/-- sums over maps with comparable entries -/
theorem total_eq_keys {m : VMap} (hs : Sorted m) (f : Validator → Int) :
    total f m = ((keys m).map fun k => ((VMap.get m k).map f).getD 0).sum := by
  unfold total keys
  rw [List.map_map]
  congr 1
  apply List.map_congr_left
  intro p hp
  simp only [Function.comp]
  rw [hs.get_of_mem (k := p.1) (v := p.2) hp]; rfl

theorem sum_le_of_subperm {l l' : List Nat} (h : l.Subperm l') (g : Nat → Int) (hg : ∀ k, 0 ≤ g k) :
    (l.map g).sum ≤ (l'.map g).sum := by
  obtain ⟨l1, hp, hsub⟩ := h
  rw [← (hp.map g).sum_eq]
  clear hp
  induction hsub with
  | slnil => simp
  | cons a _ ih => simp only [List.map_cons, List.sum_cons]; have := hg a; omega
  | cons_cons a _ ih => simp only [List.map_cons, List.sum_cons]; omega

theorem total_le {m m' : VMap} (hs : Sorted m) (hs' : Sorted m') (f : Validator → Int)
    (h : ∀ i v, VMap.get m i = some v → ∃ v', VMap.get m' i = some v' ∧ f v ≤ f v')
    (h0 : ∀ i v, VMap.get m' i = some v → 0 ≤ f v) : total f m ≤ total f m' := by
  rw [total_eq_keys hs, total_eq_keys hs']
  have hsub : (keys m).Subperm (keys m') := by
    apply List.subperm_of_subset hs.nodup_keys
    intro k hk
    rw [← get_isSome_iff] at hk ⊢
    obtain ⟨v, hv⟩ := Option.isSome_iff_exists.mp hk
    obtain ⟨v', hv', _⟩ := h k v hv
    rw [hv']; rfl
  refine le_trans ?_ (sum_le_of_subperm hsub (fun k => ((VMap.get m' k).map f).getD 0) ?_)
  · have : ∀ l : List Nat, (∀ k ∈ l, k ∈ keys m) →
        (l.map fun k => ((VMap.get m k).map f).getD 0).sum ≤
          (l.map fun k => ((VMap.get m' k).map f).getD 0).sum := by
      intro l
      induction l with
      | nil => intro _; simp
      | cons k l ih =>
        intro hl
        simp only [List.map_cons, List.sum_cons]
        have h1 := ih (fun j hj => hl j (by simp [hj]))
        have h2 := hl k (by simp)
        rw [← get_isSome_iff] at h2
        obtain ⟨v, hv⟩ := Option.isSome_iff_exists.mp h2
        obtain ⟨v', hv', hle⟩ := h k v hv
        rw [hv, hv']
        simp only [Option.map_some, Option.getD_some]
        omega
    exact this _ (fun k hk => hk)
  · intro k
    cases hk : VMap.get m' k with
    | none => simp
    | some v => simpa using h0 k v hk

theorem rest_field {α : Type} {s t : State} (g : State → α) (h : s.rest = t) (hg : g s = g s.rest) :
    g s = g t := by rw [hg, h]

/-- Slot counters after a successful slot. -/
theorem slot_next {E o b o' n} (h : advanceState E o b = .ok (o', some n)) :
    o.st.nextSlot = b.dutySlot ∧ o.st.nextSlot = u64 (o.st.latestSlot + 1) := by
  obtain ⟨o1, sb, dons, s1, s2, h1, h2, _⟩ := advanceState_ok h
  exact ⟨h2, h1⟩

theorem scheduledFee_eq {net slot x} (h : scheduledFee net slot = some x) : x = 500 := by
  unfold scheduledFee feeSchedule at h
  split at h
  · simp only [List.find?_cons, List.find?_nil] at h
    split at h <;> simp at h
    exact h.symm
  · split at h
    · simp only [List.find?_cons, List.find?_nil] at h
      split at h <;> simp at h
      exact h.symm
    · simp at h

end Verif
