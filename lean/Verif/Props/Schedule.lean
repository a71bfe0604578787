import Verif.Model.Advance
/-
C33: which entry of a fee schedule counts.
-/
namespace Verif

theorem bestEntry_keep {n s : Nat} {f : Int} {l : List (Nat × Int)} (h : ∀ e ∈ l, e.1 ≤ n → e.1 ≤ s) :
    bestEntry n l (some (s, f)) = some (s, f) := by
  induction l with
  | nil => rfl
  | cons a l ih =>
    rw [bestEntry, if_neg, ih fun e he => h e (List.mem_cons_of_mem _ he)]
    rintro ⟨h1, h2 | ⟨b, hb, h2⟩⟩
    · cases h2
    · have := h a List.mem_cons_self h1
      simp only [Option.mem_def, Option.some.injEq] at hb
      subst hb
      simp only at h2
      omega

theorem bestEntry_latest {n s : Nat} {f : Int} {l : List (Nat × Int)} (hd : (l.map (·.1)).Nodup)
    (hm : (s, f) ∈ l) (hn : s ≤ n) (h : ∀ e ∈ l, e.1 ≤ n → e.1 ≤ s) (best : Option (Nat × Int))
    (hb : ∀ b ∈ best, b.1 < s) : bestEntry n l best = some (s, f) := by
  induction l generalizing best with
  | nil => cases hm
  | cons a l ih =>
    rw [List.map_cons, List.nodup_cons] at hd
    have hl : ∀ e ∈ l, e.1 ≤ n → e.1 ≤ s := fun e he => h e (List.mem_cons_of_mem _ he)
    rcases List.mem_cons.mp hm with rfl | hm
    · rw [bestEntry, if_pos, bestEntry_keep hl]
      refine ⟨hn, ?_⟩
      cases best with
      | none => exact Or.inl rfl
      | some b => exact Or.inr ⟨b, rfl, hb b rfl⟩
    · rw [bestEntry]
      have hne : a.1 ≠ s := fun e => hd.1 (e ▸ List.mem_map_of_mem (f := (·.1)) hm)
      split
      · rename_i hc
        refine ih hd.2 hm hl _ ?_
        intro b hb
        simp only [Option.mem_def, Option.some.injEq] at hb
        subst hb
        have := h a List.mem_cons_self hc.1
        simp only
        omega
      · exact ih hd.2 hm hl _ hb

/-- **C33**, several fee changes: whatever the schedule of a network is, and in whatever order it is walked
through, loading a state sets the fee to that of the latest change whose slot has come; before the first one
the fee stays as configured. -/
theorem C33_latest_change_counts (sched : List (Nat × Int)) (hd : (sched.map (·.1)).Nodup) (cfg : Config)
    (n : Nat) :
    ((∀ e ∈ sched, n < e.1) → applySchedule sched cfg n = cfg) ∧
    ∀ s f, (s, f) ∈ sched → s ≤ n → (∀ e ∈ sched, e.1 ≤ n → e.1 ≤ s) →
      applySchedule sched cfg n = { cfg with fee := f } := by
  constructor
  · intro h
    have : bestEntry n sched none = none := by
      clear hd
      induction sched with
      | nil => rfl
      | cons a l ih =>
        have := h a List.mem_cons_self
        rw [bestEntry, if_neg (by omega)]
        exact ih fun e he => h e (List.mem_cons_of_mem _ he)
    unfold applySchedule
    rw [this]
  · intro s f hm hn h
    unfold applySchedule
    rw [bestEntry_latest hd hm hn h none (by simp)]

/-- three changes, in an arbitrary order: at slot 25 the one of slot 20 counts -/
example (cfg : Config) : applySchedule [(30, 300), (10, 900), (20, 500)] cfg 25 = { cfg with fee := 500 } :=
  (C33_latest_change_counts _ (by decide) cfg 25).2 20 500 (by decide) (by decide) (by decide)

end Verif
