import Verif.Spec.Live
/-
Lemmas about refreshing the cache of validators.
-/
namespace Verif

theorem latestEpochLoop_zero {vs : NodeVals} : ∀ {n : Nat}, latestEpochLoop vs n = 0 ↔
    n = 0 ∧ ∀ p ∈ vs, p.2.activation = 0 ∨ p.2.activation = 2 ^ 64 - 1 := by
  induction vs with
  | nil => intro n; simp [latestEpochLoop]
  | cons p vs ih =>
    intro n
    unfold latestEpochLoop
    rw [ih]
    simp only [List.forall_mem_cons]
    split
    · rename_i hp
      constructor
      · rintro ⟨h, _⟩; omega
      · rintro ⟨rfl, h | h, _⟩
        · omega
        · exact absurd h hp.1
    · rename_i hp
      constructor
      · rintro ⟨rfl, h⟩
        refine ⟨rfl, ?_, h⟩
        by_contra hne
        exact hp ⟨fun h => hne (Or.inr h), Nat.pos_of_ne_zero fun h => hne (Or.inl h)⟩
      · rintro ⟨h, _, h'⟩; exact ⟨h, h'⟩

/-- refreshing goes through if there are validators, the one with the last index is among them and one has been
activated after the genesis -/
theorem refresh_ok_iff {vs : NodeVals} {c : BMap} : refresh (some vs) = .ok c ↔
    c = vs.map (fun p => (p.1, p.2.val)) ∧ (∃ p ∈ vs, p.1 + 1 = vs.length) ∧
      ∃ p ∈ vs, p.2.activation ≠ 0 ∧ p.2.activation ≠ 2 ^ 64 - 1 := by
  unfold refresh
  dsimp only
  by_cases h0 : vs.length = 0
  · rw [if_neg (not_not.mpr h0)]
    constructor
    · intro h; cases h
    · rintro ⟨_, ⟨p, hp, _⟩, _⟩
      rw [List.length_eq_zero_iff.mp h0] at hp
      cases hp
  · rw [if_pos h0]
    split
    · rename_i hf
      constructor
      · intro h; cases h
      · rintro ⟨_, ⟨p, hp, e⟩, _⟩
        have := List.find?_eq_none.mp hf p hp
        simp at this
        omega
    · rename_i p hf
      have h1 := List.mem_of_find?_eq_some hf
      have h2 := List.find?_some hf
      simp only [beq_iff_eq] at h2
      have h3 : ∃ p ∈ vs, p.1 + 1 = vs.length := ⟨p, h1, by omega⟩
      unfold activationSlotOfLatest
      rw [if_neg h0]
      dsimp only
      by_cases hz : latestEpochLoop vs 0 = 0
      · rw [if_pos hz]
        constructor
        · intro h; cases h
        · rintro ⟨_, _, q, hq, a, b⟩
          rcases (latestEpochLoop_zero.mp hz).2 q hq with e | e
          · exact absurd e a
          · exact absurd e b
      · rw [if_neg hz]
        have : ∃ p ∈ vs, p.2.activation ≠ 0 ∧ p.2.activation ≠ 2 ^ 64 - 1 := by
          by_contra hn
          apply hz
          rw [latestEpochLoop_zero]
          refine ⟨rfl, fun q hq => ?_⟩
          by_contra hne
          exact hn ⟨q, hq, fun h => hne (Or.inl h), fun h => hne (Or.inr h)⟩
        constructor
        · intro h
          exact ⟨(Except.ok.inj h).symm, h3, this⟩
        · rintro ⟨rfl, _, _⟩
          rfl

theorem refresh_ok {r : Option NodeVals} (h : AllValidators r) : ∃ c, refresh r = .ok c := by
  obtain ⟨vs, rfl, h1, h2⟩ := h
  refine ⟨_, refresh_ok_iff.mpr ⟨rfl, ?_, h2⟩⟩
  obtain ⟨p, hp, _⟩ := h2
  have : 0 < vs.length := List.length_pos_of_mem hp
  obtain ⟨q, hq, e⟩ := h1 (vs.length - 1) (by omega)
  exact ⟨q, hq, by omega⟩

theorem refreshDue_ok {A : Answers} {l : Loop} (h : AllValidators A.vals) : refreshDue A l = .ok () := by
  unfold refreshDue
  split
  · obtain ⟨c, hc⟩ := refresh_ok h
    rw [hc]; rfl
  · rfl

end Verif
