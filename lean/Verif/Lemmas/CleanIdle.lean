import Verif.Spec.Dilute
import Verif.Lemmas.CleanKeys
/-
The cleanup of a slot at which everybody is active.
-/
namespace Verif

theorem cleanLoop_idle {E : Env} {slot cs} (l : List BVal) (hl : ∀ u ∈ l, u.status.isActive = true) (s tot) :
    cleanLoop E slot cs l s tot = .ok (s, tot, true) := by
  induction l with
  | nil => rfl
  | cons u l ih =>
    unfold cleanLoop
    rw [if_pos (hl u (by simp))]
    exact ih fun u hu => hl u (by simp [hu])

/-- the cleanup does nothing when everybody is active -/
theorem cleanup_idle {E : Env} {V K} {net : Str} {s s2 : State} {slot} (hE : ValidEnv E) (hX : ExactEnv E)
    (hR : ReadsChain V K E) (hA : AllActive V slot s) (h : cleanup E net s slot = .ok (s2, true)) :
    s2 = { s with tick := s2.tick } := by
  unfold cleanup at h
  split at h
  · cases h; rfl
  dsimp only at h
  split at h
  · cases h; rfl
  split at h
  · simp at h
  rename_i cs _
  split at h
  · simp at h
  rename_i vs hg
  rw [cleanLoop_idle] at h
  · simp only [bind, Except.bind, Bool.not_true, Bool.false_eq_true, if_false, ne_eq, not_true_eq_false,
      Except.ok.injEq, Prod.mk.injEq, and_true] at h
    rw [← h]
  · intro u hu
    have hu := (shuffle_perm hE _ _).mem_iff.mp hu
    have h1 := hX _ _ _ _ (getSet_some hg).1 u hu
    have h2 := (shuffle_perm hE _ _).mem_iff.mp h1
    obtain ⟨v, hv⟩ := Option.isSome_iff_exists.mp ((VMap.get_isSome_iff _ _).mpr h2)
    rw [hR.node _ _ _ _ (getSet_some hg).1 u hu]
    exact hA _ v hv

/-- and so it did nothing when everybody the books know afterwards is active -/
theorem cleanup_idle_after {E : Env} {V K} {net : Str} {s s2 : State} {slot} (hE : ValidEnv E) (hX : ExactEnv E)
    (hR : ReadsChain V K E) (hA : AllActive V slot s2) (h : cleanup E net s slot = .ok (s2, true)) :
    s2 = { s with tick := s2.tick } := by
  refine cleanup_idle hE hX hR (fun i v hv => ?_) h
  obtain ⟨w, hw⟩ := Option.isSome_iff_exists.mp ((VMap.get_isSome_iff _ _).mpr
    ((cleanup_grows hE h).2 i ((VMap.get_isSome_iff _ _).mp (by rw [hv]; rfl))))
  exact hA i w hw

end Verif
