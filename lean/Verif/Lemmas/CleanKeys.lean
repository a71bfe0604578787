import Verif.Lemmas.Det
import Verif.Lemmas.VStep
/-
The cleanup forgets nobody.
-/
namespace Verif
open VMap

/-- nobody is forgotten, and the map stays in order -/
def ForgetsNobody (s s' : State) : Prop :=
  (Sorted s.vals → Sorted s'.vals) ∧ ∀ k ∈ keys s.vals, k ∈ keys s'.vals

theorem ForgetsNobody.refl (s : State) : ForgetsNobody s s := ⟨id, fun _ => id⟩

theorem ForgetsNobody.trans {a b c : State} (h1 : ForgetsNobody a b) (h2 : ForgetsNobody b c) : ForgetsNobody a c :=
  ⟨fun h => h2.1 (h1.1 h), fun k hk => h2.2 k (h1.2 k hk)⟩

theorem modVal_grows (s : State) (i f) : ForgetsNobody s (s.modVal i f) := by
  unfold State.modVal
  refine ⟨fun h => h.modify _ _, fun k hk => ?_⟩
  dsimp only
  rw [keys_modify]; exact hk

theorem incPending_grows {s s' : State} {i x} (h : s.incPending i x = .ok s') : ForgetsNobody s s' := by
  unfold State.incPending at h
  split at h
  · simp only [Except.ok.injEq] at h; rw [← h]; exact modVal_grows _ _ _
  · simp at h

theorem resetPending_grows {s s' : State} {i} (h : s.resetPending i = .ok s') : ForgetsNobody s s' := by
  unfold State.resetPending at h
  split at h
  · simp only [Except.ok.injEq] at h; rw [← h]; exact modVal_grows _ _ _
  · simp at h

theorem putVal_grows (s : State) (i v) : ForgetsNobody s (s.putVal i v) := by
  unfold State.putVal
  refine ⟨fun h => h.insert _ _, fun k hk => ?_⟩
  dsimp only
  rw [← get_isSome_iff, get_insert]
  split
  · rfl
  · exact (get_isSome_iff _ _).mpr hk

theorem cleanOne_grows {E slot cs s tot i s' tot' go} (h : cleanOne E slot cs s tot i = .ok (s', tot', go)) :
    ForgetsNobody s s' := by
  refine (modVal_grows s i _ : ForgetsNobody s (s.advance i .unsubscribe)).trans ?_
  unfold cleanOne at h
  simp only [bind_ok] at h
  obtain ⟨p, hp, h⟩ := h
  split at h
  · simp only [bind_ok, Except.ok.injEq, Prod.mk.injEq] at h
    obtain ⟨s2, h2, h3, _⟩ := h
    rw [← h3]; exact resetPending_grows h2
  · split at h
    · simp only [bind_ok, Except.ok.injEq, Prod.mk.injEq] at h
      obtain ⟨s2, h2, s3, h3, h4, _⟩ := h
      rw [← h4]; exact (incPending_grows h2).trans (resetPending_grows h3)
    · split at h
      · split at h
        · simp only [Except.ok.injEq, Prod.mk.injEq] at h; rw [← h.1]; exact .refl _
        · split at h
          · simp only [Except.ok.injEq, Prod.mk.injEq] at h; rw [← h.1]; exact .refl _
          · split at h
            · simp at h
            · simp only [bind_ok, Except.ok.injEq, Prod.mk.injEq] at h
              obtain ⟨s2, h2, h3, _⟩ := h
              rw [← h3]
              have := ForgetsNobody.trans (putVal_grows _ _ _) (resetPending_grows h2)
              exact this
      · split at h
        · simp only [bind_ok, Except.ok.injEq, Prod.mk.injEq] at h
          obtain ⟨s2, h2, h3, _⟩ := h
          rw [← h3]; exact resetPending_grows h2
        · simp at h

theorem cleanLoop_grows {E slot cs vs s tot s' tot' go}
    (h : cleanLoop E slot cs vs s tot = .ok (s', tot', go)) : ForgetsNobody s s' := by
  induction vs generalizing s tot with
  | nil => simp only [cleanLoop, Except.ok.injEq, Prod.mk.injEq] at h; rw [h.1]; exact .refl _
  | cons v vs ih =>
    simp only [cleanLoop] at h
    split at h
    · exact ih h
    · rw [bind_ok] at h
      obtain ⟨p, hp, h⟩ := h
      split at h
      · exact ih h
      · rw [bind_ok] at h
        obtain ⟨⟨s1, tot1, g⟩, h1, h2⟩ := h
        simp only at h2
        split at h2
        · exact (cleanOne_grows h1).trans (ih h2)
        · simp only [Except.ok.injEq, Prod.mk.injEq] at h2
          rw [← h2.1]; exact cleanOne_grows h1

theorem cleanup_grows {E : Env} (hE : ValidEnv E) {net s slot s' c}
    (h : cleanup E net s slot = .ok (s', c)) : ForgetsNobody s s' := by
  unfold cleanup at h
  split at h
  · simp only [Except.ok.injEq, Prod.mk.injEq] at h; rw [h.1]; exact .refl _
  · simp only at h
    split at h
    · simp only [Except.ok.injEq, Prod.mk.injEq] at h; rw [h.1]; exact .refl _
    · split at h
      · simp only [Except.ok.injEq, Prod.mk.injEq] at h; rw [← h.1]; exact .refl _
      · split at h
        · simp only [Except.ok.injEq, Prod.mk.injEq] at h; rw [← h.1]; exact .refl _
        · rw [bind_ok] at h
          obtain ⟨⟨s1, tot, go⟩, h1, h2⟩ := h
          have e : ForgetsNobody s s1 := by have := cleanLoop_grows h1; exact this
          simp only at h2
          split at h2
          · simp only [Except.ok.injEq, Prod.mk.injEq] at h2; rw [← h2.1]; exact e
          · split at h2
            · rw [bind_ok] at h2
              obtain ⟨s2, h3, h4⟩ := h2
              simp only [Except.ok.injEq, Prod.mk.injEq] at h4
              rw [← h4.1]
              refine e.trans ?_
              rcases increaseAll_rule hE h3 with ⟨_, h5, _⟩ | ⟨_, _, x, f, hx, _, h5, _⟩
              · unfold ForgetsNobody; rw [h5]; exact ForgetsNobody.refl _
              · unfold ForgetsNobody; rw [h5, keys_credit]; exact ⟨fun h => h.credit _, fun _ => id⟩
            · simp only [Except.ok.injEq, Prod.mk.injEq] at h2; rw [← h2.1]; exact e

/-- A processed slot forgets nobody, whatever is consolidated. -/
theorem slot_remembers {E : Env} (hE : ValidEnv E) (hX : ExactEnv E) {o o' : Oracle} {b : FullBlock} {n : Nat}
    (hs : Sorted o.st.vals) (h : advanceState E o b = .ok (o', some n)) :
    Sorted o'.st.vals ∧ ∀ i v, VMap.get o.st.vals i = some v → ∃ v', VMap.get o'.st.vals i = some v' := by
  obtain ⟨o1, sb, dons, s1, s2, _, _, hc, _, _, _, ha, hcl, ho', _⟩ := advanceState_ok h
  have hvals : o1.st.vals = o.st.vals := by rw [validateConfig_frame hc]
  obtain ⟨_, _, _, k⟩ := applyBlock_runs (x := False) hE hX (slot := o.st.nextSlot) (by rw [hvals]; exact hs) (by simp) ha
  have hs1 : Sorted s1.vals := k.sorted (by show Sorted o1.st.vals; rw [hvals]; exact hs)
  have hg : ForgetsNobody s1 s2 := by
    split at hcl
    · exact cleanup_grows hE hcl
    · simp only [Except.ok.injEq, Prod.mk.injEq, and_true] at hcl
      rw [← hcl]; exact .refl _
  obtain ⟨⟨ops, hp, _, _⟩, _⟩ := k
  rw [ho']
  refine ⟨hg.1 hs1, fun i v hv => ?_⟩
  obtain ⟨v1, h1, _⟩ := hp.lift (fun _ _ => True) (fun _ => trivial) (fun _ _ _ _ _ => trivial) (fun _ => True)
    (fun _ _ => trivial) (fun _ _ _ _ _ _ => trivial) (i := i) (v := v) (by
      show VMap.get o1.st.vals i = some v
      rw [hvals]; exact hv)
  have h1 : VMap.get s1.vals i = some v1 := h1
  exact Option.isSome_iff_exists.mp ((get_isSome_iff _ _).mpr (hg.2 i ((get_isSome_iff _ _).mp (by rw [h1]; rfl))))

end Verif
