import Verif.Spec.Slot
import Verif.Model.Cleanup
/-
The consolidation target in force.
-/
namespace Verif

theorem consolTarget_some {cs i j} (h : consolTarget cs i = some j) : LastTarget cs i j ∧ (i, j) ∈ cs := by
  unfold consolTarget at h
  obtain ⟨p, hp, rfl⟩ := Option.map_eq_some_iff.mp h
  obtain ⟨hpi, as, bs, hcs, hall⟩ := List.find?_eq_some_iff_append.mp hp
  have hpi' : p.1 = i := by simpa using hpi
  subst hpi'
  have e : cs = bs.reverse ++ p :: as.reverse := by
    have := congrArg List.reverse hcs
    simpa using this
  refine ⟨⟨bs.reverse, as.reverse, e, ?_⟩, by rw [e]; simp⟩
  intro q hq
  have := hall q (by simpa using hq)
  simpa using this

theorem consolTarget_none {cs i} (h : consolTarget cs i = none) : ∀ j, ¬ LastTarget cs i j := by
  unfold consolTarget at h
  rw [Option.map_eq_none_iff, List.find?_eq_none] at h
  rintro j ⟨l1, l2, hcs, _⟩
  have := h (i, j) (by rw [hcs]; simp)
  simp at this

end Verif
