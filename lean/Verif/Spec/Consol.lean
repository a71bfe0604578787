import Verif.Spec.Chain
import Verif.Spec.Slot
/-
Consolidations for which the order of the cleanup matters.
-/
namespace Verif

/-- In state `s`, at `slot`, no balance of a validator that left would be moved to a validator that left too:
whenever both are tracked and the second is the target in force for the first, they are different, and the first has
nothing pending, or the second is banned (and has nothing pending). -/
def NoChains (V : Nat → Nat → BVal) (K : Nat → List (Nat × Nat)) (slot : Nat) (s : State) : Prop :=
  ∀ i j v w, VMap.get s.vals i = some v → VMap.get s.vals j = some w → LastTarget (K slot) i j →
    (V slot i).status.isActive = false → (V slot j).status.isActive = false →
    i ≠ j ∧ (v.pend = 0 ∨ (w.status = .banned ∧ w.pend = 0))

/-- At `slot`, no tracked validator that left is consolidated into a tracked validator that left. What validators
outside the pool do does not matter. -/
def TrackedTargets (V : Nat → Nat → BVal) (K : Nat → List (Nat × Nat)) (slot : Nat) (s : State) : Prop :=
  ∀ i j v w, VMap.get s.vals i = some v → VMap.get s.vals j = some w → (i, j) ∈ K slot →
    (V slot i).status.isActive = false → (V slot j).status.isActive = true

theorem ActiveTargets.tracked {V K slot} (h : ActiveTargets V K slot) (s : State) : TrackedTargets V K slot s :=
  fun i j _ _ _ _ hk hi => h (i, j) hk hi

theorem TrackedTargets.noChains {V K slot s} (h : TrackedTargets V K slot s) : NoChains V K slot s := by
  rintro i j v w hv hw ⟨l1, l2, e, _⟩ hi hj
  have := h i j v w hv hw (by rw [e]; simp) hi
  rw [hj] at this
  cases this

end Verif
