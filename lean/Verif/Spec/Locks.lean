import Verif.Model.Locks
/-
Words for the mutex.
-/
namespace Verif

/-- Every goroutine is scheduled again and again. -/
def Fair (τ : Nat → Nat) : Prop := ∀ t k, ∃ j, k ≤ j ∧ τ j = t

/-- Goroutine `t` is waiting for a read lock. -/
def WantsRead (s : Sys) (t : Nat) : Prop := ∃ l, s.todo t = .rlock :: l

/-- Goroutine `t` is waiting for the write lock. -/
def WantsWrite (s : Sys) (t : Nat) : Prop := ∃ l, s.todo t = .lock :: l

/-- Goroutine `t` holds a read lock. -/
def Reads (s : Sys) (t : Nat) : Prop := t ∈ s.readers

/-- Goroutine `t` holds the write lock. -/
def Writes (s : Sys) (t : Nat) : Prop := s.owner = some (t, true)

/-- The acts `l` can be executed holding `r` read locks (and the write lock if `w`): no lock is released
that is not held, none is requested while holding the write lock, the write lock is not requested
while holding a read lock, and at the end none is held. With `nest = false` read locks are not
requested while holding one. -/
inductive Legal (nest : Bool) : Nat → Bool → List Act → Prop
  | nil : Legal nest 0 false []
  | work {r w l} : Legal nest r w l → Legal nest r w (.work :: l)
  | rlock {r l} : (nest = true ∨ r = 0) → Legal nest (r + 1) false l → Legal nest r false (.rlock :: l)
  | runlock {r l} : Legal nest r false l → Legal nest (r + 1) false (.runlock :: l)
  | lock {l} : Legal nest 0 true l → Legal nest 0 false (.lock :: l)
  | unlock {l} : Legal nest 0 false l → Legal nest 0 true (.unlock :: l)

end Verif
