import Verif.Spec.Locks
import Mathlib.Tactic.Common
import Mathlib.Data.List.Nodup
/-
Invariants and progress of the mutex.
-/
namespace Verif

section
variable {calls : Nat → Nat → List Act} {nest : Nat → Bool}

/-- `t` is at the front of a request, blocked or not -/
structure LockInv (nest : Nat → Bool) (s : Sys) : Prop where
  legal : ∀ t, ∃ w, Legal (nest t) (s.readers.count t) w (s.todo t) ∧ (w = true ↔ s.owner = some (t, true))
  rwait : ∀ t ∈ s.rwait, ∃ l, s.todo t = .rlock :: l
  rnodup : s.rwait.Nodup
  rowner : s.rwait ≠ [] → s.owner ≠ none
  queue : ∀ t ∈ s.queue, ∃ l, s.todo t = .lock :: l
  qnodup : s.queue.Nodup
  qowner : ∀ t ∈ s.queue, s.owner ≠ some (t, false)
  ann : ∀ t, s.owner = some (t, false) → ∃ l, s.todo t = .lock :: l
  excl : ∀ t, s.owner = some (t, true) → s.readers = []

theorem LockInv.init : LockInv nest Sys.init where
  legal t := ⟨false, by simpa [Sys.init] using Legal.nil, by simp [Sys.init]⟩
  rwait := by simp [Sys.init]
  rnodup := by simp [Sys.init]
  rowner := by simp [Sys.init]
  queue := by simp [Sys.init]
  qnodup := by simp [Sys.init]
  qowner := by simp [Sys.init]
  ann := by simp [Sys.init]
  excl := by simp [Sys.init]

theorem upd_self {f : Nat → List Act} {t : Nat} {l : List Act} : Function.update f t l t = l := by simp

theorem upd_ne {f : Nat → List Act} {t u : Nat} {l : List Act} (h : u ≠ t) : Function.update f t l u = f u := by
  simp [h]

theorem Legal.work_inv {n r w l} (h : Legal n r w (.work :: l)) : Legal n r w l := by cases h; assumption

theorem Legal.rlock_inv {n r w l} (h : Legal n r w (.rlock :: l)) :
    w = false ∧ (n = true ∨ r = 0) ∧ Legal n (r + 1) false l := by
  cases h; exact ⟨rfl, by assumption, by assumption⟩

theorem Legal.runlock_inv {n r w l} (h : Legal n r w (.runlock :: l)) :
    w = false ∧ ∃ r', r = r' + 1 ∧ Legal n r' false l := by
  cases h; exact ⟨rfl, _, rfl, by assumption⟩

theorem Legal.lock_inv {n r w l} (h : Legal n r w (.lock :: l)) : w = false ∧ r = 0 ∧ Legal n 0 true l := by
  cases h; exact ⟨rfl, rfl, by assumption⟩

theorem Legal.unlock_inv {n r w l} (h : Legal n r w (.unlock :: l)) : w = true ∧ r = 0 ∧ Legal n 0 false l := by
  cases h; exact ⟨rfl, rfl, by assumption⟩

theorem Legal.nil_inv {n r w} (h : Legal n r w []) : r = 0 ∧ w = false := by cases h; exact ⟨rfl, rfl⟩

/-- every call is legal, and only `t` writes if `t` nests read locks -/
structure CallsOK (nest : Nat → Bool) (calls : Nat → Nat → List Act) : Prop where
  legal : ∀ t n, Legal (nest t) 0 false (calls t n)
  single : ∀ t, nest t = true → ∀ u, u ≠ t → ∀ n, Act.lock ∉ calls u n

variable {s : Sys} {t : Nat}

theorem LockInv.free (hi : LockInv nest s) {l} (h : s.todo t = .work :: l) :
    LockInv nest (s.step calls t) := by
  have hs : s.step calls t = { s with todo := Function.update s.todo t l } := by
    unfold Sys.step; rw [h]
  rw [hs]
  refine ⟨?_, ?_, hi.rnodup, hi.rowner, ?_, hi.qnodup, hi.qowner, ?_, hi.excl⟩
  · intro u
    by_cases hu : u = t
    · subst hu
      obtain ⟨w, h1, h2⟩ := hi.legal u
      rw [h] at h1
      exact ⟨w, by dsimp only; rw [upd_self]; exact h1.work_inv, h2⟩
    · obtain ⟨w, h1, h2⟩ := hi.legal u
      exact ⟨w, by dsimp only; rw [upd_ne hu]; exact h1, h2⟩
  · intro u hu
    obtain ⟨l', h1⟩ := hi.rwait u hu
    have : u ≠ t := by rintro rfl; rw [h] at h1; simp at h1
    exact ⟨l', by dsimp only; rw [upd_ne this]; exact h1⟩
  · intro u hu
    obtain ⟨l', h1⟩ := hi.queue u hu
    have : u ≠ t := by rintro rfl; rw [h] at h1; simp at h1
    exact ⟨l', by dsimp only; rw [upd_ne this]; exact h1⟩
  · intro u hu
    obtain ⟨l', h1⟩ := hi.ann u hu
    have : u ≠ t := by rintro rfl; rw [h] at h1; simp at h1
    exact ⟨l', by dsimp only; rw [upd_ne this]; exact h1⟩

theorem LockInv.begin (hi : LockInv nest s) (h : s.todo t = []) (c : ∀ t n, Legal (nest t) 0 false (calls t n)) :
    LockInv nest (s.step calls t) := by
  have hs : s.step calls t = { s with
      todo := Function.update s.todo t (calls t (s.begun t))
      begun := Function.update s.begun t (s.begun t + 1) } := by
    unfold Sys.step; rw [h]
  rw [hs]
  refine ⟨?_, ?_, hi.rnodup, hi.rowner, ?_, hi.qnodup, hi.qowner, ?_, hi.excl⟩
  · intro u
    by_cases hu : u = t
    · subst hu
      obtain ⟨w, h1, h2⟩ := hi.legal u
      rw [h] at h1
      obtain ⟨r0, w0⟩ := h1.nil_inv
      subst w0
      exact ⟨false, by dsimp only; rw [upd_self, r0]; exact c u _, h2⟩
    · obtain ⟨w, h1, h2⟩ := hi.legal u
      exact ⟨w, by dsimp only; rw [upd_ne hu]; exact h1, h2⟩
  · intro u hu
    obtain ⟨l', h1⟩ := hi.rwait u hu
    have : u ≠ t := by rintro rfl; rw [h] at h1; simp at h1
    exact ⟨l', by dsimp only; rw [upd_ne this]; exact h1⟩
  · intro u hu
    obtain ⟨l', h1⟩ := hi.queue u hu
    have : u ≠ t := by rintro rfl; rw [h] at h1; simp at h1
    exact ⟨l', by dsimp only; rw [upd_ne this]; exact h1⟩
  · intro u hu
    obtain ⟨l', h1⟩ := hi.ann u hu
    have : u ≠ t := by rintro rfl; rw [h] at h1; simp at h1
    exact ⟨l', by dsimp only; rw [upd_ne this]; exact h1⟩

theorem LockInv.rl (hi : LockInv nest s) {l} (h : s.todo t = .rlock :: l) :
    LockInv nest (s.step calls t) := by
  unfold Sys.step
  rw [h]
  dsimp only
  split
  · exact hi
  · next hnw =>
    split
    · next hown =>
      refine ⟨?_, ?_, hi.rnodup, hi.rowner, ?_, hi.qnodup, hi.qowner, ?_, ?_⟩
      · intro u
        by_cases hu : u = t
        · subst hu
          obtain ⟨w, h1, h2⟩ := hi.legal u
          rw [h] at h1
          obtain ⟨rfl, k2, k3⟩ := h1.rlock_inv
          exact ⟨false, by dsimp only; rw [upd_self, List.count_cons_self]; exact k3, h2⟩
        · obtain ⟨w, h1, h2⟩ := hi.legal u
          exact ⟨w, by dsimp only; rw [upd_ne hu, List.count_cons_of_ne (Ne.symm hu)]; exact h1, h2⟩
      · intro u hu
        obtain ⟨l', h1⟩ := hi.rwait u hu
        have : u ≠ t := by rintro rfl; exact hnw hu
        exact ⟨l', by dsimp only; rw [upd_ne this]; exact h1⟩
      · intro u hu
        obtain ⟨l', h1⟩ := hi.queue u hu
        have : u ≠ t := by rintro rfl; rw [h] at h1; simp at h1
        exact ⟨l', by dsimp only; rw [upd_ne this]; exact h1⟩
      · intro u hu; dsimp only at hu; rw [hown] at hu; simp at hu
      · intro u hu; dsimp only at hu; rw [hown] at hu; simp at hu
    · next hown =>
      refine ⟨hi.legal, ?_, ?_, fun _ => hown, hi.queue, hi.qnodup, hi.qowner, hi.ann, hi.excl⟩
      · intro u hu
        rcases List.mem_cons.mp hu with rfl | hu
        · exact ⟨l, h⟩
        · exact hi.rwait u hu
      · exact List.nodup_cons.mpr ⟨hnw, hi.rnodup⟩

theorem LockInv.ru (hi : LockInv nest s) {l} (h : s.todo t = .runlock :: l) :
    LockInv nest (s.step calls t) := by
  unfold Sys.step
  rw [h]
  dsimp only
  split
  swap
  · exact hi
  next hm =>
  refine ⟨?_, ?_, hi.rnodup, hi.rowner, ?_, hi.qnodup, hi.qowner, ?_, ?_⟩
  · intro u
    by_cases hu : u = t
    · subst hu
      obtain ⟨w, h1, h2⟩ := hi.legal u
      rw [h] at h1
      obtain ⟨rfl, r', k2, k3⟩ := h1.runlock_inv
      refine ⟨false, ?_, h2⟩
      dsimp only
      rw [upd_self, List.count_erase_self, k2]
      exact k3
    · obtain ⟨w, h1, h2⟩ := hi.legal u
      exact ⟨w, by dsimp only; rw [upd_ne hu, List.count_erase_of_ne hu]; exact h1, h2⟩
  · intro u hu
    obtain ⟨l', h1⟩ := hi.rwait u hu
    have : u ≠ t := by rintro rfl; rw [h] at h1; simp at h1
    exact ⟨l', by dsimp only; rw [upd_ne this]; exact h1⟩
  · intro u hu
    obtain ⟨l', h1⟩ := hi.queue u hu
    have : u ≠ t := by rintro rfl; rw [h] at h1; simp at h1
    exact ⟨l', by dsimp only; rw [upd_ne this]; exact h1⟩
  · intro u hu
    obtain ⟨l', h1⟩ := hi.ann u hu
    have : u ≠ t := by rintro rfl; rw [h] at h1; simp at h1
    exact ⟨l', by dsimp only; rw [upd_ne this]; exact h1⟩
  · intro u hu; dsimp only at hu ⊢; rw [hi.excl u hu]; rfl

theorem LockInv.lk (hi : LockInv nest s) {l} (h : s.todo t = .lock :: l) :
    LockInv nest (s.step calls t) := by
  unfold Sys.step
  rw [h]
  dsimp only
  split
  · next hown =>
    split
    swap
    · exact hi
    next hre =>
    refine ⟨?_, ?_, hi.rnodup, by simp, ?_, hi.qnodup, by simp, by simp, fun _ _ => hre⟩
    · intro u
      by_cases hu : u = t
      · subst hu
        obtain ⟨w, h1, h2⟩ := hi.legal u
        rw [h] at h1
        obtain ⟨rfl, k2, k3⟩ := h1.lock_inv
        exact ⟨true, by dsimp only; rw [upd_self, k2]; exact k3, by simp⟩
      · obtain ⟨w, h1, h2⟩ := hi.legal u
        refine ⟨w, by dsimp only; rw [upd_ne hu]; exact h1, ?_⟩
        rw [hown] at h2
        simp only [Option.some.injEq, Prod.mk.injEq, Bool.false_eq_true, and_false, iff_false,
          and_true] at h2 ⊢
        exact ⟨fun k => absurd k h2, fun k => absurd k (Ne.symm hu)⟩
    · intro u hu
      obtain ⟨l', h1⟩ := hi.rwait u hu
      have : u ≠ t := by rintro rfl; rw [h] at h1; simp at h1
      exact ⟨l', by dsimp only; rw [upd_ne this]; exact h1⟩
    · intro u hu
      obtain ⟨l', h1⟩ := hi.queue u hu
      have : u ≠ t := by rintro rfl; exact hi.qowner u hu hown
      exact ⟨l', by dsimp only; rw [upd_ne this]; exact h1⟩
  · next hown =>
    split
    · next hq =>
      split
      swap
      · exact hi
      next hh =>
      obtain ⟨hh, hnone⟩ := hh
      have hsub : ∀ u ∈ s.queue.tail, u ∈ s.queue := fun u hu => List.mem_of_mem_tail hu
      refine ⟨?_, hi.rwait, hi.rnodup, by simp, fun u hu => hi.queue u (hsub u hu), hi.qnodup.tail, ?_, ?_, by simp⟩
      · intro u
        obtain ⟨w, h1, h2⟩ := hi.legal u
        exact ⟨w, h1, by rw [h2, hnone]; simp⟩
      · intro u hu k
        simp only [Option.some.injEq, Prod.mk.injEq, and_true] at k
        subst k
        obtain ⟨q, hq'⟩ : ∃ q, s.queue = t :: q := by
          cases hqq : s.queue with
          | nil => rw [hqq] at hh; simp at hh
          | cons a q => rw [hqq] at hh; simp only [List.head?_cons, Option.some.injEq] at hh; exact ⟨q, by rw [hh]⟩
        have := hi.qnodup
        rw [hq'] at this hu
        exact (List.nodup_cons.mp this).1 (by simpa using hu)
      · intro u hu
        simp only [Option.some.injEq, Prod.mk.injEq, and_true] at hu
        subst hu
        exact ⟨l, h⟩
    · next hq =>
      refine ⟨hi.legal, hi.rwait, hi.rnodup, hi.rowner, ?_, ?_, ?_, hi.ann, hi.excl⟩
      · intro u hu
        simp only [List.mem_append, List.mem_singleton] at hu
        rcases hu with hu | rfl
        · exact hi.queue u hu
        · exact ⟨l, h⟩
      · rw [List.nodup_append]
        exact ⟨hi.qnodup, by simp, by simpa using fun a ha (k : a = t) => hq (k ▸ ha)⟩
      · intro u hu
        simp only [List.mem_append, List.mem_singleton] at hu
        rcases hu with hu | rfl
        · exact hi.qowner u hu
        · exact hown

theorem LockInv.ul (hi : LockInv nest s) {l} (h : s.todo t = .unlock :: l) :
    LockInv nest (s.step calls t) := by
  unfold Sys.step
  rw [h]
  dsimp only
  split
  swap
  · exact hi
  next hown =>
  have hre := hi.excl t hown
  have htw : t ∉ s.rwait := by
    intro k
    obtain ⟨l', h1⟩ := hi.rwait t k
    rw [h] at h1; simp at h1
  refine ⟨?_, by simp, by simp, by simp, ?_, hi.qnodup, by simp, by simp, by simp⟩
  · intro u
    dsimp only
    rw [hre, List.append_nil]
    by_cases hu : u = t
    · subst hu
      obtain ⟨w, h1, h2⟩ := hi.legal u
      rw [h] at h1
      obtain ⟨rfl, k2, k3⟩ := h1.unlock_inv
      exact ⟨false, by rw [if_pos rfl, List.count_eq_zero_of_not_mem htw]; exact k3, by simp⟩
    · rw [if_neg hu]
      obtain ⟨w, h1, h2⟩ := hi.legal u
      rw [hre] at h1
      by_cases huw : u ∈ s.rwait
      · rw [if_pos huw]
        obtain ⟨l', h3⟩ := hi.rwait u huw
        rw [h3] at h1 ⊢
        obtain ⟨rfl, k2, k3⟩ := h1.rlock_inv
        refine ⟨false, ?_, by simp⟩
        rw [List.count_eq_one_of_mem hi.rnodup huw]
        exact k3
      · rw [if_neg huw]
        refine ⟨w, by rw [List.count_eq_zero_of_not_mem huw]; exact h1, ?_⟩
        rw [h2, hown]
        simp [Ne.symm hu]
  · intro u hu
    obtain ⟨l', h1⟩ := hi.queue u hu
    have hut : u ≠ t := by rintro rfl; rw [h] at h1; simp at h1
    have huw : u ∉ s.rwait := by
      intro k
      obtain ⟨l2, h2⟩ := hi.rwait u k
      rw [h1] at h2; simp at h2
    exact ⟨l', by dsimp only; rw [if_neg hut, if_neg huw]; exact h1⟩

theorem LockInv.step (hi : LockInv nest s) (c : ∀ t n, Legal (nest t) 0 false (calls t n)) (t : Nat) :
    LockInv nest (s.step calls t) := by
  cases h : s.todo t with
  | nil => exact hi.begin h c
  | cons a l =>
    cases a with
    | work => exact hi.free h
    | rlock => exact hi.rl h
    | runlock => exact hi.ru h
    | lock => exact hi.lk h
    | unlock => exact hi.ul h

theorem LockInv.run (c : ∀ t n, Legal (nest t) 0 false (calls t n)) (τ : Nat → Nat) (k : Nat) : LockInv nest (Sys.run calls τ k) := by
  induction k with
  | zero => exact .init
  | succ k ih => exact ih.step c _

/-- what a goroutine has left to do comes from its calls -/
theorem todo_run (a : Act) (t : Nat) (h : ∀ n, a ∉ calls t n) (τ : Nat → Nat) (k : Nat) :
    a ∉ (Sys.run calls τ k).todo t := by
  induction k with
  | zero => simp [Sys.run, Sys.init]
  | succ k ih =>
    show a ∉ ((Sys.run calls τ k).step calls (τ k)).todo t
    generalize Sys.run calls τ k = s at ih ⊢
    generalize τ k = u
    have hcons : ∀ b l, s.todo u = b :: l → a ∉ Function.update s.todo u l t := by
      intro b l hb
      by_cases hu : t = u
      · subst hu
        rw [upd_self]
        rw [hb] at ih
        exact fun hm => ih (List.mem_cons_of_mem _ hm)
      · rw [upd_ne hu]; exact ih
    unfold Sys.step
    cases hu : s.todo u with
    | nil =>
      dsimp only
      by_cases hut : t = u
      · subst hut; rw [upd_self]; exact h _
      · rw [upd_ne hut]; exact ih
    | cons b l =>
      cases b with
      | work => exact hcons _ _ hu
      | rlock =>
        dsimp only
        split
        · exact ih
        · split
          · exact hcons _ _ hu
          · exact ih
      | runlock =>
        dsimp only
        split
        · exact hcons _ _ hu
        · exact ih
      | lock =>
        dsimp only
        split
        · split
          · exact hcons _ _ hu
          · exact ih
        · split
          · split <;> exact ih
          · exact ih
      | unlock =>
        dsimp only
        split
        · dsimp only
          split
          · next hut =>
            subst hut
            rw [hu] at ih
            exact fun hm => ih (List.mem_cons_of_mem _ hm)
          · split
            · exact fun hm => ih (List.mem_of_mem_tail hm)
            · exact ih
        · exact ih

end

end Verif
