import Verif.Lemmas.Locks
import Mathlib.Data.Nat.Init
/-
Progress: under every fair schedule every goroutine moves on.
-/
namespace Verif

section
variable {calls : Nat → Nat → List Act} {s : Sys} {t : Nat}

theorem step_todo {a l} (h : s.todo t = a :: l) (u : Nat) :
    (s.step calls u).todo t = a :: l ∨ (s.step calls u).todo t = l := by
  by_cases hut : u = t
  · subst hut
    unfold Sys.step
    rw [h]
    cases a <;> dsimp only
    · right; exact upd_self
    · split
      · left; exact h
      · split
        · right; exact upd_self
        · left; exact h
    · split
      · right; exact upd_self
      · left; exact h
    · split
      · split
        · right; exact upd_self
        · left; exact h
      · split
        · split <;> exact Or.inl h
        · left; exact h
    · split
      · right; simp
      · left; exact h
  · have ne : ∀ l', Function.update s.todo u l' t = a :: l := fun l' => by rw [upd_ne (Ne.symm hut)]; exact h
    unfold Sys.step
    cases hu : s.todo u with
    | nil => exact Or.inl (ne _)
    | cons b l' =>
      cases b <;> dsimp only
      · exact Or.inl (ne _)
      · split
        · exact Or.inl h
        · split
          · exact Or.inl (ne _)
          · exact Or.inl h
      · split
        · exact Or.inl (ne _)
        · exact Or.inl h
      · split
        · split
          · exact Or.inl (ne _)
          · exact Or.inl h
        · split
          · split <;> exact Or.inl h
          · exact Or.inl h
      · split
        · dsimp only
          rw [if_neg (Ne.symm hut)]
          split
          · right; rw [h]; rfl
          · left; exact h
        · exact Or.inl h

theorem owner_true (h : s.owner = some (t, true)) (u : Nat) :
    (s.step calls u).owner = some (t, true) ∨ (s.step calls u).owner = none := by
  unfold Sys.step
  split
  · exact Or.inl h
  · exact Or.inl h
  · split
    · exact Or.inl h
    · split <;> exact Or.inl h
  · split <;> exact Or.inl h
  · split
    · next k => rw [h] at k; simp at k
    · split
      · split
        · next k => rw [h] at k; simp at k
        · exact Or.inl h
      · exact Or.inl h
  · split
    · exact Or.inr rfl
    · exact Or.inl h

theorem owner_false (h : s.owner = some (t, false)) (u : Nat) :
    (s.step calls u).owner = some (t, false) ∨ (s.step calls u).owner = some (t, true) := by
  unfold Sys.step
  split
  · exact Or.inl h
  · exact Or.inl h
  · split
    · exact Or.inl h
    · split <;> exact Or.inl h
  · split <;> exact Or.inl h
  · split
    · next k =>
      rw [h] at k
      simp only [Option.some.injEq, Prod.mk.injEq, and_true] at k
      subst k
      split
      · exact Or.inr rfl
      · exact Or.inl h
    · split
      · split
        · next k => rw [h] at k; simp at k
        · exact Or.inl h
      · exact Or.inl h
  · split
    · next k => rw [h] at k; simp at k
    · exact Or.inl h

theorem readers_shrink (h : s.owner = some (t, false)) (u : Nat) :
    (s.step calls u).readers.Sublist s.readers := by
  unfold Sys.step
  split
  · exact List.Sublist.refl _
  · exact List.Sublist.refl _
  · split
    · exact List.Sublist.refl _
    · split
      · next k => rw [h] at k; simp at k
      · exact List.Sublist.refl _
  · split
    · exact List.erase_sublist
    · exact List.Sublist.refl _
  · split
    · split <;> exact List.Sublist.refl _
    · split
      · split <;> exact List.Sublist.refl _
      · exact List.Sublist.refl _
  · split
    · next k => rw [h] at k; simp at k
    · exact List.Sublist.refl _

theorem rwait_stay (h : t ∈ s.rwait) {l} (ht : s.todo t = .rlock :: l) (u : Nat)
    (hs : (s.step calls u).todo t = .rlock :: l) : t ∈ (s.step calls u).rwait := by
  have hne : l ≠ Act.rlock :: l := by intro k; have := congrArg List.length k; simp at this
  unfold Sys.step at hs ⊢
  split
  · exact h
  · exact h
  · split
    · exact h
    · split
      · exact h
      · exact List.mem_cons_of_mem _ h
  · split <;> exact h
  · split
    · split <;> exact h
    · split
      · split <;> exact h
      · exact h
  · next l' hu =>
    rw [hu] at hs
    dsimp only at hs
    split
    · next k =>
      rw [if_pos k] at hs
      dsimp only at hs
      have : t ≠ u := by rintro rfl; rw [ht] at hu; simp at hu
      rw [if_neg this, if_pos h, ht] at hs
      exact absurd hs hne
    · exact h

theorem owner_none (h : s.owner = none) (u : Nat) :
    (s.step calls u).owner = none ∨
    (s.queue.head? = some u ∧ (s.step calls u).queue = s.queue.tail) := by
  unfold Sys.step
  split
  · exact Or.inl h
  · exact Or.inl h
  · split
    · exact Or.inl h
    · first | exact Or.inl h | (split <;> exact Or.inl h)
  · split <;> exact Or.inl h
  · split
    · next k => rw [h] at k; simp at k
    · split
      · split
        · next k => exact Or.inr ⟨k.1, rfl⟩
        · exact Or.inl h
      · exact Or.inl h
  · split
    · exact Or.inl rfl
    · exact Or.inl h

theorem queue_step (u : Nat) :
    (s.step calls u).queue = s.queue ∨ (s.step calls u).queue = s.queue ++ [u] ∨
    ((s.step calls u).queue = s.queue.tail ∧ s.queue.head? = some u ∧
      (s.step calls u).owner = some (u, false)) := by
  unfold Sys.step
  split
  · exact Or.inl rfl
  · exact Or.inl rfl
  · split
    · exact Or.inl rfl
    · split <;> exact Or.inl rfl
  · split <;> exact Or.inl rfl
  · split
    · split <;> exact Or.inl rfl
    · split
      · split
        · next k => exact Or.inr (Or.inr ⟨rfl, k.1, rfl⟩)
        · exact Or.inl rfl
      · exact Or.inr (Or.inl rfl)
  · split <;> exact Or.inl rfl

end

section
variable {calls : Nat → Nat → List Act} {nest : Nat → Bool} (c : CallsOK nest calls) {τ : Nat → Nat} (hf : Fair τ)
  {t k : Nat}

local notation "R" => Sys.run calls τ

theorem cons_ne_self {a : Act} {l : List Act} : l ≠ a :: l := by
  intro k; have := congrArg List.length k; simp at this

/-- if a goroutine is not at the same place for ever, it moves on -/
theorem first_move {a l} (h : (R k).todo t = a :: l) (hn : ¬ ∀ j, k ≤ j → (R j).todo t = a :: l) :
    ∃ j, k ≤ j ∧ (R j).todo t = a :: l ∧ (R (j + 1)).todo t = l := by
  by_contra hc
  apply hn
  intro j hj
  induction j, hj using Nat.le_induction with
  | base => exact h
  | succ j hj ih =>
    rcases step_todo (calls := calls) ih (τ j) with h1 | h1
    · exact h1
    · exact absurd ⟨j, hj, ih, h1⟩ hc

include hf in
theorem scheduled (t k : Nat) : ∃ j, k ≤ j ∧ τ j = t := hf t k

include c hf

/-- a goroutine that holds a lock, or wants none, does not stand still -/
theorem holder_moves {a l} (hst : ∀ j, k ≤ j → (R j).todo t = a :: l)
    (hh : a = .work ∨ a = .runlock ∨ a = .unlock ∨ (a = .rlock ∧ ∀ j, k ≤ j → t ∈ (R j).readers)) : False := by
  obtain ⟨j, hj, hτ⟩ := hf t k
  have h0 := hst j hj
  have h1 := hst (j + 1) (by omega)
  have hi := LockInv.run c.legal τ j
  have hs : R (j + 1) = (R j).step calls t := by
    show (R j).step calls (τ j) = _
    rw [hτ]
  rw [hs] at h1
  obtain ⟨w, g1, g2⟩ := hi.legal t
  rw [h0] at g1
  unfold Sys.step at h1
  rw [h0] at h1
  rcases hh with rfl | rfl | rfl | ⟨rfl, hr⟩
  · dsimp only at h1
    rw [upd_self] at h1
    exact cons_ne_self h1
  · obtain ⟨_, r', k2, _⟩ := g1.runlock_inv
    have : t ∈ (R j).readers := List.count_pos_iff.mp (by omega)
    dsimp only at h1
    rw [if_pos this] at h1
    dsimp only at h1
    rw [upd_self] at h1
    exact cons_ne_self h1
  · obtain ⟨k1, _, _⟩ := g1.unlock_inv
    dsimp only at h1
    rw [if_pos (g2.mp k1)] at h1
    dsimp only at h1
    rw [if_pos rfl] at h1
    exact cons_ne_self h1
  · obtain ⟨_, k2, _⟩ := g1.rlock_inv
    have hmem := hr j hj
    have hcnt : 0 < (R j).readers.count t := List.count_pos_iff.mpr hmem
    have hn : nest t = true := by
      rcases k2 with k2 | k2
      · exact k2
      · omega
    have hown : (R j).owner = none := by
      cases ho : (R j).owner with
      | none => rfl
      | some p =>
        obtain ⟨u, b⟩ := p
        cases b with
        | true => rw [hi.excl u ho] at hmem; simp at hmem
        | false =>
          obtain ⟨l', h2⟩ := hi.ann u ho
          by_cases hut : u = t
          · subst hut; rw [h0] at h2; simp at h2
          · exact absurd (by rw [h2]; simp) (todo_run .lock u (c.single t hn u hut) τ j)
    have hrw : t ∉ (R j).rwait := fun k => hi.rowner (List.ne_nil_of_mem k) hown
    dsimp only at h1
    rw [if_neg hrw, if_pos hown] at h1
    dsimp only at h1
    rw [upd_self] at h1
    exact cons_ne_self h1

/-- readers leave -/
theorem reader_leaves (h : t ∈ (R k).readers) : ∃ j, k ≤ j ∧ t ∉ (R j).readers := by
  by_contra hc
  have hall : ∀ j, k ≤ j → t ∈ (R j).readers := by
    intro j hj
    by_contra h'
    exact hc ⟨j, hj, h'⟩
  clear h hc
  -- the call gets shorter and shorter
  have : ∀ n k, (∀ j, k ≤ j → t ∈ (R j).readers) → ((R k).todo t).length = n → False := by
    intro n
    induction n with
    | zero =>
      intro k hall hl
      obtain ⟨w, g1, _⟩ := (LockInv.run c.legal τ k).legal t
      rw [List.length_eq_zero_iff.mp hl] at g1
      have := g1.nil_inv.1
      have := List.count_pos_iff.mpr (hall k (Nat.le_refl _))
      omega
    | succ n ih =>
      intro k hall hl
      cases htd : (R k).todo t with
      | nil => rw [htd] at hl; simp at hl
      | cons a l =>
        rw [htd] at hl
        obtain ⟨w, g1, _⟩ := (LockInv.run c.legal τ k).legal t
        have hpos := List.count_pos_iff.mpr (hall k (Nat.le_refl _))
        have hmv : ¬ ∀ j, k ≤ j → (R j).todo t = a :: l := by
          intro hst
          refine holder_moves c hf hst ?_
          rw [htd] at g1
          cases a with
          | work => simp
          | rlock => exact Or.inr (Or.inr (Or.inr ⟨rfl, hall⟩))
          | runlock => simp
          | lock => have := g1.lock_inv.2.1; omega
          | unlock => simp
        obtain ⟨j, hj, _, h2⟩ := first_move htd hmv
        exact ih (j + 1) (fun i hi => hall i (by omega)) (by rw [h2]; simpa using hl)
  exact this _ k hall rfl

/-- the writer that holds the lock releases it -/
theorem writer_leaves (h : (R k).owner = some (t, true)) : ∃ j, k ≤ j ∧ (R j).owner = none := by
  by_contra hc
  have hall : ∀ j, k ≤ j → (R j).owner = some (t, true) := by
    intro j hj
    induction j, hj using Nat.le_induction with
    | base => exact h
    | succ j hj ih =>
      rcases owner_true (calls := calls) ih (τ j) with h1 | h1
      · exact h1
      · exact absurd ⟨j + 1, by omega, h1⟩ hc
  have : ∀ n k, (∀ j, k ≤ j → (R j).owner = some (t, true)) → ((R k).todo t).length = n → False := by
    intro n
    induction n with
    | zero =>
      intro k hall hl
      obtain ⟨w, g1, g2⟩ := (LockInv.run c.legal τ k).legal t
      rw [List.length_eq_zero_iff.mp hl] at g1
      have := g2.mpr (hall k (Nat.le_refl _))
      rw [g1.nil_inv.2] at this
      simp at this
    | succ n ih =>
      intro k hall hl
      cases htd : (R k).todo t with
      | nil => rw [htd] at hl; simp at hl
      | cons a l =>
        rw [htd] at hl
        obtain ⟨w, g1, g2⟩ := (LockInv.run c.legal τ k).legal t
        have hw := g2.mpr (hall k (Nat.le_refl _))
        subst hw
        have hmv : ¬ ∀ j, k ≤ j → (R j).todo t = a :: l := by
          intro hst
          refine holder_moves c hf hst ?_
          rw [htd] at g1
          cases a with
          | work => simp
          | rlock => exact absurd g1.rlock_inv.1 (by simp)
          | runlock => simp
          | lock => exact absurd g1.lock_inv.1 (by simp)
          | unlock => simp
        obtain ⟨j, hj, _, h2⟩ := first_move htd hmv
        exact ih (j + 1) (fun i hi => hall i (by omega)) (by rw [h2]; simpa using hl)
  exact this _ k hall rfl

/-- the writer that has announced itself gets the lock -/
theorem writer_enters (h : (R k).owner = some (t, false)) : ∃ j, k ≤ j ∧ (R j).owner = some (t, true) := by
  by_contra hc
  have hall : ∀ j, k ≤ j → (R j).owner = some (t, false) := by
    intro j hj
    induction j, hj using Nat.le_induction with
    | base => exact h
    | succ j hj ih =>
      rcases owner_false (calls := calls) ih (τ j) with h1 | h1
      · exact h1
      · exact absurd ⟨j + 1, by omega, h1⟩ hc
  have hsub : ∀ i j, k ≤ i → i ≤ j → (R j).readers.Sublist (R i).readers := by
    intro i j hi hij
    induction j, hij using Nat.le_induction with
    | base => exact List.Sublist.refl _
    | succ j hj ih => exact (readers_shrink (calls := calls) (hall j (by omega)) (τ j)).trans ih
  have : ∀ n i, k ≤ i → (R i).readers.length = n → False := by
    intro n
    induction n using Nat.strongRecOn with
    | _ n ih =>
      intro i hi hl
      cases hr : (R i).readers with
      | nil =>
        obtain ⟨j, hj, hτ⟩ := hf t i
        have hre : (R j).readers = [] := by
          have := hsub i j hi hj
          rw [hr] at this
          exact List.sublist_nil.mp this
        obtain ⟨l, h0⟩ := (LockInv.run c.legal τ j).ann t (hall j (by omega))
        have h1 := hall (j + 1) (by omega)
        have hs : R (j + 1) = (R j).step calls t := by
          show (R j).step calls (τ j) = _
          rw [hτ]
        rw [hs] at h1
        unfold Sys.step at h1
        rw [h0] at h1
        dsimp only at h1
        rw [if_pos (hall j (by omega)), if_pos hre] at h1
        simp at h1
      | cons r q =>
        obtain ⟨j, hj, h1⟩ := reader_leaves c hf (t := r) (k := i) (by rw [hr]; simp)
        have h2 := hsub i j hi hj
        refine ih _ ?_ j (by omega) rfl
        rw [← hl]
        refine Nat.lt_of_le_of_ne h2.length_le ?_
        intro he
        rw [h2.eq_of_length he, hr] at h1
        simp at h1
  exact this _ k (Nat.le_refl _) rfl

/-- nobody keeps the mutex for ever -/
theorem mutex_free (k : Nat) : ∃ j, k ≤ j ∧ (R j).owner = none := by
  cases h : (R k).owner with
  | none => exact ⟨k, Nat.le_refl _, h⟩
  | some p =>
    obtain ⟨t, b⟩ := p
    cases b with
    | true => exact writer_leaves c hf h
    | false =>
      obtain ⟨j, hj, h1⟩ := writer_enters c hf h
      obtain ⟨i, hi, h2⟩ := writer_leaves c hf h1
      exact ⟨i, by omega, h2⟩

theorem rlock_moves {l} (hst : ∀ j, k ≤ j → (R j).todo t = .rlock :: l) : False := by
  have key : ∀ i, k ≤ i → t ∈ (R i).rwait → False := by
    intro i hi hw
    have hall : ∀ j, i ≤ j → t ∈ (R j).rwait := by
      intro j hj
      induction j, hj using Nat.le_induction with
      | base => exact hw
      | succ j hj ih =>
        exact rwait_stay (calls := calls) ih (hst j (by omega)) (τ j) (hst (j + 1) (by omega))
    obtain ⟨j, hj, ho⟩ := mutex_free c hf i
    exact (LockInv.run c.legal τ j).rowner (List.ne_nil_of_mem (hall j hj)) ho
  obtain ⟨j, hj, hτ⟩ := hf t k
  by_cases hw : t ∈ (R j).rwait
  · exact key j hj hw
  · have h1 := hst (j + 1) (by omega)
    have hs : R (j + 1) = (R j).step calls t := by
      show (R j).step calls (τ j) = _
      rw [hτ]
    by_cases ho : (R j).owner = none
    · rw [hs] at h1
      unfold Sys.step at h1
      rw [hst j hj] at h1
      dsimp only at h1
      rw [if_neg hw, if_pos ho] at h1
      dsimp only at h1
      rw [upd_self] at h1
      exact cons_ne_self h1
    · refine key (j + 1) (by omega) ?_
      rw [hs]
      unfold Sys.step
      rw [hst j hj]
      dsimp only
      rw [if_neg hw, if_neg ho]
      simp

theorem lock_moves {l} (hst : ∀ j, k ≤ j → (R j).todo t = .lock :: l) : False := by
  have hno : ∀ j, k ≤ j → (R j).owner ≠ some (t, false) := by
    intro j hj ho
    obtain ⟨i, hi, h1⟩ := writer_enters c hf ho
    obtain ⟨w, g1, g2⟩ := (LockInv.run c.legal τ i).legal t
    rw [hst i (by omega)] at g1
    have := g2.mpr h1
    rw [g1.lock_inv.1] at this
    simp at this
  -- it gets into the queue
  obtain ⟨i, hi, hq⟩ : ∃ i, k ≤ i ∧ t ∈ (R i).queue := by
    obtain ⟨j, hj, hτ⟩ := hf t k
    by_cases hq : t ∈ (R j).queue
    · exact ⟨j, hj, hq⟩
    · refine ⟨j + 1, by omega, ?_⟩
      have hs : R (j + 1) = (R j).step calls t := by
        show (R j).step calls (τ j) = _
        rw [hτ]
      rw [hs]
      unfold Sys.step
      rw [hst j hj]
      dsimp only
      rw [if_neg (hno j hj), if_neg hq]
      simp
  -- and moves up
  have key : ∀ n i p q, k ≤ i → (R i).queue = p ++ t :: q → p.length = n → False := by
    intro n
    induction n with
    | zero =>
      intro i p q hi hq hp
      rw [List.length_eq_zero_iff.mp hp, List.nil_append] at hq
      -- it stays at the head
      have hhead : ∀ j, i ≤ j → ∃ q, (R j).queue = t :: q := by
        intro j hj
        induction j, hj using Nat.le_induction with
        | base => exact ⟨q, hq⟩
        | succ j hj ih =>
          obtain ⟨q', hq'⟩ := ih
          rcases queue_step (calls := calls) (s := R j) (τ j) with h1 | h1 | ⟨_, h2, h3⟩
          · exact ⟨q', by rw [← hq']; exact h1⟩
          · exact ⟨q' ++ [τ j], by show ((R j).step calls (τ j)).queue = _; rw [h1, hq']; rfl⟩
          · rw [hq'] at h2
            simp only [List.head?_cons, Option.some.injEq] at h2
            rw [← h2] at h3
            exact absurd (show (R (j + 1)).owner = some (t, false) by
              show ((R j).step calls (τ j)).owner = _; rw [← h2]; exact h3) (hno (j + 1) (by omega))
      obtain ⟨j0, hj0, hn0⟩ := mutex_free c hf i
      have hnone : ∀ j, j0 ≤ j → (R j).owner = none := by
        intro j hj
        induction j, hj using Nat.le_induction with
        | base => exact hn0
        | succ j hj ih =>
          rcases owner_none (calls := calls) ih (τ j) with h1 | ⟨h1, h2⟩
          · exact h1
          · exfalso
            obtain ⟨q1, hq1⟩ := hhead j (by omega)
            rw [hq1] at h1 h2
            simp only [List.head?_cons, Option.some.injEq] at h1
            obtain ⟨q2, hq2⟩ := hhead (j + 1) (by omega)
            have h3 : (R (j + 1)).queue = q1 := h2
            have hnd := (LockInv.run c.legal τ j).qnodup
            rw [hq1] at hnd
            rw [h3] at hq2
            rw [hq2] at hnd
            simp at hnd
      obtain ⟨j, hj, hτ⟩ := hf t j0
      obtain ⟨q1, hq1⟩ := hhead j (by omega)
      have hs : R (j + 1) = (R j).step calls t := by
        show (R j).step calls (τ j) = _
        rw [hτ]
      refine hno (j + 1) (by omega) ?_
      rw [hs]
      unfold Sys.step
      rw [hst j (by omega)]
      dsimp only
      rw [if_neg (hno j (by omega)), if_pos (by rw [hq1]; simp), if_pos ⟨by rw [hq1]; rfl, hnone j hj⟩]
    | succ n ih =>
      intro i p q hi hq hp
      obtain ⟨u, p', rfl⟩ : ∃ u p', p = u :: p' := by
        cases p with
        | nil => simp at hp
        | cons u p' => exact ⟨u, p', rfl⟩
      simp only [List.length_cons, Nat.add_right_cancel_iff] at hp
      -- as long as the head does not announce itself the queue keeps its front
      have hhead : ∀ j, i ≤ j → ∃ q, (R j).queue = u :: p' ++ t :: q := by
        intro j hj
        induction j, hj using Nat.le_induction with
        | base => exact ⟨q, hq⟩
        | succ j hj ih' =>
          obtain ⟨q', hq'⟩ := ih'
          rcases queue_step (calls := calls) (s := R j) (τ j) with h1 | h1 | ⟨h2, _, _⟩
          · exact ⟨q', by rw [← hq']; exact h1⟩
          · exact ⟨q' ++ [τ j], by show ((R j).step calls (τ j)).queue = _; rw [h1, hq']; simp⟩
          · rw [hq'] at h2
            exact absurd (ih (j + 1) p' q' (by omega) h2 hp) id
      obtain ⟨j0, hj0, hn0⟩ := mutex_free c hf i
      have hnone : ∀ j, j0 ≤ j → (R j).owner = none := by
        intro j hj
        induction j, hj using Nat.le_induction with
        | base => exact hn0
        | succ j hj ih' =>
          rcases owner_none (calls := calls) ih' (τ j) with h1 | ⟨_, h2⟩
          · exact h1
          · obtain ⟨q1, hq1⟩ := hhead j (by omega)
            rw [hq1] at h2
            exact absurd (ih (j + 1) p' q1 (by omega) h2 hp) id
      obtain ⟨j, hj, hτ⟩ := hf u j0
      obtain ⟨q1, hq1⟩ := hhead j (by omega)
      have hs : R (j + 1) = (R j).step calls u := by
        show (R j).step calls (τ j) = _
        rw [hτ]
      have hmem : u ∈ (R j).queue := by rw [hq1]; simp
      obtain ⟨l', h0⟩ := (LockInv.run c.legal τ j).queue u hmem
      refine ih (j + 1) p' q1 (by omega) ?_ hp
      rw [hs]
      unfold Sys.step
      rw [h0]
      dsimp only
      rw [if_neg ((LockInv.run c.legal τ j).qowner u hmem), if_pos hmem,
        if_pos ⟨by rw [hq1]; rfl, hnone j hj⟩]
      dsimp only
      rw [hq1]; rfl
  obtain ⟨p, q, hpq⟩ := List.append_of_mem hq
  exact key _ i p q hi hpq rfl

/-- under a fair schedule every goroutine moves on -/
theorem moves {a l} (h : (R k).todo t = a :: l) :
    ∃ j, k ≤ j ∧ (R j).todo t = a :: l ∧ (R (j + 1)).todo t = l := by
  refine first_move h fun hst => ?_
  cases a with
  | work => exact holder_moves c hf hst (by simp)
  | rlock => exact rlock_moves c hf hst
  | runlock => exact holder_moves c hf hst (by simp)
  | lock => exact lock_moves c hf hst
  | unlock => exact holder_moves c hf hst (by simp)

end

end Verif
