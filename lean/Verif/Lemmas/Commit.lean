import Verif.Lemmas.Freeze
import Verif.Lemmas.Hist
/-
The map of checkpoints.
-/
namespace Verif

theorem putFrozen_mem {m : List (Nat × Frozen)} (hn : m.Pairwise fun p q => p.1 < q.1) (k : Nat) (f : Frozen)
    (p) : p ∈ putFrozen m k f ↔ p = (k, f) ∨ (p.1 ≠ k ∧ p ∈ m) := GoMap.put_mem strictNat hn k f p

theorem putFrozen_asc {m : List (Nat × Frozen)} (hn : m.Pairwise fun p q => p.1 < q.1) (k f) :
    (putFrozen m k f).Pairwise fun p q => p.1 < q.1 := GoMap.put_asc strictNat hn k f

theorem KeysOK.nodup {s : State} (h : KeysOK s) : (s.committed.map (·.1)).Nodup :=
  GoMap.asc_nodup strictNat h

theorem getFrozen_of_mem {m : List (Nat × Frozen)} {k f} (hn : (m.map (·.1)).Nodup)
    (h : (k, f) ∈ m) : getFrozen m k = some f := by
  induction m with
  | nil => simp at h
  | cons q m ih =>
    rw [List.map_cons, List.nodup_cons] at hn
    unfold getFrozen
    rw [List.find?_cons]
    rcases List.mem_cons.mp h with h | h
    · subst h; simp
    · have : q.1 ≠ k := by
        intro e
        apply hn.1
        rw [List.mem_map]
        exact ⟨_, h, e.symm⟩
      have hb : (q.1 == k) = false := by simpa using this
      rw [hb]
      exact ih hn.2 h

theorem frozen_unique {m : List (Nat × Frozen)} {k f g} (hn : (m.map (·.1)).Nodup)
    (h : (k, f) ∈ m) (h' : (k, g) ∈ m) : f = g := by
  have := getFrozen_of_mem hn h
  rw [getFrozen_of_mem hn h'] at this
  exact (Option.some.inj this).symm

theorem foldl_max (l : List (Nat × Frozen)) (n : Nat) :
    let r := l.foldl (fun m p => if p.1 > m then p.1 else m) n
    n ≤ r ∧ (∀ p ∈ l, p.1 ≤ r) ∧ (r = n ∨ ∃ p ∈ l, p.1 = r) := by
  induction l generalizing n with
  | nil => simp
  | cons q l ih =>
    have := ih (if q.1 > n then q.1 else n)
    simp only [List.foldl_cons] at this ⊢
    obtain ⟨h1, h2, h3⟩ := this
    by_cases hq : q.1 > n
    · rw [if_pos hq] at h1 h2 h3 ⊢
      refine ⟨by omega, ?_, ?_⟩
      · intro p hp
        rcases List.mem_cons.mp hp with rfl | hp
        · exact h1
        · exact h2 p hp
      · rcases h3 with h3 | ⟨p, hp, e⟩
        · exact Or.inr ⟨q, by simp, h3.symm⟩
        · exact Or.inr ⟨p, by simp [hp], e⟩
    · rw [if_neg hq] at h1 h2 h3 ⊢
      refine ⟨h1, ?_, ?_⟩
      · intro p hp
        rcases List.mem_cons.mp hp with rfl | hp
        · omega
        · exact h2 p hp
      · rcases h3 with h3 | ⟨p, hp, e⟩
        · exact Or.inl h3
        · exact Or.inr ⟨p, by simp [hp], e⟩

/-- the look-up finds the entry with the highest slot -/
theorem latestCommitted_spec {E : Env} (hE : ValidEnv E) (t : Nat) {s : State} (hk : KeysOK s) {k f}
    (h : (k, f) ∈ s.committed) (hmax : ∀ p ∈ s.committed, p.1 ≤ k) :
    latestCommittedSlot E t s = (k, true) ∧ latestCommitted E t s = some f := by
  have hne : s.committed ≠ [] := by intro e; rw [e] at h; simp at h
  have hp := shuffle_perm hE t s.committed
  have h1 : latestCommittedSlot E t s = (k, true) := by
    unfold latestCommittedSlot
    rw [if_neg hne]
    obtain ⟨_, h2, h3⟩ := foldl_max (E.shuffle t s.committed) 0
    congr 1
    have h4 := h2 _ (hp.mem_iff.mpr h)
    dsimp only at h4
    rcases h3 with h3 | ⟨p, hpm, e⟩
    · omega
    · have := hmax p (hp.mem_iff.mp hpm)
      omega
  refine ⟨h1, ?_⟩
  unfold latestCommitted
  rw [h1]
  exact getFrozen_of_mem hk.nodup h

/-- the checkpoint of a state -/
def FrozenOf (H : List Nat → List Nat) (s : State) (f : Frozen) : Prop :=
  ∃ ls, LeavesOf s ls ∧ frz H s.latestSlot s.vals ls = .ok (some f)

theorem frozenOf_unique {H s f g} (h : FrozenOf H s f) (h' : FrozenOf H s g) : f = g := by
  obtain ⟨ls, h1, h2⟩ := h
  obtain ⟨ls', h1', h2'⟩ := h'
  have := leaves_unique h1 h1' rfl rfl (fun _ => rfl) (fun _ => Iff.rfl)
  subst this
  rw [h2] at h2'
  simpa using h2'

theorem frozenOf_slot {H s f} (h : FrozenOf H s f) : f.slot = s.latestSlot := by
  obtain ⟨ls, _, h⟩ := h
  unfold frz at h
  split at h
  · simp at h
  · simp only [bind_ok] at h
    obtain ⟨_, _, _, _, h⟩ := h
    simp only [Except.ok.injEq, Option.some.injEq] at h
    rw [← h]

theorem freeze_cases {H E s s' r} (hE : ValidEnv E) (h : freeze H E s = .ok (s', r)) :
    (r = false ∧ s' = { s with tick := s.tick + 2 }) ∨
    ∃ f, FrozenOf H s f ∧ r = true ∧ s' = { s with
          committed := putFrozen s.committed s.latestSlot f, tick := s.tick + 2 } := by
  obtain ⟨ls, x, h1, h2, h3⟩ := freeze_frz h
  rcases h3 with ⟨_, h3⟩ | ⟨f, rfl, h3⟩
  · exact Or.inl h3
  · exact Or.inr ⟨f, ⟨ls, (aggregate_ok hE h1).1, h2⟩, h3⟩

/-- what is true of the checkpoints while the oracle works -/
structure CommitInv (H : List Nat → List Nat) (s : State) : Prop where
  next : s.nextSlot = s.latestSlot + 1
  keys : KeysOK s
  entry : ∀ p ∈ s.committed, p.2.slot = p.1 ∧ p.1 ≤ s.latestSlot ∧
    (p.1 = s.latestSlot → FrozenOf H s p.2)

theorem CommitInv.slot {H E o b o' n} (h : CommitInv H o.st)
    (hs : advanceState E o b = .ok (o', some n)) (hb : b.dutySlot + 1 < 2 ^ 64) :
    CommitInv H o'.st ∧ o'.st.committed = o.st.committed ∧ o.st.latestSlot < o'.st.latestSlot := by
  obtain ⟨sb, dons, p, m, w, _, _, _, _, h5, h6, _⟩ := slot_frame hs
  have e := (slot_next hs).1
  have h1 : o'.st.latestSlot = o.st.nextSlot := by have := congrArg State.latestSlot h5; exact this
  have h2 : o'.st.nextSlot = u64 (o.st.nextSlot + 1) := by
    have := congrArg State.nextSlot h5; exact this
  have h3 : o'.st.committed = o.st.committed := by have := congrArg State.committed h5; exact this
  have h4 := h.next
  refine ⟨⟨?_, ?_, ?_⟩, h3, by omega⟩
  · rw [h2, h1, e]
    unfold u64
    exact Nat.mod_eq_of_lt hb
  · unfold KeysOK; rw [h3]; exact h.keys
  · intro p hp
    rw [h3] at hp
    obtain ⟨e1, e2, _⟩ := h.entry p hp
    exact ⟨e1, by omega, fun e3 => by omega⟩

theorem FrozenOf.congr {H s s' f} (h : FrozenOf H s f) (h1 : s'.latestSlot = s.latestSlot)
    (h2 : s'.vals = s.vals) (h3 : s'.poolFees = s.poolFees) (h4 : s'.poolFeesAddr = s.poolFeesAddr) :
    FrozenOf H s' f := by
  obtain ⟨ls, hl, hf⟩ := h
  refine ⟨ls, ⟨?_, hl.sorted, ?_, ?_⟩, by rw [h1, h2]; exact hf⟩
  · rw [h4, h3]; exact hl.head
  · intro l hm
    have := hl.sound l hm
    unfold debtOf at this ⊢
    rw [h2]; exact this
  · rw [h2]; exact hl.complete

theorem CommitInv.freeze {H E s s' r} (hE : ValidEnv E) (h : CommitInv H s)
    (hf : freeze H E s = .ok (s', r)) :
    CommitInv H s' ∧ ∀ p ∈ s.committed, p ∈ s'.committed := by
  rcases freeze_cases hE hf with ⟨_, rfl⟩ | ⟨f, hF, _, rfl⟩
  · refine ⟨⟨h.next, h.keys, ?_⟩, fun p hp => hp⟩
    intro p hp
    obtain ⟨e1, e2, e3⟩ := h.entry p hp
    exact ⟨e1, e2, fun e => (e3 e).congr rfl rfl rfl rfl⟩
  · refine ⟨⟨h.next, putFrozen_asc h.keys _ _, ?_⟩, ?_⟩
    · intro p hp
      dsimp only at hp ⊢
      rcases (putFrozen_mem h.keys _ _ p).mp hp with rfl | ⟨hne, hp⟩
      · exact ⟨frozenOf_slot hF, le_refl _, fun _ => hF.congr rfl rfl rfl rfl⟩
      · obtain ⟨e1, e2, e3⟩ := h.entry p hp
        exact ⟨e1, e2, fun e => absurd e hne⟩
    · intro p hp
      dsimp only
      rw [putFrozen_mem h.keys]
      by_cases hne : p.1 = s.latestSlot
      · left
        obtain ⟨_, _, e3⟩ := h.entry p hp
        have := frozenOf_unique hF (e3 hne)
        rw [this, ← hne]
      · exact Or.inr ⟨hne, hp⟩

end Verif
