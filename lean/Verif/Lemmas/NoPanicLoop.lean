import Verif.Lemmas.NoPanic
import Verif.Lemmas.MainLoop
import Verif.Lemmas.Money
import Verif.Lemmas.Freeze
import Verif.Lemmas.Commit
/-
Where the main loop can end in a nil dereference. For C125.
-/
namespace Verif

theorem np_addToLeaves (v : Validator) : ∀ ls : List Leaf, Np (fun _ => True) (addToLeaves v ls)
  | [] => trivial
  | _ :: rest => (np_equals _ _).bind fun _ _ _ => (np_addToLeaves v rest).bind fun _ _ _ => trivial

theorem np_aggLoop : ∀ (vs : List Validator) (ls : List Leaf), Np (fun _ => True) (aggLoop vs ls)
  | [], _ => trivial
  | v :: rest, ls => (np_addToLeaves v ls).bind fun q _ _ => np_aggLoop rest _

theorem np_aggregate (E : Env) (t : Nat) (s : State) : Np (fun _ => True) (aggregate E t s) := by
  unfold aggregate
  refine (np_aggLoop _ _).bind fun ls _ _ => ?_
  dsimp only
  repeat' split
  all_goals exact trivial

/-- Freezing a checkpoint does not panic: the library that builds the tree gets at least two leaves, and every
address has one. -/
theorem np_freeze (H : List Nat → List Nat) (E : Env) (s : State) :
    Np (fun r => r.2 = true → r.1.committed ≠ []) (freeze H E s) := by
  cases ha : aggregate E s.tick s with
  | error c =>
    have h := np_aggregate E s.tick s
    rw [ha] at h
    unfold freeze generateTree
    rw [ha]
    cases c with
    | fatal => exact trivial
    | panic => exact h.elim
  | ok ls =>
    by_cases h2 : 2 ≤ ls.length
    · obtain ⟨f, root, e, _⟩ := freeze_spec (H := H) ha h2
      rw [e]
      intro _ h
      dsimp only at h
      have := (GoMap.put_keys (m := s.committed) (k := s.latestSlot) (v := f) (x := s.latestSlot)).mpr (.inl rfl)
      unfold putFrozen putNat at h
      rw [h] at this
      simp at this
    · rw [freeze_few ha (by omega)]
      intro h
      cases h

theorem latestCommitted_some {E : Env} (hE : ValidEnv E) (t : Nat) {s : State} (h : s.committed ≠ []) :
    latestCommitted E t s ≠ none := by
  unfold latestCommitted latestCommittedSlot
  rw [if_neg h]
  dsimp only
  rw [if_neg (by simp)]
  have hp := shuffle_perm hE t s.committed
  obtain ⟨_, h2, h3⟩ := foldl_max (E.shuffle t s.committed) 0
  obtain ⟨q, hq⟩ := List.exists_mem_of_ne_nil _ h
  have hex : ∃ p ∈ s.committed, p.1 = (E.shuffle t s.committed).foldl (fun m p => if p.1 > m then p.1 else m) 0 := by
    rcases h3 with h3 | ⟨p, hpm, e⟩
    · refine ⟨q, hq, ?_⟩
      have := h2 q (hp.mem_iff.mpr hq)
      omega
    · exact ⟨p, hp.mem_iff.mp hpm, e⟩
  obtain ⟨p, hpm, e⟩ := hex
  unfold getFrozen
  rw [← e]
  intro hn
  rw [Option.map_eq_none_iff, List.find?_eq_none] at hn
  exact hn p hpm (by simp)

theorem np_uniqueLoop : ∀ (l acc : List Str), Np (fun _ => True) (uniqueLoop l acc)
  | [], _ => trivial
  | w :: rest, acc => (np_isIn w acc).bind fun _ _ _ => np_uniqueLoop rest _

theorem np_claimedLoop (claim : Str → Option Int) : ∀ (l : List Str) (acc : List (Str × Int)),
    Np (fun _ => True) (claimedLoop claim l acc)
  | [], _ => trivial
  | a :: rest, acc => by
    unfold claimedLoop
    split
    · exact trivial
    · split
      · exact trivial
      · split
        · exact trivial
        · exact np_claimedLoop claim rest _

theorem np_idle (E : Env) (A : Answers) (l : Loop) : Np (fun _ => True) (idle E A l) := by
  unfold idle
  split
  · refine Np.bind (Q := fun _ => True) ?_ fun us _ _ => (np_claimedLoop A.claim us []).bind fun c _ _ => ?_
    · exact (np_uniqueLoop _ _).bind fun _ _ _ => trivial
    · dsimp only
      split
      · split <;> exact trivial
      · exact trivial
  · exact trivial

/-- The last validator of the beacon node's list is there. -/
def LastThere (a : Option NodeVals) : Prop :=
  ∀ vs, a = some vs → vs ≠ [] → ∃ p ∈ vs, p.1 = vs.length - 1

theorem np_refresh {a : Option NodeVals} (h : LastThere a) : Np (fun _ => True) (refresh a) := by
  unfold refresh
  split
  · exact trivial
  · rename_i vs
    split
    · rename_i hne
      obtain ⟨p, hp, e⟩ := h vs rfl (by rintro rfl; simp at hne)
      split
      · rename_i hn
        rw [List.find?_eq_none] at hn
        exact hn p hp (by simp [e])
      · refine Np.bind (Q := fun _ => True) ?_ fun _ _ _ => trivial
        unfold activationSlotOfLatest
        split
        · exact trivial
        · dsimp only
          split <;> exact trivial
    · exact trivial

theorem np_stepProcessed {H : List Nat → List Nat} {E : Env} (hE : ValidEnv E) {l : Loop} (hc : l.o.cfg.cpSize ≠ 0)
    (hr : ∀ b ∈ l.o.st.proposed, b.reward ≠ none) : Np (fun _ => True) (stepProcessed H E l) := by
  unfold stepProcessed
  refine Np.bind (Q := fun _ => True) ?_ fun q _ _ => ?_
  · unfold isCheckpoint
    split
    · exact trivial
    · split
      · exact trivial
      · first
          | exact trivial
          | (rw [if_neg hc]; exact trivial)
  · split
    · exact trivial
    · exact trivial
    · rw [offchain_eq hE _ hr]
      refine Np.bind (Q := fun _ => True) trivial fun ok _ _ => ?_
      split
      · exact trivial
      · refine (np_freeze H E _).bind fun q _ hq => ?_
        obtain ⟨s, enough⟩ := q
        dsimp only at hq ⊢
        split
        · exact trivial
        · rename_i he
          split
          · rename_i hn
            exact latestCommitted_some hE _ (hq (by simpa using he)) hn
          · exact trivial

theorem work_rewards {H : List Nat → List Nat} {E : Env} (hE : ValidEnv E) {o o' : Oracle} (h : Work H E o o')
    (hr : ∀ b ∈ o.st.proposed, b.reward ≠ none) : ∀ b ∈ o'.st.proposed, b.reward ≠ none := by
  induction h with
  | refl => exact hr
  | slot _ hs _ ih => exact slot_rewards hs ih
  | freeze _ hf ih =>
    rcases freeze_cases hE hf with ⟨_, e⟩ | ⟨f, _, _, e⟩ <;> rw [e] <;> exact ih
  | saved x t _ ih => exact ih

theorem work_cpSize {H : List Nat → List Nat} {E : Env} {o o' : Oracle} (h : Work H E o o') :
    o'.cfg.cpSize = o.cfg.cpSize := by
  induction h with
  | refl => rfl
  | slot _ hs _ ih =>
    obtain ⟨_, _, _, _, _, _, _, _, e, _⟩ := slot_frame hs
    rw [e]
    exact ih
  | freeze _ _ ih => exact ih
  | saved x t _ ih => exact ih

end Verif
