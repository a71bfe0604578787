import Verif.Lemmas.Live
/-
C82: as long as the nodes and the contract work, the oracle goes on and keeps up with the chain.
-/
namespace Verif
open VMap

theorem reliableRun_inv {cfg : Config} {L : Lib} {H : List Nat → List Nat} {E : Env} (hH : HashOK H)
    (hc : GoodCfg cfg) (hE : GoodEnv cfg E) {l0 l : Loop} (h0 : LiveInv H cfg l0)
    (hr : ReliableRun L H E cfg l0 l) : LiveInv H cfg l := by
  induction hr with
  | nil => exact h0
  | step _ hA hs ih =>
    obtain ⟨l', evs, h1, h2, _⟩ := step_live (L := L) hH hc hE ih hA
    rw [hs] at h1
    cases h1
    exact h2

/-- **C82**, partial: as in C42, C02, C59 and C61 the chain must be honest in the wide sense of `GoodFetch` and
`GoodEnv`, and the contract must hold its money. The main loop, started new, never stops: whatever has
happened so far and wherever it is, the next step goes through if the answers are reliable. -/
theorem C82_never_stops_partial {cfg : Config} {L : Lib} {H : List Nat → List Nat} {E : Env} (hH : HashOK H)
    (hc : GoodCfg cfg) (hE : GoodEnv cfg E) {disk : Disk} {lr : Int} {l : Loop}
    (hr : ReliableRun L H E cfg ⟨.top, newOracle cfg, disk, lr⟩ l) {A : Answers} (hA : Reliable cfg A l.o.st) :
    ∃ l' evs, stepLoop L H E A l = .ok (l', evs) := by
  obtain ⟨l', evs, h, _⟩ := step_live (L := L) hH hc hE
    (reliableRun_inv hH hc hE (live_start hc disk lr) hr) hA
  exact ⟨l', evs, h⟩

/-- An infinite execution of the main loop on reliable answers. -/
structure Forever (L : Lib) (H : List Nat → List Nat) (E : Env) (cfg : Config) (A : Nat → Answers)
    (l : Nat → Loop) : Prop where
  reliable : ∀ k, Reliable cfg (A k) (l k).o.st
  step : ∀ k, ∃ evs, stepLoop L H E (A k) (l k) = .ok (l (k + 1), evs)

/-- No wait lasts for ever: if the loop asks on and on for the finalized slot, for its pending vote, or for
the contract's root, then at some point the answer is the one it waits for. -/
structure WaitsEnd (N : Nat) (A : Nat → Answers) (l : Nat → Loop) : Prop where
  finalized : ∀ k, (∀ j, k ≤ j → (l j).pc = .top) →
    ∃ j fin, k ≤ j ∧ (A j).sync = some true ∧ (A j).finalized = some fin ∧ N ≤ fin
  vote : ∀ k f, (∀ j, k ≤ j → (l j).pc = .vote f) → ∃ j, k ≤ j ∧ (A j).report ≠ some f.slot
  confirm : ∀ k f, (∀ j, k ≤ j → (l j).pc = .confirm f) → ∃ j, k ≤ j ∧ (A j).chain = some (f.root, f.slot)

section
variable {cfg : Config} {L : Lib} {H : List Nat → List Nat} {E : Env} {A : Nat → Answers} {l : Nat → Loop}

theorem forever_moves (hH : HashOK H) (hc : GoodCfg cfg) (hE : GoodEnv cfg E) (hF : Forever L H E cfg A l)
    (h0 : LiveInv H cfg (l 0)) : ∀ k, LiveInv H cfg (l k) ∧ ∃ evs, stepLoop L H E (A k) (l k) = .ok (l (k + 1), evs) ∧
      Moves (A k) (l k) (l (k + 1)) evs := by
  have inv : ∀ k, LiveInv H cfg (l k) := by
    intro k
    induction k with
    | zero => exact h0
    | succ k ih =>
      obtain ⟨l', evs, h1, h2, _⟩ := step_live (L := L) hH hc hE ih (hF.reliable k)
      obtain ⟨evs', h3⟩ := hF.step k
      rw [h3] at h1
      cases h1
      exact h2
  intro k
  obtain ⟨l', evs, h1, h2, h3⟩ := step_live (L := L) hH hc hE (inv k) (hF.reliable k)
  obtain ⟨evs', h4⟩ := hF.step k
  have h5 := h1
  rw [h4] at h5
  cases h5
  exact ⟨inv k, evs, h1, h3⟩

/-- a place that is left only by a good answer, and where a good answer comes, is left -/
theorem leaves {p : Nat → Prop} (k : Nat) (hp : ¬ ∀ j, k ≤ j → p j) (h0 : p k) :
    ∃ j, k ≤ j ∧ (∀ i, k ≤ i → i ≤ j → p i) ∧ ¬ p (j + 1) := by
  classical
  have hex : ∃ j, k ≤ j ∧ ¬ p j := by
    by_contra hn
    exact hp fun j hj => by_contra fun h => hn ⟨j, hj, h⟩
  have hf := Nat.find_spec hex
  have hm := fun m => Nat.find_min (H := hex) (m := m)
  have hne : Nat.find hex ≠ k := by
    intro e
    rw [e] at hf
    exact hf.2 h0
  obtain ⟨j, hj⟩ : ∃ j, Nat.find hex = j + 1 := ⟨Nat.find hex - 1, by have := hf.1; omega⟩
  refine ⟨j, by have := hf.1; omega, fun i h1 h2 => ?_, by rw [← hj]; exact hf.2⟩
  by_contra hn
  exact hm i (by omega) ⟨h1, hn⟩

variable (hH : HashOK H) (hc : GoodCfg cfg) (hE : GoodEnv cfg E) (hF : Forever L H E cfg A l)
  (h0 : LiveInv H cfg (l 0)) {N : Nat} (hW : WaitsEnd N A l)
include hH hc hE hF h0 hW

/-- from anywhere the loop comes back to the top, without skipping slots -/
theorem back_to_top (k : Nat) : ∃ j, k ≤ j ∧ (l j).pc = .top ∧ (l j).o.st.nextSlot = (l k).o.st.nextSlot ∨
    (l k).pc = .top := by
  have hm := forever_moves hH hc hE hF h0
  have save : ∀ k f, (l k).pc = .save f → ∃ j, k ≤ j ∧ (l j).pc = .top ∧
      (l j).o.st.nextSlot = (l k).o.st.nextSlot := by
    intro k f h
    obtain ⟨_, evs, _, hv⟩ := hm k
    unfold Moves at hv
    rw [h] at hv
    exact ⟨k + 1, by omega, hv.2, hv.1⟩
  have confirm : ∀ k f, (l k).pc = .confirm f → ∃ j, k ≤ j ∧ (l j).pc = .top ∧
      (l j).o.st.nextSlot = (l k).o.st.nextSlot := by
    intro k f h
    have hend : ¬ ∀ j, k ≤ j → (l j).pc = .confirm f := by
      intro hall
      obtain ⟨j, hj, hch⟩ := hW.confirm k f hall
      obtain ⟨_, evs, _, hv⟩ := hm j
      unfold Moves at hv
      rw [hall j hj] at hv
      rcases hv.2 with ⟨_, h'⟩ | ⟨h', _⟩
      · rw [hall (j + 1) (by omega)] at h'; cases h'
      · exact h' hch
    obtain ⟨j, hj, hstay, hleave⟩ := leaves k hend h
    have hn : ∀ i, k ≤ i → i ≤ j + 1 → (l i).o.st.nextSlot = (l k).o.st.nextSlot := by
      intro i hi
      induction i, hi using Nat.le_induction with
      | base => intro _; rfl
      | succ i hi ih =>
        intro h'
        obtain ⟨_, evs, _, hv⟩ := hm i
        unfold Moves at hv
        rw [hstay i hi (by omega)] at hv
        rw [hv.1, ih (by omega)]
    obtain ⟨_, evs, _, hv⟩ := hm j
    unfold Moves at hv
    rw [hstay j hj (le_refl _)] at hv
    rcases hv.2 with ⟨_, h'⟩ | ⟨_, h'⟩
    · obtain ⟨i, h1, h2, h3⟩ := save (j + 1) f h'
      exact ⟨i, by omega, h2, by rw [h3, hn _ (by omega) (le_refl _)]⟩
    · exact absurd h' hleave
  have submit : ∀ k f, (l k).pc = .submit f → ∃ j, k ≤ j ∧ (l j).pc = .top ∧
      (l j).o.st.nextSlot = (l k).o.st.nextSlot := by
    intro k f h
    obtain ⟨_, evs, _, hv⟩ := hm k
    unfold Moves at hv
    rw [h] at hv
    obtain ⟨j, h1, h2, h3⟩ := confirm (k + 1) f hv.2
    exact ⟨j, by omega, h2, h3.trans hv.1⟩
  have decide' : ∀ k f, (l k).pc = .decide f → ∃ j, k ≤ j ∧ (l j).pc = .top ∧
      (l j).o.st.nextSlot = (l k).o.st.nextSlot := by
    intro k f h
    obtain ⟨_, evs, _, hv⟩ := hm k
    unfold Moves at hv
    rw [h] at hv
    obtain ⟨j, h1, h2, h3⟩ : ∃ j, k + 1 ≤ j ∧ (l j).pc = .top ∧
        (l j).o.st.nextSlot = (l (k + 1)).o.st.nextSlot := by
      rcases hv.2 with h' | h'
      · exact submit (k + 1) f h'
      · exact save (k + 1) f h'
    exact ⟨j, by omega, h2, h3.trans hv.1⟩
  have pause : ∀ k f, (l k).pc = .pause f → ∃ j, k ≤ j ∧ (l j).pc = .top ∧
      (l j).o.st.nextSlot = (l k).o.st.nextSlot := by
    intro k f h
    obtain ⟨_, evs, _, hv⟩ := hm k
    unfold Moves at hv
    rw [h] at hv
    obtain ⟨j, h1, h2, h3⟩ := decide' (k + 1) f hv.2
    exact ⟨j, by omega, h2, h3.trans hv.1⟩
  have vote : ∀ k f, (l k).pc = .vote f → ∃ j, k ≤ j ∧ (l j).pc = .top ∧
      (l j).o.st.nextSlot = (l k).o.st.nextSlot := by
    intro k f h
    have hend : ¬ ∀ j, k ≤ j → (l j).pc = .vote f := by
      intro hall
      obtain ⟨j, hj, hrep⟩ := hW.vote k f hall
      obtain ⟨_, evs, _, hv⟩ := hm j
      unfold Moves at hv
      rw [hall j hj] at hv
      rcases hv.2 with ⟨h', _⟩ | ⟨_, h' | h'⟩
      · exact hrep h'
      · rw [hall (j + 1) (by omega)] at h'; cases h'
      · rw [hall (j + 1) (by omega)] at h'; cases h'
    obtain ⟨j, hj, hstay, hleave⟩ := leaves k hend h
    have hn : ∀ i, k ≤ i → i ≤ j + 1 → (l i).o.st.nextSlot = (l k).o.st.nextSlot := by
      intro i hi
      induction i, hi using Nat.le_induction with
      | base => intro _; rfl
      | succ i hi ih =>
        intro h'
        obtain ⟨_, evs, _, hv⟩ := hm i
        unfold Moves at hv
        rw [hstay i hi (by omega)] at hv
        rw [hv.1, ih (by omega)]
    obtain ⟨_, evs, _, hv⟩ := hm j
    unfold Moves at hv
    rw [hstay j hj (le_refl _)] at hv
    rcases hv.2 with ⟨_, h'⟩ | ⟨_, h'⟩
    · exact absurd h' hleave
    · obtain ⟨i, h1, h2, h3⟩ : ∃ i, j + 1 ≤ i ∧ (l i).pc = .top ∧
          (l i).o.st.nextSlot = (l (j + 1)).o.st.nextSlot := by
        rcases h' with h' | h'
        · exact pause (j + 1) f h'
        · exact decide' (j + 1) f h'
      exact ⟨i, by omega, h2, by rw [h3, hn _ (by omega) (le_refl _)]⟩
  cases hpc : (l k).pc with
  | top => exact ⟨0, Or.inr rfl⟩
  | save f => obtain ⟨j, h⟩ := save k f hpc; exact ⟨j, Or.inl h⟩
  | confirm f => obtain ⟨j, h⟩ := confirm k f hpc; exact ⟨j, Or.inl h⟩
  | submit f => obtain ⟨j, h⟩ := submit k f hpc; exact ⟨j, Or.inl h⟩
  | decide f => obtain ⟨j, h⟩ := decide' k f hpc; exact ⟨j, Or.inl h⟩
  | pause f => obtain ⟨j, h⟩ := pause k f hpc; exact ⟨j, Or.inl h⟩
  | vote f => obtain ⟨j, h⟩ := vote k f hpc; exact ⟨j, Or.inl h⟩
  | processed =>
    obtain ⟨_, evs, _, hv⟩ := hm k
    unfold Moves at hv
    rw [hpc] at hv
    rcases hv.2 with h' | ⟨f, h'⟩
    · exact ⟨k + 1, Or.inl ⟨by omega, h', hv.1⟩⟩
    · obtain ⟨j, h1, h2, h3⟩ := vote (k + 1) f h'
      exact ⟨j, Or.inl ⟨by omega, h2, h3.trans hv.1⟩⟩

theorem keeps_up (hN : (l 0).o.st.nextSlot ≤ N) :
    ∃ k fin, stepLoop L H E (A k) (l k) = .ok (l (k + 1), [.processed N fin]) ∧
      (l (k + 1)).o.st.latestSlot = N := by
  have hm := forever_moves hH hc hE hF h0
  -- one more slot, starting anywhere
  have more : ∀ k, (l k).o.st.nextSlot ≤ N → ∃ j fin, k ≤ j ∧ (l j).o.st.nextSlot = (l k).o.st.nextSlot ∧
      (l (j + 1)).o.st.nextSlot = (l k).o.st.nextSlot + 1 ∧
      stepLoop L H E (A j) (l j) = .ok (l (j + 1), [.processed (l k).o.st.nextSlot fin]) := by
    intro k hk
    obtain ⟨k', hk', htop, hn⟩ : ∃ k', k ≤ k' ∧ (l k').pc = .top ∧
        (l k').o.st.nextSlot = (l k).o.st.nextSlot := by
      obtain ⟨j, h | h⟩ := back_to_top hH hc hE hF h0 hW k
      · exact ⟨j, h⟩
      · exact ⟨k, le_refl _, h, rfl⟩
    have same : ∀ i, k' ≤ i → (∀ j, k' ≤ j → j ≤ i → (l j).pc = .top) →
        (l i).o.st.nextSlot = (l k').o.st.nextSlot := by
      intro i hi
      induction i, hi using Nat.le_induction with
      | base => intro _; rfl
      | succ i hi ih =>
        intro hall
        obtain ⟨_, evs, _, hv⟩ := hm i
        unfold Moves at hv
        rw [hall i hi (by omega)] at hv
        rcases hv with ⟨h', _⟩ | ⟨_, h', _⟩
        · rw [hall (i + 1) (by omega) (le_refl _)] at h'; cases h'
        · rw [h', ih (fun j h1 h2 => hall j h1 (by omega))]
    have hend : ¬ ∀ j, k' ≤ j → (l j).pc = .top := by
      intro hall
      obtain ⟨j, fin, hj, h1, h2, h3⟩ := hW.finalized k' hall
      obtain ⟨_, evs, _, hv⟩ := hm j
      unfold Moves at hv
      rw [hall j hj] at hv
      rcases hv with ⟨h', _⟩ | ⟨_, _, h'⟩
      · rw [hall (j + 1) (by omega)] at h'; cases h'
      · have := h' fin h1 h2
        rw [same j hj (fun i hi _ => hall i hi), hn] at this
        omega
    obtain ⟨j, hj, hstay, hleave⟩ := leaves k' hend htop
    have hsame := same j hj hstay
    obtain ⟨_, evs, hst, hv⟩ := hm j
    unfold Moves at hv
    rw [hstay j hj (le_refl _)] at hv
    rcases hv with ⟨_, h2, fin, _, _, _, h6⟩ | ⟨h', _⟩
    · refine ⟨j, fin, by omega, by rw [hsame, hn], by rw [h2, hsame, hn], ?_⟩
      rw [hst, h6, hsame, hn]
    · exact absurd h' hleave
  have reach : ∀ d, d ≤ N → (l 0).o.st.nextSlot ≤ d → ∃ k, (l k).o.st.nextSlot = d := by
    intro d hd hdep
    induction d, hdep using Nat.le_induction with
    | base => exact ⟨0, rfl⟩
    | succ d hdep ih =>
      obtain ⟨k, hk⟩ := ih (by omega)
      obtain ⟨j, fin, _, _, h2, _⟩ := more k (by omega)
      exact ⟨j + 1, by rw [h2, hk]⟩
  obtain ⟨k, hk⟩ := reach N (le_refl _) hN
  obtain ⟨j, fin, _, h1, h2, h3⟩ := more k (by omega)
  refine ⟨j, fin, by rw [h3, hk], ?_⟩
  have hi := (hm (j + 1)).1
  have := hi.kept.commit.next
  omega

end

/-- **C82**, partial. The oracle keeps up: in an infinite execution on reliable answers in which no wait
lasts for ever, every slot `N` from the deployment on that the nodes report as finalized is processed. What
is missing for the full claim: the wait for the contract may last for ever, see `C82_false_other_root`. -/
theorem C82_keeps_up_partial {cfg : Config} {L : Lib} {H : List Nat → List Nat} {E : Env} {A : Nat → Answers}
    {l : Nat → Loop} (hH : HashOK H) (hc : GoodCfg cfg) (hE : GoodEnv cfg E) (hF : Forever L H E cfg A l)
    {disk : Disk} {lr : Int} (h0 : l 0 = ⟨.top, newOracle cfg, disk, lr⟩) {N : Nat} (hW : WaitsEnd N A l)
    (hN : cfg.depSlot ≤ N) :
    ∃ k fin, stepLoop L H E (A k) (l k) = .ok (l (k + 1), [.processed N fin]) ∧
      (l (k + 1)).o.st.latestSlot = N :=
  keeps_up hH hc hE hF (by rw [h0]; exact live_start hc disk lr) hW (by rw [h0]; exact hN)

/-- **C82 is false.** Once a root has been submitted, the oracle waits until the contract shows exactly this
root and slot. If the others have consolidated another root, or a later slot, it never does: the oracle
processes nothing any more, for ever, without stopping and without any further sign. -/
theorem C82_false_other_root {L : Lib} {H : List Nat → List Nat} {E : Env} {l l' : Loop} {f : Frozen}
    {tr : List LoopEv} (hpc : l.pc = .confirm f) (hr : LoopRun L H E l tr l')
    (hno : .chain f.root f.slot ∉ tr) : l' = l ∧ slotsOf tr = [] := by
  induction hr with
  | nil => exact ⟨rfl, rfl⟩
  | @step tr l1 l2 A evs hr hA hs ih =>
    rw [List.mem_append, not_or] at hno
    obtain ⟨rfl, h2⟩ := ih hno.1
    unfold stepLoop at hs
    rw [hpc] at hs
    dsimp only at hs
    split at hs
    · cases hs
    · rename_i r c _
      rcases ite_cases hs with ⟨hc, hs⟩ | ⟨_, hs⟩
      · have hs := Except.ok.inj hs
        cases hs
        exact absurd (by rw [hc.1, hc.2]; simp) hno.2
      · have hs := Except.ok.inj hs
        cases hs
        exact ⟨rfl, by rw [slotsOf_append, h2]; rfl⟩

namespace Sample

/-- the sample configuration with a fee recipient that owns no validator -/
def liveCfg : Config := { cfg with poolFeesAddr := b!"0x1111111111111111111111111111111111111112" }

theorem addr_apart (i : Nat) : lower (addr i) ≠ lower pool ∧ lower (addr i) ≠ lower liveCfg.poolFeesAddr := by
  have key : ∀ n, n < 256 → lower (b!"0x" ++ hexEncode (List.replicate 20 n)) ≠ lower pool ∧
      lower (b!"0x" ++ hexEncode (List.replicate 20 n)) ≠ lower liveCfg.poolFeesAddr := by
    decide +kernel
  exact key _ (Nat.mod_lt _ (by decide))

theorem owner_of {v : BVal} {i : Nat} (h : v.creds = creds i) : GoodOwner liveCfg v := by
  refine ⟨by rw [h]; exact creds_lt i, ?_⟩
  intro w hw
  rw [h] at hw
  obtain ⟨p, a, hp, hl, e, rfl⟩ := hw
  have : a = List.replicate 20 (i % 256) := by
    unfold creds at e
    have e := (List.cons.inj e).2
    exact (List.append_cancel_left e).symm
  subst this
  exact addr_apart i

theorem cfg_good : GoodCfg liveCfg :=
  ⟨by decide, by decide, by decide, by decide, ⟨liveCfg.poolFeesAddr.drop 2, by decide, by decide, by decide⟩⟩

theorem env_goodEnv : GoodEnv liveCfg env := by
  refine ⟨env_valid, env_exact, env_noSelf, env_good, env_sane, env_consol, ?_⟩
  intro t slot req r hr v hv
  rw [env_node hr] at hv
  obtain ⟨i, _, rfl⟩ := List.mem_map.mp hv
  split
  · exact owner_of (i := 9) rfl
  · exact owner_of (i := i) rfl

theorem chain_good : GoodFetch liveCfg chain := by
  refine ⟨⟨chain_honest_of, ?_⟩, ?_, ?_⟩
  · intro i slot l h p hp
    simp only [chain, Option.some.injEq] at h
    subst h
    rw [List.mem_singleton] at hp
    subst hp
    exact owner_of (i := i) rfl
  · intro slot c evs a _ h _
    simp only [chain, Option.some.injEq] at h
    subst h
    exact List.length_filter_le _ _
  · intro c evs _ h e he
    simp only [chain, Option.some.injEq] at h
    subst h
    rw [List.mem_singleton] at he
    subst he
    show (5000 : Int) ≠ _
    decide

def liveStart : Loop := ⟨.top, newOracle liveCfg, [], 0⟩

/-- everybody works: the contract shows what the oracle waits for -/
def helpful (l : Loop) : Answers :=
  { answers [] 11999900 with
    claim := fun _ => some 0
    report := match l.pc with
      | .vote f => some (f.slot + 1)
      | _ => some 0
    chain := match l.pc with
      | .confirm f => some (f.root, f.slot)
      | _ => some ([], 11999900) }

theorem helpful_reliable (l : Loop) (s : State) : Reliable liveCfg (helpful l) s := by
  refine ⟨by simp [helpful, answers, Answers.sync, nodesInSync], ?_, answers_vals [] 0, chain_good, ⟨?_, rfl⟩, ?_, ⟨rfl, Or.inr ⟨rfl, by simp [helpful, answers]⟩⟩,
    fun _ => 0, fun _ => rfl, by simp [helpful, answers]⟩
  · intro fin h
    simp only [helpful, answers, Option.some.injEq] at h
    omega
  · unfold helpful; dsimp only; split <;> simp
  · unfold helpful; dsimp only; split <;> simp

/-- the loop on these answers -/
def helped : Nat → Loop
  | 0 => liveStart
  | k + 1 => match stepLoop (Toy.lib hash) hash env (helpful (helped k)) (helped k) with
    | .ok (l, _) => l
    | .error _ => helped k

theorem helped_forever : Forever (Toy.lib hash) hash env liveCfg (fun k => helpful (helped k)) helped := by
  have hstep : ∀ k, LiveInv hash liveCfg (helped k) ∧ ∃ evs, stepLoop (Toy.lib hash) hash env
      (helpful (helped k)) (helped k) = .ok (helped (k + 1), evs) := by
    intro k
    induction k with
    | zero =>
      have h0 : LiveInv hash liveCfg (helped 0) := live_start cfg_good [] 0
      obtain ⟨l', evs, h1, _⟩ := step_live (L := Toy.lib hash) hash_ok cfg_good env_goodEnv h0 (helpful_reliable (helped 0) _)
      refine ⟨h0, evs, ?_⟩
      rw [show helped (0 + 1) = l' by rw [helped, h1]]
      exact h1
    | succ k ih =>
      obtain ⟨l', evs, h1, h2, _⟩ := step_live (L := Toy.lib hash) hash_ok cfg_good env_goodEnv ih.1
        (helpful_reliable (helped k) _)
      obtain ⟨_, evs', h3⟩ := ih
      rw [h3] at h1
      cases h1
      obtain ⟨l', evs, h1, _⟩ := step_live (L := Toy.lib hash) hash_ok cfg_good env_goodEnv h2
        (helpful_reliable (helped (k + 1)) _)
      refine ⟨h2, evs, ?_⟩
      rw [show helped (k + 1 + 1) = l' by rw [helped, h1]]
      exact h1
  exact ⟨fun k => helpful_reliable _ _, fun k => (hstep k).2⟩

theorem helped_ends : WaitsEnd 12000150 (fun k => helpful (helped k)) helped := by
  refine ⟨fun k _ => ⟨k, 12000150, le_refl _, rfl, rfl, le_refl _⟩, fun k f h => ⟨k, le_refl _, ?_⟩,
    fun k f h => ⟨k, le_refl _, ?_⟩⟩
  · unfold helpful; dsimp only; rw [h k (le_refl _)]; simp
  · unfold helpful; dsimp only; rw [h k (le_refl _)]

end Sample

/-- The sample oracle processes slot 12000150, past two checkpoints. -/
example : ∃ k fin, stepLoop (Toy.lib Sample.hash) Sample.hash Sample.env (Sample.helpful (Sample.helped k))
      (Sample.helped k) = .ok (Sample.helped (k + 1), [.processed 12000150 fin]) ∧
    (Sample.helped (k + 1)).o.st.latestSlot = 12000150 :=
  C82_keeps_up_partial Sample.hash_ok Sample.cfg_good Sample.env_goodEnv Sample.helped_forever
    (disk := []) (lr := 0) rfl Sample.helped_ends (by decide)

/-- The sample oracle after submitting its first root: if the contract shows another root for that slot, the
oracle stays where it is, however long one waits. -/
example : ∃ l f, ReliableRun (Toy.lib Sample.hash) Sample.hash Sample.env Sample.liveCfg Sample.liveStart l ∧
    l.pc = .confirm f ∧ f.slot = 12000000 ∧
    ∀ n, ∃ tr, LoopRun (Toy.lib Sample.hash) Sample.hash Sample.env l tr l ∧ tr.length = n ∧
      ∀ e ∈ tr, e = .chain [0] 12000000 := by
  have hrun : ∀ k, ReliableRun (Toy.lib Sample.hash) Sample.hash Sample.env Sample.liveCfg Sample.liveStart (Sample.helped k) := by
    intro k
    induction k with
    | zero => exact .nil
    | succ k ih =>
      obtain ⟨evs, h⟩ := Sample.helped_forever.step k
      exact .step ih (Sample.helpful_reliable _ _) h
  have hpc : (match (Sample.helped 6).pc with
      | .confirm f => decide (f.slot = 12000000 ∧ f.root ≠ [0])
      | _ => false) = true := by decide +kernel
  cases h6 : (Sample.helped 6).pc with
  | confirm f =>
    rw [h6] at hpc
    simp only [decide_eq_true_eq] at hpc
    refine ⟨Sample.helped 6, f, hrun 6, h6, hpc.1, ?_⟩
    intro n
    induction n with
    | zero => exact ⟨[], .nil, rfl, by simp⟩
    | succ n ih =>
      obtain ⟨tr, h1, h2, h3⟩ := ih
      refine ⟨tr ++ [.chain [0] 12000000], .step h1 (A := Sample.answers [0] 12000000) ?_ ?_, by simp [h2], ?_⟩
      · intro fin h
        simp only [Sample.answers, Option.some.injEq] at h
        omega
      · unfold stepLoop
        rw [h6]
        show (if _ then _ else _) = _
        rw [if_neg]
        exact fun h => hpc.2 h.1.symm
      · intro e he
        rcases List.mem_append.mp he with he | he
        · exact h3 e he
        · exact List.mem_singleton.mp he
  | _ => rw [h6] at hpc; cases hpc

end Verif
