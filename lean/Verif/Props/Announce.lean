import Verif.Spec.Announce
import Verif.Props.Slots
import Verif.Props.Listings
import Verif.Props.Statistics
/-
C114: what the API announces as the next checkpoint.
-/
namespace Verif

theorem hist_then {E : Env} {o o1 o2 : Oracle} {bs cs : List FullBlock} (h : Hist E o bs o1) (h' : Hist E o1 cs o2) :
    Hist E o (bs ++ cs) o2 := by
  induction h with
  | nil => exact h'
  | cons hs _ ih => exact .cons hs (ih h')

theorem hist_cfg {E : Env} {o o' : Oracle} {bs : List FullBlock} (h : Hist E o bs o') :
    o'.cfg.depSlot = o.cfg.depSlot ∧ o'.cfg.cpSize = o.cfg.cpSize := by
  induction h with
  | nil => exact ⟨rfl, rfl⟩
  | cons hs _ ih =>
    obtain ⟨_, _, _, _, _, _, _, _, hc, _⟩ := slot_frame hs
    rw [ih.1, ih.2, hc]
    exact ⟨rfl, rfl⟩

theorem u64_small {n : Nat} (h : n < 2 ^ 64) : u64 n = n := by
  unfold u64
  norm_num at h
  omega

section
variable {E : Env} {cfg : Config} {bs : List FullBlock} {o : Oracle} (h : Hist E (newOracle cfg) bs o) (hne : bs ≠ [])
  (hlen : cfg.depSlot + bs.length < 2 ^ 64) (h0 : 0 < cfg.depSlot) (hsz : 0 < cfg.cpSize)
include h hne hlen h0 hsz

/-- whatever follows, a checkpoint is reported at the multiples of the size -/
theorem later_checkpoint {cs : List FullBlock} {o' : Oracle} (hcs : cs ≠ []) (hl : o.st.latestSlot + cs.length + 1 < 2 ^ 64)
    (h' : Hist E o cs o') :
    o'.st.latestSlot = o.st.latestSlot + cs.length ∧
    (isCheckpoint o' = .ok (some true) ↔ ∃ k, o'.st.latestSlot = cfg.depSlot + k * cfg.cpSize) := by
  obtain ⟨_, k2, _⟩ := C20_after_n_slots h hne (by norm_num at hlen ⊢; omega)
  have hp : 0 < bs.length := List.length_pos_iff.mpr hne
  have hlen2 : cfg.depSlot + (bs ++ cs).length < 18446744073709551616 := by
    rw [List.length_append]; norm_num at hl; omega
  have hne2 : bs ++ cs ≠ [] := by simp [hne]
  obtain ⟨_, g2, _⟩ := C20_after_n_slots (hist_then h h') hne2 hlen2
  rw [List.length_append] at g2
  have e : o'.st.latestSlot = o.st.latestSlot + cs.length := by omega
  obtain ⟨c, c1, c2⟩ := C22_checkpoint_cadence (hist_then h h') hne2 hlen2 h0 hsz
  refine ⟨e, ?_⟩
  rw [c1, ← c2]
  simp

/-- `n` is next if it is a multiple of the size away, and no other one lies before it -/
theorem next_of {c : Nat} (hc : ∃ k, c = cfg.depSlot + k * cfg.cpSize) (h1 : c ≤ o.st.latestSlot)
    (h2 : o.st.latestSlot < c + cfg.cpSize) : NextCheckpointIs E o (c + cfg.cpSize) := by
  refine ⟨h2, fun cs o' hcs hl h' hle => ?_⟩
  obtain ⟨e, k⟩ := later_checkpoint h hne hlen h0 hsz hcs hl h'
  have hp : 0 < cs.length := List.length_pos_iff.mpr hcs
  rw [k]
  obtain ⟨i, rfl⟩ := hc
  constructor
  · rintro ⟨k, hk⟩
    rw [hk] at hle ⊢
    have : i < k := by
      by_contra hik
      have := Nat.mul_le_mul_right cfg.cpSize (Nat.le_of_not_lt hik)
      omega
    have := Nat.mul_le_mul_right cfg.cpSize (Nat.succ_le_of_lt this)
    rw [Nat.succ_mul] at this
    omega
  · intro e
    exact ⟨i + 1, by rw [e, Nat.succ_mul]; omega⟩

/-- **C114** (partial: the contract must hold the last checkpoint, see `C114_false_contract_slot`). If the slot in the
contract is the last checkpoint, the status endpoint announces the slot of the next one, and as the previous one a slot
at which there was one. -/
theorem C114_status_partial {N : NodeInfo} {f c : Nat} {s : FullStatus}
    (hs : handleStatus N (some f) (some c) o.cfg o.st = .ok (.ok s))
    (hc : ∃ k, c = cfg.depSlot + k * cfg.cpSize) (h1 : c ≤ o.st.latestSlot)
    (h2 : o.st.latestSlot < c + cfg.cpSize) (hb : c + cfg.cpSize < 2 ^ 64) :
    s.numbers.previousCheckpoint = c ∧ NextCheckpointIs E o s.numbers.nextCheckpoint := by
  obtain ⟨_, e2⟩ := hist_cfg h
  have e2 : o.cfg.cpSize = cfg.cpSize := e2
  have key : s.numbers.previousCheckpoint = c ∧ s.numbers.nextCheckpoint = u64 (c + o.cfg.cpSize) := by
    unfold handleStatus at hs
    split at hs
    · split at hs
      · cases hs
      · cases hs
      · cases hs
      · unfold statusAnswer at hs
        cases hs
        exact ⟨rfl, rfl⟩
    · cases hs
  refine ⟨key.1, ?_⟩
  rw [key.2, e2, u64_small hb]
  exact next_of h hne hlen h0 hsz hc h1 h2

/-- **C114 is false for the status endpoint while the contract holds something else**, like the 0 it starts with: at the
announced slot no checkpoint is reported, now or ever. -/
theorem C114_false_contract_slot {N : NodeInfo} {f c : Nat} {s : FullStatus}
    (hs : handleStatus N (some f) (some c) o.cfg o.st = .ok (.ok s))
    (hc : ¬ ∃ k, c + cfg.cpSize = cfg.depSlot + k * cfg.cpSize) (hb : c + cfg.cpSize < 2 ^ 64) :
    ∀ cs o', cs ≠ [] → o.st.latestSlot + cs.length + 1 < 2 ^ 64 → Hist E o cs o' →
      o'.st.latestSlot = s.numbers.nextCheckpoint → isCheckpoint o' ≠ .ok (some true) := by
  obtain ⟨_, e2⟩ := hist_cfg h
  have e2 : o.cfg.cpSize = cfg.cpSize := e2
  have key : s.numbers.nextCheckpoint = u64 (c + o.cfg.cpSize) := by
    unfold handleStatus at hs
    split at hs
    · split at hs
      · cases hs
      · cases hs
      · cases hs
      · unfold statusAnswer at hs
        cases hs
        rfl
    · cases hs
  rw [e2, u64_small hb] at key
  intro cs o' hcs hl h' he hk
  rw [(later_checkpoint h hne hlen h0 hsz hcs hl h').2, he, key] at hk
  exact hc hk

/-- **C114**, exactly for the statistics endpoint: what it shows as the latest checkpoint is the slot processed last, and
what it shows as the next one is a checkpoint if and only if the slot processed last was one. -/
theorem C114_statistics_exact {fin : Option Nat} {cache : BMap} {r : Stats}
    (hs : statistics fin cache o.cfg o.st = .ok (.ok r)) (hb : o.st.latestSlot + cfg.cpSize < 2 ^ 64) :
    r.latestSlot = o.st.latestSlot ∧
    (isCheckpoint o = .ok (some true) → NextCheckpointIs E o r.nextCheckpoint) ∧
    (isCheckpoint o ≠ .ok (some true) → ∀ cs o', cs ≠ [] → o.st.latestSlot + cs.length + 1 < 2 ^ 64 → Hist E o cs o' →
      o'.st.latestSlot = r.nextCheckpoint → isCheckpoint o' ≠ .ok (some true)) := by
  obtain ⟨_, e2⟩ := hist_cfg h
  have e2 : o.cfg.cpSize = cfg.cpSize := e2
  have key : r.latestSlot = o.st.latestSlot ∧ r.nextCheckpoint = u64 (o.st.latestSlot + o.cfg.cpSize) := by
    unfold statistics at hs
    split at hs
    · cases hs
    dsimp only at hs
    split at hs
    · cases hs
    split at hs
    · cases hs
    simp only [bind_ok] at hs
    obtain ⟨_, _, _, _, _, _, hs⟩ := hs
    cases hs
    exact ⟨rfl, rfl⟩
  rw [e2, u64_small hb] at key
  obtain ⟨c, c1, c2⟩ := C22_checkpoint_cadence h hne (by norm_num at hlen ⊢; omega) h0 hsz
  have hcp : isCheckpoint o = .ok (some true) ↔ ∃ k, o.st.latestSlot = cfg.depSlot + k * cfg.cpSize := by
    rw [c1, ← c2]; simp
  refine ⟨key.1, fun hk => ?_, fun hk cs o' hcs hl h' he hk' => ?_⟩
  · rw [key.2]
    exact next_of h hne hlen h0 hsz (hcp.mp hk) (Nat.le_refl _) (by omega)
  · rw [(later_checkpoint h hne hlen h0 hsz hcs hl h').2, he, key.2] at hk'
    obtain ⟨k, hk'⟩ := hk'
    refine hk (hcp.mpr ?_)
    obtain ⟨_, g2, _⟩ := C20_after_n_slots h hne (by norm_num at hlen ⊢; omega)
    have hp : 0 < bs.length := List.length_pos_iff.mpr hne
    cases k with
    | zero => omega
    | succ k => exact ⟨k, by rw [Nat.succ_mul] at hk'; omega⟩

end

namespace Sample
def afterFirst : Oracle := (run env (newOracle cfg) [b0]).getD (newOracle cfg)
end Sample

/-- C114: after the first slot, which is a checkpoint, and while the contract holds it, 12000100 is announced -/
example : Hist Sample.env (newOracle Sample.cfg) [Sample.b0] Sample.afterFirst ∧
    ∃ s, handleStatus Sample.outside.nodes (some 12000010) (some 12000000) Sample.afterFirst.cfg Sample.afterFirst.st =
      .ok (.ok s) ∧ s.numbers.nextCheckpoint = 12000100 ∧ NextCheckpointIs Sample.env Sample.afterFirst 12000100 := by
  have h : Hist Sample.env (newOracle Sample.cfg) [Sample.b0] Sample.afterFirst := Sample.run_some (by decide +kernel)
  have hl : Sample.afterFirst.st.latestSlot = 12000000 := by decide +kernel
  obtain ⟨s, hs, hn⟩ : ∃ s, handleStatus Sample.outside.nodes (some 12000010) (some 12000000) Sample.afterFirst.cfg
      Sample.afterFirst.st = .ok (.ok s) ∧ s.numbers.nextCheckpoint = 12000100 := by
    have hc : Sample.afterFirst.cfg.cpSize = 100 := by decide +kernel
    refine ⟨_, rfl, ?_⟩
    dsimp only
    rw [hc]
    decide
  refine ⟨h, s, hs, hn, ?_⟩
  rw [← hn]
  exact (C114_status_partial h (by simp) (by decide) (by decide) (by decide) hs ⟨0, by decide⟩ (by omega)
    (by rw [hl]; decide) (by decide)).2

/-- **C114 is false for the statistics endpoint.** After two slots it shows slot 12000001 as the latest checkpoint and
12000101 as the next one, where there will be none; the deployment was in slot 12000000 and there is a checkpoint every
100 slots. -/
theorem C114_false_statistics : ∃ o r, Hist Sample.env (newOracle Sample.cfg) [Sample.lateBlock, Sample.miss 12000001 2] o ∧
    statistics (some 12000010) [] o.cfg o.st = .ok (.ok r) ∧
    r.latestSlot = 12000001 ∧ r.nextCheckpoint = 12000101 ∧ isCheckpoint o = .ok (some false) ∧
    ∀ cs o', cs ≠ [] → o.st.latestSlot + cs.length + 1 < 2 ^ 64 → Hist Sample.env o cs o' →
      o'.st.latestSlot = 12000101 → isCheckpoint o' ≠ .ok (some true) := by
  obtain ⟨o, h1, h2⟩ := Sample.ex_hist (E := Sample.env) (o := newOracle Sample.cfg)
    (bs := [Sample.lateBlock, Sample.miss 12000001 2])
    (P := fun o => Sample.statsB (fun r => r.latestSlot == 12000001 && r.nextCheckpoint == 12000101)
      (statistics (some 12000010) [] o.cfg o.st) && (isCheckpoint o).toOption == some (some false) &&
      o.st.latestSlot == 12000001) (by decide +kernel)
  simp only [Bool.and_eq_true, beq_iff_eq] at h2
  obtain ⟨⟨a1, a2⟩, a3⟩ := h2
  have hcp : isCheckpoint o = .ok (some false) := by
    cases hc : isCheckpoint o with
    | error e => rw [hc] at a2; cases a2
    | ok x => rw [hc] at a2; cases a2; rfl
  unfold Sample.statsB at a1
  split at a1
  · rename_i r hr
    simp only [Bool.and_eq_true, beq_iff_eq] at a1
    have := C114_statistics_exact h1 (by simp) (by decide) (by decide) (by decide) hr (by rw [a3]; decide)
    refine ⟨o, r, h1, hr, a1.1, a1.2, hcp, ?_⟩
    rw [← a1.2]
    exact this.2.2 (by rw [hcp]; simp)
  · cases a1

/-- C114: before the first report the contract holds 0; the status endpoint announces slot 100, long before the
deployment -/
example : ∃ s, handleStatus Sample.outside.nodes (some 12000010) (some 0) Sample.final.cfg Sample.final.st = .ok (.ok s) ∧
    ∀ cs o', cs ≠ [] → Sample.final.st.latestSlot + cs.length + 1 < 2 ^ 64 → Hist Sample.env Sample.final cs o' →
      o'.st.latestSlot = s.numbers.nextCheckpoint → isCheckpoint o' ≠ .ok (some true) :=
  ⟨_, rfl, C114_false_contract_slot (N := Sample.outside.nodes) (c := 0) (f := 12000010) Sample.hist (by decide) (by decide) (by decide) (by decide) rfl
    (by rintro ⟨k, hk⟩
        have e1 : Sample.cfg.depSlot = 12000000 := rfl
        have e2 : Sample.cfg.cpSize = 100 := rfl
        rw [e1, e2] at hk
        omega) (by decide)⟩

end Verif
