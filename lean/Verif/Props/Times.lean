import Verif.Props.Client
import Verif.Props.Listings
/-
C117: the durations that the status endpoint shows.
-/
namespace Verif
open JsonText Rfc Client

/-- **C117** (partial: slots below 750 million, and a checkpoint size that keeps the next checkpoint below). The texts in
the answer of `/status` read as the time from the finalized slot to the next checkpoint, nothing if it has passed, and
as the time since the last one. The latter is right even if the contract is ahead of the finalized slot, when the number
beside it is wrong (C71): the text then has a minus sign. Missing, because false: longer times, `C117_false_large`. -/
theorem C117_status_partial (T : Texts) {N : NodeInfo} {f c : Nat} {cfg : Config} {s : State} {a : FullStatus}
    (h : handleStatus N (some f) (some c) cfg s = .ok (.ok a)) (hf : f < 750000000)
    (hc : c + cfg.cpSize < 750000000) :
    ∃ body j, replyBody T (.status (.ok a)) = some body ∧ Denotes body j ∧
      (∃ t, Text j b!"next_checkpoint_remaining" t ∧
        Duration.reads t = some (max 0 ((c : Int) + cfg.cpSize - f) * 12 * 1000000)) ∧
      ∃ t, Text j b!"previous_checkpoint_age" t ∧ Duration.reads t = some (((f : Int) - c) * 12 * 1000000) := by
  have hn : statusAnswer (some f) (some c) cfg s = .ok a.numbers := by
    unfold handleStatus at h
    split at h
    · split at h
      · cases h
      · cases h
      · cases h
      · split at h
        · rename_i x hx; cases h; exact hx
        all_goals cases h
    · cases h
  unfold statusAnswer at hn
  dsimp only at hn
  have hn := Answer.ok.inj hn
  have e1 : a.numbers.remainingSeconds =
      u64 ((max 0 ((c : Int) + cfg.cpSize - f) % 18446744073709551616).toNat * 12) := by
    rw [← hn]
    dsimp only
    split <;> simp only [sub64, u64] at * <;> omega
  have e2 : a.numbers.previousAgeSeconds = u64 ((((f : Int) - c) % 18446744073709551616).toNat * 12) := by
    rw [← hn]
    simp only [sub64, u64]
    omega
  refine ⟨_, statusJ T a, rfl, denotes_body _, ⟨durationText a.numbers.remainingSeconds, ⟨_, rfl, rfl⟩, ?_⟩,
    ⟨durationText a.numbers.previousAgeSeconds, ⟨_, rfl, rfl⟩, ?_⟩⟩
  · rw [e1]; exact C117_slots_partial (by omega) (by omega)
  · rw [e2]; exact C117_slots_partial (by omega) (by omega)

/-- **C117 is false for very long times.** If the contract says that a checkpoint comes every 1000 million slots, the time
to the next one is shown as a negative time: the nanoseconds do not fit in 64 bits. -/
theorem C117_false_large : ∃ a j t x,
    handleStatus Sample.outside.nodes (some 12000010) (some 12000000) { Sample.cfg with cpSize := 1000000000 }
      Sample.final.st = .ok (.ok a) ∧
    (∃ body, replyBody Sample.texts (.status (.ok a)) = some body ∧ Denotes body j) ∧
    Num j b!"next_checkpoint_remaining_unix" 11999999880 ∧
    Text j b!"next_checkpoint_remaining" t ∧ Duration.reads t = some x ∧ x < 0 := by
  obtain ⟨r, h, hr⟩ := Sample.ex_ok (x := handleStatus Sample.outside.nodes (some 12000010) (some 12000000)
      { Sample.cfg with cpSize := 1000000000 } Sample.final.st)
    (P := fun r => match r with
      | .ok a => a.numbers.remainingSeconds == 11999999880
      | _ => false) (by decide +kernel)
  split at hr
  · rename_i a
    have hr := beq_iff_eq.mp hr
    refine ⟨a, statusJ Sample.texts a, durationText 11999999880, _, h, ⟨_, rfl, denotes_body _⟩, ⟨_, rfl, ?_⟩, ⟨_, rfl, ?_⟩,
      (by decide +kernel : _ = some (-6446744193709551)), by decide⟩
    · rw [hr]; rfl
    · rw [hr]; rfl
  · cases hr

/-- C117 applies: 10 slots after a checkpoint, the next one is 90 slots away. And if the contract is 90 slots ahead of the
node, which is shown as 2^64 - 1080 seconds. -/
example : ∃ a a', handleStatus Sample.outside.nodes (some 12000010) (some 12000000) Sample.cfg Sample.final.st =
      .ok (.ok a) ∧ 12000000 + Sample.cfg.cpSize < 750000000 ∧
    durationText a.numbers.remainingSeconds = b!"18 minutes" ∧
    durationText a.numbers.previousAgeSeconds = b!"2 minutes" ∧
    handleStatus Sample.outside.nodes (some 11999910) (some 12000000) Sample.cfg Sample.final.st = .ok (.ok a') ∧
    a'.numbers.previousAgeSeconds = 2 ^ 64 - 1080 ∧
    durationText a'.numbers.previousAgeSeconds = b!"-18 minutes" := by
  obtain ⟨r, h, hr⟩ := Sample.ex_ok (x := handleStatus Sample.outside.nodes (some 12000010) (some 12000000)
      Sample.cfg Sample.final.st)
    (P := fun r => match r with
      | .ok a => durationText a.numbers.remainingSeconds == b!"18 minutes" &&
          durationText a.numbers.previousAgeSeconds == b!"2 minutes"
      | _ => false) (by decide +kernel)
  obtain ⟨r', h', hr'⟩ := Sample.ex_ok (x := handleStatus Sample.outside.nodes (some 11999910) (some 12000000)
      Sample.cfg Sample.final.st)
    (P := fun r => match r with
      | .ok a => a.numbers.previousAgeSeconds == 2 ^ 64 - 1080 &&
          durationText a.numbers.previousAgeSeconds == b!"-18 minutes"
      | _ => false) (by decide +kernel)
  split at hr
  · split at hr'
    · simp only [Bool.and_eq_true, beq_iff_eq] at hr hr'
      exact ⟨_, _, h, by decide, hr.1, hr.2, h', hr'.1, hr'.2⟩
    · cases hr'
  · cases hr

/-- the texts in the tests of the repository (utils/utils_test.go:137-141) -/
example : durationText 12 = b!"12 seconds" ∧ durationText 120 = b!"2 minutes" ∧
    durationText 120000 = b!"1 day 9 hours 20 minutes" := by decide +kernel

end Verif
