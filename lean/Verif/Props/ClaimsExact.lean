import Verif.Props.Reconcile
/-
C59, exactly: when the lookup of the claims stops the process and by how much its sum is wrong.
-/
namespace Verif

theorem lower_fixed {w : Str} (h : WellFormed w) : lower w = w := by
  obtain ⟨d, rfl, _, hd⟩ := h
  unfold lower
  conv_rhs => rw [← List.map_id (b!"0x" ++ d)]
  apply List.map_congr_left
  intro c hc
  simp only [List.cons_append, List.nil_append, List.mem_cons] at hc
  rcases hc with rfl | rfl | hc
  · rfl
  · rfl
  · have := hd c hc
    simp only [lowerByte, id]
    split <;> omega

theorem claimedLoop_append {claim : Str → Option Int} {f : Str → Int} {l l' : List Str} {acc : List (Str × Int)}
    (hh : ∀ a ∈ l, isHexAddress a = true) (hc : ∀ a ∈ l, claim a = some (f a))
    (hn : (acc.map (·.1) ++ l).Nodup) :
    claimedLoop claim (l ++ l') acc = claimedLoop claim l' (acc ++ l.map fun a => (a, f a)) := by
  induction l generalizing acc with
  | nil => simp
  | cons a l ih =>
    rw [List.cons_append, claimedLoop, hh a (by simp), hc a (by simp)]
    have : acc.any (fun p => p.1 == a) = false := by
      rw [List.any_eq_false]
      intro p hp
      have := (List.nodup_append.mp hn).2.2 p.1 (List.mem_map.mpr ⟨p, hp, rfl⟩) a (by simp)
      simpa [claimedPer] using this
    simp only [Bool.not_true, Bool.false_eq_true, if_false, this]
    rw [ih (fun x hx => hh x (by simp [hx])) (fun x hx => hc x (by simp [hx])) (by simpa using hn)]
    simp

/-- **C59**, exactly. The contract answers every question, and the validators have the addresses they get from the
chain. The lookup of the claims stops the process if and only if the pool fee recipient, as written in the
configuration, is the withdrawal address of a validator. Otherwise the sum is what the contract paid to the addresses of
the pool, each counted once, plus the claims of the fee recipient a second time if it is the withdrawal address of a
validator up to letter case. -/
theorem C59_exact {E : Env} (hE : ValidEnv E) (t : Nat) {s : State}
    (hw : ∀ p ∈ s.vals, WellFormed p.2.waddr) (hf : isHexAddress s.poolFeesAddr = true)
    {claim : Str → Option Int} {paid : Str → Int} (hc : ∀ a, claim a = some (paid (lower a))) :
    ∃ us, uniqueAddresses E t s = .ok us ∧
      ((∃ p ∈ s.vals, p.2.waddr = s.poolFeesAddr) → claimedPer claim us = .error .fatal) ∧
      ((∀ p ∈ s.vals, p.2.waddr ≠ s.poolFeesAddr) → ∃ m, claimedPer claim us = .ok (some m) ∧
        ((∀ p ∈ s.vals, lower p.2.waddr ≠ lower s.poolFeesAddr) → (m.map (·.2)).sum =
          (((s.poolFeesAddr :: s.vals.map fun p => p.2.waddr).map lower).dedup.map paid).sum) ∧
        ((∃ p ∈ s.vals, lower p.2.waddr = lower s.poolFeesAddr) → (m.map (·.2)).sum =
          (((s.poolFeesAddr :: s.vals.map fun p => p.2.waddr).map lower).dedup.map paid).sum +
            paid (lower s.poolFeesAddr))) := by
  have h42 : Addresses42 s := by
    intro p hp
    obtain ⟨d, e, hl, _⟩ := hw p hp
    rw [e]; simp [hl]
  obtain ⟨us, h1, h2, h3⟩ := C59_unique_addresses hE t h42
  have hnd : (us.map lower).Nodup := by
    rw [List.nodup_iff_count_le_one]
    intro a
    by_cases ha : a ∈ us.map lower
    · obtain ⟨u, hu, rfl⟩ := List.mem_map.mp ha
      have hc' : (us.filter fun v => lower v = lower u).length = (us.map lower).count (lower u) := by
        rw [← List.countP_eq_length_filter, List.count, List.countP_map]
        exact List.countP_congr (by simp)
      rw [← hc', h2 u]
      split <;> omega
    · rw [List.count_eq_zero_of_not_mem ha]; omega
  have hhex : ∀ a ∈ us, isHexAddress a = true := by
    intro a ha
    obtain ⟨p, hp, rfl⟩ := h3 a ha
    exact isHexAddress_wellFormed (hw p hp)
  have hin : ∀ p ∈ s.vals, ∃ u ∈ us, lower u = lower p.2.waddr := by
    intro p hp
    have := h2 p.2.waddr
    rw [if_pos ⟨p, hp, rfl⟩] at this
    have hne : (us.filter fun u => lower u = lower p.2.waddr) ≠ [] := by
      intro e; rw [e] at this; simp at this
    obtain ⟨u, hu⟩ := List.exists_mem_of_ne_nil _ hne
    rw [List.mem_filter] at hu
    exact ⟨u, hu.1, by simpa using hu.2⟩
  have hlit : ∀ p ∈ s.vals, p.2.waddr ∈ us := by
    intro p hp
    obtain ⟨u, hu, e⟩ := hin p hp
    obtain ⟨q, hq, rfl⟩ := h3 u hu
    rw [lower_fixed (hw q hq), lower_fixed (hw p hp)] at e
    rw [← e]; exact hu
  have hmem : ∀ a, a ∈ us.map lower ↔ ∃ p ∈ s.vals, lower p.2.waddr = a := by
    intro a
    rw [List.mem_map]
    constructor
    · rintro ⟨u, hu, rfl⟩
      obtain ⟨p, hp, rfl⟩ := h3 u hu
      exact ⟨p, hp, rfl⟩
    · rintro ⟨p, hp, rfl⟩
      exact ⟨_, hlit p hp, rfl⟩
  have e0 : claimedPer claim (us ++ [s.poolFeesAddr]) =
      claimedLoop claim [s.poolFeesAddr] (us.map fun a => (a, paid (lower a))) := by
    have := claimedLoop_append (f := fun a => paid (lower a)) (l' := [s.poolFeesAddr]) (acc := []) hhex
      (fun a _ => hc a) (by simpa using nodup_of_lower hnd)
    exact this
  refine ⟨_, h1, ?_, ?_⟩
  · rintro ⟨p, hp, e⟩
    rw [e0, claimedLoop, hf, hc]
    have : ((us.map fun a => (a, paid (lower a))).any fun p => p.1 == s.poolFeesAddr) = true := by
      rw [List.any_eq_true]
      exact ⟨_, List.mem_map.mpr ⟨_, hlit p hp, rfl⟩, by simp [e]⟩
    simp [this]
  · intro hno
    have hnot : s.poolFeesAddr ∉ us := by
      intro hm
      obtain ⟨p, hp, e⟩ := h3 _ hm
      exact hno p hp e
    have e1 : claimedPer claim (us ++ [s.poolFeesAddr]) =
        .ok (some ((us ++ [s.poolFeesAddr]).map fun a => (a, paid (lower a)))) := by
      have := claimedLoop_eq (claim := claim) (f := fun a => paid (lower a)) (l := us ++ [s.poolFeesAddr]) (acc := [])
        (by
          intro a ha
          rcases List.mem_append.mp ha with ha | ha
          · exact hhex a ha
          · simp at ha; rw [ha]; exact hf) (fun a _ => hc a) (by
            simp only [List.map_nil, List.nil_append]
            rw [List.nodup_append]
            exact ⟨nodup_of_lower hnd, by simp, fun a ha b hb e => hnot (by simp at hb; rw [← hb, ← e]; exact ha)⟩)
      simpa [claimedPer] using this
    have hsum : (((us ++ [s.poolFeesAddr]).map fun a => (a, paid (lower a))).map (·.2)).sum =
        ((us.map lower).map paid).sum + paid (lower s.poolFeesAddr) := by
      simp [List.map_map, Function.comp_def]
    refine ⟨_, e1, ?_, ?_⟩
    · intro hd
      have hfresh : lower s.poolFeesAddr ∉ (s.vals.map fun p => p.2.waddr).map lower := by
        rw [List.map_map, List.mem_map]
        rintro ⟨p, hp, e⟩
        exact hd p hp e
      rw [hsum, List.map_cons, List.dedup_cons_of_notMem hfresh]
      have hperm : (us.map lower).Perm ((s.vals.map fun p => p.2.waddr).map lower).dedup := by
        rw [List.perm_ext_iff_of_nodup hnd (List.nodup_dedup _)]
        intro a
        rw [List.mem_dedup, hmem a]
        simp
      rw [(hperm.map paid).sum_eq, List.map_cons, List.sum_cons]
      ring
    · intro hd
      have hold : lower s.poolFeesAddr ∈ (s.vals.map fun p => p.2.waddr).map lower := by
        rw [List.map_map, List.mem_map]
        obtain ⟨p, hp, e⟩ := hd
        exact ⟨p, hp, e⟩
      rw [hsum, List.map_cons, List.dedup_cons_of_mem hold]
      have hperm : (us.map lower).Perm ((s.vals.map fun p => p.2.waddr).map lower).dedup := by
        rw [List.perm_ext_iff_of_nodup hnd (List.nodup_dedup _)]
        intro a
        rw [List.mem_dedup, hmem a]
        simp
      rw [(hperm.map paid).sum_eq]

/-- The sample state meets the hypotheses, with the fee recipient also an owner in two letter cases. -/
example : ∃ s : State, (∀ p ∈ s.vals, WellFormed p.2.waddr) ∧ isHexAddress s.poolFeesAddr = true ∧
    (∃ p ∈ s.vals, lower p.2.waddr = lower s.poolFeesAddr) ∧ ∀ p ∈ s.vals, p.2.waddr ≠ s.poolFeesAddr := by
  refine ⟨{ Sample.st with poolFeesAddr := b!"0X" ++ hexEncode (List.replicate 20 1) }, ?_, by decide +kernel,
    by decide +kernel, by decide +kernel⟩
  intro p hp
  simp only [Sample.st, Sample.vals, List.mem_cons, List.not_mem_nil, or_false] at hp
  rcases hp with rfl | rfl | rfl | rfl | rfl | rfl <;> exact Sample.addr_ok _

end Verif
