import Verif.Props.Identity
import Verif.Model.Reconcile
import Mathlib.Data.List.Dedup
/-
C45, C59: reconciliation with the contract.
-/
namespace Verif
open VMap

/-- **C45.** The on-chain reconciliation succeeds exactly when the contract's balance plus everything
already claimed equals everything owed, in whatever order the maps are visited. -/
theorem C45_reconciliation_exact {E : Env} (hE : ValidEnv E) (t : Nat) (s : State) (balance : Int)
    (claimed : List (Str × Int)) :
    onchainReconciliation E t s balance claimed = true ↔
      balance + (claimed.map (·.2)).sum = owed s := by
  unfold onchainReconciliation
  simp only [decide_eq_true_eq]
  rw [liabilities_eq hE, foldl_add (fun p : Str × Int => p.2)]
  have hp := ((shuffle_perm hE (t + 1) claimed).map (·.2)).sum_eq
  rw [hp]
  omega

/-- A pool that owes 31322 of which 45 have been claimed. -/
example : owed Sample.st = 31322 ∧
    onchainReconciliation Sample.env 0 Sample.st 31277 [(Sample.addr 1, 5), (Sample.addr 2, 40)] = true ∧
    onchainReconciliation Sample.envRev 0 Sample.st 31278 [(Sample.addr 1, 5), (Sample.addr 2, 40)] = false := by
  decide +kernel

/-- All recorded addresses have 42 characters. -/
def Addresses42 (s : State) : Prop := ∀ p ∈ s.vals, p.2.waddr.length = 42

theorem isIn_eq {w : Str} {l : List Str} (h : ∀ x ∈ l, w.length = x.length) :
    isIn w l = .ok (decide (∃ x ∈ l, lower w = lower x)) := by
  induction l with
  | nil => simp [isIn]
  | cons x l ih =>
    unfold isIn
    rw [equals_of_length (h x (by simp))]
    show (if decide (lower w = lower x) = true then _ else isIn w l) = _
    rw [ih (fun y hy => h y (by simp [hy]))]
    by_cases hx : lower w = lower x
    · simp [hx]
    · simp [hx]

theorem uniqueLoop_ok {l acc : List Str} (hl : ∀ x ∈ l, x.length = 42) (ha : ∀ x ∈ acc, x.length = 42)
    (hd : (acc.map lower).Nodup) :
    ∃ us, uniqueLoop l acc = .ok us ∧ (us.map lower).Nodup ∧
      (∀ x, x ∈ us → x ∈ acc ∨ x ∈ l) ∧ (∀ x ∈ acc, x ∈ us) ∧
      ∀ x ∈ l, ∃ u ∈ us, lower x = lower u := by
  induction l generalizing acc with
  | nil => exact ⟨acc, rfl, hd, fun x h => Or.inl h, fun _ h => h, fun _ h => by cases h⟩
  | cons w l ih =>
    unfold uniqueLoop
    rw [isIn_eq (fun x hx => by rw [hl w (by simp), ha x hx])]
    show ∃ us, uniqueLoop l (if decide (∃ x ∈ acc, lower w = lower x) = true then acc else acc ++ [w])
      = .ok us ∧ _
    by_cases hx : ∃ x ∈ acc, lower w = lower x
    · rw [if_pos (by simpa using hx)]
      obtain ⟨us, h1, h2, h3, h4, h5⟩ := ih (fun x hx => hl x (by simp [hx])) ha hd
      refine ⟨us, h1, h2, fun x h => ?_, h4, ?_⟩
      · rcases h3 x h with h | h
        · exact Or.inl h
        · exact Or.inr (by simp [h])
      · intro x hx'
        rcases List.mem_cons.mp hx' with rfl | hx'
        · obtain ⟨y, hy, e⟩ := hx
          exact ⟨y, h4 y hy, e⟩
        · exact h5 x hx'
    · rw [if_neg (by simpa using hx)]
      obtain ⟨us, h1, h2, h3, h4, h5⟩ := ih (acc := acc ++ [w]) (fun x hx => hl x (by simp [hx]))
        (by
          intro x hx'
          rcases List.mem_append.mp hx' with h | h
          · exact ha x h
          · simp at h; subst h; exact hl _ (by simp))
        (by
          rw [List.map_append, List.nodup_append]
          refine ⟨hd, by simp, ?_⟩
          intro a ha' b hb' e
          simp only [List.map_cons, List.map_nil, List.mem_singleton] at hb'
          subst hb'
          obtain ⟨x, hx1, hx2⟩ := List.mem_map.mp ha'
          exact hx ⟨x, hx1, by rw [hx2, e]⟩)
      refine ⟨us, h1, h2, fun x h => ?_, fun x h => h4 x (by simp [h]), ?_⟩
      · rcases h3 x h with h | h
        · rcases List.mem_append.mp h with h | h
          · exact Or.inl h
          · simp at h; subst h; exact Or.inr (by simp)
        · exact Or.inr (by simp [h])
      · intro x hx'
        rcases List.mem_cons.mp hx' with rfl | hx'
        · exact ⟨x, h4 x (by simp), rfl⟩
        · exact h5 x hx'

/-- **C59.** The list of addresses used for reconciliation is the pool fee address preceded by a list
in which every validator's withdrawal address occurs exactly once, ignoring letter case, and nothing
else. -/
theorem C59_unique_addresses {E : Env} (hE : ValidEnv E) (t : Nat) {s : State} (h : Addresses42 s) :
    ∃ us, uniqueAddresses E t s = .ok (us ++ [s.poolFeesAddr]) ∧
      (∀ w, (us.filter fun u => lower u = lower w).length =
        if ∃ p ∈ s.vals, lower p.2.waddr = lower w then 1 else 0) ∧
      ∀ u ∈ us, ∃ p ∈ s.vals, p.2.waddr = u := by
  have hp := shuffle_perm hE t s.vals
  obtain ⟨us, h1, h2, h3, _, h5⟩ := uniqueLoop_ok (l := (E.shuffle t s.vals).map fun p => p.2.waddr)
    (acc := []) (by
      intro x hx
      obtain ⟨p, hp', rfl⟩ := List.mem_map.mp hx
      exact h p (hp.mem_iff.mp hp')) (fun _ h => by cases h) (by simp)
  have hmem : ∀ u ∈ us, ∃ p ∈ s.vals, p.2.waddr = u := by
    intro u hu
    rcases h3 u hu with h | h
    · cases h
    · obtain ⟨p, hp', rfl⟩ := List.mem_map.mp h
      exact ⟨p, hp.mem_iff.mp hp', rfl⟩
  refine ⟨us, ?_, ?_, hmem⟩
  · unfold uniqueAddresses
    rw [h1]; rfl
  · intro w
    have hc : (us.filter fun u => lower u = lower w).length = (us.map lower).count (lower w) := by
      rw [← List.countP_eq_length_filter, List.count, List.countP_map]
      exact List.countP_congr (by simp)
    rw [hc, List.Nodup.count h2]
    congr 1
    apply propext
    constructor
    · intro hm
      obtain ⟨u, hu, e⟩ := List.mem_map.mp hm
      obtain ⟨p, hp', rfl⟩ := hmem u hu
      exact ⟨p, hp', e⟩
    · rintro ⟨p, hp', e⟩
      obtain ⟨u, hu, e'⟩ := h5 p.2.waddr (List.mem_map.mpr ⟨p, hp.mem_iff.mpr hp', rfl⟩)
      exact List.mem_map.mpr ⟨u, hu, by rw [← e', e]⟩

/-- **C59.** In every reachable state the addresses have 42 characters, so the previous theorem
applies. -/
theorem C59_reachable {E : Env} (hE : ValidEnv E) (hX : ExactEnv E) (hC : NoSelfConsol E)
    (hG : GoBytes E) {cfg : Config} {bs : List FullBlock} {o' : Oracle}
    (hb : ∀ b ∈ bs, BytesOK b) (h : Hist E (newOracle cfg) bs o') : Addresses42 o'.st := by
  have key : ∀ {o bs o'}, Hist E o bs o' → MapOK o.st → MapOK o'.st := by
    intro o bs o' h
    induction h with
    | nil => exact id
    | @cons o b o1 n bs o2 hstep _ ih =>
      intro hs
      obtain ⟨sb, dons, r, ops, _, _, _, _, hp, _⟩ := slot_runs (x := False) hE hX hC hs
        (fun hf => hf.elim) hstep
      exact ih (hp.sorted hs)
  have hs : MapOK o'.st := key h List.Pairwise.nil
  intro p hp
  obtain ⟨⟨d, e, hl, _⟩, _⟩ := C19_addresses_well_formed hE hX hC hG hb h p.1 p.2
    (Sorted.get_of_mem hs (k := p.1) (v := p.2) hp)
  rw [e]; simp [hl]

theorem isHexAddress_wellFormed {w} (h : WellFormed w) : isHexAddress w = true := by
  obtain ⟨d, rfl, hl, hd⟩ := h
  unfold isHexAddress has0xPrefix
  simp only [List.cons_append, List.nil_append, beq_self_eq_true, Bool.true_or, Bool.and_true, if_true,
    List.drop_succ_cons, List.drop_zero, Bool.and_eq_true, beq_iff_eq, List.all_eq_true]
  refine ⟨hl, fun c hc => ?_⟩
  unfold isHexChar
  rcases hd c hc with h | h
  · simp [h.1, h.2]
  · simp [h.1, h.2]

theorem claimedLoop_eq {claim : Str → Option Int} {f : Str → Int} {l : List Str} {acc : List (Str × Int)}
    (hh : ∀ a ∈ l, isHexAddress a = true) (hc : ∀ a ∈ l, claim a = some (f a))
    (hn : (acc.map (·.1) ++ l).Nodup) :
    claimedLoop claim l acc = .ok (some (acc ++ l.map fun a => (a, f a))) := by
  induction l generalizing acc with
  | nil => simp [claimedLoop]
  | cons a l ih =>
    unfold claimedLoop
    rw [hh a (by simp), hc a (by simp)]
    have : acc.any (fun p => p.1 == a) = false := by
      rw [List.any_eq_false]
      intro p hp
      have := (List.nodup_append.mp hn).2.2 p.1 (List.mem_map.mpr ⟨p, hp, rfl⟩) a (by simp)
      simpa using this
    simp only [Bool.not_true, Bool.false_eq_true, if_false, this]
    rw [ih (fun x hx => hh x (by simp [hx])) (fun x hx => hc x (by simp [hx])) (by simpa using hn)]
    simp

theorem nodup_of_lower {l : List Str} (h : (l.map lower).Nodup) : l.Nodup := by
  rw [List.nodup_iff_pairwise_ne, List.pairwise_map] at h
  exact h.imp fun h e => h (by rw [e])

/-- **C59**, partial: a hypothesis is needed that no validator's withdrawal address is the pool fee
address. Then the claims that are looked up are those of the validators' addresses and of the pool fee
address, each once: neither missed nor counted twice. `claims` is what the contract has paid to each
address, whatever the letter case it is written in. -/
theorem C59_claims_partial {E : Env} (hE : ValidEnv E) (t : Nat) {s : State}
    (hw : ∀ p ∈ s.vals, WellFormed p.2.waddr) (hf : isHexAddress s.poolFeesAddr = true)
    (hdiff : ∀ p ∈ s.vals, lower p.2.waddr ≠ lower s.poolFeesAddr)
    {claim : Str → Option Int} {paid : Str → Int} (hc : ∀ a, claim a = some (paid (lower a))) :
    ∃ us m, uniqueAddresses E t s = .ok us ∧ claimedPer claim us = .ok (some m) ∧
      (m.map (·.2)).sum =
        (((s.poolFeesAddr :: s.vals.map fun p => p.2.waddr).map lower).dedup.map paid).sum := by
  have h42 : Addresses42 s := by
    intro p hp
    obtain ⟨d, e, hl, _⟩ := hw p hp
    rw [e]; simp [hl]
  obtain ⟨us, h1, h2, h3⟩ := C59_unique_addresses hE t h42
  have hnd : (us.map lower).Nodup := by
    rw [List.nodup_iff_count_le_one]
    intro a
    by_cases ha : a ∈ us.map lower
    · obtain ⟨u, hu, rfl⟩ := List.mem_map.mp ha
      have hc' : (us.filter fun v => lower v = lower u).length = (us.map lower).count (lower u) := by
        rw [← List.countP_eq_length_filter, List.count, List.countP_map]
        exact List.countP_congr (by simp)
      rw [← hc', h2 u]
      split <;> omega
    · rw [List.count_eq_zero_of_not_mem ha]; omega
  have hnd2 : ((us ++ [s.poolFeesAddr]).map lower).Nodup := by
    rw [List.map_append, List.nodup_append]
    refine ⟨hnd, by simp, ?_⟩
    intro a ha b hb e
    simp only [List.map_cons, List.map_nil, List.mem_singleton] at hb
    obtain ⟨u, hu, rfl⟩ := List.mem_map.mp ha
    obtain ⟨p, hp, rfl⟩ := h3 u hu
    exact hdiff p hp (by rw [e, hb])
  refine ⟨_, _, h1, claimedLoop_eq (f := fun a => paid (lower a)) (acc := []) ?_ (fun a _ => hc a) ?_, ?_⟩
  · intro a ha
    rcases List.mem_append.mp ha with ha | ha
    · obtain ⟨p, hp, rfl⟩ := h3 a ha
      exact isHexAddress_wellFormed (hw p hp)
    · simp at ha; rw [ha]; exact hf
  · simpa using nodup_of_lower hnd2
  · have hperm : ((us ++ [s.poolFeesAddr]).map lower).Perm
        ((s.poolFeesAddr :: s.vals.map fun p => p.2.waddr).map lower).dedup := by
      rw [List.perm_ext_iff_of_nodup hnd2 (List.nodup_dedup _)]
      intro a
      rw [List.mem_dedup]
      simp only [List.mem_map, List.mem_append, List.mem_cons, List.not_mem_nil, or_false]
      constructor
      · rintro ⟨u, hu | rfl, rfl⟩
        · obtain ⟨p, hp, rfl⟩ := h3 u hu
          exact ⟨_, Or.inr ⟨p, hp, rfl⟩, rfl⟩
        · exact ⟨_, Or.inl rfl, rfl⟩
      · rintro ⟨u, rfl | ⟨p, hp, rfl⟩, rfl⟩
        · exact ⟨_, Or.inr rfl, rfl⟩
        · have := h2 p.2.waddr
          rw [if_pos ⟨p, hp, rfl⟩] at this
          have hne : (us.filter fun u => lower u = lower p.2.waddr) ≠ [] := by
            intro e; rw [e] at this; simp at this
          obtain ⟨u, hu⟩ := List.exists_mem_of_ne_nil _ hne
          rw [List.mem_filter] at hu
          exact ⟨u, Or.inl hu.1, by simpa using hu.2⟩
    rw [← (hperm.map paid).sum_eq]
    simp [List.map_map, Function.comp_def]

/-- the sample addresses are well formed -/
theorem Sample.addr_ok (i : Nat) : WellFormed (Sample.addr i) :=
  wellFormed_hex List.length_replicate (by
    intro x hx
    rw [List.mem_replicate] at hx
    rw [hx.2]; omega)

example : (∀ p ∈ Sample.st.vals, WellFormed p.2.waddr) ∧ isHexAddress Sample.st.poolFeesAddr = true ∧
    (∀ p ∈ Sample.st.vals, lower p.2.waddr ≠ lower Sample.st.poolFeesAddr) := by
  refine ⟨?_, by decide +kernel, by decide +kernel⟩
  intro p hp
  simp only [Sample.st, Sample.vals, List.mem_cons, List.not_mem_nil, or_false] at hp
  rcases hp with rfl | rfl | rfl | rfl | rfl | rfl <;> exact Sample.addr_ok _

/-- The same pool, whose fee recipient is also the withdrawal address of validator 1. -/
def sharedFeeCfg (fee : Str) : Config := { Sample.cfg with poolFeesAddr := fee }

/-- **C59** is false when the pool fee recipient is also a validator's withdrawal address: written in
the same letter case the process stops, in another letter case its claims are counted twice. Both pools
are reached from the start by the sample blocks. -/
theorem C59_false_shared_fee_address :
    (∃ o us, Hist Sample.env (newOracle (sharedFeeCfg (b!"0x" ++ hexEncode (List.replicate 20 1))))
        Sample.blocks o ∧ uniqueAddresses Sample.env 0 o.st = .ok us ∧
      claimedPer (fun _ => some 5) us = .error .fatal) ∧
    (∃ o us m, Hist Sample.env (newOracle (sharedFeeCfg (b!"0X" ++ hexEncode (List.replicate 20 1))))
        Sample.blocks o ∧ uniqueAddresses Sample.env 0 o.st = .ok us ∧
      claimedPer (fun _ => some 5) us = .ok (some m) ∧
      (m.filter fun p => lower p.1 = Sample.addr 1).length = 2) := by
  constructor
  · obtain ⟨o, h1, h2⟩ := Sample.ex_hist (E := Sample.env)
      (o := newOracle (sharedFeeCfg (b!"0x" ++ hexEncode (List.replicate 20 1)))) (bs := Sample.blocks)
      (P := fun o => (uniqueAddresses Sample.env 0 o.st).toOption.any fun us =>
        decide (claimedPer (fun _ => some 5) us = .error .fatal)) (by decide +kernel)
    obtain ⟨us, h3, h4⟩ := Sample.ex_ok h2
    exact ⟨o, us, h1, h3, by simpa using h4⟩
  · obtain ⟨o, h1, h2⟩ := Sample.ex_hist (E := Sample.env)
      (o := newOracle (sharedFeeCfg (b!"0X" ++ hexEncode (List.replicate 20 1)))) (bs := Sample.blocks)
      (P := fun o => (uniqueAddresses Sample.env 0 o.st).toOption.any fun us =>
        (claimedPer (fun _ => some 5) us).toOption.any fun m => m.any fun m =>
          decide ((m.filter fun p => lower p.1 = Sample.addr 1).length = 2)) (by decide +kernel)
    obtain ⟨us, h3, h4⟩ := Sample.ex_ok h2
    obtain ⟨m, h5, h6⟩ := Sample.ex_ok h4
    cases m with
    | none => simp at h6
    | some m => exact ⟨o, us, m, h1, h3, h5, by simpa using h6⟩

end Verif
