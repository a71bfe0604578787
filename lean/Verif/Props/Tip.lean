import Verif.Lemmas.Tip
import Verif.Spec.Sample
/-
C40: the vanilla reward credited is the sum of the priority fees.
-/
namespace Verif

theorem tipLoop_consistent {base : Int} {txs rs acc x} (h : tipLoop base txs rs acc = .val x)
    (hl : txs.length = rs.length) :
    List.Forall₂ (fun t r => ∃ tx, t = some tx ∧ tx.hash = r.txHash ∧ tx.type ≤ 4) txs rs := by
  induction txs generalizing rs acc with
  | nil =>
    cases rs with
    | nil => exact .nil
    | cons r rs => simp at hl
  | cons t txs ih =>
    cases rs with
    | nil => simp at hl
    | cons r rs =>
      simp only [List.length_cons, Nat.add_right_cancel_iff] at hl
      cases t with
      | none => simp [tipLoop] at h
      | some tx =>
        simp only [tipLoop] at h
        split at h
        · simp at h
        · rename_i hh
          split at h
          · rename_i ht
            exact .cons ⟨tx, rfl, not_not.mp hh, by omega⟩ (ih h hl)
          · split at h
            · rename_i ht
              exact .cons ⟨tx, rfl, not_not.mp hh, by omega⟩ (ih h hl)
            · simp at h

/-- **C40.** A computed tip is the sum over the block's transactions of gas used times (effective
gas price - base fee); it is not negative. It is computed only from a header and receipts that
match the transactions one by one. -/
theorem C40_tip_is_priority_fees {b : FullBlock} {x : Int} (hg : GasOK b)
    (h : proposerTip b = .ok (.val x)) :
    ∃ c hd rs, b.cons = some c ∧ b.header = some hd ∧ b.receipts = some rs ∧
      x = priorityFees hd.baseFee c.txs rs ∧ 0 ≤ x ∧
      List.Forall₂ (fun t r => ∃ tx, t = some tx ∧ tx.hash = r.txHash ∧ tx.type ≤ 4) c.txs rs := by
  obtain ⟨c, hd, rs, hc, hh, hr, hl, hcase⟩ := proposerTip_val h (by simp)
  refine ⟨c, hd, rs, hc, hh, hr, ?_⟩
  obtain ⟨g1, g2, g3, g4, g5⟩ := hg c hd rs hc hh hr
  rcases hcase with ⟨_, h2⟩ | ⟨y, h1, h2⟩
  · simp at h2
  · simp only [Tip.val.injEq] at h2
    have hsum : x = priorityFees hd.baseFee c.txs rs := by
      rw [h2, tipLoop_val h1 hl (by rw [← g3]; exact g4), baseFee_value g2, i64_of_lt g4, ← g3, ← g1]
      ring
    exact ⟨hsum, by rw [hsum]; exact priorityFees_nonneg g5, tipLoop_consistent h1 hl⟩

/-- **C40.** What a processed slot records, and credits, as the reward of a vanilla proposal is the
sum of the priority fees of the block. -/
theorem C40_recorded {E o b o' n} (hg : GasOK b) (h : advanceState E o b = .ok (o', some n))
    {sb : SumBlock} (hnew : o'.st.proposed = o.st.proposed ++ [sb]) (hv : sb.rewardType = .vanila) :
    ∃ c hd rs, b.cons = some c ∧ b.header = some hd ∧ b.receipts = some rs ∧
      sb.reward = some (priorityFees hd.baseFee c.txs rs) ∧ 0 ≤ priorityFees hd.baseFee c.txs rs := by
  obtain ⟨o1, sb', dons, s1, s2, h1, h2, hvc, hsb, h3, hd, ha, hcl, ho', hn⟩ := advanceState_ok h
  obtain ⟨sb2, dons2, p, m, w, k1, k2, hrec, k3, k4, _⟩ := slot_frame h
  have hp : o'.st.proposed = o.st.proposed ++ p := by
    have := congrArg State.proposed k4; exact this
  rw [hp, List.append_cancel_left_eq] at hnew
  have hfr := validateConfig_frame hvc
  have hsbe : sb' = sb2 := by
    have e : summarize o1.st b o1.cfg.poolAddr = summarize o.st b o.cfg.poolAddr := by
      rw [summarize_congr (s := o1.st) (s' := o.st) (by rw [hfr])]; rw [hfr]
    rw [e, k1] at hsb
    simpa using hsb.symm
  have hty : (sb2.type = .okPool ∨ sb2.type = .okPoolBls) ∧ sb2 = sb := by
    have := hrec.prop
    rw [hnew] at this
    split at this
    · rename_i ht; refine ⟨ht, ?_⟩; simpa using this.symm
    · simp at this
  obtain ⟨ht, rfl⟩ := hty
  obtain ⟨t, ht1, ht2, ht3⟩ := vanila_tip k1 hv
  subst hsbe
  -- the handlers dereference the reward, so it is not nil
  have hsome : ∃ r, sb'.reward = some r := by
    unfold applyBlock at ha
    simp only [bind_ok] at ha
    obtain ⟨t1, q1, t3, q3, t4, q4, _⟩ := ha
    rcases ht with ht | ht
    · rw [if_pos ht] at q4
      unfold handleCorrect at q4
      split at q4
      · simp at q4
      · rename_i r hr; exact ⟨r, hr⟩
    · rw [if_pos ht] at q3
      unfold handleBls at q3
      split at q3
      · simp at q3
      · split at q3
        · simp at q3
        · rename_i r hr; exact ⟨r, hr⟩
  obtain ⟨r, hr⟩ := hsome
  cases t with
  | err => simp at ht2
  | nil => rw [ht3] at hr; simp at hr
  | val x =>
    obtain ⟨c, hd', rs, e1, e2, e3, e4, e5, _⟩ := C40_tip_is_priority_fees hg ht1
    exact ⟨c, hd', rs, e1, e2, e3, by rw [ht3, ← e4], by rw [← e4]; exact e5⟩

/-- A type-2 transaction with tip 3 at base fee 10 and 21000 gas pays the proposer 63000. -/
example : proposerTip Sample.b1 = .ok (.val 63000) ∧ GasOK Sample.b1 := by
  constructor
  · decide +kernel
  · intro c h rs hc hh hr
    simp only [Sample.b1, Sample.prop, Option.some.injEq] at hc hh hr
    subst hc hh hr
    constructor
    · rfl
    · intro n hn; simp only [BaseFee.u256.injEq] at hn; subst hn; norm_num
    · rfl
    · norm_num
    · intro tx htx
      simp only [List.mem_singleton, Option.some.injEq] at htx
      subst htx; decide

/-- and that is what is recorded for it -/
example : ∃ o o' n sb, advanceState Sample.env o Sample.b1 = .ok (o', some n) ∧
    o'.st.proposed = o.st.proposed ++ [sb] ∧ sb.rewardType = .vanila ∧ sb.reward = some 63000 := by
  obtain ⟨o', n, h1, h2⟩ := Sample.ex_slot (E := Sample.env) (o := Sample.oracle) (b := Sample.b1)
    (P := fun o' => match o'.st.proposed with
      | [sb] => sb.rewardType = .vanila && sb.reward = some 63000 | _ => false) (by decide +kernel)
  split at h2
  · rename_i sb hsb
    simp only [Bool.and_eq_true, decide_eq_true_eq] at h2
    exact ⟨_, o', n, sb, h1, hsb, h2.1, h2.2⟩
  · simp at h2

/-- the vanilla sample block with a receipt of another transaction -/
def mismatched : FullBlock := { Sample.b1 with receipts := some [⟨8, 21000, 100⟩] }

/-- **C40, false part.** Receipts that belong to other transactions are not reported as an error:
the tip is nil without error, and crediting it crashes the process. -/
theorem C40_false_mismatch_not_reported :
    proposerTip mismatched = .ok .nil ∧
    (advanceState Sample.env Sample.oracle mismatched).toOption = none := by
  constructor <;> decide +kernel

/-- **C40, partial.** What is missing to the full statement is a reported error when hashes differ
(see `C40_false_mismatch_not_reported`). All other inconsistencies are errors: no receipts, no
header, another number of receipts than transactions. -/
theorem C40_inconsistent_partial {b : FullBlock} {c} (hc : b.cons = some c)
    (hf : c.fork ≠ .phase0 ∧ c.fork ≠ .altair)
    (h : b.receipts = none ∨ b.header = none ∨ ∃ rs, b.receipts = some rs ∧ rs.length ≠ c.txs.length) :
    proposerTip b = .ok .err := by
  have hex : ∀ {α : Type} (f : ConsBlock → α), c.exec f = .ok (f c) := by
    intro α f
    unfold ConsBlock.exec
    split <;> simp_all
  unfold proposerTip
  rcases h with h | h | ⟨rs, h, hl⟩
  · rw [h]
  · cases b.receipts with
    | none => rfl
    | some rs => simp [h]
  · rw [h, hc]
    cases b.header with
    | none => rfl
    | some hd =>
      simp only [hex]
      have : (c.txs.length ≠ rs.length) := fun e => hl e.symm
      simp [bind, Except.bind, this]

example : ∃ b : FullBlock, ∃ c, b.cons = some c ∧ (c.fork ≠ .phase0 ∧ c.fork ≠ .altair) ∧
    ∃ rs, b.receipts = some rs ∧ rs.length ≠ c.txs.length :=
  ⟨{ Sample.b1 with receipts := some [] }, _, rfl, by decide, [], rfl, by decide⟩

end Verif
