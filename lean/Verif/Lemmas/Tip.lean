import Verif.Lemmas.Pay
import Verif.Spec.Gas
/-
The proposer's tip.
-/
namespace Verif

theorem setBytes_append (a b : List Nat) :
    setBytes (a ++ b) = setBytes a * 256 ^ b.length + setBytes b := by
  unfold setBytes
  rw [List.foldl_append]
  generalize List.foldl (fun acc b => acc * 256 + b) 0 a = z
  induction b generalizing z with
  | nil => simp
  | cons x b ih =>
    simp only [List.foldl_cons, List.length_cons]
    rw [ih (z * 256 + x), ih (0 * 256 + x)]
    ring

theorem setBytes_reverse (bs : List Nat) : setBytes bs.reverse = leValue bs := by
  induction bs with
  | nil => rfl
  | cons b bs ih =>
    rw [List.reverse_cons, setBytes_append, ih]
    simp [setBytes, leValue]; ring

theorem leValue_leBytes (k n : Nat) : leValue (leBytes k n) = n % 256 ^ k := by
  induction k generalizing n with
  | zero => simp [leBytes, leValue, Nat.mod_one]
  | succ k ih =>
    simp only [leBytes, leValue, ih]
    rw [pow_succ', Nat.mod_mul]

theorem baseFee_value {c : ConsBlock} (h : ∀ n, c.baseFee = .u256 n → n < 2 ^ 256) :
    setBytes (baseFeeBytes c).reverse = c.baseFee.value := by
  unfold baseFeeBytes
  rw [setBytes_reverse]
  cases hb : c.baseFee with
  | bytesLE bs => rfl
  | u256 n =>
    dsimp only [BaseFee.value]
    rw [List.reverse_reverse, leValue_leBytes]
    have := h n hb
    rw [Nat.mod_eq_of_lt]
    exact lt_of_lt_of_eq this (by norm_num)

theorem tipLoop_val {base : Int} {txs rs acc x} (h : tipLoop base txs rs acc = .val x)
    (hl : txs.length = rs.length) (hs : (rs.map (·.gasUsed)).sum < 9223372036854775808) :
    x = acc + priorityFees base txs rs + base * (rs.map (·.gasUsed)).sum := by
  induction txs generalizing rs acc with
  | nil =>
    cases rs with
    | nil => simp only [tipLoop, Tip.val.injEq] at h; simp [priorityFees, h]
    | cons r rs => simp at hl
  | cons t txs ih =>
    cases rs with
    | nil => simp at hl
    | cons r rs =>
      cases t with
      | none => simp [tipLoop] at h
      | some tx =>
        simp only [List.map_cons, List.sum_cons] at hs
        simp only [List.length_cons, Nat.add_right_cancel_iff] at hl
        have hg : i64 (r.gasUsed : Int) = r.gasUsed := i64_of_lt (by omega)
        simp only [tipLoop] at h
        split at h
        · simp at h
        · split at h
          · rename_i ht
            rw [ih h hl (by omega), hg]
            simp only [priorityFees, effectivePrice, if_pos ht, List.map_cons, List.sum_cons]
            push_cast; ring
          · rename_i ht
            split at h
            · rw [ih h hl (by omega), hg]
              simp only [priorityFees, effectivePrice, if_neg ht, List.map_cons, List.sum_cons]
              have : sumAndSaturate tx.tipCap base tx.feeCap = min (base + tx.tipCap) tx.feeCap := by
                unfold sumAndSaturate
                rw [add_comm tx.tipCap]
                split <;> omega
              rw [this]; push_cast; ring
            · simp at h

theorem priorityFees_nonneg {base : Int} {txs rs}
    (h : ∀ tx, some tx ∈ txs → base ≤ effectivePrice base tx) : 0 ≤ priorityFees base txs rs := by
  induction txs generalizing rs with
  | nil => simp [priorityFees]
  | cons t txs ih =>
    cases t with
    | none => simp [priorityFees]
    | some tx =>
      cases rs with
      | nil => simp [priorityFees]
      | cons r rs =>
        simp only [priorityFees]
        have h1 := ih (rs := rs) (fun t ht => h t (by simp [ht]))
        have h2 := h tx (by simp)
        have h3 : 0 ≤ (r.gasUsed : Int) * (effectivePrice base tx - base) :=
          mul_nonneg (by omega) (by omega)
        omega

/-- inversion of a computed tip -/
theorem proposerTip_val {b : FullBlock} {t} (h : proposerTip b = .ok t) (ht : t ≠ .err) :
    ∃ c hd rs, b.cons = some c ∧ b.header = some hd ∧ b.receipts = some rs ∧
      c.txs.length = rs.length ∧
      ((tipLoop hd.baseFee c.txs rs 0 = .nil ∧ t = .nil) ∨
        ∃ x, tipLoop hd.baseFee c.txs rs 0 = .val x ∧
          t = .val (x - i64 c.gasUsed * setBytes (baseFeeBytes c).reverse)) := by
  unfold proposerTip at h
  split at h
  · simp only [Except.ok.injEq] at h; exact absurd h.symm ht
  · rename_i rs hrs
    split at h
    · simp only [Except.ok.injEq] at h; exact absurd h.symm ht
    · rename_i hd hhd
      split at h
      · simp at h
      · rename_i c hc
        rw [bind_ok] at h
        obtain ⟨txs, htx, h⟩ := h
        have htx := exec_ok htx
        subst htx
        split at h
        · simp only [Except.ok.injEq] at h; exact absurd h.symm ht
        · rename_i hlen
          simp only [bind_ok] at h
          obtain ⟨bf, hbf, gas, hgas, h⟩ := h
          have hbf := exec_ok hbf
          have hgas := exec_ok hgas
          subst hbf hgas
          refine ⟨c, hd, rs, hc, hhd, hrs, not_not.mp hlen, ?_⟩
          split at h
          · simp only [Except.ok.injEq] at h; exact absurd h.symm ht
          · rename_i htl
            simp only [Except.ok.injEq] at h
            exact Or.inl ⟨htl, h.symm⟩
          · rename_i x htl
            simp only [Except.ok.injEq] at h
            exact Or.inr ⟨x, htl, h.symm⟩

theorem vanila_tip {s b pool sb} (hsb : summarize s b pool = .ok sb) (hv : sb.rewardType = .vanila) :
    ∃ t, proposerTip b = .ok t ∧ t ≠ .err ∧ sb.reward = match t with | .val x => some x | _ => none := by
  unfold summarize at hsb
  rw [bind_ok] at hsb
  obtain ⟨⟨w, wt⟩, hw, hsb⟩ := hsb
  simp only at hsb
  split at hsb
  · simp only [Except.ok.injEq] at hsb; rw [← hsb] at hv; simp at hv
  · rename_i c hc
    simp only [bind_ok] at hsb
    obtain ⟨pr, hpr, ⟨rw', tp, rt⟩, hsr, nb, hnb, hsb⟩ := hsb
    simp only [Except.ok.injEq] at hsb
    rw [← hsb] at hv ⊢
    simp only at hv ⊢
    unfold sentReward at hsr
    rw [bind_ok] at hsr
    obtain ⟨m, hm, hsr⟩ := hsr
    split at hsr
    · rw [bind_ok] at hsr
      obtain ⟨tp', htp', hsr⟩ := hsr
      simp only [Except.ok.injEq, Prod.mk.injEq] at hsr
      rw [← hsr.2.2] at hv; simp at hv
    · rw [hc] at hsr
      simp only [bind_ok] at hsr
      obtain ⟨fr, hfr, frp, hfrp, hsr⟩ := hsr
      split at hsr
      · rw [bind_ok] at hsr
        obtain ⟨tip, htip, hsr⟩ := hsr
        refine ⟨tip, htip, ?_⟩
        cases tip with
        | err => simp at hsr
        | nil => simp only [Except.ok.injEq, Prod.mk.injEq] at hsr; exact ⟨by simp, hsr.1.symm⟩
        | val x => simp only [Except.ok.injEq, Prod.mk.injEq] at hsr; exact ⟨by simp, hsr.1.symm⟩
      · simp only [Except.ok.injEq, Prod.mk.injEq] at hsr
        rw [← hsr.2.2] at hv; simp at hv

theorem tip_nonneg {b : FullBlock} {x : Int} (hg : GasOK b) (h : proposerTip b = .ok (.val x)) : 0 ≤ x := by
  obtain ⟨c, hd, rs, hc, hh, hr, hl, hcase⟩ := proposerTip_val h (by simp)
  obtain ⟨g1, g2, g3, g4, g5⟩ := hg c hd rs hc hh hr
  rcases hcase with ⟨_, h2⟩ | ⟨y, h1, h2⟩
  · simp at h2
  · simp only [Tip.val.injEq] at h2
    have hsum : x = priorityFees hd.baseFee c.txs rs := by
      rw [h2, tipLoop_val h1 hl (by rw [← g3]; exact g4), baseFee_value g2, i64_of_lt g4, ← g3, ← g1]
      ring
    rw [hsum]; exact priorityFees_nonneg g5

end Verif
