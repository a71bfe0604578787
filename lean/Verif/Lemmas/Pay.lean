import Verif.Lemmas.VStep
import Verif.Spec.Blocks
/-
What a block pays: MEV reward, donations, vanilla reward.
-/
namespace Verif
open VMap

theorem exec_ok {α : Type} {c : ConsBlock} {f : ConsBlock → α} {x} (h : c.exec f = .ok x) : f c = x := by
  unfold ConsBlock.exec at h
  split at h <;> simp_all

theorem base_ok {α : Type} {c : ConsBlock} {f : ConsBlock → α} {x} (h : c.base f = .ok x) : f c = x := by
  unfold ConsBlock.base at h
  split at h <;> simp_all

/-- A MEV payment is the value of the last transaction. -/
theorem mevReward_amount {b : FullBlock} {m : Mev} (h : mevReward b = .ok m) (hp : m.present = true) :
    LastPayment b m.amount := by
  unfold mevReward at h
  split at h
  · simp at h
  · rename_i c hc
    rw [bind_ok] at h
    obtain ⟨txs, htxs, h⟩ := h
    have htxs := exec_ok htxs
    split at h
    · simp only [Except.ok.injEq] at h; subst h; simp [Mev.none] at hp
    · simp at h
    · rename_i tx htx
      split at h
      · simp only [Except.ok.injEq] at h; subst h; simp [Mev.none] at hp
      · split at h
        · simp at h
        · split at h
          · simp at h
          · rw [bind_ok] at h
            obtain ⟨slot, hslot, h⟩ := h
            split at h
            · simp only [Except.ok.injEq] at h; subst h; exact Or.inr rfl
            · simp only [bind_ok] at h
              obtain ⟨fr, hfr, isFr, hisFr, isWl, hisWl, h⟩ := h
              split at h
              · simp only [Except.ok.injEq] at h; subst h
                exact Or.inl ⟨c, tx, hc, by rw [htxs]; exact htx, rfl⟩
              · simp only [Except.ok.injEq] at h; subst h; simp [Mev.none] at hp

theorem sum_filter_split (l : List EtherEvent) (a : Int) :
    (l.map (·.amount)).sum =
      a * (l.filter fun e => e.amount = a).length + ((l.filter fun e => e.amount ≠ a).map (·.amount)).sum := by
  induction l with
  | nil => simp
  | cons e l ih =>
    simp only [List.map_cons, List.sum_cons, List.filter_cons]
    by_cases h : e.amount = a
    · simp only [h, decide_true, if_true, List.length_cons]
      rw [ih]
      push_cast
      simp
      ring
    · simp only [h, decide_false, Bool.false_eq_true, if_false, ne_eq, not_false_eq_true, decide_true,
        if_true, List.map_cons, List.sum_cons]
      rw [ih]
      simp only [ne_eq]
      ring

/-- The two ways a block can be classified, with reward and donations. -/
theorem summarize_cases {s b pool sb dons} (hsb : summarize s b pool = .ok sb)
    (hd : getDonations b pool = .ok dons) :
    (b.cons = none ∧ sb.type = .missed ∧ dons = []) ∨
    (∃ c m, b.cons = some c ∧ mevReward b = .ok m ∧
      ((m.present = true ∧ equals m.recipient pool = .ok true ∧ (sb.type = .okPool ∨ sb.type = .okPoolBls) ∧
          sb.rewardType = .mev ∧ sb.reward = some m.amount ∧
          (∃ e ∈ b.events.ether, e.amount = m.amount) ∧
          dons = b.events.ether.filter fun e => e.amount ≠ m.amount) ∨
       (m.present = true ∧ equals m.recipient pool = .ok false ∧ sb.type = .wrongFee ∧
          dons = b.events.ether) ∨
       (m.present = false ∧ equals c.feeRecipient pool = .ok true ∧
          (sb.type = .okPool ∨ sb.type = .okPoolBls) ∧ sb.rewardType = .vanila ∧
          dons = b.events.ether) ∨
       (m.present = false ∧ equals c.feeRecipient pool = .ok false ∧ sb.type = .wrongFee ∧
          dons = b.events.ether))) := by
  unfold summarize at hsb
  rw [bind_ok] at hsb
  obtain ⟨⟨w, wt⟩, hw, hsb⟩ := hsb
  simp only at hsb
  unfold getDonations at hd
  split at hsb
  · rename_i hc
    left
    rw [hc] at hd
    simp only [Except.ok.injEq] at hsb hd
    exact ⟨hc, by rw [← hsb], hd.symm⟩
  · rename_i c hc
    right
    rw [hc] at hd
    simp only [bind_ok] at hd hsb
    obtain ⟨m, hm, toP, htoP, hd⟩ := hd
    obtain ⟨pr, hpr, ⟨rw', tp, rt⟩, hsr, nb, hnb, hsb⟩ := hsb
    refine ⟨c, m, hc, hm, ?_⟩
    unfold sentReward at hsr
    rw [bind_ok] at hsr
    obtain ⟨m', hm', hsr⟩ := hsr
    rw [hm, Except.ok.injEq] at hm'
    subst hm'
    simp only [Except.ok.injEq] at hsb
    have htype : tp = true → (sb.type = .okPool ∨ sb.type = .okPoolBls) := by
      intro h; rw [← hsb, h]; cases wt <;> simp
    have htype2 : tp = false → sb.type = .wrongFee := by
      intro h; rw [← hsb, h]; simp
    cases hp : m.present with
    | true =>
      rw [hp] at hsr htoP
      simp only [if_true] at hsr htoP
      rw [bind_ok] at hsr
      obtain ⟨tp', htp', hsr⟩ := hsr
      rw [htoP, Except.ok.injEq] at htp'
      subst htp'
      simp only [Except.ok.injEq, Prod.mk.injEq] at hsr
      obtain ⟨e1, e2, e3⟩ := hsr
      subst e2
      cases toP with
      | true =>
        left
        simp only [Bool.not_true, Bool.false_eq_true, if_false] at hd
        split at hd
        · rename_i hany
          simp only [Except.ok.injEq] at hd
          obtain ⟨e, he, hea⟩ := List.any_eq_true.mp hany
          refine ⟨rfl, htoP, htype rfl, ?_, ?_, ⟨e, he, by simpa using hea⟩, hd.symm⟩
          · rw [← hsb, e3]
          · rw [← hsb, e1]
        · simp at hd
      | false =>
        right; left
        simp only [Bool.not_false, if_true, Except.ok.injEq] at hd
        exact ⟨rfl, htoP, htype2 rfl, hd.symm⟩
    | false =>
      rw [hp] at hsr htoP
      simp only [Bool.false_eq_true, if_false, Except.ok.injEq] at hsr htoP
      subst htoP
      simp only [Bool.not_false, if_true, Except.ok.injEq] at hd
      rw [hc] at hsr
      simp only [bind_ok] at hsr
      obtain ⟨fr, hfr, frp, hfrp, hsr⟩ := hsr
      have hfr := exec_ok hfr
      subst hfr
      cases frp with
      | true =>
        right; right; left
        refine ⟨rfl, hfrp, ?_⟩
        simp only [Bool.true_or, if_true] at hsr
        rw [bind_ok] at hsr
        obtain ⟨tip, htip, hsr⟩ := hsr
        cases tip with
        | err => simp at hsr
        | nil =>
          simp only [Except.ok.injEq, Prod.mk.injEq] at hsr
          obtain ⟨e1, e2, e3⟩ := hsr
          subst e2
          exact ⟨htype rfl, by rw [← hsb, e3], hd.symm⟩
        | val y =>
          simp only [Except.ok.injEq, Prod.mk.injEq] at hsr
          obtain ⟨e1, e2, e3⟩ := hsr
          subst e2
          exact ⟨htype rfl, by rw [← hsb, e3], hd.symm⟩
      | false =>
        right; right; right
        refine ⟨rfl, hfrp, ?_, hd.symm⟩
        apply htype2
        simp only [Bool.false_or] at hsr
        split at hsr
        · rw [bind_ok] at hsr
          obtain ⟨tip, htip, hsr⟩ := hsr
          cases tip with
          | err => simp at hsr
          | nil =>
            simp only [Except.ok.injEq, Prod.mk.injEq] at hsr; exact hsr.2.1.symm
          | val y =>
            simp only [Except.ok.injEq, Prod.mk.injEq] at hsr; exact hsr.2.1.symm
        · simp only [Except.ok.injEq, Prod.mk.injEq] at hsr; exact hsr.2.1.symm

/-- reward plus donations = payments plus vanilla reward -/
theorem pay_balance {s b pool sb dons r} (hsb : summarize s b pool = .ok sb)
    (hd : getDonations b pool = .ok dons) (h0 : NoPaymentsIfMissed b) (h1 : DistinctPayments b)
    (hr1 : (sb.type = .okPool ∨ sb.type = .okPoolBls) → sb.reward = some r)
    (hr2 : sb.type ≠ .okPool → sb.type ≠ .okPoolBls → r = 0) :
    r + (dons.map (·.amount)).sum = (b.events.ether.map (·.amount)).sum +
      ((if sb.type = .okPool ∨ sb.type = .okPoolBls then [sb] else []).map vanillaReward).sum := by
  rcases summarize_cases hsb hd with ⟨hc, ht, hdn⟩ | ⟨c, m, hc, hm, h⟩
  · rw [hdn, h0 hc, hr2 (by rw [ht]; simp) (by rw [ht]; simp)]
    simp [ht]
  · rcases h with ⟨hp, hq, ht, hrt, hrew, ⟨e, he, hea⟩, hdn⟩ | ⟨hp, hq, ht, hdn⟩ | ⟨hp, hq, ht, hrt, hdn⟩ |
      ⟨hp, hq, ht, hdn⟩
    · have hr := hr1 ht
      rw [hrew, Option.some.injEq] at hr
      rw [if_pos ht, hdn, sum_filter_split b.events.ether m.amount]
      have hle := h1 m.amount (mevReward_amount hm hp)
      have hge : 0 < (b.events.ether.filter fun e => e.amount = m.amount).length :=
        List.length_pos_of_mem (List.mem_filter.mpr ⟨he, by simpa using hea⟩)
      have : (b.events.ether.filter fun e => e.amount = m.amount).length = 1 := by omega
      rw [this]
      simp [vanillaReward, hrt, hr]
    · rw [hdn, hr2 (by rw [ht]; simp) (by rw [ht]; simp)]
      simp [ht]
    · rw [if_pos ht, hdn]
      simp [vanillaReward, hrt, hr1 ht]
      ring
    · rw [hdn, hr2 (by rw [ht]; simp) (by rw [ht]; simp)]
      simp [ht]

/-- reward plus donations never exceed payments plus vanilla reward, whatever the payments -/
theorem pay_le {s b pool sb dons r} (hsb : summarize s b pool = .ok sb)
    (hd : getDonations b pool = .ok dons) (h0 : ∀ e ∈ b.events.ether, 0 ≤ e.amount)
    (hr1 : (sb.type = .okPool ∨ sb.type = .okPoolBls) → sb.reward = some r)
    (hr2 : sb.type ≠ .okPool → sb.type ≠ .okPoolBls → r = 0) :
    r + (dons.map (·.amount)).sum ≤ (b.events.ether.map (·.amount)).sum +
      ((if sb.type = .okPool ∨ sb.type = .okPoolBls then [sb] else []).map vanillaReward).sum := by
  rcases summarize_cases hsb hd with ⟨hc, ht, hdn⟩ | ⟨c, m, hc, hm, h⟩
  · rw [hdn, hr2 (by rw [ht]; simp) (by rw [ht]; simp)]
    have : ∀ l : List EtherEvent, (∀ e ∈ l, 0 ≤ e.amount) → 0 ≤ (l.map (·.amount)).sum := by
      intro l hl
      induction l with
      | nil => simp
      | cons e l ih =>
        simp only [List.map_cons, List.sum_cons]
        exact add_nonneg (hl e (by simp)) (ih fun x hx => hl x (by simp [hx]))
    have := this _ h0
    simpa [ht] using this
  · rcases h with ⟨hp, hq, ht, hrt, hrew, ⟨e, he, hea⟩, hdn⟩ | ⟨hp, hq, ht, hdn⟩ | ⟨hp, hq, ht, hrt, hdn⟩ |
      ⟨hp, hq, ht, hdn⟩
    · have hr := hr1 ht
      rw [hrew, Option.some.injEq] at hr
      rw [if_pos ht, hdn, sum_filter_split b.events.ether m.amount]
      have hge : 1 ≤ (b.events.ether.filter fun e => e.amount = m.amount).length :=
        List.length_pos_of_mem (List.mem_filter.mpr ⟨he, by simpa using hea⟩)
      have hm0 : 0 ≤ m.amount := by rw [← hea]; exact h0 e he
      simp only [vanillaReward, hrt, List.map_cons, List.map_nil, List.sum_cons, List.sum_nil]
      have hge' : (1 : Int) ≤ ((b.events.ether.filter fun e => e.amount = m.amount).length : Int) := by
        exact_mod_cast hge
      have := mul_le_mul_of_nonneg_right hge' hm0
      simp
      linarith
    · rw [hdn, hr2 (by rw [ht]; simp) (by rw [ht]; simp)]
      simp [ht]
    · rw [if_pos ht, hdn]
      simp [vanillaReward, hrt, hr1 ht]
      linarith
    · rw [hdn, hr2 (by rw [ht]; simp) (by rw [ht]; simp)]
      simp [ht]

end Verif
