import Verif.Lemmas.Money
import Verif.Spec.Pays
/-
The classification of blocks in terms of `PaidPool`.
-/
namespace Verif

theorem lowerByte_lowerByte (c : Nat) : lowerByte (lowerByte c) = lowerByte c := by
  unfold lowerByte
  split
  · rename_i h; rw [if_neg (by omega)]
  · rfl

theorem lower_lower (s : Str) : lower (lower s) = lower s := by
  unfold lower
  rw [List.map_map]
  exact List.map_congr_left (fun c _ => lowerByte_lowerByte c)

theorem length_lower (s : Str) : (lower s).length = s.length := by simp [lower]

theorem sameAddr_lower (a b : Str) : SameAddr (lower a) b ↔ SameAddr a b := by
  unfold SameAddr; rw [length_lower, lower_lower]

theorem SameAddr.symm {a b : Str} (h : SameAddr a b) : SameAddr b a := ⟨h.1.symm, h.2.symm⟩
theorem SameAddr.trans {a b c : Str} (h : SameAddr a b) (h' : SameAddr b c) : SameAddr a c :=
  ⟨h.1.trans h'.1, h.2.trans h'.2⟩
theorem SameAddr.refl (a : Str) : SameAddr a a := ⟨rfl, rfl⟩

theorem equals_iff {a b : Str} {x} (h : equals a b = .ok x) : x = true ↔ SameAddr a b := by
  cases x with
  | true => simp [equals_true h]
  | false => simp [equals_false h]

theorem isIn_iff {a l x} (h : isIn a l = .ok x) : x = true ↔ ∃ w ∈ l, SameAddr a w := by
  induction l with
  | nil => simp only [isIn, Except.ok.injEq] at h; subst h; simp
  | cons w l ih =>
    simp only [isIn, bind_ok] at h
    obtain ⟨y, hy, h⟩ := h
    cases y with
    | true =>
      simp only [if_true, Except.ok.injEq] at h
      subst h
      simp only [true_iff]
      exact ⟨w, by simp, equals_true hy⟩
    | false =>
      simp only [Bool.false_eq_true, if_false] at h
      rw [ih h]
      have := equals_false hy
      simp [this]

/-- `mevReward` in the words of the specification -/
theorem mevReward_spec {b : FullBlock} {m : Mev} {pool} (h : mevReward b = .ok m) :
    (ExceptionBlock b ∧ m.present = true ∧ (SameAddr m.recipient pool ↔
        SameAddr b!"0xadfb8d27671f14f297ee94135e266aaff8752e35" pool) ∧ m.amount = exceptionReward) ∨
    (∃ tx dest, BuilderPays b tx dest ∧ m.present = true ∧ m.amount = tx.value ∧
        (SameAddr m.recipient pool ↔ ArrivesAt b tx dest pool)) ∨
    (¬ ExceptionBlock b ∧ (∀ tx dest, ¬ BuilderPays b tx dest) ∧ m.present = false) := by
  unfold mevReward at h
  split at h
  · simp at h
  · rename_i c hc
    rw [bind_ok] at h
    obtain ⟨txs, htxs, h⟩ := h
    have htxs := exec_ok htxs
    subst htxs
    have hnone : (∀ tx s d, ¬ LastTx b tx s d) → m.present = false →
        (¬ ExceptionBlock b ∧ (∀ tx dest, ¬ BuilderPays b tx dest) ∧ m.present = false) := by
      intro hno hp
      refine ⟨?_, ?_, hp⟩
      · rintro ⟨_, _, tx, s, d, hl⟩; exact hno _ _ _ hl
      · rintro tx dest ⟨_, _, s, _, hl, _⟩; exact hno _ _ _ hl
    split at h
    · rename_i hl
      simp only [Except.ok.injEq] at h
      right; right
      refine hnone ?_ (by rw [← h]; rfl)
      rintro tx s d ⟨c', hc', hl', _⟩
      rw [hc, Option.some.injEq] at hc'; subst hc'
      rw [hl] at hl'; simp at hl'
    · simp at h
    · rename_i tx hl
      split at h
      · rename_i hto
        simp only [Except.ok.injEq] at h
        right; right
        refine hnone ?_ (by rw [← h]; rfl)
        rintro tx' s d ⟨c', hc', hl', _, hd⟩
        rw [hc, Option.some.injEq] at hc'; subst hc'
        rw [hl] at hl'; simp only [Option.some.injEq] at hl'; subst hl'
        rw [hto] at hd; simp at hd
      · rename_i dest hto
        split at h
        · simp at h
        · rename_i sender hs
          have hlast : LastTx b tx sender dest := ⟨c, hc, hl, hs, hto⟩
          split at h
          · simp at h
          · rename_i wl hwl
            rw [bind_ok] at h
            obtain ⟨slot, hslot, h⟩ := h
            have hslot := base_ok hslot
            subst hslot
            split at h
            · rename_i hexc
              simp only [Except.ok.injEq] at h
              left
              refine ⟨⟨hexc.1, ⟨c, hc, hexc.2⟩, tx, sender, dest, hlast⟩, by rw [← h], ?_, by rw [← h]⟩
              rw [← h]
              simp only
              have : b!"0xadfb8d27671f14f297ee94135e266aaff8752e35" = lower exceptionRecipient := by decide
              rw [this, sameAddr_lower]
            · rename_i hexc
              have hne : ¬ ExceptionBlock b := by
                rintro ⟨h1, ⟨c', hc', h2⟩, _⟩
                rw [hc, Option.some.injEq] at hc'; subst hc'
                exact hexc ⟨h1, h2⟩
              simp only [bind_ok] at h
              obtain ⟨fr, hfr, isFr, hisFr, isWl, hisWl, h⟩ := h
              have hfr := exec_ok hfr
              subst hfr
              have hw : isWl = true ↔ (SameAddr c.feeRecipient sender ∨ KnownBuilder b.chainId sender) := by
                cases isFr with
                | true =>
                  simp only [if_true, Except.ok.injEq] at hisWl
                  rw [← hisWl]
                  have := equals_true hisFr
                  simp [this]
                | false =>
                  simp only [Bool.false_eq_true, if_false] at hisWl
                  rw [isIn_iff hisWl]
                  have := equals_false hisFr
                  simp only [this, false_or]
                  unfold KnownBuilder
                  unfold whitelistedBuilders at hwl
                  split at hwl
                  · rename_i hch
                    simp only [Option.some.injEq] at hwl
                    rw [← hwl, hch]; simp [mainnetChainId]
                  · rename_i hch
                    have hch' : ¬ b.chainId = 1 := hch
                    split at hwl
                    · simp only [Option.some.injEq] at hwl
                      rw [← hwl]; simp [hch']
                    · split at hwl
                      · simp only [Option.some.injEq] at hwl
                        rw [← hwl]; simp [hch']
                      · simp at hwl
              split at h
              · rename_i hiw
                simp only [Except.ok.injEq] at h
                right; left
                refine ⟨tx, dest, ⟨hne, c, sender, hc, hlast, hw.mp hiw⟩, by rw [← h], by rw [← h], ?_⟩
                rw [← h]
                simp only
                unfold mevRecipient ArrivesAt
                split <;> simp [sameAddr_lower, *]
              · rename_i hiw
                simp only [Except.ok.injEq] at h
                right; right
                refine ⟨hne, ?_, by rw [← h]; rfl⟩
                rintro tx' d' ⟨_, c', s', hc', ⟨c2, hc2, hl2, hs2, _⟩, hcase⟩
                rw [hc, Option.some.injEq] at hc' hc2
                subst hc' hc2
                rw [hl] at hl2; simp only [Option.some.injEq] at hl2; subst hl2
                rw [hs, Option.some.injEq] at hs2; subst hs2
                exact hiw (hw.mpr hcase)

theorem lastTx_unique {b : FullBlock} {tx tx' s s' d d'} (h : LastTx b tx s d) (h' : LastTx b tx' s' d') :
    tx = tx' ∧ s = s' ∧ d = d' := by
  obtain ⟨c, hc, hl, hs, hd⟩ := h
  obtain ⟨c', hc', hl', hs', hd'⟩ := h'
  rw [hc, Option.some.injEq] at hc'; subst hc'
  rw [hl] at hl'; simp only [Option.some.injEq] at hl'; subst hl'
  rw [hs, Option.some.injEq] at hs'
  rw [hd, Option.some.injEq] at hd'
  exact ⟨rfl, hs', hd'⟩

theorem exception_not_builder {b tx dest} (h : ExceptionBlock b) : ¬ BuilderPays b tx dest :=
  fun hb => hb.1 h

/-- The classification of a summarized block. -/
theorem summarize_paid {s b pool sb} (hsb : summarize s b pool = .ok sb) :
    ((sb.type = .okPool ∨ sb.type = .okPoolBls) ↔ PaidPool b pool) ∧
    (sb.type = .wrongFee ↔ b.cons ≠ none ∧ ¬ PaidPool b pool) ∧
    (sb.type = .missed ↔ b.cons = none) := by
  have hs := summarize_slot hsb
  unfold summarize at hsb
  rw [bind_ok] at hsb
  obtain ⟨⟨w, wt⟩, hw, hsb⟩ := hsb
  simp only at hsb
  split at hsb
  · rename_i hc
    simp only [Except.ok.injEq] at hsb
    have ht : sb.type = .missed := by rw [← hsb]
    rw [ht]
    refine ⟨?_, ?_, by simp [hc]⟩
    · simp only [reduceCtorEq, or_self, false_iff]
      rintro ⟨c, hc', _⟩; rw [hc] at hc'; simp at hc'
    · simp [hc]
  · rename_i c hc
    simp only [bind_ok] at hsb
    obtain ⟨pr, hpr, ⟨rw', tp, rt⟩, hsr, nb, hnb, hsb⟩ := hsb
    simp only [Except.ok.injEq] at hsb
    have htp : tp = true ↔ PaidPool b pool := by
      unfold sentReward at hsr
      rw [bind_ok] at hsr
      obtain ⟨m, hm, hsr⟩ := hsr
      rcases mevReward_spec (pool := pool) hm with ⟨h1, h2, h3, _⟩ | ⟨tx, dest, h1, h2, _, h3⟩ | ⟨h1, h2, h3⟩
      · rw [h2] at hsr
        simp only [if_true, bind_ok] at hsr
        obtain ⟨y, hy, hsr⟩ := hsr
        simp only [Except.ok.injEq, Prod.mk.injEq] at hsr
        rw [← hsr.2.1, equals_iff hy, h3]
        constructor
        · exact fun h => ⟨c, hc, Or.inl ⟨h1, h⟩⟩
        · rintro ⟨c', _, h | ⟨tx, d, hb, _⟩ | ⟨hn, _⟩⟩
          · exact h.2
          · exact absurd h1 hb.1
          · exact absurd h1 hn
      · rw [h2] at hsr
        simp only [if_true, bind_ok] at hsr
        obtain ⟨y, hy, hsr⟩ := hsr
        simp only [Except.ok.injEq, Prod.mk.injEq] at hsr
        rw [← hsr.2.1, equals_iff hy, h3]
        constructor
        · exact fun h => ⟨c, hc, Or.inr (Or.inl ⟨tx, dest, h1, h⟩)⟩
        · rintro ⟨c', _, h | ⟨tx', d', hb, ha⟩ | ⟨_, hn, _⟩⟩
          · exact absurd h.1 h1.1
          · obtain ⟨_, _, s1, _, hl1, _⟩ := h1
            obtain ⟨_, _, s2, _, hl2, _⟩ := hb
            obtain ⟨e1, e2, e3⟩ := lastTx_unique hl1 hl2
            subst e1 e3; exact ha
          · exact absurd h1 (hn _ _)
      · rw [h3] at hsr
        simp only [Bool.false_eq_true, if_false] at hsr
        rw [hc] at hsr
        simp only [bind_ok] at hsr
        obtain ⟨fr, hfr, frp, hfrp, hsr⟩ := hsr
        have hfr := exec_ok hfr
        subst hfr
        have : tp = frp := by
          split at hsr
          · rw [bind_ok] at hsr
            obtain ⟨tip, htip, hsr⟩ := hsr
            cases tip with
            | err => simp at hsr
            | nil => simp only [Except.ok.injEq, Prod.mk.injEq] at hsr; exact hsr.2.1.symm
            | val y => simp only [Except.ok.injEq, Prod.mk.injEq] at hsr; exact hsr.2.1.symm
          · rename_i hno
            simp only [Except.ok.injEq, Prod.mk.injEq] at hsr
            rw [← hsr.2.1]
            simp only [Bool.or_eq_true, not_or, Bool.not_eq_true] at hno
            exact hno.1.symm
        rw [this, equals_iff hfrp]
        constructor
        · exact fun h => ⟨c, hc, Or.inr (Or.inr ⟨h1, h2, h⟩)⟩
        · rintro ⟨c', hc', h | ⟨tx', d', hb, ha⟩ | ⟨_, _, h⟩⟩
          · exact absurd h.1 h1
          · exact absurd hb (h2 _ _)
          · rw [hc, Option.some.injEq] at hc'; subst hc'; exact h
    rw [← hsb]
    simp only
    refine ⟨?_, ?_, ?_⟩
    · rw [← htp]; cases tp <;> cases wt <;> simp
    · rw [← htp, hc]; cases tp <;> cases wt <;> simp
    · rw [hc]; cases tp <;> cases wt <;> simp

/-- pool proposals with an address -/
theorem summarize_okPool {s b pool sb} (hsb : summarize s b pool = .ok sb) :
    sb.type = .okPool ↔ PaidPool b pool ∧ ∃ w, HasAddress b.validator.creds w := by
  have hp := (summarize_paid hsb).1
  unfold summarize at hsb
  rw [bind_ok] at hsb
  obtain ⟨⟨w, wt⟩, hw, hsb⟩ := hsb
  simp only at hsb
  split at hsb
  · simp only [Except.ok.injEq] at hsb
    rw [← hp, ← hsb]
    simp
  · simp only [bind_ok] at hsb
    obtain ⟨p, _, ⟨r, tp, rt⟩, hsr, nb, hnb, h⟩ := hsb
    simp only [Except.ok.injEq] at h
    rw [← hp, ← h]
    simp only
    have hwt : wt ≠ .bls ↔ ∃ w, HasAddress b.validator.creds w := by
      simp only [← compatAddressByte_iff]
      unfold withdrawalAndType at hw
      simp only at hw
      unfold compatAddressByte compatAddress
      split at hw
      · simp at hw
      · rename_i hl
        rw [if_neg hl]
        have hl' : (hexEncode b.validator.creds).length = 64 := not_not.mp hl
        have hdisj : ∀ {p q : Str}, p.length = q.length → p ≠ q →
            hasPrefix p (hexEncode b.validator.creds) = true →
            hasPrefix q (hexEncode b.validator.creds) = false := by
          intro p q hpq hne h1
          by_contra h2
          simp only [Bool.not_eq_false] at h2
          unfold hasPrefix at h1 h2
          rw [List.isPrefixOf_iff_prefix] at h1 h2
          rcases List.prefix_or_prefix_of_prefix h1 h2 with h | h
          · exact hne (h.eq_of_length hpq)
          · exact hne (h.eq_of_length hpq.symm).symm
        split at hw
        · rename_i h1
          simp only [Except.ok.injEq, Prod.mk.injEq] at hw
          have h0 : hasPrefix b!"00" (hexEncode b.validator.creds) = true := by
            unfold isBlsType at h1; simp only [Bool.and_eq_true] at h1; exact h1.2
          have hshort : ∀ q : Str, q.take 2 ≠ b!"00" → 2 ≤ q.length →
              hasPrefix q (hexEncode b.validator.creds) = false := by
            intro q hq hlq
            by_contra h2
            simp only [Bool.not_eq_false] at h2
            unfold hasPrefix at h0 h2
            rw [List.isPrefixOf_iff_prefix] at h0 h2
            have h3 : (q.take 2) <+: hexEncode b.validator.creds := (List.take_prefix 2 q).trans h2
            rcases List.prefix_or_prefix_of_prefix h0 h3 with h | h
            · exact hq (h.eq_of_length (by simp; omega)).symm
            · exact hq (h.eq_of_length (by simp; omega))
          rw [hshort eth1Prefix (by decide) (by decide), hshort electraPrefix (by decide) (by decide)]
          rw [← hw.2]; simp
        · split at hw
          · rename_i h1
            simp only [Except.ok.injEq, Prod.mk.injEq] at hw
            have : hasPrefix eth1Prefix (hexEncode b.validator.creds) = true := by
              unfold isEth1Type at h1; simp only [Bool.and_eq_true] at h1; exact h1.2
            rw [this, ← hw.2]; simp
          · rename_i hb h1
            split at hw
            · rename_i h2
              simp only [Except.ok.injEq, Prod.mk.injEq] at hw
              have : hasPrefix electraPrefix (hexEncode b.validator.creds) = true := by
                unfold isElectraType at h2; simp only [Bool.and_eq_true] at h2; exact h2.2
              rw [this, ← hw.2]; simp
            · rename_i h2
              simp only [Except.ok.injEq, Prod.mk.injEq] at hw
              rw [← hw.2]
              unfold isEth1Type at h1
              unfold isElectraType at h2
              simp only [hl', beq_self_eq_true, Bool.true_and, Bool.not_eq_true] at h1 h2
              simp [h1, h2]
    rw [← hwt]
    cases tp <;> cases wt <;> simp

end Verif
