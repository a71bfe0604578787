import Verif.Lemmas.Money
import Verif.Spec.Sample
import Verif.Spec.Fees
/-
C20, C21, C22, C23, C33: slot order, errors, checkpoints, logs and the fee.
-/
namespace Verif
open VMap

/-! ### C20 Slots are processed once each, in order -/

/-- **C20.** A successful call processes exactly the next slot. -/
theorem C20_exactly_next {E o b o' n} (h : advanceState E o b = .ok (o', some n)) :
    b.dutySlot = o.st.nextSlot ∧ n = b.dutySlot ∧ o'.st.latestSlot = b.dutySlot ∧
      o'.st.nextSlot = u64 (b.dutySlot + 1) := by
  obtain ⟨sb, dons, p, m, w, _, _, _, _, h5, h6, _⟩ := slot_frame h
  have e := (slot_next h).1
  refine ⟨e.symm, by rw [h6, e], ?_, ?_⟩
  · have := congrArg State.latestSlot h5; rw [← e]; exact this
  · have := congrArg State.nextSlot h5; rw [← e]; exact this

/-- **C20.** A block for any other slot is rejected with an error and nothing changes. -/
theorem C20_other_slots_rejected {E : Env} {o : Oracle} {b : FullBlock} (h : b.dutySlot ≠ o.st.nextSlot) :
    advanceState E o b = .ok (o, none) := by
  unfold advanceState
  split
  · rfl
  · rw [if_pos (Ne.symm h)]

theorem hist_slots {E o bs o'} (h : Hist E o bs o')
    (hlen : o.st.nextSlot + bs.length < 18446744073709551616) :
    o'.st.nextSlot = o.st.nextSlot + bs.length ∧
    bs.map (·.dutySlot) = List.range' o.st.nextSlot bs.length ∧
    (bs ≠ [] → o'.st.latestSlot + 1 = o.st.nextSlot + bs.length) := by
  induction h with
  | nil => simp
  | @cons o b o1 n bs o2 hstep _ ih =>
    obtain ⟨e1, e2, e3, e4⟩ := C20_exactly_next hstep
    simp only [List.length_cons] at hlen ⊢
    have e5 : o1.st.nextSlot = o.st.nextSlot + 1 := by
      rw [e4, e1]; exact Nat.mod_eq_of_lt (by omega)
    obtain ⟨i1, i2, i3⟩ := ih (by omega)
    refine ⟨by omega, ?_, ?_⟩
    · rw [List.map_cons, i2, List.range'_succ, e1, e5]
    · intro _
      cases bs with
      | nil =>
        rename_i hh _
        cases hh
        simp only [List.length_nil]
        omega
      | cons c cs => have := i3 (by simp); omega

/-- **C20.** After `n` successful calls from a fresh oracle, exactly the slots from the deployment
slot on were processed, each once and in order, and the latest one is deployment slot + n - 1. -/
theorem C20_after_n_slots {E cfg bs o'} (h : Hist E (newOracle cfg) bs o') (hne : bs ≠ [])
    (hlen : cfg.depSlot + bs.length < 18446744073709551616) :
    bs.map (·.dutySlot) = List.range' cfg.depSlot bs.length ∧
    o'.st.latestSlot = cfg.depSlot + bs.length - 1 ∧ o'.st.nextSlot = cfg.depSlot + bs.length := by
  obtain ⟨h1, h2, h3⟩ := hist_slots h hlen
  have := h3 hne
  exact ⟨h2, by simp only [newOracle] at this; omega, h1⟩

/-- four blocks: slots 12000000 to 12000003 -/
example : Sample.final.st.latestSlot = 12000003 ∧ Sample.blocks.length = 4 ∧
    Hist Sample.env (newOracle Sample.cfg) Sample.blocks Sample.final ∧
    (∃ o' n, advanceState Sample.env (newOracle Sample.cfg) Sample.b0 = .ok (o', some n)) ∧
    Sample.b1.dutySlot ≠ (newOracle Sample.cfg).st.nextSlot := by
  refine ⟨by decide +kernel, rfl, Sample.hist, ?_, by decide⟩
  obtain ⟨o', n, h, _⟩ := Sample.ex_slot (E := Sample.env) (o := newOracle Sample.cfg)
    (b := Sample.b0) (P := fun _ => true) (by decide +kernel)
  exact ⟨o', n, h⟩

/-! ### C21 A failed slot leaves no trace -/

/-- a failing configuration check without fee event changes nothing -/
theorem validateConfig_err {o o1 : Oracle} {b : FullBlock} (h : validateConfig o b = .ok (o1, false))
    (hf : b.events.poolFee = []) : o1 = o := by
  unfold validateConfig at h
  simp only [hf] at h
  split at h
  · simp only [Except.ok.injEq, Prod.mk.injEq, and_true] at h; exact h.symm
  · rw [bind_ok] at h
    obtain ⟨r, hr, h⟩ := h
    split at h
    · simp only [Except.ok.injEq, Prod.mk.injEq, and_true] at h; exact h.symm
    · split at h
      · simp only [Except.ok.injEq, Prod.mk.injEq, and_true] at h; exact h.symm
      · split at h
        · simp only [Except.ok.injEq, Prod.mk.injEq, and_true] at h; exact h.symm
        · simp at h

/-- **C21** (partial: blocks without fee event and slots without cleanup; otherwise it is false, see
`C21_false_fee` and `C21_false_cleanup`). If processing returns an error, nothing has changed. -/
theorem C21_failed_slot_partial {E : Env} {o o' : Oracle} {b : FullBlock}
    (h : advanceState E o b = .ok (o', none)) (hf : b.events.poolFee = [])
    (hcl : o.st.nextSlot % 1200 ≠ 0) : o' = o := by
  unfold advanceState at h
  split at h
  · simp only [Except.ok.injEq, Prod.mk.injEq, and_true] at h; exact h.symm
  · split at h
    · simp only [Except.ok.injEq, Prod.mk.injEq, and_true] at h; exact h.symm
    · rw [bind_ok] at h
      obtain ⟨⟨o1, c⟩, hv, h⟩ := h
      simp only at h
      split at h
      · rename_i hc
        simp only [Bool.not_eq_eq_eq_not, Bool.not_true] at hc
        subst hc
        simp only [Except.ok.injEq, Prod.mk.injEq, and_true] at h
        rw [← h]; exact validateConfig_err hv hf
      · rename_i hc
        simp only [Bool.not_eq_eq_eq_not, Bool.not_true, Bool.not_eq_false] at hc
        subst hc
        rcases validateConfig_ok hv with ⟨rfl, _⟩ | ⟨f, hf', _⟩
        · rw [bind_ok] at h
          obtain ⟨sb, hsb, h⟩ := h
          split at h
          · simp only [Except.ok.injEq, Prod.mk.injEq, and_true] at h; exact h.symm
          · simp only [bind_ok] at h
            obtain ⟨dons, hd, s1, ha, ⟨s2, cl⟩, hc2, h⟩ := h
            obtain ⟨p, m, w, _, hf1⟩ := applyBlock_frame ha
            have hns : s1.nextSlot = o1.st.nextSlot := by
              have := congrArg State.nextSlot hf1; exact this
            rw [hns, if_neg hcl] at hc2
            simp only [Except.ok.injEq, Prod.mk.injEq] at hc2
            rw [← hc2.2] at h
            simp at h
        · rw [hf] at hf'; simp at hf'

/-- a block whose collateral event does not match: rejected without trace -/
example : ∃ b, advanceState Sample.env Sample.oracle b = .ok (Sample.oracle, none) ∧
    b.dutySlot = Sample.oracle.st.nextSlot ∧ b.events.poolFee = [] ∧
    Sample.oracle.st.nextSlot % 1200 ≠ 0 :=
  ⟨{ Sample.b1 with events := { collateral := [5] } }, by decide +kernel, rfl, rfl, by decide⟩

/-- about to process the slot of the scheduled fee change on mainnet -/
def feeOracle : Oracle :=
  { Sample.oracle with st := { Sample.st with latestSlot := 14082459, nextSlot := 14082460 } }

/-- **C21, false part.** A block with the scheduled fee change and a wrong collateral is rejected,
but the fee percentage has changed in configuration and state. -/
theorem C21_false_fee : ∃ b o', advanceState Sample.env feeOracle b = .ok (o', none) ∧
    feeOracle.st.fee = 700 ∧ o'.st.fee = 500 ∧ o'.cfg.fee = 500 := by
  obtain ⟨⟨o', n⟩, h1, h2⟩ := Sample.ex_ok
    (x := advanceState Sample.env feeOracle
      { Sample.prop 14082460 1 Sample.pool (Sample.tx (Sample.addr 50) (Sample.addr 51) 1) {} with
        events := { poolFee := [500], collateral := [5] } })
    (P := fun p => p.2 = none && p.1.st.fee = 500 && p.1.cfg.fee = 500) (by decide +kernel)
  simp only [Bool.and_eq_true, decide_eq_true_eq] at h2
  obtain ⟨⟨rfl, h3⟩, h4⟩ := h2
  exact ⟨_, o', h1, rfl, h3, h4⟩

/-- the beacon node does not answer -/
def deafEnv : Env := { Sample.env with node := fun _ _ _ => none }

/-- about to process a slot divisible by 1200 -/
def cleanupOracle : Oracle :=
  { Sample.oracle with st := { Sample.st with latestSlot := 12001199, nextSlot := 12001200 } }

/-- **C21, false part.** At a cleanup slot a failing beacon node makes the slot fail after the block
was applied: validator 5's subscription stays recorded, so that retrying the slot counts it twice. -/
theorem C21_false_cleanup : ∃ b o', advanceState deafEnv cleanupOracle b = .ok (o', none) ∧
    o'.st.nextSlot = cleanupOracle.st.nextSlot ∧
    (VMap.get o'.st.vals 5).map (·.pend) = some 1000 ∧
    (VMap.get cleanupOracle.st.vals 5).map (·.pend) = some 0 ∧ o'.st.subs.length = 1 := by
  obtain ⟨⟨o', n⟩, h1, h2⟩ := Sample.ex_ok
    (x := advanceState deafEnv cleanupOracle
      { Sample.prop 12001200 7 Sample.builder (Sample.tx Sample.builder (Sample.addr 77) 900)
          { subs := [⟨5, 1000, Sample.addr 5, 100⟩] } with
        valsSubs := [some (Sample.bval 5)] })
    (P := fun p => p.2 = none && p.1.st.nextSlot = cleanupOracle.st.nextSlot &&
      (VMap.get p.1.st.vals 5).map (·.pend) = some 1000 && p.1.st.subs.length = 1) (by decide +kernel)
  simp only [Bool.and_eq_true, decide_eq_true_eq] at h2
  obtain ⟨⟨⟨rfl, h3⟩, h4⟩, h5⟩ := h2
  exact ⟨_, o', h1, h3, h4, rfl, h5⟩

/-! ### C22 Checkpoint cadence -/

/-- **C22.** After any non-empty history from a fresh oracle (deployed after slot 0, with a positive
checkpoint size), a checkpoint is reported exactly when the latest processed slot is the deployment
slot plus a multiple of the checkpoint size; no error is returned. -/
theorem C22_checkpoint_cadence {E cfg bs o'} (h : Hist E (newOracle cfg) bs o') (hne : bs ≠ [])
    (hlen : cfg.depSlot + bs.length < 18446744073709551616) (h0 : 0 < cfg.depSlot)
    (hsz : 0 < cfg.cpSize) :
    ∃ c, isCheckpoint o' = .ok (some c) ∧
      (c = true ↔ ∃ k, o'.st.latestSlot = cfg.depSlot + k * cfg.cpSize) := by
  obtain ⟨_, h2, _⟩ := C20_after_n_slots h hne hlen
  have hcfg : o'.cfg.depSlot = cfg.depSlot ∧ o'.cfg.cpSize = cfg.cpSize := by
    have : ∀ {o bs o'}, Hist E o bs o' → o'.cfg.depSlot = o.cfg.depSlot ∧ o'.cfg.cpSize = o.cfg.cpSize := by
      intro o bs o' h
      induction h with
      | nil => exact ⟨rfl, rfl⟩
      | cons hs _ ih =>
        obtain ⟨_, _, _, _, _, _, _, _, hc, _⟩ := slot_frame hs
        rw [ih.1, ih.2, hc]; exact ⟨rfl, rfl⟩
    exact this h
  have hlt : 0 < bs.length := List.length_pos_iff.mpr hne
  unfold isCheckpoint
  rw [hcfg.1, hcfg.2, if_neg (by omega), if_neg (by omega), if_neg (by omega)]
  refine ⟨_, rfl, ?_⟩
  rw [decide_eq_true_iff]
  constructor
  · intro hm
    refine ⟨(o'.st.latestSlot - cfg.depSlot) / cfg.cpSize, ?_⟩
    have := Nat.div_add_mod (o'.st.latestSlot - cfg.depSlot) cfg.cpSize
    rw [hm, Nat.mul_comm] at this
    omega
  · rintro ⟨k, hk⟩
    rw [hk, Nat.add_sub_cancel_left, Nat.mul_mod_left]

/-- the very first slot is a checkpoint, the fourth is not -/
example : (∃ o', Hist Sample.env (newOracle Sample.cfg) [Sample.b0] o' ∧
      (isCheckpoint o').toOption = some (some true)) ∧
    (isCheckpoint Sample.final).toOption = some (some false) := by
  constructor
  · obtain ⟨o', h1, h2⟩ := Sample.ex_hist (E := Sample.env) (o := newOracle Sample.cfg)
      (bs := [Sample.b0]) (P := fun o' => (isCheckpoint o').toOption = some (some true))
      (by decide +kernel)
    exact ⟨o', h1, by simpa using h2⟩
  · decide +kernel

/-! ### C23 Histories are append-only and complete -/

/-- **C23.** After processing blocks `bs`: the recorded events are the earlier ones followed by all
events of `bs` in order; donations and the three block lists only got longer; and the blocks added
to the three lists together are, slot by slot, at most one per processed block. -/
theorem C23_append_only {E o bs o'} (h : Hist E o bs o') :
    o'.st.subs = o.st.subs ++ bs.flatMap (·.events.subs) ∧
    o'.st.unsubs = o.st.unsubs ++ bs.flatMap (·.events.unsubs) ∧
    o'.st.ether = o.st.ether ++ bs.flatMap (·.events.ether) ∧
    (∃ d, o'.st.donations = o.st.donations ++ d) ∧
    ∃ p m w, o'.st.proposed = o.st.proposed ++ p ∧ o'.st.missed = o.st.missed ++ m ∧
      o'.st.wrongFee = o.st.wrongFee ++ w ∧
      ((p ++ m ++ w).map (·.slot)).Subperm (bs.map (·.dutySlot)) := by
  induction h with
  | nil => simp
  | @cons o b o1 n bs o2 hstep _ ih =>
    obtain ⟨sb, dons, p, m, w, hsb, _, hrec, _, h5, _, h7, _⟩ := slot_frame hstep
    obtain ⟨i1, i2, i3, ⟨d, i4⟩, p', m', w', i5, i6, i7, i8⟩ := ih
    have e1 : o1.st.subs = o.st.subs ++ b.events.subs := by
      have := congrArg State.subs h5; exact this
    have e2 : o1.st.unsubs = o.st.unsubs ++ b.events.unsubs := by
      have := congrArg State.unsubs h5; exact this
    have e3 : o1.st.ether = o.st.ether ++ b.events.ether := by
      have := congrArg State.ether h5; exact this
    have e4 : o1.st.donations = o.st.donations ++ dons := by
      have := congrArg State.donations h5; exact this
    have e5 : o1.st.proposed = o.st.proposed ++ p := by
      have := congrArg State.proposed h5; exact this
    have e6 : o1.st.missed = o.st.missed ++ m := by
      have := congrArg State.missed h5; exact this
    have e7 : o1.st.wrongFee = o.st.wrongFee ++ w := by
      have := congrArg State.wrongFee h5; exact this
    refine ⟨by rw [i1, e1]; simp, by rw [i2, e2]; simp, by rw [i3, e3]; simp,
      ⟨dons ++ d, by rw [i4, e4]; simp⟩, p ++ p', m ++ m', w ++ w', by rw [i5, e5]; simp,
      by rw [i6, e6]; simp, by rw [i7, e7]; simp, ?_⟩
    have hslot : sb.slot = b.dutySlot := (summarize_slot hsb).1
    have hone : p ++ m ++ w = [] ∨ p ++ m ++ w = [sb] := by
      rw [hrec.prop]
      by_cases ht : sb.type = .okPool ∨ sb.type = .okPoolBls
      · rw [if_pos ht]
        have hm : m = [] := by
          rcases hrec.miss with h | ⟨_, h⟩
          · exact h
          · rw [h] at ht; simp at ht
        have hw : w = [] := by
          rcases hrec.wrong with h | ⟨_, h⟩
          · exact h
          · rw [h] at ht; simp at ht
        rw [hm, hw]; simp
      · rw [if_neg ht]
        rcases hrec.miss with h | ⟨h, hm⟩
        · rcases hrec.wrong with h' | ⟨h', _⟩ <;> rw [h, h'] <;> simp
        · rcases hrec.wrong with h' | ⟨_, hw⟩
          · rw [h, h']; simp
          · rw [hm] at hw; simp at hw
    have hperm : ((p ++ p') ++ (m ++ m') ++ (w ++ w')).Perm ((p ++ m ++ w) ++ (p' ++ m' ++ w')) := by
      rw [List.perm_iff_count]
      intro a
      simp only [List.count_append]
      omega
    refine ((hperm.map (·.slot)).subperm).trans ?_
    rw [List.map_append, List.map_cons]
    rcases hone with h | h
    · rw [h, List.map_nil, List.nil_append]
      exact i8.trans (List.sublist_cons_self _ _).subperm
    · rw [h, List.map_singleton, hslot, List.singleton_append]
      exact (List.subperm_cons _).mpr i8

/-- **C23.** From a fresh oracle, no slot is recorded twice in the three block lists taken
together. -/
theorem C23_recorded_once {E cfg bs o'} (h : Hist E (newOracle cfg) bs o')
    (hlen : cfg.depSlot + bs.length < 18446744073709551616) :
    ((o'.st.proposed ++ o'.st.missed ++ o'.st.wrongFee).map (·.slot)).Nodup := by
  obtain ⟨_, _, _, _, p, m, w, h1, h2, h3, h4⟩ := C23_append_only h
  obtain ⟨_, hr, _⟩ := hist_slots h hlen
  have e : o'.st.proposed ++ o'.st.missed ++ o'.st.wrongFee = p ++ m ++ w := by
    rw [h1, h2, h3]; rfl
  rw [e]
  obtain ⟨l, hl, hsub⟩ := h4
  rw [← hl.nodup_iff]
  refine hsub.nodup ?_
  rw [hr]; exact List.nodup_range'

/-- the sample history records two proposed, one missed and one wrong-fee block -/
example : (Sample.final.st.proposed.map (·.slot), Sample.final.st.missed.map (·.slot),
    Sample.final.st.wrongFee.map (·.slot)) = ([12000000, 12000001], [12000002], [12000003]) ∧
    Hist Sample.env (newOracle Sample.cfg) Sample.blocks Sample.final :=
  ⟨by decide +kernel, Sample.hist⟩

/-! ### C33 Fee changes only by schedule -/

theorem find_one (k slot : Nat) (y x : Int) :
    (([(k, y)] : List (Nat × Int)).find? fun p => p.1 == slot).map (·.2) = some x ↔ slot = k ∧ x = y := by
  by_cases h : k = slot
  · rw [List.find?_cons_of_pos (by simpa using h)]
    simp [h, eq_comm]
  · rw [List.find?_cons_of_neg (by simpa using h)]
    simp [eq_comm, h]

theorem scheduledFee_iff {net slot x} : scheduledFee net slot = some x ↔ FeeChange net slot x := by
  unfold scheduledFee feeSchedule FeeChange
  by_cases h1 : net = mainnet
  · subst h1
    have h2 : ¬ (mainnet = b!"hoodi") := by decide
    rw [if_pos rfl, find_one]
    constructor
    · exact fun h => Or.inl ⟨rfl, h⟩
    · rintro (h | h)
      · exact h.2
      · exact absurd h.1 h2
  · rw [if_neg h1]
    by_cases h2 : net = hoodi
    · subst h2
      rw [if_pos rfl, find_one]
      constructor
      · exact fun h => Or.inr ⟨rfl, h⟩
      · rintro (h | h)
        · exact absurd h.1 h1
        · exact h.2
    · rw [if_neg h2]
      constructor
      · intro h; simp at h
      · rintro (h | h)
        · exact absurd h.1 h1
        · exact absurd h.1 h2

theorem i64_eq_500 {f : Int} : i64 f = 500 ↔ f % 18446744073709551616 = 500 := by
  unfold i64
  have := Int.bmod_def f 18446744073709551616
  rw [this]
  norm_num
  split <;> omega

/-- what a successful check establishes about the other settings -/
theorem validateConfig_checks {o o1 : Oracle} {b : FullBlock} (h : validateConfig o b = .ok (o1, true)) :
    (∀ r ∈ b.events.feeRecipient, SameAddr o.cfg.poolFeesAddr r) ∧
    (∀ n ∈ b.events.cpSize, n = o.cfg.cpSize) ∧ (∀ c ∈ b.events.collateral, c = o.cfg.collateral) := by
  have key : ∀ o2 : Oracle, (o2.cfg.poolFeesAddr = o.cfg.poolFeesAddr ∧ o2.cfg.cpSize = o.cfg.cpSize ∧
      o2.cfg.collateral = o.cfg.collateral) → b.events.feeRecipient.length ≤ 1 →
      ((do
        let recOk ← (match b.events.feeRecipient with
          | [] => .ok true
          | r :: _ => equals o2.cfg.poolFeesAddr r)
        if !recOk then .ok (o2, false)
        else if b.events.cpSize.any (fun n => o2.cfg.cpSize ≠ n) then .ok (o2, false)
        else if b.events.collateral.any (fun c => o2.cfg.collateral ≠ c) then .ok (o2, false)
        else .ok (o2, true)) : M (Oracle × Bool)) = .ok (o1, true) →
      (∀ r ∈ b.events.feeRecipient, SameAddr o.cfg.poolFeesAddr r) ∧
      (∀ n ∈ b.events.cpSize, n = o.cfg.cpSize) ∧ (∀ c ∈ b.events.collateral, c = o.cfg.collateral) := by
    intro o2 ⟨e1, e2, e3⟩ hl h
    rw [bind_ok] at h
    obtain ⟨r, hr, h⟩ := h
    split at h
    · simp at h
    · rename_i hr'
      simp only [Bool.not_eq_eq_eq_not, Bool.not_true, Bool.not_eq_false] at hr'
      subst hr'
      split at h
      · simp at h
      · rename_i h2
        split at h
        · simp at h
        · rename_i h3
          refine ⟨?_, ?_, ?_⟩
          · intro r hmem
            cases hfr : b.events.feeRecipient with
            | nil => rw [hfr] at hmem; cases hmem
            | cons a as =>
              rw [hfr] at hr hmem hl
              simp only [List.length_cons] at hl
              have : as = [] := List.length_eq_zero_iff.mp (by omega)
              subst this
              simp only [List.mem_singleton] at hmem
              subst hmem
              rw [← e1]; exact equals_true hr
          · intro n hn
            by_contra hne
            apply h2
            rw [List.any_eq_true]
            exact ⟨n, hn, by rw [e2]; simpa using fun e => hne e.symm⟩
          · intro c hc
            by_contra hne
            apply h3
            rw [List.any_eq_true]
            exact ⟨c, hc, by rw [e3]; simpa using fun e => hne e.symm⟩
  unfold validateConfig at h
  simp only at h
  split at h
  · simp at h
  · rename_i hlen
    simp only [gt_iff_lt, not_or, not_lt] at hlen
    cases hpf : b.events.poolFee with
    | nil =>
      rw [hpf] at h
      exact key o ⟨rfl, rfl, rfl⟩ hlen.2.1 h
    | cons f fs =>
      rw [hpf] at h
      simp only at h
      cases hsf : scheduledFee o.cfg.network b.dutySlot with
      | none => rw [hsf] at h; simp at h
      | some e =>
        rw [hsf] at h
        simp only at h
        by_cases he : e = i64 f
        · rw [if_neg (by simpa using he)] at h
          exact key { cfg := { o.cfg with fee := i64 f }, st := { o.st with fee := i64 f } }
            ⟨rfl, rfl, rfl⟩ hlen.2.1 h
        · rw [if_pos (by simpa using he)] at h
          simp at h

/-- **C33.** In a processed slot the fee stays as it is, or the block has exactly one fee event, the
schedule of the network lists this slot, and event and schedule agree (the event's amount modulo
2^64, as the program reads it); then the new fee is the scheduled one. Blocks that announce another
fee recipient, checkpoint size or collateral are never processed. Nothing else in the configuration
changes. -/
theorem C33_fee_by_schedule {E o b o' n} (h : advanceState E o b = .ok (o', some n)) :
    ((o'.st.fee = o.st.fee ∧ o'.cfg.fee = o.cfg.fee ∧ b.events.poolFee = []) ∨
      ∃ f x, b.events.poolFee = [f] ∧ FeeChange o.cfg.network o.st.nextSlot x ∧
        f % 18446744073709551616 = x ∧ o'.st.fee = x ∧ o'.cfg.fee = x) ∧
    o'.cfg = { o.cfg with fee := o'.cfg.fee } ∧
    (∀ r ∈ b.events.feeRecipient, SameAddr o.cfg.poolFeesAddr r) ∧
    (∀ n ∈ b.events.cpSize, n = o.cfg.cpSize) ∧
    (∀ c ∈ b.events.collateral, c = o.cfg.collateral) := by
  obtain ⟨o1, sb, dons, s1, s2, h1, h2, hv, _⟩ := advanceState_ok h
  obtain ⟨_, _, _, _, _, _, _, _, hc, _, _, _, hf⟩ := slot_frame h
  refine ⟨?_, hc, validateConfig_checks hv⟩
  rcases hf with h | ⟨f, e1, e2, e3, e4⟩
  · exact Or.inl h
  · right
    refine ⟨f, i64 f, e1, ?_, ?_, e3, e4⟩
    · rw [h2]; exact scheduledFee_iff.mp e2
    · have := scheduledFee_eq e2
      rw [this]; exact i64_eq_500.mp this

/-- **C33.** Configuration fee and state fee stay equal over any history. -/
theorem C33_fees_equal {E o bs o'} (h : Hist E o bs o') (h0 : o.cfg.fee = o.st.fee) :
    o'.cfg.fee = o'.st.fee := by
  induction h with
  | nil => exact h0
  | cons hs _ ih =>
    apply ih
    rcases (C33_fee_by_schedule hs).1 with ⟨h1, h2, _⟩ | ⟨f, x, _, _, _, h1, h2⟩
    · rw [h1, h2]; exact h0
    · rw [h1, h2]

/-- the scheduled change on mainnet goes through -/
example : ∃ b o' n, advanceState Sample.env feeOracle b = .ok (o', some n) ∧
    b.events.poolFee = [500] ∧ feeOracle.st.fee = 700 ∧ o'.st.fee = 500 := by
  obtain ⟨o', n, h1, h2⟩ := Sample.ex_slot (E := Sample.env) (o := feeOracle)
    (b := { Sample.prop 14082460 1 Sample.pool (Sample.tx (Sample.addr 50) (Sample.addr 51) 1) {} with
        events := { poolFee := [500] } }) (P := fun o' => o'.st.fee = 500) (by decide +kernel)
  exact ⟨_, o', n, h1, rfl, rfl, by simpa using h2⟩

end Verif
