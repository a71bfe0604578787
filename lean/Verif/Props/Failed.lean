import Verif.Props.Refinement
import Verif.Props.Slots
import Verif.Props.Determinism
import Verif.Props.Fetch
import Verif.Lemmas.Total2
import Verif.Lemmas.CleanSpec
import Verif.Spec.Failed
/-
C21: exactly what a failed slot leaves behind.
-/
namespace Verif
open VMap

theorem getSet_none {E : Env} {t slot req} (h : getSet E t slot req = none) : req = [] ∨ Unanswered E slot req := by
  unfold getSet at h
  split at h
  · exact Or.inl (by assumption)
  · rename_i hne
    right
    refine ⟨t, ?_⟩
    split at h
    · exact Or.inl (by assumption)
    · rename_i r hr
      right
      refine ⟨r, hr, ?_⟩
      split at h
      · rename_i h0
        obtain ⟨i, l, rfl⟩ := List.exists_cons_of_ne_nil hne
        exact ⟨i, by simp, by rw [h0]; simp⟩
      · split at h
        · simp at h
        · rename_i hall
          simp only [List.all_eq_true, List.any_eq_true, beq_iff_eq, not_forall] at hall
          obtain ⟨i, hi, hx⟩ := hall
          exact ⟨i, hi, fun v hv e => hx ⟨v, hv, e⟩⟩

/-- where a cleanup loop that failed stopped -/
theorem cleanLoop_stopped {E slot cs} {l : List BVal} {s s' : State} {t t' : Int}
    (h : cleanLoop E slot cs l s t = .ok (s', t', false)) :
    ∃ (l1 : List BVal) (u : BVal) (s1 : State) (t1 : Int) (v : Validator), cleanLoop E slot cs l1 s t = .ok (s1, t1, true) ∧ u.status.isActive = false ∧
      VMap.get s1.vals u.index = some v ∧ v.pend ≠ 0 ∧ cleanOne E slot cs s1 t1 u.index = .ok (s', t', false) := by
  induction l generalizing s t with
  | nil => simp [cleanLoop] at h
  | cons u l ih =>
    simp only [cleanLoop] at h
    split at h
    · rename_i hact
      obtain ⟨l1, u', s1, t1, v, h1, h2⟩ := ih h
      exact ⟨u :: l1, u', s1, t1, v, by simp only [cleanLoop]; rw [if_pos hact]; exact h1, h2⟩
    · rename_i hact
      rw [bind_ok] at h
      obtain ⟨p, hp, h⟩ := h
      split at h
      · rename_i hz
        obtain ⟨l1, u', s1, t1, v, h1, h2⟩ := ih h
        refine ⟨u :: l1, u', s1, t1, v, ?_, h2⟩
        simp only [cleanLoop]
        rw [if_neg hact, hp]
        dsimp only [bind, Except.bind]
        rw [if_pos hz]; exact h1
      · rename_i hz
        rw [bind_ok] at h
        obtain ⟨⟨s1, t1, go⟩, h1, h⟩ := h
        simp only at h
        split at h
        · rename_i hgo
          subst hgo
          obtain ⟨l1, u', s2, t2, v, h3, h4⟩ := ih h
          refine ⟨u :: l1, u', s2, t2, v, ?_, h4⟩
          simp only [cleanLoop]
          rw [if_neg hact, hp]
          dsimp only [bind, Except.bind]
          rw [if_neg hz, h1]
          exact h3
        · rename_i hgo
          simp only [Except.ok.injEq, Prod.mk.injEq, and_true] at h
          obtain ⟨rfl, rfl⟩ := h
          obtain ⟨v, hv, hpv⟩ := pendOf_ok hp
          refine ⟨[], u, s, t, v, rfl, by simpa using hact, hv, by rw [hpv]; exact hz, ?_⟩
          rw [h1]
          simp only [Bool.not_eq_true] at hgo
          rw [hgo]

theorem cleanOne_stopped {E slot cs i} {s s' : State} {t t' : Int}
    (h : cleanOne E slot cs s t i = .ok (s', t', false)) :
    ∃ j, LastTarget cs i j ∧ VMap.get (s.advance i .unsubscribe).vals j = none ∧ Unanswered E slot [j] ∧ t' = t ∧
      s' = { s with
        vals := VMap.modify s.vals i fun v => { v with status := afterLeaving v.status }
        tick := s.tick + 1 } := by
  have hadv : (s.advance i .unsubscribe) = { s with
      vals := VMap.modify s.vals i fun v => { v with status := afterLeaving v.status } } := by
    simp only [State.advance, State.modVal]
    congr 2
    funext v
    rw [transition_unsubscribe]
  unfold cleanOne at h
  simp only [bind_ok] at h
  obtain ⟨p, hp, h⟩ := h
  split at h
  · simp [bind_ok] at h
  · rename_i j hj
    obtain ⟨hlt, _⟩ := consolTarget_some hj
    split at h
    · simp [bind_ok] at h
    · split at h
      · rename_i hnt
        have hnone : VMap.get (s.advance i .unsubscribe).vals j = none := by
          simpa [State.isTracked] using hnt
        split at h
        · rename_i hg
          simp only [Except.ok.injEq, Prod.mk.injEq, and_true] at h
          obtain ⟨rfl, rfl⟩ := h
          exact ⟨j, hlt, hnone, (getSet_none hg).resolve_left (by simp), rfl, by rw [hadv]⟩
        · rename_i r hg
          split at h
          · rename_i hf
            simp only [Except.ok.injEq, Prod.mk.injEq, and_true] at h
            obtain ⟨rfl, rfl⟩ := h
            obtain ⟨k1, _, k2⟩ := getSet_some hg
            obtain ⟨v, hv, hvi⟩ := k2 j (by simp)
            have := List.find?_eq_none.mp hf v hv
            simp [hvi] at this
          · split at h
            · simp at h
            · simp [bind_ok] at h
      · split at h
        · simp [bind_ok] at h
        · simp at h

theorem cleanup_failed {E : Env} (hE : ValidEnv E) (hX : ExactEnv E) (hC : NoSelfConsol E) {net slot} {s s' : State}
    (hs : MapOK s) (h : cleanup E net s slot = .ok (s', false)) :
    ∃ lost, InterruptedCleanup E net slot s s' lost := by
  have hf : slotOrZero (slotFork1 net) = cleanupFrom net := by
    unfold slotOrZero slotFork1 cleanupFrom mainnet holesky hoodi
    split
    · rfl
    · split
      · rfl
      · split <;> rfl
  have he : slotOrZero (slotElectra net) = consolidationsFrom net := by
    unfold slotOrZero slotElectra consolidationsFrom mainnet hoodi
    split
    · rfl
    · split <;> rfl
  unfold cleanup at h
  rw [hf, he] at h
  split at h
  · simp at h
  · rename_i hge
    have hge : cleanupFrom net ≤ slot := by omega
    simp only at h
    split at h
    · simp at h
    · rename_i hne
      have hvals : s.vals ≠ [] := by
        intro hv
        apply hne
        have := (shuffle_perm hE s.tick (VMap.keys s.vals)).length_eq
        rw [hv] at this
        exact List.length_eq_zero_iff.mp (by rw [hv]; exact this)
      split at h
      · rename_i hcs
        simp only [Except.ok.injEq, Prod.mk.injEq, and_true] at h
        subst h
        refine ⟨0, .unanswered (req := []) hge hvals (Or.inl ⟨s.tick, ?_⟩)⟩
        split at hcs
        · rename_i hle; exact ⟨hle, hcs⟩
        · simp at hcs
      · rename_i cs hcs
        split at h
        · rename_i hvs
          simp only [Except.ok.injEq, Prod.mk.injEq, and_true] at h
          subst h
          refine ⟨0, .unanswered hge hvals (Or.inr ⟨?_, (getSet_none hvs).resolve_left hne⟩)⟩
          intro i
          rw [get_isSome_iff, (shuffle_perm hE s.tick (VMap.keys s.vals)).mem_iff]
        · rename_i vs hvs
          simp only [bind_ok] at h
          obtain ⟨⟨s1, tot, go⟩, h1, h⟩ := h
          simp only at h
          have hgo : go = false ∧ s1 = s' := by
            cases go with
            | false => simpa using h
            | true =>
              exfalso
              simp only [Bool.not_true, Bool.false_eq_true, if_false] at h
              split at h
              · simp [bind_ok] at h
              · simp at h
          obtain ⟨rfl, rfl⟩ := hgo
          obtain ⟨l1, u, s2, t2, v, k1, k2, k3, k4, k5⟩ := cleanLoop_stopped h1
          obtain ⟨j, q1, q2, q3, q4, q5⟩ := cleanOne_stopped k5
          have hcs1 : consolidationsFrom net ≤ slot → E.consol s.tick slot = some cs := by
            intro hle; rw [if_pos hle] at hcs; exact hcs
          have hcs2 : slot < consolidationsFrom net → cs = [] := by
            intro hlt
            rw [if_neg (by omega)] at hcs
            simpa using hcs.symm
          have hself : ∀ p ∈ cs, p.1 ≠ p.2 := by
            by_cases hle : consolidationsFrom net ≤ slot
            · exact hC _ _ _ (hcs1 hle)
            · rw [hcs2 (by omega)]; simp
          have hle : consolidationsFrom net ≤ slot := by
            by_contra hlt
            obtain ⟨a, c, e, _⟩ := q1
            rw [hcs2 (by omega)] at e
            simp at e
          obtain ⟨e1, e2⟩ := cleanLoop_effects hself (s := { s with tick := s.tick + 2 }) hs k1
          rw [sub_zero] at e1
          have hj : VMap.get s2.vals j = none := by
            simp only [State.advance, State.modVal] at q2
            by_cases hji : j = u.index
            · subst hji
              rw [get_modify_self] at q2
              rw [k3] at q2; simp at q2
            · rwa [get_modify_ne _ _ hji] at q2
          subst q4
          rw [q5]
          exact ⟨_, .lookup hle ⟨_, hcs1 hle⟩ e1 k2 k3 k4 q1 hj q3⟩

theorem i64_dvd (x : Int) : 18446744073709551616 ∣ x - i64 x := by
  have := Int.bmod_emod (x := x) (m := 18446744073709551616)
  unfold i64
  omega

theorem validateConfig_refused {o o1 : Oracle} {b : FullBlock} (h : validateConfig o b = .ok (o1, false)) :
    ¬ ConfigOK o.cfg b.dutySlot b.events ∧ (o1 = o ∨ ∃ f, Announces o.cfg.network b f ∧
      o1 = ⟨{ o.cfg with fee := f }, { o.st with fee := f }⟩) := by
  constructor
  · intro hc
    obtain ⟨o2, h2, _⟩ := validateConfig_total hc
    rw [h] at h2
    simp at h2
  · unfold validateConfig at h
    simp only at h
    split at h
    · simp only [Except.ok.injEq, Prod.mk.injEq, and_true] at h; exact Or.inl h.symm
    · rename_i hlen
      have tail : ∀ {o2 : Oracle}, (do
          let recOk ← (match b.events.feeRecipient with
            | [] => .ok true
            | r :: _ => equals o2.cfg.poolFeesAddr r)
          if !recOk then .ok (o2, false)
          else if b.events.cpSize.any (fun n => o2.cfg.cpSize ≠ n) then .ok (o2, false)
          else if b.events.collateral.any (fun c => o2.cfg.collateral ≠ c) then .ok (o2, false)
          else .ok (o2, true) : M (Oracle × Bool)) = .ok (o1, false) → o1 = o2 := by
        intro o2 h
        rw [bind_ok] at h
        obtain ⟨r, _, h⟩ := h
        split at h
        · simp only [Except.ok.injEq, Prod.mk.injEq, and_true] at h; exact h.symm
        · split at h
          · simp only [Except.ok.injEq, Prod.mk.injEq, and_true] at h; exact h.symm
          · split at h
            · simp only [Except.ok.injEq, Prod.mk.injEq, and_true] at h; exact h.symm
            · simp at h
      cases hpf : b.events.poolFee with
      | nil =>
        rw [hpf] at h
        exact Or.inl (tail h)
      | cons f l =>
        have hl : l = [] := by
          rw [hpf] at hlen
          simp only [List.length_cons, gt_iff_lt, not_or, not_lt] at hlen
          exact List.length_eq_zero_iff.mp (by omega)
        subst hl
        rw [hpf] at h
        simp only at h
        cases hsf : scheduledFee o.cfg.network b.dutySlot with
        | none =>
          rw [hsf] at h
          simp only [Except.ok.injEq, Prod.mk.injEq, and_true] at h; exact Or.inl h.symm
        | some x =>
          rw [hsf] at h
          simp only at h
          by_cases hx : x = i64 f
          · rw [if_neg (by simpa using hx)] at h
            have hch := scheduledFee_iff.mp hsf
            exact Or.inr ⟨i64 f, ⟨f, hpf, i64_dvd f, hx ▸ hch⟩, tail h⟩
          · rw [if_pos hx] at h
            simp only [Except.ok.injEq, Prod.mk.injEq, and_true] at h; exact Or.inl h.symm

/-- **C21**, exactly: what a slot whose processing returns an error leaves behind, and why it failed. Either nothing at
all (another slot, or the contract was reconfigured), or the agreed new fee that came with a reconfiguration, or
everything the block contains, when the beacon node did not answer the cleanup. The slot counters never move. -/
theorem C21_exact {E : Env} (hE : ValidEnv E) (hX : ExactEnv E) (hC : NoSelfConsol E) {o o' : Oracle} {b : FullBlock}
    (hs : MapOK o.st) (h5 : FiveStates o.st) (hg : GasOK b) (h : advanceState E o b = .ok (o', none)) :
    FailedSlot E o b o' ∧ o'.st.nextSlot = o.st.nextSlot ∧ o'.st.latestSlot = o.st.latestSlot ∧
      o'.st.latestBlock = o.st.latestBlock := by
  unfold advanceState at h
  split at h
  · rename_i hn
    simp only [Except.ok.injEq, Prod.mk.injEq, and_true] at h
    subst h
    exact ⟨.otherSlot (Or.inr hn), rfl, rfl, rfl⟩
  · split at h
    · rename_i hn
      simp only [Except.ok.injEq, Prod.mk.injEq, and_true] at h
      subst h
      exact ⟨.otherSlot (Or.inl (Ne.symm hn)), rfl, rfl, rfl⟩
    · rename_i hslot
      rw [bind_ok] at h
      obtain ⟨⟨o1, c⟩, hv, h⟩ := h
      simp only at h
      split at h
      · rename_i hc
        simp only [Bool.not_eq_eq_eq_not, Bool.not_true] at hc
        subst hc
        simp only [Except.ok.injEq, Prod.mk.injEq, and_true] at h
        subst h
        obtain ⟨k1, rfl | ⟨f, k2, rfl⟩⟩ := validateConfig_refused hv
        · exact ⟨.reconfigured k1, rfl, rfl, rfl⟩
        · exact ⟨.newFee k1 k2, rfl, rfl, rfl⟩
      · rename_i hc
        simp only [Bool.not_eq_eq_eq_not, Bool.not_true, Bool.not_eq_false] at hc
        subst hc
        have hfee : ∃ f : Option Int, ((b.events.poolFee = [] ∧ f = none) ∨
              ∃ x, Announces o.cfg.network b x ∧ f = some x) ∧
            o1 = ⟨{ o.cfg with fee := f.getD o.cfg.fee }, { o.st with fee := f.getD o.st.fee }⟩ := by
          rcases validateConfig_ok hv with ⟨rfl, h0⟩ | ⟨f, hf, hsf, rfl⟩
          · exact ⟨none, Or.inl ⟨h0, rfl⟩, rfl⟩
          · exact ⟨some (i64 f), Or.inr ⟨_, ⟨f, hf, i64_dvd f, scheduledFee_iff.mp hsf⟩, rfl⟩, rfl⟩
        obtain ⟨f, hf, rfl⟩ := hfee
        simp only [bind_ok] at h
        obtain ⟨sb, hsb, h⟩ := h
        split at h
        · rename_i hne
          exact absurd ((not_not.mp hslot).trans (summarize_slot hsb).1.symm) hne
        · simp only [bind_ok] at h
          obtain ⟨dons, hd, s1, ha, ⟨s2, cl⟩, hc2, h⟩ := h
          obtain ⟨p, m, w, _, hf1⟩ := applyBlock_frame ha
          obtain ⟨heff, hs1⟩ := applyBlock_effect hE hX (s := { o.st with fee := f.getD o.st.fee }) hs h5 hg hsb hd ha
          have hns : s1.nextSlot = o.st.nextSlot := by
            have := congrArg State.nextSlot hf1; exact this
          have hlb : s1.latestBlock = o.st.latestBlock := by
            have := congrArg State.latestBlock hf1; exact this
          have hls : s1.latestSlot = o.st.latestSlot := by
            have := congrArg State.latestSlot hf1; exact this
          cases cl with
          | true => simp at h
          | false =>
            simp only [Bool.not_false, if_true, Except.ok.injEq, Prod.mk.injEq, and_true] at h
            subst h
            rw [hns] at hc2
            split at hc2
            · rename_i hz
              obtain ⟨lost, hi⟩ := cleanup_failed hE hX hC hs1 hc2
              have hfr := cleanup_frame hc2
              refine ⟨.cleanup hz hf heff hi, ?_, ?_, ?_⟩
              · have := congrArg State.nextSlot hfr; exact this.trans hns
              · have := congrArg State.latestSlot hfr; exact this.trans hls
              · have := congrArg State.latestBlock hfr; exact this.trans hlb
            · simp at hc2

/-- **C21.** If the beacon node answers, a failed slot leaves nothing behind but, possibly, the agreed new fee. -/
theorem C21_answered {E : Env} (hE : ValidEnv E) (hX : ExactEnv E) (hC : NoSelfConsol E) (hN : GoodNode E)
    (hG : GoodConsol E) {o o' : Oracle} {b : FullBlock} (hs : MapOK o.st) (h5 : FiveStates o.st) (hg : GasOK b)
    (h : advanceState E o b = .ok (o', none)) :
    o' = o ∨ (¬ ConfigOK o.cfg b.dutySlot b.events ∧ ∃ f, Announces o.cfg.network b f ∧
      o' = ⟨{ o.cfg with fee := f }, { o.st with fee := f }⟩) := by
  have hno : ∀ {slot req}, req ≠ [] → ¬ Unanswered E slot req := by
    rintro slot req hr ⟨t, hx⟩
    obtain ⟨r, k1, k2, _⟩ := hN t slot req hr
    rcases hx with hx | ⟨r', hx, i, hi, hm⟩
    · rw [k1] at hx; simp at hx
    · rw [k1, Option.some.injEq] at hx
      subst hx
      obtain ⟨v, hv, e⟩ := k2 i hi
      exact hm v hv e
  cases (C21_exact hE hX hC hs h5 hg h).1 with
  | otherSlot _ => exact Or.inl rfl
  | reconfigured _ => exact Or.inl rfl
  | newFee h1 h2 => exact Or.inr ⟨h1, _, h2, rfl⟩
  | cleanup _ _ _ hi =>
    exfalso
    cases hi with
    | unanswered _ hv hx =>
      rcases hx with ⟨t, _, hx⟩ | ⟨h1, h2⟩
      · obtain ⟨cs, hcs, _⟩ := hG t o.st.nextSlot
        rw [hcs] at hx; simp at hx
      · refine hno ?_ h2
        rintro rfl
        obtain ⟨p, l, hl⟩ := List.exists_cons_of_ne_nil hv
        have := (h1 p.1).mpr (by rw [get_isSome_iff, VMap.keys, hl]; simp)
        simp at this
    | lookup _ _ _ _ _ _ _ _ hx => exact hno (by simp) hx

/-- **C21.** An interrupted cleanup loses exactly the pending balances it had collected for sharing. -/
theorem C21_interrupted_loses {E : Env} {net : Str} {slot : Nat} {s s' : State} {lost : Int} (hs : MapOK s)
    (h : InterruptedCleanup E net slot s s' lost) : owed s' + lost = owed s := by
  cases h with
  | unanswered => rw [add_zero]; rfl
  | lookup _ _ e1 _ k3 _ _ _ _ =>
    obtain ⟨m1, m2, _⟩ := e1.money (by dsimp only; exact hs)
    have e0 : owed { s with tick := s.tick + 2 } = owed s := rfl
    rw [e0] at m2
    rw [← m2]
    congr 1
    simp only [owed, pendingTotal, accTotal]
    have hp : ∀ m : VMap, (m.map fun p => p.2.pend).sum = total (·.pend) m := fun _ => rfl
    have ha : ∀ m : VMap, (m.map fun p => p.2.acc).sum = total (·.acc) m := fun _ => rfl
    simp only [hp, ha]
    rw [total_modify m1 k3, total_modify m1 k3]
    ring

/-- Validators 3 and 9 have left, 9 is consolidated into validator 50, which the node cannot find. -/
def lostEnv : Env :=
  { Sample.leftEnv 50 false with
    node := fun _ slot req => if req = [50] then none else some (req.dedup.map (Sample.leftV slot)) }

/-- **C21, false part.** Validator 3 has left, its pending balance was collected to be shared, and then the cleanup
fails at validator 9: the balance of validator 3 is gone. -/
theorem C21_false_lost : ∃ o', advanceState lostEnv Sample.leftOracle (Sample.miss 12000000 2) = .ok (o', none) ∧
    (VMap.get Sample.leftOracle.st.vals 3).map (·.pend) = some 300 ∧
    (VMap.get o'.st.vals 3).map (·.pend) = some 0 ∧ (VMap.get o'.st.vals 9).map (·.pend) = some 900 ∧
    owed o'.st = owed Sample.leftOracle.st - 300 := by
  obtain ⟨⟨o', n⟩, h1, h2⟩ := Sample.ex_ok
    (x := advanceState lostEnv Sample.leftOracle (Sample.miss 12000000 2))
    (P := fun p => p.2 = none && (VMap.get p.1.st.vals 3).map (·.pend) = some 0 &&
      (VMap.get p.1.st.vals 9).map (·.pend) = some 900 && owed p.1.st = owed Sample.leftOracle.st - 300)
    (by decide +kernel)
  simp only [Bool.and_eq_true, decide_eq_true_eq] at h2
  obtain ⟨⟨⟨rfl, h3⟩, h4⟩, h5⟩ := h2
  exact ⟨o', h1, by decide +kernel, h3, h4, h5⟩

theorem lost_valid : ValidEnv lostEnv where
  perm := (Sample.left_valid 50 false).perm
  nodup := fun t slot req r h => by
    simp only [lostEnv] at h
    split at h
    · simp at h
    · exact (Sample.left_valid 50 false).nodup t slot req r h

theorem lost_exact : ExactEnv lostEnv := by
  intro t slot req r h
  simp only [lostEnv] at h
  split at h
  · simp at h
  · exact Sample.left_exact 50 false t slot req r h

/-- That slot, as the theorem describes it. -/
example : ∃ o', advanceState lostEnv Sample.leftOracle (Sample.miss 12000000 2) = .ok (o', none) ∧
    FailedSlot lostEnv Sample.leftOracle (Sample.miss 12000000 2) o' := by
  obtain ⟨o', h, _⟩ := C21_false_lost
  exact ⟨o', h, (C21_exact lost_valid lost_exact (Sample.left_noSelf (by decide) false) Sample.st_ok
    (by intro p hp; revert p; decide +kernel) (by intro c hd rs h1; cases h1) h).1⟩

/-- a block with the agreed change of the fee and another collateral -/
def feeBlock : FullBlock :=
  { Sample.prop 14082460 1 Sample.pool (Sample.tx (Sample.addr 50) (Sample.addr 51) 1) {} with
    events := { poolFee := [500], collateral := [5] } }

/-- With a node that answers: the slot fails and the new fee stays. -/
example : ∃ o', advanceState Sample.env feeOracle feeBlock = .ok (o', none) ∧
    ∃ f, Announces feeOracle.cfg.network feeBlock f ∧
      o' = ⟨{ feeOracle.cfg with fee := f }, { feeOracle.st with fee := f }⟩ := by
  obtain ⟨⟨o', n⟩, h1, h2⟩ := Sample.ex_ok (x := advanceState Sample.env feeOracle feeBlock)
    (P := fun p => p.2 = none && p.1.st.fee = 500) (by decide +kernel)
  simp only [Bool.and_eq_true, decide_eq_true_eq] at h2
  obtain ⟨rfl, h3⟩ := h2
  refine ⟨o', h1, ?_⟩
  rcases C21_answered Sample.env_valid Sample.env_exact Sample.env_noSelf Sample.env_good Sample.env_consol
    (o := feeOracle) Sample.st_ok (by intro p hp; revert p; decide +kernel) Sample.prop_gas h1 with h | ⟨_, h⟩
  · subst h; exact absurd h3 (by decide)
  · exact h

end Verif
