import Verif.Lemmas.Dilute
import Verif.Props.Rename
import Verif.Lemmas.Money
/-
C108: a member who only sits there takes from the others.
-/
namespace Verif
open VMap

section
variable {X : Nat → Prop} {E E' : Env} {V : Nat → Nat → BVal} {K : Nat → List (Nat × Nat)}

theorem WithMore.less {o o' : Oracle} (h : WithMore X o o') (hs : MapOK o.st) (hs' : MapOK o'.st)
    (hf : 0 ≤ o.st.fee) (hf' : o.st.fee ≤ 10000) : Less X o.st.nextSlot o.st o'.st := by
  have ef : o'.st.fee = o.st.fee := by have := congrArg State.fee h.rest; exact this
  refine ⟨⟨hs, rfl, hf, by omega, by omega⟩, o'.st.vals, o'.st.tick, o'.st.stateHash, o'.st.committed, o'.st.poolFees, o'.st.ether,
    o'.st.donations, o'.st.unsubs, o'.st.fee, hs', h.records, ?_⟩
  have e := h.rest
  have := congrArg (fun s : State => { s with
    vals := o'.st.vals, tick := o'.st.tick, stateHash := o'.st.stateHash, committed := o'.st.committed
    poolFees := o'.st.poolFees, ether := o'.st.ether, donations := o'.st.donations, unsubs := o'.st.unsubs
    fee := o'.st.fee }) e
  exact this

theorem withMore_of_less {o o' : Oracle} {n} (hc : o.cfg = o'.cfg) (h : Less X n o.st o'.st)
    (he : o'.st.ether = o.st.ether) (hd : o'.st.donations = o.st.donations)
    (hu : o'.st.unsubs = o.st.unsubs) (hf : o'.st.fee = o.st.fee) : WithMore X o o' := by
  obtain ⟨_, m, t, x, c, f, le, ld, lu, g, _, hr, e⟩ := h
  rw [e] at he hd hu hf
  have hf : g = o.st.fee := hf
  have he : le = o.st.ether := he
  have hd : ld = o.st.donations := hd
  have hu : lu = o.st.unsubs := hu
  refine ⟨hc.symm, fun i => ?_, ?_⟩
  · rw [e]; exact hr i
  · rw [e, he, hd, hu, hf]; rfl

theorem validateConfig_less {o o' : Oracle} {n} (hc : o'.cfg = { o.cfg with fee := o'.cfg.fee })
    (h : Less X n o.st o'.st) (b : FullBlock) :
    Rel (fun x y => y.1.cfg = { x.1.cfg with fee := y.1.cfg.fee } ∧ Less X n x.1.st y.1.st ∧ x.2 = y.2) (validateConfig o b)
      (validateConfig o' b) := by
  obtain ⟨c, s⟩ := o
  obtain ⟨c', s'⟩ := o'
  dsimp only at hc h
  obtain ⟨cf, hc⟩ : ∃ cf, c' = { c with fee := cf } := ⟨_, hc⟩
  subst hc
  have h0 := h
  obtain ⟨hs, m, t, sh, cm, pf, le, ld, lu, g, hm, hr, rfl⟩ := h
  unfold validateConfig
  dsimp only
  refine .ite (fun _ => .ok ⟨rfl, h0, rfl⟩) fun _ => ?_
  have fin : ∀ {q q' : Oracle}, q'.cfg = { q.cfg with fee := q'.cfg.fee } → Less X n q.st q'.st →
      Rel (fun x y => y.1.cfg = { x.1.cfg with fee := y.1.cfg.fee } ∧ Less X n x.1.st y.1.st ∧ x.2 = y.2)
      (do
        let recOk ← (match b.events.feeRecipient with
          | [] => .ok true
          | r :: _ => equals q.cfg.poolFeesAddr r)
        if !recOk then (.ok (q, false) : M (Oracle × Bool))
        else if b.events.cpSize.any (fun n => q.cfg.cpSize ≠ n) then .ok (q, false)
        else if b.events.collateral.any (fun c => q.cfg.collateral ≠ c) then .ok (q, false)
        else .ok (q, true))
      (do
        let recOk ← (match b.events.feeRecipient with
          | [] => .ok true
          | r :: _ => equals q'.cfg.poolFeesAddr r)
        if !recOk then (.ok (q', false) : M (Oracle × Bool))
        else if b.events.cpSize.any (fun n => q'.cfg.cpSize ≠ n) then .ok (q', false)
        else if b.events.collateral.any (fun c => q'.cfg.collateral ≠ c) then .ok (q', false)
        else .ok (q', true)) := by
    intro q q' hq hS
    have e1 : q'.cfg.poolFeesAddr = q.cfg.poolFeesAddr := by rw [hq]
    have e2 : q'.cfg.cpSize = q.cfg.cpSize := by rw [hq]
    have e3 : q'.cfg.collateral = q.cfg.collateral := by rw [hq]
    rw [e1, e2, e3]
    refine Rel.bind (Rel.refl _) ?_
    rintro x _ rfl
    exact .ite (fun _ => .ok ⟨hq, hS, rfl⟩) fun _ => .ite (fun _ => .ok ⟨hq, hS, rfl⟩) fun _ =>
      .ite (fun _ => .ok ⟨hq, hS, rfl⟩) fun _ => .ok ⟨hq, hS, rfl⟩
  cases b.events.poolFee with
  | nil => exact fin rfl h0
  | cons f _ =>
    dsimp only
    cases hsf : scheduledFee c.network b.dutySlot with
    | none => exact .ok ⟨rfl, h0, rfl⟩
    | some x =>
      dsimp only
      by_cases hx : x ≠ i64 f
      · rw [if_pos hx, if_pos hx]; exact .ok ⟨rfl, h0, rfl⟩
      · rw [if_neg hx, if_neg hx]
        have e := scheduledFee_eq hsf
        refine fin rfl ⟨⟨hs.1, hs.2.1, ?_, ?_, ?_⟩, m, t, sh, cm, pf, le, ld, lu, i64 f, hm, hr, rfl⟩ <;> dsimp only <;> omega

theorem summarize_less {s s' : State} {n} (h : Less X n s s') {b : FullBlock} (hb : ¬ X b.dutyIndex)
    (hb' : ∀ c, b.cons = some c → ¬ X c.proposer) (pool) :
    Rel (fun x y => y = x ∧ ¬ X x.index) (summarize s b pool) (summarize s' b pool) := by
  unfold summarize
  refine Rel.bind (.refl _) ?_
  rintro ⟨w, wt⟩ _ rfl
  dsimp only
  cases hc : b.cons with
  | none => exact .ok ⟨rfl, hb⟩
  | some c =>
    dsimp only
    have hi := hb' c hc
    refine Rel.bind (R := fun i j => i = c.proposer ∧ j = c.proposer) ?_ ?_
    · unfold ConsBlock.base
      dsimp only
      split
      · exact .err
      · exact .ok ⟨rfl, rfl⟩
    rintro _ _ ⟨rfl, rfl⟩
    rw [h.isSubscribed hi]
    refine Rel.bind (.refl _) ?_
    rintro ⟨r, tp, rt⟩ _ rfl
    dsimp only
    refine Rel.bind (.refl _) ?_
    rintro n _ rfl
    exact .ok ⟨rfl, hb⟩

theorem Less.tracked {s s' : State} {n} (h : Less X n s s') {i v} (hv : VMap.get s.vals i = some v) :
    ∃ v', VMap.get s'.vals i = some v' := by
  rcases h.map i with (⟨h1, _⟩ | ⟨w, p, q, h1, h2, _⟩) | ⟨_, k⟩
  · rw [h1] at hv; cases hv
  · exact ⟨_, h2⟩
  · exact (k v hv).2.2.2

/-- Two runs with the same fee have the same fee after the next block. -/
theorem fee_together {o o' o1 o1' : Oracle} {b b' : FullBlock} {n n' : Nat} (hb : b'.events.poolFee = b.events.poolFee)
    (hc : o'.cfg = o.cfg) (hf : o'.st.fee = o.st.fee)
    (h : advanceState E o b = .ok (o1, some n)) (h' : advanceState E' o' b' = .ok (o1', some n')) :
    o1'.cfg = o1.cfg ∧ o1'.st.fee = o1.st.fee := by
  obtain ⟨_, _, _, _, _, _, _, _, q1, _, _, _, k⟩ := slot_frame h
  obtain ⟨_, _, _, _, _, _, _, _, q2, _, _, _, k'⟩ := slot_frame h'
  rw [hb] at k'
  rw [q1, q2, hc]
  rcases k with ⟨k1, k2, k3⟩ | ⟨f, k1, _, k2, k3⟩
  · rcases k' with ⟨j1, j2, _⟩ | ⟨f, j1, _⟩
    · exact ⟨by rw [j2, k2, hc], by rw [j1, k1, hf]⟩
    · rw [j1] at k3; cases k3
  · rcases k' with ⟨_, _, j1⟩ | ⟨f', j1, _, j2, j3⟩
    · rw [j1] at k1; cases k1
    · rw [j1] at k1; cases k1
      exact ⟨by rw [j3, k3], by rw [j2, k2]⟩

/-- The step behind C104, C108, C118 and C121: the second run has further members or a higher fee, and its block may have other payments and
fewer or smaller donations, and lack some of the cancelled subscriptions and bans of these members. -/
theorem slot_less (hE : ValidEnv E) (hX : ExactEnv E) (hR : ReadsChain V K E)
    (hE' : ValidEnv E') (hX' : ExactEnv E') (hR' : ReadsChain V K E')
    {o o' o1 o1' : Oracle} {b : FullBlock} {pays : List EtherEvent} {us vs bs} {n n' : Nat}
    (hcfg : o'.cfg = { o.cfg with fee := o'.cfg.fee })
    (hless : Less X o.st.nextSlot o.st o'.st) (hb : NotNamed X (otherBlock b pays us vs bs))
    (hu : LeftOut (fun p => X p.1.validatorId) (b.events.unsubs.zip b.valsUnsubs) (us.zip vs))
    (hbs : LeftOut (fun e => X e.validatorId) b.events.bans bs)
    (hpay : NonNegPayments b) (hgas : GasOK b) (hpay' : ∀ e ∈ pays, 0 ≤ e.amount)
    (hsum : ∀ s pool dons, getDonations b pool = .ok dons →
      summarize s (otherBlock b pays us vs bs) pool = summarize s b pool)
    (hdon : ∀ pool dons dons', getDonations b pool = .ok dons →
      getDonations (otherBlock b pays us vs bs) pool = .ok dons' →
      dons'.SublistForall₂ (fun d' d => d'.amount ≤ d.amount) dons)
    (hfork : PostFork1 o.cfg.network n)
    (hV : ∀ j, (V n j).effBal < 2 ^ 63) (hA : n % 1200 = 0 → AllActive V n o1'.st)
    (h : advanceState E o b = .ok (o1, some n))
    (h' : advanceState E' o' (otherBlock b pays us vs bs) = .ok (o1', some n')) :
    o1'.cfg = { o1.cfg with fee := o1'.cfg.fee } ∧ Less X o1.st.nextSlot o1.st o1'.st ∧ n' = n := by
  obtain ⟨q, sb, dons, s1, s2, _, _, hv, hsb, _, hd, ha, hcl, ho, hn⟩ := advanceState_ok h
  obtain ⟨q', sb', dons', s1', s2', _, _, hv', hsb', _, hd', ha', hcl', ho', hn'⟩ := advanceState_ok h'
  have hv' : validateConfig o' b = .ok (q', true) := hv'
  obtain ⟨k1, k2, _⟩ := validateConfig_less hcfg hless b _ _ hv hv'
  dsimp only at k1 k2
  have c1 : q'.cfg.network = q.cfg.network := by rw [k1]
  have c2 : q'.cfg.poolAddr = q.cfg.poolAddr := by rw [k1]
  rw [c1] at ha'
  rw [c2] at hd' hsb'
  rw [hsum _ _ _ hd] at hsb'
  obtain ⟨e, hbi⟩ := summarize_less (b := b) k2 hb.duty hb.proposer _ _ _ hsb hsb'
  subst e
  have hl := hdon _ _ _ hd hd'
  have hnet : q.cfg.network = o.cfg.network := by
    have := (slot_nextSlot h).2
    rw [ho] at this
    exact this
  have hslot : n = o.st.nextSlot := by
    obtain ⟨_, _, _, _, _, _, _, _, _, _, hslot, _⟩ := slot_frame h; exact hslot
  rw [hslot] at hfork hV
  have hpb' : NonNegPayments (otherBlock b pays us vs bs) := ⟨hpay', hpay.2⟩
  have k3 := applyBlock_less hE hX hR hE' hX' hR' (by rw [hnet]; exact hfork) hV k2 hb hbi
    (fun ht r hr => recv_nonneg hsb hd hpay hgas (.inr (.inl ⟨.inl ht, hr⟩))) hu hbs hl
    (fun d hdd => recv_nonneg hsb hd hpay hgas (.inr (.inr ⟨d, hdd, rfl⟩)))
    (fun d hdd => recv_nonneg ((hsum _ _ _ hd).trans hsb) hd' hpb' hgas (.inr (.inr ⟨d, hdd, rfl⟩)))
    hpay.2 _ _ ha ha'
  have k4 : Less X o.st.nextSlot s2 s2' := by
    have hns : s1'.nextSlot = s1.nextSlot := by obtain ⟨_, m, t, x, c, f, le, ld, lu, g, _, _, e⟩ := k3; rw [e]; rfl
    rw [hns] at hcl'
    by_cases hm : s1.nextSlot % 1200 = 0
    · rw [if_pos hm] at hcl hcl'
      have e : s2.nextSlot = s1.nextSlot := by
        have := congrArg State.nextSlot (cleanup_frame hcl); exact this
      have hA' := hA (by rw [hn, e]; exact hm)
      rw [hn, e, ho'] at hA'
      have hA1' : AllActive V s1.nextSlot s1' := by
        intro i v hv
        obtain ⟨w, hw⟩ := Option.isSome_iff_exists.mp ((get_isSome_iff _ _).mpr
          ((cleanup_grows hE' hcl').2 i ((get_isSome_iff _ _).mp (by rw [hv]; rfl))))
        exact hA' i w hw
      have hA1 : AllActive V s1.nextSlot s1 := by
        intro i v hv
        obtain ⟨w, hw⟩ := k3.tracked hv
        exact hA1' i w hw
      have e1 := cleanup_idle hE hX hR hA1 hcl
      have e2 := cleanup_idle hE' hX' hR' hA1' hcl'
      obtain ⟨hs, m, t, x, c, f, le, ld, lu, g, hm, hr, e⟩ := k3
      rw [e1, e2]
      exact ⟨hs, m, s2'.tick, x, c, f, le, ld, lu, g, hm, hr, by rw [e]; rfl⟩
    · rw [if_neg hm] at hcl hcl'
      simp only [Except.ok.injEq, Prod.mk.injEq, and_true] at hcl hcl'
      rw [← hcl, ← hcl']; exact k3
  obtain ⟨hs2, m, t, x, c, f, le, ld, lu, g, hm, hr, e⟩ := k4
  subst e
  rw [ho, ho']
  refine ⟨k1, ⟨⟨hs2.1, rfl, hs2.2.2⟩, m, t, x, c, f, le, ld, lu, g, hm, hr, rfl⟩, ?_⟩
  rw [hn, hn']; rfl

/-- **C108** (partial). The books `o'` have further members, who in `o` do not share, and the block says nothing about
them. After the block everybody else has the same record in both, with no more money in `o'` than in `o`: further members
take from the others and never give. For slots since the first fork, a fee between 0 and 100%, payments that are not
negative, and cleanup slots at which everybody the books know is active. Missing: slots before the fork, for which it
is false, `C108_false_before_fork`, and cleanup slots that take money from those who left, `C108_false_leaver`. -/
theorem C108_slot_partial (hE : ValidEnv E) (hX : ExactEnv E) (hR : ReadsChain V K E)
    (hE' : ValidEnv E') (hX' : ExactEnv E') (hR' : ReadsChain V K E')
    {o o' o1 o1' : Oracle} {b : FullBlock} {n n' : Nat} (hs : MapOK o.st) (hs' : MapOK o'.st)
    (hmore : WithMore X o o') (hb : NotNamed X b) (hpay : NonNegPayments b) (hgas : GasOK b)
    (hf : 0 ≤ o.st.fee) (hf' : o.st.fee ≤ 10000) (hfork : PostFork1 o.cfg.network n)
    (hV : ∀ j, (V n j).effBal < 2 ^ 63) (hA : n % 1200 = 0 → AllActive V n o1'.st)
    (h : advanceState E o b = .ok (o1, some n)) (h' : advanceState E' o' b = .ok (o1', some n')) :
    WithMore X o1 o1' ∧ n' = n ∧ 0 ≤ o1.st.fee ∧ o1.st.fee ≤ 10000 := by
  obtain ⟨k1, k2, k3⟩ := slot_less hE hX hR hE' hX' hR' (pays := b.events.ether) (us := b.events.unsubs)
    (vs := b.valsUnsubs) (bs := b.events.bans) (by rw [hmore.cfg])
    (hmore.less hs hs' hf hf') hb (.refl _) (.refl _) hpay hgas hpay.1 (fun _ _ _ _ => rfl)
    (fun pool dons dons' h1 h2 => by
      have h2 : getDonations b pool = .ok dons' := h2
      rw [h1] at h2; cases h2
      exact List.sublistForall₂_iff.mpr ⟨dons, List.forall₂_same.mpr fun _ _ => le_refl _, .refl _⟩) hfork hV hA h h'
  obtain ⟨_, dons, _, _, _, _, hd, _, _, q, _⟩ := slot_frame h
  obtain ⟨_, dons', _, _, _, _, hd', _, _, q', _⟩ := slot_frame h'
  rw [hmore.cfg, hd] at hd'
  cases hd'
  have r1 : o'.st.ether = o.st.ether := by have := congrArg State.ether hmore.rest; exact this
  have r2 : o'.st.donations = o.st.donations := by have := congrArg State.donations hmore.rest; exact this
  have e1 : o1.st.ether = o.st.ether ++ b.events.ether := by have := congrArg State.ether q; exact this
  have e2 : o1'.st.ether = o'.st.ether ++ b.events.ether := by have := congrArg State.ether q'; exact this
  have e3 : o1.st.donations = o.st.donations ++ dons := by have := congrArg State.donations q; exact this
  have e4 : o1'.st.donations = o'.st.donations ++ dons := by have := congrArg State.donations q'; exact this
  have r3 : o'.st.unsubs = o.st.unsubs := by have := congrArg State.unsubs hmore.rest; exact this
  have e5 : o1.st.unsubs = o.st.unsubs ++ b.events.unsubs := by have := congrArg State.unsubs q; exact this
  have e6 : o1'.st.unsubs = o'.st.unsubs ++ b.events.unsubs := by have := congrArg State.unsubs q'; exact this
  obtain ⟨f1, f2⟩ := fee_together (b := b) (b' := b) rfl hmore.cfg
    (by have := congrArg State.fee hmore.rest; exact this) h h'
  have := k2.1.2.2
  exact ⟨withMore_of_less f1.symm k2 (by rw [e1, e2, r1]) (by rw [e3, e4, r2]) (by rw [e5, e6, r3]) f2, k3, by omega,
    by omega⟩

/-- **C108** (partial) for whole histories: after any number of blocks that say nothing about the further members,
nobody else has more money than without them. -/
theorem C108_history_partial (hE : ValidEnv E) (hX : ExactEnv E) (hR : ReadsChain V K E)
    (hE' : ValidEnv E') (hX' : ExactEnv E') (hR' : ReadsChain V K E')
    {bs : List FullBlock} {o o' o1 o1' : Oracle} (hs : MapOK o.st) (hs' : MapOK o'.st)
    (hmore : WithMore X o o') (hf : 0 ≤ o.st.fee) (hf' : o.st.fee ≤ 10000)
    (hb : ∀ b ∈ bs, NotNamed X b ∧ NonNegPayments b ∧ GasOK b ∧ PostFork1 o.cfg.network b.dutySlot)
    (hV : ∀ n j, (V n j).effBal < 2 ^ 63) (hA : ∀ n, n % 1200 = 0 → AllActive V n o1'.st)
    (h : Hist E o bs o1) (h' : Hist E' o' bs o1') : WithMore X o1 o1' := by
  induction h generalizing o' with
  | nil => cases h'; exact hmore
  | @cons o b o2 n bs o1 ha hr ih =>
    cases h' with
    | @cons _ _ o2' n' _ _ ha' hr' =>
      obtain ⟨b1, b2, b3, b4⟩ := hb b (by simp)
      have hslot : n = b.dutySlot := by
        obtain ⟨_, _, _, _, _, _, _, _, _, _, hslot, _⟩ := slot_frame ha
        obtain ⟨_, _, _, _, _, _, e, _⟩ := advanceState_ok ha
        rw [hslot, e]
      have hm := (slot_remembers hE hX hs ha).1
      have hm' := (slot_remembers hE' hX' hs' ha').1
      have hA1 : AllActive V n o2'.st ∨ ¬ n % 1200 = 0 := by
        by_cases e : n % 1200 = 0
        · refine .inl fun i v hv => ?_
          obtain ⟨w, hw⟩ := hist_tracked hE' hX' hm' hr' hv
          exact hA n e i w hw
        · exact .inr e
      obtain ⟨k1, _, k3, k4⟩ := C108_slot_partial hE hX hR hE' hX' hR' hs hs' hmore b1 b2 b3 hf hf'
        (by rw [hslot]; exact b4) (hV n) (fun e => hA1.resolve_right (fun k => k e)) ha ha'
      have hnet := (slot_nextSlot ha).2
      exact ih hm hm' k1 k3 k4 (fun b hb' => by rw [hnet]; exact hb b (by simp [hb'])) hr'

end

namespace Sample

/-- two members -/
def thinVals : VMap := [(1, val 1 .active 10000 5), (2, val 2 .yellowCard 20000 6)]

/-- and a third one, validator 9, who does nothing -/
def thickVals : VMap := [(1, val 1 .active 10000 5), (2, val 2 .yellowCard 20000 6), (9, val 9 .active 900 10)]

/-- books with two members -/
def thin (slot : Nat) : Oracle :=
  ⟨cfg, { st with
    latestSlot := slot - 1, nextSlot := slot
    vals := thinVals }⟩

/-- books with three members -/
def thick (slot : Nat) : Oracle :=
  ⟨cfg, { st with
    latestSlot := slot - 1, nextSlot := slot
    vals := thickVals }⟩

theorem thin_ok (slot) : MapOK (thin slot).st := (by unfold Sorted; decide : Sorted thinVals)
theorem thick_ok (slot) : MapOK (thick slot).st := (by unfold Sorted; decide : Sorted thickVals)

theorem thin_more (slot) : WithMore (· = 9) (thin slot) (thick slot) where
  cfg := rfl
  records := by
    intro i
    by_cases h1 : i = 1
    · subst h1; exact .inl (.inr ⟨_, 10000, 5, rfl, rfl, by decide, by decide, by decide⟩)
    by_cases h2 : i = 2
    · subst h2; exact .inl (.inr ⟨_, 20000, 6, rfl, rfl, by decide, by decide, by decide⟩)
    by_cases h9 : i = 9
    · subst h9; exact .inr ⟨rfl, fun v hv => by cases hv⟩
    have k : ∀ m : VMap, (∀ p ∈ m, p.1 = 1 ∨ p.1 = 2 ∨ p.1 = 9) → VMap.get m i = none := by
      intro m hm
      cases hg : VMap.get m i with
      | none => rfl
      | some v => have := hm _ (mem_of_get hg); dsimp only at this; omega
    exact .inl (.inl ⟨k thinVals (by decide), k thickVals (by decide)⟩)
  rest := rfl

/-- everybody is active -/
def allV (_ i : Nat) : BVal := bval i

theorem allV_index (s i) : (allV s i).index = i := rfl

/-- the money of validator 1 -/
def money1 (o : Oracle) : Option (Int × Int) := (VMap.get o.st.vals 1).map fun v => (v.pend, v.acc)

/-- the block of validator 1 with a gift says nothing about validator 9 -/
theorem paying_notNamed (slot l) : NotNamed (· = 9) (paying slot l) where
  duty := by show ¬ (1 : Nat) = 9; decide
  proposer := by rintro c ⟨⟩; show ¬ (1 : Nat) = 9; decide
  subs := by intro e he; cases he
  unsubs := by intro e he; cases he
  bans := by intro e he; cases he
  unbans := by intro e he; cases he

theorem paying_gas (slot l) : GasOK (paying slot l) := by
  intro c h rs hc hh hr
  simp only [paying, Sample.prop, Option.some.injEq] at hc hh hr
  subst hc hh hr
  refine ⟨rfl, ?_, rfl, by norm_num, ?_⟩
  · intro n hn; simp only [BaseFee.u256.injEq] at hn; subst hn; norm_num
  · intro tx htx
    simp only [List.mem_singleton, Option.some.injEq] at htx
    subst htx; decide

/-- nor does a block missed by validator 2 -/
theorem miss_notNamed (slot) : NotNamed (· = 9) (miss slot 2) where
  duty := by show ¬ (2 : Nat) = 9; decide
  proposer := by rintro c ⟨⟩
  subs := by intro e he; cases he
  unsubs := by intro e he; cases he
  bans := by intro e he; cases he
  unbans := by intro e he; cases he

end Sample

/-- The theorem applies at a cleanup slot: validator 1 proposes a block of 5000 wei and somebody gives 100 wei. -/
example : ∃ o1 o1', advanceState (Sample.chainEnv Sample.allV fun _ => []) (Sample.thin 12000000)
      (Sample.paying 12000000 [100]) = .ok (o1, some 12000000) ∧
    advanceState (Sample.chainEnv Sample.allV fun _ => []) (Sample.thick 12000000)
      (Sample.paying 12000000 [100]) = .ok (o1', some 12000000) ∧ WithMore (· = 9) o1 o1' ∧
    Sample.money1 o1 = some (45, 12295) ∧ Sample.money1 o1' = some (28, 11425) := by
  obtain ⟨⟨o1, m⟩, h, hm⟩ := Sample.ex_ok
    (x := advanceState (Sample.chainEnv Sample.allV fun _ => []) (Sample.thin 12000000) (Sample.paying 12000000 [100]))
    (P := fun p => p.2 == some 12000000 && Sample.money1 p.1 == some (45, 12295)) (by decide +kernel)
  obtain ⟨⟨o1', m'⟩, h', hm'⟩ := Sample.ex_ok
    (x := advanceState (Sample.chainEnv Sample.allV fun _ => []) (Sample.thick 12000000) (Sample.paying 12000000 [100]))
    (P := fun p => p.2 == some 12000000 && Sample.money1 p.1 == some (28, 11425)) (by decide +kernel)
  simp only [beq_iff_eq, Bool.and_eq_true] at hm hm'
  obtain ⟨rfl, hm⟩ := hm
  obtain ⟨rfl, hm'⟩ := hm'
  refine ⟨o1, o1', h, h', (C108_slot_partial (Sample.chain_valid Sample.allV_index _)
    (Sample.chain_exact Sample.allV_index _) (Sample.chain_reads Sample.allV_index _)
    (Sample.chain_valid Sample.allV_index _)
    (Sample.chain_exact Sample.allV_index _) (Sample.chain_reads Sample.allV_index _)
    (Sample.thin_ok _) (Sample.thick_ok _) (Sample.thin_more _) (Sample.paying_notNamed _ _) ?_ ?_ (by decide)
    (by decide) (by decide) (fun j => ?_) (fun _ i v _ => rfl) h h').1, hm, hm'⟩
  · exact ⟨by decide, fun e he => by cases he⟩
  · exact Sample.paying_gas _ _
  · show 32000000000 + (j % 256) * 1000000000 < 2 ^ 63
    omega

/-- **C108 is false before the first fork.** The block of the example with a gift of 101 wei: the gift leaves each
member 303 wei poorer, or 202 if there are three of them. -/
theorem C108_false_before_fork : ∃ o1 o1', WithMore (· = 9) (Sample.thin 9000001) (Sample.thick 9000001) ∧
    NotNamed (· = 9) (Sample.paying 9000001 [101]) ∧
    advanceState (Sample.chainEnv Sample.allV fun _ => []) (Sample.thin 9000001)
      (Sample.paying 9000001 [101]) = .ok (o1, some 9000001) ∧
    advanceState (Sample.chainEnv Sample.allV fun _ => []) (Sample.thick 9000001)
      (Sample.paying 9000001 [101]) = .ok (o1', some 9000001) ∧
    (Sample.money1 o1).map (·.1) = some (-303) ∧ (Sample.money1 o1').map (·.1) = some (-202) := by
  obtain ⟨⟨o1, m⟩, h, hm⟩ := Sample.ex_ok
    (x := advanceState (Sample.chainEnv Sample.allV fun _ => []) (Sample.thin 9000001) (Sample.paying 9000001 [101]))
    (P := fun p => p.2 == some 9000001 && (Sample.money1 p.1).map (·.1) == some (-303)) (by decide +kernel)
  obtain ⟨⟨o1', m'⟩, h', hm'⟩ := Sample.ex_ok
    (x := advanceState (Sample.chainEnv Sample.allV fun _ => []) (Sample.thick 9000001) (Sample.paying 9000001 [101]))
    (P := fun p => p.2 == some 9000001 && (Sample.money1 p.1).map (·.1) == some (-202)) (by decide +kernel)
  simp only [beq_iff_eq, Bool.and_eq_true] at hm hm'
  obtain ⟨rfl, hm⟩ := hm
  obtain ⟨rfl, hm'⟩ := hm'
  exact ⟨o1, o1', Sample.thin_more _, Sample.paying_notNamed _ _, h, h', hm, hm'⟩

/-- **C108 is false when a further member leaves the chain.** The cleanup takes the 900 wei of validator 9, who left,
and shares them: validator 1 gets 837 of them. -/
theorem C108_false_leaver : ∃ o1 o1', WithMore (· = 9) (Sample.thin 12000000) (Sample.thick 12000000) ∧
    NotNamed (· = 9) (Sample.miss 12000000 2) ∧
    advanceState (Sample.chainEnv Sample.leftV fun _ => []) (Sample.thin 12000000)
      (Sample.miss 12000000 2) = .ok (o1, some 12000000) ∧
    advanceState (Sample.chainEnv Sample.leftV fun _ => []) (Sample.thick 12000000)
      (Sample.miss 12000000 2) = .ok (o1', some 12000000) ∧
    (Sample.money1 o1).map (·.1) = some 10000 ∧ (Sample.money1 o1').map (·.1) = some 10837 := by
  obtain ⟨⟨o1, m⟩, h, hm⟩ := Sample.ex_ok
    (x := advanceState (Sample.chainEnv Sample.leftV fun _ => []) (Sample.thin 12000000) (Sample.miss 12000000 2))
    (P := fun p => p.2 == some 12000000 && (Sample.money1 p.1).map (·.1) == some 10000) (by decide +kernel)
  obtain ⟨⟨o1', m'⟩, h', hm'⟩ := Sample.ex_ok
    (x := advanceState (Sample.chainEnv Sample.leftV fun _ => []) (Sample.thick 12000000) (Sample.miss 12000000 2))
    (P := fun p => p.2 == some 12000000 && (Sample.money1 p.1).map (·.1) == some 10837) (by decide +kernel)
  simp only [beq_iff_eq, Bool.and_eq_true] at hm hm'
  obtain ⟨rfl, hm⟩ := hm
  obtain ⟨rfl, hm'⟩ := hm'
  exact ⟨o1, o1', Sample.thin_more _, Sample.miss_notNamed _, h, h', hm, hm'⟩

/-- a history: the block of the example, then a slot missed by validator 2 -/
example : ∃ o1 o1', Hist (Sample.chainEnv Sample.allV fun _ => []) (Sample.thin 12000000)
      [Sample.paying 12000000 [100], Sample.miss 12000001 2] o1 ∧
    Hist (Sample.chainEnv Sample.allV fun _ => []) (Sample.thick 12000000)
      [Sample.paying 12000000 [100], Sample.miss 12000001 2] o1' ∧ WithMore (· = 9) o1 o1' := by
  obtain ⟨o1, h, _⟩ := Sample.ex_hist (E := Sample.chainEnv Sample.allV fun _ => []) (o := Sample.thin 12000000)
    (bs := [Sample.paying 12000000 [100], Sample.miss 12000001 2]) (P := fun _ => true) (by decide +kernel)
  obtain ⟨o1', h', _⟩ := Sample.ex_hist (E := Sample.chainEnv Sample.allV fun _ => []) (o := Sample.thick 12000000)
    (bs := [Sample.paying 12000000 [100], Sample.miss 12000001 2]) (P := fun _ => true) (by decide +kernel)
  refine ⟨o1, o1', h, h', C108_history_partial (Sample.chain_valid Sample.allV_index _)
    (Sample.chain_exact Sample.allV_index _) (Sample.chain_reads Sample.allV_index _)
    (Sample.chain_valid Sample.allV_index _)
    (Sample.chain_exact Sample.allV_index _) (Sample.chain_reads Sample.allV_index _)
    (Sample.thin_ok _) (Sample.thick_ok _) (Sample.thin_more _) (by decide) (by decide) ?_ (fun _ j => ?_)
    (fun _ _ i v _ => rfl) h h'⟩
  · intro b hb
    simp only [List.mem_cons, List.not_mem_nil, or_false] at hb
    rcases hb with rfl | rfl
    · exact ⟨Sample.paying_notNamed _ _, ⟨by decide, fun e he => by cases he⟩, Sample.paying_gas _ _, by decide⟩
    · exact ⟨Sample.miss_notNamed _, ⟨fun e he => (by cases he), fun e he => by cases he⟩,
        (fun c hd rs hc => by cases hc), by decide⟩
  · show 32000000000 + (j % 256) * 1000000000 < 2 ^ 63
    omega

end Verif
