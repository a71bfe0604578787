import Verif.Props.Earnings
/-
C101: the pool takes its fee when money comes in, and not again.
-/
namespace Verif
open VMap Relation

/-- Nothing is paid to the pool in this block: no payment, no subscription, no reward. -/
def NothingPaid (b : FullBlock) (pool : Str) : Prop :=
  b.events.ether = [] ∧ b.events.subs = [] ∧ ¬ PaidPool b pool

/-- without a payment and without a tracked validator that pays elsewhere, a proposal changes neither the revenue nor
who is tracked -/
theorem proposal_quiet {E : Env} {net pool : Str} {b : FullBlock} {s s' : State}
    (h : ProposalEffect E net pool b s s') (hp : ¬ PaidPool b pool)
    (he : ∀ v, VMap.get s.vals b.dutyIndex = some v → ¬ PaysElsewhere b pool b.dutyIndex) :
    s'.poolFees = s.poolFees ∧ ∀ i, (VMap.get s'.vals i).isSome → (VMap.get s.vals i).isSome := by
  cases h with
  | missed => exact ⟨rfl, fun i hi => by
      dsimp only at hi
      rw [get_modify] at hi
      split at hi
      · rename_i e
        rw [e]; simpa using hi
      · exact hi⟩
  | outsider => exact ⟨rfl, fun _ hi => hi⟩
  | elsewhere hc hn hv => exact absurd ⟨rfl, hc, hn⟩ (he _ hv)
  | pays h => exact absurd h hp
  | noAddress h => exact absurd h hp

theorem unsubs_quiet {E : Env} {net : Str} {s s' : State} {l : List (UnsubEvent × Option BVal)}
    (h : UnsubEffects E net s l s')
    (hno : ∀ p ∈ l, (VMap.get s.vals p.1.validatorId).isSome → ¬ ByOwnerUnsub p.1 p.2) : s' = s := by
  induction h with
  | nil => rfl
  | @cons s p s1 l s2 h1 _ ih =>
    have : s1 = s := by
      cases h1 with
      | leaves k hu => exact absurd k (hno p (by simp) (by rw [hu]; rfl))
      | nothing => rfl
    subst this
    exact ih fun q hq => hno q (by simp [hq])

theorem bans_quiet {s s' : State} {l : List BanEvent} {t : Int} (h : BanEffects s l s' t)
    (hl : ∀ ev ∈ l, VMap.get s.vals ev.validatorId = none) : s' = s ∧ t = 0 := by
  induction h with
  | nil => exact ⟨rfl, rfl⟩
  | ban hv => rw [hl _ (by simp)] at hv; cases hv
  | skip _ _ ih => exact ih fun ev hev => hl ev (by simp [hev])

theorem clean_quiet {E : Env} {slot : Nat} {cs : List (Nat × Nat)} {s s' : State} {l : List BVal} {t : Int}
    (h : CleanEffects E slot cs s l s' t) (hl : ∀ u ∈ l, u.status.isActive = true) :
    s'.poolFees = s.poolFees ∧ t = 0 := by
  induction h with
  | nil => exact ⟨rfl, rfl⟩
  | keep _ _ ih => exact ih fun u hu => hl u (by simp [hu])
  | leaves h1 => rw [hl _ (by simp)] at h1; cases h1
  | moves h1 => rw [hl _ (by simp)] at h1; cases h1
  | creates h1 => rw [hl _ (by simp)] at h1; cases h1

section
variable {E : Env} (hE : ValidEnv E) (hX : ExactEnv E) (hC : NoSelfConsol E)
  {cfg : Config} {bs : List FullBlock} {o o' : Oracle} {b : FullBlock} {n : Nat}
  (h0 : Hist E (newOracle cfg) bs o) (h : advanceState E o b = .ok (o', some n))
include hE hX hC h0 h

/-- **C101**, partial. In every reachable state: a slot in which nothing is paid to the pool leaves the revenue of the
pool as it is, if no validator of the pool gives up its pending balance in it (missing: then the fee is charged once
more, `C101_false_charged_again`). -/
theorem C101_charged_once_partial (hg : GasOK b) (hp : NothingPaid b o.cfg.poolAddr)
    (hno : ∀ i v, VMap.get o.st.vals i = some v → ¬ Forfeits E o.cfg.poolAddr b i) :
    o'.st.poolFees = o.st.poolFees := by
  obtain ⟨s7, s8, hslot, hcl, hncl, hn, hd, ho⟩ := C60_slot_refines hE hX hC h0 h hg
  obtain ⟨s1, s2, s3, dons, s4, s5, tot, s6, k1, k2, k3, k4, k5, k6, k7, k8⟩ := hslot
  obtain ⟨q1, q2, q3⟩ := hp
  have hno' : ∀ i, (VMap.get o.st.vals i).isSome → ¬ Forfeits E o.cfg.poolAddr b i := by
    intro i hi
    obtain ⟨v, hv⟩ := Option.isSome_iff_exists.mp hi
    exact hno i v hv
  rw [q2] at k1
  obtain ⟨e1, t1⟩ : s1.poolFees = o.st.poolFees ∧ s1.vals = o.st.vals := by
    simp only [List.zip_nil_left] at k1
    cases k1; exact ⟨rfl, rfl⟩
  obtain ⟨e2, t2⟩ := proposal_quiet k2 q3 fun v hv h => hno _ v (by rw [← t1]; exact hv) (.elsewhere h)
  rw [t1] at t2
  have e3 : s3 = s2 := by
    refine unsubs_quiet k3 ?_
    rintro ⟨ev, val⟩ hm ht ⟨v, w, rfl, hv, hw, hsd⟩
    exact hno' _ (t2 _ ht) (.leaves ⟨ev, v, w, hm, rfl, hv, hw, hsd⟩)
  have e4 : dons = [] := by
    by_cases hc : b.cons = none
    · exact k4.missed hc
    · by_cases hx : ∃ x, BuilderPaid b o.cfg.poolAddr x
      · obtain ⟨x, hx⟩ := hx
        rw [k4.builder x hx, q1]; rfl
      · rw [k4.other hc fun x h => hx ⟨x, h⟩, q1]
  have e5 : s4 = s3 := by rw [e4] at k5; cases k5; rfl
  obtain ⟨e6, e7⟩ := bans_quiet k6 fun ev hev => by
    rw [e5, e3]
    cases hv : VMap.get s2.vals ev.validatorId with
    | none => rfl
    | some v => exact absurd (Forfeits.ban hev rfl) (hno' _ (t2 _ (by rw [hv]; rfl)))
  have e8 : s6 = s5 := by
    rcases k7 with ⟨k, _⟩ | ⟨_, k⟩
    · omega
    · exact k
  have e9 : s7.poolFees = o.st.poolFees := by
    rw [k8]; show s6.poolFees = _
    rw [e8, e6, e5, e3, e2, e1]
  have t7 : ∀ i, (VMap.get s7.vals i).isSome → (VMap.get o.st.vals i).isSome := by
    intro i hi
    rw [k8] at hi
    dsimp only at hi
    rw [e8, e6, e5, e3] at hi
    rw [get_unbanned, Option.isSome_map] at hi
    exact t2 i hi
  rw [ho]
  show s8.poolFees = _
  by_cases hz : n % 1200 = 0
  · cases hcl hz with
    | early => exact e9
    | empty => exact e9
    | @done t cs req answer l st tot s2 _ _ _ ha hans hl hce hsh =>
      obtain ⟨f1, f2⟩ := clean_quiet hce fun u hu => by
        have hu := hl.mem_iff.mp hu
        cases hu' : u.status.isActive with
        | true => rfl
        | false =>
          exact absurd (Forfeits.gone (by rw [← hd]; exact hz) ⟨_, _, _, u, by rw [← hd]; exact ha, hu, rfl, hu'⟩)
            (hno' u.index (t7 _ ((hans _).mp ⟨u, hu, rfl⟩)))
      rcases hsh with ⟨k, _⟩ | ⟨_, k⟩
      · exact absurd f2 k
      · rw [k, f1]; exact e9
  · rw [hncl hz]; exact e9

end

/-- **C101 is false as stated.** Nothing is paid to the pool; validator 2 leaves with a pending balance, on which the
fee had been charged when it came in, and which contains its own collateral. The fee is charged on it again. -/
theorem C101_false_charged_again : ∃ o o' n v, Hist Sample.env (newOracle Sample.cfg) [Sample.b0] o ∧
    advanceState Sample.env o Sample.later1 = .ok (o', some n) ∧
    NothingPaid Sample.later1 o.cfg.poolAddr ∧ VMap.get o.st.vals 2 = some v ∧ 0 < v.pend ∧
    o.st.poolFees + feeOf o.st.fee v.pend ≤ o'.st.poolFees ∧ o.st.poolFees < o'.st.poolFees := by
  obtain ⟨o, o', n, h1, h2, h3⟩ := Sample.ex_then (E := Sample.env) (o := newOracle Sample.cfg)
    (bs := [Sample.b0]) (b := Sample.later1)
    (P := fun o o' _ => decide (o.cfg.poolAddr = Sample.pool ∧ ∃ v ∈ VMap.get o.st.vals 2, 0 < v.pend ∧
      o.st.poolFees + feeOf o.st.fee v.pend ≤ o'.st.poolFees ∧ o.st.poolFees < o'.st.poolFees)) (by decide +kernel)
  obtain ⟨e, v, hv, q⟩ := of_decide_eq_true h3
  exact ⟨o, o', n, v, h1, h2, ⟨rfl, rfl, by rw [e]; exact Sample.later_unpaid (by decide) rfl⟩, hv, q⟩

/-- a slot that meets the hypotheses of `C101_charged_once_partial` while validators hold pending balances: an
outsider keeps its reward -/
example : ∃ o o' n v, Hist Sample.env (newOracle Sample.cfg) [Sample.b0] o ∧
    advanceState Sample.env o (Sample.prop 12000001 77 Sample.builder (Sample.tx Sample.builder (Sample.addr 77) 900) {}) =
      .ok (o', some n) ∧
    GasOK (Sample.prop 12000001 77 Sample.builder (Sample.tx Sample.builder (Sample.addr 77) 900) {}) ∧
    NothingPaid (Sample.prop 12000001 77 Sample.builder (Sample.tx Sample.builder (Sample.addr 77) 900) {}) o.cfg.poolAddr ∧
    (∀ i v, VMap.get o.st.vals i = some v → ¬ Forfeits Sample.env o.cfg.poolAddr
      (Sample.prop 12000001 77 Sample.builder (Sample.tx Sample.builder (Sample.addr 77) 900) {}) i) ∧
    VMap.get o.st.vals 2 = some v ∧ 0 < v.pend := by
  obtain ⟨o, o', n, h1, h2, h3⟩ := Sample.ex_then (E := Sample.env) (o := newOracle Sample.cfg)
    (bs := [Sample.b0]) (b := Sample.prop 12000001 77 Sample.builder (Sample.tx Sample.builder (Sample.addr 77) 900) {})
    (P := fun o _ _ => decide (o.cfg.poolAddr = Sample.pool ∧ VMap.get o.st.vals 77 = none ∧
      ∃ v ∈ VMap.get o.st.vals 2, 0 < v.pend)) (by decide +kernel)
  obtain ⟨e, e2, v, hv, q⟩ := of_decide_eq_true h3
  refine ⟨o, o', n, v, h1, h2, Sample.prop_gas, ⟨rfl, rfl, ?_⟩, ?_, hv, q⟩
  · rw [e]; exact Sample.later_unpaid (vs := []) (vu := []) (by decide) rfl
  · rintro i u hu (h | h | ⟨h, _⟩ | ⟨h, _⟩)
    · rw [← h.1] at hu
      exact absurd hu (by show VMap.get _ 77 ≠ _; rw [e2]; simp)
    · obtain ⟨_, _, _, h, _⟩ := h; cases h
    · cases h
    · exact absurd h (by decide)

end Verif
