import Verif.Props.Status
import Verif.Spec.SampleFacts
/-
C39: proposers who set the pool as fee recipient. The claim as written is false of the code: the
last transaction of the block decides before the fee recipient does.
-/
namespace Verif

/-- **C39** (partial). A validator that was not banned and whose block has the pool as protocol fee
recipient is not banned when the slot is processed, whatever else the block contains, provided
nobody votes it out (a ban event of the contract), the block's last transaction is not a recognised
builder's payment to somebody else, and the block is not the one of mainnet slot 10400574 on a
pool other than the one deployed there. Missing: the case of a recognised builder's payment to
somebody else, in which the claim is false, see `C39_false_builder_pays_elsewhere`. -/
theorem C39_fee_recipient_partial {E : Env} (hE : ValidEnv E) (hX : ExactEnv E)
    (hC : NoSelfConsol E) {o o' : Oracle} {b : FullBlock} {n : Nat} {c : ConsBlock} (hs : MapOK o.st)
    (h : advanceState E o b = .ok (o', some n)) (hc : b.cons = some c)
    (hfr : SameAddr c.feeRecipient o.cfg.poolAddr)
    (hlast : ∀ tx dest, BuilderPays b tx dest → ArrivesAt b tx dest o.cfg.poolAddr)
    (hex : ¬ ExceptionBlock b)
    (hban : ∀ ev ∈ b.events.bans, ev.validatorId ≠ b.dutyIndex)
    {v : Validator} (hv : VMap.get o.st.vals b.dutyIndex = some v) (hnb : v.status ≠ .banned) :
    ∃ v', VMap.get o'.st.vals b.dutyIndex = some v' ∧ v'.status ≠ .banned := by
  obtain ⟨v', hv', hpath⟩ := (C10_diagram hE hX hC hs h b.dutyIndex).1 v hv
  refine ⟨v', hv', fun hb => ?_⟩
  rw [hb] at hpath
  rcases Relation.ReflTransGen.cases_tail hpath with h1 | ⟨st, _, hedge⟩
  · exact hnb h1.symm
  · cases hedge with
    | wrongFee _ h1 =>
      refine h1.2.2 ⟨c, hc, ?_⟩
      by_cases hp : ∃ tx dest, BuilderPays b tx dest
      · obtain ⟨tx, dest, hp⟩ := hp
        exact .inr (.inl ⟨tx, dest, hp, hlast _ _ hp⟩)
      · exact .inr (.inr ⟨hex, fun tx dest h => hp ⟨tx, dest, h⟩, hfr⟩)
    | ban _ h1 h2 => exact hban _ h1 h2

/-- **C39**, with the hypothesis on the last transaction in terms of its sender only: when it was
sent neither by the pool itself (which is a contract) nor by a builder in the oracle's list, the
proposer is not banned. -/
theorem C39_unknown_sender_partial {E : Env} (hE : ValidEnv E) (hX : ExactEnv E)
    (hC : NoSelfConsol E) {o o' : Oracle} {b : FullBlock} {n : Nat} {c : ConsBlock} (hs : MapOK o.st)
    (h : advanceState E o b = .ok (o', some n)) (hc : b.cons = some c)
    (hfr : SameAddr c.feeRecipient o.cfg.poolAddr)
    (hsend : ∀ tx sender dest, LastTx b tx sender dest →
      ¬ SameAddr sender o.cfg.poolAddr ∧ ¬ KnownBuilder b.chainId sender)
    (hex : ¬ ExceptionBlock b)
    (hban : ∀ ev ∈ b.events.bans, ev.validatorId ≠ b.dutyIndex)
    {v : Validator} (hv : VMap.get o.st.vals b.dutyIndex = some v) (hnb : v.status ≠ .banned) :
    ∃ v', VMap.get o'.st.vals b.dutyIndex = some v' ∧ v'.status ≠ .banned := by
  refine C39_fee_recipient_partial hE hX hC hs h hc hfr ?_ hex hban hv hnb
  rintro tx dest ⟨_, c', sender, hc', hl, h1 | h1⟩
  · rw [hc, Option.some.injEq] at hc'; subst hc'
    exact ((hsend _ _ _ hl).1 (h1.symm.trans hfr)).elim
  · exact ((hsend _ _ _ hl).2 h1).elim

/-- validator 2 (yellow card) proposes with the pool as fee recipient and no builder involved -/
example : ∃ o' v', advanceState Sample.env Sample.oracle Sample.b1 = .ok (o', some 12000001) ∧
    VMap.get o'.st.vals 2 = some v' ∧ v'.status ≠ .banned := by
  obtain ⟨⟨o', m⟩, h, hm⟩ := Sample.ex_ok (x := advanceState Sample.env Sample.oracle Sample.b1)
    (P := fun p => p.2 == some 12000001) (by decide +kernel)
  simp only [beq_iff_eq] at hm; subst hm
  obtain ⟨v', h1, h2⟩ := C39_unknown_sender_partial (v := Sample.val 2 .yellowCard 20000 6)
    Sample.env_valid Sample.env_exact Sample.env_noSelf
    Sample.st_ok h rfl (Sample.same _) (by
      rintro tx s d ⟨c, hc, hl, hs, hd⟩
      simp only [Sample.b1, Sample.prop, Option.some.injEq] at hc
      subst hc
      simp only [List.getLast?_singleton, Option.some.injEq] at hl
      subst hl
      simp only [Sample.tx, Option.some.injEq] at hs
      subst hs
      exact ⟨by decide, by decide⟩)
    (Sample.prop_notException (by decide)) (by simp [Sample.b1, Sample.prop]) rfl (by decide)
  exact ⟨o', v', h, h1, h2⟩

namespace Sample
/-- a block of validator 2 whose fee recipient is the pool, and whose last transaction is a transfer
of one wei from the builder in the oracle's list to an unrelated address -/
def framed : FullBlock :=
  prop 12000001 2 pool (tx b!"0xae0A3D884E746599BD6C893a674E556C36a47f1e" (addr 51) 1) {}
end Sample

/-- **C39 is false in general**: a subscribed validator whose block has the pool as fee recipient is
banned, and loses its pending rewards, when the last transaction of its block is sent by the builder
in the oracle's list to anybody but the pool. -/
theorem C39_false_builder_pays_elsewhere :
    (∃ c, Sample.framed.cons = some c ∧ SameAddr c.feeRecipient Sample.oracle.cfg.poolAddr) ∧
    (∃ v, VMap.get Sample.oracle.st.vals 2 = some v ∧ v.status = .yellowCard ∧ v.pend = 20000) ∧
    ∃ o', advanceState Sample.env Sample.oracle Sample.framed = .ok (o', some 12000001) ∧
      ∃ v', VMap.get o'.st.vals 2 = some v' ∧ v'.status = .banned ∧ v'.pend = 0 := by
  refine ⟨⟨_, rfl, Sample.same _⟩, ⟨_, rfl, rfl, rfl⟩, ?_⟩
  have h : ((advanceState Sample.env Sample.oracle Sample.framed).toOption.map fun r =>
      (r.2, (VMap.get r.1.st.vals 2).map fun v => (v.status, v.pend))) =
      some (some 12000001, some (.banned, 0)) := by decide +kernel
  cases hr : advanceState Sample.env Sample.oracle Sample.framed with
  | error e => rw [hr] at h; simp [Except.toOption] at h
  | ok r =>
    rw [hr] at h
    obtain ⟨o', n⟩ := r
    simp only [Except.toOption, Option.map_some, Option.some.injEq, Prod.mk.injEq] at h
    obtain ⟨rfl, h⟩ := h
    cases hv : VMap.get o'.st.vals 2 with
    | none => rw [hv] at h; simp at h
    | some v' =>
      rw [hv] at h
      simp only [Option.map_some, Option.some.injEq, Prod.mk.injEq] at h
      exact ⟨o', rfl, v', hv, h.1, h.2⟩

end Verif
