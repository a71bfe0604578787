import Verif.Lemmas.Proposal
import Verif.Spec.Sample
import Mathlib.Logic.Relation
/-
C10, C11: the life cycle of a validator.
-/
namespace Verif
open VMap Relation

/-- operations of a slot move the status of a validator along the documented edges only -/
theorem edge_of_vstep {E n b sb dons op f v v'} {o : Oracle} {i : Nat}
    (hsb : summarize o.st b o.cfg.poolAddr = .ok sb)
    (hc : Cause E n o.st.collateral b sb dons op) (hv : VStep i f op v v') :
    ReflTransGen (Edge E n o.cfg.poolAddr o.st.collateral b i) v.status v'.status := by
  have hidx : sb.index = b.dutyIndex := (summarize_slot hsb).2.1
  have hok := summarize_okPool hsb
  obtain ⟨_, hwf, hms⟩ := summarize_paid hsb
  have hpays : sb.type = .okPool ∧ sb.index = i → ∃ w, PaysPool b o.cfg.poolAddr i w := by
    rintro ⟨h1, h2⟩
    obtain ⟨h3, w, h4⟩ := hok.mp h1
    exact ⟨w, hidx.symm.trans h2, h3, h4⟩
  have hone : ∀ {st st'}, Edge E n o.cfg.poolAddr o.st.collateral b i st st' →
      ReflTransGen (Edge E n o.cfg.poolAddr o.st.collateral b i) st st' := fun h => .single h
  cases hv with
  | same => exact .refl
  | adv e v he =>
    show ReflTransGen _ v.status (transition v.status e)
    cases e with
    | manualSubscription =>
      obtain ⟨ev, w, u, h1, h2⟩ := hc
      cases v.status <;> first | exact .refl | exact hone (.subscribe h1 h2)
    | autoSubscription =>
      obtain ⟨w, hw⟩ := hpays hc
      cases v.status <;> first | exact .refl | exact hone (.autoSubscribe hw)
    | proposalOk =>
      obtain ⟨w, hw⟩ := hpays hc
      cases v.status <;> first | exact .refl | exact hone (.okYellow hw) | exact hone (.okRed hw)
    | proposalMissed =>
      have hm : Misses b i := ⟨hidx.symm.trans hc.2, hms.mp hc.1⟩
      cases v.status <;> first | exact .refl | exact hone (.missActive hm) | exact hone (.missYellow hm)
    | manualUnban =>
      obtain ⟨ev, h1, h2⟩ := hc
      cases v.status <;> first | exact .refl | exact hone (.unban h1 h2)
    | unsubscribe => exact hc.elim
    | proposalWrongFee => exact hc.elim
    | manualBan => exact hc.elim
    | unknownEvent => exact hc.elim
  | seize e v he =>
    show ReflTransGen _ v.status (transition v.status e)
    cases e with
    | unsubscribe =>
      by_cases hs : Subscribed v.status
      · have : transition v.status .unsubscribe = .notSubscribed := by
          rcases hs with h | h | h <;> rw [h] <;> rfl
        rw [this]
        rcases hc with hc | ⟨h1, h2⟩
        · exact hone (.unsubscribe hs hc)
        · exact hone (.leftChain hs h1 h2)
      · have : transition v.status .unsubscribe = v.status := by
          cases hst : v.status <;> simp [Subscribed, hst] at hs <;> rfl
        rw [this]
    | proposalWrongFee =>
      have hw : PaysElsewhere b o.cfg.poolAddr i := ⟨hidx.symm.trans hc.2, (hwf.mp hc.1).1, (hwf.mp hc.1).2⟩
      by_cases hs : Subscribed v.status
      · have : transition v.status .proposalWrongFee = .banned := by
          rcases hs with h | h | h <;> rw [h] <;> rfl
        rw [this]; exact hone (.wrongFee hs hw)
      · have : transition v.status .proposalWrongFee = v.status := by
          cases hst : v.status <;> simp [Subscribed, hst] at hs <;> rfl
        rw [this]
    | manualBan =>
      obtain ⟨ev, h1, h2⟩ := hc
      by_cases hs : Subscribed v.status
      · have : transition v.status .manualBan = .banned := by
          rcases hs with h | h | h <;> rw [h] <;> rfl
        rw [this]; exact hone (.ban hs h1 h2)
      · have : transition v.status .manualBan = v.status := by
          cases hst : v.status <;> simp [Subscribed, hst] at hs <;> rfl
        rw [this]
    | _ => exact hc.elim
  | moveOut j v =>
    show ReflTransGen _ v.status (transition v.status .unsubscribe)
    obtain ⟨h1, h2, _⟩ := hc
    by_cases hs : Subscribed v.status
    · have : transition v.status .unsubscribe = .notSubscribed := by
        rcases hs with h | h | h <;> rw [h] <;> rfl
      rw [this]
      exact hone (.leftChain hs h1 h2)
    · have : transition v.status .unsubscribe = v.status := by
        cases hst : v.status <;> simp [Subscribed, hst] at hs <;> rfl
      rw [this]
  | moveIn => exact .refl
  | subType => exact .refl
  | toAcc => exact .refl
  | toPend => exact .refl
  | consol => exact .refl
  | dist => exact .refl

/-- **C10.** In one slot the status of a tracked validator moves only along edges of the documented
diagram, each justified by what the block (or, at cleanup slots, the beacon chain) contains; a
validator that appears in the slot starts as not subscribed. -/
theorem C10_diagram {E : Env} (hE : ValidEnv E) (hX : ExactEnv E) (hC : NoSelfConsol E)
    {o o' : Oracle} {b : FullBlock} {n : Nat} (hs : MapOK o.st)
    (h : advanceState E o b = .ok (o', some n)) (i : Nat) :
    (∀ v, VMap.get o.st.vals i = some v → ∃ v', VMap.get o'.st.vals i = some v' ∧
      ReflTransGen (Edge E n o.cfg.poolAddr o.st.collateral b i) v.status v'.status) ∧
    (∀ v', VMap.get o.st.vals i = none → VMap.get o'.st.vals i = some v' →
      ReflTransGen (Edge E n o.cfg.poolAddr o.st.collateral b i) .notSubscribed v'.status) := by
  obtain ⟨sb, dons, r, ops, k1, _, _, _, hp, _, hcause, _⟩ := slot_runs (x := False) hE hX hC hs
    (fun hf => hf.elim) h
  have hlift : ∀ {ops a}, Path False ops a (o'.st.bal 0) →
      (∀ op ∈ ops, Cause E n o.st.collateral b sb dons op) →
      ∀ {v}, VMap.get a.vals i = some v → ∃ v', VMap.get o'.st.vals i = some v' ∧
      ReflTransGen (Edge E n o.cfg.poolAddr o.st.collateral b i) v.status v'.status := by
    intro ops a hp hc v hv
    exact hp.lift (fun a c => ReflTransGen (Edge E n o.cfg.poolAddr o.st.collateral b i) a.status c.status)
      (fun _ => .refl) (fun _ _ _ h1 h2 => h1.trans h2) _ hc
      (fun op f a c hc hv => edge_of_vstep k1 hc hv) hv
  refine ⟨fun v hv => hlift hp hcause (v := v) hv, ?_⟩
  intro v' hn hv'
  rcases hp.origin hv' with ⟨v, hv⟩ | ⟨pre, post, v, c, e, hst, _, _, _, hv, hpost⟩
  · change VMap.get o.st.vals i = some v at hv
    rw [hn] at hv; simp at hv
  · obtain ⟨w, hw, hr⟩ := hlift hpost (fun op ho => hcause op (by rw [e]; simp [ho])) hv
    rw [hv', Option.some.injEq] at hw
    rw [hst] at hr; rw [hw]; exact hr

/-- One slot keeps the map well formed and all statuses documented. -/
theorem slot_five {E : Env} (hE : ValidEnv E) (hX : ExactEnv E) (hC : NoSelfConsol E)
    {o o' : Oracle} {b : FullBlock} {n : Nat} (hs : MapOK o.st) (h5 : FiveStates o.st)
    (h : advanceState E o b = .ok (o', some n)) : MapOK o'.st ∧ FiveStates o'.st := by
  obtain ⟨sb, dons, r, ops, k1, _, _, _, hp, _, hcause, _⟩ := slot_runs (x := False) hE hX hC hs
    (fun hf => hf.elim) h
  have hs1 : Sorted o'.st.vals := hp.sorted hs
  refine ⟨hs1, ?_⟩
  have := hp.inv (fun _ v => Documented v.status) _ hcause ?_ ?_ (fun i v hv => h5.get hv)
  · intro p hpm
    exact this p.1 p.2 (hs1.get_of_mem hpm)
  · intro i op f v v' hc hv hd
    have hr := edge_of_vstep (o := o) k1 hc hv
    rcases hr.cases_tail with he | ⟨c, _, he⟩
    · rw [he]; exact hd
    · generalize v'.status = st at he
      cases he <;> first | exact Or.inl (Or.inl rfl) | exact Or.inl (Or.inr (Or.inl rfl)) |
        exact Or.inl (Or.inr (Or.inr rfl)) | exact Or.inr (Or.inl rfl) | exact Or.inr (Or.inr rfl)
  · intro i v _ hst _ _ _
    rw [hst]; exact Or.inr (Or.inl rfl)

theorem hist_five {E : Env} (hE : ValidEnv E) (hX : ExactEnv E) (hC : NoSelfConsol E)
    {o o' : Oracle} {bs : List FullBlock} (h : Hist E o bs o') (hs : MapOK o.st) (h5 : FiveStates o.st) :
    MapOK o'.st ∧ FiveStates o'.st := by
  induction h with
  | nil => exact ⟨hs, h5⟩
  | cons hstep _ ih =>
    obtain ⟨h1, h2⟩ := slot_five hE hX hC hs h5 hstep
    exact ih h1 h2

/-- **C10.** Over any history from a fresh oracle every validator is in one of the five documented
states. -/
theorem C10_five_states {E : Env} (hE : ValidEnv E) (hX : ExactEnv E) (hC : NoSelfConsol E)
    {cfg : Config} {bs : List FullBlock} {o' : Oracle} (h : Hist E (newOracle cfg) bs o') :
    ∀ i v, VMap.get o'.st.vals i = some v → v.status = .active ∨ v.status = .yellowCard ∨
      v.status = .redCard ∨ v.status = .notSubscribed ∨ v.status = .banned := by
  have := (hist_five hE hX hC h List.Pairwise.nil (by intro p hp; simp [newOracle] at hp)).2
  intro i v hv
  rcases this.get hv with (h | h | h) | h | h <;> simp [h]

example : Hist Sample.env (newOracle Sample.cfg) Sample.blocks Sample.final ∧
    (VMap.get Sample.final.st.vals 1).map (·.status) = some .banned :=
  ⟨Sample.hist, by decide +kernel⟩

/-- records during the late stage move along late edges -/
theorem lateEdge_of_vstep {E n b sb dons op f v v'} {i : Nat} (hc : Late E n b sb dons op)
    (hv : VStep i f op v v') : ReflTransGen (LateEdge E n b i) v.status v'.status := by
  rcases Late.vstep hc hv with rfl | ⟨y, _, rfl⟩ | ⟨j, y, _, _, _, rfl⟩ | ⟨h, rfl⟩ | ⟨⟨ev, h1, h2⟩, rfl⟩ |
    ⟨⟨ev, h1, h2⟩, rfl⟩
  · exact .refl
  · exact .refl
  · exact .refl
  · show ReflTransGen _ v.status (transition v.status .unsubscribe)
    by_cases hs : Subscribed v.status
    · have : transition v.status .unsubscribe = .notSubscribed := by
        rcases hs with h | h | h <;> rw [h] <;> rfl
      rw [this]
      rcases h with h | ⟨h1, h2⟩
      · exact .single (.unsubscribe hs h)
      · exact .single (.leftChain hs h1 h2)
    · have : transition v.status .unsubscribe = v.status := by
        cases hst : v.status <;> simp [Subscribed, hst] at hs <;> rfl
      rw [this]
  · show ReflTransGen _ v.status (transition v.status .manualBan)
    by_cases hs : Subscribed v.status
    · have : transition v.status .manualBan = .banned := by
        rcases hs with h | h | h <;> rw [h] <;> rfl
      rw [this]; exact .single (.ban hs h1 h2)
    · have : transition v.status .manualBan = v.status := by
        cases hst : v.status <;> simp [Subscribed, hst] at hs <;> rfl
      rw [this]
  · show ReflTransGen _ v.status (transition v.status .manualUnban)
    cases v.status <;> first | exact .refl | exact .single (.unban h1 h2)

theorem logged_five {o : Oracle} {b fee} (h : FiveStates o.st) : FiveStates (logged o b fee) := h

/-- what the proposal stage does to a status -/
theorem proposalStep_of {o : Oracle} {b : FullBlock} {sb} {i : Nat} {st : Status}
    (hsb : summarize o.st b o.cfg.poolAddr = .ok sb) :
    ProposalStep b o.cfg.poolAddr i st
      (if i = sb.index then
        match sb.type with
        | .missed => afterMiss st
        | .wrongFee => if Subscribed st then .banned else st
        | .okPool => afterPay st
        | _ => st
      else st) := by
  obtain ⟨_, hidx, _, hms, hun⟩ := summarize_slot hsb
  have hok := summarize_okPool hsb
  obtain ⟨hpd, hwf, _⟩ := summarize_paid hsb
  split
  · rename_i hi
    have hduty : b.dutyIndex = i := by rw [hi, hidx]
    cases ht : sb.type with
    | missed => exact .misses ⟨hduty, hms.mp ht⟩
    | wrongFee =>
      have hp : PaysElsewhere b o.cfg.poolAddr i := ⟨hduty, (hwf.mp ht).1, (hwf.mp ht).2⟩
      dsimp only
      split
      · rename_i hs; exact .elsewhere hp hs
      · rename_i hs; exact .outsider hp hs
    | okPool =>
      obtain ⟨h1, w, h2⟩ := hok.mp ht
      exact .pays (w := w) ⟨hduty, h1, h2⟩
    | okPoolBls =>
      have h1 := hpd.mp (Or.inr ht)
      refine .noAddress hduty h1 ?_
      intro w hw
      rw [hok.mpr ⟨h1, w, hw⟩] at ht; simp at ht
    | unknown => exact absurd ht hun
  · rename_i hi
    exact .other (by rw [← hidx]; exact fun h => hi h.symm)

/-- **C10.** The order of the steps inside a slot: at most one subscription, then exactly what the
proposal of the block implies (one miss is one step), then unsubscriptions, bans, unbans and, at
cleanup slots, leaving the chain. -/
theorem C10_one_step_per_proposal {E : Env} (hE : ValidEnv E) (hX : ExactEnv E) (hC : NoSelfConsol E)
    {cfg : Config} {bs : List FullBlock} {o o' : Oracle} {b : FullBlock} {n : Nat}
    (hh : Hist E (newOracle cfg) bs o)
    (h : advanceState E o b = .ok (o', some n)) {i : Nat} {v : Validator}
    (hv : VMap.get o.st.vals i = some v) :
    ∃ v' st1 st2, VMap.get o'.st.vals i = some v' ∧
      (st1 = v.status ∨ (v.status = .notSubscribed ∧ st1 = .active ∧
        ∃ ev w u, OwnerSubscribes b i ev w u ∧ o.st.collateral ≤ ev.collateral)) ∧
      ProposalStep b o.cfg.poolAddr i st1 st2 ∧
      ReflTransGen (LateEdge E n b i) st2 v'.status := by
  obtain ⟨hs, h5⟩ := hist_five hE hX hC hh List.Pairwise.nil (by intro p hp; simp [newOracle] at hp)
  obtain ⟨sb, dons, s1, s5, ops, hn, hsb, hd, hsub, hs1, hpr, hs5, hp, hl⟩ := slot_stages hE hX hC hs h
  obtain ⟨_, heff, h51⟩ := handleSubs_effects (logged_five h5) (s := logged o b o'.st.fee) hs hsub
  have hun : sb.type ≠ .unknown := (summarize_slot hsb).2.2.2.2
  have hcase : ∃ v1, VMap.get s1.vals i = some v1 ∧ (v1.status = v.status ∨
      (v.status = .notSubscribed ∧ v1.status = .active ∧
        ∃ ev w u, OwnerSubscribes b i ev w u ∧ o.st.collateral ≤ ev.collateral)) := by
    have key : ∀ {s l s'}, SubEffects s l s' → (∀ p ∈ l, p ∈ b.events.subs.zip b.valsSubs) →
        s.collateral = o.st.collateral → ∀ {v}, VMap.get s.vals i = some v →
        ∃ v1, VMap.get s'.vals i = some v1 ∧ (v1.status = v.status ∨
        (v.status = .notSubscribed ∧ v1.status = .active ∧
        ∃ ev w u, OwnerSubscribes b i ev w u ∧ o.st.collateral ≤ ev.collateral)) := by
      intro s l s' he
      induction he with
      | nil => exact fun _ _ v hv => ⟨v, hv, Or.inl rfl⟩
      | @cons s p s1 l s2 he _ ih =>
        intro hmem hcol v hv
        have : s1.collateral = o.st.collateral ∧ ∃ v1, VMap.get s1.vals i = some v1 ∧
            (v1.status = v.status ∨ (v.status = .notSubscribed ∧ v1.status = .active ∧
            ∃ ev w u, OwnerSubscribes b i ev w u ∧ o.st.collateral ≤ ev.collateral)) := by
          cases he with
          | @fresh v' w' hby hg _ =>
            have hid : i ≠ p.1.validatorId := by rintro rfl; rw [hv] at hg; simp at hg
            exact ⟨hcol, v, by dsimp only; rw [get_insert, if_neg hid]; exact hv, Or.inl rfl⟩
          | @again v' w' u hby hg hu hc =>
            by_cases hid : i = p.1.validatorId
            · rw [hid] at hv
              rw [hv, Option.some.injEq] at hg; subst hg
              refine ⟨hcol, { v with status := .active, pend := v.pend + p.1.collateral, subType := .manual },
                ?_, Or.inr ⟨hu, ?_, p.1, w', v', ?_, ?_⟩⟩
              · dsimp only; rw [hid, get_modify_self, hv]; rfl
              · rfl
              · obtain ⟨e1, e2, e3, e4, e5⟩ := hby
                refine ⟨?_, hid.symm, e2.trans hid.symm, e3, e4, e5⟩
                rw [← e1]; exact hmem p (by simp)
              · rw [← hcol]; exact hc
            · exact ⟨hcol, v, by dsimp only; rw [get_modify_ne _ _ hid]; exact hv, Or.inl rfl⟩
          | @returned v' w' u hby hg _ =>
            by_cases hid : i = p.1.validatorId
            · refine ⟨hcol, { v with acc := v.acc + p.1.collateral }, ?_, Or.inl rfl⟩
              dsimp only; rw [hid, get_modify_self, ← hid, hv]; rfl
            · exact ⟨hcol, v, by dsimp only; rw [get_modify_ne _ _ hid]; exact hv, Or.inl rfl⟩
          | notOwner hno => exact ⟨hcol, v, hv, Or.inl rfl⟩
          | tooLittle => exact ⟨hcol, v, hv, Or.inl rfl⟩
        obtain ⟨c1, v1, h1, hs1⟩ := this
        obtain ⟨v2, h2, hs2⟩ := ih (fun q hq => hmem q (by simp [hq])) c1 h1
        refine ⟨v2, h2, ?_⟩
        rcases hs1 with e1 | ⟨e1, f1, g1⟩
        · rw [← e1]; exact hs2
        · rcases hs2 with e2 | ⟨e2, f2, _⟩
          · exact Or.inr ⟨e1, e2.trans f1, g1⟩
          · rw [f1] at e2; simp at e2
    exact key heff (fun p hp => hp) rfl (v := v) hv
  obtain ⟨v1, hv1, hst1⟩ := hcase
  obtain ⟨y, _, hv5, _⟩ := proposal_record hE hX hs1 h51 hun hpr hv1
  obtain ⟨v', hv', hr⟩ := hp.lift (fun a c => ReflTransGen (LateEdge E n b i) a.status c.status)
    (fun _ => .refl) (fun _ _ _ h1 h2 => h1.trans h2) _ hl
    (fun op f a c hc hv => lateEdge_of_vstep hc hv) hv5
  refine ⟨v', v1.status, _, hv', hst1, proposalStep_of hsb, ?_⟩
  convert hr using 1
  split
  · cases sb.type <;> try rfl
    dsimp only
    split <;> rfl
  · rfl

/-- The last sample block makes validator 1 propose for somebody else and validator 2 unsubscribe. -/
example : ∃ o o' n, Hist Sample.env (newOracle Sample.cfg) [Sample.b0, Sample.b1, Sample.b2] o ∧
    advanceState Sample.env o Sample.b3 = .ok (o', some n) ∧
    (VMap.get o.st.vals 2).map (·.status) = some .yellowCard ∧
    (VMap.get o'.st.vals 2).map (·.status) = some .notSubscribed := by
  obtain ⟨o, h1, h2⟩ := Sample.ex_hist (E := Sample.env) (o := newOracle Sample.cfg)
    (bs := [Sample.b0, Sample.b1, Sample.b2])
    (P := fun o => decide ((VMap.get o.st.vals 2).map (·.status) = some .yellowCard) &&
      (advanceState Sample.env o Sample.b3).toOption.any fun p => p.2.isSome &&
        decide ((VMap.get p.1.st.vals 2).map (·.status) = some .notSubscribed)) (by decide +kernel)
  simp only [Bool.and_eq_true, decide_eq_true_eq] at h2
  obtain ⟨o', n, h3, h4⟩ := Sample.ex_slot (E := Sample.env) (o := o) (b := Sample.b3)
    (P := fun o' => decide ((VMap.get o'.st.vals 2).map (·.status) = some .notSubscribed)) h2.2
  exact ⟨o, o', n, h1, h3, h2.1, by simpa using h4⟩

/-! ### C11 -/

/-- banned validators have nothing pending -/
theorem hist_banned_pend {E : Env} (hE : ValidEnv E) (hX : ExactEnv E) (hC : NoSelfConsol E)
    {o o' : Oracle} {bs : List FullBlock} (h : Hist E o bs o') (hs : MapOK o.st)
    (h0 : ∀ i v, VMap.get o.st.vals i = some v → v.status = .banned → v.pend = 0) :
    ∀ i v, VMap.get o'.st.vals i = some v → v.status = .banned → v.pend = 0 := by
  induction h with
  | nil => exact h0
  | @cons o b o1 n bs o2 hstep _ ih =>
    obtain ⟨sb, dons, r, ops, k1, _, _, _, hp, _, hcause, _⟩ := slot_runs (x := False) hE hX hC hs
      (fun hf => hf.elim) hstep
    refine ih (hp.sorted hs) ?_
    refine hp.inv (fun _ v => v.status = .banned → v.pend = 0) _ hcause ?_ ?_ h0
    · intro i op f v v' _ hv hb
      cases hv with
      | same => exact hb
      | adv e v he =>
        intro h
        apply hb
        change transition v.status e = .banned at h
        cases e <;> simp only [Ev.forfeits, reduceCtorEq, or_true, true_or, not_true_eq_false, or_false,
          not_false_eq_true] at he <;> revert h <;> cases v.status <;> simp [transition]
      | seize => exact fun _ => rfl
      | moveOut => exact fun _ => rfl
      | moveIn j v y hnb => exact fun h => absurd h hnb
      | subType => exact hb
      | toAcc => exact hb
      | toPend v hnb => exact fun h => absurd h hnb
      | consol => exact fun _ => rfl
      | dist sh fees v y he =>
        intro h
        rcases he with he | he <;> (change v.status = .banned at h; rw [h] at he; simp at he)
    · intro i v _ _ _ hp0 _ _
      exact hp0

/-- **C11.** In any reachable state a banned validator has no pending balance. -/
theorem C11_banned_nothing_pending {E : Env} (hE : ValidEnv E) (hX : ExactEnv E) (hC : NoSelfConsol E)
    {cfg : Config} {bs : List FullBlock} {o' : Oracle} (h : Hist E (newOracle cfg) bs o') {i v}
    (hv : VMap.get o'.st.vals i = some v) (hb : v.status = .banned) : v.pend = 0 :=
  hist_banned_pend hE hX hC h List.Pairwise.nil
    (by intro i v hv; simp [newOracle, VMap.get] at hv) i v hv hb

/-- the late stage does not touch a banned validator unless it is unbanned -/
theorem late_banned {E n b sb dons op f v v'} {i : Nat} (hno : ∀ ev ∈ b.events.unbans, ev.validatorId ≠ i)
    (hc : Late E n b sb dons op) (hv : VStep i f op v v') (hb : v.status = .banned) (hp : v.pend = 0) :
    v' = v := by
  rcases Late.vstep hc hv with rfl | ⟨y, he, rfl⟩ | ⟨j, y, hnb, _, _, rfl⟩ | ⟨h, rfl⟩ | ⟨⟨ev, h1, h2⟩, rfl⟩ |
    ⟨⟨ev, h1, h2⟩, rfl⟩
  · rfl
  · rcases he with he | he <;> rw [hb] at he <;> simp at he
  · exact absurd hb hnb
  · cases v; simp only at hb hp; subst hb hp; rfl
  · cases v; simp only at hb hp; subst hb hp; rfl
  · exact absurd h2 (hno ev h1)

theorem late_banned_path {E n b sb dons ops a c v} {i : Nat}
    (hno : ∀ ev ∈ b.events.unbans, ev.validatorId ≠ i) (hp : Path False ops a c)
    (hl : ∀ op ∈ ops, Late E n b sb dons op) (hv : VMap.get a.vals i = some v)
    (hb : v.status = .banned) (hp0 : v.pend = 0) : VMap.get c.vals i = some v := by
  obtain ⟨v', hv', hr⟩ := hp.lift (fun a c => a.status = .banned → a.pend = 0 → c = a)
    (fun _ _ _ => rfl) (fun u v w h1 h2 e1 e2 => by
      have := h1 e1 e2; subst this; exact h2 e1 e2) _ hl
    (fun op f a c hc hv hb hp => late_banned hno hc hv hb hp) hv
  rw [hv', hr hb hp0]

/-- a banned validator up to the end of the proposal stage -/
theorem early_banned {E : Env} (hE : ValidEnv E) (hX : ExactEnv E) {o : Oracle} {b : FullBlock}
    {fee sb s1 s5} {i v} (hs : MapOK o.st) (h5 : FiveStates o.st)
    (hsb : summarize o.st b o.cfg.poolAddr = .ok sb)
    (hsub : handleSubs (logged o b fee) b.events.subs b.valsSubs = .ok s1) (hs1 : Sorted s1.vals)
    (hpr : proposalStage E o.cfg.network s1 sb = .ok s5)
    (hv : VMap.get o.st.vals i = some v) (hb : v.status = .banned) (hp0 : v.pend = 0) :
    VMap.get s5.vals i = some { v with acc := v.acc + ownerSent b i } := by
  obtain ⟨_, heff, h51⟩ := handleSubs_effects (logged_five h5) (s := logged o b fee) hs hsub
  have h1 := heff.settled (i := i) hv (Or.inr hb)
  obtain ⟨y, hy, hv5, _⟩ := proposal_record hE hX hs1 h51 (summarize_slot hsb).2.2.2.2 hpr h1
  rw [hv5, hy hb]
  have e1 : afterMiss v.status = v.status := by rw [hb]; rfl
  have e2 : afterPay v.status = v.status := by rw [hb]; rfl
  have e3 : ¬ Subscribed v.status := by rw [hb]; decide
  have e4 : v.status ≠ .notSubscribed := by rw [hb]; decide
  split
  · cases sb.type <;> simp [e1, e2, e3, e4, hp0, ownerSent]
  · simp [ownerSent]

/-- **C11.** A ban is permanent until an unban: after any further blocks without an unban event for
it, a banned validator's record is the same except that collateral sent by its owner is added to the
accumulated balance. -/
theorem C11_ban_permanent {E : Env} (hE : ValidEnv E) (hX : ExactEnv E) (hC : NoSelfConsol E)
    {cfg : Config} {bs bs' : List FullBlock} {o o' : Oracle} (h0 : Hist E (newOracle cfg) bs o)
    (h : Hist E o bs' o') {i v} (hv : VMap.get o.st.vals i = some v) (hb : v.status = .banned)
    (hno : ∀ b ∈ bs', ∀ ev ∈ b.events.unbans, ev.validatorId ≠ i) :
    VMap.get o'.st.vals i =
      some { v with acc := v.acc + (bs'.map fun b => ownerSent b i).sum } := by
  obtain ⟨hs, h5⟩ := hist_five hE hX hC h0 List.Pairwise.nil (by intro p hp; simp [newOracle] at hp)
  have hp0 := C11_banned_nothing_pending hE hX hC h0 hv hb
  clear h0
  induction h generalizing v with
  | nil => simp [hv]
  | @cons o b o1 n bs o2 hstep _ ih =>
    obtain ⟨k1, k2⟩ := slot_five hE hX hC hs h5 hstep
    obtain ⟨sb, dons, s1, s5, ops, hn, hsb, hd, hsub, hs1, hpr, hs5, hp, hl⟩ :=
      slot_stages hE hX hC hs hstep
    have hv5 := early_banned hE hX hs h5 hsb hsub hs1 hpr hv hb hp0
    have hv1 : VMap.get o1.st.vals i = some { v with acc := v.acc + ownerSent b i } :=
      late_banned_path (hno b (by simp)) hp hl hv5 hb hp0
    have := ih hv1 hb (fun c hc => hno c (by simp [hc])) k1 k2 hp0
    rw [this]
    simp only [List.map_cons, List.sum_cons, add_assoc]

theorem get_unbanLoop (l : List BanEvent) (s : State) (i : Nat) {v} (hv : VMap.get s.vals i = some v)
    (hb : v.status = .banned) : VMap.get (unbanLoop l s).vals i =
      some { v with status := if ∃ ev ∈ l, ev.validatorId = i then .active else .banned } := by
  have hact : ∀ (l : List BanEvent) (s : State) {v}, VMap.get s.vals i = some v → v.status = .active →
      VMap.get (unbanLoop l s).vals i = some v := by
    intro l
    induction l with
    | nil => exact fun s v h _ => h
    | cons ev l ih =>
      intro s v hv ha
      unfold unbanLoop
      split
      · exact ih s hv ha
      · rename_i hbn
        refine ih _ ?_ ha
        simp only [Bool.not_eq_true', Bool.not_eq_false] at hbn
        obtain ⟨u, hu, hub⟩ := (isBanned_iff _).mp hbn
        have hne : i ≠ ev.validatorId := by
          rintro rfl; rw [hv, Option.some.injEq] at hu; subst hu; rw [ha] at hub; simp at hub
        simp only [State.advance, State.modVal]
        rw [get_modify_ne _ _ hne]; exact hv
  induction l generalizing s with
  | nil =>
    simp only [unbanLoop, List.not_mem_nil, false_and, exists_false, if_false]
    rw [hv, ← hb]
  | cons ev l ih =>
    unfold unbanLoop
    by_cases hid : ev.validatorId = i
    · have hbn : s.isBanned ev.validatorId = true := (isBanned_iff _).mpr ⟨v, by rw [hid]; exact hv, hb⟩
      simp only [hbn, Bool.not_true, Bool.false_eq_true, if_false]
      rw [if_pos ⟨ev, by simp, hid⟩]
      apply hact _ _ _ rfl
      simp only [State.advance, State.modVal, hid]
      rw [get_modify_self, hv]
      simp [hb, transition]
    · have e : (∃ e ∈ ev :: l, e.validatorId = i) ↔ ∃ e ∈ l, e.validatorId = i := by
        constructor
        · rintro ⟨e, he, h⟩
          rcases List.mem_cons.mp he with rfl | he
          · exact absurd h hid
          · exact ⟨e, he, h⟩
        · rintro ⟨e, he, h⟩; exact ⟨e, by simp [he], h⟩
      simp only [e]
      split
      · exact ih s hv
      · apply ih
        simp only [State.advance, State.modVal]
        rw [get_modify_ne _ _ (Ne.symm hid)]; exact hv

/-- **C11.** An unban event makes a banned validator active again, with nothing pending but what it
earns in the same slot, and its accumulated balance kept. -/
theorem C11_unban {E : Env} (hE : ValidEnv E) (hX : ExactEnv E) (hC : NoSelfConsol E)
    {cfg : Config} {bs : List FullBlock} {o o' : Oracle} {b : FullBlock} {n : Nat}
    (h0 : Hist E (newOracle cfg) bs o) (h : advanceState E o b = .ok (o', some n)) {i v}
    (hv : VMap.get o.st.vals i = some v) (hb : v.status = .banned)
    (hun : ∃ ev ∈ b.events.unbans, ev.validatorId = i) (hon : ¬ (n % 1200 = 0 ∧ NotActive E n i)) :
    ∃ y, (n % 1200 ≠ 0 → y = 0) ∧ VMap.get o'.st.vals i =
      some { v with status := .active, pend := y, acc := v.acc + ownerSent b i } := by
  obtain ⟨hs, h5⟩ := hist_five hE hX hC h0 List.Pairwise.nil (by intro p hp; simp [newOracle] at hp)
  have hp0 := C11_banned_nothing_pending hE hX hC h0 hv hb
  obtain ⟨sb, dons, s1, s5, s8, s9, ops1, ops2, hn, hsb, hd, hsub, hs1, hpr, hs5, hp1, hl1, hu, hp2, hl2, hq⟩ :=
    slot_stages2 hE hX hC hs h
  have hv5 := early_banned hE hX hs h5 hsb hsub hs1 hpr hv hb hp0
  have hv8 : VMap.get s8.vals i = some { v with acc := v.acc + ownerSent b i } :=
    late_banned_path (by intro ev hev; simp at hev) hp1 hl1 hv5 hb hp0
  unfold handleUnbans at hu
  split at hu
  · simp at hu
  · simp only [Except.ok.injEq] at hu
    have hv9 := get_unbanLoop b.events.unbans s8 i hv8 hb
    rw [hu, if_pos hun] at hv9
    by_cases hcl : n % 1200 = 0
    · obtain ⟨v', hv', hr⟩ := hp2.lift (i := i)
        (fun a c => a.status = .active → ∃ y, c = { a with pend := a.pend + y })
        (fun a _ => ⟨0, by rw [add_zero]⟩)
        (fun a c d h1 h2 ha => by
          obtain ⟨y, rfl⟩ := h1 ha
          obtain ⟨z, rfl⟩ := h2 ha
          exact ⟨y + z, by simp only [add_assoc]⟩) _ hl2
        (fun op f a c hc hv ha => by
          rcases Late.vstep hc hv with rfl | ⟨y, he, rfl⟩ | ⟨j, y, hnb, _, _, rfl⟩ | ⟨h, rfl⟩ |
            ⟨⟨ev, h1, h2⟩, rfl⟩ | ⟨⟨ev, h1, h2⟩, rfl⟩
          · exact ⟨0, by rw [add_zero]⟩
          · exact ⟨y, rfl⟩
          · exact ⟨y, rfl⟩
          · rcases h with ⟨ev, w, u, h, _⟩ | h
            · simp at h
            · exact absurd h hon
          · simp at h1
          · simp at h1) hv9
      obtain ⟨y, rfl⟩ := hr rfl
      refine ⟨y, fun h => absurd hcl h, ?_⟩
      change VMap.get o'.st.vals i = _ at hv'
      rw [hv']
      simp only [hp0, zero_add]
    · refine ⟨0, fun _ => rfl, ?_⟩
      rw [hq hcl, hv9, hp0]

/-- validator 1, banned by the last sample block, is unbanned -/
def Sample.unbans : FullBlock :=
  { Sample.miss 12000004 2 with events := { unbans := [⟨1, 100⟩] } }

example : Hist Sample.env (newOracle Sample.cfg) Sample.blocks Sample.final ∧
    (VMap.get Sample.final.st.vals 1).map (·.status) = some .banned ∧
    (∃ ev ∈ Sample.unbans.events.unbans, ev.validatorId = 1) ∧
    ∃ o' n, advanceState Sample.env Sample.final Sample.unbans = .ok (o', some n) ∧
      ¬ (n % 1200 = 0 ∧ NotActive Sample.env n 1) ∧
      (VMap.get o'.st.vals 1).map (·.status) = some .active := by
  refine ⟨Sample.hist, by decide +kernel, ⟨⟨1, 100⟩, by simp [Sample.unbans], rfl⟩, ?_⟩
  obtain ⟨o', n, h1, h2⟩ := Sample.ex_slot (E := Sample.env) (o := Sample.final) (b := Sample.unbans)
    (P := fun o' => decide ((VMap.get o'.st.vals 1).map (·.status) = some .active)) (by decide +kernel)
  refine ⟨o', n, h1, ?_, by simpa using h2⟩
  obtain ⟨_, _, _, _, _, _, _, _, _, _, hn, _⟩ := slot_frame h1
  rintro ⟨h3, _⟩
  rw [hn] at h3
  revert h3
  decide +kernel

/-- the owner of the banned validator 1 sends collateral -/
def Sample.bannedSends : FullBlock :=
  { Sample.miss 12000004 2 with
    events := { subs := [⟨1, 250, Sample.addr 1, 100⟩] }, valsSubs := [some (Sample.bval 1)] }

/-- Without an unban validator 1 stays banned and the collateral its owner sends is credited to it. -/
example : ∃ o', Hist Sample.env Sample.final [Sample.bannedSends] o' ∧
    (∀ b ∈ [Sample.bannedSends], ∀ ev ∈ b.events.unbans, ev.validatorId ≠ 1) ∧
    (VMap.get o'.st.vals 1).map (·.acc) = (VMap.get Sample.final.st.vals 1).map (·.acc + 250) := by
  obtain ⟨o', h1, h2⟩ := Sample.ex_hist (E := Sample.env) (o := Sample.final)
    (bs := [Sample.bannedSends])
    (P := fun o' => decide ((VMap.get o'.st.vals 1).map (·.acc) =
      (VMap.get Sample.final.st.vals 1).map (·.acc + 250))) (by decide +kernel)
  exact ⟨o', h1, by simp [Sample.bannedSends], by simpa using h2⟩

end Verif
