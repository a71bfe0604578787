import Verif.Lemmas.Effects
import Verif.Props.Refinement
/-
C14, C15, C16, C17: who is paid out, who joins and who leaves.
-/
namespace Verif
open VMap Relation

section
theorem sameLetter_iff (c d : Nat) : lowerByte c = lowerByte d ↔ SameLetter c d := by
  unfold lowerByte SameLetter
  split <;> split <;> omega

/-- **C16** The owner is recognised by the letters alone: two addresses count as the same exactly when they have the
same characters one by one, a capital letter being the same as the small one. -/
theorem C16_same_text (a b : Str) : (SameAddr a b ↔ SameText a b) ∧
    (equals a b = .ok true ↔ SameText a b) := by
  have h : SameAddr a b ↔ SameText a b := by
    unfold SameAddr lower
    induction a generalizing b with
    | nil => cases b <;> simp [SameText]
    | cons x xs ih =>
      cases b with
      | nil => simp [SameText]
      | cons y ys =>
        have := ih ys
        simp only [List.length_cons, Nat.add_right_cancel_iff, List.map_cons, List.cons.injEq, SameText,
          sameLetter_iff] at this ⊢
        rw [← this]
        tauto
  refine ⟨h, ?_⟩
  rw [← h]
  unfold equals SameAddr
  split
  · rename_i hl
    simp [hl]
  · rename_i hl
    simp only [Except.ok.injEq, decide_eq_true_eq]
    exact ⟨fun e => ⟨not_not.mp hl, e⟩, fun e => e.2⟩

example : SameText b!"0xAbCdef" b!"0xaBcDEF" ∧ ¬ SameText b!"0xAbCdef" b!"0xAbCdee" := by
  constructor
  · simp [SameText, SameLetter]
  · simp [SameText, SameLetter]

variable {E : Env} (hE : ValidEnv E) (hX : ExactEnv E) (hC : NoSelfConsol E)
  {cfg : Config} {bs : List FullBlock} {o o' : Oracle} {b : FullBlock} {n : Nat}
  (h0 : Hist E (newOracle cfg) bs o) (h : advanceState E o b = .ok (o', some n))
include hE hX hC h0 h

/-- **C14.** Whatever a block contains, the claimable balance of a validator that did not propose it
paying the pool, and whose owner sent no collateral, stays as it was. -/
theorem C14_others {j v} (hv : VMap.get o.st.vals j = some v)
    (hpay : ∀ w, ¬ PaysPool b o.cfg.poolAddr j w)
    (hsub : ∀ ev w u, ¬ OwnerSubscribes b j ev w u) :
    ∃ v', VMap.get o'.st.vals j = some v' ∧ v'.acc = v.acc := by
  obtain ⟨hs, h5⟩ := hist_five hE hX hC h0 List.Pairwise.nil (by intro p hp; simp [newOracle] at hp)
  obtain ⟨sb, dons, s1, s5, ops, hn, hsb, hd, hsb1, hs1, hpr, hs5, hpth, hl⟩ := slot_stages hE hX hC hs h
  obtain ⟨_, heff, h51⟩ := handleSubs_effects (logged_five h5) (s := logged o b o'.st.fee) hs hsb1
  have h1 : VMap.get s1.vals j = some v := by
    rw [heff.untouched (i := j) ?_]
    · exact hv
    · rintro ⟨ev, val⟩ hp hid u w ⟨k1, k2, k3, k4, k5⟩
      dsimp only at *
      exact hsub ev w u ⟨by rw [← k1]; exact hp, hid, k2.trans hid, k3, k4, k5⟩
  obtain ⟨y, _, h2, _⟩ := proposal_record hE hX hs1 h51 (summarize_slot hsb).2.2.2.2 hpr h1
  obtain ⟨v', h3, h4, _⟩ := late_kept hpth hl h2
  refine ⟨v', h3, ?_⟩
  rw [h4]
  dsimp only
  split
  · rename_i hi
    have hidx : b.dutyIndex = j := by rw [hi]; exact (summarize_slot hsb).2.1.symm
    split
    · rfl
    · split <;> rfl
    · rename_i ht
      obtain ⟨k1, w, k2⟩ := (summarize_okPool hsb).mp ht
      exact absurd ⟨hidx, k1, k2⟩ (hpay w)
    · rfl
  · rfl

/-- **C15.** The subscription events of a slot are dealt with first, one after the other, each
exactly as specified; together they increase what the pool owes by exactly the collateral sent; the
rest of the slot is as if the block had no subscription events. -/
theorem C15_subscriptions (hg : GasOK b) :
    ∃ s1 s7, SubEffects { o.st with
        fee := o'.st.fee
        subs := o.st.subs ++ b.events.subs
        unsubs := o.st.unsubs ++ b.events.unsubs
        ether := o.st.ether ++ b.events.ether } (b.events.subs.zip b.valsSubs) s1 ∧
      b.events.subs.length = b.valsSubs.length ∧
      owed s1 = owed o.st + (b.events.subs.map (·.collateral)).sum ∧
      SlotEffect E o.cfg.network o.cfg.poolAddr
        { b with events := { b.events with subs := [] }, valsSubs := [] } s1 s7 ∧
      (n % 1200 ≠ 0 → o'.st.vals = s7.vals ∧ o'.st.poolFees = s7.poolFees) := by
  obtain ⟨hs, h5⟩ := hist_five hE hX hC h0 List.Pairwise.nil (by intro p hp; simp [newOracle] at hp)
  obtain ⟨sb, dons, s1, s5, ops, hn, hsb, hd, hsb1, hs1, hpr, hs5, hpth, hl⟩ := slot_stages hE hX hC hs h
  obtain ⟨hlen, _, _⟩ := handleSubs_effects (logged_five h5) (s := logged o b o'.st.fee) hs hsb1
  obtain ⟨s7, s8, ⟨s1, s2, s3, dons, s4, s5, tot, s6, k1, k2, k3, k4, k5, k6, k7, k8⟩, _, hz, _, _, ho⟩ :=
    C60_slot_refines hE hX hC h0 h hg
  refine ⟨s1, s7, k1, hlen, ?_, ⟨s1, s2, s3, dons, s4, s5, tot, s6, .nil _, ?_, k3, ?_, k5, k6, k7, k8⟩, ?_⟩
  · rw [k1.money (by exact hs)]
    congr 1
    have : (fun p : SubEvent × Option BVal => p.1.collateral) = SubEvent.collateral ∘ Prod.fst := rfl
    rw [this, ← List.map_map, List.map_fst_zip (by omega)]
  · cases k2 with
    | missed a1 a2 a3 a4 => exact .missed a1 a2 a3 ⟨a4.1, a4.2, a4.3, a4.4, a4.5⟩
    | outsider a1 a2 => exact .outsider a1 a2
    | elsewhere a1 a2 a3 a4 a5 a6 => exact .elsewhere a1 a2 a3 a4 a5 ⟨a6.1, a6.2, a6.3, a6.4, a6.5⟩
    | pays a1 a2 a3 a4 a5 a6 a7 =>
      refine .pays a1 a2 ?_ a4 ⟨a5.1, a5.2, a5.3, a5.4, a5.5⟩ a6 a7
      cases a3 with
      | exception c1 => exact .exception c1
      | builder c1 => exact .builder c1
      | fees c1 c2 c3 c4 c5 => exact .fees c1 c2 c3 c4 c5
    | noAddress a1 a2 a3 a4 a5 =>
      refine .noAddress a1 a2 ?_ ⟨a4.1, a4.2, a4.3, a4.4, a4.5⟩ a5
      cases a3 with
      | exception c1 => exact .exception c1
      | builder c1 => exact .builder c1
      | fees c1 c2 c3 c4 c5 => exact .fees c1 c2 c3 c4 c5
  · exact ⟨k4.1, k4.2, k4.3⟩
  · intro hn0
    rw [ho, hz hn0]; exact ⟨rfl, rfl⟩

/-- **C15, C17.** Who can become subscribed in a slot: only a validator whose owner subscribed it with
enough collateral, one that proposed a block paying the pool, or one unbanned. -/
theorem C15_only_ways {i}
    (hbefore : ∀ v, VMap.get o.st.vals i = some v → v.status = .notSubscribed ∨ v.status = .banned)
    (hsub : ∀ ev w u, OwnerSubscribes b i ev w u → ev.collateral < o.st.collateral)
    (hpay : ∀ w, ¬ PaysPool b o.cfg.poolAddr i w)
    (hub : ∀ ev ∈ b.events.unbans, ev.validatorId ≠ i) :
    ∀ v, VMap.get o'.st.vals i = some v → v.status = .notSubscribed ∨ v.status = .banned := by
  obtain ⟨hs, h5⟩ := hist_five hE hX hC h0 List.Pairwise.nil (by intro p hp; simp [newOracle] at hp)
  have key : ∀ {st st'}, ReflTransGen (Edge E n o.cfg.poolAddr o.st.collateral b i) st st' →
      (st = .notSubscribed ∨ st = .banned) → (st' = .notSubscribed ∨ st' = .banned) := by
    intro st st' hr hst
    induction hr with
    | refl => exact hst
    | tail _ he ih =>
      cases he with
      | subscribe k1 k2 => have := hsub _ _ _ k1; omega
      | autoSubscribe k => exact absurd k (hpay _)
      | okYellow k => exact absurd k (hpay _)
      | okRed k => exact absurd k (hpay _)
      | missActive => simp at ih
      | missYellow => simp at ih
      | wrongFee => exact Or.inr rfl
      | ban => exact Or.inr rfl
      | unban k1 k2 => exact absurd k2 (hub _ k1)
      | unsubscribe => exact Or.inl rfl
      | leftChain => exact Or.inl rfl
  obtain ⟨k1, k2⟩ := C10_diagram hE hX hC hs h i
  intro v' hv'
  cases hv : VMap.get o.st.vals i with
  | none => exact key (k2 v' hv hv') (Or.inl rfl)
  | some v =>
    obtain ⟨v1, h1, h2⟩ := k1 v hv
    rw [hv', Option.some.injEq] at h1
    subst h1
    exact key h2 (hbefore v hv)

/-- **C16.** A subscribed validator stays subscribed unless its owner unsubscribes it, it is banned,
it pays somebody else, or it left the chain. -/
theorem C16_only_owner {i v} (hv : VMap.get o.st.vals i = some v) (hst : Subscribed v.status)
    (hu : ¬ OwnerUnsubscribes b i) (hb : ∀ ev ∈ b.events.bans, ev.validatorId ≠ i)
    (he : ¬ PaysElsewhere b o.cfg.poolAddr i) (hl : ¬ (n % 1200 = 0 ∧ NotActive E n i)) :
    ∃ v', VMap.get o'.st.vals i = some v' ∧ Subscribed v'.status := by
  obtain ⟨v', st1, st2, h1, h2, h3, h4⟩ := C10_one_step_per_proposal hE hX hC h0 h hv
  refine ⟨v', h1, late_subscribed h4 ?_ hu hb hl⟩
  have hst1 : Subscribed st1 := by
    rcases h2 with rfl | ⟨_, rfl, _⟩
    · exact hst
    · exact Or.inl rfl
  cases h3 with
  | pays => rcases hst1 with k | k | k <;> rw [k] <;> simp [afterPay, Subscribed]
  | misses => rcases hst1 with k | k | k <;> rw [k] <;> simp [afterMiss, Subscribed]
  | elsewhere k => exact absurd k he
  | outsider k => exact hst1
  | noAddress => exact hst1
  | other => exact hst1

/-- **C16.** A validator subscribed before the slot and unsubscribed by its owner in it ends not
subscribed, with its accumulated balance (plus collateral its owner sent) kept and nothing pending;
what was pending is shared, as `C60_slot_refines` says. -/
theorem C16_unsubscribed {i v} (hg : GasOK b) (hv : VMap.get o.st.vals i = some v) (hst : Subscribed v.status)
    (hu : OwnerUnsubscribes b i) (hi : b.dutyIndex ≠ i) (hn : n % 1200 ≠ 0) :
    VMap.get o'.st.vals i =
      some { v with status := .notSubscribed, pend := 0, acc := v.acc + ownerSent b i } := by
  obtain ⟨s7, s8, ⟨s1, s2, s3, dons, s4, s5, tot, s6, k1, k2, k3, k4, k5, k6, k7, k8⟩, _, hz, _, _, ho⟩ :=
    C60_slot_refines hE hX hC h0 h hg
  have h1 := k1.settled (i := i) hv (Or.inl hst)
  obtain ⟨y, h2⟩ := k2.other hi h1
  have h3 := k3.leaves h2 hst (by
    obtain ⟨ev, u, w, a1, a2, a3, a4, a5⟩ := hu
    exact ⟨_, a1, a2, u, w, rfl, a3.trans a2.symm, a4, a5⟩)
  have h4 := k5.skip h3 (notEarning_of rfl)
  have h5 := k6.record h4 (by simp [Subscribed])
  have h6 : VMap.get s6.vals i = some { v with status := .notSubscribed, pend := 0, acc := v.acc + ownerSent b i } := by
    rcases k7 with ⟨_, k7⟩ | ⟨_, k7⟩
    · exact shares_skip k7 h5 (notEarning_of rfl)
    · rw [k7]; exact h5
  rw [ho, hz hn, k8]
  dsimp only
  rw [get_unbanned, h6]
  simp

/-- **C17.** The proposer of a block paying the pool, with a withdrawal address and not banned before,
is subscribed at the end of the slot, whatever else the block contains, unless its owner
unsubscribes it, it is banned by hand or it left the chain. -/
theorem C17_subscribed {i w} (hp : PaysPool b o.cfg.poolAddr i w)
    (hnb : ∀ v, VMap.get o.st.vals i = some v → v.status ≠ .banned)
    (hu : ¬ OwnerUnsubscribes b i) (hb : ∀ ev ∈ b.events.bans, ev.validatorId ≠ i)
    (hl : ¬ (n % 1200 = 0 ∧ NotActive E n i)) :
    ∃ v', VMap.get o'.st.vals i = some v' ∧ Subscribed v'.status ∧
      (VMap.get o.st.vals i = none → (∀ ev w u, ¬ OwnerSubscribes b i ev w u) →
        v'.waddr = w ∧ v'.index = i ∧ v'.key = b.dutyKey ∧ v'.subType = .auto) := by
  obtain ⟨hs, h5⟩ := hist_five hE hX hC h0 List.Pairwise.nil (by intro p hp; simp [newOracle] at hp)
  obtain ⟨sb, dons, s1, s5, ops, hn, hsb, hd, hsb1, hs1, hpr, hs5, hpth, hl'⟩ := slot_stages hE hX hC hs h
  obtain ⟨_, heff, h51⟩ := handleSubs_effects (logged_five h5) (s := logged o b o'.st.fee) hs hsb1
  have ht : sb.type = .okPool := (summarize_okPool hsb).mpr ⟨hp.2.1, w, hp.2.2⟩
  have hidx : sb.index = i := (summarize_slot hsb).2.1.trans hp.1
  have hw : sb.waddr = w := hasAddress_unique (summarize_waddr hsb ht) hp.2.2
  have hk : sb.key = b.dutyKey := (summarize_slot hsb).2.2.1
  obtain ⟨r, s2, hr, hsh, hs5e⟩ := proposal_ok hE hX hs1 h51 ht hpr
  have henr : ∃ u, VMap.get (enrol s1 sb) i = some u ∧ Subscribed u.status ∧
      (VMap.get o.st.vals i = none → (∀ ev w u, ¬ OwnerSubscribes b i ev w u) →
        u.waddr = w ∧ u.index = i ∧ u.key = b.dutyKey ∧ u.subType = .auto) := by
    rw [get_enrol, if_pos hidx.symm]
    refine ⟨_, rfl, ?_, ?_⟩
    · cases h1 : VMap.get s1.vals i with
      | none => exact Or.inl rfl
      | some u =>
        have hu1 : u.status ≠ .banned := by
          cases h2 : VMap.get o.st.vals i with
          | some v =>
            obtain ⟨v', k1, _, k2⟩ := heff.status (i := i) h2
            rw [h1, Option.some.injEq] at k1
            subst k1
            rcases k2 with k2 | ⟨_, k2⟩
            · rw [k2]; exact hnb v h2
            · rw [k2]; simp
          | none => exact heff.appears (i := i) h2 h1
        have h3 := h51.get h1
        rcases h3 with h3 | h3 | h3
        · rcases h3 with k | k | k <;> simp [afterPay, k, Subscribed]
        · simp [afterPay, h3, Subscribed]
        · exact absurd h3 hu1
    · intro hnone hno
      have h1 : VMap.get s1.vals i = none := by
        rw [heff.untouched (i := i) ?_]
        · exact hnone
        · rintro ⟨ev, val⟩ hp hid u w ⟨k1, k2, k3, k4, k5⟩
          dsimp only at *
          exact hno ev w u ⟨by rw [← k1]; exact hp, hid, k2.trans hid, k3, k4, k5⟩
      rw [h1]
      exact ⟨hw, hidx, hk, rfl⟩
  obtain ⟨u, hu1, hu2, hu3⟩ := henr
  obtain ⟨y, h2⟩ := shares_pend (i := i) (v := u) hsh hu1
  have h5' : ∃ z t, VMap.get s5.vals i = some { u with acc := z, pend := t } := by
    rw [hs5e]; dsimp only
    by_cases hii : i = sb.index
    · rw [← hii, get_modify_self, h2]; exact ⟨_, _, rfl⟩
    · exact absurd hidx.symm hii
  obtain ⟨z, t, h5'⟩ := h5'
  obtain ⟨v', h3, h4, h6⟩ := late_kept hpth hl' h5'
  refine ⟨v', h3, late_subscribed h6 hu2 hu hb hl, ?_⟩
  intro a1 a2
  rw [h4]
  exact hu3 a1 a2

end

/-! ### The hypotheses are met -/
namespace Sample

/-- C14: `b1` pays the pool from validator 2; validator 1 is somebody else -/
example : ∃ o o' n v, Hist env (newOracle cfg) [b0] o ∧ advanceState env o b1 = .ok (o', some n) ∧
    VMap.get o.st.vals 1 = some v ∧ v.acc ≠ 0 ∧ (∀ w, ¬ PaysPool b1 pool 1 w) ∧
    (∀ ev w u, ¬ OwnerSubscribes b1 1 ev w u) := by
  obtain ⟨o, o', n, h1, h2, h3⟩ := ex_then (E := env) (o := newOracle cfg) (bs := [b0]) (b := b1)
    (P := fun o _ _ => (VMap.get o.st.vals 1).any fun v : Validator => decide (v.acc ≠ 0)) (by decide +kernel)
  obtain ⟨v, h4, h5⟩ := ex_get h3
  refine ⟨o, o', n, v, h1, h2, h4, h5, ?_, ?_⟩
  · rintro w ⟨h, _⟩; simp [b1, prop] at h
  · rintro ev w u ⟨h, _⟩; simp [b1, prop] at h

/-- C15: the first block has a subscription of validator 2 with enough collateral -/
example : ∃ o' n, Hist env (newOracle cfg) [] (newOracle cfg) ∧
    advanceState env (newOracle cfg) b0 = .ok (o', some n) ∧ GasOK b0 ∧
    (∃ ev w u, OwnerSubscribes b0 2 ev w u) ∧
    (VMap.get o'.st.vals 2).map (·.status) = some .active := by
  obtain ⟨o', n, h1, h2⟩ := ex_slot (E := env) (o := newOracle cfg) (b := b0)
    (P := fun o => decide ((VMap.get o.st.vals 2).map (·.status) = some .active)) (by decide +kernel)
  exact ⟨o', n, .nil _, h1, b0_gas, ⟨⟨2, 1000, addr 2, 100⟩, _, bval 2, by simp [b0, prop], rfl, rfl, Or.inr (Or.inr rfl),
    hasAddress 2, same _⟩, by simpa using h2⟩

/-- validator 2 subscribes with too little collateral -/
def cheap : FullBlock :=
  { miss 12000000 77 with events := { subs := [⟨2, 999, addr 2, 100⟩] }, valsSubs := [some (bval 2)] }

/-- C15, only ways: too little collateral -/
example : ∃ o' n, Hist env (newOracle cfg) [] (newOracle cfg) ∧
    advanceState env (newOracle cfg) cheap = .ok (o', some n) ∧
    (∀ v, VMap.get (newOracle cfg).st.vals 2 = some v → v.status = .notSubscribed ∨ v.status = .banned) ∧
    (∀ ev w u, OwnerSubscribes cheap 2 ev w u → ev.collateral < (newOracle cfg).st.collateral) ∧
    (∀ w, ¬ PaysPool cheap pool 2 w) ∧ (∀ ev ∈ cheap.events.unbans, ev.validatorId ≠ 2) := by
  obtain ⟨o', n, h1, h2⟩ := ex_slot (E := env) (o := newOracle cfg) (b := cheap)
    (P := fun _ => true) (by decide +kernel)
  refine ⟨o', n, .nil _, h1, by simp [newOracle, VMap.get], ?_, ?_, by simp [cheap]⟩
  · rintro ev w u ⟨h, _⟩
    simp [cheap] at h
    rw [h.1]; decide
  · rintro w ⟨h, _⟩; simp [cheap, miss] at h

/-- C16: validator 2 is unsubscribed by its owner in `b3`, which validator 1 proposes -/
example : ∃ o o' n v, Hist env (newOracle cfg) [b0, b1, b2] o ∧ advanceState env o b3 = .ok (o', some n) ∧
    GasOK b3 ∧ VMap.get o.st.vals 2 = some v ∧ Subscribed v.status ∧ OwnerUnsubscribes b3 2 ∧
    b3.dutyIndex ≠ 2 ∧ n % 1200 ≠ 0 := by
  obtain ⟨o, o', n, h1, h2, h3⟩ := ex_then (E := env) (o := newOracle cfg) (bs := [b0, b1, b2]) (b := b3)
    (P := fun o _ n => ((VMap.get o.st.vals 2).any fun v : Validator => decide (Subscribed v.status)) &&
      decide (n % 1200 ≠ 0)) (by decide +kernel)
  simp only [Bool.and_eq_true, decide_eq_true_eq] at h3
  obtain ⟨v, h4, h5⟩ := ex_get h3.1
  exact ⟨o, o', n, v, h1, h2, b3_gas, h4, h5, b3_unsub, by decide, h3.2⟩

/-- somebody else asks to unsubscribe validator 2 -/
def stranger : FullBlock :=
  { miss 12000002 77 with events := { unsubs := [⟨2, addr 3, 100⟩] }, valsUnsubs := [some (bval 2)] }

/-- C16: a stranger's request -/
example : ∃ o o' n v, Hist env (newOracle cfg) [b0, b1] o ∧ advanceState env o stranger = .ok (o', some n) ∧
    VMap.get o.st.vals 2 = some v ∧ Subscribed v.status ∧ ¬ OwnerUnsubscribes stranger 2 ∧
    (∀ ev ∈ stranger.events.bans, ev.validatorId ≠ 2) ∧ ¬ PaysElsewhere stranger pool 2 ∧
    ¬ (n % 1200 = 0 ∧ NotActive env n 2) := by
  obtain ⟨o, o', n, h1, h2, h3⟩ := ex_then (E := env) (o := newOracle cfg) (bs := [b0, b1]) (b := stranger)
    (P := fun o _ n => ((VMap.get o.st.vals 2).any fun v : Validator => decide (Subscribed v.status))) (by decide +kernel)
  obtain ⟨v, h4, h5⟩ := ex_get h3
  refine ⟨o, o', n, v, h1, h2, h4, h5, ?_, by simp [stranger], ?_, fun h => active (by decide) h.2⟩
  · rintro ⟨ev, u, w, h, _, _, ha, hs⟩
    simp [stranger] at h
    obtain ⟨rfl, rfl⟩ := h
    have := hasAddress_unique ha (hasAddress 2)
    subst this
    revert hs
    decide
  · rintro ⟨h, _⟩; simp [stranger, miss] at h

/-- validator 7, unknown so far, proposes a vanilla block for the pool -/
def joins : FullBlock := prop 12000001 7 pool (tx (addr 50) (addr 51) 1) {}

/-- C17 -/
example : ∃ o o' n, Hist env (newOracle cfg) [b0] o ∧ advanceState env o joins = .ok (o', some n) ∧
    PaysPool joins pool 7 (addr 7) ∧ VMap.get o.st.vals 7 = none ∧ ¬ OwnerUnsubscribes joins 7 ∧
    (∀ ev ∈ joins.events.bans, ev.validatorId ≠ 7) ∧ ¬ (n % 1200 = 0 ∧ NotActive env n 7) := by
  obtain ⟨o, o', n, h1, h2, h3⟩ := ex_then (E := env) (o := newOracle cfg) (bs := [b0]) (b := joins)
    (P := fun o _ _ => decide (VMap.get o.st.vals 7 = none)) (by decide +kernel)
  refine ⟨o, o', n, h1, h2, vanilla_pays (by decide) (by decide) (by decide), by simpa using h3, ?_,
    by simp [joins, prop], fun h => active (by decide) h.2⟩
  rintro ⟨ev, u, w, h, _⟩; simp [joins, prop] at h

end Sample
end Verif
