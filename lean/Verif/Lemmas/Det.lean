import Verif.Spec.Consol
import Verif.Lemmas.Consol
import Verif.Lemmas.Queue
import Verif.Lemmas.SharesSpec
/-
Determinism: two runs of the model with different iteration orders (and different answers in time)
over the same chain.
-/
namespace Verif
open VMap

/-- related results, when both computations succeed -/
def Rel {α β : Type} (R : α → β → Prop) (x : M α) (y : M β) : Prop :=
  ∀ a b, x = .ok a → y = .ok b → R a b

theorem Rel.bind {α β γ δ : Type} {R : α → β → Prop} {S : γ → δ → Prop} {x : M α} {y : M β}
    {f : α → M γ} {g : β → M δ} (h : Rel R x y) (hf : ∀ a b, R a b → Rel S (f a) (g b)) :
    Rel S (x >>= f) (y >>= g) := by
  intro c d hc hd
  rw [bind_ok] at hc hd
  obtain ⟨a, ha, hc⟩ := hc
  obtain ⟨b, hb, hd⟩ := hd
  exact hf a b (h a b ha hb) c d hc hd

theorem Rel.ok {α β : Type} {R : α → β → Prop} {a : α} {b : β} (h : R a b) :
    Rel R (.ok a : M α) (.ok b : M β) := by
  rintro _ _ ⟨⟩ ⟨⟩; exact h

theorem Rel.err {α β : Type} {R : α → β → Prop} {y : M β} {e : Crash} :
    Rel R (.error e : M α) y := by rintro _ _ ⟨⟩

theorem Rel.ite {α β : Type} {R : α → β → Prop} {p : Prop} [Decidable p] {x1 x2 : M α}
    {y1 y2 : M β} (h1 : p → Rel R x1 y1) (h2 : ¬ p → Rel R x2 y2) :
    Rel R (if p then x1 else x2) (if p then y1 else y2) := by
  by_cases h : p
  · rw [if_pos h, if_pos h]; exact h1 h
  · rw [if_neg h, if_neg h]; exact h2 h

theorem Rel.refl {α : Type} (x : M α) : Rel (fun a b => a = b) x x := by
  intro a b ha hb; rw [ha] at hb; exact Except.ok.inj hb

/-- the same state up to the ghost counter, the stored hash, the checkpoints, the logs of the payments and that of the
subscriptions, with distinct keys -/
def Same (s s' : State) : Prop :=
  Sorted s.vals ∧ ∃ t x c le ld ls,
    s' = { s with tick := t, stateHash := x, committed := c, ether := le, donations := ld, subs := ls }

section
variable {E E' : Env} {V : Nat → Nat → BVal} {K : Nat → List (Nat × Nat)}

theorem eligible_same (hE : ValidEnv E) (hE' : ValidEnv E') (s : State) (t : Nat) :
    (eligible E s).Perm (eligible E' { s with tick := t }) := by
  unfold eligible
  exact (shuffle_perm hE _ _).trans (shuffle_perm hE' _ _).symm

theorem answers_perm (hE : ValidEnv E) (hX : ExactEnv E) (hR : ReadsChain V K E)
    (hE' : ValidEnv E') (hX' : ExactEnv E') (hR' : ReadsChain V K E')
    {t t' slot req req' r r'} (h : getSet E t slot req = some r)
    (h' : getSet E' t' slot req' = some r') (hn : req.Nodup) (hp : req.Perm req') : r.Perm r' := by
  have k1 := answer_perm hE hX h hn
  have k2 := answer_perm hE' hX' h' (hp.nodup_iff.mp hn)
  have k3 := (k1.trans (hp.trans k2.symm)).map (V slot)
  rw [List.map_map, List.map_map] at k3
  have e1 : r.map (V slot ∘ fun v => v.index) = r := by
    conv_rhs => rw [← List.map_id r]
    exact List.map_congr_left fun v hv => (hR.node _ _ _ _ (getSet_some h).1 v hv).symm
  have e2 : r'.map (V slot ∘ fun v => v.index) = r' := by
    conv_rhs => rw [← List.map_id r']
    exact List.map_congr_left fun v hv => (hR'.node _ _ _ _ (getSet_some h').1 v hv).symm
  rw [e1, e2] at k3
  exact k3

theorem increaseAll_same (hE : ValidEnv E) (hX : ExactEnv E) (hR : ReadsChain V K E)
    (hE' : ValidEnv E') (hX' : ExactEnv E') (hR' : ReadsChain V K E') {net s s' r}
    (h : Same s s') : Rel Same (increaseAll E net s r) (increaseAll E' net s' r) := by
  obtain ⟨hs, t, x, c, le, ld, ls, rfl⟩ := h
  intro a b ha hb
  obtain ⟨sh, fees, d⟩ := increaseAll_dist hE hs ha
  obtain ⟨sh', fees', d'⟩ := increaseAll_dist hE' (s := { s with tick := t, stateHash := x, committed := c, ether := le, donations := ld, subs := ls }) hs hb
  have hsa : Sorted a.vals := by rw [d.eq]; exact hs.credit _
  refine ⟨hsa, b.tick, x, c, le, ld, ls, ?_⟩
  have key : b.vals = a.vals ∧ b.poolFees = a.poolFees := by
    have hp : (eligible E s).Perm
        (eligible E' { s with tick := t, stateHash := x, committed := c, ether := le, donations := ld, subs := ls }) := eligible_same hE hE' s t
    have hl := hp.length_eq
    rcases increaseAll_rule hE ha with ⟨h1, h2, h3⟩ | ⟨h1, _, x, f, hx, _, h2, h3⟩
    · rcases increaseAll_rule hE' hb with ⟨h1', h2', h3'⟩ | ⟨h1', _⟩
      · exact ⟨h2'.trans h2.symm, h3'.trans h3.symm⟩
      · rw [h1] at hp; exact absurd (List.nil_perm.mp hp) h1'
    · rcases increaseAll_rule hE' hb with ⟨h1', _⟩ | ⟨h1', _, x', f', hx', _, h2', h3'⟩
      · rw [h1'] at hp; exact absurd (List.perm_nil.mp hp) h1
      · have hxf : x.Perm x' ∧ f = f' := by
          cases hx with
          | electra vs u p1 p2 p3 =>
            cases hx' with
            | electra vs' u' q1 q2 q3 =>
              have hv := answers_perm hE hX hR hE' hX' hR' p2 q2 (nodup_eligible hE hs) hp
              have hsum : (vs.map fun v => i64 v.effBal).sum = (vs'.map fun v => i64 v.effBal).sum :=
                (hv.map _).sum_eq
              dsimp only
              rw [hsum]
              exact ⟨hv.map _, by rw [(hv.map _).sum_eq]⟩
            | fork1 q1 q2 => exact absurd p1 q2
            | pre q1 q2 q3 => exact absurd p1 q3
          | fork1 p1 p2 =>
            cases hx' with
            | electra vs' u' q1 q2 q3 => exact absurd q1 p2
            | fork1 q1 q2 =>
              dsimp only
              rw [hl]
              exact ⟨hp.map _, rfl⟩
            | pre q1 q2 q3 => exact absurd p1 q2
          | pre p1 p2 p3 =>
            cases hx' with
            | electra vs' u' q1 q2 q3 => exact absurd q1 p3
            | fork1 q1 q2 => exact absurd q1 p2
            | pre q1 q2 q3 =>
              dsimp only
              rw [hl]
              exact ⟨hp.map _, rfl⟩
        refine ⟨?_, ?_⟩
        · rw [h2, h2']; exact (credit_perm hxf.1 _).symm
        · rw [h3, h3', hxf.2]
  have e1 : a = { s with vals := a.vals, poolFees := a.poolFees, tick := a.tick } := by
    rw [d.eq]
  have e2 : b = { s with vals := b.vals, poolFees := b.poolFees, tick := b.tick, stateHash := x,
                         committed := c, ether := le, donations := ld, subs := ls } := by
    rw [d'.eq]
  rw [e2, key.1, key.2]
  conv_rhs => rw [e1]

/-! ### Operations that do not look at the environment -/

theorem Same.modVal {s s' : State} (h : Same s s') (i f) : Same (s.modVal i f) (s'.modVal i f) := by
  obtain ⟨hs, t, x, c, le, ld, ls, rfl⟩ := h
  exact ⟨hs.modify _ _, t, x, c, le, ld, ls, rfl⟩

theorem Same.advance {s s' : State} (h : Same s s') (i e) : Same (s.advance i e) (s'.advance i e) :=
  h.modVal _ _

theorem Same.putVal {s s' : State} (h : Same s s') (i v) : Same (s.putVal i v) (s'.putVal i v) := by
  obtain ⟨hs, t, x, c, le, ld, ls, rfl⟩ := h
  exact ⟨hs.insert _ _, t, x, c, le, ld, ls, rfl⟩

theorem Same.toPool {s s' : State} (h : Same s s') (x) : Same (s.toPool x) (s'.toPool x) := by
  obtain ⟨hs, t, x, c, le, ld, ls, rfl⟩ := h
  exact ⟨hs, t, x, c, le, ld, ls, rfl⟩

theorem Same.vals {s s' : State} (h : Same s s') : s'.vals = s.vals := by
  obtain ⟨hs, t, x, c, le, ld, ls, rfl⟩ := h; rfl

theorem Same.isSubscribed {s s' : State} (h : Same s s') (i) :
    s'.isSubscribed i = s.isSubscribed i := by unfold State.isSubscribed; rw [h.vals]
theorem Same.isBanned {s s' : State} (h : Same s s') (i) :
    s'.isBanned i = s.isBanned i := by unfold State.isBanned; rw [h.vals]
theorem Same.isTracked {s s' : State} (h : Same s s') (i) :
    s'.isTracked i = s.isTracked i := by unfold State.isTracked; rw [h.vals]
theorem Same.pendOf {s s' : State} (h : Same s s') (i) :
    s'.pendOf i = s.pendOf i := by unfold State.pendOf; rw [h.vals]
theorem Same.collateralEnough {s s' : State} (h : Same s s') (i) :
    s'.collateralEnough i = s.collateralEnough i := by
  obtain ⟨hs, t, x, c, le, ld, ls, rfl⟩ := h; rfl

theorem Same.incPending {s s' : State} (h : Same s s') (i x) :
    Rel Same (s.incPending i x) (s'.incPending i x) := by
  unfold State.incPending; rw [h.isTracked]
  exact .ite (fun _ => .ok (h.modVal _ _)) (fun _ => .err)
theorem Same.incAccumulated {s s' : State} (h : Same s s') (i x) :
    Rel Same (s.incAccumulated i x) (s'.incAccumulated i x) := by
  unfold State.incAccumulated; rw [h.isTracked]
  exact .ite (fun _ => .ok (h.modVal _ _)) (fun _ => .err)
theorem Same.resetPending {s s' : State} (h : Same s s') (i) :
    Rel Same (s.resetPending i) (s'.resetPending i) := by
  unfold State.resetPending; rw [h.isTracked]
  exact .ite (fun _ => .ok (h.modVal _ _)) (fun _ => .err)
theorem Same.consolidate {s s' : State} (h : Same s s') (i) :
    Rel Same (s.consolidate i) (s'.consolidate i) := by
  unfold State.consolidate; rw [h.isTracked]
  exact .ite (fun _ => .ok (h.modVal _ _)) (fun _ => .err)

theorem Same.ite {p : Prop} [Decidable p] {s1 s1' s2 s2' : State} (h1 : Same s1 s1')
    (h2 : Same s2 s2') : Same (if p then s1 else s2) (if p then s1' else s2') := by
  split <;> assumption

theorem subOne_same {s s' : State} (h : Same s s') (ev val) :
    Rel Same (subOne s ev val) (subOne s' ev val) := by
  unfold subOne
  cases val with
  | none => exact .ok (h.toPool _)
  | some v =>
    dsimp only
    refine .ite (fun _ => .err) fun _ => .ite (fun _ => .ok (h.toPool _)) fun _ => ?_
    cases compatAddressByte v.creds with
    | none => exact .ok (h.toPool _)
    | some w =>
      dsimp only
      refine Rel.bind (.refl _) ?_
      rintro ok _ rfl
      rw [h.isBanned, h.isSubscribed, h.collateralEnough, h.isTracked]
      refine .ite (fun _ => .ok (h.toPool _)) fun _ => .ite (fun _ => h.incAccumulated _ _) fun _ =>
        .ite (fun _ => h.incAccumulated _ _) fun _ => .ite (fun _ => .ok (h.toPool _)) fun _ =>
        .ite (fun _ => ?_) (fun _ => .ok (h.toPool _))
      refine Rel.bind (Same.incPending (Same.modVal (Same.ite (h.putVal _ _) h) _ _) _ _) ?_
      intro a b hab
      exact .ok (hab.advance _ _)

theorem subLoop_same (l) : ∀ {s s' : State}, Same s s' → Rel Same (subLoop l s) (subLoop l s') := by
  induction l with
  | nil => intro s s' h; exact .ok h
  | cons p l ih =>
    intro s s' h
    obtain ⟨ev, v⟩ := p
    exact Rel.bind (subOne_same h ev v) fun a b hab => ih hab

theorem handleSubs_same {s s' : State} (h : Same s s') {evs evs' vals vals'}
    (hq : Queued (fun p : SubEvent × Option BVal => p.1.validatorId) (evs.zip vals) (evs'.zip vals')) :
    Rel Same (handleSubs s evs vals) (handleSubs s' evs' vals') := by
  intro a b ha hb
  unfold handleSubs at ha hb
  split at ha
  · cases ha
  split at ha
  · cases ha
  split at hb
  · cases hb
  split at hb
  · cases hb
  exact subLoop_same _ h a b (subLoop_queued hq h.1 ha) hb

theorem addSubscription_same {s s' : State} (h : Same s s') (i w k) :
    Same (addSubscription s i w k) (addSubscription s' i w k) := by
  unfold addSubscription
  rw [h.isTracked, h.isSubscribed]
  refine Same.ite (((h.putVal _ _).advance _ _).modVal _ _) (Same.ite ?_ h)
  dsimp only
  rw [(h.advance _ _).isBanned]
  exact Same.ite ((h.advance _ _).modVal _ _) (h.advance _ _)

theorem handleMissed_same {s s' : State} (h : Same s s') (b) :
    Same (handleMissed s b) (handleMissed s' b) := by
  obtain ⟨hs, t, x, c, le, ld, ls, rfl⟩ := h
  exact ⟨by unfold handleMissed State.advance State.modVal; dsimp only; exact hs.modify _ _, t, x, c, le, ld, ls, rfl⟩

theorem handleBls_same {s s' : State} (h : Same s s') (b) :
    Rel Same (handleBls s b) (handleBls s' b) := by
  unfold handleBls
  refine .ite (fun _ => .err) fun _ => ?_
  cases b.reward with
  | none => exact .err
  | some r =>
    obtain ⟨hs, t, x, c, le, ld, ls, rfl⟩ := h
    exact .ok ⟨hs, t, x, c, le, ld, ls, rfl⟩

theorem banLoop_same (l) : ∀ {s s' : State} {tot}, Same s s' →
    Rel (fun a b => Same a.1 b.1 ∧ a.2 = b.2) (banLoop l s tot) (banLoop l s' tot) := by
  induction l with
  | nil => intro s s' tot h; exact .ok ⟨h, rfl⟩
  | cons ev l ih =>
    intro s s' tot h
    unfold banLoop
    rw [h.isSubscribed]
    refine .ite (fun _ => ih h) fun _ => ?_
    dsimp only
    rw [(h.advance _ _).pendOf]
    refine Rel.bind (.refl _) ?_
    rintro p _ rfl
    exact Rel.bind ((h.advance _ _).resetPending _) fun a b hab => ih hab

theorem unbanLoop_same (l) : ∀ {s s' : State}, Same s s' →
    Same (unbanLoop l s) (unbanLoop l s') := by
  induction l with
  | nil => intro s s' h; exact h
  | cons ev l ih =>
    intro s s' h
    unfold unbanLoop
    rw [h.isBanned]
    exact Same.ite (ih h) (ih (h.advance _ _))

theorem handleUnbans_same {s s' : State} (h : Same s s') {evs evs' : List BanEvent} (hp : evs.Perm evs') :
    Rel Same (handleUnbans s evs) (handleUnbans s' evs') := by
  intro a b ha hb
  unfold handleUnbans at ha hb
  split at ha
  · cases ha
  split at hb
  · cases hb
  cases ha
  cases hb
  rw [unbanLoop_perm hp h.1]
  exact unbanLoop_same _ h

/-! ### Operations that share rewards -/

variable (hE : ValidEnv E) (hX : ExactEnv E) (hR : ReadsChain V K E)
  (hE' : ValidEnv E') (hX' : ExactEnv E') (hR' : ReadsChain V K E') {net : Str}
include hE hX hR hE' hX' hR'

theorem unsubOne_same {s s' : State} (h : Same s s') (ev val) :
    Rel Same (unsubOne E net s ev val) (unsubOne E' net s' ev val) := by
  unfold unsubOne
  cases val with
  | none => exact .ok h
  | some v =>
    dsimp only
    refine .ite (fun _ => .err) fun _ => ?_
    cases compatAddressByte v.creds with
    | none => exact .ok h
    | some w =>
      dsimp only
      refine Rel.bind (.refl _) ?_
      rintro ok _ rfl
      rw [h.isSubscribed, (h.advance _ _).pendOf]
      refine .ite (fun _ => .ok h) fun _ => .ite (fun _ => ?_) (fun _ => .ok h)
      refine Rel.bind (.refl _) ?_
      rintro p _ rfl
      exact Rel.bind (increaseAll_same hE hX hR hE' hX' hR' (h.advance _ _))
        fun a b hab => hab.resetPending _

theorem unsubLoop_same (l) : ∀ {s s' : State}, Same s s' →
    Rel Same (unsubLoop E net l s) (unsubLoop E' net l s') := by
  induction l with
  | nil => intro s s' h; exact .ok h
  | cons p l ih =>
    intro s s' h
    obtain ⟨ev, v⟩ := p
    exact Rel.bind (unsubOne_same hE hX hR hE' hX' hR' h ev v) fun a b hab => ih hab

theorem handleUnsubs_same {s s' : State} (h : Same s s') (evs vals) :
    Rel Same (handleUnsubs E net s evs vals) (handleUnsubs E' net s' evs vals) :=
  .ite (fun _ => .err) fun _ => .ite (fun _ => .err) fun _ =>
    unsubLoop_same hE hX hR hE' hX' hR' _ h

omit hE hX hR hE' hX' hR' in
/-- the validators a distribution goes to, in the order of the map -/
def earners (s : State) : List Nat :=
  (s.vals.filter fun p => p.2.status = .active || p.2.status = .yellowCard).map (·.1)

omit hE hX hR hE' hX' hR' in

/-- the shares and the revenue of one distribution, as a function of the chain -/
noncomputable def canon (V : Nat → Nat → BVal) (net : Str) (s : State) (r : Int) : List (Nat × Int) × Int :=
  let el := earners s
  if el = [] then ([], r)
  else if PostElectra net s.nextSlot then
    let tot := (el.map fun i => i64 (V s.nextSlot i).effBal).sum
    (el.map fun i => (i, (r - feeOf s.fee r) * i64 (V s.nextSlot i).effBal / tot),
      r - (el.map fun i => (r - feeOf s.fee r) * i64 (V s.nextSlot i).effBal / tot).sum)
  else if PostFork1 net s.nextSlot then
    (el.map fun i => (i, (r - feeOf s.fee r) / el.length), feeOf s.fee r + (r - feeOf s.fee r) % el.length)
  else
    (el.map fun i => (i, (r - feeOf s.fee r - r * s.fee % 10000) / el.length),
      feeOf s.fee r + r * s.fee % 10000 + (r - feeOf s.fee r - r * s.fee % 10000) % el.length)

omit hE' hX' hR' in
theorem increaseAll_canon {net s r s'} (hs : Sorted s.vals) (h : increaseAll E net s r = .ok s') :
    s' = { s with vals := credit (canon V net s r).1 s.vals, poolFees := s.poolFees + (canon V net s r).2,
                  tick := s'.tick } := by
  obtain ⟨sh, fees, d⟩ := increaseAll_dist hE hs h
  have hp : (eligible E s).Perm (earners s) := shuffle_perm hE _ _
  have hl := hp.length_eq
  have key : s'.vals = credit (canon V net s r).1 s.vals ∧ s'.poolFees = s.poolFees + (canon V net s r).2 := by
    rcases increaseAll_rule hE h with ⟨h1, h2, h3⟩ | ⟨h1, _, x, f, hx, _, h2, h3⟩
    · have : earners s = [] := by rw [h1] at hp; exact List.nil_perm.mp hp
      unfold canon
      simp only [this, if_true]
      exact ⟨by rw [h2, credit_nil], h3⟩
    · have hne : ¬ earners s = [] := fun e => by rw [e] at hp; exact h1 (List.perm_nil.mp hp)
      unfold canon
      simp only [hne, if_false]
      rw [h2, h3]
      cases hx with
      | electra vs u p1 p2 p3 =>
        simp only [p1, if_true]
        have hv : vs.Perm ((earners s).map (V s.nextSlot)) := by
          have k := ((answer_perm hE hX p2 (nodup_eligible hE hs)).trans hp).map (V s.nextSlot)
          rw [List.map_map] at k
          have e1 : vs.map (V s.nextSlot ∘ fun v => v.index) = vs := by
            conv_rhs => rw [← List.map_id vs]
            exact List.map_congr_left fun v hv => (hR.node _ _ _ _ (getSet_some p2).1 v hv).symm
          rwa [e1] at k
        have hi : ∀ i ∈ earners s, (V s.nextSlot i).index = i := by
          intro i hi
          have : i ∈ vs.map (·.index) :=
            (answer_perm hE hX p2 (nodup_eligible hE hs)).mem_iff.mpr (hp.mem_iff.mpr hi)
          obtain ⟨v, hv, rfl⟩ := List.mem_map.mp this
          exact congrArg BVal.index (hR.node _ _ _ _ (getSet_some p2).1 v hv).symm
        have hsum : (vs.map fun v => i64 v.effBal).sum =
            ((earners s).map fun i => i64 (V s.nextSlot i).effBal).sum := by
          have := (hv.map fun v => i64 v.effBal).sum_eq
          rw [List.map_map] at this
          simp only [Function.comp_def] at this
          rw [this]
        rw [hsum]
        refine ⟨credit_perm ?_ _, ?_⟩
        · refine (hv.map _).trans (.of_eq ?_)
          rw [List.map_map]
          exact List.map_congr_left fun i hj => by simp only [Function.comp, hi i hj]
        · have := (hv.map fun v => (r - feeOf s.fee r) * i64 v.effBal /
            ((earners s).map fun i => i64 (V s.nextSlot i).effBal).sum).sum_eq
          rw [List.map_map] at this
          rw [this]
          simp only [Function.comp_def]
      | fork1 p1 p2 =>
        simp only [p1, p2, if_true, if_false]
        rw [hl]
        exact ⟨credit_perm (hp.map _) _, rfl⟩
      | pre p1 p2 p3 =>
        simp only [p2, p3, if_false]
        rw [hl]
        exact ⟨credit_perm (hp.map _) _, rfl⟩
  conv_lhs => rw [d.eq]
  have e1 : s'.vals = credit sh s.vals := by rw [d.eq]
  have e2 : s'.poolFees = s.poolFees + fees := by rw [d.eq]
  rw [← e1, ← e2, key.1, key.2]

omit hE hX hR hE' hX' hR' in
theorem earners_credit (sh) (m : VMap) :
    ((credit sh m).filter fun p => p.2.status = .active || p.2.status = .yellowCard).map (·.1) =
      (m.filter fun p => p.2.status = .active || p.2.status = .yellowCard).map (·.1) := by
  unfold credit
  induction m with
  | nil => rfl
  | cons p m ih =>
    simp only [List.map_cons, List.filter_cons]
    split <;> simp_all

omit hE hX hR hE' hX' hR' in
theorem canon_credit {s s' : State} {sh} (h1 : s'.vals = credit sh s.vals) (h2 : s'.nextSlot = s.nextSlot)
    (h3 : s'.fee = s.fee) (net r) : canon V net s' r = canon V net s r := by
  have : earners s' = earners s := by unfold earners; rw [h1]; exact earners_credit _ _
  unfold canon
  rw [this, h2, h3]

omit hE' hX' hR' in
/-- what the payments of a block add up to -/
theorem donLoop_canon (l) : ∀ {s s' : State}, Sorted s.vals → donLoop E net l s = .ok s' →
    s' = { s with vals := credit (l.flatMap fun d => (canon V net s d.amount).1) s.vals,
                  poolFees := s.poolFees + (l.map fun d => (canon V net s d.amount).2).sum,
                  tick := s'.tick, donations := s.donations ++ l } := by
  induction l with
  | nil =>
    intro s s' _ h
    have h : s = s' := Except.ok.inj h
    subst h
    simp [credit_nil]
  | cons d l ih =>
    intro s s' hs h
    simp only [donLoop, bind_ok] at h
    obtain ⟨s1, h1, h⟩ := h
    have e1 := increaseAll_canon hE hX hR hs h1
    have k1 : s1.vals = credit (canon V net s d.amount).1 s.vals := by rw [e1]
    have e2 := ih (s := { s1 with donations := s1.donations ++ [d] }) (by dsimp only; rw [k1]; exact hs.credit _) h
    have kc : ∀ r, canon V net { s1 with donations := s1.donations ++ [d] } r = canon V net s r := fun r =>
      canon_credit k1 (by rw [e1]) (by rw [e1]) net r
    simp only [kc] at e2
    rw [e2]
    simp only [List.flatMap_cons, List.map_cons, List.sum_cons, credit_append, ← k1]
    rw [e1]
    simp only [List.append_assoc, List.singleton_append, Int.add_assoc]

theorem donLoop_same {l l'} (hl : l.Perm l') {s s' : State} (h : Same s s') :
    Rel Same (donLoop E net l s) (donLoop E' net l' s') := by
  obtain ⟨hs, t, x, c, le, ld, ls, rfl⟩ := h
  intro a b ha hb
  have ea := donLoop_canon hE hX hR _ hs ha
  have eb := donLoop_canon (s := { s with tick := t, stateHash := x, committed := c, ether := le, donations := ld, subs := ls })
    hE' hX' hR' _ hs hb
  refine ⟨?_, b.tick, x, c, le, ld ++ l', ls, ?_⟩
  · rw [ea]; exact hs.credit _
  · have kc : ∀ r, canon V net { s with tick := t, stateHash := x, committed := c, ether := le, donations := ld, subs := ls } r =
        canon V net s r := fun r => rfl
    simp only [kc] at eb
    rw [eb, ea]
    dsimp only
    rw [credit_perm (hl.flatMap_right fun d => (canon V net s d.amount).1) s.vals,
      (hl.map fun d => (canon V net s d.amount).2).sum_eq]

theorem handleDonations_same {s s' : State} (h : Same s s') {ds ds'} (hd : ds.Perm ds') :
    Rel Same (handleDonations E net s ds) (handleDonations E' net s' ds') := by
  intro a b ha hb
  unfold handleDonations at ha hb
  split at ha
  · simp at ha
  · split at hb
    · simp at hb
    · exact donLoop_same hE hX hR hE' hX' hR' hd h a b ha hb

theorem handleCorrect_same {s s' : State} (h : Same s s') (b) :
    Rel Same (handleCorrect E net s b) (handleCorrect E' net s' b) := by
  unfold handleCorrect
  dsimp only
  cases b.reward with
  | none => exact .err
  | some r =>
    dsimp only
    refine Rel.bind (increaseAll_same hE hX hR hE' hX' hR'
      ((addSubscription_same h _ _ _).advance _ _)) fun a b hab => ?_
    refine Rel.bind (hab.consolidate _) ?_
    rintro a _ ⟨hs, t, x, c, le, ld, ls, rfl⟩
    exact .ok ⟨hs, t, x, c, le, ld, ls, rfl⟩

theorem handleWrongFee_same {s s' : State} (h : Same s s') (b) :
    Rel Same (handleWrongFee E net s b) (handleWrongFee E' net s' b) := by
  unfold handleWrongFee
  dsimp only
  rw [(h.advance _ _).pendOf]
  refine Rel.bind (.refl _) ?_
  rintro p _ rfl
  refine Rel.bind (increaseAll_same hE hX hR hE' hX' hR' (h.advance _ _)) fun a b hab => ?_
  refine Rel.bind (hab.resetPending _) ?_
  rintro a _ ⟨hs, t, x, c, le, ld, ls, rfl⟩
  exact .ok ⟨hs, t, x, c, le, ld, ls, rfl⟩

theorem handleBans_same {s s' : State} (h : Same s s') {evs evs' : List BanEvent} (hp : evs.Perm evs') :
    Rel Same (handleBans E net s evs) (handleBans E' net s' evs') := by
  by_cases hn : evs = []
  · subst hn
    rw [hp.symm.eq_nil]
    exact .ok h
  have hn' : evs' ≠ [] := fun e => hn (by rw [e] at hp; exact hp.eq_nil)
  unfold handleBans
  rw [if_neg hn, if_neg hn', banLoop_perm hp]
  intro a b ha hb
  split at ha
  · cases ha
  split at hb
  · cases hb
  revert a b
  refine Rel.bind (banLoop_same _ h) ?_
  rintro ⟨a, x⟩ ⟨b, y⟩ ⟨hab, e⟩
  dsimp only at hab e ⊢
  subst e
  exact .ite (fun _ => .err) fun _ =>
    .ite (fun _ => increaseAll_same hE hX hR hE' hX' hR' hab) fun _ => .ok hab

/-- a block with other payments, subscriptions, bans and unbans -/
abbrev asking (b : FullBlock) (pays : List EtherEvent) (us : List SubEvent) (vs : List (Option BVal))
    (bs ns : List BanEvent) : FullBlock :=
  { b with events := { b.events with ether := pays, subs := us, bans := bs, unbans := ns }, valsSubs := vs }

theorem applyBlock_same {s s' : State} (h : Same s s') (b : FullBlock) (sb pays) {dons dons' : List EtherEvent}
    (hd : dons.Perm dons') {us vs bs ns}
    (hq : Queued (fun p : SubEvent × Option BVal => p.1.validatorId) (b.events.subs.zip b.valsSubs) (us.zip vs))
    (hb : b.events.bans.Perm bs) (hn : b.events.unbans.Perm ns) :
    Rel Same (applyBlock E net s b sb dons) (applyBlock E' net s' (asking b pays us vs bs ns) sb dons') := by
  obtain ⟨hs, t, x, c, le, ld, ls, rfl⟩ := h
  unfold applyBlock
  dsimp only
  refine Rel.bind (R := Same) ?_ fun s1 t1 h1 => ?_
  · exact handleSubs_same (s := { s with subs := s.subs ++ b.events.subs, unsubs := s.unsubs ++ b.events.unsubs, ether := s.ether ++ b.events.ether }) ⟨hs, t, x, c, le ++ pays, ld, ls ++ us, rfl⟩ hq
  have h2 : Same (if sb.type = .missed ∧ s1.isSubscribed sb.index then handleMissed s1 sb else s1)
      (if sb.type = .missed ∧ t1.isSubscribed sb.index then handleMissed t1 sb else t1) := by
    rw [h1.isSubscribed]
    exact Same.ite (handleMissed_same h1 _) h1
  refine Rel.bind (Rel.ite (fun _ => handleBls_same h2 _) (fun _ => .ok h2)) fun s3 t3 h3 => ?_
  refine Rel.bind (Rel.ite (fun _ => handleCorrect_same hE hX hR hE' hX' hR' h3 _)
    (fun _ => .ok h3)) fun s4 t4 h4 => ?_
  rw [h4.isSubscribed]
  refine Rel.bind (Rel.ite (fun _ => handleWrongFee_same hE hX hR hE' hX' hR' h4 _)
    (fun _ => .ok h4)) fun s5 t5 h5 => ?_
  refine Rel.bind (handleUnsubs_same hE hX hR hE' hX' hR' h5 _ _) fun s6 t6 h6 => ?_
  refine Rel.bind (handleDonations_same hE hX hR hE' hX' hR' h6 hd) fun s7 t7 h7 => ?_
  refine Rel.bind (handleBans_same hE hX hR hE' hX' hR' h7 hb) fun s8 t8 h8 => ?_
  exact handleUnbans_same h8 hn

omit hE hX hE' hX' hR' hR

/-! ### Cleanup -/

/-- the validator map as a function -/
abbrev Fn := Nat → Option Validator

/-- the record created for an unknown consolidation target -/
def made (w : Str) (u : BVal) (j : Nat) (p : Int) : Validator :=
  { status := .notSubscribed, acc := 0, pend := p, coll := 0, waddr := w, index := j,
    key := hexutilEncode u.pubkey, subType := .manual }

/-- cleaning one record of a map -/
def cleanFn (v : Validator) : Validator :=
  { v with status := transition v.status .unsubscribe, pend := 0 }

/-- one step of the cleanup, without the program's way of failing; `c` is the chain at the slot -/
def cleanStep (c : Nat → BVal) (cs : List (Nat × Nat)) (z : Fn × Int) (u : BVal) : Fn × Int :=
  if u.status.isActive then z else
  match z.1 u.index with
  | none => z
  | some v =>
    if v.pend = 0 then z else
    let f := Function.update z.1 u.index (some (cleanFn v))
    match consolTarget cs u.index with
    | none => (f, z.2 + v.pend)
    | some j =>
      match z.1 j with
      | none => (Function.update f j (some (made ((compatAddressByte (c j).creds).getD []) (c j) j v.pend)), z.2)
      | some w =>
        if w.status = .banned then (f, z.2 + v.pend)
        else (Function.update f j (some { w with pend := w.pend + v.pend }), z.2)

theorem cleanStep_comm {c : Nat → BVal} {cs : List (Nat × Nat)} {a b : BVal} (z : Fn × Int)
    (hab : a.index ≠ b.index)
    (ha : a.status.isActive = false → ∀ j, consolTarget cs a.index = some j →
      (j ≠ a.index ∧ (b.status.isActive = false → j ≠ b.index)))
    (hb : b.status.isActive = false → ∀ j, consolTarget cs b.index = some j →
      (j ≠ b.index ∧ (a.status.isActive = false → j ≠ a.index))) :
    cleanStep c cs (cleanStep c cs z a) b = cleanStep c cs (cleanStep c cs z b) a := by
  obtain ⟨f, t⟩ := z
  cases hA : a.status.isActive with
  | true => simp [cleanStep, hA]
  | false =>
  cases hB : b.status.isActive with
  | true => simp [cleanStep, hB]
  | false =>
  replace ha := ha hA
  replace hb := hb hB
  have hba := hab.symm
  cases hfa : f a.index with
  | none =>
    cases hfb : f b.index with
    | none => simp [cleanStep, hA, hB, hfa, hfb]
    | some vb =>
      by_cases pb : vb.pend = 0
      · simp [cleanStep, hA, hB, hfa, hfb, pb]
      · cases tb : consolTarget cs b.index with
        | none => simp [cleanStep, hA, hB, hfa, hfb, pb, tb, Function.update_of_ne hab]
        | some k =>
          obtain ⟨hk1, hk2⟩ := hb k tb
          replace hk2 := (hk2 hA).symm
          cases hfk : f k with
          | none => simp [cleanStep, hA, hB, hfa, hfb, pb, tb, hfk, Function.update_of_ne hab,
              Function.update_of_ne hk2]
          | some w =>
            by_cases hw : w.status = .banned
            · simp [cleanStep, hA, hB, hfa, hfb, pb, tb, hfk, hw, Function.update_of_ne hab]
            · simp [cleanStep, hA, hB, hfa, hfb, pb, tb, hfk, hw, Function.update_of_ne hab,
                Function.update_of_ne hk2]
  | some va =>
    by_cases pa : va.pend = 0
    · cases hfb : f b.index with
      | none => simp [cleanStep, hA, hB, hfa, hfb, pa]
      | some vb =>
        by_cases pb : vb.pend = 0
        · simp [cleanStep, hA, hB, hfa, hfb, pa, pb]
        · cases tb : consolTarget cs b.index with
          | none => simp [cleanStep, hA, hB, hfa, hfb, pa, pb, tb, Function.update_of_ne hab]
          | some k =>
            obtain ⟨hk1, hk2⟩ := hb k tb
            replace hk2 := (hk2 hA).symm
            cases hfk : f k with
            | none => simp [cleanStep, hA, hB, hfa, hfb, pa, pb, tb, hfk, Function.update_of_ne hab,
                Function.update_of_ne hk2]
            | some w =>
              by_cases hw : w.status = .banned
              · simp [cleanStep, hA, hB, hfa, hfb, pa, pb, tb, hfk, hw, Function.update_of_ne hab]
              · simp [cleanStep, hA, hB, hfa, hfb, pa, pb, tb, hfk, hw, Function.update_of_ne hab,
                  Function.update_of_ne hk2]
    · cases hfb : f b.index with
      | none =>
        cases ta : consolTarget cs a.index with
        | none => simp [cleanStep, hA, hB, hfa, hfb, pa, ta, Function.update_of_ne hba]
        | some j =>
          obtain ⟨hj1, hj2⟩ := ha j ta
          replace hj2 := (hj2 hB).symm
          cases hfj : f j with
          | none => simp [cleanStep, hA, hB, hfa, hfb, pa, ta, hfj, Function.update_of_ne hba,
              Function.update_of_ne hj2]
          | some w =>
            by_cases hw : w.status = .banned
            · simp [cleanStep, hA, hB, hfa, hfb, pa, ta, hfj, hw, Function.update_of_ne hba]
            · simp [cleanStep, hA, hB, hfa, hfb, pa, ta, hfj, hw, Function.update_of_ne hba,
                Function.update_of_ne hj2]
      | some vb =>
        by_cases pb : vb.pend = 0
        · cases ta : consolTarget cs a.index with
          | none => simp [cleanStep, hA, hB, hfa, hfb, pa, pb, ta, Function.update_of_ne hba]
          | some j =>
            obtain ⟨hj1, hj2⟩ := ha j ta
            replace hj2 := (hj2 hB).symm
            cases hfj : f j with
            | none => simp [cleanStep, hA, hB, hfa, hfb, pa, pb, ta, hfj, Function.update_of_ne hba,
                Function.update_of_ne hj2]
            | some w =>
              by_cases hw : w.status = .banned
              · simp [cleanStep, hA, hB, hfa, hfb, pa, pb, ta, hfj, hw, Function.update_of_ne hba]
              · simp [cleanStep, hA, hB, hfa, hfb, pa, pb, ta, hfj, hw, Function.update_of_ne hba,
                  Function.update_of_ne hj2]
        · cases ta : consolTarget cs a.index with
          | none =>
            cases tb : consolTarget cs b.index with
            | none =>
              simp [cleanStep, hA, hB, hfa, hfb, pa, pb, ta, tb, Function.update_of_ne hba,
                Function.update_of_ne hab, Function.update_comm hab]
              omega
            | some k =>
              obtain ⟨hk1, hk2⟩ := hb k tb
              replace hk2 := hk2 hA
              cases hfk : f k with
              | none => simp [cleanStep, hA, hB, hfa, hfb, pa, pb, ta, tb, hfk, Function.update_of_ne hba,
                  Function.update_of_ne hab, Function.update_of_ne hk2, Function.update_of_ne hk2.symm,
                  Function.update_comm hab, Function.update_comm hk2.symm]
              | some w =>
                by_cases hw : w.status = .banned
                · simp [cleanStep, hA, hB, hfa, hfb, pa, pb, ta, tb, hfk, hw, Function.update_of_ne hba,
                    Function.update_of_ne hab, Function.update_of_ne hk2, Function.update_comm hab]
                  omega
                · simp [cleanStep, hA, hB, hfa, hfb, pa, pb, ta, tb, hfk, hw, Function.update_of_ne hba,
                    Function.update_of_ne hab, Function.update_of_ne hk2, Function.update_of_ne hk2.symm,
                    Function.update_comm hab, Function.update_comm hk2.symm]
          | some j =>
            obtain ⟨hj1, hj2⟩ := ha j ta
            replace hj2 := hj2 hB
            have R3 : ∀ x y z : Option Validator, Function.update (Function.update (Function.update f a.index x) j y) b.index z = Function.update (Function.update (Function.update f b.index z) a.index x) j y := by
              intro x y z
              funext i
              simp only [Function.update_apply]
              split_ifs <;> simp_all
            cases tb : consolTarget cs b.index with
            | none =>
              cases hfj : f j with
              | none => simp [cleanStep, hA, hB, hfa, hfb, pa, pb, ta, tb, Function.update_of_ne hba, Function.update_of_ne hab, hfj, Function.update_of_ne hj2, Function.update_of_ne hj2.symm,
                  R3]
              | some w =>
                by_cases hw : w.status = .banned
                · simp [cleanStep, hA, hB, hfa, hfb, pa, pb, ta, tb, Function.update_of_ne hba, Function.update_of_ne hab, hfj, hw, Function.update_of_ne hj2, Function.update_comm hab]
                  omega
                · simp [cleanStep, hA, hB, hfa, hfb, pa, pb, ta, tb, Function.update_of_ne hba, Function.update_of_ne hab, hfj, hw, Function.update_of_ne hj2, Function.update_of_ne hj2.symm,
                    R3]
            | some k =>
              obtain ⟨hk1, hk2⟩ := hb k tb
              replace hk2 := hk2 hA
              by_cases hjk : j = k
              · subst hjk
                cases hfj : f j with
                | none =>
                  simp [cleanStep, hA, hB, hfa, hfb, pa, pb, ta, tb, Function.update_of_ne hba, Function.update_of_ne hab, hfj, made, Function.update_of_ne hj2.symm, Function.update_of_ne hk2.symm]
                  funext x
                  simp only [Function.update_apply]
                  split_ifs <;> simp_all <;> omega
                | some w =>
                  by_cases hw : w.status = .banned
                  · simp [cleanStep, hA, hB, hfa, hfb, pa, pb, ta, tb, Function.update_of_ne hba, Function.update_of_ne hab, hfj, hw, Function.update_of_ne hj2, Function.update_of_ne hk2,
                      Function.update_comm hab]
                    omega
                  · simp [cleanStep, hA, hB, hfa, hfb, pa, pb, ta, tb, Function.update_of_ne hba, Function.update_of_ne hab, hfj, hw, Function.update_of_ne hj2.symm, Function.update_of_ne hk2.symm]
                    funext x
                    simp only [Function.update_apply]
                    split_ifs <;> simp_all <;> omega
              · have hkj : k ≠ j := fun e => hjk e.symm
                have R : ∀ x y z w : Option Validator, Function.update (Function.update (Function.update
                    (Function.update f a.index x) j y) b.index z) k w = Function.update (Function.update
                    (Function.update (Function.update f b.index z) k w) a.index x) j y := by
                  intro x y z w
                  funext i
                  simp only [Function.update_apply]
                  split_ifs <;> simp_all
                have R2 : ∀ x z w : Option Validator, Function.update (Function.update
                    (Function.update f a.index x) b.index z) k w = Function.update
                    (Function.update (Function.update f b.index z) k w) a.index x := by
                  intro x z w
                  funext i
                  simp only [Function.update_apply]
                  split_ifs <;> simp_all
                cases hfj : f j with
                | none =>
                  cases hfk : f k with
                  | none => simp [cleanStep, hA, hB, hfa, hfb, pa, pb, ta, tb, Function.update_of_ne hba, Function.update_of_ne hab, hfj, hfk, Function.update_of_ne hj2, Function.update_of_ne hk2, Function.update_of_ne hjk, Function.update_of_ne hkj, Function.update_of_ne hj2.symm, Function.update_of_ne hk2.symm, Function.update_of_ne hj1, Function.update_of_ne hk1, R]
                  | some w' =>
                    by_cases hw' : w'.status = .banned
                    · simp [cleanStep, hA, hB, hfa, hfb, pa, pb, ta, tb, Function.update_of_ne hba, Function.update_of_ne hab, hfj, hfk, hw', Function.update_of_ne hj2, Function.update_of_ne hk2, Function.update_of_ne hjk, Function.update_of_ne hkj, Function.update_of_ne hj2.symm, Function.update_of_ne hk2.symm, Function.update_of_ne hj1, Function.update_of_ne hk1, R3]
                    · simp [cleanStep, hA, hB, hfa, hfb, pa, pb, ta, tb, Function.update_of_ne hba, Function.update_of_ne hab, hfj, hfk, hw', Function.update_of_ne hj2, Function.update_of_ne hk2, Function.update_of_ne hjk, Function.update_of_ne hkj, Function.update_of_ne hj2.symm, Function.update_of_ne hk2.symm, Function.update_of_ne hj1, Function.update_of_ne hk1, R]
                | some w =>
                  by_cases hw : w.status = .banned
                  · cases hfk : f k with
                    | none =>  simp [cleanStep, hA, hB, hfa, hfb, pa, pb, ta, tb, Function.update_of_ne hba, Function.update_of_ne hab, hfj, hfk, hw, Function.update_of_ne hj2, Function.update_of_ne hk2, Function.update_of_ne hjk, Function.update_of_ne hkj, Function.update_of_ne hj2.symm, Function.update_of_ne hk2.symm, Function.update_of_ne hj1, Function.update_of_ne hk1, R2]
                    | some w' =>
                      by_cases hw' : w'.status = .banned
                      · simp [cleanStep, hA, hB, hfa, hfb, pa, pb, ta, tb, Function.update_of_ne hba, Function.update_of_ne hab, hfj, hfk, hw, hw', Function.update_of_ne hj2, Function.update_of_ne hk2, Function.update_of_ne hjk, Function.update_of_ne hkj, Function.update_comm hab]
                        omega
                      · simp [cleanStep, hA, hB, hfa, hfb, pa, pb, ta, tb, Function.update_of_ne hba, Function.update_of_ne hab, hfj, hfk, hw, hw', Function.update_of_ne hj2, Function.update_of_ne hk2, Function.update_of_ne hjk, Function.update_of_ne hkj, Function.update_of_ne hj2.symm, Function.update_of_ne hk2.symm, Function.update_of_ne hj1, Function.update_of_ne hk1, R2]
                  · cases hfk : f k with
                    | none =>  simp [cleanStep, hA, hB, hfa, hfb, pa, pb, ta, tb, Function.update_of_ne hba, Function.update_of_ne hab, hfj, hfk, hw, Function.update_of_ne hj2, Function.update_of_ne hk2, Function.update_of_ne hjk, Function.update_of_ne hkj, Function.update_of_ne hj2.symm, Function.update_of_ne hk2.symm, Function.update_of_ne hj1, Function.update_of_ne hk1, R]
                    | some w' =>
                      by_cases hw' : w'.status = .banned
                      · simp [cleanStep, hA, hB, hfa, hfb, pa, pb, ta, tb, Function.update_of_ne hba, Function.update_of_ne hab, hfj, hfk, hw, hw', Function.update_of_ne hj2, Function.update_of_ne hk2, Function.update_of_ne hjk, Function.update_of_ne hkj, Function.update_of_ne hj2.symm, Function.update_of_ne hk2.symm, Function.update_of_ne hj1, Function.update_of_ne hk1, R3]
                      · simp [cleanStep, hA, hB, hfa, hfb, pa, pb, ta, tb, Function.update_of_ne hba, Function.update_of_ne hab, hfj, hfk, hw, hw', Function.update_of_ne hj2, Function.update_of_ne hk2, Function.update_of_ne hjk, Function.update_of_ne hkj, Function.update_of_ne hj2.symm, Function.update_of_ne hk2.symm, Function.update_of_ne hj1, Function.update_of_ne hk1, R]

theorem fn_modify {m : VMap} {i f v} (hv : VMap.get m i = some v) :
    VMap.get (VMap.modify m i f) = Function.update (VMap.get m) i (some (f v)) := by
  funext k
  rw [get_modify, Function.update_apply]
  split
  · rw [hv]; rfl
  · rfl

theorem fn_insert {m : VMap} {i v} :
    VMap.get (VMap.insert m i v) = Function.update (VMap.get m) i (some v) := by
  funext k
  rw [get_insert, Function.update_apply]

theorem State.resetPending_ok {s s' : State} {i} (h : s.resetPending i = .ok s') :
    ∃ v, VMap.get s.vals i = some v ∧ s' = s.modVal i fun v => { v with pend := 0 } := by
  unfold State.resetPending State.isTracked at h
  split at h
  · rename_i hi
    obtain ⟨v, hv⟩ := Option.isSome_iff_exists.mp hi
    exact ⟨v, hv, (Except.ok.inj h).symm⟩
  · simp at h

theorem cleanOne_step {E : Env} (hR : ReadsChain V K E) {slot cs} {s s1 : State} {tot tot1 : Int} {u : BVal}
    {v : Validator} (hs : Sorted s.vals) (hact : u.status.isActive = false)
    (hv : VMap.get s.vals u.index = some v) (hp : v.pend ≠ 0)
    (hne : ∀ j, consolTarget cs u.index = some j → j ≠ u.index)
    (h : cleanOne E slot cs s tot u.index = .ok (s1, tot1, true)) :
    Sorted s1.vals ∧ (VMap.get s1.vals, tot1) = cleanStep (V slot) cs (VMap.get s.vals, tot) u ∧
      s1 = { s with vals := s1.vals, tick := s1.tick } := by
  have hv1 : VMap.get (s.advance u.index .unsubscribe).vals u.index =
      some { v with status := transition v.status .unsubscribe } := by
    unfold State.advance State.modVal; rw [get_modify_self, hv]; rfl
  have hs1 : Sorted (s.advance u.index .unsubscribe).vals := by
    unfold State.advance State.modVal; dsimp only; exact hs.modify _ _
  have hother : ∀ j, j ≠ u.index →
      VMap.get (s.advance u.index .unsubscribe).vals j = VMap.get s.vals j := by
    intro j hj; unfold State.advance State.modVal; dsimp only; exact get_modify_ne _ _ hj
  have hF : VMap.get (s.advance u.index .unsubscribe).vals = Function.update (VMap.get s.vals) u.index
      (some { v with status := transition v.status .unsubscribe }) := by
    unfold State.advance State.modVal; dsimp only; exact fn_modify hv
  have hrest : s.advance u.index .unsubscribe =
      { s with vals := (s.advance u.index .unsubscribe).vals } := rfl
  unfold cleanOne at h
  simp only [bind_ok] at h
  generalize s.advance u.index .unsubscribe = q at *
  obtain ⟨p, hpe, h⟩ := h
  unfold State.pendOf at hpe
  rw [hv1] at hpe
  have hpe : v.pend = p := Except.ok.inj hpe
  subst hpe
  unfold cleanStep
  simp only [hact, Bool.false_eq_true, if_false, hv, if_neg hp]
  cases ht : consolTarget cs u.index with
  | none =>
    rw [ht] at h
    simp only [bind_ok] at h
    obtain ⟨s2, h2, h⟩ := h
    obtain ⟨w, hw, rfl⟩ := State.resetPending_ok h2
    simp only [Except.ok.injEq, Prod.mk.injEq] at h
    obtain ⟨rfl, rfl, _⟩ := h
    refine ⟨by unfold State.modVal; dsimp only; exact hs1.modify _ _, ?_, ?_⟩
    · unfold State.modVal
      dsimp only
      rw [fn_modify hv1, hF, Function.update_idem]
      rfl
    · rw [hrest]; rfl
  | some j =>
    have hj := hne j ht
    rw [ht] at h
    dsimp only at h ⊢
    cases hg : VMap.get s.vals j with
    | none =>
      have hg1 : VMap.get q.vals j = none := by rw [hother j hj, hg]
      have htr : q.isTracked j = false := by unfold State.isTracked; rw [hg1]; rfl
      simp only [htr, Bool.false_and, Bool.false_eq_true, if_false, Bool.not_false, if_true] at h
      cases hgs : getSet E q.tick slot [j] with
      | none => rw [hgs] at h; simp at h
      | some r =>
        rw [hgs] at h
        dsimp only at h
        cases hfd : r.find? (fun v => v.index == j) with
        | none => rw [hfd] at h; simp at h
        | some bv =>
          rw [hfd] at h
          dsimp only at h
          have e1 : bv.index = j := by simpa using List.find?_some hfd
          have e2 := hR.node _ _ _ _ (getSet_some hgs).1 bv (List.mem_of_find?_eq_some hfd)
          rw [e1] at e2
          cases hca : compatAddressByte bv.creds with
          | none => rw [hca] at h; simp at h
          | some w =>
            rw [hca] at h
            simp only [bind_ok] at h
            obtain ⟨s2, h2, h⟩ := h
            obtain ⟨w', hw', rfl⟩ := State.resetPending_ok h2
            simp only [Except.ok.injEq, Prod.mk.injEq] at h
            obtain ⟨rfl, rfl, _⟩ := h
            refine ⟨?_, ?_, ?_⟩
            · unfold State.modVal State.putVal
              dsimp only
              exact (hs1.insert _ _).modify _ _
            · unfold State.modVal State.putVal
              dsimp only
              have hv2 : VMap.get (VMap.insert q.vals j (made w bv j v.pend)) u.index =
                  some { v with status := transition v.status .unsubscribe } := by
                rw [get_insert, if_neg (Ne.symm hj), hv1]
              have := fn_modify (f := fun v => { v with pend := 0 }) hv2
              unfold made at this
              rw [this, fn_insert, hF]
              rw [← e2, hca, Option.getD_some]
              rw [Function.update_comm hj, Function.update_idem]
              rfl
            · rw [hrest]; rfl
    | some w =>
      have hg1 : VMap.get q.vals j = some w := by rw [hother j hj, hg]
      have htr : q.isTracked j = true := by unfold State.isTracked; rw [hg1]; rfl
      by_cases hb : w.status = .banned
      · have hbn : q.isBanned j = true := by unfold State.isBanned; rw [hg1]; simp [hb]
        simp only [htr, hbn, Bool.not_true, Bool.and_false, Bool.false_eq_true, if_false, if_true,
          bind_ok] at h
        obtain ⟨s2, h2, h⟩ := h
        obtain ⟨w', hw', rfl⟩ := State.resetPending_ok h2
        simp only [Except.ok.injEq, Prod.mk.injEq] at h
        obtain ⟨rfl, rfl, _⟩ := h
        refine ⟨by unfold State.modVal; dsimp only; exact hs1.modify _ _, ?_, ?_⟩
        · unfold State.modVal
          dsimp only
          rw [fn_modify hv1, hF, Function.update_idem, if_pos hb]
          rfl
        · rw [hrest]; rfl
      · have hbn : q.isBanned j = false := by unfold State.isBanned; rw [hg1]; simp [hb]
        simp only [htr, hbn, Bool.not_false, Bool.and_self, if_true, bind_ok] at h
        obtain ⟨s2, h2, s3, h3, h⟩ := h
        unfold State.incPending at h2
        rw [htr, if_pos rfl] at h2
        have h2 := (Except.ok.inj h2).symm
        subst h2
        obtain ⟨w', hw', rfl⟩ := State.resetPending_ok h3
        simp only [Except.ok.injEq, Prod.mk.injEq] at h
        obtain ⟨rfl, rfl, _⟩ := h
        refine ⟨?_, ?_, ?_⟩
        · unfold State.modVal
          dsimp only
          exact (hs1.modify _ _).modify _ _
        · unfold State.modVal
          dsimp only
          have hv2 : VMap.get (VMap.modify q.vals j fun w => { w with pend := w.pend + v.pend }) u.index =
              some { v with status := transition v.status .unsubscribe } := by
            rw [get_modify_ne _ _ (Ne.symm hj), hv1]
          rw [fn_modify hv2, fn_modify hg1, hF, if_neg hb, Function.update_comm hj,
            Function.update_idem]
          rfl
        · rw [hrest]; rfl

theorem cleanLoop_fold {E : Env} (hR : ReadsChain V K E) {slot cs} (l : List BVal) :
    ∀ {s s' : State} {tot tot' : Int}, Sorted s.vals →
    (∀ u ∈ l, u.status.isActive = false → ∀ j, consolTarget cs u.index = some j → j ≠ u.index) →
    cleanLoop E slot cs l s tot = .ok (s', tot', true) →
    Sorted s'.vals ∧ (VMap.get s'.vals, tot') = l.foldl (cleanStep (V slot) cs) (VMap.get s.vals, tot) ∧
      s' = { s with vals := s'.vals, tick := s'.tick } := by
  induction l with
  | nil =>
    intro s s' tot tot' hs _ h
    simp only [cleanLoop, Except.ok.injEq, Prod.mk.injEq] at h
    obtain ⟨rfl, rfl, _⟩ := h
    exact ⟨hs, rfl, rfl⟩
  | cons u l ih =>
    intro s s' tot tot' hs hne h
    have hne' : ∀ u ∈ l, u.status.isActive = false → ∀ j, consolTarget cs u.index = some j →
        j ≠ u.index := fun u hu => hne u (List.mem_cons_of_mem _ hu)
    unfold cleanLoop at h
    rw [List.foldl_cons]
    cases hact : u.status.isActive with
    | true =>
      rw [hact, if_pos rfl] at h
      have : cleanStep (V slot) cs (VMap.get s.vals, tot) u = (VMap.get s.vals, tot) := by
        simp [cleanStep, hact]
      rw [this]
      exact ih hs hne' h
    | false =>
      rw [hact] at h
      simp only [Bool.false_eq_true, if_false, bind_ok] at h
      obtain ⟨p, hp, h⟩ := h
      unfold State.pendOf at hp
      cases hv : VMap.get s.vals u.index with
      | none => rw [hv] at hp; simp at hp
      | some v =>
        rw [hv] at hp
        have hp : v.pend = p := Except.ok.inj hp
        subst hp
        by_cases h0 : v.pend = 0
        · rw [if_pos h0] at h
          have : cleanStep (V slot) cs (VMap.get s.vals, tot) u = (VMap.get s.vals, tot) := by
            simp [cleanStep, hact, hv, h0]
          rw [this]
          exact ih hs hne' h
        · rw [if_neg h0] at h
          simp only [bind_ok] at h
          obtain ⟨⟨s1, tot1, go⟩, h1, h⟩ := h
          cases go with
          | false => simp at h
          | true =>
            simp only [if_true] at h
            obtain ⟨k1, k2, k3⟩ := cleanOne_step hR hs hact hv h0 (hne u (by simp) hact) h1
            obtain ⟨l1, l2, l3⟩ := ih k1 hne' h
            refine ⟨l1, ?_, ?_⟩
            · rw [l2, k2]
            · rw [l3, k3]


/-- validators that left with nothing pending can be left out of the cleanup -/
theorem cleanFold_filter {c : Nat → BVal} {cs : List (Nat × Nat)} (f0 : Fn)
    (hch : ∀ i j v w, f0 i = some v → f0 j = some w → consolTarget cs i = some j →
      (c i).status.isActive = false → (c j).status.isActive = false →
      v.pend = 0 ∨ (w.status = .banned ∧ w.pend = 0)) :
    ∀ (l : List BVal) (z : Fn × Int), (∀ u ∈ l, u = c u.index ∧ ∃ v, f0 u.index = some v) →
      (∀ i v, f0 i = some v → v.pend = 0 → (c i).status.isActive = false → z.1 i = f0 i) →
      l.foldl (cleanStep c cs) z =
        (l.filter fun u => (f0 u.index).all fun v => v.pend != 0).foldl (cleanStep c cs) z := by
  intro l
  induction l with
  | nil => intro z _ _; rfl
  | cons u l ih =>
    intro z hl hz
    have hl' : ∀ u ∈ l, u = c u.index ∧ ∃ v, f0 u.index = some v := fun x hx => hl x (by simp [hx])
    obtain ⟨hu, v, hv⟩ := hl u (by simp)
    rw [List.filter_cons, List.foldl_cons]
    by_cases hp : v.pend = 0
    · rw [if_neg (by simp [hv, hp])]
      have : cleanStep c cs z u = z := by
        unfold cleanStep
        split
        · rfl
        · rename_i hact
          rw [hz u.index v hv hp (by rw [← hu]; simpa using hact), hv]
          simp [hp]
      rw [this]
      exact ih z hl' hz
    · rw [if_pos (by simp [hv, hp]), List.foldl_cons]
      refine ih _ hl' ?_
      intro i v' hi hp' hact'
      have hiu : i ≠ u.index := by
        rintro rfl
        rw [hv, Option.some.injEq] at hi
        exact hp (hi ▸ hp')
      have hzi := hz i v' hi hp' hact'
      rw [← hzi]
      unfold cleanStep
      split
      · rfl
      · rename_i hact
        split
        · rfl
        · split
          · rfl
          · dsimp only
            split
            · exact Function.update_of_ne hiu ..
            · rename_i j hj
              split
              · rename_i hzj
                have hij : i ≠ j := by
                  rintro rfl
                  rw [hzi, hi] at hzj
                  cases hzj
                exact (Function.update_of_ne hij ..).trans (Function.update_of_ne hiu ..)
              · rename_i w hzj
                split
                · exact Function.update_of_ne hiu ..
                · rename_i hw
                  have hij : i ≠ j := by
                    rintro rfl
                    rw [hzi, hi, Option.some.injEq] at hzj
                    subst hzj
                    rcases hch u.index i v v' hv hi hj (by rw [← hu]; simpa using hact) hact' with h | h
                    · exact hp h
                    · exact hw h.1
                  exact (Function.update_of_ne hij ..).trans (Function.update_of_ne hiu ..)

theorem cleanup_same (hE : ValidEnv E) (hX : ExactEnv E) (hR : ReadsChain V K E)
    (hE' : ValidEnv E') (hX' : ExactEnv E') (hR' : ReadsChain V K E') {net slot}
    {s s' : State} (hA : NoChains V K slot s) (h : Same s s') :
    Rel (fun a b => a.2 = true → b.2 = true → Same a.1 b.1) (cleanup E net s slot)
      (cleanup E' net s' slot) := by
  obtain ⟨hs, t, x, c, le, ld, ls, rfl⟩ := h
  unfold cleanup
  dsimp only
  refine .ite (fun _ => .ok fun _ _ => ⟨hs, t, x, c, le, ld, ls, rfl⟩) fun _ => ?_
  have hpi : (E.shuffle s.tick (VMap.keys s.vals)).Perm (E'.shuffle t (VMap.keys s.vals)) :=
    (shuffle_perm hE _ _).trans (shuffle_perm hE' _ _).symm
  have hnd : (E.shuffle s.tick (VMap.keys s.vals)).Nodup :=
    (shuffle_perm hE _ _).nodup_iff.mpr hs.nodup_keys
  by_cases hnil : E.shuffle s.tick (VMap.keys s.vals) = []
  · have hnil' : E'.shuffle t (VMap.keys s.vals) = [] := by rw [hnil] at hpi; exact List.nil_perm.mp hpi
    rw [if_pos hnil, if_pos hnil']
    exact .ok fun _ _ => ⟨hs, t, x, c, le, ld, ls, rfl⟩
  · have hnil' : ¬ E'.shuffle t (VMap.keys s.vals) = [] := by
      intro e; rw [e] at hpi; exact hnil (List.perm_nil.mp hpi)
    rw [if_neg hnil, if_neg hnil']
    generalize hcs : (if slot ≥ slotOrZero (slotElectra net) then E.consol s.tick slot else some []) = cs?
    generalize hcs' : (if slot ≥ slotOrZero (slotElectra net) then E'.consol t slot else some []) = cs?'
    cases cs? with
    | none =>
      intro a b ha _
      simp only [Except.ok.injEq] at ha
      subst ha
      intro h; simp at h
    | some cs =>
    cases cs?' with
    | none =>
      intro a b _ hb
      simp only [Except.ok.injEq] at hb
      subst hb
      intro _ h; simp at h
    | some cs' =>
    have hcc : cs = cs' ∧ ∀ i j, consolTarget cs i = some j → LastTarget (K slot) i j := by
      split at hcs
      · rename_i hge
        rw [if_pos hge] at hcs'
        have e1 := hR.consol _ _ _ hcs
        have e2 := hR'.consol _ _ _ hcs'
        exact ⟨by rw [e1, e2], by rw [e1]; exact fun _ _ h => (consolTarget_some h).1⟩
      · rename_i hge
        rw [if_neg hge] at hcs'
        simp only [Option.some.injEq] at hcs hcs'
        exact ⟨by rw [← hcs, ← hcs'], by rw [← hcs]; intro i j h; cases h⟩
    obtain ⟨rfl, hmem⟩ := hcc
    dsimp only
    cases hg : getSet E s.tick slot (E.shuffle s.tick (VMap.keys s.vals)) with
    | none =>
      intro a b ha _
      simp only [Except.ok.injEq] at ha
      subst ha
      intro h; simp at h
    | some vs =>
    cases hg' : getSet E' t slot (E'.shuffle t (VMap.keys s.vals)) with
    | none =>
      intro a b _ hb
      simp only [Except.ok.injEq] at hb
      subst hb
      intro _ h; simp at h
    | some vs' =>
    dsimp only
    have hvs := answers_perm hE hX hR hE' hX' hR' hg hg' hnd hpi
    have hl : (E.shuffle (s.tick + 1) vs).Perm (E'.shuffle (t + 1) vs') :=
      (shuffle_perm hE _ _).trans (hvs.trans (shuffle_perm hE' _ _).symm)
    have hnodup : ((E.shuffle (s.tick + 1) vs).map (·.index)).Nodup :=
      ((shuffle_perm hE _ _).map _).nodup_iff.mpr (hE.nodup _ _ _ _ (getSet_some hg).1)
    have hchain : ∀ u ∈ E.shuffle (s.tick + 1) vs, u = V slot u.index := fun u hu =>
      hR.node _ _ _ _ (getSet_some hg).1 u ((shuffle_perm hE _ _).mem_iff.mp hu)
    have htrk : ∀ u ∈ E.shuffle (s.tick + 1) vs, ∃ v, VMap.get s.vals u.index = some v := fun u hu => by
      have h1 := hX _ _ _ _ (getSet_some hg).1 u ((shuffle_perm hE _ _).mem_iff.mp hu)
      have h2 := (shuffle_perm hE _ _).mem_iff.mp h1
      exact Option.isSome_iff_exists.mp ((VMap.get_isSome_iff _ _).mpr h2)
    generalize E.shuffle (s.tick + 1) vs = l at *
    generalize E'.shuffle (t + 1) vs' = l' at *
    have hno : ∀ u ∈ l, u.status.isActive = false → ∀ j, consolTarget cs u.index = some j → j ≠ u.index := by
      rintro u hu hact j hj rfl
      obtain ⟨v, hv⟩ := htrk u hu
      have ha : (V slot u.index).status.isActive = false := by rw [← hchain u hu]; exact hact
      exact (hA _ _ v v hv hv (hmem _ _ hj) ha ha).1 rfl
    have hgood : ∀ u ∈ l, ∀ w ∈ l, (∀ v, VMap.get s.vals u.index = some v → v.pend ≠ 0) →
        (∀ v, VMap.get s.vals w.index = some v → v.pend ≠ 0) → u.status.isActive = false →
        ∀ j, consolTarget cs u.index = some j → w.status.isActive = false → j ≠ w.index := by
      rintro u hu w hw hpu hpw hact j hj hwa rfl
      obtain ⟨v, hv⟩ := htrk u hu
      obtain ⟨v', hv'⟩ := htrk w hw
      rcases (hA _ _ v v' hv hv' (hmem _ _ hj) (by rw [← hchain u hu]; exact hact)
        (by rw [← hchain w hw]; exact hwa)).2 with h | h
      · exact hpu v hv h
      · exact hpw v' hv' h.2
    refine Rel.bind (R := fun a b => a.2.2 = true → b.2.2 = true → Same a.1 b.1 ∧ a.2.1 = b.2.1) ?_ ?_
    · rintro ⟨a, ta, ga⟩ ⟨b, tb, gb⟩ ha hb ea eb
      dsimp only at ea eb ⊢
      subst ea eb
      obtain ⟨a1, a2, a3⟩ := cleanLoop_fold hR l (s := { s with tick := s.tick + 2 }) hs
        hno ha
      obtain ⟨b1, b2, b3⟩ := cleanLoop_fold hR' l' 
        (s := { s with tick := t + 2, stateHash := x, committed := c, ether := le, donations := ld, subs := ls }) hs
        (fun u hu => hno u (hl.mem_iff.mpr hu)) hb
      have hf : l.foldl (cleanStep (V slot) cs) (VMap.get s.vals, 0) =
          l'.foldl (cleanStep (V slot) cs) (VMap.get s.vals, 0) := by
        have hch : ∀ i j v w, VMap.get s.vals i = some v → VMap.get s.vals j = some w →
            consolTarget cs i = some j → (V slot i).status.isActive = false →
            (V slot j).status.isActive = false → v.pend = 0 ∨ (w.status = .banned ∧ w.pend = 0) :=
          fun i j v w h1 h2 h3 h4 h5 => (hA i j v w h1 h2 (hmem _ _ h3) h4 h5).2
        rw [cleanFold_filter (VMap.get s.vals) hch l _ (fun u hu => ⟨hchain u hu, htrk u hu⟩) (fun _ _ _ _ _ => rfl),
          cleanFold_filter (VMap.get s.vals) hch l' _
            (fun u hu => ⟨hchain u (hl.mem_iff.mpr hu), htrk u (hl.mem_iff.mpr hu)⟩) (fun _ _ _ _ _ => rfl)]
        apply (hl.filter _).foldl_eq'
        intro x hx y hy z
        obtain ⟨hx, hpx⟩ := List.mem_filter.mp hx
        obtain ⟨hy, hpy⟩ := List.mem_filter.mp hy
        have hpx : ∀ v, VMap.get s.vals x.index = some v → v.pend ≠ 0 := fun v h1 => by
          simpa [h1] using hpx
        have hpy : ∀ v, VMap.get s.vals y.index = some v → v.pend ≠ 0 := fun v h1 => by
          simpa [h1] using hpy
        by_cases hxy : x = y
        · rw [hxy]
        · have hi : x.index ≠ y.index := by
            intro e
            apply hxy
            rw [hchain x hx, hchain y hy, e]
          exact cleanStep_comm z hi
            (fun hact j hj => ⟨hno x hx hact j hj, hgood x hx y hy hpx hpy hact j hj⟩)
            (fun hact j hj => ⟨hno y hy hact j hj, hgood y hy x hx hpy hpx hact j hj⟩)
      dsimp only at a2 b2
      rw [← a2, ← b2] at hf
      simp only [Prod.mk.injEq] at hf
      obtain ⟨hf, rfl⟩ := hf
      have hvals : a.vals = b.vals := VMap.ext a1 b1 fun k => congrFun hf k
      refine ⟨⟨a1, b.tick, x, c, le, ld, ls, ?_⟩, rfl⟩
      rw [b3, ← hvals, a3]
    · rintro ⟨a, ta, ga⟩ ⟨b, tb, gb⟩ hab
      dsimp only at hab ⊢
      cases ga with
      | false =>
        intro a b ha _
        simp only [Bool.not_false, if_true, Except.ok.injEq] at ha
        subst ha
        intro h; simp at h
      | true =>
      cases gb with
      | false =>
        intro x y _ hy
        simp only [Bool.not_false, if_true, Except.ok.injEq] at hy
        subst hy
        intro _ h; simp at h
      | true =>
        obtain ⟨hsame, rfl⟩ := hab rfl rfl
        simp only [Bool.not_true, Bool.false_eq_true, if_false]
        refine .ite (fun _ => ?_) (fun _ => .ok fun _ _ => hsame)
        exact Rel.bind (increaseAll_same hE hX hR hE' hX' hR' hsame) fun x y hxy => .ok fun _ _ => hxy

end
end Verif
