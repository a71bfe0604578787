import Verif.Lemmas.Det
import Verif.Lemmas.CleanKeys
import Verif.Props.Slots
import Verif.Spec.SampleFacts
/-
C09: all honest oracles compute the same state.
-/
namespace Verif
open VMap

section
variable {E E' : Env} {V : Nat → Nat → BVal} {K : Nat → List (Nat × Nat)}

theorem same_of_sameBooks {o o' : Oracle} (hs : MapOK o.st) (h : SameBooks o o') :
    o.cfg = o'.cfg ∧ Same o.st o'.st := by
  refine ⟨h.1, hs, o'.st.tick, o'.st.stateHash, o'.st.committed, o'.st.ether, o'.st.donations, o'.st.subs, ?_⟩
  have : ({ ({ o.st with tick := 0, stateHash := [], committed := [] } : State) with
        tick := o'.st.tick, stateHash := o'.st.stateHash, committed := o'.st.committed,
        ether := o'.st.ether, donations := o'.st.donations, subs := o'.st.subs } : State) =
      { ({ o'.st with tick := 0, stateHash := [], committed := [] } : State) with
        tick := o'.st.tick, stateHash := o'.st.stateHash, committed := o'.st.committed,
        ether := o'.st.ether, donations := o'.st.donations, subs := o'.st.subs } := by rw [h.2]
  exact this.symm

theorem sameBooks_of_same {o o' : Oracle} (hc : o.cfg = o'.cfg) (h : Same o.st o'.st)
    (he : o.st.ether = o'.st.ether) (hd : o.st.donations = o'.st.donations)
    (hu : o.st.subs = o'.st.subs) : SameBooks o o' := by
  obtain ⟨_, t, x, c, le, ld, ls, e⟩ := h
  refine ⟨hc, ?_⟩
  rw [e] at he hd hu ⊢
  dsimp only at he hd hu ⊢
  rw [← he, ← hd, ← hu]

theorem SameBooks.logs {o o' : Oracle} (h : SameBooks o o') :
    o.st.ether = o'.st.ether ∧ o.st.donations = o'.st.donations ∧ o.st.subs = o'.st.subs :=
  ⟨by have := congrArg State.ether h.2; exact this, by have := congrArg State.donations h.2; exact this,
    by have := congrArg State.subs h.2; exact this⟩

theorem SameState.books {o o' : Oracle} (h : SameState o o') : SameBooks o o' := by
  refine ⟨h.1, ?_⟩
  have : ({ ({ o.st with tick := 0 } : State) with stateHash := [], committed := [] } : State) =
      { ({ o'.st with tick := 0 } : State) with stateHash := [], committed := [] } := by rw [h.2]
  exact this

theorem SameState.hash {o o' : Oracle} (h : SameState o o') :
    o.st.stateHash = o'.st.stateHash ∧ o.st.committed = o'.st.committed :=
  ⟨by have := congrArg State.stateHash h.2; exact this, by have := congrArg State.committed h.2; exact this⟩

theorem SameBooks.state {o o' : Oracle} (h : SameBooks o o') (h1 : o.st.stateHash = o'.st.stateHash)
    (h2 : o.st.committed = o'.st.committed) : SameState o o' := by
  refine ⟨h.1, ?_⟩
  have : ({ ({ o.st with tick := 0, stateHash := [], committed := [] } : State) with
        stateHash := o.st.stateHash, committed := o.st.committed } : State) =
      { ({ o'.st with tick := 0, stateHash := [], committed := [] } : State) with
        stateHash := o'.st.stateHash, committed := o'.st.committed } := by rw [h.2, h1, h2]
  exact this

/-- processing a slot leaves the stored hash and the checkpoints alone -/
theorem slot_keeps {E o b o' n} (h : advanceState E o b = .ok (o', some n)) :
    o'.st.stateHash = o.st.stateHash ∧ o'.st.committed = o.st.committed := by
  obtain ⟨sb, dons, p, m, w, _, _, _, _, h5, _⟩ := slot_frame h
  exact ⟨by have := congrArg State.stateHash h5; exact this,
    by have := congrArg State.committed h5; exact this⟩

theorem validateConfig_same {o o' : Oracle} (hc : o.cfg = o'.cfg) (h : Same o.st o'.st) (b) :
    Rel (fun x y => x.1.cfg = y.1.cfg ∧ Same x.1.st y.1.st ∧ x.2 = y.2) (validateConfig o b)
      (validateConfig o' b) := by
  obtain ⟨c, s⟩ := o
  obtain ⟨c', s'⟩ := o'
  dsimp only at hc h
  subst hc
  obtain ⟨hs, t, sh, cm, le, ld, ls, rfl⟩ := h
  unfold validateConfig
  dsimp only
  refine .ite (fun _ => .ok ⟨rfl, ⟨hs, t, sh, cm, le, ld, ls, rfl⟩, rfl⟩) fun _ => ?_
  have fin : ∀ {q q' : Oracle}, q.cfg = q'.cfg → Same q.st q'.st →
      Rel (fun x y => x.1.cfg = y.1.cfg ∧ Same x.1.st y.1.st ∧ x.2 = y.2)
      (do
        let recOk ← (match b.events.feeRecipient with
          | [] => .ok true
          | r :: _ => equals q.cfg.poolFeesAddr r)
        if !recOk then (.ok (q, false) : M (Oracle × Bool))
        else if b.events.cpSize.any (fun n => q.cfg.cpSize ≠ n) then .ok (q, false)
        else if b.events.collateral.any (fun c => q.cfg.collateral ≠ c) then .ok (q, false)
        else .ok (q, true))
      (do
        let recOk ← (match b.events.feeRecipient with
          | [] => .ok true
          | r :: _ => equals q'.cfg.poolFeesAddr r)
        if !recOk then (.ok (q', false) : M (Oracle × Bool))
        else if b.events.cpSize.any (fun n => q'.cfg.cpSize ≠ n) then .ok (q', false)
        else if b.events.collateral.any (fun c => q'.cfg.collateral ≠ c) then .ok (q', false)
        else .ok (q', true)) := by
    intro q q' hq hS
    rw [← hq]
    refine Rel.bind (Rel.refl _) ?_
    rintro x _ rfl
    exact .ite (fun _ => .ok ⟨hq, hS, rfl⟩) fun _ => .ite (fun _ => .ok ⟨hq, hS, rfl⟩) fun _ =>
      .ite (fun _ => .ok ⟨hq, hS, rfl⟩) fun _ => .ok ⟨hq, hS, rfl⟩
  cases b.events.poolFee with
  | nil => exact fin rfl ⟨hs, t, sh, cm, le, ld, ls, rfl⟩
  | cons f _ =>
    dsimp only
    cases scheduledFee c.network b.dutySlot with
    | none => exact .ok ⟨rfl, ⟨hs, t, sh, cm, le, ld, ls, rfl⟩, rfl⟩
    | some x =>
      dsimp only
      by_cases hx : x ≠ i64 f
      · rw [if_pos hx, if_pos hx]; exact .ok ⟨rfl, ⟨hs, t, sh, cm, le, ld, ls, rfl⟩, rfl⟩
      · rw [if_neg hx, if_neg hx]; exact fin rfl ⟨hs, t, sh, cm, le, ld, ls, rfl⟩

/-- the summary of a block depends on the payments only through the reward read from the block -/
theorem summarize_pays {b : FullBlock} {pays : List EtherEvent}
    (hm : mevReward { b with events := { b.events with ether := pays } } = mevReward b) (s pool) :
    summarize s { b with events := { b.events with ether := pays } } pool = summarize s b pool := by
  have h1 : ∀ x, sentReward { b with events := { b.events with ether := pays } } pool x = sentReward b pool x := by
    intro x
    unfold sentReward
    rw [hm]
    rfl
  unfold summarize
  simp only [h1]

/-- the payments counted as donations, when the payments of the block come in another order -/
theorem getDonations_perm {b : FullBlock} {pays : List EtherEvent} (hp : b.events.ether.Perm pays)
    (hm : mevReward { b with events := { b.events with ether := pays } } = mevReward b) {pool dons dons'}
    (h : getDonations b pool = .ok dons)
    (h' : getDonations { b with events := { b.events with ether := pays } } pool = .ok dons') : dons.Perm dons' := by
  unfold getDonations at h h'
  rw [hm] at h'
  dsimp only at h'
  cases hc : b.cons with
  | none =>
    rw [hc] at h h'
    cases h; cases h'
    exact .refl _
  | some c =>
    rw [hc] at h h'
    simp only [bind_ok] at h h'
    obtain ⟨mev, h1, t, h2, h⟩ := h
    obtain ⟨mev', h1', t', h2', h'⟩ := h'
    have e : mev = mev' := by rw [h1] at h1'; exact Except.ok.inj h1'
    subst e
    have e : t = t' := by rw [h2] at h2'; exact Except.ok.inj h2'
    subst e
    cases t with
    | false =>
      simp only [Bool.not_false, if_true] at h h'
      cases h; cases h'
      exact hp
    | true =>
      simp only [Bool.not_true, Bool.false_eq_true, if_false] at h h'
      split at h
      · split at h'
        · cases h; cases h'
          exact hp.filter _
        · cases h'
      · cases h

/-- One slot, with the payments, subscriptions, bans and unbans of the block in another order. -/
theorem slot_pays (hE : ValidEnv E) (hX : ExactEnv E) (hR : ReadsChain V K E)
    (hE' : ValidEnv E') (hX' : ExactEnv E') (hR' : ReadsChain V K E')
    {o o' o1 o1' : Oracle} {b : FullBlock} {pays : List EtherEvent} {n n' : Nat} (hc : o.cfg = o'.cfg)
    (hS : Same o.st o'.st) (hp : b.events.ether.Perm pays) {us vs bs ns}
    (hq : Queued (fun p : SubEvent × Option BVal => p.1.validatorId) (b.events.subs.zip b.valsSubs) (us.zip vs))
    (hbs : b.events.bans.Perm bs) (hns : b.events.unbans.Perm ns)
    (hm : mevReward { b with events := { b.events with ether := pays } } = mevReward b)
    (hA : n % 1200 = 0 → TrackedTargets V K n o1.st)
    (h : advanceState E o b = .ok (o1, some n))
    (h' : advanceState E' o' (asking b pays us vs bs ns) = .ok (o1', some n')) :
    o1.cfg = o1'.cfg ∧ Same o1.st o1'.st ∧ n = n' := by
  obtain ⟨q, sb, dons, s1, s2, _, _, hv, hsb, _, hd, ha, hcl, ho, hn⟩ := advanceState_ok h
  obtain ⟨q', sb', dons', s1', s2', _, _, hv', hsb', _, hd', ha', hcl', ho', hn'⟩ := advanceState_ok h'
  have hv' : validateConfig o' b = .ok (q', true) := hv'
  have hsb' : summarize q'.st b q'.cfg.poolAddr = .ok sb' := by rw [← summarize_pays hm]; exact hsb'
  obtain ⟨k1, k2, _⟩ := validateConfig_same hc hS b _ _ hv hv'
  dsimp only at k1 k2
  have ksb : sb = sb' := by
    rw [← k1] at hsb'
    have : summarize q'.st b q.cfg.poolAddr = summarize q.st b q.cfg.poolAddr := by
      obtain ⟨_, t, x, c, le, ld, ls, e⟩ := k2
      rw [e]; rfl
    rw [this, hsb] at hsb'
    exact Except.ok.inj hsb'
  subst ksb
  rw [← k1] at ha' hcl' hd'
  have k3 := applyBlock_same hE hX hR hE' hX' hR' k2 b sb pays (getDonations_perm hp hm hd hd') hq hbs hns _ _ ha ha'
  have k4 : Same s2 s2' := by
    have hns : s1'.nextSlot = s1.nextSlot := by obtain ⟨_, t, x, c, le, ld, ls, e⟩ := k3; rw [e]
    rw [hns] at hcl'
    by_cases hm : s1.nextSlot % 1200 = 0
    · rw [if_pos hm] at hcl hcl'
      have e : s2.frame = s1.frame := cleanup_frame hcl
      have e : s2.nextSlot = s1.nextSlot := by have := congrArg State.nextSlot e; exact this
      have hk := (cleanup_grows hE hcl).2
      have hA1 : TrackedTargets V K s1.nextSlot s1 := by
        intro i j v w hv hw hij hi
        have hA := hA (by rw [hn, e]; exact hm)
        rw [hn, e, ho] at hA
        have tr : ∀ {k x}, VMap.get s1.vals k = some x → ∃ x', VMap.get s2.vals k = some x' := fun {k x} h =>
          Option.isSome_iff_exists.mp ((get_isSome_iff _ _).mpr (hk k ((get_isSome_iff _ _).mp (by rw [h]; rfl))))
        obtain ⟨v', hv'⟩ := tr hv
        obtain ⟨w', hw'⟩ := tr hw
        exact hA i j v' w' hv' hw' hij hi
      exact cleanup_same hE hX hR hE' hX' hR' hA1.noChains k3 _ _ hcl hcl' rfl rfl
    · rw [if_neg hm] at hcl hcl'
      simp only [Except.ok.injEq, Prod.mk.injEq, and_true] at hcl hcl'
      rw [← hcl, ← hcl']; exact k3
  obtain ⟨hs2, t, x, c, le, ld, ls, e⟩ := k4
  subst e
  rw [ho, ho']
  exact ⟨k1, ⟨hs2, t, x, c, le, ld, ls, rfl⟩, by rw [hn, hn']⟩

/-- the logs of the payments after a slot -/
theorem slot_logs {E o b o' n} (h : advanceState E o b = .ok (o', some n)) :
    ∃ dons, getDonations b o.cfg.poolAddr = .ok dons ∧ o'.st.ether = o.st.ether ++ b.events.ether ∧
      o'.st.donations = o.st.donations ++ dons ∧ o'.st.subs = o.st.subs ++ b.events.subs := by
  obtain ⟨sb, dons, p, m, w, _, hd, _, _, h5, _⟩ := slot_frame h
  exact ⟨dons, hd, by have := congrArg State.ether h5; exact this,
    by have := congrArg State.donations h5; exact this, by have := congrArg State.subs h5; exact this⟩

theorem slot_same (hE : ValidEnv E) (hX : ExactEnv E) (hR : ReadsChain V K E)
    (hE' : ValidEnv E') (hX' : ExactEnv E') (hR' : ReadsChain V K E')
    {o o' o1 o1' : Oracle} {b : FullBlock} {n n' : Nat} (hs : MapOK o.st) (hsame : SameBooks o o')
    (hA : n % 1200 = 0 → TrackedTargets V K n o1.st)
    (h : advanceState E o b = .ok (o1, some n)) (h' : advanceState E' o' b = .ok (o1', some n')) :
    SameBooks o1 o1' ∧ n = n' ∧ MapOK o1.st := by
  obtain ⟨hc, hS⟩ := same_of_sameBooks hs hsame
  obtain ⟨k1, k2, k3⟩ := slot_pays (pays := b.events.ether) hE hX hR hE' hX' hR' hc hS (.refl _) (fun _ => rfl) (.refl _) (.refl _) rfl hA h h'
  obtain ⟨ds, d1, d2, d3, d4⟩ := slot_logs h
  obtain ⟨ds', d1', d2', d3', d4'⟩ := slot_logs h'
  rw [← hc, d1] at d1'
  have e := Except.ok.inj d1'
  subst e
  obtain ⟨l1, l2, l3⟩ := hsame.logs
  exact ⟨sameBooks_of_same k1 k2 (by rw [d2, d2', l1]) (by rw [d3, d3', l2]) (by rw [d4, d4', l3]), k3, k2.1⟩

/-- **C09** (partial). Two oracles in the same state that process the same block over the same chain
end in the same state, whatever the iteration orders at every loop over a map (`E.perm`, `E'.perm`),
in whatever order the beacon node lists its answers, and however far each of them had counted;
provided both processed it. At cleanup slots, tracked validators that left the chain must not be
consolidated into tracked validators that left it too (what others do does not matter). Missing: that case, in which the claim is false, see
`C09_false_consolidation_chain`. -/
theorem C09_slot_partial (hE : ValidEnv E) (hX : ExactEnv E) (hR : ReadsChain V K E)
    (hE' : ValidEnv E') (hX' : ExactEnv E') (hR' : ReadsChain V K E')
    {o o' o1 o1' : Oracle} {b : FullBlock} {n n' : Nat} (hs : MapOK o.st) (hsame : SameState o o')
    (hA : n % 1200 = 0 → TrackedTargets V K n o1.st)
    (h : advanceState E o b = .ok (o1, some n)) (h' : advanceState E' o' b = .ok (o1', some n')) :
    SameState o1 o1' ∧ n = n' :=
  have k := slot_same hE hX hR hE' hX' hR' hs hsame.books hA h h'
  ⟨k.1.state (by rw [(slot_keeps h).1, (slot_keeps h').1, hsame.hash.1])
    (by rw [(slot_keeps h).2, (slot_keeps h').2, hsame.hash.2]), k.2.1⟩

/-- **C09** (partial), slots without cleanup: no condition on the chain at all. -/
theorem C09_slot_without_cleanup (hE : ValidEnv E) (hX : ExactEnv E) (hR : ReadsChain V K E)
    (hE' : ValidEnv E') (hX' : ExactEnv E') (hR' : ReadsChain V K E')
    {o o' o1 o1' : Oracle} {b : FullBlock} {n n' : Nat} (hs : MapOK o.st) (hsame : SameState o o')
    (hn : n % 1200 ≠ 0)
    (h : advanceState E o b = .ok (o1, some n)) (h' : advanceState E' o' b = .ok (o1', some n')) :
    SameState o1 o1' ∧ n = n' :=
  C09_slot_partial hE hX hR hE' hX' hR' hs hsame (fun e => absurd e hn) h h'

theorem hist_tracked {E : Env} (hE : ValidEnv E) (hX : ExactEnv E) {o o' : Oracle} {bs : List FullBlock}
    (hs : MapOK o.st) (h : Hist E o bs o') {i v} (hv : VMap.get o.st.vals i = some v) :
    ∃ v', VMap.get o'.st.vals i = some v' := by
  induction h generalizing v with
  | nil => exact ⟨v, hv⟩
  | cons ha _ ih =>
    obtain ⟨v1, h1⟩ := (slot_remembers hE hX hs ha).2 _ _ hv
    exact ih (slot_remembers hE hX hs ha).1 h1

/-- what holds for the validators tracked in the end holds for those tracked on the way -/
theorem TrackedTargets.before {E : Env} (hE : ValidEnv E) (hX : ExactEnv E) {o o' : Oracle} {bs : List FullBlock} {n}
    (hs : MapOK o.st) (h : Hist E o bs o') (hA : TrackedTargets V K n o'.st) : TrackedTargets V K n o.st := by
  intro i j v w hv hw hk hi
  obtain ⟨v', hv'⟩ := hist_tracked hE hX hs h hv
  obtain ⟨w', hw'⟩ := hist_tracked hE hX hs h hw
  exact hA i j v' w' hv' hw' hk hi

/-- **C09** (partial) for whole histories: two oracles that start in the same state and process the
same blocks over the same chain are in the same state after any number of slots. -/
theorem C09_history_partial (hE : ValidEnv E) (hX : ExactEnv E) (hR : ReadsChain V K E)
    (hE' : ValidEnv E') (hX' : ExactEnv E') (hR' : ReadsChain V K E')
    {bs : List FullBlock} {o o' o1 o1' : Oracle}
    (hA : ∀ n, n % 1200 = 0 → TrackedTargets V K n o1.st) (hs : MapOK o.st) (hsame : SameState o o')
    (h : Hist E o bs o1) (h' : Hist E' o' bs o1') : SameState o1 o1' := by
  induction h generalizing o' with
  | nil => cases h'; exact hsame
  | cons ha hr ih =>
    cases h' with
    | cons ha' hr' =>
      have hA1 := fun m hm => TrackedTargets.before hE hX (slot_remembers hE hX hs ha).1 hr (hA m hm)
      have k := slot_same hE hX hR hE' hX' hR' hs hsame.books (hA1 _) ha ha'
      exact ih hA k.2.2 (C09_slot_partial hE hX hR hE' hX' hR' hs hsame (hA1 _) ha ha').1 hr'

/-- The same for oracles that differ in the checkpoints they hold and in the hash of the last save. -/
theorem hist_same_books (hE : ValidEnv E) (hX : ExactEnv E) (hR : ReadsChain V K E)
    (hE' : ValidEnv E') (hX' : ExactEnv E') (hR' : ReadsChain V K E')
    {bs : List FullBlock} {o o' o1 o1' : Oracle}
    (hA : ∀ n, n % 1200 = 0 → TrackedTargets V K n o1.st) (hs : MapOK o.st) (hsame : SameBooks o o')
    (h : Hist E o bs o1) (h' : Hist E' o' bs o1') : SameBooks o1 o1' := by
  induction h generalizing o' with
  | nil => cases h'; exact hsame
  | cons ha hr ih =>
    cases h' with
    | cons ha' hr' =>
      have hA1 := fun m hm => TrackedTargets.before hE hX (slot_remembers hE hX hs ha).1 hr (hA m hm)
      have k := slot_same hE hX hR hE' hX' hR' hs hsame (hA1 _) ha ha'
      exact ih hA k.2.2 k.1 hr'

end

namespace Sample

/-- validators 3 and 9 have left the chain -/
def leftV (_ i : Nat) : BVal :=
  if i = 3 ∨ i = 9 then { bval i with status := .exitedUnslashed } else bval i

/-- validator 9 is being consolidated into validator 3, or into the active validator 1 -/
def leftK (j : Nat) (_ : Nat) : List (Nat × Nat) := [(9, j)]

/-- an environment reading that chain, iterating forwards or, every second time, backwards -/
def leftEnv (j : Nat) (rev : Bool) : Env :=
  { perm := fun t n => if rev ∧ t % 2 = 1 then (List.range n).reverse else List.range n
    node := fun _ slot req => some (req.dedup.map (leftV slot))
    consol := fun _ slot => some (leftK j slot) }

theorem leftV_index (s i) : (leftV s i).index = i := by unfold leftV; split <;> rfl

theorem left_valid (j rev) : ValidEnv (leftEnv j rev) where
  perm := fun _ n => by
    unfold leftEnv; dsimp only; split
    · exact List.reverse_perm _
    · exact List.Perm.refl _
  nodup := by
    intro t slot req r h
    simp only [leftEnv, Option.some.injEq] at h
    rw [← h, List.map_map]
    have : ((fun v : BVal => v.index) ∘ leftV slot) = id := by funext i; exact leftV_index slot i
    rw [this, List.map_id]
    exact List.nodup_dedup _

theorem left_exact (j rev) : ExactEnv (leftEnv j rev) := by
  intro t slot req r h v hv
  simp only [leftEnv, Option.some.injEq] at h
  rw [← h] at hv
  obtain ⟨i, hi, rfl⟩ := List.mem_map.mp hv
  rw [leftV_index]; exact List.mem_dedup.mp hi

theorem left_reads (j rev) : ReadsChain leftV (leftK j) (leftEnv j rev) where
  node := by
    intro t slot req r h v hv
    simp only [leftEnv, Option.some.injEq] at h
    rw [← h] at hv
    obtain ⟨i, hi, rfl⟩ := List.mem_map.mp hv
    rw [leftV_index]
  consol := by
    intro t slot cs h
    simp only [leftEnv, Option.some.injEq] at h
    exact h.symm

theorem left_noSelf {j} (hj : j ≠ 9) (rev) : NoSelfConsol (leftEnv j rev) := by
  intro t slot cs h p hp
  simp only [leftEnv, leftK, Option.some.injEq] at h
  subst h
  simp only [List.mem_singleton] at hp
  subst hp
  exact Ne.symm hj

/-- a slot with cleanup -/
def leftOracle : Oracle := ⟨cfg, { st with latestSlot := 11999999, nextSlot := 12000000 }⟩

end Sample

/-- the whole sample history, forwards and backwards -/
example : ∃ o1 o1', Hist Sample.env (newOracle Sample.cfg) Sample.blocks o1 ∧
    Hist Sample.envRev (newOracle Sample.cfg) Sample.blocks o1' ∧ SameState o1 o1' := by
  obtain ⟨o1', h', _⟩ := Sample.ex_hist (E := Sample.envRev) (o := newOracle Sample.cfg)
    (bs := Sample.blocks) (P := fun _ => true) (by decide +kernel)
  have hr : ∀ {F : Env}, F.node = Sample.env.node → F.consol = Sample.env.consol →
      ReadsChain (fun _ i => if i = 9 then { Sample.bval 9 with status := .exitedUnslashed }
        else Sample.bval i) (fun _ => [(9, 1)]) F := by
    intro F h1 h2
    constructor
    · intro t slot req r h v hv
      rw [h1] at h
      rw [Sample.env_node h] at hv
      obtain ⟨i, hi, rfl⟩ := List.mem_map.mp hv
      rw [Sample.index_if]
    · intro t slot cs h
      rw [h2] at h
      simp only [Sample.env, Option.some.injEq] at h
      exact h.symm
  refine ⟨_, o1', Sample.hist, h', C09_history_partial Sample.env_valid Sample.env_exact
    (hr rfl rfl) Sample.envRev_valid Sample.env_exact (hr rfl rfl) ?_
    (by unfold MapOK newOracle; exact List.Pairwise.nil) ⟨rfl, rfl⟩ Sample.hist h'⟩
  intro n _
  refine ActiveTargets.tracked ?_ _
  intro p hp _
  simp only [List.mem_singleton] at hp
  subst hp; rfl

/-- the theorem applies at a cleanup slot with two leavers, one consolidated into an active
validator, forwards and backwards -/
example : ∃ o1 o1', advanceState (Sample.leftEnv 1 false) Sample.leftOracle (Sample.miss 12000000 2) =
      .ok (o1, some 12000000) ∧
    advanceState (Sample.leftEnv 1 true) Sample.leftOracle (Sample.miss 12000000 2) =
      .ok (o1', some 12000000) ∧ SameState o1 o1' := by
  obtain ⟨⟨o1, m⟩, h, hm⟩ := Sample.ex_ok
    (x := advanceState (Sample.leftEnv 1 false) Sample.leftOracle (Sample.miss 12000000 2))
    (P := fun p => p.2 == some 12000000) (by decide +kernel)
  simp only [beq_iff_eq] at hm; subst hm
  obtain ⟨⟨o1', m⟩, h', hm⟩ := Sample.ex_ok
    (x := advanceState (Sample.leftEnv 1 true) Sample.leftOracle (Sample.miss 12000000 2))
    (P := fun p => p.2 == some 12000000) (by decide +kernel)
  simp only [beq_iff_eq] at hm; subst hm
  refine ⟨o1, o1', h, h', (C09_slot_partial (Sample.left_valid 1 false) (Sample.left_exact 1 false)
    (Sample.left_reads 1 false) (Sample.left_valid 1 true) (Sample.left_exact 1 true)
    (Sample.left_reads 1 true) Sample.st_ok ⟨rfl, rfl⟩ (fun _ => ?_) h h').1⟩
  refine ActiveTargets.tracked ?_ _
  intro p hp _
  simp only [Sample.leftK, List.mem_singleton] at hp
  subst hp; rfl

/-- **C09 is false in general**: validator 9 has left and is being consolidated into validator 3,
which has left too. Two oracles in the same state that process the same (missed) block over the same
chain end in different states, because the cleanup visits the two validators in different orders: if
9 comes first its balance goes to 3 and is then shared among everybody, otherwise 3 keeps it. -/
theorem C09_false_consolidation_chain :
    ∃ o1 o1', advanceState (Sample.leftEnv 3 false) Sample.leftOracle (Sample.miss 12000000 2) =
        .ok (o1, some 12000000) ∧
      advanceState (Sample.leftEnv 3 true) Sample.leftOracle (Sample.miss 12000000 2) =
        .ok (o1', some 12000000) ∧
      ((VMap.get o1.st.vals 3).map (·.pend)) = some 900 ∧
      ((VMap.get o1'.st.vals 3).map (·.pend)) = some 0 ∧ ¬ SameState o1 o1' := by
  obtain ⟨⟨o1, m⟩, h, hm⟩ := Sample.ex_ok
    (x := advanceState (Sample.leftEnv 3 false) Sample.leftOracle (Sample.miss 12000000 2))
    (P := fun p => p.2 == some 12000000 && ((VMap.get p.1.st.vals 3).map (·.pend)) == some 900)
    (by decide +kernel)
  obtain ⟨⟨o1', m'⟩, h', hm'⟩ := Sample.ex_ok
    (x := advanceState (Sample.leftEnv 3 true) Sample.leftOracle (Sample.miss 12000000 2))
    (P := fun p => p.2 == some 12000000 && ((VMap.get p.1.st.vals 3).map (·.pend)) == some 0)
    (by decide +kernel)
  simp only [beq_iff_eq, Bool.and_eq_true] at hm hm'
  obtain ⟨rfl, hm⟩ := hm
  obtain ⟨rfl, hm'⟩ := hm'
  refine ⟨o1, o1', h, h', hm, hm', ?_⟩
  rintro ⟨_, e⟩
  have : o1.st.vals = o1'.st.vals := by have := congrArg State.vals e; exact this
  rw [this, hm'] at hm
  simp at hm

end Verif
