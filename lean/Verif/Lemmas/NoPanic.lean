import Verif.Lemmas.Total
import Verif.Lemmas.HeapOps
import Verif.Spec.Events
import Verif.Model.Fetch
/-
Where one slot can end in a nil dereference. For C125.
-/
namespace Verif
open VMap

/-- No panic, and what is returned satisfies `Q`. -/
def Np {α : Type} (Q : α → Prop) : M α → Prop
  | .ok a => Q a
  | .error .fatal => True
  | .error .panic => False

theorem Np.bind {α β : Type} {Q : α → Prop} {R : β → Prop} {x : M α} {f : α → M β} (h : Np Q x)
    (hf : ∀ a, x = .ok a → Q a → Np R (f a)) : Np R (x >>= f) := by
  cases x with
  | ok a => exact hf a rfl h
  | error c => cases c with
    | fatal => exact trivial
    | panic => exact h.elim

theorem Np.mono {α : Type} {Q R : α → Prop} {x : M α} (h : Np Q x) (hf : ∀ a, Q a → R a) : Np R x := by
  cases x with
  | ok a => exact hf a h
  | error c => cases c with
    | fatal => exact trivial
    | panic => exact h.elim

theorem Np.ne {α : Type} {Q : α → Prop} {x : M α} (h : Np Q x) : x ≠ .error .panic := by
  rintro rfl
  exact h

theorem np_equals (a b : Str) : Np (fun r => r = true → SameAddr a b) (equals a b) := by
  unfold equals
  split
  · exact trivial
  · rename_i h
    push Not at h
    intro h'
    exact ⟨h, by simpa using h'⟩

theorem np_isIn (a : Str) (l : List Str) : Np (fun _ => True) (isIn a l) := by
  induction l with
  | nil => exact trivial
  | cons x xs ih =>
    refine (np_equals a x).bind fun r _ _ => ?_
    split
    · exact trivial
    · exact ih

theorem np_exec {α : Type} (c : ConsBlock) (f : ConsBlock → α) : Np (fun r => r = f c) (c.exec f) := by
  unfold ConsBlock.exec
  split <;> first | exact trivial | exact rfl

theorem np_base {α : Type} (c : ConsBlock) (f : ConsBlock → α) : Np (fun _ => True) (c.base f) := by
  unfold ConsBlock.base
  split <;> exact trivial

theorem np_mev (b : FullBlock) (c : ConsBlock) (hc : b.cons = some c) : Np (fun _ => True) (mevReward b) := by
  unfold mevReward
  rw [hc]
  refine (np_exec c _).bind fun txs _ _ => ?_
  split
  · exact trivial
  · exact trivial
  · split
    · exact trivial
    · split
      · exact trivial
      · split
        · exact trivial
        · refine (np_base c _).bind fun _ _ _ => ?_
          split
          · exact trivial
          · refine (np_exec c _).bind fun fr _ _ => (np_equals _ _).bind fun isFr _ _ => ?_
            refine Np.bind (Q := fun _ => True) ?_ fun isWl _ _ => ?_
            · split
              · exact trivial
              · exact np_isIn _ _
            · split <;> exact trivial

/-- The receipt at each place is that of the transaction at that place. -/
def HashesFit (txs : List (Option Tx)) (rs : List Receipt) : Prop :=
  ∀ p ∈ txs.zip rs, ∀ tx, p.1 = some tx → p.2.txHash = tx.hash

theorem tipLoop_not_nil (hb : Int) : ∀ (txs : List (Option Tx)) (rs : List Receipt) (t : Int), HashesFit txs rs →
    tipLoop hb txs rs t ≠ .nil
  | [], _, _, _ => by simp [tipLoop]
  | none :: _, _, _, _ => by simp [tipLoop]
  | some tx :: _, [], _, _ => by simp [tipLoop]
  | some tx :: txs, r :: rs, t, h => by
    have hr : r.txHash = tx.hash := h (some tx, r) (by simp) tx rfl
    have ht : HashesFit txs rs := fun p hp => h p (by simp [hp])
    unfold tipLoop
    dsimp only
    rw [if_neg (by simp [hr])]
    split
    · exact tipLoop_not_nil _ _ _ _ ht
    · split
      · exact tipLoop_not_nil _ _ _ _ ht
      · simp

theorem np_tip (b : FullBlock) (c : ConsBlock) (hc : b.cons = some c) :
    Np (fun t => (∀ rs, b.receipts = some rs → HashesFit c.txs rs) → t ≠ .nil) (proposerTip b) := by
  unfold proposerTip
  split
  · simp [Np]
  · rename_i rs hrs
    split
    · simp [Np]
    · rename_i h _
      rw [hc]
      refine (np_exec c _).bind fun txs _ htx => ?_
      subst htx
      split
      · simp [Np]
      · refine (np_exec c _).bind fun bf _ _ => (np_exec c _).bind fun gas _ _ => ?_
        split
        · simp [Np]
        · rename_i hn
          intro hf
          exact absurd hn (tipLoop_not_nil _ _ _ _ (hf rs hrs))
        · simp [Np]

/-- The reward of a block is missing only if the tip was asked for and a receipt did not fit. -/
theorem np_sent (b : FullBlock) (c : ConsBlock) (hc : b.cons = some c) (pool : Str) (sub : Bool) :
    Np (fun r => r.1 = none → r.2.1 = true → SameAddr c.feeRecipient pool ∧
      ¬ ∀ rs, b.receipts = some rs → HashesFit c.txs rs) (sentReward b pool sub) := by
  unfold sentReward
  refine (np_mev b c hc).bind fun mev _ _ => ?_
  split
  · refine (np_equals _ _).bind fun tp _ _ => ?_
    simp [Np]
  · rw [hc]
    refine (np_exec c _).bind fun fr _ hfr => (np_equals _ _).bind fun fp _ hfp => ?_
    subst hfr
    split
    · refine (np_tip b c hc).bind fun tip _ htip => ?_
      split
      · exact trivial
      · intro _ h
        exact ⟨hfp h, fun h' => htip h' rfl⟩
      · simp [Np]
    · simp [Np]

theorem np_donations (b : FullBlock) (pool : Str) : Np (fun _ => True) (getDonations b pool) := by
  unfold getDonations
  split
  · exact trivial
  · rename_i c hc
    refine (np_mev b c hc).bind fun mev _ _ => ?_
    refine Np.bind (Q := fun _ => True) ?_ fun tp _ _ => ?_
    · split
      · exact (np_equals _ _).mono fun _ _ => trivial
      · exact trivial
    · split
      · exact trivial
      · split <;> exact trivial

/-- The two ways a block can pay the pool plainly and yet have no reward. -/
def Unfit (b : FullBlock) (pool : Str) : Prop :=
  ∃ c rs, b.cons = some c ∧ b.receipts = some rs ∧ SameAddr c.feeRecipient pool ∧ ¬ HashesFit c.txs rs

theorem np_summarize (s : State) (b : FullBlock) (pool : Str) (hu : ¬ Unfit b pool) :
    Np (fun sb => (sb.type = .okPool ∨ sb.type = .okPoolBls) → sb.reward ≠ none) (summarize s b pool) := by
  unfold summarize
  refine Np.bind (Q := fun _ => True) ?_ fun w _ _ => ?_
  · unfold withdrawalAndType
    dsimp only
    repeat' split
    all_goals exact trivial
  · obtain ⟨w, wt⟩ := w
    dsimp only
    split
    · simp [Np]
    · rename_i c hc
      refine (np_base c _).bind fun p _ _ => (np_sent b c hc _ _).bind fun r _ hr => ?_
      obtain ⟨r, tp, rt⟩ := r
      refine (np_exec c _).bind fun n _ _ => ?_
      intro ht hn
      dsimp only at ht hn
      have htp : tp = true := by
        cases tp with
        | true => rfl
        | false => simp at ht
      obtain ⟨h1, h2⟩ := hr hn htp
      push Not at h2
      obtain ⟨rs, hrs, h3⟩ := h2
      exact hu ⟨c, rs, hc, hrs, h1, h3⟩

theorem np_config (o : Oracle) (b : FullBlock) :
    Np (fun r => r.1.cfg.poolAddr = o.cfg.poolAddr) (validateConfig o b) := by
  unfold validateConfig
  dsimp only
  split
  · exact rfl
  · split
    · exact rfl
    · rename_i o1 h1
      have e : o1.cfg.poolAddr = o.cfg.poolAddr := by
        split at h1
        · cases h1; rfl
        · split at h1
          · simp at h1
          · split at h1
            · simp at h1
            · cases h1; rfl
      refine Np.bind (Q := fun _ => True) ?_ fun ok _ _ => ?_
      · split
        · exact trivial
        · exact (np_equals _ _).mono fun _ _ => trivial
      · repeat' split
        all_goals exact e

/-! ### Rewards -/

/-- What was tracked still is. -/
def Keeps (s s' : State) : Prop := ∀ i, s.isTracked i = true → s'.isTracked i = true

theorem Keeps.refl (s : State) : Keeps s s := fun _ h => h

theorem Keeps.trans {a b c : State} (h : Keeps a b) (k : Keeps b c) : Keeps a c := fun i hi => k i (h i hi)

theorem Keeps.vals {s s' : State} (h : s'.vals = s.vals) : Keeps s s' := fun i hi => by
  unfold State.isTracked at *
  rwa [h]

theorem keeps_modVal (s : State) (j f) : Keeps s (s.modVal j f) := fun i hi => by rwa [isTracked_modVal]

theorem keeps_advance (s : State) (j e) : Keeps s (s.advance j e) := keeps_modVal s j _

theorem keeps_put (s : State) (j v) : Keeps s (s.putVal j v) := fun i hi => by
  unfold State.isTracked State.putVal at *
  dsimp only
  rw [get_insert]
  split
  · rfl
  · exact hi

theorem np_applyShares : ∀ (sh : List (Nat × Int)) (m : VMap), (∀ p ∈ sh, (VMap.get m p.1).isSome) →
    Np (fun m' => ∀ i, (VMap.get m i).isSome → (VMap.get m' i).isSome) (applyShares sh m)
  | [], _, _ => fun _ h => h
  | (i, x) :: rest, m, h => by
    unfold applyShares
    have h0 := h (i, x) (by simp)
    obtain ⟨v, hv⟩ := Option.isSome_iff_exists.mp h0
    dsimp only at hv
    rw [hv]
    dsimp only
    have key : ∀ j, (VMap.get m j).isSome → (VMap.get (VMap.modify m i fun v => { v with pend := v.pend + x }) j).isSome := by
      intro j hj
      rw [get_modify]
      split
      · rename_i e
        rw [← e, Option.isSome_map]
        exact hj
      · exact hj
    exact (np_applyShares rest _ fun p hp => key _ (h p (by simp [hp]))).mono fun m' h' j hj => h' j (key j hj)

theorem getSet_asked {E : Env} (hX : ExactEnv E) {t slot req r} (h : getSet E t slot req = some r) :
    ∀ v ∈ r, v.index ∈ req := by
  unfold getSet at h
  split at h
  · simp at h
  · split at h
    · simp at h
    · rename_i r' hr
      split at h
      · simp at h
      · split at h
        · cases h
          exact hX _ _ _ _ hr
        · simp at h

theorem eligible_tracked {E : Env} {s : State} {i} (h : i ∈ eligible E s) : (VMap.get s.vals i).isSome := by
  have := mem_of_shuffle h
  obtain ⟨p, hp, rfl⟩ := List.mem_map.mp this
  rw [get_isSome_iff]
  exact List.mem_map.mpr ⟨p, (List.mem_filter.mp hp).1, rfl⟩

theorem np_increase {E : Env} (hX : ExactEnv E) (net : Str) (s : State) (r : Int) :
    Np (Keeps s) (increaseAll E net s r) := by
  unfold increaseAll
  dsimp only
  split
  · exact Keeps.vals rfl
  · split
    · exact trivial
    · refine Np.bind (Q := fun _ => True) ?_ fun m _ _ => ?_
      · unfold rewardMethod
        repeat' split
        all_goals exact trivial
      · refine Np.bind (Q := fun q => ∀ p ∈ q.2, (VMap.get s.vals p.1).isSome) ?_ fun q _ hq => ?_
        · split
          · unfold electraSplit
            dsimp only
            split
            · exact trivial
            · rename_i vs hvs
              split
              · exact trivial
              · split
                · exact trivial
                · intro p hp
                  obtain ⟨v, hv, rfl⟩ := List.mem_map.mp hp
                  exact eligible_tracked (getSet_asked hX hvs v (mem_of_shuffle hv))
          · refine Np.bind (Q := fun _ => True) ?_ fun q _ _ => ?_
            · unfold fork1Split
              dsimp only
              split <;> exact trivial
            · intro p hp
              obtain ⟨i, hi, rfl⟩ := List.mem_map.mp hp
              exact eligible_tracked hi
          · refine Np.bind (Q := fun _ => True) ?_ fun q _ _ => ?_
            · unfold preFork1Split
              dsimp only
              split <;> exact trivial
            · intro p hp
              obtain ⟨i, hi, rfl⟩ := List.mem_map.mp hp
              exact eligible_tracked hi
        · obtain ⟨fees, shares⟩ := q
          refine (np_applyShares _ s.vals fun p hp => hq p (mem_of_shuffle hp)).bind fun m' _ hm => ?_
          intro i hi
          exact hm i hi

/-! ### Reading and changing one validator -/

theorem np_pend {s : State} {i} (h : s.isTracked i = true) : Np (fun _ => True) (s.pendOf i) := by
  obtain ⟨p, hp⟩ := pendOf_tracked h
  rw [hp]
  exact trivial

theorem np_reset {s : State} {i} (h : s.isTracked i = true) : Np (Keeps s) (s.resetPending i) := by
  rw [resetPending_tracked h]
  exact keeps_modVal _ _ _

theorem np_inc {s : State} {i x} (h : s.isTracked i = true) : Np (Keeps s) (s.incPending i x) := by
  rw [State.incPending_tracked h]
  exact keeps_modVal _ _ _

theorem np_acc {s : State} {i x} (h : s.isTracked i = true) : Np (Keeps s) (s.incAccumulated i x) := by
  unfold State.incAccumulated
  rw [if_pos h]
  exact keeps_modVal _ _ _

theorem np_consolidate {s : State} {i} (h : s.isTracked i = true) : Np (Keeps s) (s.consolidate i) := by
  unfold State.consolidate
  rw [if_pos h]
  exact keeps_modVal _ _ _

/-! ### Handlers -/

theorem np_subOne (s : State) (ev : SubEvent) (v : Option BVal) : Np (fun _ => True) (subOne s ev v) := by
  unfold subOne
  split
  · exact trivial
  · split
    · exact trivial
    · split
      · exact trivial
      · split
        · exact trivial
        · refine (np_equals _ _).bind fun ok _ _ => ?_
          split
          · exact trivial
          · split
            · rename_i h
              exact (np_acc (isTracked_of_banned h)).mono fun _ _ => trivial
            · split
              · rename_i h
                exact (np_acc (isTracked_of_subscribed h)).mono fun _ _ => trivial
              · split
                · exact trivial
                · split
                  · refine Np.bind (Q := fun _ => True) ?_ fun _ _ _ => trivial
                    refine (np_inc ?_).mono fun _ _ => trivial
                    unfold State.setSubType
                    rw [isTracked_modVal]
                    split
                    · exact isTracked_put _ _ _
                    · rename_i h
                      simpa using h
                  · exact trivial

theorem np_subLoop : ∀ (l : List (SubEvent × Option BVal)) (s : State), Np (fun _ => True) (subLoop l s)
  | [], _ => trivial
  | (ev, v) :: rest, s => (np_subOne s ev v).bind fun s1 _ _ => np_subLoop rest s1

theorem np_handleSubs (s : State) (evs vals) : Np (fun _ => True) (handleSubs s evs vals) := by
  unfold handleSubs
  split
  · exact trivial
  · split
    · exact trivial
    · exact np_subLoop _ _

theorem np_unsubOne {E : Env} (hX : ExactEnv E) (net) (s : State) (ev : UnsubEvent) (v : Option BVal) :
    Np (fun _ => True) (unsubOne E net s ev v) := by
  unfold unsubOne
  split
  · exact trivial
  · split
    · exact trivial
    · split
      · exact trivial
      · refine (np_equals _ _).bind fun ok _ _ => ?_
        split
        · exact trivial
        · split
          · rename_i h
            have ht : (s.advance ev.validatorId .unsubscribe).isTracked ev.validatorId = true := by
              rw [isTracked_advance]
              exact isTracked_of_subscribed h
            refine (np_pend ht).bind fun p _ _ => (np_increase hX _ _ _).bind fun s2 _ k => ?_
            exact (np_reset (k _ ht)).mono fun _ _ => trivial
          · exact trivial

theorem np_unsubLoop {E : Env} (hX : ExactEnv E) (net) : ∀ (l : List (UnsubEvent × Option BVal)) (s : State),
    Np (fun _ => True) (unsubLoop E net l s)
  | [], _ => trivial
  | (ev, v) :: rest, s => (np_unsubOne hX net s ev v).bind fun s1 _ _ => np_unsubLoop hX net rest s1

theorem np_donLoop {E : Env} (hX : ExactEnv E) (net) : ∀ (l : List EtherEvent) (s : State),
    Np (fun _ => True) (donLoop E net l s)
  | [], _ => trivial
  | d :: rest, s => (np_increase hX net s d.amount).bind fun s1 _ _ => np_donLoop hX net rest _

theorem add_tracked (s : State) (i w key) : (addSubscription s i w key).isTracked i = true := by
  unfold addSubscription State.setSubType
  split
  · rw [isTracked_modVal, isTracked_advance]
    exact isTracked_put _ _ _
  · rename_i h
    have h : s.isTracked i = true := by simpa using h
    split
    · dsimp only
      split
      · rw [isTracked_modVal, isTracked_advance]
        exact h
      · rw [isTracked_advance]
        exact h
    · exact h

theorem np_correct {E : Env} (hX : ExactEnv E) (net) (s : State) (b : SumBlock) (hr : b.reward ≠ none) :
    Np (fun _ => True) (handleCorrect E net s b) := by
  unfold handleCorrect
  dsimp only
  split
  · rename_i h
    exact absurd h hr
  · refine (np_increase hX _ _ _).bind fun s2 _ k => ?_
    refine (np_consolidate (k _ ?_)).bind fun _ _ _ => trivial
    rw [isTracked_advance]
    exact add_tracked _ _ _ _

theorem np_bls (s : State) (b : SumBlock) (hr : b.reward ≠ none) : Np (fun _ => True) (handleBls s b) := by
  unfold handleBls
  split
  · exact trivial
  · split
    · rename_i h
      exact absurd h hr
    · exact trivial

theorem np_wrongFee {E : Env} (hX : ExactEnv E) (net) (s : State) (b : SumBlock)
    (h : s.isSubscribed b.index = true) : Np (fun _ => True) (handleWrongFee E net s b) := by
  unfold handleWrongFee
  have ht : (s.advance b.index .proposalWrongFee).isTracked b.index = true := by
    rw [isTracked_advance]
    exact isTracked_of_subscribed h
  exact (np_pend ht).bind fun p _ _ => (np_increase hX _ _ _).bind fun s2 _ k =>
    (np_reset (k _ ht)).bind fun _ _ _ => trivial

theorem np_banLoop : ∀ (l : List BanEvent) (s : State) (tot : Int), Np (fun _ => True) (banLoop l s tot)
  | [], _, _ => trivial
  | ev :: rest, s, tot => by
    unfold banLoop
    split
    · exact np_banLoop rest s tot
    · rename_i h
      have ht : (s.advance ev.validatorId .manualBan).isTracked ev.validatorId = true := by
        rw [isTracked_advance]
        exact isTracked_of_subscribed (by simpa using h)
      exact (np_pend ht).bind fun p _ _ => (np_reset ht).bind fun s2 _ _ => np_banLoop rest s2 _

theorem np_handleBans {E : Env} (hX : ExactEnv E) (net) (s : State) (evs) :
    Np (fun _ => True) (handleBans E net s evs) := by
  unfold handleBans
  split
  · exact trivial
  · split
    · exact trivial
    · refine (np_banLoop _ _ _).bind fun q _ _ => ?_
      obtain ⟨s1, tot⟩ := q
      dsimp only
      split
      · exact trivial
      · split
        · exact (np_increase hX _ _ _).mono fun _ _ => trivial
        · exact trivial

/-! ### Cleanup -/

theorem np_cleanOne (E : Env) (slot cs) (s : State) (tot : Int) (i : Nat) (h : s.isTracked i = true) :
    Np (fun q => Keeps s q.1) (cleanOne E slot cs s tot i) := by
  unfold cleanOne
  have ka := keeps_advance s i .unsubscribe
  have ht := ka i h
  refine (np_pend ht).bind fun p _ _ => ?_
  split
  · exact (np_reset ht).bind fun s2 _ k => ka.trans k
  · rename_i tgt _
    split
    · rename_i hc
      have hc : (s.advance i .unsubscribe).isTracked tgt = true := by
        simp only [Bool.and_eq_true] at hc
        exact hc.1
      exact (np_inc hc).bind fun s2 _ k => (np_reset (k _ ht)).bind fun s3 _ k' => ka.trans (k.trans k')
    · split
      · split
        · exact ka.trans (Keeps.vals rfl)
        · split
          · exact ka.trans (Keeps.vals rfl)
          · split
            · exact trivial
            · have k2 := fun v => (Keeps.vals (s := s.advance i .unsubscribe)
                (s' := { s.advance i .unsubscribe with tick := (s.advance i .unsubscribe).tick + 1 }) rfl).trans
                (keeps_put _ tgt v)
              exact (np_reset (k2 _ _ ht)).bind fun s3 _ k' => ka.trans ((k2 _).trans k')
      · split
        · exact (np_reset ht).bind fun s2 _ k => ka.trans k
        · exact trivial

theorem np_cleanLoop (E : Env) (slot cs) : ∀ (l : List BVal) (s : State) (tot : Int),
    (∀ v ∈ l, s.isTracked v.index = true) → Np (fun _ => True) (cleanLoop E slot cs l s tot)
  | [], _, _, _ => trivial
  | v :: rest, s, tot, h => by
    unfold cleanLoop
    split
    · exact np_cleanLoop E slot cs rest s tot fun w hw => h w (by simp [hw])
    · refine (np_pend (h v (by simp))).bind fun p _ _ => ?_
      split
      · exact np_cleanLoop E slot cs rest s tot fun w hw => h w (by simp [hw])
      · refine (np_cleanOne E slot cs s tot v.index (h v (by simp))).bind fun q _ k => ?_
        obtain ⟨s1, tot1, go⟩ := q
        dsimp only
        split
        · exact np_cleanLoop E slot cs rest s1 tot1 fun w hw => k _ (h w (by simp [hw]))
        · exact trivial

theorem np_cleanup {E : Env} (hX : ExactEnv E) (net) (s : State) (slot) :
    Np (fun _ => True) (cleanup E net s slot) := by
  unfold cleanup
  split
  · exact trivial
  · dsimp only
    split
    · exact trivial
    · split
      · exact trivial
      · split
        · exact trivial
        · rename_i vs hvs
          refine (np_cleanLoop E slot _ _ _ _ fun v hv => ?_).bind fun q _ _ => ?_
          · have := mem_of_shuffle (getSet_asked hX hvs v (mem_of_shuffle hv))
            rw [← get_isSome_iff] at this
            exact this
          · obtain ⟨s1, tot, go⟩ := q
            dsimp only
            split
            · exact trivial
            · split
              · exact (np_increase hX _ _ _).bind fun _ _ _ => trivial
              · exact trivial

/-! ### One slot -/

theorem np_apply {E : Env} (hX : ExactEnv E) (net) (s : State) (b : FullBlock) (sb : SumBlock) (dons)
    (hr : (sb.type = .okPool ∨ sb.type = .okPoolBls) → sb.reward ≠ none) :
    Np (fun _ => True) (applyBlock E net s b sb dons) := by
  unfold applyBlock
  refine (np_handleSubs _ _ _).bind fun s1 _ _ => ?_
  dsimp only
  refine Np.bind (Q := fun _ => True) ?_ fun s3 _ _ => ?_
  · split
    · rename_i h
      exact np_bls _ _ (hr (.inr h))
    · exact trivial
  refine Np.bind (Q := fun _ => True) ?_ fun s4 _ _ => ?_
  · split
    · rename_i h
      exact np_correct hX _ _ _ (hr (.inl h))
    · exact trivial
  refine Np.bind (Q := fun _ => True) ?_ fun s5 _ _ => ?_
  · split
    · rename_i h
      exact np_wrongFee hX _ _ _ h.2
    · exact trivial
  refine Np.bind (Q := fun _ => True) ?_ fun s6 _ _ => ?_
  · unfold handleUnsubs
    split
    · exact trivial
    · split
      · exact trivial
      · exact np_unsubLoop hX _ _ _
  refine Np.bind (Q := fun _ => True) ?_ fun s7 _ _ => ?_
  · unfold handleDonations
    split
    · exact trivial
    · exact np_donLoop hX _ _ _
  refine (np_handleBans hX _ _ _).bind fun s8 _ _ => ?_
  unfold handleUnbans
  split <;> exact trivial

theorem np_advance {E : Env} (hX : ExactEnv E) (o : Oracle) (b : FullBlock) (hu : ¬ Unfit b o.cfg.poolAddr) :
    Np (fun _ => True) (advanceState E o b) := by
  unfold advanceState
  split
  · exact trivial
  · split
    · exact trivial
    · refine (np_config o b).bind fun q _ hq => ?_
      obtain ⟨o1, ok⟩ := q
      dsimp only at hq ⊢
      split
      · exact trivial
      · refine (np_summarize o1.st b o1.cfg.poolAddr (by rwa [hq])).bind fun sb _ hsb => ?_
        split
        · exact trivial
        · refine (np_donations _ _).bind fun dons _ _ => (np_apply hX _ _ _ _ _ hsb).bind fun s1 _ _ => ?_
          refine Np.bind (Q := fun _ => True) ?_ fun q _ _ => ?_
          · split
            · exact np_cleanup hX _ _ _
            · exact trivial
          · obtain ⟨s2, clean⟩ := q
            dsimp only
            split <;> exact trivial

/-! ### Fetching -/

theorem np_rewarded (b : FullBlock) (c : ConsBlock) (hc : b.cons = some c) (a : Str) :
    Np (fun _ => True) (isAddressRewarded b a) := by
  unfold isAddressRewarded
  rw [hc]
  refine (np_exec c _).bind fun fr _ _ => (np_equals _ _).bind fun isFr _ _ => ?_
  split
  · exact trivial
  · refine (np_mev b c hc).bind fun m _ _ => ?_
    split
    · exact (np_equals _ _).mono fun _ _ => trivial
    · exact trivial

theorem np_setConsensus (b : FullBlock) (c : ConsBlock) : Np (fun b' => b'.cons = some c) (setConsensus b c) := by
  unfold setConsensus
  refine (np_base c _).bind fun _ _ _ => ?_
  split
  · exact trivial
  · refine (np_base c _).bind fun _ _ _ => ?_
    split
    · exact trivial
    · exact rfl

theorem np_setEvents (b : FullBlock) (c : ConsBlock) (evs : Events) :
    Np (fun b' => b'.cons = b.cons) (setEvents b c evs) := by
  unfold setEvents
  refine (np_exec c _).bind fun _ _ _ => ?_
  split
  · exact trivial
  · split
    · exact trivial
    · split
      · exact trivial
      · refine (np_base c _).bind fun _ _ _ => ?_
        split <;> exact rfl

theorem np_fetchVals (C : Chain) (slot : Nat) : ∀ l : List Nat, Np (fun _ => True) (fetchVals C slot l)
  | [] => trivial
  | i :: rest => by
    unfold fetchVals
    split
    · exact trivial
    · exact (np_fetchVals C slot rest).bind fun _ _ _ => trivial

theorem np_fetchReceipts (C : Chain) : ∀ (l : List (Option Tx)) (acc : List Receipt),
    Np (fun _ => True) (fetchReceipts C l acc)
  | [], _ => trivial
  | none :: _, _ => trivial
  | some tx :: rest, acc => by
    unfold fetchReceipts
    split
    · exact trivial
    · exact np_fetchReceipts C rest _

theorem np_fetch (C : Chain) (s : State) (slot : Nat) (all : Bool) :
    Np (fun _ => True) (fetchFullBlock C s slot all) := by
  unfold fetchFullBlock
  split
  · exact trivial
  · split
    · exact trivial
    · split
      · exact trivial
      · refine Np.bind (Q := fun _ => True) ?_ fun b0 _ _ => ?_
        · unfold newFullBlock
          split
          · exact trivial
          · split <;> exact trivial
        · split
          · exact trivial
          · exact trivial
          · rename_i c _
            refine (np_setConsensus b0 c).bind fun b1 _ h1 => (np_base c _).bind fun _ _ _ => ?_
            split
            · exact trivial
            · refine (np_exec c _).bind fun number _ _ => ?_
              split
              · exact trivial
              · refine (np_setEvents b1 c _).bind fun b2 _ h2 => (np_fetchVals _ _ _).bind fun vs _ _ =>
                  (np_fetchVals _ _ _).bind fun us _ _ => (np_base c _).bind fun _ _ _ =>
                  (np_rewarded _ c (by dsimp only; rw [h2, h1]) _).bind fun r _ _ => ?_
                split
                · refine (np_exec c _).bind fun txs _ _ => Np.bind (Q := fun _ => True) ?_ fun q _ _ => ?_
                  · unfold headerAndReceipts
                    split
                    · exact trivial
                    · refine (np_fetchReceipts C _ _).bind fun q _ _ => ?_
                      split <;> exact trivial
                  · split
                    · exact trivial
                    · unfold setHeaderAndReceipts
                      refine (np_exec c _).bind fun _ _ _ => ?_
                      split
                      · exact trivial
                      · split <;> exact trivial
                · exact trivial

end Verif
