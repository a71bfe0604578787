import Verif.Lemmas.Hist
import Verif.Props.Persist
import Verif.Props.Determinism
/-
What a slot does depends on the environment only at the ticks it uses, and not on the number of the first
one. With this, pieces of work done in different environments can be put together in one.
-/
namespace Verif

/-- the same state at another tick, with other checkpoints and another stored hash -/
def State.re (s : State) (t : Nat) (x : Str) (c : List (Nat × Frozen)) : State :=
  { s with tick := t, stateHash := x, committed := c }

/-- `E'` at `n` ticks from `b` on is `E` from `a` on -/
def Matches (E E' : Env) (a b n : Nat) : Prop :=
  ∀ i < n, E'.perm (b + i) = E.perm (a + i) ∧ E'.node (b + i) = E.node (a + i) ∧
    E'.consol (b + i) = E.consol (a + i)

theorem Matches.mono {E E' : Env} {a b n m : Nat} (h : Matches E E' a b n) (hm : m ≤ n) : Matches E E' a b m :=
  fun i hi => h i (by omega)

theorem Matches.drop {E E' : Env} {a b n m : Nat} (h : Matches E E' a b (n + m)) : Matches E E' (a + n) (b + n) m := by
  intro i hi
  have := h (n + i) (by omega)
  rw [← Nat.add_assoc, ← Nat.add_assoc] at this
  exact this

theorem Matches.shuffle {E E' : Env} {a b n : Nat} (h : Matches E E' a b n) {i : Nat} (hi : i < n) {α : Type}
    (l : List α) : E'.shuffle (b + i) l = E.shuffle (a + i) l := by
  unfold Env.shuffle
  rw [(h i hi).1]

theorem Matches.getSet {E E' : Env} {a b n : Nat} (h : Matches E E' a b n) {i : Nat} (hi : i < n) (slot req) :
    getSet E' (b + i) slot req = getSet E (a + i) slot req := by
  unfold Verif.getSet
  rw [(h i hi).2.1]

/-- `F` started at `s` in `E` uses some ticks, and gives the same wherever these are -/
def Loc {β : Type} (E : Env) (s : State) (F : Env → State → M (State × β)) : Prop :=
  ∀ s' r, F E s = .ok (s', r) → ∃ d, s'.tick = s.tick + d ∧ ∀ E' t x c, Matches E E' s.tick t d →
    F E' (s.re t x c) = .ok (s'.re (t + d) x c, r)

/-- the same for a function that returns only a state -/
def Loc1 (E : Env) (s : State) (F : Env → State → M State) : Prop :=
  ∀ s', F E s = .ok s' → ∃ d, s'.tick = s.tick + d ∧ ∀ E' t x c, Matches E E' s.tick t d →
    F E' (s.re t x c) = .ok (s'.re (t + d) x c)

theorem Loc1.bind {E : Env} {s : State} {F G : Env → State → M State} (hF : Loc1 E s F)
    (hG : ∀ s1, Loc1 E s1 G) : Loc1 E s (fun E s => do let s1 ← F E s; G E s1) := by
  intro s' h
  simp only [bind_ok] at h
  obtain ⟨s1, h1, h2⟩ := h
  obtain ⟨d, e, k⟩ := hF s1 h1
  obtain ⟨d', e', k'⟩ := hG s1 s' h2
  refine ⟨d + d', by omega, fun E' t x c ha => ?_⟩
  dsimp only
  rw [k E' t x c (ha.mono (by omega)), bind_val]
  have hb := ha.drop
  rw [← e] at hb
  rw [k' E' _ x c hb, Nat.add_assoc]

theorem Loc1.bindR {β : Type} {E : Env} {s : State} {F : Env → State → M State}
    {G : Env → State → M (State × β)} (hF : Loc1 E s F)
    (hG : ∀ s1, Loc E s1 G) : Loc E s (fun E s => do let s1 ← F E s; G E s1) := by
  intro s' r h
  simp only [bind_ok] at h
  obtain ⟨s1, h1, h2⟩ := h
  obtain ⟨d, e, k⟩ := hF s1 h1
  obtain ⟨d', e', k'⟩ := hG s1 s' r h2
  refine ⟨d + d', by omega, fun E' t x c ha => ?_⟩
  dsimp only
  rw [k E' t x c (ha.mono (by omega)), bind_val]
  have hb := ha.drop
  rw [← e] at hb
  rw [k' E' _ x c hb, Nat.add_assoc]

/-- a function that uses no tick -/
theorem Loc1.pure {E : Env} {s : State} {g : State → M State}
    (h : ∀ s', g s = .ok s' → s'.tick = s.tick ∧ ∀ t x c, g (s.re t x c) = .ok (s'.re t x c)) :
    Loc1 E s (fun _ s => g s) := by
  intro s' hs
  obtain ⟨e, k⟩ := h s' hs
  exact ⟨0, e, fun _ t x c _ => k t x c⟩

/-- a pure step after which the same is done -/
theorem Loc1.after {E : Env} {s : State} {g : State → State} {F : Env → State → M State}
    (hg : ∀ s t x c, g (State.re s t x c) = (g s).re t x c) (ht : ∀ s, (g s).tick = s.tick)
    (hF : Loc1 E (g s) F) : Loc1 E s (fun E s => F E (g s)) := by
  intro s' h
  obtain ⟨d, e, k⟩ := hF s' h
  rw [ht] at e k
  refine ⟨d, e, fun E' t x c ha => ?_⟩
  dsimp only
  rw [hg]
  exact k E' t x c ha

section
variable (s : State) (t : Nat) (x : Str) (c : List (Nat × Frozen))

theorem re_advance (i e) : (s.re t x c).advance i e = (s.advance i e).re t x c := rfl
theorem re_toPool (v) : (s.re t x c).toPool v = (s.toPool v).re t x c := rfl
theorem re_isSubscribed (i) : (s.re t x c).isSubscribed i = s.isSubscribed i := by
  unfold State.isSubscribed; rfl
theorem re_isBanned (i) : (s.re t x c).isBanned i = s.isBanned i := by
  unfold State.isBanned; rfl
theorem re_isTracked (i) : (s.re t x c).isTracked i = s.isTracked i := by
  unfold State.isTracked; rfl
theorem re_collateralEnough (v) : (s.re t x c).collateralEnough v = s.collateralEnough v := by
  unfold State.collateralEnough; rfl
theorem re_pendOf (i) : (s.re t x c).pendOf i = s.pendOf i := rfl
theorem re_setSubType (i v) : (s.re t x c).setSubType i v = (s.setSubType i v).re t x c := rfl
theorem re_putVal (i v) : (s.re t x c).putVal i v = (s.putVal i v).re t x c := rfl
end

theorem pure_incPending {s s' : State} {i v} (h : s.incPending i v = .ok s') :
    s'.tick = s.tick ∧ ∀ t x c, (s.re t x c).incPending i v = .ok (s'.re t x c) := by
  unfold State.incPending at h ⊢
  split at h
  · rename_i hc
    cases h
    exact ⟨rfl, fun t x c => by rw [re_isTracked, if_pos hc]; rfl⟩
  · cases h

theorem pure_incAccumulated {s s' : State} {i v} (h : s.incAccumulated i v = .ok s') :
    s'.tick = s.tick ∧ ∀ t x c, (s.re t x c).incAccumulated i v = .ok (s'.re t x c) := by
  unfold State.incAccumulated at h ⊢
  split at h
  · rename_i hc
    cases h
    exact ⟨rfl, fun t x c => by rw [re_isTracked, if_pos hc]; rfl⟩
  · cases h

theorem pure_resetPending {s s' : State} {i} (h : s.resetPending i = .ok s') :
    s'.tick = s.tick ∧ ∀ t x c, (s.re t x c).resetPending i = .ok (s'.re t x c) := by
  unfold State.resetPending at h ⊢
  split at h
  · rename_i hc
    cases h
    exact ⟨rfl, fun t x c => by rw [re_isTracked, if_pos hc]; rfl⟩
  · cases h

theorem pure_consolidate {s s' : State} {i} (h : s.consolidate i = .ok s') :
    s'.tick = s.tick ∧ ∀ t x c, (s.re t x c).consolidate i = .ok (s'.re t x c) := by
  unfold State.consolidate at h ⊢
  split at h
  · rename_i hc
    cases h
    exact ⟨rfl, fun t x c => by rw [re_isTracked, if_pos hc]; rfl⟩
  · cases h


theorem loc_increaseAll (E : Env) (net : Str) (s : State) (r : Int) :
    Loc1 E s (fun E s => increaseAll E net s r) := by
  intro s' h
  dsimp only at h
  by_cases he : eligible E s = []
  · refine ⟨1, ?_, ?_⟩
    · unfold increaseAll at h
      rw [if_pos he] at h
      cases h
      rfl
    · intro E' t x c ha
      have h0 : eligible E' (s.re t x c) = eligible E s := ha.shuffle (i := 0) (by omega) _
      unfold increaseAll at h ⊢
      rw [if_pos he] at h
      cases h
      dsimp only
      rw [h0, if_pos he]
      rfl
  · refine ⟨4, ?_, ?_⟩
    · unfold increaseAll at h
      rw [if_neg he] at h
      rcases ite_cases h with ⟨_, h⟩ | ⟨_, h⟩
      · cases h
      · simp only [bind_ok] at h
        obtain ⟨_, _, _, _, _, _, h⟩ := h
        cases h
        rfl
    · intro E' t x c ha
      have h0 : eligible E' (s.re t x c) = eligible E s := ha.shuffle (i := 0) (by omega) _
      have h1 : ∀ cut, electraSplit E' (s.re t x c) r cut (eligible E s) =
          electraSplit E s r cut (eligible E s) := by
        intro cut
        have g : getSet E' (s.re t x c).tick (s.re t x c).nextSlot (eligible E s) =
          getSet E s.tick s.nextSlot (eligible E s) := ha.getSet (i := 0) (by omega) _ _
        have a1 : ∀ {α : Type} (l : List α), E'.shuffle ((s.re t x c).tick + 1) l = E.shuffle (s.tick + 1) l :=
          fun l => ha.shuffle (i := 1) (by omega) l
        have a2 : ∀ {α : Type} (l : List α), E'.shuffle ((s.re t x c).tick + 2) l = E.shuffle (s.tick + 2) l :=
          fun l => ha.shuffle (i := 2) (by omega) l
        unfold electraSplit
        simp only [g, a1, a2]
      have a3 : ∀ {α : Type} (l : List α), E'.shuffle ((s.re t x c).tick + 3) l = E.shuffle (s.tick + 3) l :=
        fun l => ha.shuffle (i := 3) (by omega) l
      unfold increaseAll at h ⊢
      dsimp only
      rw [h0, if_neg he]
      rw [if_neg he] at h
      rcases ite_cases h with ⟨_, h⟩ | ⟨hf, h⟩
      · cases h
      · rw [show (s.re t x c).fee = s.fee from rfl, if_neg hf]
        simp only [bind_ok] at h
        obtain ⟨m, hm, fs, hfs, vs, hvs, h⟩ := h
        have hm' : rewardMethod net (s.re t x c).nextSlot = .ok m := hm
        rw [hm', bind_val]
        cases m with
        | electra =>
          dsimp only at hfs ⊢
          rw [h1, hfs, bind_val, a3]
          rw [show (s.re t x c).vals = s.vals from rfl, hvs, bind_val]
          cases h
          rfl
        | fork1 =>
          dsimp only at hfs ⊢
          rw [hfs, bind_val, a3]
          rw [show (s.re t x c).vals = s.vals from rfl, hvs, bind_val]
          cases h
          rfl
        | preFork1 =>
          dsimp only at hfs ⊢
          rw [hfs, bind_val, a3]
          rw [show (s.re t x c).vals = s.vals from rfl, hvs, bind_val]
          cases h
          rfl

theorem pure_subOne {s s' : State} {ev v} (h : subOne s ev v = .ok s') :
    s'.tick = s.tick ∧ ∀ t x c, subOne (s.re t x c) ev v = .ok (s'.re t x c) := by
  cases v with
  | none =>
    cases h
    exact ⟨rfl, fun t x c => rfl⟩
  | some v =>
    have pool : ∀ {s'}, (Except.ok (s.toPool ev.collateral) : M State) = .ok s' → s'.tick = s.tick ∧
        ∀ t x c, (Except.ok ((s.re t x c).toPool ev.collateral) : M State) = .ok (s'.re t x c) := by
      intro s' h
      cases h
      exact ⟨rfl, fun t x c => rfl⟩
    unfold subOne at h ⊢
    dsimp only at h ⊢
    rcases ite_cases h with ⟨_, h⟩ | ⟨h1, h⟩
    · cases h
    simp only [if_neg h1]
    rcases ite_cases h with ⟨h2, h⟩ | ⟨h2, h⟩
    · simp only [if_pos h2]; exact pool h
    simp only [if_neg h2]
    cases hw : compatAddressByte v.creds with
    | none => rw [hw] at h; exact pool h
    | some w =>
      rw [hw] at h
      simp only [bind_ok] at h
      obtain ⟨ok, hok, h⟩ := h
      simp only [hok, bind_val]
      rcases ite_cases h with ⟨h3, h⟩ | ⟨h3, h⟩
      · simp only [if_pos h3]; exact pool h
      simp only [if_neg h3]
      simp only [re_isBanned, re_isSubscribed, re_isTracked,
        re_collateralEnough]
      rcases ite_cases h with ⟨h4, h⟩ | ⟨h4, h⟩
      · simp only [if_pos h4]; exact pure_incAccumulated h
      simp only [if_neg h4]
      rcases ite_cases h with ⟨h5, h⟩ | ⟨h5, h⟩
      · simp only [if_pos h5]; exact pure_incAccumulated h
      simp only [if_neg h5]
      rcases ite_cases h with ⟨h6, h⟩ | ⟨h6, h⟩
      · simp only [if_pos h6]; exact pool h
      simp only [if_neg h6]
      rcases ite_cases h with ⟨h7, h⟩ | ⟨h7, h⟩
      · simp only [if_pos h7]
        simp only [bind_ok] at h
        obtain ⟨s3, h3, h⟩ := h
        obtain ⟨e, k⟩ := pure_incPending h3
        cases h
        refine ⟨e.trans ?_, fun t x c => ?_⟩
        · split <;> rfl
        · have k := k t x c
          rw [← re_setSubType] at k
          have : ((if (!s.isTracked ev.validatorId) = true then
              (s.re t x c).putVal ev.validatorId
                { status := .notSubscribed, acc := 0, pend := 0, coll := ev.collateral,
                  waddr := w, index := ev.validatorId, key := hexutilEncode v.pubkey,
                  subType := .manual } else s.re t x c) : State) = (if (!s.isTracked ev.validatorId) = true then
              s.putVal ev.validatorId
                { status := .notSubscribed, acc := 0, pend := 0, coll := ev.collateral,
                  waddr := w, index := ev.validatorId, key := hexutilEncode v.pubkey,
                  subType := .manual } else s).re t x c := by split <;> rfl
          rw [this, k, bind_val]
          rfl
      · simp only [if_neg h7]; exact pool h

theorem pure_subLoop {l} {s s' : State} (h : subLoop l s = .ok s') :
    s'.tick = s.tick ∧ ∀ t x c, subLoop l (s.re t x c) = .ok (s'.re t x c) := by
  induction l generalizing s with
  | nil => cases h; exact ⟨rfl, fun _ _ _ => rfl⟩
  | cons p l ih =>
    obtain ⟨ev, v⟩ := p
    unfold subLoop at h ⊢
    simp only [bind_ok] at h
    obtain ⟨s1, h1, h⟩ := h
    obtain ⟨e, k⟩ := pure_subOne h1
    obtain ⟨e', k'⟩ := ih h
    exact ⟨e'.trans e, fun t x c => by rw [k, bind_val, k']⟩

theorem pure_handleSubs {s s' : State} {evs vs} (h : handleSubs s evs vs = .ok s') :
    s'.tick = s.tick ∧ ∀ t x c, handleSubs (s.re t x c) evs vs = .ok (s'.re t x c) := by
  unfold handleSubs at h ⊢
  rcases ite_cases h with ⟨_, h⟩ | ⟨h1, h⟩
  · cases h
  rcases ite_cases h with ⟨_, h⟩ | ⟨h2, h⟩
  · cases h
  simp only [if_neg h1, if_neg h2]
  exact pure_subLoop h

theorem pure_banLoop {l} {s s' : State} {tot tot' : Int} (h : banLoop l s tot = .ok (s', tot')) :
    s'.tick = s.tick ∧ ∀ t x c, banLoop l (s.re t x c) tot = .ok (s'.re t x c, tot') := by
  induction l generalizing s tot with
  | nil => cases h; exact ⟨rfl, fun _ _ _ => rfl⟩
  | cons ev l ih =>
    unfold banLoop at h ⊢
    simp only [re_isSubscribed]
    rcases ite_cases h with ⟨h1, h⟩ | ⟨h1, h⟩
    · simp only [if_pos h1]; exact ih h
    · simp only [if_neg h1]
      simp only [bind_ok] at h
      obtain ⟨p, hp, s2, h2, h⟩ := h
      obtain ⟨e, k⟩ := pure_resetPending h2
      obtain ⟨e', k'⟩ := ih h
      refine ⟨e'.trans e, fun t x c => ?_⟩
      rw [re_advance, re_pendOf, hp, bind_val, k, bind_val, k']

theorem re_unbanLoop (l) (s : State) (t x c) : unbanLoop l (s.re t x c) = (unbanLoop l s).re t x c := by
  induction l generalizing s with
  | nil => rfl
  | cons ev l ih =>
    unfold unbanLoop
    rw [re_isBanned]
    split
    · exact ih s
    · rw [re_advance]; exact ih _

theorem tick_unbanLoop (l) (s : State) : (unbanLoop l s).tick = s.tick := by
  induction l generalizing s with
  | nil => rfl
  | cons ev l ih =>
    unfold unbanLoop
    split
    · exact ih s
    · exact ih _

theorem loc_unsubOne (E : Env) (net : Str) (s : State) (ev v) :
    Loc1 E s (fun E s => unsubOne E net s ev v) := by
  intro s' h
  have stay : ∀ {s'}, (Except.ok s : M State) = .ok s' → ∃ d, s'.tick = s.tick + d ∧
      ∀ E' t x c, Matches E E' s.tick t d → (Except.ok (s.re t x c) : M State) = .ok (s'.re (t + d) x c) := by
    intro s' h
    cases h
    exact ⟨0, rfl, fun _ _ _ _ _ => rfl⟩
  cases v with
  | none => exact stay h
  | some v =>
    unfold unsubOne at h ⊢
    dsimp only at h ⊢
    rcases ite_cases h with ⟨_, h⟩ | ⟨h1, h⟩
    · cases h
    simp only [if_neg h1]
    cases hw : compatAddressByte v.creds with
    | none => rw [hw] at h; exact stay h
    | some w =>
      rw [hw] at h
      simp only [bind_ok] at h
      obtain ⟨ok, hok, h⟩ := h
      simp only [hok, bind_val]
      rcases ite_cases h with ⟨h3, h⟩ | ⟨h3, h⟩
      · simp only [if_pos h3]; exact stay h
      simp only [if_neg h3, re_isSubscribed]
      rcases ite_cases h with ⟨h4, h⟩ | ⟨h4, h⟩
      · simp only [if_pos h4]
        simp only [bind_ok] at h
        obtain ⟨p, hp, s2, h2, h⟩ := h
        obtain ⟨d, e, k⟩ := loc_increaseAll E net _ p s2 h2
        obtain ⟨e', k'⟩ := pure_resetPending h
        refine ⟨d, e'.trans e, fun E' t x c ha => ?_⟩
        have k := k E' t x c ha
        dsimp only at k
        rw [re_advance, re_pendOf, hp, bind_val, k, bind_val, k']
      · simp only [if_neg h4]; exact stay h

theorem loc_unsubLoop (E : Env) (net : Str) (l) (s : State) : Loc1 E s (fun E s => unsubLoop E net l s) := by
  induction l generalizing s with
  | nil =>
    intro s' h
    cases h
    exact ⟨0, rfl, fun _ _ _ _ _ => rfl⟩
  | cons p l ih => exact (loc_unsubOne E net s p.1 p.2).bind ih

theorem loc_handleUnsubs (E : Env) (net : Str) (s : State) (evs vs) :
    Loc1 E s (fun E s => handleUnsubs E net s evs vs) := by
  intro s' h
  unfold handleUnsubs at h ⊢
  dsimp only at h ⊢
  rcases ite_cases h with ⟨_, h⟩ | ⟨h1, h⟩
  · cases h
  rcases ite_cases h with ⟨_, h⟩ | ⟨h2, h⟩
  · cases h
  simp only [if_neg h1, if_neg h2]
  exact loc_unsubLoop E net _ s s' h

theorem loc_donLoop (E : Env) (net : Str) (l) (s : State) : Loc1 E s (fun E s => donLoop E net l s) := by
  induction l generalizing s with
  | nil =>
    intro s' h
    cases h
    exact ⟨0, rfl, fun _ _ _ _ _ => rfl⟩
  | cons d l ih =>
    exact (loc_increaseAll E net s d.amount).bind fun s1 =>
      Loc1.after (g := fun s1 => { s1 with donations := s1.donations ++ [d] })
        (fun _ _ _ _ => rfl) (fun _ => rfl) (ih _)

theorem loc_handleDonations (E : Env) (net : Str) (s : State) (ds) :
    Loc1 E s (fun E s => handleDonations E net s ds) := by
  intro s' h
  unfold handleDonations at h ⊢
  dsimp only at h ⊢
  rcases ite_cases h with ⟨_, h⟩ | ⟨h1, h⟩
  · cases h
  simp only [if_neg h1]
  exact loc_donLoop E net _ s s' h

theorem re_addSubscription (s : State) (i w key t x c) :
    addSubscription (s.re t x c) i w key = (addSubscription s i w key).re t x c := by
  unfold addSubscription
  rw [re_isTracked]
  split
  · rfl
  · rw [re_isSubscribed]
    split
    · dsimp only
      rw [re_advance, re_isBanned]
      split <;> rfl
    · rfl

theorem tick_addSubscription (s : State) (i w key) : (addSubscription s i w key).tick = s.tick := by
  unfold addSubscription
  split
  · rfl
  · split
    · dsimp only
      split <;> rfl
    · rfl

theorem loc_handleCorrect (E : Env) (net : Str) (s : State) (b) :
    Loc1 E s (fun E s => handleCorrect E net s b) := by
  intro s' h
  unfold handleCorrect at h ⊢
  dsimp only at h ⊢
  cases hr : b.reward with
  | none => rw [hr] at h; cases h
  | some r =>
    rw [hr] at h
    simp only [bind_ok] at h
    obtain ⟨s2, h2, s3, h3, h⟩ := h
    obtain ⟨d, e, k⟩ := loc_increaseAll E net _ r s2 h2
    obtain ⟨e', k'⟩ := pure_consolidate h3
    have e0 : ((addSubscription s b.index b.waddr b.key).advance b.index .proposalOk).tick = s.tick :=
      tick_addSubscription _ _ _ _
    rw [e0] at e k
    cases h
    refine ⟨d, e'.trans e, fun E' t x c ha => ?_⟩
    have k := k E' t x c ha
    dsimp only at k ⊢
    rw [re_addSubscription, re_advance, k, bind_val, k', bind_val]
    rfl

theorem loc_handleWrongFee (E : Env) (net : Str) (s : State) (b) :
    Loc1 E s (fun E s => handleWrongFee E net s b) := by
  intro s' h
  unfold handleWrongFee at h ⊢
  simp only [bind_ok] at h
  obtain ⟨p, hp, s2, h2, s3, h3, h⟩ := h
  obtain ⟨d, e, k⟩ := loc_increaseAll E net _ p s2 h2
  obtain ⟨e', k'⟩ := pure_resetPending h3
  cases h
  refine ⟨d, e'.trans e, fun E' t x c ha => ?_⟩
  have k := k E' t x c ha
  dsimp only at k ⊢
  rw [re_advance, re_pendOf, hp, bind_val, k, bind_val, k', bind_val]
  rfl

theorem loc_handleBans (E : Env) (net : Str) (s : State) (evs) :
    Loc1 E s (fun E s => handleBans E net s evs) := by
  intro s' h
  unfold handleBans at h ⊢
  dsimp only at h ⊢
  rcases ite_cases h with ⟨h1, h⟩ | ⟨h1, h⟩
  · cases h
    simp only [if_pos h1]
    exact ⟨0, rfl, fun _ _ _ _ _ => rfl⟩
  rcases ite_cases h with ⟨_, h⟩ | ⟨h2, h⟩
  · cases h
  simp only [if_neg h1, if_neg h2]
  simp only [bind_ok] at h
  obtain ⟨⟨s1, tot⟩, h3, h⟩ := h
  obtain ⟨e, k⟩ := pure_banLoop h3
  simp only [k, bind_val]
  dsimp only at h ⊢
  rcases ite_cases h with ⟨_, h⟩ | ⟨h4, h⟩
  · cases h
  simp only [if_neg h4]
  rcases ite_cases h with ⟨h5, h⟩ | ⟨h5, h⟩
  · simp only [if_pos h5]
    obtain ⟨d, e', k'⟩ := loc_increaseAll E net _ tot s' h
    rw [e] at e' k'
    exact ⟨d, e', k'⟩
  · cases h
    simp only [if_neg h5]
    exact ⟨0, e, fun _ _ _ _ _ => rfl⟩

theorem loc_cleanOne (E : Env) (slot cs) (s : State) (tot i) :
    Loc E s (fun E s => cleanOne E slot cs s tot i) := by
  intro s' r h
  unfold cleanOne at h ⊢
  dsimp only at h ⊢
  simp only [bind_ok] at h
  obtain ⟨p, hp, h⟩ := h
  simp only [re_advance, re_pendOf, hp, bind_val]
  cases hc : consolTarget cs i with
  | none =>
    rw [hc] at h
    dsimp only at h ⊢
    simp only [bind_ok] at h
    obtain ⟨s2, h2, h⟩ := h
    obtain ⟨e, k⟩ := pure_resetPending h2
    cases h
    exact ⟨0, e, fun E' t x c _ => by rw [k, bind_val]; rfl⟩
  | some tgt =>
    rw [hc] at h
    dsimp only at h ⊢
    simp only [re_isTracked, re_isBanned]
    rcases ite_cases h with ⟨h1, h⟩ | ⟨h1, h⟩
    · simp only [if_pos h1]
      simp only [bind_ok] at h
      obtain ⟨s2, h2, s3, h3, h⟩ := h
      obtain ⟨e, k⟩ := pure_incPending h2
      obtain ⟨e', k'⟩ := pure_resetPending h3
      cases h
      exact ⟨0, e'.trans e, fun E' t x c _ => by rw [k, bind_val, k', bind_val]; rfl⟩
    simp only [if_neg h1]
    rcases ite_cases h with ⟨h2, h⟩ | ⟨h2, h⟩
    · simp only [if_pos h2]
      have g : ∀ {E' t n}, Matches E E' s.tick t (n + 1) → getSet E' t slot [tgt] = getSet E s.tick slot [tgt] :=
        fun ha => ha.getSet (i := 0) (by omega) _ _
      have e1 : (s.advance i .unsubscribe).tick = s.tick := rfl
      have e2 : ∀ t x c, ((s.advance i .unsubscribe).re t x c).tick = t := fun _ _ _ => rfl
      simp only [e1] at h
      simp only [e2]
      cases hg : getSet E s.tick slot [tgt] with
      | none =>
        rw [hg] at h
        cases h
        exact ⟨1, rfl, fun E' t x c ha => by rw [g ha, hg]; rfl⟩
      | some l =>
        rw [hg] at h
        dsimp only at h
        cases hf : l.find? (fun v => v.index == tgt) with
        | none =>
          rw [hf] at h
          cases h
          exact ⟨1, rfl, fun E' t x c ha => by rw [g ha, hg]; dsimp only; rw [hf]; rfl⟩
        | some v =>
          rw [hf] at h
          dsimp only at h
          cases hw : compatAddressByte v.creds with
          | none => rw [hw] at h; cases h
          | some w =>
            rw [hw] at h
            dsimp only at h
            simp only [bind_ok] at h
            obtain ⟨s3, h3, h⟩ := h
            obtain ⟨e, k⟩ := pure_resetPending h3
            cases h
            refine ⟨1, e, fun E' t x c ha => ?_⟩
            rw [g ha, hg]
            dsimp only
            rw [hf]
            dsimp only
            rw [hw]
            dsimp only
            have k := k (t + 1) x c
            exact (congrArg (· >>= _) k).trans rfl
    simp only [if_neg h2]
    rcases ite_cases h with ⟨h3, h⟩ | ⟨h3, h⟩
    · simp only [if_pos h3]
      simp only [bind_ok] at h
      obtain ⟨s2, h4, h⟩ := h
      obtain ⟨e, k⟩ := pure_resetPending h4
      cases h
      exact ⟨0, e, fun E' t x c _ => by rw [k, bind_val]; rfl⟩
    · cases h

theorem loc_cleanLoop (E : Env) (slot cs) (l) (s : State) (tot) :
    Loc E s (fun E s => cleanLoop E slot cs l s tot) := by
  induction l generalizing s tot with
  | nil =>
    intro s' r h
    cases h
    exact ⟨0, rfl, fun _ _ _ _ _ => rfl⟩
  | cons v l ih =>
    intro s' r h
    unfold cleanLoop at h ⊢
    dsimp only at h ⊢
    rcases ite_cases h with ⟨h1, h⟩ | ⟨h1, h⟩
    · simp only [if_pos h1]; exact ih s tot s' r h
    simp only [if_neg h1]
    simp only [bind_ok] at h
    obtain ⟨p, hp, h⟩ := h
    simp only [re_pendOf, hp, bind_val]
    rcases ite_cases h with ⟨h2, h⟩ | ⟨h2, h⟩
    · simp only [if_pos h2]; exact ih s tot s' r h
    simp only [if_neg h2]
    simp only [bind_ok] at h
    obtain ⟨⟨s1, tot1, go⟩, h3, h⟩ := h
    obtain ⟨d, e, k⟩ := loc_cleanOne E slot cs s tot v.index s1 (tot1, go) h3
    dsimp only at h
    rcases ite_cases h with ⟨h4, h⟩ | ⟨h4, h⟩
    · obtain ⟨d', e', k'⟩ := ih s1 tot1 s' r h
      refine ⟨d + d', by omega, fun E' t x c ha => ?_⟩
      have k := k E' t x c (ha.mono (by omega))
      dsimp only at k
      rw [k, bind_val]
      dsimp only
      rw [if_pos h4]
      have hb := ha.drop
      rw [← e] at hb
      have k' := k' E' _ x c hb
      dsimp only at k'
      rw [k', Nat.add_assoc]
    · cases h
      refine ⟨d, e, fun E' t x c ha => ?_⟩
      have k := k E' t x c ha
      dsimp only at k
      rw [k, bind_val]
      dsimp only
      rw [if_neg h4]

theorem shuffle_nil (E : Env) (t : Nat) {α : Type} : E.shuffle t ([] : List α) = [] := by
  unfold Env.shuffle
  rw [List.filterMap_eq_nil_iff]
  intro i _
  rfl

theorem loc_cleanup {E : Env} (hE : ValidEnv E) (net : Str) (s : State) (slot) :
    Loc E s (fun E s => cleanup E net s slot) := by
  intro s' r h
  unfold cleanup at h ⊢
  dsimp only at h ⊢
  have ev : ∀ t x c, VMap.keys (s.re t x c).vals = VMap.keys s.vals := fun _ _ _ => rfl
  have et : ∀ t x c, (s.re t x c).tick = t := fun _ _ _ => rfl
  rcases ite_cases h with ⟨h1, h⟩ | ⟨h1, h⟩
  · cases h
    simp only [if_pos h1]
    exact ⟨0, rfl, fun _ _ _ _ _ => rfl⟩
  simp only [if_neg h1]
  simp only [ev, et]
  by_cases h2 : E.shuffle s.tick (VMap.keys s.vals) = []
  · rw [if_pos h2] at h
    cases h
    have h3 : VMap.keys s.vals = [] := by
      have := (shuffle_perm hE s.tick (VMap.keys s.vals))
      rw [h2] at this
      exact this.symm.eq_nil
    refine ⟨0, rfl, fun E' t x c _ => ?_⟩
    rw [h3, shuffle_nil, if_pos rfl]
    rfl
  rw [if_neg h2] at h
  have s0 : ∀ {E' : Env} {t n : Nat}, Matches E E' s.tick t (n + 1) →
      E'.shuffle t (VMap.keys s.vals) = E.shuffle s.tick (VMap.keys s.vals) :=
    fun ha => ha.shuffle (i := 0) (by omega) _
  have s1 : ∀ {E' : Env} {t n : Nat}, Matches E E' s.tick t (n + 1) → E'.consol t slot = E.consol s.tick slot :=
    fun ha => by have := (ha 0 (by omega)).2.2; exact congrFun this slot
  have s2 : ∀ {E' : Env} {t n : Nat} (l), Matches E E' s.tick t (n + 1) → getSet E' t slot l = getSet E s.tick slot l :=
    fun l ha => ha.getSet (i := 0) (by omega) _ _
  have stop : ∀ {s' : State} {r : Bool}, (Except.ok ({ s with tick := s.tick + 1 }, false) : M (State × Bool)) = .ok (s', r) →
      s'.tick = s.tick + 1 ∧ r = false ∧ ∀ t x c, ({ (s.re t x c) with tick := t + 1 } : State) = s'.re (t + 1) x c := by
    intro s' r h
    cases h
    exact ⟨rfl, rfl, fun _ _ _ => rfl⟩
  cases hcs : (if slot ≥ slotOrZero (slotElectra net) then E.consol s.tick slot else some []) with
  | none =>
    rw [hcs] at h
    obtain ⟨e, rfl, k⟩ := stop h
    refine ⟨1, e, fun E' t x c ha => ?_⟩
    rw [s0 ha, s1 ha, if_neg h2, hcs]
    dsimp only
    rw [k]
  | some cs =>
    rw [hcs] at h
    dsimp only at h
    cases hg : getSet E s.tick slot (E.shuffle s.tick (VMap.keys s.vals)) with
    | none =>
      rw [hg] at h
      obtain ⟨e, rfl, k⟩ := stop h
      refine ⟨1, e, fun E' t x c ha => ?_⟩
      rw [s0 ha, s1 ha, if_neg h2, hcs]
      dsimp only
      rw [s2 _ ha, hg]
      dsimp only
      rw [k]
    | some vs =>
      rw [hg] at h
      dsimp only at h
      simp only [bind_ok] at h
      obtain ⟨⟨u, tot, go⟩, hl, h⟩ := h
      obtain ⟨d, e, k⟩ := loc_cleanLoop E slot cs _ _ _ u (tot, go) hl
      dsimp only at e k
      have start : ∀ {E' t x c n}, Matches E E' s.tick t (2 + d + n) →
          cleanLoop E' slot cs (E'.shuffle (t + 1) vs) { (s.re t x c) with tick := t + 2 } 0 =
            .ok (u.re (t + 2 + d) x c, tot, go) := by
        intro E' t x c n ha
        have a1 : E'.shuffle (t + 1) vs = E.shuffle (s.tick + 1) vs := ha.shuffle (i := 1) (by omega) _
        rw [a1]
        exact k E' (t + 2) x c (ha.mono (show 2 + d ≤ _ by omega)).drop
      dsimp only at h
      rcases ite_cases h with ⟨h3, h⟩ | ⟨h3, h⟩
      · cases h
        refine ⟨2 + d, by omega, fun E' t x c ha => ?_⟩
        have ha' : Matches E E' s.tick t (1 + d + 1) := ha.mono (by omega)
        rw [s0 ha', s1 ha', if_neg h2, hcs]
        dsimp only
        rw [s2 _ ha', hg]
        dsimp only
        rw [start (n := 0) ha, bind_val]
        dsimp only
        rw [if_pos h3, Nat.add_assoc]
      rcases ite_cases h with ⟨h4, h⟩ | ⟨h4, h⟩
      · simp only [bind_ok] at h
        obtain ⟨u2, hu, h⟩ := h
        obtain ⟨d', e', k'⟩ := loc_increaseAll E net u tot u2 hu
        cases h
        refine ⟨2 + d + d', by omega, fun E' t x c ha => ?_⟩
        have ha' : Matches E E' s.tick t (1 + d + d' + 1) := ha.mono (by omega)
        rw [s0 ha', s1 ha', if_neg h2, hcs]
        dsimp only
        rw [s2 _ ha', hg]
        dsimp only
        rw [start ha, bind_val]
        dsimp only
        rw [if_neg h3, if_pos h4]
        have hb := ha.drop
        rw [← Nat.add_assoc, ← Nat.add_assoc, ← e] at hb
        have k' := k' E' _ x c hb
        dsimp only at k'
        rw [k', bind_val]
        congr 3
        omega
      · cases h
        refine ⟨2 + d, by omega, fun E' t x c ha => ?_⟩
        have ha' : Matches E E' s.tick t (1 + d + 1) := ha.mono (by omega)
        rw [s0 ha', s1 ha', if_neg h2, hcs]
        dsimp only
        rw [s2 _ ha', hg]
        dsimp only
        rw [start (n := 0) ha, bind_val]
        dsimp only
        rw [if_neg h3, if_neg h4, Nat.add_assoc]

section
variable (net : Str) (b : FullBlock) (sb : SumBlock) (dons : List EtherEvent)

/-- the events are recorded -/
def recorded (s : State) : State :=
  { s with
    subs := s.subs ++ b.events.subs
    unsubs := s.unsubs ++ b.events.unsubs
    ether := s.ether ++ b.events.ether }

/-- the stages of `applyBlock`, from the last to the first -/
def stage6 (E : Env) (s : State) : M State := do
  let s8 ← handleBans E net s b.events.bans
  handleUnbans s8 b.events.unbans
def stage5 (E : Env) (s : State) : M State := do
  let s7 ← handleDonations E net s dons
  stage6 net b E s7
def stage4 (E : Env) (s : State) : M State := do
  let s6 ← handleUnsubs E net s b.events.unsubs b.valsUnsubs
  stage5 net b dons E s6
def stage3 (E : Env) (s : State) : M State := do
  let s5 ← (if sb.type = .wrongFee ∧ s.isSubscribed sb.index then handleWrongFee E net s sb else .ok s)
  stage4 net b dons E s5
def stage2 (E : Env) (s : State) : M State := do
  let s4 ← (if sb.type = .okPool then handleCorrect E net s sb else .ok s)
  stage3 net b sb dons E s4
def afterMissed (s : State) : State :=
  if sb.type = .missed ∧ s.isSubscribed sb.index then handleMissed s sb else s
def stage1 (E : Env) (s : State) : M State := do
  let s3 ← (if sb.type = .okPoolBls then handleBls (afterMissed sb s) sb else .ok (afterMissed sb s))
  stage2 net b sb dons E s3
end

theorem loc_applyBlock (E : Env) (net : Str) (s : State) (b sb dons) :
    Loc1 E s (fun E s => applyBlock E net s b sb dons) := by
  have e : (fun E s => applyBlock E net s b sb dons) = fun E s => (do
      let s1 ← handleSubs (recorded b s) b.events.subs b.valsSubs
      stage1 net b sb dons E s1) := rfl
  rw [e]
  refine Loc1.bind (F := fun _ s => handleSubs (recorded b s) b.events.subs b.valsSubs)
    (Loc1.pure fun s' h => ?_) fun s1 => ?_
  · obtain ⟨e, k⟩ := pure_handleSubs h
    exact ⟨e, k⟩
  refine Loc1.bind (F := fun _ s => if sb.type = .okPoolBls then handleBls (afterMissed sb s) sb else .ok (afterMissed sb s))
    (G := stage2 net b sb dons) (Loc1.pure fun s' h => ?_) fun s3 => ?_
  · have hm : ∀ t x c, afterMissed sb (s1.re t x c) = (afterMissed sb s1).re t x c := by
      intro t x c
      unfold afterMissed
      simp only [re_isSubscribed]
      split <;> rfl
    have ht : (afterMissed sb s1).tick = s1.tick := by
      unfold afterMissed
      split <;> rfl
    simp only [hm]
    generalize afterMissed sb s1 = s2 at *
    split at h
    · rename_i hb
      simp only [if_pos hb]
      unfold handleBls at h ⊢
      split at h
      · cases h
      · rename_i hb'
        simp only [if_neg hb']
        cases hr : sb.reward with
        | none => rw [hr] at h; cases h
        | some r =>
          rw [hr] at h
          cases h
          exact ⟨ht, fun _ _ _ => rfl⟩
    · rename_i hb
      simp only [if_neg hb]
      cases h
      exact ⟨ht, fun _ _ _ => rfl⟩
  refine Loc1.bind (F := fun E s => if sb.type = .okPool then handleCorrect E net s sb else .ok s)
    (G := stage3 net b sb dons) ?_ fun s4 => ?_
  · intro s' h
    dsimp only at h ⊢
    split at h
    · rename_i hb
      simp only [if_pos hb]
      exact loc_handleCorrect E net s3 sb s' h
    · rename_i hb
      simp only [if_neg hb]
      cases h
      exact ⟨0, rfl, fun _ _ _ _ _ => rfl⟩
  refine Loc1.bind (F := fun E s => if sb.type = .wrongFee ∧ s.isSubscribed sb.index then handleWrongFee E net s sb else .ok s)
    (G := stage4 net b dons) ?_ fun s5 => ?_
  · intro s' h
    dsimp only at h ⊢
    simp only [re_isSubscribed]
    split at h
    · rename_i hb
      simp only [if_pos hb]
      exact loc_handleWrongFee E net s4 sb s' h
    · rename_i hb
      simp only [if_neg hb]
      cases h
      exact ⟨0, rfl, fun _ _ _ _ _ => rfl⟩
  refine Loc1.bind (G := stage5 net b dons) (loc_handleUnsubs E net s5 _ _) fun s6 => ?_
  refine Loc1.bind (G := stage6 net b) (loc_handleDonations E net s6 _) fun s7 => ?_
  refine Loc1.bind (G := fun _ s => handleUnbans s b.events.unbans) (loc_handleBans E net s7 _) fun s8 => ?_
  refine Loc1.pure fun s' h => ?_
  unfold handleUnbans at h ⊢
  split at h
  · cases h
  · rename_i hb
    cases h
    refine ⟨tick_unbanLoop _ _, fun t x c => ?_⟩
    rw [if_neg hb, re_unbanLoop]

theorem re_validateConfig {cfg : Config} {s : State} {b : FullBlock} {o1 : Oracle} {r : Bool}
    (h : validateConfig ⟨cfg, s⟩ b = .ok (o1, r)) :
    o1.st.tick = s.tick ∧ ∀ t x c, validateConfig ⟨cfg, s.re t x c⟩ b = .ok (⟨o1.cfg, o1.st.re t x c⟩, r) := by
  unfold validateConfig at h ⊢
  dsimp only at h ⊢
  rcases ite_cases h with ⟨h1, h⟩ | ⟨h1, h⟩
  · cases h
    exact ⟨rfl, fun t x c => by rw [if_pos h1]⟩
  simp only [if_neg h1]
  have main : ∀ {q : Oracle} {o1 : Oracle} {r : Bool}, (do
      let recOk ← (match b.events.feeRecipient with
        | [] => .ok true
        | r :: _ => equals q.cfg.poolFeesAddr r)
      if !recOk then .ok (q, false)
      else if b.events.cpSize.any (fun n => q.cfg.cpSize ≠ n) then .ok (q, false)
      else if b.events.collateral.any (fun c => q.cfg.collateral ≠ c) then .ok (q, false)
      else .ok (q, true) : M (Oracle × Bool)) = .ok (o1, r) → o1 = q ∧ ∀ q' : Oracle, q'.cfg = q.cfg → (do
      let recOk ← (match b.events.feeRecipient with
        | [] => .ok true
        | r :: _ => equals q'.cfg.poolFeesAddr r)
      if !recOk then .ok (q', false)
      else if b.events.cpSize.any (fun n => q'.cfg.cpSize ≠ n) then .ok (q', false)
      else if b.events.collateral.any (fun c => q'.cfg.collateral ≠ c) then .ok (q', false)
      else .ok (q', true) : M (Oracle × Bool)) = .ok (q', r) := by
    intro q o1 r h
    simp only [bind_ok] at h
    obtain ⟨ok, hok, h⟩ := h
    rcases ite_cases h with ⟨h2, h⟩ | ⟨h2, h⟩
    · cases h
      exact ⟨rfl, fun q' e => by rw [e, hok, bind_val, if_pos h2]⟩
    rcases ite_cases h with ⟨h3, h⟩ | ⟨h3, h⟩
    · cases h
      exact ⟨rfl, fun q' e => by rw [e, hok, bind_val, if_neg h2, if_pos h3]⟩
    rcases ite_cases h with ⟨h4, h⟩ | ⟨h4, h⟩
    · cases h
      exact ⟨rfl, fun q' e => by rw [e, hok, bind_val, if_neg h2, if_neg h3, if_pos h4]⟩
    · cases h
      exact ⟨rfl, fun q' e => by rw [e, hok, bind_val, if_neg h2, if_neg h3, if_neg h4]⟩
  cases hp : b.events.poolFee with
  | nil =>
    rw [hp] at h
    obtain ⟨rfl, k⟩ := main h
    exact ⟨rfl, fun t x c => k ⟨cfg, s.re t x c⟩ rfl⟩
  | cons f fs =>
    rw [hp] at h
    dsimp only at h ⊢
    cases hf : scheduledFee cfg.network b.dutySlot with
    | none =>
      rw [hf] at h
      cases h
      exact ⟨rfl, fun t x c => rfl⟩
    | some ex =>
      rw [hf] at h
      dsimp only at h ⊢
      by_cases hx : ex ≠ i64 f
      · rw [if_pos hx] at h
        cases h
        exact ⟨rfl, fun t x c => by rw [if_pos hx]⟩
      · rw [if_neg hx] at h
        obtain ⟨rfl, k⟩ := main h
        exact ⟨rfl, fun t x c => by rw [if_neg hx]; exact k ⟨_, { s with fee := i64 f }.re t x c⟩ rfl⟩

/-- a slot, wherever its ticks are -/
theorem loc_slot {E : Env} (hE : ValidEnv E) {o o1 : Oracle} {b : FullBlock} {n : Nat}
    (h : advanceState E o b = .ok (o1, some n)) : ∃ d, o1.st.tick = o.st.tick + d ∧
      ∀ E' t x c, Matches E E' o.st.tick t d →
        advanceState E' ⟨o.cfg, o.st.re t x c⟩ b = .ok (⟨o1.cfg, o1.st.re (t + d) x c⟩, some n) := by
  obtain ⟨q, sb, dons, s1, s2, h1, h2, hv, hsb, h3, hd, ha, hcl, rfl, rfl⟩ := advanceState_ok h
  obtain ⟨cfg, s⟩ := o
  obtain ⟨e0, k0⟩ := re_validateConfig hv
  obtain ⟨d, e, k⟩ := loc_applyBlock E q.cfg.network q.st b sb dons s1 ha
  have hc : Loc E s1 (fun E s1 => if s1.nextSlot % 1200 = 0 then cleanup E q.cfg.network s1 s1.nextSlot
      else .ok (s1, true)) := by
    intro s' r h
    dsimp only at h ⊢
    have en : ∀ t x c, (s1.re t x c).nextSlot = s1.nextSlot := fun _ _ _ => by unfold State.re; rfl
    simp only [en]
    split at h
    · rename_i hb
      simp only [if_pos hb]
      exact loc_cleanup hE _ _ _ s' r h
    · rename_i hb
      simp only [if_neg hb]
      cases h
      exact ⟨0, rfl, fun _ _ _ _ _ => rfl⟩
  obtain ⟨d', e', k'⟩ := hc s2 true hcl
  refine ⟨d + d', ?_, fun E' t x c hag => ?_⟩
  · show s2.tick = _
    dsimp only
    omega
  · have k := k E' t x c (by rw [e0]; exact hag.mono (by omega))
    have hb := hag.drop
    dsimp only at hb k
    rw [← e0, ← e] at hb
    have k' := k' E' _ x c hb
    dsimp only at k' ⊢
    unfold advanceState
    rw [if_neg (fun hx => hx h1), if_neg (fun hx => hx h2), k0, bind_val]
    dsimp only
    rw [if_neg (by simp)]
    have : summarize (q.st.re t x c) b q.cfg.poolAddr = .ok sb := hsb
    rw [this, bind_val, if_neg (fun hx => hx h3), hd, bind_val, k, bind_val, k', bind_val]
    dsimp only
    rw [if_neg (by simp), Nat.add_assoc]
    rfl

end Verif
