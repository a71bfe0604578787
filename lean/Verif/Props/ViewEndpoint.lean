import Verif.Props.View
import Verif.Props.Listings
/-
C47 for the whole endpoint: which events are read, which validators are listed, in which order.
-/
namespace Verif
open VMap

/-- What the execution client answers when asked for the events from block `n` on: the events of the blocks
already processed (`old`) and of those that are not final yet (`new`), all of which lie after block `last`,
the last one processed. -/
structure LogsOf (old new : List FullBlock) (last : Nat)
    (logs : Nat → Option (List SubEvent × List UnsubEvent)) : Prop where
  answer : ∀ n, logs n = some (((old ++ new).flatMap (·.events.subs)).filter fun e => n ≤ e.block,
    ((old ++ new).flatMap (·.events.unsubs)).filter fun e => n ≤ e.block)
  before : ∀ b ∈ old, ∀ x ∈ eventNumbers b, x ≤ last
  after : ∀ b ∈ new, ∀ x ∈ eventNumbers b, last < x

/-- A validator of the address `addr`: tracked with that address, or untracked and known to the beacon node
with that address. -/
def OwnedBy (s : State) (beacon : BMap) (addr : Str) (i : Nat) : Prop :=
  (∃ v, VMap.get s.vals i = some v ∧ SameAddr v.waddr addr) ∨
  (VMap.get s.vals i = none ∧ ∃ u ∈ beacon, u.1 = i ∧ ∃ a, HasAddress u.2.creds a ∧ SameAddr a addr)

/-! ### What the events leave as it is -/

/-- key, index and address of all records -/
def labels (m : VMap) : List (Nat × Nat × Str) := m.map fun p => (p.1, p.2.index, p.2.waddr)

theorem labels_modify (m : VMap) (k : Nat) (f : Validator → Validator)
    (hf : ∀ v, (f v).index = v.index ∧ (f v).waddr = v.waddr) : labels (VMap.modify m k f) = labels m := by
  unfold labels VMap.modify
  rw [List.map_map]
  apply List.map_congr_left
  intro p _
  dsimp only [Function.comp]
  split
  · rw [(hf _).1, (hf _).2]
  · rfl

theorem labels_apiSub {coll m ev v m'} (h : apiSub coll m ev v = .ok m') : labels m' = labels m := by
  unfold apiSub at h
  split at h
  · cases h; rfl
  · obtain ⟨same, _, h⟩ := bind_ok.mp h
    split at h; · cases h; rfl
    split at h; · cases h; rfl
    split at h; · cases h
    split at h; · cases h; rfl
    split at h
    · cases h; exact labels_modify _ _ _ fun _ => ⟨rfl, rfl⟩
    · cases h; rfl

theorem labels_apiUnsub {m ev m'} (h : apiUnsub m ev = .ok m') : labels m' = labels m := by
  unfold apiUnsub at h
  split at h
  · cases h; rfl
  · obtain ⟨same, _, h⟩ := bind_ok.mp h
    split at h; · cases h; rfl
    split at h
    · cases h; exact labels_modify _ _ _ fun _ => ⟨rfl, rfl⟩
    · cases h; rfl

theorem labels_apply {coll subs unsubs m m'} (h : applyNonFinalized coll subs unsubs m = .ok m') :
    labels m' = labels m := by
  have hs : ∀ l m m', apiSubs coll l m = .ok m' → labels m' = labels m := by
    intro l
    induction l with
    | nil => intro m m' h; cases h; rfl
    | cons p l ih =>
      intro m m' h
      obtain ⟨ev, v⟩ := p
      unfold apiSubs at h
      obtain ⟨m1, h1, h2⟩ := bind_ok.mp h
      rw [ih _ _ h2, labels_apiSub h1]
  have hu : ∀ l m m', apiUnsubs l m = .ok m' → labels m' = labels m := by
    intro l
    induction l with
    | nil => intro m m' h; cases h; rfl
    | cons p l ih =>
      intro m m' h
      unfold apiUnsubs at h
      obtain ⟨m1, h1, h2⟩ := bind_ok.mp h
      rw [ih _ _ h2, labels_apiUnsub h1]
  have hb : ∀ l m m', apiBlocks coll subs unsubs l m = .ok m' → labels m' = labels m := by
    intro l
    induction l with
    | nil => intro m m' h; cases h; rfl
    | cons b l ih =>
      intro m m' h
      unfold apiBlocks at h
      obtain ⟨m1, h1, h⟩ := bind_ok.mp h
      obtain ⟨m2, h2, h3⟩ := bind_ok.mp h
      rw [ih _ _ h3, hu _ _ _ h2, hs _ _ _ h1]
  exact hb _ _ _ h

/-- ascending keys, each record under its own index and with the address `addr` -/
structure Listed (addr : Str) (m : VMap) : Prop where
  sorted : Sorted m
  own : ∀ p ∈ m, p.2.index = p.1 ∧ SameAddr p.2.waddr addr

theorem Listed.insert {addr m} (h : Listed addr m) {i v} (hv : v.index = i ∧ SameAddr v.waddr addr) :
    Listed addr (VMap.insert m i v) := by
  refine ⟨h.sorted.insert i v, fun p hp => ?_⟩
  rcases mem_insert hp with rfl | hp
  · exact hv
  · exact h.own p hp

theorem untrackedOf_listed {addr l m m'} (hl : ∀ p ∈ l, p.2.index = p.1) (h : untrackedOf addr l m = .ok m')
    (hm : Listed addr m) : Listed addr m' := by
  induction l generalizing m with
  | nil => cases h; exact hm
  | cons p l ih =>
    obtain ⟨i, u⟩ := p
    have hl' : ∀ p ∈ l, p.2.index = p.1 := fun p hp => hl p (List.mem_cons_of_mem _ hp)
    unfold untrackedOf at h
    split at h
    · exact ih hl' h hm
    · obtain ⟨same, hq, h⟩ := bind_ok.mp h
      split at h
      · exact ih hl' h hm
      · next hsm =>
        refine ih hl' h (hm.insert ⟨hl (i, u) (by simp), ?_⟩)
        exact (equals_iff hq).mp (by simpa using hsm)

theorem trackedOf_listed {addr l m m'} (h : trackedOf addr l m = .ok m') (hm : Listed addr m) :
    Listed addr m' := by
  induction l generalizing m with
  | nil => cases h; exact hm
  | cons p l ih =>
    obtain ⟨i, v⟩ := p
    unfold trackedOf at h
    obtain ⟨same, hq, h⟩ := bind_ok.mp h
    split at h
    · exact ih h hm
    · next hsm =>
      refine ih h (hm.insert ⟨rfl, ?_⟩)
      exact (equals_iff hq).mp (by simpa using hsm)

theorem Listed.of_labels {addr m m'} (h : Listed addr m) (he : labels m' = labels m) : Listed addr m' := by
  have hk : keys m' = keys m := by
    have := congrArg (List.map fun q : Nat × Nat × Str => q.1) he
    simpa [labels, keys, Function.comp_def] using this
  refine ⟨(sorted_iff_keys _).mpr (hk ▸ h.sorted.keys_lt), fun p hp => ?_⟩
  have : (p.1, p.2.index, p.2.waddr) ∈ labels m := he ▸ List.mem_map.mpr ⟨p, hp, rfl⟩
  obtain ⟨q, hq, e⟩ := List.mem_map.mp this
  simp only [Prod.mk.injEq] at e
  have := h.own q hq
  rw [e.1, e.2.1, e.2.2] at this
  exact this

theorem filter_after {α : Type} (f : FullBlock → List α) (g : α → Nat) (old new : List FullBlock) (last : Nat)
    (h1 : ∀ b ∈ old, ∀ x ∈ f b, g x ≤ last) (h2 : ∀ b ∈ new, ∀ x ∈ f b, last < g x) :
    ((old ++ new).flatMap f).filter (fun e => last + 1 ≤ g e) = new.flatMap f := by
  rw [List.flatMap_append, List.filter_append]
  have e1 : (old.flatMap f).filter (fun e => last + 1 ≤ g e) = [] := by
    rw [List.filter_eq_nil_iff]
    intro x hx
    obtain ⟨b, hb, hx⟩ := List.mem_flatMap.mp hx
    have := h1 b hb x hx
    simp; omega
  have e2 : (new.flatMap f).filter (fun e => last + 1 ≤ g e) = new.flatMap f := by
    rw [List.filter_eq_self]
    intro x hx
    obtain ⟨b, hb, hx⟩ := List.mem_flatMap.mp hx
    have := h2 b hb x hx
    simp; omega
  rw [e1, e2, List.nil_append]

theorem SameAddr.of_lower {a b : Str} (h : SameAddr a (lower b)) : SameAddr a b := by
  obtain ⟨h1, h2⟩ := h
  exact ⟨by simpa [lower] using h1, by rw [h2, lower_lower]⟩

theorem SameAddr.to_lower {a b : Str} (h : SameAddr a b) : SameAddr a (lower b) := by
  obtain ⟨h1, h2⟩ := h
  exact ⟨by simpa [lower] using h1, by rw [h2, lower_lower]⟩

theorem Agree.of_same {a b : Str} {c i bl} (h : Agree a c i bl) (he : SameAddr b a) : Agree b c i bl := by
  have tr : ∀ {w : Str}, SameAddr w a → SameAddr w b := fun k => ⟨k.1.trans he.1.symm, k.2.trans he.2.symm⟩
  refine ⟨h.lens, fun p hp hi => ?_, fun p hp hi => ?_⟩
  · obtain ⟨v, w, u, k1, k2, k3, k4, k5⟩ := h.subs p hp hi
    exact ⟨v, w, u, k1, k2, k3, tr k4, k5⟩
  · obtain ⟨v, w, k1, k2, k3, k4⟩ := h.unsubs p hp hi
    exact ⟨v, w, k1, k2, k3, tr k4⟩

section
variable {E : Env} {cfg : Config} {bs0 bs : List FullBlock} {o o' : Oracle} {beacon : BMap} {fin : Option Nat}
  {logs : Nat → Option (List SubEvent × List UnsubEvent)} {req : Str} {l : List (Validator × BVal)}
  (hE : ValidEnv E) (hX : ExactEnv E) (hC : NoSelfConsol E)
  -- the oracle now, and after the blocks `bs` that are not final yet
  (h0 : Hist E (newOracle cfg) bs0 o) (h : Hist E o bs o') (hg : ∀ b ∈ bs, GasOK b) (hord : InOrder bs)
  -- what the execution client knows; the cache of the beacon node's validators
  (hlogs : LogsOf bs0 bs o.st.latestBlock logs) (hlast : o.st.latestBlock + 1 < 2 ^ 64)
  (hb : ∀ p ∈ beacon, p.2.index = p.1)
  (hr : validatorsByWithdrawal fin (some beacon) logs o.cfg o.st req = .ok (.ok l))
include hE hX hC h0 h hg hord hlogs hlast hb hr

/-- **C47**, the whole endpoint: every validator of the requested address that the beacon node reports is
listed, with the status that the oracle records once it has processed the blocks that are not final yet, if
nothing but (un)subscriptions concerns the validator; if, besides, no reward is shared in these blocks, also
with the pending balance the oracle then records. What is missing: a slot may be processed while the request is
answered, and then the claim is false (`C47_false_overlap`). -/
theorem C47_endpoint_partial {i : Nat} {u : BVal} (hi : OwnedBy o.st beacon req i) (hu : BMap.get beacon i = some u)
    (hq : ∀ b ∈ bs, Quiet i b) (ha : ∀ b ∈ bs, Agree req (some u) i b) :
    ∃ w, (w, u) ∈ l ∧ w.index = i ∧ SameAddr w.waddr req ∧ StatusShown (VMap.get o'.st.vals i) w ∧
      ((∀ bs1 b bs2 o1, bs = bs1 ++ b :: bs2 → Hist E o bs1 o1 → NoRewards o.cfg.poolAddr o1.st i b) →
        PendingShown (VMap.get o'.st.vals i) w) := by
  have hs : MapOK o.st := (hist_five hE hX hC h0 List.Pairwise.nil (by intro p hp; simp [newOracle] at hp)).1
  have hcol : o.cfg.collateral = cfg.collateral := by
    have gen : ∀ {o0 bs o}, Hist E o0 bs o → o.cfg.collateral = o0.cfg.collateral := by
      intro o0 bs o h
      induction h with
      | nil => rfl
      | cons h1 _ ih =>
        obtain ⟨_, _, _, _, _, _, _, _, hc, _⟩ := slot_frame h1
        rw [ih, hc]
    exact gen h0
  unfold validatorsByWithdrawal validatorsByWithdrawal2 at hr
  split at hr; · cases hr
  dsimp only at hr
  split at hr; · cases hr
  obtain ⟨m1, k1, hr⟩ := bind_ok.mp hr
  obtain ⟨m2, k2, hr⟩ := bind_ok.mp hr
  obtain ⟨w, c1, c2, c3, c4⟩ := C47_start (i := i) hs k1 k2 (by
    rcases hi with ⟨v, e1, e2⟩ | ⟨e1, p, e2, e3, a, e4, e5⟩
    · exact Or.inl ⟨v, e1, e2.to_lower⟩
    · exact Or.inr ⟨e1, p, e2, e3, a, e4, e5.to_lower⟩)
  split at hr
  · rename_i hlen
    rw [List.length_eq_zero_iff] at hlen
    rw [hlen] at c1; cases c1
  split at hr; · cases hr
  have hl1 : u64 (o.st.latestBlock + 1) = o.st.latestBlock + 1 := Nat.mod_eq_of_lt hlast
  rw [hl1, hlogs.answer, filter_after (·.events.subs) (·.block) bs0 bs o.st.latestBlock
      (fun b hb x hx => hlogs.before b hb _ (by simp [eventNumbers]; exact Or.inl ⟨x, hx, rfl⟩))
      (fun b hb x hx => hlogs.after b hb _ (by simp [eventNumbers]; exact Or.inl ⟨x, hx, rfl⟩)),
    filter_after (·.events.unsubs) (·.block) bs0 bs o.st.latestBlock
      (fun b hb x hx => hlogs.before b hb _ (by simp [eventNumbers]; exact Or.inr ⟨x, hx, rfl⟩))
      (fun b hb x hx => hlogs.after b hb _ (by simp [eventNumbers]; exact Or.inr ⟨x, hx, rfl⟩))] at hr
  dsimp only at hr
  obtain ⟨m3, k3, hr⟩ := bind_ok.mp hr
  rw [hcol] at k3
  have hl3 : Listed (lower req) m3 := by
    refine Listed.of_labels ?_ (labels_apply k3)
    exact trackedOf_listed k2 (untrackedOf_listed hb k1 ⟨List.Pairwise.nil, by simp⟩)
  have ha' : ∀ b ∈ bs, Agree w.waddr (BMap.get beacon i) i b := fun b hb => by
    rw [hu]; exact (ha b hb).of_same c2.of_lower
  obtain ⟨w', d1, d2⟩ := C47_status (cache := BMap.get beacon) hE hX hC h0 h hg hord c1 k3 hq ha' c3
  have hown := hl3.own _ (mem_of_get d1)
  dsimp only at hown
  simp only [Except.ok.injEq, Answer.ok.injEq] at hr
  refine ⟨w', ?_, hown.1, hown.2.of_lower, d2, fun hn => ?_⟩
  · rw [← hr, List.mem_filterMap]
    refine ⟨w', ?_, by rw [hown.1, hu]; rfl⟩
    exact (List.mergeSort_perm _ _).mem_iff.mpr (List.mem_map.mpr ⟨_, mem_of_get d1, rfl⟩)
  · obtain ⟨w'', e1, _, e3⟩ := C47_pending (cache := BMap.get beacon) hE hX hC h0 h hg hord c1 k3 hq ha' c3 c4 hn
    rw [d1] at e1; cases e1
    exact e3

end

/-- **C47**, nothing else is listed: each entry belongs to the requested address, shows what the beacon node
reported about this validator, and no validator is listed twice; the list is ordered by index. -/
theorem C47_nothing_else {s : State} {cfg : Config} {beacon : BMap} {fin : Option Nat}
    {logs : Nat → Option (List SubEvent × List UnsubEvent)} {req : Str} {l : List (Validator × BVal)}
    (hb : ∀ p ∈ beacon, p.2.index = p.1)
    (hr : validatorsByWithdrawal fin (some beacon) logs cfg s req = .ok (.ok l)) :
    (l.map (·.1.index)).Pairwise (· < ·) ∧
    ∀ w u, (w, u) ∈ l → SameAddr w.waddr req ∧ BMap.get beacon w.index = some u := by
  unfold validatorsByWithdrawal validatorsByWithdrawal2 at hr
  split at hr; · cases hr
  dsimp only at hr
  split at hr; · cases hr
  obtain ⟨m1, k1, hr⟩ := bind_ok.mp hr
  obtain ⟨m2, k2, hr⟩ := bind_ok.mp hr
  split at hr
  · cases hr; simp
  split at hr; · cases hr
  split at hr; · cases hr
  obtain ⟨m3, k3, hr⟩ := bind_ok.mp hr
  have hl3 : Listed (lower req) m3 := by
    refine Listed.of_labels ?_ (labels_apply k3)
    exact trackedOf_listed k2 (untrackedOf_listed hb k1 ⟨List.Pairwise.nil, by simp⟩)
  simp only [Except.ok.injEq, Answer.ok.injEq] at hr
  have hp : (m3.map (·.2)).Pairwise fun a b => a.index < b.index := by
    rw [List.pairwise_map]
    refine List.Pairwise.imp_of_mem ?_ hl3.sorted
    intro p q hp hq hlt
    rw [(hl3.own p hp).1, (hl3.own q hq).1]
    exact hlt
  have hlist : (m3.map (·.2)).mergeSort (fun a b => a.index ≤ b.index) = m3.map (·.2) := by
    apply sorted_perm_unique (List.mergeSort_perm _ _) _ hp
    have := List.pairwise_mergeSort (le := fun a b : Validator => decide (a.index ≤ b.index))
      (by simp; omega) (by simp; omega) (m3.map (·.2))
    exact this.imp fun k => by simpa using k
  rw [hlist] at hr
  subst hr
  constructor
  · rw [List.pairwise_map]
    refine List.Pairwise.filterMap _ ?_ hp
    intro a a' hlt b hb b' hb'
    obtain ⟨u, _, rfl⟩ := Option.map_eq_some_iff.mp hb
    obtain ⟨u', _, rfl⟩ := Option.map_eq_some_iff.mp hb'
    exact hlt
  · intro w u hw
    obtain ⟨v, hv, e⟩ := List.mem_filterMap.mp hw
    obtain ⟨u', hu, e⟩ := Option.map_eq_some_iff.mp e
    cases e
    obtain ⟨p, hp, rfl⟩ := List.mem_map.mp hv
    exact ⟨(hl3.own p hp).2.of_lower, hu⟩

namespace Sample

/-- the logs of the blocks `b0` and `later1` -/
def viewLogs (n : Nat) : Option (List SubEvent × List UnsubEvent) :=
  some ((([b0] ++ [later1]).flatMap (·.events.subs)).filter fun e => n ≤ e.block,
    (([b0] ++ [later1]).flatMap (·.events.unsubs)).filter fun e => n ≤ e.block)

/-- C47: the owner of validator 2 asks when the block in which it leaves is not final yet; the answer shows
it as not subscribed, while the oracle has it as active -/
example : ∃ o o' l, Hist env (newOracle cfg) [b0] o ∧ Hist env o [later1] o' ∧ InOrder [later1] ∧
    LogsOf [b0] [later1] o.st.latestBlock viewLogs ∧
    validatorsByWithdrawal (some 12000000) (some [(2, bval 2)]) viewLogs o.cfg o.st (addr 2) = .ok (.ok l) ∧
    OwnedBy o.st [(2, bval 2)] (addr 2) 2 ∧ (VMap.get o.st.vals 2).map (·.status) = some .active ∧
    l.map (·.1.status) = [.notSubscribed] := by
  obtain ⟨o, h1, h2⟩ := ex_hist (E := env) (o := newOracle cfg) (bs := [b0])
    (P := fun o => (run env o [later1]).isSome && o.st.latestBlock = 100 &&
      (match validatorsByWithdrawal (some 12000000) (some [(2, bval 2)]) viewLogs o.cfg o.st (addr 2) with
        | .ok (.ok l) => decide (l.map (·.1.status) = [.notSubscribed])
        | _ => false) &&
      (match VMap.get o.st.vals 2 with
        | some v => decide (v.waddr = addr 2 ∧ v.status = .active)
        | none => false)) (by decide +kernel)
  simp only [Bool.and_eq_true, decide_eq_true_eq] at h2
  obtain ⟨⟨⟨h2, h3⟩, h4⟩, h5⟩ := h2
  split at h4
  · next l hl =>
    split at h5
    · next v hv =>
      simp only [decide_eq_true_eq] at h4 h5
      refine ⟨o, _, l, h1, run_some h2, ⟨?_, by simp⟩, ⟨fun _ => rfl, ?_, ?_⟩, hl, Or.inl ⟨v, hv, ?_⟩, ?_, h4⟩
      · intro b hb
        simp only [List.mem_cons, List.not_mem_nil, or_false] at hb
        subst hb
        exact ⟨101, by decide⟩
      · intro b hb
        simp only [List.mem_cons, List.not_mem_nil, or_false] at hb
        subst hb
        rw [h3]
        decide
      · intro b hb
        simp only [List.mem_cons, List.not_mem_nil, or_false] at hb
        subst hb
        rw [h3]
        decide
      · rw [h5.1]; exact same _
      · rw [hv]; simp [h5.2]
    · cases h5
  · cases h4

end Sample

namespace Sample

/-- the block `later1` with its own number -/
def left2 : FullBlock :=
  { later1 with cons := later1.cons.map fun c => { c with number := 101 }, header := some ⟨101, 10⟩ }

end Sample

/-- **C47 is false if a slot is processed while the request is answered.** The handler copies the validators, then asks
for the number of the latest processed block; if the main loop processes the block with the unsubscription of
validator 2 in between, the event is neither in the copy nor among the logs asked for. The validator is shown as
active, although it is not subscribed in the books, and was shown as not subscribed to whoever asked before. -/
theorem C47_false_overlap : ∃ o o' n l l0,
    Hist Sample.env (newOracle Sample.cfg) [Sample.b0] o ∧
    advanceState Sample.env o Sample.left2 = .ok (o', some n) ∧
    validatorsByWithdrawal (some 12000000) (some [(2, Sample.bval 2)]) Sample.viewLogs o.cfg o.st (Sample.addr 2) =
      .ok (.ok l0) ∧ l0.map (·.1.status) = [.notSubscribed] ∧
    validatorsByWithdrawal2 (some 12000000) (some [(2, Sample.bval 2)]) Sample.viewLogs o.cfg o.st o'.st
      (Sample.addr 2) = .ok (.ok l) ∧ l.map (·.1.status) = [.active] ∧
    (VMap.get o'.st.vals 2).map (·.status) = some .notSubscribed := by
  obtain ⟨o, o', n, h1, h2, h3⟩ := Sample.ex_then (E := Sample.env)
    (o := newOracle Sample.cfg) (bs := [Sample.b0]) (b := Sample.left2)
    (P := fun o o' _ =>
      (match validatorsByWithdrawal (some 12000000) (some [(2, Sample.bval 2)]) Sample.viewLogs o.cfg o.st
          (Sample.addr 2) with
        | .ok (.ok l) => decide (l.map (·.1.status) = [.notSubscribed])
        | _ => false) &&
      (match validatorsByWithdrawal2 (some 12000000) (some [(2, Sample.bval 2)]) Sample.viewLogs o.cfg o.st o'.st
          (Sample.addr 2) with
        | .ok (.ok l) => decide (l.map (·.1.status) = [.active])
        | _ => false) &&
      decide ((VMap.get o'.st.vals 2).map (·.status) = some .notSubscribed)) (by decide +kernel)
  simp only [Bool.and_eq_true, decide_eq_true_eq] at h3
  obtain ⟨⟨h3, h4⟩, h5⟩ := h3
  split at h3
  · next l0 hl0 =>
    split at h4
    · next l hl =>
      simp only [decide_eq_true_eq] at h3 h4
      exact ⟨o, o', n, l, l0, h1, h2, hl0, h3, hl, h4, h5⟩
    · cases h4
  · cases h3

end Verif
