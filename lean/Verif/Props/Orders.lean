import Verif.Spec.Orders
import Verif.Props.Refinement
/-
C99: the orders of one block and the order in which they count.
-/
namespace Verif
open VMap

/-! ### What the stages of a slot do to the status -/

theorem statusOf_shares {E : Env} {net : Str} {s s' : State} {r : Int} (h : Shares E net s r s') (i : Nat) :
    statusOf s' i = statusOf s i := by
  obtain ⟨share, _, h⟩ := h
  have hv : s'.vals = _ := congrArg State.vals h
  unfold statusOf
  rw [hv]
  dsimp only
  induction s.vals with
  | nil => rfl
  | cons p m ih =>
    obtain ⟨k, v⟩ := p
    simp only [List.map_cons, VMap.get]
    by_cases hk : k = i
    · simp only [hk, if_true]; split <;> rfl
    · simp only [hk, if_false]; exact ih

theorem statusOf_modify {s : State} {k i : Nat} {f : Validator → Validator} :
    statusOf { s with vals := modify s.vals k f } i =
      if i = k then ((VMap.get s.vals k).map fun v => (f v).status).getD .notSubscribed else statusOf s i := by
  unfold statusOf
  dsimp only
  rw [get_modify]
  by_cases h : i = k
  · subst h; simp only [if_true]; cases VMap.get s.vals i <;> rfl
  · simp only [h, if_false]

theorem statusOf_some {s : State} {i : Nat} {v : Validator} (h : VMap.get s.vals i = some v) :
    statusOf s i = v.status := by unfold statusOf; rw [h]

theorem statusOf_none {s : State} {i : Nat} (h : VMap.get s.vals i = none) : statusOf s i = .notSubscribed := by
  unfold statusOf; rw [h]

/-- the orders among subscription events -/
noncomputable def joinOrders (coll : Int) (i : Nat) (l : List (SubEvent × Option BVal)) : List Order :=
  l.filterMap fun p => PoolLog.order coll i (.sub p.1 p.2)
noncomputable def leaveOrders (i : Nat) (l : List (UnsubEvent × Option BVal)) : List Order :=
  l.filterMap fun p => PoolLog.order 0 i (.unsub p.1 p.2)
noncomputable def banOrders (i : Nat) (l : List BanEvent) : List Order :=
  l.filterMap fun e => PoolLog.order 0 i (.ban e)
noncomputable def unbanOrders (i : Nat) (l : List BanEvent) : List Order :=
  l.filterMap fun e => PoolLog.order 0 i (.unban e)

def obeyAll (st : Status) (l : List Order) : Status := l.foldl obey st

theorem obeyAll_append (st : Status) (l l' : List Order) : obeyAll st (l ++ l') = obeyAll (obeyAll st l) l' :=
  List.foldl_append ..

theorem obeyAll_opt (st : Status) (x : Option Order) (l : List Order) :
    obeyAll st (x.toList ++ l) = obeyAll (match x with | some o => obey st o | none => st) l := by
  cases x <;> rfl

theorem filterMap_toList {α β : Type} (f : α → Option β) (a : α) (l : List α) :
    (a :: l).filterMap f = (f a).toList ++ l.filterMap f := by
  simp only [List.filterMap_cons]
  cases f a <;> rfl

theorem order_sub {c : Int} {i : Nat} {ev : SubEvent} {val : Option BVal}
    (h : ev.validatorId = i ∧ (∃ v w, ByOwner ev val v w) ∧ c ≤ ev.collateral) :
    PoolLog.order c i (.sub ev val) = some .join := by
  simp only [PoolLog.order]; exact if_pos h

theorem order_sub_none {c : Int} {i : Nat} {ev : SubEvent} {val : Option BVal}
    (h : ¬ (ev.validatorId = i ∧ (∃ v w, ByOwner ev val v w) ∧ c ≤ ev.collateral)) :
    PoolLog.order c i (.sub ev val) = none := by
  simp only [PoolLog.order]; exact if_neg h

theorem order_unsub {c : Int} {i : Nat} {ev : UnsubEvent} {val : Option BVal}
    (h : ev.validatorId = i ∧ ByOwnerUnsub ev val) : PoolLog.order c i (.unsub ev val) = some .leave := by
  simp only [PoolLog.order]; exact if_pos h

theorem order_unsub_none {c : Int} {i : Nat} {ev : UnsubEvent} {val : Option BVal}
    (h : ¬ (ev.validatorId = i ∧ ByOwnerUnsub ev val)) : PoolLog.order c i (.unsub ev val) = none := by
  simp only [PoolLog.order]; exact if_neg h

theorem order_ban {c : Int} {i : Nat} {ev : BanEvent} :
    PoolLog.order c i (.ban ev) = if ev.validatorId = i then some .ban else none := by
  simp only [PoolLog.order]

theorem order_unban {c : Int} {i : Nat} {ev : BanEvent} :
    PoolLog.order c i (.unban ev) = if ev.validatorId = i then some .unban else none := by
  simp only [PoolLog.order]

theorem statusOf_sub {s s' : State} {ev : SubEvent} {val : Option BVal} (h : SubEffect s ev val s') (i : Nat) :
    s'.collateral = s.collateral ∧
    statusOf s' i = match PoolLog.order s.collateral i (.sub ev val) with
      | some o => obey (statusOf s i) o
      | none => statusOf s i := by
  cases h with
  | @fresh v w h1 h2 h3 =>
    refine ⟨rfl, ?_⟩
    by_cases hi : ev.validatorId = i
    · subst hi
      rw [order_sub ⟨rfl, ⟨v, w, h1⟩, h3⟩, statusOf_none h2]
      unfold statusOf; dsimp only; rw [get_insert, if_pos rfl]; rfl
    · rw [order_sub_none (fun h => hi h.1)]
      unfold statusOf; dsimp only; rw [get_insert, if_neg (Ne.symm hi)]
  | @again v w u h1 h2 h3 h4 =>
    refine ⟨rfl, ?_⟩
    rw [statusOf_modify]
    by_cases hi : ev.validatorId = i
    · subst hi
      rw [order_sub ⟨rfl, ⟨v, w, h1⟩, h4⟩, if_pos rfl, h2, statusOf_some h2, h3]; rfl
    · rw [order_sub_none (fun h => hi h.1), if_neg (Ne.symm hi)]
  | @returned v w u h1 h2 h3 =>
    refine ⟨rfl, ?_⟩
    rw [statusOf_modify]
    by_cases hi : ev.validatorId = i
    · subst hi
      rw [if_pos rfl, h2, statusOf_some h2]
      have hn : u.status ≠ .notSubscribed := by
        rcases h3 with (h | h | h) | h <;> rw [h] <;> simp
      by_cases ho : s.collateral ≤ ev.collateral
      · rw [order_sub ⟨rfl, ⟨v, w, h1⟩, ho⟩]; simp [obey, hn]
      · rw [order_sub_none (fun h => ho h.2.2)]; rfl
    · rw [order_sub_none (fun h => hi h.1), if_neg (Ne.symm hi)]
  | notOwner h1 =>
    refine ⟨rfl, ?_⟩
    rw [order_sub_none (fun h => by obtain ⟨_, ⟨v, w, h⟩, _⟩ := h; exact h1 v w h)]
    rfl
  | @tooLittle v w h1 h2 h3 =>
    refine ⟨rfl, ?_⟩
    rw [order_sub_none (fun h => by have := h.2.2; omega)]
    rfl

theorem statusOf_subs {s s' : State} {l} (h : SubEffects s l s') (i : Nat) :
    statusOf s' i = obeyAll (statusOf s i) (joinOrders s.collateral i l) := by
  induction h with
  | nil => rfl
  | cons h1 _ ih =>
    obtain ⟨k1, k2⟩ := statusOf_sub h1 i
    unfold joinOrders at ih ⊢
    rw [filterMap_toList, obeyAll_opt, ih, k1, k2]

theorem statusOf_unsub {E : Env} {net : Str} {s s' : State} {ev : UnsubEvent} {val : Option BVal}
    (h : UnsubEffect E net s ev val s') (i : Nat) :
    statusOf s' i = match PoolLog.order 0 i (.unsub ev val) with
      | some o => obey (statusOf s i) o
      | none => statusOf s i := by
  cases h with
  | @leaves u _ h1 h2 h3 h4 =>
    rw [statusOf_shares h4, statusOf_modify]
    by_cases hi : ev.validatorId = i
    · subst hi
      rw [order_unsub ⟨rfl, h1⟩, if_pos rfl, h2, statusOf_some h2]
      simp [obey, h3]
    · rw [order_unsub_none (fun h => hi h.1), if_neg (Ne.symm hi)]
  | nothing h =>
    by_cases hi : ev.validatorId = i
    · subst hi
      by_cases hb : ByOwnerUnsub ev val
      · rw [order_unsub ⟨rfl, hb⟩]
        rcases h with h | h
        · exact absurd hb h
        · cases hg : VMap.get s.vals ev.validatorId with
          | none => rw [statusOf_none hg]; rfl
          | some u => rw [statusOf_some hg]; simp [obey, h u hg]
      · rw [order_unsub_none (fun h => hb h.2)]
    · rw [order_unsub_none (fun h => hi h.1)]

theorem statusOf_unsubs {E : Env} {net : Str} {s s' : State} {l} (h : UnsubEffects E net s l s') (i : Nat) :
    statusOf s' i = obeyAll (statusOf s i) (leaveOrders i l) := by
  induction h with
  | nil => rfl
  | cons h1 _ ih =>
    unfold leaveOrders at ih ⊢
    rw [filterMap_toList, obeyAll_opt, ih, statusOf_unsub h1]

theorem statusOf_dons {E : Env} {net : Str} {s s' : State} {l} (h : DonEffects E net s l s') (i : Nat) :
    statusOf s' i = statusOf s i := by
  induction h with
  | nil => rfl
  | cons h1 _ ih => rw [ih]; exact statusOf_shares h1 i

theorem statusOf_bans {s s' : State} {l t} (h : BanEffects s l s' t) (i : Nat) :
    statusOf s' i = obeyAll (statusOf s i) (banOrders i l) := by
  induction h with
  | nil => rfl
  | @ban s ev v l s' t h1 h2 _ ih =>
    unfold banOrders at ih ⊢
    rw [filterMap_toList, obeyAll_opt, ih, statusOf_modify, order_ban]
    by_cases hi : ev.validatorId = i
    · subst hi
      rw [if_pos rfl, if_pos rfl, h1, statusOf_some h1]
      simp [obey, h2]
    · rw [if_neg hi, if_neg (Ne.symm hi)]
  | @skip s ev l s' t h1 _ ih =>
    unfold banOrders at ih ⊢
    rw [filterMap_toList, obeyAll_opt, ih, order_ban]
    by_cases hi : ev.validatorId = i
    · subst hi
      rw [if_pos rfl]
      cases hg : VMap.get s.vals ev.validatorId with
      | none => rw [statusOf_none hg]; rfl
      | some u => rw [statusOf_some hg]; simp [obey, h1 u hg]
    · rw [if_neg hi]

theorem obeyAll_unbans (st : Status) (i : Nat) (l : List BanEvent) :
    obeyAll st (unbanOrders i l) = if st = .banned ∧ ∃ ev ∈ l, ev.validatorId = i then .active else st := by
  induction l generalizing st with
  | nil => simp [unbanOrders, obeyAll]
  | cons e l ih =>
    unfold unbanOrders at ih ⊢
    rw [filterMap_toList, obeyAll_opt, ih, order_unban]
    by_cases he : e.validatorId = i
    · simp only [he, if_true, obey]
      by_cases hb : st = .banned
      · simp [hb, he]
      · simp [hb]
    · simp only [he, if_false, List.mem_cons, exists_eq_or_imp, false_or]

theorem statusOf_unbanned {s : State} {l : List BanEvent} (i : Nat) :
    statusOf { s with vals := unbanned s.vals l } i = obeyAll (statusOf s i) (unbanOrders i l) := by
  rw [obeyAll_unbans]
  unfold statusOf unbanned
  dsimp only
  induction s.vals with
  | nil => simp [VMap.get]
  | cons p m ih =>
    obtain ⟨k, v⟩ := p
    simp only [List.map_cons, VMap.get]
    by_cases hk : k = i
    · subst hk
      by_cases hb : v.status = .banned ∧ ∃ ev ∈ l, ev.validatorId = k
      · simp [hb]
      · simp [hb]
    · have h1 : (if v.status = .banned ∧ ∃ ev ∈ l, ev.validatorId = k then (k, { v with status := Status.active })
          else (k, v)).1 = k := by split <;> rfl
      simp only [h1, hk, if_false]
      exact ih

theorem statusOf_proposal {E : Env} {net pool : Str} {b : FullBlock} {s s' : State}
    (h : ProposalEffect E net pool b s s') {i : Nat} (hi : b.dutyIndex ≠ i) : statusOf s' i = statusOf s i := by
  cases h with
  | missed => exact (statusOf_modify (s := s)).trans (if_neg (Ne.symm hi))
  | outsider => rfl
  | elsewhere _ _ _ _ h5 => exact (statusOf_shares h5 i).trans (statusOf_modify.trans (if_neg (Ne.symm hi)))
  | @pays w r sb s2 _ _ _ h4 =>
    have e1 : statusOf { s2 with vals := paidOut s2.vals b.dutyIndex } i = statusOf s2 i :=
      statusOf_modify.trans (if_neg (Ne.symm hi))
    refine Eq.trans e1 ((statusOf_shares h4 i).trans ?_)
    have hg : VMap.get (enrolled s.vals b.dutyIndex w b.dutyKey) i = VMap.get s.vals i := by
      unfold enrolled
      split
      · rw [get_insert, if_neg (Ne.symm hi)]
      · rw [get_modify, if_neg (Ne.symm hi)]
    unfold statusOf
    dsimp only
    rw [hg]
  | noAddress => rfl

/-! ### Sorting orders by kind -/

theorem joins_of_logs {coll : Int} {i : Nat} (logs : List PoolLog) :
    joinOrders coll i (logs.filterMap PoolLog.asSub) =
      (logs.filterMap (PoolLog.order coll i)).filter (· = .join) := by
  unfold joinOrders
  induction logs with
  | nil => rfl
  | cons x l ih =>
    rw [filterMap_toList (PoolLog.order coll i), List.filter_append, ← ih]
    cases x with
    | sub e v =>
      simp only [List.filterMap_cons, PoolLog.asSub, PoolLog.asUnsub]
      by_cases h : e.validatorId = i ∧ (∃ u w, ByOwner e v u w) ∧ coll ≤ e.collateral
      · rw [order_sub h]; rfl
      · rw [order_sub_none h]; rfl
    | unsub e v =>
      by_cases h : e.validatorId = i ∧ ByOwnerUnsub e v
      · rw [order_unsub h]; rfl
      · rw [order_unsub_none h]; rfl
    | ban e => rw [order_ban]; split <;> rfl
    | unban e => rw [order_unban]; split <;> rfl

theorem leaves_of_logs {coll : Int} {i : Nat} (logs : List PoolLog) :
    leaveOrders i (logs.filterMap PoolLog.asUnsub) =
      (logs.filterMap (PoolLog.order coll i)).filter (· = .leave) := by
  unfold leaveOrders
  induction logs with
  | nil => rfl
  | cons x l ih =>
    rw [filterMap_toList (PoolLog.order coll i), List.filter_append, ← ih]
    cases x with
    | sub e v =>
      by_cases h : e.validatorId = i ∧ (∃ u w, ByOwner e v u w) ∧ coll ≤ e.collateral
      · rw [order_sub h]; rfl
      · rw [order_sub_none h]; rfl
    | unsub e v =>
      simp only [List.filterMap_cons, PoolLog.asSub, PoolLog.asUnsub]
      by_cases h : e.validatorId = i ∧ ByOwnerUnsub e v
      · rw [order_unsub h, order_unsub h]; rfl
      · rw [order_unsub_none h, order_unsub_none h]; rfl
    | ban e => rw [order_ban]; split <;> rfl
    | unban e => rw [order_unban]; split <;> rfl

theorem bans_of_logs {coll : Int} {i : Nat} (logs : List PoolLog) :
    banOrders i (logs.filterMap PoolLog.asBan) =
      (logs.filterMap (PoolLog.order coll i)).filter (· = .ban) := by
  unfold banOrders
  induction logs with
  | nil => rfl
  | cons x l ih =>
    rw [filterMap_toList (PoolLog.order coll i), List.filter_append, ← ih]
    cases x with
    | sub e v =>
      by_cases h : e.validatorId = i ∧ (∃ u w, ByOwner e v u w) ∧ coll ≤ e.collateral
      · rw [order_sub h]; rfl
      · rw [order_sub_none h]; rfl
    | unsub e v =>
      by_cases h : e.validatorId = i ∧ ByOwnerUnsub e v
      · rw [order_unsub h]; rfl
      · rw [order_unsub_none h]; rfl
    | ban e =>
      simp only [List.filterMap_cons, order_ban, PoolLog.asBan]
      by_cases h : e.validatorId = i
      · simp only [h, if_true]; rfl
      · simp only [h, if_false]; rfl
    | unban e => rw [order_unban]; split <;> rfl

theorem unbans_of_logs {coll : Int} {i : Nat} (logs : List PoolLog) :
    unbanOrders i (logs.filterMap PoolLog.asUnban) =
      (logs.filterMap (PoolLog.order coll i)).filter (· = .unban) := by
  unfold unbanOrders
  induction logs with
  | nil => rfl
  | cons x l ih =>
    rw [filterMap_toList (PoolLog.order coll i), List.filter_append, ← ih]
    cases x with
    | sub e v =>
      by_cases h : e.validatorId = i ∧ (∃ u w, ByOwner e v u w) ∧ coll ≤ e.collateral
      · rw [order_sub h]; rfl
      · rw [order_sub_none h]; rfl
    | unsub e v =>
      by_cases h : e.validatorId = i ∧ ByOwnerUnsub e v
      · rw [order_unsub h]; rfl
      · rw [order_unsub_none h]; rfl
    | ban e => rw [order_ban]; split <;> rfl
    | unban e =>
      simp only [List.filterMap_cons, order_unban, PoolLog.asUnban]
      by_cases h : e.validatorId = i
      · simp only [h, if_true]; rfl
      · simp only [h, if_false]; rfl

theorem filter_eq_nil_of {l : List Order} {o : Order} (h : ∀ x ∈ l, x ≠ o) : l.filter (· = o) = [] :=
  List.filter_eq_nil_iff.mpr fun x hx => by simpa using h x hx

/-- a list sorted by rank is its subscriptions, its unsubscriptions, its bans and its unbans -/
theorem sorted_split {l : List Order} (h : l.Pairwise fun a b => a.rank ≤ b.rank) :
    l.filter (· = .join) ++ (l.filter (· = .leave) ++ (l.filter (· = .ban) ++ l.filter (· = .unban))) = l := by
  induction l with
  | nil => rfl
  | cons x l ih =>
    rw [List.pairwise_cons] at h
    have e := ih h.2
    cases x with
    | join => simpa using e
    | leave =>
      have h1 : l.filter (· = .join) = [] := filter_eq_nil_of (by intro y hy he; have := h.1 y hy; simp [he, Order.rank] at this)
      rw [h1] at e
      simp [h1] at e ⊢
      exact e
    | ban =>
      have h1 : l.filter (· = .join) = [] := filter_eq_nil_of (by intro y hy he; have := h.1 y hy; simp [he, Order.rank] at this)
      have h2 : l.filter (· = .leave) = [] := filter_eq_nil_of (by intro y hy he; have := h.1 y hy; simp [he, Order.rank] at this)
      rw [h1, h2] at e
      simp [h1, h2] at e ⊢
      exact e
    | unban =>
      have h1 : l.filter (· = .join) = [] := filter_eq_nil_of (by intro y hy he; have := h.1 y hy; simp [he, Order.rank] at this)
      have h2 : l.filter (· = .leave) = [] := filter_eq_nil_of (by intro y hy he; have := h.1 y hy; simp [he, Order.rank] at this)
      have h3 : l.filter (· = .ban) = [] := filter_eq_nil_of (by intro y hy he; have := h.1 y hy; simp [he, Order.rank] at this)
      rw [h1, h2, h3] at e
      simp [h1, h2, h3] at e ⊢
      exact e

theorem statusOf_proposer {E : Env} {net pool : Str} {b : FullBlock} {s s' : State}
    (h : ProposalEffect E net pool b s s') (i : Nat) :
    statusOf s' i = afterProposal b pool i (statusOf s i) := by
  by_cases hi : b.dutyIndex ≠ i
  · rw [statusOf_proposal h hi, afterProposal, if_pos hi]
  · rw [afterProposal, if_neg hi]
    push Not at hi
    subst hi
    cases h with
    | missed h1 h2 h3 h4 =>
      have hp : ¬ PaidPool b pool := by rintro ⟨c, hc, _⟩; rw [h1] at hc; cases hc
      rw [if_neg hp, statusOf_some h2, if_neg (not_not.mpr h3), if_pos h1]
      refine (statusOf_modify (s := s)).trans ?_
      rw [if_pos rfl, h2]; rfl
    | outsider h1 h2 =>
      rw [if_neg h1, if_pos]
      cases hg : VMap.get s.vals b.dutyIndex with
      | none => rw [statusOf_none hg]; simp [Subscribed]
      | some v => rw [statusOf_some hg]; exact h2 v hg
    | elsewhere h1 h2 h3 h4 h5 =>
      rw [if_neg h2, statusOf_some h3, if_neg (not_not.mpr h4), if_neg h1]
      refine (statusOf_shares h5 _).trans (statusOf_modify.trans ?_)
      rw [if_pos rfl, h3]; rfl
    | @pays w r sb s2 h1 h2 _ h4 =>
      rw [if_pos h1, if_pos ⟨w, h2⟩]
      have e1 : statusOf { s2 with vals := paidOut s2.vals b.dutyIndex } b.dutyIndex = statusOf s2 b.dutyIndex := by
        refine statusOf_modify.trans ?_
        rw [if_pos rfl]
        unfold statusOf
        cases VMap.get s2.vals b.dutyIndex <;> rfl
      refine Eq.trans e1 ((statusOf_shares h4 _).trans ?_)
      cases hg : VMap.get s.vals b.dutyIndex with
      | none =>
        rw [statusOf_none hg]
        unfold statusOf enrolled
        dsimp only
        rw [hg]
        dsimp only
        rw [get_insert, if_pos rfl]; rfl
      | some v =>
        rw [statusOf_some hg]
        unfold statusOf enrolled
        dsimp only
        rw [hg]
        dsimp only
        rw [get_modify, if_pos rfl, hg]; rfl
    | noAddress h1 h2 => rw [if_pos h1, if_neg (by rintro ⟨w, hw⟩; exact h2 w hw)]; rfl

/-! ### C99 -/

/-- the status of a validator after everything a slot does before the cleanup -/
theorem statusOf_slot {E : Env} {net pool : Str} {b : FullBlock} {s s' : State} (h : SlotEffect E net pool b s s')
    {logs : List PoolLog} (hl : CarriesLogs b logs) (i : Nat) :
    let orders := logs.filterMap (PoolLog.order s.collateral i)
    statusOf s' i = (orders.filter (· = .leave) ++ (orders.filter (· = .ban) ++ orders.filter (· = .unban))).foldl
      obey (afterProposal b pool i ((orders.filter (· = .join)).foldl obey (statusOf s i))) := by
  intro orders
  obtain ⟨s1, s2, s3, dons, s4, s5, tot, s6, a1, a2, a3, _, a5, a6, a7, a8⟩ := h
  have e6 : statusOf s6 i = statusOf s5 i := by
    rcases a7 with ⟨_, a7⟩ | ⟨_, rfl⟩
    · exact statusOf_shares a7 i
    · rfl
  have e1 := statusOf_subs a1 i
  rw [hl.subs] at e1
  have e3 := statusOf_unsubs a3 i
  rw [hl.unsubs, leaves_of_logs (coll := s.collateral)] at e3
  have e5 := statusOf_bans a6 i
  rw [hl.bans, bans_of_logs (coll := s.collateral)] at e5
  have e7 : statusOf s' i = obeyAll (statusOf s6 i) (unbanOrders i b.events.unbans) := by
    rw [a8]; exact statusOf_unbanned i
  rw [hl.unbans, unbans_of_logs (coll := s.collateral)] at e7
  rw [e7, e6, e5, statusOf_dons a5, e3, statusOf_proposer a2 i, e1]
  rw [joins_of_logs]
  unfold obeyAll
  rw [List.foldl_append, List.foldl_append]

section
variable {E : Env} (hE : ValidEnv E) (hX : ExactEnv E) (hC : NoSelfConsol E)
  {cfg : Config} {bs : List FullBlock} {o o' : Oracle} {b : FullBlock} {n : Nat}
  (h0 : Hist E (newOracle cfg) bs o) (h : advanceState E o b = .ok (o', some n))
include hE hX hC h0 h

/-- **C99**, what the code does, for every validator and the proposer too. In a slot without cleanup the status of a
validator is made by its subscriptions in the block, then by its proposal, then by its unsubscriptions, bans and
unbans, whatever their order in the block. -/
theorem C99_everybody (hg : GasOK b) (hn : n % 1200 ≠ 0) (i : Nat) {logs : List PoolLog} (hl : CarriesLogs b logs) :
    let orders := logs.filterMap (PoolLog.order o.st.collateral i)
    statusOf o'.st i = (orders.filter (· = .leave) ++ (orders.filter (· = .ban) ++ orders.filter (· = .unban))).foldl
      obey (afterProposal b o.cfg.poolAddr i ((orders.filter (· = .join)).foldl obey (statusOf o.st i))) := by
  intro orders
  obtain ⟨s7, s8, hslot, _, k2, _, _, k5⟩ := C60_slot_refines hE hX hC h0 h hg
  have e8 : statusOf o'.st i = statusOf s7 i := by
    have := congrArg (fun q : Oracle => statusOf q.st i) k5
    rw [k2 hn] at this
    exact this
  rw [e8]
  exact statusOf_slot hslot hl i

/-- **C99**, what the code does. In a slot without cleanup, the status of a validator other than the proposer is
exactly what its orders in the block make of it, obeyed kind by kind: subscriptions, unsubscriptions, bans and
unbans, whatever their order in the block. -/
theorem C99_kind_by_kind (hg : GasOK b) (hn : n % 1200 ≠ 0) {i : Nat} (hi : b.dutyIndex ≠ i) {logs : List PoolLog}
    (hl : CarriesLogs b logs) :
    let orders := logs.filterMap (PoolLog.order o.st.collateral i)
    statusOf o'.st i = (orders.filter (· = .join) ++ (orders.filter (· = .leave) ++
      (orders.filter (· = .ban) ++ orders.filter (· = .unban)))).foldl obey (statusOf o.st i) := by
  intro orders
  have e := C99_everybody hE hX hC h0 h hg hn i hl
  dsimp only at e
  rw [afterProposal, if_pos hi] at e
  rw [e, List.foldl_append (l := List.filter (fun x => decide (x = Order.join)) _)]

/-- **C99** (partial). If the orders for a validator in the block come in this order of kinds, the status is what
they make of it one after the other. Missing: orders that come otherwise, see `C99_false_unban_ban` and
`C99_false_leave_join`. -/
theorem C99_in_order_partial (hg : GasOK b) (hn : n % 1200 ≠ 0) {i : Nat} (hi : b.dutyIndex ≠ i) {logs : List PoolLog}
    (hl : CarriesLogs b logs)
    (ho : (logs.filterMap (PoolLog.order o.st.collateral i)).Pairwise fun a b => a.rank ≤ b.rank) :
    statusOf o'.st i = (logs.filterMap (PoolLog.order o.st.collateral i)).foldl obey (statusOf o.st i) := by
  have := C99_kind_by_kind hE hX hC h0 h hg hn hi hl
  dsimp only at this
  rw [sorted_split ho] at this
  exact this

end

namespace Sample

/-- validator 1 pays the pool; the contract bans validator 2 -/
def bans2 : FullBlock :=
  prop 12000001 1 builder (tx builder pool 5000) { ether := [⟨5000, pool, 100⟩], bans := [⟨2, 100⟩] }

/-- the contract unbans validator 2 and bans it again -/
def unbansBans2 : FullBlock :=
  prop 12000002 1 builder (tx builder pool 5000)
    { ether := [⟨5000, pool, 100⟩], bans := [⟨2, 100⟩], unbans := [⟨2, 100⟩] }

/-- the owner of validator 2 unsubscribes it and subscribes it again -/
def leavesJoins2 : FullBlock :=
  { prop 12000001 1 builder (tx builder pool 5000)
      { ether := [⟨5000, pool, 100⟩], unsubs := [⟨2, addr 2, 100⟩], subs := [⟨2, 1000, addr 2, 100⟩] } with
    valsSubs := [some (bval 2)], valsUnsubs := [some (bval 2)] }

theorem joins2 : ∃ v w, ByOwner ⟨2, 1000, addr 2, 100⟩ (some (bval 2)) v w :=
  ⟨bval 2, addr 2, rfl, rfl, Or.inr (Or.inr rfl), hasAddress 2, same _⟩

theorem leaves2 : ByOwnerUnsub ⟨2, addr 2, 100⟩ (some (bval 2)) := ⟨bval 2, addr 2, rfl, rfl, hasAddress 2, same _⟩

end Sample

/-- **C99 is false as stated.** The contract unbans validator 2 and bans it again in the same block. The oracle
obeys the ban first, which does nothing, and then the unban: the validator takes part although the last word of the
contract was a ban. -/
theorem C99_false_unban_ban : ∃ o o' n, Hist Sample.env (newOracle Sample.cfg) [Sample.b0, Sample.bans2] o ∧
    advanceState Sample.env o Sample.unbansBans2 = .ok (o', some n) ∧ n % 1200 ≠ 0 ∧
    CarriesLogs Sample.unbansBans2 [.unban ⟨2, 100⟩, .ban ⟨2, 100⟩] ∧
    statusOf o.st 2 = .banned ∧
    ([PoolLog.unban ⟨2, 100⟩, .ban ⟨2, 100⟩].filterMap (PoolLog.order o.st.collateral 2)).foldl obey .banned =
      .banned ∧
    statusOf o'.st 2 = .active := by
  obtain ⟨o, o', n, h1, h2, h3⟩ := Sample.ex_then (E := Sample.env) (o := newOracle Sample.cfg)
    (bs := [Sample.b0, Sample.bans2]) (b := Sample.unbansBans2)
    (P := fun o o' n => decide (n = 12000002 ∧ statusOf o.st 2 = .banned ∧ statusOf o'.st 2 = .active))
    (by decide +kernel)
  obtain ⟨rfl, h4, h5⟩ := of_decide_eq_true h3
  refine ⟨o, o', _, h1, h2, by decide, ⟨rfl, rfl, rfl, rfl⟩, h4, ?_, h5⟩
  simp [order_ban, order_unban, obey, Subscribed]

/-- **C99 is false as stated.** The owner of validator 2 unsubscribes it and subscribes it again, with the collateral,
in the same block. The oracle subscribes first and unsubscribes then: the validator is not subscribed. -/
theorem C99_false_leave_join : ∃ o o' n, Hist Sample.env (newOracle Sample.cfg) [Sample.b0] o ∧
    advanceState Sample.env o Sample.leavesJoins2 = .ok (o', some n) ∧ n % 1200 ≠ 0 ∧
    CarriesLogs Sample.leavesJoins2
      [.unsub ⟨2, Sample.addr 2, 100⟩ (some (Sample.bval 2)), .sub ⟨2, 1000, Sample.addr 2, 100⟩ (some (Sample.bval 2))] ∧
    statusOf o.st 2 = .active ∧
    ([PoolLog.unsub ⟨2, Sample.addr 2, 100⟩ (some (Sample.bval 2)),
      .sub ⟨2, 1000, Sample.addr 2, 100⟩ (some (Sample.bval 2))].filterMap
        (PoolLog.order o.st.collateral 2)).foldl obey .active = .active ∧
    statusOf o'.st 2 = .notSubscribed := by
  obtain ⟨o, o', n, h1, h2, h3⟩ := Sample.ex_then (E := Sample.env) (o := newOracle Sample.cfg)
    (bs := [Sample.b0]) (b := Sample.leavesJoins2)
    (P := fun o o' n => decide (n = 12000001 ∧ statusOf o.st 2 = .active ∧ statusOf o'.st 2 = .notSubscribed ∧
      o.st.collateral = 1000)) (by decide +kernel)
  obtain ⟨rfl, h4, h5, h6⟩ := of_decide_eq_true h3
  refine ⟨o, o', _, h1, h2, by decide, ⟨rfl, rfl, rfl, rfl⟩, h4, ?_, h5⟩
  rw [h6]
  rw [filterMap_toList, filterMap_toList, order_unsub ⟨rfl, Sample.leaves2⟩, order_sub ⟨rfl, Sample.joins2, le_refl _⟩]
  rfl

/-- the hypotheses of `C99_kind_by_kind` and of `C99_in_order_partial` are met: validator 1 proposes, validator 2 is
banned -/
example : ∃ o o' n, ValidEnv Sample.env ∧ ExactEnv Sample.env ∧ NoSelfConsol Sample.env ∧
    Hist Sample.env (newOracle Sample.cfg) [Sample.b0] o ∧
    advanceState Sample.env o Sample.bans2 = .ok (o', some n) ∧ GasOK Sample.bans2 ∧ n % 1200 ≠ 0 ∧
    Sample.bans2.dutyIndex ≠ 2 ∧ CarriesLogs Sample.bans2 [.ban ⟨2, 100⟩] ∧
    ([PoolLog.ban ⟨2, 100⟩].filterMap (PoolLog.order o.st.collateral 2)).Pairwise (fun a b => a.rank ≤ b.rank) ∧
    statusOf o.st 2 = .active ∧ statusOf o'.st 2 = .banned := by
  obtain ⟨o, o', n, h1, h2, h3⟩ := Sample.ex_then (E := Sample.env) (o := newOracle Sample.cfg)
    (bs := [Sample.b0]) (b := Sample.bans2)
    (P := fun o o' n => decide (n = 12000001 ∧ statusOf o.st 2 = .active ∧ statusOf o'.st 2 = .banned))
    (by decide +kernel)
  obtain ⟨rfl, h4, h5⟩ := of_decide_eq_true h3
  refine ⟨o, o', _, Sample.env_valid, Sample.env_exact, Sample.env_noSelf, h1, h2, Sample.prop_gas, by decide, by decide,
    ⟨rfl, rfl, rfl, rfl⟩, ?_, h4, h5⟩
  simp [order_ban]

/-- The hypotheses of `C99_everybody` hold for the proposer 1 of a block: it misses the slot and has a card. -/
example : ∃ o o' n, ValidEnv Sample.env ∧ ExactEnv Sample.env ∧ NoSelfConsol Sample.env ∧
    Hist Sample.env (newOracle Sample.cfg) [Sample.b0] o ∧
    advanceState Sample.env o (Sample.miss 12000001 1) = .ok (o', some n) ∧ GasOK (Sample.miss 12000001 1) ∧
    n % 1200 ≠ 0 ∧ CarriesLogs (Sample.miss 12000001 1) [] ∧
    statusOf o.st 1 = .active ∧ statusOf o'.st 1 = .yellowCard := by
  obtain ⟨o, o', n, h1, h2, h3⟩ := Sample.ex_then (E := Sample.env) (o := newOracle Sample.cfg)
    (bs := [Sample.b0]) (b := Sample.miss 12000001 1)
    (P := fun o o' n => decide (n = 12000001 ∧ statusOf o.st 1 = .active ∧ statusOf o'.st 1 = .yellowCard))
    (by decide +kernel)
  obtain ⟨rfl, h4, h5⟩ := of_decide_eq_true h3
  exact ⟨o, o', _, Sample.env_valid, Sample.env_exact, Sample.env_noSelf, h1, h2, (by intro c h rs hc; cases hc), by decide,
    ⟨rfl, rfl, rfl, rfl⟩, h4, h5⟩

end Verif
