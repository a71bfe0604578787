import Verif.Spec.Queue
import Verif.Lemmas.Refine
/-
Subscriptions of different validators, bans and unbans do the same in any order.
-/
namespace Verif
open VMap

/-! ### The shuffles -/

theorem Queued.perm_aux {α : Type} {key : α → Nat} {a : α} {l l' : List α} (h : Queued key (a :: l) l') :
    ∃ A B, l' = A ++ a :: B ∧ (∀ x ∈ A, key x ≠ key a) ∧ Queued key l (A ++ B) := by
  have h1 := h (key a)
  rw [List.filter_cons_of_pos (by simp)] at h1
  obtain ⟨A, B, rfl, hA, _, hB⟩ := List.filter_eq_cons_iff.mp h1.symm
  have hA : ∀ x ∈ A, key x ≠ key a := fun x hx => by simpa using hA x hx
  refine ⟨A, B, rfl, hA, fun i => ?_⟩
  by_cases hi : key a = i
  · subst hi
    have hn : A.filter (fun x => key x = key a) = [] := List.filter_eq_nil_iff.mpr (by simpa using hA)
    rw [List.filter_append, hn, List.nil_append]
    exact hB.symm
  · have := h i
    rw [List.filter_cons_of_neg (by simpa using hi), List.filter_append, List.filter_cons_of_neg (by simpa using hi)] at this
    rw [List.filter_append, this]

theorem Queued.nil_eq {α : Type} {key : α → Nat} {l' : List α} (h : Queued key [] l') : l' = [] := by
  cases l' with
  | nil => rfl
  | cons a l =>
    have := h (key a)
    simp at this

theorem Queued.perm {α : Type} {key : α → Nat} {l l' : List α} (h : Queued key l l') : l.Perm l' := by
  induction l generalizing l' with
  | nil => rw [h.nil_eq]
  | cons a l ih =>
    obtain ⟨A, B, rfl, _, hq⟩ := h.perm_aux
    exact (List.Perm.cons a (ih hq)).trans List.perm_middle.symm

/-! ### Subscriptions -/

/-- an operation on the validators that reads and writes only validator `i` -/
structure LocalAt (i : Nat) (F : VMap → VMap) : Prop where
  sorted : ∀ m, Sorted m → Sorted (F m)
  other : ∀ m j, j ≠ i → get (F m) j = get m j
  self : ∀ m m', get m i = get m' i → get (F m) i = get (F m') i

theorem LocalAt.id (i : Nat) : LocalAt i fun m => m := ⟨fun _ h => h, fun _ _ _ => rfl, fun _ _ h => h⟩

theorem LocalAt.modify (i : Nat) (g : Validator → Validator) : LocalAt i fun m => VMap.modify m i g :=
  ⟨fun _ h => h.modify _ _, fun m j h => get_modify_ne m g h, fun m m' h => by
    rw [get_modify_self, get_modify_self, h]⟩

theorem LocalAt.insert (i : Nat) (v : Validator) : LocalAt i fun m => VMap.insert m i v :=
  ⟨fun _ h => h.insert _ _, fun m j h => by rw [get_insert, if_neg h], fun m m' h => by
    rw [get_insert, get_insert, if_pos rfl, if_pos rfl]⟩

theorem LocalAt.comp {i : Nat} {F G : VMap → VMap} (hF : LocalAt i F) (hG : LocalAt i G) : LocalAt i fun m => G (F m) :=
  ⟨fun m h => hG.1 _ (hF.1 m h), fun m j h => (hG.2 _ j h).trans (hF.2 m j h), fun m m' h => hG.3 _ _ (hF.3 m m' h)⟩

theorem LocalAt.comm {i j : Nat} (hij : i ≠ j) {F G : VMap → VMap} (hF : LocalAt i F) (hG : LocalAt j G) {m : VMap}
    (hs : Sorted m) : G (F m) = F (G m) := by
  refine VMap.ext (hG.1 _ (hF.1 _ hs)) (hF.1 _ (hG.1 _ hs)) fun k => ?_
  by_cases hk : k = i
  · subst hk
    rw [hG.2 _ _ hij]
    exact hF.3 _ _ (hG.2 _ _ hij).symm
  · rw [hF.2 _ _ hk]
    by_cases hk' : k = j
    · subst hk'
      exact hG.3 _ _ (hF.2 _ _ hk)
    · rw [hG.2 _ _ hk', hG.2 _ _ hk', hF.2 _ _ hk]

/-- what a subscription does depends on the record of its validator and on the collateral asked only -/
theorem subOne_at {s s' : State} {ev : SubEvent} {val : Option BVal} (h : subOne s ev val = .ok s') :
    ∃ (F : VMap → VMap) (f : Int), LocalAt ev.validatorId F ∧
      ∀ t : State, get t.vals ev.validatorId = get s.vals ev.validatorId → t.collateral = s.collateral →
        subOne t ev val = .ok { t with vals := F t.vals, poolFees := t.poolFees + f } := by
  have acc : ∀ {u : Validator}, get s.vals ev.validatorId = some u →
      ∃ (F : VMap → VMap) (f : Int), LocalAt ev.validatorId F ∧
      ∀ t : State, get t.vals ev.validatorId = get s.vals ev.validatorId → t.collateral = s.collateral →
        t.incAccumulated ev.validatorId ev.collateral = .ok { t with vals := F t.vals, poolFees := t.poolFees + f } := by
    intro u hu
    refine ⟨_, 0, .modify _ fun v => { v with acc := v.acc + ev.collateral }, fun t ht _ => ?_⟩
    unfold State.incAccumulated State.isTracked
    rw [ht, hu, Int.add_zero]
    rfl
  unfold subOne at h ⊢
  cases val with
  | none => exact ⟨_, ev.collateral, .id _, fun t _ _ => rfl⟩
  | some v =>
    dsimp only at h ⊢
    by_cases h1 : ev.validatorId ≠ v.index
    · rw [if_pos h1] at h; cases h
    simp only [if_neg h1] at h ⊢
    by_cases h2 : (!canSubscribe v.status) = true
    · simp only [if_pos h2]; exact ⟨_, ev.collateral, .id _, fun t _ _ => rfl⟩
    simp only [if_neg h2] at h ⊢
    cases h3 : compatAddressByte v.creds with
    | none => exact ⟨_, ev.collateral, .id _, fun t _ _ => rfl⟩
    | some w =>
      rw [h3] at h
      dsimp only at h ⊢
      cases h4 : equals ev.sender w with
      | error e => rw [h4] at h; cases h
      | ok ok =>
        rw [h4] at h
        simp only [bind, Except.bind] at h ⊢
        by_cases h5 : (!ok) = true
        · simp only [if_pos h5]; exact ⟨_, ev.collateral, .id _, fun t _ _ => rfl⟩
        simp only [if_neg h5] at h ⊢
        have same : ∀ t : State, get t.vals ev.validatorId = get s.vals ev.validatorId → t.collateral = s.collateral →
            t.isBanned ev.validatorId = s.isBanned ev.validatorId ∧
            t.isSubscribed ev.validatorId = s.isSubscribed ev.validatorId ∧
            t.isTracked ev.validatorId = s.isTracked ev.validatorId ∧
            t.collateralEnough ev.collateral = s.collateralEnough ev.collateral := by
          intro t ht hc
          unfold State.isBanned State.isSubscribed State.isTracked State.collateralEnough
          rw [ht, hc]
          exact ⟨rfl, rfl, rfl, rfl⟩
        cases h6 : s.isBanned ev.validatorId with
        | true =>
          obtain ⟨u, hu⟩ : ∃ u, get s.vals ev.validatorId = some u := by
            unfold State.isBanned at h6
            cases hg : get s.vals ev.validatorId with
            | none => rw [hg] at h6; cases h6
            | some u => exact ⟨u, rfl⟩
          obtain ⟨F, f, hF, hk⟩ := acc hu
          refine ⟨F, f, hF, fun t ht hc => ?_⟩
          rw [(same t ht hc).1, h6, if_pos rfl]
          exact hk t ht hc
        | false =>
        cases h7 : s.isSubscribed ev.validatorId with
        | true =>
          obtain ⟨u, hu⟩ : ∃ u, get s.vals ev.validatorId = some u := by
            unfold State.isSubscribed at h7
            cases hg : get s.vals ev.validatorId with
            | none => rw [hg] at h7; cases h7
            | some u => exact ⟨u, rfl⟩
          obtain ⟨F, f, hF, hk⟩ := acc hu
          refine ⟨F, f, hF, fun t ht hc => ?_⟩
          rw [(same t ht hc).1, h6, (same t ht hc).2.1, h7, if_neg Bool.false_ne_true, if_pos rfl]
          exact hk t ht hc
        | false =>
        cases h8 : s.collateralEnough ev.collateral with
        | false =>
          refine ⟨_, ev.collateral, .id _, fun t ht hc => ?_⟩
          obtain ⟨k1, k2, k3, k4⟩ := same t ht hc
          rw [k1, k2, k4, h6, h7, h8]
          rfl
        | true =>
        cases h9 : s.isTracked ev.validatorId with
        | false =>
          refine ⟨_, 0, (((LocalAt.insert _
              { status := .notSubscribed, acc := 0, pend := 0, coll := ev.collateral,
                waddr := w, index := ev.validatorId, key := hexutilEncode v.pubkey, subType := .manual }).comp
              (.modify _ fun v => { v with subType := .manual })).comp
              (.modify _ fun v => { v with pend := v.pend + ev.collateral })).comp
              (.modify _ fun v => { v with status := transition v.status .manualSubscription }), fun t ht hc => ?_⟩
          obtain ⟨k1, k2, k3, k4⟩ := same t ht hc
          rw [k1, k2, k3, k4, h6, h7, h8, h9, Int.add_zero]
          simp [State.setSubType, State.putVal, State.modVal, State.incPending, State.isTracked, State.advance,
            get_insert, get_modify_self]
        | true =>
          obtain ⟨u, hu⟩ : ∃ u, get s.vals ev.validatorId = some u := Option.isSome_iff_exists.mp h9
          refine ⟨_, 0, ((LocalAt.modify _ fun v => { v with subType := .manual }).comp
              (.modify _ fun v => { v with pend := v.pend + ev.collateral })).comp
              (.modify _ fun v => { v with status := transition v.status .manualSubscription }), fun t ht hc => ?_⟩
          obtain ⟨k1, k2, k3, k4⟩ := same t ht hc
          rw [k1, k2, k3, k4, h6, h7, h8, h9, Int.add_zero]
          simp [State.setSubType, State.modVal, State.incPending, State.isTracked, State.advance,
            get_modify_self, ht, hu]

theorem subOne_sorted {s s' : State} {ev : SubEvent} {val : Option BVal} (hs : Sorted s.vals)
    (h : subOne s ev val = .ok s') : Sorted s'.vals := by
  obtain ⟨F, f, hF, hk⟩ := subOne_at h
  rw [hk s rfl rfl] at h
  cases h
  exact hF.1 _ hs

/-- two subscriptions of different validators do the same in either order -/
theorem subOne_comm {s s1 s2 : State} {p q : SubEvent × Option BVal} (hs : Sorted s.vals)
    (hpq : p.1.validatorId ≠ q.1.validatorId) (h1 : subOne s p.1 p.2 = .ok s1) (h2 : subOne s1 q.1 q.2 = .ok s2) :
    ∃ s3, subOne s q.1 q.2 = .ok s3 ∧ subOne s3 p.1 p.2 = .ok s2 := by
  obtain ⟨F, f, hF, hk1⟩ := subOne_at h1
  obtain ⟨G, g, hG, hk2⟩ := subOne_at h2
  have e1 := hk1 s rfl rfl
  rw [h1, Except.ok.injEq] at e1
  have e2 := hk2 s1 rfl rfl
  rw [h2, Except.ok.injEq] at e2
  have n1 : get s.vals q.1.validatorId = get s1.vals q.1.validatorId := by rw [e1]; exact (hF.2 _ _ hpq.symm).symm
  refine ⟨_, hk2 s n1 (by rw [e1]), ?_⟩
  rw [hk1 { s with vals := G s.vals, poolFees := s.poolFees + g } (hG.2 _ _ hpq) rfl, e2, e1]
  dsimp only
  rw [hF.comm hpq hG hs, Int.add_right_comm]

theorem subLoop_front {p : SubEvent × Option BVal} {A B : List (SubEvent × Option BVal)}
    (hA : ∀ x ∈ A, x.1.validatorId ≠ p.1.validatorId) {s s' : State} (hs : Sorted s.vals)
    (h : subLoop (p :: (A ++ B)) s = .ok s') : subLoop (A ++ p :: B) s = .ok s' := by
  induction A generalizing s with
  | nil => exact h
  | cons q A ih =>
    obtain ⟨pe, pv⟩ := p
    obtain ⟨qe, qv⟩ := q
    simp only [List.cons_append, subLoop, bind_ok] at h ⊢
    obtain ⟨s1, h1, s2, h2, h3⟩ := h
    obtain ⟨s3, k1, k2⟩ := subOne_comm (p := (pe, pv)) (q := (qe, qv)) hs (hA _ (by simp)).symm h1 h2
    refine ⟨s3, k1, ih (fun x hx => hA x (by simp [hx])) (subOne_sorted hs k1) ?_⟩
    simp only [subLoop, bind_ok]
    exact ⟨s2, k2, h3⟩

theorem subLoop_queued {l l' : List (SubEvent × Option BVal)} (hl : Queued (fun p => p.1.validatorId) l l')
    {s s' : State} (hs : Sorted s.vals) (h : subLoop l s = .ok s') : subLoop l' s = .ok s' := by
  induction l generalizing l' s with
  | nil => rw [hl.nil_eq]; exact h
  | cons p l ih =>
    obtain ⟨A, B, rfl, hA, hq⟩ := hl.perm_aux
    refine subLoop_front hA hs ?_
    obtain ⟨pe, pv⟩ := p
    simp only [subLoop, bind_ok] at h ⊢
    obtain ⟨s1, h1, h2⟩ := h
    exact ⟨s1, h1, ih hq (subOne_sorted hs h1) h2⟩

/-! ### Bans and unbans -/

/-- one ban -/
def banBy (i : Nat) (z : State × Int) : State × Int :=
  if !z.1.isSubscribed i then z
  else ({ z.1 with vals := VMap.modify z.1.vals i fun v => { v with status := transition v.status .manualBan, pend := 0 } },
    z.2 + ((get z.1.vals i).map (·.pend)).getD 0)

theorem banLoop_fold {l : List BanEvent} {s : State} {t : Int} :
    banLoop l s t = .ok (l.foldl (fun z ev => banBy ev.validatorId z) (s, t)) := by
  induction l generalizing s t with
  | nil => rfl
  | cons ev l ih =>
    unfold banLoop
    rw [List.foldl_cons]
    unfold banBy
    dsimp only
    by_cases h : (!s.isSubscribed ev.validatorId) = true
    · rw [if_pos h, if_pos h]; exact ih
    · rw [if_neg h, if_neg h]
      have hk : ∃ v, get s.vals ev.validatorId = some v := by
        unfold State.isSubscribed at h
        cases hg : get s.vals ev.validatorId with
        | none => rw [hg] at h; simp at h
        | some v => exact ⟨v, rfl⟩
      obtain ⟨v, hv⟩ := hk
      simp only [State.advance, State.modVal, State.pendOf, State.resetPending, State.isTracked, get_modify_self, hv,
        Option.map_some, Option.isSome_some, if_true, bind, Except.bind, Option.getD_some]
      rw [ih]
      congr 3
      rw [modify_modify]

theorem banBy_comm (i j : Nat) (z : State × Int) : banBy i (banBy j z) = banBy j (banBy i z) := by
  by_cases hij : i = j
  · rw [hij]
  obtain ⟨s, t⟩ := z
  have key : ∀ {i j : Nat} (_ : i ≠ j) (f : Validator → Validator),
      ({ s with vals := VMap.modify s.vals j f } : State).isSubscribed i = s.isSubscribed i := fun h f => by
    unfold State.isSubscribed
    dsimp only
    rw [get_modify_ne _ _ h]
  unfold banBy
  dsimp only
  cases h1 : s.isSubscribed i <;> cases h2 : s.isSubscribed j <;>
    simp [h1, h2, key hij, key (Ne.symm hij), get_modify_ne _ _ hij, get_modify_ne _ _ (Ne.symm hij), Int.add_right_comm]
  exact modify_comm _ _ _ (Ne.symm hij)

theorem banLoop_perm {l l' : List BanEvent} (hl : l.Perm l') (s : State) (t : Int) :
    banLoop l s t = banLoop l' s t := by
  rw [banLoop_fold, banLoop_fold]
  congr 1
  exact hl.foldl_eq' (fun x _ y _ z => (banBy_comm _ _ _).symm) _

theorem unbanned_perm {l l' : List BanEvent} (hl : l.Perm l') (m : VMap) : unbanned m l = unbanned m l' := by
  unfold unbanned
  refine List.map_congr_left fun p _ => ?_
  have : (∃ ev ∈ l, ev.validatorId = p.1) ↔ (∃ ev ∈ l', ev.validatorId = p.1) := by simp only [hl.mem_iff]
  by_cases h : p.2.status = .banned ∧ ∃ ev ∈ l, ev.validatorId = p.1
  · rw [if_pos h, if_pos ⟨h.1, this.mp h.2⟩]
  · rw [if_neg h, if_neg fun k => h ⟨k.1, this.mpr k.2⟩]

theorem unbanLoop_perm {l l' : List BanEvent} (hl : l.Perm l') {s : State} (hs : Sorted s.vals) :
    unbanLoop l s = unbanLoop l' s := by
  rw [unbanLoop_eq hs, unbanLoop_eq hs, unbanned_perm hl]

end Verif
