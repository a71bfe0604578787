import Verif.Model.Api
import Verif.Spec.Api
import Verif.Spec.SampleFacts
import Verif.Lemmas.Effects
import Verif.Props.Refinement
/-
C47: the view of not yet finalized events.
-/
namespace Verif
open VMap

/-! ### The blocks of the events -/

theorem mem_addBlock {l : List Nat} {b x : Nat} : x ∈ addBlock l b ↔ x ∈ l ∨ x = b := by
  unfold addBlock
  split
  · next h =>
    simp only [List.any_eq_true, beq_iff_eq, exists_eq_right] at h
    exact ⟨Or.inl, fun k => k.elim id (· ▸ h)⟩
  · simp

theorem nodup_addBlock {l : List Nat} {b : Nat} (hl : l.Nodup) : (addBlock l b).Nodup := by
  unfold addBlock
  split
  · exact hl
  · next h =>
    simp only [List.any_eq_true, beq_iff_eq, exists_eq_right] at h
    rw [List.nodup_append]
    exact ⟨hl, by simp, by simpa using fun a ha (k : a = b) => h (k ▸ ha)⟩

theorem foldl_addBlock (xs l : List Nat) (hl : l.Nodup) :
    (xs.foldl addBlock l).Nodup ∧ ∀ x, x ∈ xs.foldl addBlock l ↔ x ∈ l ∨ x ∈ xs := by
  induction xs generalizing l with
  | nil => simpa using hl
  | cons a xs ih =>
    obtain ⟨h1, h2⟩ := ih (addBlock l a) (nodup_addBlock hl)
    refine ⟨h1, fun x => ?_⟩
    rw [List.foldl_cons, h2, mem_addBlock]
    simp [or_assoc]

theorem eventBlocks_spec (subs : List (SubEvent × Option BVal)) (unsubs : List UnsubEvent) :
    (eventBlocks subs unsubs).Pairwise (· < ·) ∧
    ∀ x, x ∈ eventBlocks subs unsubs ↔ x ∈ subs.map (·.1.block) ∨ x ∈ unsubs.map (·.block) := by
  obtain ⟨a1, a2⟩ := foldl_addBlock (subs.map (·.1.block)) [] List.nodup_nil
  obtain ⟨b1, b2⟩ := foldl_addBlock (unsubs.map (·.block)) _ a1
  unfold eventBlocks
  constructor
  · have hs := List.pairwise_mergeSort (le := fun a b : Nat => decide (a ≤ b)) (by simp; omega) (by simp; omega)
      ((unsubs.map (·.block)).foldl addBlock ((subs.map (·.1.block)).foldl addBlock []))
    have hn := (List.mergeSort_perm ((unsubs.map (·.block)).foldl addBlock
      ((subs.map (·.1.block)).foldl addBlock [])) (fun a b : Nat => decide (a ≤ b))).nodup_iff.mpr b1
    refine (hs.and hn).imp ?_
    simp only [decide_eq_true_eq]
    omega
  · intro x
    rw [List.mem_mergeSort, b2, a2]
    simp

theorem sorted_ext {l1 l2 : List Nat} (h1 : l1.Pairwise (· < ·)) (h2 : l2.Pairwise (· < ·))
    (h : ∀ x, x ∈ l1 ↔ x ∈ l2) : l1 = l2 := by
  induction l1 generalizing l2 with
  | nil =>
    cases l2 with
    | nil => rfl
    | cons b l2 => exact absurd ((h b).mpr (by simp)) (by simp)
  | cons a l1 ih =>
    cases l2 with
    | nil => exact absurd ((h a).mp (by simp)) (by simp)
    | cons b l2 =>
      rw [List.pairwise_cons] at h1 h2
      have hab : a = b := by
        rcases List.mem_cons.mp ((h a).mp (by simp)) with k | k
        · exact k
        · rcases List.mem_cons.mp ((h b).mpr (by simp)) with k' | k'
          · exact k'.symm
          · have := h2.1 a k; have := h1.1 b k'; omega
      subst hab
      congr 1
      refine ih h1.2 h2.2 fun x => ⟨fun hx => ?_, fun hx => ?_⟩
      · rcases List.mem_cons.mp ((h x).mp (List.mem_cons_of_mem _ hx)) with k | k
        · have := h1.1 x hx; omega
        · exact k
      · rcases List.mem_cons.mp ((h x).mpr (List.mem_cons_of_mem _ hx)) with k | k
        · have := h2.1 x hx; omega
        · exact k

/-- the number of a block with events -/
def numberOf (b : FullBlock) : Option Nat := (eventNumbers b).head?

/-- the API's treatment of the events of each block in turn -/
def perBlock (coll : Int) (cache : Nat → Option BVal) : List FullBlock → VMap → M VMap
  | [], m => .ok m
  | b :: bs, m => do
    let m1 ← apiSubs coll (b.events.subs.map fun e => (e, cache e.validatorId)) m
    let m2 ← apiUnsubs b.events.unsubs m1
    perBlock coll cache bs m2

theorem numberOf_some {b n} (h : ∃ n, ∀ x ∈ eventNumbers b, x = n) (hn : numberOf b = some n) :
    ∀ x ∈ eventNumbers b, x = n := by
  obtain ⟨k, hk⟩ := h
  have := hk n (List.mem_of_mem_head? hn)
  subst this; exact hk

theorem numberOf_none {b} (h : numberOf b = none) : b.events.subs = [] ∧ b.events.unsubs = [] := by
  unfold numberOf eventNumbers at h
  simpa using h

theorem flatMap_filter_block {α β : Type} {f : α → List β} {g : β → Nat} {n : Nat} {l : List α}
    (h : ∀ a ∈ l, ∀ x ∈ f a, g x ≠ n) : (l.flatMap f).filter (fun x => g x == n) = [] := by
  rw [List.filter_eq_nil_iff]
  intro x hx
  obtain ⟨a, ha, hx⟩ := List.mem_flatMap.mp hx
  simpa using h a ha x hx

theorem filter_all {β : Type} {g : β → Nat} {n : Nat} {l : List β}
    (h : ∀ x ∈ l, g x = n) : l.filter (fun x => g x == n) = l := by
  rw [List.filter_eq_self]
  intro x hx; simpa using h x hx

/-- the API applies the events block by block -/
theorem applyNonFinalized_perBlock {coll cache bs m} (ho : InOrder bs) :
    applyNonFinalized coll ((bs.flatMap (·.events.subs)).map fun e => (e, cache e.validatorId))
      (bs.flatMap (·.events.unsubs)) m = perBlock coll cache bs m := by
  have hb : eventBlocks ((bs.flatMap (·.events.subs)).map fun e => (e, cache e.validatorId))
      (bs.flatMap (·.events.unsubs)) = bs.filterMap numberOf := by
    obtain ⟨h1, h2⟩ := eventBlocks_spec ((bs.flatMap (·.events.subs)).map fun e => (e, cache e.validatorId))
      (bs.flatMap (·.events.unsubs))
    refine sorted_ext h1 ?_ ?_
    · rw [List.pairwise_filterMap]
      refine ho.grow.imp ?_
      intro b c hbc x hx y hy
      exact hbc x (List.mem_of_mem_head? hx) y (List.mem_of_mem_head? hy)
    · intro x
      rw [h2, List.mem_filterMap]
      simp only [List.map_map, List.mem_map, List.mem_flatMap, Function.comp]
      constructor
      · rintro (⟨e, ⟨b, hb, he⟩, rfl⟩ | ⟨e, ⟨b, hb, he⟩, rfl⟩)
        · refine ⟨b, hb, ?_⟩
          have hx : e.block ∈ eventNumbers b := List.mem_append_left _ (List.mem_map.mpr ⟨e, he, rfl⟩)
          cases hn : numberOf b with
          | none => rw [(numberOf_none hn).1] at he; simp at he
          | some n => rw [numberOf_some (ho.one b hb) hn _ hx]
        · refine ⟨b, hb, ?_⟩
          have hx : e.block ∈ eventNumbers b := List.mem_append_right _ (List.mem_map.mpr ⟨e, he, rfl⟩)
          cases hn : numberOf b with
          | none => rw [(numberOf_none hn).2] at he; simp at he
          | some n => rw [numberOf_some (ho.one b hb) hn _ hx]
      · rintro ⟨b, hb, hn⟩
        rcases List.mem_append.mp (List.mem_of_mem_head? hn) with k | k
        · obtain ⟨e, he, rfl⟩ := List.mem_map.mp k
          exact Or.inl ⟨e, ⟨b, hb, he⟩, rfl⟩
        · obtain ⟨e, he, rfl⟩ := List.mem_map.mp k
          exact Or.inr ⟨e, ⟨b, hb, he⟩, rfl⟩
  unfold applyNonFinalized
  rw [hb]
  have gen : ∀ post pre m, pre ++ post = bs →
      apiBlocks coll ((bs.flatMap (·.events.subs)).map fun e => (e, cache e.validatorId))
        (bs.flatMap (·.events.unsubs)) (post.filterMap numberOf) m = perBlock coll cache post m := by
    intro post
    induction post with
    | nil => intro pre m _; rfl
    | cons b post ih =>
      intro pre m hbs
      have hih := fun m => ih (pre ++ [b]) m (by rw [← hbs]; simp)
      have hmem : b ∈ bs := by rw [← hbs]; simp
      cases hn : numberOf b with
      | none =>
        obtain ⟨e1, e2⟩ := numberOf_none hn
        rw [List.filterMap_cons, hn]
        dsimp only
        rw [hih m]
        unfold perBlock
        rw [e1, e2]
        cases post <;> rfl
      | some n =>
        have hall := numberOf_some (ho.one b hmem) hn
        have hn0 : n ∈ eventNumbers b := List.mem_of_mem_head? hn
        have hg := ho.grow
        rw [← hbs, List.pairwise_append, List.pairwise_cons] at hg
        obtain ⟨_, ⟨g2, _⟩, g3⟩ := hg
        have hpre : ∀ a ∈ pre, ∀ x ∈ eventNumbers a, x ≠ n := fun a ha x hx => by
          have := g3 a ha b (by simp) x hx n hn0; omega
        have hpost : ∀ a ∈ post, ∀ x ∈ eventNumbers a, x ≠ n := fun a ha x hx => by
          have := g2 a ha n hn0 x hx; omega
        have fs : ((bs.flatMap (·.events.subs)).map fun e => (e, cache e.validatorId)).filter
            (fun p => p.1.block == n) = b.events.subs.map fun e => (e, cache e.validatorId) := by
          rw [List.filter_map]
          congr 1
          show (bs.flatMap (·.events.subs)).filter (fun e => e.block == n) = _
          rw [← hbs, List.flatMap_append, List.flatMap_cons, List.filter_append, List.filter_append,
            flatMap_filter_block fun a ha x hx =>
              hpre a ha _ (List.mem_append_left _ (List.mem_map.mpr ⟨x, hx, rfl⟩)),
            flatMap_filter_block fun a ha x hx =>
              hpost a ha _ (List.mem_append_left _ (List.mem_map.mpr ⟨x, hx, rfl⟩)),
            filter_all fun x hx => hall _ (List.mem_append_left _ (List.mem_map.mpr ⟨x, hx, rfl⟩))]
          simp
        have fu : (bs.flatMap (·.events.unsubs)).filter (fun e => e.block == n) = b.events.unsubs := by
          rw [← hbs, List.flatMap_append, List.flatMap_cons, List.filter_append, List.filter_append,
            flatMap_filter_block fun a ha x hx =>
              hpre a ha _ (List.mem_append_right _ (List.mem_map.mpr ⟨x, hx, rfl⟩)),
            flatMap_filter_block fun a ha x hx =>
              hpost a ha _ (List.mem_append_right _ (List.mem_map.mpr ⟨x, hx, rfl⟩)),
            filter_all fun x hx => hall _ (List.mem_append_right _ (List.mem_map.mpr ⟨x, hx, rfl⟩))]
          simp
        rw [List.filterMap_cons, hn]
        dsimp only
        unfold apiBlocks perBlock
        rw [fs, fu]
        simp only [hih]
  exact gen bs [] m rfl

/-! ### One event -/

/-- both parts of the view; the pending balance only if `full` -/
def Shows (full : Prop) (r : Option Validator) (w : Validator) : Prop :=
  StatusShown r w ∧ (full → PendingShown r w)

theorem Shows.some_of {full u w} (h1 : w.status = u.status) (h2 : full → w.pend = u.pend) :
    Shows full (some u) w :=
  ⟨⟨fun _ h => by cases h; exact h1, by simp⟩, fun hf => ⟨fun _ h => by cases h; exact h2 hf, by simp⟩⟩

theorem Shows.status {full u w} (h : Shows full (some u) w) : w.status = u.status := h.1.1 u rfl

theorem Shows.pend {full u w} (h : Shows full (some u) w) (hf : full) : w.pend = u.pend := (h.2 hf).1 u rfl

/-- an event for another validator -/
theorem apiSub_other {coll m ev val m1} {i : Nat} (h : apiSub coll m ev val = .ok m1)
    (hi : i ≠ ev.validatorId) : VMap.get m1 i = VMap.get m i := by
  unfold apiSub at h
  split at h
  · cases h; rfl
  · simp only [bind_ok] at h
    obtain ⟨same, _, h⟩ := h
    split at h
    · cases h; rfl
    · split at h
      · cases h; rfl
      · split at h
        · cases h
        · split at h
          · cases h; rfl
          · split at h
            · cases h; exact get_modify_ne _ _ hi
            · cases h; rfl

theorem SubEffect.other {s ev val s1} {i : Nat} (h : SubEffect s ev val s1) (hi : i ≠ ev.validatorId) :
    VMap.get s1.vals i = VMap.get s.vals i := by
  cases h with
  | fresh => dsimp only; rw [get_insert, if_neg hi]
  | again => dsimp only; rw [get_modify_ne _ _ hi]
  | returned => dsimp only; rw [get_modify_ne _ _ hi]
  | notOwner => rfl
  | tooLittle => rfl

theorem SubEffect.collateral {s ev val s1} (h : SubEffect s ev val s1) : s1.collateral = s.collateral := by
  cases h <;> rfl

theorem sub_sim {full s ev val s1 m cached m1 i w} (he : SubEffect s ev val s1)
    (hm : VMap.get m i = some w) (hw : Shows full (VMap.get s.vals i) w)
    (ha : ev.validatorId = i → ∃ v a u, val = some v ∧ v.index = i ∧ HasAddress v.creds a ∧
      SameAddr a w.waddr ∧ cached = some u ∧ (Acceptable u.status ↔ Acceptable v.status))
    (h : apiSub s.collateral m ev cached = .ok m1) :
    ∃ w1, VMap.get m1 i = some w1 ∧ w1.waddr = w.waddr ∧ Shows full (VMap.get s1.vals i) w1 := by
  by_cases hi : ev.validatorId = i
  swap
  · exact ⟨w, by rw [apiSub_other h (Ne.symm hi), hm], rfl, by rw [he.other (Ne.symm hi)]; exact hw⟩
  obtain ⟨v, a, u, rfl, hv, hac, hsame, rfl, hacc⟩ := ha hi
  subst hi
  unfold apiSub at h
  rw [hm] at h
  simp only [bind_ok] at h
  obtain ⟨same, hq, h⟩ := h
  have hq' := equals_iff hq
  -- who sent it
  have hown : ∀ v' w', ByOwner ev (some v) v' w' → same = true ∧ canSubscribe u.status = true := by
    rintro v' w' ⟨e, _, k1, k2, k3⟩
    cases e
    refine ⟨hq'.mpr ?_, (canSubscribe_iff _).mpr (hacc.mpr k1)⟩
    have : a = w' := by
      obtain ⟨p1, ad1, _, l1, c1, rfl⟩ := hac
      obtain ⟨p2, ad2, _, l2, c2, rfl⟩ := k2
      rw [c1, List.cons.injEq] at c2
      rw [List.append_cancel_left c2.2]
    subst this
    exact hsame.symm.trans k3.symm
  have hown' : same = true → canSubscribe u.status = true → ByOwner ev (some v) v a := by
    intro h1 h2
    refine ⟨rfl, hv, hacc.mp ((canSubscribe_iff _).mp h2), hac, ?_⟩
    exact (hsame.trans (hq'.mp h1)).symm
  cases he with
  | @fresh v' w' hby hn hc =>
    obtain ⟨k1, k2⟩ := hown _ _ hby
    rw [k1] at h
    rw [hn] at hw
    have hst := hw.1.2 rfl
    rw [if_neg (by simp), if_neg (by omega)] at h
    rw [if_neg (by simp [k2]), if_pos (by simp [hst])] at h
    cases h
    refine ⟨{ w with status := .active, pend := w.pend + ev.collateral },
      by rw [get_modify_self, hm]; rfl, rfl, ?_⟩
    dsimp only
    rw [get_insert, if_pos rfl]
    refine Shows.some_of rfl fun hf => ?_
    have := (hw.2 hf).2 rfl
    dsimp only; omega
  | @again v' w' u' hby hn hs hc =>
    obtain ⟨k1, k2⟩ := hown _ _ hby
    rw [k1] at h
    rw [hn] at hw
    have hst := hw.status
    rw [if_neg (by simp), if_neg (by omega)] at h
    rw [if_neg (by simp [k2]), if_pos (by simp [hst, hs])] at h
    cases h
    refine ⟨{ w with status := .active, pend := w.pend + ev.collateral },
      by rw [get_modify_self, hm]; rfl, rfl, ?_⟩
    dsimp only
    rw [get_modify_self, hn]
    refine Shows.some_of rfl fun hf => ?_
    have := hw.pend hf
    dsimp only; omega
  | @returned v' w' u' hby hn hs =>
    obtain ⟨k1, k2⟩ := hown _ _ hby
    rw [hn] at hw
    have hst := hw.status
    have : m1 = m := by
      rw [k1, if_neg (by simp)] at h
      split at h
      · cases h; rfl
      · rw [if_neg (by simp [k2]), if_neg] at h
        · cases h; rfl
        · rcases hs with (k | k | k) | k <;> simp [hst, k]
    subst this
    refine ⟨w, hm, rfl, ?_⟩
    dsimp only
    rw [get_modify_self, hn]
    exact Shows.some_of hst fun hf => hw.pend hf
  | notOwner hno =>
    have : m1 = m := by
      split at h
      · cases h; rfl
      · next hs =>
        split at h
        · cases h; rfl
        · split at h
          · cases h; rfl
          · next hc =>
            exact absurd (hown' (by simpa using hs) (by simpa using hc)) (hno _ _)
    subst this
    exact ⟨w, hm, rfl, hw⟩
  | tooLittle hby hc _ =>
    have : m1 = m := by
      obtain ⟨k1, _⟩ := hown _ _ hby
      rw [k1, if_neg (by simp), if_pos hc] at h
      cases h; rfl
    subst this
    exact ⟨w, hm, rfl, hw⟩

theorem subs_sim {full s s1 i w owner} {cache : Nat → Option BVal} {evs : List SubEvent} {vals : List (Option BVal)} {m m1}
    (he : SubEffects s (evs.zip vals) s1) (hlen : vals.length = evs.length)
    (hm : VMap.get m i = some w) (ho : w.waddr = owner) (hw : Shows full (VMap.get s.vals i) w)
    (ha : ∀ p ∈ evs.zip vals, p.1.validatorId = i → ∃ v a u, p.2 = some v ∧ v.index = i ∧
      HasAddress v.creds a ∧ SameAddr a owner ∧ cache i = some u ∧
      (Acceptable u.status ↔ Acceptable v.status))
    (h : apiSubs s.collateral (evs.map fun e => (e, cache e.validatorId)) m = .ok m1) :
    ∃ w1, VMap.get m1 i = some w1 ∧ w1.waddr = owner ∧ Shows full (VMap.get s1.vals i) w1 := by
  induction evs generalizing vals s m w with
  | nil =>
    simp only [List.zip_nil_left] at he
    cases he
    cases h
    exact ⟨w, hm, ho, hw⟩
  | cons ev evs ih =>
    cases vals with
    | nil => simp at hlen
    | cons val vals =>
      rw [List.zip_cons_cons] at he ha
      cases he with
      | @cons _ _ s0 _ _ e1 e2 =>
        rw [List.map_cons] at h
        unfold apiSubs at h
        simp only [bind_ok] at h
        obtain ⟨m0, h1, h2⟩ := h
        subst ho
        obtain ⟨w0, k1, k2, k3⟩ := sub_sim e1 hm hw (by
          intro hi
          obtain ⟨v, a, u, q⟩ := ha (ev, val) (by simp) hi
          exact ⟨v, a, u, by rw [hi]; exact q⟩) h1
        refine ih e2 (by simpa using hlen) k1 k2 k3 (fun p hp => ha p (List.mem_cons_of_mem _ hp)) ?_
        rw [e1.collateral]; exact h2

theorem apiUnsub_other {m ev m1} {i : Nat} (h : apiUnsub m ev = .ok m1)
    (hi : i ≠ ev.validatorId) : VMap.get m1 i = VMap.get m i := by
  unfold apiUnsub at h
  split at h
  · cases h; rfl
  · simp only [bind_ok] at h
    obtain ⟨same, _, h⟩ := h
    split at h
    · cases h; rfl
    · split at h
      · cases h; exact get_modify_ne _ _ hi
      · cases h; rfl

theorem Shows.shared {E : Env} {net full s r s'} {i : Nat} {w : Validator} (h : Shares E net s r s')
    (hf : ¬ full) (hw : Shows full (VMap.get s.vals i) w) : Shows full (VMap.get s'.vals i) w := by
  obtain ⟨y, h1, _⟩ := shares_record h i
  rw [h1]
  cases hv : VMap.get s.vals i with
  | none => rw [hv] at hw; exact hw
  | some v => rw [hv] at hw; exact Shows.some_of hw.status fun k => absurd k hf

theorem unsub_sim {E net} {full : Prop} {s ev val s1 m m1 i w} (he : UnsubEffect E net s ev val s1)
    (hm : VMap.get m i = some w) (hw : Shows full (VMap.get s.vals i) w)
    (ha : ev.validatorId = i → ∃ v a, val = some v ∧ v.index = i ∧ HasAddress v.creds a ∧
      SameAddr a w.waddr)
    (hfull : full → ev.validatorId = i)
    (h : apiUnsub m ev = .ok m1) :
    ∃ w1, VMap.get m1 i = some w1 ∧ w1.waddr = w.waddr ∧ Shows full (VMap.get s1.vals i) w1 := by
  by_cases hi : ev.validatorId = i
  swap
  · refine ⟨w, by rw [apiUnsub_other h (Ne.symm hi), hm], rfl, ?_⟩
    cases he with
    | leaves _ _ _ hsh =>
      refine Shows.shared hsh (fun k => hi (hfull k)) ?_
      dsimp only
      rw [get_modify_ne _ _ (Ne.symm hi)]; exact hw
    | nothing => exact hw
  obtain ⟨v, a, rfl, hv, hac, hsame⟩ := ha hi
  subst hi
  unfold apiUnsub at h
  rw [hm] at h
  simp only [bind_ok] at h
  obtain ⟨same, hq, h⟩ := h
  have hq' := equals_iff hq
  have hown : ByOwnerUnsub ev (some v) ↔ same = true := by
    constructor
    · rintro ⟨v', w', e, _, k2, k3⟩
      cases e
      have : a = w' := by
        obtain ⟨p1, ad1, _, l1, c1, rfl⟩ := hac
        obtain ⟨p2, ad2, _, l2, c2, rfl⟩ := k2
        rw [c1, List.cons.injEq] at c2
        rw [List.append_cancel_left c2.2]
      subst this
      exact hq'.mpr (hsame.symm.trans k3.symm)
    · intro h1
      exact ⟨v, a, rfl, hv, hac, (hsame.trans (hq'.mp h1)).symm⟩
  cases he with
  | @leaves u _ hby hu hs hsh =>
    rw [hu] at hw
    have hst := hw.status
    rw [hown.mp hby, if_neg (by simp), if_pos (by rcases hs with k | k | k <;> simp [hst, k])] at h
    cases h
    refine ⟨{ w with status := .notSubscribed, pend := 0 }, by rw [get_modify_self, hm]; rfl, rfl, ?_⟩
    rw [shares_skip hsh (v := { u with status := .notSubscribed, pend := 0 })
      (by dsimp only; rw [get_modify_self, hu]; rfl) (notEarning_of rfl)]
    exact Shows.some_of rfl fun _ => rfl
  | nothing hno =>
    have : m1 = m := by
      split at h
      · cases h; rfl
      · next hs =>
        rcases hno with k | k
        · exact absurd (hown.mpr (by simpa using hs)) k
        · rw [if_neg] at h
          · cases h; rfl
          · cases hg : VMap.get s.vals ev.validatorId with
            | none => rw [hg] at hw; simp [hw.1.2 rfl]
            | some u =>
              rw [hg] at hw
              have := k u hg
              unfold Subscribed at this
              rw [hw.status]
              simpa [not_or, or_assoc] using this
    subst this
    exact ⟨w, hm, rfl, hw⟩

theorem unsubs_sim {E net} {full : Prop} {s s1 i w owner} {evs : List UnsubEvent}
    {vals : List (Option BVal)} {m m1}
    (he : UnsubEffects E net s (evs.zip vals) s1) (hlen : vals.length = evs.length)
    (hm : VMap.get m i = some w) (ho : w.waddr = owner) (hw : Shows full (VMap.get s.vals i) w)
    (ha : ∀ p ∈ evs.zip vals, p.1.validatorId = i → ∃ v a, p.2 = some v ∧ v.index = i ∧
      HasAddress v.creds a ∧ SameAddr a owner)
    (hfull : full → ∀ e ∈ evs, e.validatorId = i)
    (h : apiUnsubs evs m = .ok m1) :
    ∃ w1, VMap.get m1 i = some w1 ∧ w1.waddr = owner ∧ Shows full (VMap.get s1.vals i) w1 := by
  induction evs generalizing vals s m w with
  | nil =>
    simp only [List.zip_nil_left] at he
    cases he
    cases h
    exact ⟨w, hm, ho, hw⟩
  | cons ev evs ih =>
    cases vals with
    | nil => simp at hlen
    | cons val vals =>
      rw [List.zip_cons_cons] at he ha
      cases he with
      | @cons _ _ s0 _ _ e1 e2 =>
        unfold apiUnsubs at h
        simp only [bind_ok] at h
        obtain ⟨m0, h1, h2⟩ := h
        subst ho
        obtain ⟨w0, k1, k2, k3⟩ := unsub_sim e1 hm hw (fun hi => ha (ev, val) (by simp) hi)
          (fun hf => hfull hf ev (by simp)) h1
        exact ih e2 (by simpa using hlen) k1 k2 k3 (fun p hp => ha p (List.mem_cons_of_mem _ hp))
          (fun hf e he => hfull hf e (List.mem_cons_of_mem _ he)) h2

/-! ### One slot -/

theorem SubEffects.others {s l s1} {i : Nat} (h : SubEffects s l s1) (hi : ∀ p ∈ l, p.1.validatorId ≠ i) :
    VMap.get s1.vals i = VMap.get s.vals i := by
  induction h with
  | nil => rfl
  | cons he _ ih =>
    rw [ih fun p hp => hi p (List.mem_cons_of_mem _ hp), he.other (Ne.symm (hi _ (by simp)))]

theorem enrolled_other {m i j w key} (h : j ≠ i) : VMap.get (enrolled m i w key) j = VMap.get m j := by
  unfold enrolled
  split
  · rw [get_insert, if_neg h]
  · exact get_modify_ne _ _ h

theorem ProposalEffect.shows {E net pool b s s'} {full : Prop} {i : Nat} {w : Validator}
    (h : ProposalEffect E net pool b s s') (hi : b.dutyIndex ≠ i)
    (hw : Shows full (VMap.get s.vals i) w) (h1 : full → ¬ PaidPool b pool)
    (h2 : full → b.cons = none ∨ ∀ v, VMap.get s.vals b.dutyIndex = some v → ¬ Subscribed v.status) :
    Shows full (VMap.get s'.vals i) w := by
  have hi' : i ≠ b.dutyIndex := fun h => hi h.symm
  cases h with
  | missed => dsimp only; rw [get_modify_ne _ _ hi']; exact hw
  | outsider => exact hw
  | elsewhere c1 _ c3 c4 hsh _ =>
    dsimp only
    refine Shows.shared hsh (fun hf => ?_) (by dsimp only; rw [get_modify_ne _ _ hi']; exact hw)
    rcases h2 hf with k | k
    · exact c1 k
    · exact k _ c3 c4
  | pays c1 _ _ hsh _ _ _ =>
    dsimp only
    unfold paidOut
    rw [get_modify_ne _ _ hi']
    exact Shows.shared hsh (fun hf => h1 hf c1) (by dsimp only; rw [enrolled_other hi']; exact hw)
  | noAddress => exact hw

theorem DonEffects.shows {E net s l s'} {full : Prop} {i : Nat} {w : Validator}
    (h : DonEffects E net s l s') (hf : full → l = []) (hw : Shows full (VMap.get s.vals i) w) :
    Shows full (VMap.get s'.vals i) w := by
  induction h with
  | nil => exact hw
  | cons hsh _ ih =>
    have hnf : ¬ full := fun k => by simpa using hf k
    exact ih (fun k => absurd k hnf) (by dsimp only; exact Shows.shared hsh hnf hw)

theorem BanEffects.others {s l s' t} {i : Nat} (h : BanEffects s l s' t)
    (hi : ∀ e ∈ l, e.validatorId ≠ i) : VMap.get s'.vals i = VMap.get s.vals i := by
  induction h with
  | nil => rfl
  | @ban _ ev _ _ _ _ _ _ _ ih =>
    rw [ih fun e he => hi e (List.mem_cons_of_mem _ he)]
    dsimp only
    rw [get_modify_ne _ _ (Ne.symm (hi ev (by simp)))]
  | skip _ _ ih => exact ih fun e he => hi e (List.mem_cons_of_mem _ he)

theorem slot_sim {E net pool b s s' i w owner} {full : Prop} {cache : Nat → Option BVal} {m m1 m2}
    (h : SlotEffect E net pool b s s') (hq : Quiet i b) (ha : Agree owner (cache i) i b)
    (hf : full → NoRewards pool s i b)
    (hm : VMap.get m i = some w) (ho : w.waddr = owner) (hw : Shows full (VMap.get s.vals i) w)
    (h1 : apiSubs s.collateral (b.events.subs.map fun e => (e, cache e.validatorId)) m = .ok m1)
    (h2 : apiUnsubs b.events.unsubs m1 = .ok m2) :
    ∃ w2, VMap.get m2 i = some w2 ∧ w2.waddr = owner ∧ Shows full (VMap.get s'.vals i) w2 := by
  obtain ⟨s1, s2, s3, dons, s4, s5, tot, s6, k1, k2, k3, k4, k5, k6, k7, k8⟩ := h
  obtain ⟨w1, a1, a2, a3⟩ := subs_sim k1 ha.lens.1 hm ho hw ha.subs h1
  have a4 := k2.shows hq.proposer a3 (fun f => (hf f).unpaid) (by
    intro f
    rcases (hf f).proposal with c | ⟨c, d⟩
    · exact Or.inl c
    · right
      rw [k1.others fun p hp => d _ (List.of_mem_zip hp).1]
      exact c)
  obtain ⟨w2, b1, b2, b3⟩ := unsubs_sim k3 ha.lens.2 a1 a2 a4 ha.unsubs (fun f => (hf f).unsubs) h2
  refine ⟨w2, b1, b2, ?_⟩
  have b4 := k5.shows (by
    intro f
    have he := (hf f).ether
    by_cases hx : ∃ x, BuilderPaid b pool x
    · obtain ⟨x, hx⟩ := hx
      rw [k4.builder x hx, he]; rfl
    · by_cases hc : b.cons = none
      · exact k4.missed hc
      · rw [k4.other hc (fun x k => hx ⟨x, k⟩), he]) b3
  have b5 : Shows full (VMap.get s5.vals i) w2 := by rw [k6.others hq.bans]; exact b4
  have b6 : Shows full (VMap.get s6.vals i) w2 := by
    rcases k7 with ⟨c1, c2⟩ | ⟨_, rfl⟩
    · refine Shows.shared c2 (fun f => ?_) b5
      rw [(hf f).bans] at k6
      cases k6
      omega
    · exact b5
  rw [k8]
  dsimp only
  rw [get_unbanned]
  cases hg : VMap.get s6.vals i with
  | none => rw [hg] at b6; exact b6
  | some u =>
    rw [hg] at b6
    rw [Option.map_some, if_neg]
    · exact b6
    · rintro ⟨_, e, he, k⟩
      exact hq.unbans e he k

/-! ### Histories -/

theorem Hist.snoc {E o bs o1 b o2 n} (h : Hist E o bs o1) (h2 : advanceState E o1 b = .ok (o2, some n)) :
    Hist E o (bs ++ [b]) o2 := by
  induction h with
  | nil => exact .cons h2 (.nil _)
  | cons h1 _ ih => exact .cons h1 (ih h2)

theorem perBlock_sim {E cfg bs0 o bs o'} {full : Prop} {i owner} {cache : Nat → Option BVal} {m m' w}
    (hE : ValidEnv E) (hX : ExactEnv E) (hC : NoSelfConsol E)
    (h0 : Hist E (newOracle cfg) bs0 o) (h : Hist E o bs o')
    (hg : ∀ b ∈ bs, GasOK b) (hq : ∀ b ∈ bs, Quiet i b) (ha : ∀ b ∈ bs, Agree owner (cache i) i b)
    (hf : full → ∀ bs1 b bs2 o1, bs = bs1 ++ b :: bs2 → Hist E o bs1 o1 →
      NoRewards o.cfg.poolAddr o1.st i b)
    (hm : VMap.get m i = some w) (ho : w.waddr = owner) (hw : Shows full (VMap.get o.st.vals i) w)
    (hp : perBlock o.st.collateral cache bs m = .ok m') :
    ∃ w', VMap.get m' i = some w' ∧ Shows full (VMap.get o'.st.vals i) w' := by
  induction h generalizing bs0 m w with
  | nil => cases hp; exact ⟨w, hm, hw⟩
  | @cons o b o1 n bs o' h1 h2 ih =>
    unfold perBlock at hp
    simp only [bind_ok] at hp
    obtain ⟨m1, p1, m2, p2, p3⟩ := hp
    obtain ⟨s7, s8, e1, _, e3, e4, e5, e6⟩ := C60_slot_refines hE hX hC h0 h1 (hg b (by simp))
    have h8 : s8 = s7 := e3 (by rw [e5]; exact (hq b (by simp)).cleanup)
    subst h8
    have hv : o1.st.vals = s8.vals := by rw [e6]
    obtain ⟨_, _, _, _, _, _, _, _, _, hfr, _⟩ := slot_frame h1
    have hcol : o1.st.collateral = o.st.collateral := by
      have := congrArg State.collateral hfr
      exact this
    have hpool : o1.cfg.poolAddr = o.cfg.poolAddr := by rw [e6]
    obtain ⟨w2, c1, c2, c3⟩ := slot_sim (full := full) (cache := cache) e1 (hq b (by simp)) (ha b (by simp))
      (fun f => by
        have := hf f [] b bs o rfl (.nil o)
        exact ⟨this.proposal, this.unpaid, this.ether, this.bans, this.unsubs⟩) hm ho hw p1 p2
    refine ih (h0.snoc h1) (fun b hb => hg b (List.mem_cons_of_mem _ hb))
      (fun b hb => hq b (List.mem_cons_of_mem _ hb)) (fun b hb => ha b (List.mem_cons_of_mem _ hb))
      ?_ c1 c2 (by rw [hv]; exact c3) (by rw [hcol]; exact p3)
    intro f bs1 b' bs2 o2 hb h3
    rw [hpool]
    exact hf f (b :: bs1) b' bs2 o2 (by rw [hb]; rfl) (.cons h1 h3)

theorem hist_collateral {E cfg bs o} (h : Hist E (newOracle cfg) bs o) : o.st.collateral = cfg.collateral := by
  have gen : ∀ {o0 bs o}, Hist E o0 bs o → o.st.collateral = o0.st.collateral := by
    intro o0 bs o h
    induction h with
    | nil => rfl
    | cons h1 _ ih =>
      obtain ⟨_, _, _, _, _, _, _, _, _, hfr, _⟩ := slot_frame h1
      have := congrArg State.collateral hfr
      exact ih.trans this
  rw [gen h]; rfl

section
variable {E : Env} {cfg : Config} {bs0 bs : List FullBlock} {o o' : Oracle} {i : Nat}
  {cache : Nat → Option BVal} {m m' : VMap} {w : Validator}
  (hE : ValidEnv E) (hX : ExactEnv E) (hC : NoSelfConsol E)
  -- the oracle now, and after the blocks `bs` the API already sees
  (h0 : Hist E (newOracle cfg) bs0 o) (h : Hist E o bs o') (hg : ∀ b ∈ bs, GasOK b) (hord : InOrder bs)
  -- what the API shows before applying the events of these blocks, and after
  (hm : VMap.get m i = some w)
  (hp : applyNonFinalized cfg.collateral ((bs.flatMap (·.events.subs)).map fun e => (e, cache e.validatorId))
    (bs.flatMap (·.events.unsubs)) m = .ok m')
  (hq : ∀ b ∈ bs, Quiet i b) (ha : ∀ b ∈ bs, Agree w.waddr (cache i) i b)
include hE hX hC h0 h hg hord hm hp hq ha

/-- **C47**, the status: the status the API shows for a validator after applying the events of the blocks
that are not final yet is the status the oracle records once it has processed these blocks, if nothing
but (un)subscriptions concerns the validator. -/
theorem C47_status (hw : StatusShown (VMap.get o.st.vals i) w) :
    ∃ w', VMap.get m' i = some w' ∧ StatusShown (VMap.get o'.st.vals i) w' := by
  rw [applyNonFinalized_perBlock hord, ← hist_collateral h0] at hp
  obtain ⟨w', k1, k2⟩ := perBlock_sim (full := False) hE hX hC h0 h hg hq ha (by simp) hm rfl
    ⟨hw, by simp⟩ hp
  exact ⟨w', k1, k2.1⟩

/-- **C47**, the pending balance: if, besides, no reward is shared in these blocks, the pending balance
shown is the one the oracle records. -/
theorem C47_pending (hw : StatusShown (VMap.get o.st.vals i) w) (hw2 : PendingShown (VMap.get o.st.vals i) w)
    (hn : ∀ bs1 b bs2 o1, bs = bs1 ++ b :: bs2 → Hist E o bs1 o1 → NoRewards o.cfg.poolAddr o1.st i b) :
    ∃ w', VMap.get m' i = some w' ∧ StatusShown (VMap.get o'.st.vals i) w' ∧
      PendingShown (VMap.get o'.st.vals i) w' := by
  rw [applyNonFinalized_perBlock hord, ← hist_collateral h0] at hp
  obtain ⟨w', k1, k2⟩ := perBlock_sim (full := True) hE hX hC h0 h hg hq ha (fun _ => hn) hm rfl
    ⟨hw, fun _ => hw2⟩ hp
  exact ⟨w', k1, k2.1, k2.2 trivial⟩

end

/-! ### The records the events are applied to -/

/-- one entry of the cache that has the requested address -/
theorem untrackedOf_get {addr l m m'} (h : untrackedOf addr l m = .ok m') (i : Nat) :
    (∃ u ∈ l, u.1 = i ∧ ∃ a, HasAddress u.2.creds a ∧ SameAddr a addr) →
    ∃ w, VMap.get m' i = some w ∧ w.status = .untracked ∧ w.pend = 0 ∧ SameAddr w.waddr addr := by
  have keep : ∀ l m m', untrackedOf addr l m = .ok m' →
      ∀ w, VMap.get m i = some w → w.status = .untracked ∧ w.pend = 0 ∧ SameAddr w.waddr addr →
      ∃ w, VMap.get m' i = some w ∧ w.status = .untracked ∧ w.pend = 0 ∧ SameAddr w.waddr addr := by
    intro l
    induction l with
    | nil => intro m m' h w hw hs; cases h; exact ⟨w, hw, hs⟩
    | cons p l ih =>
      obtain ⟨j, u⟩ := p
      intro m m' h w hw hs
      unfold untrackedOf at h
      split at h
      · exact ih _ _ h w hw hs
      · next a ha =>
        simp only [bind_ok] at h
        obtain ⟨same, hq, h⟩ := h
        split at h
        · exact ih _ _ h w hw hs
        · next hsm =>
          by_cases hij : i = j
          · subst hij
            refine ih _ _ h _ (by rw [get_insert, if_pos rfl]) ⟨rfl, rfl, ?_⟩
            exact (equals_iff hq).mp (by simpa using hsm)
          · exact ih _ _ h w (by rw [get_insert, if_neg hij]; exact hw) hs
  induction l generalizing m with
  | nil => rintro ⟨u, hu, _⟩; simp at hu
  | cons p l ih =>
    obtain ⟨j, u⟩ := p
    rintro ⟨q, hq, hi, a, ha, hsa⟩
    unfold untrackedOf at h
    rcases List.mem_cons.mp hq with rfl | hq
    · dsimp only at hi ha
      have hc : compatAddress (hexEncode u.creds) = some a := (compatAddressByte_iff _ _).mpr ha
      rw [hc] at h
      simp only [bind_ok] at h
      obtain ⟨same, he, h⟩ := h
      rw [(equals_iff he).mpr hsa, if_neg (by simp)] at h
      exact keep _ _ _ h _ (by rw [hi, get_insert, if_pos rfl]) ⟨rfl, rfl, hsa⟩
    · have hrec : ∀ m, untrackedOf addr l m = .ok m' →
          ∃ w, VMap.get m' i = some w ∧ w.status = .untracked ∧ w.pend = 0 ∧ SameAddr w.waddr addr :=
        fun m hm => ih hm ⟨q, hq, hi, a, ha, hsa⟩
      split at h
      · exact hrec _ h
      · simp only [bind_ok] at h
        obtain ⟨same, _, h⟩ := h
        split at h <;> exact hrec _ h

theorem trackedOf_get {addr l m m'} (hs : Sorted l) (h : trackedOf addr l m = .ok m') (i : Nat) :
    (∀ v, VMap.get l i = some v → SameAddr v.waddr addr → VMap.get m' i = some { v with index := i }) ∧
    ((∀ v, VMap.get l i = some v → ¬ SameAddr v.waddr addr) → VMap.get m' i = VMap.get m i) := by
  induction l generalizing m with
  | nil => cases h; simp [VMap.get]
  | cons p l ih =>
    obtain ⟨j, v⟩ := p
    unfold trackedOf at h
    simp only [bind_ok] at h
    obtain ⟨same, he, h⟩ := h
    have hnone : j = i → VMap.get l i = none := by
      rintro rfl
      cases hg : VMap.get l j with
      | none => rfl
      | some u => exact absurd (hs.head_lt (mem_of_get hg)) (Nat.lt_irrefl _)
    by_cases hij : j = i
    · have hl := hnone hij
      subst hij
      constructor
      · intro u hu hsu
        simp only [VMap.get, if_true, Option.some.injEq] at hu
        subst hu
        rw [(equals_iff he).mpr hsu, if_neg (by simp)] at h
        rw [(ih hs.tail h).2 (by rw [hl]; simp), get_insert, if_pos rfl]
      · intro hno
        have hv := hno v (by simp [VMap.get])
        have : same = false := by
          cases same with
          | false => rfl
          | true => exact absurd ((equals_iff he).mp rfl) hv
        rw [this, if_pos (by simp)] at h
        exact (ih hs.tail h).2 (by rw [hl]; simp)
    · have hl : VMap.get ((j, v) :: l) i = VMap.get l i := by simp [VMap.get, hij]
      rw [hl]
      split at h
      · exact ih hs.tail h
      · obtain ⟨k1, k2⟩ := ih hs.tail h
        refine ⟨k1, fun hno => ?_⟩
        rw [k2 hno, get_insert, if_neg (Ne.symm hij)]

/-- **C47**, the starting point: before the events are applied, the endpoint shows for every validator of
the requested address, tracked or only known to the beacon node, the status and pending balance the
oracle has recorded. -/
theorem C47_start {s : State} {addr : Str} {bs : BMap} {m1 m2 : VMap} (hs : MapOK s)
    (h1 : untrackedOf addr bs [] = .ok m1) (h2 : trackedOf addr s.vals m1 = .ok m2) {i : Nat}
    (hi : (∃ v, VMap.get s.vals i = some v ∧ SameAddr v.waddr addr) ∨
      (VMap.get s.vals i = none ∧ ∃ u ∈ bs, u.1 = i ∧ ∃ a, HasAddress u.2.creds a ∧ SameAddr a addr)) :
    ∃ w, VMap.get m2 i = some w ∧ SameAddr w.waddr addr ∧ StatusShown (VMap.get s.vals i) w ∧
      PendingShown (VMap.get s.vals i) w := by
  obtain ⟨k1, k2⟩ := trackedOf_get hs h2 i
  rcases hi with ⟨v, hv, hsa⟩ | ⟨hn, hu⟩
  · refine ⟨_, k1 v hv hsa, hsa, ?_, ?_⟩
    · rw [hv]; exact ⟨fun _ h => by cases h; rfl, by simp⟩
    · rw [hv]; exact ⟨fun _ h => by cases h; rfl, by simp⟩
  · obtain ⟨w, c1, c2, c3, c4⟩ := untrackedOf_get h1 i hu
    refine ⟨w, by rw [k2 (by rw [hn]; simp), c1], c4, ?_, ?_⟩
    · rw [hn]; exact ⟨by simp, fun _ => c2⟩
    · rw [hn]; exact ⟨by simp, fun _ => c3⟩

/-! ### When there is no answer -/

/-- **C47 is not always answered**: when the owner of a shown validator subscribes it with enough collateral
and the validator is missing from the cache of the beacon node's validators, the handler dereferences
a nil pointer. -/
theorem C47_false_missing {coll : Int} {m : VMap} {ev : SubEvent} {w : Validator}
    (hm : VMap.get m ev.validatorId = some w) (hs : SameAddr w.waddr ev.sender) (hc : coll ≤ ev.collateral) :
    applyNonFinalized coll [(ev, none)] [] m = .error .panic := by
  have hb : eventBlocks [(ev, none)] [] = [ev.block] := by
    simp [eventBlocks, addBlock]
  have he : equals w.waddr ev.sender = .ok true := by
    unfold equals
    rw [if_neg (by simpa using hs.1)]
    simp [hs.2]
  unfold applyNonFinalized
  rw [hb]
  unfold apiBlocks
  have hf : [(ev, (none : Option BVal))].filter (fun p => p.1.block == ev.block) = [(ev, none)] := by simp
  rw [hf]
  unfold apiSubs apiSub
  rw [hm]
  dsimp only
  rw [he]
  have : ¬ ev.collateral < coll := by omega
  simp [bind, Except.bind, this]

/-- **C47**, an answer: with addresses of one length and every validator of a subscription event in the
cache, the events are always applied. -/
theorem C47_answers {coll : Int} {subs : List (SubEvent × Option BVal)} {unsubs : List UnsubEvent} {m : VMap}
    {k : Nat} (hm : ∀ p ∈ m, p.2.waddr.length = k)
    (h1 : ∀ p ∈ subs, p.1.sender.length = k ∧ p.2 ≠ none) (h2 : ∀ e ∈ unsubs, e.sender.length = k) :
    ∃ m', applyNonFinalized coll subs unsubs m = .ok m' := by
  have hmod : ∀ (m : VMap) (j : Nat) (f : Validator → Validator), (∀ v, (f v).waddr = v.waddr) →
      (∀ p ∈ m, p.2.waddr.length = k) → ∀ p ∈ VMap.modify m j f, p.2.waddr.length = k := by
    intro m j f hf hm p hp
    unfold VMap.modify at hp
    obtain ⟨q, hq, rfl⟩ := List.mem_map.mp hp
    split
    · rw [hf]; exact hm q hq
    · exact hm q hq
  have heq : ∀ a b : Str, a.length = k → b.length = k → ∃ x, equals a b = .ok x := by
    intro a b ha hb
    exact ⟨_, by unfold equals; rw [if_neg (by simp [ha, hb])]⟩
  have sub1 : ∀ (m : VMap) (p : SubEvent × Option BVal), (∀ q ∈ m, q.2.waddr.length = k) →
      p.1.sender.length = k ∧ p.2 ≠ none →
      ∃ m', apiSub coll m p.1 p.2 = .ok m' ∧ ∀ q ∈ m', q.2.waddr.length = k := by
    intro m p hm hp
    unfold apiSub
    cases hg : VMap.get m p.1.validatorId with
    | none => exact ⟨m, rfl, hm⟩
    | some v =>
      obtain ⟨x, hx⟩ := heq v.waddr p.1.sender (hm _ (mem_of_get hg)) hp.1
      obtain ⟨u, hu⟩ := Option.ne_none_iff_exists'.mp hp.2
      dsimp only
      rw [hx, hu]
      simp only [bind, Except.bind]
      split
      · exact ⟨m, rfl, hm⟩
      · split
        · exact ⟨m, rfl, hm⟩
        · split
          · exact ⟨m, rfl, hm⟩
          · split
            · exact ⟨_, rfl, hmod _ _ _ (fun _ => rfl) hm⟩
            · exact ⟨m, rfl, hm⟩
  have unsub1 : ∀ (m : VMap) (e : UnsubEvent), (∀ q ∈ m, q.2.waddr.length = k) → e.sender.length = k →
      ∃ m', apiUnsub m e = .ok m' ∧ ∀ q ∈ m', q.2.waddr.length = k := by
    intro m e hm he
    unfold apiUnsub
    cases hg : VMap.get m e.validatorId with
    | none => exact ⟨m, rfl, hm⟩
    | some v =>
      obtain ⟨x, hx⟩ := heq v.waddr e.sender (hm _ (mem_of_get hg)) he
      dsimp only
      rw [hx]
      simp only [bind, Except.bind]
      split
      · exact ⟨m, rfl, hm⟩
      · split
        · exact ⟨_, rfl, hmod _ _ _ (fun _ => rfl) hm⟩
        · exact ⟨m, rfl, hm⟩
  have subs' : ∀ (l : List (SubEvent × Option BVal)) (m : VMap), (∀ q ∈ m, q.2.waddr.length = k) →
      (∀ p ∈ l, p.1.sender.length = k ∧ p.2 ≠ none) →
      ∃ m', apiSubs coll l m = .ok m' ∧ ∀ q ∈ m', q.2.waddr.length = k := by
    intro l
    induction l with
    | nil => intro m hm _; exact ⟨m, rfl, hm⟩
    | cons p l ih =>
      intro m hm hp
      obtain ⟨m1, a1, a2⟩ := sub1 m p hm (hp p (by simp))
      obtain ⟨m2, b1, b2⟩ := ih m1 a2 fun q hq => hp q (List.mem_cons_of_mem _ hq)
      refine ⟨m2, ?_, b2⟩
      obtain ⟨ev, v⟩ := p
      unfold apiSubs
      rw [a1]; exact b1
  have unsubs' : ∀ (l : List UnsubEvent) (m : VMap), (∀ q ∈ m, q.2.waddr.length = k) →
      (∀ e ∈ l, e.sender.length = k) →
      ∃ m', apiUnsubs l m = .ok m' ∧ ∀ q ∈ m', q.2.waddr.length = k := by
    intro l
    induction l with
    | nil => intro m hm _; exact ⟨m, rfl, hm⟩
    | cons e l ih =>
      intro m hm hp
      obtain ⟨m1, a1, a2⟩ := unsub1 m e hm (hp e (by simp))
      obtain ⟨m2, b1, b2⟩ := ih m1 a2 fun q hq => hp q (List.mem_cons_of_mem _ hq)
      refine ⟨m2, ?_, b2⟩
      unfold apiUnsubs
      rw [a1]; exact b1
  have blocks : ∀ (l : List Nat) (m : VMap), (∀ q ∈ m, q.2.waddr.length = k) →
      ∃ m', apiBlocks coll subs unsubs l m = .ok m' := by
    intro l
    induction l with
    | nil => intro m hm; exact ⟨m, rfl⟩
    | cons b l ih =>
      intro m hm
      obtain ⟨m1, a1, a2⟩ := subs' (subs.filter fun p => p.1.block == b) m hm
        fun p hp => h1 p (List.mem_filter.mp hp).1
      obtain ⟨m2, b1, b2⟩ := unsubs' (unsubs.filter fun e => e.block == b) m1 a2
        fun e he => h2 e (List.mem_filter.mp he).1
      obtain ⟨m3, c1⟩ := ih m2 b2
      refine ⟨m3, ?_⟩
      unfold apiBlocks
      rw [a1]
      show (apiUnsubs (unsubs.filter fun e => e.block == b) m1 >>= fun m2 => apiBlocks coll subs unsubs l m2) = _
      rw [b1]; exact c1
  exact blocks _ m hm

/-! ### Samples -/

namespace Sample

/-- the owner of validator 2 leaves; an outsider proposes -/
def later1 : FullBlock :=
  { prop 12000001 77 builder (tx builder (addr 77) 900) { unsubs := [⟨2, addr 2, 101⟩] } with
    valsUnsubs := [some (bval 2)] }

/-- the owner of validator 2 comes back, and validator 5 subscribes; an outsider proposes -/
def later2 : FullBlock :=
  { prop 12000002 77 builder (tx builder (addr 77) 900)
      { subs := [⟨2, 1000, addr 2, 102⟩, ⟨5, 1000, addr 5, 102⟩] } with
    valsSubs := [some (bval 2), some (bval 5)] }

theorem later_unpaid {slot vs vu evs} (h : slot ≠ 10400574) (he : evs.ether = []) :
    ¬ PaidPool { prop slot 77 builder (tx builder (addr 77) 900) evs with valsSubs := vs, valsUnsubs := vu }
      pool :=
  (prop_elsewhere (slot := slot) (i := 77) (s := builder) (d := addr 77) (x := 900) (evs := evs) h
    (by simp [he]) (by decide)).2.2

/-- what the API knows before: validator 2 tracked, validator 5 not -/
def shown (o : Oracle) (i : Nat) : Validator :=
  (VMap.get o.st.vals i).getD
    { status := .untracked, acc := 0, pend := 0, coll := 0, waddr := addr i, index := i, key := [],
      subType := .manual }

/-- C47 for validators 2 (leaves and comes back) and 5 (new): all hypotheses hold, and the events do
change what is shown. -/
example (i : Nat) (hi : i = 2 ∨ i = 5) : ∃ o o' m', Hist env (newOracle cfg) [b0] o ∧ Hist env o [later1, later2] o' ∧
    (∀ b ∈ [later1, later2], GasOK b) ∧ InOrder [later1, later2] ∧
    applyNonFinalized cfg.collateral
      (([later1, later2].flatMap (·.events.subs)).map fun e => (e, some (bval e.validatorId)))
      ([later1, later2].flatMap (·.events.unsubs)) [(2, shown o 2), (5, shown o 5)] = .ok m' ∧
    (∀ b ∈ [later1, later2], Quiet i b) ∧
    (∀ b ∈ [later1, later2], Agree (shown o i).waddr (some (bval i)) i b) ∧
    StatusShown (VMap.get o.st.vals i) (shown o i) ∧ PendingShown (VMap.get o.st.vals i) (shown o i) ∧
    VMap.get m' i ≠ some (shown o i) := by
  obtain ⟨o, h1, h2⟩ := ex_hist (E := env) (o := newOracle cfg) (bs := [b0])
    (P := fun o => (run env o [later1, later2]).isSome &&
      decide ((shown o 2).waddr = addr 2 ∧ (shown o 5).waddr = addr 5) &&
      (perBlock cfg.collateral (fun j => some (bval j)) [later1, later2]
        [(2, shown o 2), (5, shown o 5)]).toOption.any fun m' =>
        decide (VMap.get m' 2 ≠ some (shown o 2) ∧ VMap.get m' 5 ≠ some (shown o 5))) (by decide +kernel)
  simp only [Bool.and_eq_true, decide_eq_true_eq] at h2
  obtain ⟨⟨h2, hw2, hw5⟩, h3⟩ := h2
  obtain ⟨m', h3, h4⟩ := ex_ok h3
  simp only [decide_eq_true_eq] at h4
  have hw : (shown o i).waddr = addr i := by rcases hi with rfl | rfl <;> assumption
  have hord : InOrder [later1, later2] := by
    refine ⟨?_, by simp [eventNumbers, later1, later2, prop]⟩
    intro b hb
    simp only [List.mem_cons, List.not_mem_nil, or_false] at hb
    rcases hb with rfl | rfl
    · exact ⟨101, by decide⟩
    · exact ⟨102, by decide⟩
  refine ⟨o, _, m', h1, run_some h2, ?_, hord,
    (applyNonFinalized_perBlock (cache := fun j => some (bval j)) hord).trans h3, ?_, ?_, ?_, ?_, ?_⟩
  · intro b hb
    simp only [List.mem_cons, List.not_mem_nil, or_false] at hb
    rcases hb with rfl | rfl
    · intro c h rs hc hh hr
      exact prop_gas (slot := 12000001) (i := 77) (fr := builder) (s := builder) (d := addr 77) (x := 900)
        (evs := {}) c h rs hc hh hr
    · intro c h rs hc hh hr
      exact prop_gas (slot := 12000002) (i := 77) (fr := builder) (s := builder) (d := addr 77) (x := 900)
        (evs := {}) c h rs hc hh hr
  · intro b hb
    simp only [List.mem_cons, List.not_mem_nil, or_false] at hb
    rcases hb with rfl | rfl
    · exact ⟨by rcases hi with rfl | rfl <;> decide, by simp [later1, prop], by simp [later1, prop], by decide⟩
    · exact ⟨by rcases hi with rfl | rfl <;> decide, by simp [later2, prop], by simp [later2, prop], by decide⟩
  · intro b hb
    simp only [List.mem_cons, List.not_mem_nil, or_false] at hb
    rw [hw]
    rcases hb with rfl | rfl
    · refine ⟨by decide, by simp [later1, prop], ?_⟩
      intro p hp hpi
      simp only [later1, prop, List.zip_cons_cons, List.zip_nil_left, List.mem_cons, List.not_mem_nil,
        or_false] at hp
      subst hp
      dsimp only at hpi; subst hpi
      exact ⟨bval 2, addr 2, rfl, rfl, hasAddress 2, same _⟩
    · refine ⟨by decide, ?_, by simp [later2, prop]⟩
      intro p hp hpi
      simp only [later2, prop, List.zip_cons_cons, List.zip_nil_left, List.mem_cons, List.not_mem_nil,
        or_false] at hp
      rcases hp with rfl | rfl
      · dsimp only at hpi; subst hpi
        exact ⟨bval 2, addr 2, bval 2, rfl, rfl, hasAddress 2, same _, rfl, Iff.rfl⟩
      · dsimp only at hpi; subst hpi
        exact ⟨bval 5, addr 5, bval 5, rfl, rfl, hasAddress 5, same _, rfl, Iff.rfl⟩
  · constructor
    · intro u hu; unfold shown; rw [hu]; rfl
    · intro hu; unfold shown; rw [hu]; rfl
  · constructor
    · intro u hu; unfold shown; rw [hu]; rfl
    · intro hu; unfold shown; rw [hu]; rfl
  · rcases hi with rfl | rfl
    · exact h4.1
    · exact h4.2

/-- C47: no rewards are shared in `later1` for a state in which 77 is not tracked -/
example (s : State) (h : VMap.get s.vals 77 = none) : NoRewards pool s 2 later1 :=
  ⟨Or.inr ⟨by simp [later1, prop, h], by simp [later1, prop]⟩, later_unpaid (by decide) rfl, rfl, rfl,
    by simp [later1, prop]⟩

/-- C47: validator 2 is tracked but missing from the cache; its owner subscribes it -/
example : ∃ o, Hist env (newOracle cfg) [b0] o ∧
    validatorsByWithdrawal (some 12000000) (some [(1, bval 1)]) (fun _ => some ([⟨2, 1000, addr 2, 101⟩], []))
      o.cfg o.st (addr 2) = .error .panic := by
  obtain ⟨o, h1, h2⟩ := ex_hist (E := env) (o := newOracle cfg) (bs := [b0])
    (P := fun o => decide (validatorsByWithdrawal (some 12000000) (some [(1, bval 1)])
      (fun _ => some ([⟨2, 1000, addr 2, 101⟩], [])) o.cfg o.st (addr 2) = .error .panic)) (by decide +kernel)
  exact ⟨o, h1, by simpa using h2⟩

end Sample

end Verif
