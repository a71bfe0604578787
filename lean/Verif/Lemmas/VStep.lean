import Verif.Lemmas.Shares
/-
The effect of elementary operations on one validator record, and invariants.
-/
namespace Verif
open VMap

/-- How an operation with `f` in transit changes the record of validator `i`. -/
inductive VStep (i : Nat) (f : Int) : Op → Validator → Validator → Prop
  | same (op v) : VStep i f op v v
  | adv (e v) : ¬ e.forfeits → VStep i f (.adv i e) v (setStatus e v)
  | seize (e v) : e.forfeits → VStep i f (.seize i e) v { setStatus e v with pend := 0 }
  | moveOut (j v) : VStep i f (.move i j) v { setStatus .unsubscribe v with pend := 0 }
  | moveIn (j v y) : v.status ≠ .banned → VStep i f (.move j i) v { v with pend := v.pend + y }
  | subType (t v) : VStep i f (.subType i t) v { v with subType := t }
  | toAcc (v) : VStep i f (.toAcc i) v { v with acc := v.acc + f }
  | toPend (v) : v.status ≠ .banned → VStep i f (.toPend i) v { v with pend := v.pend + f }
  | consol (v) : VStep i f (.consol i) v { v with acc := v.acc + v.pend, pend := 0 }
  | dist (sh fees v y) : Earning v → VStep i f (.dist sh fees) v { v with pend := v.pend + y }

/-- A tracked validator stays tracked and its record changes as described by `VStep`. -/
theorem Op.Step.vstep {x op a b} (h : Op.Step x op a b) {i v} (hv : VMap.get a.vals i = some v) :
    ∃ v', VMap.get b.vals i = some v' ∧ VStep i a.f op v v' := by
  cases h with
  | adv _ j e he =>
    dsimp only
    rw [get_modify]
    by_cases h : i = j
    · subst h; rw [if_pos rfl, hv]; exact ⟨_, rfl, .adv e v he⟩
    · rw [if_neg h]; exact ⟨v, hv, .same _ _⟩
  | seize _ j e u hu he =>
    dsimp only
    rw [get_modify]
    by_cases h : i = j
    · subst h; rw [if_pos rfl, hv]; exact ⟨_, rfl, .seize e v he⟩
    · rw [if_neg h]; exact ⟨v, hv, .same _ _⟩
  | move _ k j u w hu hw hkj hb =>
    dsimp only
    rw [get_modify]
    by_cases h : i = j
    · subst h
      rw [hv, Option.some.injEq] at hw
      subst hw
      rw [if_pos rfl, get_modify_ne _ _ (Ne.symm hkj), hv]
      exact ⟨_, rfl, .moveIn _ _ _ hb⟩
    · rw [if_neg h, get_modify]
      by_cases h' : i = k
      · subst h'; rw [if_pos rfl, hv]; exact ⟨_, rfl, .moveOut _ _⟩
      · rw [if_neg h']; exact ⟨v, hv, .same _ _⟩
  | create _ j u hn h1 h2 h3 h4 =>
    dsimp only
    rw [get_insert]
    have : i ≠ j := by rintro rfl; rw [hv] at hn; simp at hn
    rw [if_neg this]; exact ⟨v, hv, .same _ _⟩
  | subType _ j t =>
    dsimp only
    rw [get_modify]
    by_cases h : i = j
    · subst h; rw [if_pos rfl, hv]; exact ⟨_, rfl, .subType t v⟩
    · rw [if_neg h]; exact ⟨v, hv, .same _ _⟩
  | recv _ y => exact ⟨v, hv, .same _ _⟩
  | toPool _ => exact ⟨v, hv, .same _ _⟩
  | toAcc _ j hj =>
    dsimp only
    rw [get_modify]
    by_cases h : i = j
    · subst h; rw [if_pos rfl, hv]; exact ⟨_, rfl, .toAcc v⟩
    · rw [if_neg h]; exact ⟨v, hv, .same _ _⟩
  | toPend _ j u hu hb =>
    dsimp only
    rw [get_modify]
    by_cases h : i = j
    · subst h
      rw [hv, Option.some.injEq] at hu
      subst hu
      rw [if_pos rfl, hv]; exact ⟨_, rfl, .toPend v hb⟩
    · rw [if_neg h]; exact ⟨v, hv, .same _ _⟩
  | consol _ j hj =>
    dsimp only
    rw [get_modify]
    by_cases h : i = j
    · subst h; rw [if_pos rfl, hv]; exact ⟨_, rfl, .consol v⟩
    · rw [if_neg h]; exact ⟨v, hv, .same _ _⟩
  | dist _ sh fees h1 h2 h3 h4 =>
    dsimp only
    rw [get_credit, hv]
    by_cases h : i ∈ sh.map (·.1)
    · obtain ⟨p, hp, hpi⟩ := List.mem_map.mp h
      obtain ⟨u, hu, hst⟩ := h1 p hp
      rw [hpi, hv, Option.some.injEq] at hu
      subst hu
      exact ⟨_, rfl, .dist _ _ _ _ hst⟩
    · rw [shareOf_eq_zero h]
      refine ⟨_, rfl, ?_⟩
      simp only [add_zero]
      exact .same _ _

/-- A validator appears only by creation. -/
theorem Op.Step.created {x op a b} (h : Op.Step x op a b) {i v} (hn : VMap.get a.vals i = none)
    (hv : VMap.get b.vals i = some v) :
    op = .create i v ∧ v.status = .notSubscribed ∧ v.acc = 0 ∧ v.pend = 0 ∧ v.index = i := by
  have hmod : ∀ j f, VMap.get (modify a.vals j f) i = none := by
    intro j f
    rw [get_modify]
    by_cases h : i = j
    · subst h; rw [if_pos rfl, hn]; rfl
    · rw [if_neg h, hn]
  cases h with
  | adv _ j e he => dsimp only at hv; rw [hmod] at hv; simp at hv
  | seize _ j e u hu he => dsimp only at hv; rw [hmod] at hv; simp at hv
  | move _ k j u w hu hw hkj hb =>
    dsimp only at hv
    rw [get_modify] at hv
    by_cases h : i = j
    · subst h; rw [hn] at hw; simp at hw
    · rw [if_neg h, hmod] at hv; simp at hv
  | create _ j u hn' h1 h2 h3 h4 =>
    dsimp only at hv
    rw [get_insert] at hv
    by_cases h : i = j
    · subst h
      rw [if_pos rfl, Option.some.injEq] at hv
      subst hv
      exact ⟨rfl, h1, h2, h3, h4⟩
    · rw [if_neg h, hn] at hv; simp at hv
  | subType _ j t => dsimp only at hv; rw [hmod] at hv; simp at hv
  | recv _ y => dsimp only at hv; rw [hn] at hv; simp at hv
  | toPool _ => dsimp only at hv; rw [hn] at hv; simp at hv
  | toAcc _ j hj => dsimp only at hv; rw [hmod] at hv; simp at hv
  | toPend _ j u hu hb => dsimp only at hv; rw [hmod] at hv; simp at hv
  | consol _ j hj => dsimp only at hv; rw [hmod] at hv; simp at hv
  | dist _ sh fees h1 h2 h3 h4 => dsimp only at hv; rw [get_credit, hn] at hv; simp at hv

/-- Lift a reflexive-transitive relation between records from operations to paths. -/
theorem Path.lift {x ops a b} (R : Validator → Validator → Prop) (hr : ∀ v, R v v)
    (ht : ∀ u v w, R u v → R v w → R u w) (A : Op → Prop) (hA : ∀ op ∈ ops, A op) {i}
    (hstep : ∀ op f v v', A op → VStep i f op v v' → R v v')
    (h : Path x ops a b) {v} (hv : VMap.get a.vals i = some v) :
    ∃ v', VMap.get b.vals i = some v' ∧ R v v' := by
  induction h generalizing v with
  | nil => exact ⟨v, hv, hr v⟩
  | cons hs _ ih =>
    obtain ⟨v1, h1, hvs⟩ := hs.vstep hv
    obtain ⟨v2, h2, hR⟩ := ih (fun o ho => hA o (by simp [ho])) h1
    exact ⟨v2, h2, ht _ _ _ (hstep _ _ _ _ (hA _ (by simp)) hvs) hR⟩

/-- Where the records at the end of a path come from. -/
theorem Path.origin {x ops a b} (h : Path x ops a b) {i v'} (hv : VMap.get b.vals i = some v') :
    (∃ v, VMap.get a.vals i = some v) ∨
    ∃ pre post v c, ops = pre ++ .create i v :: post ∧ v.status = .notSubscribed ∧ v.acc = 0 ∧
      v.pend = 0 ∧ v.index = i ∧ VMap.get c.vals i = some v ∧ Path x post c b := by
  induction h with
  | nil => exact Or.inl ⟨v', hv⟩
  | @cons op ops a b1 b2 hs hp ih =>
    rcases ih hv with ⟨v, h1⟩ | ⟨pre, post, v, c, h1, h2⟩
    · cases ha : VMap.get a.vals i with
      | some u => exact Or.inl ⟨u, rfl⟩
      | none =>
        obtain ⟨e, k1, k2, k3, k4⟩ := hs.created ha h1
        exact Or.inr ⟨[], ops, v, b1, by rw [e]; rfl, k1, k2, k3, k4, h1, hp⟩
    · exact Or.inr ⟨op :: pre, post, v, c, by rw [h1]; rfl, h2⟩

/-- Lift a property of records to the end of a path. -/
theorem Path.inv {x ops a b} (P : Nat → Validator → Prop) (A : Op → Prop) (hA : ∀ op ∈ ops, A op)
    (hstep : ∀ i op f v v', A op → VStep i f op v v' → P i v → P i v')
    (hnew : ∀ i v, A (.create i v) → v.status = .notSubscribed → v.acc = 0 → v.pend = 0 →
      v.index = i → P i v)
    (h : Path x ops a b) (h0 : ∀ i v, VMap.get a.vals i = some v → P i v) :
    ∀ i v, VMap.get b.vals i = some v → P i v := by
  induction h with
  | nil => exact h0
  | @cons op ops a b1 b2 hs hp ih =>
    apply ih (fun o ho => hA o (by simp [ho]))
    intro i v hv
    cases ha : VMap.get a.vals i with
    | some u =>
      obtain ⟨v', h1, hvs⟩ := hs.vstep ha
      rw [hv, Option.some.injEq] at h1
      subst h1
      exact hstep _ _ _ _ _ (hA _ (by simp)) hvs (h0 i u ha)
    | none =>
      obtain ⟨e, k1, k2, k3, k4⟩ := hs.created ha hv
      exact hnew i v (by rw [← e]; exact hA _ (by simp)) k1 k2 k3 k4

/-! ### Non-negativity -/

def Bal.NonNeg (b : Bal) : Prop :=
  0 ≤ b.pool ∧ 0 ≤ b.f ∧ ∀ p ∈ b.vals, 0 ≤ p.2.pend ∧ 0 ≤ p.2.acc

theorem mem_modify {m : VMap} {k f p} (h : p ∈ VMap.modify m k f) :
    p ∈ m ∨ ∃ v, (k, v) ∈ m ∧ p = (k, f v) := by
  unfold VMap.modify at h
  obtain ⟨q, hq, hqp⟩ := List.mem_map.mp h
  split at hqp
  · rename_i hk
    right
    refine ⟨q.2, ?_, ?_⟩
    · rw [← hk]; exact hq
    · rw [← hqp, hk]
  · left; rw [← hqp]; exact hq

theorem Op.Step.nonneg {x op a b} (hx : x) (h : Op.Step x op a b) (ha : a.NonNeg)
    (hr : ∀ y, op = .recv y → 0 ≤ y) : b.NonNeg := by
  obtain ⟨h1, h2, h3⟩ := ha
  have hget : ∀ {i v}, VMap.get a.vals i = some v → 0 ≤ v.pend ∧ 0 ≤ v.acc := fun hv =>
    h3 _ (mem_of_get hv)
  have hmod : ∀ {m : VMap} {k : Nat} {f : Validator → Validator},
      (∀ p ∈ m, 0 ≤ p.2.pend ∧ 0 ≤ p.2.acc) →
      (∀ v, 0 ≤ v.pend → 0 ≤ v.acc → 0 ≤ (f v).pend ∧ 0 ≤ (f v).acc) →
      ∀ p ∈ VMap.modify m k f, 0 ≤ p.2.pend ∧ 0 ≤ p.2.acc := by
    intro m k f hm hf p hp
    rcases mem_modify hp with hp | ⟨v, hv, rfl⟩
    · exact hm p hp
    · have := hm _ hv
      exact hf v this.1 this.2
  cases h with
  | adv _ j e he =>
    refine ⟨h1, h2, ?_⟩
    dsimp only
    exact hmod h3 (by intro v p q; exact ⟨p, q⟩)
  | seize _ j e u hu he =>
    have := (hget hu).1
    refine ⟨h1, by dsimp only; omega, ?_⟩
    dsimp only
    exact hmod h3 (by intro v p q; exact ⟨le_refl _, q⟩)
  | move _ k j u w hu hw hkj hb =>
    have := (hget hu).1
    refine ⟨h1, h2, ?_⟩
    dsimp only
    refine hmod (hmod h3 (by intro v p q; exact ⟨le_refl _, q⟩)) ?_
    intro v p q; exact ⟨by dsimp only; omega, q⟩
  | create _ j u hn k1 k2 k3 k4 =>
    refine ⟨h1, h2, ?_⟩
    intro p hp
    rcases mem_insert hp with rfl | hp
    · simp [k2, k3]
    · exact h3 p hp
  | subType _ j t =>
    refine ⟨h1, h2, ?_⟩
    dsimp only
    exact hmod h3 (by intro v p q; exact ⟨p, q⟩)
  | recv _ y =>
    have := hr y rfl
    exact ⟨h1, by dsimp only; omega, h3⟩
  | toPool _ => exact ⟨by dsimp only; omega, le_refl _, h3⟩
  | toAcc _ j hj =>
    refine ⟨h1, le_refl _, ?_⟩
    dsimp only
    exact hmod h3 (by intro v p q; exact ⟨p, by dsimp only; omega⟩)
  | toPend _ j u hu hb =>
    refine ⟨h1, le_refl _, ?_⟩
    dsimp only
    exact hmod h3 (by intro v p q; exact ⟨by dsimp only; omega, q⟩)
  | consol _ j hj =>
    refine ⟨h1, h2, ?_⟩
    dsimp only
    exact hmod h3 (by intro v p q; exact ⟨le_refl _, by dsimp only; omega⟩)
  | dist _ sh fees k1 k2 k3 k4 =>
    obtain ⟨hf, hsh⟩ := k4 hx h2
    refine ⟨by dsimp only; omega, le_refl _, ?_⟩
    intro p hp
    unfold credit at hp
    obtain ⟨q, hq, rfl⟩ := List.mem_map.mp hp
    have := h3 q hq
    refine ⟨?_, this.2⟩
    have hs : 0 ≤ shareOf sh q.1 := by
      unfold shareOf
      apply sum_nonneg
      intro y hy
      obtain ⟨r, hr, rfl⟩ := List.mem_map.mp hy
      exact hsh r (List.mem_filter.mp hr).1
    dsimp only; omega

theorem Path.nonneg {x ops a b} (hx : x) (h : Path x ops a b) (ha : a.NonNeg)
    (hr : ∀ y, Op.recv y ∈ ops → 0 ≤ y) : b.NonNeg := by
  induction h with
  | nil => exact ha
  | cons hs hp ih =>
    exact ih (hs.nonneg hx ha (fun y hy => hr y (by simp [hy]))) (fun y hy => hr y (by simp [hy]))

/-- accumulated balances and pool fees never shrink -/
theorem Op.Step.mono {x op a b} (hx : x) (h : Op.Step x op a b) (ha : a.NonNeg) :
    a.pool ≤ b.pool ∧ ∀ i v, VMap.get a.vals i = some v →
      ∃ v', VMap.get b.vals i = some v' ∧ v.acc ≤ v'.acc := by
  constructor
  · cases h with
    | toPool _ => have := ha.2.1; dsimp only; omega
    | dist _ sh fees k1 k2 k3 k4 => have := (k4 hx ha.2.1).1; dsimp only; omega
    | _ => exact le_refl _
  · intro i v hv
    obtain ⟨v', h1, hvs⟩ := h.vstep hv
    refine ⟨v', h1, ?_⟩
    have hp : 0 ≤ v.pend := (ha.2.2 _ (mem_of_get hv)).1
    have hf := ha.2.1
    cases hvs with
    | toAcc => dsimp only; omega
    | consol => dsimp only; omega
    | _ => exact le_refl _

theorem Path.mono {x ops a b} (hx : x) (h : Path x ops a b) (ha : a.NonNeg)
    (hr : ∀ y, Op.recv y ∈ ops → 0 ≤ y) :
    a.pool ≤ b.pool ∧ ∀ i v, VMap.get a.vals i = some v →
      ∃ v', VMap.get b.vals i = some v' ∧ v.acc ≤ v'.acc := by
  induction h with
  | nil => exact ⟨le_refl _, fun i v hv => ⟨v, hv, le_refl _⟩⟩
  | cons hs hp ih =>
    obtain ⟨p1, q1⟩ := hs.mono hx ha
    obtain ⟨p2, q2⟩ := ih (hs.nonneg hx ha (fun y hy => hr y (by simp [hy])))
      (fun y hy => hr y (by simp [hy]))
    refine ⟨le_trans p1 p2, ?_⟩
    intro i v hv
    obtain ⟨v1, h1, l1⟩ := q1 i v hv
    obtain ⟨v2, h2, l2⟩ := q2 i v1 h1
    exact ⟨v2, h2, le_trans l1 l2⟩

end Verif
