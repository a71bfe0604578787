import Verif.Spec.Pieces
import Verif.Props.Reorder
import Verif.Lemmas.Refine
import Verif.Props.Idle
import Verif.Lemmas.CleanIdle
/-
C103 and C104: a payment cut in pieces, and a larger payment.
-/
namespace Verif
open VMap

/-! ### The arithmetic -/

/-- a share of `w` parts of `T`, after the fee -/
def part (fee w T r : Int) : Int := (r - feeOf fee r) * w / T

theorem floor_two {T : Int} (hT : 0 < T) (a b : Int) : a / T + b / T ≤ (a + b) / T ∧ (a + b) / T ≤ a / T + b / T + 1 := by
  have h1 := Int.emod_add_mul_ediv a T
  have h2 := Int.emod_add_mul_ediv b T
  have h3 := Int.emod_nonneg a hT.ne'
  have h4 := Int.emod_nonneg b hT.ne'
  have h5 := Int.emod_lt_of_pos a hT
  have h6 := Int.emod_lt_of_pos b hT
  constructor
  · apply Int.le_ediv_of_mul_le hT
    nlinarith
  · apply Int.le_of_lt_add_one
    apply Int.ediv_lt_of_lt_mul hT
    nlinarith

theorem part_two {fee w T : Int} (hw : 0 ≤ w) (hT : w ≤ T) (a b : Int) :
    part fee w T (a + b) - 1 ≤ part fee w T a + part fee w T b ∧
      part fee w T a + part fee w T b ≤ part fee w T (a + b) + 1 := by
  unfold part
  rcases hw.eq_or_lt with rfl | hw'
  · simp
  have hT0 : 0 < T := by omega
  have hf := floor_two (T := 10000) (by decide) (a * fee) (b * fee)
  have e : a * fee + b * fee = (a + b) * fee := by ring
  rw [e] at hf
  obtain ⟨f1, f2⟩ := hf
  have f1 : feeOf fee a + feeOf fee b ≤ feeOf fee (a + b) := f1
  have f2 : feeOf fee (a + b) ≤ feeOf fee a + feeOf fee b + 1 := f2
  obtain ⟨g1, g2⟩ := floor_two hT0 ((a - feeOf fee a) * w) ((b - feeOf fee b) * w)
  have e2 : (a - feeOf fee a) * w + (b - feeOf fee b) * w = (a + b - (feeOf fee a + feeOf fee b)) * w := by ring
  rw [e2] at g1 g2
  have k1 : (a + b - feeOf fee (a + b)) * w / T ≤ (a + b - (feeOf fee a + feeOf fee b)) * w / T :=
    Int.ediv_le_ediv hT0 (by nlinarith)
  have k2 : (a + b - (feeOf fee a + feeOf fee b)) * w / T ≤ (a + b - feeOf fee (a + b)) * w / T + 1 := by
    have : ((a + b - feeOf fee (a + b)) * w + 1 * T) / T = (a + b - feeOf fee (a + b)) * w / T + 1 :=
      Int.add_mul_ediv_right _ _ hT0.ne'
    rw [← this]
    exact Int.ediv_le_ediv hT0 (by nlinarith)
  omega

theorem part_pieces {fee w T : Int} (hw : 0 ≤ w) (hT : w ≤ T) (l : List Int) :
    part fee w T l.sum - ((l.length - 1 : Nat) : Int) ≤ (l.map (part fee w T)).sum ∧
      (l.map (part fee w T)).sum ≤ part fee w T l.sum + ((l.length - 1 : Nat) : Int) := by
  induction l with
  | nil => simp [part, feeOf]
  | cons a l ih =>
    cases l with
    | nil => simp
    | cons b l =>
      have := part_two (fee := fee) hw hT a (b :: l).sum
      rw [List.map_cons, List.sum_cons (a := a), List.sum_cons (a := part fee w T a)]
      simp only [List.length_cons] at ih ⊢
      omega

theorem le_sum {l : List Int} (h : ∀ x ∈ l, 0 ≤ x) {x : Int} (hx : x ∈ l) : x ≤ l.sum := by
  induction l with
  | nil => cases hx
  | cons a l ih =>
    have h0 : ∀ {l : List Int}, (∀ x ∈ l, 0 ≤ x) → 0 ≤ l.sum := by
      intro l h
      induction l with
      | nil => simp
      | cons b l ih2 =>
        have := ih2 fun x hx => h x (by simp [hx])
        have := h b (by simp)
        simp only [List.sum_cons]; omega
    rw [List.sum_cons]
    rcases List.mem_cons.mp hx with rfl | hx
    · have := h0 (l := l) fun x hx => h x (by simp [hx])
      omega
    · have := ih (fun x hx => h x (by simp [hx])) hx
      have := h a (by simp)
      omega

/-! ### Payments of a block -/

section
variable {E : Env} {V : Nat → Nat → BVal} {K : Nat → List (Nat × Nat)}

theorem shareOf_map {el : List Nat} (hn : el.Nodup) (g : Nat → Int) (i : Nat) :
    shareOf (el.map fun j => (j, g j)) i = if i ∈ el then g i else 0 := by
  by_cases h : i ∈ el
  · rw [if_pos h]
    exact shareOf_eq_of_nodup (by rw [List.map_map]; simpa [Function.comp_def] using hn)
      (List.mem_map.mpr ⟨i, h, rfl⟩)
  · rw [if_neg h]
    unfold shareOf
    rw [List.filter_eq_nil_iff.mpr]
    · rfl
    · intro p hp
      obtain ⟨j, hj, rfl⟩ := List.mem_map.mp hp
      simp only [beq_iff_eq]
      rintro rfl; exact h hj

theorem earners_nodup {s : State} (hs : Sorted s.vals) : (earners s).Nodup := by
  unfold earners
  exact ((hs.nodup_keys).sublist ((List.filter_sublist).map _))

/-- since the first fork the share of a validator is a fixed part of the amount -/
theorem canon_part {net : Str} {s : State} (hs : Sorted s.vals) (hp : PostFork1 net s.nextSlot)
    (hV : ∀ j, (V s.nextSlot j).effBal < 9223372036854775808) (i : Nat) :
    ∃ w T, 0 ≤ w ∧ w ≤ T ∧ ∀ r, shareOf (canon V net s r).1 i = part s.fee w T r := by
  have hn := earners_nodup hs
  have zero : (∀ r, shareOf (canon V net s r).1 i = 0) →
      ∃ w T, 0 ≤ w ∧ w ≤ T ∧ ∀ r, shareOf (canon V net s r).1 i = part s.fee w T r :=
    fun h => ⟨0, 1, by decide, by decide, fun r => by rw [h r]; simp [part]⟩
  by_cases he : earners s = []
  · exact zero fun r => by simp [canon, he, shareOf]
  by_cases hi : i ∈ earners s
  · by_cases hel : PostElectra net s.nextSlot
    · have hnn : ∀ j, 0 ≤ i64 (V s.nextSlot j).effBal := fun j => by
        rw [i64_of_lt (hV j)]; omega
      refine ⟨i64 (V s.nextSlot i).effBal, ((earners s).map fun i => i64 (V s.nextSlot i).effBal).sum, hnn i, ?_, ?_⟩
      · exact le_sum (by
          intro x hx
          obtain ⟨j, _, rfl⟩ := List.mem_map.mp hx
          exact hnn j) (List.mem_map.mpr ⟨i, hi, rfl⟩)
      · intro r
        unfold canon
        simp only [he, if_false, hel, if_true]
        rw [shareOf_map hn, if_pos hi, part]
    · refine ⟨1, (earners s).length, by decide, ?_, ?_⟩
      · have := List.length_pos_of_mem hi
        omega
      · intro r
        unfold canon
        simp only [he, if_false, hel, hp, if_true]
        rw [shareOf_map hn, if_pos hi, part, Int.mul_one]
  · refine zero fun r => ?_
    unfold canon
    simp only [he, if_false]
    split
    · rw [shareOf_map hn, if_neg hi]
    · rw [shareOf_map hn, if_neg hi]

/-- nothing is lost in a distribution -/
theorem canon_total {net : Str} {s : State} (r : Int) :
    (canon V net s r).2 + ((canon V net s r).1.map (·.2)).sum = r := by
  unfold canon
  dsimp only
  split
  · simp
  rename_i he
  have hmap : ∀ g : Nat → Int, ((earners s).map fun i => (i, g i)).map (·.2) = (earners s).map g := by
    intro g; rw [List.map_map]; rfl
  have hconst : ∀ x : Int, ((earners s).map fun _ => x).sum = (earners s).length * x := by
    intro x; simp
  split
  · dsimp only; rw [hmap]; ring
  · split
    · dsimp only
      rw [hmap, hconst]
      have := Int.emod_add_mul_ediv (r - feeOf s.fee r) (earners s).length
      linarith
    · dsimp only
      rw [hmap, hconst]
      have := Int.emod_add_mul_ediv (r - feeOf s.fee r - r * s.fee % 10000) (earners s).length
      linarith

theorem canon_tracked {net : Str} {s : State} (r : Int) : ∀ p ∈ (canon V net s r).1, (VMap.get s.vals p.1).isSome := by
  have hmem : ∀ g : Nat → Int, ∀ p ∈ (earners s).map fun i => (i, g i), (VMap.get s.vals p.1).isSome := by
    intro g p hp
    obtain ⟨i, hi, rfl⟩ := List.mem_map.mp hp
    obtain ⟨q, hq, rfl⟩ := List.mem_map.mp hi
    rw [get_isSome_iff]
    exact List.mem_map.mpr ⟨q, (List.mem_filter.mp hq).1, rfl⟩
  unfold canon
  dsimp only
  split
  · simp
  · split
    · exact hmem _
    · split <;> exact hmem _

theorem shareOf_flatMap {α : Type} (l : List α) (f : α → List (Nat × Int)) (i : Nat) :
    shareOf (l.flatMap f) i = (l.map fun d => shareOf (f d) i).sum := by
  induction l with
  | nil => rfl
  | cons a l ih =>
    rw [List.flatMap_cons, List.map_cons, List.sum_cons, ← ih]
    unfold shareOf
    rw [List.filter_append, List.map_append, List.sum_append]

/-- the same payments on top of `others` in one go or in other pieces -/
theorem donLoop_pieces {E' : Env} (hE : ValidEnv E) (hX : ExactEnv E) (hR : ReadsChain V K E)
    (hE' : ValidEnv E') (hX' : ExactEnv E') (hR' : ReadsChain V K E') {net : Str} {s s' a a' : State} (h : Same s s')
    (hu : s'.subs = s.subs) (hp : PostFork1 net s.nextSlot) (hV : ∀ j, (V s.nextSlot j).effBal < 9223372036854775808)
    {others ds ds' : List EtherEvent} {lo hi d : Int} (hsum : (ds'.map (·.amount)).sum = (ds.map (·.amount)).sum + d)
    (hpart : ∀ w T, 0 ≤ w → w ≤ T → ((ds.map (·.amount)).map (part s.fee w T)).sum + lo ≤
        ((ds'.map (·.amount)).map (part s.fee w T)).sum ∧
      ((ds'.map (·.amount)).map (part s.fee w T)).sum ≤ ((ds.map (·.amount)).map (part s.fee w T)).sum + hi)
    (ha : donLoop E net (others ++ ds) s = .ok a) (ha' : donLoop E' net (others ++ ds') s' = .ok a') :
    SameButPaid lo hi d a a' ∧ Sorted a.vals := by
  obtain ⟨hs, t, x, c, le, ld, ls, rfl⟩ := h
  dsimp only at hu
  subst hu
  have ea := donLoop_canon hE hX hR _ hs ha
  have eb := donLoop_canon (s := { s with tick := t, stateHash := x, committed := c, ether := le, donations := ld, subs := s.subs })
    hE' hX' hR' _ hs ha'
  have kc : ∀ r, canon V net { s with tick := t, stateHash := x, committed := c, ether := le, donations := ld, subs := s.subs } r =
      canon V net s r := fun r => rfl
  simp only [kc] at eb
  have va : a.vals = credit ((others ++ ds).flatMap fun d => (canon V net s d.amount).1) s.vals := by rw [ea]
  have vb : a'.vals = credit ((others ++ ds').flatMap fun d => (canon V net s d.amount).1) s.vals := by rw [eb]
  have fa : a.poolFees = s.poolFees + ((others ++ ds).map fun d => (canon V net s d.amount).2).sum := by rw [ea]
  have fb : a'.poolFees = s.poolFees + ((others ++ ds').map fun d => (canon V net s d.amount).2).sum := by rw [eb]
  have hk : ∀ sh, (credit sh s.vals).map (·.1) = s.vals.map (·.1) := fun sh => keys_credit sh s.vals
  have htot : ∀ l : List EtherEvent,
      (s.poolFees + (l.map fun d => (canon V net s d.amount).2).sum) +
        ((credit (l.flatMap fun d => (canon V net s d.amount).1) s.vals).map fun p => p.2.pend).sum =
      s.poolFees + (s.vals.map fun p => p.2.pend).sum + (l.map (·.amount)).sum := by
    intro l
    have := total_pend_credit hs (sh := l.flatMap fun d => (canon V net s d.amount).1) (by
      intro p hp
      obtain ⟨d, _, hd⟩ := List.mem_flatMap.mp hp
      exact canon_tracked _ p hd)
    have e : ((l.flatMap fun d => (canon V net s d.amount).1).map (·.2)).sum +
        (l.map fun d => (canon V net s d.amount).2).sum = (l.map (·.amount)).sum := by
      clear this
      induction l with
      | nil => rfl
      | cons d l ih =>
        simp only [List.flatMap_cons, List.map_append, List.sum_append, List.map_cons, List.sum_cons]
        have := canon_total (V := V) (net := net) (s := s) d.amount
        omega
    have this : ((credit (l.flatMap fun d => (canon V net s d.amount).1) s.vals).map fun p => p.2.pend).sum =
      (s.vals.map fun p => p.2.pend).sum + ((l.flatMap fun d => (canon V net s d.amount).1).map (·.2)).sum := this
    omega
  refine ⟨⟨?_, ?_, ?_, ?_⟩, by rw [va]; exact hs.credit _⟩
  · rw [va, vb, hk, hk]
  · intro i v hv
    rw [va, get_credit] at hv
    obtain ⟨u, hu, rfl⟩ := Option.map_eq_some_iff.mp hv
    rw [vb, get_credit, hu]
    refine ⟨_, rfl, ?_⟩
    dsimp only
    obtain ⟨w, T, hw, hT, hsh⟩ := canon_part hs hp hV i
    have hpt : ∀ l : List EtherEvent, shareOf (l.flatMap fun d => (canon V net s d.amount).1) i =
        ((l.map (·.amount)).map (part s.fee w T)).sum := by
      intro l
      rw [shareOf_flatMap, List.map_map]
      simp only [hsh, Function.comp_def]
    rw [hpt, hpt]
    simp only [List.map_append, List.sum_append]
    have := hpart w T hw hT
    omega
  · rw [fa, fb, va, vb, htot, htot]
    simp only [List.map_append, List.sum_append, hsum]
    ring
  · rw [ea, eb]

end

/-- unbans do not touch money -/
theorem unbanned_within {lo hi d : Int} {s s' : State} (h : SameButPaid lo hi d s s') (evs : List BanEvent) :
    SameButPaid lo hi d { s with vals := unbanned s.vals evs } { s' with vals := unbanned s'.vals evs } := by
  have hkey : ∀ m : VMap, (unbanned m evs).map (·.1) = m.map (·.1) := by
    intro m
    unfold unbanned
    rw [List.map_map]
    apply List.map_congr_left
    intro p _
    simp only [Function.comp]
    split <;> rfl
  have hpend : ∀ m : VMap, ((unbanned m evs).map fun p => p.2.pend) = m.map fun p => p.2.pend := by
    intro m
    unfold unbanned
    rw [List.map_map]
    apply List.map_congr_left
    intro p _
    simp only [Function.comp]
    split <;> rfl
  have hget : ∀ (m : VMap) (i : Nat), VMap.get (unbanned m evs) i =
      (VMap.get m i).map fun v => if v.status = .banned ∧ ∃ ev ∈ evs, ev.validatorId = i then
        { v with status := .active } else v := by
    intro m i
    induction m with
    | nil => rfl
    | cons p m ih =>
      obtain ⟨j, v⟩ := p
      unfold unbanned at ih ⊢
      rw [List.map_cons]
      by_cases hj : j = i
      · subst hj
        by_cases hb : v.status = .banned ∧ ∃ ev ∈ evs, ev.validatorId = j
        · rw [if_pos hb]; simp [VMap.get, hb]
        · rw [if_neg hb]; simp only [VMap.get, if_true, Option.map_some]; rw [if_neg hb]
      · have : (if v.status = .banned ∧ ∃ ev ∈ evs, ev.validatorId = j then (j, { v with status := Status.active })
            else (j, v)).1 = j := by split <;> rfl
        simp only [VMap.get, this, hj, if_false]
        exact ih
  refine ⟨?_, ?_, ?_, h.rest⟩
  · dsimp only; rw [hkey, hkey]; exact h.tracked
  · intro i v hv
    dsimp only at hv ⊢
    rw [hget] at hv
    obtain ⟨u, hu, rfl⟩ := Option.map_eq_some_iff.mp hv
    obtain ⟨x, hx, b1, b2⟩ := h.records i u hu
    refine ⟨x, ?_, ?_, ?_⟩
    · rw [hget, hx, Option.map_some]
      dsimp only
      split <;> rfl
    · split <;> exact b1
    · split <;> exact b2
  · dsimp only; rw [hpend, hpend]; exact h.money

/-! ### The block -/

/-- what is read as the reward of a block depends on the payments only through their recipient of that amount -/
theorem mevReward_ether {b : FullBlock} {m : Mev} (pays : List EtherEvent) (h : mevReward b = .ok m) :
    mevReward { b with events := { b.events with ether := pays } } = .ok m ∨
    ∃ dest, m = ⟨m.amount, true, mevRecipient b.events.ether m.amount dest⟩ ∧
      mevReward { b with events := { b.events with ether := pays } } =
        .ok ⟨m.amount, true, mevRecipient pays m.amount dest⟩ := by
  unfold mevReward at h ⊢
  split at h
  · cases h
  rename_i c hc
  rw [hc]
  rw [bind_ok] at h
  obtain ⟨txs, h1, h⟩ := h
  dsimp only
  rw [h1]
  dsimp only [bind, Except.bind]
  split at h
  · exact Or.inl h
  · cases h
  rename_i tx e
  split at h
  · exact Or.inl h
  rename_i dest e
  split at h
  · cases h
  rename_i sender e
  split at h
  · cases h
  rename_i wl e
  rw [bind_ok] at h
  obtain ⟨slot, h2, h⟩ := h
  rw [h2]
  dsimp only
  split at h
  · left; rename_i e; rw [if_pos e]; exact h
  rename_i e
  rw [if_neg e]
  simp only [bind_ok] at h
  obtain ⟨fr, h3, isFr, h4, isWl, h5, h⟩ := h
  rw [h3]
  dsimp only
  rw [h4]
  dsimp only
  rw [h5]
  dsimp only
  split at h
  · right
    rename_i e
    rw [if_pos e]
    cases h
    exact ⟨dest, rfl, rfl⟩
  · left; rename_i e; rw [if_neg e]; exact h

theorem find_apart {others ds ds' : List EtherEvent} {x : Int} (h : ∀ e ∈ ds ++ ds', e.amount ≠ x) :
    (others ++ ds').find? (fun e => e.amount == x) = (others ++ ds).find? (fun e => e.amount == x) := by
  have h1 : ds.find? (fun e => e.amount == x) = none := by
    rw [List.find?_eq_none]; intro e he; simpa using h e (by simp [he])
  have h2 : ds'.find? (fun e => e.amount == x) = none := by
    rw [List.find?_eq_none]; intro e he; simpa using h e (by simp [he])
  rw [List.find?_append, List.find?_append, h1, h2]

theorem builderAmount_of {b : FullBlock} {m : Mev} (h : mevReward b = .ok m) (hp : m.present = true) :
    BuilderAmount b m.amount := by
  rcases mevReward_spec (pool := []) h with ⟨h1, _, _, h4⟩ | ⟨tx, dest, h1, _, h3, _⟩ | ⟨_, _, h3⟩
  · exact Or.inl ⟨h1, h4⟩
  · exact Or.inr ⟨tx, dest, h1, h3⟩
  · rw [hp] at h3; cases h3

theorem mevReward_pieces {b : FullBlock} {m : Mev} {others ds ds' : List EtherEvent}
    (hb : b.events.ether = others ++ ds) (ha : ∀ e ∈ ds ++ ds', ¬ BuilderAmount b e.amount) (h : mevReward b = .ok m) :
    mevReward { b with events := { b.events with ether := others ++ ds' } } = .ok m := by
  rcases mevReward_ether (others ++ ds') h with h1 | ⟨dest, h1, h2⟩
  · exact h1
  have hB := builderAmount_of h (by rw [h1])
  rw [h2, h1]
  have : mevRecipient (others ++ ds') m.amount dest = mevRecipient b.events.ether m.amount dest := by
    unfold mevRecipient
    rw [hb, find_apart (fun e he hx => ha e he (by rw [hx]; exact hB))]
  rw [this]

theorem getDonations_pieces {b : FullBlock} {others ds ds' : List EtherEvent}
    (hb : b.events.ether = others ++ ds) (ha : ∀ e ∈ ds ++ ds', ¬ BuilderAmount b e.amount) {pool dons dons'}
    (h : getDonations b pool = .ok dons)
    (h' : getDonations { b with events := { b.events with ether := others ++ ds' } } pool = .ok dons') :
    (b.cons = none ∧ dons = [] ∧ dons' = []) ∨ ∃ l, dons = l ++ ds ∧ dons' = l ++ ds' := by
  unfold getDonations at h h'
  dsimp only at h'
  cases hc : b.cons with
  | none =>
    rw [hc] at h h'
    cases h; cases h'
    exact Or.inl ⟨rfl, rfl, rfl⟩
  | some c =>
    right
    simp only [hc, bind_ok] at h
    obtain ⟨mev, h1, t, h2, h⟩ := h
    have h3 := mevReward_pieces hb ha h1
    dsimp only at h3
    rw [h3] at h'
    simp only [hc, bind_ok] at h'
    obtain ⟨mev', h1', t', h2', h'⟩ := h'
    have e : mev = mev' := Except.ok.inj h1'
    subst e
    have e : t = t' := by rw [h2] at h2'; exact Except.ok.inj h2'
    subst e
    cases t with
    | false =>
      simp only [Bool.not_false, if_true] at h h'
      cases h; cases h'
      exact ⟨others, hb, rfl⟩
    | true =>
      have hp : mev.present = true := by
        cases hp : mev.present
        · rw [hp] at h2; cases h2
        · rfl
      have hB := builderAmount_of h1 hp
      simp only [Bool.not_true, Bool.false_eq_true, if_false] at h h'
      split at h
      · split at h'
        · cases h; cases h'
          have hf : ∀ l : List EtherEvent, (∀ e ∈ l, e ∈ ds ++ ds') → l.filter (fun e => e.amount ≠ mev.amount) = l := by
            intro l hl
            rw [List.filter_eq_self]
            intro e he
            simp only [decide_eq_true_eq, ne_eq]
            intro hx
            exact ha e (hl e he) (by rw [hx]; exact hB)
          refine ⟨others.filter (fun e => e.amount ≠ mev.amount), ?_, ?_⟩
          · rw [hb, List.filter_append, hf ds (fun e he => by simp [he])]
          · rw [List.filter_append, hf ds' (fun e he => by simp [he])]
        · cases h'
      · cases h

section
variable {E E' : Env} {V : Nat → Nat → BVal} {K : Nat → List (Nat × Nat)}
  (hE : ValidEnv E) (hX : ExactEnv E) (hR : ReadsChain V K E)
  (hE' : ValidEnv E') (hX' : ExactEnv E') (hR' : ReadsChain V K E')
include hE hX hR hE' hX' hR'

omit hE hX hR hE' hX' hR' in
theorem Rel.of {α β : Type} {R : α → β → Prop} {x : M α} {y : M β} (h : Rel R x y) {a b} (h1 : x = .ok a)
    (h2 : y = .ok b) : R a b := h a b h1 h2

omit hE hX hR hE' hX' hR' in
theorem SameButPaid.of_same {s s' : State} (h : Same s s') (hu : s'.subs = s.subs) {lo hi : Int} (h1 : lo ≤ 0)
    (h2 : 0 ≤ hi) : SameButPaid lo hi 0 s s' := by
  obtain ⟨_, t, x, c, le, ld, ls, rfl⟩ := h
  dsimp only at hu
  subst hu
  exact ⟨rfl, fun i v hv => ⟨v.pend, hv, by omega, by omega⟩, by simp, rfl⟩

omit hE hX hR hE' hX' hR' in
theorem upToDonations_frame {F : Env} {net : Str} {s s1 s3 s4 s5 s6 : State} {b : FullBlock} {sb : SumBlock} {us vs}
    (k1 : handleSubs s us vs = .ok s1)
    (k3 : (if sb.type = .okPoolBls then handleBls (if sb.type = .missed ∧ s1.isSubscribed sb.index then handleMissed s1 sb else s1) sb
      else .ok (if sb.type = .missed ∧ s1.isSubscribed sb.index then handleMissed s1 sb else s1)) = .ok s3)
    (k4 : (if sb.type = .okPool then handleCorrect F net s3 sb else .ok s3) = .ok s4)
    (k5 : (if sb.type = .wrongFee ∧ s4.isSubscribed sb.index then handleWrongFee F net s4 sb else .ok s4) = .ok s5)
    (k6 : handleUnsubs F net s5 b.events.unsubs b.valsUnsubs = .ok s6) : s6.subs = s.subs := by
  have e1 : s1.subs = s.subs := by have := congrArg State.subs (handleSubs_frame k1); exact this
  have e2 : (if sb.type = .missed ∧ s1.isSubscribed sb.index then handleMissed s1 sb else s1).subs =
      s1.subs := by split <;> rfl
  have e3 : s3.subs = s1.subs := by
    rw [← e2]
    split at k3
    · have := congrArg State.subs (handleBls_frame k3); exact this
    · rw [← Except.ok.inj k3]
  have e4 : s4.subs = s3.subs := by
    split at k4
    · have := congrArg State.subs (handleCorrect_frame k4); exact this
    · rw [← Except.ok.inj k4]
  have e5 : s5.subs = s4.subs := by
    split at k5
    · have := congrArg State.subs (handleWrongFee_frame k5); exact this
    · rw [← Except.ok.inj k5]
  have e6 : s6.subs = s5.subs := by have := congrArg State.subs (handleUnsubs_frame k6); exact this
  rw [e6, e5, e4, e3, e1]

theorem applyBlock_pieces {net : Str} {s s' a a' : State} (h : Same s s') (hu : s'.subs = s.subs) (b sb pays) {dons dons' : List EtherEvent}
    {lo hi d : Int}
    (hd : ∀ {u u' v v' : State}, Same u u' → u'.subs = u.subs → u.nextSlot = s.nextSlot → u.fee = s.fee →
      handleDonations E net u dons = .ok v → handleDonations E' net u' dons' = .ok v' → SameButPaid lo hi d v v' ∧ Sorted v.vals ∧ Sorted v'.vals)
    (hban : b.events.bans = [])
    (ha : applyBlock E net s b sb dons = .ok a)
    (ha' : applyBlock E' net s' { b with events := { b.events with ether := pays } } sb dons' = .ok a') :
    SameButPaid lo hi d a a' := by
  obtain ⟨hs, t, x, c, le, ld, ls, rfl⟩ := h
  unfold applyBlock at ha ha'
  dsimp only at ha ha'
  simp only [bind_ok] at ha ha'
  obtain ⟨s1, k1, s3, k3, s4, k4, s5, k5, s6, k6, s7, k7, s8, k8, k9⟩ := ha
  obtain ⟨t1, l1, t3, l3, t4, l4, t5, l5, t6, l6, t7, l7, t8, l8, l9⟩ := ha'
  have h1 : Same s1 t1 := by
    refine Rel.of ?_ k1 l1
    exact handleSubs_same (s := { s with subs := s.subs ++ b.events.subs, unsubs := s.unsubs ++ b.events.unsubs, ether := s.ether ++ b.events.ether })
      ⟨hs, t, x, c, le ++ pays, ld, ls ++ b.events.subs, rfl⟩ fun _ => rfl
  have h2 : Same (if sb.type = .missed ∧ s1.isSubscribed sb.index then handleMissed s1 sb else s1)
      (if sb.type = .missed ∧ t1.isSubscribed sb.index then handleMissed t1 sb else t1) := by
    rw [h1.isSubscribed]
    exact Same.ite (handleMissed_same h1 _) h1
  have h3 : Same s3 t3 := Rel.ite (fun _ => handleBls_same h2 _) (fun _ => .ok h2) _ _ k3 l3
  have h4 : Same s4 t4 := Rel.ite (fun _ => handleCorrect_same hE hX hR hE' hX' hR' h3 _) (fun _ => .ok h3) _ _ k4 l4
  have l5' := l5
  rw [h4.isSubscribed] at l5
  have h5 : Same s5 t5 := Rel.ite (fun _ => handleWrongFee_same hE hX hR hE' hX' hR' h4 _) (fun _ => .ok h4) _ _ k5 l5
  have h6 : Same s6 t6 := handleUnsubs_same hE hX hR hE' hX' hR' h5 _ _ _ _ k6 l6
  have hslot : s6.nextSlot = s.nextSlot := by
    have e1 : s1.nextSlot = s.nextSlot := by have := congrArg State.nextSlot (handleSubs_frame k1); exact this
    have e2 : (if sb.type = .missed ∧ s1.isSubscribed sb.index then handleMissed s1 sb else s1).nextSlot =
        s1.nextSlot := by split <;> rfl
    have e3 : s3.nextSlot = s1.nextSlot := by
      rw [← e2]
      split at k3
      · have := congrArg State.nextSlot (handleBls_frame k3); exact this
      · rw [← Except.ok.inj k3]
    have e4 : s4.nextSlot = s3.nextSlot := by
      split at k4
      · have := congrArg State.nextSlot (handleCorrect_frame k4); exact this
      · rw [← Except.ok.inj k4]
    have e5 : s5.nextSlot = s4.nextSlot := by
      split at k5
      · have := congrArg State.nextSlot (handleWrongFee_frame k5); exact this
      · rw [← Except.ok.inj k5]
    have e6 : s6.nextSlot = s5.nextSlot := by have := congrArg State.nextSlot (handleUnsubs_frame k6); exact this
    rw [e6, e5, e4, e3, e1]
  have hfee : s6.fee = s.fee := by
    have e1 : s1.fee = s.fee := by have := congrArg State.fee (handleSubs_frame k1); exact this
    have e2 : (if sb.type = .missed ∧ s1.isSubscribed sb.index then handleMissed s1 sb else s1).fee =
        s1.fee := by split <;> rfl
    have e3 : s3.fee = s1.fee := by
      rw [← e2]
      split at k3
      · have := congrArg State.fee (handleBls_frame k3); exact this
      · rw [← Except.ok.inj k3]
    have e4 : s4.fee = s3.fee := by
      split at k4
      · have := congrArg State.fee (handleCorrect_frame k4); exact this
      · rw [← Except.ok.inj k4]
    have e5 : s5.fee = s4.fee := by
      split at k5
      · have := congrArg State.fee (handleWrongFee_frame k5); exact this
      · rw [← Except.ok.inj k5]
    have e6 : s6.fee = s5.fee := by have := congrArg State.fee (handleUnsubs_frame k6); exact this
    rw [e6, e5, e4, e3, e1]
  have hsub : t6.subs = s6.subs := by
    rw [upToDonations_frame k1 k3 k4 k5 k6, upToDonations_frame l1 l3 l4 l5' l6]
    dsimp only at hu ⊢
    rw [hu]
  obtain ⟨h7, g1, g2⟩ := hd h6 hsub hslot hfee k7 l7
  rw [hban] at k8 l8
  have k8 : s7 = s8 := Except.ok.inj k8
  have l8 : t7 = t8 := Except.ok.inj l8
  subst k8 l8
  unfold handleUnbans at k9 l9
  split at k9
  · cases k9
  split at l9
  · cases l9
  rw [← Except.ok.inj k9, ← Except.ok.inj l9, unbanLoop_eq g1, unbanLoop_eq g2]
  exact unbanned_within h7 _

theorem slot_paid {o o1 o1' : Oracle} {b b' : FullBlock} {ds ds' : List EtherEvent} {n n' : Nat}
    (hs : MapOK o.st) (hb : PaidOtherwise b b' ds ds')
    {lo hi d : Int} (hsum : (ds'.map (·.amount)).sum = (ds.map (·.amount)).sum + d)
    (hmiss : b.cons = none → d = 0) (hlo : lo ≤ 0) (hhi : 0 ≤ hi)
    (hpart : ∀ w T, 0 ≤ w → w ≤ T → ((ds.map (·.amount)).map (part o1.st.fee w T)).sum + lo ≤
        ((ds'.map (·.amount)).map (part o1.st.fee w T)).sum ∧
      ((ds'.map (·.amount)).map (part o1.st.fee w T)).sum ≤ ((ds.map (·.amount)).map (part o1.st.fee w T)).sum + hi)
    (hban : b.events.bans = [])
    (hf : PostFork1 o.cfg.network n) (hA : n % 1200 = 0 → AllActive V n o1.st) (hV : ∀ j, (V n j).effBal < 2 ^ 63)
    (h : advanceState E o b = .ok (o1, some n)) (h' : advanceState E' o b' = .ok (o1', some n')) :
    n = n' ∧ o1.cfg = o1'.cfg ∧ SameButPaid lo hi d o1.st o1'.st := by
  obtain ⟨⟨others, he, rfl⟩, ha⟩ := hb
  have hS : Same o.st o.st := ⟨hs, o.st.tick, o.st.stateHash, o.st.committed, o.st.ether, o.st.donations, o.st.subs, rfl⟩
  obtain ⟨q, sb, dons, s1, s2, _, _, hv, hsb, _, hd, hap, hcl, ho, hn⟩ := advanceState_ok h
  obtain ⟨q', sb', dons', s1', s2', _, _, hv', hsb', _, hd', hap', hcl', ho', hn'⟩ := advanceState_ok h'
  have hv' : validateConfig o b = .ok (q', true) := hv'
  have e : q = q' := by rw [hv] at hv'; simpa using hv'
  subst e
  have hfr := validateConfig_frame hv
  have hnet : q.cfg.network = o.cfg.network := by rw [hfr]
  have hqs : Same q.st q.st := ⟨by rw [hfr]; exact hs, q.st.tick, q.st.stateHash, q.st.committed, q.st.ether,
    q.st.donations, q.st.subs, rfl⟩
  have ksb : sb = sb' := by
    cases hcons : b.cons with
    | none =>
      have e : summarize q.st { b with events := { b.events with ether := others ++ ds' } } q.cfg.poolAddr =
          summarize q.st b q.cfg.poolAddr := by unfold summarize; simp only [hcons]
      rw [e, hsb] at hsb'
      exact Except.ok.inj hsb'
    | some c =>
      have hm : ∃ m, mevReward b = .ok m := by
        unfold getDonations at hd
        rw [hcons] at hd
        simp only [bind_ok] at hd
        obtain ⟨m, hm, _⟩ := hd
        exact ⟨m, hm⟩
      obtain ⟨m, hm⟩ := hm
      rw [summarize_pays (by rw [hm]; exact mevReward_pieces he ha hm), hsb] at hsb'
      exact Except.ok.inj hsb'
  subst ksb
  have hns : s1.nextSlot = n := by
    rw [hn]
    split at hcl
    · have e : s2.frame = s1.frame := cleanup_frame hcl
      have := congrArg State.nextSlot e; exact this.symm
    · simp only [Except.ok.injEq, Prod.mk.injEq, and_true] at hcl
      rw [hcl]
  have hqn : q.st.nextSlot = n := by
    obtain ⟨_, _, _, _, hF⟩ := applyBlock_frame hap
    have := congrArg State.nextSlot hF
    have : s1.nextSlot = q.st.nextSlot := this
    rw [← this, hns]
  have e2 : s2 = { s1 with tick := s2.tick } := by
    rw [hns] at hcl
    by_cases hc : n % 1200 = 0
    · rw [if_pos hc] at hcl
      refine cleanup_idle_after hE hX hR (slot := n) ?_ hcl
      have := hA hc
      rw [ho] at this
      exact this
    · rw [if_neg hc] at hcl
      simp only [Except.ok.injEq, Prod.mk.injEq, and_true] at hcl
      rw [hcl]
  have hqf : q.st.fee = o1.st.fee := by
    obtain ⟨_, _, _, _, hF⟩ := applyBlock_frame hap
    have e1 := congrArg State.fee hF
    have e1 : s1.fee = q.st.fee := e1
    rw [ho, ← e1, e2]; rfl
  have k := applyBlock_pieces hE hX hR hE' hX' hR' (lo := lo) (hi := hi) (d := d)
    hqs rfl b sb (others ++ ds') ?_ hban hap hap'
  · have hns' : s1'.nextSlot = s1.nextSlot := by have := congrArg State.nextSlot k.rest; exact this
    have e2' : s2' = { s1' with tick := s2'.tick } := by
      rw [hns', hns] at hcl'
      by_cases hc : n % 1200 = 0
      · rw [if_pos hc] at hcl'
        refine cleanup_idle hE' hX' hR' (slot := n) (fun i v hv => ?_) hcl'
        have h1 : i ∈ s1.vals.map (·.1) := by
          rw [← k.tracked]; exact (VMap.get_isSome_iff _ _).mp (by rw [hv]; rfl)
        obtain ⟨w, hw⟩ := Option.isSome_iff_exists.mp ((VMap.get_isSome_iff _ _).mpr h1)
        refine hA hc i w ?_
        rw [ho, e2]; exact hw
      · rw [if_neg hc] at hcl'
        simp only [Except.ok.injEq, Prod.mk.injEq, and_true] at hcl'
        rw [hcl']
    rw [ho, ho', e2, e2']
    refine ⟨by rw [hn, hn', e2, e2']; exact hns'.symm, rfl, k.tracked, k.records, k.money, ?_⟩
    have := congrArg (fun s => { finishSlot s sb with latestSlot := s.nextSlot }) k.rest
    exact this
  · intro u u' v v' hu hus hun huf hv1 hv2
    unfold handleDonations at hv1 hv2
    split at hv1
    · cases hv1
    split at hv2
    · cases hv2
    rw [hnet] at hv1 hv2
    have hf' : PostFork1 o.cfg.network u.nextSlot := by rw [hun, hqn]; exact hf
    have hV' : ∀ j, (V u.nextSlot j).effBal < 9223372036854775808 := by rw [hun, hqn]; exact hV
    have hso : ∀ {F : Env} {l} {x y : State}, ValidEnv F → ExactEnv F → ReadsChain V K F → Sorted x.vals →
        donLoop F o.cfg.network l x = .ok y → Sorted y.vals := by
      intro F l x y f1 f2 f3 hx hy
      rw [donLoop_canon f1 f2 f3 _ hx hy]
      exact hx.credit _
    have hu' : Sorted u'.vals := by obtain ⟨hh, t, x, c, le, ld, ls, rfl⟩ := hu; exact hh
    rcases getDonations_pieces he ha hd hd' with ⟨hnone, rfl, rfl⟩ | ⟨l, rfl, rfl⟩
    · cases hv1; cases hv2
      rw [hmiss hnone]
      exact ⟨SameButPaid.of_same hu hus hlo hhi, hu.1, hu'⟩
    · exact ⟨(donLoop_pieces hE hX hR hE' hX' hR' hu hus hf' hV' hsum (by rw [huf, hqf]; exact hpart) hv1 hv2).1, hso hE hX hR hu.1 hv1,
        hso hE' hX' hR' hu' hv2⟩

/-- **C103** (partial). A block pays the pool the same sum in other pieces (`ds` or `ds'`: one payment or many), none
of them of the amount of the reward of the block. Two oracles with equal books, one processing the one block and one
the other, over the same chain: every validator ends with the same record but for the pending balance, which differs
by at most one wei per piece beyond the first; as much is pending or belongs to the pool in all; and all else is
equal. For slots since the first fork that ban nobody, and cleanup slots at which everybody the books know is active.
Missing because false: slots before the fork, `C103_false_before_fork`, blocks that ban, `C103_false_ban`, cleanup slots
that find somebody who left, `C103_false_leaver`, and pieces of the amount of the reward,
`C103_false_amount_of_reward`. -/
theorem C103_pieces_partial {o o1 o1' : Oracle} {b b' : FullBlock} {ds ds' : List EtherEvent} {n n' : Nat} {k : Int}
    (hs : MapOK o.st) (hb : PaidOtherwise b b' ds ds')
    (hsum : (ds.map (·.amount)).sum = (ds'.map (·.amount)).sum)
    (hk : k = ((ds.length - 1) + (ds'.length - 1) : Nat)) (hban : b.events.bans = [])
    (hf : PostFork1 o.cfg.network n) (hA : n % 1200 = 0 → AllActive V n o1.st) (hV : ∀ j, (V n j).effBal < 2 ^ 63)
    (h : advanceState E o b = .ok (o1, some n)) (h' : advanceState E' o b' = .ok (o1', some n')) :
    n = n' ∧ o1.cfg = o1'.cfg ∧ SameButPaid (-k) k 0 o1.st o1'.st := by
  refine slot_paid hE hX hR hE' hX' hR' hs hb (by omega) (fun _ => rfl) (by omega) (by omega) ?_ hban hf hA hV h h'
  intro w T hw hT
  have p1 := part_pieces (fee := o1.st.fee) hw hT (ds.map (·.amount))
  have p2 := part_pieces (fee := o1.st.fee) hw hT (ds'.map (·.amount))
  rw [← hsum] at p2
  rw [List.length_map] at p1 p2
  omega

omit hE hX hR hE' hX' hR' in
theorem part_mono {fee w T : Int} (hf : 0 ≤ fee) (hf' : fee ≤ 10000) (hw : 0 ≤ w) (hT : w ≤ T) {x y : Int}
    (h : x ≤ y) : part fee w T x ≤ part fee w T y ∧ part fee w T y ≤ part fee w T x + (y - x) := by
  unfold part
  rcases hw.eq_or_lt with rfl | hw'
  · simp only [mul_zero, Int.zero_ediv]; omega
  have hT0 : 0 < T := by omega
  have f1 : feeOf fee x ≤ feeOf fee y := Int.ediv_le_ediv (by decide) (by nlinarith)
  have f2 : feeOf fee y ≤ feeOf fee x + (y - x) := by
    have : feeOf fee x + (y - x) = (x * fee + (y - x) * 10000) / 10000 :=
      (Int.add_mul_ediv_right _ _ (by decide)).symm
    rw [this]
    exact Int.ediv_le_ediv (by decide) (by nlinarith)
  constructor
  · exact Int.ediv_le_ediv hT0 (by nlinarith)
  · rw [← Int.add_mul_ediv_right _ _ hT0.ne']
    exact Int.ediv_le_ediv hT0 (by nlinarith)

/-- **C104** (partial). Payments to the pool are made larger, none of them of the amount of the reward of the block:
nobody ends with less pending, nobody with more than the whole increase more, and the balances and the revenue of the
pool grow by exactly the increase in all. Everything else is equal. For slots since the first fork and a fee between 0
and 100%. Missing because false: slots before it, `C104_false_before_fork`, blocks that ban, `C104_false_ban`, and cleanup
slots that find somebody who left, `C104_false_leaver`. That nobody ends with less is proved for blocks that ban too, and for histories, in `C104_slot_partial` and `C104_history_partial`. -/
theorem C104_larger_payment_partial {o o1 o1' : Oracle} {b b' : FullBlock} {ds ds' : List EtherEvent} {n n' : Nat}
    {d : Int} (hs : MapOK o.st) (hb : PaidOtherwise b b' ds ds')
    (hle : List.Forall₂ (fun e e' => e.amount ≤ e'.amount) ds ds')
    (hd : (ds'.map (·.amount)).sum = (ds.map (·.amount)).sum + d) (hblock : b.cons ≠ none)
    (hfee : 0 ≤ o1.st.fee) (hfee' : o1.st.fee ≤ 10000) (hban : b.events.bans = [])
    (hf : PostFork1 o.cfg.network n) (hA : n % 1200 = 0 → AllActive V n o1.st) (hV : ∀ j, (V n j).effBal < 2 ^ 63)
    (h : advanceState E o b = .ok (o1, some n)) (h' : advanceState E' o b' = .ok (o1', some n')) :
    n = n' ∧ o1.cfg = o1'.cfg ∧ SameButPaid 0 d d o1.st o1'.st := by
  have key : ∀ w T, 0 ≤ w → w ≤ T → ((ds.map (·.amount)).map (part o1.st.fee w T)).sum ≤
        ((ds'.map (·.amount)).map (part o1.st.fee w T)).sum ∧
      ((ds'.map (·.amount)).map (part o1.st.fee w T)).sum ≤ ((ds.map (·.amount)).map (part o1.st.fee w T)).sum +
        ((ds'.map (·.amount)).sum - (ds.map (·.amount)).sum) := by
    intro w T hw hT
    clear hb hd
    induction hle with
    | nil => simp
    | cons h1 _ ih =>
      have := part_mono hfee hfee' hw hT h1
      simp only [List.map_cons, List.sum_cons]
      omega
  have hd0 : 0 ≤ d := by
    have h1 := key 0 0 (by decide) (by decide)
    have : (ds.map (·.amount)).sum ≤ (ds'.map (·.amount)).sum := by
      clear h1 hb hd key
      induction hle with
      | nil => simp
      | cons h1 _ ih => simp only [List.map_cons, List.sum_cons]; omega
    omega
  refine slot_paid hE hX hR hE' hX' hR' hs hb hd (fun hn => absurd hn hblock) (by decide) hd0 ?_ hban hf hA hV h h'
  intro w T hw hT
  have := key w T hw hT
  omega

end

/-! ### The exceptions -/

theorem builderAmount_only {b : FullBlock} {m : Mev} {x : Int} (h : mevReward b = .ok m) (hx : BuilderAmount b x) :
    x = m.amount := by
  rcases mevReward_spec (pool := []) h with ⟨h1, _, _, h4⟩ | ⟨tx, dest, h1, _, h3, _⟩ | ⟨h1, h2, _⟩
  · rcases hx with ⟨_, rfl⟩ | ⟨tx, d, h6, _⟩
    · exact h4.symm
    · exact absurd h1 h6.1
  · rcases hx with ⟨h6, _⟩ | ⟨tx', d', h6, rfl⟩
    · exact absurd h6 h1.1
    · obtain ⟨_, _, _, _, l1, _⟩ := h1
      obtain ⟨_, _, _, _, l2, _⟩ := h6
      rw [h3, (lastTx_unique l1 l2).1]
  · rcases hx with ⟨h6, _⟩ | ⟨tx', d', h6, _⟩
    · exact absurd h6 h1
    · exact absurd h6 (h2 _ _)

namespace Sample

/-- validator 1 proposes the block of a slot, for which its builder pays 5000; there are other payments -/
def paying (slot : Nat) (amounts : List Int) : FullBlock :=
  prop slot 1 builder (tx builder pool 5000) { ether := (5000 :: amounts).map fun x => ⟨x, pool, 100⟩ }

def giftOf (x : Int) : EtherEvent := ⟨x, pool, 100⟩

/-- the balance of validator 1 is `x`, and the revenue of the pool `y` -/
def has (x y : Int) (o : Oracle) : Bool := decide ((VMap.get o.st.vals 1).map (·.pend) = some x ∧ o.st.poolFees = y)

/-- a pool deployed before the first fork -/
def earlyCfg : Config := { cfg with depSlot := 9000001 }

theorem paying_otherwise {slot : Nat} {l l' : List Int} (hm : (mevReward (paying slot l)).toOption.map (·.amount) = some 5000)
    (h : ∀ x ∈ l ++ l', x ≠ 5000) :
    PaidOtherwise (paying slot l) (paying slot l') (l.map giftOf) (l'.map giftOf) := by
  refine ⟨⟨[giftOf 5000], rfl, rfl⟩, ?_⟩
  intro e he hx
  rw [← List.map_append] at he
  obtain ⟨x, hx1, rfl⟩ := List.mem_map.mp he
  cases hr : mevReward (paying slot l) with
  | error e => rw [hr] at hm; cases hm
  | ok m =>
    rw [hr] at hm
    have hm : m.amount = 5000 := by simpa [Except.toOption] using hm
    exact h x hx1 ((builderAmount_only hr hx).trans hm)

theorem pay_reads : ReadsChain (fun _ i => if i = 9 then { Sample.bval 9 with status := .exitedUnslashed }
    else Sample.bval i) (fun _ => [(9, 1)]) env := by
  constructor
  · intro t slot req r h v hv
    rw [Sample.env_node h] at hv
    obtain ⟨i, hi, rfl⟩ := List.mem_map.mp hv
    rw [Sample.index_if]
  · intro t slot cs h
    simp only [Sample.env, Option.some.injEq] at h
    exact h.symm

end Sample

/-- **C103 is false for pieces of the amount of the reward.** The builder pays 5000 and somebody gives 10000: validator
1 gets 4580 of it. Given in two pieces of 5000, the pieces are taken for the payment of the builder, and nobody gets
anything. -/
theorem C103_false_amount_of_reward : ∃ o o1 o1', Hist Sample.env (newOracle Sample.cfg) [Sample.b0] o ∧
    advanceState Sample.env o (Sample.paying 12000001 [10000]) = .ok (o1, some 12000001) ∧
    advanceState Sample.env o (Sample.paying 12000001 [5000, 5000]) = .ok (o1', some 12000001) ∧
    (VMap.get o1.st.vals 1).map (·.pend) = some 4580 ∧ (VMap.get o1'.st.vals 1).map (·.pend) = some 0 ∧
    o1.st.poolFees = 1425 ∧ o1'.st.poolFees = 724 := by
  obtain ⟨o, h, hp⟩ := Sample.ex_hist (E := Sample.env) (o := newOracle Sample.cfg) (bs := [Sample.b0])
    (P := fun o => ((advanceState Sample.env o (Sample.paying 12000001 [10000])).toOption.any fun (p : Oracle × Option Nat) =>
        p.2 == some 12000001 && Sample.has 4580 1425 p.1) &&
      (advanceState Sample.env o (Sample.paying 12000001 [5000, 5000])).toOption.any fun (p : Oracle × Option Nat) =>
        p.2 == some 12000001 && Sample.has 0 724 p.1) (by decide +kernel)
  rw [Bool.and_eq_true] at hp
  obtain ⟨⟨o1, n1⟩, h1, k1⟩ := Sample.ex_ok hp.1
  obtain ⟨⟨o2, n2⟩, h2, k2⟩ := Sample.ex_ok hp.2
  simp only [Bool.and_eq_true, beq_iff_eq, Sample.has, decide_eq_true_eq] at k1 k2
  rw [k1.1] at h1
  rw [k2.1] at h2
  exact ⟨o, o1, o2, h, h1, h2, k1.2.1, k2.2.1, k1.2.2, k2.2.2⟩

/-- **C104 is false before the first fork.** A gift of 101 wei instead of 100 costs the validator 699 wei: what is
withheld is not the wei lost in the division by 10000 but the remainder of the division. -/
theorem C104_false_before_fork : ∃ o1 o1',
    advanceState Sample.env (newOracle Sample.earlyCfg) (Sample.paying 9000001 [100]) = .ok (o1, some 9000001) ∧
    advanceState Sample.env (newOracle Sample.earlyCfg) (Sample.paying 9000001 [101]) = .ok (o1', some 9000001) ∧
    (VMap.get o1.st.vals 1).map (·.pend) = some 93 ∧ (VMap.get o1'.st.vals 1).map (·.pend) = some (-606) ∧
    o1.st.poolFees = 357 ∧ o1'.st.poolFees = 1057 := by
  obtain ⟨⟨o1, n1⟩, h1, k1⟩ := Sample.ex_ok
    (x := advanceState Sample.env (newOracle Sample.earlyCfg) (Sample.paying 9000001 [100]))
    (P := fun p => p.2 == some 9000001 && Sample.has 93 357 p.1) (by decide +kernel)
  obtain ⟨⟨o2, n2⟩, h2, k2⟩ := Sample.ex_ok
    (x := advanceState Sample.env (newOracle Sample.earlyCfg) (Sample.paying 9000001 [101]))
    (P := fun p => p.2 == some 9000001 && Sample.has (-606) 1057 p.1) (by decide +kernel)
  simp only [Bool.and_eq_true, beq_iff_eq, Sample.has, decide_eq_true_eq] at k1 k2
  rw [k1.1] at h1
  rw [k2.1] at h2
  exact ⟨o1, o2, h1, h2, k1.2.1, k2.2.1, k1.2.2, k2.2.2⟩

/-- C103 and C104 apply to real slots: 1000 wei given at once or in three pieces, where one wei of the proposer goes
to the pool; and 1010 wei given instead -/
example : ∃ o o1 o2 o3, Hist Sample.env (newOracle Sample.cfg) [Sample.b0] o ∧
    advanceState Sample.env o (Sample.paying 12000001 [1000]) = .ok (o1, some 12000001) ∧
    advanceState Sample.env o (Sample.paying 12000001 [333, 333, 334]) = .ok (o2, some 12000001) ∧
    advanceState Sample.env o (Sample.paying 12000001 [1010]) = .ok (o3, some 12000001) ∧
    SameButPaid (-2) 2 0 o1.st o2.st ∧ SameButPaid 0 10 10 o1.st o3.st ∧ o1.st.vals ≠ o2.st.vals ∧
    (VMap.get o1.st.vals 1).map (·.pend) = some 458 ∧ (VMap.get o3.st.vals 1).map (·.pend) = some 462 := by
  obtain ⟨o, h, hp⟩ := Sample.ex_hist (E := Sample.env) (o := newOracle Sample.cfg) (bs := [Sample.b0])
    (P := fun o => decide (o.cfg.network = b!"mainnet") &&
      ((advanceState Sample.env o (Sample.paying 12000001 [1000])).toOption.any fun (p : Oracle × Option Nat) =>
        p.2 == some 12000001 && (Sample.has 458 795 p.1 && decide (p.1.st.vals.map (fun q => q.2.pend) = [458, 6330] ∧
          p.1.st.fee = 700))) &&
      ((advanceState Sample.env o (Sample.paying 12000001 [333, 333, 334])).toOption.any fun (p : Oracle × Option Nat) =>
        p.2 == some 12000001 && decide (p.1.st.vals.map (fun q => q.2.pend) = [457, 6330])) &&
      (advanceState Sample.env o (Sample.paying 12000001 [1010])).toOption.any fun (p : Oracle × Option Nat) =>
        p.2 == some 12000001 && Sample.has 462 795 p.1) (by decide +kernel)
  rw [Bool.and_eq_true, Bool.and_eq_true, Bool.and_eq_true] at hp
  obtain ⟨⟨o1, n1⟩, h1, k1⟩ := Sample.ex_ok hp.1.1.2
  obtain ⟨⟨o2, n2⟩, h2, k2⟩ := Sample.ex_ok hp.1.2
  obtain ⟨⟨o3, n3⟩, h3, k3⟩ := Sample.ex_ok hp.2
  simp only [Bool.and_eq_true, beq_iff_eq, Sample.has, decide_eq_true_eq] at k1 k2 k3
  rw [k1.1] at h1
  rw [k2.1] at h2
  rw [k3.1] at h3
  have hs : MapOK o.st := 
    hist_mapOK Sample.env_valid Sample.env_exact Sample.env_noSelf h
  have hV : ∀ j : Nat, (if j = 9 then { Sample.bval 9 with status := .exitedUnslashed } else Sample.bval j).effBal
      < 2 ^ 63 := by
    intro j; split <;> simp [Sample.bval] <;> omega
  have hnet : o.cfg.network = b!"mainnet" := by
    simpa using hp.1.1.1
  have hf : PostFork1 o.cfg.network 12000001 := by rw [hnet]; decide
  refine ⟨o, o1, o2, o3, h, h1, h2, h3, ?_, ?_, ?_, k1.2.1.1, k3.2.1⟩
  · exact (C103_pieces_partial Sample.env_valid Sample.env_exact Sample.pay_reads Sample.env_valid Sample.env_exact
      Sample.pay_reads hs (Sample.paying_otherwise (l := [1000]) (l' := [333, 333, 334]) (by decide +kernel)
        (by decide)) rfl rfl rfl hf (fun e => absurd e (by decide)) hV h1 h2).2.2
  · exact (C104_larger_payment_partial Sample.env_valid Sample.env_exact Sample.pay_reads Sample.env_valid
      Sample.env_exact Sample.pay_reads hs (Sample.paying_otherwise (l := [1000]) (l' := [1010]) (by decide +kernel)
        (by decide)) (.cons (by decide) .nil) rfl (by simp [Sample.paying, Sample.prop]) (by rw [k1.2.2.2]; decide)
      (by rw [k1.2.2.2]; decide) rfl hf (fun e => absurd e (by decide)) hV h1 h3).2.2
  · intro e
    have := k1.2.2.1
    rw [e, k2.2] at this
    exact absurd this (by decide)

end Verif
