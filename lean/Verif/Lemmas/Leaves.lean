import Mathlib.Data.List.Lex
import Verif.Model.Merkle
import Verif.Spec.Merkle
import Verif.Lemmas.Rewards
import Verif.Lemmas.Pays
/-
The leaves of a checkpoint.
-/
namespace Verif
open VMap

theorem slt_trans {a b c : Str} (h : a < b) (h' : b < c) : a < c := lt_trans h h'
theorem slt_asymm {a b : Str} (h : a < b) : ¬ b < a := lt_asymm h
theorem slt_total {a b : Str} (h : ¬ a < b) (h' : ¬ b < a) : a = b := by
  rcases lt_trichotomy a b with h1 | h1 | h1
  · exact absurd h1 h
  · exact h1
  · exact absurd h1 h'

theorem addToLeaves_ok {v : Validator} {ls : List Leaf} {r} (h : addToLeaves v ls = .ok r) :
    r = (ls.map fun l => if lower l.waddr = lower v.waddr then { l with bal := l.bal + v.acc } else l,
      ls.any fun l => lower l.waddr = lower v.waddr) := by
  induction ls generalizing r with
  | nil => simp only [addToLeaves, Except.ok.injEq] at h; rw [← h]; rfl
  | cons l ls ih =>
    simp only [addToLeaves, bind_ok] at h
    obtain ⟨e, he, ⟨a, b⟩, hr, h⟩ := h
    have := ih hr
    simp only [Except.ok.injEq] at h
    rw [← h]
    simp only [Prod.mk.injEq] at this
    obtain ⟨rfl, rfl⟩ := this
    unfold equals at he
    split at he
    · simp at he
    · have he := Except.ok.inj he
      subst he
      simp

theorem addToLeaves_total {v : Validator} {ls : List Leaf}
    (h : ∀ l ∈ ls, l.waddr.length = v.waddr.length) : ∃ r, addToLeaves v ls = .ok r := by
  induction ls with
  | nil => exact ⟨_, rfl⟩
  | cons l ls ih =>
    obtain ⟨r, hr⟩ := ih fun l hl => h l (List.mem_cons_of_mem _ hl)
    have he : ∃ b, equals l.waddr v.waddr = .ok b := by
      unfold equals
      rw [if_neg (by simpa using h l (by simp))]
      exact ⟨_, rfl⟩
    obtain ⟨b, he⟩ := he
    unfold addToLeaves
    rw [he, hr]
    exact ⟨_, rfl⟩

/-- the loop invariant: `ls` are the leaves of the validators `vs` -/
structure AggInv (vs : List Validator) (ls : List Leaf) : Prop where
  nodup : (ls.map (·.waddr)).Nodup
  low : ∀ l ∈ ls, lower l.waddr = l.waddr
  bal : ∀ l ∈ ls, l.bal = ((vs.filter fun v => lower v.waddr = l.waddr).map (·.acc)).sum
  owner : ∀ l ∈ ls, ∃ v ∈ vs, l.waddr = lower v.waddr
  complete : ∀ v ∈ vs, ∃ l ∈ ls, l.waddr = lower v.waddr
  total : (ls.map (·.bal)).sum = (vs.map (·.acc)).sum

theorem addIf_map_waddr (v : Validator) (ls : List Leaf) :
    (ls.map fun l => if lower l.waddr = lower v.waddr then { l with bal := l.bal + v.acc } else l).map
      (·.waddr) = ls.map (·.waddr) := by
  rw [List.map_map]
  apply List.map_congr_left
  intro l _
  simp only [Function.comp]
  split <;> rfl

theorem addIf_total (v : Validator) (ls : List Leaf) (hn : (ls.map (·.waddr)).Nodup)
    (hl : ∀ l ∈ ls, lower l.waddr = l.waddr) :
    ((ls.map fun l => if lower l.waddr = lower v.waddr then { l with bal := l.bal + v.acc } else l).map
      (·.bal)).sum = (ls.map (·.bal)).sum +
        (if ls.any (fun l => lower l.waddr = lower v.waddr) then v.acc else 0) := by
  induction ls with
  | nil => simp
  | cons l ls ih =>
    rw [List.map_cons, List.nodup_cons] at hn
    have ih := ih hn.2 fun l hl' => hl l (List.mem_cons_of_mem _ hl')
    simp only [List.map_cons, List.sum_cons, List.any_cons]
    rw [ih]
    by_cases h1 : lower l.waddr = lower v.waddr
    · have h2 : (ls.any fun l => decide (lower l.waddr = lower v.waddr)) = false := by
        rw [List.any_eq_false]
        intro l' hl' he
        simp only [decide_eq_true_eq] at he
        apply hn.1
        rw [List.mem_map]
        refine ⟨l', hl', ?_⟩
        rw [← hl l' (List.mem_cons_of_mem _ hl'), ← hl l (by simp), he, h1]
      simp only [h1, h2, decide_true, Bool.or_false, if_true]
      simp
      ring
    · simp only [h1, decide_false, Bool.false_or, if_false]
      ring

theorem aggInv_step {vs ls v} (h : AggInv vs ls) {ls' : List Leaf} {found : Bool}
    (ha : addToLeaves v ls = .ok (ls', found)) :
    AggInv (vs ++ [v]) (if found then ls' else ls' ++ [⟨lower v.waddr, v.acc⟩]) := by
  have e := addToLeaves_ok ha
  simp only [Prod.mk.injEq] at e
  obtain ⟨rfl, rfl⟩ := e
  have hsum : ∀ l : Leaf, (((vs ++ [v]).filter fun u => lower u.waddr = l.waddr).map (·.acc)).sum =
      ((vs.filter fun u => lower u.waddr = l.waddr).map (·.acc)).sum +
        (if lower v.waddr = l.waddr then v.acc else 0) := by
    intro l
    rw [List.filter_append, List.map_append, List.sum_append]
    congr 1
    by_cases h1 : lower v.waddr = l.waddr <;> simp [h1]
  have hmem : ∀ l ∈ (ls.map fun l => if lower l.waddr = lower v.waddr then
      { l with bal := l.bal + v.acc } else l), lower l.waddr = l.waddr ∧
      l.bal = (((vs ++ [v]).filter fun u => lower u.waddr = l.waddr).map (·.acc)).sum ∧
      ∃ u ∈ vs ++ [v], l.waddr = lower u.waddr := by
    intro l hl
    obtain ⟨l0, hl0, rfl⟩ := List.mem_map.mp hl
    have h1 := h.low l0 hl0
    have h2 := h.bal l0 hl0
    obtain ⟨u, hu, h3⟩ := h.owner l0 hl0
    have hw : (if lower l0.waddr = lower v.waddr then { l0 with bal := l0.bal + v.acc } else l0).waddr =
        l0.waddr := by split <;> rfl
    rw [hsum, hw]
    refine ⟨h1, ?_, u, by simp [hu], h3⟩
    by_cases h4 : lower l0.waddr = lower v.waddr
    · rw [if_pos h4, if_pos (by rw [← h4, h1])]
      dsimp only
      rw [h2]
    · rw [if_neg h4, if_neg (by intro e; apply h4; rw [e, h1])]
      rw [h2]; ring
  have hcomp : ∀ u ∈ vs, ∃ l ∈ (ls.map fun l => if lower l.waddr = lower v.waddr then
      { l with bal := l.bal + v.acc } else l), l.waddr = lower u.waddr := by
    intro u hu
    obtain ⟨l, hl, e⟩ := h.complete u hu
    refine ⟨_, List.mem_map.mpr ⟨l, hl, rfl⟩, ?_⟩
    rw [← e]; split <;> rfl
  have htot := addIf_total v ls h.nodup h.low
  cases hf : ls.any (fun l => decide (lower l.waddr = lower v.waddr)) with
  | true =>
    rw [if_pos rfl]
    rw [hf, if_pos rfl] at htot
    refine ⟨by rw [addIf_map_waddr]; exact h.nodup, fun l hl => (hmem l hl).1,
      fun l hl => (hmem l hl).2.1, fun l hl => (hmem l hl).2.2, ?_, ?_⟩
    · intro u hu
      rcases List.mem_append.mp hu with hu | hu
      · exact hcomp u hu
      · rw [List.mem_singleton] at hu
        subst hu
        rw [List.any_eq_true] at hf
        obtain ⟨l, hl, he⟩ := hf
        simp only [decide_eq_true_eq] at he
        refine ⟨_, List.mem_map.mpr ⟨l, hl, rfl⟩, ?_⟩
        rw [if_pos he, ← he, h.low l hl]
    · rw [htot, h.total, List.map_append, List.sum_append]; simp
  | false =>
    rw [hf] at htot
    simp only [Bool.false_eq_true, if_false, add_zero] at htot ⊢
    rw [List.any_eq_false] at hf
    have hnot : ∀ l ∈ ls, l.waddr ≠ lower v.waddr := by
      intro l hl e
      apply hf l hl
      simp only [decide_eq_true_eq]
      rw [e, lower_lower]
    have hself : ((vs.filter fun u => lower u.waddr = lower v.waddr).map (·.acc)).sum = 0 := by
      have : vs.filter (fun u => decide (lower u.waddr = lower v.waddr)) = [] := by
        rw [List.filter_eq_nil_iff]
        intro u hu he
        simp only [decide_eq_true_eq] at he
        obtain ⟨l, hl, e⟩ := h.complete u hu
        exact hnot l hl (e.trans he)
      rw [this]; rfl
    refine ⟨?_, ?_, ?_, ?_, ?_, ?_⟩
    · rw [List.map_append, addIf_map_waddr]
      rw [List.nodup_append]
      refine ⟨h.nodup, by simp, ?_⟩
      intro a ha b hb
      simp only [List.map_cons, List.map_nil, List.mem_singleton] at hb
      obtain ⟨l, hl, rfl⟩ := List.mem_map.mp ha
      rw [hb]; exact hnot l hl
    · intro l hl
      rcases List.mem_append.mp hl with hl | hl
      · exact (hmem l hl).1
      · rw [List.mem_singleton] at hl; subst hl; exact lower_lower _
    · intro l hl
      rcases List.mem_append.mp hl with hl | hl
      · exact (hmem l hl).2.1
      · rw [List.mem_singleton] at hl; subst hl
        rw [hsum]; dsimp only; rw [hself]; simp
    · intro l hl
      rcases List.mem_append.mp hl with hl | hl
      · exact (hmem l hl).2.2
      · rw [List.mem_singleton] at hl; subst hl
        exact ⟨v, by simp, rfl⟩
    · intro u hu
      rcases List.mem_append.mp hu with hu | hu
      · obtain ⟨l, hl, e⟩ := hcomp u hu
        exact ⟨l, by simp only [List.mem_append]; exact Or.inl hl, e⟩
      · rw [List.mem_singleton] at hu
        subst hu
        exact ⟨_, by simp only [List.mem_append, List.mem_singleton]; exact Or.inr rfl, rfl⟩
    · rw [List.map_append, List.sum_append, htot, h.total, List.map_append, List.sum_append]; simp

theorem aggLoop_inv {us vs ls r} (h : AggInv vs ls) (hr : aggLoop us ls = .ok r) :
    AggInv (vs ++ us) r := by
  induction us generalizing vs ls with
  | nil => simp only [aggLoop, Except.ok.injEq] at hr; subst hr; simpa using h
  | cons v us ih =>
    simp only [aggLoop, bind_ok] at hr
    obtain ⟨⟨ls', found⟩, ha, hr⟩ := hr
    have := ih (aggInv_step h ha) hr
    simpa using this

theorem aggLoop_total {us : List Validator} {ls : List Leaf} {n : Nat}
    (hu : ∀ v ∈ us, v.waddr.length = n) (hl : ∀ l ∈ ls, l.waddr.length = n) :
    ∃ r, aggLoop us ls = .ok r := by
  induction us generalizing ls with
  | nil => exact ⟨_, rfl⟩
  | cons v us ih =>
    obtain ⟨⟨ls', found⟩, ha⟩ := addToLeaves_total (v := v) (ls := ls) fun l h => by
      rw [hl l h, hu v (by simp)]
    have e := addToLeaves_ok ha
    simp only [Prod.mk.injEq] at e
    have hl' : ∀ l ∈ ls', l.waddr.length = n := by
      intro l hm
      rw [e.1] at hm
      obtain ⟨l0, hl0, rfl⟩ := List.mem_map.mp hm
      split
      · exact hl l0 hl0
      · exact hl l0 hl0
    obtain ⟨r, hr⟩ := ih (ls := if found then ls' else ls' ++ [⟨lower v.waddr, v.acc⟩])
      (fun v h => hu v (List.mem_cons_of_mem _ h)) (by
        intro l hm
        split at hm
        · exact hl' l hm
        · rcases List.mem_append.mp hm with hm | hm
          · exact hl' l hm
          · rw [List.mem_singleton] at hm; subst hm
            dsimp only; rw [length_lower]; exact hu v (by simp))
    refine ⟨r, ?_⟩
    unfold aggLoop
    rw [ha]
    exact hr

theorem insertLeaf_perm (l : Leaf) (ls : List Leaf) : (insertLeaf l ls).Perm (l :: ls) := by
  induction ls with
  | nil => exact List.Perm.refl _
  | cons x ls ih =>
    rw [insertLeaf]
    split
    · exact (ih.cons x).trans (List.Perm.swap l x ls)
    · exact List.Perm.refl _

theorem orderLeaves_perm (ls : List Leaf) : (orderLeaves ls).Perm ls := by
  unfold orderLeaves
  induction ls with
  | nil => exact List.Perm.refl _
  | cons l ls ih => exact (insertLeaf_perm l _).trans (ih.cons l)

theorem insertLeaf_sorted {l : Leaf} {ls : List Leaf} (h : ls.Pairwise fun a b => a.waddr < b.waddr)
    (hn : ∀ x ∈ ls, x.waddr ≠ l.waddr) :
    (insertLeaf l ls).Pairwise fun a b => a.waddr < b.waddr := by
  induction ls with
  | nil => simp [insertLeaf]
  | cons x ls ih =>
    rw [List.pairwise_cons] at h
    rw [insertLeaf]
    split
    · rename_i hx
      rw [List.pairwise_cons]
      refine ⟨?_, ih h.2 fun y hy => hn y (by simp [hy])⟩
      intro y hy
      rcases List.mem_cons.mp ((insertLeaf_perm l ls).mem_iff.mp hy) with rfl | hy
      · exact hx
      · exact h.1 y hy
    · rename_i hx
      have hlx : l.waddr < x.waddr := by
        by_contra h5
        exact hn x (by simp) (slt_total hx h5)
      rw [List.pairwise_cons]
      refine ⟨?_, List.pairwise_cons.mpr h⟩
      intro y hy
      rcases List.mem_cons.mp hy with rfl | hy
      · exact hlx
      · exact slt_trans hlx (h.1 y hy)

theorem orderLeaves_sorted {ls : List Leaf} (hn : (ls.map (·.waddr)).Nodup) :
    (orderLeaves ls).Pairwise fun a b => a.waddr < b.waddr := by
  induction ls with
  | nil => exact List.Pairwise.nil
  | cons l ls ih =>
    rw [List.map_cons, List.nodup_cons] at hn
    apply insertLeaf_sorted (ih hn.2)
    intro x hx e
    have : x ∈ ls := (orderLeaves_perm ls).mem_iff.mp hx
    exact hn.1 (List.mem_map.mpr ⟨x, this, e⟩)

theorem aggregate_ok {E : Env} (hE : ValidEnv E) {t s ls} (h : aggregate E t s = .ok ls) :
    LeavesOf s ls ∧ (ls.map (·.bal)).sum = (s.vals.map fun p => p.2.acc).sum + s.poolFees ∧
    (∀ l ∈ ls, isHexAddress l.waddr = true ∧ lower l.waddr = l.waddr) := by
  unfold aggregate at h
  simp only [bind_ok] at h
  obtain ⟨rs, hr, h⟩ := h
  have hinv : AggInv ((E.shuffle t s.vals).map (·.2)) rs := by
    have := aggLoop_inv (vs := []) (ls := []) ⟨by simp, by simp, by simp, by simp, by simp, rfl⟩ hr
    simpa using this
  split at h
  · simp at h
  split at h
  · simp at h
  split at h
  · simp at h
  split at h
  · simp at h
  rename_i hsum hpool hhex hlow
  have h := Except.ok.inj h
  subst h
  have hp := shuffle_perm hE t s.vals
  have hperm := orderLeaves_perm rs
  refine ⟨⟨rfl, ?_, ?_, ?_⟩, ?_, ?_⟩
  · exact orderLeaves_sorted hinv.nodup
  · intro l hl
    have hl : l ∈ rs := hperm.mem_iff.mp hl
    obtain ⟨v, hv, e⟩ := hinv.owner l hl
    obtain ⟨p, hpm, rfl⟩ := List.mem_map.mp hv
    refine ⟨⟨p, hp.mem_iff.mp hpm, e⟩, ?_⟩
    rw [hinv.bal l hl]
    unfold debtOf
    rw [List.filter_map, List.map_map]
    exact ((hp.filter _).map _).sum_eq
  · intro p hpm
    obtain ⟨l, hl, e⟩ := hinv.complete p.2 (List.mem_map.mpr ⟨p, hp.mem_iff.mpr hpm, rfl⟩)
    exact ⟨l, hperm.mem_iff.mpr hl, e⟩
  · rw [List.map_cons, List.sum_cons, (hperm.map _).sum_eq, hinv.total, List.map_map]
    have : ((E.shuffle t s.vals).map ((fun v : Validator => v.acc) ∘ fun p => p.2)).sum =
        (s.vals.map fun p => p.2.acc).sum := (hp.map _).sum_eq
    rw [this]; dsimp only; ring
  · intro l hl
    rw [Bool.not_eq_true, List.any_eq_false] at hhex hlow
    have h1 := hhex l hl
    have h2 := hlow l hl
    simp only [Bool.not_eq_true, Bool.not_eq_false', bne_iff_ne, ne_eq, not_not] at h1 h2
    exact ⟨h1, h2⟩

end Verif
