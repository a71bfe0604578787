import Verif.Props.Determinism
import Verif.Lemmas.Total
/-
C09: the cleanup depends on the iteration order exactly when balances would be moved along a chain.
-/
namespace Verif
open VMap

theorem LastTarget.consolTarget {cs i j} (h : LastTarget cs i j) : Verif.consolTarget cs i = some j := by
  obtain ⟨l1, l2, rfl, h2⟩ := h
  unfold Verif.consolTarget
  rw [List.reverse_append, List.reverse_cons, List.append_assoc, List.find?_append,
    List.find?_eq_none.mpr (by
      intro p hp
      simpa using h2 p (by simpa using hp))]
  simp

section
variable {c : Nat → BVal} {cs : List (Nat × Nat)}

/-- no negative balances -/
def FnNonneg (f : Fn) : Prop := ∀ k x, f k = some x → 0 ≤ x.pend

theorem fnNonneg_update {f : Fn} (h : FnNonneg f) {i x} (hx : 0 ≤ x.pend) : FnNonneg (Function.update f i (some x)) := by
  intro k y hk
  by_cases hki : k = i
  · subst hki
    rw [Function.update_self, Option.some.injEq] at hk
    rw [← hk]; exact hx
  · rw [Function.update_of_ne hki] at hk
    exact h k y hk

theorem cleanStep_nonneg {z : Fn × Int} (h : FnNonneg z.1) (u : BVal) : FnNonneg (cleanStep c cs z u).1 := by
  unfold cleanStep
  split
  · exact h
  · split
    · exact h
    · rename_i v hv
      split
      · exact h
      · have h1 : FnNonneg (Function.update z.1 u.index (some (cleanFn v))) := fnNonneg_update h (le_refl 0)
        dsimp only
        split
        · exact h1
        · split
          · exact fnNonneg_update h1 (show (0 : Int) ≤ v.pend from h _ _ hv)
          · rename_i w hw
            split
            · exact h1
            · exact fnNonneg_update h1 (Int.add_nonneg (h _ _ hw) (h _ _ hv))

/-- a step leaves the status of everybody else alone and takes nothing from them -/
theorem cleanStep_other {z : Fn × Int} (h : FnNonneg z.1) {u : BVal} {k : Nat} {x : Validator} (hk : k ≠ u.index)
    (hx : z.1 k = some x) :
    ∃ x', (cleanStep c cs z u).1 k = some x' ∧ x'.status = x.status ∧ x.pend ≤ x'.pend := by
  unfold cleanStep
  split
  · exact ⟨x, hx, rfl, le_refl _⟩
  · split
    · exact ⟨x, hx, rfl, le_refl _⟩
    · rename_i v hv
      split
      · exact ⟨x, hx, rfl, le_refl _⟩
      · have h1 : (Function.update z.1 u.index (some (cleanFn v))) k = some x := by
          rw [Function.update_of_ne hk]; exact hx
        dsimp only
        split
        · exact ⟨x, h1, rfl, le_refl _⟩
        · rename_i j hj
          split
          · rename_i hn
            have : k ≠ j := by rintro rfl; rw [hx] at hn; cases hn
            dsimp only
            rw [Function.update_of_ne this]
            exact ⟨x, h1, rfl, le_refl _⟩
          · rename_i w hw
            split
            · exact ⟨x, h1, rfl, le_refl _⟩
            · dsimp only
              by_cases hkj : k = j
              · subst hkj
                rw [Function.update_self]
                rw [hx, Option.some.injEq] at hw
                subst hw
                exact ⟨_, rfl, rfl, by have := h _ _ hv; dsimp only; omega⟩
              · rw [Function.update_of_ne hkj]
                exact ⟨x, h1, rfl, le_refl _⟩

theorem cleanFold_other (l : List BVal) : ∀ {z : Fn × Int}, FnNonneg z.1 → ∀ {k : Nat} {x : Validator},
    (∀ u ∈ l, k ≠ u.index) → z.1 k = some x → FnNonneg (l.foldl (cleanStep c cs) z).1 ∧
      ∃ x', (l.foldl (cleanStep c cs) z).1 k = some x' ∧ x'.status = x.status ∧ x.pend ≤ x'.pend := by
  induction l with
  | nil => exact fun {z} h {k x} _ hx => ⟨h, x, hx, rfl, le_refl _⟩
  | cons u l ih =>
    intro z h k x hl hx
    obtain ⟨x1, h1, h2, h3⟩ := cleanStep_other (c := c) (cs := cs) h (hl u (by simp)) hx
    obtain ⟨k0, x2, k1, k2, k3⟩ := ih (cleanStep_nonneg h u) (fun u' hu' => hl u' (by simp [hu'])) h1
    exact ⟨k0, x2, k1, k2.trans h2, le_trans h3 k3⟩

/-- what a step does with the validator itself -/
theorem cleanStep_self {z : Fn × Int} {u : BVal} {v : Validator} (hu : u.status.isActive = false)
    (hv : z.1 u.index = some v) (hp : v.pend ≠ 0) (ht : ∀ j, Verif.consolTarget cs u.index = some j → j ≠ u.index) :
    (cleanStep c cs z u).1 u.index = some (cleanFn v) := by
  unfold cleanStep
  rw [hu, hv]
  simp only [Bool.false_eq_true, if_false, if_neg hp]
  split
  · simp
  · rename_i j hj
    have := (ht j hj).symm
    split
    · simp [Function.update_of_ne this]
    · split
      · simp
      · simp [Function.update_of_ne this]

/-- what a step does with the target -/
theorem cleanStep_target {z : Fn × Int} {u : BVal} {v w : Validator} {j : Nat} (hu : u.status.isActive = false)
    (hv : z.1 u.index = some v) (hp : v.pend ≠ 0) (ht : Verif.consolTarget cs u.index = some j)
    (hw : z.1 j = some w) (hb : w.status ≠ .banned) :
    (cleanStep c cs z u).1 j = some { w with pend := w.pend + v.pend } := by
  unfold cleanStep
  rw [hu, hv]
  simp only [Bool.false_eq_true, if_false, if_neg hp, ht, hw, if_neg hb, Function.update_self]

theorem unsub_not_banned {s : Status} (h : s ≠ .banned) : transition s .unsubscribe ≠ .banned := by
  cases s <;> simp_all [transition]

theorem unsub_not_earning {s : Status} : transition s .unsubscribe ≠ .active ∧ transition s .unsubscribe ≠ .yellowCard := by
  cases s <;> simp [transition]

/-- the two orders end differently for the target -/
theorem cleanTwo_differ {z : Fn × Int} (h : FnNonneg z.1) {i j : Nat} {v w : Validator} (hij : i ≠ j)
    (hci : (c i).index = i) (hcj : (c j).index = j) (hi : (c i).status.isActive = false)
    (hj : (c j).status.isActive = false) (hv : z.1 i = some v) (hw : z.1 j = some w) (hp : v.pend ≠ 0)
    (hb : w.status ≠ .banned) (ht : Verif.consolTarget cs i = some j)
    (htj : ∀ k, Verif.consolTarget cs j = some k → k ≠ j) :
    (∃ x, ([c i, c j].foldl (cleanStep c cs) z).1 j = some x ∧ x.pend = 0 ∧
      x.status = transition w.status .unsubscribe) ∧
    (∃ x, ([c j, c i].foldl (cleanStep c cs) z).1 j = some x ∧ x.pend ≠ 0) := by
  have hp0 := h _ _ hv
  constructor
  · have e := cleanStep_target (c := c) (cs := cs) (z := z) (u := c i) (v := v) (w := w) (j := j) hi (by rw [hci]; exact hv) hp
      (by rw [hci]; exact ht) hw hb
    have hw0 := h _ _ hw
    have := cleanStep_self (c := c) (cs := cs) (z := cleanStep c cs z (c i)) (u := c j) hj (by rw [hcj]; exact e)
      (by dsimp only; omega) (by rw [hcj]; exact htj)
    rw [hcj] at this
    exact ⟨_, this, rfl, rfl⟩
  · have h1 : FnNonneg (cleanStep c cs z (c j)).1 := cleanStep_nonneg h _
    obtain ⟨v1, hv1, _, hle⟩ := cleanStep_other (c := c) (cs := cs) h (u := c j) (k := i) (by rw [hcj]; exact hij) hv
    have hw1 : ∃ w1, (cleanStep c cs z (c j)).1 j = some w1 ∧ w1.status ≠ .banned := by
      by_cases hwp : w.pend = 0
      · refine ⟨w, ?_, hb⟩
        unfold cleanStep
        rw [hj, hcj, hw]
        simp [hwp, hw]
      · have := cleanStep_self (c := c) (cs := cs) (z := z) (u := c j) hj (by rw [hcj]; exact hw) hwp (by rw [hcj]; exact htj)
        rw [hcj] at this
        exact ⟨_, this, unsub_not_banned hb⟩
    obtain ⟨w1, hw1, hb1⟩ := hw1
    have := cleanStep_target (c := c) (cs := cs) (z := cleanStep c cs z (c j)) (u := c i) (v := v1) (w := w1) (j := j) hi
      (by rw [hci]; exact hv1) (by omega) (by rw [hci]; exact ht) hw1 hb1
    refine ⟨_, this, ?_⟩
    have := h1 _ _ hw1
    dsimp only
    omega

end

section
variable {E : Env} {V : Nat → Nat → BVal} {K : Nat → List (Nat × Nat)}

/-- the cleanup in two parts: the loop, and the distribution of what was collected -/
theorem cleanup_parts (hE : ValidEnv E) (hX : ExactEnv E) (hR : ReadsChain V K E) {net : Str} {slot : Nat} {s a : State}
    (hs : Sorted s.vals) (h1 : cleanupFrom net ≤ slot) (h2 : consolidationsFrom net ≤ slot) (hne : s.vals ≠ [])
    (hself : ∀ p ∈ K slot, p.1 ≠ p.2) (h : cleanup E net s slot = .ok (a, true)) :
    ∃ vs, E.node s.tick slot (E.shuffle s.tick (VMap.keys s.vals)) = some vs ∧ ∀ k x,
      ((E.shuffle (s.tick + 1) vs).foldl (cleanStep (V slot) (K slot)) (VMap.get s.vals, 0)).1 k = some x →
      ∃ x', VMap.get a.vals k = some x' ∧ x'.status = x.status ∧ (¬ Earning x → x'.pend = x.pend) := by
  have hf : slotOrZero (slotFork1 net) = cleanupFrom net := by
    unfold slotOrZero slotFork1 cleanupFrom mainnet holesky hoodi
    split
    · rfl
    · split
      · rfl
      · split <;> rfl
  have he : slotOrZero (slotElectra net) = consolidationsFrom net := by
    unfold slotOrZero slotElectra consolidationsFrom mainnet hoodi
    split
    · rfl
    · split <;> rfl
  unfold cleanup at h
  rw [hf, he, if_neg (by omega)] at h
  dsimp only at h
  have hk : ¬ E.shuffle s.tick (VMap.keys s.vals) = [] := by
    intro e
    have := (shuffle_perm hE s.tick (VMap.keys s.vals)).length_eq
    rw [e] at this
    apply hne
    apply List.eq_nil_of_length_eq_zero
    simpa [VMap.keys] using this.symm
  rw [if_neg hk, if_pos h2] at h
  split at h
  · simp at h
  · rename_i cs hcs
    have e := hR.consol _ _ _ hcs
    subst e
    split at h
    · simp at h
    · rename_i vs hg
      rw [bind_ok] at h
      obtain ⟨⟨s1, tot, go⟩, hl, h⟩ := h
      dsimp only at h
      split at h
      · simp at h
      · rename_i hgo
        have hgo : go = true := by simpa using hgo
        subst hgo
        obtain ⟨hs1, hfold, _⟩ := cleanLoop_fold hR _ (s := { s with tick := s.tick + 2 }) hs (fun u _ _ j hj e => by
          have := (consolTarget_some hj).2
          exact hself _ this e.symm) hl
        refine ⟨vs, (getSet_some hg).1, ?_⟩
        have hfold : (VMap.get s1.vals, tot) =
          (E.shuffle (s.tick + 1) vs).foldl (cleanStep (V slot) (K slot)) (VMap.get s.vals, 0) := hfold
        rw [← hfold]
        intro k x hx
        dsimp only at hx
        split at h
        · rw [bind_ok] at h
          obtain ⟨s2, h3, h4⟩ := h
          simp only [Except.ok.injEq, Prod.mk.injEq, and_true] at h4
          subst h4
          obtain ⟨sh, fees, d⟩ := increaseAll_dist hE hs1 h3
          have hvals : s2.vals = credit sh s1.vals := by rw [d.eq]
          rw [hvals, get_credit, hx]
          refine ⟨_, rfl, rfl, fun hne => ?_⟩
          have : k ∉ sh.map (·.1) := by
            intro hk
            obtain ⟨p, hp, rfl⟩ := List.mem_map.mp hk
            obtain ⟨v, hv, he⟩ := d.exact hX p hp
            rw [hx, Option.some.injEq] at hv
            exact hne (hv ▸ he)
          rw [shareOf_eq_zero this]
          dsimp only; omega
        · simp only [Except.ok.injEq, Prod.mk.injEq, and_true] at h
          rw [← h]
          exact ⟨x, hx, rfl, fun _ => rfl⟩

theorem filter_single {l : List Nat} (h : l.Nodup) {x : Nat} (hx : x ∈ l) : (l.filter fun k => k = x) = [x] := by
  induction l with
  | nil => cases hx
  | cons a l ih =>
    obtain ⟨h1, h2⟩ := List.nodup_cons.mp h
    rw [List.filter_cons]
    by_cases hax : a = x
    · subst hax
      rw [if_pos (by simp), List.filter_eq_nil_iff.mpr (by
        intro k hk
        simp only [decide_eq_true_eq]
        rintro rfl
        exact h1 hk)]
    · rw [if_neg (by simpa using hax)]
      rcases List.mem_cons.mp hx with e | e
      · exact absurd e.symm hax
      · exact ih h2 e

/-- an oracle whose node lists validator `i` last but one and `j` last -/
def lastTwo (V : Nat → Nat → BVal) (K : Nat → List (Nat × Nat)) (i j : Nat) : Env where
  perm _ n := List.range n
  node _ slot req := some (((req.dedup.filter fun k => k ≠ i ∧ k ≠ j) ++ (req.dedup.filter fun k => k = i) ++
    (req.dedup.filter fun k => k = j)).map (V slot))
  consol _ slot := some (K slot)

theorem lastTwo_shuffle (i j t) {α : Type} (l : List α) : (lastTwo V K i j).shuffle t l = l := filterMap_range l

theorem lastTwo_perm {i j : Nat} (hij : i ≠ j) (l : List Nat) :
    ((l.filter fun k => k ≠ i ∧ k ≠ j) ++ (l.filter fun k => k = i) ++ (l.filter fun k => k = j)).Perm l := by
  induction l with
  | nil => simp
  | cons a l ih =>
    by_cases h1 : a = i
    · subst h1
      simp only [ne_eq, List.filter_cons, not_true, false_and, decide_false, Bool.false_eq_true, if_false, decide_true,
        if_true, decide_eq_true_eq, if_neg hij]
      rw [List.append_assoc]
      rw [List.append_assoc] at ih
      exact (List.perm_middle).trans (ih.cons _)
    · by_cases h2 : a = j
      · subst h2
        simp only [ne_eq, List.filter_cons, not_true, and_false, decide_false, Bool.false_eq_true, if_false, decide_true,
          if_true, decide_eq_true_eq, if_neg h1]
        exact (List.perm_middle).trans (ih.cons _)
      · simp only [ne_eq, List.filter_cons, h1, h2, not_false_eq_true, and_self, decide_true, if_true,
          decide_false, Bool.false_eq_true, if_false, List.cons_append]
        exact ih.cons _

variable (hV : ∀ slot i, (V slot i).index = i ∧ 0 < (V slot i).effBal ∧ (V slot i).effBal < 9223372036854775808)
include hV

theorem lastTwo_indices {i j : Nat} (hij : i ≠ j) {t slot req r} (h : (lastTwo V K i j).node t slot req = some r) :
    (r.map (·.index)).Perm req.dedup := by
  simp only [lastTwo, Option.some.injEq] at h
  rw [← h, List.map_map]
  have : ((fun x : BVal => x.index) ∘ V slot) = id := funext fun k => (hV slot k).1
  rw [this, List.map_id]
  exact lastTwo_perm hij _

theorem lastTwo_valid {i j : Nat} (hij : i ≠ j) : ValidEnv (lastTwo V K i j) where
  perm _ _ := List.Perm.refl _
  nodup _ _ req _ h := (lastTwo_indices hV hij h).nodup_iff.mpr (List.nodup_dedup req)

theorem lastTwo_exact {i j : Nat} (hij : i ≠ j) : ExactEnv (lastTwo V K i j) := by
  intro t slot req r h v hv
  exact List.mem_dedup.mp ((lastTwo_indices hV hij h).mem_iff.mp (List.mem_map.mpr ⟨v, hv, rfl⟩))

theorem lastTwo_reads {i j : Nat} : ReadsChain V K (lastTwo V K i j) where
  node t slot req r h v hv := by
    simp only [lastTwo, Option.some.injEq] at h
    rw [← h] at hv
    obtain ⟨k, _, rfl⟩ := List.mem_map.mp hv
    rw [(hV slot k).1]
  consol t slot cs h := by
    simp only [lastTwo, Option.some.injEq] at h
    exact h.symm

theorem lastTwo_good {i j : Nat} (hij : i ≠ j) : GoodNode (lastTwo V K i j) := by
  intro t slot req _
  refine ⟨_, rfl, ?_, ?_⟩
  · intro k hk
    have := (lastTwo_indices (K := K) hV hij (t := t) (slot := slot) (req := req) rfl).mem_iff.mpr (List.mem_dedup.mpr hk)
    obtain ⟨v, hv, e⟩ := List.mem_map.mp this
    exact ⟨v, hv, e⟩
  · intro v hv
    refine ⟨lastTwo_exact (K := K) hV hij t slot req _ rfl v hv, ?_⟩
    rw [(lastTwo_reads (K := K) hV (i := i) (j := j)).node t slot req _ rfl v hv]
    exact (hV _ _).2

/-- **C09, exactly when the cleanup is determined.** Take the state before a cleanup after electra, on a chain with
balances and consolidation targets as they are on a real chain. The validators and the pool fees after the cleanup
do not depend on the order in which the oracle visits the validators if and only if no balance of a validator that
left would be moved to a validator that left too. -/
theorem C09_cleanup_exact {net : Str} {slot : Nat} {s : State} (hs : MapOK s) (hk : KnownNet net)
    (h1 : cleanupFrom net ≤ slot) (h2 : consolidationsFrom net ≤ slot) (hfee : s.fee ≤ 10000)
    (hnn : ∀ i v, VMap.get s.vals i = some v → 0 ≤ v.pend)
    (hban : ∀ i v, VMap.get s.vals i = some v → v.status = .banned → v.pend = 0)
    (haddr : ∀ sl p, p ∈ K sl → ∀ sl', ∃ w, HasAddress (V sl' p.2).creds w)
    (hself : ∀ p ∈ K slot, p.1 ≠ p.2) :
    (∀ E E', ValidEnv E → ExactEnv E → ReadsChain V K E → ValidEnv E' → ExactEnv E' → ReadsChain V K E' →
      ∀ a b, cleanup E net s slot = .ok (a, true) → cleanup E' net s slot = .ok (b, true) →
        a.vals = b.vals ∧ a.poolFees = b.poolFees) ↔
    NoChains V K slot s := by
  constructor
  · intro hall i j v w hv hw hl hi hj
    have hmem : (i, j) ∈ K slot := by obtain ⟨l1, l2, e, _⟩ := hl; rw [e]; simp
    have hij : i ≠ j := hself _ hmem
    refine ⟨hij, ?_⟩
    by_contra hcon
    push Not at hcon
    obtain ⟨hp, hb⟩ := hcon
    have hb : w.status ≠ .banned := fun e => hb e (hban j w hw e)
    have hne : s.vals ≠ [] := by
      intro e; rw [e] at hv; cases hv
    -- the end of the cleanup for the order ... `x`, `y`
    have run : ∀ x y : Nat, x ≠ y → x ∈ VMap.keys s.vals → y ∈ VMap.keys s.vals → ∃ a,
        cleanup (lastTwo V K x y) net s slot = .ok (a, true) ∧ ∀ k u,
          ([V slot x, V slot y].foldl (cleanStep (V slot) (K slot))
            ((((VMap.keys s.vals).filter fun k => k ≠ x ∧ k ≠ y).map (V slot)).foldl
              (cleanStep (V slot) (K slot)) (VMap.get s.vals, 0))).1 k = some u →
          ∃ u', VMap.get a.vals k = some u' ∧ u'.status = u.status ∧ (¬ Earning u → u'.pend = u.pend) := by
      intro x y hxy hx hy
      have hE := lastTwo_valid (K := K) hV hxy
      have hX := lastTwo_exact (K := K) hV hxy
      have hR := lastTwo_reads (K := K) hV (i := x) (j := y)
      have hnd : (VMap.keys s.vals).Nodup := VMap.Sorted.nodup_keys hs
      obtain ⟨a, ha⟩ := cleanup_total hE (lastTwo_good hV hxy) hk (s := s) (by
        intro t sl
        refine ⟨_, rfl, fun p hp t' sl' req r v hr hv he => ?_⟩
        rw [hR.node _ _ _ _ hr v hv, he]
        exact haddr sl p hp sl') slot hs hfee
      obtain ⟨vs, hn, hk⟩ := cleanup_parts hE hX hR hs h1 h2 hne hself ha
      refine ⟨a, ha, ?_⟩
      rw [lastTwo_shuffle] at hn
      simp only [lastTwo_shuffle] at hk
      simp only [lastTwo, Option.some.injEq, hnd.dedup, filter_single hnd hx,
        filter_single hnd hy, List.append_assoc] at hn
      rw [← hn] at hk
      simpa using hk
    have hik : i ∈ VMap.keys s.vals := (get_isSome_iff _ _).mp (by rw [hv]; rfl)
    have hjk : j ∈ VMap.keys s.vals := (get_isSome_iff _ _).mp (by rw [hw]; rfl)
    obtain ⟨a, ha, ka⟩ := run i j hij hik hjk
    obtain ⟨b, hb', kb⟩ := run j i hij.symm hjk hik
    have hsame := (hall _ _ (lastTwo_valid hV hij) (lastTwo_exact hV hij) (lastTwo_reads hV)
      (lastTwo_valid hV hij.symm) (lastTwo_exact hV hij.symm) (lastTwo_reads hV) a b ha hb').1
    have hz : ((VMap.keys s.vals).filter fun k => k ≠ j ∧ k ≠ i) = ((VMap.keys s.vals).filter fun k => k ≠ i ∧ k ≠ j) := by
      congr 1; funext k; simp [and_comm]
    rw [hz] at kb
    have hrest : ∀ q, q = i ∨ q = j → ∀ u ∈ ((VMap.keys s.vals).filter fun k => k ≠ i ∧ k ≠ j).map (V slot), q ≠ u.index := by
      intro q hq u hu
      obtain ⟨k, hk, rfl⟩ := List.mem_map.mp hu
      have := (List.mem_filter.mp hk).2
      simp only [ne_eq, decide_eq_true_eq] at this
      rw [(hV slot k).1]
      rcases hq with rfl | rfl
      · exact fun e => this.1 e.symm
      · exact fun e => this.2 e.symm
    obtain ⟨g, v1, hv1, _, le1⟩ := cleanFold_other (c := V slot) (cs := K slot) _ (z := (VMap.get s.vals, 0)) (fun k x h => hnn k x h)
      (hrest i (.inl rfl)) hv
    obtain ⟨_, w1, hw1, st1, _⟩ := cleanFold_other (c := V slot) (cs := K slot) _ (z := (VMap.get s.vals, 0)) (fun k x h => hnn k x h)
      (hrest j (.inr rfl)) hw
    have hv0 := hnn i v hv
    obtain ⟨⟨x, hx, hx0, hxs⟩, ⟨y, hy, hy0⟩⟩ := cleanTwo_differ (c := V slot) (cs := K slot) g hij (hV slot i).1 (hV slot j).1
      hi hj hv1 hw1 (by omega) (by rw [st1]; exact hb) hl.consolTarget (fun k hk => (hself _ (consolTarget_some hk).2).symm)
    obtain ⟨x', hx', sx, px⟩ := ka j x hx
    obtain ⟨y', hy', sy, py⟩ := kb j y hy
    rw [hsame, hy', Option.some.injEq] at hx'
    subst hx'
    have hxe : ¬ Earning x := by
      unfold Earning
      rw [hxs]
      rintro (h | h)
      · exact unsub_not_earning.1 h
      · exact unsub_not_earning.2 h
    have hye : ¬ Earning y := by
      unfold Earning at hxe ⊢
      rw [← sy, sx]; exact hxe
    have e1 := px hxe
    have e2 := py hye
    omega
  · intro hA E E' hE hX hR hE' hX' hR' a b ha hb
    obtain ⟨_, t, x, c, le, ld, ls, e⟩ := cleanup_same hE hX hR hE' hX' hR' hA
      ⟨hs, s.tick, s.stateHash, s.committed, s.ether, s.donations, s.subs, rfl⟩ _ _ ha hb rfl rfl
    dsimp only at e
    rw [e]; exact ⟨rfl, rfl⟩

end
/-- on the sample state before a cleanup, the outcome is determined when validator 9 is consolidated into the active
validator 1, and not determined when it is consolidated into validator 3, which left too -/
example (t : Nat) (ht : t = 1 ∨ t = 3) :
    (∀ E E', ValidEnv E → ExactEnv E → ReadsChain Sample.leftV (Sample.leftK t) E → ValidEnv E' → ExactEnv E' →
      ReadsChain Sample.leftV (Sample.leftK t) E' → ∀ a b,
        cleanup E b!"mainnet" Sample.st 12000000 = .ok (a, true) →
        cleanup E' b!"mainnet" Sample.st 12000000 = .ok (b, true) → a.vals = b.vals ∧ a.poolFees = b.poolFees) ↔
    t = 1 := by
  have hall : ∀ (P : Nat → Validator → Prop), (∀ p ∈ Sample.st.vals, P p.1 p.2) →
      ∀ i v, VMap.get Sample.st.vals i = some v → P i v := fun P h i v hv => h (i, v) (mem_of_get hv)
  rw [C09_cleanup_exact (fun slot i => ⟨Sample.leftV_index slot i, by
      unfold Sample.leftV Sample.bval; split <;> dsimp only <;> omega, by
      unfold Sample.leftV Sample.bval; split <;> dsimp only <;> omega⟩) Sample.st_ok (Or.inl rfl) (by decide) (by decide)
    (by decide) (hall _ (by decide)) (hall (fun _ v => v.status = .banned → v.pend = 0) (by decide))
    (by
      intro sl p hp sl'
      refine ⟨Sample.addr p.2, ?_⟩
      unfold Sample.leftV
      split <;> exact Sample.hasAddress _)
    (by
      intro p hp
      simp only [Sample.leftK, List.mem_singleton] at hp
      subst hp
      rcases ht with rfl | rfl <;> simp)]
  rcases ht with rfl | rfl
  · refine ⟨fun _ => rfl, fun _ => ?_⟩
    rintro i j v w _ _ ⟨l1, l2, e, _⟩ _ hj
    have : (i, j) ∈ Sample.leftK 1 12000000 := by rw [e]; simp
    simp only [Sample.leftK, List.mem_singleton, Prod.mk.injEq] at this
    obtain ⟨rfl, rfl⟩ := this
    cases hj
  · refine ⟨fun h => ?_, fun e => by cases e⟩
    have := (h 9 3 _ _ rfl rfl ⟨[], [], rfl, by simp⟩ rfl rfl).2
    revert this
    decide

end Verif
