import Verif.Props.Distribution
import Verif.Spec.Status
/-
The model's sharing of a reward meets the specification `Shares`.
-/
namespace Verif
open VMap

theorem total_pend_map {m : VMap} {g : Nat × Validator → Int} :
    total (·.pend) (m.map fun p => (p.1, { p.2 with pend := p.2.pend + g p })) =
      total (·.pend) m + (m.map g).sum := by
  induction m with
  | nil => simp [total]
  | cons p m ih =>
    simp only [total, List.map_cons, List.sum_cons] at ih ⊢
    rw [ih]; ring

theorem increaseAll_shares {E : Env} (hE : ValidEnv E) (hX : ExactEnv E) {net s r s'}
    (hs : Sorted s.vals) (h : increaseAll E net s r = .ok s') : Shares E net s r s' := by
  obtain ⟨sh, fees, d⟩ := increaseAll_dist hE hs h
  have e1 : s'.vals = credit sh s.vals := by rw [d.eq]
  have hz : ∀ p ∈ s.vals, ¬ Earning p.2 → shareOf sh p.1 = 0 := by
    intro p hp hne
    apply shareOf_eq_zero
    intro hi
    obtain ⟨q, hq, hqi⟩ := List.mem_map.mp hi
    obtain ⟨u, hu, hst⟩ := d.exact hX q hq
    rw [hqi, hs.get_of_mem (k := p.1) (v := p.2) hp, Option.some.injEq] at hu
    subst hu
    exact hne hst
  have hvals : credit sh s.vals = s.vals.map fun p =>
      (p.1, if Earning p.2 then { p.2 with pend := p.2.pend + shareOf sh p.1 } else p.2) := by
    unfold credit
    apply List.map_congr_left
    intro p hp
    split
    · rfl
    · rename_i hne; rw [hz p hp hne, add_zero]
  have hsum : (sh.map (·.2)).sum =
      (s.vals.map fun p => if Earning p.2 then shareOf sh p.1 else 0).sum := by
    have k1 := total_pend_credit hs d.tracked
    have k2 : credit sh s.vals = s.vals.map fun p =>
        (p.1, { p.2 with pend := p.2.pend + (if Earning p.2 then shareOf sh p.1 else 0) }) := by
      unfold credit
      apply List.map_congr_left
      intro p hp
      split
      · rfl
      · rename_i hne; rw [hz p hp hne]
    rw [k2, total_pend_map] at k1
    omega
  have hget : ∀ i v, VMap.get s.vals i = some v →
      VMap.get s'.vals i = some { v with pend := v.pend + shareOf sh i } := by
    intro i v hv; rw [e1, get_credit, hv]; rfl
  have hpend : ∀ {i : Nat} {v : Validator} {x : Int}, VMap.get s.vals i = some v →
      VMap.get s'.vals i = some { v with pend := v.pend + x } → shareOf sh i = x := by
    intro i v x hv hx
    rw [hget i v hv, Option.some.injEq] at hx
    have := congrArg Validator.pend hx
    dsimp only at this
    omega
  refine ⟨shareOf sh, ⟨?_, ?_, ?_⟩, ?_⟩
  · intro h2 hc
    rcases increaseAll_rule hE h with ⟨he, _⟩ | ⟨hne, hfee, sh', fees', hrule, _, hval, hp⟩
    · rw [eligible_nil_iff hE] at he; omega
    · cases hrule with
      | fork1 _ h3 => exact absurd h2 h3
      | pre _ _ h3 => exact absurd h2 h3
      | electra vs t h1 hgs hT =>
        have hans := answer_perm hE hX hgs (nodup_eligible hE hs)
        refine ⟨t, _, vs, (getSet_some hgs).1, ?_, ?_⟩
        · intro i
          have : (∃ u ∈ vs, u.index = i) ↔ i ∈ eligible E s := by
            rw [← hans.mem_iff, List.mem_map]
          rw [this, mem_eligible hE hs]
          exact Iff.rfl
        · intro hB u hu
          have hb : ∀ v ∈ vs, i64 v.effBal = v.effBal := fun v hv => i64_of_lt (hB v hv)
          have hT' : (vs.map fun v => i64 v.effBal).sum = (vs.map fun u => (u.effBal : Int)).sum := by
            rw [List.map_congr_left hb]
          have hin : u.index ∈ eligible E s := by rw [← hans.mem_iff, List.mem_map]; exact ⟨u, hu, rfl⟩
          obtain ⟨v, hv, _⟩ := (mem_eligible hE hs _).mp hin
          apply hpend hv
          rw [hval, get_credit, hv]
          rw [shareOf_eq_of_nodup (x := (r - feeOf s.fee r) * i64 u.effBal /
            (vs.map fun v => i64 v.effBal).sum) ?_ (List.mem_map.mpr ⟨u, hu, rfl⟩), hT', hb u hu]
          · rfl
          · rw [List.map_map]
            exact (hE.nodup _ _ _ _ (getSet_some hgs).1)
  · intro h1 h2 i v hv he
    exact hpend hv (C05_fork1_equal hE hs h1 h2 h hv he)
  · intro h1 h2 i v hv he
    exact hpend hv (C05_before_fork1_equal hE hs h1 h2 h hv he)
  · rw [← hsum, ← hvals]
    have e2 : r - (sh.map (·.2)).sum = fees := by have := d.sum; omega
    rw [e2]
    exact d.eq

theorem shares_frame {E net s r s'} (h : Shares E net s r s') : s'.frame = s.frame := by
  obtain ⟨_, _, e⟩ := h; rw [e]; rfl

/-- What sharing an amount does to one record. -/
theorem shares_record {E : Env} {net s r s'} (h : Shares E net s r s') (i : Nat) :
    ∃ y, VMap.get s'.vals i = (VMap.get s.vals i).map (fun v => { v with pend := v.pend + y }) ∧
      (∀ v, VMap.get s.vals i = some v → ¬ Earning v → y = 0) := by
  obtain ⟨share, _, e⟩ := h
  have e1 : s'.vals = s.vals.map fun p =>
        (p.1, if Earning p.2 then { p.2 with pend := p.2.pend + share p.1 } else p.2) := by rw [e]
  have key : VMap.get s'.vals i = (VMap.get s.vals i).map fun v =>
      if Earning v then { v with pend := v.pend + share i } else v := by
    rw [e1]
    generalize s.vals = m
    induction m with
    | nil => rfl
    | cons p m ih =>
      obtain ⟨a, v⟩ := p
      simp only [List.map_cons, VMap.get]
      by_cases hp : a = i
      · subst hp; simp
      · simp only [if_neg hp]; exact ih
  cases hv : VMap.get s.vals i with
  | none => exact ⟨0, by rw [key, hv]; rfl, by simp⟩
  | some v =>
    by_cases he : Earning v
    · exact ⟨share i, by rw [key, hv]; simp [he], fun u hu hn => by
        rw [Option.some.injEq] at hu; subst hu; exact absurd he hn⟩
    · exact ⟨0, by rw [key, hv]; simp [he], fun _ _ _ => rfl⟩

theorem shares_sorted {E : Env} {net s r s'} (hs : Sorted s.vals)
    (h : Shares E net s r s') : Sorted s'.vals := by
  obtain ⟨share, _, e⟩ := h
  rw [e]
  unfold Sorted at hs ⊢
  rw [List.pairwise_map]
  exact hs

theorem shares_five {E : Env} {net s p s'} (h : Shares E net s p s')
    (hs : Sorted s.vals) (h5 : FiveStates s) : FiveStates s' ∧ Sorted s'.vals := by
  refine ⟨?_, shares_sorted hs h⟩
  obtain ⟨share, _, e⟩ := h
  intro p hp
  rw [e] at hp
  dsimp only at hp
  obtain ⟨q, hq, rfl⟩ := List.mem_map.mp hp
  have := h5 q hq
  dsimp only
  split <;> exact this

end Verif
