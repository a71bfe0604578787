import Verif.Props.Earnings
import Verif.Props.Cleanup
import Verif.Props.Banned
/-
C92: a validator that left the beacon chain leaves the pool at the next cleanup.
C93: a member that proposes keeps its place only if the pool got the reward.
C94: a member whose builder paid the pool is not banned.
-/
namespace Verif
open VMap Relation

/-! ### C92 -/

/-- a listed inactive validator with a pending balance, into which nobody consolidates, is removed -/
theorem CleanEffects.removed {E slot cs s l s' t} (h : CleanEffects E slot cs s l s' t) {i v}
    (hv : VMap.get s.vals i = some v) (hp : v.pend ≠ 0) (hin : ∀ k, ¬ LastTarget cs k i)
    (hai : ∀ u ∈ l, u.index = i → u.status.isActive = false)
    (hl : ∃ u ∈ l, u.index = i) (hnd : (l.map (·.index)).Nodup) :
    VMap.get s'.vals i = some { v with status := afterLeaving v.status, pend := 0 } := by
  have gone' : ∀ {m : VMap}, VMap.get m i = some v →
      VMap.get (gone m i) i = some { v with status := afterLeaving v.status, pend := 0 } := by
    intro m hm; rw [get_gone, if_pos rfl, hm]; rfl
  have rest : ∀ {u : BVal} {l : List BVal}, (∃ x ∈ u :: l, x.index = i) → u.index ≠ i → ∃ x ∈ l, x.index = i := by
    rintro u l ⟨x, hx, hxi⟩ hne
    rcases List.mem_cons.mp hx with rfl | hx
    · exact absurd hxi hne
    · exact ⟨x, hx, hxi⟩
  induction h with
  | nil => simp at hl
  | @keep s u l s' t hk _ ih =>
    have hne : u.index ≠ i := by
      intro e
      rcases hk with hk | ⟨x, hx, hx0⟩
      · rw [hai u (by simp) e] at hk; simp at hk
      · rw [e, hv, Option.some.injEq] at hx
        exact hp (hx ▸ hx0)
    exact ih hv (fun u hu => hai u (by simp [hu])) (rest hl hne) (List.nodup_cons.mp hnd).2
  | @leaves s u x l s' t _ _ _ _ hcl ih =>
    obtain ⟨hnd1, hnd'⟩ := List.nodup_cons.mp hnd
    by_cases hi : u.index = i
    · subst hi
      rw [hcl.absent (fun y hy e => hnd1 (List.mem_map.mpr ⟨y, hy, e⟩)) hin]
      exact gone' hv
    · exact ih (by dsimp only; rw [get_gone, if_neg (Ne.symm hi), hv]) (fun u hu => hai u (by simp [hu]))
        (rest hl hi) hnd'
  | @moves s u x k w l s' t _ _ _ hlt hne hw _ hcl ih =>
    obtain ⟨hnd1, hnd'⟩ := List.nodup_cons.mp hnd
    have hki : i ≠ k := by rintro rfl; exact hin _ hlt
    by_cases hi : u.index = i
    · subst hi
      rw [hcl.absent (fun y hy e => hnd1 (List.mem_map.mpr ⟨y, hy, e⟩)) hin]
      dsimp only
      rw [get_modify_ne _ _ hki]
      exact gone' hv
    · exact ih (by dsimp only; rw [get_modify_ne _ _ hki, get_gone, if_neg (Ne.symm hi), hv])
        (fun u hu => hai u (by simp [hu])) (rest hl hi) hnd'
  | @creates s u x k w l s' t n req r bv _ _ _ hlt hw _ _ _ _ hcl ih =>
    obtain ⟨hnd1, hnd'⟩ := List.nodup_cons.mp hnd
    have hki : i ≠ k := by rintro rfl; exact hin _ hlt
    by_cases hi : u.index = i
    · subst hi
      rw [hcl.absent (fun y hy e => hnd1 (List.mem_map.mpr ⟨y, hy, e⟩)) hin]
      dsimp only
      rw [get_insert, if_neg hki]
      exact gone' hv
    · exact ih (by dsimp only; rw [get_insert, if_neg hki, get_gone, if_neg (Ne.symm hi), hv])
        (fun u hu => hai u (by simp [hu])) (rest hl hi) hnd'

/-- a validator with nothing pending, into which nobody consolidates, is left alone -/
theorem CleanEffects.kept {E slot cs s l s' t} (h : CleanEffects E slot cs s l s' t) {i v}
    (hv : VMap.get s.vals i = some v) (hp : v.pend = 0) (hin : ∀ k, ¬ LastTarget cs k i) :
    VMap.get s'.vals i = some v := by
  have other : ∀ {u : BVal} {x : Validator} {m : VMap}, VMap.get m i = some v → VMap.get m u.index = some x →
      x.pend ≠ 0 → VMap.get (gone m u.index) i = some v := by
    intro u x m hm hu hx
    have : i ≠ u.index := by
      rintro rfl
      rw [hm, Option.some.injEq] at hu
      exact hx (hu ▸ hp)
    rw [get_gone, if_neg this, hm]
  induction h with
  | nil => exact hv
  | keep _ _ ih => exact ih hv
  | @leaves s u x l s' t _ hu hx _ _ ih => exact ih (other hv hu hx)
  | @moves s u x k w l s' t _ hu hx hlt _ _ _ _ ih =>
    have hki : i ≠ k := by rintro rfl; exact hin _ hlt
    exact ih (by dsimp only; rw [get_modify_ne _ _ hki]; exact other hv hu hx)
  | @creates s u x k w l s' t n req r bv _ hu hx hlt _ _ _ _ _ _ ih =>
    have hki : i ≠ k := by rintro rfl; exact hin _ hlt
    exact ih (by dsimp only; rw [get_insert, if_neg hki]; exact other hv hu hx)

theorem Op.Step.pend {x op a b} (hx : x) (h : Op.Step x op a b) (ha : a.NonNeg) {i v}
    (hv : VMap.get a.vals i = some v) (h1 : ∀ e, op ≠ .seize i e) (h2 : ∀ j, op ≠ .move i j)
    (h3 : op ≠ .consol i) : ∃ v', VMap.get b.vals i = some v' ∧ v.pend ≤ v'.pend := by
  have hf := ha.2.1
  cases h with
  | dist _ sh fees k1 k2 k3 k4 =>
    dsimp only
    rw [get_credit, hv]
    refine ⟨_, rfl, ?_⟩
    have : 0 ≤ shareOf sh i := by
      unfold shareOf
      apply sum_nonneg
      intro y hy
      obtain ⟨r, hr, rfl⟩ := List.mem_map.mp hy
      exact (k4 hx hf).2 r (List.mem_filter.mp hr).1
    dsimp only
    omega
  | seize _ j e u hu he =>
    have hne : i ≠ j := fun e' => h1 e (by rw [e'])
    exact ⟨v, by dsimp only; rw [get_modify_ne _ _ hne, hv], le_refl _⟩
  | move _ k j u w hu hw hkj hb =>
    have hne : i ≠ k := fun e' => h2 j (by rw [e'])
    have hu0 : 0 ≤ u.pend := (ha.2.2 _ (mem_of_get hu)).1
    dsimp only
    rw [get_modify]
    by_cases e : i = j
    · subst e
      rw [if_pos rfl, get_modify_ne _ _ hne, hv]
      exact ⟨_, rfl, by dsimp only; omega⟩
    · rw [if_neg e, get_modify_ne _ _ hne, hv]
      exact ⟨v, rfl, le_refl _⟩
  | create _ j u hn _ _ _ _ =>
    have hne : i ≠ j := by rintro rfl; rw [hn] at hv; cases hv
    exact ⟨v, by dsimp only; rw [get_insert, if_neg hne, hv], le_refl _⟩
  | recv _ y => exact ⟨v, hv, le_refl _⟩
  | toPool _ => exact ⟨v, hv, le_refl _⟩
  | consol _ j =>
    have hne : i ≠ j := fun e' => h3 (by rw [e'])
    exact ⟨v, by dsimp only; rw [get_modify_ne _ _ hne, hv], le_refl _⟩
  | _ =>
    dsimp only
    rw [get_modify]
    split
    · rename_i e
      subst e
      rw [hv]
      exact ⟨_, rfl, by dsimp only [setStatus]; omega⟩
    · exact ⟨v, hv, le_refl _⟩

theorem Path.pend {x ops a b} (hx : x) (h : Path x ops a b) (ha : a.NonNeg) (hr : ∀ y, Op.recv y ∈ ops → 0 ≤ y)
    {i v} (hv : VMap.get a.vals i = some v) (h1 : ∀ e, Op.seize i e ∉ ops) (h2 : ∀ j, Op.move i j ∉ ops)
    (h3 : Op.consol i ∉ ops) : ∃ v', VMap.get b.vals i = some v' ∧ v.pend ≤ v'.pend := by
  induction h generalizing v with
  | nil => exact ⟨v, hv, le_refl _⟩
  | cons hs _ ih =>
    obtain ⟨v1, k1, k2⟩ := hs.pend hx ha hv (fun e he => h1 e (by simp [he])) (fun j hj => h2 j (by simp [hj]))
      (fun e => h3 (by simp [e]))
    obtain ⟨v2, k3, k4⟩ := ih (hs.nonneg hx ha (fun y hy => hr y (by simp [hy]))) (fun y hy => hr y (by simp [hy])) k1
      (fun e he => h1 e (by simp [he])) (fun j hj => h2 j (by simp [hj])) (fun e => h3 (by simp [e]))
    exact ⟨v2, k3, le_trans k2 k4⟩

theorem afterLeaving_out {st : Status} : ¬ Subscribed (afterLeaving st) := by
  unfold afterLeaving
  split
  · simp [Subscribed]
  · assumption

section
variable {E : Env} (hE : ValidEnv E) (hX : ExactEnv E) (hC : NoSelfConsol E)
include hE hX hC

/-- the cleanup removes every inactive validator that has a pending balance -/
theorem cleanup_removes {net : Str} {slot : Nat} {s s' : State} (hs : MapOK s)
    (h : cleanup E net s slot = .ok (s', true)) (hfrom : cleanupFrom net ≤ slot) {i v}
    (hv : VMap.get s.vals i = some v) (hp : v.pend ≠ 0) (hia : Inactive E slot i)
    (hin : ∀ t cs, E.consol t slot = some cs → ∀ p ∈ cs, p.2 ≠ i) :
    VMap.get s'.vals i = some { v with status := afterLeaving v.status, pend := 0 } := by
  cases cleanup_effect hE hX hC hs h with
  | early hlt => omega
  | empty he => rw [he] at hv; simp [VMap.get] at hv
  | @done t cs req answer l s1 tot _ _ hc1 hc2 hnode hans hperm hcl hsh =>
    have hin' : ∀ k, ¬ LastTarget cs k i := by
      rintro k ⟨a, c, e, _⟩
      by_cases hc : consolidationsFrom net ≤ slot
      · exact hin t cs (hc1 hc) (k, i) (by rw [e]; simp) rfl
      · rw [hc2 (by omega)] at e; simp at e
    have k1 := hcl.removed (i := i) (v := v) hv hp hin'
      (fun u hu hui => hia _ _ _ u hnode (hperm.mem_iff.mp hu) hui) (by
        obtain ⟨u, hu, hui⟩ := (hans i).mpr (by rw [hv]; rfl)
        exact ⟨u, hperm.mem_iff.mpr hu, hui⟩) (by
        have := hE.nodup _ _ _ _ hnode
        exact (hperm.map _).nodup_iff.mpr this)
    rcases hsh with ⟨_, hsh⟩ | ⟨_, rfl⟩
    · exact shares_skip hsh k1 gone_earning
    · exact k1

/-- **C92**, exactly. What a cleanup does with a validator that left the beacon chain and into which nobody
consolidates: it is still subscribed afterwards if and only if it was subscribed and had nothing pending. -/
theorem C92_cleanup_exact {net : Str} {slot : Nat} {s s' : State} (hs : MapOK s)
    (h : cleanup E net s slot = .ok (s', true)) (hfrom : cleanupFrom net ≤ slot) {i v}
    (hv : VMap.get s.vals i = some v) (hia : Inactive E slot i)
    (hin : ∀ t cs, E.consol t slot = some cs → ∀ p ∈ cs, p.2 ≠ i) :
    ∃ v', VMap.get s'.vals i = some v' ∧ (Subscribed v'.status ↔ Subscribed v.status ∧ v.pend = 0) := by
  by_cases hp : v.pend = 0
  · have : ∃ y, VMap.get s'.vals i = some { v with pend := v.pend + y } := by
      cases cleanup_effect hE hX hC hs h with
      | early hlt => omega
      | empty he => rw [he] at hv; simp [VMap.get] at hv
      | @done t cs req answer l s1 tot _ _ hc1 hc2 hnode hans hperm hcl hsh =>
        have hin' : ∀ k, ¬ LastTarget cs k i := by
          rintro k ⟨a, c, e, _⟩
          by_cases hc : consolidationsFrom net ≤ slot
          · exact hin t cs (hc1 hc) (k, i) (by rw [e]; simp) rfl
          · rw [hc2 (by omega)] at e; simp at e
        have k1 := hcl.kept (i := i) (v := v) hv hp hin'
        rcases hsh with ⟨_, hsh⟩ | ⟨_, rfl⟩
        · exact shares_pend hsh k1
        · exact ⟨0, by rw [k1]; simp⟩
    obtain ⟨y, hy⟩ := this
    exact ⟨_, hy, ⟨fun h => ⟨h, hp⟩, fun h => h.1⟩⟩
  · exact ⟨_, cleanup_removes hE hX hC hs h hfrom hv hp hia hin, ⟨fun h => absurd h afterLeaving_out, fun h => absurd h.2 hp⟩⟩

/-- **C92**, exactly, said with the states of the Beacon API: before its activation or after its exit, a validator is
still subscribed after a cleanup if and only if it was subscribed and had nothing pending. -/
theorem C92_off_duty {net : Str} {slot : Nat} {s s' : State} (hs : MapOK s)
    (h : cleanup E net s slot = .ok (s', true)) (hfrom : cleanupFrom net ≤ slot) {i v}
    (hv : VMap.get s.vals i = some v)
    (hia : ∀ t req r u, E.node t slot req = some r → u ∈ r → u.index = i → OffDuty u.status)
    (hin : ∀ t cs, E.consol t slot = some cs → ∀ p ∈ cs, p.2 ≠ i) :
    ∃ v', VMap.get s'.vals i = some v' ∧ (Subscribed v'.status ↔ Subscribed v.status ∧ v.pend = 0) := by
  refine C92_cleanup_exact hE hX hC hs h hfrom hv (fun t req r u h1 h2 h3 => ?_) hin
  rcases hia t req r u h1 h2 h3 with e | e | e | e | e | e <;> rw [e] <;> rfl

/-- **C92** (partial: only for validators with a pending balance, see `C92_false_zero_pending`). At a slot with a
cleanup, a validator with a pending balance that the beacon node reports as not active, and into which nobody
consolidates, is no longer subscribed afterwards and has no pending balance: it gets no further share. (It does
not itself propose in this slot, and the block carries no ban of it and no unsubscription by its owner, which are
other ways out.) -/
theorem C92_removed_partial (hB : SaneBalances E) {o o' : Oracle} {b : FullBlock} {n : Nat} (hs : MapOK o.st)
    (hn : NonNeg o.st) (hf : 0 ≤ o.st.fee) (hnet : KnownNet o.cfg.network)
    (hpf : cleanupFrom o.cfg.network ≤ o.st.nextSlot) (hpay : NonNegPayments b)
    (hg : GasOK b) (h : advanceState E o b = .ok (o', some n)) (hclean : n % 1200 = 0) {i v}
    (hv : VMap.get o.st.vals i = some v) (hp : 0 < v.pend) (hia : Inactive E n i)
    (hin : ∀ t cs, E.consol t n = some cs → ∀ p ∈ cs, p.2 ≠ i) (hprop : b.dutyIndex ≠ i)
    (hub : ¬ OwnerUnsubscribes b i) (hban : ∀ ev ∈ b.events.bans, ev.validatorId ≠ i) :
    ∃ v', VMap.get o'.st.vals i = some v' ∧ v'.pend = 0 ∧ ¬ Subscribed v'.status := by
  have hfee : 0 ≤ o'.st.fee := by rcases slot_fee h with e | e <;> rw [e]; exact hf; decide
  have hpost : PostFork1 o.cfg.network o.st.nextSlot := by
    rcases hnet with e | e | e
    · exact Or.inl ⟨e, by rw [e] at hpf; exact hpf⟩
    · exact Or.inr (Or.inl ⟨e, by rw [e] at hpf; exact hpf⟩)
    · exact Or.inr (Or.inr ⟨e, by rw [e] at hpf; exact hpf⟩)
  obtain ⟨o1, sb, dons, s1, s2, h1, h2, hvc, hsb, h3, hd, ha, hcl, ho', hn'⟩ := advanceState_ok h
  have hfr := validateConfig_frame hvc
  have hvals : o1.st.vals = o.st.vals := by rw [hfr]
  have hpool : o1.st.poolFees = o.st.poolFees := by rw [hfr]
  have hnt : o1.cfg.network = o.cfg.network := by rw [hfr]
  have hns : o1.st.nextSlot = o.st.nextSlot := by rw [hfr]
  have hs1 : Sorted o1.st.vals := by rw [hvals]; exact hs
  have e2 : s2.frame = s1.frame := by
    split at hcl
    · exact cleanup_frame hcl
    · simp only [Except.ok.injEq, Prod.mk.injEq, and_true] at hcl; rw [hcl]
  have e3 : s2.nextSlot = s1.nextSlot := by have := congrArg State.nextSlot e2; exact this
  obtain ⟨_, _, _, k0⟩ := applyBlock_runs (x := False) hE hX (slot := 1) hs1 (by simp) ha
  have e4 : s1.nextSlot = o.st.nextSlot := by
    have := congrArg State.nextSlot k0.rest
    exact this.trans hns
  have e5 : s2.fee = s1.fee := by have := congrArg State.fee e2; exact this
  have e6 : s1.fee = o1.st.fee := by have := congrArg State.fee k0.rest; exact this
  have e7 : o'.st.fee = s2.fee := by rw [ho']; rfl
  obtain ⟨r, _, _, k1⟩ := applyBlock_runs (x := True) hE hX (slot := 1) hs1
    (fun _ => ⟨by rw [← e6, ← e5, ← e7]; exact hfee, by rw [hns, hnt]; exact hpost, hB⟩) ha
  have hsort := k1.sorted hs1
  obtain ⟨⟨ops, hpath, _, hc⟩, _⟩ := k1
  have hidx := (summarize_slot hsb).2.1
  obtain ⟨v1, g1, g2⟩ := hpath.pend trivial (i := i) (v := v)
    ⟨by dsimp only [State.bal]; rw [hpool]; exact hn.1, le_refl _, by
      dsimp only [State.bal]; rw [hvals]; exact hn.2⟩
    (fun y hy => recv_nonneg hsb hd hpay hg (hc _ hy)) (by dsimp only [State.bal]; rw [hvals, hv])
    (by
      intro e he
      have := hc _ he
      cases e with
      | unsubscribe =>
        rcases this with this | ⟨this, _⟩
        · exact hub this
        · simp at this
      | proposalWrongFee => exact hprop (hidx.symm.trans this.2)
      | manualBan =>
        obtain ⟨ev, m1, m2⟩ := this
        exact hban ev m1 m2
      | _ => exact this.elim)
    (by
      intro j hj
      have := (hc _ hj).1
      simp at this)
    (by
      intro hj
      exact hprop (hidx.symm.trans (hc _ hj).2))
  have hnn : n = o.st.nextSlot := by rw [hn', e3, e4]
  rw [if_pos (by rw [e4, ← hnn]; exact hclean), e4, ← hnn, hnt] at hcl
  have := cleanup_removes hE hX hC hsort hcl (by rw [hnn]; exact hpf) (i := i) (v := v1) g1 (by omega) hia hin
  exact ⟨_, by rw [ho']; exact this, rfl, afterLeaving_out⟩

end

namespace Sample

/-- validator 9 exits at slot 12000000 -/
def envExit : Env :=
  { env with
    node := fun _ slot req => some (req.dedup.map fun i =>
      if i = 9 ∧ 12000000 ≤ slot then { bval 9 with status := .exitedUnslashed } else bval i)
    consol := fun _ _ => some [] }

theorem envExit_index (slot i : Nat) :
    (if i = 9 ∧ 12000000 ≤ slot then { bval 9 with status := .exitedUnslashed } else bval i).index = i := by
  split
  · rename_i h; rw [h.1]; rfl
  · rfl

theorem envExit_node {t slot req r} (h : envExit.node t slot req = some r) :
    r = req.dedup.map fun i =>
      if i = 9 ∧ 12000000 ≤ slot then { bval 9 with status := .exitedUnslashed } else bval i := by
  simp only [envExit, Option.some.injEq] at h; exact h.symm

theorem envExit_valid : ValidEnv envExit where
  perm := fun _ _ => List.Perm.refl _
  nodup := by
    intro t slot req r h
    rw [envExit_node h, List.map_map]
    have : ((fun v : BVal => v.index) ∘ fun i =>
        if i = 9 ∧ 12000000 ≤ slot then { bval 9 with status := .exitedUnslashed } else bval i) = id := by
      funext i; exact envExit_index slot i
    rw [this, List.map_id]
    exact List.nodup_dedup _

theorem envExit_exact : ExactEnv envExit := by
  intro t slot req r h v hv
  rw [envExit_node h] at hv
  obtain ⟨i, hi, rfl⟩ := List.mem_map.mp hv
  rw [envExit_index]; exact List.mem_dedup.mp hi

theorem envExit_sane : SaneBalances envExit := by
  intro t slot req r h v hv
  rw [envExit_node h] at hv
  obtain ⟨i, hi, rfl⟩ := List.mem_map.mp hv
  split <;> (simp only [bval]; omega)

theorem envExit_inactive : Inactive envExit 12000000 9 := by
  intro t req r v h1 h2 h3
  rw [envExit_node h1] at h2
  obtain ⟨j, _, rfl⟩ := List.mem_map.mp h2
  rw [envExit_index] at h3
  subst h3
  rfl

/-- validator 9 proposes, pays 5000 to the pool and so becomes a member -/
def pays9 : FullBlock :=
  prop 11999999 9 builder (tx builder pool 5000) { ether := [⟨5000, pool, 100⟩] }

/-- somebody donates 1000 -/
def gift (slot : Nat) : FullBlock :=
  prop slot 77 builder (tx builder (addr 77) 900) { ether := [⟨1000, pool, 100⟩] }

end Sample

/-- the hypotheses of C92 are met: validator 9 subscribed with collateral 1000 and has exited at the cleanup slot -/
example : ∃ o o' n, ValidEnv Sample.envExit ∧ ExactEnv Sample.envExit ∧ NoSelfConsol Sample.envExit ∧
    SaneBalances Sample.envExit ∧ Hist Sample.envExit (newOracle Sample.cfgEarly) [Sample.subscribes9] o ∧
    MapOK o.st ∧ NonNeg o.st ∧ 0 ≤ o.st.fee ∧ KnownNet o.cfg.network ∧
    cleanupFrom o.cfg.network ≤ o.st.nextSlot ∧ NonNegPayments (Sample.miss 12000000 77) ∧
    GasOK (Sample.miss 12000000 77) ∧
    advanceState Sample.envExit o (Sample.miss 12000000 77) = .ok (o', some n) ∧ n % 1200 = 0 ∧ n = 12000000 ∧
    (VMap.get o.st.vals 9).any (fun v => decide (0 < v.pend)) ∧ Inactive Sample.envExit 12000000 9 ∧
    ¬ OwnerUnsubscribes (Sample.miss 12000000 77) 9 := by
  obtain ⟨o, o', n, h1, h2, h3⟩ := Sample.ex_then (E := Sample.envExit)
    (o := newOracle Sample.cfgEarly) (bs := [Sample.subscribes9]) (b := Sample.miss 12000000 77)
    (P := fun o _ n => decide (n = 12000000 ∧ 0 ≤ o.st.poolFees ∧ (∀ p ∈ o.st.vals, 0 ≤ p.2.pend ∧ 0 ≤ p.2.acc) ∧
      0 ≤ o.st.fee ∧ KnownNet o.cfg.network ∧ cleanupFrom o.cfg.network ≤ o.st.nextSlot ∧
      (VMap.get o.st.vals 9).any (fun v => decide (0 < v.pend)) = true)) (by decide +kernel)
  simp only [decide_eq_true_eq] at h3
  obtain ⟨k1, k2, k3, k4, k5, k6, k7⟩ := h3
  have hC : NoSelfConsol Sample.envExit := by
    intro t slot cs h p hp
    simp only [Sample.envExit, Option.some.injEq] at h
    subst h; simp at hp
  refine ⟨o, o', n, Sample.envExit_valid, Sample.envExit_exact, hC, Sample.envExit_sane, h1,
    (hist_five Sample.envExit_valid Sample.envExit_exact hC h1 List.Pairwise.nil
      (by intro p hp; simp [newOracle] at hp)).1, ⟨k2, k3⟩, k4, k5, k6, ⟨by decide, by decide⟩,
    fun c h rs hc => by simp [Sample.miss] at hc, h2, by rw [k1], k1, k7, Sample.envExit_inactive, ?_⟩
  simp [OwnerUnsubscribes, Sample.miss]

/-- the exact statement applied to validator 9 of the sample state, which has 900 pending and has exited -/
example : ∃ s' v', cleanup Sample.envExit b!"mainnet" Sample.st 12000000 = .ok (s', true) ∧
    VMap.get s'.vals 9 = some v' ∧ ¬ Subscribed v'.status := by
  obtain ⟨⟨s', go⟩, h, hm⟩ := Sample.ex_ok (x := cleanup Sample.envExit b!"mainnet" Sample.st 12000000)
    (P := fun p => p.2) (by decide +kernel)
  dsimp only at hm; subst hm
  have hC : ∀ t slot cs, Sample.envExit.consol t slot = some cs → cs = [] := by
    intro t slot cs h
    simp only [Sample.envExit, Option.some.injEq] at h
    exact h.symm
  obtain ⟨v', h1, h2⟩ := C92_cleanup_exact (i := 9) Sample.envExit_valid Sample.envExit_exact
    (fun t slot cs h p hp => by rw [hC _ _ _ h] at hp; simp at hp) Sample.st_ok h (by decide) rfl
    Sample.envExit_inactive (fun t cs h p hp => by rw [hC _ _ _ h] at hp; simp at hp)
  exact ⟨s', v', h, h1, fun hsub => absurd (h2.mp hsub).2 (by decide)⟩

/-- **C92 is false as stated.** Validator 9 paid the pool right before it exited, so it is a member with nothing
pending; the cleanup skips it. It stays a member and gets a share of the next donation, although the beacon node
has long reported that it exited. -/
theorem C92_false_zero_pending : ∃ o o' n,
    Hist Sample.envExit (newOracle Sample.cfgEarly) [Sample.pays9, Sample.miss 12000000 77] o ∧
    advanceState Sample.envExit o (Sample.gift 12000001) = .ok (o', some n) ∧
    Inactive Sample.envExit 12000000 9 ∧
    (VMap.get o.st.vals 9).map (fun v => (v.status, v.pend)) = some (.active, 0) ∧
    (VMap.get o'.st.vals 9).map (fun v => (v.status, decide (900 ≤ v.pend))) = some (.active, true) := by
  obtain ⟨o, o', n, h1, h2, h3⟩ := Sample.ex_then (E := Sample.envExit)
    (o := newOracle Sample.cfgEarly) (bs := [Sample.pays9, Sample.miss 12000000 77]) (b := Sample.gift 12000001)
    (P := fun o o' _ => decide ((VMap.get o.st.vals 9).map (fun v => (v.status, v.pend)) = some (.active, 0)
      ∧ (VMap.get o'.st.vals 9).map (fun v => (v.status, decide (900 ≤ v.pend))) = some (.active, true)))
    (by decide +kernel)
  simp only [decide_eq_true_eq] at h3
  exact ⟨o, o', n, h1, h2, Sample.envExit_inactive, h3⟩

/-! ### C93 -/

/-- **C93** (partial: a payment counts as the reward whatever its amount, see `C93_false_token_payment`). A member
that proposes a block and is not banned afterwards either had the pool as fee recipient, with no builder's payment
at the end of the block, or the block ends with a builder's payment that arrived at the pool (or it is the one
block with a hard-coded payment). -/
theorem C93_paid_partial {E : Env} (hE : ValidEnv E) (hX : ExactEnv E) (hC : NoSelfConsol E)
    {cfg : Config} {bs : List FullBlock} {o o' : Oracle} {b : FullBlock} {n : Nat} {c : ConsBlock}
    (h0 : Hist E (newOracle cfg) bs o) (h : advanceState E o b = .ok (o', some n)) (hc : b.cons = some c) {v v'}
    (hv : VMap.get o.st.vals b.dutyIndex = some v) (hsub : Subscribed v.status)
    (hno : ∀ ev ∈ b.events.unbans, ev.validatorId ≠ b.dutyIndex)
    (hv' : VMap.get o'.st.vals b.dutyIndex = some v') (hnb : v'.status ≠ .banned) :
    (ExceptionBlock b ∧ SameAddr b!"0xadfb8d27671f14f297ee94135e266aaff8752e35" o.cfg.poolAddr) ∨
    (∃ tx dest, BuilderPays b tx dest ∧ ArrivesAt b tx dest o.cfg.poolAddr) ∨
    ((∀ tx dest, ¬ BuilderPays b tx dest) ∧ SameAddr c.feeRecipient o.cfg.poolAddr) := by
  by_contra hcon
  have hp : PaysElsewhere b o.cfg.poolAddr b.dutyIndex := by
    refine ⟨rfl, by rw [hc]; simp, ?_⟩
    rintro ⟨c', hc', k⟩
    rw [hc, Option.some.injEq] at hc'
    subst hc'
    rcases k with k | k | ⟨_, k⟩
    · exact hcon (Or.inl k)
    · exact hcon (Or.inr (Or.inl k))
    · exact hcon (Or.inr (Or.inr k))
  have := (C12_banned hE hX hC h0 h hp hv hsub hno).1
  rw [hv', Option.some.injEq] at this
  exact hnb (by rw [this])

namespace Sample

/-- validator 1 builds its own block with its own address as fee recipient; a user pays 210000 in priority fees, and
the last transaction sends 1 wei from the fee recipient to the pool -/
def token : FullBlock :=
  { prop 12000001 1 (addr 1) (tx (addr 1) pool 1) { ether := [⟨1, pool, 100⟩] } with
    cons := some { fork := .electra, slot := 12000001, proposer := 1, number := 100, feeRecipient := addr 1,
                   txs := [some { tx (addr 50) (addr 51) 1 with tipCap := 10, hash := 6 }, some (tx (addr 1) pool 1)],
                   gasUsed := 42000, baseFee := .u256 10 }
    receipts := some [⟨6, 21000, 100⟩, ⟨7, 21000, 100⟩] }

/-- the builder pays 5000 to the pool, but another transaction, of a user, comes last -/
def notLast : FullBlock :=
  { prop 12000001 1 builder (tx (addr 50) (addr 51) 1) { ether := [⟨5000, pool, 100⟩] } with
    cons := some { fork := .electra, slot := 12000001, proposer := 1, number := 100, feeRecipient := builder,
                   txs := [some { tx builder pool 5000 with hash := 6 }, some (tx (addr 50) (addr 51) 1)],
                   gasUsed := 42000, baseFee := .u256 10 }
    receipts := some [⟨6, 21000, 100⟩, ⟨7, 21000, 100⟩] }

end Sample

/-- the hypotheses of C93 are met -/
example : ∃ o o' n c, Hist Sample.env (newOracle Sample.cfg) [Sample.b0] o ∧
    advanceState Sample.env o (Sample.prop 12000001 1 Sample.builder (Sample.tx Sample.builder Sample.pool 700)
      { ether := [⟨700, Sample.pool, 100⟩] }) = .ok (o', some n) ∧
    (Sample.prop 12000001 1 Sample.builder (Sample.tx Sample.builder Sample.pool 700)
      { ether := [⟨700, Sample.pool, 100⟩] }).cons = some c ∧
    (VMap.get o.st.vals 1).map (·.status) = some .active ∧ (VMap.get o'.st.vals 1).map (·.status) = some .active := by
  obtain ⟨o, o', n, h1, h2, h3⟩ := Sample.ex_then (E := Sample.env)
    (o := newOracle Sample.cfg) (bs := [Sample.b0])
    (b := Sample.prop 12000001 1 Sample.builder (Sample.tx Sample.builder Sample.pool 700)
      { ether := [⟨700, Sample.pool, 100⟩] })
    (P := fun o o' _ => decide ((VMap.get o.st.vals 1).map (·.status) = some .active
      ∧ (VMap.get o'.st.vals 1).map (·.status) = some .active)) (by decide +kernel)
  simp only [decide_eq_true_eq] at h3
  exact ⟨o, o', n, _, h1, h2, rfl, h3⟩

/-- **C93 is false as stated.** A member whose block earns 210000 and more for the member's own address, and which ends
with a payment of 1 wei to the pool, stays a member; the books record a reward of 1. -/
theorem C93_false_token_payment : ∃ o o' n c hd rs,
    Hist Sample.env (newOracle Sample.cfg) [Sample.b0] o ∧
    advanceState Sample.env o Sample.token = .ok (o', some n) ∧
    Sample.token.cons = some c ∧ Sample.token.header = some hd ∧ Sample.token.receipts = some rs ∧
    ¬ SameAddr c.feeRecipient Sample.pool ∧ 210000 ≤ priorityFees hd.baseFee c.txs rs ∧
    (VMap.get o.st.vals 1).map (·.status) = some .active ∧ (VMap.get o'.st.vals 1).map (·.status) = some .active ∧
    o'.st.wrongFee = [] ∧ o'.st.proposed.map (fun sb => (sb.slot, sb.reward)) =
      [(12000000, some 5000), (12000001, some 1)] := by
  obtain ⟨o, o', n, h1, h2, h3⟩ := Sample.ex_then (E := Sample.env)
    (o := newOracle Sample.cfg) (bs := [Sample.b0]) (b := Sample.token)
    (P := fun o o' _ => decide ((VMap.get o.st.vals 1).map (·.status) = some .active
      ∧ (VMap.get o'.st.vals 1).map (·.status) = some .active ∧ o'.st.wrongFee = [] ∧
      o'.st.proposed.map (fun sb => (sb.slot, sb.reward)) = [(12000000, some 5000), (12000001, some 1)]))
    (by decide +kernel)
  simp only [decide_eq_true_eq] at h3
  exact ⟨o, o', n, _, _, _, h1, h2, rfl, rfl, rfl, by decide +kernel, by decide +kernel, h3⟩

/-! ### C94 -/

/-- **C94** (partial: only if the payment is the last transaction, see `C94_false_not_last`). If the last transaction
of the block was sent by the fee recipient to the pool, the proposer is not banned, unless the block contains a ban
event. (Every event about money received comes from the pool contract; the block is not the one with the hard-coded
payment.) -/
theorem C94_builder_paid_partial {E : Env} (hE : ValidEnv E) (hX : ExactEnv E) (hC : NoSelfConsol E)
    {o o' : Oracle} {b : FullBlock} {n : Nat} {c : ConsBlock} {tx : Tx} {sender dest : Str} (hs : MapOK o.st)
    (h : advanceState E o b = .ok (o', some n)) (hc : b.cons = some c) (hlast : LastTx b tx sender dest)
    (hfr : SameAddr c.feeRecipient sender) (hto : SameAddr dest o.cfg.poolAddr)
    (hev : ∀ e ∈ b.events.ether, SameAddr e.addr o.cfg.poolAddr) (hex : ¬ ExceptionBlock b)
    (hban : ∀ ev ∈ b.events.bans, ev.validatorId ≠ b.dutyIndex)
    {v : Validator} (hv : VMap.get o.st.vals b.dutyIndex = some v) (hnb : v.status ≠ .banned) :
    ∃ v', VMap.get o'.st.vals b.dutyIndex = some v' ∧ v'.status ≠ .banned := by
  have hpaid : PaidPool b o.cfg.poolAddr := by
    refine ⟨c, hc, Or.inr (Or.inl ⟨tx, dest, ⟨hex, c, sender, hc, hlast, Or.inl hfr⟩, ?_⟩)⟩
    unfold ArrivesAt
    split
    · rename_i e he
      exact hev e (List.mem_of_find?_eq_some he)
    · exact hto
  obtain ⟨v', hv', hpath⟩ := (C10_diagram hE hX hC hs h b.dutyIndex).1 v hv
  refine ⟨v', hv', fun hb => ?_⟩
  rw [hb] at hpath
  rcases Relation.ReflTransGen.cases_tail hpath with h1 | ⟨st, _, hedge⟩
  · exact hnb h1.symm
  · cases hedge with
    | wrongFee _ k => exact k.2.2 hpaid
    | ban _ k1 k2 => exact hban _ k1 k2

/-- a yellow-carded validator whose builder pays the pool is not banned -/
example : ∃ o' v', advanceState Sample.env Sample.oracle (Sample.prop 12000001 2 Sample.builder
      (Sample.tx Sample.builder Sample.pool 700) { ether := [⟨700, Sample.pool, 100⟩] }) = .ok (o', some 12000001) ∧
    VMap.get o'.st.vals 2 = some v' ∧ v'.status ≠ .banned := by
  obtain ⟨⟨o', m⟩, h, hm⟩ := Sample.ex_ok (x := advanceState Sample.env Sample.oracle (Sample.prop 12000001 2
      Sample.builder (Sample.tx Sample.builder Sample.pool 700) { ether := [⟨700, Sample.pool, 100⟩] }))
    (P := fun p => p.2 == some 12000001) (by decide +kernel)
  simp only [beq_iff_eq] at hm; subst hm
  obtain ⟨v', h1, h2⟩ := C94_builder_paid_partial (v := Sample.val 2 .yellowCard 20000 6)
    Sample.env_valid Sample.env_exact Sample.env_noSelf Sample.st_ok h rfl ⟨_, rfl, rfl, rfl, rfl⟩ (Sample.same _)
    (Sample.same _) (by decide) (Sample.prop_notException (by decide)) (by simp [Sample.prop]) rfl (by decide)
  exact ⟨o', v', h, h1, h2⟩

/-- **C94 is false as stated.** The block's builder pays 5000 to the pool, but a user's transaction comes after the
payment: the proposer is banned, and the 5000 count as a donation. -/
theorem C94_false_not_last : ∃ o o' n, Hist Sample.env (newOracle Sample.cfg) [Sample.b0] o ∧
    advanceState Sample.env o Sample.notLast = .ok (o', some n) ∧
    (VMap.get o.st.vals 1).map (·.status) = some .active ∧ (VMap.get o'.st.vals 1).map (·.status) = some .banned ∧
    o'.st.donations.map (·.amount) = [300, 5000] := by
  obtain ⟨o, o', n, h1, h2, h3⟩ := Sample.ex_then (E := Sample.env)
    (o := newOracle Sample.cfg) (bs := [Sample.b0]) (b := Sample.notLast)
    (P := fun o o' _ => decide ((VMap.get o.st.vals 1).map (·.status) = some .active
      ∧ (VMap.get o'.st.vals 1).map (·.status) = some .banned ∧ o'.st.donations.map (·.amount) = [300, 5000]))
    (by decide +kernel)
  simp only [decide_eq_true_eq] at h3
  exact ⟨o, o', n, h1, h2, h3⟩

end Verif
