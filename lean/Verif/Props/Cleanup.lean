import Verif.Lemmas.CleanSpec
import Verif.Spec.SampleFacts
/-
C43, C44: the periodic cleanup.
-/
namespace Verif
open VMap

/-- Every answer of the beacon node about validator `i` at this slot says it is not active. -/
def Inactive (E : Env) (slot i : Nat) : Prop :=
  ∀ t req r v, E.node t slot req = some r → v ∈ r → v.index = i → v.status.isActive = false

/-- Pending balances are not negative. -/
def NonNegPending (s : State) : Prop := ∀ i v, VMap.get s.vals i = some v → 0 ≤ v.pend

/-- **C43.** Before its first slot the cleanup does nothing. -/
theorem C43_not_before {E : Env} {net slot} {s s' : State} {ok} (h : cleanup E net s slot = .ok (s', ok))
    (hb : slot < cleanupFrom net) : s' = s ∧ ok = true := by
  have hf : slotOrZero (slotFork1 net) = cleanupFrom net := by
    unfold slotOrZero slotFork1 cleanupFrom mainnet holesky hoodi
    split
    · rfl
    · split
      · rfl
      · split <;> rfl
  unfold cleanup at h
  rw [hf, if_pos hb] at h
  simp only [Except.ok.injEq, Prod.mk.injEq] at h
  exact ⟨h.1.symm, h.2.symm⟩

example : (1 : Nat) < cleanupFrom b!"mainnet" := by decide

section
variable {E : Env} (hE : ValidEnv E) (hX : ExactEnv E) (hC : NoSelfConsol E) {net : Str} {slot : Nat}
  {s s' : State} (hs : MapOK s) (h : cleanup E net s slot = .ok (s', true))
include hE hX hC hs h

/-- **C43.** The cleanup leaves every record there, and changes nothing in it but the status and the
pending balance: accumulated balances and identities stay. -/
theorem C43_accumulated_kept {i v} (hv : VMap.get s.vals i = some v) :
    ∃ v', VMap.get s'.vals i = some v' ∧ v' = { v with status := v'.status, pend := v'.pend } := by
  cases cleanup_effect hE hX hC hs h with
  | early => exact ⟨v, hv, rfl⟩
  | empty => exact ⟨v, hv, rfl⟩
  | done _ _ _ _ _ _ hcl hsh =>
    obtain ⟨v1, h1, h2, _⟩ := hcl.record (i := i) (v := v) hv
    rcases hsh with ⟨_, hsh⟩ | ⟨_, rfl⟩
    · obtain ⟨y, h3⟩ := shares_pend hsh h1
      exact ⟨_, h3, by rw [h2]⟩
    · exact ⟨v1, h1, h2⟩

/-- **C43** (partial: "not active" instead of "exited or slashed", see `C43_false_pending`). A
validator the beacon node does not report as inactive keeps its status, its accumulated balance and
its identity, and its pending balance does not decrease. -/
theorem C43_only_leavers_partial {i v} (hv : VMap.get s.vals i = some v) (ha : ¬ NotActive E slot i)
    (hslot : s.nextSlot = slot) (hnet : KnownNet net) (hn : NonNegPending s) (hf : 0 ≤ s.fee)
    (hf1 : s.fee ≤ 10000) (hb : SaneBalances E) :
    ∃ y, 0 ≤ y ∧ VMap.get s'.vals i = some { v with pend := v.pend + y } := by
  cases cleanup_effect hE hX hC hs h with
  | early => exact ⟨0, le_refl _, by rw [hv]; simp⟩
  | empty => exact ⟨0, le_refl _, by rw [hv]; simp⟩
  | @done t cs req answer l s1 tot _ hfrom _ _ hnode _ hperm hcl hsh =>
    obtain ⟨v1, h1, h2, h3⟩ := hcl.record (i := i) (v := v) hv
    obtain ⟨hst, hpd⟩ := h3 (by
      intro u hu hui
      by_contra hne
      exact ha ⟨_, _, _, u, hnode, hperm.mem_iff.mp hu, hui, by simpa using hne⟩)
    have hpd := hpd hn
    obtain ⟨hnn1, htot⟩ := hcl.nn hn
    obtain ⟨_, _, e1, e2⟩ := hcl.money (by dsimp only; exact hs)
    have hv1 : v1 = { v with pend := v1.pend } := by
      rw [h2] ; rw [← hst]
    rcases hsh with ⟨_, hsh⟩ | ⟨_, rfl⟩
    · have hpf : PostFork1 net s1.nextSlot := by
        have : s1.nextSlot = slot := by rw [e2]; exact hslot
        rw [this]
        rcases hnet with rfl | rfl | rfl
        · exact Or.inl ⟨rfl, hfrom⟩
        · exact Or.inr (Or.inl ⟨rfl, hfrom⟩)
        · exact Or.inr (Or.inr ⟨rfl, hfrom⟩)
      obtain ⟨y, hy, h4⟩ := shares_mono hsh htot (by rw [e1]; exact hf) (by rw [e1]; exact hf1) hpf hb h1
      refine ⟨v1.pend - v.pend + y, by omega, ?_⟩
      rw [h4, hv1]
      simp only [Option.some.injEq]
      congr 1
      ring
    · refine ⟨v1.pend - v.pend, by omega, ?_⟩
      rw [h1, hv1]
      simp

/-- **C43** (partial as `C43_only_leavers_partial`), said with the states of the Beacon API: who still does its duties
by every answer of the node, be it slashed or leaving, is not touched. -/
theorem C43_on_duty_partial {i v} (hv : VMap.get s.vals i = some v)
    (ha : ∀ t req r u, E.node t slot req = some r → u ∈ r → u.index = i → OnDuty u.status)
    (hslot : s.nextSlot = slot) (hnet : KnownNet net) (hn : NonNegPending s) (hf : 0 ≤ s.fee)
    (hf1 : s.fee ≤ 10000) (hb : SaneBalances E) :
    ∃ y, 0 ≤ y ∧ VMap.get s'.vals i = some { v with pend := v.pend + y } := by
  refine C43_only_leavers_partial hE hX hC hs h hv ?_ hslot hnet hn hf hf1 hb
  rintro ⟨t, req, r, u, h1, h2, h3, h4⟩
  rcases ha t req r u h1 h2 h3 with e | e | e <;> rw [e] at h4 <;> cases h4

/-- **C44** (partial: self-consolidations excluded). The cleanup loses nothing and creates nothing: what the pool owes in total is the same
before and after. -/
theorem C44_nothing_lost_partial : owed s' = owed s := by
  cases cleanup_effect hE hX hC hs h with
  | early => rfl
  | empty => rfl
  | done _ _ _ _ _ _ hcl hsh =>
    obtain ⟨_, h2, _⟩ := hcl.money (by dsimp only; exact hs)
    have e : owed { s with tick := s.tick + 2 } = owed s := rfl
    rw [e] at h2
    rcases hsh with ⟨_, hsh⟩ | ⟨h0, rfl⟩
    · rw [shares_owed hsh]; exact h2
    · omega

/-- **C44** (partial: self-consolidations and chains excluded). If an inactive validator with a pending balance is being consolidated into another one,
which is active and not banned, and nobody is consolidated into the former: its pending balance goes
to the target, which becomes tracked as not subscribed if it was unknown. -/
theorem C44_pending_moves_partial {i j v cs} (hv : VMap.get s.vals i = some v) (hp : v.pend ≠ 0)
    (hia : Inactive E slot i) (hja : ¬ NotActive E slot j) (hcs : ∀ t, E.consol t slot = some cs)
    (hlt : LastTarget cs i j) (hin : ∀ k, ¬ LastTarget cs k i)
    (hb : ∀ w, VMap.get s.vals j = some w → w.status ≠ .banned)
    (hfrom : consolidationsFrom net ≤ slot) (hfrom' : cleanupFrom net ≤ slot)
    (hslot : s.nextSlot = slot) (hnet : KnownNet net) (hn : NonNegPending s) (hf : 0 ≤ s.fee)
    (hf1 : s.fee ≤ 10000) (hsb : SaneBalances E) :
    VMap.get s'.vals i = some { v with status := afterLeaving v.status, pend := 0 } ∧
    ∃ w', VMap.get s'.vals j = some w' ∧
      (∀ w, VMap.get s.vals j = some w → w.pend + v.pend ≤ w'.pend ∧ w'.status = w.status ∧ w'.acc = w.acc) ∧
      (VMap.get s.vals j = none → v.pend ≤ w'.pend ∧ w'.status = .notSubscribed ∧ w'.acc = 0) := by
  have hij : j ≠ i := by
    obtain ⟨a, c, e, _⟩ := hlt
    have := hC 0 slot cs (hcs 0) (i, j) (by rw [e]; simp)
    exact fun e => this e.symm
  cases cleanup_effect hE hX hC hs h with
  | early hlt => omega
  | empty he => rw [he] at hv; simp [VMap.get] at hv
  | @done t cs' req answer l s1 tot _ _ hc1 _ hnode hans hperm hcl hsh =>
    have : cs' = cs := by
      have := hc1 hfrom
      rw [hcs, Option.some.injEq] at this
      exact this.symm
    subst this
    have hj : ∀ u ∈ l, u.index = j → u.status.isActive = true := by
      intro u hu hui
      by_contra hne
      exact hja ⟨_, _, _, u, hnode, hperm.mem_iff.mp hu, hui, by simpa using hne⟩
    obtain ⟨k1, k2, w1, k3, k4⟩ := hcl.consolidated (i := i) (j := j) (v := v) hn hv hp hlt hij hin hb hj
      (fun u hu hui => hia _ _ _ u hnode (hperm.mem_iff.mp hu) hui) (by
        obtain ⟨u, hu, hui⟩ := (hans i).mpr (by rw [hv]; rfl)
        exact ⟨u, hperm.mem_iff.mpr hu, hui⟩) (by
        have := hE.nodup _ _ _ _ hnode
        exact (hperm.map _).nodup_iff.mpr this)
    obtain ⟨hnn1, htot⟩ := hcl.nn hn
    obtain ⟨_, _, e1, e2⟩ := hcl.money (by dsimp only; exact hs)
    have hkeep : ∀ w, VMap.get s.vals j = some w → w1.status = w.status ∧ w1.acc = w.acc := by
      intro w hw
      obtain ⟨w2, a1, a2, a3⟩ := hcl.record (i := j) (v := w) hw
      rw [k3, Option.some.injEq] at a1
      subst a1
      exact ⟨(a3 hj).1, by rw [a2]⟩
    have hpd : pendAt s j + v.pend ≤ w1.pend := by
      have : pendAt s1 j = w1.pend := by unfold pendAt; rw [k3]; rfl
      rw [this] at k2
      exact k2
    have hfin : ∃ y w', 0 ≤ y ∧ VMap.get s'.vals j = some w' ∧ w' = { w1 with pend := w1.pend + y } ∧
        VMap.get s'.vals i = some { v with status := afterLeaving v.status, pend := 0 } := by
      rcases hsh with ⟨_, hsh⟩ | ⟨_, rfl⟩
      · have hpf : PostFork1 net s1.nextSlot := by
          have : s1.nextSlot = slot := by rw [e2]; exact hslot
          rw [this]
          rcases hnet with rfl | rfl | rfl
          · exact Or.inl ⟨rfl, hfrom'⟩
          · exact Or.inr (Or.inl ⟨rfl, hfrom'⟩)
          · exact Or.inr (Or.inr ⟨rfl, hfrom'⟩)
        obtain ⟨y, hy, h4⟩ := shares_mono hsh htot (by rw [e1]; exact hf) (by rw [e1]; exact hf1) hpf hsb k3
        refine ⟨y, _, hy, h4, rfl, shares_skip hsh k1 ?_⟩
        intro he
        unfold Earning afterLeaving at he
        dsimp only at he
        by_cases hst : Subscribed v.status
        · simp [hst] at he
        · rw [if_neg hst] at he
          exact hst (by rcases he with he | he <;> simp [Subscribed, he])
      · exact ⟨0, w1, le_refl _, k3, by simp, k1⟩
    obtain ⟨y, w', hy, f1, rfl, f2⟩ := hfin
    refine ⟨f2, _, f1, ?_, ?_⟩
    · intro w hw
      have e : pendAt s j = w.pend := by unfold pendAt; rw [hw]; rfl
      obtain ⟨a1, a2⟩ := hkeep w hw
      exact ⟨by dsimp only; omega, a1, a2⟩
    · intro hnone
      have e : pendAt s j = 0 := by unfold pendAt; rw [hnone]; rfl
      obtain ⟨a1, a2, _⟩ := k4 hnone
      exact ⟨by dsimp only; omega, a1, a2⟩

end

namespace Sample

/-- The sample state at a cleanup slot: validator 9 has exited and is consolidated into 1. -/
def stClean : State := { st with nextSlot := 12001200 }

/-- the hypotheses of C43 and C44 are met; the cleanup succeeds and moves the 900 of validator 9 -/
example : MapOK stClean ∧ (∃ s', cleanup env b!"mainnet" stClean 12001200 = .ok (s', true) ∧
      (VMap.get s'.vals 1).map (·.pend) = some 10900 ∧
      (VMap.get s'.vals 9).map (fun v => (v.status, v.pend)) = some (.notSubscribed, 0)) ∧
    Inactive env 12001200 9 ∧ ¬ NotActive env 12001200 1 ∧
    (∀ t, env.consol t 12001200 = some [(9, 1)]) ∧ LastTarget [(9, 1)] 9 1 ∧
    (∀ k, ¬ LastTarget [(9, 1)] k 9) ∧ consolidationsFrom b!"mainnet" ≤ 12001200 ∧
    cleanupFrom b!"mainnet" ≤ 12001200 ∧ KnownNet b!"mainnet" ∧ NonNegPending stClean ∧
    0 ≤ stClean.fee ∧ stClean.fee ≤ 10000 ∧ SaneBalances env := by
  refine ⟨by unfold MapOK; decide, ?_, ?_, active (by decide), fun _ => rfl, ⟨[], [], rfl, by simp⟩, ?_,
    by decide, by decide, by decide, ?_, by decide, by decide, env_sane⟩
  · obtain ⟨⟨s', ok⟩, h1, h2⟩ := ex_ok (x := cleanup env b!"mainnet" stClean 12001200)
      (P := fun p => p.2 && decide ((VMap.get p.1.vals 1).map (·.pend) = some 10900 ∧
        (VMap.get p.1.vals 9).map (fun v => (v.status, v.pend)) = some (.notSubscribed, 0)))
      (by decide +kernel)
    simp only [Bool.and_eq_true, decide_eq_true_eq] at h2
    exact ⟨s', by rw [h1, h2.1], h2.2⟩
  · intro t req r v h1 h2 h3
    rw [env_node h1] at h2
    obtain ⟨j, _, rfl⟩ := List.mem_map.mp h2
    rw [index_if] at h3
    subst h3
    rfl
  · rintro k ⟨a, c, e, _⟩
    have : (k, 9) ∈ [(9, 1)] := by rw [e]; simp
    simp at this
  · intro i v hv
    have hall : ∀ p ∈ stClean.vals, 0 ≤ p.2.pend := by decide
    exact hall _ (mem_of_get hv)

/-- validator 7 is still in the activation queue -/
def envPending : Env :=
  { env with node := fun _ _ req => some (req.dedup.map fun i =>
      if i = 7 then { bval 7 with status := .pendingQueued } else bval i) }

/-- deployed one slot before a cleanup slot -/
def cfgEarly : Config := { cfg with depSlot := 11999999 }

/-- validator 7 subscribes, with the required collateral, while in the activation queue -/
def subscribes7 : FullBlock :=
  { miss 11999999 77 with
    events := { subs := [⟨7, 1000, addr 7, 100⟩] }
    valsSubs := [some { bval 7 with status := .pendingQueued }] }

end Sample

/-- **C43 is false as stated.** A validator in the activation queue may subscribe; the next cleanup
unsubscribes it and takes its collateral, although it neither exited nor was slashed. -/
theorem C43_false_pending : ∃ o o' n,
    Hist Sample.envPending (newOracle Sample.cfgEarly) [Sample.subscribes7] o ∧
    advanceState Sample.envPending o (Sample.miss 12000000 77) = .ok (o', some n) ∧
    (VMap.get o.st.vals 7).map (fun v => (v.status, v.pend)) = some (.active, 1000) ∧
    (VMap.get o'.st.vals 7).map (fun v => (v.status, v.pend, v.acc)) = some (.notSubscribed, 0, 0) := by
  obtain ⟨o, o', n, h1, h2, h3⟩ := Sample.ex_then (E := Sample.envPending)
    (o := newOracle Sample.cfgEarly) (bs := [Sample.subscribes7]) (b := Sample.miss 12000000 77)
    (P := fun o o' _ => decide ((VMap.get o.st.vals 7).map (fun v => (v.status, v.pend)) = some (.active, 1000)
      ∧ (VMap.get o'.st.vals 7).map (fun v => (v.status, v.pend, v.acc)) = some (.notSubscribed, 0, 0)))
    (by decide +kernel)
  simp only [decide_eq_true_eq] at h3
  exact ⟨o, o', n, h1, h2, h3⟩

namespace Sample

/-- validator 9 is consolidated into itself -/
def envSelf : Env := { env with consol := fun _ _ => some [(9, 9)] }

/-- validator 9 subscribes -/
def subscribes9 : FullBlock :=
  { miss 11999999 77 with
    events := { subs := [⟨9, 1000, addr 9, 100⟩] }, valsSubs := [some (bval 9)] }

end Sample

/-- **C44 needs its assumption.** If the node lists a consolidation of a validator into itself, the
pending balance vanishes: it is added to the target and then reset. -/
theorem C44_false_self : ∃ o o' n,
    Hist Sample.envSelf (newOracle Sample.cfgEarly) [Sample.subscribes9] o ∧
    advanceState Sample.envSelf o (Sample.miss 12000000 77) = .ok (o', some n) ∧
    owed o.st = 1000 ∧ owed o'.st = 0 := by
  obtain ⟨o, o', n, h1, h2, h3⟩ := Sample.ex_then (E := Sample.envSelf)
    (o := newOracle Sample.cfgEarly) (bs := [Sample.subscribes9]) (b := Sample.miss 12000000 77)
    (P := fun o o' _ => decide (owed o.st = 1000 ∧ owed o'.st = 0)) (by decide +kernel)
  simp only [decide_eq_true_eq] at h3
  exact ⟨o, o', n, h1, h2, h3⟩

end Verif
