import Verif.Props.Pool
/-
C98: whether payments from outside can stop the pool.
-/
namespace Verif
open VMap

section
variable {T : Chain} {V : Nat → Nat → BVal} {K : Nat → List (Nat × Nat)} {H : List Nat → List Nat} {cfg : Config}

/-- on its way the oracle was at every slot before, and what is missing in the books never comes back -/
theorem Uncut.gap (hg : GoodCfg cfg) {E : Env} (hE : GoodEnv cfg E) (hC : SafeFetch cfg T) {bs} {q : Oracle}
    (h : Uncut T E (newOracle cfg) bs q) {s : Nat} (h0 : (newOracle cfg).st.latestSlot ≤ s)
    (h1 : s ≤ q.st.latestSlot) :
    ∃ bs1 q1, Uncut T E (newOracle cfg) bs1 q1 ∧ q1.st.latestSlot = s ∧
      owed q.st - received q.st ≤ owed q1.st - received q1.st := by
  induction h with
  | start => exact ⟨[], _, .start, by omega, le_refl _⟩
  | @slot bs o1 b o2 n hu hf hs hb ih =>
    by_cases hk : s ≤ o1.st.latestSlot
    · obtain ⟨bs1, q1, k1, k2, k3⟩ := ih hk
      refine ⟨bs1, q1, k1, k2, le_trans ?_ k3⟩
      have st := hu.safe hg hE hC
      obtain ⟨_, _, _, _, _, _, _, k8, k9⟩ := fetched_honest hC.honest hf
      exact (slot_received_le hE.valid hE.exact hE.noSelf st.map k8.1 hs).2
    · have kp : Kept id cfg o1 := hu.work hg.dep.1 hg.dep.2
      have e := (C20_exactly_next hs).2.2.1
      have e' := (slot_next hs).1
      have := kp.commit.next
      exact ⟨_, o2, .slot hu hf hs hb, by omega, le_refl _⟩

/-- **C98**, limits. Money the books miss once is missing for ever: if at some slot the pool has received more than
it owes, the same holds at every later slot. -/
theorem C98_gap_stays (hA : ∀ n, n % 1200 = 0 → ActiveTargets V K n) (hg : GoodCfg cfg) (hC : SafeFetch cfg T)
    {s s' : Nat} {q q' : Oracle} (h : BooksAt T V K cfg s q) (hgap : owed q.st < received q.st)
    (h' : BooksAt T V K cfg s' q') (hs : s ≤ s') : owed q'.st < received q'.st := by
  obtain ⟨E, bs, h1, h2, h3, h4⟩ := h'
  have h0 : (newOracle cfg).st.latestSlot ≤ s := by
    obtain ⟨F, cs, g1, g2, g3, rfl⟩ := id h
    have := (h.ok (H := id) hg hC).2.dep
    have := (h.ok (H := id) hg hC).1.commit.next
    have := (Kept.start (H := id) hg.dep.1 hg.dep.2).commit.next
    have e : (newOracle cfg).st.nextSlot = cfg.depSlot := rfl
    omega
  obtain ⟨bs1, q1, k1, k2, k3⟩ := h3.gap hg h1 hC h0 (by omega)
  have hb := h.unique hA hg hC ⟨E, bs1, h1, h2, k1, k2⟩
  have e1 : owed q.st = owed q1.st := by have := congrArg owed hb.2; exact this
  have e2 : received q.st = received q1.st := by have := congrArg received hb.2; exact this
  omega

/-- **C98**, limits. From then on no honest oracle freezes or submits a root, whatever it goes through: killed and
started again, given other files, rolled back or synced. -/
theorem C98_gap_stops_oracles (hA : ∀ n, n % 1200 = 0 → ActiveTargets V K n) (hg : GoodCfg cfg) (hC : SafeFetch cfg T)
    (hT : ChainTyped T) (hH : HashOK H) (hc : CfgTyped cfg) {s : Nat} {q : Oracle} (h : BooksAt T V K cfg s q)
    (hgap : owed q.st < received q.st) {tr : List LoopEv} (hm : HonestMember T V K H cfg tr) {s' : Nat} (hs : s ≤ s')
    (r : Str) : .frozen s' r ∉ tr ∧ .submit s' r ∉ tr := by
  have key : ¬ (.frozen s' r ∈ tr ∨ .submit s' r ∈ tr) := by
    intro hr
    obtain ⟨q', f, h1, _, _, h4⟩ := member_balanced hg hT hH hc hm hr
    have := C98_gap_stays hA hg hC h hgap h1 hs
    omega
  exact ⟨fun h => key (Or.inl h), fun h => key (Or.inr h)⟩

/-- **C98**, limits. And the contract accepts no root any more, unless by votes of dishonest members alone. -/
theorem C98_gap_stops_contract {ι : Type} {n : Nat} {voted : ι → Nat → List Nat → Prop} {honest : ι → Prop}
    (hA : ∀ n, n % 1200 = 0 → ActiveTargets V K n) (hg : GoodCfg cfg) (hC : SafeFetch cfg T) (hT : ChainTyped T)
    (hH : HashOK H) (hc : CfgTyped cfg) {s : Nat} {q : Oracle} (h : BooksAt T V K cfg s q)
    (hgap : owed q.st < received q.st) (hQ : HonestQuorum T V K H cfg n voted honest) {slot : Nat} {root : List Nat}
    (hq : Quorum n voted slot root) : slot < s := by
  obtain ⟨i, h1, h2⟩ := hQ.one hq
  obtain ⟨tr, h3, h4⟩ := hQ.members i h1
  by_contra hs
  exact (C98_gap_stops_oracles hA hg hC hT hH hc h hgap h3 (Nat.le_of_not_lt hs) _).2 (h4 _ _ h2)

/-- **C98** (partial). Payments of other amounts do no harm: whatever the chain pays to the pool, after any life the
check before a checkpoint passes. Missing: in a block that rewards the pool nobody else pays it the very same amount. -/
theorem C98_check_passes_partial {P : Law} {L : Lib} (hP : P.Good) (hG : ∀ E, Obeys P E → GoodEnv cfg E)
    (hC : GoodFetch cfg T) (hT : ChainTyped T) (hL : LibOK L) (hH : HashOK H) (hc : CfgTyped cfg) (hg : GoodCfg cfg)
    {tr : List LoopEv} {l : Loop} (h : Life P T L H cfg tr (.on l)) {E : Env} (hE : Obeys P E) :
    offchainReconciliation E l.o.st.tick l.o.st = .ok true := by
  have k := (life_ok hP hG hC hT hL hH hc hg h).2
  rw [offchain_eq (hG E hE).valid _ k.rewards, decide_eq_true k.books]

end

namespace Sample

/-- the chain `chain`, only that somebody makes a second payment to the pool of the same amount in every block -/
def twinChain : Chain :=
  { chain with events := fun n => some { ether := [⟨5000, pool, n⟩, ⟨5000, pool, n⟩], subs := [⟨2, 1000, addr 2, n⟩] } }

theorem twin_honest : HonestChain twinChain liveCfg := by
  obtain ⟨h1, h3, h4, h5⟩ := chain_honest_of (f := liveCfg.poolFeesAddr)
  refine ⟨h1, h3, h4, ?_⟩
  intro slot
  obtain ⟨i, d, key, k1, k2, k3⟩ := h5 slot
  refine ⟨i, d, key, k1, k2, ?_⟩
  rcases k3 with k3 | ⟨c, a1, a2, a3, a4, a5, a6, a7, a8, a9, a10, a11, a12⟩
  · exact Or.inl k3
  · refine Or.inr ⟨c, a1, a2, a3, a4, a5, a6, a7, a8, a9, a10, ?_, a12⟩
    obtain ⟨evs, b1, b2, b3⟩ := a11
    have b1 : some _ = some evs := b1
    rw [Option.some.injEq] at b1
    subst b1
    refine ⟨_, rfl, { b2 with ether := ?_, config := ?_ }, ?_⟩
    · intro e he
      have : e = ⟨5000, pool, c.number⟩ := by simpa using he
      exact b2.ether e (by rw [this]; simp)
    · exact ⟨Or.inl rfl, Or.inl rfl, Or.inl rfl, Or.inl rfl⟩
    · intro t sd dd ht x1 x2 x3 x4
      obtain ⟨e, he, hv⟩ := b3 t sd dd ht x1 x2 x3 x4
      exact ⟨e, List.mem_cons_of_mem _ he, hv⟩

theorem twin_safe : SafeFetch liveCfg twinChain := ⟨twin_honest, chain_good.owners⟩

theorem twin_typed : ChainTyped twinChain := by
  obtain ⟨h1, h2, h3, h4⟩ := chain_typed
  refine ⟨h1, h2, h3, ?_⟩
  intro n e hn h
  have h : some _ = some e := h
  rw [Option.some.injEq] at h
  subst h
  obtain ⟨k1, k2, k3⟩ := h4 n _ hn rfl
  refine ⟨k1, k2, ?_⟩
  intro x hx
  have : x = ⟨5000, pool, n⟩ := by simpa using hx
  exact k3 x (by rw [this]; simp)

/-- after the first block half of the money is missing -/
theorem twin_books : ∃ q, BooksAt twinChain sampleV (fun _ => [(9, 1)]) liveCfg 12000000 q ∧
    Verif.owed q.st = 6000 ∧ received q.st = 11000 := by
  obtain ⟨b, h1, k1⟩ := ex_ok (x := fetchFullBlock twinChain (newOracle liveCfg).st (newOracle liveCfg).st.nextSlot false)
    (P := fun b => (advanceState env (newOracle liveCfg) b).toOption.any fun (p : Oracle × Option Nat) =>
      p.2.isSome && decide (p.1.st.latestSlot = 12000000 ∧ Verif.owed p.1.st = 6000 ∧ received p.1.st = 11000))
      (by decide +kernel)
  obtain ⟨⟨q, n⟩, h2, k2⟩ := ex_ok k1
  simp only [Bool.and_eq_true, decide_eq_true_eq, Option.isSome_iff_exists] at k2
  obtain ⟨⟨n, rfl⟩, k3, k4⟩ := k2
  exact ⟨q, ⟨env, _, env_goodEnv, reads_of rfl rfl, .slot .start h1 h2 (by decide), k3⟩, k4⟩

end Sample

/-- **C98 is false.** On an honest chain on which somebody pays to the pool, in a block with a reward for the pool,
the amount of this reward once more, no honest oracle freezes or submits a root ever again, and the contract accepts
none. Without the second payment the oracles freeze and vote (C85, C88). An oracle in the main loop stops with a
fatal error at its first checkpoint, at the same place at which it goes on without the second payment. -/
theorem C98_false_second_payment :
    ∃ T : Chain, (∀ n, ∃ e e', Sample.chain.events n = some e ∧ T.events n = some e' ∧
        ∃ x, e.ether = [x] ∧ e' = { e with ether := [x, x] }) ∧
      T = { Sample.chain with events := T.events } ∧ HonestChain T Sample.liveCfg ∧
      (∀ tr, HonestMember T Sample.sampleV (fun _ => [(9, 1)]) Sample.hash Sample.liveCfg tr →
        ∀ s r, 12000000 ≤ s → .frozen s r ∉ tr ∧ .submit s r ∉ tr) ∧
      (∀ (n : Nat) (voted : Nat → Nat → List Nat → Prop) (honest : Nat → Prop),
        HonestQuorum T Sample.sampleV (fun _ => [(9, 1)]) Sample.hash Sample.liveCfg n voted honest →
        ∀ slot root, Quorum n voted slot root → slot < 12000000) ∧
      ∃ l tr l' tr',
        Sample.runLoop (Toy.lib Sample.hash) Sample.hash Sample.env
          [{ Sample.answers [] 11999900 with fetch := T }] Sample.liveStart = .ok (l, tr) ∧
        stepLoop (Toy.lib Sample.hash) Sample.hash Sample.env
          { Sample.answers [] 11999900 with fetch := T } l = .error .fatal ∧
        Sample.runLoop (Toy.lib Sample.hash) Sample.hash Sample.env
          (List.replicate 2 { Sample.answers [] 11999900 with fetch := Sample.chain }) Sample.liveStart = .ok (l', tr') ∧
        ∃ r, .frozen 12000000 r ∈ tr' := by
  obtain ⟨q, h1, h2, h3⟩ := Sample.twin_books
  refine ⟨Sample.twinChain, fun n => ⟨_, _, rfl, rfl, _, rfl, rfl⟩, rfl, Sample.twin_honest, ?_, ?_, ?_⟩
  · intro tr hm s r hs
    exact C98_gap_stops_oracles Sample.live_targets Sample.cfg_good Sample.twin_safe Sample.twin_typed Sample.hash_ok
      Sample.liveCfg_typed h1 (by omega) hm hs r
  · intro n voted honest hQ slot root hq
    exact C98_gap_stops_contract Sample.live_targets Sample.cfg_good Sample.twin_safe Sample.twin_typed Sample.hash_ok
      Sample.liveCfg_typed h1 (by omega) hQ hq
  · obtain ⟨⟨l, tr⟩, g1, g2⟩ := Sample.ex_ok
      (x := Sample.runLoop (Toy.lib Sample.hash) Sample.hash Sample.env
        [{ Sample.answers [] 11999900 with fetch := Sample.twinChain }] Sample.liveStart)
      (P := fun p => match stepLoop (Toy.lib Sample.hash) Sample.hash Sample.env
        { Sample.answers [] 11999900 with fetch := Sample.twinChain } p.1 with
        | .error .fatal => true
        | _ => false) (by decide +kernel)
    obtain ⟨⟨l', tr'⟩, g3, g4⟩ := Sample.ex_ok
      (x := Sample.runLoop (Toy.lib Sample.hash) Sample.hash Sample.env
        (List.replicate 2 { Sample.answers [] 11999900 with fetch := Sample.chain }) Sample.liveStart)
      (P := fun p => p.2.any fun
        | .frozen 12000000 _ => true
        | _ => false) (by decide +kernel)
    refine ⟨l, tr, l', tr', g1, ?_, g3, ?_⟩
    · dsimp only at g2
      split at g2
      · assumption
      · cases g2
    · obtain ⟨ev, g5, g6⟩ := List.any_eq_true.mp g4
      split at g6
      · exact ⟨_, g5⟩
      · cases g6

end Verif
