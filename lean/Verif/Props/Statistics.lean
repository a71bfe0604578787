import Verif.Model.Api
import Verif.Spec.Api
import Verif.Props.Persist
import Verif.Props.Status
/-
C48: the statistics endpoint.
-/
namespace Verif

theorem countOne_fold (l : VMap) (c : Counts) :
    (l.map (·.2)).foldl countOne c =
      { active := c.active + (l.filter fun p => p.2.status = .active).length
        yellow := c.yellow + (l.filter fun p => p.2.status = .yellowCard).length
        red := c.red + (l.filter fun p => p.2.status = .redCard).length
        banned := c.banned + (l.filter fun p => p.2.status = .banned).length
        notSubscribed := c.notSubscribed + (l.filter fun p => p.2.status = .notSubscribed).length
        accumulated := c.accumulated + (l.map fun p => p.2.acc).sum
        pending := c.pending + (l.map fun p => p.2.pend).sum } := by
  induction l generalizing c with
  | nil => simp
  | cons p l ih =>
    rw [List.map_cons, List.foldl_cons, ih]
    simp only [List.filter_cons, List.map_cons, List.sum_cons]
    unfold countOne
    cases p.2.status <;> simp <;> omega

theorem rewardLoop_ok (limit : Nat) (l : List SumBlock) (r : Int × Int × Nat)
    (h : ∀ b ∈ l, b.reward ≠ none) :
    rewardLoop limit l r = .ok
      (r.1 + ((l.filter fun b => b.type = .okPool).map fun b => b.reward.getD 0).sum,
       r.2.1 + ((l.filter fun b => b.type = .okPool ∧ limit < b.slot).map fun b => b.reward.getD 0).sum,
       r.2.2 + (l.filter fun b => b.type = .okPool).length) := by
  induction l generalizing r with
  | nil => simp [rewardLoop]
  | cons b l ih =>
    obtain ⟨x, hx⟩ := Option.ne_none_iff_exists'.mp (h b (by simp))
    have ih' := fun r => ih r fun b hb => h b (List.mem_cons_of_mem _ hb)
    obtain ⟨r1, r2, r3⟩ := r
    rw [rewardLoop]
    by_cases ht : b.type = .okPool
    · rw [if_pos ht, hx]
      dsimp only
      rw [ih']
      by_cases hs : limit < b.slot <;> simp [List.filter_cons, ht, hs, hx] <;> omega
    · rw [if_neg ht, ih']
      simp [List.filter_cons, ht]

theorem donationLoop_eq (limit : Nat) (l : List EtherEvent) (r : Int × Int × Int) :
    donationLoop limit l r =
      (r.1 + (l.map (·.amount)).sum, r.2.1 + (l.map (·.amount)).sum,
       r.2.2 + ((l.filter fun d => limit < d.block).map (·.amount)).sum) := by
  induction l generalizing r with
  | nil => simp [donationLoop]
  | cons d l ih =>
    obtain ⟨r1, r2, r3⟩ := r
    rw [donationLoop, ih]
    by_cases hs : limit < d.block <;> simp [List.filter_cons, hs] <;> omega

theorem effLoop_eq (cache : BMap) (l : VMap) (n : Nat) (hn : n < 2 ^ 64) :
    effLoop cache (l.map (·.2)) n = (n + ((l.filter fun p => Subscribed p.2.status).map fun p =>
      ((cache.get p.2.index).map (·.effBal)).getD 0).sum) % 2 ^ 64 := by
  induction l generalizing n with
  | nil => simp [effLoop]; omega
  | cons p l ih =>
    rw [List.map_cons, effLoop]
    by_cases hs : Subscribed p.2.status
    · have e : (decide (p.2.status = .active) || decide (p.2.status = .yellowCard) ||
          decide (p.2.status = .redCard)) = true := by
        unfold Subscribed at hs; simp only [Bool.or_eq_true, decide_eq_true_eq]; tauto
      rw [if_pos e, List.filter_cons, if_pos (by simpa using hs), List.map_cons, List.sum_cons]
      cases hc : cache.get p.2.index with
      | none => dsimp only; rw [ih n hn]; simp
      | some u =>
        dsimp only
        rw [ih _ (by unfold u64; omega)]
        simp only [Option.map_some, Option.getD_some]
        unfold u64
        omega
    · have e : ¬ (decide (p.2.status = .active) || decide (p.2.status = .yellowCard) ||
          decide (p.2.status = .redCard)) = true := by
        unfold Subscribed at hs; simp only [Bool.or_eq_true, decide_eq_true_eq]; tauto
      rw [if_neg e, List.filter_cons, if_neg (by simpa using hs), ih n hn]

/-- while the oracle works, all validators are in documented states and all recorded rewards exist -/
theorem work_stats {H : List Nat → List Nat} {E : Env} (hE : ValidEnv E) (hX : ExactEnv E)
    (hC : NoSelfConsol E) {cfg : Config} {o : Oracle} (hw : Work H E (newOracle cfg) o) :
    MapOK o.st ∧ FiveStates o.st ∧ ∀ b ∈ o.st.proposed, b.reward ≠ none := by
  generalize hc : newOracle cfg = o0 at hw
  induction hw with
  | refl =>
    subst hc
    exact ⟨List.Pairwise.nil, by intro p hp; simp [newOracle] at hp, by intro b hb; simp [newOracle] at hb⟩
  | slot _ hs _ ih =>
    obtain ⟨h1, h2, h3⟩ := ih
    obtain ⟨h4, h5⟩ := slot_five hE hX hC h1 h2 hs
    exact ⟨h4, h5, slot_rewards hs h3⟩
  | freeze _ hf ih =>
    obtain ⟨h1, h2, h3⟩ := ih
    rcases freeze_cases hE hf with ⟨_, rfl⟩ | ⟨f, _, _, rfl⟩ <;> exact ⟨h1, h2, h3⟩
  | saved x t _ ih => exact ih

/-- what the endpoint computes -/
theorem statistics_ok {fin : Option Nat} {cache : BMap} {cfg : Config} {s : State}
    (hr : oracleReady fin s.latestSlot 64 = true) (h1 : slotsInOneMonth ≤ s.latestSlot)
    (h2 : slotsInOneMonth ≤ s.latestBlock) (hrew : ∀ b ∈ s.proposed, b.reward ≠ none) :
    let c := (s.vals.map (·.2)).foldl countOne {}
    let sent := blockRewards s (fun _ => True) + donated s (fun _ => True)
    let sent30 := blockRewards s (fun k => s.latestSlot - slotsInOneMonth < k) +
      donated s (fun k => s.latestBlock - slotsInOneMonth < k)
    statistics fin cache cfg s = (do
      let per ← (if c.active + c.yellow + c.red ≠ 0 then bigDiv sent30 ((c.active + c.yellow : Nat) : Int)
        else .ok 0)
      let avg ← (if paidBlocks s ≠ 0 then bigDiv sent (paidBlocks s : Int) else .ok 0)
      .ok (.ok {
        subscribed := c.active + c.yellow + c.red, active := c.active, yellow := c.yellow, red := c.red
        banned := c.banned, notSubscribed := c.notSubscribed
        latestSlot := s.latestSlot, nextCheckpoint := u64 (s.latestSlot + cfg.cpSize)
        accumulated := c.accumulated, pending := c.pending
        sent := sent, donations := donated s (fun _ => True), avgBlock := avg, sent30 := sent30
        perValidator30 := per
        proposed := s.proposed.length, missed := s.missed.length, wrongFee := s.wrongFee.length
        effBal := effLoop cache (s.vals.map (·.2)) 0
        avgEffBal := if c.active + c.yellow + c.red > 0 then
          effLoop cache (s.vals.map (·.2)) 0 / (c.active + c.yellow + c.red) else 0 })) := by
  dsimp only
  unfold statistics
  rw [hr]
  simp only [Bool.not_true, Bool.false_eq_true, if_false]
  rw [if_neg (by omega), if_neg (by omega), rewardLoop_ok _ _ _ hrew]
  have e : donationLoop (s.latestBlock - slotsInOneMonth) s.donations
      (0, 0 + ((s.proposed.filter fun b => b.type = .okPool).map fun b => b.reward.getD 0).sum,
        0 + ((s.proposed.filter fun b => b.type = .okPool ∧ s.latestSlot - slotsInOneMonth < b.slot).map
          fun b => b.reward.getD 0).sum) =
      (donated s (fun _ => True), blockRewards s (fun _ => True) + donated s (fun _ => True),
        blockRewards s (fun k => s.latestSlot - slotsInOneMonth < k) +
          donated s (fun k => s.latestBlock - slotsInOneMonth < k)) := by
    rw [donationLoop_eq]
    simp [donated, blockRewards]
  have e2 : 0 + (s.proposed.filter fun b => b.type = .okPool).length = paidBlocks s := by
    simp [paidBlocks]
  simp only [bind_val]
  rw [e, e2]

theorem sub_count (l : VMap) :
    (l.filter fun p => Subscribed p.2.status).length =
      (l.filter fun p => p.2.status = .active).length +
      (l.filter fun p => p.2.status = .yellowCard).length +
      (l.filter fun p => p.2.status = .redCard).length := by
  induction l with
  | nil => rfl
  | cons p l ih =>
    simp only [List.filter_cons]
    cases hst : p.2.status <;> simp [Subscribed] at ih ⊢ <;> omega

theorem all_count {l : VMap} (h : ∀ p ∈ l, Documented p.2.status) :
    l.length = (l.filter fun p => Subscribed p.2.status).length +
      (l.filter fun p => p.2.status = .notSubscribed).length +
      (l.filter fun p => p.2.status = .banned).length := by
  induction l with
  | nil => rfl
  | cons p l ih =>
    have h1 := ih fun q hq => h q (List.mem_cons_of_mem _ hq)
    have h2 := h p (by simp)
    simp only [List.filter_cons, List.length_cons]
    cases hst : p.2.status <;> simp [Subscribed, Documented, hst] at h1 h2 ⊢ <;> omega

section
variable {H : List Nat → List Nat} {E : Env} (hE : ValidEnv E) (hX : ExactEnv E) (hC : NoSelfConsol E)
  {cfg : Config} {o : Oracle} (hw : Work H E (newOracle cfg) o) {fin : Option Nat} {cache : BMap}
include hE hX hC hw

/-- **C48.** Whatever the endpoint answers is right: the counters are the numbers of validators with each
status and together they count every tracked validator exactly once; the totals are the sums over the
validators, the recorded blocks and the donations. -/
theorem C48_consistent {r : Stats} (h : statistics fin cache o.cfg o.st = .ok (.ok r)) :
    r.active = tally o.st (· = .active) ∧ r.yellow = tally o.st (· = .yellowCard) ∧
    r.red = tally o.st (· = .redCard) ∧ r.banned = tally o.st (· = .banned) ∧
    r.notSubscribed = tally o.st (· = .notSubscribed) ∧ r.subscribed = tally o.st Subscribed ∧
    o.st.vals.length = r.subscribed + r.notSubscribed + r.banned ∧
    r.subscribed = r.active + r.yellow + r.red ∧
    r.accumulated = (o.st.vals.map fun p => p.2.acc).sum ∧
    r.pending = (o.st.vals.map fun p => p.2.pend).sum ∧
    r.donations = donated o.st (fun _ => True) ∧
    r.sent = blockRewards o.st (fun _ => True) + donated o.st (fun _ => True) ∧
    r.sent30 = blockRewards o.st (fun k => o.st.latestSlot - 216000 < k) +
      donated o.st (fun k => o.st.latestBlock - 216000 < k) ∧
    (0 < paidBlocks o.st → r.avgBlock = r.sent / (paidBlocks o.st : Int)) ∧
    (0 < r.subscribed → r.perValidator30 = r.sent30 / ((r.active + r.yellow : Nat) : Int)) ∧
    r.proposed = o.st.proposed.length ∧ r.missed = o.st.missed.length ∧
    r.wrongFee = o.st.wrongFee.length ∧
    r.effBal = ((o.st.vals.filter fun p => Subscribed p.2.status).map fun p =>
      ((cache.get p.2.index).map (·.effBal)).getD 0).sum % 2 ^ 64 ∧
    (0 < r.subscribed → r.avgEffBal = r.effBal / r.subscribed) ∧
    r.latestSlot = o.st.latestSlot := by
  obtain ⟨_, h5, hrew⟩ := work_stats hE hX hC hw
  by_cases hr : oracleReady fin o.st.latestSlot 64 = true
  · by_cases g1 : slotsInOneMonth ≤ o.st.latestSlot
    · by_cases g2 : slotsInOneMonth ≤ o.st.latestBlock
      · rw [statistics_ok hr g1 g2 hrew] at h
        simp only [bind_ok] at h
        obtain ⟨per, hper, avg, havg, h⟩ := h
        simp only [Except.ok.injEq, Answer.ok.injEq] at h
        rw [countOne_fold] at h hper
        simp only [Nat.zero_add, Int.zero_add] at h hper
        subst h
        have e1 := sub_count o.st.vals
        refine ⟨rfl, rfl, rfl, rfl, rfl, e1.symm, ?_, rfl, rfl, rfl, rfl, rfl, rfl, ?_, ?_, rfl, rfl, rfl, ?_, ?_, rfl⟩
        · rw [all_count h5, e1]
        · intro hp
          rw [if_pos (by omega)] at havg
          unfold bigDiv at havg
          rw [if_neg (by omega)] at havg
          exact (Except.ok.inj havg).symm
        · intro hp
          dsimp only at hp ⊢
          rw [if_pos (by omega)] at hper
          unfold bigDiv at hper
          split at hper
          · cases hper
          · exact (Except.ok.inj hper).symm
        · have := effLoop_eq cache o.st.vals 0 (by omega)
          rw [Nat.zero_add] at this
          exact this
        · intro hp
          exact if_pos hp
      · unfold statistics at h
        rw [hr] at h
        simp only [Bool.not_true, Bool.false_eq_true, if_false] at h
        rw [if_neg (by omega), if_pos (by omega)] at h
        cases h
    · unfold statistics at h
      rw [hr] at h
      simp only [Bool.not_true, Bool.false_eq_true, if_false] at h
      rw [if_pos (by omega)] at h
      cases h
  · unfold statistics at h
    rw [if_pos (by simpa using hr)] at h
    cases h

/-- **C48, partial.** The endpoint answers for every reachable state more than a month after the start of
the chain, if the oracle is in sync and some subscribed validator has no red card (or nobody is
subscribed). What is missing for the full claim: the case below. -/
theorem C48_answers_partial (hr : oracleReady fin o.st.latestSlot 64 = true)
    (h1 : 216000 ≤ o.st.latestSlot) (h2 : 216000 ≤ o.st.latestBlock)
    (h3 : (∃ p ∈ o.st.vals, p.2.status = .active ∨ p.2.status = .yellowCard) ∨
      ∀ p ∈ o.st.vals, ¬ Subscribed p.2.status) :
    ∃ r, statistics fin cache o.cfg o.st = .ok (.ok r) := by
  obtain ⟨_, h5, hrew⟩ := work_stats hE hX hC hw
  rw [statistics_ok hr h1 h2 hrew]
  rw [countOne_fold]
  simp only [Nat.zero_add, Int.zero_add]
  have hper : ∃ per, (if (o.st.vals.filter fun p => p.2.status = .active).length +
        (o.st.vals.filter fun p => p.2.status = .yellowCard).length +
        (o.st.vals.filter fun p => p.2.status = .redCard).length ≠ 0 then
      bigDiv (blockRewards o.st (fun k => o.st.latestSlot - slotsInOneMonth < k) +
        donated o.st (fun k => o.st.latestBlock - slotsInOneMonth < k))
        (((o.st.vals.filter fun p => p.2.status = .active).length +
          (o.st.vals.filter fun p => p.2.status = .yellowCard).length : Nat) : Int)
      else .ok 0) = .ok per := by
    rcases h3 with ⟨p, hp, hst⟩ | hno
    · have hpos : 0 < (o.st.vals.filter fun p => p.2.status = .active).length +
          (o.st.vals.filter fun p => p.2.status = .yellowCard).length := by
        rcases hst with e | e
        · have : p ∈ o.st.vals.filter fun p => p.2.status = .active := List.mem_filter.mpr ⟨hp, by simpa using e⟩
          have := List.length_pos_of_mem this
          omega
        · have : p ∈ o.st.vals.filter fun p => p.2.status = .yellowCard :=
            List.mem_filter.mpr ⟨hp, by simpa using e⟩
          have := List.length_pos_of_mem this
          omega
      rw [if_pos (by omega)]
      unfold bigDiv
      rw [if_neg (by omega)]
      exact ⟨_, rfl⟩
    · have e := sub_count o.st.vals
      rw [if_neg (by
        rw [← e]
        simp only [ne_eq, not_not, List.length_eq_zero_iff, List.filter_eq_nil_iff, decide_eq_true_eq]
        exact hno)]
      exact ⟨_, rfl⟩
  have havg : ∃ avg, (if paidBlocks o.st ≠ 0 then bigDiv (blockRewards o.st (fun _ => True) +
      donated o.st (fun _ => True)) (paidBlocks o.st : Int) else .ok 0) = .ok avg := by
    split
    · unfold bigDiv
      rw [if_neg (by omega)]
      exact ⟨_, rfl⟩
    · exact ⟨_, rfl⟩
  obtain ⟨per, hper⟩ := hper
  obtain ⟨avg, havg⟩ := havg
  rw [hper, bind_val, havg, bind_val]
  exact ⟨_, rfl⟩

/-- **C48 is false** in every reachable state in which all subscribed validators have a red card: the
endpoint divides by their number without a card, zero, and the request dies. -/
theorem C48_false_all_red (hr : oracleReady fin o.st.latestSlot 64 = true)
    (h1 : 216000 ≤ o.st.latestSlot) (h2 : 216000 ≤ o.st.latestBlock)
    (h3 : ∃ p ∈ o.st.vals, Subscribed p.2.status)
    (h4 : ∀ p ∈ o.st.vals, Subscribed p.2.status → p.2.status = .redCard) :
    statistics fin cache o.cfg o.st = .error .panic := by
  obtain ⟨_, h5, hrew⟩ := work_stats hE hX hC hw
  rw [statistics_ok hr h1 h2 hrew]
  rw [countOne_fold]
  simp only [Nat.zero_add, Int.zero_add]
  have e := sub_count o.st.vals
  have e1 : (o.st.vals.filter fun p => p.2.status = .active).length = 0 := by
    simp only [List.length_eq_zero_iff, List.filter_eq_nil_iff, decide_eq_true_eq]
    intro p hp h
    have := h4 p hp (Or.inl h)
    rw [h] at this; cases this
  have e2 : (o.st.vals.filter fun p => p.2.status = .yellowCard).length = 0 := by
    simp only [List.length_eq_zero_iff, List.filter_eq_nil_iff, decide_eq_true_eq]
    intro p hp h
    have := h4 p hp (Or.inr (Or.inl h))
    rw [h] at this; cases this
  obtain ⟨p, hp, hsub⟩ := h3
  have e3 : 0 < (o.st.vals.filter fun p => Subscribed p.2.status).length :=
    List.length_pos_of_mem (List.mem_filter.mpr ⟨hp, by simpa using hsub⟩)
  rw [if_pos (by omega), e1, e2]
  rfl

end

namespace Sample
/-- a block far from the start of the execution chain -/
def late (b : FullBlock) : FullBlock :=
  { b with cons := b.cons.map fun c => { c with number := 300000 }
           header := b.header.map fun h => { h with number := 300000 }
           receipts := b.receipts.map fun l => l.map fun r => { r with block := 300000 } }

/-- validator 1 proposes, validator 2 subscribes, somebody donates -/
def lateBlock : FullBlock :=
  { late (prop 12000000 1 builder (tx builder pool 5000)
      { ether := [⟨5000, pool, 300000⟩, ⟨300, pool, 300000⟩], subs := [⟨2, 1000, addr 2, 300000⟩] }) with
    valsSubs := [some (bval 2)] }

/-- only validator 2 subscribes; it misses twice -/
def redBlocks : List Cmd :=
  [.slot { late (prop 12000000 77 builder (tx builder (addr 77) 900) { subs := [⟨2, 1000, addr 2, 300000⟩] })
      with valsSubs := [some (bval 2)] },
   .slot (miss 12000001 2), .slot (miss 12000002 2)]

/-- the answer, as a test -/
def statsB (P : Stats → Bool) : M (Answer Stats) → Bool
  | .ok (.ok r) => P r
  | _ => false
end Sample

/-- the endpoint answers after one block -/
example : ∃ o, Work Sample.hash Sample.env (newOracle Sample.cfg) o ∧
    Sample.statsB (fun r => r.active == 2 && r.sent == 5300 && r.subscribed == 2)
      (statistics (some 12000010) [] o.cfg o.st) = true := by
  obtain ⟨o, h1, h2⟩ := Sample.ex_does (L := Toy.lib Sample.hash) (H := Sample.hash) (E := Sample.env)
    (cs := [.slot Sample.lateBlock, .freeze]) (o := newOracle Sample.cfg)
    (P := fun o => Sample.statsB (fun r => r.active == 2 && r.sent == 5300 && r.subscribed == 2)
      (statistics (some 12000010) [] o.cfg o.st)) (by decide +kernel)
  exact ⟨o, Sample.work_of_does h1, h2⟩

/-- **C48 is false**, concretely: the only subscribed validator misses two blocks. -/
theorem C48_false_reachable : ∃ o, Work Sample.hash Sample.env (newOracle Sample.cfg) o ∧
    ∀ cache, statistics (some 12000010) cache o.cfg o.st = .error .panic := by
  obtain ⟨o, h1, h2⟩ := Sample.ex_does (L := Toy.lib Sample.hash) (H := Sample.hash) (E := Sample.env)
    (cs := Sample.redBlocks) (o := newOracle Sample.cfg)
    (P := fun o => oracleReady (some 12000010) o.st.latestSlot 64 && decide (216000 ≤ o.st.latestSlot) &&
      decide (216000 ≤ o.st.latestBlock) && (o.st.vals.any fun p => decide (Subscribed p.2.status)) &&
      o.st.vals.all fun p => decide (Subscribed p.2.status → p.2.status = .redCard)) (by decide +kernel)
  simp only [Bool.and_eq_true, decide_eq_true_eq, List.any_eq_true, List.all_eq_true] at h2
  obtain ⟨⟨⟨⟨a1, a2⟩, a3⟩, a4⟩, a5⟩ := h2
  have hw := Sample.work_of_does h1
  exact ⟨o, hw, fun cache => C48_false_all_red Sample.env_valid Sample.env_exact Sample.env_noSelf hw a1 a2 a3
    a4 a5⟩

end Verif
