import Verif.Spec.Shown
import Verif.Props.Listed
import Verif.Props.View
import Verif.Spec.SampleFacts
/-
Property C126 (the lists of blocks say what each block earned).
-/
namespace Verif

open VMap

theorem mevIs_of {b : FullBlock} {m : Mev} (hm : mevReward b = .ok m) :
    (m.present = true → MevIs b m.amount) ∧ (m.present = false → ∀ r, ¬ MevIs b r) := by
  rcases mevReward_spec (pool := []) hm with ⟨h1, h2, _, h3⟩ | ⟨tx, dest, h1, h2, h3, _⟩ | ⟨h1, h2, h3⟩
  · exact ⟨fun _ => Or.inl ⟨h1, h3⟩, fun h => by rw [h2] at h; cases h⟩
  · exact ⟨fun _ => Or.inr ⟨tx, dest, h1, h3⟩, fun h => by rw [h2] at h; cases h⟩
  · refine ⟨fun h => absurd (h.symm.trans h3) (by simp), fun _ r hr => ?_⟩
    rcases hr with ⟨h, _⟩ | ⟨tx, dest, h, _⟩
    · exact h1 h
    · exact h2 tx dest h

/-- what the summary of a block says -/
theorem shows_of {s b pool sb} (h5 : FiveStates s) (hg : GasOK b) (hsb : summarize s b pool = .ok sb) :
    Displays s pool b sb.reward sb.rewardType := by
  unfold summarize at hsb
  rw [bind_ok] at hsb
  obtain ⟨⟨w, wt⟩, hw, hsb⟩ := hsb
  simp only at hsb
  split at hsb
  · rename_i hc
    simp only [Except.ok.injEq] at hsb
    rw [← hsb]
    exact .missed hc
  · rename_i c hc
    simp only [bind_ok] at hsb
    obtain ⟨pr, hpr, ⟨rw', tp, rt⟩, hsr, nb, hnb, hsb⟩ := hsb
    simp only [Except.ok.injEq] at hsb
    rw [← hsb]
    dsimp only
    have hpr := base_ok hpr
    subst hpr
    unfold sentReward at hsr
    rw [bind_ok] at hsr
    obtain ⟨m, hm, hsr⟩ := hsr
    obtain ⟨k1, k2⟩ := mevIs_of hm
    split at hsr
    · rename_i hp
      rw [bind_ok] at hsr
      obtain ⟨tp', htp', hsr⟩ := hsr
      simp only [Except.ok.injEq, Prod.mk.injEq] at hsr
      rw [← hsr.1, ← hsr.2.2]
      exact .mev (k1 hp)
    · rename_i hp
      have hno := k2 (by simpa using hp)
      rw [hc] at hsr
      simp only [bind_ok] at hsr
      obtain ⟨fr, hfr, frp, hfrp, hsr⟩ := hsr
      have hf : c.fork ≠ .phase0 ∧ c.fork ≠ .altair := by
        unfold ConsBlock.exec at hfr
        split at hfr <;> simp_all
      have hfr := exec_ok hfr
      subst hfr
      have heq := equals_iff hfrp
      split at hsr
      · rename_i hor
        have hwho : SameAddr c.feeRecipient pool ∨ ∃ v, VMap.get s.vals c.proposer = some v ∧ Subscribed v.status := by
          rw [Bool.or_eq_true, heq, isSubscribed_iff h5] at hor
          exact hor
        rw [bind_ok] at hsr
        obtain ⟨tip, htip, hsr⟩ := hsr
        obtain ⟨t1, t2, _⟩ := C40_exact hc hf
        cases tip with
        | err => simp at hsr
        | nil =>
          simp only [Except.ok.injEq, Prod.mk.injEq] at hsr
          rw [← hsr.1, ← hsr.2.2]
          obtain ⟨hd, rs, _, e2, _, e4⟩ := t2.mp htip
          exact .mixedUp hno hc hwho e2 e4
        | val x =>
          simp only [Except.ok.injEq, Prod.mk.injEq] at hsr
          rw [← hsr.1, ← hsr.2.2]
          obtain ⟨hd, rs, e1, e2, e3⟩ := t1.mp ⟨x, htip⟩
          obtain ⟨c', hd', rs', f1, f2, f3, f4, _⟩ := C40_tip_is_priority_fees hg htip
          rw [hc, Option.some.injEq] at f1
          rw [e1, Option.some.injEq] at f2
          rw [e2, Option.some.injEq] at f3
          subst f1 f2 f3
          rw [f4]
          exact .fees hno hc hwho e1 e2 e3
      · rename_i hor
        simp only [Except.ok.injEq, Prod.mk.injEq] at hsr
        rw [← hsr.1, ← hsr.2.2]
        rw [Bool.or_eq_true, heq, isSubscribed_iff h5] at hor
        push Not at hor
        exact .stranger hno hc hor.1 hor.2

section
variable {E : Env} (hE : ValidEnv E) (hX : ExactEnv E) (hC : NoSelfConsol E)
  {cfg : Config} {bs : List FullBlock} {o o' : Oracle} {b : FullBlock} {n : Nat}
  (h0 : Hist E (newOracle cfg) bs o) (h : advanceState E o b = .ok (o', some n))
include hE hX hC h0 h

/-- **C126.** Whatever a slot adds to the three lists of blocks is about this slot, and says of the block what it
earned; for a block that paid the pool it always says an amount, which is the reward. -/
theorem C126_slot (hg : GasOK b) :
    ∃ p m w, o'.st.proposed = o.st.proposed ++ p ∧ o'.st.missed = o.st.missed ++ m ∧
      o'.st.wrongFee = o.st.wrongFee ++ w ∧
      (∀ sb ∈ p ++ m ++ w, sb.slot = b.dutySlot ∧ sb.index = b.dutyIndex ∧
        Displays o.st o.cfg.poolAddr b sb.reward sb.rewardType) ∧
      ∀ sb ∈ p, ∃ r, sb.reward = some r ∧ RewardIs b r := by
  obtain ⟨hs, h5⟩ := hist_five hE hX hC h0 List.Pairwise.nil (by intro p hp; simp [newOracle] at hp)
  obtain ⟨sb, dons, s1, s5, ops, hn, hsb, hd, hsub, hs1, hpr, hs5, _, _⟩ := slot_stages hE hX hC hs h
  obtain ⟨_, heff, h51⟩ := handleSubs_effects (logged_five h5) (s := logged o b o'.st.fee) hs hsub
  obtain ⟨r1, r2, r3, r4, r5, r6⟩ := slot_records hsb hsub hpr h
  have hall : sb.slot = b.dutySlot ∧ sb.index = b.dutyIndex ∧
      Displays o.st o.cfg.poolAddr b sb.reward sb.rewardType :=
    ⟨(summarize_slot hsb).1, (summarize_slot hsb).2.1, shows_of h5 hg hsb⟩
  have hun : sb.type ≠ .unknown := (summarize_slot hsb).2.2.2.2
  have hrew := fun r => rewardIs_of (r := r) hg hsb hd
  rw [r1, r2, r3, ← r4, ← r5, ← r6]
  cases ht : sb.type with
  | unknown => exact absurd ht hun
  | missed =>
    rcases proposal_missed hs1 h51 ht hpr with ⟨k, e⟩ | ⟨k, e⟩
    · exact ⟨[], [sb], [], by rw [e]; simp, by rw [e], by rw [e]; simp, by simpa using hall, by simp⟩
    · exact ⟨[], [], [], by rw [e]; simp, by rw [e]; simp, by rw [e]; simp, by simp, by simp⟩
  | wrongFee =>
    rcases proposal_wrongFee hE hX hs1 h51 ht hpr with ⟨v, s2, k1, k2, k3, e⟩ | ⟨k, e⟩
    · obtain ⟨q1, q2, q3⟩ := k3.lists
      dsimp only at q1 q2 q3
      exact ⟨[], [], [sb], by rw [e]; simp [q3], by rw [e]; simp [q1], by rw [e]; simp [q2], by simpa using hall,
        by simp⟩
    · exact ⟨[], [], [], by rw [e]; simp, by rw [e]; simp, by rw [e]; simp, by simp, by simp⟩
  | okPool =>
    obtain ⟨r, s2, kr, k2, e⟩ := proposal_ok hE hX hs1 h51 ht hpr
    obtain ⟨q1, q2, q3⟩ := k2.lists
    dsimp only at q1 q2 q3
    refine ⟨[sb], [], [], by rw [e]; simp [q3], by rw [e]; simp [q1], by rw [e]; simp [q2], by simpa using hall, ?_⟩
    intro x hx
    rw [List.mem_singleton] at hx
    subst hx
    exact ⟨r, kr, hrew r (Or.inl ht) kr⟩
  | okPoolBls =>
    obtain ⟨r, kr, e⟩ := proposal_bls ht hpr
    refine ⟨[sb], [], [], by rw [e], by rw [e]; simp, by rw [e]; simp, by simpa using hall, ?_⟩
    intro x hx
    rw [List.mem_singleton] at hx
    subst hx
    exact ⟨r, kr, hrew r (Or.inr ht) kr⟩

end

/-- **C126**, over whole histories: every entry of the three lists is about one processed slot, and says what
that slot earned, judged by who took part just before it. -/
theorem C126_lists {E : Env} (hE : ValidEnv E) (hX : ExactEnv E) (hC : NoSelfConsol E) {cfg : Config}
    {bs : List FullBlock} {o : Oracle} (h : Hist E (newOracle cfg) bs o) (hg : ∀ b ∈ bs, GasOK b) :
    ∀ sb ∈ o.st.proposed ++ o.st.missed ++ o.st.wrongFee, ∃ l b r o1, bs = l ++ b :: r ∧
      Hist E (newOracle cfg) l o1 ∧ sb.slot = b.dutySlot ∧ sb.index = b.dutyIndex ∧
      Displays o1.st o1.cfg.poolAddr b sb.reward sb.rewardType := by
  have key : ∀ {a xs c}, Hist E a xs c → ∀ pre, Hist E (newOracle cfg) pre a → (∀ b ∈ xs, GasOK b) →
      ∀ sb ∈ c.st.proposed ++ c.st.missed ++ c.st.wrongFee,
        sb ∈ a.st.proposed ++ a.st.missed ++ a.st.wrongFee ∨ ∃ l b r o1, xs = l ++ b :: r ∧
        Hist E (newOracle cfg) (pre ++ l) o1 ∧ sb.slot = b.dutySlot ∧ sb.index = b.dutyIndex ∧
        Displays o1.st o1.cfg.poolAddr b sb.reward sb.rewardType := by
    intro a xs c hh
    induction hh with
    | nil => exact fun _ _ _ sb hsb => Or.inl hsb
    | @cons a b a1 n xs c hstep _ ih =>
      intro pre hpre hxs sb hsb
      rcases ih (pre ++ [b]) (hpre.snoc hstep) (fun x hx => hxs x (List.mem_cons_of_mem _ hx)) sb hsb with
        h1 | ⟨l, b', r, o1, e, h1, h2⟩
      · obtain ⟨p, m, w, e1, e2, e3, e4, _⟩ := C126_slot hE hX hC hpre hstep (hxs b (by simp))
        rw [e1, e2, e3] at h1
        simp only [List.mem_append] at h1 e4 ⊢
        have hnew : (sb ∈ p ∨ sb ∈ m) ∨ sb ∈ w → ∃ l b' r o1, b :: xs = l ++ b' :: r ∧
            Hist E (newOracle cfg) (pre ++ l) o1 ∧ sb.slot = b'.dutySlot ∧ sb.index = b'.dutyIndex ∧
            Displays o1.st o1.cfg.poolAddr b' sb.reward sb.rewardType := fun hm =>
          ⟨[], b, xs, a, rfl, by rw [List.append_nil]; exact hpre, e4 sb hm⟩
        rcases h1 with ((h1 | h1) | (h1 | h1)) | (h1 | h1)
        · exact Or.inl (Or.inl (Or.inl h1))
        · exact Or.inr (hnew (Or.inl (Or.inl h1)))
        · exact Or.inl (Or.inl (Or.inr h1))
        · exact Or.inr (hnew (Or.inl (Or.inr h1)))
        · exact Or.inl (Or.inr h1)
        · exact Or.inr (hnew (Or.inr h1))
      · right
        refine ⟨b :: l, b', r, o1, by rw [e]; rfl, ?_, h2⟩
        rw [List.append_assoc] at h1
        exact h1
  intro sb hsb
  rcases key h [] (.nil _) hg sb hsb with h1 | h1
  · simp [newOracle] at h1
  · simpa using h1

/-- the sample history meets the hypotheses; its lists hold a MEV payment, priority fees, a missed slot and a
block that paid somebody else -/
example : ValidEnv Sample.env ∧ ExactEnv Sample.env ∧ NoSelfConsol Sample.env ∧
    Hist Sample.env (newOracle Sample.cfg) Sample.blocks Sample.final ∧
    (Sample.final.st.proposed ++ Sample.final.st.missed ++ Sample.final.st.wrongFee).map
      (fun sb => (sb.slot, sb.reward)) =
      [(12000000, some 5000), (12000001, some 63000), (12000002, some 0), (12000003, some 900)] :=
  ⟨Sample.env_valid, Sample.env_exact, Sample.env_noSelf, Sample.hist, by decide +kernel⟩

/-- validator 3 subscribes in the block it proposes itself, and keeps the fees: 3 * 21000 -/
def Sample.joinsOwn : FullBlock :=
  { Sample.prop 12000000 3 (Sample.addr 60) (Sample.tx (Sample.addr 50) (Sample.addr 51) 1)
      { subs := [⟨3, 1000, Sample.addr 3, 100⟩] } with
    valsSubs := [some (Sample.bval 3)] }

/-- **C126**, what fails: the amount listed is not always the reward. If the proposer subscribes in its own block, the
list of blocks with a wrong fee recipient has the block, for which the validator is banned, but with a reward of zero
although it earned 63000. -/
theorem C126_false_zero : ¬ ∀ (E : Env) (cfg : Config) (b : FullBlock) (o : Oracle), ValidEnv E → ExactEnv E →
    NoSelfConsol E → GasOK b → Hist E (newOracle cfg) [b] o →
    ∀ sb ∈ o.st.wrongFee, ∀ x, sb.reward = some x → RewardIs b x := by
  intro H
  have hh : ((Sample.run Sample.env (newOracle Sample.cfg) [Sample.joinsOwn]).any fun o =>
      o.st.wrongFee.any fun sb => sb.reward == some 0) = true := by decide +kernel
  obtain ⟨h1, hp⟩ := (Option.any_eq_true_iff_get _ _).mp hh
  have ho := (Option.some_get h1).symm
  generalize Option.get _ h1 = o at hp ho
  rw [List.any_eq_true] at hp
  obtain ⟨sb, hsb, h0⟩ := hp
  have hg : GasOK Sample.joinsOwn := by
    intro c h rs hc hh hr
    simp only [Sample.joinsOwn, Sample.prop, Option.some.injEq] at hc hh hr
    subst hc hh hr
    constructor
    · rfl
    · intro n hn; simp only [BaseFee.u256.injEq] at hn; subst hn; norm_num
    · rfl
    · norm_num
    · intro tx htx
      simp only [List.mem_singleton, Option.some.injEq] at htx
      subst htx; decide
  have hr := H Sample.env Sample.cfg Sample.joinsOwn o Sample.env_valid Sample.env_exact Sample.env_noSelf hg
    (Sample.hist_of_run ho) sb hsb 0 (by simpa using h0)
  generalize hz : (0 : Int) = z at hr
  cases hr with
  | exception => simp at hz
  | @builder tx dest hb =>
    obtain ⟨_, c, sender, hc, ⟨c', hc', hl, _⟩, _⟩ := hb
    simp only [Sample.joinsOwn, Sample.prop, Option.some.injEq] at hc'
    subst hc'
    simp only [List.getLast?_singleton, Option.some.injEq] at hl
    subst hl
    simp [Sample.tx] at hz
  | @fees c hd rs _ _ hc hh hr =>
    simp only [Sample.joinsOwn, Sample.prop, Option.some.injEq] at hc hh hr
    subst hc hh hr
    revert hz
    decide +kernel

end Verif
