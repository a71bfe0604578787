import Verif.Props.Fetch
import Verif.Props.Money
/-
C42, exactly: which blocks of a chain that follows the rules stop the oracle, and how.
-/
namespace Verif

/-- What the pool's events carry: fees are small numbers and recipients are addresses (the contract
has these types). -/
structure ConfigValues (evs : Events) : Prop where
  fee : ∀ f ∈ evs.poolFee, 0 ≤ f ∧ f < 9223372036854775808
  recipient : ∀ a ∈ evs.feeRecipient, a.length = 42

/-- Configuration events that were not agreed are a returned error. -/
theorem validateConfig_not {o : Oracle} {b : FullBlock} (hv : ConfigValues b.events)
    (hl : o.cfg.poolFeesAddr.length = 42) (h : ¬ ConfigOK o.cfg b.dutySlot b.events) :
    ∃ o1, validateConfig o b = .ok (o1, false) := by
  unfold validateConfig
  dsimp only
  by_cases hlen : b.events.poolFee.length > 1 ∨ b.events.feeRecipient.length > 1 ∨
      b.events.cpSize.length > 1 ∨ b.events.collateral.length > 1
  · rw [if_pos hlen]; exact ⟨_, rfl⟩
  rw [if_neg hlen]
  push Not at hlen
  obtain ⟨l1, l2, l3, l4⟩ := hlen
  -- after the fee: whatever fee was stored, the remaining checks look at the same values
  have key : ∀ o1 : Oracle, o1.cfg.poolFeesAddr = o.cfg.poolFeesAddr → o1.cfg.cpSize = o.cfg.cpSize →
      o1.cfg.collateral = o.cfg.collateral →
      (b.events.poolFee = [] ∨ ∃ f, b.events.poolFee = [f] ∧ FeeChange o.cfg.network b.dutySlot f) →
      ∃ o2, (do
      let recOk ← (match b.events.feeRecipient with
        | [] => .ok true
        | r :: _ => equals o1.cfg.poolFeesAddr r)
      if !recOk then .ok (o1, false)
      else if b.events.cpSize.any (fun n => o1.cfg.cpSize ≠ n) then .ok (o1, false)
      else if b.events.collateral.any (fun c => o1.cfg.collateral ≠ c) then .ok (o1, false)
      else .ok (o1, true) : M (Oracle × Bool)) = .ok (o2, false) := by
    intro o1 e1 e2 e3 hfee
    have hrec : ∃ x, (match b.events.feeRecipient with
        | [] => .ok true
        | r :: _ => equals o1.cfg.poolFeesAddr r : M Bool) = .ok x ∧
        (x = true → b.events.feeRecipient = [] ∨
          ∃ a, b.events.feeRecipient = [a] ∧ SameAddr o.cfg.poolFeesAddr a) := by
      match hr : b.events.feeRecipient with
      | [] => exact ⟨true, rfl, fun _ => Or.inl rfl⟩
      | [a] =>
        have ha : o1.cfg.poolFeesAddr.length = a.length := by
          rw [e1, hl, hv.recipient a (by rw [hr]; simp)]
        refine ⟨decide (lower o1.cfg.poolFeesAddr = lower a), equals_of_length ha, fun hx => Or.inr ⟨a, rfl, ?_⟩⟩
        rw [e1] at ha hx
        exact ⟨ha, of_decide_eq_true hx⟩
      | a :: a' :: rest => rw [hr] at l2; simp at l2
    obtain ⟨x, hx, hx'⟩ := hrec
    rw [hx]
    dsimp only [bind, Except.bind]
    cases x with
    | false => exact ⟨o1, rfl⟩
    | true =>
      rw [if_neg (by simp)]
      split
      · exact ⟨o1, rfl⟩
      rename_i hcp
      split
      · exact ⟨o1, rfl⟩
      rename_i hco
      exfalso
      refine h ⟨hfee, hx' rfl, ?_, ?_⟩
      · match hr : b.events.cpSize with
        | [] => exact Or.inl rfl
        | [a] => right; rw [hr] at hcp; simp [e2] at hcp; rw [hcp]
        | a :: a' :: rest => rw [hr] at l3; simp at l3
      · match hr : b.events.collateral with
        | [] => exact Or.inl rfl
        | [a] => right; rw [hr] at hco; simp [e3] at hco; rw [hco]
        | a :: a' :: rest => rw [hr] at l4; simp at l4
  match hp : b.events.poolFee with
  | [] =>
    dsimp only
    exact key o rfl rfl rfl (Or.inl hp)
  | f :: rest =>
    have hrest : rest = [] := by rw [hp] at l1; simpa using l1
    subst hrest
    have hf := hv.fee f (by rw [hp]; simp)
    have hi : i64 f = f := by
      have := i64_of_lt (n := f.toNat) (by omega)
      rwa [Int.toNat_of_nonneg hf.1] at this
    dsimp only
    cases hs : scheduledFee o.cfg.network b.dutySlot with
    | none => exact ⟨o, rfl⟩
    | some e =>
      dsimp only
      by_cases he : e ≠ i64 f
      · rw [if_pos he]; exact ⟨o, rfl⟩
      · rw [if_neg he]
        dsimp only
        refine key { cfg := { o.cfg with fee := i64 f }, st := { o.st with fee := i64 f } } rfl rfl rfl
          (Or.inr ⟨f, hp, scheduledFee_iff.mp ?_⟩)
        rw [hs, not_not.mp he, hi]

/-- A payment to the pool that the pool did not report is Fatal. -/
theorem getDonations_not {b : FullBlock} {pool} (h : Readable b pool) (hp : ¬ PaymentReported b pool) :
    getDonations b pool = .error .fatal := by
  unfold getDonations
  cases hc : b.cons with
  | none =>
    exfalso
    refine hp ⟨?_, ?_⟩
    · rintro tx d ⟨_, c, _, hc', _⟩; rw [hc] at hc'; simp at hc'
    · rintro ⟨_, ⟨c, hc', _⟩, _⟩; rw [hc] at hc'; simp at hc'
  | some c =>
    dsimp only
    obtain ⟨m, hm, hml⟩ := mevReward_total h hc
    rw [hm]
    dsimp only [bind, Except.bind]
    have hspec := mevReward_spec (pool := pool) hm
    -- what a silent payment looks like
    have hsil : m.present = true ∧ SameAddr m.recipient pool ∧
        ∀ e ∈ b.events.ether, e.amount ≠ m.amount := by
      rcases hspec with ⟨k1, k2, k3, k4⟩ | ⟨tx, d, k1, k2, k3, k4⟩ | ⟨k1, k2, _⟩
      · have : SameAddr b!"0xadfb8d27671f14f297ee94135e266aaff8752e35" pool ∧
            ∀ e ∈ b.events.ether, e.amount ≠ 177043568463114308 := by
          by_contra hcon
          refine hp ⟨fun tx d hb _ => absurd k1 hb.1, fun _ hs => ?_⟩
          by_contra hno
          push Not at hno
          exact hcon ⟨hs, hno⟩
        exact ⟨k2, k3.mpr this.1, by rw [k4]; exact this.2⟩
      · have huniq : ∀ tx' d', BuilderPays b tx' d' → tx' = tx ∧ d' = d := by
          rintro tx' d' ⟨_, _, s', _, ⟨c1, g1, g2, _, g4⟩, _⟩
          obtain ⟨_, _, s, _, ⟨c2, f1, f2, _, f4⟩, _⟩ := k1
          rw [g1, Option.some.injEq] at f1
          subst f1
          rw [g2, Option.some.injEq, Option.some.injEq] at f2
          subst f2
          rw [g4, Option.some.injEq] at f4
          exact ⟨rfl, f4⟩
        have : SameAddr d pool ∧ ∀ e ∈ b.events.ether, e.amount ≠ tx.value := by
          by_contra hcon
          refine hp ⟨?_, fun he => absurd he k1.1⟩
          intro tx' d' hb hs
          obtain ⟨rfl, rfl⟩ := huniq _ _ hb
          by_contra hno
          push Not at hno
          exact hcon ⟨hs, hno⟩
        refine ⟨k2, k4.mpr ?_, by rw [k3]; exact this.2⟩
        unfold ArrivesAt
        have hnone : b.events.ether.find? (fun e => e.amount == tx.value) = none := by
          rw [List.find?_eq_none]
          intro e he
          simpa using this.2 e he
        rw [hnone]
        exact this.1
      · exact absurd ⟨fun tx d hb => absurd hb (k2 tx d), fun he => absurd he k1⟩ hp
    obtain ⟨s1, s2, s3⟩ := hsil
    rw [s1]
    simp only [if_true]
    rw [equals_of_length s2.1, decide_eq_true s2.2]
    dsimp only
    rw [if_neg (by simp), if_neg]
    rw [List.any_eq_true]
    rintro ⟨e, he, hx⟩
    exact s3 e he (by simpa using hx)

section
variable {E : Env} (hE : ValidEnv E) (hX : ExactEnv E) (hN : GoodNode E)
  (hB : SaneBalances E) (hG : GoodConsol E) {o : Oracle} {b : FullBlock} (hs : MapOK o.st)
  (hn : NonNeg o.st) (hf0 : 0 ≤ o.st.fee) (hf : o.st.fee ≤ 10000)
  (hpf : PostFork1 o.cfg.network o.st.nextSlot)
  (hslot : o.st.nextSlot = u64 (o.st.latestSlot + 1)) (hb : b.dutySlot = o.st.nextSlot)
  (hr : Readable b o.cfg.poolAddr) (hrec : HasReceipts b)
  (hev : EventsOK b) (hfa : o.cfg.poolFeesAddr.length = 42)
  (hdon : DonationsOneBlock b o.cfg.poolAddr)
  (hp : NonNegPayments b) (hg : GasOK b) (hv : ConfigValues b.events)
include hslot hb hfa hv

/-- **C42.** A block with configuration events that were not agreed is refused with an error. -/
theorem C42_reconfigured (h : ¬ ConfigOK o.cfg b.dutySlot b.events) :
    ∃ o', advanceState E o b = .ok (o', none) := by
  obtain ⟨o1, h1⟩ := validateConfig_not hv hfa h
  refine ⟨o1, ?_⟩
  unfold advanceState
  rw [if_neg (by rw [hslot]; simp), if_neg (by rw [hb]; simp), h1]
  rfl

omit hv
include hr hrec

/-- **C42.** A block with a payment to the pool that the pool did not report ends the process. -/
theorem C42_silent_payment (hcfg : ConfigOK o.cfg b.dutySlot b.events)
    (h : ¬ PaymentReported b o.cfg.poolAddr) : advanceState E o b = .error .fatal := by
  obtain ⟨o1, e1, hfee⟩ := validateConfig_total hcfg
  have hfr := validateConfig_frame e1
  have hpa : o1.cfg.poolAddr = o.cfg.poolAddr := by rw [hfr]
  have hns : o1.st.nextSlot = o.st.nextSlot := by rw [hfr]
  obtain ⟨sb, e2, _, hsl⟩ := summarize_total (s := o1.st) hr (fun c hc _ => hrec)
  unfold advanceState
  rw [if_neg (by rw [hslot]; simp), if_neg (by rw [hb]; simp), e1]
  dsimp only [bind, Except.bind]
  rw [if_neg (by simp), hpa, e2]
  dsimp only
  rw [if_neg (by rw [hns, hsl, hb]; simp), getDonations_not hr h]

include hE hX hN hB hG hs hn hf0 hf hpf hev hdon hp hg hv

/-- **C42**, exactly. Of the blocks that follow the rules of the chain, the oracle processes those
whose configuration events were agreed and whose payments to the pool were reported by the pool, and
no others. -/
theorem C42_exact : (∃ o' n, advanceState E o b = .ok (o', some n)) ↔
    ConfigOK o.cfg b.dutySlot b.events ∧ PaymentReported b o.cfg.poolAddr := by
  constructor
  · rintro ⟨o', n, h⟩
    by_contra hcon
    by_cases hc : ConfigOK o.cfg b.dutySlot b.events
    · have := C42_silent_payment (E := E) hslot hb hr hrec hfa hc (fun k => hcon ⟨hc, k⟩)
      rw [this] at h; simp at h
    · obtain ⟨o'', k⟩ := C42_reconfigured (E := E) hslot hb hfa hv hc
      rw [k] at h; simp at h
  · rintro ⟨hc, hq⟩
    exact C42_block_processed_partial hE hX hN hB hG hs hn hf0 hf hpf hslot hb hr hrec hev hc hq hdon hp hg

end

namespace Sample
/-- a proposed block in which the pool's owner changes the collateral -/
def raised : FullBlock := prop 12000001 1 builder (tx builder (addr 9) 5000) { collateral := [2000] }
end Sample

/-- Concrete cases. `C42_false_silent_payment` shows that `Sample.silent` meets the conditions and that
the oracle is stopped, so by `C42_exact` the payment in it was not reported. -/
example : ¬ PaymentReported Sample.silent Sample.oracle.cfg.poolAddr := by
  obtain ⟨h1, h2, h3, h4, h5, h6, h7, h8⟩ := C42_false_silent_payment
  have := C42_exact Sample.env_valid Sample.env_exact Sample.env_good Sample.env_sane Sample.env_consol
    (o := Sample.oracle) Sample.st_ok (by unfold NonNeg; decide) (by decide) (by decide)
    (Or.inl ⟨rfl, by decide⟩) rfl rfl h1 h2 h3 rfl h5 h6 h7
    ⟨by simp [Sample.silent, Sample.prop], by simp [Sample.silent, Sample.prop]⟩
  intro hp
  obtain ⟨o', n, h⟩ := this.mpr ⟨h4, hp⟩
  rw [h8] at h
  simp at h

/-- **C42 is false** in a second way: the owner of the pool stops every oracle by changing the
collateral (or the checkpoint size, the fee recipient, the fee at another slot). -/
theorem C42_false_reconfigured :
    ¬ ConfigOK Sample.oracle.cfg Sample.raised.dutySlot Sample.raised.events ∧
    PaymentReported Sample.raised Sample.oracle.cfg.poolAddr ∧
    Readable Sample.raised Sample.oracle.cfg.poolAddr ∧ HasReceipts Sample.raised ∧
    ∃ o', advanceState Sample.env Sample.oracle Sample.raised = .ok (o', none) := by
  have hno : ¬ ConfigOK Sample.oracle.cfg Sample.raised.dutySlot Sample.raised.events := by
    intro h
    rcases h.collateral with h | h <;> simp [Sample.raised, Sample.prop, Sample.oracle, Sample.cfg] at h
  refine ⟨hno, ?_, ?_, ?_, C42_reconfigured rfl rfl rfl
    ⟨by simp [Sample.raised, Sample.prop], by simp [Sample.raised, Sample.prop]⟩ hno⟩
  · refine ⟨?_, ?_⟩
    · rintro t d ⟨_, c, s, hc, ⟨c', hc', ht, _, hd⟩, _⟩ hs
      exfalso
      simp only [Sample.raised, Sample.prop, Option.some.injEq] at hc'
      subst hc'
      simp only [List.getLast?_singleton, Option.some.injEq] at ht
      subst ht
      simp only [Sample.tx, Option.some.injEq] at hd
      subst hd
      exact absurd hs.2 (by decide)
    · rintro ⟨_, ⟨c, hc, hs⟩, _⟩
      simp only [Sample.raised, Sample.prop, Option.some.injEq] at hc
      subst hc
      simp at hs
  · refine ⟨rfl, rfl, Or.inl rfl, ?_, ?_, ?_, ?_, ?_, by simp [Sample.raised, Sample.prop]⟩
    · rintro c hc; simp only [Sample.raised, Sample.prop, Option.some.injEq] at hc; subst hc; simp
    · rintro c hc x hx; simp only [Sample.raised, Sample.prop, Option.some.injEq] at hc; subst hc
      rw [List.mem_singleton] at hx; subst hx
      exact ⟨_, rfl, by simp [Sample.tx]⟩
    · rintro c t hc ht; simp only [Sample.raised, Sample.prop, Option.some.injEq] at hc; subst hc
      simp only [List.getLast?_singleton, Option.some.injEq] at ht
      subst ht; exact ⟨Sample.builder, rfl, rfl⟩
    · rintro c t d hc ht hd; simp only [Sample.raised, Sample.prop, Option.some.injEq] at hc; subst hc
      simp only [List.getLast?_singleton, Option.some.injEq] at ht
      subst ht; simp only [Sample.tx, Option.some.injEq] at hd; subst hd; exact Sample.addr_length 9
    · rintro c hc; simp only [Sample.raised, Sample.prop, Option.some.injEq] at hc; subst hc; rfl
  · rintro c hc; simp only [Sample.raised, Sample.prop, Option.some.injEq] at hc; subst hc
    exact ⟨_, _, rfl, rfl, .cons ⟨_, rfl, rfl⟩ .nil⟩

/-- validator 3 is banned by hand -/
def banBlock : FullBlock :=
  Sample.prop 7000002 1 Sample.builder (Sample.tx Sample.builder (Sample.addr 77) 900)
    { bans := [⟨3, 100⟩] }

/-- **C42 is false** in a third way, before fork1: there balances can be negative
(`C07_false_before_fork1`), and banning the validator with the negative balance ends the process. -/
theorem C42_false_before_fork1 : ∃ o, Hist Sample.env (newOracle earlyCfg) [weiBlock] o ∧
    advanceState Sample.env o banBlock = .error .fatal ∧ EventsOK banBlock ∧
    ConfigOK o.cfg banBlock.dutySlot banBlock.events := by
  obtain ⟨o, h1, h2⟩ := Sample.ex_hist (E := Sample.env) (o := newOracle earlyCfg) (bs := [weiBlock])
    (P := fun o => (match advanceState Sample.env o banBlock with
      | .error .fatal => true
      | _ => false)) (by decide +kernel)
  refine ⟨o, h1, ?_, ⟨?_, ?_, ?_, ?_, .nil, .nil⟩, ⟨Or.inl rfl, Or.inl rfl, Or.inl rfl, Or.inl rfl⟩⟩
  · split at h2
    · assumption
    · simp at h2
  all_goals simp [AllSame, banBlock, Sample.prop]

end Verif
