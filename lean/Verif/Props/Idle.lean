import Verif.Props.MainLoop
import Verif.Props.Reconcile
import Verif.Props.Money
import Verif.Spec.Chain
import Verif.Spec.Live
/-
C74: what the main loop does with the money check while there is nothing to process.
-/
namespace Verif
open VMap

/-- The loop has processed everything that is finalized and both nodes are in sync. -/
structure UpToDate (A : Answers) (l : Loop) : Prop where
  top : l.pc = .top
  sync : A.sync = some true
  fin : ∃ fin, A.finalized = some fin ∧ fin < l.o.st.nextSlot

theorem step_idle {L : Lib} {H : List Nat → List Nat} {E : Env} {A : Answers} {l : Loop}
    (h : UpToDate A l) : stepLoop L H E A l = (idle E A l).bind fun l' => .ok (l', []) := by
  obtain ⟨h1, h2, fin, h3, h4⟩ := h
  unfold stepLoop
  rw [h1]
  dsimp only
  unfold stepTop
  rw [h2, h3]
  dsimp only
  rw [if_neg (by omega)]
  rfl

/-- **C74**, partial: as in `C59_claims_partial`, no validator may withdraw to the pool fee address. When
the loop is up to date, more than three hours have passed since the last check, and the contract answers,
the program goes on if the contract's balance plus everything it paid out is what the pool owes, and
stops if it is not, whichever way it differs. -/
theorem C74_money_check_partial {L : Lib} {H : List Nat → List Nat} {E : Env} (hE : ValidEnv E)
    {A : Answers} {l : Loop} (hu : UpToDate A l) (ht : A.now - l.lastRec > 3 * 3600)
    (hw : ∀ p ∈ l.o.st.vals, WellFormed p.2.waddr) (hf : isHexAddress l.o.st.poolFeesAddr = true)
    (hdiff : ∀ p ∈ l.o.st.vals, lower p.2.waddr ≠ lower l.o.st.poolFeesAddr)
    {paid : Str → Int} (hc : ∀ a, A.claim a = some (paid (lower a))) {b : Int} (hb : A.balance = some b) :
    (b + claimedTotal l.o.st paid = owed l.o.st → ∃ l', stepLoop L H E A l = .ok (l', []) ∧
      l'.pc = .top ∧ SameState l'.o l.o ∧ l'.disk = l.disk ∧ l'.lastRec = A.now) ∧
    (b + claimedTotal l.o.st paid ≠ owed l.o.st → stepLoop L H E A l = .error .fatal) := by
  obtain ⟨us, m, h1, h2, h3⟩ := C59_claims_partial hE l.o.st.tick hw hf hdiff hc
  have hrec := C45_reconciliation_exact hE (l.o.st.tick + 1) l.o.st b m
  have hid : idle E A l = if onchainReconciliation E (l.o.st.tick + 1) l.o.st b m then
      .ok { l with o := { l.o with st := { l.o.st with tick := l.o.st.tick + 3 } }, lastRec := A.now }
      else .error .fatal := by
    unfold idle
    rw [if_pos ht, h1]
    show (claimedPer A.claim us >>= _) = _
    rw [h2, hb]
    rfl
  rw [step_idle hu, hid]
  rw [h3] at hrec
  constructor
  · intro h
    rw [if_pos (hrec.mpr h)]
    exact ⟨_, rfl, hu.top, ⟨rfl, rfl⟩, rfl, rfl⟩
  · intro h
    rw [if_neg (fun hn => h (hrec.mp hn))]
    rfl

/-- **C74.** Before three hours have passed nothing is checked. -/
theorem C74_not_due {L : Lib} {H : List Nat → List Nat} {E : Env} {A : Answers} {l : Loop}
    (hu : UpToDate A l) (ht : A.now - l.lastRec ≤ 3 * 3600) : stepLoop L H E A l = .ok (l, []) := by
  rw [step_idle hu]
  unfold idle
  rw [if_neg (by omega)]
  rfl

/-- **C74.** Whatever the contract answers, a step of the loop that is up to date changes neither the
state nor the disk, and shows nothing outside. -/
theorem C74_no_change {L : Lib} {H : List Nat → List Nat} {E : Env} {A : Answers} {l l' : Loop}
    {evs : List LoopEv} (hu : UpToDate A l) (h : stepLoop L H E A l = .ok (l', evs)) :
    evs = [] ∧ l'.pc = .top ∧ SameState l'.o l.o ∧ l'.disk = l.disk := by
  rw [step_idle hu] at h
  obtain ⟨l1, h1, h2⟩ := bind_ok.mp h
  injection h2 with h2
  injection h2 with h2 h3
  subst h2 h3
  refine ⟨rfl, ?_⟩
  unfold idle at h1
  split at h1
  · obtain ⟨us, _, h1⟩ := bind_ok.mp h1
    obtain ⟨c, _, h1⟩ := bind_ok.mp h1
    dsimp only at h1
    split at h1
    · split at h1
      · injection h1 with h1
        subst h1
        exact ⟨hu.top, ⟨rfl, rfl⟩, rfl⟩
      · cases h1
    · injection h1 with h1
      subst h1
      exact ⟨hu.top, ⟨rfl, rfl⟩, rfl⟩
  · injection h1 with h1
    subst h1
    exact ⟨hu.top, ⟨rfl, rfl⟩, rfl⟩

/-- **C74, false part.** If the balance of the contract cannot be read, the program goes on and the check
counts as done: the next one is due three hours later, even if the contract has lost everything. -/
theorem C74_false_unanswered {L : Lib} {H : List Nat → List Nat} {E : Env} (hE : ValidEnv E)
    {A : Answers} {l : Loop} (hu : UpToDate A l) (ht : A.now - l.lastRec > 3 * 3600)
    (hw : ∀ p ∈ l.o.st.vals, WellFormed p.2.waddr) (hf : isHexAddress l.o.st.poolFeesAddr = true)
    (hdiff : ∀ p ∈ l.o.st.vals, lower p.2.waddr ≠ lower l.o.st.poolFeesAddr)
    {paid : Str → Int} (hc : ∀ a, A.claim a = some (paid (lower a))) (hb : A.balance = none) :
    ∃ l', stepLoop L H E A l = .ok (l', []) ∧ l'.lastRec = A.now := by
  obtain ⟨us, m, h1, h2, _⟩ := C59_claims_partial hE l.o.st.tick hw hf hdiff hc
  rw [step_idle hu]
  unfold idle
  rw [if_pos ht, h1]
  show ∃ l', ((claimedPer A.claim us >>= _).bind _) = _ ∧ _
  rw [h2, hb]
  exact ⟨_, rfl, rfl⟩

theorem hist_mapOK {E : Env} (hE : ValidEnv E) (hX : ExactEnv E) (hC : NoSelfConsol E) {cfg : Config}
    {bs : List FullBlock} {o' : Oracle} (h : Hist E (newOracle cfg) bs o') : MapOK o'.st := by
  have key : ∀ {o bs o'}, Hist E o bs o' → MapOK o.st → MapOK o'.st := by
    intro o bs o' h
    induction h with
    | nil => exact id
    | @cons o b o1 n bs o2 hstep _ ih =>
      intro hs
      obtain ⟨sb, dons, r, ops, _, _, _, _, hp, _⟩ := slot_runs (x := False) hE hX hC hs
        (fun hf => hf.elim) hstep
      exact ih (hp.sorted hs)
  exact key h List.Pairwise.nil

/-- **C74.** As long as the contract holds what it received minus what it paid out, the check never stops
an oracle that has processed blocks since the start without errors. -/
theorem C74_honest_contract_partial {L : Lib} {H : List Nat → List Nat} {E : Env} (hE : ValidEnv E)
    (hX : ExactEnv E) (hC : NoSelfConsol E) (hG : GoBytes E) {cfg : Config} {bs : List FullBlock}
    {A : Answers} {l : Loop} (hu : UpToDate A l) (hh : Hist E (newOracle cfg) bs l.o)
    (hbs : ∀ b ∈ bs, NoPaymentsIfMissed b ∧ DistinctPayments b) (hby : ∀ b ∈ bs, BytesOK b)
    (hf : isHexAddress l.o.st.poolFeesAddr = true)
    (hdiff : ∀ p ∈ l.o.st.vals, lower p.2.waddr ≠ lower l.o.st.poolFeesAddr)
    {paid : Str → Int} (hc : ∀ a, A.claim a = some (paid (lower a)))
    (hb : A.balance = some (received l.o.st - claimedTotal l.o.st paid)) :
    ∃ l', stepLoop L H E A l = .ok (l', []) := by
  rcases le_or_gt (A.now - l.lastRec) (3 * 3600) with ht | ht
  · exact ⟨_, C74_not_due hu ht⟩
  · have hs : MapOK l.o.st := hist_mapOK hE hX hC hh
    have hw : ∀ p ∈ l.o.st.vals, WellFormed p.2.waddr := fun p hp =>
      (C19_addresses_well_formed hE hX hC hG hby hh p.1 p.2
        (Sorted.get_of_mem hs (k := p.1) (v := p.2) hp)).1
    obtain ⟨l', h, _⟩ := (C74_money_check_partial (L := L) (H := H) hE hu ht hw hf hdiff hc hb).1 (by
      rw [(C02_solvency_partial hE hX hC hbs hh).1]
      omega)
    exact ⟨l', h⟩

namespace Sample

/-- the sample pool after its four blocks, up to date, the last check four hours ago -/
def idleLoop : Loop := ⟨.top, final, [], 0⟩

/-- the contract paid 5 to everybody and holds `b` -/
def idleAnswers (b : Option Int) : Answers :=
  { answers [] 0 with
    finalized := some 12000003
    now := 14400
    balance := b
    claim := fun _ => some 5 }

theorem idle_upToDate (b : Option Int) : UpToDate (idleAnswers b) idleLoop :=
  ⟨rfl, rfl, 12000003, rfl, by decide +kernel⟩

end Sample

/-- The sample pool owes 69340 and paid 5 to each of its addresses: one wei more or less in the contract
stops the program, the exact amount does not. The hypotheses of `C74_honest_contract_partial` hold. -/
example : ∃ b : Int, b = received Sample.final.st - claimedTotal Sample.final.st (fun _ => 5) ∧
    (∃ l', stepLoop (Toy.lib Sample.hash) Sample.hash Sample.env (Sample.idleAnswers (some b)) Sample.idleLoop =
      .ok (l', [])) ∧
    stepLoop (Toy.lib Sample.hash) Sample.hash Sample.env (Sample.idleAnswers (some (b - 1))) Sample.idleLoop =
      .error .fatal ∧
    stepLoop (Toy.lib Sample.hash) Sample.hash Sample.env (Sample.idleAnswers (some (b + 1))) Sample.idleLoop =
      .error .fatal := by
  have hw : ∀ p ∈ Sample.final.st.vals, WellFormed p.2.waddr := fun p hp =>
    (C19_addresses_well_formed Sample.env_valid Sample.env_exact Sample.env_noSelf Sample.env_bytes
      Sample.blocks_bytes Sample.hist p.1 p.2 (Sorted.get_of_mem
        (hist_mapOK Sample.env_valid Sample.env_exact Sample.env_noSelf Sample.hist) (k := p.1) (v := p.2) hp)).1
  have hf : isHexAddress Sample.final.st.poolFeesAddr = true := by decide +kernel
  have hd : ∀ p ∈ Sample.final.st.vals, lower p.2.waddr ≠ lower Sample.final.st.poolFeesAddr := by
    decide +kernel
  have ho : owed Sample.final.st = received Sample.final.st := by decide +kernel
  have key := fun b => C74_money_check_partial (L := Toy.lib Sample.hash) (H := Sample.hash)
    Sample.env_valid (Sample.idle_upToDate (some b)) (show (14400 : Int) - 0 > 3 * 3600 by omega) hw hf hd (paid := fun _ => 5)
    (fun _ => rfl) rfl
  refine ⟨_, rfl, ?_, (key _).2 ?_, (key _).2 ?_⟩
  · exact C74_honest_contract_partial Sample.env_valid Sample.env_exact Sample.env_noSelf Sample.env_bytes
      (Sample.idle_upToDate _) Sample.hist Sample.payments_ok Sample.blocks_bytes hf hd (fun _ => rfl) rfl
  · show _ + claimedTotal Sample.final.st _ ≠ owed Sample.final.st
    omega
  · show _ + claimedTotal Sample.final.st _ ≠ owed Sample.final.st
    omega

end Verif
