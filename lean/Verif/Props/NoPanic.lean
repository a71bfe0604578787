import Verif.Lemmas.NoPanicLoop
import Verif.Props.Fetch
import Verif.Props.MainLoop
import Verif.Spec.Sample
/-
C125: bad data end the process with a message, not with a nil pointer.
-/
namespace Verif

/-- **C125** Whatever the clients answer, fetching a block does not read through a nil pointer: it succeeds or ends the
process with a message. -/
theorem C125_fetch (C : Chain) (s : State) (slot : Nat) (all : Bool) :
    (∃ b, fetchFullBlock C s slot all = .ok b) ∨ fetchFullBlock C s slot all = .error .fatal := by
  have h := (np_fetch C s slot all).ne
  revert h
  rcases fetchFullBlock C s slot all with c | b <;> intro h
  · cases c
    · exact .inr rfl
    · exact absurd rfl h
  · exact .inl ⟨b, rfl⟩

/-- **C125** Any block at all, in any state at all: advancing by it succeeds, returns an error or ends the process with
a message, if the beacon node names only validators it was asked for and, in a block whose fee recipient is the pool,
each receipt is that of the transaction at its place. Nothing else is assumed, of the events, of the validators in them,
of the transactions, of the state or of the order of the maps. -/
theorem C125_advance {E : Env} (hX : ExactEnv E) (o : Oracle) (b : FullBlock)
    (hR : ∀ c rs, b.cons = some c → b.receipts = some rs → SameAddr c.feeRecipient o.cfg.poolAddr →
      ∀ p ∈ c.txs.zip rs, ∀ tx, p.1 = some tx → p.2.txHash = tx.hash) :
    (∃ r, advanceState E o b = .ok r) ∨ advanceState E o b = .error .fatal := by
  have h := (np_advance hX o b (by
    rintro ⟨c, rs, h1, h2, h3, h4⟩
    exact h4 (hR c rs h1 h2 h3))).ne
  revert h
  rcases advanceState E o b with c | r <;> intro h
  · cases c
    · exact .inr rfl
    · exact absurd rfl h
  · exact .inl ⟨r, rfl⟩

/-- **C125** A slot of the main loop: if the execution client returns the receipt it was asked for and the beacon node
the validators it was asked for, neither fetching a block nor advancing by it reads through a nil pointer. -/
theorem C125_slot {E : Env} (hX : ExactEnv E) {C : Chain} (hh : HonestReceipts C) (o o1 : Oracle) (slot : Nat)
    (all : Bool) (b : FullBlock) (h : fetchFullBlock C o.st slot all = .ok b) :
    (∃ r, advanceState E o1 b = .ok r) ∨ advanceState E o1 b = .error .fatal := by
  refine C125_advance hX o1 b fun c rs hc hrs _ p hp tx htx => ?_
  obtain ⟨i, key, f⟩ := fetch_ok h
  rcases f.rest with ⟨_, h2, _⟩ | ⟨c', evs, _, hc', _, _, _, _, _, _, _, _, _, _, hrec⟩
  · rw [hc] at h2
    simp at h2
  · rw [hc, Option.some.injEq] at hc'
    subst hc'
    rcases hrec with h3 | ⟨hd, rs', _, h3, _, h4⟩
    · rw [hrs] at h3
      simp at h3
    · rw [hrs, Option.some.injEq] at h3
      subst h3
      obtain ⟨t, r⟩ := p
      obtain ⟨tx', e, hr⟩ := (List.forall₂_iff_zip.mp h4).2 hp
      dsimp only at htx ⊢
      rw [htx, Option.some.injEq] at e
      subst e
      exact hh _ _ hr

/-- **C125** The whole main loop, at any moment of any run: a step reads through no nil pointer if the checkpoint size is
not zero, the execution client returns the receipts it is asked for, the beacon node only the validators it is asked
for and, in the list of all validators, the one whose index is the length less one. The answers of the contract and all
else may be anything. -/
theorem C125_main_loop {L : Lib} {H : List Nat → List Nat} {E : Env} (hE : ValidEnv E) (hX : ExactEnv E) {cfg : Config}
    (h0 : 0 < cfg.depSlot) (h1 : cfg.depSlot < 2 ^ 64) (hc : cfg.cpSize ≠ 0) {l0 l : Loop} {tr : List LoopEv}
    (hw : Work H E (newOracle cfg) l0.o) (hpc : l0.pc = .top) (hr : LoopRun L H E l0 tr l) (A : Answers)
    (hh : HonestReceipts A.fetch)
    (hv : ∀ vs, A.vals = some vs → vs ≠ [] → ∃ p ∈ vs, p.1 = vs.length - 1) :
    (∃ r, stepLoop L H E A l = .ok r) ∨ stepLoop L H E A l = .error .fatal := by
  have hi := loopRun_inv hE h0 h1 hw hpc hr
  have hrew : ∀ b ∈ l.o.st.proposed, b.reward ≠ none :=
    work_rewards hE hi.work (by intro b hb; simp [newOracle] at hb)
  have hcp : l.o.cfg.cpSize ≠ 0 := by
    rw [work_cpSize hi.work]
    exact hc
  have key : Np (fun _ => True) (stepLoop L H E A l) := by
    unfold stepLoop
    split
    · unfold stepTop
      split
      · exact trivial
      · exact trivial
      · split
        · exact trivial
        · split
          · refine (np_fetch _ _ _ _).bind fun b hb _ => ?_
            refine Np.bind (Q := fun _ => True) ?_ fun q _ _ => ?_
            · rcases C125_slot hX hh l.o l.o _ _ _ hb with ⟨r, e⟩ | e <;> rw [e] <;> exact trivial
            · obtain ⟨o, r⟩ := q
              dsimp only
              split <;> exact trivial
          · exact (np_idle E A l).bind fun _ _ _ => trivial
    · refine Np.bind (Q := fun _ => True) ?_ fun _ _ _ => np_stepProcessed hE hcp hrew
      unfold refreshDue
      split
      · exact (np_refresh hv).bind fun _ _ _ => trivial
      · exact trivial
    all_goals
      try dsimp only
      repeat' split
      all_goals exact trivial
  have h := key.ne
  revert h
  rcases stepLoop L H E A l with c | r <;> intro h
  · cases c
    · exact .inr rfl
    · exact absurd rfl h
  · exact .inl ⟨r, rfl⟩

/-- **C125** Exactly when filling the list of all validators panics: the list is not empty and has no validator whose
index is its length less one. -/
theorem C125_list_exact (a : Option NodeVals) : refresh a = .error .panic ↔
    ∃ vs, a = some vs ∧ vs ≠ [] ∧ ∀ p ∈ vs, p.1 ≠ vs.length - 1 := by
  constructor
  · intro h
    by_contra hcon
    push Not at hcon
    exact (np_refresh (a := a) hcon).ne h
  · rintro ⟨vs, rfl, hne, h⟩
    unfold refresh
    dsimp only
    rw [if_pos (by rwa [Ne, List.length_eq_zero_iff])]
    have : (vs.find? fun p => p.1 == vs.length - 1) = none := by
      rw [List.find?_eq_none]
      intro p hp
      simpa using h p hp
    rw [this]

namespace Sample

/-- Validator 1 proposes for the pool, but the receipt is that of another transaction. -/
def wrongReceipt : FullBlock :=
  { prop 12000001 1 pool (tx builder (addr 9) 5000) {} with receipts := some [⟨8, 21000, 100⟩] }

/-- Validator 1 proposes for the pool, but a withdrawal of the subscription is answered with another validator. -/
def wrongVals : FullBlock :=
  { prop 12000001 1 pool (tx builder (addr 9) 5000) { unsubs := [⟨2, addr 2, 100⟩] } with valsUnsubs := [some (bval 3)] }

/-- A node that also answers about validator 77. -/
def talkative : Env := { env with node := fun t slot req => (env.node t slot req).map (· ++ [bval 77]) }

end Sample

/-- **C125 is false** without the receipts in place: a receipt of another transaction leaves the reward nil without an
error (block.go:497 wraps a nil error), and adding it to the balances reads through the nil pointer. -/
theorem C125_false_receipt : advanceState Sample.env Sample.oracle Sample.wrongReceipt = .error .panic := by
  decide +kernel

/-- **C125 is false** if the beacon node answers about a validator it was not asked for: the share of a validator that
is not tracked is added through a nil pointer. -/
theorem C125_false_node : advanceState Sample.talkative Sample.oracle
    (Sample.prop 12000001 1 Sample.pool (Sample.tx Sample.builder (Sample.addr 9) 5000) {}) = .error .panic := by
  decide +kernel

/-- **C125 is false** for a checkpoint size of zero: after the first slot the program divides by zero. -/
theorem C125_false_size : ∃ l, LoopRun (Toy.lib Sample.hash) Sample.hash Sample.env
      ⟨.top, newOracle { Sample.cfg with cpSize := 0 }, [], 0⟩ [.processed 12000000 12000150] l ∧
    stepLoop (Toy.lib Sample.hash) Sample.hash Sample.env (Sample.answers [] 11999900) l = .error .panic := by
  obtain ⟨⟨l, tr⟩, h1, h2⟩ := Sample.ex_ok
    (x := Sample.runLoop (Toy.lib Sample.hash) Sample.hash Sample.env [Sample.answers [] 11999900]
      ⟨.top, newOracle { Sample.cfg with cpSize := 0 }, [], 0⟩)
    (P := fun p => decide (p.2 = [.processed 12000000 12000150]) &&
      (match stepLoop (Toy.lib Sample.hash) Sample.hash Sample.env (Sample.answers [] 11999900) p.1 with
        | .error .panic => true
        | _ => false)) (by decide +kernel)
  simp only [Bool.and_eq_true, decide_eq_true_eq] at h2
  obtain ⟨h2, h3⟩ := h2
  subst h2
  refine ⟨l, Sample.run_of (fun A hA fin hf => ?_) h1, ?_⟩
  · rw [List.mem_singleton] at hA
    subst hA
    simp only [Sample.answers, Option.some.injEq] at hf
    omega
  · split at h3
    · assumption
    · simp at h3

/-- The conditions of `C125_main_loop` are met in a run of two slots with a checkpoint between them. -/
example : ∃ l tr, LoopRun (Toy.lib Sample.hash) Sample.hash Sample.env Sample.start tr l ∧
    slotsOf tr = [12000000, 12000001] ∧
    ((∃ r, stepLoop (Toy.lib Sample.hash) Sample.hash Sample.env (Sample.answers [] 11999900) l = .ok r) ∨
      stepLoop (Toy.lib Sample.hash) Sample.hash Sample.env (Sample.answers [] 11999900) l = .error .fatal) := by
  obtain ⟨l, h⟩ := Sample.run2_ok
  refine ⟨l, _, h, rfl, C125_main_loop Sample.env_valid Sample.env_exact (cfg := Sample.cfg) (by decide) (by decide)
    (by decide) (.refl _) rfl h _ ?_ ?_⟩
  · intro x r hr
    simp only [Sample.answers, Sample.chain, Option.some.injEq] at hr
    rw [← hr]
  · intro vs hvs _
    simp only [Sample.answers, Option.some.injEq] at hvs
    subst hvs
    exact ⟨_, List.mem_singleton_self _, rfl⟩

/-- The conditions of `C125_advance` are met by a block that ends the process: the node answers about validator 3 when
validator 2 unsubscribes. -/
example : ExactEnv Sample.env ∧ advanceState Sample.env Sample.oracle Sample.wrongVals = .error .fatal ∧
    ((∃ r, advanceState Sample.env Sample.oracle Sample.wrongVals = .ok r) ∨
      advanceState Sample.env Sample.oracle Sample.wrongVals = .error .fatal) :=
  ⟨Sample.env_exact, by decide +kernel, C125_advance Sample.env_exact _ _ (by
    intro c rs hc hrs _ p hp t ht
    simp only [Sample.wrongVals, Sample.prop, Option.some.injEq] at hc hrs
    subst hc hrs
    simp only [List.zip_cons_cons, List.zip_nil_right, List.mem_singleton] at hp
    subst hp
    cases ht
    rfl)⟩

/-- The conditions of `C125_slot` are met by the sample chain. -/
example : HonestReceipts Sample.chain ∧ ∃ b, fetchFullBlock Sample.chain (newOracle Sample.cfg).st 12000000 false = .ok b ∧
    (b.cons.isSome && b.receipts.isSome) = true ∧
    ((∃ r, advanceState Sample.env (newOracle Sample.cfg) b = .ok r) ∨
      advanceState Sample.env (newOracle Sample.cfg) b = .error .fatal) := by
  have hh : HonestReceipts Sample.chain := by
    intro h r hr
    simp only [Sample.chain, Option.some.injEq] at hr
    rw [← hr]
  obtain ⟨b, h1, h2⟩ : ∃ b, fetchFullBlock Sample.chain (newOracle Sample.cfg).st 12000000 false = .ok b ∧
    (b.cons.isSome && b.receipts.isSome) = true := Sample.ex_ok (by decide +kernel)
  exact ⟨hh, b, h1, h2, C125_slot Sample.env_exact hh _ _ _ _ _ h1⟩

end Verif
