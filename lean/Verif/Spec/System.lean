import Verif.Spec.Pool
/-
The whole system over time: several oracles, members that do what they want, and the contract. The contract is
not part of the repository: what is said of it here is what the theorems about the system assume of it.
-/
namespace Verif

/-- The contract as the oracles see it: the last accepted root and slot, and the votes for the next one. Roots
are written as the oracles write them. -/
structure Contract (ι : Type) where
  root : Str
  slot : Nat
  votes : ι → Option (Nat × Str)

/-- A member votes. Only votes for the next checkpoint count; a later vote of a member replaces an earlier one.
With `n` equal votes the root is accepted and all votes are dropped. -/
inductive Vote {ι : Type} [DecidableEq ι] (n cp : Nat) (c : Contract ι) (i : ι) (s : Nat) (r : Str) :
    Contract ι → Prop
  | rejected : s ≠ c.slot + cp → Vote n cp c i s r c
  | counted : s = c.slot + cp →
      ¬ Quorum n (fun j s' r' => Function.update c.votes i (some (s, r)) j = some (s', r')) s r →
      Vote n cp c i s r { c with votes := Function.update c.votes i (some (s, r)) }
  | accepted : s = c.slot + cp →
      Quorum n (fun j s' r' => Function.update c.votes i (some (s, r)) j = some (s', r')) s r →
      Vote n cp c i s r ⟨r, s, fun _ => none⟩

/-- The oracles of the members and the contract. -/
structure World (ι : Type) where
  member : ι → Loop
  contract : Contract ι

/-- The answers to member `i` show this contract: its root and slot, the slot this member has a vote for (0 if
none), and it refuses a vote for another slot than the next one. -/
structure Sees {ι : Type} (cp : Nat) (c : Contract ι) (i : ι) (l : Loop) (A : Answers) : Prop where
  chain : A.chain = some (c.root, c.slot)
  report : A.report = some ((c.votes i).elim 0 Prod.fst)
  sending : ∀ f, l.pc = .submit f → (A.tx.sending = .slotInvalid ↔ f.slot ≠ c.slot + cp)

/-- Something happens: an honest member makes a step of its main loop on reliable answers, another member votes
for anything, or nothing. -/
inductive Turn {ι : Type} [DecidableEq ι] (P : ι → Law) (L : ι → Lib) (T : Chain) (H : List Nat → List Nat)
    (cfg : Config) (n : Nat) (honest : ι → Prop) (w : World ι) : Option (ι × Answers) → World ι → Prop
  | member {i A E l evs c} : honest i → Obeys (P i) E → Reliable cfg A (w.member i).o.st →
      HonestNetwork T A.fetch (w.member i).o.st.nextSlot →
      (∀ d, A.torn = some d → Interrupted (L i) (w.member i).o.st (w.member i).disk d) →
      Sees cfg.cpSize w.contract i (w.member i) A → stepLoop (L i) H E A (w.member i) = .ok (l, evs) →
      (∀ f, (w.member i).pc = .submit f → Vote n cfg.cpSize w.contract i f.slot f.root c) →
      ((∀ f, (w.member i).pc ≠ .submit f) → c = w.contract) →
      Turn P L T H cfg n honest w (some (i, A)) ⟨Function.update w.member i l, c⟩
  | other {j s r c} : ¬ honest j → Vote n cfg.cpSize w.contract j s r c →
      Turn P L T H cfg n honest w none ⟨w.member, c⟩
  | nothing : Turn P L T H cfg n honest w none w

/-- The members: enough of them are honest, the others are too few to decide on their own, and all honest ones
read the same chain. -/
structure Members {ι : Type} (V : Nat → Nat → BVal) (K : Nat → List (Nat × Nat)) (cfg : Config) (n : Nat)
    (P : ι → Law) (L : ι → Lib) (honest : ι → Prop) : Prop where
  enough : ∃ S : List ι, S.Nodup ∧ n ≤ S.length ∧ ∀ i ∈ S, honest i
  few : ∀ S : List ι, S.Nodup → (∀ i ∈ S, ¬ honest i) → S.length < n
  law : ∀ i, honest i → (P i).Good ∧ (P i).Reads V K ∧ ∀ E, Obeys (P i) E → GoodEnv cfg E
  lib : ∀ i, honest i → LibOK (L i)

/-- How the system begins: every honest oracle has been started, whatever happened to it before, and has not
processed the next checkpoint of the contract yet. If it has a vote for it, it is one it has submitted. -/
structure Begins {ι : Type} (P : ι → Law) (L : ι → Lib) (T : Chain) (H : List Nat → List Nat) (cfg : Config)
    (n : Nat) (honest : ι → Prop) (w : World ι) : Prop where
  aligned : cfg.depSlot ≤ w.contract.slot + cfg.cpSize ∧
    (w.contract.slot + cfg.cpSize - cfg.depSlot) % cfg.cpSize = 0
  undecided : ∀ s r, ¬ Quorum n (fun j s r => w.contract.votes j = some (s, r)) s r
  member : ∀ i, honest i → (w.member i).pc = .top ∧
    (w.member i).o.st.latestSlot < w.contract.slot + cfg.cpSize ∧
    ∃ tr, Life (P i) T (L i) H cfg tr (.on (w.member i)) ∧
      ∀ s r, w.contract.votes i = some (s, r) → s = w.contract.slot + cfg.cpSize ∧ .submit s r ∈ tr

/-- The system runs for ever. -/
structure SystemRun {ι : Type} [DecidableEq ι] (P : ι → Law) (L : ι → Lib) (T : Chain) (H : List Nat → List Nat)
    (cfg : Config) (n : Nat) (honest : ι → Prop) (who : Nat → Option (ι × Answers)) (w : Nat → World ι) : Prop where
  begins : Begins P L T H cfg n honest (w 0)
  turn : ∀ k, Turn P L T H cfg n honest (w k) (who k) (w (k + 1))

/-- Every honest oracle gets its turn again and again, with nodes in sync that show slot `N` as finalized. -/
def TurnsCome {ι : Type} (N : Nat) (honest : ι → Prop) (who : Nat → Option (ι × Answers)) : Prop :=
  ∀ i, honest i → ∀ k, ∃ j A fin, k ≤ j ∧ who j = some (i, A) ∧ A.sync = some true ∧ A.finalized = some fin ∧ N ≤ fin

/-- No oracle sleeps so long that the contract moves past the checkpoint it is voting for or waiting for. -/
def NotOvertaken {ι : Type} (honest : ι → Prop) (w : Nat → World ι) : Prop :=
  ∀ k i f, honest i → ((w k).member i).pc = .submit f ∨ ((w k).member i).pc = .confirm f →
    (w k).contract.slot ≤ f.slot

end Verif
