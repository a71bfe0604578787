import Verif.Spec.Env
import Verif.Spec.Money
import Verif.Spec.Merkle
import Verif.Spec.Honest
import Verif.Model.MainLoop
import Mathlib.Data.List.Dedup
/-
When everything around the oracle works: its configuration, the nodes, and the answers they and the
contract give to the main loop.
-/
namespace Verif

/-- A validator that does not withdraw to the pool contract or to the pool fee address (see
`C61_false_pool_owned_validator` and C59 for what happens otherwise). -/
def GoodOwner (cfg : Config) (v : BVal) : Prop :=
  (∀ x ∈ v.creds, x < 256) ∧
  ∀ w, HasAddress v.creds w → lower w ≠ lower cfg.poolAddr ∧ lower w ≠ lower cfg.poolFeesAddr

structure GoodCfg (cfg : Config) : Prop where
  dep : 0 < cfg.depSlot ∧ cfg.depSlot < 2 ^ 64
  cpSize : 0 < cfg.cpSize
  fee : 0 ≤ cfg.fee ∧ cfg.fee ≤ 10000
  fork : PostFork1 cfg.network cfg.depSlot
  feesAddr : IsAddress cfg.poolFeesAddr

/-- What `Env` stands for: the validators and the pending consolidations the nodes report. -/
structure GoodEnv (cfg : Config) (E : Env) : Prop where
  valid : ValidEnv E
  exact : ExactEnv E
  noSelf : NoSelfConsol E
  node : GoodNode E
  sane : SaneBalances E
  consol : GoodConsol E
  owners : ∀ t slot req r, E.node t slot req = some r → ∀ v ∈ r, GoodOwner cfg v

/-- The answers about blocks describe an honest chain and no validator withdraws to the pool. -/
structure SafeFetch (cfg : Config) (C : Chain) : Prop where
  honest : HonestChain C cfg
  owners : ∀ i slot l, C.validators i slot = some l → ∀ p ∈ l, GoodOwner cfg p.2

/-- Moreover a payment to the pool in a block's last transaction is reported once, with no second payment of
the same amount in the block (see C02 for what happens otherwise). -/
structure GoodFetch (cfg : Config) (C : Chain) : Prop extends SafeFetch cfg C where
  distinct : ∀ slot c evs a, C.cons slot = some (some c) → C.events c.number = some evs →
    (a = 177043568463114308 ∨ ∃ tx, c.txs.getLast? = some (some tx) ∧ tx.value = a) →
    (evs.ether.filter fun e => e.amount = a).length ≤ 1
  -- the payment added by hand is not reported by the contract
  exception : ∀ c evs, C.cons 10400574 = some (some c) → C.events c.number = some evs →
    ∀ e ∈ evs.ether, e.amount ≠ 177043568463114308

/-- Everything the contract has paid out to the pool fee address and the validators' withdrawal
addresses, each counted once, ignoring letter case. -/
def claimedTotal (s : State) (paid : Str → Int) : Int :=
  (((s.poolFeesAddr :: s.vals.map fun p => p.2.waddr).map lower).dedup.map paid).sum

/-- The beacon node reports validators with the indices 0, 1, 2, … without a gap, one of which was activated
after the genesis. -/
def AllValidators (r : Option NodeVals) : Prop :=
  ∃ vs, r = some vs ∧ (∀ i, i < vs.length → ∃ p ∈ vs, p.1 = i) ∧
    ∃ p ∈ vs, p.2.activation ≠ 0 ∧ p.2.activation ≠ 2 ^ 64 - 1

/-- The nodes and the contract answer, a transaction is sent and mined, and the contract holds what it
received and has not paid out. -/
structure Reliable (cfg : Config) (A : Answers) (s : State) : Prop where
  sync : A.sync ≠ none
  finalized : ∀ fin, A.finalized = some fin → fin + 1 < 2 ^ 64
  vals : AllValidators A.vals
  fetch : GoodFetch cfg A.fetch
  vote : A.report ≠ none ∧ A.quorum = true
  chain : A.chain ≠ none
  tx : A.tx.ready = true ∧ (A.tx.sending = .slotInvalid ∨ A.tx.sending = .sent ∧ A.tx.mining ≠ .timeout)
  money : ∃ paid, (∀ a, A.claim a = some (paid (lower a))) ∧
    ∀ b, A.balance = some b → b = received s - claimedTotal s paid

/-- A run of the main loop in which every answer is reliable. -/
inductive ReliableRun (L : Lib) (H : List Nat → List Nat) (E : Env) (cfg : Config) (l0 : Loop) : Loop → Prop
  | nil : ReliableRun L H E cfg l0 l0
  | step {l l' A evs} : ReliableRun L H E cfg l0 l → Reliable cfg A l.o.st →
      stepLoop L H E A l = .ok (l', evs) → ReliableRun L H E cfg l0 l'

end Verif
