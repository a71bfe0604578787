import Mathlib.Data.List.Forall2
import Verif.Spec.Status
import Verif.Spec.Fees
import Verif.Spec.Blocks
import Verif.Model.Fetch
/-
Conditions on a block, a state and the clients under which processing must go through.
-/
namespace Verif

/-- The block can be read: the rules of the chain that hold for every real block. -/
structure Readable (b : FullBlock) (pool : Str) : Prop where
  creds : b.validator.creds.length = 32
  pool : pool.length = 42
  chain : b.chainId = 1 ∨ b.chainId = 17000 ∨ b.chainId = 560048
  fork : ∀ c, b.cons = some c → c.fork ≠ .phase0 ∧ c.fork ≠ .altair
  txs : ∀ c, b.cons = some c → ∀ x ∈ c.txs, ∃ tx, x = some tx ∧ tx.type ≤ 4
  sender : ∀ c tx, b.cons = some c → c.txs.getLast? = some (some tx) →
    ∃ a, tx.sender = some a ∧ a.length = 42
  dest : ∀ c tx d, b.cons = some c → c.txs.getLast? = some (some tx) → tx.to = some d → d.length = 42
  feeRecipient : ∀ c, b.cons = some c → c.feeRecipient.length = 42
  events : ∀ e ∈ b.events.ether, e.addr.length = 42

/-- Header and receipts are there, one receipt per transaction, in order. -/
def HasReceipts (b : FullBlock) : Prop :=
  ∀ c, b.cons = some c → ∃ h rs, b.header = some h ∧ b.receipts = some rs ∧
    List.Forall₂ (fun x (r : Receipt) => ∃ tx : Tx, x = some tx ∧ r.txHash = tx.hash) c.txs rs

/-- all numbers in the list are the same -/
def AllSame (l : List Nat) : Prop := ∀ x ∈ l, ∀ y ∈ l, x = y

/-- The events belong to one block, come with the validators they name, and name senders by
addresses. -/
structure EventsOK (b : FullBlock) : Prop where
  subsBlock : AllSame (b.events.subs.map (·.block))
  unsubsBlock : AllSame (b.events.unsubs.map (·.block))
  bansBlock : AllSame (b.events.bans.map (·.block))
  unbansBlock : AllSame (b.events.unbans.map (·.block))
  subs : List.Forall₂ (fun (ev : SubEvent) v => ev.sender.length = 42 ∧
    ∀ x : BVal, v = some x → x.index = ev.validatorId) b.events.subs b.valsSubs
  unsubs : List.Forall₂ (fun (ev : UnsubEvent) v => ev.sender.length = 42 ∧
    ∀ x : BVal, v = some x → x.index = ev.validatorId) b.events.unsubs b.valsUnsubs

/-- The pool's configuration changes only as agreed: at most one event of each kind, the fee only by
the schedule, everything else to its present value. -/
structure ConfigOK (cfg : Config) (slot : Nat) (evs : Events) : Prop where
  fee : evs.poolFee = [] ∨ ∃ f, evs.poolFee = [f] ∧ FeeChange cfg.network slot f
  recipient : evs.feeRecipient = [] ∨ ∃ a, evs.feeRecipient = [a] ∧ SameAddr cfg.poolFeesAddr a
  cpSize : evs.cpSize = [] ∨ evs.cpSize = [cfg.cpSize]
  collateral : evs.collateral = [] ∨ evs.collateral = [cfg.collateral]

/-- If a builder's payment reaches the pool, the pool contract reported receiving that amount. -/
def PaymentReported (b : FullBlock) (pool : Str) : Prop :=
  (∀ tx dest, BuilderPays b tx dest → SameAddr dest pool → ∃ e ∈ b.events.ether, e.amount = tx.value) ∧
  (ExceptionBlock b → SameAddr b!"0xadfb8d27671f14f297ee94135e266aaff8752e35" pool →
    ∃ e ∈ b.events.ether, e.amount = 177043568463114308)

/-- The payments reported by the pool contract are in one block. For mainnet slot 10400574, where one
payment is added by hand, this concerns the others. -/
def DonationsOneBlock (b : FullBlock) (pool : Str) : Prop :=
  AllSame (b.events.ether.map (·.block)) ∨
    (ExceptionBlock b ∧ SameAddr b!"0xadfb8d27671f14f297ee94135e266aaff8752e35" pool ∧
      AllSame ((b.events.ether.filter fun e => e.amount ≠ 177043568463114308).map (·.block)))

/-- Pending consolidations can be fetched, and their targets have a withdrawal address (the chain only
accepts such targets). -/
def GoodConsol (E : Env) : Prop :=
  ∀ t slot, ∃ cs, E.consol t slot = some cs ∧ ∀ p ∈ cs, ∀ t' slot' req r v,
    E.node t' slot' req = some r → v ∈ r → v.index = p.2 → ∃ w, HasAddress v.creds w

/-! ### An honest chain -/

/-- The events of an execution block with number `n` that the clients report. -/
structure GoodEvents (cfg : Config) (slot n : Nat) (evs : Events) : Prop where
  ether : ∀ e ∈ evs.ether, e.block = n ∧ e.addr.length = 42 ∧ 0 ≤ e.amount
  subs : ∀ e ∈ evs.subs, e.block = n ∧ e.sender.length = 42 ∧ 0 ≤ e.collateral
  unsubs : ∀ e ∈ evs.unsubs, e.block = n ∧ e.sender.length = 42
  bans : ∀ e ∈ evs.bans, e.block = n
  unbans : ∀ e ∈ evs.unbans, e.block = n
  config : ConfigOK cfg slot evs

/-- The block proposed in a slot, its header, receipts and events. -/
structure GoodBlock (C : Chain) (cfg : Config) (slot index : Nat) (c : ConsBlock) : Prop where
  atSlot : c.slot = slot
  proposer : c.proposer = index
  fork : c.fork ≠ .phase0 ∧ c.fork ≠ .altair
  txs : ∀ x ∈ c.txs, ∃ tx, x = some tx ∧ tx.type ≤ 4
  sender : ∀ tx, c.txs.getLast? = some (some tx) → ∃ a, tx.sender = some a ∧ a.length = 42
  dest : ∀ tx d, c.txs.getLast? = some (some tx) → tx.to = some d → d.length = 42
  feeRecipient : c.feeRecipient.length = 42
  receipts : ∀ tx, some tx ∈ c.txs →
    ∃ r, C.receipt tx.hash = some r ∧ r.txHash = tx.hash ∧ r.block = c.number
  header : ∃ h, C.header c.number = some h ∧ h.number = c.number ∧
    ∀ rs, List.Forall₂ (fun x r => ∃ tx : Tx, x = some tx ∧ C.receipt tx.hash = some r) c.txs rs →
      ValidGas c h rs
  events : ∃ evs, C.events c.number = some evs ∧ GoodEvents cfg slot c.number evs ∧
    -- a payment of the fee recipient or of a known builder to the pool is reported by the pool
    ∀ tx sender d, c.txs.getLast? = some (some tx) → tx.sender = some sender → tx.to = some d →
      SameAddr c.feeRecipient sender ∨ KnownBuilder C.chainId sender → SameAddr d C.pool →
      ∃ e ∈ evs.ether, e.amount = tx.value
  -- the payment added by hand belongs to this pool
  exception : C.chainId = 1 → slot = 10400574 →
    SameAddr b!"0xadfb8d27671f14f297ee94135e266aaff8752e35" C.pool ∧
    ∃ tx, c.txs.getLast? = some (some tx) ∧ tx.to ≠ none

/-- The clients answer, and their answers describe a chain that follows the rules. -/
structure HonestChain (C : Chain) (cfg : Config) : Prop where
  pool : C.pool = cfg.poolAddr ∧ cfg.poolAddr.length = 42
  chain : C.chainId = 1 ∨ C.chainId = 17000 ∨ C.chainId = 560048
  validators : ∀ i slot, C.validators i slot = some [] ∨
    ∃ v, C.validators i slot = some [(i, v)] ∧ v.index = i ∧ v.creds.length = 32
  slots : ∀ slot, ∃ i key v, C.duty slot = some (slot, i, key) ∧ C.validators i slot = some [(i, v)] ∧
    (C.cons slot = some none ∨ ∃ c, C.cons slot = some (some c) ∧ GoodBlock C cfg slot i c)

end Verif
