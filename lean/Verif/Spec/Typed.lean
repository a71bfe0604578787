import Verif.Spec.Env
import Verif.Spec.Persist
import Verif.Model.Fetch
/-
Data that fits the Go types it is kept in: what the nodes answer, a block, the configuration.
-/
namespace Verif

/-- Bytes. -/
def Bytes (l : List Nat) : Prop := ∀ x ∈ l, x < 256

/-- What the beacon node says about a validator fits its Go types. -/
def BValTyped (v : BVal) : Prop := Bytes v.creds ∧ Bytes v.pubkey

/-- The answers of the beacon node fit their Go types. -/
structure EnvTyped (E : Env) : Prop where
  node : ∀ t slot req r, E.node t slot req = some r → ∀ v ∈ r, BValTyped v
  consol : ∀ t slot cs, E.consol t slot = some cs → ∀ p ∈ cs, U64 p.2

/-- The events fit their Go types; addresses are text. -/
structure EventsTyped (e : Events) : Prop where
  subs : ∀ x ∈ e.subs, U64 x.validatorId ∧ U64 x.block ∧ Ascii x.sender
  unsubs : ∀ x ∈ e.unsubs, U64 x.validatorId ∧ U64 x.block ∧ Ascii x.sender
  ether : ∀ x ∈ e.ether, U64 x.block ∧ Ascii x.addr

/-- The data of a block fits its Go types. -/
structure BlockTyped (b : FullBlock) : Prop where
  index : U64 b.dutyIndex
  key : Ascii b.dutyKey
  creds : Bytes b.validator.creds
  number : ∀ c, b.cons = some c → U64 c.number
  events : EventsTyped b.events
  valsSubs : ∀ v, some v ∈ b.valsSubs → BValTyped v

/-- What the clients answer fits its Go types. -/
structure ChainTyped (T : Chain) : Prop where
  duty : ∀ slot d i key, T.duty slot = some (d, i, key) → U64 i ∧ Ascii key
  validators : ∀ i slot l, T.validators i slot = some l → ∀ p ∈ l, BValTyped p.2
  cons : ∀ slot c, T.cons slot = some (some c) → U64 c.number
  events : ∀ n e, U64 n → T.events n = some e → EventsTyped e

/-- The configuration fits its Go types. -/
structure CfgTyped (cfg : Config) : Prop where
  fee : -2 ^ 63 ≤ cfg.fee ∧ cfg.fee < 2 ^ 63
  poolAddr : Ascii cfg.poolAddr
  network : Ascii cfg.network
  poolFeesAddr : Ascii cfg.poolFeesAddr
  cpSize : U64 cfg.cpSize
  depBlock : U64 cfg.depBlock
  depSlot : U64 cfg.depSlot

end Verif
