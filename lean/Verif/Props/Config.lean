import Verif.Props.Startup
import Verif.Props.Determinism
import Verif.Model.Fetch
/-
C62 to C65: the configuration an oracle starts with.
-/
namespace Verif

/-! ### What start-up returns -/

theorem orFatal_ok {α : Type} {x : Option α} {a : α} : orFatal x = .ok a ↔ x = some a := by
  cases x <;> simp [orFatal]

theorem networkOf_iff {c : Nat} {n : Str} : networkOf c = some n ↔ Supported c n := by
  unfold networkOf mainnetChainId goerliChainId holeskyChainId hoodiChainId
  constructor
  · intro h
    split at h
    · rename_i hc; subst hc; simp only [Option.some.injEq] at h; subst h; exact .mainnet
    split at h
    · rename_i hc; subst hc; simp only [Option.some.injEq] at h; subst h; exact .goerli
    split at h
    · rename_i hc; subst hc; simp only [Option.some.injEq] at h; subst h; exact .holesky
    split at h
    · rename_i hc; subst hc; simp only [Option.some.injEq] at h; subst h; exact .hoodi
    · cases h
  · intro h
    cases h <;> rfl

/-- Everything that holds when the configuration could be read. -/
structure Configured (W : StartWorld) (cli : CliConfig) (cfg : Config) (e c g n : Nat) (b : ExecBlock)
    (cb : ConsBlock) : Prop where
  exec : W.execChain = some e
  cons : W.consChain = some c
  chain : c = u64 e
  net : Supported c cfg.network
  genesis : W.genesis = some g
  depBlock : W.depBlock = some n
  block : W.block n = some b
  slot : cfg.depSlot = sub64 b.time g / 12
  consBlock : W.cons cfg.depSlot = some (some cb)
  fork : cb.fork ≠ .phase0 ∧ cb.fork ≠ .altair
  number : cb.number = u64 n
  depBlock' : cfg.depBlock = u64 n
  fee : decodeInitialPoolFee initializeSelector cli.pool b.txs = some cfg.fee ∨
    (decodeInitialPoolFee initializeSelector cli.pool b.txs = none ∧ defaultFee cfg.network = some cfg.fee)
  cpSize : W.cpSize = some cfg.cpSize
  feeAddr : W.feeAddr = some cfg.poolFeesAddr
  collateral : W.collateral = some cfg.collateral
  pool : cfg.poolAddr = cli.pool
  dryRun : cfg.dryRun = cli.dryRun

theorem configured {W : StartWorld} {cli : CliConfig} {cfg : Config} (h : configFromContract W cli = .ok cfg) :
    ∃ e c g n b cb, Configured W cli cfg e c g n b cb := by
  unfold configFromContract at h
  obtain ⟨e, he, h⟩ := bind_ok.mp h
  obtain ⟨c, hc, h⟩ := bind_ok.mp h
  split at h
  · cases h
  rename_i hchain
  obtain ⟨net, hnet, h⟩ := bind_ok.mp h
  obtain ⟨g, hg, h⟩ := bind_ok.mp h
  obtain ⟨bal, _, h⟩ := bind_ok.mp h
  obtain ⟨n, hn, h⟩ := bind_ok.mp h
  obtain ⟨b, hb, h⟩ := bind_ok.mp h
  obtain ⟨co, hco, h⟩ := bind_ok.mp h
  cases co with
  | none => cases h
  | some cb =>
    dsimp only at h
    obtain ⟨num, hnum, h⟩ := bind_ok.mp h
    split at h
    · cases h
    rename_i hnumber
    obtain ⟨fee, hfee, h⟩ := bind_ok.mp h
    obtain ⟨cps, hcps, h⟩ := bind_ok.mp h
    obtain ⟨fa, hfa, h⟩ := bind_ok.mp h
    obtain ⟨col, hcol, h⟩ := bind_ok.mp h
    split at h
    · cases h
    simp only [Except.ok.injEq] at h
    subst h
    have hfork : cb.fork ≠ .phase0 ∧ cb.fork ≠ .altair := by
      unfold ConsBlock.exec at hnum
      constructor <;> intro hx <;> rw [hx] at hnum <;> cases hnum
    have hnum' := exec_ok hnum
    refine ⟨e, c, g, n, b, cb, orFatal_ok.mp he, orFatal_ok.mp hc, by push Not at hchain; exact hchain,
      networkOf_iff.mp (orFatal_ok.mp hnet), orFatal_ok.mp hg, orFatal_ok.mp hn, orFatal_ok.mp hb, rfl,
      orFatal_ok.mp hco, hfork, ?_, rfl, ?_, orFatal_ok.mp hcps, orFatal_ok.mp hfa, orFatal_ok.mp hcol, rfl, rfl⟩
    · push Not at hnumber; rw [hnum', hnumber]
    · dsimp only
      split at hfee
      · rename_i f hf
        simp only [Except.ok.injEq] at hfee
        exact Or.inl (by rw [hf, hfee])
      · rename_i hf
        exact Or.inr ⟨hf, orFatal_ok.mp hfee⟩

/-! ### C62 The starting fee -/

/-- **C62** (partial, as `C62_initial_fee_partial`): the configuration the oracle starts with has the fee the
pool was initialised with. -/
theorem C62_config_partial {W : StartWorld} {cli : CliConfig} {cfg : Config}
    (h : configFromContract W cli = .ok cfg) {pb : List Nat} (hp : NamesAddress cli.pool pb) {a : InitCall}
    {n t : Nat} {pre post : List RawTx} {tx : RawTx} (hn : W.depBlock = some n)
    (hblock : W.block n = some ⟨t, pre ++ tx :: post⟩) (hb : ∀ t ∈ pre ++ [tx], t.Bytes)
    (hd : ∀ t ∈ pre, ¬ Decoy pb t) (hi : Initialises pb a tx) (hfee : a.fee < 2 ^ 63) : cfg.fee = a.fee := by
  obtain ⟨e, c, g, n', b, cb, k⟩ := configured h
  have e1 : n' = n := by have := k.depBlock; rw [hn] at this; exact (Option.some.inj this).symm
  subst e1
  have e2 := k.block
  rw [hblock] at e2
  have e3 := C62_initial_fee_partial hp hb hd hi hfee (post := post)
  have e4 : b.txs = pre ++ tx :: post := by rw [← Option.some.inj e2]
  rcases k.fee with k1 | ⟨k1, _⟩
  · rw [e4, e3] at k1; exact (Option.some.inj k1).symm
  · rw [e4, e3] at k1; cases k1

/-- **C62**: if no transaction of the deployment block looks like an initialisation, the oracle starts with
7 % on mainnet and 10 % on Hoodi, and does not start at all elsewhere. -/
theorem C62_default {W : StartWorld} {cli : CliConfig} {cfg : Config}
    (h : configFromContract W cli = .ok cfg) {pb : List Nat} (hp : NamesAddress cli.pool pb) {n : Nat}
    {b : ExecBlock} (hn : W.depBlock = some n) (hblock : W.block n = some b) (hb : ∀ t ∈ b.txs, t.Bytes)
    (hd : ∀ t ∈ b.txs, ¬ Decoy pb t) :
    (W.consChain = some 1 ∧ cfg.fee = 700) ∨ (W.consChain = some 560048 ∧ cfg.fee = 1000) := by
  obtain ⟨e, c, g, n', b', cb, k⟩ := configured h
  have e1 : n' = n := by have := k.depBlock; rw [hn] at this; exact (Option.some.inj this).symm
  subst e1
  have e2 : b' = b := by have := k.block; rw [hblock] at this; exact (Option.some.inj this).symm
  subst e2
  have e3 := decode_skip (rest := []) hp hb hd
  rw [List.append_nil] at e3
  rcases k.fee with k1 | ⟨_, k1⟩
  · rw [e3] at k1; cases k1
  · have hnet := k.net
    have hcons := k.cons
    generalize cfg.network = net at *
    cases hnet
    · left; exact ⟨hcons, (Option.some.inj k1).symm⟩
    · cases k1
    · cases k1
    · right; exact ⟨hcons, (Option.some.inj k1).symm⟩

/-- the deployment block with one more transaction in front -/
def frontRun (W : StartWorld) (n : Nat) (tx : RawTx) : StartWorld :=
  { W with block := fun m => if m = n then (W.block n).map fun b => { b with txs := tx :: b.txs } else W.block m }

/-- **C62 is false** for the whole configuration: anybody who gets one contract creation to the front of the
deployment block chooses the fee with which every oracle starts; nothing else changes. -/
theorem C62_false_front_run {W : StartWorld} {cli : CliConfig} {cfg : Config}
    (h : configFromContract W cli = .ok cfg) {pb : List Nat} (hp : NamesAddress cli.pool pb) {n : Nat}
    (hn : W.depBlock = some n) (fee : Nat) (hf : fee < 2 ^ 63) :
    ∃ tx : RawTx, tx.to = none ∧ configFromContract (frontRun W n tx) cli = .ok { cfg with fee := fee } := by
  obtain ⟨tx, h1, _, h3⟩ := C62_false_spoofed hp fee hf
  refine ⟨tx, h1, ?_⟩
  unfold configFromContract at h ⊢
  obtain ⟨e, he, h⟩ := bind_ok.mp h
  obtain ⟨c, hc, h⟩ := bind_ok.mp h
  split at h
  · cases h
  rename_i hchain
  obtain ⟨net, hnet, h⟩ := bind_ok.mp h
  obtain ⟨g, hg, h⟩ := bind_ok.mp h
  obtain ⟨bal, hbal, h⟩ := bind_ok.mp h
  obtain ⟨n', hn', h⟩ := bind_ok.mp h
  have : n' = n := by rw [orFatal_ok, hn] at hn'; exact (Option.some.inj hn').symm
  subst this
  obtain ⟨b, hb, h⟩ := bind_ok.mp h
  obtain ⟨co, hco, h⟩ := bind_ok.mp h
  refine bind_ok.mpr ⟨e, he, bind_ok.mpr ⟨c, hc, ?_⟩⟩
  rw [if_neg hchain]
  refine bind_ok.mpr ⟨net, hnet, bind_ok.mpr ⟨g, hg, bind_ok.mpr ⟨bal, hbal, bind_ok.mpr ⟨n', hn',
    bind_ok.mpr ⟨{ b with txs := tx :: b.txs }, ?_, bind_ok.mpr ⟨co, hco, ?_⟩⟩⟩⟩⟩⟩
  · rw [orFatal_ok] at hb ⊢
    simp [frontRun, hb]
  cases co with
  | none => cases h
  | some cb =>
    dsimp only at h ⊢
    obtain ⟨num, hnum, h⟩ := bind_ok.mp h
    refine bind_ok.mpr ⟨num, hnum, ?_⟩
    split at h
    · cases h
    rename_i hnumber
    rw [if_neg hnumber]
    obtain ⟨f0, hfee, h⟩ := bind_ok.mp h
    obtain ⟨cps, hcps, h⟩ := bind_ok.mp h
    obtain ⟨fa, hfa, h⟩ := bind_ok.mp h
    obtain ⟨col, hcol, h⟩ := bind_ok.mp h
    have := h3 [] b.txs (by simp) (by simp)
    rw [List.nil_append] at this
    refine bind_ok.mpr ⟨(fee : Int), by rw [this], bind_ok.mpr ⟨cps, hcps, bind_ok.mpr ⟨fa, hfa,
      bind_ok.mpr ⟨col, hcol, ?_⟩⟩⟩⟩
    split at h
    · cases h
    rename_i hm
    have hm' : ¬ ((!(frontRun W n' tx).members) = true) := hm
    rw [if_neg hm']
    simp only [Except.ok.injEq] at h ⊢
    subst h
    rfl

/-! ### C63 The deployment slot -/

/-- **C63**: the slot at which processing starts carries the block in which the contract was deployed. -/
theorem C63_deployed_slot {W : StartWorld} {cli : CliConfig} {cfg : Config} {n : Nat}
    (h : configFromContract W cli = .ok cfg) (hn : W.depBlock = some n) (hlt : n < 2 ^ 64) :
    cfg.depBlock = n ∧ ∃ c, W.cons cfg.depSlot = some (some c) ∧ c.number = n ∧
      ∀ s, (∀ s' c', W.cons s' = some (some c') → c'.number = n → s' = s) → cfg.depSlot = s := by
  obtain ⟨e, c, g, n', b, cb, k⟩ := configured h
  have e1 : n' = n := by have := k.depBlock; rw [hn] at this; exact (Option.some.inj this).symm
  subst e1
  have e2 : u64 n' = n' := Nat.mod_eq_of_lt (lt_of_lt_of_eq hlt (by norm_num))
  have e3 := k.number
  rw [e2] at e3
  exact ⟨by rw [k.depBlock', e2], cb, k.consBlock, e3, fun s hs => hs _ _ k.consBlock e3⟩

/-- **C63**, start-up succeeds: if the contract was deployed in slot `s`, blocks carry the time of their slot,
both nodes are on one supported chain and answer, and the fee can be had, then the oracle starts at `s`, with
the contract's parameters. -/
theorem C63_starts {W : StartWorld} {cli : CliConfig} {chain g n s : Nat} {net fa : Str} {b : ExecBlock}
    {c : ConsBlock} {cps : Nat} {col fee bal : Int} (hnet : Supported chain net)
    (he : W.execChain = some chain) (hc : W.consChain = some chain) (hg : W.genesis = some g)
    (hbal : W.balance = some bal) (hn : W.depBlock = some n) (hlt : n < 2 ^ 64) (hb : W.block n = some b)
    (ht : b.time = g + 12 * s) (hw : b.time < 2 ^ 64) (hs : W.cons s = some (some c))
    (hf : c.fork ≠ .phase0 ∧ c.fork ≠ .altair) (hnum : c.number = n)
    (hfee : decodeInitialPoolFee initializeSelector cli.pool b.txs = some fee) (hcps : W.cpSize = some cps)
    (hfa : W.feeAddr = some fa) (hcol : W.collateral = some col) (hm : W.members = true) :
    configFromContract W cli = .ok
      { network := net, poolAddr := cli.pool, depSlot := s, depBlock := n, cpSize := cps, fee := fee,
        poolFeesAddr := fa, dryRun := cli.dryRun, collateral := col } := by
  have e1 : u64 n = n := Nat.mod_eq_of_lt (lt_of_lt_of_eq hlt (by norm_num))
  have e2 : u64 chain = chain := by cases hnet <;> rfl
  have e3 : sub64 b.time g / 12 = s := by
    unfold sub64 u64
    norm_num at hw
    rw [ht] at hw ⊢
    omega
  have e4 : c.exec (·.number) = .ok n := by
    unfold ConsBlock.exec
    cases hfk : c.fork <;> simp_all
  unfold configFromContract
  rw [he, hc]
  simp only [orFatal, bind, Except.bind, e2, ne_eq, not_true_eq_false, if_false, networkOf_iff.mpr hnet, hg, hbal,
    hn, hb, e3, hs, e4, e1, hfee, hcps, hfa, hcol, hm, Bool.not_true, Bool.false_eq_true]

/-- **C63**: the function that the tools use to find the slot of a block agrees with start-up. -/
theorem C63_slot_by_block {W : StartWorld} {cli : CliConfig} {cfg : Config} {n g : Nat}
    (h : configFromContract W cli = .ok cfg) (hn : W.depBlock = some n) (hg : W.genesis = some g)
    (hh : ∀ s c, W.cons s = some (some c) → c.slot = s) : slotByBlock W n g = .ok (some cfg.depSlot) := by
  obtain ⟨e, c, g', n', b, cb, k⟩ := configured h
  have e1 : n' = n := by have := k.depBlock; rw [hn] at this; exact (Option.some.inj this).symm
  have e2 : g' = g := by have := k.genesis; rw [hg] at this; exact (Option.some.inj this).symm
  subst e1 e2
  unfold slotByBlock
  rw [k.block]
  dsimp only
  rw [← k.slot, k.consBlock]
  dsimp only
  have hf := k.fork
  have e4 : cb.exec (·.number) = .ok cb.number := by
    unfold ConsBlock.exec
    cases hfk : cb.fork <;> simp_all
  have e5 : cb.base (·.slot) = .ok cb.slot := by
    unfold ConsBlock.base
    cases hfk : cb.fork <;> simp_all
  rw [e4, e5]
  simp only [bind, Except.bind, k.number, ne_eq, not_true_eq_false, if_false, hh _ _ k.consBlock]

/-- **C63**: the slot found for a block is the slot of a beacon block that carries the execution block of this
number, at the place that the time of the block gives. -/
theorem C63_slot_found {W : StartWorld} {n g s : Nat} (h : slotByBlock W n g = .ok (some s))
    (ht : ∀ b, W.block n = some b → g ≤ b.time ∧ b.time < 2 ^ 64) :
    ∃ b c, W.block n = some b ∧ W.cons ((b.time - g) / 12) = some (some c) ∧
      c.number = n % 2 ^ 64 ∧ c.slot = s := by
  unfold slotByBlock at h
  split at h; · cases h
  rename_i b hb
  split at h
  · cases h
  · cases h
  · rename_i c hc
    obtain ⟨k, hk, h⟩ := bind_ok.mp h
    split at h; · cases h
    rename_i hne
    obtain ⟨x, hx, h⟩ := bind_ok.mp h
    cases h
    obtain ⟨t1, t2⟩ := ht b hb
    have ht : sub64 b.time g = b.time - g := by unfold sub64 u64; omega
    refine ⟨b, c, hb, by rw [← ht]; exact hc, ?_, base_ok hx⟩
    rw [exec_ok hk]; exact not_not.mp hne

/-! ### C64 A late joiner starts like everybody else -/

/-- **C64** (partial: the contract's parameters must be the same at both times). Two oracles that start at
different times, as long as the contract's checkpoint size, fee recipient and collateral have not changed in
between, start with the same configuration and, after processing the same blocks, are in the same state. -/
theorem C64_late_joiner_partial {E E' : Env} {V : Nat → Nat → BVal} {K : Nat → List (Nat × Nat)}
    (hE : ValidEnv E) (hX : ExactEnv E) (hR : ReadsChain V K E)
    (hE' : ValidEnv E') (hX' : ExactEnv E') (hR' : ReadsChain V K E')
    (hA : ∀ n, n % 1200 = 0 → ActiveTargets V K n)
    {W W' : StartWorld} {cli cli' : CliConfig} (hpool : cli.pool = cli'.pool) (hdry : cli.dryRun = cli'.dryRun)
    (hpast : SamePast W W') (hpar : SameParameters W W') {cfg cfg' : Config}
    (h : configFromContract W cli = .ok cfg) (h' : configFromContract W' cli' = .ok cfg')
    {bs : List FullBlock} {o o' : Oracle} (hh : Hist E (newOracle cfg) bs o) (hh' : Hist E' (newOracle cfg') bs o') :
    cfg = cfg' ∧ SameState o o' := by
  have hcfg : cfg = cfg' := by
    obtain ⟨e, c, g, n, b, cb, k⟩ := configured h
    obtain ⟨e', c', g', n', b', cb', k'⟩ := configured h'
    obtain ⟨p1, p2, p3, p4, p5, p6⟩ := hpast
    obtain ⟨q1, q2, q3⟩ := hpar
    have e1 : c = c' := by have a := k.cons; have b := k'.cons; rw [p2, b] at a; exact (Option.some.inj a).symm
    have e2 : g = g' := by have a := k.genesis; have b := k'.genesis; rw [p3, b] at a; exact (Option.some.inj a).symm
    have e3 : n = n' := by have a := k.depBlock; have b := k'.depBlock; rw [p4, b] at a; exact (Option.some.inj a).symm
    subst e1 e2 e3
    have e4 : b = b' := by have a := k.block; have b := k'.block; rw [p5, b] at a; exact (Option.some.inj a).symm
    subst e4
    have n1 : cfg.network = cfg'.network := by
      have a := k.net
      have b := k'.net
      generalize cfg.network = x at a
      generalize cfg'.network = y at b
      cases a <;> cases b <;> rfl
    have n2 : cfg.fee = cfg'.fee := by
      have a := k.fee
      have b := k'.fee
      rw [hpool] at a
      rw [n1] at a
      rcases a with a | ⟨a, a2⟩ <;> rcases b with b | ⟨b, b2⟩
      · rw [a] at b; exact Option.some.inj b
      · rw [a] at b; cases b
      · rw [a] at b; cases b
      · rw [a2] at b2; exact Option.some.inj b2
    have n3 : cfg.cpSize = cfg'.cpSize := by have a := k.cpSize; have b := k'.cpSize; rw [q1, b] at a; exact (Option.some.inj a).symm
    have n4 : cfg.poolFeesAddr = cfg'.poolFeesAddr := by
      have a := k.feeAddr; have b := k'.feeAddr; rw [q2, b] at a; exact (Option.some.inj a).symm
    have n5 : cfg.collateral = cfg'.collateral := by
      have a := k.collateral; have b := k'.collateral; rw [q3, b] at a; exact (Option.some.inj a).symm
    have n6 : cfg.depSlot = cfg'.depSlot := by rw [k.slot, k'.slot]
    have n7 : cfg.depBlock = cfg'.depBlock := by rw [k.depBlock', k'.depBlock']
    have n8 : cfg.poolAddr = cfg'.poolAddr := by rw [k.pool, k'.pool, hpool]
    have n9 : cfg.dryRun = cfg'.dryRun := by rw [k.dryRun, k'.dryRun, hdry]
    cases cfg; cases cfg'
    simp_all
  subst hcfg
  exact ⟨rfl, C09_history_partial hE hX hR hE' hX' hR' (fun n hn => (hA n hn).tracked _) (by simp [MapOK, newOracle]) ⟨rfl, rfl⟩ hh hh'⟩

namespace Sample

/-- the call with which the sample pool was initialised: fee 7 % -/
def initCall : InitCall := ⟨17, 1000, 700, 18, 100, 3⟩

/-- the pool's address -/
def poolBytes : List Nat := hexToAddress pool

theorem initCall_typed : initCall.Typed := by constructor <;> decide

/-- a transfer, then the creation of the proxy: code, then the encoded call, then padding -/
def deployTxs : List RawTx :=
  [⟨some (List.replicate 20 9), [1, 2, 3, 4, 5]⟩, ⟨none, [0x60, 0x80, 0x15, 0x1e] ++ initCall.encode ++ [0, 0]⟩]

/-- what start-up sees when the contract asks for the collateral `coll` -/
def world (coll : Int) : StartWorld :=
  { execChain := some 1, consChain := some 1, genesis := some 1606824023, balance := some 5,
    depBlock := some 20,
    block := fun n => if n = 20 then some ⟨1606824023 + 12 * 12000000, deployTxs⟩ else none
    cons := fun s => if s = 12000000 then some (some
      { fork := .electra, slot := 12000000, proposer := 1, number := 20, feeRecipient := builder, txs := [],
        gasUsed := 0, baseFee := .u256 10 }) else some none
    cpSize := some 100, feeAddr := some feeAddr, collateral := some coll, members := true }

def cli : CliConfig :=
  { dryRun := true, keyFile := [], keyPass := [], pool := pool, relayers := [b!"https://relay"] }

/-- start-up gives the configuration used in all samples -/
theorem world_cfg : configFromContract (world 1000) cli = .ok { cfg with dryRun := true } := by decide +kernel

theorem pool_names : NamesAddress pool poolBytes := by
  refine ⟨by decide, pool.drop 2, Or.inr (Or.inl rfl), ?_⟩
  have h : lower (pool.drop 2) = hexEncode poolBytes := by decide
  rw [h]
  exact hexText_encode (by decide)

/-- validator 2 subscribes with 1500 while 1000 is asked -/
def subscribe1500 : FullBlock :=
  { prop 12000000 1 builder (tx builder (addr 77) 900) { subs := [⟨2, 1500, addr 2, 100⟩] } with
    valsSubs := [some (bval 2)] }

end Sample

/-- C62: the hypotheses of `C62_config_partial` hold for the sample deployment, a proxy creation behind a
transfer, and so do those of `C63_deployed_slot`. -/
example : ∃ pre tx, Sample.deployTxs = pre ++ tx :: [] ∧ (∀ t ∈ pre ++ [tx], t.Bytes) ∧
    (∀ t ∈ pre, ¬ Decoy Sample.poolBytes t) ∧ Initialises Sample.poolBytes Sample.initCall tx ∧
    Sample.initCall.fee < 2 ^ 63 := by
  refine ⟨[⟨some (List.replicate 20 9), [1, 2, 3, 4, 5]⟩], _, rfl, ?_, ?_, ?_, by decide⟩
  · unfold RawTx.Bytes; decide +kernel
  · intro t ht
    rw [List.mem_singleton] at ht
    subst ht
    rintro (⟨h, _⟩ | ⟨h, _⟩)
    · revert h; decide
    · cases h
  · refine Or.inr ⟨rfl, 4, ⟨Sample.initCall_typed, _, _, rfl, rfl⟩, ?_⟩
    intro m hm a' ha'
    obtain ⟨_, pre, tail, hp, he⟩ := ha'
    have h4 : (([0x60, 0x80, 0x15, 0x1e] ++ Sample.initCall.encode ++ [0, 0]).drop m).take 4 =
        ((pre ++ a'.encode ++ tail).drop m).take 4 := by rw [← he]
    have h5 : ((pre ++ a'.encode ++ tail).drop m).take 4 = [0x15, 0x1e, 0x4d, 0x3d] := by
      rw [List.append_assoc, ← hp, List.drop_left]
      simp [InitCall.encode]
    have h6 := h4
    rw [h5] at h6
    clear h4 h5 he hp
    have : m = 0 ∨ m = 1 ∨ m = 2 ∨ m = 3 := by omega
    rcases this with rfl | rfl | rfl | rfl <;> revert h6 <;> decide

/-- C62: for the sample pool a front-runner sets the fee to 100 %. -/
example : ∃ tx : RawTx, tx.to = none ∧
    configFromContract (frontRun (Sample.world 1000) 20 tx) Sample.cli =
      .ok { { Sample.cfg with dryRun := true } with fee := 10000 } :=
  C62_false_front_run Sample.world_cfg Sample.pool_names rfl 10000 (by norm_num)

/-- C63: the sample pool was deployed in block 20, which is the block of slot 12000000. -/
example : Sample.cfg.depSlot = 12000000 ∧ ∃ c, (Sample.world 1000).cons 12000000 = some (some c) ∧ c.number = 20 ∧
    slotByBlock (Sample.world 1000) 20 1606824023 = .ok (some 12000000) := by
  obtain ⟨_, c, h1, h2, _⟩ := C63_deployed_slot Sample.world_cfg rfl (by norm_num : (20 : Nat) < 2 ^ 64)
  exact ⟨rfl, c, h1, h2, by decide +kernel⟩

/-- C64: two starts at different times, with another balance of the pool in between, satisfy the hypotheses,
together with the sample history. -/
example : SamePast (Sample.world 1000) { Sample.world 1000 with balance := some 99 } ∧
    SameParameters (Sample.world 1000) { Sample.world 1000 with balance := some 99 } ∧
    configFromContract { Sample.world 1000 with balance := some 99 } Sample.cli =
      .ok { Sample.cfg with dryRun := true } ∧
    ∃ o, Hist Sample.env (newOracle { Sample.cfg with dryRun := true }) Sample.blocks o := by
  refine ⟨⟨rfl, rfl, rfl, rfl, rfl, rfl⟩, ⟨rfl, rfl, rfl⟩, by decide +kernel, ?_⟩
  obtain ⟨o, h, _⟩ := Sample.ex_hist (E := Sample.env) (o := newOracle { Sample.cfg with dryRun := true })
    (bs := Sample.blocks) (P := fun _ => true) (by decide +kernel)
  exact ⟨o, h⟩

/-- **C64 is false** when a parameter of the contract has changed: an oracle that starts after the collateral
was raised from 1000 to 2000 applies the new value to the whole past. The other oracles accepted a
subscription that it rejects, so their states differ after the same block. -/
theorem C64_false_collateral_raised : ∃ W W' : StartWorld, ∃ cfg cfg' o o', SamePast W W' ∧
    configFromContract W Sample.cli = .ok cfg ∧ configFromContract W' Sample.cli = .ok cfg' ∧
    Hist Sample.env (newOracle cfg) [Sample.subscribe1500] o ∧
    Hist Sample.env (newOracle cfg') [Sample.subscribe1500] o' ∧
    (VMap.get o.st.vals 2).map (·.status) = some .active ∧ VMap.get o'.st.vals 2 = none ∧
    o.st.poolFees ≠ o'.st.poolFees := by
  obtain ⟨o, h1, h2⟩ := Sample.ex_hist (E := Sample.env) (o := newOracle { Sample.cfg with dryRun := true })
    (bs := [Sample.subscribe1500])
    (P := fun o => decide ((VMap.get o.st.vals 2).map (·.status) = some .active) && decide (o.st.poolFees = 0))
    (by decide +kernel)
  obtain ⟨o', h3, h4⟩ := Sample.ex_hist (E := Sample.env)
    (o := newOracle { Sample.cfg with dryRun := true, collateral := 2000 }) (bs := [Sample.subscribe1500])
    (P := fun o => decide (VMap.get o.st.vals 2 = none) && decide (o.st.poolFees = 1500)) (by decide +kernel)
  simp only [Bool.and_eq_true, decide_eq_true_eq] at h2 h4
  refine ⟨Sample.world 1000, Sample.world 2000, _, _, o, o', ⟨rfl, rfl, rfl, rfl, rfl, rfl⟩, Sample.world_cfg,
    (by decide +kernel : configFromContract (Sample.world 2000) Sample.cli =
      .ok { Sample.cfg with dryRun := true, collateral := 2000 }), h1, h3, h2.1, h4.1, ?_⟩
  rw [h2.2, h4.2]; decide

/-! ### C65 Only a sane set-up is started -/

theorem splitComma_ne (s : Str) : splitComma s ≠ [] := by
  cases s with
  | nil => simp [splitComma]
  | cons c cs =>
    unfold splitComma
    split
    · simp
    · split <;> simp

theorem splitComma_pieces (s : Str) : Pieces s (splitComma s) := by
  induction s with
  | nil => exact ⟨by simp [splitComma], by simp [splitComma], by simp [splitComma, List.intercalate]⟩
  | cons c cs ih =>
    obtain ⟨h1, h2, h3⟩ := ih
    refine ⟨splitComma_ne _, ?_, ?_⟩
    · unfold splitComma
      split
      · intro p hp
        rcases List.mem_cons.mp hp with rfl | hp
        · simp
        · exact h2 p hp
      · rename_i hc
        split
        · rename_i hs; exact absurd hs h1
        · rename_i p ps hs
          rw [hs] at h2
          intro q hq
          rcases List.mem_cons.mp hq with rfl | hq
          · have := h2 p (by simp)
            simp only [List.mem_cons, not_or]
            exact ⟨fun e => hc e.symm, this⟩
          · exact h2 q (by simp [hq])
    · unfold splitComma
      split
      · rename_i hc
        subst hc
        cases hs : splitComma cs with
        | nil => exact absurd hs h1
        | cons p ps =>
          rw [hs] at h3
          rw [← h3]
          simp [List.intercalate]
      · split
        · rename_i hs; exact absurd hs h1
        · rename_i p ps hs
          rw [hs] at h3
          rw [← h3]
          cases ps <;> simp [List.intercalate]

/-- the pieces of a text are unique -/
theorem pieces_unique {s : Str} {ps : List Str} (h : Pieces s ps) : ps = splitComma s := by
  obtain ⟨h1, h2, h3⟩ := h
  subst h3
  induction ps with
  | nil => exact absurd rfl h1
  | cons p ps ih =>
    have hp := h2 p (by simp)
    cases ps with
    | nil =>
      have e : List.intercalate [44] [p] = p := by simp [List.intercalate]
      rw [e]
      clear h1 h2 ih e
      induction p with
      | nil => rfl
      | cons c p ih2 =>
        simp only [List.mem_cons, not_or] at hp
        unfold splitComma
        rw [if_neg (fun e => hp.1 e.symm), ← ih2 hp.2]
    | cons q qs =>
      have e : List.intercalate [44] (p :: q :: qs) = p ++ 44 :: List.intercalate [44] (q :: qs) := by
        simp [List.intercalate]
      rw [e]
      have ih' := ih (by simp) (fun x hx => h2 x (by simp only [List.mem_cons] at hx ⊢; tauto))
      generalize List.intercalate [44] (q :: qs) = r at ih'
      rw [ih']
      clear ih ih' h1 h2 e
      induction p with
      | nil => simp [splitComma]
      | cons c p ih2 =>
        simp only [List.mem_cons, not_or] at hp
        rw [List.cons_append]
        conv_rhs => unfold splitComma
        rw [if_neg (fun e => hp.1 e.symm), ← ih2 hp.2]

theorem relayersOk_iff (urlOk : Str → Bool) (rs : List Str) :
    relayersOk urlOk rs = true ↔ ∀ r ∈ rs, (∃ t, r = b!"https://" ++ t) ∧ urlOk r = true := by
  induction rs with
  | nil => simp [relayersOk]
  | cons r rs ih =>
    unfold relayersOk
    have hpre : hasPrefix b!"https://" r = true ↔ ∃ t, r = b!"https://" ++ t := by
      unfold hasPrefix
      rw [List.isPrefixOf_iff_prefix]
      exact ⟨fun ⟨t, h⟩ => ⟨t, h.symm⟩, fun ⟨t, h⟩ => ⟨t, h.symm⟩⟩
    simp only [List.mem_cons, forall_eq_or_imp]
    split
    · rename_i h; subst h
      simp
    · split
      · rename_i h
        simp only [Bool.not_eq_true', ← Bool.not_eq_true, hpre] at h
        simp only [Bool.false_eq_true, false_iff]
        tauto
      · rename_i h
        simp only [Bool.not_eq_true', Bool.not_eq_false, hpre] at h
        split
        · rename_i hu; simp at hu; simp [hu]
        · rename_i hu; simp at hu; rw [ih]; simp only [hu, and_true, h, true_and]

theorem isHexAddress_iff (s : Str) : isHexAddress s = true ↔ PoolArgument s := by
  have hcls : ∀ c, isHexChar c = true ↔ (48 ≤ c ∧ c ≤ 57) ∨ (97 ≤ c ∧ c ≤ 102) ∨ (65 ≤ c ∧ c ≤ 70) := by
    intro c; simp [isHexChar, or_assoc]
  unfold isHexAddress
  dsimp only
  simp only [Bool.and_eq_true, beq_iff_eq, List.all_eq_true, hcls]
  constructor
  · rintro ⟨h1, h2⟩
    refine ⟨_, ?_, h1, h2⟩
    split
    · rename_i hp
      match s, hp with
      | a :: b :: d, hp =>
        simp only [has0xPrefix, Bool.and_eq_true, Bool.or_eq_true, beq_iff_eq] at hp
        obtain ⟨rfl, rfl | rfl⟩ := hp
        · exact Or.inr (Or.inl rfl)
        · exact Or.inr (Or.inr rfl)
    · exact Or.inl rfl
  · rintro ⟨d, hd, h1, h2⟩
    have hno : has0xPrefix d = false := by
      match d, h2 with
      | [], _ => rfl
      | [_], _ => rfl
      | a :: b :: d, h2 =>
        have := h2 b (by simp)
        simp only [has0xPrefix, Bool.and_eq_false_iff, Bool.or_eq_false_iff, beq_eq_false_iff_ne]
        right; constructor <;> omega
    have he : (if has0xPrefix s = true then s.drop 2 else s) = d := by
      rcases hd with rfl | rfl | rfl
      · rw [hno]; rfl
      · rfl
      · rfl
    rw [he]; exact ⟨h1, h2⟩

/-- **C65**, the command line: it is accepted exactly if the key and its password are given, or neither in a
dry run, the pool is an address, and the relayers are a list of https addresses. -/
theorem C65_command_line (urlOk : Str → Bool) (f : Flags) (c : CliConfig) :
    newCliConfig urlOk f = some c ↔ GoodFlags urlOk f c := by
  have hrel : ∀ {rs : List Str}, Pieces f.relayers rs → rs = splitComma f.relayers := pieces_unique
  unfold newCliConfig
  dsimp only
  constructor
  · intro h
    split at h; · cases h
    rename_i k1
    split at h; · cases h
    rename_i k2
    split at h; · cases h
    rename_i k3
    split at h; · cases h
    rename_i k4
    split at h; · cases h
    rename_i k5
    split at h; · cases h
    rename_i k6
    split at h; · cases h
    rename_i k7
    simp only [Option.some.injEq] at h
    subst h
    refine ⟨?_, ?_, splitComma_pieces _, ?_, rfl⟩
    · cases hd : f.dryRun <;> simp_all
    · simpa [isHexAddress_iff] using k5
    · have : relayersOk urlOk (splitComma f.relayers) = true := by simpa using k7
      exact (relayersOk_iff _ _).mp this
  · rintro ⟨h1, h2, h3, h4, h5⟩
    have hr := hrel h3
    rw [hr] at h4
    have h4' := (relayersOk_iff _ _).mpr h4
    have hnil : ¬ ((splitComma f.relayers).length = 0 ||
        ((splitComma f.relayers).length = 1 && (splitComma f.relayers).head? = some [])) = true := by
      simp only [Bool.or_eq_true, Bool.and_eq_true, decide_eq_true_eq, not_or, not_and]
      refine ⟨fun h => splitComma_ne _ (List.length_eq_zero_iff.mp h), fun _ hh => ?_⟩
      obtain ⟨⟨t, ht⟩, _⟩ := h4 [] (List.mem_of_mem_head? hh)
      simp at ht
    rw [h5, hr]
    cases hd : f.dryRun with
    | true =>
      simp only [hd, if_true] at h1
      simp [h1.1, h1.2, (isHexAddress_iff _).mpr h2, h4']
      simpa using hnil
    | false =>
      simp only [hd, Bool.false_eq_true, if_false] at h1
      simp [h1.1, h1.2, (isHexAddress_iff _).mpr h2, h4']
      simpa using hnil

/-- **C65**, the nodes: whenever the oracle starts, both nodes are on the same supported chain, whose name
is in the configuration, and an oracle that is going to send transactions has a whitelisted account with a
balance. -/
theorem C65_sane_start {up : Bool} {W : StartWorld} {U : Updater} {cli : CliConfig} {cfg : Config}
    (h : startUp up W U cli = .ok cfg) : up = true ∧ cfg.dryRun = cli.dryRun ∧ cfg.poolAddr = cli.pool ∧
    (∃ e c, W.execChain = some e ∧ W.consChain = some c ∧ e % 2 ^ 64 = c ∧ Supported c cfg.network) ∧
    (cfg.dryRun = false → U.whitelisted = some true ∧ ∃ x, U.balance = some x ∧ x ≠ 0) := by
  unfold startUp at h
  obtain ⟨e, he, h⟩ := bind_ok.mp h
  obtain ⟨c, hc, h⟩ := bind_ok.mp h
  have hup : up = true := by
    cases up with
    | true => rfl
    | false => simp [newOnchain] at h
  subst hup
  unfold newOnchain at h
  rw [if_neg (by simp)] at h
  split at h
  · cases h
  · cases h
  rename_i x hx
  split at hx
  · cases hx
  rename_i hchain
  have fin : ∀ {cfg}, configFromContract W cli = .ok cfg → cfg.dryRun = cli.dryRun ∧ cfg.poolAddr = cli.pool ∧
      ∃ e c, W.execChain = some e ∧ W.consChain = some c ∧ e % 2 ^ 64 = c ∧ Supported c cfg.network := by
    intro cfg h
    obtain ⟨e, c, g, n, b, cb, k⟩ := configured h
    exact ⟨k.dryRun, k.pool, e, c, k.exec, k.cons, by rw [k.chain]; rfl, k.net⟩
  split at h
  · rename_i hd
    obtain ⟨f1, f2, f3⟩ := fin h
    exact ⟨rfl, f1, f2, f3, fun hf => by rw [f1, hd] at hf; cases hf⟩
  · obtain ⟨w, hw, h⟩ := bind_ok.mp h
    split at h
    · cases h
    rename_i hwt
    obtain ⟨bal, hbal, h⟩ := bind_ok.mp h
    split at h
    · cases h
    rename_i hb0
    obtain ⟨f1, f2, f3⟩ := fin h
    have : w = true := by simpa using hwt
    subst this
    exact ⟨rfl, f1, f2, f3, fun _ => ⟨orFatal_ok.mp hw, bal, orFatal_ok.mp hbal, hb0⟩⟩

/-- **C65**, nodes on different chains never start; but the error is lost on the way: instead of stopping with
a message, the process dereferences a nil pointer. -/
theorem C65_different_chains {W : StartWorld} {U : Updater} {cli : CliConfig} {e c : Nat}
    (he : W.execChain = some e) (hc : W.consChain = some c) (hne : e % 2 ^ 64 ≠ c) :
    startUp true W U cli = .error .panic := by
  unfold startUp newOnchain
  rw [he, hc]
  have : c ≠ u64 e := fun h => hne h.symm
  simp [orFatal, this, bind, Except.bind]

/-- **C65 is not enough**: an address without the prefix `0x` is accepted on the command line, but no proposed
block can be fetched with it, since it is compared with addresses that have the prefix. -/
theorem C65_false_no_prefix {urlOk : Str → Bool} {f : Flags} (hrel : f.relayers = b!"https://relay")
    (hurl : urlOk b!"https://relay" = true) (hdry : f.dryRun = true) (hk : f.keyFile = [] ∧ f.keyPass = [])
    (hl : f.pool.length = 40) (hp : ∀ c ∈ f.pool, (48 ≤ c ∧ c ≤ 57) ∨ (97 ≤ c ∧ c ≤ 102) ∨ (65 ≤ c ∧ c ≤ 70)) :
    (∃ c, newCliConfig urlOk f = some c) ∧
    ∀ (C : Chain) (s : State) (slot : Nat) (all : Bool) (cb : ConsBlock), C.pool = f.pool →
      C.cons slot = some (some cb) → cb.feeRecipient.length = 42 →
      ∃ x, fetchFullBlock C s slot all = .error x := by
  constructor
  · refine ⟨{ dryRun := f.dryRun, keyFile := f.keyFile, keyPass := f.keyPass, pool := f.pool,
              relayers := [b!"https://relay"] }, (C65_command_line _ _ _).mpr ⟨?_, ?_, ?_, ?_, rfl⟩⟩
    · rw [hdry]; exact hk
    · exact ⟨f.pool, Or.inl rfl, hl, hp⟩
    · refine ⟨by simp, ?_, by rw [hrel]; simp [List.intercalate]⟩
      intro p hp; rw [List.mem_singleton] at hp; subst hp; decide
    · intro r hr
      rw [List.mem_singleton] at hr
      subst hr
      exact ⟨⟨b!"relay", rfl⟩, hurl⟩
  · intro C s slot all cb hpool hcons hfr
    cases hx : fetchFullBlock C s slot all with
    | error x => exact ⟨x, rfl⟩
    | ok b =>
      exfalso
      unfold fetchFullBlock at hx
      split at hx
      · cases hx
      split at hx
      · cases hx
      split at hx
      · cases hx
      rw [hcons] at hx
      obtain ⟨b0, h0, hx⟩ := bind_ok.mp hx
      obtain ⟨b1, h1, hx⟩ := bind_ok.mp hx
      obtain ⟨cs, hcs, hx⟩ := bind_ok.mp hx
      split at hx
      · cases hx
      obtain ⟨num, hnum, hx⟩ := bind_ok.mp hx
      split at hx
      · cases hx
      rename_i evs hevs
      obtain ⟨b2, h2, hx⟩ := bind_ok.mp hx
      obtain ⟨vs, hvs, hx⟩ := bind_ok.mp hx
      obtain ⟨us, hus, hx⟩ := bind_ok.mp hx
      dsimp only at hx
      obtain ⟨pr, hpr, hx⟩ := bind_ok.mp hx
      obtain ⟨rw', hrw, hx⟩ := bind_ok.mp hx
      clear hx
      have c1 : b1.cons = some cb := by
        unfold setConsensus at h1
        obtain ⟨_, _, h1⟩ := bind_ok.mp h1
        split at h1
        · cases h1
        obtain ⟨_, _, h1⟩ := bind_ok.mp h1
        split at h1
        · cases h1
        simp only [Except.ok.injEq] at h1
        rw [← h1]
      have c2 : b2.cons = some cb := by
        unfold setEvents at h2
        obtain ⟨_, _, h2⟩ := bind_ok.mp h2
        split at h2; · cases h2
        split at h2; · cases h2
        split at h2; · cases h2
        obtain ⟨_, _, h2⟩ := bind_ok.mp h2
        split at h2 <;> (simp only [Except.ok.injEq] at h2; rw [← h2]; exact c1)
      unfold isAddressRewarded at hrw
      rw [c2] at hrw
      dsimp only at hrw
      obtain ⟨fr, hfr', hrw⟩ := bind_ok.mp hrw
      have := exec_ok hfr'
      subst this
      obtain ⟨eq, heq, _⟩ := bind_ok.mp hrw
      unfold equals at heq
      rw [hpool, hfr, hl] at heq
      simp at heq

/-- C65: a command line that is accepted, and a start-up that goes through -/
example : newCliConfig (fun _ => true) ⟨false, b!"key.json", b!"secret", Sample.pool, b!"https://a,https://b"⟩ =
      some ⟨false, b!"key.json", b!"secret", Sample.pool, [b!"https://a", b!"https://b"]⟩ ∧
    startUp true (Sample.world 1000) ⟨some true, some 7⟩ { Sample.cli with dryRun := false } = .ok Sample.cfg ∧
    newCliConfig (fun _ => true) ⟨false, b!"key.json", b!"secret", Sample.pool, b!"https://a,"⟩ = none := by
  decide +kernel

end Verif
