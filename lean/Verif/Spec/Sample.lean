import Verif.Spec.Sharing
import Mathlib.Data.List.Dedup
/-
Concrete data used by the `example`s beside the theorems, to show that hypotheses are met.
-/
namespace Verif.Sample

/-- withdrawal credentials 0x01 with the address made of 20 equal bytes -/
def creds (i : Nat) : List Nat := 1 :: (List.replicate 11 0 ++ List.replicate 20 (i % 256))

/-- the address in those credentials -/
def addr (i : Nat) : Str := b!"0x" ++ hexEncode (List.replicate 20 (i % 256))

/-- a healthy validator with 32 ETH plus its index in ETH -/
def bval (i : Nat) : BVal :=
  { index := i, status := .activeOngoing, creds := creds i, pubkey := [i % 256],
    effBal := 32000000000 + (i % 256) * 1000000000 }

/-- everything iterates in storage order, the node knows every validator as `bval`, except that
validator 9 has exited; validator 9 is consolidated into validator 1 -/
def env : Env :=
  { perm := fun _ n => List.range n
    node := fun _ _ req => some (req.dedup.map fun i =>
      if i = 9 then { bval 9 with status := .exitedUnslashed } else bval i)
    consol := fun _ _ => some [(9, 1)] }

/-- same chain, iterating everything backwards -/
def envRev : Env := { env with perm := fun _ n => (List.range n).reverse }

theorem index_if (i : Nat) :
    (if i = 9 then { bval 9 with status := .exitedUnslashed } else bval i).index = i := by
  split
  · rename_i h; rw [h]; rfl
  · rfl

theorem effBal_if (i : Nat) :
    0 < (if i = 9 then { bval 9 with status := .exitedUnslashed } else bval i).effBal ∧
    (if i = 9 then { bval 9 with status := .exitedUnslashed } else bval i).effBal < 9223372036854775808 := by
  split <;> (simp only [bval]; omega)

theorem env_node {t slot req r} (h : env.node t slot req = some r) :
    r = req.dedup.map fun i => if i = 9 then { bval 9 with status := .exitedUnslashed } else bval i := by
  simp only [env, Option.some.injEq] at h; exact h.symm

theorem env_valid : ValidEnv env where
  perm := fun _ _ => List.Perm.refl _
  nodup := by
    intro t slot req r h
    rw [env_node h, List.map_map]
    have : ((fun v : BVal => v.index) ∘ fun i =>
        if i = 9 then { bval 9 with status := .exitedUnslashed } else bval i) = id := by
      funext i; exact index_if i
    rw [this, List.map_id]
    exact List.nodup_dedup _

theorem envRev_valid : ValidEnv envRev where
  perm := fun _ _ => List.reverse_perm _
  nodup := env_valid.nodup

theorem env_exact : ExactEnv env := by
  intro t slot req r h v hv
  rw [env_node h] at hv
  obtain ⟨i, hi, rfl⟩ := List.mem_map.mp hv
  rw [index_if]; exact List.mem_dedup.mp hi

theorem env_noSelf : NoSelfConsol env := by
  intro t slot cs h p hp
  simp only [env, Option.some.injEq] at h
  subst h
  simp at hp; subst hp; decide

theorem env_sane : SaneBalances env := by
  intro t slot req r h v hv
  rw [env_node h] at hv
  obtain ⟨i, hi, rfl⟩ := List.mem_map.mp hv
  exact (effBal_if i).2

theorem env_good : GoodNode env := by
  intro t slot req _
  refine ⟨_, rfl, ?_, ?_⟩
  · intro i hi
    exact ⟨_, List.mem_map.mpr ⟨i, List.mem_dedup.mpr hi, rfl⟩, index_if i⟩
  · intro v hv
    obtain ⟨i, hi, rfl⟩ := List.mem_map.mp hv
    exact ⟨by rw [index_if]; exact List.mem_dedup.mp hi, (effBal_if i).1, (effBal_if i).2⟩

/-- a tracked validator -/
def val (i : Nat) (st : Status) (pend acc : Int) : Validator :=
  { status := st, acc := acc, pend := pend, coll := 1000, waddr := addr i, index := i,
    key := hexutilEncode [i % 256], subType := .manual }

/-- the pool contract -/
def pool : Str := b!"0xadfb8d27671f14f297ee94135e266aaff8752e35"

/-- pool fee recipient -/
def feeAddr : Str := b!"0x1111111111111111111111111111111111111111"

def cfg : Config :=
  { network := b!"mainnet", poolAddr := pool, depSlot := 12000000, depBlock := 20, cpSize := 100,
    fee := 700, poolFeesAddr := feeAddr, dryRun := false, collateral := 1000 }

/-- validators in every state -/
def vals : VMap :=
  [(1, val 1 .active 10000 5), (2, val 2 .yellowCard 20000 6), (3, val 3 .redCard 300 7),
   (4, val 4 .banned 0 8), (5, val 5 .notSubscribed 0 9), (9, val 9 .active 900 10)]

/-- a state in the electra era, about to process slot 12000001 -/
def st : State :=
  { (newOracle cfg).st with
    vals := vals, poolFees := 77, latestSlot := 12000000, nextSlot := 12000001 }

def oracle : Oracle := ⟨cfg, st⟩

theorem st_ok : MapOK st := by unfold MapOK; decide

/-- a builder -/
def builder : Str := b!"0x95222290dd7278aa3ddd389cc1e1d165cc4bafe5"

/-- a type-2 transaction -/
def tx (sender dest : Str) (value : Int) : Tx :=
  { «to» := some dest, sender := some sender, value := value, type := 2, gasPrice := 0, tipCap := 3,
    feeCap := 100, hash := 7 }

/-- a proposed block with the given fee recipient and last transaction -/
def prop (slot i : Nat) (fr : Str) (t : Tx) (evs : Events) : FullBlock :=
  { dutySlot := slot, dutyIndex := i, dutyKey := hexutilEncode [i % 256], validator := bval i,
    cons := some { fork := .electra, slot := slot, proposer := i, number := 100, feeRecipient := fr,
                   txs := [some t], gasUsed := 21000, baseFee := .u256 10 }
    header := some ⟨100, 10⟩, receipts := some [⟨7, 21000, 100⟩], events := evs, valsSubs := [],
    valsUnsubs := [], chainId := 1 }

/-- a missed slot -/
def miss (slot i : Nat) : FullBlock :=
  { dutySlot := slot, dutyIndex := i, dutyKey := hexutilEncode [i % 256], validator := bval i,
    cons := none, header := none, receipts := none, events := {}, valsSubs := [], valsUnsubs := [],
    chainId := 1 }

/-- validator 1 proposes with a MEV payment of 5000 to the pool; validator 2 subscribes with
collateral 1000; somebody donates 300 -/
def b0 : FullBlock :=
  { prop 12000000 1 builder (tx builder pool 5000)
      { ether := [⟨5000, pool, 100⟩, ⟨300, pool, 100⟩], subs := [⟨2, 1000, addr 2, 100⟩] } with
    valsSubs := [some (bval 2)] }

/-- validator 2 proposes a vanilla block with the pool as fee recipient: tip 3 * 21000 -/
def b1 : FullBlock := prop 12000001 2 pool (tx (addr 50) (addr 51) 1) {}

/-- validator 2 misses -/
def b2 : FullBlock := miss 12000002 2

/-- validator 1 sends its reward elsewhere; validator 2 unsubscribes; a donation of 40 -/
def b3 : FullBlock :=
  { prop 12000003 1 builder (tx builder (addr 77) 900)
      { ether := [⟨40, pool, 100⟩], unsubs := [⟨2, addr 2, 100⟩] } with
    valsUnsubs := [some (bval 2)] }

def blocks : List FullBlock := [b0, b1, b2, b3]

/-- process blocks one after the other -/
def run (E : Env) : Oracle → List FullBlock → Option Oracle
  | o, [] => some o
  | o, b :: bs =>
    match advanceState E o b with
    | .ok (o1, some _) => run E o1 bs
    | _ => none

theorem hist_of_run {E : Env} {o bs o'} (h : run E o bs = some o') : Hist E o bs o' := by
  induction bs generalizing o with
  | nil => simp only [run, Option.some.injEq] at h; subst h; exact .nil _
  | cons b bs ih =>
    simp only [run] at h
    split at h
    · rename_i o1 n h1
      exact .cons h1 (ih h)
    · simp at h

/-- the oracle after the four sample blocks -/
def final : Oracle := (run env (newOracle cfg) blocks).getD (newOracle cfg)

theorem run_some {E o bs} (h : (run E o bs).isSome) : Hist E o bs ((run E o bs).getD o) := by
  obtain ⟨o', ho⟩ := Option.isSome_iff_exists.mp h
  rw [ho]; exact hist_of_run ho

/-- evaluate a computation that may stop the process -/
theorem ex_ok {α : Type} {x : M α} {P : α → Bool} (h : x.toOption.any P = true) :
    ∃ a, x = .ok a ∧ P a = true := by
  cases x with
  | error e => simp [Except.toOption] at h
  | ok a => exact ⟨a, rfl, by simpa [Except.toOption] using h⟩

/-- evaluate one slot -/
theorem ex_slot {E o b} {P : Oracle → Bool}
    (h : (advanceState E o b).toOption.any (fun p => p.2.isSome && P p.1) = true) :
    ∃ o' n, advanceState E o b = .ok (o', some n) ∧ P o' = true := by
  obtain ⟨⟨o', n⟩, h1, h2⟩ := ex_ok h
  simp only [Bool.and_eq_true] at h2
  obtain ⟨n', rfl⟩ := Option.isSome_iff_exists.mp h2.1
  exact ⟨o', n', h1, h2.2⟩

/-- evaluate several slots -/
theorem ex_hist {E o bs} {P : Oracle → Bool} (h : (run E o bs).any P = true) :
    ∃ o', Hist E o bs o' ∧ P o' = true := by
  cases hr : run E o bs with
  | none => rw [hr] at h; simp at h
  | some o' => exact ⟨o', hist_of_run hr, by rw [hr] at h; simpa using h⟩

theorem hist : Hist env (newOracle cfg) blocks final := run_some (by decide +kernel)

end Verif.Sample
