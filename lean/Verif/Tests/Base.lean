import Verif.Model.Merkle
/-
Conformance tests. The modules under `Verif.Tests` repeat the repository's own Go unit tests on the
model, with the values written in those tests: they are evidence that the model computes what the
program computes, not proofs of properties, and no claim rests on them. Every test names the Go test
it repeats.
-/
namespace Verif.Tests

/-- `&Config{Network: "mainnet"}` of the Go tests: the fields that are not given are zero -/
def cfg0 : Config :=
  { network := b!"mainnet", poolAddr := [], depSlot := 0, depBlock := 0, cpSize := 0, fee := 0,
    poolFeesAddr := [], dryRun := false, collateral := 0 }

/-- maps are visited in storage order, the beacon node is not asked -/
def env0 : Env := { perm := fun _ n => List.range n, node := fun _ _ _ => none,
                    consol := fun _ _ => none }

/-- maps are visited in storage order, the node answers with the given validators and consolidations,
whatever it is asked (`SetGetSetOfValidatorsFunc`, `GetPendingConsolidationsFunc` of the tests) -/
def envOf (vs : List BVal) (cs : List (Nat × Nat)) : Env :=
  { perm := fun _ n => List.range n, node := fun _ _ _ => some vs, consol := fun _ _ => some cs }

/-- a `&ValidatorInfo{...}` of the Go tests: the fields that are not given are zero -/
def info : Validator :=
  { status := .unknownState, acc := 0, pend := 0, coll := 0, waddr := [], index := 0, key := [],
    subType := .manual }

/-- an oracle with the given entries in its validator map -/
def withVals (c : Config) (vs : List (Nat × Validator)) : State :=
  { (newOracle c).st with vals := vs.foldl (fun m p => VMap.insert m p.1 p.2) [] }

/-- `require`: the run succeeded and its result satisfies the test -/
def ok {α : Type} (x : M α) (p : α → Bool) : Bool :=
  match x with
  | .ok a => p a
  | .error _ => false

/-- a validator of the state: status, accumulated and pending balance -/
def row (s : State) (i : Nat) : Option (Status × Int × Int) :=
  (VMap.get s.vals i).map fun v => (v.status, v.acc, v.pend)

/-- pending balance of a validator of the state -/
def pend (s : State) (i : Nat) : Option Int := (VMap.get s.vals i).map (·.pend)

/-- how a validator of the state subscribed -/
def sub (s : State) (i : Nat) : Option SubType := (VMap.get s.vals i).map (·.subType)

/-- the address `0x` `k` `27a30991170f917d7b83def6e44d26577871ed` of the Go tests -/
def adr (k : Nat) : Str :=
  b!"0x" ++ hexEncode [k] ++ b!"27a30991170f917d7b83def6e44d26577871ed"

/-- withdrawal credentials of type 1 for that address -/
def wc (k : Nat) : List Nat :=
  [1, 0, 0, 0, 0, 0, 0, 0, 0, 0, 0, 0, k, 39, 163, 9, 145, 23, 15, 145, 125, 123, 131, 222, 246, 228,
   77, 38, 87, 120, 113, 237]

/-- public key of the Go tests with first byte `k` -/
def pubkey (k : Nat) : List Nat :=
  [k, 170, 231, 9, 230, 174, 231, 237, 73, 205, 21, 185, 65, 216, 91, 150, 122, 252, 200, 184, 68,
   238, 32, 188, 126, 19, 150, 46, 132, 132, 87, 44, 27, 67, 212, 190, 117, 101, 33, 25, 236, 53, 60,
   26, 50, 68, 62, 13]

/-- a validator of the beacon chain -/
def bval (i : Nat) (st : BStatus) (k : Nat := 148) (key : Nat := 129) : BVal :=
  { index := i, status := st, creds := wc k, pubkey := pubkey key, effBal := 0 }

/-- a subscription event -/
def sev (i : Nat) (c : Int) (k : Nat := 148) : SubEvent :=
  { validatorId := i, collateral := c, sender := adr k, block := 0 }

/-- an unsubscription event -/
def uev (i : Nat) (k : Nat := 148) : UnsubEvent := { validatorId := i, sender := adr k, block := 0 }

/-- a proposal paying `r` to the pool, as in the Go tests -/
def pay (i : Nat) (r : Int) : SumBlock :=
  { slot := 0, block := 0, index := i, key := b!"0x", type := .unknown, reward := some r,
    rewardType := .vanila, waddr := adr 3 }

end Verif.Tests
