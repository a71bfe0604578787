import Verif.Model.Heap
/-
What "no aliasing" means: which numbers are balances, and what it is to change one of them and nothing
else.
-/
namespace Verif

/-- The numbers that are updated in place: the pool's fees and the two balances of a validator. -/
inductive Owner | pool | acc (i : Nat) | pend (i : Nat)
  deriving DecidableEq

/-- The cell in which such a number is kept, if there is one. -/
def Mem.cellOf (m : Mem) : Owner → Option Ptr
  | .pool => some m.st.poolFees
  | .acc i => (KMap.get m.st.vals i).map (·.acc)
  | .pend i => (KMap.get m.st.vals i).map (·.pend)

/-- The state of the oracle in which one balance is `x` and everything else is as it was. -/
def State.withBalance (s : State) (a : Owner) (x : Int) : State :=
  match a with
  | .pool => { s with poolFees := x }
  | .acc i => { s with vals := s.vals.map fun p => if p.1 = i then (p.1, { p.2 with acc := x }) else p }
  | .pend i => { s with vals := s.vals.map fun p => if p.1 = i then (p.1, { p.2 with pend := x }) else p }

/-- Where the oracle with pointers can start: as a new oracle, or with the state read from a file (whose map
of validators has every key once). -/
inductive PStart : Config → Mem → Prop
  | new (cfg h) : PStart cfg (newOracleP cfg h)
  | loaded (cfg h) {s : State} (hs : (s.vals.map (·.1)).Pairwise (· < ·)) : PStart cfg (loadP s h)

/-- The oracle with pointers at work: slots are processed, checkpoints are frozen, the state is saved (which
changes the stored hash). `fails` says whether slots that return an error are included; the main loop ends
the program then. -/
inductive PWork (H : List Nat → List Nat) (E : Env) (fails : Bool) (c0 : Config) (m0 : Mem) :
    Config → Mem → Prop
  | refl : PWork H E fails c0 m0 c0 m0
  | slot {c m c' m' b n} : PWork H E fails c0 m0 c m → advanceStateP E c m b = .ok (c', m', some n) →
      b.dutySlot + 1 < 2 ^ 64 → PWork H E fails c0 m0 c' m'
  | failed {c m c' m' b r} : fails = true → PWork H E fails c0 m0 c m →
      advanceStateP E c m b = .ok (c', m', r) → PWork H E fails c0 m0 c' m'
  | freeze {c m m' r} : PWork H E fails c0 m0 c m → freezeP H E m = .ok (m', r) → PWork H E fails c0 m0 c m'
  | saved {c m} (x t) : PWork H E fails c0 m0 c m →
      PWork H E fails c0 m0 c { m with st := { m.st with stateHash := x, tick := t } }

end Verif
