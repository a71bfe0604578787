import Verif.Spec.Env
/-
Words for the sharing of a reward.
-/
namespace Verif

/-- A validator record takes part in the sharing of rewards. -/
def Earning (v : Validator) : Prop := v.status = .active ∨ v.status = .yellowCard

instance (v : Validator) : Decidable (Earning v) := by unfold Earning; infer_instance

/-- number of validators that take part -/
def earningCount (s : State) : Nat := s.vals.countP fun p => decide (Earning p.2)

/-- the fee on a reward: `fee` per 10000, rounded down -/
def feeOf (fee reward : Int) : Int := reward * fee / 10000

end Verif
