import Verif.Model.Endpoints
import Verif.Spec.Api
import Verif.Spec.Startup
import Verif.Spec.Locks
/-
What the HTTP server must do, in words of its own.
-/
namespace Verif

/-- The documented path of an endpoint. -/
def pathOf : Request → Str
  | .root => b!"/"
  | .status => b!"/status"
  | .config => b!"/config"
  | .relays key => b!"/registeredrelays/" ++ key
  | .state => b!"/state"
  | .validators => b!"/memory/validators"
  | .validatorInfo i => b!"/memory/validator/" ++ i
  | .byIndex l => b!"/memory/validatorsbyindex/" ++ l
  | .byWithdrawal a => b!"/memory/validators/" ++ a
  | .fees => b!"/memory/feesinfo"
  | .statistics => b!"/memory/statistics"
  | .allBlocks => b!"/memory/allblocks"
  | .proposedBlocks => b!"/memory/proposedblocks"
  | .missedBlocks => b!"/memory/missedblocks"
  | .wrongFeeBlocks => b!"/memory/wrongfeeblocks"
  | .donations => b!"/memory/donations"
  | .proof a => b!"/onchain/proof/" ++ a

/-- The variable part of a path. -/
def argument : Request → Option Str
  | .relays x => some x
  | .validatorInfo x => some x
  | .byIndex x => some x
  | .byWithdrawal x => some x
  | .proof x => some x
  | _ => none

/-- The variable part is not empty and has no slash. -/
def ArgumentOK (r : Request) : Prop := ∀ x, argument r = some x → x ≠ [] ∧ 47 ∉ x

/-- The texts that the Go libraries make of 20-byte addresses have 42 characters: the senders in the event
logs and the fee recipients in the registrations. -/
structure GoTexts (W : Outside) : Prop where
  subs : ∀ k l l', W.logs k = some (l, l') → ∀ e ∈ l, e.sender.length = 42
  unsubs : ∀ k l l', W.logs k = some (l, l') → ∀ e ∈ l', e.sender.length = 42
  relay : ∀ r key fee, W.relay r key = .registered fee → fee.length = 42

/-- Goroutine `t` holds the write lock and is about to change the state; goroutine `u` holds no lock and
has only its last piece of work left. -/
def Races (s : Sys) (t u : Nat) : Prop :=
  Writes s t ∧ (∃ l, s.todo t = .work :: l) ∧ u ≠ t ∧ ¬ Reads s u ∧ s.todo u = [.work]

/-- The relays of the list that are registered with a fee recipient satisfying `P`, and that recipient. -/
def registeredWith (ask : Str → RelayReply) (P : Str → Prop) [DecidablePred P] (relays : List Str) :
    List (Str × Str) :=
  relays.filterMap fun r => match ask r with
    | .registered fee => if P fee then some (r, fee) else none
    | _ => none

end Verif
