import Verif.Model.Types
/-
Words for what a block contains, independent of the model's functions.
-/
namespace Verif

/-- The credentials are 32 bytes: 0x01 or 0x02, eleven zero bytes and a 20-byte address; `w` is
that address in hexadecimal with 0x. -/
def HasAddress (creds : List Nat) (w : Str) : Prop :=
  ∃ p addr, (p = 1 ∨ p = 2) ∧ addr.length = 20 ∧ creds = p :: (List.replicate 11 0 ++ addr) ∧
    w = b!"0x" ++ hexEncode addr

/-- Equality of addresses up to letter case. -/
def SameAddr (a b : Str) : Prop := a.length = b.length ∧ lower a = lower b

/-- The same character, or one is the capital letter A to Z (65 to 90) of the other. -/
def SameLetter (c d : Nat) : Prop := c = d ∨ (65 ≤ c ∧ c ≤ 90 ∧ d = c + 32) ∨ (65 ≤ d ∧ d ≤ 90 ∧ c = d + 32)

/-- Two texts that differ in nothing but letter case: what `SameAddr` says, without the functions of the model. -/
def SameText : Str → Str → Prop
  | [], [] => True
  | c :: a, d :: b => SameLetter c d ∧ SameText a b
  | _, _ => False

/-- Beacon chain states in which a validator may be subscribed. -/
def Acceptable (st : BStatus) : Prop :=
  st = .pendingInitialized ∨ st = .pendingQueued ∨ st = .activeOngoing

/-- The block contains a subscription event for validator `i`, sent by the owner of its
withdrawal address, for a validator in an acceptable state. -/
def OwnerSubscribes (b : FullBlock) (i : Nat) (ev : SubEvent) (w : Str) (v : BVal) : Prop :=
  (ev, some v) ∈ b.events.subs.zip b.valsSubs ∧ ev.validatorId = i ∧ v.index = i ∧
    Acceptable v.status ∧ HasAddress v.creds w ∧ SameAddr ev.sender w

/-- The block contains an unsubscription event for validator `i` sent by its owner. -/
def OwnerUnsubscribes (b : FullBlock) (i : Nat) : Prop :=
  ∃ ev v w, (ev, some v) ∈ b.events.unsubs.zip b.valsUnsubs ∧ ev.validatorId = i ∧ v.index = i ∧
    HasAddress v.creds w ∧ SameAddr ev.sender w

/-- The three states of the Beacon API in which a validator still does its duties: also while it is leaving, and after
it was slashed until its exit. -/
def OnDuty (st : BStatus) : Prop := st = .activeOngoing ∨ st = .activeExiting ∨ st = .activeSlashed

/-- The states of the Beacon API before the activation and after the exit. -/
def OffDuty (st : BStatus) : Prop :=
  st = .pendingInitialized ∨ st = .pendingQueued ∨ st = .exitedUnslashed ∨ st = .exitedSlashed ∨
    st = .withdrawalPossible ∨ st = .withdrawalDone

/-- The beacon node reports, at this slot, that validator `i` is not active. -/
def NotActive (E : Env) (slot i : Nat) : Prop :=
  ∃ t req r v, E.node t slot req = some r ∧ v ∈ r ∧ v.index = i ∧ v.status.isActive = false

end Verif
