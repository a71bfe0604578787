import Verif.Model.Requests
import Verif.Spec.MainLoop
import Verif.Spec.Chain
import Verif.Spec.Api
import Mathlib.Data.List.Forall2
/-
What it means that requests fail but are never answered wrongly, and executions of the main loop under
such a network. Written without the functions that interpret the replies.
-/
namespace Verif

/-- `sub` is spelt somewhere in `s`. -/
def SpeltIn (sub s : Str) : Prop := ∃ p q, s = p ++ sub ++ q

/-- Every attempt that is answered is answered with the truth `T`; the beacon node answers 404 only for a
slot without a block, and all logs can be decoded. Any attempt may fail in any way. -/
structure Truthful (W : Wire) (T : Chain) : Prop where
  chainId : W.chainId = T.chainId
  pool : W.pool = T.pool
  duty : ∀ slot k d, W.duty slot k = some d → T.duty slot = some d
  validators : ∀ i slot k l, W.validators i slot k = some l → T.validators i slot = some l
  block : ∀ slot k c, W.block slot k = .block c → T.cons slot = some (some c)
  noBlock : ∀ slot k body, W.block slot k = .status 404 body → T.cons slot = some none
  ether : ∀ b k l, (W.logs b).ether k = some l → ∃ e, T.events b = some e ∧ l = e.ether.map some
  subs : ∀ b k l, (W.logs b).subs k = some l → ∃ e, T.events b = some e ∧ l = e.subs.map some
  unsubs : ∀ b k l, (W.logs b).unsubs k = some l → ∃ e, T.events b = some e ∧ l = e.unsubs.map some
  poolFee : ∀ b k l, (W.logs b).poolFee k = some l → ∃ e, T.events b = some e ∧ l = e.poolFee.map some
  feeRecipient : ∀ b k l, (W.logs b).feeRecipient k = some l →
    ∃ e, T.events b = some e ∧ l = e.feeRecipient.map some
  cpSize : ∀ b k l, (W.logs b).cpSize k = some l → ∃ e, T.events b = some e ∧ l = e.cpSize.map some
  collateral : ∀ b k l, (W.logs b).collateral k = some l →
    ∃ e, T.events b = some e ∧ l = e.collateral.map some
  bans : ∀ b k l, (W.logs b).bans k = some l → ∃ e, T.events b = some e ∧ l = e.bans.map some
  unbans : ∀ b k l, (W.logs b).unbans k = some l → ∃ e, T.events b = some e ∧ l = e.unbans.map some
  header : ∀ b k h, W.header b k = some h → T.header b = some h
  receipt : ∀ x k r, W.receipt x k = some r → T.receipt x = some r

/-- At this slot, no error but the status 404 has "404" in its text. -/
def NoStray404 (W : Wire) (slot : Nat) : Prop :=
  (∀ k code body, W.block slot k = .status code body → code ≠ 404 →
    ¬ SpeltIn b!"404" (b!"GET failed with status " ++ decimal code ++ b!": " ++ body)) ∧
  ∀ k pre post, W.block slot k = .broken pre post →
    ¬ SpeltIn b!"404" (pre ++ (W.address ++ b!"/eth/v2/beacon/blocks/" ++ decimal slot) ++ post)

/-- The oracle fetches the block of `slot` over a network on which requests fail but are never answered
wrongly. -/
def HonestNetwork (T : Chain) (C : Chain) (slot : Nat) : Prop :=
  ∃ n W, Truthful W T ∧ NoStray404 W slot ∧ Heard n W C

/-- The main loop runs over a network on which requests fail but are never answered wrongly. `T` is the
chain as it is. -/
inductive LiveRun (T : Chain) (L : Lib) (H : List Nat → List Nat) (E : Env) (l : Loop) :
    List LoopEv → Loop → Prop
  | nil : LiveRun T L H E l [] l
  | step {tr l1 l2 A evs} : LiveRun T L H E l tr l1 → (∀ fin, A.finalized = some fin → fin + 1 < 2 ^ 64) →
      HonestNetwork T A.fetch l1.o.st.nextSlot → stepLoop L H E A l1 = .ok (l2, evs) → LiveRun T L H E l (tr ++ evs) l2

/-- The contract shows `h t` (root and slot) at time `t`. Both calls may fail any number of times; the
attempts for the slot are made between `t0` and `t1`, those for the root between `t1` and `t2`. -/
structure ContractReplies (h : Nat → Str × Nat) (t0 t1 t2 : Nat) (slots : Nat → Option Nat)
    (roots : Nat → Option Str) : Prop where
  slots : ∀ k s, slots k = some s → ∃ t, t0 ≤ t ∧ t ≤ t1 ∧ s = (h t).2
  roots : ∀ k r, roots k = some r → ∃ t, t1 ≤ t ∧ t ≤ t2 ∧ r = (h t).1

/-- The value of a key in a JSON object: capital letters are ignored in keys and the last occurrence counts. -/
def KeyValue (fs : List (Str × J)) (key : Str) (x : Option J) : Prop :=
  (x = none ∧ ∀ p ∈ fs, lower p.1 ≠ lower key) ∨
  ∃ v pre k post, x = some v ∧ fs = pre ++ (k, v) :: post ∧ lower k = lower key ∧ ∀ p ∈ post, lower p.1 ≠ lower key

/-- `j` is how the beacon API writes the pending consolidation `p`: two decimal numbers as strings; other
keys do not matter. -/
def WritesPending (p : Nat × Nat) (j : J) : Prop :=
  ∃ fs, j = .obj fs ∧ KeyValue fs b!"source_index" (some (.str (decimal p.1))) ∧
    KeyValue fs b!"target_index" (some (.str (decimal p.2)))

/-- The body lists exactly these pending consolidations. -/
def ListsPending (ps : List (Nat × Nat)) (body : J) : Prop :=
  ∃ fs js, body = .obj fs ∧ KeyValue fs b!"data" (some (.arr js)) ∧ List.Forall₂ WritesPending ps js

/-- The number the decoder reads from a field: a string of decimal digits, below 2^64; 0 if there is no such
field. -/
def FieldReads (fs : List (Str × J)) (key : Str) (n : Nat) : Prop :=
  (KeyValue fs key none ∧ n = 0) ∨
  ∃ v, KeyValue fs key (some (.str v)) ∧ Numeral v ∧ numeralValue v = n ∧ n < 2 ^ 64

/-- The consolidation the decoder reads from an element of the list; `null` gives zeros. -/
def PendingReads (p : Nat × Nat) (j : J) : Prop :=
  (j = .null ∧ p = (0, 0)) ∨ ∃ fs, j = .obj fs ∧ FieldReads fs b!"source_index" p.1 ∧ FieldReads fs b!"target_index" p.2

/-- What the decoder reads from a body: nothing if there is no list, or the list element by element. -/
def BodyReads (ps : List (Nat × Nat)) (body : J) : Prop :=
  (body = .null ∧ ps = []) ∨ ∃ fs, body = .obj fs ∧
    (((KeyValue fs b!"data" none ∨ KeyValue fs b!"data" (some .null)) ∧ ps = []) ∨
      ∃ js, KeyValue fs b!"data" (some (.arr js)) ∧ List.Forall₂ PendingReads ps js)

end Verif
