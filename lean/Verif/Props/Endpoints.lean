import Verif.Spec.Endpoints
import Verif.Spec.SampleFacts
import Verif.Props.ApiInput
import Verif.Props.Config
import Verif.Props.Identity
import Verif.Props.Statistics
import Verif.Props.Locks
/-
C66–C73: the HTTP server.
-/
namespace Verif
open VMap

/-! ### Records while the oracle works -/

theorem length_hasAddress {creds w} (h : HasAddress creds w) : w.length = 42 := by
  obtain ⟨p, addr, _, hl, _, rfl⟩ := h
  simp [hexEncode_length, hl]

/-- while the oracle works, every record has an address of 42 characters and is stored under its index -/
theorem work_records {H : List Nat → List Nat} {E : Env} (hE : ValidEnv E) (hX : ExactEnv E)
    (hC : NoSelfConsol E) {cfg : Config} {o : Oracle} (hw : Work H E (newOracle cfg) o) :
    ∀ i v, VMap.get o.st.vals i = some v → v.waddr.length = 42 ∧ v.index = i := by
  generalize hc : newOracle cfg = o0 at hw
  induction hw with
  | refl => subst hc; intro i v hv; simp [newOracle, VMap.get] at hv
  | slot hw hs _ ih =>
    subst hc
    obtain ⟨hm, _, _⟩ := work_stats hE hX hC hw
    obtain ⟨sb, dons, r, ops, k1, _, _, _, hp, _, hcause, _⟩ := slot_runs (x := False) hE hX hC hm
      (fun hf => hf.elim) hs
    refine hp.inv (fun i v => v.waddr.length = 42 ∧ v.index = i) _ hcause ?_ ?_ ih
    · intro i op f v v' _ hv hw
      cases hv <;> exact hw
    · intro i u hcr _ _ _ hidx
      refine ⟨?_, hidx⟩
      rcases hcr with ⟨ev, w, v, ⟨hmem, _, _, _, hadr, _⟩, _, hw, _⟩ | ⟨ht, _, hw, _⟩ |
        ⟨_, t, req, r, v, w, hn, hv, _, hadr, hw, _⟩
      · rw [hw]; exact length_hasAddress hadr
      · rw [hw]; exact length_hasAddress (summarize_waddr k1 ht)
      · rw [hw]; exact length_hasAddress hadr
  | freeze _ hf ih =>
    rcases freeze_cases hE hf with ⟨_, rfl⟩ | ⟨f, _, _, rfl⟩ <;> exact ih
  | saved x t _ ih => exact ih


/-! ### C66 No request stops the process -/

/-- The computation does not stop the process, and a result satisfies `P`. -/
def Safe {α : Type} (P : α → Prop) (x : M α) : Prop := x ≠ .error .fatal ∧ ∀ a, x = .ok a → P a

theorem Safe.ok {α : Type} {P : α → Prop} {a : α} (h : P a) : Safe P (.ok a : M α) :=
  ⟨by simp, fun b hb => by cases hb; exact h⟩

theorem Safe.panic {α : Type} {P : α → Prop} : Safe P (.error .panic : M α) :=
  ⟨by simp, fun b hb => by cases hb⟩

theorem Safe.bind {α β : Type} {P : α → Prop} {Q : β → Prop} {x : M α} {f : α → M β} (hx : Safe P x)
    (hf : ∀ a, P a → Safe Q (f a)) : Safe Q (x >>= f) := by
  cases x with
  | error e =>
    refine ⟨fun h => hx.1 ?_, fun a h => by cases h⟩
    cases h; rfl
  | ok a => exact hf a (hx.2 a rfl)

theorem Safe.mono {α : Type} {P Q : α → Prop} {x : M α} (hx : Safe P x) (h : ∀ a, P a → Q a) : Safe Q x :=
  ⟨hx.1, fun a ha => h a (hx.2 a ha)⟩

theorem Safe.equals {a b : Str} (h : a.length = b.length) : Safe (fun _ => True) (Verif.equals a b) := by
  rw [equals_of_length h]; exact .ok trivial

/-- every address in the map has 42 characters -/
def Len42 (m : VMap) : Prop := ∀ i v, VMap.get m i = some v → v.waddr.length = 42

theorem Len42.insert {m : VMap} (h : Len42 m) {i v} (hv : v.waddr.length = 42) : Len42 (VMap.insert m i v) := by
  intro j u hu
  rw [get_insert] at hu
  split at hu
  · cases hu; exact hv
  · exact h j u hu

theorem Len42.modify {m : VMap} (h : Len42 m) (i : Nat) {f : Validator → Validator}
    (hf : ∀ v, (f v).waddr = v.waddr) : Len42 (VMap.modify m i f) := by
  intro j u hu
  rw [get_modify] at hu
  split at hu
  · cases hg : VMap.get m i with
    | none => rw [hg] at hu; cases hu
    | some w =>
      rw [hg] at hu
      cases hu
      rw [hf]; exact h i w hg
  · exact h j u hu

theorem safe_untracked {addr : Str} (ha : addr.length = 42) :
    ∀ (l : BMap) (m : VMap), Len42 m → Safe Len42 (untrackedOf addr l m)
  | [], m, h => .ok h
  | (i, u) :: l, m, h => by
    unfold untrackedOf
    split
    · exact safe_untracked ha l m h
    · rename_i w hw
      have hl : w.length = 42 := length_hasAddress ((compatAddressByte_iff u.creds w).mp hw)
      refine Safe.bind (Safe.equals (hl.trans ha.symm)) fun x _ => ?_
      split
      · exact safe_untracked ha l m h
      · exact safe_untracked ha l _ (h.insert hl)

theorem safe_tracked {addr : Str} (ha : addr.length = 42) :
    ∀ (l m : VMap), (∀ p ∈ l, p.2.waddr.length = 42) → Len42 m → Safe Len42 (trackedOf addr l m)
  | [], m, _, h => .ok h
  | (i, v) :: l, m, hl, h => by
    unfold trackedOf
    have hv : v.waddr.length = 42 := hl (i, v) (by simp)
    refine Safe.bind (Safe.equals (hv.trans ha.symm)) fun x _ => ?_
    split
    · exact safe_tracked ha l m (fun p hp => hl p (by simp [hp])) h
    · exact safe_tracked ha l _ (fun p hp => hl p (by simp [hp])) (h.insert hv)

theorem safe_apiSub {coll : Int} {m : VMap} {ev : SubEvent} {val : Option BVal} (h : Len42 m)
    (hs : ev.sender.length = 42) : Safe Len42 (apiSub coll m ev val) := by
  unfold apiSub
  split
  · exact .ok h
  · rename_i v hv
    refine Safe.bind (Safe.equals ((h _ _ hv).trans hs.symm)) fun x _ => ?_
    split
    · exact .ok h
    · split
      · exact .ok h
      · split
        · exact .panic
        · split
          · exact .ok h
          · split
            · exact .ok (h.modify _ fun _ => rfl)
            · exact .ok h

theorem safe_apiUnsub {m : VMap} {ev : UnsubEvent} (h : Len42 m)
    (hs : ev.sender.length = 42) : Safe Len42 (apiUnsub m ev) := by
  unfold apiUnsub
  split
  · exact .ok h
  · rename_i v hv
    refine Safe.bind (Safe.equals ((h _ _ hv).trans hs.symm)) fun x _ => ?_
    split
    · exact .ok h
    · split
      · exact .ok (h.modify _ fun _ => rfl)
      · exact .ok h

theorem safe_apiSubs {coll : Int} : ∀ (l : List (SubEvent × Option BVal)) (m : VMap), Len42 m →
    (∀ p ∈ l, p.1.sender.length = 42) → Safe Len42 (apiSubs coll l m)
  | [], m, h, _ => .ok h
  | (ev, v) :: l, m, h, hl =>
    Safe.bind (safe_apiSub h (hl (ev, v) (by simp))) fun m' h' =>
      safe_apiSubs l m' h' fun p hp => hl p (by simp [hp])

theorem safe_apiUnsubs : ∀ (l : List UnsubEvent) (m : VMap), Len42 m →
    (∀ e ∈ l, e.sender.length = 42) → Safe Len42 (apiUnsubs l m)
  | [], m, h, _ => .ok h
  | ev :: l, m, h, hl =>
    Safe.bind (safe_apiUnsub h (hl ev (by simp))) fun m' h' =>
      safe_apiUnsubs l m' h' fun p hp => hl p (by simp [hp])

theorem safe_apiBlocks {coll : Int} {subs : List (SubEvent × Option BVal)} {unsubs : List UnsubEvent}
    (hs : ∀ p ∈ subs, p.1.sender.length = 42) (hu : ∀ e ∈ unsubs, e.sender.length = 42) :
    ∀ (l : List Nat) (m : VMap), Len42 m → Safe Len42 (apiBlocks coll subs unsubs l m)
  | [], m, h => .ok h
  | b :: l, m, h => by
    unfold apiBlocks
    refine Safe.bind (safe_apiSubs _ m h fun p hp => hs p (List.mem_filter.mp hp).1) fun m1 h1 => ?_
    refine Safe.bind (safe_apiUnsubs _ m1 h1 fun p hp => hu p (List.mem_filter.mp hp).1) fun m2 h2 => ?_
    exact safe_apiBlocks hs hu l m2 h2

theorem safe_byWithdrawal {W : Outside} (hW : GoTexts W) {cfg : Config} {s : State}
    (hl : ∀ p ∈ s.vals, p.2.waddr.length = 42) (req : Str) :
    Safe (fun _ => True) (validatorsByWithdrawal W.fin W.cache W.logs cfg s req) := by
  unfold validatorsByWithdrawal validatorsByWithdrawal2
  split
  · exact .ok trivial
  · dsimp only
    split
    · exact .ok trivial
    · rename_i hv
      have ha : (lower req).length = 42 := by
        obtain ⟨d, hd, hl, _⟩ := (C50_address (lower req)).mp (by simpa using hv)
        rw [hd]; simp [hl]
      split
      · exact .ok trivial
      · rename_i bs _
        refine Safe.bind (safe_untracked ha bs [] fun i v h => by simp [VMap.get] at h) fun m1 h1 => ?_
        refine Safe.bind (safe_tracked ha s.vals m1 hl h1) fun m2 h2 => ?_
        split
        · exact .ok trivial
        · split
          · exact .ok trivial
          · split
            · exact .ok trivial
            · rename_i subs unsubs hlog
              refine Safe.bind (P := Len42) ?_ fun m3 _ => .ok trivial
              refine safe_apiBlocks ?_ (hW.unsubs _ _ _ hlog) _ m2 h2
              intro p hp
              obtain ⟨e, he, rfl⟩ := List.mem_map.mp hp
              exact hW.subs _ _ _ hlog e he

theorem safe_relays {pool : Str} (hp : pool.length = 42) {ask : Str → RelayReply}
    (ha : ∀ r fee, ask r = .registered fee → fee.length = 42) :
    ∀ (l : List Str) (r : RelaysAnswer), Safe (fun _ => True) (relayLoop pool ask l r)
  | [], r => .ok trivial
  | relay :: l, r => by
    unfold relayLoop
    split
    · exact .ok trivial
    · exact .ok trivial
    · exact safe_relays hp ha l _
    · rename_i fee hfee
      refine Safe.bind (Safe.equals ((ha _ _ hfee).trans hp.symm)) fun x _ => ?_
      split
      · exact safe_relays hp ha l _
      · exact safe_relays hp ha l _

theorem safe_rewardLoop (limit : Nat) : ∀ (l : List SumBlock) (r : Int × Int × Nat),
    Safe (fun _ => True) (rewardLoop limit l r)
  | [], r => .ok trivial
  | b :: l, (x, y, z) => by
    unfold rewardLoop
    split
    · split
      · exact .panic
      · exact safe_rewardLoop limit l _
    · exact safe_rewardLoop limit l _

theorem safe_bigDiv (a b : Int) : Safe (fun _ => True) (bigDiv a b) := by
  unfold bigDiv
  split
  · exact .panic
  · exact .ok trivial

theorem safe_statistics (fin : Option Nat) (cache : BMap) (cfg : Config) (s : State) :
    Safe (fun _ => True) (statistics fin cache cfg s) := by
  unfold statistics
  split
  · exact .ok trivial
  · dsimp only
    split
    · exact .ok trivial
    · split
      · exact .ok trivial
      · refine Safe.bind (safe_rewardLoop _ _ _) fun x _ => ?_
        obtain ⟨x1, x2, x3⟩ := x
        dsimp only
        refine Safe.bind (P := fun _ => True) ?_ fun y _ => ?_
        · split
          · exact safe_bigDiv _ _
          · exact .ok trivial
        · refine Safe.bind (P := fun _ => True) ?_ fun z _ => .ok trivial
          split
          · exact safe_bigDiv _ _
          · exact .ok trivial

theorem safe_status (N : NodeInfo) (fin contract : Option Nat) (cfg : Config) (s : State) :
    Safe (fun _ => True) (handleStatus N fin contract cfg s) := by
  unfold handleStatus
  split
  · split
    · exact .ok trivial
    · exact .panic
    · exact .ok trivial
    · split <;> exact .ok trivial
  · exact .ok trivial

/-- **C66.** No HTTP request stops the process: whatever is asked, while the oracle works, if the pool
address has 42 characters, no handler calls log.Fatal (it may panic, which costs one connection). `pool` is
the pool address of the command line.

Missing, and false: the pool address without `0x` (`C66_false_no_prefix`), and handlers running at the same
time as the main loop (`C66_false_race`). -/
theorem C66_no_request_stops_the_process_partial {L : Lib} {H : List Nat → List Nat} {E : Env}
    (hE : ValidEnv E) (hX : ExactEnv E) (hC : NoSelfConsol E) {cfg : Config} {o : Oracle}
    (hw : Work H E (newOracle cfg) o) {W : Outside} (hW : GoTexts W) {pool : Str} (hp : pool.length = 42)
    (t : Nat) (relays : List Str) (r : Request) :
    serve L E t W pool relays o r ≠ .error .fatal := by
  have hl : ∀ p ∈ o.st.vals, p.2.waddr.length = 42 := fun p hp =>
    (work_records hE hX hC hw p.1 p.2 (Sorted.get_of_mem (work_stats hE hX hC hw).1 hp)).1
  suffices h : Safe (fun _ => True) (serve L E t W pool relays o r) from h.1
  cases r with
  | status => exact Safe.bind (safe_status _ _ _ _ _) fun _ _ => .ok trivial
  | relays key =>
    refine Safe.bind (P := fun _ => True) ?_ fun _ _ => .ok trivial
    unfold relayers
    split
    · exact .ok trivial
    · refine Safe.bind (safe_relays hp (fun r fee => hW.relay r key fee) relays _) fun x _ => ?_
      split <;> exact .ok trivial
  | byWithdrawal a => exact Safe.bind (safe_byWithdrawal hW hl a) fun _ _ => .ok trivial
  | statistics => exact Safe.bind (safe_statistics _ _ _ _) fun _ _ => .ok trivial
  | proof a =>
    rw [serve]
    split
    · rename_i h
      simp only [Bool.and_eq_true, Bool.not_eq_eq_eq_not, Bool.not_true] at h
      have := isAddress_lower ((C50_address a).mp h.1.2)
      rw [h.2] at this
      cases this
    · exact .ok trivial
  | root => exact .ok trivial
  | config => exact .ok trivial
  | state => exact .ok trivial
  | validators => exact .ok trivial
  | validatorInfo i => exact .ok trivial
  | byIndex l => exact .ok trivial
  | fees => exact .ok trivial
  | allBlocks => exact .ok trivial
  | proposedBlocks => exact .ok trivial
  | missedBlocks => exact .ok trivial
  | wrongFeeBlocks => exact .ok trivial
  | donations => exact .ok trivial

/-- **C66 is false** with a pool address without `0x`, which the command line accepts
(`C65_false_no_prefix`): anybody can stop the process by asking for the registration of a validator that some
relay knows. -/
theorem C66_false_no_prefix {L : Lib} {E : Env} {t : Nat} {W : Outside} {pool relay key fee : Str} {o : Oracle}
    (rest : List Str) (hp : pool.length = 40) (hk : IsKey key) (hr : W.relay relay key = .registered fee)
    (hf : fee.length = 42) :
    serve L E t W pool (relay :: rest) o (.relays key) = .error .fatal := by
  have hv : isValidPubkey key = true := (C50_pubkey_partial key).1 hk
  rw [serve, relayers, hv, relayLoop]
  dsimp only
  rw [hr]
  dsimp only
  unfold equals
  simp [hp, hf]
  rfl

/-- **C66 is false** for handlers running next to the main loop: the handler of `/memory/validators` can be
iterating over the live map of validators, holding no lock, at a moment at which the main loop holds the
write lock and changes that map. Go stops the process when it notices an iteration and a write at the same
time ("concurrent map iteration and map write"; this is not a panic and is not recovered). -/
theorem C66_false_race : ∃ (calls : Nat → Nat → List Act) (τ : Nat → Nat) (k : Nat),
    (∀ n, calls 0 n = ordinarySlots n) ∧ (∀ n, calls 1 n = validatorsActs) ∧
    Races (Sys.run calls τ k) 0 1 := by
  refine ⟨fun t n => if t = 0 then ordinarySlots n else if t = 1 then validatorsActs else [],
    fun k => if k < 6 then 1 else 0, 6 + 16, fun n => rfl, fun n => rfl, ?_⟩
  refine ⟨?_, ⟨[.unlock], ?_⟩, by decide, ?_, ?_⟩
  · unfold Writes; decide +kernel
  · decide +kernel
  · unfold Reads; decide +kernel
  · decide +kernel

namespace Sample

/-- a public key -/
def pubkey : Str := b!"0x" ++ hexEncode (List.replicate 48 171)

/-- the nodes are in order, the beacon node has reported validators 1, 2 and 3, validator 4 subscribes in a
block that is not finalized yet; the first relay knows the pool, the second has no registration, the third
has another fee recipient -/
def outside : Outside :=
  { fin := some 12000010
    cache := some [(1, bval 1), (2, bval 2), (3, bval 3)]
    contract := some (b!"0x00", 11999900)
    claimed := fun _ => some 0
    logs := fun _ => some ([⟨4, 1000, addr 4, 400⟩], [⟨2, addr 2, 401⟩])
    nodes := ⟨some 1, some (1, List.replicate 20 7), some true, .distance 1⟩
    relay := fun r _ => if r = b!"https://a" then .registered pool
      else if r = b!"https://b" then .unregistered else .registered feeAddr }

theorem outside_texts : GoTexts outside where
  subs := by
    intro k l l' h e he
    simp only [outside, Option.some.injEq, Prod.mk.injEq] at h
    rw [← h.1] at he
    simp only [List.mem_singleton] at he
    rw [he]; decide
  unsubs := by
    intro k l l' h e he
    simp only [outside, Option.some.injEq, Prod.mk.injEq] at h
    rw [← h.2] at he
    simp only [List.mem_singleton] at he
    rw [he]; decide
  relay := by
    intro r key fee h
    simp only [outside] at h
    split at h
    · cases h; decide
    · split at h
      · cases h
      · cases h; decide

theorem pubkey_ok : IsKey pubkey := ⟨_, rfl, by decide, by unfold HexChar; decide⟩

theorem final_work : Work hash env (newOracle cfg) final := Work.of_hist hist (by decide +kernel)

end Sample

/-- four slots have been processed, three validators are known to the beacon node, somebody asks -/
example (r : Request) : serve (Toy.lib Sample.hash) Sample.env 0 Sample.outside Sample.pool [b!"https://a"]
    Sample.final r ≠ .error .fatal :=
  C66_no_request_stops_the_process_partial Sample.env_valid Sample.env_exact Sample.env_noSelf Sample.final_work
    Sample.outside_texts (by decide) 0 _ r

/-- the same with the pool address without prefix -/
example : serve (Toy.lib Sample.hash) Sample.env 0 Sample.outside (Sample.pool.drop 2) [b!"https://a"]
    Sample.final (.relays Sample.pubkey) = .error .fatal :=
  C66_false_no_prefix (fee := Sample.pool) [] (by decide) Sample.pubkey_ok rfl (by decide)

end Verif
