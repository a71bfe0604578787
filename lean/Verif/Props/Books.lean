import Verif.Props.Listings
import Verif.Props.Money
import Verif.Props.Refinement
import Mathlib.Data.List.Forall2
/-
The endpoints that show the books (C80) and starting from the state of another oracle (C81).
-/
namespace Verif

/-! ### C80 The endpoints show the books -/

section
variable {E : Env} {cfg : Config} {bs : List FullBlock} {o : Oracle} (h : Hist E (newOracle cfg) bs o)
  (L : Lib) (t : Nat) (W : Outside) (pool : Str) (relays : List Str)
include h

/-- **C80**, donations: after processing `bs` from the beginning, `/memory/donations` lists, block by block,
what the pool contract reported receiving except the amount of the builder's payment. -/
theorem C80_donations : ∃ ds, List.Forall₂ (fun b d => DonationsOf b cfg.poolAddr d) bs ds ∧
    serve L E t W pool relays o .donations = .ok (.donations ds.flatten, o) := by
  have key : ∀ {o bs o'}, Hist E o bs o' → o.cfg.poolAddr = cfg.poolAddr →
      ∃ ds, List.Forall₂ (fun b d => DonationsOf b cfg.poolAddr d) bs ds ∧
        o'.st.donations = o.st.donations ++ ds.flatten := by
    intro o bs o' h
    induction h with
    | nil => exact fun _ => ⟨[], .nil, by simp⟩
    | @cons o b o1 n bs o2 hs _ ih =>
      intro hp
      obtain ⟨sb, dons, p, m, w, hsb, hd, _, hcfg, h5, _⟩ := slot_frame hs
      obtain ⟨ds, i1, i2⟩ := ih (by rw [hcfg]; exact hp)
      have e : o1.st.donations = o.st.donations ++ dons := by
        have := congrArg State.donations h5; exact this
      rw [hp] at hsb hd
      exact ⟨dons :: ds, .cons (donationsOf hsb hd) i1, by rw [i2, e, List.flatten_cons, List.append_assoc]⟩
  obtain ⟨ds, h1, h2⟩ := key h rfl
  have e : o.st.donations = ds.flatten := h2
  exact ⟨ds, h1, by rw [serve, e]⟩

/-- **C80**, fee and configuration: `/memory/feesinfo` shows the configured fee address and the same fee as
`/config`; everything else in `/config` is as configured. The fee is the configured one or one that was
agreed upon for a slot already processed. -/
theorem C80_fees : ∃ p x,
    serve L E t W pool relays o .fees = .ok (.fees p cfg.poolFeesAddr x, o) ∧
    serve L E t W pool relays o .config = .ok (.config { cfg with fee := p }, o) ∧
    (p = cfg.fee ∨ ∃ b ∈ bs, FeeChange cfg.network b.dutySlot p) := by
  have key : ∀ {o bs o'}, Hist E o bs o' → o.cfg.fee = o.st.fee → o.cfg = { cfg with fee := o.cfg.fee } →
      o.st.poolFeesAddr = cfg.poolFeesAddr →
      o'.cfg = { cfg with fee := o'.st.fee } ∧ o'.st.poolFeesAddr = cfg.poolFeesAddr ∧
      (o'.st.fee = o.st.fee ∨ ∃ b ∈ bs, FeeChange cfg.network b.dutySlot o'.st.fee) := by
    intro o bs o' h
    induction h with
    | nil => exact fun h1 h2 h3 => ⟨by rw [← h1]; exact h2, h3, Or.inl rfl⟩
    | @cons o b o1 n bs o2 hs _ ih =>
      intro h1 h2 h3
      obtain ⟨sb, dons, p, m, w, hsb, hd, _, hcfg, h5, _, hslot, hf⟩ := slot_frame hs
      have hne : o.cfg.network = cfg.network := by rw [h2]
      have hds : sb.slot = b.dutySlot := (summarize_slot hsb).1
      have e3 : o1.st.poolFeesAddr = cfg.poolFeesAddr := by
        have := congrArg State.poolFeesAddr h5; exact this.trans h3
      have hc := C33_fee_by_schedule hs
      have e1 : o1.cfg.fee = o1.st.fee := by
        rcases hc.1 with ⟨a, b, _⟩ | ⟨_, _, _, _, _, a, b⟩
        · rw [a, b]; exact h1
        · rw [a, b]
      obtain ⟨i1, i2, i3⟩ := ih e1 (by rw [hcfg, h2]) e3
      refine ⟨i1, i2, ?_⟩
      rcases i3 with i3 | ⟨b', hb', i3⟩
      · rcases hc.1 with ⟨a, _, _⟩ | ⟨f, x, _, hx, _, a, _⟩
        · exact Or.inl (i3.trans a)
        · refine Or.inr ⟨b, by simp, ?_⟩
          rw [i3, a, ← hds, hslot, ← hne]; exact hx
      · exact Or.inr ⟨b', List.mem_cons_of_mem _ hb', i3⟩
  obtain ⟨h1, h2, h3⟩ := key h rfl rfl rfl
  refine ⟨o.st.fee, o.st.poolFees, ?_, ?_, h3⟩
  · rw [serve, h2]
  · rw [serve, ← h1]

/-- **C80** (partial: under the conditions of C02), the accumulated fee: what `/memory/feesinfo` shows as
accumulated is everything the pool received, less what it owes to the validators. -/
theorem C80_fees_add_up_partial (hE : ValidEnv E) (hX : ExactEnv E) (hC : NoSelfConsol E)
    (hb : ∀ b ∈ bs, NoPaymentsIfMissed b ∧ DistinctPayments b) : ∃ p a x,
    serve L E t W pool relays o .fees = .ok (.fees p a x, o) ∧
    x = received o.st - pendingTotal o.st - accTotal o.st := by
  refine ⟨_, _, _, rfl, ?_⟩
  have := (C02_solvency_partial hE hX hC hb h).1
  unfold owed at this
  omega

end

/-- four slots: two donations, a fee of 700 and what is left of the rewards -/
example : Hist Sample.env (newOracle Sample.cfg) Sample.blocks Sample.final ∧
    (∃ l, serve (Toy.lib Sample.hash) Sample.env 0 Sample.outside Sample.pool [] Sample.final .donations =
      .ok (.donations l, Sample.final) ∧ l.length = 2) ∧
    Sample.final.st.poolFees ≠ 0 :=
  ⟨Sample.hist, ⟨_, rfl, by decide +kernel⟩, by decide +kernel⟩

/-! ### C81 Starting from the state of another oracle -/

theorem latest_le {E : Env} (hE : ValidEnv E) (t : Nat) {s : State} {n : Nat} (h : ∀ p ∈ s.committed, p.1 ≤ n) :
    (latestCommittedSlot E t s).1 ≤ n := by
  unfold latestCommittedSlot
  split
  · exact Nat.zero_le _
  · rcases (foldl_max (E.shuffle t s.committed) 0).2.2 with h0 | ⟨p, hp, e⟩
    · show List.foldl _ _ _ ≤ n
      rw [h0]; exact Nat.zero_le _
    · show List.foldl _ _ _ ≤ n
      rw [← e]
      exact h p ((shuffle_perm hE t s.committed).mem_iff.mp hp)

/-- loading looks only at what the bytes mean -/
theorem loadFromBytes_congr {L : Lib} {H E o raw raw'} (h : L.parse raw = L.parse raw') :
    loadFromBytes L H E o raw = loadFromBytes L H E o raw' := by
  unfold loadFromBytes; rw [h]

section
variable {L : Lib} (hL : LibOK L) {H : List Nat → List Nat} {E E' : Env} (hE : ValidEnv E) (hE' : ValidEnv E')
  {cfg : Config} {o o1 : Oracle} (hw : Work H E (newOracle cfg) o) (ht : StateTyped o.st) (ha : AddressesOK o.st)
  {t : Nat} {W : Outside} {pool : Str} {relays : List Str} {s : State}
  (hr : serve L E t W pool relays o .state = .ok (.state s, o1))
  {raw : List Nat} (hraw : L.parse raw = some (encState s))
include hL hE hE' hw ht ha hr hraw

theorem startup_synced (d : Disk) (slot : Nat) :
    startup L H E' d cfg (some raw) (some slot) =
      if !cfg.dryRun ∧ (latestCommittedSlot E' 2 o.st).1 > slot then do
        let (o3, r) ← loadGivenState L H E' d ⟨o.cfg, { o.st with stateHash := [], tick := 3 }⟩ slot
        if r = .loaded then .ok o3 else .error .fatal
      else .ok ⟨o.cfg, { o.st with stateHash := [], tick := 3 }⟩ := by
  have hi := cfgInv_work hE hw
  have hc : loadCfg (newOracle cfg).cfg o.st = o.cfg := loadCfg_inv hi
  have key := load_saved hL (H := H) hE' (o := newOracle cfg) ht ha (by rw [hc]; exact hi.same)
  rw [hc] at key
  have hs : s = hashState L o.st := by
    rw [serve] at hr
    simp only [Except.ok.injEq, Prod.mk.injEq, Reply.state.injEq] at hr
    exact hr.1.symm
  have hpar : L.parse raw = L.parse (savedBytes L o.st) := by
    rw [hraw, hs]
    exact (hL.reads _ (hashState_typed hL ht)).symm
  have hdry : o.cfg.dryRun = cfg.dryRun := by rw [hi.cfg_eq]
  unfold startup
  dsimp only
  rw [loadFromBytes_congr hpar, key, bind_val]
  dsimp only
  rw [if_neg (by decide), hdry]
  rfl

/-- **C81** (partial: the addresses of the state must be well formed, see `C30_false_pool_owned_validator`,
and the other oracle must not be ahead of the contract, see `C81_false_ahead`). An oracle that is configured
like another one and starts with the answer of the other one's `/state`, in whatever way the JSON text is
laid out, takes over its state and configuration, fee included. From then on it is in the position of an
oracle that has processed all the blocks itself. -/
theorem C81_checkpoint_sync_partial (d : Disk) {slot : Nat}
    (hslot : cfg.dryRun = true ∨ ∀ p ∈ o.st.committed, p.1 ≤ slot) :
    ∃ o', startup L H E' d cfg (some raw) (some slot) = .ok o' ∧ o'.cfg = o.cfg ∧ SameContent o'.st o.st ∧
      Work H E (newOracle cfg) o' := by
  rw [startup_synced hL hE hE' hw ht ha hr hraw, if_neg]
  · exact ⟨_, rfl, rfl, rfl, C30_work_goes_on hw rfl rfl⟩
  · rintro ⟨h1, h2⟩
    rcases hslot with hd | hs
    · rw [hd] at h1; simp at h1
    · have := latest_le hE' 2 (s := o.st) (n := slot) hs
      omega

/-- **C81 is false when the other oracle is ahead.** If the other oracle has frozen a checkpoint that the
contract has not accepted yet, an oracle that votes and has no files of its own cannot start from its
state: it looks for a file of the accepted slot and stops. -/
theorem C81_false_ahead {slot : Nat} (hdry : cfg.dryRun = false) (hahead : ∃ p ∈ o.st.committed, slot < p.1) :
    startup L H E' [] cfg (some raw) (some slot) = .error .fatal := by
  rw [startup_synced hL hE hE' hw ht ha hr hraw]
  obtain ⟨p, hp, hlt⟩ := hahead
  have := latest_ge hE' 2 hp
  rw [if_pos ⟨by rw [hdry]; rfl, by omega⟩]
  rfl

end

/-- **C81 is false for a source that lies.** Whatever balances somebody puts into a state with the right
configuration, they can be served with a matching hash, and an oracle starting from there takes them over. -/
theorem C81_false_lying_source {L : Lib} (hL : LibOK L) {H : List Nat → List Nat} {E : Env} (hE : ValidEnv E)
    {cfg : Config} {s : State} (ht : StateTyped s) (ha : AddressesOK s) (hc : CfgMatches cfg s)
    (d : Disk) {slot : Nat} (hslot : cfg.dryRun = true ∨ ∀ p ∈ s.committed, p.1 ≤ slot) :
    ∃ raw o', startup L H E d cfg (some raw) (some slot) = .ok o' ∧ SameContent o'.st s := by
  have hl : loadCfg (newOracle cfg).cfg s = cfg := by
    unfold loadCfg
    exact if_neg (fun h => h hc.fee)
  have key := load_saved hL (H := H) hE (o := newOracle cfg) ht ha (by rw [hl]; exact hc)
  rw [hl] at key
  refine ⟨savedBytes L s, ⟨cfg, { s with stateHash := [], tick := 3 }⟩, ?_, rfl⟩
  unfold startup
  dsimp only
  rw [key, bind_val]
  dsimp only
  rw [if_neg (by decide), if_neg]
  · rfl
  · rintro ⟨h1, h2⟩
    rcases hslot with hd | hs
    · rw [hd] at h1; simp at h1
    · have := latest_le hE ((newOracle cfg).st.tick + 2) (s := { s with stateHash := [], tick := (newOracle cfg).st.tick + 2 })
        (n := slot) hs
      omega

/-- C81: an oracle with two checkpoints serves its state; one that is started when the contract has accepted
the second one takes it over, one that is started before that stops. -/
example : ∃ o s o1 o', serve (Toy.lib Sample.hash) Sample.env 0 Sample.outside Sample.pool [] o .state =
      .ok (.state s, o1) ∧ o.st.committed.length = 2 ∧
    startup (Toy.lib Sample.hash) Sample.hash Sample.envRev [] Sample.feeCfg
      (some ((Toy.lib Sample.hash).print (encState s))) (some 14082460) = .ok o' ∧ SameContent o'.st o.st ∧
    startup (Toy.lib Sample.hash) Sample.hash Sample.envRev [] Sample.feeCfg
      (some ((Toy.lib Sample.hash).print (encState s))) (some 14082459) = .error .fatal := by
  obtain ⟨o, h1, h2⟩ := Sample.ex_does (L := Toy.lib Sample.hash) (H := Sample.hash) (E := Sample.env)
    (cs := Sample.feeOld ++ Sample.feeNew) (o := newOracle Sample.feeCfg)
    (P := fun o => typedB o.st && Sample.addressesB o.st &&
      (o.st.committed.all fun p => decide (p.1 ≤ 14082460)) &&
      (o.st.committed.any fun p => decide (14082459 < p.1)) && o.st.committed.length == 2) (by decide +kernel)
  simp only [Bool.and_eq_true, List.all_eq_true, List.any_eq_true, decide_eq_true_eq, beq_iff_eq] at h2
  obtain ⟨⟨⟨⟨a1, a2⟩, a3⟩, a4⟩, a5⟩ := h2
  have hL := Toy.lib_ok Sample.hash_ok
  have hw := Sample.work_of_does h1
  have hs : serve (Toy.lib Sample.hash) Sample.env 0 Sample.outside Sample.pool [] o .state =
    .ok (.state (hashState (Toy.lib Sample.hash) o.st), { o with st := hashState (Toy.lib Sample.hash) o.st }) := rfl
  have hp := hL.reads _ (hashState_typed hL (typed_of a1))
  obtain ⟨o', k1, _, k3, _⟩ := C81_checkpoint_sync_partial hL Sample.env_valid Sample.envRev_valid hw (typed_of a1)
    (Sample.addresses_of a2) hs hp [] (slot := 14082460) (Or.inr a3)
  exact ⟨o, _, _, o', hs, a5, k1, k3, C81_false_ahead hL Sample.env_valid Sample.envRev_valid hw (typed_of a1)
    (Sample.addresses_of a2) hs hp rfl a4⟩

/-- C81: somebody serves a state in which the pool has 1000 ether of fees -/
example : ∃ raw o', startup (Toy.lib Sample.hash) Sample.hash Sample.env [] Sample.feeCfg (some raw) (some 0) =
    .ok o' ∧ SameContent o'.st { (newOracle Sample.feeCfg).st with poolFees := 1000 * 10 ^ 18 } :=
  C81_false_lying_source (Toy.lib_ok Sample.hash_ok) Sample.env_valid (typed_of (by decide +kernel))
    (Sample.addresses_of (by decide +kernel)) ⟨rfl, rfl, rfl, rfl, rfl, rfl, rfl, rfl⟩ []
    (Or.inr (by simp [newOracle]))

end Verif
