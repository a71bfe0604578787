import Verif.Props.ApiInput
import Verif.Props.Persist
/-
C46: the proof endpoint.
-/
namespace Verif

theorem getStr_mem {α : Type} {m : List (Str × α)} {k : Str} {v : α} (h : getStr m k = some v) :
    (k, v) ∈ m := by
  unfold getStr at h
  obtain ⟨p, hp, e⟩ := Option.map_eq_some_iff.mp h
  have h1 := List.mem_of_find?_eq_some hp
  have h2 := List.find?_some hp
  simp only [beq_iff_eq] at h2
  rw [← e, ← h2]; exact h1

theorem getFrozen_mem {m : List (Nat × Frozen)} {k f} (h : getFrozen m k = some f) : (k, f) ∈ m := by
  unfold getFrozen at h
  obtain ⟨p, hp, e⟩ := Option.map_eq_some_iff.mp h
  have h1 := List.mem_of_find?_eq_some hp
  have h2 := List.find?_some hp
  simp only [beq_iff_eq] at h2
  rw [← e, ← h2]; exact h1

/-- every stored checkpoint was frozen while the oracle worked -/
theorem work_stems {H : List Nat → List Nat} {E : Env} (hE : ValidEnv E) {cfg : Config}
    (h0 : 0 < cfg.depSlot) (h1 : cfg.depSlot < 2 ^ 64) {o : Oracle} (hw : Work H E (newOracle cfg) o) :
    ∀ p ∈ o.st.committed, ∃ q s', Work H E (newOracle cfg) q ∧ KeysOK q.st ∧
      freeze H E q.st = .ok (s', true) ∧ q.st.latestSlot = p.1 ∧ p ∈ s'.committed := by
  induction hw with
  | refl => intro p hp; simp [newOracle] at hp
  | slot _ hs _ ih => rw [C28_slots_keep_checkpoints hs]; exact ih
  | @freeze o1 s r hw hf ih =>
    have hk := (work_inv hE hw (work_start h0 h1)).1.keys
    rcases freeze_cases hE hf with ⟨_, rfl⟩ | ⟨f, _, rfl, hs⟩
    · exact ih
    · intro p hp
      rw [hs] at hp
      rcases (putFrozen_mem hk _ _ p).mp hp with rfl | ⟨_, hp⟩
      · exact ⟨o1, s, hw, hk, hf, rfl, by rw [hs]; exact (putFrozen_mem hk _ _ _).mpr (Or.inl rfl)⟩
      · exact ih p hp
  | saved x t _ ih => exact ih

/-- what a successful answer was made of -/
theorem merkleProof_ok {E : Env} {t fin contract claimed s req a}
    (h : merkleProof E t fin contract claimed s req = .ok a) :
    ∃ root slot f proofs leaf cl, isValidAddress req = true ∧ contract = some (root, slot) ∧
      getFrozen s.committed slot = some f ∧ root = f.root ∧ getStr f.proofs (lower req) = some proofs ∧
      getStr f.leafs (lower req) = some leaf ∧ claimed (lower req) = some cl ∧
      a = { leafAddr := leaf.waddr, leafBal := leaf.bal, root := f.root, slot := f.slot, proofs := proofs
            registered := ((E.shuffle t f.vals).filter fun p =>
              lower p.2.waddr = lower (lower req)).map (·.1)
            accumulated := leaf.bal, claimable := leaf.bal - cl, claimed := cl
            pending := (((E.shuffle (t + 1) f.vals).filter fun p =>
              lower p.2.waddr = lower (lower req)).map fun p => p.2.pend).foldl (· + ·) 0 } := by
  unfold merkleProof at h
  split at h
  · cases h
  split at h
  · cases h
  rename_i hv
  dsimp only at h
  split at h
  · cases h
  rename_i root slot
  split at h
  · cases h
  rename_i f hf
  split at h
  · cases h
  rename_i hroot
  split at h
  · cases h
  rename_i proofs hp
  split at h
  · cases h
  rename_i leaf hl
  split at h
  · cases h
  rename_i cl hcl
  refine ⟨root, slot, f, proofs, leaf, cl, by simpa using hv, rfl, hf, not_not.mp hroot, hp, hl, hcl, ?_⟩
  exact (Answer.ok.inj h).symm

section
variable {H : List Nat → List Nat} {E : Env} (hE : ValidEnv E) {cfg : Config} (h0 : 0 < cfg.depSlot)
  (h1 : cfg.depSlot < 2 ^ 64) {o : Oracle} (hw : Work H E (newOracle cfg) o) {t : Nat} {fin : Option Nat}
  {root : Str} {slot : Nat} {claimed : Str → Option Int} {req : Str}
include hE h0 h1 hw

/-- **C46.** Whenever the endpoint answers, while the contract holds `root` for `slot`: the answer names
that root, the requested address in lower case, and a balance with a proof that the contract accepts
against that root for that address; what can be claimed is the balance minus what has been claimed. -/
theorem C46_answer_verifies {a : ProofAnswer}
    (h : merkleProof E t fin (some (root, slot)) claimed o.st req = .ok a) :
    ∃ bytes, root = b!"0x" ++ hexEncode bytes ∧ a.root = root ∧ a.slot = slot ∧ a.leafAddr = lower req ∧
      IsAddress req ∧
      claimed (lower req) = some a.claimed ∧ a.claimable = a.leafBal - a.claimed ∧
      a.accumulated = a.leafBal ∧
      (0 ≤ a.leafBal → a.leafBal < 2 ^ 256 →
        ∃ sibs addr claim, a.proofs = sibs.map (fun x => b!"0x" ++ hexEncode x) ∧
          AddressText (lower req) addr ∧ ClaimBytes addr a.leafBal.toNat claim ∧
          Verifies H bytes sibs claim) := by
  obtain ⟨root', slot', f, proofs, leaf, cl, hv, hc, hf, hr, hp, hl, hcl, ha⟩ := merkleProof_ok h
  cases hc
  have hadr := (C50_address req).mp hv
  obtain ⟨q, s', hwq, hk, hfr, hslot, hmem⟩ := work_stems hE h0 h1 hw _ (getFrozen_mem hf)
  dsimp only at hslot
  rw [← hslot] at hmem
  obtain ⟨ls, bytes, k1, k2, k3, k4, k5, k6, k7, k8, k9, k10⟩ := frozen_facts hE hk hfr hmem
  have hlm := getStr_mem hl
  have hpm := getStr_mem hp
  obtain ⟨e1, e2⟩ := rawMap_mem (by rw [← k7]; exact hlm)
  dsimp only at e1 e2
  refine ⟨bytes, by rw [hr, k6], by rw [ha, hr], by rw [ha]; exact k4.trans hslot,
    by rw [ha]; exact e2.symm, hadr, by rw [ha]; exact hcl, by rw [ha], by rw [ha], ?_⟩
  intro b0 b1
  rw [ha] at b0 b1 ⊢
  dsimp only at b0 b1 ⊢
  obtain ⟨sibs, l, e5, e6, e7, _⟩ := k9 _ hpm
  dsimp only at e5 e6
  have : l = leaf := by
    have hn := rawMap_nodup ls
    rw [← k7] at hn
    have g1 := getStr_of_mem hn e6
    rw [hl] at g1
    exact (Option.some.inj g1).symm
  subst this
  obtain ⟨addr, ht, hcb⟩ := leafPreimage_claim hadr b0 b1
  have e9 : l = ⟨lower req, l.bal⟩ := by rw [e2]
  rw [← e9] at hcb
  exact ⟨sibs, addr, _, e5, ht, hcb, e7⟩

/-- **C46.** What the answer says is what the oracle knew when it froze the checkpoint: the balance is
the whole debt to the address (or the pool fees), and the validators and the pending balance are those of
the address. -/
theorem C46_answer_is_debt {a : ProofAnswer}
    (h : merkleProof E t fin (some (root, slot)) claimed o.st req = .ok a) :
    ∃ q, Work H E (newOracle cfg) q ∧ q.st.latestSlot = slot ∧
      ((a.leafBal = debtOf q.st (lower req) ∧ ∃ p ∈ q.st.vals, lower p.2.waddr = lower req) ∨
        (a.leafBal = q.st.poolFees ∧ lower q.st.poolFeesAddr = lower req)) ∧
      a.registered.Perm ((q.st.vals.filter fun p => lower p.2.waddr = lower req).map (·.1)) ∧
      a.pending = ((q.st.vals.filter fun p => lower p.2.waddr = lower req).map fun p => p.2.pend).sum := by
  obtain ⟨root', slot', f, proofs, leaf, cl, hv, hc, hf, hr, hp, hl, hcl, ha⟩ := merkleProof_ok h
  cases hc
  obtain ⟨q, s', hwq, hk, hfr, hslot, hmem⟩ := work_stems hE h0 h1 hw _ (getFrozen_mem hf)
  dsimp only at hslot
  rw [← hslot] at hmem
  obtain ⟨ls, bytes, k1, k2, k3, k4, k5, k6, k7, k8, k9, k10⟩ := frozen_facts hE hk hfr hmem
  obtain ⟨e1, e2⟩ := rawMap_mem (by rw [← k7]; exact getStr_mem hl)
  dsimp only at e1 e2
  have hll := lower_lower req
  refine ⟨q, hwq, hslot, ?_, ?_, ?_⟩
  · rw [ha]
    dsimp only
    cases ls with
    | nil => simp at e1
    | cons x tl =>
      have hh := k1.head
      simp only [List.head?_cons, Option.some.injEq] at hh
      rcases List.mem_cons.mp e1 with e | e
      · right
        rw [e, hh] at e2 ⊢
        exact ⟨rfl, e2.symm⟩
      · left
        obtain ⟨⟨p, hp, e'⟩, hb⟩ := k1.sound leaf e
        exact ⟨by rw [hb, ← e2], p, hp, by rw [← e', e2]⟩
  · rw [ha]
    dsimp only
    rw [hll, k5]
    exact ((shuffle_perm hE t q.st.vals).filter _).map _
  · rw [ha]
    dsimp only
    rw [hll, k5, ← List.sum_eq_foldl]
    exact (((shuffle_perm hE (t + 1) q.st.vals).filter _).map _).sum_eq

/-- **C46.** Everybody who owned a tracked validator when the current on-chain checkpoint was frozen gets
an answer, whatever letter case they use for their address. -/
theorem C46_owner_served {f : Frozen} (hf : (slot, f) ∈ o.st.committed)
    (hready : oracleReady fin o.st.latestSlot maxSlotsBehind = true) (hreq : IsAddress req)
    (hown : ∃ p ∈ f.vals, SameAddr req p.2.waddr) (hcl : ∃ x, claimed (lower req) = some x) :
    ∃ a, merkleProof E t fin (some (f.root, slot)) claimed o.st req = .ok a := by
  obtain ⟨q, s', hwq, hk, hfr, hslot, hmem⟩ := work_stems hE h0 h1 hw _ hf
  dsimp only at hslot
  rw [← hslot] at hmem
  obtain ⟨ls, bytes, k1, k2, k3, k4, k5, k6, k7, k8, k9, k10⟩ := frozen_facts hE hk hfr hmem
  obtain ⟨p, hp, hsame⟩ := hown
  rw [k5] at hp
  obtain ⟨l, hl, e⟩ := k1.complete p hp
  obtain ⟨l', hl'⟩ := rawMap_key (List.mem_of_mem_tail hl)
  have hkeys := (work_inv hE hw (work_start h0 h1)).1.keys
  have hkey : l.waddr = lower req := by rw [e]; exact hsame.2.symm
  rw [hkey, ← k7] at hl'
  have hn := rawMap_nodup ls
  rw [← k7] at hn
  have g1 := getStr_of_mem hn hl'
  have hpk : lower req ∈ f.proofs.map (·.1) := by
    rw [k8]; exact List.mem_map.mpr ⟨_, hl', rfl⟩
  obtain ⟨⟨k, prf⟩, hpm, e4⟩ := List.mem_map.mp hpk
  dsimp only at e4
  rw [e4] at hpm
  have g2 := getStr_of_mem (by rw [k8]; exact hn) hpm
  obtain ⟨x, hx⟩ := hcl
  unfold merkleProof
  have g3 := getFrozen_of_mem hkeys.nodup hf
  rw [hready, (C50_address req).mpr hreq]
  simp only [Bool.not_true, Bool.false_eq_true, if_false, ne_eq, not_true_eq_false, g1, g2, g3, hx]
  exact ⟨_, rfl⟩

omit hE h0 h1 hw in
/-- **C46.** The letter case of the request does not matter. -/
theorem C46_letter_case {req' : Str} (ha : IsAddress req) (ha' : IsAddress req') (hs : SameAddr req req') :
    merkleProof E t fin (some (root, slot)) claimed o.st req =
      merkleProof E t fin (some (root, slot)) claimed o.st req' := by
  unfold merkleProof
  rw [(C50_address req).mpr ha, (C50_address req').mpr ha', hs.2]

end

namespace Sample
/-- the address of validator 10 -/
def caseAddr : Str := b!"0x0A0a0A0a0A0a0A0a0A0a0A0a0A0a0A0a0A0a0A0a"

/-- validator 10 subscribes, then a checkpoint -/
def caseCmds : List Cmd :=
  [.slot { prop 12000000 1 builder (tx builder pool 5000)
      { ether := [⟨5000, pool, 100⟩], subs := [⟨10, 1000, addr 10, 100⟩] } with
      valsSubs := [some (bval 10)] }, .freeze]

/-- the endpoint answers -/
def served (E : Env) (req : Str) (o : Oracle) : Bool :=
  match getFrozen o.st.committed 12000000 with
  | none => false
  | some f => match merkleProof E 0 (some 12000010) (some (f.root, 12000000)) (fun _ => some 7) o.st req with
    | .ok a => a.claimable == a.leafBal - 7 && a.registered == [10] && a.pending != 0 && a.proofs.length != 0
    | _ => false
end Sample

/-- the owner of validator 10, in mixed case -/
example : ∃ o, Work Sample.hash Sample.env (newOracle Sample.cfg) o ∧
    Sample.served Sample.env Sample.caseAddr o = true := by
  obtain ⟨o, h1, h2⟩ := Sample.ex_does (L := Toy.lib Sample.hash) (H := Sample.hash) (E := Sample.env)
    (cs := Sample.caseCmds) (o := newOracle Sample.cfg) (P := Sample.served Sample.env Sample.caseAddr)
    (by decide +kernel)
  exact ⟨o, Sample.work_of_does h1, h2⟩

end Verif
