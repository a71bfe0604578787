import Verif.Lemmas.Commit
import Verif.Props.Identity
/-
Checkpoints: the leaves (C24, C25), the proofs (C26, C27), the stored map (C28) and determinism of the
root (C29). `H` is any function on byte strings (Keccak-256 in the program).
-/
namespace Verif

/-! ### C24 -/

/-- **C24.** Whatever the iteration order of the maps, the leaves of a checkpoint are the pool fees and
then one leaf per withdrawal address, in strictly increasing order, with what its validators are owed
together; their total is everything owed. -/
theorem C24_leaves_are_debts {E : Env} (hE : ValidEnv E) {t : Nat} {s : State} {ls : List Leaf}
    (h : aggregate E t s = .ok ls) :
    LeavesOf s ls ∧ (ls.map (·.bal)).sum = (s.vals.map fun p => p.2.acc).sum + s.poolFees :=
  ⟨(aggregate_ok hE h).1, (aggregate_ok hE h).2.1⟩

/-- **C24.** With well-formed addresses the computation of the leaves does not stop the process, and
freezing succeeds as soon as one validator is tracked. -/
theorem C24_checkpoint_possible {H : List Nat → List Nat} {E : Env} (hE : ValidEnv E) {s : State}
    (h : AddressesOK s) :
    ∃ s' r, freeze H E s = .ok (s', r) ∧ (r = true ↔ s.vals ≠ []) := by
  obtain ⟨ls, ha⟩ := aggregate_total hE (t := s.tick) h
  have hl := (aggregate_ok hE ha).1
  obtain ⟨a, tl, rfl⟩ : ∃ a tl, ls = a :: tl := by
    cases ls with
    | nil => have := hl.head; simp at this
    | cons a tl => exact ⟨a, tl, rfl⟩
  by_cases h2 : 2 ≤ (a :: tl).length
  · obtain ⟨f, root, hf, _⟩ := freeze_spec (H := H) ha h2
    refine ⟨_, true, hf, ⟨fun _ e => ?_, fun _ => rfl⟩⟩
    cases tl with
    | nil => simp at h2
    | cons l tl =>
      obtain ⟨⟨p, hp, _⟩, _⟩ := hl.sound l (by simp)
      rw [e] at hp; simp at hp
  · refine ⟨_, false, freeze_few ha (by omega), ⟨fun h => by simp at h, fun hne => ?_⟩⟩
    cases hv : s.vals with
    | nil => exact absurd hv hne
    | cons p ps =>
      obtain ⟨l, hm, _⟩ := hl.complete p (by rw [hv]; simp)
      simp only [List.tail_cons] at hm
      cases tl with
      | nil => simp at hm
      | cons l tl => simp at h2

/-- a toy hash function with 32-byte results -/
def Sample.hash (x : List Nat) : List Nat :=
  List.replicate 31 (x.sum % 256) ++ [(x.foldl (fun n y => n * 31 + y) 7) % 256]

/-- six validators of six owners, two more of one of them, addresses written in different case -/
def Sample.owed : State :=
  { Sample.st with
    vals := Sample.vals ++ [(10, { Sample.val 10 .active 3 100 with
      waddr := b!"0x0202020202020202020202020202020202020202" }),
      (11, { Sample.val 11 .active 3 1000 with
        waddr := b!"0X0202020202020202020202020202020202020202" })] }

example : ∃ ls, aggregate Sample.env 0 Sample.owed = .ok ls ∧ ls.length = 7 ∧
    ls[2]? = some ⟨b!"0x0202020202020202020202020202020202020202", 1106⟩ := by
  obtain ⟨ls, h, h2⟩ := Sample.ex_ok (x := aggregate Sample.env 0 Sample.owed)
    (P := fun ls => ls.length == 7 &&
      ls[2]? == some ⟨b!"0x0202020202020202020202020202020202020202", 1106⟩) (by decide +kernel)
  simp only [Bool.and_eq_true, beq_iff_eq] at h2
  exact ⟨ls, h, h2⟩

/-- A way to see that concrete text is an address. -/
theorem isAddress_of {a : Str} (h : (a.take 2 == b!"0x" && a.length == 42 &&
    (a.drop 2).all fun c => (48 ≤ c && c ≤ 57) || (97 ≤ c && c ≤ 102) || (65 ≤ c && c ≤ 70)) = true) :
    IsAddress a := by
  simp only [Bool.and_eq_true, beq_iff_eq, List.all_eq_true, Bool.or_eq_true, decide_eq_true_eq] at h
  refine ⟨a.drop 2, ?_, by rw [List.length_drop]; omega, ?_⟩
  · rw [← h.1.1, List.take_append_drop]
  · intro c hc
    have := h.2 c hc
    omega

theorem Sample.st_addresses : AddressesOK Sample.st := by
  refine ⟨?_, isAddress_of (by decide +kernel), ?_⟩
  · have : ∀ p ∈ Sample.st.vals, (p.2.waddr.take 2 == b!"0x" && p.2.waddr.length == 42 &&
        (p.2.waddr.drop 2).all fun c =>
          (48 ≤ c && c ≤ 57) || (97 ≤ c && c ≤ 102) || (65 ≤ c && c ≤ 70)) = true := by
      decide +kernel
    exact fun p hp => isAddress_of (this p hp)
  · decide +kernel

example : AddressesOK Sample.st ∧ Sample.st.vals ≠ [] := ⟨Sample.st_addresses, by decide⟩

/-! ### C25 -/

/-- the checkpoint that was just stored -/
theorem frozen_facts {H : List Nat → List Nat} {E : Env} (hE : ValidEnv E) {s s' : State} {f : Frozen}
    (hk : KeysOK s) (h : freeze H E s = .ok (s', true)) (hf : (s.latestSlot, f) ∈ s'.committed) :
    ∃ ls root, LeavesOf s ls ∧ (ls.map (·.bal)).sum = (s.vals.map fun p => p.2.acc).sum + s.poolFees ∧
      (∀ l ∈ ls, isHexAddress l.waddr = true ∧ lower l.waddr = l.waddr) ∧
      f.slot = s.latestSlot ∧ f.vals = s.vals ∧ f.root = b!"0x" ++ hexEncode root ∧
      f.leafs = rawMap ls ∧ f.proofs.map (·.1) = f.leafs.map (·.1) ∧
      (∀ q ∈ f.proofs, ∃ sibs l, q.2 = sibs.map (fun x => b!"0x" ++ hexEncode x) ∧
        (q.1, l) ∈ f.leafs ∧ Verifies H root sibs (leafPreimage l) ∧
        ∀ y ∈ sibs, ∃ z, y = H z) ∧
      (∃ T : HTree, T.hash H = root ∧ ∀ x ∈ T.leaves, ∃ l ∈ ls, x = leafPreimage l) := by
  obtain ⟨ls, ha⟩ := freeze_aggregate h
  obtain ⟨h1, h2, h3⟩ := aggregate_ok hE ha
  by_cases hl : 2 ≤ ls.length
  · obtain ⟨g, root, hg, h4⟩ := freeze_spec (H := H) ha hl
    rw [hg] at h
    simp only [Except.ok.injEq, Prod.mk.injEq, and_true] at h
    rw [← h] at hf
    dsimp only at hf
    rw [putFrozen_mem hk] at hf
    rcases hf with e | ⟨e, _⟩
    · have : f = g := by simpa using e
      subst this
      exact ⟨ls, root, h1, h2, h3, h4⟩
    · exact absurd rfl e
  · rw [freeze_few ha (by omega)] at h
    simp at h

theorem leaves_nodup {s ls} (h : LeavesOf s ls) (hF : FeesApart s) : (ls.map (·.waddr)).Nodup := by
  cases ls with
  | nil => simp
  | cons a tl =>
    have hh := h.head
    simp only [List.head?_cons, Option.some.injEq] at hh
    rw [List.map_cons, List.nodup_cons]
    refine ⟨?_, ?_⟩
    · intro hm
      obtain ⟨l, hl, e⟩ := List.mem_map.mp hm
      obtain ⟨⟨p, hp, e'⟩, _⟩ := h.sound l hl
      rw [hh] at e
      exact hF p hp (e'.symm.trans e)
    · unfold List.Nodup
      rw [List.pairwise_map]
      refine h.sorted.imp ?_
      intro a b hab e
      rw [e] at hab
      exact slt_asymm hab hab

/-- **C25, partial.** If the pool fee recipient owns no tracked validator, the stored checkpoint has
exactly one leaf and one proof per address, with the whole debt of the address, and one for the pool
fees; nothing else. What is missing for the full claim: the case below. -/
theorem C25_one_leaf_each_partial {H : List Nat → List Nat} {E : Env} (hE : ValidEnv E) {s s' : State}
    {f : Frozen} (hk : KeysOK s) (hF : FeesApart s) (h : freeze H E s = .ok (s', true))
    (hf : (s.latestSlot, f) ∈ s'.committed) :
    (f.leafs.map (·.1)).Nodup ∧ f.proofs.map (·.1) = f.leafs.map (·.1) ∧
    (∀ p ∈ s.vals, (lower p.2.waddr, ⟨lower p.2.waddr, debtOf s (lower p.2.waddr)⟩) ∈ f.leafs) ∧
    (lower s.poolFeesAddr, ⟨lower s.poolFeesAddr, s.poolFees⟩) ∈ f.leafs ∧
    (∀ q ∈ f.leafs, q.1 = q.2.waddr ∧
      (q.2 = ⟨lower s.poolFeesAddr, s.poolFees⟩ ∨ ∃ p ∈ s.vals, q.1 = lower p.2.waddr)) := by
  obtain ⟨ls, root, h1, _, _, _, _, _, h2, h3, _⟩ := frozen_facts hE hk h hf
  have hn := leaves_nodup h1 hF
  have hmem : ∀ l ∈ ls.tail, l ∈ ls := fun l hl => List.mem_of_mem_tail hl
  refine ⟨by rw [h2]; exact rawMap_nodup ls, h3, ?_, ?_, ?_⟩
  · intro p hp
    obtain ⟨l, hl, e⟩ := h1.complete p hp
    have hb := (h1.sound l hl).2
    have := rawMap_full hn (hmem l hl)
    rw [h2]
    have e2 : l = ⟨lower p.2.waddr, debtOf s (lower p.2.waddr)⟩ := by
      cases l; simp only [Leaf.mk.injEq]; dsimp only at e hb; rw [← e]; exact ⟨rfl, hb⟩
    rw [e2] at this
    exact this
  · rw [h2]
    have := rawMap_full hn (List.mem_of_mem_head? h1.head)
    exact this
  · intro q hq
    rw [h2] at hq
    obtain ⟨e1, e2⟩ := rawMap_mem hq
    refine ⟨e2, ?_⟩
    cases ls with
    | nil => simp at e1
    | cons a tl =>
      have hh := h1.head
      simp only [List.head?_cons, Option.some.injEq] at hh
      rcases List.mem_cons.mp e1 with e | e
      · left; rw [e, hh]
      · right
        obtain ⟨⟨p, hp, e'⟩, _⟩ := h1.sound q.2 e
        exact ⟨p, hp, e2.trans e'⟩

theorem Sample.frozen : ∃ s' f, freeze Sample.hash Sample.env Sample.st = .ok (s', true) ∧
    (Sample.st.latestSlot, f) ∈ s'.committed ∧ f.leafs.length = 7 := by
  obtain ⟨⟨s', r⟩, h, h2⟩ := Sample.ex_ok (x := freeze Sample.hash Sample.env Sample.st)
    (P := fun r => r.2 && r.1.committed.any fun p => p.1 == Sample.st.latestSlot &&
      p.2.leafs.length == 7) (by decide +kernel)
  simp only [Bool.and_eq_true, List.any_eq_true, beq_iff_eq] at h2
  obtain ⟨rfl, ⟨k, f⟩, hm, e, hl⟩ := h2
  dsimp only at e
  exact ⟨s', f, h, by rw [← e]; exact hm, hl⟩

example : KeysOK Sample.st ∧ FeesApart Sample.st := ⟨by unfold KeysOK; decide, by unfold FeesApart; decide +kernel⟩

/-- the pool fee recipient also owns validator 9 -/
def Sample.feeOwner : State :=
  { Sample.st with poolFeesAddr := b!"0x0909090909090909090909090909090909090909" }

/-- **C25 is false in general.** When the pool fee recipient owns a validator, the tree has two leaves
for the address but only one is stored: the leaf of the pool fees has no proof, so the fees cannot be
claimed. -/
theorem C25_false_fee_recipient_validator :
    ∃ s' f, freeze Sample.hash Sample.env Sample.feeOwner = .ok (s', true) ∧
      (Sample.feeOwner.latestSlot, f) ∈ s'.committed ∧ Sample.feeOwner.poolFees = 77 ∧
      debtOf Sample.feeOwner (lower Sample.feeOwner.poolFeesAddr) = 10 ∧
      ∀ q ∈ f.leafs, q.1 = lower Sample.feeOwner.poolFeesAddr → q.2.bal = 10 := by
  obtain ⟨⟨s', r⟩, h, h2⟩ := Sample.ex_ok (x := freeze Sample.hash Sample.env Sample.feeOwner)
    (P := fun r => r.2 && r.1.committed.any fun p => p.1 == Sample.st.latestSlot &&
      p.2.leafs.all fun q => q.1 != lower Sample.feeOwner.poolFeesAddr || q.2.bal == 10)
    (by decide +kernel)
  simp only [Bool.and_eq_true, List.any_eq_true, beq_iff_eq, List.all_eq_true, Bool.or_eq_true,
    bne_iff_ne] at h2
  obtain ⟨rfl, ⟨k, f⟩, hm, e, hl⟩ := h2
  dsimp only at e hl
  refine ⟨s', f, h, ?_, rfl, by decide +kernel, ?_⟩
  · have : Sample.feeOwner.latestSlot = Sample.st.latestSlot := rfl
    rw [this, ← e]; exact hm
  · intro q hq e'
    exact (hl q hq).resolve_left fun h => h e'

/-! ### C26 -/

/-- who may appear in the leaves -/
theorem leaf_address {s ls} (h : LeavesOf s ls) (hA : AddressesOK s) {l} (hl : l ∈ ls) :
    ∃ a, IsAddress a ∧ l.waddr = lower a ∧
      (l = ⟨lower s.poolFeesAddr, s.poolFees⟩ ∨
        ((∃ p ∈ s.vals, l.waddr = lower p.2.waddr) ∧ l.bal = debtOf s l.waddr)) := by
  cases ls with
  | nil => simp at hl
  | cons b tl =>
    have hh := h.head
    simp only [List.head?_cons, Option.some.injEq] at hh
    rcases List.mem_cons.mp hl with e | e
    · refine ⟨s.poolFeesAddr, hA.fees, by rw [e, hh], Or.inl (by rw [e, hh])⟩
    · obtain ⟨⟨p, hp, e1⟩, e2⟩ := h.sound l e
      exact ⟨p.2.waddr, hA.vals p hp, e1, Or.inr ⟨⟨p, hp, e1⟩, e2⟩⟩

/-- **C26.** For every address of a stored checkpoint there is a stored proof, and the contract accepts
the stored amount with it: hashing the address bytes and the amount, and then with each element of the
proof (smaller first), gives the stored root. Any number of leaves, any hash function. -/
theorem C26_stored_proofs_verify {H : List Nat → List Nat} {E : Env} (hE : ValidEnv E) {s s' : State}
    {f : Frozen} (hk : KeysOK s) (hA : AddressesOK s) (h : freeze H E s = .ok (s', true))
    (hf : (s.latestSlot, f) ∈ s'.committed) :
    ∃ root, f.root = b!"0x" ++ hexEncode root ∧
      ∀ q ∈ f.leafs, 0 ≤ q.2.bal → q.2.bal < 2 ^ 256 →
        ∃ sibs addr bytes, (q.1, sibs.map fun x => b!"0x" ++ hexEncode x) ∈ f.proofs ∧
          AddressText q.1 addr ∧ ClaimBytes addr q.2.bal.toNat bytes ∧ Verifies H root sibs bytes ∧
          (HashOK H → ∀ y ∈ sibs, y.length = 32 ∧ ∀ b ∈ y, b < 256) := by
  obtain ⟨ls, root, h1, _, _, _, _, hr, h2, h3, h4, _⟩ := frozen_facts hE hk h hf
  refine ⟨root, hr, ?_⟩
  intro q hq h0 hb
  obtain ⟨e1, e2⟩ := rawMap_mem (by rw [← h2]; exact hq)
  obtain ⟨a, ha, e3, _⟩ := leaf_address h1 hA e1
  have hkey : q.1 ∈ f.proofs.map (·.1) := by rw [h3]; exact List.mem_map.mpr ⟨q, hq, rfl⟩
  obtain ⟨⟨k, prf⟩, hp, e4⟩ := List.mem_map.mp hkey
  dsimp only at e4
  subst e4
  obtain ⟨sibs, l, e5, e6, e7, e8⟩ := h4 _ hp
  dsimp only at e5 e6
  have : l = q.2 := by
    have hn := rawMap_nodup ls
    rw [← h2] at hn
    have g1 := getStr_of_mem hn e6
    have g2 := getStr_of_mem (v := q.2) hn (k := q.1) (by exact hq)
    rw [g1] at g2
    exact Option.some.inj g2
  subst this
  obtain ⟨addr, ht, hc⟩ := leafPreimage_claim ha h0 hb
  have e9 : q.2 = ⟨lower a, q.2.bal⟩ := by rw [← e3]
  rw [← e9] at hc
  refine ⟨sibs, addr, _, by rw [← e5]; exact hp, by rw [e2, e3]; exact ht, hc, e7, ?_⟩
  intro hH y hy
  obtain ⟨z, rfl⟩ := e8 y hy
  exact hH z

theorem Sample.hash_ok : HashOK Sample.hash := by
  intro x
  refine ⟨by simp [Sample.hash], ?_⟩
  intro b hb
  simp only [Sample.hash, List.mem_append, List.mem_replicate, List.mem_singleton] at hb
  omega

example : KeysOK Sample.st ∧ AddressesOK Sample.st ∧ HashOK Sample.hash :=
  ⟨by unfold KeysOK; decide, Sample.st_addresses, Sample.hash_ok⟩

/-! ### C27 -/

/-- **C27.** Whoever makes the contract accept a claim of `amount` for the address `addr`, with any
proof of any length, claims the pool fees for their recipient, or exactly what the validators of the
address are owed; or two different byte strings with the same hash have been found, one among what the
contract hashed and one among the finitely many strings hashed to build the tree. The leaves of that
tree are such claims. -/
theorem C27_only_debts_claimable {H : List Nat → List Nat} (hH : HashOK H) {E : Env} (hE : ValidEnv E)
    {s s' : State} {f : Frozen} (hk : KeysOK s) (hA : AddressesOK s)
    (hpos : 0 ≤ s.poolFees ∧ ∀ a, 0 ≤ debtOf s a)
    (hfit : s.poolFees < 2 ^ 256 ∧ ∀ a, debtOf s a < 2 ^ 256)
    (h : freeze H E s = .ok (s', true)) (hf : (s.latestSlot, f) ∈ s'.committed) :
    ∃ root, ∃ T : HTree, f.root = b!"0x" ++ hexEncode root ∧ T.hash H = root ∧
      (∀ b ∈ T.leaves, ∃ addr amount, ClaimBytes addr amount b ∧
        ((AddressText (lower s.poolFeesAddr) addr ∧ s.poolFees = amount) ∨
        ∃ p ∈ s.vals, AddressText (lower p.2.waddr) addr ∧ debtOf s (lower p.2.waddr) = amount)) ∧
      ∀ addr amount bytes proof, ClaimBytes addr amount bytes → (∀ p ∈ proof, p.length = 32) →
        Verifies H root proof bytes →
        (AddressText (lower s.poolFeesAddr) addr ∧ s.poolFees = amount) ∨
        (∃ p ∈ s.vals, AddressText (lower p.2.waddr) addr ∧ debtOf s (lower p.2.waddr) = amount) ∨
        ∃ u ∈ verifierInputs H proof bytes, ∃ v ∈ T.inputs H, u ≠ v ∧ H u = H v := by
  obtain ⟨ls, root, h1, _, _, _, _, hr, h2, h3, h4, T, hT, hlv⟩ := frozen_facts hE hk h hf
  refine ⟨root, T, hr, hT, ?_, ?_⟩
  · intro b hb
    obtain ⟨l, hl, rfl⟩ := hlv b hb
    obtain ⟨a, ha, e1, e2⟩ := leaf_address h1 hA hl
    rcases e2 with e2 | ⟨⟨p, hpm, e2⟩, e3⟩
    · obtain ⟨addr, t, c⟩ := leafPreimage_claim hA.fees hpos.1 hfit.1
      rw [e2]
      exact ⟨addr, _, c, .inl ⟨t, by have := hpos.1; omega⟩⟩
    · have e4 : l = ⟨lower p.2.waddr, debtOf s (lower p.2.waddr)⟩ := by
        cases l; simp only [Leaf.mk.injEq]; dsimp only at e2 e3; rw [← e2]; exact ⟨rfl, e3⟩
      obtain ⟨addr, t, c⟩ := leafPreimage_claim (hA.vals p hpm) (hpos.2 (lower p.2.waddr)) (hfit.2 _)
      rw [e4]
      exact ⟨addr, _, c, .inr ⟨p, hpm, t, by have := hpos.2 (lower p.2.waddr); omega⟩⟩
  intro addr amount bytes proof hc hp hv
  have hlen : bytes.length = 52 := by
    obtain ⟨be, e, l, _⟩ := hc.bytes
    rw [e, List.length_append, hc.len, l]
  have hTl : ∀ b ∈ T.leaves, b.length ≠ 64 := by
    intro b hb
    obtain ⟨l, hl, rfl⟩ := hlv b hb
    obtain ⟨a, ha, e, _⟩ := leaf_address h1 hA hl
    rw [leafPreimage_length (by rw [e]; exact (addressBytes_spec ha).2.1)]
    omega
  unfold Verifies at hv
  rw [← hT] at hv
  rcases second_preimage (fun x => (hH x).1) bytes (by omega) proof T hp hTl hv with hm | hm
  · obtain ⟨l, hl, e⟩ := hlv _ hm
    obtain ⟨a, ha, e1, e2⟩ := leaf_address h1 hA hl
    rcases e2 with e2 | ⟨⟨p, hpm, e2⟩, e3⟩
    · left
      rw [e2] at e
      have := leafPreimage_inj hA.fees hpos.1 hfit.1 hc e
      exact this
    · right; left
      refine ⟨p, hpm, ?_⟩
      have e4 : l = ⟨lower p.2.waddr, debtOf s (lower p.2.waddr)⟩ := by
        cases l; simp only [Leaf.mk.injEq]; dsimp only at e2 e3; rw [← e2]; exact ⟨rfl, e3⟩
      rw [e4] at e
      exact leafPreimage_inj (hA.vals p hpm) (hpos.2 _) (hfit.2 _) hc e
  · exact Or.inr (Or.inr hm)

theorem debtOf_bounds {s : State} (hp : ∀ p ∈ s.vals, 0 ≤ p.2.acc) (a : Str) :
    0 ≤ debtOf s a ∧ debtOf s a ≤ (s.vals.map fun p => p.2.acc).sum := by
  unfold debtOf
  generalize s.vals = l at hp
  induction l with
  | nil => simp
  | cons q l ih =>
    have := ih fun p h => hp p (by simp [h])
    have h0 := hp q (by simp)
    rw [List.filter_cons]
    split
    · simp only [List.map_cons, List.sum_cons]; omega
    · simp only [List.map_cons, List.sum_cons]; omega

example : (0 ≤ Sample.st.poolFees ∧ ∀ a, 0 ≤ debtOf Sample.st a) ∧
    (Sample.st.poolFees < 2 ^ 256 ∧ ∀ a, debtOf Sample.st a < 2 ^ 256) := by
  have hp : ∀ p ∈ Sample.st.vals, 0 ≤ p.2.acc := by decide +kernel
  have ht : (Sample.st.vals.map fun p => p.2.acc).sum = 45 := by decide +kernel
  refine ⟨⟨by decide, fun a => (debtOf_bounds hp a).1⟩, by decide, fun a => ?_⟩
  have := (debtOf_bounds hp a).2
  rw [ht] at this
  omega

/-! ### C28 -/

/-- **C28.** Freezing adds or replaces the entry of the latest processed slot, with a copy of the
validators, and changes nothing else; without enough data it changes nothing (`tick` only counts the
loops over maps). -/
theorem C28_freeze_adds_one {H : List Nat → List Nat} {E : Env} (hE : ValidEnv E) {s s' : State} {r}
    (hk : KeysOK s) (h : freeze H E s = .ok (s', r)) :
    s' = { s with committed := s'.committed, tick := s'.tick } ∧
    (r = false → s'.committed = s.committed) ∧
    (r = true → ∃ f : Frozen, f.slot = s.latestSlot ∧ f.vals = s.vals ∧
      ∀ slot g, (slot, g) ∈ s'.committed ↔
        (slot = s.latestSlot ∧ g = f) ∨ (slot ≠ s.latestSlot ∧ (slot, g) ∈ s.committed)) := by
  rcases freeze_cases hE h with ⟨rfl, rfl⟩ | ⟨f, hF, rfl, hs⟩
  · exact ⟨rfl, fun _ => rfl, fun h => by simp at h⟩
  · refine ⟨by rw [hs], fun h => by simp at h, fun _ => ?_⟩
    have hmem : (s.latestSlot, f) ∈ s'.committed := by
      rw [hs]; dsimp only; rw [putFrozen_mem hk]; exact Or.inl rfl
    obtain ⟨_, _, _, _, _, e1, e2, _⟩ := frozen_facts hE hk h hmem
    refine ⟨f, e1, e2, ?_⟩
    intro slot g
    rw [hs]
    dsimp only
    rw [putFrozen_mem hk]
    simp only [Prod.mk.injEq, ne_eq]

/-- **C28.** Processing a slot changes no checkpoint. -/
theorem C28_slots_keep_checkpoints {E : Env} {o o' : Oracle} {b n}
    (h : advanceState E o b = .ok (o', some n)) : o'.st.committed = o.st.committed := by
  obtain ⟨_, _, _, _, _, _, _, _, _, h5, _⟩ := slot_frame h
  have := congrArg State.committed h5
  exact this

theorem work_inv {H E o o'} (hE : ValidEnv E) (hw : Work H E o o') (h : CommitInv H o.st) :
    CommitInv H o'.st ∧ ∀ p ∈ o.st.committed, p ∈ o'.st.committed := by
  induction hw with
  | refl => exact ⟨h, fun _ hp => hp⟩
  | slot _ hs hb ih =>
    obtain ⟨h1, h2⟩ := ih
    obtain ⟨h3, h4, _⟩ := h1.slot hs hb
    exact ⟨h3, fun p hp => by rw [h4]; exact h2 p hp⟩
  | freeze _ hf ih =>
    obtain ⟨h1, h2⟩ := ih
    obtain ⟨h3, h4⟩ := h1.freeze hE hf
    exact ⟨h3, fun p hp => h4 p (h2 p hp)⟩
  | saved x t _ ih =>
    obtain ⟨h1, h2⟩ := ih
    refine ⟨⟨h1.next, h1.keys, fun p hp => ?_⟩, h2⟩
    obtain ⟨e1, e2, e3⟩ := h1.entry p hp
    exact ⟨e1, e2, fun e => (e3 e).congr rfl rfl rfl rfl⟩

theorem work_start {H cfg} (h0 : 0 < cfg.depSlot) (h1 : cfg.depSlot < 2 ^ 64) :
    CommitInv H (newOracle cfg).st := by
  refine ⟨?_, ?_, ?_⟩
  · show cfg.depSlot = sub64 cfg.depSlot 1 + 1
    unfold sub64 u64
    omega
  · exact List.Pairwise.nil
  · intro p hp; cases hp

/-- **C28.** Whatever the interleaving of slots, freezes and saves, starting from a new oracle: no entry is
ever changed or removed, every entry is stored under its own slot, which is not in the future. -/
theorem C28_checkpoints_immutable {H : List Nat → List Nat} {E : Env} (hE : ValidEnv E) {cfg : Config}
    (h0 : 0 < cfg.depSlot) (h1 : cfg.depSlot < 2 ^ 64) {o o' : Oracle}
    (hw : Work H E (newOracle cfg) o) (hw' : Work H E o o') :
    (∀ p ∈ o.st.committed, p ∈ o'.st.committed) ∧ KeysOK o'.st ∧
    ∀ p ∈ o'.st.committed, p.2.slot = p.1 ∧ p.1 ≤ o'.st.latestSlot := by
  obtain ⟨h2, _⟩ := work_inv hE hw (work_start h0 h1)
  obtain ⟨h3, h4⟩ := work_inv hE hw' h2
  exact ⟨h4, h3.keys, fun p hp => ⟨(h3.entry p hp).1, (h3.entry p hp).2.1⟩⟩

/-- **C28.** Right after freezing, and as long as only slots are processed, the latest committed state
is the one just frozen: the only entry for that slot. -/
theorem C28_latest_is_just_frozen {H : List Nat → List Nat} {E : Env} (hE : ValidEnv E) {cfg : Config}
    (h0 : 0 < cfg.depSlot) (h1 : cfg.depSlot < 2 ^ 64) {o : Oracle} {s' : State} {bs} {o' : Oracle}
    (hw : Work H E (newOracle cfg) o) (hf : freeze H E o.st = .ok (s', true))
    (hh : Hist E ⟨o.cfg, s'⟩ bs o') (t : Nat) :
    ∃ f, (o.st.latestSlot, f) ∈ s'.committed ∧ latestCommittedSlot E t o'.st = (o.st.latestSlot, true) ∧
      latestCommitted E t o'.st = some f := by
  obtain ⟨h2, _⟩ := work_inv hE hw (work_start h0 h1)
  obtain ⟨h3, _⟩ := h2.freeze hE hf
  have hc : ∀ {p q : Oracle} {bs}, Hist E p bs q → q.st.committed = p.st.committed := by
    intro p q bs h
    induction h with
    | nil => rfl
    | cons hs _ ih => rw [ih, C28_slots_keep_checkpoints hs]
  have hc := hc hh
  rcases freeze_cases hE hf with ⟨h, _⟩ | ⟨f, hF, _, hs⟩
  · simp at h
  · have hmem : (o.st.latestSlot, f) ∈ s'.committed := by
      rw [hs]; dsimp only; rw [putFrozen_mem h2.keys]; exact Or.inl rfl
    refine ⟨f, hmem, ?_⟩
    apply latestCommitted_spec hE t
    · unfold KeysOK; rw [hc]; exact h3.keys
    · rw [hc]; exact hmem
    · rw [hc]
      intro p hp
      have := (h3.entry p hp).2.1
      rw [hs] at this
      exact this

/-- Four slots processed by a new oracle, then a checkpoint. -/
example : ∃ s', Work Sample.hash Sample.env (newOracle Sample.cfg) Sample.final ∧
    freeze Sample.hash Sample.env Sample.final.st = .ok (s', true) ∧ 0 < Sample.cfg.depSlot := by
  have hw : ∀ {o bs o'}, Hist Sample.env o bs o' → (∀ b ∈ bs, b.dutySlot + 1 < 2 ^ 64) →
      ∀ o0, Work Sample.hash Sample.env o0 o → Work Sample.hash Sample.env o0 o' := by
    intro o bs o' h
    induction h with
    | nil => exact fun _ _ h => h
    | @cons o b o1 n bs o2 hs _ ih =>
      intro hb o0 h0
      exact ih (fun c hc => hb c (by simp [hc])) o0 (.slot h0 hs (hb b (by simp)))
  obtain ⟨⟨s', r⟩, h, h2⟩ := Sample.ex_ok (x := freeze Sample.hash Sample.env Sample.final.st)
    (P := fun r => r.2) (by decide +kernel)
  dsimp only at h2
  subst h2
  exact ⟨s', hw Sample.hist (by decide +kernel) _ (.refl _), h, by decide⟩

/-! ### C29 -/

/-- **C29.** Two oracles that owe the same to the same addresses (in whatever letter case, however the
debts are spread over validators, whatever else is in their states) and run with any iteration orders
freeze the same leaves, proofs and root. -/
theorem C29_same_debts_same_root {H : List Nat → List Nat} {E E' : Env} (hE : ValidEnv E)
    (hE' : ValidEnv E') {s s' u u' : State} {f f' : Frozen} (hk : KeysOK s) (hk' : KeysOK s')
    (hd : SameDebts s s') (h : freeze H E s = .ok (u, true)) (h' : freeze H E' s' = .ok (u', true))
    (hf : (s.latestSlot, f) ∈ u.committed) (hf' : (s'.latestSlot, f') ∈ u'.committed) :
    f'.root = f.root ∧ f'.leafs = f.leafs ∧ f'.proofs = f.proofs := by
  rcases freeze_cases hE h with ⟨e, _⟩ | ⟨g, ⟨ls, hl, hz⟩, _, hs⟩
  · simp at e
  rcases freeze_cases hE' h' with ⟨e, _⟩ | ⟨g', ⟨ls', hl', hz'⟩, _, hs'⟩
  · simp at e
  have e1 : f = g := by
    rw [hs] at hf
    rcases (putFrozen_mem hk _ _ _).mp hf with e | ⟨e, _⟩
    · simpa using e
    · exact absurd rfl e
  have e2 : f' = g' := by
    rw [hs'] at hf'
    rcases (putFrozen_mem hk' _ _ _).mp hf' with e | ⟨e, _⟩
    · simpa using e
    · exact absurd rfl e
  subst e1; subst e2
  have := leaves_unique hl hl' hd.feesAddr hd.fees hd.debts hd.owners
  subst this
  unfold frz at hz hz'
  split at hz
  · simp at hz
  · rename_i hn
    rw [if_neg hn] at hz'
    simp only [bind_ok] at hz hz'
    obtain ⟨root, hr, ⟨a, b⟩, h2, hz⟩ := hz
    obtain ⟨root', hr', ⟨a', b'⟩, h2', hz'⟩ := hz'
    rw [hr] at hr'
    have := Except.ok.inj hr'
    subst this
    rw [h2] at h2'
    simp only [Except.ok.injEq, Prod.mk.injEq] at h2'
    simp only [Except.ok.injEq, Option.some.injEq] at hz hz'
    rw [← hz, ← hz']
    exact ⟨rfl, h2'.2.symm, h2'.1.symm⟩

/-- **C29.** And one of them can freeze exactly when the other can, given well-formed addresses. -/
theorem C29_same_debts_both_freeze {H : List Nat → List Nat} {E E' : Env} (hE : ValidEnv E)
    (hE' : ValidEnv E') {s s' : State} (hA : AddressesOK s) (hA' : AddressesOK s')
    (hd : SameDebts s s') :
    ∃ u u' r, freeze H E s = .ok (u, r) ∧ freeze H E' s' = .ok (u', r) := by
  obtain ⟨u, r, h1, h2⟩ := C24_checkpoint_possible (H := H) hE hA
  obtain ⟨u', r', h1', h2'⟩ := C24_checkpoint_possible (H := H) hE' hA'
  refine ⟨u, u', r, h1, ?_⟩
  have : r' = r := by
    have hiff : s.vals ≠ [] ↔ s'.vals ≠ [] := by
      constructor
      · intro hne
        obtain ⟨p, hp⟩ := List.exists_mem_of_ne_nil _ hne
        obtain ⟨q, hq, _⟩ := (hd.owners (lower p.2.waddr)).mpr ⟨p, hp, rfl⟩
        exact List.ne_nil_of_mem hq
      · intro hne
        obtain ⟨p, hp⟩ := List.exists_mem_of_ne_nil _ hne
        obtain ⟨q, hq, _⟩ := (hd.owners (lower p.2.waddr)).mp ⟨p, hp, rfl⟩
        exact List.ne_nil_of_mem hq
    cases r <;> cases r' <;> simp_all
  rw [← this]; exact h1'

/-- a state with the debts of `Sample.st` on other validators, in another order and letter case -/
def Sample.st2 : State :=
  { Sample.st with
    latestSlot := 5, poolFeesAddr := b!"0X1111111111111111111111111111111111111111"
    vals := [(12, { Sample.val 12 .active 0 3 with
        waddr := b!"0X0909090909090909090909090909090909090909" }),
      (20, { Sample.val 20 .banned 0 7 with waddr := b!"0x0909090909090909090909090909090909090909" }),
      (31, { Sample.val 3 .active 0 7 with index := 31 }),
      (32, { Sample.val 1 .active 0 5 with index := 32 }), (33, Sample.val 2 .active 0 6),
      (34, Sample.val 4 .active 0 8), (35, Sample.val 5 .active 0 9)] }

theorem Sample.sameDebts : SameDebts Sample.st Sample.st2 := by
  have hmem : ∀ (s : State) (a : Str), (∀ p ∈ s.vals, lower p.2.waddr ≠ a) → debtOf s a = 0 := by
    intro s a h
    unfold debtOf
    rw [List.filter_eq_nil_iff.mpr]
    · rfl
    · intro p hp; simpa using h p hp
  have hsame : ∀ a, (∃ p ∈ Sample.st2.vals, lower p.2.waddr = a) ↔
      ∃ p ∈ Sample.st.vals, lower p.2.waddr = a := by
    have h1 : ∀ p ∈ Sample.st2.vals, ∃ q ∈ Sample.st.vals, lower q.2.waddr = lower p.2.waddr := by
      decide +kernel
    have h2 : ∀ p ∈ Sample.st.vals, ∃ q ∈ Sample.st2.vals, lower q.2.waddr = lower p.2.waddr := by
      decide +kernel
    intro a
    constructor
    · rintro ⟨p, hp, rfl⟩; exact h1 p hp
    · rintro ⟨p, hp, rfl⟩; exact h2 p hp
  refine ⟨by decide +kernel, rfl, ?_, hsame⟩
  intro a
  by_cases h : ∃ p ∈ Sample.st.vals, lower p.2.waddr = a
  · obtain ⟨p, hp, rfl⟩ := h
    have : ∀ p ∈ Sample.st.vals, debtOf Sample.st2 (lower p.2.waddr) =
        debtOf Sample.st (lower p.2.waddr) := by decide +kernel
    exact this p hp
  · rw [hmem _ a fun p hp e => h ⟨p, hp, e⟩, hmem _ a fun p hp e => h ((hsame a).mp ⟨p, hp, e⟩)]

example : (∃ u, freeze Sample.hash Sample.env Sample.st = .ok (u, true)) ∧
    (∃ u, freeze Sample.hash Sample.envRev Sample.st2 = .ok (u, true)) := by
  constructor
  · obtain ⟨⟨u, r⟩, h, h2⟩ := Sample.ex_ok (x := freeze Sample.hash Sample.env Sample.st)
      (P := fun r => r.2) (by decide +kernel)
    dsimp only at h2; subst h2; exact ⟨u, h⟩
  · obtain ⟨⟨u, r⟩, h, h2⟩ := Sample.ex_ok (x := freeze Sample.hash Sample.envRev Sample.st2)
      (P := fun r => r.2) (by decide +kernel)
    dsimp only at h2; subst h2; exact ⟨u, h⟩

/-! ### C61 -/

theorem wellFormed_isAddress {w} (h : WellFormed w) : IsAddress w := by
  obtain ⟨d, e, hl, hc⟩ := h
  refine ⟨d, e, hl, fun c hm => ?_⟩
  have := hc c hm
  omega

/-- **C61, partial.** After any history of processed slots a checkpoint can be frozen without stopping
the process, provided that the configured fee recipient is an address and that no tracked validator has
the pool contract as withdrawal address. What is missing for the full claim: the second condition, which
depends on what strangers do (see below). -/
theorem C61_checkpoint_after_any_history_partial {H : List Nat → List Nat} {E : Env} (hE : ValidEnv E)
    (hX : ExactEnv E) (hC : NoSelfConsol E) (hG : GoBytes E) {cfg : Config} {bs : List FullBlock}
    {o' : Oracle} (hb : ∀ b ∈ bs, BytesOK b) (h : Hist E (newOracle cfg) bs o')
    (hF : IsAddress cfg.poolFeesAddr)
    (hP : ∀ p ∈ o'.st.vals, lower p.2.waddr ≠ lower o'.st.poolAddr) :
    ∃ s' r, freeze H E o'.st = .ok (s', r) ∧ (r = true ↔ o'.st.vals ≠ []) := by
  apply C24_checkpoint_possible hE
  refine ⟨?_, ?_, hP⟩
  · intro p hp
    have hs : VMap.Sorted o'.st.vals := by
      have : ∀ {o bs o'}, Hist E o bs o' → VMap.Sorted o.st.vals → VMap.Sorted o'.st.vals := by
        intro o bs o' h
        induction h with
        | nil => exact fun h => h
        | @cons o b o1 n bs o2 hstep _ ih =>
          intro hs
          obtain ⟨sb, dons, r, ops, _, _, _, _, hp, _⟩ := slot_runs (x := False) hE hX hC hs
            (fun hf => hf.elim) hstep
          exact ih (hp.sorted hs)
      exact this h List.Pairwise.nil
    exact wellFormed_isAddress (C19_addresses_well_formed hE hX hC hG hb h p.1 p.2
      (hs.get_of_mem hp)).1
  · have : ∀ {o bs o'}, Hist E o bs o' → o'.st.poolFeesAddr = o.st.poolFeesAddr := by
      intro o bs o' h
      induction h with
      | nil => rfl
      | cons hs _ ih =>
        obtain ⟨_, _, _, _, _, _, _, _, _, h5, _⟩ := slot_frame hs
        have := congrArg State.poolFeesAddr h5
        rw [ih]; exact this
    rw [this h]
    exact hF

example : (∀ b ∈ Sample.blocks, BytesOK b) ∧ GoBytes Sample.env ∧
    Hist Sample.env (newOracle Sample.cfg) Sample.blocks Sample.final ∧
    IsAddress Sample.cfg.poolFeesAddr ∧
    ∀ p ∈ Sample.final.st.vals, lower p.2.waddr ≠ lower Sample.final.st.poolAddr :=
  ⟨Sample.blocks_bytes, Sample.env_bytes, Sample.hist, isAddress_of (by decide +kernel),
    by decide +kernel⟩

/-- withdrawal credentials with the address of the pool contract -/
def Sample.poolCreds : List Nat :=
  1 :: (List.replicate 11 0 ++ [0xad, 0xfb, 0x8d, 0x27, 0x67, 0x1f, 0x14, 0xf2, 0x97, 0xee, 0x94, 0x13,
    0x5e, 0x26, 0x6a, 0xaf, 0xf8, 0x75, 0x2e, 0x35])

/-- a validator of nobody's, whose withdrawal address is the pool contract, proposes a vanilla block for
the pool -/
def Sample.poolOwned : FullBlock :=
  let b := Sample.prop 12000000 7 Sample.pool (Sample.tx (Sample.addr 50) (Sample.addr 51) 1) {}
  { b with validator := { b.validator with creds := Sample.poolCreds } }

/-- **C61 is false in general.** Anybody can make a validator whose withdrawal address is the pool
contract. When it proposes one block for the pool it is subscribed automatically, and from then on no
checkpoint can be frozen: the process exits with a fatal error at the next checkpoint, on every oracle
and after every restart. -/
theorem C61_false_pool_owned_validator :
    ∃ o, Hist Sample.env (newOracle Sample.cfg) [Sample.poolOwned] o ∧
      BytesOK Sample.poolOwned ∧
      freeze Sample.hash Sample.env o.st = .error .fatal := by
  obtain ⟨o, n, h, h2⟩ := Sample.ex_slot (E := Sample.env) (o := newOracle Sample.cfg)
    (b := Sample.poolOwned) (P := fun o => match freeze Sample.hash Sample.env o.st with
      | .error .fatal => true
      | _ => false) (by decide +kernel)
  refine ⟨o, .cons h (.nil _), ⟨by decide, fun v hv => by cases hv⟩, ?_⟩
  split at h2
  · assumption
  · simp at h2

end Verif
