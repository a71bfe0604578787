import Verif.Props.Pool
import Verif.Props.Client
/-
C116: from the books to the money, through the endpoint of any honest oracle and the contract.
-/
namespace Verif
open JsonText Rfc Client

theorem FrozenOf.books {H : List Nat → List Nat} {q q' : Oracle} {f : Frozen} (h : FrozenOf H q.st f)
    (hs : SameBooks q' q) : FrozenOf H q'.st f := by
  have hpf : q'.st.poolFees = q.st.poolFees := by have := congrArg State.poolFees hs.2; exact this
  have hpa : q'.st.poolFeesAddr = q.st.poolFeesAddr := by have := congrArg State.poolFeesAddr hs.2; exact this
  exact h.congr hs.latest hs.vals hpf hpa

/-- the root a contract holds was voted for -/
theorem PoolRun.voted {H : List Nat → List Nat} {Q : Nat → List Nat → Prop} {cs : List Claim} {p : Pool}
    (h : PoolRun H Q cs p) {root : List Nat} (hr : p.root = some root) : Q p.slot root ∧ ∀ b ∈ root, b < 256 := by
  induction h with
  | deployed => cases hr
  | report _ _ h2 _ h4 _ => cases hr; exact ⟨h2, h4⟩
  | claim _ _ _ _ _ _ _ ih => exact ih hr

section
variable {T : Chain} {V : Nat → Nat → BVal} {K : Nat → List (Nat × Nat)} {H : List Nat → List Nat} {cfg : Config}
variable {ι : Type} {n : Nat} {voted : ι → Nat → List Nat → Prop} {honest : ι → Prop}

/-- the checkpoint an honest oracle keeps for a slot is the one of the books -/
theorem lived_frozen {P : Law} {L : Lib} (hg : GoodCfg cfg) (hT : ChainTyped T) (hH : HashOK H) (hc : CfgTyped cfg)
    (hP : P.Good) (hR : P.Reads V K) (hG : ∀ E, Obeys P E → GoodEnv cfg E) (hL : LibOK L) {tr : List LoopEv} {l : Loop}
    (hl : Life P T L H cfg tr (.on l)) {slot : Nat} {f : Frozen} (hf : (slot, f) ∈ l.o.st.committed) :
    ∃ q, BooksAt T V K cfg slot q ∧ FrozenOf H q.st f ∧ f.slot = slot := by
  have hv := (life_inv hP hT hL hH hc hg.dep.1 hl).2.2.1
  obtain ⟨q, ⟨E, bs, q0, w1, w2, w3⟩, k1, _⟩ := hv.sound _ hf
  have e := (hv.commit.entry _ hf).1
  dsimp only at k1 e
  refine ⟨q0, ⟨E, bs, hG E w1, hR E w1, w2, ?_⟩, k1.books w3, e⟩
  rw [w3.latest, ← frozenOf_slot k1, e]

/-- **C116** (partial). A pool with an honest quorum, its contract after any votes and any claims, and any honest
oracle that has reached the checkpoint of the contract, whatever both have been through. Everybody to whom the books
of that slot owe something gets an answer to one GET request, whatever letter case they use for their address. From
its body they read the amount that the books owe, the part of it that they have not been paid yet, and a proof. The
contract accepts a claim of this amount with this proof and pays exactly the part shown as claimable. Missing: the
conditions of C84; the only alternative is that somebody has broken the hash function. -/
theorem C116_paid_partial (hA : ∀ n, n % 1200 = 0 → ActiveTargets V K n) (hg : GoodCfg cfg)
    (hC : SafeFetch cfg T) (hT : ChainTyped T) (hH : HashOK H) (hc : CfgTyped cfg)
    (hQ : HonestQuorum T V K H cfg n voted honest) {cs : List Claim} {p : Pool}
    (h : PoolRun H (Quorum n voted) cs p)
    (hfit : ∀ s q, s ≤ p.slot → BooksAt T V K cfg s q → received q.st < 2 ^ 256)
    {root : List Nat} (hr : p.root = some root)
    {P : Law} {L : Lib} (hP : P.Good) (hR : P.Reads V K) (hG : ∀ E, Obeys P E → GoodEnv cfg E) (hL : LibOK L)
    {tr : List LoopEv} {l : Loop} (hl : Life P T L H cfg tr (.on l)) {E : Env} {t : Nat} {W : Outside} {pool : Str}
    {relays : List Str} (hcon : W.contract = some (b!"0x" ++ hexEncode root, p.slot))
    (hcl : ∀ a, W.claimed a = some (p.claimed a : Int))
    (hready : oracleReady W.fin l.o.st.latestSlot maxSlotsBehind = true) (hat : ∃ f, (p.slot, f) ∈ l.o.st.committed)
    {q : Oracle} (hq : BooksAt T V K cfg p.slot q) {x : Int} {req : Str} (hreq : IsAddress req)
    (ho : OwedTo q.st (lower req) x) (X : Texts) :
    (∃ c ∈ cs, ∃ s q, BooksAt T V K cfg s q ∧ Forged H q.st c.root c.proof c.bytes) ∨
    ∃ r reply body j proof bytes addr, route (b!"/onchain/proof/" ++ req) = some r ∧
      serve L E t W pool relays l.o r = .ok (reply, l.o) ∧ replyBody X reply = some body ∧
      Denotes body j ∧ (∀ j', Denotes body j' → j' = j) ∧
      Amount j b!"leaf_accumulated_balance" x ∧ Amount j b!"claimable_rewards_wei" (x - p.claimed (lower req)) ∧
      Field j b!"merkle_proofs" (.arr (proof.map fun y => J.str (b!"0x" ++ hexEncode y))) ∧
      AddressText (lower req) addr ∧ ClaimBytes addr x.toNat bytes ∧
      ∃ p', PoolRun H (Quorum n voted) (⟨root, proof, bytes⟩ :: cs) p' ∧ p'.root = some root ∧ p'.slot = p.slot ∧
        (p'.paid : Int) = p.paid + (x - p.claimed (lower req)) ∧ (p'.claimed (lower req) : Int) = x ∧
        ∀ a, a ≠ lower req → p'.claimed a = p.claimed a := by
  obtain ⟨hvote, hb⟩ := h.voted hr
  -- the checkpoint of the oracle, that of the voters and that of the books are the same
  obtain ⟨f, hf⟩ := hat
  obtain ⟨q1, b1, f1, hslot⟩ := lived_frozen hg hT hH hc hP hR hG hL hl hf
  replace f1 := f1.books (hq.unique hA hg hC b1)
  obtain ⟨i, i1, i2⟩ := hQ.one hvote
  obtain ⟨tr', m1, m2⟩ := hQ.members i i1
  obtain ⟨q2, f', b2, f2, hroot⟩ := member_books hg hT hH hc m1 (Or.inr (m2 _ _ i2))
  replace f2 := f2.books (hq.unique hA hg hC b2)
  obtain rfl := frozenOf_unique f1 f2
  obtain ⟨k1, k2⟩ := hq.ok (H := H) hg hC
  obtain ⟨a1, a2⟩ := hq.addresses hg hC
  obtain ⟨F, _, hF, _⟩ := id hq
  obtain ⟨s', g1, g2⟩ := frozenOf_freeze hF.valid k1.commit.keys a1 f1
  obtain ⟨ls, root', l1, _, _, _, _, l6, l7, l8, _⟩ := frozen_facts hF.valid k1.commit.keys g1 g2
  obtain ⟨p1, p2⟩ := owedTo_bounds k2.nonneg k2.covered ho
  have p3 : x < 2 ^ 256 := lt_of_le_of_lt p2 (hfit _ _ (le_refl _) hq)
  have hnd := leaves_nodup l1 a2
  have hleaf := rawMap_full hnd ((owedTo_leaf l1).mp ho)
  rw [← l7] at hleaf
  obtain ⟨root2, e2, hst⟩ := C26_stored_proofs_verify hF.valid k1.commit.keys a1 g1 g2
  obtain ⟨sibs, addr, bytes, z0, z1, z2, z3, z4⟩ := hst _ hleaf p1 p3
  have hroot2 : root2 = root := by
    rw [e2] at hroot
    refine hexEncode_inj ?_ hb (List.append_cancel_left hroot)
    have hfold : ∀ (l : List (List Nat)) (y : List Nat), (∀ b ∈ y, b < 256) →
        ∀ b ∈ l.foldl (hashPair H) y, b < 256 := by
      intro l
      induction l with
      | nil => exact fun _ h => h
      | cons z l ih => exact fun y _ => ih _ (hH _).2
    rw [← z3]
    exact hfold _ _ (hH _).2
  subst hroot2
  -- not more has been claimed than is owed
  rcases h.inv hA hg hC hT hH hc hQ hfit with k | ⟨k, _⟩ | ⟨r', q3, c0, c1, c2, c3⟩
  · exact Or.inl k
  · rw [hr] at k; cases k
  right
  have hle : (p.claimed (lower req) : Int) ≤ x := by
    by_cases hz : p.claimed (lower req) = 0
    · rw [hz]; exact p1
    · obtain ⟨y, y1, y2⟩ := c3 _ hz
      obtain ⟨y', y3, y4⟩ := c1.grows hA hg hC hq (le_refl _) y1
      have := rawMap_full hnd ((owedTo_leaf l1).mp y3)
      have hn := rawMap_nodup ls
      have u1 := getStr_of_mem hn this
      rw [l7] at hleaf
      have u2 := getStr_of_mem hn hleaf
      rw [u1] at u2
      have : y' = x := by
        have := Option.some.inj u2
        exact congrArg Leaf.bal this
      omega
  -- the answer
  have hn := rawMap_nodup ls
  rw [← l7] at hn
  have s1 := getStr_of_mem hn hleaf
  have s2 := getStr_of_mem (by rw [l8]; exact hn) z0
  have hkeys := (life_inv hP hT hL hH hc hg.dep.1 hl).2.2.1.commit.keys
  have s3 := getFrozen_of_mem hkeys.nodup hf
  dsimp only at s1 s2 z1 z2
  obtain ⟨a, ha, d1, d2, d3⟩ : ∃ a, merkleProof E t W.fin (some (b!"0x" ++ hexEncode root2, p.slot)) W.claimed l.o.st req =
      .ok a ∧ a.leafBal = x ∧ a.claimable = x - p.claimed (lower req) ∧
      a.proofs = sibs.map fun y => b!"0x" ++ hexEncode y := by
    unfold merkleProof
    rw [hready, (C50_address req).mpr hreq]
    simp only [Bool.not_true, Bool.false_eq_true, if_false, ne_eq, s1, s2, s3, hcl, hroot, not_true_eq_false]
    exact ⟨_, rfl, rfl, rfl, rfl⟩
  have hrt : route (b!"/onchain/proof/" ++ req) = some (.proof req) := by
    refine (C70_router _ _).mpr ⟨rfl, ?_⟩
    intro x hx
    cases hx
    obtain ⟨d, rfl, _, hd⟩ := hreq
    refine ⟨by simp, fun hm => ?_⟩
    rcases List.mem_append.mp hm with hm | hm
    · revert hm; decide
    · have := hd 47 hm
      omega
  have hs : serve L E t W pool relays l.o (.proof req) = .ok (.proof (.ok a), l.o) := by
    unfold serve
    dsimp only
    rw [if_neg (by rw [isAddress_lower hreq]; simp), hcon, ha]
  have d := proofDoc a
  refine ⟨_, _, _, proofJ a, sibs, bytes, addr, hrt, hs, rfl, denotes_body _,
    (C113_one_meaning (denotes_body (proofJ a))).2, by rw [← d1]; exact d.leafBal, by rw [← d2]; exact d.claimable,
    ⟨_, rfl, ?_⟩, z1, z2, _, .claim h hr z1 z2 (fun y hy => (z4 hH y hy).1) z3 ?_, hr, rfl, ?_, ?_, ?_⟩
  · rw [d3, List.map_map]; rfl
  · omega
  · dsimp only
    omega
  · dsimp only
    rw [Function.update_self]
    omega
  · intro a' ha'
    dsimp only
    rw [Function.update_of_ne ha']

end

/-- a case that meets the hypotheses of `C116_paid_partial`: three members, one of which votes for anything; the owner
of validator 1 asks an oracle whose nodes list everything in reverse order, and is paid the 2290 wei they are owed -/
example : ∃ (reply : Reply) (l : Loop) (cs : List Claim) (p p' : Pool), p.root = some Sample.liveRoot ∧ p.paid = 0 ∧
    (∃ r, serve (Toy.lib Sample.hash) Sample.envRev 0 { Sample.outside with
        fin := some 12000010, contract := some (b!"0x" ++ hexEncode Sample.liveRoot, 12000000)
        claimed := fun _ => some 0 } Sample.pool [] l.o r = .ok (reply, l.o)) ∧
    PoolRun Sample.hash (Quorum 2 fun (i : Fin 3) s r => i = 2 ∨ s = 12000000 ∧ r = Sample.liveRoot) cs p' ∧
    p'.paid = 2290 := by
  have hq : Quorum 2 (fun (i : Fin 3) s r => i = 2 ∨ s = 12000000 ∧ r = Sample.liveRoot) 12000000 Sample.liveRoot :=
    ⟨[0, 1], by decide, by decide, fun i _ => Or.inr ⟨rfl, rfl⟩⟩
  have hb : ∀ b ∈ Sample.liveRoot, b < 256 := by decide
  have hrun : PoolRun Sample.hash (Quorum 2 fun (i : Fin 3) s r => i = 2 ∨ s = 12000000 ∧ r = Sample.liveRoot) []
      ⟨some Sample.liveRoot, 12000000, fun _ => 0, 0⟩ := .report .deployed (by decide) hq (by decide) hb
  obtain ⟨⟨l, tr⟩, h1, h2⟩ := Sample.ex_ok (x := Sample.runLoop (Toy.lib Sample.hash) Sample.hash Sample.envRev
      (List.replicate 7 (Sample.answers [] 11999900))
      ⟨.top, ⟨Sample.liveCfg, { (newOracle Sample.liveCfg).st with tick := 1 }⟩, [], 0⟩)
    (P := fun (p : Loop × List LoopEv) => (p.1.o.st.committed.any fun c => c.1 == 12000000) &&
      oracleReady (some 12000010) p.1.o.st.latestSlot maxSlotsBehind) (by decide +kernel)
  simp only [Bool.and_eq_true, List.any_eq_true, beq_iff_eq] at h2
  obtain ⟨⟨⟨c, f⟩, hf, rfl⟩, hready⟩ := h2
  have hlife : Life Sample.law Sample.chain (Toy.lib Sample.hash) Sample.hash Sample.liveCfg tr (.on l) :=
    Sample.life_of (tr0 := []) Sample.law_rev Sample.answers_ok (Sample.first_start Sample.law_rev .born rfl) h1
  obtain ⟨q, v, k1, k2, k3, k4⟩ := Sample.live_books
  have haddr : IsAddress v.waddr :=
    (k1.addresses Sample.cfg_good Sample.chain_good.toSafeFetch).1.vals (1, v) k3
  have ho : OwedTo q.st (lower v.waddr) 2290 := by
    rw [← k4]; exact .owner (p := (1, v)) k3
  rcases C116_paid_partial Sample.live_targets Sample.cfg_good Sample.chain_good.toSafeFetch Sample.chain_typed
      Sample.hash_ok Sample.liveCfg_typed Sample.live_quorum hrun (fun s q => Sample.live_fit) rfl Sample.law_good
      Sample.law_reads (fun _ => Sample.law_goodEnv) (Toy.lib_ok Sample.hash_ok) hlife (E := Sample.envRev) (t := 0)
      (W := { Sample.outside with
        fin := some 12000010, contract := some (b!"0x" ++ hexEncode Sample.liveRoot, 12000000)
        claimed := fun _ => some 0 }) (pool := Sample.pool) (relays := []) rfl (fun _ => rfl) hready ⟨f, hf⟩ k1 haddr ho
      ⟨fun _ => [], fun _ => [], fun _ => 0, fun _ => []⟩ with ⟨c, hc, _⟩ | k
  · cases hc
  · obtain ⟨r, reply, body, j, proof, bytes, addr, g1, g2, _, _, _, _, _, _, _, _, p', g3, _, _, g4, _⟩ := k
    refine ⟨reply, l, _, ⟨some Sample.liveRoot, 12000000, fun _ => 0, 0⟩, p', rfl, rfl, ⟨_, g2⟩, g3, ?_⟩
    dsimp only at g4
    omega

end Verif
