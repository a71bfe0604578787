import Verif.Props.Life
import Verif.Spec.Pool
/-
Properties C84 and C85: several oracles and the contract. The root the contract accepts is the root of the
books, and what it pays out is covered by what it received.
-/
namespace Verif

section
variable {T : Chain} {V : Nat → Nat → BVal} {K : Nat → List (Nat × Nat)} {H : List Nat → List Nat} {cfg : Config}

theorem BooksAt.ok (hg : GoodCfg cfg) (hC : SafeFetch cfg T) {s : Nat} {q : Oracle} (h : BooksAt T V K cfg s q) :
    Kept H cfg q ∧ StateSafe cfg q.st := by
  obtain ⟨E, bs, h1, h2, h3, h4⟩ := h
  exact ⟨h3.work hg.dep.1 hg.dep.2, h3.safe hg h1 hC⟩

theorem BooksAt.addresses (hg : GoodCfg cfg) (hC : SafeFetch cfg T) {s : Nat} {q : Oracle}
    (h : BooksAt T V K cfg s q) : AddressesOK q.st ∧ FeesApart q.st := by
  obtain ⟨k1, k2⟩ := h.ok (H := id) hg hC
  have hpool : q.st.poolAddr = cfg.poolAddr := by rw [k1.config.same.poolAddr, k1.config.cfg_eq]
  have hfees : q.st.poolFeesAddr = cfg.poolFeesAddr := by rw [k1.config.same.poolFeesAddr, k1.config.cfg_eq]
  exact ⟨⟨fun p hp => wellFormed_isAddress (k2.owners p hp).1, by rw [hfees]; exact hg.feesAddr,
    fun p hp => by rw [hpool]; exact (k2.owners p hp).2.1⟩, fun p hp => by rw [hfees]; exact (k2.owners p hp).2.2⟩

theorem BooksAt.course {s : Nat} {q : Oracle} (h : BooksAt T V K cfg s q) : Course T V K (newOracle cfg) q := by
  obtain ⟨E, bs, h1, h2, h3, h4⟩ := h
  exact h3.course h1.valid h1.exact h2

theorem BooksAt.unique (hA : ∀ n, n % 1200 = 0 → ActiveTargets V K n) (hg : GoodCfg cfg) (hC : SafeFetch cfg T)
    {s : Nat} {q q' : Oracle} (h : BooksAt T V K cfg s q) (h' : BooksAt T V K cfg s q') : SameBooks q q' := by
  refine Course.agree (by exact List.Pairwise.nil) hA h.course h'.course ?_
  rw [(h.ok (H := id) hg hC).1.commit.next, (h'.ok (H := id) hg hC).1.commit.next]
  obtain ⟨_, _, _, _, _, e⟩ := h
  obtain ⟨_, _, _, _, _, e'⟩ := h'
  rw [e, e']

/-- nobody is owed less than before -/
structure Grows (s s' : State) : Prop where
  fees : s.poolFees ≤ s'.poolFees
  vals : ∀ i v, VMap.get s.vals i = some v → ∃ v', VMap.get s'.vals i = some v' ∧ v.acc ≤ v'.acc ∧ v'.waddr = v.waddr

theorem Grows.refl (s : State) : Grows s s := ⟨le_refl _, fun _ v h => ⟨v, h, le_refl _, rfl⟩⟩

theorem Grows.trans {s s' s'' : State} (h : Grows s s') (h' : Grows s' s'') : Grows s s'' := by
  refine ⟨le_trans h.fees h'.fees, fun i v hv => ?_⟩
  obtain ⟨v1, a1, a2, a3⟩ := h.vals i v hv
  obtain ⟨v2, b1, b2, b3⟩ := h'.vals i v1 a1
  exact ⟨v2, b1, le_trans a2 b2, b3.trans a3⟩

/-- on its way the oracle was at every slot before -/
theorem Uncut.back (hg : GoodCfg cfg) {E : Env} (hE : GoodEnv cfg E) (hC : SafeFetch cfg T) {bs} {q : Oracle}
    (h : Uncut T E (newOracle cfg) bs q) {s : Nat} (h0 : (newOracle cfg).st.latestSlot ≤ s)
    (h1 : s ≤ q.st.latestSlot) :
    ∃ bs1 q1, Uncut T E (newOracle cfg) bs1 q1 ∧ q1.st.latestSlot = s ∧ Grows q1.st q.st := by
  induction h with
  | start => exact ⟨[], _, .start, by omega, .refl _⟩
  | @slot bs o1 b o2 n hu hf hs hb ih =>
    by_cases hk : s ≤ o1.st.latestSlot
    · obtain ⟨bs1, q1, k1, k2, k3⟩ := ih hk
      refine ⟨bs1, q1, k1, k2, k3.trans ?_⟩
      have st := hu.safe hg hE hC
      have kp : Kept id cfg o1 := hu.work hg.dep.1 hg.dep.2
      obtain ⟨_, _, _, _, _, _, _, k8, k9⟩ := fetched_honest hC.honest hf
      have hpf : PostFork1 o1.cfg.network o1.st.nextSlot := by
        rw [kp.config.cfg_eq]; exact postFork1_mono hg.fork st.dep
      obtain ⟨g1, g2⟩ := slot_grows hE.valid hE.exact hE.noSelf hE.sane st.map st.nonneg st.fee.1 hpf k8 k9 hs
      exact ⟨g1, g2⟩
    · have kp : Kept id cfg o1 := hu.work hg.dep.1 hg.dep.2
      have e := (C20_exactly_next hs).2.2.1
      have e' := (slot_next hs).1
      have := kp.commit.next
      exact ⟨_, o2, .slot hu hf hs hb, by omega, .refl _⟩

theorem Grows.owed {s s' : State} (hg : Grows s s') (hm : MapOK s) (hm' : MapOK s') (hn : NonNeg s')
    (hf : s'.poolFeesAddr = s.poolFeesAddr) {a : Str} {x : Int} (h : OwedTo s a x) :
    ∃ x', OwedTo s' a x' ∧ x ≤ x' := by
  cases h with
  | fees => exact ⟨_, by rw [← hf]; exact .fees, hg.fees⟩
  | @owner p hp =>
    obtain ⟨v', h1, _, h3⟩ := hg.vals p.1 p.2 (VMap.Sorted.get_of_mem hm hp)
    have hp' := VMap.mem_of_get h1
    have e := OwedTo.owner (s := s') hp'
    dsimp only at e
    rw [h3] at e
    refine ⟨_, e, ?_⟩
    have hsum : ∀ (s : State) (w : Str), debtOf s w =
        VMap.total (fun v => if lower v.waddr = w then v.acc else 0) s.vals := by
      intro s w
      unfold debtOf VMap.total
      induction s.vals with
      | nil => rfl
      | cons p l ih =>
        simp only [List.filter_cons, List.map_cons, List.sum_cons]
        by_cases hp : lower p.2.waddr = w
        · simp [hp, ih]
        · simp [hp, ih]
    rw [hsum, hsum]
    apply total_le hm hm'
    · intro i v hv
      obtain ⟨v', h1, h2, h3⟩ := hg.vals i v hv
      refine ⟨v', h1, ?_⟩
      rw [h3]
      split
      · exact h2
      · exact le_refl _
    · intro i v hv
      have := (hn.2 _ (VMap.mem_of_get hv)).2
      dsimp only at this ⊢
      split <;> omega

theorem BooksAt.grows (hA : ∀ n, n % 1200 = 0 → ActiveTargets V K n) (hg : GoodCfg cfg) (hC : SafeFetch cfg T)
    {s s' : Nat} {q q' : Oracle} (h : BooksAt T V K cfg s q) (h' : BooksAt T V K cfg s' q') (hs : s ≤ s')
    {a : Str} {x : Int} (ho : OwedTo q.st a x) : ∃ x', OwedTo q'.st a x' ∧ x ≤ x' := by
  obtain ⟨E, bs, h1, h2, h3, h4⟩ := h'
  have h0 : (newOracle cfg).st.latestSlot ≤ s := by
    obtain ⟨F, cs, g1, g2, g3, rfl⟩ := id h
    have := (h.ok (H := id) hg hC).2.dep
    have := (h.ok (H := id) hg hC).1.commit.next
    have := (Kept.start (H := id) hg.dep.1 hg.dep.2).commit.next
    have e : (newOracle cfg).st.nextSlot = cfg.depSlot := rfl
    omega
  obtain ⟨bs1, q1, k1, k2, k3⟩ := h3.back hg h1 hC h0 (by omega)
  have b1 : BooksAt T V K cfg s q1 := ⟨E, bs1, h1, h2, k1, k2⟩
  have b' : BooksAt T V K cfg s' q' := ⟨E, bs, h1, h2, h3, h4⟩
  have hb := h.unique hA hg hC b1
  obtain ⟨o1, o2⟩ := b1.ok (H := id) hg hC
  obtain ⟨o1', o2'⟩ := b'.ok (H := id) hg hC
  have hf : q'.st.poolFeesAddr = q1.st.poolFeesAddr := by
    rw [o1'.config.same.poolFeesAddr, o1'.config.cfg_eq, o1.config.same.poolFeesAddr, o1.config.cfg_eq]
  refine k3.owed o2.map o2'.map o2'.nonneg hf ?_
  have hd := hb.debts
  cases ho with
  | fees =>
    have e1 : q.st.poolFees = q1.st.poolFees := hd.fees.symm
    rw [e1, ← hd.feesAddr]
    exact .fees
  | @owner p hp =>
    rw [← hd.debts]
    rw [hb.vals] at hp
    exact .owner hp

theorem owedTo_leaf {s : State} {ls : List Leaf} (h : LeavesOf s ls) {a : Str} {x : Int} :
    OwedTo s a x ↔ ⟨a, x⟩ ∈ ls := by
  cases ls with
  | nil => have := h.head; simp at this
  | cons b tl =>
    have hh := h.head
    simp only [List.head?_cons, Option.some.injEq] at hh
    subst hh
    have hs := h.sound
    have hc := h.complete
    simp only [List.tail_cons] at hs hc
    constructor
    · intro h
      cases h with
      | fees => exact List.mem_cons_self
      | @owner p hp =>
        obtain ⟨l, hl, e⟩ := hc _ hp
        refine List.mem_cons_of_mem _ ?_
        have e2 := (hs l hl).2
        rw [e] at e2
        have : l = ⟨lower p.2.waddr, debtOf s (lower p.2.waddr)⟩ := by
          cases l; simp only [Leaf.mk.injEq]; exact ⟨e, e2⟩
        rw [← this]; exact hl
    · intro h
      rcases List.mem_cons.mp h with e | e
      · simp only [Leaf.mk.injEq] at e
        obtain ⟨rfl, rfl⟩ := e
        exact .fees
      · obtain ⟨⟨p, hp, e1⟩, e2⟩ := hs _ e
        dsimp only at e1 e2
        rw [e2, e1]
        exact .owner hp

theorem owedTo_unique {s : State} (hF : FeesApart s) {a : Str} {x y : Int} (h : OwedTo s a x) (h' : OwedTo s a y) :
    x = y := by
  generalize ha : a = a' at h'
  cases h with
  | fees =>
    cases h' with
    | fees => rfl
    | owner hp => exact absurd ha.symm (hF _ hp)
  | owner hp =>
    cases h' with
    | fees => exact absurd ha (hF _ hp)
    | owner hp' => rw [ha]

/-- the checkpoint of a state really is one the program would freeze -/
theorem frozenOf_freeze {E : Env} (hE : ValidEnv E) {s : State} (hk : KeysOK s) (hA : AddressesOK s) {f : Frozen}
    (h : FrozenOf H s f) : ∃ s', freeze H E s = .ok (s', true) ∧ (s.latestSlot, f) ∈ s'.committed := by
  obtain ⟨s', r, hf, _⟩ := C24_checkpoint_possible (H := H) hE hA
  obtain ⟨ls, x, h1, h2, h3⟩ := freeze_frz hf
  obtain ⟨ls', k1, k2⟩ := h
  have := leaves_unique (aggregate_ok hE h1).1 k1 rfl rfl (fun _ => rfl) (fun _ => Iff.rfl)
  subst this
  rw [h2] at k2
  simp only [Except.ok.injEq] at k2
  rcases h3 with ⟨e, _⟩ | ⟨g, e, e1, e2⟩
  · rw [e] at k2; cases k2
  · rw [e] at k2
    obtain rfl := Option.some.inj k2
    subst e1
    exact ⟨s', hf, by rw [e2]; dsimp only; rw [putFrozen_mem hk]; exact Or.inl rfl⟩

theorem frozenOf_settles (hH : HashOK H) {E : Env} (hE : ValidEnv E) {s : State} (hk : KeysOK s) (hA : AddressesOK s)
    (hF : FeesApart s)
    (hpos : ∀ a x, OwedTo s a x → 0 ≤ x ∧ x < 2 ^ 256) {f : Frozen} (h : FrozenOf H s f) {root : List Nat}
    (hb : ∀ b ∈ root, b < 256) (hr : f.root = b!"0x" ++ hexEncode root) : Settles H s root := by
  obtain ⟨s', h1, h2⟩ := frozenOf_freeze hE hk hA h
  obtain ⟨ls, root', k1, _, _, _, _, k6, k7, k8, k9, t, ht, hlv⟩ := frozen_facts hE hk h1 h2
  have hroot : root' = root := by
    rw [k6] at hr
    refine hexEncode_inj ?_ hb (List.append_cancel_left hr)
    rw [← ht]
    cases t with
    | leaf b => exact (hH _).2
    | node l r => exact (hH _).2
  subst hroot
  have hclaim : ∀ l ∈ ls, ∃ addr, AddressText l.waddr addr ∧ ClaimBytes addr l.bal.toNat (leafPreimage l) := by
    intro l hl
    obtain ⟨a, ha, e, _⟩ := leaf_address k1 hA hl
    obtain ⟨p1, p2⟩ := hpos l.waddr l.bal ((owedTo_leaf k1).mpr hl)
    obtain ⟨addr, q1, q2⟩ := leafPreimage_claim ha p1 p2
    rw [← e] at q1 q2
    exact ⟨addr, q1, q2⟩
  refine ⟨?_, ?_⟩
  · intro a x ho
    have hl := rawMap_full (leaves_nodup k1 hF) ((owedTo_leaf k1).mp ho)
    rw [← k7] at hl
    obtain ⟨root2, e, hq⟩ := C26_stored_proofs_verify hE hk hA h1 h2
    obtain ⟨p1, p2⟩ := hpos a x ho
    obtain ⟨sibs, addr, bytes, _, z1, z2, z3, z4⟩ := hq _ hl p1 p2
    have : root2 = root' := by
      rw [e] at hr
      refine hexEncode_inj ?_ hb (List.append_cancel_left hr)
      have hfold : ∀ (l : List (List Nat)) (y : List Nat), (∀ b ∈ y, b < 256) →
          ∀ b ∈ l.foldl (hashPair H) y, b < 256 := by
        intro l
        induction l with
        | nil => exact fun _ h => h
        | cons z l ih => exact fun y _ => ih _ (hH _).2
      rw [← z3]
      exact hfold _ _ (hH _).2
    subst this
    exact ⟨sibs, addr, bytes, z1, z2, z3, z4 hH⟩
  · intro a addr amount bytes proof hat hc hp hv
    have hlen : bytes.length = 52 := by
      obtain ⟨be, e, l, _⟩ := hc.bytes
      rw [e, List.length_append, hc.len, l]
    have hTl : ∀ b ∈ t.leaves, b.length ≠ 64 := by
      intro b hb
      obtain ⟨l, hl, rfl⟩ := hlv b hb
      obtain ⟨a, ha, e, _⟩ := leaf_address k1 hA hl
      rw [leafPreimage_length (by rw [e]; exact (addressBytes_spec ha).2.1)]
      omega
    unfold Verifies at hv
    rw [← ht] at hv
    rcases second_preimage (fun x => (hH x).1) bytes (by omega) proof t hp hTl hv with hm | hm
    · left
      obtain ⟨l, hl, e⟩ := hlv _ hm
      obtain ⟨a', ha, e1, _⟩ := leaf_address k1 hA hl
      obtain ⟨p1, p2⟩ := hpos l.waddr l.bal ((owedTo_leaf k1).mpr hl)
      have e4 : l = ⟨lower a', l.bal⟩ := by rw [← e1]
      rw [e4] at e
      obtain ⟨z1, z2⟩ := leafPreimage_inj ha p1 p2 hc e
      rw [← z2, owedTo_leaf k1]
      have : a = lower a' := hat.trans z1.symm
      rw [this, ← e4]
      exact hl
    · right
      refine ⟨t, ht, ?_, hm⟩
      intro b hb
      obtain ⟨l, hl, rfl⟩ := hlv b hb
      obtain ⟨addr, q1, q2⟩ := hclaim l hl
      exact ⟨l.waddr, l.bal, addr, (owedTo_leaf k1).mpr hl, q1, q2⟩

theorem acc_le_received {s : State} (hn : NonNeg s) (hb : owed s ≤ received s) :
    0 ≤ accTotal s ∧ accTotal s + s.poolFees ≤ received s := by
  have h1 : 0 ≤ pendingTotal s := sum_nonneg (by
    intro x hx
    obtain ⟨p, hp, rfl⟩ := List.mem_map.mp hx
    exact (hn.2 p hp).1)
  have h2 : 0 ≤ accTotal s := sum_nonneg (by
    intro x hx
    obtain ⟨p, hp, rfl⟩ := List.mem_map.mp hx
    exact (hn.2 p hp).2)
  unfold owed at hb
  exact ⟨h2, by omega⟩

theorem owedTo_bounds {s : State} (hn : NonNeg s) (hb : owed s ≤ received s) {a : Str} {x : Int}
    (h : OwedTo s a x) : 0 ≤ x ∧ x ≤ received s := by
  obtain ⟨h1, h2⟩ := acc_le_received hn hb
  have h3 := hn.1
  cases h with
  | fees => exact ⟨h3, by omega⟩
  | owner hp =>
    obtain ⟨k1, k2⟩ := debtOf_bounds (fun p hp => (hn.2 p hp).2) (lower _)
    have : (s.vals.map fun p => p.2.acc).sum = accTotal s := rfl
    exact ⟨k1, by omega⟩

section
variable {ι : Type} {n : Nat} {voted : ι → Nat → List Nat → Prop} {honest : ι → Prop}

/-- an honest member among every quorum -/
theorem HonestQuorum.one (hQ : HonestQuorum T V K H cfg n voted honest) {slot : Nat} {root : List Nat}
    (h : Quorum n voted slot root) : ∃ i, honest i ∧ voted i slot root := by
  obtain ⟨S, h1, h2, h3⟩ := h
  by_contra hne
  have := hQ.few S h1 (fun i hi hh => hne ⟨i, hh, h3 i hi⟩)
  omega

/-- what an honest oracle freezes or submits is the root of the books, and they balanced -/
theorem member_balanced (hg : GoodCfg cfg) (hT : ChainTyped T) (hH : HashOK H) (hc : CfgTyped cfg)
    {tr : List LoopEv} (h : HonestMember T V K H cfg tr) {s : Nat} {r : Str}
    (hr : .frozen s r ∈ tr ∨ .submit s r ∈ tr) :
    ∃ q f, BooksAt T V K cfg s q ∧ FrozenOf H q.st f ∧ f.root = r ∧ owed q.st = received q.st := by
  obtain ⟨P, L, x, h1, h2, h3, h4, h5⟩ := h
  obtain ⟨f, ⟨q, ⟨E, bs, q0, w1, w2, w3⟩, hf, hb⟩, e1, rfl⟩ := (life_inv h1 hT h4 hH hc hg.dep.1 h5).1 s r hr
  have hd := w3.debts
  have hb : owed q0.st = received q0.st := by
    have e1 : owed q0.st = owed q.st := by have := congrArg owed w3.2; exact this
    have e2 : received q0.st = received q.st := by have := congrArg received w3.2; exact this
    rw [e1, e2, hb]
  refine ⟨q0, f, ⟨E, bs, h3 E w1, h2 E w1, w2, ?_⟩, ?_, rfl, hb⟩
  · rw [w3.latest, ← frozenOf_slot hf, e1]
  · have hpf : q0.st.poolFees = q.st.poolFees := by have := congrArg State.poolFees w3.2; exact this
    have hpa : q0.st.poolFeesAddr = q.st.poolFeesAddr := by have := congrArg State.poolFeesAddr w3.2; exact this
    exact hf.congr w3.latest w3.vals hpf hpa

theorem member_books (hg : GoodCfg cfg) (hT : ChainTyped T) (hH : HashOK H) (hc : CfgTyped cfg)
    {tr : List LoopEv} (h : HonestMember T V K H cfg tr) {s : Nat} {r : Str}
    (hr : .frozen s r ∈ tr ∨ .submit s r ∈ tr) :
    ∃ q f, BooksAt T V K cfg s q ∧ FrozenOf H q.st f ∧ f.root = r := by
  obtain ⟨q, f, h1, h2, h3, _⟩ := member_balanced hg hT hH hc h hr
  exact ⟨q, f, h1, h2, h3⟩

/-- **C84** (partial). Everything an honest oracle freezes or submits for a slot, whatever it has been through,
is the root with which exactly the debts of the books at that slot can be claimed: the balances of an oracle that
was never interrupted. Missing: the conditions of C83 (`SafeFetch`, `GoodEnv`, no consolidations between
validators that left). -/
theorem C84_member_settles_partial (hg : GoodCfg cfg) (hC : SafeFetch cfg T) (hT : ChainTyped T) (hH : HashOK H)
    (hc : CfgTyped cfg) {s : Nat}
    (hfit : ∀ q, BooksAt T V K cfg s q → received q.st < 2 ^ 256)
    {tr : List LoopEv} (h : HonestMember T V K H cfg tr) {root : List Nat} (hb : ∀ b ∈ root, b < 256)
    (hr : .frozen s (b!"0x" ++ hexEncode root) ∈ tr ∨ .submit s (b!"0x" ++ hexEncode root) ∈ tr) :
    ∃ q, BooksAt T V K cfg s q ∧ Settles H q.st root := by
  obtain ⟨q, f, h1, h2, h3⟩ := member_books hg hT hH hc h hr
  obtain ⟨k1, k2⟩ := h1.ok (H := H) hg hC
  obtain ⟨a1, a2⟩ := h1.addresses hg hC
  obtain ⟨E, _, hE, _⟩ := id h1
  refine ⟨q, h1, frozenOf_settles hH hE.valid k1.commit.keys a1 a2 ?_ h2 hb h3⟩
  intro a x ho
  obtain ⟨p1, p2⟩ := owedTo_bounds k2.nonneg k2.covered ho
  exact ⟨p1, lt_of_le_of_lt p2 (hfit q h1)⟩

/-- **C84** (partial). A root accepted by a quorum with fewer than `n` dishonest members is the root of the books:
everybody can claim exactly what the books of an uninterrupted oracle owe them, and nothing else can be claimed
unless the hash function is broken. Missing: as above. -/
theorem C84_accepted_settles_partial (hg : GoodCfg cfg) (hC : SafeFetch cfg T) (hT : ChainTyped T) (hH : HashOK H)
    (hc : CfgTyped cfg) {slot : Nat}
    (hfit : ∀ q, BooksAt T V K cfg slot q → received q.st < 2 ^ 256)
    (hQ : HonestQuorum T V K H cfg n voted honest) {root : List Nat} (hb : ∀ b ∈ root, b < 256)
    (h : Quorum n voted slot root) : ∃ q, BooksAt T V K cfg slot q ∧ Settles H q.st root := by
  obtain ⟨i, h1, h2⟩ := hQ.one h
  obtain ⟨tr, h3, h4⟩ := hQ.members i h1
  exact C84_member_settles_partial hg hC hT hH hc hfit h3 hb (Or.inr (h4 _ _ h2))

/-- **C84** (partial). No honest oracle disagrees with an accepted root: what it freezes or submits for that slot
is the same root. Missing: as above. -/
theorem C84_members_agree_partial (hA : ∀ n, n % 1200 = 0 → ActiveTargets V K n) (hg : GoodCfg cfg)
    (hT : ChainTyped T) (hH : HashOK H) (hc : CfgTyped cfg) (hQ : HonestQuorum T V K H cfg n voted honest)
    {slot : Nat} {root : List Nat} (h : Quorum n voted slot root) {tr : List LoopEv}
    (hm : HonestMember T V K H cfg tr) {r : Str} (hr : .frozen slot r ∈ tr ∨ .submit slot r ∈ tr) :
    r = b!"0x" ++ hexEncode root := by
  obtain ⟨i, h1, h2⟩ := hQ.one h
  obtain ⟨tr', ⟨P', L', x', a1, a2, a3, a4, a5⟩, h4⟩ := hQ.members i h1
  obtain ⟨P, L, x, b1, b2, b3, b4, b5⟩ := hm
  exact C83_one_root_partial b1 b2 a1 a2 hA hT b4 a4 hH hc hg.dep.1 b5 a5 hr (Or.inr (h4 _ _ h2))

/-- **C84** (partial). So no two roots are ever accepted for one slot. -/
theorem C84_one_root_partial (hA : ∀ n, n % 1200 = 0 → ActiveTargets V K n) (hg : GoodCfg cfg)
    (hT : ChainTyped T) (hH : HashOK H) (hc : CfgTyped cfg) (hQ : HonestQuorum T V K H cfg n voted honest)
    {slot : Nat} {root root' : List Nat} (hb : ∀ b ∈ root, b < 256) (hb' : ∀ b ∈ root', b < 256)
    (h : Quorum n voted slot root) (h' : Quorum n voted slot root') : root = root' := by
  obtain ⟨i, h1, h2⟩ := hQ.one h
  obtain ⟨tr, h3, h4⟩ := hQ.members i h1
  have := C84_members_agree_partial hA hg hT hH hc hQ h' h3 (Or.inr (h4 _ _ h2))
  exact hexEncode_inj hb hb' (List.append_cancel_left this)

end

end

/-! ### C85 -/

theorem sum_update {f : Str → Nat} {a : Str} {x : Nat} : ∀ {D : List Str}, D.Nodup →
    (a ∉ D → (D.map (Function.update f a x)).sum = (D.map f).sum) ∧
    (a ∈ D → (D.map (Function.update f a x)).sum + f a = (D.map f).sum + x) := by
  intro D
  induction D with
  | nil => intro _; exact ⟨fun _ => rfl, fun h => by cases h⟩
  | cons b D ih =>
    intro hn
    rw [List.nodup_cons] at hn
    obtain ⟨i1, i2⟩ := ih hn.2
    by_cases hb : b = a
    · subst hb
      refine ⟨fun h => absurd List.mem_cons_self h, fun _ => ?_⟩
      simp only [List.map_cons, List.sum_cons, Function.update_self, i1 hn.1]
      omega
    · simp only [List.map_cons, List.sum_cons, Function.update_of_ne hb, List.mem_cons, Ne.symm hb, false_or]
      exact ⟨fun h => by rw [i1 h], fun h => by have := i2 h; omega⟩

/-- what was paid is what was claimed -/
theorem PoolRun.paid {H : List Nat → List Nat} {Q : Nat → List Nat → Prop} {cs : List Claim} {p : Pool}
    (h : PoolRun H Q cs p) : ∀ D : List Str, D.Nodup → (∀ a, p.claimed a ≠ 0 → a ∈ D) →
      (D.map p.claimed).sum = p.paid := by
  induction h with
  | deployed =>
    intro D _ _
    induction D with
    | nil => rfl
    | cons b D ih => simp
  | report _ _ _ _ _ ih => exact ih
  | @claim cs p root a addr amount proof bytes _ _ _ _ _ _ hle ih =>
    intro D hn hD
    dsimp only at hD ⊢
    have hold : ∀ b, p.claimed b ≠ 0 → b ∈ D := by
      intro b hb
      by_cases e : b = a
      · subst e
        exact hD b (by rw [Function.update_self]; omega)
      · exact hD b (by rw [Function.update_of_ne e]; exact hb)
    have h0 := ih D hn hold
    obtain ⟨s1, s2⟩ := sum_update (f := p.claimed) (a := a) (x := amount) hn
    by_cases ha : a ∈ D
    · have := s2 ha
      omega
    · have h2 : amount = 0 := by
        by_contra hne
        exact ha (hD a (by rw [Function.update_self]; exact hne))
      rw [s1 ha]
      omega

section
variable {T : Chain} {V : Nat → Nat → BVal} {K : Nat → List (Nat × Nat)} {H : List Nat → List Nat} {cfg : Config}
variable {ι : Type} {n : Nat} {voted : ι → Nat → List Nat → Prop} {honest : ι → Prop}

theorem PoolRun.inv (hA : ∀ n, n % 1200 = 0 → ActiveTargets V K n) (hg : GoodCfg cfg) (hC : SafeFetch cfg T)
    (hT : ChainTyped T) (hH : HashOK H)
    (hc : CfgTyped cfg) (hQ : HonestQuorum T V K H cfg n voted honest) {cs : List Claim} {p : Pool}
    (h : PoolRun H (Quorum n voted) cs p) :
    (∀ s q, s ≤ p.slot → BooksAt T V K cfg s q → received q.st < 2 ^ 256) →
    (∃ c ∈ cs, ∃ s q, BooksAt T V K cfg s q ∧ Forged H q.st c.root c.proof c.bytes) ∨
    (p.root = none ∧ ∀ a, p.claimed a = 0) ∨
    ∃ r q, p.root = some r ∧ BooksAt T V K cfg p.slot q ∧ Settles H q.st r ∧
      ∀ a, p.claimed a ≠ 0 → ∃ x, OwedTo q.st a x ∧ (p.claimed a : Int) ≤ x := by
  induction h with
  | deployed => exact fun _ => Or.inr (Or.inl ⟨rfl, fun _ => rfl⟩)
  | @report cs p slot root _ hs hq _ hb ih =>
    intro hfit
    dsimp only at hfit
    rcases ih (fun s q h => hfit s q (by omega)) with ih | ih | ⟨r, q, _, b1, _, b3⟩
    · exact Or.inl ih
    · obtain ⟨q, k1, k2⟩ := C84_accepted_settles_partial hg hC hT hH hc (fun q => hfit slot q (le_refl _)) hQ hb hq
      exact Or.inr (Or.inr ⟨root, q, rfl, k1, k2, fun a ha => absurd (ih.2 a) ha⟩)
    · obtain ⟨q', k1, k2⟩ := C84_accepted_settles_partial hg hC hT hH hc (fun q => hfit slot q (le_refl _)) hQ hb hq
      refine Or.inr (Or.inr ⟨root, q', rfl, k1, k2, fun a ha => ?_⟩)
      obtain ⟨x, x1, x2⟩ := b3 a ha
      obtain ⟨y, y1, y2⟩ := b1.grows hA hg hC k1 (by omega) x1
      exact ⟨y, y1, by dsimp only; omega⟩
  | @claim cs p root a addr amount proof bytes _ hr ht hcl hp hv hle ih =>
    intro hfit
    rcases ih hfit with ⟨c, hc, ih⟩ | ⟨ih, _⟩ | ⟨r, q, b0, b1, b2, b3⟩
    · exact Or.inl ⟨c, List.mem_cons_of_mem _ hc, ih⟩
    · rw [hr] at ih; cases ih
    · rw [hr] at b0
      cases b0
      rcases b2.only a addr amount bytes proof ht hcl hp hv with k | k
      · refine Or.inr (Or.inr ⟨root, q, hr, b1, b2, fun b hb => ?_⟩)
        dsimp only at hb ⊢
        by_cases e : b = a
        · subst e
          rw [Function.update_self]
          exact ⟨_, k, le_refl _⟩
        · rw [Function.update_of_ne e] at hb ⊢
          exact b3 b hb
      · exact Or.inl ⟨_, List.mem_cons_self, p.slot, q, b1, k⟩

/-- **C85** (partial). The pool can always pay. At any moment, let `q` be the books at the slot of the last accepted
root. Everybody who has claimed is owed at least that much; what has been paid and what can still be claimed
together are exactly the claimable balances and the fees of the books, and not more than was received; and
everybody can claim their debt. Otherwise a claim was accepted with a forged proof, that is, with two known
strings of the same hash. Missing: the conditions of C84. -/
theorem C85_can_pay_partial (hA : ∀ n, n % 1200 = 0 → ActiveTargets V K n) (hg : GoodCfg cfg)
    (hC : SafeFetch cfg T) (hT : ChainTyped T) (hH : HashOK H) (hc : CfgTyped cfg)
    (hQ : HonestQuorum T V K H cfg n voted honest) {cs : List Claim} {p : Pool}
    (h : PoolRun H (Quorum n voted) cs p)
    (hfit : ∀ s q, s ≤ p.slot → BooksAt T V K cfg s q → received q.st < 2 ^ 256)
    {r : List Nat} (hr : p.root = some r) :
    (∃ c ∈ cs, ∃ s q, BooksAt T V K cfg s q ∧ Forged H q.st c.root c.proof c.bytes) ∨
    ∃ q ls, BooksAt T V K cfg p.slot q ∧ Settles H q.st r ∧ LeavesOf q.st ls ∧
      (∀ l ∈ ls, OwedTo q.st l.waddr l.bal ∧ (p.claimed l.waddr : Int) ≤ l.bal) ∧
      (∀ a, p.claimed a ≠ 0 → ∃ x, OwedTo q.st a x) ∧
      (p.paid : Int) + (ls.map fun l => l.bal - (p.claimed l.waddr : Int)).sum = accTotal q.st + q.st.poolFees ∧
      accTotal q.st + q.st.poolFees ≤ received q.st := by
  rcases h.inv hA hg hC hT hH hc hQ hfit with k | ⟨k, _⟩ | ⟨r', q, b0, b1, b2, b3⟩
  · exact Or.inl k
  · rw [hr] at k; cases k
  · rw [hr] at b0
    cases b0
    right
    obtain ⟨k1, k2⟩ := b1.ok (H := H) hg hC
    obtain ⟨a1, a2⟩ := b1.addresses hg hC
    obtain ⟨E, _, hE, _⟩ := id b1
    obtain ⟨ls, hl⟩ := aggregate_total hE.valid (t := 0) a1
    obtain ⟨l1, l2, _⟩ := aggregate_ok hE.valid hl
    have hnd := leaves_nodup l1 a2
    have hsum := h.paid (ls.map (·.waddr)) hnd (by
      intro a ha
      obtain ⟨x, x1, _⟩ := b3 a ha
      exact List.mem_map.mpr ⟨_, (owedTo_leaf l1).mp x1, rfl⟩)
    have hcast : ∀ ls : List Leaf, (ls.map fun l => l.bal - (p.claimed l.waddr : Int)).sum +
        (((ls.map (·.waddr)).map p.claimed).sum : Int) = (ls.map (·.bal)).sum := by
      intro ls
      induction ls with
      | nil => rfl
      | cons l ls ih =>
        simp only [List.map_cons, List.sum_cons, Nat.cast_add] at ih ⊢
        omega
    refine ⟨q, ls, b1, b2, l1, ?_, ?_, ?_, (acc_le_received k2.nonneg k2.covered).2⟩
    · intro l hm
      have ho := (owedTo_leaf l1).mpr hm
      refine ⟨ho, ?_⟩
      by_cases hz : p.claimed l.waddr = 0
      · rw [hz]
        exact (owedTo_bounds k2.nonneg k2.covered ho).1
      · obtain ⟨x, x1, x2⟩ := b3 _ hz
        rw [owedTo_unique a2 ho x1]
        exact x2
    · intro a ha
      obtain ⟨x, x1, _⟩ := b3 a ha
      exact ⟨x, x1⟩
    · have e1 := hcast ls
      rw [hsum, l2] at e1
      have : (q.st.vals.map fun p => p.2.acc).sum = accTotal q.st := rfl
      omega

end

namespace Sample

/-- the root of the first checkpoint of the live configuration -/
def liveRoot : List Nat := List.replicate 31 238 ++ [181]

def submits (n : Nat) (r : List Nat) : LoopEv → Bool
  | .submit k x => k == n && x == b!"0x" ++ hexEncode r
  | _ => false

theorem live_targets (n : Nat) (_ : n % 1200 = 0) : ActiveTargets sampleV (fun _ => [(9, 1)]) n := by
  intro p hp _
  simp only [List.mem_singleton] at hp
  subst hp; rfl

/-- an oracle that submits this root -/
theorem live_member {F : Env} (hF : Obeys law F)
    (h : (runLoop (Toy.lib hash) hash F (List.replicate 7 (answers [] 11999900))
      ⟨.top, ⟨liveCfg, { (newOracle liveCfg).st with tick := 1 }⟩, [], 0⟩).toOption.any
      (fun (p : Loop × List LoopEv) => p.2.any (submits 12000000 liveRoot)) = true) :
    ∃ tr, HonestMember chain sampleV (fun _ => [(9, 1)]) hash liveCfg tr ∧
      .submit 12000000 (b!"0x" ++ hexEncode liveRoot) ∈ tr := by
  obtain ⟨⟨l, tr⟩, h1, h2⟩ := ex_ok h
  rw [List.any_eq_true] at h2
  obtain ⟨e, he, h2⟩ := h2
  refine ⟨tr, ⟨law, Toy.lib hash, .on l, law_good, law_reads, fun _ => law_goodEnv, Toy.lib_ok hash_ok, ?_⟩, ?_⟩
  · exact life_of (tr0 := []) hF answers_ok (first_start hF .born rfl) h1
  · cases e with
    | submit k x =>
      simp only [submits, Bool.and_eq_true, beq_iff_eq] at h2
      rw [← h2.1, ← h2.2]; exact he
    | _ => cases h2

/-- the books after the first slot -/
theorem live_books : ∃ q v, BooksAt chain sampleV (fun _ => [(9, 1)]) liveCfg 12000000 q ∧
    received q.st = 6000 ∧ (1, v) ∈ q.st.vals ∧ debtOf q.st (lower v.waddr) = 2290 := by
  obtain ⟨b, h1, k1⟩ := ex_ok (x := fetchFullBlock chain (newOracle liveCfg).st (newOracle liveCfg).st.nextSlot false)
    (P := fun b => (advanceState env (newOracle liveCfg) b).toOption.any fun (p : Oracle × Option Nat) =>
      p.2.isSome && decide (p.1.st.latestSlot = 12000000 ∧ received p.1.st = 6000) &&
      p.1.st.vals.any fun w => decide (w.1 = 1 ∧ debtOf p.1.st (lower w.2.waddr) = 2290)) (by decide +kernel)
  obtain ⟨⟨q, n⟩, h2, k2⟩ := ex_ok k1
  simp only [Bool.and_eq_true, decide_eq_true_eq, List.any_eq_true, Option.isSome_iff_exists] at k2
  obtain ⟨⟨⟨n, rfl⟩, k3, k4⟩, ⟨i, v⟩, k5, k6, k7⟩ := k2
  dsimp only at k6 k7
  subst k6
  exact ⟨q, v, ⟨env, _, env_goodEnv, reads_of rfl rfl, .slot .start h1 h2 (by decide), k3⟩, k4, k5, k7⟩

theorem live_fit {s : Nat} {q : Oracle} (hs : s ≤ 12000000)
    (h : BooksAt chain sampleV (fun _ => [(9, 1)]) liveCfg s q) : received q.st < 2 ^ 256 := by
  have e : s = 12000000 ∨ s = 11999999 := by
    obtain ⟨k, k'⟩ := h.ok (H := hash) cfg_good chain_good.toSafeFetch
    have h1 := k.commit.next
    have h2 := k'.dep
    obtain ⟨_, _, _, _, _, e⟩ := h
    have : liveCfg.depSlot = 12000000 := by decide
    omega
  rcases e with rfl | rfl
  · obtain ⟨q', v, h1, h2, _⟩ := live_books
    have hsb := (h.unique live_targets cfg_good chain_good.toSafeFetch h1).2
    have : received q.st = received q'.st := by
      have := congrArg received hsb; exact this
    rw [this, h2]; decide
  · have h1 : BooksAt chain sampleV (fun _ => [(9, 1)]) liveCfg 11999999 (newOracle liveCfg) :=
      ⟨env, [], env_goodEnv, reads_of rfl rfl, .start, by decide⟩
    have hsb := (h.unique live_targets cfg_good chain_good.toSafeFetch h1).2
    have : received q.st = received (newOracle liveCfg).st := by
      have := congrArg received hsb; exact this
    rw [this]; decide

/-- three members, two of them honest, and two votes are enough -/
theorem live_quorum : HonestQuorum chain sampleV (fun _ => [(9, 1)]) hash liveCfg 2
    (fun (i : Fin 3) s r => i = 2 ∨ s = 12000000 ∧ r = liveRoot) (fun i => i ≠ 2) := by
  constructor
  · intro i hi
    have : ∃ tr, HonestMember chain sampleV (fun _ => [(9, 1)]) hash liveCfg tr ∧
        .submit 12000000 (b!"0x" ++ hexEncode liveRoot) ∈ tr := by
      by_cases h0 : i = 0
      · exact live_member law_env (by decide +kernel)
      · exact live_member law_rev (by decide +kernel)
    obtain ⟨tr, h1, h2⟩ := this
    refine ⟨tr, h1, fun s r h => ?_⟩
    rcases h with h | ⟨rfl, rfl⟩
    · exact absurd h hi
    · exact h2
  · intro S hn hS
    match S, hn, hS with
    | [], _, _ => decide
    | [_], _, _ => exact Nat.lt_succ_self 1
    | a :: b :: S, hn, hS =>
      have ha := not_not.mp (hS a (by simp))
      have hb := not_not.mp (hS b (by simp))
      simp [ha, hb] at hn

end Sample

/-- Three members, one of which votes for anything. The root of the books is accepted and the owner of
validator 1 claims the 2290 wei they are owed. -/
example : ∃ cs p, PoolRun Sample.hash
      (Quorum 2 fun (i : Fin 3) s r => i = 2 ∨ s = 12000000 ∧ r = Sample.liveRoot) cs p ∧
    p.root = some Sample.liveRoot ∧ p.paid = 2290 ∧
    ∀ s q, s ≤ p.slot → BooksAt Sample.chain Sample.sampleV (fun _ => [(9, 1)]) Sample.liveCfg s q →
      received q.st < 2 ^ 256 := by
  have hq : Quorum 2 (fun (i : Fin 3) s r => i = 2 ∨ s = 12000000 ∧ r = Sample.liveRoot) 12000000 Sample.liveRoot :=
    ⟨[0, 1], by decide, by decide, fun i _ => Or.inr ⟨rfl, rfl⟩⟩
  have hb : ∀ b ∈ Sample.liveRoot, b < 256 := by decide
  obtain ⟨q, h1, h2⟩ := C84_accepted_settles_partial Sample.cfg_good Sample.chain_good.toSafeFetch Sample.chain_typed Sample.hash_ok
    Sample.liveCfg_typed (fun q => Sample.live_fit (le_refl _)) Sample.live_quorum hb hq
  obtain ⟨q', v, k1, k2, k3, k4⟩ := Sample.live_books
  have hsb := (h1.unique Sample.live_targets Sample.cfg_good Sample.chain_good.toSafeFetch k1)
  have ho : OwedTo q.st (lower v.waddr) 2290 := by
    have : debtOf q.st (lower v.waddr) = 2290 := by
      unfold debtOf at k4 ⊢
      rw [hsb.vals]; exact k4
    rw [← this]
    exact .owner (p := (1, v)) (by rw [hsb.vals]; exact k3)
  obtain ⟨proof, ad, bytes, a1, a2, a3, a4⟩ := h2.owed _ _ ho
  refine ⟨_, _, .claim (.report .deployed (by decide) hq (by decide) hb) rfl a1 a2 (fun y hy => (a4 y hy).1) a3
    (Nat.zero_le _), rfl, rfl, fun s q hs h => Sample.live_fit hs h⟩

end Verif
