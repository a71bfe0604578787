import Verif.Spec.Persist
import Verif.Lemmas.Creds
import Verif.Lemmas.GoMap
/-
Reading back what was written.
-/
namespace Verif

theorem decDigits_spec (k n : Nat) (h : n < 10 ^ (k + 1)) :
    decDigits (k + 1) n ≠ [] ∧ (∀ c ∈ decDigits (k + 1) n, 48 ≤ c ∧ c ≤ 57) ∧
    (decDigits (k + 1) n).foldl (fun a c => a * 10 + (c - 48)) 0 = n := by
  induction k generalizing n with
  | zero =>
    have : n < 10 := by simpa using h
    rw [decDigits, if_pos this]
    refine ⟨by simp, ?_, ?_⟩
    · intro c hc; rw [List.mem_singleton] at hc; omega
    · simp
  | succ k ih =>
    rw [decDigits]
    split
    · refine ⟨by simp, ?_, ?_⟩
      · intro c hc; rw [List.mem_singleton] at hc; omega
      · simp
    · obtain ⟨_, i2, i3⟩ := ih (n / 10) (by rw [Nat.pow_succ] at h; omega)
      refine ⟨by simp, ?_, ?_⟩
      · intro c hc
        rcases List.mem_append.mp hc with hc | hc
        · exact i2 c hc
        · rw [List.mem_singleton] at hc; omega
      · rw [List.foldl_append, i3]
        simp only [List.foldl_cons, List.foldl_nil]
        omega

theorem parseUint_decimal {n : Nat} (h : U64 n) : parseUint (decimal n) = some n := by
  unfold U64 at h
  obtain ⟨h1, h2, h3⟩ := decDigits_spec 19 n (by omega)
  unfold parseUint decimal
  have : ((decDigits 20 n).all fun c => 48 ≤ c && c ≤ 57) = true := by
    rw [List.all_eq_true]
    intro c hc
    have := h2 c hc
    simp only [Bool.and_eq_true, decide_eq_true_eq]
    exact this
  rw [if_neg]
  · dsimp only
    rw [h3, if_pos h]
  · intro e
    rcases e with e | e
    · exact h1 e
    · exact e this

theorem decimal_inj {n m : Nat} (h : U64 n) (h' : U64 m) (e : decimal n = decimal m) : n = m := by
  have := parseUint_decimal h
  rw [e, parseUint_decimal h'] at this
  exact (Option.some.inj this).symm

theorem mapM_map_some {α β : Type} (f : α → β) (g : β → Option α) (l : List α)
    (h : ∀ a ∈ l, g (f a) = some a) : (l.map f).mapM g = some l := by
  induction l with
  | nil => rfl
  | cons a l ih =>
    rw [List.map_cons, List.mapM_cons, h a (by simp), ih (fun b hb => h b (by simp [hb]))]
    rfl

theorem status_name (x : Status) : Status.parse x.name = some x := by cases x <;> decide
theorem reward_name (x : RewardType) : RewardType.parse x.name = some x := by cases x <;> decide
theorem block_name (x : BlockType) : BlockType.parse x.name = some x := by cases x <;> decide
theorem sub_name (x : SubType) : SubType.parse x.name = some x := by cases x <;> decide

@[simp] theorem getS_str (s) : getS (some (.str s)) = some s := rfl
@[simp] theorem getB_num (n) : getB (some (.num n)) = some n := rfl
@[simp] theorem getEnum_str {α} (p : Str → Option α) (z s) :
    getEnum p z (some (.str s)) = p s := rfl
theorem getU_num {n : Nat} (h : U64 n) : getU (some (.num n)) = some n := by
  unfold getU
  dsimp only
  unfold U64 at h
  rw [if_pos (by omega)]
  rfl
theorem getI_num {n : Int} (h : -2 ^ 63 ≤ n ∧ n < 2 ^ 63) : getI (some (.num n)) = some n := by
  unfold getI
  dsimp only
  rw [if_pos h]

theorem getArr_map {α} (e : α → J) (f : J → Option α) (l : List α) (h : ∀ a ∈ l, f (e a) = some a) :
    getArr f (some (.arr (l.map e))) = some l := mapM_map_some e f l h

theorem mapM_perm {α β : Type} (g : α → Option β) {l l' : List α} (hp : l.Perm l') :
    ∀ {r'}, l'.mapM g = some r' → ∃ r, l.mapM g = some r ∧ r.Perm r' := by
  induction hp with
  | nil => intro r' h; exact ⟨r', h, List.Perm.refl _⟩
  | @cons x l1 l2 _ ih =>
    intro r' h
    rw [List.mapM_cons] at h
    cases hx : g x with
    | none => rw [hx] at h; simp at h
    | some y =>
      cases ht : List.mapM g l2 with
      | none => rw [hx, ht] at h; simp at h
      | some t =>
        rw [hx, ht] at h
        obtain ⟨r, h1, h2⟩ := ih ht
        refine ⟨y :: r, by rw [List.mapM_cons, hx, h1]; rfl, ?_⟩
        rw [← show y :: t = r' from Option.some.inj h]
        exact h2.cons y
  | swap x y l =>
    intro r' h
    rw [List.mapM_cons, List.mapM_cons] at h
    rw [List.mapM_cons, List.mapM_cons]
    cases hx : g x with
    | none => rw [hx] at h; simp at h
    | some a =>
      cases hy : g y with
      | none => rw [hx, hy] at h; simp at h
      | some b =>
        cases ht : List.mapM g l with
        | none => rw [hx, hy, ht] at h; simp at h
        | some t =>
          rw [hx, hy, ht] at h
          refine ⟨b :: a :: t, rfl, ?_⟩
          rw [← show a :: b :: t = r' from Option.some.inj h]
          exact List.Perm.swap _ _ _
  | trans _ _ ih1 ih2 =>
    intro r' h
    obtain ⟨r1, h1, h2⟩ := ih2 h
    obtain ⟨r2, h3, h4⟩ := ih1 h1
    exact ⟨r2, h3, h4.trans h2⟩

/-- Reading the fields of a written map in the order of the text gives the map. -/
theorem getMap_fields {κ α : Type} [LT κ] [DecidableLT κ] [DecidableEq κ] (hO : StrictTotal κ)
    {key : Str → Option κ} {f : J → Option α} (text : κ × α → Str × J) {l : List (κ × α)}
    (h : ∀ p ∈ l, key (text p).1 = some p.1 ∧ f (text p).2 = some p.2) (ha : Ascending l) :
    getMap key GoMap.put f (some (.obj (sortFields (l.map text)))) = some l := by
  obtain ⟨r, h1, h2⟩ := mapM_perm (fun p : Str × J => do
      let k ← key p.1
      let v ← f p.2
      some (k, v)) (sortFields_perm (l.map text)) (mapM_map_some text _ l fun p hp => by
    rw [(h p hp).1, (h p hp).2]; rfl)
  unfold getMap
  dsimp only
  rw [h1]
  show some (r.foldl (fun m p => GoMap.put m p.1 p.2) []) = some l
  rw [GoMap.foldl_put_perm hO ha h2]

theorem getMap_nat {α} (e : α → J) (f : J → Option α) {l : List (Nat × α)} (ha : Ascending l)
    (h : ∀ p ∈ l, U64 p.1 ∧ f (e p.2) = some p.2) :
    getMap parseUint putNat f (some (encNatMap e l)) = some l :=
  getMap_fields strictNat (fun p => (decimal p.1, e p.2))
    (fun p hp => ⟨parseUint_decimal (h p hp).1, (h p hp).2⟩) ha

theorem getMap_str {α} (e : α → J) (f : J → Option α) {l : List (Str × α)} (ha : Ascending l)
    (h : ∀ p ∈ l, f (e p.2) = some p.2) :
    getMap some putStr f (some (encStrMap e l)) = some l :=
  getMap_fields strictStr (fun p => (p.1, e p.2)) (fun p hp => ⟨rfl, h p hp⟩) ha

theorem decVal_enc {v : Validator} (h : U64 v.index) : decVal (encVal v) = some v := by
  show (do
    let status ← getEnum Status.parse .unknownState (some (.str v.status.name))
    let acc ← getB (some (.num v.acc))
    let pend ← getB (some (.num v.pend))
    let coll ← getB (some (.num v.coll))
    let waddr ← getS (some (.str v.waddr))
    let index ← getU (some (.num v.index))
    let key ← getS (some (.str v.key))
    let subType ← getEnum SubType.parse .manual (some (.str v.subType.name))
    some ({ status, acc, pend, coll, waddr, index, key, subType } : Validator)) = some v
  rw [getU_num h, getEnum_str, status_name, getEnum_str, sub_name]
  rfl

theorem decSum_enc {b : SumBlock} (h : U64 b.slot ∧ U64 b.block ∧ U64 b.index) :
    decSum (encSum b) = some b := by
  show (do
    let slot ← getU (some (.num b.slot))
    let block ← getU (some (.num b.block))
    let index ← getU (some (.num b.index))
    let key ← getS (some (.str b.key))
    let type ← getEnum BlockType.parse .unknown (some (.str b.type.name))
    let reward ← getBO (some (match b.reward with | none => .null | some r => .num r))
    let rewardType ← getEnum RewardType.parse .unknown (some (.str b.rewardType.name))
    let waddr ← getS (some (.str b.waddr))
    some ({ slot, block, index, key, type, reward, rewardType, waddr } : SumBlock)) = some b
  have : getBO (some (match b.reward with | none => .null | some r => .num r)) = some b.reward := by
    cases b.reward <;> rfl
  rw [getU_num h.1, getU_num h.2.1, getU_num h.2.2, this, getEnum_str, getEnum_str, block_name,
    reward_name]
  rfl

theorem decLeaf_enc (l : Leaf) : decLeaf (encLeaf l) = some l := rfl

theorem decSub_enc {e : SubEvent} (h : U64 e.validatorId ∧ U64 e.block) : decSub (encSub e) = some e := by
  show (do
    let sender ← getS (some (.str e.sender))
    let collateral ← getB (some (.num e.collateral))
    let validatorId ← getU (some (.num e.validatorId))
    let block ← getU (some (.num e.block))
    some ({ validatorId, collateral, sender, block } : SubEvent)) = some e
  rw [getU_num h.1, getU_num h.2]
  rfl

theorem decUnsub_enc {e : UnsubEvent} (h : U64 e.validatorId ∧ U64 e.block) :
    decUnsub (encUnsub e) = some e := by
  show (do
    let sender ← getS (some (.str e.sender))
    let validatorId ← getU (some (.num e.validatorId))
    let block ← getU (some (.num e.block))
    some ({ validatorId, sender, block } : UnsubEvent)) = some e
  rw [getU_num h.1, getU_num h.2]
  rfl

theorem decEther_enc {e : EtherEvent} (h : U64 e.block) : decEther (encEther e) = some e := by
  show (do
    let amount ← getB (some (.num e.amount))
    let addr ← getS (some (.str e.addr))
    let block ← getU (some (.num e.block))
    some ({ amount, addr, block } : EtherEvent)) = some e
  rw [getU_num h]
  rfl

theorem decFrozen_enc {f : Frozen} (h : U64 f.slot ∧ (∀ q ∈ f.vals, U64 q.1 ∧ U64 q.2.index) ∧
    Ascending f.vals ∧ Ascending f.leafs ∧ Ascending f.proofs) :
    decFrozen (encFrozen f) = some f := by
  show (do
    let slot ← getU (some (.num f.slot))
    let root ← getS (some (.str f.root))
    let vals ← getMap parseUint putNat decVal (some (encNatMap encVal f.vals))
    let leafs ← getMap some putStr decLeaf (some (encStrMap encLeaf f.leafs))
    let proofs ← getMap some putStr (fun j => getArr (fun x => getS (some x)) (some j))
      (some (encStrMap (fun ps => .arr (ps.map .str)) f.proofs))
    some ({ slot, root, vals, leafs, proofs } : Frozen)) = some f
  rw [getU_num h.1,
    getMap_nat _ _ h.2.2.1 (fun p hp => ⟨(h.2.1 p hp).1, decVal_enc (h.2.1 p hp).2⟩),
    getMap_str _ _ h.2.2.2.1 (fun p _ => decLeaf_enc p.2),
    getMap_str _ _ h.2.2.2.2 (fun p _ => getArr_map J.str _ p.2 (fun x _ => rfl))]
  rfl

/-- Reading back a written state gives the state. -/
theorem decState_nums {s : State} (h : StateNums s) : decState (encState s) = some { s with tick := 0 } := by
  show (do
    let stateHash ← getS (some (.str s.stateHash))
    let latestSlot ← getU (some (.num s.latestSlot))
    let latestBlock ← getU (some (.num s.latestBlock))
    let nextSlot ← getU (some (.num s.nextSlot))
    let poolFees ← getB (some (.num s.poolFees))
    let vals ← getMap parseUint putNat decVal (some (encNatMap encVal s.vals))
    let committed ← getMap parseUint putNat decFrozen (some (encNatMap encFrozen s.committed))
    let subs ← getArr decSub (some (.arr (s.subs.map encSub)))
    let unsubs ← getArr decUnsub (some (.arr (s.unsubs.map encUnsub)))
    let ether ← getArr decEther (some (.arr (s.ether.map encEther)))
    let donations ← getArr decEther (some (.arr (s.donations.map encEther)))
    let proposed ← getArr decSum (some (.arr (s.proposed.map encSum)))
    let missed ← getArr decSum (some (.arr (s.missed.map encSum)))
    let wrongFee ← getArr decSum (some (.arr (s.wrongFee.map encSum)))
    let fee ← getI (some (.num s.fee))
    let poolAddr ← getS (some (.str s.poolAddr))
    let network ← getS (some (.str s.network))
    let poolFeesAddr ← getS (some (.str s.poolFeesAddr))
    let cpSize ← getU (some (.num s.cpSize))
    let depBlock ← getU (some (.num s.depBlock))
    let depSlot ← getU (some (.num s.depSlot))
    let collateral ← getB (some (.num s.collateral))
    some ({ stateHash, latestSlot, latestBlock, nextSlot, poolFees, vals, committed, subs, unsubs, ether,
            donations, proposed, missed, wrongFee, fee, poolAddr, network, poolFeesAddr, cpSize,
            depBlock, depSlot, collateral, tick := 0 } : State)) = some { s with tick := 0 }
  rw [getU_num h.latestSlot, getU_num h.latestBlock, getU_num h.nextSlot, getU_num h.cpSize,
    getU_num h.depBlock, getU_num h.depSlot, getI_num h.fee,
    getMap_nat _ _ h.valMap (fun p hp => ⟨(h.vals p hp).1, decVal_enc (h.vals p hp).2⟩),
    getMap_nat _ _ h.commitMap (fun p hp => ⟨(h.committed p hp).1, decFrozen_enc (h.committed p hp).2⟩),
    getArr_map _ _ _ (fun e he => decSub_enc (h.subs e he)),
    getArr_map _ _ _ (fun e he => decUnsub_enc (h.unsubs e he)),
    getArr_map _ _ s.ether (fun e he => decEther_enc (h.ether e he)),
    getArr_map _ _ s.donations (fun e he => decEther_enc (h.donations e he)),
    getArr_map _ _ s.proposed (fun e he => decSum_enc (h.proposed e he)),
    getArr_map _ _ s.missed (fun e he => decSum_enc (h.missed e he)),
    getArr_map _ _ s.wrongFee (fun e he => decSum_enc (h.wrongFee e he))]
  rfl

theorem decState_enc {s : State} (h : StateTyped s) : decState (encState s) = some { s with tick := 0 } :=
  decState_nums h.nums

theorem stateDigest_congr (L : Lib) {s s' : State}
    (h : SameContent s s') : stateDigest L s = stateDigest L s' := by
  have e : encState { s with stateHash := [] } = encState { s' with stateHash := [] } := by
    have h1 : encState { s with stateHash := [] } = encState { s with stateHash := [], tick := 0 } := rfl
    have h2 : encState { s' with stateHash := [] } = encState { s' with stateHash := [], tick := 0 } := rfl
    rw [h1, h2, h]
  unfold stateDigest
  rw [e]

theorem hexEncode_ascii (l : List Nat) (h : ∀ b ∈ l, b < 256) : Ascii (hexEncode l) := by
  induction l with
  | nil => intro c hc; simp [hexEncode] at hc
  | cons a l ih =>
    have ha := h a (by simp)
    rw [hexEncode]
    intro c hc
    rcases List.mem_cons.mp hc with e | hc
    · rw [e]; unfold hexDigit; split <;> omega
    · rcases List.mem_cons.mp hc with e | hc
      · rw [e]; unfold hexDigit; split <;> omega
      · exact ih (fun b hb => h b (by simp [hb])) c hc

/-- Two hexadecimal hashes that differ at most in letter case are hashes of equal bytes. -/
theorem hex_lower_inj {x y : List Nat} (hx : ∀ b ∈ x, b < 256) (hy : ∀ b ∈ y, b < 256)
    (hh : lower (b!"0x" ++ hexEncode x) = lower (b!"0x" ++ hexEncode y)) : x = y := by
  have low : ∀ x, (∀ b ∈ x, b < 256) → lower (b!"0x" ++ hexEncode x) = b!"0x" ++ hexEncode x := by
    intro x hx
    unfold lower
    rw [List.map_append]
    congr 1
    have : ∀ x : List Nat, (∀ b ∈ x, b < 256) → (hexEncode x).map lowerByte = hexEncode x := by
      intro x
      induction x with
      | nil => intro _; rfl
      | cons a x ih =>
        intro hx
        have ha := hx a List.mem_cons_self
        rw [hexEncode, List.map_cons, List.map_cons, ih (fun b hb => hx b (List.mem_cons_of_mem _ hb))]
        have hd : ∀ d, d < 16 → lowerByte (hexDigit d) = hexDigit d := by decide
        rw [hd _ (by omega), hd _ (by omega)]
    exact this x hx
  rw [low _ hx, low _ hy] at hh
  have hh := List.append_cancel_left hh
  clear low
  induction x generalizing y with
  | nil =>
    cases y with
    | nil => rfl
    | cons b y => simp [hexEncode] at hh
  | cons a x ih =>
    cases y with
    | nil => simp [hexEncode] at hh
    | cons b y =>
      simp only [hexEncode, List.cons.injEq] at hh
      have ha := hx a List.mem_cons_self
      have hb := hy b List.mem_cons_self
      have hd : ∀ d, d < 16 → ∀ d', d' < 16 → hexDigit d = hexDigit d' → d = d' := by decide
      have h1 := hd _ (by omega) _ (by omega) hh.1
      have h2 := hd _ (by omega) _ (by omega) hh.2.1
      rw [ih (fun b hb => hx b (List.mem_cons_of_mem _ hb))
        (fun b hb => hy b (List.mem_cons_of_mem _ hb)) (y := y) ?_ hh.2.2]
      · congr 1
        omega
      · rw [hh.2.2]

theorem stateDigest_length {L : Lib} (hL : LibOK L) (s) : (stateDigest L s).length = 66 := by
  unfold stateDigest
  rw [List.length_append, hexEncode_length, (hL.sha _).1]
  rfl

theorem hashState_typed {L : Lib} (hL : LibOK L) {s} (h : StateTyped s) : StateTyped (hashState L s) := by
  have : Ascii (stateDigest L s) := by
    unfold stateDigest
    intro c hc
    rcases List.mem_append.mp hc with hc | hc
    · simp only [List.mem_cons, List.not_mem_nil, or_false] at hc; omega
    · exact hexEncode_ascii _ (hL.sha _).2 c hc
  constructor <;> first | exact this | (unfold hashState; dsimp only; first
    | exact h.latestSlot | exact h.latestBlock | exact h.nextSlot | exact h.vals | exact h.committed
    | exact h.valMap | exact h.commitMap
    | exact h.subs | exact h.unsubs | exact h.ether | exact h.donations | exact h.proposed | exact h.missed
    | exact h.wrongFee | exact h.fee | exact h.poolAddr | exact h.network | exact h.poolFeesAddr
    | exact h.cpSize | exact h.depBlock | exact h.depSlot)

end Verif
