import Verif.Lemmas.Rlp
/-
Transactions: reading the fields undoes writing them, and only what was written can be read.
-/
namespace Verif

theorem listItem_eq (is : List Item) : listItem is = (true, encItems is) := by
  unfold listItem encItems
  congr 2
  exact List.map_congr_left fun i _ => putItem_eq i

theorem numItem_eq (n : Nat) : numItem n = (false, BE n) := by
  unfold numItem
  rw [minBytes_eq]

/-- Reading and writing one kind of field. -/
structure Codec {α : Type} (dec : Item → Option α) (enc : α → Item) (ok : α → Prop) : Prop where
  there : ∀ a, ok a → Fits64 (enc a).2 → dec (enc a) = some a
  back : ∀ i a, (∀ x ∈ i.2, x < 256) → dec i = some a → i = enc a ∧ ok a

theorem codec_big : Codec decBig numItem (fun _ => True) where
  there n _ _ := by
    rw [numItem_eq]
    simp only [decBig]
    rw [if_neg (BE_head n), beNat_BE]
  back i n hb h := by
    obtain ⟨l, bs⟩ := i
    cases l
    · simp only [decBig] at h
      split at h
      · cases h
      · rename_i h0
        cases h
        rw [numItem_eq, BE_beNat hb h0]
        exact ⟨rfl, trivial⟩
    · cases h

theorem codec_uint (k : Nat) : Codec (decUint k) numItem (· < 256 ^ k) where
  there n hn _ := by
    rw [numItem_eq]
    simp only [decUint]
    have := BE_length_le.mpr hn
    rw [if_neg (by rintro (h | h); omega; exact BE_head n h), beNat_BE]
  back i n hb h := by
    obtain ⟨l, bs⟩ := i
    cases l
    · simp only [decUint] at h
      split at h
      · cases h
      · rename_i h0
        push Not at h0
        cases h
        rw [numItem_eq, BE_beNat hb h0.2]
        refine ⟨rfl, ?_⟩
        rw [← BE_length_le, BE_beNat hb h0.2]
        exact h0.1
    · cases h

theorem codec_data : Codec decData (fun d => (false, d)) (fun d => ∀ x ∈ d, x < 256) where
  there _ _ _ := rfl
  back i d hb h := by
    obtain ⟨l, bs⟩ := i
    cases l
    · cases h
      exact ⟨rfl, hb⟩
    · cases h

theorem codec_array (k : Nat) : Codec (decArray k) (fun d => (false, d)) (IsBytes k) where
  there d h _ := by
    simp only [decArray]
    rw [if_pos h.1]
  back i d hb h := by
    obtain ⟨l, bs⟩ := i
    cases l
    · simp only [decArray] at h
      split at h
      · rename_i hk
        cases h
        exact ⟨rfl, hk, hb⟩
      · cases h
    · cases h

theorem codec_to : Codec decTo toItem (fun t => ∀ a, t = some a → IsBytes 20 a) where
  there t h hf := by
    cases t with
    | none => rfl
    | some a =>
      have := h a rfl
      cases a with
      | nil =>
        have h20 := this.1
        cases h20
      | cons b a =>
        simp only [toItem, decTo]
        rw [(codec_array 20).there _ this hf]
        rfl
  back i t hb h := by
    unfold decTo at h
    split at h
    · cases h
      exact ⟨rfl, fun a ha => by cases ha⟩
    · simp only [Option.map_eq_some_iff] at h
      obtain ⟨a, ha, rfl⟩ := h
      obtain ⟨e, hk⟩ := (codec_array 20).back _ _ hb ha
      refine ⟨e, fun a' ha' => ?_⟩
      cases ha'
      exact hk

section
variable {α : Type} {dec : Item → Option α} {enc : α → Item} {ok : α → Prop}

theorem decAll_there (c : Codec dec enc ok) (as : List α) (hok : ∀ a ∈ as, ok a)
    (hf : ∀ a ∈ as, Fits64 (enc a).2) : decAll dec (as.map enc) = some as := by
  induction as with
  | nil => rfl
  | cons a as ih =>
    simp only [List.map_cons, decAll]
    rw [c.there a (hok a (List.mem_cons_self ..)) (hf a (List.mem_cons_self ..)),
      ih (fun b hb => hok b (List.mem_cons_of_mem _ hb)) (fun b hb => hf b (List.mem_cons_of_mem _ hb))]
    rfl

theorem decAll_back (c : Codec dec enc ok) (is : List Item) : ∀ as, (∀ i ∈ is, ∀ x ∈ i.2, x < 256) →
    decAll dec is = some as → is = as.map enc ∧ ∀ a ∈ as, ok a := by
  induction is with
  | nil =>
    intro as _ h
    cases h
    exact ⟨rfl, fun a ha => by cases ha⟩
  | cons i is ih =>
    intro as hb h
    simp only [decAll, bind, Option.bind_eq_some_iff] at h
    obtain ⟨a, ha, bs, hbs, h⟩ := h
    cases h
    obtain ⟨e, hk⟩ := c.back i a (hb i (List.mem_cons_self ..)) ha
    obtain ⟨es, hks⟩ := ih bs (fun j hj => hb j (List.mem_cons_of_mem _ hj)) hbs
    refine ⟨by rw [e, es]; rfl, fun b hb => ?_⟩
    rcases List.mem_cons.mp hb with rfl | hb
    · exact hk
    · exact hks b hb

theorem fits_mem {is : List Item} (hf : Fits64 (encItems is)) {i : Item} (hi : i ∈ is) : Fits64 i.2 := by
  have h1 := encItems_mem hi
  have h2 := encItem_content i
  unfold Fits64 at *
  omega

theorem codec_list (c : Codec dec enc ok) :
    Codec (decList dec) (fun as => listItem (as.map enc)) (fun as => ∀ a ∈ as, ok a) where
  there as hok hf := by
    rw [listItem_eq] at hf ⊢
    simp only [decList]
    rw [items_there hf]
    exact decAll_there c as hok fun a ha => fits_mem hf (List.mem_map_of_mem ha)
  back i as hb h := by
    obtain ⟨l, bs⟩ := i
    cases l
    · cases h
    · simp only [decList, bind, Option.bind_eq_some_iff] at h
      obtain ⟨is, hi, h⟩ := h
      have he := items_back hb hi
      obtain ⟨e, hk⟩ := decAll_back c is as (items_bytes hb he) h
      refine ⟨?_, hk⟩
      rw [listItem_eq, ← e, ← he]

end

/-- How an entry of an access list is written. -/
def tupleItem (t : AccessTuple) : Item :=
  listItem [(false, t.address), listItem (t.keys.map fun k => (false, k))]

/-- How an authorization is written. -/
def authOne (a : CodeAuth) : Item :=
  listItem [numItem a.chainId, (false, a.address), numItem a.nonce, numItem a.v, numItem a.r, numItem a.s]

theorem codec_tuple : Codec decTuple tupleItem AccessTuple.WF where
  there t h hf := by
    unfold tupleItem at hf ⊢
    rw [listItem_eq] at hf ⊢
    simp only [decTuple]
    rw [items_there hf]
    simp only
    rw [(codec_array 20).there _ h.1 (fits_mem hf (by simp)),
      (codec_list (codec_array 32)).there _ h.2 (fits_mem hf (by simp))]
    rfl
  back i t hb h := by
    obtain ⟨l, bs⟩ := i
    cases l
    · cases h
    · simp only [decTuple] at h
      split at h
      · rename_i a k hi
        have he := items_back hb hi
        have hbs := items_bytes hb he
        simp only [bind, Option.bind_eq_some_iff] at h
        obtain ⟨a', ha, k', hk, h⟩ := h
        cases h
        obtain ⟨e1, o1⟩ := (codec_array 20).back _ _ (hbs a (by simp)) ha
        obtain ⟨e2, o2⟩ := (codec_list (codec_array 32)).back _ _ (hbs k (by simp)) hk
        refine ⟨?_, o1, o2⟩
        unfold tupleItem
        dsimp only at e2 ⊢
        rw [listItem_eq, ← e1, ← e2, ← he]
      · cases h

theorem codec_auth : Codec decAuth authOne CodeAuth.WF where
  there t h hf := by
    unfold authOne at hf ⊢
    rw [listItem_eq] at hf ⊢
    simp only [decAuth]
    rw [items_there hf]
    simp only
    obtain ⟨h1, h2, h3, h4, h5, h6⟩ := h
    rw [(codec_uint 32).there _ (by norm_num at *; exact h1) (fits_mem hf (by simp)),
      (codec_array 20).there _ h2 (fits_mem hf (by simp)),
      (codec_uint 8).there _ (by norm_num at *; exact h3) (fits_mem hf (by simp)),
      (codec_uint 1).there _ (by norm_num at *; exact h4) (fits_mem hf (by simp)),
      (codec_uint 32).there _ (by norm_num at *; exact h5) (fits_mem hf (by simp)),
      (codec_uint 32).there _ (by norm_num at *; exact h6) (fits_mem hf (by simp))]
    rfl
  back i t hb h := by
    obtain ⟨l, bs⟩ := i
    cases l
    · cases h
    · simp only [decAuth] at h
      split at h
      · rename_i i1 i2 i3 i4 i5 i6 hi
        have he := items_back hb hi
        have hbs := items_bytes hb he
        simp only [bind, Option.bind_eq_some_iff] at h
        obtain ⟨a1, h1, a2, h2, a3, h3, a4, h4, a5, h5, a6, h6, h⟩ := h
        cases h
        obtain ⟨e1, o1⟩ := (codec_uint 32).back _ _ (hbs i1 (by simp)) h1
        obtain ⟨e2, o2⟩ := (codec_array 20).back _ _ (hbs i2 (by simp)) h2
        obtain ⟨e3, o3⟩ := (codec_uint 8).back _ _ (hbs i3 (by simp)) h3
        obtain ⟨e4, o4⟩ := (codec_uint 1).back _ _ (hbs i4 (by simp)) h4
        obtain ⟨e5, o5⟩ := (codec_uint 32).back _ _ (hbs i5 (by simp)) h5
        obtain ⟨e6, o6⟩ := (codec_uint 32).back _ _ (hbs i6 (by simp)) h6
        refine ⟨?_, by norm_num at *; exact o1, o2, by norm_num at *; exact o3, by norm_num at *; exact o4,
          by norm_num at *; exact o5, by norm_num at *; exact o6⟩
        unfold authOne
        dsimp only
        rw [listItem_eq, ← e1, ← e2, ← e3, ← e4, ← e5, ← e6, ← he]
      · cases h

theorem accessItem_eq (l : List AccessTuple) : accessItem l = listItem (l.map tupleItem) := rfl
theorem authItem_eq (l : List CodeAuth) : authItem l = listItem (l.map authOne) := rfl

theorem codec_access : Codec (decList decTuple) accessItem (fun l => ∀ e ∈ l, e.WF) := codec_list codec_tuple
theorem codec_auths : Codec (decList decAuth) authItem (fun l => ∀ e ∈ l, e.WF) := codec_list codec_auth
theorem codec_hashes (k : Nat) : Codec (decList (decArray k)) (fun as => listItem (as.map fun h => (false, h)))
    (fun l => ∀ h ∈ l, IsBytes k h) := codec_list (codec_array k)
theorem codec_u64 : Codec (decUint 8) numItem (· < 2 ^ 64) := by
  have := codec_uint 8
  norm_num at this ⊢
  exact this
theorem codec_u256 : Codec (decUint 32) numItem (· < 2 ^ 256) := by
  have := codec_uint 32
  norm_num at this ⊢
  exact this

theorem optBind_some {α β : Type} {x : Option α} {f : α → Option β} {b : β} (h : (x >>= f) = some b) :
    ∃ a, x = some a ∧ f a = some b := Option.bind_eq_some_iff.mp h

/-! ### The fields of each kind -/

/-- The decoder of the fields of a kind. -/
def decFields : Nat → List Item → Option EthTx
  | 0 => decLegacy
  | 1 => decAccessList
  | 2 => decDynamic
  | 3 => decBlob
  | _ => decSetCode

theorem fields_dec (t : EthTx) (h : t.WF) (hf : Fits64 (encItems t.items)) : decFields t.type t.items = some t := by
  cases t with
  | legacy n p g t x d v r s =>
    obtain ⟨h1, h2, h3, h4⟩ := h
    simp only [EthTx.type, decFields, EthTx.items, decLegacy] at hf ⊢
    rw [codec_u64.there _ h1 (fits_mem hf (by simp)), codec_big.there _ trivial (fits_mem hf (by simp)),
      codec_u64.there _ h2 (fits_mem hf (by simp)), codec_to.there _ h3 (fits_mem hf (by simp)),
      codec_big.there _ trivial (fits_mem hf (by simp)), codec_data.there _ h4 (fits_mem hf (by simp)),
      codec_big.there _ trivial (fits_mem hf (by simp)), codec_big.there _ trivial (fits_mem hf (by simp)),
      codec_big.there _ trivial (fits_mem hf (by simp))]
    rfl
  | accessList c n p g t x d a v r s =>
    obtain ⟨h1, h2, h3, h4, h5⟩ := h
    simp only [EthTx.type, decFields, EthTx.items, decAccessList] at hf ⊢
    rw [codec_big.there c trivial (fits_mem hf (by simp)),
      codec_u64.there _ h1 (fits_mem hf (by simp)), codec_big.there p trivial (fits_mem hf (by simp)),
      codec_u64.there _ h2 (fits_mem hf (by simp)), codec_to.there _ h3 (fits_mem hf (by simp)),
      codec_big.there x trivial (fits_mem hf (by simp)), codec_data.there _ h4 (fits_mem hf (by simp)),
      codec_access.there _ h5 (fits_mem hf (by simp)),
      codec_big.there v trivial (fits_mem hf (by simp)), codec_big.there r trivial (fits_mem hf (by simp)),
      codec_big.there s trivial (fits_mem hf (by simp))]
    rfl
  | dynamic c n tc fc g t x d a v r s =>
    obtain ⟨h1, h2, h3, h4, h5⟩ := h
    simp only [EthTx.type, decFields, EthTx.items, decDynamic] at hf ⊢
    rw [codec_big.there c trivial (fits_mem hf (by simp)),
      codec_u64.there _ h1 (fits_mem hf (by simp)), codec_big.there tc trivial (fits_mem hf (by simp)),
      codec_big.there fc trivial (fits_mem hf (by simp)),
      codec_u64.there _ h2 (fits_mem hf (by simp)), codec_to.there _ h3 (fits_mem hf (by simp)),
      codec_big.there x trivial (fits_mem hf (by simp)), codec_data.there _ h4 (fits_mem hf (by simp)),
      codec_access.there _ h5 (fits_mem hf (by simp)),
      codec_big.there v trivial (fits_mem hf (by simp)), codec_big.there r trivial (fits_mem hf (by simp)),
      codec_big.there s trivial (fits_mem hf (by simp))]
    rfl
  | blob c n tc fc g t x d a bc bh v r s =>
    obtain ⟨h1, h2, h3, h4, h5, h6, h7, h8, h9, h10, h11, h12, h13, h14⟩ := h
    simp only [EthTx.type, decFields, EthTx.items, decBlob] at hf ⊢
    rw [codec_u256.there c h1 (fits_mem hf (by simp)),
      codec_u64.there _ h2 (fits_mem hf (by simp)), codec_u256.there tc h3 (fits_mem hf (by simp)),
      codec_u256.there fc h4 (fits_mem hf (by simp)),
      codec_u64.there _ h5 (fits_mem hf (by simp)), (codec_array 20).there _ h6 (fits_mem hf (by simp)),
      codec_u256.there x h7 (fits_mem hf (by simp)), codec_data.there _ h8 (fits_mem hf (by simp)),
      codec_access.there _ h9 (fits_mem hf (by simp)),
      codec_u256.there bc h10 (fits_mem hf (by simp)), (codec_hashes 32).there _ h11 (fits_mem hf (by simp)),
      codec_u256.there v h12 (fits_mem hf (by simp)), codec_u256.there r h13 (fits_mem hf (by simp)),
      codec_u256.there s h14 (fits_mem hf (by simp))]
    rfl
  | setCode c n tc fc g t x d a au v r s =>
    obtain ⟨h1, h2, h3, h4, h5, h6, h7, h8, h9, h10, h11, h12, h13⟩ := h
    simp only [EthTx.type, decFields, EthTx.items, decSetCode] at hf ⊢
    rw [codec_u256.there c h1 (fits_mem hf (by simp)),
      codec_u64.there _ h2 (fits_mem hf (by simp)), codec_u256.there tc h3 (fits_mem hf (by simp)),
      codec_u256.there fc h4 (fits_mem hf (by simp)),
      codec_u64.there _ h5 (fits_mem hf (by simp)), (codec_array 20).there _ h6 (fits_mem hf (by simp)),
      codec_u256.there x h7 (fits_mem hf (by simp)), codec_data.there _ h8 (fits_mem hf (by simp)),
      codec_access.there _ h9 (fits_mem hf (by simp)), codec_auths.there _ h10 (fits_mem hf (by simp)),
      codec_u256.there v h11 (fits_mem hf (by simp)), codec_u256.there r h12 (fits_mem hf (by simp)),
      codec_u256.there s h13 (fits_mem hf (by simp))]
    rfl

theorem dec_fields (k : Nat) (hk : k ≤ 4) (is : List Item) (t : EthTx) (hb : ∀ i ∈ is, ∀ x ∈ i.2, x < 256)
    (h : decFields k is = some t) : t.type = k ∧ is = t.items ∧ t.WF := by
  match k, hk with
  | 0, _ =>
    simp only [decFields] at h
    unfold decLegacy at h
    split at h
    · rename_i i1 i2 i3 i4 i5 i6 i7 i8 i9
      obtain ⟨a1, h1, h⟩ := optBind_some h
      obtain ⟨a2, h2, h⟩ := optBind_some h
      obtain ⟨a3, h3, h⟩ := optBind_some h
      obtain ⟨a4, h4, h⟩ := optBind_some h
      obtain ⟨a5, h5, h⟩ := optBind_some h
      obtain ⟨a6, h6, h⟩ := optBind_some h
      obtain ⟨a7, h7, h⟩ := optBind_some h
      obtain ⟨a8, h8, h⟩ := optBind_some h
      obtain ⟨a9, h9, h⟩ := optBind_some h
      cases h
      obtain ⟨e1, o1⟩ := codec_u64.back _ _ (hb i1 (by simp)) h1
      obtain ⟨e2, -⟩ := codec_big.back _ _ (hb i2 (by simp)) h2
      obtain ⟨e3, o3⟩ := codec_u64.back _ _ (hb i3 (by simp)) h3
      obtain ⟨e4, o4⟩ := codec_to.back _ _ (hb i4 (by simp)) h4
      obtain ⟨e5, -⟩ := codec_big.back _ _ (hb i5 (by simp)) h5
      obtain ⟨e6, o6⟩ := codec_data.back _ _ (hb i6 (by simp)) h6
      obtain ⟨e7, -⟩ := codec_big.back _ _ (hb i7 (by simp)) h7
      obtain ⟨e8, -⟩ := codec_big.back _ _ (hb i8 (by simp)) h8
      obtain ⟨e9, -⟩ := codec_big.back _ _ (hb i9 (by simp)) h9
      refine ⟨rfl, ?_, o1, o3, o4, o6⟩
      simp only [EthTx.items, e1, e2, e3, e4, e5, e6, e7, e8, e9]
    · cases h
  | 1, _ =>
    simp only [decFields] at h
    unfold decAccessList at h
    split at h
    · rename_i i1 i2 i3 i4 i5 i6 i7 i8 i9 i10 i11
      obtain ⟨a1, h1, h⟩ := optBind_some h
      obtain ⟨a2, h2, h⟩ := optBind_some h
      obtain ⟨a3, h3, h⟩ := optBind_some h
      obtain ⟨a4, h4, h⟩ := optBind_some h
      obtain ⟨a5, h5, h⟩ := optBind_some h
      obtain ⟨a6, h6, h⟩ := optBind_some h
      obtain ⟨a7, h7, h⟩ := optBind_some h
      obtain ⟨a8, h8, h⟩ := optBind_some h
      obtain ⟨a9, h9, h⟩ := optBind_some h
      obtain ⟨a10, h10, h⟩ := optBind_some h
      obtain ⟨a11, h11, h⟩ := optBind_some h
      cases h
      obtain ⟨e1, -⟩ := codec_big.back _ _ (hb i1 (by simp)) h1
      obtain ⟨e2, o2⟩ := codec_u64.back _ _ (hb i2 (by simp)) h2
      obtain ⟨e3, -⟩ := codec_big.back _ _ (hb i3 (by simp)) h3
      obtain ⟨e4, o4⟩ := codec_u64.back _ _ (hb i4 (by simp)) h4
      obtain ⟨e5, o5⟩ := codec_to.back _ _ (hb i5 (by simp)) h5
      obtain ⟨e6, -⟩ := codec_big.back _ _ (hb i6 (by simp)) h6
      obtain ⟨e7, o7⟩ := codec_data.back _ _ (hb i7 (by simp)) h7
      obtain ⟨e8, o8⟩ := codec_access.back _ _ (hb i8 (by simp)) h8
      obtain ⟨e9, -⟩ := codec_big.back _ _ (hb i9 (by simp)) h9
      obtain ⟨e10, -⟩ := codec_big.back _ _ (hb i10 (by simp)) h10
      obtain ⟨e11, -⟩ := codec_big.back _ _ (hb i11 (by simp)) h11
      refine ⟨rfl, ?_, o2, o4, o5, o7, o8⟩
      simp only [EthTx.items, e1, e2, e3, e4, e5, e6, e7, e8, e9, e10, e11]
    · cases h
  | 2, _ =>
    simp only [decFields] at h
    unfold decDynamic at h
    split at h
    · rename_i i1 i2 i3 i4 i5 i6 i7 i8 i9 i10 i11 i12
      obtain ⟨a1, h1, h⟩ := optBind_some h
      obtain ⟨a2, h2, h⟩ := optBind_some h
      obtain ⟨a3, h3, h⟩ := optBind_some h
      obtain ⟨a4, h4, h⟩ := optBind_some h
      obtain ⟨a5, h5, h⟩ := optBind_some h
      obtain ⟨a6, h6, h⟩ := optBind_some h
      obtain ⟨a7, h7, h⟩ := optBind_some h
      obtain ⟨a8, h8, h⟩ := optBind_some h
      obtain ⟨a9, h9, h⟩ := optBind_some h
      obtain ⟨a10, h10, h⟩ := optBind_some h
      obtain ⟨a11, h11, h⟩ := optBind_some h
      obtain ⟨a12, h12, h⟩ := optBind_some h
      cases h
      obtain ⟨e1, -⟩ := codec_big.back _ _ (hb i1 (by simp)) h1
      obtain ⟨e2, o2⟩ := codec_u64.back _ _ (hb i2 (by simp)) h2
      obtain ⟨e3, -⟩ := codec_big.back _ _ (hb i3 (by simp)) h3
      obtain ⟨e4, -⟩ := codec_big.back _ _ (hb i4 (by simp)) h4
      obtain ⟨e5, o5⟩ := codec_u64.back _ _ (hb i5 (by simp)) h5
      obtain ⟨e6, o6⟩ := codec_to.back _ _ (hb i6 (by simp)) h6
      obtain ⟨e7, -⟩ := codec_big.back _ _ (hb i7 (by simp)) h7
      obtain ⟨e8, o8⟩ := codec_data.back _ _ (hb i8 (by simp)) h8
      obtain ⟨e9, o9⟩ := codec_access.back _ _ (hb i9 (by simp)) h9
      obtain ⟨e10, -⟩ := codec_big.back _ _ (hb i10 (by simp)) h10
      obtain ⟨e11, -⟩ := codec_big.back _ _ (hb i11 (by simp)) h11
      obtain ⟨e12, -⟩ := codec_big.back _ _ (hb i12 (by simp)) h12
      refine ⟨rfl, ?_, o2, o5, o6, o8, o9⟩
      simp only [EthTx.items, e1, e2, e3, e4, e5, e6, e7, e8, e9, e10, e11, e12]
    · cases h
  | 3, _ =>
    simp only [decFields] at h
    unfold decBlob at h
    split at h
    · rename_i i1 i2 i3 i4 i5 i6 i7 i8 i9 i10 i11 i12 i13 i14
      obtain ⟨a1, h1, h⟩ := optBind_some h
      obtain ⟨a2, h2, h⟩ := optBind_some h
      obtain ⟨a3, h3, h⟩ := optBind_some h
      obtain ⟨a4, h4, h⟩ := optBind_some h
      obtain ⟨a5, h5, h⟩ := optBind_some h
      obtain ⟨a6, h6, h⟩ := optBind_some h
      obtain ⟨a7, h7, h⟩ := optBind_some h
      obtain ⟨a8, h8, h⟩ := optBind_some h
      obtain ⟨a9, h9, h⟩ := optBind_some h
      obtain ⟨a10, h10, h⟩ := optBind_some h
      obtain ⟨a11, h11, h⟩ := optBind_some h
      obtain ⟨a12, h12, h⟩ := optBind_some h
      obtain ⟨a13, h13, h⟩ := optBind_some h
      obtain ⟨a14, h14, h⟩ := optBind_some h
      cases h
      obtain ⟨e1, o1⟩ := codec_u256.back _ _ (hb i1 (by simp)) h1
      obtain ⟨e2, o2⟩ := codec_u64.back _ _ (hb i2 (by simp)) h2
      obtain ⟨e3, o3⟩ := codec_u256.back _ _ (hb i3 (by simp)) h3
      obtain ⟨e4, o4⟩ := codec_u256.back _ _ (hb i4 (by simp)) h4
      obtain ⟨e5, o5⟩ := codec_u64.back _ _ (hb i5 (by simp)) h5
      obtain ⟨e6, o6⟩ := (codec_array 20).back _ _ (hb i6 (by simp)) h6
      obtain ⟨e7, o7⟩ := codec_u256.back _ _ (hb i7 (by simp)) h7
      obtain ⟨e8, o8⟩ := codec_data.back _ _ (hb i8 (by simp)) h8
      obtain ⟨e9, o9⟩ := codec_access.back _ _ (hb i9 (by simp)) h9
      obtain ⟨e10, o10⟩ := codec_u256.back _ _ (hb i10 (by simp)) h10
      obtain ⟨e11, o11⟩ := (codec_hashes 32).back _ _ (hb i11 (by simp)) h11
      obtain ⟨e12, o12⟩ := codec_u256.back _ _ (hb i12 (by simp)) h12
      obtain ⟨e13, o13⟩ := codec_u256.back _ _ (hb i13 (by simp)) h13
      obtain ⟨e14, o14⟩ := codec_u256.back _ _ (hb i14 (by simp)) h14
      refine ⟨rfl, ?_, o1, o2, o3, o4, o5, o6, o7, o8, o9, o10, o11, o12, o13, o14⟩
      simp only [EthTx.items, e1, e2, e3, e4, e5, e6, e7, e8, e9, e10, e11, e12, e13, e14]
    · cases h
  | 4, _ =>
    simp only [decFields] at h
    unfold decSetCode at h
    split at h
    · rename_i i1 i2 i3 i4 i5 i6 i7 i8 i9 i10 i11 i12 i13
      obtain ⟨a1, h1, h⟩ := optBind_some h
      obtain ⟨a2, h2, h⟩ := optBind_some h
      obtain ⟨a3, h3, h⟩ := optBind_some h
      obtain ⟨a4, h4, h⟩ := optBind_some h
      obtain ⟨a5, h5, h⟩ := optBind_some h
      obtain ⟨a6, h6, h⟩ := optBind_some h
      obtain ⟨a7, h7, h⟩ := optBind_some h
      obtain ⟨a8, h8, h⟩ := optBind_some h
      obtain ⟨a9, h9, h⟩ := optBind_some h
      obtain ⟨a10, h10, h⟩ := optBind_some h
      obtain ⟨a11, h11, h⟩ := optBind_some h
      obtain ⟨a12, h12, h⟩ := optBind_some h
      obtain ⟨a13, h13, h⟩ := optBind_some h
      cases h
      obtain ⟨e1, o1⟩ := codec_u256.back _ _ (hb i1 (by simp)) h1
      obtain ⟨e2, o2⟩ := codec_u64.back _ _ (hb i2 (by simp)) h2
      obtain ⟨e3, o3⟩ := codec_u256.back _ _ (hb i3 (by simp)) h3
      obtain ⟨e4, o4⟩ := codec_u256.back _ _ (hb i4 (by simp)) h4
      obtain ⟨e5, o5⟩ := codec_u64.back _ _ (hb i5 (by simp)) h5
      obtain ⟨e6, o6⟩ := (codec_array 20).back _ _ (hb i6 (by simp)) h6
      obtain ⟨e7, o7⟩ := codec_u256.back _ _ (hb i7 (by simp)) h7
      obtain ⟨e8, o8⟩ := codec_data.back _ _ (hb i8 (by simp)) h8
      obtain ⟨e9, o9⟩ := codec_access.back _ _ (hb i9 (by simp)) h9
      obtain ⟨e10, o10⟩ := codec_auths.back _ _ (hb i10 (by simp)) h10
      obtain ⟨e11, o11⟩ := codec_u256.back _ _ (hb i11 (by simp)) h11
      obtain ⟨e12, o12⟩ := codec_u256.back _ _ (hb i12 (by simp)) h12
      obtain ⟨e13, o13⟩ := codec_u256.back _ _ (hb i13 (by simp)) h13
      refine ⟨rfl, ?_, o1, o2, o3, o4, o5, o6, o7, o8, o9, o10, o11, o12, o13⟩
      simp only [EthTx.items, e1, e2, e3, e4, e5, e6, e7, e8, e9, e10, e11, e12, e13]
    · cases h

/-! ### The bytes -/

/-- A tree as an element. -/
def Tree.item : Tree → Item
  | .str bs => (false, bs)
  | .seq ts => (true, encTrees ts)

theorem tree_enc (t : Tree) : t.enc = encItem t.item := by
  cases t <;> simp [Tree.enc, Tree.item, encItem]

theorem trees_enc (ts : List Tree) : encTrees ts = encItems (ts.map Tree.item) := by
  induction ts with
  | nil => simp [encTrees, encItems]
  | cons t ts ih => rw [encTrees, List.map_cons, encItems_cons, ih, tree_enc]

theorem seq_item (ts : List Tree) : (Tree.seq ts).item = listItem (ts.map Tree.item) := by
  rw [listItem_eq, ← trees_enc]
  rfl

theorem num_item (n : Nat) : (Tree.num n).item = numItem n := by
  rw [numItem_eq]
  rfl

theorem recipient_item (t : Option (List Nat)) : (Tree.recipient t).item = toItem t := by cases t <;> rfl

theorem access_item (l : List AccessTuple) : (Tree.access l).item = accessItem l := by
  simp only [Tree.access, accessItem, seq_item, List.map_map, List.map_cons, List.map_nil, Function.comp_def]
  rfl

theorem auths_item (l : List CodeAuth) : (Tree.auths l).item = authItem l := by
  simp only [Tree.auths, authItem, seq_item, List.map_map, List.map_cons, List.map_nil, Function.comp_def, num_item]
  rfl

theorem hashes_item (l : List (List Nat)) : (Tree.seq (l.map .str)).item = listItem (l.map fun h => (false, h)) := by
  simp only [seq_item, List.map_map, Function.comp_def]
  rfl

theorem bytes_preimage (t : EthTx) : t.bytes = t.preimage := by
  cases t <;>
    simp only [EthTx.bytes, EthTx.preimage, EthTx.type, EthTx.items, tree_enc, seq_item, putItem_eq, List.map_cons,
      List.map_nil, num_item, recipient_item, access_item, auths_item, List.map_map, Function.comp_def] <;> rfl

end Verif
