import Verif.Model.GoLib
import Verif.Lemmas.JsonText
import Verif.Lemmas.Json
/-
The library functions do what `LibOK` and `HashOK` ask for, and a state read from any document has
numbers that fit their types.
-/
namespace Verif

theorem Sha256.bytesOf_ok (n x : Nat) :
    (Sha256.bytesOf n x).length = n ∧ ∀ b ∈ Sha256.bytesOf n x, b < 256 := by
  induction n generalizing x with
  | zero => exact ⟨rfl, fun b hb => by cases hb⟩
  | succ n ih =>
    rw [Sha256.bytesOf]
    refine ⟨by rw [List.length_append, (ih _).1]; rfl, fun b hb => ?_⟩
    rcases List.mem_append.mp hb with hb | hb
    · exact (ih _).2 b hb
    · rw [List.mem_singleton] at hb; omega

theorem sha256_ok : HashOK Sha256.sum := by
  intro x
  unfold Sha256.sum
  dsimp only
  refine ⟨by simp only [List.length_append, (Sha256.bytesOf_ok _ _).1], fun b hb => ?_⟩
  simp only [List.mem_append, or_assoc] at hb
  rcases hb with hb | hb | hb | hb | hb | hb | hb | hb <;> exact (Sha256.bytesOf_ok _ _).2 b hb

theorem Keccak.toBytes_ok (n x : Nat) :
    (Keccak.toBytes n x).length = n ∧ ∀ b ∈ Keccak.toBytes n x, b < 256 := by
  induction n generalizing x with
  | zero => exact ⟨rfl, fun b hb => by cases hb⟩
  | succ n ih =>
    rw [Keccak.toBytes]
    refine ⟨by rw [List.length_cons, (ih _).1], fun b hb => ?_⟩
    rcases List.mem_cons.mp hb with hb | hb
    · omega
    · exact (ih _).2 b hb

theorem keccak_ok : HashOK Keccak.keccak := fun _ => Keccak.toBytes_ok _ _

theorem goLib_ok : LibOK goLib where
  reads s _ := JsonText.read_write (encState s)
  cut _ _ _ hp hne := JsonText.read_cut hp hne
  sha := sha256_ok

theorem getU_fits {x : Option J} {n : Nat} (h : getU x = some n) : U64 n := by
  unfold getU at h
  unfold U64
  split at h
  · cases h; decide
  · cases h; decide
  · split at h
    · cases h; omega
    · cases h
  · cases h

theorem getI_fits {x : Option J} {n : Int} (h : getI x = some n) : -2 ^ 63 ≤ n ∧ n < 2 ^ 63 := by
  unfold getI at h
  split at h
  · cases h; decide
  · cases h; decide
  · split at h
    · cases h; assumption
    · cases h
  · cases h

theorem parseUint_fits {s : Str} {n : Nat} (h : parseUint s = some n) : U64 n := by
  unfold parseUint at h
  split at h
  · cases h
  · dsimp only at h
    split at h
    · cases h; assumption
    · cases h

theorem mapM_mem {α β : Type} {f : α → Option β} {l : List α} {r : List β} (h : l.mapM f = some r) :
    ∀ b ∈ r, ∃ a, f a = some b := by
  induction l generalizing r with
  | nil => cases h; intro b hb; cases hb
  | cons a l ih =>
    rw [List.mapM_cons] at h
    cases ha : f a with
    | none => rw [ha] at h; cases h
    | some x =>
      cases hl : l.mapM f with
      | none => rw [ha, hl] at h; cases h
      | some y =>
        rw [ha, hl] at h
        cases h
        intro b hb
        rcases List.mem_cons.mp hb with rfl | hb
        · exact ⟨a, ha⟩
        · exact ih hl b hb

theorem getArr_fits {α : Type} {f : J → Option α} {P : α → Prop} (hf : ∀ j a, f j = some a → P a)
    {x : Option J} {l : List α} (h : getArr f x = some l) : ∀ a ∈ l, P a := by
  unfold getArr at h
  split at h
  · cases h; intro a ha; cases ha
  · cases h; intro a ha; cases ha
  · intro a ha
    obtain ⟨j, hj⟩ := mapM_mem h a ha
    exact hf j a hj
  · cases h

theorem getMap_fits {α : Type} {f : J → Option α} {P : α → Prop} (hf : ∀ j a, f j = some a → P a)
    {x : Option J} {l : List (Nat × α)} (h : getMap parseUint putNat f x = some l) :
    ∀ p ∈ l, U64 p.1 ∧ P p.2 := by
  unfold getMap at h
  split at h
  · cases h; intro a ha; cases ha
  · cases h; intro a ha; cases ha
  · simp only [bind, Option.bind_eq_some_iff] at h
    obtain ⟨r, hr, e⟩ := h
    cases e
    intro p hp
    obtain ⟨q, hq⟩ := mapM_mem hr p ((GoMap.foldl_put_sub r hp).resolve_right (by simp))
    simp only [Option.bind_eq_some_iff] at hq
    obtain ⟨k, hk, v, hv, e⟩ := hq
    cases e
    exact ⟨parseUint_fits hk, hf _ _ hv⟩
  · cases h

/-- Whatever the document, a map read from it is a map. -/
theorem getMap_asc {κ α : Type} [LT κ] [DecidableLT κ] [DecidableEq κ] (hO : StrictTotal κ)
    {key : Str → Option κ} {f : J → Option α} {x : Option J} {l : List (κ × α)}
    (h : getMap key GoMap.put f x = some l) : Ascending l := by
  unfold getMap at h
  split at h
  · cases h; exact List.Pairwise.nil
  · cases h; exact List.Pairwise.nil
  · simp only [bind, Option.bind_eq_some_iff] at h
    obtain ⟨r, _, e⟩ := h
    cases e
    exact GoMap.foldl_put_asc hO r List.Pairwise.nil
  · cases h

theorem decVal_fits (j : J) (v : Validator) (h : decVal j = some v) : U64 v.index := by
  cases j <;> simp only [decVal, bind, Option.bind_eq_some_iff, reduceCtorEq] at h
  obtain ⟨_, _, _, _, _, _, _, _, _, _, _, h6, _, _, _, _, e⟩ := h
  cases e
  exact getU_fits h6

theorem decSum_fits (j : J) (b : SumBlock) (h : decSum j = some b) : U64 b.slot ∧ U64 b.block ∧ U64 b.index := by
  cases j <;> simp only [decSum, bind, Option.bind_eq_some_iff, reduceCtorEq] at h
  obtain ⟨_, h1, _, h2, _, h3, _, _, _, _, _, _, _, _, _, _, e⟩ := h
  cases e
  exact ⟨getU_fits h1, getU_fits h2, getU_fits h3⟩

theorem decSub_fits (j : J) (e : SubEvent) (h : decSub j = some e) : U64 e.validatorId ∧ U64 e.block := by
  cases j <;> simp only [decSub, bind, Option.bind_eq_some_iff, reduceCtorEq] at h
  obtain ⟨_, _, _, _, _, h1, _, h2, e⟩ := h
  cases e
  exact ⟨getU_fits h1, getU_fits h2⟩

theorem decUnsub_fits (j : J) (e : UnsubEvent) (h : decUnsub j = some e) :
    U64 e.validatorId ∧ U64 e.block := by
  cases j <;> simp only [decUnsub, bind, Option.bind_eq_some_iff, reduceCtorEq] at h
  obtain ⟨_, _, _, h1, _, h2, e⟩ := h
  cases e
  exact ⟨getU_fits h1, getU_fits h2⟩

theorem decEther_fits (j : J) (e : EtherEvent) (h : decEther j = some e) : U64 e.block := by
  cases j <;> simp only [decEther, bind, Option.bind_eq_some_iff, reduceCtorEq] at h
  obtain ⟨_, _, _, _, _, h2, e⟩ := h
  cases e
  exact getU_fits h2

theorem decFrozen_fits (j : J) (f : Frozen) (h : decFrozen j = some f) :
    U64 f.slot ∧ (∀ q ∈ f.vals, U64 q.1 ∧ U64 q.2.index) ∧
      Ascending f.vals ∧ Ascending f.leafs ∧ Ascending f.proofs := by
  cases j <;> simp only [decFrozen, bind, Option.bind_eq_some_iff, reduceCtorEq] at h
  obtain ⟨_, h1, _, _, _, h3, _, h4, _, h5, e⟩ := h
  cases e
  exact ⟨getU_fits h1, getMap_fits decVal_fits h3, getMap_asc strictNat h3, getMap_asc strictStr h4,
    getMap_asc strictStr h5⟩

theorem bind_some {α β : Type} {o : Option α} {f : α → Option β} {b : β} (h : (o >>= f) = some b) :
    ∃ a, o = some a ∧ f a = some b := Option.bind_eq_some_iff.mp h

/-- Whatever the document, a state read from it has numbers that fit their types. -/
theorem decState_fits {j : J} {s : State} (h : decState j = some s) : StateNums s := by
  cases j with
  | obj fs =>
    unfold decState at h
    obtain ⟨_, _, h⟩ := bind_some h
    obtain ⟨_, h2, h⟩ := bind_some h
    obtain ⟨_, h3, h⟩ := bind_some h
    obtain ⟨_, h4, h⟩ := bind_some h
    obtain ⟨_, _, h⟩ := bind_some h
    obtain ⟨_, h6, h⟩ := bind_some h
    obtain ⟨_, h7, h⟩ := bind_some h
    obtain ⟨_, h8, h⟩ := bind_some h
    obtain ⟨_, h9, h⟩ := bind_some h
    obtain ⟨_, h10, h⟩ := bind_some h
    obtain ⟨_, h11, h⟩ := bind_some h
    obtain ⟨_, h12, h⟩ := bind_some h
    obtain ⟨_, h13, h⟩ := bind_some h
    obtain ⟨_, h14, h⟩ := bind_some h
    obtain ⟨_, h15, h⟩ := bind_some h
    obtain ⟨_, _, h⟩ := bind_some h
    obtain ⟨_, _, h⟩ := bind_some h
    obtain ⟨_, _, h⟩ := bind_some h
    obtain ⟨_, h19, h⟩ := bind_some h
    obtain ⟨_, h20, h⟩ := bind_some h
    obtain ⟨_, h21, h⟩ := bind_some h
    obtain ⟨_, _, h⟩ := bind_some h
    cases h
    exact ⟨getU_fits h2, getU_fits h3, getU_fits h4, getMap_fits decVal_fits h6, getMap_fits decFrozen_fits h7,
      getArr_fits decSub_fits h8, getArr_fits decUnsub_fits h9, getArr_fits decEther_fits h10,
      getArr_fits decEther_fits h11, getArr_fits decSum_fits h12, getArr_fits decSum_fits h13,
      getArr_fits decSum_fits h14, getI_fits h15, getU_fits h19, getU_fits h20, getU_fits h21,
      getMap_asc strictNat h6, getMap_asc strictNat h7⟩
  | null => cases h
  | bool _ => cases h
  | num => cases h
  | str => cases h
  | arr => cases h

end Verif
