import Verif.Spec.SavedText
import Verif.Props.Library
/-
C106: what a saved file says and in which order.
-/
namespace Verif

theorem encNatMap_perm {α : Type} (f : α → J) {m m' : List (Nat × α)} (hp : m.Perm m')
    (hu : ∀ p ∈ m, U64 p.1) (ha : Ascending m) : encNatMap f m = encNatMap f m' := by
  unfold encNatMap
  congr 1
  refine sortFields_congr (hp.map _) ?_
  rw [List.map_map]
  refine List.pairwise_map.mpr (List.Pairwise.imp_of_mem ?_ ha)
  intro a b h1 h2 hlt e
  have := decimal_inj (hu a h1) (hu b h2) e
  omega

theorem encStrMap_perm {α : Type} (f : α → J) {m m' : List (Str × α)} (hp : m.Perm m')
    (ha : Ascending m) : encStrMap f m = encStrMap f m' := by
  unfold encStrMap
  congr 1
  refine sortFields_congr (hp.map _) ?_
  rw [List.map_map]
  exact GoMap.asc_nodup strictStr ha

theorem encFrozen_same {f f' : Frozen} (h : (∀ q ∈ f.vals, U64 q.1 ∧ U64 q.2.index) ∧
    Ascending f.vals ∧ Ascending f.leafs ∧ Ascending f.proofs) (hs : SameFrozen f f') :
    encFrozen f = encFrozen f' := by
  unfold encFrozen
  rw [hs.slot, hs.root, encNatMap_perm encVal hs.vals (fun p hp => (h.1 p hp).1) h.2.1,
    encStrMap_perm encLeaf hs.leafs h.2.2.1, encStrMap_perm _ hs.proofs h.2.2.2]

theorem encState_same {s s' : State} (h : StateNums s) (hs : SameMaps s s') : encState s = encState s' := by
  have hv := encNatMap_perm encVal hs.vals (fun p hp => (h.vals p hp).1) h.valMap
  have hc : encNatMap encFrozen s.committed = encNatMap encFrozen s'.committed := by
    obtain ⟨c, hp, hf⟩ := hs.committed
    rw [encNatMap_perm encFrozen hp (fun p hp => (h.committed p hp).1) h.commitMap]
    unfold encNatMap
    congr 2
    have ht : ∀ p ∈ c, _ := fun p hm => (h.committed p (hp.mem_iff.mpr hm)).2.2
    clear hp
    generalize s'.committed = c' at hf
    induction hf with
    | nil => rfl
    | cons h1 _ ih =>
      rw [List.map_cons, List.map_cons, ih (fun p hm => ht p (List.mem_cons_of_mem _ hm)), h1.1,
        encFrozen_same (ht _ (by simp)) h1.2]
  have hr := hs.rest
  have e : encState s = encState { s' with vals := s.vals, committed := s.committed } := by
    have : s = { s' with vals := s.vals, committed := s.committed } := by
      have := congrArg (fun x : State => { x with vals := s.vals, committed := s.committed }) hr
      exact this
    rw [← this]
  rw [e]
  unfold encState
  dsimp only
  rw [hv, hc]

/-- **C106.** The order in which Go happens to walk its maps has no influence on the saved file: two
states with the same content, however their maps are listed, are written as the same bytes and have the
same hash. -/
theorem C106_order (L : Lib) {s s' : State} (h : StateNums s) (hs : SameMaps s s') :
    savedBytes L s = savedBytes L s' ∧ stateDigest L s = stateDigest L s' := by
  have blank : ∀ x : Str, encState { s with stateHash := x } = encState { s' with stateHash := x } := by
    intro x
    refine encState_same { h with } ⟨hs.vals, hs.committed, ?_⟩
    have := congrArg (fun y : State => { y with stateHash := x }) hs.rest
    exact this
  have hd : stateDigest L s = stateDigest L s' := by
    unfold stateDigest
    rw [blank []]
  refine ⟨?_, hd⟩
  unfold savedBytes hashState
  rw [hd, blank]

/-- A validator. -/
def sampleVal : Validator :=
  { status := .active, acc := 5, pend := 3, coll := 1, waddr := b!"0xab", index := 7, key := b!"0x01",
    subType := .manual }

/-- A state with three validators, listed backwards. -/
example : ∃ s s', StateNums s ∧ SameMaps s s' ∧ s.vals ≠ s'.vals ∧ s.vals.length = 3 := by
  have ht : StateTyped { Sample.st with vals := [(1, sampleVal), (2, sampleVal), (10, sampleVal)] } :=
    typed_of (by decide +kernel)
  refine ⟨_, { Sample.st with vals := [(10, sampleVal), (2, sampleVal), (1, sampleVal)] }, ht.nums,
    ⟨?_, ⟨_, List.Perm.refl _, ?_⟩, rfl⟩, by decide +kernel, rfl⟩
  · exact (List.reverse_perm _).symm
  · exact List.forall₂_same.mpr fun p _ => ⟨rfl, rfl, rfl, .refl _, .refl _, .refl _⟩

/-- **C106.** The file lists the validators in ascending order of their indices *as texts* (1, 10, 2, ...),
each once, and nobody else; the checkpoints likewise. -/
theorem C106_listed {s : State} (h : StateNums s) :
    ∃ fs vs cs, encState s = .obj fs ∧ J.field fs b!"validators" = some (.obj vs) ∧
      J.field fs b!"commited_states" = some (.obj cs) ∧
      vs.Pairwise (fun a b => a.1 < b.1) ∧ cs.Pairwise (fun a b => a.1 < b.1) ∧
      (∀ x, x ∈ vs.map (·.1) ↔ ∃ p ∈ s.vals, x = decimal p.1) ∧
      ∀ x, x ∈ cs.map (·.1) ↔ ∃ p ∈ s.committed, x = decimal p.1 := by
  have strict : ∀ {α : Type} (f : α → J) {m : List (Nat × α)}, (∀ p ∈ m, U64 p.1) → Ascending m →
      (sortFields (m.map fun p => (decimal p.1, f p.2))).Pairwise (fun a b => a.1 < b.1) ∧
      ∀ x, x ∈ (sortFields (m.map fun p => (decimal p.1, f p.2))).map (·.1) ↔ ∃ p ∈ m, x = decimal p.1 := by
    intro α f m hu ha
    constructor
    · refine sortFields_strict ?_
      rw [List.map_map]
      refine List.pairwise_map.mpr (List.Pairwise.imp_of_mem ?_ ha)
      intro a b h1 h2 hlt e
      have := decimal_inj (hu a h1) (hu b h2) e
      omega
    · intro x
      rw [((sortFields_perm _).map _).mem_iff]
      simp only [List.map_map, List.mem_map, Function.comp_apply]
      exact ⟨fun ⟨p, hp, e⟩ => ⟨p, hp, e.symm⟩, fun ⟨p, hp, e⟩ => ⟨p, hp, e.symm⟩⟩
  obtain ⟨a1, a2⟩ := strict encVal (fun p hp => (h.vals p hp).1) h.valMap
  obtain ⟨b1, b2⟩ := strict encFrozen (fun p hp => (h.committed p hp).1) h.commitMap
  exact ⟨_, _, _, rfl, rfl, rfl, a1, b1, a2, b2⟩

/-- Validators 1, 2 and 10 are written as 1, 10, 2. -/
example : (match encNatMap encVal [(1, sampleVal), (2, sampleVal), (10, sampleVal)] with
    | .obj fs => fs.map (·.1)
    | _ => []) = [b!"1", b!"10", b!"2"] := by decide +kernel

/-- **C106**, exactly. With the functions of the library, two states whose numbers fit their types are
written as the same bytes if and only if they have the same content. -/
theorem C106_exact {s s' : State} (h : StateNums s) (h' : StateNums s') :
    savedBytes goLib s = savedBytes goLib s' ↔ SameContent s s' := by
  constructor
  · intro e
    have e1 : encState (hashState goLib s) = encState (hashState goLib s') := by
      have h1 : JsonText.read (savedBytes goLib s) = some (encState (hashState goLib s)) :=
        JsonText.read_write _
      have h2 : JsonText.read (savedBytes goLib s') = some (encState (hashState goLib s')) :=
        JsonText.read_write _
      rw [e, h2] at h1
      exact (Option.some.inj h1).symm
    have h1 := decState_nums (s := hashState goLib s) { h with }
    have h2 := decState_nums (s := hashState goLib s') { h' with }
    rw [e1, h2] at h1
    have := congrArg (fun y : State => { y with stateHash := [] }) (Option.some.inj h1).symm
    exact this
  · intro e
    have hd : stateDigest goLib s = stateDigest goLib s' := stateDigest_congr goLib e
    unfold savedBytes hashState
    rw [hd]
    have : encState { s with stateHash := stateDigest goLib s' } =
        encState { s' with stateHash := stateDigest goLib s' } := by
      have := congrArg (fun y : State => encState { y with stateHash := stateDigest goLib s' }) e
      exact this
    rw [this]

/-- **C106.** A file in which a validator is written twice is read with the last entry. -/
theorem C106_last {fs : List (Str × J)} {x : Str} {j : J} {k : Nat} {v : Validator} {m : VMap}
    (hk : parseUint x = some k) (hv : decVal j = some v)
    (h : getMap parseUint putNat decVal (some (.obj (fs ++ [(x, j)]))) = some m) : VMap.get m k = some v := by
  have gp : ∀ m : VMap, VMap.get (putNat m k v) k = some v := by
    intro m
    unfold putNat
    induction m with
    | nil => simp [GoMap.put, VMap.get]
    | cons a m ih =>
      rw [GoMap.put]
      split
      · simp [VMap.get]
      · split
        · simp [VMap.get]
        · next hne => rw [VMap.get, if_neg (fun e => hne e.symm)]; exact ih
  unfold getMap at h
  dsimp only at h
  rw [List.mapM_append] at h
  obtain ⟨l, h1, h2⟩ := Option.bind_eq_some_iff.mp h
  obtain ⟨l1, _, h3⟩ := Option.bind_eq_some_iff.mp h1
  obtain ⟨l2, h4, h5⟩ := Option.bind_eq_some_iff.mp h3
  rw [List.mapM_cons, List.mapM_nil] at h4
  have h4' : some [(k, v)] = some l2 := by
    rw [← h4, hk, hv]; rfl
  cases h4'
  cases h5
  cases h2
  rw [List.foldl_append]
  exact gp _

/-- Validator 7 written twice, as active and as banned, is read as banned. -/
example : ∃ v : Validator, v.status = .banned ∧
    getMap parseUint putNat decVal (some (.obj ([(b!"7", encVal { v with status := .active })] ++
      [(b!"7", encVal v)]))) = some [(7, v)] :=
  ⟨{ sampleVal with status := .banned }, rfl, by decide +kernel⟩

end Verif
