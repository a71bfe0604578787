import Verif.Spec.Sample
import Verif.Spec.Status
/-
What the sample blocks contain, in the words of the specification.
-/
namespace Verif.Sample

theorem hasAddress (i : Nat) : HasAddress (creds i) (addr i) :=
  ⟨1, List.replicate 20 (i % 256), Or.inl rfl, List.length_replicate, rfl, rfl⟩

theorem same (a : Str) : SameAddr a a := ⟨rfl, rfl⟩

theorem prop_notException {slot i fr t evs} (h : slot ≠ 10400574) :
    ¬ ExceptionBlock (prop slot i fr t evs) := by
  rintro ⟨_, ⟨c, hc, hs⟩, _⟩
  simp only [prop, Option.some.injEq] at hc
  subst hc
  exact h hs

theorem prop_last {slot i fr evs s d x} : LastTx (prop slot i fr (tx s d x) evs) (tx s d x) s d :=
  ⟨_, rfl, rfl, rfl, rfl⟩

theorem prop_last_only {slot i fr evs s d x t s' d'}
    (h : LastTx (prop slot i fr (tx s d x) evs) t s' d') : t = tx s d x ∧ s' = s ∧ d' = d := by
  obtain ⟨c, hc, h1, h2, h3⟩ := h
  simp only [prop, Option.some.injEq] at hc
  subst hc
  simp only [List.getLast?_singleton, Option.some.injEq] at h1
  subst h1
  simp only [tx, Option.some.injEq] at h2 h3
  exact ⟨rfl, h2.symm, h3.symm⟩

/-- the fee recipient pays in the last transaction -/
theorem prop_builder {slot i evs s d x} (h : slot ≠ 10400574) :
    BuilderPays (prop slot i s (tx s d x) evs) (tx s d x) d :=
  ⟨prop_notException h, _, s, rfl, prop_last, Or.inl (same s)⟩

theorem prop_builder_only {slot i fr evs s d x t d'}
    (h : BuilderPays (prop slot i fr (tx s d x) evs) t d') : t = tx s d x ∧ d' = d := by
  obtain ⟨_, c, s', _, hl, _⟩ := h
  obtain ⟨h1, _, h3⟩ := prop_last_only hl
  exact ⟨h1, h3⟩

/-- the last transaction is an ordinary one -/
theorem prop_noBuilder {slot i fr evs s d x} (h1 : ¬ SameAddr fr s) (h2 : ¬ KnownBuilder 1 s) :
    ∀ t d', ¬ BuilderPays (prop slot i fr (tx s d x) evs) t d' := by
  rintro t d' ⟨_, c, s', hc, hl, h⟩
  obtain ⟨_, rfl, _⟩ := prop_last_only hl
  simp only [prop, Option.some.injEq] at hc
  subst hc
  rcases h with h | h
  · exact h1 h
  · exact h2 h

theorem prop_gas {slot i fr evs s d x} : GasOK (prop slot i fr (tx s d x) evs) := by
  intro c h rs hc hh hr
  simp only [prop, Option.some.injEq] at hc hh hr
  subst hc hh hr
  refine ⟨rfl, ?_, rfl, by dsimp only; decide, ?_⟩
  · intro n hn; simp only [BaseFee.u256.injEq] at hn; subst hn; decide
  · intro t ht
    simp only [List.mem_cons, Option.some.injEq, List.not_mem_nil, or_false] at ht
    subst ht; simp [effectivePrice, tx]; omega

instance (a b) : Decidable (SameAddr a b) := by unfold SameAddr; infer_instance
instance (a b) : Decidable (KnownBuilder a b) := by unfold KnownBuilder; infer_instance

theorem b0_pays : PaysPool b0 pool 1 (addr 1) :=
  ⟨rfl, ⟨_, rfl, Or.inr (Or.inl ⟨_, _, ⟨by
      rintro ⟨_, ⟨c, hc, hs⟩, _⟩
      simp only [b0, prop, Option.some.injEq] at hc
      subst hc
      simp at hs, _, builder, rfl, ⟨_, rfl, rfl, rfl, rfl⟩, Or.inl (same _)⟩, (by
      show SameAddr pool pool
      exact same _)⟩)⟩, hasAddress 1⟩

theorem b0_gas : GasOK b0 := by
  intro c h rs hc hh hr
  exact prop_gas (slot := 12000000) (i := 1) (fr := builder) (s := builder) (d := pool) (x := 5000)
    (evs := {}) c h rs hc hh hr

/-- a vanilla block of a proposer with the pool as fee recipient -/
theorem vanilla_pays {slot i evs d x} {s : Str} (h : slot ≠ 10400574) (h1 : ¬ SameAddr pool s)
    (h2 : ¬ KnownBuilder 1 s) : PaysPool (prop slot i pool (tx s d x) evs) pool i (addr i) :=
  ⟨rfl, ⟨_, rfl, Or.inr (Or.inr ⟨prop_notException h, prop_noBuilder h1 h2, same _⟩)⟩, hasAddress i⟩

theorem b1_pays : PaysPool b1 pool 2 (addr 2) :=
  vanilla_pays (by decide) (by decide) (by decide)

/-- a builder's payment to somebody else -/
theorem prop_elsewhere {slot i evs d x} {s : Str} (h : slot ≠ 10400574)
    (he : ∀ e ∈ evs.ether, e.amount ≠ x) (hd : ¬ SameAddr d pool) :
    PaysElsewhere (prop slot i s (tx s d x) evs) pool i := by
  refine ⟨rfl, by simp [prop], ?_⟩
  rintro ⟨c, hc, h1 | ⟨t, d', h1, h2⟩ | ⟨_, h1, _⟩⟩
  · exact prop_notException h h1.1
  · obtain ⟨rfl, rfl⟩ := prop_builder_only h1
    unfold ArrivesAt at h2
    split at h2
    · rename_i e hf
      have k1 := List.find?_some hf
      have k2 := List.mem_of_find?_eq_some hf
      exact he e k2 (by simpa [tx] using k1)
    · exact hd h2
  · exact h1 _ _ (prop_builder h)

theorem b3_elsewhere : PaysElsewhere b3 pool 1 := by
  refine ⟨rfl, by simp [b3, prop], ?_⟩
  have := (prop_elsewhere (slot := 12000003) (i := 1) (s := builder) (d := addr 77) (x := 900)
    (evs := { ether := [⟨40, pool, 100⟩], unsubs := [⟨2, addr 2, 100⟩] }) (by decide) (by simp)
    (by decide)).2.2
  exact this

theorem b3_unsub : OwnerUnsubscribes b3 2 :=
  ⟨⟨2, addr 2, 100⟩, bval 2, addr 2, by simp [b3, prop], rfl, rfl, hasAddress 2, same _⟩

theorem b3_gas : GasOK b3 := by
  intro c h rs hc hh hr
  exact prop_gas (slot := 12000003) (i := 1) (fr := builder) (s := builder) (d := addr 77) (x := 900)
    (evs := {}) c h rs hc hh hr

/-- the sample node says every validator but 9 is active -/
theorem active {slot i : Nat} (h : i ≠ 9) : ¬ NotActive env slot i := by
  rintro ⟨t, req, r, v, h1, h2, h3, h4⟩
  rw [env_node h1] at h2
  obtain ⟨j, _, rfl⟩ := List.mem_map.mp h2
  rw [index_if] at h3
  subst h3
  rw [if_neg h] at h4
  simp [bval, BStatus.isActive] at h4

/-- a history followed by one slot, with a condition on both oracles and the slot number -/
theorem ex_then {E o bs b} {P : Oracle → Oracle → Nat → Bool}
    (h : (run E o bs).any (fun o1 => (advanceState E o1 b).toOption.any fun p => p.2.any (P o1 p.1)) = true) :
    ∃ o1 o2 n, Hist E o bs o1 ∧ advanceState E o1 b = .ok (o2, some n) ∧ P o1 o2 n = true := by
  obtain ⟨o1, h1, h2⟩ := ex_hist h
  obtain ⟨⟨o2, n⟩, h3, h4⟩ := ex_ok h2
  cases n with
  | none => simp at h4
  | some n => exact ⟨o1, o2, n, h1, h3, by simpa using h4⟩

theorem ex_get {x : Option Validator} {P : Validator → Prop} [DecidablePred P]
    (h : (x.any fun v => decide (P v)) = true) : ∃ v, x = some v ∧ P v := by
  cases x with
  | none => simp at h
  | some v => exact ⟨v, rfl, by simpa using h⟩

end Verif.Sample
