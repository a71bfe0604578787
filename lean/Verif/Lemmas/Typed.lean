import Verif.Spec.Persist
/-
A way to check on concrete states that everything fits its Go type.
-/
namespace Verif

def asciiB (s : Str) : Bool := s.all fun c => decide (c < 128)
def u64B (n : Nat) : Bool := decide (n < 2 ^ 64)
def valB (v : Validator) : Bool := u64B v.index && asciiB v.waddr && asciiB v.key
def sumB (b : SumBlock) : Bool :=
  u64B b.slot && u64B b.block && u64B b.index && asciiB b.key && asciiB b.waddr
def frozenB (f : Frozen) : Bool :=
  u64B f.slot && asciiB f.root && (f.vals.all fun p => u64B p.1 && valB p.2) &&
  (f.leafs.all fun p => asciiB p.1 && asciiB p.2.waddr) &&
  (f.proofs.all fun p => asciiB p.1 && p.2.all asciiB) &&
  decide (f.vals.Pairwise fun p q => p.1 < q.1) && decide (f.leafs.Pairwise fun p q => p.1 < q.1) &&
  decide (f.proofs.Pairwise fun p q => p.1 < q.1)

def typedB (s : State) : Bool :=
  asciiB s.stateHash && u64B s.latestSlot && u64B s.latestBlock && u64B s.nextSlot &&
  (s.vals.all fun p => u64B p.1 && valB p.2) && (s.committed.all fun p => u64B p.1 && frozenB p.2) &&
  (s.subs.all fun e => u64B e.validatorId && u64B e.block && asciiB e.sender) &&
  (s.unsubs.all fun e => u64B e.validatorId && u64B e.block && asciiB e.sender) &&
  (s.ether.all fun e => u64B e.block && asciiB e.addr) &&
  (s.donations.all fun e => u64B e.block && asciiB e.addr) &&
  s.proposed.all sumB && s.missed.all sumB && s.wrongFee.all sumB &&
  decide (-2 ^ 63 ≤ s.fee ∧ s.fee < 2 ^ 63) && asciiB s.poolAddr && asciiB s.network &&
  asciiB s.poolFeesAddr && u64B s.cpSize && u64B s.depBlock && u64B s.depSlot &&
  decide (s.vals.Pairwise fun p q => p.1 < q.1) && decide (s.committed.Pairwise fun p q => p.1 < q.1)

theorem asciiB_iff {s} : asciiB s = true ↔ Ascii s := by simp [asciiB, Ascii]
theorem u64B_iff {n} : u64B n = true ↔ U64 n := by simp [u64B, U64]
theorem valB_iff {v} : valB v = true ↔ ValTyped v := by
  simp [valB, ValTyped, asciiB_iff, u64B_iff, and_assoc]
theorem sumB_iff {b} : sumB b = true ↔ SumTyped b := by
  simp [sumB, SumTyped, asciiB_iff, u64B_iff, and_assoc]
theorem frozenB_iff {f} : frozenB f = true ↔ FrozenTyped f := by
  simp [frozenB, FrozenTyped, Ascending, asciiB_iff, u64B_iff, valB_iff, and_assoc]

theorem typed_of {s : State} (h : typedB s = true) : StateTyped s := by
  simp only [typedB, Bool.and_eq_true, List.all_eq_true, decide_eq_true_eq, asciiB_iff, u64B_iff, valB_iff,
    sumB_iff, frozenB_iff] at h
  obtain ⟨⟨⟨⟨⟨⟨⟨⟨⟨⟨⟨⟨⟨⟨⟨⟨⟨⟨⟨⟨⟨h1, h2⟩, h3⟩, h4⟩, h5⟩, h6⟩, h7⟩, h8⟩, h9⟩, h10⟩, h11⟩, h12⟩, h13⟩, h14⟩, h15⟩,
    h16⟩, h17⟩, h18⟩, h19⟩, h20⟩, h21⟩, h22⟩ := h
  exact ⟨h1, h2, h3, h4, h5, h6, fun e he => ⟨(h7 e he).1.1, (h7 e he).1.2, (h7 e he).2⟩,
    fun e he => ⟨(h8 e he).1.1, (h8 e he).1.2, (h8 e he).2⟩, h9, h10, h11, h12, h13, h14, h15, h16, h17, h18,
    h19, h20, h21, h22⟩

end Verif
