import Verif.Lemmas.Keccak
import Verif.Lemmas.Sha256
import Verif.Props.TxBytes
/-
C123: the hashes are those of the standards.
-/
namespace Verif

/-- **C123** What is computed for the nodes of the tree, the leaves, the topics, the selectors and the transactions is
Keccak-256 of the standard, for every message: 32 bytes, and as bits they are the first 256 of the sponge. -/
theorem C123_keccak (m : List Nat) (hm : ∀ b ∈ m, b < 256) :
    IsBytes 32 (Keccak.keccak m) ∧ Fips202.bits (Keccak.keccak m) = Fips202.keccak256 (Fips202.bits m) := by
  refine ⟨toBytes_bytes 32 _, ?_⟩
  have hp : ∀ b ∈ Keccak.padded m, b < 256 := by
    intro b hb
    unfold Keccak.padded at hb
    simp only at hb
    split at hb
    · rcases List.mem_append.mp hb with hb | hb
      · exact hm b hb
      · simp at hb; omega
    · simp only [List.mem_append, List.mem_replicate, List.mem_singleton] at hb
      rcases hb with ((hb | hb) | hb) | hb
      · exact hm b hb
      all_goals omega
  obtain ⟨q, hq⟩ := Keccak.padded_length m
  have hl : (Fips202.bits (Keccak.padded m)).length / 1088 = q := by
    rw [Keccak.bits_length, hq]
    omega
  have hl' : (Keccak.padded m).length / 136 = q := by
    rw [hq]
    omega
  have h := Keccak.absorb_ok (Keccak.padded m) hp q 0 0 (by omega) (fun x y z _ _ _ => by
    rw [Nat.zero_testBit]; rfl)
  rw [Nat.mul_zero, List.drop_zero, Nat.zero_add] at h
  unfold Keccak.keccak Fips202.keccak256
  rw [Keccak.toBytes_bits, ← Keccak.padded_ok, hl, hl']
  apply List.map_congr_left
  intro k hk
  have hk : k < 256 := by simpa using hk
  have := h (k / 64 % 5) (k / 320) (k % 64) (Nat.mod_lt _ (by omega)) (by omega) (Nat.mod_lt _ (by omega))
  rw [← this]
  congr 1
  omega

/-- Messages of two blocks and more are there too. -/
example : ∃ m : List Nat, (∀ b ∈ m, b < 256) ∧ (Keccak.padded m).length / 136 = 3 :=
  ⟨List.replicate 300 7, fun b hb => by rw [List.eq_of_mem_replicate hb]; omega, by decide +kernel⟩

/-- **C123** The hash written into saved states and compared on loading is SHA-256 of the standard, for every message: 32
bytes, and as bits they are the message digest. (The standard speaks of messages below 2^64 bits; for longer ones both
sides take the length modulo 2^64.) -/
theorem C123_sha256 (m : List Nat) (hm : ∀ b ∈ m, b < 256) :
    IsBytes 32 (Sha256.sum m) ∧ Fips180.bits (Sha256.sum m) = Fips180.sha256 (Fips180.bits m) := by
  refine ⟨⟨?_, ?_⟩, ?_⟩
  · unfold Sha256.sum
    simp only [List.length_append, Sha256.bytesOf_length]
  · intro b hb
    unfold Sha256.sum at hb
    simp only [List.mem_append] at hb
    rcases hb with ((((((hb | hb) | hb) | hb) | hb) | hb) | hb) | hb <;> exact Sha256.bytesOf_lt _ _ b hb
  obtain ⟨q, hq, hf⟩ := Sha256.pad_length m
  have hl : (Sha256.toWords (Sha256.pad m)).length = 16 * q :=
    Sha256.toWords_length (16 * q) _ (by omega)
  have h := Sha256.blocks_ok (Fips180.wordAt (Fips180.bits (Sha256.pad m))) q (m.length + 1) 0
    (Sha256.toWords (Sha256.pad m)) Fips180.H0 hf hl (fun j hj => by
      rw [Nat.mul_zero, Nat.zero_add]
      exact Sha256.wordAt_ok _ (Sha256.pad_lt m hm) j (by omega))
  have hd : (Fips180.padded (Fips180.bits m)).length / 512 = q := by
    rw [← Sha256.pad_ok, Sha256.bits_length, hq]
    omega
  rw [Sha256.start_ok, ← List.range_eq_range', Sha256.pad_ok] at h
  have h' : Sha256.blocks (m.length + 1) (Sha256.toWords (Sha256.pad m)) Sha256.start =
      Sha256.num (Fips180.hashOf (Fips180.bits m)) := by
    rw [h]
    unfold Fips180.hashOf
    rw [hd]
  unfold Sha256.sum Fips180.sha256
  simp only
  rw [h']
  simp only [Sha256.bits_append, Sha256.bytesOf_bits, Sha256.num, List.flatMap_cons, List.flatMap_nil,
    List.append_nil, List.append_assoc]

/-- A message of three blocks, whose hash is not that of the empty message. -/
example : ∃ m : List Nat, (∀ b ∈ m, b < 256) ∧ (Sha256.pad m).length = 192 ∧ Sha256.sum m ≠ Sha256.sum [] :=
  ⟨List.replicate 130 7, fun b hb => by rw [List.eq_of_mem_replicate hb]; omega, by decide +kernel, by decide +kernel⟩

end Verif
