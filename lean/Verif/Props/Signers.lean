import Verif.Lemmas.Secp
import Verif.Props.TxBytes
/-
C124: the sender of a payment is whoever holds the key that signed it.
-/
namespace Verif
open Sec2

/-- **C124** An address is recovered from a signature exactly when it is that of a key of the curve secp256k1 for which the
signature is valid, as SEC 1 says. The numbers of the signature are in the range that is checked before. -/
theorem C124_key (hash : List Nat) (parity r s : Nat) (a : List Nat) (hp : parity ≤ 1) (hr : 0 < r ∧ r < n)
    (hs : 0 < s ∧ s < n) :
    Secp.recover hash parity r s = some a ↔
      ∃ x y h, Sec2.address x y = a ∧ Verifies (.some x y h) (number hash) parity r s :=
  Secp.recover_iff hash parity r s a hp hr.1 hr.2 hs.1 hs.2

/-- **C124** No signature is valid for two keys. -/
theorem C124_one_key (z parity r s : Nat) (Q Q' : Pt) (hr : 0 < r ∧ r < n)
    (h : Verifies Q z parity r s) (h' : Verifies Q' z parity r s) : Q = Q' := by
  obtain ⟨w, y, hn, hw, hsum, hpar⟩ := h
  obtain ⟨w', y', hn', hw', hsum', hpar'⟩ := h'
  have hy : y = y' := Secp.y_unique ((Secp.nonsingular_iff' _ _).mp hn) ((Secp.nonsingular_iff' _ _).mp hn')
    (by rw [hpar, hpar'])
  subst hy
  have hv := Secp.inv_mod r hr.1 hr.2
  rw [(Secp.key_iff _ _ _ hw hv).mp hsum, (Secp.key_iff _ _ _ hw' hv).mp hsum']

/-- The range of EIP-2 lies in that of SEC 1. -/
theorem good_range {r s : Nat} (h : GoodSignature r s) : (0 < r ∧ r < n) ∧ 0 < s ∧ s < n := by
  have hn : curveOrder = n := by decide +kernel
  unfold GoodSignature at h
  omega

/-- **C124** The sender of a transaction of any kind is exactly the holder of the key for which its signature, over all of
it but the signature, is valid. -/
theorem C124_sender (chain : Nat) (t : EthTx) (a : List Nat) :
    t.sender Secp.recover chain = some a ↔
    ∃ named y, y ≤ 1 ∧ SignedAs t named y ∧ (named = none ∨ named = some chain) ∧
      GoodSignature t.signature.1 t.signature.2 ∧
      ∃ kx ky h, Sec2.address kx ky = a ∧
        Verifies (.some kx ky h) (number (Keccak.keccak (t.payload named))) y t.signature.1 t.signature.2 := by
  rw [C110_sender]
  constructor
  · rintro ⟨named, y, hy, h1, h2, hg, he⟩
    obtain ⟨hr, hs⟩ := good_range hg
    exact ⟨named, y, hy, h1, h2, hg, (C124_key _ _ _ _ _ hy hr hs).mp he⟩
  · rintro ⟨named, y, hy, h1, h2, hg, he⟩
    obtain ⟨hr, hs⟩ := good_range hg
    exact ⟨named, y, hy, h1, h2, hg, (C124_key _ _ _ _ _ hy hr hs).mpr he⟩

/-- **C124** Whoever signs is found: with the secret number `d` and any `k`, a signature made as SEC 1 says is recovered to
the address of the key `d G`. -/
theorem C124_signed (hash : List Nat) (d k parity r s : Nat) (kx ky y : F) (hk : E.Nonsingular kx ky)
    (hy : E.Nonsingular (r : F) y) (hp : parity ≤ 1) (hr : 0 < r ∧ r < n) (hs : 0 < s ∧ s < n)
    (hkey : d • G = .some kx ky hk) (hR : k • G = .some (r : F) y hy) (hpar : y.val % 2 = parity)
    (hsig : s * k % n = (number hash + r * d) % n) :
    Secp.recover hash parity r s = some (Sec2.address kx ky) := by
  rw [C124_key hash parity r s _ hp hr hs]
  refine ⟨kx, ky, hk, rfl, Secp.inv n s, y, hy, Secp.inv_mod s hs.1 hs.2, ?_, hpar⟩
  have hw := Secp.inv_mod s hs.1 hs.2
  rw [← hkey, ← hR, Secp.smul_mod, Secp.smul_mod, ← mul_nsmul', ← add_nsmul]
  have h : (number hash * Secp.inv n s + d * (r * Secp.inv n s)) % n = k % n := by
    have e : number hash * Secp.inv n s + d * (r * Secp.inv n s) = (number hash + r * d) * Secp.inv n s := by ring
    rw [e, Nat.mul_mod, ← hsig, ← Nat.mul_mod]
    have e2 : s * k * Secp.inv n s = (s * Secp.inv n s) * k := by ring
    rw [e2, Nat.mul_mod, hw, Nat.one_mul, Nat.mod_mod]
  rw [← Secp.smul_mod, mul_comm (r * _) d, h, Secp.smul_mod]

/-- **C124** From the bytes of a block to who paid: if a payment is counted as the reward of a block, the last transaction
of the block was signed, for this chain or for none, with the key of the fee recipient or of a known builder. -/
theorem C124_reward (b : FullBlock) (c : ConsBlock) (raws : List (List Nat)) (t : EthTx) (m : Mev)
    (hc : b.cons = some c) (htx : c.txs = readTxs Secp.recover b.chainId raws) (hl : raws.getLast? = some t.bytes)
    (ht : t.WF) (hf : t.bytes.length < 2 ^ 64) (hx : ¬ ExceptionBlock b) (h : mevReward b = .ok m)
    (hp : m.present = true) :
    ∃ named y kx ky hk, SignedAs t named y ∧ (named = none ∨ named = some b.chainId) ∧
      Verifies (.some kx ky hk) (number (Keccak.keccak (t.payload named))) y t.signature.1 t.signature.2 ∧
      (SameAddr c.feeRecipient (hexutilEncode (Sec2.address kx ky)) ∨
        KnownBuilder b.chainId (hexutilEncode (Sec2.address kx ky))) := by
  obtain ⟨dest, sender, _, hs, _, ha, _⟩ := C109_reward_library b c raws t m [] hc htx hl ht hf hx h hp
  obtain ⟨named, y, _, h1, h2, _, kx, ky, hk, h3, h4⟩ := (C124_sender b.chainId t sender).mp hs
  subst h3
  exact ⟨named, y, kx, ky, hk, h1, h2, h4, ha⟩

/-- The signature of a transaction of the main network (utils/utils_test.go:23) is valid for a key, and its sender is the
address of that key. -/
example : ∃ t a, decodeTx exampleRaw = some t ∧ t.sender Secp.recover 1 = some a ∧
    ∃ named y kx ky h, Sec2.address kx ky = a ∧
      Verifies (.some kx ky h) (number (Keccak.keccak (t.payload named))) y t.signature.1 t.signature.2 := by
  have hd : ((decodeTx exampleRaw).bind (fun t => t.sender Secp.recover 1)).isSome = true := by decide +kernel
  obtain ⟨a, ha⟩ := Option.isSome_iff_exists.mp hd
  obtain ⟨t, ht, hs⟩ := Option.bind_eq_some_iff.mp ha
  obtain ⟨named, y, _, _, _, _, kx, ky, h, h1, h2⟩ := (C124_sender 1 t a).mp hs
  exact ⟨t, a, ht, hs, named, y, kx, ky, h, h1, h2⟩

/-- The hypotheses of `C124_reward` are those of `C109_reward_library`, which this block meets. -/
example : ∃ (t : EthTx) (c : ConsBlock) (m : Mev), exampleRaw = t.bytes ∧ t.WF ∧ exampleBlock.cons = some c ∧
    c.txs = readTxs Secp.recover exampleBlock.chainId [exampleRaw] ∧ mevReward exampleBlock = .ok m ∧
    m.present = true ∧ ∃ named y kx ky hk, SignedAs t named y ∧
      Verifies (.some kx ky hk) (number (Keccak.keccak (t.payload named))) y t.signature.1 t.signature.2 := by
  have hd : (decodeTx exampleRaw).isSome = true := by decide +kernel
  obtain ⟨t, ht⟩ := Option.isSome_iff_exists.mp hd
  have hw : ¬ WithBlobs exampleRaw := by
    rintro ⟨x, y, h⟩
    have := congrArg List.head? h
    simp [exampleRaw] at this
  obtain ⟨e, hwf⟩ := C109_nothing_else_partial exampleRaw t (by decide +kernel) hw ht
  have hm : mevReward exampleBlock =
      .ok ⟨429486762611856116742, true, b!"0x388c818ca8b9251b393131c08a736a67ccb19297"⟩ := by decide +kernel
  have hx : ¬ ExceptionBlock exampleBlock := by
    rintro ⟨-, ⟨c, hc, hs⟩, -⟩
    cases hc
    simp at hs
  have hl : t.bytes.length < 2 ^ 64 := by
    rw [← e]
    decide +kernel
  obtain ⟨named, y, kx, ky, hk, h1, _, h2, _⟩ := C124_reward exampleBlock _ [exampleRaw] t _ rfl rfl (by rw [← e]; rfl)
    hwf hl hx hm rfl
  exact ⟨t, _, _, e, hwf, rfl, rfl, hm, rfl, named, y, kx, ky, hk, h1, h2⟩

/-- The hypotheses of `C124_signed` are met: the secret 1 signs the hash 5. -/
example : Secp.recover [5] 0 0x79BE667EF9DCBBAC55A06295CE870B07029BFCDB2DCE28D959F2815B16F81798
    (0x79BE667EF9DCBBAC55A06295CE870B07029BFCDB2DCE28D959F2815B16F81798 + 5) = some (Sec2.address gx gy) := by
  have hc : ((0x79BE667EF9DCBBAC55A06295CE870B07029BFCDB2DCE28D959F2815B16F81798 : Nat) : F) = gx := by simp [gx]
  have hon : E.Nonsingular ((0x79BE667EF9DCBBAC55A06295CE870B07029BFCDB2DCE28D959F2815B16F81798 : Nat) : F) gy := by
    rw [hc]
    exact G_on
  refine C124_signed [5] 1 1 0 _ _ gx gy gy G_on hon (by omega) (by decide +kernel) (by decide +kernel) (one_nsmul G)
    ?_ (by decide +kernel) (by decide +kernel)
  rw [one_nsmul]
  unfold G
  congr 1

end Verif
