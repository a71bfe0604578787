import Verif.Spec.Secp
import Mathlib.Tactic.FieldSimp
import Mathlib.Algebra.Module.ZMod
import Mathlib.SetTheory.Cardinal.Finite
import Mathlib.Tactic.LinearCombination
/-
The arithmetic of the model on secp256k1 is that of the group of the curve.
-/
namespace Verif
namespace Secp
open Sec2 WeierstrassCurve.Affine

theorem prime_eq : prime = p := by decide +kernel

theorem prime_lt : prime < 2 ^ 256 := by decide +kernel

theorem prime_pos : 0 < prime := by decide +kernel

attribute [local irreducible] Secp.prime Sec2.p Sec2.n

theorem cast_mod (x : Nat) : ((x % prime : Nat) : F) = x := by
  rw [prime_eq]
  exact ZMod.natCast_mod x p

theorem cast_prime : ((prime : Nat) : F) = 0 := by
  rw [prime_eq]
  exact ZMod.natCast_self p

theorem cast_sub' (a b : Nat) : ((sub a b : Nat) : F) = (a : F) - b := by
  unfold sub
  rw [cast_mod, Nat.cast_add, Nat.cast_sub (Nat.mod_lt _ prime_pos).le, cast_mod, cast_prime]
  ring

theorem cast_eq {a b : Nat} (ha : a < prime) (hb : b < prime) : ((a : Nat) : F) = b ↔ a = b := by
  constructor
  · intro h
    rw [ZMod.natCast_eq_natCast_iff'] at h
    rw [prime_eq] at ha hb
    rwa [Nat.mod_eq_of_lt ha, Nat.mod_eq_of_lt hb] at h
  · intro h
    rw [h]

theorem mod_lt (a : Nat) : a % prime < prime := Nat.mod_lt _ prime_pos

theorem sub_lt (a b : Nat) : sub a b < prime := mod_lt _

theorem cx_point {x y : Nat} (z : Nat) (hx : x < prime) (_ : y < prime) : cx (point x y z) = x := by
  have := prime_lt
  unfold cx point
  omega

theorem cy_point {x y : Nat} (z : Nat) (hx : x < prime) (hy : y < prime) : cy (point x y z) = y := by
  have := prime_lt
  unfold cy point
  omega

theorem cz_point {x y : Nat} (z : Nat) (hx : x < prime) (hy : y < prime) : cz (point x y z) = z := by
  have := prime_lt
  unfold cz point
  omega

/-- the point of the curve that a number stands for -/
def Rep (q : Nat) : Pt → Prop
  | .zero => cz q = 0
  | .some x y _ => cz q < prime ∧ (cz q : F) ≠ 0 ∧ (cx q : F) = x * (cz q : F) ^ 2 ∧ (cy q : F) = y * (cz q : F) ^ 3

theorem rep_zero_zero : Rep 0 (0 : Pt) := by
  show cz 0 = 0
  unfold cz
  exact Nat.zero_div _

theorem rep_zero {q : Nat} {P : Pt} (h : Rep q P) : cz q = 0 ↔ P = 0 := by
  cases P with
  | zero => exact ⟨fun _ => rfl, fun _ => h⟩
  | some x y hp =>
    constructor
    · intro hz
      have := h.2.1
      rw [hz] at this
      simp at this
    · intro hz
      cases hz

theorem two_ne : (2 : F) ≠ 0 := by
  intro h
  have h2 : ((2 : Nat) : F) = ((0 : Nat) : F) := by simpa using h
  have hp : 2 < prime := by rw [prime_eq]; decide +kernel
  rw [cast_eq hp prime_pos] at h2
  omega

theorem negY_eq (x y : F) : E.negY x y = -y := by
  simp [WeierstrassCurve.Affine.negY, E]

theorem double_ok {q : Nat} {P : Pt} (h : Rep q P) : Rep (double q) (P + P) := by
  have ez : cz (double q) = 2 * cy q * cz q % prime := by
    unfold double
    exact cz_point _ (sub_lt _ _) (sub_lt _ _)
  cases P with
  | zero =>
    have hz : cz q = 0 := h
    show Rep _ ((0 : Pt) + 0)
    rw [add_zero]
    show cz _ = 0
    rw [ez, hz, Nat.mul_zero, Nat.zero_mod]
  | some x y hp =>
    obtain ⟨h1, h2, h3, h4⟩ := h
    by_cases hy : y = 0
    · rw [Point.add_self_of_Y_eq (by rw [negY_eq, hy, neg_zero])]
      show cz _ = 0
      have : ((2 * cy q * cz q % prime : Nat) : F) = ((0 : Nat) : F) := by
        rw [cast_mod]
        push_cast
        rw [h4, hy]
        ring
      rw [ez]
      exact (cast_eq (mod_lt _) prime_pos).mp this
    · have hyn : y ≠ E.negY x y := by
        rw [negY_eq]
        intro hc
        have : 2 * y = 0 := by linear_combination hc
        rcases mul_eq_zero.mp this with h | h
        · exact two_ne h
        · exact hy h
      rw [Point.add_self_of_Y_ne hyn]
      have hs : E.slope x x y y = 3 * x ^ 2 / (2 * y) := by
        rw [slope_of_Y_ne rfl hyn, negY_eq]
        simp only [E]
        congr 1 <;> ring
      have ecz : ((cz (double q) : Nat) : F) = 2 * y * (cz q : F) ^ 4 := by
        rw [ez, cast_mod]
        push_cast
        rw [h4]
        ring
      have ecx : ((cx (double q) : Nat) : F) = 9 * x ^ 4 * (cz q : F) ^ 8 - 8 * x * y ^ 2 * (cz q : F) ^ 8 := by
        unfold double
        rw [cx_point _ (sub_lt _ _) (sub_lt _ _)]
        simp only [cast_sub', cast_mod, Nat.cast_mul, Nat.cast_ofNat, h3, h4]
        ring
      have ecy : ((cy (double q) : Nat) : F) = 3 * x ^ 2 * (cz q : F) ^ 4 * (4 * x * y ^ 2 * (cz q : F) ^ 8 -
          (9 * x ^ 4 * (cz q : F) ^ 8 - 8 * x * y ^ 2 * (cz q : F) ^ 8)) - 8 * y ^ 4 * (cz q : F) ^ 12 := by
        unfold double
        rw [cy_point _ (sub_lt _ _) (sub_lt _ _)]
        simp only [cast_sub', cast_mod, Nat.cast_mul, Nat.cast_ofNat, h3, h4]
        ring
      have t2 := two_ne
      refine ⟨by rw [ez]; exact mod_lt _, ?_, ?_, ?_⟩
      · rw [ecz]
        exact mul_ne_zero (mul_ne_zero two_ne hy) (pow_ne_zero _ h2)
      · rw [ecx, ecz, hs]
        simp only [addX, E]
        field_simp
        ring
      · rw [ecy, ecz, hs]
        simp only [addY, negAddY, negY_eq, addX]
        simp only [E]
        field_simp
        ring

theorem add_ok' {q q' : Nat} {P P' : Pt} (h : Rep q P) (h' : Rep q' P') : Rep (add q q') (P + P') := by
  unfold add
  by_cases hz : cz q = 0
  · rw [if_pos hz, (rep_zero h).mp hz, zero_add]
    exact h'
  rw [if_neg hz]
  by_cases hz' : cz q' = 0
  · rw [if_pos hz', (rep_zero h').mp hz', add_zero]
    exact h
  rw [if_neg hz']
  dsimp only
  cases P with
  | zero => exact absurd h hz
  | some x y hp =>
  cases P' with
  | zero => exact absurd h' hz'
  | some x' y' hp' =>
  obtain ⟨h1, h2, h3, h4⟩ := h
  obtain ⟨h1', h2', h3', h4'⟩ := h'
  generalize hzz : (cz q : F) = z at *
  generalize hzz' : (cz q' : F) = z' at *
  have hu : ((cx q * (cz q' * cz q' % prime) % prime : Nat) : F) = x * z ^ 2 * z' ^ 2 := by
    rw [cast_mod, Nat.cast_mul, cast_mod, Nat.cast_mul, h3, hzz']; ring
  have hu' : ((cx q' * (cz q * cz q % prime) % prime : Nat) : F) = x' * z ^ 2 * z' ^ 2 := by
    rw [cast_mod, Nat.cast_mul, cast_mod, Nat.cast_mul, h3', hzz]; ring
  have hs : ((cy q * (cz q' * cz q' % prime) * cz q' % prime : Nat) : F) = y * z ^ 3 * z' ^ 3 := by
    rw [cast_mod, Nat.cast_mul, Nat.cast_mul, cast_mod, Nat.cast_mul, h4, hzz']; ring
  have hs' : ((cy q' * (cz q * cz q % prime) * cz q % prime : Nat) : F) = y' * z ^ 3 * z' ^ 3 := by
    rw [cast_mod, Nat.cast_mul, Nat.cast_mul, cast_mod, Nat.cast_mul, h4', hzz]; ring
  have lu := mod_lt (cx q * (cz q' * cz q' % prime))
  have lu' := mod_lt (cx q' * (cz q * cz q % prime))
  have ls := mod_lt (cy q * (cz q' * cz q' % prime) * cz q')
  have ls' := mod_lt (cy q' * (cz q * cz q % prime) * cz q)
  have ux : (cx q * (cz q' * cz q' % prime) % prime = cx q' * (cz q * cz q % prime) % prime) ↔ x = x' := by
    rw [← cast_eq lu lu', hu, hu', mul_left_inj' (pow_ne_zero _ h2'), mul_left_inj' (pow_ne_zero _ h2)]
  have sy : (cy q * (cz q' * cz q' % prime) * cz q' % prime = cy q' * (cz q * cz q % prime) * cz q % prime) ↔
      y = y' := by
    rw [← cast_eq ls ls', hs, hs', mul_left_inj' (pow_ne_zero _ h2'), mul_left_inj' (pow_ne_zero _ h2)]
  generalize cx q * (cz q' * cz q' % prime) % prime = u at *
  generalize cx q' * (cz q * cz q % prime) % prime = u' at *
  generalize cy q * (cz q' * cz q' % prime) * cz q' % prime = s at *
  generalize cy q' * (cz q * cz q % prime) * cz q % prime = s' at *
  by_cases hx : x = x'
  · rw [if_pos (ux.mpr hx)]
    by_cases hy : y = y'
    · rw [if_pos (sy.mpr hy)]
      subst hx hy
      refine double_ok (P := .some x y hp) ⟨h1, ?_, ?_, ?_⟩
      · rw [hzz]; exact h2
      · rw [hzz]; exact h3
      · rw [hzz]; exact h4
    · rw [if_neg (fun h => hy (sy.mp h))]
      have : y = E.negY x' y' := by
        rcases Y_eq_of_X_eq hp.1 hp'.1 hx with h | h
        · exact absurd h hy
        · exact h
      rw [Point.add_of_Y_eq hx this]
      exact rep_zero_zero
  · rw [if_neg (fun h => hx (ux.mp h)), Point.add_of_X_ne hx]
    have hd : x - x' ≠ 0 := sub_ne_zero.mpr hx
    have hd' : x' - x ≠ 0 := sub_ne_zero.mpr (Ne.symm hx)
    have hsl : E.slope x x' y y' = (y' - y) / (x' - x) := by
      rw [slope_of_X_ne hx, ← neg_sub y' y, ← neg_sub x' x, neg_div_neg_eq]
    generalize hh : sub u' u = a
    generalize hr : sub s' s = b
    have ea : (a : F) = (x' - x) * z ^ 2 * z' ^ 2 := by
      rw [← hh, cast_sub', hu, hu']; ring
    have eb : (b : F) = (y' - y) * z ^ 3 * z' ^ 3 := by
      rw [← hr, cast_sub', hs, hs']; ring
    generalize hX : sub (b * b) (a * a % prime * a % prime + 2 * u * (a * a % prime)) = X
    have lX : X < prime := by rw [← hX]; exact sub_lt _ _
    have eX : (X : F) = b * b - (a * a * a + 2 * u * (a * a)) := by
      rw [← hX]
      simp only [cast_sub', cast_mod, Nat.cast_mul, Nat.cast_add, Nat.cast_ofNat]
    have eZ : ((a * cz q * cz q' % prime : Nat) : F) = (x' - x) * z ^ 3 * z' ^ 3 := by
      simp only [cast_mod, Nat.cast_mul, ea, hzz, hzz']
      ring
    refine ⟨?_, ?_, ?_, ?_⟩
    · rw [cz_point _ lX (sub_lt _ _)]
      exact mod_lt _
    · rw [cz_point _ lX (sub_lt _ _), eZ]
      exact mul_ne_zero (mul_ne_zero hd' (pow_ne_zero _ h2)) (pow_ne_zero _ h2')
    · rw [cz_point _ lX (sub_lt _ _), cx_point _ lX (sub_lt _ _), eZ, eX, ea, eb, hu, hsl]
      simp only [addX, E]
      field_simp
      ring
    · rw [cz_point _ lX (sub_lt _ _), cy_point _ lX (sub_lt _ _), eZ, hsl]
      simp only [cast_sub', cast_mod, Nat.cast_mul, eX, ea, eb, hu, hs]
      simp only [addY, negAddY, negY_eq, addX]
      simp only [E]
      field_simp
      ring

theorem mul_ok {q : Nat} {P : Pt} (h : Rep q P) : ∀ k m : Nat, m < 2 ^ k → Rep (mul k m q) (m • P)
  | 0, m, hm => by
    have : m = 0 := by simpa using hm
    rw [this, zero_nsmul, mul]
    exact rep_zero_zero
  | k + 1, m, hm => by
    have ih := double_ok (mul_ok h k (m / 2) (by rw [Nat.pow_succ] at hm; omega))
    rw [mul]
    have h2 : m / 2 + m / 2 = 2 * (m / 2) := by omega
    rw [← add_nsmul, h2] at ih
    by_cases hb : m % 2 = 1
    · rw [if_pos hb]
      have : m • P = (2 * (m / 2)) • P + P := by
        rw [← succ_nsmul]
        congr 1
        omega
      rw [this]
      exact add_ok' ih h
    · rw [if_neg hb]
      have : m = 2 * (m / 2) := by omega
      rw [← this] at ih
      exact ih

/-! ### the order of the group -/

theorem no_root (x : F) : x ^ 3 ≠ -7 := by
  intro h
  have h7 : (7 : F) ≠ 0 := by
    intro h
    have h2 : ((7 : Nat) : F) = ((0 : Nat) : F) := by simpa using h
    have hp : 7 < prime := by rw [prime_eq]; decide +kernel
    rw [cast_eq hp prime_pos] at h2
    omega
  have hx : x ≠ 0 := by
    intro hx
    rw [hx] at h
    apply h7
    linear_combination h
  have h3 : 3 * ((p - 1) / 3) = p - 1 := by decide +kernel
  have h1 : (-7 : F) ^ ((p - 1) / 3) = 1 := by
    rw [← h, ← pow_mul, h3]
    exact ZMod.pow_card_sub_one_eq_one hx
  have hc : ((p - 7 : Nat) : F) = -7 := by
    have : 7 ≤ p := by decide +kernel
    rw [Nat.cast_sub this]
    simp
  rw [← hc, ← Nat.cast_pow] at h1
  have h4 : (p - 7) ^ ((p - 1) / 3) % p = 1 := by
    have h5 : (((p - 7) ^ ((p - 1) / 3) : Nat) : F) = ((1 : Nat) : F) := by rw [h1]; simp
    rw [ZMod.natCast_eq_natCast_iff'] at h5
    rw [h5]
    exact Nat.mod_eq_of_lt p_prime.one_lt
  rw [← powMod_eq' p 255 (p - 7) ((p - 1) / 3) p_prime.pos (by decide +kernel)] at h4
  revert h4
  decide +kernel

theorem equation_iff' (x y : F) : E.Equation x y ↔ y ^ 2 = x ^ 3 + 7 := by
  rw [WeierstrassCurve.Affine.equation_iff]
  simp [E]

theorem y_ne {x y : F} (h : y ^ 2 = x ^ 3 + 7) : y ≠ 0 := by
  intro hy
  rw [hy] at h
  apply no_root x
  linear_combination -h

theorem y_ne_neg {y : F} (h : y ≠ 0) : y ≠ -y := by
  intro hc
  have : 2 * y = 0 := by linear_combination hc
  rcases mul_eq_zero.mp this with h' | h'
  · exact two_ne h'
  · exact h h'

theorem nonsingular_iff' (x y : F) : E.Nonsingular x y ↔ y ^ 2 = x ^ 3 + 7 := by
  rw [WeierstrassCurve.Affine.nonsingular_iff, equation_iff']
  constructor
  · exact fun h => h.1
  · intro h
    refine ⟨h, Or.inr ?_⟩
    have := y_ne_neg (y_ne h)
    simpa [E] using this

theorem parity_neg {y : F} (h : y ≠ 0) : (-y).val % 2 ≠ y.val % 2 := by
  have hlt := ZMod.val_lt y
  have ho : p % 2 = 1 := by decide +kernel
  have : NeZero p := ⟨p_prime.pos.ne'⟩
  rw [ZMod.neg_val, if_neg h]
  omega

theorem y_unique {x y y' : F} (h : y ^ 2 = x ^ 3 + 7) (h' : y' ^ 2 = x ^ 3 + 7) (hp : y.val % 2 = y'.val % 2) :
    y = y' := by
  have : (y - y') * (y + y') = 0 := by linear_combination h - h'
  rcases mul_eq_zero.mp this with h1 | h1
  · exact sub_eq_zero.mp h1
  · have : y = -y' := by linear_combination h1
    rw [this] at hp
    exact absurd hp (parity_neg (y_ne h'))

theorem rep_generator : Rep generator G := by
  have h1 : cz generator = 1 := by decide +kernel
  refine ⟨?_, ?_, ?_, ?_⟩
  · rw [h1]; exact prime_prime.one_lt
  · rw [h1]; simp
  · have h2 : cx generator = 0x79BE667EF9DCBBAC55A06295CE870B07029BFCDB2DCE28D959F2815B16F81798 := by decide +kernel
    rw [h1, h2]
    simp [gx]
  · have h2 : cy generator = 0x483ADA7726A3C4655DA4FBFC0E1108A8FD17B448A68554199C47D08FFB10D4B8 := by decide +kernel
    rw [h1, h2]
    simp [gy]

theorem order_G : n • G = 0 :=
  (rep_zero (mul_ok rep_generator 256 n (by decide +kernel))).mp (by decide +kernel)

/-- a point told from the others by its first coordinate and one bit -/
def tag : Pt → Option (F × Bool)
  | .zero => none
  | .some x y _ => some (x, y.val % 2 == 1)

theorem tag_injective : Function.Injective tag := by
  intro P P' h
  cases P with
  | zero => cases P' with
    | zero => rfl
    | some x' y' h' => cases h
  | some x y hp => cases P' with
    | zero => cases h
    | some x' y' hp' =>
      simp only [tag, Option.some.injEq, Prod.mk.injEq] at h
      obtain ⟨h1, h2⟩ := h
      subst h1
      have hm : y.val % 2 = y'.val % 2 := by
        rcases Nat.mod_two_eq_zero_or_one y.val with a | a <;> rcases Nat.mod_two_eq_zero_or_one y'.val with b | b <;>
          rw [a, b] at h2 <;> first | (exact absurd h2 (by decide)) | (rw [a, b])
      have := y_unique ((nonsingular_iff' _ _).mp hp) ((nonsingular_iff' _ _).mp hp') hm
      subst this
      rfl

instance : NeZero p := ⟨p_prime.pos.ne'⟩

instance : Finite Pt := Finite.of_injective tag tag_injective

theorem card_le : Nat.card Pt ≤ 2 * p + 1 := by
  have h := Nat.card_le_card_of_injective tag tag_injective
  rw [Nat.card_eq_fintype_card (α := Option (F × Bool)), Fintype.card_option, Fintype.card_prod, ZMod.card,
    Fintype.card_bool] at h
  omega

/-- The group has `n` elements. -/
theorem card_eq : Nat.card Pt = n := by
  have ho : addOrderOf G = n := addOrderOf_eq_prime order_G (by intro h; cases h)
  obtain ⟨k, hk⟩ := addOrderOf_dvd_natCard G
  rw [ho] at hk
  have hpos : 0 < Nat.card Pt := Nat.card_pos
  have hle := card_le
  have h3 : 2 * p + 1 < 3 * n := by decide +kernel
  have hn : 0 < n := n_prime.pos
  have hk3 : k < 3 := by
    by_contra hc
    have : n * 3 ≤ n * k := Nat.mul_le_mul_left n (by omega)
    omega
  have hk0 : k ≠ 0 := by
    intro h
    rw [h, Nat.mul_zero] at hk
    omega
  have hk2 : k ≠ 2 := by
    intro h
    rw [h] at hk
    have : Fact (Nat.Prime 2) := ⟨Nat.prime_two⟩
    obtain ⟨P, hP⟩ := exists_prime_addOrderOf_dvd_card' (G := Pt) 2 ⟨n, by rw [hk, Nat.mul_comm]⟩
    have h2 : P + P = 0 := by
      rw [← two_nsmul, ← hP]
      exact addOrderOf_nsmul_eq_zero P
    cases P with
    | zero =>
      have : addOrderOf (0 : Pt) = 2 := hP
      rw [addOrderOf_zero] at this
      omega
    | some x y hp =>
      have hy : y ≠ E.negY x y := by
        rw [negY_eq]
        exact y_ne_neg (y_ne ((nonsingular_iff' _ _).mp hp))
      rw [Point.add_self_of_Y_ne hy] at h2
      exact Point.some_ne_zero _ h2
  have : k = 1 := by omega
  rw [hk, this, Nat.mul_one]

theorem order (P : Pt) : n • P = 0 := by
  rw [← card_eq]
  exact card_nsmul_eq_zero'

/-! ### the key of a signature -/

theorem smul_mod (k : Nat) (P : Pt) : (k % n) • P = k • P := by
  conv_rhs => rw [← Nat.div_add_mod k n, add_nsmul, mul_comm, mul_nsmul, order, zero_add]

theorem key_iff {z r s w v : Nat} (P Q R : Pt) (hw : s * w % n = 1) (hv : r * v % n = 1) :
    (z * w % n) • P + (r * w % n) • Q = R ↔ Q = (s * v % n) • R + ((n - z % n) * v % n) • P := by
  let _ : Module (ZMod n) Pt := AddCommGroup.zmodModule order
  have c1 : (s : ZMod n) * w = 1 := by
    have : ((s * w : Nat) : ZMod n) = ((1 : Nat) : ZMod n) := by
      rw [ZMod.natCast_eq_natCast_iff', hw, Nat.mod_eq_of_lt n_prime.one_lt]
    simpa using this
  have c2 : (r : ZMod n) * v = 1 := by
    have : ((r * v : Nat) : ZMod n) = ((1 : Nat) : ZMod n) := by
      rw [ZMod.natCast_eq_natCast_iff', hv, Nat.mod_eq_of_lt n_prime.one_lt]
    simpa using this
  have cz : (((n - z % n : Nat)) : ZMod n) = -(z : ZMod n) := by
    rw [Nat.cast_sub (Nat.mod_lt _ n_prime.pos).le, ZMod.natCast_self, ZMod.natCast_mod, zero_sub]
  simp only [smul_mod]
  simp only [← Nat.cast_smul_eq_nsmul (ZMod n), Nat.cast_mul, cz]
  generalize (s : ZMod n) = s at *
  generalize (w : ZMod n) = w at *
  generalize (r : ZMod n) = r at *
  generalize (v : ZMod n) = v at *
  generalize (z : ZMod n) = z at *
  constructor
  · intro h
    rw [← h, smul_add, smul_smul, smul_smul]
    have e1 : s * v * (z * w) = z * v := by linear_combination z * v * c1
    have e2 : s * v * (r * w) = 1 := by linear_combination r * v * c1 + c2
    rw [e1, e2, one_smul, neg_mul, neg_smul]
    abel
  · intro h
    rw [h, smul_add, smul_smul, smul_smul]
    have e1 : r * w * (s * v) = 1 := by linear_combination r * v * c1 + c2
    have e2 : r * w * (-z * v) = -(z * w) := by linear_combination -(z * w) * c2
    rw [e1, e2, one_smul, neg_smul]
    abel

theorem inv_mod (a : Nat) (h0 : 0 < a) (h1 : a < n) : a * inv n a % n = 1 := by
  have ha : ((a : Nat) : ZMod n) ≠ 0 := by
    intro h
    have h2 : ((a : Nat) : ZMod n) = ((0 : Nat) : ZMod n) := by simpa using h
    rw [ZMod.natCast_eq_natCast_iff', Nat.mod_eq_of_lt h1, Nat.zero_mod] at h2
    omega
  have h : ((a * inv n a : Nat) : ZMod n) = ((1 : Nat) : ZMod n) := by
    rw [Nat.cast_mul, inv_ok n a (by decide +kernel) ha, mul_inv_cancel₀ ha, Nat.cast_one]
  rwa [ZMod.natCast_eq_natCast_iff', Nat.mod_eq_of_lt n_prime.one_lt] at h

theorem val_eq {a : Nat} {x : F} (ha : a < prime) (h : (a : F) = x) : x.val = a := by
  rw [← h]
  exact ZMod.val_cast_of_lt (by rw [← prime_eq]; exact ha)

theorem bytes_ok {a : Nat} {x : F} (ha : a < prime) (h : (a : F) = x) : (Keccak.toBytes 32 a).reverse = bytes x := by
  unfold bytes
  rw [val_eq ha h]
  simp [Keccak.toBytes, List.range_succ, Nat.div_div_eq_div_mul]

theorem address_ok {q : Nat} {x y : F} {h : E.Nonsingular x y} (hr : Rep q (.some x y h)) :
    Secp.address q = some (Sec2.address x y) := by
  have hz : cz q ≠ 0 := fun h0 => by
    have := (rep_zero hr).mp h0
    cases this
  obtain ⟨_, h2, h3, h4⟩ := hr
  have hi : ((inv prime (cz q) : Nat) : F) = (cz q : F)⁻¹ := by
    rw [prime_eq]
    exact inv_ok p _ (by rw [← prime_eq]; exact prime_lt) h2
  unfold Secp.address
  rw [if_neg hz]
  simp only
  unfold Sec2.address
  rw [bytes_ok (x := x) (mod_lt _), bytes_ok (x := y) (mod_lt _)]
  · simp only [cast_mod, Nat.cast_mul, hi, h4]
    field_simp
  · simp only [cast_mod, Nat.cast_mul, hi, h3]
    field_simp

theorem number_eq (hash : List Nat) : beNat hash = number hash := by
  unfold beNat number
  congr 1
  funext m b
  rw [Nat.mul_comm]

/-! ### square roots -/

/-- what the model computes in order to find a second coordinate -/
theorem sqrt_ok (x : F) (a b : Nat) (ha : (a : F) = x ^ 3 + 7) (hlt : a < prime)
    (hb : b = powMod prime 256 a ((prime + 1) / 4)) :
    (b * b % prime = a ↔ ∃ y : F, y ^ 2 = x ^ 3 + 7) ∧ b < prime ∧ (b * b % prime = a → (b : F) ^ 2 = x ^ 3 + 7) := by
  have hexp : (prime + 1) / 4 < 2 ^ 256 := by
    have := prime_lt
    omega
  have hlb : b < prime := by
    rw [hb]
    exact powMod_lt _ _ _ _ prime_pos
  have hsq : b * b % prime = a → (b : F) ^ 2 = x ^ 3 + 7 := by
    intro h
    rw [← ha, ← h, cast_mod, Nat.cast_mul, pow_two]
  refine ⟨⟨fun h => ⟨b, hsq h⟩, ?_⟩, hlb, hsq⟩
  rintro ⟨y, hy⟩
  have hbF : (b : F) = (y ^ 2) ^ ((p + 1) / 4) := by
    rw [hb, powMod_eq' _ _ _ _ prime_pos hexp, cast_mod, Nat.cast_pow, ha, hy, prime_eq]
  have h4 : 2 * ((p + 1) / 4 * 2) = (p - 1) + 2 := by decide +kernel
  have h2 : (b : F) * b = y ^ 2 := by
    rw [← pow_two, hbF, ← pow_mul, ← pow_mul, h4, pow_add, ZMod.pow_card_sub_one_eq_one (y_ne hy), one_mul]
  rw [← cast_eq (mod_lt _) hlt, cast_mod, Nat.cast_mul, h2, ha, hy]

/-- The key that the model finds is the one for which the signature is valid. -/
theorem recover_iff (hash : List Nat) (parity r s : Nat) (a : List Nat) (hp : parity ≤ 1) (hr : 0 < r) (hr' : r < n)
    (hs : 0 < s) (hs' : s < n) :
    Secp.recover hash parity r s = some a ↔
      ∃ x y h, Sec2.address x y = a ∧ Verifies (.some x y h) (number hash) parity r s := by
  have hn : secpN = n := by decide +kernel
  have hnp : n < prime := by rw [prime_eq]; decide +kernel
  have hrp : r < prime := by omega
  have hn256 : n < 2 ^ 256 := by decide +kernel
  unfold Secp.recover
  simp only
  generalize hA : (r * r % prime * r + 7) % prime = A
  have eA : (A : F) = (r : F) ^ 3 + 7 := by
    rw [← hA, cast_mod]
    push_cast
    rw [cast_mod]
    push_cast
    ring
  generalize hB : powMod prime 256 A ((prime + 1) / 4) = B
  obtain ⟨h1, h2, h3⟩ := sqrt_ok (r : F) A B eA (by rw [← hA]; exact mod_lt _) hB.symm
  by_cases hc : B * B % prime = A
  · rw [if_neg (by simpa using hc)]
    have hB2 := h3 hc
    have hB0 : (B : F) ≠ 0 := y_ne hB2
    have hBn : B ≠ 0 := by
      intro h
      rw [h] at hB0
      simp at hB0
    obtain ⟨Y, hY, hYlt, hYp, hY2⟩ : ∃ Y, (if B % 2 = parity then B else prime - B) = Y ∧ Y < prime ∧
        Y % 2 = parity ∧ (Y : F) ^ 2 = (r : F) ^ 3 + 7 := by
      refine ⟨_, rfl, ?_⟩
      by_cases hpar : B % 2 = parity
      · rw [if_pos hpar]
        exact ⟨h2, hpar, hB2⟩
      · rw [if_neg hpar]
        have ho : prime % 2 = 1 := by rw [prime_eq]; decide +kernel
        refine ⟨by omega, by omega, ?_⟩
        rw [Nat.cast_sub h2.le, cast_prime, zero_sub, neg_sq]
        exact hB2
    rw [hY]
    have hval : ((Y : Nat) : F).val = Y := val_eq hYlt rfl
    have hon : E.Nonsingular (r : F) (Y : F) := (nonsingular_iff' _ _).mpr hY2
    have hRep : Rep (point r Y 1) (.some (r : F) (Y : F) hon) := by
      refine ⟨?_, ?_, ?_, ?_⟩
      · rw [cz_point _ hrp hYlt]; exact prime_prime.one_lt
      · rw [cz_point _ hrp hYlt]; simp
      · rw [cz_point _ hrp hYlt, cx_point _ hrp hYlt]; simp
      · rw [cz_point _ hrp hYlt, cy_point _ hrp hYlt]; simp
    rw [hn, number_eq]
    generalize number hash = z
    have hv := inv_mod r hr hr'
    generalize inv n r = v at hv ⊢
    have hQ := add_ok' (mul_ok hRep 256 (s * v % n) (lt_trans (Nat.mod_lt _ n_prime.pos) hn256))
      (mul_ok rep_generator 256 ((n - z % n) * v % n) (lt_trans (Nat.mod_lt _ n_prime.pos) hn256))
    generalize add (mul 256 (s * v % n) (point r Y 1)) (mul 256 ((n - z % n) * v % n) generator) = q at hQ ⊢
    generalize hQe : (s * v % n) • (Point.some (r : F) (Y : F) hon : Pt) + ((n - z % n) * v % n) • G = Q at hQ
    constructor
    · intro ha
      cases Q with
      | zero =>
        have : cz q = 0 := hQ
        unfold Secp.address at ha
        rw [if_pos this] at ha
        cases ha
      | some x y h =>
        rw [address_ok hQ] at ha
        refine ⟨x, y, h, Option.some.inj ha, inv n s, (Y : F), hon, inv_mod s hs hs', ?_, ?_⟩
        · exact (key_iff _ _ _ (inv_mod s hs hs') hv).mpr hQe.symm
        · rw [hval]; exact hYp
    · rintro ⟨x, y, h, ha, w, y', h', hw, hsum, hpar⟩
      have hyy : y' = (Y : F) := y_unique ((nonsingular_iff' _ _).mp h') hY2 (by rw [hpar, hval, hYp])
      subst hyy
      have := (key_iff _ _ _ hw hv).mp hsum
      rw [hQe] at this
      rw [← this] at hQ
      rw [address_ok hQ, ha]
  · rw [if_pos (by simpa using hc)]
    constructor
    · intro h
      cases h
    · rintro ⟨x, y, h, ha, w, y', h', hw, hsum, hpar⟩
      exact absurd (h1.mpr ⟨y', (nonsingular_iff' _ _).mp h'⟩) hc

end Secp
end Verif
