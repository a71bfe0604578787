import Verif.Model.Secp
import Mathlib.NumberTheory.LucasPrimality
import Mathlib.FieldTheory.Finite.Basic
import Mathlib.Algebra.BigOperators.Group.List.Basic
import Mathlib.Data.Nat.GCD.BigOperators
import Mathlib.Tactic.NormNum.Prime
import Mathlib.Tactic.Ring
/-
The two prime numbers of secp256k1 are prime (Pocklington's criterion), and powers modulo a number.
-/
namespace Verif
namespace Secp

theorem powMod_eq (m : Nat) : ∀ k b e : Nat, e < 2 ^ k → powMod m k b e % m = b ^ e % m
  | 0, b, e, h => by
    have : e = 0 := by simpa using h
    rw [this]
    rfl
  | k + 1, b, e, h => by
    have ih := powMod_eq m k (b * b % m) (e / 2) (by rw [Nat.pow_succ] at h; omega)
    have h2 : b ^ e = (if e % 2 = 1 then b else 1) * (b * b) ^ (e / 2) := by
      have he := Nat.div_add_mod e 2
      conv_lhs => rw [← he, Nat.pow_add, Nat.pow_mul, Nat.pow_two]
      split
      · next h1 => rw [h1, Nat.pow_one, Nat.mul_comm]
      · next h1 =>
        have : e % 2 = 0 := by omega
        rw [this, Nat.pow_zero, Nat.mul_comm]
    rw [powMod, Nat.mod_mod, Nat.mul_mod, ih, Nat.pow_mod, Nat.mod_mod, ← Nat.pow_mod, ← Nat.mul_mod, ← h2]

theorem powMod_lt (m k b e : Nat) (hm : 0 < m) : powMod m (k + 1) b e < m := by
  rw [powMod]
  exact Nat.mod_lt _ hm

theorem powMod_eq' (m k b e : Nat) (hm : 0 < m) (h : e < 2 ^ (k + 1)) : powMod m (k + 1) b e = b ^ e % m := by
  rw [← powMod_eq m (k + 1) b e h, Nat.mod_eq_of_lt (powMod_lt m k b e hm)]

theorem pock_dvd {n q r a : Nat} (hn : 1 < n) (hq : q.Prime) (hr : r.Prime) (hrn : r ∣ n) (hd : q ∣ n - 1)
    (h1 : a ^ (n - 1) % n = 1) (h2 : Nat.gcd (a ^ ((n - 1) / q) % n + n - 1) n = 1) : q ∣ r - 1 := by
  have : Fact r.Prime := ⟨hr⟩
  have e1 : ((a : ZMod r)) ^ (n - 1) = 1 := by
    have h : a ^ (n - 1) ≡ 1 [MOD n] := by
      show _ % _ = _ % _
      rw [h1, Nat.mod_eq_of_lt hn]
    have := (ZMod.natCast_eq_natCast_iff _ _ _).mpr (h.of_dvd hrn)
    simpa using this
  have e2 : ((a : ZMod r)) ^ ((n - 1) / q) ≠ 1 := by
    intro h
    have h3 : ((a ^ ((n - 1) / q) : Nat) : ZMod r) = ((1 : Nat) : ZMod r) := by simpa using h
    have h4 := (ZMod.natCast_eq_natCast_iff _ _ _).mp h3
    have h5 : a ^ ((n - 1) / q) % n ≡ 1 [MOD r] := ((Nat.mod_modEq _ n).of_dvd hrn).trans h4
    have h6 : r ∣ a ^ ((n - 1) / q) % n + n - 1 := by
      have h7 : a ^ ((n - 1) / q) % n + n ≡ 1 + 0 [MOD r] :=
        h5.add ((Nat.modEq_zero_iff_dvd).mpr hrn)
      exact (Nat.modEq_iff_dvd' (by omega)).mp h7.symm
    have := Nat.dvd_gcd h6 hrn
    rw [h2] at this
    exact hr.one_lt.ne' (Nat.dvd_one.mp this)
  have hx : (a : ZMod r) ≠ 0 := by
    intro h
    rw [h, zero_pow (by omega)] at e1
    exact zero_ne_one e1
  have ho := orderOf_dvd_of_pow_eq_one e1
  have hqo : q ∣ orderOf (a : ZMod r) := by
    by_contra hc
    have hcop : Nat.Coprime (orderOf (a : ZMod r)) q := ((Nat.Prime.coprime_iff_not_dvd hq).mpr hc).symm
    obtain ⟨c, hc2⟩ := hd
    rw [hc2] at ho
    have := hcop.dvd_of_dvd_mul_left ho
    apply e2
    rw [hc2, Nat.mul_div_cancel_left _ hq.pos]
    exact orderOf_dvd_iff_pow_eq_one.mp this
  exact hqo.trans (ZMod.orderOf_dvd_card_sub_one hx)

theorem list_dvd {m : Nat} : ∀ qs : List Nat, qs.Pairwise Nat.Coprime → (∀ q ∈ qs, q ∣ m) → qs.prod ∣ m
  | [], _, _ => by simp
  | q :: qs, hp, hd => by
    rw [List.pairwise_cons] at hp
    rw [List.prod_cons]
    exact Nat.Coprime.mul_dvd_of_dvd_of_dvd (Nat.coprime_list_prod_right_iff.mpr hp.1) (hd q (by simp))
      (list_dvd qs hp.2 (fun q hq => hd q (by simp [hq])))

/-- what the kernel evaluates of a certificate, to the base 2 -/
def certOk (n : Nat) (qs : List Nat) : Bool :=
  Nat.ble 2 n && Nat.ble (n + 1) (qs.prod * qs.prod) && Nat.ble (n + 1) (2 ^ 256) && Nat.beq (powMod n 256 2 (n - 1)) 1 &&
    qs.all (fun q => Nat.beq ((n - 1) % q) 0 && Nat.beq (Nat.gcd (powMod n 256 2 ((n - 1) / q) + n - 1) n) 1)

theorem pocklington (n : Nat) (qs : List Nat) (hp : ∀ q ∈ qs, q.Prime) (hc : qs.Pairwise Nat.Coprime)
    (h : certOk n qs = true) : n.Prime := by
  simp only [certOk, Bool.and_eq_true, Nat.ble_eq, List.all_eq_true] at h
  obtain ⟨⟨⟨⟨h1, h2⟩, h3⟩, h4⟩, h5⟩ := h
  by_contra hn
  have hr := Nat.minFac_prime (n := n) (by omega)
  have hsq := Nat.minFac_sq_le_self (n := n) (by omega) hn
  rw [powMod_eq' _ _ _ _ (by omega) (by omega)] at h4
  have hd : qs.prod ∣ n.minFac - 1 := list_dvd qs hc (fun q hq => by
    obtain ⟨h6, h7⟩ := h5 q hq
    rw [powMod_eq' _ _ _ _ (by omega) (lt_of_le_of_lt (Nat.div_le_self _ _) (by omega))] at h7
    exact pock_dvd (by omega) (hp q hq) hr (Nat.minFac_dvd n) (Nat.dvd_of_mod_eq_zero (Nat.eq_of_beq_eq_true h6))
      (Nat.eq_of_beq_eq_true h4) (Nat.eq_of_beq_eq_true h7))
  have hle := Nat.le_of_dvd (by have := hr.two_le; omega) hd
  have hlt : qs.prod < n.minFac := by have := hr.two_le; omega
  have : qs.prod * qs.prod < n.minFac ^ 2 := by
    rw [Nat.pow_two]
    exact Nat.mul_lt_mul'' hlt hlt
  omega

theorem prime_i : Nat.Prime 545358713 :=
  pocklington _ [28181] (by
    intro q hq
    rw [List.mem_singleton] at hq
    rw [hq]
    norm_num) (by decide +kernel) (by decide +kernel)

theorem prime_h : Nat.Prime 29047611873442575647497758179 :=
  pocklington _ [545358713, 305873, 293] (by
    intro q hq
    simp only [List.mem_cons, List.not_mem_nil, or_false] at hq
    rcases hq with rfl | rfl | rfl
    · exact prime_i
    all_goals norm_num) (by decide +kernel) (by decide +kernel)

theorem prime_q1 : Nat.Prime 341948486974166000522343609283189 :=
  pocklington _ [29047611873442575647497758179] (by
    intro q hq
    rw [List.mem_singleton] at hq
    rw [hq]
    exact prime_h) (by decide +kernel) (by decide +kernel)

theorem prime_q2 : Nat.Prime 174723607534414371449 :=
  pocklington _ [44706919, 120233] (by
    intro q hq
    simp only [List.mem_cons, List.not_mem_nil, or_false] at hq
    rcases hq with rfl | rfl <;> norm_num) (by decide +kernel) (by decide +kernel)

/-- The order of the group is prime. -/
theorem secpN_prime : Nat.Prime secpN :=
  pocklington _ [341948486974166000522343609283189, 174723607534414371449] (by
    intro q hq
    simp only [List.mem_cons, List.not_mem_nil, or_false] at hq
    rcases hq with rfl | rfl
    · exact prime_q1
    · exact prime_q2) (by decide +kernel) (by decide +kernel)

theorem prime_g : Nat.Prime 255515944373312847190720520512484175977 :=
  pocklington _ [107590001, 7240687, 96557] (by
    intro q hq
    simp only [List.mem_cons, List.not_mem_nil, or_false] at hq
    rcases hq with rfl | rfl | rfl <;> norm_num) (by decide +kernel) (by decide +kernel)

theorem prime_f : Nat.Prime 205115282021455665897114700593932402728804164701536103180137503955397371 :=
  pocklington _ [255515944373312847190720520512484175977] (by
    intro q hq
    rw [List.mem_singleton] at hq
    rw [hq]
    exact prime_g) (by decide +kernel) (by decide +kernel)

/-- The number of elements of the field is prime. -/
theorem prime_prime : Nat.Prime prime :=
  pocklington _ [205115282021455665897114700593932402728804164701536103180137503955397371] (by
    intro q hq
    rw [List.mem_singleton] at hq
    rw [hq]
    exact prime_f) (by decide +kernel) (by decide +kernel)

instance : Fact (Nat.Prime prime) := ⟨prime_prime⟩
instance : Fact (Nat.Prime secpN) := ⟨secpN_prime⟩

/-- The inverse modulo a prime below 2^256. -/
theorem inv_ok (m a : Nat) [hm : Fact m.Prime] (hlt : m < 2 ^ 256) (ha : ((a : Nat) : ZMod m) ≠ 0) :
    ((inv m a : Nat) : ZMod m) = (a : ZMod m)⁻¹ := by
  have h2 := hm.out.two_le
  unfold inv
  rw [powMod_eq' _ _ _ _ (by omega) (by omega), ZMod.natCast_mod, Nat.cast_pow, ZMod.natCast_mod]
  apply eq_inv_of_mul_eq_one_left
  rw [← pow_succ]
  have : m - 2 + 1 = m - 1 := by omega
  rw [this]
  exact ZMod.pow_card_sub_one_eq_one ha

end Secp
end Verif
