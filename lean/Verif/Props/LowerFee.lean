import Verif.Spec.LowerFee
import Verif.Props.Exits
import Verif.Props.Lost
import Verif.Lemmas.Effects
import Mathlib.Algebra.Order.BigOperators.Group.List
/-
C121: a lower fee gives no member less.
-/
namespace Verif
open VMap

/-- a payment is credited or not in one way only -/
theorem uncredited_unique {b : FullBlock} {pool : Str} {x y : Int} (h : Uncredited b pool x) (h' : Uncredited b pool y) :
    x = y := by
  have no : b.cons = none → ∀ a, ¬ BuilderPaid b pool a := by
    rintro hc a (⟨⟨_, ⟨c, h1, _⟩, _⟩, _⟩ | ⟨tx, d, ⟨_, c, _, h1, _⟩, _⟩) <;> rw [hc] at h1 <;> cases h1
  cases h with
  | missed hc =>
    cases h' with
    | missed => rfl
    | twins ha => exact absurd ha (no hc _)
    | nothing hn => exact absurd hc hn
  | twins ha =>
    cases h' with
    | missed hc => exact absurd ha (no hc _)
    | twins ha' => rw [builderPaid_unique ha ha']
    | nothing _ hn => exact absurd ha (hn _)
  | nothing hn hno =>
    cases h' with
    | missed hc => exact absurd hc hn
    | twins ha => exact absurd ha (hno _)
    | nothing => rfl

/-- sums over two maps of which the second has no more of anything -/
theorem total_less {m m' : VMap} (hs : Sorted m) (hs' : Sorted m') (h : ∀ i, LessV (VMap.get m i) (VMap.get m' i))
    {f : Validator → Int} (hf : ∀ v p q, p ≤ v.pend → q ≤ v.acc → f { v with pend := p, acc := q } ≤ f v) :
    total f m' ≤ total f m := by
  have e : m' = m.map fun p => (p.1, (VMap.get m' p.1).getD p.2) := by
    refine VMap.ext hs' ?_ fun k => ?_
    · unfold Sorted at hs ⊢
      rw [List.pairwise_map]
      exact hs
    · rw [get_map_of (g := fun i v => (VMap.get m' i).getD v)]
      rcases h k with ⟨h1, h2⟩ | ⟨v, p, q, h1, h2, _⟩ <;> rw [h1, h2] <;> rfl
  rw [e]
  unfold total
  rw [List.map_map]
  refine List.sum_le_sum fun p hp => ?_
  obtain ⟨k, v⟩ := p
  have hv := hs.get_of_mem hp
  dsimp only [Function.comp_apply]
  rcases h k with ⟨h1, _⟩ | ⟨w, p, q, h1, h2, _, h3, h4⟩
  · rw [hv] at h1; cases h1
  · rw [hv] at h1; cases h1
    rw [h2]
    exact hf _ _ _ h3 h4

section
variable {E E' : Env} {V : Nat → Nat → BVal} {K : Nat → List (Nat × Nat)}

theorem LowerFee.less {o o' : Oracle} (h : LowerFee o o') (hs : MapOK o.st) (hs' : MapOK o'.st) :
    Less (fun _ => False) o.st.nextSlot o.st o'.st := by
  refine ⟨⟨hs, rfl, h.nonneg, h.lower, h.most⟩, o'.st.vals, o'.st.tick, o'.st.stateHash, o'.st.committed,
    o'.st.poolFees, o'.st.ether, o'.st.donations, o'.st.unsubs, o'.st.fee, hs', fun i => .inl (h.records i), ?_⟩
  have e := h.rest
  have := congrArg (fun s : State => { s with
    vals := o'.st.vals, tick := o'.st.tick, stateHash := o'.st.stateHash, committed := o'.st.committed
    poolFees := o'.st.poolFees, ether := o'.st.ether, donations := o'.st.donations, unsubs := o'.st.unsubs
    fee := o'.st.fee }) e
  exact this

/-- the pool has no less with the higher fee -/
theorem LowerFee.pool {o o' : Oracle} (h : LowerFee o o') (hs : MapOK o.st) (hs' : MapOK o'.st) :
    o.st.poolFees ≤ o'.st.poolFees := by
  have h1 := total_less hs hs' h.records (f := fun v => v.pend + v.acc) fun v p q h1 h2 => by dsimp only; omega
  have h2 := h.owes
  unfold owed pendingTotal accTotal at h2
  unfold total at h1
  have key : ∀ m : VMap, (m.map fun p => p.2.pend + p.2.acc).sum =
      (m.map fun p => p.2.pend).sum + (m.map fun p => p.2.acc).sum := fun m => List.sum_map_add
  rw [key, key] at h1
  omega

/-- **C121** (partial), for one slot of any kind. The books `o` and `o'` differ in the fee, and nobody has less in `o`,
whose fee is lower. After the same block nobody has less in `o` than in `o'`, everybody has the same status in both, and
both owe the same sum in all, so that the pool has no more in `o`. For slots since the first fork, payments that are not
negative, and cleanup slots at which everybody the books know is active. Missing: slots before the fork, for which it is
false, `C121_false_before_fork`, and cleanup slots that find somebody who left, `C121_false_leaver`. -/
theorem C121_slot_partial (hE : ValidEnv E) (hX : ExactEnv E) (hR : ReadsChain V K E) (hC : NoSelfConsol E)
    (hE' : ValidEnv E') (hX' : ExactEnv E') (hR' : ReadsChain V K E') (hC' : NoSelfConsol E')
    {o o' o1 o1' : Oracle} {b : FullBlock} {n n' : Nat} (hs : MapOK o.st) (hs' : MapOK o'.st)
    (hle : LowerFee o o') (hpay : NonNegPayments b) (hgas : GasOK b) (hfork : PostFork1 o.cfg.network n)
    (hV : ∀ j, (V n j).effBal < 2 ^ 63) (hA : n % 1200 = 0 → AllActive V n o1'.st)
    (h : advanceState E o b = .ok (o1, some n)) (h' : advanceState E' o' b = .ok (o1', some n')) :
    LowerFee o1 o1' ∧ n' = n := by
  obtain ⟨k1, k2, k3⟩ := slot_less hE hX hR hE' hX' hR' (pays := b.events.ether) (us := b.events.unsubs)
    (vs := b.valsUnsubs) (bs := b.events.bans) hle.cfg (hle.less hs hs')
    ⟨id, fun _ _ => id, fun _ _ => id, fun _ _ => id, fun _ _ => id, fun _ _ => id⟩ (.refl _) (.refl _) hpay hgas
    hpay.1 (fun _ _ _ _ => rfl)
    (fun pool dons dons' h1 h2 => by
      have h2 : getDonations b pool = .ok dons' := h2
      rw [h1] at h2; cases h2
      exact List.sublistForall₂_iff.mpr ⟨dons, List.forall₂_same.mpr fun _ _ => le_refl _, .refl _⟩) hfork hV hA h h'
  obtain ⟨_, dons, _, _, _, _, hd, _, _, q, _⟩ := slot_frame h
  obtain ⟨_, dons', _, _, _, _, hd', _, _, q', _⟩ := slot_frame h'
  have hpool : o'.cfg.poolAddr = o.cfg.poolAddr := by rw [hle.cfg]
  rw [hpool, hd] at hd'
  cases hd'
  have r1 : o'.st.ether = o.st.ether := by have := congrArg State.ether hle.rest; exact this
  have r2 : o'.st.donations = o.st.donations := by have := congrArg State.donations hle.rest; exact this
  have r3 : o'.st.unsubs = o.st.unsubs := by have := congrArg State.unsubs hle.rest; exact this
  have r4 : o'.st.subs = o.st.subs := by have := congrArg State.subs hle.rest; exact this
  have r5 : o'.st.proposed = o.st.proposed := by have := congrArg State.proposed hle.rest; exact this
  have e1 : o1.st.ether = o.st.ether ++ b.events.ether := by have := congrArg State.ether q; exact this
  have e2 : o1'.st.ether = o'.st.ether ++ b.events.ether := by have := congrArg State.ether q'; exact this
  have e3 : o1.st.donations = o.st.donations ++ dons := by have := congrArg State.donations q; exact this
  have e4 : o1'.st.donations = o'.st.donations ++ dons := by have := congrArg State.donations q'; exact this
  have e5 : o1.st.unsubs = o.st.unsubs ++ b.events.unsubs := by have := congrArg State.unsubs q; exact this
  have e6 : o1'.st.unsubs = o'.st.unsubs ++ b.events.unsubs := by have := congrArg State.unsubs q'; exact this
  obtain ⟨_, x, hx, hm⟩ := slot_exact hE hX hC hs h
  obtain ⟨_, x', hx', hm'⟩ := slot_exact hE' hX' hC' hs' h'
  rw [hpool] at hx'
  have := uncredited_unique hx hx'
  subst this
  obtain ⟨hk, m, t, y, c, f, le, ld, lu, g, _, hr, e⟩ := k2
  have hrest : { o1'.st with vals := [], poolFees := 0, fee := 0, tick := 0, stateHash := [], committed := [] }
      = { o1.st with vals := [], poolFees := 0, fee := 0, tick := 0, stateHash := [], committed := [] } := by
    rw [e] at e2 e4 e6
    have e2 : le = o'.st.ether ++ b.events.ether := e2
    have e4 : ld = o'.st.donations ++ dons := e4
    have e6 : lu = o'.st.unsubs ++ b.events.unsubs := e6
    rw [e, e2, e4, e6, r1, r2, r3, ← e1, ← e3, ← e5]
    rfl
  have r6 : received o'.st = received o.st := by unfold received; rw [r1, r4, r5]
  have r7 : received o1'.st = received o1.st := by
    have s1 : o1'.st.ether = o1.st.ether := by have := congrArg State.ether hrest; exact this
    have s2 : o1'.st.subs = o1.st.subs := by have := congrArg State.subs hrest; exact this
    have s3 : o1'.st.proposed = o1.st.proposed := by have := congrArg State.proposed hrest; exact this
    unfold received; rw [s1, s2, s3]
  have := hle.owes
  exact ⟨⟨k1, hk.2.2.1, hk.2.2.2.1, hk.2.2.2.2,
    fun i => by rw [e]; exact (hr i).resolve_right fun k => k.1, by omega, hrest⟩, k3⟩

/-- **C121** (partial) for whole histories: two runs over the same blocks, of pools with different fees. Whoever is
rewarded, banned, or leaves, and whatever fee is announced on the way: nobody ends up with less where the fee is lower,
and the pool not with more. -/
theorem C121_history_partial (hE : ValidEnv E) (hX : ExactEnv E) (hR : ReadsChain V K E) (hC : NoSelfConsol E)
    (hE' : ValidEnv E') (hX' : ExactEnv E') (hR' : ReadsChain V K E') (hC' : NoSelfConsol E')
    {bs : List FullBlock} {o o' o1 o1' : Oracle} (hs : MapOK o.st) (hs' : MapOK o'.st) (hle : LowerFee o o')
    (hb : ∀ b ∈ bs, NonNegPayments b ∧ GasOK b ∧ PostFork1 o.cfg.network b.dutySlot)
    (hV : ∀ n j, (V n j).effBal < 2 ^ 63) (hA : ∀ n, n % 1200 = 0 → AllActive V n o1'.st)
    (h : Hist E o bs o1) (h' : Hist E' o' bs o1') : LowerFee o1 o1' ∧ o1.st.poolFees ≤ o1'.st.poolFees := by
  induction h generalizing o' with
  | nil => cases h'; exact ⟨hle, hle.pool hs hs'⟩
  | @cons o b o2 n bs o1 ha hr ih =>
    cases h' with
    | @cons _ _ o2' n' _ _ ha' hr' =>
      obtain ⟨b1, b2, b3⟩ := hb b (by simp)
      have hslot : n = b.dutySlot := by
        obtain ⟨_, _, _, _, _, _, _, _, _, _, hslot, _⟩ := slot_frame ha
        obtain ⟨_, _, _, _, _, _, e, _⟩ := advanceState_ok ha
        rw [hslot, e]
      have hm := (slot_remembers hE hX hs ha).1
      have hm' := (slot_remembers hE' hX' hs' ha').1
      have hA1 : AllActive V n o2'.st ∨ ¬ n % 1200 = 0 := by
        by_cases e : n % 1200 = 0
        · refine .inl fun i v hv => ?_
          obtain ⟨w, hw⟩ := hist_tracked hE' hX' hm' hr' hv
          exact hA n e i w hw
        · exact .inr e
      obtain ⟨k1, _⟩ := C121_slot_partial hE hX hR hC hE' hX' hR' hC' hs hs' hle b1 b2
        (by rw [hslot]; exact b3) (hV n) (fun e => hA1.resolve_right (fun k => k e)) ha ha'
      have hnet := (slot_nextSlot ha).2
      exact ih hm hm' k1 (fun b hb1 => by rw [hnet]; exact hb b (by simp [hb1])) hr'

/-- **C121** (partial) from the start: the same pool, set up with the fee `f` or with the higher fee `f'`. -/
theorem C121_start_partial (hE : ValidEnv E) (hX : ExactEnv E) (hR : ReadsChain V K E) (hC : NoSelfConsol E)
    (hE' : ValidEnv E') (hX' : ExactEnv E') (hR' : ReadsChain V K E') (hC' : NoSelfConsol E')
    {bs : List FullBlock} {cfg : Config} {f f' : Int} (h0 : 0 ≤ f) (hff : f ≤ f') (h1 : f' ≤ 10000) {o1 o1' : Oracle}
    (hb : ∀ b ∈ bs, NonNegPayments b ∧ GasOK b ∧ PostFork1 cfg.network b.dutySlot)
    (hV : ∀ n j, (V n j).effBal < 2 ^ 63) (hA : ∀ n, n % 1200 = 0 → AllActive V n o1'.st)
    (h : Hist E (newOracle { cfg with fee := f }) bs o1) (h' : Hist E' (newOracle { cfg with fee := f' }) bs o1') :
    (∀ i v', VMap.get o1'.st.vals i = some v' → ∃ v, VMap.get o1.st.vals i = some v ∧ v.status = v'.status ∧
      v'.pend ≤ v.pend ∧ v'.acc ≤ v.acc) ∧ o1.st.poolFees ≤ o1'.st.poolFees ∧ owed o1'.st = owed o1.st := by
  have hle : LowerFee (newOracle { cfg with fee := f }) (newOracle { cfg with fee := f' }) :=
    ⟨rfl, h0, hff, h1, fun i => .inl ⟨rfl, rfl⟩, rfl, rfl⟩
  obtain ⟨k1, k2⟩ := C121_history_partial hE hX hR hC hE' hX' hR' hC' (o := newOracle { cfg with fee := f })
    (o' := newOracle { cfg with fee := f' }) List.Pairwise.nil
    List.Pairwise.nil hle hb hV hA h h'
  refine ⟨fun i v' hv => ?_, k2, k1.owes⟩
  rcases k1.records i with ⟨_, h2⟩ | ⟨v, p, a, h1, h2, _, h3, h4⟩
  · rw [h2] at hv; cases hv
  · rw [h2] at hv; cases hv
    exact ⟨v, h1, rfl, h3, h4⟩

end

namespace Sample

theorem chain_noSelf {V : Nat → Nat → BVal} : NoSelfConsol (chainEnv V fun _ => []) := by
  intro t slot cs h p hp
  cases h
  cases hp

/-- the same oracle with another fee -/
def charging (f : Int) (o : Oracle) : Oracle := ⟨{ o.cfg with fee := f }, { o.st with fee := f }⟩

theorem thin_charging (slot : Nat) {f f' : Int} (h0 : 0 ≤ f) (hff : f ≤ f') (h1 : f' ≤ 10000) :
    LowerFee (charging f (thin slot)) (charging f' (thin slot)) :=
  ⟨rfl, h0, hff, h1, (thin_refl slot).records, rfl, rfl⟩

end Sample

/-- The theorem applies: a block with a gift that bans a validator, then one with another gift, with a fee of 7% and with
one of 10%. -/
example : ∃ o1 o1', Hist (Sample.chainEnv Sample.allV fun _ => []) (Sample.charging 700 (Sample.thin 12000001))
      [Sample.banning 12000001 [71], Sample.paying 12000002 [1000]] o1 ∧
    Hist (Sample.chainEnv Sample.allV fun _ => []) (Sample.charging 1000 (Sample.thin 12000001))
      [Sample.banning 12000001 [71], Sample.paying 12000002 [1000]] o1' ∧ LowerFee o1 o1' ∧
    Sample.money1 o1 = some (930, 37804) ∧ Sample.money1 o1' = some (900, 36836) ∧
    o1.st.poolFees = 2419 ∧ o1'.st.poolFees = 3417 := by
  obtain ⟨o1, h, hm⟩ := Sample.ex_hist (E := Sample.chainEnv Sample.allV fun _ => [])
    (o := Sample.charging 700 (Sample.thin 12000001))
    (bs := [Sample.banning 12000001 [71], Sample.paying 12000002 [1000]])
    (P := fun o => Sample.money1 o == some (930, 37804) && o.st.poolFees == 2419) (by decide +kernel)
  obtain ⟨o1', h', hm'⟩ := Sample.ex_hist (E := Sample.chainEnv Sample.allV fun _ => [])
    (o := Sample.charging 1000 (Sample.thin 12000001))
    (bs := [Sample.banning 12000001 [71], Sample.paying 12000002 [1000]])
    (P := fun o => Sample.money1 o == some (900, 36836) && o.st.poolFees == 3417) (by decide +kernel)
  simp only [beq_iff_eq, Bool.and_eq_true] at hm hm'
  refine ⟨o1, o1', h, h', (C121_history_partial (Sample.chain_valid Sample.allV_index _)
    (Sample.chain_exact Sample.allV_index _) (Sample.chain_reads Sample.allV_index _) Sample.chain_noSelf
    (Sample.chain_valid Sample.allV_index _)
    (Sample.chain_exact Sample.allV_index _) (Sample.chain_reads Sample.allV_index _) Sample.chain_noSelf
    (o := Sample.charging 700 (Sample.thin 12000001)) (o' := Sample.charging 1000 (Sample.thin 12000001))
    (Sample.thin_ok 12000001) (Sample.thin_ok 12000001) (Sample.thin_charging _ (by decide) (by decide) (by decide)) ?_ (fun _ j => ?_)
    (fun _ _ i v _ => rfl) h h').1, hm.1, hm'.1, hm.2, hm'.2⟩
  · intro b hb
    simp only [List.mem_cons, List.not_mem_nil, or_false] at hb
    rcases hb with rfl | rfl
    · exact ⟨⟨by decide, fun e he => by cases he⟩, Sample.paying_gas 12000001 [71], by decide⟩
    · exact ⟨⟨by decide, fun e he => by cases he⟩, Sample.paying_gas _ _, by decide⟩
  · show 32000000000 + (j % 256) * 1000000000 < 2 ^ 63
    omega

/-- **C121 is false before the first fork.** 10 wei are given. With a fee of 7% the remainder of the multiplication with
the fee, 7000, is taken from them as if it were wei, and each of the three members is left with less than before; with a
fee of 10% nothing remains and they share 9 wei. -/
theorem C121_false_before_fork : ∃ o1 o1',
    advanceState (Sample.chainEnv Sample.allV fun _ => []) (Sample.charging 700 (Sample.three 9000001 9))
      (Sample.giving 9000001 [10]) = .ok (o1, some 9000001) ∧
    advanceState (Sample.chainEnv Sample.allV fun _ => []) (Sample.charging 1000 (Sample.three 9000001 9))
      (Sample.giving 9000001 [10]) = .ok (o1', some 9000001) ∧
    Sample.pendingOf 1 o1 = some 7670 ∧ Sample.pendingOf 1 o1' = some 10003 := by
  obtain ⟨⟨o1, m⟩, h, hm⟩ := Sample.ex_ok
    (x := advanceState (Sample.chainEnv Sample.allV fun _ => []) (Sample.charging 700 (Sample.three 9000001 9))
      (Sample.giving 9000001 [10]))
    (P := fun p => p.2 == some 9000001 && Sample.pendingOf 1 p.1 == some 7670) (by decide +kernel)
  obtain ⟨⟨o1', m'⟩, h', hm'⟩ := Sample.ex_ok
    (x := advanceState (Sample.chainEnv Sample.allV fun _ => []) (Sample.charging 1000 (Sample.three 9000001 9))
      (Sample.giving 9000001 [10]))
    (P := fun p => p.2 == some 9000001 && Sample.pendingOf 1 p.1 == some 10003) (by decide +kernel)
  simp only [beq_iff_eq, Bool.and_eq_true] at hm hm'
  obtain ⟨rfl, hm⟩ := hm
  obtain ⟨rfl, hm'⟩ := hm'
  exact ⟨o1, o1', h, h', hm, hm'⟩

/-- **C121 is false when somebody has left the chain.** Validator 9 left and has nothing pending. Of 3 wei given just
before the cleanup it gets one with a fee of 7%, for which the cleanup removes it; with a fee of 40% its share is rounded
to nothing and it stays a member. Of the next 1000 wei it gets nothing with the lower fee, and 227 with the higher. -/
theorem C121_false_leaver : ∃ o1 o1',
    Hist (Sample.chainEnv Sample.leftV fun _ => []) (Sample.charging 700 (Sample.poor 12000000))
      [Sample.giving 12000000 [3], Sample.giving 12000001 [1000]] o1 ∧
    Hist (Sample.chainEnv Sample.leftV fun _ => []) (Sample.charging 4000 (Sample.poor 12000000))
      [Sample.giving 12000000 [3], Sample.giving 12000001 [1000]] o1' ∧
    Sample.pendingOf 9 o1 = some 0 ∧ Sample.pendingOf 9 o1' = some 227 := by
  obtain ⟨o1, h, hm⟩ := Sample.ex_hist (E := Sample.chainEnv Sample.leftV fun _ => [])
    (o := Sample.charging 700 (Sample.poor 12000000))
    (bs := [Sample.giving 12000000 [3], Sample.giving 12000001 [1000]])
    (P := fun o => Sample.pendingOf 9 o == some 0) (by decide +kernel)
  obtain ⟨o1', h', hm'⟩ := Sample.ex_hist (E := Sample.chainEnv Sample.leftV fun _ => [])
    (o := Sample.charging 4000 (Sample.poor 12000000))
    (bs := [Sample.giving 12000000 [3], Sample.giving 12000001 [1000]])
    (P := fun o => Sample.pendingOf 9 o == some 227) (by decide +kernel)
  exact ⟨o1, o1', h, h', beq_iff_eq.mp hm, beq_iff_eq.mp hm'⟩

end Verif
