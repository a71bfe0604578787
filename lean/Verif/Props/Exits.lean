import Verif.Spec.Exits
import Verif.Props.Larger
/-
C118: who leaves, or is banned, costs nobody else anything.
-/
namespace Verif
open VMap

section
variable {X : Nat → Prop} {E E' : Env} {V : Nat → Nat → BVal} {K : Nat → List (Nat × Nat)}

theorem NobodyPoorer.less {o o' : Oracle} (h : NobodyPoorer X o o') (hs : MapOK o.st) (hs' : MapOK o'.st)
    (hf : 0 ≤ o.st.fee) (hf' : o.st.fee ≤ 10000) : Less X o.st.nextSlot o.st o'.st := by
  have ef : o'.st.fee = o.st.fee := by have := congrArg State.fee h.rest; exact this
  refine ⟨⟨hs, rfl, hf, by omega, by omega⟩, o'.st.vals, o'.st.tick, o'.st.stateHash, o'.st.committed, o'.st.poolFees, o'.st.ether,
    o'.st.donations, o'.st.unsubs, o'.st.fee, hs', h.records, ?_⟩
  have e := h.rest
  have := congrArg (fun s : State => { s with
    vals := o'.st.vals, tick := o'.st.tick, stateHash := o'.st.stateHash, committed := o'.st.committed
    poolFees := o'.st.poolFees, ether := o'.st.ether, donations := o'.st.donations, unsubs := o'.st.unsubs
    fee := o'.st.fee }) e
  exact this

theorem nobodyPoorer_of_less {o o' : Oracle} {n} (hc : o.cfg = o'.cfg) (h : Less X n o.st o'.st)
    (he : o'.st.ether = o.st.ether) (hd : o'.st.donations = o.st.donations)
    (hf : o'.st.fee = o.st.fee) : NobodyPoorer X o o' := by
  obtain ⟨_, m, t, x, c, f, le, ld, lu, g, _, hr, e⟩ := h
  rw [e] at he hd hf
  have hf : g = o.st.fee := hf
  have he : le = o.st.ether := he
  have hd : ld = o.st.donations := hd
  refine ⟨hc.symm, fun i => ?_, ?_⟩
  · rw [e]; exact hr i
  · rw [e, he, hd, hf]; rfl

/-- the same books on both sides, if nobody has a debt -/
theorem NobodyPoorer.refl {o : Oracle} (h : ∀ i v, VMap.get o.st.vals i = some v → 0 ≤ v.pend) :
    NobodyPoorer X o o where
  cfg := rfl
  records := by
    intro i
    cases hv : VMap.get o.st.vals i with
    | none => exact .inl (.inl ⟨rfl, rfl⟩)
    | some v => exact .inl (.inr ⟨v, v.pend, v.acc, rfl, rfl, h i v hv, le_refl _, le_refl _⟩)
  rest := rfl

/-- whoever is not of `X` has at least as much in the first books -/
theorem NobodyPoorer.others {o o' : Oracle} (h : NobodyPoorer X o o') {i} (hi : ¬ X i) {v'}
    (hv : VMap.get o'.st.vals i = some v') :
    ∃ v, VMap.get o.st.vals i = some v ∧ v.status = v'.status ∧ v'.pend ≤ v.pend ∧ v'.acc ≤ v.acc := by
  rcases h.records i with (⟨_, h2⟩ | ⟨v, p, a, h1, h2, _, h3, h4⟩) | ⟨k, _⟩
  · rw [h2] at hv; cases hv
  · rw [h2] at hv; cases hv
    exact ⟨v, h1, rfl, h3, h4⟩
  · exact absurd k hi

/-- **C118** (partial), for one slot. In the block `b'` some of the cancelled subscriptions and bans that `b` has about
the validators `X` are left out, and `b'` says nothing else about them. Nobody else has more after `b'` than after `b`,
pending or accumulated: who leaves or is banned costs the others nothing. For slots since the first fork, a fee between
0 and 100%, payments that are not negative, and cleanup slots at which everybody the books know is active. Missing:
slots before the fork, for which it is false, `C118_false_before_fork`; later blocks that do name these validators,
`C118_false_later`; and cleanup slots that find that they left the chain, `C118_false_leaver`. -/
theorem C118_slot_partial (hE : ValidEnv E) (hX : ExactEnv E) (hR : ReadsChain V K E)
    (hE' : ValidEnv E') (hX' : ExactEnv E') (hR' : ReadsChain V K E')
    {o o' o1 o1' : Oracle} {b b' : FullBlock} {n n' : Nat} (hs : MapOK o.st) (hs' : MapOK o'.st)
    (hle : NobodyPoorer X o o') (hbb : WithoutExits X b b') (hb : NotNamed X b') (hpay : NonNegPayments b)
    (hgas : GasOK b) (hf : 0 ≤ o.st.fee) (hf' : o.st.fee ≤ 10000) (hfork : PostFork1 o.cfg.network n)
    (hV : ∀ j, (V n j).effBal < 2 ^ 63) (hA : n % 1200 = 0 → AllActive V n o1'.st)
    (h : advanceState E o b = .ok (o1, some n)) (h' : advanceState E' o' b' = .ok (o1', some n')) :
    NobodyPoorer X o1 o1' ∧ n' = n ∧ 0 ≤ o1.st.fee ∧ o1.st.fee ≤ 10000 := by
  obtain ⟨h1, h2, hrest⟩ := hbb
  generalize b'.events.unsubs = us at *
  generalize b'.valsUnsubs = vs at *
  generalize b'.events.bans = bs at *
  subst hrest
  obtain ⟨k1, k2, k3⟩ := slot_less hE hX hR hE' hX' hR' (pays := b.events.ether) (us := us) (vs := vs) (bs := bs)
    (by rw [hle.cfg]) (hle.less hs hs' hf hf') hb h1 h2 hpay hgas hpay.1 (fun _ _ _ _ => rfl)
    (fun pool dons dons' h1 h2 => by
      have h2 : getDonations b pool = .ok dons' := h2
      rw [h1] at h2; cases h2
      exact List.sublistForall₂_iff.mpr ⟨dons, List.forall₂_same.mpr fun _ _ => le_refl _, .refl _⟩) hfork hV hA h h'
  obtain ⟨_, dons, _, _, _, _, hd, _, _, q, _⟩ := slot_frame h
  obtain ⟨_, dons', _, _, _, _, hd', _, _, q', _⟩ := slot_frame h'
  have hd' : getDonations b o'.cfg.poolAddr = .ok dons' := hd'
  rw [hle.cfg, hd] at hd'
  cases hd'
  have r1 : o'.st.ether = o.st.ether := by have := congrArg State.ether hle.rest; exact this
  have r2 : o'.st.donations = o.st.donations := by have := congrArg State.donations hle.rest; exact this
  have e1 : o1.st.ether = o.st.ether ++ b.events.ether := by have := congrArg State.ether q; exact this
  have e2 : o1'.st.ether = o'.st.ether ++ b.events.ether := by have := congrArg State.ether q'; exact this
  have e3 : o1.st.donations = o.st.donations ++ dons := by have := congrArg State.donations q; exact this
  have e4 : o1'.st.donations = o'.st.donations ++ dons := by have := congrArg State.donations q'; exact this
  obtain ⟨f1, f2⟩ := fee_together (b := b) (b' := otherBlock b b.events.ether us vs bs) rfl hle.cfg
    (by have := congrArg State.fee hle.rest; exact this) h h'
  have := k2.1.2.2
  exact ⟨nobodyPoorer_of_less f1.symm k2 (by rw [e1, e2, r1]) (by rw [e3, e4, r2]) f2, k3, by omega, by omega⟩

/-- **C118** (partial) for whole histories: two runs over the same blocks, except that in the second run the validators
`X` do not leave and are not banned. Whatever follows, as long as it is not about them, nobody else ends up with more in
the second run. -/
theorem C118_history_partial (hE : ValidEnv E) (hX : ExactEnv E) (hR : ReadsChain V K E)
    (hE' : ValidEnv E') (hX' : ExactEnv E') (hR' : ReadsChain V K E')
    {bs bs' : List FullBlock} {o o' o1 o1' : Oracle} (hs : MapOK o.st) (hs' : MapOK o'.st)
    (hle : NobodyPoorer X o o') (hf : 0 ≤ o.st.fee) (hf' : o.st.fee ≤ 10000)
    (hbs : List.Forall₂ (WithoutExits X) bs bs')
    (hb : ∀ b ∈ bs, NonNegPayments b ∧ GasOK b ∧ PostFork1 o.cfg.network b.dutySlot) (hb' : ∀ b ∈ bs', NotNamed X b)
    (hV : ∀ n j, (V n j).effBal < 2 ^ 63) (hA : ∀ n, n % 1200 = 0 → AllActive V n o1'.st)
    (h : Hist E o bs o1) (h' : Hist E' o' bs' o1') : NobodyPoorer X o1 o1' := by
  induction h generalizing o' bs' with
  | nil => cases hbs; cases h'; exact hle
  | @cons o b o2 n bs o1 ha hr ih =>
    cases hbs with
    | @cons _ b' _ bs' hbb hbs =>
    cases h' with
    | @cons _ _ o2' n' _ _ ha' hr' =>
      obtain ⟨b1, b2, b3⟩ := hb b (by simp)
      have hslot : n = b.dutySlot := by
        obtain ⟨_, _, _, _, _, _, _, _, _, _, hslot, _⟩ := slot_frame ha
        obtain ⟨_, _, _, _, _, _, e, _⟩ := advanceState_ok ha
        rw [hslot, e]
      have hm := (slot_remembers hE hX hs ha).1
      have hm' := (slot_remembers hE' hX' hs' ha').1
      have hA1 : AllActive V n o2'.st ∨ ¬ n % 1200 = 0 := by
        by_cases e : n % 1200 = 0
        · refine .inl fun i v hv => ?_
          obtain ⟨w, hw⟩ := hist_tracked hE' hX' hm' hr' hv
          exact hA n e i w hw
        · exact .inr e
      obtain ⟨k1, _, k3, k4⟩ := C118_slot_partial hE hX hR hE' hX' hR' hs hs' hle hbb (hb' b' (by simp)) b1 b2 hf hf'
        (by rw [hslot]; exact b3) (hV n) (fun e => hA1.resolve_right (fun k => k e)) ha ha'
      have hnet := (slot_nextSlot ha).2
      exact ih hm hm' k1 k3 k4 hbs (fun b hb1 => by rw [hnet]; exact hb b (by simp [hb1]))
        (fun b hb1 => hb' b (by simp [hb1])) hr'

end

namespace Sample

/-- somebody outside the pool proposes a block in which validator `i` cancels its subscription -/
def leaving (slot i : Nat) : FullBlock :=
  { giving slot [] with events := { unsubs := [⟨i, addr i, 100⟩] }, valsUnsubs := [some (bval i)] }

/-- somebody outside the pool proposes a block in which validator `i` is banned -/
def expelling (slot i : Nat) : FullBlock := { giving slot [] with events := { bans := [⟨i, 100⟩] } }

/-- the members of the books `three` -/
def threeVals (p : Int) : VMap :=
  [(1, val 1 .active 10000 5), (2, val 2 .yellowCard 20000 6), (9, val 9 .active p 10)]

/-- three members, of whom validator 9 has `p` pending -/
def three (slot : Nat) (p : Int) : Oracle :=
  ⟨cfg, { st with
    latestSlot := slot - 1, nextSlot := slot
    vals := threeVals p }⟩

theorem three_ok (slot p) : MapOK (three slot p).st := by
  show Sorted (threeVals p)
  unfold Sorted threeVals; simp

theorem three_refl (slot) {p : Int} (hp : 0 ≤ p) : NobodyPoorer (· = 9) (three slot p) (three slot p) := by
  refine .refl fun i v hv => ?_
  have := mem_of_get hv
  simp only [three, threeVals, List.mem_cons, Prod.mk.injEq, List.not_mem_nil, or_false] at this
  rcases this with ⟨_, rfl⟩ | ⟨_, rfl⟩ | ⟨_, rfl⟩
  · show (0 : Int) ≤ 10000; decide
  · show (0 : Int) ≤ 20000; decide
  · exact hp

theorem leaving_without (slot) : WithoutExits (· = 9) (leaving slot 9) (giving slot []) where
  unsubs := .out rfl .nil
  bans := .nil
  rest := rfl

theorem expelling_without (slot) : WithoutExits (· = 9) (expelling slot 9) (giving slot []) where
  unsubs := .nil
  bans := .out rfl .nil
  rest := rfl

theorem without_refl (X b) : WithoutExits X b b := ⟨.refl _, .refl _, rfl⟩

theorem giving_notNamed (slot l) : NotNamed (· = 9) (giving slot l) where
  duty := by show ¬ (7 : Nat) = 9; decide
  proposer := by rintro c ⟨⟩; show ¬ (7 : Nat) = 9; decide
  subs := by intro e he; cases he
  unsubs := by intro e he; cases he
  bans := by intro e he; cases he
  unbans := by intro e he; cases he

theorem giving_gas (slot l) : GasOK (giving slot l) := by
  intro c h rs hc hh hr
  simp only [giving, Sample.prop, Option.some.injEq] at hc hh hr
  subst hc hh hr
  refine ⟨rfl, ?_, rfl, by norm_num, ?_⟩
  · intro n hn; simp only [BaseFee.u256.injEq] at hn; subst hn; norm_num
  · intro tx htx
    simp only [List.mem_singleton, Option.some.injEq] at htx
    subst htx; decide

end Sample

/-- The theorem applies: validator 9 leaves with 900 wei pending, then 1000 wei are given, in a slot with a cleanup.
Validator 1 has 10870 wei pending, and would have 10284 if validator 9 had stayed. -/
example : ∃ o1 o1', Hist (Sample.chainEnv Sample.allV fun _ => []) (Sample.three 11999999 900)
      [Sample.leaving 11999999 9, Sample.giving 12000000 [1000]] o1 ∧
    Hist (Sample.chainEnv Sample.allV fun _ => []) (Sample.three 11999999 900)
      [Sample.giving 11999999 [], Sample.giving 12000000 [1000]] o1' ∧ NobodyPoorer (· = 9) o1 o1' ∧
    Sample.pendingOf 1 o1 = some 10870 ∧ Sample.pendingOf 1 o1' = some 10284 := by
  obtain ⟨o1, h, hm⟩ := Sample.ex_hist (E := Sample.chainEnv Sample.allV fun _ => []) (o := Sample.three 11999999 900)
    (bs := [Sample.leaving 11999999 9, Sample.giving 12000000 [1000]])
    (P := fun o => Sample.pendingOf 1 o == some 10870) (by decide +kernel)
  obtain ⟨o1', h', hm'⟩ := Sample.ex_hist (E := Sample.chainEnv Sample.allV fun _ => []) (o := Sample.three 11999999 900)
    (bs := [Sample.giving 11999999 [], Sample.giving 12000000 [1000]])
    (P := fun o => Sample.pendingOf 1 o == some 10284) (by decide +kernel)
  refine ⟨o1, o1', h, h', C118_history_partial (Sample.chain_valid Sample.allV_index _)
    (Sample.chain_exact Sample.allV_index _) (Sample.chain_reads Sample.allV_index _)
    (Sample.chain_valid Sample.allV_index _)
    (Sample.chain_exact Sample.allV_index _) (Sample.chain_reads Sample.allV_index _)
    (Sample.three_ok _ _) (Sample.three_ok _ _) (Sample.three_refl _ (by decide)) (by decide) (by decide)
    (.cons (Sample.leaving_without _) (.cons (Sample.without_refl _ _) .nil)) ?_ ?_ (fun _ j => ?_)
    (fun _ _ i v _ => rfl) h h', beq_iff_eq.mp hm, beq_iff_eq.mp hm'⟩
  · intro b hb
    simp only [List.mem_cons, List.not_mem_nil, or_false] at hb
    rcases hb with rfl | rfl
    · exact ⟨⟨by decide, fun e he => by cases he⟩, Sample.giving_gas 11999999 [], by decide⟩
    · exact ⟨⟨by decide, fun e he => by cases he⟩, Sample.giving_gas _ _, by decide⟩
  · intro b hb
    simp only [List.mem_cons, List.not_mem_nil, or_false] at hb
    rcases hb with rfl | rfl <;> exact Sample.giving_notNamed _ _
  · show 32000000000 + (j % 256) * 1000000000 < 2 ^ 63
    omega

/-- and to a ban -/
example : ∃ o1 o1', advanceState (Sample.chainEnv Sample.allV fun _ => []) (Sample.three 12000001 900)
      (Sample.expelling 12000001 9) = .ok (o1, some 12000001) ∧
    advanceState (Sample.chainEnv Sample.allV fun _ => []) (Sample.three 12000001 900)
      (Sample.giving 12000001 []) = .ok (o1', some 12000001) ∧ NobodyPoorer (· = 9) o1 o1' ∧
    Sample.pendingOf 1 o1 = some 10412 ∧ Sample.pendingOf 1 o1' = some 10000 := by
  obtain ⟨⟨o1, m⟩, h, hm⟩ := Sample.ex_ok
    (x := advanceState (Sample.chainEnv Sample.allV fun _ => []) (Sample.three 12000001 900) (Sample.expelling 12000001 9))
    (P := fun p => p.2 == some 12000001 && Sample.pendingOf 1 p.1 == some 10412) (by decide +kernel)
  obtain ⟨⟨o1', m'⟩, h', hm'⟩ := Sample.ex_ok
    (x := advanceState (Sample.chainEnv Sample.allV fun _ => []) (Sample.three 12000001 900) (Sample.giving 12000001 []))
    (P := fun p => p.2 == some 12000001 && Sample.pendingOf 1 p.1 == some 10000) (by decide +kernel)
  simp only [beq_iff_eq, Bool.and_eq_true] at hm hm'
  obtain ⟨rfl, hm⟩ := hm
  obtain ⟨rfl, hm'⟩ := hm'
  refine ⟨o1, o1', h, h', (C118_slot_partial (Sample.chain_valid Sample.allV_index _)
    (Sample.chain_exact Sample.allV_index _) (Sample.chain_reads Sample.allV_index _)
    (Sample.chain_valid Sample.allV_index _)
    (Sample.chain_exact Sample.allV_index _) (Sample.chain_reads Sample.allV_index _)
    (Sample.three_ok _ _) (Sample.three_ok _ _) (Sample.three_refl _ (by decide)) (Sample.expelling_without _)
    (Sample.giving_notNamed _ _) ⟨by decide, fun e he => by cases he⟩ (Sample.giving_gas 12000001 []) (by decide)
    (by decide) (by decide) (fun j => ?_) (fun _ i v _ => rfl) h h').1, hm, hm'⟩
  show 32000000000 + (j % 256) * 1000000000 < 2 ^ 63
  omega

/-- **C118 is false before the first fork.** Validator 9 leaves with 9 wei pending, which leaves each of the others more
than 3000 wei poorer, and then 101 wei are given. -/
theorem C118_false_before_fork : ∃ o1 o1', Hist (Sample.chainEnv Sample.allV fun _ => []) (Sample.three 9000001 9)
      [Sample.leaving 9000001 9, Sample.giving 9000002 [101]] o1 ∧
    Hist (Sample.chainEnv Sample.allV fun _ => []) (Sample.three 9000001 9)
      [Sample.giving 9000001 [], Sample.giving 9000002 [101]] o1' ∧
    Sample.pendingOf 1 o1 = some 6551 ∧ Sample.pendingOf 1 o1' = some 9798 := by
  obtain ⟨o1, h, hm⟩ := Sample.ex_hist (E := Sample.chainEnv Sample.allV fun _ => []) (o := Sample.three 9000001 9)
    (bs := [Sample.leaving 9000001 9, Sample.giving 9000002 [101]])
    (P := fun o => Sample.pendingOf 1 o == some 6551) (by decide +kernel)
  obtain ⟨o1', h', hm'⟩ := Sample.ex_hist (E := Sample.chainEnv Sample.allV fun _ => []) (o := Sample.three 9000001 9)
    (bs := [Sample.giving 9000001 [], Sample.giving 9000002 [101]])
    (P := fun o => Sample.pendingOf 1 o == some 9798) (by decide +kernel)
  exact ⟨o1, o1', h, h', beq_iff_eq.mp hm, beq_iff_eq.mp hm'⟩

/-- **C118 is false when a later block names who left.** Validator 9 leaves at once with 2 wei pending, or only after 4
wei were given. The others share what it has in both cases, and rounding makes one wei of difference: validator 1 has
more if it leaves later. -/
theorem C118_false_later : ∃ o1 o1', Hist (Sample.chainEnv Sample.allV fun _ => []) (Sample.three 12000001 2)
      [Sample.leaving 12000001 9, Sample.giving 12000002 [4], Sample.leaving 12000003 9] o1 ∧
    Hist (Sample.chainEnv Sample.allV fun _ => []) (Sample.three 12000001 2)
      [Sample.giving 12000001 [], Sample.giving 12000002 [4], Sample.leaving 12000003 9] o1' ∧
    Sample.pendingOf 1 o1 = some 10001 ∧ Sample.pendingOf 1 o1' = some 10002 := by
  obtain ⟨o1, h, hm⟩ := Sample.ex_hist (E := Sample.chainEnv Sample.allV fun _ => []) (o := Sample.three 12000001 2)
    (bs := [Sample.leaving 12000001 9, Sample.giving 12000002 [4], Sample.leaving 12000003 9])
    (P := fun o => Sample.pendingOf 1 o == some 10001) (by decide +kernel)
  obtain ⟨o1', h', hm'⟩ := Sample.ex_hist (E := Sample.chainEnv Sample.allV fun _ => []) (o := Sample.three 12000001 2)
    (bs := [Sample.giving 12000001 [], Sample.giving 12000002 [4], Sample.leaving 12000003 9])
    (P := fun o => Sample.pendingOf 1 o == some 10002) (by decide +kernel)
  exact ⟨o1, o1', h, h', beq_iff_eq.mp hm, beq_iff_eq.mp hm'⟩

/-- **C118 is false when who left the pool also leaves the chain.** The same, with the cleanup of slot 12000000 taking
what validator 9 has. -/
theorem C118_false_leaver : ∃ o1 o1', Hist (Sample.chainEnv Sample.leftV fun _ => []) (Sample.three 11999998 2)
      [Sample.leaving 11999998 9, Sample.giving 11999999 [4], Sample.giving 12000000 []] o1 ∧
    Hist (Sample.chainEnv Sample.leftV fun _ => []) (Sample.three 11999998 2)
      [Sample.giving 11999998 [], Sample.giving 11999999 [4], Sample.giving 12000000 []] o1' ∧
    Sample.pendingOf 1 o1 = some 10001 ∧ Sample.pendingOf 1 o1' = some 10002 := by
  obtain ⟨o1, h, hm⟩ := Sample.ex_hist (E := Sample.chainEnv Sample.leftV fun _ => []) (o := Sample.three 11999998 2)
    (bs := [Sample.leaving 11999998 9, Sample.giving 11999999 [4], Sample.giving 12000000 []])
    (P := fun o => Sample.pendingOf 1 o == some 10001) (by decide +kernel)
  obtain ⟨o1', h', hm'⟩ := Sample.ex_hist (E := Sample.chainEnv Sample.leftV fun _ => []) (o := Sample.three 11999998 2)
    (bs := [Sample.giving 11999998 [], Sample.giving 11999999 [4], Sample.giving 12000000 []])
    (P := fun o => Sample.pendingOf 1 o == some 10002) (by decide +kernel)
  exact ⟨o1, o1', h, h', beq_iff_eq.mp hm, beq_iff_eq.mp hm'⟩

end Verif
