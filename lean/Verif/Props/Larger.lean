import Verif.Spec.Larger
import Verif.Props.Dilute
/-
C104 for histories: whoever receives more owes nobody less.
-/
namespace Verif
open VMap

theorem find_less {b : FullBlock} {l l' : List EtherEvent} (h : PaidLess b l l') {x : Int} (hx : BuilderAmount b x) :
    l'.find? (fun e => e.amount == x) = l.find? (fun e => e.amount == x) := by
  have no : ∀ {e : EtherEvent}, ¬ BuilderAmount b e.amount → (e.amount == x) = false := by
    intro e he
    cases hh : e.amount == x
    · rfl
    · exact absurd ((beq_iff_eq.mp hh) ▸ hx) he
  induction h with
  | nil => rfl
  | same e _ ih => rw [List.find?_cons, List.find?_cons, ih]
  | smaller _ h1 h2 _ ih => rw [List.find?_cons, List.find?_cons, no h1, no h2, ih]
  | without h1 _ ih => rw [ih, List.find?_cons, no h1]

theorem mevReward_less {b : FullBlock} {m : Mev} {pays : List EtherEvent} (hp : PaidLess b b.events.ether pays)
    (h : mevReward b = .ok m) : mevReward { b with events := { b.events with ether := pays } } = .ok m := by
  rcases mevReward_ether pays h with h1 | ⟨dest, h1, h2⟩
  · exact h1
  have hB := builderAmount_of h (by rw [h1])
  rw [h2, h1]
  have : mevRecipient pays m.amount dest = mevRecipient b.events.ether m.amount dest := by
    unfold mevRecipient
    rw [find_less hp hB]
  rw [this]

theorem PaidLess.donations {b : FullBlock} {l l' : List EtherEvent} (h : PaidLess b l l') :
    l'.SublistForall₂ (fun d' d => d'.amount ≤ d.amount) l := by
  induction h with
  | nil => exact .nil
  | same e _ ih => exact .cons (le_refl _) ih
  | smaller h1 _ _ _ ih => exact .cons h1 ih
  | without _ _ ih => exact .cons_right ih

theorem PaidLess.filter {b : FullBlock} {l l' : List EtherEvent} (h : PaidLess b l l') {x : Int}
    (hx : BuilderAmount b x) :
    PaidLess b (l.filter fun e => e.amount ≠ x) (l'.filter fun e => e.amount ≠ x) := by
  have yes : ∀ {e : EtherEvent}, ¬ BuilderAmount b e.amount → decide (e.amount ≠ x) = true := by
    intro e he
    rw [decide_eq_true_eq]
    rintro rfl
    exact he hx
  induction h with
  | nil => exact .nil
  | same e _ ih =>
    rw [List.filter_cons, List.filter_cons]
    split
    · exact .same e ih
    · exact ih
  | smaller h0 h1 h2 _ ih =>
    rw [List.filter_cons, List.filter_cons, if_pos (yes h1), if_pos (yes h2)]
    exact .smaller h0 h1 h2 ih
  | without h1 _ ih =>
    rw [List.filter_cons, if_pos (yes h1)]
    exact .without h1 ih

theorem getDonations_less {b : FullBlock} {pays : List EtherEvent} (hp : PaidLess b b.events.ether pays) {pool dons dons'}
    (h : getDonations b pool = .ok dons)
    (h' : getDonations { b with events := { b.events with ether := pays } } pool = .ok dons') :
    dons'.SublistForall₂ (fun d' d => d'.amount ≤ d.amount) dons := by
  unfold getDonations at h h'
  dsimp only at h'
  cases hc : b.cons with
  | none =>
    rw [hc] at h h'
    cases h; cases h'
    exact .nil
  | some c =>
    simp only [hc, bind_ok] at h
    obtain ⟨mev, h1, t, h2, h⟩ := h
    have h3 := mevReward_less hp h1
    dsimp only at h3
    rw [h3] at h'
    simp only [hc, bind_ok] at h'
    obtain ⟨mev', h1', t', h2', h'⟩ := h'
    have e : mev = mev' := Except.ok.inj h1'
    subst e
    have e : t = t' := by rw [h2] at h2'; exact Except.ok.inj h2'
    subst e
    cases t with
    | false =>
      simp only [Bool.not_false, if_true] at h h'
      cases h; cases h'
      exact hp.donations
    | true =>
      have hpr : mev.present = true := by
        cases hpr : mev.present
        · rw [hpr] at h2; cases h2
        · rfl
      have hB := builderAmount_of h1 hpr
      simp only [Bool.not_true, Bool.false_eq_true, if_false] at h h'
      split at h
      · split at h'
        · cases h; cases h'
          exact (hp.filter hB).donations
        · cases h'
      · cases h

theorem summarize_less_paid {b : FullBlock} {pays : List EtherEvent} (hp : PaidLess b b.events.ether pays) {s pool dons}
    (h : getDonations b pool = .ok dons) :
    summarize s { b with events := { b.events with ether := pays } } pool = summarize s b pool := by
  have hcons : b.cons = none ∨ ∃ c, b.cons = some c := by cases b.cons <;> simp
  rcases hcons with hc | ⟨c, hc⟩
  · unfold summarize; simp only [hc]
  · have hm : ∃ m, mevReward b = .ok m := by
      unfold getDonations at h
      rw [hc] at h
      simp only [bind_ok] at h
      obtain ⟨m, hm, _⟩ := h
      exact ⟨m, hm⟩
    obtain ⟨m, hm⟩ := hm
    exact summarize_pays (pays := pays) ((mevReward_less hp hm).trans hm.symm) _ _

section
variable {E E' : Env} {V : Nat → Nat → BVal} {K : Nat → List (Nat × Nat)}

theorem NobodyRicher.less {o o' : Oracle} (h : NobodyRicher o o') (hs : MapOK o.st) (hs' : MapOK o'.st)
    (hf : 0 ≤ o.st.fee) (hf' : o.st.fee ≤ 10000) : Less (fun _ => False) o.st.nextSlot o.st o'.st := by
  have ef : o'.st.fee = o.st.fee := by have := congrArg State.fee h.rest; exact this
  refine ⟨⟨hs, rfl, hf, by omega, by omega⟩, o'.st.vals, o'.st.tick, o'.st.stateHash, o'.st.committed, o'.st.poolFees, o'.st.ether,
    o'.st.donations, o'.st.unsubs, o'.st.fee, hs', fun i => .inl (h.records i), ?_⟩
  have e := h.rest
  have := congrArg (fun s : State => { s with
    vals := o'.st.vals, tick := o'.st.tick, stateHash := o'.st.stateHash, committed := o'.st.committed
    poolFees := o'.st.poolFees, ether := o'.st.ether, donations := o'.st.donations, unsubs := o'.st.unsubs
    fee := o'.st.fee }) e
  exact this

theorem nobodyRicher_of_less {o o' : Oracle} {n} (hc : o.cfg = o'.cfg) (h : Less (fun _ => False) n o.st o'.st)
    (hu : o'.st.unsubs = o.st.unsubs) (hf : o'.st.fee = o.st.fee) : NobodyRicher o o' := by
  obtain ⟨_, m, t, x, c, f, le, ld, lu, g, _, hr, e⟩ := h
  rw [e] at hu hf
  have hf : g = o.st.fee := hf
  have hu : lu = o.st.unsubs := hu
  refine ⟨hc.symm, fun i => ?_, ?_⟩
  · rw [e]; exact (hr i).resolve_right fun k => k.1
  · rw [e, hu, hf]; rfl

/-- **C104** (partial), for one slot of any kind. The books `o'` have nobody richer than the books `o`, and the block
`b'` is the block `b` with payments left out or smaller: nobody is richer in `o'` after them. Bans, cancelled
subscriptions and proposals included. For slots since the first fork, a fee between 0 and 100%, payments that are not
negative, and cleanup slots at which everybody the books know is active. Missing: slots before the fork, for which it is
false, `C104_false_before_fork`, and cleanup slots that find somebody who left, `C104_false_leaver`. -/
theorem C104_slot_partial (hE : ValidEnv E) (hX : ExactEnv E) (hR : ReadsChain V K E)
    (hE' : ValidEnv E') (hX' : ExactEnv E') (hR' : ReadsChain V K E')
    {o o' o1 o1' : Oracle} {b b' : FullBlock} {n n' : Nat} (hs : MapOK o.st) (hs' : MapOK o'.st)
    (hle : NobodyRicher o o') (hb : ReceivedLess b b') (hpay : NonNegPayments b) (hpay' : NonNegPayments b')
    (hgas : GasOK b) (hf : 0 ≤ o.st.fee) (hf' : o.st.fee ≤ 10000) (hfork : PostFork1 o.cfg.network n)
    (hV : ∀ j, (V n j).effBal < 2 ^ 63) (hA : n % 1200 = 0 → AllActive V n o1'.st)
    (h : advanceState E o b = .ok (o1, some n)) (h' : advanceState E' o' b' = .ok (o1', some n')) :
    NobodyRicher o1 o1' ∧ n' = n ∧ 0 ≤ o1.st.fee ∧ o1.st.fee ≤ 10000 := by
  obtain ⟨pays, hp, rfl⟩ := hb
  obtain ⟨k1, k2, k3⟩ := slot_less hE hX hR hE' hX' hR' (pays := pays) (us := b.events.unsubs) (vs := b.valsUnsubs)
    (bs := b.events.bans) (by rw [hle.cfg]) (hle.less hs hs' hf hf')
    ⟨id, fun _ _ => id, fun _ _ => id, fun _ _ => id, fun _ _ => id, fun _ _ => id⟩ (.refl _) (.refl _) hpay hgas
    hpay'.1 (fun _ _ _ hd => summarize_less_paid hp hd)
    (fun pool dons dons' h1 h2 => getDonations_less hp h1 h2) hfork hV hA h h'
  obtain ⟨_, _, _, _, _, _, _, _, _, q, _⟩ := slot_frame h
  obtain ⟨_, _, _, _, _, _, _, _, _, q', _⟩ := slot_frame h'
  have r3 : o'.st.unsubs = o.st.unsubs := by have := congrArg State.unsubs hle.rest; exact this
  have e5 : o1.st.unsubs = o.st.unsubs ++ b.events.unsubs := by have := congrArg State.unsubs q; exact this
  have e6 : o1'.st.unsubs = o'.st.unsubs ++ b.events.unsubs := by have := congrArg State.unsubs q'; exact this
  obtain ⟨f1, f2⟩ := fee_together (b := b) (b' := { b with events := { b.events with ether := pays } }) rfl hle.cfg
    (by have := congrArg State.fee hle.rest; exact this) h h'
  have := k2.1.2.2
  exact ⟨nobodyRicher_of_less f1.symm k2 (by rw [e5, e6, r3]) f2, k3, by omega, by omega⟩

/-- **C104** (partial) for whole histories: two runs over blocks that are the same but for payments to the pool, of which
some are left out or smaller in the second run. In the second run nobody has more at the end, pending or accumulated:
a gift to the pool never costs a validator anything, however long ago it was made. -/
theorem C104_history_partial (hE : ValidEnv E) (hX : ExactEnv E) (hR : ReadsChain V K E)
    (hE' : ValidEnv E') (hX' : ExactEnv E') (hR' : ReadsChain V K E')
    {bs bs' : List FullBlock} {o o' o1 o1' : Oracle} (hs : MapOK o.st) (hs' : MapOK o'.st)
    (hle : NobodyRicher o o') (hf : 0 ≤ o.st.fee) (hf' : o.st.fee ≤ 10000) (hbs : List.Forall₂ ReceivedLess bs bs')
    (hb : ∀ b ∈ bs, NonNegPayments b ∧ GasOK b ∧ PostFork1 o.cfg.network b.dutySlot)
    (hb' : ∀ b ∈ bs', NonNegPayments b)
    (hV : ∀ n j, (V n j).effBal < 2 ^ 63) (hA : ∀ n, n % 1200 = 0 → AllActive V n o1'.st)
    (h : Hist E o bs o1) (h' : Hist E' o' bs' o1') : NobodyRicher o1 o1' := by
  induction h generalizing o' bs' with
  | nil => cases hbs; cases h'; exact hle
  | @cons o b o2 n bs o1 ha hr ih =>
    cases hbs with
    | @cons _ b' _ bs' hbb hbs =>
    cases h' with
    | @cons _ _ o2' n' _ _ ha' hr' =>
      obtain ⟨b1, b2, b3⟩ := hb b (by simp)
      have hslot : n = b.dutySlot := by
        obtain ⟨_, _, _, _, _, _, _, _, _, _, hslot, _⟩ := slot_frame ha
        obtain ⟨_, _, _, _, _, _, e, _⟩ := advanceState_ok ha
        rw [hslot, e]
      have hm := (slot_remembers hE hX hs ha).1
      have hm' := (slot_remembers hE' hX' hs' ha').1
      have hA1 : AllActive V n o2'.st ∨ ¬ n % 1200 = 0 := by
        by_cases e : n % 1200 = 0
        · refine .inl fun i v hv => ?_
          obtain ⟨w, hw⟩ := hist_tracked hE' hX' hm' hr' hv
          exact hA n e i w hw
        · exact .inr e
      obtain ⟨k1, _, k3, k4⟩ := C104_slot_partial hE hX hR hE' hX' hR' hs hs' hle hbb b1 (hb' b' (by simp)) b2 hf hf'
        (by rw [hslot]; exact b3) (hV n) (fun e => hA1.resolve_right (fun k => k e)) ha ha'
      have hnet := (slot_nextSlot ha).2
      exact ih hm hm' k1 k3 k4 hbs (fun b hb1 => by rw [hnet]; exact hb b (by simp [hb1]))
        (fun b hb1 => hb' b (by simp [hb1])) hr'

end

namespace Sample

/-- the block of validator 1 with gifts, which also bans validator 2 -/
def banning (slot : Nat) (amounts : List Int) : FullBlock :=
  { paying slot amounts with events := { (paying slot amounts).events with bans := [⟨2, 100⟩] } }

/-- somebody outside the pool proposes a block in which gifts are made -/
def giving (slot : Nat) (amounts : List Int) : FullBlock :=
  prop slot 7 builder (tx builder builder 5000) { ether := amounts.map giftOf }

/-- three members, of whom validator 9 has nothing pending -/
def poor (slot : Nat) : Oracle :=
  ⟨cfg, { st with
    latestSlot := slot - 1, nextSlot := slot
    vals := [(1, val 1 .active 10000 5), (2, val 2 .yellowCard 20000 6), (9, val 9 .active 0 10)] }⟩

/-- what validator `i` has pending -/
def pendingOf (i : Nat) (o : Oracle) : Option Int := (VMap.get o.st.vals i).map (·.pend)

theorem apart {b : FullBlock} (hm : (mevReward b).toOption.map (·.amount) = some 5000) {x : Int} (h : x ≠ 5000) :
    ¬ BuilderAmount b x := by
  intro hx
  cases hr : mevReward b with
  | error e => rw [hr] at hm; cases hm
  | ok m =>
    rw [hr] at hm
    have hm : m.amount = 5000 := by simpa [Except.toOption] using hm
    exact h ((builderAmount_only hr hx).trans hm)

theorem thin_refl (slot) : NobodyRicher (thin slot) (thin slot) := by
  refine ⟨rfl, fun i => ?_, rfl⟩
  cases h : VMap.get (thin slot).st.vals i with
  | none => exact .inl ⟨rfl, rfl⟩
  | some v =>
    refine .inr ⟨v, v.pend, v.acc, rfl, rfl, ?_, le_refl _, le_refl _⟩
    have := mem_of_get h
    have hall : ∀ p ∈ thinVals, 0 ≤ p.2.pend := by decide
    exact hall _ this

end Sample

/-- The theorem applies: a block with a gift that bans a validator, then one with another gift; in the second run the
first gift is smaller and the second is not made. -/
example : ∃ o1 o1', Hist (Sample.chainEnv Sample.allV fun _ => []) (Sample.thin 12000001)
      [Sample.banning 12000001 [71], Sample.paying 12000002 [1000]] o1 ∧
    Hist (Sample.chainEnv Sample.allV fun _ => []) (Sample.thin 12000001)
      [Sample.banning 12000001 [70], Sample.paying 12000002 []] o1' ∧ NobodyRicher o1 o1' ∧
    Sample.money1 o1 = some (930, 37804) ∧ Sample.money1 o1' = some (0, 37802) := by
  obtain ⟨o1, h, hm⟩ := Sample.ex_hist (E := Sample.chainEnv Sample.allV fun _ => []) (o := Sample.thin 12000001)
    (bs := [Sample.banning 12000001 [71], Sample.paying 12000002 [1000]])
    (P := fun o => Sample.money1 o == some (930, 37804)) (by decide +kernel)
  obtain ⟨o1', h', hm'⟩ := Sample.ex_hist (E := Sample.chainEnv Sample.allV fun _ => []) (o := Sample.thin 12000001)
    (bs := [Sample.banning 12000001 [70], Sample.paying 12000002 []])
    (P := fun o => Sample.money1 o == some (0, 37802)) (by decide +kernel)
  refine ⟨o1, o1', h, h', C104_history_partial (Sample.chain_valid Sample.allV_index _)
    (Sample.chain_exact Sample.allV_index _) (Sample.chain_reads Sample.allV_index _)
    (Sample.chain_valid Sample.allV_index _)
    (Sample.chain_exact Sample.allV_index _) (Sample.chain_reads Sample.allV_index _)
    (Sample.thin_ok _) (Sample.thin_ok _) (Sample.thin_refl _) (by decide) (by decide) ?_ ?_ ?_ (fun _ j => ?_)
    (fun _ _ i v _ => rfl) h h', beq_iff_eq.mp hm, beq_iff_eq.mp hm'⟩
  · refine .cons ⟨_, .same _ (.smaller (e := Sample.giftOf 71) (e' := Sample.giftOf 70) (by decide)
      (Sample.apart (by decide +kernel) (by decide)) (Sample.apart (by decide +kernel) (by decide)) .nil), rfl⟩
      (.cons ⟨_, .same _ (.without (e := Sample.giftOf 1000) (Sample.apart (by decide +kernel) (by decide)) .nil), rfl⟩
        .nil)
  · intro b hb
    simp only [List.mem_cons, List.not_mem_nil, or_false] at hb
    rcases hb with rfl | rfl
    · exact ⟨⟨by decide, fun e he => by cases he⟩, Sample.paying_gas 12000001 [71], by decide⟩
    · exact ⟨⟨by decide, fun e he => by cases he⟩, Sample.paying_gas _ _, by decide⟩
  · intro b hb
    simp only [List.mem_cons, List.not_mem_nil, or_false] at hb
    rcases hb with rfl | rfl <;> exact ⟨by decide, fun e he => by cases he⟩
  · show 32000000000 + (j % 256) * 1000000000 < 2 ^ 63
    omega

/-- **The upper bound of C104 is false when the block bans somebody.** One wei more is given, and validator 1 has two wei
more pending: one is its own share, the other comes from the balance of the banned validator, which grew by one wei as
well. (The second wei is one that the pool kept as dust when less was given.) -/
theorem C104_false_ban : ∃ o1 o1',
    advanceState (Sample.chainEnv Sample.allV fun _ => []) (Sample.thin 12000001) (Sample.banning 12000001 [70]) =
      .ok (o1, some 12000001) ∧
    advanceState (Sample.chainEnv Sample.allV fun _ => []) (Sample.thin 12000001) (Sample.banning 12000001 [71]) =
      .ok (o1', some 12000001) ∧
    Sample.pendingOf 1 o1 = some 20857 ∧ Sample.pendingOf 1 o1' = some 20859 := by
  obtain ⟨⟨o1, m⟩, h, hm⟩ := Sample.ex_ok
    (x := advanceState (Sample.chainEnv Sample.allV fun _ => []) (Sample.thin 12000001) (Sample.banning 12000001 [70]))
    (P := fun p => p.2 == some 12000001 && Sample.pendingOf 1 p.1 == some 20857) (by decide +kernel)
  obtain ⟨⟨o1', m'⟩, h', hm'⟩ := Sample.ex_ok
    (x := advanceState (Sample.chainEnv Sample.allV fun _ => []) (Sample.thin 12000001) (Sample.banning 12000001 [71]))
    (P := fun p => p.2 == some 12000001 && Sample.pendingOf 1 p.1 == some 20859) (by decide +kernel)
  simp only [beq_iff_eq, Bool.and_eq_true] at hm hm'
  obtain ⟨rfl, hm⟩ := hm
  obtain ⟨rfl, hm'⟩ := hm'
  exact ⟨o1, o1', h, h', hm, hm'⟩

/-- **C104 is false when somebody has left the chain.** Validator 9 left and has nothing pending. A gift of 2 wei just
before the cleanup leaves it a member, as its share is rounded to nothing; a gift of 3 wei gives it one wei, for which
the cleanup removes it. Of the next 1000 wei it gets 353 in the first case and nothing in the second. -/
theorem C104_false_leaver : ∃ o1 o1', Hist (Sample.chainEnv Sample.leftV fun _ => []) (Sample.poor 12000000)
      [Sample.giving 12000000 [2], Sample.giving 12000001 [1000]] o1 ∧
    Hist (Sample.chainEnv Sample.leftV fun _ => []) (Sample.poor 12000000)
      [Sample.giving 12000000 [3], Sample.giving 12000001 [1000]] o1' ∧
    Sample.pendingOf 9 o1 = some 353 ∧ Sample.pendingOf 9 o1' = some 0 := by
  obtain ⟨o1, h, hm⟩ := Sample.ex_hist (E := Sample.chainEnv Sample.leftV fun _ => []) (o := Sample.poor 12000000)
    (bs := [Sample.giving 12000000 [2], Sample.giving 12000001 [1000]])
    (P := fun o => Sample.pendingOf 9 o == some 353) (by decide +kernel)
  obtain ⟨o1', h', hm'⟩ := Sample.ex_hist (E := Sample.chainEnv Sample.leftV fun _ => []) (o := Sample.poor 12000000)
    (bs := [Sample.giving 12000000 [3], Sample.giving 12000001 [1000]])
    (P := fun o => Sample.pendingOf 9 o == some 0) (by decide +kernel)
  exact ⟨o1, o1', h, h', beq_iff_eq.mp hm, beq_iff_eq.mp hm'⟩

/-- C103 applies to cleanup slots: 1000 wei given in slot 12000000 at once or in two pieces. -/
example : ∃ o1 o1',
    advanceState (Sample.chainEnv Sample.allV fun _ => []) (Sample.thin 12000000) (Sample.paying 12000000 [1000]) =
      .ok (o1, some 12000000) ∧
    advanceState (Sample.chainEnv Sample.allV fun _ => []) (Sample.thin 12000000) (Sample.paying 12000000 [506, 494]) =
      .ok (o1', some 12000000) ∧ SameButPaid (-1) 1 0 o1.st o1'.st ∧
    Sample.pendingOf 1 o1 = some 458 ∧ Sample.pendingOf 2 o1 = some 22830 ∧
    Sample.pendingOf 1 o1' = some 457 ∧ Sample.pendingOf 2 o1' = some 22831 := by
  obtain ⟨⟨o1, m⟩, h, hm⟩ := Sample.ex_ok
    (x := advanceState (Sample.chainEnv Sample.allV fun _ => []) (Sample.thin 12000000) (Sample.paying 12000000 [1000]))
    (P := fun p => p.2 == some 12000000 && (Sample.pendingOf 1 p.1 == some 458 && Sample.pendingOf 2 p.1 == some 22830))
    (by decide +kernel)
  obtain ⟨⟨o1', m'⟩, h', hm'⟩ := Sample.ex_ok
    (x := advanceState (Sample.chainEnv Sample.allV fun _ => []) (Sample.thin 12000000)
      (Sample.paying 12000000 [506, 494]))
    (P := fun p => p.2 == some 12000000 && (Sample.pendingOf 1 p.1 == some 457 && Sample.pendingOf 2 p.1 == some 22831))
    (by decide +kernel)
  simp only [beq_iff_eq, Bool.and_eq_true] at hm hm'
  obtain ⟨rfl, hm⟩ := hm
  obtain ⟨rfl, hm'⟩ := hm'
  refine ⟨o1, o1', h, h', (C103_pieces_partial (Sample.chain_valid Sample.allV_index _)
    (Sample.chain_exact Sample.allV_index _) (Sample.chain_reads Sample.allV_index _)
    (Sample.chain_valid Sample.allV_index _)
    (Sample.chain_exact Sample.allV_index _) (Sample.chain_reads Sample.allV_index _) (Sample.thin_ok _)
    (Sample.paying_otherwise (l := [1000]) (l' := [506, 494]) (by decide +kernel) (by decide)) rfl rfl rfl (by decide)
    (fun _ i v _ => rfl) (fun j => ?_) h h').2.2, hm.1, hm.2, hm'.1, hm'.2⟩
  show 32000000000 + (j % 256) * 1000000000 < 2 ^ 63
  omega

/-- **C103 is false when the block bans somebody.** The same 71 wei are given at once or in two pieces. With the two
pieces validator 1 has two wei less pending, one more than the bound: one is its own rounding, the other was lost in the
balance of the banned validator, which is shared again. -/
theorem C103_false_ban : ∃ o1 o1',
    advanceState (Sample.chainEnv Sample.allV fun _ => []) (Sample.thin 12000001) (Sample.banning 12000001 [71]) =
      .ok (o1, some 12000001) ∧
    advanceState (Sample.chainEnv Sample.allV fun _ => []) (Sample.thin 12000001) (Sample.banning 12000001 [36, 35]) =
      .ok (o1', some 12000001) ∧
    Sample.pendingOf 1 o1 = some 20859 ∧ Sample.pendingOf 1 o1' = some 20857 := by
  obtain ⟨⟨o1, m⟩, h, hm⟩ := Sample.ex_ok
    (x := advanceState (Sample.chainEnv Sample.allV fun _ => []) (Sample.thin 12000001) (Sample.banning 12000001 [71]))
    (P := fun p => p.2 == some 12000001 && Sample.pendingOf 1 p.1 == some 20859) (by decide +kernel)
  obtain ⟨⟨o1', m'⟩, h', hm'⟩ := Sample.ex_ok
    (x := advanceState (Sample.chainEnv Sample.allV fun _ => []) (Sample.thin 12000001)
      (Sample.banning 12000001 [36, 35]))
    (P := fun p => p.2 == some 12000001 && Sample.pendingOf 1 p.1 == some 20857) (by decide +kernel)
  simp only [beq_iff_eq, Bool.and_eq_true] at hm hm'
  obtain ⟨rfl, hm⟩ := hm
  obtain ⟨rfl, hm'⟩ := hm'
  exact ⟨o1, o1', h, h', hm, hm'⟩

/-- **C103 is false before the first fork.** The remainder of the multiplication with the fee is taken from each piece as
if it were wei. 100000 wei given at once leave the only member 93000 wei, and the same sum in two pieces leaves it
83001. -/
theorem C103_false_before_fork : ∃ o1 o1',
    advanceState Sample.env (newOracle Sample.earlyCfg) (Sample.paying 9000001 [100000]) = .ok (o1, some 9000001) ∧
    advanceState Sample.env (newOracle Sample.earlyCfg) (Sample.paying 9000001 [50001, 49999]) =
      .ok (o1', some 9000001) ∧
    Sample.pendingOf 1 o1 = some 93000 ∧ Sample.pendingOf 1 o1' = some 83001 := by
  obtain ⟨⟨o1, m⟩, h, hm⟩ := Sample.ex_ok
    (x := advanceState Sample.env (newOracle Sample.earlyCfg) (Sample.paying 9000001 [100000]))
    (P := fun p => p.2 == some 9000001 && Sample.pendingOf 1 p.1 == some 93000) (by decide +kernel)
  obtain ⟨⟨o1', m'⟩, h', hm'⟩ := Sample.ex_ok
    (x := advanceState Sample.env (newOracle Sample.earlyCfg) (Sample.paying 9000001 [50001, 49999]))
    (P := fun p => p.2 == some 9000001 && Sample.pendingOf 1 p.1 == some 83001) (by decide +kernel)
  simp only [beq_iff_eq, Bool.and_eq_true] at hm hm'
  obtain ⟨rfl, hm⟩ := hm
  obtain ⟨rfl, hm'⟩ := hm'
  exact ⟨o1, o1', h, h', hm, hm'⟩

/-- **C103 is false in a cleanup slot that finds somebody who left.** Validator 9 left and has nothing pending. 3 wei
given at once give it one wei, for which the cleanup of that slot removes it; given in two pieces its shares are rounded
to nothing and it stays a member. Of the next 1000 wei it gets nothing in the first case and 353 in the second. -/
theorem C103_false_leaver : ∃ o1 o1', Hist (Sample.chainEnv Sample.leftV fun _ => []) (Sample.poor 12000000)
      [Sample.giving 12000000 [3], Sample.giving 12000001 [1000]] o1 ∧
    Hist (Sample.chainEnv Sample.leftV fun _ => []) (Sample.poor 12000000)
      [Sample.giving 12000000 [2, 1], Sample.giving 12000001 [1000]] o1' ∧
    Sample.pendingOf 9 o1 = some 0 ∧ Sample.pendingOf 9 o1' = some 353 := by
  obtain ⟨o1, h, hm⟩ := Sample.ex_hist (E := Sample.chainEnv Sample.leftV fun _ => []) (o := Sample.poor 12000000)
    (bs := [Sample.giving 12000000 [3], Sample.giving 12000001 [1000]])
    (P := fun o => Sample.pendingOf 9 o == some 0) (by decide +kernel)
  obtain ⟨o1', h', hm'⟩ := Sample.ex_hist (E := Sample.chainEnv Sample.leftV fun _ => []) (o := Sample.poor 12000000)
    (bs := [Sample.giving 12000000 [2, 1], Sample.giving 12000001 [1000]])
    (P := fun o => Sample.pendingOf 9 o == some 353) (by decide +kernel)
  exact ⟨o1, o1', h, h', beq_iff_eq.mp hm, beq_iff_eq.mp hm'⟩

end Verif
