import Mathlib.Logic.Equiv.Basic
import Verif.Lemmas.Rename
import Verif.Props.Determinism
import Verif.Props.Merkle
/-
C107: validators are treated alike, whatever their number.
-/
namespace Verif
open VMap

section
variable {π : Nat ≃ Nat} {E E' : Env} {V V' : Nat → Nat → BVal} {K K' : Nat → List (Nat × Nat)}

theorem Renamed.ren {o o' : Oracle} (h : Renamed π o o') (hs : MapOK o.st) (hs' : MapOK o'.st) :
    Ren π o.st o'.st := by
  refine ⟨hs, o'.st.vals, o'.st.tick, o'.st.stateHash, o'.st.committed, hs', h.vals, ?_⟩
  have := congrArg (fun s : State => { s with
      vals := o'.st.vals, tick := o'.st.tick, stateHash := o'.st.stateHash, committed := o'.st.committed }) h.rest
  exact this

theorem renamed_of_ren {o o' : Oracle} (hc : o.cfg = o'.cfg) (h : Ren π o.st o'.st) : Renamed π o o' := by
  obtain ⟨_, m, t, x, c, _, hr, e⟩ := h
  refine ⟨hc.symm, fun i => ?_, ?_⟩
  · rw [e]; exact hr i
  · rw [e]; rfl

theorem validateConfig_ren {o o' : Oracle} (hc : o.cfg = o'.cfg) (h : Ren π o.st o'.st) (b : FullBlock) :
    Rel (fun x y => x.1.cfg = y.1.cfg ∧ Ren π x.1.st y.1.st ∧ x.2 = y.2) (validateConfig o b)
      (validateConfig o' (b.ren π)) := by
  show Rel _ _ (validateConfig o' b)
  obtain ⟨c, s⟩ := o
  obtain ⟨c', s'⟩ := o'
  dsimp only at hc h
  subst hc
  have h0 := h
  obtain ⟨hs, m, t, sh, cm, hm, hr, rfl⟩ := h
  unfold validateConfig
  dsimp only
  refine .ite (fun _ => .ok ⟨rfl, h0, rfl⟩) fun _ => ?_
  have fin : ∀ {q q' : Oracle}, q.cfg = q'.cfg → Ren π q.st q'.st →
      Rel (fun x y => x.1.cfg = y.1.cfg ∧ Ren π x.1.st y.1.st ∧ x.2 = y.2)
      (do
        let recOk ← (match b.events.feeRecipient with
          | [] => .ok true
          | r :: _ => equals q.cfg.poolFeesAddr r)
        if !recOk then (.ok (q, false) : M (Oracle × Bool))
        else if b.events.cpSize.any (fun n => q.cfg.cpSize ≠ n) then .ok (q, false)
        else if b.events.collateral.any (fun c => q.cfg.collateral ≠ c) then .ok (q, false)
        else .ok (q, true))
      (do
        let recOk ← (match b.events.feeRecipient with
          | [] => .ok true
          | r :: _ => equals q'.cfg.poolFeesAddr r)
        if !recOk then (.ok (q', false) : M (Oracle × Bool))
        else if b.events.cpSize.any (fun n => q'.cfg.cpSize ≠ n) then .ok (q', false)
        else if b.events.collateral.any (fun c => q'.cfg.collateral ≠ c) then .ok (q', false)
        else .ok (q', true)) := by
    intro q q' hq hS
    rw [← hq]
    refine Rel.bind (Rel.refl _) ?_
    rintro x _ rfl
    exact .ite (fun _ => .ok ⟨hq, hS, rfl⟩) fun _ => .ite (fun _ => .ok ⟨hq, hS, rfl⟩) fun _ =>
      .ite (fun _ => .ok ⟨hq, hS, rfl⟩) fun _ => .ok ⟨hq, hS, rfl⟩
  cases b.events.poolFee with
  | nil => exact fin rfl h0
  | cons f _ =>
    dsimp only
    cases scheduledFee c.network b.dutySlot with
    | none => exact .ok ⟨rfl, h0, rfl⟩
    | some x =>
      dsimp only
      by_cases hx : x ≠ i64 f
      · rw [if_pos hx, if_pos hx]; exact .ok ⟨rfl, h0, rfl⟩
      · rw [if_neg hx, if_neg hx]; exact fin rfl ⟨hs, m, t, sh, cm, hm, hr, rfl⟩

theorem summarize_ren {s s' : State} (h : Ren π s s') (b : FullBlock) (pool) :
    Rel (fun x y => y = x.ren π) (summarize s b pool) (summarize s' (b.ren π) pool) := by
  have e : withdrawalAndType (b.ren π).validator = withdrawalAndType b.validator := rfl
  unfold summarize
  rw [e]
  refine Rel.bind (.refl _) ?_
  rintro ⟨w, wt⟩ _ rfl
  dsimp only
  have ec : (b.ren π).cons = b.cons.map fun c => { c with proposer := π c.proposer } := rfl
  rw [ec]
  cases b.cons with
  | none => exact .ok rfl
  | some c =>
    simp only [Option.map_some]
    refine Rel.bind (R := fun i j => j = π i) ?_ ?_
    · unfold ConsBlock.base
      dsimp only
      split
      · exact .err
      · exact .ok rfl
    rintro i _ rfl
    rw [h.isSubscribed, sentReward_ren]
    refine Rel.bind (.refl _) ?_
    rintro ⟨r, tp, rt⟩ _ rfl
    have ex : ConsBlock.exec { c with proposer := π c.proposer } (·.number) = c.exec (·.number) := rfl
    dsimp only
    rw [ex]
    refine Rel.bind (.refl _) ?_
    rintro n _ rfl
    exact .ok rfl

/-- **C107** (partial). Give all validators other numbers, on the chain, in the books and in the block: processing
the block then gives the same books with the other numbers, whatever the iteration orders and the orders of the
beacon node's answers in the two runs. At cleanup slots, tracked validators that left the chain must not be
consolidated into tracked validators that left it too. Missing: that case, in which the claim is false, see
`C107_false_consolidation_chain`. -/
theorem C107_slot_partial (hV : RenamedChain π V V' K K')
    (hE : ValidEnv E) (hX : ExactEnv E) (hR : ReadsChain V K E)
    (hE' : ValidEnv E') (hX' : ExactEnv E') (hR' : ReadsChain V' K' E')
    {o o' o1 o1' : Oracle} {b : FullBlock} {n n' : Nat} (hs : MapOK o.st) (hs' : MapOK o'.st)
    (hren : Renamed π o o') (hA : n % 1200 = 0 → TrackedTargets V K n o1.st)
    (h : advanceState E o b = .ok (o1, some n)) (h' : advanceState E' o' (b.ren π) = .ok (o1', some n')) :
    Renamed π o1 o1' ∧ n' = n := by
  obtain ⟨q, sb, dons, s1, s2, _, _, hv, hsb, _, hd, ha, hcl, ho, hn⟩ := advanceState_ok h
  obtain ⟨q', sb', dons', s1', s2', _, _, hv', hsb', _, hd', ha', hcl', ho', hn'⟩ := advanceState_ok h'
  obtain ⟨k1, k2, _⟩ := validateConfig_ren hren.cfg.symm (hren.ren hs hs') b _ _ hv hv'
  dsimp only at k1 k2
  rw [← k1] at ha' hcl' hd' hsb'
  have e := summarize_ren k2 b _ _ _ hsb hsb'
  subst e
  rw [getDonations_ren, hd] at hd'
  have e := Except.ok.inj hd'
  subst e
  have k3 := applyBlock_ren hV hE hX hR hE' hX' hR' k2 b sb dons _ _ ha ha'
  have k4 : Ren π s2 s2' := by
    have hns : s1'.nextSlot = s1.nextSlot := by obtain ⟨_, m, t, x, c, _, _, e⟩ := k3; rw [e]; rfl
    rw [hns] at hcl'
    by_cases hm : s1.nextSlot % 1200 = 0
    · rw [if_pos hm] at hcl hcl'
      have e : s2.frame = s1.frame := cleanup_frame hcl
      have e : s2.nextSlot = s1.nextSlot := by have := congrArg State.nextSlot e; exact this
      have hk := (cleanup_grows hE hcl).2
      have hA1 : TrackedTargets V K s1.nextSlot s1 := by
        intro i j v w hv hw hij hi
        have hA := hA (by rw [hn, e]; exact hm)
        rw [hn, e, ho] at hA
        have tr : ∀ {k x}, VMap.get s1.vals k = some x → ∃ x', VMap.get s2.vals k = some x' := fun {k x} h =>
          Option.isSome_iff_exists.mp ((get_isSome_iff _ _).mpr (hk k ((get_isSome_iff _ _).mp (by rw [h]; rfl))))
        obtain ⟨v', hv'⟩ := tr hv
        obtain ⟨w', hw'⟩ := tr hw
        exact hA i j v' w' hv' hw' hij hi
      exact cleanup_ren hV hE hX hR hE' hX' hR' hA1.noChains k3 _ _ hcl hcl' rfl rfl
    · rw [if_neg hm] at hcl hcl'
      simp only [Except.ok.injEq, Prod.mk.injEq, and_true] at hcl hcl'
      rw [← hcl, ← hcl']; exact k3
  obtain ⟨hs2, m, t, x, c, hm, hr, e⟩ := k4
  subst e
  rw [ho, ho']
  refine ⟨renamed_of_ren k1 ⟨hs2, m, t, x, c, hm, hr, rfl⟩, ?_⟩
  rw [hn, hn']; rfl

/-- **C107**, slots without cleanup: no condition on the chain at all. -/
theorem C107_slot_without_cleanup (hV : RenamedChain π V V' K K')
    (hE : ValidEnv E) (hX : ExactEnv E) (hR : ReadsChain V K E)
    (hE' : ValidEnv E') (hX' : ExactEnv E') (hR' : ReadsChain V' K' E')
    {o o' o1 o1' : Oracle} {b : FullBlock} {n n' : Nat} (hs : MapOK o.st) (hs' : MapOK o'.st)
    (hren : Renamed π o o') (hn : n % 1200 ≠ 0)
    (h : advanceState E o b = .ok (o1, some n)) (h' : advanceState E' o' (b.ren π) = .ok (o1', some n')) :
    Renamed π o1 o1' ∧ n' = n :=
  C107_slot_partial hV hE hX hR hE' hX' hR' hs hs' hren (fun e => absurd e hn) h h'

/-- **C107** (partial) for whole histories: after any number of slots the books are the same with the other
numbers. -/
theorem C107_history_partial (hV : RenamedChain π V V' K K')
    (hE : ValidEnv E) (hX : ExactEnv E) (hR : ReadsChain V K E)
    (hE' : ValidEnv E') (hX' : ExactEnv E') (hR' : ReadsChain V' K' E')
    {bs : List FullBlock} {o o' o1 o1' : Oracle} (hA : ∀ n, n % 1200 = 0 → TrackedTargets V K n o1.st)
    (hs : MapOK o.st) (hs' : MapOK o'.st) (hren : Renamed π o o')
    (h : Hist E o bs o1) (h' : Hist E' o' (bs.map (·.ren π)) o1') : Renamed π o1 o1' := by
  induction h generalizing o' with
  | nil => cases h'; exact hren
  | cons ha hr ih =>
    cases h' with
    | cons ha' hr' =>
      have hm := (slot_remembers hE hX hs ha).1
      have hA1 := fun m hm' => TrackedTargets.before hE hX hm hr (hA m hm')
      exact ih hA hm (slot_remembers hE' hX' hs' ha').1
        (C107_slot_partial hV hE hX hR hE' hX' hR' hs hs' hren (hA1 _) ha ha').1 hr'

theorem vals_ren {m m' : VMap} (hs : Sorted m) (hs' : Sorted m') (h : RenM π m m') :
    m'.Perm (m.map fun p => (π p.1, p.2.ren π)) := by
  have nd : ∀ {a : VMap}, Sorted a → a.Nodup := fun ha => List.Nodup.of_map _ ha.nodup_keys
  have inj : Function.Injective fun p : Nat × Validator => (π p.1, p.2.ren π) := by
    rintro ⟨i, v⟩ ⟨j, w⟩ e
    simp only [Prod.mk.injEq, EmbeddingLike.apply_eq_iff_eq] at e
    obtain ⟨rfl, e⟩ := e
    have : v = w := by
      cases v; cases w
      simpa [Validator.ren] using e
    rw [this]
  refine (List.perm_ext_iff_of_nodup (nd hs') ((nd hs).map inj)).mpr ?_
  rintro ⟨j, w⟩
  obtain ⟨i, rfl⟩ := π.surjective j
  rw [hs'.mem_iff, h i, Option.map_eq_some_iff, List.mem_map]
  constructor
  · rintro ⟨v, hv, rfl⟩
    exact ⟨(i, v), hs.mem_iff.mpr hv, rfl⟩
  · rintro ⟨⟨k, v⟩, hk, e⟩
    simp only [Prod.mk.injEq, EmbeddingLike.apply_eq_iff_eq] at e
    obtain ⟨rfl, rfl⟩ := e
    exact ⟨v, hs.mem_iff.mp hk, rfl⟩

theorem Renamed.sameDebts {o o' : Oracle} (h : Renamed π o o') (hs : MapOK o.st) (hs' : MapOK o'.st) :
    SameDebts o.st o'.st := by
  have hp := vals_ren hs hs' h.vals
  refine ⟨?_, ?_, fun a => ?_, fun a => ?_⟩
  · have := congrArg State.poolFeesAddr h.rest
    exact congrArg lower this
  · have := congrArg State.poolFees h.rest
    exact this
  · unfold debtOf
    rw [((hp.filter _).map _).sum_eq, List.filter_map, List.map_map]
    rfl
  · constructor
    · rintro ⟨p, hp', e⟩
      obtain ⟨q, hq, rfl⟩ := List.mem_map.mp (hp.mem_iff.mp hp')
      exact ⟨q, hq, e⟩
    · rintro ⟨q, hq, e⟩
      exact ⟨_, hp.mem_iff.mpr (List.mem_map.mpr ⟨q, hq, rfl⟩), e⟩

/-- **C107.** The numbers of the validators do not reach the contract: the checkpoints of books that differ by the
numbers have the same root, leaves and proofs. -/
theorem C107_same_root {H : List Nat → List Nat} (hE : ValidEnv E) (hE' : ValidEnv E') {o o' : Oracle}
    {u u' : State} {f f' : Frozen} (hs : MapOK o.st) (hs' : MapOK o'.st) (hk : KeysOK o.st) (hk' : KeysOK o'.st)
    (hren : Renamed π o o') (h : freeze H E o.st = .ok (u, true)) (h' : freeze H E' o'.st = .ok (u', true))
    (hf : (o.st.latestSlot, f) ∈ u.committed) (hf' : (o'.st.latestSlot, f') ∈ u'.committed) :
    f'.root = f.root ∧ f'.leafs = f.leafs ∧ f'.proofs = f.proofs :=
  C29_same_debts_same_root hE hE' hk hk' (hren.sameDebts hs hs') h h' hf hf'

end

namespace Sample

/-- everything iterates in storage order, over the given chain -/
def chainEnv (V : Nat → Nat → BVal) (K : Nat → List (Nat × Nat)) : Env :=
  { perm := fun _ n => List.range n
    node := fun _ slot req => some (req.dedup.map (V slot))
    consol := fun _ slot => some (K slot) }

/-- the chain of `leftV` with other numbers -/
def leftV' (π : Nat ≃ Nat) (slot i : Nat) : BVal := (leftV slot (π.symm i)).ren π

/-- its consolidations -/
def leftK' (π : Nat ≃ Nat) (j slot : Nat) : List (Nat × Nat) := (leftK j slot).map fun p => (π p.1, π p.2)

theorem left_renamed (π j) : RenamedChain π leftV (leftV' π) (leftK j) (leftK' π j) where
  vals := fun slot i => by simp [leftV']
  consol := fun _ => rfl

theorem leftV'_index (π slot i) : (leftV' π slot i).index = i := by
  simp [leftV', BVal.ren, leftV_index]

theorem chain_valid {V : Nat → Nat → BVal} (hV : ∀ s i, (V s i).index = i) (K) : ValidEnv (chainEnv V K) where
  perm := fun _ _ => List.Perm.refl _
  nodup := by
    intro t slot req r h
    simp only [chainEnv, Option.some.injEq] at h
    rw [← h, List.map_map]
    have : ((fun v : BVal => v.index) ∘ V slot) = id := by funext i; exact hV slot i
    rw [this, List.map_id]
    exact List.nodup_dedup _

theorem chain_exact {V : Nat → Nat → BVal} (hV : ∀ s i, (V s i).index = i) (K) : ExactEnv (chainEnv V K) := by
  intro t slot req r h v hv
  simp only [chainEnv, Option.some.injEq] at h
  rw [← h] at hv
  obtain ⟨i, hi, rfl⟩ := List.mem_map.mp hv
  rw [hV]; exact List.mem_dedup.mp hi

theorem chain_reads {V : Nat → Nat → BVal} (hV : ∀ s i, (V s i).index = i) (K) : ReadsChain V K (chainEnv V K) where
  node := by
    intro t slot req r h v hv
    simp only [chainEnv, Option.some.injEq] at h
    rw [← h] at hv
    obtain ⟨i, hi, rfl⟩ := List.mem_map.mp hv
    rw [hV]
  consol := by
    intro t slot cs h
    simp only [chainEnv, Option.some.injEq] at h
    exact h.symm

/-- validators 3 and 9 exchange their numbers -/
abbrev swap39 : Nat ≃ Nat := Equiv.swap 3 9

/-- the books of `leftOracle` with the numbers 3 and 9 exchanged -/
def leftOracle' : Oracle :=
  ⟨cfg, { leftOracle.st with
    vals := [(1, val 1 .active 10000 5), (2, val 2 .yellowCard 20000 6), (3, { val 9 .active 900 10 with index := 3 }),
      (4, val 4 .banned 0 8), (5, val 5 .notSubscribed 0 9), (9, { val 3 .redCard 300 7 with index := 9 })] }⟩

theorem leftOracle'_ok : MapOK leftOracle'.st := by unfold MapOK; decide

theorem left_books : Renamed swap39 leftOracle leftOracle' where
  cfg := rfl
  vals := by
    intro i
    by_cases h : i < 10
    · revert h; revert i; decide
    · have e : swap39 i = i := Equiv.swap_apply_of_ne_of_ne (by omega) (by omega)
      rw [e]
      have k : ∀ m : VMap, (∀ p ∈ m, p.1 < 10) → VMap.get m i = none := by
        intro m hm
        cases hg : VMap.get m i with
        | none => rfl
        | some v => exact absurd (hm _ (mem_of_get hg)) h
      rw [k _ (by decide), k _ (by decide)]
      rfl
  rest := rfl

end Sample

/-- The theorem applies at a cleanup slot with two leavers, 9 (consolidated into the active validator 1) and 3, that
exchange their numbers. -/
example : ∃ o1 o1', advanceState (Sample.chainEnv Sample.leftV (Sample.leftK 1)) Sample.leftOracle
      (Sample.miss 12000000 2) = .ok (o1, some 12000000) ∧
    advanceState (Sample.chainEnv (Sample.leftV' Sample.swap39) (Sample.leftK' Sample.swap39 1)) Sample.leftOracle'
      ((Sample.miss 12000000 2).ren Sample.swap39) = .ok (o1', some 12000000) ∧ Renamed Sample.swap39 o1 o1' := by
  obtain ⟨⟨o1, m⟩, h, hm⟩ := Sample.ex_ok
    (x := advanceState (Sample.chainEnv Sample.leftV (Sample.leftK 1)) Sample.leftOracle (Sample.miss 12000000 2))
    (P := fun p => p.2 == some 12000000) (by decide +kernel)
  simp only [beq_iff_eq] at hm; subst hm
  obtain ⟨⟨o1', m⟩, h', hm⟩ := Sample.ex_ok
    (x := advanceState (Sample.chainEnv (Sample.leftV' Sample.swap39) (Sample.leftK' Sample.swap39 1))
      Sample.leftOracle' ((Sample.miss 12000000 2).ren Sample.swap39))
    (P := fun p => p.2 == some 12000000) (by decide +kernel)
  simp only [beq_iff_eq] at hm; subst hm
  refine ⟨o1, o1', h, h', (C107_slot_partial (Sample.left_renamed _ 1)
    (Sample.chain_valid Sample.leftV_index _) (Sample.chain_exact Sample.leftV_index _)
    (Sample.chain_reads Sample.leftV_index _)
    (Sample.chain_valid (Sample.leftV'_index _) _) (Sample.chain_exact (Sample.leftV'_index _) _)
    (Sample.chain_reads (Sample.leftV'_index _) _) Sample.st_ok Sample.leftOracle'_ok Sample.left_books
    (fun _ => ?_) h h').1⟩
  refine ActiveTargets.tracked ?_ _
  intro p hp _
  simp only [Sample.leftK, List.mem_singleton] at hp
  subst hp; rfl

/-- A whole history from an empty pool: the validators 1 and 2 of the four sample blocks exchange their numbers. -/
example : ∃ o1 o1', Hist (Sample.chainEnv Sample.leftV (Sample.leftK 1)) (newOracle Sample.cfg) Sample.blocks o1 ∧
    Hist (Sample.chainEnv (Sample.leftV' (Equiv.swap 1 2)) (Sample.leftK' (Equiv.swap 1 2) 1)) (newOracle Sample.cfg)
      (Sample.blocks.map (·.ren (Equiv.swap 1 2))) o1' ∧ Renamed (Equiv.swap 1 2) o1 o1' ∧ o1.st.vals.length = 2 := by
  obtain ⟨o1, h, hl⟩ := Sample.ex_hist (E := Sample.chainEnv Sample.leftV (Sample.leftK 1)) (o := newOracle Sample.cfg)
    (bs := Sample.blocks) (P := fun o => o.st.vals.length == 2) (by decide +kernel)
  obtain ⟨o1', h', _⟩ := Sample.ex_hist
    (E := Sample.chainEnv (Sample.leftV' (Equiv.swap 1 2)) (Sample.leftK' (Equiv.swap 1 2) 1))
    (o := newOracle Sample.cfg) (bs := Sample.blocks.map (·.ren (Equiv.swap 1 2))) (P := fun _ => true)
    (by decide +kernel)
  have hnil : MapOK (newOracle Sample.cfg).st := by unfold MapOK newOracle; exact List.Pairwise.nil
  refine ⟨o1, o1', h, h', C107_history_partial (Sample.left_renamed _ 1)
    (Sample.chain_valid Sample.leftV_index _) (Sample.chain_exact Sample.leftV_index _)
    (Sample.chain_reads Sample.leftV_index _)
    (Sample.chain_valid (Sample.leftV'_index _) _) (Sample.chain_exact (Sample.leftV'_index _) _)
    (Sample.chain_reads (Sample.leftV'_index _) _) (fun n _ => ?_) hnil hnil ⟨rfl, fun _ => rfl, rfl⟩ h h',
    by simpa using hl⟩
  refine ActiveTargets.tracked ?_ _
  intro p hp _
  simp only [Sample.leftK, List.mem_singleton] at hp
  subst hp; rfl

/-- checkpoints of the two books of the first example -/
example : ∃ u u' : State, ∃ f f' : Frozen, freeze Sample.hash Sample.env Sample.leftOracle.st = .ok (u, true) ∧
    freeze Sample.hash Sample.env Sample.leftOracle'.st = .ok (u', true) ∧
    (Sample.leftOracle.st.latestSlot, f) ∈ u.committed ∧ (Sample.leftOracle'.st.latestSlot, f') ∈ u'.committed ∧
    f'.root = f.root := by
  obtain ⟨⟨u, r⟩, h, h2⟩ := Sample.ex_ok (x := freeze Sample.hash Sample.env Sample.leftOracle.st)
    (P := fun r => r.2 && r.1.committed.any fun p => p.1 == Sample.leftOracle.st.latestSlot) (by decide +kernel)
  obtain ⟨⟨u', r'⟩, h', h2'⟩ := Sample.ex_ok (x := freeze Sample.hash Sample.env Sample.leftOracle'.st)
    (P := fun r => r.2 && r.1.committed.any fun p => p.1 == Sample.leftOracle'.st.latestSlot) (by decide +kernel)
  simp only [Bool.and_eq_true, List.any_eq_true, beq_iff_eq] at h2 h2'
  obtain ⟨rfl, ⟨k, f⟩, hf, rfl⟩ := h2
  obtain ⟨rfl, ⟨k', f'⟩, hf', e⟩ := h2'
  dsimp only at e
  subst e
  have hk : ∀ o : Oracle, o.st.committed = [] → KeysOK o.st := by
    intro o e; unfold KeysOK; rw [e]; exact List.Pairwise.nil
  exact ⟨u, u', f, f', h, h', hf, hf', (C107_same_root Sample.env_valid Sample.env_valid Sample.st_ok
    Sample.leftOracle'_ok (hk _ rfl) (hk _ rfl) Sample.left_books h h' hf hf').1⟩

/-- **C107 is false in general**, even if the program walked its maps in ascending order: validator 9 has left and is
being consolidated into validator 3, which has left too. The cleanup visits 3 first, and 3 then keeps what 9 had.
If the two exchange their numbers, the balance is moved first and then shared among everybody. -/
theorem C107_false_consolidation_chain :
    ∃ o1 o1', RenamedChain Sample.swap39 Sample.leftV (Sample.leftV' Sample.swap39) (Sample.leftK 3)
        (Sample.leftK' Sample.swap39 3) ∧ Renamed Sample.swap39 Sample.leftOracle Sample.leftOracle' ∧
      advanceState (Sample.chainEnv Sample.leftV (Sample.leftK 3)) Sample.leftOracle (Sample.miss 12000000 2) =
        .ok (o1, some 12000000) ∧
      advanceState (Sample.chainEnv (Sample.leftV' Sample.swap39) (Sample.leftK' Sample.swap39 3)) Sample.leftOracle'
        ((Sample.miss 12000000 2).ren Sample.swap39) = .ok (o1', some 12000000) ∧
      ((VMap.get o1.st.vals 3).map (·.pend)) = some 900 ∧
      ((VMap.get o1'.st.vals 9).map (·.pend)) = some 0 ∧ ¬ Renamed Sample.swap39 o1 o1' := by
  obtain ⟨⟨o1, m⟩, h, hm⟩ := Sample.ex_ok
    (x := advanceState (Sample.chainEnv Sample.leftV (Sample.leftK 3)) Sample.leftOracle (Sample.miss 12000000 2))
    (P := fun p => p.2 == some 12000000 && ((VMap.get p.1.st.vals 3).map (·.pend)) == some 900)
    (by decide +kernel)
  obtain ⟨⟨o1', m'⟩, h', hm'⟩ := Sample.ex_ok
    (x := advanceState (Sample.chainEnv (Sample.leftV' Sample.swap39) (Sample.leftK' Sample.swap39 3))
      Sample.leftOracle' ((Sample.miss 12000000 2).ren Sample.swap39))
    (P := fun p => p.2 == some 12000000 && ((VMap.get p.1.st.vals 9).map (·.pend)) == some 0)
    (by decide +kernel)
  simp only [beq_iff_eq, Bool.and_eq_true] at hm hm'
  obtain ⟨rfl, hm⟩ := hm
  obtain ⟨rfl, hm'⟩ := hm'
  refine ⟨o1, o1', Sample.left_renamed _ 3, Sample.left_books, h, h', hm, hm', ?_⟩
  intro k
  have e := k.vals 3
  have s : Sample.swap39 3 = 9 := by decide
  rw [s] at e
  rw [e, Option.map_map] at hm'
  have : ((fun v : Validator => v.pend) ∘ fun v : Validator => v.ren Sample.swap39) = fun v => v.pend := rfl
  rw [this, hm] at hm'
  simp at hm'

end Verif
